import Verif.CompactSpec2
import Verif.WorldVec
/-
  compact_vector as a container type of the client programs of `World.lean`.
-/

set_option linter.unusedSimpArgs false

namespace Sfl
open Sfl.Vector (VM)
open World
variable {α : Type}

namespace CompactVector

/-! ### Two containers -/

section two
variable {E : Env α} {H : Heap α} {m : St α} {v1 v2 : Vec} {al al1 al2 b b1 b2 : Nat} {xs xs1 xs2 : List α} {o : Obj Vec α}

theorem propagate_spec {al' : Nat} {flag : Bool} (h : CSt H E o al b xs) :
    wp (CompactVector.propagate flag al' : VM α Unit)
      (fun _ o' => ∃ b' xs', CSt H E o' (if flag = true then al' else al) b' xs' ∧
        (flag = false ∨ al = al' → xs' = xs ∧ b' = b))
      (fun _ _ => False) o := by
  unfold CompactVector.propagate
  simp only [wp_bind, wp_getObj, wp_ite, wp_pure, wp_setObj]
  cases flag with
  | false => exact ⟨b, xs, by simpa using h, fun _ => ⟨rfl, rfl⟩⟩
  | true =>
    rw [if_pos rfl]
    have hal : o.obj.alloc = al := by rw [h.obj]
    by_cases he : al = al'
    · rw [if_neg (by rw [hal]; simpa using he)]
      refine ⟨b, xs, ?_, fun _ => ⟨rfl, rfl⟩⟩
      have : ({ o.obj with alloc := al' } : Vec) = o.obj := by rw [h.obj, he]
      rw [this]
      simpa [he] using h
    · rw [if_pos (by rw [hal]; exact he)]
      refine wp_mono (clear_spec h) ?_ (fun _ _ h => h)
      intro _ o1 k
      have k1 : CSt H E o1 al 0 [] := emptied k
      have k2 := k1.toOwn.realloc (Or.inr rfl) al'
      have k3 : CSt H E _ al' 0 [] := k2.vst k1.st.wf k1.rest
      exact ⟨0, [], k3, by simp [he]⟩

/-- Two compact vectors. -/
abbrev CPair (H : Heap α) (E : Env α) (m : St α) (v1 v2 : Vec) (al1 b1 : Nat) (xs1 : List α) (al2 b2 : Nat)
    (xs2 : List α) : Prop := Pair H E 0 0 0 m v1 v2 al1 b1 xs1.length xs1 al2 b2 xs2.length xs2

/-- `initialize_move`. -/
theorem initMove_spec (h : CPair H E m (CompactVector.empty al1) v2 al1 0 [] al2 b2 xs2) :
    wp (CompactVector.initMove E)
      (fun _ o' => ∃ b1' b2' ys, CPair H E o'.m o'.obj.1 o'.obj.2 al1 b1' xs2 al2 b2' ys ∧
        (if al1 = al2 then ys = [] else ys = xs2.map E.moved))
      (fun _ o' => ∃ ys, CPair H E o'.m (CompactVector.empty al1) o'.obj.2 al1 0 [] al2 b2 ys ∧ ys.length = xs2.length)
      ⟨(CompactVector.empty al1, v2), m⟩ := by
  unfold CompactVector.initMove
  rw [wp_bind, wp_getObj]
  simp only [wp_ite, wp_bind, wp_setObj]
  have hobj := h.two.obj
  have hf : v2.first = ⟨b2, 0⟩ := by rw [hobj]
  have hl : v2.last = ⟨b2, xs2.length⟩ := by rw [hobj]
  rw [hf, hl]
  by_cases hal : al1 = al2
  · rw [if_pos (by rw [hobj]; exact hal)]
    exact ⟨b2, 0, [], h.steal (Or.inl rfl) id hal, by rw [if_pos hal]⟩
  · rw [if_neg (by rw [hobj]; exact hal)]
    refine wp_distance rfl (by simp) ?_
    simp only [Nat.sub_zero, wp_onThis]
    refine wp_mono (initWith_move_spec (h.vst1.gone ⟨rfl, rfl⟩) h.source) ?_ ?_
    · rintro _ o' ⟨b', H', k1, k2⟩
      have k := h.stepMoved k1 k2
      have e : xs2.length = (xs2.map E.moved).length := by simp
      exact ⟨b', b2, xs2.map E.moved, by rw [CPair, ← e]; exact k, by rw [if_neg hal]⟩
    · rintro e o' ⟨H', k1, k2⟩
      obtain ⟨ys, e1, e2⟩ := h.stepDisturbed k1 (k2.empty (Nat.zero_le _))
      rw [← e1] at e2
      exact ⟨ys, e2, e1⟩

/-- `assign_copy`. -/
theorem assignCopy_spec {T : Traits} (h : CPair H E m v1 v2 al1 b1 xs1 al2 b2 xs2)
    (hs : Calm E xs2.length ∨ (xs2.length = xs1.length ∧ (T.pocca = false ∨ al1 = al2))) :
    wp (CompactVector.assignCopy E T v2)
      (fun _ o' => ∃ b1', CSt (Heap.but m b1 0) E o' (if T.pocca = true then al2 else al1) b1' xs2)
      (fun _ o' => ∃ b1' xs1', CSt (Heap.but m b1 0) E o' (if T.pocca = true then al2 else al1) b1' xs1')
      ⟨v1, m⟩ := by
  unfold CompactVector.assignCopy
  rw [wp_bind]
  have hal : v2.alloc = al2 := by rw [h.two.obj]
  rw [hal]
  refine wp_mono (propagate_spec h.vst1) ?_ (fun _ _ h => h.elim)
  rintro _ ⟨w1, m1⟩ ⟨c1, ys, k1, k2⟩
  rw [wp_bind, h.two.obj]
  refine wp_distance rfl (by simp) ?_
  simp only [Nat.sub_zero]
  have hsafe : Safe E ys.length xs2.length := by
    rcases hs with h' | ⟨h1, h2⟩
    · exact Or.inr h'
    · rw [(k2 h2).1]; exact Or.inl h1
  refine wp_mono (assignRange_spec k1 h.exts hsafe) ?_ ?_
  · rintro _ o' ⟨b', k2⟩
    exact ⟨b', k2⟩
  · rintro _ o' ⟨xs', k2, -⟩
    exact ⟨_, xs', k2⟩

/-- `assign_move`. -/
theorem assignMove_spec {T : Traits} (h : CPair H E m v1 v2 al1 b1 xs1 al2 b2 xs2)
    (hs : T.pocma = true ∨ al1 = al2 ∨ Safe E xs1.length xs2.length) :
    wp (CompactVector.assignMove E T)
      (fun _ o' => ∃ b1' b2' ys, CPair H E o'.m o'.obj.1 o'.obj.2 (if T.pocma = true then al2 else al1) b1' xs2 al2 b2' ys ∧
        (if T.pocma = true ∨ al1 = al2 then ys = [] else ys = xs2.map E.moved))
      (fun _ o' => ∃ b1' xs1' ys, CPair H E o'.m o'.obj.1 o'.obj.2 (if T.pocma = true then al2 else al1) b1' xs1' al2 b2 ys ∧
        ys.length = xs2.length)
      ⟨(v1, v2), m⟩ := by
  unfold CompactVector.assignMove
  rw [wp_bind, wp_getObj, wp_bind, wp_onThis]
  have hal : v2.alloc = al2 := by rw [h.two.obj]
  simp only
  rw [hal]
  refine wp_mono (propagate_spec h.vst1) ?_ (fun _ _ h => h.elim)
  rintro _ ⟨w1, m1⟩ ⟨c1, ys, k1, k0⟩
  have h1 := h.step k1
  have hsafe : ¬ (T.pocma = true ∨ al1 = al2) → Safe E ys.length xs2.length := by
    intro hn
    rcases hs with h' | h' | h'
    · exact absurd (Or.inl h') hn
    · exact absurd (Or.inr h') hn
    · rw [(k0 (Or.inl (by simpa using fun e => hn (Or.inl e)))).1]; exact h'
  have hq : (if T.pocma = true then al2 else al1) = al2 ↔ T.pocma = true ∨ al1 = al2 := by
    split <;> simp_all
  generalize (if T.pocma = true then al2 else al1) = al1' at h1 k1 hq ⊢
  rw [wp_bind, wp_getObj]
  simp only [wp_ite, wp_bind, wp_onThis]
  have hobj := h1.two.obj
  have hf : v2.first = ⟨b2, 0⟩ := by rw [hobj]
  have hl : v2.last = ⟨b2, xs2.length⟩ := by rw [hobj]
  have hw1 : w1.alloc = al1' := by rw [h1.one.obj]
  rw [hf, hl]
  by_cases he : al1' = al2
  · rw [if_pos (by rw [hw1, hal]; exact he)]
    refine wp_mono (clear_spec h1.vst1) ?_ (fun _ _ h => h.elim)
    intro _ o1 k2
    have k2' : CSt _ E o1 al1' 0 [] := emptied k2
    have h2 := h1.step k2'
    exact ⟨b2, 0, [], h2.steal (Or.inr rfl) id he, by rw [if_pos (hq.mp he)]⟩
  · rw [if_neg (by rw [hw1, hal]; exact he)]
    have hn : ¬ (T.pocma = true ∨ al1 = al2) := fun h => he (hq.mpr h)
    refine wp_distance rfl (by simp) ?_
    refine wp_mono (assignRange_move_spec h1.vst1 h1.source (hsafe hn)) ?_ ?_
    · rintro _ o' ⟨b', H', k2, k3⟩
      have k := h1.stepMoved k2 k3
      have e : xs2.length = (xs2.map E.moved).length := by simp
      exact ⟨b', b2, xs2.map E.moved, by rw [CPair, ← e]; exact k, by rw [if_neg hn]⟩
    · rintro _ o' ⟨xs', H', k2, k3⟩
      obtain ⟨zs, e1, e2⟩ := h1.stepDisturbed k2 k3
      rw [← e1] at e2
      exact ⟨_, xs', zs, e2, e1⟩

/-- `swap`. -/
theorem swap_spec {T : Traits} (h : CPair H E m v1 v2 al1 b1 xs1 al2 b2 xs2) (hT : T.pocs = true ∨ al1 = al2) :
    wp (CompactVector.swap T)
      (fun _ o' => ∃ b1' b2', CPair H E o'.m o'.obj.1 o'.obj.2 al2 b1' xs2 al1 b2' xs1) (fun _ _ => False)
      ⟨(v1, v2), m⟩ := by
  unfold CompactVector.swap
  rw [wp_bind]
  refine wp_mono (swapAlloc_spec h hT) ?_ (fun _ _ h => h.elim)
  rintro _ _ rfl
  rw [wp_bind, wp_getObj, wp_setObj]
  exact ⟨b2, b1, heap_heap h id id⟩

end two

/-! ### The public interface -/

/-- The public modifiers of compact_vector (compact_vector.hpp:220-907), dispatched on the operation. There is no
`reserve` and no `shrink_to_fit`. -/
def exec (E : Env α) : Sq.Op α → VM α (Option Nat)
  | .pushBack s => do
    let a ← Vector.argOf s
    let p ← CompactVector.emplaceBack E a
    Vector.indexOf p
  | .emplace k s => do
    let a ← Vector.argOf s
    let pos ← Vector.nth k
    let p ← CompactVector.emplace E pos a
    Vector.indexOf p
  | .insertN k n s => do
    let a ← Vector.argOf s
    let pos ← Vector.nth k
    let p ← CompactVector.insertFillN E pos n a
    Vector.indexOf p
  | .insertRange k ys => do
    let pos ← Vector.nth k
    let p ← CompactVector.insertRange E pos ys
    Vector.indexOf p
  | .insertInput k ys => do
    let pos ← Vector.nth k
    let p ← CompactVector.insertRangeInput E pos ys
    Vector.indexOf p
  | .popBack => do
    CompactVector.popBack E
    pure none
  | .eraseAt k => do
    let pos ← Vector.nth k
    let p ← CompactVector.eraseAt E pos
    Vector.indexOf p
  | .eraseRange k l => do
    let f ← Vector.nth k
    let l ← Vector.nth l
    let p ← CompactVector.eraseRange E f l
    Vector.indexOf p
  | .resize n => do
    CompactVector.resize E n
    pure none
  | .resizeV n s => do
    let a ← Vector.argOf s
    CompactVector.resizeWith E n a
    pure none
  | .assignN n v => do
    CompactVector.assignFillN E n (.val v)
    pure none
  | .assignRange ys => do
    CompactVector.assignRange E (ys.map .val)
    pure none
  | .assignInput ys => do
    CompactVector.assignRangeInput E (ys.map .val)
    pure none
  | .clear => do
    CompactVector.clear
    pure none
  | .reserve _ => M.undef .assertFailed
  | .shrinkToFit => M.undef .assertFailed
  | .eraseIf f => do
    let n ← CompactVector.eraseIf E f
    pure (some n)

/-- The constructors of compact_vector without a source container: compact_vector.hpp:105-172. -/
def construct (E : Env α) : Sq.Init α → VM α Unit
  | .empty => pure ()
  | .count n => CompactVector.initWith E (List.replicate n (.val E.dflt))
  | .fill n v => CompactVector.initWith E (List.replicate n (.val v))
  | .range ys => CompactVector.initWith E (ys.map .val)
  | .input ys => CompactVector.initRangeInput E ys

/-- compact_vector as a container type (public functions of compact_vector.hpp:105-936). -/
def cont (K : Nat) (E : Env α) (T : Traits) : Cont K (Sq.Op α) (Sq.Init α) Vec α Nat where
  alloc := Vec.alloc
  blank := fun _ al => CompactVector.empty al
  make := fun _ init => CompactVector.construct E init
  copyInit := fun _ w => CompactVector.initCopy E w
  moveInit := fun _ _ => CompactVector.initMove E
  destroy := fun _ => CompactVector.destructor
  size := CompactVector.size
  index := CompactVector.index
  exec := fun _ => CompactVector.exec E
  assignCopy := fun _ _ w => CompactVector.assignCopy E T w
  assignMove := fun _ _ => CompactVector.assignMove E T
  swap := fun _ _ => CompactVector.swap T

/-! ### Abstract meaning -/

/-- Which operations a client calls on a compact vector of size `n`: the documented preconditions, without the two cases
in which the code is wrong. `resize(n, value)` with `value` an element of the container is only called if it does not
grow the container or if reallocation copies. If something may throw (`quiet = false`), `assign` is only called for as
many elements as there are, or for none. -/
def pre (E : Env α) (quiet : Bool) (n : Nat) : Sq.Op α → Bool
  | .reserve _ => false
  | .shrinkToFit => false
  | .resizeV m (.elem i) => decide (i < n) && (decide (m ≤ n) || (!E.nothrowMoveCtor && E.copyable))
  | .assignN m _ => quiet || decide (m = n) || decide (m = 0)
  | .assignRange ys => quiet || decide (ys.length = n) || decide (ys.length = 0)
  | op => op.pre n

/-- Operations without effect if they throw, for elements that are nothrow move constructible or copyable. -/
def strong : Sq.Op α → Bool
  | .pushBack _ => true
  | .emplace _ _ => true
  | .insertN _ _ _ => true
  | .popBack => true
  | .eraseAt _ => true
  | .eraseRange _ _ => true
  | _ => false

/-- Operations without effect if they throw, for elements that are copied by a reallocation. -/
def strongCopy : Sq.Op α → Bool
  | .resize _ => true
  | .resizeV _ _ => true
  | .insertRange _ _ => true
  | _ => false

/-- What may remain after an operation of compact_vector has thrown `e`. -/
structure Failure (E : Env α) (xs : List α) (op : Sq.Op α) (e : Exn) (xs' : List α) : Prop where
  can : op ≠ .clear
  len : e = .lengthError → E.maxSize < op.room xs.length
  strong : Strong E → strong op = true → xs' = xs
  copies : Copies E → strongCopy op = true → xs' = xs
  size : (∀ ys, op ≠ .assignInput ys) → (∀ k ys, op ≠ .insertInput k ys) → xs'.length = xs.length

/-- Abstract meaning of compact_vector. Assignment between containers is restricted like `assign`. -/
def sem (E : Env α) (T : Traits) (quiet : Bool) : Sem (Sq.Op α) (Sq.Init α) α Nat where
  pre := pre E quiet
  okStep := Sq.okStep E
  failStep := Failure E
  init := fun i xs => xs = i.result E.dflt
  initFail := fun i e => e = .lengthError → E.maxSize < (i.result E.dflt).length
  left := fun eq xs ys => if eq = true then ys = [] else ys = xs.map E.moved
  moveFail := fun xs ys => ys.length = xs.length
  assignFail := fun _ => True
  swapFail := fun _ _ _ _ => False
  swapPre := fun a b => T.pocs || a == b
  copyPre := fun ai aj n k => quiet || decide (k = 0) || (decide (k = n) && (!T.pocca || ai == aj))
  movePre := fun ai aj n k => T.pocma || ai == aj || quiet || decide (k = 0) || decide (k = n)
  T := T

/-! ### Correctness -/

section
variable {E : Env α} {H : Heap α} {al b : Nat} {xs : List α} {o : Obj Vec α} {quiet : Bool}

theorem Left.fail {P : Prop} {o' : Obj Vec α} {op : Sq.Op α} {e : Exn} (h : Left H E al b xs P o') (hc : op ≠ .clear)
    (hl : e = .lengthError → E.maxSize < op.room xs.length) (hs : Strong E → CompactVector.strong op = true → P)
    (hk : Copies E → strongCopy op = true → P) : ∃ b' xs', CSt H E o' al b' xs' ∧ Failure E xs op e xs' := by
  obtain ⟨xs', k1, k2, k3⟩ := h
  exact ⟨b, xs', k1, hc, hl, fun h1 h2 => k3 (hs h1 h2), fun h1 h2 => k3 (hk h1 h2), fun _ _ => k2⟩

theorem exec_spec (hq : quiet = true → ∀ t, E.throws t = false) (op : Sq.Op α) (h : CSt H E o al b xs)
    (hp : CompactVector.pre E quiet xs.length op = true) :
    wp (CompactVector.exec E op)
      (fun r o' => ∃ b' xs', CSt H E o' al b' xs' ∧ Sq.okStep E xs op r xs')
      (fun e o' => ∃ b' xs', CSt H E o' al b' xs' ∧ Failure E xs op e xs') o := by
  cases op with
  | pushBack s =>
    simp only [CompactVector.exec, wp_bind]
    refine wp_argOf h hp fun a v hg hv hsrc => ?_
    refine wp_mono (emplaceBack_spec h hv hsrc) ?_ ?_
    · rintro p o1 ⟨b1, k1, hp⟩
      exact wp_indexOf k1 hp ⟨b1, _, k1, ⟨v, hg, rfl⟩, rfl⟩
    · rintro e o1 ⟨k1, k2⟩
      exact Left.fail k1 (by simp) k2 (fun hE _ => hE) (fun hE _ => hE.strong)
  | emplace k s =>
    obtain ⟨hk, hs⟩ : k ≤ xs.length ∧ s.ok xs.length = true := by simpa [CompactVector.pre, Sq.Op.pre] using hp
    simp only [CompactVector.exec, wp_bind]
    refine wp_argOf h hs fun a v hg hv hsrc => wp_nth h ?_
    refine wp_mono (emplace_spec h hv hsrc hk) ?_ ?_
    · rintro p o1 ⟨b1, k1, hp⟩
      exact wp_indexOf k1 hp ⟨b1, _, k1, ⟨v, hg, by simp⟩, rfl⟩
    · rintro e o1 ⟨k1, k2⟩
      exact Left.fail k1 (by simp) k2 (fun hE _ => hE) (fun hE _ => hE.strong)
  | insertN k n s =>
    obtain ⟨hk, hs⟩ : k ≤ xs.length ∧ s.ok xs.length = true := by simpa [CompactVector.pre, Sq.Op.pre] using hp
    simp only [CompactVector.exec, wp_bind]
    refine wp_argOf h hs fun a v hg hv hsrc => wp_nth h ?_
    refine wp_mono (insertFillN_spec h hv hsrc hk) ?_ ?_
    · rintro p o1 ⟨b1, k1, hp⟩
      exact wp_indexOf k1 hp ⟨b1, _, k1, ⟨v, hg, by simp⟩, rfl⟩
    · rintro e o1 ⟨k1, k2⟩
      exact Left.fail k1 (by simp) k2 (fun hE _ => hE) (fun hE _ => hE.strong)
  | insertRange k ys =>
    have hk : k ≤ xs.length := by simpa [CompactVector.pre, Sq.Op.pre] using hp
    simp only [CompactVector.exec, wp_bind]
    refine wp_nth h ?_
    refine wp_mono (insertRange_spec h hk) ?_ ?_
    · rintro p o1 ⟨b1, k1, hp⟩
      exact wp_indexOf k1 hp ⟨b1, _, k1, rfl, rfl⟩
    · rintro e o1 ⟨k1, k2⟩
      exact Left.fail k1 (by simp) k2 (by simp [CompactVector.strong]) (fun hE _ => hE)
  | insertInput k ys =>
    have hk : k ≤ xs.length := by simpa [CompactVector.pre, Sq.Op.pre] using hp
    simp only [CompactVector.exec, wp_bind]
    refine wp_nth h ?_
    refine wp_mono (insertRangeInput_spec h hk) ?_ ?_
    · rintro p o1 ⟨b1, k1, hp⟩
      exact wp_indexOf k1 hp ⟨b1, _, k1, rfl, rfl⟩
    · rintro e o1 ⟨b1, xs', k1, k2, k3⟩
      exact ⟨b1, xs', k1, by simp, k3, by simp [CompactVector.strong], by simp [strongCopy], fun _ h => absurd rfl (h k ys)⟩
  | popBack =>
    have hk : 0 < xs.length := by simpa [CompactVector.pre, Sq.Op.pre] using hp
    simp only [CompactVector.exec, wp_bind, wp_pure]
    refine wp_mono (popBack_spec h hk) ?_ ?_
    · rintro p o1 ⟨b1, k1⟩
      exact ⟨b1, _, k1, rfl, rfl⟩
    · rintro e o1 ⟨k1, k2⟩
      exact Left.fail k1 (by simp) (fun h => absurd h k2) (fun hE _ => hE) (fun hE _ => hE.strong)
  | eraseAt k =>
    have hk : k < xs.length := by simpa [CompactVector.pre, Sq.Op.pre] using hp
    simp only [CompactVector.exec, wp_bind]
    refine wp_nth h ?_
    refine wp_mono (eraseAt_spec h hk) ?_ ?_
    · rintro p o1 ⟨b1, k1, hp⟩
      exact wp_indexOf k1 hp ⟨b1, _, k1, rfl, rfl⟩
    · rintro e o1 ⟨k1, k2⟩
      exact Left.fail k1 (by simp) (fun h => absurd h k2) (fun hE _ => hE) (fun hE _ => hE.strong)
  | eraseRange k l =>
    obtain ⟨hkl, hl⟩ : k ≤ l ∧ l ≤ xs.length := by simpa [CompactVector.pre, Sq.Op.pre] using hp
    simp only [CompactVector.exec, wp_bind]
    refine wp_nth h (wp_nth h ?_)
    refine wp_mono (eraseRange_spec h hkl hl) ?_ ?_
    · rintro p o1 ⟨b1, k1, hp⟩
      exact wp_indexOf k1 hp ⟨b1, _, k1, rfl, rfl⟩
    · rintro e o1 ⟨k1, k2, -⟩
      exact Left.fail k1 (by simp) (fun h => absurd h k2) (fun hE _ => hE) (fun hE _ => hE.strong)
  | resize n =>
    simp only [CompactVector.exec, wp_bind, wp_pure, CompactVector.resize]
    refine wp_mono (resizeWith_spec (v := E.dflt) h (fun _ _ _ => rfl) rfl) ?_ ?_
    · rintro p o1 ⟨b1, k1⟩
      exact ⟨b1, _, k1, rfl, rfl⟩
    · rintro e o1 ⟨k1, k2⟩
      exact Left.fail k1 (by simp) k2 (by simp [CompactVector.strong]) (fun hE _ => hE)
  | resizeV n s =>
    have main : ∀ a v, s.get? xs = some v → a.src E = none →
        (xs.length < n → ∀ s : St α, (Copies E → s.mem b = o.m.mem b) → a.value s = some v) →
        wp (CompactVector.resizeWith E n a)
          (fun _ o' => ∃ b' xs', CSt H E o' al b' xs' ∧ Sq.okStep E xs (.resizeV n s) none xs')
          (fun e o' => ∃ b' xs', CSt H E o' al b' xs' ∧ Failure E xs (.resizeV n s) e xs') o := by
      intro a v hg hsrc hv
      refine wp_mono (resizeWith_spec (v := v) h hv hsrc) ?_ ?_
      · rintro p o1 ⟨b1, k1⟩
        exact ⟨b1, _, k1, ⟨v, hg, rfl⟩, rfl⟩
      · rintro e o1 ⟨k1, k2⟩
        exact Left.fail k1 (by simp) k2 (by simp [CompactVector.strong]) (fun hE _ => hE)
    simp only [CompactVector.exec, wp_bind, wp_pure, Vector.argOf, wp_getObj]
    cases s with
    | value v => exact main _ v rfl rfl (fun _ _ _ => rfl)
    | rvalue v => exact main _ v rfl rfl (fun _ _ _ => rfl)
    | elem i =>
      obtain ⟨hi, hc⟩ : i < xs.length ∧ (n ≤ xs.length ∨ (E.nothrowMoveCtor = false ∧ E.copyable = true)) := by
        simpa [CompactVector.pre] using hp
      refine main _ xs[i] (by simp [Sq.Src.get?, hi]) rfl ?_
      intro hn s hs
      rcases hc with hc | hc
      · omega
      · rw [h.obj]
        simp only [Sq.Src.toArg, Arg.value, Ptr.add_blk, Ptr.add_off, Nat.zero_add]
        rw [hs hc, h.cells]; simp [hi]
  | assignN n v =>
    have hs : Safe E xs.length n := by
      have : (quiet = true ∨ n = xs.length) ∨ n = 0 := by simpa [CompactVector.pre] using hp
      rcases this with (h1 | h1) | h1
      · exact Or.inr (Or.inl (hq h1))
      · exact Or.inl h1
      · exact Or.inr (Or.inr h1)
    simp only [CompactVector.exec, wp_bind, wp_pure]
    refine wp_mono (assignFillN_spec h hs) ?_ ?_
    · rintro _ o1 ⟨b1, k1⟩
      exact ⟨b1, _, k1, rfl, rfl⟩
    · rintro e o1 ⟨xs', k1, k2, k3⟩
      exact ⟨b, xs', k1, by simp, k3, by simp [CompactVector.strong], by simp [strongCopy], fun _ _ => k2⟩
  | assignRange ys =>
    have hs : Safe E xs.length ys.length := by
      have : (quiet = true ∨ ys.length = xs.length) ∨ ys.length = 0 := by simpa [CompactVector.pre] using hp
      rcases this with (h1 | h1) | h1
      · exact Or.inr (Or.inl (hq h1))
      · exact Or.inl h1
      · exact Or.inr (Or.inr h1)
    simp only [CompactVector.exec, wp_bind, wp_pure]
    refine wp_mono (assignRange_spec h (Exts.vals ys) hs) ?_ ?_
    · rintro _ o1 ⟨b1, k1⟩
      exact ⟨b1, _, k1, rfl, rfl⟩
    · rintro e o1 ⟨xs', k1, k2, k3⟩
      exact ⟨b, xs', k1, by simp, k3, by simp [CompactVector.strong], by simp [strongCopy], fun _ _ => k2⟩
  | assignInput ys =>
    simp only [CompactVector.exec, wp_bind, wp_pure]
    refine wp_mono (assignRangeInput_spec h) ?_ ?_
    · rintro _ o1 ⟨b1, k1⟩
      exact ⟨b1, _, k1, rfl, rfl⟩
    · rintro e o1 ⟨b1, xs', k1, k3⟩
      exact ⟨b1, xs', k1, by simp, k3, by simp [CompactVector.strong], by simp [strongCopy], fun h _ => absurd rfl (h ys)⟩
  | clear =>
    simp only [CompactVector.exec, wp_bind, wp_pure]
    refine wp_mono (clear_spec h) ?_ (fun _ _ h => h.elim)
    intro _ o1 k
    exact ⟨0, [], emptied k, rfl, rfl⟩
  | reserve n => simp [CompactVector.pre] at hp
  | shrinkToFit => simp [CompactVector.pre] at hp
  | eraseIf f =>
    simp only [CompactVector.exec, wp_bind, wp_pure]
    refine wp_mono (eraseIf_spec h) ?_ ?_
    · rintro r o1 ⟨b1, k1, k2⟩
      refine ⟨b1, _, k1, rfl, ?_⟩
      rw [k2, Sq.Op.ret]
      congr 1
      have := xs.length_eq_countP_add_countP (p := f)
      rw [← List.countP_eq_length_filter]
      have e : List.countP (fun x => !f x) xs = List.countP (fun a => decide (¬ f a = true)) xs := by
        congr 1; funext x; cases f x <;> rfl
      omega
    · rintro e o1 ⟨xs', k1, k2, k3⟩
      exact ⟨b, xs', k1, by simp, fun h => absurd h k3, by simp [CompactVector.strong], by simp [strongCopy], fun _ _ => k2⟩

theorem construct_spec {m : St α} (init : Sq.Init α) (hg : Gone H al 0 0 m) :
    wp (CompactVector.construct E init) (fun _ o' => ∃ b', CSt H E o' al b' (init.result E.dflt))
      (fun e o' => Gone H al 0 0 o'.m ∧ (e = .lengthError → E.maxSize < (init.result E.dflt).length))
      ⟨CompactVector.empty al, m⟩ := by
  cases init with
  | empty => exact ⟨0, emptied ⟨rfl, hg⟩⟩
  | count n => exact initWith_spec hg (Exts.replicateVal n E.dflt)
  | fill n v => exact initWith_spec hg (Exts.replicateVal n v)
  | range ys => exact initWith_spec hg (Exts.vals ys)
  | input ys => exact initRangeInput_spec hg

end

/-- Ownership by a compact vector: one block with exactly as many cells as there are elements, or none. -/
def rep (K : Nat) (E : Env α) : Rep K Vec α where
  rep := fun _ m v al xs F => ∃ b, Own E 0 0 m v al b xs.length xs ∧ F = foot b 0
  raw := fun _ m => ((0 = 0 ∧ 0 = 0) ∨ m.blk 0 = some ⟨0, none⟩) ∧ ∀ k, m.mem 0 k = none
  dead := fun _ => foot 0 0

section
variable {K : Nat} {E : Env α} {T : Traits} {quiet : Bool} {m m' : St α}

theorem rep_sub {i : Fin K} {v : Vec} {al : Nat} {xs : List α} {F : Foot} (h : (rep K E).rep i m v al xs F) :
    (SmallVector.rep E (fun _ : Fin K => 0) 0).rep i m v al xs F := by
  obtain ⟨b, h, rfl⟩ := h
  exact ⟨b, _, h, rfl⟩

theorem rep_ok : (rep K E).Ok (CompactVector.cont K E T) :=
  have hv := (Vector.spec (K := K) (T := T) (E := E)).ok
  { live := fun h => hv.live (rep_sub h)
    deadSub := fun h => hv.deadSub (rep_sub h)
    frame := by
      rintro i m m' v al xs F hw hw' ⟨b, h, rfl⟩ hm
      obtain ⟨b', cap', k1, k2⟩ := hv.frame (i := i) hw hw' ⟨b, _, h, rfl⟩ hm
      have e := k1.obj
      rw [h.obj] at e
      simp only [Vec.mk.injEq, Ptr.mk.injEq] at e
      obtain ⟨e1, e2⟩ : cap' = xs.length ∧ b' = b := by omega
      rw [e1] at k1
      exact ⟨b', k1, k2⟩
    alloc := fun h => hv.alloc (rep_sub h)
    rawLive := fun {i} => hv.rawLive (i := i)
    rawFrame := fun {i} => hv.rawFrame (i := i)
    rawEq := fun {i} => hv.rawEq (i := i) }

theorem now {i : Fin K} {b b' al' : Nat} {xs' : List α} {o' : Obj Vec α} (hw : m.Wf)
    (h : CSt (Heap.out m (fun c => c = b ∨ c = 0)) E o' al' b' xs') : (rep K E).Now i m (foot b 0) al' xs' o' :=
  ⟨foot b' 0, ⟨b', h.toOwn, rfl⟩, Rest.toFrame hw h.st.wf h.rest⟩

theorem now2 {i j : Fin K} {c1 c2 al1 b1 al2 b2 : Nat} {xs1 xs2 : List α} {o' : Obj (Vec × Vec) α} (hw : m.Wf)
    (h : CPair (Heap.out m (fun c => (c = c1 ∨ c = 0) ∨ (c = c2 ∨ c = 0))) E o'.m o'.obj.1 o'.obj.2 al1 b1 xs1 al2 b2 xs2) :
    (rep K E).Now2 i j m (Both (foot c1 0) (foot c2 0)) al1 xs1 al2 xs2 o' := by
  refine ⟨foot b1 0, foot b2 0, ⟨b1, h.one, rfl⟩, ⟨b2, h.two, rfl⟩, h.sep.disj, ?_⟩
  rw [foot_both, foot_both]
  exact Rest.toFrame hw h.wf h.rest

theorem raw_own {i : Fin K} {al : Nat} (h : (rep K E).raw i m) : Own E 0 0 m (CompactVector.empty al) al 0 0 [] :=
  SmallVector.raw_own (ib := fun _ : Fin K => 0) (i := i) (Nat.zero_le _) h

/-- compact_vector satisfies the requirements. -/
theorem spec (hq : quiet = true → ∀ t, E.throws t = false) :
    Spec (CompactVector.cont K E T) (CompactVector.sem E T quiet) (rep K E) where
  ok := rep_ok
  make := by
    intro i m al init hw hr _
    have hv := (raw_own (al := al) hr).vst hw (Rest.out _ _)
    refine wp_mono (construct_spec init (hv.gone ⟨rfl, rfl⟩)) ?_ ?_
    · rintro _ o' ⟨b', h⟩
      exact ⟨_, now hw h, rfl⟩
    · rintro e o' ⟨h1, h2⟩
      exact ⟨h1.rawFrame (E := E) (ib := fun _ : Fin K => 0) (i := i) hw, h2⟩
  copy := by
    rintro i j m al w al2 xs2 F2 hij hw hr ⟨b2, h2, rfl⟩ hd
    have hp := Own.pair hw (raw_own (al := al) hr) h2 hd
    have hv := (raw_own (E := E) (al := al) hr).vst hw (Rest.out _ _)
    show wp (CompactVector.initCopy E w) _ _ _
    unfold CompactVector.initCopy
    rw [wp_bind, h2.obj]
    refine wp_distance rfl (by simp) ?_
    refine wp_mono (initWith_spec (hv.gone ⟨rfl, rfl⟩) hp.exts) ?_ ?_
    · rintro _ o' ⟨b', h⟩
      exact now hw h
    · rintro e o' ⟨h1, _⟩
      exact h1.rawFrame (E := E) (ib := fun _ : Fin K => 0) (i := i) hw
  move := by
    rintro i j m al w al2 xs2 F2 hij hw hr ⟨b2, h2, rfl⟩ hd
    have hp := Own.pair hw (raw_own (al := al) hr) h2 hd
    refine wp_mono (initMove_spec hp) ?_ ?_
    · rintro _ o' ⟨b1', b2', ys, h, hy⟩
      refine ⟨ys, now2 hw h, ?_⟩
      simp only [CompactVector.sem, decide_eq_true_eq]
      exact hy
    · rintro e o' ⟨ys, h, hy⟩
      refine ⟨⟨h.one.ibk, h.one.raw⟩, ys, foot b2 0, ⟨b2, h.two, rfl⟩, h.sep.disj, ?_, hy⟩
      show Frame m (Both (foot 0 0) (foot b2 0)) o'.m (Both (foot 0 0) (foot b2 0))
      rw [foot_both]
      exact Rest.toFrame hw h.wf h.rest
  destroy := by
    rintro i m v al xs F hw ⟨b, h, rfl⟩
    exact wp_mono (destructor_gone (h.vst hw (Rest.out _ _)))
      (fun _ _ g => g.rawFrame (E := E) (ib := fun _ : Fin K => 0) (i := i) hw) (fun _ _ h => h)
  size := by
    rintro i m v al xs F hw ⟨b, h, rfl⟩
    exact wp_size (h.vst hw (Rest.out _ _)) ⟨rfl, rfl⟩
  index := by
    rintro i m v al xs F k x hw ⟨b, h, rfl⟩ hk
    exact index_spec (h.vst hw (Rest.out _ _)) hk
  exec := by
    rintro i m v al xs F op hw ⟨b, h, rfl⟩ hp
    refine wp_mono (exec_spec hq op (h.vst hw (Rest.out _ _)) hp) ?_ ?_
    · rintro r o' ⟨b', xs', k1, k2⟩
      exact ⟨xs', now hw k1, k2⟩
    · rintro r o' ⟨b', xs', k1, k2⟩
      exact ⟨xs', now hw k1, k2⟩
  assignCopy := by
    rintro i j m v al xs F w al2 xs2 F2 hij hw ⟨b, h, rfl⟩ ⟨b2, h2, rfl⟩ hd hp'
    have hp := Own.pair hw h h2 hd
    have hs : Calm E xs2.length ∨ (xs2.length = xs.length ∧ (T.pocca = false ∨ al = al2)) := by
      have : (quiet = true ∨ xs2.length = 0) ∨ (xs2.length = xs.length ∧ (T.pocca = false ∨ al = al2)) := by
        simpa [CompactVector.sem] using hp'
      rcases this with (h1 | h1) | h1
      · exact Or.inl (Or.inl (hq h1))
      · exact Or.inl (Or.inr h1)
      · exact Or.inr h1
    refine wp_mono (assignCopy_spec hp hs) ?_ ?_
    · rintro _ o' ⟨b1', k⟩
      exact now hw k
    · rintro _ o' ⟨b1', xs1', k⟩
      exact Or.inl ⟨xs1', now hw k, trivial⟩
  assignMove := by
    rintro i j m v al xs F w al2 xs2 F2 hij hw ⟨b, h, rfl⟩ ⟨b2, h2, rfl⟩ hd hp'
    have hp := Own.pair hw h h2 hd
    have hs : T.pocma = true ∨ al = al2 ∨ Safe E xs.length xs2.length := by
      have : (((T.pocma = true ∨ al = al2) ∨ quiet = true) ∨ xs2.length = 0) ∨ xs2.length = xs.length := by
        simpa [CompactVector.sem] using hp'
      rcases this with (((h1 | h1) | h1) | h1) | h1
      · exact Or.inl h1
      · exact Or.inr (Or.inl h1)
      · exact Or.inr (Or.inr (Or.inr (Or.inl (hq h1))))
      · exact Or.inr (Or.inr (Or.inr (Or.inr h1)))
      · exact Or.inr (Or.inr (Or.inl h1))
    refine wp_mono (assignMove_spec (T := T) hp hs) ?_ ?_
    · rintro _ o' ⟨b1', b2', ys, k, hy⟩
      refine ⟨ys, now2 hw k, ?_⟩
      simp only [CompactVector.sem, Bool.or_eq_true, decide_eq_true_eq]
      exact hy
    · rintro e o' ⟨b1', xs1', ys, k, hy⟩
      exact Or.inl ⟨xs1', ys, now2 hw k, trivial, hy⟩
  swap := by
    rintro i j m v al xs F w al2 xs2 F2 hij hw ⟨b, h, rfl⟩ ⟨b2, h2, rfl⟩ hd hs
    have hp := Own.pair hw h h2 hd
    have hs' : T.pocs = true ∨ al = al2 := by
      simpa only [CompactVector.sem, Bool.or_eq_true, beq_iff_eq] using hs
    have e1 : (if (CompactVector.sem E T quiet).T.pocs = true then al2 else al) = al2 := by
      split
      · rfl
      · rcases hs' with h1 | h1
        · exact absurd h1 ‹_›
        · exact h1
    have e2 : (if (CompactVector.sem E T quiet).T.pocs = true then al else al2) = al := by
      split
      · rfl
      · rcases hs' with h1 | h1
        · exact absurd h1 ‹_›
        · exact h1.symm
    rw [e1, e2]
    refine wp_mono (swap_spec hp hs') ?_ (fun _ _ h => h.elim)
    rintro _ o' ⟨b1', b2', k⟩
    exact now2 hw k

end
end CompactVector
end Sfl
