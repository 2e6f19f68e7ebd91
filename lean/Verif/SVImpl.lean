import Verif.SeqSpec
import Verif.VecEq
import Verif.Remove
/-
  The public interface of vector and small_vector as seen by a client program, and the proof that every
  operation refines the abstract list operation of `SeqSpec.lean`.
-/

namespace Sfl
open Sq
variable {α : Type}

/-- The argument a client passes: an object of their own, a temporary, or a reference to element `i` of the
container whose elements start at `first` (`c[i]`, vector.hpp:532-544, small_vector.hpp:681-693). -/
def Sq.Src.toArg (first : Ptr) : Src α → Arg α
  | .value v => .val v
  | .rvalue v => .rv v
  | .elem i => .ref (first.add i)

/-- `begin() + k` (vector.hpp:292-302, small_vector.hpp:345-355). -/
def Vector.nth (k : Nat) : Vector.VM α Ptr := do
  let v ← getObj
  pure (v.first.add k)

/-- Index designated by a returned iterator, `it - begin()` (vector.hpp:356-362 `index_of`). -/
def Vector.indexOf (p : Ptr) : Vector.VM α (Option Nat) := do
  let v ← getObj
  let k ← distance v.first p
  pure (some k)

/-- Evaluate the value argument of a call. -/
def Vector.argOf (s : Src α) : Vector.VM α (Arg α) := do
  let v ← getObj
  pure (s.toArg v.first)

/-- The public modifiers of small_vector (small_vector.hpp:270-1377), dispatched on the operation. -/
def SmallVector.exec (E : Env α) (ib N : Nat) : Sq.Op α → Vector.VM α (Option Nat)
  | .pushBack s => do
    let a ← Vector.argOf s
    let p ← SmallVector.emplaceBack E ib N a
    Vector.indexOf p
  | .emplace k s => do
    let a ← Vector.argOf s
    let pos ← Vector.nth k
    let p ← SmallVector.emplace E ib N pos a
    Vector.indexOf p
  | .insertN k n s => do
    let a ← Vector.argOf s
    let pos ← Vector.nth k
    let p ← SmallVector.insertFillN E ib N pos n a
    Vector.indexOf p
  | .insertRange k ys => do
    let pos ← Vector.nth k
    let p ← SmallVector.insertRange E ib N pos ys
    Vector.indexOf p
  | .insertInput k ys => do
    let pos ← Vector.nth k
    let p ← SmallVector.insertRangeInput E ib N pos ys
    Vector.indexOf p
  | .popBack => do
    Vector.popBack
    pure none
  | .eraseAt k => do
    let pos ← Vector.nth k
    let p ← Vector.eraseAt E pos
    Vector.indexOf p
  | .eraseRange k l => do
    let f ← Vector.nth k
    let l ← Vector.nth l
    let p ← Vector.eraseRange E f l
    Vector.indexOf p
  | .resize n => do
    SmallVector.resize E ib N n
    pure none
  | .resizeV n s => do
    let a ← Vector.argOf s
    SmallVector.resizeWith E ib N n a
    pure none
  | .assignN n v => do
    SmallVector.assignFillN E ib N n (.val v)
    pure none
  | .assignRange ys => do
    SmallVector.assignRange E ib N (ys.map .val)
    pure none
  | .assignInput ys => do
    SmallVector.assignRangeInput E ib N (ys.map .val)
    pure none
  | .clear => do
    Vector.clear
    pure none
  | .reserve n => do
    SmallVector.reserve E ib N n
    pure none
  | .shrinkToFit => do
    SmallVector.shrinkToFit E ib N
    pure none
  | .eraseIf f => do
    let n ← Vector.eraseIf E f
    pure (some n)

/-- small_vector as a client sees it. -/
def SmallVector.impl (E : Env α) (ib N : Nat) : Impl (Sq.Op α) Vec α where
  size := Vector.size
  index := Vector.index
  exec := SmallVector.exec E ib N
  destroy := SmallVector.destructor ib

/-- The public modifiers of vector (vector.hpp:217-1152), dispatched on the operation. -/
def Vector.exec (E : Env α) : Sq.Op α → Vector.VM α (Option Nat)
  | .pushBack s => do
    let a ← Vector.argOf s
    let p ← Vector.emplaceBack E a
    Vector.indexOf p
  | .emplace k s => do
    let a ← Vector.argOf s
    let pos ← Vector.nth k
    let p ← Vector.emplace E pos a
    Vector.indexOf p
  | .insertN k n s => do
    let a ← Vector.argOf s
    let pos ← Vector.nth k
    let p ← Vector.insertFillN E pos n a
    Vector.indexOf p
  | .insertRange k ys => do
    let pos ← Vector.nth k
    let p ← Vector.insertRange E pos ys
    Vector.indexOf p
  | .insertInput k ys => do
    let pos ← Vector.nth k
    let p ← Vector.insertRangeInput E pos ys
    Vector.indexOf p
  | .popBack => do
    Vector.popBack
    pure none
  | .eraseAt k => do
    let pos ← Vector.nth k
    let p ← Vector.eraseAt E pos
    Vector.indexOf p
  | .eraseRange k l => do
    let f ← Vector.nth k
    let l ← Vector.nth l
    let p ← Vector.eraseRange E f l
    Vector.indexOf p
  | .resize n => do
    Vector.resize E n
    pure none
  | .resizeV n s => do
    let a ← Vector.argOf s
    Vector.resizeWith E n a
    pure none
  | .assignN n v => do
    Vector.assignFillN E n (.val v)
    pure none
  | .assignRange ys => do
    Vector.assignRange E (ys.map .val)
    pure none
  | .assignInput ys => do
    Vector.assignRangeInput E (ys.map .val)
    pure none
  | .clear => do
    Vector.clear
    pure none
  | .reserve n => do
    Vector.reserve E n
    pure none
  | .shrinkToFit => do
    Vector.shrinkToFit E
    pure none
  | .eraseIf f => do
    let n ← Vector.eraseIf E f
    pure (some n)

/-- vector as a client sees it. -/
def Vector.impl (E : Env α) : Impl (Sq.Op α) Vec α where
  size := Vector.size
  index := Vector.index
  exec := Vector.exec E
  destroy := Vector.destructor

/-! ### Single operations -/

variable {E : Env α} {H : Heap α} {al ib N b cap : Nat} {o : Obj Vec α} {xs : List α}

theorem wp_argOf {s : Src α} {Q : Arg α → Obj Vec α → Prop} {X : Exn → Obj Vec α → Prop}
    (h : VSt H E ib N o al b cap xs) (hs : s.ok xs.length = true)
    (hQ : ∀ a v, s.get? xs = some v → a.value o.m = some v → a.src E = none → Q a o) :
    wp (Vector.argOf s) Q X o := by
  unfold Vector.argOf
  rw [wp_bind, wp_getObj, wp_pure, h.obj]
  cases s with
  | value v => exact hQ _ v rfl rfl rfl
  | rvalue v => exact hQ _ v rfl rfl rfl
  | elem i =>
    have hi : i < xs.length := by simpa [Src.ok] using hs
    refine hQ _ xs[i] ?_ ?_ rfl
    · simp [Src.get?, hi]
    · simp [Src.toArg, Arg.value, h.cells, hi]

theorem wp_nth {k : Nat} {Q : Ptr → Obj Vec α → Prop} {X : Exn → Obj Vec α → Prop}
    (h : VSt H E ib N o al b cap xs) (hQ : Q ⟨b, k⟩ o) : wp (Vector.nth k) Q X o := by
  unfold Vector.nth
  rw [wp_bind, wp_getObj, wp_pure, h.obj]
  simpa [Ptr.add] using hQ

theorem wp_indexOf {k : Nat} {p : Ptr} {Q : Option Nat → Obj Vec α → Prop} {X : Exn → Obj Vec α → Prop}
    (h : VSt H E ib N o al b cap xs) (hp : p = ⟨b, k⟩) (hQ : Q (some k) o) : wp (Vector.indexOf p) Q X o := by
  subst hp
  unfold Vector.indexOf
  rw [wp_bind, wp_getObj, wp_bind, h.obj]
  exact wp_distance rfl (by simp) (by simpa [wp_pure] using hQ)

/-- Moving elements never throws. -/
def NothrowMove (E : Env α) : Prop := E.nothrowMoveCtor = true ∧ E.nothrowMoveAssign = true

/-- One successful step of the abstract list. -/
def Sq.okStep (E : Env α) (xs : List α) (op : Sq.Op α) (r : Option Nat) (xs' : List α) : Prop :=
  op.Result E.dflt xs xs' ∧ r = op.ret xs

/-- One failed step of the abstract list. -/
def Sq.failStep (E : Env α) (xs : List α) (op : Sq.Op α) (e : Exn) (xs' : List α) : Prop :=
  op.Failure (Strong E) (NothrowMove E) E.maxSize xs e xs'

/-- Everything known about a successful operation. -/
structure OpDone (H : Heap α) (E : Env α) (ib N al b cap : Nat) (o o' : Obj Vec α) (b' cap' : Nat) (need : Nat)
    (xs' : List α) : Prop where
  v : VSt H E ib N o' al b' cap' xs'
  inside : b = ib → cap = N → need ≤ N → b' = ib ∧ cap' = N ∧ o'.m.next = o.m.next

/-- Everything known about a failed operation. -/
structure OpFail (H : Heap α) (E : Env α) (ib N al b cap : Nat) (e : Exn) (o o' : Obj Vec α) (b' cap' : Nat)
    (need : Nat) (xs' : List α) : Prop where
  v : VSt H E ib N o' al b' cap' xs'
  inside : b = ib → cap = N → need ≤ N → b' = ib ∧ cap' = N ∧ o'.m.next = o.m.next ∧ e ≠ .badAlloc

theorem Done.op {o' : Obj Vec α} {b' cap' need : Nat} {xs' : List α} (h : Done H E ib N al b cap o o' b' cap' xs')
    (hn : xs'.length ≤ need) : OpDone H E ib N al b cap o o' b' cap' need xs' where
  v := h.v
  inside := by
    rintro rfl rfl h3
    obtain ⟨e1, e2⟩ := h.keep (by omega)
    refine ⟨e1, e2, ?_⟩
    rcases h.next with h0 | h0
    · exact h0
    · omega

theorem Kept.op {e : Exn} {o' : Obj Vec α} {need : Nat} {xs' : List α} (h : Kept H E ib N al b cap e o o' need xs') :
    OpFail H E ib N al b cap e o o' b cap need xs' where
  v := h.v
  inside := by
    rintro rfl rfl h3
    refine ⟨rfl, rfl, ?_, fun he => by have := h.bad he; omega⟩
    rcases h.next with h0 | h0
    · exact h0
    · omega

theorem VSt.internal {o : Obj Vec α} (h : VSt H E ib N o al ib cap xs) : cap = N := by
  rcases h.st.own with ⟨_, h0⟩ | ⟨h1, h0⟩ | ⟨_, _, h0, _⟩
  · exact h0
  · rcases h.st.ibk with ⟨_, h2⟩ | h2
    · omega
    · have := h.st.wf.blk_zero
      rw [← h1, h2] at this; cases this
  · exact absurd rfl h0

theorem SmallVector.exec_spec (op : Sq.Op α) (h : VSt H E ib N o al b cap xs) (hp : op.pre xs.length = true) :
    wp (SmallVector.exec E ib N op)
      (fun r o' => ∃ b' cap' xs', OpDone H E ib N al b cap o o' b' cap' (op.room xs.length) xs' ∧
        okStep E xs op r xs')
      (fun e o' => ∃ b' cap' xs', OpFail H E ib N al b cap e o o' b' cap' (op.room xs.length) xs' ∧
        failStep E xs op e xs') o := by
  cases op with
  | pushBack s =>
    simp only [SmallVector.exec, wp_bind]
    refine wp_argOf h (by simpa [Op.pre] using hp) fun a v hg hv hsrc => ?_
    refine wp_mono (emplaceBack_spec h hv hsrc) ?_ ?_
    · rintro p o1 ⟨b1, cap1, hd, hp, -⟩
      exact wp_indexOf hd.v hp ⟨b1, cap1, _, hd.op (by simp [Op.room]), ⟨v, hg, rfl⟩, rfl⟩
    · rintro e o1 ⟨xs', k1, k2, k3, -, k4⟩
      exact ⟨b, cap, xs', k1.op, ⟨rfl, k4, fun hE _ => k3 hE, by simp, by simp⟩⟩
  | emplace k s =>
    obtain ⟨hk, hs⟩ : k ≤ xs.length ∧ s.ok xs.length = true := by simpa [Op.pre] using hp
    simp only [SmallVector.exec, wp_bind]
    refine wp_argOf h hs fun a v hg hv hsrc => wp_nth h ?_
    refine wp_mono (emplace_spec h hv hsrc hk) ?_ ?_
    · rintro p o1 ⟨b1, cap1, hd, hp⟩
      exact wp_indexOf hd.v hp ⟨b1, cap1, _, hd.op (by simp [Op.room]; omega), ⟨v, hg, by simp⟩, rfl⟩
    · rintro e o1 ⟨xs', k1, k2, k3, k4, k5⟩
      exact ⟨b, cap, xs', k1.op, ⟨rfl, k5, by simp [Op.strong], by simp, fun hE _ _ _ => k4 hE.1 hE.2⟩⟩
  | insertN k n s =>
    obtain ⟨hk, hs⟩ : k ≤ xs.length ∧ s.ok xs.length = true := by simpa [Op.pre] using hp
    simp only [SmallVector.exec, wp_bind]
    refine wp_argOf h hs fun a v hg hv hsrc => wp_nth h ?_
    refine wp_mono (insertFillN_spec h hv hsrc hk) ?_ ?_
    · rintro p o1 ⟨b1, cap1, hd, hp⟩
      exact wp_indexOf hd.v hp ⟨b1, cap1, _, hd.op (by simp [Op.room]; omega), ⟨v, hg, by simp⟩, rfl⟩
    · rintro e o1 ⟨xs', k1, k2, k3, k4⟩
      exact ⟨b, cap, xs', k1.op, ⟨rfl, k4, by simp [Op.strong], by simp, by simp⟩⟩
  | insertRange k ys =>
    have hk : k ≤ xs.length := by simpa [Op.pre] using hp
    simp only [SmallVector.exec, wp_bind]
    refine wp_nth h ?_
    refine wp_mono (insertRange_spec h hk) ?_ ?_
    · rintro p o1 ⟨b1, cap1, hd, hp⟩
      exact wp_indexOf hd.v hp ⟨b1, cap1, _, hd.op (by simp [Op.room]; omega), by simp [Op.Result], rfl⟩
    · rintro e o1 ⟨xs', k1, k2, k3, k4⟩
      exact ⟨b, cap, xs', k1.op, ⟨rfl, k4, by simp [Op.strong], by simp, by simp⟩⟩
  | insertInput k ys =>
    have hk : k ≤ xs.length := by simpa [Op.pre] using hp
    simp only [SmallVector.exec, wp_bind]
    refine wp_nth h ?_
    refine wp_mono (insertRangeInput_spec h hk) ?_ ?_
    · rintro p o1 ⟨b1, cap1, hv, hp, k2, k3⟩
      refine wp_indexOf hv hp ⟨b1, cap1, _, ⟨hv, ?_⟩, by simp [Op.Result], rfl⟩
      rintro rfl rfl hh
      simp only [Op.room] at hh
      obtain ⟨e1, e2⟩ := k2 hh
      exact ⟨e1, e2, k3 (by omega)⟩
    · rintro e o1 ⟨b1, cap1, xs', k1, k2, k3, k4, k5⟩
      refine ⟨b1, cap1, xs', ⟨k1, ?_⟩, ⟨rfl, k5, by simp [Op.strong], by simp, by simp⟩⟩
      rintro rfl rfl hh
      simp only [Op.room] at hh
      obtain ⟨e1, e2⟩ := k2 hh
      exact ⟨e1, e2, k3 (by omega)⟩
  | popBack =>
    have hne : xs ≠ [] := by
      intro h0; subst h0; simp [Op.pre] at hp
    simp only [SmallVector.exec, wp_bind]
    have h' := h
    rw [← List.dropLast_concat_getLast hne] at h'
    refine wp_mono (popBack_spec h') ?_ (fun _ _ h => h.elim)
    rintro _ o1 ⟨h1, h2, h3⟩
    exact ⟨b, cap, _, ⟨h1, fun e1 e2 _ => ⟨e1, e2, h2⟩⟩, rfl, rfl⟩
  | eraseAt k =>
    have hk : k < xs.length := by simpa [Op.pre] using hp
    simp only [SmallVector.exec, wp_bind]
    refine wp_nth h ?_
    refine wp_mono (eraseAt_spec h hk) ?_ ?_
    · rintro p o1 ⟨h1, h2, hp⟩
      exact wp_indexOf h1 hp ⟨b, cap, _, ⟨h1, fun e1 e2 _ => ⟨e1, e2, h2⟩⟩, rfl, rfl⟩
    · rintro e o1 ⟨xs', h1, h2, h3, h4, rfl, h5⟩
      exact ⟨b, cap, xs', ⟨h1, fun e1 e2 _ => ⟨e1, e2, h3, by simp⟩⟩,
        ⟨rfl, by simp, by simp [Op.strong], fun hE => by simp [hE.2] at h5, by simp⟩⟩
  | eraseRange k l =>
    obtain ⟨hkl, hl⟩ : k ≤ l ∧ l ≤ xs.length := by simpa [Op.pre] using hp
    simp only [SmallVector.exec, wp_bind]
    refine wp_nth h (wp_nth h ?_)
    refine wp_mono (eraseRange_spec h hkl hl) ?_ ?_
    · rintro p o1 ⟨h1, h2, hp⟩
      exact wp_indexOf h1 hp ⟨b, cap, _, ⟨h1, fun e1 e2 _ => ⟨e1, e2, h2⟩⟩, rfl, rfl⟩
    · rintro e o1 ⟨xs', h1, h2, h3, h4, rfl, h5⟩
      exact ⟨b, cap, xs', ⟨h1, fun e1 e2 _ => ⟨e1, e2, h3, by simp⟩⟩,
        ⟨rfl, by simp, by simp [Op.strong], fun hE => by simp [hE.2] at h5, by simp⟩⟩
  | resize n =>
    simp only [SmallVector.exec, wp_bind, SmallVector.resize]
    refine wp_mono (resizeWith_spec (a := .val E.dflt) (v := E.dflt) h rfl rfl) ?_ ?_
    · rintro _ o1 ⟨b1, cap1, hd⟩
      exact ⟨b1, cap1, _, hd.op (by simp [Op.room]; omega), rfl, rfl⟩
    · rintro e o1 ⟨xs', k1, k2, k3, k4⟩
      exact ⟨b, cap, xs', k1.op, ⟨rfl, k4, fun hE _ => k3 hE, by simp, by simp⟩⟩
  | resizeV n s =>
    simp only [SmallVector.exec, wp_bind]
    refine wp_argOf h (by simpa [Op.pre] using hp) fun a v hg hv hsrc => ?_
    refine wp_mono (resizeWith_spec h hv hsrc) ?_ ?_
    · rintro _ o1 ⟨b1, cap1, hd⟩
      exact ⟨b1, cap1, _, hd.op (by simp [Op.room]; omega), ⟨v, hg, rfl⟩, rfl⟩
    · rintro e o1 ⟨xs', k1, k2, k3, k4⟩
      exact ⟨b, cap, xs', k1.op, ⟨rfl, k4, fun hE _ => k3 hE, by simp, by simp⟩⟩
  | assignN n v =>
    simp only [SmallVector.exec, wp_bind]
    refine wp_mono (assignFillN_spec h) ?_ ?_
    · rintro _ o1 ⟨b1, cap1, hv, k2, k3⟩
      refine ⟨b1, cap1, _, ⟨hv, ?_⟩, rfl, rfl⟩
      rintro rfl rfl hh
      simp only [Op.room] at hh
      obtain ⟨e1, e2⟩ := k2 hh
      exact ⟨e1, e2, k3 (by omega)⟩
    · rintro e o1 ⟨b1, cap1, xs', k1, k2, k3, k4⟩
      refine ⟨b1, cap1, xs', ⟨k1, ?_⟩, ⟨rfl, fun he => (k4 he).1, by simp [Op.strong], by simp, by simp⟩⟩
      rintro rfl rfl hh
      simp only [Op.room] at hh
      obtain ⟨e1, e2⟩ := k2 hh
      exact ⟨e1, e2, k3 (by omega)⟩
  | assignRange ys =>
    simp only [SmallVector.exec, wp_bind]
    refine wp_mono (assignRange_spec h (Exts.vals ys)) ?_ ?_
    · rintro _ o1 ⟨b1, cap1, hv, k2, k3⟩
      refine ⟨b1, cap1, _, ⟨hv, ?_⟩, rfl, rfl⟩
      rintro rfl rfl hh
      simp only [Op.room] at hh
      obtain ⟨e1, e2⟩ := k2 hh
      exact ⟨e1, e2, k3 (by omega)⟩
    · rintro e o1 ⟨b1, cap1, xs', k1, k2, k3, k4⟩
      refine ⟨b1, cap1, xs', ⟨k1, ?_⟩, ⟨rfl, fun he => (k4 he).1, by simp [Op.strong], by simp, by simp⟩⟩
      rintro rfl rfl hh
      simp only [Op.room] at hh
      obtain ⟨e1, e2⟩ := k2 hh
      exact ⟨e1, e2, k3 (by omega)⟩
  | assignInput ys =>
    simp only [SmallVector.exec, wp_bind]
    refine wp_mono (assignRangeInput_spec h (Exts.vals ys)) ?_ ?_
    · rintro _ o1 ⟨b1, cap1, hv, k2, k3⟩
      refine ⟨b1, cap1, _, ⟨hv, ?_⟩, rfl, rfl⟩
      rintro rfl rfl hh
      simp only [Op.room] at hh
      obtain ⟨e1, e2⟩ := k2 hh
      exact ⟨e1, e2, k3 (by omega)⟩
    · rintro e o1 ⟨b1, cap1, xs', k1, k2, k3, k4⟩
      refine ⟨b1, cap1, xs', ⟨k1, ?_⟩, ⟨rfl, k4, by simp [Op.strong], by simp, by simp⟩⟩
      rintro rfl rfl hh
      simp only [Op.room] at hh
      obtain ⟨e1, e2⟩ := k2 hh
      exact ⟨e1, e2, k3 (by omega)⟩
  | clear =>
    simp only [SmallVector.exec, wp_bind]
    refine wp_mono (clear_spec h) ?_ (fun _ _ h => h.elim)
    rintro _ o1 ⟨h1, h2, h3⟩
    exact ⟨b, cap, _, ⟨h1, fun e1 e2 _ => ⟨e1, e2, h2⟩⟩, rfl, rfl⟩
  | reserve n =>
    simp only [SmallVector.exec, wp_bind]
    refine wp_mono (reserve_spec h) ?_ ?_
    · rintro _ o1 ⟨b1, cap1, hv, k1, k2, k3, k4⟩
      refine ⟨b1, cap1, _, ⟨hv, ?_⟩, rfl, rfl⟩
      rintro rfl rfl hh
      simp only [Op.room] at hh
      obtain ⟨e1, e2, e3⟩ := k3 hh
      exact ⟨e1, e2, k4 (by omega)⟩
    · rintro e o1 ⟨xs', k1, k2, k3, k4, k5⟩
      refine ⟨b, cap, xs', ⟨k1, ?_⟩, ⟨rfl, k5.mp, fun hE _ => k3 hE, by simp, by simp⟩⟩
      rintro rfl rfl hh
      simp only [Op.room] at hh
      exact ⟨rfl, rfl, k4 (by omega)⟩
  | shrinkToFit =>
    simp only [SmallVector.exec, wp_bind]
    refine wp_mono (shrinkToFit_spec h) ?_ ?_
    · rintro _ o1 ⟨b1, cap1, hv, k1, k2⟩
      refine ⟨b1, cap1, _, ⟨hv, ?_⟩, rfl, rfl⟩
      rintro rfl rfl hh
      simp only [Op.room] at hh
      obtain ⟨e1, e2⟩ := k2 hh
      have hb : b1 = b := by
        rcases e2 with e2 | e2
        · exact e2
        · exact e2.1
      subst hb
      exact ⟨rfl, hv.internal, e1⟩
    · rintro e o1 ⟨xs', k1, k2, k3, k4, k5⟩
      refine ⟨b, cap, xs', ⟨k1, ?_⟩, ⟨rfl, fun he => absurd he k5, fun hE _ => k3 hE, by simp, by simp⟩⟩
      rintro rfl rfl hh
      simp only [Op.room] at hh
      exact ⟨rfl, rfl, k4 (by omega)⟩
  | eraseIf f =>
    simp only [SmallVector.exec, wp_bind]
    refine wp_mono (eraseIf_spec h) ?_ ?_
    · rintro r o1 ⟨h1, h2, rfl⟩
      refine ⟨b, cap, _, ⟨h1, fun e1 e2 _ => ⟨e1, e2, h2⟩⟩, rfl, ?_⟩
      have := List.length_eq_countP_add_countP f (l := xs)
      have e : xs.countP (fun a => decide ¬ (f a = true)) = (xs.filter (fun x => !f x)).length := by
        rw [List.countP_eq_length_filter]
        congr 1
        apply List.filter_congr
        intro x _
        cases f x <;> simp
      simp only [Op.ret, Option.some.injEq]
      omega
    · rintro e o1 ⟨xs', h1, h2, h3, rfl, h5⟩
      exact ⟨b, cap, xs', ⟨h1, fun e1 e2 _ => ⟨e1, e2, h3, by simp⟩⟩,
        ⟨rfl, by simp, by simp [Op.strong], fun hE => by simp [hE.2] at h5, by simp⟩⟩

/-! ### vector -/

theorem tryCatch_throw {σ β : Type} (m : M σ β) : M.tryCatch m M.throw = m := by
  funext s; unfold M.tryCatch M.throw; cases m s <;> rfl

theorem SmallVector.shrinkToFit_zero (h : VSt H E 0 0 o al b cap xs) :
    SmallVector.shrinkToFit E 0 0 o = Vector.shrinkToFit E o := by
  have hlen := h.len
  unfold SmallVector.shrinkToFit Vector.shrinkToFit
  refine bind_congr' fun n o1 h1 => ?_
  have hn : n = xs.length := by
    have := wp_size (Q := fun n o' => n = xs.length ∧ o' = o) (X := fun _ _ => False) h.obj ⟨rfl, rfl⟩
    exact (wp_ok h1 this).1
  obtain rfl := size_ok h1
  refine bind_congr' fun c o2 h2 => ?_
  have hc : c = cap := by
    have := wp_capacity (Q := fun n o' => n = cap ∧ o' = o1) (X := fun _ _ => False) h.obj ⟨rfl, rfl⟩
    exact (wp_ok h2 this).1
  obtain rfl := capacity_ok h2
  rw [hn, hc]
  by_cases hlt : xs.length < cap
  · rw [if_pos hlt, if_pos hlt]
    unfold SmallVector.relocate
    simp only [SmallVector.replaceStorage_zero]
    refine bind_congr' fun v o3 h3 => ?_
    obtain ⟨rfl, rfl⟩ := getObj_ok h3
    by_cases h0 : xs.length ≤ 0
    · have hb : b ≠ 0 := by
        rcases h.st.own with ⟨_, h0⟩ | ⟨_, h0⟩ | ⟨_, h0, _⟩
        · omega
        · omega
        · exact h0
      have hx : xs.length = 0 := by omega
      have hf : o3.obj.first ≠ ⟨0, 0⟩ := by rw [h.obj]; simpa using hb
      rw [if_pos h0, if_neg hf, hx]
      have ha : (lift (allocate E o3.obj.alloc 0) : Vector.VM α Ptr) = pure Ptr.null := by
        funext o; unfold lift allocate; simp; rfl
      have hd : ∀ e : Exn, (do
          lift (deallocate o3.obj.alloc Ptr.null 0)
          M.throw e : Vector.VM α Ptr) = M.throw e := by
        intro e
        rw [deallocate_null_eq]
        rfl
      rw [ha]
      show _ = (M.tryCatch (lift (uninitMoveIf E o3.obj.first o3.obj.last Ptr.null)) (fun e => do
          lift (deallocate o3.obj.alloc Ptr.null 0)
          M.throw e) >>= fun newLast => Vector.replaceStorage Ptr.null newLast (Ptr.null.add 0)) o3
      have : (fun e : Exn => (do
          lift (deallocate o3.obj.alloc Ptr.null 0)
          M.throw e : Vector.VM α Ptr)) = M.throw := funext hd
      rw [this, tryCatch_throw]
      refine bind_congr' fun l o4 h4 => ?_
      have ho4 : o4.obj = o3.obj := by
        unfold lift at h4
        split at h4 <;> cases h4
        rfl
      unfold Vector.replaceStorage
      rw [bind_apply (m := getObj)]
      show _ = (lift (destroyRange o4.obj.first o4.obj.last) >>= _ : Vector.VM α Unit) o4
      rw [ho4]
      rfl
    · rw [if_neg h0]
  · rw [if_neg hlt, if_neg hlt]

theorem Vector.exec_eq (op : Sq.Op α) (h : VSt H E 0 0 o al b cap xs) :
    SmallVector.exec E 0 0 op o = Vector.exec E op o := by
  cases op <;> simp only [SmallVector.exec, Vector.exec, SmallVector.emplaceBack_zero, SmallVector.emplace_zero,
    SmallVector.insertFillN_zero, SmallVector.insertRange_zero, SmallVector.insertRangeInput_zero, SmallVector.resize,
    Vector.resize, SmallVector.resizeWith_zero, SmallVector.assignFillN_zero, SmallVector.assignRange_zero,
    SmallVector.assignRangeInput_zero, SmallVector.reserve_zero]
  rw [bind_apply, bind_apply, SmallVector.shrinkToFit_zero h]

theorem wp_congr {σ β : Type} {m m' : M σ β} {Q : β → σ → Prop} {X : Exn → σ → Prop} {s : σ} (h : m s = m' s)
    (hm : wp m Q X s) : wp m' Q X s := by
  unfold wp at *; rw [← h]; exact hm

theorem Vector.exec_spec (op : Sq.Op α) (h : VSt H E 0 0 o al b cap xs) (hp : op.pre xs.length = true) :
    wp (Vector.exec E op)
      (fun r o' => ∃ b' cap' xs', OpDone H E 0 0 al b cap o o' b' cap' (op.room xs.length) xs' ∧
        okStep E xs op r xs')
      (fun e o' => ∃ b' cap' xs', OpFail H E 0 0 al b cap e o o' b' cap' (op.room xs.length) xs' ∧
        failStep E xs op e xs') o :=
  wp_congr (Vector.exec_eq op h) (SmallVector.exec_spec op h hp)

/-! ### Correctness of the interfaces -/

theorem SmallVector.correct (H : Heap α) (E : Env α) (al ib N : Nat) :
    Correct (SmallVector.impl E ib N) (fun n op => op.pre n) (okStep E) (failStep E)
      (fun o xs => ∃ b cap, VSt H E ib N o al b cap xs) where
  size := by
    rintro o xs ⟨b, cap, h⟩
    exact wp_size h.obj ⟨rfl, rfl⟩
  index := by
    rintro o xs i v ⟨b, cap, h⟩ hv
    exact index_spec h hv
  exec := by
    rintro o xs op ⟨b, cap, h⟩ hp
    refine wp_mono (SmallVector.exec_spec op h hp) ?_ ?_
    · rintro r o' ⟨b', cap', xs', k1, k2⟩
      exact ⟨xs', ⟨b', cap', k1.v⟩, k2⟩
    · rintro e o' ⟨b', cap', xs', k1, k2⟩
      exact ⟨xs', ⟨b', cap', k1.v⟩, k2⟩

theorem Vector.correct (H : Heap α) (E : Env α) (al : Nat) :
    Correct (Vector.impl E) (fun n op => op.pre n) (okStep E) (failStep E)
      (fun o xs => ∃ b cap, VSt H E 0 0 o al b cap xs) where
  size := by
    rintro o xs ⟨b, cap, h⟩
    exact wp_size h.obj ⟨rfl, rfl⟩
  index := by
    rintro o xs i v ⟨b, cap, h⟩ hv
    exact index_spec h hv
  exec := by
    rintro o xs op ⟨b, cap, h⟩ hp
    refine wp_mono (Vector.exec_spec op h hp) ?_ ?_
    · rintro r o' ⟨b', cap', xs', k1, k2⟩
      exact ⟨xs', ⟨b', cap', k1.v⟩, k2⟩
    · rintro e o' ⟨b', cap', xs', k1, k2⟩
      exact ⟨xs', ⟨b', cap', k1.v⟩, k2⟩

end Sfl
