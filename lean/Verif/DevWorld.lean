import Verif.DevOwn
import Verif.DeqSpec
import Verif.WorldVec
/-
  devector as a container type of the client programs of `World.lean`.
-/

set_option linter.unusedSimpArgs false

namespace Sfl.Devector
open World
variable {α : Type}

/-! ### The public interface -/

/-- The argument of a call: an object of the client's, or a reference to the element `first_ + i` of the devector
itself (devector.hpp:692-785 take the arguments by reference). -/
def argOf (s : Sq.Src α) : DM α (Arg α) := do
  let v ← getObj
  pure (s.toArg v.first)

/-- The public modifiers of devector (devector.hpp:232-260, 480-540, 680-1189, 4161-4183), dispatched on the
operation. -/
def exec (E : Env α) : Dq.Op α → DM α (Option Nat)
  | .pushFront s => do
    let a ← argOf s
    let p ← emplaceFrontAux E a
    indexOf p
  | .pushBack s => do
    let a ← argOf s
    let p ← emplaceBackAux E a
    indexOf p
  | .emplace k s => do
    let a ← argOf s
    let pos ← nth k
    let p ← emplace E pos a
    indexOf p
  | .insertN k n s => do
    let a ← argOf s
    let pos ← nth k
    let p ← insertFillN E pos n a
    indexOf p
  | .insertRange k ys => do
    let pos ← nth k
    let p ← insertRange E pos (ys.map .val)
    indexOf p
  | .insertInput k ys => do
    let pos ← nth k
    let p ← insertInput E pos (ys.map .val)
    indexOf p
  | .popFront => do
    popFront
    pure none
  | .popBack => do
    popBack
    pure none
  | .eraseAt k => do
    let pos ← nth k
    let p ← erase E pos
    indexOf p
  | .eraseRange k l => do
    let f ← nth k
    let l ← nth l
    let p ← eraseRange E f l
    indexOf p
  | .resize n => do
    resizeWith E n (.val E.dflt)
    pure none
  | .resizeV n s => do
    let a ← argOf s
    resizeWith E n a
    pure none
  | .resizeFront n => do
    resizeFrontWith E n (.val E.dflt)
    pure none
  | .resizeFrontV n s => do
    let a ← argOf s
    resizeFrontWith E n a
    pure none
  | .resizeBack n => do
    resizeBackWith E n (.val E.dflt)
    pure none
  | .resizeBackV n s => do
    let a ← argOf s
    resizeBackWith E n a
    pure none
  | .assignN n v => do
    assignFillN E n (.val v)
    pure none
  | .assignRange ys => do
    assignRange E (ys.map .val)
    pure none
  | .assignInput ys => do
    assignInput E (ys.map .val)
    pure none
  | .clear => do
    clear
    pure none
  | .reserveFront n => do
    reserveFront E n
    pure none
  | .reserveBack n => do
    reserveBack E n
    pure none
  | .shrinkToFit => do
    shrinkToFit E
    pure none
  | .eraseIf f => do
    let n ← eraseIf E f
    pure (some n)

/-- devector as a container type (public functions of devector.hpp:128-1220). -/
def cont (K : Nat) (E : Env α) (T : Traits) : Cont K (Dq.Op α) (Sq.Init α) DVec α Nat where
  alloc := DVec.alloc
  blank := fun _ al => empty al
  make := fun _ init => construct' E init
  copyInit := fun _ w => initCopy E w
  moveInit := fun _ _ => initMove E
  destroy := fun _ => destroy
  size := size
  index := index
  exec := fun _ => exec E
  assignCopy := fun _ _ w => assignCopy E T w
  assignMove := fun _ _ => assignMove E T
  swap := fun _ _ => swap T

/-! ### Abstract meaning -/

/-- The value argument is an object of the client's. -/
def own : Sq.Src α → Bool
  | .elem _ => false
  | _ => true

/-- Which operations a client calls on a devector of size `n`: the documented preconditions, without the cases in which
the code is wrong. If something may throw (`quiet = false`) and moving elements may throw, no insertion at the faulty
position `2 * k = n + 1`; several elements are only inserted at the ends if something may throw. `insert(pos, m, value)`
and a growing `resize(m, value)`, `resize_front(m, value)`, `resize_back(m, value)` are not called with an element of the
devector itself. -/
def pre (E : Env α) (quiet : Bool) (n : Nat) : Dq.Op α → Bool
  | .emplace k s => decide (k ≤ n) && s.ok n &&
      (quiet || (E.nothrowMoveCtor && E.nothrowMoveAssign) || decide (n + 1 ≠ 2 * k) || decide (k = n))
  | .insertN k _ s => decide (k ≤ n) && own s && (quiet || decide (k = 0) || decide (k = n))
  | .insertRange k _ => decide (k ≤ n) && (quiet || decide (k = 0) || decide (k = n))
  | .insertInput k _ => decide (k ≤ n) && (quiet || (E.nothrowMoveCtor && E.nothrowMoveAssign) || decide (k = n))
  | .resizeV m s => s.ok n && (own s || decide (m ≤ n))
  | .resizeFrontV m s => s.ok n && (own s || decide (m ≤ n))
  | .resizeBackV m s => s.ok n && (own s || decide (m ≤ n))
  | op => op.pre n

/-- Operations without effect if they throw, for elements that are nothrow move constructible or copyable. -/
def strong : Dq.Op α → Bool
  | .reserveFront _ => true
  | .reserveBack _ => true
  | .shrinkToFit => true
  | .resizeFront _ => true
  | .resizeFrontV _ _ => true
  | .resizeBack _ => true
  | .resizeBackV _ _ => true
  | _ => false

/-- Insertion of one element. -/
def single : Dq.Op α → Bool
  | .pushFront _ => true
  | .pushBack _ => true
  | .emplace _ _ => true
  | _ => false

/-- Operations that may stop half way. -/
def stepwise : Dq.Op α → Bool
  | .insertInput _ _ => true
  | .resize _ => true
  | .resizeV _ _ => true
  | .assignN _ _ => true
  | .assignRange _ => true
  | .assignInput _ => true
  | _ => false

/-- The size the operation gives the container, for operations that only throw length_error if it is too large. -/
def wanted : Dq.Op α → Option Nat
  | .resize n => some n
  | .resizeV n _ => some n
  | .assignN n _ => some n
  | .assignRange ys => some ys.length
  | _ => none

/-- The size a `resize` function gives the container. -/
def target : Dq.Op α → Option Nat
  | .resize n => some n
  | .resizeV n _ => some n
  | .resizeFront n => some n
  | .resizeFrontV n _ => some n
  | .resizeBack n => some n
  | .resizeBackV n _ => some n
  | _ => none

/-- What may remain after an operation of devector has thrown `e`. -/
structure Failure (E : Env α) (xs : List α) (op : Dq.Op α) (e : Exn) (xs' : List α) : Prop where
  can : op.nothrow = false
  grows : e = .lengthError → op.grows xs.length = true
  room : e = .lengthError → ∀ n, wanted op = some n → E.maxSize < n
  shrink : ∀ n, target op = some n → xs.length < n
  erase : NothrowMove E → op.erases = false
  strong : Strong E → strong op = true → xs' = xs
  single : NothrowMove E → single op = true → xs' = xs
  size : stepwise op = false → xs'.length = xs.length
  some : xs.length ≤ xs'.length
  resize : Strong E → (∀ n, op = .resize n → ∃ k, xs' = xs ++ List.replicate k E.dflt) ∧
    (∀ n s, op = .resizeV n s → ∃ k v, s.get? xs = .some v ∧ xs' = xs ++ List.replicate k v)

/-- Abstract meaning of devector. Assignment between devectors is restricted to the cases in which the storage of the
target is not given up: see C19. -/
def sem (E : Env α) (T : Traits) (quiet : Bool) : Sem (Dq.Op α) (Sq.Init α) α Nat where
  pre := pre E quiet
  okStep := Dq.okStep E
  failStep := Failure E
  init := fun i xs => xs = i.result E.dflt
  initFail := fun i e => e = .lengthError → 0 < (i.result E.dflt).length
  left := fun eq xs ys => if eq = true then ys = [] else ys = xs.map E.moved
  moveFail := fun xs ys => ys.length = xs.length
  assignFail := fun _ => True
  swapFail := fun _ _ _ _ => False
  swapPre := fun a b => T.pocs || a == b
  copyPre := fun ai aj _ _ => !T.pocca || ai == aj
  movePre := fun ai aj _ _ => !T.pocma && ai != aj
  T := T

/-! ### Correctness -/

section
variable {E : Env α} {H : Heap α} {al b cap f : Nat} {xs : List α} {o : Obj DVec α} {quiet : Bool}

theorem wp_argOf {s : Sq.Src α} {Q : Arg α → Obj DVec α → Prop} {X : Exn → Obj DVec α → Prop}
    (h : DSt H E o al b cap f xs) (hs : s.ok xs.length = true)
    (hQ : ∀ a v, s.get? xs = some v → a.value o.m = some v → a.src E = none →
      (own s = true → Exts H E [a] [v]) → Q a o) :
    wp (argOf s) Q X o := by
  unfold argOf
  rw [wp_bind, wp_getObj, wp_pure, h.obj]
  cases s with
  | value v => exact hQ _ v rfl rfl rfl (fun _ => Exts.vals [v])
  | rvalue v =>
    exact hQ _ v rfl rfl rfl (fun _ => ⟨fun a ha => by
      rcases List.mem_singleton.mp ha with rfl; rfl, fun _ _ => rfl⟩)
  | elem i =>
    have hi : i < xs.length := by simpa [Sq.Src.ok] using hs
    refine hQ _ xs[i] ?_ ?_ rfl (fun h => by simp [own] at h)
    · simp [Sq.Src.get?, hi]
    · simp [Sq.Src.toArg, Arg.value, h.cells, hi]

/-- An insertion of one element is in a faulty layout only in the middle. -/
theorem clash_one {len k : Nat} (h : Clash cap f len k 1) (hf : f + len ≤ cap) : len + 1 = 2 * k := by
  unfold Clash ClashFront ClashBack aF aB at h
  split at h <;> omega

theorem Lost.fail {o' : Obj DVec α} {op : Dq.Op α} (h : Lost H E al b cap f xs o') (hE : ¬ NothrowMove E)
    (h1 : op.erases = true) : ∃ b' cap' f' xs', DSt H E o' al b' cap' f' xs' ∧ Failure E xs op .elem xs' := by
  obtain ⟨xs', k1, k2⟩ := h
  refine ⟨b, cap, f, xs', k1, ?_⟩
  cases op <;> simp [Dq.Op.erases] at h1 <;>
    exact ⟨rfl, by simp, by simp, by simp [target], fun h => absurd h hE, by simp [strong], by simp [single],
      fun _ => k2, by omega, by simp⟩

theorem Kept.fail {P : Prop} {e : Exn} {o' : Obj DVec α} {op : Dq.Op α} (h : Kept H E al b cap f xs P e o')
    (h1 : op.nothrow = false) (h2 : P → op.grows xs.length = true) (h3 : strong op = true) (h4 : wanted op = none)
    (h5 : target op = none) : ∃ b' cap' f' xs', DSt H E o' al b' cap' f' xs' ∧ Failure E xs op e xs' := by
  obtain ⟨xs', k1, k2, k3, k4⟩ := h
  refine ⟨b, cap, f, xs', k1, h1, fun he => h2 (k4 he), by simp [h4], by simp [h5], ?_, fun hE _ => k3 hE, ?_,
    fun _ => k2, by omega, ?_⟩ <;> cases op <;> simp_all [Dq.Op.erases, strong, single]

theorem Broken.fail {one : Bool} {bug P : Prop} {e : Exn} {o' : Obj DVec α} {op : Dq.Op α}
    (h : Broken H E al b cap f xs one bug P e o')
    (hs : ¬ bug ∨ (∀ t, E.throws t = false) ∨ (one = true ∧ NothrowMove E))
    (h2 : P → op.grows xs.length = true) (h1 : single op = one)
    (h6 : (∃ s, op = .pushFront s) ∨ (∃ s, op = .pushBack s) ∨ (∃ k s, op = .emplace k s) ∨
      (∃ k n s, op = .insertN k n s) ∨ (∃ k ys, op = .insertRange k ys)) :
    ∃ b' cap' f' xs', DSt H E o' al b' cap' f' xs' ∧ Failure E xs op e xs' := by
  obtain ⟨xs', k1, k2, k3⟩ := h.safe hs
  refine ⟨b, cap, f, xs', k1, ?_⟩
  have e1 : ∀ h3 : op.nothrow = false, ∀ h4 : wanted op = none, ∀ h5 : target op = none, ∀ h7 : op.erases = false,
      ∀ h8 : strong op = false, Failure E xs op e xs' := by
    intro h3 h4 h5 h7 h8
    exact ⟨h3, fun he => h2 (h.len he), by simp [h4], by simp [h5], fun _ => h7, by simp [h8], fun hE h => k3 (h1 ▸ h) hE,
      fun _ => k2, by omega, fun _ => ⟨fun n h => by subst h; simp [target] at h5, fun n s h => by subst h; simp [target] at h5⟩⟩
  rcases h6 with ⟨s, rfl⟩ | ⟨s, rfl⟩ | ⟨k, s, rfl⟩ | ⟨k, n, s, rfl⟩ | ⟨k, ys, rfl⟩ <;> exact e1 rfl rfl rfl rfl rfl

theorem exec_spec (hq : quiet = true → ∀ t, E.throws t = false) (op : Dq.Op α) (h : DSt H E o al b cap f xs)
    (hp : pre E quiet xs.length op = true) :
    wp (exec E op)
      (fun r o' => ∃ b' cap' f' xs', DSt H E o' al b' cap' f' xs' ∧ Dq.okStep E xs op r xs')
      (fun e o' => ∃ b' cap' f' xs', DSt H E o' al b' cap' f' xs' ∧ Failure E xs op e xs') o := by
  have hfit := h.fit
  have hcap := h.capLe
  have hnm : (E.nothrowMoveCtor = true ∧ E.nothrowMoveAssign = true) → NothrowMove E := fun h => h
  cases op with
  | pushFront s =>
    simp only [exec, wp_bind]
    refine wp_argOf h hp fun a v hg hv hsrc _ => ?_
    refine wp_mono (emplaceFrontAux_spec h hv hsrc) ?_ ?_
    · rintro p o1 ⟨b', cap', f', k1, rfl⟩
      exact wp_indexOf k1 (by simp) ⟨b', cap', f', _, k1, ⟨v, hg, by simp⟩, rfl⟩
    · rintro e o1 k
      exact k.fail (Or.inl id) (fun _ => rfl) rfl (Or.inl ⟨s, rfl⟩)
  | pushBack s =>
    simp only [exec, wp_bind]
    refine wp_argOf h hp fun a v hg hv hsrc _ => ?_
    refine wp_mono (emplaceBackAux_spec h hv hsrc) ?_ ?_
    · rintro p o1 ⟨b', cap', f', k1, rfl⟩
      exact wp_indexOf k1 (by simp) ⟨b', cap', f', _, k1, ⟨v, hg, by simp⟩, rfl⟩
    · rintro e o1 k
      exact k.fail (Or.inl id) (fun _ => rfl) rfl (Or.inr (Or.inl ⟨s, rfl⟩))
  | emplace k s =>
    obtain ⟨⟨hk, hs⟩, hc⟩ : (k ≤ xs.length ∧ s.ok xs.length = true) ∧
        (((quiet = true ∨ (E.nothrowMoveCtor = true ∧ E.nothrowMoveAssign = true)) ∨ xs.length + 1 ≠ 2 * k) ∨
          k = xs.length) := by simpa [pre] using hp
    simp only [exec, wp_bind]
    refine wp_argOf h hs fun a v hg hv hsrc _ => wp_nth h hk ?_
    refine wp_mono (emplace_spec h hv hsrc hk) ?_ ?_
    · rintro p o1 ⟨b', cap', f', k1, rfl⟩
      exact wp_indexOf k1 (by simp; omega) ⟨b', cap', f', _, k1, ⟨v, hg, by simp⟩, rfl⟩
    · rintro e o1 g
      refine g.fail ?_ (fun _ => rfl) rfl (Or.inr (Or.inr (Or.inl ⟨k, s, rfl⟩)))
      rcases hc with ((hc | hc) | hc) | hc
      · exact Or.inr (Or.inl (hq hc))
      · exact Or.inr (Or.inr ⟨rfl, hnm hc⟩)
      · exact Or.inl (fun hb => hc (clash_one hb hfit))
      · exact Or.inl (not_clash_end (Or.inr hc))
  | insertN k n s =>
    obtain ⟨⟨hk, hs⟩, hc⟩ : (k ≤ xs.length ∧ own s = true) ∧ ((quiet = true ∨ k = 0) ∨ k = xs.length) := by
      simpa [pre] using hp
    simp only [exec, wp_bind]
    refine wp_argOf h (by cases s <;> simp_all [own, Sq.Src.ok]) fun a v hg hv hsrc hx => wp_nth h hk ?_
    refine wp_mono (insertFillN_spec h (hx hs) hk) ?_ ?_
    · rintro p o1 ⟨b', cap', f', k1, rfl⟩
      exact wp_indexOf k1 (by simp; omega) ⟨b', cap', f', _, k1, ⟨v, hg, by simp⟩, rfl⟩
    · rintro e o1 g
      refine g.fail ?_ (fun hh => by simpa [Dq.Op.grows] using hh.1) rfl (Or.inr (Or.inr (Or.inr (Or.inl ⟨k, n, s, rfl⟩))))
      rcases hc with (hc | hc) | hc
      · exact Or.inr (Or.inl (hq hc))
      · exact Or.inl (not_clash_end (Or.inl hc))
      · exact Or.inl (not_clash_end (Or.inr hc))
  | insertRange k ys =>
    obtain ⟨hk, hc⟩ : k ≤ xs.length ∧ ((quiet = true ∨ k = 0) ∨ k = xs.length) := by
      simpa [pre] using hp
    simp only [exec, wp_bind]
    refine wp_nth h hk ?_
    refine wp_mono (insertRange_spec h (Exts.vals ys) hk) ?_ ?_
    · rintro p o1 ⟨b', cap', f', k1, rfl⟩
      exact wp_indexOf k1 (by simp; omega) ⟨b', cap', f', _, k1, rfl, rfl⟩
    · rintro e o1 g
      refine g.fail ?_ (fun hh => by simpa [Dq.Op.grows] using hh.1) rfl (Or.inr (Or.inr (Or.inr (Or.inr ⟨k, ys, rfl⟩))))
      rcases hc with (hc | hc) | hc
      · exact Or.inr (Or.inl (hq hc))
      · exact Or.inl (not_clash_end (Or.inl hc))
      · exact Or.inl (not_clash_end (Or.inr hc))
  | insertInput k ys =>
    obtain ⟨hk, hc⟩ : k ≤ xs.length ∧
        ((quiet = true ∨ (E.nothrowMoveCtor = true ∧ E.nothrowMoveAssign = true)) ∨ k = xs.length) := by
      simpa [pre] using hp
    simp only [exec, wp_bind]
    refine wp_nth h hk ?_
    refine wp_mono (insertInput_spec h (Exts.vals ys) hk) ?_ ?_
    · rintro p o1 ⟨b', cap', f', k1, rfl⟩
      exact wp_indexOf k1 (by simp; omega) ⟨b', cap', f', _, k1, rfl, rfl⟩
    · rintro e o1 ⟨g1, g⟩
      obtain ⟨b', cap', f', xs', k1, k2, k3⟩ := g (by
        rcases hc with (hc | hc) | hc
        · exact Or.inr (Or.inl (hq hc))
        · exact Or.inr (Or.inr (hnm hc))
        · exact Or.inl hc)
      refine ⟨b', cap', f', xs', k1, rfl, fun _ => ?_, by simp [wanted], by simp [target], fun _ => rfl,
        by simp [strong], by simp [single], by simp [stepwise], k2, by simp⟩
      have : ys ≠ [] := fun h => g1 (by simp [h])
      simpa [Dq.Op.grows] using List.length_pos_iff.mpr this
  | popFront =>
    have hk : xs ≠ [] := List.length_pos_iff.mp (by simpa [pre, Dq.Op.pre] using hp)
    simp only [exec, wp_bind, wp_pure]
    refine wp_mono (popFront_spec h hk) ?_ (fun _ _ h => h.elim)
    exact fun _ o1 k1 => ⟨b, cap, _, _, k1, rfl, rfl⟩
  | popBack =>
    have hk : xs ≠ [] := List.length_pos_iff.mp (by simpa [pre, Dq.Op.pre] using hp)
    simp only [exec, wp_bind, wp_pure]
    refine wp_mono (popBack_spec h hk) ?_ (fun _ _ h => h.elim)
    exact fun _ o1 k1 => ⟨b, cap, _, _, k1, rfl, rfl⟩
  | eraseAt k =>
    have hk : k < xs.length := by simpa [pre, Dq.Op.pre] using hp
    simp only [exec, wp_bind]
    refine wp_nth h (by omega) ?_
    refine wp_mono (erase_spec h hk) ?_ ?_
    · rintro p o1 ⟨f', k1, rfl⟩
      exact wp_indexOf k1 (by simp; omega) ⟨b, cap, f', _, k1, rfl, rfl⟩
    · rintro e o1 ⟨rfl, k1, k2⟩
      exact k2.fail k1 rfl
  | eraseRange k l =>
    obtain ⟨hkl, hl⟩ : k ≤ l ∧ l ≤ xs.length := by simpa [pre, Dq.Op.pre] using hp
    simp only [exec, wp_bind]
    refine wp_nth h (by omega) (wp_nth h hl ?_)
    refine wp_mono (eraseRange_spec h hkl hl) ?_ ?_
    · rintro p o1 ⟨f', k1, rfl⟩
      exact wp_indexOf k1 (by simp; omega) ⟨b, cap, f', _, k1, rfl, rfl⟩
    · rintro e o1 ⟨rfl, k1, -, -, k2⟩
      exact k2.fail k1 rfl
  | resize n =>
    simp only [exec, wp_bind, wp_pure]
    refine wp_mono (resizeWith_spec (v := E.dflt) h rfl rfl (fun _ => Exts.vals [E.dflt])) ?_ ?_
    · rintro _ o1 ⟨b', cap', f', i, j, k1, k2⟩
      exact ⟨b', cap', f', _, k1, ⟨i, j, k2, rfl⟩, rfl⟩
    · rintro e o1 ⟨k1, k2, b', cap', f', xs', k3, k4, k5, k6⟩
      refine ⟨b', cap', f', xs', k3, rfl, fun _ => by simpa [Dq.Op.grows] using k1, ?_, ?_, fun _ => rfl, by simp [strong],
        by simp [single], by simp [stepwise], k4, fun hE => ⟨fun _ _ => k6 hE, by simp⟩⟩
      · intro he m hm; simp only [wanted, Option.some.injEq] at hm; subst hm; exact k2 he
      · intro m hm; simp only [target, Option.some.injEq] at hm; subst hm; exact k1
  | resizeV n s =>
    obtain ⟨hs, hc⟩ : s.ok xs.length = true ∧ (own s = true ∨ n ≤ xs.length) := by simpa [pre] using hp
    simp only [exec, wp_bind, wp_pure]
    refine wp_argOf h hs fun a v hg hv hsrc hx => ?_
    refine wp_mono (resizeWith_spec (v := v) h hv hsrc (fun hn => hx (hc.resolve_right (by omega)))) ?_ ?_
    · rintro _ o1 ⟨b', cap', f', i, j, k1, k2⟩
      exact ⟨b', cap', f', _, k1, ⟨v, hg, i, j, k2, rfl⟩, rfl⟩
    · rintro e o1 ⟨k1, k2, b', cap', f', xs', k3, k4, k5, k6⟩
      refine ⟨b', cap', f', xs', k3, rfl, fun _ => by simpa [Dq.Op.grows] using k1, ?_, ?_, fun _ => rfl, by simp [strong],
        by simp [single], by simp [stepwise], k4, fun hE => ⟨by simp, ?_⟩⟩
      · intro he m hm; simp only [wanted, Option.some.injEq] at hm; subst hm; exact k2 he
      · intro m hm; simp only [target, Option.some.injEq] at hm; subst hm; exact k1
      · rintro n' s' he
        obtain ⟨-, rfl⟩ : n = n' ∧ s = s' := by simpa using he
        obtain ⟨m, hm⟩ := k6 hE
        exact ⟨m, v, hg, hm⟩
  | resizeFront n =>
    simp only [exec, wp_bind, wp_pure]
    refine wp_mono (resizeFrontWith_spec (v := E.dflt) h rfl rfl (fun _ => Exts.vals [E.dflt])) ?_ ?_
    · rintro _ o1 ⟨b', cap', f', k1⟩
      exact ⟨b', cap', f', _, k1, rfl, rfl⟩
    · rintro e o1 ⟨k1, -, b', cap', f', xs', k3, k4, k5⟩
      exact ⟨b', cap', f', xs', k3, rfl, fun _ => by simpa [Dq.Op.grows] using k1, by simp [wanted],
        by simpa [target] using k1, fun _ => rfl, fun hE _ => k5 hE, by simp [single], fun _ => k4, by omega, by simp⟩
  | resizeFrontV n s =>
    obtain ⟨hs, hc⟩ : s.ok xs.length = true ∧ (own s = true ∨ n ≤ xs.length) := by simpa [pre] using hp
    simp only [exec, wp_bind, wp_pure]
    refine wp_argOf h hs fun a v hg hv hsrc hx => ?_
    refine wp_mono (resizeFrontWith_spec (v := v) h hv hsrc (fun hn => hx (hc.resolve_right (by omega)))) ?_ ?_
    · rintro _ o1 ⟨b', cap', f', k1⟩
      exact ⟨b', cap', f', _, k1, ⟨v, hg, rfl⟩, rfl⟩
    · rintro e o1 ⟨k1, -, b', cap', f', xs', k3, k4, k5⟩
      exact ⟨b', cap', f', xs', k3, rfl, fun _ => by simpa [Dq.Op.grows] using k1, by simp [wanted],
        by simpa [target] using k1, fun _ => rfl, fun hE _ => k5 hE, by simp [single], fun _ => k4, by omega, by simp⟩
  | resizeBack n =>
    simp only [exec, wp_bind, wp_pure]
    refine wp_mono (resizeBackWith_spec (v := E.dflt) h rfl rfl (fun _ => Exts.vals [E.dflt])) ?_ ?_
    · rintro _ o1 ⟨b', cap', f', k1⟩
      exact ⟨b', cap', f', _, k1, rfl, rfl⟩
    · rintro e o1 ⟨k1, -, b', cap', f', xs', k3, k4, k5⟩
      exact ⟨b', cap', f', xs', k3, rfl, fun _ => by simpa [Dq.Op.grows] using k1, by simp [wanted],
        by simpa [target] using k1, fun _ => rfl, fun hE _ => k5 hE, by simp [single], fun _ => k4, by omega, by simp⟩
  | resizeBackV n s =>
    obtain ⟨hs, hc⟩ : s.ok xs.length = true ∧ (own s = true ∨ n ≤ xs.length) := by simpa [pre] using hp
    simp only [exec, wp_bind, wp_pure]
    refine wp_argOf h hs fun a v hg hv hsrc hx => ?_
    refine wp_mono (resizeBackWith_spec (v := v) h hv hsrc (fun hn => hx (hc.resolve_right (by omega)))) ?_ ?_
    · rintro _ o1 ⟨b', cap', f', k1⟩
      exact ⟨b', cap', f', _, k1, ⟨v, hg, rfl⟩, rfl⟩
    · rintro e o1 ⟨k1, -, b', cap', f', xs', k3, k4, k5⟩
      exact ⟨b', cap', f', xs', k3, rfl, fun _ => by simpa [Dq.Op.grows] using k1, by simp [wanted],
        by simpa [target] using k1, fun _ => rfl, fun hE _ => k5 hE, by simp [single], fun _ => k4, by omega, by simp⟩
  | assignN n v =>
    simp only [exec, wp_bind, wp_pure]
    refine wp_mono (assignFillN_spec h (Exts.vals [v])) ?_ ?_
    · rintro _ o1 ⟨b', cap', f', k1⟩
      exact ⟨b', cap', f', _, k1, rfl, rfl⟩
    · rintro e o1 ⟨⟨b', cap', f', xs', H', rfl, k1, k2, k3⟩, k4⟩
      refine ⟨b', cap', f', xs', k1, rfl, fun he => ?_, ?_, by simp [target], fun _ => rfl,
        by simp [strong], by simp [single], by simp [stepwise], k2, by simp⟩
      · have := k4 he; simp [Dq.Op.grows]; omega
      · intro he m hm; simp only [wanted, Option.some.injEq] at hm; subst hm; exact k4 he
  | assignRange ys =>
    simp only [exec, wp_bind, wp_pure]
    refine wp_mono (assignRange_spec h (Feed.copy (Exts.vals ys))) ?_ ?_
    · rintro _ o1 ⟨b', cap', f', H', ⟨-, rfl⟩, k1⟩
      exact ⟨b', cap', f', _, k1, rfl, rfl⟩
    · rintro e o1 ⟨⟨b', cap', f', xs', H', rfl, k1, k2, k3⟩, k4⟩
      refine ⟨b', cap', f', xs', k1, rfl, fun he => ?_, ?_, by simp [target], fun _ => rfl,
        by simp [strong], by simp [single], by simp [stepwise], k2, by simp⟩
      · have := k4 he; simp [Dq.Op.grows]; omega
      · intro he m hm; simp only [wanted, Option.some.injEq] at hm; subst hm; exact k4 he
  | assignInput ys =>
    simp only [exec, wp_bind, wp_pure]
    refine wp_mono (assignInput_spec h (Exts.vals ys)) ?_ ?_
    · rintro _ o1 ⟨b', cap', f', k1⟩
      exact ⟨b', cap', f', _, k1, rfl, rfl⟩
    · rintro e o1 ⟨⟨b', cap', f', xs', k1, k2, k3⟩, k4⟩
      exact ⟨b', cap', f', xs', k1, rfl, fun he => by simpa [Dq.Op.grows] using k4 he, by simp [wanted], by simp [target],
        fun _ => rfl, by simp [strong], by simp [single], by simp [stepwise], k2, by simp⟩
  | clear =>
    simp only [exec, wp_bind, wp_pure]
    refine wp_mono (clear_spec h) ?_ (fun _ _ h => h.elim)
    exact fun _ o1 k1 => ⟨b, cap, _, _, k1, rfl, rfl⟩
  | reserveFront n =>
    simp only [exec, wp_bind, wp_pure]
    refine wp_mono (reserveFront_spec h) ?_ ?_
    · rintro _ o1 ⟨b', cap', f', k1, -⟩
      exact ⟨b', cap', f', _, k1, rfl, rfl⟩
    · rintro e o1 k
      exact k.fail rfl (fun h => by simp [Dq.Op.grows]; omega) rfl rfl rfl
  | reserveBack n =>
    simp only [exec, wp_bind, wp_pure]
    refine wp_mono (reserveBack_spec h) ?_ ?_
    · rintro _ o1 ⟨b', cap', k1, -⟩
      exact ⟨b', cap', f, _, k1, rfl, rfl⟩
    · rintro e o1 k
      exact k.fail rfl (fun h => by simp [Dq.Op.grows]; omega) rfl rfl rfl
  | shrinkToFit =>
    simp only [exec, wp_bind, wp_pure]
    refine wp_mono (shrinkToFit_spec h) ?_ ?_
    · rintro _ o1 ⟨b', k1⟩
      exact ⟨b', _, 0, _, k1, rfl, rfl⟩
    · rintro e o1 k
      exact k.fail rfl (fun h => h.elim) rfl rfl rfl
  | eraseIf g =>
    simp only [exec, wp_bind, wp_pure]
    refine wp_mono (eraseIf_spec h) ?_ ?_
    · rintro r o1 ⟨f', k1, k2⟩
      refine ⟨b, cap, f', _, k1, rfl, ?_⟩
      rw [k2, Dq.Op.ret]
      congr 1
      have := xs.length_eq_countP_add_countP (p := g)
      rw [← List.countP_eq_length_filter]
      have e : List.countP (fun x => !g x) xs = List.countP (fun a => decide (¬ g a = true)) xs := by
        congr 1; funext x; cases g x <;> rfl
      omega
    · rintro e o1 ⟨rfl, k1, k2⟩
      exact k2.fail k1 rfl

theorem construct_spec {m : St α} (init : Sq.Init α) (hg : Gone H al 0 0 m) :
    wp (construct' E init) (fun _ o' => ∃ b' cap' f', DSt H E o' al b' cap' f' (init.result E.dflt))
      (fun e o' => Gone H al 0 0 o'.m ∧ (e = .lengthError → 0 < (init.result E.dflt).length))
      ⟨empty al, m⟩ := by
  have key : ∀ as vs, Exts H E as vs → wp (initWith E as)
      (fun _ o' => ∃ b' cap' f', DSt H E o' al b' cap' f' vs)
      (fun e o' => Gone H al 0 0 o'.m ∧ (e = .lengthError → 0 < vs.length)) ⟨empty al, m⟩ := by
    intro as vs hx
    refine wp_mono (initWith_spec hg (Feed.copy hx)) ?_ ?_
    · rintro _ o' ⟨b', H', ⟨-, rfl⟩, k⟩
      exact ⟨b', _, 0, k⟩
    · rintro e o' ⟨⟨H', rfl, k⟩, k2⟩
      exact ⟨k, fun he => Nat.lt_of_le_of_lt (Nat.zero_le _) (k2 he)⟩
  cases init with
  | empty => exact ⟨0, 0, 0, Gone.dst hg⟩
  | count n => exact key _ _ (Exts.replicateVal n E.dflt)
  | fill n v => exact key _ _ (Exts.replicateVal n v)
  | range ys => exact key _ _ (Exts.vals ys)
  | input ys =>
    refine wp_mono (initInput_spec hg (Exts.vals ys)) (fun _ _ h => h) ?_
    rintro e o' ⟨k1, k2⟩
    exact ⟨k2, fun _ => List.length_pos_iff.mpr (fun h => k1 (by simp only [Sq.Init.result] at h; simp [h]))⟩

end

/-- Ownership by a devector: one block, or none. -/
def rep (K : Nat) (E : Env α) : Rep K DVec α where
  rep := fun _ m v al xs F => ∃ b cap f, DOwn E m v al b cap f xs ∧ F = foot b 0
  raw := fun _ m => ((0 = 0 ∧ 0 = 0) ∨ m.blk 0 = some ⟨0, none⟩) ∧ ∀ k, m.mem 0 k = none
  dead := fun _ => foot 0 0

section
variable {K : Nat} {E : Env α} {T : Traits} {quiet : Bool} {m m' : St α}

theorem rep_ok : (rep K E).Ok (cont K E T) :=
  have hv := (Vector.spec (K := K) (T := T) (E := E)).ok
  { live := by
      rintro i m v al xs F ⟨b, cap, f, h, rfl⟩ c ⟨h0, rfl | rfl⟩
      · rw [h.b_some h0]; simp
      · exact absurd rfl h0
    deadSub := by
      rintro i m v al xs F ⟨b, cap, f, h, rfl⟩ c ⟨h0, h1⟩
      exact absurd (h1.elim id id) h0
    frame := by
      rintro i m m' v al xs F hw hw' ⟨b, cap, f, h, rfl⟩ hm
      refine ⟨b, cap, f, ?_, rfl⟩
      by_cases h0 : b = 0
      · subst h0
        exact h.frame (by rw [hw.blk_zero, hw'.blk_zero]) (fun i => by rw [hw.dead 0 hw.blk_zero, hw'.dead 0 hw'.blk_zero])
      · exact h.frame (hm b ⟨h0, Or.inl rfl⟩).1 (hm b ⟨h0, Or.inl rfl⟩).2
    alloc := by
      rintro i m v al xs F ⟨b, cap, f, h, rfl⟩
      show v.alloc = al
      rw [h.obj]
    rawLive := fun {i} => hv.rawLive (i := i)
    rawFrame := fun {i} => hv.rawFrame (i := i)
    rawEq := fun {i} => hv.rawEq (i := i) }

theorem now {i : Fin K} {b b' cap' f' al' : Nat} {xs' : List α} {o' : Obj DVec α} (hw : m.Wf)
    (h : DSt (Heap.out m (fun c => c = b ∨ c = 0)) E o' al' b' cap' f' xs') : (rep K E).Now i m (foot b 0) al' xs' o' :=
  ⟨foot b' 0, ⟨b', cap', f', h.toOwn, rfl⟩, Rest.toFrame hw h.st.wf h.rest⟩

theorem disj {b1 b2 : Nat} (h : b1 ≠ 0 → b1 ≠ b2) : Disj (foot b1 0) (foot b2 0) := by
  rintro c ⟨h0, h1 | h1⟩ ⟨_, h2 | h2⟩
  · exact h (h1 ▸ h0) (h1.symm.trans h2)
  · exact h0 h2
  · exact h0 h1
  · exact h0 h1

theorem now2 {i j : Fin K} {c1 c2 al1 b1 cap1 f1 al2 b2 cap2 f2 : Nat} {xs1 xs2 : List α} {o' : Obj (DVec × DVec) α} (hw : m.Wf)
    (h : DPair (Heap.out m (fun c => (c = c1 ∨ c = 0) ∨ (c = c2 ∨ c = 0))) E o'.m o'.obj.1 o'.obj.2
      al1 b1 cap1 f1 xs1 al2 b2 cap2 f2 xs2) :
    (rep K E).Now2 i j m (Both (foot c1 0) (foot c2 0)) al1 xs1 al2 xs2 o' := by
  refine ⟨foot b1 0, foot b2 0, ⟨b1, cap1, f1, h.one, rfl⟩, ⟨b2, cap2, f2, h.two, rfl⟩, disj h.sep, ?_⟩
  rw [foot_both, foot_both]
  exact Rest.toFrame hw h.wf h.rest

theorem DOwn.pair {v w : DVec} {al b cap f al2 b2 cap2 f2 : Nat} {xs xs2 : List α} (hw : m.Wf)
    (h1 : DOwn E m v al b cap f xs) (h2 : DOwn E m w al2 b2 cap2 f2 xs2) (hd : Disj (foot b 0) (foot b2 0)) :
    DPair (Heap.out m (fun c => (c = b ∨ c = 0) ∨ (c = b2 ∨ c = 0))) E m v w al b cap f xs al2 b2 cap2 f2 xs2 :=
  ⟨hw, h1, h2, fun h0 e => hd b ⟨h0, Or.inl rfl⟩ ⟨h0, Or.inl e⟩, Rest.out _ _⟩

/-- devector satisfies the requirements. -/
theorem spec (hq : quiet = true → ∀ t, E.throws t = false) : Spec (cont K E T) (sem E T quiet) (rep K E) where
  ok := rep_ok
  make := by
    intro i m al init hw hr _
    have hv := (DOwn.empty (E := E) (al := al) hw).dst hw (Rest.out _ _)
    refine wp_mono (construct_spec init hv.gone) ?_ ?_
    · rintro _ o' ⟨b', cap', f', h⟩
      exact ⟨_, now hw h, rfl⟩
    · rintro e o' ⟨h1, h2⟩
      exact ⟨h1.rawFrame (E := E) (ib := fun _ : Fin K => 0) (i := i) hw, h2⟩
  copy := by
    rintro i j m al w al2 xs2 F2 hij hw hr ⟨b2, cap2, f2, h2, rfl⟩ hd
    have hp := DOwn.pair hw (DOwn.empty (E := E) (al := al) hw) h2 hd
    refine wp_mono (initCopy_spec hp) ?_ ?_
    · rintro _ o' ⟨b', h⟩
      exact now hw h
    · rintro e o' ⟨h1, _⟩
      exact h1.rawFrame (E := E) (ib := fun _ : Fin K => 0) (i := i) hw
  move := by
    rintro i j m al w al2 xs2 F2 hij hw hr ⟨b2, cap2, f2, h2, rfl⟩ hd
    have hp := DOwn.pair hw (DOwn.empty (E := E) (al := al) hw) h2 hd
    refine wp_mono (initMove_spec hp) ?_ ?_
    · rintro _ o' ⟨b1', cap1', f1', b2', cap2', f2', ys, h, hy⟩
      refine ⟨ys, now2 hw h, ?_⟩
      simp only [sem, decide_eq_true_eq]
      exact hy
    · rintro e o' ⟨ys, h, hy⟩
      refine ⟨⟨Or.inl ⟨rfl, rfl⟩, h.wf.dead 0 h.wf.blk_zero⟩, ys, foot b2 0, ⟨b2, cap2, f2, h.two, rfl⟩, disj h.sep, ?_, hy⟩
      show Frame m (Both (foot 0 0) (foot b2 0)) o'.m (Both (foot 0 0) (foot b2 0))
      rw [foot_both]
      exact Rest.toFrame hw h.wf h.rest
  destroy := by
    rintro i m v al xs F hw ⟨b, cap, f, h, rfl⟩
    exact wp_mono (destroy_spec (h.dst hw (Rest.out _ _)))
      (fun _ _ g => g.rawFrame (E := E) (ib := fun _ : Fin K => 0) (i := i) hw) (fun _ _ h => h)
  size := by
    rintro i m v al xs F hw ⟨b, cap, f, h, rfl⟩
    exact wp_size (h.dst hw (Rest.out _ _)) ⟨rfl, rfl⟩
  index := by
    rintro i m v al xs F k x hw ⟨b, cap, f, h, rfl⟩ hk
    exact index_spec (h.dst hw (Rest.out _ _)) hk
  exec := by
    rintro i m v al xs F op hw ⟨b, cap, f, h, rfl⟩ hp
    refine wp_mono (exec_spec hq op (h.dst hw (Rest.out _ _)) hp) ?_ ?_
    · rintro r o' ⟨b', cap', f', xs', k1, k2⟩
      exact ⟨xs', now hw k1, k2⟩
    · rintro r o' ⟨b', cap', f', xs', k1, k2⟩
      exact ⟨xs', now hw k1, k2⟩
  assignCopy := by
    rintro i j m v al xs F w al2 xs2 F2 hij hw ⟨b, cap, f, h, rfl⟩ ⟨b2, cap2, f2, h2, rfl⟩ hd hp'
    have hp := DOwn.pair hw h h2 hd
    have hs : T.pocca = false ∨ al = al2 := by simpa [sem] using hp'
    refine wp_mono (assignCopy_spec (T := T) hp ?_) ?_ ?_
    · intro h1 h2
      rcases hs with h | h
      · rw [h] at h1; simp at h1
      · exact absurd h h2
    · rintro _ o' ⟨b1', cap', f', k⟩
      exact now hw k
    · rintro _ o' ⟨-, b1', cap', f', xs1', k⟩
      exact Or.inl ⟨xs1', now hw k, trivial⟩
  assignMove := by
    rintro i j m v al xs F w al2 xs2 F2 hij hw ⟨b, cap, f, h, rfl⟩ ⟨b2, cap2, f2, h2, rfl⟩ hd hp'
    have hp := DOwn.pair hw h h2 hd
    obtain ⟨hs1, hs2⟩ : T.pocma = false ∧ al ≠ al2 := by simpa [sem] using hp'
    refine wp_mono (assignMove_spec (T := T) hp ?_) ?_ ?_
    · rintro (h | h)
      · rw [hs1] at h; simp at h
      · exact absurd h hs2
    · rintro _ o' ⟨b1', cap1', f1', b2', cap2', f2', ys, k, hy⟩
      refine ⟨ys, now2 hw k, ?_⟩
      simp only [sem, Bool.or_eq_true, decide_eq_true_eq]
      exact hy
    · rintro e o' ⟨-, b1', cap1', f1', xs1', ys, k, hy⟩
      exact Or.inl ⟨xs1', ys, now2 hw k, trivial, hy⟩
  swap := by
    rintro i j m v al xs F w al2 xs2 F2 hij hw ⟨b, cap, f, h, rfl⟩ ⟨b2, cap2, f2, h2, rfl⟩ hd hs
    have hp := DOwn.pair hw h h2 hd
    have hs' : T.pocs = true ∨ al = al2 := by
      simpa only [sem, Bool.or_eq_true, beq_iff_eq] using hs
    have e1 : (if (sem E T quiet).T.pocs = true then al2 else al) = al2 := by
      split
      · rfl
      · rcases hs' with h1 | h1
        · exact absurd h1 ‹_›
        · exact h1
    have e2 : (if (sem E T quiet).T.pocs = true then al else al2) = al := by
      split
      · rfl
      · rcases hs' with h1 | h1
        · exact absurd h1 ‹_›
        · exact h1.symm
    rw [e1, e2]
    exact wp_mono (swap_spec hp hs') (fun _ o' k => now2 hw k) (fun _ _ h => h.elim)

end
end Sfl.Devector
