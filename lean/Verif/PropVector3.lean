import Verif.PropTwo
import Verif.Compare
/-
  Properties of vector and small_vector: comparison operators (C09), erase and erase_if (C10).
-/

namespace Sfl
open Sq World
variable {α : Type}

/-! ### C10: erase, erase_if -/

/-- **C10.** If `erase_if(c, f)` (or `erase(c, value)`, with `f x := x == value`) succeeds, exactly the elements that
do not match are left, in order, and their number is returned; it does not fail if moves of elements do not throw. -/
theorem vector_eraseIf {E : Env α} {al : Nat} {m0 : St α} {o : Obj Vec α} (hw : m0.Wf)
    (hr : Vector.Reachable E al m0 o) (f : α → Bool) :
    ∃ xs, (Vector.impl E).contents o = .ok xs o ∧
      (∀ r o', Vector.eraseIf E f o = .ok r o' →
        (Vector.impl E).contents o' = .ok (xs.filter (fun x => !f x)) o' ∧ r = xs.countP f) ∧
      (∀ u, Vector.eraseIf E f o ≠ .ub u) ∧
      (E.nothrowMoveAssign = true → ∃ r o', Vector.eraseIf E f o = .ok r o') := by
  obtain ⟨xs, b, cap, h⟩ := hr.repr hw
  have C := Vector.correct (Heap.around m0 0) E al
  obtain ⟨_, _, c1, rfl, rfl⟩ := wp_elim (C.contents (xs := xs) ⟨b, cap, h⟩)
  refine ⟨_, c1, fun r o' hx => ?_, fun u => wp_not_ub (eraseIf_spec h), fun hE => ?_⟩
  · obtain ⟨k1, -, k2⟩ := wp_ok hx (eraseIf_spec h)
    obtain ⟨_, _, c2, rfl, rfl⟩ := wp_elim (C.contents (xs := _) ⟨b, cap, k1⟩)
    refine ⟨c2, ?_⟩
    rw [k2, List.length_eq_countP_add_countP f, ← List.countP_eq_length_filter]
    have : List.countP (fun a => decide ¬f a = true) ‹List α› = List.countP (fun x => !f x) ‹List α› :=
      List.countP_congr (by simp)
    omega
  · have := wp_mono (eraseIf_spec (f := f) h) (Q' := fun _ _ => True) (X' := fun _ _ => False) (fun _ _ _ => trivial)
      (by rintro e o' ⟨_, _, _, _, _, k⟩; rw [hE] at k; cases k)
    obtain ⟨r, o', e, -⟩ := wp_elim this
    exact ⟨r, o', e⟩

/-- **C10** for small_vector. -/
theorem smallVector_eraseIf {E : Env α} {ib N al : Nat} {m0 : St α} {o : Obj Vec α} (hr : RawObject m0 ib N)
    (hN : N ≤ E.maxSize) (h : SmallVector.Reachable E ib N al m0 o) (f : α → Bool) :
    ∃ xs, (SmallVector.impl E ib N).contents o = .ok xs o ∧
      (∀ r o', Vector.eraseIf E f o = .ok r o' →
        (SmallVector.impl E ib N).contents o' = .ok (xs.filter (fun x => !f x)) o' ∧ r = xs.countP f) ∧
      (∀ u, Vector.eraseIf E f o ≠ .ub u) ∧
      (E.nothrowMoveAssign = true → ∃ r o', Vector.eraseIf E f o = .ok r o') := by
  obtain ⟨xs, b, cap, h⟩ := h.repr hr hN
  have C := SmallVector.correct (Heap.around m0 ib) E al ib N
  obtain ⟨_, _, c1, rfl, rfl⟩ := wp_elim (C.contents (xs := xs) ⟨b, cap, h⟩)
  refine ⟨_, c1, fun r o' hx => ?_, fun u => wp_not_ub (eraseIf_spec h), fun hE => ?_⟩
  · obtain ⟨k1, -, k2⟩ := wp_ok hx (eraseIf_spec h)
    obtain ⟨_, _, c2, rfl, rfl⟩ := wp_elim (C.contents (xs := _) ⟨b, cap, k1⟩)
    refine ⟨c2, ?_⟩
    rw [k2, List.length_eq_countP_add_countP f, ← List.countP_eq_length_filter]
    have : List.countP (fun a => decide ¬f a = true) ‹List α› = List.countP (fun x => !f x) ‹List α› :=
      List.countP_congr (by simp)
    omega
  · have := wp_mono (eraseIf_spec (f := f) h) (Q' := fun _ _ => True) (X' := fun _ _ => False) (fun _ _ _ => trivial)
      (by rintro e o' ⟨_, _, _, _, _, k⟩; rw [hE] at k; cases k)
    obtain ⟨r, o', e, -⟩ := wp_elim this
    exact ⟨r, o', e⟩

/-- The hypotheses are met: removing the odd numbers. -/
example : SmallVector.Reachable (Demo.env []) 2 3 7 Demo.m2 (Demo.sv (Demo.env [])) ∧
    Demo.show' ((do
      let xs ← (SmallVector.impl (Demo.env []) 2 3).contents
      let r ← Vector.eraseIf (Demo.env []) (fun x => x % 2 == 1)
      let ys ← (SmallVector.impl (Demo.env []) 2 3).contents
      pure (xs, r, ys) : Vector.VM Nat _) (Demo.sv (Demo.env []))) = some ([5, 6, 7], 2, [6]) := by
  refine ⟨Demo.sv_reachable _, by decide +kernel⟩

/-! ### C09: comparison -/

theorem Own.holds {E : Env α} {ib N : Nat} {m : St α} {v : Vec} {al b cap : Nat} {xs : List α}
    (h : Own E ib N m v al b cap xs) : v.Holds m xs := by
  refine ⟨by rw [h.obj], by rw [h.obj]; simp, fun i _ => ?_⟩
  rw [h.obj]
  simpa using h.cells i

/-- What a program that ends in the state `o` with the abstract containers `A` can observe by comparing: for the
containers in any two slots (also the same one) every comparison operator gives the answer for their elements and
changes nothing. -/
def ComparesLike {K : Nat} (eq lt : α → α → Bool) (o : Slots K Vec α) (A : Abs K α) : Prop :=
  ∀ i j a b xs ys, A i = some (a, xs) → A j = some (b, ys) → ∃ v w, o.obj i = some v ∧ o.obj j = some w ∧
    ∀ c : Cmp, ∃ r, Vec.compare eq lt v w c o.m = .ok r o.m ∧ (r = true ↔ c.Holds eq lt xs ys)

theorem World.Inv.compares {K : Nat} {E : Env α} {ib : Fin K → Nat} {N : Nat} {m0 : St α} {o : Slots K Vec α} {A : Abs K α}
    {F : Fin K → Foot} (h : Inv (SmallVector.rep E ib N) m0 o A F) (eq lt : α → α → Bool) : ComparesLike eq lt o A := by
  intro i j a b xs ys hi hj
  have get : ∀ i a xs, A i = some (a, xs) → ∃ v, o.obj i = some v ∧ v.Holds o.m xs := by
    intro i a xs hi
    have := h.cell i
    rw [hi] at this
    cases hv : o.obj i with
    | none => rw [hv] at this; exact this.elim
    | some v =>
      rw [hv] at this
      obtain ⟨b, cap, k, -⟩ := this
      exact ⟨v, rfl, k.holds⟩
  obtain ⟨v, hv, kv⟩ := get i a xs hi
  obtain ⟨w, hw, kw⟩ := get j b ys hj
  refine ⟨v, w, hv, hw, fun c => ?_⟩
  obtain ⟨r, s', e, k, rfl⟩ := wp_elim (compare_spec (eq := eq) (lt := lt) (X := fun _ _ => False) kv kw c)
  exact ⟨r, e, k⟩

/-- **C09.** After any program with any number of vectors, comparing two of them gives the answer for their elements. -/
theorem vector_compare (K : Nat) (E : Env α) (T : Traits) (m0 : St α) (hw : m0.Wf) (eq lt : α → α → Bool)
    (ops : List (WOp K (Sq.Op α) (Sq.Init α))) :
    ∃ log A o, World.runOps (Vector.cont K E T) (Vector.sem E T) ops ⟨fun _ => none, m0⟩ = .ok log o ∧
      WRun (Vector.sem E T) (fun _ => none) ops log A ∧ ComparesLike eq lt o A := by
  have h : Inv (SmallVector.rep E (fun _ : Fin K => 0) 0) m0 (⟨fun _ => none, m0⟩ : Slots K Vec α) (fun _ => none)
      (SmallVector.rep E (fun _ : Fin K => 0) 0).dead :=
    Vector.spec (T := T).start hw (fun i => ⟨Or.inl ⟨rfl, rfl⟩, hw.dead 0 hw.blk_zero⟩)
      (fun i j _ c h => absurd (h.2.elim id id) h.1)
  obtain ⟨log, o, e, A, F, k1, k2⟩ := wp_elim (Vector.spec.runOps ops h)
  exact ⟨log, A, o, e, k2, k1.compares eq lt⟩

/-- **C09** for small_vector. -/
theorem smallVector_compare (K : Nat) (E : Env α) (T : Traits) (N : Nat) (ib : Fin K → Nat) (m0 : St α)
    (hw : m0.Wf) (hr : ∀ i, RawObject m0 (ib i) N) (hd : ∀ i j, i ≠ j → ib i ≠ 0 → ib i ≠ ib j) (hN : N ≤ E.maxSize)
    (eq lt : α → α → Bool) (ops : List (WOp K (Sq.Op α) (Sq.Init α))) :
    ∃ log A o, World.runOps (SmallVector.cont E T ib N) (SmallVector.sem E T) ops ⟨fun _ => none, m0⟩ = .ok log o ∧
      WRun (SmallVector.sem E T) (fun _ => none) ops log A ∧ ComparesLike eq lt o A := by
  have h := (SmallVector.spec (T := T) hN).start hw (fun i => ⟨(hr i).blk, (hr i).raw⟩) (by
    intro i j hij c h1 h2
    have e1 := h1.2.elim id id
    have e2 := h2.2.elim id id
    exact hd i j hij (e1 ▸ h1.1) (e1.symm.trans e2))
  obtain ⟨log, o, e, A, F, k1, k2⟩ := wp_elim ((SmallVector.spec hN).runOps ops h)
  exact ⟨log, A, o, e, k2, k1.compares eq lt⟩

/-- Compare the containers in two slots with all operators. -/
def Demo.compareAll {K : Nat} (i j : Fin K) : M (Slots K Vec Nat) (List Bool) := fun o =>
  match o.obj i, o.obj j with
  | some v, some w =>
    match ([Cmp.eq, .ne, .lt, .gt, .le, .ge].mapM (fun c => Vec.compare (· == ·) (fun a b => decide (a < b)) v w c)) o.m with
    | .ok r s => .ok r ⟨o.obj, s⟩
    | .exn e s => .exn e ⟨o.obj, s⟩
    | .ub u => .ub u
  | _, _ => .ub .badRange

/-- `[1, 2]` and `[1, 2, 3]`, `[1, 2, 3]` and itself, in small_vector<int, 2>. -/
example : Demo.show' ((do
    let _ ← World.runOps (SmallVector.cont (Demo.env []) Demo.T Demo.ib3 2) (SmallVector.sem (Demo.env []) Demo.T)
      [.make 0 7 (.range [1, 2]), .make 1 7 (.range [1, 2, 3])]
    let a ← Demo.compareAll 0 1
    let b ← Demo.compareAll 1 1
    pure (a, b) : M (Slots 3 Vec Nat) _) ⟨fun _ => none, Demo.m3⟩) =
    some ([false, true, true, false, true, false], [true, false, false, false, true, true]) := by decide +kernel

/-- **C09**, order laws: the relation computed by `operator<` is a strict weak order on sequences if the order of the
elements is one. -/
theorem lexicographic_strictWeak {lt : α → α → Bool} (h : StrictWeak (fun a b => lt a b = true)) :
    StrictWeak (LexLt lt) := lexLt_strictWeak h

example : StrictWeak (fun a b : Nat => decide (a / 2 < b / 2) = true) :=
  ⟨by simp, by simp; omega, by simp; omega⟩

end Sfl
