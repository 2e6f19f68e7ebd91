import Verif.Access
import Verif.PropSegDev
import Verif.PropUnord2
import Verif.PropDevector
/-
  Access to elements (C43) for all containers, and comparison (C09) for the segmented ones. The theorems are about the
  containers in the state after an arbitrary program with any number of containers.
-/

namespace Sfl
open Sq World
variable {α : Type}

/-- Iterators and positions of every container present in `o` are those of its list in `A`. -/
def Visited {K : Nat} {V : Type} (w : Walker V α) (o : Slots K V α) (A : Abs K α) : Prop :=
  ∀ i a xs, A i = some (a, xs) → ∃ v, o.obj i = some v ∧ w.Visits ⟨v, o.m⟩ xs

/-- The same, and `at`, `operator[]`, `front` and `back` find the elements of the list. -/
def Accessed {K : Nat} {V : Type} (w : Walker V α) (g : Getter V α) (o : Slots K V α) (A : Abs K α) : Prop :=
  ∀ i a xs, A i = some (a, xs) → ∃ v, o.obj i = some v ∧ w.Visits ⟨v, o.m⟩ xs ∧ g.Gets ⟨v, o.m⟩ xs

/-- Every comparison operator of a segmented container gives the answer for the elements, for any two containers (also the
same one), and changes nothing. -/
def SegCompared {K : Nat} {V : Type} (N : Nat) (bounds : V → Seg.Bounds) (eq lt : α → α → Bool) (o : Slots K V α)
    (A : Abs K α) : Prop :=
  ∀ i j a b xs ys, A i = some (a, xs) → A j = some (b, ys) → ∃ v w, o.obj i = some v ∧ o.obj j = some w ∧
    ∀ c : Cmp, ∃ r, Seg.compare N eq lt (bounds v) (bounds w) c o.m = .ok r o.m ∧ (r = true ↔ c.Holds eq lt xs ys)

theorem accessed {K : Nat} {o : Slots K Vec α} {A : Abs K α}
    (get : ∀ i a xs, A i = some (a, xs) → ∃ v, o.obj i = some v ∧ v.Holds o.m xs) :
    Accessed Vector.walker Vector.getter o A := by
  intro i a xs hi
  obtain ⟨v, hv, k⟩ := get i a xs hi
  have k' : (⟨v, o.m⟩ : Obj Vec α).obj.Holds (⟨v, o.m⟩ : Obj Vec α).m xs := k
  exact ⟨v, hv, k'.line.visits, k'.gets⟩

theorem Accessed.visited {K : Nat} {V : Type} {w : Walker V α} {g : Getter V α} {o : Slots K V α} {A : Abs K α}
    (h : Accessed w g o A) : Visited w o A := by
  intro i a xs hi
  obtain ⟨v, hv, k, -⟩ := h i a xs hi
  exact ⟨v, hv, k⟩

/-- The object in an occupied slot satisfies the representation relation. -/
theorem World.Inv.found {K : Nat} {V : Type} {R : Rep K V α} {m0 : St α} {o : Slots K V α} {A : Abs K α} {F : Fin K → Foot}
    (h : Inv R m0 o A F) {i : Fin K} {a : Nat} {xs : List α} (hi : A i = some (a, xs)) :
    ∃ v, o.obj i = some v ∧ R.rep i o.m v a xs (F i) := by
  have := h.cell i
  rw [hi] at this
  cases hv : o.obj i with
  | none => rw [hv] at this; exact this.elim
  | some v => rw [hv] at this; exact ⟨v, rfl, this⟩

/-! ### Contiguous containers -/

/-- **C43** for vector: after any program, iterators, `nth`, `index_of`, `at`, `operator[]`, `front`, `back`, `size` and
`empty` of every vector find exactly its elements; `at` throws out_of_range exactly beyond the end; nothing changes. -/
theorem vector_access (K : Nat) (E : Env α) (T : Traits) (m0 : St α) (hw : m0.Wf) (ops : List (WOp K (Sq.Op α) (Sq.Init α))) :
    ∃ log A o, World.runOps (Vector.cont K E T) (Vector.sem E T) ops ⟨fun _ => none, m0⟩ = .ok log o ∧
      WRun (Vector.sem E T) (fun _ => none) ops log A ∧ Accessed Vector.walker Vector.getter o A := by
  have h : Inv (SmallVector.rep E (fun _ : Fin K => 0) 0) m0 (⟨fun _ => none, m0⟩ : Slots K Vec α) (fun _ => none)
      (SmallVector.rep E (fun _ : Fin K => 0) 0).dead :=
    Vector.spec (T := T).start hw (fun i => ⟨Or.inl ⟨rfl, rfl⟩, hw.dead 0 hw.blk_zero⟩)
      (fun i j _ c h => absurd (h.2.elim id id) h.1)
  obtain ⟨log, o, e, A, F, k1, k2⟩ := wp_elim (Vector.spec.runOps ops h)
  exact ⟨log, A, o, e, k2, accessed k1.holds⟩

/-- **C43** for small_vector, in both storage modes. -/
theorem smallVector_access (K : Nat) (E : Env α) (T : Traits) (N : Nat) (ib : Fin K → Nat) (m0 : St α)
    (hw : m0.Wf) (hr : ∀ i, RawObject m0 (ib i) N) (hd : ∀ i j, i ≠ j → ib i ≠ 0 → ib i ≠ ib j) (hN : N ≤ E.maxSize)
    (ops : List (WOp K (Sq.Op α) (Sq.Init α))) :
    ∃ log A o, World.runOps (SmallVector.cont E T ib N) (SmallVector.sem E T) ops ⟨fun _ => none, m0⟩ = .ok log o ∧
      WRun (SmallVector.sem E T) (fun _ => none) ops log A ∧ Accessed Vector.walker Vector.getter o A := by
  have h := (SmallVector.spec (T := T) hN).start hw (fun i => ⟨(hr i).blk, (hr i).raw⟩) (by
    intro i j hij c h1 h2
    have e1 := h1.2.elim id id
    have e2 := h2.2.elim id id
    exact hd i j hij (e1 ▸ h1.1) (e1.symm.trans e2))
  obtain ⟨log, o, e, A, F, k1, k2⟩ := wp_elim ((SmallVector.spec hN).runOps ops h)
  exact ⟨log, A, o, e, k2, accessed k1.holds⟩

/-- **C43** for static_vector. -/
theorem staticVector_access (K : Nat) (E : Env α) (N : Nat) (ib : Fin K → Nat) (m0 : St α) (hm : Objects E ib N m0)
    (ops : List (WOp K (Sq.Op α) (Sq.Init α))) :
    ∃ log A o, World.runOps (StaticVector.cont E ib N) (StaticVector.sem E N) ops ⟨fun _ => none, m0⟩ = .ok log o ∧
      WRun (StaticVector.sem E N) (fun _ => none) ops log A ∧ Accessed Vector.walker Vector.getter o A := by
  have hS := StaticVector.spec (E := E) (ib := ib) hm.fits
  obtain ⟨log, o, e, A, F, k1, k2⟩ := wp_elim (hS.runOps ops (hS.start hm.wf hm.static.1 hm.static.2))
  exact ⟨log, A, o, e, k2, accessed k1.staticHolds⟩

/-- **C43** for compact_vector. -/
theorem compactVector_access (K : Nat) (E : Env α) (T : Traits) (quiet : Bool)
    (hq : quiet = true → ∀ t, E.throws t = false) (m0 : St α) (hw : m0.Wf) (ops : List (WOp K (Sq.Op α) (Sq.Init α))) :
    ∃ log A o, World.runOps (CompactVector.cont K E T) (CompactVector.sem E T quiet) ops ⟨fun _ => none, m0⟩ = .ok log o ∧
      WRun (CompactVector.sem E T quiet) (fun _ => none) ops log A ∧ Accessed Vector.walker Vector.getter o A := by
  have hS := CompactVector.spec (K := K) (T := T) hq
  obtain ⟨log, o, e, A, F, k1, k2⟩ := wp_elim (hS.runOps ops (CompactVector.start hw hq))
  refine ⟨log, A, o, e, k2, accessed fun i a xs hi => ?_⟩
  obtain ⟨v, hv, b, k, -⟩ := k1.found hi
  exact ⟨v, hv, k.holds⟩

/-- **C43** for devector. -/
theorem devector_access (K : Nat) (E : Env α) (T : Traits) (quiet : Bool)
    (hq : quiet = true → ∀ t, E.throws t = false) (m0 : St α) (hw : m0.Wf) (ops : List (WOp K (Dq.Op α) (Sq.Init α))) :
    ∃ log A o, World.runOps (Devector.cont K E T) (Devector.sem E T quiet) ops ⟨fun _ => none, m0⟩ = .ok log o ∧
      WRun (Devector.sem E T quiet) (fun _ => none) ops log A ∧ Accessed Devector.walker Devector.getter o A := by
  have hS := Devector.spec (K := K) (T := T) hq
  obtain ⟨log, o, e, A, F, k1, k2⟩ := wp_elim (hS.runOps ops (Devector.start hw hq))
  refine ⟨log, A, o, e, k2, fun i a xs hi => ?_⟩
  obtain ⟨v, hv, b, cap, f, k, -⟩ := k1.found hi
  have k' : (⟨v, o.m⟩ : Obj DVec α).obj.Holds (⟨v, o.m⟩ : Obj DVec α).m xs := by
    refine ⟨by rw [k.obj], by rw [k.obj], fun i _ => ?_⟩
    show o.m.mem v.first.blk _ = _
    rw [k.obj]
    simpa using k.cells (f + i)
  exact ⟨v, hv, k'.line.visits, k'.gets⟩

/-! ### Segmented containers -/

/-- **C43** for segmented_vector. -/
theorem segmentedVector_access (K : Nat) (E : Env α) (N : Nat) (hN : 0 < N) (T : Traits) (ra : Sq.Op α → Bool)
    (rai : Sq.Init α → Bool) (m0 : St α) (hw : m0.Wf) (ops : List (WOp K (Sq.Op α) (Sq.Init α))) :
    ∃ log A o, World.runOps (SegVec.cont K E N T ra rai) (SegVec.sem E T) ops ⟨fun _ => none, m0⟩ = .ok log o ∧
      WRun (SegVec.sem E T) (fun _ => none) ops log A ∧ Accessed (SegVec.walker N) (SegVec.getter N) o A := by
  have hS := SegVec.spec (K := K) (E := E) (T := T) (ra := ra) (rai := rai) hN
  obtain ⟨log, o, e, A, F, k1, k2⟩ := wp_elim (hS.runOps ops (SegVec.start hw))
  refine ⟨log, A, o, e, k2, fun i a xs hi => ?_⟩
  obtain ⟨v, hv, V, tcap, k, -⟩ := k1.found hi
  exact ⟨v, hv, k.line.visits, k.gets⟩

/-- **C43** for segmented_devector. -/
theorem segmentedDevector_access (K : Nat) (E : Env α) (N : Nat) (hN : 0 < N) (T : Traits) (ra : Dq.Op α → Bool)
    (rai : Sq.Init α → Bool) (m0 : St α) (hw : m0.Wf) (ops : List (WOp K (Dq.Op α) (Sq.Init α))) :
    ∃ log A o, World.runOps (SegDev.cont K E N T ra rai) (SegDev.sem E T) ops ⟨fun _ => none, m0⟩ = .ok log o ∧
      WRun (SegDev.sem E T) (fun _ => none) ops log A ∧ Accessed (SegDev.walker N) (SegDev.getter N) o A := by
  have hS := SegDev.spec (K := K) (E := E) (T := T) (ra := ra) (rai := rai) hN
  obtain ⟨log, o, e, A, F, k1, k2⟩ := wp_elim (hS.runOps ops (SegDev.start hw))
  refine ⟨log, A, o, e, k2, fun i a xs hi => ?_⟩
  obtain ⟨v, hv, V, tcap, f, H, k, -⟩ := k1.found hi
  exact ⟨v, hv, k.line.visits, k.gets⟩

/-- **C09** for segmented_vector: after any program, comparing two containers gives the answer for their elements. -/
theorem segmentedVector_compare (K : Nat) (E : Env α) (N : Nat) (hN : 0 < N) (T : Traits) (ra : Sq.Op α → Bool)
    (rai : Sq.Init α → Bool) (m0 : St α) (hw : m0.Wf) (eq lt : α → α → Bool) (ops : List (WOp K (Sq.Op α) (Sq.Init α))) :
    ∃ log A o, World.runOps (SegVec.cont K E N T ra rai) (SegVec.sem E T) ops ⟨fun _ => none, m0⟩ = .ok log o ∧
      WRun (SegVec.sem E T) (fun _ => none) ops log A ∧ SegCompared N SVec.bounds eq lt o A := by
  have hS := SegVec.spec (K := K) (E := E) (T := T) (ra := ra) (rai := rai) hN
  obtain ⟨log, o, e, A, F, k1, k2⟩ := wp_elim (hS.runOps ops (SegVec.start hw))
  refine ⟨log, A, o, e, k2, fun i j a b xs ys hi hj => ?_⟩
  obtain ⟨v, hv, V, tcap, k, -⟩ := k1.found hi
  obtain ⟨w, hw, V', tcap', k', -⟩ := k1.found hj
  refine ⟨v, w, hv, hw, fun c => ?_⟩
  obtain ⟨r, s', e, k, rfl⟩ := wp_elim (Seg.compare_spec (eq := eq) (lt := lt) (X := fun _ _ => False) k.bounds k'.bounds c)
  exact ⟨r, e, k⟩

/-- **C09** for segmented_devector. -/
theorem segmentedDevector_compare (K : Nat) (E : Env α) (N : Nat) (hN : 0 < N) (T : Traits) (ra : Dq.Op α → Bool)
    (rai : Sq.Init α → Bool) (m0 : St α) (hw : m0.Wf) (eq lt : α → α → Bool) (ops : List (WOp K (Dq.Op α) (Sq.Init α))) :
    ∃ log A o, World.runOps (SegDev.cont K E N T ra rai) (SegDev.sem E T) ops ⟨fun _ => none, m0⟩ = .ok log o ∧
      WRun (SegDev.sem E T) (fun _ => none) ops log A ∧ SegCompared N SDVec.bounds eq lt o A := by
  have hS := SegDev.spec (K := K) (E := E) (T := T) (ra := ra) (rai := rai) hN
  obtain ⟨log, o, e, A, F, k1, k2⟩ := wp_elim (hS.runOps ops (SegDev.start hw))
  refine ⟨log, A, o, e, k2, fun i j a b xs ys hi hj => ?_⟩
  obtain ⟨v, hv, V, tcap, f, H, k, -⟩ := k1.found hi
  obtain ⟨w, hw, V', tcap', f', H', k', -⟩ := k1.found hj
  refine ⟨v, w, hv, hw, fun c => ?_⟩
  obtain ⟨r, s', e, k, rfl⟩ := wp_elim (Seg.compare_spec (eq := eq) (lt := lt) (X := fun _ _ => False) k.bounds k'.bounds c)
  exact ⟨r, e, k⟩

/-! ### Flat containers -/

/-- **C43** for the small ordered flat containers: iterators, `nth`, `index_of`, `size` and `empty`. -/
theorem smallFlat_access {κ : Type} (K : Nat) (multi : Bool) (C : Order α κ) (L : C.Lawful) (E : Env α) (T : Traits) (N : Nat)
    (ib : Fin K → Nat) (m0 : St α) (hm : Objects E ib N m0) (ops : List (WOp K (Flat.Op α κ) (Flat.Init α))) :
    ∃ log A o, World.runOps (Flat.smallCont multi C E T ib N) (Flat.smallSem multi C E T) ops ⟨fun _ => none, m0⟩ =
        .ok log o ∧ WRun (Flat.smallSem multi C E T) (fun _ => none) ops log A ∧ Visited Vector.walker o A := by
  have hS := Flat.smallSpec (multi := multi) (T := T) (ib := ib) L hm.fits
  obtain ⟨log, o, e, A, F, k1, k2⟩ := wp_elim (hS.runOps ops (hm.start hS))
  exact ⟨log, A, o, e, k2, (accessed k1.holds).visited⟩

/-- **C43** for the static ordered flat containers. -/
theorem staticFlat_access {κ : Type} (K : Nat) (multi : Bool) (C : Order α κ) (L : C.Lawful) (E : Env α) (N : Nat)
    (ib : Fin K → Nat) (m0 : St α) (hm : Objects E ib N m0) (ops : List (WOp K (Flat.Op α κ) (Flat.Init α))) :
    ∃ log A o, World.runOps (Flat.staticCont multi C E ib N) (Flat.staticSem multi C E N) ops ⟨fun _ => none, m0⟩ =
        .ok log o ∧ WRun (Flat.staticSem multi C E N) (fun _ => none) ops log A ∧ Visited Vector.walker o A := by
  have hS := Flat.staticSpec (multi := multi) (ib := ib) L hm.fits
  obtain ⟨log, o, e, A, F, k1, k2⟩ := wp_elim (hS.runOps ops (hS.start hm.wf hm.static.1 hm.static.2))
  exact ⟨log, A, o, e, k2, (accessed k1.staticHolds).visited⟩

/-- **C43** for the small unordered flat containers. -/
theorem smallUnord_access {κ : Type} (K : Nat) (multi isMap : Bool) (U : KeyEq α κ) (L : U.Lawful) (E : Env α) (T : Traits)
    (N : Nat) (ib : Fin K → Nat) (m0 : St α) (hm : Objects E ib N m0) (ops : List (WOp K (Unord.Op α κ) (Flat.Init α))) :
    ∃ log A o, World.runOps (Unord.smallCont multi isMap U E T ib N) (Unord.smallSem multi isMap U E T) ops
        ⟨fun _ => none, m0⟩ = .ok log o ∧
      WRun (Unord.smallSem multi isMap U E T) (fun _ => none) ops log A ∧ Visited Vector.walker o A := by
  have hS := Unord.smallSpec (multi := multi) (isMap := isMap) (T := T) (ib := ib) L hm.fits
  obtain ⟨log, o, e, A, F, k1, k2⟩ := wp_elim (hS.runOps ops (hm.start hS))
  exact ⟨log, A, o, e, k2, (accessed k1.holds).visited⟩

/-- **C43** for the static unordered flat containers. -/
theorem staticUnord_access {κ : Type} (K : Nat) (multi isMap : Bool) (U : KeyEq α κ) (L : U.Lawful) (E : Env α) (N : Nat)
    (ib : Fin K → Nat) (m0 : St α) (hm : Objects E ib N m0) (ops : List (WOp K (Unord.Op α κ) (Flat.Init α))) :
    ∃ log A o, World.runOps (Unord.staticCont multi isMap U E ib N) (Unord.staticSem multi U E N) ops ⟨fun _ => none, m0⟩ =
        .ok log o ∧ WRun (Unord.staticSem multi U E N) (fun _ => none) ops log A ∧ Visited Vector.walker o A := by
  have hS := Unord.staticSpec (multi := multi) (isMap := isMap) (ib := ib) L hm.fits
  obtain ⟨log, o, e, A, F, k1, k2⟩ := wp_elim (hS.runOps ops (hS.start hm.wf hm.static.1 hm.static.2))
  exact ⟨log, A, o, e, k2, (accessed k1.staticHolds).visited⟩

/-! ### Examples -/

namespace Demo

/-- Both traversals of the container in slot `i`, and `index_of(nth(2))`. -/
def tour {K : Nat} {V : Type} (w : Walker V Nat) (i : Fin K) : M (Slots K V Nat) (List Nat × List Nat × Option Nat) := fun o =>
  match o.obj i with
  | some v =>
    match (do
        let n ← w.size
        let b ← w.first
        let e ← w.last
        let xs ← w.forward e (n + 1) b
        let ys ← w.backward b (n + 1) e
        let it ← w.nth 2
        let k ← w.indexOf it
        pure (xs, ys, k) : M (Obj V Nat) _) ⟨v, o.m⟩ with
    | .ok r s => .ok r ⟨o.obj, s.m⟩
    | .exn e s => .exn e ⟨o.obj, s.m⟩
    | .ub u => .ub u
  | none => .ub .badRange

/-- `at(0), …, at(n - 1)` of the container in slot `i`, `front()`, `back()`, and whether `at(n)` throws out_of_range. -/
def fetch {K : Nat} {V : Type} (g : Getter V Nat) (n : Nat) (i : Fin K) : M (Slots K V Nat) (List Nat × Bool) :=
  fun o =>
  match o.obj i with
  | some v =>
    match (do
        let xs ← (List.range n).mapM g.at'
        let a ← g.front
        let b ← g.back
        let e ← M.tryCatch (do let _ ← g.at' n; pure false)
          (fun e => pure (match e with | .outOfRange => true | _ => false))
        pure (xs ++ [a, b], e) : M (Obj V Nat) _) ⟨v, o.m⟩ with
    | .ok r s => .ok r ⟨o.obj, s.m⟩
    | .exn e s => .exn e ⟨o.obj, s.m⟩
    | .ub u => .ub u
  | none => .ub .badRange

/-- Compare the containers in two slots with all operators. -/
def segCompareAll {K : Nat} {V : Type} (N : Nat) (bounds : V → Seg.Bounds) (i j : Fin K) : M (Slots K V Nat) (List Bool) :=
  fun o =>
  match o.obj i, o.obj j with
  | some v, some w =>
    match ([Cmp.eq, .ne, .lt, .gt, .le, .ge].mapM
        (fun c => Seg.compare N (· == ·) (fun a b => decide (a < b)) (bounds v) (bounds w) c)) o.m with
    | .ok r s => .ok r ⟨o.obj, s⟩
    | .exn e s => .exn e ⟨o.obj, s⟩
    | .ub u => .ub u
  | _, _ => .ub .badRange

end Demo

open Demo in
/-- `vector_access`: a vector that has grown and lost an element. -/
example : show' ((do
    let _ ← World.runOps (Vector.cont 2 (env []) T) (Vector.sem (env []) T)
      [.make 0 7 (.range [1, 2, 3]), .op 0 (.pushBack (.value 4)), .op 0 (.eraseAt 1)]
    let a ← tour Vector.walker 0
    let b ← fetch Vector.getter 3 0
    pure (a, b) : M (Slots 2 Vec Nat) _) ⟨fun _ => none, m1⟩) =
    some (([1, 3, 4], [4, 3, 1], some 2), [1, 3, 4, 1, 4], true) := by decide +kernel

open Demo in
/-- `smallVector_access`: three elements with two inside the container. -/
example : show' ((do
    let _ ← World.runOps (SmallVector.cont (env []) T ib3 2) (SmallVector.sem (env []) T)
      [.make 0 7 (.range [1, 2]), .op 0 (.pushBack (.value 4))]
    let a ← tour Vector.walker 0
    let b ← fetch Vector.getter 3 0
    pure (a, b) : M (Slots 3 Vec Nat) _) ⟨fun _ => none, m3⟩) =
      some (([1, 2, 4], [4, 2, 1], some 2), [1, 2, 4, 1, 4], true) := by decide +kernel

open Demo in
/-- `staticVector_access`: a container that is full. -/
example : show' ((do
    let _ ← World.runOps (StaticVector.cont (env []) ib3 2) (StaticVector.sem (env []) 2) [.make 0 7 (.range [1, 2])]
    let a ← tour Vector.walker 0
    let b ← fetch Vector.getter 2 0
    pure (a, b) : M (Slots 3 Vec Nat) _) ⟨fun _ => none, m3⟩) =
      some (([1, 2], [2, 1], some 2), [1, 2, 1, 2], true) := by decide +kernel

open Demo in
/-- `compactVector_access`. -/
example : show' ((do
    let _ ← World.runOps (CompactVector.cont 2 (env []) T) (CompactVector.sem (env []) T false)
      [.make 0 7 (.range [1, 2]), .op 0 (.pushBack (.value 4))]
    let a ← tour Vector.walker 0
    let b ← fetch Vector.getter 3 0
    pure (a, b) : M (Slots 2 Vec Nat) _) ⟨fun _ => none, m1⟩) =
      some (([1, 2, 4], [4, 2, 1], some 2), [1, 2, 4, 1, 4], true) := by decide +kernel

open Demo in
/-- `devector_access`: elements added at both ends. -/
example : show' ((do
    let _ ← World.runOps (Devector.cont 2 (env []) T) (Devector.sem (env []) T false)
      [.make 0 7 (.range [1, 2]), .op 0 (.pushBack (.value 4)), .op 0 (.pushFront (.value 0))]
    let a ← tour Devector.walker 0
    let b ← fetch Devector.getter 4 0
    pure (a, b) : M (Slots 2 DVec Nat) _) ⟨fun _ => none, m1⟩) =
    some (([0, 1, 2, 4], [4, 2, 1, 0], some 2), [0, 1, 2, 4, 0, 4], true) := by decide +kernel

open Demo in
/-- `segmentedVector_access` and `segmentedVector_compare`: two containers with segments of two elements. -/
example : show' ((do
    let _ ← World.runOps (SegVec.cont 2 (env []) 2 T (fun _ => true) (fun _ => true)) (SegVec.sem (env []) T)
      [.make 0 7 (.range [1, 2, 3]), .make 1 7 (.range [1, 2]), .op 1 (.pushBack (.value 4)), .op 1 (.pushBack (.value 5))]
    let a ← tour (SegVec.walker 2) 1
    let b ← fetch (SegVec.getter 2) 4 1
    pure (a, b) : M (Slots 2 SVec Nat) _) ⟨fun _ => none, m1⟩) =
    some (([1, 2, 4, 5], [5, 4, 2, 1], some 2), [1, 2, 4, 5, 1, 5], true) ∧
    show' ((do
    let _ ← World.runOps (SegVec.cont 2 (env []) 2 T (fun _ => true) (fun _ => true)) (SegVec.sem (env []) T)
      [.make 0 7 (.range [1, 2, 3]), .make 1 7 (.range [1, 2]), .op 1 (.pushBack (.value 4)), .op 1 (.pushBack (.value 5))]
    let a ← segCompareAll 2 SVec.bounds 0 1
    let b ← segCompareAll 2 SVec.bounds 1 1
    pure (a, b) : M (Slots 2 SVec Nat) _) ⟨fun _ => none, m1⟩) =
    some ([false, true, true, false, true, false], [true, false, false, false, true, true]) := by
  constructor <;> decide +kernel

open Demo in
/-- `segmentedDevector_access` and `segmentedDevector_compare`: equal elements at different places in the segments. -/
example : show' ((do
    let _ ← World.runOps (SegDev.cont 2 (env []) 2 T (fun _ => true) (fun _ => true)) (SegDev.sem (env []) T)
      [.make 0 7 (.range [1, 2, 3]), .make 1 7 (.range [2, 3]), .op 1 (.pushFront (.value 1))]
    let a ← tour (SegDev.walker 2) 1
    let b ← fetch (SegDev.getter 2) 3 1
    pure (a, b) : M (Slots 2 SDVec Nat) _) ⟨fun _ => none, m1⟩) =
    some (([1, 2, 3], [3, 2, 1], some 2), [1, 2, 3, 1, 3], true) ∧
    show' ((do
    let _ ← World.runOps (SegDev.cont 2 (env []) 2 T (fun _ => true) (fun _ => true)) (SegDev.sem (env []) T)
      [.make 0 7 (.range [1, 2, 3]), .make 1 7 (.range [2, 3]), .op 1 (.pushFront (.value 1))]
    segCompareAll 2 SDVec.bounds 0 1 : M (Slots 2 SDVec Nat) _) ⟨fun _ => none, m1⟩) =
    some [true, false, false, false, true, true] := by
  constructor <;> decide +kernel

open Demo in
/-- `smallFlat_access`, `staticFlat_access`, `smallUnord_access`, `staticUnord_access`. -/
example : show' ((do
    let _ ← World.runOps (Flat.smallCont false asc (env []) T ib3 2) (Flat.smallSem false asc (env []) T)
      [.make 0 7 (.range [5, 1, 3])]
    tour Vector.walker 0 : M (Slots 3 Vec Nat) _) ⟨fun _ => none, m3⟩) = some ([1, 3, 5], [5, 3, 1], some 2) ∧
    show' ((do
    let _ ← World.runOps (Flat.staticCont false asc (env []) ib3 2) (Flat.staticSem false asc (env []) 2)
      [.make 0 7 (.range [5, 1])]
    tour Vector.walker 0 : M (Slots 3 Vec Nat) _) ⟨fun _ => none, m3⟩) = some ([1, 5], [5, 1], some 2) ∧
    show' ((do
    let _ ← World.runOps (Unord.smallCont false false ueq (env []) T ib3 2) (Unord.smallSem false false ueq (env []) T)
      [.make 0 7 (.range [5, 1, 3])]
    tour Vector.walker 0 : M (Slots 3 Vec Nat) _) ⟨fun _ => none, m3⟩) = some ([5, 1, 3], [3, 1, 5], some 2) ∧
    show' ((do
    let _ ← World.runOps (Unord.staticCont false false ueq (env []) ib3 2) (Unord.staticSem false ueq (env []) 2)
      [.make 0 7 (.range [5, 1])]
    tour Vector.walker 0 : M (Slots 3 Vec Nat) _) ⟨fun _ => none, m3⟩) = some ([5, 1], [1, 5], some 2) := by decide +kernel

end Sfl
