import Verif.CostSeg2
import Verif.PropStorage
import Verif.PropSegVec
import Verif.PropFlatCost
/-
  C46 and C47 for static_vector and segmented_vector: what a single modifier costs, and how large the storage gets.
-/

namespace Sfl
open Sq World
variable {α : Type}

/-- The states in which programs can end, by return or by exception, whose operations are called under their preconditions `pre` and
ask for at most `P` elements: `room n op` is the number of elements `op` asks for if the size is `n`. -/
inductive Used {V Op ρ : Type} (size : M (Obj V α) Nat) (exec : Op → M (Obj V α) ρ) (pre : Nat → Op → Bool) (room : Nat → Op → Nat)
    (P : Nat) (o : Obj V α) : Obj V α → Prop where
  | refl : Used size exec pre room P o o
  | step {o1 o2 o3 n op} : Used size exec pre room P o o1 → size o1 = .ok n o2 → pre n op = true → room n op ≤ P →
      (exec op o1).final = some o3 → Used size exec pre room P o o3

/-! ### static_vector -/

section
variable {K : Nat} {E : Env α} {ib : Fin K → Nat} {N : Nat} {m0 : St α} {i : Fin K} {o o' o1 : Obj Vec α} {n : Nat}

/-- **C46**, static_vector: a modifier costs at most the documented number of element operations plus 2, whatever it throws.

Missing: insert(pos, first, last) with input iterators; see `staticVector_insert_input_quadratic`. -/
theorem staticVector_work_partial (hm : Objects E ib N m0) (h : Reached (StaticVector.cont E ib N) (StaticVector.sem E N) m0 i o)
    (hn : Vector.size o = .ok n o1) (op : Sq.Op α) (hop : op.isInsertInput = false)
    (hx : (StaticVector.exec E N op o).final = some o') : o'.m.tick ≤ o.m.tick + op.work n + 2 := by
  obtain ⟨H, al, xs, h⟩ := h.static hm (StaticVector.spec hm.fits)
  obtain rfl := h.size_eq hn
  have := h.len
  exact (vcost.fin (StaticVector.exec_ends (E := E) h.dim (by omega) op hop) hx).2

/-- Inserting a range of input iterators costs at most the number of inserted elements times the number of elements behind the
place, up to constants. -/
theorem staticVector_insert_input (hm : Objects E ib N m0) (h : Reached (StaticVector.cont E ib N) (StaticVector.sem E N) m0 i o)
    (hn : Vector.size o = .ok n o1) (k : Nat) (ys : List α) (hx : (StaticVector.exec E N (.insertInput k ys) o).final = some o') :
    o'.m.tick ≤ o.m.tick + ys.length * (n - k + 2) := by
  obtain ⟨H, al, xs, h⟩ := h.static hm (StaticVector.spec hm.fits)
  obtain rfl := h.size_eq hn
  have := h.len
  exact (vcost.fin (StaticVector.exec_insertInput_ends (E := E) h.dim (by omega)) hx).2

end

/-- **C46 does not hold** for insert(pos, first, last) with input iterators of static_vector: inserting `n` elements in front of `n`
elements moves each of them `n` times (static_vector.hpp:703-717). -/
theorem staticVector_insert_input_quadratic {E : Env α} {ib N al : Nat} {m0 : St α} (hr : RawObject m0 ib N) (hE : ∀ t, E.throws t = false)
    (x y : α) {n : Nat} (h0 : 0 < n) (h2 : 2 * n ≤ N) (hN : N ≤ E.maxSize) : ∃ o r o',
    runAll (StaticVector.exec E N) [.assignN n x] ⟨SmallVector.empty ib N al, m0⟩ = .ok () o ∧
    Vector.size o = .ok n o ∧
    StaticVector.exec E N (.insertInput 0 (List.replicate n y)) o = .ok r o' ∧
    (Op.insertInput 0 (List.replicate n y)).work n = 2 * n ∧
    o'.m.tick = o.m.tick + n * (n + 2) := by
  have : Silent E := ⟨hE⟩
  have h : VSt (Heap.around m0 ib) E ib N ⟨SmallVector.empty ib N al, m0⟩ al ib N [] := VSt.mkEmpty (hr.gone).st hr.raw hN
  have calm : ∀ {o : Obj Vec α} {xs : List α}, VSt (Heap.around m0 ib) E ib N o al ib N xs → ∀ op, StaticVector.pre N xs.length op = true →
      ∃ r o' xs', StaticVector.exec E N op o = .ok r o' ∧ VSt (Heap.around m0 ib) E ib N o' al ib N xs' ∧ op.Result E.dflt xs xs' := by
    intro o xs h op hp
    have hw := StaticVector.exec_spec op h hp
    cases hx : StaticVector.exec E N op o with
    | ok r o' =>
      obtain ⟨xs', k1, -, k2, -⟩ := wp_ok hx hw
      exact ⟨r, o', xs', rfl, k1, k2⟩
    | exn e o' => exact (Calm.out (L := fun _ => False) _ _ _ hx).elim
    | ub u => exact (wp_not_ub hw hx).elim
  obtain ⟨r1, o1, xs1, e1, k1, rfl⟩ := calm h (.assignN n x) (by
    have : n ≤ N := by omega
    simp [StaticVector.pre, Op.pre, Op.room, StaticVector.foreign, this])
  obtain ⟨r3, o3, xs3, e3, k3, -⟩ := calm k1 (.insertInput 0 (List.replicate n y))
    (by simp [StaticVector.pre, Op.pre, Op.room, StaticVector.foreign]; omega)
  refine ⟨o1, r3, o3, ?_, ?_, e3, ?_, ?_⟩
  · unfold runAll; rw [bind_run e1]; rfl
  · obtain ⟨_, _, e, h1, h2⟩ := wp_elim (wp_size (X := fun _ _ => False) (Q := fun n' o' => n' = n ∧ o' = o1) k1.obj ⟨by simp, rfl⟩)
    rw [e, h1, h2]
  · simp [Op.work]; omega
  · have hd := k1.dim
    simp only [List.length_replicate] at hd
    have := vcost.out (StaticVector.exec_insertInput_cost (E := E) hd (N := N) (by omega) (k := 0) (ys := List.replicate n y) (by omega)) e3
    simpa using this

/-! ### segmented_vector -/

namespace SegVec
variable {E : Env α} {N al tcap : Nat} {V : View} {xs : List α} {o : Obj SVec α}

theorem GSt.size_eq (h : GSt N o al V tcap xs) {n : Nat} {o1 : Obj SVec α} (hn : SegVec.size N o = .ok n o1) : n = xs.length := by
  have := hn.symm.trans h.size_run
  injection this

theorem GSt.capacity_eq (h : GSt N o al V tcap xs) {c : Nat} {o1 : Obj SVec α} (hc : SegVec.capacity N o = .ok c o1) : c = V.size := by
  have := hc.symm.trans h.capacity_run
  injection this

theorem Ends.final {β : Type} {m : SM α β} {B W : Nat} {o' : Obj SVec α} (h : Ends N al m B W o) (hx : (m o).final = some o') :
    Within N al B W o' := by
  unfold Ends at h
  cases hm : m o with
  | ok b s => rw [hm] at hx; cases hx; exact wp_ok (Q := fun _ o' => Within N al B W o') hm h
  | exn e s => rw [hm] at hx; cases hx; exact wp_exn (X := fun _ o' => Within N al B W o') hm h
  | ub r => rw [hm] at hx; cases hx

/-- A modifier that is asked for no more than max_size() elements succeeds if nothing throws. -/
theorem GSt.calm [Silent E] (ra : Op α → Bool) (h : GSt N o al V tcap xs) (op : Sq.Op α) (hp : op.pre xs.length = true)
    (hm : op.room xs.length ≤ E.maxSize) :
    ∃ r o' V' tcap' xs', exec E N ra op o = .ok r o' ∧ GSt N o' al V' tcap' xs' ∧ op.Result E.dflt xs xs' := by
  have hw := exec_spec (E := E) ra op h hp
  have : Allows (fun e => e = .lengthError) .lengthError := ⟨rfl⟩
  cases hx : exec E N ra op o with
  | ok r o' =>
    obtain ⟨V', tcap', xs', k1, -, -, k2, -⟩ := wp_ok hx hw
    exact ⟨r, o', V', tcap', xs', rfl, k1, k2⟩
  | exn e o' =>
    have he := Calm.out (L := fun e => e = .lengthError) _ _ _ hx
    obtain ⟨_, _, _, -, -, -, k⟩ := wp_exn hx hw
    have := k.len he
    omega
  | ub u => exact (wp_not_ub hw hx).elim

end SegVec

section
variable {K : Nat} {E : Env α} {N : Nat} {T : Traits} {ra : Sq.Op α → Bool} {rai : Sq.Init α → Bool} {m0 : St α} {i : Fin K}
  {o o' o1 o2 : Obj SVec α} {n c : Nat}

/-- **C46**, segmented_vector: a modifier costs at most a constant times the documented number of element operations, and, if more
than the capacity is asked for, one allocation for every `N` slots that are missing and two more, whatever it throws. Elements are
never moved because the storage grows.

Missing: insert(pos, first, last) with input iterators; see `segmentedVector_insert_input_quadratic`. -/
theorem segmentedVector_work_partial (hN : 0 < N) (hw : m0.Wf) (h : Reached (SegVec.cont K E N T ra rai) (SegVec.sem E T) m0 i o)
    (hn : SegVec.size N o = .ok n o1) (hc : SegVec.capacity N o = .ok c o2) (op : Sq.Op α) (hp : op.pre n = true)
    (hop : op.isInsertInput = false) (hx : (SegVec.exec E N ra op o).final = some o') :
    o'.m.tick ≤ o.m.tick + 4 * op.work n + 2 + if op.room n ≤ c then 0 else (op.room n - c) / N + 2 := by
  obtain ⟨al, V, tcap, xs, h⟩ := h.segVec hN hw
  obtain rfl := h.size_eq hn
  obtain rfl := h.capacity_eq hc
  exact ((SegVec.exec_ends (E := E) ra op h hp hop).final hx).2

/-- Inserting a range of input iterators costs at most the number of inserted elements times the number of elements behind the
place, up to constants. -/
theorem segmentedVector_insert_input (hN : 0 < N) (hw : m0.Wf) (h : Reached (SegVec.cont K E N T ra rai) (SegVec.sem E T) m0 i o)
    (hn : SegVec.size N o = .ok n o1) {k : Nat} (hk : k ≤ n) (ys : List α)
    (hx : (SegVec.exec E N ra (.insertInput k ys) o).final = some o') : o'.m.tick ≤ o.m.tick + ys.length * (n - k + 5) := by
  obtain ⟨al, V, tcap, xs, h⟩ := h.segVec hN hw
  obtain rfl := h.size_eq hn
  exact ((SegVec.exec_insertInput_ends (E := E) ra h hk).final hx).2

/-- **C47**, segmented_vector: one segment more than ever was asked for. -/
theorem segmentedVector_storage {c' P : Nat} (hN : 0 < N) (hw : m0.Wf) (h : Reached (SegVec.cont K E N T ra rai) (SegVec.sem E T) m0 i o)
    (hc : SegVec.capacity N o = .ok c o1)
    (hu : Used (SegVec.size N) (SegVec.exec E N ra) (fun n op => op.pre n) (fun n op => op.room n) P o o')
    (hc' : SegVec.capacity N o' = .ok c' o2) : c' ≤ max c (P + N) := by
  obtain ⟨al, V, tcap, xs, h⟩ := h.segVec hN hw
  obtain rfl := h.capacity_eq hc
  have hf : ∃ V' tcap' xs', SegVec.GSt N o' al V' tcap' xs' ∧ V'.size ≤ max V.size (P + N) := by
    clear hc'
    induction hu with
    | refl => exact ⟨V, tcap, xs, h, by omega⟩
    | step hu hs hp hr hx ih =>
      rename_i o1 o2 o3 n op
      obtain ⟨V1, tcap1, xs1, h1, hz⟩ := ih
      obtain rfl := h1.size_eq hs
      have he : ∃ W, SegVec.Ends N al (SegVec.exec E N ra op) (SegVec.slots N V1.size (op.room xs1.length)) W o1 := by
        by_cases hi : op.isInsertInput = false
        · exact ⟨_, SegVec.exec_ends ra op h1 hp hi⟩
        · cases op <;> simp [Op.isInsertInput] at hi
          exact ⟨_, SegVec.exec_insertInput_ends ra h1 (by simpa [Op.pre] using hp)⟩
      obtain ⟨W, he⟩ := he
      obtain ⟨⟨V2, tcap2, xs2, h2, hz2⟩, -⟩ := he.final hx
      refine ⟨V2, tcap2, xs2, h2, ?_⟩
      unfold SegVec.slots at hz2
      split at hz2 <;> omega
  obtain ⟨V', tcap', xs', h', hz⟩ := hf
  obtain rfl := h'.capacity_eq hc'
  exact hz

end

/-- **C46 does not hold** for insert(pos, first, last) with input iterators of segmented_vector: inserting `n` elements in front of `n`
elements moves each of them `n` times, although there is room for all of them (segmented_vector.hpp:1604-1618). -/
theorem segmentedVector_insert_input_quadratic {E : Env α} {N al : Nat} {m0 : St α} {ra : Op α → Bool} (hN : 0 < N) (hw : m0.Wf)
    (hE : ∀ t, E.throws t = false) (x y : α) {n : Nat} (h0 : 0 < n) (h2 : 2 * n ≤ E.maxSize) : ∃ o0 r0 o r o',
    SegVec.construct' E N true (.fill n x) ⟨SegVec.blank al, m0⟩ = .ok () o0 ∧
    SegVec.exec E N ra (.reserve (2 * n)) o0 = .ok r0 o ∧ SegVec.size N o = .ok n o ∧
    SegVec.exec E N ra (.insertInput 0 (List.replicate n y)) o = .ok r o' ∧
    (Op.insertInput 0 (List.replicate n y)).work n = 2 * n ∧
    o'.m.tick = o.m.tick + n * (n + 2) := by
  have : Silent E := ⟨hE⟩
  have : Allows (fun e => e = .lengthError) .lengthError := ⟨rfl⟩
  have hc := SegVec.construct_spec (E := E) (ra := true) (o := ⟨SegVec.blank al, m0⟩) (al := al) (.fill n x) hN hw rfl
  cases e0 : SegVec.construct' E N true (.fill n x) ⟨SegVec.blank al, m0⟩ with
  | ub u => exact (wp_not_ub hc e0).elim
  | exn e o' =>
    have he := Calm.out (L := fun e => e = .lengthError) _ _ _ e0
    have := (wp_exn e0 hc).2 he
    simp [Init.result] at this
    omega
  | ok u o0 =>
    obtain ⟨V0, tcap0, h, -⟩ := wp_ok e0 hc
    simp only [Init.result] at h
    obtain ⟨r1, o1, V1, tcap1, xs1, e1, k1, hxs⟩ := h.calm ra (.reserve (2 * n)) rfl (by simpa [Op.room] using h2)
    obtain rfl : xs1 = List.replicate n x := hxs
    have hv : 2 * n ≤ V1.size := by
      have hw := SegVec.reserve_spec (E := E) (n := 2 * n) h
      have : wp (SegVec.exec E N ra (.reserve (2 * n))) (fun _ o' => ∃ V' tcap' xs', SegVec.GSt N o' al V' tcap' xs' ∧ 2 * n ≤ V'.size)
          (fun _ _ => True) o0 := by
        show wp (SegVec.reserve E N (2 * n) >>= fun _ => pure none) _ _ o0
        rw [wp_bind]
        refine wp_mono hw ?_ fun _ _ _ => trivial
        rintro _ o' ⟨V', tcap', xs', k, -, -, -, k'⟩
        exact ⟨V', tcap', xs', k, k'⟩
      obtain ⟨V', tcap', xs', k, k'⟩ := wp_ok e1 this
      have := k1.same k
      omega
    obtain ⟨r3, o3, V3, tcap3, xs3, e3, k3, -⟩ := k1.calm (E := E) ra (.insertInput 0 (List.replicate n y)) rfl (by simp [Op.room]; omega)
    refine ⟨o0, r1, o1, r3, o3, rfl, e1, ?_, e3, ?_, ?_⟩
    · have := k1.size_run
      rwa [List.length_replicate] at this
    · simp [Op.work]; omega
    · have := wp_ok e3 (SegVec.exec_insertInput_exact (E := E) ra (k := 0) (ys := List.replicate n y) k1 (by simpa using h0) (by simp; omega))
      simpa using this

/-! ### Non-vacuity -/

namespace Demo

/-- A static_vector<int, 2> {12, 17}. -/
def st2 : Obj Vec Nat :=
  after (World.runOps (StaticVector.cont (env []) ib3 2) (StaticVector.sem (env []) 2) [.make 0 0 (.range [12, 17])]
    ⟨fun _ => none, m3⟩) 0

theorem st2_reached : Reached (StaticVector.cont (env []) ib3 2) (StaticVector.sem (env []) 2) m3 0 st2 :=
  reachedIn (by decide +kernel)

/-- The five elements in segments of three slots, the last of which is not used, and then resize(9). -/
def nine : Obj SVec Nat :=
  ((SegVec.exec (env []) 3 (fun _ => true) (.resizeV 9 (.elem 0)) (sgv (env []) five)).final).getD (sgv (env []) five)

end Demo

open Demo

/-- `staticVector_work_partial` and `staticVector_insert_input`: erasing the first of two elements moves the other one. -/
example : Objects (env []) ib3 2 m3 ∧ Reached (StaticVector.cont (env []) ib3 2) (StaticVector.sem (env []) 2) m3 0 st2 ∧
    (∃ o1, Vector.size st2 = .ok 2 o1) ∧ spent st2 (StaticVector.exec (env []) 2 (.eraseAt 0) st2) = some 1 ∧
    spent st2 (StaticVector.exec (env []) 2 (.insertInput 1 []) st2) = some 0 :=
  ⟨objects3 _ (by decide), st2_reached, ok_of (by decide +kernel), by decide +kernel, by decide +kernel⟩

/-- `staticVector_insert_input_quadratic` for one element in front of one element in a static_vector<int, 3>. -/
example : ∃ o r o', StaticVector.exec (env []) 3 (.insertInput 0 (List.replicate 1 (4 : Nat))) o = .ok r o' ∧
    o'.m.tick = o.m.tick + 3 := by
  obtain ⟨o, r, o', -, -, h, -, h'⟩ := staticVector_insert_input_quadratic (E := env []) (al := 0) m2_raw (fun _ => rfl) 3 4 (n := 1)
    (by decide) (by decide) (by decide)
  exact ⟨o, r, o', h, h'⟩

/-- `segmentedVector_work_partial` and `segmentedVector_insert_input`: a container of five elements that is full. Growing to nine costs
six operations, two of which are allocations; inserting two elements at the second place costs seven, inserting two input iterators'
elements at the first place fifteen, erasing the second element three. -/
example : m1.Wf ∧ Reached (SegVec.cont 2 (env []) 3 T (fun _ => true) (fun _ => true)) (SegVec.sem (env []) T) m1 0 (sgv (env []) five) ∧
    (∃ o1, SegVec.size 3 (sgv (env []) five) = .ok 5 o1) ∧ (∃ o1, SegVec.capacity 3 (sgv (env []) five) = .ok 5 o1) ∧
    spent (sgv (env []) five) (SegVec.exec (env []) 3 (fun _ => true) (.resizeV 9 (.elem 0)) (sgv (env []) five)) = some 6 ∧
    spent (sgv (env []) five) (SegVec.exec (env []) 3 (fun _ => true) (.insertRange 1 [7, 8]) (sgv (env []) five)) = some 7 ∧
    spent (sgv (env []) five) (SegVec.exec (env []) 3 (fun _ => true) (.insertInput 0 [7, 8]) (sgv (env []) five)) = some 15 ∧
    spent (sgv (env []) five) (SegVec.exec (env []) 3 (fun _ => true) (.eraseAt 1) (sgv (env []) five)) = some 3 :=
  ⟨m1_wf, sgv_reached _ _ (by decide +kernel), ok_of (by decide +kernel), ok_of (by decide +kernel), by decide +kernel,
    by decide +kernel, by decide +kernel, by decide +kernel⟩

/-- `segmentedVector_storage`: growing to nine elements gives a capacity of eleven. -/
example : (∃ o2, SegVec.capacity 3 nine = .ok 11 o2) ∧
    Used (SegVec.size 3) (SegVec.exec (env []) 3 (fun _ => true)) (fun n op => op.pre n) (fun n op => op.room n) 9 (sgv (env []) five) nine := by
  obtain ⟨o1, h⟩ := ok_of (r := SegVec.size 3 (sgv (env []) five)) (b := 5) (by decide +kernel)
  exact ⟨ok_of (by decide +kernel), .step .refl h (op := .resizeV 9 (.elem 0)) rfl (by decide) (some_getD _ (by decide +kernel))⟩

/-- `segmentedVector_insert_input_quadratic` for ten elements in segments of three: 120 operations. -/
example : ∃ o r o', SegVec.exec (env []) 3 (fun _ => true) (.insertInput 0 (List.replicate 10 (4 : Nat))) o = .ok r o' ∧
    o'.m.tick = o.m.tick + 120 := by
  obtain ⟨-, -, o, r, o', -, -, -, h, -, h'⟩ := segmentedVector_insert_input_quadratic (E := env []) (N := 3) (al := 3)
    (ra := fun _ => true) (by decide) m1_wf (fun _ => rfl) 3 4 (n := 10) (by decide) (by decide)
  exact ⟨o, r, o', h, h'⟩

end Sfl
