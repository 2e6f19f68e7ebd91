import Verif.CostVec2
import Verif.PropEnds
import Verif.PropCalm
/-
  C46: what a single modifier costs. The documentation of vector and small_vector says, for instance, "Linear in n plus linear in
  distance(pos, end())" for insert(pos, n, value), "Linear in difference between size() and n. Additional complexity possible due
  to reallocation if n > capacity()" for resize. `Sq.Op.work` is the number of elements these sentences speak of.

  Costs are counted in element constructions, element assignments and allocations (`St.tick`); destructors and comparisons are not
  counted.
-/

namespace Sfl
open Sq World
variable {α : Type}

theorem vcost.fin {V β : Type} {m : M (Obj V α) β} {o o' : Obj V α} {P : V → Nat → Prop}
    (h : vcost m (fun _ v' t' => P v' t') (fun v' t' => P v' t') o.obj o.m.tick) (e : (m o).final = some o') : P o'.obj o'.m.tick := by
  have h := h o rfl rfl
  cases hm : m o with
  | ok b s => rw [hm] at h e; cases e; exact h
  | exn x s => rw [hm] at h e; cases e; exact h
  | ub r => rw [hm] at e; cases e

namespace VSt
variable {H : Heap α} {E : Env α} {ib N al b cap : Nat} {o : Obj Vec α} {xs : List α}

theorem capacity_eq (h : VSt H E ib N o al b cap xs) {c : Nat} {o1 : Obj Vec α} (hc : Vector.capacity o = .ok c o1) : c = cap := by
  have : wp Vector.capacity (fun c (_ : Obj Vec α) => c = cap) (fun _ _ => True) o := by
    unfold Vector.capacity
    rw [wp_bind, wp_getObj, h.obj]
    exact wp_distance rfl (by simp) (by simp)
  exact (wp_ok (Q := fun c _ => c = cap) hc this)

end VSt

/-! ### vector and small_vector -/

/-- **C46**, small_vector: a modifier costs at most the documented number of element operations plus 2 if the capacity suffices, and
otherwise a constant times that number plus the size, whatever it throws.

Missing: insert(pos, first, last) with input iterators; see `smallVector_insert_input_quadratic`. -/
theorem smallVector_work_partial {E : Env α} {ib N al : Nat} {m0 : St α} {o o' o1 o2 : Obj Vec α} {n c : Nat} (hr : RawObject m0 ib N)
    (hN : N ≤ E.maxSize) (h : SmallVector.Reachable E ib N al m0 o) (hn : Vector.size o = .ok n o1) (hc : Vector.capacity o = .ok c o2)
    (op : Sq.Op α) (hop : op.isInsertInput = false) (hx : (SmallVector.exec E ib N op o).final = some o') :
    o'.m.tick ≤ o.m.tick + op.work n + 2 + if op.room n ≤ c then 0 else 6 * op.work n + n := by
  obtain ⟨xs, b, cap, h⟩ := h.repr hr hN
  obtain rfl := h.size_eq hn
  obtain rfl := h.capacity_eq hc
  have := (vcost.fin (SmallVector.exec_ends (E := E) (ib := ib) (N := N) h.dim op hop) hx).2
  have e : xs.length + (c - xs.length) = c := by have := h.len; omega
  rw [e] at this
  exact this

/-- **C46**, vector: a modifier costs at most the documented number of element operations plus 2 if the capacity suffices, and
otherwise a constant times that number plus the size, whatever it throws.

Missing: insert(pos, first, last) with input iterators; see `vector_insert_input_quadratic`. -/
theorem vector_work_partial {E : Env α} {al : Nat} {m0 : St α} {o o' o1 o2 : Obj Vec α} {n c : Nat} (hw : m0.Wf)
    (h : Vector.Reachable E al m0 o) (hn : Vector.size o = .ok n o1) (hc : Vector.capacity o = .ok c o2) (op : Sq.Op α)
    (hop : op.isInsertInput = false) (hx : (Vector.exec E op o).final = some o') :
    o'.m.tick ≤ o.m.tick + op.work n + 2 + if op.room n ≤ c then 0 else 6 * op.work n + n := by
  obtain ⟨xs, b, cap, h⟩ := h.repr hw
  obtain rfl := h.size_eq hn
  obtain rfl := h.capacity_eq hc
  rw [← Vector.exec_eq op h] at hx
  have := (vcost.fin (SmallVector.exec_ends (E := E) (ib := 0) (N := 0) h.dim op hop) hx).2
  have e : xs.length + (c - xs.length) = c := by have := h.len; omega
  rw [e] at this
  exact this

/-- Inserting a range of input iterators costs at most the number of inserted elements times the number of elements behind the
place, up to constants. -/
theorem smallVector_insert_input {E : Env α} {ib N al : Nat} {m0 : St α} {o o' o1 : Obj Vec α} {n : Nat} (hr : RawObject m0 ib N)
    (hN : N ≤ E.maxSize) (h : SmallVector.Reachable E ib N al m0 o) (hn : Vector.size o = .ok n o1) (k : Nat) (ys : List α)
    (hx : (SmallVector.exec E ib N (.insertInput k ys) o).final = some o') :
    o'.m.tick ≤ o.m.tick + ys.length * (n - k + 7) + n := by
  obtain ⟨xs, b, cap, h⟩ := h.repr hr hN
  obtain rfl := h.size_eq hn
  exact (vcost.fin (SmallVector.exec_insertInput_ends (E := E) (ib := ib) (N := N) h.dim) hx).2

/-- The same for vector. -/
theorem vector_insert_input {E : Env α} {al : Nat} {m0 : St α} {o o' o1 : Obj Vec α} {n : Nat} (hw : m0.Wf)
    (h : Vector.Reachable E al m0 o) (hn : Vector.size o = .ok n o1) (k : Nat) (ys : List α)
    (hx : (Vector.exec E (.insertInput k ys) o).final = some o') :
    o'.m.tick ≤ o.m.tick + ys.length * (n - k + 7) + n := by
  obtain ⟨xs, b, cap, h⟩ := h.repr hw
  obtain rfl := h.size_eq hn
  rw [← Vector.exec_eq _ h] at hx
  exact (vcost.fin (SmallVector.exec_insertInput_ends (E := E) (ib := 0) (N := 0) h.dim) hx).2

/-- A modifier that is asked for no more than max_size() elements succeeds if nothing throws. -/
theorem VSt.calm {H : Heap α} {E : Env α} {ib N al b cap : Nat} {o : Obj Vec α} {xs : List α} [Silent E]
    (h : VSt H E ib N o al b cap xs) (op : Sq.Op α) (hp : op.pre xs.length = true) (hm : op.room xs.length ≤ E.maxSize) :
    ∃ r o' b' cap' xs', SmallVector.exec E ib N op o = .ok r o' ∧ VSt H E ib N o' al b' cap' xs' ∧ op.Result E.dflt xs xs' := by
  have hw := SmallVector.exec_spec op h hp
  have : Allows (fun e => e = .lengthError) .lengthError := ⟨rfl⟩
  cases hx : SmallVector.exec E ib N op o with
  | ok r o' =>
    obtain ⟨b', cap', xs', k1, k2, -⟩ := wp_ok hx hw
    exact ⟨r, o', b', cap', xs', rfl, k1.v, k2⟩
  | exn e o' =>
    have he := Calm.out (L := fun e => e = .lengthError) _ _ _ hx
    obtain ⟨_, _, _, -, k⟩ := wp_exn hx hw
    have := k.len he
    omega
  | ub u => exact (wp_not_ub hw hx).elim

/-- **C46 does not hold** for insert(pos, first, last) with input iterators of small_vector: inserting `n` elements in front of `n`
elements moves each of them `n` times, although there is room for all of them (small_vector.hpp:2246-2260). -/
theorem smallVector_insert_input_quadratic {E : Env α} {ib N al : Nat} {m0 : St α} (hr : RawObject m0 ib N) (hE : ∀ t, E.throws t = false)
    (x y : α) {n : Nat} (h0 : 0 < n) (h2 : 2 * n ≤ E.maxSize) (hN : N ≤ E.maxSize) : ∃ o r o',
    runAll (SmallVector.exec E ib N) [.assignN n x, .reserve (2 * n)] ⟨SmallVector.empty ib N al, m0⟩ = .ok () o ∧
    Vector.size o = .ok n o ∧
    SmallVector.exec E ib N (.insertInput 0 (List.replicate n y)) o = .ok r o' ∧
    (Op.insertInput 0 (List.replicate n y)).work n = 2 * n ∧
    o'.m.tick = o.m.tick + n * (n + 2) := by
  have : Silent E := ⟨hE⟩
  have h : VSt (Heap.around m0 ib) E ib N ⟨SmallVector.empty ib N al, m0⟩ al ib N [] := VSt.mkEmpty (hr.gone).st hr.raw hN
  obtain ⟨r1, o1, b1, c1, xs1, e1, k1, rfl⟩ := h.calm (.assignN n x) rfl (by simp [Op.room]; omega)
  obtain ⟨r2, o2, b2, c2, xs2, e2, k2, rfl⟩ := k1.calm (.reserve (2 * n)) rfl (by simp [Op.room]; omega)
  have hc : 2 * n ≤ c2 := by
    have hw := reserve_spec (newCap := 2 * n) k1
    have e : ∃ r, SmallVector.reserve E ib N (2 * n) o1 = .ok r o2 := by
      cases hx : SmallVector.reserve E ib N (2 * n) o1 with
      | ok r o' =>
        have : SmallVector.exec E ib N (.reserve (2 * n)) o1 = .ok none o' := by
          show M.bind _ _ o1 = _
          unfold M.bind; rw [hx]; rfl
        rw [this] at e2; cases e2; exact ⟨_, rfl⟩
      | exn e o' =>
        have : SmallVector.exec E ib N (.reserve (2 * n)) o1 = .exn e o' := by
          show M.bind _ _ o1 = _
          unfold M.bind; rw [hx]
        rw [this] at e2; cases e2
      | ub u => exact (wp_not_ub hw hx).elim
    obtain ⟨_, e⟩ := e
    obtain ⟨b', cap', k, k', -⟩ := wp_ok e hw
    have h1 := congrArg (fun v => v.eos.off) (k.obj.symm.trans k2.obj)
    simp only at h1
    omega
  obtain ⟨r3, o3, b3, c3, xs3, e3, k3, -⟩ := k2.calm (.insertInput 0 (List.replicate n y)) rfl (by simp [Op.room]; omega)
  refine ⟨o2, r3, o3, ?_, ?_, e3, ?_, ?_⟩
  · unfold runAll; rw [bind_run e1]; unfold runAll; rw [bind_run e2]; rfl
  · obtain ⟨_, _, e, h1, h2⟩ := wp_elim (wp_size (X := fun _ _ => False) (Q := fun n' o' => n' = n ∧ o' = o2) k2.obj ⟨by simp, rfl⟩)
    rw [e, h1, h2]
  · simp [Op.work]; omega
  · have hd := k2.dim
    simp only [List.length_replicate] at hd
    have := vcost.out (SmallVector.exec_insertInput_cost (E := E) (ib := ib) (N := N) hd (k := 0) (ys := List.replicate n y)
      (by omega) (by simp; omega)) e3
    simpa using this

/-- **C46 does not hold** for insert(pos, first, last) with input iterators of vector (vector.hpp:1808-1822). -/
theorem vector_insert_input_quadratic {E : Env α} {al : Nat} {m0 : St α} (hw : m0.Wf) (hE : ∀ t, E.throws t = false)
    (x y : α) {n : Nat} (h0 : 0 < n) (h2 : 2 * n ≤ E.maxSize) : ∃ o r o',
    runAll (Vector.exec E) [.assignN n x, .reserve (2 * n)] ⟨Vector.empty al, m0⟩ = .ok () o ∧
    Vector.size o = .ok n o ∧
    Vector.exec E (.insertInput 0 (List.replicate n y)) o = .ok r o' ∧
    (Op.insertInput 0 (List.replicate n y)).work n = 2 * n ∧
    o'.m.tick = o.m.tick + n * (n + 2) := by
  obtain ⟨o, r, o', h1, h2, h3, h4, h5⟩ := smallVector_insert_input_quadratic (al := al) (RawObject.nothing hw) hE x y h0 h2 (Nat.zero_le _)
  refine ⟨o, r, o', ?_, h2, ?_, h4, h5⟩
  · refine Eq.trans ?_ h1
    simp only [runAll, Vector.exec, SmallVector.exec, SmallVector.assignFillN_zero, SmallVector.reserve_zero]
    rfl
  · refine Eq.trans ?_ h3
    simp only [Vector.exec, SmallVector.exec, SmallVector.insertRangeInput_zero]

/-! ### Non-vacuity -/

/-- `vector_work_partial` for an insertion of three elements in the middle that throws on the way. -/
example : ∃ c o1 o2 o', Vector.Reachable (Demo.env [9]) 3 Demo.m1 (Demo.v (Demo.env [9])) ∧
    Vector.size (Demo.v (Demo.env [9])) = .ok 2 o1 ∧ Vector.capacity (Demo.v (Demo.env [9])) = .ok c o2 ∧
    (Vector.exec (Demo.env [9]) (.insertN 1 3 (.elem 0)) (Demo.v (Demo.env [9]))).final = some o' := by
  obtain ⟨o', h⟩ := Option.isSome_iff_exists.mp (show (Vector.exec (Demo.env [9]) (.insertN 1 3 (.elem 0))
    (Demo.v (Demo.env [9]))).final.isSome = true by decide +kernel)
  exact ⟨_, _, _, o', Demo.v_reachable _, rfl, rfl, h⟩

/-- `smallVector_work_partial` and `smallVector_insert_input` for a small_vector with internal storage for three elements. -/
example : ∃ n c o1 o2 o' o'', RawObject (α := Nat) Demo.m2 2 3 ∧ SmallVector.Reachable (Demo.env []) 2 3 7 Demo.m2 (Demo.sv (Demo.env [])) ∧
    Vector.size (Demo.sv (Demo.env [])) = .ok n o1 ∧ Vector.capacity (Demo.sv (Demo.env [])) = .ok c o2 ∧
    (SmallVector.exec (Demo.env []) 2 3 (.insertRange 1 [4, 5, 6]) (Demo.sv (Demo.env []))).final = some o' ∧
    (SmallVector.exec (Demo.env []) 2 3 (.insertInput 1 [4, 5, 6]) (Demo.sv (Demo.env []))).final = some o'' := by
  obtain ⟨o', h⟩ := Option.isSome_iff_exists.mp (show (SmallVector.exec (Demo.env []) 2 3 (.insertRange 1 [4, 5, 6])
    (Demo.sv (Demo.env []))).final.isSome = true by decide +kernel)
  obtain ⟨o'', h'⟩ := Option.isSome_iff_exists.mp (show (SmallVector.exec (Demo.env []) 2 3 (.insertInput 1 [4, 5, 6])
    (Demo.sv (Demo.env []))).final.isSome = true by decide +kernel)
  exact ⟨_, _, _, _, o', o'', Demo.m2_raw, Demo.sv_reachable _, rfl, rfl, h, h'⟩

/-- `vector_insert_input_quadratic` for ten elements: 120 operations, where the documentation promises a number linear in 20. -/
example : ∃ o r o', Vector.exec (Demo.env []) (.insertInput 0 (List.replicate 10 (4 : Nat))) o = .ok r o' ∧
    o'.m.tick = o.m.tick + 120 := by
  obtain ⟨o, r, o', -, -, h, -, h'⟩ := vector_insert_input_quadratic (E := Demo.env []) (al := 3) Demo.m1_wf (fun _ => rfl) 3 4
    (n := 10) (by decide) (by decide)
  exact ⟨o, r, o', h, h'⟩

end Sfl
