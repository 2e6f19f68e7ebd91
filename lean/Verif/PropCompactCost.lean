import Verif.CostCompact
import Verif.PropCompact
import Verif.PropFlatCost
/-
  C46 for compact_vector. The documentation (compact_vector.md) gives the complexity of the constructors and of erase and erase_if;
  about the other modifiers it says nothing. Since the storage always has exactly size() slots, every modifier that changes the size
  moves all elements: the bound is linear in the sizes before and after.
-/

namespace Sfl
open Sq World
variable {α : Type}

theorem CompactVector.line {H : Heap α} {E : Env α} {al b : Nat} {o : Obj Vec α} {xs : List α} (h : CSt H E o al b xs) :
    CompactVector.Line o.obj xs.length := by
  constructor <;> rw [h.obj] <;> simp

theorem CompactVector.size_eq {H : Heap α} {E : Env α} {al b : Nat} {o o1 : Obj Vec α} {xs : List α} {n : Nat}
    (h : CSt H E o al b xs) (hn : CompactVector.size o = .ok n o1) : n = xs.length :=
  wp_ok (Q := fun n _ => n = xs.length) hn (CompactVector.wp_size (X := fun _ _ => True) (Q := fun n _ => n = xs.length) h rfl)

section
variable {K : Nat} {E : Env α} {T : Traits} {quiet : Bool} {m0 : St α} {i : Fin K} {o o' o1 : Obj Vec α} {n : Nat}

/-- **C46**, compact_vector: a modifier costs at most the size plus the number of elements asked for plus one, whatever it throws.

Missing: the modifiers that read a range of input iterators; see `compactVector_input_quadratic`. -/
theorem compactVector_work_partial (hw : m0.Wf) (hq : quiet = true → ∀ t, E.throws t = false)
    (h : Reached (CompactVector.cont K E T) (CompactVector.sem E T quiet) m0 i o) (hn : CompactVector.size o = .ok n o1)
    (op : Sq.Op α) (hop : op.isInput = false) (hx : (CompactVector.exec E op o).final = some o') :
    o'.m.tick ≤ o.m.tick + n + op.room n + 1 := by
  obtain ⟨H, al, b, xs, h⟩ := h.compact hw hq
  obtain rfl := CompactVector.size_eq h hn
  exact vcost.fin (P := fun _ t' => t' ≤ _) (CompactVector.exec_costs (E := E) (CompactVector.line h) op hop) hx

/-- Inserting `m` input iterators' elements one by one costs about m · n + m² / 2. -/
theorem compactVector_insert_input (hw : m0.Wf) (hq : quiet = true → ∀ t, E.throws t = false)
    (h : Reached (CompactVector.cont K E T) (CompactVector.sem E T quiet) m0 i o) (hn : CompactVector.size o = .ok n o1)
    (k : Nat) (ys : List α) :
    (∀ {o'}, (CompactVector.exec E (.insertInput k ys) o).final = some o' →
      2 * o'.m.tick ≤ 2 * o.m.tick + ys.length * (ys.length + 2 * n + 3)) ∧
    ∀ {r o'}, CompactVector.exec E (.insertInput k ys) o = .ok r o' →
      2 * o.m.tick + ys.length * (ys.length + 2 * n + 1) ≤ 2 * o'.m.tick := by
  obtain ⟨H, al, b, xs, h⟩ := h.compact hw hq
  obtain rfl := CompactVector.size_eq h hn
  have hc := CompactVector.exec_insertInput_cost (E := E) (CompactVector.line h) (k := k) (ys := ys) (t := o.m.tick)
  exact ⟨fun hx => vcost.fin (P := fun _ t' => 2 * t' ≤ _) (vcost.mono hc (fun _ _ _ h => h.2) fun _ _ h => h) hx,
    fun hx => (vcost.out hc hx).1⟩

/-- Assigning `m` input iterators' elements costs about m² / 2. -/
theorem compactVector_assign_input (ys : List α) :
    (∀ {o'}, (CompactVector.exec E (.assignInput ys) o).final = some o' → 2 * o'.m.tick ≤ 2 * o.m.tick + ys.length * (ys.length + 3)) ∧
    ∀ {r o'}, CompactVector.exec E (.assignInput ys) o = .ok r o' → 2 * o.m.tick + ys.length * (ys.length + 1) ≤ 2 * o'.m.tick := by
  have hc := CompactVector.exec_assignInput_cost (E := E) (v := o.obj) (ys := ys) (t := o.m.tick)
  exact ⟨fun hx => vcost.fin (P := fun _ t' => 2 * t' ≤ _) (vcost.mono hc (fun _ _ _ h => h.2) fun _ _ h => h) hx,
    fun hx => (vcost.out hc hx).1⟩

end

/-- The constructors that do not read a range of input iterators cost the number of elements and one allocation. -/
theorem compactVector_construct_work_partial {E : Env α} {al : Nat} {m : St α} {o' : Obj Vec α} (init : Sq.Init α)
    (hi : ∀ ys, init ≠ .input ys) (hx : (CompactVector.construct E init ⟨CompactVector.empty al, m⟩).final = some o') :
    o'.m.tick ≤ m.tick + (init.result E.dflt).length + 1 :=
  vcost.fin (P := fun _ t' => t' ≤ _) (CompactVector.construct_costs (E := E) (v := CompactVector.empty al) (t := m.tick) hi) hx

/-- **C46 does not hold** for the constructor from a range of input iterators, documented as linear in the number of elements
(compact_vector.md, compact_vector.hpp:1011-1041): it always takes more than m² / 2 operations. -/
theorem compactVector_input_quadratic {E : Env α} {al : Nat} {m : St α} (hw : m.Wf) (hE : ∀ t, E.throws t = false) (ys : List α)
    (hl : ys.length ≤ E.maxSize) : ∃ o', CompactVector.construct E (.input ys) ⟨CompactVector.empty al, m⟩ = .ok () o' ∧
      2 * m.tick + ys.length * (ys.length + 1) ≤ 2 * o'.m.tick := by
  have : Silent E := ⟨hE⟩
  have : Allows (fun e => e = .lengthError) .lengthError := ⟨rfl⟩
  have hc := CompactVector.construct_spec (E := E) (al := al) (.input ys) (RawObject.nothing hw).gone
  cases hx : CompactVector.construct E (.input ys) ⟨CompactVector.empty al, m⟩ with
  | ub u => exact (wp_not_ub hc hx).elim
  | exn e o' =>
    have he := Calm.out (L := fun e => e = .lengthError) _ _ _ hx
    have := (wp_exn hx hc).2 he
    simp [Init.result] at this
    omega
  | ok u o' =>
    exact ⟨o', rfl, (vcost.out (CompactVector.construct_input_cost (E := E) (v := CompactVector.empty al) (t := m.tick) ⟨rfl, rfl⟩) hx).1⟩

/-! ### Non-vacuity -/

open Demo

/-- `compactVector_work_partial`, `compactVector_insert_input`, `compactVector_assign_input`: a compact_vector {1, 2, 3}. -/
example : m1.Wf ∧ Reached (CompactVector.cont 2 (env []) T) (CompactVector.sem (env []) T false) m1 0 (cv (env []) [1, 2, 3]) ∧
    (∃ o1, CompactVector.size (cv (env []) [1, 2, 3]) = .ok 3 o1) ∧
    [.pushBack (.value 9), .eraseAt 0, .insertRange 1 [7, 8], .insertInput 1 [7, 8], .assignInput [5, 6, 7], .eraseIf (· % 2 == 1)].map
      (fun op => spent (cv (env []) [1, 2, 3]) (CompactVector.exec (env []) op (cv (env []) [1, 2, 3]))) =
      [some 5, some 3, some 6, some 11, some 9, some 3] :=
  ⟨m1_wf, cv_reached _ _ (by decide +kernel), ok_of (by decide +kernel), by decide +kernel⟩

/-- `compactVector_construct_work_partial`, `compactVector_input_quadratic`: ten elements take 11 operations, and 65 if they are read from
input iterators. -/
example : spent ⟨CompactVector.empty 3, m1⟩ (CompactVector.construct (env []) (.range (List.replicate 10 4)) ⟨CompactVector.empty 3, m1⟩) = some 11 ∧
    spent ⟨CompactVector.empty 3, m1⟩ (CompactVector.construct (env []) (.input (List.replicate 10 4)) ⟨CompactVector.empty 3, m1⟩) = some 65 ∧
    10 ≤ (env []).maxSize := by decide +kernel

end Sfl
