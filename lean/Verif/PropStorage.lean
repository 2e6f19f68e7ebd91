import Verif.PropWork
/-
  C47: the storage stays proportional to the content. After any program, whatever it throws, the capacity of a container exceeds
  neither the capacity before, nor the internal storage, nor a constant times the largest number of elements that was asked for on the
  way.
-/

namespace Sfl
open Sq World
variable {α : Type}

/-- The states in which programs can end, by return or by exception, whose operations ask for at most `P` elements: `room n op` is the
number of elements `op` asks for if the size is `n`. -/
inductive Asked {V Op ρ : Type} (size : M (Obj V α) Nat) (exec : Op → M (Obj V α) ρ) (room : Nat → Op → Nat) (P : Nat) (o : Obj V α) :
    Obj V α → Prop where
  | refl : Asked size exec room P o o
  | step {o1 o2 o3 n op} : Asked size exec room P o o1 → size o1 = .ok n o2 → room n op ≤ P → (exec op o1).final = some o3 →
      Asked size exec room P o o3

/-! ### vector and small_vector -/

namespace SmallVector
variable {E : Env α} {v : Vec} {n r t ib N : Nat}

theorem Fit.dim {B : Nat} (h : Fit v B) : Dim v (v.last.off - v.first.off) (v.eos.off - v.last.off) := by
  obtain ⟨h1, h2, h3, h4, h5⟩ := h
  constructor <;> omega

theorem Dim.fit (h : Dim v n r) : Fit v (n + r) := by
  obtain ⟨h1, h2, h3, h4⟩ := h
  constructor <;> omega

theorem Fit.mono {B B' : Nat} (h : Fit v B) (hB : B ≤ B') : Fit v B' :=
  ⟨h.1, h.2, h.3, h.4, Nat.le_trans h.5 hB⟩

theorem size_off {o o1 : Obj Vec α} (h : Vector.size o = .ok n o1) : n = o.obj.last.off - o.obj.first.off := by
  have h : (distance o.obj.first o.obj.last : M (Obj Vec α) Nat) o = .ok n o1 := h
  unfold distance at h
  split at h <;> cases h
  rfl

theorem capacity_off {o o1 : Obj Vec α} (h : Vector.capacity o = .ok n o1) : n = o.obj.eos.off - o.obj.first.off := by
  have h : (distance o.obj.first o.obj.eos : M (Obj Vec α) Nat) o = .ok n o1 := h
  unfold distance at h
  split at h <;> cases h
  rfl

/-- Every modifier. -/
theorem exec_fits (h : Dim v n r) (op : Sq.Op α) :
    vcost (exec E ib N op) (fun _ v' _ => Fit v' (max N (max (n + r) (op.room n + op.room n / 2))))
      (fun v' _ => Fit v' (max N (max (n + r) (op.room n + op.room n / 2)))) v t := by
  by_cases hop : op.isInsertInput = false
  · exact vcost.mono (exec_ends h op hop) (fun _ _ _ h => h.1) fun _ _ h => h.1
  · cases op <;> simp [Op.isInsertInput] at hop
    exact vcost.mono (exec_insertInput_ends h) (fun _ _ _ h => h.1) fun _ _ h => h.1

end SmallVector

namespace Vector
open SmallVector (Dim Fit)
variable {E : Env α} {v : Vec} {n r t : Nat}

theorem shrinkToFit_ends (h : Dim v n r) : SmallVector.Ends (shrinkToFit E) (n + r) (t + if r = 0 then 0 else n + 1) v t := by
  obtain ⟨h1, h2, h3, h4⟩ := h
  unfold shrinkToFit Vector.capacity Vector.size replaceStorage
  refine .bind (.bind (.getObj (.distance fun _ _ => .bind (.bind (.getObj (.distance fun _ _ => ?_))))))
  refine .ite (fun hg => ?_) fun hg => .pure ?_
  · rw [if_neg (by omega)]
    vcost <;> fit
  · rw [if_pos (by omega)]; fit

theorem exec_eq_of {op : Sq.Op α} (h : op ≠ .shrinkToFit) : SmallVector.exec E 0 0 op = exec E op := by
  cases op <;> simp only [SmallVector.exec, Vector.exec, SmallVector.emplaceBack_zero, SmallVector.emplace_zero,
    SmallVector.insertFillN_zero, SmallVector.insertRange_zero, SmallVector.insertRangeInput_zero, SmallVector.resize,
    Vector.resize, SmallVector.resizeWith_zero, SmallVector.assignFillN_zero, SmallVector.assignRange_zero,
    SmallVector.assignRangeInput_zero, SmallVector.reserve_zero]
  exact absurd rfl h

theorem exec_fits (h : Dim v n r) (op : Sq.Op α) :
    vcost (exec E op) (fun _ v' _ => Fit v' (max (n + r) (op.room n + op.room n / 2)))
      (fun v' _ => Fit v' (max (n + r) (op.room n + op.room n / 2))) v t := by
  by_cases hop : op = .shrinkToFit
  · subst hop
    exact .bind (vcost.mono (shrinkToFit_ends h) (fun _ _ _ h => .pure (h.1.mono (by omega))) fun _ _ h => h.1.mono (by omega))
  · rw [← exec_eq_of hop]
    exact (SmallVector.exec_fits h op).mono (fun _ _ _ h => h.mono (by omega)) fun _ _ h => h.mono (by omega)

end Vector

/-- **C47**, small_vector: one and a half times as much as ever was asked for. -/
theorem smallVector_storage {E : Env α} {ib N al : Nat} {m0 : St α} {o o' o1 o2 : Obj Vec α} {c c' P : Nat} (hr : RawObject m0 ib N)
    (hN : N ≤ E.maxSize) (h : SmallVector.Reachable E ib N al m0 o) (hc : Vector.capacity o = .ok c o1)
    (hw : Asked Vector.size (SmallVector.exec E ib N) (fun n op => op.room n) P o o') (hc' : Vector.capacity o' = .ok c' o2) :
    c' ≤ max (max c N) (P + P / 2) := by
  obtain ⟨xs, b, cap, h⟩ := h.repr hr hN
  obtain rfl := h.capacity_eq hc
  have hf : SmallVector.Fit o'.obj (max (max c N) (P + P / 2)) := by
    clear hc'
    induction hw with
    | refl => exact h.dim.fit.mono (by have := h.len; omega)
    | step hw hs hp hx ih =>
      rename_i o1 o2 o3 n op
      obtain rfl := SmallVector.size_off hs
      refine (vcost.fin (P := fun v _ => SmallVector.Fit v _) (SmallVector.exec_fits ih.dim op) hx).mono ?_
      have := ih.cap
      have := ih.eos
      have := ih.last
      omega
  rw [SmallVector.capacity_off hc']
  exact hf.cap

/-- **C47**, vector: one and a half times as much as ever was asked for. -/
theorem vector_storage {E : Env α} {al : Nat} {m0 : St α} {o o' o1 o2 : Obj Vec α} {c c' P : Nat} (hm : m0.Wf)
    (h : Vector.Reachable E al m0 o) (hc : Vector.capacity o = .ok c o1)
    (hw : Asked Vector.size (Vector.exec E) (fun n op => op.room n) P o o') (hc' : Vector.capacity o' = .ok c' o2) :
    c' ≤ max c (P + P / 2) := by
  obtain ⟨xs, b, cap, h⟩ := h.repr hm
  obtain rfl := h.capacity_eq hc
  have hf : SmallVector.Fit o'.obj (max c (P + P / 2)) := by
    clear hc'
    induction hw with
    | refl => exact h.dim.fit.mono (by have := h.len; omega)
    | step hw hs hp hx ih =>
      rename_i o1 o2 o3 n op
      obtain rfl := SmallVector.size_off hs
      refine (vcost.fin (P := fun v _ => SmallVector.Fit v _) (Vector.exec_fits ih.dim op) hx).mono ?_
      have := ih.cap
      have := ih.eos
      have := ih.last
      omega
  rw [SmallVector.capacity_off hc']
  exact hf.cap

/-! ### Non-vacuity -/

/-- A vector that is filled up. -/
def Demo.filled : Obj Vec Nat :=
  ((Vector.exec (Demo.env []) (.insertN 1 6 (.elem 0)) (Demo.v (Demo.env []))).final).getD (Demo.v (Demo.env []))

/-- The same vector, emptied. -/
def Demo.drained : Obj Vec Nat := ((Vector.exec (Demo.env []) .clear Demo.filled).final).getD Demo.filled

theorem Demo.some_getD {β : Type} {x : Option β} (d : β) (h : x.isSome = true) : x = some (x.getD d) := by
  cases x <;> simp_all

theorem Demo.drained_asked :
    Asked Vector.size (Vector.exec (Demo.env [])) (fun n op => op.room n) 8 (Demo.v (Demo.env [])) Demo.drained := by
  refine .step (o2 := Demo.filled) (n := 8) (op := .clear) (.step (o2 := Demo.v (Demo.env [])) (n := 2) (o3 := Demo.filled)
    (op := .insertN 1 6 (.elem 0)) .refl rfl ?_ (Demo.some_getD _ ?_)) rfl ?_ (Demo.some_getD _ ?_) <;> decide +kernel

/-- `vector_storage` for that vector; eight elements are asked for at most. -/
example : ∃ c c' o1 o2, Vector.Reachable (Demo.env []) 3 Demo.m1 (Demo.v (Demo.env [])) ∧
    Vector.capacity (Demo.v (Demo.env [])) = .ok c o1 ∧
    Asked Vector.size (Vector.exec (Demo.env [])) (fun n op => op.room n) 8 (Demo.v (Demo.env [])) Demo.drained ∧
    Vector.capacity Demo.drained = .ok c' o2 ∧ Vector.size Demo.drained = .ok 0 o2 ∧ 8 ≤ c' :=
  ⟨_, _, _, _, Demo.v_reachable _, rfl, Demo.drained_asked, rfl, rfl, by decide +kernel⟩

end Sfl
