import Verif.CostDev2
import Verif.DevWorld
/-
  Programs that work at the ends of a devector: what they cost.
-/

namespace Sfl
variable {α : Type}

/-- A client that calls the operations `ops` one after the other and does not catch exceptions. -/
def runAll {Op V ρ : Type} (exec : Op → M (Obj V α) ρ) : List Op → M (Obj V α) Unit
  | [] => pure ()
  | op :: ops => do
    let _ ← exec op
    runAll exec ops

namespace Dq.Op
/-- push_front, emplace_front -/
def isPushFront : Op α → Bool
  | .pushFront _ => true
  | _ => false

/-- push_back, emplace_back -/
def isPushBack : Op α → Bool
  | .pushBack _ => true
  | _ => false

/-- pop_front, pop_back -/
def isPop : Op α → Bool
  | .popFront => true
  | .popBack => true
  | _ => false

/-- The operation works at one of the ends. -/
def atEnds (op : Op α) : Bool := op.isPushFront || op.isPushBack || op.isPop
end Dq.Op

namespace Devector
open Dq
variable {E : Env α} {v : DVec} {f n b t : Nat}

theorem exec_pushBack_cost (h : Dim v f n b) {s : Sq.Src α} :
    vcost (exec E (.pushBack s))
      (fun _ v' t' => if 0 < b then Dim v' f (n + 1) (b - 1) ∧ t' = t + 1
        else if max 1 (n / 2) < f then Dim v' (f - max 1 (n / 2)) (n + 1) (max 1 (n / 2) - 1) ∧ t + n ≤ t' ∧ t' ≤ t + n + 4
        else Dim v' f (n + 1) (max 1 (n / 2) - 1) ∧ t' ≤ t + n + 4)
      (fun v' t' => v' = v ∧ (0 < b → t' ≤ t + 1) ∧ t' ≤ t + n + 4) v t := by
  refine .bind (.bind (.getObj (.pure (.bind ((emplaceBackAux_cost h).mono (fun p v' t' hq => ?_) fun _ _ h => h)))))
  exact .bind (.getObj (.bind (.assert fun _ => .bind (.distance fun _ _ => .pure hq))))

theorem exec_pushFront_cost (h : Dim v f n b) {s : Sq.Src α} :
    vcost (exec E (.pushFront s))
      (fun _ v' t' => if 0 < f then Dim v' (f - 1) (n + 1) b ∧ t' = t + 1
        else if max 1 (n / 2) < b then Dim v' (max 1 (n / 2) - 1) (n + 1) (b - max 1 (n / 2)) ∧ t + n ≤ t' ∧ t' ≤ t + n + 4
        else Dim v' (max 1 (n / 2) - 1) (n + 1) b ∧ t' ≤ t + n + 4)
      (fun v' t' => v' = v ∧ (0 < f → t' ≤ t + 1) ∧ t' ≤ t + n + 4) v t := by
  refine .bind (.bind (.getObj (.pure (.bind ((emplaceFrontAux_cost h).mono (fun p v' t' hq => ?_) fun _ _ h => h)))))
  exact .bind (.getObj (.bind (.assert fun _ => .bind (.distance fun _ _ => .pure hq))))

theorem exec_popFront_cost (h : Dim v f n b) :
    vcost (exec E .popFront) (fun _ v' t' => 0 < n ∧ Dim v' (f + 1) (n - 1) b ∧ t' = t) (fun _ _ => False) v t :=
  .bind ((popFront_cost h).mono (fun _ _ _ hq => .pure hq) fun _ _ h => h)

theorem exec_popBack_cost (h : Dim v f n b) :
    vcost (exec E .popBack) (fun _ v' t' => 0 < n ∧ Dim v' f (n - 1) (b + 1) ∧ t' = t) (fun _ _ => False) v t :=
  .bind ((popBack_cost h).mono (fun _ _ _ hq => .pure hq) fun _ _ h => h)

/-- Without push_front: every shift and every growth is paid for by the elements appended since the last one. -/
theorem back_cost (ops : List (Op α)) : ∀ {v : DVec} {f n b t : Nat}, Dim v f n b →
    (∀ op ∈ ops, op.isPushBack = true ∨ op.isPop = true) →
    vcost (runAll (exec E) ops) (fun _ _ t' => t' ≤ t + 9 * ops.length + (n - 2 * b))
      (fun _ t' => t' ≤ t + 9 * ops.length + (n - 2 * b)) v t := by
  induction ops with
  | nil => intro v f n b t _ _; exact .pure (by simp)
  | cons op ops ih =>
    intro v f n b t h hops
    have hops' : ∀ op ∈ ops, op.isPushBack = true ∨ op.isPop = true := fun o ho => hops o (List.mem_cons_of_mem _ ho)
    have hop := hops op List.mem_cons_self
    unfold runAll
    simp only [List.length_cons]
    cases op with
    | pushBack s =>
      refine .bind ((exec_pushBack_cost h).mono (fun _ v' t' hq => ?_) fun _ _ h => by omega)
      split at hq
      · exact (ih hq.1 hops').mono (fun _ _ _ _ => by omega) fun _ _ _ => by omega
      · split at hq
        · exact (ih hq.1 hops').mono (fun _ _ _ _ => by omega) fun _ _ _ => by omega
        · exact (ih hq.1 hops').mono (fun _ _ _ _ => by omega) fun _ _ _ => by omega
    | popFront =>
      refine .bind ((exec_popFront_cost h).mono (fun _ v' t' hq => ?_) fun _ _ h => h.elim)
      exact (ih hq.2.1 hops').mono (fun _ _ _ _ => by omega) fun _ _ _ => by omega
    | popBack =>
      refine .bind ((exec_popBack_cost h).mono (fun _ v' t' hq => ?_) fun _ _ h => h.elim)
      exact (ih hq.2.1 hops').mono (fun _ _ _ _ => by omega) fun _ _ _ => by omega
    | _ => simp [Op.isPushBack, Op.isPop] at hop

/-- Without push_back. -/
theorem front_cost (ops : List (Op α)) : ∀ {v : DVec} {f n b t : Nat}, Dim v f n b →
    (∀ op ∈ ops, op.isPushFront = true ∨ op.isPop = true) →
    vcost (runAll (exec E) ops) (fun _ _ t' => t' ≤ t + 9 * ops.length + (n - 2 * f))
      (fun _ t' => t' ≤ t + 9 * ops.length + (n - 2 * f)) v t := by
  induction ops with
  | nil => intro v f n b t _ _; exact .pure (by simp)
  | cons op ops ih =>
    intro v f n b t h hops
    have hops' : ∀ op ∈ ops, op.isPushFront = true ∨ op.isPop = true := fun o ho => hops o (List.mem_cons_of_mem _ ho)
    have hop := hops op List.mem_cons_self
    unfold runAll
    simp only [List.length_cons]
    cases op with
    | pushFront s =>
      refine .bind ((exec_pushFront_cost h).mono (fun _ v' t' hq => ?_) fun _ _ h => by omega)
      split at hq
      · exact (ih hq.1 hops').mono (fun _ _ _ _ => by omega) fun _ _ _ => by omega
      · split at hq
        · exact (ih hq.1 hops').mono (fun _ _ _ _ => by omega) fun _ _ _ => by omega
        · exact (ih hq.1 hops').mono (fun _ _ _ _ => by omega) fun _ _ _ => by omega
    | popFront =>
      refine .bind ((exec_popFront_cost h).mono (fun _ v' t' hq => ?_) fun _ _ h => h.elim)
      exact (ih hq.2.1 hops').mono (fun _ _ _ _ => by omega) fun _ _ _ => by omega
    | popBack =>
      refine .bind ((exec_popBack_cost h).mono (fun _ v' t' hq => ?_) fun _ _ h => h.elim)
      exact (ih hq.2.1 hops').mono (fun _ _ _ _ => by omega) fun _ _ _ => by omega
    | _ => simp [Op.isPushFront, Op.isPop] at hop

/-- A shift that may use up the free space at the other end. -/
def debt (f n k : Nat) : Nat := if n < 2 * f then n + k else n - 2 * f

/-- Without pops: each end can lose its free space to the other end only once. -/
theorem push_cost (ops : List (Op α)) : ∀ {v : DVec} {f n b t : Nat}, Dim v f n b →
    (∀ op ∈ ops, op.isPushFront = true ∨ op.isPushBack = true) →
    vcost (runAll (exec E) ops) (fun _ _ t' => t' ≤ t + 10 * ops.length + debt f n ops.length + debt b n ops.length)
      (fun _ t' => t' ≤ t + 10 * ops.length + debt f n ops.length + debt b n ops.length) v t := by
  induction ops with
  | nil => intro v f n b t _ _; exact .pure (by omega)
  | cons op ops ih =>
    intro v f n b t h hops
    have hops' : ∀ op ∈ ops, op.isPushFront = true ∨ op.isPushBack = true := fun o ho => hops o (List.mem_cons_of_mem _ ho)
    have hop := hops op List.mem_cons_self
    unfold runAll
    simp only [List.length_cons]
    unfold debt at *
    cases op with
    | pushBack s =>
      refine .bind ((exec_pushBack_cost h).mono (fun _ v' t' hq => ?_) fun _ _ h => by (repeat' split) <;> omega)
      split at hq
      · exact (ih hq.1 hops').mono (fun _ _ _ hh => by (repeat' split at hh) <;> (repeat' split) <;> omega) fun _ _ hh => by (repeat' split at hh) <;> (repeat' split) <;> omega
      · split at hq
        · exact (ih hq.1 hops').mono (fun _ _ _ hh => by (repeat' split at hh) <;> (repeat' split) <;> omega) fun _ _ hh => by (repeat' split at hh) <;> (repeat' split) <;> omega
        · exact (ih hq.1 hops').mono (fun _ _ _ hh => by (repeat' split at hh) <;> (repeat' split) <;> omega) fun _ _ hh => by (repeat' split at hh) <;> (repeat' split) <;> omega
    | pushFront s =>
      refine .bind ((exec_pushFront_cost h).mono (fun _ v' t' hq => ?_) fun _ _ h => by (repeat' split) <;> omega)
      split at hq
      · exact (ih hq.1 hops').mono (fun _ _ _ hh => by (repeat' split at hh) <;> (repeat' split) <;> omega) fun _ _ hh => by (repeat' split at hh) <;> (repeat' split) <;> omega
      · split at hq
        · exact (ih hq.1 hops').mono (fun _ _ _ hh => by (repeat' split at hh) <;> (repeat' split) <;> omega) fun _ _ hh => by (repeat' split at hh) <;> (repeat' split) <;> omega
        · exact (ih hq.1 hops').mono (fun _ _ _ hh => by (repeat' split at hh) <;> (repeat' split) <;> omega) fun _ _ hh => by (repeat' split at hh) <;> (repeat' split) <;> omega
    | _ => simp [Op.isPushFront, Op.isPushBack] at hop

end Devector
end Sfl
