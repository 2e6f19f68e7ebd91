import Verif.VecEq
import Verif.Devector
/-
  If element operations and allocations do not throw, length_error is the only exception: proved for every function by following its
  structure. Here the method and the element algorithms; CalmAll.lean has the containers.
-/

set_option linter.unusedVariables false
set_option linter.unusedSimpArgs false

namespace Sfl
variable {α σ β γ : Type}

/-- No element operation and no allocation throws. -/
class Silent (E : Env α) : Prop where
  out : ∀ t, E.throws t = false

/-- The exception `e` is among the exceptions `L`. -/
class Allows (L : Exn → Prop) (e : Exn) : Prop where
  out : L e

/-- A program throws nothing but exceptions in `L`. -/
class Calm (L : Exn → Prop) (m : M σ β) : Prop where
  out : ∀ s e s', m s = .exn e s' → L e

variable {L : Exn → Prop}

instance (b : β) : Calm L (pure b : M σ β) := ⟨fun _ _ _ h => by cases h⟩
instance (r : UB) : Calm L (M.undef r : M σ β) := ⟨fun _ _ _ h => by cases h⟩
instance (e : Exn) [h : Allows L e] : Calm L (M.throw e : M σ β) := ⟨fun _ _ _ h' => by cases h'; exact h.out⟩
instance : Calm L (getObj : M (Obj β α) β) := ⟨fun _ _ _ h => by cases h⟩
instance (v : β) : Calm L (setObj v : M (Obj β α) Unit) := ⟨fun _ _ _ h => by cases h⟩
instance (c : Prop) [Decidable c] : Calm L (M.assert c : M σ Unit) :=
  ⟨fun _ _ _ h => by unfold M.assert at h; split at h <;> cases h⟩
instance (p q : Ptr) : Calm L (distance p q : M σ Nat) :=
  ⟨fun _ _ _ h => by unfold distance at h; split at h <;> cases h⟩

theorem Calm.bind {m : M σ β} {f : β → M σ γ} (h : Calm L m) (hf : ∀ b, Calm L (f b)) : Calm L (m >>= f) :=
  ⟨fun s e s' he => by
    rw [bind_apply] at he
    split at he
    · exact (hf _).out _ _ _ he
    · rename_i hm; cases he; exact h.out _ _ _ hm
    · cases he⟩

theorem Calm.tryCatch {m : M σ β} {k : Exn → M σ β} (h : Calm L m) (hk : ∀ e, Allows L e → Calm L (k e)) : Calm L (M.tryCatch m k) :=
  ⟨fun s e s' he => by
    unfold M.tryCatch at he
    split at he
    · cases he
    · rename_i hm
      exact (hk _ ⟨h.out _ _ _ hm⟩).out _ _ _ he
    · cases he⟩

theorem Calm.ite {c : Prop} [Decidable c] {m k : M σ β} (h : Calm L m) (hk : Calm L k) : Calm L (if c then m else k) := by
  split <;> assumption

instance (V : Type) (m : M (St α) β) [h : Calm L m] : Calm L (lift m : M (Obj V α) β) :=
  ⟨fun s e s' he => by
    unfold lift at he
    split at he
    · cases he
    · rename_i hm; cases he; exact h.out _ _ _ hm
    · cases he⟩

/-- One step of the proof. -/
macro "calm1" : tactic => `(tactic| first
  | infer_instance
  | assumption
  | (with_reducible refine Calm.bind ?_ (fun _ => ?_))
  | (with_reducible refine Calm.tryCatch ?_ (fun _ _ => ?_))
  | (with_reducible refine Calm.ite ?_ ?_)
  | (apply Calm.bind)
  | intro _
  | split
  | dsimp only)

/-- Follows the structure of the program. -/
macro "calm" : tactic => `(tactic| repeat' calm1)

section
variable {E : Env α}

instance [h : Silent E] (p : Ptr) (a : Arg α) : Calm L (construct E p a) :=
  ⟨fun s e s' he => by
    unfold construct at he
    simp only [h.out, Bool.false_and, Bool.false_eq_true, if_false] at he
    repeat' split at he
    all_goals cases he⟩

instance [h : Silent E] (p : Ptr) (a : Arg α) : Calm L (assign E p a) :=
  ⟨fun s e s' he => by
    unfold assign at he
    simp only [h.out, Bool.false_and, Bool.false_eq_true, if_false] at he
    repeat' split at he
    all_goals cases he⟩

instance [h : Silent E] (a : Arg α) : Calm L (mkTmp E a) :=
  ⟨fun s e s' he => by
    unfold mkTmp at he
    simp only [h.out, Bool.false_and, Bool.false_eq_true, if_false] at he
    repeat' split at he
    all_goals cases he⟩

instance (p : Ptr) : Calm L (destroyAt p : M (St α) Unit) :=
  ⟨fun s e s' he => by unfold destroyAt at he; split at he <;> cases he⟩

instance (p : Ptr) : Calm L (readAt p : M (St α) α) :=
  ⟨fun s e s' he => by unfold readAt at he; split at he <;> cases he⟩

instance [h : Silent E] (a n : Nat) : Calm L (allocate E a n) :=
  ⟨fun s e s' he => by
    unfold allocate at he
    simp only [h.out, Bool.false_and, Bool.false_eq_true, if_false] at he
    repeat' split at he
    all_goals cases he⟩

instance (a : Nat) (p : Ptr) (n : Nat) : Calm L (deallocate a p n : M (St α) Unit) :=
  ⟨fun s e s' he => by
    unfold deallocate at he
    repeat' split at he
    all_goals cases he⟩

instance instDestroyN (p : Ptr) (n : Nat) : Calm L (destroyN p n : M (St α) Unit) := by
  induction n generalizing p with
  | zero => unfold destroyN; calm
  | succ n ih => unfold destroyN; have := ih; calm

instance (p q : Ptr) : Calm L (destroyRange p q : M (St α) Unit) := by unfold destroyRange; calm

variable [Silent E]

instance (d : Ptr) (k : Nat) (as : List (Arg α)) : Calm L (uninitGo E d k as) := by
  induction as generalizing k with
  | nil => unfold uninitGo; calm
  | cons a as ih => unfold uninitGo; have := ih; calm

instance (d : Ptr) (as : List (Arg α)) : Calm L (uninit E d as) := by unfold uninit; calm
instance (p q d : Ptr) : Calm L (uninitCopy E p q d) := by unfold uninitCopy; calm
instance (p q d : Ptr) : Calm L (uninitMove E p q d) := by unfold uninitMove; calm
instance (p q d : Ptr) : Calm L (uninitMoveIf E p q d) := by unfold uninitMoveIf; calm
instance (d : Ptr) (ys : List α) : Calm L (uninitCopyList E d ys) := by unfold uninitCopyList; calm
instance (d : Ptr) (n : Nat) (a : Arg α) : Calm L (uninitFillN E d n a) := by unfold uninitFillN; calm
instance (p q : Ptr) (a : Arg α) : Calm L (uninitFill E p q a) := by unfold uninitFill; calm
instance (d : Ptr) (n : Nat) : Calm L (uninitDefaultN E d n) := by unfold uninitDefaultN; calm

instance (d : Ptr) (as : List (Arg α)) : Calm L (assignGo E d as) := by
  induction as generalizing d with
  | nil => unfold assignGo; calm
  | cons a as ih => unfold assignGo; have := ih; calm

instance (p q d : Ptr) : Calm L (moveFwd E p q d) := by unfold moveFwd; calm
instance (p q d : Ptr) : Calm L (copyFwd E p q d) := by unfold copyFwd; calm
instance (p q : Ptr) (a : Arg α) : Calm L (fillRange E p q a) := by unfold fillRange; calm
instance (p : Ptr) (n : Nat) (a : Arg α) : Calm L (fillN E p n a) := by unfold fillN; calm
instance (d : Ptr) (ys : List α) : Calm L (copyList E d ys) := by unfold copyList; calm

instance (p : Ptr) (n : Nat) (d : Ptr) : Calm L (moveBackGo E p n d) := by
  induction n generalizing d with
  | zero => unfold moveBackGo; calm
  | succ n ih => unfold moveBackGo; have := ih; calm

instance (p q d : Ptr) : Calm L (moveBackward E p q d) := by unfold moveBackward; calm

end

theorem Devector.calm_guard {c : M σ Unit} {m : M σ β} (hc : Calm L c) (hm : Calm L m) : Calm L (Devector.guard c m) := by
  unfold Devector.guard; calm

end Sfl
