import Verif.World
/-
  Which containers of a program satisfy an invariant of their elements (order, no duplicates), as far as a client can
  tell from the outcomes of its own operations.
-/

namespace Sfl.World
variable {α Op I ρ : Type} {K : Nat}

/-- What the outcome of a modifier tells about the invariant: the flag after an operation that returned or threw, given
the flag before. A flag `true` means that the invariant may be violated. -/
structure Flags (Op : Type) where
  ok : Op → Bool → Bool
  fail : Op → Bool → Bool

/-- What a client knows from the outcomes of its own operations: `d i` means that the container in slot `i` may violate
the invariant because it has been moved from, or because of an operation that gives no promise. -/
def track (F : Flags Op) (d : Fin K → Bool) : WOp K Op I → Sq.Out (Option ρ) → Fin K → Bool
  | _, .skipped => d
  | .make i _ _, .ok _ => upd d i false
  | .make _ _ _, .threw _ => d
  | .makeCopy i j _, .ok _ => upd d i (d j)
  | .makeCopy _ _ _, .threw _ => d
  | .makeMove i j _, .ok _ => upd (upd d i (d j)) j true
  | .makeMove _ j _, .threw _ => upd d j true
  | .destroy i, _ => upd d i false
  | .op i op, .ok _ => upd d i (F.ok op (d i))
  | .op i op, .threw _ => upd d i (F.fail op (d i))
  | .assignCopy i j, .ok _ => upd d i (d j)
  | .assignCopy i _, .threw _ => upd d i true
  | .assignMove i j, .ok _ => upd (upd d i (d j)) j true
  | .assignMove i j, .threw _ => upd (upd d i true) j true
  | .swap i j, .ok _ => upd (upd d i (d j)) j (d i)
  | .swap i j, .threw _ => upd (upd d i true) j true

/-- The same for a whole history. -/
def trackAll (F : Flags Op) : (Fin K → Bool) → List (WOp K Op I) → List (Sq.Out (Option ρ)) → Fin K → Bool
  | d, op :: ops, out :: outs => trackAll F (track F d op out) ops outs
  | d, _, _ => d

/-- All containers not marked satisfy the invariant `P`. -/
def InOrder (P : List α → Prop) (d : Fin K → Bool) (A : Abs K α) : Prop :=
  ∀ i al xs, A i = some (al, xs) → d i = false → P xs

/-- What is needed of the single steps. -/
structure Keeps (S : Sem Op I α ρ) (P : List α → Prop) (F : Flags Op) : Prop where
  init : ∀ x xs, S.init x xs → P xs
  ok : ∀ xs op r ys d, S.pre xs.length op = true → S.okStep xs op r ys → (d = false → P xs) → F.ok op d = false → P ys
  fail : ∀ xs op e ys d, S.pre xs.length op = true → S.failStep xs op e ys → (d = false → P xs) → F.fail op d = false →
    P ys

variable {P : List α → Prop} {F : Flags Op} {d : Fin K → Bool} {A B : Abs K α} {S : Sem Op I α ρ}

theorem InOrder.one (h : InOrder P d A)
    (i : Fin K) (a : Option (Nat × List α)) (b : Bool) (hb : ∀ al xs, a = some (al, xs) → b = false → P xs) :
    InOrder P (upd d i b) (upd A i a) := by
  intro k al xs hk hd
  unfold upd at hk hd
  split at hk
  · rw [if_pos ‹_›] at hd; exact hb al xs hk hd
  · rw [if_neg ‹_›] at hd; exact h k al xs hk hd

theorem InOrder.mark (h : InOrder P d A) (i : Fin K) (a : Option (Nat × List α)) :
    InOrder P (upd d i true) (upd A i a) :=
  h.one i a true (fun _ _ _ h => by cases h)

theorem InOrder.more (h : InOrder P d A) (i : Fin K) : InOrder P (upd d i true) A := by
  have := h.mark i (A i)
  rwa [upd_self] at this

theorem InOrder.step (hS : Keeps S P F) {x : WOp K Op I} {out : Sq.Out (Option ρ)}
    (h : InOrder P d A) (hs : WStep S A x out B) : InOrder P (track F d x out) B := by
  cases hs with
  | make _ _ h2 => exact h.one _ _ _ fun al xs e _ => by cases e; exact hS.init _ _ h2
  | makeFail => exact h
  | makeSkip => exact h
  | copy _ h2 => exact h.one _ _ _ fun al xs e hd => by cases e; exact h _ _ _ h2 hd
  | copyFail => exact h
  | copySkip => exact h
  | move _ h2 => exact (h.one _ _ _ fun al xs e hd => by cases e; exact h _ _ _ h2 hd).mark _ _
  | moveFail => exact h.mark _ _
  | moveSkip => exact h
  | destroy => exact h.one _ _ _ fun al xs e _ => by cases e
  | destroySkip => exact h
  | op h1 hp h2 =>
    refine h.one _ _ _ fun al xs e hd => ?_
    cases e
    exact hS.ok _ _ _ _ _ hp h2 (h _ _ _ h1) hd
  | opFail h1 hp h2 =>
    refine h.one _ _ _ fun al xs e hd => ?_
    cases e
    exact hS.fail _ _ _ _ _ hp h2 (h _ _ _ h1) hd
  | opSkip => exact h
  | assignCopy _ _ h2 _ => exact h.one _ _ _ fun al xs e hd => by cases e; exact h _ _ _ h2 hd
  | assignCopyFail => exact h.mark _ _
  | assignCopyEarly => exact h.more _
  | assignCopySelf => show InOrder _ (upd d _ (d _)) _; rw [upd_self]; exact h
  | assignCopySkip => exact h
  | assignMove _ _ h2 _ => exact (h.one _ _ _ fun al xs e hd => by cases e; exact h _ _ _ h2 hd).mark _ _
  | assignMoveFail => exact (h.mark _ _).mark _ _
  | assignMoveEarly => exact (h.more _).more _
  | assignMoveSkip => exact h
  | swap _ h1 h2 =>
    exact (h.one _ _ _ fun al xs e hd => by cases e; exact h _ _ _ h2 hd).one _ _ _ fun al xs e hd => by
      cases e; exact h _ _ _ h1 hd
  | swapFail => exact (h.mark _ _).mark _ _
  | swapSelf => show InOrder _ (upd (upd d _ (d _)) _ (d _)) _; rw [upd_self, upd_self]; exact h
  | swapSkip => exact h

/-- Containers that are not marked satisfy the invariant at the end of any history. -/
theorem InOrder.run (hS : Keeps S P F) {ops : List (WOp K Op I)} {outs : List (Sq.Out (Option ρ))} (h : InOrder P d A)
    (hr : WRun S A ops outs B) : InOrder P (trackAll F d ops outs) B := by
  induction hr generalizing d with
  | nil => exact h
  | cons hs _ ih => exact ih (h.step hS hs)

/-- Operations that move from a container. -/
def WOp.moves {K : Nat} {Op I : Type} : WOp K Op I → Bool
  | .makeMove _ _ _ | .assignMove _ _ => true
  | _ => false

/-- Nothing is marked as long as nothing throws, nothing is moved from and all modifiers keep the flag off. -/
theorem trackAll_none (ops : List (WOp K Op I)) (log : List (Sq.Out (Option ρ))) (hF : ∀ i op, .op i op ∈ ops → F.ok op false = false)
    (h1 : ∀ op ∈ ops, op.moves = false) (h2 : ∀ out ∈ log, ∀ e, out ≠ .threw e) :
    trackAll F (fun _ : Fin K => false) ops log = fun _ => false := by
  have hu : ∀ i : Fin K, upd (fun _ : Fin K => false) i false = fun _ => false := by
    intro i; funext k; simp [upd]
  induction ops generalizing log with
  | nil => cases log <;> rfl
  | cons op ops ih =>
    cases log with
    | nil => rfl
    | cons out log =>
      have : track F (fun _ => false) op out = fun _ => false := by
        have a1 := h1 op (by simp)
        have a2 := h2 out (by simp)
        cases out with
        | skipped => cases op <;> rfl
        | threw e => exact absurd rfl (a2 e)
        | ok r =>
          cases op with
          | op i op => simp only [track]; rw [hF i op (by simp), hu]
          | makeMove => cases a1
          | assignMove => cases a1
          | _ => simp [track, hu]
      simp only [trackAll, this]
      exact ih log (fun i op h => hF i op (by simp [h])) (fun op h => h1 op (by simp [h])) (fun out h => h2 out (by simp [h]))

end Sfl.World
