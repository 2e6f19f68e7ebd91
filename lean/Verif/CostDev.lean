import Verif.Cost
/-
  Costs of the functions of devector.
-/

namespace Sfl.Devector
variable {α : Type} {E : Env α}

theorem Proxy.uninitInsertN_cost {px : Proxy α} {d : Ptr} {n t : Nat} {Q : Ptr × Proxy α → Nat → Prop}
    {X : Nat → Prop} (h : ∀ r, r.1.blk = d.blk → r.1.off = d.off + n → Q r (t + n)) (hX : ∀ t', t ≤ t' → t' ≤ t + n → X t') :
    cost (px.uninitInsertN E d n) Q X t := by
  cases px with
  | one v =>
    unfold Proxy.uninitInsertN
    refine cost.ite (fun h0 => cost.pure ?_) fun h0 => cost.bind (cost.assert fun h1 => cost.bind (cost.construct ?_ ?_))
    · subst h0; exact h _ rfl rfl
    · subst h1; exact cost.pure (h _ rfl rfl)
    · exact hX _ (by omega) (by omega)
  | fill a =>
    refine cost.bind (cost.uninitFill (fun _ h2 => cost.pure ?_) ?_)
    · simp only [Ptr.add_off, Nat.add_sub_cancel_left]; exact h _ rfl rfl
    · simp only [Ptr.add_off, Nat.add_sub_cancel_left]; exact hX
  | range as =>
    unfold Proxy.uninitInsertN
    refine cost.ite (fun h0 => cost.bind (cost.uninit ?_ ?_)) fun _ => cost.undef
    · rw [List.length_take, Nat.min_eq_left h0]; exact cost.pure (h _ rfl rfl)
    · rw [List.length_take, Nat.min_eq_left h0]; exact hX

theorem Proxy.insertN_cost {px : Proxy α} {d : Ptr} {n t : Nat} {Q : Ptr × Proxy α → Nat → Prop}
    {X : Nat → Prop} (h : ∀ r t', t + n ≤ t' → t' ≤ t + 2 * n → Q r t')
    (hX : ∀ t', t ≤ t' → t' ≤ t + 2 * n → X t') :
    cost (px.insertN E d n) Q X t := by
  cases px with
  | one v =>
    unfold Proxy.insertN
    refine cost.ite (fun h0 => cost.pure (h _ _ (by omega) (by omega))) fun h0 => cost.bind (cost.assert fun h1 =>
      cost.bind (cost.mkTmp (fun _ => cost.bind (cost.assign (cost.pure (h _ _ ?_ ?_)) (hX _ ?_ ?_))) (hX _ ?_ ?_))) <;>
      omega
  | fill a =>
    refine cost.bind (cost.fillRange (fun _ h2 => cost.pure ?_) ?_)
    · simp only [Ptr.add_off]; exact h _ _ (by omega) (by omega)
    · simp only [Ptr.add_off]; intro t' h1 h2; exact hX _ (by omega) (by omega)
  | range as =>
    unfold Proxy.insertN
    refine cost.ite (fun h0 => cost.bind (cost.assignGo ?_ ?_)) fun _ => cost.undef
    · rw [List.length_take, Nat.min_eq_left h0]; exact cost.pure (h _ _ (by omega) (by omega))
    · rw [List.length_take, Nat.min_eq_left h0]; intro t' h1 h2; exact hX _ (by omega) (by omega)

macro_rules | `(tactic| cost_step) => `(tactic| with_reducible apply Proxy.uninitInsertN_cost)
macro_rules | `(tactic| cost_step) => `(tactic| with_reducible apply Proxy.insertN_cost)

/-- Pointers of a shift: the `l` elements `[p10, p30)` go to `[q10, q20)` and `[q30, q40)`. -/
structure Shift (p10 p20 p30 q10 q20 q30 q40 : Ptr) (n : Nat) : Prop where
  p12 : p10.off ≤ p20.off
  p23 : p20.off ≤ p30.off
  q2 : q20.off = q10.off + (p20.off - p10.off)
  q3 : q30.off = q20.off + n
  q4 : q40.off = q30.off + (p30.off - p20.off)

section
variable {p10 p20 p30 q10 q20 q30 q40 : Ptr} {n t : Nat} {px : Proxy α}

theorem shiftFrontMem_le (h : Shift p10 p20 p30 q10 q20 q30 q40 n) :
    cost (shiftFrontMem E p10 p20 p30 q10 q20 q30 q40 n px) (fun _ t' => t' ≤ t + (p30.off - p10.off) + 2 * n)
      (fun t' => t' ≤ t + (p30.off - p10.off) + 2 * n) t := by
  obtain ⟨h1, h2, h3, h4, h5⟩ := h
  unfold shiftFrontMem front1 front2 front4 front6 front7 front8 front10 front11
  cost
  all_goals cost_arith

theorem shiftBackMem_le (h : Shift p10 p20 p30 q10 q20 q30 q40 n) :
    cost (shiftBackMem E p10 p20 p30 q10 q20 q30 q40 n px) (fun _ t' => t' ≤ t + (p30.off - p10.off) + 2 * n)
      (fun t' => t' ≤ t + (p30.off - p10.off) + 2 * n) t := by
  obtain ⟨h1, h2, h3, h4, h5⟩ := h
  unfold shiftBackMem back1 back2 back3 back4 back5 back6 back7 back8 back9 back10 back11
  cost
  all_goals cost_arith

/-- Making room at the back for an element after the last one moves every element. -/
theorem shiftFrontMem_ge (h : Shift p10 p20 p30 q10 q20 q30 q40 n) (he : p20.off = p30.off) (hq : q10.off < p10.off) :
    cost (shiftFrontMem E p10 p20 p30 q10 q20 q30 q40 n px) (fun _ t' => t + (p30.off - p10.off) ≤ t')
      (fun _ => True) t := by
  obtain ⟨h1, h2, h3, h4, h5⟩ := h
  unfold shiftFrontMem front1 front2 front4 front6 front7 front8 front10 front11
  cost
  all_goals first | trivial | skip
  all_goals cost_arith

theorem shiftBackMem_ge (h : Shift p10 p20 p30 q10 q20 q30 q40 n) (he : p10.off = p20.off) (hq : p10.off < q30.off) :
    cost (shiftBackMem E p10 p20 p30 q10 q20 q30 q40 n px) (fun _ t' => t + (p30.off - p10.off) ≤ t')
      (fun _ => True) t := by
  obtain ⟨h1, h2, h3, h4, h5⟩ := h
  unfold shiftBackMem back1 back2 back3 back4 back5 back6 back7 back8 back9 back10 back11
  cost
  all_goals first | trivial | skip
  all_goals cost_arith

end

end Sfl.Devector
