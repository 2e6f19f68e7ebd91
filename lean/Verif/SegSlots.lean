import Verif.SegAlgo
/-
  From the contiguous memory back to the slots of the segments.
-/

set_option linter.unusedSimpArgs false

namespace Sfl
variable {α : Type}

section
variable {V : View} {al tcap : Nat} {E : Env α} {t : Table} {s : St α}

/-- What slot `k` holds. -/
def View.slot (V : View) (s : St α) (k : Nat) : Option α := s.mem (V.addr k).blk (V.addr k).off

/-- Memory outside the segments is untouched. -/
def View.Elsewhere (V : View) (s s' : St α) : Prop := ∀ b, b ∉ V.segs → ∀ i, s'.mem b i = s.mem b i

theorem View.view_slot {s : St α} {k : Nat} (hk : k < V.size) : (V.view s).mem V.tb k = V.slot s k := by
  simp [View.view, View.slot, hk]

theorem View.slots_of {s s' s'' : St α} {f : Nat → Option α} (hl : V.Lay al tcap s) (hl' : V.Lay al tcap s')
    (he : s'' = V.view s') (hin : ∀ k, k < V.size → s''.mem V.tb k = f k) (hsz : ∀ k, V.size ≤ k → f k = V.slot s k)
    (hout : ∀ b i, b ≠ V.tb → s''.mem b i = (V.view s).mem b i) :
    (∀ k, k < V.cap → V.slot s' k = f k) ∧ V.Elsewhere s s' := by
  subst he
  refine ⟨fun k hk => ?_, fun b hb i => ?_⟩
  · by_cases h : k < V.size
    · rw [← View.view_slot h]; exact hin k h
    · have e : k = V.size := by have := V.size_le; unfold View.size at *; omega
      rw [hsz k (by omega), e]
      show s'.mem _ _ = s.mem _ _
      rw [hl'.hidden, hl.hidden]
  · by_cases h : b = V.tb
    · subst h; rw [hl'.traw, hl.traw]
    · have := hout b i h
      simpa [View.view, h, hb] using this

theorem Sim.wp {β β' : Type} {m : M (St α) β} {m' : M (St α) β'} {R : β → β' → Prop} {Q : β → St α → Prop}
    {X : Exn → St α → Prop} (h : Sim V al tcap m m' R) (hl : V.Lay al tcap s)
    (hw : wp m' (fun b' s'' => ∀ b s', R b b' → s'' = V.view s' → V.Lay al tcap s' → Q b s')
      (fun e s'' => ∀ s', s'' = V.view s' → V.Lay al tcap s' → X e s') (V.view s)) : wp m Q X s := by
  have := h s hl
  unfold Sfl.wp at hw ⊢
  revert this hw
  cases m s <;> cases m' (V.view s) <;> simp [SimRes]
  · intro h4 h1 h2 h3; exact h4 _ _ h1 h2 h3
  · rintro h4 rfl h2 h3; exact h4 _ h2 h3

theorem View.slots_exn {s s' s'' : St α} {P : Nat → Prop} [DecidablePred P] (hl : V.Lay al tcap s) (hl' : V.Lay al tcap s')
    (he : s'' = V.view s')
    (hin : ∀ k, k < V.size → if P k then (s''.mem V.tb k).isSome else s''.mem V.tb k = (V.view s).mem V.tb k)
    (hP : ∀ k, P k → k < V.size) (hout : ∀ b i, b ≠ V.tb → s''.mem b i = (V.view s).mem b i) :
    (∀ k, k < V.cap → if P k then (V.slot s' k).isSome else V.slot s' k = V.slot s k) ∧ V.Elsewhere s s' := by
  have := View.slots_of (f := fun k => if k < V.size then s''.mem V.tb k else V.slot s k) hl hl' he
    (fun k hk => by simp [hk]) (fun k hk => by rw [if_neg (by omega)]) hout
  refine ⟨fun k hk => ?_, this.2⟩
  have h1 := this.1 k hk
  by_cases h : P k
  · rw [if_pos h, h1, if_pos (hP k h)]
    have := hin k (hP k h)
    rwa [if_pos h] at this
  · rw [if_neg h, h1]
    by_cases h2 : k < V.size
    · rw [if_pos h2]
      have := hin k h2
      rw [if_neg h] at this
      rw [this, View.view_slot h2]
    · rw [if_neg h2]

end
end Sfl
