import Verif.UnordWorld
/-
  The unordered flat maps as finite maps: the specification on sequences (`Unord.Op.Result`) implies the one on finite
  maps (`Unord.Op.MapResult`). Nothing in this file mentions memory or the implementation.
-/

namespace Sfl.Unord
open KMap
open Flat (Ret)
variable {α κ : Type} {U : KeyEq α κ} {xs ys : List α}

theorem Inserted.map (L : U.Lawful) {v : α} {i : Nat} {new : Bool} (h : Inserted U false xs v i new ys)
    (hs : U.Distinct false xs) : U.get ys = putNew U.key U.eq (U.get xs) v := by
  have he := L.equiv
  rcases h with ⟨-, h1, -, rfl⟩ | ⟨-, -, rfl, x, h1, h2⟩
  · have h1 : ∀ x ∈ xs, U.eq (U.key x) (U.key v) = false := h1.resolve_left (by simp)
    unfold KeyEq.get
    rw [get_perm he ((hs rfl).cons he h1) (List.perm_append_singleton v xs), get_cons he h1]
  · exact (putNew_present he (hs rfl) (List.mem_of_getElem? h1) h2).symm

theorem merge_map (L : U.Lawful) (vs : List α) : ∀ xs : List α, U.Distinct false xs →
    U.get (merge U false xs vs) = vs.foldl (putNew U.key U.eq) (U.get xs) := by
  induction vs with
  | nil => intro xs h; rfl
  | cons v vs ih =>
    intro xs h
    obtain ⟨i, new, zs, hi⟩ : ∃ i new zs, Inserted U false xs v i new zs := by
      by_cases hn : ∀ x ∈ xs, U.same x v = false
      · exact ⟨_, true, _, Or.inl ⟨rfl, Or.inr hn, rfl, rfl⟩⟩
      · obtain ⟨x, hx⟩ := Classical.not_forall.mp hn
        obtain ⟨hx, hs⟩ := Classical.not_imp.mp hx
        obtain ⟨i, hi⟩ := List.mem_iff_getElem?.mp hx
        exact ⟨i, false, _, Or.inr ⟨rfl, rfl, rfl, x, hi, by simpa using hs⟩⟩
    rw [← hi.merge, ih zs (hi.distinct h), hi.map L h]
    rfl

/-- Every operation of a map is the one of finite maps. -/
theorem Op.Result.map (L : U.Lawful) {op : Op α κ} {r : Ret} (hp : op.pre false xs.length = true)
    (hs : U.Distinct false xs) (h : op.Result U false xs r ys) : op.MapResult U xs (U.get xs) (U.get ys) := by
  have he := L.equiv
  have hasg : ∀ {v i new}, Assigned U xs v i new ys → U.get ys = put U.key U.eq U.upd (U.get xs) v := by
    rintro v i new (⟨rfl, h⟩ | ⟨rfl, x, h1, h2, rfl⟩)
    · rw [h.map L hs]
      rcases h with ⟨-, h1, -⟩ | ⟨h, -⟩
      · exact (put_absent he (h1.resolve_left (by simp))).symm
      · cases h
    · exact get_set he (hs rfl) h1 (L.upd _ _) h2
  have hperm : ∀ {zs : List α}, zs.Sublist xs → ys.Perm zs → U.get ys = U.get zs :=
    fun h1 h2 => get_perm he ((hs.sublist h1) rfl) h2
  have hkey : ∀ k, ys.Perm (xs.filter fun x => !U.hasKey k x) → U.get ys = remove U.eq (U.get xs) k := by
    intro k h
    rw [hperm List.filter_sublist h]
    unfold KeyEq.get
    rw [← keep_remove he (hs rfl)]
    exact get_filter he (hs rfl) _
  cases op with
  | insert s => obtain ⟨v, i, new, h1, -, h⟩ := h; exact ⟨v, h1, h.map L hs⟩
  | insertHint _ s => obtain ⟨v, i, new, h1, -, h⟩ := h; exact ⟨v, h1, h.map L hs⟩
  | emplace v => obtain ⟨i, new, -, h⟩ := h; exact h.map L hs
  | emplaceHint _ v => obtain ⟨i, new, -, h⟩ := h; exact h.map L hs
  | tryEmplace v => obtain ⟨i, new, -, h⟩ := h; exact h.map L hs
  | tryEmplaceHint _ v => obtain ⟨i, new, -, h⟩ := h; exact h.map L hs
  | insertOrAssign v => obtain ⟨i, new, -, h⟩ := h; exact hasg h
  | insertOrAssignHint _ v => obtain ⟨i, new, -, h⟩ := h; exact hasg h
  | insertRange vs =>
    obtain ⟨-, rfl⟩ := h
    exact merge_map L vs xs hs
  | assignList vs =>
    obtain ⟨-, rfl⟩ := h
    exact merge_map L vs [] distinct_nil
  | eraseAt k =>
    have hk : k < xs.length := by simpa [Op.pre, Op.uniqueOnly] using hp
    refine ⟨xs[k], by simp [hk], ?_⟩
    rw [hperm (cut_sublist (Nat.le_succ k)) h.2.perm, ← List.eraseIdx_eq_take_drop_succ]
    exact get_erase he (hs rfl) (by simp [hk])
  | eraseRange k l =>
    have hkl : k ≤ l ∧ l ≤ xs.length := by simpa [Op.pre, Op.uniqueOnly] using hp
    have e : xs.take k ++ (xs.take l).drop k ++ xs.drop l = xs := by
      have : (xs.take l).take k = xs.take k := by rw [List.take_take, Nat.min_eq_left hkl.1]
      rw [← this, List.take_append_drop, List.take_append_drop]
    have := get_cut he (xs.take k) ((xs.take l).drop k) (xs.drop l) (by rw [e]; exact hs rfl)
    rw [e] at this
    show U.get ys = _
    rw [hperm (cut_sublist hkl.1) h.2.perm]
    exact this
  | eraseKey k => exact hkey k h.2
  | eraseEqual i => obtain ⟨x, hx, h⟩ := h; exact ⟨x, hx, hkey _ h.2⟩
  | eraseIf f =>
    show U.get ys = _
    rw [hperm List.filter_sublist h.2]
    exact get_filter he (hs rfl) _
  | clear => obtain ⟨-, rfl⟩ := h; rfl
  | reserve n => obtain ⟨-, rfl⟩ := h; rfl
  | shrinkToFit => obtain ⟨-, rfl⟩ := h; rfl

end Sfl.Unord
