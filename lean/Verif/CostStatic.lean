import Verif.CostVec2
import Verif.Static
/-
  What every modifier of static_vector does to the data members and the counter.
-/

namespace Sfl
variable {α : Type}

namespace StaticVector
open SmallVector (Dim Fit Ends)
variable {E : Env α} {v : Vec} {n r t N : Nat}

theorem emplaceBack_cost (h : Dim v n r) {a : Arg α} :
    vcost (emplaceBack E N a) (fun _ v' t' => n ≠ N ∧ v' = { v with last := v.last.add 1 } ∧ t' = t + 1)
      (fun v' t' => v' = v ∧ t' = t + 1) v t := by
  obtain ⟨h1, h2, h3, h4⟩ := h
  unfold emplaceBack assertNotFull Vector.size
  refine .bind (.bind (.bind (.getObj (.distance fun _ _ => .assert fun hne => .bind (.getObj ?_)))))
  have e : v.last.off - v.first.off = n := by omega
  rw [e] at hne
  vcost
  all_goals first
    | exact ⟨hne, rfl, by omega⟩
    | exact ⟨rfl, by omega⟩

theorem Dim.push {v : Vec} {n r : Nat} (h : Dim v n r) (hr : 0 < r) : Dim { v with last := v.last.add 1 } (n + 1) (r - 1) := by
  obtain ⟨h1, h2, h3, h4⟩ := h
  refine ⟨?_, ?_, ?_, ?_⟩ <;> cost_arith

theorem Dim.fit (h : Dim v n r) : Fit v (n + r) := by
  obtain ⟨h1, h2, h3, h4⟩ := h
  refine ⟨?_, ?_, ?_, ?_, ?_⟩ <;> cost_arith

theorem emplaceBack_ends (h : Dim v n r) (hN : n + r = N) {a : Arg α} : Ends (emplaceBack E N a) (n + r) (t + 1) v t := by
  refine (emplaceBack_cost h).mono (fun _ v' t' hq => ?_) fun v' t' hq => ?_
  · obtain ⟨h1, rfl, rfl⟩ := hq
    have := Dim.fit (Dim.push h (by omega))
    exact ⟨by rwa [show n + 1 + (r - 1) = n + r by omega] at this, Nat.le_refl _⟩
  · obtain ⟨rfl, rfl⟩ := hq
    exact ⟨Dim.fit h, Nat.le_refl _⟩

theorem emplaceBackAll_ends (as : List (Arg α)) : ∀ {v : Vec} {n r t : Nat}, Dim v n r → n + r = N →
    Ends (emplaceBackAll E N as) N (t + as.length) v t := by
  induction as with
  | nil => intro v n r t h hN; exact .pure ⟨hN ▸ Dim.fit h, Nat.le_refl _⟩
  | cons a as ih =>
    intro v n r t h hN
    unfold emplaceBackAll
    refine .bind ((emplaceBack_cost h).mono (fun _ v' t' hq => ?_) fun v' t' hq => ?_)
    · obtain ⟨h1, rfl, rfl⟩ := hq
      refine Ends.mono (ih (Dim.push h (by omega)) (by omega)) (Nat.le_refl _) ?_
      simp only [List.length_cons]; omega
    · obtain ⟨rfl, rfl⟩ := hq
      refine ⟨hN ▸ Dim.fit h, ?_⟩
      simp only [List.length_cons]; omega

/-- Where `emplace` puts the element, what it leaves and what it costs. -/
theorem emplace_cost (h : Dim v n r) {pos : Ptr} {a : Arg α} {k : Nat} (hk : pos.off = v.first.off + k) :
    vcost (emplace E N pos a)
      (fun p v' t' => p = v'.first.add k ∧ k ≤ n ∧ n ≠ N ∧ v' = { v with last := v.last.add 1 } ∧ t' ≤ t + (n - k) + 2 ∧
        (k < n → t' = t + (n - k) + 2))
      (fun v' t' => (v' = v ∨ n ≠ N ∧ v' = { v with last := v.last.add 1 }) ∧ t' ≤ t + (n - k) + 2) v t := by
  obtain ⟨h1, h2, h3, h4⟩ := h
  unfold emplace assertNotFull Vector.size
  refine .bind (.bind (.bind (.getObj (.distance fun _ _ => .assert fun hne => .bind (.getObj (.bind (.assert fun hin => ?_)))))))
  have e : v.last.off - v.first.off = n := by omega
  rw [e] at hne
  obtain ⟨g1, g2, g3⟩ := hin
  have hk' : pos.off - v.first.off = k := by omega
  rw [hk']
  refine .ite (fun hp => ?_) fun hp => ?_
  · have : k = n := by have := congrArg Ptr.off hp; simp at this; omega
    vcost
    all_goals first
      | (refine ⟨rfl, ?_, hne, rfl, ?_, ?_⟩ <;> cost_arith)
      | (refine ⟨.inl rfl, ?_⟩ <;> cost_arith)
  · have := Ptr.off_ne (by simp; omega) hp
    vcost
    all_goals first
      | (refine ⟨rfl, ?_, hne, rfl, ?_, ?_⟩ <;> cost_arith)
      | (refine ⟨.inl rfl, ?_⟩ <;> cost_arith)
      | (refine ⟨.inr ⟨hne, rfl⟩, ?_⟩ <;> cost_arith)

theorem emplace_ends (h : Dim v n r) (hN : n + r = N) {pos : Ptr} {a : Arg α} {k : Nat} (hk : pos.off = v.first.off + k) :
    Ends (emplace E N pos a) (n + r) (t + (n - k) + 2) v t := by
  have fit : n ≠ N → Fit { v with last := v.last.add 1 } (n + r) := fun hne => by
    have := Dim.fit (Dim.push h (by omega))
    rwa [show n + 1 + (r - 1) = n + r by omega] at this
  refine (emplace_cost h hk).mono (fun _ v' t' hq => ?_) fun v' t' hq => ?_
  · obtain ⟨-, -, h1, rfl, h2, -⟩ := hq
    exact ⟨fit h1, h2⟩
  · obtain ⟨rfl | ⟨h1, rfl⟩, h2⟩ := hq
    · exact ⟨Dim.fit h, h2⟩
    · exact ⟨fit h1, h2⟩

/-- Inserting `m` elements one by one at the same place moves the elements behind it `m` times. -/
theorem insertRangeLoop_ends (as : List (Arg α)) : ∀ {v : Vec} {n r t k : Nat} {pos : Ptr}, Dim v n r → n + r = N →
    pos.off = v.first.off + k → Ends (insertRangeLoop E N as pos) N (t + as.length * (n - k + 2)) v t := by
  induction as with
  | nil => intro v n r t k pos h hN hk; exact .pure ⟨hN ▸ Dim.fit h, by omega⟩
  | cons a as ih =>
    intro v n r t k pos h hN hk
    unfold insertRangeLoop
    simp only [List.length_cons, Nat.succ_mul]
    refine .bind (((emplace_cost h hk).and (emplace_ends h hN hk)).mono (fun p v' t' hq => ?_) fun v' t' hq => ?_)
    · obtain ⟨⟨rfl, h1, h2, rfl, h3, -⟩, -⟩ := hq
      refine Ends.mono (ih (k := k + 1) (Dim.push h (by omega)) (by omega) (by simp; omega)) (Nat.le_refl _) ?_
      rw [show n + 1 - (k + 1) = n - k by omega]; omega
    · exact ⟨hN ▸ hq.2.1, by omega⟩

/-- With an element behind the place the loop costs exactly that much. -/
theorem insertRangeLoop_cost (as : List (Arg α)) : ∀ {v : Vec} {n r t k : Nat} {pos : Ptr}, Dim v n r → n + r = N →
    pos.off = v.first.off + k → k < n →
    vcost (insertRangeLoop E N as pos) (fun _ _ t' => t' = t + as.length * (n - k + 2)) (fun _ _ => True) v t := by
  induction as with
  | nil => intro v n r t k pos h hN hk hn; exact .pure (by simp)
  | cons a as ih =>
    intro v n r t k pos h hN hk hn
    unfold insertRangeLoop
    simp only [List.length_cons, Nat.succ_mul]
    refine .bind ((emplace_cost h hk).mono (fun p v' t' hq => ?_) fun _ _ _ => trivial)
    obtain ⟨rfl, h1, h2, rfl, -, h3⟩ := hq
    refine (ih (k := k + 1) (Dim.push h (by omega)) (by omega) (by simp; omega) (by omega)).mono (fun _ _ t' hh => ?_) fun _ _ h => h
    rw [show n + 1 - (k + 1) = n - k by omega] at hh
    have := h3 hn
    omega

theorem assertAvailable_cost (h : Dim v n r) (hN : n + r = N) {m : Nat} :
    vcost (assertAvailable N m : Vector.VM α Unit) (fun _ v' t' => v' = v ∧ t' = t ∧ m ≤ r) (fun _ _ => False) v t := by
  obtain ⟨h1, h2, h3, h4⟩ := h
  unfold assertAvailable Vector.size
  exact .bind (.bind (.getObj (.distance fun _ _ => .assert fun hne => ⟨rfl, rfl, by omega⟩)))

theorem insertFillN_ends (h : Dim v n r) (hN : n + r = N) {pos : Ptr} {m : Nat} {a : Arg α} :
    Ends (insertFillN E N pos m a) (n + r) (t + m + (n - (pos.off - v.first.off)) + 2) v t := by
  unfold insertFillN
  refine .bind ((assertAvailable_cost h hN).mono (fun _ v' t' hq => ?_) fun _ _ h => h.elim)
  obtain ⟨rfl, rfl, hr⟩ := hq
  obtain ⟨h1, h2, h3, h4⟩ := h
  refine .bind (.getObj (.bind (.assert fun hin => .ite (fun h0 => ?_) fun h0 => ?_)))
  · vcost <;> fit
  obtain ⟨g1, g2, g3⟩ := hin
  refine .bind (.lift (.mkTmp (fun tmp => .ite (fun hp => ?_) fun hp => ?_) (by fit)))
  · vcost <;> fit
  · vcost <;> fit

theorem insertRange_ends (h : Dim v n r) (hN : n + r = N) {pos : Ptr} {ys : List α} :
    Ends (insertRange E N pos ys) (n + r) (t + ys.length + (n - (pos.off - v.first.off)) + 2) v t := by
  unfold insertRange
  refine .bind ((assertAvailable_cost h hN).mono (fun _ v' t' hq => ?_) fun _ _ h => h.elim)
  obtain ⟨rfl, rfl, hr⟩ := hq
  obtain ⟨h1, h2, h3, h4⟩ := h
  refine .bind (.getObj (.bind (.assert fun hin => .ite (fun h0 => ?_) fun h0 => ?_)))
  · vcost <;> fit
  obtain ⟨g1, g2, g3⟩ := hin
  have hl : 0 < ys.length := List.length_pos_iff.mpr h0
  refine .ite (fun hp => ?_) fun hp => ?_
  · vcost <;> fit
  · have := @List.length_take α
    have := @List.length_drop α
    simp only [Ptr.add_off] at hp
    vcost <;> (try simp only [List.length_drop, List.length_take] at *) <;> fit

theorem resizeWith_ends (h : Dim v n r) (hN : n + r = N) {m : Nat} {a : Arg α} :
    Ends (resizeWith E N m a) (n + r) (t + (m - n)) v t := by
  obtain ⟨h1, h2, h3, h4⟩ := h
  unfold resizeWith Vector.size
  refine .bind (.assert fun hle => .bind (.getObj ?_))
  refine .bind (.bind (.getObj (.distance fun _ _ => .ite (fun hlt => ?_) fun hlt => .ite (fun hgt => ?_) fun hgt => ?_)))
  · vcost <;> fit
  · vcost <;> fit
  · vcost <;> fit

theorem assignFillN_ends (h : Dim v n r) (hN : n + r = N) {m : Nat} {a : Arg α} :
    Ends (assignFillN E N m a) (n + r) (t + m) v t := by
  obtain ⟨h1, h2, h3, h4⟩ := h
  unfold assignFillN Vector.size
  refine .bind (.assert fun hle => .bind (.bind (.getObj (.distance fun _ _ => .bind (.getObj (.ite (fun hg => ?_) fun hg => ?_))))))
  · vcost <;> fit
  · vcost <;> fit

theorem assignRange_ends (h : Dim v n r) (hN : n + r = N) {as : List (Arg α)} :
    Ends (assignRange E N as) (n + r) (t + as.length) v t := by
  obtain ⟨h1, h2, h3, h4⟩ := h
  unfold assignRange Vector.size
  refine .bind (.assert fun hle => .bind (.bind (.getObj (.distance fun _ _ => .bind (.getObj ?_)))))
  have e : v.last.off - v.first.off = n := by omega
  rw [e]
  refine .ite (fun hg => ?_) fun hg => ?_
  · vcost <;> fit
  · have e1 : (as.take n).length = n := by rw [List.length_take]; omega
    have e2 : (as.drop n).length = as.length - n := List.length_drop
    vcost <;> fit

theorem assignRangeInput_ends (h : Dim v n r) (hN : n + r = N) {as : List (Arg α)} :
    Ends (assignRangeInput E N as) (n + r) (t + as.length) v t := by
  have hd := h
  obtain ⟨h1, h2, h3, h4⟩ := h
  unfold assignRangeInput
  refine .bind (.getObj (.bind (.lift ((SmallVector.assignRangeLoop_cost h1.symm (by omega)).mono (fun r' t' hq => ?_) fun t' hq => ?_))))
  · obtain ⟨rest, p⟩ := r'
    obtain ⟨g1, g2, g3, g4, g5, g6⟩ := hq
    dsimp only at *
    refine .ite (fun hr => ?_) fun hr => .ite (fun hl => ?_) fun hl => .pure ?_
    · have hp := g6 hr
      subst hp
      exact Ends.mono (emplaceBackAll_ends rest hd hN) (by omega) (by omega)
    · have hr : rest.length = 0 := by simpa using hr
      vcost <;> (try simp only [hr] at *) <;> (refine ⟨⟨?_, ?_, ?_, ?_, ?_⟩, ?_⟩ <;> (try dsimp only) <;> omega)
    · have hr : rest.length = 0 := by simpa using hr
      refine ⟨⟨?_, ?_, ?_, ?_, ?_⟩, ?_⟩ <;> omega
  · refine ⟨⟨?_, ?_, ?_, ?_, ?_⟩, ?_⟩ <;> omega

/-- Every modifier but the insertion of a range of input iterators. -/
theorem exec_ends (h : Dim v n r) (hN : n + r = N) (op : Sq.Op α) (hop : op.isInsertInput = false) :
    Ends (exec E N op) N (t + op.work n + 2) v t := by
  generalize hW : op.work n = W
  cases op <;> simp only [Sq.Op.work] at hW <;> subst hW
  case pushBack s => exact .argOf fun a => .indexOf ((emplaceBack_ends h hN).mono (by omega) (by omega))
  case emplace k s => exact .argOf fun a => .nth (.indexOf ((emplace_ends (k := k) h hN (by simp)).mono (by omega) (by omega)))
  case insertN k m s =>
    refine .argOf fun a => .nth (.indexOf ((insertFillN_ends h hN).mono (by omega) ?_))
    rw [Ptr.add_off, Nat.add_sub_cancel_left]; omega
  case insertRange k ys =>
    refine .nth (.indexOf ((insertRange_ends h hN).mono (by omega) ?_))
    rw [Ptr.add_off, Nat.add_sub_cancel_left]; omega
  case insertInput k ys => simp [Sq.Op.isInsertInput] at hop
  case popBack => exact .map ((SmallVector.popBack_ends h).mono (by omega) (by omega))
  case eraseAt k =>
    refine .nth (.indexOf ((SmallVector.eraseAt_ends h).mono (by omega) ?_))
    rw [Ptr.add_off, Nat.add_sub_cancel_left]; omega
  case eraseRange k l =>
    refine .nth (.nth (.indexOf ((SmallVector.eraseRange_ends h).mono (by omega) ?_)))
    rw [Ptr.add_off, Nat.add_sub_cancel_left]; omega
  case resize m => exact .map ((resizeWith_ends h hN).mono (by omega) (by omega))
  case resizeV m s => exact .argOf fun a => .map ((resizeWith_ends h hN).mono (by omega) (by omega))
  case assignN m a => exact .map ((assignFillN_ends h hN).mono (by omega) (by omega))
  case assignRange ys => exact .map ((assignRange_ends h hN).mono (by omega) (by rw [List.length_map]; omega))
  case assignInput ys => exact .map ((assignRangeInput_ends h hN).mono (by omega) (by rw [List.length_map]; omega))
  case clear => exact .map ((SmallVector.clear_ends h).mono (by omega) (by omega))
  case reserve m => exact .pure ⟨hN ▸ Dim.fit h, by omega⟩
  case shrinkToFit => exact .pure ⟨hN ▸ Dim.fit h, by omega⟩
  case eraseIf f => exact .map ((SmallVector.eraseIf_ends h).mono (by omega) (by omega))

/-- The insertion of a range of input iterators. -/
theorem exec_insertInput_ends (h : Dim v n r) (hN : n + r = N) {k : Nat} {ys : List α} :
    Ends (exec E N (.insertInput k ys)) N (t + ys.length * (n - k + 2)) v t := by
  refine .nth (.indexOf (.bind (.getObj (.bind (.assert fun _ => .bind ?_)))))
  refine vcost.mono (insertRangeLoop_ends (k := k) _ h hN (by simp)) (fun _ _ _ hh => .bind (.getObj (.pure ?_))) fun _ _ hh => ?_ <;>
    · rw [List.length_map] at hh; exact hh

/-- What the insertion of a range of input iterators costs exactly. -/
theorem exec_insertInput_cost (h : Dim v n r) (hN : n + r = N) {k : Nat} {ys : List α} (hk : k < n) :
    vcost (exec E N (.insertInput k ys)) (fun _ _ t' => t' = t + ys.length * (n - k + 2)) (fun _ _ => True) v t := by
  refine .bind (.bind (.getObj (.pure (.bind (.bind (.getObj (.bind (.assert fun _ => .bind ?_))))))))
  refine (insertRangeLoop_cost (k := k) _ h hN (by simp) hk).mono (fun _ _ _ hh => ?_) fun _ _ h => h
  rw [List.length_map] at hh
  exact .bind (.getObj (.pure (.bind (.getObj (.bind (.distance fun _ _ => .pure hh))))))

end StaticVector
end Sfl
