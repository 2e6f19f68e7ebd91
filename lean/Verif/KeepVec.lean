import Verif.PropStorage

/-
  Modifiers of vector, small_vector and static_vector that find enough room leave the storage where it is.
-/

namespace Sfl
variable {α : Type}

namespace SmallVector
variable {E : Env α} {v : Vec} {n r t ib N : Nat}

/-- Same storage, the end of the elements somewhere in it. -/
structure Hold (v v' : Vec) : Prop where
  first : v'.first = v.first
  eos : v'.eos = v.eos
  blk : v'.last.blk = v.first.blk
  lo : v.first.off ≤ v'.last.off
  hi : v'.last.off ≤ v.eos.off

/-- A modifier ends, in whichever way, in the same storage. -/
abbrev Keeps {β : Type} (m : Vector.VM α β) (v : Vec) (t : Nat) : Prop :=
  vcost m (fun _ v' _ => Hold v v') (fun v' _ => Hold v v') v t

macro "hold" : tactic => `(tactic| (refine ⟨?_, ?_, ?_, ?_, ?_⟩ <;> first | rfl | cost_arith))

theorem Dim.hold (h : Dim v n r) : Hold v v := by
  obtain ⟨h1, h2, h3, h4⟩ := h
  hold

theorem Hold.trans {v1 v2 : Vec} (h : Hold v v1) (h' : Hold v1 v2) : Hold v v2 := by
  obtain ⟨h1, h2, h3, h4, h5⟩ := h
  obtain ⟨k1, k2, k3, k4, k5⟩ := h'
  exact ⟨k1.trans h1, k2.trans h2, by rw [k3, h1], by rw [← h1]; exact k4, by rw [← h2]; exact k5⟩

theorem Keeps.after {β : Type} {m : Vector.VM α β} {v' : Vec} (hv : Hold v v') (h : Keeps m v' t) :
    vcost m (fun _ v' _ => Hold v v') (fun v' _ => Hold v v') v' t :=
  vcost.mono h (fun _ _ _ h => hv.trans h) fun _ _ h => hv.trans h

theorem emplace_keeps (h : Dim v n r) (hr : 0 < r) {pos : Ptr} {a : Arg α} : Keeps (emplace E ib N pos a) v t := by
  obtain ⟨h1, h2, h3, h4⟩ := h
  unfold emplace
  refine .bind (.getObj (.bind (.assert fun hin => .ite (fun hne => ?_) fun he => ?_)))
  · obtain ⟨g1, g2, g3⟩ := hin
    refine .ite (fun _ => ?_) fun hp => ?_
    · vcost <;> hold
    · vcost <;> hold
  · have he : v.last = v.eos := by simpa using he
    rw [he] at h3; omega

theorem insertFillN_keeps (h : Dim v n r) {pos : Ptr} {m : Nat} {a : Arg α} (hr : m ≤ r) : Keeps (insertFillN E ib N pos m a) v t := by
  obtain ⟨h1, h2, h3, h4⟩ := h
  unfold insertFillN
  refine .bind (.getObj (.bind (.assert fun hin => .ite (fun h0 => ?_) fun h0 => ?_)))
  · vcost <;> hold
  obtain ⟨g1, g2, g3⟩ := hin
  unfold Vector.available
  refine .bind (.bind (.getObj (.distance fun _ _ => .ite (fun hne => ?_) fun he => by omega)))
  refine .bind (.lift (.mkTmp (fun tmp => .ite (fun hp => ?_) fun hp => ?_) (by hold)))
  · vcost <;> hold
  · vcost <;> hold

theorem insertRange_keeps (h : Dim v n r) {pos : Ptr} {ys : List α} (hr : ys.length ≤ r) : Keeps (insertRange E ib N pos ys) v t := by
  obtain ⟨h1, h2, h3, h4⟩ := h
  unfold insertRange
  refine .bind (.getObj (.bind (.assert fun hin => .ite (fun h0 => ?_) fun h0 => ?_)))
  · vcost <;> hold
  obtain ⟨g1, g2, g3⟩ := hin
  unfold Vector.available
  refine .bind (.bind (.getObj (.distance fun _ _ => .ite (fun hne => ?_) fun he => by omega)))
  refine .ite (fun hp => ?_) fun hp => ?_
  · vcost <;> hold
  · simp only [Ptr.add_off] at hp
    vcost <;> (try simp only [List.length_drop, List.length_take] at *) <;> hold

theorem eraseAt_keeps (h : Dim v n r) {pos : Ptr} : Keeps (Vector.eraseAt E pos) v t := by
  obtain ⟨h1, h2, h3, h4⟩ := h
  unfold Vector.eraseAt
  refine .bind (.getObj (.bind (.assert fun hin => ?_)))
  obtain ⟨g1, g2, g3⟩ := hin
  vcost <;> hold

theorem eraseRange_keeps (h : Dim v n r) {p q : Ptr} : Keeps (Vector.eraseRange E p q) v t := by
  obtain ⟨h1, h2, h3, h4⟩ := h
  unfold Vector.eraseRange
  refine .bind (.getObj (.bind (.assert fun hin => ?_)))
  obtain ⟨g1, g2, g3, g4, g5⟩ := hin
  vcost <;> hold

theorem clear_keeps (h : Dim v n r) : Keeps (Vector.clear : Vector.VM α Unit) v t := by
  obtain ⟨h1, h2, h3, h4⟩ := h
  unfold Vector.clear
  vcost <;> hold

theorem popBack_keeps (h : Dim v n r) : Keeps (Vector.popBack : Vector.VM α Unit) v t := by
  obtain ⟨h1, h2, h3, h4⟩ := h
  refine .bind (.getObj (.bind (.assert fun hne => .bind (.setObj (.lift (.destroyAt ?_))))))
  have hb : 0 < n := by have := Ptr.off_ne (by rw [h1]) hne; omega
  refine ⟨rfl, rfl, ?_, ?_, ?_⟩ <;> dsimp only
  · rw [Ptr.sub_blk (by omega)]; exact h1
  all_goals cost_arith

theorem resizeWith_keeps (h : Dim v n r) {m : Nat} {a : Arg α} (hm : m ≤ n + r) : Keeps (resizeWith E ib N m a) v t := by
  obtain ⟨h1, h2, h3, h4⟩ := h
  unfold resizeWith Vector.checkSize
  refine .bind (.ite (fun _ => .throw ?_) fun _ => .pure (.bind (.getObj ?_)))
  · hold
  unfold Vector.size Vector.capacity
  refine .bind (.bind (.getObj (.distance fun _ _ => .ite (fun hlt => ?_) fun hlt => .ite (fun hgt => ?_) fun hgt => ?_)))
  · vcost <;> hold
  · exact .bind (.bind (.getObj (.distance fun _ _ => .ite (fun hc => by omega) fun hc => by vcost <;> hold)))
  · vcost <;> hold

theorem reserve_keeps (h : Dim v n r) {m : Nat} (hm : m ≤ n + r) : Keeps (reserve E ib N m) v t := by
  obtain ⟨h1, h2, h3, h4⟩ := h
  unfold reserve Vector.checkSize Vector.capacity
  refine .bind (.ite (fun _ => .throw ?_) fun _ => .pure (.bind (.bind (.getObj (.distance fun _ _ => ?_)))))
  · hold
  exact .ite (fun hg => by omega) fun hg => .pure (by hold)

theorem assignFillN_keeps (h : Dim v n r) {m : Nat} {a : Arg α} (hm : m ≤ n + r) : Keeps (assignFillN E ib N m a) v t := by
  obtain ⟨h1, h2, h3, h4⟩ := h
  unfold assignFillN Vector.checkSize Vector.capacity Vector.size
  refine .bind (.ite (fun _ => .throw ?_) fun _ => .pure (.bind (.getObj (.bind (.bind (.getObj (.distance fun _ _ => ?_)))))))
  · hold
  refine .ite (fun _ => ?_) fun _ => by omega
  vcost <;> hold

theorem assignRange_keeps (h : Dim v n r) {as : List (Arg α)} (hm : as.length ≤ n + r) : Keeps (assignRange E ib N as) v t := by
  obtain ⟨h1, h2, h3, h4⟩ := h
  unfold assignRange Vector.checkSize Vector.capacity Vector.size
  refine .bind (.ite (fun _ => .throw ?_) fun _ => .pure (.bind (.getObj (.bind (.bind (.getObj (.distance fun _ _ => ?_)))))))
  · hold
  refine .ite (fun _ => ?_) fun _ => by omega
  vcost <;> (try simp only [List.length_drop, List.length_take] at *) <;> hold

theorem emplaceBack_keeps (h : Dim v n r) {a : Arg α} (hr : 0 < r) : Keeps (emplaceBack E ib N a) v t := by
  obtain ⟨h1, h2, h3, h4⟩ := h
  unfold emplaceBack
  refine .bind (.getObj (.ite (fun hne => ?_) fun he => ?_))
  · vcost <;> hold
  · have he : v.last = v.eos := by simpa using he
    rw [he] at h3; omega

theorem emplaceBackAll_keeps (as : List (Arg α)) : ∀ {v : Vec} {n r t : Nat}, Dim v n r → as.length ≤ r →
    Keeps (emplaceBackAll E ib N as) v t := by
  induction as with
  | nil => intro v n r t h _; exact .pure h.hold
  | cons a as ih =>
    intro v n r t h hr
    unfold emplaceBackAll
    simp only [List.length_cons] at *
    have hr0 : 0 < r := by omega
    refine .bind (((emplaceBack_cost h).and (emplaceBack_keeps h hr0)).mono (fun _ v' t' hq => ?_) fun v' t' hq => hq.2)
    rw [if_pos hr0] at hq
    exact Keeps.after hq.2 (ih hq.1.1 (by omega))

theorem assignRangeInput_keeps (h : Dim v n r) {as : List (Arg α)} (hm : as.length ≤ n + r) :
    Keeps (assignRangeInput E ib N as) v t := by
  have hd := h
  obtain ⟨h1, h2, h3, h4⟩ := h
  unfold assignRangeInput
  refine .bind (.getObj (.bind (.lift ((assignRangeLoop_cost h1.symm (by omega)).mono (fun r' t' hq => ?_) fun t' hq => hd.hold))))
  obtain ⟨rest, p⟩ := r'
  obtain ⟨g1, g2, g3, g4, g5, g6⟩ := hq
  dsimp only at *
  refine .ite (fun hr => ?_) fun hr => .ite (fun hl => ?_) fun hl => .pure hd.hold
  · have hp := g6 hr
    subst hp
    exact emplaceBackAll_keeps rest hd (by omega)
  · vcost <;> hold

theorem eraseIf_keeps (h : Dim v n r) {f : α → Bool} : Keeps (Vector.eraseIf E f) v t := by
  unfold Vector.eraseIf
  refine .bind (.getObj (.bind (.lift ((removeIf_cost h.last).mono (fun i t' hq => ?_) fun t' hq => h.hold))))
  exact .bind (.getObj (.bind (.distance fun _ _ => .bind ((eraseRange_keeps h).mono (fun _ _ _ hh => .pure hh) fun _ _ hh => hh))))

theorem insertRangeLoop_keeps (as : List (Arg α)) : ∀ {v : Vec} {n r t k : Nat} {pos : Ptr}, Dim v n r →
    pos.off = v.first.off + k → as.length ≤ r → Keeps (insertRangeLoop E ib N as pos) v t := by
  induction as with
  | nil => intro v n r t k pos h hk hr; exact .pure h.hold
  | cons a as ih =>
    intro v n r t k pos h hk hr
    unfold insertRangeLoop
    simp only [List.length_cons] at *
    have hr0 : 0 < r := by omega
    refine .bind (((emplace_cost h hk).and (emplace_keeps h hr0)).mono (fun p v' t' hq => ?_) fun _ _ hq => hq.2)
    obtain ⟨⟨rfl, hkn, hq⟩, hh⟩ := hq
    rw [if_pos hr0] at hq
    exact Keeps.after hh (ih (k := k + 1) hq.1 (by simp; omega) (by omega))

theorem Keeps.nth {β : Type} {f : Ptr → Vector.VM α β} {k : Nat} (h : Keeps (f (v.first.add k)) v t) :
    Keeps (Vector.nth k >>= f) v t := .bind (.bind (.getObj (.pure h)))

theorem Keeps.argOf {β : Type} {f : Arg α → Vector.VM α β} {s : Sq.Src α} (h : ∀ a, Keeps (f a) v t) :
    Keeps (Vector.argOf s >>= f) v t := .bind (.bind (.getObj (.pure (h _))))

theorem Keeps.indexOf {m : Vector.VM α Ptr} (h : Keeps m v t) : Keeps (m >>= fun p => Vector.indexOf p) v t :=
  .bind (vcost.mono h (fun _ _ _ h => .bind (.getObj (.bind (.distance fun _ _ => .pure h)))) fun _ _ h => h)

theorem Keeps.map {β γ : Type} {m : Vector.VM α β} {f : β → γ} (h : Keeps m v t) :
    Keeps (m >>= fun p => Pure.pure (f p)) v t := .bind (vcost.mono h (fun _ _ _ h => .pure h) fun _ _ h => h)

/-- Every modifier that asks for no more than the capacity. -/
theorem exec_keeps (h : Dim v n r) (op : Sq.Op α) (hop : op ≠ .shrinkToFit) (hroom : op.room n ≤ n + r) : Keeps (exec E ib N op) v t := by
  cases op <;> simp only [Sq.Op.room] at hroom
  case pushBack s => exact .argOf fun a => .indexOf (emplaceBack_keeps h (by omega))
  case emplace k s => exact .argOf fun a => .nth (.indexOf (emplace_keeps h (by omega)))
  case insertN k m s => exact .argOf fun a => .nth (.indexOf (insertFillN_keeps h (by omega)))
  case insertRange k ys => exact .nth (.indexOf (insertRange_keeps h (by omega)))
  case insertInput k ys =>
    refine .nth (.indexOf (.bind (.getObj (.bind (.assert fun _ => .bind ?_)))))
    exact vcost.mono (insertRangeLoop_keeps (k := k) _ h (by simp) (by rw [List.length_map]; omega))
      (fun _ _ _ hh => .bind (.getObj (.pure hh))) fun _ _ hh => hh
  case popBack => exact .map (popBack_keeps h)
  case eraseAt k => exact .nth (.indexOf (eraseAt_keeps h))
  case eraseRange k l => exact .nth (.nth (.indexOf (eraseRange_keeps h)))
  case resize m => exact .map (resizeWith_keeps h hroom)
  case resizeV m s => exact .argOf fun a => .map (resizeWith_keeps h hroom)
  case assignN m a => exact .map (assignFillN_keeps h hroom)
  case assignRange ys => exact .map (assignRange_keeps h (by rw [List.length_map]; omega))
  case assignInput ys => exact .map (assignRangeInput_keeps h (by rw [List.length_map]; omega))
  case clear => exact .map (clear_keeps h)
  case reserve m => exact .map (reserve_keeps h hroom)
  case shrinkToFit => exact absurd rfl hop
  case eraseIf f => exact .map (eraseIf_keeps h)

/-- reserve and shrink_to_fit either do nothing or get storage of another size. -/
theorem relocate_moves (h : Dim v n r) {m : Nat} (ho : v.first ≠ ⟨ib, 0⟩ → m ≤ N → N ≠ n + r)
    (hm : m ≠ n + r) :
    vcost (relocate E ib N m) (fun _ v' _ => v' = v ∨ v'.eos.off - v'.first.off ≠ n + r) (fun v' _ => v' = v) v t := by
  obtain ⟨h1, h2, h3, h4⟩ := h
  unfold relocate replaceStorage
  refine .bind (.getObj (.ite (fun hN => .ite (fun hf => .pure (.inl rfl)) fun hf => ?_) fun hN => ?_))
  · have := ho hf hN
    vcost <;> first | rfl | (refine .inr ?_; cost_arith)
  · vcost <;> first | rfl | (refine .inr ?_; cost_arith)

end SmallVector

end Sfl
