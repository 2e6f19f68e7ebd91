import Verif.CostVec
/-
  What every modifier of small_vector and vector does to the data members and the counter: where the pointers end up,
  how large the storage is and how many potentially throwing operations were performed, also when the modifier throws.
-/

namespace Sfl
variable {α : Type}

namespace SmallVector
variable {E : Env α} {v : Vec} {n r t ib N : Nat}

/-- The pointers delimit a storage of at most `B` slots. -/
structure Fit (v : Vec) (B : Nat) : Prop where
  blk1 : v.last.blk = v.first.blk
  blk2 : v.eos.blk = v.first.blk
  last : v.first.off ≤ v.last.off
  eos : v.last.off ≤ v.eos.off
  cap : v.eos.off - v.first.off ≤ B

/-- A modifier of a vector ends, in whichever way, within `B` slots and before the counter passes `W`. -/
abbrev Ends {β : Type} (m : Vector.VM α β) (B W : Nat) (v : Vec) (t : Nat) : Prop :=
  vcost m (fun _ v' t' => Fit v' B ∧ t' ≤ W) (fun v' t' => Fit v' B ∧ t' ≤ W) v t

theorem newCapacity_le {m n c k s : Nat} (h : newCapacity N m s c k = some n) (hk : 0 < k) :
    n ≤ max N (max (s + k) (c + c / 2)) ∧ s + k ≤ n := by
  unfold newCapacity at h
  split at h
  · simp at h
  split at h
  · simp at h; omega
  split at h <;> simp at h <;> omega

macro "fit" : tactic => `(tactic| ((try refine ⟨⟨?_, ?_, ?_, ?_, ?_⟩, ?_⟩) <;> cost_arith))

theorem emplace_ends (h : Dim v n r) {pos : Ptr} {a : Arg α} :
    Ends (emplace E ib N pos a) (if 0 < r then n + r else max N (n + 1 + (n + 1) / 2))
      (t + (n - (pos.off - v.first.off)) + 2 + if 0 < r then 0 else n) v t := by
  obtain ⟨h1, h2, h3, h4⟩ := h
  unfold emplace
  refine .bind (.getObj (.bind (.assert fun hin => .ite (fun hne => ?_) fun he => ?_)))
  · have hr : 0 < r := by have := Ptr.off_ne (by rw [h1, h2]) hne; omega
    obtain ⟨g1, g2, g3⟩ := hin
    simp only [if_pos hr]
    refine .ite (fun _ => ?_) fun hp => ?_
    · vcost <;> fit
    · have := Ptr.off_ne (by simp; omega) hp
      vcost <;> fit
  · have hr : r = 0 := by
      have he : v.last = v.eos := by simpa using he
      rw [he] at h3; omega
    subst hr
    obtain ⟨g1, g2, g3⟩ := hin
    simp only [Nat.lt_irrefl, if_false]
    unfold calculateNewCapacity Vector.size Vector.capacity
    refine .bind (.bind (.bind (.getObj (.distance fun _ _ => .bind (.bind (.getObj (.distance fun _ _ => ?_)))))))
    have e1 : v.last.off - v.first.off = n := by omega
    have e2 : v.eos.off - v.first.off = n := by omega
    rw [e1, e2]
    cases hc : newCapacity N E.maxSize n n 1 with
    | none => refine .throw ?_; fit
    | some c =>
      have k1 := newCapacity_le hc Nat.one_pos
      dsimp only
      unfold newStorage replaceStorage
      vcost <;> fit

theorem insertFillN_ends (h : Dim v n r) {pos : Ptr} {m : Nat} {a : Arg α} :
    Ends (insertFillN E ib N pos m a) (if m ≤ r then n + r else max N (n + m + (n + m) / 2))
      (t + m + (n - (pos.off - v.first.off)) + 2 + if m ≤ r then 0 else n) v t := by
  obtain ⟨h1, h2, h3, h4⟩ := h
  unfold insertFillN
  refine .bind (.getObj (.bind (.assert fun hin => .ite (fun h0 => ?_) fun h0 => ?_)))
  · rw [if_pos (by omega)]; vcost <;> fit
  obtain ⟨g1, g2, g3⟩ := hin
  unfold Vector.available
  refine .bind (.bind (.getObj (.distance fun _ _ => .ite (fun hne => ?_) fun he => ?_)))
  · have hr : m ≤ r := by omega
    simp only [if_pos hr]
    refine .bind (.lift (.mkTmp (fun tmp => .ite (fun hp => ?_) fun hp => ?_) (by fit)))
    · vcost <;> fit
    · vcost <;> fit
  · have hr : ¬ m ≤ r := by omega
    simp only [if_neg hr]
    unfold calculateNewCapacity Vector.size Vector.capacity
    refine .bind (.bind (.bind (.getObj (.distance fun _ _ => .bind (.bind (.getObj (.distance fun _ _ => ?_)))))))
    have e1 : v.last.off - v.first.off = n := by omega
    have e2 : v.eos.off - v.first.off = n + r := by omega
    rw [e1, e2]
    cases hc : newCapacity N E.maxSize n (n + r) m with
    | none => refine .throw ?_; fit
    | some c =>
      have k1 := newCapacity_le hc (by omega)
      dsimp only
      unfold newStorage replaceStorage
      vcost <;> fit

theorem insertRange_ends (h : Dim v n r) {pos : Ptr} {ys : List α} :
    Ends (insertRange E ib N pos ys) (if ys.length ≤ r then n + r else max N (n + ys.length + (n + ys.length) / 2))
      (t + ys.length + (n - (pos.off - v.first.off)) + 2 + if ys.length ≤ r then 0 else n) v t := by
  obtain ⟨h1, h2, h3, h4⟩ := h
  unfold insertRange
  refine .bind (.getObj (.bind (.assert fun hin => .ite (fun h0 => ?_) fun h0 => ?_)))
  · subst h0; rw [if_pos (by simp)]; vcost <;> fit
  obtain ⟨g1, g2, g3⟩ := hin
  unfold Vector.available
  have hl : 0 < ys.length := List.length_pos_iff.mpr h0
  refine .bind (.bind (.getObj (.distance fun _ _ => .ite (fun hne => ?_) fun he => ?_)))
  · have hr : ys.length ≤ r := by omega
    simp only [if_pos hr]
    refine .ite (fun hp => ?_) fun hp => ?_
    · vcost <;> fit
    · have := @List.length_take α
      have := @List.length_drop α
      simp only [Ptr.add_off] at hp
      vcost <;> (try simp only [List.length_drop, List.length_take] at *) <;> fit
  · have hr : ¬ ys.length ≤ r := by omega
    simp only [if_neg hr]
    unfold calculateNewCapacity Vector.size Vector.capacity
    refine .bind (.bind (.bind (.getObj (.distance fun _ _ => .bind (.bind (.getObj (.distance fun _ _ => ?_)))))))
    have e1 : v.last.off - v.first.off = n := by omega
    have e2 : v.eos.off - v.first.off = n + r := by omega
    rw [e1, e2]
    cases hc : newCapacity N E.maxSize n (n + r) ys.length with
    | none => refine .throw ?_; fit
    | some c =>
      have k1 := newCapacity_le hc hl
      dsimp only
      unfold newStorage replaceStorage
      vcost <;> fit

theorem eraseAt_ends (h : Dim v n r) {pos : Ptr} :
    Ends (Vector.eraseAt E pos) (n + r) (t + (n - (pos.off - v.first.off) - 1)) v t := by
  obtain ⟨h1, h2, h3, h4⟩ := h
  unfold Vector.eraseAt
  refine .bind (.getObj (.bind (.assert fun hin => ?_)))
  obtain ⟨g1, g2, g3⟩ := hin
  vcost <;> fit

theorem eraseRange_ends (h : Dim v n r) {p q : Ptr} :
    Ends (Vector.eraseRange E p q) (n + r) (t + (n - (q.off - v.first.off))) v t := by
  obtain ⟨h1, h2, h3, h4⟩ := h
  unfold Vector.eraseRange
  refine .bind (.getObj (.bind (.assert fun hin => ?_)))
  obtain ⟨g1, g2, g3, g4, g5⟩ := hin
  vcost <;> fit

theorem clear_ends (h : Dim v n r) : Ends (Vector.clear : Vector.VM α Unit) (n + r) t v t := by
  obtain ⟨h1, h2, h3, h4⟩ := h
  unfold Vector.clear
  vcost <;> fit

theorem popBack_ends (h : Dim v n r) : Ends (Vector.popBack : Vector.VM α Unit) (n + r) t v t :=
  (popBack_cost h).mono (fun _ v' t' hq => by
    obtain ⟨_, ⟨h1, h2, h3, h4⟩, _⟩ := hq
    fit) fun _ _ h => h.elim

theorem resizeWith_ends (h : Dim v n r) {m : Nat} {a : Arg α} :
    Ends (resizeWith E ib N m a) (if m ≤ n + r then n + r else max N m)
      (t + (m - n) + 1 + if m ≤ n + r then 0 else n) v t := by
  obtain ⟨h1, h2, h3, h4⟩ := h
  unfold resizeWith Vector.checkSize
  refine .bind (.ite (fun _ => .throw ?_) fun _ => .pure (.bind (.getObj ?_)))
  · split <;> fit
  unfold Vector.size Vector.capacity
  refine .bind (.bind (.getObj (.distance fun _ _ => .ite (fun hlt => ?_) fun hlt => .ite (fun hgt => ?_) fun hgt => ?_)))
  · rw [if_pos (by omega), if_pos (by omega)]; vcost <;> fit
  · refine .bind (.bind (.getObj (.distance fun _ _ => .ite (fun hc => ?_) fun hc => ?_)))
    · rw [if_neg (by omega), if_neg (by omega)]
      unfold newStorage replaceStorage
      vcost <;> fit
    · rw [if_pos (by omega), if_pos (by omega)]; vcost <;> fit
  · rw [if_pos (by omega), if_pos (by omega)]; vcost <;> fit

theorem relocate_ends (h : Dim v n r) {m : Nat} (hm : n ≤ m) :
    Ends (relocate E ib N m) (max N (max (n + r) m)) (t + n + 1) v t := by
  obtain ⟨h1, h2, h3, h4⟩ := h
  unfold relocate replaceStorage
  vcost <;> fit

theorem reserve_ends (h : Dim v n r) {m : Nat} :
    Ends (reserve E ib N m) (max N (max (n + r) m)) (t + if m ≤ n + r then 0 else n + 1) v t := by
  have hd := h
  obtain ⟨h1, h2, h3, h4⟩ := h
  unfold reserve Vector.checkSize Vector.capacity
  refine .bind (.ite (fun _ => .throw ?_) fun _ => .pure (.bind (.bind (.getObj (.distance fun _ _ => ?_)))))
  · split <;> fit
  refine .ite (fun hg => ?_) fun hg => .pure ?_
  · rw [if_neg (by omega)]
    exact relocate_ends hd (by omega)
  · rw [if_pos (by omega)]; fit

theorem shrinkToFit_ends (h : Dim v n r) :
    Ends (shrinkToFit E ib N) (max N (n + r)) (t + if r = 0 then 0 else n + 1) v t := by
  have hd := h
  obtain ⟨h1, h2, h3, h4⟩ := h
  unfold shrinkToFit Vector.capacity Vector.size
  refine .bind (.bind (.getObj (.distance fun _ _ => .bind (.bind (.getObj (.distance fun _ _ => ?_))))))
  refine .ite (fun hg => ?_) fun hg => .pure ?_
  · rw [if_neg (by omega)]
    refine (relocate_ends hd (by omega)).mono (fun _ _ _ hq => ?_) fun _ _ hq => ?_ <;>
      · obtain ⟨⟨g1, g2, g3, g4, g5⟩, g6⟩ := hq
        fit
  · rw [if_pos (by omega)]; fit

theorem reset_cost (h : Dim v n r) {m : Nat} :
    vcost (reset E ib N m : Vector.VM α Unit) (fun _ v' t' => Dim v' 0 (max N m) ∧ t' ≤ t + 1)
      (fun v' t' => Fit v' N ∧ t' ≤ t + 1) v t := by
  obtain ⟨h1, h2, h3, h4⟩ := h
  unfold reset replaceStorage
  vcost
  all_goals first
    | fit
    | (refine ⟨⟨?_, ?_, ?_, ?_⟩, ?_⟩ <;> cost_arith)

theorem assignFillN_ends (h : Dim v n r) {m : Nat} {a : Arg α} :
    Ends (assignFillN E ib N m a) (max N (max (n + r) m)) (t + m + 1) v t := by
  have hd := h
  obtain ⟨h1, h2, h3, h4⟩ := h
  unfold assignFillN Vector.checkSize Vector.capacity Vector.size
  refine .bind (.ite (fun _ => .throw ?_) fun _ => .pure (.bind (.getObj (.bind (.bind (.getObj (.distance fun _ _ => ?_)))))))
  · fit
  refine .ite (fun _ => ?_) fun _ => ?_
  · vcost <;> fit
  · refine .bind ((reset_cost hd).mono (fun _ v' t' hq => ?_) fun v' t' hq => ?_)
    · obtain ⟨⟨g1, g2, g3, g4⟩, g5⟩ := hq
      vcost <;> fit
    · obtain ⟨⟨g1, g2, g3, g4, g5⟩, g6⟩ := hq
      fit

theorem assignRange_ends (h : Dim v n r) {as : List (Arg α)} :
    Ends (assignRange E ib N as) (max N (max (n + r) as.length)) (t + as.length + 1) v t := by
  have hd := h
  obtain ⟨h1, h2, h3, h4⟩ := h
  unfold assignRange Vector.checkSize Vector.capacity Vector.size
  refine .bind (.ite (fun _ => .throw ?_) fun _ => .pure (.bind (.getObj (.bind (.bind (.getObj (.distance fun _ _ => ?_)))))))
  · fit
  refine .ite (fun _ => ?_) fun _ => ?_
  · vcost <;> (try simp only [List.length_drop, List.length_take] at *) <;> fit
  · refine .bind ((reset_cost hd).mono (fun _ v' t' hq => ?_) fun v' t' hq => ?_)
    · obtain ⟨⟨g1, g2, g3, g4⟩, g5⟩ := hq
      vcost <;> fit
    · obtain ⟨⟨g1, g2, g3, g4, g5⟩, g6⟩ := hq
      fit

theorem emplaceBack_ends (h : Dim v n r) {a : Arg α} :
    Ends (emplaceBack E ib N a) (if 0 < r then n + r else max N (n + 1 + (n + 1) / 2))
      (t + 1 + if 0 < r then 0 else n + 1) v t := by
  obtain ⟨h1, h2, h3, h4⟩ := h
  unfold emplaceBack
  refine .bind (.getObj (.ite (fun hne => ?_) fun he => ?_))
  · have hr : 0 < r := by have := Ptr.off_ne (by rw [h1, h2]) hne; omega
    simp only [if_pos hr]
    vcost <;> fit
  · have hr : r = 0 := by
      have he : v.last = v.eos := by simpa using he
      rw [he] at h3; omega
    subst hr
    simp only [Nat.lt_irrefl, if_false]
    unfold calculateNewCapacity Vector.size Vector.capacity
    refine .bind (.bind (.bind (.getObj (.distance fun _ _ => .bind (.bind (.getObj (.distance fun _ _ => ?_)))))))
    have e1 : v.last.off - v.first.off = n := by omega
    have e2 : v.eos.off - v.first.off = n := by omega
    rw [e1, e2]
    cases hc : newCapacity N E.maxSize n n 1 with
    | none => refine .throw ?_; fit
    | some c =>
      have k1 := newCapacity_le hc Nat.one_pos
      dsimp only
      unfold newStorage replaceStorage
      vcost <;> fit

/-- One after the other at the end: each growth is paid for by the elements appended since the last one. -/
theorem emplaceBackAll_amortised (as : List (Arg α)) : ∀ {v : Vec} {n r t : Nat}, Dim v n r →
    Ends (emplaceBackAll E ib N as) (max N (max (n + r) (n + as.length + (n + as.length) / 2)))
      (t + 7 * as.length + if E.maxSize ≤ n + r then 0 else n - 2 * r) v t := by
  induction as with
  | nil =>
    intro v n r t h
    obtain ⟨h1, h2, h3, h4⟩ := h
    refine .pure ?_; (repeat' split) <;> fit
  | cons a as ih =>
    intro v n r t h
    unfold emplaceBackAll
    simp only [List.length_cons]
    refine .bind (((emplaceBack_cost h).and (emplaceBack_ends h)).mono (fun _ v' t' hq => ?_) fun v' t' hq => ?_)
    · obtain ⟨hq, ⟨g1, g2, g3, g4, g5⟩, g6⟩ := hq
      split at hq
      · rename_i hr
        rw [if_pos hr] at g5
        refine (ih hq.1).mono (fun _ _ _ hh => ?_) fun _ _ hh => ?_ <;>
          · obtain ⟨⟨k1, k2, k3, k4, k5⟩, k6⟩ := hh
            refine ⟨⟨k1, k2, k3, k4, ?_⟩, ?_⟩
            · omega
            · (repeat' split at k6) <;> (repeat' split) <;> omega
      · rename_i hr
        rw [if_neg hr] at g5
        obtain ⟨b1, c, b2, b3, b4, b5⟩ := hq
        have c3 := b4.last
        have c4 := b4.eos
        refine (ih b4).mono (fun _ _ _ hh => ?_) fun _ _ hh => ?_ <;>
          · obtain ⟨⟨k1, k2, k3, k4, k5⟩, k6⟩ := hh
            refine ⟨⟨k1, k2, k3, k4, ?_⟩, ?_⟩
            · omega
            · (repeat' split at k6) <;> (repeat' split) <;> omega
    · obtain ⟨⟨c1, c2, c3⟩, ⟨k1, k2, k3, k4, k5⟩, k6⟩ := hq
      refine ⟨⟨k1, k2, k3, k4, ?_⟩, ?_⟩
      · (repeat' split at k5) <;> omega
      · (repeat' split) <;> omega

/-- With room for all of them nothing is reallocated. -/
theorem emplaceBackAll_room (as : List (Arg α)) : ∀ {v : Vec} {n r t : Nat}, Dim v n r → as.length ≤ r →
    Ends (emplaceBackAll E ib N as) (n + r) (t + as.length) v t := by
  induction as with
  | nil =>
    intro v n r t h _
    obtain ⟨h1, h2, h3, h4⟩ := h
    refine .pure ?_; fit
  | cons a as ih =>
    intro v n r t h hr
    unfold emplaceBackAll
    simp only [List.length_cons] at *
    have hr0 : 0 < r := by omega
    refine .bind (((emplaceBack_cost h).and (emplaceBack_ends h)).mono (fun _ v' t' hq => ?_) fun v' t' hq => ?_)
    · obtain ⟨hq, _⟩ := hq
      rw [if_pos hr0] at hq
      refine (ih hq.1 (by omega)).mono (fun _ _ _ hh => ?_) fun _ _ hh => ?_ <;>
        · obtain ⟨⟨k1, k2, k3, k4, k5⟩, k6⟩ := hh
          exact ⟨⟨k1, k2, k3, k4, by omega⟩, by omega⟩
    · obtain ⟨_, ⟨k1, k2, k3, k4, k5⟩, k6⟩ := hq
      rw [if_pos hr0] at k5 k6
      exact ⟨⟨k1, k2, k3, k4, by omega⟩, by omega⟩

theorem assignRangeLoop_cost {l : Ptr} {as : List (Arg α)} : ∀ {p : Ptr} {t : Nat}, p.blk = l.blk → p.off ≤ l.off →
    cost (Vector.assignRangeLoop E l as p)
      (fun r t' => r.2.blk = l.blk ∧ r.2.off + r.1.length = p.off + as.length ∧ p.off ≤ r.2.off ∧ r.2.off ≤ l.off ∧
        t' + p.off = t + r.2.off ∧ (r.1 ≠ [] → r.2 = l))
      (fun t' => t' + p.off ≤ t + l.off ∧ t' ≤ t + as.length) t := by
  induction as with
  | nil => intro p t hb ho; exact .pure ⟨hb, rfl, Nat.le_refl _, ho, rfl, by simp⟩
  | cons a as ih =>
    intro p t hb ho
    unfold Vector.assignRangeLoop
    refine .ite (fun hne => ?_) fun he => ?_
    · have := Ptr.off_ne hb hne
      refine .bind (.assign ((ih (by simp; omega) (by simp; omega)).mono (fun r t' hq => ?_) fun t' hq => ?_) ?_)
      · obtain ⟨g1, g2, g3, g4, g5, g6⟩ := hq
        simp only [Ptr.add_off, List.length_cons] at *
        exact ⟨g1, by omega, by omega, by omega, by omega, g6⟩
      · simp only [Ptr.add_off, List.length_cons] at *
        omega
      · simp only [List.length_cons]; omega
    · exact .pure ⟨hb, by simp, Nat.le_refl _, ho, rfl, fun _ => by simpa using he⟩

theorem assignRangeInput_ends (h : Dim v n r) {as : List (Arg α)} :
    Ends (assignRangeInput E ib N as) (max N (max (n + r) (as.length + as.length / 2)))
      (t + as.length + if as.length ≤ n + r then 0 else 6 * as.length + n) v t := by
  have hd := h
  obtain ⟨h1, h2, h3, h4⟩ := h
  unfold assignRangeInput
  refine .bind (.getObj (.bind (.lift ((assignRangeLoop_cost h1.symm (by omega)).mono (fun r' t' hq => ?_) fun t' hq => ?_))))
  · obtain ⟨rest, p⟩ := r'
    obtain ⟨g1, g2, g3, g4, g5, g6⟩ := hq
    dsimp only at *
    refine .ite (fun hr => ?_) fun hr => .ite (fun hl => ?_) fun hl => .pure ?_
    · have hp := g6 hr
      subst hp
      have e : n + rest.length = as.length := by omega
      by_cases hc : rest.length ≤ r
      · refine (emplaceBackAll_room rest hd hc).mono (fun _ _ _ hh => ?_) fun _ _ hh => ?_ <;>
        · obtain ⟨⟨k1, k2, k3, k4, k5⟩, k6⟩ := hh
          refine ⟨⟨k1, k2, k3, k4, by omega⟩, ?_⟩
          rw [if_pos (by omega)]; omega
      · refine (emplaceBackAll_amortised rest hd).mono (fun _ _ _ hh => ?_) fun _ _ hh => ?_ <;>
        · obtain ⟨⟨k1, k2, k3, k4, k5⟩, k6⟩ := hh
          refine ⟨⟨k1, k2, k3, k4, by omega⟩, ?_⟩
          rw [if_neg (by omega)]
          (repeat' split at k6) <;> omega
    · have hr : rest.length = 0 := by simpa using hr
      vcost <;> (try simp only [hr] at *) <;> (refine ⟨⟨?_, ?_, ?_, ?_, ?_⟩, ?_⟩ <;> (try dsimp only) <;> (try split) <;> omega)
    · have hr : rest.length = 0 := by simpa using hr
      refine ⟨⟨?_, ?_, ?_, ?_, ?_⟩, ?_⟩ <;> (try split) <;> omega
  · refine ⟨⟨?_, ?_, ?_, ?_, ?_⟩, ?_⟩ <;> (try split) <;> omega

theorem findIf_cost {f : α → Bool} {n : Nat} : ∀ {p : Ptr} {t : Nat} {X : Nat → Prop},
    cost (findIf f p n) (fun q t' => q.blk = p.blk ∧ p.off ≤ q.off ∧ q.off ≤ p.off + n ∧ t' = t) X t := by
  induction n with
  | zero => intro p t X; exact .pure ⟨rfl, by omega, by omega, rfl⟩
  | succ n ih =>
    intro p t X
    refine .bind (.readAt fun _ => .ite (fun _ => .pure ⟨rfl, by omega, by omega, rfl⟩) fun _ => ?_)
    refine ih.mono (fun q t' hq => ?_) fun _ h => h
    obtain ⟨g1, g2, g3, g4⟩ := hq
    simp only [Ptr.add_blk, Ptr.add_off] at *
    exact ⟨g1, by omega, by omega, g4⟩

theorem removeGo_cost {f : α → Bool} {n : Nat} : ∀ {d q : Ptr} {t : Nat},
    cost (removeGo E f n d q) (fun p t' => p.blk = d.blk ∧ d.off ≤ p.off ∧ p.off ≤ d.off + n ∧ t' ≤ t + n)
      (fun t' => t' ≤ t + n) t := by
  induction n with
  | zero => intro d q t; exact .pure ⟨rfl, by omega, by omega, by omega⟩
  | succ n ih =>
    intro d q t
    refine .bind (.readAt fun _ => .ite (fun _ => ?_) fun _ => .bind (.assign ?_ (by omega)))
    · refine ih.mono (fun p t' hq => ?_) fun _ h => by omega
      obtain ⟨g1, g2, g3, g4⟩ := hq
      exact ⟨g1, g2, by omega, by omega⟩
    · refine ih.mono (fun p t' hq => ?_) fun _ h => by omega
      obtain ⟨g1, g2, g3, g4⟩ := hq
      simp only [Ptr.add_blk, Ptr.add_off] at *
      exact ⟨g1, by omega, by omega, by omega⟩

theorem removeIf_cost {f : α → Bool} {p q : Ptr} {n : Nat} (ho : q.off = p.off + n) :
    cost (removeIf E f p q) (fun i t' => i.blk = p.blk ∧ p.off ≤ i.off ∧ i.off ≤ q.off ∧ t' ≤ t + n)
      (fun t' => t' ≤ t + n) t := by
  refine .bind (.distance fun _ _ => .bind (findIf_cost.mono (fun i t' hq => ?_) fun _ h => h))
  obtain ⟨g1, g2, g3, g4⟩ := hq
  refine .ite (fun _ => .pure ⟨g1, g2, by omega, by omega⟩) fun hne => .bind (.distance fun h1 h2 => ?_)
  refine removeGo_cost.mono (fun j t' hq => ?_) fun t' hq => ?_
  · obtain ⟨k1, k2, k3, k4⟩ := hq
    simp only [Ptr.add_blk, Ptr.add_off] at *
    exact ⟨by omega, by omega, by omega, by omega⟩
  · simp only [Ptr.add_blk, Ptr.add_off] at *
    omega

theorem eraseIf_ends (h : Dim v n r) {f : α → Bool} : Ends (Vector.eraseIf E f) (n + r) (t + n) v t := by
  have hd := h
  obtain ⟨h1, h2, h3, h4⟩ := h
  unfold Vector.eraseIf
  refine .bind (.getObj (.bind (.lift ((removeIf_cost h3).mono (fun i t' hq => ?_) fun t' hq => ?_))))
  · obtain ⟨g1, g2, g3, g4⟩ := hq
    refine .bind (.getObj (.bind (.distance fun _ _ => .bind ((eraseRange_ends hd).mono (fun _ _ _ hh => .pure ?_) fun _ _ hh => ?_)))) <;>
      · obtain ⟨⟨k1, k2, k3, k4, k5⟩, k6⟩ := hh
        exact ⟨⟨k1, k2, k3, k4, k5⟩, by omega⟩
  · refine ⟨⟨h1, h2, ?_, ?_, ?_⟩, hq⟩ <;> omega

/-- Where `emplace` puts the element, what it leaves and what it costs. -/
theorem emplace_cost (h : Dim v n r) {pos : Ptr} {a : Arg α} {k : Nat} (hk : pos.off = v.first.off + k) :
    vcost (emplace E ib N pos a)
      (fun p v' t' => p = v'.first.add k ∧ k ≤ n ∧ if 0 < r then Dim v' (n + 1) (r - 1) ∧ t' ≤ t + (n - k) + 2 ∧
          (k < n → t' = t + (n - k) + 2)
        else n < E.maxSize ∧ ∃ c, n < c ∧ (E.maxSize ≤ c ∨ n + n / 2 ≤ c) ∧ Dim v' (n + 1) (c - (n + 1)) ∧ t' ≤ t + n + 2)
      (fun _ t' => k ≤ n ∧ (0 < r → t' ≤ t + (n - k) + 2) ∧ t' ≤ t + (n - k) + n + 2 ∧ (r = 0 → E.maxSize ≤ n → t' = t)) v t := by
  obtain ⟨h1, h2, h3, h4⟩ := h
  unfold emplace
  refine .bind (.getObj (.bind (.assert fun hin => .ite (fun hne => ?_) fun he => ?_)))
  · have hr : 0 < r := by have := Ptr.off_ne (by rw [h1, h2]) hne; omega
    obtain ⟨g1, g2, g3⟩ := hin
    have hk' : pos.off - v.first.off = k := by omega
    rw [hk']
    simp only [if_pos hr]
    refine .ite (fun hp => ?_) fun hp => ?_
    · have : k = n := by have := congrArg Ptr.off hp; simp at this; omega
      vcost
      all_goals first
        | (refine ⟨rfl, ?_, ⟨?_, ?_, ?_, ?_⟩, ?_, ?_⟩ <;> cost_arith)
        | cost_arith
    · have := Ptr.off_ne (by simp; omega) hp
      vcost
      all_goals first
        | (refine ⟨rfl, ?_, ⟨?_, ?_, ?_, ?_⟩, ?_, ?_⟩ <;> cost_arith)
        | cost_arith
  · have hr : r = 0 := by
      have he : v.last = v.eos := by simpa using he
      rw [he] at h3; omega
    subst hr
    obtain ⟨g1, g2, g3⟩ := hin
    have hk' : pos.off - v.first.off = k := by omega
    rw [hk']
    simp only [Nat.lt_irrefl, if_false, false_implies, true_and]
    unfold calculateNewCapacity Vector.size Vector.capacity
    refine .bind (.bind (.bind (.getObj (.distance fun _ _ => .bind (.bind (.getObj (.distance fun _ _ => ?_)))))))
    have e1 : v.last.off - v.first.off = n := by omega
    have e2 : v.eos.off - v.first.off = n := by omega
    rw [e1, e2]
    cases hc : newCapacity N E.maxSize n n 1 with
    | none => refine .throw ?_; omega
    | some c =>
      obtain ⟨k1, k2, k3⟩ := newCapacity_room hc
      dsimp only
      unfold newStorage replaceStorage
      vcost
      all_goals first
        | (refine ⟨rfl, ?_, k1, N, ?_, ?_, ⟨?_, ?_, ?_, ?_⟩, ?_⟩ <;> cost_arith)
        | (refine ⟨rfl, ?_, k1, c, ?_, ?_, ⟨?_, ?_, ?_, ?_⟩, ?_⟩ <;> cost_arith)
        | cost_arith

/-- Inserting `m` elements one by one at the same place moves the elements behind it `m` times. -/
theorem insertRangeLoop_ends (as : List (Arg α)) : ∀ {v : Vec} {n r t k : Nat} {pos : Ptr}, Dim v n r →
    pos.off = v.first.off + k →
    Ends (insertRangeLoop E ib N as pos) (max N (max (n + r) (n + as.length + (n + as.length) / 2)))
      (t + as.length * (n - k + 7) + if E.maxSize ≤ n + r then 0 else n - 2 * r) v t := by
  induction as with
  | nil =>
    intro v n r t k pos h hk
    obtain ⟨h1, h2, h3, h4⟩ := h
    refine .pure ?_; (repeat' split) <;> fit
  | cons a as ih =>
    intro v n r t k pos h hk
    unfold insertRangeLoop
    simp only [List.length_cons, Nat.succ_mul]
    refine .bind (((emplace_cost h hk).and (emplace_ends h)).mono (fun p v' t' hq => ?_) fun v' t' hq => ?_)
    · obtain ⟨⟨rfl, hkn, hq⟩, ⟨g1, g2, g3, g4, g5⟩, g6⟩ := hq
      have e : n + 1 - (k + 1) = n - k := by omega
      split at hq
      · rename_i hr
        rw [if_pos hr] at g5
        refine (ih (k := k + 1) hq.1 (by simp; omega)).mono (fun _ _ _ hh => ?_) fun _ _ hh => ?_ <;>
          · rw [e] at hh
            obtain ⟨⟨k1, k2, k3, k4, k5⟩, k6⟩ := hh
            refine ⟨⟨k1, k2, k3, k4, ?_⟩, ?_⟩
            · omega
            · (repeat' split at k6) <;> (repeat' split) <;> omega
      · rename_i hr
        rw [if_neg hr] at g5
        obtain ⟨b1, c, b2, b3, b4, b5⟩ := hq
        have c3 := b4.last
        have c4 := b4.eos
        refine (ih (k := k + 1) b4 (by simp; omega)).mono (fun _ _ _ hh => ?_) fun _ _ hh => ?_ <;>
          · rw [e] at hh
            obtain ⟨⟨k1, k2, k3, k4, k5⟩, k6⟩ := hh
            refine ⟨⟨k1, k2, k3, k4, ?_⟩, ?_⟩
            · omega
            · (repeat' split at k6) <;> (repeat' split) <;> omega
    · obtain ⟨⟨c0, c1, c2, c3⟩, ⟨k1, k2, k3, k4, k5⟩, k6⟩ := hq
      refine ⟨⟨k1, k2, k3, k4, ?_⟩, ?_⟩
      · (repeat' split at k5) <;> omega
      · (repeat' split) <;> omega

/-- With room for all of them and an element behind the place, the loop costs exactly that much. -/
theorem insertRangeLoop_cost (as : List (Arg α)) : ∀ {v : Vec} {n r t k : Nat} {pos : Ptr}, Dim v n r →
    pos.off = v.first.off + k → k < n → as.length ≤ r →
    vcost (insertRangeLoop E ib N as pos) (fun _ _ t' => t' = t + as.length * (n - k + 2)) (fun _ _ => True) v t := by
  induction as with
  | nil => intro v n r t k pos h hk hn hr; exact .pure (by simp)
  | cons a as ih =>
    intro v n r t k pos h hk hn hr
    unfold insertRangeLoop
    simp only [List.length_cons, Nat.succ_mul] at *
    refine .bind ((emplace_cost h hk).mono (fun p v' t' hq => ?_) fun _ _ _ => trivial)
    obtain ⟨rfl, hkn, hq⟩ := hq
    rw [if_pos (by omega)] at hq
    refine (ih (k := k + 1) hq.1 (by simp; omega) (by omega) (by omega)).mono (fun _ _ t' hh => ?_) fun _ _ h => h
    have e : n + 1 - (k + 1) = n - k := by omega
    rw [e] at hh
    have := hq.2.2 hn
    omega

end SmallVector

namespace Sq.Op

/-- The complexity the documentation gives for an operation on a container with `n` elements, as a number of elements:
vector.md "Linear in n plus linear in distance(pos, end())", "Linear in n", "Linear in difference between size() and n" and so on.
The destructors are not counted. -/
def work (n : Nat) : Op α → Nat
  | .pushBack _ => 1
  | .emplace k _ => n - k
  | .insertN k m _ => m + (n - k)
  | .insertRange k ys => ys.length + (n - k)
  | .insertInput k ys => ys.length + (n - k)
  | .popBack => 0
  | .eraseAt k => n - k
  | .eraseRange _ l => n - l
  | .resize m => m - n
  | .resizeV m _ => m - n
  | .assignN m _ => m
  | .assignRange ys => ys.length
  | .assignInput ys => ys.length
  | .clear => 0
  | .reserve _ => 0
  | .shrinkToFit => n
  | .eraseIf _ => n

/-- insert(pos, first, last) with input iterators -/
def isInsertInput : Op α → Bool
  | .insertInput _ _ => true
  | _ => false

end Sq.Op

namespace SmallVector
variable {E : Env α} {v : Vec} {n r t ib N : Nat}

theorem Ends.mono {β : Type} {m : Vector.VM α β} {B W B' W' : Nat} (h : Ends m B W v t) (hB : B ≤ B') (hW : W ≤ W') :
    Ends m B' W' v t :=
  vcost.mono h (fun _ _ _ h => ⟨⟨h.1.1, h.1.2, h.1.3, h.1.4, Nat.le_trans h.1.5 hB⟩, Nat.le_trans h.2 hW⟩)
    fun _ _ h => ⟨⟨h.1.1, h.1.2, h.1.3, h.1.4, Nat.le_trans h.1.5 hB⟩, Nat.le_trans h.2 hW⟩

theorem Ends.nth {β : Type} {f : Ptr → Vector.VM α β} {B W k : Nat} (h : Ends (f (v.first.add k)) B W v t) :
    Ends (Vector.nth k >>= f) B W v t := .bind (.bind (.getObj (.pure h)))

theorem Ends.argOf {β : Type} {f : Arg α → Vector.VM α β} {B W : Nat} {s : Sq.Src α} (h : ∀ a, Ends (f a) B W v t) :
    Ends (Vector.argOf s >>= f) B W v t := .bind (.bind (.getObj (.pure (h _))))

theorem Ends.indexOf {m : Vector.VM α Ptr} {B W : Nat} (h : Ends m B W v t) :
    Ends (m >>= fun p => Vector.indexOf p) B W v t :=
  .bind (vcost.mono h (fun _ _ _ h => .bind (.getObj (.bind (.distance fun _ _ => .pure h)))) fun _ _ h => h)

theorem Ends.map {β γ : Type} {m : Vector.VM α β} {f : β → γ} {B W : Nat} (h : Ends m B W v t) :
    Ends (m >>= fun p => Pure.pure (f p)) B W v t := .bind (vcost.mono h (fun _ _ _ h => .pure h) fun _ _ h => h)

/-- Every modifier but the insertion of a range of input iterators. -/
theorem exec_ends (h : Dim v n r) (op : Sq.Op α) (hop : op.isInsertInput = false) :
    Ends (exec E ib N op) (max N (max (n + r) (op.room n + op.room n / 2)))
      (t + op.work n + 2 + if op.room n ≤ n + r then 0 else 6 * op.work n + n) v t := by
  generalize hR : op.room n = R
  generalize hW : op.work n = W
  cases op <;> simp only [Sq.Op.room, Sq.Op.work] at hR hW <;> subst hR hW
  case pushBack s =>
    refine .argOf fun a => .indexOf ((emplaceBack_ends h).mono ?_ ?_) <;>
      (repeat' split) <;> omega
  case emplace k s =>
    refine .argOf fun a => .nth (.indexOf ((emplace_ends h).mono ?_ ?_)) <;>
      (try rw [Ptr.add_off, Nat.add_sub_cancel_left]) <;> (repeat' split) <;> omega
  case insertN k m s =>
    refine .argOf fun a => .nth (.indexOf ((insertFillN_ends h).mono ?_ ?_)) <;>
      (try rw [Ptr.add_off, Nat.add_sub_cancel_left]) <;> (repeat' split) <;> omega
  case insertRange k ys =>
    refine .nth (.indexOf ((insertRange_ends h).mono ?_ ?_)) <;>
      (try rw [Ptr.add_off, Nat.add_sub_cancel_left]) <;> (repeat' split) <;> omega
  case insertInput k ys => simp [Sq.Op.isInsertInput] at hop
  case popBack =>
    refine .map ((popBack_ends h).mono ?_ ?_) <;> (repeat' split) <;> omega
  case eraseAt k =>
    refine .nth (.indexOf ((eraseAt_ends h).mono ?_ ?_)) <;>
      (try rw [Ptr.add_off, Nat.add_sub_cancel_left]) <;> (repeat' split) <;> omega
  case eraseRange k l =>
    refine .nth (.nth (.indexOf ((eraseRange_ends h).mono ?_ ?_))) <;> (try rw [Ptr.add_off, Nat.add_sub_cancel_left]) <;>
      (repeat' split) <;> omega
  case resize m =>
    refine .map ((resizeWith_ends h).mono ?_ ?_) <;> (repeat' split) <;> omega
  case resizeV m s =>
    refine .argOf fun a => .map ((resizeWith_ends h).mono ?_ ?_) <;>
      (repeat' split) <;> omega
  case assignN m a =>
    refine .map ((assignFillN_ends h).mono ?_ ?_) <;> (repeat' split) <;> omega
  case assignRange ys =>
    refine .map ((assignRange_ends h).mono ?_ ?_) <;> rw [List.length_map] <;>
      (repeat' split) <;> omega
  case assignInput ys =>
    refine .map ((assignRangeInput_ends h).mono ?_ ?_) <;> rw [List.length_map] <;>
      (repeat' split) <;> omega
  case clear =>
    refine .map ((clear_ends h).mono ?_ ?_) <;> (repeat' split) <;> omega
  case reserve m =>
    refine .map ((reserve_ends h).mono ?_ ?_) <;> (repeat' split) <;> omega
  case shrinkToFit =>
    refine .map ((shrinkToFit_ends h).mono ?_ ?_) <;> (repeat' split) <;> omega
  case eraseIf f =>
    refine .map ((eraseIf_ends h).mono ?_ ?_) <;> (repeat' split) <;> omega

/-- The insertion of a range of input iterators. -/
theorem exec_insertInput_ends (h : Dim v n r) {k : Nat} {ys : List α} :
    Ends (exec E ib N (.insertInput k ys)) (max N (max (n + r) (n + ys.length + (n + ys.length) / 2)))
      (t + ys.length * (n - k + 7) + n) v t := by
  refine .nth (.indexOf (.bind (.getObj (.bind (.assert fun _ => .bind ?_)))))
  refine vcost.mono (insertRangeLoop_ends (k := k) _ h (by simp)) (fun _ _ _ hh => .bind (.getObj (.pure ?_))) fun _ _ hh => ?_ <;>
    · obtain ⟨⟨k1, k2, k3, k4, k5⟩, k6⟩ := hh
      rw [List.length_map] at *
      refine ⟨⟨k1, k2, k3, k4, by omega⟩, ?_⟩
      split at k6 <;> omega

/-- What the insertion of a range of input iterators costs when there is room. -/
theorem exec_insertInput_cost (h : Dim v n r) {k : Nat} {ys : List α} (hk : k < n) (hr : ys.length ≤ r) :
    vcost (exec E ib N (.insertInput k ys)) (fun _ _ t' => t' = t + ys.length * (n - k + 2)) (fun _ _ => True) v t := by
  refine .bind (.bind (.getObj (.pure (.bind (.bind (.getObj (.bind (.assert fun _ => .bind ?_))))))))
  refine (insertRangeLoop_cost (k := k) _ h (by simp) hk (by simpa using hr)).mono
    (fun _ _ _ hh => ?_) fun _ _ h => h
  rw [List.length_map] at hh
  exact .bind (.getObj (.pure (.bind (.getObj (.bind (.distance fun _ _ => .pure hh))))))

end SmallVector
end Sfl
