import Verif.CostDev
/-
  What the functions of devector do to the data members and the counter.
-/

namespace Sfl.Devector
variable {α : Type} {E : Env α}

/-- `f` free slots, `n` elements and `b` free slots, in this order and in one block. -/
structure Dim (v : DVec) (f n b : Nat) : Prop where
  blk1 : v.first.blk = v.bos.blk
  blk2 : v.last.blk = v.bos.blk
  blk3 : v.eos.blk = v.bos.blk
  first : v.first.off = v.bos.off + f
  last : v.last.off = v.bos.off + f + n
  eos : v.eos.off = v.bos.off + f + n + b

theorem Dim.cast {v : DVec} {f n b f' n' b' : Nat} (h : Dim v f n b) (h1 : f = f') (h2 : n = n') (h3 : b = b') :
    Dim v f' n' b' := by
  subst h1 h2 h3; exact h

variable {v : DVec} {f n b t : Nat}

theorem insertShiftBack_cost (h : Dim v f n b) {shift i k : Nat} {pos : Ptr} {px : Proxy α} (hp : pos.off = v.first.off + i)
    (hk : k ≤ shift + f) (hb : shift ≤ b) :
    vcost (insertShiftBack E shift pos k px)
      (fun _ v' t' => Dim v' (f + shift - k) (n + k) (b - shift) ∧ t' ≤ t + n + 2 * k ∧ (i = 0 → t + n ≤ t'))
      (fun v' t' => v' = v ∧ t' ≤ t + n + 2 * k) v t := by
  obtain ⟨h1, h2, h3, h4, h5, h6⟩ := h
  unfold insertShiftBack
  refine .bind (.getObj (.bind (.assert fun hs => .bind (.assert fun hr => .bind (.assert fun hn => .bind (.distance fun _ _ =>
    .bind (.distance fun _ _ => .bind (.lift ?_))))))))
  obtain ⟨r1, r2, r3⟩ := hr
  have hS : Shift v.first (v.first.add (pos.off - v.first.off)) v.last ((v.first.add shift).sub k)
      (((v.first.add shift).sub k).add (pos.off - v.first.off))
      ((((v.first.add shift).sub k).add (pos.off - v.first.off)).add k)
      (((((v.first.add shift).sub k).add (pos.off - v.first.off)).add k).add (v.last.off - pos.off)) k := by
    constructor <;> cost_arith
  have e1 := shiftBackMem_le (E := E) (px := px) (t := t) hS
  by_cases hi : i = 0
  · have e2 := shiftBackMem_ge (E := E) (px := px) (t := t) hS (by cost_arith) (by cost_arith)
    refine (e1.and e2).mono ?_ ?_
    · rintro _ t' ⟨k1, k2⟩
      refine .bind (.setObj (.pure ⟨⟨?_, ?_, ?_, ?_, ?_, ?_⟩, ?_, ?_⟩)) <;> (try dsimp only)
      all_goals (try simp only [Ptr.add_blk, Ptr.sub_blk (p := v.first.add shift) (n := k) (by simp only [Ptr.add_off]; omega)]); first | assumption | cost_arith
    · rintro t' ⟨k1, -⟩
      refine ⟨rfl, ?_⟩
      cost_arith
  · refine e1.mono ?_ ?_
    · rintro _ t' k1
      refine .bind (.setObj (.pure ⟨⟨?_, ?_, ?_, ?_, ?_, ?_⟩, ?_, ?_⟩)) <;> (try dsimp only)
      all_goals (try simp only [Ptr.add_blk, Ptr.sub_blk (p := v.first.add shift) (n := k) (by simp only [Ptr.add_off]; omega)]); first | assumption | cost_arith
    · rintro t' k1
      refine ⟨rfl, ?_⟩
      cost_arith

theorem insertShiftFront_cost (h : Dim v f n b) {shift i k : Nat} {pos : Ptr} {px : Proxy α} (hp : pos.off = v.first.off + i)
    (hk : k ≤ shift + b) (hb : shift ≤ f) :
    vcost (insertShiftFront E shift pos k px)
      (fun _ v' t' => Dim v' (f - shift) (n + k) (b + shift - k) ∧ t' ≤ t + n + 2 * k ∧ (i = n → t + n ≤ t'))
      (fun v' t' => v' = v ∧ t' ≤ t + n + 2 * k) v t := by
  obtain ⟨h1, h2, h3, h4, h5, h6⟩ := h
  unfold insertShiftFront
  refine .bind (.getObj (.bind (.assert fun hs => .bind (.assert fun hr => .bind (.assert fun hn => .bind (.distance fun _ _ =>
    .bind (.distance fun _ _ => .bind (.lift ?_))))))))
  obtain ⟨r1, r2, r3⟩ := hr
  have hS : Shift v.first (v.first.add (pos.off - v.first.off)) v.last (v.first.sub shift)
      ((v.first.sub shift).add (pos.off - v.first.off))
      (((v.first.sub shift).add (pos.off - v.first.off)).add k)
      ((((v.first.sub shift).add (pos.off - v.first.off)).add k).add (v.last.off - pos.off)) k := by
    constructor <;> cost_arith
  have e1 := shiftFrontMem_le (E := E) (px := px) (t := t) hS
  by_cases hi : i = n
  · have e2 := shiftFrontMem_ge (E := E) (px := px) (t := t) hS (by cost_arith) (by cost_arith)
    refine (e1.and e2).mono ?_ ?_
    · rintro _ t' ⟨k1, k2⟩
      refine .bind (.setObj (.pure ⟨⟨?_, ?_, ?_, ?_, ?_, ?_⟩, ?_, ?_⟩)) <;> (try dsimp only)
      all_goals (try simp only [Ptr.add_blk, Ptr.sub_blk (p := v.first) (n := shift) (by omega)]); first | assumption | cost_arith
    · rintro t' ⟨k1, -⟩
      refine ⟨rfl, ?_⟩
      cost_arith
  · refine e1.mono ?_ ?_
    · rintro _ t' k1
      refine .bind (.setObj (.pure ⟨⟨?_, ?_, ?_, ?_, ?_, ?_⟩, ?_, ?_⟩)) <;> (try dsimp only)
      all_goals (try simp only [Ptr.add_blk, Ptr.sub_blk (p := v.first) (n := shift) (by omega)]); first | assumption | cost_arith
    · rintro t' k1
      refine ⟨rfl, ?_⟩
      cost_arith

theorem insertGrow_cost (h : Dim v f n b) {cap off i k : Nat} {pos : Ptr} {px : Proxy α} (hp : pos.off = v.first.off + i)
    (hi : i ≤ n) (hc : off + n + k ≤ cap) :
    vcost (insertGrow E cap off pos k px)
      (fun _ v' t' => Dim v' off (n + k) (cap - off - n - k) ∧ t' ≤ t + n + k + 1)
      (fun v' t' => v' = v ∧ t' ≤ t + n + k + 1) v t := by
  obtain ⟨h1, h2, h3, h4, h5, h6⟩ := h
  unfold insertGrow replaceStorage
  vcost
  · refine ⟨⟨?_, ?_, ?_, ?_, ?_, ?_⟩, ?_⟩ <;> cost_arith
  all_goals refine ⟨rfl, ?_⟩; cost_arith

/-- devector.hpp:1347-1383: what is added when `k` elements do not fit into the `f` free slots on their side. -/
def extra (f n k : Nat) : Nat := max (k - f) ((f + n) / 2)

theorem insertMoreBack_cost (h : Dim v f n b) {i k : Nat} {pos : Ptr} {px : Proxy α} (hp : pos.off = v.first.off + i)
    (hi : i ≤ n) (hk : b < k) :
    vcost (insertMoreBack E pos k px)
      (fun _ v' t' => (if extra b n k < f then Dim v' (f - extra b n k) (n + k) (b + extra b n k - k) ∧ (i = n → t + n ≤ t')
        else Dim v' f (n + k) (b + extra b n k - k)) ∧ t' ≤ t + n + 2 * k + 1)
      (fun v' t' => v' = v ∧ t' ≤ t + n + 2 * k + 1) v t := by
  have hd := h
  obtain ⟨h1, h2, h3, h4, h5, h6⟩ := h
  unfold insertMoreBack additionalBack
  have hA : max (k - (v.eos.off - v.last.off)) ((v.eos.off - v.first.off) / 2) = extra b n k := by
    unfold extra; congr 1 <;> omega
  refine .bind (.bind (.getObj (.bind (.distance fun _ _ => .bind (.bind (.getObj (.distance fun _ _ => .ite ?_ ?_)))))))
  · intro hge
    refine .pure (.bind (.bind (.getObj (.distance fun _ _ => .ite ?_ ?_))))
    · intro hlt
      rw [hA] at *
      have : v.first.off - v.bos.off = f := by omega
      refine (insertShiftFront_cost hd hp (by unfold extra; omega) (by omega)).mono ?_ ?_
      · rintro _ v' t' ⟨k1, k2, k3⟩
        rw [if_pos (by omega)]
        exact ⟨⟨k1, k3⟩, by omega⟩
      · rintro _ t' ⟨rfl, _⟩; exact ⟨rfl, by omega⟩
    · intro hlt
      rw [hA] at *
      have : v.first.off - v.bos.off = f := by omega
      unfold insertGrowBack
      refine .bind (.getObj (.bind (.assert fun _ => .bind (.assert fun _ => .bind (.assert fun _ => .bind (.bind (.getObj
        (.distance fun _ _ => .ite (fun _ => .throw ⟨rfl, by omega⟩) fun _ => .bind (.bind (.getObj (.distance fun _ _ => ?_)))))))))))
      refine (insertGrow_cost hd hp hi (by unfold extra; omega)).mono ?_ ?_
      · rintro _ v' t' ⟨k1, k2⟩
        rw [if_neg (by omega)]
        exact ⟨k1.cast (by omega) (by omega) (by unfold extra at *; omega), by omega⟩
      · rintro _ t' ⟨rfl, _⟩; exact ⟨rfl, by omega⟩
  · intro hge; omega

theorem insertMoreFront_cost (h : Dim v f n b) {i k : Nat} {pos : Ptr} {px : Proxy α} (hp : pos.off = v.first.off + i)
    (hi : i ≤ n) (hk : f < k) :
    vcost (insertMoreFront E pos k px)
      (fun _ v' t' => (if extra f n k < b then Dim v' (f + extra f n k - k) (n + k) (b - extra f n k) ∧ (i = 0 → t + n ≤ t')
        else Dim v' (f + extra f n k - k) (n + k) b) ∧ t' ≤ t + n + 2 * k + 1)
      (fun v' t' => v' = v ∧ t' ≤ t + n + 2 * k + 1) v t := by
  have hd := h
  obtain ⟨h1, h2, h3, h4, h5, h6⟩ := h
  unfold insertMoreFront additionalFront
  have hA : max (k - (v.first.off - v.bos.off)) ((v.last.off - v.bos.off) / 2) = extra f n k := by
    unfold extra; congr 1 <;> omega
  refine .bind (.bind (.getObj (.bind (.distance fun _ _ => .bind (.bind (.getObj (.distance fun _ _ => .ite ?_ ?_)))))))
  · intro hge
    refine .pure (.bind (.bind (.getObj (.distance fun _ _ => .ite ?_ ?_))))
    · intro hlt
      rw [hA] at *
      have : v.eos.off - v.last.off = b := by omega
      refine (insertShiftBack_cost hd hp (by unfold extra; omega) (by omega)).mono ?_ ?_
      · rintro _ v' t' ⟨k1, k2, k3⟩
        rw [if_pos (by omega)]
        exact ⟨⟨k1, k3⟩, by omega⟩
      · rintro _ t' ⟨rfl, _⟩; exact ⟨rfl, by omega⟩
    · intro hlt
      rw [hA] at *
      have : v.eos.off - v.last.off = b := by omega
      unfold insertGrowFront
      refine .bind (.getObj (.bind (.assert fun _ => .bind (.assert fun _ => .bind (.assert fun _ => .bind (.bind (.getObj
        (.distance fun _ _ => .ite (fun _ => .throw ⟨rfl, by omega⟩) fun _ => .bind (.bind (.getObj (.distance fun _ _ =>
        .bind (.bind (.getObj (.distance fun _ _ => ?_))))))))))))))
      refine (insertGrow_cost hd hp hi (by unfold extra; omega)).mono ?_ ?_
      · rintro _ v' t' ⟨k1, k2⟩
        rw [if_neg (by omega)]
        exact ⟨k1.cast (by unfold extra at *; omega) (by omega) (by unfold extra at *; omega), by omega⟩
      · rintro _ t' ⟨rfl, _⟩; exact ⟨rfl, by omega⟩
  · intro hge; omega

theorem emplaceBackAux_cost (h : Dim v f n b) {a : Arg α} :
    vcost (emplaceBackAux E a)
      (fun _ v' t' => if 0 < b then Dim v' f (n + 1) (b - 1) ∧ t' = t + 1
        else if max 1 (n / 2) < f then Dim v' (f - max 1 (n / 2)) (n + 1) (max 1 (n / 2) - 1) ∧ t + n ≤ t' ∧ t' ≤ t + n + 4
        else Dim v' f (n + 1) (max 1 (n / 2) - 1) ∧ t' ≤ t + n + 4)
      (fun v' t' => v' = v ∧ (0 < b → t' ≤ t + 1) ∧ t' ≤ t + n + 4) v t := by
  have hd := h
  obtain ⟨h1, h2, h3, h4, h5, h6⟩ := h
  unfold emplaceBackAux
  refine .bind (.getObj (.ite (fun hne => ?_) fun he => ?_))
  · have hb : 0 < b := by have := Ptr.off_ne (by rw [h2, h3]) hne; omega
    refine .bind (.lift (.construct ?_ ⟨rfl, by omega, by omega⟩))
    refine .bind (.setObj (.pure ?_))
    rw [if_pos hb]
    exact ⟨⟨h1, h2, h3, h4, by simp; omega, by simp; omega⟩, rfl⟩
  · have hb : b = 0 := by
      have he : v.last = v.eos := by simpa using he
      rw [he] at h5; omega
    subst hb
    refine .bind (.lift (.mkTmp (fun tmp => .bind (.getObj ?_)) ⟨rfl, by omega, by omega⟩))
    refine (insertMoreBack_cost hd (i := n) (by omega) (Nat.le_refl _) (by omega)).mono ?_ ?_
    · rintro _ v' t' ⟨k1, k2⟩
      have : extra 0 n 1 = max 1 (n / 2) := by unfold extra; simp
      rw [this] at k1
      rw [if_neg (by omega)]
      split at k1
      · rw [if_pos ‹_›]; exact ⟨k1.1.cast rfl rfl (by omega), by have := k1.2 rfl; omega, by omega⟩
      · rw [if_neg ‹_›]; exact ⟨k1.cast rfl rfl (by omega), by omega⟩
    · rintro _ t' ⟨rfl, _⟩; exact ⟨rfl, by omega, by omega⟩

theorem emplaceFrontAux_cost (h : Dim v f n b) {a : Arg α} :
    vcost (emplaceFrontAux E a)
      (fun _ v' t' => if 0 < f then Dim v' (f - 1) (n + 1) b ∧ t' = t + 1
        else if max 1 (n / 2) < b then Dim v' (max 1 (n / 2) - 1) (n + 1) (b - max 1 (n / 2)) ∧ t + n ≤ t' ∧ t' ≤ t + n + 4
        else Dim v' (max 1 (n / 2) - 1) (n + 1) b ∧ t' ≤ t + n + 4)
      (fun v' t' => v' = v ∧ (0 < f → t' ≤ t + 1) ∧ t' ≤ t + n + 4) v t := by
  have hd := h
  obtain ⟨h1, h2, h3, h4, h5, h6⟩ := h
  unfold emplaceFrontAux
  refine .bind (.getObj (.ite (fun hne => ?_) fun he => ?_))
  · have hb : 0 < f := by have := Ptr.off_ne (by rw [h1]) hne; omega
    refine .bind (.lift (.construct ?_ ⟨rfl, by omega, by omega⟩))
    refine .bind (.setObj (.pure ?_))
    rw [if_pos hb]
    refine ⟨⟨?_, h2, h3, ?_, ?_, ?_⟩, rfl⟩ <;> dsimp only
    · rw [Ptr.sub_blk (by omega)]; exact h1
    all_goals cost_arith
  · have hb : f = 0 := by
      have he : v.first = v.bos := by simpa using he
      rw [he] at h4; omega
    subst hb
    refine .bind (.lift (.mkTmp (fun tmp => .bind (.getObj ?_)) ⟨rfl, by omega, by omega⟩))
    refine (insertMoreFront_cost hd (i := 0) (by omega) (Nat.zero_le _) (by omega)).mono ?_ ?_
    · rintro _ v' t' ⟨k1, k2⟩
      have : extra 0 n 1 = max 1 (n / 2) := by unfold extra; simp
      rw [this] at k1
      rw [if_neg (by omega)]
      split at k1
      · rw [if_pos ‹_›]; exact ⟨k1.1.cast (by omega) rfl rfl, by have := k1.2 rfl; omega, by omega⟩
      · rw [if_neg ‹_›]; exact ⟨k1.cast (by omega) rfl rfl, by omega⟩
    · rintro _ t' ⟨rfl, _⟩; exact ⟨rfl, by omega, by omega⟩

theorem popFront_cost (h : Dim v f n b) :
    vcost (popFront : DM α Unit) (fun _ v' t' => 0 < n ∧ Dim v' (f + 1) (n - 1) b ∧ t' = t) (fun _ _ => False) v t := by
  have hd := h
  obtain ⟨h1, h2, h3, h4, h5, h6⟩ := h
  refine .bind (.getObj (.bind (.assert fun hne => .bind (.lift (.destroyAt (.setObj ?_))))))
  have hb : 0 < n := by have := Ptr.off_ne (by rw [h1, h2]) hne; omega
  exact ⟨hb, ⟨h1, h2, h3, by simp; omega, by simp; omega, by simp; omega⟩, rfl⟩

theorem popBack_cost (h : Dim v f n b) :
    vcost (popBack : DM α Unit) (fun _ v' t' => 0 < n ∧ Dim v' f (n - 1) (b + 1) ∧ t' = t) (fun _ _ => False) v t := by
  have hd := h
  obtain ⟨h1, h2, h3, h4, h5, h6⟩ := h
  refine .bind (.getObj (.bind (.assert fun hne => .bind (.setObj (.lift (.destroyAt ?_))))))
  have hb : 0 < n := by have := Ptr.off_ne (by rw [h1, h2]) hne; omega
  refine ⟨hb, ⟨h1, ?_, h3, h4, ?_, ?_⟩, rfl⟩ <;> dsimp only
  · rw [Ptr.sub_blk (by omega)]; exact h2
  all_goals cost_arith

end Sfl.Devector
