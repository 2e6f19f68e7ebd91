import Verif.CostDev3
import Verif.CostVec2
/-
  What every modifier of devector does to the data members and the counter: where the pointers end up, how large the storage is and
  how many potentially throwing operations were performed, also when the modifier throws.
-/

namespace Sfl
variable {α : Type}

namespace Devector
variable {E : Env α} {v : DVec} {f n b t : Nat}

/-- The pointers delimit a storage of at most `B` slots. -/
structure Fit (v : DVec) (B : Nat) : Prop where
  blk1 : v.first.blk = v.bos.blk
  blk2 : v.last.blk = v.bos.blk
  blk3 : v.eos.blk = v.bos.blk
  first : v.bos.off ≤ v.first.off
  last : v.first.off ≤ v.last.off
  eos : v.last.off ≤ v.eos.off
  cap : v.eos.off - v.bos.off ≤ B

theorem Fit.dim {B : Nat} (h : Fit v B) :
    Dim v (v.first.off - v.bos.off) (v.last.off - v.first.off) (v.eos.off - v.last.off) := by
  obtain ⟨h1, h2, h3, h4, h5, h6, h7⟩ := h
  constructor <;> omega

theorem Dim.fit (h : Dim v f n b) {B : Nat} (hB : f + n + b ≤ B) : Fit v B := by
  obtain ⟨h1, h2, h3, h4, h5, h6⟩ := h
  constructor <;> omega

theorem Fit.mono {B B' : Nat} (h : Fit v B) (hB : B ≤ B') : Fit v B' :=
  ⟨h.1, h.2, h.3, h.4, h.5, h.6, Nat.le_trans h.7 hB⟩

/-- A modifier of a devector ends, in whichever way, within `B` slots and before the counter passes `W`. -/
abbrev Ends {β : Type} (m : DM α β) (B W : Nat) (v : DVec) (t : Nat) : Prop :=
  vcost m (fun _ v' t' => Fit v' B ∧ t' ≤ W) (fun v' t' => Fit v' B ∧ t' ≤ W) v t

theorem Ends.mono {β : Type} {m : DM α β} {B W B' W' : Nat} (h : Ends m B W v t) (hB : B ≤ B') (hW : W ≤ W') : Ends m B' W' v t :=
  vcost.mono h (fun _ _ _ hq => ⟨hq.1.mono hB, by omega⟩) fun _ _ hq => ⟨hq.1.mono hB, by omega⟩

macro "dfit" : tactic => `(tactic| ((try refine ⟨⟨?_, ?_, ?_, ?_, ?_, ?_, ?_⟩, ?_⟩) <;> cost_arith))

theorem insertMoreBack_ends (h : Dim v f n b) {i k : Nat} {pos : Ptr} {px : Proxy α} (hp : pos.off = v.first.off + i)
    (hi : i ≤ n) (hk : b < k) :
    Ends (insertMoreBack E pos k px) (max (f + n + b) (2 * (n + k))) (t + n + 2 * k + 1) v t := by
  refine (insertMoreBack_cost h hp hi hk).mono (fun _ v' t' hq => ?_) fun v' t' hq => ?_
  · obtain ⟨hq, ht⟩ := hq
    refine ⟨?_, by omega⟩
    split at hq
    · exact hq.1.fit (by unfold extra at *; omega)
    · exact hq.fit (by unfold extra at *; omega)
  · obtain ⟨rfl, ht⟩ := hq
    exact ⟨h.fit (by omega), by omega⟩

theorem insertMoreFront_ends (h : Dim v f n b) {i k : Nat} {pos : Ptr} {px : Proxy α} (hp : pos.off = v.first.off + i)
    (hi : i ≤ n) (hk : f < k) :
    Ends (insertMoreFront E pos k px) (max (f + n + b) (2 * (n + k))) (t + n + 2 * k + 1) v t := by
  refine (insertMoreFront_cost h hp hi hk).mono (fun _ v' t' hq => ?_) fun v' t' hq => ?_
  · obtain ⟨hq, ht⟩ := hq
    refine ⟨?_, by omega⟩
    split at hq
    · exact hq.1.fit (by unfold extra at *; omega)
    · exact hq.fit (by unfold extra at *; omega)
  · obtain ⟨rfl, ht⟩ := hq
    exact ⟨h.fit (by omega), by omega⟩

/-- `k` elements go before the element `i`; there is room for them at the nearer end. -/
theorem insertAux_room (h : Dim v f n b) {i k : Nat} {pos : Ptr} {px : Proxy α} (hp : pos.off = v.first.off + i)
    (h1 : i < n - i → k ≤ f) (h2 : n - i ≤ i → k ≤ b) :
    vcost (insertAux E pos k px)
      (fun _ v' t' => Dim v' (if i < n - i then f - k else f) (n + k) (if i < n - i then b else b - k) ∧
        t' ≤ t + 2 * k + min i (n - i) ∧ (0 < k → t + min i (n - i) ≤ t'))
      (fun v' t' => v' = v ∧ t' ≤ t + 2 * k + min i (n - i)) v t := by
  have hd := h
  obtain ⟨g1, g2, g3, g4, g5, g6⟩ := h
  unfold insertAux availableFront availableBack
  refine .bind (.getObj (.bind (.assert fun hr => .bind (.distance fun _ _ => .ite (fun h0 => .pure ?_) fun h0 => .bind (.distance fun _ _ => ?_)))))
  · subst h0; exact ⟨hd.cast (by split <;> omega) rfl (by split <;> omega), by omega, by omega⟩
  obtain ⟨r1, r2, r3⟩ := hr
  have e1 : pos.off - v.first.off = i := by omega
  have e2 : v.last.off - pos.off = n - i := by omega
  rw [e1, e2]
  refine .ite (fun hlt => ?_) fun hlt => ?_
  · have h1 := h1 hlt
    refine .bind (.bind (.getObj (.distance fun _ _ => .ite (fun _ => ?_) fun _ => by omega)))
    simp only [if_pos hlt]
    refine .ite (fun hk => ?_) fun hk => ?_
    · unfold intoFront1
      vcost
      all_goals first
        | (refine ⟨rfl, ?_⟩; cost_arith)
        | (refine ⟨⟨?_, ?_, ?_, ?_, ?_, ?_⟩, ?_, ?_⟩ <;> (try simp only [Ptr.sub_blk (p := v.first) (n := k) (by omega)]) <;> first | assumption | cost_arith)
    · unfold intoFront2
      vcost
      all_goals first
        | (refine ⟨rfl, ?_⟩; cost_arith)
        | (refine ⟨⟨?_, ?_, ?_, ?_, ?_, ?_⟩, ?_, ?_⟩ <;> (try simp only [Ptr.sub_blk (p := v.first) (n := k) (by omega)]) <;> first | assumption | cost_arith)
  · have h2 := h2 (by omega)
    refine .bind (.bind (.getObj (.distance fun _ _ => .ite (fun _ => ?_) fun _ => by omega)))
    simp only [if_neg hlt]
    refine .ite (fun hk => ?_) fun hk => ?_
    · unfold intoBack1
      vcost
      all_goals first
        | (refine ⟨rfl, ?_⟩; cost_arith)
        | (refine ⟨⟨?_, ?_, ?_, ?_, ?_, ?_⟩, ?_, ?_⟩ <;> first | assumption | cost_arith)
    · unfold intoBack2
      vcost
      all_goals first
        | (refine ⟨rfl, ?_⟩; cost_arith)
        | (refine ⟨⟨?_, ?_, ?_, ?_, ?_, ?_⟩, ?_, ?_⟩ <;> first | assumption | cost_arith)

/-- There is room for `k` elements at the end that is nearer to the position `i`. -/
def Near (f n b i k : Nat) : Prop := (i ≤ n - i → k ≤ f) ∧ (n - i ≤ i → k ≤ b)

instance (f n b i k : Nat) : Decidable (Near f n b i k) := by unfold Near; infer_instance

theorem insertAux_ends (h : Dim v f n b) {i k : Nat} {pos : Ptr} {px : Proxy α} (hp : pos.off = v.first.off + i) :
    Ends (insertAux E pos k px) (max (f + n + b) (2 * (n + k)))
      (t + 2 * k + min i (n - i) + if Near f n b i k then 0 else n + 1) v t := by
  by_cases hN : (i < n - i → k ≤ f) ∧ (n - i ≤ i → k ≤ b)
  · refine (insertAux_room h hp hN.1 hN.2).mono (fun _ v' t' hq => ?_) fun v' t' hq => ?_
    · obtain ⟨hq, ht, -⟩ := hq
      exact ⟨hq.fit (by (repeat' split) <;> omega), by omega⟩
    · obtain ⟨rfl, ht⟩ := hq
      exact ⟨h.fit (by omega), by omega⟩
  · have hN' : ¬ Near f n b i k := by unfold Near; omega
    rw [if_neg hN']
    have hd := h
    obtain ⟨g1, g2, g3, g4, g5, g6⟩ := h
    unfold insertAux availableFront availableBack
    refine .bind (.getObj (.bind (.assert fun hr => .bind (.distance fun _ _ => .ite (fun h0 => .pure ?_) fun h0 => .bind (.distance fun _ _ => ?_)))))
    · exact ⟨hd.fit (by omega), by omega⟩
    obtain ⟨r1, r2, r3⟩ := hr
    have e1 : pos.off - v.first.off = i := by omega
    have e2 : v.last.off - pos.off = n - i := by omega
    rw [e1, e2]
    refine .ite (fun hlt => ?_) fun hlt => ?_
    · refine .bind (.bind (.getObj (.distance fun _ _ => .ite (fun _ => by omega) fun _ => ?_)))
      exact (insertMoreFront_ends hd hp (by omega) (by omega)).mono (Nat.le_refl _) (by omega)
    · refine .bind (.bind (.getObj (.distance fun _ _ => .ite (fun _ => by omega) fun _ => ?_)))
      exact (insertMoreBack_ends hd hp (by omega) (by omega)).mono (Nat.le_refl _) (by omega)

theorem emplaceBackAux_ends (h : Dim v f n b) {a : Arg α} :
    Ends (emplaceBackAux E a) (max (f + n + b) (2 * (n + 1))) (t + 1 + if 0 < b then 0 else n + 3) v t := by
  refine (emplaceBackAux_cost h).mono (fun _ v' t' hq => ?_) fun v' t' hq => ?_
  · by_cases hb : 0 < b
    · rw [if_pos hb] at hq ⊢
      exact ⟨hq.1.fit (by omega), by omega⟩
    · rw [if_neg hb] at hq ⊢
      split at hq
      · exact ⟨hq.1.fit (by omega), by omega⟩
      · exact ⟨hq.1.fit (by omega), by omega⟩
  · obtain ⟨rfl, h1, h2⟩ := hq
    refine ⟨h.fit (by omega), ?_⟩
    split <;> omega

theorem emplaceFrontAux_ends (h : Dim v f n b) {a : Arg α} :
    Ends (emplaceFrontAux E a) (max (f + n + b) (2 * (n + 1))) (t + 1 + if 0 < f then 0 else n + 3) v t := by
  refine (emplaceFrontAux_cost h).mono (fun _ v' t' hq => ?_) fun v' t' hq => ?_
  · by_cases hb : 0 < f
    · rw [if_pos hb] at hq ⊢
      exact ⟨hq.1.fit (by omega), by omega⟩
    · rw [if_neg hb] at hq ⊢
      split at hq
      · exact ⟨hq.1.fit (by omega), by omega⟩
      · exact ⟨hq.1.fit (by omega), by omega⟩
  · obtain ⟨rfl, h1, h2⟩ := hq
    refine ⟨h.fit (by omega), ?_⟩
    split <;> omega

theorem emplace_ends (h : Dim v f n b) {i : Nat} {pos : Ptr} {a : Arg α} (hp : pos.off = v.first.off + i) :
    Ends (emplace E pos a) (max (f + n + b) (2 * (n + 1)))
      (t + 3 + min i (n - i) + if Near f n b i 1 then 0 else n + 3) v t := by
  have hd := h
  obtain ⟨g1, g2, g3, g4, g5, g6⟩ := h
  unfold emplace
  refine .bind (.getObj (.bind (.assert fun hr => .ite (fun h0 => ?_) fun h0 => .ite (fun h1 => ?_) fun h1 => .bind (.lift (.mkTmp (fun tmp => ?_) ?_)))))
  · subst h0
    refine (emplaceFrontAux_ends hd).mono (Nat.le_refl _) ?_
    by_cases hN : Near f n b i 1
    · rw [if_pos hN]; unfold Near at hN; split <;> omega
    · rw [if_neg hN]; split <;> omega
  · subst h1
    refine (emplaceBackAux_ends hd).mono (Nat.le_refl _) ?_
    by_cases hN : Near f n b i 1
    · rw [if_pos hN]; unfold Near at hN; split <;> omega
    · rw [if_neg hN]; split <;> omega
  · refine (insertAux_ends hd hp).mono (Nat.le_refl _) ?_
    (repeat' split) <;> omega
  · exact ⟨hd.fit (by omega), by omega⟩

theorem insertFillN_ends (h : Dim v f n b) {i k : Nat} {pos : Ptr} {a : Arg α} (hp : pos.off = v.first.off + i) :
    Ends (insertFillN E pos k a) (max (f + n + b) (2 * (n + k)))
      (t + 2 * k + min i (n - i) + if Near f n b i k then 0 else n + 1) v t :=
  .bind (.getObj (.bind (.assert fun _ => insertAux_ends h hp)))

theorem insertRange_ends (h : Dim v f n b) {i : Nat} {pos : Ptr} {as : List (Arg α)} (hp : pos.off = v.first.off + i) :
    Ends (insertRange E pos as) (max (f + n + b) (2 * (n + as.length)))
      (t + 2 * as.length + min i (n - i) + if Near f n b i as.length then 0 else n + 1) v t :=
  .bind (.getObj (.bind (.assert fun _ => insertAux_ends h hp)))

theorem erase_ends (h : Dim v f n b) {i : Nat} {pos : Ptr} (hp : pos.off = v.first.off + i) :
    Ends (erase E pos) (f + n + b) (t + min i (n - i)) v t := by
  obtain ⟨g1, g2, g3, g4, g5, g6⟩ := h
  unfold erase
  refine .bind (.getObj (.bind (.assert fun hr => ?_)))
  obtain ⟨⟨r1, r2, r3⟩, r4⟩ := hr
  vcost
  all_goals dfit

theorem eraseRange_ends (h : Dim v f n b) {i j : Nat} {p q : Ptr} (hp : p.off = v.first.off + i) (hq : q.off = v.first.off + j) :
    Ends (eraseRange E p q) (f + n + b) (t + min i (n - j)) v t := by
  obtain ⟨g1, g2, g3, g4, g5, g6⟩ := h
  unfold eraseRange
  refine .bind (.getObj (.bind (.assert fun hr => ?_)))
  obtain ⟨⟨r1, r2, r3⟩, r4, r5, r6, r7⟩ := hr
  vcost
  all_goals dfit

theorem clear_ends (h : Dim v f n b) : Ends (clear : DM α Unit) (f + n + b) t v t := by
  obtain ⟨g1, g2, g3, g4, g5, g6⟩ := h
  unfold clear
  vcost
  all_goals dfit

theorem popFront_ends (h : Dim v f n b) : Ends (popFront : DM α Unit) (f + n + b) t v t :=
  (popFront_cost h).mono (fun _ _ _ hq => ⟨hq.2.1.fit (by omega), by omega⟩) fun _ _ h => h.elim

theorem popBack_ends (h : Dim v f n b) : Ends (popBack : DM α Unit) (f + n + b) t v t :=
  (popBack_cost h).mono (fun _ _ _ hq => ⟨hq.2.1.fit (by omega), by omega⟩) fun _ _ h => h.elim

theorem relocate_cost (h : Dim v f n b) {m off : Nat} (hm : off + n ≤ m) :
    vcost (relocate E m off) (fun _ v' t' => Dim v' off n (m - off - n) ∧ t' ≤ t + n + 1)
      (fun v' t' => v' = v ∧ t' ≤ t + n + 1) v t := by
  obtain ⟨h1, h2, h3, h4, h5, h6⟩ := h
  unfold relocate replaceStorage
  vcost
  all_goals first
    | (refine ⟨rfl, ?_⟩; cost_arith)
    | (refine ⟨⟨?_, ?_, ?_, ?_, ?_, ?_⟩, ?_⟩ <;> cost_arith)

theorem growStorageBack_cost (h : Dim v f n b) {k : Nat} :
    vcost (growStorageBack E k) (fun _ v' t' => Dim v' f n (b + k) ∧ t' ≤ t + n + 1) (fun v' t' => v' = v ∧ t' ≤ t + n + 1) v t := by
  have hd := h
  obtain ⟨h1, h2, h3, h4, h5, h6⟩ := h
  unfold growStorageBack capacity availableFront
  refine .bind (.bind (.getObj (.distance fun _ _ => .ite (fun _ => .throw ⟨rfl, by omega⟩) fun _ => .bind (.bind (.getObj
    (.distance fun _ _ => ?_))))))
  refine (relocate_cost hd (by omega)).mono (fun _ v' t' hq => ⟨hq.1.cast (by omega) rfl (by omega), hq.2⟩) fun _ _ h => h

theorem growStorageFront_cost (h : Dim v f n b) {k : Nat} :
    vcost (growStorageFront E k) (fun _ v' t' => Dim v' (f + k) n b ∧ t' ≤ t + n + 1) (fun v' t' => v' = v ∧ t' ≤ t + n + 1) v t := by
  have hd := h
  obtain ⟨h1, h2, h3, h4, h5, h6⟩ := h
  unfold growStorageFront capacity
  refine .bind (.bind (.getObj (.distance fun _ _ => .ite (fun _ => .throw ⟨rfl, by omega⟩) fun _ => .bind (.getObj
    (.bind (.distance fun _ _ => ?_))))))
  refine (relocate_cost hd (by omega)).mono (fun _ v' t' hq => ⟨hq.1.cast (by omega) rfl (by omega), hq.2⟩) fun _ _ h => h

theorem reserveBack_cost (h : Dim v f n b) {m : Nat} :
    vcost (reserveBack E m) (fun _ v' t' => Dim v' f n (max b (m - n)) ∧ t' ≤ t + if m ≤ n + b then 0 else n + 1)
      (fun v' t' => v' = v ∧ t' ≤ t + if m ≤ n + b then 0 else n + 1) v t := by
  have hd := h
  obtain ⟨h1, h2, h3, h4, h5, h6⟩ := h
  unfold reserveBack availableFront availableBack size
  refine .bind (.bind (.getObj (.distance fun _ _ => .ite (fun _ => .throw ⟨rfl, by omega⟩) fun _ => .bind (.bind (.getObj
    (.distance fun _ _ => .bind (.bind (.getObj (.distance fun _ _ => ?_)))))))))
  refine .ite (fun hg => ?_) fun hg => .pure ?_
  · rw [if_neg (by omega)]
    exact (relocate_cost hd (by omega)).mono (fun _ v' t' hq => ⟨hq.1.cast (by omega) rfl (by omega), hq.2⟩) fun _ _ h => h
  · exact ⟨hd.cast rfl rfl (by omega), by omega⟩

theorem reserveFront_cost (h : Dim v f n b) {m : Nat} :
    vcost (reserveFront E m) (fun _ v' t' => Dim v' (max f (m - n)) n b ∧ t' ≤ t + if m ≤ n + f then 0 else n + 1)
      (fun v' t' => v' = v ∧ t' ≤ t + if m ≤ n + f then 0 else n + 1) v t := by
  have hd := h
  obtain ⟨h1, h2, h3, h4, h5, h6⟩ := h
  unfold reserveFront availableFront availableBack size
  refine .bind (.bind (.getObj (.distance fun _ _ => .ite (fun _ => .throw ⟨rfl, by omega⟩) fun _ => .bind (.bind (.getObj
    (.distance fun _ _ => .bind (.bind (.getObj (.distance fun _ _ => ?_)))))))))
  refine .ite (fun hg => ?_) fun hg => .pure ?_
  · rw [if_neg (by omega)]
    refine .bind (.getObj (.bind (.distance fun _ _ => ?_)))
    exact (relocate_cost hd (by omega)).mono (fun _ v' t' hq => ⟨hq.1.cast (by omega) rfl (by omega), hq.2⟩) fun _ _ h => h
  · exact ⟨hd.cast (by omega) rfl rfl, by omega⟩

theorem shrinkToFit_ends (h : Dim v f n b) : Ends (shrinkToFit E) (f + n + b) (t + if f + b = 0 then 0 else n + 1) v t := by
  have hd := h
  obtain ⟨h1, h2, h3, h4, h5, h6⟩ := h
  unfold shrinkToFit size capacity
  refine .bind (.bind (.getObj (.distance fun _ _ => .bind (.bind (.getObj (.distance fun _ _ => ?_))))))
  refine .ite (fun hg => ?_) fun hg => .pure ?_
  · rw [if_neg (by omega)]
    refine (relocate_cost hd (by omega)).mono (fun _ v' t' hq => ⟨hq.1.fit (by omega), hq.2⟩) fun _ _ hq => ?_
    obtain ⟨rfl, h⟩ := hq
    exact ⟨hd.fit (by omega), h⟩
  · exact ⟨hd.fit (by omega), by omega⟩

/-- Resize at one end. -/
theorem resizeBackWith_cost (h : Dim v f n b) {m : Nat} {a : Arg α} :
    vcost (resizeBackWith E m a)
      (fun _ v' t' => Dim v' f m (n + b - m) ∧ t' ≤ t + (m - n) + if m ≤ n + b then 0 else n + 1)
      (fun v' t' => Fit v' (max (f + n + b) (f + m)) ∧ t' ≤ t + (m - n) + if m ≤ n + b then 0 else n + 1) v t := by
  have hd := h
  obtain ⟨h1, h2, h3, h4, h5, h6⟩ := h
  unfold resizeBackWith size availableBack
  refine .bind (.getObj (.bind (.bind (.getObj (.distance fun _ _ => .ite (fun hle => ?_) fun hle => .bind (.bind (.getObj (.distance fun _ _ => ?_))))))))
  · rw [if_pos (by omega)]
    vcost
    refine ⟨⟨?_, ?_, ?_, ?_, ?_, ?_⟩, ?_⟩ <;> cost_arith
  · refine .ite (fun hg => .bind ?_) fun hg => .bind (.getObj ?_)
    · rw [if_neg (by omega)]
      refine (growStorageBack_cost hd).mono (fun _ v' t' hq => ?_) fun v' t' hq => ?_
      · obtain ⟨⟨k1, k2, k3, k4, k5, k6⟩, k7⟩ := hq
        refine .bind (.getObj ?_)
        vcost
        · refine ⟨⟨?_, ?_, ?_, ?_, ?_, ?_⟩, ?_⟩ <;> cost_arith
        · dfit
      · obtain ⟨rfl, ht⟩ := hq
        exact ⟨hd.fit (by omega), by omega⟩
    · rw [if_pos (by omega)]
      vcost
      · refine ⟨⟨?_, ?_, ?_, ?_, ?_, ?_⟩, ?_⟩ <;> cost_arith
      · dfit

theorem resizeFrontWith_cost (h : Dim v f n b) {m : Nat} {a : Arg α} :
    vcost (resizeFrontWith E m a)
      (fun _ v' t' => Dim v' (n + f - m) m b ∧ t' ≤ t + (m - n) + if m ≤ n + f then 0 else n + 1)
      (fun v' t' => Fit v' (max (f + n + b) (b + m)) ∧ t' ≤ t + (m - n) + if m ≤ n + f then 0 else n + 1) v t := by
  have hd := h
  obtain ⟨h1, h2, h3, h4, h5, h6⟩ := h
  unfold resizeFrontWith size availableFront
  refine .bind (.getObj (.bind (.bind (.getObj (.distance fun _ _ => .ite (fun hle => ?_) fun hle => .bind (.bind (.getObj (.distance fun _ _ => ?_))))))))
  · rw [if_pos (by omega)]
    vcost
    refine ⟨⟨?_, ?_, ?_, ?_, ?_, ?_⟩, ?_⟩ <;> cost_arith
  · refine .ite (fun hg => .bind ?_) fun hg => .bind (.getObj ?_)
    · rw [if_neg (by omega)]
      refine (growStorageFront_cost hd).mono (fun _ v' t' hq => ?_) fun v' t' hq => ?_
      · obtain ⟨⟨k1, k2, k3, k4, k5, k6⟩, k7⟩ := hq
        refine .bind (.getObj ?_)
        vcost
        · refine ⟨⟨?_, ?_, ?_, ?_, ?_, ?_⟩, ?_⟩ <;>
            (try simp only [Ptr.sub_blk (p := v'.first) (n := m - (v.last.off - v.first.off)) (by omega)]) <;> first | assumption | cost_arith
        · dfit
      · obtain ⟨rfl, ht⟩ := hq
        exact ⟨hd.fit (by omega), by omega⟩
    · rw [if_pos (by omega)]
      vcost
      · refine ⟨⟨?_, ?_, ?_, ?_, ?_, ?_⟩, ?_⟩ <;>
          (try simp only [Ptr.sub_blk (p := v.first) (n := m - (v.last.off - v.first.off)) (by omega)]) <;> first | assumption | cost_arith
      · dfit

theorem resizeWith_ends (h : Dim v f n b) {m : Nat} {a : Arg α} :
    Ends (resizeWith E m a) (max (f + n + b) m) (t + (m - n) + if m ≤ f + n + b then 0 else n + 1) v t := by
  have hd := h
  obtain ⟨h1, h2, h3, h4, h5, h6⟩ := h
  unfold resizeWith size availableFront availableBack
  refine .bind (.getObj (.bind (.bind (.getObj (.distance fun _ _ => .ite (fun hle => ?_) fun hle => .bind (.bind (.getObj (.distance fun _ _ => ?_))))))))
  · rw [if_pos (by omega)]
    vcost
    dfit
  · refine .ite (fun hg => ?_) fun hg => .bind (.bind (.getObj (.distance fun _ _ => .ite (fun hg' => ?_) fun hg' => ?_)))
    · rw [if_pos (by omega)]
      vcost
      all_goals dfit
    · rw [if_pos (by omega)]
      have : m - (v.last.off - v.first.off + (v.eos.off - v.last.off)) ≤ v.first.off := by omega
      vcost
      all_goals (refine ⟨⟨?_, ?_, ?_, ?_, ?_, ?_, ?_⟩, ?_⟩ <;> (try simp only [Ptr.sub_blk this]) <;> first | assumption | cost_arith)
    · rw [if_neg (by omega)]
      refine .bind ((growStorageBack_cost hd).mono (fun _ v' t' hq => ?_) fun v' t' hq => ?_)
      · obtain ⟨⟨k1, k2, k3, k4, k5, k6⟩, k7⟩ := hq
        refine .bind (.getObj ?_)
        vcost
        all_goals dfit
      · obtain ⟨rfl, ht⟩ := hq
        exact ⟨hd.fit (by omega), by omega⟩

theorem assignFillN_ends (h : Dim v f n b) {m : Nat} {a : Arg α} :
    Ends (assignFillN E m a) (max (f + n + b) m) (t + m + if m ≤ f + n + b then 0 else n + 1) v t := by
  have hd := h
  obtain ⟨h1, h2, h3, h4, h5, h6⟩ := h
  unfold assignFillN size availableFront availableBack
  refine .bind (.getObj (.bind (.bind (.getObj (.distance fun _ _ => .ite (fun hle => ?_) fun hle => .bind (.bind (.getObj (.distance fun _ _ => ?_))))))))
  · rw [if_pos (by omega)]
    vcost
    all_goals dfit
  · refine .ite (fun hg => ?_) fun hg => .bind (.bind (.getObj (.distance fun _ _ => .ite (fun hg' => ?_) fun hg' => ?_)))
    · rw [if_pos (by omega)]
      vcost
      all_goals dfit
    · rw [if_pos (by omega)]
      have : m - (v.last.off - v.first.off + (v.eos.off - v.last.off)) ≤ v.first.off := by omega
      vcost
      all_goals (refine ⟨⟨?_, ?_, ?_, ?_, ?_, ?_, ?_⟩, ?_⟩ <;> (try simp only [Ptr.sub_blk this]) <;> first | assumption | cost_arith)
    · rw [if_neg (by omega)]
      refine .bind ((growStorageBack_cost hd).mono (fun _ v' t' hq => ?_) fun v' t' hq => ?_)
      · obtain ⟨⟨k1, k2, k3, k4, k5, k6⟩, k7⟩ := hq
        refine .bind (.getObj ?_)
        vcost
        all_goals dfit
      · obtain ⟨rfl, ht⟩ := hq
        exact ⟨hd.fit (by omega), by omega⟩

theorem assignRange_ends (h : Dim v f n b) {as : List (Arg α)} :
    Ends (assignRange E as) (max (f + n + b) as.length) (t + as.length + if as.length ≤ f + n + b then 0 else n + 1) v t := by
  have hd := h
  obtain ⟨h1, h2, h3, h4, h5, h6⟩ := h
  unfold assignRange size availableFront availableBack
  refine .bind (.getObj (.bind (.bind (.getObj (.distance fun _ _ => .ite (fun hle => ?_) fun hle => .bind (.bind (.getObj (.distance fun _ _ => ?_))))))))
  · rw [if_pos (by omega)]
    vcost
    all_goals dfit
  · refine .ite (fun hg => ?_) fun hg => .bind (.bind (.getObj (.distance fun _ _ => .ite (fun hg' => ?_) fun hg' => ?_)))
    · rw [if_pos (by omega)]
      vcost <;> (try simp only [List.length_drop, List.length_take] at *) <;> dfit
    · rw [if_pos (by omega)]
      have : as.length - (v.last.off - v.first.off + (v.eos.off - v.last.off)) ≤ v.first.off := by omega
      vcost <;> (try simp only [List.length_drop, List.length_take] at *) <;>
        (refine ⟨⟨?_, ?_, ?_, ?_, ?_, ?_, ?_⟩, ?_⟩ <;> (try simp only [Ptr.sub_blk this]) <;> first | assumption | cost_arith)
    · rw [if_neg (by omega)]
      refine .bind ((growStorageBack_cost hd).mono (fun _ v' t' hq => ?_) fun v' t' hq => ?_)
      · obtain ⟨⟨k1, k2, k3, k4, k5, k6⟩, k7⟩ := hq
        refine .bind (.getObj ?_)
        vcost <;> (try simp only [List.length_drop, List.length_take] at *) <;> dfit
      · obtain ⟨rfl, ht⟩ := hq
        exact ⟨hd.fit (by omega), by omega⟩

end Devector
end Sfl
