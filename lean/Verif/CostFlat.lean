import Verif.CostVec2
import Verif.Flat
/-
  What the functions of the ordered flat containers do to the data members and the counter (of element operations,
  allocations and comparisons).
-/

namespace Sfl
variable {α κ : Type}

theorem cost.comp {E : Env α} {nt r : Bool} {Q : Bool → Nat → Prop} {X : Nat → Prop} {t : Nat} (h : Q r (t + 1)) (hX : X (t + 1)) :
    cost (comp E nt r) Q X t := by
  intro s hs; subst hs
  unfold Sfl.comp
  by_cases hc : (E.throws s.tick && !nt) = true
  · simp only [if_pos hc]; exact hX
  · simp only [if_neg hc]; exact h

theorem cost.argRead {a : Arg α} {Q : α → Nat → Prop} {X : Nat → Prop} {t : Nat} (h : ∀ x, Q x t) :
    cost (Flat.argRead a) Q X t := by
  intro s hs; subst hs
  unfold Flat.argRead
  cases a.value s with
  | none => trivial
  | some x => exact h x

theorem lowerBoundGo_cost {E : Env α} {nt : Bool} {lo : α → Bool} (fuel : Nat) : ∀ {p : Ptr} {len m t : Nat}, len < 2 ^ m →
    cost (lowerBoundGo E nt lo fuel p len) (fun q t' => q.off ≤ p.off + len ∧ t' ≤ t + m) (fun t' => t' ≤ t + m) t := by
  induction fuel with
  | zero => intro p len m t _; exact .pure ⟨by omega, by omega⟩
  | succ fuel ih =>
    intro p len m t hm
    unfold lowerBoundGo
    refine .ite (fun _ => .pure ⟨by omega, by omega⟩) fun h0 => ?_
    cases m with
    | zero => simp at hm; omega
    | succ m =>
      rw [Nat.pow_succ] at hm
      refine .bind (.readAt fun e => .bind (.comp (.ite (fun _ => ?_) fun _ => ?_) (by omega)))
      all_goals
        refine (ih (m := m) (by omega)).mono (fun _ _ h => ?_) fun _ h => by omega
        (try simp only [Ptr.add_off] at h)
        omega

theorem upperBoundGo_cost {E : Env α} {nt : Bool} {lo : α → Bool} (fuel : Nat) : ∀ {p : Ptr} {len m t : Nat}, len < 2 ^ m →
    cost (upperBoundGo E nt lo fuel p len) (fun _ t' => t' ≤ t + m) (fun t' => t' ≤ t + m) t := by
  induction fuel with
  | zero => intro p len m t _; exact .pure (by omega)
  | succ fuel ih =>
    intro p len m t hm
    unfold upperBoundGo
    refine .ite (fun _ => .pure (by omega)) fun h0 => ?_
    cases m with
    | zero => simp at hm; omega
    | succ m =>
      rw [Nat.pow_succ] at hm
      refine .bind (.readAt fun e => .bind (.comp (.ite (fun _ => ?_) fun _ => ?_) (by omega)))
      all_goals
        refine (ih (m := m) (by omega)).mono (fun _ _ h => ?_) fun _ h => ?_ <;> omega

theorem equalRangeGo_cost {E : Env α} {nt : Bool} {P : Probe α} (fuel : Nat) : ∀ {p : Ptr} {len m t : Nat}, len < 2 ^ m →
    cost (equalRangeGo E nt P fuel p len) (fun _ t' => t' ≤ t + 2 * m) (fun t' => t' ≤ t + 2 * m) t := by
  induction fuel with
  | zero => intro p len m t _; exact .pure (by omega)
  | succ fuel ih =>
    intro p len m t hm
    unfold equalRangeGo
    refine .ite (fun _ => .pure (by omega)) fun h0 => ?_
    cases m with
    | zero => simp at hm; omega
    | succ m =>
      rw [Nat.pow_succ] at hm
      refine .bind (.readAt fun e => .bind (.comp (.ite (fun _ => ?_) fun _ => .bind (.comp (.ite (fun _ => ?_) fun _ => ?_)
        (by omega))) (by omega)))
      · refine (ih (m := m) (by omega)).mono (fun _ _ h => ?_) fun _ h => ?_ <;> omega
      · refine (ih (m := m) (by omega)).mono (fun _ _ h => ?_) fun _ h => ?_ <;> omega
      · refine .bind ((lowerBoundGo_cost _ (m := m) (by omega)).mono (fun _ t1 h1 => ?_) fun _ h => by omega)
        refine .bind ((upperBoundGo_cost _ (m := m) (by omega)).mono (fun _ t2 h2 => .pure ?_) fun _ h => ?_) <;> omega

namespace Flat
open Sfl.Vector (VM)
open SmallVector (Dim Fit Ends newCapacity_le)
variable {E : Env α} {C : Order α κ} {P : Probe α} {v : Vec} {n r t ib N : Nat}

/-- Number of comparisons of a binary search in `n` elements. -/
def steps (n : Nat) : Nat := Nat.log2 n + 1

theorem lt_steps (n : Nat) : n < 2 ^ steps n := Nat.lt_log2_self

theorem steps_mono {m n : Nat} (h : m ≤ n) : steps m ≤ steps n := by
  unfold steps
  rcases Nat.eq_zero_or_pos m with rfl | hm
  · simp
  · have : m.log2 ≤ n.log2 := (Nat.le_log2 (by omega)).mpr (Nat.le_trans (Nat.log2_self_le (by omega)) h)
    omega

/-- A function that looks at the elements and changes nothing. -/
abbrev Looks {β : Type} (m : VM α β) (W : Nat) (v : Vec) (t : Nat) : Prop :=
  vcost m (fun _ v' t' => v' = v ∧ t' ≤ W) (fun v' t' => v' = v ∧ t' ≤ W) v t

theorem lowerBound_cost (h : Dim v n r) :
    vcost (lowerBound C E P) (fun p v' t' => v' = v ∧ p.off ≤ v.last.off ∧ t' ≤ t + steps n) (fun v' t' => v' = v ∧ t' ≤ t + steps n)
      v t := by
  unfold lowerBound
  refine .bind (.getObj (.bind (.distance fun _ _ => .lift ?_)))
  have hl := h.last
  have : v.last.off - v.first.off = n := by omega
  rw [this]
  exact (lowerBoundGo_cost _ (lt_steps n)).mono (fun _ _ h => ⟨rfl, by omega, h.2⟩) fun _ h => ⟨rfl, h⟩

theorem lowerBoundGo_ge {nt : Bool} {lo : α → Bool} (fuel : Nat) : ∀ {p : Ptr} {len t : Nat},
    cost (lowerBoundGo E nt lo fuel p len) (fun _ t' => t ≤ t') (fun _ => True) t := by
  induction fuel with
  | zero => intro p len t; exact .pure (by omega)
  | succ fuel ih =>
    intro p len t
    unfold lowerBoundGo
    refine .ite (fun _ => .pure (by omega)) fun h0 => ?_
    refine .bind (.readAt fun e => .bind (.comp (.ite (fun _ => ?_) fun _ => ?_) trivial))
    all_goals exact ih.mono (fun _ _ h => by omega) fun _ _ => trivial

theorem lowerBound_ge : vcost (lowerBound C E P) (fun _ _ t' => t ≤ t') (fun _ _ => True) v t := by
  unfold lowerBound
  refine .bind (.getObj (.bind (.distance fun _ _ => .lift ?_)))
  exact (lowerBoundGo_ge _).mono (fun _ _ h => h) fun _ _ => trivial

theorem missing_ge {it : Ptr} : vcost (missing C E P it) (fun _ _ t' => t ≤ t') (fun _ _ => True) v t := by
  unfold missing
  refine .bind (.getObj (.ite (fun _ => .pure (by omega)) fun _ => .bind (.lift (.readAt fun e => .lift ?_))))
  exact .comp (by omega) trivial

theorem lowerBound_looks (h : Dim v n r) : Looks (lowerBound C E P) (t + steps n) v t :=
  vcost.mono (lowerBound_cost h) (fun _ _ _ h => ⟨h.1, h.2.2⟩) fun _ _ h => h

theorem upperBound_looks (h : Dim v n r) : Looks (upperBound C E P) (t + steps n) v t := by
  unfold upperBound
  refine .bind (.getObj (.bind (.distance fun _ _ => .lift ?_)))
  have : v.last.off - v.first.off = n := by have := h.last; omega
  rw [this]
  exact (upperBoundGo_cost _ (lt_steps n)).mono (fun _ _ h => ⟨rfl, h⟩) fun _ h => ⟨rfl, h⟩

theorem equalRange_looks (h : Dim v n r) : Looks (equalRange C E P) (t + 2 * steps n) v t := by
  unfold equalRange
  refine .bind (.getObj (.bind (.distance fun _ _ => .lift ?_)))
  have : v.last.off - v.first.off = n := by have := h.last; omega
  rw [this]
  exact (equalRangeGo_cost _ (lt_steps n)).mono (fun _ _ h => ⟨rfl, h⟩) fun _ h => ⟨rfl, h⟩

theorem missing_looks {it : Ptr} : Looks (missing C E P it) (t + 1) v t := by
  unfold missing
  refine .bind (.getObj (.ite (fun _ => .pure ⟨rfl, by omega⟩) fun _ => .bind (.lift (.readAt fun e => .lift ?_))))
  exact .comp ⟨rfl, by omega⟩ ⟨rfl, by omega⟩

/-- Functions that only look, one after the other. -/
theorem looks_bind {β γ : Type} {m : VM α β} {f : β → VM α γ} {W : Nat} {Q : γ → Vec → Nat → Prop} {X : Vec → Nat → Prop}
    (h : Looks m W v t) (hX : ∀ t', t' ≤ W → X v t') (hf : ∀ b t', t' ≤ W → vcost (f b) Q X v t') :
    vcost (m >>= f) Q X v t :=
  .bind (vcost.mono h (fun b v' t' hq => by obtain ⟨rfl, hq⟩ := hq; exact hf b t' hq) fun v' t' hq => by
    obtain ⟨rfl, hq⟩ := hq; exact hX t' hq)

theorem find_looks (h : Dim v n r) : Looks (find C E P) (t + steps n + 1) v t := by
  unfold find
  refine .bind (vcost.mono (lowerBound_looks h) (fun it v1 t1 hq => ?_) fun v' t' hq => ⟨hq.1, by omega⟩)
  obtain ⟨rfl, hq⟩ := hq
  refine .bind (vcost.mono missing_looks (fun b v2 t2 hq => ?_) fun v' t' hq => ⟨hq.1, by omega⟩)
  obtain ⟨rfl, hq⟩ := hq
  exact .bind (.getObj (.pure ⟨rfl, by omega⟩))

theorem hintLeft_looks {it : Ptr} : Looks (hintLeft C E P it) (t + 1) v t := by
  unfold hintLeft
  refine .bind (.getObj (.ite (fun _ => .pure ⟨rfl, by omega⟩) fun _ => .bind (.lift (.readAt fun e => .lift ?_))))
  exact .comp ⟨rfl, by omega⟩ ⟨rfl, by omega⟩

theorem hintUnique_looks {it : Ptr} : Looks (hintUnique C E P it) (t + 2) v t := by
  unfold hintUnique
  refine .bind (vcost.mono hintLeft_looks (fun b v1 t1 hq => ?_) fun v' t' hq => ⟨hq.1, by omega⟩)
  obtain ⟨rfl, hq⟩ := hq
  refine .ite (fun _ => ?_) fun _ => .pure ⟨rfl, by omega⟩
  exact vcost.mono missing_looks (fun _ _ _ hq => ⟨hq.1, by omega⟩) fun _ _ hq => ⟨hq.1, by omega⟩

theorem equivAt_cost {it : Ptr} : cost (equivAt C E P it) (fun _ t' => t' ≤ t + 2) (fun t' => t' ≤ t + 2) t := by
  unfold equivAt
  refine .bind (.readAt fun e => .bind (.comp (.ite (fun _ => .pure ?_) fun _ => .bind (.comp (.pure ?_) ?_)) ?_)) <;> omega

theorem hintHere_looks {it : Ptr} : Looks (hintHere C E P it) (t + 2) v t := by
  unfold hintHere
  refine .bind (.getObj (.ite (fun _ => .lift ?_) fun _ => .pure ⟨rfl, by omega⟩))
  exact equivAt_cost.mono (fun _ _ h => ⟨rfl, h⟩) fun _ h => ⟨rfl, h⟩

theorem hintBefore_looks {it : Ptr} : Looks (hintBefore C E P it) (t + 2) v t := by
  unfold hintBefore
  refine .bind (.getObj (.ite (fun _ => .lift ?_) fun _ => .pure ⟨rfl, by omega⟩))
  exact equivAt_cost.mono (fun _ _ h => ⟨rfl, h⟩) fun _ h => ⟨rfl, h⟩

theorem hintMulti_looks {it : Ptr} : Looks (hintMulti C E P it) (t + 6) v t := by
  unfold hintMulti
  refine .bind (vcost.mono hintHere_looks (fun b v1 t1 hq => ?_) fun v' t' hq => ⟨hq.1, by omega⟩)
  obtain ⟨rfl, hq⟩ := hq
  refine .ite (fun _ => .pure ⟨rfl, by omega⟩) fun _ => ?_
  refine .bind (vcost.mono hintBefore_looks (fun b v1 t1 hq => ?_) fun v' t' hq => ⟨hq.1, by omega⟩)
  obtain ⟨rfl, hq⟩ := hq
  refine .ite (fun _ => .pure ⟨rfl, by omega⟩) fun _ => ?_
  exact vcost.mono hintUnique_looks (fun _ _ _ hq => ⟨hq.1, by omega⟩) fun _ _ hq => ⟨hq.1, by omega⟩

theorem hintGood_looks {K : Kind α} {it : Ptr} : Looks (hintGood K C E P it) (t + 6) v t := by
  unfold hintGood
  refine .ite (fun _ => hintMulti_looks) fun _ => ?_
  exact vcost.mono hintUnique_looks (fun _ _ _ hq => ⟨hq.1, by omega⟩) fun _ _ hq => ⟨hq.1, by omega⟩

/-- The pointers delimit at most `S` elements in a storage of at most `B` slots. -/
structure Lim (v : Vec) (S B : Nat) : Prop where
  fit : Fit v B
  size : v.last.off - v.first.off ≤ S

theorem Lim.dim {S B : Nat} (h : Lim v S B) : ∃ n r, Dim v n r ∧ n ≤ S ∧ n + r ≤ B := by
  obtain ⟨⟨h1, h2, h3, h4, h5⟩, h6⟩ := h
  exact ⟨v.last.off - v.first.off, v.eos.off - v.last.off, ⟨h1, h2, by omega, by omega⟩, h6, by omega⟩

theorem Lim.of (h : Dim v n r) : Lim v n (n + r) := by
  obtain ⟨h1, h2, h3, h4⟩ := h
  exact ⟨⟨h1, h2, by omega, by omega, by omega⟩, by omega⟩

theorem Lim.mono {S B S' B' : Nat} (h : Lim v S B) (hS : S ≤ S') (hB : B ≤ B') : Lim v S' B' := by
  obtain ⟨⟨h1, h2, h3, h4, h5⟩, h6⟩ := h
  exact ⟨⟨h1, h2, h3, h4, by omega⟩, by omega⟩

/-- A modifier ends, in whichever way, with at most `S` elements, within `B` slots and before the counter passes `W`. -/
abbrev Stays {β : Type} (m : VM α β) (S B W : Nat) (v : Vec) (t : Nat) : Prop :=
  vcost m (fun _ v' t' => Lim v' S B ∧ t' ≤ W) (fun v' t' => Lim v' S B ∧ t' ≤ W) v t

theorem Stays.mono {β : Type} {m : VM α β} {S B W S' B' W' : Nat} (h : Stays m S B W v t) (hS : S ≤ S') (hB : B ≤ B')
    (hW : W ≤ W') : Stays m S' B' W' v t :=
  vcost.mono h (fun _ _ _ h => ⟨h.1.mono hS hB, by omega⟩) fun _ _ h => ⟨h.1.mono hS hB, by omega⟩

theorem Looks.stays {β : Type} {m : VM α β} {W : Nat} (h : Looks m W v t) (hd : Dim v n r) : Stays m n (n + r) W v t :=
  vcost.mono h (fun _ _ _ hq => by obtain ⟨rfl, hq⟩ := hq; exact ⟨.of hd, hq⟩) fun _ _ hq => by
    obtain ⟨rfl, hq⟩ := hq; exact ⟨.of hd, hq⟩

/-- Storage after an insertion of one element. -/
def grown (N n r : Nat) : Nat := if 0 < r then n + r else max N (n + 1 + (n + 1) / 2)

/-- What the guard and `insert_exactly_at` have to do with the data members and the counter. -/
structure Kind.Costs (K : Kind α) (N : Nat) : Prop where
  guard : ∀ {v : Vec} {t : Nat}, vcost K.guard (fun _ v' t' => v' = v ∧ t' = t) (fun _ _ => False) v t
  ins : ∀ {v : Vec} {n r t : Nat} {pos : Ptr} {a : Arg α}, Dim v n r → pos.off ≤ v.last.off →
    Stays (K.ins pos a) (n + 1) (grown N n r) (t + n + 3) v t
  lower : ∀ {v : Vec} {n r t : Nat} {pos : Ptr} {a : Arg α}, Dim v n r → pos.off ≤ v.last.off →
    vcost (K.ins pos a) (fun p v' t' => t + (n - (p.off - v'.first.off)) ≤ t') (fun _ _ => True) v t

macro "lim" : tactic => `(tactic| (
  (try refine ⟨⟨⟨?_, ?_, ?_, ?_, ?_⟩, ?_⟩, ?_⟩) <;>
  (try simp only [grown, Ptr.add_off, Ptr.sub_off, Ptr.add_blk, Ptr.null_off] at *) <;> (repeat' split) <;> omega))

theorem insertInPlace_stays {temp : Bool} {pos : Ptr} {a : Arg α} (h : Dim v n r) (hr : 0 < r) :
    Stays (insertInPlace temp E pos a) (n + 1) (n + r) (t + n + 3) v t := by
  obtain ⟨h1, h2, h3, h4⟩ := h
  unfold insertInPlace insertMiddle
  vcost <;> lim

theorem insertExactlyAt_stays {temp : Bool} {pos : Ptr} {a : Arg α} (h : Dim v n r) (hp : pos.off ≤ v.last.off) :
    Stays (insertExactlyAt temp E ib N pos a) (n + 1) (grown N n r) (t + n + 3) v t := by
  have hd := h
  obtain ⟨h1, h2, h3, h4⟩ := h
  unfold insertExactlyAt
  refine .bind (.getObj (.ite (fun hne => ?_) fun he => ?_))
  · have hr : 0 < r := by have := Ptr.off_ne (by rw [h1, h2]) hne; omega
    unfold grown
    rw [if_pos hr]
    exact insertInPlace_stays hd hr
  · have hr : r = 0 := by
      have he : v.last = v.eos := by simpa using he
      rw [he] at h3; omega
    subst hr
    refine .bind (.distance fun _ _ => ?_)
    unfold SmallVector.calculateNewCapacity Vector.size Vector.capacity
    refine .bind (.bind (.bind (.getObj (.distance fun _ _ => .bind (.bind (.getObj (.distance fun _ _ => ?_)))))))
    have e1 : v.last.off - v.first.off = n := by omega
    have e2 : v.eos.off - v.first.off = n := by omega
    rw [e1, e2]
    cases hc : SmallVector.newCapacity N E.maxSize n n 1 with
    | none => refine .throw ?_; lim
    | some c =>
      have k1 := newCapacity_le hc Nat.one_pos
      dsimp only
      unfold SmallVector.newStorage SmallVector.replaceStorage
      vcost <;> lim

theorem insertStatic_stays {temp : Bool} {pos : Ptr} {a : Arg α} (h : Dim v n r) :
    Stays (insertStatic temp E pos a) (n + 1) (grown N n r) (t + n + 3) v t := by
  unfold insertStatic
  refine .bind (.getObj (.bind (.assert fun hne => .bind (.assert fun hin => ?_))))
  have hr : 0 < r := by
    have := Ptr.off_ne (by rw [h.blk1, h.blk2]) hne
    have := h.last
    have := h.eos
    omega
  unfold grown
  rw [if_pos hr]
  exact insertInPlace_stays h hr

/-- An insertion moves at least the elements behind it. -/
theorem insertInPlace_lower {temp : Bool} {pos : Ptr} {a : Arg α} (h : Dim v n r) :
    vcost (insertInPlace temp E pos a) (fun p v' t' => t + (n - (p.off - v'.first.off)) ≤ t') (fun _ _ => True) v t := by
  obtain ⟨h1, h2, h3, h4⟩ := h
  unfold insertInPlace insertMiddle
  refine .bind (.getObj (.bind (.distance fun _ _ => .ite (fun he => ?_) fun _ => ?_)))
  · have he := congrArg Ptr.off he
    vcost <;> first | trivial | (try simp only [Ptr.add_off] at *) <;> omega
  · vcost <;> first | trivial | (try simp only [Ptr.add_off, Ptr.sub_off, Ptr.add_blk] at *) <;> omega

theorem insertExactlyAt_lower {temp : Bool} {pos : Ptr} {a : Arg α} (h : Dim v n r) (hp : pos.off ≤ v.last.off) :
    vcost (insertExactlyAt temp E ib N pos a) (fun p v' t' => t + (n - (p.off - v'.first.off)) ≤ t') (fun _ _ => True) v t := by
  have hd := h
  obtain ⟨h1, h2, h3, h4⟩ := h
  unfold insertExactlyAt
  refine .bind (.getObj (.ite (fun hne => insertInPlace_lower hd) fun he => ?_))
  refine .bind (.distance fun _ _ => ?_)
  unfold SmallVector.calculateNewCapacity Vector.size Vector.capacity
  refine .bind (.bind (.bind (.getObj (.distance fun _ _ => .bind (.bind (.getObj (.distance fun _ _ => ?_)))))))
  cases hc : SmallVector.newCapacity N E.maxSize (v.last.off - v.first.off) (v.eos.off - v.first.off) 1 with
  | none => exact .throw trivial
  | some c =>
    dsimp only
    unfold SmallVector.newStorage SmallVector.replaceStorage
    vcost <;> first | trivial | (try simp only [Ptr.add_off, Ptr.sub_off, Ptr.add_blk, Ptr.null_off] at *) <;> omega

theorem insertStatic_lower {temp : Bool} {pos : Ptr} {a : Arg α} (h : Dim v n r) :
    vcost (insertStatic temp E pos a) (fun p v' t' => t + (n - (p.off - v'.first.off)) ≤ t') (fun _ _ => True) v t := by
  unfold insertStatic
  exact .bind (.getObj (.bind (.assert fun hne => .bind (.assert fun hin => insertInPlace_lower h))))

theorem small_costs (multi : Bool) (E : Env α) (ib N : Nat) : (small multi E ib N).Costs N :=
  ⟨.pure ⟨rfl, rfl⟩, fun h hp => insertExactlyAt_stays h hp, fun h hp => insertExactlyAt_lower h hp⟩

theorem static_costs (multi : Bool) (E : Env α) (N : Nat) : (static multi E).Costs N :=
  ⟨.bind (.getObj (.assert fun _ => ⟨rfl, rfl⟩)), fun h _ => insertStatic_stays h, fun h _ => insertStatic_lower h⟩

section
variable {K : Kind α}

/-- Storage after the insertion of one element, at least the storage before. -/
theorem le_grown : n + r ≤ grown N n r := by
  unfold grown; split <;> omega

theorem insertAux_stays (hK : K.Costs N) {a : Arg α} (h : Dim v n r) :
    Stays (insertAux K C E a) (n + 1) (grown N n r) (t + n + steps n + 4) v t := by
  have hg := @le_grown n r N
  unfold insertAux
  refine .bind (.lift (.argRead fun x => .bind (vcost.mono (lowerBound_cost h) (fun it v1 t1 hq => ?_) fun v1 t1 hq => ?_)))
  rotate_left
  · obtain ⟨rfl, hq⟩ := hq
    exact ⟨(Lim.of h).mono (by omega) hg, by omega⟩
  obtain ⟨rfl, hi, hq⟩ := hq
  refine .ite (fun _ => .bind (vcost.mono (hK.ins h hi) (fun p v2 t2 hq => .pure ⟨hq.1, by omega⟩) fun v2 t2 hq => ⟨hq.1, by omega⟩))
    fun _ => ?_
  refine looks_bind missing_looks (fun t' ht => ⟨(Lim.of h).mono (by omega) hg, by omega⟩) fun b t' ht => .ite (fun _ => ?_) fun _ => ?_
  · exact .bind (vcost.mono (hK.ins h hi) (fun p v2 t2 hq => .pure ⟨hq.1, by omega⟩) fun v2 t2 hq => ⟨hq.1, by omega⟩)
  · exact .pure ⟨(Lim.of h).mono (by omega) hg, by omega⟩

theorem insertAux_lower (hK : K.Costs N) {a : Arg α} (h : Dim v n r) :
    vcost (insertAux K C E a) (fun r v' t' => r.2 = true → t + (n - (r.1.off - v'.first.off)) ≤ t') (fun _ _ => True) v t := by
  unfold insertAux
  have hl : ∀ {m : VM α Ptr} {t1 : Nat}, vcost m (fun p v' t' => t1 + (n - (p.off - v'.first.off)) ≤ t') (fun _ _ => True) v t1 →
      t ≤ t1 → vcost (m >>= fun p => pure (p, true)) (fun r v' t' => r.2 = true → t + (n - (r.1.off - v'.first.off)) ≤ t')
        (fun _ _ => True) v t1 := fun hm ht =>
    .bind (vcost.mono hm (fun p v2 t2 hq => .pure fun _ => by dsimp only; omega) fun _ _ _ => trivial)
  refine .bind (.lift (.argRead fun x => .bind (vcost.mono (((lowerBound_cost h).and lowerBound_ge)) (fun it v1 t1 hq => ?_)
    fun v1 t1 hq => trivial)))
  obtain ⟨⟨rfl, hi, -⟩, hq⟩ := hq
  refine .ite (fun _ => hl (hK.lower h hi) hq) fun _ => .bind (vcost.mono (missing_looks.and missing_ge) (fun b v2 t2 hq2 => ?_) fun v1 t1 hq => trivial)
  obtain ⟨⟨rfl, -⟩, hq2⟩ := hq2
  exact .ite (fun _ => hl (hK.lower h hi) (by omega)) fun _ => .pure (by simp)

theorem insertAuxHint_stays (hK : K.Costs N) {a : Arg α} {it : Ptr} (h : Dim v n r) (hi : it.off ≤ v.last.off) :
    Stays (insertAuxHint K C E it a) (n + 1) (grown N n r) (t + n + steps n + 10) v t := by
  have hg := @le_grown n r N
  unfold insertAuxHint
  refine .bind (.lift (.argRead fun x => looks_bind hintGood_looks (fun t' ht => ⟨(Lim.of h).mono (by omega) hg, by omega⟩)
    fun b t' ht => .ite (fun _ => ?_) fun _ => ?_))
  · exact Stays.mono (hK.ins h hi) (by omega) (by omega) (by omega)
  · exact .bind (vcost.mono (insertAux_stays hK h) (fun p v2 t2 hq => .pure ⟨hq.1, by omega⟩) fun v2 t2 hq => ⟨hq.1, by omega⟩)

theorem insertNew_stays (hK : K.Costs N) {x : α} {it : Ptr} (h : Dim v n r) (hi : it.off ≤ v.last.off) :
    Stays (insertNew K E it x) (n + 1) (grown N n r) (t + n + 4) v t := by
  have hg := @le_grown n r N
  unfold insertNew
  refine .bind (.lift (.mkTmp (fun tmp => ?_) ⟨(Lim.of h).mono (by omega) hg, by omega⟩))
  exact Stays.mono (hK.ins h hi) (by omega) (by omega) (by omega)

theorem tryEmplaceAux_stays (hK : K.Costs N) {x : α} (h : Dim v n r) :
    Stays (tryEmplaceAux K C E x) (n + 1) (grown N n r) (t + n + steps n + 5) v t := by
  have hg := @le_grown n r N
  unfold tryEmplaceAux
  refine .bind (vcost.mono (lowerBound_cost h) (fun it v1 t1 hq => ?_) fun v1 t1 hq => ?_)
  rotate_left
  · obtain ⟨rfl, hq⟩ := hq
    exact ⟨(Lim.of h).mono (by omega) hg, by omega⟩
  obtain ⟨rfl, hi, hq⟩ := hq
  refine looks_bind missing_looks (fun t' ht => ⟨(Lim.of h).mono (by omega) hg, by omega⟩) fun b t' ht => .ite (fun _ => ?_) fun _ => ?_
  · exact .bind (vcost.mono (insertNew_stays hK h hi) (fun p v2 t2 hq => .pure ⟨hq.1, by omega⟩) fun v2 t2 hq => ⟨hq.1, by omega⟩)
  · exact .pure ⟨(Lim.of h).mono (by omega) hg, by omega⟩

theorem tryEmplaceAuxHint_stays (hK : K.Costs N) {x : α} {it : Ptr} (h : Dim v n r) (hi : it.off ≤ v.last.off) :
    Stays (tryEmplaceAuxHint K C E it x) (n + 1) (grown N n r) (t + n + steps n + 11) v t := by
  have hg := @le_grown n r N
  unfold tryEmplaceAuxHint
  refine looks_bind hintGood_looks (fun t' ht => ⟨(Lim.of h).mono (by omega) hg, by omega⟩)
    fun b t' ht => .ite (fun _ => ?_) fun _ => ?_
  · exact Stays.mono (insertNew_stays hK h hi) (by omega) (by omega) (by omega)
  · exact .bind (vcost.mono (tryEmplaceAux_stays hK h) (fun p v2 t2 hq => .pure ⟨hq.1, by omega⟩) fun v2 t2 hq => ⟨hq.1, by omega⟩)

theorem assignMapped_cost {p : Ptr} {x : α} {Q : Unit → Nat → Prop} {X : Nat → Prop} (h : Q () (t + 1)) (hX : X (t + 1)) :
    cost (assignMapped C E p x) Q X t := by
  intro s hs; subst hs
  unfold assignMapped
  cases s.mem p.blk p.off with
  | none => trivial
  | some old =>
    by_cases hc : E.throws s.tick = true
    · simp only [if_pos hc]; exact hX
    · simp only [if_neg hc]; exact h

theorem insertOrAssignAux_stays (hK : K.Costs N) {x : α} (h : Dim v n r) :
    Stays (insertOrAssignAux K C E x) (n + 1) (grown N n r) (t + n + steps n + 5) v t := by
  have hg := @le_grown n r N
  unfold insertOrAssignAux
  refine .bind (vcost.mono (lowerBound_cost h) (fun it v1 t1 hq => ?_) fun v1 t1 hq => ?_)
  rotate_left
  · obtain ⟨rfl, hq⟩ := hq
    exact ⟨(Lim.of h).mono (by omega) hg, by omega⟩
  obtain ⟨rfl, hi, hq⟩ := hq
  refine looks_bind missing_looks (fun t' ht => ⟨(Lim.of h).mono (by omega) hg, by omega⟩) fun b t' ht => .ite (fun _ => ?_) fun _ => ?_
  · exact .bind (vcost.mono (insertNew_stays hK h hi) (fun p v2 t2 hq => .pure ⟨hq.1, by omega⟩) fun v2 t2 hq => ⟨hq.1, by omega⟩)
  · refine .bind (.lift (assignMapped_cost (.pure ⟨(Lim.of h).mono (by omega) hg, by omega⟩) ⟨(Lim.of h).mono (by omega) hg, by omega⟩))

theorem insertOrAssignAuxHint_stays (hK : K.Costs N) {x : α} {it : Ptr} (h : Dim v n r) (hi : it.off ≤ v.last.off) :
    Stays (insertOrAssignAuxHint K C E it x) (n + 1) (grown N n r) (t + n + steps n + 11) v t := by
  have hg := @le_grown n r N
  unfold insertOrAssignAuxHint
  refine looks_bind hintGood_looks (fun t' ht => ⟨(Lim.of h).mono (by omega) hg, by omega⟩)
    fun b t' ht => .ite (fun _ => ?_) fun _ => ?_
  · exact Stays.mono (insertNew_stays hK h hi) (by omega) (by omega) (by omega)
  · exact .bind (vcost.mono (insertOrAssignAux_stays hK h) (fun p v2 t2 hq => .pure ⟨hq.1, by omega⟩) fun v2 t2 hq => ⟨hq.1, by omega⟩)

/-- One insertion after the other. -/
theorem insertRange_stays (hK : K.Costs N) (vs : List α) : ∀ {v : Vec} {n r t S B : Nat}, Dim v n r → n + vs.length ≤ S →
    n + r ≤ B → max N (S + S / 2) ≤ B →
    Stays (insertRange K C E vs) S B (t + vs.length * (S + steps S + 4)) v t := by
  induction vs with
  | nil => intro v n r t S B h hS hB _; exact .pure ⟨(Lim.of h).mono hS hB, by simp⟩
  | cons x vs ih =>
    intro v n r t S B h hS hB hm
    simp only [List.length_cons] at hS
    have hs := steps_mono (m := n) (n := S) (by omega)
    have hg : grown N n r ≤ B := by unfold grown; split <;> omega
    unfold insertRange
    rw [List.length_cons, Nat.succ_mul]
    refine .bind (vcost.mono hK.guard (fun _ v1 t1 hq => ?_) fun _ _ hq => hq.elim)
    obtain ⟨rfl, rfl⟩ := hq
    refine .bind (vcost.mono (insertAux_stays hK h) (fun p v2 t2 hq => ?_) fun v2 t2 hq => ⟨hq.1.mono (by omega) hg, by omega⟩)
    obtain ⟨n', r', hd, hn, hr⟩ := hq.1.dim
    exact Stays.mono (ih hd (S := S) (B := B) (by omega) (by omega) hm) (by omega) (by omega) (by omega)

theorem eraseAt_cost (h : Dim v n r) {pos : Ptr} :
    vcost (Vector.eraseAt E pos)
      (fun p v' t' => p = pos ∧ v'.first = v.first ∧ Dim v' (n - 1) (r + 1) ∧ (v.first.off ≤ pos.off ∧ pos.off < v.last.off) ∧
        t' + 1 + (pos.off - v.first.off) = t + n)
      (fun v' t' => v' = v ∧ (v.first.off ≤ pos.off ∧ pos.off < v.last.off) ∧ t' + 1 + (pos.off - v.first.off) ≤ t + n) v t := by
  obtain ⟨h1, h2, h3, h4⟩ := h
  unfold Vector.eraseAt
  refine .bind (.getObj (.bind (.assert fun hin => ?_)))
  obtain ⟨g1, g2, g3⟩ := hin
  have hp : v.first.add (pos.off - v.first.off) = pos := by
    cases pos; simp only [Ptr.add] at *; simp only [Ptr.mk.injEq]; omega
  dsimp only
  rw [hp]
  vcost
  all_goals
    first
      | (refine ⟨rfl, rfl, ⟨?_, ?_, ?_, ?_⟩, ?_, ?_⟩ <;> (try simp only [Ptr.add_off, Ptr.add_blk] at *) <;> omega)
      | (refine ⟨rfl, ?_, ?_⟩ <;> (try simp only [Ptr.add_off] at *) <;> omega)

theorem tri (d : Nat) : (d + 1) * d = d * (d - 1) + 2 * d := by
  cases d with
  | zero => rfl
  | succ d => simp only [Nat.add_sub_cancel, Nat.succ_mul, Nat.mul_succ]; omega

/-- The loop of erase_if: an erased element moves all elements behind it. -/
theorem eraseIfGo_stays {f : α → Bool} (m : Nat) : ∀ {v : Vec} {n r t i d : Nat} {it : Ptr}, Dim v n r → it.off = v.first.off + i →
    n ≤ i + d →
    vcost (eraseIfGo E f m it) (fun _ v' t' => Lim v' n (n + r) ∧ 2 * t' ≤ 2 * t + d * (d - 1))
      (fun v' t' => Lim v' n (n + r) ∧ 2 * t' ≤ 2 * t + d * (d - 1)) v t := by
  induction m with
  | zero => intro v n r t i d it h _ _; exact .pure ⟨.of h, by omega⟩
  | succ m ih =>
    intro v n r t i d it h hi hn
    have hl := h.last
    unfold eraseIfGo
    refine .bind (.getObj (.ite (fun _ => .pure ⟨.of h, by omega⟩) fun hne => .bind (.lift (.readAt fun x => .ite (fun _ => ?_) fun _ => ?_))))
    · refine .bind (vcost.mono (eraseAt_cost h) (fun p v1 t1 hq => ?_) fun v1 t1 hq => ?_)
      · obtain ⟨rfl, h1, h2, h3, h4⟩ := hq
        obtain ⟨d, rfl⟩ : ∃ e, d = e + 1 := ⟨d - 1, by omega⟩
        refine vcost.mono (ih (i := i) (d := d) h2 (by rw [hi, h1]) (by omega)) (fun _ v2 t2 hq => ?_) fun v2 t2 hq => ?_
        all_goals
          obtain ⟨k1, k2⟩ := hq
          refine ⟨k1.mono (by omega) (by omega), ?_⟩
          rw [Nat.add_sub_cancel, tri]
          omega
      · obtain ⟨rfl, h3, hq⟩ := hq
        obtain ⟨d, rfl⟩ : ∃ e, d = e + 1 := ⟨d - 1, by omega⟩
        refine ⟨.of h, ?_⟩
        rw [Nat.add_sub_cancel, tri]
        omega
    · refine vcost.mono (ih (i := i + 1) (d := d - 1) h (by rw [Ptr.add_off]; omega) (by omega)) (fun _ v2 t2 hq => ?_)
        fun v2 t2 hq => ?_
      all_goals
        refine ⟨hq.1, ?_⟩
        have hq := hq.2
        cases d with
        | zero => simpa using hq
        | succ d =>
          rw [Nat.add_sub_cancel, tri]
          rw [Nat.add_sub_cancel] at hq
          omega

/-- If every element is erased, the work is exactly quadratic. -/
theorem eraseIfGo_all {f : α → Bool} (hf : ∀ x, f x = true) (n : Nat) : ∀ {v : Vec} {r t : Nat}, Dim v n r →
    vcost (eraseIfGo E f n v.first) (fun _ _ t' => 2 * t' = 2 * t + n * (n - 1)) (fun _ _ => True) v t := by
  induction n with
  | zero => intro v r t h; exact .pure (by omega)
  | succ n ih =>
    intro v r t h
    have hl := h.last
    unfold eraseIfGo
    refine .bind (.getObj (.ite (fun he => ?_) fun hne => .bind (.lift (.readAt fun x => .ite (fun _ => ?_) fun hn => ?_))))
    · rw [he] at hl; omega
    · refine .bind (vcost.mono (eraseAt_cost h) (fun p v1 t1 hq => ?_) fun _ _ _ => trivial)
      obtain ⟨rfl, h1, h2, h3, h4⟩ := hq
      rw [← h1]
      refine vcost.mono (ih h2) (fun _ v2 t2 hq => ?_) fun _ _ _ => trivial
      rw [Nat.add_sub_cancel, tri]
      omega
    · exact absurd (hf x) hn

theorem eraseIf_stays {f : α → Bool} (h : Dim v n r) :
    Stays (eraseIf E f) n (n + r) (t + n * (n - 1) / 2) v t := by
  unfold eraseIf Vector.size
  have hl := h.last
  have e : v.last.off - v.first.off = n := by omega
  refine .bind (.bind (.getObj (.distance fun _ _ => .bind (.getObj (.bind (vcost.mono (eraseIfGo_stays _ (i := 0) (d := n) h rfl (by omega))
    (fun _ v1 t1 hq => ?_) fun v1 t1 hq => ⟨hq.1, by omega⟩))))))
  exact .bind (.bind (.getObj (.distance fun _ _ => .pure ⟨hq.1, by omega⟩)))

theorem eraseIf_all {f : α → Bool} (hf : ∀ x, f x = true) (h : Dim v n r) :
    vcost (eraseIf E f) (fun _ _ t' => 2 * t' = 2 * t + n * (n - 1)) (fun _ _ => True) v t := by
  unfold eraseIf Vector.size
  have hl := h.last
  have e : v.last.off - v.first.off = n := by omega
  refine .bind (.bind (.getObj (.distance fun _ _ => .bind (.getObj ?_))))
  rw [e]
  refine .bind (vcost.mono (eraseIfGo_all hf n h) (fun _ v1 t1 hq => ?_) fun _ _ _ => trivial)
  exact .bind (.bind (.getObj (.distance fun _ _ => .pure hq)))

theorem eraseRange_stays {p q : Ptr} (h : Dim v n r) :
    Stays (Vector.eraseRange E p q) n (n + r) (t + (n - (q.off - v.first.off))) v t := by
  obtain ⟨h1, h2, h3, h4⟩ := h
  unfold Vector.eraseRange
  refine .bind (.getObj (.bind (.assert fun hin => ?_)))
  obtain ⟨g1, g2, g3, g4, g5⟩ := hin
  vcost <;> lim

theorem eraseAt_stays {p : Ptr} (h : Dim v n r) :
    Stays (Vector.eraseAt E p) n (n + r) (t + (n - (p.off - v.first.off) - 1)) v t := by
  refine vcost.mono (eraseAt_cost h) (fun _ v1 t1 hq => ?_) fun v1 t1 hq => ?_
  · obtain ⟨-, -, h1, h2, h3⟩ := hq
    exact ⟨(Lim.of h1).mono (by omega) (by have := h.last; omega), by omega⟩
  · obtain ⟨rfl, h2, h3⟩ := hq
    exact ⟨.of h, by omega⟩

theorem eraseKey_stays {multi : Bool} (h : Dim v n r) :
    Stays (eraseKey multi C E P) n (n + r) (t + n + 2 * steps n) v t := by
  unfold eraseKey
  refine .ite (fun _ => ?_) fun _ => ?_
  · unfold eraseKeyMulti
    refine looks_bind (equalRange_looks h) (fun t' ht => ⟨.of h, by omega⟩) fun er t' ht => .bind (.distance fun _ _ => .bind ?_)
    exact vcost.mono (eraseRange_stays h) (fun _ _ _ hq => .pure ⟨hq.1, by omega⟩) fun _ _ hq => ⟨hq.1, by omega⟩
  · unfold eraseKeyUnique
    refine looks_bind (find_looks h) (fun t' ht => ⟨.of h, by unfold steps at *; omega⟩) fun er t' ht => .bind (.getObj
      (.ite (fun _ => .pure ⟨.of h, by unfold steps at *; omega⟩) fun _ => .bind ?_))
    exact vcost.mono (eraseAt_stays h) (fun _ _ _ hq => .pure ⟨hq.1, by unfold steps at *; omega⟩)
      fun _ _ hq => ⟨hq.1, by unfold steps at *; omega⟩

theorem clear_stays (h : Dim v n r) : Stays (Vector.clear : VM α Unit) 0 (n + r) t v t := by
  obtain ⟨h1, h2, h3, h4⟩ := h
  unfold Vector.clear
  vcost <;> lim

theorem clear_dim (h : Dim v n r) : vcost (Vector.clear : VM α Unit) (fun _ v' t' => Dim v' 0 (n + r) ∧ t' = t)
    (fun _ _ => False) v t := by
  obtain ⟨h1, h2, h3, h4⟩ := h
  unfold Vector.clear
  vcost
  exact ⟨⟨rfl, h2, rfl, by simp only; omega⟩, rfl⟩

theorem relocate_stays (h : Dim v n r) {m : Nat} (hm : n ≤ m) :
    Stays (SmallVector.relocate E ib N m) n (max N (max (n + r) m)) (t + n + 1) v t := by
  obtain ⟨h1, h2, h3, h4⟩ := h
  unfold SmallVector.relocate SmallVector.replaceStorage
  vcost <;> lim

theorem reserve_stays (h : Dim v n r) {m : Nat} :
    Stays (SmallVector.reserve E ib N m) n (max N (max (n + r) m)) (t + if m ≤ n + r then 0 else n + 1) v t := by
  have hd := h
  obtain ⟨h1, h2, h3, h4⟩ := h
  unfold SmallVector.reserve Vector.checkSize Vector.capacity
  refine .bind (.ite (fun _ => .throw ?_) fun _ => .pure (.bind (.bind (.getObj (.distance fun _ _ => ?_)))))
  · exact ⟨(Lim.of hd).mono (by omega) (by omega), by omega⟩
  refine .ite (fun hg => ?_) fun hg => .pure ?_
  · rw [if_neg (by omega)]
    exact relocate_stays hd (by omega)
  · exact ⟨(Lim.of hd).mono (by omega) (by omega), by omega⟩

theorem shrinkToFit_stays (h : Dim v n r) :
    Stays (SmallVector.shrinkToFit E ib N) n (max N (n + r)) (t + n + 1) v t := by
  have hd := h
  obtain ⟨h1, h2, h3, h4⟩ := h
  unfold SmallVector.shrinkToFit Vector.capacity Vector.size
  refine .bind (.bind (.getObj (.distance fun _ _ => .bind (.bind (.getObj (.distance fun _ _ => ?_))))))
  refine .ite (fun hg => ?_) fun hg => .pure ⟨(Lim.of hd).mono (by omega) (by omega), by omega⟩
  exact Stays.mono (relocate_stays hd (by omega)) (by omega) (by omega) (by omega)

end

/-! ### All modifiers -/

theorem Stays.posOf {m : VM α Ptr} {S B W : Nat} (h : Stays m S B W v t) : Stays (m >>= fun p => posOf p) S B W v t := by
  unfold Flat.posOf
  exact vcost.bind (vcost.mono h (fun _ _ _ h => .bind (.getObj (.bind (.distance fun _ _ => .pure h)))) fun _ _ h => h)

theorem Stays.insOf {m : VM α (Ptr × Bool)} {S B W : Nat} (h : Stays m S B W v t) : Stays (m >>= fun p => insOf p) S B W v t := by
  unfold Flat.insOf
  exact vcost.bind (vcost.mono h (fun _ _ _ h => .bind (.getObj (.bind (.distance fun _ _ => .pure h)))) fun _ _ h => h)

theorem Stays.map {β γ : Type} {m : VM α β} {f : β → γ} {S B W : Nat} (h : Stays m S B W v t) :
    Stays (m >>= fun p => Pure.pure (f p)) S B W v t := vcost.bind (vcost.mono h (fun _ _ _ h => .pure h) fun _ _ h => h)

theorem Stays.nth {β : Type} {f : Ptr → VM α β} {S B W k : Nat} (h : Stays (f (v.first.add k)) S B W v t) :
    Stays (Vector.nth k >>= f) S B W v t := vcost.bind (vcost.bind (.getObj (.pure h)))

theorem Stays.argOf {β : Type} {f : Arg α → VM α β} {S B W : Nat} {s : Sq.Src α} (h : ∀ a, Stays (f a) S B W v t) :
    Stays (Vector.argOf s >>= f) S B W v t := by
  refine vcost.bind ?_
  cases s <;> first | exact .pure (h _) | exact .bind (.getObj (.pure (h _)))

theorem Stays.guard {β : Type} {K : Kind α} (hK : K.Costs N) {f : Unit → VM α β} {S B W : Nat} (h : Stays (f ()) S B W v t) :
    Stays (K.guard >>= f) S B W v t :=
  vcost.bind (vcost.mono hK.guard (fun _ v1 t1 hq => by obtain ⟨rfl, rfl⟩ := hq; exact h) fun _ _ hq => hq.elim)

/-- Work of a modifier on `n` elements when nothing has to be reallocated: linear for a single insertion or erasure, plus a logarithmic
number of comparisons (small_flat_set.md:77); the sum over the single insertions for a range; the sum over the single erasures for
erase_if. -/
def Op.work (n : Nat) : Op α κ → Nat
  | .insert _ | .insertHint _ _ | .emplace _ | .emplaceHint _ _ | .tryEmplace _ | .tryEmplaceHint _ _
  | .insertOrAssign _ | .insertOrAssignHint _ _ => n + steps n + 12
  | .insertRange vs => vs.length * (n + vs.length + steps (n + vs.length) + 4)
  | .assignList vs => vs.length * (vs.length + steps vs.length + 4)
  | .eraseAt k => n - k - 1
  | .eraseRange _ l => n - l
  | .eraseKey _ => n + 2 * steps n
  | .eraseIf _ => n * (n - 1) / 2
  | .clear | .reserve _ => 0
  | .shrinkToFit => n + 1

section
variable {K : Kind α} {reserve : Nat → VM α Unit} {shrink : VM α Unit}

theorem grown_le : grown N n r ≤ max N (max (n + r) (n + 1 + (n + 1) / 2)) := by
  unfold grown; split <;> omega

/-- What every modifier does to the data members and the counter. -/
theorem exec_stays (hK : K.Costs N) (h : Dim v n r) (op : Op α κ)
    (hres : ∀ m, Stays (reserve m) n (max N (max (n + r) m)) (t + if m ≤ n + r then 0 else n + 1) v t)
    (hshr : Stays shrink n (max N (n + r)) (t + n + 1) v t) :
    Stays (exec K C E reserve shrink op) (max n (op.room n)) (max N (max (n + r) (op.room n + op.room n / 2)))
      (t + op.work n + if op.room n ≤ n + r then 0 else n + 1) v t := by
  have hg := @grown_le n r N
  generalize hR : op.room n = R
  generalize hW : op.work n = W
  cases op <;> simp only [Op.room, Op.work] at hR hW <;> subst hR hW
  case insert s =>
    exact .argOf fun a => .guard hK (.insOf (Stays.mono (insertAux_stays hK h) (by omega) (by omega) (by omega)))
  case insertHint i s =>
    refine .argOf fun a => .nth (.guard hK (vcost.bind (.getObj (.bind (.assert fun hin => ?_)))))
    exact Stays.posOf (Stays.mono (insertAuxHint_stays hK h hin.2.2) (by omega) (by omega) (by omega))
  case emplace x =>
    refine .guard hK (vcost.bind (.lift (.mkTmp (fun tmp => ?_) ⟨(Lim.of h).mono (by omega) (by omega), by omega⟩)))
    exact Stays.insOf (Stays.mono (insertAux_stays hK h) (by omega) (by omega) (by omega))
  case emplaceHint i x =>
    refine .nth (.guard hK (vcost.bind (.getObj (.bind (.assert fun hin => .bind (.lift (.mkTmp (fun tmp => ?_)
      ⟨(Lim.of h).mono (by omega) (by omega), by omega⟩)))))))
    exact Stays.posOf (Stays.mono (insertAuxHint_stays hK h hin.2.2) (by omega) (by omega) (by omega))
  case tryEmplace x =>
    exact .guard hK (.insOf (Stays.mono (tryEmplaceAux_stays hK h) (by omega) (by omega) (by omega)))
  case tryEmplaceHint i x =>
    refine .nth (.guard hK (vcost.bind (.getObj (.bind (.assert fun hin => ?_)))))
    exact Stays.posOf (Stays.mono (tryEmplaceAuxHint_stays hK h hin.2.2) (by omega) (by omega) (by omega))
  case insertOrAssign x =>
    exact .guard hK (.insOf (Stays.mono (insertOrAssignAux_stays hK h) (by omega) (by omega) (by omega)))
  case insertOrAssignHint i x =>
    refine .nth (.guard hK (vcost.bind (.getObj (.bind (.assert fun hin => ?_)))))
    exact Stays.posOf (Stays.mono (insertOrAssignAuxHint_stays hK h hin.2.2) (by omega) (by omega) (by omega))
  case insertRange vs =>
    exact .map (Stays.mono (insertRange_stays hK vs h (S := n + vs.length) (B := max N (max (n + r) (n + vs.length + (n + vs.length) / 2)))
      (by omega) (by omega) (by omega)) (by omega) (by omega) (by omega))
  case assignList vs =>
    refine .map ?_
    unfold assignList
    refine vcost.bind (vcost.mono (clear_dim h) (fun _ v1 t1 hq => ?_) fun _ _ hq => hq.elim)
    obtain ⟨h1, rfl⟩ := hq
    exact Stays.mono (insertRange_stays hK vs h1 (S := vs.length) (B := max N (max (n + r) (vs.length + vs.length / 2)))
      (by omega) (by omega) (by omega)) (by omega) (by omega) (by omega)
  case eraseAt k =>
    refine .nth (.posOf (Stays.mono (eraseAt_stays h) (by omega) (by omega) ?_))
    rw [Ptr.add_off]; omega
  case eraseRange k l =>
    refine .nth (.nth (.posOf (Stays.mono (eraseRange_stays h) (by omega) (by omega) ?_)))
    rw [Ptr.add_off]; omega
  case eraseKey k => exact .map (Stays.mono (eraseKey_stays h) (by omega) (by omega) (by omega))
  case eraseIf f => exact .map (Stays.mono (eraseIf_stays h) (by omega) (by omega) (by omega))
  case clear => exact .map (Stays.mono (clear_stays h) (by omega) (by omega) (by omega))
  case reserve m => exact .map (Stays.mono (hres m) (by omega) (by omega) (by omega))
  case shrinkToFit => exact .map (Stays.mono hshr (by omega) (by omega) (by omega))

/-- The small containers. -/
theorem smallExec_stays {multi : Bool} (h : Dim v n r) (op : Op α κ) :
    Stays (exec (small multi E ib N) C E (SmallVector.reserve E ib N) (SmallVector.shrinkToFit E ib N) op) (max n (op.room n))
      (max N (max (n + r) (op.room n + op.room n / 2))) (t + op.work n + if op.room n ≤ n + r then 0 else n + 1) v t :=
  exec_stays (small_costs multi E ib N) h op (fun _ => reserve_stays h) (shrinkToFit_stays h)

end
end Flat
end Sfl
