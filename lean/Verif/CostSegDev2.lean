import Verif.CostSegDev
import Verif.CostDev5
/-
  What the modifiers of segmented_devector do to the counter and to the number of segments. Proof machinery: no code is modelled in
  this file.
-/

set_option linter.unusedSimpArgs false
set_option linter.unusedSectionVars false

namespace Sfl
variable {α β γ V : Type}

theorem vcost.run {m : M (Obj V α) γ} {b : γ} (hb : ∀ o, m o = .ok b o) {f : γ → M (Obj V α) β} {Q : β → V → Nat → Prop}
    {X : V → Nat → Prop} {v : V} {t : Nat} (h' : vcost (f b) Q X v t) : vcost (m >>= f) Q X v t := by
  intro o hv ht
  rw [bind_run (hb o)]
  exact h' o hv ht

theorem vcost.pays {m : M (St α) β} {k : Nat} (h : Pays m k) {Q : β → V → Nat → Prop} {X : V → Nat → Prop} {v : V} {t : Nat}
    (hQ : ∀ b t', t' ≤ t + k → Q b v t') (hX : ∀ t', t' ≤ t + k → X v t') : vcost (Sfl.lift m) Q X v t :=
  .lift ((h t).mono (fun b t' h => hQ b t' h) fun t' h => hX t' h)

instance Still.getObj : Still (getObj : M (Obj V α) V) := ⟨fun _ => rfl⟩

namespace SegDev
open SegVec (Fit)
variable {E : Env α} {N : Nat}

/-- The number of segments. -/
def nseg (v : SDVec) : Nat := v.tlast.off - v.tfirst.off

/-- Only `first_` and `last_` change. -/
def Moved (v v' : SDVec) : Prop := ∃ f l, v' = { v with first := f, last := l }

theorem Moved.refl (v : SDVec) : Moved v v := ⟨v.first, v.last, rfl⟩

theorem Moved.trans {v v' v'' : SDVec} (h : Moved v v') (h' : Moved v' v'') : Moved v v'' := by
  obtain ⟨f, l, rfl⟩ := h
  obtain ⟨f', l', rfl⟩ := h'
  exact ⟨f', l', rfl⟩

theorem Moved.nseg {v v' : SDVec} (h : Moved v v') : nseg v' = nseg v := by
  obtain ⟨f, l, rfl⟩ := h
  rfl

/-- A part of a modifier that spends at most `k` and keeps the segments. -/
def Tail (m : DM α β) (k : Nat) (v : SDVec) : Prop :=
  ∀ t, vcost m (fun _ v' t' => Moved v v' ∧ t' ≤ t + k) (fun v' t' => Moved v v' ∧ t' ≤ t + k) v t

/-- A part of a modifier that spends at most `k` and, except for `last_`, keeps all members. -/
def TailBack (m : DM α β) (k : Nat) (v : SDVec) : Prop :=
  ∀ t, vcost m (fun _ v' t' => (∃ l, v' = { v with last := l }) ∧ t' ≤ t + k) (fun v' t' => (∃ l, v' = { v with last := l }) ∧ t' ≤ t + k) v t

theorem Tail.mono {m : DM α β} {k k' : Nat} {v : SDVec} (h : Tail m k v) (hk : k ≤ k') : Tail m k' v :=
  fun t => (h t).mono (fun _ _ _ h => ⟨h.1, by omega⟩) fun _ _ h => ⟨h.1, by omega⟩

theorem TailBack.tail {m : DM α β} {k : Nat} {v : SDVec} (h : TailBack m k v) : Tail m k v :=
  fun t => (h t).mono (fun _ _ _ h => ⟨h.1.elim fun l h => ⟨v.first, l, h⟩, h.2⟩) fun _ _ h => ⟨h.1.elim fun l h => ⟨v.first, l, h⟩, h.2⟩

theorem TailBack.then {m : DM α γ} {f : γ → DM α β} {k k' : Nat} {v : SDVec} (h : TailBack m k v)
    (h' : ∀ b l, Tail (f b) k' { v with last := l }) : Tail (m >>= f) (k + k') v :=
  fun t => .bind ((h t).mono (fun b v' t' ⟨⟨l, hv⟩, ht⟩ => by
    subst hv
    exact (h' b l t').mono (fun _ _ _ h => ⟨Moved.trans ⟨_, _, rfl⟩ h.1, by omega⟩) fun _ _ h => ⟨Moved.trans ⟨_, _, rfl⟩ h.1, by omega⟩)
    fun _ _ h => ⟨h.1.elim fun l h => ⟨v.first, l, h⟩, by omega⟩)

/-- A part of a modifier that spends at most `k` and keeps all members. -/
def Keep (m : DM α β) (k : Nat) (v : SDVec) : Prop := ∀ t, vcost m (fun _ v' t' => v' = v ∧ t' ≤ t + k) (fun v' t' => v' = v ∧ t' ≤ t + k) v t

theorem Keep.then {m : DM α γ} {f : γ → DM α β} {k k' : Nat} {v : SDVec} (h : Keep m k v) (h' : ∀ b, Tail (f b) k' v) :
    Tail (m >>= f) (k + k') v :=
  fun t => .bind ((h t).mono (fun b v' t' ⟨hv, ht⟩ => by
    subst hv
    exact (h' b t').mono (fun _ _ _ h => ⟨h.1, by omega⟩) fun _ _ h => ⟨h.1, by omega⟩)
    fun v' _ h => ⟨h.1 ▸ Moved.refl v, by omega⟩)

theorem Tail.run {m : DM α γ} {b : γ} (hb : ∀ o, m o = .ok b o) {f : γ → DM α β} {k : Nat} {v : SDVec} (h : Tail (f b) k v) :
    Tail (m >>= f) k v := fun t => .run hb (h t)

theorem Tail.still {m : DM α γ} [Still m] {f : γ → DM α β} {k : Nat} {v : SDVec} (h : ∀ b, Tail (f b) k v) :
    Tail (m >>= f) k v := fun t => .bind (.still fun b => h b t)

theorem Tail.get {f : SDVec → DM α β} {k : Nat} {v : SDVec} (h : Tail (f v) k v) : Tail (Sfl.getObj >>= f) k v :=
  fun t => .bind (.getObj (h t))

theorem Tail.set {f : Unit → DM α β} {k : Nat} {v v' : SDVec} (hm : Moved v v') (h : Tail (f ()) k v') : Tail (Sfl.setObj v' >>= f) k v :=
  fun t => .bind (.setObj ((h t).mono (fun _ _ _ h => ⟨hm.trans h.1, h.2⟩) fun _ _ h => ⟨hm.trans h.1, h.2⟩))

theorem Tail.setEnd {k : Nat} {v v' : SDVec} (hm : Moved v v') : Tail (Sfl.setObj v' : DM α Unit) k v :=
  fun _ => .setObj ⟨hm, Nat.le_add_right _ _⟩

theorem Tail.pure {b : β} {k : Nat} {v : SDVec} : Tail (pure b : DM α β) k v := fun _ => .pure ⟨.refl v, Nat.le_add_right _ _⟩

theorem Tail.pays {m : M (St α) γ} {f : γ → DM α β} {k k' : Nat} {v : SDVec} (h : Pays m k) (h' : ∀ b, Tail (f b) k' v) :
    Tail (Sfl.lift m >>= f) (k + k') v :=
  fun t => .bind (.pays h (fun b t' ht => (h' b t').mono (fun _ _ _ h => ⟨h.1, by omega⟩) fun _ _ h => ⟨h.1, by omega⟩)
    fun t' ht => ⟨.refl v, by omega⟩)

theorem Tail.spend {m : M (St α) γ} {f : γ → DM α β} {k K : Nat} {v : SDVec} (h : Pays m k) (hk : k ≤ K)
    (h' : ∀ b, Tail (f b) (K - k) v) : Tail (Sfl.lift m >>= f) K v := (Tail.pays h h').mono (by omega)

theorem Tail.ite {c : Prop} [Decidable c] {m m' : DM α β} {k : Nat} {v : SDVec} (h : c → Tail m k v) (h' : ¬c → Tail m' k v) :
    Tail (if c then m else m') k v := by
  split <;> rename_i hc
  · exact h hc
  · exact h' hc

theorem Tail.paysEnd {m : M (St α) β} {k : Nat} {v : SDVec} (h : Pays m k) : Tail (Sfl.lift m) k v :=
  fun _ => .pays h (fun _ _ ht => ⟨.refl v, ht⟩) fun _ ht => ⟨.refl v, ht⟩

theorem pays_construct {p : Ptr} {a : Arg α} : Pays (construct E p a) 1 := fun _ => .construct (Nat.le_refl _) (Nat.le_refl _)
theorem pays_assign {p : Ptr} {a : Arg α} : Pays (assign E p a) 1 := fun _ => .assign (Nat.le_refl _) (Nat.le_refl _)
theorem pays_mkTmp {a : Arg α} : Pays (mkTmp E a) 1 := fun _ => .mkTmp (fun _ => Nat.le_refl _) (Nat.le_refl _)
theorem pays_destroyAt {p : Ptr} : Pays (destroyAt p : M (St α) Unit) 0 := fun _ => .destroyAt (Nat.le_refl _)

section
variable {V : View} {v : SDVec} {f l : Nat} {a : Arg α}

/-- Where the elements are. -/
structure Sits (V : View) (v : SDVec) (f l : Nat) : Prop where
  fit : Fit V v.tab
  first : v.first = V.it f
  last : v.last = V.it l
  bos : v.bos = V.it 0
  eos : v.eos = V.it V.size
  le : f ≤ l
  len : l ≤ V.size

variable (h : Sits V v f l)
include h

theorem emplaceFrontHalf_tail {k : Nat} (hk : f + k ≤ l) (h0 : 0 < f) : Tail (emplaceFrontHalf E V.N (V.it (f + k)) a) (k + 2) v := by
  have hF := h.fit
  have hl := h.len
  refine .get ?_
  rw [h.first]
  obtain ⟨p, rfl⟩ : ∃ p, f = p + 1 := ⟨f - 1, by omega⟩
  have e1 : ∀ o : Obj SDVec α, Seg.dec V.N v.tab (V.it (p + 1 + k)) o = .ok (V.it (p + k)) o := by
    intro o
    rw [show p + 1 + k = p + k + 1 by omega]
    exact hF.dec (by omega) o
  have e2 : ∀ o : Obj SDVec α, Seg.dec V.N v.tab (V.it (p + 1)) o = .ok (V.it p) o := fun o => hF.dec (by omega) o
  refine .run e1 ?_
  refine .ite (fun _ => ?_) fun he => ?_
  · exact .spend pays_construct (by omega) (fun _ => .set ⟨_, _, rfl⟩ .pure)
  · have hk0 : k ≠ 0 := by
      rintro rfl
      rw [hF.eq (by omega) (by omega)] at he
      simp at he
    refine .run (fun o => hF.inc (p := p + 1) (by omega) o) (.run e2 ?_)
    refine .spend pays_mkTmp (by omega) fun tmp => .spend pays_construct (by omega) fun _ => .set ⟨_, _, rfl⟩ ?_
    rw [show p + 1 + k = p + k + 1 by omega]
    exact .spend (Seg.assignSeg_pays hF (x := p + 1 + 1) (y := p + k + 1) (by omega) (by omega)) (by omega) fun _ =>
      .spend pays_assign (by omega) fun _ => .pure

theorem emplaceBackHalf_tail {k : Nat} (hk : f + k ≤ l) (h0 : l < V.size) :
    Tail (emplaceBackHalf E V.N (V.it (f + k)) a) (l - (f + k) + 2) v := by
  have hF := h.fit
  have hl := h.le
  refine .get ?_
  rw [h.last]
  refine .ite (fun _ => ?_) fun he => ?_
  · exact .spend pays_construct (by omega) (fun _ => .still fun _ => .set ⟨_, _, rfl⟩ .pure)
  · have hk0 : f + k ≠ l := by
      intro hkl
      rw [hF.eq (p := f + k) (q := l) (by omega) (by omega), hkl] at he
      simp at he
    obtain ⟨p, rfl⟩ : ∃ p, l = p + 1 := ⟨l - 1, by omega⟩
    refine .run (fun o => hF.dec (p := p) (by omega) o) ?_
    refine .spend pays_mkTmp (by omega) fun tmp => .spend pays_construct (by omega) fun _ => .still fun _ => .set ⟨_, _, rfl⟩ ?_
    exact .spend (Seg.backSeg_pays hF (x := f + k) (y := p) (by omega) (by omega)) (by omega) fun _ =>
      .spend pays_assign (by omega) fun _ => .pure

omit h in
theorem Ins.assign_pays {src : Ins α} {t : Table} {x y : Nat} (hF : Fit V t) (hxy : x ≤ y) (hy : y ≤ V.size) (hs : src.length ≤ y - x) :
    Pays (src.assign E V.N t (V.it x) (V.it y)) (y - x) := by
  cases src with
  | fill n w => exact Seg.fill_pays hF hxy hy
  | range ra ys =>
    refine (Pays.bind (k := ys.length) (k' := 0) ?_ fun _ => Pays.still).mono hs
    have := Seg.From.assignList_pays (E := E) (N := V.N) (t := t) (ra := ra) (as := ys.map .val) (d := V.it x)
    rwa [List.length_map] at this

omit h in
theorem Ins.uninit_pays {src : Ins α} {t : Table} {x y : Nat} (hF : Fit V t) (hxy : x ≤ y) (hy : y ≤ V.size) (hs : src.length ≤ y - x) :
    Pays (src.uninit E V.N t (V.it x) (V.it y)) (y - x) := by
  cases src with
  | fill n w => exact Seg.uninitFill_pays hF hxy hy
  | range ra ys =>
    refine (Pays.bind (k := ys.length) (k' := 0) ?_ fun _ => Pays.still).mono hs
    have := Seg.From.uninitList_pays (E := E) (N := V.N) (t := t) (ra := ra) (as := ys.map .val) (d := V.it x)
    rwa [List.length_map] at this

omit h in
theorem Ins.take_length {src : Ins α} {k : Nat} : (src.take k).length ≤ k := by
  cases src <;> simp [Ins.take, Ins.length] <;> omega

omit h in
theorem Ins.drop_length {src : Ins α} {k : Nat} : (src.drop k).length = src.length - k := by
  cases src <;> simp [Ins.drop, Ins.length]

theorem insertFrontHalf_tail {src : Ins α} {k : Nat} (hk : f + k ≤ l) (h0 : src.length ≤ f) :
    Tail (insertFrontHalf E V.N k src) (src.length + k) v := by
  have hF := h.fit
  have hl := h.len
  generalize hm : src.length = m at h0
  unfold insertFrontHalf
  rw [hm]
  refine .get ?_
  dsimp only
  rw [h.first]
  refine .run (fun o => hF.adv (q := f + k) (by omega) (by omega) (by omega) o)
    (.run (fun o => hF.adv (q := f + k - m) (by omega) (by omega) (by omega) o) (.ite (fun hg => ?_) fun hg => ?_))
  · refine .run (fun o => hF.adv (q := f + m) (by omega) (by omega) (by omega) o)
      (.run (fun o => hF.adv (q := f - m) (by omega) (by omega) (by omega) o) ?_)
    exact .spend (Seg.uninitSeg_pays hF (x := f) (y := f + m) (by omega) (by omega)) (by omega) fun _ => .set ⟨_, _, rfl⟩
      (.spend (Seg.assignSeg_pays hF (x := f + m) (y := f + k) (by omega) (by omega)) (by omega) fun _ =>
        .spend (Ins.assign_pays hF (x := f + k - m) (y := f + k) (by omega) (by omega) (by omega)) (by omega) fun _ => .pure)
  · refine .run (fun o => hF.adv (q := f - m) (by omega) (by omega) (by omega) o) ?_
    have h1 := Ins.take_length (src := src) (k := m - k)
    have h2 := Ins.drop_length (src := src) (k := m - k)
    exact .spend (Ins.uninit_pays hF (x := f + k - m) (y := f) (by omega) (by omega) (by omega)) (by omega) fun _ => .set ⟨_, _, rfl⟩
      (.spend (Seg.uninitSeg_pays hF (x := f) (y := f + k) (by omega) (by omega)) (by omega) fun _ => .set ⟨_, _, rfl⟩
        (.spend (Ins.assign_pays hF (x := f) (y := f + k) (by omega) (by omega) (by omega)) (by omega) fun _ => .pure))

theorem fillBackHalf_tail {k m : Nat} {tmp : α} (hk : f + k ≤ l) (h0 : l + m ≤ V.size) :
    Tail (fillBackHalf E V.N k (l - (f + k)) m tmp) (m + (l - (f + k))) v := by
  have hF := h.fit
  unfold fillBackHalf
  refine .get ?_
  rw [h.first, h.last]
  refine .run (fun o => hF.adv (q := f + k) (by omega) (by omega) (by omega) o)
    (.run (fun o => hF.adv (q := f + k + m) (by omega) (by omega) (by omega) o) (.ite (fun hg => ?_) fun hg => ?_))
  · refine .run (fun o => hF.adv (q := l - m) (by omega) (by omega) (by omega) o) ?_
    exact .spend (Seg.uninitSeg_pays hF (x := l - m) (y := l) (by omega) (by omega)) (by omega) fun _ => .set ⟨_, _, rfl⟩
      (.spend (Seg.backSeg_pays hF (x := f + k) (y := l - m) (by omega) (by omega)) (by omega) fun _ =>
        .spend (Seg.fill_pays hF (x := f + k) (y := f + k + m) (by omega) (by omega)) (by omega) fun _ => .pure)
  · exact .spend (Seg.uninitFill_pays hF (x := l) (y := f + k + m) (by omega) (by omega)) (by omega) (fun _ => .set ⟨_, _, rfl⟩
      (.spend (Seg.uninitSeg_pays hF (x := f + k) (y := l) (by omega) (by omega)) (by omega) fun _ => .set ⟨_, _, rfl⟩
        (.spend (Seg.fill_pays hF (x := f + k) (y := l) (by omega) (by omega)) (by omega) fun _ => .pure)))

theorem rangeBackHalf_tail {k : Nat} {ra : Bool} {ys : List α} (hk : f + k ≤ l) (h0 : l + ys.length ≤ V.size) :
    Tail (rangeBackHalf E V.N k (l - (f + k)) ra ys) (ys.length + (l - (f + k))) v := by
  have hF := h.fit
  unfold rangeBackHalf
  refine .get ?_
  dsimp only
  rw [h.first, h.last]
  have ha : ∀ (as : List α) (d : SIt), Pays ((Seg.From.list ra (as.map .val)).assign E V.N v.tab d) as.length := by
    intro as d
    have := Seg.From.assignList_pays (E := E) (N := V.N) (t := v.tab) (ra := ra) (as := as.map .val) (d := d)
    rwa [List.length_map] at this
  have hu : ∀ (as : List α) (d : SIt), Pays ((Seg.From.list ra (as.map .val)).uninit E V.N v.tab d) as.length := by
    intro as d
    have := Seg.From.uninitList_pays (E := E) (N := V.N) (t := v.tab) (ra := ra) (as := as.map .val) (d := d)
    rwa [List.length_map] at this
  refine .run (fun o => hF.adv (q := f + k) (by omega) (by omega) (by omega) o) ?_
  by_cases hg : l - (f + k) > ys.length
  · refine .run (fun o => hF.adv (q := l - ys.length) (by omega) (by omega) (by omega) o) ?_
    rw [if_pos hg]
    exact .spend (Seg.uninitSeg_pays hF (x := l - ys.length) (y := l) (by omega) (by omega)) (by omega) fun _ => .set ⟨_, _, rfl⟩
      (.spend (Seg.backSeg_pays hF (x := f + k) (y := l - ys.length) (by omega) (by omega)) (by omega) fun _ =>
        .spend (ha ys _) (by omega) fun _ => .pure)
  · refine .still (fun p => ?_)
    rw [if_neg hg]
    have h1 := List.length_drop (i := l - (f + k)) (l := ys)
    have h2 := List.length_take (i := l - (f + k)) (l := ys)
    exact .spend (hu _ _) (by omega) fun _ => .set ⟨_, _, rfl⟩
      (.spend (Seg.uninitSeg_pays hF (x := f + k) (y := l) (by omega) (by omega)) (by omega) fun _ => .set ⟨_, _, rfl⟩
        (.spend (ha _ _) (by omega) fun _ => .pure))

theorem eraseAt_tail {k : Nat} (hk : f + k < l) : Tail (eraseAt E V.N (V.it (f + k))) (min k (l - (f + k))) v := by
  have hF := h.fit
  have hl := h.len
  unfold eraseAt
  refine .get (.still fun _ => ?_)
  rw [h.first, h.last]
  refine .run (fun o => hF.dist (p := f) (q := f + k) (by omega) (by omega) o)
    (.run (fun o => hF.dist (p := f + k) (q := l) (by omega) (by omega) o) ?_)
  rw [Nat.add_sub_cancel_left]
  refine .run (fun o => hF.adv (q := f + k) (by omega) (by omega) (by omega) o) (.run (fun o => hF.inc (p := f + k) (by omega) o) (.ite (fun hg => ?_) fun hg => ?_))
  · exact .spend (Seg.backSeg_pays hF (x := f) (y := f + k) (by omega) (by omega)) (by omega)
      fun _ => .set ⟨_, _, rfl⟩ (.spend pays_destroyAt (by omega) fun _ => .pure)
  · exact .spend (Seg.assignSeg_pays hF (x := f + k + 1) (y := l) (by omega) (by omega)) (by omega)
      fun _ => .set ⟨_, _, rfl⟩ (.spend pays_destroyAt (by omega) fun _ => .pure)

theorem eraseRange_tail {k j : Nat} (hk : k ≤ j) (hj : f + j ≤ l) :
    Tail (eraseRange E V.N (V.it (f + k)) (V.it (f + j))) (min k (l - (f + j))) v := by
  have hF := h.fit
  have hl := h.len
  unfold eraseRange
  refine .get (.still fun _ => ?_)
  rw [h.first, h.last]
  refine .run (fun o => hF.dist (p := f) (q := f + k) (by omega) (by omega) o) ?_
  rw [Nat.add_sub_cancel_left]
  refine .run (fun o => hF.adv (q := f + k) (by omega) (by omega) (by omega) o) (.ite (fun _ => .pure) fun hne => ?_)
  refine .run (fun o => hF.dist (p := f + j) (q := l) (by omega) (by omega) o)
    (.run (fun o => hF.dist (p := f) (q := f + j) (by omega) (by omega) o) ?_)
  rw [Nat.add_sub_cancel_left]
  refine .run (fun o => hF.adv (q := f + j) (by omega) (by omega) (by omega) o) (.ite (fun hg => ?_) fun hg => ?_)
  · exact .spend (Seg.backSeg_pays hF (x := f) (y := f + k) (by omega) (by omega)) (by omega)
      (fun _ => .spend Seg.destroy_pays (by omega) fun _ => .set ⟨_, _, rfl⟩ .pure)
  · exact .spend (Seg.assignSeg_pays hF (x := f + j) (y := l) (by omega) (by omega)) (by omega)
      (fun _ => .spend Seg.destroy_pays (by omega) fun _ => .set ⟨_, _, rfl⟩ .pure)

/-- Erasing up to the end. -/
theorem eraseEnd_tail {it : SIt} : Tail (eraseRange E V.N it (V.it l)) 0 v := by
  have hF := h.fit
  have hl := h.len
  have hle := h.le
  unfold eraseRange
  refine .get (.still fun _ => ?_)
  rw [h.first, h.last]
  refine .still fun d => .still fun p1 => .ite (fun _ => .pure) fun hne => ?_
  refine .run (fun o => hF.dist (p := l) (q := l) (by omega) (by omega) o) (.run (fun o => hF.dist (p := f) (q := l) (by omega) (by omega) o)
    (.run (fun o => hF.adv (q := l) (by omega) (by omega) (by omega) o) (.ite (fun hg => ?_) fun hg => ?_)))
  · omega
  · exact .spend (Seg.assignSeg_pays hF (x := l) (y := l) (by omega) (by omega)) (by omega)
      (fun _ => .spend Seg.destroy_pays (by omega) fun _ => .set ⟨_, _, rfl⟩ .pure)

theorem eraseIf_tail {g : α → Bool} : Tail (eraseIf E V.N g) (l - f) v := by
  have hF := h.fit
  have hl := h.len
  unfold eraseIf
  refine .get ?_
  rw [h.first, h.last]
  refine (Tail.pays (k' := 0) (Seg.removeIf_pays hF h.le hl) fun it => .get (.still fun r => ?_)).mono (by omega)
  rw [h.last]
  exact fun t => .bind ((eraseEnd_tail h t).mono (fun _ _ _ h => .pure h) fun _ _ h => h)

omit h in
theorem cutBack_tail {n : Nat} : Tail (cutBack N n : DM α Unit) 0 v := by
  unfold cutBack nth SegDev.size
  exact .still fun p => .get (.pays (k := 0) (k' := 0) Seg.destroy_pays fun _ => .setEnd ⟨v.first, _, rfl⟩)

omit h in
theorem cutFront_tail {n : Nat} : Tail (cutFront N n : DM α Unit) 0 v := by
  unfold cutFront nth SegDev.size
  exact .still fun p => .get (.pays (k := 0) (k' := 0) Seg.destroy_pays fun _ => .setEnd ⟨_, v.last, rfl⟩)

omit h in
theorem fillBack_tail {n : Nat} : TailBack (fillBack E N n a) n v := fun _ =>
  .bind (.getObj (.bind (.pays Seg.uninitFillN_pays (fun l _ ht => .setObj ⟨⟨l, rfl⟩, ht⟩) fun _ ht => ⟨⟨v.last, rfl⟩, ht⟩)))

theorem fillEos_tail : TailBack (fillEos E V.N a) (V.size - l) v := by
  have hF := h.fit
  have e := Seg.uninitFill_pays (E := E) (a := a) hF h.len (Nat.le_refl _)
  rw [← h.last, ← h.eos] at e
  exact fun t => .bind (.getObj (.bind (.pays e (fun l _ ht => .setObj ⟨⟨_, rfl⟩, ht⟩) fun _ ht => ⟨⟨v.last, rfl⟩, ht⟩)))

theorem fillFront_tail {n : Nat} {l' : SIt} (hn : n ≤ f) : Tail (fillFront E V.N n a) n { v with last := l' } := by
  have hF := h.fit
  have hl := h.len
  have hle := h.le
  refine .get ?_
  dsimp only
  rw [h.first]
  refine .run (fun o => hF.adv (q := f - n) (by omega) (by omega) (by omega) o) ?_
  exact (Tail.pays (k' := 0) (Seg.uninitFill_pays hF (x := f - n) (y := f) (by omega) (by omega)) fun _ => .setEnd ⟨_, _, rfl⟩).mono (by omega)

theorem fillBos_tail {l' : SIt} : Tail (fillBos E V.N a) f { v with last := l' } := by
  have hF := h.fit
  have hl := h.len
  have hle := h.le
  refine .get ?_
  dsimp only
  rw [h.first, h.bos]
  exact (Tail.pays (k' := 0) (Seg.uninitFill_pays hF (x := 0) (y := f) (by omega) (by omega)) fun _ => .setEnd ⟨_, _, rfl⟩).mono (by omega)

theorem fillAll_tail : Keep (fillAll E V.N a) (l - f) v := by
  have hF := h.fit
  have e := Seg.fill_pays (E := E) (a := a) hF h.le h.len
  rw [← h.first, ← h.last] at e
  exact fun t => .bind (.getObj (.pays e (fun _ _ ht => ⟨rfl, ht⟩) fun _ ht => ⟨rfl, ht⟩))

omit h in
theorem copyAll_tail {ra : Bool} {as : List (Arg α)} : Keep (copyAll E N (.list ra as)) as.length v := fun _ =>
  .bind (.getObj (.bind (.pays Seg.From.assignList_pays (fun _ _ ht => .pure ⟨rfl, ht⟩) fun _ ht => ⟨rfl, ht⟩)))

omit h in
theorem rangeBack_tail {ra : Bool} {as : List (Arg α)} : TailBack (rangeBack E N (.list ra as)) as.length v := fun _ =>
  .bind (.getObj (.bind (.pays Seg.From.uninitList_pays (fun l _ ht => .setObj ⟨⟨l, rfl⟩, ht⟩) fun _ ht => ⟨⟨v.last, rfl⟩, ht⟩)))

omit h in
theorem rangeFront_tail {n : Nat} {ra : Bool} {as : List (Arg α)} : Tail (rangeFront E N n (.list ra as)) as.length v :=
  .get (.still fun _ => .pays (k' := 0) Seg.From.uninitList_pays fun _ => .setEnd ⟨_, _, rfl⟩)

omit h in
theorem rangeBos_tail {ra : Bool} {as : List (Arg α)} : Tail (rangeBos E N (.list ra as)) as.length v :=
  .get (.pays (k' := 0) Seg.From.uninitList_pays fun _ => .setEnd ⟨_, _, rfl⟩)

end
end SegDev
end Sfl
