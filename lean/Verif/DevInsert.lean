import Verif.DevShift2
/-
  devector: the choice of the case in insert_aux_shift_to_back and insert_aux_shift_to_front; computations that cannot
  throw. (Helper lemmas.)
-/

namespace Sfl
variable {α : Type} {E : Env α}

/-- `m` never throws. -/
def NeverExn {σ β : Type} (m : M σ β) : Prop := ∀ s e s', m s ≠ .exn e s'

theorem NeverExn.wp {σ β : Type} {m : M σ β} (hn : NeverExn m) {Q : β → σ → Prop} {X X' : Exn → σ → Prop} {s : σ}
    (h : wp m Q X s) : wp m Q X' s := by
  have := hn s
  unfold Sfl.wp at h ⊢
  cases hm : m s with
  | ok b s' => rw [hm] at h; exact h
  | exn e s' => exact absurd hm (this e s')
  | ub r => rw [hm] at h; exact h

theorem NeverExn.pure {σ β : Type} (b : β) : NeverExn (pure b : M σ β) := by intro s e s' h; cases h

theorem NeverExn.undef {σ β : Type} (r : UB) : NeverExn (M.undef r : M σ β) := by intro s e s' h; cases h

theorem NeverExn.assert {σ : Type} (c : Prop) [Decidable c] : NeverExn (M.assert c : M σ Unit) := by
  intro s e s' h
  unfold M.assert at h
  split at h <;> cases h

theorem NeverExn.bind {σ β γ : Type} {m : M σ β} {f : β → M σ γ} (hm : NeverExn m) (hf : ∀ b, NeverExn (f b)) :
    NeverExn (m >>= f) := by
  intro s e s' h
  rw [bind_apply] at h
  cases hh : m s with
  | ok b s1 => rw [hh] at h; exact hf b s1 e s' h
  | exn e1 s1 => exact hm s e1 s1 hh
  | ub r => rw [hh] at h; cases h

theorem NeverExn.ite {σ β : Type} {c : Prop} [Decidable c] {m m' : M σ β} (h : NeverExn m) (h' : NeverExn m') :
    NeverExn (if c then m else m') := by
  split
  · exact h
  · exact h'

theorem NeverExn.tryCatch {σ β : Type} {m : M σ β} {f : Exn → M σ β} (hm : NeverExn m) : NeverExn (M.tryCatch m f) := by
  intro s e s' h
  unfold M.tryCatch at h
  cases hh : m s with
  | ok b s1 => rw [hh] at h; cases h
  | exn e1 s1 => exact hm s e1 s1 hh
  | ub r => rw [hh] at h; cases h

theorem NeverExn.distance {σ : Type} (p q : Ptr) : NeverExn (distance p q : M σ Nat) := by
  intro s e s' h
  unfold Sfl.distance at h
  split at h <;> cases h

theorem NeverExn.destroyAt (p : Ptr) : NeverExn (destroyAt p : M (St α) Unit) := by
  intro s e s' h
  unfold Sfl.destroyAt at h
  split at h <;> cases h

theorem NeverExn.destroyN (n : Nat) : ∀ p : Ptr, NeverExn (destroyN p n : M (St α) Unit) := by
  induction n with
  | zero => intro p; exact NeverExn.pure ()
  | succ n ih => intro p; exact NeverExn.bind (NeverExn.destroyAt p) (fun _ => ih _)

theorem NeverExn.destroyRange (p q : Ptr) : NeverExn (destroyRange p q : M (St α) Unit) :=
  NeverExn.bind (NeverExn.distance p q) (fun _ => NeverExn.destroyN _ _)

section quiet
variable (hq : ∀ t, E.throws t = false)
include hq

theorem NeverExn.construct (p : Ptr) (a : Arg α) : NeverExn (construct E p a) := by
  intro s e s' h
  unfold Sfl.construct at h
  simp only [hq, Bool.false_and, Bool.false_eq_true, if_false] at h
  repeat' split at h
  all_goals cases h

theorem NeverExn.assign (p : Ptr) (a : Arg α) : NeverExn (assign E p a) := by
  intro s e s' h
  unfold Sfl.assign at h
  simp only [hq, Bool.false_and, Bool.false_eq_true, if_false] at h
  repeat' split at h
  all_goals cases h

theorem NeverExn.mkTmp (a : Arg α) : NeverExn (mkTmp E a) := by
  intro s e s' h
  unfold Sfl.mkTmp at h
  simp only [hq, Bool.false_and, Bool.false_eq_true, if_false] at h
  repeat' split at h
  all_goals cases h

theorem NeverExn.allocate (al n : Nat) : NeverExn (allocate E al n : M (St α) Ptr) := by
  intro s e s' h
  unfold Sfl.allocate at h
  simp only [hq, Bool.false_eq_true, if_false] at h
  repeat' split at h
  all_goals cases h

theorem NeverExn.uninitGo (d : Ptr) (as : List (Arg α)) : ∀ k, NeverExn (uninitGo E d k as) := by
  induction as with
  | nil => intro k; exact NeverExn.pure _
  | cons a as ih =>
    intro k
    unfold Sfl.uninitGo
    exact NeverExn.bind (NeverExn.tryCatch (NeverExn.construct hq _ _)) (fun _ => ih _)

theorem NeverExn.uninit (d : Ptr) (as : List (Arg α)) : NeverExn (uninit E d as) := NeverExn.uninitGo hq d as 0

theorem NeverExn.assignGo (as : List (Arg α)) : ∀ d, NeverExn (assignGo E d as) := by
  induction as with
  | nil => intro d; exact NeverExn.pure _
  | cons a as ih =>
    intro d
    unfold Sfl.assignGo
    exact NeverExn.bind (NeverExn.assign hq _ _) (fun _ => ih _)

theorem NeverExn.uninitMove (p q d : Ptr) : NeverExn (uninitMove E p q d) :=
  NeverExn.bind (NeverExn.distance p q) (fun _ => NeverExn.uninit hq _ _)

theorem NeverExn.moveFwd (p q d : Ptr) : NeverExn (moveFwd E p q d) :=
  NeverExn.bind (NeverExn.distance p q) (fun _ => NeverExn.assignGo hq _ _)

end quiet

namespace Devector
variable {H : Heap α} {al b cap nx : Nat} {X : Exn → St α → Prop} {s : St α}

section quiet
variable (hq : ∀ t, E.throws t = false)
include hq

theorem noExn_insertN (d : Ptr) (n : Nat) (px : Proxy α) : NeverExn (px.insertN E d n) := by
  cases px with
  | one v =>
    unfold Proxy.insertN
    refine NeverExn.ite (NeverExn.pure _) ?_
    refine NeverExn.bind (NeverExn.assert _) (fun _ => NeverExn.bind (NeverExn.mkTmp hq _) (fun _ =>
      NeverExn.bind (NeverExn.assign hq _ _) (fun _ => NeverExn.pure _)))
  | fill a =>
    unfold Proxy.insertN fillRange
    refine NeverExn.bind (NeverExn.bind (NeverExn.distance _ _) (fun _ => NeverExn.bind (NeverExn.assignGo hq _ _) (fun _ => NeverExn.pure _)))
      (fun _ => NeverExn.pure _)
  | range as =>
    unfold Proxy.insertN
    exact NeverExn.ite (NeverExn.bind (NeverExn.assignGo hq _ _) (fun _ => NeverExn.pure _)) (NeverExn.undef _)

theorem noExn_uninitInsertN (d : Ptr) (n : Nat) (px : Proxy α) : NeverExn (px.uninitInsertN E d n) := by
  cases px with
  | one v =>
    unfold Proxy.uninitInsertN
    refine NeverExn.ite (NeverExn.pure _) ?_
    refine NeverExn.bind (NeverExn.assert _) (fun _ => NeverExn.bind (NeverExn.construct hq _ _) (fun _ => NeverExn.pure _))
  | fill a =>
    unfold Proxy.uninitInsertN uninitFill
    refine NeverExn.bind (NeverExn.bind (NeverExn.distance _ _) (fun _ => NeverExn.bind (NeverExn.uninit hq _ _) (fun _ => NeverExn.pure _)))
      (fun _ => NeverExn.pure _)
  | range as =>
    unfold Proxy.uninitInsertN
    exact NeverExn.ite (NeverExn.bind (NeverExn.uninit hq _ _) (fun _ => NeverExn.pure _)) (NeverExn.undef _)

theorem noExn_moveFwdNe (p q d : Ptr) : NeverExn (moveFwdNe E p q d) :=
  NeverExn.ite (NeverExn.bind (NeverExn.moveFwd hq _ _ _) (fun _ => NeverExn.pure _)) (NeverExn.pure _)

theorem noExn_back6 (p10 p20 p30 q10 q20 q30 q40 : Ptr) (px : Proxy α) :
    NeverExn (back6 E p10 p20 p30 q10 q20 q30 q40 px) := by
  unfold back6 guard
  exact NeverExn.bind (NeverExn.distance _ _) (fun _ => NeverExn.bind (NeverExn.uninitMove hq _ _ _) (fun _ => NeverExn.tryCatch
    (NeverExn.bind (NeverExn.uninitMove hq _ _ _) (fun _ => NeverExn.tryCatch
      (NeverExn.bind (noExn_moveFwdNe hq _ _ _) (fun _ => NeverExn.bind (NeverExn.distance _ _) (fun _ =>
        NeverExn.bind (noExn_insertN hq _ _ _) (fun _ => NeverExn.bind (NeverExn.distance _ _) (fun _ =>
          NeverExn.bind (noExn_uninitInsertN hq _ _ _) (fun _ => NeverExn.pure _))))))))))

theorem noExn_front8 (p10 p20 p30 q10 q20 q30 q40 g : Ptr) (n : Nat) (px : Proxy α) :
    NeverExn (front8 E p10 p20 p30 q10 q20 q30 q40 g n px) := by
  unfold front8 guard
  exact NeverExn.bind (NeverExn.distance _ _) (fun _ => NeverExn.bind (NeverExn.uninitMove hq _ _ _) (fun _ => NeverExn.tryCatch
    (NeverExn.bind (noExn_moveFwdNe hq _ _ _) (fun _ => NeverExn.bind (noExn_insertN hq _ _ _) (fun _ =>
      NeverExn.bind (noExn_moveFwdNe hq _ _ _) (fun _ => NeverExn.destroyRange _ _))))))

end quiet

/-! ### The choice of the case -/

/-- The layout in which insert_aux_shift_to_back has a wrong guard (devector.hpp:2712-2774). -/
def BackBug (p10 p20 p30 q20 q30 : Nat) : Prop := q30 ≥ p30 ∧ q20 < p20 ∧ q20 ≥ p10

/-- The layout in which insert_aux_shift_to_front has a wrong guard (devector.hpp:3655-3713). -/
def FrontBug (p10 p20 p30 q20 q30 q40 : Nat) : Prop := q20 > p10 ∧ q30 ≤ p20 ∧ p20 < q40 ∧ q40 ≤ p30

section
variable {p10 p20 p30 q10 q20 q30 q40 n : Nat} {px : Proxy α} {vs : List α}
  (h : Row H s al b cap nx (fun i => p10 ≤ i ∧ i < p30)) (hp : px.Has H E vs) (hn : vs.length = n)
  (h12 : p10 ≤ p20) (h23 : p20 ≤ p30) (e2 : q20 = q10 + (p20 - p10)) (e3 : q30 = q20 + n)
  (e4 : q40 = q30 + (p30 - p20)) (hc : q40 ≤ cap)
include h hp hn h12 h23 e2 e3 e4 hc

theorem shiftBackMem_spec (c0 : q40 > p30) :
    wp (shiftBackMem E ⟨b, p10⟩ ⟨b, p20⟩ ⟨b, p30⟩ ⟨b, q10⟩ ⟨b, q20⟩ ⟨b, q30⟩ ⟨b, q40⟩ n px)
      (Good H s al b cap nx p10 p20 q10 q20 q30 q40 vs)
      (fun e s' => e = .elem ∧ (px.isOne = true → ¬ NothrowMove E) ∧
        (BackBug p10 p20 p30 q20 q30 ∧ (∀ t, E.throws t = false) → False) ∧
        (¬ BackBug p10 p20 p30 q20 q30 → Row H s' al b cap nx (fun i => p10 ≤ i ∧ i < p30))) s := by
  have good : ¬ BackBug p10 p20 p30 q20 q30 → ∀ {m : M (St α) Unit},
      wp m (Good H s al b cap nx p10 p20 q10 q20 q30 q40 vs) (Bad H E px al b cap nx p10 p30) s →
      wp m (Good H s al b cap nx p10 p20 q10 q20 q30 q40 vs) (fun e s' => e = .elem ∧ (px.isOne = true → ¬ NothrowMove E) ∧
        (BackBug p10 p20 p30 q20 q30 ∧ (∀ t, E.throws t = false) → False) ∧
        (¬ BackBug p10 p20 p30 q20 q30 → Row H s' al b cap nx (fun i => p10 ≤ i ∧ i < p30))) s :=
    fun hb m hm => wp_mono hm (fun _ _ h => h) (fun _ _ h => ⟨h.1, h.2.1, fun h' => hb h'.1, fun _ => h.2.2⟩)
  unfold shiftBackMem
  dsimp only
  by_cases k1 : q30 ≥ p30
  · rw [if_pos k1]
    by_cases k2 : q20 ≥ p30
    · rw [if_pos k2]
      have nb : ¬ BackBug p10 p20 p30 q20 q30 := by unfold BackBug; omega
      by_cases k3 : q10 ≥ p30
      · rw [if_pos k3]; exact good nb (back1_spec h hp hn h12 h23 e2 e3 e4 hc c0 k3)
      rw [if_neg k3]
      by_cases k4 : q10 ≥ p20
      · rw [if_pos k4]; exact good nb (back2_spec h hp hn h12 h23 e2 e3 e4 hc c0 k2 (by omega) k4)
      rw [if_neg k4, if_pos (by omega)]
      exact good nb (back3_spec h hp hn h12 h23 e2 e3 e4 hc c0 k2 (by omega) (by omega))
    rw [if_neg k2]
    by_cases k3 : q20 ≥ p20
    · rw [if_pos k3]
      have nb : ¬ BackBug p10 p20 p30 q20 q30 := by unfold BackBug; omega
      by_cases k4 : q10 ≥ p20
      · rw [if_pos k4]; exact good nb (back4_spec h hp hn h12 h23 e2 e3 e4 hc c0 k1 (by omega) k4)
      rw [if_neg k4, if_pos (by omega)]
      exact good nb (back5_spec h hp hn h12 h23 e2 e3 e4 hc c0 k1 (by omega) k3 (by omega) (by omega))
    rw [if_neg k3]
    by_cases k4 : q20 ≥ p10
    · rw [if_pos k4]
      have yb : BackBug p10 p20 p30 q20 q30 := ⟨k1, by omega, k4⟩
      by_cases hq : ∀ t, E.throws t = false
      · exact (noExn_back6 hq _ _ _ _ _ _ _ _).wp (back6_spec h hp hn h12 h23 e2 e3 e4 hc c0 k1 (by omega) k4)
      · exact wp_mono (back6_spec h hp hn h12 h23 e2 e3 e4 hc c0 k1 (by omega) k4) (fun _ _ h => h)
          (fun _ _ h => ⟨h.1, h.2, fun h' => hq h'.2, fun h' => absurd yb h'⟩)
    · rw [if_neg k4]
      exact good (by unfold BackBug; omega) (back7_spec h hp hn h12 h23 e2 e3 e4 hc c0 k1 (by omega))
  · rw [if_neg k1]
    have nb : ¬ BackBug p10 p20 p30 q20 q30 := by unfold BackBug; omega
    by_cases k2 : q20 ≥ p20
    · rw [if_pos k2]
      by_cases k3 : q10 ≥ p20
      · rw [if_pos k3]; exact good nb (back8_spec h hp hn h12 h23 e2 e3 e4 hc c0 (by omega) k3)
      rw [if_neg k3, if_pos (by omega)]
      exact good nb (back9_spec h hp hn h12 h23 e2 e3 e4 hc c0 (by omega) k2 (by omega) (by omega))
    rw [if_neg k2]
    by_cases k3 : q20 ≥ p10
    · rw [if_pos k3]; exact good nb (back10_spec h hp hn h12 h23 e2 e3 e4 hc c0 (by omega) (by omega) k3)
    · rw [if_neg k3]; exact good nb (back11_spec h hp hn h12 h23 e2 e3 e4 hc c0 (by omega) (by omega))

theorem shiftFrontMem_spec (c0 : q10 < p10) :
    wp (shiftFrontMem E ⟨b, p10⟩ ⟨b, p20⟩ ⟨b, p30⟩ ⟨b, q10⟩ ⟨b, q20⟩ ⟨b, q30⟩ ⟨b, q40⟩ n px)
      (Good H s al b cap nx p10 p20 q10 q20 q30 q40 vs)
      (fun e s' => e = .elem ∧ (px.isOne = true → ¬ NothrowMove E) ∧
        (FrontBug p10 p20 p30 q20 q30 q40 ∧ (∀ t, E.throws t = false) → False) ∧
        (¬ FrontBug p10 p20 p30 q20 q30 q40 → Row H s' al b cap nx (fun i => p10 ≤ i ∧ i < p30))) s := by
  have good : ¬ FrontBug p10 p20 p30 q20 q30 q40 → ∀ {m : M (St α) Unit},
      wp m (Good H s al b cap nx p10 p20 q10 q20 q30 q40 vs) (Bad H E px al b cap nx p10 p30) s →
      wp m (Good H s al b cap nx p10 p20 q10 q20 q30 q40 vs) (fun e s' => e = .elem ∧ (px.isOne = true → ¬ NothrowMove E) ∧
        (FrontBug p10 p20 p30 q20 q30 q40 ∧ (∀ t, E.throws t = false) → False) ∧
        (¬ FrontBug p10 p20 p30 q20 q30 q40 → Row H s' al b cap nx (fun i => p10 ≤ i ∧ i < p30))) s :=
    fun hb m hm => wp_mono hm (fun _ _ h => h) (fun _ _ h => ⟨h.1, h.2.1, fun h' => hb h'.1, fun _ => h.2.2⟩)
  unfold shiftFrontMem
  dsimp only
  by_cases k1 : q20 ≤ p10
  · rw [if_pos k1]
    have nb : ¬ FrontBug p10 p20 p30 q20 q30 q40 := by unfold FrontBug; omega
    by_cases k2 : q30 ≤ p10
    · rw [if_pos k2]
      by_cases k3 : q40 ≤ p10
      · rw [if_pos k3]; exact good nb (front1_spec h hp hn h12 h23 e2 e3 e4 hc c0 k3)
      rw [if_neg k3]
      have := good nb (front2_spec h hp hn h12 h23 e2 e3 e4 hc c0 k2 (by omega) (by omega))
      split
      · exact this
      · rw [if_pos (by omega)]; exact this
    rw [if_neg k2]
    by_cases k3 : q30 ≤ p20
    · rw [if_pos k3]
      have := good nb (front4_spec h hp hn h12 h23 e2 e3 e4 hc c0 k1 (by omega) k3 (by omega))
      split
      · exact this
      · rw [if_pos (by omega)]; exact this
    rw [if_neg k3]
    by_cases k4 : q30 ≤ p30
    · rw [if_pos k4]; exact good nb (front6_spec h hp hn h12 h23 e2 e3 e4 hc c0 k1 (by omega) k4)
    · rw [if_neg k4]; exact good nb (front7_spec h hp hn h12 h23 e2 e3 e4 hc c0 k1 (by omega))
  · rw [if_neg k1]
    by_cases k2 : q30 ≤ p20
    · rw [if_pos k2]
      by_cases k3 : q40 ≤ p20
      · rw [if_pos k3]
        exact good (by unfold FrontBug; omega) (front8_spec h hp hn h12 h23 e2 e3 e4 hc c0 (by omega) k2 (by omega))
      rw [if_neg k3, if_pos (by omega)]
      have yb : FrontBug p10 p20 p30 q20 q30 q40 := ⟨by omega, k2, by omega, by omega⟩
      have hb := front8_bug_spec h hp hn h12 h23 e2 e3 e4 hc c0 (by omega) k2 (by omega)
      by_cases hq : ∀ t, E.throws t = false
      · exact (noExn_front8 hq _ _ _ _ _ _ _ _ _ _).wp hb
      · exact wp_mono hb (fun _ _ h => h)
          (fun _ _ h => ⟨h.1, h.2, fun h' => hq h'.2, fun h' => absurd yb h'⟩)
    · rw [if_neg k2]
      have nb : ¬ FrontBug p10 p20 p30 q20 q30 q40 := by unfold FrontBug; omega
      by_cases k3 : q30 ≤ p30
      · rw [if_pos k3]; exact good nb (front10_spec h hp hn h12 h23 e2 e3 e4 hc c0 (by omega) (by omega) k3)
      · rw [if_neg k3]; exact good nb (front11_spec h hp hn h12 h23 e2 e3 e4 hc c0 (by omega) (by omega))

end

end Devector
end Sfl
