import Verif.OwnSpec
/-
  Correctness of `swap` of vector and small_vector.
-/

set_option linter.unusedSimpArgs false

namespace Sfl
open Sfl.Vector (VM)
variable {α : Type} {E : Env α} {H : Heap α} {N : Nat} {m m' s : St α}
variable {ib1 ib2 al1 b1 cap1 al2 b2 cap2 : Nat} {v1 v2 : Vec} {xs1 xs2 : List α}

/-- The two containers exchange or rewrite their storage without touching anything else. -/
theorem Pair.remake {v1' v2' : Vec} {al1' b1' cap1' al2' b2' cap2' : Nat} {xs1' xs2' : List α}
    (h : Pair H E N ib1 ib2 m v1 v2 al1 b1 cap1 xs1 al2 b2 cap2 xs2) (hs : Same m m')
    (hm : ∀ c, c ≠ b1 → c ≠ ib1 → c ≠ b2 → c ≠ ib2 → ∀ i, m'.mem c i = m.mem c i) (hz : ∀ i, m'.mem 0 i = none)
    (one : Own E ib1 N m' v1' al1' b1' cap1' xs1') (two : Own E ib2 N m' v2' al2' b2' cap2' xs2')
    (sep : Sep b1' ib1 b2' ib2)
    (hF : ∀ c, ((c = b1' ∨ c = ib1) ∨ (c = b2' ∨ c = ib2)) ↔ ((c = b1 ∨ c = ib1) ∨ (c = b2 ∨ c = ib2))) :
    Pair H E N ib1 ib2 m' v1' v2' al1' b1' cap1' xs1' al2' b2' cap2' xs2' := by
  refine ⟨⟨by rw [hs.next]; exact h.wf.next_pos, by rw [hs.blk]; exact h.wf.blk_zero, ?_, ?_⟩, one, two, sep, ?_⟩
  · intro b; rw [hs.next, hs.blk]; exact h.wf.fresh b
  · intro c hc i
    rw [hs.blk] at hc
    by_cases h0 : c = 0
    · rw [h0]; exact hz i
    · have k1 : c ≠ b1 := fun e => by obtain ⟨j, hj⟩ := h.one.b_some (e ▸ h0); rw [← e, hc] at hj; simp at hj
      have k2 : c ≠ b2 := fun e => by obtain ⟨j, hj⟩ := h.two.b_some (e ▸ h0); rw [← e, hc] at hj; simp at hj
      have k3 : c ≠ ib1 := fun e => by have hj := h.one.ib_some (e ▸ h0); rw [← e, hc] at hj; simp at hj
      have k4 : c ≠ ib2 := fun e => by have hj := h.two.ib_some (e ▸ h0); rw [← e, hc] at hj; simp at hj
      rw [hm c k1 k3 k2 k4]; exact h.wf.dead c hc i
  · refine ⟨fun c hc i => ?_, fun c hc => ?_, fun c hc i => ?_, fun c hc => ?_⟩
    · rw [hF] at hc
      rw [← h.rest.mem c hc i]
      exact hm c (fun e => hc (Or.inl (Or.inl e))) (fun e => hc (Or.inl (Or.inr e))) (fun e => hc (Or.inr (Or.inl e)))
        (fun e => hc (Or.inr (Or.inr e))) i
    · rw [hF] at hc
      rw [hs.blk]; exact h.rest.blk c hc
    · rw [hF] at hc; exact h.rest.hmem c hc i
    · rw [hF] at hc; exact h.rest.hblk c hc

/-- The element exchange of two internal storages, `n ≤ k`. -/
def swapHalf (E : Env α) (p q : Ptr) (n k : Nat) : M (St α) Unit := do
  swapRanges E p q n
  let _ ← uninitMove E (q.add n) (q.add k) (p.add n)
  destroyRange (q.add n) (q.add k)

theorem wp_swapHalf {bp bq : Nat} {xs ys : List α} {Q : Unit → St α → Prop} {X : Exn → St α → Prop}
    (hp : ∀ i, s.mem bp i = xs[i]?) (hq : ∀ i, s.mem bq i = ys[i]?)
    (hn : xs.length ≤ ys.length) (hne : ys ≠ [] → bp ≠ bq)
    (hin : ∀ i, i < ys.length → s.inB ⟨bp, i⟩ = true)
    (hQ : ∀ s', Same s s' → (∀ i, s'.mem bp i = ys[i]?) → (∀ i, s'.mem bq i = xs[i]?) →
      (∀ c, c ≠ bp → c ≠ bq → ∀ i, s'.mem c i = s.mem c i) → Q () s')
    (hX : ¬ NothrowMove E → ∀ s', Same s s' → (∀ i, (s'.mem bp i).isSome ↔ i < xs.length) →
      (∀ i, (s'.mem bq i).isSome ↔ i < ys.length) →
      (∀ c, c ≠ bp → c ≠ bq → ∀ i, s'.mem c i = s.mem c i) → X .elem s') :
    wp (swapHalf E ⟨bp, 0⟩ ⟨bq, 0⟩ xs.length ys.length) Q X s := by
  unfold swapHalf
  by_cases hys : ys = []
  · have hxs : xs = [] := List.length_eq_zero_iff.mp (by rw [hys] at hn; simpa using hn)
    subst hys; subst hxs
    rw [wp_bind]
    unfold swapRanges uninitMove
    simp only [wp_pure, wp_bind, List.length_nil]
    refine wp_distance rfl (by simp) ?_
    refine wp_uninit_mv (by simp) (by simp) (by simp) ?_ ?_
    · intro s1 hs1 _ hm1
      refine wp_destroyRange rfl (by simp) (by simp) ?_
      intro s2 hs2 _ hm2
      have hm : ∀ c i, s2.mem c i = s.mem c i := fun c i => by
        rw [hm2, if_neg (by simp [Ptr.has]), hm1, if_neg (by simp [Ptr.has]), if_neg (by simp [Ptr.has])]
      exact hQ s2 (hs1.trans hs2) (fun i => by rw [hm, hp]) (fun i => by rw [hm, hq]) (fun c _ _ i => hm c i)
    · intro hE s1 hs1 hm1
      have hm : ∀ c i, s1.mem c i = s.mem c i := fun c i => by
        rcases hm1 c i with h | ⟨h, _⟩
        · exact h
        · simp [Ptr.has] at h
      refine hX (fun h => by simp [h.1] at hE) s1 hs1 ?_ ?_ (fun c _ _ i => hm c i)
      · intro i; rw [hm, hp]; simp
      · intro i; rw [hm, hq]; simp
  · have hb := hne hys
    rw [wp_bind]
    refine wp_swapRanges ?_ ?_ hb ?_ ?_
    · intro i h1 h2; simp only at h1 h2 ⊢; rw [hp]; simp; omega
    · intro i h1 h2; simp only at h1 h2 ⊢; rw [hq]; simp; omega
    · intro s1 hs1 hm1
      have hp1 : ∀ i, s1.mem bp i = if i < xs.length then ys[i]? else none := by
        intro i; rw [hm1]
        by_cases hi : i < xs.length
        · rw [if_pos (by simp [Ptr.has, hi]), if_pos hi]; simp [hq]
        · rw [if_neg (by simp [Ptr.has, hi]), if_neg (by simp [Ptr.has, hb]), if_neg hi, hp]; simp; omega
      have hq1 : ∀ i, s1.mem bq i = if i < xs.length then xs[i]? else ys[i]? := by
        intro i; rw [hm1, if_neg (by simp [Ptr.has, Ne.symm hb])]
        by_cases hi : i < xs.length
        · rw [if_pos (by simp [Ptr.has, hi]), if_pos hi]; simp [hp]
        · rw [if_neg (by simp [Ptr.has, hi]), if_neg hi, hq]
      have ho1 : ∀ c, c ≠ bp → c ≠ bq → ∀ i, s1.mem c i = s.mem c i := by
        intro c h1 h2 i; rw [hm1, if_neg (by simp [Ptr.has, h1]), if_neg (by simp [Ptr.has, h2])]
      clear hm1
      rw [wp_bind]
      unfold uninitMove
      rw [wp_bind]
      refine wp_distance rfl (by simp; omega) ?_
      refine wp_uninit_mv ?_ ?_ ?_ ?_ ?_
      · intro i h1 h2; simp at h1 h2 ⊢; rw [hq1, if_neg (by omega)]; simp; omega
      · intro j hj; rw [hs1.inB]; simp at hj ⊢; exact hin _ (by simp; omega)
      · intro i h1 h2; simp at h1 h2 ⊢; rw [hp1, if_neg (by omega)]
      · intro s2 hs2 _ hm2
        refine wp_destroyRange rfl (by simp; omega) ?_ ?_
        · intro i h1 h2
          simp at h1 h2 ⊢
          rw [hm2, if_neg (by simp [Ptr.has, Ne.symm hb]), if_pos (by simp [Ptr.has]; omega), hq1, if_neg (by omega)]
          simp; omega
        · intro s3 hs3 _ hm3
          simp only [Ptr.add_blk, Ptr.add_off, Nat.zero_add] at hm2 hm3
          refine hQ s3 ((hs1.trans hs2).trans hs3) ?_ ?_ ?_
          · intro i
            rw [hm3, if_neg (by simp [Ptr.has, hb]), hm2]
            by_cases h1 : xs.length ≤ i ∧ i < ys.length
            · rw [if_pos (by simp [Ptr.has]; omega), hq1]
              rw [if_neg (by omega)]
              congr 1; omega
            · rw [if_neg (by simp [Ptr.has]; omega), if_neg (by simp [Ptr.has, hb]), hp1]
              split
              · rfl
              · symm; simp; omega
          · intro i
            rw [hm3]
            by_cases h1 : xs.length ≤ i ∧ i < ys.length
            · rw [if_pos (by simp [Ptr.has]; omega)]; symm; simp; omega
            · rw [if_neg (by simp [Ptr.has]; omega), hm2, if_neg (by simp [Ptr.has, Ne.symm hb]), if_neg (by simp [Ptr.has]; omega), hq1]
              split
              · rfl
              · have e1 : ys[i]? = none := List.getElem?_eq_none (by omega)
                have e2 : xs[i]? = none := List.getElem?_eq_none (by omega)
                rw [e1, e2]
          · intro c h1 h2 i
            rw [hm3, if_neg (by simp [Ptr.has, h2]), hm2, if_neg (by simp [Ptr.has, h1]), if_neg (by simp [Ptr.has, h2])]
            exact ho1 c h1 h2 i
      · intro hE s2 hs2 hm2
        simp only [Ptr.add_blk, Ptr.add_off, Nat.zero_add] at hm2
        refine hX (fun h => by simp [h.1] at hE) s2 (hs1.trans hs2) ?_ ?_ ?_
        · intro i
          rcases hm2 bp i with h1 | ⟨h1, _⟩
          · rw [h1, hp1]; split
            · simp; omega
            · simp; omega
          · exact absurd h1.1 hb
        · intro i
          rcases hm2 bq i with h1 | ⟨⟨_, h1, h3⟩, h2⟩
          · rw [h1, hq1]; split
            · simp; omega
            · simp
          · simp at h1 h3; simp [h2]; omega
        · intro c h1 h2 i
          rcases hm2 c i with h3 | ⟨h3, _⟩
          · rw [h3]; exact ho1 c h1 h2 i
          · exact absurd h3.1 h2
    · intro hE s1 hs1 hm1
      refine hX hE s1 hs1 ?_ ?_ ?_
      · intro i
        have := hm1 bp i
        by_cases hi : i < xs.length
        · rw [if_pos (Or.inl (by simp [Ptr.has, hi]))] at this; simp [this, hi]
        · rw [if_neg (by simp [Ptr.has, hi])] at this; rw [this, hp]; simp
      · intro i
        have := hm1 bq i
        by_cases hi : i < xs.length
        · rw [if_pos (Or.inr (by simp [Ptr.has, hi]))] at this; simp [this]; omega
        · rw [if_neg (by simp [Ptr.has, hi])] at this; rw [this, hq]; simp
      · intro c h1 h2 i
        have := hm1 c i
        rwa [if_neg (by simp [Ptr.has, h1, h2])] at this

/-- Elements moved from one block to raw memory, the source destroyed. -/
theorem wp_moveOut {bp bq : Nat} {xs : List α} {Q : Ptr → St α → Prop} {X : Exn → St α → Prop}
    (hp : ∀ i, s.mem bp i = xs[i]?) (hq : ∀ i, s.mem bq i = none) (hne : xs ≠ [] → bp ≠ bq)
    (hin : ∀ i, i < xs.length → s.inB ⟨bq, i⟩ = true)
    (hQ : ∀ s', Same s s' → (∀ i, s'.mem bq i = xs[i]?) → (bp ≠ bq → ∀ i, s'.mem bp i = none) →
      (∀ c, c ≠ bp → c ≠ bq → ∀ i, s'.mem c i = s.mem c i) → Q ⟨bq, xs.length⟩ s')
    (hX : ¬ NothrowMove E → ∀ s', Same s s' → (∀ i, (s'.mem bp i).isSome ↔ i < xs.length) →
      (∀ c, c ≠ bp → ∀ i, s'.mem c i = s.mem c i) → X .elem s') :
    wp (do let l ← uninitMove E ⟨bp, 0⟩ ⟨bp, xs.length⟩ ⟨bq, 0⟩; destroyRange ⟨bp, 0⟩ ⟨bp, xs.length⟩; pure l) Q X s := by
  rw [wp_bind]
  unfold uninitMove
  rw [wp_bind]
  refine wp_distance rfl (by simp) ?_
  simp only [Nat.sub_zero]
  have hnil : bp = bq → xs = [] := fun e => Classical.byContradiction fun h => hne h e
  refine wp_uninit_mv ?_ ?_ ?_ ?_ ?_
  · intro i h1 h2; simp at h1 h2 ⊢; rw [hp]; simp; omega
  · intro j hj; simpa [Ptr.add] using hin _ hj
  · intro i h1 h2; exact hq i
  · intro s1 hs1 _ hm1
    rw [wp_bind]
    have e1 : ∀ i, s1.mem bp i = xs[i]?.map E.moved ∨ (bp = bq ∧ xs = []) := by
      intro i
      by_cases hb : bp = bq
      · exact Or.inr ⟨hb, hnil hb⟩
      · left
        rw [hm1, if_neg (by simp [Ptr.has, hb])]
        by_cases hi : i < xs.length
        · rw [if_pos (by simp [Ptr.has, hi]), hp]
        · rw [if_neg (by simp [Ptr.has, hi]), hp]
          have : xs[i]? = none := List.getElem?_eq_none (by omega)
          rw [this]; rfl
    refine wp_destroyRange rfl (by simp) ?_ ?_
    · intro i h1 h2
      simp at h1 h2 ⊢
      rcases e1 i with e | ⟨_, e⟩
      · rw [e]; simp; omega
      · rw [e] at h2; simp at h2
    · intro s2 hs2 _ hm2
      rw [wp_pure]
      simp only [Nat.sub_zero] at hm2
      have := hQ s2 (hs1.trans hs2) ?_ ?_ ?_
      · simpa [Ptr.add] using this
      · intro i
        by_cases hb : bp = bq
        · have := hnil hb; subst this
          rw [hm2, if_neg (by simp [Ptr.has]), hm1, if_neg (by simp [Ptr.has]), if_neg (by simp [Ptr.has]), hq]; simp
        · rw [hm2, if_neg (by simp [Ptr.has, Ne.symm hb]), hm1]
          by_cases hi : i < xs.length
          · rw [if_pos (by simp [Ptr.has, hi])]; simp [hp]
          · rw [if_neg (by simp [Ptr.has, hi]), if_neg (by simp [Ptr.has, hi]), hq]; symm; simp; omega
      · intro hb i
        rw [hm2]
        by_cases hi : i < xs.length
        · rw [if_pos (by simp [Ptr.has, hi])]
        · rw [if_neg (by simp [Ptr.has, hi]), hm1, if_neg (by simp [Ptr.has, hi]), if_neg (by simp [Ptr.has, hi]), hp]; simp; omega
      · intro c h1 h2 i
        rw [hm2, if_neg (by simp [Ptr.has, h1]), hm1, if_neg (by simp [Ptr.has, h2]), if_neg (by simp [Ptr.has, h1])]
  · intro hE s1 hs1 hm1
    refine hX (fun h => by simp [h.1] at hE) s1 hs1 ?_ ?_
    · intro i
      rcases hm1 bp i with h1 | ⟨⟨_, h1, h3⟩, h2⟩
      · rw [h1, hp]; simp
      · simp at h1 h3; simp [h2, h3]
    · intro c h1 i
      rcases hm1 c i with h3 | ⟨h3, _⟩
      · exact h3
      · exact absurd h3.1 h1

theorem Own.inB {ib b cap al : Nat} {v : Vec} {xs : List α} (h : Own E ib N m v al b cap xs) {i : Nat} (hi : i < N)  :
    m.inB ⟨ib, i⟩ = true := by
  rcases h.ibk with ⟨_, h2⟩ | h2
  · omega
  · exact St.inB_of h2 (by simpa using hi)

theorem Own.internal {ib b cap al : Nat} {v : Vec} {xs : List α} (h : Own E ib N m v al b cap xs) (hb : b = ib) :
    xs.length ≤ N ∧ (b ≠ 0 → cap = N) := by
  have := h.len
  rcases h.own with ⟨_, k⟩ | ⟨k1, k⟩ | ⟨_, _, k, _⟩
  · exact ⟨by omega, fun _ => k⟩
  · exact ⟨by omega, fun h0 => absurd k1 h0⟩
  · exact absurd hb k

/-- What `swap` does when it succeeds. -/
def Swapped (H : Heap α) (E : Env α) (N ib1 ib2 al1 al2 : Nat) (xs1 xs2 : List α) (o : Obj (Vec × Vec) α) : Prop :=
  ∃ b1 cap1 b2 cap2, Pair H E N ib1 ib2 o.m o.obj.1 o.obj.2 al2 b1 cap1 xs2 al1 b2 cap2 xs1

/-- What `swap` leaves behind when a move operation of the element type throws. -/
def SwapFail (H : Heap α) (E : Env α) (N ib1 ib2 al1 al2 : Nat) (xs1 xs2 : List α) (o : Obj (Vec × Vec) α) : Prop :=
  ¬ NothrowMove E ∧ ∃ b1 cap1 b2 cap2 ys1 ys2, ys1.length = xs1.length ∧ ys2.length = xs2.length ∧
    Pair H E N ib1 ib2 o.m o.obj.1 o.obj.2 al2 b1 cap1 ys1 al1 b2 cap2 ys2

theorem Swapped.symm {o : Obj (Vec × Vec) α} (h : Swapped H E N ib1 ib2 al1 al2 xs1 xs2 o) :
    Swapped H E N ib2 ib1 al2 al1 xs2 xs1 ⟨(o.obj.2, o.obj.1), o.m⟩ := by
  obtain ⟨b1, cap1, b2, cap2, h⟩ := h
  exact ⟨b2, cap2, b1, cap1, h.symm⟩

theorem SwapFail.symm {o : Obj (Vec × Vec) α} (h : SwapFail H E N ib1 ib2 al1 al2 xs1 xs2 o) :
    SwapFail H E N ib2 ib1 al2 al1 xs2 xs1 ⟨(o.obj.2, o.obj.1), o.m⟩ := by
  obtain ⟨hE, b1, cap1, b2, cap2, ys1, ys2, h1, h2, h⟩ := h
  exact ⟨hE, b2, cap2, b1, cap1, ys2, ys1, h2, h1, h.symm⟩

/-- Data members after the exchange of the allocators. -/
def swapped (b cap n al : Nat) : Vec := ⟨⟨b, 0⟩, ⟨b, n⟩, ⟨b, cap⟩, al⟩

theorem internal_le (h : Pair H E N ib1 ib2 m v1 v2 al1 ib1 cap1 xs1 al2 ib2 cap2 xs2)
    (hn : xs1.length ≤ xs2.length) :
    wp (swapHalf E ⟨ib1, 0⟩ ⟨ib2, 0⟩ xs1.length xs2.length)
      (fun _ m' => Pair H E N ib1 ib2 m' (swapped ib1 cap1 xs2.length al2) (swapped ib2 cap2 xs1.length al1)
        al2 ib1 cap1 xs2 al1 ib2 cap2 xs1)
      (fun _ m' => ¬ NothrowMove E ∧ ∃ ys1 ys2, ys1.length = xs1.length ∧ ys2.length = xs2.length ∧
        Pair H E N ib1 ib2 m' (swapped ib1 cap1 xs1.length al2) (swapped ib2 cap2 xs2.length al1)
        al2 ib1 cap1 ys1 al1 ib2 cap2 ys2) m := by
  have i1 := h.one.internal rfl
  have i2 := h.two.internal rfl
  have hb : xs2 ≠ [] → ib1 ≠ ib2 := by
    intro hx he
    by_cases h0 : ib1 = 0
    · exact hx (h.two.nil_of_zero h.wf (he ▸ h0))
    · exact h.sep.bb h0 he
  have hcap1 : xs2.length ≤ cap1 := by
    by_cases h0 : ib1 = 0
    · have : N = 0 := by
        rcases h.one.ibk with ⟨_, k⟩ | k
        · exact k
        · rw [h0, h.wf.blk_zero] at k; simp at k
      omega
    · rw [i1.2 h0]; exact i2.1
  have hcap2 : xs1.length ≤ cap2 := by have := h.two.len; omega
  have own : ∀ (b ib cap : Nat) (al : Nat), b = ib → ((b = ib ∧ cap = N) ∨ (b = 0 ∧ cap = 0) ∨
    (N < cap ∧ b ≠ 0 ∧ b ≠ ib ∧ m.blk b = some ⟨cap, some al⟩)) → ∀ (m' : St α) (al' : Nat), (b = ib ∧ cap = N) ∨ (b = 0 ∧ cap = 0) ∨
    (N < cap ∧ b ≠ 0 ∧ b ≠ ib ∧ m'.blk b = some ⟨cap, some al'⟩) := by
    intro b ib cap al hbi k m' al'
    rcases k with k | k | ⟨_, _, k, _⟩
    · exact Or.inl k
    · exact Or.inr (Or.inl k)
    · exact absurd hbi k
  refine wp_swapHalf h.one.cells h.two.cells hn hb (fun i hi => h.one.inB (by omega)) ?_ ?_
  · intro m' hs hp hq ho
    refine h.remake hs (fun c h1 _ h3 _ => ho c h1 h3) ?_ ?_ ?_ h.sep (fun c => Iff.rfl)
    · intro i
      by_cases k1 : ib1 = 0
      · rw [← k1, hp]
        have : xs2 = [] := by
          refine List.length_eq_zero_iff.mp ?_
          rcases h.one.ibk with ⟨_, k⟩ | k
          · omega
          · rw [k1, h.wf.blk_zero] at k; simp at k
        rw [this]; simp
      · by_cases k2 : ib2 = 0
        · rw [← k2, hq]
          have : xs1 = [] := by
            refine List.length_eq_zero_iff.mp ?_
            rcases h.two.ibk with ⟨_, k⟩ | k
            · omega
            · rw [k2, h.wf.blk_zero] at k; simp at k
          rw [this]; simp
        · rw [ho 0 (Ne.symm k1) (Ne.symm k2)]; exact h.wf.dead 0 h.wf.blk_zero i
    · exact ⟨rfl, by rw [hs.blk]; exact h.one.ibk, own _ _ _ _ rfl h.one.own _ _, fun h' => absurd rfl h', hcap1, hp, h.one.capLe, h.one.nLe⟩
    · exact ⟨rfl, by rw [hs.blk]; exact h.two.ibk, own _ _ _ _ rfl h.two.own _ _, fun h' => absurd rfl h', hcap2, hq, h.two.capLe, h.two.nLe⟩
  · intro hE m' hs hp hq ho
    obtain ⟨ys1, k1, k2⟩ := exists_list xs1.length hp
    obtain ⟨ys2, k3, k4⟩ := exists_list xs2.length hq
    refine ⟨hE, ys1, ys2, k1, k3, ?_⟩
    refine h.remake hs (fun c h1 _ h3 _ => ho c h1 h3) ?_ ?_ ?_ h.sep (fun c => Iff.rfl)
    · intro i
      by_cases e1 : ib1 = 0
      · have : ¬ (m'.mem ib1 i).isSome := by
          rw [hp, h.one.nil_of_zero h.wf e1]; simp
        rw [← e1]; simpa using this
      · by_cases e2 : ib2 = 0
        · have : ¬ (m'.mem ib2 i).isSome := by
            rw [hq, h.two.nil_of_zero h.wf e2]; simp
          rw [← e2]; simpa using this
        · rw [ho 0 (Ne.symm e1) (Ne.symm e2)]; exact h.wf.dead 0 h.wf.blk_zero i
    · exact ⟨by rw [k1]; rfl, by rw [hs.blk]; exact h.one.ibk, own _ _ _ _ rfl h.one.own _ _, fun h' => absurd rfl h',
        by rw [k1]; exact h.one.len, k2, h.one.capLe, h.one.nLe⟩
    · exact ⟨by rw [k3]; rfl, by rw [hs.blk]; exact h.two.ibk, own _ _ _ _ rfl h.two.own _ _, fun h' => absurd rfl h',
        by rw [k3]; exact h.two.len, k4, h.two.capLe, h.two.nLe⟩

theorem internal_heap (h : Pair H E N ib1 ib2 m v1 v2 al1 ib1 cap1 xs1 al2 b2 cap2 xs2) (hb2 : b2 ≠ ib2)
    (hp : NothrowMove E ∨ al1 = al2) :
    wp (do let l ← uninitMove E ⟨ib1, 0⟩ ⟨ib1, xs1.length⟩ ⟨ib2, 0⟩; destroyRange ⟨ib1, 0⟩ ⟨ib1, xs1.length⟩; pure l)
      (fun l m' => l = ⟨ib2, xs1.length⟩ ∧ Pair H E N ib1 ib2 m' (swapped b2 cap2 xs2.length al2) (swapped ib2 N xs1.length al1)
        al2 b2 cap2 xs2 al1 ib2 N xs1)
      (fun _ m' => ¬ NothrowMove E ∧ ∃ ys1, ys1.length = xs1.length ∧
        Pair H E N ib1 ib2 m' (swapped ib1 cap1 xs1.length al2) (swapped b2 cap2 xs2.length al1)
        al2 ib1 cap1 ys1 al1 b2 cap2 xs2) m := by
  have i1 := h.one.internal rfl
  have hz : ∀ i, m.mem 0 i = none := h.wf.dead 0 h.wf.blk_zero
  have hb : xs1 ≠ [] → ib1 ≠ ib2 := by
    intro hx he
    by_cases h0 : ib1 = 0
    · exact hx (h.one.nil_of_zero h.wf h0)
    · exact h.sep.bi h0 he
  have hn : ib1 = 0 ∨ ib2 = 0 → xs1 = [] := by
    rintro (h0 | h0)
    · exact h.one.nil_of_zero h.wf h0
    · have := h.two.zero_N h.wf h0
      exact List.length_eq_zero_iff.mp (by omega)
  refine wp_moveOut h.one.cells (h.two.iraw hb2) hb (fun i hi => h.two.inB (by omega)) ?_ ?_
  · intro m' hs h1 h2 h3
    have hz' : ∀ i, m'.mem 0 i = none := by
      intro i
      by_cases e2 : ib2 = 0
      · rw [← e2, h1, hn (Or.inr e2)]; simp
      · by_cases e1 : ib1 = 0
        · rw [← e1]; exact h2 (fun e => e2 (e ▸ e1)) i
        · rw [h3 0 (Ne.symm e1) (Ne.symm e2)]; exact hz i
    have hm2 : ∀ i, m'.mem b2 i = xs2[i]? := by
      intro i
      by_cases e : b2 = 0
      · rw [e, hz', h.two.nil_of_zero h.wf e]; simp
      · rw [h3 b2 (h.sep.symm.bi e) hb2]; exact h.two.cells i
    refine ⟨rfl, h.remake hs (fun c k1 _ _ k4 => h3 c k1 k4) hz' ?_ ?_ ?_ ?_⟩
    · refine ⟨rfl, by rw [hs.blk]; exact h.one.ibk, ?_, ?_, h.two.len, hm2, h.two.capLe, h.one.nLe⟩
      · rcases h.two.own with ⟨k, _⟩ | k | ⟨k1, k2, k3, k4⟩
        · exact absurd k hb2
        · exact Or.inr (Or.inl k)
        · exact Or.inr (Or.inr ⟨k1, k2, h.sep.symm.bi k2, by rw [hs.blk]; exact k4⟩)
      · intro _ i
        by_cases e : ib1 = ib2
        · have : ib1 = 0 := Classical.byContradiction fun h0 => h.sep.bi h0 e
          rw [this]; exact hz' i
        · exact h2 e i
    · exact ⟨rfl, by rw [hs.blk]; exact h.two.ibk, Or.inl ⟨rfl, rfl⟩, fun k => absurd rfl k, i1.1, h1, h.one.nLe, h.one.nLe⟩
    · exact ⟨fun _ => hb2, fun _ => hb2, fun h0 => h.sep.bi h0, fun h0 => h.sep.bi h0⟩
    · intro c; grind
  · intro hE m' hs h1 h2
    have hal : al1 = al2 := hp.resolve_left hE
    obtain ⟨ys1, k1, k2⟩ := exists_list xs1.length h1
    refine ⟨hE, ys1, k1, h.remake hs (fun c k1 _ _ k4 => h2 c k1) ?_ ?_ ?_ h.sep (fun c => Iff.rfl)⟩
    · intro i
      by_cases e1 : ib1 = 0
      · have : ys1 = [] := List.length_eq_zero_iff.mp (by rw [k1, hn (Or.inl e1)]; rfl)
        rw [← e1, k2, this]; simp
      · rw [h2 0 (Ne.symm e1)]; exact hz i
    · refine ⟨by rw [k1]; rfl, by rw [hs.blk]; exact h.one.ibk, ?_, fun k => absurd rfl k, by rw [k1]; exact h.one.len, k2,
        h.one.capLe, h.one.nLe⟩
      rcases h.one.own with k | k | ⟨_, _, k, _⟩
      · exact Or.inl k
      · exact Or.inr (Or.inl k)
      · exact absurd rfl k
    · have hm2 : ∀ i, m'.mem b2 i = m.mem b2 i := by
        intro i
        by_cases e : b2 = ib1
        · have e0 : b2 = 0 := Classical.byContradiction fun h0 => h.sep.symm.bi h0 e
          have : ys1 = [] := List.length_eq_zero_iff.mp (by rw [k1, hn (Or.inl (e ▸ e0))]; rfl)
          rw [e0, hz, ← e0, e, k2, this]; simp
        · rw [h2 b2 e]
      have hmi : ∀ i, m'.mem ib2 i = m.mem ib2 i := by
        intro i
        by_cases e : ib2 = ib1
        · have e0 : ib2 = 0 := Classical.byContradiction fun h0 => h.sep.symm.ib h0 e
          have : ys1 = [] := List.length_eq_zero_iff.mp (by rw [k1, hn (Or.inr e0)]; rfl)
          rw [e0, hz, ← e0, e, k2, this]; simp
        · rw [h2 ib2 e]
      have := h.two.frame (m' := m') (by rw [hs.blk]) (by rw [hs.blk]) hm2 hmi
      rw [h.two.obj, ← hal] at this
      exact this

theorem heap_heap (h : Pair H E N ib1 ib2 m v1 v2 al1 b1 cap1 xs1 al2 b2 cap2 xs2) (hb1 : b1 ≠ 0 → b1 ≠ ib1)
    (hb2 : b2 ≠ 0 → b2 ≠ ib2) :
    Pair H E N ib1 ib2 m (swapped b2 cap2 xs2.length al2) (swapped b1 cap1 xs1.length al1)
        al2 b2 cap2 xs2 al1 b1 cap1 xs1 := by
  refine h.remake (Same.refl m) (fun _ _ _ _ _ _ => rfl) (h.wf.dead 0 h.wf.blk_zero) ?_ ?_ ?_ ?_
  · refine ⟨rfl, h.one.ibk, ?_, fun _ => h.one.raw' h.wf hb1, h.two.len, h.two.cells, h.two.capLe, h.two.nLe⟩
    rcases h.two.heap h.wf hb2 with k | ⟨k1, k2, k4⟩
    · exact Or.inr (Or.inl k)
    · exact Or.inr (Or.inr ⟨k1, k2, h.sep.symm.bi k2, k4⟩)
  · refine ⟨rfl, h.two.ibk, ?_, fun _ => h.two.raw' h.wf hb2, h.one.len, h.one.cells, h.one.capLe, h.one.nLe⟩
    rcases h.one.heap h.wf hb1 with k | ⟨k1, k2, k4⟩
    · exact Or.inr (Or.inl k)
    · exact Or.inr (Or.inr ⟨k1, k2, h.sep.bi k2, k4⟩)
  · exact ⟨fun h0 => h.sep.symm.bb h0, hb2, fun h0 he => hb1 (he ▸ h0) he.symm, fun h0 => h.sep.ii h0⟩
  · intro c; grind

theorem swapAlloc_spec {T : Traits} (h : Pair H E N ib1 ib2 m v1 v2 al1 b1 cap1 xs1 al2 b2 cap2 xs2)
    (hT : T.pocs = true ∨ al1 = al2) :
    wp (SmallVector.swapAlloc (α := α) T)
      (fun _ o => o = ⟨(swapped b1 cap1 xs1.length al2, swapped b2 cap2 xs2.length al1), m⟩) (fun _ _ => False) ⟨(v1, v2), m⟩ := by
  have ho1 := h.one.obj
  have ho2 := h.two.obj
  unfold SmallVector.swapAlloc
  simp only [wp_bind, wp_getObj, wp_ite, wp_assert, wp_pure, wp_setObj]
  rw [ho1, ho2]
  refine ⟨hT, ?_⟩
  by_cases ht : T.pocs = true
  · rw [if_pos ht]; rfl
  · rw [if_neg ht]
    rw [hT.resolve_left ht]
    rfl

/-- `swap` of small_vector. The strongest precondition on the allocators under which a throwing move operation leaves
both containers usable: equal allocators, or no throwing move operations. -/
theorem swap_spec {T : Traits} (h : Pair H E N ib1 ib2 m v1 v2 al1 b1 cap1 xs1 al2 b2 cap2 xs2)
    (hT : T.pocs = true ∨ al1 = al2) (hp : NothrowMove E ∨ al1 = al2) :
    wp (SmallVector.swap E T N ib1 ib2) (fun _ o => Swapped H E N ib1 ib2 al1 al2 xs1 xs2 o)
      (fun _ o => SwapFail H E N ib1 ib2 al1 al2 xs1 xs2 o) ⟨(v1, v2), m⟩ := by
  have ha := swapAlloc_spec h hT
  unfold SmallVector.swap
  rw [wp_bind]
  refine wp_mono ha ?_ (fun _ _ h => h.elim)
  rintro _ _ rfl
  rw [wp_bind, wp_getObj]
  simp only [wp_ite]
  have hf1 : (swapped b1 cap1 xs1.length al2).first = ⟨b1, 0⟩ := rfl
  have hf2 : (swapped b2 cap2 xs2.length al1).first = ⟨b2, 0⟩ := rfl
  rw [hf1, hf2]
  by_cases e1 : b1 = ib1
  · subst e1
    by_cases e2 : b2 = ib2
    · subst e2
      rw [if_pos ⟨rfl, rfl⟩]
      unfold SmallVector.swapInternal
      rw [wp_bind, wp_getObj, wp_bind]
      refine wp_distance rfl (by simp [swapped]) ?_
      rw [wp_bind]
      refine wp_distance rfl (by simp [swapped]) ?_
      simp only [wp_ite, wp_bind]
      have n1 : (swapped b1 cap1 xs1.length al2).last.off - (swapped b1 cap1 xs1.length al2).first.off = xs1.length := rfl
      have n2 : (swapped b2 cap2 xs2.length al1).last.off - (swapped b2 cap2 xs2.length al1).first.off = xs2.length := rfl
      rw [n1, n2, hf1, hf2]
      by_cases hn : xs1.length ≤ xs2.length
      · rw [if_pos hn]
        have := internal_le h hn
        unfold swapHalf at this
        simp only [wp_bind, wp_lift] at this ⊢
        refine wp_mono this ?_ ?_
        · intro _ s1 k1
          refine wp_mono k1 ?_ ?_
          · intro l s2 k2
            refine wp_mono k2 ?_ ?_
            · intro _ s3 k3
              rw [wp_setObj]
              refine ⟨b1, cap1, b2, cap2, ?_⟩
              simpa [swapped, Ptr.add] using k3
            · rintro _ s3 ⟨hE, ys1, ys2, q1, q2, q3⟩
              exact ⟨hE, b1, cap1, b2, cap2, ys1, ys2, q1, q2, q3⟩
          · rintro _ s3 ⟨hE, ys1, ys2, q1, q2, q3⟩
            exact ⟨hE, b1, cap1, b2, cap2, ys1, ys2, q1, q2, q3⟩
        · rintro _ s3 ⟨hE, ys1, ys2, q1, q2, q3⟩
          exact ⟨hE, b1, cap1, b2, cap2, ys1, ys2, q1, q2, q3⟩
      · rw [if_neg hn]
        have := internal_le h.symm (Nat.le_of_lt (Nat.lt_of_not_le hn))
        unfold swapHalf at this
        simp only [wp_bind, wp_lift] at this ⊢
        refine wp_mono this ?_ ?_
        · intro _ s1 k1
          refine wp_mono k1 ?_ ?_
          · intro l s2 k2
            refine wp_mono k2 ?_ ?_
            · intro _ s3 k3
              rw [wp_setObj]
              refine ⟨b1, cap1, b2, cap2, ?_⟩
              simpa [swapped, Ptr.add] using k3.symm
            · rintro _ s3 ⟨hE, ys1, ys2, q1, q2, q3⟩
              exact ⟨hE, b1, cap1, b2, cap2, ys2, ys1, q2, q1, q3.symm⟩
          · rintro _ s3 ⟨hE, ys1, ys2, q1, q2, q3⟩
            exact ⟨hE, b1, cap1, b2, cap2, ys2, ys1, q2, q1, q3.symm⟩
        · rintro _ s3 ⟨hE, ys1, ys2, q1, q2, q3⟩
          exact ⟨hE, b1, cap1, b2, cap2, ys2, ys1, q2, q1, q3.symm⟩
    · rw [if_neg (by simp [e2]), if_pos (by trivial)]
      unfold SmallVector.swapInHeap
      have := internal_heap h e2 hp
      simp only [wp_bind, wp_lift, wp_getObj, wp_pure, wp_setObj] at this ⊢
      refine wp_mono this ?_ ?_
      · intro l s2 k2
        refine wp_mono k2 ?_ ?_
        · rintro _ s3 ⟨hl, k3⟩
          refine ⟨b2, cap2, ib2, N, ?_⟩
          rw [hl]
          simpa [swapped, Ptr.add, Vec.steal] using k3
        · rintro _ s3 ⟨hE, ys1, q1, q3⟩
          exact ⟨hE, b1, cap1, b2, cap2, ys1, xs2, q1, rfl, q3⟩
      · rintro _ s3 ⟨hE, ys1, q1, q3⟩
        exact ⟨hE, b1, cap1, b2, cap2, ys1, xs2, q1, rfl, q3⟩
  · rw [if_neg (by simp [e1]), if_neg (by simp [e1])]
    by_cases e2 : b2 = ib2
    · subst e2
      rw [if_pos (by trivial)]
      unfold SmallVector.swapHeapIn
      have := internal_heap h.symm e1 (hp.imp id Eq.symm)
      simp only [wp_bind, wp_lift, wp_getObj, wp_pure, wp_setObj] at this ⊢
      refine wp_mono this ?_ ?_
      · intro l s2 k2
        refine wp_mono k2 ?_ ?_
        · rintro _ s3 ⟨hl, k3⟩
          refine ⟨ib1, N, b1, cap1, ?_⟩
          rw [hl]
          simpa [swapped, Ptr.add, Vec.steal] using k3.symm
        · rintro _ s3 ⟨hE, ys1, q1, q3⟩
          exact ⟨hE, b1, cap1, b2, cap2, xs1, ys1, rfl, q1, q3.symm⟩
      · rintro _ s3 ⟨hE, ys1, q1, q3⟩
        exact ⟨hE, b1, cap1, b2, cap2, xs1, ys1, rfl, q1, q3.symm⟩
    · rw [if_neg (by simp [e2]), wp_setObj]
      exact ⟨b2, cap2, b1, cap1, heap_heap h (fun _ => e1) (fun _ => e2)⟩

/-! ### vector -/

theorem Vector.propagate_eq (flag : Bool) (al : Nat) :
    Vector.propagate E flag al = SmallVector.propagate E 0 0 flag al := by
  unfold Vector.propagate SmallVector.propagate
  simp only [SmallVector.reset_zero]

/-- `initialize_copy` of vector. -/
theorem Vector.initCopy_spec (h : Pair H E 0 0 0 m (Vector.empty al1) v2 al1 0 0 [] al2 b2 cap2 xs2) :
    wp (Vector.initCopy E v2)
      (fun _ o' => ∃ b1' cap1', Pair H E 0 0 0 o'.m o'.obj v2 al1 b1' cap1' xs2 al2 b2 cap2 xs2)
      (fun _ o' => Pair H E 0 0 0 o'.m (Vector.empty al1) v2 al1 0 0 [] al2 b2 cap2 xs2)
      ⟨Vector.empty al1, m⟩ := by
  unfold Vector.initCopy
  rw [wp_bind, h.two.obj]
  refine wp_distance rfl (by simp) ?_
  simp only [Nat.sub_zero]
  refine wp_mono (wp_congr (SmallVector.initWith_zero _ _ _) (initWith_spec (h.vst1.gone ⟨rfl, rfl⟩) h.one.nLe h.exts)) ?_ ?_
  · rintro _ o' ⟨b', k1, -⟩
    have := h.step k1
    rw [h.two.obj] at this
    exact ⟨b', _, this⟩
  · rintro e o' ⟨k1, -⟩
    have := h.step (k1.empty h.one.nLe)
    rw [h.two.obj] at this
    exact this

/-- `initialize_move` of vector. -/
theorem Vector.initMove_spec (h : Pair H E 0 0 0 m (Vector.empty al1) v2 al1 0 0 [] al2 b2 cap2 xs2) :
    wp (Vector.initMove E)
      (fun _ o' => ∃ b1' cap1' b2' cap2' ys, Pair H E 0 0 0 o'.m o'.obj.1 o'.obj.2 al1 b1' cap1' xs2 al2 b2' cap2' ys ∧
        (if al1 = al2 then ys = [] ∧ cap2' = 0 else ys = xs2.map E.moved))
      (fun _ o' => ∃ ys, Pair H E 0 0 0 o'.m (Vector.empty al1) o'.obj.2 al1 0 0 [] al2 b2 cap2 ys ∧
        ys.length = xs2.length)
      ⟨(Vector.empty al1, v2), m⟩ := by
  unfold Vector.initMove
  rw [wp_bind, wp_getObj]
  simp only [wp_ite, wp_bind, wp_setObj]
  have hobj := h.two.obj
  have hf : v2.first = ⟨b2, 0⟩ := by rw [hobj]
  have hl : v2.last = ⟨b2, xs2.length⟩ := by rw [hobj]
  rw [hf, hl]
  by_cases hal : al1 = al2
  · rw [if_pos (by rw [hobj]; exact hal)]
    exact ⟨b2, cap2, 0, 0, [], h.steal (Or.inl rfl) id hal, by rw [if_pos hal]; exact ⟨rfl, rfl⟩⟩
  · rw [if_neg (by rw [hobj]; exact hal)]
    refine wp_distance rfl (by simp) ?_
    simp only [Nat.sub_zero, wp_onThis]
    refine wp_mono (wp_congr (SmallVector.initWith_zero _ _ _)
      (initWith_move_spec (h.vst1.gone ⟨rfl, rfl⟩) h.one.nLe h.source)) ?_ ?_
    · rintro _ o' ⟨b', H', k1, k2⟩
      exact ⟨b', _, b2, cap2, _, h.stepMoved k1 k2, by rw [if_neg hal]⟩
    · rintro e o' ⟨H', k1, k2⟩
      obtain ⟨ys, e1, e2⟩ := h.stepDisturbed k1 (k2.empty h.one.nLe)
      exact ⟨ys, e2, e1⟩

/-- `assign_copy` of vector. -/
theorem Vector.assignCopy_spec {T : Traits} (h : Pair H E 0 0 0 m v1 v2 al1 b1 cap1 xs1 al2 b2 cap2 xs2) :
    wp (Vector.assignCopy E T v2)
      (fun _ o' => ∃ b1' cap1', VSt (Heap.but m b1 0) E 0 0 o' (if T.pocca = true then al2 else al1) b1' cap1' xs2)
      (fun _ o' => ∃ b1' cap1' xs1', VSt (Heap.but m b1 0) E 0 0 o' (if T.pocca = true then al2 else al1)
        b1' cap1' xs1')
      ⟨v1, m⟩ := by
  have := Sfl.assignCopy_spec' (T := T) h
  unfold SmallVector.assignCopy at this
  unfold Vector.assignCopy
  simpa only [Vector.propagate_eq, SmallVector.assignRange_zero] using this

/-- `assign_move` of vector. -/
theorem Vector.assignMove_spec {T : Traits} (h : Pair H E 0 0 0 m v1 v2 al1 b1 cap1 xs1 al2 b2 cap2 xs2) :
    wp (Vector.assignMove E T)
      (fun _ o' => ∃ b1' cap1' b2' cap2' ys, Pair H E 0 0 0 o'.m o'.obj.1 o'.obj.2
        (if T.pocma = true then al2 else al1) b1' cap1' xs2 al2 b2' cap2' ys ∧
        (if T.pocma = true ∨ al1 = al2 then ys = [] ∧ cap2' = 0 else ys = xs2.map E.moved))
      (fun _ o' => ∃ b1' cap1' xs1' ys, Pair H E 0 0 0 o'.m o'.obj.1 o'.obj.2
        (if T.pocma = true then al2 else al1) b1' cap1' xs1' al2 b2 cap2 ys ∧ ys.length = xs2.length)
      ⟨(v1, v2), m⟩ := by
  unfold Vector.assignMove
  rw [wp_bind, wp_getObj, wp_bind, wp_onThis]
  have hal : v2.alloc = al2 := by rw [h.two.obj]
  simp only
  rw [hal, Vector.propagate_eq]
  refine wp_mono (propagate_spec h.vst1) ?_ (fun _ _ h => h.elim)
  rintro _ ⟨w1, m1⟩ ⟨c1, d1, ys, k1, -⟩
  have h1 := h.step k1
  have hq : (if T.pocma = true then al2 else al1) = al2 ↔ T.pocma = true ∨ al1 = al2 := by
    split <;> simp_all
  generalize (if T.pocma = true then al2 else al1) = al1' at h1 k1 hq ⊢
  rw [wp_bind, wp_getObj]
  simp only [wp_ite, wp_bind, wp_onThis, ← SmallVector.reset_zero, ← SmallVector.assignRange_zero]
  have hobj := h1.two.obj
  have hf : v2.first = ⟨b2, 0⟩ := by rw [hobj]
  have hl : v2.last = ⟨b2, xs2.length⟩ := by rw [hobj]
  have hw1 : w1.alloc = al1' := by rw [h1.one.obj]
  rw [hf, hl]
  by_cases he : al1' = al2
  · rw [if_pos (by rw [hw1, hal]; exact he)]
    refine wp_mono (reset_spec h1.vst1 (newCap := 0) (by omega)) ?_ ?_
    · rintro _ o1 ⟨c2, k2, -, -⟩
      have h2 := h1.step k2
      have hc := k2.toOwn.cap_N (by omega)
      exact ⟨b2, cap2, 0, 0, [], h2.steal hc id he, by rw [if_pos (hq.mp he)]; exact ⟨rfl, rfl⟩⟩
    · rintro e o1 ⟨_, k, _⟩
      omega
  · rw [if_neg (by rw [hw1, hal]; exact he)]
    refine wp_distance rfl (by simp) ?_
    refine wp_mono (assignRange_move_spec h1.vst1 h1.source) ?_ ?_
    · rintro _ o' ⟨b', cap', H', k2, k3⟩
      exact ⟨b', cap', b2, cap2, _, h1.stepMoved k2 k3, by rw [if_neg (fun h => he (hq.mpr h))]⟩
    · rintro _ o' ⟨b', cap', xs', H', k2, k3⟩
      obtain ⟨zs, e1, e2⟩ := h1.stepDisturbed k2 k3
      exact ⟨b', cap', xs', zs, e2, e1⟩

/-- `swap` of vector. -/
theorem Vector.swap_spec {T : Traits} (h : Pair H E 0 0 0 m v1 v2 al1 b1 cap1 xs1 al2 b2 cap2 xs2)
    (hT : T.pocs = true ∨ al1 = al2) :
    wp (Vector.swap T) (fun _ o => Swapped H E 0 0 0 al1 al2 xs1 xs2 o) (fun _ _ => False) ⟨(v1, v2), m⟩ := by
  unfold Vector.swap
  rw [wp_bind]
  refine wp_mono (swapAlloc_spec h hT) ?_ (fun _ _ h => h.elim)
  rintro _ _ rfl
  rw [wp_bind, wp_getObj, wp_setObj]
  exact ⟨b2, cap2, b1, cap1, heap_heap h id id⟩

end Sfl
