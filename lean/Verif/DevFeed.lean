import Verif.DevSpec5
/-
  Initialisers taken from outside the container piece by piece, by copying or by moving. (Helper lemmas.)
-/

set_option linter.unusedSimpArgs false

namespace Sfl.Devector
open Sfl
variable {α : Type} {E : Env α} {H H0 : Heap α} {al b cap f n nx : Nat} {o : Obj DVec α} {xs vs : List α} {s s' : St α}
  {as : List (Arg α)} {mv : Option Ptr} {D : Nat → Prop} {L : Nat → Prop} {X : Exn → St α → Prop}

/-- The arguments `as` have the values `vs`; those with indices in `D` have been used, and the foreign memory, `H0` at
first, is now `H`. With `mv = none` the arguments are copied, with `mv = some p` they are moved from address `p` on. -/
def Feed (E : Env α) (H0 : Heap α) (as : List (Arg α)) (vs : List α) : Option Ptr → (Nat → Prop) → Heap α → Prop
  | none, _, H => Exts H0 E as vs ∧ H = H0
  | some p, D, H => as = args .mv p vs.length ∧ Source H0 p vs ∧ H.blk = H0.blk ∧
      (∀ c i, p.has vs.length c i → D (i - p.off) → H.mem c i = (H0.mem c i).map E.moved) ∧
      (∀ c i, ¬ (p.has vs.length c i ∧ D (i - p.off)) → H.mem c i = H0.mem c i)

/-- The foreign memory after a failure. -/
def Spoilt (H0 : Heap α) (vs : List α) : Option Ptr → Heap α → Prop
  | none, H => H = H0
  | some p, H => Heap.Disturbed p vs.length H0 H

theorem Feed.length (h : Feed E H0 as vs mv D H) : as.length = vs.length := by
  cases mv with
  | none => exact h.1.length
  | some p => rw [h.1, args_length]

theorem Feed.copy (h : Exts H E as vs) : Feed E H as vs none D H := ⟨h, rfl⟩

theorem Feed.move {p : Ptr} (h : Source H p vs) : Feed E H (args .mv p vs.length) vs (some p) (fun _ => False) H :=
  ⟨rfl, h, rfl, fun _ _ _ h => h.elim, fun _ _ _ => rfl⟩

theorem Feed.spoilt (h : Feed E H0 as vs mv D H) : Spoilt H0 vs mv H := by
  cases mv with
  | none => exact h.2
  | some p =>
    obtain ⟨-, h1, h2, h3, h4⟩ := h
    refine ⟨h2, fun c i hi => h4 c i (fun h => hi h.1), fun c i hi => ?_⟩
    have hl : (H0.mem c i).isSome := by
      obtain ⟨e1, e2, e3⟩ := hi
      rw [e1]; exact h1.live i e2 e3
    by_cases hd : D (i - p.off)
    · rw [h3 c i hi hd]; simpa using hl
    · rw [h4 c i (fun h => hd h.2)]; exact hl

theorem Feed.moved {p : Ptr} (h : Feed E H0 as vs (some p) D H) (hD : ∀ i, i < vs.length → D i) :
    Heap.MovedFrom E p vs.length H0 H := by
  obtain ⟨-, h1, h2, h3, h4⟩ := h
  refine ⟨h2, fun c i => ?_⟩
  split
  · rename_i hi
    exact h3 c i hi (hD _ (by obtain ⟨-, e2, e3⟩ := hi; omega))
  · rename_i hi
    exact h4 c i (fun h => hi h.1)

theorem Feed.congr {D' : Nat → Prop} (h : Feed E H0 as vs mv D H) (hD : ∀ i, i < vs.length → (D' i ↔ D i)) :
    Feed E H0 as vs mv D' H := by
  cases mv with
  | none => exact h
  | some p =>
    obtain ⟨h0, h1, h2, h3, h4⟩ := h
    have key : ∀ c i, p.has vs.length c i → (D' (i - p.off) ↔ D (i - p.off)) := fun c i hi =>
      hD _ (by obtain ⟨-, e2, e3⟩ := hi; omega)
    exact ⟨h0, h1, h2, fun c i hi hd => h3 c i hi ((key c i hi).mp hd),
      fun c i hi => h4 c i (fun h => hi ⟨h.1, (key c i h.1).mpr h.2⟩)⟩

theorem Row.sync {L' : Nat → Prop} {p : Ptr} (h : Row H s al b cap nx L) (hs : Same s s')
    (hp : n = 0 ∨ H.blk p.blk ≠ none) (hL : ∀ i, (s'.mem b i).isSome ↔ L' i) (hr : ∀ i, cap ≤ i → ¬ L' i)
    (hf : ∀ c i, c ≠ b → ¬ p.has n c i → s'.mem c i = s.mem c i) : Row (H.sync s' p n) s' al b cap nx L' := by
  refine ⟨h.st.sync hs hp ?_ hf, by rw [hs.next]; exact h.next, hL⟩
  intro i hi
  have := hL i
  cases hm : s'.mem b i with
  | none => rfl
  | some v => rw [hm] at this; exact absurd (this.mp rfl) (hr i hi)

/-- Facts about a piece of the source of the moves. -/
theorem Feed.piece {p : Ptr} {x m : Nat} (hf : Feed E H0 as vs (some p) D H) (h : Row H s al b cap nx L)
    (hx : x + m ≤ vs.length) (hD : ∀ i, x ≤ i → i < x + m → ¬ D i) :
    (as.drop x).take m = args .mv (p.add x) m ∧
    (m = 0 ∨ H.blk (p.add x).blk ≠ none) ∧
    (∀ i, ¬ (p.add x).has m b i) ∧
    (∀ i, (p.add x).off ≤ i → i < (p.add x).off + m → s.mem (p.add x).blk i = vs[x + (i - (p.add x).off)]?) := by
  obtain ⟨h0, h1, h2, h3, h4⟩ := hf
  have hb : m = 0 ∨ H.blk (p.add x).blk ≠ none := by
    rcases h1.blk with k | k
    · left; omega
    · right; rw [h2]; exact k
  refine ⟨by rw [h0, args_drop (by omega), args_take, Nat.min_eq_left (by omega)], hb, ?_, ?_⟩
  · rintro i ⟨e1, e2, e3⟩
    rcases hb with k | k
    · omega
    · rw [← e1] at k; exact k h.st.hblk
  · intro i e1 e2
    have hbk : H.blk (p.add x).blk ≠ none := by
      rcases hb with k | k
      · omega
      · exact k
    simp only [Ptr.add_off, Ptr.add_blk] at e1 e2 hbk ⊢
    rw [h.st.agree _ _ hbk, h4 _ _ (fun hh => hD (i - p.off) (by omega) (by omega) hh.2)]
    have := h1.val (i - p.off) (by omega)
    rw [show p.off + (i - p.off) = i by omega] at this
    rw [this]; congr 1; omega

/-- The foreign memory after a piece has been moved. -/
theorem Feed.after {p : Ptr} {x m : Nat} (hf : Feed E H0 as vs (some p) D H) (h : Row H s al b cap nx L)
    (hx : x + m ≤ vs.length) (hD : ∀ i, x ≤ i → i < x + m → ¬ D i)
    (hm : ∀ c i, c ≠ b → (p.add x).has m c i → s'.mem c i = (s.mem c i).map E.moved) :
    Feed E H0 as vs (some p) (fun i => D i ∨ (x ≤ i ∧ i < x + m)) (H.sync s' (p.add x) m) := by
  obtain ⟨-, hb, hne, -⟩ := hf.piece h hx hD
  obtain ⟨h0, h1, h2, h3, h4⟩ := hf
  refine ⟨h0, h1, h2, ?_, ?_⟩
  · intro c i hi hd
    simp only [Heap.sync]
    split
    · rename_i hh
      have hcb : c ≠ b := fun e => hne i (e ▸ hh)
      have hc : H.blk c ≠ none := by
        rcases hb with k | k
        · obtain ⟨_, e2, e3⟩ := hh; omega
        · rw [hh.1]; exact k
      rw [hm c i hcb hh, h.st.agree c i hc, h4]
      rintro ⟨-, hd'⟩
      obtain ⟨_, e2, e3⟩ := hh
      simp only [Ptr.add_off] at e2 e3
      exact hD _ (by omega) (by omega) hd'
    · rename_i hh
      refine h3 c i hi (hd.resolve_right (fun e => hh ?_))
      obtain ⟨e1, e2, e3⟩ := hi
      exact ⟨e1, by simp only [Ptr.add_off]; omega, by simp only [Ptr.add_off]; omega⟩
  · intro c i hi
    simp only [Heap.sync]
    rw [if_neg]
    · exact h4 c i (fun h => hi ⟨h.1, Or.inl h.2⟩)
    · rintro ⟨e1, e2, e3⟩
      simp only [Ptr.add_off, Ptr.add_blk] at e1 e2 e3
      exact hi ⟨⟨e1, by omega, by omega⟩, Or.inr ⟨by omega, by omega⟩⟩

theorem Feed.broken {p : Ptr} {x m : Nat} (hf : Feed E H0 as vs (some p) D H) (h : Row H s al b cap nx L)
    (hx : x + m ≤ vs.length) (hD : ∀ i, x ≤ i → i < x + m → ¬ D i)
    (hm : ∀ c i, (p.add x).has m c i → (s'.mem c i).isSome) : Spoilt H0 vs (some p) (H.sync s' (p.add x) m) := by
  have k := hf.spoilt
  refine ⟨k.blk, fun c i hi => ?_, fun c i hi => ?_⟩
  · simp only [Heap.sync]
    rw [if_neg]
    · exact k.out c i hi
    · rintro ⟨e1, e2, e3⟩
      simp only [Ptr.add_off, Ptr.add_blk] at e1 e2 e3
      exact hi ⟨e1, by omega, by omega⟩
  · simp only [Heap.sync]
    split
    · exact hm c i ‹_›
    · exact k.live c i hi

/-- Constructing a piece in raw slots. -/
theorem Feed.uninit {x m d : Nat} {Q : Ptr → St α → Prop} (hf : Feed E H0 as vs mv D H) (h : Row H s al b cap nx L)
    (hx : x + m ≤ vs.length) (hD : ∀ i, x ≤ i → i < x + m → ¬ D i)
    (hd : d + m ≤ cap) (hr : ∀ i, d ≤ i → i < d + m → ¬ L i)
    (hQ : ∀ s' H', Feed E H0 as vs mv (fun i => D i ∨ (x ≤ i ∧ i < x + m)) H' →
      Row H' s' al b cap nx (fun i => L i ∨ (d ≤ i ∧ i < d + m)) →
      (∀ i, s'.mem b i = if d ≤ i ∧ i < d + m then vs[x + (i - d)]? else s.mem b i) → Q ⟨b, d + m⟩ s')
    (hX : ∀ s' H', Spoilt H0 vs mv H' → Row H' s' al b cap nx L → (∀ i, s'.mem b i = s.mem b i) → X .elem s') :
    wp (Sfl.uninit E ⟨b, d⟩ ((as.drop x).take m)) Q X s := by
  cases mv with
  | none =>
    obtain ⟨h1, rfl⟩ := hf
    have hl : ((vs.drop x).take m).length = m := by simp; omega
    refine h.uninit ((h1.drop x).take m) (by omega) (fun i e1 e2 => hr i e1 (by omega)) ?_ ?_
    · intro s' hrow hm
      rw [hl] at hrow hm ⊢
      refine hQ s' _ ⟨h1, rfl⟩ hrow (fun i => ?_)
      rw [hm i]
      split
      · rw [List.getElem?_take, if_pos (by omega), List.getElem?_drop]
      · rfl
    · intro s' hrow hm
      exact hX s' _ rfl hrow (fun i => by rw [hm])
  | some p =>
    obtain ⟨k1, k2, k3, k4⟩ := hf.piece h hx hD
    rw [k1]
    refine wp_uninit_mv ?_ ?_ ?_ ?_ ?_
    · intro i e1 e2; rw [k4 i e1 e2, List.getElem?_eq_getElem (by omega)]; rfl
    · intro j hj; exact h.st.inB (by simp; omega)
    · intro i e1 e2; exact h.raw (hr i e1 e2)
    · intro s' hs _ hm
      have hm' : ∀ i, s'.mem b i = if d ≤ i ∧ i < d + m then vs[x + (i - d)]? else s.mem b i := by
        intro i
        rw [hm b i]
        by_cases hc : d ≤ i ∧ i < d + m
        · rw [if_pos (by exact ⟨rfl, hc.1, hc.2⟩), if_pos hc, k4 _ (by omega) (by dsimp only; omega)]
          congr 1; dsimp only; omega
        · rw [if_neg (by rintro ⟨-, e1, e2⟩; exact hc ⟨e1, e2⟩), if_neg hc, if_neg (k3 i)]
      refine hQ s' _ (hf.after h hx hD (s' := s') ?_) (h.sync hs k2 ?_ ?_ ?_) hm'
      · intro c i hcb hh; rw [hm, if_neg (by simp [Ptr.has, hcb]), if_pos hh]
      · intro i
        rw [hm' i]
        split
        · rename_i hc
          rw [List.getElem?_eq_getElem (by omega)]; simp [hc]
        · rename_i hc; simp [hc, h.live i]
      · intro i hi
        have := h.beyond i hi
        simp only [this, false_or]; omega
      · intro c i hcb hh; rw [hm, if_neg (by simp [Ptr.has, hcb]), if_neg hh]
    · intro _ s' hs hm
      have hb : ∀ i, s'.mem b i = s.mem b i := fun i => by
        rcases hm b i with e | ⟨e, -⟩
        · exact e
        · exact absurd e (k3 i)
      refine hX s' _ (hf.broken h hx hD (s' := s') ?_) (h.sync hs k2 ?_ h.beyond ?_) hb
      · intro c i hh
        rcases hm c i with e | ⟨-, e⟩
        · obtain ⟨e1, e2, e3⟩ := hh
          rw [e, e1, k4 i e2 e3, List.getElem?_eq_getElem (by omega)]; rfl
        · exact e
      · intro i; rw [hb]; exact h.live i
      · intro c i _ hh
        rcases hm c i with e | ⟨e, -⟩
        · exact e
        · exact absurd e hh

/-- Assigning a piece to live slots. -/
theorem Feed.assign {x m d : Nat} {Q : Ptr → St α → Prop} (hf : Feed E H0 as vs mv D H) (h : Row H s al b cap nx L)
    (hx : x + m ≤ vs.length) (hD : ∀ i, x ≤ i → i < x + m → ¬ D i)
    (hr : ∀ i, d ≤ i → i < d + m → L i)
    (hQ : ∀ s' H', Feed E H0 as vs mv (fun i => D i ∨ (x ≤ i ∧ i < x + m)) H' →
      Row H' s' al b cap nx L →
      (∀ i, s'.mem b i = if d ≤ i ∧ i < d + m then vs[x + (i - d)]? else s.mem b i) → Q ⟨b, d + m⟩ s')
    (hX : ∀ s' H', Spoilt H0 vs mv H' → Row H' s' al b cap nx L → X .elem s') :
    wp (Sfl.assignGo E ⟨b, d⟩ ((as.drop x).take m)) Q X s := by
  cases mv with
  | none =>
    obtain ⟨h1, rfl⟩ := hf
    have hl : ((vs.drop x).take m).length = m := by simp; omega
    refine h.assignGo ((h1.drop x).take m) (fun i e1 e2 => hr i e1 (by omega)) ?_ ?_
    · intro s' hrow hm
      rw [hl] at hm ⊢
      refine hQ s' _ ⟨h1, rfl⟩ hrow (fun i => ?_)
      rw [hm i]
      split
      · rw [List.getElem?_take, if_pos (by omega), List.getElem?_drop]
      · rfl
    · intro s' hrow
      exact hX s' _ rfl hrow
  | some p =>
    obtain ⟨k1, k2, k3, k4⟩ := hf.piece h hx hD
    rw [k1]
    refine wp_assignGo_mv ?_ ?_ k3 ?_ ?_
    · intro i e1 e2; rw [k4 i e1 e2, List.getElem?_eq_getElem (by omega)]; rfl
    · intro i e1 e2; exact (h.live i).mpr (hr i e1 e2)
    · intro s' hs hm
      have hm' : ∀ i, s'.mem b i = if d ≤ i ∧ i < d + m then vs[x + (i - d)]? else s.mem b i := by
        intro i
        rw [hm b i]
        by_cases hc : d ≤ i ∧ i < d + m
        · rw [if_pos (by exact ⟨rfl, hc.1, hc.2⟩), if_pos hc, k4 _ (by omega) (by dsimp only; omega)]
          congr 1; dsimp only; omega
        · rw [if_neg (by rintro ⟨-, e1, e2⟩; exact hc ⟨e1, e2⟩), if_neg hc, if_neg (k3 i)]
      refine hQ s' _ (hf.after h hx hD (s' := s') ?_) (h.sync hs k2 ?_ h.beyond ?_) hm'
      · intro c i hcb hh; rw [hm, if_neg (by simp [Ptr.has, hcb]), if_pos hh]
      · intro i
        rw [hm' i]
        split
        · rename_i hc
          rw [List.getElem?_eq_getElem (by omega)]; simp [hr i hc.1 hc.2]
        · exact h.live i
      · intro c i hcb hh; rw [hm, if_neg (by simp [Ptr.has, hcb]), if_neg hh]
    · intro s' hs hm
      refine hX s' _ (hf.broken h hx hD (s' := s') ?_) (h.sync hs k2 ?_ h.beyond ?_)
      · intro c i hh
        have := hm c i
        rw [if_pos (Or.inr hh)] at this
        exact this
      · intro i
        have := hm b i
        split at this
        · rename_i hc
          rcases hc with hc | hc
          · simp only [this, true_iff]; exact hr i hc.2.1 hc.2.2
          · exact absurd hc (k3 i)
        · rw [this]; exact h.live i
      · intro c i hcb hh
        have := hm c i
        rw [if_neg (by rintro (e | e); exact hcb e.1; exact hh e)] at this
        exact this

end Sfl.Devector
