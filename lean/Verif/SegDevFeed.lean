import Verif.SegDevRow
/-
  Elements taken from outside the container one by one, by copying or by moving, from arbitrary addresses.
  (Helper lemmas.)
-/

set_option linter.unusedSimpArgs false

namespace Sfl.SegDev
open SegVec (Fit IsFrom)
open Devector (Row)
variable {α : Type} {E : Env α} {H H0 : Heap α} {al b cap nx ib N : Nat} {vs : List α} {s s' : St α}
  {as : List (Arg α)} {mv : Option (List Ptr)} {D : Nat → Prop} {L : Nat → Prop} {X : Exn → St α → Prop}

/-- The arguments `as` have the values `vs`; those with indices in `D` have been used, and the foreign memory, `H0` at
first, is now `H`. With `mv = none` the arguments are copied, with `mv = some ps` they are moved from the addresses `ps`. -/
def Feed (E : Env α) (H0 : Heap α) (as : List (Arg α)) (vs : List α) : Option (List Ptr) → (Nat → Prop) → Heap α → Prop
  | none, _, H => Exts H0 E as vs ∧ H = H0
  | some ps, D, H => as = ps.map .mv ∧ ps.Nodup ∧ ps.length = vs.length ∧
      (∀ (j : Nat) (p : Ptr), ps[j]? = some p → H0.mem p.blk p.off = vs[j]? ∧ H0.blk p.blk ≠ none) ∧ H.blk = H0.blk ∧
      (∀ (j : Nat) (p : Ptr), ps[j]? = some p → D j → H.mem p.blk p.off = (H0.mem p.blk p.off).map E.moved) ∧
      (∀ c i, (∀ j : Nat, ps[j]? = some ⟨c, i⟩ → ¬ D j) → H.mem c i = H0.mem c i)

/-- The foreign memory after a failure. -/
def Spoilt (H0 : Heap α) : Option (List Ptr) → Heap α → Prop
  | none, H => H = H0
  | some ps, H => H.blk = H0.blk ∧ (∀ c i, (⟨c, i⟩ : Ptr) ∉ ps → H.mem c i = H0.mem c i) ∧
      ∀ p ∈ ps, (H.mem p.blk p.off).isSome

theorem Feed.length (h : Feed E H0 as vs mv D H) : as.length = vs.length := by
  cases mv with
  | none => exact h.1.length
  | some ps => rw [h.1, List.length_map, h.2.2.1]

theorem Feed.copy (h : Exts H E as vs) : Feed E H as vs none D H := ⟨h, rfl⟩

theorem Feed.move {ps : List Ptr} (hn : ps.Nodup) (hl : ps.length = vs.length)
    (hv : ∀ (j : Nat) (p : Ptr), ps[j]? = some p → H.mem p.blk p.off = vs[j]? ∧ H.blk p.blk ≠ none) :
    Feed E H (ps.map .mv) vs (some ps) (fun _ => False) H :=
  ⟨rfl, hn, hl, hv, rfl, fun _ _ _ h => h.elim, fun _ _ _ => rfl⟩

theorem Feed.congr {D' : Nat → Prop} (h : Feed E H0 as vs mv D H) (hD : ∀ i, i < vs.length → (D' i ↔ D i)) :
    Feed E H0 as vs mv D' H := by
  cases mv with
  | none => exact h
  | some ps =>
    obtain ⟨h0, h1, h2, h3, h4, h5, h6⟩ := h
    have lt : ∀ {j p}, ps[j]? = some p → j < vs.length := fun hj => by
      rw [← h2]; exact (List.getElem?_eq_some_iff.mp hj).1
    exact ⟨h0, h1, h2, h3, h4, fun j p hj hd => h5 j p hj ((hD j (lt hj)).mp hd),
      fun c i hh => h6 c i (fun j hj hd => hh j hj ((hD j (lt hj)).mpr hd))⟩

theorem Feed.spoilt (h : Feed E H0 as vs mv D H) : Spoilt H0 mv H := by
  cases mv with
  | none => exact h.2
  | some ps =>
    obtain ⟨h0, h1, h2, h3, h4, h5, h6⟩ := h
    refine ⟨h4, fun c i hi => h6 c i (fun j hj => absurd (List.mem_of_getElem? hj) hi), fun p hp => ?_⟩
    obtain ⟨j, hj⟩ := List.mem_iff_getElem?.mp hp
    have hlt := (List.getElem?_eq_some_iff.mp hj).1
    have hs : (H0.mem p.blk p.off).isSome := by rw [(h3 j p hj).1, List.getElem?_eq_getElem (by omega)]; rfl
    by_cases hd : D j
    · rw [h5 j p hj hd]; simpa using hs
    · rw [h6 p.blk p.off ?_]; exact hs
      intro j' hj' hd'
      obtain rfl : j' = j := (List.getElem?_inj (List.getElem?_eq_some_iff.mp hj').1 h1).mp (hj'.trans hj.symm)
      exact hd hd'

/-- `H` with another value at address `p`. -/
def put (H : Heap α) (p : Ptr) (v : α) : Heap α :=
  { H with mem := fun c i => if c = p.blk ∧ i = p.off then some v else H.mem c i }

theorem Row.put {L' : Nat → Prop} {p : Ptr} {v : α} (h : Row H s al b cap nx L ib N) (hs : Same s s')
    (hp : H.blk p.blk ≠ none) (hL : ∀ i, (s'.mem b i).isSome ↔ L' i) (hr : ∀ i, cap ≤ i → ¬ L' i)
    (hv : s'.mem p.blk p.off = some v)
    (hf : ∀ c i, c ≠ b → ¬ (c = p.blk ∧ i = p.off) → s'.mem c i = s.mem c i) :
    Row (put H p v) s' al b cap nx L' ib N := by
  have hpb : p.blk ≠ b := fun e => hp (e ▸ h.st.hblk)
  have hpi : p.blk ≠ ib := fun e => hp (e ▸ h.st.hiblk)
  obtain ⟨a1, a2, a3, a4, a5, a6, a7, a8, a9, a10, a11⟩ := h.st
  refine ⟨⟨?_, by rw [hs.blk]; exact a2, by rw [hs.blk]; exact a3, ?_, ?_, ?_, by rw [hs.blk]; exact a7, ?_, a9, ?_, a11⟩,
    by rw [hs.next]; exact h.next, hL⟩
  · refine a1.upd hs ?_
    intro c hc i
    by_cases hcb : c = b
    · subst hcb
      have := hL i
      cases hm : s'.mem c i with
      | none => rfl
      | some w =>
        rw [hm] at this
        refine absurd (this.mp rfl) (hr i ?_)
        rcases a3 with ⟨e1, e2⟩ | ⟨-, e1, e2⟩ | ⟨-, -, -, e⟩
        · rcases a2 with ⟨-, k⟩ | k
          · omega
          · rw [← e1] at k; rw [k] at hc; cases hc
        · omega
        · rw [e] at hc; cases hc
    · rw [hf c i hcb ?_]; exact a1.dead c hc i
      rintro ⟨rfl, -⟩
      rw [a7 _ hpb hpi] at hc
      exact hp hc
  · intro hne i
    by_cases hib : ib = b
    · exact absurd hib.symm hne
    · rw [hf ib i hib (fun e => hpi e.1.symm)]; exact a4 hne i
  · intro i hi
    have := hL i
    cases hm : s'.mem b i with
    | none => rfl
    | some w => rw [hm] at this; exact absurd (this.mp rfl) (hr i hi)
  · intro c h1 h2 i
    simp only [SegDev.put]
    split
    · rename_i hc; rw [hc.1, hc.2]; exact hv
    · rename_i hc; rw [hf c i h1 hc]; exact a6 c h1 h2 i
  · intro i; simp only [SegDev.put]; rw [if_neg (fun e => hpb e.1.symm)]; exact a8 i
  · intro i; simp only [SegDev.put]; rw [if_neg (fun e => hpi e.1.symm)]; exact a10 i

theorem Feed.used {ps : List Ptr} {j : Nat} {p : Ptr} {v : α} (hf : Feed E H0 as vs (some ps) D H) (hj : ps[j]? = some p)
    (hv : vs[j]? = some v) :
    Feed E H0 as vs (some ps) (fun i => D i ∨ i = j) (put H p (E.moved v)) := by
  obtain ⟨h0, h1, h2, h3, h4, h5, h6⟩ := hf
  have inj : ∀ {j' p'}, ps[j']? = some p' → p' = p → j' = j := fun {j' p'} hj' e =>
    (List.getElem?_inj (List.getElem?_eq_some_iff.mp hj').1 h1).mp (by rw [hj', hj, e])
  refine ⟨h0, h1, h2, h3, h4, ?_, ?_⟩
  · intro j' p' hj' hd
    simp only [put]
    split
    · rename_i hc
      have : p' = p := by cases p'; cases p; simp only [Ptr.mk.injEq]; exact hc
      obtain rfl := inj hj' this
      rw [(h3 _ _ hj').1, hv]; rfl
    · rename_i hc
      refine h5 j' p' hj' (hd.resolve_right fun e => hc ?_)
      subst e
      rw [hj] at hj'; cases hj'; exact ⟨rfl, rfl⟩
  · intro c i hh
    simp only [put]
    rw [if_neg]
    · exact h6 c i (fun j' hj' hd => hh j' hj' (Or.inl hd))
    · rintro ⟨rfl, rfl⟩
      exact hh j hj (Or.inr rfl)

theorem Feed.broken {ps : List Ptr} {j : Nat} {p : Ptr} {v : α} (hf : Feed E H0 as vs (some ps) D H) (hj : ps[j]? = some p) :
    Spoilt H0 (some ps) (put H p v) := by
  obtain ⟨k1, k2, k3⟩ := hf.spoilt
  refine ⟨k1, fun c i hi => ?_, fun q hq => ?_⟩
  · simp only [put]
    rw [if_neg]
    · exact k2 c i hi
    · rintro ⟨rfl, rfl⟩; exact hi (List.mem_of_getElem? hj)
  · simp only [put]
    split
    · rfl
    · exact k3 q hq

/-- What is known about the next element of the source. -/
theorem Feed.next {j : Nat} {v : α} {a : Arg α} (hf : Feed E H0 as vs mv D H) (h : Row H s al b cap nx L ib N)
    (hj : vs[j]? = some v) (ha : as[j]? = some a) (hD : ¬ D j) :
    a.value s = some v ∧ ((mv = none ∧ a.src E = none) ∨
      ∃ ps p, mv = some ps ∧ ps[j]? = some p ∧ a = .mv p ∧ H.blk p.blk ≠ none) := by
  cases mv with
  | none =>
    obtain ⟨h1, rfl⟩ := hf
    have := congrArg (fun l => l[j]?) (h1.val s h.st.agree)
    simp only [List.getElem?_map, ha, hj, Option.map_some, Option.some.injEq] at this
    exact ⟨this, Or.inl ⟨rfl, h1.src a (List.mem_of_getElem? ha)⟩⟩
  | some ps =>
    have hf' := hf
    obtain ⟨h0, h1, h2, h3, h4, h5, h6⟩ := hf
    rw [h0, List.getElem?_map] at ha
    obtain ⟨p, hp, rfl⟩ := Option.map_eq_some_iff.mp ha
    have hb : H.blk p.blk ≠ none := by rw [h4]; exact (h3 j p hp).2
    refine ⟨?_, Or.inr ⟨ps, p, rfl, hp, rfl, hb⟩⟩
    show s.mem p.blk p.off = some v
    rw [h.st.agree _ _ hb, h6 _ _ ?_, (h3 j p hp).1, hj]
    intro j' hj' hd
    obtain rfl : j' = j := (List.getElem?_inj (List.getElem?_eq_some_iff.mp hj').1 h1).mp (hj'.trans hp.symm)
    exact hD hd

theorem Feed.construct {j d : Nat} {v : α} {a : Arg α} {Q : Unit → St α → Prop} (hf : Feed E H0 as vs mv D H)
    (h : Row H s al b cap nx L ib N) (hj : vs[j]? = some v) (ha : as[j]? = some a) (hD : ¬ D j) (hd : d < cap) (hr : ¬ L d)
    (hQ : ∀ s' H', Feed E H0 as vs mv (fun i => D i ∨ i = j) H' →
      Row H' s' al b cap nx (fun i => L i ∨ i = d) ib N →
      (∀ i, s'.mem b i = if i = d then some v else s.mem b i) → Q () s')
    (hX : ∀ s' H', Spoilt H0 mv H' → Row H' s' al b cap nx L ib N → (∀ i, s'.mem b i = s.mem b i) → X .elem s') :
    wp (Sfl.construct E ⟨b, d⟩ a) Q X s := by
  obtain ⟨hv, hcase⟩ := hf.next h hj ha hD
  have live : ∀ {s' : St α}, (∀ i, s'.mem b i = if i = d then some v else s.mem b i) →
      ∀ i, (s'.mem b i).isSome ↔ (L i ∨ i = d) := by
    intro s' hm i
    rw [hm]
    by_cases hi : i = d
    · simp [hi]
    · rw [if_neg hi, h.live]; simp [hi]
  have bey : ∀ i, cap ≤ i → ¬ (L i ∨ i = d) := fun i hi hc => hc.elim (h.beyond i hi) (by omega)
  rcases hcase with ⟨rfl, hsrc⟩ | ⟨ps, p, rfl, hp, rfl, hb⟩
  · refine construct_copy hv hsrc (h.st.inB hd) (h.raw hr) ?_ ?_
    · intro s' hs _ hm
      have hm' : ∀ i, s'.mem b i = if i = d then some v else s.mem b i := fun i => by rw [hm]; simp
      exact hQ s' H ⟨hf.1, hf.2⟩ (h.upd hs (live hm') bey (fun c hc i => by rw [hm]; simp [hc])) hm'
    · intro s' hs hm
      exact hX s' H hf.2 (h.fresh hs hm) (fun i => by rw [hm])
  · have hpb : p.blk ≠ b := fun e => hb (e ▸ h.st.hblk)
    refine construct_move hv rfl (h.st.inB hd) (h.raw hr) ?_ ?_
    · intro s' hs _ hm
      have hm' : ∀ i, s'.mem b i = if i = d then some v else s.mem b i := fun i => by
        rw [hm, if_neg (fun e => hpb e.1.symm)]; simp
      refine hQ s' _ (hf.used hp hj) (Row.put h hs hb (live hm') bey (by rw [hm]; simp) ?_) hm'
      intro c i h1 h2
      rw [hm, if_neg h2]; simp [h1]
    · intro _ s' w hs hm
      have hm' : ∀ i, s'.mem b i = s.mem b i := fun i => by rw [hm, if_neg (fun e => hpb e.1.symm)]
      refine hX s' _ (hf.broken hp (v := w)) (Row.put h hs hb (fun i => by rw [hm']; exact h.live i) h.beyond (by rw [hm]; simp) ?_) hm'
      intro c i _ h2
      rw [hm, if_neg h2]

theorem Feed.assignOne {j d : Nat} {v : α} {a : Arg α} {Q : Unit → St α → Prop} (hf : Feed E H0 as vs mv D H)
    (h : Row H s al b cap nx L ib N) (hj : vs[j]? = some v) (ha : as[j]? = some a) (hD : ¬ D j) (hl : L d)
    (hQ : ∀ s' H', Feed E H0 as vs mv (fun i => D i ∨ i = j) H' → Row H' s' al b cap nx L ib N →
      (∀ i, s'.mem b i = if i = d then some v else s.mem b i) → Q () s')
    (hX : ∀ s' H', Spoilt H0 mv H' → Row H' s' al b cap nx L ib N → X .elem s') :
    wp (Sfl.assign E ⟨b, d⟩ a) Q X s := by
  obtain ⟨hv, hcase⟩ := hf.next h hj ha hD
  have live : ∀ {s' : St α} {w : α}, (∀ i, s'.mem b i = if i = d then some w else s.mem b i) →
      ∀ i, (s'.mem b i).isSome ↔ L i := by
    intro s' w hm i
    rw [hm]
    by_cases hi : i = d
    · simp [hi, hl]
    · rw [if_neg hi, h.live]
  rcases hcase with ⟨rfl, hsrc⟩ | ⟨ps, p, rfl, hp, rfl, hb⟩
  · refine assign_copy hv hsrc ((h.live d).mpr hl) ?_ ?_
    · intro s' hs _ hm
      have hm' : ∀ i, s'.mem b i = if i = d then some v else s.mem b i := fun i => by rw [hm]; simp
      exact hQ s' H ⟨hf.1, hf.2⟩ (h.upd hs (live hm') h.beyond (fun c hc i => by rw [hm]; simp [hc])) hm'
    · intro _ s' w hs hm
      have hm' : ∀ i, s'.mem b i = if i = d then some w else s.mem b i := fun i => by rw [hm]; simp
      exact hX s' H hf.2 (h.upd hs (live hm') h.beyond (fun c hc i => by rw [hm]; simp [hc]))
  · have hpb : p.blk ≠ b := fun e => hb (e ▸ h.st.hblk)
    refine assign_move hv rfl ((h.live d).mpr hl) ?_ ?_
    · intro s' hs _ hm
      have hm' : ∀ i, s'.mem b i = if i = d then some v else s.mem b i := fun i => by
        rw [hm, if_neg (fun e => hpb e.1.symm)]; simp
      refine hQ s' _ (hf.used hp hj) (Row.put h hs hb (live hm') h.beyond (by rw [hm]; simp) ?_) hm'
      intro c i h1 h2
      rw [hm, if_neg h2]; simp [h1]
    · intro _ s' w w' hs hm
      have hm' : ∀ i, s'.mem b i = if i = d then some w' else s.mem b i := fun i => by
        rw [hm, if_neg (fun e => hpb e.1.symm)]; simp
      refine hX s' _ (hf.broken hp (v := w)) (Row.put h hs hb (live hm') h.beyond (by rw [hm]; simp) ?_)
      intro c i h1 h2
      rw [hm, if_neg h2]; simp [h1]

theorem take_drop_succ {β : Type} {as : List β} {x m : Nat} {a : β} (h : as[x]? = some a) :
    (as.drop x).take (m + 1) = a :: (as.drop (x + 1)).take m := by
  obtain ⟨hlt, rfl⟩ := List.getElem?_eq_some_iff.mp h
  rw [List.drop_eq_getElem_cons hlt]; rfl

/-- Constructing the elements `[x, x + m)` in raw slots from `d` on. -/
theorem Feed.uninit {x m d : Nat} {Q : Ptr → St α → Prop} (hf : Feed E H0 as vs mv D H) (h : Row H s al b cap nx L ib N)
    (hx : x + m ≤ vs.length) (hD : ∀ i, x ≤ i → i < x + m → ¬ D i)
    (hd : d + m ≤ cap) (hr : ∀ i, d ≤ i → i < d + m → ¬ L i)
    (hQ : ∀ s' H', Feed E H0 as vs mv (fun i => D i ∨ (x ≤ i ∧ i < x + m)) H' →
      Row H' s' al b cap nx (fun i => L i ∨ (d ≤ i ∧ i < d + m)) ib N →
      (∀ i, s'.mem b i = if d ≤ i ∧ i < d + m then vs[x + (i - d)]? else s.mem b i) → Q ⟨b, d + m⟩ s')
    (hX : ∀ s' H', Spoilt H0 mv H' → Row H' s' al b cap nx L ib N → (∀ i, s'.mem b i = s.mem b i) → X .elem s') :
    wp (Sfl.uninit E ⟨b, d⟩ ((as.drop x).take m)) Q X s := by
  have hlen := hf.length
  have hraw0 : ∀ i, d ≤ i → i < d + m → s.mem b i = none := fun i h1 h2 => h.raw (hr i h1 h2)
  -- after `k` elements
  suffices key : ∀ r k : Nat, k + r = m → ∀ (s1 : St α) (H1 : Heap α),
      Feed E H0 as vs mv (fun i => D i ∨ (x ≤ i ∧ i < x + k)) H1 →
      Row H1 s1 al b cap nx (fun i => L i ∨ (d ≤ i ∧ i < d + k)) ib N →
      (∀ i, s1.mem b i = if d ≤ i ∧ i < d + k then vs[x + (i - d)]? else s.mem b i) →
      wp (uninitGo E ⟨b, d⟩ k ((as.drop (x + k)).take r)) Q X s1 by
    have := key m 0 (by omega) s H (hf.congr (fun i _ => by simp; omega)) (h.congr (fun i => by simp; omega))
      (fun i => by rw [if_neg (by omega)])
    exact this
  intro r
  induction r with
  | zero =>
    intro k hk s1 H1 f1 r1 m1
    obtain rfl : k = m := by omega
    simp only [List.take_zero, uninitGo, wp_pure]
    exact hQ s1 H1 f1 r1 m1
  | succ r ih =>
    intro k hk s1 H1 f1 r1 m1
    have hv : vs[x + k]? = some (vs[x + k]'(by omega)) := List.getElem?_eq_getElem _
    have ha : as[x + k]? = some (as[x + k]'(by omega)) := List.getElem?_eq_getElem _
    rw [take_drop_succ ha]
    unfold uninitGo
    rw [wp_bind, wp_tryCatch]
    refine f1.construct (d := d + k) r1 hv ha (by have := hD (x + k) (by omega) (by omega); simp only [this, false_or]; omega)
      (by omega) (by have := hr (d + k) (by omega) (by omega); simp only [this, false_or]; omega) ?_ ?_
    · intro s2 H2 f2 r2 m2
      refine ih (k + 1) (by omega) s2 H2 (f2.congr (fun i _ => ?_)) (r2.congr (fun i => ?_)) (fun i => ?_)
      · constructor
        · rintro (e | e)
          · exact Or.inl (Or.inl e)
          · by_cases hi : i = x + k
            · exact Or.inr hi
            · exact Or.inl (Or.inr (by omega))
        · rintro ((e | e) | e)
          · exact Or.inl e
          · exact Or.inr (by omega)
          · exact Or.inr (by omega)
      · constructor
        · rintro (e | e)
          · exact Or.inl (Or.inl e)
          · by_cases hi : i = d + k
            · exact Or.inr hi
            · exact Or.inl (Or.inr (by omega))
        · rintro ((e | e) | e)
          · exact Or.inl e
          · exact Or.inr (by omega)
          · exact Or.inr (by omega)
      · rw [m2]
        by_cases hi : i = d + k
        · subst hi
          rw [if_pos rfl, if_pos (by omega), show x + (d + k - d) = x + k by omega, hv]
        · rw [if_neg hi, m1]
          by_cases hc : d ≤ i ∧ i < d + k
          · rw [if_pos hc, if_pos (by omega)]
          · rw [if_neg hc, if_neg (by omega)]
    · intro s2 H2 sp r2 m2
      rw [wp_bind]
      refine r2.destroy (x := d) (y := d + k) (by omega) (fun i h1 h2 => Or.inr ⟨h1, h2⟩) ?_
      intro s3 r3 m3
      rw [wp_throw]
      refine hX s3 H2 sp (r3.congr (fun i => ?_)) (fun i => ?_)
      · constructor
        · intro e
          refine ⟨Or.inl e, fun hc => hr i hc.1 (by omega) e⟩
        · rintro ⟨e | e, h2⟩
          · exact e
          · exact absurd e h2
      · rw [m3]
        split
        · rename_i hc; rw [hraw0 i hc.1 (by omega)]
        · rename_i hc; rw [m2, m1, if_neg hc]

/-- Assigning the elements `[x, x + m)` to live slots from `d` on. -/
theorem Feed.assign {x m d : Nat} {Q : Ptr → St α → Prop} (hf : Feed E H0 as vs mv D H) (h : Row H s al b cap nx L ib N)
    (hx : x + m ≤ vs.length) (hD : ∀ i, x ≤ i → i < x + m → ¬ D i)
    (hr : ∀ i, d ≤ i → i < d + m → L i)
    (hQ : ∀ s' H', Feed E H0 as vs mv (fun i => D i ∨ (x ≤ i ∧ i < x + m)) H' → Row H' s' al b cap nx L ib N →
      (∀ i, s'.mem b i = if d ≤ i ∧ i < d + m then vs[x + (i - d)]? else s.mem b i) → Q ⟨b, d + m⟩ s')
    (hX : ∀ s' H', Spoilt H0 mv H' → Row H' s' al b cap nx L ib N → X .elem s') :
    wp (Sfl.assignGo E ⟨b, d⟩ ((as.drop x).take m)) Q X s := by
  have hlen := hf.length
  suffices key : ∀ r k : Nat, k + r = m → ∀ (s1 : St α) (H1 : Heap α),
      Feed E H0 as vs mv (fun i => D i ∨ (x ≤ i ∧ i < x + k)) H1 → Row H1 s1 al b cap nx L ib N →
      (∀ i, s1.mem b i = if d ≤ i ∧ i < d + k then vs[x + (i - d)]? else s.mem b i) →
      wp (assignGo E ⟨b, d + k⟩ ((as.drop (x + k)).take r)) Q X s1 by
    have := key m 0 (by omega) s H (hf.congr (fun i _ => by simp; omega)) h
      (fun i => by rw [if_neg (by omega)])
    exact this
  intro r
  induction r with
  | zero =>
    intro k hk s1 H1 f1 r1 m1
    obtain rfl : k = m := by omega
    simp only [List.take_zero, assignGo, wp_pure]
    exact hQ s1 H1 f1 r1 m1
  | succ r ih =>
    intro k hk s1 H1 f1 r1 m1
    have hv : vs[x + k]? = some (vs[x + k]'(by omega)) := List.getElem?_eq_getElem _
    have ha : as[x + k]? = some (as[x + k]'(by omega)) := List.getElem?_eq_getElem _
    rw [take_drop_succ ha]
    unfold assignGo
    rw [wp_bind]
    refine f1.assignOne (d := d + k) r1 hv ha (by have := hD (x + k) (by omega) (by omega); simp only [this, false_or]; omega)
      (hr _ (by omega) (by omega)) ?_ hX
    intro s2 H2 f2 r2 m2
    refine ih (k + 1) (by omega) s2 H2 (f2.congr (fun i _ => ?_)) r2 (fun i => ?_)
    · constructor
      · rintro (e | e)
        · exact Or.inl (Or.inl e)
        · by_cases hi : i = x + k
          · exact Or.inr hi
          · exact Or.inl (Or.inr (by omega))
      · rintro ((e | e) | e)
        · exact Or.inl e
        · exact Or.inr (by omega)
        · exact Or.inr (by omega)
    · rw [m2]
      by_cases hi : i = d + k
      · subst hi
        rw [if_pos rfl, if_pos (by omega), show x + (d + k - d) = x + k by omega, hv]
      · rw [if_neg hi, m1]
        by_cases hc : d ≤ i ∧ i < d + k
        · rw [if_pos hc, if_pos (by omega)]
        · rw [if_neg hc, if_neg (by omega)]

/-! ### On the segments -/

variable {V : View} {tcap : Nat} {t : Table}

/-- `src` gives the elements `[x, x + m)` of the source. -/
def Piece (V : View) (as : List (Arg α)) (x m : Nat) (src : Seg.From α) : Prop := IsFrom V src ((as.drop x).take m)

theorem Piece.uninit {x m d : Nat} {src : Seg.From α} {Q : SIt → St α → Prop} (hF : Fit V t) (hp : Piece V as x m src)
    (hf : Feed E H0 as vs mv D H) (h : SRow V al tcap H s L)
    (hx : x + m ≤ vs.length) (hD : ∀ i, x ≤ i → i < x + m → ¬ D i)
    (hd : d + m ≤ V.size) (hr : ∀ i, d ≤ i → i < d + m → ¬ L i)
    (hQ : ∀ s' H', Feed E H0 as vs mv (fun i => D i ∨ (x ≤ i ∧ i < x + m)) H' →
      SRow V al tcap H' s' (fun i => L i ∨ (d ≤ i ∧ i < d + m)) →
      (∀ i, V.cell s' i = if d ≤ i ∧ i < d + m then vs[x + (i - d)]? else V.cell s i) → Q (V.it (d + m)) s')
    (hX : ∀ s' H', Spoilt H0 mv H' → SRow V al tcap H' s' L → (∀ i, V.cell s' i = V.cell s i) → X .elem s') :
    wp (src.uninit E V.N t (V.it d)) Q X s := by
  have hl : ((as.drop x).take m).length = m := by have := hf.length; simp; omega
  refine Sim.wp (IsFrom.uninit (lim := E.maxSize) hF hp (by omega)) h.lay (hf.uninit h.row hx hD hd hr ?_ ?_)
  · rintro s'' H' f1 r1 m1 b s' ⟨rfl, -⟩ rfl hlay
    rw [hl]
    exact hQ s' H' f1 (.of hlay r1) m1
  · rintro s'' H' f1 r1 m1 s' rfl hlay
    exact hX s' H' f1 (.of hlay r1) m1

theorem Piece.assign {x m d : Nat} {src : Seg.From α} {Q : SIt → St α → Prop} (hF : Fit V t) (hp : Piece V as x m src)
    (hf : Feed E H0 as vs mv D H) (h : SRow V al tcap H s L)
    (hx : x + m ≤ vs.length) (hD : ∀ i, x ≤ i → i < x + m → ¬ D i)
    (hr : ∀ i, d ≤ i → i < d + m → L i) (hd : d + m ≤ V.size)
    (hQ : ∀ s' H', Feed E H0 as vs mv (fun i => D i ∨ (x ≤ i ∧ i < x + m)) H' → SRow V al tcap H' s' L →
      (∀ i, V.cell s' i = if d ≤ i ∧ i < d + m then vs[x + (i - d)]? else V.cell s i) → Q (V.it (d + m)) s')
    (hX : ∀ s' H', Spoilt H0 mv H' → SRow V al tcap H' s' L → X .elem s') :
    wp (src.assign E V.N t (V.it d)) Q X s := by
  have hl : ((as.drop x).take m).length = m := by have := hf.length; simp; omega
  refine Sim.wp (IsFrom.assign (lim := E.maxSize) hF hp (by omega)) h.lay (hf.assign h.row hx hD hr ?_ ?_)
  · rintro s'' H' f1 r1 m1 b s' ⟨rfl, -⟩ rfl hlay
    rw [hl]
    exact hQ s' H' f1 (.of hlay r1) m1
  · rintro s'' H' f1 r1 s' rfl hlay
    exact hX s' H' f1 (.of hlay r1)

/-- Splitting the source: two adjacent pieces. -/
theorem Piece.split {x m n : Nat} {src : Seg.From α} (hF : Fit V t) (hp : Piece V as x m src) (hx : x + m ≤ as.length)
    (hn : n ≤ m) {σ : Type} :
    ∃ lo hi, (∀ s : σ, src.split V.N n s = .ok (lo, hi) s) ∧ Piece V as x n lo ∧ Piece V as (x + n) (m - n) hi := by
  obtain ⟨lo, hi, h1, h2, h3⟩ := IsFrom.split hF hp (n := n) (by simp; omega) (σ := σ)
  refine ⟨lo, hi, h1, ?_, ?_⟩
  · unfold Piece
    rw [List.take_take, Nat.min_eq_left hn] at h2
    exact h2
  · unfold Piece
    rw [List.drop_take, List.drop_drop] at h3
    exact h3

theorem Piece.whole {src : Seg.From α} (h : IsFrom V src as) : Piece V as 0 as.length src := by
  unfold Piece; simpa using h

/-- A list of values is a source. -/
theorem isFrom_vals (ra : Bool) (ys : List α) : IsFrom V (.list ra (ys.map .val)) (ys.map .val) := by
  have := IsFrom.list (V := V) ra (ys.map .val)
  rw [SegVec.map_val] at this
  exact this

end Sfl.SegDev
