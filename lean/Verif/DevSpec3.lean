import Verif.DevSpec2
/-
  Correctness of the functions of devector: insertion. (Helper lemmas.)
-/

set_option linter.unusedSimpArgs false

namespace Sfl.Devector
open Sfl
variable {α : Type} {E : Env α} {H : Heap α} {al b cap f : Nat} {o : Obj DVec α} {xs : List α}
  {px : Proxy α} {vs : List α} {k n : Nat}

/-- What a failed insertion leaves behind, unless the layout is a faulty one (`bug`). -/
structure Broken (H : Heap α) (E : Env α) (al b cap f : Nat) (xs : List α) (one : Bool) (bug P : Prop) (e : Exn)
    (o' : Obj DVec α) : Prop where
  safe : ¬ bug ∨ (∀ t, E.throws t = false) ∨ (one = true ∧ NothrowMove E) →
    ∃ xs', DSt H E o' al b cap f xs' ∧ xs'.length = xs.length ∧ (one = true → NothrowMove E → xs' = xs)
  len : e = .lengthError → P

theorem Good.dst {s' : St α} {nx q10 q20 q30 q40 : Nat} {v : DVec} (h : DSt H E o al b cap f xs) (hk : k ≤ xs.length)
    (g : Good H o.m al b cap nx f (f + k) q10 q20 q30 q40 vs () s') (hn : vs.length = n)
    (e2 : q20 = q10 + k) (e3 : q30 = q20 + n) (e4 : q40 = q30 + (xs.length - k)) (hc : q40 ≤ cap)
    (hv : v = ⟨⟨b, 0⟩, ⟨b, q10⟩, ⟨b, q40⟩, ⟨b, cap⟩, al⟩) :
    DSt H E ⟨v, s'⟩ al b cap q10 (xs.take k ++ vs ++ xs.drop k) := by
  have hlen : (xs.take k ++ vs ++ xs.drop k).length = xs.length + n := by simp; omega
  refine g.1.dst' hc h.capLe hv (by omega) ?_
  intro i h1 h2
  by_cases c1 : i < q20
  · rw [g.2.a i h1 c1, h.cell, List.append_assoc, List.getElem?_append_left (by simp; omega), List.getElem?_take,
      if_pos (by omega)]
  by_cases c2 : i < q30
  · rw [g.2.v i (by omega) c2, List.getElem?_append_left (by simp; omega), List.getElem?_append_right (by simp; omega)]
    congr 1
    simp; omega
  · rw [g.2.z i (by omega) h2, show f + k + (i - q30) = f + (k + (i - q30)) by omega, h.cell,
      List.getElem?_append_right (by simp; omega), List.getElem?_drop]
    congr 1
    simp; omega

/-- Layout of insert_aux_shift_to_back at devector.hpp:2712-2774, in terms of sizes. -/
theorem backBug_iff {shift len : Nat} (hk : k ≤ len) (hs : n ≤ f + shift) :
    BackBug f (f + k) (f + len) (f + shift - n + k) (f + shift - n + k + n) ↔ len ≤ shift + k ∧ shift < n ∧ n ≤ shift + k := by
  unfold BackBug; omega

theorem frontBug_iff {shift len : Nat} (hk : k ≤ len) (hs : shift ≤ f) :
    FrontBug f (f + k) (f + len) (f - shift + k) (f - shift + k + n) (f - shift + k + n + (len - k)) ↔
      shift < k ∧ n ≤ shift ∧ k + shift < len + n := by
  unfold FrontBug; omega

theorem insertShiftBack_spec {shift : Nat} (h : DSt H E o al b cap f xs) (hp : px.Has H E vs) (hn : vs.length = n)
    (hn0 : 0 < n) (hk : k ≤ xs.length) (hs0 : 0 < shift) (hs1 : n ≤ f + shift) (hs2 : f + xs.length + shift ≤ cap) :
    wp (insertShiftBack E shift ⟨b, f + k⟩ n px)
      (fun r o' => ∃ f', DSt H E o' al b cap f' (xs.take k ++ vs ++ xs.drop k) ∧ r = ⟨b, f' + k⟩)
      (Broken H E al b cap f xs px.isOne (xs.length ≤ shift + k ∧ shift < n ∧ n ≤ shift + k) False) o := by
  unfold insertShiftBack
  rw [wp_bind, wp_getObj, wp_bind, wp_assert, h.obj]
  refine ⟨hs0, ?_⟩
  rw [wp_bind, wp_assert]
  refine ⟨⟨rfl, by simp, by simp; omega⟩, ?_⟩
  rw [wp_bind, wp_assert]
  refine ⟨hn0, ?_⟩
  rw [wp_bind]
  refine dist (by omega) ?_
  rw [wp_bind]
  refine dist (by omega) ?_
  dsimp only
  have hsub : ((⟨b, f⟩ : Ptr).add shift).sub n = ⟨b, f + shift - n⟩ := by
    unfold Ptr.sub Ptr.add; rw [if_pos hs1]
  rw [hsub]
  dsimp only [Ptr.add]
  rw [show f + k - f = k by omega, show f + xs.length - (f + k) = xs.length - k by omega]
  simp only [wp_bind, wp_lift, wp_setObj, wp_pure]
  have hrow := h.row
  refine wp_mono (shiftBackMem_spec (n := n) hrow hp hn (by omega) (by omega) (by omega) rfl (by omega) (by omega) (by omega)) ?_ ?_
  · intro _ s' g
    exact ⟨f + shift - n, Good.dst h hk g hn rfl rfl rfl (by omega) rfl, rfl⟩
  · rintro e s' ⟨rfl, g1, g2, g3⟩
    rw [backBug_iff hk hs1] at g2 g3
    refine ⟨fun hsafe => ?_, fun he => by cases he⟩
    by_cases hb : xs.length ≤ shift + k ∧ shift < n ∧ n ≤ shift + k
    · rcases hsafe with c | c | ⟨c1, c2⟩
      · exact absurd hb c
      · exact (g2 ⟨hb, c⟩).elim
      · exact absurd c2 (g1 c1)
    · obtain ⟨xs', k1, k2⟩ := h.lost (v := o.obj) rfl (g3 hb)
      exact ⟨xs', k1, k2, fun c1 c2 => absurd c2 (g1 c1)⟩

theorem insertShiftFront_spec {shift : Nat} (h : DSt H E o al b cap f xs) (hp : px.Has H E vs) (hn : vs.length = n)
    (hn0 : 0 < n) (hk : k ≤ xs.length) (hs0 : 0 < shift) (hs1 : shift ≤ f) (hs2 : f + xs.length + n ≤ cap + shift) :
    wp (insertShiftFront E shift ⟨b, f + k⟩ n px)
      (fun r o' => ∃ f', DSt H E o' al b cap f' (xs.take k ++ vs ++ xs.drop k) ∧ r = ⟨b, f' + k⟩)
      (Broken H E al b cap f xs px.isOne (shift < k ∧ n ≤ shift ∧ k + shift < xs.length + n) False) o := by
  unfold insertShiftFront
  rw [wp_bind, wp_getObj, wp_bind, wp_assert, h.obj]
  refine ⟨hs0, ?_⟩
  rw [wp_bind, wp_assert]
  refine ⟨⟨rfl, by simp, by simp; omega⟩, ?_⟩
  rw [wp_bind, wp_assert]
  refine ⟨hn0, ?_⟩
  rw [wp_bind]
  refine dist (by omega) ?_
  rw [wp_bind]
  refine dist (by omega) ?_
  dsimp only
  have hsub : (⟨b, f⟩ : Ptr).sub shift = ⟨b, f - shift⟩ := by
    unfold Ptr.sub; rw [if_pos hs1]
  rw [hsub]
  dsimp only [Ptr.add]
  rw [show f + k - f = k by omega, show f + xs.length - (f + k) = xs.length - k by omega]
  simp only [wp_bind, wp_lift, wp_setObj, wp_pure]
  have hrow := h.row
  refine wp_mono (shiftFrontMem_spec (n := n) hrow hp hn (by omega) (by omega) (by omega) rfl (by omega) (by omega) (by omega)) ?_ ?_
  · intro _ s' g
    exact ⟨f - shift, Good.dst h hk g hn rfl rfl rfl (by omega) rfl, rfl⟩
  · rintro e s' ⟨rfl, g1, g2, g3⟩
    rw [frontBug_iff hk hs1] at g2 g3
    refine ⟨fun hsafe => ?_, fun he => by cases he⟩
    by_cases hb : shift < k ∧ n ≤ shift ∧ k + shift < xs.length + n
    · rcases hsafe with c | c | ⟨c1, c2⟩
      · exact absurd hb c
      · exact (g2 ⟨hb, c⟩).elim
      · exact absurd c2 (g1 c1)
    · obtain ⟨xs', k1, k2⟩ := h.lost (v := o.obj) rfl (g3 hb)
      exact ⟨xs', k1, k2, fun c1 c2 => absurd c2 (g1 c1)⟩

/-! ### Growing -/

/-- The foreign memory as seen from the new storage: the old storage belongs to it. -/
def side (H : Heap α) (s : St α) (b : Nat) : Heap α :=
  ⟨fun c => if c = b then s.mem b else H.mem c, fun c => if c = b then s.blk b else H.blk c⟩

theorem side_new {s : St α} {nb ncap : Nat} (h : Store2 H s al 0 0 b cap nb ncap) :
    Store (side H s b) s al 0 0 nb ncap where
  wf := h.wf
  ibk := Or.inl ⟨rfl, rfl⟩
  own := by
    rcases h.nown with h1 | h1
    · exact Or.inl h1
    · exact Or.inr (Or.inr h1)
  iraw := fun _ i => h.wf.dead 0 h.wf.blk_zero i
  beyond := h.nbeyond
  fmem := fun c h1 h2 i => by
    unfold side
    by_cases hc : c = b
    · simp [hc]
    · simpa [hc] using h.fmem c hc h2 h1 i
  fblk := fun c h1 h2 => by
    unfold side
    by_cases hc : c = b
    · simp [hc]
    · simpa [hc] using h.fblk c hc h2 h1
  hmem := fun i => by simpa [side, h.ne] using h.nhmem i
  hblk := by simpa [side, h.ne] using h.nhblk
  himem := fun i => by
    unfold side
    by_cases hc : 0 = b
    · subst hc; simpa using h.wf.dead 0 h.wf.blk_zero i
    · simpa [hc] using h.himem i
  hiblk := by
    unfold side
    by_cases hc : 0 = b
    · subst hc; simpa using h.wf.blk_zero
    · simpa [hc] using h.hiblk

/-- Back to the old foreign memory. -/
theorem side_old {s s' : St α} {nb ncap : Nat} (h : Store2 H s al 0 0 b cap nb ncap)
    (h' : Store (side H s b) s' al 0 0 nb ncap) (hn : nb ≠ 0) :
    Store2 H s' al 0 0 b cap nb ncap ∧ s'.mem b = s.mem b := by
  have hb : b ≠ 0 → s'.mem b = s.mem b ∧ s'.blk b = s.blk b := fun hb =>
    ⟨funext fun i => by simpa [side] using h'.fmem b (Ne.symm h.ne) hb i,
     by simpa [side] using h'.fblk b (Ne.symm h.ne) hb⟩
  have hz : ∀ i, s.mem 0 i = none := h.wf.dead 0 h.wf.blk_zero
  have hz' : ∀ i, s'.mem 0 i = none := h'.wf.dead 0 h'.wf.blk_zero
  have hm : s'.mem b = s.mem b := by
    by_cases hc : b = 0
    · subst hc; funext i; rw [hz, hz']
    · exact (hb hc).1
  refine ⟨{ wf := h'.wf, ibk := Or.inl ⟨rfl, rfl⟩, own := ?_, nown := ?_, iraw := fun _ _ => hz', beyond := ?_, ne := h.ne,
            nbeyond := h'.beyond, fmem := ?_, fblk := ?_, hmem := h.hmem, hblk := h.hblk, himem := h.himem, hiblk := h.hiblk,
            nhmem := h.nhmem, nhblk := h.nhblk }, hm⟩
  · rcases h.own with h1 | h1 | ⟨h1, h2, h3, h4⟩
    · exact Or.inl h1
    · exact Or.inr (Or.inl h1)
    · exact Or.inr (Or.inr ⟨h1, h2, h3, by rw [(hb h2).2]; exact h4⟩)
  · rcases h'.own with h1 | h1 | h1
    · exact Or.inl h1
    · exact absurd h1.1 hn
    · exact Or.inr h1
  · intro i hi; rw [hm]; exact h.beyond i hi
  · intro c h1 h2 h3 i
    have := h'.fmem c h3 h2 i
    simpa [side, h1] using this
  · intro c h1 h2 h3
    have := h'.fblk c h3 h2
    simpa [side, h1] using this

theorem side_has {s : St α} {nb ncap : Nat} (h : Store2 H s al 0 0 b cap nb ncap) (hp : px.Has H E vs) :
    px.Has (side H s b) E vs := by
  have key : ∀ {as : List (Arg α)} {ws : List α}, Exts H E as ws → Exts (side H s b) E as ws := by
    intro as ws hx
    refine ⟨hx.src, fun t ht => hx.val t (fun c i hc => ?_)⟩
    have hcb : c ≠ b := fun he => hc (he ▸ h.hblk)
    have := ht c i (by simpa [side, hcb] using hc)
    simpa [side, hcb] using this
  cases px with
  | one v => exact hp
  | fill a => obtain ⟨v, h1, h2⟩ := hp; exact ⟨v, key h1, h2⟩
  | range as => exact key hp

/-- Moving a live part of the old storage into a raw part of the new one. -/
theorem Store2.mv {s : St α} {nb ncap x y d0 : Nat} {Q : Ptr → St α → Prop} {X : Exn → St α → Prop}
    (h : Store2 H s al 0 0 b cap nb ncap) (hxy : x ≤ y)
    (hs : ∀ i, x ≤ i → i < y → (s.mem b i).isSome)
    (hr : ∀ i, d0 ≤ i → i < d0 + (y - x) → s.mem nb i = none)
    (hc : d0 + (y - x) ≤ ncap)
    (hQ : ∀ s', Store2 H s' al 0 0 b cap nb ncap →
      (∀ i, s'.mem nb i = if d0 ≤ i ∧ i < d0 + (y - x) then s.mem b (x + (i - d0)) else s.mem nb i) →
      (∀ i, (s'.mem b i).isSome = (s.mem b i).isSome) →
      (∀ i, ¬ (x ≤ i ∧ i < y) → s'.mem b i = s.mem b i) → Q ⟨nb, d0 + (y - x)⟩ s')
    (hX : ∀ s', Store2 H s' al 0 0 b cap nb ncap → s'.mem nb = s.mem nb → E.nothrowMoveCtor = false →
      (∀ i, (s'.mem b i).isSome = (s.mem b i).isSome) → X .elem s') :
    wp (uninitMove E ⟨b, x⟩ ⟨b, y⟩ ⟨nb, d0⟩) Q X s := by
  have hne := h.ne
  have hbey := h.beyond
  have hnbey := h.nbeyond
  unfold uninitMove
  refine wp_uninit_range (n := y - x) mkOk_mv rfl (by simp [Ptr.add]; omega) ?_ ?_ hr ?_ ?_
  · intro i h1 h2; exact hs i h1 (by simp at h2; omega)
  · intro j hj; exact h.inB (by simp; omega)
  · intro s' hsm ht hm
    refine hQ s' (h.upd hsm ?_ ?_ ?_) ?_ ?_ ?_
    · intro i hi; rw [hm]; have := hbey i hi; grind
    · intro i hi; rw [hm]; have := hnbey i hi; grind
    · intro c h1 h2 i; rw [hm]; grind
    · intro i; rw [hm]; grind
    · intro i; rw [hm]; grind
    · intro i hi; rw [hm]; grind
  · intro hnm s' hsm hm
    have hnm' : E.nothrowMoveCtor = false := hnm rfl
    refine hX s' (h.upd hsm ?_ ?_ ?_) ?_ hnm' ?_
    · intro i hi; have := hm b i; have := hbey i hi; have := hs i; grind
    · intro i hi; have := hm nb i; have := hnbey i hi; grind
    · intro c h1 h2 i; have := hm c i; grind
    · funext i; have := hm nb i; grind
    · intro i; have := hm b i; have := hs i; grind

theorem insertGrow_spec {ncap off : Nat} (h : DSt H E o al b cap f xs) (hp : px.Has H E vs) (hn : vs.length = n)
    (hk : k ≤ xs.length) (hc : off + xs.length + n ≤ ncap) (hm : ncap ≤ E.maxSize) (h0 : 0 < ncap) :
    wp (insertGrow E ncap off ⟨b, f + k⟩ n px)
      (fun r o' => ∃ b', DSt H E o' al b' ncap off (xs.take k ++ vs ++ xs.drop k) ∧ r = ⟨b', off + k⟩)
      (Broken H E al b cap f xs px.isOne False False) o := by
  have hfit := h.fit
  have hlen : (xs.take k ++ vs ++ xs.drop k).length = xs.length + n := by simp; omega
  unfold insertGrow
  rw [wp_bind, wp_getObj, wp_bind, h.obj]
  refine dist (by omega) ?_
  rw [wp_bind, wp_lift]
  dsimp only
  refine wp_allocate h.st.wf (fun he => by omega) ?_ ?_
  · intro _ s1 hm1 hnx _ hb
    obtain ⟨st1, raw1⟩ := h.st.alloc hm1 hnx (ncap := ncap) (by omega) hb
    generalize o.m.next = nb at st1 raw1
    have hnb : nb ≠ 0 := st1.nb_ne_zero h0
    dsimp only [Ptr.add]
    simp only [Nat.zero_add]
    rw [show f + (f + k - f) = f + k by omega, show f + k - f = k by omega]
    -- the handler
    have hd : ∀ (s : St α) (i : Nat), Store2 H s al 0 0 b cap nb ncap →
        (∀ j, (s.mem nb j).isSome ↔ off ≤ j ∧ j < off + i) → (∀ j, (s.mem b j).isSome = (o.m.mem b j).isSome) →
        (px.isOne = true → ¬ NothrowMove E) →
        wp (destroyRange ⟨nb, off⟩ ⟨nb, off + i⟩) (fun _ s' => wp (deallocate al ⟨nb, 0⟩ ncap) (fun _ s'' =>
            Broken H E al b cap f xs px.isOne False False .elem
              ⟨o.obj, s''⟩)
          (fun e s'' => Broken H E al b cap f xs px.isOne False False e
            ⟨o.obj, s''⟩) s')
          (fun e s' => Broken H E al b cap f xs px.isOne False False e
            ⟨o.obj, s'⟩) s := by
      intro s i hst hl hbl hno
      have hu := Store2.undo (d0 := off) (n := i) (k := ncap) (p := ⟨nb, off⟩) (q := ⟨nb, off + i⟩)
        (Q := fun _ s'' => Broken H E al b cap f xs px.isOne False False .elem
              ⟨o.obj, s''⟩)
        (X := fun e s' => Broken H E al b cap f xs px.isOne False False e
            ⟨o.obj, s'⟩) hst rfl rfl
        (fun j h1 h2 => (hl j).mpr ⟨h1, h2⟩) (fun j hj => by
          have := hl j
          cases hh : s.mem nb j with
          | none => rfl
          | some _ => rw [hh] at this; exact absurd (this.mp rfl) hj) (fun _ => rfl) ?_
      · unfold freeUnless at hu
        rw [if_pos (by simpa using hnb)] at hu
        exact hu
      · intro s2 hm2 _ hst2
        have hrow : Row H s2 al b cap s2.next (fun j => f ≤ j ∧ j < f + xs.length) :=
          ⟨hst2, rfl, fun j => by rw [hm2, hbl]; exact h.live j⟩
        obtain ⟨xs', k1, k2⟩ := h.lost (v := o.obj) rfl hrow
        exact ⟨fun _ => ⟨xs', k1, k2, fun c1 c2 => absurd c2 (hno c1)⟩, fun he => by cases he⟩
    rw [wp_bind, wp_tryCatch, wp_lift]
    have e1 : f + k - f = k := by omega
    refine Store2.mv (x := f) (y := f + k) (d0 := off) st1 (by omega) ?_ (fun i _ _ => raw1 i) (by omega) ?_ ?_
    · intro i h1 h2; rw [hm1]; exact (h.live i).mpr ⟨h1, by omega⟩
    · -- first part moved
      intro s2 st2 nb2 bl2 bo2
      rw [e1] at nb2 ⊢
      rw [wp_bind, wp_tryCatch, wp_lift]
      have l2 : ∀ j, (s2.mem nb j).isSome ↔ off ≤ j ∧ j < off + k := by
        intro j; rw [nb2]
        split
        · rename_i hj
          rw [hm1]; have := (h.live (f + (j - off)))
          simp only [hj, and_self, iff_true]
          exact this.mpr (by omega)
        · rename_i hj; rw [raw1]; simp [hj]
      have hrow : Row (side H s2 b) s2 al nb ncap s2.next (fun j => off ≤ j ∧ j < off + k) :=
        ⟨side_new st2, rfl, l2⟩
      refine (side_has st2 hp).ui hrow (by omega) (by omega) (by lv) ?_ ?_
      · intro s3 px3 _ _ r3 m3
        obtain ⟨st3, b3⟩ := side_old st2 r3.st hnb
        rw [wp_bind, wp_tryCatch, wp_lift]
        dsimp only
        refine Store2.mv (x := f + k) (y := f + xs.length) (d0 := off + k + n) st3 (by omega) ?_ ?_ (by omega) ?_ ?_
        · intro i h1 h2; rw [b3, bl2, hm1]; exact (h.live i).mpr ⟨by omega, h2⟩
        · intro i h1 h2; exact r3.raw (by omega)
        · intro s4 st4 nb4 bl4 bo4
          rw [wp_bind]
          refine wp_replaceStorage (n := xs.length) h.obj st4 ?_ ?_
          · intro i; dsimp only; rw [bl4, b3, bl2, hm1]; exact h.live i
          · intro s5 hst5 hmem5
            rw [wp_pure]
            dsimp only at hmem5
            have hrow5 : Row H s5 al nb ncap s5.next (fun j => off ≤ j ∧ j < off + (xs.length + n)) := by
              refine ⟨hst5, rfl, fun j => ?_⟩
              rw [hmem5, nb4]
              split
              · rename_i hj
                rw [b3, bo2 _ (by omega), hm1]
                have := h.live (f + k + (j - (off + k + n)))
                rw [this]; omega
              · rename_i hj
                rw [r3.live]; omega
            refine ⟨nb, hrow5.dst' (by omega) hm (by simp; omega) (by omega) ?_, rfl⟩
            intro i h1 h2
            rw [hmem5, nb4]
            split
            · rename_i hj
              rw [b3, bo2 _ (by omega), hm1, show f + k + (i - (off + k + n)) = f + (i - off - n) by omega, h.cell,
                List.getElem?_append_right (by simp; omega), List.getElem?_drop]
              congr 1
              simp; omega
            · rename_i hj
              by_cases c1 : i < off + k
              · rw [m3.oth i (by omega), nb2, if_pos ⟨h1, c1⟩, hm1, h.cell, List.append_assoc,
                  List.getElem?_append_left (by simp; omega), List.getElem?_take, if_pos (by omega)]
              · rw [m3.dst i (by omega) (by omega), List.getElem?_append_left (by simp; omega),
                  List.getElem?_append_right (by simp; omega)]
                congr 1
                simp; omega
        · intro s4 st4 nb4 hE bl4
          simp only [wp_bind, wp_lift, wp_throw]
          have := hd s4 (k + n) st4 (fun j => by rw [nb4, r3.live]; omega) (fun j => by rw [bl4, b3, bl2, hm1])
            (fun _ hn' => by rw [hn'.1] at hE; cases hE)
          rw [show off + k + n = off + (k + n) by omega]
          exact this
      · intro hno s3 r3
        obtain ⟨st3, b3⟩ := side_old st2 r3.st hnb
        simp only [wp_bind, wp_lift, wp_throw]
        exact hd s3 k st3 (fun j => r3.live j) (fun j => by rw [b3, bl2, hm1]) hno
    · intro s2 st2 nb2 hE bl2
      simp only [wp_bind, wp_lift, wp_throw]
      have := hd s2 0 st2 (fun j => by rw [nb2, raw1]; simp) (fun j => by rw [bl2, hm1])
        (fun _ hn' => by rw [hn'.1] at hE; cases hE)
      simpa using this
  · intro _ s1 hs1 hm1
    refine ⟨fun _ => ⟨xs, ⟨h.obj, h.st.same hs1 hm1, h.fit, h.capLe, fun i => ?_⟩, rfl, fun _ _ => rfl⟩, fun he => by cases he⟩
    dsimp only; rw [hm1]; exact h.cells i

end Sfl.Devector
