import Verif.Own
/-
  Moving elements out of another container: std::swap_ranges, construction and assignment from a range of
  move iterators.
-/

set_option linter.unusedSimpArgs false

namespace Sfl
open Sfl.Vector (VM)
variable {α : Type} {E : Env α} {H : Heap α} {al ib N b cap nb ncap : Nat} {s s' : St α}

theorem args_take {mk : Ptr → Arg α} {p : Ptr} {n k : Nat} : (args mk p n).take k = args mk p (min k n) := by
  induction n generalizing p k with
  | zero => simp [args]
  | succ n ih =>
    cases k with
    | zero => simp [args]
    | succ k => rw [Nat.add_min_add_right]; simp [args, ih]

theorem args_drop {mk : Ptr → Arg α} {p : Ptr} {n k : Nat} (hk : k ≤ n) :
    (args mk p n).drop k = args mk (p.add k) (n - k) := by
  induction k generalizing p n with
  | zero => simp [Ptr.add]
  | succ k ih =>
    cases n with
    | zero => omega
    | succ n =>
      simp only [args, List.drop_succ_cons]
      rw [ih (by omega), show n + 1 - (k + 1) = n - k by omega]
      congr 1
      simp [Ptr.add]; omega

/-- Move-construct a raw range from a live range of objects given by their addresses. -/
theorem wp_uninit_mv {p d : Ptr} {n : Nat} {Q : Ptr → St α → Prop} {X : Exn → St α → Prop}
    (hs : ∀ i, p.off ≤ i → i < p.off + n → (s.mem p.blk i).isSome)
    (hb : ∀ j, j < n → s.inB (d.add j) = true)
    (hr : ∀ i, d.off ≤ i → i < d.off + n → s.mem d.blk i = none)
    (hQ : ∀ s', Same s s' → s'.tick = s.tick + n →
      (∀ b i, s'.mem b i =
        if d.has n b i then s.mem p.blk (p.off + (i - d.off))
        else if p.has n b i then (s.mem b i).map E.moved
        else s.mem b i) →
      Q (d.add n) s')
    (hX : E.nothrowMoveCtor = false → ∀ s', Same s s' →
      (∀ b i, s'.mem b i = s.mem b i ∨ (p.has n b i ∧ (s'.mem b i).isSome)) →
      X .elem s') :
    wp (uninit E d (args .mv p n)) Q X s := by
  have := wp_uninit_range (E := E) (s := s) (X := X) (Q := Q) (mkOk_mv) (first := p) (last := p.add n) (d := d) (n := n)
    rfl rfl (fun i h1 h2 => hs i h1 h2) hb hr
    (fun s' h1 h2 h3 => hQ s' h1 h2 (fun b i => by simpa using h3 b i))
    (fun h s' h1 h2 => hX (h rfl) s' h1 (fun b i => by simpa using h2 b i))
  rw [wp_bind] at this
  unfold wp distance at this
  simpa [wp] using this

theorem wp_swapRanges {n : Nat} {p q : Ptr} {s : St α} {Q : Unit → St α → Prop} {X : Exn → St α → Prop}
    (hp : ∀ i, p.off ≤ i → i < p.off + n → (s.mem p.blk i).isSome)
    (hq : ∀ i, q.off ≤ i → i < q.off + n → (s.mem q.blk i).isSome)
    (hne : p.blk ≠ q.blk)
    (hQ : ∀ s', Same s s' → (∀ c i, s'.mem c i =
        if p.has n c i then s.mem q.blk (q.off + (i - p.off))
        else if q.has n c i then s.mem p.blk (p.off + (i - q.off)) else s.mem c i) → Q () s')
    (hX : ¬ NothrowMove E → ∀ s', Same s s' →
      (∀ c i, if p.has n c i ∨ q.has n c i then (s'.mem c i).isSome else s'.mem c i = s.mem c i) → X .elem s') :
    wp (swapRanges E p q n) Q X s := by
  induction n generalizing s p q with
  | zero =>
    unfold swapRanges; rw [wp_pure]
    exact hQ s (Same.refl s) (fun c i => by mgrind)
  | succ n ih =>
    unfold swapRanges
    rw [wp_bind]
    obtain ⟨v, hv⟩ := Option.isSome_iff_exists.mp (hp p.off (by omega) (by omega))
    obtain ⟨w, hw⟩ := Option.isSome_iff_exists.mp (hq q.off (by omega) (by omega))
    refine mkTmp_move (v := v) (q := p) hv rfl ?_ ?_
    · intro s1 hs1 _ hm1
      rw [wp_bind]
      have hw1 : (Arg.mv q : Arg α).value s1 = some w := by
        show s1.mem q.blk q.off = _
        rw [hm1, if_neg (by simp [Ne.symm hne]), hw]
      refine assign_move (v := w) (q := q) hw1 rfl (by rw [hm1]; simp) ?_ ?_
      · intro s2 hs2 _ hm2
        rw [wp_bind]
        refine assign_copy (v := v) rfl rfl (by rw [hm2]; simp) ?_ ?_
        · intro s3 hs3 _ hm3
          have hm : ∀ c i, s3.mem c i = if c = q.blk ∧ i = q.off then some v else if c = p.blk ∧ i = p.off then some w
              else s.mem c i := by
            intro c i; rw [hm3, hm2, hm1]; grind
          refine ih ?_ ?_ hne ?_ ?_
          · intro i h1 h2; rw [hm]; have := hp i; simp at *; grind
          · intro i h1 h2; rw [hm]; have := hq i; simp at *; grind
          · intro s4 hs4 hm4
            refine hQ s4 (((hs1.trans hs2).trans hs3).trans hs4) ?_
            intro c i
            rw [hm4, hm, hm, hm]
            clear hm4 hm hm3 hm2 hm1 hQ hX ih hw1
            have e1 : p.off + 1 ≤ i → q.off + 1 + (i - (p.off + 1)) = q.off + (i - p.off) := by omega
            have e2 : q.off + 1 ≤ i → p.off + 1 + (i - (q.off + 1)) = p.off + (i - q.off) := by omega
            simp only [Ptr.has, Ptr.add_blk, Ptr.add_off]
            by_cases hc : c = p.blk
            · subst hc
              by_cases hi : i = p.off
              · subst hi; simp [hne, hw]; intro h; omega
              · grind
            · by_cases hc2 : c = q.blk
              · subst hc2
                by_cases hi : i = q.off
                · subst hi; simp [Ne.symm hne, hv]; intro h; omega
                · grind
              · simp [hc, hc2]
          · intro hE s4 hs4 hm4
            refine hX hE s4 (((hs1.trans hs2).trans hs3).trans hs4) ?_
            intro c i
            have := hm4 c i
            have := hm c i
            mgrind
        · intro he s3 w' hs3 hm3
          refine hX (fun hE => by have := hE.2; simp [Arg.isRv] at he; simp [he] at this) s3 ((hs1.trans hs2).trans hs3) ?_
          intro c i
          have := hm3 c i
          have := hm2 c i
          have := hm1 c i
          have := hp i
          have := hq i
          mgrind
      · intro he s2 w1 w2 hs2 hm2
        refine hX (fun hE => by have := hE.2; simp [he] at this) s2 (hs1.trans hs2) ?_
        intro c i
        have := hm2 c i
        have := hm1 c i
        have := hp i
        have := hq i
        mgrind
    · intro he s1 w1 hs1 hm1
      refine hX (fun hE => by have := hE.1; simp [he] at this) s1 hs1 ?_
      intro c i
      have := hm1 c i
      have := hp i
      have := hq i
      mgrind

/-- The foreign memory after the values in the range `p, …, p + n` have been taken from `s`. -/
def Heap.sync (H : Heap α) (s : St α) (p : Ptr) (n : Nat) : Heap α where
  mem := fun c i => if p.has n c i then s.mem c i else H.mem c i
  blk := H.blk

theorem Store.sync {p : Ptr} {n : Nat} (h : Store H s al ib N b cap) (hs : Same s s')
    (hp : n = 0 ∨ H.blk p.blk ≠ none)
    (hr : ∀ i, cap ≤ i → s'.mem b i = none)
    (hf : ∀ c i, c ≠ b → ¬ p.has n c i → s'.mem c i = s.mem c i) : Store (H.sync s' p n) s' al ib N b cap := by
  have hb : ∀ i, ¬ p.has n b i := by
    rintro i ⟨h1, h2, h3⟩
    rcases hp with hp | hp
    · omega
    · exact hp (h1 ▸ h.hblk)
  have hib : ∀ i, ¬ p.has n ib i := by
    rintro i ⟨h1, h2, h3⟩
    rcases hp with hp | hp
    · omega
    · exact hp (h1 ▸ h.hiblk)
  constructor
  · refine h.wf.upd hs ?_
    intro c hc i
    by_cases hcb : c = b
    · subst hcb; exact hr i (by have := h.dead_b hc; omega)
    · rw [hf c i hcb]
      · exact h.wf.dead c hc i
      · rintro ⟨h1, h2, h3⟩
        by_cases hci : c = ib
        · exact hib i ⟨hci ▸ h1, h2, h3⟩
        · rw [h.fblk c hcb hci] at hc
          rcases hp with hp | hp
          · omega
          · exact hp (h1 ▸ hc)
  · rw [hs.blk]; exact h.ibk
  · rw [hs.blk]; exact h.own
  · intro hne i; rw [hf ib i (Ne.symm hne) (hib i)]; exact h.iraw hne i
  · exact hr
  · intro c h1 h2 i
    simp only [Heap.sync]
    split
    · rfl
    · rename_i hh; rw [hf c i h1 hh, h.fmem c h1 h2]
  · intro c h1 h2; rw [hs.blk]; exact h.fblk c h1 h2
  · intro i; simp only [Heap.sync]; rw [if_neg (hb i)]; exact h.hmem i
  · exact h.hblk
  · intro i; simp only [Heap.sync]; rw [if_neg (hib i)]; exact h.himem i
  · exact h.hiblk

/-- The values in the range `p, …, p + n` of the foreign memory have been moved from. -/
structure Heap.MovedFrom (E : Env α) (p : Ptr) (n : Nat) (H H' : Heap α) : Prop where
  blk : H'.blk = H.blk
  mem : ∀ c i, H'.mem c i = if p.has n c i then (H.mem c i).map E.moved else H.mem c i

/-- The objects in the range `p, …, p + n` of the foreign memory are still alive, with unknown values. -/
structure Heap.Disturbed (p : Ptr) (n : Nat) (H H' : Heap α) : Prop where
  blk : H'.blk = H.blk
  out : ∀ c i, ¬ p.has n c i → H'.mem c i = H.mem c i
  live : ∀ c i, p.has n c i → (H'.mem c i).isSome

theorem Heap.Disturbed.refl {p : Ptr} {n : Nat} (h : ∀ i, p.off ≤ i → i < p.off + n → (H.mem p.blk i).isSome) :
    Heap.Disturbed p n H H :=
  ⟨rfl, fun _ _ _ => rfl, fun c i hi => by obtain ⟨h1, h2, h3⟩ := hi; rw [h1]; exact h i h2 h3⟩

/-- The source of the moves: `n` live foreign objects at `p` with values `vs`. -/
structure Source (H : Heap α) (p : Ptr) (vs : List α) : Prop where
  blk : vs.length = 0 ∨ H.blk p.blk ≠ none
  val : ∀ i, i < vs.length → H.mem p.blk (p.off + i) = vs[i]?

theorem Source.live {p : Ptr} {vs : List α} (h : Source H p vs) :
    ∀ i, p.off ≤ i → i < p.off + vs.length → (H.mem p.blk i).isSome := by
  intro i h1 h2
  have := h.val (i - p.off) (by omega)
  rw [show p.off + (i - p.off) = i by omega] at this
  rw [this]; simp; omega

theorem Source.agree {p : Ptr} {vs : List α} (h : Source H p vs) (hst : Store H s al ib N b cap) :
    ∀ i, p.off ≤ i → i < p.off + vs.length → s.mem p.blk i = vs[i - p.off]? := by
  intro i h1 h2
  have := h.val (i - p.off) (by omega)
  rw [show p.off + (i - p.off) = i by omega] at this
  rw [← this]
  refine hst.agree _ _ ?_
  rcases h.blk with h0 | h0
  · omega
  · exact h0

theorem Source.ne {p : Ptr} {vs : List α} (h : Source H p vs) (hst : Store H s al ib N b cap) :
    ∀ i, ¬ p.has vs.length b i := by
  rintro i ⟨h1, h2, h3⟩
  rcases h.blk with hp | hp
  · omega
  · exact hp (h1 ▸ hst.hblk)

theorem Store.moved {p : Ptr} {n : Nat} (h : Store H s al ib N b cap)
    (hp : n = 0 ∨ H.blk p.blk ≠ none)
    (hm : ∀ c i, c ≠ b → p.has n c i → s'.mem c i = (s.mem c i).map E.moved) :
    Heap.MovedFrom E p n H (H.sync s' p n) := by
  refine ⟨rfl, fun c i => ?_⟩
  simp only [Heap.sync]
  split
  · rename_i hh
    obtain ⟨h1, h2, h3⟩ := hh
    have hb : H.blk c ≠ none := by
      rcases hp with hp | hp
      · omega
      · rw [h1]; exact hp
    have hne : c ≠ b := fun e => hb (e ▸ h.hblk)
    rw [hm c i hne ⟨h1, h2, h3⟩, h.agree c i hb]
  · rfl

theorem Store.disturbed {p : Ptr} {n : Nat} (hm : ∀ c i, p.has n c i → (s'.mem c i).isSome) :
    Heap.Disturbed p n H (H.sync s' p n) := by
  refine ⟨rfl, fun c i hh => ?_, fun c i hh => ?_⟩
  · simp only [Heap.sync]; rw [if_neg hh]
  · simp only [Heap.sync]; rw [if_pos hh]; exact hm c i hh

theorem initWith_move_spec {m : St α} {p : Ptr} {vs : List α} (hg : Gone H al ib N m) (hN : N ≤ E.maxSize)
    (hx : Source H p vs) :
    wp (SmallVector.initWith E N (args .mv p vs.length))
      (fun _ o' => ∃ b' H', Heap.MovedFrom E p vs.length H H' ∧ VSt H' E ib N o' al b' (max N vs.length) vs)
      (fun _ o' => ∃ H', Heap.Disturbed p vs.length H H' ∧ Gone H' al ib N o'.m)
      ⟨SmallVector.empty ib N al, m⟩ := by
  have hlen : (args Arg.mv p vs.length : List (Arg α)).length = vs.length := args_length
  have hd0 : Heap.Disturbed p vs.length H H := .refl hx.live
  unfold SmallVector.initWith Vector.checkSize SmallVector.empty
  simp only [wp_bind, wp_getObj, wp_ite, wp_lift, wp_setObj, wp_pure, wp_throw, wp_tryCatch, hlen]
  by_cases hmax : vs.length > E.maxSize
  · rw [if_pos hmax]; exact ⟨H, hd0, hg⟩
  rw [if_neg hmax]
  by_cases hc : vs.length > N
  · rw [if_pos hc]
    have hmx : max N vs.length = vs.length := by omega
    rw [hmx]
    refine wp_allocate hg.st.wf (by omega) ?_ ?_
    · intro _ s1 hm1 hn1 ht1 hb1
      obtain ⟨h2, h3⟩ := hg.st.alloc hm1 hn1 (ncap := vs.length) hc hb1
      have hst := h2.switch (Or.inl rfl) (fun i => by rw [hm1]; exact hg.raw i)
      have hag := hx.agree hst
      have hne := hx.ne hst
      refine wp_uninit_mv ?_ ?_ ?_ ?_ ?_
      · intro i h4 h5; rw [hag i h4 h5]; simp; omega
      · intro j hj; exact hst.inB (by simp; omega)
      · intro i _ _; exact h3 _
      · intro s2 hs2 ht2 hm2
        refine ⟨m.next, _, hst.moved (s' := s2) hx.blk ?_, VSt.mk' rfl (by simp [Ptr.add]) (by simp [Ptr.add])
          (hst.sync hs2 hx.blk ?_ ?_) (by omega) ?_ (by omega) hN⟩
        · intro c i hcb hh; rw [hm2, if_neg (by simp [Ptr.has, hcb]), if_pos hh]
        · intro i hi; rw [hm2, if_neg (by simp [Ptr.has]; omega), if_neg (hne i)]; exact hst.beyond i hi
        · intro c i hcb hh; rw [hm2, if_neg (by simp [Ptr.has, hcb]), if_neg hh]
        · intro i
          rw [hm2]
          by_cases hi : i < vs.length
          · rw [if_pos (by simp [Ptr.has, hi])]
            have := hag (p.off + i) (by omega) (by omega)
            simpa using this
          · rw [if_neg (by simp [Ptr.has]; omega), if_neg (hne i), h3]; simp; omega
      · intro _ s2 hs2 hm2
        rw [if_pos hc]
        have hsync := hst.sync (s' := s2) hs2 (p := p) (n := vs.length) hx.blk
          (fun i hi => by
            rcases hm2 m.next i with h4 | ⟨h4, _⟩
            · rw [h4]; exact hst.beyond i hi
            · exact absurd h4 (hne i))
          (fun c i _ hh => by
            rcases hm2 c i with h4 | ⟨h4, _⟩
            · exact h4
            · exact absurd h4 hh)
        have hraw : ∀ i, s2.mem m.next i = none := fun i => by
          rcases hm2 m.next i with h4 | ⟨h4, _⟩
          · rw [h4]; exact h3 i
          · exact absurd h4 (hne i)
        have hlive : ∀ c i, p.has vs.length c i → (s2.mem c i).isSome := by
          intro c i hh
          rcases hm2 c i with h4 | ⟨_, h4⟩
          · obtain ⟨h5, h6, h7⟩ := hh
            rw [h4, h5, hag i h6 h7]; simp; omega
          · exact h4
        have hrel := hsync.release (X := fun _ _ => False)
          (Q := fun _ s' => Gone (H.sync s2 p vs.length) al ib N s') hraw
          (fun s3 hm3 hn3 ht3 hst3 => ⟨hst3, fun i => by rw [hm3]; exact hsync.iraw h2.ne i⟩)
        unfold freeUnless at hrel
        rw [if_pos (by simpa using h2.ne)] at hrel
        exact wp_mono hrel (fun _ _ h => ⟨_, Store.disturbed hlive, h⟩) (fun _ _ h => h.elim)
    · intro _ s1 hs1 hm1
      exact ⟨H, hd0, hg.st.same hs1 hm1, fun i => by rw [hm1]; exact hg.raw i⟩
  · rw [if_neg hc]
    have hmx : max N vs.length = N := by omega
    rw [hmx]
    have hst := hg.st
    have hag := hx.agree hst
    have hne := hx.ne hst
    refine wp_uninit_mv ?_ ?_ ?_ ?_ ?_
    · intro i h4 h5; rw [hag i h4 h5]; simp; omega
    · intro j hj; exact hst.inB (by simp; omega)
    · intro i _ _; exact hg.raw _
    · intro s2 hs2 ht2 hm2
      refine ⟨ib, _, hst.moved (s' := s2) hx.blk ?_, VSt.mk' rfl (by simp [Ptr.add]) (by simp [Ptr.add])
        (hst.sync hs2 hx.blk ?_ ?_) (by omega) ?_ (by omega) hN⟩
      · intro c i hcb hh; rw [hm2, if_neg (by simp [Ptr.has, hcb]), if_pos hh]
      · intro i hi; rw [hm2, if_neg (by simp [Ptr.has]; omega), if_neg (hne i)]; exact hst.beyond i hi
      · intro c i hcb hh; rw [hm2, if_neg (by simp [Ptr.has, hcb]), if_neg hh]
      · intro i
        rw [hm2]
        by_cases hi : i < vs.length
        · rw [if_pos (by simp [Ptr.has, hi])]
          have := hag (p.off + i) (by omega) (by omega)
          simpa using this
        · rw [if_neg (by simp [Ptr.has]; omega), if_neg (hne i), hg.raw]; simp; omega
    · intro _ s2 hs2 hm2
      rw [if_neg hc]
      have hraw : ∀ i, s2.mem ib i = none := fun i => by
        rcases hm2 ib i with h4 | ⟨h4, _⟩
        · rw [h4]; exact hg.raw i
        · exact absurd h4 (hne i)
      refine ⟨_, Store.disturbed (s' := s2) ?_, hst.sync hs2 hx.blk (fun i _ => hraw i) ?_, hraw⟩
      · intro c i hh
        rcases hm2 c i with h4 | ⟨_, h4⟩
        · obtain ⟨h5, h6, h7⟩ := hh
          rw [h4, h5, hag i h6 h7]; simp; omega
        · exact h4
      · intro c i _ hh
        rcases hm2 c i with h4 | ⟨h4, _⟩
        · exact h4
        · exact absurd h4 hh

theorem Source.drop {p : Ptr} {vs : List α} (h : Source H p vs) (k : Nat) (hk : k ≤ vs.length) :
    Source H (p.add k) (vs.drop k) := by
  refine ⟨?_, fun i hi => ?_⟩
  · rcases h.blk with h0 | h0
    · left; simp; omega
    · exact Or.inr h0
  · have := h.val (k + i) (by simp at hi; omega)
    rw [List.getElem?_drop, ← this]
    simp [Ptr.add, Nat.add_assoc]

/-- As `wp_assignGo_move`, for disjoint ranges one of which may be empty. -/
theorem wp_assignGo_mv {n : Nat} {p d : Ptr} {s : St α} {Q : Ptr → St α → Prop} {X : Exn → St α → Prop}
    (hs : ∀ i, p.off ≤ i → i < p.off + n → (s.mem p.blk i).isSome)
    (hl : ∀ i, d.off ≤ i → i < d.off + n → (s.mem d.blk i).isSome)
    (hdir : ∀ i, ¬ p.has n d.blk i)
    (hQ : ∀ s', Same s s' → (∀ b i, s'.mem b i = if d.has n b i then s.mem p.blk (p.off + (i - d.off))
        else if p.has n b i then (s.mem b i).map E.moved else s.mem b i) → Q (d.add n) s')
    (hX : ∀ s', Same s s' →
      (∀ b i, if d.has n b i ∨ p.has n b i then (s'.mem b i).isSome else s'.mem b i = s.mem b i) → X .elem s') :
    wp (assignGo E d (args .mv p n)) Q X s := by
  cases n with
  | zero =>
    unfold args assignGo; rw [wp_pure]
    exact hQ s (Same.refl s) (fun b i => by rw [if_neg, if_neg] <;> (rintro ⟨_, h1, h2⟩; omega))
  | succ n =>
    exact wp_assignGo_move hs hl (Or.inl fun he => hdir p.off ⟨he, by omega, by omega⟩) (fun s' h1 _ h2 => hQ s' h1 h2)
      (fun _ => hX)

/-- `assign_range` from a range of move iterators into another container's elements. -/
theorem assignRange_move_spec {o : Obj Vec α} {xs : List α} {p : Ptr} {vs : List α} (h : VSt H E ib N o al b cap xs)
    (hx : Source H p vs) :
    wp (SmallVector.assignRange E ib N (args .mv p vs.length))
      (fun _ o' => ∃ b' cap' H', Heap.MovedFrom E p vs.length H H' ∧ VSt H' E ib N o' al b' cap' vs)
      (fun _ o' => ∃ b' cap' xs' H', Heap.Disturbed p vs.length H H' ∧ VSt H' E ib N o' al b' cap' xs')
      o := by
  have hlen : (args Arg.mv p vs.length : List (Arg α)).length = vs.length := args_length
  have hd0 : Heap.Disturbed p vs.length H H := .refl hx.live
  have hag := hx.agree h.st
  have hne := hx.ne h.st
  have hxl := h.len
  unfold SmallVector.assignRange Vector.checkSize
  simp only [wp_bind, wp_getObj, wp_ite, wp_lift, wp_setObj, wp_pure, wp_throw, hlen]
  by_cases hmax : vs.length > E.maxSize
  · rw [if_pos hmax]; exact ⟨b, cap, xs, H, hd0, h⟩
  rw [if_neg hmax]
  refine wp_capacity h.obj ?_
  by_cases hc : vs.length ≤ cap
  · rw [if_pos hc]
    refine wp_size h.obj ?_
    rw [h.obj]
    dsimp only
    -- after a failure: everything still alive
    have fail : ∀ s1 : St α, Same o.m s1 →
        (∀ c i, if (c = b ∧ i < xs.length) ∨ p.has vs.length c i then (s1.mem c i).isSome else s1.mem c i = o.m.mem c i) →
        ∃ b' cap' xs' H', Heap.Disturbed p vs.length H H' ∧
          VSt H' E ib N ⟨⟨⟨b, 0⟩, ⟨b, xs.length⟩, ⟨b, cap⟩, al⟩, s1⟩ al b' cap' xs' := by
      intro s1 hs1 hm1
      have hst1 : Store (H.sync s1 p vs.length) s1 al ib N b cap := h.st.sync hs1 hx.blk
        (fun i hi => by
          have h1 := hm1 b i
          rw [if_neg (by simp [hne i]; omega)] at h1
          rw [h1]; exact h.st.beyond i hi)
        (fun c i hcb hh => by
          have h1 := hm1 c i
          rwa [if_neg (by simp [hcb, hh])] at h1)
      obtain ⟨ys, k1, k2⟩ := exists_list (f := s1.mem b) xs.length (fun i => by
        have h1 := hm1 b i
        have h2 := hne i
        have h3 := h.cells i
        by_cases hi : i < xs.length
        · rw [if_pos (by simp [hi])] at h1; simp [h1, hi]
        · rw [if_neg (by simp [hi, h2])] at h1
          rw [h1, h3]; simp)
      refine ⟨b, cap, ys, _, Store.disturbed (s' := s1) (fun c i hh => ?_), ?_⟩
      · have h1 := hm1 c i
        rwa [if_pos (Or.inr hh)] at h1
      · exact VSt.mk' rfl (by rw [k1]) rfl hst1 (by omega) k2 h.capLe h.nLe
    by_cases hs : vs.length ≤ xs.length
    · rw [if_pos hs]
      refine wp_assignGo_mv ?_ ?_ hne ?_ ?_
      · intro i h1 h2; rw [hag i h1 h2]; simp; omega
      · intro i _ h2; exact (h.live i).mpr (by simp at h2; omega)
      · intro s1 hs1 hm1
        refine wp_destroyRange (by simp) (by simpa using hs) ?_ ?_
        · intro i h1 h2
          simp only [Ptr.add_blk, Ptr.add_off] at h1 h2 ⊢
          rw [hm1, if_neg (by simp [Ptr.has]; omega), if_neg (hne i), h.cells]; simp; omega
        · intro s2 hs2 ht2 hm2
          have hm : ∀ c i, s2.mem c i = if c = b ∧ i < xs.length then vs[i]? else if p.has vs.length c i then
              (o.m.mem c i).map E.moved else o.m.mem c i := by
            intro c i
            rw [hm2, hm1]
            by_cases hcb : c = b
            · subst hcb
              by_cases hi : i < vs.length
              · rw [if_neg (by simp [Ptr.has]; omega), if_pos (by simp [Ptr.has, hi]), if_pos ⟨rfl, by omega⟩]
                have := hag (p.off + i) (by omega) (by omega)
                simpa using this
              · by_cases hi2 : i < xs.length
                · rw [if_pos (by simp [Ptr.has]; omega), if_pos ⟨rfl, hi2⟩]; simp; omega
                · rw [if_neg (by simp [Ptr.has]; omega), if_neg (by simp [Ptr.has, hi]), if_neg (hne i),
                    if_neg (by simp [hi2])]
            · rw [if_neg (by simp [Ptr.has, hcb]), if_neg (c := (⟨b, 0⟩ : Ptr).has vs.length c i) (by simp [Ptr.has, hcb]),
                if_neg (c := c = b ∧ i < xs.length) (by simp [hcb])]
          refine ⟨b, cap, _, h.st.moved (s' := s2) hx.blk ?_, VSt.mk' rfl (by simp [Ptr.add]) rfl
            (h.st.sync (hs1.trans hs2) hx.blk ?_ ?_) (by omega) ?_ h.capLe h.nLe⟩
          · intro c i hcb hh; rw [hm, if_neg (by simp [hcb]), if_pos hh]
          · intro i hi; rw [hm, if_neg (by omega), if_neg (hne i)]; exact h.st.beyond i hi
          · intro c i hcb hh; rw [hm, if_neg (by simp [hcb]), if_neg hh]
          · intro i; rw [hm]
            by_cases hi : i < xs.length
            · rw [if_pos ⟨rfl, hi⟩]
            · rw [if_neg (by simp [hi]), if_neg (hne i), h.cells]; rw [List.getElem?_eq_none (by omega), List.getElem?_eq_none (by omega)]
      · intro s1 hs1 hm1
        refine fail s1 hs1 (fun c i => ?_)
        have h1 := hm1 c i
        by_cases hcb : (c = b ∧ i < xs.length) ∨ p.has vs.length c i
        · rw [if_pos hcb]
          split at h1
          · exact h1
          · rename_i hh
            rcases hcb with ⟨rfl, hi⟩ | hcb
            · rw [h1, h.cells]; simp [hi]
            · exact absurd (Or.inr hcb) hh
        · rw [if_neg hcb]
          rw [if_neg] at h1
          · exact h1
          · rintro (⟨h2, _, h3⟩ | h2)
            · exact hcb (Or.inl ⟨h2, by simp at h3; omega⟩)
            · exact hcb (Or.inr h2)
    · rw [if_neg hs]
      rw [args_take, args_drop (by omega), Nat.min_eq_left (by omega)]
      have hpb : p.blk ≠ b := fun he => hne p.off ⟨he.symm, by omega, by omega⟩
      refine wp_assignGo_move ?_ ?_ (Or.inl (Ne.symm hpb)) ?_ ?_
      · intro i h1 h2; rw [hag i h1 (by omega)]; simp; omega
      · intro i _ h2; exact (h.live i).mpr (by simpa using h2)
      · intro s1 hs1 ht1 hm1
        have hm1b : ∀ i, s1.mem b i = if i < xs.length then vs[i]? else none := by
          intro i; rw [hm1]
          by_cases hi : i < xs.length
          · rw [if_pos (by simp [Ptr.has, hi]), if_pos hi]
            have := hag (p.off + i) (by omega) (by omega)
            simpa using this
          · rw [if_neg (by simp [Ptr.has, hi]), if_neg (by simp [Ptr.has, Ne.symm hpb]), if_neg hi, h.cells]; simp; omega
        refine wp_uninit_mv ?_ ?_ ?_ ?_ ?_
        · intro i h1 h2
          simp only [Ptr.add_blk, Ptr.add_off] at h1 h2 ⊢
          rw [hm1, if_neg (by simp [Ptr.has, hpb]), if_neg (by simp [Ptr.has]; omega), hag i (by omega) (by omega)]
          simp; omega
        · intro j hj
          have := h.st.inB (i := xs.length + j) (by omega)
          rw [← hs1.inB] at this; exact this
        · intro i h1 h2; rw [hm1b]; simp at h1; rw [if_neg (by omega)]
        · intro s2 hs2 ht2 hm2
          have hm2b : ∀ i, s2.mem b i = vs[i]? := by
            intro i; rw [hm2]
            by_cases hi : xs.length ≤ i ∧ i < vs.length
            · rw [if_pos (by simp [Ptr.has]; omega)]
              simp only [Ptr.add_blk, Ptr.add_off]
              rw [hm1, if_neg (by simp [Ptr.has, hpb]), if_neg (by simp [Ptr.has]),
                hag _ (by omega) (by omega)]
              congr 1; omega
            · rw [if_neg (by simp [Ptr.has]; omega), if_neg (by simp [Ptr.has, Ne.symm hpb]), hm1b]
              by_cases hi2 : i < xs.length
              · rw [if_pos hi2]
              · rw [if_neg hi2]; simp; omega
          have hm2o : ∀ c i, c ≠ b → s2.mem c i = if p.has vs.length c i then (o.m.mem c i).map E.moved else o.m.mem c i := by
            intro c i hcb
            have e := hm1 c i
            rw [if_neg (by simp [Ptr.has, hcb])] at e
            rw [hm2, if_neg (by simp [Ptr.has, hcb]), e]
            clear hm2 hm1 e fail hm2b hm1b hag hne
            simp only [Ptr.has, Ptr.add_blk, Ptr.add_off]
            grind
          refine ⟨b, cap, _, h.st.moved (s' := s2) hx.blk ?_, VSt.mk' rfl (by simp [Ptr.add]; omega) rfl
            (h.st.sync (hs1.trans hs2) hx.blk ?_ ?_) hc hm2b h.capLe h.nLe⟩
          · intro c i hcb hh; rw [hm2o c i hcb, if_pos hh]
          · intro i hi; rw [hm2b]; simp; omega
          · intro c i hcb hh; rw [hm2o c i hcb, if_neg hh]
        · intro _ s2 hs2 hm2
          refine fail s2 (hs1.trans hs2) (fun c i => ?_)
          have h1 := hm2 c i
          have h2 := hm1 c i
          by_cases hcb : c = b
          · subst hcb
            have h3 : s2.mem c i = s1.mem c i := by
              rcases h1 with h1 | ⟨h1, _⟩
              · exact h1
              · simp only [Ptr.has, Ptr.add_blk] at h1; exact absurd h1.1.symm hpb
            rw [h3, hm1b]
            by_cases hi : i < xs.length
            · rw [if_pos (by simp [hi]), if_pos hi]; simp; omega
            · rw [if_neg (by simp [hi, hne i]), if_neg hi, h.cells]; simp; omega
          · by_cases hh : p.has vs.length c i
            · rw [if_pos (Or.inr hh)]
              rcases h1 with h1 | ⟨_, h1⟩
              · obtain ⟨e1, e2, e3⟩ := hh
                have := hag i e2 e3
                rw [h1, h2, if_neg (by simp [Ptr.has, hcb]), e1, this]
                split <;> simp <;> omega
              · exact h1
            · rw [if_neg (by simp [hcb, hh])]
              rcases h1 with h1 | ⟨h1, _⟩
              · rw [h1, h2, if_neg (by simp [Ptr.has, hcb]), if_neg]
                rintro ⟨e1, e2, e3⟩; exact hh ⟨e1, e2, by omega⟩
              · obtain ⟨e1, e2, e3⟩ := h1
                simp only [Ptr.add_blk, Ptr.add_off] at e1 e2 e3
                exact absurd ⟨e1, by omega, by omega⟩ hh
      · intro _ s1 hs1 hm1
        refine fail s1 hs1 (fun c i => ?_)
        have h1 := hm1 c i
        have h2 := hag i
        have h3 := h.cells i
        simp only [Ptr.has] at h1 ⊢
        by_cases hcb : c = b
        · subst hcb; grind
        · by_cases hcp : c = p.blk
          · subst hcp
            by_cases hi : p.off ≤ i ∧ i < p.off + vs.length
            · have h4 : (o.m.mem p.blk i).isSome := by rw [h2 hi.1 hi.2]; simp; omega
              grind
            · grind
          · grind
  · rw [if_neg hc]
    refine wp_mono (reset_spec h (newCap := vs.length) (by omega)) ?_ ?_
    · rintro _ o1 ⟨b1, hv1, hn1, -⟩
      have hag1 := hx.agree hv1.st
      have hne1 := hx.ne hv1.st
      have hobj := hv1.obj
      rw [hobj]
      dsimp only
      refine wp_uninit_mv ?_ ?_ ?_ ?_ ?_
      · intro i h4 h5; rw [hag1 i h4 h5]; simp; omega
      · intro j hj; exact hv1.st.inB (by simp; omega)
      · intro i _ _; simp only; rw [hv1.cells]; simp
      · intro s2 hs2 ht2 hm2
        refine ⟨b1, _, _, hv1.st.moved (s' := s2) hx.blk ?_, VSt.mk' rfl (by simp [Ptr.add]) rfl
          (hv1.st.sync hs2 hx.blk ?_ ?_) (by omega) ?_ hv1.capLe h.nLe⟩
        · intro c i hcb hh; rw [hm2, if_neg (by simp [Ptr.has, hcb]), if_pos hh]
        · intro i hi; rw [hm2, if_neg (by simp [Ptr.has]; omega), if_neg (hne1 i)]; exact hv1.st.beyond i hi
        · intro c i hcb hh; rw [hm2, if_neg (by simp [Ptr.has, hcb]), if_neg hh]
        · intro i
          rw [hm2]
          by_cases hi : i < vs.length
          · rw [if_pos (by simp [Ptr.has, hi])]
            have := hag1 (p.off + i) (by omega) (by omega)
            simpa using this
          · rw [if_neg (by simp [Ptr.has]; omega), if_neg (hne1 i), hv1.cells]; simp; omega
      · intro _ s2 hs2 hm2
        have hraw : ∀ i, s2.mem b1 i = none := fun i => by
          rcases hm2 b1 i with h4 | ⟨h4, _⟩
          · rw [h4, hv1.cells]; simp
          · exact absurd h4 (hne1 i)
        refine ⟨b1, _, [], _, Store.disturbed (s' := s2) ?_, VSt.mk' rfl rfl rfl
          (hv1.st.sync hs2 hx.blk (fun i _ => hraw i) ?_) (by simp) (fun i => by rw [hraw]; simp) hv1.capLe h.nLe⟩
        · intro c i hh
          rcases hm2 c i with h4 | ⟨_, h4⟩
          · obtain ⟨h5, h6, h7⟩ := hh
            rw [h4, h5, hag1 i h6 h7]; simp; omega
          · exact h4
        · intro c i _ hh
          rcases hm2 c i with h4 | ⟨h4, _⟩
          · exact h4
          · exact absurd h4 hh
    · rintro e o1 ⟨hv1, hn1, rfl⟩
      exact ⟨ib, N, [], H, hd0, hv1⟩

end Sfl
