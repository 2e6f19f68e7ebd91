import Verif.SVSpec5
/-
  Correctness of constructors and of the single-pass (input iterator) overloads
  (small_vector and vector).
-/

set_option linter.unusedSimpArgs false

namespace Sfl
variable {α : Type} {E : Env α} {H : Heap α} {al ib N b cap nb ncap : Nat}

/-- Nothing of the container is left: its internal storage is raw, everything else is `H`. -/
structure Gone (H : Heap α) (al ib N : Nat) (m : St α) : Prop where
  st : Store H m al ib N ib N
  raw : ∀ i, m.mem ib i = none

theorem destructor_gone {o : Obj Vec α} {xs : List α} (h : VSt H E ib N o al b cap xs) :
    wp (SmallVector.destructor ib)
      (fun _ o' => Gone H al ib N o'.m ∧ o'.m.next = o.m.next ∧ o'.m.tick = o.m.tick)
      (fun _ _ => False) o :=
  wp_mono (destructor_spec h) (fun _ _ ⟨h1, h2, h3, h4⟩ => ⟨⟨h1, h2⟩, h3, h4⟩) (fun _ _ h => h)

/-- Constructors filling exactly the given elements. -/
theorem initWith_spec {m : St α} {as : List (Arg α)} {vs : List α} (hg : Gone H al ib N m) (hN : N ≤ E.maxSize)
    (hx : Exts H E as vs) :
    wp (SmallVector.initWith E N as)
      (fun _ o' => ∃ b', VSt H E ib N o' al b' (max N vs.length) vs ∧ (vs.length ≤ N → o'.m.next = m.next ∧ b' = ib))
      (fun e o' => Gone H al ib N o'.m ∧ (vs.length ≤ N → o'.m.next = m.next ∧ e ≠ .badAlloc) ∧
        (e = .lengthError ↔ E.maxSize < vs.length))
      ⟨SmallVector.empty ib N al, m⟩ := by
  have hal := hx.length
  unfold SmallVector.initWith Vector.checkSize SmallVector.empty
  simp only [wp_bind, wp_getObj, wp_ite, wp_lift, wp_setObj, wp_pure, wp_throw, wp_tryCatch]
  by_cases hmax : as.length > E.maxSize
  · rw [if_pos hmax]
    exact ⟨hg, fun _ => ⟨by trivial, by simp⟩, by simp; omega⟩
  rw [if_neg hmax]
  by_cases hc : as.length > N
  · rw [if_pos hc]
    have hmx : max N vs.length = as.length := by omega
    rw [hmx]
    refine wp_allocate hg.st.wf (by omega) ?_ ?_
    · intro _ s1 hm1 hn1 ht1 hb1
      obtain ⟨h2, h3⟩ := hg.st.alloc hm1 hn1 (ncap := as.length) hc hb1
      have hst := h2.switch (Or.inl rfl) (fun i => by rw [hm1]; exact hg.raw i)
      refine wp_uninit_copy (hx.val _ hst.agree) hx.src ?_ ?_ ?_ ?_
      · intro j hj; exact hst.inB (by simp; omega)
      · intro j hj; exact h3 _
      · intro s2 hs2 ht2 hm2
        refine ⟨m.next, VSt.mk' rfl (by simp [Ptr.add]; omega) (by simp [Ptr.add]) (hst.upd hs2 ?_ ?_) (by omega) ?_ (by omega) hN,
          by omega⟩
        · intro i hi; rw [hm2]; have := hst.beyond i hi; grind
        · intro c hc i; rw [hm2]; grind
        · intro i; rw [hm2, h3]; simp only [Ptr.has]; grind
      · intro s2 hs2 hm2
        rw [if_pos hc]
        have h2' : Store2 H s2 al ib N ib N m.next as.length :=
          h2.upd hs2 (fun i hi => by rw [hm2]; exact h2.beyond i hi)
            (fun i hi => by rw [hm2]; exact h2.nbeyond i hi) (fun c _ _ i => by rw [hm2])
        have hd := h2'.drop (n := as.length) (X := fun _ _ => False)
          (Q := fun _ s' => Gone H al ib N s' ∧ (vs.length ≤ N → s'.next = m.next ∧ Exn.elem ≠ .badAlloc) ∧
            (Exn.elem = .lengthError ↔ E.maxSize < vs.length)) (fun _ => rfl) (fun i _ => by rw [hm2]; exact h3 i)
          (by
            intro s3 hm3 hn3 ht3 hst3
            exact ⟨⟨hst3, fun i => by rw [hm3, hm2, hm1]; exact hg.raw i⟩, by omega, by simp; omega⟩)
        unfold freeUnless at hd
        rw [if_pos (by simpa using h2.ne)] at hd
        exact wp_mono hd (fun _ _ h => h) (fun _ _ h => h.elim)
    · intro _ s1 hs1 hm1
      exact ⟨⟨hg.st.same hs1 hm1, fun i => by rw [hm1]; exact hg.raw i⟩, by omega, by simp; omega⟩
  · rw [if_neg hc]
    have hmx : max N vs.length = N := by omega
    rw [hmx]
    have hst := hg.st
    refine wp_uninit_copy (hx.val _ hst.agree) hx.src ?_ ?_ ?_ ?_
    · intro j hj; exact hst.inB (by simp; omega)
    · intro j hj; exact hg.raw _
    · intro s2 hs2 ht2 hm2
      refine ⟨ib, VSt.mk' rfl (by simp [Ptr.add]; omega) (by simp [Ptr.add]) (hst.upd hs2 ?_ ?_) (by omega) ?_ (by omega) hN,
        fun _ => ⟨hs2.next, rfl⟩⟩
      · intro i hi; rw [hm2]; have := hst.beyond i hi; grind
      · intro c hc i; rw [hm2]; grind
      · intro i; rw [hm2, hg.raw]; simp only [Ptr.has]; grind
    · intro s2 hs2 hm2
      rw [if_neg hc]
      exact ⟨⟨hst.same hs2 hm2, fun i => by rw [hm2]; exact hg.raw i⟩, fun _ => ⟨hs2.next, by simp⟩, by simp; omega⟩

/-- Constructor from a single-pass range. -/
theorem initRangeInput_spec {m : St α} {vs : List α} (hg : Gone H al ib N m) (hN : N ≤ E.maxSize) :
    wp (SmallVector.initRangeInput E ib N vs)
      (fun _ o' => ∃ b' cap', VSt H E ib N o' al b' cap' vs ∧ (vs.length ≤ N → o'.m.next = m.next ∧ b' = ib ∧ cap' = N))
      (fun e o' => Gone H al ib N o'.m ∧ (vs.length ≤ N → o'.m.next = m.next ∧ e ≠ .badAlloc) ∧
        (e = .lengthError → E.maxSize < vs.length))
      ⟨SmallVector.empty ib N al, m⟩ := by
  unfold SmallVector.initRangeInput
  rw [wp_tryCatch]
  have hv := VSt.mkEmpty (E := E) hg.st hg.raw hN
  refine wp_mono (emplaceBackAll_spec (Exts.vals vs) hv) ?_ ?_
  · rintro _ o' ⟨b', cap', k1, k2, k3⟩
    exact ⟨b', cap', by simpa using k1, fun hh => ⟨k3 (by simp; omega), k2 (by simpa using hh)⟩⟩
  · rintro e o' ⟨b', cap', xs', k1, k2, k3, k6, k4, k5⟩
    rw [wp_bind]
    refine wp_mono (destructor_gone k1) ?_ (fun _ _ h => h.elim)
    rintro _ o2 ⟨g1, g2, g3⟩
    rw [wp_throw]
    exact ⟨g1, fun hh => by rw [g2]; exact k4 (by simp; omega), fun he => by have := k5 he; simpa using this⟩

theorem assignRangeLoop_spec {as : List (Arg α)} {vs : List α} (hx : Exts H E as vs) :
    ∀ {s : St α} {k n : Nat} {Q : List (Arg α) × Ptr → St α → Prop} {X : Exn → St α → Prop},
    (∀ c i, H.blk c ≠ none → s.mem c i = H.mem c i) → H.blk b = none → k ≤ n →
    (∀ i, k ≤ i → i < n → (s.mem b i).isSome) →
    (∀ s', Same s s' → (∀ c i, s'.mem c i =
      if c = b ∧ k ≤ i ∧ i < k + min (n - k) vs.length then vs[i - k]? else s.mem c i) →
      Q (as.drop (n - k), ⟨b, k + min (n - k) vs.length⟩) s') →
    (∀ s', Same s s' → (∀ c i, if c = b ∧ k ≤ i ∧ i < n then (s'.mem c i).isSome else s'.mem c i = s.mem c i) →
      X .elem s') →
    wp (Vector.assignRangeLoop E ⟨b, n⟩ as ⟨b, k⟩) Q X s := by
  induction as generalizing vs with
  | nil =>
    intro s k n Q X hs hb hkn hl hQ hX
    have hv : vs = [] := by have := hx.length; simpa using this.symm
    subst hv
    unfold Vector.assignRangeLoop
    rw [wp_pure]
    have := hQ s (Same.refl s) (fun c i => by grind)
    simpa using this
  | cons a as ih =>
    intro s k n Q X hs hb hkn hl hQ hX
    obtain ⟨v, vs', rfl, h1, h2, h3⟩ := hx.cons
    unfold Vector.assignRangeLoop
    by_cases hk : k = n
    · subst hk
      rw [if_neg (by simp), wp_pure]
      have := hQ s (Same.refl s) (fun c i => by grind)
      simpa using this
    · rw [if_pos (by simpa using hk), wp_bind]
      refine assign_copy (h2 s hs) h1 (hl k (by omega) (by omega)) ?_ ?_
      · intro s1 hs1 ht1 hm1
        simp only at hm1
        have hadd : (⟨b, k⟩ : Ptr).add 1 = ⟨b, k + 1⟩ := rfl
        rw [hadd]
        refine ih h3 ?_ hb (by omega) ?_ ?_ ?_
        · intro c i hc; rw [hm1, if_neg (by rintro ⟨rfl, _⟩; exact hc hb)]; exact hs c i hc
        · intro i h4 h5; rw [hm1]; have := hl i; grind
        · intro s2 hs2 hm2
          have := hQ s2 (hs1.trans hs2) (fun c i => by
            rw [hm2, hm1]
            simp only [List.length_cons]
            by_cases hc : c = b
            · subst hc
              by_cases hi : k + 1 ≤ i ∧ i < k + 1 + min (n - (k + 1)) vs'.length
              · rw [if_pos ⟨rfl, hi⟩, if_pos ⟨rfl, by omega⟩]
                have : i - k = (i - (k + 1)) + 1 := by omega
                rw [this]; simp
              · rw [if_neg (by simpa using hi)]
                by_cases hi2 : i = k
                · subst hi2; rw [if_pos ⟨rfl, rfl⟩, if_pos ⟨rfl, by omega⟩]; simp
                · rw [if_neg (by simp [hi2]), if_neg (by omega)]
            · rw [if_neg (by simp [hc]), if_neg (by simp [hc]), if_neg (by simp [hc])])
          have e1 : (a :: as).drop (n - k) = as.drop (n - (k + 1)) := by
            have : n - k = (n - (k + 1)) + 1 := by omega
            rw [this]; simp
          have e2 : k + min (n - k) (v :: vs').length = k + 1 + min (n - (k + 1)) vs'.length := by simp; omega
          rw [e1, e2] at this
          exact this
        · intro s2 hs2 hm2
          refine hX s2 (hs1.trans hs2) (fun c i => ?_)
          have h5 := hm2 c i
          rw [hm1] at h5
          by_cases hc : c = b
          · subst hc
            by_cases hi : k ≤ i ∧ i < n
            · rw [if_pos ⟨rfl, hi⟩]
              by_cases hi2 : i = k
              · subst hi2
                rw [if_neg (by omega), if_pos ⟨rfl, rfl⟩] at h5; simp [h5]
              · rw [if_pos ⟨rfl, by omega⟩] at h5; exact h5
            · rw [if_neg (by simpa using hi)]
              rw [if_neg (by omega), if_neg (by omega)] at h5; exact h5
          · rw [if_neg (by simp [hc]), if_neg (by simp [hc])] at h5
            rw [if_neg (by simp [hc])]; exact h5
      · intro _ s1 w hs1 hm1
        refine hX s1 hs1 (fun c i => ?_)
        have h5 := hm1 c i
        simp only at h5
        by_cases hc : c = b ∧ i = k
        · rw [if_pos hc] at h5; rw [if_pos ⟨hc.1, by omega, by omega⟩]; simp [h5]
        · rw [if_neg hc] at h5
          by_cases hi : c = b ∧ k ≤ i ∧ i < n
          · rw [if_pos hi, h5, hi.1]; exact hl i hi.2.1 hi.2.2
          · rw [if_neg hi]; exact h5

/-- Assigning a single-pass range stored outside the container. -/
theorem assignRangeInput_spec {o : Obj Vec α} {xs : List α} {as : List (Arg α)} {vs : List α}
    (h : VSt H E ib N o al b cap xs) (hx : Exts H E as vs) :
    wp (SmallVector.assignRangeInput E ib N as)
      (fun _ o' => ∃ b' cap', VSt H E ib N o' al b' cap' vs ∧ (vs.length ≤ cap → b' = b ∧ cap' = cap) ∧
        (vs.length ≤ max cap N → o'.m.next = o.m.next))
      (fun e o' => ∃ b' cap' xs', VSt H E ib N o' al b' cap' xs' ∧
        (vs.length ≤ cap → b' = b ∧ cap' = cap) ∧
        (vs.length ≤ max cap N → o'.m.next = o.m.next ∧ e ≠ .badAlloc) ∧
        (e = .lengthError → E.maxSize < vs.length))
      o := by
  have hlen := h.len
  have hal := hx.length
  unfold SmallVector.assignRangeInput
  simp only [wp_bind, wp_getObj, wp_ite, wp_lift, wp_setObj, wp_pure, wp_throw]
  rw [h.obj]
  dsimp only
  refine assignRangeLoop_spec hx h.st.agree h.st.hblk (by omega) (fun i _ hi => (h.live i).mpr hi) ?_ ?_
  · intro s1 hs1 hm1
    simp only [Nat.sub_zero, Nat.zero_add] at hm1 ⊢
    by_cases hr : as.drop xs.length ≠ []
    · rw [if_pos hr]
      have hlt : xs.length < vs.length := by
        by_cases hh : xs.length < as.length
        · omega
        · exact absurd (List.drop_eq_nil_of_le (by omega)) hr
      have hv1 : VSt H E ib N ⟨⟨⟨b, 0⟩, ⟨b, xs.length⟩, ⟨b, cap⟩, al⟩, s1⟩ al b cap (vs.take xs.length) := by
        refine VSt.mk' rfl (by simp; omega) rfl (h.st.upd hs1 ?_ ?_) (by simp; omega) ?_ h.capLe h.nLe
        · intro i hi; rw [hm1]; have := h.st.beyond i hi; grind
        · intro c hc i; rw [hm1]; grind
        · intro i; rw [hm1, h.cells]; simp only [List.getElem?_take]; grind
      refine wp_mono (emplaceBackAll_spec (hx.drop xs.length) hv1) ?_ ?_
      · rintro _ o2 ⟨b2, cap2, k1, k2, k3⟩
        have hl2 : (vs.take xs.length).length + (vs.drop xs.length).length = vs.length := by simp; omega
        rw [hl2] at k2 k3
        refine ⟨b2, cap2, by rw [List.take_append_drop] at k1; exact k1, k2, fun hh => ?_⟩
        rw [k3 hh]; exact hs1.next
      · rintro e o2 ⟨b2, cap2, xs', k1, k2, k3, k6, k4, k5⟩
        have hl2 : (vs.take xs.length).length + (vs.drop xs.length).length = vs.length := by simp; omega
        rw [hl2] at k4 k5 k6
        exact ⟨b2, cap2, xs', k1, k6, fun hh => ⟨by rw [(k4 hh).1]; exact hs1.next, (k4 hh).2⟩, k5⟩
    · rw [if_neg hr]
      have hle : vs.length ≤ xs.length := by
        have : as.drop xs.length = [] := by simpa using hr
        rw [List.drop_eq_nil_iff] at this; omega
      have hmin : min xs.length vs.length = vs.length := by omega
      rw [hmin] at hm1 ⊢
      by_cases hlt : vs.length < xs.length
      · rw [if_pos hlt]
        refine wp_destroyRange (by simp) (by simpa using hle) ?_ ?_
        · intro i h1 h2; simp only at h1 h2 ⊢; rw [hm1, h.cells]; grind
        · intro s2 hs2 ht2 hm2
          refine ⟨b, cap, VSt.mk' rfl (by simp [Ptr.add]) rfl (h.st.upd (hs1.trans hs2) ?_ ?_) (by omega) ?_ h.capLe h.nLe,
            fun _ => ⟨by trivial, by trivial⟩, fun _ => hs2.next.trans hs1.next⟩
          · intro i hi; rw [hm2, hm1]; have := h.st.beyond i hi; simp only [Ptr.has]; grind
          · intro c hc i; rw [hm2, hm1]; grind
          · intro i; rw [hm2, hm1, h.cells]; simp only [Ptr.has]; grind
      · rw [if_neg hlt]
        have he : xs.length = vs.length := by omega
        rw [he]
        refine ⟨b, cap, VSt.mk' rfl rfl rfl (h.st.upd hs1 ?_ ?_) (by omega) ?_ h.capLe h.nLe,
          fun _ => ⟨by trivial, by trivial⟩, fun _ => hs1.next⟩
        · intro i hi; rw [hm1]; have := h.st.beyond i hi; grind
        · intro c hc i; rw [hm1]; grind
        · intro i; rw [hm1, h.cells]; grind
  · intro s1 hs1 hm1
    obtain ⟨xs', k1, k2⟩ := h.ofLive (n := xs.length) (l := (⟨b, xs.length⟩ : Ptr)) rfl
      (h.st.upd hs1 (fun i hi => by have := hm1 b i; have := h.st.beyond i hi; grind)
        (fun c hc i => by have := hm1 c i; grind)) (by omega)
      (fun i => by have h1 := hm1 b i; have h2 := h.cells i; grind)
    exact ⟨b, cap, xs', k1, fun _ => ⟨rfl, rfl⟩, fun _ => ⟨hs1.next, by simp⟩, by simp⟩

theorem take_insert_drop {xs : List α} {v : α} {k : Nat} (hk : k ≤ xs.length) :
    (xs.take k ++ v :: xs.drop k).take (k + 1) = xs.take k ++ [v] ∧
    (xs.take k ++ v :: xs.drop k).drop (k + 1) = xs.drop k := by
  have hl : (xs.take k).length = k := by simp; omega
  constructor
  · rw [List.take_append, hl]
    simp [List.take_take]
  · rw [List.drop_append, hl]
    simp; omega

theorem insertRangeLoop_spec {as : List (Arg α)} {vs : List α} (hx : Exts H E as vs) :
    ∀ {o : Obj Vec α} {xs : List α} {b cap k : Nat}, VSt H E ib N o al b cap xs → k ≤ xs.length →
    wp (SmallVector.insertRangeLoop E ib N as ⟨b, k⟩)
      (fun _ o' => ∃ b' cap', VSt H E ib N o' al b' cap' (xs.take k ++ vs ++ xs.drop k) ∧
        (xs.length + vs.length ≤ cap → b' = b ∧ cap' = cap) ∧
        (xs.length + vs.length ≤ max cap N → o'.m.next = o.m.next))
      (fun e o' => ∃ b' cap' xs', VSt H E ib N o' al b' cap' xs' ∧
        (xs.length + vs.length ≤ cap → b' = b ∧ cap' = cap) ∧
        (xs.length + vs.length ≤ max cap N → o'.m.next = o.m.next ∧ e ≠ .badAlloc) ∧
        (E.nothrowMoveCtor = true → E.nothrowMoveAssign = true →
          ∃ j, j ≤ vs.length ∧ xs' = xs.take k ++ vs.take j ++ xs.drop k) ∧
        (e = .lengthError → E.maxSize < xs.length + vs.length))
      o := by
  induction as generalizing vs with
  | nil =>
    intro o xs b cap k h hk
    have hv : vs = [] := by have := hx.length; simpa using this.symm
    subst hv
    unfold SmallVector.insertRangeLoop
    rw [wp_pure]
    exact ⟨b, cap, by simpa using h, fun _ => ⟨rfl, rfl⟩, fun _ => rfl⟩
  | cons a as ih =>
    intro o xs b cap k h hk
    obtain ⟨v, vs', rfl, h1, h2, h3⟩ := hx.cons
    obtain ⟨t1, t2⟩ := take_insert_drop (v := v) hk
    unfold SmallVector.insertRangeLoop
    rw [wp_bind]
    refine wp_mono (emplace_spec h (h2 _ h.st.agree) h1 hk) ?_ ?_
    · rintro p o1 ⟨b1, cap1, hd, rfl⟩
      have hl1 : (xs.take k ++ v :: xs.drop k).length = xs.length + 1 := by simp; omega
      have hcc : max cap N ≤ max cap1 N ∧ cap ≤ cap1 := by
        have hl := hd.v.len
        have := hd.keep
        have hh := h.st.cap_cases
        have hh1 := hd.v.st.cap_cases
        rw [hl1] at hl this
        by_cases hle : xs.length + 1 ≤ cap
        · have := this hle; omega
        · omega
      have hadd : (⟨b1, k⟩ : Ptr).add 1 = ⟨b1, k + 1⟩ := rfl
      rw [hadd]
      refine wp_mono (ih h3 hd.v (k := k + 1) (by rw [hl1]; omega)) ?_ ?_
      · rintro _ o2 ⟨b2, cap2, k1, k2, k3⟩
        rw [hl1] at k2 k3
        rw [t1, t2] at k1
        refine ⟨b2, cap2, by simpa using k1, ?_, ?_⟩
        · intro hh
          simp only [List.length_cons] at hh
          obtain ⟨e1, e2⟩ := hd.keep (by rw [hl1]; omega)
          have := k2 (by omega)
          omega
        · intro hh
          simp only [List.length_cons] at hh
          rw [k3 (by omega)]
          rcases hd.next with h0 | h0
          · exact h0
          · rw [hl1] at h0; omega
      · rintro e o2 ⟨b2, cap2, xs', k1, k6, k2, k3, k4⟩
        rw [hl1] at k2 k4 k6
        rw [t1, t2] at k3
        refine ⟨b2, cap2, xs', k1, ?_, ?_, ?_, fun he => by have := k4 he; simp; omega⟩
        · intro hh
          simp only [List.length_cons] at hh
          obtain ⟨e1, e2⟩ := hd.keep (by rw [hl1]; omega)
          have := k6 (by omega)
          omega
        · intro hh
          simp only [List.length_cons] at hh
          refine ⟨?_, (k2 (by omega)).2⟩
          rw [(k2 (by omega)).1]
          rcases hd.next with h0 | h0
          · exact h0
          · rw [hl1] at h0; omega
        · intro e1 e2
          obtain ⟨j, hj, e⟩ := k3 e1 e2
          exact ⟨j + 1, by simpa using hj, by simpa using e⟩
    · rintro e o1 ⟨xs', k1, k2, k3, k4, k5⟩
      refine ⟨b, cap, xs', k1.v, fun _ => ⟨rfl, rfl⟩, ?_, fun e1 e2 => ⟨0, by simp, by simpa using k4 e1 e2⟩,
        fun he => by have := k5 he; simp; omega⟩
      intro hh
      refine ⟨?_, fun he => by have := k1.bad he; simp at hh; omega⟩
      rcases k1.next with h0 | h0
      · exact h0
      · simp at hh; omega

/-- Inserting a single-pass range. -/
theorem insertRangeInput_spec {o : Obj Vec α} {xs vs : List α} {k : Nat}
    (h : VSt H E ib N o al b cap xs) (hk : k ≤ xs.length) :
    wp (SmallVector.insertRangeInput E ib N ⟨b, k⟩ vs)
      (fun p o' => ∃ b' cap', VSt H E ib N o' al b' cap' (xs.take k ++ vs ++ xs.drop k) ∧ p = ⟨b', k⟩ ∧
        (xs.length + vs.length ≤ cap → b' = b ∧ cap' = cap) ∧
        (xs.length + vs.length ≤ max cap N → o'.m.next = o.m.next))
      (fun e o' => ∃ b' cap' xs', VSt H E ib N o' al b' cap' xs' ∧
        (xs.length + vs.length ≤ cap → b' = b ∧ cap' = cap) ∧
        (xs.length + vs.length ≤ max cap N → o'.m.next = o.m.next ∧ e ≠ .badAlloc) ∧
        (E.nothrowMoveCtor = true → E.nothrowMoveAssign = true →
          ∃ j, j ≤ vs.length ∧ xs' = xs.take k ++ vs.take j ++ xs.drop k) ∧
        (e = .lengthError → E.maxSize < xs.length + vs.length))
      o := by
  unfold SmallVector.insertRangeInput
  simp only [wp_bind, wp_getObj, wp_assert, wp_pure]
  refine ⟨by rw [h.obj]; exact ⟨rfl, by simp, hk⟩, ?_⟩
  refine wp_mono (insertRangeLoop_spec (Exts.vals vs) h hk) ?_ (fun _ _ h => h)
  rintro _ o' ⟨b', cap', k1, k2, k3⟩
  refine ⟨b', cap', k1, ?_, k2, k3⟩
  rw [k1.obj, h.obj]; simp [Ptr.add]

end Sfl
