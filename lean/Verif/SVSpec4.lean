import Verif.SVSpec3
/-
  Correctness of clear, pop_back, erase, reserve, shrink_to_fit, reset, destructor and element access
  (small_vector and vector).
-/

set_option linter.unusedSimpArgs false

namespace Sfl
variable {α : Type} {E : Env α} {H : Heap α} {al ib N b cap nb ncap : Nat}

theorem clear_spec {o : Obj Vec α} {xs : List α} (h : VSt H E ib N o al b cap xs) :
    wp Vector.clear
      (fun _ o' => VSt H E ib N o' al b cap [] ∧ o'.m.next = o.m.next ∧ o'.m.tick = o.m.tick)
      (fun _ _ => False) o := by
  unfold Vector.clear
  simp only [wp_bind, wp_getObj, wp_lift, wp_setObj]
  rw [h.obj]
  refine wp_destroyRange rfl (by simp) (fun i _ hi => (h.live i).mpr (by simpa using hi)) ?_
  intro s1 hs1 ht1 hm1
  refine ⟨VSt.mk' rfl rfl rfl (h.st.upd hs1 ?_ ?_) (by simp) ?_ h.capLe h.nLe, hs1.next, ht1⟩
  · intro i hi; rw [hm1]; have := h.st.beyond i hi; grind
  · intro c hc i; rw [hm1]; grind
  · intro i; rw [hm1, h.cells]; grind

theorem popBack_spec {o : Obj Vec α} {xs : List α} {v : α} (h : VSt H E ib N o al b cap (xs ++ [v])) :
    wp Vector.popBack
      (fun _ o' => VSt H E ib N o' al b cap xs ∧ o'.m.next = o.m.next ∧ o'.m.tick = o.m.tick)
      (fun _ _ => False) o := by
  have hlen := h.len
  simp at hlen
  unfold Vector.popBack
  simp only [wp_bind, wp_getObj, wp_lift, wp_setObj, wp_assert]
  rw [h.obj]
  refine ⟨by simp, ?_⟩
  have hp : (⟨b, (xs ++ [v]).length⟩ : Ptr).sub 1 = ⟨b, xs.length⟩ := by
    rw [Ptr.sub_of_le (by simp)]; simp
  simp only [hp]
  refine wp_destroyAt (by simp only; rw [h.cells]; simp) ?_
  intro s1 hs1 ht1 hm1
  refine ⟨VSt.mk' rfl rfl rfl (h.st.upd hs1 ?_ ?_) (by omega) ?_ h.capLe h.nLe, hs1.next, ht1⟩
  · intro i hi; rw [hm1]; have := h.st.beyond i hi; grind
  · intro c hc i; rw [hm1]; grind
  · intro i; rw [hm1, h.cells]; grind

theorem eraseRange_spec {o : Obj Vec α} {xs : List α} {k l : Nat}
    (h : VSt H E ib N o al b cap xs) (hkl : k ≤ l) (hl : l ≤ xs.length) :
    wp (Vector.eraseRange E ⟨b, k⟩ ⟨b, l⟩)
      (fun p o' => VSt H E ib N o' al b cap (xs.take k ++ xs.drop l) ∧ o'.m.next = o.m.next ∧ p = ⟨b, k⟩)
      (fun e o' => ∃ xs', VSt H E ib N o' al b cap xs' ∧ xs'.length = xs.length ∧ o'.m.next = o.m.next ∧
        xs'.take k = xs.take k ∧ e = .elem ∧ E.nothrowMoveAssign = false)
      o := by
  have hlen := h.len
  unfold Vector.eraseRange
  simp only [wp_bind, wp_getObj, wp_lift, wp_setObj, wp_assert, wp_ite, wp_pure]
  rw [h.obj]
  refine ⟨⟨rfl, by simp, (by trivial), hkl, hl⟩, ?_⟩
  have hp : ∀ j, (⟨b, 0⟩ : Ptr).add (j - 0) = ⟨b, j⟩ := fun j => by simp [Ptr.add]
  dsimp only
  simp only [hp]
  by_cases he : (⟨b, k⟩ : Ptr) = ⟨b, l⟩
  · rw [if_pos he]
    obtain rfl : k = l := by simpa using he
    rw [List.take_append_drop]
    exact ⟨h, (by trivial), (by trivial)⟩
  rw [if_neg he]
  have hlt : k < l := by
    have : k ≠ l := fun h' => he (by rw [h'])
    omega
  have hc1 := h.cells
  refine wp_moveFwd (n := xs.length - l) rfl (by simp; omega) ?_ ?_ (Or.inr (Or.inl hlt)) ?_ ?_
  · intro i h1 h2; rw [hc1]; simp at h2 ⊢; exact h2
  · intro i h1 h2; rw [hc1]; simp at h2 ⊢; omega
  · intro s2 hs2 ht2 hm2
    have hst2 : Store H s2 al ib N b cap := h.st.upd hs2
      (fun i hi => by rw [hm2]; have := h.st.beyond i hi; grind) (fun c hc i => by rw [hm2]; grind)
    have hc2 : ∀ i, s2.mem b i = if k ≤ i ∧ i < k + (xs.length - l) then xs[i + (l - k)]?
        else if l ≤ i ∧ i < xs.length then (xs[i]?).map E.moved else xs[i]? := fun i => by
      rw [hm2]; simp only; rw [hc1, hc1]
      have e : k ≤ i → l + (i - k) = i + (l - k) := by omega
      grind
    have hadd : (⟨b, k⟩ : Ptr).add (xs.length - l) = ⟨b, k + (xs.length - l)⟩ := rfl
    rw [hadd]
    refine wp_destroyRange rfl (by simp; omega) ?_ ?_
    · intro i h1 h2; simp only at h1 h2; rw [hc2]; grind
    · intro s3 hs3 ht3 hm3
      refine ⟨VSt.mk' rfl (by simp; omega) rfl (hst2.upd hs3 ?_ ?_) (by simp; omega) ?_ h.capLe h.nLe,
        hs3.next.trans hs2.next, (by trivial)⟩
      · intro i hi; rw [hm3]; have := hst2.beyond i hi; grind
      · intro c hc i; rw [hm3]; grind
      · intro i; rw [hm3, hc2, List.getElem?_append]
        have e : k ≤ i → l + (i - k) = i + (l - k) := by omega
        simp only [List.length_take, Nat.min_eq_left (show k ≤ xs.length by omega), List.getElem?_drop]
        have e2 : k + (xs.length - l) ≤ i → xs.length ≤ i + (l - k) := by omega
        have e3 : xs[i + (l - k)]? = none ∨ i + (l - k) < xs.length := by
          by_cases hh : i + (l - k) < xs.length
          · exact Or.inr hh
          · exact Or.inl (by simp; omega)
        clear hm3 hm2 hc2 hc1 hst2 h
        grind
  · intro hna s2 hs2 hm2
    obtain ⟨xs', k1, k2⟩ := h.ofLive (n := xs.length) (l := (⟨b, xs.length⟩ : Ptr)) rfl
      (h.st.upd hs2 (fun i hi => by have := hm2 b i; have := h.st.beyond i hi; grind)
        (fun c hc i => by have := hm2 c i; grind)) (by omega)
      (fun i => by have h1 := hm2 b i; have h2 := hc1 i; grind)
    refine ⟨xs', k1, k2, hs2.next, ?_, (by trivial), hna⟩
    refine List.ext_getElem? fun i => ?_
    rw [List.getElem?_take, List.getElem?_take]
    by_cases hi : i < k
    · rw [if_pos hi, if_pos hi, ← k1.cells, ← hc1]
      have := hm2 b i
      show s2.mem b i = _
      grind
    · rw [if_neg hi, if_neg hi]

theorem eraseAt_spec {o : Obj Vec α} {xs : List α} {k : Nat}
    (h : VSt H E ib N o al b cap xs) (hk : k < xs.length) :
    wp (Vector.eraseAt E ⟨b, k⟩)
      (fun p o' => VSt H E ib N o' al b cap (xs.take k ++ xs.drop (k + 1)) ∧ o'.m.next = o.m.next ∧ p = ⟨b, k⟩)
      (fun e o' => ∃ xs', VSt H E ib N o' al b cap xs' ∧ xs'.length = xs.length ∧ o'.m.next = o.m.next ∧
        xs'.take k = xs.take k ∧ e = .elem ∧ E.nothrowMoveAssign = false)
      o := by
  have hr := eraseRange_spec h (k := k) (l := k + 1) (by omega) (by omega)
  have hlen := h.len
  unfold Vector.eraseAt
  simp only [wp_bind, wp_getObj, wp_lift, wp_setObj, wp_assert, wp_ite, wp_pure]
  rw [h.obj]
  refine ⟨⟨rfl, by simp, hk⟩, ?_⟩
  have hp : ∀ j, (⟨b, 0⟩ : Ptr).add (j - 0) = ⟨b, j⟩ := fun j => by simp [Ptr.add]
  unfold Vector.eraseRange at hr
  simp only [wp_bind, wp_getObj, wp_lift, wp_setObj, wp_assert, wp_ite, wp_pure] at hr
  rw [h.obj] at hr
  have hr := hr.2
  dsimp only at hr ⊢
  simp only [hp] at hr ⊢
  rw [if_neg (by simp)] at hr
  have hc1 := h.cells
  refine wp_moveFwd (n := xs.length - (k + 1)) rfl (by simp; omega) ?_ ?_ (Or.inr (Or.inl (by simp))) ?_ ?_
  · intro i h1 h2; rw [Ptr.add_blk, hc1]; simp at h2 ⊢; exact h2
  · intro i h1 h2; rw [hc1]; simp at h2 ⊢; omega
  · intro s2 hs2 ht2 hm2
    have hst2 : Store H s2 al ib N b cap := h.st.upd hs2
      (fun i hi => by rw [hm2]; have := h.st.beyond i hi; grind) (fun c hc i => by rw [hm2]; grind)
    have hc2 : ∀ i, s2.mem b i = if k ≤ i ∧ i + 1 < xs.length then xs[i + 1]?
        else if k + 1 ≤ i ∧ i < xs.length then (xs[i]?).map E.moved else xs[i]? := fun i => by
      rw [hm2]; simp only [Ptr.add_blk, Ptr.add_off]; rw [hc1, hc1]
      have e : k ≤ i → k + 1 + (i - k) = i + 1 := by omega
      grind
    have hadd : (⟨b, k⟩ : Ptr).add (xs.length - (k + 1)) = ⟨b, xs.length - 1⟩ := by simp [Ptr.add]; omega
    rw [hadd]
    refine wp_destroyAt ?_ ?_
    · simp only; rw [hc2]; grind
    · intro s3 hs3 ht3 hm3
      refine ⟨VSt.mk' rfl (by simp; omega) rfl (hst2.upd hs3 ?_ ?_) (by simp; omega) ?_ h.capLe h.nLe,
        hs3.next.trans hs2.next, (by trivial)⟩
      · intro i hi; rw [hm3]; have := hst2.beyond i hi; grind
      · intro c hc i; rw [hm3]; grind
      · intro i; rw [hm3, hc2, List.getElem?_append]
        have e : k ≤ i → k + 1 + (i - k) = i + 1 := by omega
        simp only [List.length_take, Nat.min_eq_left (show k ≤ xs.length by omega), List.getElem?_drop]
        grind
  · intro hna s2 hs2 hm2
    obtain ⟨xs', k1, k2⟩ := h.ofLive (n := xs.length) (l := (⟨b, xs.length⟩ : Ptr)) rfl
      (h.st.upd hs2 (fun i hi => by have := hm2 b i; have := h.st.beyond i hi; grind)
        (fun c hc i => by have := hm2 c i; grind)) (by omega)
      (fun i => by have h1 := hm2 b i; have h2 := hc1 i; grind)
    refine ⟨xs', k1, k2, hs2.next, ?_, (by trivial), hna⟩
    refine List.ext_getElem? fun i => ?_
    rw [List.getElem?_take, List.getElem?_take]
    by_cases hi : i < k
    · rw [if_pos hi, if_pos hi, ← k1.cells, ← hc1]
      have := hm2 b i
      show s2.mem b i = _
      grind
    · rw [if_neg hi, if_neg hi]

/-! ### Element access -/

theorem index_spec {o : Obj Vec α} {xs : List α} {i : Nat} {v : α} (h : VSt H E ib N o al b cap xs)
    (hi : xs[i]? = some v) :
    wp (Vector.index i) (fun r o' => r = v ∧ o' = o) (fun _ _ => False) o := by
  unfold Vector.index
  simp only [wp_bind, wp_getObj, wp_lift, wp_assert]
  refine wp_size h.obj ?_
  have : i < xs.length := by
    by_cases hh : i < xs.length
    · exact hh
    · rw [List.getElem?_eq_none (by omega)] at hi; cases hi
  refine ⟨this, wp_readAt ?_ ⟨rfl, rfl⟩⟩
  rw [h.obj]; simp [h.cells, hi]

theorem at_spec {o : Obj Vec α} {xs : List α} {i : Nat} (h : VSt H E ib N o al b cap xs) :
    wp (Vector.at' i) (fun r o' => xs[i]? = some r ∧ o' = o)
      (fun e o' => e = .outOfRange ∧ xs.length ≤ i ∧ o' = o) o := by
  unfold Vector.at'
  simp only [wp_bind, wp_getObj, wp_ite, wp_throw]
  refine wp_size h.obj ?_
  by_cases hi : i ≥ xs.length
  · rw [if_pos hi]; exact ⟨(by trivial), hi, (by trivial)⟩
  · rw [if_neg hi, wp_lift]
    have : xs[i]? = some (xs[i]'(by omega)) := by simp
    refine wp_readAt (v := xs[i]'(by omega)) ?_ ⟨this, rfl⟩
    rw [h.obj]; simp [h.cells, this]

theorem front_spec {o : Obj Vec α} {xs : List α} {v : α} (h : VSt H E ib N o al b cap (v :: xs)) :
    wp Vector.front (fun r o' => r = v ∧ o' = o) (fun _ _ => False) o := by
  unfold Vector.front
  simp only [wp_bind, wp_getObj, wp_lift, wp_assert]
  rw [h.obj]
  refine ⟨by simp, wp_readAt ?_ ⟨rfl, ?_⟩⟩
  · rw [h.cells]; simp
  · rw [← h.obj]

theorem back_spec {o : Obj Vec α} {xs : List α} {v : α} (h : VSt H E ib N o al b cap (xs ++ [v])) :
    wp Vector.back (fun r o' => r = v ∧ o' = o) (fun _ _ => False) o := by
  unfold Vector.back
  simp only [wp_bind, wp_getObj, wp_lift, wp_assert]
  rw [h.obj]
  have hp : (⟨b, (xs ++ [v]).length⟩ : Ptr).sub 1 = ⟨b, xs.length⟩ := by
    rw [Ptr.sub_of_le (by simp)]; simp
  simp only [hp]
  refine ⟨by simp, wp_readAt ?_ ⟨rfl, ?_⟩⟩
  · rw [h.cells]; simp
  · rw [← h.obj]

/-! ### reserve, shrink_to_fit, reset, destructor -/

theorem Store2.back {s : St α} (h : Store2 H s al ib N b cap ib N) (hraw : ∀ i, s.mem ib i = none) :
    Store H s al ib N b cap := by
  have := h.drop (n := N) (X := fun _ _ => False) (Q := fun _ s' => s' = s ∧ Store H s' al ib N b cap)
    (by simp) (fun i _ => hraw i)
  exact { wf := h.wf, ibk := h.ibk, own := h.own, iraw := fun _ => hraw, beyond := h.beyond,
          fmem := fun c h1 h2 => h.fmem c h1 h2 h2, fblk := fun c h1 h2 => h.fblk c h1 h2 h2,
          hmem := h.hmem, hblk := h.hblk, himem := h.himem, hiblk := h.hiblk }

/-- Relocation to `newCap` slots (or to the internal storage if that is enough). -/
theorem relocate_spec {o : Obj Vec α} {xs : List α} {newCap : Nat} (h : VSt H E ib N o al b cap xs)
    (hn : xs.length ≤ newCap) (hmax : newCap ≤ E.maxSize) :
    wp (SmallVector.relocate E ib N newCap)
      (fun _ o' => ∃ b', VSt H E ib N o' al b' (max newCap N) xs ∧ (newCap ≤ N → o'.m.next = o.m.next ∧ b' = ib))
      (fun e o' => ∃ xs', VSt H E ib N o' al b cap xs' ∧ xs'.length = xs.length ∧ (Strong E → xs' = xs) ∧
        (newCap ≤ N → o'.m.next = o.m.next ∧ e ≠ .badAlloc) ∧ e ≠ .lengthError)
      o := by
  unfold SmallVector.relocate
  simp only [wp_bind, wp_getObj, wp_ite, wp_lift, wp_setObj, wp_pure, wp_tryCatch, wp_throw]
  rw [h.obj]
  dsimp only
  by_cases hnN : newCap ≤ N
  · rw [if_pos hnN]
    have hmx : max newCap N = N := by omega
    rw [hmx]
    by_cases hbi : (⟨b, 0⟩ : Ptr) = ⟨ib, 0⟩
    · rw [if_pos hbi]
      have hbi' : b = ib := by simpa using hbi
      have hcap : cap = N := by
        rcases h.st.own with ⟨_, h0⟩ | ⟨h1, h0⟩ | ⟨_, _, h0, _⟩
        · exact h0
        · rcases h.st.ibk with ⟨_, h2⟩ | h2
          · omega
          · have := h.st.wf.blk_zero
            rw [← h1, hbi', h2] at this; cases this
        · exact absurd hbi' h0
      exact ⟨b, hcap ▸ h, fun _ => ⟨by trivial, hbi'⟩⟩
    · rw [if_neg hbi]
      have hbi' : b ≠ ib := by simpa using hbi
      obtain ⟨h2, h3⟩ := h.st.useInternal hbi'
      refine h2.moveIf (i0 := 0) (n := xs.length) (d0 := 0) rfl (by simp) rfl (fun i _ hi => (h.live i).mpr (by omega))
        (fun i _ _ => h3 i) (by omega) ?_ ?_
      · intro s1 g1 hnx ht1 hnew hl hout hst
        have hrep := wp_replaceStorage (o := ⟨⟨⟨b, 0⟩, ⟨b, xs.length⟩, ⟨b, cap⟩, al⟩, s1⟩) (n := xs.length)
          (l := ⟨ib, 0 + xs.length⟩) (e := ⟨ib, N⟩) (X := fun _ _ => False)
          (Q := fun _ o' => ∃ b', VSt H E ib N o' al b' N xs ∧ (newCap ≤ N → o'.m.next = o.m.next ∧ b' = ib)) rfl g1
          (fun i => by simp only; rw [hl]; exact h.live i)
          (by
            intro s2 hs2 hn2 ht2 hm2
            refine ⟨ib, VSt.mk' rfl (by simp) rfl hs2 (by omega) ?_ h.nLe h.nLe, fun _ => ?_⟩
            · intro i
              rw [hm2, hnew, h.cells, h3]; grind
            · exact ⟨by show s2.next = _; rw [hn2]; exact hnx, rfl⟩)
        unfold SmallVector.replaceStorage freeUnless at hrep
        have hif : (⟨b, 0⟩ : Ptr) ≠ ⟨ib, 0⟩ := hbi
        simp only [wp_bind, wp_getObj, wp_lift, wp_setObj, if_pos hif] at hrep
        refine wp_mono hrep ?_ (fun _ _ h => h.elim)
        intro _ s5 h5
        have : (⟨ib, 0⟩ : Ptr).add N = ⟨ib, N⟩ := by simp [Ptr.add]
        rw [this]
        exact wp_mono h5 (fun _ _ h => wp_mono h (fun _ _ h => h) (fun _ _ h => h.elim)) (fun _ _ h => h.elim)
      · intro s1 g1 hnx hnew hnm hl hst
        obtain ⟨xs', k1, k2, k3⟩ := h.kept (s' := s1) (g1.back (fun i => by rw [hnew]; exact h3 i)) hl hst
        exact ⟨xs', by rw [h.obj] at k1; exact k1, k2, k3, fun _ => ⟨hnx, by simp⟩, by simp⟩
  · rw [if_neg hnN]
    have hmx : max newCap N = newCap := by omega
    rw [hmx]
    refine wp_allocate h.st.wf (by omega) ?_ ?_
    · intro _ s1 hm1 hn1 ht1 hb1
      obtain ⟨h2, h3⟩ := h.st.alloc hm1 hn1 (ncap := newCap) (by omega) hb1
      generalize o.m.next = nb at *
      refine h2.moveIf (i0 := 0) (n := xs.length) (d0 := 0) rfl (by simp) rfl
        (fun i _ hi => by rw [hm1]; exact (h.live i).mpr (by omega)) (fun i _ _ => h3 i) (by omega) ?_ ?_
      · intro s2 g2 hnx ht2 hnew hl hout hst
        refine wp_replaceStorage (n := xs.length) rfl g2 (fun i => by simp only; rw [hl, hm1]; exact h.live i) ?_
        intro s3 hs3 hn3 ht3 hm3
        refine ⟨nb, VSt.mk' rfl (by simp) (by simp [Ptr.add]) hs3 (by omega) ?_ hmax h.nLe, by omega⟩
        intro i
        rw [hm3, hnew, hm1, h.cells]
        have := h3 i
        rw [hm1] at this
        grind
      · intro s2 g2 hnx hnew hnm hl hst
        have hd := g2.drop (n := newCap) (X := fun _ _ => False)
          (Q := fun _ s' => ∃ xs', VSt H E ib N ⟨⟨⟨b, 0⟩, ⟨b, xs.length⟩, ⟨b, cap⟩, al⟩, s'⟩ al b cap xs' ∧
            xs'.length = xs.length ∧ (Strong E → xs' = xs) ∧ (newCap ≤ N → s'.next = nb ∧ Exn.elem ≠ .badAlloc) ∧
            Exn.elem ≠ .lengthError)
          (fun _ => rfl) (fun i _ => by rw [hnew]; exact h3 i)
          (by
            intro s3 hm3 hn3 ht3 hst3
            obtain ⟨xs', k1, k2, k3⟩ := h.kept (s' := s3) hst3 (fun i => by rw [hm3, hl, hm1])
              (fun hE => by rw [hm3, hst hE, hm1])
            exact ⟨xs', by rw [h.obj] at k1; exact k1, k2, k3, by omega, by simp⟩)
        unfold freeUnless at hd
        have hni : nb ≠ ib := by
          rcases h2.nown with ⟨_, h0⟩ | ⟨_, _, h0, _⟩
          · omega
          · exact h0
        rw [if_pos (by simpa using hni)] at hd
        exact wp_mono hd (fun _ _ h => h) (fun _ _ h => h.elim)
    · intro _ s1 hs1 hm1
      refine ⟨xs, ?_, rfl, fun _ => rfl, by omega, by simp⟩
      exact VSt.mk' rfl rfl rfl (h.st.same hs1 hm1) h.len (fun i => by rw [hm1, h.cells]) h.capLe h.nLe

theorem reserve_spec {o : Obj Vec α} {xs : List α} {newCap : Nat} (h : VSt H E ib N o al b cap xs) :
    wp (SmallVector.reserve E ib N newCap)
      (fun _ o' => ∃ b' cap', VSt H E ib N o' al b' cap' xs ∧ newCap ≤ cap' ∧ cap ≤ cap' ∧
        (newCap ≤ cap → b' = b ∧ cap' = cap ∧ o' = o) ∧ (newCap ≤ max cap N → o'.m.next = o.m.next))
      (fun e o' => ∃ xs', VSt H E ib N o' al b cap xs' ∧ xs'.length = xs.length ∧ (Strong E → xs' = xs) ∧
        (newCap ≤ max cap N → o'.m.next = o.m.next ∧ e ≠ .badAlloc) ∧
        (e = .lengthError ↔ E.maxSize < newCap))
      o := by
  unfold SmallVector.reserve Vector.checkSize
  simp only [wp_bind, wp_ite, wp_throw, wp_pure]
  by_cases hm : newCap > E.maxSize
  · rw [if_pos hm]
    exact ⟨xs, h, (by trivial), fun _ => (by trivial), fun _ => ⟨by trivial, by simp⟩, by simpa using hm⟩
  rw [if_neg hm]
  refine wp_capacity h.obj ?_
  by_cases hc : newCap > cap
  · rw [if_pos hc]
    have hlen := h.len
    refine wp_mono (relocate_spec h (newCap := newCap) (by omega) (by omega)) ?_ ?_
    · rintro _ o' ⟨b', hv, hn⟩
      exact ⟨b', _, hv, by omega, by omega, by omega, fun hh => (hn (by omega)).1⟩
    · rintro e o' ⟨xs', hv, h1, h2, h3, h4⟩
      exact ⟨xs', hv, h1, h2, fun hh => h3 (by omega), by simp [h4]; omega⟩
  · rw [if_neg hc]
    exact ⟨b, cap, h, by omega, by omega, fun _ => ⟨rfl, rfl, (by trivial)⟩, fun _ => (by trivial)⟩

theorem shrinkToFit_spec {o : Obj Vec α} {xs : List α} (h : VSt H E ib N o al b cap xs) :
    wp (SmallVector.shrinkToFit E ib N)
      (fun _ o' => ∃ b' cap', VSt H E ib N o' al b' cap' xs ∧
        (cap' = max xs.length N ∨ (cap' = 0 ∧ xs = [] ∧ o' = o)) ∧
        (xs.length ≤ N → o'.m.next = o.m.next ∧ (b' = ib ∨ (b' = b ∧ cap' = cap))))
      (fun e o' => ∃ xs', VSt H E ib N o' al b cap xs' ∧ xs'.length = xs.length ∧ (Strong E → xs' = xs) ∧
        (xs.length ≤ N → o'.m.next = o.m.next ∧ e ≠ .badAlloc) ∧ e ≠ .lengthError)
      o := by
  have hlen := h.len
  have hcl := h.capLe
  unfold SmallVector.shrinkToFit
  simp only [wp_bind, wp_ite, wp_pure]
  refine wp_size h.obj (wp_capacity h.obj ?_)
  by_cases hc : xs.length < cap
  · rw [if_pos hc]
    refine wp_mono (relocate_spec h (newCap := xs.length) (by omega) (by omega)) ?_ ?_
    · rintro _ o' ⟨b', hv, hn⟩
      exact ⟨b', _, hv, Or.inl rfl, fun hh => ⟨(hn hh).1, Or.inl (hn hh).2⟩⟩
    · rintro e o' ⟨xs', hv, h1, h2, h3, h4⟩
      exact ⟨xs', hv, h1, h2, h3, h4⟩
  · rw [if_neg hc]
    refine ⟨b, cap, h, ?_, fun _ => ⟨by trivial, Or.inr ⟨rfl, rfl⟩⟩⟩
    rcases h.st.cap_cases with h0 | h0
    · exact Or.inr ⟨h0, List.eq_nil_of_length_eq_zero (by omega), rfl⟩
    · exact Or.inl (by omega)

/-- Destroying everything and releasing the storage. -/
theorem destructor_spec {o : Obj Vec α} {xs : List α} (h : VSt H E ib N o al b cap xs) :
    wp (SmallVector.destructor ib)
      (fun _ o' => Store H o'.m al ib N ib N ∧ (∀ i, o'.m.mem ib i = none) ∧ o'.m.next = o.m.next ∧
        o'.m.tick = o.m.tick)
      (fun _ _ => False) o := by
  unfold SmallVector.destructor
  simp only [wp_bind, wp_getObj, wp_lift]
  rw [h.obj]
  refine wp_destroyRange rfl (by simp) (fun i _ hi => (h.live i).mpr (by simpa using hi)) ?_
  intro s1 hs1 ht1 hm1
  have hraw : ∀ i, s1.mem b i = none := fun i => by rw [hm1, h.cells]; grind
  have hst1 : Store H s1 al ib N b cap := h.st.upd hs1 (fun i _ => hraw i) (fun c hc i => by rw [hm1]; grind)
  refine wp_distance rfl (by simp) ?_
  refine hst1.release hraw ?_
  intro s2 hm2 hn2 ht2 hst2
  refine ⟨hst2, ?_, hn2.trans hs1.next, by show s2.tick = _; omega⟩
  intro i
  show s2.mem ib i = none
  rw [hm2]
  by_cases hbi : b = ib
  · rw [← hbi]; exact hraw i
  · exact hst1.iraw hbi i

/-- An empty container on its internal storage. -/
theorem VSt.mkEmpty {m : St α} (st : Store H m al ib N ib N) (raw : ∀ i, m.mem ib i = none)
    (nLe : N ≤ E.maxSize) : VSt H E ib N ⟨SmallVector.empty ib N al, m⟩ al ib N [] :=
  VSt.mk' rfl rfl rfl st (by simp) (fun i => by rw [raw]; simp) nLe nLe

theorem reset_spec {o : Obj Vec α} {xs : List α} {newCap : Nat} (h : VSt H E ib N o al b cap xs)
    (hmax : newCap ≤ E.maxSize) :
    wp (SmallVector.reset E ib N newCap)
      (fun _ o' => ∃ b', VSt H E ib N o' al b' (max newCap N) [] ∧ (newCap ≤ N → o'.m.next = o.m.next) ∧
        (∀ c i, c ≠ b → c ≠ b' → o'.m.mem c i = o.m.mem c i))
      (fun e o' => VSt H E ib N o' al ib N [] ∧ N < newCap ∧ e = .badAlloc)
      o := by
  have hd := destructor_spec h
  unfold SmallVector.destructor at hd
  unfold SmallVector.reset SmallVector.replaceStorage
  simp only [wp_bind, wp_getObj, wp_lift, wp_setObj, wp_ite, wp_pure] at hd ⊢
  rw [h.obj] at hd ⊢
  dsimp only at hd ⊢
  refine wp_destroyRange rfl (by simp) (fun i _ hi => (h.live i).mpr (by simpa using hi)) ?_
  intro s1 hs1 ht1 hm1
  have hraw : ∀ i, s1.mem b i = none := fun i => by rw [hm1, h.cells]; grind
  have hst1 : Store H s1 al ib N b cap := h.st.upd hs1 (fun i _ => hraw i) (fun c hc i => by rw [hm1]; grind)
  refine wp_distance rfl (by simp) ?_
  refine hst1.release hraw ?_
  intro s2 hm2 hn2 ht2 hst2
  have hraw2 : ∀ i, s2.mem ib i = none := by
    intro i
    rw [hm2]
    by_cases hbi : b = ib
    · rw [← hbi]; exact hraw i
    · exact hst1.iraw hbi i
  have hfr : ∀ c i, c ≠ b → s2.mem c i = o.m.mem c i := fun c i hc => by rw [hm2, hm1]; grind
  by_cases hc : newCap > N
  · rw [if_pos hc]
    have hmx : max newCap N = newCap := by omega
    rw [hmx]
    refine wp_allocate hst2.wf (by omega) ?_ ?_
    · intro _ s3 hm3 hn3 ht3 hb3
      obtain ⟨h2, h3⟩ := hst2.alloc hm3 hn3 (ncap := newCap) hc hb3
      refine ⟨s2.next, VSt.mk' rfl rfl (by simp [Ptr.add]) (h2.switch (Or.inl rfl) ?_) (by simp)
        (fun i => by rw [h3]; simp) hmax h.nLe, by omega, ?_⟩
      · intro i; rw [hm3]; exact hraw2 i
      · intro c i h1 _; show s3.mem c i = _; rw [hm3]; exact hfr c i h1
    · intro _ s3 hs3 hm3
      refine ⟨VSt.mk' rfl rfl rfl (hst2.same hs3 hm3) (by simp) (fun i => by rw [hm3, hraw2]; simp) h.nLe h.nLe,
        hc, rfl⟩
  · rw [if_neg hc]
    have hmx : max newCap N = N := by omega
    rw [hmx]
    refine ⟨ib, VSt.mk' rfl rfl rfl hst2 (by simp) (fun i => by rw [hraw2]; simp) h.nLe h.nLe,
      fun _ => hn2.trans hs1.next, fun c i h1 _ => hfr c i h1⟩

end Sfl
