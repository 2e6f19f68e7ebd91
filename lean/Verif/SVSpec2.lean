import Verif.SVSpec
/-
  Correctness of resize, insert of several elements (small_vector and vector).
-/

set_option linter.unusedSimpArgs false

namespace Sfl
variable {α : Type} {E : Env α} {H : Heap α} {al ib N b cap nb ncap : Nat}

theorem map_value_replicate {s : St α} {a : Arg α} {v : α} {n : Nat} (hv : a.value s = some v) :
    (List.replicate n a).map (Arg.value s) = (List.replicate n v).map some := by
  simp [hv]

theorem map_value_val {s : St α} (ys : List α) :
    (ys.map Arg.val).map (Arg.value s) = ys.map some := by
  simp [Arg.value]

theorem insert_getElem? {xs ys : List α} {k : Nat} (hk : k ≤ xs.length) (i : Nat) :
    (xs.take k ++ ys ++ xs.drop k)[i]? =
      if i < k then xs[i]? else if i < k + ys.length then ys[i - k]? else xs[i - ys.length]? := by
  grind

theorem fill_getElem? {xs : List α} {v : α} {k n : Nat} (hk : k ≤ xs.length) (i : Nat) :
    (xs.take k ++ List.replicate n v ++ xs.drop k)[i]? =
      if i < k then xs[i]? else if i < k + n then some v else xs[i - n]? := by
  rw [insert_getElem? hk]; grind

theorem resizeWith_spec {o : Obj Vec α} {xs : List α} {a : Arg α} {v : α} {n : Nat}
    (h : VSt H E ib N o al b cap xs) (hv : a.value o.m = some v) (hsrc : a.src E = none) :
    wp (SmallVector.resizeWith E ib N n a)
      (fun _ o' => ∃ b' cap', Done H E ib N al b cap o o' b' cap' (xs.take n ++ List.replicate (n - xs.length) v))
      (fun e o' => ∃ xs', Kept H E ib N al b cap e o o' n xs' ∧ xs'.length = xs.length ∧ (Strong E → xs' = xs) ∧
        (e = .lengthError → E.maxSize < n))
      o := by
  have hlen := h.len
  unfold SmallVector.resizeWith Vector.checkSize
  simp only [wp_bind, wp_getObj, wp_ite, wp_lift, wp_setObj, wp_pure, wp_tryCatch, wp_throw]
  by_cases hmax : n > E.maxSize
  · rw [if_pos hmax]
    exact ⟨xs, ⟨h, Or.inl rfl, by simp⟩, rfl, fun _ => rfl, fun _ => hmax⟩
  rw [if_neg hmax]
  refine wp_size h.obj ?_
  rw [h.obj]
  dsimp only
  by_cases hlt : n < xs.length
  · rw [if_pos hlt]
    refine wp_destroyRange rfl (by simp; omega) ?_ ?_
    · intro i h1 h2
      have := (h.live i).mpr (by simpa using h2)
      exact this
    · intro s1 hs1 ht1 hm1
      refine ⟨b, cap, ?_, fun _ => ⟨rfl, rfl⟩, Or.inl rfl, Or.inl hs1.next⟩
      refine VSt.mk' rfl (by simp [Ptr.add]; omega) rfl (h.st.upd hs1 ?_ ?_) (by simp; omega) ?_ h.capLe h.nLe
      · intro i hi; rw [hm1]; have := h.st.beyond i hi; grind
      · intro c hc i; rw [hm1]; grind
      · intro i; rw [hm1, h.cells]; grind
  rw [if_neg hlt]
  by_cases hgt : n > xs.length
  · rw [if_pos hgt]
    refine wp_capacity h.obj ?_
    by_cases hcap : n > cap
    · rw [if_pos hcap]
      have hroom : N < n → max cap N < n := by omega
      have fin : ∀ s5, (∃ xs', Kept H E ib N al b cap .elem o ⟨⟨⟨b, 0⟩, ⟨b, xs.length⟩, ⟨b, cap⟩, al⟩, s5⟩
          n xs' ∧ xs'.length = xs.length ∧ (Strong E → xs' = xs)) →
          ∃ xs', Kept H E ib N al b cap .elem o ⟨⟨⟨b, 0⟩, ⟨b, xs.length⟩, ⟨b, cap⟩, al⟩, s5⟩ n xs' ∧
          xs'.length = xs.length ∧ (Strong E → xs' = xs) ∧
          (Exn.elem = .lengthError → E.maxSize < n) := by
        rintro s5 ⟨xs', k1, k2, k3⟩
        exact ⟨xs', k1, k2, k3, by simp⟩
      refine growStart' h rfl (tot := n) (k := n) (by omega) (by omega) (by omega) hroom ?_ ?_
      · intro nb c s1 g hm1 hk' hk1 hk2 ht1
        dsimp only
        unfold uninitFillN
        refine wp_uninit_copy (map_value_replicate ((value_of_mem hm1).trans hv))
          (by intro a' ha'; rw [List.eq_of_mem_replicate ha']; exact hsrc) ?_ ?_ ?_ ?_
        · intro j hj; exact g.h2.inB (by simp at hj ⊢; omega)
        · intro j hj; exact g.new _
        · intro s2 hs2 ht2 hm2
          simp only [List.length_replicate] at hm2 ht2
          have g2 := g.write (f' := fun i => if xs.length ≤ i ∧ i < n then some v else none) hs2 (fun d i => by
            rw [hm2]; have := g.new i; grind) (fun i hi => by grind)
          refine g2.step (n := xs.length) (d0 := 0) rfl (by simp [Ptr.add]) rfl (by omega) (by omega) ?_ ?_ ?_
          · intro i _ hi; grind
          · intro s3 g3 ht3
            refine g3.finish (ys := xs.take n ++ List.replicate (n - xs.length) v) h rfl ?_ (by simp; omega)
              (by simp [Ptr.add]; omega) (by simp [Ptr.add]) ?_
            · intro i; grind
            · intro o' hd ht5
              exact ⟨nb, c, hd⟩
          · intro s3 g3
            rw [if_pos trivial]
            refine g3.undoN h (d0 := xs.length) (by simp [Ptr.add]) ?_ ?_ hk' (fin ·)
            · intro i _ hi; grind
            · intro i hi; grind
        · intro s2 hs2 hm2
          rw [if_neg g.ne_null]
          exact (g.failFresh h hs2 hm2).undo h (d0 := 0) (n := 0) rfl rfl (by omega) (fun _ _ => rfl) hk' (fin ·)
      · intro o' hk
        exact ⟨xs, hk, rfl, fun _ => rfl, by simp⟩
    · rw [if_neg hcap]
      unfold uninitFillN
      refine wp_uninit_copy (map_value_replicate hv)
        (by intro a' ha'; rw [List.eq_of_mem_replicate ha']; exact hsrc) ?_ ?_ ?_ ?_
      · intro j hj; exact h.st.inB (by simp at hj ⊢; omega)
      · intro j hj; simp only; rw [h.cells]; simp
      · intro s1 hs1 ht1 hm1
        refine ⟨b, cap, ?_, fun _ => ⟨rfl, rfl⟩, Or.inl rfl, Or.inl hs1.next⟩
        refine VSt.mk' rfl (by simp [Ptr.add]; omega) rfl (h.st.upd hs1 ?_ ?_) (by simp; omega) ?_ h.capLe h.nLe
        · intro i hi; rw [hm1]; have := h.st.beyond i hi; grind
        · intro c hc i; rw [hm1]; grind
        · intro i; rw [hm1, h.cells]; grind
      · intro s1 hs1 hm1
        refine ⟨xs, ⟨?_, Or.inl hs1.next, by simp⟩, rfl, fun _ => rfl, by simp⟩
        rw [h.obj]; exact VSt.mk' rfl rfl rfl (h.st.same hs1 hm1) h.len (fun i => by rw [hm1, h.cells]) h.capLe h.nLe
  · rw [if_neg hgt]
    have : xs.take n ++ List.replicate (n - xs.length) v = xs := by
      rw [show n - xs.length = 0 by omega, List.take_of_length_le (by omega)]; simp
    rw [this]
    exact ⟨b, cap, h, fun _ => ⟨rfl, rfl⟩, Or.inl rfl, Or.inl rfl⟩

theorem insertFillN_spec {o : Obj Vec α} {xs : List α} {a : Arg α} {v : α} {k n : Nat}
    (h : VSt H E ib N o al b cap xs) (hv : a.value o.m = some v) (hsrc : a.src E = none) (hk : k ≤ xs.length) :
    wp (SmallVector.insertFillN E ib N ⟨b, k⟩ n a)
      (fun p o' => ∃ b' cap', Done H E ib N al b cap o o' b' cap' (xs.take k ++ List.replicate n v ++ xs.drop k) ∧
        p = ⟨b', k⟩)
      (fun e o' => ∃ xs', Kept H E ib N al b cap e o o' (xs.length + n) xs' ∧ xs'.length ≤ xs.length + n ∧
        (Strong E → cap < xs.length + n → xs' = xs) ∧
        (e = .lengthError → E.maxSize < xs.length + n))
      o := by
  have hlen := h.len
  unfold SmallVector.insertFillN Vector.available
  simp only [wp_bind, wp_getObj, wp_ite, wp_lift, wp_setObj, wp_pure, wp_tryCatch, wp_throw, wp_assert]
  rw [h.obj]
  refine ⟨⟨rfl, by simp, by simpa using hk⟩, ?_⟩
  have hp : (⟨b, 0⟩ : Ptr).add (k - 0) = ⟨b, k⟩ := by simp [Ptr.add]
  dsimp only
  rw [hp]
  by_cases hn0 : n = 0
  · rw [if_pos hn0]
    subst hn0
    refine ⟨b, cap, ?_, rfl⟩
    have : xs.take k ++ List.replicate 0 v ++ xs.drop k = xs := by simp
    rw [this]
    exact ⟨h, fun _ => ⟨rfl, rfl⟩, Or.inl rfl, Or.inl rfl⟩
  rw [if_neg hn0]
  refine wp_distance rfl (by simpa using hlen) ?_
  dsimp only
  by_cases hav : cap - xs.length ≥ n
  · rw [if_pos hav]
    refine mkTmp_copy hv hsrc ?_ ?_
    · intro s1 hs1 ht1 hm1
      have hst1 := h.st.same hs1 hm1
      have hc1 : ∀ i, s1.mem b i = xs[i]? := fun i => by rw [hm1, h.cells]
      by_cases hp2 : k + n ≤ xs.length
      · rw [if_pos (by simpa [Ptr.add] using hp2)]
        have hsub : (⟨b, xs.length⟩ : Ptr).sub n = ⟨b, xs.length - n⟩ := Ptr.sub_of_le (by simp; omega)
        rw [hsub]
        unfold uninitMove
        refine wp_uninit_range (n := n) mkOk_mv rfl (by simp; omega) ?_ ?_ ?_ ?_ ?_
        · intro i h1 h2; rw [hc1]; simp at h2 ⊢; exact h2
        · intro j hj; exact hst1.inB (by simp; omega)
        · intro i h1 h2; rw [hc1]; simp at h1 ⊢; exact h1
        · intro s2 hs2 ht2 hm2
          have hst2 : Store H s2 al ib N b cap := hst1.upd hs2
            (fun i hi => by rw [hm2]; have := hst1.beyond i hi; grind) (fun c hc i => by rw [hm2]; grind)
          have hc2 : ∀ i, s2.mem b i = if xs.length ≤ i ∧ i < xs.length + n then xs[i - n]?
              else if xs.length - n ≤ i ∧ i < xs.length then (xs[i]?).map E.moved else xs[i]? := fun i => by
            rw [hm2]; simp only; rw [hc1, hc1]; grind
          refine wp_moveBackward (n := xs.length - n - k) (q := ⟨b, k + n⟩) rfl (by simp; omega)
            (by simp [Ptr.add]; omega) ?_ ?_ (Or.inr (Or.inl (by simp; omega))) ?_ ?_
          · intro i _ hi; simp at hi ⊢; rw [hc2]; grind
          · intro i _ hi; simp at hi ⊢; rw [hc2]; grind
          · intro s3 hs3 ht3 hm3
            have hst3 : Store H s3 al ib N b cap := hst2.upd hs3
              (fun i hi => by rw [hm3]; have := hst2.beyond i hi; grind) (fun c hc i => by rw [hm3]; grind)
            have hc3 : ∀ i, ¬ (k ≤ i ∧ i < k + n) → s3.mem b i = (xs.take k ++ List.replicate n v ++ xs.drop k)[i]? :=
              fun i hi => by
                rw [fill_getElem? hk, hm3]; simp only [Ptr.add_blk, Ptr.add_off]; rw [hc2, hc2]
                have e : k + n ≤ i → k + (i - (k + n)) = i - n := by omega
                clear hm3 hc2 hm2 hst3 hst2 hst1 hc1 hm1 h
                grind
            have hc3k : ∀ i, k ≤ i → i < k + n → (s3.mem b i).isSome := fun i h1 h2 => by
              rw [hm3]; simp only; rw [hc2, hc2]; grind
            unfold fillRange
            rw [wp_bind]
            refine wp_distance rfl (by simp) ?_
            rw [wp_bind]
            refine wp_assignGo_copy (map_value_replicate (v := v) rfl)
              (by intro a' ha'; rw [List.eq_of_mem_replicate ha']; rfl)
              (by intro a' ha'; rw [List.eq_of_mem_replicate ha']; intros; rfl) ?_ ?_ ?_
            · intro i h1 h2; exact hc3k i (by simpa using h1) (by simpa [Ptr.add] using h2)
            · intro s4 hs4 ht4 hm4
              rw [wp_pure]
              refine ⟨b, cap, ⟨?_, fun _ => ⟨rfl, rfl⟩, Or.inl rfl, Or.inl ?_⟩, rfl⟩
              · refine VSt.mk' rfl (by simp [Ptr.add]; omega) rfl (hst3.upd hs4 ?_ ?_) (by simp; omega) ?_ h.capLe h.nLe
                · intro i hi; rw [hm4]; have := hst3.beyond i hi; grind
                · intro c hc i; rw [hm4]; grind
                · intro i; rw [hm4]; have := hc3 i; grind
              · exact (hs1.trans (hs2.trans (hs3.trans hs4))).next
            · intro s4 hs4 hm4
              obtain ⟨xs', k1, k2⟩ := h.ofLive (n := xs.length + n) (l := (⟨b, xs.length⟩ : Ptr).add n) rfl
                (hst3.upd hs4 (fun i hi => by have := hm4 b i; have := hst3.beyond i hi; grind)
                  (fun c hc i => by have := hm4 c i; grind)) (by omega)
                (fun i => by
                  have h1 := hm4 b i
                  by_cases hi : k ≤ i ∧ i < k + n
                  · rw [if_pos (by grind)] at h1; simp [h1]; omega
                  · rw [if_neg (by grind)] at h1; rw [h1, hc3 i hi]; simp; omega)
              exact ⟨xs', ⟨k1, Or.inl (hs1.trans (hs2.trans (hs3.trans hs4))).next, by simp⟩, by omega,
                fun _ hh => by omega, by simp⟩
          · intro hnm s3 hs3 hm3
            obtain ⟨xs', k1, k2⟩ := h.ofLive (n := xs.length + n) (l := (⟨b, xs.length⟩ : Ptr).add n) rfl
              (hst2.upd hs3 (fun i hi => by have := hm3 b i; have := hst2.beyond i hi; grind)
                (fun c hc i => by have := hm3 c i; grind)) (by omega)
              (fun i => by
                have h1 := hm3 b i
                have h2 := hc2 i
                grind)
            exact ⟨xs', ⟨k1, Or.inl (hs1.trans (hs2.trans hs3)).next, by simp⟩, by omega,
              fun _ hh => by omega, by simp⟩
        · intro hnm s2 hs2 hm2
          obtain ⟨xs', k1, k2⟩ := h.ofLive (n := xs.length) (l := (⟨b, xs.length⟩ : Ptr)) rfl
            (hst1.upd hs2 (fun i hi => by have := hm2 b i; have := hst1.beyond i hi; grind)
              (fun c hc i => by have := hm2 c i; grind)) (by omega)
            (fun i => by have h1 := hm2 b i; have h2 := hc1 i; grind)
          exact ⟨xs', ⟨by rw [h.obj]; exact k1, Or.inl (hs1.trans hs2).next, by simp⟩, by omega, fun _ hh => by omega, by simp⟩
      · rw [if_neg (by simpa [Ptr.add] using hp2)]
        unfold uninitFill
        rw [wp_bind]
        refine wp_distance rfl (by simp; omega) ?_
        rw [wp_bind]
        have hd : ((⟨b, k⟩ : Ptr).add n).off - (⟨b, xs.length⟩ : Ptr).off = k + n - xs.length := rfl
        rw [hd]
        refine wp_uninit_copy (map_value_replicate (v := v) rfl)
          (by intro a' ha'; rw [List.eq_of_mem_replicate ha']; rfl) ?_ ?_ ?_ ?_
        · intro j hj; exact hst1.inB (by simp at hj ⊢; omega)
        · intro j hj; simp only; rw [hc1]; simp
        · intro s2 hs2 ht2 hm2
          simp only [List.length_replicate] at hm2
          have hst2 : Store H s2 al ib N b cap := hst1.upd hs2
            (fun i hi => by rw [hm2]; have := hst1.beyond i hi; grind) (fun c hc i => by rw [hm2]; grind)
          have hc2 : ∀ i, s2.mem b i = if xs.length ≤ i ∧ i < k + n then some v else xs[i]? := fun i => by
            rw [hm2, hc1]; grind
          rw [wp_pure]
          unfold uninitMove
          refine wp_uninit_range (n := xs.length - k) mkOk_mv rfl (by simp; omega) ?_ ?_ ?_ ?_ ?_
          · intro i h1 h2; rw [hc2]; simp at h1 h2 ⊢; grind
          · intro j hj; exact hst2.inB (by simp; omega)
          · intro i h1 h2; simp only [Ptr.add_blk]; rw [hc2]; simp at h1 h2 ⊢; grind
          · intro s3 hs3 ht3 hm3
            have hst3 : Store H s3 al ib N b cap := hst2.upd hs3
              (fun i hi => by rw [hm3]; have := hst2.beyond i hi; grind) (fun c hc i => by rw [hm3]; grind)
            have hc3 : ∀ i, ¬ (k ≤ i ∧ i < xs.length) → s3.mem b i = (xs.take k ++ List.replicate n v ++ xs.drop k)[i]? :=
              fun i hi => by
                rw [fill_getElem? hk, hm3]; simp only [Ptr.add_blk, Ptr.add_off]; rw [hc2, hc2]
                have e : k + n ≤ i → k + (i - (k + n)) = i - n := by omega
                clear hm3 hc2 hm2 hst3 hst2 hst1 hc1 hm1 h
                grind
            have hc3k : ∀ i, k ≤ i → i < xs.length → (s3.mem b i).isSome := fun i h1 h2 => by
              rw [hm3]; simp only; rw [hc2, hc2]; grind
            unfold fillRange
            rw [wp_bind]
            refine wp_distance rfl (by simpa using hk) ?_
            rw [wp_bind]
            refine wp_assignGo_copy (map_value_replicate (v := v) rfl)
              (by intro a' ha'; rw [List.eq_of_mem_replicate ha']; rfl)
              (by intro a' ha'; rw [List.eq_of_mem_replicate ha']; intros; rfl) ?_ ?_ ?_
            · intro i h1 h2; exact hc3k i (by simpa using h1) (by simp at h2; omega)
            · intro s4 hs4 ht4 hm4
              simp only [List.length_replicate] at hm4
              rw [wp_pure]
              refine ⟨b, cap, ⟨?_, fun _ => ⟨rfl, rfl⟩, Or.inl rfl, Or.inl ?_⟩, rfl⟩
              · refine VSt.mk' rfl (by simp [Ptr.add]; omega) rfl (hst3.upd hs4 ?_ ?_) (by simp; omega) ?_ h.capLe h.nLe
                · intro i hi; rw [hm4]; have := hst3.beyond i hi; grind
                · intro c hc i; rw [hm4]; grind
                · intro i; rw [hm4]; have := hc3 i; grind
              · exact (hs1.trans (hs2.trans (hs3.trans hs4))).next
            · intro s4 hs4 hm4
              simp only [List.length_replicate] at hm4
              obtain ⟨xs', k1, k2⟩ := h.ofLive (n := xs.length + n) (l := ((⟨b, k⟩ : Ptr).add n).add (xs.length - k))
                (by simp [Ptr.add]; omega)
                (hst3.upd hs4 (fun i hi => by have := hm4 b i; have := hst3.beyond i hi; grind)
                  (fun c hc i => by have := hm4 c i; grind)) (by omega)
                (fun i => by
                  have h1 := hm4 b i
                  by_cases hi : k ≤ i ∧ i < xs.length
                  · rw [if_pos (by grind)] at h1; simp [h1]; omega
                  · rw [if_neg (by grind)] at h1; rw [h1, hc3 i hi]; simp; omega)
              exact ⟨xs', ⟨k1, Or.inl (hs1.trans (hs2.trans (hs3.trans hs4))).next, by simp⟩, by omega,
                fun _ hh => by omega, by simp⟩
          · intro hnm s3 hs3 hm3
            obtain ⟨xs', k1, k2⟩ := h.ofLive (n := k + n) (l := (⟨b, k⟩ : Ptr).add n) (by simp [Ptr.add])
              (hst2.upd hs3 (fun i hi => by have := hm3 b i; have := hst2.beyond i hi; grind)
                (fun c hc i => by have := hm3 c i; grind)) (by omega)
              (fun i => by
                have h1 := hm3 b i
                have h2 := hc2 i
                grind)
            exact ⟨xs', ⟨k1, Or.inl (hs1.trans (hs2.trans hs3)).next, by simp⟩, by omega,
              fun _ hh => by omega, by simp⟩
        · intro s2 hs2 hm2
          refine ⟨xs, ⟨?_, Or.inl (hs1.trans hs2).next, by simp⟩, by omega, fun _ _ => rfl, by simp⟩
          rw [h.obj]; exact VSt.mk' rfl rfl rfl (hst1.same hs2 hm2) h.len (fun i => by rw [hm2, hc1]) h.capLe h.nLe
    · intro s1 hs1 hm1
      refine ⟨xs, ⟨?_, Or.inl hs1.next, by simp⟩, by omega, fun _ _ => rfl, by simp⟩
      rw [h.obj]; exact VSt.mk' rfl rfl rfl (h.st.same hs1 hm1) h.len (fun i => by rw [hm1, h.cells]) h.capLe h.nLe
  · rw [if_neg hav]
    have fin : ∀ s5, (∃ xs', Kept H E ib N al b cap .elem o ⟨⟨⟨b, 0⟩, ⟨b, xs.length⟩, ⟨b, cap⟩, al⟩, s5⟩
        (xs.length + n) xs' ∧ xs'.length = xs.length ∧ (Strong E → xs' = xs)) →
        ∃ xs', Kept H E ib N al b cap .elem o ⟨⟨⟨b, 0⟩, ⟨b, xs.length⟩, ⟨b, cap⟩, al⟩, s5⟩ (xs.length + n) xs' ∧
        xs'.length ≤ xs.length + n ∧ (Strong E → cap < xs.length + n → xs' = xs) ∧
        (Exn.elem = .lengthError → E.maxSize < xs.length + n) := by
      rintro s5 ⟨xs', k1, k2, k3⟩
      exact ⟨xs', k1, by omega, fun h _ => k3 h, by simp⟩
    refine wp_calculateNewCapacity h (by omega) ?_ ?_
    · intro kk hnc hc1 hc2 hc3 hc4 hroom
      refine growStart' h rfl (tot := xs.length + n) (by omega) hc1 hc2 hroom ?_ ?_
      · intro nb c s1 g hm1 hk' hk1 hk2 ht1
        obtain rfl : c = kk := by omega
        dsimp only
        unfold uninitFillN
        refine wp_uninit_copy (map_value_replicate ((value_of_mem hm1).trans hv))
          (by intro a' ha'; rw [List.eq_of_mem_replicate ha']; exact hsrc) ?_ ?_ ?_ ?_
        · intro j hj; exact g.h2.inB (by simp at hj ⊢; omega)
        · intro j hj; exact g.new _
        · intro s2 hs2 ht2 hm2
          simp only [List.length_replicate] at hm2 ht2
          have g2 := g.write (f' := fun i => if k ≤ i ∧ i < k + n then some v else none) hs2 (fun d i => by
            rw [hm2]; have := g.new i; grind) (fun i hi => by grind)
          refine g2.step (n := k) (d0 := 0) rfl (by simp [Ptr.add]) rfl (by omega) (by omega) ?_ ?_ ?_
          · intro i _ hi; grind
          · intro s3 g3 ht3
            refine g3.step (n := xs.length - k) (d0 := k + n) (by simp [Ptr.add]) (by simp [Ptr.add]; omega)
              (by simp [Ptr.add]) (by omega) (by omega) ?_ ?_ ?_
            · intro i _ hi; grind
            · intro s4 g4 ht4
              refine g4.finish (ys := xs.take k ++ List.replicate n v ++ xs.drop k) h rfl ?_ (by simp; omega)
                (by simp [Ptr.add]; omega) (by simp [Ptr.add]) ?_
              · intro i; grind
              · intro o' hd ht5
                exact ⟨nb, c, hd, by simp [Ptr.add]⟩
            · intro s4 g4
              rw [if_neg (by have := g.ne_null; simp [Ptr.add, Ptr.null] at *; omega)]
              refine g4.undo h (d0 := 0) (n := k + n) rfl (by simp [Ptr.add]) ?_ ?_ hk' (fin ·)
              · intro i _ hi; grind
              · intro i hi; grind
          · intro s3 g3
            rw [if_pos trivial]
            refine g3.undoN h (d0 := k) (by simp [Ptr.add]) ?_ ?_ hk' (fin ·)
            · intro i _ hi; grind
            · intro i hi; grind
        · intro s2 hs2 hm2
          rw [if_neg g.ne_null]
          exact (g.failFresh h hs2 hm2).undo h (d0 := 0) (n := 0) rfl rfl (by omega) (fun _ _ => rfl) hk' (fin ·)
      · intro o' hk
        exact ⟨xs, hk, by omega, fun _ _ => rfl, by simp⟩
    · intro hmax
      exact ⟨xs, ⟨h, Or.inl rfl, by simp⟩, by omega, fun _ _ => rfl, fun _ => hmax⟩

end Sfl
