import Verif.SVSpec2
/-
  Correctness of insert(range), reserve, shrink_to_fit, pop_back, erase, clear (small_vector and vector).
-/

set_option linter.unusedSimpArgs false

namespace Sfl
variable {α : Type} {E : Env α} {H : Heap α} {al ib N b cap nb ncap : Nat}

theorem mem_map_val_src {ys : List α} : ∀ a ∈ ys.map Arg.val, a.src E = none := by
  intro a ha; simp at ha; obtain ⟨_, _, rfl⟩ := ha; rfl

theorem mem_map_val_stable {ys : List α} {P : St α → Prop} {s : St α} :
    ∀ a ∈ ys.map Arg.val, ∀ s' : St α, P s' → a.value s' = a.value s := by
  intro a ha; simp at ha; obtain ⟨_, _, rfl⟩ := ha; intros; rfl

theorem insertRange_spec {o : Obj Vec α} {xs ys : List α} {k : Nat}
    (h : VSt H E ib N o al b cap xs) (hk : k ≤ xs.length) :
    wp (SmallVector.insertRange E ib N ⟨b, k⟩ ys)
      (fun p o' => ∃ b' cap', Done H E ib N al b cap o o' b' cap' (xs.take k ++ ys ++ xs.drop k) ∧
        p = ⟨b', k⟩)
      (fun e o' => ∃ xs', Kept H E ib N al b cap e o o' (xs.length + ys.length) xs' ∧
        xs'.length ≤ xs.length + ys.length ∧
        (Strong E → E.nothrowMoveCtor = false → cap < xs.length + ys.length → xs' = xs) ∧
        (e = .lengthError → E.maxSize < xs.length + ys.length))
      o := by
  have hlen := h.len
  unfold SmallVector.insertRange Vector.available
  simp only [wp_bind, wp_getObj, wp_ite, wp_lift, wp_setObj, wp_pure, wp_tryCatch, wp_throw, wp_assert]
  rw [h.obj]
  refine ⟨⟨rfl, by simp, by simpa using hk⟩, ?_⟩
  have hp : (⟨b, 0⟩ : Ptr).add (k - 0) = ⟨b, k⟩ := by simp [Ptr.add]
  dsimp only
  rw [hp]
  by_cases hn0 : ys = []
  · rw [if_pos hn0]
    subst hn0
    refine ⟨b, cap, ?_, rfl⟩
    have : xs.take k ++ [] ++ xs.drop k = xs := by simp
    rw [this]
    exact ⟨h, fun _ => ⟨rfl, rfl⟩, Or.inl rfl, Or.inl rfl⟩
  rw [if_neg hn0]
  refine wp_distance rfl (by simpa using hlen) ?_
  dsimp only
  generalize hn : ys.length = n at *
  have hnpos : 0 < n := by
    cases ys with
    | nil => exact absurd rfl hn0
    | cons _ _ => simp at hn; omega
  by_cases hav : cap - xs.length ≥ n
  · rw [if_pos hav]
    have hc1 := h.cells
    by_cases hp2 : k + n ≤ xs.length
    · rw [if_pos (by simpa [Ptr.add] using hp2)]
      have hsub : (⟨b, xs.length⟩ : Ptr).sub n = ⟨b, xs.length - n⟩ := Ptr.sub_of_le (by simp; omega)
      rw [hsub]
      unfold uninitMove
      refine wp_uninit_range (n := n) mkOk_mv rfl (by simp; omega) ?_ ?_ ?_ ?_ ?_
      · intro i h1 h2; rw [hc1]; simp at h2 ⊢; exact h2
      · intro j hj; exact h.st.inB (by simp; omega)
      · intro i h1 h2; rw [hc1]; simp at h1 ⊢; exact h1
      · intro s2 hs2 ht2 hm2
        have hst2 : Store H s2 al ib N b cap := h.st.upd hs2
          (fun i hi => by rw [hm2]; have := h.st.beyond i hi; grind) (fun c hc i => by rw [hm2]; grind)
        have hc2 : ∀ i, s2.mem b i = if xs.length ≤ i ∧ i < xs.length + n then xs[i - n]?
            else if xs.length - n ≤ i ∧ i < xs.length then (xs[i]?).map E.moved else xs[i]? := fun i => by
          rw [hm2]; simp only; rw [hc1, hc1]; grind
        refine wp_moveBackward (n := xs.length - n - k) (q := ⟨b, k + n⟩) rfl (by simp; omega)
          (by simp [Ptr.add]; omega) ?_ ?_ (Or.inr (Or.inl (by simp; omega))) ?_ ?_
        · intro i _ hi; simp at hi ⊢; rw [hc2]; grind
        · intro i _ hi; simp at hi ⊢; rw [hc2]; grind
        · intro s3 hs3 ht3 hm3
          have hst3 : Store H s3 al ib N b cap := hst2.upd hs3
            (fun i hi => by rw [hm3]; have := hst2.beyond i hi; grind) (fun c hc i => by rw [hm3]; grind)
          have hc3 : ∀ i, ¬ (k ≤ i ∧ i < k + n) → s3.mem b i = (xs.take k ++ ys ++ xs.drop k)[i]? :=
            fun i hi => by
              rw [insert_getElem? hk, hm3, hn]; simp only [Ptr.add_blk, Ptr.add_off]; rw [hc2, hc2]
              have e : k + n ≤ i → k + (i - (k + n)) = i - n := by omega
              clear hm3 hc2 hm2 hst3 hst2 hc1 h
              grind
          have hc3k : ∀ i, k ≤ i → i < k + n → (s3.mem b i).isSome := fun i h1 h2 => by
            rw [hm3]; simp only; rw [hc2, hc2]; grind
          unfold copyList
          refine wp_assignGo_copy (map_value_val ys) mem_map_val_src
            (fun a ha s' h' => mem_map_val_stable (P := fun _ => True) a ha s' trivial) ?_ ?_ ?_
          · intro i h1 h2; exact hc3k i (by simpa using h1) (by simp at h2; omega)
          · intro s4 hs4 ht4 hm4
            simp only [List.length_map, hn] at hm4
            refine ⟨b, cap, ⟨?_, fun _ => ⟨rfl, rfl⟩, Or.inl rfl, Or.inl ?_⟩, rfl⟩
            · refine VSt.mk' rfl (by simp [Ptr.add]; omega) rfl (hst3.upd hs4 ?_ ?_) (by simp; omega) ?_ h.capLe h.nLe
              · intro i hi; rw [hm4]; have := hst3.beyond i hi; grind
              · intro c hc i; rw [hm4]; grind
              · intro i; rw [hm4]
                by_cases hi : k ≤ i ∧ i < k + n
                · rw [if_pos (by grind), insert_getElem? hk]; grind
                · rw [if_neg (by grind)]; exact hc3 i hi
            · exact (hs2.trans (hs3.trans hs4)).next
          · intro s4 hs4 hm4
            simp only [List.length_map, hn] at hm4
            obtain ⟨xs', k1, k2⟩ := h.ofLive (n := xs.length + n) (l := (⟨b, xs.length⟩ : Ptr).add n) rfl
              (hst3.upd hs4 (fun i hi => by have := hm4 b i; have := hst3.beyond i hi; grind)
                (fun c hc i => by have := hm4 c i; grind)) (by omega)
              (fun i => by
                have h1 := hm4 b i
                by_cases hi : k ≤ i ∧ i < k + n
                · rw [if_pos (by grind)] at h1; simp [h1]; omega
                · rw [if_neg (by grind)] at h1; rw [h1, hc3 i hi]; simp; omega)
            exact ⟨xs', ⟨k1, Or.inl (hs2.trans (hs3.trans hs4)).next, by simp⟩, by omega,
              fun _ _ hh => by omega, by simp⟩
        · intro hnm s3 hs3 hm3
          obtain ⟨xs', k1, k2⟩ := h.ofLive (n := xs.length + n) (l := (⟨b, xs.length⟩ : Ptr).add n) rfl
            (hst2.upd hs3 (fun i hi => by have := hm3 b i; have := hst2.beyond i hi; grind)
              (fun c hc i => by have := hm3 c i; grind)) (by omega)
            (fun i => by
              have h1 := hm3 b i
              have h2 := hc2 i
              grind)
          exact ⟨xs', ⟨k1, Or.inl (hs2.trans hs3).next, by simp⟩, by omega,
            fun _ _ hh => by omega, by simp⟩
      · intro hnm s2 hs2 hm2
        obtain ⟨xs', k1, k2⟩ := h.ofLive (n := xs.length) (l := (⟨b, xs.length⟩ : Ptr)) rfl
          (h.st.upd hs2 (fun i hi => by have := hm2 b i; have := h.st.beyond i hi; grind)
            (fun c hc i => by have := hm2 c i; grind)) (by omega)
          (fun i => by have h1 := hm2 b i; have h2 := hc1 i; grind)
        exact ⟨xs', ⟨by rw [h.obj]; exact k1, Or.inl hs2.next, by simp⟩, by omega, fun _ _ hh => by omega, by simp⟩
    · rw [if_neg (by simpa [Ptr.add] using hp2)]
      refine wp_distance rfl (by simpa using hk) ?_
      dsimp only
      unfold uninitCopyList
      have hdl : (ys.drop (xs.length - k)).length = k + n - xs.length := by simp; omega
      refine wp_uninit_copy (map_value_val _) mem_map_val_src ?_ ?_ ?_ ?_
      · intro j hj; exact h.st.inB (by simp at hj ⊢; omega)
      · intro j hj; simp only; rw [hc1]; simp
      · intro s2 hs2 ht2 hm2
        simp only [List.length_map, hdl] at hm2
        have hst2 : Store H s2 al ib N b cap := h.st.upd hs2
          (fun i hi => by rw [hm2]; have := h.st.beyond i hi; grind) (fun c hc i => by rw [hm2]; grind)
        have hc2 : ∀ i, s2.mem b i = if xs.length ≤ i ∧ i < k + n then ys[i - k]? else xs[i]? := fun i => by
          rw [hm2, hc1]
          have e : xs.length ≤ i → xs.length - k + (i - xs.length) = i - k := by omega
          grind
        have hl2 : (⟨b, xs.length⟩ : Ptr).add (List.map Arg.val (ys.drop (xs.length - k))).length = ⟨b, k + n⟩ := by
          simp only [List.length_map, hdl]; simp [Ptr.add]; omega
        rw [hl2]
        unfold uninitMove
        refine wp_uninit_range (n := xs.length - k) mkOk_mv rfl (by simp; omega) ?_ ?_ ?_ ?_ ?_
        · intro i h1 h2; rw [hc2]; simp at h1 h2 ⊢; grind
        · intro j hj; exact hst2.inB (by simp; omega)
        · intro i h1 h2; simp only [Ptr.add_blk]; rw [hc2]; simp at h1 h2 ⊢; grind
        · intro s3 hs3 ht3 hm3
          have hst3 : Store H s3 al ib N b cap := hst2.upd hs3
            (fun i hi => by rw [hm3]; have := hst2.beyond i hi; grind) (fun c hc i => by rw [hm3]; grind)
          have hc3 : ∀ i, ¬ (k ≤ i ∧ i < xs.length) → s3.mem b i = (xs.take k ++ ys ++ xs.drop k)[i]? :=
            fun i hi => by
              rw [insert_getElem? hk, hm3, hn]; simp only [Ptr.add_blk, Ptr.add_off]; rw [hc2, hc2]
              have e : k + n ≤ i → k + (i - (k + n)) = i - n := by omega
              clear hm3 hc2 hm2 hst3 hst2 hc1 h
              grind
          have hc3k : ∀ i, k ≤ i → i < xs.length → (s3.mem b i).isSome := fun i h1 h2 => by
            rw [hm3]; simp only; rw [hc2, hc2]; grind
          unfold copyList
          have htl : (ys.take (xs.length - k)).length = xs.length - k := by simp; omega
          refine wp_assignGo_copy (map_value_val _) mem_map_val_src
            (fun a ha s' h' => mem_map_val_stable (P := fun _ => True) a ha s' trivial) ?_ ?_ ?_
          · intro i h1 h2; exact hc3k i (by simpa using h1) (by simp at h2; omega)
          · intro s4 hs4 ht4 hm4
            simp only [List.length_map, htl] at hm4
            refine ⟨b, cap, ⟨?_, fun _ => ⟨rfl, rfl⟩, Or.inl rfl, Or.inl ?_⟩, rfl⟩
            · refine VSt.mk' rfl (by simp [Ptr.add]; omega) rfl (hst3.upd hs4 ?_ ?_) (by simp; omega) ?_ h.capLe h.nLe
              · intro i hi; rw [hm4]; have := hst3.beyond i hi; grind
              · intro c hc i; rw [hm4]; grind
              · intro i; rw [hm4]
                by_cases hi : k ≤ i ∧ i < xs.length
                · rw [if_pos (by grind), insert_getElem? hk]; grind
                · rw [if_neg (by grind)]; exact hc3 i hi
            · exact (hs2.trans (hs3.trans hs4)).next
          · intro s4 hs4 hm4
            simp only [List.length_map, htl] at hm4
            obtain ⟨xs', k1, k2⟩ := h.ofLive (n := xs.length + n) (l := (⟨b, k + n⟩ : Ptr).add (xs.length - k))
              (by simp [Ptr.add]; omega)
              (hst3.upd hs4 (fun i hi => by have := hm4 b i; have := hst3.beyond i hi; grind)
                (fun c hc i => by have := hm4 c i; grind)) (by omega)
              (fun i => by
                have h1 := hm4 b i
                by_cases hi : k ≤ i ∧ i < xs.length
                · rw [if_pos (by grind)] at h1; simp [h1]; omega
                · rw [if_neg (by grind)] at h1; rw [h1, hc3 i hi]; simp; omega)
            exact ⟨xs', ⟨k1, Or.inl (hs2.trans (hs3.trans hs4)).next, by simp⟩, by omega,
              fun _ _ hh => by omega, by simp⟩
        · intro hnm s3 hs3 hm3
          obtain ⟨xs', k1, k2⟩ := h.ofLive (n := k + n) (l := ⟨b, k + n⟩) rfl
            (hst2.upd hs3 (fun i hi => by have := hm3 b i; have := hst2.beyond i hi; grind)
              (fun c hc i => by have := hm3 c i; grind)) (by omega)
            (fun i => by
              have h1 := hm3 b i
              have h2 := hc2 i
              grind)
          exact ⟨xs', ⟨k1, Or.inl (hs2.trans hs3).next, by simp⟩, by omega,
            fun _ _ hh => by omega, by simp⟩
      · intro s2 hs2 hm2
        refine ⟨xs, ⟨?_, Or.inl hs2.next, by simp⟩, by omega, fun _ _ _ => rfl, by simp⟩
        rw [h.obj]; exact VSt.mk' rfl rfl rfl (h.st.same hs2 hm2) h.len (fun i => by rw [hm2, hc1]) h.capLe h.nLe
  · rw [if_neg hav]
    have fin : ∀ s5, (∃ xs', Kept H E ib N al b cap .elem o ⟨⟨⟨b, 0⟩, ⟨b, xs.length⟩, ⟨b, cap⟩, al⟩, s5⟩
        (xs.length + n) xs' ∧ xs'.length = xs.length ∧ (Strong E → xs' = xs)) →
        ∃ xs', Kept H E ib N al b cap .elem o ⟨⟨⟨b, 0⟩, ⟨b, xs.length⟩, ⟨b, cap⟩, al⟩, s5⟩ (xs.length + n) xs' ∧
        xs'.length ≤ xs.length + n ∧ (Strong E → E.nothrowMoveCtor = false → cap < xs.length + n → xs' = xs) ∧
        (Exn.elem = .lengthError → E.maxSize < xs.length + n) := by
      rintro s5 ⟨xs', k1, k2, k3⟩
      exact ⟨xs', k1, by omega, fun h _ _ => k3 h, by simp⟩
    refine wp_calculateNewCapacity h (by omega) ?_ ?_
    · intro kk hnc hc1 hc2 hc3 hc4 hroom
      refine growStart' h rfl (tot := xs.length + n) (by omega) hc1 hc2 hroom ?_ ?_
      · intro nb c s1 g hm1 hk' hk1 hk2 ht1
        obtain rfl : c = kk := by omega
        dsimp only
        refine g.step (n := k) (d0 := 0) rfl (by simp [Ptr.add]) rfl (by omega) (by omega) ?_ ?_ ?_
        · intro i _ hi; rfl
        · intro s2 g2 ht2
          unfold uninitCopyList
          refine wp_uninit_copy (map_value_val ys) mem_map_val_src ?_ ?_ ?_ ?_
          · intro j hj; exact g2.h2.inB (by simp at hj ⊢; omega)
          · intro j hj; simp only; rw [g2.new]; grind
          · intro s3 hs3 ht3 hm3
            simp only [List.length_map, hn] at hm3 ht3
            have g3 := g2.write (f' := fun i => if i < k then xs[i]? else if i < k + n then ys[i - k]? else none) hs3
              (fun d i => by rw [hm3]; have := g2.new i; grind) (fun i hi => by grind)
            refine g3.step (n := xs.length - k) (d0 := k + n) (by simp [Ptr.add]) (by simp [Ptr.add]; omega)
              (by simp [Ptr.add, hn]) (by omega) (by omega) ?_ ?_ ?_
            · intro i _ hi; grind
            · intro s4 g4 ht4
              refine g4.finish (ys := xs.take k ++ ys ++ xs.drop k) h rfl ?_ (by simp; omega)
                (by simp [Ptr.add]; omega) (by simp [Ptr.add]) ?_
              · intro i; rw [insert_getElem? hk, hn]; grind
              · intro o' hd ht5
                exact ⟨nb, c, hd, by simp [Ptr.add]⟩
            · intro s4 g4
              refine g4.undo h (d0 := 0) (n := k + n) rfl (by simp [Ptr.add, hn]) ?_ ?_ hk' (fin ·)
              · intro i _ hi; grind
              · intro i hi; grind
          · intro s3 hs3 hm3
            refine (g2.h2.upd hs3 (fun i hi => by rw [hm3]; exact g2.h2.beyond i hi)
                (fun i hi => by rw [hm3]; exact g2.h2.nbeyond i hi) (fun c _ _ i => by rw [hm3])).undo
                (d0 := 0) (n := k) rfl (by simp [Ptr.add]) ?_ ?_ hk' ?_
            · intro i _ hi; rw [hm3, g2.new]; grind
            · intro i hi; rw [hm3, g2.new]; grind
            · intro s5 hm5 hn5 hst5
              obtain ⟨xs', k1, k2⟩ := h.ofLive (n := xs.length) (l := ⟨b, xs.length⟩) rfl hst5 h.len
                (fun i => by rw [hm5, hm3]; exact g2.live i)
              refine ⟨xs', ⟨k1, ?_, by simp⟩, by omega, ?_, by simp⟩
              · show s5.next = _ ∨ _
                rw [hn5, hs3.next]; exact g2.nx
              · intro hE hnm _
                refine List.ext_getElem? fun i => ?_
                rw [← k1.cells, ← h.cells]
                show s5.mem b i = _
                rw [hm5, hm3, g2.strong hnm hE]
        · intro s2 g2
          exact g2.undo h (d0 := 0) (n := 0) rfl rfl (by omega) (fun _ _ => rfl) hk' (fin ·)
      · intro o' hk
        exact ⟨xs, hk, by omega, fun _ _ _ => rfl, by simp⟩
    · intro hmax
      exact ⟨xs, ⟨h, Or.inl rfl, by simp⟩, by omega, fun _ _ _ => rfl, fun _ => hmax⟩

end Sfl
