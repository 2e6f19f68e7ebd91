import Verif.DevInsert
/-
  Correctness of the functions of devector: storage, access, removal. (Helper lemmas; the theorems about the properties
  are in PropDevector.lean.)
-/

set_option linter.unusedSimpArgs false

namespace Sfl.Devector
open Sfl
variable {α : Type} {E : Env α} {H : Heap α} {al b cap f : Nat} {o : Obj DVec α} {xs : List α}

/-- A devector object `o` with storage block `b` of capacity `cap` holds exactly the list `xs`, from slot `f` on;
everything outside its storage is the foreign memory `H`. -/
structure DSt (H : Heap α) (E : Env α) (o : Obj DVec α) (al b cap f : Nat) (xs : List α) : Prop where
  obj : o.obj = ⟨⟨b, 0⟩, ⟨b, f⟩, ⟨b, f + xs.length⟩, ⟨b, cap⟩, al⟩
  st : Store H o.m al 0 0 b cap
  fit : f + xs.length ≤ cap
  capLe : cap ≤ E.maxSize
  cells : ∀ i, o.m.mem b i = if f ≤ i then xs[i - f]? else none

theorem DSt.live (h : DSt H E o al b cap f xs) (i : Nat) : (o.m.mem b i).isSome ↔ f ≤ i ∧ i < f + xs.length := by
  rw [h.cells i]
  split
  · simp; omega
  · simp; omega

theorem DSt.row (h : DSt H E o al b cap f xs) :
    Row H o.m al b cap o.m.next (fun i => f ≤ i ∧ i < f + xs.length) := ⟨h.st, rfl, h.live⟩

theorem DSt.cell (h : DSt H E o al b cap f xs) (i : Nat) : o.m.mem b (f + i) = xs[i]? := by
  rw [h.cells, if_pos (by omega), Nat.add_sub_cancel_left]

/-- Slots `[f, l)` hold elements: the container holds some list. -/
theorem Row.dst {s : St α} {nx l : Nat} {v : DVec} (h : Row H s al b cap nx (fun i => f ≤ i ∧ i < l)) (hl : f ≤ l)
    (hc : l ≤ cap) (hm : cap ≤ E.maxSize) (hv : v = ⟨⟨b, 0⟩, ⟨b, f⟩, ⟨b, l⟩, ⟨b, cap⟩, al⟩) :
    ∃ ys, DSt H E ⟨v, s⟩ al b cap f ys ∧ ys.length = l - f ∧ ∀ i, s.mem b (f + i) = ys[i]? := by
  obtain ⟨ys, h1, h2⟩ := exists_list (f := fun i => s.mem b (f + i)) (l - f)
    (fun i => by rw [h.live]; omega)
  refine ⟨ys, ⟨?_, h.st, by omega, hm, ?_⟩, h1, h2⟩
  · rw [hv, h1]; simp; omega
  · intro i
    split
    · have := h2 (i - f)
      rw [show f + (i - f) = i by omega] at this
      exact this
    · exact h.raw (by omega)

/-- The container holds the list that has been determined. -/
theorem Row.dst' {s : St α} {nx l : Nat} {v : DVec} {ys : List α} (h : Row H s al b cap nx (fun i => f ≤ i ∧ i < l))
    (hc : l ≤ cap) (hm : cap ≤ E.maxSize) (hv : v = ⟨⟨b, 0⟩, ⟨b, f⟩, ⟨b, l⟩, ⟨b, cap⟩, al⟩)
    (hl : l = f + ys.length) (hy : ∀ i, f ≤ i → i < l → s.mem b i = ys[i - f]?) :
    DSt H E ⟨v, s⟩ al b cap f ys := by
  refine ⟨by rw [hv, hl], h.st, by omega, hm, ?_⟩
  intro i
  split
  · by_cases hi : i < l
    · exact hy i (by omega) hi
    · rw [h.raw (by omega), List.getElem?_eq_none (by omega)]
  · exact h.raw (by omega)

section obs
variable {β : Type} {X : Exn → Obj DVec α → Prop}

theorem wp_size {Q : Nat → Obj DVec α → Prop} (h : DSt H E o al b cap f xs) (hQ : Q xs.length o) : wp size Q X o := by
  unfold size
  rw [wp_bind, wp_getObj, h.obj]
  refine wp_distance rfl (by simp) ?_
  simpa using hQ

theorem wp_capacity {Q : Nat → Obj DVec α → Prop} (h : DSt H E o al b cap f xs) (hQ : Q cap o) : wp capacity Q X o := by
  unfold capacity
  rw [wp_bind, wp_getObj, h.obj]
  refine wp_distance rfl (by simp) ?_
  simpa using hQ

theorem wp_availableFront {Q : Nat → Obj DVec α → Prop} (h : DSt H E o al b cap f xs) (hQ : Q f o) :
    wp availableFront Q X o := by
  unfold availableFront
  rw [wp_bind, wp_getObj, h.obj]
  refine wp_distance rfl (by simp) ?_
  simpa using hQ

theorem wp_availableBack {Q : Nat → Obj DVec α → Prop} (h : DSt H E o al b cap f xs)
    (hQ : Q (cap - (f + xs.length)) o) : wp availableBack Q X o := by
  unfold availableBack
  rw [wp_bind, wp_getObj, h.obj]
  refine wp_distance rfl (by simpa using h.fit) ?_
  simpa using hQ

end obs

theorem sizeSub_of_le {a c : Nat} (h : c ≤ a) : sizeSub a c = a - c := by unfold sizeSub; rw [if_pos h]

/-! ### Replacing the storage -/

theorem wp_replaceStorage {nb ncap : Nat} {fi l e : Ptr} {n : Nat}
    {Q : Unit → Obj DVec α → Prop} {X : Exn → Obj DVec α → Prop}
    (ho : o.obj = ⟨⟨b, 0⟩, ⟨b, f⟩, ⟨b, f + n⟩, ⟨b, cap⟩, al⟩)
    (h : Store2 H o.m al 0 0 b cap nb ncap)
    (hl : ∀ i, (o.m.mem b i).isSome ↔ f ≤ i ∧ i < f + n)
    (hQ : ∀ s', Store H s' al 0 0 nb ncap → (∀ i, s'.mem nb i = o.m.mem nb i) →
      Q () ⟨⟨⟨nb, 0⟩, fi, l, e, al⟩, s'⟩) :
    wp (replaceStorage ⟨nb, 0⟩ fi l e) Q X o := by
  have hne := h.ne
  unfold replaceStorage
  simp only [wp_bind, wp_getObj, wp_lift, wp_setObj, ho]
  refine wp_destroyRange rfl (by simp) (fun i h1 hi => (hl i).mpr ⟨h1, hi⟩) ?_
  intro s1 hs1 ht1 hm1
  have h1 : Store2 H s1 al 0 0 b cap nb ncap := by
    refine h.upd hs1 ?_ ?_ ?_
    · intro i hi; rw [hm1]; have := h.beyond i hi; grind
    · intro i hi; rw [hm1]; have := h.nbeyond i hi; grind
    · intro c h1 h2 i; rw [hm1]; grind
  refine wp_distance rfl (by simp) ?_
  simp only [Nat.sub_zero]
  have hd := h1.commit (X := fun e s' => X e ⟨⟨⟨b, 0⟩, ⟨b, f⟩, ⟨b, f + n⟩, ⟨b, cap⟩, al⟩, s'⟩)
    (Q := fun _ s' => Q () ⟨⟨⟨nb, 0⟩, fi, l, e, al⟩, s'⟩) ?_ ?_
  · unfold freeUnless at hd
    by_cases hb : b = 0
    · subst hb
      refine wp_deallocate_null ?_
      simpa [wp_pure] using hd
    · rw [if_pos (by simpa using hb)] at hd; exact hd
  · intro i; rw [hm1]; have := hl i
    cases hh : o.m.mem b i <;> grind
  · intro s2 hm2 hn2 ht2 hst
    refine hQ s2 hst ?_
    intro i; rw [hm2, hm1]; grind

theorem drop0 {s : St α} {nb n : Nat} {Q : Unit → St α → Prop} {X : Exn → St α → Prop}
    (h : Store2 H s al 0 0 b cap nb n) (hraw : ∀ i, i < n → s.mem nb i = none)
    (hQ : ∀ s', s'.mem = s.mem → s'.next = s.next → s'.tick = s.tick → Store H s' al 0 0 b cap → Q () s') :
    wp (deallocate al ⟨nb, 0⟩ n) Q X s := by
  have hd := h.drop (X := X) (fun _ => rfl) hraw hQ
  unfold freeUnless at hd
  by_cases hb : nb = 0
  · subst hb
    refine wp_deallocate_null ?_
    simpa [wp_pure] using hd
  · rw [if_pos (by simpa using hb)] at hd; exact hd

/-- `relocate`: the elements are in a storage of `n` slots, from slot `off` on. -/
theorem relocate_spec {n off : Nat} (h : DSt H E o al b cap f xs) (hn : off + xs.length ≤ n) (hm : n ≤ E.maxSize)
    (h0 : 0 < n ∨ 0 < cap) :
    wp (relocate E n off)
      (fun _ o' => ∃ b', DSt H E o' al b' n off xs)
      (fun e o' => ∃ xs', DSt H E o' al b cap f xs' ∧ xs'.length = xs.length ∧ (Strong E → xs' = xs) ∧
        e ≠ .lengthError) o := by
  have hfit := h.fit
  have hobj := h.obj
  have fin : ∀ nb s1, Store2 H s1 al 0 0 b cap nb n → s1.mem = o.m.mem → (∀ i, s1.mem nb i = none) →
      wp (do
        let newLast ← M.tryCatch (lift (uninitMoveIf E ⟨b, f⟩ ⟨b, f + xs.length⟩ ⟨nb, off⟩)) (fun e => do
          lift (deallocate al ⟨nb, 0⟩ n)
          M.throw e)
        replaceStorage ⟨nb, 0⟩ ⟨nb, off⟩ newLast ⟨nb, n⟩)
      (fun _ o' => ∃ b', DSt H E o' al b' n off xs)
      (fun e o' => ∃ xs', DSt H E o' al b cap f xs' ∧ xs'.length = xs.length ∧ (Strong E → xs' = xs) ∧
        e ≠ .lengthError) ⟨o.obj, s1⟩ := by
    intro nb s1 h2 hm1 hr
    rw [wp_bind, wp_tryCatch, wp_lift]
    refine h2.moveIf (i0 := f) (n := xs.length) (d0 := off) rfl rfl rfl ?_ (fun i _ _ => hr i) hn ?_ ?_
    · intro i k1 k2; rw [hm1]; exact (h.live i).mpr ⟨k1, k2⟩
    · intro s2 h3 _ _ hnew hlive _ _
      refine wp_replaceStorage (n := xs.length) hobj h3 ?_ ?_
      · intro i; dsimp only; rw [hlive, hm1]; exact h.live i
      · intro s3 hst hmem
        refine ⟨nb, rfl, hst, hn, hm, ?_⟩
        intro i
        dsimp only at hmem ⊢
        rw [hmem, hnew, hm1]
        have := h.cell (i - off)
        by_cases hi : off ≤ i
        · rw [if_pos hi]
          by_cases hi2 : i < off + xs.length
          · rw [if_pos ⟨hi, hi2⟩, this]
          · rw [if_neg (by omega), List.getElem?_eq_none (by omega), ← hm1]; exact hr i
        · rw [if_neg (by omega), if_neg hi, ← hm1]; exact hr i
    · intro s2 h3 _ hnb _ hlive hstr
      simp only [wp_bind, wp_lift, wp_throw]
      refine drop0 h3 (fun i _ => by rw [hnb]; exact hr i) ?_
      · intro s3 hm3 _ _ hst
        have hrow : Row H s3 al b cap s3.next (fun i => f ≤ i ∧ i < f + xs.length) :=
          ⟨hst, rfl, fun i => by rw [hm3, hlive, hm1]; exact h.live i⟩
        obtain ⟨ys, k1, k2, k3⟩ := hrow.dst (E := E) (v := o.obj) (by omega) hfit h.capLe hobj
        refine ⟨ys, k1, by omega, fun hs => ?_, by simp⟩
        refine List.ext_getElem? (fun i => ?_)
        rw [← k3 i, hm3, hstr hs, hm1, h.cell]
  unfold relocate
  rw [wp_bind, wp_getObj, wp_bind, wp_lift]
  rw [hobj] at fin ⊢
  refine wp_allocate h.st.wf ?_ ?_ ?_
  · intro hz
    subst hz
    have hb : b ≠ 0 := by
      intro hb
      have := h.st.wf.blk_zero
      rcases h.st.own with ⟨_, k⟩ | ⟨_, k⟩ | ⟨_, k, _⟩
      · omega
      · omega
      · exact k hb
    obtain ⟨k1, k2⟩ := h.st.useInternal hb
    have := fin 0 o.m k1 rfl k2
    simpa [Ptr.null, Ptr.add] using this
  · intro hz s1 hm1 hnx _ hb
    obtain ⟨k1, k2⟩ := h.st.alloc hm1 hnx (ncap := n) (by omega) hb
    have := fin o.m.next s1 k1 hm1 k2
    simpa [Ptr.add] using this
  · intro _ s1 hs1 hm1
    refine ⟨xs, ⟨by simp, h.st.same hs1 hm1, h.fit, h.capLe, fun i => ?_⟩, rfl, fun _ => rfl, by simp⟩
    dsimp only; rw [hm1]; exact h.cells i

/-- What a failed growth leaves behind. -/
def Kept (H : Heap α) (E : Env α) (al b cap f : Nat) (xs : List α) (P : Prop) (e : Exn) (o' : Obj DVec α) : Prop :=
  ∃ xs', DSt H E o' al b cap f xs' ∧ xs'.length = xs.length ∧ (Strong E → xs' = xs) ∧ (e = .lengthError → P)

theorem reserveFront_spec {n : Nat} (h : DSt H E o al b cap f xs) :
    wp (reserveFront E n)
      (fun _ o' => ∃ b' cap' f', DSt H E o' al b' cap' f' xs ∧ n ≤ f' + xs.length ∧
        cap' - (f' + xs.length) = cap - (f + xs.length) ∧ (n ≤ f + xs.length → o' = o))
      (Kept H E al b cap f xs (E.maxSize < n + (cap - (f + xs.length)))) o := by
  have hfit := h.fit
  have hcl := h.capLe
  unfold reserveFront
  rw [wp_bind]
  refine wp_availableBack h ?_
  rw [wp_ite, sizeSub_of_le (by omega)]
  split
  · rw [wp_throw]
    exact ⟨xs, h, rfl, fun _ => rfl, fun _ => by omega⟩
  · rw [wp_bind]
    refine wp_size h ?_
    rw [wp_bind]
    refine wp_availableFront h ?_
    rw [wp_ite]
    split
    · rw [wp_bind, wp_getObj, wp_bind]
      refine (?_ : wp _ _ _ o)
      rw [h.obj]
      refine wp_distance rfl (by simp; omega) ?_
      simp only
      refine wp_mono (relocate_spec h (by omega) (by omega) (by omega)) ?_ ?_
      · rintro _ o' ⟨b', k⟩
        exact ⟨b', _, _, k, by omega, by omega, by omega⟩
      · rintro e o' ⟨xs', k1, k2, k3, k4⟩
        exact ⟨xs', k1, k2, k3, fun h => absurd h k4⟩
    · rw [wp_pure]
      exact ⟨b, cap, f, h, by omega, rfl, fun _ => rfl⟩

theorem reserveBack_spec {n : Nat} (h : DSt H E o al b cap f xs) :
    wp (reserveBack E n)
      (fun _ o' => ∃ b' cap', DSt H E o' al b' cap' f xs ∧ f + n ≤ cap' ∧ (n ≤ cap - f → o' = o))
      (Kept H E al b cap f xs (E.maxSize < n + f)) o := by
  have hfit := h.fit
  have hcl := h.capLe
  unfold reserveBack
  rw [wp_bind]
  refine wp_availableFront h ?_
  rw [wp_ite, sizeSub_of_le (by omega)]
  split
  · rw [wp_throw]
    exact ⟨xs, h, rfl, fun _ => rfl, fun _ => by omega⟩
  · rw [wp_bind]
    refine wp_size h ?_
    rw [wp_bind]
    refine wp_availableBack h ?_
    rw [wp_ite]
    split
    · refine wp_mono (relocate_spec h (by omega) (by omega) (by omega)) ?_ ?_
      · rintro _ o' ⟨b', k⟩
        exact ⟨b', _, k, by omega, by omega⟩
      · rintro e o' ⟨xs', k1, k2, k3, k4⟩
        exact ⟨xs', k1, k2, k3, fun h => absurd h k4⟩
    · rw [wp_pure]
      exact ⟨b, cap, h, by omega, fun _ => rfl⟩

theorem shrinkToFit_spec (h : DSt H E o al b cap f xs) :
    wp (shrinkToFit E)
      (fun _ o' => ∃ b', DSt H E o' al b' xs.length 0 xs)
      (Kept H E al b cap f xs False) o := by
  have hfit := h.fit
  have hcl := h.capLe
  unfold shrinkToFit
  rw [wp_bind]
  refine wp_size h ?_
  rw [wp_bind]
  refine wp_capacity h ?_
  rw [wp_ite]
  split
  · refine wp_mono (relocate_spec h (by omega) (by omega) (by omega)) ?_ ?_
    · rintro _ o' ⟨b', k⟩
      exact ⟨b', k⟩
    · rintro e o' ⟨xs', k1, k2, k3, k4⟩
      exact ⟨xs', k1, k2, k3, fun h => absurd h k4⟩
  · rw [wp_pure]
    obtain rfl : f = 0 := by omega
    obtain rfl : cap = xs.length := by omega
    exact ⟨b, h⟩

theorem growStorageFront_spec {n : Nat} (h : DSt H E o al b cap f xs) (hn : 0 < n) :
    wp (growStorageFront E n)
      (fun _ o' => ∃ b', DSt H E o' al b' (cap + n) (f + n) xs)
      (Kept H E al b cap f xs (E.maxSize < cap + n)) o := by
  have hfit := h.fit
  have hcl := h.capLe
  unfold growStorageFront
  rw [wp_bind]
  refine wp_capacity h ?_
  rw [wp_ite, sizeSub_of_le (by omega)]
  split
  · rw [wp_throw]
    exact ⟨xs, h, rfl, fun _ => rfl, fun _ => by omega⟩
  · rw [wp_bind, wp_getObj, wp_bind]
    refine (?_ : wp _ _ _ o)
    rw [h.obj]
    refine wp_distance rfl (by simp; omega) ?_
    simp only
    refine wp_mono (relocate_spec h (by omega) (by omega) (by omega)) ?_ ?_
    · rintro _ o' ⟨b', k⟩
      rw [show cap + n - (cap - f) = f + n by omega] at k
      exact ⟨b', k⟩
    · rintro e o' ⟨xs', k1, k2, k3, k4⟩
      exact ⟨xs', k1, k2, k3, fun h => absurd h k4⟩

theorem growStorageBack_spec {n : Nat} (h : DSt H E o al b cap f xs) (hn : 0 < n) :
    wp (growStorageBack E n)
      (fun _ o' => ∃ b', DSt H E o' al b' (cap + n) f xs)
      (Kept H E al b cap f xs (E.maxSize < cap + n)) o := by
  have hfit := h.fit
  have hcl := h.capLe
  unfold growStorageBack
  rw [wp_bind]
  refine wp_capacity h ?_
  rw [wp_ite, sizeSub_of_le (by omega)]
  split
  · rw [wp_throw]
    exact ⟨xs, h, rfl, fun _ => rfl, fun _ => by omega⟩
  · rw [wp_bind]
    refine wp_availableFront h ?_
    refine wp_mono (relocate_spec h (by omega) (by omega) (by omega)) ?_ ?_
    · rintro _ o' ⟨b', k⟩
      exact ⟨b', k⟩
    · rintro e o' ⟨xs', k1, k2, k3, k4⟩
      exact ⟨xs', k1, k2, k3, fun h => absurd h k4⟩

end Sfl.Devector
