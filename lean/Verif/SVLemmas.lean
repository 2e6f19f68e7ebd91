import Verif.SmallVector
/-
  Building blocks for the correctness proofs of small_vector (and vector): moving elements to a new
  storage, cleaning up after an exception, replacing the storage.
-/

namespace Sfl
variable {α : Type} {E : Env α} {H : Heap α} {al ib N b cap nb ncap : Nat}

/-- A vector object `o` with storage block `b` of capacity `cap` holds exactly the list `xs`; everything
outside its storage is the foreign memory `H`. -/
structure VSt (H : Heap α) (E : Env α) (ib N : Nat) (o : Obj Vec α) (al b cap : Nat) (xs : List α) : Prop where
  obj : o.obj = ⟨⟨b, 0⟩, ⟨b, xs.length⟩, ⟨b, cap⟩, al⟩
  st : Store H o.m al ib N b cap
  len : xs.length ≤ cap
  cells : ∀ i, o.m.mem b i = xs[i]?
  capLe : cap ≤ E.maxSize
  nLe : N ≤ E.maxSize

/-- Moving (if noexcept) a live part of the old storage into a raw part of the new one. -/
theorem Store2.moveIf {s : St α} {i0 n d0 : Nat} {p q d : Ptr} {Q : Ptr → St α → Prop} {X : Exn → St α → Prop}
    (h : Store2 H s al ib N b cap nb ncap)
    (hp : p = ⟨b, i0⟩) (hq : q = ⟨b, i0 + n⟩) (hd : d = ⟨nb, d0⟩)
    (hs : ∀ i, i0 ≤ i → i < i0 + n → (s.mem b i).isSome)
    (hr : ∀ i, d0 ≤ i → i < d0 + n → s.mem nb i = none)
    (hc : d0 + n ≤ ncap)
    (hQ : ∀ s', Store2 H s' al ib N b cap nb ncap → s'.next = s.next → s'.tick = s.tick + n →
      (∀ i, s'.mem nb i = if d0 ≤ i ∧ i < d0 + n then s.mem b (i0 + (i - d0)) else s.mem nb i) →
      (∀ i, (s'.mem b i).isSome = (s.mem b i).isSome) →
      (∀ i, ¬ (i0 ≤ i ∧ i < i0 + n) → s'.mem b i = s.mem b i) →
      (E.nothrowMoveCtor = false → Strong E → s'.mem b = s.mem b) → Q ⟨nb, d0 + n⟩ s')
    (hX : ∀ s', Store2 H s' al ib N b cap nb ncap → s'.next = s.next → s'.mem nb = s.mem nb →
      E.nothrowMoveCtor = false →
      (∀ i, (s'.mem b i).isSome = (s.mem b i).isSome) →
      (Strong E → s'.mem b = s.mem b) → X .elem s') :
    wp (uninitMoveIf E p q d) Q X s := by
  subst hp hq hd
  have hne := h.ne
  have hbey := h.beyond
  have hnbey := h.nbeyond
  unfold uninitMoveIf
  refine wp_uninit_range (n := n) mkOk_mvIf rfl rfl hs ?_ hr ?_ ?_
  · intro j hj; exact h.inB (by simp; omega)
  · intro s' hsm ht hm
    refine hQ s' (h.upd hsm ?_ ?_ ?_) hsm.next ht ?_ ?_ ?_ ?_
    · intro i hi; rw [hm]; have := hbey i hi; grind
    · intro i hi; rw [hm]; have := hnbey i hi; grind
    · intro c h1 h2 i; rw [hm]; grind
    · intro i; rw [hm]; grind
    · intro i; rw [hm]; grind
    · intro i hi; rw [hm]; grind
    · intro hn hst
      funext i; rw [hm]
      have : (E.nothrowMoveCtor || !E.copyable) = false := by
        rcases hst with h | h <;> simp_all
      grind
  · intro hnm s' hsm hm
    have hnm' : E.nothrowMoveCtor = false := by
      cases hE : E.nothrowMoveCtor
      · rfl
      · exact absurd (hnm (by simp [hE])) (by simp [hE])
    refine hX s' (h.upd hsm ?_ ?_ ?_) hsm.next ?_ hnm' ?_ ?_
    · intro i hi; have := hm b i; have := hbey i hi; have := hs i; grind
    · intro i hi; have := hm nb i; have := hnbey i hi; grind
    · intro c h1 h2 i; have := hm c i; grind
    · funext i; have := hm nb i; grind
    · intro i; have := hm b i; have := hs i; grind
    · intro hst
      funext i
      have : (E.nothrowMoveCtor || !E.copyable) = false := by
        rcases hst with h | h <;> simp_all
      have := hm b i; grind

theorem Store2.nb_ne_zero {s : St α} (h : Store2 H s al ib N b cap nb ncap) (hc : 0 < ncap) : nb ≠ 0 := by
  rcases h.nown with ⟨h1, h2⟩ | ⟨_, h1, _⟩
  · rcases h.ibk with ⟨_, h3⟩ | h3
    · omega
    · intro h0
      have := h.wf.blk_zero
      rw [← h0, h1, h3] at this; cases this
  · exact h1

/-- Destroying the live part of the new storage and giving it up. -/
theorem Store2.undoN {s : St α} {d0 n k : Nat} {p : Ptr} {Q : Unit → St α → Prop} {X : Exn → St α → Prop}
    (h : Store2 H s al ib N b cap nb ncap)
    (hp : p = ⟨nb, d0⟩)
    (hl : ∀ i, d0 ≤ i → i < d0 + n → (s.mem nb i).isSome)
    (hr : ∀ i, ¬ (d0 ≤ i ∧ i < d0 + n) → s.mem nb i = none)
    (hk : nb ≠ ib → k = ncap)
    (hQ : ∀ s', s'.mem b = s.mem b → s'.next = s.next → Store H s' al ib N b cap → Q () s') :
    wp (destroyN p n) (fun _ s' => wp (freeUnless ib al ⟨nb, 0⟩ k) Q X s') X s := by
  subst hp
  have hne := h.ne
  refine wp_destroyN (fun i hi => hl _ (by simp) (by simpa using hi)) ?_
  intro s1 hs1 ht1 hm1
  have h1 : Store2 H s1 al ib N b cap nb ncap := by
    refine h.upd hs1 ?_ ?_ ?_
    · intro i hi; rw [hm1]; have := h.beyond i hi; grind
    · intro i hi; rw [hm1]; have := h.nbeyond i hi; grind
    · intro c h1 h2 i; rw [hm1]; grind
  refine h1.drop hk ?_ ?_
  · intro i hi; rw [hm1]; have := hr i; grind
  · intro s2 hm2 hn2 _ hst
    refine hQ s2 ?_ (hn2.trans hs1.next) hst
    rw [hm2]; funext i; rw [hm1]; grind

theorem Store2.undo {s : St α} {d0 n k : Nat} {p q : Ptr} {Q : Unit → St α → Prop} {X : Exn → St α → Prop}
    (h : Store2 H s al ib N b cap nb ncap)
    (hp : p = ⟨nb, d0⟩) (hq : q = ⟨nb, d0 + n⟩)
    (hl : ∀ i, d0 ≤ i → i < d0 + n → (s.mem nb i).isSome)
    (hr : ∀ i, ¬ (d0 ≤ i ∧ i < d0 + n) → s.mem nb i = none)
    (hk : nb ≠ ib → k = ncap)
    (hQ : ∀ s', s'.mem b = s.mem b → s'.next = s.next → Store H s' al ib N b cap → Q () s') :
    wp (destroyRange p q) (fun _ s' => wp (freeUnless ib al ⟨nb, 0⟩ k) Q X s') X s := by
  have := h.undoN (X := X) hp hl hr hk hQ
  unfold destroyRange
  rw [wp_bind]
  subst hp hq
  refine wp_distance rfl (by simp) ?_
  simpa using this

theorem Store2.undoAt {s : St α} {d0 k : Nat} {p : Ptr} {Q : Unit → St α → Prop} {X : Exn → St α → Prop}
    (h : Store2 H s al ib N b cap nb ncap)
    (hp : p = ⟨nb, d0⟩)
    (hl : (s.mem nb d0).isSome)
    (hr : ∀ i, i ≠ d0 → s.mem nb i = none)
    (hk : nb ≠ ib → k = ncap)
    (hQ : ∀ s', s'.mem b = s.mem b → s'.next = s.next → Store H s' al ib N b cap → Q () s') :
    wp (destroyAt p) (fun _ s' => wp (freeUnless ib al ⟨nb, 0⟩ k) Q X s') X s := by
  have := h.undoN (X := X) (n := 1) hp (fun i h1 h2 => by obtain rfl : i = d0 := by omega
                                                          exact hl) (fun i hi => hr i (by omega)) hk hQ
  unfold destroyN at this
  rw [wp_bind] at this
  refine wp_mono this ?_ (fun _ _ h => h)
  intro _ s1 h1
  exact h1

/-- Replacing the storage: the old elements (`n` of them) are destroyed and the old storage released. -/
theorem wp_replaceStorage {o : Obj Vec α} {l e : Ptr} {n : Nat}
    {Q : Unit → Obj Vec α → Prop} {X : Exn → Obj Vec α → Prop}
    (ho : o.obj = ⟨⟨b, 0⟩, ⟨b, n⟩, ⟨b, cap⟩, al⟩)
    (h : Store2 H o.m al ib N b cap nb ncap)
    (hl : ∀ i, (o.m.mem b i).isSome ↔ i < n)
    (hQ : ∀ s', Store H s' al ib N nb ncap → s'.next = o.m.next → s'.tick = o.m.tick → (∀ i, s'.mem nb i = o.m.mem nb i) →
      Q () ⟨⟨⟨nb, 0⟩, l, e, al⟩, s'⟩) :
    wp (SmallVector.replaceStorage ib ⟨nb, 0⟩ l e) Q X o := by
  have hne := h.ne
  unfold SmallVector.replaceStorage
  simp only [wp_bind, wp_getObj, wp_lift, wp_setObj, ho]
  refine wp_destroyRange rfl (by simp) (fun i _ hi => (hl i).mpr (by simpa using hi)) ?_
  intro s1 hs1 ht1 hm1
  have h1 : Store2 H s1 al ib N b cap nb ncap := by
    refine h.upd hs1 ?_ ?_ ?_
    · intro i hi; rw [hm1]; have := h.beyond i hi; grind
    · intro i hi; rw [hm1]; have := h.nbeyond i hi; grind
    · intro c h1 h2 i; rw [hm1]; grind
  refine wp_distance rfl (by simp) ?_
  refine h1.commit ?_ ?_
  · intro i; rw [hm1]; have := hl i
    cases hh : o.m.mem b i <;> grind
  · intro s2 hm2 hn2 ht2 hst
    refine hQ s2 hst (hn2.trans hs1.next) (by omega) ?_
    intro i; rw [hm2, hm1]; grind

/-- The choice of the new storage. -/
theorem wp_newStorage {o : Obj Vec α} {l e : Ptr} {n : Nat}
    {Q : Ptr × Nat → Obj Vec α → Prop} {X : Exn → Obj Vec α → Prop}
    (ho : o.obj = ⟨⟨b, 0⟩, l, e, al⟩)
    (h : Store H o.m al ib N b cap) (hn : cap < n)
    (hQ : ∀ nb ncap s', Store2 H s' al ib N b cap nb ncap → s'.mem = o.m.mem → (∀ i, s'.mem nb i = none) →
      n ≤ ncap → ncap ≤ max n N → (nb ≠ ib → ncap = n ∧ N < n) → (nb = ib → n ≤ N ∧ s' = o.m) →
      s'.tick ≤ o.m.tick + 1 →
      Q (⟨nb, 0⟩, ncap) ⟨⟨⟨b, 0⟩, l, e, al⟩, s'⟩)
    (hX : ∀ s', N < n → Same o.m s' → s'.mem = o.m.mem → X .badAlloc ⟨⟨⟨b, 0⟩, l, e, al⟩, s'⟩) :
    wp (SmallVector.newStorage E ib N n) Q X o := by
  unfold SmallVector.newStorage
  simp only [wp_bind, wp_getObj, wp_ite, wp_pure, wp_lift, ho]
  by_cases hc : n ≤ N ∧ (⟨b, 0⟩ : Ptr) ≠ ⟨ib, 0⟩
  · rw [if_pos hc]
    have hbi : b ≠ ib := by simpa using hc.2
    obtain ⟨h2, h3⟩ := h.useInternal hbi
    have := hQ ib N o.m h2 rfl h3 hc.1 (by omega) (by simp) (fun _ => ⟨hc.1, rfl⟩) (by omega)
    cases o; simp only at ho; subst ho; exact this
  · rw [if_neg hc]
    have hN : N < n := by
      rcases h.own with ⟨hb, h0⟩ | ⟨hb, h0⟩ | ⟨h0, _⟩
      · omega
      · by_cases hbi : b = ib
        · rcases h.ibk with ⟨_, h0'⟩ | h0'
          · omega
          · have := h.wf.blk_zero
            rw [← hb, hbi, h0'] at this; cases this
        · have : ¬ (n ≤ N) := fun h' => hc ⟨h', by simpa using hbi⟩
          omega
      · omega
    refine wp_allocate h.wf (by omega) ?_ ?_
    · intro _ s' hm hnx ht hb
      obtain ⟨h2, h3⟩ := h.alloc hm hnx (ncap := n) hN hb
      refine hQ _ _ s' h2 hm h3 (Nat.le_refl _) (by omega) (fun _ => ⟨rfl, hN⟩) ?_ (by omega)
      intro he
      exfalso
      rcases h2.nown with ⟨_, h5⟩ | ⟨_, _, h5, _⟩
      · omega
      · exact h5 he
    · intro _ s' hs hm
      exact hX s' hN hs hm

end Sfl
