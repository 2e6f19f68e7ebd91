import Verif.SVLemmas
/-
  Correctness of the operations of small_vector (and, with `ib = 0, N = 0`, vector).
-/

set_option linter.unusedSimpArgs false

namespace Sfl
variable {α : Type} {E : Env α} {H : Heap α} {al ib N b cap nb ncap : Nat}

/-- A successful operation: the container holds `xs'` in storage `b'` of capacity `cap'`; if the elements
fit in the old capacity the storage is the old one; a new block is allocated only if the elements fit
neither in the old capacity nor in the internal storage. -/
structure Done (H : Heap α) (E : Env α) (ib N al b cap : Nat) (o o' : Obj Vec α) (b' cap' : Nat) (xs' : List α) :
    Prop where
  v : VSt H E ib N o' al b' cap' xs'
  keep : xs'.length ≤ cap → b' = b ∧ cap' = cap
  where' : b' = b ∨ b' = ib ∨ max cap N < xs'.length
  next : o'.m.next = o.m.next ∨ max cap N < xs'.length

/-- An operation that threw: the container is still valid, in the old storage, holding `xs'`. -/
structure Kept (H : Heap α) (E : Env α) (ib N al b cap : Nat) (e : Exn) (o o' : Obj Vec α) (n : Nat)
    (xs' : List α) : Prop where
  v : VSt H E ib N o' al b cap xs'
  next : o'.m.next = o.m.next ∨ max cap N < n
  bad : e = .badAlloc → max cap N < n

theorem VSt.mk' {m : St α} {f l e : Ptr} {xs : List α} (hf : f = ⟨b, 0⟩) (hl : l = ⟨b, xs.length⟩)
    (he : e = ⟨b, cap⟩) (st : Store H m al ib N b cap) (len : xs.length ≤ cap)
    (cells : ∀ i, m.mem b i = xs[i]?) (capLe : cap ≤ E.maxSize) (nLe : N ≤ E.maxSize) :
    VSt H E ib N ⟨⟨f, l, e, al⟩, m⟩ al b cap xs := by
  subst hf hl he
  exact ⟨rfl, st, len, cells, capLe, nLe⟩

theorem VSt.live {o : Obj Vec α} {xs : List α} (h : VSt H E ib N o al b cap xs) (i : Nat) :
    (o.m.mem b i).isSome ↔ i < xs.length := by
  rw [h.cells]; simp

/-- Old storage after moving away from it: same liveness, so still `xs.length` live elements. -/
theorem VSt.kept {o : Obj Vec α} {xs : List α} {s' : St α} (h : VSt H E ib N o al b cap xs)
    (hst : Store H s' al ib N b cap) (hl : ∀ i, (s'.mem b i).isSome = (o.m.mem b i).isSome)
    (hs : Strong E → s'.mem b = o.m.mem b) :
    ∃ xs', VSt H E ib N ⟨o.obj, s'⟩ al b cap xs' ∧ xs'.length = xs.length ∧ (Strong E → xs' = xs) := by
  by_cases hE : Strong E
  · refine ⟨xs, ?_, rfl, fun _ => rfl⟩
    rw [h.obj]
    exact VSt.mk' rfl rfl rfl hst h.len (fun i => by rw [hs hE, h.cells]) h.capLe h.nLe
  · obtain ⟨ys, h1, h2⟩ := exists_list (f := s'.mem b) xs.length (fun i => by rw [hl]; exact h.live i)
    refine ⟨ys, ?_, h1, fun h' => absurd h' hE⟩
    rw [h.obj]
    exact VSt.mk' rfl (by rw [h1]) rfl hst (by rw [h1]; exact h.len) h2 h.capLe h.nLe

theorem newCapacity_some {maxSize size cap n c : Nat} (h : SmallVector.newCapacity N maxSize size cap n = some c)
    (hN : N ≤ maxSize) (hc : cap ≤ maxSize) (hs : size ≤ cap) (hn : cap < size + n) :
    size + n ≤ c ∧ c ≤ maxSize ∧ N ≤ c ∧ cap < c := by
  unfold SmallVector.newCapacity at h
  split at h
  · cases h
  · split at h
    · simp at h; omega
    · split at h <;> simp at h <;> omega

theorem newCapacity_none {maxSize size cap n : Nat} (h : SmallVector.newCapacity N maxSize size cap n = none) :
    maxSize - size < n := by
  unfold SmallVector.newCapacity at h
  split at h
  · assumption
  · split at h
    · cases h
    · split at h <;> cases h

theorem newCapacity_room {maxSize size cap n c : Nat} (h : SmallVector.newCapacity N maxSize size cap n = some c)
    (hc : cap = 0 ∨ N ≤ cap) (hn : cap < size + n) : N < c → max cap N < size + n := by
  unfold SmallVector.newCapacity at h
  rcases hc with hc | hc
  · subst hc
    split at h
    · cases h
    · split at h
      · omega
      · split at h <;> simp at h <;> omega
  · omega

theorem Store.cap_cases {s : St α} (h : Store H s al ib N b cap) : cap = 0 ∨ N ≤ cap := by
  rcases h.own with ⟨_, h0⟩ | ⟨_, h0⟩ | ⟨h0, _⟩ <;> omega

theorem wp_size {o : Obj Vec α} {xs : List α} {Q : Nat → Obj Vec α → Prop} {X : Exn → Obj Vec α → Prop}
    (ho : o.obj = ⟨⟨b, 0⟩, ⟨b, xs.length⟩, ⟨b, cap⟩, al⟩) (hQ : Q xs.length o) :
    wp Vector.size Q X o := by
  unfold Vector.size
  rw [wp_bind, wp_getObj, ho]
  exact wp_distance rfl (by simp) (by simpa using hQ)

theorem wp_capacity {o : Obj Vec α} {l : Ptr} {Q : Nat → Obj Vec α → Prop} {X : Exn → Obj Vec α → Prop}
    (ho : o.obj = ⟨⟨b, 0⟩, l, ⟨b, cap⟩, al⟩) (hQ : Q cap o) :
    wp Vector.capacity Q X o := by
  unfold Vector.capacity
  rw [wp_bind, wp_getObj, ho]
  exact wp_distance rfl (by simp) (by simpa using hQ)

theorem wp_calculateNewCapacity {o : Obj Vec α} {xs : List α} {n : Nat}
    {Q : Nat → Obj Vec α → Prop} {X : Exn → Obj Vec α → Prop}
    (h : VSt H E ib N o al b cap xs) (hn : cap < xs.length + n)
    (hQ : ∀ c, SmallVector.newCapacity N E.maxSize xs.length cap n = some c →
      xs.length + n ≤ c → c ≤ E.maxSize → N ≤ c → cap < c → (N < c → max cap N < xs.length + n) → Q c o)
    (hX : E.maxSize < xs.length + n → X .lengthError o) :
    wp (SmallVector.calculateNewCapacity E N n) Q X o := by
  unfold SmallVector.calculateNewCapacity
  rw [wp_bind]
  refine wp_size h.obj ?_
  rw [wp_bind]
  refine wp_capacity h.obj ?_
  cases hc : SmallVector.newCapacity N E.maxSize xs.length cap n with
  | none =>
    have := newCapacity_none hc
    exact hX (by omega)
  | some c =>
    obtain ⟨h1, h2, h3, h4⟩ := newCapacity_some hc h.nLe h.capLe h.len hn
    exact hQ c hc h1 h2 h3 h4 (newCapacity_room hc h.st.cap_cases hn)

/-- A reallocating operation in progress. The new storage `nb` (capacity `c`) contains `f`; old elements from
index `lo` on have not been touched. -/
structure Growing (H : Heap α) (E : Env α) (ib N al b cap : Nat) (o : Obj Vec α) (xs : List α)
    (tot nb c lo : Nat) (f : Nat → Option α) (s : St α) : Prop where
  h2 : Store2 H s al ib N b cap nb c
  new : ∀ i, s.mem nb i = f i
  old : ∀ i, lo ≤ i → s.mem b i = xs[i]?
  live : ∀ i, (s.mem b i).isSome ↔ i < xs.length
  strong : E.nothrowMoveCtor = false → Strong E → s.mem b = o.m.mem b
  wh : nb = ib ∨ max cap N < tot
  nx : s.next = o.m.next ∨ max cap N < tot
  capc : cap < tot ∧ tot ≤ c
  cLe : c ≤ E.maxSize

/-- A reallocating operation that has thrown and must clean up. -/
structure GrowFail (H : Heap α) (E : Env α) (ib N al b cap : Nat) (o : Obj Vec α) (xs : List α)
    (tot nb c : Nat) (f : Nat → Option α) (s : St α) : Prop where
  h2 : Store2 H s al ib N b cap nb c
  new : ∀ i, s.mem nb i = f i
  live : ∀ i, (s.mem b i).isSome ↔ i < xs.length
  strong : Strong E → s.mem b = o.m.mem b
  nx : s.next = o.m.next ∨ max cap N < tot

section grow
variable {o : Obj Vec α} {xs : List α} {tot c lo : Nat} {f : Nat → Option α} {s : St α}

theorem Growing.ne_null (g : Growing H E ib N al b cap o xs tot nb c lo f s) :
    (⟨nb, 0⟩ : Ptr) ≠ Ptr.null :=
  ptr0_ne_null (g.h2.nb_ne_zero (by have := g.capc; omega))

/-- Memory was not touched: the failure is that of the start of the operation. -/
theorem Growing.failFresh {s' : St α} (h : VSt H E ib N o al b cap xs)
    (g : Growing H E ib N al b cap o xs tot nb c 0 f s) (hs : Same s s') (hm : s'.mem = s.mem) :
    GrowFail H E ib N al b cap o xs tot nb c f s' where
  h2 := g.h2.upd hs (fun i hi => by rw [hm]; exact g.h2.beyond i hi)
    (fun i hi => by rw [hm]; exact g.h2.nbeyond i hi) (fun c _ _ i => by rw [hm])
  new := fun i => by rw [hm]; exact g.new i
  live := fun i => by rw [hm]; exact g.live i
  strong := fun _ => by funext i; rw [hm, g.old i (Nat.zero_le _), h.cells]
  nx := by rw [hs.next]; exact g.nx

/-- Writing to the new storage only. -/
theorem Growing.write {s' : St α} {f' : Nat → Option α}
    (g : Growing H E ib N al b cap o xs tot nb c lo f s) (hs : Same s s')
    (hm : ∀ d i, s'.mem d i = if d = nb then f' i else s.mem d i)
    (hf : ∀ i, c ≤ i → f' i = none) :
    Growing H E ib N al b cap o xs tot nb c lo f' s' where
  h2 := by
    have hne := g.h2.ne
    refine g.h2.upd hs ?_ ?_ ?_
    · intro i hi; rw [hm, if_neg (Ne.symm hne)]; exact g.h2.beyond i hi
    · intro i hi; rw [hm, if_pos rfl]; exact hf i hi
    · intro d _ h2 i; rw [hm, if_neg h2]
  new := fun i => by rw [hm, if_pos rfl]
  old := fun i hi => by rw [hm, if_neg (Ne.symm g.h2.ne)]; exact g.old i hi
  live := fun i => by rw [hm, if_neg (Ne.symm g.h2.ne)]; exact g.live i
  strong := fun h1 h2 => by
    rw [← g.strong h1 h2]; funext i; rw [hm, if_neg (Ne.symm g.h2.ne)]
  wh := g.wh
  nx := by rw [hs.next]; exact g.nx
  capc := g.capc
  cLe := g.cLe

theorem Growing.step {n d0 : Nat} {p q d : Ptr} {Q : Ptr → St α → Prop} {X : Exn → St α → Prop}
    (g : Growing H E ib N al b cap o xs tot nb c lo f s)
    (hp : p = ⟨b, lo⟩) (hq : q = ⟨b, lo + n⟩) (hd : d = ⟨nb, d0⟩)
    (hn : lo + n ≤ xs.length) (hc : d0 + n ≤ c)
    (hr : ∀ i, d0 ≤ i → i < d0 + n → f i = none)
    (hQ : ∀ s', Growing H E ib N al b cap o xs tot nb c (lo + n)
        (fun i => if d0 ≤ i ∧ i < d0 + n then xs[lo + (i - d0)]? else f i) s' →
      s'.tick = s.tick + n → Q ⟨nb, d0 + n⟩ s')
    (hX : ∀ s', GrowFail H E ib N al b cap o xs tot nb c f s' → X .elem s') :
    wp (uninitMoveIf E p q d) Q X s := by
  refine g.h2.moveIf hp hq hd ?_ ?_ hc ?_ ?_
  · intro i h1 h2; rw [g.live]; omega
  · intro i h1 h2; rw [g.new]; exact hr i h1 h2
  · intro s' h2 hnx ht hnew hl hout hst
    refine hQ s' ⟨h2, ?_, ?_, ?_, ?_, g.wh, by rw [hnx]; exact g.nx, g.capc, g.cLe⟩ ht
    · intro i; rw [hnew]
      by_cases hi : d0 ≤ i ∧ i < d0 + n
      · rw [if_pos hi, if_pos hi]; exact g.old _ (by omega)
      · rw [if_neg hi, if_neg hi]; exact g.new i
    · intro i hi; rw [hout i (by omega)]; exact g.old i (by omega)
    · intro i; rw [hl]; exact g.live i
    · intro h1 h3; rw [hst h1 h3]; exact g.strong h1 h3
  · intro s' h2 hnx hnew hnm hl hst
    refine hX s' ⟨h2, ?_, ?_, ?_, by rw [hnx]; exact g.nx⟩
    · intro i; rw [hnew]; exact g.new i
    · intro i; rw [hl]; exact g.live i
    · intro h3; rw [hst h3]; exact g.strong hnm h3

theorem GrowFail.kept {s' : St α} (h : VSt H E ib N o al b cap xs)
    (g : GrowFail H E ib N al b cap o xs tot nb c f s)
    (hm : s'.mem b = s.mem b) (hnx : s'.next = s.next) (hst : Store H s' al ib N b cap) :
    ∃ xs', Kept H E ib N al b cap .elem o ⟨⟨⟨b, 0⟩, ⟨b, xs.length⟩, ⟨b, cap⟩, al⟩, s'⟩ tot xs' ∧
      xs'.length = xs.length ∧ (Strong E → xs' = xs) := by
  obtain ⟨xs', k1, k2, k3⟩ := h.kept hst (fun i => by
      rw [hm, Bool.eq_iff_iff, g.live i, h.live i]) (fun hE => by rw [hm]; exact g.strong hE)
  rw [h.obj] at k1
  exact ⟨xs', ⟨k1, by show s'.next = _ ∨ _; rw [hnx]; exact g.nx, by simp⟩, k2, k3⟩

theorem GrowFail.undoN {d0 n k : Nat} {p : Ptr} {Q : Unit → St α → Prop} {X : Exn → St α → Prop}
    (h : VSt H E ib N o al b cap xs)
    (g : GrowFail H E ib N al b cap o xs tot nb c f s)
    (hp : p = ⟨nb, d0⟩)
    (hl : ∀ i, d0 ≤ i → i < d0 + n → (f i).isSome)
    (hr : ∀ i, ¬ (d0 ≤ i ∧ i < d0 + n) → f i = none)
    (hk : nb ≠ ib → k = c)
    (hQ : ∀ s', (∃ xs', Kept H E ib N al b cap .elem o ⟨⟨⟨b, 0⟩, ⟨b, xs.length⟩, ⟨b, cap⟩, al⟩, s'⟩ tot xs' ∧
      xs'.length = xs.length ∧ (Strong E → xs' = xs)) → Q () s') :
    wp (destroyN p n) (fun _ s' => wp (freeUnless ib al ⟨nb, 0⟩ k) Q X s') X s :=
  g.h2.undoN hp (fun i h1 h2 => by rw [g.new]; exact hl i h1 h2) (fun i hi => by rw [g.new]; exact hr i hi) hk
    (fun _ h1 h2 h3 => hQ _ (g.kept h h1 h2 h3))

theorem GrowFail.undo {d0 n k : Nat} {p q : Ptr} {Q : Unit → St α → Prop} {X : Exn → St α → Prop}
    (h : VSt H E ib N o al b cap xs)
    (g : GrowFail H E ib N al b cap o xs tot nb c f s)
    (hp : p = ⟨nb, d0⟩) (hq : q = ⟨nb, d0 + n⟩)
    (hl : ∀ i, d0 ≤ i → i < d0 + n → (f i).isSome)
    (hr : ∀ i, ¬ (d0 ≤ i ∧ i < d0 + n) → f i = none)
    (hk : nb ≠ ib → k = c)
    (hQ : ∀ s', (∃ xs', Kept H E ib N al b cap .elem o ⟨⟨⟨b, 0⟩, ⟨b, xs.length⟩, ⟨b, cap⟩, al⟩, s'⟩ tot xs' ∧
      xs'.length = xs.length ∧ (Strong E → xs' = xs)) → Q () s') :
    wp (destroyRange p q) (fun _ s' => wp (freeUnless ib al ⟨nb, 0⟩ k) Q X s') X s :=
  g.h2.undo hp hq (fun i h1 h2 => by rw [g.new]; exact hl i h1 h2) (fun i hi => by rw [g.new]; exact hr i hi) hk
    (fun _ h1 h2 h3 => hQ _ (g.kept h h1 h2 h3))

theorem GrowFail.undoAt {d0 k : Nat} {p : Ptr} {Q : Unit → St α → Prop} {X : Exn → St α → Prop}
    (h : VSt H E ib N o al b cap xs)
    (g : GrowFail H E ib N al b cap o xs tot nb c f s)
    (hp : p = ⟨nb, d0⟩)
    (hl : (f d0).isSome)
    (hr : ∀ i, i ≠ d0 → f i = none)
    (hk : nb ≠ ib → k = c)
    (hQ : ∀ s', (∃ xs', Kept H E ib N al b cap .elem o ⟨⟨⟨b, 0⟩, ⟨b, xs.length⟩, ⟨b, cap⟩, al⟩, s'⟩ tot xs' ∧
      xs'.length = xs.length ∧ (Strong E → xs' = xs)) → Q () s') :
    wp (destroyAt p) (fun _ s' => wp (freeUnless ib al ⟨nb, 0⟩ k) Q X s') X s :=
  g.h2.undoAt hp (by rw [g.new]; exact hl) (fun i hi => by rw [g.new]; exact hr i hi) hk
    (fun _ h1 h2 h3 => hQ _ (g.kept h h1 h2 h3))

theorem GrowFail.undoNone {k : Nat} {Q : Unit → St α → Prop} {X : Exn → St α → Prop}
    (h : VSt H E ib N o al b cap xs)
    (g : GrowFail H E ib N al b cap o xs tot nb c f s)
    (hr : ∀ i, f i = none)
    (hk : nb ≠ ib → k = c)
    (hQ : ∀ s', (∃ xs', Kept H E ib N al b cap .elem o ⟨⟨⟨b, 0⟩, ⟨b, xs.length⟩, ⟨b, cap⟩, al⟩, s'⟩ tot xs' ∧
      xs'.length = xs.length ∧ (Strong E → xs' = xs)) → Q () s') :
    wp (freeUnless ib al ⟨nb, 0⟩ k) Q X s :=
  g.h2.drop hk (fun i _ => by rw [g.new]; exact hr i)
    (fun _ h1 h2 _ h3 => hQ _ (g.kept h (by rw [h1]) h2 h3))

theorem Growing.finish {o1 : Obj Vec α} {ys : List α} {l e : Ptr}
    {Q : Unit → Obj Vec α → Prop} {X : Exn → Obj Vec α → Prop}
    (h : VSt H E ib N o al b cap xs)
    (g : Growing H E ib N al b cap o xs tot nb c lo f o1.m)
    (ho1 : o1.obj = ⟨⟨b, 0⟩, ⟨b, xs.length⟩, ⟨b, cap⟩, al⟩)
    (hf : ∀ i, f i = ys[i]?) (hys : ys.length = tot)
    (hl : l = ⟨nb, ys.length⟩) (he : e = ⟨nb, c⟩)
    (hQ : ∀ o', Done H E ib N al b cap o o' nb c ys → o'.m.tick = o1.m.tick → Q () o') :
    wp (SmallVector.replaceStorage ib ⟨nb, 0⟩ l e) Q X o1 := by
  have hc := g.capc
  refine wp_replaceStorage ho1 g.h2 g.live ?_
  intro s4 h5 hnx4 ht4 hm4
  refine hQ _ ⟨?_, by omega, ?_, ?_⟩ ht4
  · refine VSt.mk' rfl hl he h5 (by omega) ?_ g.cLe h.nLe
    intro i; rw [hm4, g.new, hf]
  · rcases g.wh with hh | hh
    · exact Or.inr (Or.inl hh)
    · exact Or.inr (Or.inr (by rw [hys]; exact hh))
  · show s4.next = _ ∨ _
    rw [hnx4, hys]; exact g.nx

/-- Start of a reallocating operation whose new capacity is already known. -/
theorem growStart' {o1 : Obj Vec α} {k : Nat} {Q : Ptr × Nat → Obj Vec α → Prop} {X : Exn → Obj Vec α → Prop}
    (h : VSt H E ib N o al b cap xs) (ho1 : o1 = o) (hk1 : cap < tot) (hk2 : tot ≤ k) (hk3 : k ≤ E.maxSize)
    (hroom : N < k → max cap N < tot)
    (hQ : ∀ nb c s, Growing H E ib N al b cap o xs tot nb c 0 (fun _ => none) s → s.mem = o.m.mem →
      (nb ≠ ib → k = c) → k ≤ c → c ≤ max k N → s.tick ≤ o.m.tick + 1 →
      Q (⟨nb, 0⟩, c) ⟨⟨⟨b, 0⟩, ⟨b, xs.length⟩, ⟨b, cap⟩, al⟩, s⟩)
    (hX : ∀ o', Kept H E ib N al b cap .badAlloc o o' tot xs → X .badAlloc o') :
    wp (SmallVector.newStorage E ib N k) Q X o1 := by
  subst ho1
  refine wp_newStorage h.obj h.st (by omega) ?_ ?_
  · intro nb ncap s1 h2 hm1 hraw hn1 hn2 hnh hni ht1
    have hwh : nb = ib ∨ max cap N < tot := by
      by_cases hh : nb = ib
      · exact Or.inl hh
      · exact Or.inr (hroom (hnh hh).2)
    refine hQ nb ncap s1 ⟨h2, hraw, ?_, ?_, ?_, hwh, ?_, by omega, ?_⟩ hm1 (fun hh => (hnh hh).1.symm) hn1 hn2 ht1
    · intro i _; rw [hm1, h.cells]
    · intro i; rw [hm1]; exact h.live i
    · intro _ _; rw [hm1]
    · rcases hwh with hh | hh
      · rw [(hni hh).2]; exact Or.inl rfl
      · exact Or.inr hh
    · have := h.nLe; omega
  · intro s1 hN hs1 hm1
    refine hX _ ⟨?_, Or.inl hs1.next, fun _ => hroom hN⟩
    exact VSt.mk' rfl rfl rfl (h.st.same hs1 hm1) h.len (fun i => by rw [hm1, h.cells]) h.capLe h.nLe

end grow

/-- A valid state with unspecified values. -/
theorem VSt.ofLive {o : Obj Vec α} {xs : List α} {s' : St α} {n : Nat} {l : Ptr} (h : VSt H E ib N o al b cap xs)
    (hl : l = ⟨b, n⟩)
    (hst : Store H s' al ib N b cap) (hn : n ≤ cap) (hlive : ∀ i, (s'.mem b i).isSome ↔ i < n) :
    ∃ xs', VSt H E ib N ⟨⟨⟨b, 0⟩, l, ⟨b, cap⟩, al⟩, s'⟩ al b cap xs' ∧ xs'.length = n := by
  obtain ⟨ys, h1, h2⟩ := exists_list (f := s'.mem b) n hlive
  exact ⟨ys, VSt.mk' rfl (by rw [h1, hl]) rfl hst (by omega) h2 h.capLe h.nLe, h1⟩

theorem emplaceBack_spec {o : Obj Vec α} {xs : List α} {a : Arg α} {v : α}
    (h : VSt H E ib N o al b cap xs) (hv : a.value o.m = some v) (hsrc : a.src E = none) :
    wp (SmallVector.emplaceBack E ib N a)
      (fun p o' => ∃ b' cap', Done H E ib N al b cap o o' b' cap' (xs ++ [v]) ∧ p = ⟨b', xs.length⟩ ∧
        (xs.length < cap → o'.m.tick = o.m.tick + 1) ∧
        (xs.length = cap → SmallVector.newCapacity N E.maxSize xs.length cap 1 = some cap' ∧
          o'.m.tick ≤ o.m.tick + xs.length + 2))
      (fun e o' => ∃ xs', Kept H E ib N al b cap e o o' (xs.length + 1) xs' ∧ xs'.length = xs.length ∧
        (Strong E → xs' = xs) ∧ (xs.length < cap → xs' = xs ∧ e = .elem) ∧
        (e = .lengthError → E.maxSize < xs.length + 1))
      o := by
  have hlen := h.len
  unfold SmallVector.emplaceBack
  simp only [wp_bind, wp_getObj, wp_ite, wp_lift, wp_setObj, wp_pure, wp_tryCatch, wp_throw]
  rw [h.obj]
  simp only
  by_cases hfull : (⟨b, xs.length⟩ : Ptr) ≠ ⟨b, cap⟩
  · rw [if_pos hfull]
    have hlt : xs.length < cap := by
      have : xs.length ≠ cap := fun h' => hfull (by rw [h'])
      omega
    refine construct_copy hv hsrc (h.st.inB hlt) (by rw [h.cells]; simp) ?_ ?_
    · intro s1 hs1 ht1 hm1
      refine ⟨b, cap, ⟨?_, fun _ => ⟨rfl, rfl⟩, Or.inl rfl, Or.inl hs1.next⟩, rfl, fun _ => ht1, by omega⟩
      refine VSt.mk' rfl (by simp [Ptr.add]) rfl (h.st.upd hs1 ?_ ?_) (by simp; omega) ?_ h.capLe h.nLe
      · intro i hi; rw [hm1]; have := h.st.beyond i hi; grind
      · intro c hc i; rw [hm1]; grind
      · intro i; rw [hm1, h.cells]; grind
    · intro s1 hs1 hm1
      refine ⟨xs, ⟨?_, Or.inl hs1.next, by simp⟩, rfl, fun _ => rfl, fun _ => ⟨rfl, rfl⟩, by simp⟩
      exact VSt.mk' rfl rfl rfl (h.st.same hs1 hm1) h.len (fun i => by rw [hm1, h.cells]) h.capLe h.nLe
  · rw [if_neg hfull]
    have heq : xs.length = cap := by simpa using hfull
    refine wp_calculateNewCapacity h (by omega) ?_ ?_
    · intro k hnc hc1 hc2 hc3 hc4 hroom
      refine growStart' h rfl (tot := xs.length + 1) (by omega) hc1 hc2 hroom ?_ ?_
      · intro nb c s1 g hm1 hk hk1 hk2 ht1
        obtain rfl : c = k := by omega
        dsimp only
        refine wp_size (xs := xs) rfl ?_
        dsimp only
        refine construct_copy ((value_of_mem hm1).trans hv) hsrc (g.h2.inB (by simp; omega)) (g.new _) ?_ ?_
        · intro s2 hs2 ht2 hm2
          have g2 := g.write (f' := fun i => if i = xs.length then some v else none) hs2 (fun d i => by
            rw [hm2]; have := g.new i; grind) (fun i hi => by grind)
          refine g2.step (n := xs.length) (d0 := 0) rfl (by simp) rfl (by omega) (by omega) ?_ ?_ ?_
          · intro i _ hi; grind
          · intro s3 g3 ht3
            refine g3.finish (ys := xs ++ [v]) h rfl ?_ (by simp) (by simp [Ptr.add]) (by simp [Ptr.add]) ?_
            · intro i; grind
            · intro o' hd ht4
              dsimp only at ht4
              exact ⟨nb, c, hd, by simp [Ptr.add], by omega, fun _ => ⟨hnc, by omega⟩⟩
          · intro s3 g3
            rw [if_pos trivial]
            refine g3.undoAt h (d0 := xs.length) (by simp [Ptr.add]) (by simp) (by grind) (fun _ => rfl) ?_
            rintro s5 ⟨xs', k1, k2, k3⟩
            exact ⟨xs', k1, k2, k3, by omega, by simp⟩
        · intro s2 hs2 hm2
          rw [if_neg g.ne_null]
          refine (g.failFresh h hs2 hm2).undoNone h (fun _ => rfl) (fun _ => rfl) ?_
          rintro s5 ⟨xs', k1, k2, k3⟩
          exact ⟨xs', k1, k2, k3, by omega, by simp⟩
      · intro o' hk
        exact ⟨xs, hk, rfl, fun _ => rfl, by omega, by simp⟩
    · intro hmax
      exact ⟨xs, ⟨h, Or.inl rfl, by simp⟩, rfl, fun _ => rfl, by omega, fun _ => hmax⟩

theorem emplace_spec {o : Obj Vec α} {xs : List α} {a : Arg α} {v : α} {k : Nat}
    (h : VSt H E ib N o al b cap xs) (hv : a.value o.m = some v) (hsrc : a.src E = none) (hk : k ≤ xs.length) :
    wp (SmallVector.emplace E ib N ⟨b, k⟩ a)
      (fun p o' => ∃ b' cap', Done H E ib N al b cap o o' b' cap' (xs.take k ++ v :: xs.drop k) ∧ p = ⟨b', k⟩)
      (fun e o' => ∃ xs', Kept H E ib N al b cap e o o' (xs.length + 1) xs' ∧ xs'.length ≤ xs.length + 1 ∧
        (Strong E → xs.length = cap ∨ k = xs.length → xs' = xs) ∧
        (E.nothrowMoveCtor = true → E.nothrowMoveAssign = true → xs' = xs) ∧
        (e = .lengthError → E.maxSize < xs.length + 1))
      o := by
  have hlen := h.len
  unfold SmallVector.emplace
  simp only [wp_bind, wp_getObj, wp_ite, wp_lift, wp_setObj, wp_pure, wp_tryCatch, wp_throw, wp_assert]
  rw [h.obj]
  refine ⟨⟨rfl, by simp, by simpa using hk⟩, ?_⟩
  have hp : (⟨b, 0⟩ : Ptr).add (k - 0) = ⟨b, k⟩ := by simp [Ptr.add]
  dsimp only
  rw [hp]
  by_cases hfull : (⟨b, xs.length⟩ : Ptr) ≠ ⟨b, cap⟩
  · rw [if_pos hfull]
    have hlt : xs.length < cap := by
      have : xs.length ≠ cap := fun h' => hfull (by rw [h'])
      omega
    by_cases hend : (⟨b, k⟩ : Ptr) = ⟨b, xs.length⟩
    · rw [if_pos hend, hend]
      have hk' : k = xs.length := by simpa [Ptr.add] using hend
      refine construct_copy hv hsrc (h.st.inB hlt) (by rw [h.cells]; simp) ?_ ?_
      · intro s1 hs1 ht1 hm1
        refine ⟨b, cap, ⟨?_, fun _ => ⟨rfl, rfl⟩, Or.inl rfl, Or.inl hs1.next⟩, by rw [hk']⟩
        refine VSt.mk' rfl (by simp [Ptr.add]; omega) rfl (h.st.upd hs1 ?_ ?_) (by simp; omega) ?_ h.capLe h.nLe
        · intro i hi; rw [hm1]; have := h.st.beyond i hi; grind
        · intro c hc i; rw [hm1]; grind
        · intro i; rw [hm1, h.cells]; grind
      · intro s1 hs1 hm1
        refine ⟨xs, ⟨?_, Or.inl hs1.next, by simp⟩, by omega, fun _ _ => rfl, fun _ _ => rfl, by simp⟩
        exact VSt.mk' rfl rfl rfl (h.st.same hs1 hm1) h.len (fun i => by rw [hm1, h.cells]) h.capLe h.nLe
    · rw [if_neg hend]
      have hk' : k < xs.length := by
        have : k ≠ xs.length := fun h' => hend (by simp [Ptr.add, h'])
        omega
      have hsub : (⟨b, xs.length⟩ : Ptr).sub 1 = ⟨b, xs.length - 1⟩ := Ptr.sub_of_le (by simp; omega)
      rw [hsub]
      refine mkTmp_copy hv hsrc ?_ ?_
      · intro s1 hs1 ht1 hm1
        have hst1 := h.st.same hs1 hm1
        have hc1 : ∀ i, s1.mem b i = xs[i]? := fun i => by rw [hm1, h.cells]
        have hx1 : xs[xs.length - 1]? = some (xs[xs.length - 1]'(by omega)) := List.getElem?_eq_getElem _
        refine construct_move (v := xs[xs.length - 1]'(by omega)) ((hc1 _).trans hx1) rfl
          (hst1.inB hlt) (by rw [hc1]; simp) ?_ ?_
        · intro s2 hs2 ht2 hm2
          have hst2 : Store H s2 al ib N b cap := hst1.upd hs2
            (fun i hi => by rw [hm2]; have := hst1.beyond i hi; grind) (fun c hc i => by rw [hm2]; grind)
          have hc2 : ∀ i, s2.mem b i = if i = xs.length then xs[xs.length - 1]?
              else if i = xs.length - 1 then (xs[i]?).map E.moved else xs[i]? := fun i => by
            rw [hm2, hc1]; grind
          refine wp_moveBackward (n := xs.length - 1 - k) (q := ⟨b, k + 1⟩) rfl (by simp; omega)
            (by simp [Ptr.add]; omega) ?_ ?_ (Or.inr (Or.inl (by simp))) ?_ ?_
          · intro i _ hi; simp at hi ⊢; rw [hc2]; grind
          · intro i _ hi; simp at hi ⊢; rw [hc2]; grind
          · intro s3 hs3 ht3 hm3
            have hst3 : Store H s3 al ib N b cap := hst2.upd hs3
              (fun i hi => by rw [hm3]; have := hst2.beyond i hi; grind) (fun c hc i => by rw [hm3]; grind)
            have hc3 : ∀ i, i ≠ k → s3.mem b i = (xs.take k ++ v :: xs.drop k)[i]? := fun i hi => by
              rw [hm3, hc2, hc2]; grind
            have hc3k : (s3.mem b k).isSome := by rw [hm3, hc2, hc2]; grind
            refine assign_copy (v := v) rfl rfl (by simpa using hc3k) ?_ ?_
            · intro s4 hs4 ht4 hm4
              refine ⟨b, cap, ⟨?_, fun _ => ⟨rfl, rfl⟩, Or.inl rfl, Or.inl ?_⟩, by simp [Ptr.add]⟩
              · refine VSt.mk' rfl (by simp [Ptr.add]; omega) rfl (hst3.upd hs4 ?_ ?_) (by simp; omega) ?_ h.capLe h.nLe
                · intro i hi; rw [hm4]; have := hst3.beyond i hi; grind
                · intro c hc i; rw [hm4]; grind
                · intro i; rw [hm4]
                  have := hc3 i
                  by_cases hik : i = k
                  · subst hik; simp; grind
                  · rw [if_neg (by simp; omega)]; exact this hik
              · exact (hs1.trans (hs2.trans (hs3.trans hs4))).next
            · intro hnm s4 w hs4 hm4
              obtain ⟨xs', k1, k2⟩ := h.ofLive (n := xs.length + 1) (l := (⟨b, xs.length⟩ : Ptr).add 1) rfl
                (hst3.upd hs4 (fun i hi => by rw [hm4]; have := hst3.beyond i hi; grind)
                  (fun c hc i => by rw [hm4]; grind)) (by omega)
                (fun i => by
                  rw [hm4]
                  by_cases hik : i = k
                  · subst hik; simp; omega
                  · rw [if_neg (by simp; omega), hc3 i hik]; simp; omega)
              refine ⟨xs', ⟨k1, Or.inl (hs1.trans (hs2.trans (hs3.trans hs4))).next, by simp⟩, by omega,
                fun _ hh => by omega, fun _ hh => ?_, by simp⟩
              have := hnm rfl; rw [hh] at this; cases this
          · intro hnm s3 hs3 hm3
            obtain ⟨xs', k1, k2⟩ := h.ofLive (n := xs.length + 1) (l := (⟨b, xs.length⟩ : Ptr).add 1) rfl
              (hst2.upd hs3 (fun i hi => by have := hm3 b i; have := hst2.beyond i hi; grind)
                (fun c hc i => by have := hm3 c i; grind)) (by omega)
              (fun i => by
                have h1 := hm3 b i
                have h2 := hc2 i
                grind)
            refine ⟨xs', ⟨k1, Or.inl (hs1.trans (hs2.trans hs3)).next, by simp⟩, by omega,
              fun _ hh => by omega, fun _ hh => ?_, by simp⟩
            rw [hh] at hnm; cases hnm
        · intro hnm s2 w hs2 hm2
          obtain ⟨xs', k1, k2⟩ := h.ofLive (n := xs.length) (l := (⟨b, xs.length⟩ : Ptr)) rfl
            (hst1.upd hs2 (fun i hi => by rw [hm2]; have := hst1.beyond i hi; grind)
              (fun c hc i => by rw [hm2]; grind)) (by omega)
            (fun i => by rw [hm2, hc1]; grind)
          refine ⟨xs', ⟨k1, Or.inl (hs1.trans hs2).next, by simp⟩, by omega,
            fun _ hh => by omega, fun hh _ => ?_, by simp⟩
          rw [hh] at hnm; cases hnm
      · intro s1 hs1 hm1
        refine ⟨xs, ⟨?_, Or.inl hs1.next, by simp⟩, by omega, fun _ _ => rfl, fun _ _ => rfl, by simp⟩
        exact VSt.mk' rfl rfl rfl (h.st.same hs1 hm1) h.len (fun i => by rw [hm1, h.cells]) h.capLe h.nLe
  · rw [if_neg hfull]
    have heq : xs.length = cap := by simpa using hfull
    have fin : ∀ s5, (∃ xs', Kept H E ib N al b cap .elem o ⟨⟨⟨b, 0⟩, ⟨b, xs.length⟩, ⟨b, cap⟩, al⟩, s5⟩
        (xs.length + 1) xs' ∧ xs'.length = xs.length ∧ (Strong E → xs' = xs)) →
        ∃ xs', Kept H E ib N al b cap .elem o ⟨⟨⟨b, 0⟩, ⟨b, xs.length⟩, ⟨b, cap⟩, al⟩, s5⟩ (xs.length + 1) xs' ∧
        xs'.length ≤ xs.length + 1 ∧
        (Strong E → xs.length = cap ∨ k = xs.length → xs' = xs) ∧
        (E.nothrowMoveCtor = true → E.nothrowMoveAssign = true → xs' = xs) ∧
        (Exn.elem = .lengthError → E.maxSize < xs.length + 1) := by
      rintro s5 ⟨xs', k1, k2, k3⟩
      exact ⟨xs', k1, by omega, fun h _ => k3 h, fun h _ => k3 (Or.inl h), by simp⟩
    refine wp_calculateNewCapacity h (by omega) ?_ ?_
    · intro kk hnc hc1 hc2 hc3 hc4 hroom
      refine growStart' h rfl (tot := xs.length + 1) (by omega) hc1 hc2 hroom ?_ ?_
      · intro nb c s1 g hm1 hk' hk1 hk2 ht1
        obtain rfl : c = kk := by omega
        dsimp only
        refine construct_copy ((value_of_mem hm1).trans hv) hsrc (g.h2.inB (by simp; omega)) (g.new _) ?_ ?_
        · intro s2 hs2 ht2 hm2
          have g2 := g.write (f' := fun i => if i = k then some v else none) hs2 (fun d i => by
            rw [hm2]; have := g.new i; grind) (fun i hi => by grind)
          refine g2.step (n := k) (d0 := 0) rfl (by simp [Ptr.add]) rfl (by omega) (by omega) ?_ ?_ ?_
          · intro i _ hi; grind
          · intro s3 g3 ht3
            refine g3.step (n := xs.length - k) (d0 := k + 1) (by simp [Ptr.add]) (by simp [Ptr.add]; omega)
              (by simp [Ptr.add]) (by omega) (by omega) ?_ ?_ ?_
            · intro i _ hi; grind
            · intro s4 g4 ht4
              refine g4.finish (ys := xs.take k ++ v :: xs.drop k) h rfl ?_ (by simp; omega)
                (by simp [Ptr.add]; omega) (by simp [Ptr.add]) ?_
              · intro i; grind
              · intro o' hd ht5
                exact ⟨nb, c, hd, by simp [Ptr.add]⟩
            · intro s4 g4
              rw [if_neg (by have := g.ne_null; simp [Ptr.add, Ptr.null] at *)]
              refine g4.undo h (d0 := 0) (n := k + 1) rfl (by simp [Ptr.add]) ?_ ?_ (fun _ => rfl) (fin ·)
              · intro i _ hi; grind
              · intro i hi; grind
          · intro s3 g3
            rw [if_pos trivial]
            exact g3.undoAt h (d0 := k) (by simp [Ptr.add]) (by simp) (by grind) (fun _ => rfl) (fin ·)
        · intro s2 hs2 hm2
          rw [if_neg g.ne_null]
          refine (g.failFresh h hs2 hm2).undo h (d0 := 0) (n := 0) rfl rfl (by omega) (fun _ _ => rfl) (fun _ => rfl)
            (fin ·)
      · intro o' hk
        exact ⟨xs, hk, by omega, fun _ _ => rfl, fun _ _ => rfl, by simp⟩
    · intro hmax
      exact ⟨xs, ⟨h, Or.inl rfl, by simp⟩, by omega, fun _ _ => rfl, fun _ _ => rfl, fun _ => hmax⟩

end Sfl
