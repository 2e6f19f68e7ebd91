import Verif.CompactVector
import Verif.OwnSwap
/-
  Correctness of the operations of compact_vector.
-/

set_option linter.unusedSimpArgs false

namespace Sfl
variable {α : Type} {E : Env α} {H : Heap α} {al b nb c : Nat} {o : Obj Vec α} {xs : List α}

/-- A compact vector holding `xs`: its block has exactly as many cells as there are elements. -/
abbrev CSt (H : Heap α) (E : Env α) (o : Obj Vec α) (al b : Nat) (xs : List α) : Prop :=
  VSt H E 0 0 o al b xs.length xs

/-- Reallocation copies the elements (the old ones stay intact until the end). -/
def Copies (E : Env α) : Prop := E.nothrowMoveCtor = false ∧ E.copyable = true

theorem Copies.strong (h : Copies E) : Strong E := Or.inr h.2

/-- A reallocation in progress: the new storage `nb` (capacity `c`) contains `f`; old elements from index `lo` on have
not been touched. -/
structure Moving (H : Heap α) (E : Env α) (al b : Nat) (o : Obj Vec α) (xs : List α)
    (nb c lo : Nat) (f : Nat → Option α) (s : St α) : Prop where
  h2 : Store2 H s al 0 0 b xs.length nb c
  new : ∀ i, s.mem nb i = f i
  old : ∀ i, lo ≤ i → s.mem b i = xs[i]?
  live : ∀ i, (s.mem b i).isSome ↔ i < xs.length
  strong : Copies E → s.mem b = o.m.mem b
  cLe : c ≤ E.maxSize

/-- A reallocation that has thrown; the old elements are intact if `P`. -/
structure MoveFail (H : Heap α) (al b : Nat) (o : Obj Vec α) (xs : List α) (P : Prop)
    (nb c : Nat) (f : Nat → Option α) (s : St α) : Prop where
  h2 : Store2 H s al 0 0 b xs.length nb c
  new : ∀ i, s.mem nb i = f i
  live : ∀ i, (s.mem b i).isSome ↔ i < xs.length
  strong : P → s.mem b = o.m.mem b

/-- What a failed reallocation leaves behind. -/
def Left (H : Heap α) (E : Env α) (al b : Nat) (xs : List α) (P : Prop) (o' : Obj Vec α) : Prop :=
  ∃ xs', CSt H E o' al b xs' ∧ xs'.length = xs.length ∧ (P → xs' = xs)

section moving
variable {lo : Nat} {f : Nat → Option α} {s : St α} {P : Prop}

theorem Moving.ne_null (g : Moving H E al b o xs nb c lo f s) (hc : 0 < c) : (⟨nb, 0⟩ : Ptr) ≠ Ptr.null :=
  ptr0_ne_null (g.h2.nb_ne_zero hc)

theorem Moving.failFresh {s' : St α} (h : CSt H E o al b xs)
    (g : Moving H E al b o xs nb c 0 f s) (hs : Same s s') (hm : s'.mem = s.mem) :
    MoveFail H al b o xs P nb c f s' where
  h2 := g.h2.upd hs (fun i hi => by rw [hm]; exact g.h2.beyond i hi)
    (fun i hi => by rw [hm]; exact g.h2.nbeyond i hi) (fun c _ _ i => by rw [hm])
  new := fun i => by rw [hm]; exact g.new i
  live := fun i => by rw [hm]; exact g.live i
  strong := fun _ => by funext i; rw [hm, g.old i (Nat.zero_le _), h.cells]

theorem Moving.failLate {s' : St α} (g : Moving H E al b o xs nb c lo f s) (hs : Same s s') (hm : s'.mem = s.mem) :
    MoveFail H al b o xs (Copies E) nb c f s' where
  h2 := g.h2.upd hs (fun i hi => by rw [hm]; exact g.h2.beyond i hi)
    (fun i hi => by rw [hm]; exact g.h2.nbeyond i hi) (fun c _ _ i => by rw [hm])
  new := fun i => by rw [hm]; exact g.new i
  live := fun i => by rw [hm]; exact g.live i
  strong := fun hp => by rw [hm, g.strong hp]

theorem Moving.skip {lo' : Nat} (g : Moving H E al b o xs nb c lo f s) (h : lo ≤ lo') :
    Moving H E al b o xs nb c lo' f s :=
  ⟨g.h2, g.new, fun i hi => g.old i (by omega), g.live, g.strong, g.cLe⟩

theorem Moving.write {s' : St α} {f' : Nat → Option α}
    (g : Moving H E al b o xs nb c lo f s) (hs : Same s s')
    (hm : ∀ d i, s'.mem d i = if d = nb then f' i else s.mem d i)
    (hf : ∀ i, c ≤ i → f' i = none) :
    Moving H E al b o xs nb c lo f' s' where
  h2 := by
    have hne := g.h2.ne
    refine g.h2.upd hs ?_ ?_ ?_
    · intro i hi; rw [hm, if_neg (Ne.symm hne)]; exact g.h2.beyond i hi
    · intro i hi; rw [hm, if_pos rfl]; exact hf i hi
    · intro d _ h2 i; rw [hm, if_neg h2]
  new := fun i => by rw [hm, if_pos rfl]
  old := fun i hi => by rw [hm, if_neg (Ne.symm g.h2.ne)]; exact g.old i hi
  live := fun i => by rw [hm, if_neg (Ne.symm g.h2.ne)]; exact g.live i
  strong := fun h1 => by
    rw [← g.strong h1]; funext i; rw [hm, if_neg (Ne.symm g.h2.ne)]
  cLe := g.cLe

theorem Moving.step {n d0 : Nat} {p q d : Ptr} {Q : Ptr → St α → Prop} {X : Exn → St α → Prop}
    (g : Moving H E al b o xs nb c lo f s)
    (hp : p = ⟨b, lo⟩) (hq : q = ⟨b, lo + n⟩) (hd : d = ⟨nb, d0⟩)
    (hn : lo + n ≤ xs.length) (hc : d0 + n ≤ c)
    (hr : ∀ i, d0 ≤ i → i < d0 + n → f i = none)
    (hQ : ∀ s', Moving H E al b o xs nb c (lo + n)
        (fun i => if d0 ≤ i ∧ i < d0 + n then xs[lo + (i - d0)]? else f i) s' → Q ⟨nb, d0 + n⟩ s')
    (hX : ∀ s', MoveFail H al b o xs (Strong E) nb c f s' → X .elem s') :
    wp (uninitMoveIf E p q d) Q X s := by
  refine g.h2.moveIf hp hq hd ?_ ?_ hc ?_ ?_
  · intro i h1 h2; rw [g.live]; omega
  · intro i h1 h2; rw [g.new]; exact hr i h1 h2
  · intro s' h2 hnx ht hnew hl hout hst
    refine hQ s' ⟨h2, ?_, ?_, ?_, ?_, g.cLe⟩
    · intro i; rw [hnew]
      by_cases hi : d0 ≤ i ∧ i < d0 + n
      · rw [if_pos hi, if_pos hi]; exact g.old _ (by omega)
      · rw [if_neg hi, if_neg hi]; exact g.new i
    · intro i hi; rw [hout i (by omega)]; exact g.old i (by omega)
    · intro i; rw [hl]; exact g.live i
    · intro h1; rw [hst h1.1 h1.strong]; exact g.strong h1
  · intro s' h2 hnx hnew hnm hl hst
    refine hX s' ⟨h2, ?_, ?_, ?_⟩
    · intro i; rw [hnew]; exact g.new i
    · intro i; rw [hl]; exact g.live i
    · intro h3
      rw [hst h3]
      rcases h3 with h3 | h3
      · rw [hnm] at h3; cases h3
      · exact g.strong ⟨hnm, h3⟩

theorem MoveFail.left {s' : St α} (h : CSt H E o al b xs) (g : MoveFail H al b o xs P nb c f s)
    (hm : s'.mem b = s.mem b) (hst : Store H s' al 0 0 b xs.length) :
    Left H E al b xs P ⟨⟨⟨b, 0⟩, ⟨b, xs.length⟩, ⟨b, xs.length⟩, al⟩, s'⟩ := by
  by_cases hP : P
  · exact ⟨xs, VSt.mk' rfl rfl rfl hst h.len (fun i => by rw [hm, g.strong hP, h.cells]) h.capLe h.nLe, rfl,
      fun _ => rfl⟩
  · obtain ⟨ys, h1, h2⟩ := exists_list (f := s'.mem b) xs.length (fun i => by rw [hm]; exact g.live i)
    refine ⟨ys, ?_, h1, fun h' => absurd h' hP⟩
    rw [CSt, h1]
    exact VSt.mk' rfl (by rw [h1]) rfl hst (by omega) h2 h.capLe h.nLe

theorem MoveFail.undoN {d0 n : Nat} {p : Ptr} {Q : Unit → St α → Prop} {X : Exn → St α → Prop}
    (h : CSt H E o al b xs) (g : MoveFail H al b o xs P nb c f s)
    (hp : p = ⟨nb, d0⟩)
    (hl : ∀ i, d0 ≤ i → i < d0 + n → (f i).isSome)
    (hr : ∀ i, ¬ (d0 ≤ i ∧ i < d0 + n) → f i = none)
    (hQ : ∀ s', Left H E al b xs P ⟨⟨⟨b, 0⟩, ⟨b, xs.length⟩, ⟨b, xs.length⟩, al⟩, s'⟩ → Q () s') :
    wp (destroyN p n) (fun _ s' => wp (deallocate al ⟨nb, 0⟩ c) Q X s') X s := by
  rw [← freeUnless_zero]
  exact g.h2.undoN hp (fun i h1 h2 => by rw [g.new]; exact hl i h1 h2) (fun i hi => by rw [g.new]; exact hr i hi)
    (fun _ => rfl) (fun _ h1 _ h3 => hQ _ (g.left h h1 h3))

theorem MoveFail.undo {d0 n : Nat} {p q : Ptr} {Q : Unit → St α → Prop} {X : Exn → St α → Prop}
    (h : CSt H E o al b xs) (g : MoveFail H al b o xs P nb c f s)
    (hp : p = ⟨nb, d0⟩) (hq : q = ⟨nb, d0 + n⟩)
    (hl : ∀ i, d0 ≤ i → i < d0 + n → (f i).isSome)
    (hr : ∀ i, ¬ (d0 ≤ i ∧ i < d0 + n) → f i = none)
    (hQ : ∀ s', Left H E al b xs P ⟨⟨⟨b, 0⟩, ⟨b, xs.length⟩, ⟨b, xs.length⟩, al⟩, s'⟩ → Q () s') :
    wp (destroyRange p q) (fun _ s' => wp (deallocate al ⟨nb, 0⟩ c) Q X s') X s := by
  rw [← freeUnless_zero]
  exact g.h2.undo hp hq (fun i h1 h2 => by rw [g.new]; exact hl i h1 h2) (fun i hi => by rw [g.new]; exact hr i hi)
    (fun _ => rfl) (fun _ h1 _ h3 => hQ _ (g.left h h1 h3))

theorem MoveFail.undoAt {d0 : Nat} {p : Ptr} {Q : Unit → St α → Prop} {X : Exn → St α → Prop}
    (h : CSt H E o al b xs) (g : MoveFail H al b o xs P nb c f s)
    (hp : p = ⟨nb, d0⟩) (hl : (f d0).isSome) (hr : ∀ i, i ≠ d0 → f i = none)
    (hQ : ∀ s', Left H E al b xs P ⟨⟨⟨b, 0⟩, ⟨b, xs.length⟩, ⟨b, xs.length⟩, al⟩, s'⟩ → Q () s') :
    wp (destroyAt p) (fun _ s' => wp (deallocate al ⟨nb, 0⟩ c) Q X s') X s := by
  rw [← freeUnless_zero]
  exact g.h2.undoAt hp (by rw [g.new]; exact hl) (fun i hi => by rw [g.new]; exact hr i hi)
    (fun _ => rfl) (fun _ h1 _ h3 => hQ _ (g.left h h1 h3))

theorem wp_replace {f l e : Ptr} {n : Nat} {Q : Unit → Obj Vec α → Prop} {X : Exn → Obj Vec α → Prop}
    {o : Obj Vec α} (ho : o.obj = ⟨⟨b, 0⟩, ⟨b, n⟩, ⟨b, n⟩, al⟩)
    (h : wp (SmallVector.replaceStorage 0 f l e) Q X o) : wp (CompactVector.replace f l e) Q X o := by
  rw [SmallVector.replaceStorage_zero] at h
  unfold CompactVector.replace
  unfold Vector.replaceStorage at h
  rw [wp_bind, wp_getObj] at h ⊢
  rw [ho] at h ⊢
  exact h

theorem Moving.finish {o1 : Obj Vec α} {ys : List α} {l e : Ptr}
    {Q : Unit → Obj Vec α → Prop} {X : Exn → Obj Vec α → Prop}
    (h : CSt H E o al b xs)
    (g : Moving H E al b o xs nb c lo f o1.m)
    (ho1 : o1.obj = ⟨⟨b, 0⟩, ⟨b, xs.length⟩, ⟨b, xs.length⟩, al⟩)
    (hf : ∀ i, f i = ys[i]?) (hys : ys.length = c)
    (hl : l = ⟨nb, ys.length⟩) (he : e = ⟨nb, c⟩)
    (hQ : ∀ o', CSt H E o' al nb ys → Q () o') :
    wp (CompactVector.replace ⟨nb, 0⟩ l e) Q X o1 := by
  refine wp_replace ho1 (wp_replaceStorage ho1 g.h2 g.live ?_)
  intro s4 h5 hnx4 ht4 hm4
  subst hys
  refine hQ _ ?_
  refine VSt.mk' rfl hl he h5 (Nat.le_refl _) ?_ g.cLe h.nLe
  intro i; rw [hm4, g.new, hf]

/-- Start of a reallocation: the new block is allocated. -/
theorem moveStart {n : Nat} {Q : Ptr → St α → Prop} {X : Exn → St α → Prop}
    (h : CSt H E o al b xs) (hn : 0 < n ∨ b ≠ 0) (hm : n ≤ E.maxSize)
    (hQ : ∀ nb s, Moving H E al b o xs nb n 0 (fun _ => none) s → s.mem = o.m.mem → Q ⟨nb, 0⟩ s)
    (hX : ∀ s', CSt H E ⟨⟨⟨b, 0⟩, ⟨b, xs.length⟩, ⟨b, xs.length⟩, al⟩, s'⟩ al b xs → X .badAlloc s') :
    wp (allocate E al n) Q X o.m := by
  refine wp_allocate h.st.wf ?_ ?_ ?_
  · intro h0
    subst h0
    obtain ⟨h2, h3⟩ := h.st.useInternal (by omega)
    refine hQ 0 o.m ⟨h2, h3, fun i _ => h.cells i, h.live, fun _ => rfl, hm⟩ rfl
  · intro h0 s' hm' hnx _ hb
    obtain ⟨h2, h3⟩ := h.st.alloc hm' hnx (ncap := n) (by omega) hb
    refine hQ _ s' ⟨h2, h3, ?_, ?_, ?_, hm⟩ hm'
    · intro i _; rw [hm', h.cells]
    · intro i; rw [hm']; exact h.live i
    · intro _; rw [hm']
  · intro _ s' hs hm'
    exact hX s' (VSt.mk' rfl rfl rfl (h.st.same hs hm') h.len (fun i => by rw [hm', h.cells]) h.capLe h.nLe)

end moving

theorem CSt.blk_zero (h : CSt H E o al b xs) (hb : b = 0) : xs = [] := by
  rcases h.st.own with ⟨_, h0⟩ | ⟨_, h0⟩ | ⟨_, h0, _⟩
  · exact List.eq_nil_of_length_eq_zero h0
  · exact List.eq_nil_of_length_eq_zero h0
  · exact absurd hb h0

namespace CompactVector

theorem wp_size {Q : Nat → Obj Vec α → Prop} {X : Exn → Obj Vec α → Prop}
    (h : CSt H E o al b xs) (hQ : Q xs.length o) : wp CompactVector.size Q X o := by
  unfold CompactVector.size
  rw [wp_bind, wp_getObj, h.obj]
  exact wp_distance rfl (by simp) (by simpa using hQ)

theorem emplace_spec {a : Arg α} {v : α} {k : Nat}
    (h : CSt H E o al b xs) (hv : a.value o.m = some v) (hsrc : a.src E = none) (hk : k ≤ xs.length) :
    wp (CompactVector.emplace E ⟨b, k⟩ a)
      (fun p o' => ∃ b', CSt H E o' al b' (xs.take k ++ v :: xs.drop k) ∧ p = ⟨b', k⟩)
      (fun e o' => Left H E al b xs (Strong E) o' ∧ (e = .lengthError → E.maxSize < xs.length + 1))
      o := by
  have hlen := h.len
  have h0 : Left H E al b xs (Strong E) o := ⟨xs, h, rfl, fun _ => rfl⟩
  unfold CompactVector.emplace CompactVector.checkSize
  simp only [wp_bind, wp_getObj, wp_ite, wp_lift, wp_setObj, wp_pure, wp_tryCatch, wp_throw, wp_assert]
  rw [h.obj]
  refine ⟨⟨rfl, by simp, by simpa using hk⟩, ?_⟩
  have hp : (⟨b, 0⟩ : Ptr).add (k - 0) = ⟨b, k⟩ := by simp [Ptr.add]
  dsimp only
  rw [hp]
  refine wp_size h ?_
  by_cases hmax : xs.length + 1 > E.maxSize
  · rw [if_pos hmax]; exact ⟨h0, fun _ => hmax⟩
  rw [if_neg hmax]
  rw [h.obj]
  refine moveStart h (Or.inl (by omega)) (by omega) ?_ ?_
  · intro nb s1 g hm1
    refine construct_copy ((value_of_mem hm1).trans hv) hsrc (g.h2.inB (by simp; omega)) (g.new _) ?_ ?_
    · intro s2 hs2 ht2 hm2
      have g2 := g.write (f' := fun i => if i = k then some v else none) hs2 (fun d i => by
        rw [hm2]; have := g.new i; grind) (fun i hi => by grind)
      refine g2.step (n := k) (d0 := 0) rfl (by simp [Ptr.add]) rfl (by omega) (by omega) ?_ ?_ ?_
      · intro i _ hi; grind
      · intro s3 g3
        refine g3.step (n := xs.length - k) (d0 := k + 1) (by simp [Ptr.add]) (by simp [Ptr.add]; omega)
          (by simp [Ptr.add]) (by omega) (by omega) ?_ ?_ ?_
        · intro i _ hi; grind
        · intro s4 g4
          refine g4.finish (ys := xs.take k ++ v :: xs.drop k) h rfl ?_ (by simp; omega)
            (by simp [Ptr.add]; omega) (by simp [Ptr.add]) ?_
          · intro i; grind
          · intro o' hd
            exact ⟨nb, hd, by simp [Ptr.add]⟩
        · intro s4 g4
          rw [if_neg (by have := g.ne_null (by omega); simp [Ptr.add, Ptr.null] at *)]
          refine g4.undo h (d0 := 0) (n := k + 1) rfl (by simp [Ptr.add]) ?_ ?_ (fun s' hs' => ⟨hs', by simp⟩)
          · intro i _ hi; grind
          · intro i hi; grind
      · intro s3 g3
        rw [if_pos trivial]
        exact g3.undoAt h (d0 := k) (by simp [Ptr.add]) (by simp) (by grind) (fun s' hs' => ⟨hs', by simp⟩)
    · intro s2 hs2 hm2
      rw [if_neg (g.ne_null (by omega))]
      exact (g.failFresh h hs2 hm2).undo h (d0 := 0) (n := 0) rfl rfl (by omega) (fun _ _ => rfl)
        (fun s' hs' => ⟨hs', by simp⟩)
  · intro s' hs'
    exact ⟨⟨xs, hs', rfl, fun _ => rfl⟩, by simp⟩

theorem emplaceBack_spec {a : Arg α} {v : α}
    (h : CSt H E o al b xs) (hv : a.value o.m = some v) (hsrc : a.src E = none) :
    wp (CompactVector.emplaceBack E a)
      (fun p o' => ∃ b', CSt H E o' al b' (xs ++ [v]) ∧ p = ⟨b', xs.length⟩)
      (fun e o' => Left H E al b xs (Strong E) o' ∧ (e = .lengthError → E.maxSize < xs.length + 1))
      o := by
  unfold CompactVector.emplaceBack
  rw [wp_bind, wp_getObj, h.obj]
  have := emplace_spec h hv hsrc (Nat.le_refl _)
  simpa using this

theorem insertFillN_spec {a : Arg α} {v : α} {k n : Nat}
    (h : CSt H E o al b xs) (hv : a.value o.m = some v) (hsrc : a.src E = none) (hk : k ≤ xs.length) :
    wp (CompactVector.insertFillN E ⟨b, k⟩ n a)
      (fun p o' => ∃ b', CSt H E o' al b' (xs.take k ++ List.replicate n v ++ xs.drop k) ∧ p = ⟨b', k⟩)
      (fun e o' => Left H E al b xs (Strong E) o' ∧ (e = .lengthError → E.maxSize < xs.length + n))
      o := by
  have hlen := h.len
  have h0 : Left H E al b xs (Strong E) o := ⟨xs, h, rfl, fun _ => rfl⟩
  unfold CompactVector.insertFillN CompactVector.checkSize uninitFillN
  simp only [wp_bind, wp_getObj, wp_ite, wp_lift, wp_setObj, wp_pure, wp_tryCatch, wp_throw, wp_assert]
  rw [h.obj]
  refine ⟨⟨rfl, by simp, by simpa using hk⟩, ?_⟩
  have hp : (⟨b, 0⟩ : Ptr).add (k - 0) = ⟨b, k⟩ := by simp [Ptr.add]
  dsimp only
  rw [hp]
  by_cases hn : n = 0
  · rw [if_pos hn]
    refine ⟨b, ?_, by trivial⟩
    subst hn
    have : xs.take k ++ List.replicate 0 v ++ xs.drop k = xs := by simp
    rw [this]; exact h
  rw [if_neg hn]
  refine wp_size h ?_
  by_cases hmax : xs.length + n > E.maxSize
  · rw [if_pos hmax]; exact ⟨h0, fun _ => hmax⟩
  rw [if_neg hmax]
  rw [h.obj]
  refine moveStart h (Or.inl (by omega)) (by omega) ?_ ?_
  · intro nb s1 g hm1
    refine wp_uninit_copy (map_value_replicate ((value_of_mem hm1).trans hv))
      (by intro a' ha'; rw [List.eq_of_mem_replicate ha']; exact hsrc) ?_ ?_ ?_ ?_
    · intro j hj; exact g.h2.inB (by simp at hj ⊢; omega)
    · intro j hj; exact g.new _
    · intro s2 hs2 ht2 hm2
      simp only [List.length_replicate] at hm2 ht2
      have g2 := g.write (f' := fun i => if k ≤ i ∧ i < k + n then some v else none) hs2 (fun d i => by
        rw [hm2]; have := g.new i; grind) (fun i hi => by grind)
      refine g2.step (n := k) (d0 := 0) rfl (by simp [Ptr.add]) rfl (by omega) (by omega) ?_ ?_ ?_
      · intro i _ hi; grind
      · intro s3 g3
        refine g3.step (n := xs.length - k) (d0 := k + n) (by simp [Ptr.add]) (by simp [Ptr.add]; omega)
          (by simp [Ptr.add]) (by omega) (by omega) ?_ ?_ ?_
        · intro i _ hi; grind
        · intro s4 g4
          refine g4.finish (ys := xs.take k ++ List.replicate n v ++ xs.drop k) h rfl ?_ (by simp; omega)
            (by simp [Ptr.add]; omega) (by simp [Ptr.add]) ?_
          · intro i; grind
          · intro o' hd
            exact ⟨nb, hd, by simp [Ptr.add]⟩
        · intro s4 g4
          rw [if_neg (by have := g.ne_null (by omega); simp [Ptr.add, Ptr.null] at *; omega)]
          refine g4.undo h (d0 := 0) (n := k + n) rfl (by simp [Ptr.add]) ?_ ?_ (fun s' hs' => ⟨hs', by simp⟩)
          · intro i _ hi; grind
          · intro i hi; grind
      · intro s3 g3
        rw [if_pos trivial]
        refine g3.undoN h (d0 := k) (by simp [Ptr.add]) ?_ ?_ (fun s' hs' => ⟨hs', by simp⟩)
        · intro i _ hi; grind
        · intro i hi; grind
    · intro s2 hs2 hm2
      rw [if_neg (g.ne_null (by omega))]
      exact (g.failFresh h hs2 hm2).undo h (d0 := 0) (n := 0) rfl rfl (by omega) (fun _ _ => rfl)
        (fun s' hs' => ⟨hs', by simp⟩)
  · intro s' hs'
    exact ⟨⟨xs, hs', rfl, fun _ => rfl⟩, by simp⟩

theorem insertRange_spec {ys : List α} {k : Nat} (h : CSt H E o al b xs) (hk : k ≤ xs.length) :
    wp (CompactVector.insertRange E ⟨b, k⟩ ys)
      (fun p o' => ∃ b', CSt H E o' al b' (xs.take k ++ ys ++ xs.drop k) ∧ p = ⟨b', k⟩)
      (fun e o' => Left H E al b xs (Copies E) o' ∧ (e = .lengthError → E.maxSize < xs.length + ys.length))
      o := by
  have hlen := h.len
  have h0 : Left H E al b xs (Copies E) o := ⟨xs, h, rfl, fun _ => rfl⟩
  have weak : ∀ o', Left H E al b xs (Strong E) o' → Left H E al b xs (Copies E) o' :=
    fun o' ⟨xs', h1, h2, h3⟩ => ⟨xs', h1, h2, fun hc => h3 hc.strong⟩
  unfold CompactVector.insertRange CompactVector.checkSize uninitCopyList
  simp only [wp_bind, wp_getObj, wp_ite, wp_lift, wp_setObj, wp_pure, wp_tryCatch, wp_throw, wp_assert]
  rw [h.obj]
  refine ⟨⟨rfl, by simp, by simpa using hk⟩, ?_⟩
  have hp : (⟨b, 0⟩ : Ptr).add (k - 0) = ⟨b, k⟩ := by simp [Ptr.add]
  dsimp only
  rw [hp]
  by_cases hn : ys = []
  · rw [if_pos hn]
    refine ⟨b, ?_, by trivial⟩
    subst hn
    have : xs.take k ++ [] ++ xs.drop k = xs := by simp
    rw [this]; exact h
  rw [if_neg hn]
  have hpos : 0 < ys.length := by cases ys with | nil => exact absurd rfl hn | cons => simp
  refine wp_size h ?_
  by_cases hmax : xs.length + ys.length > E.maxSize
  · rw [if_pos hmax]; exact ⟨h0, fun _ => hmax⟩
  rw [if_neg hmax]
  rw [h.obj]
  refine moveStart h (Or.inl (by omega)) (by omega) ?_ ?_
  · intro nb s1 g hm1
    refine g.step (n := k) (d0 := 0) rfl (by simp [Ptr.add]) rfl (by omega) (by omega) ?_ ?_ ?_
    · intro i _ hi; rfl
    · intro s2 g2
      refine wp_uninit_copy (map_value_val ys) mem_map_val_src ?_ ?_ ?_ ?_
      · intro j hj; simp at hj; exact g2.h2.inB (by simp; omega)
      · intro j hj; simp at hj; simp only [Nat.zero_add]; rw [g2.new]; grind
      · intro s3 hs3 ht3 hm3
        simp only [List.length_map, Nat.zero_add] at hm3 ht3
        have g3 := g2.write (f' := fun i => if i < k then xs[i]? else ys[i - k]?) hs3 (fun d i => by
          rw [hm3]; have := g2.new i; simp only [Ptr.has] at *; grind) (fun i hi => by grind)
        refine g3.step (n := xs.length - k) (d0 := k + ys.length) (by simp [Ptr.add]) (by simp [Ptr.add]; omega)
          (by simp [Ptr.add]) (by omega) (by omega) ?_ ?_ ?_
        · intro i _ hi; grind
        · intro s4 g4
          refine g4.finish (ys := xs.take k ++ ys ++ xs.drop k) h rfl ?_ (by simp; omega)
            (by simp [Ptr.add]; omega) (by simp [Ptr.add]) ?_
          · intro i; grind
          · intro o' hd
            exact ⟨nb, hd, by simp [Ptr.add]⟩
        · intro s4 g4
          refine g4.undo h (d0 := 0) (n := k + ys.length) rfl (by simp [Ptr.add]) ?_ ?_
            (fun s' hs' => ⟨weak _ hs', by simp⟩)
          · intro i _ hi; grind
          · intro i hi; grind
      · intro s3 hs3 hm3
        refine (g2.failLate hs3 hm3).undo h (d0 := 0) (n := k) rfl (by simp [Ptr.add]) ?_ ?_
          (fun s' hs' => ⟨hs', by simp⟩)
        · intro i _ hi; grind
        · intro i hi; grind
    · intro s2 g2
      exact g2.undo h (d0 := 0) (n := 0) rfl rfl (by omega) (fun _ _ => rfl) (fun s' hs' => ⟨weak _ hs', by simp⟩)
  · intro s' hs'
    exact ⟨⟨xs, hs', rfl, fun _ => rfl⟩, by simp⟩

theorem eraseRange_spec {k l : Nat} (h : CSt H E o al b xs) (hkl : k ≤ l) (hl : l ≤ xs.length) :
    wp (CompactVector.eraseRange E ⟨b, k⟩ ⟨b, l⟩)
      (fun p o' => ∃ b', CSt H E o' al b' (xs.take k ++ xs.drop l) ∧ p = ⟨b', k⟩)
      (fun e o' => Left H E al b xs (Strong E) o' ∧ e ≠ .lengthError ∧ k < l)
      o := by
  have hlen := h.len
  unfold CompactVector.eraseRange
  simp only [wp_bind, wp_getObj, wp_ite, wp_lift, wp_setObj, wp_pure, wp_tryCatch, wp_throw, wp_assert]
  rw [h.obj]
  refine ⟨by simp; omega, ?_⟩
  have hp : (⟨b, 0⟩ : Ptr).add (k - 0) = ⟨b, k⟩ := by simp [Ptr.add]
  have hp2 : (⟨b, 0⟩ : Ptr).add (l - 0) = ⟨b, l⟩ := by simp [Ptr.add]
  dsimp only
  rw [hp, hp2]
  by_cases hn : (⟨b, k⟩ : Ptr) = ⟨b, l⟩
  · rw [if_pos hn]
    refine ⟨b, ?_, by trivial⟩
    obtain rfl : k = l := by simpa using hn
    have : xs.take k ++ xs.drop k = xs := by simp
    rw [this]; exact h
  rw [if_neg hn]
  have hlt : k < l := by
    have : k ≠ l := fun h' => hn (by rw [h'])
    omega
  refine wp_size h ?_
  rw [h.obj]
  have hb : b ≠ 0 := fun hb => by have := CSt.blk_zero h hb; subst this; simp at hl; omega
  have hcl := h.capLe
  refine moveStart h (Or.inr hb) (by omega) ?_ ?_
  · intro nb s1 g hm1
    refine g.step (n := k) (d0 := 0) rfl (by simp [Ptr.add]) rfl (by omega) (by omega) ?_ ?_ ?_
    · intro i _ hi; rfl
    · intro s2 g2
      refine (g2.skip (lo' := l) (by omega)).step (n := xs.length - l) (d0 := k) rfl (by simp; omega)
        (by simp) (by omega) (by omega) ?_ ?_ ?_
      · intro i _ hi; grind
      · intro s4 g4
        refine g4.finish (ys := xs.take k ++ xs.drop l) h rfl ?_ (by simp; omega)
          (by simp [Ptr.add]; omega) (by simp [Ptr.add]) ?_
        · intro i; grind
        · intro o' hd
          exact ⟨nb, hd, by simp [Ptr.add]⟩
      · intro s4 g4
        refine g4.undo h (d0 := 0) (n := k) rfl (by simp [Ptr.add]) ?_ ?_
          (fun s' hs' => ⟨hs', by simp, hlt⟩)
        · intro i _ hi; grind
        · intro i hi; grind
    · intro s2 g2
      exact g2.undo h (d0 := 0) (n := 0) rfl rfl (by omega) (fun _ _ => rfl) (fun s' hs' => ⟨hs', by simp, hlt⟩)
  · intro s' hs'
    exact ⟨⟨xs, hs', rfl, fun _ => rfl⟩, by simp, hlt⟩

theorem eraseAt_spec {k : Nat} (h : CSt H E o al b xs) (hk : k < xs.length) :
    wp (CompactVector.eraseAt E ⟨b, k⟩)
      (fun p o' => ∃ b', CSt H E o' al b' (xs.take k ++ xs.drop (k + 1)) ∧ p = ⟨b', k⟩)
      (fun e o' => Left H E al b xs (Strong E) o' ∧ e ≠ .lengthError)
      o := by
  unfold CompactVector.eraseAt
  rw [wp_bind, wp_getObj, wp_bind, wp_assert, h.obj]
  refine ⟨⟨rfl, by simp, by simpa using hk⟩, ?_⟩
  exact wp_mono (eraseRange_spec h (Nat.le_succ k) hk) (fun _ _ h => h) (fun _ _ h => ⟨h.1, h.2.1⟩)

theorem popBack_spec (h : CSt H E o al b xs) (hne : 0 < xs.length) :
    wp (CompactVector.popBack E)
      (fun _ o' => ∃ b', CSt H E o' al b' xs.dropLast)
      (fun e o' => Left H E al b xs (Strong E) o' ∧ e ≠ .lengthError)
      o := by
  unfold CompactVector.popBack
  rw [wp_bind, wp_getObj, wp_bind, wp_assert, wp_bind, h.obj]
  refine ⟨by simp; omega, ?_⟩
  have hsub : (⟨b, xs.length⟩ : Ptr).sub 1 = ⟨b, xs.length - 1⟩ := Ptr.sub_of_le (by simp; omega)
  dsimp only
  rw [hsub]
  refine wp_mono (eraseAt_spec h (k := xs.length - 1) (by omega)) ?_ (fun _ _ h => h)
  rintro p o' ⟨b', h1, _⟩
  rw [wp_pure]
  refine ⟨b', ?_⟩
  rw [show xs.length - 1 + 1 = xs.length by omega, List.drop_length, List.append_nil, ← List.dropLast_eq_take] at h1
  exact h1

theorem resizeGrow_spec {a : Arg α} {v : α} {n : Nat} {s1 : St α}
    {Q : Ptr → Obj Vec α → Prop} {X : Exn → Obj Vec α → Prop}
    (h : CSt H E o al b xs) (hn : xs.length < n)
    (g : Moving H E al b o xs nb n 0 (fun _ => none) s1)
    (hv : ∀ s, (Copies E → s.mem b = o.m.mem b) → a.value s = some v) (hsrc : a.src E = none)
    (hQ : ∀ s', Moving H E al b o xs nb n xs.length (fun i => (xs ++ List.replicate (n - xs.length) v)[i]?) s' →
      Q ⟨nb, n⟩ ⟨⟨⟨b, 0⟩, ⟨b, xs.length⟩, ⟨b, xs.length⟩, al⟩, s'⟩)
    (hX : ∀ o', Left H E al b xs (Copies E) o' → X .elem o') :
    wp (CompactVector.resizeGrow E ⟨⟨b, 0⟩, ⟨b, xs.length⟩, ⟨b, xs.length⟩, al⟩ n xs.length a ⟨nb, 0⟩) Q X
      ⟨⟨⟨b, 0⟩, ⟨b, xs.length⟩, ⟨b, xs.length⟩, al⟩, s1⟩ := by
  have weak : ∀ o', Left H E al b xs (Strong E) o' → Left H E al b xs (Copies E) o' :=
    fun o' ⟨xs', h1, h2, h3⟩ => ⟨xs', h1, h2, fun hc => h3 hc.strong⟩
  unfold CompactVector.resizeGrow uninitFillN
  simp only [wp_bind, wp_getObj, wp_ite, wp_lift, wp_setObj, wp_pure, wp_tryCatch, wp_throw, wp_assert]
  refine g.step (n := xs.length) (d0 := 0) rfl (by simp) rfl (by omega) (by omega) ?_ ?_ ?_
  · intro i _ hi; rfl
  · intro s2 g2
    refine wp_uninit_copy (map_value_replicate (hv s2 g2.strong))
      (by intro a' ha'; rw [List.eq_of_mem_replicate ha']; exact hsrc) ?_ ?_ ?_ ?_
    · intro j hj; exact g2.h2.inB (by simp at hj ⊢; omega)
    · intro j hj; simp only [Nat.zero_add]; rw [g2.new]; grind
    · intro s3 hs3 ht3 hm3
      simp only [List.length_replicate, Nat.zero_add] at hm3 ht3
      have g3 := g2.write (f' := fun i => (xs ++ List.replicate (n - xs.length) v)[i]?) hs3 (fun d i => by
        rw [hm3]; have := g2.new i; simp only [Ptr.has] at *; grind) (fun i hi => by grind)
      have := hQ s3 (by simpa using g3)
      have e : (⟨nb, 0 + xs.length⟩ : Ptr).add (List.replicate (n - xs.length) a).length = ⟨nb, n⟩ := by
        simp [Ptr.add]; omega
      rw [e]; exact this
    · intro s3 hs3 hm3
      refine (g2.failLate hs3 hm3).undo h (d0 := 0) (n := xs.length) rfl (by simp [Ptr.add]) ?_ ?_
        (fun s' hs' => hX _ hs')
      · intro i _ hi; grind
      · intro i hi; grind
  · intro s2 g2
    exact g2.undo h (d0 := 0) (n := 0) rfl rfl (by omega) (fun _ _ => rfl) (fun s' hs' => hX _ (weak _ hs'))

theorem resizeShrink_spec {n : Nat} {s1 : St α}
    {Q : Ptr → Obj Vec α → Prop} {X : Exn → Obj Vec α → Prop}
    (h : CSt H E o al b xs) (hn : n < xs.length)
    (g : Moving H E al b o xs nb n 0 (fun _ => none) s1)
    (hQ : ∀ s', Moving H E al b o xs nb n n (fun i => (xs.take n)[i]?) s' →
      Q ⟨nb, n⟩ ⟨⟨⟨b, 0⟩, ⟨b, xs.length⟩, ⟨b, xs.length⟩, al⟩, s'⟩)
    (hX : ∀ o', Left H E al b xs (Strong E) o' → X .elem o') :
    wp (CompactVector.resizeShrink E ⟨⟨b, 0⟩, ⟨b, xs.length⟩, ⟨b, xs.length⟩, al⟩ n ⟨nb, 0⟩) Q X
      ⟨⟨⟨b, 0⟩, ⟨b, xs.length⟩, ⟨b, xs.length⟩, al⟩, s1⟩ := by
  unfold CompactVector.resizeShrink
  simp only [wp_bind, wp_getObj, wp_ite, wp_lift, wp_setObj, wp_pure, wp_tryCatch, wp_throw, wp_assert]
  refine g.step (n := n) (d0 := 0) rfl (by simp [Ptr.add]) rfl (by omega) (by omega) ?_ ?_ ?_
  · intro i _ hi; rfl
  · intro s2 g2
    have := hQ s2 (by
      have e : (fun i => if 0 ≤ i ∧ i < 0 + n then xs[0 + (i - 0)]? else none) = fun i => (xs.take n)[i]? := by
        funext i; grind
      rw [e, Nat.zero_add] at g2; exact g2)
    simpa using this
  · intro s2 g2
    exact g2.undo h (d0 := 0) (n := 0) rfl rfl (by omega) (fun _ _ => rfl) (fun s' hs' => hX _ hs')

theorem resizeWith_spec {a : Arg α} {v : α} {n : Nat}
    (h : CSt H E o al b xs) 
    (hv : xs.length < n → ∀ s, (Copies E → s.mem b = o.m.mem b) → a.value s = some v) (hsrc : a.src E = none) :
    wp (CompactVector.resizeWith E n a)
      (fun _ o' => ∃ b', CSt H E o' al b' (xs.take n ++ List.replicate (n - xs.length) v))
      (fun e o' => Left H E al b xs (Copies E) o' ∧ (e = .lengthError → E.maxSize < n))
      o := by
  have weak : ∀ o', Left H E al b xs (Strong E) o' → Left H E al b xs (Copies E) o' :=
    fun o' ⟨xs', h1, h2, h3⟩ => ⟨xs', h1, h2, fun hc => h3 hc.strong⟩
  unfold CompactVector.resizeWith CompactVector.checkSize
  rw [wp_bind, wp_getObj, wp_bind]
  refine wp_size h ?_
  rw [h.obj, wp_ite]
  by_cases hn : n = xs.length
  · rw [if_pos hn, wp_pure]
    subst hn
    refine ⟨b, ?_⟩
    have : xs.take xs.length ++ List.replicate (xs.length - xs.length) v = xs := by simp
    rw [this]; exact h
  rw [if_neg hn, wp_bind, wp_ite]
  by_cases hmax : n > E.maxSize
  · rw [if_pos hmax, wp_throw]; exact ⟨⟨xs, h, rfl, fun _ => rfl⟩, fun _ => hmax⟩
  rw [if_neg hmax, wp_pure, wp_bind, wp_lift, h.obj]
  have hb : 0 < n ∨ b ≠ 0 := by
    by_cases hb : b = 0
    · have := CSt.blk_zero h hb; subst this; simp at hn; omega
    · exact Or.inr hb
  refine moveStart h hb (by omega) ?_ ?_
  · intro nb s1 g hm1
    by_cases hg : n > xs.length
    · simp only [if_pos hg]
      rw [wp_bind]
      refine resizeGrow_spec h hg g (hv hg) hsrc ?_ ?_
      · intro s2 g2
        refine g2.finish (ys := xs ++ List.replicate (n - xs.length) v) h rfl (fun _ => rfl) (by simp; omega)
          (by simp [Ptr.add]; omega) (by simp [Ptr.add]) ?_
        intro o' hd
        rw [List.take_of_length_le (by omega)]
        exact ⟨nb, hd⟩
      · intro o' hl; exact ⟨hl, by simp⟩
    · simp only [if_neg hg]
      rw [wp_bind]
      refine resizeShrink_spec h (by omega) g ?_ ?_
      · intro s2 g2
        refine g2.finish (ys := xs.take n) h rfl (fun _ => rfl) (by simp; omega)
          (by simp [Ptr.add]; omega) (by simp [Ptr.add]) ?_
        intro o' hd
        rw [show n - xs.length = 0 by omega, List.replicate_zero, List.append_nil]
        exact ⟨nb, hd⟩
      · intro o' hl; exact ⟨weak _ hl, by simp⟩
  · intro s' hs'
    exact ⟨⟨xs, hs', rfl, fun _ => rfl⟩, by simp⟩

end CompactVector
end Sfl
