import Verif.FlatHint
/-
  Correctness of the insertions of the ordered flat containers.
-/

namespace Sfl
open Sfl.Vector (VM)
variable {α κ : Type} {E : Env α} {H : Heap α} {al ib N b cap : Nat} {o o1 o' : Obj Vec α} {xs : List α}
  {C : Order α κ}

theorem VSt.doneLooked (h : VSt H E ib N o al b cap xs) (l : Looked o o') : Done H E ib N al b cap o o' b cap xs :=
  ⟨h.looked l, fun _ => ⟨rfl, rfl⟩, Or.inl rfl, Or.inl l.q.next⟩

theorem Done.since {b' cap' : Nat} {ys : List α} (l : o1.m.next = o.m.next)
    (h : Done H E ib N al b cap o1 o' b' cap' ys) : Done H E ib N al b cap o o' b' cap' ys :=
  ⟨h.v, h.keep, h.where', h.next.imp (fun e => e.trans l) id⟩

theorem Kept.since {e : Exn} {n : Nat} {ys : List α} (l : o1.m.next = o.m.next)
    (h : Kept H E ib N al b cap e o1 o' n ys) : Kept H E ib N al b cap e o o' n ys :=
  ⟨h.v, h.next.imp (fun e => e.trans l) id, h.bad⟩

/-- Two successful growing steps. -/
theorem Done.trans {o2 : Obj Vec α} {b1 cap1 b2 cap2 : Nat} {ys zs : List α}
    (h1 : Done H E ib N al b cap o o1 b1 cap1 ys) (h2 : Done H E ib N al b1 cap1 o1 o2 b2 cap2 zs)
    (hl : ys.length ≤ zs.length) : Done H E ib N al b cap o o2 b2 cap2 zs := by
  have hk := h1.keep
  have hk2 := h2.keep
  refine ⟨h2.v, ?_, ?_, ?_⟩
  · intro hz
    obtain ⟨rfl, rfl⟩ := hk (by omega)
    exact hk2 hz
  · by_cases hz : ys.length ≤ cap
    · obtain ⟨rfl, rfl⟩ := hk hz
      exact h2.where'
    · rcases h2.where' with h | h | h
      · rcases h1.where' with h' | h' | h'
        · exact Or.inl (h.trans h')
        · exact Or.inr (Or.inl (h.trans h'))
        · exact Or.inr (Or.inr (by omega))
      · exact Or.inr (Or.inl h)
      · exact Or.inr (Or.inr (by omega))
  · by_cases hz : ys.length ≤ cap
    · obtain ⟨rfl, rfl⟩ := hk hz
      rcases h1.next with h | h
      · exact h2.next.imp (fun e => e.trans h) id
      · omega
    · rcases h2.next with h | h
      · rcases h1.next with h' | h'
        · exact Or.inl (h.trans h')
        · exact Or.inr (by omega)
      · exact Or.inr (by omega)

theorem Looked.ofSame {s' : St α} (hs : Same o.m s') (hm : s'.mem = o.m.mem) : Looked o ⟨o.obj, s'⟩ :=
  ⟨rfl, hm, hs.blk, hs.next⟩

namespace Flat

/-- What is left after an operation inserting at most one element has thrown. -/
structure OneFail (H : Heap α) (E : Env α) (ib N al b cap : Nat) (safe : Prop) (xs : List α)
    (e : Exn) (o o' : Obj Vec α) (xs' : List α) : Prop where
  kept : Kept H E ib N al b cap e o o' (xs.length + 1) xs'
  strong : Strong E → xs.length = cap → xs' = xs
  same : NothrowMove E → safe → xs' = xs
  lenErr : e = .lengthError → E.maxSize < xs.length + 1

theorem InsFail.one {temp : Bool} {a : Arg α} {k : Nat} {e : Exn} {xs' : List α} (l : Looked o o1)
    (h : InsFail H E ib N al b cap temp a xs k e o1 o' xs') :
    OneFail H E ib N al b cap (temp = true ∨ a.isRv = true) xs e o o' xs' :=
  ⟨h.kept.since l.q.next, fun hE hl => h.strong hE (Or.inl hl), h.same, h.lenErr⟩

theorem OneFail.quiet {safe : Prop} (h : VSt H E ib N o al b cap xs) (l : Looked o o') :
    OneFail H E ib N al b cap safe xs .elem o o' xs :=
  ⟨⟨h.looked l, Or.inl l.q.next, by simp⟩, fun _ _ => rfl, fun _ _ => rfl, by simp⟩

theorem OneFail.ofComp {safe : Prop} {e : Exn} (h : VSt H E ib N o al b cap xs) (hc : CompThrew C o e o') :
    ∃ xs', OneFail H E ib N al b cap safe xs e o o' xs' := by
  obtain ⟨-, rfl, l⟩ := hc
  exact ⟨xs, .quiet h l⟩

theorem OneFail.since {safe : Prop} {e : Exn} {xs' : List α} (l : o1.m.next = o.m.next)
    (h : OneFail H E ib N al b cap safe xs e o1 o' xs') : OneFail H E ib N al b cap safe xs e o o' xs' :=
  ⟨h.kept.since l, h.strong, h.same, h.lenErr⟩

theorem OneFail.imp {safe safe' : Prop} {e : Exn} {xs' : List α}
    (h : OneFail H E ib N al b cap safe xs e o o' xs') (hs : safe' → safe) :
    OneFail H E ib N al b cap safe' xs e o o' xs' :=
  ⟨h.kept, h.strong, fun h1 h2 => h.same h1 (hs h2), h.lenErr⟩

/-- An operation inserting at most one element that returned an iterator to position `i`. -/
structure OneDone (H : Heap α) (E : Env α) (ib N al b cap : Nat) (xs : List α) (p : Ptr) (i : Nat)
    (o o' : Obj Vec α) (b' cap' : Nat) (ys : List α) : Prop where
  done : Done H E ib N al b cap o o' b' cap' ys
  ptr : p = ⟨b', i⟩
  ge : xs.length ≤ ys.length
  le : ys.length ≤ xs.length + 1

theorem OneDone.since {p : Ptr} {i b' cap' : Nat} {ys : List α} (l : o1.m.next = o.m.next)
    (h : OneDone H E ib N al b cap xs p i o1 o' b' cap' ys) : OneDone H E ib N al b cap xs p i o o' b' cap' ys :=
  ⟨h.done.since l, h.ptr, h.ge, h.le⟩

theorem InsDone.one {temp : Bool} {a : Arg α} {v w : α} {k : Nat} {p : Ptr} {b' cap' : Nat} (l : Looked o o1)
    (hk : k ≤ xs.length) (h : InsDone H E ib N al b cap temp a v xs k p o1 o' b' cap' w) :
    OneDone H E ib N al b cap xs p k o o' b' cap' (xs.take k ++ w :: xs.drop k) :=
  ⟨h.done.since l.q.next, h.ptr, by simp; omega, by simp; omega⟩

/-- Static containers must not be full. -/
def Room (st : Bool) (xs : List α) (cap n : Nat) : Prop := st = true → xs.length + n ≤ cap

/-- What the proofs need to know about `insert_exactly_at` and about the guard of the insertions. -/
structure Kind.Ok (K : Kind α) (E : Env α) (ib N : Nat) (st : Bool) : Prop where
  ins : ∀ {H : Heap α} {al b cap k : Nat} {o : Obj Vec α} {xs : List α} {a : Arg α} {v : α},
    VSt H E ib N o al b cap xs → a.value o.m = some v → a.src E = none → k ≤ xs.length → Room st xs cap 1 →
    wp (K.ins ⟨b, k⟩ a)
      (fun p o' => ∃ b' cap' w, InsDone H E ib N al b cap K.multi a v xs k p o o' b' cap' w)
      (fun e o' => ∃ xs', InsFail H E ib N al b cap K.multi a xs k e o o' xs') o
  guard : ∀ {H : Heap α} {al b cap : Nat} {o : Obj Vec α} {xs : List α} {Q : Unit → Obj Vec α → Prop}
    {X : Exn → Obj Vec α → Prop},
    VSt H E ib N o al b cap xs → Room st xs cap 1 → Q () o → wp K.guard Q X o

theorem small_ok (multi : Bool) (E : Env α) (ib N : Nat) : (small multi E ib N).Ok E ib N false where
  ins := fun h hv hsrc hk _ => insertExactlyAt_spec h hv hsrc hk
  guard := fun _ _ hQ => hQ

theorem static_ok (multi : Bool) (E : Env α) (ib N : Nat) : (static multi E).Ok E ib N true where
  ins := fun h hv hsrc hk hr => insertStatic_spec h hv hsrc hk (hr rfl)
  guard := by
    intro H al b cap o xs Q X h hr hQ
    show wp notFull Q X o
    unfold notFull
    rw [wp_bind, wp_getObj, wp_assert, h.obj]
    have := hr rfl
    exact ⟨by simp; omega, hQ⟩

theorem wp_argRead {σ : St α} {a : Arg α} {v : α} {Q : α → St α → Prop} {X : Exn → St α → Prop}
    (hv : a.value σ = some v) (hQ : Q v σ) : wp (argRead a) Q X σ := by
  unfold wp argRead; simp only [hv]; exact hQ

variable {K : Kind α} {st : Bool} {a : Arg α} {v : α} {k : Nat}

/-- Inserting the argument at a place for it. -/
theorem ins_place (hK : K.Ok E ib N st) (h : VSt H E ib N o al b cap xs) (l : Looked o o1)
    (hv : a.value o.m = some v) (hsrc : a.src E = none) (hr : Room st xs cap 1)
    (hk : k ≤ xs.length)
    (hpl : C.Sorted K.multi xs → C.Place K.multi xs v k ∧ (loc a ≠ none → K.multi = true)) :
    wp (K.ins ⟨b, k⟩ a)
      (fun p o' => ∃ b' cap' ys, OneDone H E ib N al b cap xs p k o o' b' cap' ys ∧
        (C.Sorted K.multi xs → Inserted C K.multi xs v k true ys))
      (fun e o' => ∃ xs', OneFail H E ib N al b cap (K.multi = true ∨ a.isRv = true) xs e o o' xs') o1 := by
  refine wp_mono (hK.ins (h.looked l) ((l.value a).trans hv) hsrc hk hr) ?_ ?_
  · rintro p o2 ⟨b', cap', w, hd⟩
    refine ⟨b', cap', _, hd.one l hk, fun hs => ?_⟩
    obtain ⟨p1, p2⟩ := hpl hs
    have hw : w = v := hd.val (by
      cases ha : loc a with
      | none => exact Or.inr rfl
      | some q => exact Or.inl (p2 (by simp [ha])))
    subst hw
    exact p1.inserted hs
  · rintro e o2 ⟨xs', hf⟩
    exact ⟨xs', hf.one l⟩

/-- An element of the container cannot be missing in it. -/
theorem not_absent (L : C.Lawful) (hs : C.Sorted K.multi xs) (hm : v ∈ xs) (hk : k ≤ xs.length)
    (hl : (C.probe (C.key v)).Left xs k) (ha : absent (C.probe (C.key v)) xs k = true) : False := by
  have f := L.fits hs (C.key v)
  rw [← List.take_append_drop k xs, List.mem_append] at hm
  rcases hm with hm | hm
  · have := hl.all f hk hm
    simp [Order.probe, L.irrefl] at this
  · have := absent_drop f ha hm
    simp [Order.probe, L.irrefl] at this

theorem insertAux_spec (L : C.Lawful) (hK : K.Ok E ib N st) (h : VSt H E ib N o al b cap xs)
    (hv : a.value o.m = some v) (hsrc : a.src E = none) (hr : Room st xs cap 1) (hmem : loc a ≠ none → v ∈ xs) :
    wp (insertAux K C E a)
      (fun r o' => ∃ b' cap' i ys, OneDone H E ib N al b cap xs r.1 i o o' b' cap' ys ∧
        (C.Sorted K.multi xs → Inserted C K.multi xs v i r.2 ys))
      (fun e o' => ∃ xs', OneFail H E ib N al b cap (K.multi = true ∨ a.isRv = true) xs e o o' xs') o := by
  unfold insertAux
  rw [wp_bind, wp_lift]
  refine wp_argRead hv ?_
  rw [wp_bind]
  refine wp_mono (lowerBound_spec h) ?_ (fun e o' hc => OneFail.ofComp h hc)
  rintro _ o1 ⟨k, rfl, l1, cut, -⟩
  rw [wp_ite]
  by_cases hm : K.multi = true
  · rw [if_pos hm, wp_bind]
    refine wp_mono (ins_place (C := C) hK h l1 hv hsrc hr cut.le fun hs => ⟨?_, fun _ => hm⟩) ?_ (fun _ _ h => h)
    · rw [hm] at hs ⊢; exact L.placeLower hs cut
    · rintro p o2 ⟨b', cap', ys, hd, hi⟩
      exact ⟨b', cap', k, ys, hd, hi⟩
  · rw [if_neg hm, wp_bind]
    refine wp_mono (missing_spec (h.looked l1) cut.le) ?_ (fun e o' hc => OneFail.ofComp h (hc.trans l1))
    rintro r o2 ⟨l2, hr2, -⟩
    rw [wp_ite]
    by_cases hab : r = true
    · rw [if_pos hab, wp_bind]
      rw [hr2] at hab
      refine wp_mono (ins_place (C := C) hK h (l1.trans l2) hv hsrc hr cut.le fun hs => ⟨?_, fun hl => ?_⟩) ?_
        (fun _ _ h => h)
      · exact L.place hs cut.le cut.toLeft hab
      · exact (not_absent L hs (hmem hl) cut.le cut.toLeft hab).elim
      · rintro p o3 ⟨b', cap', ys, hd, hi⟩
        exact ⟨b', cap', k, ys, hd, hi⟩
    · rw [if_neg hab]
      have hab : absent (C.probe (C.key v)) xs k = false := by rw [← hr2]; simpa using hab
      refine ⟨b, cap, k, xs, ⟨h.doneLooked (l1.trans l2), rfl, by omega, by omega⟩, fun hs => ?_⟩
      exact Or.inr ⟨rfl, by simpa using hm, rfl, present cut hab⟩

/-! ### Hints -/

theorem hintLeft_spec {P : Probe α} (h : VSt H E ib N o al b cap xs) (hk : k ≤ xs.length) :
    wp (hintLeft C E P ⟨b, k⟩) (fun r o' => Looked o o' ∧ (r = true → P.Left xs k)) (CompThrew C o) o := by
  unfold hintLeft
  rw [wp_bind, wp_getObj, h.obj, wp_ite]
  by_cases he : (⟨b, k⟩ : Ptr) = ⟨b, 0⟩
  · rw [if_pos he]
    obtain rfl : k = 0 := by simpa using he
    exact ⟨.refl o, fun _ j x hj => by omega⟩
  · rw [if_neg he]
    have hk0 : k ≠ 0 := fun h' => he (by rw [h'])
    have hsub : (⟨b, k⟩ : Ptr).sub 1 = ⟨b, k - 1⟩ := Ptr.sub_of_le (by simp; omega)
    rw [hsub, wp_bind, wp_lift]
    have hlt : k - 1 < xs.length := by omega
    refine wp_readAt (v := xs[k - 1]) (by simp [h.cells, hlt]) ?_
    rw [wp_lift]
    refine wp_comp (fun s' q t => ⟨⟨rfl, q⟩, fun hr j x hj hx => ?_⟩) (fun hn s' q => ⟨hn, rfl, rfl, q⟩)
    obtain rfl : j = k - 1 := by omega
    rw [List.getElem?_eq_getElem hlt] at hx
    cases hx; exact hr

theorem hintUnique_spec {P : Probe α} (h : VSt H E ib N o al b cap xs) (hk : k ≤ xs.length) :
    wp (hintUnique C E P ⟨b, k⟩) (fun r o' => Looked o o' ∧ (r = true → P.Left xs k ∧ absent P xs k = true))
      (CompThrew C o) o := by
  unfold hintUnique
  rw [wp_bind]
  refine wp_mono (hintLeft_spec h hk) ?_ (fun _ _ h => h)
  rintro r o1 ⟨l1, h1⟩
  rw [wp_ite]
  by_cases hr : r = true
  · rw [if_pos hr]
    refine wp_mono (missing_spec (h.looked l1) hk) ?_ (fun _ _ hc => hc.trans l1)
    rintro _ o2 ⟨l2, rfl, -⟩
    exact ⟨l1.trans l2, fun ha => ⟨h1 hr, ha⟩⟩
  · rw [if_neg hr]
    exact ⟨l1, by simp⟩

theorem equivAt_spec {P : Probe α} {j : Nat} (h : VSt H E ib N o al b cap xs) (hj : j < xs.length) :
    wp (lift (equivAt C E P ⟨b, j⟩) : VM α Bool) (fun r o' => Looked o o' ∧ (r = true → P.hit xs[j] = true))
      (CompThrew C o) o := by
  rw [wp_lift]
  unfold equivAt
  rw [wp_bind]
  refine wp_readAt (v := xs[j]) (by simp [h.cells, hj]) ?_
  rw [wp_bind]
  refine wp_comp (fun s1 q1 _ => ?_) (fun hn s' q => ⟨hn, rfl, rfl, q⟩)
  rw [wp_ite]
  by_cases hb : P.below xs[j] = true
  · rw [if_pos hb]
    exact ⟨⟨rfl, q1⟩, by simp⟩
  · rw [if_neg hb, wp_bind]
    refine wp_comp (fun s2 q2 _ => ?_) (fun hn s' q => ⟨hn, rfl, rfl, q1.trans q⟩)
    exact ⟨⟨rfl, q1.trans q2⟩, fun hr => by simp [Probe.hit, hb] at hr ⊢; exact hr⟩

theorem hintHere_spec {P : Probe α} (h : VSt H E ib N o al b cap xs) (hk : k ≤ xs.length) :
    wp (hintHere C E P ⟨b, k⟩) (fun r o' => Looked o o' ∧ (r = true → ∃ x, xs[k]? = some x ∧ P.hit x = true))
      (CompThrew C o) o := by
  unfold hintHere
  rw [wp_bind, wp_getObj, h.obj, wp_ite]
  by_cases he : (⟨b, k⟩ : Ptr) ≠ ⟨b, xs.length⟩
  · rw [if_pos he]
    have hlt : k < xs.length := by
      have : k ≠ xs.length := fun h' => he (by rw [h'])
      omega
    refine wp_mono (equivAt_spec h hlt) ?_ (fun _ _ h => h)
    rintro r o1 ⟨l, hr⟩
    exact ⟨l, fun h' => ⟨xs[k], List.getElem?_eq_getElem hlt, hr h'⟩⟩
  · rw [if_neg he]
    exact ⟨.refl o, by simp⟩

theorem hintBefore_spec {P : Probe α} (h : VSt H E ib N o al b cap xs) (hk : k ≤ xs.length) :
    wp (hintBefore C E P ⟨b, k⟩)
      (fun r o' => Looked o o' ∧ (r = true → ∃ (j : Nat) (x : α), j + 1 = k ∧ xs[j]? = some x ∧ P.hit x = true))
      (CompThrew C o) o := by
  unfold hintBefore
  rw [wp_bind, wp_getObj, h.obj, wp_ite]
  by_cases he : (⟨b, k⟩ : Ptr) ≠ ⟨b, 0⟩
  · rw [if_pos he]
    have hk0 : k ≠ 0 := fun h' => he (by rw [h'])
    have hlt : k - 1 < xs.length := by omega
    have hsub : (⟨b, k⟩ : Ptr).sub 1 = ⟨b, k - 1⟩ := Ptr.sub_of_le (by simp; omega)
    rw [hsub]
    refine wp_mono (equivAt_spec h hlt) ?_ (fun _ _ h => h)
    rintro r o1 ⟨l, hr⟩
    exact ⟨l, fun h' => ⟨k - 1, xs[k - 1], by omega, List.getElem?_eq_getElem hlt, hr h'⟩⟩
  · rw [if_neg he]
    exact ⟨.refl o, by simp⟩

/-- An accepted hint is a place for the element, and for containers with unique keys the element is new. -/
theorem hintGood_spec (L : C.Lawful) (h : VSt H E ib N o al b cap xs) (hk : k ≤ xs.length) :
    wp (hintGood K C E (C.probe (C.key v)) ⟨b, k⟩)
      (fun r o' => Looked o o' ∧ (r = true → C.Sorted K.multi xs →
        C.Place K.multi xs v k ∧ (v ∈ xs → K.multi = true))) (CompThrew C o) o := by
  unfold hintGood
  by_cases hm : K.multi = true
  · rw [if_pos hm, hm]
    unfold hintMulti
    rw [wp_bind]
    refine wp_mono (hintHere_spec h hk) ?_ (fun _ _ h => h)
    rintro r1 o1 ⟨l1, h1⟩
    rw [wp_ite]
    by_cases hr1 : r1 = true
    · rw [if_pos hr1]
      refine ⟨l1, fun _ hs => ⟨?_, fun _ => rfl⟩⟩
      obtain ⟨x, hx, hh⟩ := h1 hr1
      exact L.placeHit hs hk hx (Or.inl rfl) hh
    · rw [if_neg hr1, wp_bind]
      refine wp_mono (hintBefore_spec (h.looked l1) hk) ?_ (fun _ _ hc => hc.trans l1)
      rintro r2 o2 ⟨l2, h2⟩
      rw [wp_ite]
      by_cases hr2 : r2 = true
      · rw [if_pos hr2]
        refine ⟨l1.trans l2, fun _ hs => ⟨?_, fun _ => rfl⟩⟩
        obtain ⟨j, x, hj, hx, hh⟩ := h2 hr2
        exact L.placeHit hs hk hx (Or.inr hj) hh
      · rw [if_neg hr2]
        have l12 := l1.trans l2
        refine wp_mono (hintUnique_spec (h.looked l12) hk) ?_ (fun _ _ hc => hc.trans l12)
        rintro r3 o3 ⟨l3, h3⟩
        refine ⟨l12.trans l3, fun hr hs => ⟨?_, fun _ => rfl⟩⟩
        obtain ⟨p1, p2⟩ := h3 hr
        exact L.place hs hk p1 p2
  · rw [if_neg hm]
    refine wp_mono (hintUnique_spec h hk) ?_ (fun _ _ h => h)
    rintro r o1 ⟨l1, h1⟩
    refine ⟨l1, fun hr hs => ?_⟩
    obtain ⟨p1, p2⟩ := h1 hr
    exact ⟨L.place hs hk p1 p2, fun hv => (not_absent L hs hv hk p1 p2).elim⟩

theorem insertAuxHint_spec (L : C.Lawful) (hK : K.Ok E ib N st) (h : VSt H E ib N o al b cap xs)
    (hv : a.value o.m = some v) (hsrc : a.src E = none) (hr : Room st xs cap 1) (hmem : loc a ≠ none → v ∈ xs)
    (hk : k ≤ xs.length) :
    wp (insertAuxHint K C E ⟨b, k⟩ a)
      (fun p o' => ∃ b' cap' i new ys, OneDone H E ib N al b cap xs p i o o' b' cap' ys ∧
        (C.Sorted K.multi xs → Inserted C K.multi xs v i new ys))
      (fun e o' => ∃ xs', OneFail H E ib N al b cap (K.multi = true ∨ a.isRv = true) xs e o o' xs') o := by
  unfold insertAuxHint
  rw [wp_bind, wp_lift]
  refine wp_argRead hv ?_
  rw [wp_bind]
  refine wp_mono (hintGood_spec L h hk) ?_ (fun e o' hc => OneFail.ofComp h hc)
  rintro g o1 ⟨l1, h1⟩
  rw [wp_ite]
  by_cases hg : g = true
  · rw [if_pos hg]
    refine wp_mono (ins_place (C := C) hK h l1 hv hsrc hr hk fun hs => ⟨(h1 hg hs).1, fun hl => (h1 hg hs).2 (hmem hl)⟩) ?_
      (fun _ _ h => h)
    rintro p o2 ⟨b', cap', ys, hd, hi⟩
    exact ⟨b', cap', k, true, ys, hd, hi⟩
  · rw [if_neg hg, wp_bind]
    refine wp_mono (insertAux_spec L hK (h.looked l1) ((l1.value a).trans hv) hsrc hr hmem) ?_ ?_
    · rintro r o2 ⟨b', cap', i, ys, hd, hi⟩
      exact ⟨b', cap', i, r.2, ys, hd.since l1.q.next, hi⟩
    · rintro e o2 ⟨xs', hf⟩
      exact ⟨xs', hf.since l1.q.next⟩

/-! ### try_emplace, insert_or_assign -/

theorem insertNew_spec (hK : K.Ok E ib N st) (h : VSt H E ib N o al b cap xs) (l : Looked o o1)
    (hr : Room st xs cap 1) (hk : k ≤ xs.length) (hpl : C.Sorted K.multi xs → C.Place K.multi xs v k) :
    wp (insertNew K E ⟨b, k⟩ v)
      (fun p o' => ∃ b' cap' ys, OneDone H E ib N al b cap xs p k o o' b' cap' ys ∧
        (C.Sorted K.multi xs → Inserted C K.multi xs v k true ys))
      (fun e o' => ∃ xs', OneFail H E ib N al b cap True xs e o o' xs') o1 := by
  unfold insertNew
  rw [wp_bind, wp_lift]
  refine mkTmp_copy (v := v) rfl rfl ?_ ?_
  · intro s2 hs2 _ hm2
    have l2 : Looked o ⟨o1.obj, s2⟩ := l.trans (.ofSame hs2 hm2)
    refine wp_mono (ins_place (C := C) (a := .rv v) hK h l2 rfl rfl hr hk fun hs => ⟨hpl hs, by simp [loc]⟩) (fun _ _ h => h) ?_
    rintro e o2 ⟨xs', hf⟩
    exact ⟨xs', hf.imp (fun _ => Or.inr rfl)⟩
  · intro s2 hs2 hm2
    exact ⟨xs, .quiet h (l.trans (.ofSame hs2 hm2))⟩

theorem tryEmplaceAux_spec (L : C.Lawful) (hK : K.Ok E ib N st) (h : VSt H E ib N o al b cap xs)
    (hr : Room st xs cap 1) (hu : K.multi = false) :
    wp (tryEmplaceAux K C E v)
      (fun r o' => ∃ b' cap' i ys, OneDone H E ib N al b cap xs r.1 i o o' b' cap' ys ∧
        (C.Sorted K.multi xs → Inserted C K.multi xs v i r.2 ys))
      (fun e o' => ∃ xs', OneFail H E ib N al b cap True xs e o o' xs') o := by
  unfold tryEmplaceAux
  rw [wp_bind]
  refine wp_mono (lowerBound_spec h) ?_ (fun e o' hc => OneFail.ofComp h hc)
  rintro _ o1 ⟨k, rfl, l1, cut, -⟩
  rw [wp_bind]
  refine wp_mono (missing_spec (h.looked l1) cut.le) ?_ (fun e o' hc => OneFail.ofComp h (hc.trans l1))
  rintro r o2 ⟨l2, hr2, -⟩
  rw [wp_ite]
  by_cases hab : r = true
  · rw [if_pos hab, wp_bind]
    rw [hr2] at hab
    refine wp_mono (insertNew_spec (C := C) hK h (l1.trans l2) hr cut.le fun hs =>
      L.place hs cut.le cut.toLeft hab) ?_ (fun _ _ h => h)
    rintro p o3 ⟨b', cap', ys, hd, hi⟩
    exact ⟨b', cap', k, ys, hd, hi⟩
  · rw [if_neg hab]
    have hab : absent (C.probe (C.key v)) xs k = false := by rw [← hr2]; simpa using hab
    refine ⟨b, cap, k, xs, ⟨h.doneLooked (l1.trans l2), rfl, by omega, by omega⟩, fun hs => ?_⟩
    exact Or.inr ⟨rfl, hu, rfl, present cut hab⟩

theorem tryEmplaceAuxHint_spec (L : C.Lawful) (hK : K.Ok E ib N st) (h : VSt H E ib N o al b cap xs)
    (hr : Room st xs cap 1) (hu : K.multi = false) (hk : k ≤ xs.length) :
    wp (tryEmplaceAuxHint K C E ⟨b, k⟩ v)
      (fun p o' => ∃ b' cap' i new ys, OneDone H E ib N al b cap xs p i o o' b' cap' ys ∧
        (C.Sorted K.multi xs → Inserted C K.multi xs v i new ys))
      (fun e o' => ∃ xs', OneFail H E ib N al b cap True xs e o o' xs') o := by
  unfold tryEmplaceAuxHint
  rw [wp_bind]
  refine wp_mono (hintGood_spec L h hk) ?_ (fun e o' hc => OneFail.ofComp h hc)
  rintro g o1 ⟨l1, h1⟩
  rw [wp_ite]
  by_cases hg : g = true
  · rw [if_pos hg]
    refine wp_mono (insertNew_spec (C := C) hK h l1 hr hk fun hs => (h1 hg hs).1) ?_ (fun _ _ h => h)
    rintro p o2 ⟨b', cap', ys, hd, hi⟩
    exact ⟨b', cap', k, true, ys, hd, hi⟩
  · rw [if_neg hg, wp_bind]
    refine wp_mono (tryEmplaceAux_spec L hK (h.looked l1) hr hu) ?_ ?_
    · rintro r o2 ⟨b', cap', i, ys, hd, hi⟩
      exact ⟨b', cap', i, r.2, ys, hd.since l1.q.next, hi⟩
    · rintro e o2 ⟨xs', hf⟩
      exact ⟨xs', hf.since l1.q.next⟩

/-- A new mapped value does not disturb the order. -/
theorem sorted_upd (L : C.Lawful) {multi : Bool} {x w : α} (hs : C.Sorted multi xs) (hx : xs[k]? = some x) :
    C.Sorted multi (xs.set k (C.upd x w)) := by
  obtain ⟨hk, rfl⟩ := List.getElem?_eq_some_iff.mp hx
  have hkey : ∀ i (hi : i < xs.length), C.key ((xs.set k (C.upd xs[k] w))[i]'(by simpa using hi)) = C.key xs[i] := by
    intro i hi
    rw [List.getElem_set]
    split
    · rename_i he; subst he; exact L.upd _ _
    · rfl
  refine List.pairwise_iff_getElem.mpr fun i j hi hj hij => ?_
  have hi' : i < xs.length := by simpa using hi
  have hj' : j < xs.length := by simpa using hj
  rw [hkey i hi', hkey j hj']
  exact List.pairwise_iff_getElem.mp hs i j hi' hj' hij

/-- What is left after insert_or_assign has thrown. -/
structure AsgFail (H : Heap α) (E : Env α) (ib N al b cap : Nat) (C : Order α κ) (multi : Bool) (xs : List α)
    (e : Exn) (o o' : Obj Vec α) (xs' : List α) : Prop where
  kept : Kept H E ib N al b cap e o o' (xs.length + 1) xs'
  order : NothrowMove E → C.Sorted multi xs → C.Sorted multi xs'
  lenErr : e = .lengthError → E.maxSize < xs.length + 1

theorem OneFail.asg {multi : Bool} {e : Exn} {xs' : List α} (h : OneFail H E ib N al b cap True xs e o o' xs') :
    AsgFail H E ib N al b cap C multi xs e o o' xs' :=
  ⟨h.kept, fun hE hs => by rw [h.same hE trivial]; exact hs, h.lenErr⟩

theorem AsgFail.since {multi : Bool} {e : Exn} {xs' : List α} (l : o1.m.next = o.m.next)
    (h : AsgFail H E ib N al b cap C multi xs e o1 o' xs') : AsgFail H E ib N al b cap C multi xs e o o' xs' :=
  ⟨h.kept.since l, h.order, h.lenErr⟩

theorem assignMapped_spec (L : C.Lawful) {multi : Bool} {x : α} (h : VSt H E ib N o al b cap xs)
    (hx : xs[k]? = some x) :
    wp (lift (assignMapped C E ⟨b, k⟩ v) : VM α Unit)
      (fun _ o' => VSt H E ib N o' al b cap (xs.set k (C.upd x v)) ∧ o'.m.next = o.m.next)
      (fun e o' => ∃ xs', AsgFail H E ib N al b cap C multi xs e o o' xs') o := by
  have key : ∀ w, VSt H E ib N ⟨o.obj, o.m.bump.put ⟨b, k⟩ (some (C.upd x w))⟩ al b cap (xs.set k (C.upd x w)) := by
    intro w
    obtain ⟨hk, rfl⟩ := List.getElem?_eq_some_iff.mp hx
    have hlen := h.len
    refine ⟨?_, h.st.upd ⟨rfl, rfl⟩ ?_ ?_, by simpa using hlen, ?_, h.capLe, h.nLe⟩
    · simpa using h.obj
    · intro i hi
      have := h.st.beyond i hi
      simp only [St.put, St.bump]; grind
    · intro c hc i; simp only [St.put, St.bump]; grind
    · intro i
      have := h.cells i
      simp only [St.put, St.bump]; grind
  rw [wp_lift]
  unfold wp assignMapped
  have hm : o.m.mem b k = some x := by rw [h.cells, hx]
  simp only [hm]
  by_cases ht : E.throws o.m.tick
  · rw [if_pos ht]
    refine ⟨_, ⟨⟨key _, Or.inl rfl, by simp⟩, fun _ hs => ?_, by simp⟩⟩
    exact sorted_upd L hs hx
  · rw [if_neg ht]
    exact ⟨key v, rfl⟩

theorem insertOrAssignAux_spec (L : C.Lawful) (hK : K.Ok E ib N st) (h : VSt H E ib N o al b cap xs)
    (hr : Room st xs cap 1) (hu : K.multi = false) :
    wp (insertOrAssignAux K C E v)
      (fun r o' => ∃ b' cap' i ys, OneDone H E ib N al b cap xs r.1 i o o' b' cap' ys ∧
        (C.Sorted false xs → Assigned C xs v i r.2 ys))
      (fun e o' => ∃ xs', AsgFail H E ib N al b cap C false xs e o o' xs') o := by
  unfold insertOrAssignAux
  have hcomp : ∀ {e : Exn} {o'}, CompThrew C o e o' → ∃ xs', AsgFail H E ib N al b cap C false xs e o o' xs' := by
    intro e o' hc
    obtain ⟨xs', hf⟩ := OneFail.ofComp (safe := True) h hc
    exact ⟨xs', hf.asg⟩
  rw [wp_bind]
  refine wp_mono (lowerBound_spec h) ?_ (fun e o' hc => hcomp hc)
  rintro _ o1 ⟨k, rfl, l1, cut, -⟩
  rw [wp_bind]
  refine wp_mono (missing_spec (h.looked l1) cut.le) ?_ (fun e o' hc => hcomp (hc.trans l1))
  rintro r o2 ⟨l2, hr2, -⟩
  have l12 := l1.trans l2
  rw [wp_ite]
  by_cases hab : r = true
  · rw [if_pos hab, wp_bind]
    rw [hr2] at hab
    refine wp_mono (insertNew_spec (C := C) hK h l12 hr cut.le fun hs =>
      L.place hs cut.le cut.toLeft hab) ?_ ?_
    · rintro p o3 ⟨b', cap', ys, hd, hi⟩
      rw [hu] at hi
      exact ⟨b', cap', k, ys, hd, fun hs => Or.inl ⟨rfl, hi hs⟩⟩
    · rintro e o3 ⟨xs', hf⟩
      exact ⟨xs', hf.asg⟩
  · rw [if_neg hab, wp_bind]
    have hab : absent (C.probe (C.key v)) xs k = false := by rw [← hr2]; simpa using hab
    obtain ⟨x, hx, hsame⟩ := present cut hab
    refine wp_mono (assignMapped_spec (multi := false) L (h.looked l12) hx) ?_ ?_
    · rintro _ o3 ⟨h3, hn⟩
      have hn' := hn.trans l12.q.next
      refine ⟨b, cap, k, _, ⟨⟨h3, fun _ => ⟨rfl, rfl⟩, Or.inl rfl, Or.inl hn'⟩, rfl, by simp, by simp⟩, fun hs => ?_⟩
      exact Or.inr ⟨rfl, x, hx, hsame, rfl⟩
    · rintro e o3 ⟨xs', hf⟩
      exact ⟨xs', hf.since l12.q.next⟩

theorem insertOrAssignAuxHint_spec (L : C.Lawful) (hK : K.Ok E ib N st) (h : VSt H E ib N o al b cap xs)
    (hr : Room st xs cap 1) (hu : K.multi = false) (hk : k ≤ xs.length) :
    wp (insertOrAssignAuxHint K C E ⟨b, k⟩ v)
      (fun p o' => ∃ b' cap' i new ys, OneDone H E ib N al b cap xs p i o o' b' cap' ys ∧
        (C.Sorted false xs → Assigned C xs v i new ys))
      (fun e o' => ∃ xs', AsgFail H E ib N al b cap C false xs e o o' xs') o := by
  unfold insertOrAssignAuxHint
  rw [wp_bind]
  refine wp_mono (hintGood_spec L h hk) ?_ (fun e o' hc => ?_)
  rotate_left
  · obtain ⟨xs', hf⟩ := OneFail.ofComp (safe := True) h hc
    exact ⟨xs', hf.asg⟩
  rintro g o1 ⟨l1, h1⟩
  rw [wp_ite]
  by_cases hg : g = true
  · rw [if_pos hg]
    refine wp_mono (insertNew_spec (C := C) hK h l1 hr hk fun hs => (h1 hg hs).1) ?_ ?_
    · rintro p o2 ⟨b', cap', ys, hd, hi⟩
      rw [hu] at hi
      exact ⟨b', cap', k, true, ys, hd, fun hs => Or.inl ⟨rfl, hi hs⟩⟩
    · rintro e o3 ⟨xs', hf⟩
      exact ⟨xs', hf.asg⟩
  · rw [if_neg hg, wp_bind]
    refine wp_mono (insertOrAssignAux_spec L hK (h.looked l1) hr hu) ?_ ?_
    · rintro r o2 ⟨b', cap', i, ys, hd, hi⟩
      exact ⟨b', cap', i, r.2, ys, hd.since l1.q.next, hi⟩
    · rintro e o2 ⟨xs', hf⟩
      exact ⟨xs', hf.since l1.q.next⟩

end Flat

end Sfl
