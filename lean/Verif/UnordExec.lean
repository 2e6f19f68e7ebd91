import Verif.UnordErase
/-
  Every public modifier of the unordered flat containers refines the abstract operation of `UnordSpec.lean`.
-/

namespace Sfl.Unord
open Sfl.Vector (VM)
open Sq (Src)
open Flat (Ret wp_argRead wp_insOf wp_posOf wp_argOf')
variable {α κ : Type} {E : Env α} {H : Heap α} {al ib N b cap : Nat} {o o1 o' : Obj Vec α} {xs : List α}
  {U : KeyEq α κ} {K : Kind α} {st : Bool} {v : α} {k : Nat}

/-- A static container stays in its storage and must have room for `need` elements. -/
def Fits (st : Bool) (ib N b cap need : Nat) : Prop := st = true → b = ib ∧ cap = N ∧ need ≤ N

/-- An operation inserting at most one element that returned an iterator to position `i`. -/
structure OneDone (H : Heap α) (E : Env α) (ib N al b cap : Nat) (xs : List α) (p : Ptr) (i : Nat)
    (o o' : Obj Vec α) (b' cap' : Nat) (ys : List α) : Prop where
  op : OpDone H E ib N al b cap o o' b' cap' (xs.length + 1) ys
  ptr : p = ⟨b', i⟩

/-- What is left after an operation inserting at most one element has thrown. -/
structure OneFail (H : Heap α) (E : Env α) (ib N al b cap : Nat) (safe : Prop) (xs : List α)
    (e : Exn) (o o' : Obj Vec α) (b' cap' : Nat) (xs' : List α) : Prop where
  op : OpFail H E ib N al b cap e o o' b' cap' (xs.length + 1) xs'
  strong : Strong E → safe → xs' = xs ∧ b' = b ∧ cap' = cap
  lenErr : e = .lengthError → E.maxSize < xs.length + 1

theorem opFail_looked {need : Nat} (h : VSt H E ib N o al b cap xs) (l : Looked o o') :
    OpFail H E ib N al b cap .elem o o' b cap need xs :=
  ⟨h.looked l, fun e1 e2 _ => ⟨e1, e2, l.q.next, by simp⟩⟩

theorem OneFail.quiet {safe : Prop} (h : VSt H E ib N o al b cap xs) (l : Looked o o') :
    OneFail H E ib N al b cap safe xs .elem o o' b cap xs :=
  ⟨opFail_looked h l, fun _ _ => ⟨rfl, rfl, rfl⟩, by simp⟩

theorem OneFail.ofEq {safe : Prop} {e : Exn} (h : VSt H E ib N o al b cap xs) (hc : EqThrew U o e o') :
    ∃ b' cap' xs', OneFail H E ib N al b cap safe xs e o o' b' cap' xs' := by
  obtain ⟨-, rfl, l⟩ := hc
  exact ⟨b, cap, xs, .quiet h l⟩

theorem OneFail.since {safe : Prop} {e : Exn} {b' cap' : Nat} {xs' : List α} (l : o1.m.next = o.m.next)
    (h : OneFail H E ib N al b cap safe xs e o1 o' b' cap' xs') : OneFail H E ib N al b cap safe xs e o o' b' cap' xs' :=
  ⟨⟨h.op.v, fun e1 e2 e3 => by
    obtain ⟨f1, f2, f3, f4⟩ := h.op.inside e1 e2 e3
    exact ⟨f1, f2, f3.trans l, f4⟩⟩, h.strong, h.lenErr⟩

theorem OneDone.since {p : Ptr} {i b' cap' : Nat} {ys : List α} (l : o1.m.next = o.m.next)
    (h : OneDone H E ib N al b cap xs p i o1 o' b' cap' ys) : OneDone H E ib N al b cap xs p i o o' b' cap' ys :=
  ⟨⟨h.op.v, fun e1 e2 e3 => by
    obtain ⟨f1, f2, f3⟩ := h.op.inside e1 e2 e3
    exact ⟨f1, f2, f3.trans l⟩⟩, h.ptr⟩

theorem OneFail.imp {safe safe' : Prop} {e : Exn} {b' cap' : Nat} {xs' : List α}
    (h : OneFail H E ib N al b cap safe xs e o o' b' cap' xs') (hs : safe' → safe) :
    OneFail H E ib N al b cap safe' xs e o o' b' cap' xs' :=
  ⟨h.op, fun h1 h2 => h.strong h1 (hs h2), h.lenErr⟩

/-- What the proofs need to know about `emplace_back` and about the guard of the insertions. -/
structure Kind.Ok (K : Kind α) (E : Env α) (ib N : Nat) (st : Bool) : Prop where
  push : ∀ {H : Heap α} {al b cap : Nat} {o : Obj Vec α} {xs : List α} {a : Arg α} {v : α},
    VSt H E ib N o al b cap xs → a.value o.m = some v → a.src E = none → Fits st ib N b cap (xs.length + 1) →
    wp (K.push a)
      (fun p o' => ∃ b' cap', OneDone H E ib N al b cap xs p xs.length o o' b' cap' (xs ++ [v]))
      (fun e o' => ∃ b' cap' xs', OneFail H E ib N al b cap True xs e o o' b' cap' xs') o
  guard : ∀ {H : Heap α} {al b cap : Nat} {o : Obj Vec α} {xs : List α} {Q : Unit → Obj Vec α → Prop}
    {X : Exn → Obj Vec α → Prop},
    VSt H E ib N o al b cap xs → Fits st ib N b cap (xs.length + 1) → Q () o → wp K.guard Q X o

theorem small_ok (multi isMap : Bool) (E : Env α) (ib N : Nat) : (small multi isMap E ib N).Ok E ib N false where
  push := by
    intro H al b cap o xs a v h hv hsrc _
    refine wp_mono (emplaceBack_spec h hv hsrc) ?_ ?_
    · rintro p o1 ⟨b', cap', hd, hp, -⟩
      exact ⟨b', cap', hd.op (by simp), hp⟩
    · rintro e o1 ⟨xs', hk, -, hs, -, hl⟩
      exact ⟨b, cap, xs', hk.op, fun h _ => ⟨hs h, rfl, rfl⟩, hl⟩
  guard := fun _ _ hQ => hQ

theorem static_ok (multi isMap : Bool) (E : Env α) (ib N : Nat) : (static multi isMap E).Ok E ib N true where
  push := by
    intro H al b cap o xs a v h hv hsrc hr
    obtain ⟨-, rfl, hr⟩ := hr rfl
    have hw := (small_ok multi isMap E ib cap).push h hv hsrc (fun h => by cases h)
    show wp (staticPush E a) _ _ o
    replace hw : wp (SmallVector.emplaceBack E ib cap a) _ _ o := hw
    unfold SmallVector.emplaceBack at hw
    unfold staticPush Flat.notFull
    simp only [wp_bind, wp_getObj, wp_ite, wp_assert] at hw ⊢
    rw [h.obj] at hw ⊢
    dsimp only at hw ⊢
    have hne : (⟨b, xs.length⟩ : Ptr) ≠ ⟨b, cap⟩ := by simp; omega
    rw [if_pos hne] at hw
    exact ⟨hne, hw⟩
  guard := by
    intro H al b cap o xs Q X h hr hQ
    obtain ⟨-, rfl, hr⟩ := hr rfl
    show wp Flat.notFull Q X o
    unfold Flat.notFull
    rw [wp_bind, wp_getObj, wp_assert, h.obj]
    exact ⟨by simp; omega, hQ⟩

/-! ### Inserting one element -/

/-- An operation inserting at most one element. -/
def OneOk (H : Heap α) (E : Env α) (ib N al b cap : Nat) (U : KeyEq α κ) (multi : Bool) (safe : Prop) (xs : List α) (v : α)
    (m : VM α (Ptr × Bool)) (o o1 : Obj Vec α) : Prop :=
  wp m
    (fun r o' => ∃ b' cap' i ys, OneDone H E ib N al b cap xs r.1 i o o' b' cap' ys ∧ Inserted U multi xs v i r.2 ys)
    (fun e o' => ∃ b' cap' xs', OneFail H E ib N al b cap safe xs e o o' b' cap' xs') o1

theorem pushNew_spec {a : Arg α} {multi : Bool} (hK : K.Ok E ib N st) (h : VSt H E ib N o al b cap xs) (l : Looked o o1)
    (hv : a.value o.m = some v) (hsrc : a.src E = none) (hr : Fits st ib N b cap (xs.length + 1))
    (hn : multi = true ∨ ∀ x ∈ xs, U.same x v = false) :
    OneOk H E ib N al b cap U multi True xs v (pushNew K a) o o1 := by
  unfold OneOk pushNew
  rw [wp_bind]
  refine wp_mono (hK.push (h.looked l) (by rw [l.value]; exact hv) hsrc hr) ?_ ?_
  · rintro p o2 ⟨b', cap', hd⟩
    exact ⟨b', cap', xs.length, _, hd.since l.q.next, Or.inl ⟨rfl, hn, rfl, rfl⟩⟩
  · rintro e o2 ⟨b', cap', xs', hf⟩
    exact ⟨b', cap', xs', hf.since l.q.next⟩

theorem oneDone_looked (h : VSt H E ib N o al b cap xs) (l : Looked o o1) :
    OneDone H E ib N al b cap xs ⟨b, k⟩ k o o1 b cap xs :=
  ⟨⟨h.looked l, fun e1 e2 _ => ⟨e1, e2, l.q.next⟩⟩, rfl⟩

/-- An element with an equal key has been found. -/
theorem First.inserted (hk : First (fun e => U.same e v) xs k) (hne : k ≠ xs.length) : Inserted U false xs v k false xs := by
  have hle := hk.le
  have hlt : k < xs.length := by omega
  exact Or.inr ⟨rfl, rfl, rfl, xs[k], by simp, hk.at' _ (by simp)⟩

theorem insertAux_spec {a : Arg α} (hK : K.Ok E ib N st) (h : VSt H E ib N o al b cap xs)
    (hv : a.value o.m = some v) (hsrc : a.src E = none) (hr : Fits st ib N b cap (xs.length + 1)) :
    OneOk H E ib N al b cap U K.multi True xs v (insertAux K U E a) o o := by
  unfold OneOk insertAux
  cases hm : K.multi
  · rw [if_neg (by simp), wp_bind, wp_lift]
    refine wp_argRead hv ?_
    rw [wp_bind]
    refine wp_mono (find_spec (f := fun e => U.same e v) h rfl) ?_ (fun e o' hc => OneFail.ofEq h hc)
    rintro p o2 ⟨k, rfl, l, hk⟩
    rw [wp_bind, wp_getObj, wp_ite, (h.looked l).obj]
    by_cases he : k = xs.length
    · rw [if_pos (by simpa using he)]
      exact pushNew_spec hK h l hv hsrc hr (Or.inr (hk.none he))
    · rw [if_neg (by simpa using he), wp_pure]
      exact ⟨b, cap, k, xs, oneDone_looked h l, hk.inserted he⟩
  · rw [if_pos rfl]
    exact pushNew_spec hK h (.refl _) hv hsrc hr (Or.inl rfl)

theorem emplaceAux_spec (L : U.Lawful) (hK : K.Ok E ib N st) (h : VSt H E ib N o al b cap xs)
    (hr : Fits st ib N b cap (xs.length + 1)) :
    OneOk H E ib N al b cap U false (U.nothrow = true) xs v (emplaceAux K U E v) o o := by
  unfold OneOk emplaceAux
  rw [wp_bind]
  refine wp_mono (hK.push (a := .val v) (v := v) h rfl rfl hr) ?_ ?_
  · rintro p o1 ⟨b1, cap1, hd⟩
    have hv := hd.op.v
    have hin := hd.op.inside
    obtain rfl := hd.ptr
    have hlast : o1.m.mem b1 xs.length = some v := by rw [hv.cells]; simp
    rw [wp_bind]
    refine wp_mono (find_spec (U := U) (f := fun e => U.same e v) hv ⟨v, hlast, rfl⟩) ?_ ?_
    · rintro p o2 ⟨k, rfl, l, hk⟩
      have hvv : U.same v v = true := L.equiv.refl _
      have hkl : k ≤ xs.length := by
        apply Classical.byContradiction
        intro hc
        have := hk.before v (by
          rw [List.take_of_length_le (by simp; omega)]; simp)
        rw [hvv] at this; cases this
      rw [wp_ite]
      by_cases he : k = xs.length
      · subst he
        rw [if_pos rfl, wp_pure]
        have hb := hk.before
        rw [List.take_left] at hb
        refine ⟨b1, cap1, xs.length, _, ⟨⟨hv.looked l, fun e1 e2 e3 => ?_⟩, rfl⟩, Or.inl ⟨rfl, Or.inr hb, rfl, rfl⟩⟩
        obtain ⟨f1, f2, f3⟩ := hin e1 e2 e3
        exact ⟨f1, f2, l.q.next.trans f3⟩
      · rw [if_neg (by simp; omega), wp_bind]
        refine wp_mono (popBack_spec (hv.looked l)) ?_ (fun _ _ h => h.elim)
        rintro _ o3 ⟨h3, hn3, -⟩
        rw [wp_pure]
        have hlt : k < xs.length := by omega
        refine ⟨b1, cap1, k, xs, ⟨⟨h3, fun e1 e2 e3 => ?_⟩, rfl⟩, Or.inr ⟨rfl, rfl, rfl, xs[k], by simp, hk.at' _ ?_⟩⟩
        · obtain ⟨f1, f2, f3⟩ := hin e1 e2 e3
          exact ⟨f1, f2, hn3.trans (l.q.next.trans f3)⟩
        · rw [List.getElem?_append_left hlt]; simp
    · rintro e o2 ⟨hn, rfl, l⟩
      refine ⟨b1, cap1, _, ⟨hv.looked l, fun e1 e2 e3 => ?_⟩, fun _ hnt => ?_, by simp⟩
      · obtain ⟨f1, f2, f3⟩ := hin e1 e2 e3
        exact ⟨f1, f2, l.q.next.trans f3, by simp⟩
      · rw [hn] at hnt; cases hnt
  · rintro e o1 ⟨b', cap', xs', hf⟩
    exact ⟨b', cap', xs', hf.imp (fun _ => trivial)⟩

theorem OneOk.ofLooked {multi : Bool} {safe : Prop} {m : VM α (Ptr × Bool)} (l : Looked o o1)
    (h : OneOk H E ib N al b cap U multi safe xs v m o1 o1) : OneOk H E ib N al b cap U multi safe xs v m o o1 := by
  refine wp_mono h ?_ ?_
  · rintro r o2 ⟨b', cap', i, ys, hd, hi⟩
    exact ⟨b', cap', i, ys, hd.since l.q.next, hi⟩
  · rintro e o2 ⟨b', cap', xs', hf⟩
    exact ⟨b', cap', xs', hf.since l.q.next⟩

theorem OneOk.imp {multi : Bool} {safe safe' : Prop} {m : VM α (Ptr × Bool)} (hs : safe' → safe)
    (h : OneOk H E ib N al b cap U multi safe xs v m o o1) : OneOk H E ib N al b cap U multi safe' xs v m o o1 := by
  refine wp_mono h (fun _ _ h => h) ?_
  rintro e o2 ⟨b', cap', xs', hf⟩
  exact ⟨b', cap', xs', hf.imp hs⟩

/-- When `emplace` leaves no trace if it throws. -/
def emplaceSafe (K : Kind α) (U : KeyEq α κ) : Bool := K.multi || !K.appends || U.nothrow

theorem emplace_spec (L : U.Lawful) (hK : K.Ok E ib N st) (h : VSt H E ib N o al b cap xs)
    (hr : Fits st ib N b cap (xs.length + 1)) :
    OneOk H E ib N al b cap U K.multi (emplaceSafe K U = true) xs v (emplace K U E v) o o := by
  unfold emplace emplaceSafe
  cases hm : K.multi
  · rw [if_neg (by simp)]
    cases ha : K.appends
    · rw [if_neg (by simp)]
      unfold OneOk
      rw [wp_bind, wp_lift]
      refine mkTmp_copy (v := v) rfl rfl ?_ ?_
      · intro s1 hs1 _ hm1
        have l1 : Looked o ⟨o.obj, s1⟩ := .ofSame hs1 hm1
        have := (insertAux_spec (U := U) (a := .rv v) (v := v) hK (h.looked l1) rfl rfl hr).ofLooked l1
        rw [hm] at this
        exact this.imp (fun _ => trivial)
      · intro s1 hs1 hm1
        exact ⟨b, cap, xs, .quiet h (.ofSame hs1 hm1)⟩
    · rw [if_pos rfl]
      exact (emplaceAux_spec L hK h hr).imp (by simp)
  · rw [if_pos rfl]
    exact (pushNew_spec hK h (.refl _) rfl rfl hr (Or.inl rfl)).imp (fun _ => trivial)

theorem pushKey_spec (hK : K.Ok E ib N st) (h : VSt H E ib N o al b cap xs) (l : Looked o o1)
    (hr : Fits st ib N b cap (xs.length + 1)) (hn : ∀ x ∈ xs, U.same x v = false) :
    OneOk H E ib N al b cap U false True xs v (pushKey K E v) o o1 := by
  unfold pushKey
  cases hm : K.isMap
  · rw [if_neg (by simp)]
    unfold OneOk
    rw [wp_bind, wp_lift]
    refine mkTmp_copy (v := v) rfl rfl ?_ ?_
    · intro s1 hs1 _ hm1
      have l1 : Looked o ⟨o1.obj, s1⟩ := l.trans (.ofSame hs1 hm1)
      exact pushNew_spec hK h l1 rfl rfl hr (Or.inr hn)
    · intro s1 hs1 hm1
      exact ⟨b, cap, xs, .quiet h (l.trans (.ofSame hs1 hm1))⟩
  · rw [if_pos rfl]
    exact pushNew_spec hK h l rfl rfl hr (Or.inr hn)

theorem tryEmplaceAux_spec (hK : K.Ok E ib N st) (h : VSt H E ib N o al b cap xs)
    (hr : Fits st ib N b cap (xs.length + 1)) :
    OneOk H E ib N al b cap U false True xs v (tryEmplaceAux K U E v) o o := by
  unfold OneOk tryEmplaceAux
  rw [wp_bind]
  refine wp_mono (find_spec (f := fun e => U.same e v) h rfl) ?_ (fun e o' hc => OneFail.ofEq h hc)
  rintro p o2 ⟨k, rfl, l, hk⟩
  rw [wp_bind, wp_getObj, wp_ite, (h.looked l).obj]
  by_cases he : k = xs.length
  · rw [if_pos (by simpa using he)]
    exact pushKey_spec hK h l hr (hk.none he)
  · rw [if_neg (by simpa using he), wp_pure]
    exact ⟨b, cap, k, xs, oneDone_looked h l, hk.inserted he⟩

theorem wp_assignMapped {p : Ptr} {x : α} {s : St α} {Q : Unit → St α → Prop} {X : Exn → St α → Prop}
    (hx : s.mem p.blk p.off = some x)
    (hQ : ∀ s', Same s s' → (∀ b k, s'.mem b k = if b = p.blk ∧ k = p.off then some (U.upd x v) else s.mem b k) → Q () s')
    (hX : ∀ s' w, Same s s' → (∀ b k, s'.mem b k = if b = p.blk ∧ k = p.off then some (U.upd x w) else s.mem b k) →
      X .elem s') :
    wp (assignMapped U E p v) Q X s := by
  unfold wp assignMapped
  simp only [hx]
  by_cases ht : E.throws s.tick
  · simp only [ht, if_true]
    exact hX _ _ ⟨rfl, rfl⟩ (fun _ _ => rfl)
  · simp only [ht]
    exact hQ _ ⟨rfl, rfl⟩ (fun _ _ => rfl)

theorem VSt_set {s' : St α} {w : α} (h : VSt H E ib N o al b cap xs) (hk : k < xs.length) (hs : Same o.m s')
    (hm : ∀ c i, s'.mem c i = if c = b ∧ i = k then some w else o.m.mem c i) :
    VSt H E ib N ⟨o.obj, s'⟩ al b cap (xs.set k w) := by
  have hlen := h.len
  rw [h.obj]
  refine VSt.mk' rfl (by simp) rfl (h.st.upd hs ?_ ?_) (by simpa using hlen) ?_ h.capLe h.nLe
  · intro i hi; rw [hm, if_neg (by omega)]; exact h.st.beyond i hi
  · intro c hc i; rw [hm, if_neg (fun hh => hc hh.1)]
  · intro i
    rw [hm, h.cells, List.getElem?_set]
    by_cases e : i = k
    · subst e; simp [hk]
    · rw [if_neg (fun hh => e hh.2), if_neg (fun hh => e hh.symm)]

theorem insertOrAssignAux_spec (L : U.Lawful) (hK : K.Ok E ib N st) (h : VSt H E ib N o al b cap xs)
    (hr : Fits st ib N b cap (xs.length + 1)) :
    wp (insertOrAssignAux K U E v)
      (fun r o' => ∃ b' cap' i ys, OneDone H E ib N al b cap xs r.1 i o o' b' cap' ys ∧ Assigned U xs v i r.2 ys)
      (fun e o' => ∃ b' cap' xs', OpFail H E ib N al b cap e o o' b' cap' (xs.length + 1) xs' ∧
        (e = .lengthError → E.maxSize < xs.length + 1) ∧
        (Strong E → U.Distinct false xs → U.Distinct false xs')) o := by
  unfold insertOrAssignAux
  rw [wp_bind]
  refine wp_mono (find_spec (f := fun e => U.same e v) h rfl) ?_ ?_
  · rintro p o2 ⟨k, rfl, l, hk⟩
    have hv := h.looked l
    rw [wp_bind, wp_getObj, wp_ite, hv.obj]
    by_cases he : k = xs.length
    · rw [if_pos (by simpa using he)]
      refine wp_mono (pushNew_spec (U := U) (multi := false) (a := .val v) hK h l rfl rfl hr (Or.inr (hk.none he))) ?_ ?_
      · rintro r o3 ⟨b', cap', i, ys, hd, hi⟩
        refine ⟨b', cap', i, ys, hd, ?_⟩
        rcases hi with hi | ⟨-, -, -, x, hx, hxv⟩
        · refine Or.inl ⟨hi.1, Or.inl ⟨rfl, hi.2⟩⟩
        · have := hk.none he x (List.mem_of_getElem? hx)
          rw [hxv] at this; cases this
      · rintro e o3 ⟨b', cap', xs', hf⟩
        exact ⟨b', cap', xs', hf.op, hf.lenErr, fun hE hd => by rw [(hf.strong hE trivial).1]; exact hd⟩
    · rw [if_neg (by simpa using he), wp_bind, wp_lift]
      have hle := hk.le
      have hlt : k < xs.length := by omega
      refine wp_assignMapped (x := xs[k]) (by rw [hv.cells]; simp) ?_ ?_
      · intro s' hs hm
        rw [wp_pure]
        refine ⟨b, cap, k, _, ⟨⟨VSt_set hv hlt hs hm, fun e1 e2 _ => ⟨e1, e2, hs.next.trans l.q.next⟩⟩, rfl⟩,
          Or.inr ⟨rfl, xs[k], by simp, hk.at' _ (by simp), rfl⟩⟩
      · intro s' w hs hm
        exact ⟨b, cap, _, ⟨VSt_set hv hlt hs hm, fun e1 e2 _ => ⟨e1, e2, hs.next.trans l.q.next, by simp⟩⟩, by simp,
          fun _ hd => hd.set L (by simp)⟩
  · rintro e o2 ⟨-, rfl, l⟩
    exact ⟨b, cap, xs, opFail_looked h l, by simp, fun _ hd => hd⟩

/-! ### Ranges -/

theorem insertRange_spec (hK : K.Ok E ib N st) (vs : List α) : ∀ {o : Obj Vec α} {b cap : Nat} {xs : List α},
    VSt H E ib N o al b cap xs → Fits st ib N b cap (xs.length + vs.length) →
    wp (insertRange K U E vs)
      (fun _ o' => ∃ b' cap', OpDone H E ib N al b cap o o' b' cap' (xs.length + vs.length) (merge U K.multi xs vs))
      (fun e o' => ∃ b' cap' xs', OpFail H E ib N al b cap e o o' b' cap' (xs.length + vs.length) xs' ∧
        (Strong E → U.Distinct K.multi xs → U.Distinct K.multi xs') ∧
        (e = .lengthError → E.maxSize < xs.length + vs.length)) o := by
  induction vs with
  | nil =>
    intro o b cap xs h _
    exact ⟨b, cap, h, fun e1 e2 _ => ⟨e1, e2, rfl⟩⟩
  | cons v vs ih =>
    intro o b cap xs h hr
    simp only [List.length_cons] at hr ⊢
    have hr1 : Fits st ib N b cap (xs.length + 1) := fun hs => by
      obtain ⟨h1, h2, h3⟩ := hr hs
      exact ⟨h1, h2, by omega⟩
    unfold insertRange
    rw [wp_bind]
    refine hK.guard h hr1 ?_
    rw [wp_bind]
    refine wp_mono (insertAux_spec (U := U) (a := .val v) (v := v) hK h rfl rfl hr1) ?_ ?_
    · rintro r o1 ⟨b1, cap1, i, ys, hd, hi⟩
      have hlen := hi.length
      have hin := hd.op.inside
      refine wp_mono (ih hd.op.v ?_) ?_ ?_
      · intro hs
        obtain ⟨h1, h2, h3⟩ := hr hs
        obtain ⟨f1, f2, -⟩ := hin h1 h2 (by omega)
        exact ⟨f1, f2, by omega⟩
      · rintro _ o2 ⟨b2, cap2, hd2⟩
        refine ⟨b2, cap2, ?_⟩
        rw [← hi.merge]
        refine ⟨hd2.v, fun e1 e2 e3 => ?_⟩
        obtain ⟨f1, f2, f3⟩ := hin e1 e2 (by omega)
        obtain ⟨g1, g2, g3⟩ := hd2.inside f1 f2 (by omega)
        exact ⟨g1, g2, g3.trans f3⟩
      · rintro e o2 ⟨b2, cap2, xs', hf, hd2, hl⟩
        refine ⟨b2, cap2, xs', ⟨hf.v, fun e1 e2 e3 => ?_⟩, fun hE hd0 => hd2 hE (hi.distinct hd0), fun he => by have := hl he; omega⟩
        obtain ⟨f1, f2, f3⟩ := hin e1 e2 (by omega)
        obtain ⟨g1, g2, g3, g4⟩ := hf.inside f1 f2 (by omega)
        exact ⟨g1, g2, g3.trans f3, g4⟩
    · rintro e o1 ⟨b', cap', xs', hf⟩
      refine ⟨b', cap', xs', ⟨hf.op.v, fun e1 e2 e3 => hf.op.inside e1 e2 (by omega)⟩,
        fun hE hd => by rw [(hf.strong hE trivial).1]; exact hd, fun he => by have := hf.lenErr he; omega⟩

theorem distinct_nil {multi : Bool} : U.Distinct multi ([] : List α) := fun _ => List.Pairwise.nil

theorem assignList_spec (hK : K.Ok E ib N st) (vs : List α) (h : VSt H E ib N o al b cap xs)
    (hr : Fits st ib N b cap vs.length) :
    wp (assignList K U E vs)
      (fun _ o' => ∃ b' cap', OpDone H E ib N al b cap o o' b' cap' vs.length (merge U K.multi [] vs))
      (fun e o' => ∃ b' cap' xs', OpFail H E ib N al b cap e o o' b' cap' vs.length xs' ∧
        (Strong E → U.Distinct K.multi xs') ∧ (e = .lengthError → E.maxSize < vs.length)) o := by
  unfold assignList
  rw [wp_bind]
  refine wp_mono (clear_spec h) ?_ (fun _ _ h => h.elim)
  rintro _ o1 ⟨h1, hn, -⟩
  refine wp_mono (insertRange_spec (U := U) hK vs h1 (by simpa using hr)) ?_ ?_
  · rintro _ o2 ⟨b2, cap2, hd⟩
    refine ⟨b2, cap2, hd.v, fun e1 e2 e3 => ?_⟩
    obtain ⟨f1, f2, f3⟩ := hd.inside e1 e2 (by simpa using e3)
    exact ⟨f1, f2, f3.trans hn⟩
  · rintro e o2 ⟨b2, cap2, xs', hf, hd, hl⟩
    refine ⟨b2, cap2, xs', ⟨hf.v, fun e1 e2 e3 => ?_⟩, fun hE => hd hE distinct_nil, by simpa using hl⟩
    obtain ⟨f1, f2, f3, f4⟩ := hf.inside e1 e2 (by simpa using e3)
    exact ⟨f1, f2, f3.trans hn, f4⟩

/-! ### All operations -/

theorem wp_checkHint {h' : Nat} {Q : Unit → Obj Vec α → Prop} {X : Exn → Obj Vec α → Prop}
    (h : VSt H E ib N o al b cap xs) (hk : h' ≤ xs.length) (hQ : Q () o) : wp (checkHint h') Q X o := by
  unfold checkHint
  rw [wp_bind]
  refine wp_nth h ?_
  rw [wp_bind, wp_getObj, wp_assert, h.obj]
  exact ⟨⟨rfl, by simp, by simpa using hk⟩, hQ⟩

theorem NothrowMove.strong (h : NothrowMove E) : Strong E := Or.inl h.1

/-- The claims about an operation that threw. -/
abbrev Threw (U : KeyEq α κ) (K : Kind α) (E : Env α) (xs : List α) (op : Op α κ) (e : Exn) (xs' : List α) : Prop :=
  op.Failure U K.multi K.appends (Strong E) (NothrowMove E) E.maxSize xs e xs'

theorem OneFail.threw {safe : Prop} {op : Op α κ} {e : Exn} {b' cap' : Nat} {xs' : List α}
    (h : OneFail H E ib N al b cap safe xs e o o' b' cap' xs') (hone : op.one = true)
    (hs : op.careful K.multi K.appends U.nothrow = true → safe) : Threw U K E xs op e xs' where
  can := by cases op <;> simp [Op.one, Op.clears] at hone ⊢
  len := by
    have hroom : op.room xs.length = xs.length + 1 := by cases op <;> simp [Op.one, Op.room] at hone ⊢
    rw [hroom]; exact h.lenErr
  distinct := fun hE hc hd => by rw [(h.strong (NothrowMove.strong hE) (hs hc)).1]; exact hd
  strong := fun hE hc _ => (h.strong hE (hs hc)).1
  some := by cases op <;> simp [Op.one, Op.erases] at hone ⊢
  erase := by cases op <;> simp [Op.one, Op.erases] at hone ⊢

theorem EraseFail.threw {nt : Bool} {op : Op α κ} {e : Exn} {xs' : List α} (L : U.Lawful)
    (h : EraseFail H E ib N al b cap nt xs e o o' xs') (hop : op.erases = true) (hnt : U.nothrow = true → nt = true) :
    Threw U K E xs op e xs' := by
  have hsome : NothrowMove E → ∃ zs, zs.Sublist xs ∧ xs'.Perm zs := by
    intro hE
    rcases h.why with ⟨-, h'⟩ | h'
    · exact h'
    · rw [hE.2] at h'; cases h'
  refine ⟨?_, ?_, ?_, ?_, fun hE _ => hsome hE, ?_⟩
  · cases op <;> simp [Op.erases, Op.clears] at hop ⊢
  · rw [h.elem]; simp
  · intro hE _ hd
    obtain ⟨zs, h1, h2⟩ := hsome hE
    exact (hd.sublist h1).perm L h2
  · cases op <;> simp [Op.one, Op.storage, Op.erases] at hop ⊢
  · intro hE hn
    exfalso
    rcases h.why with ⟨h', -⟩ | h'
    · rw [hnt hn] at h'; cases h'
    · rw [hE.2] at h'; cases h'

theorem EraseFail.op {nt : Bool} {e : Exn} {xs' : List α} {need : Nat}
    (h : EraseFail H E ib N al b cap nt xs e o o' xs') : OpFail H E ib N al b cap e o o' b cap need xs' :=
  ⟨h.v, fun e1 e2 _ => ⟨e1, e2, h.next, by rw [h.elem]; simp⟩⟩

theorem exec_spec (L : U.Lawful) (hK : K.Ok E ib N st) (op : Op α κ) (h : VSt H E ib N o al b cap xs)
    (hp : op.pre K.multi xs.length = true) (hst : Fits st ib N b cap (op.room xs.length)) :
    wp (exec K U E (SmallVector.reserve E ib N) (SmallVector.shrinkToFit E ib N) op)
      (fun r o' => ∃ b' cap' ys, OpDone H E ib N al b cap o o' b' cap' (op.room xs.length) ys ∧
        ((op.keyed = false ∨ U.Distinct K.multi xs) → op.Result U K.multi xs r ys))
      (fun e o' => ∃ b' cap' xs', OpFail H E ib N al b cap e o o' b' cap' (op.room xs.length) xs' ∧
        Threw U K E xs op e xs' ∧
        (Strong E → op.careful K.multi K.appends U.nothrow = true → op.one = true ∨ op.storage = true → b' = b ∧ cap' = cap)) o := by
  cases op with
  | insert s =>
    have hs : s.ok xs.length = true := by simpa [Op.pre, Op.uniqueOnly] using hp
    simp only [exec, wp_bind]
    refine wp_argOf' h hs fun a v hg hv hsrc hmem hrv => hK.guard h hst ?_
    refine wp_mono (insertAux_spec (U := U) hK h hv hsrc hst) ?_ ?_
    · rintro r o1 ⟨b1, cap1, i, ys, hd, hi⟩
      exact wp_insOf hd.op.v hd.ptr ⟨b1, cap1, ys, hd.op, fun _ => ⟨v, i, r.2, hg, rfl, hi⟩⟩
    · rintro e o1 ⟨b', cap', xs', hf⟩
      exact ⟨b', cap', xs', hf.op, hf.threw rfl (fun _ => trivial),
        fun hE _ _ => (hf.strong hE trivial).2⟩
  | insertHint hn s =>
    obtain ⟨hk, hs⟩ : hn ≤ xs.length ∧ s.ok xs.length = true := by simpa [Op.pre, Op.uniqueOnly] using hp
    simp only [exec, wp_bind]
    refine wp_argOf' h hs fun a v hg hv hsrc hmem hrv => hK.guard h hst (wp_checkHint h hk ?_)
    refine wp_mono (insertAux_spec (U := U) hK h hv hsrc hst) ?_ ?_
    · rintro r o1 ⟨b1, cap1, i, ys, hd, hi⟩
      exact wp_posOf hd.op.v hd.ptr ⟨b1, cap1, ys, hd.op, fun _ => ⟨v, i, r.2, hg, rfl, hi⟩⟩
    · rintro e o1 ⟨b', cap', xs', hf⟩
      exact ⟨b', cap', xs', hf.op, hf.threw rfl (fun _ => trivial),
        fun hE _ _ => (hf.strong hE trivial).2⟩
  | emplace v =>
    simp only [exec, wp_bind]
    refine hK.guard h hst ?_
    refine wp_mono (emplace_spec L hK h hst) ?_ ?_
    · rintro r o1 ⟨b1, cap1, i, ys, hd, hi⟩
      exact wp_insOf hd.op.v hd.ptr ⟨b1, cap1, ys, hd.op, fun _ => ⟨i, r.2, rfl, hi⟩⟩
    · rintro e o1 ⟨b', cap', xs', hf⟩
      exact ⟨b', cap', xs', hf.op, hf.threw rfl (fun hc => hc),
        fun hE hc _ => (hf.strong hE hc).2⟩
  | emplaceHint hn v =>
    have hk : hn ≤ xs.length := by simpa [Op.pre, Op.uniqueOnly] using hp
    simp only [exec, wp_bind]
    refine hK.guard h hst (wp_checkHint h hk ?_)
    refine wp_mono (emplace_spec L hK h hst) ?_ ?_
    · rintro r o1 ⟨b1, cap1, i, ys, hd, hi⟩
      exact wp_posOf hd.op.v hd.ptr ⟨b1, cap1, ys, hd.op, fun _ => ⟨i, r.2, rfl, hi⟩⟩
    · rintro e o1 ⟨b', cap', xs', hf⟩
      exact ⟨b', cap', xs', hf.op, hf.threw rfl (fun hc => hc),
        fun hE hc _ => (hf.strong hE hc).2⟩
  | tryEmplace v =>
    have hu : K.multi = false := by simpa [Op.pre, Op.uniqueOnly] using hp
    simp only [exec, wp_bind]
    refine hK.guard h hst ?_
    refine wp_mono (tryEmplaceAux_spec (U := U) hK h hst) ?_ ?_
    · rintro r o1 ⟨b1, cap1, i, ys, hd, hi⟩
      rw [hu]
      exact wp_insOf hd.op.v hd.ptr ⟨b1, cap1, ys, hd.op, fun _ => ⟨i, r.2, rfl, hi⟩⟩
    · rintro e o1 ⟨b', cap', xs', hf⟩
      exact ⟨b', cap', xs', hf.op, hf.threw rfl (fun _ => trivial),
        fun hE _ _ => (hf.strong hE trivial).2⟩
  | tryEmplaceHint hn v =>
    obtain ⟨hu, hk⟩ : K.multi = false ∧ hn ≤ xs.length := by simpa [Op.pre, Op.uniqueOnly] using hp
    simp only [exec, wp_bind]
    refine hK.guard h hst (wp_checkHint h hk ?_)
    refine wp_mono (tryEmplaceAux_spec (U := U) hK h hst) ?_ ?_
    · rintro r o1 ⟨b1, cap1, i, ys, hd, hi⟩
      rw [hu]
      exact wp_posOf hd.op.v hd.ptr ⟨b1, cap1, ys, hd.op, fun _ => ⟨i, r.2, rfl, hi⟩⟩
    · rintro e o1 ⟨b', cap', xs', hf⟩
      exact ⟨b', cap', xs', hf.op, hf.threw rfl (fun _ => trivial),
        fun hE _ _ => (hf.strong hE trivial).2⟩
  | insertOrAssign v =>
    have hu : K.multi = false := by simpa [Op.pre, Op.uniqueOnly] using hp
    simp only [exec, wp_bind]
    refine hK.guard h hst ?_
    refine wp_mono (insertOrAssignAux_spec L hK h hst) ?_ ?_
    · rintro r o1 ⟨b1, cap1, i, ys, hd, hi⟩
      exact wp_insOf hd.op.v hd.ptr ⟨b1, cap1, ys, hd.op, fun _ => ⟨i, r.2, rfl, hi⟩⟩
    · rintro e o1 ⟨b', cap', xs', hf, hl, hd⟩
      refine ⟨b', cap', xs', hf, ⟨rfl, hl, fun hE _ => ?_, by simp [Op.one, Op.storage], by simp [Op.erases], fun _ _ => rfl⟩,
        by simp [Op.one, Op.storage]⟩
      rw [hu]; exact hd (NothrowMove.strong hE)
  | insertOrAssignHint hn v =>
    obtain ⟨hu, hk⟩ : K.multi = false ∧ hn ≤ xs.length := by simpa [Op.pre, Op.uniqueOnly] using hp
    simp only [exec, wp_bind]
    refine hK.guard h hst (wp_checkHint h hk ?_)
    refine wp_mono (insertOrAssignAux_spec L hK h hst) ?_ ?_
    · rintro r o1 ⟨b1, cap1, i, ys, hd, hi⟩
      exact wp_posOf hd.op.v hd.ptr ⟨b1, cap1, ys, hd.op, fun _ => ⟨i, r.2, rfl, hi⟩⟩
    · rintro e o1 ⟨b', cap', xs', hf, hl, hd⟩
      refine ⟨b', cap', xs', hf, ⟨rfl, hl, fun hE _ => ?_, by simp [Op.one, Op.storage], by simp [Op.erases], fun _ _ => rfl⟩,
        by simp [Op.one, Op.storage]⟩
      rw [hu]; exact hd (NothrowMove.strong hE)
  | insertRange vs =>
    simp only [exec, wp_bind]
    refine wp_mono (insertRange_spec (U := U) hK vs h hst) ?_ ?_
    · rintro _ o1 ⟨b1, cap1, hd⟩
      exact ⟨b1, cap1, _, hd, fun _ => ⟨rfl, rfl⟩⟩
    · rintro e o1 ⟨b1, cap1, xs', hf, g1, g2⟩
      exact ⟨b1, cap1, xs', hf, ⟨rfl, g2, fun hE _ => g1 (NothrowMove.strong hE), by simp [Op.one, Op.storage],
        by simp [Op.erases], fun _ _ => rfl⟩, by simp [Op.one, Op.storage]⟩
  | assignList vs =>
    simp only [exec, wp_bind]
    refine wp_mono (assignList_spec (U := U) hK vs h hst) ?_ ?_
    · rintro _ o1 ⟨b1, cap1, hd⟩
      exact ⟨b1, cap1, _, hd, fun _ => ⟨rfl, rfl⟩⟩
    · rintro e o1 ⟨b1, cap1, xs', hf, g1, g2⟩
      exact ⟨b1, cap1, xs', hf, ⟨rfl, g2, fun hE _ _ => g1 (NothrowMove.strong hE), by simp [Op.one, Op.storage],
        by simp [Op.erases], fun _ _ => rfl⟩, by simp [Op.one, Op.storage]⟩
  | eraseAt k =>
    have hk : k < xs.length := by simpa [Op.pre, Op.uniqueOnly] using hp
    simp only [exec, wp_bind]
    refine wp_nth h ?_
    refine wp_mono (eraseAt_spec h hk) ?_ ?_
    · rintro p o1 ⟨ys, h1, h2, hp, hr⟩
      exact wp_posOf h1 hp ⟨b, cap, ys, ⟨h1, fun e1 e2 _ => ⟨e1, e2, h2⟩⟩, fun _ => ⟨rfl, hr⟩⟩
    · rintro e o1 ⟨xs', h1, h2, h3, rfl, h5⟩
      have hf : EraseFail H E ib N al b cap true xs .elem o o1 xs' := ⟨h1, h3, rfl, Or.inr h5⟩
      exact ⟨b, cap, xs', hf.op, hf.threw L rfl (fun _ => rfl), fun _ _ _ => ⟨rfl, rfl⟩⟩
  | eraseRange k l =>
    obtain ⟨hkl, hl⟩ : k ≤ l ∧ l ≤ xs.length := by simpa [Op.pre, Op.uniqueOnly] using hp
    simp only [exec, wp_bind]
    refine wp_nth h (wp_nth h ?_)
    refine wp_mono (eraseRange_spec h hkl hl) ?_ ?_
    · rintro p o1 ⟨ys, h1, h2, hp, hr⟩
      exact wp_posOf h1 hp ⟨b, cap, ys, ⟨h1, fun e1 e2 _ => ⟨e1, e2, h2⟩⟩, fun _ => ⟨rfl, hr⟩⟩
    · rintro e o1 ⟨xs', h1, h2, h3, rfl, h5⟩
      have hf : EraseFail H E ib N al b cap true xs .elem o o1 xs' := ⟨h1, h3, rfl, Or.inr h5⟩
      exact ⟨b, cap, xs', hf.op, hf.threw L rfl (fun _ => rfl), fun _ _ _ => ⟨rfl, rfl⟩⟩
  | eraseKey key =>
    simp only [exec, wp_bind]
    unfold eraseKey
    cases hm : K.multi
    · rw [if_neg (by simp)]
      refine wp_mono (eraseKeyUnique_spec (U := U) (f := U.hasKey key) h rfl) ?_ ?_
      · rintro n o1 ⟨ys, h1, h2, h3⟩
        refine ⟨b, cap, ys, ⟨h1, fun e1 e2 _ => ⟨e1, e2, h2⟩⟩, fun hs => ?_⟩
        obtain ⟨rfl, hp⟩ := h3 ((hs.resolve_left (by simp [Op.keyed])).countP_le L key)
        exact ⟨rfl, hp⟩
      · rintro e o1 ⟨xs', hf⟩
        exact ⟨b, cap, xs', hf.op, hf.threw L rfl id, fun _ _ _ => ⟨rfl, rfl⟩⟩
    · rw [if_pos rfl]
      refine wp_mono (eraseKeyMulti_spec (U := U) h) ?_ ?_
      · rintro n o1 ⟨ys, h1, h2, rfl, hp⟩
        exact ⟨b, cap, ys, ⟨h1, fun e1 e2 _ => ⟨e1, e2, h2⟩⟩, fun _ => ⟨rfl, hp⟩⟩
      · rintro e o1 ⟨xs', hf⟩
        exact ⟨b, cap, xs', hf.op, hf.threw L rfl id, fun _ _ _ => ⟨rfl, rfl⟩⟩
  | eraseEqual i =>
    obtain ⟨hi, hm⟩ : i < xs.length ∧ K.multi = false := by simpa [Op.pre, Op.uniqueOnly] using hp
    simp only [exec, wp_bind]
    refine wp_nth h ?_
    unfold eraseKey
    rw [if_neg (by simp [hm])]
    refine wp_mono (eraseKeyUnique_spec (U := U) (f := U.hasKey (U.key xs[i])) h
      ⟨xs[i], by rw [h.cells]; simp, rfl⟩) ?_ ?_
    · rintro n o1 ⟨ys, h1, h2, h3⟩
      refine ⟨b, cap, ys, ⟨h1, fun e1 e2 _ => ⟨e1, e2, h2⟩⟩, fun hs => ?_⟩
      rw [hm] at hs
      obtain ⟨rfl, hp⟩ := h3 ((hs.resolve_left (by simp [Op.keyed])).countP_le L _)
      exact ⟨xs[i], by simp, rfl, hp⟩
    · rintro e o1 ⟨xs', hf⟩
      exact ⟨b, cap, xs', hf.op, hf.threw L rfl id, fun _ _ _ => ⟨rfl, rfl⟩⟩
  | eraseIf f =>
    simp only [exec, wp_bind]
    refine wp_mono (eraseIf_spec h) ?_ ?_
    · rintro n o1 ⟨ys, h1, h2, rfl, hp⟩
      exact ⟨b, cap, ys, ⟨h1, fun e1 e2 _ => ⟨e1, e2, h2⟩⟩, fun _ => ⟨rfl, hp⟩⟩
    · rintro e o1 ⟨xs', hf⟩
      exact ⟨b, cap, xs', hf.op, hf.threw L rfl (fun _ => rfl), fun _ _ _ => ⟨rfl, rfl⟩⟩
  | clear =>
    simp only [exec, wp_bind]
    refine wp_mono (clear_spec h) ?_ (fun _ _ h => h.elim)
    rintro _ o1 ⟨h1, h2, h3⟩
    exact ⟨b, cap, _, ⟨h1, fun e1 e2 _ => ⟨e1, e2, h2⟩⟩, fun _ => ⟨rfl, rfl⟩⟩
  | reserve n =>
    simp only [exec, wp_bind]
    refine wp_mono (reserve_spec h) ?_ ?_
    · rintro _ o1 ⟨b1, cap1, hv, k1, k2, k3, k4⟩
      refine ⟨b1, cap1, _, ⟨hv, ?_⟩, fun _ => ⟨rfl, rfl⟩⟩
      rintro rfl rfl hh
      simp only [Op.room] at hh
      obtain ⟨e1, e2, e3⟩ := k3 hh
      exact ⟨e1, e2, k4 (by omega)⟩
    · rintro e o1 ⟨xs', k1, k2, k3, k4, k5⟩
      refine ⟨b, cap, xs', ⟨k1, ?_⟩, ⟨rfl, k5.mp, fun hE _ hs => by rw [k3 (NothrowMove.strong hE)]; exact hs,
        fun hE _ _ => k3 hE, by simp [Op.erases], fun _ _ => rfl⟩, fun _ _ _ => ⟨rfl, rfl⟩⟩
      rintro rfl rfl hh
      simp only [Op.room] at hh
      exact ⟨rfl, rfl, k4 (by omega)⟩
  | shrinkToFit =>
    simp only [exec, wp_bind]
    refine wp_mono (shrinkToFit_spec h) ?_ ?_
    · rintro _ o1 ⟨b1, cap1, hv, k1, k2⟩
      refine ⟨b1, cap1, _, ⟨hv, ?_⟩, fun _ => ⟨rfl, rfl⟩⟩
      rintro rfl rfl hh
      simp only [Op.room] at hh
      obtain ⟨e1, e2⟩ := k2 hh
      have hb : b1 = b := by
        rcases e2 with e2 | e2
        · exact e2
        · exact e2.1
      subst hb
      exact ⟨rfl, hv.internal, e1⟩
    · rintro e o1 ⟨xs', k1, k2, k3, k4, k5⟩
      refine ⟨b, cap, xs', ⟨k1, ?_⟩, ⟨rfl, fun he => absurd he k5, fun hE _ hs => by rw [k3 (NothrowMove.strong hE)]; exact hs,
        fun hE _ _ => k3 hE, by simp [Op.erases], fun _ _ => rfl⟩, fun _ _ _ => ⟨rfl, rfl⟩⟩
      rintro rfl rfl hh
      simp only [Op.room] at hh
      exact ⟨rfl, rfl, k4 (by omega)⟩

end Sfl.Unord
