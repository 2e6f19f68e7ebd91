import Verif.DevFeed
/-
  Correctness of construction, destruction and assignment of devector. (Helper lemmas.)
-/

set_option linter.unusedSimpArgs false

namespace Sfl.Devector
open Sfl
variable {α : Type} {E : Env α} {H : Heap α} {al b cap f n : Nat} {o : Obj DVec α} {xs vs : List α} {s s' m : St α}
  {as : List (Arg α)} {mv : Option Ptr}

/-! ### Storage returned to the allocator -/

theorem dealloc0 {Q : Unit → St α → Prop} {X : Exn → St α → Prop} (h : Store H s al 0 0 b cap) (hraw : ∀ i, s.mem b i = none)
    (hQ : ∀ s', Gone H al 0 0 s' → Q () s') : wp (deallocate al ⟨b, 0⟩ cap) Q X s := by
  have hd := h.release (X := X) (Q := Q) hraw (fun s' _ _ _ hst => hQ s' ⟨hst, fun i => hst.wf.dead 0 hst.wf.blk_zero i⟩)
  unfold freeUnless at hd
  by_cases hb : b = 0
  · subst hb
    refine wp_deallocate_null ?_
    simpa [wp_pure] using hd
  · rw [if_pos (by simpa using hb)] at hd; exact hd

theorem Gone.dst (h : Gone H al 0 0 m) : DSt H E ⟨empty al, m⟩ al 0 0 0 [] :=
  ⟨rfl, h.st, by simp, Nat.zero_le _, fun i => by rw [h.raw]; simp⟩

theorem DSt.gone (h : DSt H E o al 0 0 0 []) : Gone H al 0 0 o.m :=
  ⟨h.st, fun i => by rw [h.cells]; simp⟩

theorem destroy_spec (h : DSt H E o al b cap f xs) :
    wp destroy (fun _ o' => Gone H al 0 0 o'.m) (fun _ _ => False) o := by
  have hfit := h.fit
  unfold destroy
  rw [wp_bind, wp_getObj, wp_bind, wp_lift, h.obj]
  refine h.row.destroy (by omega) (fun i h1 h2 => by omega) ?_
  intro s1 hrow _
  rw [wp_bind]
  refine wp_distance rfl (by simp) ?_
  rw [wp_lift]
  refine dealloc0 hrow.st (fun i => hrow.raw (by omega)) (fun s' h => h)

/-- `reset` is only right if there is no free space in front of the first element. -/
theorem reset_spec (h : DSt H E o al b cap 0 xs) :
    wp reset (fun _ o' => DSt H E o' al 0 0 0 []) (fun _ _ => False) o := by
  have hfit := h.fit
  unfold reset
  rw [wp_bind, wp_getObj, wp_bind, wp_lift, h.obj]
  refine h.row.destroy (by omega) (fun i h1 h2 => by omega) ?_
  intro s1 hrow _
  rw [wp_bind]
  refine wp_distance rfl (by simp) ?_
  rw [wp_bind, wp_lift]
  refine dealloc0 hrow.st (fun i => hrow.raw (by omega)) (fun s' h => ?_)
  rw [wp_setObj]
  exact Gone.dst h

/-! ### Construction -/

theorem initWith_spec (hg : Gone H al 0 0 m) (hf : Feed E H as vs mv (fun _ => False) H) :
    wp (initWith E as)
      (fun _ o' => ∃ b' H', Feed E H as vs mv (fun _ => True) H' ∧ DSt H' E o' al b' vs.length 0 vs)
      (fun e o' => (∃ H', Spoilt H vs mv H' ∧ Gone H' al 0 0 o'.m) ∧ (e = .lengthError → E.maxSize < vs.length))
      ⟨empty al, m⟩ := by
  have hlen := hf.length
  unfold initWith checkSize
  simp only [hlen]
  rw [wp_bind, wp_ite]
  split
  · rename_i hc
    rw [wp_throw]
    exact ⟨⟨H, hf.spoilt, hg⟩, fun _ => hc⟩
  rename_i hc
  have fin : ∀ nb s1, Row H s1 al nb vs.length s1.next (fun _ => False) →
      wp (do
        setObj (⟨⟨nb, 0⟩, ⟨nb, 0⟩, ⟨nb, 0⟩, ⟨nb, vs.length⟩, al⟩ : DVec)
        let l ← M.tryCatch (lift (uninit E ⟨nb, 0⟩ as)) (fun e => do
          lift (deallocate al ⟨nb, 0⟩ vs.length)
          M.throw e)
        setObj (⟨⟨nb, 0⟩, ⟨nb, 0⟩, l, ⟨nb, vs.length⟩, al⟩ : DVec))
      (fun _ o' => ∃ b' H', Feed E H as vs mv (fun _ => True) H' ∧ DSt H' E o' al b' vs.length 0 vs)
      (fun e o' => (∃ H', Spoilt H vs mv H' ∧ Gone H' al 0 0 o'.m) ∧ (e = .lengthError → E.maxSize < vs.length))
      ⟨empty al, s1⟩ := by
    intro nb s1 hrow
    rw [wp_bind, wp_setObj, wp_bind, wp_tryCatch, wp_lift]
    rw [show as = (as.drop 0).take vs.length by rw [← hlen]; simp]
    refine hf.uninit hrow (by omega) (fun _ _ _ h => h) (by omega) (fun _ _ _ h => h) ?_ ?_
    · intro s2 H' hf' hrow' hm
      rw [wp_setObj]
      rw [show (as.drop 0).take vs.length = as by rw [← hlen]; simp]
      refine ⟨nb, H', hf'.congr (fun i hi => by simp [hi]), ?_⟩
      refine Row.dst' (nx := s1.next) (l := vs.length) (hrow'.congr (fun i => by simp)) (by omega) (by omega) (by simp) (by omega) ?_
      intro i h1 h2
      rw [hm i, if_pos (by omega)]; simp
    · intro s2 H' hsp hrow' hm
      rw [wp_bind, wp_lift]
      refine dealloc0 hrow'.st (fun i => hrow'.raw (fun h => h)) (fun s' h => ?_)
      rw [wp_throw]
      exact ⟨⟨H', hsp, h⟩, by simp⟩
  rw [wp_pure, wp_bind, wp_getObj, wp_bind, wp_lift]
  refine wp_allocate hg.st.wf ?_ ?_ ?_
  · intro hz
    have hrow : Row H m al 0 vs.length m.next (fun _ => False) := by
      rw [hz]; exact ⟨hg.st, rfl, fun i => by rw [hg.raw]; simp⟩
    simpa [Ptr.null, Ptr.add, empty] using fin 0 m hrow
  · intro hz s1 hm1 hn1 _ hb1
    obtain ⟨h2, h3⟩ := hg.st.alloc hm1 hn1 (ncap := vs.length) (by omega) hb1
    have hst := h2.switch (Or.inl rfl) (fun i => by rw [hm1]; exact hg.raw i)
    have hrow : Row H s1 al m.next vs.length s1.next (fun _ => False) := ⟨hst, rfl, fun i => by rw [h3]; simp⟩
    simpa [Ptr.null, Ptr.add, empty] using fin m.next s1 hrow
  · intro _ s1 hs1 hm1
    exact ⟨⟨H, hf.spoilt, hg.st.same hs1 hm1, fun i => by rw [hm1]; exact hg.raw i⟩, by simp⟩

theorem emplaceBackAll_spec (hx : Exts H E as vs) :
    ∀ {o : Obj DVec α} {xs : List α} {b cap f : Nat}, DSt H E o al b cap f xs →
    wp (emplaceBackAll E as)
      (fun _ o' => ∃ b' cap' f', DSt H E o' al b' cap' f' (xs ++ vs))
      (fun _ o' => as ≠ [] ∧ Partly H E al xs.length (xs.length + vs.length) o') o := by
  induction as generalizing vs with
  | nil =>
    intro o xs b cap f h
    obtain rfl : vs = [] := by have := hx.length; simpa using this.symm
    unfold emplaceBackAll
    rw [wp_pure]
    exact ⟨b, cap, f, by simpa using h⟩
  | cons a as ih =>
    intro o xs b cap f h
    obtain ⟨v, vs', rfl, hsrc, hv, hx'⟩ := hx.cons
    unfold emplaceBackAll emplaceBack
    rw [wp_bind, wp_bind]
    refine wp_mono (emplaceBackAux_spec h (hv _ h.st.agree) hsrc) ?_ ?_
    · rintro r o1 ⟨b1, cap1, f1, h1, rfl⟩
      rw [wp_pure]
      rw [List.take_length, List.drop_length, List.append_nil] at h1
      refine wp_mono (ih hx' h1) ?_ ?_
      · rintro _ o2 ⟨b2, cap2, f2, h2⟩
        exact ⟨b2, cap2, f2, by simpa using h2⟩
      · rintro e o2 ⟨_, b', cap', f', xs', g1, g2, g3⟩
        exact ⟨by simp, b', cap', f', xs', g1, by simp at g2; omega, by simp at g3 ⊢; omega⟩
    · intro e o1 h1
      obtain ⟨xs', g1, g2, -⟩ := h1.safe (Or.inl id)
      exact ⟨by simp, b, cap, f, xs', g1, by omega, by omega⟩

theorem initInput_spec (hg : Gone H al 0 0 m) (hx : Exts H E as vs) :
    wp (initInput E as) (fun _ o' => ∃ b' cap' f', DSt H E o' al b' cap' f' vs)
      (fun _ o' => as ≠ [] ∧ Gone H al 0 0 o'.m) ⟨empty al, m⟩ := by
  unfold initInput
  rw [wp_tryCatch]
  refine wp_mono (emplaceBackAll_spec hx (Gone.dst hg)) ?_ ?_
  · rintro _ o1 ⟨b1, cap1, f1, h1⟩
    exact ⟨b1, cap1, f1, by simpa using h1⟩
  · rintro e o1 ⟨h0, b1, cap1, f1, xs', h1, -⟩
    rw [wp_bind]
    refine wp_mono (destroy_spec h1) ?_ (fun _ _ h => h.elim)
    intro _ o2 h2
    rw [wp_throw]
    exact ⟨h0, h2⟩

/-! ### Assignment -/

/-- What a failed assignment of `vs` leaves behind. -/
def Halfway (H : Heap α) (E : Env α) (al : Nat) (xs vs : List α) (mv : Option Ptr) (o' : Obj DVec α) : Prop :=
  ∃ b' cap' f' xs' H', Spoilt H vs mv H' ∧ DSt H' E o' al b' cap' f' xs' ∧ xs.length ≤ xs'.length ∧
    xs'.length ≤ max xs.length vs.length

/-- Assign to the existing elements, then construct after and before them. -/
theorem assign3 {x : Nat} (g : Ptr → Ptr) (h : DSt H E o al b cap f xs) (hf : Feed E H as vs mv (fun _ => False) H)
    (h1 : x ≤ f) (h2 : x + xs.length ≤ vs.length) (h3 : f + (vs.length - x) ≤ cap)
    (hg : g ⟨b, f + xs.length + (vs.length - (x + xs.length))⟩ = ⟨b, f + xs.length + (vs.length - (x + xs.length))⟩) :
    wp (do
        let _ ← lift (assignGo E ⟨b, f⟩ ((as.drop x).take xs.length))
        let l ← lift (uninit E ⟨b, f + xs.length⟩ ((as.drop (x + xs.length)).take (vs.length - (x + xs.length))))
        setObj (⟨⟨b, 0⟩, ⟨b, f⟩, g l, ⟨b, cap⟩, al⟩ : DVec)
        let _ ← lift (uninit E ⟨b, f - x⟩ ((as.drop 0).take x))
        setObj (⟨⟨b, 0⟩, ⟨b, f - x⟩, g l, ⟨b, cap⟩, al⟩ : DVec))
      (fun _ o' => ∃ b' cap' f' H', Feed E H as vs mv (fun _ => True) H' ∧ DSt H' E o' al b' cap' f' vs)
      (fun e o' => e = .elem ∧ Halfway H E al xs vs mv o') o := by
  have hfit := h.fit
  have hcl := h.capLe
  rw [wp_bind, wp_lift]
  refine hf.assign h.row h2 (fun _ _ _ h => h) (fun i _ _ => by omega) ?_ ?_
  · intro s1 H1 f1 r1 m1
    rw [wp_bind, wp_lift]
    refine f1.uninit (cap := cap) r1 (by omega) (fun i _ _ => by simp; omega) (by omega) (fun i _ _ => by omega) ?_ ?_
    · intro s2 H2 f2 r2 m2
      rw [wp_bind, wp_setObj, wp_bind, wp_lift, hg]
      refine f2.uninit (cap := cap) r2 (by omega) (fun i _ _ => by simp; omega) (by omega) (fun i _ _ => by omega) ?_ ?_
      · intro s3 H3 f3 r3 m3
        rw [wp_setObj]
        refine ⟨b, cap, f - x, H3, f3.congr (fun i hi => by simp; omega), ?_⟩
        refine Row.dst' (nx := o.m.next) (l := f - x + vs.length) (r3.congr (fun i => by omega)) (by omega) hcl
          (by simp; omega) rfl ?_
        intro i e1 e2
        rw [m3 i]
        split
        · congr 1; omega
        · rw [m2 i]
          split
          · congr 1; omega
          · rw [m1 i, if_pos (by omega)]; congr 1; omega
      · intro s3 H3 sp r3 _
        obtain ⟨ys, k1, k2, -⟩ := Row.dst (f := f) (l := f + xs.length + (vs.length - (x + xs.length))) (E := E)
          (v := ⟨⟨b, 0⟩, ⟨b, f⟩, ⟨b, f + xs.length + (vs.length - (x + xs.length))⟩, ⟨b, cap⟩, al⟩)
          (r3.congr (fun i => by omega)) (by omega) (by omega) hcl rfl
        exact ⟨rfl, b, cap, f, ys, H3, sp, k1, by omega, by omega⟩
    · intro s2 H2 sp r2 _
      obtain ⟨ys, k1, k2, -⟩ := Row.dst (E := E) (v := o.obj) r2 (by omega) (by omega) hcl h.obj
      exact ⟨rfl, b, cap, f, ys, H2, sp, k1, by omega, by omega⟩
  · intro s1 H1 sp r1
    obtain ⟨ys, k1, k2, -⟩ := Row.dst (E := E) (v := o.obj) r1 (by omega) (by omega) hcl h.obj
    exact ⟨rfl, b, cap, f, ys, H1, sp, k1, by omega, by omega⟩

/-- Assign to the first elements and destroy the others. -/
theorem assign1 (h : DSt H E o al b cap f xs) (hf : Feed E H as vs mv (fun _ => False) H) (hn : vs.length ≤ xs.length) :
    wp (do
        let l ← lift (assignGo E ⟨b, f⟩ ((as.drop 0).take vs.length))
        lift (destroyRange l ⟨b, f + xs.length⟩)
        setObj (⟨⟨b, 0⟩, ⟨b, f⟩, l, ⟨b, cap⟩, al⟩ : DVec))
      (fun _ o' => ∃ b' cap' f' H', Feed E H as vs mv (fun _ => True) H' ∧ DSt H' E o' al b' cap' f' vs)
      (fun e o' => e = .elem ∧ Halfway H E al xs vs mv o') o := by
  have hfit := h.fit
  have hcl := h.capLe
  rw [wp_bind, wp_lift]
  refine hf.assign h.row (by omega) (fun _ _ _ h => h) (fun i _ _ => by omega) ?_ ?_
  · intro s1 H1 f1 r1 m1
    rw [wp_bind, wp_lift]
    refine r1.destroy (by omega) (fun i _ _ => by omega) ?_
    intro s2 r2 m2
    rw [wp_setObj]
    refine ⟨b, cap, f, H1, f1.congr (fun i hi => by simp; omega), ?_⟩
    refine Row.dst' (nx := o.m.next) (l := f + vs.length) (r2.congr (fun i => by omega)) (by omega) hcl rfl rfl ?_
    intro i e1 e2
    rw [m2 i, if_neg (by omega), m1 i, if_pos (by omega)]; congr 1; omega
  · intro s1 H1 sp r1
    obtain ⟨ys, k1, k2, -⟩ := Row.dst (E := E) (v := o.obj) r1 (by omega) (by omega) hcl h.obj
    exact ⟨rfl, b, cap, f, ys, H1, sp, k1, by omega, by omega⟩

/-- Assign to the existing elements, then construct after them. -/
theorem assign2 (h : DSt H E o al b cap f xs) (hf : Feed E H as vs mv (fun _ => False) H)
    (h2 : xs.length ≤ vs.length) (h3 : f + vs.length ≤ cap) :
    wp (do
        let _ ← lift (assignGo E ⟨b, f⟩ ((as.drop 0).take xs.length))
        let l ← lift (uninit E ⟨b, f + xs.length⟩ ((as.drop xs.length).take (vs.length - xs.length)))
        setObj (⟨⟨b, 0⟩, ⟨b, f⟩, l, ⟨b, cap⟩, al⟩ : DVec))
      (fun _ o' => ∃ b' cap' f' H', Feed E H as vs mv (fun _ => True) H' ∧ DSt H' E o' al b' cap' f' vs)
      (fun e o' => e = .elem ∧ Halfway H E al xs vs mv o') o := by
  have hfit := h.fit
  have hcl := h.capLe
  rw [wp_bind, wp_lift]
  refine hf.assign h.row (by omega) (fun _ _ _ h => h) (fun i _ _ => by omega) ?_ ?_
  · intro s1 H1 f1 r1 m1
    rw [wp_bind, wp_lift]
    refine f1.uninit (cap := cap) r1 (by omega) (fun i _ _ => by simp; omega) (by omega) (fun i _ _ => by omega) ?_ ?_
    · intro s2 H2 f2 r2 m2
      rw [wp_setObj]
      refine ⟨b, cap, f, H2, f2.congr (fun i hi => by simp; omega), ?_⟩
      refine Row.dst' (nx := o.m.next) (l := f + vs.length) (r2.congr (fun i => by omega)) (by omega) hcl
        (by simp; omega) rfl ?_
      intro i e1 e2
      rw [m2 i]
      split
      · congr 1; omega
      · rw [m1 i, if_pos (by omega)]; congr 1; omega
    · intro s2 H2 sp r2 _
      obtain ⟨ys, k1, k2, -⟩ := Row.dst (E := E) (v := o.obj) r2 (by omega) (by omega) hcl h.obj
      exact ⟨rfl, b, cap, f, ys, H2, sp, k1, by omega, by omega⟩
  · intro s1 H1 sp r1
    obtain ⟨ys, k1, k2, -⟩ := Row.dst (E := E) (v := o.obj) r1 (by omega) (by omega) hcl h.obj
    exact ⟨rfl, b, cap, f, ys, H1, sp, k1, by omega, by omega⟩

theorem Ptr.sub_le {b f x : Nat} (h : x ≤ f) : (⟨b, f⟩ : Ptr).sub x = ⟨b, f - x⟩ := by
  unfold Ptr.sub; rw [if_pos (by dsimp only; exact h)]

theorem assignRange_spec (h : DSt H E o al b cap f xs) (hf : Feed E H as vs mv (fun _ => False) H) :
    wp (assignRange E as)
      (fun _ o' => ∃ b' cap' f' H', Feed E H as vs mv (fun _ => True) H' ∧ DSt H' E o' al b' cap' f' vs)
      (fun e o' => Halfway H E al xs vs mv o' ∧ (e = .lengthError → E.maxSize < vs.length)) o := by
  have hlen := hf.length
  have hfit := h.fit
  have imp : ∀ (e : Exn) (o' : Obj DVec α), e = .elem ∧ Halfway H E al xs vs mv o' →
      Halfway H E al xs vs mv o' ∧ (e = .lengthError → E.maxSize < vs.length) :=
    fun e o' h => ⟨h.2, by rw [h.1]; simp⟩
  obtain ⟨w, m⟩ := o
  obtain rfl : w = _ := h.obj
  unfold assignRange
  rw [hlen, wp_bind, wp_getObj, wp_bind]
  refine wp_size h ?_
  rw [wp_ite]
  split
  · rename_i hn
    refine wp_mono ?_ (fun _ _ h => h) imp
    have := assign1 h hf hn
    rw [show (as.drop 0).take vs.length = as by rw [← hlen]; simp] at this
    exact this
  rename_i hn
  rw [wp_bind]
  refine wp_availableBack h ?_
  rw [wp_ite]
  split
  · rename_i hb
    refine wp_mono ?_ (fun _ _ h => h) imp
    have := assign2 h hf (by omega) (by omega)
    rw [List.take_of_length_le (l := as.drop xs.length) (by simp; omega)] at this
    exact this
  rename_i hb
  rw [wp_bind]
  refine wp_availableFront h ?_
  rw [wp_ite]
  split
  · rename_i hc
    refine wp_mono ?_ (fun _ _ h => h) imp
    have := assign3 id (x := vs.length - (xs.length + (cap - (f + xs.length)))) h hf (by omega) (by omega) (by omega) rfl
    rw [List.take_of_length_le (l := as.drop (vs.length - (xs.length + (cap - (f + xs.length))) + xs.length)) (by simp; omega)] at this
    rw [Ptr.sub_le (by omega)]
    exact this
  · rename_i hc
    rw [wp_bind]
    refine wp_mono (growStorageBack_spec h (by omega)) ?_ ?_
    · rintro _ o1 ⟨b1, h1⟩
      obtain ⟨w1, m1⟩ := o1
      obtain rfl : w1 = _ := h1.obj
      rw [wp_bind, wp_getObj]
      refine wp_mono ?_ (fun _ _ h => h) imp
      have := assign3 id (x := f) h1 hf (by omega) (by omega) (by omega) rfl
      rw [List.take_of_length_le (l := as.drop (f + xs.length)) (by simp; omega), Nat.sub_self] at this
      exact this
    · rintro e o1 ⟨xs', k1, k2, k3, k4⟩
      refine ⟨⟨b, cap, f, xs', H, hf.spoilt, k1, by omega, by omega⟩, fun he => ?_⟩
      have := k4 he; omega

theorem take_drop_replicate {a : Arg α} {n x k : Nat} (h : x + k ≤ n) :
    ((List.replicate n a).drop x).take k = List.replicate k a := by
  rw [List.drop_replicate, List.take_replicate, Nat.min_eq_left (by omega)]

theorem wp_fillRange {b x k : Nat} {a : Arg α} {Q : Unit → St α → Prop} {X : Exn → St α → Prop}
    (h : wp (assignGo E ⟨b, x⟩ (List.replicate k a)) (fun _ s' => Q () s') X s) :
    wp (fillRange E ⟨b, x⟩ ⟨b, x + k⟩ a) Q X s := by
  unfold fillRange
  rw [wp_bind]
  refine wp_distance rfl (by simp) ?_
  simp only [Nat.add_sub_cancel_left]
  rw [wp_bind]
  exact h

theorem wp_uninitFill {b x y k : Nat} {a : Arg α} {Q : Unit → St α → Prop} {X : Exn → St α → Prop} (hy : y = x + k)
    (h : wp (uninit E ⟨b, x⟩ (List.replicate k a)) (fun _ s' => Q () s') X s) :
    wp (uninitFill E ⟨b, x⟩ ⟨b, y⟩ a) Q X s := by
  subst hy
  unfold uninitFill
  rw [wp_bind]
  refine wp_distance rfl (by simp) ?_
  simp only [Nat.add_sub_cancel_left]
  rw [wp_bind]
  exact h

theorem assignFillN_spec {a : Arg α} {v : α} (h : DSt H E o al b cap f xs) (ha : Exts H E [a] [v]) :
    wp (assignFillN E n a)
      (fun _ o' => ∃ b' cap' f', DSt H E o' al b' cap' f' (List.replicate n v))
      (fun e o' => Halfway H E al xs (List.replicate n v) none o' ∧ (e = .lengthError → E.maxSize < n)) o := by
  have hf : Feed E H (List.replicate n a) (List.replicate n v) none (fun _ => False) H := Feed.copy (Exts.replicate ha n)
  have hvl : (List.replicate n v).length = n := by simp
  have hfit := h.fit
  have imp : ∀ (e : Exn) (o' : Obj DVec α), e = .elem ∧ Halfway H E al xs (List.replicate n v) none o' →
      Halfway H E al xs (List.replicate n v) none o' ∧ (e = .lengthError → E.maxSize < n) :=
    fun e o' h => ⟨h.2, by rw [h.1]; simp⟩
  have imp' : ∀ (_ : Unit) (o' : Obj DVec α), (∃ b' cap' f' H', Feed E H (List.replicate n a) (List.replicate n v) none
      (fun _ => True) H' ∧ DSt H' E o' al b' cap' f' (List.replicate n v)) →
      ∃ b' cap' f', DSt H E o' al b' cap' f' (List.replicate n v) := by
    rintro _ o' ⟨b', cap', f', H', ⟨-, rfl⟩, k⟩
    exact ⟨b', cap', f', k⟩
  obtain ⟨w, m⟩ := o
  obtain rfl : w = _ := h.obj
  unfold assignFillN
  rw [wp_bind, wp_getObj, wp_bind]
  refine wp_size h ?_
  rw [wp_ite]
  split
  · rename_i hn
    rw [wp_bind, wp_lift]
    refine wp_fillRange ?_
    have key := hf.assign (d := f) (x := 0) (m := n) h.row (by omega) (fun _ _ _ h => h) (fun i _ _ => by omega)
      (Q := fun _ s1 => wp (do
          lift (destroyRange ⟨b, f + n⟩ ⟨b, f + xs.length⟩)
          setObj (⟨⟨b, 0⟩, ⟨b, f⟩, ⟨b, f + n⟩, ⟨b, cap⟩, al⟩ : DVec))
        (fun _ o' => ∃ b' cap' f', DSt H E o' al b' cap' f' (List.replicate n v))
        (fun e o' => Halfway H E al xs (List.replicate n v) none o' ∧ (e = .lengthError → E.maxSize < n))
        ⟨⟨⟨b, 0⟩, ⟨b, f⟩, ⟨b, f + xs.length⟩, ⟨b, cap⟩, al⟩, s1⟩)
      (X := fun e s1 => Halfway H E al xs (List.replicate n v) none ⟨⟨⟨b, 0⟩, ⟨b, f⟩, ⟨b, f + xs.length⟩, ⟨b, cap⟩, al⟩, s1⟩ ∧
        (e = .lengthError → E.maxSize < n)) ?_ ?_
    · rw [take_drop_replicate (by omega)] at key
      exact key
    · rintro s1 H1 ⟨-, rfl⟩ r1 m1
      rw [wp_bind, wp_lift]
      refine r1.destroy (by omega) (fun i _ _ => by omega) ?_
      intro s2 r2 m2
      rw [wp_setObj]
      refine ⟨b, cap, f, Row.dst' (nx := m.next) (l := f + n) (r2.congr (fun i => by omega)) (by omega) h.capLe rfl
        (by rw [hvl]) ?_⟩
      intro i e1 e2
      rw [m2 i, if_neg (by omega), m1 i, if_pos (by omega)]; congr 1; omega
    · intro s1 H1 sp r1
      obtain ⟨ys, k1, k2, -⟩ := Row.dst (E := E) r1 (by omega) (by omega) h.capLe rfl
      exact ⟨⟨b, cap, f, ys, H1, sp, k1, by omega, by omega⟩, by simp⟩
  rename_i hn
  rw [wp_bind]
  refine wp_availableBack h ?_
  rw [wp_ite]
  split
  · rename_i hb
    refine wp_mono ?_ imp' imp
    have := assign2 h hf (by omega) (by omega)
    rw [take_drop_replicate (by omega), take_drop_replicate (by omega), hvl] at this
    rw [wp_bind, wp_lift] at this ⊢
    exact wp_fillRange this
  rename_i hb
  rw [wp_bind]
  refine wp_availableFront h ?_
  rw [wp_ite]
  have three : ∀ (g : Ptr → Ptr) m1 b1 cap1 x, DSt H E ⟨⟨⟨b1, 0⟩, ⟨b1, f⟩, ⟨b1, f + xs.length⟩, ⟨b1, cap1⟩, al⟩, m1⟩ al b1 cap1 f xs →
      x ≤ f → x + xs.length ≤ n → f + (n - x) ≤ cap1 →
      g ⟨b1, f + xs.length + (n - (x + xs.length))⟩ = ⟨b1, f + xs.length + (n - (x + xs.length))⟩ →
      wp (do
          lift (fillRange E ⟨b1, f⟩ ⟨b1, f + xs.length⟩ a)
          let l ← lift (uninit E ⟨b1, f + xs.length⟩ (List.replicate (n - (x + xs.length)) a))
          setObj (⟨⟨b1, 0⟩, ⟨b1, f⟩, g l, ⟨b1, cap1⟩, al⟩ : DVec)
          lift (uninitFill E ⟨b1, f - x⟩ ⟨b1, f⟩ a)
          setObj (⟨⟨b1, 0⟩, ⟨b1, f - x⟩, g l, ⟨b1, cap1⟩, al⟩ : DVec))
        (fun _ o' => ∃ b' cap' f', DSt H E o' al b' cap' f' (List.replicate n v))
        (fun e o' => Halfway H E al xs (List.replicate n v) none o' ∧ (e = .lengthError → E.maxSize < n))
        ⟨⟨⟨b1, 0⟩, ⟨b1, f⟩, ⟨b1, f + xs.length⟩, ⟨b1, cap1⟩, al⟩, m1⟩ := by
    intro g m1 b1 cap1 x h1 e1 e2 e3 hg
    refine wp_mono ?_ imp' imp
    have := assign3 g (x := x) h1 hf e1 (by omega) (by omega) (by rw [hvl]; exact hg)
    rw [take_drop_replicate (by omega), take_drop_replicate (by omega), take_drop_replicate (by omega), hvl] at this
    rw [wp_bind, wp_lift] at this ⊢
    refine wp_fillRange (wp_mono this ?_ (fun _ _ h => h))
    intro _ s1 this
    rw [wp_bind, wp_lift] at this ⊢
    refine wp_mono this ?_ (fun _ _ h => h)
    intro l s2 this
    rw [wp_bind, wp_setObj, wp_bind, wp_lift] at this ⊢
    exact wp_uninitFill (by omega) this
  split
  · rename_i hc
    have := three (fun _ => ⟨b, cap⟩) m b cap (n - (xs.length + (cap - (f + xs.length)))) h (by omega) (by omega) (by omega)
      (by simp; omega)
    rw [show n - (n - (xs.length + (cap - (f + xs.length))) + xs.length) = cap - (f + xs.length) by omega] at this
    rw [Ptr.sub_le (by omega)]
    rw [wp_bind, wp_lift] at this ⊢
    refine wp_mono this ?_ (fun _ _ h => h)
    intro _ s1 this
    rw [wp_bind, wp_lift] at this ⊢
    exact wp_uninitFill (k := cap - (f + xs.length)) (by omega) this
  · rename_i hc
    rw [wp_bind]
    refine wp_mono (growStorageBack_spec h (by omega)) ?_ ?_
    · rintro _ o1 ⟨b1, h1⟩
      obtain ⟨w1, m1⟩ := o1
      obtain rfl : w1 = _ := h1.obj
      rw [wp_bind, wp_getObj]
      have := three id m1 b1 _ f h1 (by omega) (by omega) (by omega) rfl
      rw [Nat.sub_self, show n - (f + xs.length) = n - (xs.length + f) by omega] at this
      exact this
    · rintro e o1 ⟨xs', k1, k2, k3, k4⟩
      refine ⟨⟨b, cap, f, xs', H, hf.spoilt, k1, by omega, by omega⟩, fun he => ?_⟩
      have := k4 he; omega

theorem assignInput_spec (h : DSt H E o al b cap f xs) (hx : Exts H E as vs) :
    wp (assignInput E as)
      (fun _ o' => ∃ b' cap' f', DSt H E o' al b' cap' f' vs)
      (fun e o' => Partly H E al xs.length (max xs.length vs.length) o' ∧ (e = .lengthError → xs.length < vs.length)) o := by
  have hlen := hx.length
  have hfit := h.fit
  obtain ⟨w, m⟩ := o
  obtain rfl : w = _ := h.obj
  unfold assignInput
  rw [wp_bind, wp_getObj, wp_bind]
  refine wp_size h ?_
  rw [wp_bind, wp_lift]
  have hl : (vs.take xs.length).length = min xs.length vs.length := by simp
  refine h.row.assignGo (hx.take xs.length) (fun i _ _ => by omega) ?_ ?_
  · intro s1 r1 m1
    rw [hl] at m1 ⊢
    rw [wp_ite]
    split
    · rename_i hn
      have k : DSt H E ⟨⟨⟨b, 0⟩, ⟨b, f⟩, ⟨b, f + xs.length⟩, ⟨b, cap⟩, al⟩, s1⟩ al b cap f (vs.take xs.length) := by
        refine Row.dst' r1 hfit h.capLe rfl (by rw [hl]; omega) ?_
        intro i e1 e2
        rw [m1 i, if_pos (by omega)]
      refine wp_mono (emplaceBackAll_spec (hx.drop xs.length) k) ?_ ?_
      · rintro _ o2 ⟨b2, cap2, f2, h2⟩
        rw [List.take_append_drop] at h2
        exact ⟨b2, cap2, f2, h2⟩
      · rintro e o2 ⟨-, b2, cap2, f2, xs', h2, g1, g2⟩
        exact ⟨⟨b2, cap2, f2, xs', h2, by omega, by simp at g2; omega⟩, fun _ => by omega⟩
    · rename_i hn
      rw [wp_ite]
      split
      · rename_i hc
        dsimp only at hc
        rw [wp_bind, wp_lift]
        refine r1.destroy (by omega) (fun i _ _ => by omega) ?_
        intro s2 r2 m2
        rw [wp_setObj]
        refine ⟨b, cap, f, Row.dst' (nx := m.next) (l := f + vs.length) (r2.congr (fun i => by omega)) (by omega) h.capLe ?_ rfl ?_⟩
        · simp; omega
        · intro i e1 e2
          rw [m2 i, if_neg (by omega), m1 i, if_pos (by omega), List.getElem?_take, if_pos (by omega)]
      · rename_i hc
        dsimp only at hc
        rw [wp_pure]
        refine ⟨b, cap, f, Row.dst' (nx := m.next) (l := f + xs.length) r1 (by omega) h.capLe rfl (by omega) ?_⟩
        intro i e1 e2
        rw [m1 i, if_pos (by omega), List.getElem?_take, if_pos (by omega)]
  · intro s1 r1
    obtain ⟨ys, k1, k2, -⟩ := Row.dst (E := E) r1 (by omega) (by omega) h.capLe rfl
    exact ⟨⟨b, cap, f, ys, k1, by omega, by omega⟩, fun h => by simp at h⟩

end Sfl.Devector
