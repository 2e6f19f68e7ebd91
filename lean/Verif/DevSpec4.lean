import Verif.DevSpec3
/-
  Correctness of the functions of devector: insertion, continued. (Helper lemmas.)
-/

set_option linter.unusedSimpArgs false

namespace Sfl.Devector
open Sfl
variable {α : Type} {E : Env α} {H : Heap α} {al b cap f : Nat} {o : Obj DVec α} {xs : List α}
  {px : Proxy α} {vs : List α} {k n : Nat}

/-- What a successful insertion leaves behind. -/
def Inserted (H : Heap α) (E : Env α) (al : Nat) (xs vs : List α) (k : Nat) (r : Ptr) (o' : Obj DVec α) : Prop :=
  ∃ b' cap' f', DSt H E o' al b' cap' f' (xs.take k ++ vs ++ xs.drop k) ∧ r = ⟨b', f' + k⟩

theorem Broken.mono {one : Bool} {bug bug' P P' : Prop} {e : Exn} {o' : Obj DVec α}
    (h : Broken H E al b cap f xs one bug P e o') (hb : bug → bug') (hP : P → P') :
    Broken H E al b cap f xs one bug' P' e o' :=
  ⟨fun hs => h.safe (by
    rcases hs with c | c
    · exact Or.inl (fun hb' => c (hb hb'))
    · exact Or.inr c), fun he => hP (h.len he)⟩

theorem DSt.same {s' : St α} (h : DSt H E o al b cap f xs) (hs : Same o.m s') (hm : s'.mem = o.m.mem) :
    DSt H E ⟨o.obj, s'⟩ al b cap f xs :=
  ⟨h.obj, h.st.same hs hm, h.fit, h.capLe, fun i => by dsimp only; rw [hm]; exact h.cells i⟩

/-- devector.hpp:1347-1364, as a function of the layout. -/
def aF (f len n : Nat) : Nat := max (n - f) ((f + len) / 2)

/-- devector.hpp:1366-1383, as a function of the layout. -/
def aB (cap f len n : Nat) : Nat := max (n - (cap - (f + len))) ((cap - f) / 2)

theorem insertGrowFront_spec {add : Nat} (h : DSt H E o al b cap f xs) (hp : px.Has H E vs) (hn : vs.length = n)
    (hn0 : 0 < n) (hk : k ≤ xs.length) (ha : 0 < add) (ha1 : n ≤ f + add) :
    wp (insertGrowFront E add ⟨b, f + k⟩ n px) (Inserted H E al xs vs k)
      (Broken H E al b cap f xs px.isOne False (E.maxSize < cap + add)) o := by
  have hfit := h.fit
  have hcl := h.capLe
  unfold insertGrowFront
  rw [wp_bind, wp_getObj, wp_bind, wp_assert]
  refine ⟨ha, ?_⟩
  rw [wp_bind, wp_assert, h.obj]
  refine ⟨⟨rfl, by simp, by simp; omega⟩, ?_⟩
  rw [wp_bind, wp_assert]
  refine ⟨hn0, ?_⟩
  rw [wp_bind]
  refine wp_capacity h ?_
  rw [wp_ite, sizeSub_of_le hcl]
  split
  · rw [wp_throw]
    exact ⟨fun _ => ⟨xs, h, rfl, fun _ _ => rfl⟩, fun _ => by omega⟩
  · rw [wp_bind]
    refine wp_availableBack h ?_
    rw [wp_bind]
    refine wp_size h ?_
    refine wp_mono (insertGrow_spec h hp hn hk (by omega) (by omega) (by omega)) ?_ ?_
    · rintro r o' ⟨b', h1, h2⟩
      exact ⟨b', _, _, h1, h2⟩
    · intro e o' h'
      exact h'.mono id False.elim

theorem insertGrowBack_spec {add : Nat} (h : DSt H E o al b cap f xs) (hp : px.Has H E vs) (hn : vs.length = n)
    (hn0 : 0 < n) (hk : k ≤ xs.length) (ha : 0 < add) (ha1 : f + xs.length + n ≤ cap + add) :
    wp (insertGrowBack E add ⟨b, f + k⟩ n px) (Inserted H E al xs vs k)
      (Broken H E al b cap f xs px.isOne False (E.maxSize < cap + add)) o := by
  have hfit := h.fit
  have hcl := h.capLe
  unfold insertGrowBack
  rw [wp_bind, wp_getObj, wp_bind, wp_assert]
  refine ⟨ha, ?_⟩
  rw [wp_bind, wp_assert, h.obj]
  refine ⟨⟨rfl, by simp, by simp; omega⟩, ?_⟩
  rw [wp_bind, wp_assert]
  refine ⟨hn0, ?_⟩
  rw [wp_bind]
  refine wp_capacity h ?_
  rw [wp_ite, sizeSub_of_le hcl]
  split
  · rw [wp_throw]
    exact ⟨fun _ => ⟨xs, h, rfl, fun _ _ => rfl⟩, fun _ => by omega⟩
  · rw [wp_bind]
    refine wp_availableFront h ?_
    refine wp_mono (insertGrow_spec h hp hn hk (by omega) (by omega) (by omega)) ?_ ?_
    · rintro r o' ⟨b', h1, h2⟩
      exact ⟨b', _, _, h1, h2⟩
    · intro e o' h'
      exact h'.mono id False.elim

theorem wp_additionalFront {Q : Nat → Obj DVec α → Prop} {X : Exn → Obj DVec α → Prop} (h : DSt H E o al b cap f xs)
    (hf : f < n) (hQ : Q (aF f xs.length n) o) : wp (additionalFront n) Q X o := by
  unfold additionalFront
  rw [wp_bind, wp_getObj, wp_bind, h.obj]
  refine dist (by omega) ?_
  rw [wp_bind]
  refine wp_availableFront h ?_
  rw [wp_ite, if_pos (by omega), wp_pure]
  exact hQ

theorem wp_additionalBack {Q : Nat → Obj DVec α → Prop} {X : Exn → Obj DVec α → Prop} (h : DSt H E o al b cap f xs)
    (hf : cap - (f + xs.length) < n) (hQ : Q (aB cap f xs.length n) o) : wp (additionalBack n) Q X o := by
  have hfit := h.fit
  unfold additionalBack
  rw [wp_bind, wp_getObj, wp_bind, h.obj]
  refine dist (by omega) ?_
  rw [wp_bind]
  refine wp_availableBack h ?_
  rw [wp_ite, if_pos (by omega), wp_pure]
  exact hQ

/-- The layout 2712-2774 of insert_aux_shift_to_back occurs. -/
def ClashFront (cap f len k n : Nat) : Prop :=
  aF f len n < cap - (f + len) ∧ len ≤ aF f len n + k ∧ aF f len n < n ∧ n ≤ aF f len n + k

/-- The layout 3655-3713 of insert_aux_shift_to_front occurs. -/
def ClashBack (cap f len k n : Nat) : Prop :=
  aB cap f len n < f ∧ aB cap f len n < k ∧ n ≤ aB cap f len n ∧ k + aB cap f len n < len + n

theorem insertMoreFront_spec (h : DSt H E o al b cap f xs) (hp : px.Has H E vs) (hn : vs.length = n)
    (hk : k ≤ xs.length) (hf : f < n) :
    wp (insertMoreFront E ⟨b, f + k⟩ n px) (Inserted H E al xs vs k)
      (Broken H E al b cap f xs px.isOne (ClashFront cap f xs.length k n) (E.maxSize < cap + max n (cap / 2))) o := by
  have hfit := h.fit
  have hle : aF f xs.length n ≤ max n (cap / 2) := by unfold aF; omega
  have hge : n - f ≤ aF f xs.length n := by unfold aF; omega
  unfold insertMoreFront
  rw [wp_bind]
  refine wp_additionalFront h hf ?_
  rw [wp_bind]
  refine wp_availableBack h ?_
  rw [wp_ite]
  split
  · refine wp_mono (insertShiftBack_spec h hp hn (by omega) hk (by omega) (by omega) (by omega)) ?_ ?_
    · rintro r o' ⟨f', h1, h2⟩
      exact ⟨b, cap, f', h1, h2⟩
    · intro e o' h'
      refine h'.mono ?_ False.elim
      rintro ⟨h1, h2, h3⟩
      exact ⟨by omega, h1, h2, h3⟩
  · refine wp_mono (insertGrowFront_spec h hp hn (by omega) hk (by omega) (by omega)) (fun _ _ h => h) ?_
    intro e o' h'
    exact h'.mono False.elim (by omega)

theorem insertMoreBack_spec (h : DSt H E o al b cap f xs) (hp : px.Has H E vs) (hn : vs.length = n)
    (hk : k ≤ xs.length) (hf : cap - (f + xs.length) < n) :
    wp (insertMoreBack E ⟨b, f + k⟩ n px) (Inserted H E al xs vs k)
      (Broken H E al b cap f xs px.isOne (ClashBack cap f xs.length k n) (E.maxSize < cap + max n (cap / 2))) o := by
  have hfit := h.fit
  have hle : aB cap f xs.length n ≤ max n (cap / 2) := by unfold aB; omega
  have hge : n - (cap - (f + xs.length)) ≤ aB cap f xs.length n := by unfold aB; omega
  unfold insertMoreBack
  rw [wp_bind]
  refine wp_additionalBack h hf ?_
  rw [wp_bind]
  refine wp_availableFront h ?_
  rw [wp_ite]
  split
  · refine wp_mono (insertShiftFront_spec h hp hn (by omega) hk (by omega) (by omega) (by omega)) ?_ ?_
    · rintro r o' ⟨f', h1, h2⟩
      exact ⟨b, cap, f', h1, h2⟩
    · intro e o' h'
      refine h'.mono ?_ False.elim
      rintro ⟨h1, h2, h3⟩
      exact ⟨by omega, h1, h2, h3⟩
  · refine wp_mono (insertGrowBack_spec h hp hn (by omega) hk (by omega) (by omega)) (fun _ _ h => h) ?_
    intro e o' h'
    exact h'.mono False.elim (by omega)

section one
variable {a : Arg α} {v : α}

theorem wp_tmp {X : Exn → Obj DVec α → Prop} {Q : α → Obj DVec α → Prop} (h : DSt H E o al b cap f xs)
    (hv : a.value o.m = some v) (hsrc : a.src E = none)
    (hQ : ∀ o', DSt H E o' al b cap f xs → o'.obj = o.obj → Q v o')
    (hX : ∀ o', DSt H E o' al b cap f xs → X .elem o') : wp (lift (mkTmp E a) : DM α α) Q X o := by
  rw [wp_lift]
  refine mkTmp_copy hv hsrc ?_ ?_
  · intro s' hs _ hm; exact hQ _ (h.same hs hm) rfl
  · intro s' hs hm; exact hX _ (h.same hs hm)

theorem emplaceFrontAux_spec (h : DSt H E o al b cap f xs) (hv : a.value o.m = some v) (hsrc : a.src E = none) :
    wp (emplaceFrontAux E a) (Inserted H E al xs [v] 0)
      (Broken H E al b cap f xs true False (E.maxSize < cap + max 1 (cap / 2))) o := by
  have hfit := h.fit
  unfold emplaceFrontAux
  rw [wp_bind, wp_getObj, h.obj, wp_ite]
  dsimp only
  split
  · rename_i hne
    have hf : f ≠ 0 := by simpa using hne
    have hsub : (⟨b, f⟩ : Ptr).sub 1 = ⟨b, f - 1⟩ := by unfold Ptr.sub; rw [if_pos (by simp; omega)]
    rw [hsub]
    simp only [wp_bind, wp_lift, wp_setObj, wp_pure]
    refine construct_copy hv hsrc (h.st.inB (by omega)) (h.row.raw (by dsimp only; omega)) ?_ ?_
    · intro s' hs _ hm
      refine ⟨b, cap, f - 1, Row.dst' (nx := o.m.next) (l := f + xs.length)
        (h.row.upd (L' := fun i => f - 1 ≤ i ∧ i < f + xs.length) hs ?_ ?_ ?_) hfit h.capLe rfl (by simp; omega) ?_, by simp⟩
      · intro i; rw [hm]
        split
        · rename_i hc; have := hc.2; dsimp only at this; simp; omega
        · rename_i hc; rw [h.live]; simp only [true_and] at hc; omega
      · intro i hi; omega
      · intro c hc i; rw [hm, if_neg (by simp [hc])]
      · intro i h1 h2; rw [hm]
        split
        · rename_i hc
          obtain rfl : i = f - 1 := hc.2
          simp
        · rename_i hc
          have : f ≤ i := by simp at hc; omega
          rw [h.cells, if_pos this]
          rw [show i - (f - 1) = (i - f) + 1 by omega]
          simp
    · intro s' hs hm
      have := h.same hs hm
      exact ⟨fun _ => ⟨xs, this, rfl, fun _ _ => rfl⟩, fun he => by cases he⟩
  · rename_i hne
    obtain rfl : f = 0 := by simpa using hne
    rw [wp_bind]
    refine wp_tmp h hv hsrc ?_ ?_
    · intro o1 h1 _
      rw [wp_bind, wp_getObj, h1.obj]
      refine wp_mono (insertMoreFront_spec (k := 0) (px := .one v) (vs := [v]) (n := 1) h1 (Or.inl rfl) rfl (by omega)
        (by omega)) (fun _ _ h => h) ?_
      intro e o' h'
      refine h'.mono ?_ id
      rintro ⟨-, -, h2, h3⟩
      omega
    · intro o1 h1
      exact ⟨fun _ => ⟨xs, h1, rfl, fun _ _ => rfl⟩, fun he => by cases he⟩

theorem emplaceBackAux_spec (h : DSt H E o al b cap f xs) (hv : a.value o.m = some v) (hsrc : a.src E = none) :
    wp (emplaceBackAux E a) (Inserted H E al xs [v] xs.length)
      (Broken H E al b cap f xs true False (E.maxSize < cap + max 1 (cap / 2))) o := by
  have hfit := h.fit
  unfold emplaceBackAux
  rw [wp_bind, wp_getObj, h.obj, wp_ite]
  dsimp only
  split
  · rename_i hne
    have hf : f + xs.length ≠ cap := by simpa using hne
    dsimp only [Ptr.add]
    simp only [wp_bind, wp_lift, wp_setObj, wp_pure]
    refine construct_copy hv hsrc (h.st.inB (by omega)) (h.row.raw (by dsimp only; omega)) ?_ ?_
    · intro s' hs _ hm
      refine ⟨b, cap, f, Row.dst' (nx := o.m.next) (l := f + xs.length + 1)
        (h.row.upd (L' := fun i => f ≤ i ∧ i < f + xs.length + 1) hs ?_ ?_ ?_) (by omega) h.capLe rfl (by simp; omega) ?_, rfl⟩
      · intro i; rw [hm]
        split
        · rename_i hc; have := hc.2; dsimp only at this; simp; omega
        · rename_i hc; rw [h.live]; simp only [true_and] at hc; omega
      · intro i hi; omega
      · intro c hc i; rw [hm, if_neg (by simp [hc])]
      · intro i h1 h2; rw [hm]
        split
        · rename_i hc
          obtain rfl : i = f + xs.length := hc.2
          simp
        · rename_i hc
          have : i < f + xs.length := by simp at hc; omega
          rw [h.cells, if_pos h1]
          simp only [List.take_length, List.drop_length, List.append_nil]
          rw [List.getElem?_append_left (by omega)]
    · intro s' hs hm
      have := h.same hs hm
      exact ⟨fun _ => ⟨xs, this, rfl, fun _ _ => rfl⟩, fun he => by cases he⟩
  · rename_i hne
    have hf : f + xs.length = cap := by simpa using hne
    rw [wp_bind]
    refine wp_tmp h hv hsrc ?_ ?_
    · intro o1 h1 _
      rw [wp_bind, wp_getObj, h1.obj]
      refine wp_mono (insertMoreBack_spec (k := xs.length) (px := .one v) (vs := [v]) (n := 1) h1 (Or.inl rfl) rfl (by omega)
        (by omega)) (fun _ _ h => h) ?_
      intro e o' h'
      refine h'.mono ?_ id
      rintro ⟨-, -, h2, h3⟩
      omega
    · intro o1 h1
      exact ⟨fun _ => ⟨xs, h1, rfl, fun _ _ => rfl⟩, fun he => by cases he⟩

end one

/-- The layouts in which an insertion of `n` elements before the `k`-th runs into one of the two faulty guards. -/
def Clash (cap f len k n : Nat) : Prop :=
  if k < len - k then f < n ∧ ClashFront cap f len k n else cap - (f + len) < n ∧ ClashBack cap f len k n

theorem insertAux_spec (h : DSt H E o al b cap f xs) (hp : px.Has H E vs) (hn : vs.length = n) (hk : k ≤ xs.length) :
    wp (insertAux E ⟨b, f + k⟩ n px) (Inserted H E al xs vs k)
      (Broken H E al b cap f xs px.isOne (Clash cap f xs.length k n) (0 < n ∧ E.maxSize < cap + max n (cap / 2))) o := by
  have hfit := h.fit
  unfold insertAux
  rw [wp_bind, wp_getObj, wp_bind, wp_assert, h.obj]
  refine ⟨⟨rfl, by simp, by simp; omega⟩, ?_⟩
  rw [wp_bind]
  refine dist (by omega) ?_
  rw [wp_ite]
  split
  · rename_i hn0
    subst hn0
    obtain rfl : vs = [] := List.length_eq_zero_iff.mp hn
    rw [wp_pure]
    exact ⟨b, cap, f, by simpa using h, by simp [Ptr.add]⟩
  rename_i hn0
  rw [wp_bind]
  refine dist (by omega) ?_
  rw [wp_ite, show f + k - f = k by omega, show f + xs.length - (f + k) = xs.length - k by omega]
  split
  · rename_i hkl
    rw [wp_bind]
    refine wp_availableFront h ?_
    rw [wp_ite]
    split
    · rename_i haf
      have hsub : (⟨b, f⟩ : Ptr).sub n = ⟨b, f - n⟩ := by unfold Ptr.sub; rw [if_pos (by simpa using haf)]
      rw [hsub]
      dsimp only [Ptr.add]
      have key : ∀ {m : M (St α) Unit},
          wp m (Good H o.m al b cap o.m.next f (f + k) (f - n) (f - n + k) (f + k) (f + xs.length) vs)
            (Bad H E px al b cap o.m.next f (f + xs.length)) o.m →
          wp (do
            lift m
            setObj { bos := ⟨b, 0⟩, first := ⟨b, f - n⟩, last := ⟨b, f + xs.length⟩, eos := ⟨b, cap⟩, alloc := al }
            pure ⟨b, f - n + k⟩) (Inserted H E al xs vs k)
            (Broken H E al b cap f xs px.isOne (Clash cap f xs.length k n) (0 < n ∧ E.maxSize < cap + max n (cap / 2))) o := by
        intro m hm
        simp only [wp_bind, wp_lift, wp_setObj, wp_pure]
        refine wp_mono hm ?_ ?_
        · intro _ s' g
          exact ⟨b, cap, f - n, Good.dst h hk g hn rfl (by omega) (by omega) (by omega) rfl, rfl⟩
        · rintro e s' ⟨rfl, g1, g2⟩
          obtain ⟨xs', k1, k2⟩ := h.lost (v := o.obj) rfl g2
          exact ⟨fun _ => ⟨xs', k1, k2, fun c1 c2 => absurd c2 (g1 c1)⟩, fun he => by cases he⟩
      rw [wp_ite]
      split
      · exact key (intoFront1_spec (n := n) h.row hp hn (by omega) (by omega) (by omega) (by omega) (by omega) (by omega)
          (by omega) (by omega))
      · exact key (intoFront2_spec (n := n) h.row hp hn (by omega) (by omega) (by omega) (by omega) (by omega) (by omega)
          (by omega) (by omega))
    · refine wp_mono (insertMoreFront_spec h hp hn hk (by omega)) (fun _ _ h => h) ?_
      intro e o' h'
      refine h'.mono ?_ (fun h => ⟨by omega, h⟩)
      intro hc
      unfold Clash
      rw [if_pos hkl]
      exact ⟨by omega, hc⟩
  · rename_i hkl
    rw [wp_bind]
    refine wp_availableBack h ?_
    rw [wp_ite]
    split
    · dsimp only [Ptr.add]
      have key : ∀ {m : M (St α) Unit},
          wp m (Good H o.m al b cap o.m.next f (f + k) f (f + k) (f + k + n) (f + k + n + (xs.length - k)) vs)
            (Bad H E px al b cap o.m.next f (f + xs.length)) o.m →
          wp (do
            lift m
            setObj { bos := ⟨b, 0⟩, first := ⟨b, f⟩, last := ⟨b, f + k + n + (xs.length - k)⟩, eos := ⟨b, cap⟩, alloc := al }
            pure ⟨b, f + k⟩) (Inserted H E al xs vs k)
            (Broken H E al b cap f xs px.isOne (Clash cap f xs.length k n) (0 < n ∧ E.maxSize < cap + max n (cap / 2))) o := by
        intro m hm
        simp only [wp_bind, wp_lift, wp_setObj, wp_pure]
        refine wp_mono hm ?_ ?_
        · intro _ s' g
          exact ⟨b, cap, f, Good.dst h hk g hn rfl (by omega) (by omega) (by omega) rfl, rfl⟩
        · rintro e s' ⟨rfl, g1, g2⟩
          obtain ⟨xs', k1, k2⟩ := h.lost (v := o.obj) rfl g2
          exact ⟨fun _ => ⟨xs', k1, k2, fun c1 c2 => absurd c2 (g1 c1)⟩, fun he => by cases he⟩
      rw [wp_ite]
      split
      · exact key (intoBack1_spec (n := n) h.row hp hn (by omega) (by omega) (by omega) (by omega) (by omega) (by omega)
          (by omega) (by omega))
      · have := intoBack2_spec (n := n) (q10 := f) (q20 := f + k) (q30 := f + k + n) (q40 := f + k + n + (xs.length - k))
          h.row hp hn (by omega : f ≤ f + k) (by omega) (by omega) (by omega) (by omega) (by omega) (by omega) (by omega)
        rw [show f + xs.length - (f + k) = xs.length - k by omega] at this
        exact key this
    · refine wp_mono (insertMoreBack_spec h hp hn hk (by omega)) (fun _ _ h => h) ?_
      intro e o' h'
      refine h'.mono ?_ (fun h => ⟨by omega, h⟩)
      intro hc
      unfold Clash
      rw [if_neg hkl]
      exact ⟨by omega, hc⟩

/-- At the ends nothing goes wrong. -/
theorem not_clash_end {len : Nat} (hk : k = 0 ∨ k = len) : ¬ Clash cap f len k n := by
  unfold Clash ClashFront ClashBack
  split <;> omega

theorem emplace_spec {a : Arg α} {v : α} (h : DSt H E o al b cap f xs) (hv : a.value o.m = some v) (hsrc : a.src E = none)
    (hk : k ≤ xs.length) :
    wp (emplace E ⟨b, f + k⟩ a) (Inserted H E al xs [v] k)
      (Broken H E al b cap f xs true (Clash cap f xs.length k 1) (E.maxSize < cap + max 1 (cap / 2))) o := by
  have hfit := h.fit
  unfold emplace
  rw [wp_bind, wp_getObj, wp_bind, wp_assert, h.obj]
  refine ⟨⟨rfl, by simp, by simp; omega⟩, ?_⟩
  dsimp only
  rw [wp_ite]
  split
  · rename_i hk0
    obtain rfl : k = 0 := by simpa using hk0
    exact wp_mono (emplaceFrontAux_spec h hv hsrc) (fun _ _ h => h) (fun e o' h' => h'.mono False.elim id)
  rw [wp_ite]
  split
  · rename_i hk0
    obtain rfl : k = xs.length := by simpa using hk0
    exact wp_mono (emplaceBackAux_spec h hv hsrc) (fun _ _ h => h) (fun e o' h' => h'.mono False.elim id)
  rw [wp_bind]
  refine wp_tmp h hv hsrc ?_ ?_
  · intro o1 h1 _
    refine wp_mono (insertAux_spec (px := .one v) (vs := [v]) (n := 1) h1 (Or.inl rfl) rfl hk) (fun _ _ h => h) ?_
    intro e o' h'
    exact h'.mono id (·.2)
  · intro o1 h1
    exact ⟨fun _ => ⟨xs, h1, rfl, fun _ _ => rfl⟩, fun he => by cases he⟩

theorem insertFillN_spec {a : Arg α} {v : α} (h : DSt H E o al b cap f xs) (ha : Exts H E [a] [v]) (hk : k ≤ xs.length) :
    wp (insertFillN E ⟨b, f + k⟩ n a) (Inserted H E al xs (List.replicate n v) k)
      (Broken H E al b cap f xs false (Clash cap f xs.length k n) (0 < n ∧ E.maxSize < cap + max n (cap / 2))) o := by
  unfold insertFillN
  rw [wp_bind, wp_getObj, wp_bind, wp_assert, h.obj]
  refine ⟨⟨rfl, by simp, by simp; omega⟩, ?_⟩
  exact insertAux_spec (px := .fill a) h ⟨v, ha, by simp⟩ (by simp) hk

theorem insertRange_spec {as : List (Arg α)} (h : DSt H E o al b cap f xs) (ha : Exts H E as vs) (hk : k ≤ xs.length) :
    wp (insertRange E ⟨b, f + k⟩ as) (Inserted H E al xs vs k)
      (Broken H E al b cap f xs false (Clash cap f xs.length k vs.length)
        (0 < vs.length ∧ E.maxSize < cap + max vs.length (cap / 2))) o := by
  unfold insertRange
  rw [wp_bind, wp_getObj, wp_bind, wp_assert, h.obj]
  refine ⟨⟨rfl, by simp, by simp; omega⟩, ?_⟩
  rw [ha.length]
  exact insertAux_spec (px := .range as) h ha rfl hk

/-- What an interrupted sequence of insertions leaves behind. -/
def Partly (H : Heap α) (E : Env α) (al : Nat) (n m : Nat) (o' : Obj DVec α) : Prop :=
  ∃ b' cap' f' xs', DSt H E o' al b' cap' f' xs' ∧ n ≤ xs'.length ∧ xs'.length ≤ m

theorem insertEach_spec {as : List (Arg α)} (hx : Exts H E as vs) :
    ∀ {o : Obj DVec α} {xs : List α} {b cap f k : Nat}, DSt H E o al b cap f xs → k ≤ xs.length →
    wp (insertEach E ⟨b, f + k⟩ as)
      (fun _ o' => ∃ b' cap' f', DSt H E o' al b' cap' f' (xs.take k ++ vs ++ xs.drop k))
      (fun _ o' => as ≠ [] ∧ (k = xs.length ∨ (∀ t, E.throws t = false) ∨ NothrowMove E →
        Partly H E al xs.length (xs.length + vs.length) o')) o := by
  induction as generalizing vs with
  | nil =>
    intro o xs b cap f k h hk
    obtain rfl : vs = [] := by have := hx.length; simpa using this.symm
    unfold insertEach
    rw [wp_pure]
    exact ⟨b, cap, f, by simpa using h⟩
  | cons a as ih =>
    intro o xs b cap f k h hk
    obtain ⟨v, vs', rfl, hsrc, hv, hx'⟩ := hx.cons
    unfold insertEach
    rw [wp_bind]
    refine wp_mono (emplace_spec h (hv _ h.st.agree) hsrc hk) ?_ ?_
    · rintro r o1 ⟨b1, cap1, f1, h1, rfl⟩
      dsimp only [Ptr.add]
      have hl : (xs.take k ++ [v] ++ xs.drop k).length = xs.length + 1 := by simp; omega
      refine wp_mono (ih hx' h1 (k := k + 1) (by omega)) ?_ ?_
      · rintro _ o2 ⟨b2, cap2, f2, h2⟩
        refine ⟨b2, cap2, f2, ?_⟩
        have e1 : (xs.take k ++ [v] ++ xs.drop k).take (k + 1) = xs.take k ++ [v] := by
          rw [List.take_append_of_le_length (by simp; omega), List.take_of_length_le (by simp; omega)]
        have e2 : (xs.take k ++ [v] ++ xs.drop k).drop (k + 1) = xs.drop k := by
          rw [List.drop_append, List.drop_of_length_le (by simp; omega)]
          simp
          omega
        rw [e1, e2] at h2
        simpa using h2
      · rintro e o2 ⟨h2, h3⟩
        refine ⟨by simp, fun hs => ?_⟩
        obtain ⟨b', cap', f', xs', g1, g2, g3⟩ := h3 (by
          rcases hs with c | c
          · left; omega
          · exact Or.inr c)
        exact ⟨b', cap', f', xs', g1, by omega, by simp; omega⟩
    · intro e o1 h1
      refine ⟨by simp, fun hs => ?_⟩
      obtain ⟨xs', g1, g2, -⟩ := h1.safe (by
        rcases hs with c | c | c
        · exact Or.inl (not_clash_end (Or.inr c))
        · exact Or.inr (Or.inl c)
        · exact Or.inr (Or.inr ⟨rfl, c⟩))
      exact ⟨b, cap, f, xs', g1, by omega, by omega⟩

theorem insertInput_spec {as : List (Arg α)} (h : DSt H E o al b cap f xs) (hx : Exts H E as vs) (hk : k ≤ xs.length) :
    wp (insertInput E ⟨b, f + k⟩ as) (Inserted H E al xs vs k)
      (fun _ o' => as ≠ [] ∧ (k = xs.length ∨ (∀ t, E.throws t = false) ∨ NothrowMove E →
        Partly H E al xs.length (xs.length + vs.length) o')) o := by
  unfold insertInput
  rw [wp_bind, wp_getObj, wp_bind, wp_assert, h.obj]
  refine ⟨⟨rfl, by simp, by simp; omega⟩, ?_⟩
  rw [wp_bind]
  refine dist (by omega) ?_
  rw [wp_bind]
  refine wp_mono (insertEach_spec hx h hk) ?_ (fun _ _ h => h)
  rintro _ o1 ⟨b', cap', f', h1⟩
  rw [wp_bind, wp_getObj, wp_pure, h1.obj]
  exact ⟨b', cap', f', h1, by simp [Ptr.add]⟩

end Sfl.Devector
