import Verif.DevSpec4
/-
  Correctness of resize, resize_front and resize_back of devector. (Helper lemmas.)
-/

set_option linter.unusedSimpArgs false

namespace Sfl.Devector
open Sfl
variable {α : Type} {E : Env α} {H : Heap α} {al b cap f n : Nat} {o : Obj DVec α} {xs : List α} {s s' : St α} {a : Arg α} {v : α}

/-- Every object alive in `s` has the same value in `s'`. -/
def Keeps (s s' : St α) : Prop := ∀ c i, (s.mem c i).isSome → s'.mem c i = s.mem c i

theorem Keeps.value (hk : Keeps s s') (hv : a.value s = some v) : a.value s' = some v := by
  cases a with
  | val w => exact hv
  | rv w => exact hv
  | ref p => exact (hk p.blk p.off (by simp only [Arg.value] at hv; simp [hv])).trans hv
  | mv p => exact (hk p.blk p.off (by simp only [Arg.value] at hv; simp [hv])).trans hv
  | mvIf p => exact (hk p.blk p.off (by simp only [Arg.value] at hv; simp [hv])).trans hv

/-- As `Row.uninit`, for arguments that may be elements of the same block. -/
theorem Row.uninitV {nx : Nat} {L : Nat → Prop} {as : List (Arg α)} {vs : List α} {d : Nat} {Q : Ptr → St α → Prop}
    {X : Exn → St α → Prop} (h : Row H s al b cap nx L)
    (hv : as.map (Arg.value s) = vs.map some) (hsrc : ∀ a ∈ as, a.src E = none) (hd : d + vs.length ≤ cap)
    (hr : ∀ i, d ≤ i → i < d + vs.length → ¬ L i)
    (hQ : ∀ s', Keeps s s' → Row H s' al b cap nx (fun i => L i ∨ (d ≤ i ∧ i < d + vs.length)) →
      (∀ i, s'.mem b i = if d ≤ i ∧ i < d + vs.length then vs[i - d]? else s.mem b i) →
      Q ⟨b, d + vs.length⟩ s')
    (hX : ∀ s', Row H s' al b cap nx L → s'.mem = s.mem → X .elem s') :
    wp (Sfl.uninit E ⟨b, d⟩ as) Q X s := by
  have hlen : as.length = vs.length := by simpa using congrArg List.length hv
  refine wp_uninit_copy hv hsrc ?_ ?_ ?_ ?_
  · intro j hj; exact h.st.inB (by simp; omega)
  · intro j hj; exact h.raw (hr _ (by simp) (by simp; omega))
  · intro s' hsame _ hm
    rw [hlen] at hm ⊢
    have hm' : ∀ i, s'.mem b i = if d ≤ i ∧ i < d + vs.length then vs[i - d]? else s.mem b i := by
      intro i; rw [hm]; simp only [Ptr.has, true_and]
    refine hQ s' ?_ (h.upd hsame ?_ ?_ ?_) hm'
    · intro c i hc
      rw [hm, if_neg]
      rintro ⟨h1, h2, h3⟩
      dsimp only at h1 h2 h3
      rw [h1, h.raw (hr i h2 h3)] at hc; cases hc
    · intro i
      rw [hm' i]
      split
      · rename_i hc
        rw [List.getElem?_eq_getElem (by omega)]; simp [hc]
      · rename_i hc; simp [hc, h.live i]
    · intro i hi
      have := h.beyond i hi
      simp only [this, false_or]; omega
    · intro c hc i
      rw [hm]; simp only [Ptr.has, hc, false_and, if_false]
  · intro s' hsame hm; exact hX s' (h.fresh hsame hm) hm

/-- Copies of a value after the last element. -/
theorem DSt.fillBack {m l : Nat} {Q : Ptr → St α → Prop} {X : Exn → St α → Prop} (h : DSt H E o al b cap f xs)
    (hl : l = f + xs.length)
    (hv : a.value o.m = some v) (hsrc : a.src E = none) (hd : f + xs.length + m ≤ cap)
    (hQ : ∀ s', Keeps o.m s' →
      DSt H E ⟨⟨⟨b, 0⟩, ⟨b, f⟩, ⟨b, f + xs.length + m⟩, ⟨b, cap⟩, al⟩, s'⟩ al b cap f (xs ++ List.replicate m v) →
      Q ⟨b, f + xs.length + m⟩ s')
    (hX : ∀ s', DSt H E ⟨o.obj, s'⟩ al b cap f xs → X .elem s') :
    wp (uninit E ⟨b, l⟩ (List.replicate m a)) Q X o.m := by
  subst hl
  have hl : (List.replicate m v).length = m := by simp
  refine h.row.uninitV (vs := List.replicate m v) (by simp [hv]) (fun x hx => by rw [List.eq_of_mem_replicate hx]; exact hsrc)
    (by rw [hl]; omega) (fun i h1 h2 => by omega) ?_ ?_
  · intro s' hk hrow hm
    rw [hl] at hrow hm ⊢
    refine hQ s' hk (Row.dst' (nx := o.m.next) (l := f + xs.length + m) (hrow.congr (fun i => by omega)) (by omega) h.capLe rfl
      (by simp; omega) ?_)
    intro i h1 h2
    rw [hm i, List.getElem?_append]
    split
    · rename_i hc
      rw [if_neg (by omega)]; congr 1; omega
    · rename_i hc
      rw [if_pos (by omega), h.cells, if_pos h1]
  · intro s' hrow hm
    exact hX s' ⟨h.obj, hrow.st, h.fit, h.capLe, fun i => by dsimp only; rw [hm]; exact h.cells i⟩

/-- Copies of a value before the first element. -/
theorem DSt.fillFront {m : Nat} {Q : Unit → St α → Prop} {X : Exn → St α → Prop} (h : DSt H E o al b cap f xs)
    (hv : a.value o.m = some v) (hsrc : a.src E = none) (hd : m ≤ f)
    (hQ : ∀ s', Keeps o.m s' →
      DSt H E ⟨⟨⟨b, 0⟩, ⟨b, f - m⟩, ⟨b, f + xs.length⟩, ⟨b, cap⟩, al⟩, s'⟩ al b cap (f - m) (List.replicate m v ++ xs) →
      Q () s')
    (hX : ∀ s', DSt H E ⟨o.obj, s'⟩ al b cap f xs → X .elem s') :
    wp (uninitFill E ⟨b, f - m⟩ ⟨b, f⟩ a) Q X o.m := by
  have hfit := h.fit
  have hl : (List.replicate m v).length = m := by simp
  unfold uninitFill
  rw [wp_bind]
  refine wp_distance rfl (by simp) ?_
  simp only
  rw [show f - (f - m) = m by omega, wp_bind]
  refine h.row.uninitV (vs := List.replicate m v) (by simp [hv]) (fun x hx => by rw [List.eq_of_mem_replicate hx]; exact hsrc)
    (by rw [hl]; omega) (fun i h1 h2 => by omega) ?_ ?_
  · intro s' hk hrow hm
    rw [hl] at hrow hm
    rw [wp_pure]
    refine hQ s' hk (Row.dst' (nx := o.m.next) (l := f + xs.length) (hrow.congr (fun i => by omega)) (by omega) h.capLe rfl
      (by simp; omega) ?_)
    intro i h1 h2
    rw [hm i, List.getElem?_append]
    split
    · rename_i hc
      rw [if_pos (by simp; omega)]
    · rename_i hc
      rw [if_neg (by simp; omega), h.cells, if_pos (by omega), hl]; congr 1; omega
  · intro s' hrow hm
    exact hX s' ⟨h.obj, hrow.st, h.fit, h.capLe, fun i => by dsimp only; rw [hm]; exact h.cells i⟩

/-- What a failed resize to `n` elements leaves behind. -/
def Resizing (H : Heap α) (E : Env α) (al : Nat) (xs : List α) (n : Nat) (e : Exn) (P : List α → Prop) (o' : Obj DVec α) : Prop :=
  xs.length < n ∧ (e = .lengthError → E.maxSize < n) ∧
    ∃ b' cap' f' xs', DSt H E o' al b' cap' f' xs' ∧ xs.length ≤ xs'.length ∧ xs'.length ≤ n ∧ (Strong E → P xs')

theorem DSt.dropBack {X : Exn → St α → Prop} {Q : Unit → St α → Prop} (h : DSt H E o al b cap f xs) (hn : n ≤ xs.length)
    (hQ : ∀ s', DSt H E ⟨⟨⟨b, 0⟩, ⟨b, f⟩, ⟨b, f + n⟩, ⟨b, cap⟩, al⟩, s'⟩ al b cap f (xs.take n) → Q () s') :
    wp (destroyRange ⟨b, f + n⟩ ⟨b, f + xs.length⟩) Q X o.m := by
  have hfit := h.fit
  refine h.row.destroy (by omega) (fun i h1 h2 => by omega) ?_
  intro s' hrow hm
  refine hQ s' (Row.dst' (nx := o.m.next) (l := f + n) (hrow.congr (fun i => by omega)) (by omega) h.capLe rfl
    (by simp; omega) ?_)
  intro i h1 h2
  rw [hm i, if_neg (by omega), h.cells, if_pos h1, List.getElem?_take, if_pos (by omega)]

theorem DSt.dropFront {X : Exn → St α → Prop} {Q : Unit → St α → Prop} (h : DSt H E o al b cap f xs) (hn : n ≤ xs.length)
    (hQ : ∀ s', DSt H E ⟨⟨⟨b, 0⟩, ⟨b, f + n⟩, ⟨b, f + xs.length⟩, ⟨b, cap⟩, al⟩, s'⟩ al b cap (f + n) (xs.drop n) → Q () s') :
    wp (destroyRange ⟨b, f⟩ ⟨b, f + n⟩) Q X o.m := by
  have hfit := h.fit
  refine h.row.destroy (by omega) (fun i h1 h2 => by omega) ?_
  intro s' hrow hm
  refine hQ s' (Row.dst' (nx := o.m.next) (l := f + xs.length) (hrow.congr (fun i => by omega)) (by omega) h.capLe rfl
    (by simp; omega) ?_)
  intro i h1 h2
  rw [hm i, if_neg (by omega), h.cells, if_pos (by omega), List.getElem?_drop]; congr 1; omega

/-- The value of an argument outside the container survives a reallocation. -/
theorem DSt.ext (h : DSt H E o al b cap f xs) (ha : Exts H E [a] [v]) : a.value o.m = some v := by
  have := ha.val o.m h.st.agree
  simpa using this

theorem resizeWith_spec (h : DSt H E o al b cap f xs) (hv : a.value o.m = some v) (hsrc : a.src E = none)
    (hg : cap < n → Exts H E [a] [v]) :
    wp (resizeWith E n a)
      (fun _ o' => ∃ b' cap' f' i j, DSt H E o' al b' cap' f' (List.replicate i v ++ xs.take n ++ List.replicate j v) ∧
        i + j = n - xs.length)
      (fun e o' => Resizing H E al xs n e (fun xs' => ∃ m, xs' = xs ++ List.replicate m v) o') o := by
  have hfit := h.fit
  obtain ⟨w, m⟩ := o
  obtain rfl : w = _ := h.obj
  unfold resizeWith
  rw [wp_bind, wp_getObj, wp_bind]
  refine wp_size h ?_
  rw [wp_ite]
  split
  · rename_i hn
    rw [wp_bind, wp_lift]
    refine h.dropBack hn ?_
    intro s' k
    rw [wp_setObj]
    exact ⟨b, cap, f, 0, 0, by simpa [Ptr.add] using k, by omega⟩
  · rename_i hn
    have htake : xs.take n = xs := List.take_of_length_le (by omega)
    rw [htake]
    rw [wp_bind]
    refine wp_availableBack h ?_
    rw [wp_ite]
    have keep : ∀ s' w, DSt H E ⟨w, s'⟩ al b cap f xs →
        Resizing H E al xs n .elem (fun xs' => ∃ m, xs' = xs ++ List.replicate m v) ⟨w, s'⟩ := fun s' w k =>
      ⟨by omega, by simp, b, cap, f, xs, k, by omega, by omega, fun _ => ⟨0, by simp⟩⟩
    split
    · rename_i hb
      rw [wp_bind, wp_lift]
      unfold uninitFillN
      refine h.fillBack rfl hv hsrc (by omega) ?_ (fun s' => keep s' _)
      intro s' _ k
      rw [wp_setObj]
      exact ⟨b, cap, f, 0, n - xs.length, by simpa [Ptr.add] using k, by omega⟩
    · rename_i hb
      rw [wp_bind]
      refine wp_availableFront h ?_
      rw [wp_ite]
      split
      · rename_i hc
        rw [wp_bind, wp_lift]
        rw [show uninitFill E ⟨b, f + xs.length⟩ ⟨b, cap⟩ a = (do
          let n ← distance ⟨b, f + xs.length⟩ ⟨b, cap⟩
          let _ ← uninit E ⟨b, f + xs.length⟩ (List.replicate n a)
          pure ()) from rfl, wp_bind]
        refine wp_distance rfl (by simpa using h.fit) ?_
        simp only
        rw [wp_bind]
        refine h.fillBack rfl hv hsrc (by omega) ?_ (fun s' => keep s' _)
        intro s1 k1 k2
        rw [show f + xs.length + (cap - (f + xs.length)) = cap by omega] at k2
        rw [wp_pure, wp_bind, wp_setObj, wp_bind, wp_lift]
        have hsub : (⟨b, f⟩ : Ptr).sub (n - (xs.length + (cap - (f + xs.length)))) =
            ⟨b, f - (n - (xs.length + (cap - (f + xs.length))))⟩ := by
          unfold Ptr.sub; rw [if_pos (by dsimp only; omega)]
        rw [hsub]
        refine k2.fillFront (m := n - (xs.length + (cap - (f + xs.length)))) (k1.value hv) hsrc (by omega) ?_ ?_
        · intro s2 _ k3
          rw [wp_setObj]
          have e : f + (xs ++ List.replicate (cap - (f + xs.length)) v).length = cap := by simp; omega
          rw [e] at k3
          refine ⟨b, cap, f - (n - (xs.length + (cap - (f + xs.length)))), n - (xs.length + (cap - (f + xs.length))), cap - (f + xs.length), ?_, by omega⟩
          simpa using k3
        · intro s2 k3
          refine ⟨by omega, by simp, b, cap, f, _, k3, by simp, by simp; omega, fun _ => ⟨_, rfl⟩⟩
      · rename_i hc
        have hg' := hg (by omega)
        rw [wp_bind]
        refine wp_mono (growStorageBack_spec h (by omega)) ?_ ?_
        · rintro _ o1 ⟨b1, h1⟩
          have hcap : cap + (n - (f + xs.length + (cap - (f + xs.length)))) = n := by omega
          rw [hcap] at h1
          obtain ⟨w1, m1⟩ := o1
          obtain rfl : w1 = _ := h1.obj
          rw [wp_bind, wp_getObj, wp_bind, wp_lift]
          unfold uninitFillN
          refine h1.fillBack rfl (h1.ext hg') hsrc (by omega) ?_ ?_
          · intro s1 k1 k2
            have e1 : f + xs.length + (n - (xs.length + f)) = n := by omega
            rw [e1] at k2 ⊢
            rw [wp_bind, wp_setObj, wp_bind, wp_lift]
            have := k2.fillFront (m := f) (Q := fun _ s' => (fun _ o' => ∃ b' cap' f' i j,
                DSt H E o' al b' cap' f' (List.replicate i v ++ xs ++ List.replicate j v) ∧ i + j = n - xs.length) ()
                  ⟨⟨⟨b1, 0⟩, ⟨b1, 0⟩, ⟨b1, n⟩, ⟨b1, n⟩, al⟩, s'⟩)
              (X := fun e s' => Resizing H E al xs n e (fun xs' => ∃ m, xs' = xs ++ List.replicate m v)
                ⟨⟨⟨b1, 0⟩, ⟨b1, f⟩, ⟨b1, n⟩, ⟨b1, n⟩, al⟩, s'⟩) (k1.value (h1.ext hg')) hsrc (by omega) ?_ ?_
            · rw [Nat.sub_self] at this
              refine wp_mono this ?_ (fun _ _ h => h)
              intro _ s2 k3
              rw [wp_setObj]
              exact k3
            · intro s2 _ k3
              have e : f + (xs ++ List.replicate (n - (xs.length + f)) v).length = n := by simp; omega
              rw [e, Nat.sub_self] at k3
              refine ⟨b1, n, 0, f, n - (xs.length + f), ?_, by omega⟩
              simpa using k3
            · intro s2 k3
              exact ⟨by omega, by simp, b1, n, f, _, k3, by simp, by simp; omega, fun _ => ⟨_, rfl⟩⟩
          · intro s1 k1
            exact ⟨by omega, by simp, b1, n, f, xs, k1, by omega, by omega, fun _ => ⟨0, by simp⟩⟩
        · rintro e o1 ⟨xs', k1, k2, k3, k4⟩
          exact ⟨by omega, fun he => by have := k4 he; omega, b, cap, f, xs', k1, by omega, by omega,
            fun hs => ⟨0, by simp [k3 hs]⟩⟩

theorem resizeFrontWith_spec (h : DSt H E o al b cap f xs) (hv : a.value o.m = some v) (hsrc : a.src E = none)
    (hg : xs.length + f < n → Exts H E [a] [v]) :
    wp (resizeFrontWith E n a)
      (fun _ o' => ∃ b' cap' f', DSt H E o' al b' cap' f' (List.replicate (n - xs.length) v ++ xs.drop (xs.length - n)))
      (fun e o' => xs.length < n ∧ (e = .lengthError → E.maxSize < n + (cap - (f + xs.length))) ∧
        ∃ b' cap' f' xs', DSt H E o' al b' cap' f' xs' ∧ xs'.length = xs.length ∧ (Strong E → xs' = xs)) o := by
  have hfit := h.fit
  unfold resizeFrontWith
  rw [wp_bind, wp_getObj, wp_bind]
  refine wp_size h ?_
  rw [wp_ite]
  split
  · rename_i hn
    rw [wp_bind, wp_lift, h.obj]
    refine h.dropFront (n := xs.length - n) (by omega) ?_
    intro s' k
    rw [wp_setObj]
    refine ⟨b, cap, f + (xs.length - n), ?_⟩
    rw [show n - xs.length = 0 by omega]
    simpa [Ptr.add] using k
  · rename_i hn
    rw [show xs.length - n = 0 by omega, List.drop_zero]
    rw [wp_bind]
    refine wp_availableFront h ?_
    have fin : ∀ o1 b1 cap1 f1, DSt H E o1 al b1 cap1 f1 xs → a.value o1.m = some v → n - xs.length ≤ f1 →
        wp (do
          let v ← getObj
          let newFirst := v.first.sub (n - xs.length)
          lift (uninitFill E newFirst v.first a)
          setObj { v with first := newFirst } : DM α Unit)
        (fun _ o' => ∃ b' cap' f', DSt H E o' al b' cap' f' (List.replicate (n - xs.length) v ++ xs))
        (fun e o' => xs.length < n ∧ (e = .lengthError → E.maxSize < n + (cap - (f + xs.length))) ∧
          ∃ b' cap' f' xs', DSt H E o' al b' cap' f' xs' ∧ xs'.length = xs.length ∧ (Strong E → xs' = xs)) o1 := by
      intro o1 b1 cap1 f1 h1 hv1 hf1
      rw [wp_bind, wp_getObj]
      simp only
      rw [wp_bind, wp_lift, h1.obj]
      have hsub : (⟨b1, f1⟩ : Ptr).sub (n - xs.length) = ⟨b1, f1 - (n - xs.length)⟩ := by
        unfold Ptr.sub; rw [if_pos (by dsimp only; omega)]
      rw [hsub]
      refine h1.fillFront hv1 hsrc hf1 ?_ ?_
      · intro s2 _ k3
        rw [wp_setObj]
        exact ⟨b1, cap1, _, k3⟩
      · intro s2 k3
        exact ⟨by omega, by simp, b1, cap1, f1, xs, by rw [h1.obj] at k3; exact k3, rfl, fun _ => rfl⟩
    dsimp only
    rw [wp_ite]
    split
    · rename_i hc
      rw [wp_bind]
      refine wp_mono (growStorageFront_spec h (by omega)) ?_ ?_
      · rintro _ o1 ⟨b1, h1⟩
        exact fin o1 b1 _ _ h1 (h1.ext (hg (by omega))) (by omega)
      · rintro e o1 ⟨xs', k1, k2, k3, k4⟩
        exact ⟨by omega, fun he => by have := k4 he; omega, b, cap, f, xs', k1, k2, k3⟩
    · rename_i hc
      exact fin o b cap f h hv (by omega)

theorem resizeBackWith_spec (h : DSt H E o al b cap f xs) (hv : a.value o.m = some v) (hsrc : a.src E = none)
    (hg : cap - f < n → Exts H E [a] [v]) :
    wp (resizeBackWith E n a)
      (fun _ o' => ∃ b' cap' f', DSt H E o' al b' cap' f' (xs.take n ++ List.replicate (n - xs.length) v))
      (fun e o' => xs.length < n ∧ (e = .lengthError → E.maxSize < n + f) ∧
        ∃ b' cap' f' xs', DSt H E o' al b' cap' f' xs' ∧ xs'.length = xs.length ∧ (Strong E → xs' = xs)) o := by
  have hfit := h.fit
  unfold resizeBackWith
  rw [wp_bind, wp_getObj, wp_bind]
  refine wp_size h ?_
  rw [wp_ite]
  split
  · rename_i hn
    rw [wp_bind, wp_lift, h.obj]
    refine h.dropBack hn ?_
    intro s' k
    rw [wp_setObj]
    refine ⟨b, cap, f, ?_⟩
    rw [show n - xs.length = 0 by omega]
    simpa [Ptr.add] using k
  · rename_i hn
    rw [List.take_of_length_le (by omega)]
    rw [wp_bind]
    refine wp_availableBack h ?_
    have fin : ∀ o1 b1 cap1, DSt H E o1 al b1 cap1 f xs → a.value o1.m = some v → f + xs.length + (n - xs.length) ≤ cap1 →
        wp (do
          let v ← getObj
          let l ← lift (uninitFillN E v.last (n - xs.length) a)
          setObj { v with last := l } : DM α Unit)
        (fun _ o' => ∃ b' cap' f', DSt H E o' al b' cap' f' (xs ++ List.replicate (n - xs.length) v))
        (fun e o' => xs.length < n ∧ (e = .lengthError → E.maxSize < n + f) ∧
          ∃ b' cap' f' xs', DSt H E o' al b' cap' f' xs' ∧ xs'.length = xs.length ∧ (Strong E → xs' = xs)) o1 := by
      intro o1 b1 cap1 h1 hv1 hf1
      rw [wp_bind, wp_getObj, wp_bind, wp_lift, h1.obj]
      unfold uninitFillN
      refine h1.fillBack rfl hv1 hsrc hf1 ?_ ?_
      · intro s2 _ k3
        rw [wp_setObj]
        exact ⟨b1, cap1, _, k3⟩
      · intro s2 k3
        exact ⟨by omega, by simp, b1, cap1, f, xs, by rw [h1.obj] at k3; exact k3, rfl, fun _ => rfl⟩
    dsimp only
    rw [wp_ite]
    split
    · rename_i hc
      rw [wp_bind]
      refine wp_mono (growStorageBack_spec h (by omega)) ?_ ?_
      · rintro _ o1 ⟨b1, h1⟩
        exact fin o1 b1 _ h1 (h1.ext (hg (by omega))) (by omega)
      · rintro e o1 ⟨xs', k1, k2, k3, k4⟩
        exact ⟨by omega, fun he => by have := k4 he; omega, b, cap, f, xs', k1, k2, k3⟩
    · rename_i hc
      exact fin o b cap h hv (by omega)

end Sfl.Devector
