import Verif.SegDevSpec5
/-
  Specifications of the functions of segmented_devector: insertion of several elements. Proof machinery: no code is modelled in
  this file.
-/

set_option linter.unusedSimpArgs false
set_option linter.unusedSectionVars false

namespace Sfl.SegDev
open SegVec (Fit IsFrom wp_run)
variable {α : Type} {E : Env α} {N al tcap f n : Nat} {V V' : View} {xs : List α} {o : Obj SDVec α} {H H0 : Heap α} {v : α}

/-! ### The elements to insert -/

/-- The elements to insert. -/
def Ins.vals : Ins α → List α
  | .fill n v => List.replicate n v
  | .range _ ys => ys

theorem Ins.length_eq (i : Ins α) : i.length = i.vals.length := by cases i <;> simp [Ins.length, Ins.vals]

theorem Ins.take_vals (i : Ins α) (k : Nat) : (i.take k).vals = i.vals.take k := by
  cases i <;> simp [Ins.take, Ins.vals]

theorem Ins.drop_vals (i : Ins α) (k : Nat) : (i.drop k).vals = i.vals.drop k := by
  cases i <;> simp [Ins.drop, Ins.vals]

section
variable {s : St α} {L : Nat → Prop} {t : Table} {src : Ins α} {x y : Nat} {ys : List α} {ra : Bool}

/-- A range outside the container is copied to raw slots. -/
theorem SRow.uninitVals {Q : SIt → St α → Prop} {X : Exn → St α → Prop} (hF : Fit V t) (h : SRow V al tcap H s L)
    (hy : x + ys.length ≤ V.size) (hr : ∀ i, x ≤ i → i < x + ys.length → ¬ L i)
    (hQ : ∀ s', SRow V al tcap H s' (fun i => L i ∨ (x ≤ i ∧ i < x + ys.length)) →
      (∀ i, V.cell s' i = if x ≤ i ∧ i < x + ys.length then ys[i - x]? else V.cell s i) → Q (V.it (x + ys.length)) s')
    (hX : ∀ s', SRow V al tcap H s' L → (∀ i, V.cell s' i = V.cell s i) → X .elem s') :
    wp ((Seg.From.list ra (ys.map .val)).uninit E V.N t (V.it x)) Q X s := by
  have hp : Piece V (ys.map .val) 0 (ys.map Arg.val).length (.list ra (ys.map .val)) := Piece.whole (isFrom_vals ra ys)
  rw [List.length_map] at hp
  refine hp.uninit (D := fun _ => False) hF (.copy (Exts.vals ys)) h (by omega) (fun _ _ _ k => k) hy hr ?_ ?_
  · rintro s1 H1 ⟨-, rfl⟩ r1 m1
    exact hQ s1 r1 (fun i => by rw [m1, Nat.zero_add])
  · rintro s1 H1 e1 r1 m1
    cases e1
    exact hX s1 r1 m1

/-- A range outside the container is copied to elements. -/
theorem SRow.assignVals {Q : SIt → St α → Prop} {X : Exn → St α → Prop} (hF : Fit V t) (h : SRow V al tcap H s L)
    (hy : x + ys.length ≤ V.size) (hr : ∀ i, x ≤ i → i < x + ys.length → L i)
    (hQ : ∀ s', SRow V al tcap H s' L →
      (∀ i, V.cell s' i = if x ≤ i ∧ i < x + ys.length then ys[i - x]? else V.cell s i) → Q (V.it (x + ys.length)) s')
    (hX : ∀ s', SRow V al tcap H s' L → X .elem s') :
    wp ((Seg.From.list ra (ys.map .val)).assign E V.N t (V.it x)) Q X s := by
  have hp : Piece V (ys.map .val) 0 (ys.map Arg.val).length (.list ra (ys.map .val)) := Piece.whole (isFrom_vals ra ys)
  rw [List.length_map] at hp
  refine hp.assign (D := fun _ => False) hF (.copy (Exts.vals ys)) h (by omega) (fun _ _ _ k => k) hr hy ?_ ?_
  · rintro s1 H1 ⟨-, rfl⟩ r1 m1
    exact hQ s1 r1 (fun i => by rw [m1, Nat.zero_add])
  · rintro s1 H1 e1 r1
    cases e1
    exact hX s1 r1

theorem SRow.insAssign {Q : Unit → St α → Prop} {X : Exn → St α → Prop} (hF : Fit V t) (h : SRow V al tcap H s L)
    (hxy : y = x + src.vals.length) (hy : y ≤ V.size) (hr : ∀ i, x ≤ i → i < y → L i)
    (hQ : ∀ s', SRow V al tcap H s' L →
      (∀ i, V.cell s' i = if x ≤ i ∧ i < y then src.vals[i - x]? else V.cell s i) → Q () s')
    (hX : ∀ s', SRow V al tcap H s' L → X .elem s') :
    wp (src.assign E V.N t (V.it x) (V.it y)) Q X s := by
  subst hxy
  cases src with
  | fill n v =>
    refine h.fill hF (by omega) hy hr ?_ hX
    intro s1 r1 m1
    refine hQ s1 r1 fun i => ?_
    rw [m1]
    by_cases hc : x ≤ i ∧ i < x + (Ins.fill n v).vals.length
    · rw [if_pos hc, if_pos hc]
      simp only [Ins.vals, List.length_replicate] at hc ⊢
      rw [List.getElem?_replicate, if_pos (by omega)]
    · rw [if_neg hc, if_neg hc]
  | range ra ys =>
    simp only [Ins.assign]
    rw [wp_bind]
    refine h.assignVals hF hy hr ?_ hX
    intro s1 r1 m1
    rw [wp_pure]
    exact hQ s1 r1 m1

theorem SRow.insUninit {Q : Unit → St α → Prop} {X : Exn → St α → Prop} (hF : Fit V t) (h : SRow V al tcap H s L)
    (hxy : y = x + src.vals.length) (hy : y ≤ V.size) (hr : ∀ i, x ≤ i → i < y → ¬ L i)
    (hQ : ∀ s', SRow V al tcap H s' (fun i => L i ∨ (x ≤ i ∧ i < y)) →
      (∀ i, V.cell s' i = if x ≤ i ∧ i < y then src.vals[i - x]? else V.cell s i) → Q () s')
    (hX : ∀ s', SRow V al tcap H s' L → (∀ i, V.cell s' i = V.cell s i) → X .elem s') :
    wp (src.uninit E V.N t (V.it x) (V.it y)) Q X s := by
  subst hxy
  cases src with
  | fill n v =>
    refine h.uninitFill hF (a := .val v) (v := v) rfl rfl (by omega) hy hr ?_ hX
    intro s1 r1 m1
    refine hQ s1 r1 fun i => ?_
    rw [m1]
    by_cases hc : x ≤ i ∧ i < x + (Ins.fill n v).vals.length
    · rw [if_pos hc, if_pos hc]
      simp only [Ins.vals, List.length_replicate] at hc ⊢
      rw [List.getElem?_replicate, if_pos (by omega)]
    · rw [if_neg hc, if_neg hc]
  | range ra ys =>
    simp only [Ins.uninit]
    rw [wp_bind]
    refine h.uninitVals hF hy hr ?_ hX
    intro s1 r1 m1
    rw [wp_pure]
    exact hQ s1 r1 m1

end

/-! ### Insertion -/

theorem insertFrontHalf_spec {src : Ins α} {k : Nat} (h : DSt H N o al V tcap f xs) (hk : k ≤ xs.length)
    (hn0 : 0 < src.vals.length) (hf : src.vals.length ≤ f) :
    wp (insertFrontHalf E N k src)
      (fun p o' => DSt H N o' al V tcap (f - src.vals.length) (xs.take k ++ src.vals ++ xs.drop k) ∧
        p = V.it (f - src.vals.length + k))
      (fun e o' => e = .elem ∧ Some' H N al xs.length o') o := by
  obtain ⟨t, m, rfl, rfl, hg, hF, hr, hl, hc⟩ := h.out
  have hlen : (xs.take k ++ src.vals ++ xs.drop k).length = xs.length + src.vals.length := by simp; omega
  unfold insertFrontHalf
  sd
  rw [Ins.length_eq]
  generalize hn : src.vals.length = n at *
  rw [wp_run (hF.adv (q := f + k) (by omega) (by omega) (by omega) _),
    wp_run (hF.adv (q := f + k - n) (by omega) (by omega) (by omega) _)]
  refine wp_cases (fun hd => ?_) (fun hd => ?_)
  · sd
    rw [wp_run (hF.adv (q := f + n) (by omega) (by omega) (by omega) _),
      wp_run (hF.adv (q := f - n) (by omega) (by omega) (by omega) _)]
    refine hr.uninitMove hF (by omega) (by omega) (by iv) (by omega) (by iv) ?_ ?_
    · intro s1 r1 m1
      refine r1.moveFwd hF (by omega) (by omega) (by iv) (by omega) (by iv) (by omega) ?_ ?_
      · intro s2 r2 m2
        refine r2.insAssign hF (by omega) (by omega) (by iv) ?_ ?_
        · intro s3 r3 m3
          refine ⟨hg.state r3 (by iv) (by omega) (by omega) ?_, by congr 1; omega⟩
          intro i h1 h2
          rw [m3]
          simp only [m2, m1]
          cel hc
        · intro s3 r3
          refine ⟨rfl, ?_⟩
          have := hg.lost (f := f - n) (n := xs.length + n) r3 (by omega) (by iv)
          rw [show f - n + (xs.length + n) = f + xs.length by omega] at this
          exact this.some (by omega)
      · intro _ _ s2 r2
        refine ⟨rfl, ?_⟩
        have := hg.lost (f := f - n) (n := xs.length + n) r2 (by omega) (by iv)
        rw [show f - n + (xs.length + n) = f + xs.length by omega] at this
        exact this.some (by omega)
    · intro _ _ s1 r1
      exact ⟨rfl, (hg.lost (f := f) (n := xs.length) r1 (by omega) (by iv)).some (by omega)⟩
  · sd
    rw [wp_run (hF.adv (q := f - n) (by omega) (by omega) (by omega) _)]
    have l1 : (src.take (n - k)).vals.length = n - k := by rw [Ins.take_vals]; simp; omega
    have l2 : (src.drop (n - k)).vals.length = k := by rw [Ins.drop_vals]; simp; omega
    refine hr.insUninit hF (by omega) (by omega) (by iv) ?_ ?_
    · intro s1 r1 m1
      refine r1.uninitMove hF (by omega) (by omega) (by iv) (by omega) (by iv) ?_ ?_
      · intro s2 r2 m2
        refine r2.insAssign hF (by omega) (by omega) (by iv) ?_ ?_
        · intro s3 r3 m3
          refine ⟨hg.state r3 (by iv) (by omega) (by omega) ?_, by congr 1; omega⟩
          intro i h1 h2
          rw [m3]
          simp only [m2, m1, Ins.take_vals, Ins.drop_vals]
          cel hc
        · intro s3 r3
          refine ⟨rfl, ?_⟩
          have := hg.lost (f := f - n) (n := xs.length + n) r3 (by omega) (by iv)
          rw [show f - n + (xs.length + n) = f + xs.length by omega] at this
          exact this.some (by omega)
      · intro _ _ s2 r2
        refine ⟨rfl, ?_⟩
        have := hg.lost (f := f + k - n) (n := xs.length + (n - k)) r2 (by omega) (by iv)
        rw [show f + k - n + (xs.length + (n - k)) = f + xs.length by omega] at this
        exact this.some (by omega)
    · intro s1 r1 m1
      exact ⟨rfl, (hg.lost (f := f) (n := xs.length) r1 (by omega) (by iv)).some (by omega)⟩

theorem fillBackHalf_spec {k : Nat} (h : DSt H N o al V tcap f xs) (hk : k ≤ xs.length) (hn0 : 0 < n)
    (hf : f + xs.length + n ≤ V.size) :
    wp (fillBackHalf E N k (xs.length - k) n v)
      (fun p o' => DSt H N o' al V tcap f (xs.take k ++ List.replicate n v ++ xs.drop k) ∧ p = V.it (f + k))
      (fun e o' => e = .elem ∧ Some' H N al xs.length o') o := by
  obtain ⟨t, m, rfl, rfl, hg, hF, hr, hl, hc⟩ := h.out
  have hlen : (xs.take k ++ List.replicate n v ++ xs.drop k).length = xs.length + n := by simp; omega
  unfold fillBackHalf
  sd
  rw [wp_run (hF.adv (q := f + k) (by omega) (by omega) (by omega) _),
    wp_run (hF.adv (q := f + k + n) (by omega) (by omega) (by omega) _)]
  refine wp_cases (fun hd => ?_) (fun hd => ?_)
  · sd
    rw [wp_run (hF.adv (q := f + xs.length - n) (by omega) (by omega) (by omega) _)]
    refine hr.uninitMove hF (by omega) (by omega) (by iv) (by omega) (by iv) ?_ ?_
    · intro s1 r1 m1
      rw [show f + xs.length + (f + xs.length - (f + xs.length - n)) = f + xs.length + n by omega]
      refine r1.moveBackward hF (by omega) (by omega) (by omega) (by omega) (by iv) (by iv) (by omega) ?_ ?_
      · intro s2 r2 m2
        refine r2.fill hF (by omega) (by omega) (by iv) ?_ ?_
        · intro s3 r3 m3
          refine ⟨hg.state r3 (by iv) (by omega) (by omega) ?_, trivial⟩
          intro i h1 h2
          rw [m3]
          simp only [m2, m1]
          cel hc
        · intro s3 r3
          refine ⟨rfl, ?_⟩
          have := hg.lost (f := f) (n := xs.length + n) r3 (by omega) (by iv)
          rw [← Nat.add_assoc] at this
          exact this.some (by omega)
      · intro _ _ s2 r2
        refine ⟨rfl, ?_⟩
        have := hg.lost (f := f) (n := xs.length + n) r2 (by omega) (by iv)
        rw [← Nat.add_assoc] at this
        exact this.some (by omega)
    · intro _ _ s1 r1
      exact ⟨rfl, (hg.lost (f := f) (n := xs.length) r1 (by omega) (by iv)).some (by omega)⟩
  · sd
    refine hr.uninitFill hF (a := .val v) (v := v) rfl rfl (by omega) (by omega) (by iv) ?_ ?_
    · intro s1 r1 m1
      refine r1.uninitMove hF (by omega) (by omega) (by iv) (by omega) (by iv) ?_ ?_
      · intro s2 r2 m2
        rw [show f + k + n + (f + xs.length - (f + k)) = f + xs.length + n by omega]
        refine r2.fill hF (by omega) (by omega) (by iv) ?_ ?_
        · intro s3 r3 m3
          refine ⟨hg.state r3 (by iv) (by omega) (by omega) ?_, trivial⟩
          intro i h1 h2
          rw [m3]
          simp only [m2, m1]
          cel hc
        · intro s3 r3
          refine ⟨rfl, ?_⟩
          have := hg.lost (f := f) (n := xs.length + n) r3 (by omega) (by iv)
          rw [← Nat.add_assoc] at this
          exact this.some (by omega)
      · intro _ _ s2 r2
        refine ⟨rfl, ?_⟩
        have := hg.lost (f := f) (n := k + n) r2 (by omega) (by iv)
        rw [← Nat.add_assoc] at this
        exact this.some (by omega)
    · intro s1 r1 m1
      exact ⟨rfl, (hg.lost (f := f) (n := xs.length) r1 (by omega) (by iv)).some (by omega)⟩

/-- The back half of `insert_range`. The position `data_.last_ - n` is computed even if it is not needed; it must be a
position in the storage. -/
theorem rangeBackHalf_spec {k : Nat} {ra : Bool} {ys : List α} (h : DSt H N o al V tcap f xs) (hk : k ≤ xs.length)
    (hn0 : 0 < ys.length) (hy : ys.length ≤ f + xs.length) (hf : f + xs.length + ys.length ≤ V.size) :
    wp (rangeBackHalf E N k (xs.length - k) ra ys)
      (fun p o' => DSt H N o' al V tcap f (xs.take k ++ ys ++ xs.drop k) ∧ p = V.it (f + k))
      (fun e o' => e = .elem ∧ Some' H N al xs.length o') o := by
  obtain ⟨t, m, rfl, rfl, hg, hF, hr, hl, hc⟩ := h.out
  have hlen : (xs.take k ++ ys ++ xs.drop k).length = xs.length + ys.length := by simp; omega
  unfold rangeBackHalf
  sd
  generalize hn : ys.length = n at *
  rw [wp_run (hF.adv (q := f + k) (by omega) (by omega) (by omega) _),
    wp_run (hF.adv (q := f + xs.length - n) (by omega) (by omega) (by omega) _)]
  refine wp_cases (fun hd => ?_) (fun hd => ?_)
  · sd
    refine hr.uninitMove hF (by omega) (by omega) (by iv) (by omega) (by iv) ?_ ?_
    · intro s1 r1 m1
      rw [show f + xs.length + (f + xs.length - (f + xs.length - n)) = f + xs.length + n by omega]
      refine r1.moveBackward hF (by omega) (by omega) (by omega) (by omega) (by iv) (by iv) (by omega) ?_ ?_
      · intro s2 r2 m2
        refine r2.assignVals hF (by omega) (by iv) ?_ ?_
        · intro s3 r3 m3
          refine ⟨hg.state r3 (by iv) (by omega) (by omega) ?_, trivial⟩
          intro i h1 h2
          rw [m3]
          simp only [m2, m1, hn]
          cel hc
        · intro s3 r3
          refine ⟨rfl, ?_⟩
          have := hg.lost (f := f) (n := xs.length + n) r3 (by omega) (by iv)
          rw [← Nat.add_assoc] at this
          exact this.some (by omega)
      · intro _ _ s2 r2
        refine ⟨rfl, ?_⟩
        have := hg.lost (f := f) (n := xs.length + n) r2 (by omega) (by iv)
        rw [← Nat.add_assoc] at this
        exact this.some (by omega)
    · intro _ _ s1 r1
      exact ⟨rfl, (hg.lost (f := f) (n := xs.length) r1 (by omega) (by iv)).some (by omega)⟩
  · sd
    have l1 : (ys.drop (xs.length - k)).length = n - (xs.length - k) := by simp; omega
    have l2 : (ys.take (xs.length - k)).length = xs.length - k := by simp; omega
    refine hr.uninitVals hF (by omega) (by iv) ?_ ?_
    · intro s1 r1 m1
      rw [l1] at r1 m1 ⊢
      rw [show f + xs.length + (n - (xs.length - k)) = f + k + n by omega] at r1 m1 ⊢
      refine r1.uninitMove hF (by omega) (by omega) (by iv) (by omega) (by iv) ?_ ?_
      · intro s2 r2 m2
        rw [show f + k + n + (f + xs.length - (f + k)) = f + xs.length + n by omega]
        refine r2.assignVals hF (by omega) (by iv) ?_ ?_
        · intro s3 r3 m3
          refine ⟨hg.state r3 (by iv) (by omega) (by omega) ?_, trivial⟩
          intro i h1 h2
          rw [m3]
          simp only [m2, m1, l2]
          cel hc
        · intro s3 r3
          refine ⟨rfl, ?_⟩
          have := hg.lost (f := f) (n := xs.length + n) r3 (by omega) (by iv)
          rw [← Nat.add_assoc] at this
          exact this.some (by omega)
      · intro _ _ s2 r2
        refine ⟨rfl, ?_⟩
        have := hg.lost (f := f) (n := k + n) r2 (by omega) (by iv)
        rw [← Nat.add_assoc] at this
        exact this.some (by omega)
    · intro s1 r1 m1
      exact ⟨rfl, (hg.lost (f := f) (n := xs.length) r1 (by omega) (by iv)).some (by omega)⟩

theorem insertFillN_spec {a : Arg α} {k : Nat} (h : DSt H N o al V tcap f xs) (hv : a.value o.m = some v)
    (hsrc : a.src E = none) (hk : k ≤ xs.length) :
    wp (insertFillN E N (V.it (f + k)) n a)
      (fun p o' => ∃ V' tcap' f', DSt H N o' al V' tcap' f' (xs.take k ++ List.replicate n v ++ xs.drop k) ∧
        p = V'.it (f' + k))
      (fun _ o' => 0 < n ∧ Some' H N al xs.length o') o := by
  have hlen := h.len
  have hin := h.inRange hk
  have hN := h.num
  have hF := h.fit
  have ef : o.obj.first = V.it f := by rw [h.obj]; rfl
  have el : o.obj.last = V.it (f + xs.length) := by rw [h.obj]; rfl
  subst hN
  unfold insertFillN
  rw [wp_bind, wp_getObj, wp_bind, wp_assert]
  refine ⟨hin, ?_⟩
  rw [ef, el, wp_bind, wp_run (hF.dist (by omega) (by omega) _), Nat.add_sub_cancel_left]
  refine wp_cases (fun hn => ?_) (fun hn => ?_)
  · subst hn
    rw [wp_run (hF.adv (q := f + k) (by omega) (by omega) (by omega) _)]
    exact ⟨V, tcap, f, by simpa using h, rfl⟩
  rw [wp_bind, wp_lift]
  refine mkTmp_copy hv hsrc ?_ ?_
  · intro s0 hs0 _ hm0
    have h0 : DSt H V.N ⟨o.obj, s0⟩ al V tcap f xs := by
      obtain ⟨t, m, rfl, -, hg, hF, hr, hl, hc⟩ := h.out
      have hc0 : ∀ i, V.cell s0 i = V.cell m i := fun i => by unfold View.cell View.view; simp only [hm0]
      exact hg.state (hr.fresh hs0 hm0) (by iv) (by omega) rfl (fun i h1 _ => by rw [hc0]; exact hc i h1)
    rw [wp_bind, wp_run (hF.dist (by omega) (by omega) _), show f + xs.length - (f + k) = xs.length - k by omega]
    refine wp_cases (fun hd => ?_) (fun hd => ?_)
    · have fin : ∀ {V1 tcap1 f1 o1}, DSt H V.N o1 al V1 tcap1 f1 xs → n ≤ f1 →
          wp (insertFrontHalf E V.N k (.fill n v))
          (fun p o' => ∃ V' tcap' f', DSt H V.N o' al V' tcap' f' (xs.take k ++ List.replicate n v ++ xs.drop k) ∧
            p = V'.it (f' + k))
          (fun _ o' => 0 < n ∧ Some' H V.N al xs.length o') o1 := by
        intro V1 tcap1 f1 o1 h1 hf1
        refine wp_mono (insertFrontHalf_spec h1 hk (by simp [Ins.vals]; omega) (by simpa [Ins.vals] using hf1)) ?_ ?_
        · rintro p o2 ⟨h2, rfl⟩
          exact ⟨V1, tcap1, _, h2, rfl⟩
        · rintro e o2 ⟨-, h2⟩
          exact ⟨by omega, h2⟩
      rw [wp_bind, wp_run h0.availableFront_run]
      dsimp only
      refine wp_cases (fun hc => ?_) (fun hc => ?_)
      · rw [wp_bind]
        refine wp_mono (growStorageFront_spec h0) ?_ ?_
        · rintro _ o1 ⟨V1, tcap1, d, hsub, hd, h1, hm1⟩
          exact fin h1 (by omega)
        · rintro e o1 ⟨-, -, V1, tcap1, hsub, -, h1, -⟩
          exact ⟨by omega, h1.some (Nat.le_refl _)⟩
      · exact fin h0 (by omega)
    · have fin : ∀ {V1 tcap1 f1 o1}, DSt H V.N o1 al V1 tcap1 f1 xs → f1 + xs.length + n ≤ V1.size →
          wp (fillBackHalf E V.N k (xs.length - k) n v)
          (fun p o' => ∃ V' tcap' f', DSt H V.N o' al V' tcap' f' (xs.take k ++ List.replicate n v ++ xs.drop k) ∧
            p = V'.it (f' + k))
          (fun _ o' => 0 < n ∧ Some' H V.N al xs.length o') o1 := by
        intro V1 tcap1 f1 o1 h1 hf1
        refine wp_mono (fillBackHalf_spec h1 hk (by omega) hf1) ?_ ?_
        · rintro p o2 ⟨h2, rfl⟩
          exact ⟨V1, tcap1, _, h2, rfl⟩
        · rintro e o2 ⟨-, h2⟩
          exact ⟨by omega, h2⟩
      rw [wp_bind, wp_run h0.availableBack_run]
      dsimp only
      refine wp_cases (fun hc => ?_) (fun hc => ?_)
      · rw [wp_bind]
        refine wp_mono (growStorageBack_spec h0) ?_ ?_
        · rintro _ o1 ⟨V1, tcap1, hsub, hd, h1, hm1⟩
          exact fin h1 (by omega)
        · rintro e o1 ⟨-, -, V1, tcap1, hsub, -, h1, -⟩
          exact ⟨by omega, h1.some (Nat.le_refl _)⟩
      · exact fin h0 (by omega)
  · intro s0 hs0 hm0
    refine ⟨by omega, ?_⟩
    obtain ⟨t, m, rfl, -, hg, hF, hr, hl, hc⟩ := h.out
    exact (hg.lost (hr.fresh hs0 hm0) (by omega) (by iv)).some (Nat.le_refl _)

/-- `insert(pos, first, last)` (forward iterators), for a range that is not longer than the container if it is inserted in the
back half: see `rangeBackHalf_spec`. -/
theorem insertRange_spec {ys : List α} {ra : Bool} {k : Nat} (h : DSt H N o al V tcap f xs) (hk : k ≤ xs.length)
    (hy : xs.length - k ≤ k → ys.length ≤ f + xs.length) :
    wp (insertRange E N ra (V.it (f + k)) ys)
      (fun p o' => ∃ V' tcap' f', DSt H N o' al V' tcap' f' (xs.take k ++ ys ++ xs.drop k) ∧ p = V'.it (f' + k))
      (fun _ o' => 0 < ys.length ∧ Some' H N al xs.length o') o := by
  have hlen := h.len
  have hin := h.inRange hk
  have hN := h.num
  have hF := h.fit
  have ef : o.obj.first = V.it f := by rw [h.obj]; rfl
  have el : o.obj.last = V.it (f + xs.length) := by rw [h.obj]; rfl
  subst hN
  unfold insertRange
  rw [wp_bind, wp_getObj, wp_bind, wp_assert]
  refine ⟨hin, ?_⟩
  rw [ef, el, wp_bind, wp_run (hF.dist (by omega) (by omega) _), Nat.add_sub_cancel_left]
  refine wp_cases (fun hn => ?_) (fun hn => ?_)
  · subst hn
    rw [wp_run (hF.adv (q := f + k) (by omega) (by omega) (by omega) _)]
    exact ⟨V, tcap, f, by simpa using h, rfl⟩
  have hn : 0 < ys.length := List.length_pos_iff.mpr hn
  rw [wp_bind, wp_run (hF.dist (by omega) (by omega) _), show f + xs.length - (f + k) = xs.length - k by omega]
  refine wp_cases (fun hd => ?_) (fun hd => ?_)
  · have fin : ∀ {V1 tcap1 f1 o1}, DSt H V.N o1 al V1 tcap1 f1 xs → ys.length ≤ f1 →
        wp (insertFrontHalf E V.N k (.range ra ys))
        (fun p o' => ∃ V' tcap' f', DSt H V.N o' al V' tcap' f' (xs.take k ++ ys ++ xs.drop k) ∧ p = V'.it (f' + k))
        (fun _ o' => 0 < ys.length ∧ Some' H V.N al xs.length o') o1 := by
      intro V1 tcap1 f1 o1 h1 hf1
      refine wp_mono (insertFrontHalf_spec h1 hk hn hf1) ?_ ?_
      · rintro p o2 ⟨h2, rfl⟩
        exact ⟨V1, tcap1, _, h2, rfl⟩
      · rintro e o2 ⟨-, h2⟩
        exact ⟨hn, h2⟩
    rw [wp_bind, wp_run h.availableFront_run]
    dsimp only
    refine wp_cases (fun hc => ?_) (fun hc => ?_)
    · rw [wp_bind]
      refine wp_mono (growStorageFront_spec h) ?_ ?_
      · rintro _ o1 ⟨V1, tcap1, d, hsub, hd, h1, hm1⟩
        exact fin h1 (by omega)
      · rintro e o1 ⟨-, -, V1, tcap1, hsub, -, h1, -⟩
        exact ⟨hn, h1.some (Nat.le_refl _)⟩
    · exact fin h (by omega)
  · have fin : ∀ {V1 tcap1 o1}, DSt H V.N o1 al V1 tcap1 f xs → f + xs.length + ys.length ≤ V1.size →
        wp (rangeBackHalf E V.N k (xs.length - k) ra ys)
        (fun p o' => ∃ V' tcap' f', DSt H V.N o' al V' tcap' f' (xs.take k ++ ys ++ xs.drop k) ∧ p = V'.it (f' + k))
        (fun _ o' => 0 < ys.length ∧ Some' H V.N al xs.length o') o1 := by
      intro V1 tcap1 o1 h1 hf1
      refine wp_mono (rangeBackHalf_spec h1 hk hn (hy (by omega)) hf1) ?_ ?_
      · rintro p o2 ⟨h2, rfl⟩
        exact ⟨V1, tcap1, _, h2, rfl⟩
      · rintro e o2 ⟨-, h2⟩
        exact ⟨hn, h2⟩
    rw [wp_bind, wp_run h.availableBack_run]
    dsimp only
    refine wp_cases (fun hc => ?_) (fun hc => ?_)
    · rw [wp_bind]
      refine wp_mono (growStorageBack_spec h) ?_ ?_
      · rintro _ o1 ⟨V1, tcap1, hsub, hd, h1, hm1⟩
        exact fin h1 (by omega)
      · rintro e o1 ⟨-, -, V1, tcap1, hsub, -, h1, -⟩
        exact ⟨hn, h1.some (Nat.le_refl _)⟩
    · exact fin h (by omega)

end Sfl.SegDev
