import Verif.SegDevSpec4
import Verif.SVSpec6
/-
  Specifications of the functions of segmented_devector: `assign`. Proof machinery: no code is modelled in this file.
-/

set_option linter.unusedSimpArgs false
set_option linter.unusedSectionVars false

namespace Sfl.SegDev
open SegVec (Fit IsFrom wp_run)
variable {α : Type} {E : Env α} {N al tcap f n : Nat} {V V' : View} {xs : List α} {o : Obj SDVec α} {H H0 : Heap α} {v : α}

/-- Some elements, at least `n` of them. -/
def Some' (H : Heap α) (N al n : Nat) (o' : Obj SDVec α) : Prop :=
  ∃ V' tcap' f' ys, DSt H N o' al V' tcap' f' ys ∧ n ≤ ys.length

theorem Lost.some {m : Nat} (h : Lost H N al V tcap f n o) (hm : m ≤ n) : Some' H N al m o := by
  obtain ⟨ys, h1, h2⟩ := h
  exact ⟨V, tcap, f, ys, h1, by omega⟩

theorem DSt.some {m : Nat} (h : DSt H N o al V tcap f xs) (hm : m ≤ xs.length) : Some' H N al m o := ⟨V, tcap, f, xs, h, hm⟩

/-! ### Copies of a value -/

theorem fillAll_spec (h : DSt H N o al V tcap f xs) :
    wp (fillAll E N (.val v)) (fun _ o' => DSt H N o' al V tcap f (List.replicate xs.length v))
      (fun e o' => e = .elem ∧ Lost H N al V tcap f xs.length o') o := by
  obtain ⟨t, m, rfl, rfl, hg, hF, hr, hl, hc⟩ := h.out
  unfold fillAll
  sd
  refine hr.fill hF (by omega) (by omega) (by iv) ?_ ?_
  · intro s1 r1 m1
    refine hg.state r1 (by iv) (by omega) (by simp) ?_
    intro i h1 h2
    rw [m1]
    cel hc
  · intro s1 r1
    exact ⟨rfl, hg.lost r1 (by omega) (by iv)⟩

theorem assignFillN_spec (h : DSt H N o al V tcap f xs) :
    wp (assignFillN E N n (.val v)) (fun _ o' => ∃ V' tcap' f', DSt H N o' al V' tcap' f' (List.replicate n v))
      (fun e o' => (e = .lengthError → E.maxSize < n ∧ xs.length < n) ∧ Some' H N al xs.length o') o := by
  have hlen := h.len
  have lrep : ∀ k, (List.replicate k v).length = k := fun k => List.length_replicate
  have rep : ∀ i j, i + j = n → List.replicate i v ++ List.replicate j v = List.replicate n v := by
    intro i j hij; rw [← hij, List.replicate_append_replicate]
  unfold assignFillN
  rw [wp_bind, wp_run h.size_run]
  refine wp_cases (fun hn => ?_) (fun hn => ?_)
  · obtain ⟨t, m, rfl, rfl, hg, hF, hr, hl, hc⟩ := h.out
    sd
    rw [wp_run (hF.adv (q := f + n) (by omega) (by omega) (by omega) _)]
    refine hr.fill hF (by omega) (by omega) (by iv) ?_ ?_
    · intro s1 r1 m1
      refine r1.destroy hF (by omega) (by omega) (by iv) ?_
      intro s2 r2 m2
      refine ⟨V, tcap, f, hg.state r2 (by iv) (by omega) (by simp) ?_⟩
      intro i h1 h2
      rw [m2, m1]
      cel hc
    · intro s1 r1
      exact ⟨by simp, (hg.lost r1 (by omega) (by iv)).some (Nat.le_refl _)⟩
  rw [wp_bind, wp_run h.availableBack_run]
  refine wp_cases (fun hb => ?_) (fun hb => ?_)
  · rw [wp_bind]
    refine wp_mono (fillAll_spec h) ?_ (fun e o1 ⟨he, k⟩ => ⟨by simp [he], k.some (Nat.le_refl _)⟩)
    intro _ o1 h1
    refine wp_mono (fillBack_spec h1 (a := .val v) (v := v) rfl rfl (n := n - xs.length) (by rw [lrep]; omega)) ?_ ?_
    · rintro _ o2 ⟨h2, -⟩
      rw [rep _ _ (by omega)] at h2
      exact ⟨V, tcap, f, h2⟩
    · rintro e o2 ⟨rfl, h2⟩
      exact ⟨by simp, h2.some (by simp)⟩
  rw [wp_bind, wp_run h.availableFront_run]
  refine wp_cases (fun hf => ?_) (fun hf => ?_)
  · rw [wp_bind]
    refine wp_mono (fillAll_spec h) ?_ (fun e o1 ⟨he, k⟩ => ⟨by simp [he], k.some (Nat.le_refl _)⟩)
    intro _ o1 h1
    rw [wp_bind]
    refine wp_mono (fillEos_spec h1 (a := .val v) (v := v) rfl rfl) ?_ ?_
    · rintro _ o2 ⟨h2, hv2⟩
      rw [lrep, List.replicate_append_replicate] at h2
      refine wp_mono (fillFront_spec h2 hv2 rfl (n := n - (xs.length + (V.size - (f + xs.length)))) (by omega)) ?_ ?_
      · rintro _ o3 ⟨h3, -⟩
        rw [rep _ _ (by omega)] at h3
        exact ⟨V, tcap, _, h3⟩
      · rintro e o3 ⟨rfl, h3⟩
        exact ⟨by simp, h3.some (by simp)⟩
    · rintro e o2 ⟨rfl, h2⟩
      exact ⟨by simp, h2.some (by simp)⟩
  rw [wp_bind]
  refine wp_mono (growStorageBack_spec h) ?_ ?_
  · rintro _ o1 ⟨V1, tcap1, hsub, hsz, h1, hm1⟩
    rw [wp_bind]
    refine wp_mono (fillAll_spec h1) ?_ (fun e o1 ⟨he, k⟩ => ⟨by simp [he], k.some (Nat.le_refl _)⟩)
    intro _ o2 h2
    rw [wp_bind]
    refine wp_mono (fillBack_spec h2 (a := .val v) (v := v) rfl rfl (n := n - (xs.length + f)) (by rw [lrep]; omega)) ?_ ?_
    · rintro _ o3 ⟨h3, hv3⟩
      rw [List.replicate_append_replicate] at h3
      refine wp_mono (fillBos_spec h3 hv3 rfl) ?_ ?_
      · rintro _ o4 ⟨h4, -⟩
        rw [rep _ _ (by omega)] at h4
        exact ⟨V1, tcap1, _, h4⟩
      · rintro e o4 ⟨rfl, h4⟩
        exact ⟨by simp, h4.some (by simp)⟩
    · rintro e o3 ⟨rfl, h3⟩
      exact ⟨by simp, h3.some (by simp)⟩
  · rintro e o1 ⟨k1, -, V1, tcap1, hsub, -, h1, -⟩
    exact ⟨fun he => ⟨by have := k1 he; omega, by omega⟩, h1.some (Nat.le_refl _)⟩

/-! ### Elements of a range -/

section
variable {as : List (Arg α)} {vs : List α} {mv : Option (List Ptr)} {D : Nat → Prop} {x m : Nat} {src : Seg.From α}

/-- What a failing assignment from a range leaves behind: a valid container, and the foreign memory with the source spoilt. -/
def Broken (H0 : Heap α) (mv : Option (List Ptr)) (N al n : Nat) (o' : Obj SDVec α) : Prop :=
  ∃ H, Spoilt H0 mv H ∧ Some' H N al n o'

/-- Source elements that have been used, and those used now. -/
def Used (D : Nat → Prop) (x m : Nat) (i : Nat) : Prop := D i ∨ (x ≤ i ∧ i < x + m)

variable (h : DSt H N o al V tcap f xs) (hf : Feed E H0 as vs mv D H) (hp : Piece V as x m src) (hx : x + m ≤ vs.length)
  (hD : ∀ i, x ≤ i → i < x + m → ¬ D i)
include h hf hp hx hD

theorem copyAll_spec (hm : m = xs.length) :
    wp (copyAll E N src)
      (fun _ o' => ∃ H', Feed E H0 as vs mv (Used D x m) H' ∧ DSt H' N o' al V tcap f ((vs.drop x).take m))
      (fun e o' => e = .elem ∧ Broken H0 mv N al xs.length o') o := by
  obtain ⟨t, ms, rfl, rfl, hg, hF, hr, hl, hc⟩ := h.out
  unfold copyAll
  sd
  refine hp.assign hF hf hr hx hD (by iv) (by omega) ?_ ?_
  · intro s1 H1 f1 r1 m1
    refine ⟨H1, f1, hg.state r1 (by iv) (by omega) (by simp; omega) ?_⟩
    intro i h1 h2
    rw [m1]
    cel hc
  · intro s1 H1 sp r1
    exact ⟨rfl, H1, sp, (hg.lost r1 (by omega) (by iv)).some (Nat.le_refl _)⟩

theorem rangeBack_spec (hm : f + xs.length + m ≤ V.size) :
    wp (rangeBack E N src)
      (fun _ o' => ∃ H', Feed E H0 as vs mv (Used D x m) H' ∧ DSt H' N o' al V tcap f (xs ++ (vs.drop x).take m))
      (fun e o' => e = .elem ∧ Broken H0 mv N al xs.length o') o := by
  obtain ⟨t, ms, rfl, rfl, hg, hF, hr, hl, hc⟩ := h.out
  unfold rangeBack
  sd
  refine hp.uninit hF hf hr hx hD (by omega) (by iv) ?_ ?_
  · intro s1 H1 f1 r1 m1
    refine ⟨H1, f1, hg.state r1 (by iv) (by omega) (by simp; omega) ?_⟩
    intro i h1 h2
    rw [m1]
    cel hc
  · intro s1 H1 sp r1 m1
    exact ⟨rfl, H1, sp, (hg.lost r1 (by omega) (by iv)).some (Nat.le_refl _)⟩

theorem rangeFront_spec (hm : m ≤ f) :
    wp (rangeFront E N m src)
      (fun _ o' => ∃ H', Feed E H0 as vs mv (Used D x m) H' ∧ DSt H' N o' al V tcap (f - m) ((vs.drop x).take m ++ xs))
      (fun e o' => e = .elem ∧ Broken H0 mv N al xs.length o') o := by
  obtain ⟨t, ms, rfl, rfl, hg, hF, hr, hl, hc⟩ := h.out
  unfold rangeFront
  sd
  rw [wp_run (hF.adv (q := f - m) (by omega) (by omega) (by omega) _)]
  refine hp.uninit hF hf hr hx hD (by omega) (by iv) ?_ ?_
  · intro s1 H1 f1 r1 m1
    refine ⟨H1, f1, hg.state r1 (by iv) (by omega) (by simp; omega) ?_⟩
    intro i h1 h2
    rw [m1]
    cel hc
  · intro s1 H1 sp r1 m1
    exact ⟨rfl, H1, sp, (hg.lost r1 (by omega) (by iv)).some (Nat.le_refl _)⟩

theorem rangeBos_spec (hm : m = f) :
    wp (rangeBos E N src)
      (fun _ o' => ∃ H', Feed E H0 as vs mv (Used D x m) H' ∧ DSt H' N o' al V tcap 0 ((vs.drop x).take m ++ xs))
      (fun e o' => e = .elem ∧ Broken H0 mv N al xs.length o') o := by
  obtain ⟨t, ms, rfl, rfl, hg, hF, hr, hl, hc⟩ := h.out
  unfold rangeBos
  sd
  refine hp.uninit hF hf hr hx hD (by omega) (by iv) ?_ ?_
  · intro s1 H1 f1 r1 m1
    refine ⟨H1, f1, hg.state r1 (by iv) (by omega) (by simp; omega) ?_⟩
    intro i h1 h2
    rw [m1]
    cel hc
  · intro s1 H1 sp r1 m1
    exact ⟨rfl, H1, sp, (hg.lost r1 (by omega) (by iv)).some (Nat.le_refl _)⟩

end

theorem Broken.mono {mv : Option (List Ptr)} {m : Nat} (h : Broken H0 mv N al n o) (hm : m ≤ n) : Broken H0 mv N al m o := by
  obtain ⟨H, h1, V', tcap', f', ys, h2, h3⟩ := h
  exact ⟨H, h1, V', tcap', f', ys, h2, by omega⟩

theorem take_append_take_drop {β : Type} (vs : List β) (x m : Nat) : vs.take x ++ (vs.drop x).take m = vs.take (x + m) := by
  rw [List.take_add]

/-- `assign(first, last)`: the elements become those of the source, which are copied or moved one by one. -/
theorem assignRange_spec {as : List (Arg α)} {vs : List α} {mv : Option (List Ptr)} {src : Seg.From α}
    (h : DSt H N o al V tcap f xs) (hf : Feed E H as vs mv (fun _ => False) H)
    (hsrc : ∀ W : View, W.N = N → (∀ c, W.blocks c → H.blk c = none) → IsFrom W src as) :
    wp (assignRange E N src)
      (fun _ o' => ∃ H' V' tcap' f', Feed E H as vs mv (fun _ => True) H' ∧ DSt H' N o' al V' tcap' f' vs)
      (fun e o' => (e = .lengthError → E.maxSize < vs.length ∧ xs.length < vs.length) ∧ Broken H mv N al xs.length o') o := by
  have hlen := h.len
  have hal := hf.length
  have hN := h.num
  have hsp := hf.spoilt
  have fail : ∀ {e : Exn} {o' : Obj SDVec α} {n : Nat}, xs.length ≤ n → e = .elem ∧ Broken H mv N al n o' →
      (e = .lengthError → E.maxSize < vs.length ∧ xs.length < vs.length) ∧ Broken H mv N al xs.length o' := by
    rintro e o' n hn ⟨rfl, k⟩
    exact ⟨by simp, k.mono hn⟩
  have ltd : ∀ x m, x + m ≤ vs.length → ((vs.drop x).take m).length = m := by intro x m hm; simp; omega
  unfold assignRange
  have hdist : ∀ s : Obj SDVec α, src.dist N s = .ok vs.length s := by
    intro s
    have := (hsrc V hN h.owns.hblk).dist h.fit s
    rwa [hN, hal] at this
  rw [wp_bind, wp_run (hdist _), wp_bind, wp_run h.size_run]
  refine wp_cases (fun hn => ?_) (fun hn => ?_)
  · obtain ⟨t, ms, rfl, rfl, hg, hF, hr, hl, hc⟩ := h.out
    have hp := Piece.whole (hsrc V rfl h.owns.hblk)
    rw [hal] at hp
    sd
    refine hp.assign hF hf hr (by omega) (fun _ _ _ k => k) (by iv) (by omega) ?_ ?_
    · intro s1 H1 f1 r1 m1
      refine r1.destroy hF (by omega) (by omega) (by iv) ?_
      intro s2 r2 m2
      refine ⟨H1, V, tcap, f, f1.congr (fun i _ => by simp; omega), hg.state r2 (by iv) (by omega) (by omega) ?_⟩
      intro i h1 h2
      rw [m2, m1, if_neg (by omega), if_pos (by omega)]
      congr 1; omega
    · intro s1 H1 sp r1
      exact ⟨by simp, H1, sp, (hg.lost r1 (by omega) (by iv)).some (Nat.le_refl _)⟩
  rw [wp_bind, wp_run h.availableBack_run]
  refine wp_cases (fun hb => ?_) (fun hb => ?_)
  · have hp := Piece.whole (hsrc V hN h.owns.hblk)
    rw [hal] at hp
    obtain ⟨mid, hi, hs, p1, p2⟩ := hp.split h.fit (n := xs.length) (by omega) (by omega) (σ := Obj SDVec α)
    rw [hN] at hs
    rw [wp_bind, wp_run (hs _)]
    dsimp only
    rw [wp_bind]
    refine wp_mono (copyAll_spec h hf p1 (by omega) (fun _ _ _ k => k) rfl) ?_ (fun e o1 k => fail (Nat.le_refl _) k)
    rintro _ o1 ⟨H1, f1, h1⟩
    have l1 := ltd 0 xs.length (by omega)
    refine wp_mono (rangeBack_spec h1 f1 p2 (by omega) (by simp only [Used, false_or]; iv) (by omega)) ?_
      (fun e o1 k => fail (by omega) k)
    rintro _ o2 ⟨H2, f2, h2⟩
    refine ⟨H2, V, tcap, f, f2.congr (fun i _ => by simp [Used]; omega), ?_⟩
    rwa [List.drop_zero, Nat.zero_add, take_append_take_drop, List.take_of_length_le (by omega)] at h2
  rw [wp_bind, wp_run h.availableFront_run]
  refine wp_cases (fun hv => ?_) (fun hv => ?_)
  · have hp := Piece.whole (hsrc V hN h.owns.hblk)
    rw [hal] at hp
    generalize hlo : vs.length - (xs.length + (V.size - (f + xs.length))) = lo
    obtain ⟨lo', rest, hs, p1, p2⟩ := hp.split h.fit (n := lo) (by omega) (by omega) (σ := Obj SDVec α)
    rw [hN] at hs
    rw [wp_bind, wp_run (hs _)]
    dsimp only
    obtain ⟨mid, hi, hs, p2, p3⟩ := p2.split h.fit (n := xs.length) (by omega) (by omega) (σ := Obj SDVec α)
    rw [hN] at hs
    rw [wp_bind, wp_run (hs _)]
    dsimp only
    rw [wp_bind]
    refine wp_mono (copyAll_spec h hf p2 (by omega) (fun _ _ _ k => k) rfl) ?_ (fun e o1 k => fail (Nat.le_refl _) k)
    rintro _ o1 ⟨H1, f1, h1⟩
    have l1 := ltd (0 + lo) xs.length (by omega)
    rw [wp_bind]
    refine wp_mono (rangeBack_spec h1 f1 p3 (by omega) (by simp only [Used, false_or]; iv) (by omega)) ?_
      (fun e o1 k => fail (by omega) k)
    rintro _ o2 ⟨H2, f2, h2⟩
    rw [← List.drop_drop (i := xs.length), ← List.take_add] at h2
    refine wp_mono (rangeFront_spec h2 f2 p1 (by omega) (by simp only [Used, false_or]; iv) (by omega)) ?_
      (fun e o1 k => fail (by rw [ltd _ _ (by omega)]; omega) k)
    rintro _ o3 ⟨H3, f3, h3⟩
    refine ⟨H3, V, tcap, f - lo, f3.congr (fun i _ => by simp [Used]; omega), ?_⟩
    rwa [List.drop_zero, Nat.zero_add, take_append_take_drop, List.take_of_length_le (by omega)] at h3
  rw [wp_bind]
  refine wp_mono (growStorageBack_spec h) ?_ ?_
  · rintro _ o1 ⟨V1, tcap1, hsub, hsz, h1, hm1⟩
    have hN1 := h1.num
    have hp := Piece.whole (hsrc V1 hN1 h1.owns.hblk)
    rw [hal] at hp
    obtain ⟨lo', rest, hs, p1, p2⟩ := hp.split h1.fit (n := f) (by omega) (by omega) (σ := Obj SDVec α)
    rw [hN1] at hs
    rw [wp_bind, wp_run (hs _)]
    dsimp only
    obtain ⟨mid, hi, hs, p2, p3⟩ := p2.split h1.fit (n := xs.length) (by omega) (by omega) (σ := Obj SDVec α)
    rw [hN1] at hs
    rw [wp_bind, wp_run (hs _)]
    dsimp only
    rw [wp_bind]
    refine wp_mono (copyAll_spec h1 hf p2 (by omega) (fun _ _ _ k => k) rfl) ?_ (fun e o1 k => fail (Nat.le_refl _) k)
    rintro _ o2 ⟨H1, f1, h2⟩
    have l1 := ltd (0 + f) xs.length (by omega)
    rw [wp_bind]
    refine wp_mono (rangeBack_spec h2 f1 p3 (by omega) (by simp only [Used, false_or]; iv) (by omega)) ?_
      (fun e o1 k => fail (by omega) k)
    rintro _ o3 ⟨H2, f2, h3⟩
    rw [← List.drop_drop (i := xs.length), ← List.take_add] at h3
    refine wp_mono (rangeBos_spec h3 f2 p1 (by omega) (by simp only [Used, false_or]; iv) rfl) ?_
      (fun e o1 k => fail (by rw [ltd _ _ (by omega)]; omega) k)
    rintro _ o4 ⟨H3, f3, h4⟩
    refine ⟨H3, V1, tcap1, 0, f3.congr (fun i _ => by simp [Used]; omega), ?_⟩
    rwa [List.drop_zero, Nat.zero_add, take_append_take_drop, List.take_of_length_le (by omega)] at h4
  · rintro e o1 ⟨k1, -, V1, tcap1, hsub, -, h1, -⟩
    exact ⟨fun he => ⟨by have := k1 he; omega, by omega⟩, H, hsp, h1.some (Nat.le_refl _)⟩

/-- A range outside the container. -/
theorem assignVals_spec {ys : List α} {ra : Bool} (h : DSt H N o al V tcap f xs) :
    wp (assignRange E N (.list ra (ys.map .val)))
      (fun _ o' => ∃ V' tcap' f', DSt H N o' al V' tcap' f' ys)
      (fun e o' => (e = .lengthError → E.maxSize < ys.length ∧ xs.length < ys.length) ∧ Some' H N al xs.length o') o := by
  refine wp_mono (assignRange_spec h (.copy (Exts.vals ys)) (fun W _ _ => isFrom_vals ra ys)) ?_ ?_
  · rintro _ o1 ⟨H1, V1, tcap1, f1, ⟨-, rfl⟩, h1⟩
    exact ⟨V1, tcap1, f1, h1⟩
  · rintro e o1 ⟨k1, H1, e1, h1⟩
    cases e1
    exact ⟨k1, h1⟩

/-! ### Elements of an input range -/

theorem assignRangeInput_gen {ys : List α} {Q : Unit → Obj SDVec α → Prop} {X : Exn → Obj SDVec α → Prop} (h : DSt H N o al V tcap f xs)
    (hB : xs.length < ys.length → ∀ o1, DSt H N o1 al V tcap f (ys.take xs.length) →
      wp (emplaceBackAll E N ((ys.drop xs.length).map .val)) Q X o1)
    (hQ : ys.length ≤ xs.length → ∀ o1, DSt H N o1 al V tcap f ys → Q () o1)
    (hX : ∀ o1, Lost H N al V tcap f xs.length o1 → X .elem o1) :
    wp (assignRangeInput E N (ys.map .val)) Q X o := by
  obtain ⟨t, m, rfl, rfl, hg, hF, hr, hl, hc⟩ := h.out
  have live : ∀ i, ((V.view m).mem V.tb i).isSome ↔ f ≤ i ∧ i < f + xs.length := fun i => hr.row.live i
  unfold assignRangeInput
  rw [wp_bind, wp_getObj, wp_bind, wp_lift]
  simp only [sdev_tab, sdev_first, sdev_last]
  have hsim := SegVec.sim_assignRangeLoop (lim := E.maxSize) (E := E) (al := al) (tcap := tcap) hF hl
    (as := ys.map .val) (k := f) (by omega)
  rw [SegVec.map_val] at hsim
  refine Sim.wp hsim hr.lay ?_
  refine assignRangeLoop_spec (H := H) (Exts.vals ys) (fun c i => hr.row.st.agree c i) hr.row.st.hblk (by omega)
    (fun i h1 h2 => (live i).mpr ⟨h1, h2⟩) ?_ ?_
  · intro s1 hs1 hm1
    rintro ⟨rest, curr⟩ s' ⟨hrest, j, -, -, hc1, hc2⟩ rfl hlay
    rw [Nat.add_sub_cancel_left] at hm1 hrest hc2
    obtain rfl : j = f + min xs.length ys.length := by injection hc2 with _ h; exact h.symm
    have hc1 : curr = V.it (f + min xs.length ys.length) := hc1
    subst hc1
    have hrest : rest = _ := hrest
    have r1 : SRow V al tcap H s' (fun i => f ≤ i ∧ i < f + xs.length) := by
      refine .of hlay (hr.row.upd hs1 (fun i => ?_) hr.row.beyond (fun c hc i => by rw [hm1]; simp [hc]))
      rw [hm1]
      split
      · rename_i hi; simp; omega
      · exact live i
    have m1 : ∀ i, V.cell s' i = if f ≤ i ∧ i < f + min xs.length ys.length then ys[i - f]? else V.cell m i := by
      intro i
      have := hm1 V.tb i
      simp only [true_and] at this
      exact this
    by_cases hlt : xs.length < ys.length
    · have hrt : rest = (ys.drop xs.length).map .val := by
        rw [hrest, ← List.map_drop, SegVec.map_val]
      have hne : rest ≠ [] := by rw [hrt]; simp; omega
      dsimp only
      rw [if_pos hne, hrt]
      have h1 : DSt H V.N ⟨V.sdev t tcap al f (f + xs.length), s'⟩ al V tcap f (ys.take xs.length) := by
        refine hg.state r1 (by iv) (by omega) (by simp; omega) ?_
        intro i h1 h2
        rw [m1]
        cel hc
      exact hB hlt _ h1
    · have hrt : rest = [] := by
        rw [hrest, List.drop_eq_nil_of_le (by simp; omega)]; rfl
      have emin : min xs.length ys.length = ys.length := by omega
      rw [emin] at m1
      rw [hrt, emin]
      dsimp only
      rw [if_neg (by simp)]
      refine wp_cases (fun hd => ?_) (fun hd => ?_) <;> rw [hF.ltI (by omega) (by omega)] at hd
      · sd
        refine r1.destroy hF (by omega) (by omega) (by iv) ?_
        intro s2 r2 m2
        refine hQ (by omega) _ (hg.state r2 (by iv) (by omega) rfl ?_)
        intro i h1 h2
        rw [m2, m1, if_neg (by omega), if_pos (by omega)]
      · have hd : ys.length = xs.length := by simp at hd; omega
        rw [wp_pure]
        refine hQ (by omega) _ (hg.state r1 (by iv) (by omega) (by omega) ?_)
        intro i h1 h2
        rw [m1, if_pos (by omega)]
  · intro s1 hs1 hm1 s' he hlay
    subst he
    have r1 : SRow V al tcap H s' (fun i => f ≤ i ∧ i < f + xs.length) := by
      refine .of hlay (hr.row.upd hs1 (fun i => ?_) hr.row.beyond (fun c hc i => ?_))
      · have := hm1 V.tb i
        simp only [true_and] at this
        split at this
        · rename_i hi; simp [this, hi]
        · rw [this]; exact live i
      · have := hm1 c i
        rw [if_neg (by simp [hc])] at this
        exact this
    exact hX _ (hg.lost r1 (by omega) (by iv))

theorem assignRangeInput_spec {ys : List α} (h : DSt H N o al V tcap f xs) :
    wp (assignRangeInput E N (ys.map .val))
      (fun _ o' => ∃ V' tcap' f', DSt H N o' al V' tcap' f' ys)
      (fun e o' => (e = .lengthError → xs.length < ys.length) ∧ Some' H N al xs.length o') o := by
  refine assignRangeInput_gen h (fun hlt o1 h1 => ?_) (fun _ o1 h1 => ⟨V, tcap, f, h1⟩)
    fun o1 h1 => ⟨by simp, h1.some (Nat.le_refl _)⟩
  refine wp_mono (emplaceBackAll_spec h1) ?_ ?_
  · rintro _ o2 ⟨V2, tcap2, h2⟩
    rw [List.take_append_drop] at h2
    exact ⟨V2, tcap2, f, h2⟩
  · rintro e o2 ⟨-, -, V2, tcap2, f2, zs, h2, hz⟩
    refine ⟨fun _ => hlt, V2, tcap2, f2, zs, h2, ?_⟩
    simp at hz; omega

end Sfl.SegDev
