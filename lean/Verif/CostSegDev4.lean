import Verif.CostSegDev3
/-
  What each modifier of segmented_devector costs. Proof machinery: no code is modelled in this file.
-/

set_option linter.unusedSimpArgs false
set_option linter.unusedSectionVars false

namespace Sfl

namespace Dq.Op
variable {α : Type}

/-- With `f` free slots before and `b` free slots behind the `n` elements: the number of slots that are missing at the end at which the
operation works. Insertions work at the nearer end, `resize` and `assign` at both (segmented_devector.md gives no rule; the code is
segmented_devector.hpp:536-749, 841-1154, 1722-1983, 2138-2480). -/
def lack (f n b : Nat) : Op α → Nat
  | .pushFront _ => 1 - f
  | .pushBack _ => 1 - b
  | .emplace k _ => 1 - if k < n - k then f else b
  | .insertN k m _ => m - if k < n - k then f else b
  | .insertRange k ys => ys.length - if k < n - k then f else b
  | .insertInput k ys => ys.length - if k < n - k then f else b
  | .resize m => m - (f + n + b)
  | .resizeV m _ => m - (f + n + b)
  | .resizeFront m => m - (n + f)
  | .resizeFrontV m _ => m - (n + f)
  | .resizeBack m => m - (n + b)
  | .resizeBackV m _ => m - (n + b)
  | .assignN m _ => m - (f + n + b)
  | .assignRange ys => ys.length - (f + n + b)
  | .assignInput ys => ys.length - (n + b)
  | .reserveFront m => m - (n + f)
  | .reserveBack m => m - (n + b)
  | _ => 0

end Dq.Op

namespace SegDev
open SegVec (Fit)
variable {α β γ : Type} {E : Env α} {N n : Nat} {H : Heap α} {o : Obj SDVec α} {al tcap f S W k : Nat} {V : View} {xs : List α} {a : Arg α}

theorem emplaceBackTail_tail {v : SDVec} : Tail (emplaceBackTail E N a) 1 v :=
  .get (.spend pays_construct (by omega) fun _ => .still fun _ => .set ⟨_, _, rfl⟩ .pure)

theorem emplaceFrontTail_tail {v : SDVec} : Tail (emplaceFrontTail E N a) 1 v :=
  .get (.still fun _ => .spend pays_construct (by omega) fun _ => .set ⟨_, _, rfl⟩ .pure)

section
variable (h : DSt H N o al V tcap f xs)
include h

theorem DSt.first_bos : Seg.eq o.obj.first o.obj.bos = decide (f = 0) := by
  have := h.len
  rw [h.sits.first, h.sits.bos, h.fit.eq (by omega) (by omega)]

theorem DSt.last_eos : Seg.eq o.obj.last o.obj.eos = decide (f + xs.length = V.size) := by
  have := h.len
  rw [h.sits.last, h.sits.eos, h.fit.eq (by omega) (by omega)]

theorem emplaceBack_ends : Ends (emplaceBack E N a) (nseg o.obj + segs N (1 - (V.size - (f + xs.length))))
    (o.m.tick + allocs N (1 - (V.size - (f + xs.length))) + 1) o := by
  have hl := h.len
  refine .run rfl ?_
  dsimp only
  rw [h.last_eos]
  exact .needBack h (fun hc => by simp at hc; omega) (fun hc => by simp at hc; omega) fun o1 V1 tcap1 h1 h2 hm => .tail emplaceBackTail_tail

theorem emplaceFront_ends : Ends (emplaceFront E N a) (nseg o.obj + segs N (1 - f)) (o.m.tick + allocs N (1 - f) + 1) o := by
  have hl := h.len
  refine .run rfl ?_
  dsimp only
  rw [h.first_bos]
  exact .needFront h (fun hc => by simp at hc; omega) (fun hc => by simp at hc; omega) fun o1 V1 tcap1 f1 h1 h2 hm => .tail emplaceFrontTail_tail

theorem emplace_ends (hk : k ≤ xs.length) :
    Ends (emplace E N (V.it (f + k)) a)
      (nseg o.obj + segs N (1 - if k < xs.length - k then f else V.size - (f + xs.length)))
      (o.m.tick + allocs N (1 - if k < xs.length - k then f else V.size - (f + xs.length)) + (min k (xs.length - k) + 2)) o := by
  have hl := h.len
  have hF := h.fit
  have hN := h.num
  have hs := h.sits
  subst hN
  refine .run rfl (.still fun _ => ?_)
  rw [hs.first, hs.last]
  refine .run (hF.dist (p := f) (q := f + k) (by omega) (by omega) o) ?_
  rw [Nat.add_sub_cancel_left]
  refine .run (hF.adv (q := f + k) (by omega) (by omega) (by omega) o) (.run (hF.dist (p := f + k) (q := f + xs.length) (by omega) (by omega) o)
    (.ite (fun hd => ?_) fun hd => ?_))
  · rw [if_pos (c := k < xs.length - k) (by omega), ← hs.first, h.first_bos]
    have hw : min k (xs.length - k) = k := by omega
    rw [hw]
    refine .ite (fun hc => ?_) fun hc => ?_
    · have hc : f = 0 := by simpa using hc
      subst hc
      rw [Nat.sub_zero]
      have h1 := segs_le (N := V.N) (m := 1) (by omega)
      have h2 := allocs_le (N := V.N) (m := 1) (by omega)
      have h3 : 0 ≤ 1 / V.N := Nat.zero_le _
      refine .growFront h (fun o1 V1 tcap1 f1 k1 k2 k3 _ k5 => .run (k1.nth_run hk) ?_) (by omega) (by omega)
      refine .tailTo (k := k + 2) ?_ (by omega) (by omega)
      have := k1.num
      have hx := emplaceFrontHalf_tail (E := E) (a := a) k1.sits (k := k) (by omega) (by omega)
      rw [this] at hx
      exact hx
    · have hc : f ≠ 0 := by simpa using hc
      exact .tailTo (emplaceFrontHalf_tail hs (by omega) (by omega)) (by omega) (by omega)
  · rw [if_neg (c := k < xs.length - k) (by omega), ← hs.last, h.last_eos]
    have hw : min k (xs.length - k) = xs.length - k := by omega
    rw [hw]
    refine .ite (fun hc => ?_) fun hc => ?_
    · have hc : f + xs.length = V.size := by simpa using hc
      have h1 := segs_le (N := V.N) (m := 1) (by omega)
      have h2 := allocs_le (N := V.N) (m := 1) (by omega)
      have h3 : 0 ≤ 1 / V.N := Nat.zero_le _
      rw [show 1 - (V.size - (f + xs.length)) = 1 by omega]
      refine .growBack h (fun o1 V1 tcap1 k1 k2 k3 _ k5 => .run (k1.nth_run hk) ?_) (by omega) (by omega)
      have := k1.num
      have hx := emplaceBackHalf_tail (E := E) (a := a) k1.sits (k := k) (by omega) (by omega)
      rw [this] at hx
      exact .tailTo hx (by omega) (by omega)
    · have hc : f + xs.length ≠ V.size := by simpa using hc
      exact .tailTo (emplaceBackHalf_tail hs (by omega) (by omega)) (by omega) (by omega)

theorem insertRange_ends {ra : Bool} {ys : List α} (hk : k ≤ xs.length) :
    Ends (insertRange E N ra (V.it (f + k)) ys)
      (nseg o.obj + segs N (ys.length - if k < xs.length - k then f else V.size - (f + xs.length)))
      (o.m.tick + allocs N (ys.length - if k < xs.length - k then f else V.size - (f + xs.length)) + (ys.length + min k (xs.length - k))) o := by
  have hl := h.len
  have hF := h.fit
  have hN := h.num
  have hs := h.sits
  subst hN
  refine .run rfl (.still fun _ => ?_)
  dsimp only
  rw [hs.first, hs.last]
  refine .run (hF.dist (p := f) (q := f + k) (by omega) (by omega) o) ?_
  rw [Nat.add_sub_cancel_left]
  refine .ite (fun _ => ?_) fun hne => ?_
  · exact .tailTo (k := 0) (fun t => .still fun _ => ⟨.refl _, Nat.le_refl _⟩) (by omega) (by omega)
  refine .run (hF.dist (p := f + k) (q := f + xs.length) (by omega) (by omega) o) (.ite (fun hd => ?_) fun hd => ?_)
  · rw [if_pos (by omega), show min k (xs.length - k) = k by omega]
    refine .run h.availableFront_run ?_
    refine .needFront h (fun hc => by omega) (fun hc => by omega) fun o1 V1 tcap1 f1 h1 h2 hm => ?_
    have hx := insertFrontHalf_tail (E := E) h1.sits (src := .range ra ys) (k := k) (by omega) (by simp [Ins.length]; omega)
    rw [h1.num] at hx
    exact .tail hx
  · rw [if_neg (by omega), show min k (xs.length - k) = xs.length - k by omega]
    refine .run h.availableBack_run ?_
    refine .needBack h (fun hc => by omega) (fun hc => by omega) fun o1 V1 tcap1 h1 h2 hm => ?_
    have hx := rangeBackHalf_tail (E := E) h1.sits (ra := ra) (ys := ys) (k := k) (by omega) (by omega)
    rw [h1.num, show f + xs.length - (f + k) = xs.length - k by omega] at hx
    rw [show f + xs.length - (f + k) = xs.length - k by omega]
    exact .tail hx

theorem insertFillN_ends {x : α} {m : Nat} (hv : a.value o.m = some x) (hsrc : a.src E = none) (hk : k ≤ xs.length) :
    Ends (insertFillN E N (V.it (f + k)) m a)
      (nseg o.obj + segs N (m - if k < xs.length - k then f else V.size - (f + xs.length)))
      (o.m.tick + allocs N (m - if k < xs.length - k then f else V.size - (f + xs.length)) + (m + min k (xs.length - k) + 1)) o := by
  have hl := h.len
  have hF := h.fit
  have hN := h.num
  have hs := h.sits
  subst hN
  refine .run rfl (.still fun _ => ?_)
  dsimp only
  rw [hs.first, hs.last]
  refine .run (hF.dist (p := f) (q := f + k) (by omega) (by omega) o) ?_
  rw [Nat.add_sub_cancel_left]
  refine .ite (fun _ => ?_) fun hne => ?_
  · exact .tailTo (k := 0) (fun t => .still fun _ => ⟨.refl _, Nat.le_refl _⟩) (by omega) (by omega)
  refine .wp ?_
  rw [wp_lift]
  have hx : wp (mkTmp E a) (fun w s0 => w = x ∧ Same o.m s0 ∧ s0.tick = o.m.tick + 1 ∧ s0.mem = o.m.mem)
      (fun _ s0 => s0.tick ≤ o.m.tick + 1) o.m := by
    have := mkTmp_copy (E := E) (Q := fun w s0 => w = x ∧ Same o.m s0 ∧ s0.tick = o.m.tick + 1 ∧ s0.mem = o.m.mem) (X := fun _ _ => True)
      hv hsrc (fun s' h1 h2 h3 => ⟨rfl, h1, h2, h3⟩) fun _ _ _ => trivial
    have hp := pays_mkTmp (E := E) (a := a) o.m.tick o.m rfl
    unfold wp at this ⊢
    cases e : mkTmp E a o.m with
    | ok b s => rw [e] at this; exact this
    | exn b s => rw [e] at hp; exact hp
    | ub r => rw [e] at this; exact this
  refine wp_mono hx ?_ fun _ s0 ht => ⟨by dsimp only; omega, by dsimp only; omega⟩
  rintro w s0 ⟨rfl, hs0, ht, hm0⟩
  have h0 : DSt H V.N ⟨o.obj, s0⟩ al V tcap f xs := by
    obtain ⟨t, m, rfl, -, hg, hF, hr, hl, hc⟩ := h.out
    have hc0 : ∀ i, V.cell s0 i = V.cell m i := fun i => by unfold View.cell View.view; simp only [hm0]
    exact hg.state (hr.fresh hs0 hm0) (fun i => Iff.rfl) (by omega) rfl (fun i h1 _ => by rw [hc0]; exact hc i h1)
  refine Ends.mono (S := nseg o.obj + segs V.N (m - if k < xs.length - k then f else V.size - (f + xs.length)))
      (W := s0.tick + allocs V.N (m - if k < xs.length - k then f else V.size - (f + xs.length)) + (m + min k (xs.length - k)))
      ?_ (Nat.le_refl _) (by omega)
  · show Ends _ (nseg (Obj.mk o.obj s0).obj + _) ((Obj.mk o.obj s0).m.tick + _ + _) _
    refine .run (hF.dist (p := f + k) (q := f + xs.length) (by omega) (by omega) _) (.ite (fun hd => ?_) fun hd => ?_)
    · rw [if_pos (by omega), show min k (xs.length - k) = k by omega]
      refine .run h0.availableFront_run ?_
      refine .needFront h0 (fun hc => by omega) (fun hc => by omega) fun o1 V1 tcap1 f1 h1 h2 hm => ?_
      have hx := insertFrontHalf_tail (E := E) h1.sits (src := .fill m w) (k := k) (by omega) (by simp [Ins.length]; omega)
      rw [h1.num] at hx
      exact .tail hx
    · rw [if_neg (by omega), show min k (xs.length - k) = xs.length - k by omega]
      refine .run h0.availableBack_run ?_
      refine .needBack h0 (fun hc => by omega) (fun hc => by omega) fun o1 V1 tcap1 h1 h2 hm => ?_
      have hx := fillBackHalf_tail (E := E) h1.sits (tmp := w) (m := m) (k := k) (by omega) (by omega)
      rw [h1.num, show f + xs.length - (f + k) = xs.length - k by omega] at hx
      rw [show f + xs.length - (f + k) = xs.length - k by omega]
      exact .tail hx

end
end SegDev
end Sfl
