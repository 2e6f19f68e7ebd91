import Verif.CompactSpec
import Verif.StaticSpec
/-
  Correctness of compact_vector, continued: clear, construction, assignment, single-pass ranges and erase_if.
-/

set_option linter.unusedSimpArgs false

namespace Sfl
open Sfl.Vector (VM)
variable {α : Type} {E : Env α} {H : Heap α} {al b : Nat} {o : Obj Vec α} {xs : List α}

theorem wp_dist {σ : Type} {s : σ} {b m n : Nat} {Q : Nat → σ → Prop} {X : Exn → σ → Prop} (h : m ≤ n) :
    wp (distance ⟨b, m⟩ ⟨b, n⟩) Q X s = Q (n - m) s := by
  unfold wp distance; simp [h]

/-! ### Computations that do not throw -/

/-- The computation does not throw when started in `s`. -/
def NoExn {σ β : Type} (m : M σ β) (s : σ) : Prop := ∀ e s', m s ≠ .exn e s'

theorem NoExn.bind {σ β γ : Type} {m : M σ β} {f : β → M σ γ} {s : σ} (h : NoExn m s)
    (hf : ∀ r s', m s = .ok r s' → NoExn (f r) s') : NoExn (m >>= f) s := by
  intro e s' he
  rw [bind_apply] at he
  cases hm : m s with
  | ok r s1 => rw [hm] at he; exact hf r s1 hm e s' he
  | exn e1 s1 => exact h e1 s1 hm
  | ub r => rw [hm] at he; cases he

theorem NoExn.lift {V β : Type} {m : M (St α) β} {o : Obj V α} (h : NoExn m o.m) : NoExn (lift m : M (Obj V α) β) o := by
  intro e s' he
  unfold Sfl.lift at he
  cases hm : m o.m with
  | ok r s1 => rw [hm] at he; cases he
  | exn e1 s1 => exact h e1 s1 hm
  | ub r => rw [hm] at he; cases he

theorem NoExn.tryCatch {σ β : Type} {m : M σ β} {f : Exn → M σ β} {s : σ} (h : NoExn m s) :
    M.tryCatch m f s = m s := by
  unfold M.tryCatch
  cases hm : m s with
  | ok r s1 => rfl
  | exn e1 s1 => exact absurd hm (h e1 s1)
  | ub r => rfl

theorem NoExn.wp {σ β : Type} {m : M σ β} {s : σ} {Q : β → σ → Prop} {X X' : Exn → σ → Prop} (h : NoExn m s)
    (hw : wp m Q X s) : wp m Q X' s := by
  unfold Sfl.wp at *
  cases hm : m s with
  | ok r s1 => rw [hm] at hw; exact hw
  | exn e1 s1 => exact absurd hm (h e1 s1)
  | ub r => rw [hm] at hw; exact hw

section quiet
variable (hq : ∀ t, E.throws t = false)
include hq

theorem construct_noExn (p : Ptr) (a : Arg α) (s : St α) : NoExn (construct E p a) s := by
  intro e s' he
  unfold construct at he
  simp only [hq, Bool.false_and, Bool.false_eq_true, if_false] at he
  repeat' split at he
  all_goals cases he

theorem uninitGo_noExn (as : List (Arg α)) (d : Ptr) (k : Nat) (s : St α) : NoExn (uninitGo E d k as) s := by
  induction as generalizing k s with
  | nil => intro e s' he; cases he
  | cons a as ih =>
    unfold uninitGo
    refine NoExn.bind ?_ (fun _ _ _ => ih _ _)
    intro e s' he
    rw [NoExn.tryCatch (construct_noExn hq _ _ _)] at he
    exact construct_noExn hq _ _ _ e s' he

theorem allocate_noExn (n : Nat) (s : St α) : NoExn (allocate E al n) s := by
  intro e s' he
  unfold allocate at he
  simp only [hq, Bool.false_eq_true, if_false] at he
  split at he <;> cases he

end quiet

theorem allocate_zero (s : St α) : NoExn (allocate E al 0) s := by
  intro e s' he
  simp [allocate] at he

namespace CompactVector

/-! ### clear and destruction -/

theorem destructor_gone (h : CSt H E o al b xs) :
    wp (CompactVector.destructor : VM α Unit) (fun _ o' => Gone H al 0 0 o'.m) (fun _ _ => False) o := by
  have hd := Sfl.destructor_gone h
  rw [SmallVector.destructor_zero] at hd
  unfold Vector.destructor at hd
  unfold CompactVector.destructor
  rw [wp_bind, wp_getObj] at hd ⊢
  rw [h.obj] at hd ⊢
  exact wp_mono hd (fun _ _ h => h.1) (fun _ _ h => h)

theorem clear_spec (h : CSt H E o al b xs) :
    wp (CompactVector.clear : VM α Unit) (fun _ o' => o'.obj = CompactVector.empty al ∧ Gone H al 0 0 o'.m)
      (fun _ _ => False) o := by
  have hd := destructor_gone h
  unfold CompactVector.destructor at hd
  unfold CompactVector.clear CompactVector.replace
  simp only [wp_bind, wp_getObj, wp_lift, wp_setObj] at hd ⊢
  rw [h.obj] at hd ⊢
  dsimp only at hd ⊢
  refine wp_mono hd ?_ (fun _ _ h => h)
  intro _ s1 h1
  rw [wp_dist (by omega)] at h1 ⊢
  exact wp_mono h1 (fun _ _ h => ⟨rfl, h⟩) (fun _ _ h => h)

theorem emptied {o' : Obj Vec α} (h : o'.obj = CompactVector.empty al ∧ Gone H al 0 0 o'.m) : CSt H E o' al 0 [] := by
  obtain ⟨v, m⟩ := o'
  obtain ⟨rfl, h2⟩ := h
  exact h2.empty (Nat.zero_le _)

/-! ### Construction -/

theorem initWith_eq (as : List (Arg α)) : CompactVector.initWith E as = Vector.initWith E as := rfl

theorem initWith_spec {m : St α} {as : List (Arg α)} {vs : List α} (hg : Gone H al 0 0 m) (hx : Exts H E as vs) :
    wp (CompactVector.initWith E as) (fun _ o' => ∃ b', CSt H E o' al b' vs)
      (fun e o' => Gone H al 0 0 o'.m ∧ (e = .lengthError → E.maxSize < vs.length))
      ⟨CompactVector.empty al, m⟩ := by
  rw [initWith_eq]
  refine wp_mono (wp_congr (SmallVector.initWith_zero _ _ _) (Sfl.initWith_spec hg (Nat.zero_le _) hx)) ?_ ?_
  · rintro _ o' ⟨b', k, -⟩
    rw [Nat.zero_max] at k
    exact ⟨b', k⟩
  · rintro e o' ⟨k1, -, k2⟩
    exact ⟨k1, k2.mp⟩

theorem initWith_move_spec {m : St α} {p : Ptr} {vs : List α} (hg : Gone H al 0 0 m) (hx : Source H p vs) :
    wp (CompactVector.initWith E (args .mv p vs.length))
      (fun _ o' => ∃ b' H', Heap.MovedFrom E p vs.length H H' ∧ CSt H' E o' al b' vs)
      (fun _ o' => ∃ H', Heap.Disturbed p vs.length H H' ∧ Gone H' al 0 0 o'.m)
      ⟨CompactVector.empty al, m⟩ := by
  rw [initWith_eq]
  refine wp_mono (wp_congr (SmallVector.initWith_zero _ _ _) (Sfl.initWith_move_spec hg (Nat.zero_le _) hx)) ?_
    (fun _ _ h => h)
  rintro _ o' ⟨b', H', k1, k2⟩
  rw [Nat.zero_max] at k2
  exact ⟨b', H', k1, k2⟩

theorem emplaceBackAll_spec {as : List (Arg α)} {vs : List α} (hx : Exts H E as vs) :
    ∀ {o : Obj Vec α} {xs : List α} {b : Nat}, CSt H E o al b xs →
    wp (CompactVector.emplaceBackAll E as)
      (fun _ o' => ∃ b', CSt H E o' al b' (xs ++ vs))
      (fun e o' => ∃ b' xs', CSt H E o' al b' xs' ∧ (Strong E → ∃ k, k ≤ vs.length ∧ xs' = xs ++ vs.take k) ∧
        (e = .lengthError → E.maxSize < xs.length + vs.length))
      o := by
  induction as generalizing vs with
  | nil =>
    intro o xs b h
    have hv : vs = [] := by have := hx.length; simpa using this.symm
    subst hv
    unfold CompactVector.emplaceBackAll
    rw [wp_pure]
    exact ⟨b, by simpa using h⟩
  | cons a as ih =>
    intro o xs b h
    obtain ⟨v, vs', rfl, h1, h2, h3⟩ := hx.cons
    unfold CompactVector.emplaceBackAll
    rw [wp_bind]
    refine wp_mono (emplaceBack_spec h (h2 _ h.st.agree) h1) ?_ ?_
    · rintro p o1 ⟨b1, k, -⟩
      refine wp_mono (ih h3 k) ?_ ?_
      · rintro _ o2 ⟨b2, k2⟩
        exact ⟨b2, by simpa using k2⟩
      · rintro e o2 ⟨b2, xs', k2, k3, k4⟩
        refine ⟨b2, xs', k2, fun hs => ?_, fun he => by have := k4 he; simp at this ⊢; omega⟩
        obtain ⟨j, hj, e⟩ := k3 hs
        exact ⟨j + 1, by simpa using hj, by simpa using e⟩
    · rintro e o1 ⟨⟨xs', k1, k2, k3⟩, k4⟩
      exact ⟨b, xs', k1, fun hs => ⟨0, by simp, by simpa using k3 hs⟩, fun he => by have := k4 he; simp; omega⟩

theorem initRangeInput_spec {m : St α} {vs : List α} (hg : Gone H al 0 0 m) :
    wp (CompactVector.initRangeInput E vs) (fun _ o' => ∃ b', CSt H E o' al b' vs)
      (fun e o' => Gone H al 0 0 o'.m ∧ (e = .lengthError → E.maxSize < vs.length))
      ⟨CompactVector.empty al, m⟩ := by
  unfold CompactVector.initRangeInput
  rw [wp_tryCatch]
  refine wp_mono (emplaceBackAll_spec (Exts.vals vs) (emptied ⟨rfl, hg⟩)) ?_ ?_
  · rintro _ o' ⟨b', k⟩
    exact ⟨b', by simpa using k⟩
  · rintro e o' ⟨b', xs', k1, k2, k3⟩
    rw [wp_bind]
    refine wp_mono (destructor_gone k1) ?_ (fun _ _ h => h.elim)
    intro _ o2 g
    rw [wp_throw]
    exact ⟨g, fun he => by simpa using k3 he⟩

/-! ### Assignment -/

/-- Nothing throws, or nothing is constructed. -/
def Calm (E : Env α) (n : Nat) : Prop := (∀ t, E.throws t = false) ∨ n = 0

theorem Calm.uninit {as : List (Arg α)} (h : Calm E as.length) (d : Ptr) (s : St α) : NoExn (uninit E d as) s := by
  rcases h with h | h
  · exact uninitGo_noExn h _ _ _ _
  · rw [List.length_eq_zero_iff] at h
    subst h
    intro e s' he
    cases he

theorem Calm.allocate {n : Nat} (h : Calm E n) (s : St α) : NoExn (allocate E al n) s := by
  rcases h with h | h
  · exact allocate_noExn h _ _
  · subst h; exact allocate_zero s

theorem noExn_setObj {V : Type} {v : V} {o : Obj V α} : NoExn (setObj v) o := by
  intro e s' he; cases he

theorem noExn_getObj {V : Type} {o : Obj V α} : NoExn getObj o := by
  intro e s' he; cases he

/-- If nothing throws, the new elements are constructed as by a constructor. -/
theorem refill_eq {as : List (Arg α)} (h : Calm E as.length) (hm : as.length ≤ E.maxSize) (o : Obj Vec α) :
    CompactVector.refill E as o = CompactVector.initWith E as o := by
  have hc : CompactVector.checkSize E as.length o = .ok () o := by
    unfold CompactVector.checkSize
    rw [if_neg (by omega)]; rfl
  unfold CompactVector.refill CompactVector.initWith
  conv => rhs; rw [bind_apply, hc]
  dsimp only
  refine bind_congr' fun v o1 _ => bind_congr' fun f o2 _ => bind_congr' fun _ o3 _ => ?_
  rw [bind_apply, bind_apply, NoExn.tryCatch (NoExn.lift (h.uninit _ _)), NoExn.tryCatch (NoExn.lift (h.uninit _ _))]

theorem refill_noExn {as : List (Arg α)} (h : Calm E as.length) (o : Obj Vec α) :
    NoExn (CompactVector.refill E as) o := by
  unfold CompactVector.refill
  refine noExn_getObj.bind fun v o1 _ => (NoExn.lift (h.allocate _)).bind fun f o2 _ => noExn_setObj.bind fun _ o3 _ =>
    NoExn.bind ?_ fun _ _ _ => noExn_setObj
  intro e s' he
  rw [NoExn.tryCatch (NoExn.lift (h.uninit _ _))] at he
  exact NoExn.lift (h.uninit _ _) e s' he

/-- Assignment of as many elements as there are works in place, as in vector. -/
theorem inplace {as : List (Arg α)} {Q : Unit → Obj Vec α → Prop} {X : Exn → Obj Vec α → Prop}
    (h : CSt H E o al b xs) (hn : as.length = xs.length) (hw : wp (SmallVector.assignRange E 0 0 as) Q X o) :
    wp (CompactVector.assignRange E as) (fun r o' => Q r o' ∧ o'.obj = o.obj) (fun e o' => X e o' ∧ o'.obj = o.obj) o := by
  unfold SmallVector.assignRange Vector.checkSize Vector.capacity Vector.size at hw
  unfold CompactVector.assignRange CompactVector.checkSize CompactVector.size
  simp only [wp_bind, wp_getObj, wp_ite, wp_lift, wp_setObj, wp_pure, wp_throw] at hw ⊢
  by_cases hmax : as.length > E.maxSize
  · rw [if_pos hmax] at hw ⊢; exact ⟨hw, by trivial⟩
  rw [if_neg hmax] at hw ⊢
  obtain ⟨v, m⟩ := o
  obtain rfl : v = _ := h.obj
  dsimp only at hw ⊢
  rw [wp_dist (by omega)] at hw ⊢
  simp only [Nat.sub_zero] at hw ⊢
  rw [if_pos (by omega), wp_dist (by omega)] at hw
  simp only [Nat.sub_zero] at hw
  rw [if_pos (by omega)] at hw
  rw [if_pos hn]
  refine wp_mono (wp_conj hw (fun _ _ => assignGo_ret)) ?_ (fun _ _ h => ⟨h, by trivial⟩)
  rintro p s1 ⟨rfl, h1⟩
  have hadd : (⟨b, 0⟩ : Ptr).add as.length = ⟨b, xs.length⟩ := by simp [Ptr.add, hn]
  rw [hadd] at h1
  unfold destroyRange at h1
  rw [wp_bind, wp_dist (by omega)] at h1
  simp only [Nat.sub_self] at h1
  exact ⟨h1, by trivial⟩

theorem sameSize {H' : Heap α} {o' : Obj Vec α} {b' cap' : Nat} {xs' : List α} (h : CSt H E o al b xs)
    (ho : o'.obj = o.obj) (h' : VSt H' E 0 0 o' al b' cap' xs') : b' = b ∧ cap' = xs.length ∧ xs'.length = xs.length := by
  have e := h'.obj
  rw [ho, h.obj] at e
  simp only [Vec.mk.injEq, Ptr.mk.injEq] at e
  omega

/-- When the assignment is free of the defect of the handler: it does not change the size, or nothing throws, or
nothing is constructed. -/
def Safe (E : Env α) (n k : Nat) : Prop := k = n ∨ Calm E k

theorem assignRange_spec {as : List (Arg α)} {vs : List α} (h : CSt H E o al b xs) (hx : Exts H E as vs)
    (hs : Safe E xs.length vs.length) :
    wp (CompactVector.assignRange E as) (fun _ o' => ∃ b', CSt H E o' al b' vs)
      (fun e o' => ∃ xs', CSt H E o' al b xs' ∧ xs'.length = xs.length ∧ (e = .lengthError → E.maxSize < vs.length))
      o := by
  have hl := hx.length
  by_cases hn : as.length = xs.length
  · refine wp_mono (inplace h hn (Sfl.assignRange_spec h hx)) ?_ ?_
    · rintro _ o' ⟨⟨b', cap', k, -⟩, ho⟩
      obtain ⟨e1, e2, e3⟩ := sameSize h ho k
      rw [e2, ← e3] at k
      exact ⟨b', k⟩
    · rintro e o' ⟨⟨b', cap', xs', k, -, -, k3⟩, ho⟩
      obtain ⟨e1, e2, e3⟩ := sameSize h ho k
      rw [e2, ← e3, e1] at k
      exact ⟨xs', k, e3, fun he => (k3 he).1⟩
  · have hc : Calm E as.length := by
      rcases hs with h0 | h0
      · omega
      · rw [hl]; exact h0
    unfold CompactVector.assignRange CompactVector.checkSize
    simp only [wp_bind, wp_getObj, wp_ite, wp_lift, wp_pure, wp_throw]
    by_cases hmax : as.length > E.maxSize
    · rw [if_pos hmax]
      exact ⟨xs, h, rfl, fun _ => by omega⟩
    rw [if_neg hmax]
    refine wp_size h ?_
    rw [if_neg hn]
    unfold CompactVector.reassign
    rw [wp_bind]
    refine wp_mono (clear_spec h) ?_ (fun _ _ h => h.elim)
    rintro _ ⟨v1, m1⟩ ⟨rfl, hg⟩
    refine (refill_noExn hc _).wp (X := fun e o' => Gone H al 0 0 o'.m ∧ (e = .lengthError → E.maxSize < vs.length)) ?_
    exact wp_congr (refill_eq hc (by omega) _).symm (initWith_spec hg hx)

theorem assignRange_move_spec {p : Ptr} {vs : List α} (h : CSt H E o al b xs) (hx : Source H p vs)
    (hs : Safe E xs.length vs.length) :
    wp (CompactVector.assignRange E (args .mv p vs.length))
      (fun _ o' => ∃ b' H', Heap.MovedFrom E p vs.length H H' ∧ CSt H' E o' al b' vs)
      (fun _ o' => ∃ xs' H', Heap.Disturbed p vs.length H H' ∧ CSt H' E o' al b xs')
      o := by
  have hl : (args Arg.mv p vs.length : List (Arg α)).length = vs.length := args_length
  have hd0 : Heap.Disturbed p vs.length H H := .refl hx.live
  by_cases hn : vs.length = xs.length
  · refine wp_mono (inplace h (hl.trans hn) (Sfl.assignRange_move_spec h hx)) ?_ ?_
    · rintro _ o' ⟨⟨b', cap', H', k0, k⟩, ho⟩
      obtain ⟨e1, e2, e3⟩ := sameSize h ho k
      rw [e2, ← e3] at k
      exact ⟨b', H', k0, k⟩
    · rintro e o' ⟨⟨b', cap', xs', H', k0, k⟩, ho⟩
      obtain ⟨e1, e2, e3⟩ := sameSize h ho k
      rw [e2, ← e3, e1] at k
      exact ⟨xs', H', k0, k⟩
  · have hc : Calm E (args Arg.mv p vs.length : List (Arg α)).length := by
      rcases hs with h0 | h0
      · omega
      · rw [hl]; exact h0
    unfold CompactVector.assignRange CompactVector.checkSize
    simp only [wp_bind, wp_getObj, wp_ite, wp_lift, wp_pure, wp_throw]
    by_cases hmax : (args Arg.mv p vs.length : List (Arg α)).length > E.maxSize
    · rw [if_pos hmax]
      exact ⟨xs, H, hd0, h⟩
    rw [if_neg hmax]
    refine wp_size h ?_
    rw [if_neg (by omega)]
    unfold CompactVector.reassign
    rw [wp_bind]
    refine wp_mono (clear_spec h) ?_ (fun _ _ h => h.elim)
    rintro _ ⟨v1, m1⟩ ⟨rfl, hg⟩
    refine (refill_noExn hc _).wp (X := fun _ o' => ∃ H', Heap.Disturbed p vs.length H H' ∧ Gone H' al 0 0 o'.m) ?_
    exact wp_congr (refill_eq hc (by omega) _).symm (initWith_move_spec hg hx)

theorem assignFillN_eq {a : Arg α} {n : Nat} (h : CSt H E o al b xs) :
    CompactVector.assignFillN E n a o = CompactVector.assignRange E (List.replicate n a) o := by
  unfold CompactVector.assignFillN CompactVector.assignRange
  rw [List.length_replicate]
  refine bind_congr' fun _ o1 h1 => ?_
  have ho1 : o1 = o := by
    unfold CompactVector.checkSize at h1
    split at h1
    · cases h1
    · cases h1; rfl
  subst ho1
  refine bind_congr' fun v o2 h2 => ?_
  cases h2
  refine bind_congr' fun sz o3 h3 => ?_
  have hsz : CompactVector.size o1 = .ok xs.length o1 := by
    unfold CompactVector.size
    rw [bind_apply]
    simp [getObj, h.obj, distance]
  rw [hsz] at h3
  cases h3
  split
  · rename_i hn
    subst hn
    unfold fillRange
    rw [h.obj]
    simp only [Sfl.lift, bind_apply, distance]
    simp only [Nat.zero_le, and_self, if_true, Nat.sub_zero]
    cases assignGo E ⟨b, 0⟩ (List.replicate xs.length a) o1.m <;> rfl
  · rfl

theorem assignFillN_spec {v : α} {n : Nat} (h : CSt H E o al b xs) (hs : Safe E xs.length n) :
    wp (CompactVector.assignFillN E n (.val v)) (fun _ o' => ∃ b', CSt H E o' al b' (List.replicate n v))
      (fun e o' => ∃ xs', CSt H E o' al b xs' ∧ xs'.length = xs.length ∧ (e = .lengthError → E.maxSize < n))
      o := by
  have := assignRange_spec h (Exts.replicateVal (H := H) (E := E) n v) (by simpa using hs)
  simp only [List.length_replicate] at this
  exact wp_congr (assignFillN_eq h).symm this

theorem assignRangeInput_spec {ys : List α} (h : CSt H E o al b xs) :
    wp (CompactVector.assignRangeInput E (ys.map .val)) (fun _ o' => ∃ b', CSt H E o' al b' ys)
      (fun e o' => ∃ b' xs', CSt H E o' al b' xs' ∧ (e = .lengthError → E.maxSize < ys.length))
      o := by
  unfold CompactVector.assignRangeInput
  rw [wp_bind]
  refine wp_mono (clear_spec h) ?_ (fun _ _ h => h.elim)
  intro _ o1 h1
  refine wp_mono (emplaceBackAll_spec (Exts.vals ys) (emptied h1)) ?_ ?_
  · rintro _ o' ⟨b', k⟩
    exact ⟨b', by simpa using k⟩
  · rintro e o' ⟨b', xs', k1, -, k3⟩
    exact ⟨b', xs', k1, fun he => by simpa using k3 he⟩

/-! ### Insertion of a single-pass range, erase_if -/

theorem insertRangeLoop_spec {as : List (Arg α)} {vs : List α} (hx : Exts H E as vs) :
    ∀ {o : Obj Vec α} {xs : List α} {b k : Nat}, CSt H E o al b xs → k ≤ xs.length →
    wp (CompactVector.insertRangeLoop E as ⟨b, k⟩)
      (fun _ o' => ∃ b', CSt H E o' al b' (xs.take k ++ vs ++ xs.drop k))
      (fun e o' => ∃ b' xs', CSt H E o' al b' xs' ∧
        (Strong E → ∃ j, j ≤ vs.length ∧ xs' = xs.take k ++ vs.take j ++ xs.drop k) ∧
        (e = .lengthError → E.maxSize < xs.length + vs.length))
      o := by
  induction as generalizing vs with
  | nil =>
    intro o xs b k h hk
    have hv : vs = [] := by have := hx.length; simpa using this.symm
    subst hv
    unfold CompactVector.insertRangeLoop
    rw [wp_pure]
    exact ⟨b, by simpa using h⟩
  | cons a as ih =>
    intro o xs b k h hk
    obtain ⟨v, vs', rfl, h1, h2, h3⟩ := hx.cons
    obtain ⟨t1, t2⟩ := take_insert_drop (v := v) hk
    unfold CompactVector.insertRangeLoop
    rw [wp_bind]
    refine wp_mono (emplace_spec h (h2 _ h.st.agree) h1 hk) ?_ ?_
    · rintro p o1 ⟨b1, hd, rfl⟩
      have hl1 : (xs.take k ++ v :: xs.drop k).length = xs.length + 1 := by simp; omega
      have hadd : (⟨b1, k⟩ : Ptr).add 1 = ⟨b1, k + 1⟩ := rfl
      rw [hadd]
      refine wp_mono (ih h3 hd (k := k + 1) (by rw [hl1]; omega)) ?_ ?_
      · rintro _ o2 ⟨b2, k1⟩
        rw [t1, t2] at k1
        exact ⟨b2, by simpa using k1⟩
      · rintro e o2 ⟨b2, xs', k1, k2, k3⟩
        rw [t1, t2] at k2
        rw [hl1] at k3
        refine ⟨b2, xs', k1, fun hs => ?_, fun he => by have := k3 he; simp; omega⟩
        obtain ⟨j, hj, e⟩ := k2 hs
        exact ⟨j + 1, by simpa using hj, by simpa using e⟩
    · rintro e o1 ⟨⟨xs', k1, k2, k3⟩, k4⟩
      exact ⟨b, xs', k1, fun hs => ⟨0, by simp, by simpa using k3 hs⟩, fun he => by have := k4 he; simp; omega⟩

theorem insertRangeInput_spec {vs : List α} {k : Nat} (h : CSt H E o al b xs) (hk : k ≤ xs.length) :
    wp (CompactVector.insertRangeInput E ⟨b, k⟩ vs)
      (fun p o' => ∃ b', CSt H E o' al b' (xs.take k ++ vs ++ xs.drop k) ∧ p = ⟨b', k⟩)
      (fun e o' => ∃ b' xs', CSt H E o' al b' xs' ∧
        (Strong E → ∃ j, j ≤ vs.length ∧ xs' = xs.take k ++ vs.take j ++ xs.drop k) ∧
        (e = .lengthError → E.maxSize < xs.length + vs.length))
      o := by
  unfold CompactVector.insertRangeInput
  simp only [wp_bind, wp_getObj, wp_assert, wp_pure]
  refine ⟨by rw [h.obj]; exact ⟨rfl, by simp, hk⟩, ?_⟩
  refine wp_mono (insertRangeLoop_spec (Exts.vals vs) h hk) ?_ (fun _ _ h => h)
  rintro _ o' ⟨b', k1⟩
  refine ⟨b', k1, ?_⟩
  rw [k1.obj, h.obj]; simp [Ptr.add]

theorem eraseIf_spec {f : α → Bool} (h : CSt H E o al b xs) :
    wp (CompactVector.eraseIf E f)
      (fun r o' => ∃ b', CSt H E o' al b' (xs.filter (fun x => !f x)) ∧
        r = xs.length - (xs.filter (fun x => !f x)).length)
      (fun e o' => ∃ xs', CSt H E o' al b xs' ∧ xs'.length = xs.length ∧ e ≠ .lengthError)
      o := by
  unfold CompactVector.eraseIf
  rw [wp_bind, wp_getObj, wp_bind, h.obj]
  refine wp_mono (removeIf_spec h) ?_ ?_
  · rintro p o1 ⟨ys, h1, h2, -, rfl, h4⟩
    rw [← h2] at h1
    have hfl : (xs.filter (fun x => !f x)).length ≤ xs.length := List.length_filter_le _ _
    rw [wp_bind, wp_getObj, wp_bind, h1.obj]
    refine wp_distance rfl (by simp; omega) ?_
    rw [wp_bind]
    refine wp_mono (eraseRange_spec (k := (xs.filter (fun x => !f x)).length) (l := ys.length) h1 (by omega) (by omega)) ?_ ?_
    · rintro p o2 ⟨b2, k1, -⟩
      rw [wp_pure]
      rw [h4] at k1
      simp only [List.drop_length, List.append_nil] at k1
      exact ⟨b2, k1, by simp [h2]⟩
    · rintro e o2 ⟨⟨xs', k1, k2, -⟩, k3, -⟩
      exact ⟨xs', k1, by omega, k3⟩
  · rintro e o1 ⟨xs', k1, k2, -, rfl, -⟩
    rw [← k2] at k1
    exact ⟨xs', k1, k2, by simp⟩

theorem index_spec {k : Nat} {x : α} {X : Exn → Obj Vec α → Prop} (h : CSt H E o al b xs) (hk : xs[k]? = some x) :
    wp (CompactVector.index k) (fun r o' => r = x ∧ o' = o) X o := by
  have hlt : k < xs.length := (List.getElem?_eq_some_iff.mp hk).1
  unfold CompactVector.index
  rw [wp_bind, wp_getObj, wp_bind]
  refine wp_size h ?_
  rw [wp_bind, wp_assert, wp_lift]
  refine ⟨hlt, ?_⟩
  rw [show o.obj.first = ⟨b, 0⟩ by rw [h.obj]]
  refine wp_readAt (v := x) ?_ ⟨rfl, rfl⟩
  simp [Ptr.add, h.cells, hk]

end CompactVector
end Sfl
