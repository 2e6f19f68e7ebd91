import Verif.CostSegDev7
import Verif.PropSegDev
import Verif.PropSegCost
/-
  C46 and C47 for segmented_devector: what a single modifier costs, and how large the storage gets.
-/

namespace Sfl
open World
variable {α : Type}

namespace SegDev
variable {H : Heap α} {E : Env α} {N al tcap f : Nat} {V : View} {xs : List α} {o : Obj SDVec α}

theorem DSt.size_eq (h : DSt H N o al V tcap f xs) {n : Nat} {o1 : Obj SDVec α} (hn : SegDev.size N o = .ok n o1) : n = xs.length := by
  have := hn.symm.trans h.size_run
  injection this

theorem DSt.front_eq (h : DSt H N o al V tcap f xs) {n : Nat} {o1 : Obj SDVec α} (hn : SegDev.availableFront N o = .ok n o1) : n = f := by
  have := hn.symm.trans h.availableFront_run
  injection this

theorem DSt.back_eq (h : DSt H N o al V tcap f xs) {n : Nat} {o1 : Obj SDVec α} (hn : SegDev.availableBack N o = .ok n o1) :
    n = V.size - (f + xs.length) := by
  have := hn.symm.trans h.availableBack_run
  injection this

theorem DSt.capacity_eq (h : DSt H N o al V tcap f xs) {c : Nat} {o1 : Obj SDVec α} (hc : SegDev.capacity N o = .ok c o1) : c = V.size := by
  have := hc.symm.trans h.capacity_run
  injection this

end SegDev

section
variable {K : Nat} {E : Env α} {N : Nat} {T : Traits} {ra : Dq.Op α → Bool} {rai : Sq.Init α → Bool} {m0 : St α} {i : Fin K}
  {o o' o1 o2 o3 o4 o5 : Obj SDVec α} {n a b c c' : Nat}

/-- **C46**, segmented_devector: a modifier costs at most a constant times the documented number of element operations, and, if there is
no room at the end at which it works, one allocation for every `N` slots that are missing and two more, whatever it throws. Elements are
never moved because the storage grows.

Missing: insert(pos, first, last) with input iterators; see `segmentedDevector_insert_input_quadratic`. -/
theorem segmentedDevector_work_partial (hN : 0 < N) (hw : m0.Wf) (h : Reached (SegDev.cont K E N T ra rai) (SegDev.sem E T) m0 i o)
    (hn : SegDev.size N o = .ok n o1) (ha : SegDev.availableFront N o = .ok a o2) (hb : SegDev.availableBack N o = .ok b o3)
    (op : Dq.Op α) (hp : op.pre n = true) (hop : op.isInsertInput = false) (hx : (SegDev.exec E N ra op o).final = some o') :
    o'.m.tick ≤ o.m.tick + 4 * op.work n + 2 + if op.lack a n b = 0 then 0 else op.lack a n b / N + 2 := by
  obtain ⟨H, al, V, tcap, f, xs, h⟩ := h.segDev hN hw
  obtain rfl := h.size_eq hn
  obtain rfl := h.front_eq ha
  obtain rfl := h.back_eq hb
  have := (SegDev.exec_ends (E := E) (ra := ra) h hp hop o' hx).2
  unfold SegDev.allocs at this
  generalize (if op.lack a xs.length (V.size - (a + xs.length)) = 0 then 0 else op.lack a xs.length (V.size - (a + xs.length)) / N + 2) = r at *
  omega

/-- Inserting a range of input iterators costs at most the number of inserted elements times the number of elements behind the
place, up to constants. -/
theorem segmentedDevector_insert_input (hN : 0 < N) (hw : m0.Wf) (h : Reached (SegDev.cont K E N T ra rai) (SegDev.sem E T) m0 i o)
    (hn : SegDev.size N o = .ok n o1) {k : Nat} (hk : k ≤ n) (ys : List α)
    (hx : (SegDev.exec E N ra (.insertInput k ys) o).final = some o') : o'.m.tick ≤ o.m.tick + ys.length * (n - k + 5) := by
  obtain ⟨H, al, V, tcap, f, xs, h⟩ := h.segDev hN hw
  obtain rfl := h.size_eq hn
  exact (SegDev.exec_insertInput_ends (E := E) (ra := ra) h hk o' hx).2

/-- **C47**, segmented_devector: a modifier adds at most one segment more than it needs for the slots that are missing at the end at
which it works, whatever it throws.

Missing: a bound for whole programs, which does not exist (`segmentedDevector_storage_unbounded`); insert(pos, first, last) with input
iterators. -/
theorem segmentedDevector_storage_partial (hN : 0 < N) (hw : m0.Wf) (h : Reached (SegDev.cont K E N T ra rai) (SegDev.sem E T) m0 i o)
    (hn : SegDev.size N o = .ok n o1) (ha : SegDev.availableFront N o = .ok a o2) (hb : SegDev.availableBack N o = .ok b o3)
    (hc : SegDev.capacity N o = .ok c o4) (op : Dq.Op α) (hp : SegDev.pre n op = true) (hop : op.isInsertInput = false)
    (hx : (SegDev.exec E N ra op o).final = some o') (hc' : SegDev.capacity N o' = .ok c' o5) :
    c' ≤ c + if op.lack a n b = 0 then 0 else op.lack a n b + N := by
  obtain ⟨H, al, V, tcap, f, xs, h⟩ := h.segDev hN hw
  obtain rfl := h.size_eq hn
  obtain rfl := h.front_eq ha
  obtain rfl := h.back_eq hb
  obtain rfl := h.capacity_eq hc
  have hp' : op.pre xs.length = true := by
    cases op with
    | insertRange k ys => simp [SegDev.pre] at hp; simpa [Dq.Op.pre] using hp.1
    | _ => exact hp
  obtain ⟨V', tcap', f', xs', h'⟩ : ∃ V' tcap' f' xs', SegDev.DSt H N o' al V' tcap' f' xs' := by
    have hw := SegDev.exec_spec (E := E) ra op h hp
    cases hm : SegDev.exec E N ra op o with
    | ok r s =>
      rw [hm] at hx; cases hx
      obtain ⟨V', tcap', f', xs', h', -⟩ := wp_ok hm hw
      exact ⟨V', tcap', f', xs', h'⟩
    | exn e s =>
      rw [hm] at hx; cases hx
      obtain ⟨V', tcap', f', xs', h', -⟩ := wp_exn hm hw
      exact ⟨V', tcap', f', xs', h'⟩
    | ub r => rw [hm] at hx; cases hx
  obtain rfl := h'.capacity_eq hc'
  have hs := (SegDev.exec_ends (E := E) (ra := ra) h hp' hop o' hx).1
  have h1 := h.slots
  have h2 := h'.slots
  generalize op.lack a xs.length (V.size - (a + xs.length)) = L at *
  have hmul := Nat.mul_le_mul_right N hs
  rw [Nat.add_mul, h1, h2] at hmul
  unfold SegDev.segs at hmul
  split at hmul
  · omega
  · have := Nat.div_mul_le_self L N
    rw [Nat.add_mul] at hmul
    rw [if_neg (by assumption)]
    generalize L / N * N = q at *
    omega

end

/-- **C47 does not hold** for a segmented_devector used as a queue: `k` rounds of push_back(x) and pop_front() make the capacity at least
`k`, though there is never more than one element. emplace_back gets new segments if there is no room behind the elements, and never
uses the segments before them again (segmented_devector.hpp:711-731, 1412-1502). The container starts empty; nothing throws. -/
theorem segmentedDevector_storage_unbounded {E : Env α} {N al : Nat} {m0 : St α} {ra : Dq.Op α → Bool} (hN : 0 < N) (hw : m0.Wf)
    (hE : ∀ t, E.throws t = false) (x : α) {k : Nat} (hk : k ≤ E.maxSize) : ∃ o0 o c,
    SegDev.construct' E N true .empty ⟨SegDev.blank al, m0⟩ = .ok () o0 ∧
    Used (SegDev.size N) (SegDev.exec E N ra) (fun n op => op.pre n) (fun n op => op.room n) 1 o0 o ∧
    SegDev.size N o = .ok 0 o ∧ SegDev.capacity N o = .ok c o ∧ k ≤ c := by
  have : Silent E := ⟨hE⟩
  have : Allows (fun e => e = .lengthError) .lengthError := ⟨rfl⟩
  have hc := SegDev.construct_spec (E := E) (N := N) (ra := true) (o := ⟨SegDev.blank al, m0⟩) (al := al) .empty hN (SegDev.bare_whole hw) rfl
  cases e0 : SegDev.construct' E N true .empty ⟨SegDev.blank al, m0⟩ with
  | ub u => exact (wp_not_ub hc e0).elim
  | exn e o' =>
    have he := Calm.out (L := fun e => e = .lengthError) _ _ _ e0
    have := (wp_exn e0 hc).1 he
    simp [Sq.Init.result] at this
  | ok u o0 =>
    obtain ⟨V0, tcap0, h0⟩ := wp_ok e0 hc
    simp only [Sq.Init.result] at h0
    suffices ∃ o V tcap, Used (SegDev.size N) (SegDev.exec E N ra) (fun n op => op.pre n) (fun n op => op.room n) 1 o0 o ∧
        SegDev.DSt (SegDev.whole m0) N o al V tcap k [] by
      obtain ⟨o, V, tcap, h1, h2⟩ := this
      exact ⟨o0, o, V.size, rfl, h1, h2.size_run, h2.capacity_run, h2.len⟩
    induction k with
    | zero => exact ⟨o0, V0, tcap0, .refl, h0⟩
    | succ k ih =>
      obtain ⟨o, V, tcap, h1, h2⟩ := ih (by omega)
      obtain ⟨r, o1, o2, V', tcap', ys, e1, k1, hy, e2, k2⟩ := SegDev.round_spec (ra := ra) (x := x) h2 hk
      refine ⟨o2, V', tcap', .step (op := .popFront) (.step (op := .pushBack (.value x)) h1 h2.size_run rfl (Nat.le_refl _) (by rw [e1]; rfl))
        k1.size_run ?_ ?_ (by rw [e2]; rfl), k2⟩
      · rw [hy]; rfl
      · rw [hy]; exact Nat.le_refl _

/-- … and so a queue that never has more than one element fails: here max_size() is 8, the segments have three elements, and after eight
rounds of push_back and pop_front, and nothing throwing, push_back into the empty container throws length_error. -/
theorem segmentedDevector_queue_length_error : ∃ (E : Env Nat) (o : Obj SDVec Nat), (∀ t, E.throws t = false) ∧ E.maxSize = 8 ∧
    Reached (SegDev.cont 2 E 3 Demo.T (fun _ => true) (fun _ => true)) (SegDev.sem E Demo.T) Demo.m1 0 o ∧
    SegDev.size 3 o = .ok 0 o ∧ ∃ o', SegDev.exec E 3 (fun _ => true) (.pushBack (.value 9)) o = .exn .lengthError o' := by
  let E : Env Nat := { Demo.env [] with maxSize := 8 }
  let ops : List (WOp 2 (Dq.Op Nat) (Sq.Init Nat)) :=
    .make 0 7 .empty :: (List.replicate 8 [.op 0 (.pushBack (.value 5)), .op 0 .popFront]).flatten
  have hr := Demo.sdv_reached E ops (by decide +kernel)
  obtain ⟨H, al, V, tcap, f, xs, hv⟩ := hr.segDev (by omega) Demo.m1_wf
  have hn : Demo.show' (SegDev.size 3 (Demo.sdv E ops)) = some 0 := by decide +kernel
  rw [hv.size_run] at hn
  refine ⟨E, Demo.sdv E ops, by simp [E, Demo.env], rfl, hr, ?_, ?_⟩
  · rw [hv.size_run]; rw [Option.some.inj hn]
  have h : (match SegDev.exec E 3 (fun _ => true) (.pushBack (.value 9)) (Demo.sdv E ops) with
    | .exn .lengthError _ => true | _ => false) = true := by decide +kernel
  split at h
  · rename_i o' hx; exact ⟨o', hx⟩
  · simp at h

/-- **C46 does not hold** for insert(pos, first, last) with input iterators of segmented_devector: inserting `p` elements in the middle
of `2 * p` elements moves `p` elements for each of them, although there is room for all of them (segmented_devector.hpp:2303-2317). -/
theorem segmentedDevector_insert_input_quadratic {E : Env α} {N al : Nat} {m0 : St α} {ra : Dq.Op α → Bool} (hN : 0 < N) (hw : m0.Wf)
    (hE : ∀ t, E.throws t = false) (x y : α) {p : Nat} (h0 : 0 < p) (h3 : 3 * p ≤ E.maxSize) : ∃ o0 r0 o b r o',
    SegDev.construct' E N true (.fill (2 * p) x) ⟨SegDev.blank al, m0⟩ = .ok () o0 ∧
    SegDev.exec E N ra (.reserveBack (3 * p)) o0 = .ok r0 o ∧ SegDev.size N o = .ok (2 * p) o ∧
    SegDev.availableBack N o = .ok b o ∧ p ≤ b ∧
    SegDev.exec E N ra (.insertInput p (List.replicate p y)) o = .ok r o' ∧
    (Dq.Op.insertInput p (List.replicate p y)).work (2 * p) = 2 * p ∧
    o.m.tick + p * p ≤ o'.m.tick := by
  have : Silent E := ⟨hE⟩
  have : Allows (fun e => e = .lengthError) .lengthError := ⟨rfl⟩
  have hc := SegDev.construct_spec (E := E) (N := N) (ra := true) (o := ⟨SegDev.blank al, m0⟩) (al := al) (.fill (2 * p) x) hN
    (SegDev.bare_whole hw) rfl
  cases e0 : SegDev.construct' E N true (.fill (2 * p) x) ⟨SegDev.blank al, m0⟩ with
  | ub u => exact (wp_not_ub hc e0).elim
  | exn e o' =>
    have he := Calm.out (L := fun e => e = .lengthError) _ _ _ e0
    have := (wp_exn e0 hc).1 he
    simp [Sq.Init.result] at this
    omega
  | ok u o0 =>
    obtain ⟨V0, tcap0, h⟩ := wp_ok e0 hc
    simp only [Sq.Init.result] at h
    have hl0 : (List.replicate (2 * p) x).length = 2 * p := List.length_replicate
    have hw1 : wp (SegDev.exec E N ra (.reserveBack (3 * p))) (fun _ o' => ∃ V tcap,
        SegDev.DSt (SegDev.whole m0) N o' al V tcap 0 (List.replicate (2 * p) x) ∧ 3 * p ≤ V.size)
        (fun e _ => e = .lengthError → E.maxSize < 3 * p) o0 := by
      have hl := h.len
      show wp (SegDev.reserveBack E N (3 * p) >>= fun _ => pure none) _ _ o0
      unfold SegDev.reserveBack
      simp only [M.bind_assoc]
      rw [wp_bind, SegVec.wp_run h.size_run, wp_bind, SegVec.wp_run h.availableBack_run]
      rw [wp_bind]
      refine SegDev.wp_cases (fun hc => ?_) fun hc => ?_
      · refine wp_mono (SegDev.growStorageBack_spec h) ?_ ?_
        · rintro _ o1 ⟨V, tcap, -, hs, hv, -⟩
          rw [wp_pure]
          exact ⟨V, tcap, hv, by omega⟩
        · rintro e o1 ⟨k, -⟩ he
          have := k he
          omega
      · rw [wp_pure, wp_pure]
        exact ⟨V0, tcap0, h, by omega⟩
    cases e1 : SegDev.exec E N ra (.reserveBack (3 * p)) o0 with
    | ub u => exact (wp_not_ub hw1 e1).elim
    | exn e o' =>
      have := wp_exn e1 hw1 (Calm.out (L := fun e => e = .lengthError) _ _ _ e1)
      omega
    | ok r0 o =>
      obtain ⟨V, tcap, hv, hs⟩ := wp_ok e1 hw1
      have hw2 : wp (SegDev.exec E N ra (.insertInput p (List.replicate p y))) (fun _ o' => o.m.tick + p * p ≤ o'.m.tick)
          (fun _ _ => False) o := by
        have ef : o.obj.first = V.it 0 := by rw [hv.obj]; rfl
        have hF := hv.fit
        have hl := hv.len
        simp only [SegDev.exec, wp_bind]
        refine SegDev.wp_nth hv (k := p) (by omega) ?_
        unfold SegDev.insertRangeInput
        rw [wp_bind, wp_getObj, wp_bind, wp_assert]
        refine ⟨hv.inRange (by omega), ?_⟩
        rw [ef, ← hv.num, wp_bind, SegVec.wp_run (hF.dist (by omega) (by omega) _), Nat.sub_zero, wp_bind, hv.num]
        refine wp_mono (SegDev.insertRangeLoop_low hv (k := p) (ys := List.replicate p y) (by omega) (by omega)
          (by simp only [List.length_replicate]; omega)) ?_ fun _ _ h => h
        rintro _ o2 ⟨h2, ht⟩
        rw [List.length_replicate, hl0, show 2 * p - p = p by omega] at ht
        rw [SegVec.wp_run (h2.nth_run (k := 0 + p) (by simp; omega))]
        exact SegDev.wp_indexOf h2 (by simp; omega) ht
      obtain ⟨r, o', e2, ht⟩ := wp_elim hw2
      refine ⟨o0, r0, o, V.size - 2 * p, r, o', rfl, e1, ?_, ?_, by omega, e2, ?_, ht⟩
      · rw [hv.size_run, hl0]
      · rw [hv.availableBack_run, hl0, Nat.zero_add]
      · simp [Dq.Op.work]; omega

namespace Demo

/-- Six elements in segments of three slots, with two free slots before them and none behind them. -/
def sd6 : Obj SDVec Nat := sdv (env []) six

/-- … after resize_back(12, front()). -/
def sd12 : Obj SDVec Nat := ((SegDev.exec (env []) 3 (fun _ => true) (.resizeBackV 12 (.elem 0)) sd6).final).getD sd6

end Demo

open Demo

/-- `segmentedDevector_work_partial` and `segmentedDevector_insert_input`: push_back costs two operations, one of which is an allocation;
inserting two elements at the second place costs three, at the sixth place four; inserting two input iterators' elements at the sixth
place seven; erasing the second element one; growing to twelve elements nine, three of which are allocations. -/
example : m1.Wf ∧ Reached (SegDev.cont 2 (env []) 3 T (fun _ => true) (fun _ => true)) (SegDev.sem (env []) T) m1 0 sd6 ∧
    (∃ o1, SegDev.size 3 sd6 = .ok 6 o1) ∧ (∃ o1, SegDev.availableFront 3 sd6 = .ok 2 o1) ∧
    (∃ o1, SegDev.availableBack 3 sd6 = .ok 0 o1) ∧
    spent sd6 (SegDev.exec (env []) 3 (fun _ => true) (.pushBack (.elem 0)) sd6) = some 2 ∧
    spent sd6 (SegDev.exec (env []) 3 (fun _ => true) (.insertRange 1 [7, 8]) sd6) = some 3 ∧
    spent sd6 (SegDev.exec (env []) 3 (fun _ => true) (.insertRange 5 [7, 8]) sd6) = some 4 ∧
    spent sd6 (SegDev.exec (env []) 3 (fun _ => true) (.insertInput 5 [7, 8]) sd6) = some 7 ∧
    spent sd6 (SegDev.exec (env []) 3 (fun _ => true) (.eraseAt 1) sd6) = some 1 ∧
    spent sd6 (SegDev.exec (env []) 3 (fun _ => true) (.resizeBackV 12 (.elem 0)) sd6) = some 9 :=
  ⟨m1_wf, sdv_reached _ _ (by decide +kernel), ok_of (by decide +kernel), ok_of (by decide +kernel), ok_of (by decide +kernel),
    by decide +kernel, by decide +kernel, by decide +kernel, by decide +kernel, by decide +kernel, by decide +kernel⟩

/-- `segmentedDevector_storage_partial`: six slots are missing, and the capacity grows from eight to seventeen. -/
example : (∃ o1, SegDev.capacity 3 sd6 = .ok 8 o1) ∧ (∃ o1, SegDev.capacity 3 sd12 = .ok 17 o1) ∧
    (SegDev.exec (env []) 3 (fun _ => true) (.resizeBackV 12 (.elem 0)) sd6).final = some sd12 ∧
    (Dq.Op.resizeBackV 12 (.elem 0) : Dq.Op Nat).lack 2 6 0 = 6 ∧ SegDev.pre 6 (.resizeBackV 12 (.elem 0) : Dq.Op Nat) = true :=
  ⟨ok_of (by decide +kernel), ok_of (by decide +kernel), some_getD _ (by decide +kernel), rfl, by decide⟩

/-- `segmentedDevector_storage_unbounded` for 60 rounds in segments of three. -/
example : ∃ (o : Obj SDVec Nat) (c : Nat), SegDev.size 3 o = .ok 0 o ∧ SegDev.capacity 3 o = .ok c o ∧ 60 ≤ c := by
  obtain ⟨-, o, c, -, -, h1, h2, h3⟩ := segmentedDevector_storage_unbounded (E := env []) (N := 3) (al := 3) (ra := fun _ => true)
    (by decide) m1_wf (fun _ => rfl) 3 (k := 60) (by decide)
  exact ⟨o, c, h1, h2, h3⟩

/-- `segmentedDevector_insert_input_quadratic` for ten elements in segments of three: at least 100 operations. -/
example : ∃ o r o', SegDev.exec (env []) 3 (fun _ => true) (.insertInput 10 (List.replicate 10 (4 : Nat))) o = .ok r o' ∧
    o.m.tick + 100 ≤ o'.m.tick := by
  obtain ⟨-, -, o, -, r, o', -, -, -, -, -, h, -, h'⟩ := segmentedDevector_insert_input_quadratic (E := env []) (N := 3) (al := 3)
    (ra := fun _ => true) (by decide) m1_wf (fun _ => rfl) 3 4 (p := 10) (by decide) (by decide)
  exact ⟨o, r, o', h, h'⟩

end Sfl
