import Verif.PropVector
import Verif.Capacity
/-
  Properties of sfl::vector (C05-C08): growth, cost of appending, aliasing arguments, stable references.
-/

namespace Sfl
open Sq
variable {α : Type}

/-! ### C05: length_error -/

/-- **C05**, whole operations: an operation that succeeds did not need more than `max_size` elements, and an operation
throws length_error only if it did. -/
theorem vector_length_error {E : Env α} {al : Nat} {m0 : St α} {o : Obj Vec α} (hw : m0.Wf)
    (hr : Vector.Reachable E al m0 o) {op : Sq.Op α} {n : Nat} {o1 : Obj Vec α} (hn : Vector.size o = .ok n o1)
    (hp : op.pre n = true) :
    (∀ r o', Vector.exec E op o = .ok r o' → op.room n ≤ E.maxSize) ∧
    (∀ o', Vector.exec E op o = .exn .lengthError o' → E.maxSize < op.room n) := by
  obtain ⟨xs, b, cap, h⟩ := hr.repr hw
  obtain rfl := h.size_eq hn
  have hs := Vector.exec_spec op h hp
  have hcl := h.capLe
  have hlen := h.len
  refine ⟨fun r o' hx => ?_, fun o' hx => ?_⟩
  · obtain ⟨b', cap', xs', k1, k2, k3⟩ := wp_ok hx hs
    have l1 := k1.v.len
    have l2 := k1.v.capLe
    cases op with
    | reserve m =>
      refine wp_ok (Q := fun _ _ => m ≤ E.maxSize) (X := fun _ _ => True) hx ?_
      simp only [Vector.exec, wp_bind]
      rw [← SmallVector.reserve_zero]
      refine wp_mono (reserve_spec h) ?_ (fun _ _ _ => trivial)
      rintro _ o'' ⟨b'', cap'', q1, q2, -⟩
      have := q1.capLe
      rw [wp_pure]
      omega
    | _ =>
      simp only [Op.Result] at k2
      simp only [Op.room, Op.pre] at *
      first
      | (obtain ⟨v, -, k2⟩ := k2; simp [k2] at l1; omega)
      | (simp [k2] at l1; omega)
      | omega
  · obtain ⟨b', cap', xs', k1, k2⟩ := wp_exn hx hs
    exact k2.len rfl

/-! ### C06: cost of appending -/

theorem emplaceBackAll_cost {E : Env α} {H : Heap α} {al : Nat} {vs : List α} :
    ∀ {o : Obj Vec α} {xs : List α} {b cap : Nat}, VSt H E 0 0 o al b cap xs →
    wp (SmallVector.emplaceBackAll E 0 0 (vs.map .val))
      (fun _ o' => ∃ b' cap', VSt H E 0 0 o' al b' cap' (xs ++ vs) ∧ cap ≤ cap' ∧
        (cap' = cap ∨ 2 * cap' ≤ 3 * (xs.length + vs.length)) ∧
        o'.m.tick ≤ o.m.tick + 2 * vs.length + 3 * (cap' - cap) +
          (if cap < E.maxSize ∧ cap' = E.maxSize then xs.length + vs.length else 0))
      (fun _ _ => True)
      o := by
  induction vs with
  | nil =>
    intro o xs b cap h
    unfold SmallVector.emplaceBackAll
    simp only [List.map_nil]
    rw [wp_pure]
    exact ⟨b, cap, by simpa using h, Nat.le_refl _, Or.inl rfl, by simp⟩
  | cons v vs ih =>
    intro o xs b cap h
    simp only [List.map_cons]
    unfold SmallVector.emplaceBackAll
    rw [wp_bind]
    refine wp_mono (emplaceBack_spec h (v := v) rfl rfl) ?_ (fun _ _ _ => trivial)
    rintro p o1 ⟨b1, cap1, hd, -, ht1, ht2⟩
    refine wp_mono (ih hd.v) ?_ (fun _ _ _ => trivial)
    rintro _ o2 ⟨b2, cap2, k1, k2, k3, k4⟩
    have hl := h.len
    have hl1 := hd.v.len
    have hl2 := k1.len
    have hm := k1.capLe
    have hm1 := hd.v.capLe
    refine ⟨b2, cap2, by simpa using k1, ?_⟩
    have hk := hd.keep
    simp only [List.length_append, List.length_cons, List.length_nil] at *
    by_cases hf : xs.length < cap
    · obtain ⟨e1, e2⟩ := hk (by omega)
      subst e2
      have := ht1 hf
      refine ⟨by omega, by omega, ?_⟩
      split at k4 <;> split <;> omega
    · obtain ⟨e1, e2⟩ := ht2 (by omega)
      unfold SmallVector.newCapacity at e1
      have hx : xs.length = cap := by omega
      split at e1
      · cases e1
      · split at e1
        · simp only [Option.some.injEq] at e1
          refine ⟨by omega, by omega, ?_⟩
          split at k4 <;> split <;> omega
        · have e3 : cap1 = max (cap + cap / 2) (cap + 1) := by
            split at e1 <;> simp only [Option.some.injEq] at e1 <;> omega
          refine ⟨by omega, by omega, ?_⟩
          split at k4 <;> split <;> omega

/-- **C06.** Appending the `k` elements `vs` one after the other performs at most `8 * (size + k)` potentially throwing
operations (element constructions and allocations), the limit `max_size` included. -/
theorem vector_append_linear {E : Env α} {al : Nat} {m0 : St α} {o o' : Obj Vec α} (hw : m0.Wf)
    (hr : Vector.Reachable E al m0 o) {n : Nat} {o1 : Obj Vec α} (hn : Vector.size o = .ok n o1) {vs : List α}
    (hx : Vector.emplaceBackAll E (vs.map .val) o = .ok () o') :
    o'.m.tick ≤ o.m.tick + 8 * (n + vs.length) := by
  obtain ⟨xs, b, cap, h⟩ := hr.repr hw
  obtain rfl := h.size_eq hn
  rw [← SmallVector.emplaceBackAll_zero] at hx
  obtain ⟨b', cap', k1, k2, k3, k4⟩ := wp_ok hx (emplaceBackAll_cost h)
  split at k4 <;> omega

/-- Ten appends to the vector with two elements. -/
example : ∃ o1 o', Vector.Reachable (Demo.env []) 3 Demo.m1 (Demo.v (Demo.env [])) ∧
    Vector.size (Demo.v (Demo.env [])) = .ok 2 o1 ∧
    Vector.emplaceBackAll (Demo.env []) ([1, 2, 3, 4, 5, 6, 7, 8, 9, 10].map .val) (Demo.v (Demo.env [])) = .ok () o' := by
  obtain ⟨o', h⟩ := Demo.ok_of (r := Vector.emplaceBackAll (Demo.env []) ([1, 2, 3, 4, 5, 6, 7, 8, 9, 10].map .val)
    (Demo.v (Demo.env []))) (b := ()) (by decide +kernel)
  exact ⟨_, o', Demo.v_reachable _, rfl, h⟩

/-! ### C07: aliasing arguments -/

/-- **C07.** Each operation that takes a value, called with a reference to element `i` of the same vector: no
undefined behaviour, and if it succeeds the result is the documented one for the value the element had. -/
theorem vector_alias {E : Env α} {al : Nat} {m0 : St α} {o : Obj Vec α} (hw : m0.Wf)
    (hr : Vector.Reachable E al m0 o) {xs : List α} {o1 : Obj Vec α} (hc : (Vector.impl E).contents o = .ok xs o1)
    {i k n : Nat} {v : α} (hv : xs[i]? = some v) (hk : k ≤ xs.length) :
    ∀ op res, (op, res) ∈
      [(Op.pushBack (Src.elem i), xs ++ [v]),
       (Op.emplace k (Src.elem i), xs.take k ++ [v] ++ xs.drop k),
       (Op.insertN k n (Src.elem i), xs.take k ++ List.replicate n v ++ xs.drop k),
       (Op.resizeV n (Src.elem i), xs.take n ++ List.replicate (n - xs.length) v)] →
      (∀ r o', Vector.exec E op o = .ok r o' → (Vector.impl E).contents o' = .ok res o') ∧
      (∀ u, Vector.exec E op o ≠ .ub u) := by
  obtain ⟨xs', b, cap, h⟩ := hr.repr hw
  have C := Vector.correct (Heap.around m0 0) E al
  obtain ⟨ys, o2, c1, e1, e2⟩ := wp_elim (C.contents (xs := xs') ⟨b, cap, h⟩)
  obtain rfl : xs = xs' := by
    rw [c1] at hc
    injection hc with hc1 _
    rw [← e1, hc1]
  have hi : i < xs.length := by
    by_cases hi : i < xs.length
    · exact hi
    · rw [List.getElem?_eq_none (by omega)] at hv; cases hv
  have main : ∀ op res, op.pre xs.length = true → (∀ r, op.Result E.dflt xs r → r = res) →
      (∀ r o', Vector.exec E op o = .ok r o' → (Vector.impl E).contents o' = .ok res o') ∧
      (∀ u, Vector.exec E op o ≠ .ub u) := by
    intro op res hp hres
    refine ⟨?_, fun u => wp_not_ub (Vector.exec_spec op h hp)⟩
    intro r o' hx
    obtain ⟨b', cap', zs, k1, k2, k3⟩ := wp_ok hx (Vector.exec_spec op h hp)
    obtain ⟨_, _, c2, rfl, rfl⟩ := wp_elim (C.contents (xs := zs) ⟨b', cap', k1.v⟩)
    rw [c2, hres _ k2]
  intro op res hm
  simp only [List.mem_cons, List.not_mem_nil, or_false, Prod.mk.injEq] at hm
  rcases hm with ⟨rfl, rfl⟩ | ⟨rfl, rfl⟩ | ⟨rfl, rfl⟩ | ⟨rfl, rfl⟩ 
  all_goals
    refine main _ _ ?_ ?_
    · simp only [Op.pre, Src.ok, hi, hk, decide_true, Bool.and_self]
    rintro r ⟨w, h1, h2⟩
    have : w = v := by simp only [Src.get?] at h1; rw [hv] at h1; cases h1; rfl
    subst this
    exact h2

/-- `insert(begin(), 2, v[1])` on the vector 5, 6, with reallocation. -/
example : ∃ o1 r o', Vector.Reachable (Demo.env []) 3 Demo.m1 (Demo.v (Demo.env [])) ∧
    (Vector.impl (Demo.env [])).contents (Demo.v (Demo.env [])) = .ok [5, 6] o1 ∧
    Vector.exec (Demo.env []) (.insertN 0 2 (.elem 1)) (Demo.v (Demo.env [])) = .ok r o' := by
  refine ⟨_, _, _, Demo.v_reachable _, rfl, rfl⟩

/-! ### C08: reserve, appends in place, shrink_to_fit -/

/-- **C08**, reserve: afterwards `capacity() >= n` and the elements are the same. -/
theorem vector_reserve_capacity {E : Env α} {al : Nat} {m0 : St α} {o o' : Obj Vec α} (hw : m0.Wf)
    (hr : Vector.Reachable E al m0 o) {n : Nat} (hx : Vector.reserve E n o = .ok () o') :
    ∃ xs c, (Vector.impl E).contents o = .ok xs o ∧ (Vector.impl E).contents o' = .ok xs o' ∧
      Vector.capacity o' = .ok c o' ∧ n ≤ c := by
  obtain ⟨xs, b, cap, h⟩ := hr.repr hw
  have C := Vector.correct (Heap.around m0 0) E al
  rw [← SmallVector.reserve_zero] at hx
  obtain ⟨b', cap', k1, k2, -⟩ := wp_ok hx (reserve_spec h)
  obtain ⟨_, _, c1, rfl, rfl⟩ := wp_elim (C.contents (xs := xs) ⟨b, cap, h⟩)
  obtain ⟨_, _, c2, rfl, rfl⟩ := wp_elim (C.contents (xs := _) ⟨b', cap', k1⟩)
  obtain ⟨_, _, c3, rfl, rfl⟩ := wp_elim (wp_capacity (Q := fun n o1 => n = cap' ∧ o1 = _) k1.obj ⟨rfl, rfl⟩)
  exact ⟨_, _, c1, c2, c3, k2⟩

example : ∃ o', Vector.Reachable (Demo.env []) 3 Demo.m1 (Demo.v (Demo.env [])) ∧
    Vector.reserve (Demo.env []) 20 (Demo.v (Demo.env [])) = .ok () o' := by
  refine ⟨_, Demo.v_reachable _, rfl⟩

theorem appends_in_place {E : Env α} {H : Heap α} {al ib N : Nat} {vs : List α} :
    ∀ {o : Obj Vec α} {xs : List α} {b cap : Nat}, VSt H E ib N o al b cap xs → xs.length + vs.length ≤ cap →
    wp (SmallVector.emplaceBackAll E ib N (vs.map .val))
      (fun _ o' => VSt H E ib N o' al b cap (xs ++ vs) ∧ o'.m.next = o.m.next)
      (fun e o' => e = .elem ∧ ∃ k, k ≤ vs.length ∧ VSt H E ib N o' al b cap (xs ++ vs.take k) ∧ o'.m.next = o.m.next)
      o := by
  induction vs with
  | nil =>
    intro o xs b cap h _
    unfold SmallVector.emplaceBackAll
    simp only [List.map_nil]
    rw [wp_pure]
    exact ⟨by simpa using h, rfl⟩
  | cons v vs ih =>
    intro o xs b cap h hc
    simp only [List.length_cons] at hc
    simp only [List.map_cons]
    unfold SmallVector.emplaceBackAll
    rw [wp_bind]
    refine wp_mono (emplaceBack_spec h (v := v) rfl rfl) ?_ ?_
    · rintro p o1 ⟨b1, cap1, hd, -⟩
      obtain ⟨rfl, rfl⟩ := hd.keep (by simp; omega)
      have hn : o1.m.next = o.m.next := by
        rcases hd.next with h0 | h0
        · exact h0
        · simp at h0; omega
      refine wp_mono (ih hd.v (by simp; omega)) ?_ ?_
      · rintro _ o2 ⟨k1, k2⟩
        exact ⟨by simpa using k1, k2.trans hn⟩
      · rintro e o2 ⟨rfl, k, k1, k2, k3⟩
        exact ⟨rfl, k + 1, by simpa using k1, by simpa using k2, k3.trans hn⟩
    · rintro e o1 ⟨xs', k1, -, -, k2, -⟩
      obtain ⟨rfl, rfl⟩ := k2 (by omega)
      refine ⟨rfl, 0, by simp, by simpa using k1.v, ?_⟩
      rcases k1.next with h0 | h0
      · exact h0
      · omega

/-- The memory of two states of a vector with the same storage agrees where their elements agree. -/
theorem VSt.mem_eq {E : Env α} {H : Heap α} {al ib N b cap : Nat} {o o' : Obj Vec α} {xs ys : List α}
    (h : VSt H E ib N o al b cap xs) (h' : VSt H E ib N o' al b cap ys) {c i : Nat} (hi : c = b → xs[i]? = ys[i]?) :
    o'.m.mem c i = o.m.mem c i := by
  by_cases hb : c = b
  · rw [hb, h.cells, h'.cells, hi hb]
  by_cases hib : c = ib
  · rw [hib, h.st.iraw (by rw [← hib]; exact Ne.symm hb), h'.st.iraw (by rw [← hib]; exact Ne.symm hb)]
  rw [h.st.fmem c hb hib, h'.st.fmem c hb hib]

/-- **C08**, appends: while they fit the capacity, appending any number of elements, even if one of the constructions
throws, allocates nothing (`next` and `blk` unchanged), leaves the storage where it is and changes no memory cell
except the free slots behind the last element. The only exception possible is the one of an element's constructor. -/
theorem vector_appends_in_place {E : Env α} {al : Nat} {m0 : St α} {o : Obj Vec α} (hw : m0.Wf)
    (hr : Vector.Reachable E al m0 o) {n c : Nat} {o1 o2 : Obj Vec α} (hn : Vector.size o = .ok n o1)
    (hc : Vector.capacity o = .ok c o2) {vs : List α} (hfit : n + vs.length ≤ c) :
    wp (Vector.emplaceBackAll E (vs.map .val))
      (fun _ o' => o'.obj.first = o.obj.first ∧ o'.obj.eos = o.obj.eos ∧ o'.m.next = o.m.next ∧ o'.m.blk = o.m.blk ∧
        ∀ d i, ¬ (d = o.obj.first.blk ∧ n ≤ i ∧ i < n + vs.length) → o'.m.mem d i = o.m.mem d i)
      (fun e o' => e = .elem ∧
        o'.obj.first = o.obj.first ∧ o'.obj.eos = o.obj.eos ∧ o'.m.next = o.m.next ∧ o'.m.blk = o.m.blk ∧
        ∀ d i, ¬ (d = o.obj.first.blk ∧ n ≤ i ∧ i < n + vs.length) → o'.m.mem d i = o.m.mem d i)
      o := by
  obtain ⟨xs, b, cap, h⟩ := hr.repr hw
  obtain rfl := h.size_eq hn
  have hcap : c = cap := by
    have := wp_capacity (Q := fun n _ => n = cap) (X := fun _ _ => False) h.obj rfl
    rw [wp, hc] at this
    exact this
  subst hcap
  have key : ∀ o' k, VSt (Heap.around m0 0) E 0 0 o' al b c (xs ++ vs.take k) → k ≤ vs.length →
      o'.obj.first = o.obj.first ∧ o'.obj.eos = o.obj.eos ∧ o'.m.blk = o.m.blk ∧
      ∀ d i, ¬ (d = o.obj.first.blk ∧ xs.length ≤ i ∧ i < xs.length + vs.length) → o'.m.mem d i = o.m.mem d i := by
    intro o' k h' hk
    refine ⟨by rw [h'.obj, h.obj], by rw [h'.obj, h.obj], h.blk_eq h', ?_⟩
    intro d i hd
    refine h.mem_eq h' ?_
    intro hdb
    rw [h.obj] at hd
    simp only [hdb, true_and] at hd
    by_cases hi : i < xs.length
    · rw [List.getElem?_append_left hi]
    · rw [List.getElem?_append_right (by omega), List.getElem?_eq_none (by omega),
        List.getElem?_eq_none (by simp; omega)]
  rw [← SmallVector.emplaceBackAll_zero]
  refine wp_mono (appends_in_place h hfit) ?_ ?_
  · rintro _ o' ⟨k1, k2⟩
    obtain ⟨a1, a2, a3, a4⟩ := key o' vs.length (by simpa using k1) (Nat.le_refl _)
    exact ⟨a1, a2, k2, a3, a4⟩
  · rintro e o' ⟨rfl, k, k0, k1, k2⟩
    obtain ⟨a1, a2, a3, a4⟩ := key o' k k1 k0
    exact ⟨rfl, a1, a2, k2, a3, a4⟩

example : ∃ o1 o2, Vector.Reachable (Demo.env []) 3 Demo.m1 (Demo.v (Demo.env [])) ∧
    Vector.size (Demo.v (Demo.env [])) = .ok 2 o1 ∧ Vector.capacity (Demo.v (Demo.env [])) = .ok 3 o2 ∧
    2 + [9].length ≤ 3 := by
  refine ⟨_, _, Demo.v_reachable _, rfl, rfl, by decide⟩

/-- **C08**, shrink_to_fit: afterwards `capacity() == size()` and the elements are the same. -/
theorem vector_shrinkToFit_capacity {E : Env α} {al : Nat} {m0 : St α} {o o' : Obj Vec α} (hw : m0.Wf)
    (hr : Vector.Reachable E al m0 o) (hx : Vector.shrinkToFit E o = .ok () o') :
    ∃ xs, (Vector.impl E).contents o = .ok xs o ∧ (Vector.impl E).contents o' = .ok xs o' ∧
      Vector.capacity o' = .ok xs.length o' := by
  obtain ⟨xs, b, cap, h⟩ := hr.repr hw
  have C := Vector.correct (Heap.around m0 0) E al
  rw [← SmallVector.shrinkToFit_zero h] at hx
  obtain ⟨b', cap', k1, k2, -⟩ := wp_ok hx (shrinkToFit_spec h)
  have hc : cap' = xs.length := by
    rcases k2 with h0 | ⟨h0, h1, -⟩
    · omega
    · simp [h0, h1]
  subst hc
  obtain ⟨_, _, c1, rfl, rfl⟩ := wp_elim (C.contents (xs := xs) ⟨b, cap, h⟩)
  obtain ⟨_, _, c2, rfl, rfl⟩ := wp_elim (C.contents (xs := _) ⟨b', _, k1⟩)
  obtain ⟨_, _, c3, rfl, rfl⟩ := wp_elim (wp_capacity (Q := fun n o1 => n = _ ∧ o1 = _) k1.obj ⟨rfl, rfl⟩)
  exact ⟨_, c1, c2, c3⟩

example : ∃ o', Vector.Reachable (Demo.env []) 3 Demo.m1 (Demo.v (Demo.env [])) ∧
    Vector.shrinkToFit (Demo.env []) (Demo.v (Demo.env [])) = .ok () o' := by
  refine ⟨_, Demo.v_reachable _, rfl⟩

end Sfl
