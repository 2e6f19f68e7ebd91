import Verif.SegCompare
import Verif.Devector
import Verif.DevSpec
import Verif.SegWorld
import Verif.SegDevWorld
import Verif.CompactVector
/-
  Access to elements: iterators, nth, index_of, at, operator[], front, back, size, empty.
-/

namespace Sfl
variable {α : Type}

/-! ### Specification -/

/-- The functions of a container that find elements: iterators with their operations, and the member functions. -/
structure Walker (V α : Type) where
  It : Type
  size : M (Obj V α) Nat
  isEmpty : M (Obj V α) Bool
  first : M (Obj V α) It
  last : M (Obj V α) It
  same : It → It → Bool
  inc : It → M (Obj V α) It
  dec : It → M (Obj V α) It
  get : It → M (Obj V α) α
  nth : Nat → M (Obj V α) It
  indexOf : It → M (Obj V α) (Option Nat)

/-- `for (; it != last; ++it) use(*it);` at most `fuel` rounds. -/
def Walker.forward {V : Type} (w : Walker V α) (last : w.It) : Nat → w.It → M (Obj V α) (List α)
  | 0, _ => fun _ => .ub .badRange
  | n + 1, it =>
    if w.same it last = true then pure []
    else do
      let x ← w.get it
      let it ← w.inc it
      let xs ← w.forward last n it
      pure (x :: xs)

/-- `while (it != first) use(*--it);` at most `fuel` rounds; what a reverse_iterator does. -/
def Walker.backward {V : Type} (w : Walker V α) (first : w.It) : Nat → w.It → M (Obj V α) (List α)
  | 0, _ => fun _ => .ub .badRange
  | n + 1, it =>
    if w.same it first = true then pure []
    else do
      let it ← w.dec it
      let x ← w.get it
      let xs ← w.backward first n it
      pure (x :: xs)

/-- The iterators of a container in the state `o` visit exactly the elements `xs`, in both directions, and the positions
`0, …, size()` correspond to the iterators from `begin()` to `end()`; nothing changes. -/
structure Walker.Visits {V : Type} (w : Walker V α) (o : Obj V α) (xs : List α) : Prop where
  size : w.size o = .ok xs.length o
  isEmpty : w.isEmpty o = .ok (decide (xs = [])) o
  forward : ∃ b e, w.first o = .ok b o ∧ w.last o = .ok e o ∧ w.forward e (xs.length + 1) b o = .ok xs o
  backward : ∃ b e, w.first o = .ok b o ∧ w.last o = .ok e o ∧ w.backward b (xs.length + 1) e o = .ok xs.reverse o
  nth : ∀ k, k ≤ xs.length → ∃ it, w.nth k o = .ok it o ∧ w.indexOf it o = .ok (some k) o ∧
    ∀ x, xs[k]? = some x → w.get it o = .ok x o

/-- The functions that return a reference to an element (here: the element). -/
structure Getter (V α : Type) where
  at' : Nat → M (Obj V α) α
  index : Nat → M (Obj V α) α
  front : M (Obj V α) α
  back : M (Obj V α) α

/-- They find the elements of the list `xs`; `at` throws out_of_range exactly if there is no such element. -/
structure Getter.Gets {V : Type} (g : Getter V α) (o : Obj V α) (xs : List α) : Prop where
  at' : ∀ k x, xs[k]? = some x → g.at' k o = .ok x o
  atThrows : ∀ k, xs.length ≤ k → g.at' k o = .exn .outOfRange o
  index : ∀ k x, xs[k]? = some x → g.index k o = .ok x o
  front : ∀ x, xs.head? = some x → g.front o = .ok x o
  back : ∀ x, xs.getLast? = some x → g.back o = .ok x o

/-! ### Model -/

/-- vector.hpp:343-354 `nth` (small_vector.hpp:396-407, static_vector.hpp:421-432, compact_vector.hpp:347-358 and the flat
containers). -/
def Vector.nthChecked (pos : Nat) : Vector.VM α Ptr := do
  let v ← getObj
  let n ← Vector.size
  M.assert (pos ≤ n)
  pure (v.first.add pos)

/-- vector.hpp:357-361 `index_of` (small_vector.hpp:410-414, static_vector.hpp:435-439, compact_vector.hpp:361-365 and the
flat containers). -/
def Vector.indexOfChecked (pos : Ptr) : Vector.VM α (Option Nat) := do
  let v ← getObj
  M.assert (Vector.InRange v pos)
  let n ← distance v.first pos
  pure (some n)

/-- Iterators (private.hpp:262-437 `normal_iterator`, which wraps a pointer: `*` 317, `++` 328, `--` 341, `==` 397),
`begin`, `end`, `nth`, `index_of`, `empty`, `size` of the contiguous containers whose elements are `[first_, last_)`:
vector.hpp:271-377, small_vector.hpp:324-430, static_vector.hpp:349-461, compact_vector.hpp:275-381,
small_flat_set.hpp:435-541, small_flat_map.hpp:488-594, small_flat_multiset.hpp:435-541, small_flat_multimap.hpp:488-594,
static_flat_set.hpp:283-395, static_flat_map.hpp:337-449, static_flat_multiset.hpp:283-395, static_flat_multimap.hpp:337-449,
small_unordered_flat_set.hpp:427-497, small_unordered_flat_map.hpp:493-563, small_unordered_flat_multiset.hpp:427-497,
small_unordered_flat_multimap.hpp:492-562, static_unordered_flat_set.hpp:270-346, static_unordered_flat_map.hpp:335-411,
static_unordered_flat_multiset.hpp:270-346, static_unordered_flat_multimap.hpp:335-411. -/
def Vector.walker : Walker Vec α where
  It := Ptr
  size := Vector.size
  isEmpty := do let v ← getObj; pure (decide (v.first = v.last))
  first := do let v ← getObj; pure v.first
  last := do let v ← getObj; pure v.last
  same := fun p q => decide (p = q)
  inc := fun p => pure (p.add 1)
  dec := fun p => pure (p.sub 1)
  get := fun p => lift (readAt p)
  nth := Vector.nthChecked
  indexOf := Vector.indexOfChecked

/-- `at`, `operator[]`, `front`, `back`: vector.hpp:510-572, small_vector.hpp:659-721, static_vector.hpp:486-548,
compact_vector.hpp:410-472. The code is the same in all four. -/
def Vector.getter : Getter Vec α where
  at' := Vector.at'
  index := Vector.index
  front := Vector.front
  back := Vector.back

/-- devector.hpp:285-391 and private.hpp:262-437. -/
def Devector.walker : Walker DVec α where
  It := Ptr
  size := Devector.size
  isEmpty := do let v ← getObj; pure (decide (v.first = v.last))
  first := do let v ← getObj; pure v.first
  last := do let v ← getObj; pure v.last
  same := fun p q => decide (p = q)
  inc := fun p => pure (p.add 1)
  dec := fun p => pure (p.sub 1)
  get := fun p => lift (readAt p)
  nth := Devector.nth
  indexOf := Devector.indexOf

/-- devector.hpp:610-672. -/
def Devector.getter : Getter DVec α where
  at' := Devector.at'
  index := Devector.index
  front := Devector.front
  back := Devector.back

/-- segmented_vector.hpp:290-410 and the iterator operations `*` 496, `++` 507, `--` 527, `==` 613 of private.hpp. -/
def SegVec.walker (N : Nat) : Walker SVec α where
  It := SIt
  size := SegVec.size N
  isEmpty := do let v ← getObj; pure (SegVec.empty v)
  first := do let v ← getObj; pure v.first
  last := do let v ← getObj; pure v.last
  same := Seg.eq
  inc := fun p => do let v ← getObj; Seg.inc N v.tab p
  dec := fun p => do let v ← getObj; Seg.dec N v.tab p
  get := fun p => lift (readAt p.loc)
  nth := SegVec.nth N
  indexOf := SegVec.indexOf N

/-- segmented_vector.hpp:453-528. -/
def SegVec.getter (N : Nat) : Getter SVec α where
  at' := SegVec.at' N
  index := SegVec.index N
  front := SegVec.front
  back := SegVec.back N

/-- segmented_devector.hpp:290-397 and the iterator operations `*` 496, `++` 507, `--` 527, `==` 613 of private.hpp. -/
def SegDev.walker (N : Nat) : Walker SDVec α where
  It := SIt
  size := SegDev.size N
  isEmpty := do let v ← getObj; pure (SegDev.empty v)
  first := do let v ← getObj; pure v.first
  last := do let v ← getObj; pure v.last
  same := Seg.eq
  inc := fun p => do let v ← getObj; Seg.inc N v.tab p
  dec := fun p => do let v ← getObj; Seg.dec N v.tab p
  get := fun p => lift (readAt p.loc)
  nth := SegDev.nth N
  indexOf := SegDev.indexOf N

/-- segmented_devector.hpp:459-518. -/
def SegDev.getter (N : Nat) : Getter SDVec α where
  at' := SegDev.at' N
  index := SegDev.index N
  front := SegDev.front
  back := SegDev.back N

/-! ### Proofs -/

/-- `p k` is the iterator at position `k`. -/
structure Walker.Line {V : Type} (w : Walker V α) (o : Obj V α) (xs : List α) (p : Nat → w.It) : Prop where
  size : w.size o = .ok xs.length o
  isEmpty : w.isEmpty o = .ok (decide (xs = [])) o
  first : w.first o = .ok (p 0) o
  last : w.last o = .ok (p xs.length) o
  same : ∀ i j, i ≤ xs.length → j ≤ xs.length → w.same (p i) (p j) = decide (i = j)
  inc : ∀ i, i < xs.length → w.inc (p i) o = .ok (p (i + 1)) o
  dec : ∀ i, i < xs.length → w.dec (p (i + 1)) o = .ok (p i) o
  get : ∀ i x, xs[i]? = some x → w.get (p i) o = .ok x o
  nth : ∀ i, i ≤ xs.length → w.nth i o = .ok (p i) o
  indexOf : ∀ i, i ≤ xs.length → w.indexOf (p i) o = .ok (some i) o

theorem Walker.Line.visits {V : Type} {w : Walker V α} {o : Obj V α} {xs : List α} {p : Nat → w.It} (h : w.Line o xs p) :
    w.Visits o xs where
  size := h.size
  isEmpty := h.isEmpty
  forward := by
    refine ⟨_, _, h.first, h.last, ?_⟩
    have go : ∀ n i, i + n = xs.length → w.forward (p xs.length) (n + 1) (p i) o = .ok (xs.drop i) o := by
      intro n
      induction n with
      | zero =>
        intro i hi
        unfold Walker.forward
        rw [if_pos (by rw [h.same i _ (by omega) (Nat.le_refl _)]; simpa using hi), List.drop_eq_nil_of_le (by omega)]
        rfl
      | succ n ih =>
        intro i hi
        have hlt : i < xs.length := by omega
        unfold Walker.forward
        rw [if_neg (by rw [h.same i _ (by omega) (Nat.le_refl _)]; simp; omega), bind_run (h.get i xs[i] (by simp)),
          bind_run (h.inc i hlt), bind_run (ih (i + 1) (by omega)), List.drop_eq_getElem_cons hlt]
        rfl
    have := go xs.length 0 (by omega)
    rwa [List.drop_zero] at this
  backward := by
    refine ⟨_, _, h.first, h.last, ?_⟩
    have go : ∀ n, n ≤ xs.length → w.backward (p 0) (n + 1) (p n) o = .ok (xs.take n).reverse o := by
      intro n
      induction n with
      | zero =>
        intro hn
        unfold Walker.backward
        rw [if_pos (by rw [h.same 0 0 (by omega) (by omega)]; simp)]
        rfl
      | succ n ih =>
        intro hn
        have hlt : n < xs.length := by omega
        unfold Walker.backward
        rw [if_neg (by rw [h.same (n + 1) 0 (by omega) (by omega)]; simp), bind_run (h.dec n hlt),
          bind_run (h.get n xs[n] (by simp)), bind_run (ih (by omega)), List.take_succ_eq_append_getElem hlt, List.reverse_append]
        rfl
    have := go xs.length (Nat.le_refl _)
    rwa [List.take_length] at this
  nth := fun k hk => ⟨_, h.nth k hk, h.indexOf k hk, h.get k⟩

theorem readAt_run {p : Ptr} {x : α} {s : St α} (h : s.mem p.blk p.off = some x) : readAt p s = .ok x s := by
  unfold readAt; rw [h]

theorem lift_run {V β : Type} {m : M (St α) β} {b : β} {o : Obj V α} (h : m o.m = .ok b o.m) :
    (lift m : M (Obj V α) β) o = .ok b o := by
  unfold lift; rw [h]

section
variable {o : Obj Vec α} {xs : List α}

theorem Vec.Holds.last_eq (h : o.obj.Holds o.m xs) : o.obj.last = o.obj.first.add xs.length := by
  have h1 := h.blk
  have h2 := h.off
  cases hf : o.obj.first
  cases hl : o.obj.last
  rw [hf, hl] at h1 h2
  simp only at h1 h2
  subst h1 h2
  rfl

theorem Vec.Holds.read (h : o.obj.Holds o.m xs) {k : Nat} {x : α} (hk : xs[k]? = some x) :
    (lift (readAt (o.obj.first.add k)) : M (Obj Vec α) α) o = .ok x o := by
  refine lift_run (readAt_run ?_)
  have := h.cells k (List.getElem?_eq_some_iff.mp hk).1
  rw [← hk, ← this]; rfl

theorem Vec.Holds.sz (h : o.obj.Holds o.m xs) : Vector.size o = .ok xs.length o := by
  unfold Vector.size
  rw [bind_run (getObj_run o), distance_run h.blk (by have := h.off; omega)]
  rw [h.off, Nat.add_sub_cancel_left]

theorem Ptr.add_inj {p : Ptr} {i j : Nat} : p.add i = p.add j ↔ i = j := by
  constructor
  · intro h
    have := congrArg Ptr.off h
    simp only [Ptr.add_off] at this
    omega
  · rintro rfl; rfl

theorem Ptr.add_sub_one {p : Ptr} {n : Nat} (h : 0 < n) : (p.add n).sub 1 = p.add (n - 1) := by
  unfold Ptr.add Ptr.sub
  rw [if_pos (by simp only; omega), Nat.add_sub_assoc h]

theorem Vec.Holds.isEmpty (h : o.obj.Holds o.m xs) : o.obj.first = o.obj.last ↔ xs = [] := by
  rw [h.last_eq]
  have : o.obj.first = o.obj.first.add 0 := rfl
  constructor
  · intro e
    rw [this] at e
    have := Ptr.add_inj.mp e
    exact List.length_eq_zero_iff.mp this.symm
  · rintro rfl; rfl

theorem Vec.Holds.line (h : o.obj.Holds o.m xs) : Vector.walker.Line o xs (fun k => o.obj.first.add k) where
  size := h.sz
  isEmpty := by
    show (getObj >>= fun v : Vec => pure (decide (v.first = v.last))) o = _
    rw [bind_run (getObj_run o)]
    have := h.isEmpty
    simp only [this]
    rfl
  first := rfl
  last := by
    show (getObj >>= fun v : Vec => pure v.last) o = _
    rw [bind_run (getObj_run o), h.last_eq]; rfl
  same := fun i j _ _ => by
    show decide (_ = _) = _
    rw [decide_eq_decide]
    exact Ptr.add_inj
  inc := fun i _ => rfl
  dec := fun i _ => by
    show (Res.ok ((o.obj.first.add (i + 1)).sub 1) o : Res _ _) = _
    congr 1
  get := fun i x hx => h.read hx
  nth := fun i hi => by
    show Vector.nthChecked i o = _
    unfold Vector.nthChecked
    rw [bind_run (getObj_run o), bind_run h.sz, bind_run (assert_run hi)]; rfl
  indexOf := fun i hi => by
    show Vector.indexOfChecked _ o = _
    unfold Vector.indexOfChecked
    have h2 := h.off
    rw [bind_run (getObj_run o), bind_run (assert_run ⟨rfl, by simp, by simp; omega⟩),
      bind_run (distance_run (p := o.obj.first) (q := o.obj.first.add i) rfl (by simp) o)]
    simp
    rfl

theorem Vec.Holds.gets (h : o.obj.Holds o.m xs) : Vector.getter.Gets o xs where
  at' := fun k x hk => by
    show Vector.at' k o = _
    unfold Vector.at'
    have hlt := (List.getElem?_eq_some_iff.mp hk).1
    rw [bind_run (getObj_run o), bind_run h.sz, if_neg (by omega), h.read hk]
  atThrows := fun k hk => by
    show Vector.at' k o = _
    unfold Vector.at'
    rw [bind_run (getObj_run o), bind_run h.sz, if_pos hk]; rfl
  index := fun k x hk => by
    show Vector.index k o = _
    unfold Vector.index
    have hlt := (List.getElem?_eq_some_iff.mp hk).1
    rw [bind_run (getObj_run o), bind_run h.sz, bind_run (assert_run hlt), h.read hk]
  front := fun x hx => by
    show Vector.front o = _
    unfold Vector.front
    have hne : xs ≠ [] := by rintro rfl; simp at hx
    rw [bind_run (getObj_run o), bind_run (assert_run (mt h.isEmpty.mp hne))]
    exact h.read (k := 0) (by rw [← List.head?_eq_getElem?]; exact hx)
  back := fun x hx => by
    show Vector.back o = _
    unfold Vector.back
    have hne : xs ≠ [] := by rintro rfl; simp at hx
    have hpos : 0 < xs.length := List.length_pos_iff.mpr hne
    rw [bind_run (getObj_run o), bind_run (assert_run (mt h.isEmpty.mp hne)), h.last_eq]
    rw [Ptr.add_sub_one hpos]
    exact h.read (by rw [← List.getLast?_eq_getElem?]; exact hx)

end

/-- The data members `v` designate the elements `xs` in `s`. -/
def DVec.Holds (s : St α) (v : DVec) (xs : List α) : Prop := Vec.Holds s ⟨v.first, v.last, v.eos, v.alloc⟩ xs

theorem Devector.DSt.designates {H : Heap α} {E : Env α} {o : Obj DVec α} {al b cap f : Nat} {xs : List α}
    (h : Devector.DSt H E o al b cap f xs) : o.obj.Holds o.m xs := by
  refine ⟨by rw [h.obj], by rw [h.obj], fun i _ => ?_⟩
  rw [h.obj]
  exact h.cell i

section
variable {o : Obj DVec α} {xs : List α}

theorem DVec.Holds.last_eq (h : o.obj.Holds o.m xs) : o.obj.last = o.obj.first.add xs.length := by
  have h1 := h.blk
  have h2 := h.off
  cases hf : o.obj.first
  cases hl : o.obj.last
  rw [hf, hl] at h1 h2
  simp only at h1 h2
  subst h1 h2
  rfl

theorem DVec.Holds.read (h : o.obj.Holds o.m xs) {k : Nat} {x : α} (hk : xs[k]? = some x) :
    (lift (readAt (o.obj.first.add k)) : M (Obj DVec α) α) o = .ok x o := by
  refine lift_run (readAt_run ?_)
  have := h.cells k (List.getElem?_eq_some_iff.mp hk).1
  rw [← hk, ← this]; rfl

theorem DVec.Holds.sz (h : o.obj.Holds o.m xs) : Devector.size o = .ok xs.length o := by
  unfold Devector.size
  rw [bind_run (getObj_run o), distance_run h.blk (by have := h.off; omega)]
  rw [h.off, Nat.add_sub_cancel_left]

theorem DVec.Holds.isEmpty (h : o.obj.Holds o.m xs) : o.obj.first = o.obj.last ↔ xs = [] := by
  rw [h.last_eq]
  have : o.obj.first = o.obj.first.add 0 := rfl
  constructor
  · intro e
    rw [this] at e
    have := Ptr.add_inj.mp e
    exact List.length_eq_zero_iff.mp this.symm
  · rintro rfl; rfl

theorem DVec.Holds.line (h : o.obj.Holds o.m xs) : Devector.walker.Line o xs (fun k => o.obj.first.add k) where
  size := h.sz
  isEmpty := by
    show (getObj >>= fun v : DVec => pure (decide (v.first = v.last))) o = _
    rw [bind_run (getObj_run o)]
    have := h.isEmpty
    simp only [this]
    rfl
  first := rfl
  last := by
    show (getObj >>= fun v : DVec => pure v.last) o = _
    rw [bind_run (getObj_run o), h.last_eq]; rfl
  same := fun i j _ _ => by
    show decide (_ = _) = _
    rw [decide_eq_decide]
    exact Ptr.add_inj
  inc := fun i _ => rfl
  dec := fun i _ => by
    show (Res.ok ((o.obj.first.add (i + 1)).sub 1) o : Res _ _) = _
    congr 1
  get := fun i x hx => h.read hx
  nth := fun i hi => by
    show Devector.nth i o = _
    unfold Devector.nth
    rw [bind_run (getObj_run o), bind_run h.sz, bind_run (assert_run hi)]; rfl
  indexOf := fun i hi => by
    show Devector.indexOf _ o = _
    unfold Devector.indexOf
    have h2 : o.obj.last.off = o.obj.first.off + xs.length := h.off
    rw [bind_run (getObj_run o), bind_run (assert_run ⟨rfl, by simp, by simp; omega⟩),
      bind_run (distance_run (p := o.obj.first) (q := o.obj.first.add i) rfl (by simp) o)]
    simp
    rfl

theorem DVec.Holds.gets (h : o.obj.Holds o.m xs) : Devector.getter.Gets o xs where
  at' := fun k x hk => by
    show Devector.at' k o = _
    unfold Devector.at'
    have hlt := (List.getElem?_eq_some_iff.mp hk).1
    rw [bind_run (getObj_run o), bind_run h.sz, if_neg (by omega), h.read hk]
  atThrows := fun k hk => by
    show Devector.at' k o = _
    unfold Devector.at'
    rw [bind_run (getObj_run o), bind_run h.sz, if_pos hk]; rfl
  index := fun k x hk => by
    show Devector.index k o = _
    unfold Devector.index
    have hlt := (List.getElem?_eq_some_iff.mp hk).1
    rw [bind_run (getObj_run o), bind_run h.sz, bind_run (assert_run hlt), h.read hk]
  front := fun x hx => by
    show Devector.front o = _
    unfold Devector.front
    have hne : xs ≠ [] := by rintro rfl; simp at hx
    rw [bind_run (getObj_run o), bind_run (assert_run (mt h.isEmpty.mp hne))]
    exact h.read (k := 0) (by rw [← List.head?_eq_getElem?]; exact hx)
  back := fun x hx => by
    show Devector.back o = _
    unfold Devector.back
    have hne : xs ≠ [] := by rintro rfl; simp at hx
    have hpos : 0 < xs.length := List.length_pos_iff.mpr hne
    rw [bind_run (getObj_run o), bind_run (assert_run (mt h.isEmpty.mp hne)), h.last_eq]
    rw [Ptr.add_sub_one hpos]
    exact h.read (by rw [← List.getLast?_eq_getElem?]; exact hx)

end

section
variable {N : Nat} {o : Obj SVec α} {al tcap : Nat} {V : View} {xs : List α}

theorem SegVec.GSt.empty_eq (h : SegVec.GSt N o al V tcap xs) : SegVec.empty o.obj = decide (xs = []) := by
  have hl := h.len
  unfold SegVec.empty
  rw [h.first_eq, h.last_eq, h.fit.eq hl (Nat.zero_le _), decide_eq_decide]
  exact List.length_eq_zero_iff

theorem SegVec.GSt.read (h : SegVec.GSt N o al V tcap xs) {k : Nat} {x : α} (hk : xs[k]? = some x) :
    (lift (readAt (V.it k).loc) : M (Obj SVec α) α) o = .ok x o := by
  have hl := h.len
  have hlt := (List.getElem?_eq_some_iff.mp hk).1
  refine lift_run (readAt_run ?_)
  rw [← hk]
  exact h.cells k (by have := V.size_le; omega)

theorem SegVec.GSt.line (h : SegVec.GSt N o al V tcap xs) : (SegVec.walker N).Line o xs V.it where
  size := h.size_run
  isEmpty := by
    show (getObj >>= fun v : SVec => pure (SegVec.empty v)) o = _
    rw [bind_run (getObj_run o), h.empty_eq]; rfl
  first := by
    show (getObj >>= fun v : SVec => pure v.first) o = _
    rw [bind_run (getObj_run o), h.first_eq]; rfl
  last := by
    show (getObj >>= fun v : SVec => pure v.last) o = _
    rw [bind_run (getObj_run o), h.last_eq]; rfl
  same := fun i j hi hj => by
    have hl := h.len
    exact h.fit.eq (by omega) (by omega)
  inc := fun i hi => by
    have hl := h.len
    have := h.fit.inc (p := i) (by omega) o
    rw [h.num] at this
    exact this
  dec := fun i hi => by
    have hl := h.len
    have := h.fit.dec (p := i) (by omega) o
    rw [h.num] at this
    exact this
  get := fun i x hx => h.read hx
  nth := fun i hi => h.nth_run hi
  indexOf := fun i hi => h.indexOf_run hi

theorem SegVec.GSt.gets (h : SegVec.GSt N o al V tcap xs) : (SegVec.getter N).Gets o xs where
  at' := fun k x hk => by
    show SegVec.at' N k o = _
    unfold SegVec.at'
    have hl := h.len
    have hlt := (List.getElem?_eq_some_iff.mp hk).1
    rw [bind_run h.size_run, if_neg (by omega), bind_run (h.addressOf_run (by omega))]
    exact h.read hk
  atThrows := fun k hk => by
    show SegVec.at' N k o = _
    unfold SegVec.at'
    rw [bind_run h.size_run, if_pos hk]; rfl
  index := fun k x hk => SegVec.index_run h hk
  front := fun x hx => by
    show SegVec.front o = _
    unfold SegVec.front
    have hne : xs ≠ [] := by rintro rfl; simp at hx
    rw [bind_run (getObj_run o), bind_run (assert_run (by rw [h.empty_eq]; simpa using hne)), h.first_eq]
    exact h.read (k := 0) (by rw [← List.head?_eq_getElem?]; exact hx)
  back := fun x hx => by
    show SegVec.back N o = _
    unfold SegVec.back
    have hl := h.len
    have hne : xs ≠ [] := by rintro rfl; simp at hx
    have hpos : 0 < xs.length := List.length_pos_iff.mpr hne
    have hd := h.fit.dec (p := xs.length - 1) (by omega) o
    rw [h.num, show xs.length - 1 + 1 = xs.length by omega] at hd
    rw [bind_run (getObj_run o), bind_run (assert_run (by rw [h.empty_eq]; simpa using hne)), h.last_eq, bind_run hd]
    exact h.read (by rw [← List.getLast?_eq_getElem?]; exact hx)

end

section
variable {H : Heap α} {N : Nat} {o : Obj SDVec α} {al tcap f : Nat} {V : View} {xs : List α}

theorem SegDev.DSt.first_eq (h : SegDev.DSt H N o al V tcap f xs) : o.obj.first = V.it f := by rw [h.obj]; rfl

theorem SegDev.DSt.last_eq (h : SegDev.DSt H N o al V tcap f xs) : o.obj.last = V.it (f + xs.length) := by rw [h.obj]; rfl

theorem SegDev.DSt.empty_eq (h : SegDev.DSt H N o al V tcap f xs) : SegDev.empty o.obj = decide (xs = []) := by
  have hl := h.len
  unfold SegDev.empty
  rw [h.first_eq, h.last_eq, h.fit.eq hl (by omega), decide_eq_decide]
  rw [← List.length_eq_zero_iff]
  omega

theorem SegDev.DSt.line (h : SegDev.DSt H N o al V tcap f xs) : (SegDev.walker N).Line o xs (fun k => V.it (f + k)) where
  size := h.size_run
  isEmpty := by
    show (getObj >>= fun v : SDVec => pure (SegDev.empty v)) o = _
    rw [bind_run (getObj_run o), h.empty_eq]; rfl
  first := by
    show (getObj >>= fun v : SDVec => pure v.first) o = _
    rw [bind_run (getObj_run o), h.first_eq]; rfl
  last := by
    show (getObj >>= fun v : SDVec => pure v.last) o = _
    rw [bind_run (getObj_run o), h.last_eq]; rfl
  same := fun i j hi hj => by
    have hl := h.len
    show Seg.eq _ _ = _
    rw [h.fit.eq (by omega) (by omega), decide_eq_decide]
    omega
  inc := fun i hi => by
    have hl := h.len
    have := h.fit.inc (p := f + i) (by omega) o
    rw [h.num] at this
    exact this
  dec := fun i hi => by
    have hl := h.len
    have := h.fit.dec (p := f + i) (by omega) o
    rw [h.num] at this
    exact this
  get := fun i x hx => h.read_run hx
  nth := fun i hi => h.nth_run hi
  indexOf := fun i hi => h.indexOf_run hi

theorem SegDev.DSt.gets (h : SegDev.DSt H N o al V tcap f xs) : (SegDev.getter N).Gets o xs where
  at' := fun k x hk => by
    show SegDev.at' N k o = _
    unfold SegDev.at'
    have hl := h.len
    have hlt := (List.getElem?_eq_some_iff.mp hk).1
    have ha := h.fit.adv (p := f) (q := f + k) (n := k) (by omega) (by omega) (by omega) o
    rw [h.num] at ha
    rw [bind_run h.size_run, if_neg (by omega), bind_run (getObj_run o), h.first_eq, bind_run ha]
    exact h.read_run hk
  atThrows := fun k hk => by
    show SegDev.at' N k o = _
    unfold SegDev.at'
    rw [bind_run h.size_run, if_pos hk]; rfl
  index := fun k x hk => h.index_run hk
  front := fun x hx => by
    show SegDev.front o = _
    unfold SegDev.front
    have hne : xs ≠ [] := by rintro rfl; simp at hx
    rw [bind_run (getObj_run o), bind_run (assert_run (by rw [h.empty_eq]; simpa using hne)), h.first_eq]
    exact h.read_run (k := 0) (by rw [← List.head?_eq_getElem?]; exact hx)
  back := fun x hx => by
    show SegDev.back N o = _
    unfold SegDev.back
    have hl := h.len
    have hne : xs ≠ [] := by rintro rfl; simp at hx
    have hpos : 0 < xs.length := List.length_pos_iff.mpr hne
    have hd := h.fit.dec (p := f + (xs.length - 1)) (by omega) o
    rw [h.num, show f + (xs.length - 1) + 1 = f + xs.length by omega] at hd
    rw [bind_run (getObj_run o), bind_run (assert_run (by rw [h.empty_eq]; simpa using hne)), h.last_eq, bind_run hd]
    exact h.read_run (by rw [← List.getLast?_eq_getElem?]; exact hx)

end

end Sfl
