import Verif.PropVector2
/-
  Properties of sfl::small_vector (C11, C12, C14). Every theorem is about the model of the public functions of
  small_vector.hpp (`SmallVector.lean`, dispatched by `SmallVector.impl`), started from a default constructed or
  moved-from object whose internal storage is the block `ib` with `N` slots, in an arbitrary memory.
-/

namespace Sfl
open Sq
variable {α : Type}

/-- How the life of a small_vector begins: default constructed (small_vector.hpp:79-99, 101-121), or in the state in
which a move that steals the heap storage leaves its source (small_vector.hpp:1804-1810, 2030-2036). -/
def SmallVector.Start (ib N al : Nat) (v : Vec) : Prop :=
  v = SmallVector.empty ib N al ∨ v = Vector.empty al

/-- The state of memory and of the small_vector object after some history of operations. -/
def SmallVector.Reachable (E : Env α) (ib N al : Nat) (m0 : St α) (o : Obj Vec α) : Prop :=
  ∃ v0, SmallVector.Start ib N al v0 ∧
    ∃ ops log, (SmallVector.impl E ib N).runOps (fun n op => op.pre n) ops ⟨v0, m0⟩ = .ok log o

theorem SmallVector.Start.repr {E : Env α} {ib N al : Nat} {m0 : St α} {v : Vec} (hr : RawObject m0 ib N)
    (hN : N ≤ E.maxSize) (h : SmallVector.Start ib N al v) :
    ∃ b cap, VSt (Heap.around m0 ib) E ib N ⟨v, m0⟩ al b cap [] := by
  rcases h with rfl | rfl
  · exact ⟨ib, N, VSt.mkEmpty (hr.gone).st hr.raw hN⟩
  · have hz : m0.blk 0 = none := hr.wf.blk_zero
    refine ⟨0, 0, VSt.mk' rfl rfl rfl ?_ (by simp) (fun i => by simp [hr.wf.dead 0 hz]) (by omega) hN⟩
    exact
      { wf := hr.wf
        ibk := hr.blk
        own := Or.inr (Or.inl ⟨rfl, rfl⟩)
        iraw := fun _ => hr.raw
        beyond := fun i _ => hr.wf.dead 0 hz i
        fmem := fun c _ hc i => by simp [Heap.around, hc]
        fblk := fun c _ hc => by simp [Heap.around, hc]
        hmem := fun i => by simp [Heap.around, hr.wf.dead 0 hz]
        hblk := by simp [Heap.around, hz]
        himem := fun i => by simp [Heap.around]
        hiblk := by simp [Heap.around] }

theorem SmallVector.Reachable.repr {E : Env α} {ib N al : Nat} {m0 : St α} {o : Obj Vec α} (hr : RawObject m0 ib N)
    (hN : N ≤ E.maxSize) (h : SmallVector.Reachable E ib N al m0 o) :
    ∃ xs b cap, VSt (Heap.around m0 ib) E ib N o al b cap xs := by
  obtain ⟨v0, hs, ops, log, h⟩ := h
  obtain ⟨b, cap, hi⟩ := hs.repr hr hN
  have := (SmallVector.correct (Heap.around m0 ib) E al ib N).runOps ops _ _ ⟨b, cap, hi⟩
  obtain ⟨ys, ⟨b, cap, hv⟩, _⟩ := wp_ok h this
  exact ⟨ys, b, cap, hv⟩

/-- Destroying a small_vector restores the memory. -/
theorem SmallVector.destroy_restores {E : Env α} {ib N al : Nat} {m0 : St α} (hr : RawObject m0 ib N)
    (o : Obj Vec α) (xs : List α) (h : ∃ b cap, VSt (Heap.around m0 ib) E ib N o al b cap xs) :
    wp (SmallVector.impl E ib N).destroy (fun _ o' => o'.m.mem = m0.mem ∧ o'.m.blk = m0.blk) (fun _ _ => False) o := by
  obtain ⟨b, cap, h⟩ := h
  exact wp_mono (destructor_gone h) (fun _ o' ⟨g, _, _⟩ => g.restored hr) (fun _ _ h => h)

namespace Demo

/-- Memory with an unrelated object (block 1) and the raw internal storage of a small_vector<int, 3> (block 2). -/
def m2 : St Nat where
  mem := fun b i => if b = 1 ∧ i = 0 then some 77 else none
  blk := fun b => if b = 1 then some ⟨1, some 5⟩ else if b = 2 then some ⟨3, none⟩ else none
  next := 3
  tick := 0

theorem m2_raw : RawObject m2 2 3 := by
  refine ⟨⟨by decide, rfl, ?_, ?_⟩, Or.inr rfl, fun i => rfl⟩
  · intro c hc
    have : c ≠ 1 ∧ c ≠ 2 := by simp [m2] at hc; omega
    simp [m2, this.1, this.2]
  · intro c hc i
    have : c ≠ 1 := by
      intro h; subst h; simp [m2] at hc
    simp [m2, this]

end Demo

/-! ### C12, C14: histories -/

/-- **C12, C14.** For every internal capacity `N` (0 included), element type behaviour, exception schedule, memory,
allocator and sequence of operations, starting from a default constructed or a moved-from small_vector: the session
(perform the operations, read all elements, destroy the object) has no undefined behaviour; log and elements are
those of a list on which the same operations are performed; after destruction memory is exactly what it was, in
particular the internal storage is still there (it has not been released). -/
theorem smallVector_session (E : Env α) (ib N al : Nat) (m0 : St α) (hr : RawObject m0 ib N) (hN : N ≤ E.maxSize)
    (v0 : Vec) (hs : SmallVector.Start ib N al v0) (ops : List (Sq.Op α)) :
    ∃ log xs o', (SmallVector.impl E ib N).session (fun n op => op.pre n) ops ⟨v0, m0⟩ = .ok (log, xs) o' ∧
      Run (fun n op => op.pre n) (okStep E) (failStep E) [] ops log xs ∧
      o'.m.mem = m0.mem ∧ o'.m.blk = m0.blk := by
  obtain ⟨b, cap, hi⟩ := hs.repr hr hN
  have := (SmallVector.correct (Heap.around m0 ib) E al ib N).session
    (Fin := fun m => m.mem = m0.mem ∧ m.blk = m0.blk) (SmallVector.destroy_restores hr) ops ⟨b, cap, hi⟩
  obtain ⟨⟨log, xs⟩, o', h1, h2, h3⟩ := wp_elim this
  exact ⟨log, xs, o', h1, h2, h3⟩

/-- small_vector<int, 3>: growing to the heap (the first attempt throws), back to the internal storage. -/
example : Demo.show' ((SmallVector.impl (Demo.env [4]) 2 3).session (fun n op => op.pre n)
    [.pushBack (.value 5), .pushBack (.value 6), .pushBack (.elem 0), .pushBack (.value 8), .pushBack (.value 9),
      .insertN 1 2 (.elem 0), .eraseRange 0 4, .shrinkToFit, .emplace 1 (.elem 0)]
    ⟨SmallVector.empty 2 3 7, Demo.m2⟩) =
    some ([.ok (some 0), .ok (some 1), .ok (some 2), .threw .elem, .ok (some 3), .ok (some 1), .ok (some 0), .ok none,
      .ok (some 1)], [5, 5, 9]) := by decide +kernel

/-- **C14**, basic guarantee: if an operation throws, the object still holds some sequence, which can be read, used
further by any sequence of operations and destroyed, restoring memory. -/
theorem smallVector_basic_guarantee {E : Env α} {ib N al : Nat} {m0 : St α} {o o' : Obj Vec α}
    (hr : RawObject m0 ib N) (hN : N ≤ E.maxSize) (h : SmallVector.Reachable E ib N al m0 o) {op : Sq.Op α} {n : Nat}
    {o1 : Obj Vec α} (hn : Vector.size o = .ok n o1) (hp : op.pre n = true) {e : Exn}
    (hx : SmallVector.exec E ib N op o = .exn e o') :
    ∃ xs xs', (SmallVector.impl E ib N).contents o = .ok xs o ∧ (SmallVector.impl E ib N).contents o' = .ok xs' o' ∧
      op.Failure (Strong E) (NothrowMove E) E.maxSize xs e xs' ∧
      ∀ ops, ∃ log ys o2, (SmallVector.impl E ib N).session (fun n op => op.pre n) ops o' = .ok (log, ys) o2 ∧
        Run (fun n op => op.pre n) (okStep E) (failStep E) xs' ops log ys ∧
        o2.m.mem = m0.mem ∧ o2.m.blk = m0.blk := by
  obtain ⟨xs, b, cap, h⟩ := h.repr hr hN
  obtain rfl := h.size_eq hn
  obtain ⟨b', cap', xs', k1, k2⟩ := wp_exn hx (SmallVector.exec_spec op h hp)
  have C := SmallVector.correct (Heap.around m0 ib) E al ib N
  obtain ⟨_, _, c1, rfl, rfl⟩ := wp_elim (C.contents (xs := xs) ⟨b, cap, h⟩)
  obtain ⟨_, _, c2, rfl, rfl⟩ := wp_elim (C.contents (xs := xs') ⟨b', cap', k1.v⟩)
  refine ⟨_, _, c1, c2, k2, fun ops => ?_⟩
  have := C.session (Fin := fun m => m.mem = m0.mem ∧ m.blk = m0.blk) (SmallVector.destroy_restores hr)
    ops ⟨b', cap', k1.v⟩
  obtain ⟨⟨log, ys⟩, o2, h1, h2, h3⟩ := wp_elim this
  exact ⟨log, ys, o2, h1, h2, h3⟩

/-- A reachable small_vector<int, 3> with three elements in its internal storage. -/
def Demo.sv (E : Env Nat) : Obj Vec Nat :=
  match (SmallVector.impl E 2 3).runOps (fun n op => op.pre n) [.pushBack (.value 5), .pushBack (.value 6),
      .pushBack (.value 7)] ⟨SmallVector.empty 2 3 7, Demo.m2⟩ with
  | .ok _ o => o
  | _ => ⟨SmallVector.empty 2 3 7, Demo.m2⟩

theorem Demo.sv_reachable (E : Env Nat) : SmallVector.Reachable E 2 3 7 Demo.m2 (Demo.sv E) := by
  unfold Demo.sv
  split
  · rename_i log o h
    exact ⟨_, Or.inl rfl, _, log, h⟩
  · exact ⟨_, Or.inl rfl, [], [], rfl⟩

/-- The hypotheses are met: inserting in the middle of the full internal storage, the second move to the new heap
block throws. -/
example : ∃ n o1 e o', SmallVector.Reachable (Demo.env [6]) 2 3 7 Demo.m2 (Demo.sv (Demo.env [6])) ∧
    Vector.size (Demo.sv (Demo.env [6])) = .ok n o1 ∧ (Sq.Op.emplace 1 (.value 8)).pre n = true ∧
    SmallVector.exec (Demo.env [6]) 2 3 (.emplace 1 (.value 8)) (Demo.sv (Demo.env [6])) = .exn e o' := by
  refine ⟨_, _, _, _, Demo.sv_reachable _, rfl, rfl, rfl⟩

/-- **C14**, strong guarantee of reserve, shrink_to_fit and emplace_back: if one of them throws, then the object's
pointers and every memory cell are the same as before, for elements that are nothrow movable or copyable. -/
theorem smallVector_strong {E : Env α} {ib N al : Nat} {m0 : St α} {o o' : Obj Vec α}
    (hr : RawObject m0 ib N) (hN : N ≤ E.maxSize) (h : SmallVector.Reachable E ib N al m0 o)
    (hE : E.nothrowMoveCtor = true ∨ E.copyable = true) {n : Nat} {o1 : Obj Vec α} (hn : Vector.size o = .ok n o1)
    {k : Nat} {s : Src α} (hs : s.ok n = true) {e : Exn}
    (hx : SmallVector.reserve E ib N k o = .exn e o' ∨ SmallVector.shrinkToFit E ib N o = .exn e o' ∨
      SmallVector.emplaceBack E ib N (s.toArg o.obj.first) o = .exn e o') :
    o'.obj = o.obj ∧ o'.m.mem = o.m.mem ∧ o'.m.blk = o.m.blk := by
  obtain ⟨xs, b, cap, h⟩ := h.repr hr hN
  obtain rfl := h.size_eq hn
  rcases hx with hx | hx | hx
  · obtain ⟨xs', k1, _, k2, _⟩ := wp_exn hx (reserve_spec h)
    rw [k2 hE] at k1
    exact h.eq k1
  · obtain ⟨xs', k1, _, k2, _⟩ := wp_exn hx (shrinkToFit_spec h)
    rw [k2 hE] at k1
    exact h.eq k1
  · obtain ⟨v, h1, h2⟩ : ∃ v, (s.toArg o.obj.first).value o.m = some v ∧ (s.toArg o.obj.first).src E = none := by
      have := wp_argOf (Q := fun a o' => a = s.toArg o.obj.first → ∃ v, a.value o.m = some v ∧ a.src E = none)
        (X := fun _ _ => False) h hs (fun a v _ h1 h2 _ => ⟨v, h1, h2⟩)
      exact this rfl
    obtain ⟨xs', k1, _, k2, _⟩ := wp_exn hx (emplaceBack_spec h h1 h2)
    rw [k2 hE] at k1
    exact h.eq k1.v

/-- The hypotheses are met (appending an own element, the second move throws). -/
example : ∃ n o1 e o', SmallVector.Reachable (Demo.env [6]) 2 3 7 Demo.m2 (Demo.sv (Demo.env [6])) ∧
    Vector.size (Demo.sv (Demo.env [6])) = .ok n o1 ∧ (Src.elem (α := Nat) 1).ok n = true ∧
    SmallVector.emplaceBack (Demo.env [6]) 2 3 ((Src.elem 1).toArg (Demo.sv (Demo.env [6])).obj.first)
      (Demo.sv (Demo.env [6])) = .exn e o' := by
  refine ⟨_, _, _, _, Demo.sv_reachable _, rfl, rfl, rfl⟩

/-! ### C11: no allocation -/

/-- The operation never asks for more than `N` elements. -/
def Fits (N : Nat) (n : Nat) (op : Sq.Op α) : Bool := op.pre n && decide (op.room n ≤ N)

theorem Run.all_threw {Op ρ : Type} {pre : Nat → Op → Bool} {okS : List α → Op → ρ → List α → Prop}
    {failS : List α → Op → Exn → List α → Prop} {P : Exn → Prop} (hP : ∀ xs op e xs', failS xs op e xs' → P e)
    {xs ys : List α} {ops : List Op} {log : List (Out ρ)} (h : Run pre okS failS xs ops log ys) :
    ∀ e, Out.threw e ∈ log → P e := by
  induction h with
  | nil => intro e he; simp at he
  | ok _ _ _ ih => intro e he; simp at he; exact ih e he
  | threw _ h2 _ ih =>
    intro e he
    simp at he
    rcases he with rfl | he
    · exact hP _ _ _ _ h2
    · exact ih e he
  | skipped _ _ ih => intro e he; simp at he; exact ih e he

/-- **C11.** A default constructed small_vector on which only operations are performed that never ask for more than `N`
elements: no memory is ever allocated (`next` counts allocations), bad_alloc is never thrown, and the elements are
in the internal storage (the object still points to it). -/
theorem smallVector_no_allocation (E : Env α) (ib N al : Nat) (m0 : St α) (hr : RawObject m0 ib N) (hN : N ≤ E.maxSize)
    (ops : List (Sq.Op α)) :
    ∃ log o', (SmallVector.impl E ib N).runOps (Fits N) ops ⟨SmallVector.empty ib N al, m0⟩ = .ok log o' ∧
      o'.m.next = m0.next ∧ o'.m.blk = m0.blk ∧ o'.obj.first = ⟨ib, 0⟩ ∧ o'.obj.eos = ⟨ib, N⟩ ∧
      Out.threw .badAlloc ∉ log := by
  have hi : VSt (Heap.around m0 ib) E ib N ⟨SmallVector.empty ib N al, m0⟩ al ib N [] :=
    VSt.mkEmpty (hr.gone).st hr.raw hN
  have C : Correct (SmallVector.impl E ib N) (Fits N) (okStep E)
      (fun xs op e xs' => failStep E xs op e xs' ∧ e ≠ .badAlloc)
      (fun o xs => VSt (Heap.around m0 ib) E ib N o al ib N xs ∧ o.m.next = m0.next) :=
    { size := by
        rintro o xs ⟨h, h0⟩
        exact wp_size h.obj ⟨rfl, rfl⟩
      index := by
        rintro o xs i v ⟨h, h0⟩ hv
        exact index_spec h hv
      exec := by
        rintro o xs op ⟨h, h0⟩ hp
        obtain ⟨hp1, hp2⟩ : op.pre xs.length = true ∧ op.room xs.length ≤ N := by simpa [Fits] using hp
        refine wp_mono (SmallVector.exec_spec op h hp1) ?_ ?_
        · rintro r o' ⟨b', cap', xs', k1, k2⟩
          obtain ⟨rfl, rfl, k3⟩ := k1.inside rfl rfl hp2
          exact ⟨xs', ⟨k1.v, k3.trans h0⟩, k2⟩
        · rintro e o' ⟨b', cap', xs', k1, k2⟩
          obtain ⟨rfl, rfl, k3, k4⟩ := k1.inside rfl rfl hp2
          exact ⟨xs', ⟨k1.v, k3.trans h0⟩, k2, k4⟩ }
  obtain ⟨log, o', h1, ys, ⟨h2, h3⟩, h4⟩ := wp_elim (C.runOps ops _ _ ⟨hi, rfl⟩)
  refine ⟨log, o', h1, h3, hi.blk_eq h2, by rw [h2.obj], by rw [h2.obj], ?_⟩
  intro hm
  exact Run.all_threw (P := fun e => e ≠ .badAlloc) (fun _ _ _ _ h => h.2) h4 _ hm rfl

/-- Nine operations, one of them failing; a fourth element is never asked for. -/
example : (Demo.show' ((SmallVector.impl (Demo.env [3]) 2 3).runOps (Fits 3)
    [.pushBack (.value 5), .emplace 0 (.elem 0), .pushBack (.value 9), .assignRange [1, 2, 3], .eraseAt 0,
      .insertN 0 1 (.elem 1), .resize 1, .reserve 3, .shrinkToFit] ⟨SmallVector.empty 2 3 7, Demo.m2⟩)) =
    some [.ok (some 0), .threw .elem, .ok (some 2), .ok none, .ok (some 0), .ok (some 0), .ok none, .ok none,
      .ok none] := by decide +kernel

end Sfl
