import Verif.CompactWorld
import Verif.PropUnord2
/-
  Properties of sfl::compact_vector: C16, C17, and its share of C09, C10, C40, C41, C42. All theorems are about
  containers in arbitrary programs with any number of containers, exception schedules and initial memories.
-/

namespace Sfl
open Sq World
variable {α : Type}

/-- compact_vector as a client sees it. -/
def CompactVector.impl (E : Env α) : Impl (Sq.Op α) Vec α where
  size := CompactVector.size
  index := CompactVector.index
  exec := CompactVector.exec E
  destroy := CompactVector.destructor

section
variable {K : Nat} {E : Env α} {T : Traits} {quiet : Bool} {m0 : St α}

theorem CompactVector.start (hw : m0.Wf) (hq : quiet = true → ∀ t, E.throws t = false) :
    Inv (CompactVector.rep K E) m0 (⟨fun _ => none, m0⟩ : Slots K Vec α) (fun _ => none) (CompactVector.rep K E).dead :=
  (CompactVector.spec (T := ⟨false, false, false, id⟩) hq).start hw (fun _ => ⟨Or.inl ⟨rfl, rfl⟩, hw.dead 0 hw.blk_zero⟩)
    (fun _ _ _ _ h => absurd (h.2.elim id id) h.1)

/-- The memory a compact vector holds: as many cells as it has elements, allocated with its allocator. -/
structure CompactVector.ExactFit (v : Vec) (m : St α) (n : Nat) : Prop where
  /-- `size()` and `capacity()` agree -/
  size : CompactVector.size ⟨v, m⟩ = .ok n ⟨v, m⟩
  capacity : CompactVector.capacity ⟨v, m⟩ = .ok n ⟨v, m⟩
  /-- the end of the storage is the end of the elements -/
  eos : v.last = v.eos
  /-- no storage if there are no elements, otherwise a block of exactly `n` cells -/
  none : n = 0 → v.first = Ptr.null
  block : 0 < n → v.first.off = 0 ∧ m.blk v.first.blk = some ⟨n, some v.alloc⟩

theorem CompactVector.exactFit {m : St α} {v : Vec} {al b : Nat} {xs : List α}
    (h : Own E 0 0 m v al b xs.length xs) : CompactVector.ExactFit v m xs.length := by
  have hs : CompactVector.size ⟨v, m⟩ = .ok xs.length ⟨v, m⟩ := by
    unfold CompactVector.size
    rw [h.obj]
    simp [bind, M.bind, getObj, distance]
  have ho := h.own
  refine ⟨hs, hs, by rw [h.obj], fun hn => ?_, fun hn => ?_⟩
  · rw [h.obj]
    rcases ho with h1 | h1 | h1
    · simp [Ptr.null, h1.1]
    · simp [Ptr.null, h1.1]
    · have := h1.1; omega
  · rw [h.obj]
    rcases ho with h1 | h1 | h1
    · have := h1.2; omega
    · have := h1.2; omega
    · exact ⟨rfl, h1.2.2.2⟩

theorem CompactVector.contents_spec {H : Heap α} {al b : Nat} {o : Obj Vec α} {xs : List α} (h : CSt H E o al b xs) :
    (CompactVector.impl E).contents o = .ok xs o :=
  h.contents _ rfl rfl

/-! ### Whole programs: C16, C17, C40, C41, C42 -/

/-- **C16, C17, C40, C41, C42.** Any program with any number of compact vectors (constructors, copies, moves,
assignments, swaps, modifiers in any order), followed by reading all containers and destroying them, has no undefined
behaviour, in particular every block is returned with the size and to the allocator it was requested with; outcomes,
elements and allocators are those of lists (`CompactVector.sem`); in the end memory is what it was, also if operations
threw. With `quiet`, nothing throws and all assignments are allowed; without, anything may throw.

Missing from the full statement are the calls excluded by `CompactVector.pre` and `CompactVector.sem`: `resize(n, c[i])`
that grows by moving (`compactVector_resize_alias` shows the result is wrong), and `assign` and assignment of another
number of elements when something may throw (`compactVector_assign_throw` shows undefined behaviour). -/
theorem compactVector_session_partial (K : Nat) (E : Env α) (T : Traits) (quiet : Bool)
    (hq : quiet = true → ∀ t, E.throws t = false) (m0 : St α) (hw : m0.Wf)
    (ops : List (WOp K (Sq.Op α) (Sq.Init α))) :
    ∃ log A o', World.session (CompactVector.cont K E T) (CompactVector.sem E T quiet) ops ⟨fun _ => none, m0⟩ =
        .ok (log, (List.finRange K).map A) o' ∧
      WRun (CompactVector.sem E T quiet) (fun _ => none) ops log A ∧ o'.m.mem = m0.mem ∧ o'.m.blk = m0.blk :=
  (CompactVector.spec hq).session hw (fun _ => ⟨Or.inl ⟨rfl, rfl⟩, hw.dead 0 hw.blk_zero⟩)
    (fun _ _ _ _ h => absurd (h.2.elim id id) h.1) ops

/-- Three compact vectors: a copy constructor that throws, an append that throws, an assignment in place that throws, move
construction with another allocator, swap, further use of a moved-from container; an assignment of another size is
skipped since something may throw. -/
example : Demo.show' (World.session (CompactVector.cont 3 (Demo.env [5, 13, 16]) Demo.T)
    (CompactVector.sem (Demo.env [5, 13, 16]) Demo.T false)
    [.make 0 7 (.range [1, 2, 3]), .makeCopy 1 0 none, .makeCopy 1 0 none, .op 1 (.pushBack (.elem 0)),
     .op 1 (.assignRange [4, 5, 6]), .op 1 (.assignRange [4, 5]),
     .makeMove 2 0 (some 8), .assignCopy 0 1, .swap 0 2, .assignMove 1 0, .assignCopy 2 2, .swap 1 1,
     .op 0 (.pushBack (.value 4)), .op 0 (.insertN 1 2 (.elem 0)), .op 0 (.eraseRange 1 2), .op 0 .popBack, .destroy 2,
     .makeMove 2 1 none] ⟨fun _ => none, Demo.m1⟩) =
    some ([.ok none, .threw .elem, .ok none, .threw .elem, .threw .elem, .skipped, .ok none, .ok none, .ok none, .ok none,
      .ok none, .ok none, .ok (some 0), .ok (some 1), .ok (some 1), .ok none, .ok none, .ok none],
      [some (8, [4]), some (8, []), some (8, [1, 2, 3])]) := by decide +kernel

/-- The same kind of program with assignments of other sizes, nothing throws. -/
example : (∀ t, (Demo.env []).throws t = false) ∧ Demo.show' (World.session (CompactVector.cont 3 (Demo.env []) Demo.T)
    (CompactVector.sem (Demo.env []) Demo.T true)
    [.make 0 7 (.range [1, 2, 3]), .makeCopy 1 0 none, .op 1 (.assignRange [4, 5]), .assignCopy 0 1,
     .op 0 (.resizeV 4 (.elem 0)), .op 1 (.resize 0), .assignMove 1 0, .op 0 (.assignN 2 9)] ⟨fun _ => none, Demo.m1⟩) =
    some ([.ok none, .ok none, .ok none, .ok none, .ok none, .ok none, .ok none, .ok none],
      [some (7, [9, 9]), some (7, [4, 5, 4, 4]), none]) := ⟨fun _ => rfl, by decide +kernel⟩

/-- **C16.** In every state that a program reaches, every compact vector holds a block with exactly as many cells as it
has elements, or no block if it is empty; `capacity()` equals `size()`. -/
theorem compactVector_exact_fit (hw : m0.Wf) (hq : quiet = true → ∀ t, E.throws t = false)
    {ops : List (WOp K (Sq.Op α) (Sq.Init α))} {log : List (Out (Option Nat))} {o : Slots K Vec α}
    (hx : World.runOps (CompactVector.cont K E T) (CompactVector.sem E T quiet) ops ⟨fun _ => none, m0⟩ = .ok log o)
    {i : Fin K} {v : Vec} (hv : o.obj i = some v) : ∃ n, CompactVector.ExactFit v o.m n := by
  obtain ⟨A, F, k, -⟩ := wp_ok hx ((CompactVector.spec (T := T) hq).runOps ops (CompactVector.start hw hq))
  have hc := k.cell i
  rw [hv] at hc
  unfold Rep.cell at hc
  split at hc
  · rename_i e _; cases e
  · rename_i e _
    cases e
    obtain ⟨b, h, -⟩ := hc
    exact ⟨_, CompactVector.exactFit h⟩
  · exact hc.elim

/-! ### Single operations: C16, C17 -/

theorem World.Reached.compact {i : Fin K} {o : Obj Vec α}
    (h : Reached (CompactVector.cont K E T) (CompactVector.sem E T quiet) m0 i o) (hw : m0.Wf)
    (hq : quiet = true → ∀ t, E.throws t = false) : ∃ H al b xs, CSt H E o al b xs := by
  obtain ⟨hw', al, xs, F, ⟨b, k, -⟩⟩ := h.rep (CompactVector.spec (T := T) hq) (CompactVector.start hw hq)
  exact ⟨_, al, b, xs, k.vst hw' (Rest.out _ _)⟩

/-- **C16, C17** for one operation: every modifier of every compact vector in every program has no undefined behaviour. If
it returns, the container has the elements and the operation the result of the list operation; if it throws, the container is
valid: its elements can be read, their number has not changed unless the operation reads an input range, and for the
operations in `strong` and `strongCopy` nothing has changed. In both cases the storage fits exactly.
Missing: the calls excluded by `CompactVector.pre`. -/
theorem compactVector_modify_partial {i : Fin K} {o : Obj Vec α} (hw : m0.Wf)
    (hq : quiet = true → ∀ t, E.throws t = false)
    (h : Reached (CompactVector.cont K E T) (CompactVector.sem E T quiet) m0 i o) :
    ∃ xs, (CompactVector.impl E).contents o = .ok xs o ∧
      ∀ op : Sq.Op α, CompactVector.pre E quiet xs.length op = true →
      (∀ u, (CompactVector.impl E).exec op o ≠ .ub u) ∧
      (∀ r o', (CompactVector.impl E).exec op o = .ok r o' → ∃ ys, (CompactVector.impl E).contents o' = .ok ys o' ∧
        Sq.okStep E xs op r ys ∧ CompactVector.ExactFit o'.obj o'.m ys.length) ∧
      (∀ e o', (CompactVector.impl E).exec op o = .exn e o' → ∃ ys, (CompactVector.impl E).contents o' = .ok ys o' ∧
        CompactVector.Failure E xs op e ys ∧ CompactVector.ExactFit o'.obj o'.m ys.length) := by
  obtain ⟨H, al, b, xs, hv⟩ := h.compact hw hq
  refine ⟨xs, CompactVector.contents_spec hv, fun op hp => ?_⟩
  have hs := CompactVector.exec_spec hq op hv hp
  refine ⟨fun u => wp_not_ub hs, fun r o' hx => ?_, fun e o' hx => ?_⟩
  · obtain ⟨b', ys, k1, k2⟩ := wp_ok hx hs
    exact ⟨ys, CompactVector.contents_spec k1, k2, CompactVector.exactFit k1.toOwn⟩
  · obtain ⟨b', ys, k1, k2⟩ := wp_exn hx hs
    exact ⟨ys, CompactVector.contents_spec k1, k2, CompactVector.exactFit k1.toOwn⟩

/-- **C10.** `erase_if(c, f)` (and `erase(c, value)`, with `f x := x == value`) of a compact vector leaves exactly the
elements that do not match, in order, and returns the number of the others; the storage fits exactly. -/
theorem compactVector_eraseIf {i : Fin K} {o : Obj Vec α} (hw : m0.Wf)
    (hq : quiet = true → ∀ t, E.throws t = false)
    (h : Reached (CompactVector.cont K E T) (CompactVector.sem E T quiet) m0 i o) (f : α → Bool) :
    ∃ xs, (CompactVector.impl E).contents o = .ok xs o ∧ (∀ u, CompactVector.eraseIf E f o ≠ .ub u) ∧
      ∀ r o', CompactVector.eraseIf E f o = .ok r o' →
        (CompactVector.impl E).contents o' = .ok (xs.filter (fun x => !f x)) o' ∧ r = xs.countP f ∧
        CompactVector.ExactFit o'.obj o'.m (xs.filter (fun x => !f x)).length := by
  obtain ⟨H, al, b, xs, hv⟩ := h.compact hw hq
  have hs := CompactVector.eraseIf_spec (f := f) hv
  refine ⟨xs, CompactVector.contents_spec hv, fun u => wp_not_ub hs, fun r o' hx => ?_⟩
  obtain ⟨b', k1, k2⟩ := wp_ok hx hs
  refine ⟨CompactVector.contents_spec k1, ?_, CompactVector.exactFit k1.toOwn⟩
  rw [k2, List.length_eq_countP_add_countP f, ← List.countP_eq_length_filter]
  have : List.countP (fun a => decide ¬f a = true) xs = List.countP (fun x => !f x) xs :=
    List.countP_congr (by simp)
  omega

end

namespace Demo

theorem exn_leftIn {β Op ρ V : Type} {I : Sq.Impl Op V Nat ρ} {r : Res (Obj V Nat) β} {xs : List Nat}
    (h : leftIn I r = some xs ∧ threw r = true) : ∃ e o, r = .exn e o ∧ show' (I.contents o) = some xs := by
  cases r with
  | ok b o => cases h.2
  | exn e o => exact ⟨e, o, rfl, h.1⟩
  | ub => cases h.1

/-- The compact vector in slot 0 after construction from `xs`, with an unrelated object in memory. -/
def cv (E : Env Nat) (xs : List Nat) : Obj Vec Nat :=
  match World.runOps (CompactVector.cont 2 E T) (CompactVector.sem E T false) [.make 0 7 (.range xs)] ⟨fun _ => none, m1⟩ with
  | .ok _ s => match s.obj 0 with
    | some v => ⟨v, s.m⟩
    | none => ⟨CompactVector.empty 7, s.m⟩
  | _ => ⟨CompactVector.empty 7, m1⟩

/-- Whether a run returned and the container in slot 0 exists. -/
def cvOk (E : Env Nat) (xs : List Nat) : Bool :=
  match World.runOps (CompactVector.cont 2 E T) (CompactVector.sem E T false) [.make 0 7 (.range xs)] ⟨fun _ => none, m1⟩ with
  | .ok _ s => (s.obj 0).isSome
  | _ => false

theorem cv_reached (E : Env Nat) (xs : List Nat) (h : cvOk E xs = true) :
    Reached (CompactVector.cont 2 E T) (CompactVector.sem E T false) m1 0 (cv E xs) := by
  unfold cvOk at h
  split at h
  · rename_i log s hx
    obtain ⟨v, hv⟩ := Option.isSome_iff_exists.mp h
    refine ⟨_, log, s, v, hx, hv, ?_⟩
    unfold cv
    rw [hx]
    simp [hv]
  · cases h

/-- Elements whose moves do not throw, which are therefore moved by reallocations. -/
def movers (ts : List Nat) : Env Nat := { env ts with nothrowMoveCtor := true, nothrowMoveAssign := true }

end Demo

/-- The hypotheses of `compactVector_modify_partial` are met by both outcomes of an insertion in the middle. -/
example : Reached (CompactVector.cont 2 (Demo.env []) Demo.T) (CompactVector.sem (Demo.env []) Demo.T false) Demo.m1 0
      (Demo.cv (Demo.env []) [1, 2, 3]) ∧ CompactVector.pre (Demo.env []) false 3 (.emplace 1 (.elem 2)) = true ∧
    (∃ r o', (CompactVector.impl (Demo.env [])).exec (.emplace 1 (.elem 2)) (Demo.cv (Demo.env []) [1, 2, 3]) = .ok r o') ∧
    ∃ e o', (CompactVector.impl (Demo.env [6])).exec (.emplace 1 (.elem 2)) (Demo.cv (Demo.env [6]) [1, 2, 3]) = .exn e o' :=
  ⟨Demo.cv_reached _ _ (by decide +kernel), rfl,
    ⟨_, Demo.ok_of (b := some 1) (by decide +kernel)⟩, Demo.exn_of (by decide +kernel)⟩

/-- And the removal of the odd numbers. -/
example : Demo.show' ((do
      let r ← CompactVector.eraseIf (Demo.env []) (fun x => x % 2 == 1)
      let ys ← (CompactVector.impl (Demo.env [])).contents
      pure (r, ys) : Vector.VM Nat _) (Demo.cv (Demo.env []) [1, 2, 3])) = some (2, [2]) := by decide +kernel

/-- The state in which the first theorem of this section shows an exact fit is not trivial: two elements in a block of two. -/
example : CompactVector.ExactFit (Demo.cv (Demo.env []) [5, 6]).obj (Demo.cv (Demo.env []) [5, 6]).m 2 :=
  ⟨rfl, rfl, rfl, (by omega), fun _ => ⟨rfl, rfl⟩⟩

/-! ### What does not hold -/

/-- **C16 does not hold** for `resize(n, value)` when `value` is an element of the container, elements are moved by
reallocations and the container grows: the elements are moved to the new storage before the new elements are copied
from `value` (compact_vector.hpp:843-863), so that copies of a moved-from element are appended. -/
theorem compactVector_resize_alias : ∃ (E : Env Nat) (o : Obj Vec Nat) (xs ys : List Nat) (op : Sq.Op Nat) (r : Option Nat)
    (o' : Obj Vec Nat),
    Reached (CompactVector.cont 2 E Demo.T) (CompactVector.sem E Demo.T false) Demo.m1 0 o ∧
    (CompactVector.impl E).contents o = .ok xs o ∧ op.pre xs.length = true ∧
    (CompactVector.impl E).exec op o = .ok r o' ∧ Demo.show' ((CompactVector.impl E).contents o') = some ys ∧
    ¬ Sq.okStep E xs op r ys := by
  have hr := Demo.cv_reached (Demo.movers []) [5, 6] (by decide +kernel)
  obtain ⟨H, al, b, xs, hv⟩ := hr.compact Demo.m1_wf (by simp)
  obtain rfl : xs = [5, 6] := Demo.contents_of (CompactVector.contents_spec hv) (by decide +kernel)
  obtain ⟨r, o', hx, ho⟩ := Demo.ok_leftIn (I := CompactVector.impl (Demo.movers []))
    (r := (CompactVector.impl (Demo.movers [])).exec (.resizeV 3 (.elem 0)) (Demo.cv (Demo.movers []) [5, 6]))
    (xs := [5, 6, 1000]) (by decide +kernel)
  refine ⟨Demo.movers [], _, [5, 6], [5, 6, 1000], .resizeV 3 (.elem 0), r, o', hr, CompactVector.contents_spec hv, rfl, hx, ho, ?_⟩
  · rintro ⟨⟨v, h1, h2⟩, -⟩
    simp [Sq.Src.get?] at h1
    subst h1
    simp at h2

/-- **C17 does not hold** for `assign` of another number of elements (also used by copy and move assignment) if the
construction of an element throws: the old storage is released and `first_` is set to the new block before the elements
exist, and the handler calls `clear()` (compact_vector.hpp:1189-1211, 1229-1273), which returns the block of
`n` cells as a block of `last_ - first_ = 0` cells: undefined behaviour. -/
theorem compactVector_assign_throw : ∃ (E : Env Nat) (o : Obj Vec Nat) (xs : List Nat) (op : Sq.Op Nat),
    Reached (CompactVector.cont 2 E Demo.T) (CompactVector.sem E Demo.T false) Demo.m1 0 o ∧
    (CompactVector.impl E).contents o = .ok xs o ∧ op.pre xs.length = true ∧
    (CompactVector.impl E).exec op o = .ub .badDealloc := by
  have hr := Demo.cv_reached (Demo.env [5]) [5, 6] (by decide +kernel)
  obtain ⟨H, al, b, xs, hv⟩ := hr.compact Demo.m1_wf (by simp)
  obtain rfl : xs = [5, 6] := Demo.contents_of (CompactVector.contents_spec hv) (by decide +kernel)
  have hx : Demo.isUb ((CompactVector.impl (Demo.env [5])).exec (.assignRange [7, 8, 9]) (Demo.cv (Demo.env [5]) [5, 6])) =
      some .badDealloc := by decide +kernel
  refine ⟨Demo.env [5], _, [5, 6], .assignRange [7, 8, 9], hr, CompactVector.contents_spec hv, rfl, ?_⟩
  unfold Demo.isUb at hx
  split at hx
  · rename_i r h; rw [h]; simp at hx; rw [hx]
  · simp at hx

/-- `resize` without aliasing is not transactional either: with elements that are moved by reallocations, if the
construction of a new element throws, the old elements have already been moved to the storage that is given
up, so their values are lost (the number of elements stays the same). The documentation of the library makes no
promise here; `CompactVector.Failure.copies` states what holds for elements that are copied. -/
theorem compactVector_resize_throw : ∃ (E : Env Nat) (o : Obj Vec Nat) (e : Exn) (o' : Obj Vec Nat),
    E.nothrowMoveCtor = true ∧
    Reached (CompactVector.cont 2 E Demo.T) (CompactVector.sem E Demo.T false) Demo.m1 0 o ∧
    (CompactVector.impl E).contents o = .ok [5, 6] o ∧ (CompactVector.impl E).exec (.resize 4) o = .exn e o' ∧
    Demo.show' ((CompactVector.impl E).contents o') = some [1000, 1000] := by
  have hr := Demo.cv_reached (Demo.movers [6]) [5, 6] (by decide +kernel)
  obtain ⟨H, al, b, xs, hv⟩ := hr.compact Demo.m1_wf (by simp)
  obtain rfl : xs = [5, 6] := Demo.contents_of (CompactVector.contents_spec hv) (by decide +kernel)
  obtain ⟨e, o', hx, ho⟩ := Demo.exn_leftIn (I := CompactVector.impl (Demo.movers [6]))
    (r := (CompactVector.impl (Demo.movers [6])).exec (.resize 4) (Demo.cv (Demo.movers [6]) [5, 6]))
    (xs := [1000, 1000]) (by decide +kernel)
  exact ⟨_, _, e, o', rfl, hr, CompactVector.contents_spec hv, hx, ho⟩

/-! ### Construction, comparison and moves: C40, C09, C42 -/

/-- **C40** for compact_vector: the constructor yields exactly the requested elements in a block of exactly that size, and
destroying the container restores memory, or it throws and memory is exactly as before. -/
theorem compactVector_construct (E : Env α) (al : Nat) (m : St α) (hw : m.Wf) (init : Sq.Init α) :
    (∃ o', CompactVector.construct E init ⟨CompactVector.empty al, m⟩ = .ok () o' ∧
      (CompactVector.impl E).contents o' = .ok (init.result E.dflt) o' ∧
      CompactVector.ExactFit o'.obj o'.m (init.result E.dflt).length ∧
      ∃ o2, CompactVector.destructor o' = .ok () o2 ∧ o2.m.mem = m.mem ∧ o2.m.blk = m.blk) ∨
    (∃ e o', CompactVector.construct E init ⟨CompactVector.empty al, m⟩ = .exn e o' ∧ o'.m.mem = m.mem ∧ o'.m.blk = m.blk ∧
      (e = .lengthError → E.maxSize < (init.result E.dflt).length)) := by
  have hr := RawObject.nothing hw
  have h := CompactVector.construct_spec (E := E) (al := al) init hr.gone
  unfold wp at h
  split at h
  · rename_i _ o' he
    obtain ⟨b', h⟩ := h
    obtain ⟨_, o2, d1, d2⟩ := wp_elim (wp_mono (CompactVector.destructor_gone h)
      (fun _ o' g => g.restored hr) (fun _ _ h => h))
    exact Or.inl ⟨_, he, CompactVector.contents_spec h, CompactVector.exactFit h.toOwn, o2, d1, d2⟩
  · rename_i e o' he
    exact Or.inr ⟨e, o', he, (h.1.restored hr).1, (h.1.restored hr).2, h.2⟩
  · exact h.elim

/-- Both cases occur: the fourth of five copies throws, or none. -/
example : (∃ e o', CompactVector.construct (Demo.env [4]) (.fill 5 8) ⟨CompactVector.empty 3, Demo.m1⟩ = .exn e o') ∧
    ∃ o', CompactVector.construct (Demo.env [9]) (.fill 5 8) ⟨CompactVector.empty 3, Demo.m1⟩ = .ok () o' :=
  ⟨⟨_, _, rfl⟩, _, rfl⟩

/-- **C09** for compact_vector: after any program, comparing two containers gives the answer for their elements
(compact_vector.hpp:1543-1608). -/
theorem compactVector_compare (K : Nat) (E : Env α) (T : Traits) (quiet : Bool)
    (hq : quiet = true → ∀ t, E.throws t = false) (m0 : St α) (hw : m0.Wf) (eq lt : α → α → Bool)
    (ops : List (WOp K (Sq.Op α) (Sq.Init α))) :
    ∃ log A o, World.runOps (CompactVector.cont K E T) (CompactVector.sem E T quiet) ops ⟨fun _ => none, m0⟩ = .ok log o ∧
      WRun (CompactVector.sem E T quiet) (fun _ => none) ops log A ∧ ComparesLike eq lt o A := by
  have hS := CompactVector.spec (K := K) (T := T) hq
  obtain ⟨log, o, e, A, F, k1, k2⟩ := wp_elim (hS.runOps ops (CompactVector.start hw hq))
  refine ⟨log, A, o, e, k2, comparesLike eq lt ?_⟩
  intro i a xs hi
  have := k1.cell i
  rw [hi] at this
  cases hv : o.obj i with
  | none => rw [hv] at this; exact this.elim
  | some v =>
    rw [hv] at this
    obtain ⟨b, k, -⟩ := this
    exact ⟨v, rfl, k.holds⟩

/-- `[1, 2]` and `[1, 2, 3]`. -/
example : Demo.show' ((do
    let _ ← World.runOps (CompactVector.cont 2 (Demo.env []) Demo.T) (CompactVector.sem (Demo.env []) Demo.T false)
      [.make 0 7 (.range [1, 2]), .make 1 7 (.range [1, 2, 3])]
    Demo.compareAll 0 1 : M (Slots 2 Vec Nat) _) ⟨fun _ => none, Demo.m1⟩) =
    some [false, true, true, false, true, false] := by decide +kernel

/-- **C42** for compact_vector: move construction with the allocator of the source takes over the storage; memory does
not change and the source is afterwards identical to a default constructed container. -/
theorem compactVector_move_construct (E : Env α) (w : Vec) (m : St α) :
    CompactVector.initMove E ⟨(CompactVector.empty w.alloc, w), m⟩ = .ok () ⟨(w, CompactVector.empty w.alloc), m⟩ := by
  unfold CompactVector.initMove
  simp [bind, M.bind, getObj, setObj, CompactVector.empty, Vec.steal, Vec.null]

end Sfl
