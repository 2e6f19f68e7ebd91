import Verif.Start
/-
  Properties of sfl::vector (C01-C04, C07, C08). Every theorem is about the model of the public functions of vector.hpp
  (`Vector.lean`, dispatched by `Vector.impl`), started from a default constructed vector in an arbitrary memory.
-/

namespace Sfl
open Sq
variable {α : Type}

/-- The state of memory and of the vector object after some history of operations of a default constructed vector. -/
def Vector.Reachable (E : Env α) (al : Nat) (m0 : St α) (o : Obj Vec α) : Prop :=
  ∃ ops log, (Vector.impl E).runOps (fun n op => op.pre n) ops ⟨Vector.empty al, m0⟩ = .ok log o

/-! ### Concrete instances used to show that hypotheses can be met -/

namespace Demo

/-- Memory with nothing in it. -/
def m0 : St Nat := ⟨fun _ _ => none, fun _ => none, 1, 0⟩

theorem m0_wf : (m0 : St Nat).Wf := ⟨by decide, rfl, fun _ _ => rfl, fun _ _ _ => rfl⟩

/-- Memory containing an unrelated live object. -/
def m1 : St Nat :=
  ⟨fun b i => if b = 1 ∧ i = 0 then some 77 else none, fun b => if b = 1 then some ⟨1, some 5⟩ else none, 2, 0⟩

theorem m1_wf : (m1 : St Nat).Wf := by
  refine ⟨by decide, rfl, ?_, ?_⟩
  · intro c hc
    have : c ≠ 1 := by simp [m1] at hc; omega
    simp [m1, this]
  · intro c hc i
    have : c ≠ 1 := by
      intro h; subst h; simp [m1] at hc
    simp [m1, this]

/-- An element type whose moves may throw, copyable, the operations listed in `ts` throw. -/
def env (ts : List Nat) : Env Nat where
  throws := fun t => ts.contains t
  moved := fun _ => 1000
  failSrc := fun _ _ => 2000
  failDst := fun _ _ _ => 3000
  nothrowMoveCtor := false
  nothrowMoveAssign := false
  copyable := true
  dflt := 0
  maxSize := 100

/-- Result of a session, for display. -/
def show' {β γ : Type} (r : Res γ β) : Option β := match r with
  | .ok b _ => some b
  | _ => none

theorem ok_of {β γ : Type} {r : Res γ β} {b : β} (h : show' r = some b) : ∃ o, r = .ok b o := by
  cases r with
  | ok b' o => exact ⟨o, by simp [show'] at h; rw [h]⟩
  | exn e o => simp [show'] at h
  | ub u => simp [show'] at h

end Demo

/-! ### C01, C02: histories -/

/-- **C01, C02.** For every element type behaviour, exception schedule (`E`), memory, allocator and sequence of
operations: the session (perform the operations, read all elements with `operator[]`, destroy the vector) has no
undefined behaviour and returns; the log and the elements read are those of a list on which the same operations are
performed, and after destruction memory is exactly what it was before the vector existed: every element
constructed was destroyed, every block allocated was returned, nothing else was touched. -/
theorem vector_session (E : Env α) (al : Nat) (m0 : St α) (hw : m0.Wf) (ops : List (Sq.Op α)) :
    ∃ log xs o', (Vector.impl E).session (fun n op => op.pre n) ops ⟨Vector.empty al, m0⟩ = .ok (log, xs) o' ∧
      Run (fun n op => op.pre n) (okStep E) (failStep E) [] ops log xs ∧
      o'.m.mem = m0.mem ∧ o'.m.blk = m0.blk := by
  have hr := RawObject.nothing hw
  have hi : VSt (Heap.around m0 0) E 0 0 ⟨Vector.empty al, m0⟩ al 0 0 [] :=
    VSt.mkEmpty (hr.gone).st hr.raw (by omega)
  have := (Vector.correct (Heap.around m0 0) E al).session (Fin := fun m => m.mem = m0.mem ∧ m.blk = m0.blk)
    (by
      rintro o xs ⟨b, cap, h⟩
      show wp Vector.destructor _ _ o
      rw [← SmallVector.destructor_zero]
      exact wp_mono (destructor_gone h) (fun _ o' ⟨g, _, _⟩ => g.restored hr) (fun _ _ h => h)) ops ⟨0, 0, hi⟩
  obtain ⟨⟨log, xs⟩, o', h1, h2, h3⟩ := wp_elim this
  exact ⟨log, xs, o', h1, h2, h3⟩

/-- A session in which insertions alias elements, a reallocation throws, and the vector goes on being used; memory
contains an unrelated object. -/
example : Demo.show' ((Vector.impl (Demo.env [7])).session (fun n op => op.pre n)
    [.pushBack (.value 5), .pushBack (.value 6), .emplace 1 (.rvalue 7), .emplace 1 (.elem 1), .insertN 0 2 (.elem 2),
      .eraseAt 0, .popBack, .resize 5, .popBack, .shrinkToFit] ⟨Vector.empty 3, Demo.m1⟩) =
    some ([.ok (some 0), .ok (some 1), .threw .elem, .ok (some 1), .ok (some 0), .ok (some 0), .ok none, .ok none,
      .ok none, .ok none], [6, 5, 6, 0]) := by decide +kernel

/-- The invariant behind the sessions. -/
theorem Vector.Reachable.repr {E : Env α} {al : Nat} {m0 : St α} {o : Obj Vec α} (hw : m0.Wf)
    (hr : Vector.Reachable E al m0 o) :
    ∃ xs b cap, VSt (Heap.around m0 0) E 0 0 o al b cap xs := by
  obtain ⟨ops, log, h⟩ := hr
  have hr := RawObject.nothing hw
  have hi : VSt (Heap.around m0 0) E 0 0 ⟨Vector.empty al, m0⟩ al 0 0 [] :=
    VSt.mkEmpty (hr.gone).st hr.raw (by omega)
  have := (Vector.correct (Heap.around m0 0) E al).runOps ops _ _ ⟨0, 0, hi⟩
  obtain ⟨ys, ⟨b, cap, hv⟩, _⟩ := wp_ok h this
  exact ⟨ys, b, cap, hv⟩


theorem Vector.empty_reachable (E : Env α) (al : Nat) (m0 : St α) :
    Vector.Reachable E al m0 ⟨Vector.empty al, m0⟩ := ⟨[], [], rfl⟩

/-- A reachable vector with two elements in a storage of three (`Demo.v`). -/
def Demo.v (E : Env Nat) : Obj Vec Nat :=
  match (Vector.impl E).runOps (fun n op => op.pre n) [.reserve 3, .pushBack (.value 5), .pushBack (.value 6)]
    ⟨Vector.empty 3, Demo.m1⟩ with
  | .ok _ o => o
  | _ => ⟨Vector.empty 3, Demo.m1⟩

theorem Demo.v_reachable (E : Env Nat) : Vector.Reachable E 3 Demo.m1 (Demo.v E) := by
  unfold Demo.v
  split
  · rename_i log o h
    exact ⟨_, log, h⟩
  · exact Vector.empty_reachable E 3 Demo.m1

/-! ### C03: strong guarantee -/

/-- **C03**, reserve: if `reserve(n)` throws, then nothing at all has changed: the object's pointers (hence addresses of
the elements and capacity) and every cell of memory are the same. -/
theorem vector_reserve_strong {E : Env α} {al : Nat} {m0 : St α} {o o' : Obj Vec α} (hw : m0.Wf)
    (hr : Vector.Reachable E al m0 o) (hE : E.nothrowMoveCtor = true ∨ E.copyable = true) {n : Nat} {e : Exn}
    (hx : Vector.reserve E n o = .exn e o') :
    o'.obj = o.obj ∧ o'.m.mem = o.m.mem ∧ o'.m.blk = o.m.blk := by
  obtain ⟨xs, b, cap, h⟩ := hr.repr hw
  rw [← SmallVector.reserve_zero] at hx
  obtain ⟨xs', k1, _, k2, _⟩ := wp_exn hx (reserve_spec h)
  rw [k2 hE] at k1
  exact h.eq k1

/-- The hypotheses are met: a reservation on `Demo.v` that needs memory, which is refused. -/
example : ∃ e o', Vector.Reachable (Demo.env [3]) 3 Demo.m1 (Demo.v (Demo.env [3])) ∧ 
    Vector.reserve (Demo.env [3]) 10 (Demo.v (Demo.env [3])) = .exn e o' := by
  refine ⟨_, _, Demo.v_reachable _, rfl⟩

/-- **C03**, shrink_to_fit. -/
theorem vector_shrinkToFit_strong {E : Env α} {al : Nat} {m0 : St α} {o o' : Obj Vec α} (hw : m0.Wf)
    (hr : Vector.Reachable E al m0 o) (hE : E.nothrowMoveCtor = true ∨ E.copyable = true) {e : Exn}
    (hx : Vector.shrinkToFit E o = .exn e o') :
    o'.obj = o.obj ∧ o'.m.mem = o.m.mem ∧ o'.m.blk = o.m.blk := by
  obtain ⟨xs, b, cap, h⟩ := hr.repr hw
  rw [← SmallVector.shrinkToFit_zero h] at hx
  obtain ⟨xs', k1, _, k2, _⟩ := wp_exn hx (shrinkToFit_spec h)
  rw [k2 hE] at k1
  exact h.eq k1

example : ∃ e o', Vector.Reachable (Demo.env [3]) 3 Demo.m1 (Demo.v (Demo.env [3])) ∧ 
    Vector.shrinkToFit (Demo.env [3]) (Demo.v (Demo.env [3])) = .exn e o' := by
  refine ⟨_, _, Demo.v_reachable _, rfl⟩

/-- **C03**, emplace_back / push_back, the argument being a value, a temporary or an element of the vector. -/
theorem vector_emplaceBack_strong {E : Env α} {al : Nat} {m0 : St α} {o o' : Obj Vec α} (hw : m0.Wf)
    (hr : Vector.Reachable E al m0 o) (hE : E.nothrowMoveCtor = true ∨ E.copyable = true) {s : Src α} {n : Nat}
    {o1 : Obj Vec α} (hn : Vector.size o = .ok n o1) (hs : s.ok n = true) {e : Exn}
    (hx : Vector.emplaceBack E (s.toArg o.obj.first) o = .exn e o') :
    o'.obj = o.obj ∧ o'.m.mem = o.m.mem ∧ o'.m.blk = o.m.blk := by
  obtain ⟨xs, b, cap, h⟩ := hr.repr hw
  have hn' := h.size_eq hn
  subst hn'
  rw [← SmallVector.emplaceBack_zero] at hx
  obtain ⟨v, h1, h2⟩ : ∃ v, (s.toArg o.obj.first).value o.m = some v ∧ (s.toArg o.obj.first).src E = none := by
    have := wp_argOf (Q := fun a o' => a = s.toArg o.obj.first → ∃ v, a.value o.m = some v ∧ a.src E = none)
      (X := fun _ _ => False) h hs (fun a v _ h1 h2 _ => ⟨v, h1, h2⟩)
    exact this rfl
  obtain ⟨xs', k1, _, k2, _⟩ := wp_exn hx (emplaceBack_spec h h1 h2)
  rw [k2 hE] at k1
  exact h.eq k1.v

example : ∃ e o', Vector.Reachable (Demo.env [3]) 3 Demo.m1 (Demo.v (Demo.env [3])) ∧ 
    Vector.emplaceBack (Demo.env [3]) ((Src.elem 1).toArg (Demo.v (Demo.env [3])).obj.first)
      (Demo.v (Demo.env [3])) = .exn e o' := by
  refine ⟨_, _, Demo.v_reachable _, rfl⟩

/-! ### C04: basic guarantee -/

/-- **C04.** If an operation throws, the vector still holds some sequence `xs'` (which is the old one for the operations
and element types named in `Op.Failure`), reading it has no undefined behaviour, and it can be used further by any
sequence of operations and destroyed, leaving memory as if the vector had never existed. -/
theorem vector_basic_guarantee {E : Env α} {al : Nat} {m0 : St α} {o o' : Obj Vec α} (hw : m0.Wf)
    (hr : Vector.Reachable E al m0 o) {op : Sq.Op α} {n : Nat} {o1 : Obj Vec α} (hn : Vector.size o = .ok n o1)
    (hp : op.pre n = true) {e : Exn} (hx : Vector.exec E op o = .exn e o') :
    ∃ xs xs', (Vector.impl E).contents o = .ok xs o ∧ (Vector.impl E).contents o' = .ok xs' o' ∧
      op.Failure (Strong E) (NothrowMove E) E.maxSize xs e xs' ∧
      ∀ ops, ∃ log ys o2, (Vector.impl E).session (fun n op => op.pre n) ops o' = .ok (log, ys) o2 ∧
        Run (fun n op => op.pre n) (okStep E) (failStep E) xs' ops log ys ∧
        o2.m.mem = m0.mem ∧ o2.m.blk = m0.blk := by
  obtain ⟨xs, b, cap, h⟩ := hr.repr hw
  have hn' := h.size_eq hn
  subst hn'
  obtain ⟨b', cap', xs', k1, k2⟩ := wp_exn hx (Vector.exec_spec op h hp)
  have C := Vector.correct (Heap.around m0 0) E al
  obtain ⟨_, _, c1, rfl, rfl⟩ := wp_elim (C.contents (xs := xs) ⟨b, cap, h⟩)
  obtain ⟨_, _, c2, rfl, rfl⟩ := wp_elim (C.contents (xs := xs') ⟨b', cap', k1.v⟩)
  refine ⟨_, _, c1, c2, k2, fun ops => ?_⟩
  have := C.session (Fin := fun m => m.mem = m0.mem ∧ m.blk = m0.blk)
    (by
      rintro o xs ⟨b, cap, h⟩
      show wp Vector.destructor _ _ o
      rw [← SmallVector.destructor_zero]
      exact wp_mono (destructor_gone h) (fun _ o' ⟨g, _, _⟩ => g.restored (RawObject.nothing hw)) (fun _ _ h => h))
    ops ⟨b', cap', k1.v⟩
  obtain ⟨⟨log, ys⟩, o2, h1, h2, h3⟩ := wp_elim this
  exact ⟨log, ys, o2, h1, h2, h3⟩

/-- The hypotheses are met: an insertion in the middle without reallocation during which a move throws. -/
example : ∃ n o1 e o', Vector.Reachable (Demo.env [4]) 3 Demo.m1 (Demo.v (Demo.env [4])) ∧ 
    Vector.size (Demo.v (Demo.env [4])) = .ok n o1 ∧ (Sq.Op.emplace 0 (.value 8)).pre n = true ∧
    Vector.exec (Demo.env [4]) (.emplace 0 (.value 8)) (Demo.v (Demo.env [4])) = .exn e o' := by
  refine ⟨_, _, _, _, Demo.v_reachable _, rfl, rfl, rfl⟩

end Sfl
