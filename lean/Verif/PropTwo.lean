import Verif.PropSmallVector
import Verif.WorldVec
/-
  Properties of programs with several vectors or several small_vectors: constructors, copy and move, assignment, swap
  (C13, C39, C40, C41, C42). The abstract meaning is `World.WRun` (lists and allocators only).
-/

namespace Sfl
open Sq World
variable {α : Type}

namespace Demo

/-- Memory with an unrelated object (block 1) and the raw internal storages of three small_vector<int, 2>. -/
def m3 : St Nat where
  mem := fun b i => if b = 1 ∧ i = 0 then some 77 else none
  blk := fun b => if b = 1 then some ⟨1, some 5⟩ else if 2 ≤ b ∧ b ≤ 4 then some ⟨2, none⟩ else none
  next := 5
  tick := 0

theorem m3_wf : m3.Wf := by
  refine ⟨by decide, rfl, ?_, ?_⟩
  · intro c hc
    have : c ≠ 1 ∧ ¬ (2 ≤ c ∧ c ≤ 4) := by simp [m3] at hc; omega
    simp [m3, this.1, this.2]
  · intro c hc i
    have : c ≠ 1 := by
      intro h; subst h; simp [m3] at hc
    simp [m3, this]

/-- Their addresses. -/
def ib3 (i : Fin 3) : Nat := i.val + 2

theorem ib3_raw (i : Fin 3) : RawObject m3 (ib3 i) 2 := by
  refine ⟨m3_wf, Or.inr ?_, fun k => ?_⟩
  · have : ib3 i ≠ 1 ∧ 2 ≤ ib3 i ∧ ib3 i ≤ 4 := by unfold ib3; omega
    simp [m3, this]
  · have : ib3 i ≠ 1 := by unfold ib3; omega
    simp [m3, this]

/-- An allocator that propagates on move assignment and swap only; copies of a container use allocator 9. -/
def T : Traits := ⟨false, true, true, fun _ => 9⟩

end Demo

/-! ### Whole programs -/

/-- **C39, C40, C41, C42.** For every number of slots, element type behaviour, exception schedule, allocator traits,
memory and program that constructs vectors (default, n values, n copies, ranges, copies, moves, with any allocators),
destroys them, copy assigns, move assigns and swaps them, and modifies them, in any order: the program, followed by
reading all containers and destroying them, has no undefined behaviour (in particular every block is returned to an
allocator equal to the one it came from); outcomes, elements and allocators are those of lists; in the end memory is
what it was, also if constructors or assignments threw. -/
theorem vector_world_session (K : Nat) (E : Env α) (T : Traits) (m0 : St α) (hw : m0.Wf)
    (ops : List (WOp K (Sq.Op α) (Sq.Init α))) :
    ∃ log A o', World.session (Vector.cont K E T) (Vector.sem E T) ops ⟨fun _ => none, m0⟩ =
        .ok (log, (List.finRange K).map A) o' ∧
      WRun (Vector.sem E T) (fun _ => none) ops log A ∧ o'.m.mem = m0.mem ∧ o'.m.blk = m0.blk := by
  refine Vector.spec.session hw (fun i => ⟨Or.inl ⟨rfl, rfl⟩, hw.dead 0 hw.blk_zero⟩) ?_ ops
  intro i j _ c h
  exact absurd (h.2.elim id id) h.1

/-- **C13, C40, C41.** The same for small_vector with any internal capacity, all four combinations of internal and heap
storage in `swap` included. `swap` is called with equal allocators, or with allocators that propagate and elements
whose moves do not throw; see `smallVector_swap_throw` for the remaining case. -/
theorem smallVector_world_session_partial (K : Nat) (E : Env α) (T : Traits) (N : Nat) (ib : Fin K → Nat) (m0 : St α)
    (hw : m0.Wf) (hr : ∀ i, RawObject m0 (ib i) N) (hd : ∀ i j, i ≠ j → ib i ≠ 0 → ib i ≠ ib j) (hN : N ≤ E.maxSize)
    (ops : List (WOp K (Sq.Op α) (Sq.Init α))) :
    ∃ log A o', World.session (SmallVector.cont E T ib N) (SmallVector.sem E T) ops ⟨fun _ => none, m0⟩ =
        .ok (log, (List.finRange K).map A) o' ∧
      WRun (SmallVector.sem E T) (fun _ => none) ops log A ∧ o'.m.mem = m0.mem ∧ o'.m.blk = m0.blk := by
  refine (SmallVector.spec hN).session hw (fun i => ⟨(hr i).blk, (hr i).raw⟩) ?_ ops
  intro i j hij c h1 h2
  have e1 := h1.2.elim id id
  have e2 := h2.2.elim id id
  exact hd i j hij (e1 ▸ h1.1) (e1.symm.trans e2)

/-- Three vectors: a copy constructor that throws, then succeeds, an append that throws, move construction with another
allocator, copy and move assignment, swap, further use of a moved-from vector. -/
example : Demo.show' (World.session (Vector.cont 3 (Demo.env [5, 13]) Demo.T) (Vector.sem (Demo.env [5, 13]) Demo.T)
    [.make 0 7 (.range [1, 2, 3]), .makeCopy 1 0 none, .makeCopy 1 0 none, .op 1 (.pushBack (.elem 0)),
     .makeMove 2 0 (some 8), .assignCopy 0 1, .swap 0 2, .assignMove 1 0, .assignCopy 2 2, .swap 1 1,
     .op 0 (.pushBack (.value 4)), .destroy 2, .makeMove 2 1 none] ⟨fun _ => none, Demo.m1⟩) =
    some ([.ok none, .threw .elem, .ok none, .threw .elem, .ok none, .ok none, .ok none, .ok none, .ok none, .ok none,
      .ok (some 0), .ok none, .ok none], [some (8, [4]), some (8, []), some (8, [1, 2, 3])]) := by decide +kernel

/-- Three small_vector<int, 2>, with the same kind of program; the swaps are heap/internal and internal/internal. -/
example : Demo.show' (World.session (SmallVector.cont (Demo.env [3, 22]) Demo.T Demo.ib3 2)
    (SmallVector.sem (Demo.env [3, 22]) Demo.T)
    [.make 0 7 (.range [1, 2]), .makeCopy 1 0 (some 7), .makeCopy 1 0 (some 7), .op 1 .popBack, .make 2 7 (.range [5, 6, 7]),
     .swap 0 1, .swap 1 0, .swap 0 2, .swap 0 2, .swap 1 0, .assignMove 2 0, .op 0 (.pushBack (.value 4)), .assignCopy 1 0,
     .destroy 2, .makeMove 2 1 (some 8)] ⟨fun _ => none, Demo.m3⟩) =
    some ([.ok none, .threw .elem, .ok none, .ok none, .ok none, .ok none, .ok none, .ok none, .ok none, .threw .elem,
      .ok none, .ok (some 2), .ok none, .ok none, .ok none],
      [some (7, [1000, 1000, 4]), some (7, [1000, 1000, 1000]), some (8, [1000, 1000, 4])]) := by decide +kernel

example : (∀ i, RawObject Demo.m3 (Demo.ib3 i) 2) ∧ (∀ i j, i ≠ j → Demo.ib3 i ≠ 0 → Demo.ib3 i ≠ Demo.ib3 j) :=
  ⟨Demo.ib3_raw, by decide⟩

/-! ### C13: a throwing swap of small_vectors with propagating allocators -/

/-- The precondition of `swap` stated in the library (small_vector.hpp:1388-1392): the allocators propagate or are
equal. -/
def SmallVector.semAssert (E : Env α) (T : Traits) : Sem (Sq.Op α) (Sq.Init α) α Nat :=
  { SmallVector.sem E T with swapPre := fun a b => T.pocs || a == b }

/-- Whether the result is undefined behaviour. -/
def Demo.isUb {σ β : Type} : Res σ β → Option UB
  | .ub r => some r
  | _ => none

/-- **C13 does not hold** for the case excluded in `smallVector_world_session_partial`: `swap` of an internal and a
heap small_vector with propagating, unequal allocators exchanges the allocators first (small_vector.hpp:1401-1404); if
then the move constructor of an element throws (1480-1486), the container on the heap is left with the allocator of
the other one, and destroying it returns its block to the wrong allocator, which is undefined behaviour. -/
theorem smallVector_swap_throw : ∃ (E : Env Nat) (T : Traits) (ops : List (WOp 3 (Sq.Op Nat) (Sq.Init Nat))) (r : UB),
    World.session (SmallVector.cont E T Demo.ib3 2) (SmallVector.semAssert E T) ops ⟨fun _ => none, Demo.m3⟩ = .ub r := by
  refine ⟨Demo.env [6], Demo.T, [.make 0 7 (.range [1, 2]), .make 1 8 (.range [3, 4, 5]), .swap 0 1], .badDealloc, ?_⟩
  have : Demo.isUb (World.session (SmallVector.cont (Demo.env [6]) Demo.T Demo.ib3 2) (SmallVector.semAssert (Demo.env [6]) Demo.T)
    [.make 0 7 (.range [1, 2]), .make 1 8 (.range [3, 4, 5]), .swap 0 1] ⟨fun _ => none, Demo.m3⟩) = some .badDealloc := by decide +kernel
  unfold Demo.isUb at this
  split at this
  · rename_i r h; rw [h]; simp at this; rw [this]
  · simp at this

/-- The program of the witness: the swap throws and nothing else. -/
example : Demo.show' (World.runOps (SmallVector.cont (Demo.env [6]) Demo.T Demo.ib3 2) (SmallVector.semAssert (Demo.env [6]) Demo.T)
    [.make 0 7 (.range [1, 2]), .make 1 8 (.range [3, 4, 5]), .swap 0 1] ⟨fun _ => none, Demo.m3⟩) =
    some [.ok none, .ok none, .threw .elem] := by decide +kernel

/-! ### C40: constructors -/

/-- **C40.** Constructing a vector from n values, n copies, a range or an input range in any memory: it either has
exactly the requested elements, and destroying it restores memory, or the constructor throws and memory is exactly as
before (a length_error only if more than `max_size` elements were requested). -/
theorem vector_construct (E : Env α) (al : Nat) (m : St α) (hw : m.Wf) (init : Sq.Init α) :
    (∃ o', Vector.construct E init ⟨Vector.empty al, m⟩ = .ok () o' ∧
      (Vector.impl E).contents o' = .ok (init.result E.dflt) o' ∧
      ∃ o2, Vector.destructor o' = .ok () o2 ∧ o2.m.mem = m.mem ∧ o2.m.blk = m.blk) ∨
    (∃ e o', Vector.construct E init ⟨Vector.empty al, m⟩ = .exn e o' ∧ o'.m.mem = m.mem ∧ o'.m.blk = m.blk ∧
      (e = .lengthError → E.maxSize < (init.result E.dflt).length)) := by
  have hr := RawObject.nothing hw
  have h := SmallVector.construct_spec (E := E) (al := al) init hr.gone (Nat.zero_le _)
  have h := wp_congr (Vector.construct_eq init) h
  unfold wp at h
  split at h
  · rename_i _ o' he
    obtain ⟨b', cap', h⟩ := h
    obtain ⟨_, _, c1, rfl, rfl⟩ := wp_elim ((Vector.correct _ E al).contents (xs := init.result E.dflt) ⟨b', cap', h⟩)
    obtain ⟨_, o2, d1, d2⟩ := wp_elim (wp_mono (wp_congr (congrFun SmallVector.destructor_zero _) (destructor_gone h))
      (fun _ o' ⟨g, _, _⟩ => g.restored hr) (fun _ _ h => h))
    exact Or.inl ⟨_, he, c1, o2, d1, d2⟩
  · rename_i e o' he
    exact Or.inr ⟨e, o', he, (h.1.restored hr).1, (h.1.restored hr).2, h.2⟩
  · exact h.elim

/-- Both cases occur: the fourth of five copies throws, or none. -/
example : (∃ e o', Vector.construct (Demo.env [4]) (.fill 5 8) ⟨Vector.empty 3, Demo.m1⟩ = .exn e o') ∧
    ∃ o', Vector.construct (Demo.env [9]) (.fill 5 8) ⟨Vector.empty 3, Demo.m1⟩ = .ok () o' := ⟨⟨_, _, rfl⟩, _, rfl⟩

/-- **C40** for small_vector. -/
theorem smallVector_construct (E : Env α) (ib N al : Nat) (m : St α) (hr : RawObject m ib N) (hN : N ≤ E.maxSize)
    (init : Sq.Init α) :
    (∃ o', SmallVector.construct E ib N init ⟨SmallVector.empty ib N al, m⟩ = .ok () o' ∧
      (SmallVector.impl E ib N).contents o' = .ok (init.result E.dflt) o' ∧
      ∃ o2, SmallVector.destructor ib o' = .ok () o2 ∧ o2.m.mem = m.mem ∧ o2.m.blk = m.blk) ∨
    (∃ e o', SmallVector.construct E ib N init ⟨SmallVector.empty ib N al, m⟩ = .exn e o' ∧
      o'.m.mem = m.mem ∧ o'.m.blk = m.blk ∧ (e = .lengthError → E.maxSize < (init.result E.dflt).length)) := by
  have h := SmallVector.construct_spec (E := E) (al := al) init hr.gone hN
  unfold wp at h
  split at h
  · rename_i _ o' he
    obtain ⟨b', cap', h⟩ := h
    obtain ⟨_, _, c1, rfl, rfl⟩ :=
      wp_elim ((SmallVector.correct _ E al ib N).contents (xs := init.result E.dflt) ⟨b', cap', h⟩)
    obtain ⟨_, o2, d1, d2⟩ := wp_elim (wp_mono (destructor_gone h)
      (fun _ o' ⟨g, _, _⟩ => g.restored hr) (fun _ _ h => h))
    exact Or.inl ⟨_, he, c1, o2, d1, d2⟩
  · rename_i e o' he
    exact Or.inr ⟨e, o', he, (h.1.restored hr).1, (h.1.restored hr).2, h.2⟩
  · exact h.elim

example : (∃ e o', SmallVector.construct (Demo.env [1]) 2 3 (.range [4, 5]) ⟨SmallVector.empty 2 3 7, Demo.m2⟩ =
    .exn e o') ∧ ∃ o', SmallVector.construct (Demo.env [9]) 2 3 (.range [4, 5, 6, 7]) ⟨SmallVector.empty 2 3 7, Demo.m2⟩ =
    .ok () o' := ⟨⟨_, _, rfl⟩, _, rfl⟩

/-! ### C42: moved-from vectors -/

/-- **C42.** Move construction of a vector with the allocator of the source takes over the storage: no element is
touched, memory does not change, and the source is afterwards identical to a default constructed vector (zero size and
capacity), so that every theorem about default constructed vectors (`vector_session`, …) applies to it. -/
theorem vector_move_construct (E : Env α) (w : Vec) (m : St α) :
    Vector.initMove E ⟨(Vector.empty w.alloc, w), m⟩ = .ok () ⟨(w, Vector.empty w.alloc), m⟩ := by
  unfold Vector.initMove
  simp [bind, M.bind, getObj, setObj, Vector.empty, Vec.steal, Vec.null]

/-- **C42** for move assignment with equal or propagating allocators: the source is identical to a default constructed
vector, the target has taken over the storage, and no element of the source has been touched. -/
theorem vector_move_assign {E : Env α} {T : Traits} {al : Nat} {m0 : St α} {v w : Vec} {m : St α} (hw : m0.Wf)
    (hr : Vector.Reachable E al m0 ⟨v, m⟩) (he : T.pocma = true ∨ v.alloc = w.alloc) :
    ∃ m', Vector.assignMove E T ⟨(v, w), m⟩ = .ok () ⟨(w, Vector.empty w.alloc), m'⟩ ∧
      m'.mem = m0.mem ∧ m'.blk = m0.blk := by
  have hr0 := RawObject.nothing hw
  obtain ⟨xs, b, cap, h⟩ := hr.repr hw
  have hal : v.alloc = al := by have := h.obj; simp only at this; rw [this]
  suffices H : wp (Vector.assignMove E T) (fun _ o' => o'.obj = (w, Vector.empty w.alloc) ∧ o'.m.mem = m0.mem ∧
      o'.m.blk = m0.blk) (fun _ _ => False) ⟨(v, w), m⟩ by
    obtain ⟨_, ⟨_, m'⟩, e1, e2, e3⟩ := wp_elim H
    simp only at e2
    subst e2
    exact ⟨m', e1, e3⟩
  unfold Vector.assignMove
  rw [wp_bind, wp_getObj, wp_bind, wp_onThis, Vector.propagate_eq]
  refine wp_mono (propagate_spec h) ?_ (fun _ _ h => h.elim)
  rintro _ ⟨v1, m1⟩ ⟨b1, cap1, xs1, h1, _⟩
  rw [wp_bind, wp_getObj]
  have hal1 : v1.alloc = w.alloc := by
    have := h1.obj
    simp only at this
    rw [this]
    simp only
    split
    · rfl
    · rcases he with he | he
      · exact absurd he ‹_›
      · rw [← hal, he]
  simp only
  rw [if_pos hal1, wp_bind, wp_onThis, ← SmallVector.reset_zero]
  refine wp_mono (reset_spec h1 (Nat.zero_le _)) ?_ (fun _ _ h => absurd h.2.1 (by omega))
  rintro _ ⟨v2, m2⟩ ⟨b2, h2, _⟩
  rw [wp_bind, wp_getObj, wp_setObj]
  have hb : b2 = 0 := by
    rcases h2.st.own with h | h | h
    · exact h.1
    · exact h.1
    · exact absurd h.1 (by simp)
  have hal2 : v2.alloc = w.alloc := by
    have e1 : v1.alloc = (if T.pocma = true then w.alloc else al) := congrArg Vec.alloc h1.obj
    have e2 : v2.alloc = (if T.pocma = true then w.alloc else al) := congrArg Vec.alloc h2.obj
    rw [e2, ← e1, hal1]
  have g := (h2.gone ⟨hb, rfl⟩).restored hr0
  refine ⟨?_, g⟩
  simp [Vec.steal, Vec.null, Vector.empty, hal2]

/-- The hypotheses are met by two vectors with unequal propagating allocators. -/
example : Vector.Reachable (Demo.env []) 3 Demo.m1 (Demo.v (Demo.env [])) ∧ Demo.T.pocma = true :=
  ⟨Demo.v_reachable _, rfl⟩

end Sfl
