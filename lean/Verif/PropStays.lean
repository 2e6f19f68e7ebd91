import Verif.StaysSmall
/-
  C57: programs with several small containers do not allocate while everything fits the internal storages.
-/

namespace Sfl
open World Sq
variable {α κ : Type} {K : Nat}

/-- The client of small_vectors with room for `N` elements: it never calls a constructor or an operation that asks for more
than `N` elements. -/
def SmallVector.semWithin (E : Env α) (T : Traits) (N : Nat) : Sem (Sq.Op α) (Sq.Init α) α Nat :=
  (SmallVector.sem E T).limit (fun n op => decide (op.room n ≤ N)) (fun init => decide ((init.result E.dflt).length ≤ N))

/-- The same for the small ordered flat containers. -/
def Flat.semWithin (multi : Bool) (C : Order α κ) (E : Env α) (T : Traits) (N : Nat) : Sem (Flat.Op α κ) (Flat.Init α) α Flat.Ret :=
  (Flat.smallSem multi C E T).limit (fun n op => decide (op.room n ≤ N)) (fun init => decide (init.count ≤ N))

/-- The same for the small unordered flat containers. -/
def Unord.semWithin (multi isMap : Bool) (U : KeyEq α κ) (E : Env α) (T : Traits) (N : Nat) :
    Sem (Unord.Op α κ) (Flat.Init α) α Flat.Ret :=
  (Unord.smallSem multi isMap U E T).limit (fun n op => decide (op.room n ≤ N)) (fun init => decide (init.count ≤ N))

/-- **C57** (small_vector). A program with `K` small_vectors that constructs, copies, moves, assigns, swaps, modifies and
destroys them in any order, but never asks for more than `N` elements: it runs without undefined behaviour, no memory is
ever allocated (`next` counts allocations), the blocks of memory stay as they are, bad_alloc is never thrown, and the
elements of every vector are in its own internal storage. -/
theorem smallVector_world_no_allocation (E : Env α) (T : Traits) (ib : Fin K → Nat) (N : Nat) (m0 : St α)
    (hm : Objects E ib N m0) (ops : List (WOp K (Sq.Op α) (Sq.Init α))) :
    ∃ log o', runOps (SmallVector.cont E T ib N) (SmallVector.semWithin E T N) ops ⟨fun _ => none, m0⟩ = .ok log o' ∧
      o'.m.next = m0.next ∧ o'.m.blk = m0.blk ∧ Out.threw .badAlloc ∉ log ∧
      ∀ i v, o'.obj i = some v → v.first = ⟨ib i, 0⟩ ∧ v.eos = ⟨ib i, N⟩ := by
  have hS := (SmallVector.spec (E := E) (T := T) (ib := ib) hm.fits).limit (fun n op => decide (op.room n ≤ N))
    (fun init => decide ((init.result E.dflt).length ≤ N))
  obtain ⟨log, o', h1, h2, h3, h4⟩ := (SmallVector.confined hm.fits).runOps hS ops (hm.start hS) (by rintro i v ⟨⟩)
  exact ⟨log, o', h1, h2.next, h2.blk, h4, h3⟩

/-- Thirteen steps with three small_vector<int, 2>, one of them failing; the two that would ask for a third element are
skipped. -/
example : Demo.show' (runOps (SmallVector.cont (Demo.env [14, 18]) Demo.T Demo.ib3 2) (SmallVector.semWithin (Demo.env [14, 18]) Demo.T 2)
    [.make 0 7 (.range [1, 2]), .make 1 8 (.count 3), .makeCopy 1 0 (some 7), .op 1 (.pushBack (.value 5)), .op 1 (.eraseAt 0),
     .makeMove 2 1 none,
     .op 2 (.pushBack (.value 6)), .assignMove 0 2, .swap 0 1, .assignCopy 2 1, .op 1 .clear, .op 1 (.reserve 2), .destroy 0]
    ⟨fun _ => none, Demo.m3⟩) =
    some [.ok none, .skipped, .ok none, .skipped, .ok (some 0), .ok none, .ok (some 1), .ok none, .ok none, .threw .elem, .ok none,
      .ok none, .ok none] := by
  decide +kernel

/-- **C57** (small_flat_set, small_flat_map, small_flat_multiset, small_flat_multimap). -/
theorem smallFlat_world_no_allocation (multi : Bool) (C : Order α κ) (L : C.Lawful) (E : Env α) (T : Traits)
    (ib : Fin K → Nat) (N : Nat) (m0 : St α) (hm : Objects E ib N m0) (ops : List (WOp K (Flat.Op α κ) (Flat.Init α))) :
    ∃ log o', runOps (Flat.smallCont multi C E T ib N) (Flat.semWithin multi C E T N) ops ⟨fun _ => none, m0⟩ = .ok log o' ∧
      o'.m.next = m0.next ∧ o'.m.blk = m0.blk ∧ Out.threw .badAlloc ∉ log ∧
      ∀ i v, o'.obj i = some v → v.first = ⟨ib i, 0⟩ ∧ v.eos = ⟨ib i, N⟩ := by
  have hS := (Flat.smallSpec (multi := multi) (E := E) (T := T) (ib := ib) L hm.fits).limit (fun n op => decide (op.room n ≤ N))
    (fun init => decide (init.count ≤ N))
  obtain ⟨log, o', h1, h2, h3, h4⟩ := (Flat.small_confined L hm.fits).runOps hS ops (hm.start hS) (by rintro i v ⟨⟩)
  exact ⟨log, o', h1, h2.next, h2.blk, h4, h3⟩

/-- The same with three small_flat_set<int, 2>; two steps fail. -/
example : Demo.show' (runOps (Flat.smallCont false Demo.asc (Demo.env [14, 18]) Demo.T Demo.ib3 2) (Flat.semWithin false Demo.asc (Demo.env [14, 18]) Demo.T 2)
    [.make 0 7 (.range [2, 1]), .make 1 8 (.range [1, 1, 1]), .makeCopy 1 0 (some 7), .op 1 (.insert (.value 5)), .op 1 (.eraseKey 1),
     .makeMove 2 1 none,
     .op 2 (.insert (.value 6)), .assignMove 0 2, .swap 0 1, .assignCopy 2 1, .op 1 .clear, .op 1 (.reserve 2), .destroy 0]
    ⟨fun _ => none, Demo.m3⟩) =
    some [.ok none, .skipped, .ok none, .skipped, .ok (some (.num 1)), .ok none, .ok (some (.ins 1 true)), .threw .elem, .threw .elem,
      .ok none, .ok (some .unit), .ok (some .unit), .ok none] := by
  decide +kernel

/-- **C57** (small_unordered_flat_set, small_unordered_flat_map, small_unordered_flat_multiset,
small_unordered_flat_multimap). -/
theorem smallUnord_world_no_allocation (multi isMap : Bool) (U : KeyEq α κ) (L : U.Lawful) (E : Env α) (T : Traits)
    (ib : Fin K → Nat) (N : Nat) (m0 : St α) (hm : Objects E ib N m0) (ops : List (WOp K (Unord.Op α κ) (Flat.Init α))) :
    ∃ log o', runOps (Unord.smallCont multi isMap U E T ib N) (Unord.semWithin multi isMap U E T N) ops ⟨fun _ => none, m0⟩ =
        .ok log o' ∧
      o'.m.next = m0.next ∧ o'.m.blk = m0.blk ∧ Out.threw .badAlloc ∉ log ∧
      ∀ i v, o'.obj i = some v → v.first = ⟨ib i, 0⟩ ∧ v.eos = ⟨ib i, N⟩ := by
  have hS := (Unord.smallSpec (multi := multi) (isMap := isMap) (E := E) (T := T) (ib := ib) L hm.fits).limit
    (fun n op => decide (op.room n ≤ N)) (fun init => decide (init.count ≤ N))
  obtain ⟨log, o', h1, h2, h3, h4⟩ := (Unord.small_confined L hm.fits).runOps hS ops (hm.start hS) (by rintro i v ⟨⟩)
  exact ⟨log, o', h1, h2.next, h2.blk, h4, h3⟩

/-- The same with three small_unordered_flat_set<int, 2>; one step fails. -/
example : Demo.show' (runOps (Unord.smallCont false false Demo.ueq (Demo.env [14, 18]) Demo.T Demo.ib3 2) (Unord.semWithin false false Demo.ueq (Demo.env [14, 18]) Demo.T 2)
    [.make 0 7 (.range [2, 1]), .make 1 8 (.range [1, 1, 1]), .makeCopy 1 0 (some 7), .op 1 (.insert (.value 5)), .op 1 (.eraseKey 1),
     .makeMove 2 1 none,
     .op 2 (.insert (.value 6)), .assignMove 0 2, .swap 0 1, .assignCopy 2 1, .op 1 .clear, .op 1 (.reserve 2), .destroy 0]
    ⟨fun _ => none, Demo.m3⟩) =
    some [.ok none, .skipped, .ok none, .skipped, .ok (some (.num 1)), .ok none, .ok (some (.ins 1 true)), .ok none, .threw .elem,
      .ok none, .ok (some .unit), .ok (some .unit), .ok none] := by
  decide +kernel

end Sfl
