import Verif.PropUnord
import Verif.PropSmallVector
/-
  C55: the small flat containers do not allocate while their elements fit the internal storage.
-/

namespace Sfl
open Sq
variable {α κ : Type}

/-- The operation of a small flat container never asks for more than `N` elements. -/
def Flat.FitsIn (multi : Bool) (N n : Nat) (op : Flat.Op α κ) : Bool := op.pre multi n && decide (op.room n ≤ N)

/-- The operation of a small unordered flat container never asks for more than `N` elements. -/
def Unord.FitsIn (multi : Bool) (N n : Nat) (op : Unord.Op α κ) : Bool := op.pre multi n && decide (op.room n ≤ N)

/-- **C55** (small_flat_set, small_flat_map, small_flat_multiset, small_flat_multimap). A default constructed container
on which only operations are performed that never ask for more than `N` elements: no memory is ever allocated (`next`
counts allocations), the blocks of memory stay as they are, bad_alloc is never thrown, and the elements are in the
internal storage (the object still points to it). -/
theorem smallFlat_no_allocation (multi : Bool) (C : Order α κ) (L : C.Lawful) (E : Env α) (ib N al : Nat) (m0 : St α)
    (hr : RawObject m0 ib N) (hN : N ≤ E.maxSize) (ops : List (Flat.Op α κ)) :
    ∃ log o', (Flat.smallImpl multi C E ib N).runOps (Flat.FitsIn multi N) ops ⟨SmallVector.empty ib N al, m0⟩ = .ok log o' ∧
      o'.m.next = m0.next ∧ o'.m.blk = m0.blk ∧ o'.obj.first = ⟨ib, 0⟩ ∧ o'.obj.eos = ⟨ib, N⟩ ∧
      Out.threw .badAlloc ∉ log := by
  have hi : VSt (Heap.around m0 ib) E ib N ⟨SmallVector.empty ib N al, m0⟩ al ib N [] :=
    VSt.mkEmpty (hr.gone).st hr.raw hN
  have C : Correct (Flat.smallImpl multi C E ib N) (Flat.FitsIn multi N) (fun _ _ _ _ => True)
      (fun _ _ e _ => e ≠ .badAlloc)
      (fun o xs => VSt (Heap.around m0 ib) E ib N o al ib N xs ∧ o.m.next = m0.next) :=
    { size := by
        rintro o xs ⟨h, h0⟩
        exact wp_size h.obj ⟨rfl, rfl⟩
      index := by
        rintro o xs i v ⟨h, h0⟩ hv
        exact index_spec h hv
      exec := by
        rintro o xs op ⟨h, h0⟩ hp
        obtain ⟨hp1, hp2⟩ : op.pre multi xs.length = true ∧ op.room xs.length ≤ N := by simpa [Flat.FitsIn] using hp
        refine wp_mono (Flat.exec_spec L (Flat.small_ok multi E ib N) op h hp1 (fun h => by cases h)) ?_ ?_
        · rintro r o' ⟨b', cap', xs', k1, -⟩
          obtain ⟨rfl, rfl, k3⟩ := k1.inside rfl rfl hp2
          exact ⟨xs', ⟨k1.v, k3.trans h0⟩, trivial⟩
        · rintro e o' ⟨b', cap', xs', k1, -⟩
          obtain ⟨rfl, rfl, k3, k4⟩ := k1.inside rfl rfl hp2
          exact ⟨xs', ⟨k1.v, k3.trans h0⟩, k4⟩ }
  obtain ⟨log, o', h1, ys, ⟨h2, h3⟩, h4⟩ := wp_elim (C.runOps ops _ _ ⟨hi, rfl⟩)
  refine ⟨log, o', h1, h3, hi.blk_eq h2, by rw [h2.obj], by rw [h2.obj], ?_⟩
  intro hm
  exact Run.all_threw (P := fun e => e ≠ .badAlloc) (fun _ _ _ _ h => h) h4 _ hm rfl

/-- Ten operations on a small_flat_set<int, 3>, one of them failing; a fourth element is never asked for. -/
example : Demo.show' ((Flat.smallImpl false Demo.asc (Demo.env [6]) 2 3).runOps (Flat.FitsIn false 3)
    [.insert (.value 5), .insert (.value 3), .insert (.value 9), .emplace 4, .eraseKey 3, .emplaceHint 0 4, .insertRange [1],
      .assignList [7, 1, 7], .reserve 3, .shrinkToFit] ⟨SmallVector.empty 2 3 7, Demo.m2⟩) =
    some [.ok (.ins 0 true), .ok (.ins 0 true), .threw .elem, .ok (.ins 1 true), .ok (.num 1), .ok (.pos 0), .ok .unit, .ok .unit,
      .ok .unit, .ok .unit] := by decide +kernel

/-- **C55** (small_unordered_flat_set, small_unordered_flat_map, small_unordered_flat_multiset,
small_unordered_flat_multimap). -/
theorem smallUnord_no_allocation (multi isMap : Bool) (U : KeyEq α κ) (L : U.Lawful) (E : Env α) (ib N al : Nat)
    (m0 : St α) (hr : RawObject m0 ib N) (hN : N ≤ E.maxSize) (ops : List (Unord.Op α κ)) :
    ∃ log o', (Unord.smallImpl multi isMap U E ib N).runOps (Unord.FitsIn multi N) ops ⟨SmallVector.empty ib N al, m0⟩ =
        .ok log o' ∧
      o'.m.next = m0.next ∧ o'.m.blk = m0.blk ∧ o'.obj.first = ⟨ib, 0⟩ ∧ o'.obj.eos = ⟨ib, N⟩ ∧
      Out.threw .badAlloc ∉ log := by
  have hi : VSt (Heap.around m0 ib) E ib N ⟨SmallVector.empty ib N al, m0⟩ al ib N [] :=
    VSt.mkEmpty (hr.gone).st hr.raw hN
  have C : Correct (Unord.smallImpl multi isMap U E ib N) (Unord.FitsIn multi N) (fun _ _ _ _ => True)
      (fun _ _ e _ => e ≠ .badAlloc)
      (fun o xs => VSt (Heap.around m0 ib) E ib N o al ib N xs ∧ o.m.next = m0.next) :=
    { size := by
        rintro o xs ⟨h, h0⟩
        exact wp_size h.obj ⟨rfl, rfl⟩
      index := by
        rintro o xs i v ⟨h, h0⟩ hv
        exact index_spec h hv
      exec := by
        rintro o xs op ⟨h, h0⟩ hp
        obtain ⟨hp1, hp2⟩ : op.pre multi xs.length = true ∧ op.room xs.length ≤ N := by simpa [Unord.FitsIn] using hp
        refine wp_mono (Unord.exec_spec L (Unord.small_ok multi isMap E ib N) op h hp1 (fun h => by cases h)) ?_ ?_
        · rintro r o' ⟨b', cap', xs', k1, -⟩
          obtain ⟨rfl, rfl, k3⟩ := k1.inside rfl rfl hp2
          exact ⟨xs', ⟨k1.v, k3.trans h0⟩, trivial⟩
        · rintro e o' ⟨b', cap', xs', k1, -⟩
          obtain ⟨rfl, rfl, k3, k4⟩ := k1.inside rfl rfl hp2
          exact ⟨xs', ⟨k1.v, k3.trans h0⟩, k4⟩ }
  obtain ⟨log, o', h1, ys, ⟨h2, h3⟩, h4⟩ := wp_elim (C.runOps ops _ _ ⟨hi, rfl⟩)
  refine ⟨log, o', h1, h3, hi.blk_eq h2, by rw [h2.obj], by rw [h2.obj], ?_⟩
  intro hm
  exact Run.all_threw (P := fun e => e ≠ .badAlloc) (fun _ _ _ _ h => h) h4 _ hm rfl

/-- Ten operations on a small_unordered_flat_set<int, 3>; the two that would ask for a fourth element are skipped. -/
example : Demo.show' ((Unord.smallImpl false false Demo.ueq (Demo.env [6]) 2 3).runOps (Unord.FitsIn false 3)
    [.insert (.value 5), .insert (.value 3), .insert (.value 9), .emplace 4, .eraseKey 3, .emplaceHint 0 4, .insertRange [1],
      .assignList [7, 1, 7], .reserve 3, .shrinkToFit] ⟨SmallVector.empty 2 3 7, Demo.m2⟩) =
    some [.ok (.ins 0 true), .ok (.ins 1 true), .ok (.ins 2 true), .skipped, .ok (.num 1), .ok (.pos 2), .skipped, .ok .unit,
      .ok .unit, .ok .unit] := by decide +kernel

end Sfl
