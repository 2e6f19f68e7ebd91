import Verif.Vector
import Verif.SmallVector
/-
  Operations of vector and small_vector that involve a second container: copy and move construction,
  copy and move assignment, swap. Model only.
-/

namespace Sfl
open Sfl.Vector (VM)
variable {α : Type}

/-- The propagation traits of the allocator type (`std::allocator_traits`): used in vector.hpp:162-170, 1163-1176,
1583-1591, 1603-1611 and small_vector.hpp:213-221, 1388-1404, 1989-1997, 2009-2017. -/
structure Traits where
  pocca : Bool
  pocma : Bool
  pocs : Bool
  soccc : Nat → Nat

/-- Programs on two containers, `*this` and `other`. -/
abbrev M2 (α β : Type) : Type := M (Obj (Vec × Vec) α) β

/-- A member function of `*this` that leaves the data members of `other` alone. -/
def onThis {V W β : Type} (p : M (Obj V α) β) : M (Obj (V × W) α) β := fun o =>
  match p ⟨o.obj.1, o.m⟩ with
  | .ok b o' => .ok b ⟨(o'.obj, o.obj.2), o'.m⟩
  | .exn e o' => .exn e ⟨(o'.obj, o.obj.2), o'.m⟩
  | .ub r => .ub r

/-- A member function of `other` that leaves the data members of `*this` alone. -/
def onOther {V W β : Type} (p : M (Obj W α) β) : M (Obj (V × W) α) β := fun o =>
  match p ⟨o.obj.2, o.m⟩ with
  | .ok b o' => .ok b ⟨(o.obj.1, o'.obj), o'.m⟩
  | .exn e o' => .exn e ⟨(o.obj.1, o'.obj), o'.m⟩
  | .ub r => .ub r

/-- std::swap_ranges with std::swap of the elements (used at small_vector.hpp:1418-1423, 1443-1448):
`T tmp(std::move(*p)); *p = std::move(*q); *q = std::move(tmp);` for each pair. -/
def swapRanges (E : Env α) (p q : Ptr) : Nat → M (St α) Unit
  | 0 => pure ()
  | n + 1 => do
    let t ← mkTmp E (.mv p)
    assign E p (.mv q)
    assign E q (.rv t)
    swapRanges E (p.add 1) (q.add 1) n

/-- Null data members after the storage has been taken (vector.hpp:1394-1396, 1619-1621,
small_vector.hpp:1793-1795, 2033-2035). -/
def Vec.null (v : Vec) : Vec := { v with first := Ptr.null, last := Ptr.null, eos := Ptr.null }

/-- Take over the storage of another container (vector.hpp:1390-1392, 1615-1617,
small_vector.hpp:1789-1791, 2029-2031). -/
def Vec.steal (v w : Vec) : Vec := { v with first := w.first, last := w.last, eos := w.eos }

namespace SmallVector

/-- small_vector.hpp:1741-1773 `initialize_copy`, called by the copy constructors (213-228). -/
def initCopy (E : Env α) (N : Nat) (other : Vec) : VM α Unit := do
  let n ← distance other.first other.last
  initWith E N (args .ref other.first n)

/-- small_vector.hpp:1775-1830 `initialize_move`, called by the move constructors (230-240).
`ibo` is the internal storage of `other`. -/
def initMove (E : Env α) (N ibo : Nat) : M2 α Unit := do
  let o ← getObj
  if o.2.first = ⟨ibo, 0⟩ then do
    let l ← lift (uninitMove E o.2.first o.2.last o.1.first)
    setObj ({ o.1 with last := l }, o.2)
  else if o.1.alloc = o.2.alloc then
    setObj (o.1.steal o.2, o.2.null)
  else do
    let n ← distance o.2.first o.2.last
    onThis (initWith E N (args .mv o.2.first n))

/-- The allocator part of the assignments: small_vector.hpp:1989-1997 and 2009-2017 (`flag` is the propagation
trait, `al` the allocator of the other container). -/
def propagate (E : Env α) (ib N : Nat) (flag : Bool) (al : Nat) : VM α Unit := do
  let v ← getObj
  if flag = true then do
    if v.alloc ≠ al then reset E ib N 0 else pure ()
    let v ← getObj
    setObj { v with alloc := al }
  else pure ()

/-- small_vector.hpp:1985-2005 `assign_copy` for `this != &other` (the test at 1987 is made by the caller, see
`World.lean`). -/
def assignCopy (E : Env α) (T : Traits) (ib N : Nat) (other : Vec) : VM α Unit := do
  propagate E ib N T.pocca other.alloc
  let n ← distance other.first other.last
  assignRange E ib N (args .ref other.first n)

/-- small_vector.hpp:2007-2047 `assign_move`. -/
def assignMove (E : Env α) (T : Traits) (ib N ibo : Nat) : M2 α Unit := do
  let o ← getObj
  onThis (propagate E ib N T.pocma o.2.alloc)
  let o ← getObj
  if o.2.first = ⟨ibo, 0⟩ then do
    let n ← distance o.2.first o.2.last
    onThis (assignRange E ib N (args .mv o.2.first n))
  else if o.1.alloc = o.2.alloc then do
    onThis (reset E ib N 0)
    let o ← getObj
    setObj (o.1.steal o.2, o.2.null)
  else do
    let n ← distance o.2.first o.2.last
    onThis (assignRange E ib N (args .mv o.2.first n))

/-- small_vector.hpp:1411-1467: both containers use their internal storage. -/
def swapInternal (E : Env α) : M2 α Unit := do
  let o ← getObj
  let n ← distance o.1.first o.1.last
  let k ← distance o.2.first o.2.last
  if n ≤ k then do
    lift (swapRanges E o.1.first o.2.first n)
    let _ ← lift (uninitMove E (o.2.first.add n) (o.2.first.add k) (o.1.first.add n))
    lift (destroyRange (o.2.first.add n) (o.2.first.add k))
  else do
    lift (swapRanges E o.2.first o.1.first k)
    let _ ← lift (uninitMove E (o.1.first.add k) (o.1.first.add n) (o.2.first.add k))
    lift (destroyRange (o.1.first.add k) (o.1.first.add n))
  setObj ({ o.1 with last := o.1.first.add k }, { o.2 with last := o.2.first.add n })

/-- small_vector.hpp:1468-1500: `*this` is internal, `other` is not. -/
def swapInHeap (E : Env α) (N ibo : Nat) : M2 α Unit := do
  let o ← getObj
  let l ← lift (uninitMove E o.1.first o.1.last ⟨ibo, 0⟩)
  lift (destroyRange o.1.first o.1.last)
  setObj (o.1.steal o.2, { o.2 with first := ⟨ibo, 0⟩, last := l, eos := (⟨ibo, 0⟩ : Ptr).add N })

/-- small_vector.hpp:1501-1533: `other` is internal, `*this` is not. -/
def swapHeapIn (E : Env α) (N ib : Nat) : M2 α Unit := do
  let o ← getObj
  let l ← lift (uninitMove E o.2.first o.2.last ⟨ib, 0⟩)
  lift (destroyRange o.2.first o.2.last)
  setObj ({ o.1 with first := ⟨ib, 0⟩, last := l, eos := (⟨ib, 0⟩ : Ptr).add N }, o.2.steal o.1)

/-- small_vector.hpp:1388-1404: assertion on the allocators, exchange of the allocators (same text in
vector.hpp:1163-1176). -/
def swapAlloc (T : Traits) : M2 α Unit := do
  let o ← getObj
  M.assert (T.pocs = true ∨ o.1.alloc = o.2.alloc)
  if T.pocs = true then setObj ({ o.1 with alloc := o.2.alloc }, { o.2 with alloc := o.1.alloc }) else pure ()

/-- small_vector.hpp:1379-1537 `swap` for `this != &other`. -/
def swap (E : Env α) (T : Traits) (N ib ibo : Nat) : M2 α Unit := do
  swapAlloc T
  let o ← getObj
  if o.1.first = ⟨ib, 0⟩ ∧ o.2.first = ⟨ibo, 0⟩ then swapInternal E
  else if o.1.first = ⟨ib, 0⟩ then swapInHeap E N ibo
  else if o.2.first = ⟨ibo, 0⟩ then swapHeapIn E N ib
  else setObj (o.1.steal o.2, o.2.steal o.1)

end SmallVector

namespace Vector

/-- vector.hpp:1359-1384 `initialize_copy`, called by the copy constructors (162-177). -/
def initCopy (E : Env α) (other : Vec) : VM α Unit := do
  let n ← distance other.first other.last
  initWith E (args .ref other.first n)

/-- vector.hpp:1386-1424 `initialize_move`, called by the move constructors (179-189). -/
def initMove (E : Env α) : M2 α Unit := do
  let o ← getObj
  if o.1.alloc = o.2.alloc then
    setObj (o.1.steal o.2, o.2.null)
  else do
    let n ← distance o.2.first o.2.last
    onThis (initWith E (args .mv o.2.first n))

/-- The allocator part of the assignments: vector.hpp:1583-1591 and 1603-1611. -/
def propagate (E : Env α) (flag : Bool) (al : Nat) : VM α Unit := do
  let v ← getObj
  if flag = true then do
    if v.alloc ≠ al then reset E 0 else pure ()
    let v ← getObj
    setObj { v with alloc := al }
  else pure ()

/-- vector.hpp:1579-1599 `assign_copy` for `this != &other`. -/
def assignCopy (E : Env α) (T : Traits) (other : Vec) : VM α Unit := do
  propagate E T.pocca other.alloc
  let n ← distance other.first other.last
  assignRange E (args .ref other.first n)

/-- vector.hpp:1601-1633 `assign_move`. -/
def assignMove (E : Env α) (T : Traits) : M2 α Unit := do
  let o ← getObj
  onThis (propagate E T.pocma o.2.alloc)
  let o ← getObj
  if o.1.alloc = o.2.alloc then do
    onThis (reset E 0)
    let o ← getObj
    setObj (o.1.steal o.2, o.2.null)
  else do
    let n ← distance o.2.first o.2.last
    onThis (assignRange E (args .mv o.2.first n))

/-- vector.hpp:1154-1182 `swap` for `this != &other`. -/
def swap (T : Traits) : M2 α Unit := do
  SmallVector.swapAlloc T
  let o ← getObj
  setObj (o.1.steal o.2, o.2.steal o.1)

end Vector

end Sfl
