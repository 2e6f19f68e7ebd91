import Verif.Store
import Verif.Vector
/-
  Model of sfl::small_vector, /repo/include/sfl/small_vector.hpp.

  The internal storage of the object (small_vector.hpp:71-99) is a memory block `ib` with `N` slots that
  belongs to no allocator. For `N == 0` (small_vector.hpp:101-121) `internal_storage()` is null: `ib = 0`, `N = 0`.
-/

namespace Sfl
namespace SmallVector
open Sfl.Vector (VM size capacity available checkSize index at' front back clear InRange popBack eraseAt eraseRange
  assignRangeLoop)
variable {α : Type}

/-- small_vector.hpp:79-99 / 101-121: default constructor, `internal_storage()`. -/
def empty (ib N al : Nat) : Vec := ⟨⟨ib, 0⟩, ⟨ib, 0⟩, ⟨ib, N⟩, al⟩

/-- small_vector.hpp:1549-1571 `calculate_new_capacity`, on natural numbers (see `Capacity.lean`
for the 64-bit version). `none` stands for throwing length_error. -/
def newCapacity (N maxSize size capacity n : Nat) : Option Nat :=
  if maxSize - size < n then none
  else if maxSize - capacity < capacity / 2 then some maxSize
  else if size + n < capacity + capacity / 2 then some (max N (capacity + capacity / 2))
  else some (max N (size + n))

/-- small_vector.hpp:1549-1571 `calculate_new_capacity`. -/
def calculateNewCapacity (E : Env α) (N n : Nat) : VM α Nat := do
  let sz ← size
  let cap ← capacity
  match newCapacity N E.maxSize sz cap n with
  | none => M.throw .lengthError
  | some c => pure c

/-- Choice of the new storage, verbatim in small_vector.hpp:808-823 (emplace), 971-986 (emplace_back),
1142-1157 and 1272-1287 (resize), 2130-2145 (insert_fill_n), 2343-2358 (insert_range).
Returns `new_first` and `new_eos - new_first`. -/
def newStorage (E : Env α) (ib N newCap : Nat) : VM α (Ptr × Nat) := do
  let v ← getObj
  if newCap ≤ N ∧ v.first ≠ ⟨ib, 0⟩ then pure (⟨ib, 0⟩, N)
  else
    let p ← lift (allocate E v.alloc newCap)
    pure (p, newCap)

/-- The block "destroy_a(first_, last_); if (first_ != internal_storage()) deallocate(first_, distance(first_, eos_))"
followed by installing new pointers; small_vector.hpp:526-548, 626-648, 882-904, 1038-1060, 1216-1238,
1348-1370, 2221-2243, 2414-2436. -/
def replaceStorage (ib : Nat) (newFirst newLast newEos : Ptr) : VM α Unit := do
  let v ← getObj
  lift (destroyRange v.first v.last)
  let n ← distance v.first v.eos
  lift (freeUnless ib v.alloc v.first n)
  setObj { v with first := newFirst, last := newLast, eos := newEos }

/-- small_vector.hpp:454-552 `reserve` and 554-652 `shrink_to_fit` share this body: move the elements
to a storage of `newCap` elements. (In the branch that goes back to the internal storage the code calls
`deallocate` without the comparison with `internal_storage()`, which is known to be false there.) -/
def relocate (E : Env α) (ib N newCap : Nat) : VM α Unit := do
  let v ← getObj
  if newCap ≤ N then
    if v.first = ⟨ib, 0⟩ then pure ()
    else
      let newFirst : Ptr := ⟨ib, 0⟩
      let newLast ← lift (uninitMoveIf E v.first v.last newFirst)
      lift (destroyRange v.first v.last)
      let n ← distance v.first v.eos
      lift (deallocate v.alloc v.first n)
      setObj { v with first := newFirst, last := newLast, eos := newFirst.add N }
  else
    let newFirst ← lift (allocate E v.alloc newCap)
    let newEos := newFirst.add newCap
    let newLast ← M.tryCatch (lift (uninitMoveIf E v.first v.last newFirst)) (fun e => do
      lift (deallocate v.alloc newFirst newCap)
      M.throw e)
    replaceStorage ib newFirst newLast newEos

/-- small_vector.hpp:454-552 `reserve`. -/
def reserve (E : Env α) (ib N newCap : Nat) : VM α Unit := do
  checkSize E newCap
  let cap ← capacity
  if newCap > cap then relocate E ib N newCap else pure ()

/-- small_vector.hpp:554-652 `shrink_to_fit`. -/
def shrinkToFit (E : Env α) (ib N : Nat) : VM α Unit := do
  let newCap ← size
  let cap ← capacity
  if newCap < cap then relocate E ib N newCap else pure ()

/-- small_vector.hpp:750-914 `emplace`. In the reallocating branch the C++ `try` block encloses three steps;
the handler depends on the current value of `new_last`, passed here explicitly. -/
def emplace (E : Env α) (ib N : Nat) (pos : Ptr) (a : Arg α) : VM α Ptr := do
  let v ← getObj
  M.assert (InRange v pos)
  let offset := pos.off - v.first.off
  if v.last ≠ v.eos then
    let p1 := v.first.add offset
    if p1 = v.last then
      lift (construct E p1 a)
      setObj { v with last := v.last.add 1 }
      pure p1
    else
      let tmp ← lift (mkTmp E a)
      let p2 := v.last.sub 1
      let oldLast := v.last
      lift (construct E v.last (.mv p2))
      setObj { v with last := v.last.add 1 }
      let _ ← lift (moveBackward E p1 p2 oldLast)
      lift (assign E p1 (.rv tmp))
      pure p1
  else
    let newCap ← calculateNewCapacity E N 1
    let (newFirst, newN) ← newStorage E ib N newCap
    let newEos := newFirst.add newN
    let p := newFirst.add offset
    let handler {β : Type} (newLast : Ptr) (e : Exn) : VM α β := do
      if newLast = Ptr.null then lift (destroyAt p) else lift (destroyRange newFirst newLast)
      lift (freeUnless ib v.alloc newFirst newCap)
      M.throw e
    M.tryCatch (lift (construct E p a)) (handler newFirst)
    let newLast ← M.tryCatch (lift (uninitMoveIf E v.first (v.first.add offset) newFirst)) (handler Ptr.null)
    let newLast := newLast.add 1
    let newLast ← M.tryCatch (lift (uninitMoveIf E (v.first.add offset) v.last newLast)) (handler newLast)
    replaceStorage ib newFirst newLast newEos
    pure p

/-- small_vector.hpp:948-1062 `emplace_back` (push_back: 1064-1072). Returns the position of the new element. -/
def emplaceBack (E : Env α) (ib N : Nat) (a : Arg α) : VM α Ptr := do
  let v ← getObj
  if v.last ≠ v.eos then
    lift (construct E v.last a)
    setObj { v with last := v.last.add 1 }
    pure v.last
  else
    let newCap ← calculateNewCapacity E N 1
    let (newFirst, newN) ← newStorage E ib N newCap
    let newEos := newFirst.add newN
    let sz ← size
    let p := newFirst.add sz
    let handler {β : Type} (newLast : Ptr) (e : Exn) : VM α β := do
      if newLast = Ptr.null then lift (destroyAt p) else pure ()
      lift (freeUnless ib v.alloc newFirst newCap)
      M.throw e
    M.tryCatch (lift (construct E p a)) (handler newFirst)
    let newLast ← M.tryCatch (lift (uninitMoveIf E v.first v.last newFirst)) (handler Ptr.null)
    let newLast := newLast.add 1
    replaceStorage ib newFirst newLast newEos
    pure p

/-- small_vector.hpp:1117-1245 `resize(n)` and 1247-1377 `resize(n, value)`: the two bodies differ only in
the algorithm constructing the new elements at `p` (default_construct_n / fill_n), given here by
the list of initialisers `as` (`n - size()` of them). -/
def resizeWith (E : Env α) (ib N : Nat) (n : Nat) (a : Arg α) : VM α Unit := do
  checkSize E n
  let v ← getObj
  let sz ← size
  if n < sz then
    let newLast := v.first.add n
    lift (destroyRange newLast v.last)
    setObj { v with last := newLast }
  else if n > sz then
    let delta := n - sz
    let cap ← capacity
    if n > cap then
      let (newFirst, newN) ← newStorage E ib N n
      let newEos := newFirst.add newN
      let p := newFirst.add sz
      let handler {β : Type} (newLast : Ptr) (e : Exn) : VM α β := do
        if newLast = Ptr.null then lift (destroyN p delta) else lift (destroyRange newFirst newLast)
        lift (freeUnless ib v.alloc newFirst n)
        M.throw e
      let _ ← M.tryCatch (lift (uninitFillN E p delta a)) (handler newFirst)
      let newLast ← M.tryCatch (lift (uninitMoveIf E v.first v.last newFirst)) (handler Ptr.null)
      let newLast := newLast.add delta
      replaceStorage ib newFirst newLast newEos
    else
      let newLast ← lift (uninitFillN E v.last delta a)
      setObj { v with last := newLast }
  else pure ()

/-- small_vector.hpp:1117-1245 `resize(n)`. -/
def resize (E : Env α) (ib N : Nat) (n : Nat) : VM α Unit := resizeWith E ib N n (.val E.dflt)

/-- small_vector.hpp:1573-1605 `reset(new_cap)`. -/
def reset (E : Env α) (ib N newCap : Nat) : VM α Unit := do
  let v ← getObj
  replaceStorage ib ⟨ib, 0⟩ ⟨ib, 0⟩ ⟨ib, N⟩
  if newCap > N then
    let f ← lift (allocate E v.alloc newCap)
    setObj { v with first := f, last := f, eos := f.add newCap }
  else pure ()

/-- small_vector.hpp:250-268 `~small_vector`. -/
def destructor (ib : Nat) : VM α Unit := do
  let v ← getObj
  lift (destroyRange v.first v.last)
  let n ← distance v.first v.eos
  lift (freeUnless ib v.alloc v.first n)

/-- small_vector.hpp:1607-1636 `initialize_default_n`, 1638-1668 `initialize_fill_n`,
1704-1739 `initialize_range` (forward iterators), 1741-1773 `initialize_copy`: allocate if the elements do
not fit in the internal storage, construct them from the initialisers `as`, deallocate on exception. -/
def initWith (E : Env α) (N : Nat) (as : List (Arg α)) : VM α Unit := do
  checkSize E as.length
  let v ← getObj
  if as.length > N then
    let f ← lift (allocate E v.alloc as.length)
    setObj { v with first := f, last := f, eos := f.add as.length }
  else pure ()
  let v ← getObj
  let l ← M.tryCatch (lift (uninit E v.first as)) (fun e => do
    if as.length > N then lift (deallocate v.alloc v.first as.length) else pure ()
    M.throw e)
  setObj { v with last := l }

/-- small_vector.hpp:1607-1636 `initialize_default_n`. -/
def initDefaultN (E : Env α) (N : Nat) (n : Nat) : VM α Unit := initWith E N (List.replicate n (.val E.dflt))

/-- small_vector.hpp:1638-1668 `initialize_fill_n`. -/
def initFillN (E : Env α) (N : Nat) (n : Nat) (a : Arg α) : VM α Unit := initWith E N (List.replicate n a)

/-- small_vector.hpp:1704-1739 `initialize_range` (forward iterators). -/
def initRange (E : Env α) (N : Nat) (ys : List α) : VM α Unit := initWith E N (ys.map .val)

/-- small_vector.hpp:1670-1702 `initialize_range` (input iterators): the loop. -/
def emplaceBackAll (E : Env α) (ib N : Nat) : List (Arg α) → VM α Unit
  | [] => pure ()
  | a :: as => do
    let _ ← emplaceBack E ib N a
    emplaceBackAll E ib N as

/-- small_vector.hpp:1670-1702 `initialize_range` (input iterators). -/
def initRangeInput (E : Env α) (ib N : Nat) (ys : List α) : VM α Unit :=
  M.tryCatch (emplaceBackAll E ib N (ys.map .val)) (fun e => do
    destructor ib
    M.throw e)

/-- small_vector.hpp:1832-1888 `assign_fill_n`. -/
def assignFillN (E : Env α) (ib N : Nat) (n : Nat) (a : Arg α) : VM α Unit := do
  checkSize E n
  let v ← getObj
  let cap ← capacity
  if n ≤ cap then
    let sz ← size
    let newLast := v.first.add n
    if n ≤ sz then
      lift (fillRange E v.first newLast a)
      lift (destroyRange newLast v.last)
      setObj { v with last := newLast }
    else
      lift (fillRange E v.first v.last a)
      lift (uninitFill E v.last newLast a)
      setObj { v with last := newLast }
  else
    reset E ib N n
    let v ← getObj
    let l ← lift (uninitFillN E v.first n a)
    setObj { v with last := l }

/-- small_vector.hpp:1890-1919 `assign_range` (input iterators). -/
def assignRangeInput (E : Env α) (ib N : Nat) (as : List (Arg α)) : VM α Unit := do
  let v ← getObj
  let (rest, curr) ← lift (assignRangeLoop E v.last as v.first)
  if rest ≠ [] then emplaceBackAll E ib N rest
  else if curr.off < v.last.off then
    lift (destroyRange curr v.last)
    setObj { v with last := curr }
  else pure ()

/-- small_vector.hpp:1921-1983 `assign_range` (forward iterators); `as` is the dereferenced source. -/
def assignRange (E : Env α) (ib N : Nat) (as : List (Arg α)) : VM α Unit := do
  let n := as.length
  checkSize E n
  let v ← getObj
  let cap ← capacity
  if n ≤ cap then
    let sz ← size
    if n ≤ sz then
      let newLast ← lift (assignGo E v.first as)
      lift (destroyRange newLast v.last)
      setObj { v with last := newLast }
    else
      let _ ← lift (assignGo E v.first (as.take sz))
      let l ← lift (uninit E v.last (as.drop sz))
      setObj { v with last := l }
  else
    reset E ib N n
    let v ← getObj
    let l ← lift (uninit E v.first as)
    setObj { v with last := l }

/-- small_vector.hpp:2049-2244 `insert_fill_n`. -/
def insertFillN (E : Env α) (ib N : Nat) (pos : Ptr) (n : Nat) (a : Arg α) : VM α Ptr := do
  let v ← getObj
  M.assert (InRange v pos)
  let offset := pos.off - v.first.off
  if n = 0 then pure (v.first.add offset)
  else
    let avail ← available
    if avail ≥ n then
      let tmp ← lift (mkTmp E a)
      let p1 := v.first.add offset
      let p2 := p1.add n
      let oldLast := v.last
      if p2.off ≤ v.last.off then
        let p3 := v.last.sub n
        let l ← lift (uninitMove E p3 v.last v.last)
        setObj { v with last := l }
        let _ ← lift (moveBackward E p1 p3 oldLast)
        lift (fillRange E p1 p2 (.val tmp))
        pure p1
      else
        lift (uninitFill E v.last p2 (.val tmp))
        setObj { v with last := p2 }
        let l ← lift (uninitMove E p1 oldLast p2)
        setObj { v with last := l }
        lift (fillRange E p1 oldLast (.val tmp))
        pure p1
    else
      let newCap ← calculateNewCapacity E N n
      let (newFirst, newN) ← newStorage E ib N newCap
      let newEos := newFirst.add newN
      let p := newFirst.add offset
      let handler {β : Type} (newLast : Ptr) (e : Exn) : VM α β := do
        if newLast = Ptr.null then lift (destroyN p n) else lift (destroyRange newFirst newLast)
        lift (freeUnless ib v.alloc newFirst newCap)
        M.throw e
      let _ ← M.tryCatch (lift (uninitFillN E p n a)) (handler newFirst)
      let newLast ← M.tryCatch (lift (uninitMoveIf E v.first (v.first.add offset) newFirst)) (handler Ptr.null)
      let newLast := newLast.add n
      let newLast ← M.tryCatch (lift (uninitMoveIf E (v.first.add offset) v.last newLast)) (handler newLast)
      replaceStorage ib newFirst newLast newEos
      pure p

/-- small_vector.hpp:2246-2260 `insert_range` (input iterators): the loop. -/
def insertRangeLoop (E : Env α) (ib N : Nat) : List (Arg α) → Ptr → VM α Ptr
  | [], pos => pure pos
  | a :: as, pos => do
    let p ← emplace E ib N pos a
    insertRangeLoop E ib N as (p.add 1)

/-- small_vector.hpp:2246-2260 `insert_range` (input iterators). -/
def insertRangeInput (E : Env α) (ib N : Nat) (pos : Ptr) (ys : List α) : VM α Ptr := do
  let v ← getObj
  M.assert (InRange v pos)
  let offset := pos.off - v.first.off
  let _ ← insertRangeLoop E ib N (ys.map .val) pos
  let v ← getObj
  pure (v.first.add offset)

/-- small_vector.hpp:2262-2437 `insert_range` (forward iterators), source outside the vector. -/
def insertRange (E : Env α) (ib N : Nat) (pos : Ptr) (ys : List α) : VM α Ptr := do
  let v ← getObj
  M.assert (InRange v pos)
  let offset := pos.off - v.first.off
  if ys = [] then pure (v.first.add offset)
  else
    let n := ys.length
    let avail ← available
    if avail ≥ n then
      let p1 := v.first.add offset
      let p2 := p1.add n
      let oldLast := v.last
      if p2.off ≤ v.last.off then
        let p3 := v.last.sub n
        let l ← lift (uninitMove E p3 v.last v.last)
        setObj { v with last := l }
        let _ ← lift (moveBackward E p1 p3 oldLast)
        let _ ← lift (copyList E p1 ys)
        pure p1
      else
        let m ← distance pos v.last
        let l ← lift (uninitCopyList E v.last (ys.drop m))
        setObj { v with last := l }
        let l ← lift (uninitMove E p1 oldLast l)
        setObj { v with last := l }
        let _ ← lift (copyList E p1 (ys.take m))
        pure p1
    else
      let newCap ← calculateNewCapacity E N n
      let (newFirst, newN) ← newStorage E ib N newCap
      let newEos := newFirst.add newN
      let p := newFirst.add offset
      let handler {β : Type} (newLast : Ptr) (e : Exn) : VM α β := do
        lift (destroyRange newFirst newLast)
        lift (freeUnless ib v.alloc newFirst newCap)
        M.throw e
      let newLast ← M.tryCatch (lift (uninitMoveIf E v.first (v.first.add offset) newFirst)) (handler newFirst)
      let newLast ← M.tryCatch (lift (uninitCopyList E newLast ys)) (handler newLast)
      let newLast ← M.tryCatch (lift (uninitMoveIf E (v.first.add offset) v.last newLast)) (handler newLast)
      replaceStorage ib newFirst newLast newEos
      pure p

end SmallVector
end Sfl
