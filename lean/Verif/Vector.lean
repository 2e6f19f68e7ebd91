import Verif.Algo
/-
  Model of sfl::vector, /repo/include/sfl/vector.hpp.
-/

namespace Sfl

/-- vector.hpp:64-78 `data_base` plus the allocator (80-104). -/
structure Vec where
  first : Ptr
  last : Ptr
  eos : Ptr
  alloc : Nat
  deriving DecidableEq

namespace Vector
variable {α : Type}

/-- Programs on a vector object. -/
abbrev VM (α β : Type) : Type := M (Obj Vec α) β

/-- vector.hpp:71-77, 114-120: default constructor. -/
def empty (al : Nat) : Vec := ⟨Ptr.null, Ptr.null, Ptr.null, al⟩

/-- vector.hpp:374-377 `size`. -/
def size : VM α Nat := do let v ← getObj; distance v.first v.last

/-- vector.hpp:390-393 `capacity`. -/
def capacity : VM α Nat := do let v ← getObj; distance v.first v.eos

/-- vector.hpp:396-399 `available`. -/
def available : VM α Nat := do let v ← getObj; distance v.last v.eos

/-- vector.hpp:1186-1192 `check_size`. -/
def checkSize (E : Env α) (n : Nat) : VM α Unit :=
  if n > E.maxSize then M.throw .lengthError else pure ()

/-- vector.hpp:1194-1216 `calculate_new_capacity`, on natural numbers (see `Capacity.lean`
for the 64-bit version and their agreement). `none` stands for throwing length_error. -/
def newCapacity (maxSize size capacity n : Nat) : Option Nat :=
  if maxSize - size < n then none
  else if maxSize - capacity < capacity / 2 then some maxSize
  else if size + n < capacity + capacity / 2 then some (capacity + capacity / 2)
  else some (size + n)

/-- vector.hpp:1194-1216 `calculate_new_capacity`. -/
def calculateNewCapacity (E : Env α) (n : Nat) : VM α Nat := do
  let sz ← size
  let cap ← capacity
  match newCapacity E.maxSize sz cap n with
  | none => M.throw .lengthError
  | some c => pure c

/-- The block "destroy_a(first_, last_); deallocate(first_, distance(first_, eos_))" followed by
installing new pointers; it occurs verbatim in vector.hpp:433-449, 485-501, 722-738, 850-866,
1006-1022, 1120-1136, 1779-1795, 1962-1978. -/
def replaceStorage (newFirst newLast newEos : Ptr) : VM α Unit := do
  let v ← getObj
  lift (destroyRange v.first v.last)
  let n ← distance v.first v.eos
  lift (deallocate v.alloc v.first n)
  setObj { v with first := newFirst, last := newLast, eos := newEos }

/-- vector.hpp:401-451 `reserve`. -/
def reserve (E : Env α) (newCap : Nat) : VM α Unit := do
  checkSize E newCap
  let cap ← capacity
  if newCap > cap then
    let v ← getObj
    let newFirst ← lift (allocate E v.alloc newCap)
    let newEos := newFirst.add newCap
    let newLast ← M.tryCatch (lift (uninitMoveIf E v.first v.last newFirst)) (fun e => do
      lift (deallocate v.alloc newFirst newCap)
      M.throw e)
    replaceStorage newFirst newLast newEos
  else pure ()

/-- vector.hpp:453-503 `shrink_to_fit`. -/
def shrinkToFit (E : Env α) : VM α Unit := do
  let newCap ← size
  let cap ← capacity
  if newCap < cap then
    let v ← getObj
    let newFirst ← lift (allocate E v.alloc newCap)
    let newEos := newFirst.add newCap
    let newLast ← M.tryCatch (lift (uninitMoveIf E v.first v.last newFirst)) (fun e => do
      lift (deallocate v.alloc newFirst newCap)
      M.throw e)
    replaceStorage newFirst newLast newEos
  else pure ()

/-- vector.hpp:532-544 `operator[]`: returns the referenced element. -/
def index (pos : Nat) : VM α α := do
  let v ← getObj
  let n ← size
  M.assert (pos < n)
  lift (readAt (v.first.add pos))

/-- vector.hpp:510-530 `at`. -/
def at' (pos : Nat) : VM α α := do
  let v ← getObj
  let n ← size
  if pos ≥ n then M.throw .outOfRange
  else lift (readAt (v.first.add pos))

/-- vector.hpp:546-558 `front`. -/
def front : VM α α := do
  let v ← getObj
  M.assert (v.first ≠ v.last)
  lift (readAt v.first)

/-- vector.hpp:560-572 `back`. -/
def back : VM α α := do
  let v ← getObj
  M.assert (v.first ≠ v.last)
  lift (readAt (v.last.sub 1))

/-- vector.hpp:589-599 `clear`. -/
def clear : VM α Unit := do
  let v ← getObj
  lift (destroyRange v.first v.last)
  setObj { v with last := v.first }

/-- The `SFL_ASSERT(cbegin() <= pos && pos <= cend())` check. -/
def InRange (v : Vec) (pos : Ptr) : Prop :=
  v.first.blk = pos.blk ∧ v.first.off ≤ pos.off ∧ pos.off ≤ v.last.off

instance (v : Vec) (pos : Ptr) : Decidable (InRange v pos) := by unfold InRange; infer_instance

/-- vector.hpp:601-743 `emplace`. In the reallocating branch the C++ `try` block encloses three steps;
the handler depends on the current value of `new_last`, passed here explicitly. -/
def emplace (E : Env α) (pos : Ptr) (a : Arg α) : VM α Ptr := do
  let v ← getObj
  M.assert (InRange v pos)
  let offset := pos.off - v.first.off
  if v.last ≠ v.eos then
    let p1 := v.first.add offset
    if p1 = v.last then
      lift (construct E p1 a)
      setObj { v with last := v.last.add 1 }
      pure p1
    else
      let tmp ← lift (mkTmp E a)
      let p2 := v.last.sub 1
      let oldLast := v.last
      lift (construct E v.last (.mv p2))
      setObj { v with last := v.last.add 1 }
      let _ ← lift (moveBackward E p1 p2 oldLast)
      lift (assign E p1 (.rv tmp))
      pure p1
  else
    let newCap ← calculateNewCapacity E 1
    let newFirst ← lift (allocate E v.alloc newCap)
    let newEos := newFirst.add newCap
    let p := newFirst.add offset
    let handler {β : Type} (newLast : Ptr) (e : Exn) : VM α β := do
      if newLast = Ptr.null then lift (destroyAt p) else lift (destroyRange newFirst newLast)
      lift (deallocate v.alloc newFirst newCap)
      M.throw e
    M.tryCatch (lift (construct E p a)) (handler newFirst)
    let newLast ← M.tryCatch (lift (uninitMoveIf E v.first (v.first.add offset) newFirst)) (handler Ptr.null)
    let newLast := newLast.add 1
    let newLast ← M.tryCatch (lift (uninitMoveIf E (v.first.add offset) v.last newLast)) (handler newLast)
    replaceStorage newFirst newLast newEos
    pure p

/-- vector.hpp:777-871 `emplace_back` (push_back: 873-881). Returns the position of the new element. -/
def emplaceBack (E : Env α) (a : Arg α) : VM α Ptr := do
  let v ← getObj
  if v.last ≠ v.eos then
    lift (construct E v.last a)
    setObj { v with last := v.last.add 1 }
    pure v.last
  else
    let newCap ← calculateNewCapacity E 1
    let newFirst ← lift (allocate E v.alloc newCap)
    let newEos := newFirst.add newCap
    let sz ← size
    let p := newFirst.add sz
    let handler {β : Type} (newLast : Ptr) (e : Exn) : VM α β := do
      if newLast = Ptr.null then lift (destroyAt p) else pure ()
      lift (deallocate v.alloc newFirst newCap)
      M.throw e
    M.tryCatch (lift (construct E p a)) (handler newFirst)
    let newLast ← M.tryCatch (lift (uninitMoveIf E v.first v.last newFirst)) (handler Ptr.null)
    let newLast := newLast.add 1
    replaceStorage newFirst newLast newEos
    pure p

/-- vector.hpp:883-890 `pop_back`. -/
def popBack : VM α Unit := do
  let v ← getObj
  M.assert (v.first ≠ v.last)
  setObj { v with last := v.last.sub 1 }
  lift (destroyAt (v.last.sub 1))

/-- vector.hpp:892-903 `erase(pos)`. -/
def eraseAt (E : Env α) (pos : Ptr) : VM α Ptr := do
  let v ← getObj
  M.assert (v.first.blk = pos.blk ∧ v.first.off ≤ pos.off ∧ pos.off < v.last.off)
  let p := v.first.add (pos.off - v.first.off)
  let newLast ← lift (moveFwd E (p.add 1) v.last p)
  setObj { v with last := newLast }
  lift (destroyAt newLast)
  pure p

/-- vector.hpp:905-924 `erase(first, last)`. -/
def eraseRange (E : Env α) (first last : Ptr) : VM α Ptr := do
  let v ← getObj
  M.assert (v.first.blk = first.blk ∧ v.first.off ≤ first.off ∧
    first.blk = last.blk ∧ first.off ≤ last.off ∧ last.off ≤ v.last.off)
  if first = last then pure (v.first.add (first.off - v.first.off))
  else
    let p1 := v.first.add (first.off - v.first.off)
    let p2 := v.first.add (last.off - v.first.off)
    let newLast ← lift (moveFwd E p2 v.last p1)
    lift (destroyRange newLast v.last)
    setObj { v with last := newLast }
    pure p1

/-- vector.hpp:926-1037 `resize(n)` and 1039-1152 `resize(n, value)`: the two bodies differ only in
the algorithm constructing the new elements at `p` (default_construct_n / fill_n), given here by
the list of initialisers `as` (`n - size()` of them). -/
def resizeWith (E : Env α) (n : Nat) (a : Arg α) : VM α Unit := do
  checkSize E n
  let v ← getObj
  let sz ← size
  if n < sz then
    let newLast := v.first.add n
    lift (destroyRange newLast v.last)
    setObj { v with last := newLast }
  else if n > sz then
    let delta := n - sz
    let cap ← capacity
    if n > cap then
      let newFirst ← lift (allocate E v.alloc n)
      let newEos := newFirst.add n
      let p := newFirst.add sz
      let handler {β : Type} (newLast : Ptr) (e : Exn) : VM α β := do
        if newLast = Ptr.null then lift (destroyN p delta) else lift (destroyRange newFirst newLast)
        lift (deallocate v.alloc newFirst n)
        M.throw e
      let _ ← M.tryCatch (lift (uninitFillN E p delta a)) (handler newFirst)
      let newLast ← M.tryCatch (lift (uninitMoveIf E v.first v.last newFirst)) (handler Ptr.null)
      let newLast := newLast.add delta
      replaceStorage newFirst newLast newEos
    else
      let newLast ← lift (uninitFillN E v.last delta a)
      setObj { v with last := newLast }
  else pure ()

/-- vector.hpp:926-1037 `resize(n)`. -/
def resize (E : Env α) (n : Nat) : VM α Unit := resizeWith E n (.val E.dflt)

/-- vector.hpp:1218-1247 `reset(new_cap)`. -/
def reset (E : Env α) (newCap : Nat) : VM α Unit := do
  let v ← getObj
  replaceStorage Ptr.null Ptr.null Ptr.null
  if newCap > 0 then
    let f ← lift (allocate E v.alloc newCap)
    setObj { v with first := f, last := f, eos := f.add newCap }
  else pure ()

/-- vector.hpp:200-215 `~vector`. -/
def destructor : VM α Unit := do
  let v ← getObj
  lift (destroyRange v.first v.last)
  let n ← distance v.first v.eos
  lift (deallocate v.alloc v.first n)

/-- vector.hpp:1249-1271 `initialize_default_n`, 1273-1297 `initialize_fill_n`,
1330-1357 `initialize_range` (forward iterators), 1359-1384 `initialize_copy`: allocate exactly
the number of elements, construct them from the initialisers `as`, deallocate on exception. -/
def initWith (E : Env α) (as : List (Arg α)) : VM α Unit := do
  checkSize E as.length
  let v ← getObj
  let f ← lift (allocate E v.alloc as.length)
  setObj { v with first := f, last := f, eos := f.add as.length }
  let l ← M.tryCatch (lift (uninit E f as)) (fun e => do
    lift (deallocate v.alloc f as.length)
    M.throw e)
  setObj { v with first := f, last := l, eos := f.add as.length }

/-- vector.hpp:1249-1271 `initialize_default_n`. -/
def initDefaultN (E : Env α) (n : Nat) : VM α Unit := initWith E (List.replicate n (.val E.dflt))

/-- vector.hpp:1273-1297 `initialize_fill_n`. -/
def initFillN (E : Env α) (n : Nat) (a : Arg α) : VM α Unit := initWith E (List.replicate n a)

/-- vector.hpp:1330-1357 `initialize_range` (forward iterators). -/
def initRange (E : Env α) (ys : List α) : VM α Unit := initWith E (ys.map .val)

/-- vector.hpp:1299-1328 `initialize_range` (input iterators): the loop. -/
def emplaceBackAll (E : Env α) : List (Arg α) → VM α Unit
  | [] => pure ()
  | a :: as => do
    let _ ← emplaceBack E a
    emplaceBackAll E as

/-- vector.hpp:1299-1328 `initialize_range` (input iterators). -/
def initRangeInput (E : Env α) (ys : List α) : VM α Unit :=
  M.tryCatch (emplaceBackAll E (ys.map .val)) (fun e => do
    destructor
    M.throw e)

/-- vector.hpp:1426-1483 `assign_fill_n`. -/
def assignFillN (E : Env α) (n : Nat) (a : Arg α) : VM α Unit := do
  checkSize E n
  let v ← getObj
  let cap ← capacity
  if n ≤ cap then
    let sz ← size
    let newLast := v.first.add n
    if n ≤ sz then
      lift (fillRange E v.first newLast a)
      lift (destroyRange newLast v.last)
      setObj { v with last := newLast }
    else
      lift (fillRange E v.first v.last a)
      lift (uninitFill E v.last newLast a)
      setObj { v with last := newLast }
  else
    reset E n
    let v ← getObj
    let l ← lift (uninitFillN E v.first n a)
    setObj { v with last := l }

/-- vector.hpp:1485-1513 `assign_range` (input iterators): the assigning loop; returns the
remaining source and `curr`. -/
def assignRangeLoop (E : Env α) (last : Ptr) : List (Arg α) → Ptr → M (St α) (List (Arg α) × Ptr)
  | [], curr => pure ([], curr)
  | a :: as, curr =>
    if curr ≠ last then do
      assign E curr a
      assignRangeLoop E last as (curr.add 1)
    else pure (a :: as, curr)

/-- vector.hpp:1485-1513 `assign_range` (input iterators). -/
def assignRangeInput (E : Env α) (as : List (Arg α)) : VM α Unit := do
  let v ← getObj
  let (rest, curr) ← lift (assignRangeLoop E v.last as v.first)
  if rest ≠ [] then emplaceBackAll E rest
  else if curr.off < v.last.off then
    lift (destroyRange curr v.last)
    setObj { v with last := curr }
  else pure ()

/-- vector.hpp:1515-1577 `assign_range` (forward iterators); `as` is the dereferenced source. -/
def assignRange (E : Env α) (as : List (Arg α)) : VM α Unit := do
  let n := as.length
  checkSize E n
  let v ← getObj
  let cap ← capacity
  if n ≤ cap then
    let sz ← size
    if n ≤ sz then
      let newLast ← lift (assignGo E v.first as)
      lift (destroyRange newLast v.last)
      setObj { v with last := newLast }
    else
      let _ ← lift (assignGo E v.first (as.take sz))
      let l ← lift (uninit E v.last (as.drop sz))
      setObj { v with last := l }
  else
    reset E n
    let v ← getObj
    let l ← lift (uninit E v.first as)
    setObj { v with last := l }

/-- vector.hpp:1635-1806 `insert_fill_n`. -/
def insertFillN (E : Env α) (pos : Ptr) (n : Nat) (a : Arg α) : VM α Ptr := do
  let v ← getObj
  M.assert (InRange v pos)
  let offset := pos.off - v.first.off
  if n = 0 then pure (v.first.add offset)
  else
    let avail ← available
    if avail ≥ n then
      let tmp ← lift (mkTmp E a)
      let p1 := v.first.add offset
      let p2 := p1.add n
      let oldLast := v.last
      if p2.off ≤ v.last.off then
        let p3 := v.last.sub n
        let l ← lift (uninitMove E p3 v.last v.last)
        setObj { v with last := l }
        let _ ← lift (moveBackward E p1 p3 oldLast)
        lift (fillRange E p1 p2 (.val tmp))
        pure p1
      else
        lift (uninitFill E v.last p2 (.val tmp))
        setObj { v with last := p2 }
        let l ← lift (uninitMove E p1 oldLast p2)
        setObj { v with last := l }
        lift (fillRange E p1 oldLast (.val tmp))
        pure p1
    else
      let newCap ← calculateNewCapacity E n
      let newFirst ← lift (allocate E v.alloc newCap)
      let newEos := newFirst.add newCap
      let p := newFirst.add offset
      let handler {β : Type} (newLast : Ptr) (e : Exn) : VM α β := do
        if newLast = Ptr.null then lift (destroyN p n) else lift (destroyRange newFirst newLast)
        lift (deallocate v.alloc newFirst newCap)
        M.throw e
      let _ ← M.tryCatch (lift (uninitFillN E p n a)) (handler newFirst)
      let newLast ← M.tryCatch (lift (uninitMoveIf E v.first (v.first.add offset) newFirst)) (handler Ptr.null)
      let newLast := newLast.add n
      let newLast ← M.tryCatch (lift (uninitMoveIf E (v.first.add offset) v.last newLast)) (handler newLast)
      replaceStorage newFirst newLast newEos
      pure p

/-- vector.hpp:1808-1822 `insert_range` (input iterators): the loop. -/
def insertRangeLoop (E : Env α) : List (Arg α) → Ptr → VM α Ptr
  | [], pos => pure pos
  | a :: as, pos => do
    let p ← emplace E pos a
    insertRangeLoop E as (p.add 1)

/-- vector.hpp:1808-1822 `insert_range` (input iterators). -/
def insertRangeInput (E : Env α) (pos : Ptr) (ys : List α) : VM α Ptr := do
  let v ← getObj
  M.assert (InRange v pos)
  let offset := pos.off - v.first.off
  let _ ← insertRangeLoop E (ys.map .val) pos
  let v ← getObj
  pure (v.first.add offset)

/-- vector.hpp:1824-1986 `insert_range` (forward iterators), source outside the vector. -/
def insertRange (E : Env α) (pos : Ptr) (ys : List α) : VM α Ptr := do
  let v ← getObj
  M.assert (InRange v pos)
  let offset := pos.off - v.first.off
  if ys = [] then pure (v.first.add offset)
  else
    let n := ys.length
    let avail ← available
    if avail ≥ n then
      let p1 := v.first.add offset
      let p2 := p1.add n
      let oldLast := v.last
      if p2.off ≤ v.last.off then
        let p3 := v.last.sub n
        let l ← lift (uninitMove E p3 v.last v.last)
        setObj { v with last := l }
        let _ ← lift (moveBackward E p1 p3 oldLast)
        let _ ← lift (copyList E p1 ys)
        pure p1
      else
        let m ← distance pos v.last
        let l ← lift (uninitCopyList E v.last (ys.drop m))
        setObj { v with last := l }
        let l ← lift (uninitMove E p1 oldLast l)
        setObj { v with last := l }
        let _ ← lift (copyList E p1 (ys.take m))
        pure p1
    else
      let newCap ← calculateNewCapacity E n
      let newFirst ← lift (allocate E v.alloc newCap)
      let newEos := newFirst.add newCap
      let p := newFirst.add offset
      let handler {β : Type} (newLast : Ptr) (e : Exn) : VM α β := do
        lift (destroyRange newFirst newLast)
        lift (deallocate v.alloc newFirst newCap)
        M.throw e
      let newLast ← M.tryCatch (lift (uninitMoveIf E v.first (v.first.add offset) newFirst)) (handler newFirst)
      let newLast ← M.tryCatch (lift (uninitCopyList E newLast ys)) (handler newLast)
      let newLast ← M.tryCatch (lift (uninitMoveIf E (v.first.add offset) v.last newLast)) (handler newLast)
      replaceStorage newFirst newLast newEos
      pure p

end Vector
end Sfl
