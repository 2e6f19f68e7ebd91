import Verif.Remove
import Verif.Two
/-
  Model of sfl::compact_vector, /repo/include/sfl/compact_vector.hpp: a vector whose block always has exactly as many
  cells as there are elements, so that every change of the size reallocates.

  The object has two pointers and an allocator (compact_vector.hpp:62-92). It is modelled by the type `Vec` of
  `Vector.lean`; the third pointer `eos` of `Vec` does not exist in the C++ object. It is a ghost: no function below
  reads it, and it is set to the end of the allocated block so that "the block has exactly size() cells" can be stated.
-/

namespace Sfl
variable {α : Type}

namespace CompactVector
open Sfl.Vector (VM)

/-- compact_vector.hpp:66-75, 105-122: default constructors. -/
def empty (al : Nat) : Vec := ⟨Ptr.null, Ptr.null, Ptr.null, al⟩

/-- compact_vector.hpp:378-381 `size`. -/
def size : VM α Nat := do let v ← getObj; distance v.first v.last

/-- compact_vector.hpp:394-397 `capacity`: returns `size()`. -/
def capacity : VM α Nat := size

/-- The size checks against `max_size()`: compact_vector.hpp:518-521, 751-754, 833-836, 942-948, 977-983, 1049-1055,
1087-1093, 1135-1141, 1172-1178, 1233-1239, 1337-1343, 1460-1466. (`new_size < size()` detects the overflow of a
64-bit sum; on natural numbers the sum exceeds `max_size()` instead.) -/
def checkSize (E : Env α) (n : Nat) : VM α Unit :=
  if n > E.maxSize then M.throw .lengthError else pure ()

/-- The block "destroy_a(first_, last_); deallocate(first_, last_ - first_); first_ = …; last_ = …", which occurs in
compact_vector.hpp:491-506, 590-605, 724-739, 808-823, 891-906, 1413-1428, 1516-1531. -/
def replace (newFirst newLast newEos : Ptr) : VM α Unit := do
  let v ← getObj
  lift (destroyRange v.first v.last)
  let n ← distance v.first v.last
  lift (deallocate v.alloc v.first n)
  setObj { v with first := newFirst, last := newLast, eos := newEos }

/-- compact_vector.hpp:489-507 `clear`. -/
def clear : VM α Unit := replace Ptr.null Ptr.null Ptr.null

/-- compact_vector.hpp:203-218 `~compact_vector`. -/
def destructor : VM α Unit := do
  let v ← getObj
  lift (destroyRange v.first v.last)
  let n ← distance v.first v.last
  lift (deallocate v.alloc v.first n)

/-- compact_vector.hpp:432-444 `operator[]`. -/
def index (pos : Nat) : VM α α := do
  let v ← getObj
  let n ← size
  M.assert (pos < n)
  lift (readAt (v.first.add pos))

/-- compact_vector.hpp:509-608 `emplace`; `insert(pos, value)` (610-620) calls it. -/
def emplace (E : Env α) (pos : Ptr) (a : Arg α) : VM α Ptr := do
  let v ← getObj
  M.assert (Vector.InRange v pos)
  let offset := pos.off - v.first.off
  let sz ← size
  let newSize := sz + 1
  checkSize E newSize
  let newFirst ← lift (allocate E v.alloc newSize)
  let newEos := newFirst.add newSize
  let p := newFirst.add offset
  let handler {β : Type} (newLast : Ptr) (e : Exn) : VM α β := do
    if newLast = Ptr.null then lift (destroyAt p) else lift (destroyRange newFirst newLast)
    lift (deallocate v.alloc newFirst newSize)
    M.throw e
  M.tryCatch (lift (construct E p a)) (handler newFirst)
  let newLast ← M.tryCatch (lift (uninitMoveIf E v.first (v.first.add offset) newFirst)) (handler Ptr.null)
  let newLast := newLast.add 1
  let newLast ← M.tryCatch (lift (uninitMoveIf E (v.first.add offset) v.last newLast)) (handler newLast)
  replace newFirst newLast newEos
  pure p

/-- compact_vector.hpp:643-656 `emplace_back`, `push_back`: `emplace(cend(), …)`. -/
def emplaceBack (E : Env α) (a : Arg α) : VM α Ptr := do
  let v ← getObj
  emplace E v.last a

/-- compact_vector.hpp:670-742 `erase(first, last)`. -/
def eraseRange (E : Env α) (first last : Ptr) : VM α Ptr := do
  let v ← getObj
  M.assert (v.first.blk = first.blk ∧ v.first.off ≤ first.off ∧
    first.blk = last.blk ∧ first.off ≤ last.off ∧ last.off ≤ v.last.off)
  if first = last then pure (v.first.add (first.off - v.first.off))
  else
    let offset1 := first.off - v.first.off
    let offset2 := last.off - v.first.off
    let sz ← size
    let newSize := sz - (last.off - first.off)
    let newFirst ← lift (allocate E v.alloc newSize)
    let newEos := newFirst.add newSize
    let handler {β : Type} (newLast : Ptr) (e : Exn) : VM α β := do
      lift (destroyRange newFirst newLast)
      lift (deallocate v.alloc newFirst newSize)
      M.throw e
    let newLast ← M.tryCatch (lift (uninitMoveIf E v.first (v.first.add offset1) newFirst)) (handler newFirst)
    let newLast ← M.tryCatch (lift (uninitMoveIf E (v.first.add offset2) v.last newLast)) (handler newLast)
    replace newFirst newLast newEos
    pure (newFirst.add offset1)

/-- compact_vector.hpp:664-668 `erase(pos)`. -/
def eraseAt (E : Env α) (pos : Ptr) : VM α Ptr := do
  let v ← getObj
  M.assert (v.first.blk = pos.blk ∧ v.first.off ≤ pos.off ∧ pos.off < v.last.off)
  eraseRange E pos (pos.add 1)

/-- compact_vector.hpp:658-662 `pop_back`. -/
def popBack (E : Env α) : VM α Unit := do
  let v ← getObj
  M.assert (v.first ≠ v.last)
  let _ ← eraseAt E (v.last.sub 1)
  pure ()

/-- compact_vector.hpp:761-777 and 843-860: what the `try` block of `resize` constructs when it grows the container. The
elements are moved first; the new elements are constructed afterwards. -/
def resizeGrow (E : Env α) (v : Vec) (n sz : Nat) (a : Arg α) (newFirst : Ptr) : VM α Ptr := do
  let handler {β : Type} (newLast : Ptr) (e : Exn) : VM α β := do
    lift (destroyRange newFirst newLast)
    lift (deallocate v.alloc newFirst n)
    M.throw e
  let newLast ← M.tryCatch (lift (uninitMoveIf E v.first v.last newFirst)) (handler newFirst)
  M.tryCatch (lift (uninitFillN E newLast (n - sz) a)) (handler newLast)

/-- compact_vector.hpp:778-787 and 861-870: the same when it shrinks the container. -/
def resizeShrink (E : Env α) (v : Vec) (n : Nat) (newFirst : Ptr) : VM α Ptr :=
  M.tryCatch (lift (uninitMoveIf E v.first (v.first.add n) newFirst)) (fun e => do
    lift (destroyRange newFirst newFirst)
    lift (deallocate v.alloc newFirst n)
    M.throw e)

/-- compact_vector.hpp:744-824 `resize(n)` and 826-907 `resize(n, value)`: the two bodies differ only in the
algorithm constructing the new elements (default_construct_n / fill_n). -/
def resizeWith (E : Env α) (n : Nat) (a : Arg α) : VM α Unit := do
  let v ← getObj
  let sz ← size
  if n = sz then pure ()
  else
    checkSize E n
    let newFirst ← lift (allocate E v.alloc n)
    let newLast ← if n > sz then resizeGrow E v n sz a newFirst else resizeShrink E v n newFirst
    replace newFirst newLast (newFirst.add n)

/-- compact_vector.hpp:744-824 `resize(n)`. -/
def resize (E : Env α) (n : Nat) : VM α Unit := resizeWith E n (.val E.dflt)

/-- compact_vector.hpp:940-973 `initialize_default_n`, 975-1008 `initialize_fill_n`, 1043-1081 `initialize_range`
(forward iterators), 1083-1119 `initialize_copy`, 1131-1167 (the second branch of `initialize_move`): allocate exactly
the number of elements, construct them from the initialisers `as`, deallocate on exception. -/
def initWith (E : Env α) (as : List (Arg α)) : VM α Unit := do
  checkSize E as.length
  let v ← getObj
  let f ← lift (allocate E v.alloc as.length)
  setObj { v with first := f, last := f, eos := f.add as.length }
  let l ← M.tryCatch (lift (uninit E f as)) (fun e => do
    lift (deallocate v.alloc f as.length)
    M.throw e)
  setObj { v with first := f, last := l, eos := f.add as.length }

/-- compact_vector.hpp:1017-1021 and 1220-1224: the loops over an input range. -/
def emplaceBackAll (E : Env α) : List (Arg α) → VM α Unit
  | [] => pure ()
  | a :: as => do
    let _ ← emplaceBack E a
    emplaceBackAll E as

/-- compact_vector.hpp:1011-1041 `initialize_range` (input iterators). -/
def initRangeInput (E : Env α) (ys : List α) : VM α Unit :=
  M.tryCatch (emplaceBackAll E (ys.map .val)) (fun e => do
    destructor
    M.throw e)

/-- compact_vector.hpp:1191-1211 and 1252-1272: allocation of the new elements when an assignment changes the size. The
handler calls `clear()`, which deallocates `last_ - first_` elements, although the block has `n` of them. -/
def refill (E : Env α) (as : List (Arg α)) : VM α Unit := do
  let v ← getObj
  let f ← lift (allocate E v.alloc as.length)
  setObj { v with first := f, last := f, eos := f.add as.length }
  let l ← M.tryCatch (lift (uninit E f as)) (fun e => do
    clear
    M.throw e)
  setObj { v with first := f, last := l, eos := f.add as.length }

/-- compact_vector.hpp:1189-1211 and 1250-1272: assignment when the size changes. -/
def reassign (E : Env α) (as : List (Arg α)) : VM α Unit := do
  clear
  refill E as

/-- compact_vector.hpp:1170-1212 `assign_fill_n`. -/
def assignFillN (E : Env α) (n : Nat) (a : Arg α) : VM α Unit := do
  checkSize E n
  let v ← getObj
  let sz ← size
  if n = sz then lift (fillRange E v.first v.last a)
  else reassign E (List.replicate n a)

/-- compact_vector.hpp:1214-1225 `assign_range` (input iterators). -/
def assignRangeInput (E : Env α) (as : List (Arg α)) : VM α Unit := do
  clear
  emplaceBackAll E as

/-- compact_vector.hpp:1227-1273 `assign_range` (forward iterators); `as` is the dereferenced source. -/
def assignRange (E : Env α) (as : List (Arg α)) : VM α Unit := do
  checkSize E as.length
  let v ← getObj
  let sz ← size
  if as.length = sz then do
    let _ ← lift (assignGo E v.first as)
    pure ()
  else reassign E as

/-- compact_vector.hpp:1329-1432 `insert_fill_n`; the check of `pos` is in `insert` (622-626). -/
def insertFillN (E : Env α) (pos : Ptr) (n : Nat) (a : Arg α) : VM α Ptr := do
  let v ← getObj
  M.assert (Vector.InRange v pos)
  let offset := pos.off - v.first.off
  if n = 0 then pure (v.first.add offset)
  else
    let sz ← size
    let newSize := sz + n
    checkSize E newSize
    let newFirst ← lift (allocate E v.alloc newSize)
    let newEos := newFirst.add newSize
    let p := newFirst.add offset
    let handler {β : Type} (newLast : Ptr) (e : Exn) : VM α β := do
      if newLast = Ptr.null then lift (destroyN p n) else lift (destroyRange newFirst newLast)
      lift (deallocate v.alloc newFirst newSize)
      M.throw e
    let _ ← M.tryCatch (lift (uninitFillN E p n a)) (handler newFirst)
    let newLast ← M.tryCatch (lift (uninitMoveIf E v.first (v.first.add offset) newFirst)) (handler Ptr.null)
    let newLast := newLast.add n
    let newLast ← M.tryCatch (lift (uninitMoveIf E (v.first.add offset) v.last newLast)) (handler newLast)
    replace newFirst newLast newEos
    pure p

/-- compact_vector.hpp:1434-1448 `insert_range` (input iterators): the loop. -/
def insertRangeLoop (E : Env α) : List (Arg α) → Ptr → VM α Ptr
  | [], pos => pure pos
  | a :: as, pos => do
    let p ← emplace E pos a
    insertRangeLoop E as (p.add 1)

/-- compact_vector.hpp:1434-1448 `insert_range` (input iterators). -/
def insertRangeInput (E : Env α) (pos : Ptr) (ys : List α) : VM α Ptr := do
  let v ← getObj
  M.assert (Vector.InRange v pos)
  let offset := pos.off - v.first.off
  let _ ← insertRangeLoop E (ys.map .val) pos
  let v ← getObj
  pure (v.first.add offset)

/-- compact_vector.hpp:1450-1538 `insert_range` (forward iterators), source outside the vector. -/
def insertRange (E : Env α) (pos : Ptr) (ys : List α) : VM α Ptr := do
  let v ← getObj
  M.assert (Vector.InRange v pos)
  let offset := pos.off - v.first.off
  if ys = [] then pure (v.first.add offset)
  else
    let sz ← size
    let newSize := sz + ys.length
    checkSize E newSize
    let newFirst ← lift (allocate E v.alloc newSize)
    let newEos := newFirst.add newSize
    let p := newFirst.add offset
    let handler {β : Type} (newLast : Ptr) (e : Exn) : VM α β := do
      lift (destroyRange newFirst newLast)
      lift (deallocate v.alloc newFirst newSize)
      M.throw e
    let newLast ← M.tryCatch (lift (uninitMoveIf E v.first (v.first.add offset) newFirst)) (handler newFirst)
    let newLast ← M.tryCatch (lift (uninitCopyList E newLast ys)) (handler newLast)
    let newLast ← M.tryCatch (lift (uninitMoveIf E (v.first.add offset) v.last newLast)) (handler newLast)
    replace newFirst newLast newEos
    pure p

/-- compact_vector.hpp:1618-1637, non-member `erase(c, value)` and `erase_if(c, pred)`. -/
def eraseIf (E : Env α) (f : α → Bool) : VM α Nat := do
  let v ← getObj
  let it ← lift (removeIf E f v.first v.last)
  let v ← getObj
  let r ← distance it v.last
  let _ ← eraseRange E it v.last
  pure r

/-- compact_vector.hpp:1083-1119 `initialize_copy`, called by the copy constructors (174-189). -/
def initCopy (E : Env α) (other : Vec) : VM α Unit := do
  let n ← distance other.first other.last
  initWith E (args .ref other.first n)

/-- compact_vector.hpp:1121-1168 `initialize_move`, called by the move constructors (191-201). -/
def initMove (E : Env α) : M2 α Unit := do
  let o ← getObj
  if o.1.alloc = o.2.alloc then
    setObj (o.1.steal o.2, o.2.null)
  else do
    let n ← distance o.2.first o.2.last
    onThis (initWith E (args .mv o.2.first n))

/-- The allocator part of the assignments: compact_vector.hpp:1279-1287 and 1299-1307. -/
def propagate (flag : Bool) (al : Nat) : VM α Unit := do
  let v ← getObj
  if flag = true then do
    if v.alloc ≠ al then clear else pure ()
    let v ← getObj
    setObj { v with alloc := al }
  else pure ()

/-- compact_vector.hpp:1275-1295 `assign_copy` for `this != &other`. -/
def assignCopy (E : Env α) (T : Traits) (other : Vec) : VM α Unit := do
  propagate T.pocca other.alloc
  let n ← distance other.first other.last
  assignRange E (args .ref other.first n)

/-- compact_vector.hpp:1297-1326 `assign_move`. -/
def assignMove (E : Env α) (T : Traits) : M2 α Unit := do
  let o ← getObj
  onThis (propagate T.pocma o.2.alloc)
  let o ← getObj
  if o.1.alloc = o.2.alloc then do
    onThis clear
    let o ← getObj
    setObj (o.1.steal o.2, o.2.null)
  else do
    let n ← distance o.2.first o.2.last
    onThis (assignRange E (args .mv o.2.first n))

/-- compact_vector.hpp:909-936 `swap` for `this != &other`. -/
def swap (T : Traits) : M2 α Unit := do
  SmallVector.swapAlloc T
  let o ← getObj
  setObj (o.1.steal o.2, o.2.steal o.1)

end CompactVector
end Sfl
