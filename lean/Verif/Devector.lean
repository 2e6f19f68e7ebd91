import Verif.Remove
import Verif.Two
import Verif.SeqSpec
/-
  Model of sfl::devector, /repo/include/sfl/devector.hpp.
-/

namespace Sfl

/-- devector.hpp:76-91 `data_base` plus the allocator (93-120). -/
structure DVec where
  bos : Ptr
  first : Ptr
  last : Ptr
  eos : Ptr
  alloc : Nat
  deriving DecidableEq

namespace Devector
variable {α : Type}

/-- Programs on a devector object. -/
abbrev DM (α β : Type) : Type := M (Obj DVec α) β

/-- devector.hpp:84-90, 128-134: default constructor. -/
def empty (al : Nat) : DVec := ⟨Ptr.null, Ptr.null, Ptr.null, Ptr.null, al⟩

/-- Subtraction on size_type (64-bit, wraps around). -/
def sizeSub (a b : Nat) : Nat := if b ≤ a then a - b else a + 2 ^ 64 - b

/-- private.hpp:2430-2498 `scope_guard`, `make_scope_guard` (used throughout devector.hpp:2120-3857): from the creation of the guard on, an
exception leaving the scope first runs `cleanup`. The guards of one scope are run in reverse order of creation, hence
the rest of the scope is passed as `rest`. The guards are dismissed at the end of the scope, where nothing can throw
any more; hence normal exit runs nothing. -/
def guard {σ : Type} (cleanup : M σ Unit) {β : Type} (rest : M σ β) : M σ β :=
  M.tryCatch rest (fun e => do
    cleanup
    M.throw e)

/-- devector.hpp:388-391 `size`. -/
def size : DM α Nat := do let v ← getObj; distance v.first v.last

/-- devector.hpp:404-407 `capacity`. -/
def capacity : DM α Nat := do let v ← getObj; distance v.bos v.eos

/-- devector.hpp:410-413 `available_front`. -/
def availableFront : DM α Nat := do let v ← getObj; distance v.bos v.first

/-- devector.hpp:416-419 `available_back`. -/
def availableBack : DM α Nat := do let v ← getObj; distance v.last v.eos

/-- devector.hpp:1339-1345 `check_size`. -/
def checkSize (E : Env α) (n : Nat) : DM α Unit :=
  if n > E.maxSize then M.throw .lengthError else pure ()

/-- The block "destroy_a(first_, last_); deallocate(bos_, distance(bos_, eos_))" followed by installing new
pointers; it occurs verbatim in devector.hpp:463-482, 528-547, 586-605, 1455-1474, 1514-1533, 3930-3949, 4025-4044. -/
def replaceStorage (bos first last eos : Ptr) : DM α Unit := do
  let v ← getObj
  lift (destroyRange v.first v.last)
  let n ← distance v.bos v.eos
  lift (deallocate v.alloc v.bos n)
  setObj { v with bos := bos, first := first, last := last, eos := eos }

/-- The common part of devector.hpp:434-482, 499-547, 556-605, 1429-1474, 1488-1533: allocate `n` slots, move (if
noexcept) all elements to slot `off` and onwards of it, give up the old storage. -/
def relocate (E : Env α) (n off : Nat) : DM α Unit := do
  let v ← getObj
  let newBos ← lift (allocate E v.alloc n)
  let newEos := newBos.add n
  let newFirst := newBos.add off
  let newLast ← M.tryCatch (lift (uninitMoveIf E v.first v.last newFirst)) (fun e => do
    lift (deallocate v.alloc newBos n)
    M.throw e)
  replaceStorage newBos newFirst newLast newEos

/-- devector.hpp:421-484 `reserve_front`. (`new_first = new_eos - distance(first_, eos_)`.) -/
def reserveFront (E : Env α) (newCap : Nat) : DM α Unit := do
  let ab ← availableBack
  if newCap > sizeSub E.maxSize ab then M.throw .lengthError
  else do
    let sz ← size
    let af ← availableFront
    if newCap > sz + af then do
      let v ← getObj
      let d ← distance v.first v.eos
      relocate E (ab + newCap) (ab + newCap - d)
    else pure ()

/-- devector.hpp:486-549 `reserve_back`. (`new_first = new_bos + distance(bos_, first_)`.) -/
def reserveBack (E : Env α) (newCap : Nat) : DM α Unit := do
  let af ← availableFront
  if newCap > sizeSub E.maxSize af then M.throw .lengthError
  else do
    let sz ← size
    let ab ← availableBack
    if newCap > sz + ab then relocate E (af + newCap) af
    else pure ()

/-- devector.hpp:551-607 `shrink_to_fit`. -/
def shrinkToFit (E : Env α) : DM α Unit := do
  let newCap ← size
  let cap ← capacity
  if newCap < cap then relocate E newCap 0 else pure ()

/-- devector.hpp:1418-1475 `grow_storage_front`. -/
def growStorageFront (E : Env α) (additional : Nat) : DM α Unit := do
  let cap ← capacity
  if additional > sizeSub E.maxSize cap then M.throw .lengthError
  else do
    let v ← getObj
    let d ← distance v.first v.eos
    relocate E (cap + additional) (cap + additional - d)

/-- devector.hpp:1477-1534 `grow_storage_back`. -/
def growStorageBack (E : Env α) (additional : Nat) : DM α Unit := do
  let cap ← capacity
  if additional > sizeSub E.maxSize cap then M.throw .lengthError
  else do
    let af ← availableFront
    relocate E (cap + additional) af

/-- devector.hpp:632-644 `operator[]`: returns the referenced element. -/
def index (pos : Nat) : DM α α := do
  let v ← getObj
  let n ← size
  M.assert (pos < n)
  lift (readAt (v.first.add pos))

/-- devector.hpp:610-630 `at`. -/
def at' (pos : Nat) : DM α α := do
  let v ← getObj
  let n ← size
  if pos ≥ n then M.throw .outOfRange
  else lift (readAt (v.first.add pos))

/-- devector.hpp:646-658 `front`. -/
def front : DM α α := do
  let v ← getObj
  M.assert (v.first ≠ v.last)
  lift (readAt v.first)

/-- devector.hpp:660-672 `back`. -/
def back : DM α α := do
  let v ← getObj
  M.assert (v.first ≠ v.last)
  lift (readAt (v.last.sub 1))

/-- The `SFL_ASSERT(cbegin() <= pos && pos <= cend())` check. -/
def InRange (v : DVec) (pos : Ptr) : Prop :=
  v.first.blk = pos.blk ∧ v.first.off ≤ pos.off ∧ pos.off ≤ v.last.off

instance (v : DVec) (pos : Ptr) : Decidable (InRange v pos) := by unfold InRange; infer_instance

/-- devector.hpp:356-368 `nth`. -/
def nth (pos : Nat) : DM α Ptr := do
  let v ← getObj
  let n ← size
  M.assert (pos ≤ n)
  pure (v.first.add pos)

/-- devector.hpp:370-375 `index_of`. -/
def indexOf (pos : Ptr) : DM α (Option Nat) := do
  let v ← getObj
  M.assert (InRange v pos)
  let n ← distance v.first pos
  pure (some n)

/-- devector.hpp:689-699 `clear`. -/
def clear : DM α Unit := do
  let v ← getObj
  lift (destroyRange v.first v.last)
  setObj { v with last := v.first }

/-- devector.hpp:788-795 `pop_front`. -/
def popFront : DM α Unit := do
  let v ← getObj
  M.assert (v.first ≠ v.last)
  lift (destroyAt v.first)
  setObj { v with first := v.first.add 1 }

/-- devector.hpp:797-804 `pop_back`. -/
def popBack : DM α Unit := do
  let v ← getObj
  M.assert (v.first ≠ v.last)
  setObj { v with last := v.last.sub 1 }
  lift (destroyAt (v.last.sub 1))

/-- devector.hpp:806-834 `erase(pos)`. -/
def erase (E : Env α) (pos : Ptr) : DM α Ptr := do
  let v ← getObj
  M.assert (InRange v pos ∧ pos.off < v.last.off)
  let distToBegin ← distance v.first pos
  let distToEnd ← distance pos v.last
  let p1 := v.first.add distToBegin
  let p2 := p1.add 1
  if distToBegin < distToEnd then do
    let f ← lift (moveBackward E v.first p1 p2)
    setObj { v with first := f }
    lift (destroyAt v.first)
    pure p2
  else do
    let l ← lift (moveFwd E p2 v.last p1)
    setObj { v with last := l }
    lift (destroyAt l)
    pure p1

/-- devector.hpp:836-874 `erase(first, last)`. -/
def eraseRange (E : Env α) (first last : Ptr) : DM α Ptr := do
  let v ← getObj
  M.assert (InRange v first ∧ first.off ≤ last.off ∧ InRange v last)
  if first = last then do
    let d ← distance v.first first
    pure (v.first.add d)
  else do
    let distToBegin ← distance v.first first
    let distToEnd ← distance last v.last
    let d2 ← distance v.first last
    let p1 := v.first.add distToBegin
    let p2 := v.first.add d2
    if distToBegin < distToEnd then do
      let newFirst ← lift (moveBackward E v.first p1 p2)
      lift (destroyRange v.first newFirst)
      setObj { v with first := newFirst }
      pure p2
    else do
      let newLast ← lift (moveFwd E p2 v.last p1)
      lift (destroyRange newLast v.last)
      setObj { v with last := newLast }
      pure p1

/-! ### Insertion -/

/-- devector.hpp:1224-1278 `emplace_proxy` (always instantiated with one temporary `v` to be moved from),
1280-1307 `insert_range_proxy` (`as`: what is left of the source range), 1309-1335 `insert_fill_n_proxy`. -/
inductive Proxy (α : Type) where
  | one (v : α)
  | fill (a : Arg α)
  | range (as : List (Arg α))

/-- devector.hpp:1232-1245, 1268-1271; 1292-1298; 1320-1326: `uninitialized_insert_n`. Returns the end of the
constructed range and the proxy as it is left behind. -/
def Proxy.uninitInsertN (E : Env α) (d : Ptr) (n : Nat) : Proxy α → M (St α) (Ptr × Proxy α)
  | .one v =>
    if n = 0 then pure (d, .one v)
    else do
      M.assert (n = 1)
      construct E d (.rv v)
      pure (d.add 1, .one (E.moved v))
  | .fill a => do
    uninitFill E d (d.add n) a
    pure (d.add n, .fill a)
  | .range as =>
    if n ≤ as.length then do
      let r ← uninit E d (as.take n)
      pure (r, .range (as.drop n))
    else M.undef .badRange

/-- devector.hpp:1248-1261, 1274-1277; 1300-1306; 1328-1334: `insert_n`. -/
def Proxy.insertN (E : Env α) (d : Ptr) (n : Nat) : Proxy α → M (St α) (Ptr × Proxy α)
  | .one v =>
    if n = 0 then pure (d, .one v)
    else do
      M.assert (n = 1)
      let t ← mkTmp E (.rv v)
      assign E d (.rv t)
      pure (d.add 1, .one (E.moved v))
  | .fill a => do
    fillRange E d (d.add n) a
    pure (d.add n, .fill a)
  | .range as =>
    if n ≤ as.length then do
      let r ← assignGo E d (as.take n)
      pure (r, .range (as.drop n))
    else M.undef .badRange

/-- `if (first != d) move(first, last, d);` "to avoid moving elements into themselves", devector.hpp:2171-2179,
2749-2757, 2992-3000, 3230-3238, 3298-3306, 3368-3376, 3428-3436, 3620-3628, 3636-3644, 3679-3687, 3695-3703,
3746-3754, 3812-3820. -/
def moveFwdNe (E : Env α) (first last d : Ptr) : M (St α) Unit :=
  if first ≠ d then do
    let _ ← moveFwd E first last d
    pure ()
  else pure ()

/-- `if (last != d) move_backward(first, last, d);`, devector.hpp:2294-2302, 2568-2576, 2674-2682,
2868-2876, 2925-2933, 2935-2943, 3014-3022, 3070-3078, 3502-3510, 3768-3776. -/
def moveBackwardNe (E : Env α) (first last d : Ptr) : M (St α) Unit :=
  if last ≠ d then do
    let _ ← moveBackward E first last d
    pure ()
  else pure ()

/-! #### insert_aux_shift_to_back, devector.hpp:2381-3105

The elements `[p10, p30)` are moved towards the back and `n` new elements are inserted at `p20`; afterwards the
elements are `[q10, q40)`, the new ones being `[q20, q30)`. One function per case of the code. -/

/-- devector.hpp:2406-2453, `q10 >= p30`. -/
def back1 (E : Env α) (p10 p20 p30 q10 q20 q30 : Ptr) (n : Nat) (px : Proxy α) : M (St α) Unit := do
  let _ ← uninitMove E p10 p20 q10
  guard (destroyRange q10 q20) do
    let _ ← px.uninitInsertN E q20 n
    guard (destroyRange q20 q30) do
      let _ ← uninitMove E p20 p30 q30
      destroyRange p10 p30

/-- devector.hpp:2454-2519, `q20 >= p30 > q10 >= p20`. -/
def back2 (E : Env α) (p10 p20 p30 q10 q20 q30 q40 : Ptr) (n : Nat) (px : Proxy α) : M (St α) Unit := do
  let q11 := p30
  let d ← distance q10 q11
  let p11 := p10.add d
  let p21 := q10
  let _ ← uninitMove E p20 p30 q30
  guard (destroyRange q30 q40) do
    let _ ← px.uninitInsertN E q20 n
    guard (destroyRange q20 q30) do
      let _ ← uninitMove E p11 p20 q11
      guard (destroyRange q11 q20) do
        let _ ← moveFwd E p10 p11 q10
        destroyRange p10 p21

/-- devector.hpp:2520-2588, `q20 >= p30, p20 > q10 >= p10`. -/
def back3 (E : Env α) (p10 p20 p30 q10 q20 q30 q40 : Ptr) (n : Nat) (px : Proxy α) : M (St α) Unit := do
  let q11 := p30
  let p11 := q10
  let d ← distance q10 q11
  let p12 := p10.add d
  let _ ← uninitMove E p20 p30 q30
  guard (destroyRange q30 q40) do
    let _ ← px.uninitInsertN E q20 n
    guard (destroyRange q20 q30) do
      let _ ← uninitMove E p12 p20 q11
      guard (destroyRange q11 q20) do
        moveBackwardNe E p10 p12 q11
        destroyRange p10 p11

/-- devector.hpp:2597-2649, `q30 >= p30 > q20, q10 >= p20`. -/
def back4 (E : Env α) (p10 p20 p30 q10 q20 q30 q40 : Ptr) (px : Proxy α) : M (St α) Unit := do
  let q21 := p30
  let p21 := q10
  let _ ← uninitMove E p20 p30 q30
  guard (destroyRange q30 q40) do
    let _ ← moveFwd E p10 p20 q10
    let d ← distance q20 q21
    let r ← px.insertN E q20 d
    let d ← distance q21 q30
    let _ ← r.2.uninitInsertN E q21 d
    destroyRange p10 p21

/-- devector.hpp:2650-2705, `q30 >= p30 > q20 >= p20 > q10 >= p10`. -/
def back5 (E : Env α) (p10 p20 p30 q10 q20 q30 q40 : Ptr) (px : Proxy α) : M (St α) Unit := do
  let q21 := p30
  let p11 := q10
  let _ ← uninitMove E p20 p30 q30
  guard (destroyRange q30 q40) do
    moveBackwardNe E p10 p20 q20
    let d ← distance q20 q21
    let r ← px.insertN E q20 d
    let d ← distance q21 q30
    let _ ← r.2.uninitInsertN E q21 d
    destroyRange p10 p11

/-- devector.hpp:2712-2774, `q30 >= p30, p20 > q20 >= p10`. The second guard destroys the empty range
`[q10, q10)` (line 2746), not the elements just constructed. -/
def back6 (E : Env α) (p10 p20 p30 q10 q20 q30 q40 : Ptr) (px : Proxy α) : M (St α) Unit := do
  let q11 := p10
  let q21 := p30
  let d ← distance q10 q11
  let p11 := p10.add d
  let _ ← uninitMove E p20 p30 q30
  guard (destroyRange q30 q40) do
    let _ ← uninitMove E p10 p11 q10
    guard (destroyRange q10 q10) do
      moveFwdNe E p11 p20 q11
      let d ← distance q20 q21
      let r ← px.insertN E q20 d
      let d ← distance q21 q30
      let _ ← r.2.uninitInsertN E q21 d
      pure ()

/-- devector.hpp:2775-2837, `q30 >= p30, q20 < p10`. -/
def back7 (E : Env α) (p10 p20 p30 q10 q20 q30 q40 : Ptr) (px : Proxy α) : M (St α) Unit := do
  let q21 := p10
  let q22 := p30
  let _ ← uninitMove E p10 p20 q10
  guard (destroyRange q10 q20) do
    let _ ← uninitMove E p20 p30 q30
    guard (destroyRange q30 q40) do
      let d ← distance q20 q21
      let r ← px.uninitInsertN E q20 d
      guard (destroyRange q20 q21) do
        let d ← distance q21 q22
        let r ← r.2.insertN E q21 d
        let d ← distance q22 q30
        let _ ← r.2.uninitInsertN E q22 d
        pure ()

/-- devector.hpp:2843-2899, `q30 < p30, q10 >= p20`. -/
def back8 (E : Env α) (p10 p20 p30 q10 q20 q30 q40 : Ptr) (n : Nat) (px : Proxy α) : M (St α) Unit := do
  let q31 := p30
  let p21 := q10
  let d ← distance q30 q31
  let p22 := p20.add d
  let _ ← uninitMove E p22 p30 q31
  guard (destroyRange q31 q40) do
    moveBackwardNe E p20 p22 q31
    let _ ← moveFwd E p10 p20 q10
    let _ ← px.insertN E q20 n
    destroyRange p10 p21

/-- devector.hpp:2900-2959, `q30 < p30, q20 >= p20 > q10 >= p10`. -/
def back9 (E : Env α) (p10 p20 p30 q10 q20 q30 q40 : Ptr) (n : Nat) (px : Proxy α) : M (St α) Unit := do
  let q31 := p30
  let p11 := q10
  let d ← distance q30 q31
  let p21 := p20.add d
  let _ ← uninitMove E p21 p30 q31
  guard (destroyRange q31 q40) do
    moveBackwardNe E p20 p21 q31
    moveBackwardNe E p10 p20 q20
    let _ ← px.insertN E q20 n
    destroyRange p10 p11

/-- devector.hpp:2966-3032, `q30 < p30, p20 > q20 >= p10`. -/
def back10 (E : Env α) (p10 p20 p30 q10 q20 q30 q40 : Ptr) (n : Nat) (px : Proxy α) : M (St α) Unit := do
  let q11 := p10
  let q31 := p30
  let d ← distance q10 q11
  let p11 := p10.add d
  let d ← distance q30 q31
  let p21 := p20.add d
  let _ ← uninitMove E p10 p11 q10
  guard (destroyRange q10 q11) do
    moveFwdNe E p11 p20 q11
    let _ ← uninitMove E p21 p30 q31
    guard (destroyRange q31 q40) do
      moveBackwardNe E p20 p21 q31
      let _ ← px.insertN E q20 n
      pure ()

/-- devector.hpp:3033-3100, `q30 < p30, q20 < p10`. -/
def back11 (E : Env α) (p10 p20 p30 q10 q20 q30 q40 : Ptr) (px : Proxy α) : M (St α) Unit := do
  let q21 := p10
  let q31 := p30
  let d ← distance q30 q31
  let p21 := p20.add d
  let _ ← uninitMove E p10 p20 q10
  guard (destroyRange q10 q20) do
    let _ ← uninitMove E p21 p30 q31
    guard (destroyRange q31 q40) do
      moveBackwardNe E p20 p21 q31
      let d ← distance q20 q21
      let r ← px.uninitInsertN E q20 d
      guard (destroyRange q20 q21) do
        let d ← distance q21 q30
        let _ ← r.2.insertN E q21 d
        pure ()

/-- devector.hpp:2402-3101: the choice of the case. (All pointers point into the same storage; they are compared by
offset.) -/
def shiftBackMem (E : Env α) (p10 p20 p30 q10 q20 q30 q40 : Ptr) (n : Nat) (px : Proxy α) : M (St α) Unit :=
  if q30.off ≥ p30.off then
    if q20.off ≥ p30.off then
      if q10.off ≥ p30.off then back1 E p10 p20 p30 q10 q20 q30 n px
      else if q10.off ≥ p20.off then back2 E p10 p20 p30 q10 q20 q30 q40 n px
      else if q10.off ≥ p10.off then back3 E p10 p20 p30 q10 q20 q30 q40 n px
      else M.undef .assertFailed
    else if q20.off ≥ p20.off then
      if q10.off ≥ p20.off then back4 E p10 p20 p30 q10 q20 q30 q40 px
      else if q10.off ≥ p10.off then back5 E p10 p20 p30 q10 q20 q30 q40 px
      else M.undef .assertFailed
    else if q20.off ≥ p10.off then back6 E p10 p20 p30 q10 q20 q30 q40 px
    else back7 E p10 p20 p30 q10 q20 q30 q40 px
  else
    if q20.off ≥ p20.off then
      if q10.off ≥ p20.off then back8 E p10 p20 p30 q10 q20 q30 q40 n px
      else if q10.off ≥ p10.off then back9 E p10 p20 p30 q10 q20 q30 q40 n px
      else M.undef .assertFailed
    else if q20.off ≥ p10.off then back10 E p10 p20 p30 q10 q20 q30 q40 n px
    else back11 E p10 p20 p30 q10 q20 q30 q40 px

/-- devector.hpp:2381-3105 `insert_aux_shift_to_back`. -/
def insertShiftBack (E : Env α) (shift : Nat) (pos : Ptr) (n : Nat) (px : Proxy α) : DM α Ptr := do
  let v ← getObj
  M.assert (shift > 0)
  M.assert (InRange v pos)
  M.assert (n > 0)
  let k ← distance v.first pos
  let l ← distance pos v.last
  let p20 := v.first.add k
  let q10 := (v.first.add shift).sub n
  let q20 := q10.add k
  let q30 := q20.add n
  let q40 := q30.add l
  lift (shiftBackMem E v.first p20 v.last q10 q20 q30 q40 n px)
  setObj { v with first := q10, last := q40 }
  pure q20

/-! #### insert_aux_shift_to_front, devector.hpp:3110-3855 -/

/-- devector.hpp:3135-3182, `q40 <= p10`. -/
def front1 (E : Env α) (p10 p20 p30 q10 q20 q30 : Ptr) (n : Nat) (px : Proxy α) : M (St α) Unit := do
  let _ ← uninitMove E p10 p20 q10
  guard (destroyRange q10 q20) do
    let _ ← px.uninitInsertN E q20 n
    guard (destroyN q20 n) do
      let _ ← uninitMove E p20 p30 q30
      destroyRange p10 p30

/-- devector.hpp:3183-3250, `q30 <= p10 < q40 <= p20`; 3251-3318, `q30 <= p10, p20 < q40 <= p30` is the same code. -/
def front2 (E : Env α) (p10 p20 p30 q10 q20 q30 q40 : Ptr) (n : Nat) (px : Proxy α) : M (St α) Unit := do
  let q31 := p10
  let d ← distance q30 q31
  let p21 := p20.add d
  let _ ← uninitMove E p10 p20 q10
  guard (destroyRange q10 q20) do
    let _ ← px.uninitInsertN E q20 n
    guard (destroyN q20 n) do
      let _ ← uninitMove E p20 p21 q30
      guard (destroyRange q30 q31) do
        moveFwdNe E p21 p30 q31
        destroyRange q40 p30

/-- devector.hpp:3327-3387, `q20 <= p10 < q30 <= p20, q40 <= p20` (destroys `[p11, p30)` with `p11 = q40`);
3388-3447, `q20 <= p10 < q30 <= p20 < q40 <= p30` (destroys `[q40, p30)`) is the same code. -/
def front4 (E : Env α) (p10 p20 p30 q10 q20 q30 q40 : Ptr) (px : Proxy α) : M (St α) Unit := do
  let q21 := p10
  let _ ← uninitMove E p10 p20 q10
  guard (destroyRange q10 q20) do
    let d ← distance q20 q21
    let r ← px.uninitInsertN E q20 d
    guard (destroyRange q20 q21) do
      let d ← distance q21 q30
      let _ ← r.2.insertN E q21 d
      moveFwdNe E p20 p30 q30
      destroyRange q40 p30

/-- devector.hpp:3454-3521, `q20 <= p10, p20 < q30 <= p30`. -/
def front6 (E : Env α) (p10 p20 p30 q10 q20 q30 q40 : Ptr) (px : Proxy α) : M (St α) Unit := do
  let q21 := p10
  let q31 := p30
  let d ← distance q30 q31
  let p21 := p20.add d
  let _ ← uninitMove E p10 p20 q10
  guard (destroyRange q10 q20) do
    let d ← distance q20 q21
    let r ← px.uninitInsertN E q20 d
    guard (destroyRange q20 q21) do
      let _ ← uninitMove E p21 p30 q31
      guard (destroyRange q31 q40) do
        moveBackwardNe E p20 p21 q31
        let d ← distance q21 q30
        let _ ← r.2.insertN E q21 d
        pure ()

/-- devector.hpp:3522-3590, `q20 <= p10, q30 > p30`. (The fourth guard is created after the last step that can
throw.) -/
def front7 (E : Env α) (p10 p20 p30 q10 q20 q30 q40 : Ptr) (px : Proxy α) : M (St α) Unit := do
  let q21 := p10
  let q22 := p30
  let _ ← uninitMove E p10 p20 q10
  guard (destroyRange q10 q20) do
    let d ← distance q20 q21
    let r ← px.uninitInsertN E q20 d
    guard (destroyRange q20 q21) do
      let _ ← uninitMove E p20 p30 q30
      guard (destroyRange q30 q40) do
        let d ← distance q21 q22
        let r ← r.2.insertN E q21 d
        let d ← distance q22 q30
        let _ ← r.2.uninitInsertN E q22 d
        pure ()

/-- devector.hpp:3596-3654, `q20 > p10, q30 <= p20, q40 <= p20` (with `g = q11 = p10`); 3655-3713, `q20 > p10,
q30 <= p20 < q40 <= p30` is the same code except that the guard destroys `[q10, q20)` (line 3676) instead of
`[q10, q11)` (with `g = q20`). -/
def front8 (E : Env α) (p10 p20 p30 q10 q20 q30 q40 g : Ptr) (n : Nat) (px : Proxy α) : M (St α) Unit := do
  let q11 := p10
  let d ← distance q10 q11
  let p11 := p10.add d
  let _ ← uninitMove E p10 p11 q10
  guard (destroyRange q10 g) do
    moveFwdNe E p11 p20 q11
    let _ ← px.insertN E q20 n
    moveFwdNe E p20 p30 q30
    destroyRange q40 p30

/-- devector.hpp:3720-3786, `q20 > p10, p20 < q30 <= p30`. -/
def front10 (E : Env α) (p10 p20 p30 q10 q20 q30 q40 : Ptr) (n : Nat) (px : Proxy α) : M (St α) Unit := do
  let q11 := p10
  let q31 := p30
  let d ← distance q10 q11
  let p11 := p10.add d
  let d ← distance q30 q31
  let p21 := p20.add d
  let _ ← uninitMove E p10 p11 q10
  guard (destroyRange q10 q11) do
    moveFwdNe E p11 p20 q11
    let _ ← uninitMove E p21 p30 q31
    guard (destroyRange q31 q40) do
      moveBackwardNe E p20 p21 q31
      let _ ← px.insertN E q20 n
      pure ()

/-- devector.hpp:3787-3849, `q20 > p10, q30 > p30`. -/
def front11 (E : Env α) (p10 p20 p30 q10 q20 q30 q40 : Ptr) (px : Proxy α) : M (St α) Unit := do
  let q11 := p10
  let q21 := p30
  let d ← distance q10 q11
  let p11 := p10.add d
  let _ ← uninitMove E p10 p11 q10
  guard (destroyRange q10 q11) do
    moveFwdNe E p11 p20 q11
    let _ ← uninitMove E p20 p30 q30
    guard (destroyRange q30 q40) do
      let d ← distance q20 q21
      let r ← px.insertN E q20 d
      let d ← distance q21 q30
      let _ ← r.2.uninitInsertN E q21 d
      pure ()

/-- devector.hpp:3131-3850: the choice of the case. -/
def shiftFrontMem (E : Env α) (p10 p20 p30 q10 q20 q30 q40 : Ptr) (n : Nat) (px : Proxy α) : M (St α) Unit :=
  if q20.off ≤ p10.off then
    if q30.off ≤ p10.off then
      if q40.off ≤ p10.off then front1 E p10 p20 p30 q10 q20 q30 n px
      else if q40.off ≤ p20.off then front2 E p10 p20 p30 q10 q20 q30 q40 n px
      else if q40.off ≤ p30.off then front2 E p10 p20 p30 q10 q20 q30 q40 n px
      else M.undef .assertFailed
    else if q30.off ≤ p20.off then
      if q40.off ≤ p20.off then front4 E p10 p20 p30 q10 q20 q30 q40 px
      else if q40.off ≤ p30.off then front4 E p10 p20 p30 q10 q20 q30 q40 px
      else M.undef .assertFailed
    else if q30.off ≤ p30.off then front6 E p10 p20 p30 q10 q20 q30 q40 px
    else front7 E p10 p20 p30 q10 q20 q30 q40 px
  else
    if q30.off ≤ p20.off then
      if q40.off ≤ p20.off then front8 E p10 p20 p30 q10 q20 q30 q40 p10 n px
      else if q40.off ≤ p30.off then front8 E p10 p20 p30 q10 q20 q30 q40 q20 n px
      else M.undef .assertFailed
    else if q30.off ≤ p30.off then front10 E p10 p20 p30 q10 q20 q30 q40 n px
    else front11 E p10 p20 p30 q10 q20 q30 q40 px

/-- devector.hpp:3110-3855 `insert_aux_shift_to_front`. -/
def insertShiftFront (E : Env α) (shift : Nat) (pos : Ptr) (n : Nat) (px : Proxy α) : DM α Ptr := do
  let v ← getObj
  M.assert (shift > 0)
  M.assert (InRange v pos)
  M.assert (n > 0)
  let k ← distance v.first pos
  let l ← distance pos v.last
  let p20 := v.first.add k
  let q10 := v.first.sub shift
  let q20 := q10.add k
  let q30 := q20.add n
  let q40 := q30.add l
  lift (shiftFrontMem E v.first p20 v.last q10 q20 q30 q40 n px)
  setObj { v with first := q10, last := q40 }
  pure q20

/-- The common part of devector.hpp:3876-3951 and 3971-4046: allocate `newCap` slots, build the new sequence at slot
`off` and onwards, give up the old storage. `new_last`, on which the handler depends, is passed explicitly. -/
def insertGrow (E : Env α) (newCap off : Nat) (pos : Ptr) (n : Nat) (px : Proxy α) : DM α Ptr := do
  let v ← getObj
  let k ← distance v.first pos
  let newBos ← lift (allocate E v.alloc newCap)
  let newEos := newBos.add newCap
  let newFirst := newBos.add off
  let p := newFirst.add k
  let handler {β : Type} (newLast : Ptr) (e : Exn) : DM α β := do
    lift (destroyRange newFirst newLast)
    lift (deallocate v.alloc newBos newCap)
    M.throw e
  let newLast ← M.tryCatch (lift (uninitMove E v.first (v.first.add k) newFirst)) (handler newFirst)
  let r ← M.tryCatch (lift (px.uninitInsertN E newLast n)) (handler newLast)
  let newLast ← M.tryCatch (lift (uninitMove E (v.first.add k) v.last r.1)) (handler r.1)
  replaceStorage newBos newFirst newLast newEos
  pure p

/-- devector.hpp:3859-3952 `insert_aux_grow_storage_front`.
(`new_first = new_eos - distance(last_, eos_) - size() - insert_size`.) -/
def insertGrowFront (E : Env α) (additional : Nat) (pos : Ptr) (n : Nat) (px : Proxy α) : DM α Ptr := do
  let v ← getObj
  M.assert (additional > 0)
  M.assert (InRange v pos)
  M.assert (n > 0)
  let cap ← capacity
  if additional > sizeSub E.maxSize cap then M.throw .lengthError
  else do
    let ab ← availableBack
    let sz ← size
    insertGrow E (cap + additional) (cap + additional - ab - sz - n) pos n px

/-- devector.hpp:3954-4047 `insert_aux_grow_storage_back`. -/
def insertGrowBack (E : Env α) (additional : Nat) (pos : Ptr) (n : Nat) (px : Proxy α) : DM α Ptr := do
  let v ← getObj
  M.assert (additional > 0)
  M.assert (InRange v pos)
  M.assert (n > 0)
  let cap ← capacity
  if additional > sizeSub E.maxSize cap then M.throw .lengthError
  else do
    let af ← availableFront
    insertGrow E (cap + additional) af pos n px

/-- devector.hpp:1347-1364 `calculate_additional_capacity_for_grow_storage_front`. -/
def additionalFront (n : Nat) : DM α Nat := do
  let v ← getObj
  let capacityFront ← distance v.bos v.last
  let af ← availableFront
  if n ≥ af then pure (max (n - af) (capacityFront / 2)) else pure (capacityFront / 2)

/-- devector.hpp:1366-1383 `calculate_additional_capacity_for_grow_storage_back`. -/
def additionalBack (n : Nat) : DM α Nat := do
  let v ← getObj
  let capacityBack ← distance v.first v.eos
  let ab ← availableBack
  if n ≥ ab then pure (max (n - ab) (capacityBack / 2)) else pure (capacityBack / 2)

/-- devector.hpp:2063-2076, 2247-2258: make room at the front. -/
def insertMoreFront (E : Env α) (pos : Ptr) (n : Nat) (px : Proxy α) : DM α Ptr := do
  let additional ← additionalFront n
  let ab ← availableBack
  if ab > additional then insertShiftBack E additional pos n px
  else insertGrowFront E additional pos n px

/-- devector.hpp:2100-2113, 2365-2376: make room at the back. -/
def insertMoreBack (E : Env α) (pos : Ptr) (n : Nat) (px : Proxy α) : DM α Ptr := do
  let additional ← additionalBack n
  let af ← availableFront
  if af > additional then insertShiftFront E additional pos n px
  else insertGrowBack E additional pos n px

/-- devector.hpp:2043-2078 `emplace_front_aux`. -/
def emplaceFrontAux (E : Env α) (a : Arg α) : DM α Ptr := do
  let v ← getObj
  if v.first ≠ v.bos then do
    let newFirst := v.first.sub 1
    lift (construct E newFirst a)
    setObj { v with first := newFirst }
    pure newFirst
  else do
    let tmp ← lift (mkTmp E a)
    let v ← getObj
    insertMoreFront E v.first 1 (.one tmp)

/-- devector.hpp:2080-2115 `emplace_back_aux`. -/
def emplaceBackAux (E : Env α) (a : Arg α) : DM α Ptr := do
  let v ← getObj
  if v.last ≠ v.eos then do
    lift (construct E v.last a)
    setObj { v with last := v.last.add 1 }
    pure v.last
  else do
    let tmp ← lift (mkTmp E a)
    let v ← getObj
    insertMoreBack E v.last 1 (.one tmp)

/-- devector.hpp:2140-2187: room at the front, `dist_to_begin > insert_size`. -/
def intoFront1 (E : Env α) (p10 p20 q10 q20 : Ptr) (n : Nat) (px : Proxy α) : M (St α) Unit := do
  let q11 := p10
  let d ← distance q10 q11
  let p11 := p10.add d
  let _ ← uninitMove E p10 p11 q10
  guard (destroyRange q10 q11) do
    moveFwdNe E p11 p20 q11
    let _ ← px.insertN E q20 n
    pure ()

/-- devector.hpp:2194-2242: room at the front, `dist_to_begin <= insert_size`. -/
def intoFront2 (E : Env α) (p10 p20 q10 q20 q30 : Ptr) (px : Proxy α) : M (St α) Unit := do
  let q21 := p10
  let _ ← uninitMove E p10 p20 q10
  guard (destroyRange q10 q20) do
    let d ← distance q20 q21
    let r ← px.uninitInsertN E q20 d
    guard (destroyRange q20 q21) do
      let d ← distance q21 q30
      let _ ← r.2.insertN E q21 d
      pure ()

/-- devector.hpp:2266-2313: room at the back, `dist_to_end > insert_size`. -/
def intoBack1 (E : Env α) (p20 p30 q20 q30 q40 : Ptr) (n : Nat) (px : Proxy α) : M (St α) Unit := do
  let q31 := p30
  let d ← distance q30 q31
  let p21 := p20.add d
  let _ ← uninitMove E p21 p30 q31
  guard (destroyRange q31 q40) do
    moveBackwardNe E p20 p21 q31
    let _ ← px.insertN E q20 n
    pure ()

/-- devector.hpp:2318-2361: room at the back, `dist_to_end <= insert_size`. -/
def intoBack2 (E : Env α) (p20 p30 q20 q30 q40 : Ptr) (distToEnd : Nat) (px : Proxy α) : M (St α) Unit := do
  let q21 := p30
  let _ ← uninitMove E p20 p30 q30
  guard (destroyRange q30 q40) do
    let r ← px.insertN E q20 distToEnd
    let d ← distance q21 q30
    let _ ← r.2.uninitInsertN E q21 d
    pure ()

/-- devector.hpp:2120-2378 `insert_aux`. -/
def insertAux (E : Env α) (pos : Ptr) (n : Nat) (px : Proxy α) : DM α Ptr := do
  let v ← getObj
  M.assert (InRange v pos)
  let distToBegin ← distance v.first pos
  if n = 0 then pure (v.first.add distToBegin)
  else do
    let distToEnd ← distance pos v.last
    if distToBegin < distToEnd then do
      let af ← availableFront
      if af ≥ n then do
        let q10 := v.first.sub n
        let q20 := q10.add distToBegin
        let q30 := v.first.add distToBegin
        if distToBegin > n then lift (intoFront1 E v.first q30 q10 q20 n px)
        else lift (intoFront2 E v.first q30 q10 q20 q30 px)
        setObj { v with first := q10 }
        pure q20
      else insertMoreFront E pos n px
    else do
      let ab ← availableBack
      if ab ≥ n then do
        let q20 := v.first.add distToBegin
        let q30 := q20.add n
        let q40 := q30.add distToEnd
        if distToEnd > n then lift (intoBack1 E q20 v.last q20 q30 q40 n px)
        else lift (intoBack2 E q20 v.last q20 q30 q40 distToEnd px)
        setObj { v with last := q40 }
        pure q20
      else insertMoreBack E pos n px

/-- devector.hpp:701-721 `emplace`; 724-734 `insert(pos, value)` forwards to it. -/
def emplace (E : Env α) (pos : Ptr) (a : Arg α) : DM α Ptr := do
  let v ← getObj
  M.assert (InRange v pos)
  if pos = v.first then emplaceFrontAux E a
  else if pos = v.last then emplaceBackAux E a
  else do
    let tmp ← lift (mkTmp E a)
    insertAux E pos 1 (.one tmp)

/-- devector.hpp:756-760 `emplace_front`; 768-776 `push_front` forward to it. -/
def emplaceFront (E : Env α) (a : Arg α) : DM α Unit := do
  let _ ← emplaceFrontAux E a
  pure ()

/-- devector.hpp:762-766 `emplace_back`; 778-786 `push_back` forward to it. -/
def emplaceBack (E : Env α) (a : Arg α) : DM α Unit := do
  let _ ← emplaceBackAux E a
  pure ()

/-- devector.hpp:736-740, 4050-4054 `insert(pos, n, value)`, `insert_fill_n`. -/
def insertFillN (E : Env α) (pos : Ptr) (n : Nat) (a : Arg α) : DM α Ptr := do
  let v ← getObj
  M.assert (InRange v pos)
  insertAux E pos n (.fill a)

/-- devector.hpp:742-754, 4072-4079 `insert(pos, first, last)` with forward iterators (the range `as` lies outside the
container), `insert_range`. -/
def insertRange (E : Env α) (pos : Ptr) (as : List (Arg α)) : DM α Ptr := do
  let v ← getObj
  M.assert (InRange v pos)
  insertAux E pos as.length (.range as)

/-- devector.hpp:4060-4067: the loop of `insert_range` with input iterators. -/
def insertEach (E : Env α) (pos : Ptr) : List (Arg α) → DM α Unit
  | [] => pure ()
  | a :: as => do
    let p ← emplace E pos a
    insertEach E (p.add 1) as

/-- devector.hpp:742-748, 4056-4069 `insert(pos, first, last)` with single-pass iterators. -/
def insertInput (E : Env α) (pos : Ptr) (as : List (Arg α)) : DM α Ptr := do
  let v ← getObj
  M.assert (InRange v pos)
  let offset ← distance v.first pos
  insertEach E pos as
  let v ← getObj
  pure (v.first.add offset)

/-! ### resize -/

/-- private.hpp:1398-1416 `uninitialized_default_construct_a`. -/
def uninitDefault (E : Env α) (first last : Ptr) : M (St α) Unit := uninitFill E first last (.val E.dflt)

/-- devector.hpp:876-954 `resize(n)` (with `a = .val E.dflt`, see `uninitDefaultN`) and 956-1039 `resize(n, value)`,
which are the same code with uninitialized_fill instead of uninitialized_default_construct. -/
def resizeWith (E : Env α) (n : Nat) (a : Arg α) : DM α Unit := do
  let v ← getObj
  let sz ← size
  if n ≤ sz then do
    let newLast := v.first.add n
    lift (destroyRange newLast v.last)
    setObj { v with last := newLast }
  else do
    let ab ← availableBack
    if n ≤ sz + ab then do
      let l ← lift (uninitFillN E v.last (n - sz) a)
      setObj { v with last := l }
    else do
      let af ← availableFront
      if n ≤ af + sz + ab then do
        lift (uninitFill E v.last v.eos a)
        setObj { v with last := v.eos }
        let newFirst := v.first.sub (n - (sz + ab))
        lift (uninitFill E newFirst v.first a)
        setObj { v with last := v.eos, first := newFirst }
      else do
        growStorageBack E (n - (af + sz + ab))
        let v ← getObj
        let l ← lift (uninitFillN E v.last (n - (sz + af)) a)
        setObj { v with last := l }
        lift (uninitFill E v.bos v.first a)
        setObj { v with last := l, first := v.bos }

/-- devector.hpp:1041-1078 `resize_front(n)`, 1080-1118 `resize_front(n, value)`. -/
def resizeFrontWith (E : Env α) (n : Nat) (a : Arg α) : DM α Unit := do
  let v ← getObj
  let sz ← size
  if n ≤ sz then do
    let newFirst := v.first.add (sz - n)
    lift (destroyRange v.first newFirst)
    setObj { v with first := newFirst }
  else do
    let af ← availableFront
    if n > sz + af then growStorageFront E (n - (sz + af)) else pure ()
    let v ← getObj
    let newFirst := v.first.sub (n - sz)
    lift (uninitFill E newFirst v.first a)
    setObj { v with first := newFirst }

/-- devector.hpp:1120-1153 `resize_back(n)`, 1155-1189 `resize_back(n, value)`. -/
def resizeBackWith (E : Env α) (n : Nat) (a : Arg α) : DM α Unit := do
  let v ← getObj
  let sz ← size
  if n ≤ sz then do
    let newLast := v.first.add n
    lift (destroyRange newLast v.last)
    setObj { v with last := newLast }
  else do
    let ab ← availableBack
    if n > sz + ab then growStorageBack E (n - (sz + ab)) else pure ()
    let v ← getObj
    let l ← lift (uninitFillN E v.last (n - sz) a)
    setObj { v with last := l }

/-! ### Construction, assignment, swap -/

/-- devector.hpp:1536-1559 `initialize_default_n`, 1561-1585 `initialize_fill_n`, 1621-1647 `initialize_range`,
1649-1675 `initialize_copy`, 1697-1717 (second branch of `initialize_move`): allocate exactly the number of elements,
construct them from the initialisers `as`, deallocate on exception. -/
def initWith (E : Env α) (as : List (Arg α)) : DM α Unit := do
  let n := as.length
  checkSize E n
  let v ← getObj
  let p ← lift (allocate E v.alloc n)
  let v := { v with bos := p, first := p, last := p, eos := p.add n }
  setObj v
  let l ← M.tryCatch (lift (uninit E p as)) (fun e => do
    lift (deallocate v.alloc p n)
    M.throw e)
  setObj { v with last := l }

/-- devector.hpp:1593-1597, 1849-1854: emplace_back for each element of a single-pass range. -/
def emplaceBackAll (E : Env α) : List (Arg α) → DM α Unit
  | [] => pure ()
  | a :: as => do
    emplaceBack E a
    emplaceBackAll E as

/-- devector.hpp:214-230: destructor; also the handler 1600-1615. -/
def destroy : DM α Unit := do
  let v ← getObj
  lift (destroyRange v.first v.last)
  let n ← distance v.bos v.eos
  lift (deallocate v.alloc v.bos n)

/-- devector.hpp:1587-1617 `initialize_range` with single-pass iterators. -/
def initInput (E : Env α) (as : List (Arg α)) : DM α Unit :=
  M.tryCatch (emplaceBackAll E as) (fun e => do
    destroy
    M.throw e)

/-- devector.hpp:128-182: the constructors (of an object whose allocator has been set). -/
def construct' (E : Env α) : Sq.Init α → DM α Unit
  | .empty => pure ()
  | .count n => initWith E (List.replicate n (.val E.dflt))
  | .fill n v => initWith E (List.replicate n (.val v))
  | .range ys => initWith E (ys.map .val)
  | .input ys => initInput E (ys.map .val)

/-- devector.hpp:1649-1675 `initialize_copy`. -/
def initCopy (E : Env α) (other : DVec) : DM α Unit := do
  let n ← distance other.first other.last
  initWith E (args .ref other.first n)

/-- devector.hpp:1677-1718 `initialize_move`. -/
def initMove (E : Env α) : M (Obj (DVec × DVec) α) Unit := do
  let o ← getObj
  if o.1.alloc = o.2.alloc then
    setObj ({ o.2 with alloc := o.1.alloc },
      { o.2 with bos := Ptr.null, first := Ptr.null, last := Ptr.null, eos := Ptr.null })
  else do
    let n ← distance o.2.first o.2.last
    onThis (initWith E (args .mv o.2.first n))

/-- devector.hpp:1385-1416 `reset`, with `new_cap = 0` (the only use). Line 1396 passes `first_` to deallocate. -/
def reset : DM α Unit := do
  let v ← getObj
  lift (destroyRange v.first v.last)
  let n ← distance v.bos v.eos
  lift (deallocate v.alloc v.first n)
  setObj { v with bos := Ptr.null, first := Ptr.null, last := Ptr.null, eos := Ptr.null }

/-- devector.hpp:1720-1831 `assign_fill_n`. -/
def assignFillN (E : Env α) (n : Nat) (a : Arg α) : DM α Unit := do
  let v ← getObj
  let sz ← size
  if n ≤ sz then do
    let newLast := v.first.add n
    lift (fillRange E v.first newLast a)
    lift (destroyRange newLast v.last)
    setObj { v with last := newLast }
  else do
    let ab ← availableBack
    if n ≤ sz + ab then do
      lift (fillRange E v.first v.last a)
      let l ← lift (uninitFillN E v.last (n - sz) a)
      setObj { v with last := l }
    else do
      let af ← availableFront
      if n ≤ af + sz + ab then do
        lift (fillRange E v.first v.last a)
        lift (uninitFill E v.last v.eos a)
        setObj { v with last := v.eos }
        let newFirst := v.first.sub (n - (sz + ab))
        lift (uninitFill E newFirst v.first a)
        setObj { v with last := v.eos, first := newFirst }
      else do
        growStorageBack E (n - (af + sz + ab))
        let v ← getObj
        lift (fillRange E v.first v.last a)
        let l ← lift (uninitFillN E v.last (n - (sz + af)) a)
        setObj { v with last := l }
        lift (uninitFill E v.bos v.first a)
        setObj { v with last := l, first := v.bos }

/-- devector.hpp:1862-1981 `assign_range` with forward iterators; `as` are the dereferenced iterators. -/
def assignRange (E : Env α) (as : List (Arg α)) : DM α Unit := do
  let n := as.length
  let v ← getObj
  let sz ← size
  if n ≤ sz then do
    let newLast ← lift (assignGo E v.first as)
    lift (destroyRange newLast v.last)
    setObj { v with last := newLast }
  else do
    let ab ← availableBack
    if n ≤ sz + ab then do
      let _ ← lift (assignGo E v.first (as.take sz))
      let l ← lift (uninit E v.last (as.drop sz))
      setObj { v with last := l }
    else do
      let af ← availableFront
      if n ≤ af + sz + ab then do
        let mid1 := n - (sz + ab)
        let _ ← lift (assignGo E v.first ((as.drop mid1).take sz))
        let l ← lift (uninit E v.last (as.drop (mid1 + sz)))
        setObj { v with last := l }
        let newFirst := v.first.sub (n - (sz + ab))
        let _ ← lift (uninit E newFirst (as.take mid1))
        setObj { v with last := l, first := newFirst }
      else do
        growStorageBack E (n - (af + sz + ab))
        let v ← getObj
        let mid1 := af
        let _ ← lift (assignGo E v.first ((as.drop mid1).take sz))
        let l ← lift (uninit E v.last (as.drop (mid1 + sz)))
        setObj { v with last := l }
        let _ ← lift (uninit E v.bos (as.take mid1))
        setObj { v with last := l, first := v.bos }

/-- devector.hpp:1833-1860 `assign_range` with single-pass iterators: the first loop assigns to the existing elements,
then the remaining elements are appended or the remaining old elements are destroyed. -/
def assignInput (E : Env α) (as : List (Arg α)) : DM α Unit := do
  let v ← getObj
  let sz ← size
  let curr ← lift (assignGo E v.first (as.take sz))
  if sz < as.length then emplaceBackAll E (as.drop sz)
  else if curr.off < v.last.off then do
    lift (destroyRange curr v.last)
    setObj { v with last := curr }
  else pure ()

/-- devector.hpp:1983-2003 `assign_copy`, `this != &other`. -/
def assignCopy (E : Env α) (T : Traits) (other : DVec) : DM α Unit := do
  if T.pocca = true then do
    let v ← getObj
    if v.alloc ≠ other.alloc then reset else pure ()
    let v ← getObj
    setObj { v with alloc := other.alloc }
  else pure ()
  let n ← distance other.first other.last
  assignRange E (args .ref other.first n)

/-- devector.hpp:2005-2041 `assign_move`. -/
def assignMove (E : Env α) (T : Traits) : M (Obj (DVec × DVec) α) Unit := do
  if T.pocma = true then do
    let o ← getObj
    if o.1.alloc ≠ o.2.alloc then onThis reset else pure ()
    let o ← getObj
    setObj ({ o.1 with alloc := o.2.alloc }, o.2)
  else pure ()
  let o ← getObj
  if o.1.alloc = o.2.alloc then do
    onThis reset
    let o ← getObj
    setObj ({ o.2 with alloc := o.1.alloc },
      { o.2 with bos := Ptr.null, first := Ptr.null, last := Ptr.null, eos := Ptr.null })
  else do
    let n ← distance o.2.first o.2.last
    onThis (assignRange E (args .mv o.2.first n))

/-- devector.hpp:1191-1220 `swap`, `this != &other`. -/
def swap (T : Traits) : M (Obj (DVec × DVec) α) Unit := do
  let o ← getObj
  M.assert (T.pocs = true ∨ o.1.alloc = o.2.alloc)
  if T.pocs = true then setObj ({ o.1 with alloc := o.2.alloc }, { o.2 with alloc := o.1.alloc }) else pure ()
  let o ← getObj
  setObj ({ o.2 with alloc := o.1.alloc }, { o.1 with alloc := o.2.alloc })

/-- devector.hpp:4161-4183, non-member `erase(c, value)` and `erase_if(c, pred)`. The predicate (or comparison) itself
does not throw and has no side effects. -/
def eraseIf (E : Env α) (f : α → Bool) : DM α Nat := do
  let v ← getObj
  let it ← lift (removeIf E f v.first v.last)
  let v ← getObj
  let r ← distance it v.last
  let _ ← eraseRange E it v.last
  pure r

end Devector
end Sfl
