import Verif.WorldVec
import Verif.Flat
/-
  Model of sfl::static_vector, /repo/include/sfl/static_vector.hpp, and of the functions all static containers share
  (copy and move construction, assignment, swap, destruction).

  The object contains an array of `N` slots (static_vector.hpp:63-82): a memory block `ib` that belongs to no
  allocator. The data members are written as for small_vector: `first` is the array and never changes, `eos` is its end
  (`first_ + N` in the code, a constant), `alloc` has no counterpart in the code and is never used. `capacity()` is the
  constant `N` (static_vector.hpp:470-473).
-/

namespace Sfl
namespace StaticVector
open Sfl.Vector (VM size InRange assignRangeLoop)
variable {α : Type}

/-- static_vector.hpp:452-455 `full`, as used in `SFL_ASSERT(!full())`. -/
def assertNotFull (N : Nat) : VM α Unit := do
  let sz ← size
  M.assert (sz ≠ N)

/-- static_vector.hpp:476-479 `available`, as used in `SFL_ASSERT(n <= available())`. -/
def assertAvailable (N n : Nat) : VM α Unit := do
  let sz ← size
  M.assert (n ≤ N - sz)

/-- static_vector.hpp:182-185 `~static_vector` (the same in the other static containers, e.g.
static_flat_set.hpp:214-217). -/
def destructor : VM α Unit := do
  let v ← getObj
  lift (destroyRange v.first v.last)

/-- The constructors creating a given number of elements: static_vector.hpp:91-124 (n, value), 144-160 (forward range,
initializer list). The elements are constructed from the initialisers `as`. -/
def initWith (E : Env α) (N : Nat) (as : List (Arg α)) : VM α Unit := do
  M.assert (as.length ≤ N)
  let v ← getObj
  let l ← lift (uninit E v.first as)
  setObj { v with last := l }

/-- static_vector.hpp:799-811 `emplace_back` (push_back: 813-821). Returns the position of the new element. -/
def emplaceBack (E : Env α) (N : Nat) (a : Arg α) : VM α Ptr := do
  assertNotFull N
  let v ← getObj
  lift (construct E v.last a)
  setObj { v with last := v.last.add 1 }
  pure v.last

/-- The loops of static_vector.hpp:131-135 and 247-254. -/
def emplaceBackAll (E : Env α) (N : Nat) : List (Arg α) → VM α Unit
  | [] => pure ()
  | a :: as => do
    let _ ← emplaceBack E N a
    emplaceBackAll E N as

/-- static_vector.hpp:126-142, constructor from an input range. -/
def initRangeInput (E : Env α) (N : Nat) (ys : List α) : VM α Unit :=
  M.tryCatch (emplaceBackAll E N (ys.map .val)) (fun e => do
    destructor
    M.throw e)

/-- static_vector.hpp:162-170, copy constructor (static_flat_set.hpp:192-201 and the other static containers). -/
def initCopy (E : Env α) (other : Vec) : VM α Unit := do
  let n ← distance other.first other.last
  let v ← getObj
  let l ← lift (uninit E v.first (args .ref other.first n))
  setObj { v with last := l }

/-- static_vector.hpp:172-180, move constructor (static_flat_set.hpp:203-212 and the other static containers). -/
def initMove (E : Env α) : M2 α Unit := do
  let o ← getObj
  let l ← lift (uninitMove E o.2.first o.2.last o.1.first)
  setObj ({ o.1 with last := l }, o.2)

/-- static_vector.hpp:191-232 `assign(n, value)`. -/
def assignFillN (E : Env α) (N : Nat) (n : Nat) (a : Arg α) : VM α Unit := do
  M.assert (n ≤ N)
  let sz ← size
  let v ← getObj
  let newLast := v.first.add n
  if n ≤ sz then
    lift (fillRange E v.first newLast a)
    lift (destroyRange newLast v.last)
    setObj { v with last := newLast }
  else
    lift (fillRange E v.first v.last a)
    lift (uninitFill E v.last newLast a)
    setObj { v with last := newLast }

/-- static_vector.hpp:234-261 `assign` (input iterators). -/
def assignRangeInput (E : Env α) (N : Nat) (as : List (Arg α)) : VM α Unit := do
  let v ← getObj
  let (rest, curr) ← lift (assignRangeLoop E v.last as v.first)
  if rest ≠ [] then emplaceBackAll E N rest
  else if curr.off < v.last.off then
    lift (destroyRange curr v.last)
    setObj { v with last := curr }
  else pure ()

/-- static_vector.hpp:263-308 `assign` (forward iterators), static_flat_set.hpp:812-856 `assign_range` and the same
function of the other static containers; `as` is the dereferenced source. -/
def assignRange (E : Env α) (N : Nat) (as : List (Arg α)) : VM α Unit := do
  let n := as.length
  M.assert (n ≤ N)
  let sz ← size
  let v ← getObj
  if n ≤ sz then
    let newLast ← lift (assignGo E v.first as)
    lift (destroyRange newLast v.last)
    setObj { v with last := newLast }
  else
    let _ ← lift (assignGo E v.first (as.take sz))
    let l ← lift (uninit E v.last (as.drop sz))
    setObj { v with last := l }

/-- static_vector.hpp:315-326 `operator=(const static_vector&)` for `this != &other` (static_flat_set.hpp:223-237 and
the other static containers). -/
def assignCopy (E : Env α) (N : Nat) (other : Vec) : VM α Unit := do
  let n ← distance other.first other.last
  assignRange E N (args .ref other.first n)

/-- static_vector.hpp:328-336 `operator=(static_vector&&)` (static_flat_set.hpp:239-250 and the other static
containers). -/
def assignMove (E : Env α) (N : Nat) : M2 α Unit := do
  let o ← getObj
  let n ← distance o.2.first o.2.last
  onThis (assignRange E N (args .mv o.2.first n))

/-- static_vector.hpp:957-1015 `swap` for `this != &other` (static_flat_set.hpp:559-618 and the other static
containers). -/
def swap (E : Env α) : M2 α Unit := do
  let o ← getObj
  let n ← distance o.1.first o.1.last
  let k ← distance o.2.first o.2.last
  if n ≤ k then do
    lift (swapRanges E o.1.first o.2.first n)
    let _ ← lift (uninitMove E (o.2.first.add n) (o.2.first.add k) (o.1.first.add n))
    lift (destroyRange (o.2.first.add n) (o.2.first.add k))
  else do
    lift (swapRanges E o.2.first o.1.first k)
    let _ ← lift (uninitMove E (o.1.first.add k) (o.1.first.add n) (o.2.first.add k))
    lift (destroyRange (o.1.first.add k) (o.1.first.add n))
  setObj ({ o.1 with last := o.1.first.add k }, { o.2 with last := o.2.first.add n })

/-- static_vector.hpp:571-618 `emplace` (insert of one value: 620-628). -/
def emplace (E : Env α) (N : Nat) (pos : Ptr) (a : Arg α) : VM α Ptr := do
  assertNotFull N
  let v ← getObj
  M.assert (InRange v pos)
  let p1 := v.first.add (pos.off - v.first.off)
  if p1 = v.last then
    lift (construct E p1 a)
    setObj { v with last := v.last.add 1 }
    pure p1
  else
    let tmp ← lift (mkTmp E a)
    let p2 := v.last.sub 1
    let oldLast := v.last
    lift (construct E v.last (.mv p2))
    setObj { v with last := v.last.add 1 }
    let _ ← lift (moveBackward E p1 p2 oldLast)
    lift (assign E p1 (.rv tmp))
    pure p1

/-- static_vector.hpp:630-701 `insert(pos, n, value)`. -/
def insertFillN (E : Env α) (N : Nat) (pos : Ptr) (n : Nat) (a : Arg α) : VM α Ptr := do
  assertAvailable N n
  let v ← getObj
  M.assert (InRange v pos)
  let offset := pos.off - v.first.off
  if n = 0 then pure (v.first.add offset)
  else
    let tmp ← lift (mkTmp E a)
    let p1 := v.first.add offset
    let p2 := p1.add n
    let oldLast := v.last
    if p2.off ≤ v.last.off then
      let p3 := v.last.sub n
      let l ← lift (uninitMove E p3 v.last v.last)
      setObj { v with last := l }
      let _ ← lift (moveBackward E p1 p3 oldLast)
      lift (fillRange E p1 p2 (.val tmp))
      pure p1
    else
      lift (uninitFill E v.last p2 (.val tmp))
      setObj { v with last := p2 }
      let l ← lift (uninitMove E p1 oldLast p2)
      setObj { v with last := l }
      lift (fillRange E p1 oldLast (.val tmp))
      pure p1

/-- The loop of static_vector.hpp:709-714. -/
def insertRangeLoop (E : Env α) (N : Nat) : List (Arg α) → Ptr → VM α Ptr
  | [], pos => pure pos
  | a :: as, pos => do
    let p ← emplace E N pos a
    insertRangeLoop E N as (p.add 1)

/-- static_vector.hpp:703-717 `insert` (input iterators). `std::distance(cbegin(), pos)` needs a position in range. -/
def insertRangeInput (E : Env α) (N : Nat) (pos : Ptr) (ys : List α) : VM α Ptr := do
  let v ← getObj
  M.assert (InRange v pos)
  let offset := pos.off - v.first.off
  let _ ← insertRangeLoop E N (ys.map .val) pos
  let v ← getObj
  pure (v.first.add offset)

/-- static_vector.hpp:719-792 `insert` (forward iterators; initializer list: 794-797), source outside the vector. -/
def insertRange (E : Env α) (N : Nat) (pos : Ptr) (ys : List α) : VM α Ptr := do
  assertAvailable N ys.length
  let v ← getObj
  M.assert (InRange v pos)
  let offset := pos.off - v.first.off
  if ys = [] then pure (v.first.add offset)
  else
    let n := ys.length
    let p1 := v.first.add offset
    let p2 := p1.add n
    let oldLast := v.last
    if p2.off ≤ v.last.off then
      let p3 := v.last.sub n
      let l ← lift (uninitMove E p3 v.last v.last)
      setObj { v with last := l }
      let _ ← lift (moveBackward E p1 p3 oldLast)
      let _ ← lift (copyList E p1 ys)
      pure p1
    else
      let m ← distance pos v.last
      let l ← lift (uninitCopyList E v.last (ys.drop m))
      setObj { v with last := l }
      let l ← lift (uninitMove E p1 oldLast l)
      setObj { v with last := l }
      let _ ← lift (copyList E p1 (ys.take m))
      pure p1

/-- static_vector.hpp:866-894 `resize(n)` and 926-955 `resize(n, value)`: the two bodies differ only in the algorithm
constructing the new elements. -/
def resizeWith (E : Env α) (N : Nat) (n : Nat) (a : Arg α) : VM α Unit := do
  M.assert (n ≤ N)
  let v ← getObj
  let sz ← size
  if n < sz then
    let newLast := v.first.add n
    lift (destroyRange newLast v.last)
    setObj { v with last := newLast }
  else if n > sz then
    let delta := n - sz
    let newLast ← lift (uninitFillN E v.last delta a)
    setObj { v with last := newLast }
  else pure ()

/-- The constructors without a source container: static_vector.hpp:88-160. -/
def construct (E : Env α) (N : Nat) : Sq.Init α → VM α Unit
  | .empty => pure ()
  | .count n => initWith E N (List.replicate n (.val E.dflt))
  | .fill n v => initWith E N (List.replicate n (.val v))
  | .range ys => initWith E N (ys.map .val)
  | .input ys => initRangeInput E N ys

/-- The public modifiers of static_vector (static_vector.hpp:187-955, 1097-1116), dispatched on the operation. `clear`
(565-569), `pop_back` (823-830), `erase` (832-864), `erase_if` (1106-1116) have the text of the corresponding functions
of vector. There is no reserve and no shrink_to_fit; the operations are never called, their precondition being
false (see `pre`). -/
def exec (E : Env α) (N : Nat) : Sq.Op α → VM α (Option Nat)
  | .pushBack s => do
    let a ← Vector.argOf s
    let p ← emplaceBack E N a
    Vector.indexOf p
  | .emplace k s => do
    let a ← Vector.argOf s
    let pos ← Vector.nth k
    let p ← emplace E N pos a
    Vector.indexOf p
  | .insertN k n s => do
    let a ← Vector.argOf s
    let pos ← Vector.nth k
    let p ← insertFillN E N pos n a
    Vector.indexOf p
  | .insertRange k ys => do
    let pos ← Vector.nth k
    let p ← insertRange E N pos ys
    Vector.indexOf p
  | .insertInput k ys => do
    let pos ← Vector.nth k
    let p ← insertRangeInput E N pos ys
    Vector.indexOf p
  | .popBack => do
    Vector.popBack
    pure none
  | .eraseAt k => do
    let pos ← Vector.nth k
    let p ← Vector.eraseAt E pos
    Vector.indexOf p
  | .eraseRange k l => do
    let f ← Vector.nth k
    let l ← Vector.nth l
    let p ← Vector.eraseRange E f l
    Vector.indexOf p
  | .resize n => do
    resizeWith E N n (.val E.dflt)
    pure none
  | .resizeV n s => do
    let a ← Vector.argOf s
    resizeWith E N n a
    pure none
  | .assignN n v => do
    assignFillN E N n (.val v)
    pure none
  | .assignRange ys => do
    assignRange E N (ys.map .val)
    pure none
  | .assignInput ys => do
    assignRangeInput E N (ys.map .val)
    pure none
  | .clear => do
    Vector.clear
    pure none
  | .reserve _ => pure none
  | .shrinkToFit => pure none
  | .eraseIf f => do
    let n ← Vector.eraseIf E f
    pure (some n)

/-- Operations that do not exist in static containers. -/
def foreign : Sq.Op α → Bool
  | .reserve _ => true
  | .shrinkToFit => true
  | _ => false

/-- The documented precondition of an operation on a static_vector with `n` elements: that of the corresponding
operation of vector, and the elements must fit. -/
def pre (N n : Nat) (op : Sq.Op α) : Bool := op.pre n && decide (op.room n ≤ N) && !foreign op

/-- A static_vector as a client sees it (static_vector.hpp:88-1015). -/
def impl (E : Env α) (N : Nat) : Sq.Impl (Sq.Op α) Vec α (Option Nat) where
  size := Vector.size
  index := Vector.index
  exec := exec E N
  destroy := destructor

/-- Containers with the storage of static_vector. The array of the object in slot `i` is the block `ib i`. There are no
allocators; the tag `alloc` is carried along unused. -/
def contOf {K : Nat} {Op I ρ : Type} (E : Env α) (ib : Fin K → Nat) (N : Nat)
    (make : Fin K → I → VM α Unit) (exec : Fin K → Op → VM α (Option ρ)) : World.Cont K Op I Vec α ρ where
  alloc := Vec.alloc
  blank := fun i al => SmallVector.empty (ib i) N al
  make := make
  copyInit := fun _ w => initCopy E w
  moveInit := fun _ _ => initMove E
  destroy := fun _ => destructor
  size := Vector.size
  index := Vector.index
  exec := exec
  assignCopy := fun _ _ w => assignCopy E N w
  assignMove := fun _ _ => assignMove E N
  swap := fun _ _ => swap E

/-- static_vector as a container type (public functions of static_vector.hpp:88-1015). -/
def cont {K : Nat} (E : Env α) (ib : Fin K → Nat) (N : Nat) : World.Cont K (Sq.Op α) (Sq.Init α) Vec α Nat :=
  contOf E ib N (fun _ init => construct E N init) (fun _ => exec E N)

/-- Allocator traits for containers without allocators: nothing propagates, a copy has the same tag. -/
def noTraits : Traits := ⟨false, false, false, id⟩

/-- Abstract meaning of containers with the storage of static_vector: at most `N` elements; a move leaves moved-from
elements in its source. -/
def semOf {Op I ρ : Type} (E : Env α) (N : Nat) (pre : Nat → Op → Bool)
    (okStep : List α → Op → Option ρ → List α → Prop) (failStep : List α → Op → Exn → List α → Prop)
    (initPre : I → Bool) (init : I → List α → Prop) (initFail : I → Exn → Prop) : World.Sem Op I α ρ where
  pre := pre
  okStep := okStep
  failStep := failStep
  initPre := initPre
  init := init
  initFail := initFail
  left := fun _ xs ys => ys = xs.map E.moved
  moveFail := fun xs ys => ys.length = xs.length
  assignFail := fun ys => ys.length ≤ N
  swapFail := fun xs ys xs' ys' => ¬ NothrowMove E ∧ xs'.length = xs.length ∧ ys'.length = ys.length
  swapPre := fun _ _ => true
  T := noTraits

/-- Abstract meaning of static_vector: the results of the list operations, never more than `N` elements, no
exception of the allocator and no `length_error`. -/
def sem (E : Env α) (N : Nat) : World.Sem (Sq.Op α) (Sq.Init α) α Nat :=
  semOf E N (pre N) (fun xs op r ys => Sq.okStep E xs op r ys ∧ ys.length ≤ N)
    (fun xs op e ys => Sq.failStep E xs op e ys ∧ ys.length ≤ N ∧ e ≠ .badAlloc ∧ e ≠ .lengthError)
    (fun i => decide ((i.result E.dflt).length ≤ N)) (fun i ys => ys = i.result E.dflt) (fun _ e => e ≠ .badAlloc ∧ e ≠ .lengthError)

end StaticVector
end Sfl
