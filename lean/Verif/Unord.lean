import Verif.UnordSpec
import Verif.Flat
import Verif.Static
/-
  The unordered flat containers: small_unordered_flat_set, small_unordered_flat_map, small_unordered_flat_multiset,
  small_unordered_flat_multimap and static_unordered_flat_set, static_unordered_flat_map,
  static_unordered_flat_multiset, static_unordered_flat_multimap.

  Sets and maps differ in the key of an element (`KeyEq.key`), in the operations maps have in addition, and in the ways
  collected in `Kind`. The data members are those of small_vector and static_vector.
-/

namespace Sfl.Unord
open Sfl.Vector (VM)
open Sq (Src)
open Flat (Ret argRead posOf insOf)
variable {α κ : Type}

/-- What differs between the eight containers: whether equal keys are allowed; whether they are maps; whether `emplace`
adds the element before looking for its key (`emplace_aux`: small_unordered_flat_map.hpp:1733-1746,
static_unordered_flat_set.hpp:763-776, static_unordered_flat_map.hpp:1021-1034; small_unordered_flat_set.hpp:738-742
creates a temporary instead); the check made at the start of every public insertion (`SFL_ASSERT(!full())` in the static
containers); and `emplace_back`. -/
structure Kind (α : Type) where
  multi : Bool
  isMap : Bool
  appends : Bool
  guard : VM α Unit
  push : Arg α → VM α Ptr

/-- The small containers (`emplace_back` has the text of small_vector's: small_unordered_flat_set.hpp:1549-1662,
small_unordered_flat_map.hpp:1835-1948, small_unordered_flat_multiset.hpp:1506-1619,
small_unordered_flat_multimap.hpp:1592-1705). -/
def small (multi isMap : Bool) (E : Env α) (ib N : Nat) : Kind α :=
  ⟨multi, isMap, isMap, pure (), SmallVector.emplaceBack E ib N⟩

/-- `emplace_back` of the static containers (static_unordered_flat_set.hpp:826-841, static_unordered_flat_map.hpp:1123-1138,
static_unordered_flat_multiset.hpp:769-784, static_unordered_flat_multimap.hpp:869-884). -/
def staticPush (E : Env α) (a : Arg α) : VM α Ptr := do
  Flat.notFull
  let v ← getObj
  lift (construct E v.last a)
  setObj { v with last := v.last.add 1 }
  pure v.last

/-- The static containers. -/
def static (multi isMap : Bool) (E : Env α) : Kind α := ⟨multi, isMap, true, Flat.notFull, staticPush E⟩

/-- What an element is compared with: something outside the container, or (the key of) the object at `p`. -/
inductive Sought (α : Type) where
  | pred (f : α → Bool)
  | obj (p : Ptr)

/-- `data_.ref_to_equal()(*it, key)` (small_unordered_flat_set.hpp:1065). -/
def eqAt (U : KeyEq α κ) (E : Env α) (q : Sought α) (it : Ptr) : M (St α) Bool := do
  let e ← readAt it
  match q with
  | .pred f => comp E U.nothrow (f e)
  | .obj p => do
    let k ← readAt p
    comp E U.nothrow (U.same e k)

/-- Loop of `find`: at most `n` rounds remain. -/
def findGo (U : KeyEq α κ) (E : Env α) (q : Sought α) : Nat → Ptr → VM α Ptr
  | 0, it => pure it
  | n + 1, it => do
    let v ← getObj
    if it = v.last then pure it
    else do
      let r ← lift (eqAt U E q it)
      if r = true then pure it else findGo U E q n (it.add 1)

/-- small_unordered_flat_set.hpp:1062-1119 `find` (small_unordered_flat_multiset.hpp:1062-1119,
small_unordered_flat_map.hpp:1233-1290, small_unordered_flat_multimap.hpp:1148-1205,
static_unordered_flat_set.hpp:610-667, static_unordered_flat_map.hpp:792-849, static_unordered_flat_multiset.hpp:608-665,
static_unordered_flat_multimap.hpp:696-753). -/
def find (U : KeyEq α κ) (E : Env α) (q : Sought α) : VM α Ptr := do
  let n ← Vector.size
  let v ← getObj
  findGo U E q n v.first

/-- Loop of `count` of the multi containers. -/
def countGo (U : KeyEq α κ) (E : Env α) (q : Sought α) : Nat → Ptr → Nat → VM α Nat
  | 0, _, c => pure c
  | n + 1, it, c => do
    let v ← getObj
    if it = v.last then pure c
    else do
      let r ← lift (eqAt U E q it)
      if r = true then countGo U E q n (it.add 1) (c + 1) else countGo U E q n (it.add 1) c

/-- `count` of the multi containers (small_unordered_flat_multiset.hpp:1122-1153,
small_unordered_flat_multimap.hpp:1208-1239, static_unordered_flat_multiset.hpp:668-699,
static_unordered_flat_multimap.hpp:756-787). -/
def countMulti (U : KeyEq α κ) (E : Env α) (q : Sought α) : VM α Nat := do
  let n ← Vector.size
  let v ← getObj
  countGo U E q n v.first 0

/-- `contains`: `find(key) != end()` (small_unordered_flat_set.hpp:1136-1146, small_unordered_flat_map.hpp:1307-1317,
small_unordered_flat_multiset.hpp:1156-1166, static_unordered_flat_set.hpp:684-694). -/
def contains (U : KeyEq α κ) (E : Env α) (q : Sought α) : VM α Bool := do
  let it ← find U E q
  let v ← getObj
  pure (decide (it ≠ v.last))

/-- `count` of the containers with unique keys: `find(key) != end()` (small_unordered_flat_set.hpp:1122-1133,
small_unordered_flat_map.hpp:1293-1304, static_unordered_flat_set.hpp:670-681, static_unordered_flat_map.hpp:852-863). -/
def countUnique (U : KeyEq α κ) (E : Env α) (q : Sought α) : VM α Nat := do
  let r ← contains U E q
  pure (if r = true then 1 else 0)

/-- `if (p < last_ - 1) *p = std::move(*(last_ - 1))` (small_unordered_flat_map.hpp:984-987). -/
def fillHole (E : Env α) (p q : Ptr) : M (St α) Unit :=
  if p.off < q.off then assign E p (.mv q) else pure ()

/-- `erase(pos)`: small_unordered_flat_map.hpp:976-994 (set 805-823, multiset 791-809, multimap 877-895,
static_unordered_flat_set.hpp:452-470, static_unordered_flat_map.hpp:634-652, static_unordered_flat_multiset.hpp:436-454,
static_unordered_flat_multimap.hpp:524-542). -/
def eraseAt (E : Env α) (pos : Ptr) : VM α Ptr := do
  let v ← getObj
  M.assert (v.first.blk = pos.blk ∧ v.first.off ≤ pos.off ∧ pos.off < v.last.off)
  let p := v.first.add (pos.off - v.first.off)
  lift (fillHole E p (v.last.sub 1))
  setObj { v with last := v.last.sub 1 }
  lift (destroyAt (v.last.sub 1))
  pure p

/-- `erase(first, last)`: small_unordered_flat_map.hpp:996-1036 (set 825-865, multiset 811-851, multimap 897-937,
static_unordered_flat_set.hpp:472-512, static_unordered_flat_map.hpp:654-694, static_unordered_flat_multiset.hpp:456-496,
static_unordered_flat_multimap.hpp:544-584). -/
def eraseRange (E : Env α) (first last : Ptr) : VM α Ptr := do
  let v ← getObj
  M.assert (v.first.blk = first.blk ∧ v.first.off ≤ first.off ∧
    first.blk = last.blk ∧ first.off ≤ last.off ∧ last.off ≤ v.last.off)
  if first = last then pure (v.first.add (first.off - v.first.off))
  else
    let count1 := last.off - first.off
    let count2 := v.last.off - last.off
    let p1 := v.first.add (first.off - v.first.off)
    if count1 ≥ count2 then
      let p2 := p1.add count1
      let newLast ← lift (moveFwd E p2 v.last p1)
      lift (destroyRange newLast v.last)
      setObj { v with last := newLast }
      pure p1
    else
      let p2 := p1.add count2
      let _ ← lift (moveFwd E p2 v.last p1)
      lift (destroyRange p2 v.last)
      setObj { v with last := p2 }
      pure p1

/-- The loop `if (test(it)) { it = erase(it); ++c; } else { ++it; }` (small_unordered_flat_multiset.hpp:857-868,
small_unordered_flat_map.hpp:2004-2014); at most `n` rounds remain. -/
def eraseGo (E : Env α) (test : Ptr → M (St α) Bool) : Nat → Ptr → Nat → VM α Nat
  | 0, _, c => pure c
  | n + 1, it, c => do
    let v ← getObj
    if it = v.last then pure c
    else do
      let r ← lift (test it)
      if r = true then do
        let p ← eraseAt E it
        eraseGo E test n p (c + 1)
      else eraseGo E test n (it.add 1) c

/-- `erase(key)` of the multi containers (small_unordered_flat_multiset.hpp:853-893, small_unordered_flat_multimap.hpp:939-979,
static_unordered_flat_multiset.hpp:498-538, static_unordered_flat_multimap.hpp:586-626). -/
def eraseKeyMulti (U : KeyEq α κ) (E : Env α) (q : Sought α) : VM α Nat := do
  let n ← Vector.size
  let v ← getObj
  eraseGo E (eqAt U E q) n v.first 0

/-- `erase(key)` of the containers with unique keys (small_unordered_flat_set.hpp:867-893,
small_unordered_flat_map.hpp:1038-1064, static_unordered_flat_set.hpp:514-540, static_unordered_flat_map.hpp:696-722). -/
def eraseKeyUnique (U : KeyEq α κ) (E : Env α) (q : Sought α) : VM α Nat := do
  let it ← find U E q
  let v ← getObj
  if it = v.last then pure 0
  else do
    let _ ← eraseAt E it
    pure 1

/-- `erase(key)` of either kind. -/
def eraseKey (multi : Bool) (U : KeyEq α κ) (E : Env α) (q : Sought α) : VM α Nat :=
  if multi = true then eraseKeyMulti U E q else eraseKeyUnique U E q

/-- The test of `erase_if`; the predicate itself does not throw and has no side effects. -/
def testIf (f : α → Bool) (it : Ptr) : M (St α) Bool := do
  let x ← readAt it
  pure (f x)

/-- Non-member `erase_if` (small_unordered_flat_map.hpp:1996-2016 and the end of the other seven headers). -/
def eraseIf (E : Env α) (f : α → Bool) : VM α Nat := do
  let n ← Vector.size
  let v ← getObj
  let _ ← eraseGo E (testIf f) n v.first 0
  let n' ← Vector.size
  pure (n - n')

/-- Adding an element at the end. -/
def pushNew (K : Kind α) (a : Arg α) : VM α (Ptr × Bool) := do
  let p ← K.push a
  pure (p, true)

/-- `insert_aux(value)` (small_unordered_flat_set.hpp:1509-1519, small_unordered_flat_map.hpp:1756-1766,
static_unordered_flat_set.hpp:786-796, static_unordered_flat_map.hpp:1044-1054); the multi containers call
`emplace_back` (small_unordered_flat_multiset.hpp:751-773, small_unordered_flat_multimap.hpp:816-855). The key, which may
be inside the container, is read once: `find` changes nothing. -/
def insertAux (K : Kind α) (U : KeyEq α κ) (E : Env α) (a : Arg α) : VM α (Ptr × Bool) :=
  if K.multi = true then pushNew K a
  else do
    let x ← lift (argRead a)
    let it ← find U E (.pred (fun e => U.same e x))
    let v ← getObj
    if it = v.last then pushNew K a else pure (it, false)

/-- `emplace_aux` (small_unordered_flat_map.hpp:1733-1746, static_unordered_flat_set.hpp:763-776,
static_unordered_flat_map.hpp:1021-1034). -/
def emplaceAux (K : Kind α) (U : KeyEq α κ) (E : Env α) (x : α) : VM α (Ptr × Bool) := do
  let it1 ← K.push (.val x)
  let it2 ← find U E (.obj it1)
  if it1 = it2 then pure (it2, true)
  else do
    Vector.popBack
    pure (it2, false)

/-- `emplace` (small_unordered_flat_set.hpp:738-748, small_unordered_flat_map.hpp:804-814, small_unordered_flat_multiset.hpp:738-749,
small_unordered_flat_multimap.hpp:803-814, static_unordered_flat_set.hpp:377-389, static_unordered_flat_map.hpp:442-454,
static_unordered_flat_multiset.hpp:377-390, static_unordered_flat_multimap.hpp:442-455). -/
def emplace (K : Kind α) (U : KeyEq α κ) (E : Env α) (x : α) : VM α (Ptr × Bool) :=
  if K.multi = true then pushNew K (.val x)
  else if K.appends = true then emplaceAux K U E x
  else do
    let tmp ← lift (mkTmp E (.val x))
    insertAux K U E (.rv tmp)

/-- The new element of `try_emplace_aux` is created in place; `insert_aux_heterogeneous` of the sets creates a
temporary. -/
def pushKey (K : Kind α) (E : Env α) (x : α) : VM α (Ptr × Bool) :=
  if K.isMap = true then pushNew K (.val x)
  else do
    let tmp ← lift (mkTmp E (.val x))
    pushNew K (.rv tmp)

/-- `try_emplace_aux` (small_unordered_flat_map.hpp:1806-1825, static_unordered_flat_map.hpp:1094-1113) and
`insert_aux_heterogeneous` (small_unordered_flat_set.hpp:1529-1539, static_unordered_flat_set.hpp:806-816). -/
def tryEmplaceAux (K : Kind α) (U : KeyEq α κ) (E : Env α) (x : α) : VM α (Ptr × Bool) := do
  let it ← find U E (.pred (fun e => U.same e x))
  let v ← getObj
  if it = v.last then pushKey K E x else pure (it, false)

/-- `it->second = std::forward<M>(obj)` (small_unordered_flat_map.hpp:1794): if it throws, the mapped value is
unspecified. -/
def assignMapped (U : KeyEq α κ) (E : Env α) (p : Ptr) (x : α) : M (St α) Unit := fun s =>
  match s.mem p.blk p.off with
  | none => .ub .assignRaw
  | some old =>
    if E.throws s.tick then .exn .elem (s.bump.put p (some (U.upd old (E.failDst s.tick old x))))
    else .ok () (s.bump.put p (some (U.upd old x)))

/-- `insert_or_assign_aux` (small_unordered_flat_map.hpp:1776-1796, static_unordered_flat_map.hpp:1064-1084). -/
def insertOrAssignAux (K : Kind α) (U : KeyEq α κ) (E : Env α) (x : α) : VM α (Ptr × Bool) := do
  let it ← find U E (.pred (fun e => U.same e x))
  let v ← getObj
  if it = v.last then pushNew K (.val x)
  else do
    lift (assignMapped U E it x)
    pure (it, false)

/-- `insert(first, last)`: one insertion after the other (small_unordered_flat_set.hpp:791-803,
small_unordered_flat_map.hpp:855-868, small_unordered_flat_multiset.hpp:777-789, small_unordered_flat_multimap.hpp:858-871,
static_unordered_flat_set.hpp:438-450, static_unordered_flat_map.hpp:501-514, static_unordered_flat_multiset.hpp:422-434,
static_unordered_flat_multimap.hpp:505-518). -/
def insertRange (K : Kind α) (U : KeyEq α κ) (E : Env α) : List α → VM α Unit
  | [] => pure ()
  | x :: xs => do
    K.guard
    let _ ← insertAux K U E (.val x)
    insertRange K U E xs

/-- `operator=(initializer_list)` of the small containers (small_unordered_flat_set.hpp:395-400,
small_unordered_flat_map.hpp:451-456, small_unordered_flat_multiset.hpp:395-400, small_unordered_flat_multimap.hpp:450-455). -/
def assignList (K : Kind α) (U : KeyEq α κ) (E : Env α) (xs : List α) : VM α Unit := do
  Vector.clear
  insertRange K U E xs

/-- `SFL_ASSERT(cbegin() <= hint && hint <= cend())`; the hint is not used otherwise
(small_unordered_flat_map.hpp:812, 1748-1753). -/
def checkHint (h : Nat) : VM α Unit := do
  let hint ← Vector.nth h
  let v ← getObj
  M.assert (Vector.InRange v hint)

/-- The public modifiers (small_unordered_flat_set.hpp:725-893, small_unordered_flat_map.hpp:791-1064 and the
corresponding functions of the other headers), dispatched on the operation. -/
def exec (K : Kind α) (U : KeyEq α κ) (E : Env α) (reserve : Nat → VM α Unit) (shrink : VM α Unit) :
    Op α κ → VM α Ret
  | .insert s => do
    let a ← Vector.argOf s
    K.guard
    let r ← insertAux K U E a
    insOf r
  | .insertHint h s => do
    let a ← Vector.argOf s
    K.guard
    checkHint h
    let r ← insertAux K U E a
    posOf r.1
  | .emplace x => do
    K.guard
    let r ← emplace K U E x
    insOf r
  | .emplaceHint h x => do
    K.guard
    checkHint h
    let r ← emplace K U E x
    posOf r.1
  | .tryEmplace x => do
    K.guard
    let r ← tryEmplaceAux K U E x
    insOf r
  | .tryEmplaceHint h x => do
    K.guard
    checkHint h
    let r ← tryEmplaceAux K U E x
    posOf r.1
  | .insertOrAssign x => do
    K.guard
    let r ← insertOrAssignAux K U E x
    insOf r
  | .insertOrAssignHint h x => do
    K.guard
    checkHint h
    let r ← insertOrAssignAux K U E x
    posOf r.1
  | .insertRange xs => do
    insertRange K U E xs
    pure .unit
  | .assignList xs => do
    assignList K U E xs
    pure .unit
  | .eraseAt k => do
    let pos ← Vector.nth k
    let p ← eraseAt E pos
    posOf p
  | .eraseRange k l => do
    let f ← Vector.nth k
    let l ← Vector.nth l
    let p ← eraseRange E f l
    posOf p
  | .eraseKey k => do
    let n ← eraseKey K.multi U E (.pred (U.hasKey k))
    pure (.num n)
  | .eraseEqual i => do
    let p ← Vector.nth i
    let n ← eraseKey K.multi U E (.obj p)
    pure (.num n)
  | .eraseIf f => do
    let n ← eraseIf E f
    pure (.num n)
  | .clear => do
    Vector.clear
    pure .unit
  | .reserve n => do
    reserve n
    pure .unit
  | .shrinkToFit => do
    shrink
    pure .unit

/-- A small unordered flat container as a client sees it (destructor: small_unordered_flat_set.hpp:359-377). -/
def smallImpl (multi isMap : Bool) (U : KeyEq α κ) (E : Env α) (ib N : Nat) : Sq.Impl (Op α κ) Vec α Ret where
  size := Vector.size
  index := Vector.index
  exec := exec (small multi isMap E ib N) U E (SmallVector.reserve E ib N) (SmallVector.shrinkToFit E ib N)
  destroy := SmallVector.destructor ib

/-- The public modifiers of the static containers: `operator=(initializer_list)` is `assign_range`
(static_unordered_flat_set.hpp:249-253, static_unordered_flat_map.hpp:304-308, static_unordered_flat_multiset.hpp:249-253,
static_unordered_flat_multimap.hpp:304-308); reserve and shrink_to_fit do not exist. -/
def staticExec (multi isMap : Bool) (U : KeyEq α κ) (E : Env α) (N : Nat) : Op α κ → VM α Ret
  | .assignList vs => do
    StaticVector.assignRange E N (vs.map .val)
    pure .unit
  | op => exec (static multi isMap E) U E (fun _ => pure ()) (pure ()) op

/-- A static unordered flat container as a client sees it. -/
def staticImpl (multi isMap : Bool) (U : KeyEq α κ) (E : Env α) (N : Nat) : Sq.Impl (Op α κ) Vec α Ret where
  size := Vector.size
  index := Vector.index
  exec := staticExec multi isMap U E N
  destroy := StaticVector.destructor

end Sfl.Unord
