import Verif.FlatSpec
/-
  The ordered flat containers: small_flat_set, small_flat_map, small_flat_multiset, small_flat_multimap and
  static_flat_set, static_flat_map, static_flat_multiset, static_flat_multimap.

  Sets and maps differ only in the key of an element (`Order.key`) and in the operations maps have in addition. The
  data members are those of small_vector (small_flat_set.hpp:85-141 `data_base`); a static container has
  `first = ib, eos = ib + N` for ever (static_flat_set.hpp:88-100). Line numbers refer to small_flat_set.hpp and, for
  what differs, to the other headers.
-/

namespace Sfl.Flat
open Sfl.Vector (VM)
open Sq (Src)
variable {α κ : Type}

/-- What differs between the eight containers: whether equivalent keys are allowed, the check made at the start of
every public insertion (`SFL_ASSERT(!full())` in the static containers), and `insert_exactly_at`. -/
structure Kind (α : Type) where
  multi : Bool
  guard : VM α Unit
  ins : Ptr → Arg α → VM α Ptr

/-- The branch of `insert_exactly_at` that shifts elements to the right (small_flat_set.hpp:1648-1674). The multi
containers first create a temporary (`temp`; small_flat_multiset.hpp:1599-1628, static_flat_multiset.hpp:873-899);
the containers with unique keys assign the argument directly to the gap. -/
def insertMiddle (temp : Bool) (E : Env α) (p1 : Ptr) (a : Arg α) : VM α Ptr := do
  let v ← getObj
  let p2 := v.last.sub 1
  let oldLast := v.last
  if temp = true then
    let tmp ← lift (mkTmp E a)
    lift (construct E v.last (.mv p2))
    setObj { v with last := v.last.add 1 }
    let _ ← lift (moveBackward E p1 p2 oldLast)
    lift (assign E p1 (.rv tmp))
    pure p1
  else
    lift (construct E v.last (.mv p2))
    setObj { v with last := v.last.add 1 }
    let _ ← lift (moveBackward E p1 p2 oldLast)
    lift (assign E p1 a)
    pure p1

/-- The part of `insert_exactly_at` without reallocation (small_flat_set.hpp:1632-1677, static_flat_set.hpp:915-950). -/
def insertInPlace (temp : Bool) (E : Env α) (pos : Ptr) (a : Arg α) : VM α Ptr := do
  let v ← getObj
  let d ← distance v.first pos
  let p1 := v.first.add d
  if p1 = v.last then
    lift (construct E p1 a)
    setObj { v with last := v.last.add 1 }
    pure p1
  else insertMiddle temp E p1 a

/-- small_flat_set.hpp:1628-1785 `insert_exactly_at` (small_flat_map.hpp:1931-2085, small_flat_multiset.hpp:1577-1738,
small_flat_multimap.hpp:1650-1811). In the reallocating branch the C++ `try` block encloses three steps; the handler
depends on the current value of `new_last`, passed here explicitly. -/
def insertExactlyAt (temp : Bool) (E : Env α) (ib N : Nat) (pos : Ptr) (a : Arg α) : VM α Ptr := do
  let v ← getObj
  if v.last ≠ v.eos then insertInPlace temp E pos a
  else
    let offset ← distance v.first pos
    let newCap ← SmallVector.calculateNewCapacity E N 1
    let (newFirst, newN) ← SmallVector.newStorage E ib N newCap
    let newEos := newFirst.add newN
    let p := newFirst.add offset
    let handler {β : Type} (newLast : Ptr) (e : Exn) : VM α β := do
      if newLast = Ptr.null then lift (destroyAt p) else lift (destroyRange newFirst newLast)
      lift (freeUnless ib v.alloc newFirst newCap)
      M.throw e
    M.tryCatch (lift (construct E p a)) (handler newFirst)
    let newLast ← M.tryCatch (lift (uninitMoveIf E v.first (v.first.add offset) newFirst)) (handler Ptr.null)
    let newLast := newLast.add 1
    let newLast ← M.tryCatch (lift (uninitMoveIf E (v.first.add offset) v.last newLast)) (handler newLast)
    SmallVector.replaceStorage ib newFirst newLast newEos
    pure p

/-- static_flat_set.hpp:909-952 `insert_exactly_at` (static_flat_map.hpp:1226-1270, static_flat_multiset.hpp:854-902,
static_flat_multimap.hpp:930-978). -/
def insertStatic (temp : Bool) (E : Env α) (pos : Ptr) (a : Arg α) : VM α Ptr := do
  let v ← getObj
  M.assert (v.last ≠ v.eos)
  M.assert (Vector.InRange v pos)
  insertInPlace temp E pos a

/-- static_flat_set.hpp:428, 435, … `SFL_ASSERT(!full())`. -/
def notFull : VM α Unit := do
  let v ← getObj
  M.assert (v.last ≠ v.eos)

/-- The small containers. -/
def small (multi : Bool) (E : Env α) (ib N : Nat) : Kind α := ⟨multi, pure (), insertExactlyAt multi E ib N⟩

/-- The static containers. -/
def static (multi : Bool) (E : Env α) : Kind α := ⟨multi, notFull, insertStatic multi E⟩

/-- Evaluating the argument of an insertion for a comparison. -/
def argRead (a : Arg α) : M (St α) α := fun s =>
  match a.value s with
  | none => .ub .readRaw
  | some v => .ok v s

/-- small_flat_set.hpp:1577-1588 `insert_aux(value)`; small_flat_multiset.hpp:1556-1560 for the multi containers
(whose insertion always succeeds). -/
def insertAux (K : Kind α) (C : Order α κ) (E : Env α) (a : Arg α) : VM α (Ptr × Bool) := do
  let v ← lift (argRead a)
  let it ← lowerBound C E (C.probe (C.key v))
  if K.multi = true then do
    let p ← K.ins it a
    pure (p, true)
  else do
    let r ← missing C E (C.probe (C.key v)) it
    if r = true then do
      let p ← K.ins it a
      pure (p, true)
    else pure (it, false)

/-- `hint == begin() || comp(*(hint - 1), value)` (small_flat_set.hpp:1790). -/
def hintLeft (C : Order α κ) (E : Env α) (P : Probe α) (hint : Ptr) : VM α Bool := do
  let v ← getObj
  if hint = v.first then pure true
  else do
    let e ← lift (readAt (hint.sub 1))
    lift (comp E C.nothrow (P.below e))

/-- small_flat_set.hpp:1787-1792 `is_insert_hint_good`. -/
def hintUnique (C : Order α κ) (E : Env α) (P : Probe α) (hint : Ptr) : VM α Bool := do
  let l ← hintLeft C E P hint
  if l = true then missing C E P hint else pure false

/-- `!comp(*p, value) && !comp(value, *p)` (small_flat_multiset.hpp:1746-1748). -/
def equivAt (C : Order α κ) (E : Env α) (P : Probe α) (p : Ptr) : M (St α) Bool := do
  let e ← readAt p
  let r ← comp E C.nothrow (P.below e)
  if r = true then pure false
  else do
    let r' ← comp E C.nothrow (P.above e)
    pure (!r')

/-- First alternative of small_flat_multiset.hpp:1741-1764: the element at the hint is equivalent. -/
def hintHere (C : Order α κ) (E : Env α) (P : Probe α) (hint : Ptr) : VM α Bool := do
  let v ← getObj
  if hint ≠ v.last then lift (equivAt C E P hint) else pure false

/-- Second alternative: the element before the hint is equivalent. -/
def hintBefore (C : Order α κ) (E : Env α) (P : Probe α) (hint : Ptr) : VM α Bool := do
  let v ← getObj
  if hint ≠ v.first then lift (equivAt C E P (hint.sub 1)) else pure false

/-- small_flat_multiset.hpp:1740-1764 `is_insert_hint_good` of the multi containers. -/
def hintMulti (C : Order α κ) (E : Env α) (P : Probe α) (hint : Ptr) : VM α Bool := do
  let r1 ← hintHere C E P hint
  if r1 = true then pure true
  else do
    let r2 ← hintBefore C E P hint
    if r2 = true then pure true else hintUnique C E P hint

/-- `is_insert_hint_good` of either kind (small_flat_set.hpp:1787-1792, small_flat_multiset.hpp:1740-1764). -/
def hintGood (K : Kind α) (C : Order α κ) (E : Env α) (P : Probe α) (hint : Ptr) : VM α Bool :=
  if K.multi = true then hintMulti C E P hint else hintUnique C E P hint

/-- small_flat_set.hpp:1590-1600 `insert_aux(hint, value)`. -/
def insertAuxHint (K : Kind α) (C : Order α κ) (E : Env α) (hint : Ptr) (a : Arg α) : VM α Ptr := do
  let v ← lift (argRead a)
  let g ← hintGood K C E (C.probe (C.key v)) hint
  if g = true then K.ins hint a
  else do
    let r ← insertAux K C E a
    pure r.1

/-- Creating the `value_type` and inserting it. -/
def insertNew (K : Kind α) (E : Env α) (pos : Ptr) (v : α) : VM α Ptr := do
  let tmp ← lift (mkTmp E (.val v))
  K.ins pos (.rv tmp)

/-- small_flat_map.hpp:1883-1906 `try_emplace_aux`, small_flat_set.hpp:1602-1613 `insert_aux_heterogeneous`: the
element `v` is created only if its key is missing. -/
def tryEmplaceAux (K : Kind α) (C : Order α κ) (E : Env α) (v : α) : VM α (Ptr × Bool) := do
  let it ← lowerBound C E (C.probe (C.key v))
  let r ← missing C E (C.probe (C.key v)) it
  if r = true then do
    let p ← insertNew K E it v
    pure (p, true)
  else pure (it, false)

/-- small_flat_map.hpp:1908-1928, small_flat_set.hpp:1615-1625, with a hint. -/
def tryEmplaceAuxHint (K : Kind α) (C : Order α κ) (E : Env α) (hint : Ptr) (v : α) : VM α Ptr := do
  let g ← hintGood K C E (C.probe (C.key v)) hint
  if g = true then insertNew K E hint v
  else do
    let r ← tryEmplaceAux K C E v
    pure r.1

/-- `it->second = std::forward<M>(obj)` (small_flat_map.hpp:1858): if it throws, the mapped value is unspecified. -/
def assignMapped (C : Order α κ) (E : Env α) (p : Ptr) (v : α) : M (St α) Unit := fun s =>
  match s.mem p.blk p.off with
  | none => .ub .assignRaw
  | some old =>
    if E.throws s.tick then .exn .elem (s.bump.put p (some (C.upd old (E.failDst s.tick old v))))
    else .ok () (s.bump.put p (some (C.upd old v)))

/-- small_flat_map.hpp:1835-1860 `insert_or_assign_aux`. -/
def insertOrAssignAux (K : Kind α) (C : Order α κ) (E : Env α) (v : α) : VM α (Ptr × Bool) := do
  let it ← lowerBound C E (C.probe (C.key v))
  let r ← missing C E (C.probe (C.key v)) it
  if r = true then do
    let p ← insertNew K E it v
    pure (p, true)
  else do
    lift (assignMapped C E it v)
    pure (it, false)

/-- small_flat_map.hpp:1862-1881, with a hint. -/
def insertOrAssignAuxHint (K : Kind α) (C : Order α κ) (E : Env α) (hint : Ptr) (v : α) : VM α Ptr := do
  let g ← hintGood K C E (C.probe (C.key v)) hint
  if g = true then insertNew K E hint v
  else do
    let r ← insertOrAssignAux K C E v
    pure r.1

/-- small_flat_set.hpp:830-844 `insert(first, last)`: one insertion after the other. -/
def insertRange (K : Kind α) (C : Order α κ) (E : Env α) : List α → VM α Unit
  | [] => pure ()
  | v :: vs => do
    K.guard
    let _ ← insertAux K C E (.val v)
    insertRange K C E vs

/-- small_flat_set.hpp:393-398 `operator=(initializer_list)` of the small containers. -/
def assignList (K : Kind α) (C : Order α κ) (E : Env α) (vs : List α) : VM α Unit := do
  Vector.clear
  insertRange K C E vs

/-- small_flat_set.hpp:883-905 `erase(key)`. -/
def eraseKeyUnique (C : Order α κ) (E : Env α) (P : Probe α) : VM α Nat := do
  let it ← find C E P
  let v ← getObj
  if it = v.last then pure 0
  else do
    let _ ← Vector.eraseAt E it
    pure 1

/-- small_flat_multiset.hpp:866-886 `erase(key)`. -/
def eraseKeyMulti (C : Order α κ) (E : Env α) (P : Probe α) : VM α Nat := do
  let er ← equalRange C E P
  let n ← distance er.1 er.2
  let _ ← Vector.eraseRange E er.1 er.2
  pure n

/-- `erase(key)` of either kind (small_flat_set.hpp:883-905, small_flat_multiset.hpp:866-886). -/
def eraseKey (multi : Bool) (C : Order α κ) (E : Env α) (P : Probe α) : VM α Nat :=
  if multi = true then eraseKeyMulti C E P else eraseKeyUnique C E P

/-- Loop of small_flat_set.hpp:1882-1893 (non-member `erase_if`); at most `n` rounds remain. -/
def eraseIfGo (E : Env α) (f : α → Bool) : Nat → Ptr → VM α Unit
  | 0, _ => pure ()
  | n + 1, it => do
    let v ← getObj
    if it = v.last then pure ()
    else do
      let x ← lift (readAt it)
      if f x = true then do
        let p ← Vector.eraseAt E it
        eraseIfGo E f n p
      else eraseIfGo E f n (it.add 1)

/-- small_flat_set.hpp:1874-1896, non-member `erase_if`. -/
def eraseIf (E : Env α) (f : α → Bool) : VM α Nat := do
  let n ← Vector.size
  let v ← getObj
  eraseIfGo E f n v.first
  let n' ← Vector.size
  pure (n - n')

/-- Index designated by a returned iterator (small_flat_set.hpp:1590-1600, 846-881). -/
def posOf (p : Ptr) : VM α Ret := do
  let v ← getObj
  let k ← distance v.first p
  pure (.pos k)

/-- Index designated by the iterator of a returned `std::pair<iterator, bool>` (small_flat_set.hpp:1580-1587). -/
def insOf (r : Ptr × Bool) : VM α Ret := do
  let v ← getObj
  let k ← distance v.first r.1
  pure (.ins k r.2)

/-- The public modifiers (small_flat_set.hpp:565-905, small_flat_map.hpp:618-1060), dispatched on the operation.
`emplace` creates the value first (small_flat_set.hpp:781-792). `SFL_ASSERT(cbegin() <= hint && hint <= cend())` is
made by every function taking a hint. -/
def exec (K : Kind α) (C : Order α κ) (E : Env α) (reserve : Nat → VM α Unit) (shrink : VM α Unit) :
    Op α κ → VM α Ret
  | .insert s => do
    let a ← Vector.argOf s
    K.guard
    let r ← insertAux K C E a
    insOf r
  | .insertHint h s => do
    let a ← Vector.argOf s
    let hint ← Vector.nth h
    K.guard
    let v ← getObj
    M.assert (Vector.InRange v hint)
    let p ← insertAuxHint K C E hint a
    posOf p
  | .emplace v => do
    K.guard
    let tmp ← lift (mkTmp E (.val v))
    let r ← insertAux K C E (.rv tmp)
    insOf r
  | .emplaceHint h v => do
    let hint ← Vector.nth h
    K.guard
    let o ← getObj
    M.assert (Vector.InRange o hint)
    let tmp ← lift (mkTmp E (.val v))
    let p ← insertAuxHint K C E hint (.rv tmp)
    posOf p
  | .tryEmplace v => do
    K.guard
    let r ← tryEmplaceAux K C E v
    insOf r
  | .tryEmplaceHint h v => do
    let hint ← Vector.nth h
    K.guard
    let o ← getObj
    M.assert (Vector.InRange o hint)
    let p ← tryEmplaceAuxHint K C E hint v
    posOf p
  | .insertOrAssign v => do
    K.guard
    let r ← insertOrAssignAux K C E v
    insOf r
  | .insertOrAssignHint h v => do
    let hint ← Vector.nth h
    K.guard
    let o ← getObj
    M.assert (Vector.InRange o hint)
    let p ← insertOrAssignAuxHint K C E hint v
    posOf p
  | .insertRange vs => do
    insertRange K C E vs
    pure .unit
  | .assignList vs => do
    assignList K C E vs
    pure .unit
  | .eraseAt k => do
    let pos ← Vector.nth k
    let p ← Vector.eraseAt E pos
    posOf p
  | .eraseRange k l => do
    let f ← Vector.nth k
    let l ← Vector.nth l
    let p ← Vector.eraseRange E f l
    posOf p
  | .eraseKey k => do
    let n ← eraseKey K.multi C E (C.probe k)
    pure (.num n)
  | .eraseIf f => do
    let n ← eraseIf E f
    pure (.num n)
  | .clear => do
    Vector.clear
    pure .unit
  | .reserve n => do
    reserve n
    pure .unit
  | .shrinkToFit => do
    shrink
    pure .unit

/-- A small flat container as a client sees it. -/
def smallImpl (multi : Bool) (C : Order α κ) (E : Env α) (ib N : Nat) : Sq.Impl (Op α κ) Vec α Ret where
  size := Vector.size
  index := Vector.index
  exec := exec (small multi E ib N) C E (SmallVector.reserve E ib N) (SmallVector.shrinkToFit E ib N)
  destroy := SmallVector.destructor ib

end Sfl.Flat
