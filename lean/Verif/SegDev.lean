import Verif.SegVec
import Verif.DeqSpec
/-
  Model of sfl::segmented_devector, /repo/include/sfl/segmented_devector.hpp.

  Data members (segmented_devector.hpp:80-98): four pointers into the table of segments, the iterators `bos_`, `eos_`,
  `first_`, `last_`, and the allocator. As for segmented_vector the contents of the table are part of the model's object
  (`tab`, see `Seg.lean` and `SegVec.lean`), and the table is obtained from the same allocator as the segments.

  `std::swap(data_, other.data_)` exchanges all data members including the allocator, which is a base class of `data`
  (segmented_devector.hpp:100-126).
-/

namespace Sfl

namespace Seg
variable {α σ : Type}

/-- `sfl::dtl::copy_backward` of `n` slots of a table into a new table, ending before `q`
(segmented_devector.hpp:1371-1376). Returns the new table and the position of the first slot copied. -/
def copyTableBack (t : Table) : Nat → Ptr → Table → Ptr → M σ (Table × Ptr)
  | 0, _, t', q => pure (t', q)
  | n + 1, p, t', q => do
    let b ← deref t (p.add n)
    let q ← shift q (-1)
    let t' ← put t' q b
    copyTableBack t n p t' q

end Seg

/-- segmented_devector.hpp:80-126, the data members. -/
structure SDVec where
  tab : Table
  tbos : Ptr
  teos : Ptr
  tfirst : Ptr
  tlast : Ptr
  bos : SIt
  eos : SIt
  first : SIt
  last : SIt
  alloc : Nat
  deriving DecidableEq

namespace SegDev
open Seg (deref shift dist inc dec advance)
open SegVec (sizeSub)
variable {α : Type}

/-- Programs on a segmented_devector. -/
abbrev DM (α β : Type) : Type := M (Obj SDVec α) β

/-- A function working on the table of `*this` (segmented_devector.hpp:1185-1253 take pointers into the table). -/
def onTab {β : Type} (p : Seg.TM α β) : DM α β := fun o =>
  match p ⟨o.obj.tab, o.m⟩ with
  | .ok b o' => .ok b ⟨{ o.obj with tab := o'.obj }, o'.m⟩
  | .exn e o' => .exn e ⟨{ o.obj with tab := o'.obj }, o'.m⟩
  | .ub r => .ub r

/-- The data members before `initialize_*`: segmented_devector.hpp:100-126 leaves them indeterminate. -/
def blank (al : Nat) : SDVec :=
  ⟨Seg.noTable, Ptr.null, Ptr.null, Ptr.null, Ptr.null, ⟨Ptr.null, Ptr.null⟩, ⟨Ptr.null, Ptr.null⟩,
    ⟨Ptr.null, Ptr.null⟩, ⟨Ptr.null, Ptr.null⟩, al⟩

/-! ### Iterators, size, access -/

/-- segmented_devector.hpp:393-396 `size`. -/
def size (N : Nat) : DM α Nat := do let v ← getObj; dist N v.tab v.first v.last

/-- segmented_devector.hpp:409-412 `capacity`. -/
def capacity (N : Nat) : DM α Nat := do let v ← getObj; dist N v.tab v.bos v.eos

/-- segmented_devector.hpp:415-418 `available_front`. -/
def availableFront (N : Nat) : DM α Nat := do let v ← getObj; dist N v.tab v.bos v.first

/-- segmented_devector.hpp:421-424 `available_back`. -/
def availableBack (N : Nat) : DM α Nat := do let v ← getObj; dist N v.tab v.last v.eos

/-- segmented_devector.hpp:387-390 `empty`. -/
def empty (v : SDVec) : Bool := Seg.eq v.last v.first

/-- `cbegin() <= pos && pos <= cend()` (private.hpp:621-643; segmented_devector.hpp:379, 539, 659-685). -/
def InRange (v : SDVec) (pos : SIt) : Prop := Seg.lt pos v.first = false ∧ Seg.lt v.last pos = false

instance (v : SDVec) (pos : SIt) : Decidable (InRange v pos) := inferInstanceAs (Decidable (_ ∧ _))

/-- segmented_devector.hpp:362-374 `nth`. -/
def nth (N pos : Nat) : DM α SIt := do
  let sz ← size N
  M.assert (pos ≤ sz)
  let v ← getObj
  advance N v.tab v.first pos

/-- segmented_devector.hpp:376-381 `index_of`. -/
def indexOf (N : Nat) (pos : SIt) : DM α (Option Nat) := do
  let v ← getObj
  M.assert (InRange v pos)
  let n ← dist N v.tab v.first pos
  pure (some n)

/-- segmented_devector.hpp:478-490 `operator[]`, reading the element. -/
def index (N pos : Nat) : DM α α := do
  let sz ← size N
  M.assert (pos < sz)
  let v ← getObj
  let it ← advance N v.tab v.first pos
  lift (readAt it.loc)

/-- segmented_devector.hpp:458-476 `at`, reading the element. -/
def at' (N pos : Nat) : DM α α := do
  let sz ← size N
  if pos ≥ sz then M.throw .outOfRange
  else do
    let v ← getObj
    let it ← advance N v.tab v.first pos
    lift (readAt it.loc)

/-- segmented_devector.hpp:492-504 `front`, reading the element. -/
def front : DM α α := do
  let v ← getObj
  M.assert (empty v = false)
  lift (readAt v.first.loc)

/-- segmented_devector.hpp:506-518 `back`, reading the element. -/
def back (N : Nat) : DM α α := do
  let v ← getObj
  M.assert (empty v = false)
  let p ← dec N v.tab v.last
  lift (readAt p.loc)

/-! ### Storage -/

/-- segmented_devector.hpp:1264-1302 `allocate_storage`. -/
def allocateStorage (E : Env α) (N n : Nat) : DM α Unit :=
  if n > E.maxSize then M.throw .lengthError
  else do
    let required := n / N + 1
    let tcap := max required 8
    let v ← getObj
    let p ← lift (allocate E v.alloc tcap)
    setObj { v with tab := Seg.newTable p tcap, tbos := p, teos := p.add tcap, tfirst := p, tlast := p.add required }
    M.tryCatch (do
        onTab (Seg.allocSegs E N v.alloc p required p)
        let v ← getObj
        let b ← deref v.tab v.tfirst
        let e ← shift v.tlast (-1)
        let be ← deref v.tab e
        setObj { v with bos := ⟨v.tfirst, b⟩, eos := ⟨e, be.add (N - 1)⟩, first := ⟨v.tfirst, b⟩, last := ⟨v.tfirst, b⟩ })
      (fun e => do
        onTab (Seg.deallocTable v.alloc p tcap)
        M.throw e)

/-- segmented_devector.hpp:1308-1321 `deallocate_storage`. -/
def deallocateStorage (N : Nat) : DM α Unit := do
  let v ← getObj
  onTab (Seg.deallocSegs N v.alloc v.tfirst v.tlast)
  let n ← distance v.tbos v.teos
  onTab (Seg.deallocTable v.alloc v.tbos n)

/-- A table of `newCap` slots replaces the old one: segmented_devector.hpp:1354-1394 (in `grow_storage_front`), 1442-1484
(in `grow_storage_back`), 1531-1576 (in `shrink_storage`, where `bos_.segment_ == first_.segment_`). `copy v p` copies the
slots in use of the old table into the new one at `p` and returns the new table and the range of the slots copied. -/
def replaceTable (E : Env α) (newCap : Nat) (copy : SDVec → Ptr → DM α (Table × Ptr × Ptr)) : DM α Unit := do
  let v ← getObj
  let tableCapacity ← distance v.tbos v.teos
  let dist1 ← distance v.bos.seg v.first.seg
  let dist2 ← distance v.bos.seg v.last.seg
  let p ← lift (allocate E v.alloc newCap)
  let (t, newFirst, newLast) ← copy v p
  onTab (Seg.deallocTable v.alloc v.tbos tableCapacity)
  let e ← shift newLast (-1)
  setObj { v with
    tab := t, tbos := p, teos := p.add newCap, tfirst := newFirst, tlast := newLast,
    bos := ⟨newFirst, v.bos.loc⟩, eos := ⟨e, v.eos.loc⟩,
    first := ⟨newFirst.add dist1, v.first.loc⟩, last := ⟨newFirst.add dist2, v.last.loc⟩ }

/-- segmented_devector.hpp:1363-1376: the slots in use move to the end of the new table, keeping the distance to its
end. -/
def copyFront (newCap : Nat) (v : SDVec) (p : Ptr) : DM α (Table × Ptr × Ptr) := do
  let k ← distance v.tlast v.teos
  let newLast ← shift (p.add newCap) (-k)
  let n ← distance v.tfirst v.tlast
  let (t, newFirst) ← Seg.copyTableBack v.tab n v.tfirst (Seg.newTable p newCap) newLast
  pure (t, newFirst, newLast)

/-- segmented_devector.hpp:1451-1466: the slots in use keep the distance to the beginning of the table. -/
def copyBack (newCap : Nat) (v : SDVec) (p : Ptr) : DM α (Table × Ptr × Ptr) := do
  let k ← distance v.tbos v.tfirst
  let n ← distance v.tfirst v.tlast
  let t ← Seg.copyTable v.tab n v.tfirst (Seg.newTable p newCap) (p.add k)
  pure (t, p.add k, (p.add k).add n)

/-- segmented_devector.hpp:1553-1560: the slots in use move to the beginning of the table. -/
def copyShrink (newCap : Nat) (v : SDVec) (p : Ptr) : DM α (Table × Ptr × Ptr) := do
  let n ← distance v.tfirst v.tlast
  let t ← Seg.copyTable v.tab n v.tfirst (Seg.newTable p newCap) p
  pure (t, p, p.add n)

/-- segmented_devector.hpp:1338-1395, the first part of `grow_storage_front`. -/
def growTableFront (E : Env α) (required : Nat) : DM α Unit := do
  let v ← getObj
  let available ← distance v.tbos v.tfirst
  if required > available then do
    let tableCapacity ← distance v.tbos v.teos
    let newCap := max (tableCapacity + tableCapacity / 2) (tableCapacity - available + required)
    replaceTable E newCap (copyFront newCap)
  else pure ()

/-- segmented_devector.hpp:1426-1485, the first part of `grow_storage_back`. -/
def growTableBack (E : Env α) (required : Nat) : DM α Unit := do
  let v ← getObj
  let available ← distance v.tlast v.teos
  if required > available then do
    let tableCapacity ← distance v.tbos v.teos
    let newCap := max (tableCapacity + tableCapacity / 2) (tableCapacity - available + required)
    replaceTable E newCap (copyBack newCap)
  else pure ()

/-- segmented_devector.hpp:1327-1409 `grow_storage_front`. -/
def growStorageFront (E : Env α) (N n : Nat) : DM α Unit := do
  let cap ← capacity N
  if sizeSub E.maxSize cap < n then M.throw .lengthError
  else do
    let required := n / N + (if n % N = 0 then 0 else 1)
    growTableFront E required
    let v ← getObj
    let newFirst ← shift v.tfirst (-required)
    onTab (Seg.allocSegs E N v.alloc newFirst required newFirst)
    let v ← getObj
    let b ← deref v.tab newFirst
    setObj { v with tfirst := newFirst, bos := ⟨newFirst, b⟩ }

/-- segmented_devector.hpp:1415-1499 `grow_storage_back`. -/
def growStorageBack (E : Env α) (N n : Nat) : DM α Unit := do
  let cap ← capacity N
  if sizeSub E.maxSize cap < n then M.throw .lengthError
  else do
    let required := n / N + 1
    growTableBack E required
    let v ← getObj
    onTab (Seg.allocSegs E N v.alloc v.tlast required v.tlast)
    let v ← getObj
    let newLast := v.tlast.add required
    let e ← shift newLast (-1)
    let b ← deref v.tab e
    setObj { v with tlast := newLast, eos := ⟨e, b.add (N - 1)⟩ }

/-- segmented_devector.hpp:1506-1516, the first part of `shrink_storage`. -/
def shrinkFront (N : Nat) : DM α Unit := do
  let v ← getObj
  let newFirst := v.first.seg
  onTab (Seg.deallocSegs N v.alloc v.tfirst newFirst)
  let v ← getObj
  let b ← deref v.tab newFirst
  setObj { v with tfirst := newFirst, bos := ⟨newFirst, b⟩ }

/-- segmented_devector.hpp:1518-1529, the second part of `shrink_storage`. -/
def shrinkBack (N : Nat) : DM α Unit := do
  let v ← getObj
  let newLast := v.last.seg.add 1
  onTab (Seg.deallocSegs N v.alloc newLast v.tlast)
  let v ← getObj
  let e ← shift newLast (-1)
  let b ← deref v.tab e
  setObj { v with tlast := newLast, eos := ⟨e, b.add (N - 1)⟩ }

/-- segmented_devector.hpp:1504-1577 `shrink_storage` (`shrink_to_fit`: 449-452). -/
def shrinkStorage (E : Env α) (N : Nat) : DM α Unit := do
  shrinkFront N
  shrinkBack N
  let v ← getObj
  let tableSize ← distance v.tfirst v.tlast
  let newCap := max tableSize 8
  replaceTable E newCap (copyShrink newCap)

/-- segmented_devector.hpp:427-436 `reserve_front`. -/
def reserveFront (E : Env α) (N n : Nat) : DM α Unit := do
  let sz ← size N
  let af ← availableFront N
  if n > sz + af then growStorageFront E N (n - (sz + af)) else pure ()

/-- segmented_devector.hpp:438-447 `reserve_back`. -/
def reserveBack (E : Env α) (N n : Nat) : DM α Unit := do
  let sz ← size N
  let ab ← availableBack N
  if n > sz + ab then growStorageBack E N (n - (sz + ab)) else pure ()

/-- segmented_devector.hpp:524-534 `clear`. -/
def clear (N : Nat) : DM α Unit := do
  let v ← getObj
  lift (Seg.destroy N v.tab v.first v.last)
  setObj { v with last := v.first }

/-- segmented_devector.hpp:225-235 `~segmented_devector`. -/
def destructor (N : Nat) : DM α Unit := do
  let v ← getObj
  lift (Seg.destroy N v.tab v.first v.last)
  deallocateStorage N

/-! ### Modifiers -/

/-- segmented_devector.hpp:556-601, the part of `emplace` in the front half after the storage has grown. -/
def emplaceFrontHalf (E : Env α) (N : Nat) (p1 : SIt) (a : Arg α) : DM α SIt := do
  let v ← getObj
  let p2 ← dec N v.tab p1
  if Seg.eq p1 v.first = true then do
    lift (construct E p2.loc a)
    setObj { v with first := p2 }
    pure p2
  else do
    let p3 ← inc N v.tab v.first
    let p4 ← dec N v.tab v.first
    let tmp ← lift (mkTmp E a)
    lift (construct E p4.loc (.mv v.first.loc))
    setObj { v with first := p4 }
    let _ ← lift (Seg.assignSeg E N v.tab v.tab .mv p3 p1 v.first)
    lift (assign E p2.loc (.rv tmp))
    pure p2

/-- segmented_devector.hpp:611-652, the part of `emplace` in the back half after the storage has grown. -/
def emplaceBackHalf (E : Env α) (N : Nat) (p1 : SIt) (a : Arg α) : DM α SIt := do
  let v ← getObj
  if Seg.eq p1 v.last = true then do
    lift (construct E v.last.loc a)
    let l ← inc N v.tab v.last
    setObj { v with last := l }
    pure p1
  else do
    let p2 ← dec N v.tab v.last
    let tmp ← lift (mkTmp E a)
    lift (construct E v.last.loc (.mv p2.loc))
    let l ← inc N v.tab v.last
    setObj { v with last := l }
    let _ ← lift (Seg.backSeg E N v.tab v.tab .mv p1 p2 v.last)
    lift (assign E p1.loc (.rv tmp))
    pure p1

/-- segmented_devector.hpp:536-655 `emplace` (insert of one value: 657-667). -/
def emplace (E : Env α) (N : Nat) (pos : SIt) (a : Arg α) : DM α SIt := do
  let v ← getObj
  M.assert (InRange v pos)
  let distToBegin ← dist N v.tab v.first pos
  let p1 ← advance N v.tab v.first distToBegin
  let distToEnd ← dist N v.tab pos v.last
  if distToBegin < distToEnd then
    if Seg.eq v.first v.bos = true then do
      growStorageFront E N 1
      let p1 ← nth N distToBegin
      emplaceFrontHalf E N p1 a
    else emplaceFrontHalf E N p1 a
  else
    if Seg.eq v.last v.eos = true then do
      growStorageBack E N 1
      let p1 ← nth N distToBegin
      emplaceBackHalf E N p1 a
    else emplaceBackHalf E N p1 a

/-- segmented_devector.hpp:697-709, the part of `emplace_front` after the storage has grown. -/
def emplaceFrontTail (E : Env α) (N : Nat) (a : Arg α) : DM α SIt := do
  let v ← getObj
  let newFirst ← dec N v.tab v.first
  lift (construct E newFirst.loc a)
  setObj { v with first := newFirst }
  pure newFirst

/-- segmented_devector.hpp:689-709 `emplace_front` (push_front: 733-741). Returns the position of the new element. -/
def emplaceFront (E : Env α) (N : Nat) (a : Arg α) : DM α SIt := do
  let v ← getObj
  if Seg.eq v.first v.bos = true then growStorageFront E N 1 else pure ()
  emplaceFrontTail E N a

/-- segmented_devector.hpp:719-731, the part of `emplace_back` after the storage has grown. -/
def emplaceBackTail (E : Env α) (N : Nat) (a : Arg α) : DM α SIt := do
  let v ← getObj
  lift (construct E v.last.loc a)
  let l ← inc N v.tab v.last
  setObj { v with last := l }
  pure v.last

/-- segmented_devector.hpp:711-731 `emplace_back` (push_back: 743-751). Returns the position of the new element. -/
def emplaceBack (E : Env α) (N : Nat) (a : Arg α) : DM α SIt := do
  let v ← getObj
  if Seg.eq v.last v.eos = true then growStorageBack E N 1 else pure ()
  emplaceBackTail E N a

/-- The loops of segmented_devector.hpp:1633-1637 and 1848-1854. -/
def emplaceBackAll (E : Env α) (N : Nat) : List (Arg α) → DM α Unit
  | [] => pure ()
  | a :: as => do
    let _ ← emplaceBack E N a
    emplaceBackAll E N as

/-- segmented_devector.hpp:753-760 `pop_front`. -/
def popFront (N : Nat) : DM α Unit := do
  let v ← getObj
  M.assert (empty v = false)
  lift (destroyAt v.first.loc)
  let f ← inc N v.tab v.first
  setObj { v with first := f }

/-- segmented_devector.hpp:762-769 `pop_back`. -/
def popBack (N : Nat) : DM α Unit := do
  let v ← getObj
  M.assert (empty v = false)
  let l ← dec N v.tab v.last
  setObj { v with last := l }
  lift (destroyAt l.loc)

/-- segmented_devector.hpp:771-799 `erase(pos)`. -/
def eraseAt (E : Env α) (N : Nat) (pos : SIt) : DM α SIt := do
  let v ← getObj
  M.assert (Seg.lt pos v.first = false ∧ Seg.lt pos v.last = true)
  let distToBegin ← dist N v.tab v.first pos
  let distToEnd ← dist N v.tab pos v.last
  let p1 ← advance N v.tab v.first distToBegin
  let p2 ← inc N v.tab p1
  if distToBegin < distToEnd then do
    let f ← lift (Seg.backSeg E N v.tab v.tab .mv v.first p1 p2)
    setObj { v with first := f }
    lift (destroyAt v.first.loc)
    pure p2
  else do
    let l ← lift (Seg.assignSeg E N v.tab v.tab .mv p2 v.last p1)
    setObj { v with last := l }
    lift (destroyAt l.loc)
    pure p1

/-- segmented_devector.hpp:801-839 `erase(first, last)`. -/
def eraseRange (E : Env α) (N : Nat) (first last : SIt) : DM α SIt := do
  let v ← getObj
  M.assert (Seg.lt first v.first = false ∧ Seg.lt last first = false ∧ Seg.lt v.last last = false)
  let distToBegin ← dist N v.tab v.first first
  let p1 ← advance N v.tab v.first distToBegin
  if Seg.eq first last = true then pure p1
  else do
    let distToEnd ← dist N v.tab last v.last
    let d ← dist N v.tab v.first last
    let p2 ← advance N v.tab v.first d
    if distToBegin < distToEnd then do
      let f ← lift (Seg.backSeg E N v.tab v.tab .mv v.first p1 p2)
      lift (Seg.destroy N v.tab v.first f)
      setObj { v with first := f }
      pure p2
    else do
      let l ← lift (Seg.assignSeg E N v.tab v.tab .mv p2 v.last p1)
      lift (Seg.destroy N v.tab l v.last)
      setObj { v with last := l }
      pure p1

/-- segmented_devector.hpp:847-857, 927-937, 1091-1101, 1126-1136: the elements from index `n` on are destroyed. -/
def cutBack (N n : Nat) : DM α Unit := do
  let newLast ← nth N n
  let v ← getObj
  lift (Seg.destroy N v.tab newLast v.last)
  setObj { v with last := newLast }

/-- segmented_devector.hpp:1012-1022, 1051-1061: the first `n` elements are destroyed. -/
def cutFront (N n : Nat) : DM α Unit := do
  let newFirst ← nth N n
  let v ← getObj
  lift (Seg.destroy N v.tab v.first newFirst)
  setObj { v with first := newFirst }

/-- `n` new elements at the back, for which there is room: segmented_devector.hpp:864-869, 888-893, 944-950, 969-975 (in
`resize`), 1111-1116, 1146-1152 (in `resize_back`), 1759-1765, 1804-1810 (in `assign_fill_n`). -/
def fillBack (E : Env α) (N n : Nat) (a : Arg α) : DM α Unit := do
  let v ← getObj
  let l ← lift (Seg.uninitFillN E N v.tab v.last n a)
  setObj { v with last := l }

/-- New elements at the back up to the end of the storage: segmented_devector.hpp:875-882, 956-964, 1779-1787. -/
def fillEos (E : Env α) (N : Nat) (a : Arg α) : DM α Unit := do
  let v ← getObj
  lift (Seg.uninitFill E N v.tab v.last v.eos a)
  setObj { v with last := v.eos }

/-- `n` new elements at the front, for which there is room: segmented_devector.hpp:883-891, 965-974 (in `resize`),
1031-1040, 1070-1080 (in `resize_front`), 1789-1799 (in `assign_fill_n`). -/
def fillFront (E : Env α) (N n : Nat) (a : Arg α) : DM α Unit := do
  let v ← getObj
  let f ← advance N v.tab v.first (-n)
  lift (Seg.uninitFill E N v.tab f v.first a)
  setObj { v with first := f }

/-- New elements at the front down to the beginning of the storage: segmented_devector.hpp:905-913, 992-1000,
1820-1828. -/
def fillBos (E : Env α) (N : Nat) (a : Arg α) : DM α Unit := do
  let v ← getObj
  lift (Seg.uninitFill E N v.tab v.bos v.first a)
  setObj { v with first := v.bos }

/-- segmented_devector.hpp:841-919 `resize(n)` and 921-1004 `resize(n, value)`: the two bodies differ only in the algorithm
constructing the new elements. -/
def resizeWith (E : Env α) (N n : Nat) (a : Arg α) : DM α Unit := do
  let sz ← size N
  if n ≤ sz then cutBack N n
  else do
    let ab ← availableBack N
    if n ≤ sz + ab then fillBack E N (n - sz) a
    else do
      let af ← availableFront N
      if n ≤ af + sz + ab then do
        fillEos E N a
        fillFront E N (n - (sz + ab)) a
      else do
        growStorageBack E N (n - (af + sz + ab))
        fillBack E N (n - (sz + af)) a
        fillBos E N a

/-- segmented_devector.hpp:1006-1043 `resize_front(n)` and 1045-1083 `resize_front(n, value)`. -/
def resizeFrontWith (E : Env α) (N n : Nat) (a : Arg α) : DM α Unit := do
  let sz ← size N
  if n ≤ sz then cutFront N (sz - n)
  else do
    let af ← availableFront N
    if n > sz + af then growStorageFront E N (n - (sz + af)) else pure ()
    fillFront E N (n - sz) a

/-- segmented_devector.hpp:1085-1118 `resize_back(n)` and 1120-1154 `resize_back(n, value)`. -/
def resizeBackWith (E : Env α) (N n : Nat) (a : Arg α) : DM α Unit := do
  let sz ← size N
  if n ≤ sz then cutBack N n
  else do
    let ab ← availableBack N
    if n > sz + ab then growStorageBack E N (n - (sz + ab)) else pure ()
    fillBack E N (n - sz) a

/-- `fill(first_, last_, value)`: segmented_devector.hpp:1752-1757, 1773-1778, 1811-1816. -/
def fillAll (E : Env α) (N : Nat) (a : Arg α) : DM α Unit := do
  let v ← getObj
  lift (Seg.fill E N v.tab v.first v.last a)

/-- segmented_devector.hpp:1722-1833 `assign_fill_n`. -/
def assignFillN (E : Env α) (N n : Nat) (a : Arg α) : DM α Unit := do
  let sz ← size N
  if n ≤ sz then do
    let v ← getObj
    let newLast ← advance N v.tab v.first n
    lift (Seg.fill E N v.tab v.first newLast a)
    lift (Seg.destroy N v.tab newLast v.last)
    setObj { v with last := newLast }
  else do
    let ab ← availableBack N
    if n ≤ sz + ab then do
      fillAll E N a
      fillBack E N (n - sz) a
    else do
      let af ← availableFront N
      if n ≤ af + sz + ab then do
        fillAll E N a
        fillEos E N a
        fillFront E N (n - (sz + ab)) a
      else do
        growStorageBack E N (n - (af + sz + ab))
        fillAll E N a
        fillBack E N (n - (sz + af)) a
        fillBos E N a

/-- segmented_devector.hpp:1835-1862 `assign_range` (input iterators). The loop of 1839-1844 is that of
segmented_vector.hpp:1295-1300. -/
def assignRangeInput (E : Env α) (N : Nat) (as : List (Arg α)) : DM α Unit := do
  let v ← getObj
  let (rest, curr) ← lift (SegVec.assignRangeLoop E N v.tab v.last as v.first)
  if rest ≠ [] then emplaceBackAll E N rest
  else if Seg.lt curr v.last = true then do
    lift (Seg.destroy N v.tab curr v.last)
    setObj { v with last := curr }
  else pure ()

/-- `copy(first, last, data_.first_)`: segmented_devector.hpp:1898-1903, 1922-1927, 1955-1960. -/
def copyAll (E : Env α) (N : Nat) (src : Seg.From α) : DM α Unit := do
  let v ← getObj
  let _ ← lift (src.assign E N v.tab v.first)
  pure ()

/-- `data_.last_ = uninitialized_copy_a(first, last, data_.last_)`: segmented_devector.hpp:1904-1910, 1928-1934,
1961-1967. -/
def rangeBack (E : Env α) (N : Nat) (src : Seg.From α) : DM α Unit := do
  let v ← getObj
  let l ← lift (src.uninit E N v.tab v.last)
  setObj { v with last := l }

/-- segmented_devector.hpp:1935-1944. -/
def rangeFront (E : Env α) (N n : Nat) (src : Seg.From α) : DM α Unit := do
  let v ← getObj
  let f ← advance N v.tab v.first (-n)
  let _ ← lift (src.uninit E N v.tab f)
  setObj { v with first := f }

/-- segmented_devector.hpp:1968-1976. -/
def rangeBos (E : Env α) (N : Nat) (src : Seg.From α) : DM α Unit := do
  let v ← getObj
  let _ ← lift (src.uninit E N v.tab v.bos)
  setObj { v with first := v.bos }

/-- segmented_devector.hpp:1864-1983 `assign_range` (forward iterators). -/
def assignRange (E : Env α) (N : Nat) (src : Seg.From α) : DM α Unit := do
  let n ← src.dist N
  let sz ← size N
  if n ≤ sz then do
    let v ← getObj
    let newLast ← lift (src.assign E N v.tab v.first)
    lift (Seg.destroy N v.tab newLast v.last)
    setObj { v with last := newLast }
  else do
    let ab ← availableBack N
    if n ≤ sz + ab then do
      let (mid, hi) ← src.split N sz
      copyAll E N mid
      rangeBack E N hi
    else do
      let af ← availableFront N
      if n ≤ af + sz + ab then do
        let (lo, rest) ← src.split N (n - (sz + ab))
        let (mid, hi) ← rest.split N sz
        copyAll E N mid
        rangeBack E N hi
        rangeFront E N (n - (sz + ab)) lo
      else do
        growStorageBack E N (n - (af + sz + ab))
        let (lo, rest) ← src.split N af
        let (mid, hi) ← rest.split N sz
        copyAll E N mid
        rangeBack E N hi
        rangeBos E N lo

/-- What the insertion functions put into the container: copies of one value (`insert_fill_n`) or a range outside the
container (`insert_range`, random access or not); segmented_devector.hpp:2138, 2321. -/
inductive Ins (α : Type) where
  | fill (n : Nat) (v : α)
  | range (ra : Bool) (ys : List α)

/-- The number of elements to insert: the parameter `n` (segmented_devector.hpp:2138), `std::distance(first, last)` (2328). -/
def Ins.length : Ins α → Nat
  | .fill n _ => n
  | .range _ ys => ys.length

/-- The first `k` elements to insert: the range `[first, mid)` of segmented_devector.hpp:2388, 2449. -/
def Ins.take (k : Nat) : Ins α → Ins α
  | .fill n v => .fill (min k n) v
  | .range ra ys => .range ra (ys.take k)

/-- The elements to insert without the first `k`: the range `[mid, last)` of segmented_devector.hpp:2388, 2449. -/
def Ins.drop (k : Nat) : Ins α → Ins α
  | .fill n v => .fill (n - k) v
  | .range ra ys => .range ra (ys.drop k)

/-- `sfl::dtl::fill(p, q, tmp)` (segmented_devector.hpp:2185-2190, 2214-2219, 2263-2268, 2291-2296) and
`sfl::dtl::copy(first, last, p)` (2373-2378, 2406-2411, 2441-2446, 2470-2475) for `[p, q)` as long as the source. -/
def Ins.assign (E : Env α) (N : Nat) (t : Table) (p q : SIt) : Ins α → M (St α) Unit
  | .fill _ v => Seg.fill E N t p q (.val v)
  | .range ra ys => do
    let _ ← (Seg.From.list ra (ys.map .val)).assign E N t p
    pure ()

/-- `sfl::dtl::uninitialized_fill_a(p, q, tmp)` (segmented_devector.hpp:2196-2202, 2274-2280) and
`sfl::dtl::uninitialized_copy_a(first, last, p)` (2390-2396, 2453-2459) for `[p, q)` as long as the source. -/
def Ins.uninit (E : Env α) (N : Nat) (t : Table) (p q : SIt) : Ins α → M (St α) Unit
  | .fill _ v => Seg.uninitFill E N t p q (.val v)
  | .range ra ys => do
    let _ ← (Seg.From.list ra (ys.map .val)).uninit E N t p
    pure ()

/-- Front half after the storage has grown: segmented_devector.hpp:2158-2223 (`insert_fill_n`), 2341-2411
(`insert_range`). The two have the same text up to the source of the new elements. -/
def insertFrontHalf (E : Env α) (N distToBegin : Nat) (src : Ins α) : DM α SIt := do
  let v ← getObj
  let n := src.length
  let p1 ← advance N v.tab v.first distToBegin
  let p2 ← advance N v.tab p1 (-n)
  if distToBegin > n then do
    let p3 ← advance N v.tab v.first n
    let p4 ← advance N v.tab v.first (-n)
    let _ ← lift (Seg.uninitSeg E N v.tab v.tab .mv v.first p3 p4)
    setObj { v with first := p4 }
    let _ ← lift (Seg.assignSeg E N v.tab v.tab .mv p3 p1 v.first)
    lift (src.assign E N v.tab p2 p1)
    pure p2
  else do
    let p3 ← advance N v.tab v.first (-n)
    lift ((src.take (n - distToBegin)).uninit E N v.tab p2 v.first)
    setObj { v with first := p2 }
    let _ ← lift (Seg.uninitSeg E N v.tab v.tab .mv v.first p1 p3)
    setObj { v with first := p3 }
    lift ((src.drop (n - distToBegin)).assign E N v.tab v.first p1)
    pure p2

/-- Back half of `insert_fill_n` after the storage has grown: segmented_devector.hpp:2236-2299. -/
def fillBackHalf (E : Env α) (N distToBegin distToEnd n : Nat) (tmp : α) : DM α SIt := do
  let v ← getObj
  let p1 ← advance N v.tab v.first distToBegin
  let p2 ← advance N v.tab p1 n
  if distToEnd > n then do
    let p3 ← advance N v.tab v.last (-n)
    let l ← lift (Seg.uninitSeg E N v.tab v.tab .mv p3 v.last v.last)
    setObj { v with last := l }
    let _ ← lift (Seg.backSeg E N v.tab v.tab .mv p1 p3 v.last)
    lift (Seg.fill E N v.tab p1 p2 (.val tmp))
    pure p1
  else do
    lift (Seg.uninitFill E N v.tab v.last p2 (.val tmp))
    setObj { v with last := p2 }
    let l ← lift (Seg.uninitSeg E N v.tab v.tab .mv p1 v.last p2)
    setObj { v with last := l }
    lift (Seg.fill E N v.tab p1 v.last (.val tmp))
    pure p1

/-- Back half of `insert_range` after the storage has grown: segmented_devector.hpp:2421-2478. In contrast to
`insert_fill_n`, `p2 = data_.last_ - n` is computed in both cases (2424). -/
def rangeBackHalf (E : Env α) (N distToBegin distToEnd : Nat) (ra : Bool) (ys : List α) : DM α SIt := do
  let v ← getObj
  let n := ys.length
  let p1 ← advance N v.tab v.first distToBegin
  let p2 ← advance N v.tab v.last (-n)
  if distToEnd > n then do
    let l ← lift (Seg.uninitSeg E N v.tab v.tab .mv p2 v.last v.last)
    setObj { v with last := l }
    let _ ← lift (Seg.backSeg E N v.tab v.tab .mv p1 p2 v.last)
    let _ ← lift ((Seg.From.list ra (ys.map .val)).assign E N v.tab p1)
    pure p1
  else do
    let l ← lift ((Seg.From.list ra ((ys.drop distToEnd).map .val)).uninit E N v.tab v.last)
    setObj { v with last := l }
    let l ← lift (Seg.uninitSeg E N v.tab v.tab .mv p1 v.last l)
    setObj { v with last := l }
    let _ ← lift ((Seg.From.list ra ((ys.take distToEnd).map .val)).assign E N v.tab p1)
    pure p1

/-- segmented_devector.hpp:2138-2301 `insert_fill_n`; the check of `pos` is in `insert` (669-673). -/
def insertFillN (E : Env α) (N : Nat) (pos : SIt) (n : Nat) (a : Arg α) : DM α SIt := do
  let v ← getObj
  M.assert (InRange v pos)
  let distToBegin ← dist N v.tab v.first pos
  if n = 0 then advance N v.tab v.first distToBegin
  else do
    let tmp ← lift (mkTmp E a)
    let distToEnd ← dist N v.tab pos v.last
    if distToBegin < distToEnd then do
      let af ← availableFront N
      if af < n then growStorageFront E N (n - af) else pure ()
      insertFrontHalf E N distToBegin (.fill n tmp)
    else do
      let ab ← availableBack N
      if ab < n then growStorageBack E N (n - ab) else pure ()
      fillBackHalf E N distToBegin distToEnd n tmp

/-- The loop of segmented_devector.hpp:2309-2314. -/
def insertRangeLoop (E : Env α) (N : Nat) : List (Arg α) → SIt → DM α SIt
  | [], pos => pure pos
  | a :: as, pos => do
    let p ← emplace E N pos a
    let v ← getObj
    let p ← inc N v.tab p
    insertRangeLoop E N as p

/-- segmented_devector.hpp:2303-2317 `insert_range` (input iterators); the check of `pos` is in `insert` (675-681). -/
def insertRangeInput (E : Env α) (N : Nat) (pos : SIt) (ys : List α) : DM α SIt := do
  let v ← getObj
  M.assert (InRange v pos)
  let offset ← dist N v.tab v.first pos
  let _ ← insertRangeLoop E N (ys.map .val) pos
  nth N offset

/-- segmented_devector.hpp:2319-2480 `insert_range` (forward iterators; `ra`: random access), source outside the
container; the check of `pos` is in `insert` (675-687). -/
def insertRange (E : Env α) (N : Nat) (ra : Bool) (pos : SIt) (ys : List α) : DM α SIt := do
  let v ← getObj
  M.assert (InRange v pos)
  let distToBegin ← dist N v.tab v.first pos
  if ys = [] then advance N v.tab v.first distToBegin
  else do
    let distToEnd ← dist N v.tab pos v.last
    if distToBegin < distToEnd then do
      let af ← availableFront N
      if af < ys.length then growStorageFront E N (ys.length - af) else pure ()
      insertFrontHalf E N distToBegin (.range ra ys)
    else do
      let ab ← availableBack N
      if ab < ys.length then growStorageBack E N (ys.length - ab) else pure ()
      rangeBackHalf E N distToBegin distToEnd ra ys

/-- segmented_devector.hpp:2567-2585, non-member `erase(c, value)` and `erase_if(c, pred)`. The predicate (or comparison)
itself does not throw and has no side effects. -/
def eraseIf (E : Env α) (N : Nat) (f : α → Bool) : DM α Nat := do
  let v ← getObj
  let it ← lift (Seg.removeIf E N v.tab f v.first v.last)
  let v ← getObj
  let r ← dist N v.tab it v.last
  let _ ← eraseRange E N it v.last
  pure r

/-! ### Construction -/

/-- `initialize_default_n`, `initialize_fill_n`, `initialize_range` (forward iterators), `initialize_copy` and the second
branch of `initialize_move`: segmented_devector.hpp:1585-1624, 1648-1690, 1702-1720. They differ in the number of elements
and the algorithm `alg` constructing them, which is given the table and `first_`. -/
def initUsing (E : Env α) (N n : Nat) (alg : Table → SIt → M (St α) SIt) : DM α Unit := do
  allocateStorage E N n
  M.tryCatch (do
      let v ← getObj
      let l ← lift (alg v.tab v.first)
      setObj { v with last := l })
    (fun e => do
      deallocateStorage N
      M.throw e)

/-- segmented_devector.hpp:1626-1646 `initialize_range` (input iterators). -/
def initRangeInput (E : Env α) (N : Nat) (ys : List α) : DM α Unit := do
  allocateStorage E N 0
  M.tryCatch (emplaceBackAll E N (ys.map .val)) (fun e => do
    clear N
    deallocateStorage N
    M.throw e)

/-- segmented_devector.hpp:1671-1690 `initialize_copy`, called by the copy constructors (196-208). -/
def initCopy (E : Env α) (N : Nat) (other : SDVec) : DM α Unit := do
  let n ← dist N other.tab other.first other.last
  initUsing E N n (fun t d => Seg.uninitSeg E N other.tab t .ref other.first other.last d)

/-- segmented_devector.hpp:1692-1720 `initialize_move`, called by the move constructors (210-222). -/
def initMove (E : Env α) (N : Nat) : M (Obj (SDVec × SDVec) α) Unit := do
  let o ← getObj
  if o.1.alloc = o.2.alloc then do
    onThis (allocateStorage E N 0)
    let o ← getObj
    setObj (o.2, o.1)
  else do
    let n ← dist N o.2.tab o.2.first o.2.last
    onThis (initUsing E N n (fun t d => Seg.uninitSeg E N o.2.tab t .mv o.2.first o.2.last d))

/-- The constructors without a source container: segmented_devector.hpp:133-194; `ra`: the forward range is random
access. -/
def construct' (E : Env α) (N : Nat) (ra : Bool) : Sq.Init α → DM α Unit
  | .empty => allocateStorage E N 0
  | .count n => initUsing E N n (fun t d => Seg.uninitFillN E N t d n (.val E.dflt))
  | .fill n v => initUsing E N n (fun t d => Seg.uninitFillN E N t d n (.val v))
  | .range ys => initUsing E N ys.length (fun t d => (Seg.From.list ra (ys.map .val)).uninit E N t d)
  | .input ys => initRangeInput E N ys

/-! ### Assignment and swap -/

/-- "Clear and destroy current storage. Set pointers to null.": segmented_devector.hpp:1997-2006, 2042-2055,
2094-2107. -/
def giveUp (N : Nat) : DM α Unit := do
  clear N
  deallocateStorage N
  let v ← getObj
  setObj { v with tbos := Ptr.null, teos := Ptr.null, tfirst := Ptr.null, tlast := Ptr.null }

/-- segmented_devector.hpp:1985-2026 `assign_copy` for `this != &other`. -/
def assignCopy (E : Env α) (N : Nat) (T : Traits) (other : SDVec) : DM α Unit := do
  if T.pocca = true then do
    let v ← getObj
    if v.alloc ≠ other.alloc then do
      let (_, temp) ← onLocal (blank other.alloc) (allocateStorage E N 0)
      giveUp N
      let v ← getObj
      setObj temp
      let _ ← onLocal v (destructor N)
      pure ()
    else pure ()
    let v ← getObj
    setObj { v with alloc := other.alloc }
  else pure ()
  assignRange E N (.seg other.tab .ref other.first other.last)

/-- `assign_range(std::make_move_iterator(other.data_.first_), std::make_move_iterator(other.data_.last_))`:
segmented_devector.hpp:2120-2125 and 2129-2134. A move iterator is not a segmented iterator; it is random access. -/
def assignMoved (E : Env α) (N : Nat) (other : SDVec) : DM α Unit := do
  let n ← dist N other.tab other.first other.last
  let ps ← Seg.gather N other.tab n other.first
  assignRange E N (.list true (ps.map .mv))

/-- segmented_devector.hpp:2028-2136 `assign_move` for `this != &other`. -/
def assignMove (E : Env α) (N : Nat) (T : Traits) : M (Obj (SDVec × SDVec) α) Unit := do
  let o ← getObj
  if o.1.alloc = o.2.alloc then do
    let (_, temp) ← onLocal (blank o.1.alloc) (allocateStorage E N 0)
    onThis (giveUp N)
    let o ← getObj
    setObj (o.2, temp)
    let temp := o.1
    if T.pocma = true then do
      let o ← getObj
      setObj ({ o.1 with alloc := o.2.alloc }, o.2)
    else pure ()
    let _ ← onLocal temp (destructor N)
    pure ()
  else if T.pocma = true then do
    let (_, temp) ← onLocal (blank o.2.alloc) (allocateStorage E N 0)
    onThis (giveUp N)
    let o ← getObj
    setObj ({ temp with alloc := o.2.alloc }, o.2)
    let temp := o.1
    M.tryCatch (onThis (assignMoved E N o.2)) (fun e => do
      let _ ← onLocal temp (destructor N)
      M.throw e)
    let _ ← onLocal temp (destructor N)
    pure ()
  else onThis (assignMoved E N o.2)

/-- segmented_devector.hpp:1156-1177 `swap` for `this != &other`. `swap(this->data_, other.data_)` (1176) exchanges the
allocators as well. -/
def swap (T : Traits) : M (Obj (SDVec × SDVec) α) Unit := do
  let o ← getObj
  M.assert (T.pocs = true ∨ o.1.alloc = o.2.alloc)
  if T.pocs = true then setObj ({ o.1 with alloc := o.2.alloc }, { o.2 with alloc := o.1.alloc }) else pure ()
  let o ← getObj
  setObj (o.2, o.1)

/-! ### The public interface -/

/-- The value argument of an operation: an object of the client's, or a reference to element `i` of the container
itself (segmented_devector.hpp:478-490). -/
def argOf (N : Nat) : Sq.Src α → DM α (Arg α)
  | .value v => pure (.val v)
  | .rvalue v => pure (.rv v)
  | .elem i => do
    let v ← getObj
    let it ← advance N v.tab v.first i
    pure (.ref it.loc)

/-- The public modifiers of segmented_devector (segmented_devector.hpp:241-256, 427-452, 524-1154, 2567-2585), dispatched
on the operation. `ra` tells for each operation whether its source range, if any, is random access. -/
def exec (E : Env α) (N : Nat) (ra : Dq.Op α → Bool) (op : Dq.Op α) : DM α (Option Nat) :=
  match op with
  | .pushFront s => do
    let a ← argOf N s
    let p ← emplaceFront E N a
    indexOf N p
  | .pushBack s => do
    let a ← argOf N s
    let p ← emplaceBack E N a
    indexOf N p
  | .emplace k s => do
    let a ← argOf N s
    let pos ← nth N k
    let p ← emplace E N pos a
    indexOf N p
  | .insertN k n s => do
    let a ← argOf N s
    let pos ← nth N k
    let p ← insertFillN E N pos n a
    indexOf N p
  | .insertRange k ys => do
    let pos ← nth N k
    let p ← insertRange E N (ra (.insertRange k ys)) pos ys
    indexOf N p
  | .insertInput k ys => do
    let pos ← nth N k
    let p ← insertRangeInput E N pos ys
    indexOf N p
  | .popFront => do
    popFront N
    pure none
  | .popBack => do
    popBack N
    pure none
  | .eraseAt k => do
    let pos ← nth N k
    let p ← eraseAt E N pos
    indexOf N p
  | .eraseRange k l => do
    let f ← nth N k
    let l ← nth N l
    let p ← eraseRange E N f l
    indexOf N p
  | .resize n => do
    resizeWith E N n (.val E.dflt)
    pure none
  | .resizeV n s => do
    let a ← argOf N s
    resizeWith E N n a
    pure none
  | .resizeFront n => do
    resizeFrontWith E N n (.val E.dflt)
    pure none
  | .resizeFrontV n s => do
    let a ← argOf N s
    resizeFrontWith E N n a
    pure none
  | .resizeBack n => do
    resizeBackWith E N n (.val E.dflt)
    pure none
  | .resizeBackV n s => do
    let a ← argOf N s
    resizeBackWith E N n a
    pure none
  | .assignN n v => do
    assignFillN E N n (.val v)
    pure none
  | .assignRange ys => do
    assignRange E N (.list (ra (.assignRange ys)) (ys.map .val))
    pure none
  | .assignInput ys => do
    assignRangeInput E N (ys.map .val)
    pure none
  | .clear => do
    clear N
    pure none
  | .reserveFront n => do
    reserveFront E N n
    pure none
  | .reserveBack n => do
    reserveBack E N n
    pure none
  | .shrinkToFit => do
    shrinkStorage E N
    pure none
  | .eraseIf f => do
    let n ← eraseIf E N f
    pure (some n)

/-- segmented_devector as a container type (public functions of segmented_devector.hpp:133-1177). -/
def cont (K : Nat) (E : Env α) (N : Nat) (T : Traits) (ra : Dq.Op α → Bool) (rai : Sq.Init α → Bool) :
    World.Cont K (Dq.Op α) (Sq.Init α) SDVec α Nat where
  alloc := SDVec.alloc
  blank := fun _ al => blank al
  make := fun _ init => construct' E N (rai init) init
  copyInit := fun _ w => initCopy E N w
  moveInit := fun _ _ => initMove E N
  destroy := fun _ => destructor N
  size := size N
  index := index N
  exec := fun _ => exec E N ra
  assignCopy := fun _ _ w => assignCopy E N T w
  assignMove := fun _ _ => assignMove E N T
  swap := fun _ _ => swap T

end SegDev
end Sfl
