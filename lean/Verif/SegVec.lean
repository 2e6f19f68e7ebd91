import Verif.Seg
import Verif.Two
import Verif.World
/-
  Model of sfl::segmented_vector, /repo/include/sfl/segmented_vector.hpp.

  Data members (segmented_vector.hpp:81-96): three pointers into the table of segments, the iterators `first_`, `last_`,
  `eos_`, and the allocator. The contents of the table are part of the model's object (`tab`, see `Seg.lean`); when the
  table has been deallocated `tab` is empty, so that reading it is undefined behaviour. The table is obtained from the
  allocator rebound to pointers (segmented_vector.hpp:817-831), here the same allocator.

  `std::swap(data_, other.data_)` exchanges all data members including the allocator, which is a base class of `data`
  (segmented_vector.hpp:98-123).
-/

namespace Sfl

namespace Seg
variable {α σ : Type}

/-- Programs on a table. -/
abbrev TM (α β : Type) : Type := M (Obj Table α) β

/-- A table that does not exist (`nullptr`). -/
def noTable : Table := ⟨0, []⟩

/-- A table just allocated at `p`. -/
def newTable (p : Ptr) (n : Nat) : Table := ⟨p.blk, List.replicate n none⟩

/-- `*p = q` for a slot `p` of the table. -/
def put (t : Table) (p q : Ptr) : M σ Table := fun s =>
  if p.blk = t.blk ∧ p.off < t.cells.length then .ok { t with cells := t.cells.set p.off (some q) } s
  else .ub .outOfBounds

/-- The loop of segmented_vector.hpp:878-885 (segmented_devector.hpp:1246-1253) over `n` segments. -/
def deallocSegsN (N al : Nat) : Nat → Ptr → TM α Unit
  | 0, _ => pure ()
  | n + 1, p => do
    let t ← getObj
    let b ← deref t p
    lift (deallocate al b N)
    deallocSegsN N al n (p.add 1)

/-- segmented_vector.hpp:878-885 `deallocate_segments` (and 846-849 `deallocate_segment`), segmented_devector.hpp:1246-1253. -/
def deallocSegs (N al : Nat) (first last : Ptr) : TM α Unit := do
  let n ← distance first last
  deallocSegsN N al n first

/-- segmented_vector.hpp:855-872 `allocate_segments` (and 837-840 `allocate_segment`), segmented_devector.hpp:1223-1240;
`n` segments are still to be allocated for the slots from `curr` on. (All callers pass `last = first + n`.) -/
def allocSegs (E : Env α) (N al : Nat) (first : Ptr) : Nat → Ptr → TM α Unit
  | 0, _ => pure ()
  | n + 1, curr => do
    let p ← M.tryCatch (lift (allocate E al N)) (fun e => do
      deallocSegs N al first curr
      M.throw e)
    let t ← getObj
    let t ← put t curr p
    setObj t
    allocSegs E N al first n (curr.add 1)

/-- segmented_vector.hpp:827-831 `deallocate_table`, segmented_devector.hpp:1195-1199. -/
def deallocTable (al : Nat) (p : Ptr) (n : Nat) : TM α Unit := do
  lift (deallocate al p n)
  setObj noTable

/-- `sfl::dtl::copy` of `n` slots of a table into a new table (segmented_vector.hpp:996-1001, 1073-1078,
segmented_devector.hpp). -/
def copyTable (t : Table) : Nat → Ptr → Table → Ptr → M σ Table
  | 0, _, t', _ => pure t'
  | n + 1, p, t', q => do
    let b ← deref t p
    let t' ← put t' q b
    copyTable t n (p.add 1) t' (q.add 1)

/-- The addresses of the `n` elements from `it` on, as reached by `++` (dereferencing std::move_iterator). -/
def gather (N : Nat) (t : Table) : Nat → SIt → M σ (List Ptr)
  | 0, _ => pure []
  | n + 1, it => do
    let it' ← inc N t it
    let ps ← gather N t n it'
    pure (it.loc :: ps)

/-- std::find_if over the `n` elements from `it` (see `Sfl.findIf`). -/
def findIf (N : Nat) (t : Table) (f : α → Bool) : Nat → SIt → M (St α) SIt
  | 0, it => pure it
  | n + 1, it => do
    let v ← readAt it.loc
    if f v = true then pure it
    else do
      let it' ← inc N t it
      findIf N t f n it'

/-- Second loop of std::remove_if (see `Sfl.removeGo`). -/
def removeGo (E : Env α) (N : Nat) (t : Table) (f : α → Bool) : Nat → SIt → SIt → M (St α) SIt
  | 0, d, _ => pure d
  | n + 1, d, q => do
    let v ← readAt q.loc
    if f v = true then do
      let q ← inc N t q
      removeGo E N t f n d q
    else do
      assign E d.loc (.mv q.loc)
      let d ← inc N t d
      let q ← inc N t q
      removeGo E N t f n d q

/-- std::remove_if(first, last, f), std::remove (see `Sfl.removeIf`) for segmented iterators. -/
def removeIf (E : Env α) (N : Nat) (t : Table) (f : α → Bool) (first last : SIt) : M (St α) SIt := do
  let n ← dist N t first last
  let p ← findIf N t f n first
  if eq p last then pure p
  else do
    let q ← inc N t p
    let k ← dist N t q last
    removeGo E N t f k p q

/-- A source range: the dereferenced iterators of a range outside the container (random access or not), or a range of a
segmented container. -/
inductive From (α : Type) where
  | list (ra : Bool) (as : List (Arg α))
  | seg (t : Table) (mk : Ptr → Arg α) (first last : SIt)

/-- `std::distance(first, last)`. -/
def From.dist (N : Nat) : From α → M σ Nat
  | .list _ as => pure as.length
  | .seg t _ first last => Seg.dist N t first last

/-- `[first, std::next(first, n))` and `[std::next(first, n), last)`. -/
def From.split (N : Nat) (n : Nat) : From α → M σ (From α × From α)
  | .list ra as => pure (.list ra (as.take n), .list ra (as.drop n))
  | .seg t mk first last => do
    let mid ← advance N t first n
    pure (.seg t mk first mid, .seg t mk mid last)

/-- `sfl::dtl::copy(first, last, d)` with `d` in a segmented container: overload resolution (private.hpp:700-812). -/
def From.assign (E : Env α) (N : Nat) (t' : Table) : From α → SIt → M (St α) SIt
  | .list true as, d => assignTo E N t' as d
  | .list false as, d => assignEach E N t' as d
  | .seg t mk first last, d => assignSeg E N t t' mk first last d

/-- `sfl::dtl::uninitialized_copy_a(first, last, d)` with `d` in a segmented container: overload resolution
(private.hpp:1718-1876). -/
def From.uninit (E : Env α) (N : Nat) (t' : Table) : From α → SIt → M (St α) SIt
  | .list true as, d => uninitTo E N t' as d
  | .list false as, d => uninitEach E N t' as d
  | .seg t mk first last, d => uninitSeg E N t t' mk first last d

end Seg

/-- segmented_vector.hpp:81-128, the data members. -/
structure SVec where
  tab : Table
  tfirst : Ptr
  tlast : Ptr
  teos : Ptr
  first : SIt
  last : SIt
  eos : SIt
  alloc : Nat
  deriving DecidableEq

/-- A member function of a local object `w`; the data members of `*this` are not touched. -/
def onLocal {V W α β : Type} (w : W) (p : M (Obj W α) β) : M (Obj V α) (β × W) := fun o =>
  match p ⟨w, o.m⟩ with
  | .ok b o' => .ok (b, o'.obj) ⟨o.obj, o'.m⟩
  | .exn e o' => .exn e ⟨o.obj, o'.m⟩
  | .ub r => .ub r

namespace SegVec
open Seg (deref shift dist inc dec advance)
variable {α : Type}

/-- Programs on a segmented_vector. -/
abbrev SM (α β : Type) : Type := M (Obj SVec α) β

/-- A function working on the table of `*this`. -/
def onTab {β : Type} (p : Seg.TM α β) : SM α β := fun o =>
  match p ⟨o.obj.tab, o.m⟩ with
  | .ok b o' => .ok b ⟨{ o.obj with tab := o'.obj }, o'.m⟩
  | .exn e o' => .exn e ⟨{ o.obj with tab := o'.obj }, o'.m⟩
  | .ub r => .ub r

/-- The data members before `initialize_*`: segmented_vector.hpp:98-123 leaves them indeterminate. -/
def blank (al : Nat) : SVec :=
  ⟨Seg.noTable, Ptr.null, Ptr.null, Ptr.null, ⟨Ptr.null, Ptr.null⟩, ⟨Ptr.null, Ptr.null⟩, ⟨Ptr.null, Ptr.null⟩, al⟩

/-- `size_type` subtraction (64 bit, wraps around). -/
def sizeSub (a b : Nat) : Nat := if b ≤ a then a - b else a + 2 ^ 64 - b

/-! ### Iterators, size, access -/

/-- segmented_vector.hpp:406-409 `size`. -/
def size (N : Nat) : SM α Nat := do let v ← getObj; dist N v.tab v.first v.last

/-- segmented_vector.hpp:422-425 `capacity`. -/
def capacity (N : Nat) : SM α Nat := do let v ← getObj; dist N v.tab v.first v.eos

/-- segmented_vector.hpp:428-431 `available`. -/
def available (N : Nat) : SM α Nat := do let v ← getObj; dist N v.tab v.last v.eos

/-- segmented_vector.hpp:400-403 `empty`. -/
def empty (v : SVec) : Bool := Seg.eq v.last v.first

/-- `cbegin() <= pos && pos <= cend()` (private.hpp:621-643). -/
def InRange (v : SVec) (pos : SIt) : Prop := Seg.lt pos v.first = false ∧ Seg.lt v.last pos = false

instance (v : SVec) (pos : SIt) : Decidable (InRange v pos) := inferInstanceAs (Decidable (_ ∧ _))

/-- segmented_vector.hpp:361-386 `nth`. -/
def nth (N pos : Nat) : SM α SIt := do
  let sz ← size N
  M.assert (pos ≤ sz)
  let v ← getObj
  let i := pos / N
  let j := pos - i * N
  let b ← deref v.tab (v.tfirst.add i)
  pure ⟨v.tfirst.add i, b.add j⟩

/-- segmented_vector.hpp:389-393 `index_of`. -/
def indexOf (N : Nat) (pos : SIt) : SM α (Option Nat) := do
  let v ← getObj
  M.assert (InRange v pos)
  let n ← dist N v.tab v.first pos
  pure (some n)

/-- The address of element `pos`, as computed in segmented_vector.hpp:453-500. -/
def addressOf (N pos : Nat) : SM α Ptr := do
  let v ← getObj
  let i := pos / N
  let j := pos - i * N
  let b ← deref v.tab (v.tfirst.add i)
  pure (b.add j)

/-- segmented_vector.hpp:481-500 `operator[]`, reading the element. -/
def index (N pos : Nat) : SM α α := do
  let sz ← size N
  M.assert (pos < sz)
  let p ← addressOf N pos
  lift (readAt p)

/-- segmented_vector.hpp:453-478 `at`, reading the element. -/
def at' (N pos : Nat) : SM α α := do
  let sz ← size N
  if pos ≥ sz then M.throw .outOfRange
  else do
    let p ← addressOf N pos
    lift (readAt p)

/-- segmented_vector.hpp:503-514 `front`, reading the element. -/
def front : SM α α := do
  let v ← getObj
  M.assert (empty v = false)
  lift (readAt v.first.loc)

/-- segmented_vector.hpp:517-528 `back`, reading the element. -/
def back (N : Nat) : SM α α := do
  let v ← getObj
  M.assert (empty v = false)
  let p ← dec N v.tab v.last
  lift (readAt p.loc)

/-! ### Storage -/

/-- segmented_vector.hpp:896-931 `allocate_storage`. -/
def allocateStorage (E : Env α) (N n : Nat) : SM α Unit :=
  if n > E.maxSize then M.throw .lengthError
  else do
    let required := n / N + 1
    let tcap := max required 8
    let v ← getObj
    let p ← lift (allocate E v.alloc tcap)
    setObj { v with tab := Seg.newTable p tcap, tfirst := p, tlast := p.add required, teos := p.add tcap }
    M.tryCatch (do
        onTab (Seg.allocSegs E N v.alloc p required p)
        let v ← getObj
        let b ← deref v.tab v.tfirst
        let e ← shift v.tlast (-1)
        let be ← deref v.tab e
        setObj { v with first := ⟨v.tfirst, b⟩, last := ⟨v.tfirst, b⟩, eos := ⟨e, be.add (N - 1)⟩ })
      (fun e => do
        onTab (Seg.deallocTable v.alloc p tcap)
        M.throw e)

/-- segmented_vector.hpp:937-950 `deallocate_storage`. -/
def deallocateStorage (N : Nat) : SM α Unit := do
  let v ← getObj
  onTab (Seg.deallocSegs N v.alloc v.tfirst v.tlast)
  let n ← distance v.tfirst v.teos
  onTab (Seg.deallocTable v.alloc v.tfirst n)

/-- A table of `newCap` slots replaces the old one, keeping its contents: segmented_vector.hpp:983-1016 (in
`grow_storage`) and 1055-1094 (in `shrink_storage`; there `eos_.segment_ = table_last_ - 1`, which is the same slot). -/
def replaceTable (E : Env α) (newCap : Nat) : SM α Unit := do
  let v ← getObj
  let tableCapacity ← distance v.tfirst v.teos
  let dist1 ← distance v.first.seg v.last.seg
  let dist2 ← distance v.first.seg v.eos.seg
  let p ← lift (allocate E v.alloc newCap)
  let n ← distance v.tfirst v.tlast
  let t ← Seg.copyTable v.tab n v.tfirst (Seg.newTable p newCap) p
  onTab (Seg.deallocTable v.alloc v.tfirst tableCapacity)
  setObj { v with
    tab := t, tfirst := p, tlast := p.add n, teos := p.add newCap,
    first := ⟨p, v.first.loc⟩, last := ⟨p.add dist1, v.last.loc⟩, eos := ⟨p.add dist2, v.eos.loc⟩ }

/-- segmented_vector.hpp:963-1017, the first part of `grow_storage`. -/
def growTable (E : Env α) (required : Nat) : SM α Unit := do
  let v ← getObj
  let tableAvailable ← distance v.tlast v.teos
  if required > tableAvailable then do
    let tableCapacity ← distance v.tfirst v.teos
    replaceTable E (max (tableCapacity + tableCapacity / 2) (tableCapacity - tableAvailable + required))
  else pure ()

/-- segmented_vector.hpp:956-1032 `grow_storage`. -/
def growStorage (E : Env α) (N n : Nat) : SM α Unit := do
  let cap ← capacity N
  if sizeSub E.maxSize cap < n then M.throw .lengthError
  else do
    let required := n / N + 1
    growTable E required
    let v ← getObj
    onTab (Seg.allocSegs E N v.alloc v.tlast required v.tlast)
    let v ← getObj
    let newLast := v.tlast.add required
    let e ← shift newLast (-1)
    let b ← deref v.tab e
    setObj { v with tlast := newLast, eos := ⟨e, b.add (N - 1)⟩ }

/-- segmented_vector.hpp:1038-1095 `shrink_storage` (`shrink_to_fit`: 443-446). -/
def shrinkStorage (E : Env α) (N : Nat) : SM α Unit := do
  let v ← getObj
  let newLast := v.last.seg.add 1
  onTab (Seg.deallocSegs N v.alloc newLast v.tlast)
  let v ← getObj
  let e ← shift newLast (-1)
  let b ← deref v.tab e
  setObj { v with tlast := newLast, eos := ⟨e, b.add (N - 1)⟩ }
  let tableSize ← distance v.tfirst newLast
  replaceTable E (max tableSize 8)

/-- segmented_vector.hpp:433-441 `reserve`. -/
def reserve (E : Env α) (N n : Nat) : SM α Unit := do
  let cap ← capacity N
  if n > cap then growStorage E N (n - cap) else pure ()

/-- segmented_vector.hpp:534-544 `clear`. -/
def clear (N : Nat) : SM α Unit := do
  let v ← getObj
  lift (Seg.destroy N v.tab v.first v.last)
  setObj { v with last := v.first }

/-- segmented_vector.hpp:223-233 `~segmented_vector`. -/
def destructor (N : Nat) : SM α Unit := do
  let v ← getObj
  lift (Seg.destroy N v.tab v.first v.last)
  deallocateStorage N

/-! ### Modifiers -/

/-- segmented_vector.hpp:560-603, the part of `emplace` after the storage has grown. -/
def emplaceTail (E : Env α) (N : Nat) (p1 : SIt) (a : Arg α) : SM α SIt := do
  let v ← getObj
  if Seg.eq p1 v.last = true then do
    lift (construct E v.last.loc a)
    let l ← inc N v.tab v.last
    setObj { v with last := l }
    pure p1
  else do
    let p2 ← dec N v.tab v.last
    let tmp ← lift (mkTmp E a)
    lift (construct E v.last.loc (.mv p2.loc))
    let l ← inc N v.tab v.last
    setObj { v with last := l }
    let _ ← lift (Seg.backSeg E N v.tab v.tab .mv p1 p2 v.last)
    lift (assign E p1.loc (.rv tmp))
    pure p1

/-- segmented_vector.hpp:546-604 `emplace` (insert of one value: 606-616). -/
def emplace (E : Env α) (N : Nat) (pos : SIt) (a : Arg α) : SM α SIt := do
  let v ← getObj
  M.assert (InRange v pos)
  let offset ← dist N v.tab v.first pos
  let p1 ← advance N v.tab v.first offset
  if Seg.eq v.last v.eos = true then do
    growStorage E N 1
    let p1 ← nth N offset
    emplaceTail E N p1 a
  else emplaceTail E N p1 a

/-- segmented_vector.hpp:646-657, the part of `emplace_back` after the storage has grown. -/
def emplaceBackTail (E : Env α) (N : Nat) (a : Arg α) : SM α SIt := do
  let v ← getObj
  lift (construct E v.last.loc a)
  let l ← inc N v.tab v.last
  setObj { v with last := l }
  pure v.last

/-- segmented_vector.hpp:638-658 `emplace_back` (push_back: 660-668). Returns the position of the new element. -/
def emplaceBack (E : Env α) (N : Nat) (a : Arg α) : SM α SIt := do
  let v ← getObj
  if Seg.eq v.last v.eos = true then growStorage E N 1 else pure ()
  emplaceBackTail E N a

/-- The loops of segmented_vector.hpp:1151-1155 and 1304-1309. -/
def emplaceBackAll (E : Env α) (N : Nat) : List (Arg α) → SM α Unit
  | [] => pure ()
  | a :: as => do
    let _ ← emplaceBack E N a
    emplaceBackAll E N as

/-- segmented_vector.hpp:670-677 `pop_back`. -/
def popBack (N : Nat) : SM α Unit := do
  let v ← getObj
  M.assert (empty v = false)
  let l ← dec N v.tab v.last
  setObj { v with last := l }
  lift (destroyAt l.loc)

/-- segmented_vector.hpp:679-690 `erase(pos)`. -/
def eraseAt (E : Env α) (N : Nat) (pos : SIt) : SM α SIt := do
  let v ← getObj
  M.assert (Seg.lt pos v.first = false ∧ Seg.lt pos v.last = true)
  let d ← dist N v.tab v.first pos
  let p ← advance N v.tab v.first d
  let p1 ← advance N v.tab p 1
  let l ← lift (Seg.assignSeg E N v.tab v.tab .mv p1 v.last p)
  setObj { v with last := l }
  lift (destroyAt l.loc)
  pure p

/-- segmented_vector.hpp:692-711 `erase(first, last)`. -/
def eraseRange (E : Env α) (N : Nat) (first last : SIt) : SM α SIt := do
  let v ← getObj
  M.assert (Seg.lt first v.first = false ∧ Seg.lt last first = false ∧ Seg.lt v.last last = false)
  let d1 ← dist N v.tab v.first first
  let p1 ← advance N v.tab v.first d1
  if Seg.eq first last = true then pure p1
  else do
    let d2 ← dist N v.tab v.first last
    let p2 ← advance N v.tab v.first d2
    let l ← lift (Seg.assignSeg E N v.tab v.tab .mv p2 v.last p1)
    lift (Seg.destroy N v.tab l v.last)
    setObj { v with last := l }
    pure p1

/-- segmented_vector.hpp:741-747, 778-785, the part of `resize` after the storage has grown. -/
def resizeTail (E : Env α) (N n sz : Nat) (a : Arg α) : SM α Unit := do
  let v ← getObj
  let l ← lift (Seg.uninitFillN E N v.tab v.last (n - sz) a)
  setObj { v with last := l }

/-- segmented_vector.hpp:713-748 `resize(n)` and 750-786 `resize(n, value)`: the two bodies differ only in the algorithm
constructing the new elements. -/
def resizeWith (E : Env α) (N n : Nat) (a : Arg α) : SM α Unit := do
  let sz ← size N
  if n ≤ sz then do
    let newLast ← nth N n
    let v ← getObj
    lift (Seg.destroy N v.tab newLast v.last)
    setObj { v with last := newLast }
  else do
    let cap ← capacity N
    if n > cap then growStorage E N (n - cap) else pure ()
    resizeTail E N n sz a

/-- segmented_vector.hpp:1272-1286, the part of `assign_fill_n` after the storage has grown. -/
def assignFillTail (E : Env α) (N n sz : Nat) (a : Arg α) : SM α Unit := do
  let v ← getObj
  let mid ← advance N v.tab v.first sz
  lift (Seg.fill E N v.tab v.first mid a)
  let l ← lift (Seg.uninitFillN E N v.tab v.last (n - sz) a)
  setObj { v with last := l }

/-- segmented_vector.hpp:1239-1287 `assign_fill_n`. -/
def assignFillN (E : Env α) (N n : Nat) (a : Arg α) : SM α Unit := do
  let sz ← size N
  if n ≤ sz then do
    let v ← getObj
    let newLast ← advance N v.tab v.first n
    lift (Seg.fill E N v.tab v.first newLast a)
    lift (Seg.destroy N v.tab newLast v.last)
    setObj { v with last := newLast }
  else do
    let cap ← capacity N
    if n > cap then growStorage E N (n - cap) else pure ()
    assignFillTail E N n sz a

/-- The loop of segmented_vector.hpp:1295-1300. Returns what is left of the source and `curr`. -/
def assignRangeLoop (E : Env α) (N : Nat) (t : Table) (last : SIt) : List (Arg α) → SIt → M (St α) (List (Arg α) × SIt)
  | [], curr => pure ([], curr)
  | a :: as, curr =>
    if Seg.eq curr last = true then pure (a :: as, curr)
    else do
      assign E curr.loc a
      let curr ← inc N t curr
      assignRangeLoop E N t last as curr

/-- segmented_vector.hpp:1289-1316 `assign_range` (input iterators). -/
def assignRangeInput (E : Env α) (N : Nat) (as : List (Arg α)) : SM α Unit := do
  let v ← getObj
  let (rest, curr) ← lift (assignRangeLoop E N v.tab v.last as v.first)
  if rest ≠ [] then emplaceBackAll E N rest
  else if Seg.lt curr v.last = true then do
    lift (Seg.destroy N v.tab curr v.last)
    setObj { v with last := curr }
  else pure ()

/-- segmented_vector.hpp:1353-1369, the part of `assign_range` after the storage has grown. -/
def assignRangeTail (E : Env α) (N : Nat) (src : Seg.From α) (sz : Nat) : SM α Unit := do
  let v ← getObj
  let (lo, hi) ← src.split N sz
  let _ ← lift (lo.assign E N v.tab v.first)
  let l ← lift (hi.uninit E N v.tab v.last)
  setObj { v with last := l }

/-- segmented_vector.hpp:1318-1370 `assign_range` (forward iterators). -/
def assignRange (E : Env α) (N : Nat) (src : Seg.From α) : SM α Unit := do
  let n ← src.dist N
  let sz ← size N
  if n ≤ sz then do
    let v ← getObj
    let newLast ← lift (src.assign E N v.tab v.first)
    lift (Seg.destroy N v.tab newLast v.last)
    setObj { v with last := newLast }
  else do
    let cap ← capacity N
    if n > cap then growStorage E N (n - cap) else pure ()
    assignRangeTail E N src sz

/-- segmented_vector.hpp:1540-1601, the part of `insert_fill_n` after the storage has grown. -/
def insertFillTail (E : Env α) (N offset n : Nat) (tmp : α) : SM α SIt := do
  let v ← getObj
  let p1 ← advance N v.tab v.first offset
  let p2 ← advance N v.tab p1 n
  if Seg.lt v.last p2 = false then do
    let p3 ← advance N v.tab v.last (-n)
    let l ← lift (Seg.uninitSeg E N v.tab v.tab .mv p3 v.last v.last)
    setObj { v with last := l }
    let _ ← lift (Seg.backSeg E N v.tab v.tab .mv p1 p3 v.last)
    lift (Seg.fill E N v.tab p1 p2 (.val tmp))
    pure p1
  else do
    lift (Seg.uninitFill E N v.tab v.last p2 (.val tmp))
    setObj { v with last := p2 }
    let l ← lift (Seg.uninitSeg E N v.tab v.tab .mv p1 v.last p2)
    setObj { v with last := l }
    lift (Seg.fill E N v.tab p1 v.last (.val tmp))
    pure p1

/-- segmented_vector.hpp:1522-1602 `insert_fill_n`; the check of `pos` is in `insert` (618-622). -/
def insertFillN (E : Env α) (N : Nat) (pos : SIt) (n : Nat) (a : Arg α) : SM α SIt := do
  let v ← getObj
  M.assert (InRange v pos)
  let offset ← dist N v.tab v.first pos
  if n = 0 then advance N v.tab v.first offset
  else do
    let tmp ← lift (mkTmp E a)
    let av ← available N
    if av < n then growStorage E N (n - av) else pure ()
    insertFillTail E N offset n tmp

/-- The loop of segmented_vector.hpp:1610-1615. -/
def insertRangeLoop (E : Env α) (N : Nat) : List (Arg α) → SIt → SM α SIt
  | [], pos => pure pos
  | a :: as, pos => do
    let p ← emplace E N pos a
    let v ← getObj
    let p ← inc N v.tab p
    insertRangeLoop E N as p

/-- segmented_vector.hpp:1604-1618 `insert_range` (input iterators); the check of `pos` is in `insert` (624-630). -/
def insertRangeInput (E : Env α) (N : Nat) (pos : SIt) (ys : List α) : SM α SIt := do
  let v ← getObj
  M.assert (InRange v pos)
  let offset ← dist N v.tab v.first pos
  let _ ← insertRangeLoop E N (ys.map .val) pos
  nth N offset

/-- segmented_vector.hpp:1641-1702, the part of `insert_range` after the storage has grown. -/
def insertRangeTail (E : Env α) (N : Nat) (ra : Bool) (offset distToEnd : Nat) (ys : List α) : SM α SIt := do
  let v ← getObj
  let n := ys.length
  let p1 ← advance N v.tab v.first offset
  let p2 ← advance N v.tab p1 n
  if Seg.lt v.last p2 = false then do
    let p3 ← advance N v.tab v.last (-n)
    let l ← lift (Seg.uninitSeg E N v.tab v.tab .mv p3 v.last v.last)
    setObj { v with last := l }
    let _ ← lift (Seg.backSeg E N v.tab v.tab .mv p1 p3 v.last)
    let _ ← lift ((Seg.From.list ra (ys.map .val)).assign E N v.tab p1)
    pure p1
  else do
    let l ← lift ((Seg.From.list ra ((ys.drop distToEnd).map .val)).uninit E N v.tab v.last)
    setObj { v with last := l }
    let l ← lift (Seg.uninitSeg E N v.tab v.tab .mv p1 v.last l)
    setObj { v with last := l }
    let _ ← lift ((Seg.From.list ra ((ys.take distToEnd).map .val)).assign E N v.tab p1)
    pure p1

/-- segmented_vector.hpp:1620-1703 `insert_range` (forward iterators; `ra`: random access), source outside the vector;
the check of `pos` is in `insert` (624-636). -/
def insertRange (E : Env α) (N : Nat) (ra : Bool) (pos : SIt) (ys : List α) : SM α SIt := do
  let v ← getObj
  M.assert (InRange v pos)
  let offset ← dist N v.tab v.first pos
  if ys = [] then advance N v.tab v.first offset
  else do
    let distToEnd ← dist N v.tab pos v.last
    let av ← available N
    if av < ys.length then growStorage E N (ys.length - av) else pure ()
    insertRangeTail E N ra offset distToEnd ys

/-- segmented_vector.hpp:1784-1804, non-member `erase(c, value)` and `erase_if(c, pred)`. The predicate (or comparison)
itself does not throw and has no side effects. -/
def eraseIf (E : Env α) (N : Nat) (f : α → Bool) : SM α Nat := do
  let v ← getObj
  let it ← lift (Seg.removeIf E N v.tab f v.first v.last)
  let v ← getObj
  let r ← dist N v.tab it v.last
  let _ ← eraseRange E N it v.last
  pure r

/-! ### Construction -/

/-- `initialize_default_n`, `initialize_fill_n`, `initialize_range` (forward iterators), `initialize_copy` and the second
branch of `initialize_move`: segmented_vector.hpp:1102-1141, 1165-1207, 1219-1236. They differ in the number of elements
and the algorithm `alg` constructing them, which is given the table and `first_`. -/
def initUsing (E : Env α) (N n : Nat) (alg : Table → SIt → M (St α) SIt) : SM α Unit := do
  allocateStorage E N n
  M.tryCatch (do
      let v ← getObj
      let l ← lift (alg v.tab v.first)
      setObj { v with last := l })
    (fun e => do
      deallocateStorage N
      M.throw e)

/-- segmented_vector.hpp:1143-1163 `initialize_range` (input iterators). -/
def initRangeInput (E : Env α) (N : Nat) (ys : List α) : SM α Unit := do
  allocateStorage E N 0
  M.tryCatch (emplaceBackAll E N (ys.map .val)) (fun e => do
    clear N
    deallocateStorage N
    M.throw e)

/-- segmented_vector.hpp:1188-1207 `initialize_copy`, called by the copy constructors (193-209). -/
def initCopy (E : Env α) (N : Nat) (other : SVec) : SM α Unit := do
  let n ← dist N other.tab other.first other.last
  initUsing E N n (fun t d => Seg.uninitSeg E N other.tab t .ref other.first other.last d)

/-- segmented_vector.hpp:1209-1237 `initialize_move`, called by the move constructors (211-221). -/
def initMove (E : Env α) (N : Nat) : M (Obj (SVec × SVec) α) Unit := do
  let o ← getObj
  if o.1.alloc = o.2.alloc then do
    onThis (allocateStorage E N 0)
    let o ← getObj
    setObj (o.2, o.1)
  else do
    let n ← dist N o.2.tab o.2.first o.2.last
    onThis (initUsing E N n (fun t d => Seg.uninitSeg E N o.2.tab t .mv o.2.first o.2.last d))

/-- The constructors without a source container: segmented_vector.hpp:133-191; `ra`: the forward range is random access. -/
def construct' (E : Env α) (N : Nat) (ra : Bool) : Sq.Init α → SM α Unit
  | .empty => allocateStorage E N 0
  | .count n => initUsing E N n (fun t d => Seg.uninitFillN E N t d n (.val E.dflt))
  | .fill n v => initUsing E N n (fun t d => Seg.uninitFillN E N t d n (.val v))
  | .range ys => initUsing E N ys.length (fun t d => (Seg.From.list ra (ys.map .val)).uninit E N t d)
  | .input ys => initRangeInput E N ys

/-! ### Assignment and swap -/

/-- "Clear and destroy current storage. Set pointers to null.": segmented_vector.hpp:1383-1390, 1424-1435, 1472-1483. -/
def giveUp (N : Nat) : SM α Unit := do
  clear N
  deallocateStorage N
  let v ← getObj
  setObj { v with tfirst := Ptr.null, tlast := Ptr.null, teos := Ptr.null }

/-- segmented_vector.hpp:1372-1412 `assign_copy` for `this != &other`. -/
def assignCopy (E : Env α) (N : Nat) (T : Traits) (other : SVec) : SM α Unit := do
  if T.pocca = true then do
    let v ← getObj
    if v.alloc ≠ other.alloc then do
      let (_, temp) ← onLocal (blank other.alloc) (allocateStorage E N 0)
      giveUp N
      let v ← getObj
      setObj temp
      let _ ← onLocal v (destructor N)
      pure ()
    else pure ()
    let v ← getObj
    setObj { v with alloc := other.alloc }
  else pure ()
  assignRange E N (.seg other.tab .ref other.first other.last)

/-- `assign_range(std::make_move_iterator(other.data_.first_), std::make_move_iterator(other.data_.last_))`:
segmented_vector.hpp:1505-1509 and 1514-1518. A move iterator is not a segmented iterator; it is random access. -/
def assignMoved (E : Env α) (N : Nat) (other : SVec) : SM α Unit := do
  let n ← dist N other.tab other.first other.last
  let ps ← Seg.gather N other.tab n other.first
  assignRange E N (.list true (ps.map .mv))

/-- segmented_vector.hpp:1414-1520 `assign_move` for `this != &other`. -/
def assignMove (E : Env α) (N : Nat) (T : Traits) : M (Obj (SVec × SVec) α) Unit := do
  let o ← getObj
  if o.1.alloc = o.2.alloc then do
    let (_, temp) ← onLocal (blank o.1.alloc) (allocateStorage E N 0)
    onThis (giveUp N)
    let o ← getObj
    setObj (o.2, temp)
    let temp := o.1
    if T.pocma = true then do
      let o ← getObj
      setObj ({ o.1 with alloc := o.2.alloc }, o.2)
    else pure ()
    let _ ← onLocal temp (destructor N)
    pure ()
  else if T.pocma = true then do
    let (_, temp) ← onLocal (blank o.2.alloc) (allocateStorage E N 0)
    onThis (giveUp N)
    let o ← getObj
    setObj ({ temp with alloc := o.2.alloc }, o.2)
    let temp := o.1
    M.tryCatch (onThis (assignMoved E N o.2)) (fun e => do
      let _ ← onLocal temp (destructor N)
      M.throw e)
    let _ ← onLocal temp (destructor N)
    pure ()
  else onThis (assignMoved E N o.2)

/-- segmented_vector.hpp:788-809 `swap` for `this != &other`. `swap(this->data_, other.data_)` (807) exchanges the
allocators as well. -/
def swap (T : Traits) : M (Obj (SVec × SVec) α) Unit := do
  let o ← getObj
  M.assert (T.pocs = true ∨ o.1.alloc = o.2.alloc)
  if T.pocs = true then setObj ({ o.1 with alloc := o.2.alloc }, { o.2 with alloc := o.1.alloc }) else pure ()
  let o ← getObj
  setObj (o.2, o.1)

/-! ### The public interface -/

/-- The value argument of an operation. -/
def argOf (N : Nat) : Sq.Src α → SM α (Arg α)
  | .value v => pure (.val v)
  | .rvalue v => pure (.rv v)
  | .elem i => do
    let p ← addressOf N i
    pure (.ref p)

/-- The public modifiers of segmented_vector (segmented_vector.hpp:239-786, 1784-1804), dispatched on the operation.
`ra` tells for each operation whether its source range, if any, is random access. -/
def exec (E : Env α) (N : Nat) (ra : Sq.Op α → Bool) (op : Sq.Op α) : SM α (Option Nat) :=
  match op with
  | .pushBack s => do
    let a ← argOf N s
    let p ← emplaceBack E N a
    indexOf N p
  | .emplace k s => do
    let a ← argOf N s
    let pos ← nth N k
    let p ← emplace E N pos a
    indexOf N p
  | .insertN k n s => do
    let a ← argOf N s
    let pos ← nth N k
    let p ← insertFillN E N pos n a
    indexOf N p
  | .insertRange k ys => do
    let pos ← nth N k
    let p ← insertRange E N (ra (.insertRange k ys)) pos ys
    indexOf N p
  | .insertInput k ys => do
    let pos ← nth N k
    let p ← insertRangeInput E N pos ys
    indexOf N p
  | .popBack => do
    popBack N
    pure none
  | .eraseAt k => do
    let pos ← nth N k
    let p ← eraseAt E N pos
    indexOf N p
  | .eraseRange k l => do
    let f ← nth N k
    let l ← nth N l
    let p ← eraseRange E N f l
    indexOf N p
  | .resize n => do
    resizeWith E N n (.val E.dflt)
    pure none
  | .resizeV n s => do
    let a ← argOf N s
    resizeWith E N n a
    pure none
  | .assignN n v => do
    assignFillN E N n (.val v)
    pure none
  | .assignRange ys => do
    assignRange E N (.list (ra (.assignRange ys)) (ys.map .val))
    pure none
  | .assignInput ys => do
    assignRangeInput E N (ys.map .val)
    pure none
  | .clear => do
    clear N
    pure none
  | .reserve n => do
    reserve E N n
    pure none
  | .shrinkToFit => do
    shrinkStorage E N
    pure none
  | .eraseIf f => do
    let n ← eraseIf E N f
    pure (some n)

/-- segmented_vector as a container type (public functions of segmented_vector.hpp:133-809). -/
def cont (K : Nat) (E : Env α) (N : Nat) (T : Traits) (ra : Sq.Op α → Bool) (rai : Sq.Init α → Bool) :
    World.Cont K (Sq.Op α) (Sq.Init α) SVec α Nat where
  alloc := SVec.alloc
  blank := fun _ al => blank al
  make := fun _ init => construct' E N (rai init) init
  copyInit := fun _ w => initCopy E N w
  moveInit := fun _ _ => initMove E N
  destroy := fun _ => destructor N
  size := size N
  index := index N
  exec := fun _ => exec E N ra
  assignCopy := fun _ _ w => assignCopy E N T w
  assignMove := fun _ _ => assignMove E N T
  swap := fun _ _ => swap T

end SegVec
end Sfl
