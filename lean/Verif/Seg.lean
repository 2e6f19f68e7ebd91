import Verif.Algo
/-
  Segmented iterators and the algorithms of /repo/include/sfl/private.hpp on segmented ranges.

  The elements of a segmented container live in segments of `N` slots each; a table holds the addresses of the
  segments. An iterator is a pair of pointers, one into the table and one into the segment (private.hpp:433-640).

  The table itself is a memory block obtained from the allocator (so that its deallocation is checked), but its
  contents, being pointers and not elements, are kept beside the memory: `Table.cells` lists them, `none` being a slot
  never written. Every function reading the table takes it as an argument. Reading through a pointer into another block
  (a table given up meanwhile), beyond the block or from a slot never written is undefined behaviour.
-/

namespace Sfl

/-- A table of segments: segmented_vector.hpp:80-86 (`table_first_` points into it), segmented_devector.hpp:80-86.
`blk` is the block holding it, `cells` its contents. -/
structure Table where
  blk : Nat
  cells : List (Option Ptr)
  deriving DecidableEq

/-- private.hpp:445-446, the data members of `segmented_iterator`. -/
structure SIt where
  seg : Ptr
  loc : Ptr
  deriving DecidableEq

namespace Seg
variable {σ α δ : Type}

/-- `*segment`, reading the table. -/
def deref (t : Table) (p : Ptr) : M σ Ptr := fun s =>
  if p.blk = t.blk then
    match t.cells[p.off]? with
    | some (some q) => .ok q s
    | some none => .ub .readRaw
    | none => .ub .outOfBounds
  else .ub .outOfBounds

/-- `p + k` for a signed `k`; leaving the block at its start is undefined behaviour. -/
def shift (p : Ptr) (k : Int) : M σ Ptr := fun s =>
  if 0 ≤ (p.off : Int) + k then .ok ⟨p.blk, ((p.off : Int) + k).toNat⟩ s else .ub .outOfBounds

/-- `p - q` for pointers into the same block. -/
def ptrDiff (p q : Ptr) : M σ Int := fun s =>
  if p.blk = q.blk then .ok ((p.off : Int) - q.off) s else .ub .badRange

/-! ### Iterators -/

/-- private.hpp:503-514 `operator++`. -/
def inc (N : Nat) (t : Table) (it : SIt) : M σ SIt := do
  let l := it.loc.add 1
  let b ← deref t it.seg
  if l = b.add N then
    let b' ← deref t (it.seg.add 1)
    pure ⟨it.seg.add 1, b'⟩
  else pure ⟨it.seg, l⟩

/-- private.hpp:523-534 `operator--`. -/
def dec (N : Nat) (t : Table) (it : SIt) : M σ SIt := do
  let b ← deref t it.seg
  if it.loc = b then
    let sg ← shift it.seg (-1)
    let b' ← deref t sg
    let l ← shift (b'.add N) (-1)
    pure ⟨sg, l⟩
  else
    let l ← shift it.loc (-1)
    pure ⟨it.seg, l⟩

/-- private.hpp:543-565 `operator+=`. `N` is positive (segmented_vector.hpp:46). The divisions are of non-negative
numbers, so C++ and Lean agree. -/
def advance (N : Nat) (t : Table) (it : SIt) (n : Int) : M σ SIt := do
  let b ← deref t it.seg
  let d ← distance b it.loc
  let offset : Int := d + n
  if 0 ≤ offset ∧ offset < N then
    let l ← shift it.loc n
    pure ⟨it.seg, l⟩
  else
    let so : Int := if offset > 0 then offset / N else -((-offset - 1) / N) - 1
    let sg ← shift it.seg so
    let b' ← deref t sg
    let l ← shift b' (offset - so * N)
    pure ⟨sg, l⟩

/-- private.hpp:602-607 `operator-` of two iterators. -/
def diff (N : Nat) (t : Table) (x y : SIt) : M σ Int := do
  let d ← ptrDiff x.seg y.seg
  let bx ← deref t x.seg
  let dx ← ptrDiff x.loc bx
  let by' ← deref t y.seg
  let dy ← ptrDiff y.loc by'
  pure (d * N + dx - dy)

/-- private.hpp:609-613 `operator==`. -/
def eq (x y : SIt) : Bool := decide (x.loc = y.loc)

/-- private.hpp:621-625 `operator<`. -/
def lt (x y : SIt) : Bool := if x.seg = y.seg then decide (x.loc.off < y.loc.off) else decide (x.seg.off < y.seg.off)

/-- `std::distance(x, y)` used as a `size_type`: a negative difference would wrap around; it is flagged. -/
def dist (N : Nat) (t : Table) (x y : SIt) : M σ Nat := do
  let d ← diff N t y x
  if 0 ≤ d then pure d.toNat else M.undef .badRange

/-- private.hpp:676-687 `segmented_iterator_traits::compose`. -/
def compose (N : Nat) (t : Table) (sg loc : Ptr) : M σ SIt := do
  let b ← deref t sg
  M.assert (b.blk = loc.blk ∧ b.off ≤ loc.off ∧ loc.off ≤ b.off + N)
  if loc = b.add N then
    let b' ← deref t (sg.add 1)
    pure ⟨sg.add 1, b'⟩
  else pure ⟨sg, loc⟩

/-! ### Loops over the segments of a range

The overloads for segmented source ranges all have the same shape: a first part up to the end of its segment, whole
segments, a last part. `body sg p q d` processes the part `[p, q)` of segment `sg`; `d` is carried from part to part
(for the copying algorithms the destination). The C++ loops end because `++` reaches `last_seg`; here they also end,
with undefined behaviour, when they leave the table. -/

/-- The loop over whole segments, e.g. private.hpp:790-800. -/
def chunkLoop (N : Nat) (t : Table) (body : Ptr → Ptr → Ptr → δ → M σ δ) (last : Ptr) : Nat → Ptr → δ → M σ δ
  | 0, _, _ => M.undef .outOfBounds
  | k + 1, sg, d =>
    if sg = last then pure d
    else do
      let b ← deref t sg
      let d ← body sg b (b.add N) d
      chunkLoop N t body last k (sg.add 1) d

/-- private.hpp:762-812 (copy), 999-1049 (move), 1178-1224 (fill), 1291-1337 (destroy_a), 1419-1478
(uninitialized_default_construct_a), 1577-1640 (uninitialized_fill_a), 1811-1876 (uninitialized_copy_a),
1969-2034 (uninitialized_move_a), 2137-2202 (uninitialized_move_if_noexcept_a). `body1` is used for the first part,
`body2` for the others (the latter are inside a `try` block in the `uninitialized_*` algorithms). -/
def forChunks (N : Nat) (t : Table) (body1 body2 : Ptr → Ptr → Ptr → δ → M σ δ) (first last : SIt) (d : δ) : M σ δ :=
  if first.seg = last.seg then body1 first.seg first.loc last.loc d
  else do
    let b ← deref t first.seg
    let d ← body1 first.seg first.loc (b.add N) d
    let d ← chunkLoop N t body2 last.seg (t.cells.length + 1) (first.seg.add 1) d
    let b ← deref t last.seg
    body2 last.seg b last.loc d

/-- The loop over whole segments of the backward algorithms, e.g. private.hpp:911-921. -/
def chunkLoopBack (N : Nat) (t : Table) (body : Ptr → Ptr → δ → M σ δ) (first : Ptr) : Nat → Ptr → δ → M σ (Ptr × δ)
  | 0, _, _ => M.undef .outOfBounds
  | k + 1, sg, d =>
    if first = sg then pure (sg, d)
    else do
      let b ← deref t sg
      let d ← body b (b.add N) d
      let sg ← shift sg (-1)
      chunkLoopBack N t body first k sg d

/-- private.hpp:884-934 (copy_backward), 1115-1165 (move_backward). -/
def forChunksBack (N : Nat) (t : Table) (body : Ptr → Ptr → δ → M σ δ) (first last : SIt) (d : δ) : M σ δ :=
  if first.seg = last.seg then body first.loc last.loc d
  else do
    let b ← deref t last.seg
    let d ← body b last.loc d
    let sg ← shift last.seg (-1)
    let (sg, d) ← chunkLoopBack N t body first.seg (t.cells.length + 1) sg d
    let b ← deref t sg
    body first.loc (b.add N) d

/-! ### Destroying and filling -/

/-- private.hpp:1291-1337 `destroy_a` of a segmented range. -/
def destroy (N : Nat) (t : Table) (first last : SIt) : M (St α) Unit :=
  forChunks N t (fun _ p q _ => destroyRange p q) (fun _ p q _ => destroyRange p q) first last ()

/-- The loop of private.hpp:1354-1394 `destroy_n_a`. -/
def destroyNLoop (N : Nat) (t : Table) : Nat → Nat → Ptr → Ptr → M (St α) SIt
  | 0, _, _, _ => M.undef .outOfBounds
  | k + 1, n, sg, loc => do
    let b ← deref t sg
    let c ← distance loc (b.add N)
    let count := min n c
    destroyN loc count
    if n - count = 0 then compose N t sg (loc.add count)
    else
      let b ← deref t (sg.add 1)
      destroyNLoop N t k (n - count) (sg.add 1) b

/-- private.hpp:1354-1394 `destroy_n_a` of a segmented range. -/
def destroyN (N : Nat) (t : Table) (first : SIt) (n : Nat) : M (St α) SIt :=
  destroyNLoop N t (t.cells.length + 1) n first.seg first.loc

/-- private.hpp:1178-1224 `fill` of a segmented range. -/
def fill (E : Env α) (N : Nat) (t : Table) (first last : SIt) (a : Arg α) : M (St α) Unit :=
  forChunks N t (fun _ p q _ => fillRange E p q a) (fun _ p q _ => fillRange E p q a) first last ()

/-- private.hpp:1577-1640 `uninitialized_fill_a` of a segmented range (1419-1478 `uninitialized_default_construct_a`
with the default value). -/
def uninitFill (E : Env α) (N : Nat) (t : Table) (first last : SIt) (a : Arg α) : M (St α) Unit :=
  forChunks N t (fun _ p q _ => Sfl.uninitFill E p q a)
    (fun sg p q _ => M.tryCatch (Sfl.uninitFill E p q a) (fun e => do
      let b ← deref t sg
      let c ← compose N t sg b
      destroy N t first c
      M.throw e)) first last ()

/-- The loop of private.hpp:1664-1716; `total` is `n`, `rem` is `remainining`. -/
def uninitFillNLoop (E : Env α) (N : Nat) (t : Table) (first : SIt) (total : Nat) (a : Arg α) :
    Nat → Nat → Ptr → Ptr → M (St α) SIt
  | 0, _, _, _ => M.undef .outOfBounds
  | k + 1, rem, sg, loc => do
    let b ← deref t sg
    let c ← distance loc (b.add N)
    let count := min rem c
    let loc ← M.tryCatch (Sfl.uninitFillN E loc count a) (fun e => do
      let _ ← destroyN N t first (total - rem)
      M.throw e)
    if rem - count = 0 then compose N t sg loc
    else
      let b ← deref t (sg.add 1)
      uninitFillNLoop E N t first total a k (rem - count) (sg.add 1) b

/-- private.hpp:1664-1716 `uninitialized_fill_n_a` of a segmented range; with the default value also 1502-1554
`uninitialized_default_construct_n_a`. -/
def uninitFillN (E : Env α) (N : Nat) (t : Table) (first : SIt) (n : Nat) (a : Arg α) : M (St α) SIt :=
  uninitFillNLoop E N t first n a (t.cells.length + 1) n first.seg first.loc

/-! ### Copying into a segmented range

The source is given by the dereferenced iterators (`as`); a contiguous part of memory is `args mk p n`. -/

/-- The loops of private.hpp:711-760 (copy), 949-997 (move): random access source. -/
def assignLoop (E : Env α) (N : Nat) (t : Table) : Nat → List (Arg α) → Ptr → Ptr → M (St α) SIt
  | 0, _, _, _ => M.undef .outOfBounds
  | k + 1, as, sg, loc => do
    let b ← deref t sg
    let c ← distance loc (b.add N)
    let count := min as.length c
    let loc ← assignGo E loc (as.take count)
    if (as.drop count).isEmpty then compose N t sg loc
    else
      let b ← deref t (sg.add 1)
      assignLoop E N t k (as.drop count) (sg.add 1) b

/-- private.hpp:711-760 `copy`, 949-997 `move` from a random access source into a segmented destination. -/
def assignTo (E : Env α) (N : Nat) (t : Table) (as : List (Arg α)) (d : SIt) : M (St α) SIt :=
  if as.isEmpty then pure d else assignLoop E N t (t.cells.length + 1) as d.seg d.loc

/-- private.hpp:700-709 `copy`, 938-947 `move` from another source into a segmented destination: the loop of
std::copy, std::move. -/
def assignEach (E : Env α) (N : Nat) (t : Table) : List (Arg α) → SIt → M (St α) SIt
  | [], d => pure d
  | a :: as, d => do
    assign E d.loc a
    let d ← inc N t d
    assignEach E N t as d

/-- The loops of private.hpp:1745-1807 (uninitialized_copy_a), 1909-1967 (uninitialized_move_a), 2073-2135
(uninitialized_move_if_noexcept_a): random access source. -/
def uninitLoop (E : Env α) (N : Nat) (t : Table) (first : SIt) : Nat → List (Arg α) → Ptr → Ptr → M (St α) SIt
  | 0, _, _, _ => M.undef .outOfBounds
  | k + 1, as, sg, loc => do
    let b ← deref t sg
    let c ← distance loc (b.add N)
    let count := min as.length c
    let loc ← M.tryCatch (uninit E loc (as.take count)) (fun e => do
      let c ← compose N t sg loc
      destroy N t first c
      M.throw e)
    if (as.drop count).isEmpty then compose N t sg loc
    else
      let b ← deref t (sg.add 1)
      uninitLoop E N t first k (as.drop count) (sg.add 1) b

/-- private.hpp:1745-1807, 1909-1967, 2073-2135 `uninitialized_{copy,move,move_if_noexcept}_a` from a random access
source into a segmented destination. -/
def uninitTo (E : Env α) (N : Nat) (t : Table) (as : List (Arg α)) (d : SIt) : M (St α) SIt :=
  if as.isEmpty then pure d else uninitLoop E N t d (t.cells.length + 1) as d.seg d.loc

/-- The loop of private.hpp:1718-1743 (1882-1907, 2046-2071) with a segmented destination. -/
def uninitEachGo (E : Env α) (N : Nat) (t : Table) (first : SIt) : List (Arg α) → SIt → M (St α) SIt
  | [], d => pure d
  | a :: as, d => do
    M.tryCatch (construct E d.loc a) (fun e => do
      destroy N t first d
      M.throw e)
    let d ← inc N t d
    uninitEachGo E N t first as d

/-- private.hpp:1718-1743, 1882-1907, 2046-2071 `uninitialized_{copy,move,move_if_noexcept}_a` from a source that is
not random access into a segmented destination. -/
def uninitEach (E : Env α) (N : Nat) (t : Table) (as : List (Arg α)) (d : SIt) : M (St α) SIt :=
  uninitEachGo E N t d as d

/-! ### Copying from one segmented range into another

`t` is the table of the source, `t'` that of the destination; `mk` says how elements are taken from the source (copy,
move). -/

/-- private.hpp:762-812 `copy`, 999-1049 `move` between segmented ranges. -/
def assignSeg (E : Env α) (N : Nat) (t t' : Table) (mk : Ptr → Arg α) (first last d : SIt) : M (St α) SIt :=
  forChunks N t
    (fun _ p q d => do
      let n ← distance p q
      assignTo E N t' (args mk p n) d)
    (fun _ p q d => do
      let n ← distance p q
      assignTo E N t' (args mk p n) d) first last d

/-- private.hpp:1811-1876 `uninitialized_copy_a`, 1969-2034 `uninitialized_move_a`, 2137-2202
`uninitialized_move_if_noexcept_a` between segmented ranges. -/
def uninitSeg (E : Env α) (N : Nat) (t t' : Table) (mk : Ptr → Arg α) (first last d : SIt) : M (St α) SIt :=
  forChunks N t
    (fun _ p q c => do
      let n ← distance p q
      uninitTo E N t' (args mk p n) c)
    (fun _ p q c => M.tryCatch
      (do
        let n ← distance p q
        uninitTo E N t' (args mk p n) c)
      (fun e => do
        destroy N t' d c
        M.throw e)) first last d

/-- The loop of std::copy_backward, std::move_backward (`moveBackGo` for any way of taking the elements). -/
def backGo (E : Env α) (mk : Ptr → Arg α) (first : Ptr) : Nat → Ptr → M (St α) Ptr
  | 0, d => pure d
  | n + 1, d => do
    assign E (d.sub 1) (mk (first.add n))
    backGo E mk first n (d.sub 1)

/-- The loops of private.hpp:833-882 (copy_backward), 1065-1113 (move_backward): contiguous source, segmented
destination. -/
def backLoop (E : Env α) (N : Nat) (t : Table) (mk : Ptr → Arg α) (first : Ptr) : Nat → Ptr → Ptr → Ptr → M (St α) SIt
  | 0, _, _, _ => M.undef .outOfBounds
  | k + 1, curr, sg, loc => do
    let n ← distance first curr
    let b ← deref t sg
    let c ← distance b loc
    let count := min n c
    let prev ← shift curr (-count)
    let loc ← backGo E mk prev count loc
    if prev = first then compose N t sg loc
    else
      let sg ← shift sg (-1)
      let b ← deref t sg
      backLoop E N t mk first k prev sg (b.add N)

/-- private.hpp:833-882 `copy_backward`, 1065-1113 `move_backward`: contiguous source, segmented destination. -/
def backTo (E : Env α) (N : Nat) (t : Table) (mk : Ptr → Arg α) (first last : Ptr) (d : SIt) : M (St α) SIt :=
  if first = last then pure d else backLoop E N t mk first (t.cells.length + 1) last d.seg d.loc

/-- private.hpp:884-934 `copy_backward`, 1115-1165 `move_backward` between segmented ranges. -/
def backSeg (E : Env α) (N : Nat) (t t' : Table) (mk : Ptr → Arg α) (first last d : SIt) : M (St α) SIt :=
  forChunksBack N t (fun p q d => backTo E N t' mk p q d) first last d

end Seg
end Sfl
