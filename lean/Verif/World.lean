import Verif.SeqSpec
import Verif.Two
/-
  Client programs with several containers of one type: construct, copy, move, assign, swap, modify, destroy, in any
  order, in one memory. First the abstract meaning (lists and allocators, no memory), then the client program, then
  the theorem that lifts correctness of the single functions to whole programs. The container type is a parameter.
-/

namespace Sfl.World
open Sq
variable {α : Type} {K : Nat} {Op I V ρ : Type}

/-! ### Abstract meaning -/

/-- What a client may do with the containers in the slots `0 … K-1`. An absent allocator argument means the
constructor without allocator parameter. -/
inductive WOp (K : Nat) (Op I : Type) where
  | make (i : Fin K) (al : Nat) (init : I)
  | makeCopy (i j : Fin K) (al : Option Nat)
  | makeMove (i j : Fin K) (al : Option Nat)
  | destroy (i : Fin K)
  | op (i : Fin K) (o : Op)
  | assignCopy (i j : Fin K)
  | assignMove (i j : Fin K)
  | swap (i j : Fin K)

/-- Abstract meaning of the operations of one container type on lists. -/
structure Sem (Op I α : Type) (ρ : Type) where
  /-- precondition of an operation on a container of size `n` -/
  pre : Nat → Op → Bool
  okStep : List α → Op → Option ρ → List α → Prop
  failStep : List α → Op → Exn → List α → Prop
  /-- precondition of a constructor -/
  initPre : I → Bool := fun _ => true
  /-- what a constructor produces -/
  init : I → List α → Prop
  /-- which exceptions a constructor may throw -/
  initFail : I → Exn → Prop
  /-- what a successful move may leave in its source (`true`: the allocators are equal) -/
  left : Bool → List α → List α → Prop
  /-- what a failed move may leave in its source -/
  moveFail : List α → List α → Prop
  /-- what a failed assignment may leave in its target -/
  assignFail : List α → Prop
  /-- what a failed swap may leave -/
  swapFail : List α → List α → List α → List α → Prop
  /-- precondition of swap on the allocators -/
  swapPre : Nat → Nat → Bool
  /-- precondition of copy assignment on the allocators and sizes of target and source -/
  copyPre : Nat → Nat → Nat → Nat → Bool := fun _ _ _ _ => true
  /-- precondition of move assignment on the allocators and sizes of target and source -/
  movePre : Nat → Nat → Nat → Nat → Bool := fun _ _ _ _ => true
  T : Traits
  /-- move assignment between unequal allocators takes over the storage of the source -/
  takes : Bool := T.pocma
  /-- an assignment may fail before anything, the allocator included, has been changed -/
  early : Bool := false

/-- The abstract state: each slot is empty or holds a container with an allocator and a list of elements. -/
abbrev Abs (K : Nat) (α : Type) : Type := Fin K → Option (Nat × List α)

/-- Function update. -/
def upd {β : Type} (f : Fin K → β) (i : Fin K) (x : β) : Fin K → β := fun k => if k = i then x else f k

theorem upd_self {β : Type} (f : Fin K → β) (i : Fin K) : upd f i (f i) = f := by
  funext k; unfold upd; split
  · rename_i h; rw [h]
  · rfl

/-- One step of a client, on lists. -/
inductive WStep (S : Sem Op I α ρ) (A : Abs K α) : WOp K Op I → Out (Option ρ) → Abs K α → Prop where
  | make {i al init xs} : A i = none → S.initPre init = true → S.init init xs → WStep S A (.make i al init) (.ok none) (upd A i (some (al, xs)))
  | makeFail {i al init e} : A i = none → S.initPre init = true → S.initFail init e → WStep S A (.make i al init) (.threw e) A
  | makeSkip {i al init} : A i ≠ none ∨ S.initPre init = false → WStep S A (.make i al init) .skipped A
  | copy {i j al aj xs} : A i = none → A j = some (aj, xs) →
      WStep S A (.makeCopy i j al) (.ok none) (upd A i (some (al.getD (S.T.soccc aj), xs)))
  | copyFail {i j al e} : A i = none → A j ≠ none → WStep S A (.makeCopy i j al) (.threw e) A
  | copySkip {i j al} : A i ≠ none ∨ A j = none → WStep S A (.makeCopy i j al) .skipped A
  | move {i j al aj xs ys} : A i = none → A j = some (aj, xs) → S.left (decide (al.getD aj = aj)) xs ys →
      WStep S A (.makeMove i j al) (.ok none) (upd (upd A i (some (al.getD aj, xs))) j (some (aj, ys)))
  | moveFail {i j al aj xs ys e} : A i = none → A j = some (aj, xs) → S.moveFail xs ys →
      WStep S A (.makeMove i j al) (.threw e) (upd A j (some (aj, ys)))
  | moveSkip {i j al} : A i ≠ none ∨ A j = none → WStep S A (.makeMove i j al) .skipped A
  | destroy {i} : A i ≠ none → WStep S A (.destroy i) (.ok none) (upd A i none)
  | destroySkip {i} : A i = none → WStep S A (.destroy i) .skipped A
  | op {i o ai xs r xs'} : A i = some (ai, xs) → S.pre xs.length o = true → S.okStep xs o r xs' →
      WStep S A (.op i o) (.ok r) (upd A i (some (ai, xs')))
  | opFail {i o ai xs e xs'} : A i = some (ai, xs) → S.pre xs.length o = true → S.failStep xs o e xs' →
      WStep S A (.op i o) (.threw e) (upd A i (some (ai, xs')))
  | opSkip {i o} : (∀ ai xs, A i = some (ai, xs) → S.pre xs.length o = false) → WStep S A (.op i o) .skipped A
  | assignCopy {i j ai xs aj ys} : i ≠ j → A i = some (ai, xs) → A j = some (aj, ys) →
      S.copyPre ai aj xs.length ys.length = true →
      WStep S A (.assignCopy i j) (.ok none) (upd A i (some (if S.T.pocca = true then aj else ai, ys)))
  | assignCopyFail {i j ai xs aj ys xs' e} : i ≠ j → A i = some (ai, xs) → A j = some (aj, ys) →
      S.copyPre ai aj xs.length ys.length = true → S.assignFail xs' →
      WStep S A (.assignCopy i j) (.threw e) (upd A i (some (if S.T.pocca = true then aj else ai, xs')))
  | assignCopyEarly {i j ai xs aj ys e} : i ≠ j → A i = some (ai, xs) → A j = some (aj, ys) →
      S.copyPre ai aj xs.length ys.length = true → S.early = true → WStep S A (.assignCopy i j) (.threw e) A
  | assignCopySelf {i} : A i ≠ none → WStep S A (.assignCopy i i) (.ok none) A
  | assignCopySkip {i j} : (∀ ai xs aj ys, A i = some (ai, xs) → A j = some (aj, ys) →
      i ≠ j ∧ S.copyPre ai aj xs.length ys.length = false) → WStep S A (.assignCopy i j) .skipped A
  | assignMove {i j ai xs aj ys zs} : i ≠ j → A i = some (ai, xs) → A j = some (aj, ys) →
      S.movePre ai aj xs.length ys.length = true →
      S.left (S.takes || decide (ai = aj)) ys zs →
      WStep S A (.assignMove i j) (.ok none)
        (upd (upd A i (some (if S.T.pocma = true then aj else ai, ys))) j (some (aj, zs)))
  | assignMoveFail {i j ai xs aj ys xs' zs e} : i ≠ j → A i = some (ai, xs) → A j = some (aj, ys) →
      S.movePre ai aj xs.length ys.length = true → S.assignFail xs' →
      S.moveFail ys zs → WStep S A (.assignMove i j) (.threw e)
        (upd (upd A i (some (if S.T.pocma = true then aj else ai, xs'))) j (some (aj, zs)))
  | assignMoveEarly {i j ai xs aj ys e} : i ≠ j → A i = some (ai, xs) → A j = some (aj, ys) →
      S.movePre ai aj xs.length ys.length = true → S.early = true → WStep S A (.assignMove i j) (.threw e) A
  | assignMoveSkip {i j} : (∀ ai xs aj ys, A i = some (ai, xs) → A j = some (aj, ys) →
      i = j ∨ S.movePre ai aj xs.length ys.length = false) → WStep S A (.assignMove i j) .skipped A
  | swap {i j ai xs aj ys} : i ≠ j → A i = some (ai, xs) → A j = some (aj, ys) → S.swapPre ai aj = true →
      WStep S A (.swap i j) (.ok none) (upd (upd A i (some (if S.T.pocs = true then aj else ai, ys))) j
        (some (if S.T.pocs = true then ai else aj, xs)))
  | swapFail {i j ai xs aj ys xs' ys' e} : i ≠ j → A i = some (ai, xs) → A j = some (aj, ys) → S.swapPre ai aj = true →
      S.swapFail xs ys xs' ys' →
      WStep S A (.swap i j) (.threw e) (upd (upd A i (some (if S.T.pocs = true then aj else ai, xs'))) j
        (some (if S.T.pocs = true then ai else aj, ys')))
  | swapSelf {i} : A i ≠ none → WStep S A (.swap i i) (.ok none) A
  | swapSkip {i j} : (∀ ai xs aj ys, A i = some (ai, xs) → A j = some (aj, ys) → i ≠ j ∧ S.swapPre ai aj = false) →
      WStep S A (.swap i j) .skipped A

/-- A history of steps. -/
inductive WRun (S : Sem Op I α ρ) : Abs K α → List (WOp K Op I) → List (Out (Option ρ)) → Abs K α → Prop where
  | nil {A} : WRun S A [] [] A
  | cons {A B D op ops out outs} : WStep S A op out B → WRun S B ops outs D → WRun S A (op :: ops) (out :: outs) D

/-! ### The client program -/

/-- The functions of a container type, for the container in slot `i` (slots may have their own internal storage).
`copyInit` and `moveInit` run on freshly initialised data members `blank`. -/
structure Cont (K : Nat) (Op I V α : Type) (ρ : Type) where
  alloc : V → Nat
  blank : Fin K → Nat → V
  make : Fin K → I → M (Obj V α) Unit
  copyInit : Fin K → V → M (Obj V α) Unit
  moveInit : Fin K → Fin K → M (Obj (V × V) α) Unit
  destroy : Fin K → M (Obj V α) Unit
  size : M (Obj V α) Nat
  index : Nat → M (Obj V α) α
  exec : Fin K → Op → M (Obj V α) (Option ρ)
  assignCopy : Fin K → Fin K → V → M (Obj V α) Unit
  assignMove : Fin K → Fin K → M (Obj (V × V) α) Unit
  swap : Fin K → Fin K → M (Obj (V × V) α) Unit

/-- All containers of the program and the memory. -/
abbrev Slots (K : Nat) (V α : Type) : Type := Obj (Fin K → Option V) α

/-- Call a member function of the container in slot `i`, whose data members are `v`; exceptions are caught. -/
def call {β : Type} (i : Fin K) (v : V) (p : M (Obj V α) β) (f : β → Out (Option ρ)) : M (Slots K V α) (Out (Option ρ)) := fun o =>
  match p ⟨v, o.m⟩ with
  | .ok r o' => .ok (f r) ⟨upd o.obj i (some o'.obj), o'.m⟩
  | .exn e o' => .ok (.threw e) ⟨upd o.obj i (some o'.obj), o'.m⟩
  | .ub r => .ub r

/-- Call a function of the containers in slots `i` and `j`. -/
def call2 (i j : Fin K) (v w : V) (p : M (Obj (V × V) α) Unit) : M (Slots K V α) (Out (Option ρ)) := fun o =>
  match p ⟨(v, w), o.m⟩ with
  | .ok _ o' => .ok (.ok none) ⟨upd (upd o.obj i (some o'.obj.1)) j (some o'.obj.2), o'.m⟩
  | .exn e o' => .ok (.threw e) ⟨upd (upd o.obj i (some o'.obj.1)) j (some o'.obj.2), o'.m⟩
  | .ub r => .ub r

/-- Construct a container in slot `i`; if the constructor throws there is no container. -/
def create (i : Fin K) (v : V) (p : M (Obj V α) Unit) : M (Slots K V α) (Out (Option ρ)) := fun o =>
  match p ⟨v, o.m⟩ with
  | .ok _ o' => .ok (.ok none) ⟨upd o.obj i (some o'.obj), o'.m⟩
  | .exn e o' => .ok (.threw e) ⟨o.obj, o'.m⟩
  | .ub r => .ub r

/-- Construct a container in slot `i` from the one in slot `j`, which may change. -/
def create2 (i j : Fin K) (v w : V) (p : M (Obj (V × V) α) Unit) : M (Slots K V α) (Out (Option ρ)) := fun o =>
  match p ⟨(v, w), o.m⟩ with
  | .ok _ o' => .ok (.ok none) ⟨upd (upd o.obj i (some o'.obj.1)) j (some o'.obj.2), o'.m⟩
  | .exn e o' => .ok (.threw e) ⟨upd o.obj j (some o'.obj.2), o'.m⟩
  | .ub r => .ub r

/-- Destroy the container in slot `i`. -/
def delete (i : Fin K) (v : V) (p : M (Obj V α) Unit) : M (Slots K V α) (Out (Option ρ)) := fun o =>
  match p ⟨v, o.m⟩ with
  | .ok _ o' => .ok (.ok none) ⟨upd o.obj i none, o'.m⟩
  | .exn e o' => .ok (.threw e) ⟨upd o.obj i none, o'.m⟩
  | .ub r => .ub r

/-- Call an operation if its precondition holds for the current size. -/
def callOp (C : Cont K Op I V α ρ) (S : Sem Op I α ρ) (i : Fin K) (v : V) (x : Op) : M (Slots K V α) (Out (Option ρ)) := fun o =>
  match C.size ⟨v, o.m⟩ with
  | .ok n _ => if S.pre n x = true then call i v (C.exec i x) .ok o else .ok .skipped o
  | .exn e _ => .ok (.threw e) o
  | .ub r => .ub r

/-- Make a call if `p` holds for the current sizes of two containers. -/
def sized (C : Cont K Op I V α ρ) (v w : V) (p : Nat → Nat → Bool) (f : M (Slots K V α) (Out (Option ρ))) :
    M (Slots K V α) (Out (Option ρ)) := fun o =>
  match C.size ⟨v, o.m⟩ with
  | .ok n _ => match C.size ⟨w, o.m⟩ with
    | .ok k _ => if p n k = true then f o else .ok .skipped o
    | .exn e _ => .ok (.threw e) o
    | .ub r => .ub r
  | .exn e _ => .ok (.threw e) o
  | .ub r => .ub r

/-- One step of the client. Assigning or swapping a container with itself does nothing: vector.hpp:1156, 1581,
small_vector.hpp:1381, 1987 (and the corresponding tests of the other containers). Self move assignment is not
called. -/
def step (C : Cont K Op I V α ρ) (S : Sem Op I α ρ) (x : WOp K Op I) : M (Slots K V α) (Out (Option ρ)) := fun o =>
  match x with
  | .make i al init => match o.obj i with
    | none => if S.initPre init = true then create i (C.blank i al) (C.make i init) o else .ok .skipped o
    | some _ => .ok .skipped o
  | .makeCopy i j al => match o.obj i, o.obj j with
    | none, some w => create i (C.blank i (al.getD (S.T.soccc (C.alloc w)))) (C.copyInit i w) o
    | _, _ => .ok .skipped o
  | .makeMove i j al => match o.obj i, o.obj j with
    | none, some w => create2 i j (C.blank i (al.getD (C.alloc w))) w (C.moveInit i j) o
    | _, _ => .ok .skipped o
  | .destroy i => match o.obj i with
    | some v => delete i v (C.destroy i) o
    | none => .ok .skipped o
  | .op i x => match o.obj i with
    | some v => callOp C S i v x o
    | none => .ok .skipped o
  | .assignCopy i j => match o.obj i, o.obj j with
    | some v, some w =>
      if i = j then .ok (.ok none) o
      else sized C v w (S.copyPre (C.alloc v) (C.alloc w)) (call i v (C.assignCopy i j w) (fun _ => .ok none)) o
    | _, _ => .ok .skipped o
  | .assignMove i j => match o.obj i, o.obj j with
    | some v, some w =>
      if i = j then .ok .skipped o
      else sized C v w (S.movePre (C.alloc v) (C.alloc w)) (call2 i j v w (C.assignMove i j)) o
    | _, _ => .ok .skipped o
  | .swap i j => match o.obj i, o.obj j with
    | some v, some w =>
      if i = j then .ok (.ok none) o
      else if S.swapPre (C.alloc v) (C.alloc w) = true then call2 i j v w (C.swap i j) o else .ok .skipped o
    | _, _ => .ok .skipped o

/-- A client performing the steps one after the other. -/
def runOps (C : Cont K Op I V α ρ) (S : Sem Op I α ρ) : List (WOp K Op I) → M (Slots K V α) (List (Out (Option ρ)))
  | [] => pure []
  | x :: xs => do
    let r ← step C S x
    let rs ← runOps C S xs
    pure (r :: rs)

/-- Read `c[i], …, c[i + n - 1]`. -/
def readFrom (C : Cont K Op I V α ρ) (i : Nat) : Nat → M (Obj V α) (List α)
  | 0 => pure []
  | n + 1 => do
    let v ← C.index i
    let vs ← readFrom C (i + 1) n
    pure (v :: vs)

/-- Read a whole container through `size()` and `operator[]`. -/
def contents (C : Cont K Op I V α ρ) : M (Obj V α) (List α) := do
  let n ← C.size
  readFrom C 0 n

/-- Look at the container in slot `i`: its allocator and its elements. -/
def look (C : Cont K Op I V α ρ) (i : Fin K) : M (Slots K V α) (Option (Nat × List α)) := fun o =>
  match o.obj i with
  | none => .ok none o
  | some v => match contents C ⟨v, o.m⟩ with
    | .ok xs _ => .ok (some (C.alloc v, xs)) o
    | .exn e _ => .exn e o
    | .ub r => .ub r

/-- Look at all slots in the list. -/
def lookAll (C : Cont K Op I V α ρ) : List (Fin K) → M (Slots K V α) (List (Option (Nat × List α)))
  | [] => pure []
  | i :: is => do
    let r ← look C i
    let rs ← lookAll C is
    pure (r :: rs)

/-- A complete program: perform the steps, look at all containers, destroy those that are left. -/
def session (C : Cont K Op I V α ρ) (S : Sem Op I α ρ) (ops : List (WOp K Op I)) :
    M (Slots K V α) (List (Out (Option ρ)) × List (Option (Nat × List α))) := do
  let log ← runOps C S ops
  let obs ← lookAll C (List.finRange K)
  let _ ← runOps C S ((List.finRange K).map .destroy)
  pure (log, obs)

/-! ### From single functions to programs -/

/-- Footprints: sets of blocks. -/
abbrev Foot : Type := Nat → Prop

/-- A function that owns the blocks `F` leaves all other blocks alone and ends up owning the blocks `F'`. -/
structure Frame (m : St α) (F : Foot) (m' : St α) (F' : Foot) : Prop where
  wf : m'.Wf
  /-- foreign blocks stay foreign and unchanged -/
  keep : ∀ c, ¬ F c → m.blk c ≠ none → ¬ F' c ∧ m'.blk c = m.blk c ∧ ∀ k, m'.mem c k = m.mem c k
  /-- no block is leaked -/
  fresh : ∀ c, ¬ F c → m.blk c = none → ¬ F' c → m'.blk c = none
  /-- blocks no longer owned have been released -/
  freed : ∀ c, F c → ¬ F' c → m'.blk c = none

theorem Frame.refl {m : St α} {F : Foot} (h : m.Wf) : Frame m F m F :=
  ⟨h, fun _ hc _ => ⟨hc, rfl, fun _ => rfl⟩, fun _ _ h _ => h, fun _ h h' => absurd h h'⟩

/-- What a container type promises about its data members: `rep i m v al xs F` says that the container in slot `i`
with data members `v` has allocator `al`, holds `xs` and owns the blocks `F`. `raw i m` says that the storage for the
object in slot `i` is there, without elements; `dead i` are the blocks it consists of. -/
structure Rep (K : Nat) (V α : Type) where
  rep : Fin K → St α → V → Nat → List α → Foot → Prop
  raw : Fin K → St α → Prop
  dead : Fin K → Foot

/-- Side conditions on `Rep`. -/
structure Rep.Ok (R : Rep K V α) (C : Cont K Op I V α ρ) : Prop where
  live : ∀ {i m v al xs F}, R.rep i m v al xs F → ∀ c, F c → m.blk c ≠ none
  deadSub : ∀ {i m v al xs F}, R.rep i m v al xs F → ∀ c, R.dead i c → F c
  frame : ∀ {i m m' v al xs F}, m.Wf → m'.Wf → R.rep i m v al xs F →
    (∀ c, F c → m'.blk c = m.blk c ∧ ∀ k, m'.mem c k = m.mem c k) → R.rep i m' v al xs F
  alloc : ∀ {i m v al xs F}, R.rep i m v al xs F → C.alloc v = al
  rawLive : ∀ {i m}, R.raw i m → ∀ c, R.dead i c → m.blk c ≠ none
  rawFrame : ∀ {i m m'}, m.Wf → m'.Wf → R.raw i m → (∀ c, R.dead i c → m'.blk c = m.blk c ∧ ∀ k, m'.mem c k = m.mem c k) → R.raw i m'
  rawEq : ∀ {i m m'}, m.Wf → m'.Wf → R.raw i m → R.raw i m' → ∀ c, R.dead i c → m'.blk c = m.blk c ∧ ∀ k, m'.mem c k = m.mem c k

/-- Disjoint footprints. -/
def Disj (F G : Foot) : Prop := ∀ c, F c → ¬ G c

/-- Union of footprints. -/
def Both (F G : Foot) : Foot := fun c => F c ∨ G c

/-- The state after a function of one container. -/
def Rep.Now (R : Rep K V α) (i : Fin K) (m : St α) (F : Foot) (al : Nat) (xs : List α) (o' : Obj V α) : Prop :=
  ∃ F', R.rep i o'.m o'.obj al xs F' ∧ Frame m F o'.m F'

/-- The state after a function of two containers. -/
def Rep.Now2 (R : Rep K V α) (i j : Fin K) (m : St α) (F : Foot) (al1 : Nat) (xs1 : List α) (al2 : Nat) (xs2 : List α)
    (o' : Obj (V × V) α) : Prop :=
  ∃ F1 F2, R.rep i o'.m o'.obj.1 al1 xs1 F1 ∧ R.rep j o'.m o'.obj.2 al2 xs2 F2 ∧ Disj F1 F2 ∧
    Frame m F o'.m (Both F1 F2)

/-- Each function of the container type, called alone, does what the abstract meaning says and respects ownership. -/
structure Spec (C : Cont K Op I V α ρ) (S : Sem Op I α ρ) (R : Rep K V α) : Prop where
  ok : R.Ok C
  make : ∀ {i m al init}, m.Wf → R.raw i m → S.initPre init = true →
    wp (C.make i init) (fun _ o' => ∃ xs, R.Now i m (R.dead i) al xs o' ∧ S.init init xs)
      (fun e o' => (R.raw i o'.m ∧ Frame m (R.dead i) o'.m (R.dead i)) ∧ S.initFail init e) ⟨C.blank i al, m⟩
  copy : ∀ {i j m al w al2 xs2 F2}, i ≠ j → m.Wf → R.raw i m → R.rep j m w al2 xs2 F2 → Disj (R.dead i) F2 →
    wp (C.copyInit i w) (fun _ o' => R.Now i m (R.dead i) al xs2 o')
      (fun _ o' => R.raw i o'.m ∧ Frame m (R.dead i) o'.m (R.dead i)) ⟨C.blank i al, m⟩
  move : ∀ {i j m al w al2 xs2 F2}, i ≠ j → m.Wf → R.raw i m → R.rep j m w al2 xs2 F2 → Disj (R.dead i) F2 →
    wp (C.moveInit i j)
      (fun _ o' => ∃ ys, R.Now2 i j m (Both (R.dead i) F2) al xs2 al2 ys o' ∧ S.left (decide (al = al2)) xs2 ys)
      (fun _ o' => R.raw i o'.m ∧ ∃ ys F2', R.rep j o'.m o'.obj.2 al2 ys F2' ∧ Disj (R.dead i) F2' ∧
        Frame m (Both (R.dead i) F2) o'.m (Both (R.dead i) F2') ∧ S.moveFail xs2 ys)
      ⟨(C.blank i al, w), m⟩
  destroy : ∀ {i m v al xs F}, m.Wf → R.rep i m v al xs F →
    wp (C.destroy i) (fun _ o' => R.raw i o'.m ∧ Frame m F o'.m (R.dead i)) (fun _ _ => False) ⟨v, m⟩
  size : ∀ {i m v al xs F}, m.Wf → R.rep i m v al xs F →
    wp C.size (fun n o' => n = xs.length ∧ o' = ⟨v, m⟩) (fun _ _ => False) ⟨v, m⟩
  index : ∀ {i m v al xs F k x}, m.Wf → R.rep i m v al xs F → xs[k]? = some x →
    wp (C.index k) (fun r o' => r = x ∧ o' = ⟨v, m⟩) (fun _ _ => False) ⟨v, m⟩
  exec : ∀ {i m v al xs F op}, m.Wf → R.rep i m v al xs F → S.pre xs.length op = true →
    wp (C.exec i op) (fun r o' => ∃ xs', R.Now i m F al xs' o' ∧ S.okStep xs op r xs')
      (fun e o' => ∃ xs', R.Now i m F al xs' o' ∧ S.failStep xs op e xs') ⟨v, m⟩
  assignCopy : ∀ {i j m v al xs F w al2 xs2 F2}, i ≠ j → m.Wf → R.rep i m v al xs F → R.rep j m w al2 xs2 F2 → Disj F F2 →
    S.copyPre al al2 xs.length xs2.length = true →
    wp (C.assignCopy i j w) (fun _ o' => R.Now i m F (if S.T.pocca = true then al2 else al) xs2 o')
      (fun _ o' => (∃ xs', R.Now i m F (if S.T.pocca = true then al2 else al) xs' o' ∧ S.assignFail xs') ∨
        (S.early = true ∧ R.Now i m F al xs o')) ⟨v, m⟩
  assignMove : ∀ {i j m v al xs F w al2 xs2 F2}, i ≠ j → m.Wf → R.rep i m v al xs F → R.rep j m w al2 xs2 F2 → Disj F F2 →
    S.movePre al al2 xs.length xs2.length = true →
    wp (C.assignMove i j)
      (fun _ o' => ∃ ys, R.Now2 i j m (Both F F2) (if S.T.pocma = true then al2 else al) xs2 al2 ys o' ∧
        S.left (S.takes || decide (al = al2)) xs2 ys)
      (fun _ o' => (∃ xs' ys, R.Now2 i j m (Both F F2) (if S.T.pocma = true then al2 else al) xs' al2 ys o' ∧
        S.assignFail xs' ∧ S.moveFail xs2 ys) ∨
        (S.early = true ∧ R.Now2 i j m (Both F F2) al xs al2 xs2 o')) ⟨(v, w), m⟩
  swap : ∀ {i j m v al xs F w al2 xs2 F2}, i ≠ j → m.Wf → R.rep i m v al xs F → R.rep j m w al2 xs2 F2 → Disj F F2 →
    S.swapPre al al2 = true →
    wp (C.swap i j)
      (fun _ o' => R.Now2 i j m (Both F F2) (if S.T.pocs = true then al2 else al) xs2
        (if S.T.pocs = true then al else al2) xs o')
      (fun _ o' => ∃ xs' ys', R.Now2 i j m (Both F F2) (if S.T.pocs = true then al2 else al) xs'
        (if S.T.pocs = true then al else al2) ys' o' ∧ S.swapFail xs xs2 xs' ys') ⟨(v, w), m⟩

/-- What a slot holds. -/
def Rep.cell (R : Rep K V α) (i : Fin K) (m : St α) : Option V → Option (Nat × List α) → Foot → Prop
  | none, none, F => F = R.dead i ∧ R.raw i m
  | some v, some (al, xs), F => R.rep i m v al xs F
  | _, _, _ => False

/-- The invariant of a program that started in memory `m0`. -/
structure Inv (R : Rep K V α) (m0 : St α) (o : Slots K V α) (A : Abs K α) (F : Fin K → Foot) : Prop where
  wf : o.m.Wf
  wf0 : m0.Wf
  cell : ∀ i, R.cell i o.m (o.obj i) (A i) (F i)
  disj : ∀ i j, i ≠ j → Disj (F i) (F j)
  restBlk : ∀ c, (∀ i, ¬ F i c) → o.m.blk c = m0.blk c ∧ ∀ k, o.m.mem c k = m0.mem c k
  heap : ∀ i c, F i c → ¬ R.dead i c → m0.blk c = none
  deadNe : ∀ i c, R.dead i c → m0.blk c ≠ none

section
variable {R : Rep K V α} {C : Cont K Op I V α ρ} {S : Sem Op I α ρ} {m0 : St α}

theorem Rep.Ok.cellLive (hR : R.Ok C) {i : Fin K} {m : St α} {v : Option V} {a : Option (Nat × List α)} {F : Foot}
    (h : R.cell i m v a F) (c : Nat) (hc : F c) : m.blk c ≠ none := by
  unfold Rep.cell at h
  split at h
  · obtain ⟨rfl, h⟩ := h; exact hR.rawLive h c hc
  · exact hR.live h c hc
  · exact h.elim

theorem Rep.Ok.cellDead (hR : R.Ok C) {i : Fin K} {m : St α} {v : Option V} {a : Option (Nat × List α)} {F : Foot}
    (h : R.cell i m v a F) (c : Nat) (hc : R.dead i c) : F c := by
  unfold Rep.cell at h
  split at h
  · obtain ⟨rfl, h⟩ := h; exact hc
  · exact hR.deadSub h c hc
  · exact h.elim

theorem Rep.Ok.cellFrame (hR : R.Ok C) {i : Fin K} {m m' : St α} {v : Option V} {a : Option (Nat × List α)} {F : Foot}
    (hw : m.Wf) (hw' : m'.Wf) (h : R.cell i m v a F) (hm : ∀ c, F c → m'.blk c = m.blk c ∧ ∀ k, m'.mem c k = m.mem c k) : R.cell i m' v a F := by
  unfold Rep.cell at h ⊢
  split at h
  · obtain ⟨rfl, h⟩ := h; exact ⟨rfl, hR.rawFrame hw hw' h hm⟩
  · exact hR.frame hw hw' h hm
  · exact h.elim

/-- A step that concerns the slots `ch`. -/
theorem Inv.next (hR : R.Ok C) {o o' : Slots K V α} {A A' : Abs K α} {F F' : Fin K → Foot} (h : Inv R m0 o A F)
    (ch : Fin K → Prop) (hs : ∀ k, ¬ ch k → o'.obj k = o.obj k ∧ A' k = A k ∧ F' k = F k)
    (hc : ∀ k, ch k → R.cell k o'.m (o'.obj k) (A' k) (F' k))
    (hd : ∀ k l, ch k → ch l → k ≠ l → Disj (F' k) (F' l))
    (hf : Frame o.m (fun c => ∃ k, ch k ∧ F k c) o'.m (fun c => ∃ k, ch k ∧ F' k c)) : Inv R m0 o' A' F' := by
  -- blocks of the other slots
  have other : ∀ k, ¬ ch k → ∀ c, F k c → ¬ (∃ l, ch l ∧ F l c) ∧ o.m.blk c ≠ none := by
    intro k hk c hkc
    refine ⟨?_, hR.cellLive (h.cell k) c hkc⟩
    rintro ⟨l, hl, hlc⟩
    exact h.disj k l (fun e => hk (e ▸ hl)) c hkc hlc
  refine ⟨hf.wf, h.wf0, ?_, ?_, ?_, ?_, h.deadNe⟩
  · intro k
    by_cases hk : ch k
    · exact hc k hk
    · obtain ⟨e1, e2, e3⟩ := hs k hk
      rw [e1, e2, e3]
      exact hR.cellFrame h.wf hf.wf (h.cell k) fun c hkc => (hf.keep c (other k hk c hkc).1 (other k hk c hkc).2).2
  · intro k l hkl c hk hl
    by_cases ck : ch k
    · by_cases cl : ch l
      · exact hd k l ck cl hkl c hk hl
      · rw [(hs l cl).2.2] at hl
        exact (hf.keep c (other l cl c hl).1 (other l cl c hl).2).1 ⟨k, ck, hk⟩
    · rw [(hs k ck).2.2] at hk
      by_cases cl : ch l
      · exact (hf.keep c (other k ck c hk).1 (other k ck c hk).2).1 ⟨l, cl, hl⟩
      · rw [(hs l cl).2.2] at hl
        exact h.disj k l hkl c hk hl
  · intro c hn
    have hn' : ¬ ∃ k, ch k ∧ F' k c := fun ⟨k, _, hk⟩ => hn k hk
    by_cases hF : ∃ k, ch k ∧ F k c
    · have e1 := hf.freed c hF hn'
      obtain ⟨k, ck, hk⟩ := hF
      have nd : ¬ R.dead k c := fun hd => hn k (hR.cellDead (hc k ck) c hd)
      have e0 := h.heap k c hk nd
      refine ⟨by rw [e1, e0], fun i => ?_⟩
      rw [hf.wf.dead c e1, h.wf0.dead c e0]
    · have hnF : ∀ k, ¬ F k c := by
        intro k hk
        by_cases ck : ch k
        · exact hF ⟨k, ck, hk⟩
        · exact hn k (by rw [(hs k ck).2.2]; exact hk)
      obtain ⟨r1, r2⟩ := h.restBlk c hnF
      by_cases hb : o.m.blk c = none
      · have e1 := hf.fresh c hF hb hn'
        refine ⟨by rw [e1, ← r1, hb], fun i => ?_⟩
        rw [hf.wf.dead c e1, ← r2, h.wf.dead c hb]
      · obtain ⟨_, e1, e2⟩ := hf.keep c hF hb
        exact ⟨by rw [e1, r1], fun i => by rw [e2, r2]⟩
  · intro k c hk hnd
    by_cases ck : ch k
    · by_cases hF : ∃ l, ch l ∧ F l c
      · obtain ⟨l, cl, hl⟩ := hF
        by_cases hdl : R.dead l c
        · have := hR.cellDead (hc l cl) c hdl
          by_cases e : l = k
          · subst e; exact absurd hdl hnd
          · exact absurd hk (hd l k cl ck e c this)
        · exact h.heap l c hl hdl
      · have hb : o.m.blk c = none := by
          refine Classical.byContradiction fun hb => (hf.keep c hF hb).1 ⟨k, ck, hk⟩
        have hnF : ∀ l, ¬ F l c := fun l hl => hR.cellLive (h.cell l) c hl hb
        rw [← (h.restBlk c hnF).1]; exact hb
    · rw [(hs k ck).2.2] at hk
      exact h.heap k c hk hnd

theorem upd_same {β : Type} (f : Fin K → β) (i : Fin K) (x : β) : upd f i x i = x := by simp [upd]

theorem upd_ne {β : Type} (f : Fin K → β) {i k : Fin K} (x : β) (h : k ≠ i) : upd f i x k = f k := by simp [upd, h]

theorem upd_eq {β : Type} (f : Fin K → β) {i : Fin K} {x : β} (h : f i = x) : upd f i x = f := by
  funext k
  by_cases hk : k = i
  · subst hk; rw [upd_same, h]
  · rw [upd_ne _ _ hk]

/-- A step that concerns one slot. -/
theorem Inv.next1 (hR : R.Ok C) {o : Slots K V α} {A : Abs K α} {F : Fin K → Foot} (h : Inv R m0 o A F)
    {i : Fin K} {m' : St α} {s' : Option V} {a' : Option (Nat × List α)} {G : Foot}
    (hc : R.cell i m' s' a' G) (hf : Frame o.m (F i) m' G) :
    Inv R m0 ⟨upd o.obj i s', m'⟩ (upd A i a') (upd F i G) := by
  have e1 : (fun c => ∃ k, k = i ∧ F k c) = F i := by funext c; simp
  have e2 : (fun c => ∃ k, k = i ∧ upd F i G k c) = G := by funext c; simp [upd_same]
  refine h.next hR (fun k => k = i) ?_ ?_ ?_ (by rw [e1, e2]; exact hf)
  · intro k hk; exact ⟨upd_ne _ _ hk, upd_ne _ _ hk, upd_ne _ _ hk⟩
  · rintro k rfl
    simp only [upd_same]; exact hc
  · rintro k l rfl rfl hkl; exact absurd rfl hkl

/-- A step that concerns two slots. -/
theorem Inv.next2 (hR : R.Ok C) {o : Slots K V α} {A : Abs K α} {F : Fin K → Foot} (h : Inv R m0 o A F)
    {i j : Fin K} (hij : i ≠ j) {m' : St α} {s t : Option V} {a b : Option (Nat × List α)} {G1 G2 : Foot}
    (hc1 : R.cell i m' s a G1) (hc2 : R.cell j m' t b G2) (hd : Disj G1 G2)
    (hf : Frame o.m (Both (F i) (F j)) m' (Both G1 G2)) :
    Inv R m0 ⟨upd (upd o.obj i s) j t, m'⟩ (upd (upd A i a) j b) (upd (upd F i G1) j G2) := by
  have e1 : (fun c => ∃ k, (k = i ∨ k = j) ∧ F k c) = Both (F i) (F j) := by funext c; simp [Both]
  have e2 : (fun c => ∃ k, (k = i ∨ k = j) ∧ upd (upd F i G1) j G2 k c) = Both G1 G2 := by
    funext c
    simp [Both, upd_same, upd_ne _ _ hij]
  refine h.next hR (fun k => k = i ∨ k = j) ?_ ?_ ?_ (by rw [e1, e2]; exact hf)
  · intro k hk
    obtain ⟨h1, h2⟩ := not_or.mp hk
    simp [upd_ne _ _ h1, upd_ne _ _ h2]
  · rintro k (rfl | rfl)
    · simp only [upd_ne _ _ hij, upd_same]; exact hc1
    · simp only [upd_same]; exact hc2
  · rintro k l (rfl | rfl) (rfl | rfl) hkl
    · exact absurd rfl hkl
    · simp only [upd_ne _ _ hij, upd_same]; exact hd
    · simp only [upd_ne _ _ hij, upd_same]; exact fun c h1 h2 => hd c h2 h1
    · exact absurd rfl hkl

/-- An empty slot. -/
theorem Inv.emptyAt {o : Slots K V α} {A : Abs K α} {F : Fin K → Foot} (h : Inv R m0 o A F) {i : Fin K}
    (hi : o.obj i = none) : A i = none ∧ F i = R.dead i ∧ R.raw i o.m := by
  have := h.cell i
  rw [hi] at this
  unfold Rep.cell at this
  split at this
  · rename_i e; exact ⟨e, this.1, this.2⟩
  · simp_all
  · exact this.elim

/-- A slot with a container. -/
theorem Inv.liveAt {o : Slots K V α} {A : Abs K α} {F : Fin K → Foot} (h : Inv R m0 o A F) {i : Fin K} {v : V}
    (hi : o.obj i = some v) : ∃ al xs, A i = some (al, xs) ∧ R.rep i o.m v al xs (F i) := by
  have := h.cell i
  rw [hi] at this
  unfold Rep.cell at this
  split at this
  · simp_all
  · rename_i e1 e2
    cases e1
    exact ⟨_, _, e2, this⟩
  · exact this.elim

theorem sized_eq (hS : Spec C S R) {i j : Fin K} {o : Slots K V α} {v w : V} {al aj : Nat} {xs ys : List α} {F F2 : Foot}
    (hw : o.m.Wf) (h1 : R.rep i o.m v al xs F) (h2 : R.rep j o.m w aj ys F2) (p : Nat → Nat → Bool)
    (f : M (Slots K V α) (Out (Option ρ))) :
    sized C v w p f o = if p xs.length ys.length = true then f o else .ok .skipped o := by
  have a := hS.size hw h1
  have b := hS.size hw h2
  unfold wp at a b
  unfold sized
  cases ha : C.size ⟨v, o.m⟩ with
  | ok n o' =>
    rw [ha] at a
    cases hb : C.size ⟨w, o.m⟩ with
    | ok k o' => rw [hb] at b; obtain ⟨rfl, -⟩ := a; obtain ⟨rfl, -⟩ := b; rfl
    | exn e o' => rw [hb] at b; exact b.elim
    | ub r => rw [hb] at b; exact b.elim
  | exn e o' => rw [ha] at a; exact a.elim
  | ub r => rw [ha] at a; exact a.elim

/-- Every step of the client does what the abstract meaning says. -/
theorem Spec.step (hS : Spec C S R) {o : Slots K V α} {A : Abs K α} {F : Fin K → Foot} (h : Inv R m0 o A F)
    (x : WOp K Op I) :
    wp (step C S x) (fun out o' => ∃ A' F', Inv R m0 o' A' F' ∧ WStep S A x out A') (fun _ _ => False) o := by
  have hR := hS.ok
  have skip : ∀ {out : Out (Option ρ)}, WStep S A x out A → ∃ A' F', Inv R m0 o A' F' ∧ WStep S A x out A' :=
    fun w => ⟨A, F, h, w⟩
  unfold wp World.step
  cases x with
  | make i al init =>
    dsimp only
    cases hi : o.obj i with
    | some v =>
      obtain ⟨al', xs, h1, -⟩ := h.liveAt hi
      exact skip (.makeSkip (Or.inl (by simp [h1])))
    | none =>
      obtain ⟨h1, h2, h3⟩ := h.emptyAt hi
      by_cases hq : S.initPre init = true
      case neg => simp only [if_neg hq]; exact skip (.makeSkip (Or.inr (by simpa using hq)))
      simp only [if_pos hq]
      have := hS.make (al := al) (init := init) h.wf h3 hq
      unfold wp at this
      simp only [create]
      cases hp : C.make i init ⟨C.blank i al, o.m⟩ with
      | ok r o' =>
        rw [hp] at this
        obtain ⟨xs, ⟨F', k1, k2⟩, k3⟩ := this
        exact ⟨_, _, h.next1 hR (s' := some o'.obj) (a' := some (al, xs)) k1 (h2 ▸ k2), .make h1 hq k3⟩
      | exn e o' =>
        rw [hp] at this
        obtain ⟨⟨k1, k2⟩, k3⟩ := this
        have := h.next1 hR (i := i) (s' := none) (a' := none) ⟨rfl, k1⟩ (h2 ▸ k2)
        rw [upd_eq _ hi, upd_eq _ h1] at this
        exact ⟨_, _, this, .makeFail h1 hq k3⟩
      | ub r => rw [hp] at this; exact this
  | makeCopy i j al =>
    dsimp only
    cases hi : o.obj i with
    | some v =>
      obtain ⟨al', xs, h1, -⟩ := h.liveAt hi
      cases o.obj j <;> exact skip (.copySkip (Or.inl (by simp [h1])))
    | none =>
      obtain ⟨h1, h2, h3⟩ := h.emptyAt hi
      cases hj : o.obj j with
      | none => exact skip (.copySkip (Or.inr (h.emptyAt hj).1))
      | some w =>
        obtain ⟨aj, ys, j1, j2⟩ := h.liveAt hj
        have hij : i ≠ j := fun e => by rw [e, hj] at hi; simp at hi
        have := hS.copy (al := al.getD (S.T.soccc (C.alloc w))) hij h.wf h3 j2 (h2 ▸ h.disj i j hij)
        unfold wp at this
        simp only [create]
        cases hp : C.copyInit i w ⟨C.blank i (al.getD (S.T.soccc (C.alloc w))), o.m⟩ with
        | ok r o' =>
          rw [hp] at this
          obtain ⟨F', k1, k2⟩ := this
          refine ⟨_, _, h.next1 hR (i := i) (s' := some o'.obj) (a' := some (_, ys)) k1 (h2 ▸ k2), ?_⟩
          rw [hR.alloc j2]
          exact .copy h1 j1
        | exn e o' =>
          rw [hp] at this
          obtain ⟨k1, k2⟩ := this
          have := h.next1 hR (i := i) (s' := none) (a' := none) ⟨rfl, k1⟩ (h2 ▸ k2)
          rw [upd_eq _ hi, upd_eq _ h1] at this
          exact ⟨_, _, this, .copyFail h1 (by simp [j1])⟩
        | ub r => rw [hp] at this; exact this
  | makeMove i j al =>
    dsimp only
    cases hi : o.obj i with
    | some v =>
      obtain ⟨al', xs, h1, -⟩ := h.liveAt hi
      cases o.obj j <;> exact skip (.moveSkip (Or.inl (by simp [h1])))
    | none =>
      obtain ⟨h1, h2, h3⟩ := h.emptyAt hi
      cases hj : o.obj j with
      | none => exact skip (.moveSkip (Or.inr (h.emptyAt hj).1))
      | some w =>
        obtain ⟨aj, ys, j1, j2⟩ := h.liveAt hj
        have hij : i ≠ j := fun e => by rw [e, hj] at hi; simp at hi
        have := hS.move (al := al.getD (C.alloc w)) hij h.wf h3 j2 (h2 ▸ h.disj i j hij)
        have ha := hR.alloc j2
        unfold wp at this
        simp only [create2]
        rw [ha] at this ⊢
        cases hp : C.moveInit i j ⟨(C.blank i (al.getD aj), w), o.m⟩ with
        | ok r o' =>
          rw [hp] at this
          obtain ⟨zs, ⟨F1, F2, k1, k2, k3, k4⟩, k5⟩ := this
          exact ⟨_, _, h.next2 hR hij (s := some o'.obj.1) (t := some o'.obj.2) (a := some (_, ys)) (b := some (aj, zs))
            k1 k2 k3 (h2 ▸ k4), .move h1 j1 k5⟩
        | exn e o' =>
          rw [hp] at this
          obtain ⟨k1, zs, F2, k2, k3, k4, k5⟩ := this
          have := h.next2 hR hij (s := none) (t := some o'.obj.2) (a := none) (b := some (aj, zs))
            ⟨rfl, k1⟩ k2 k3 (h2 ▸ k4)
          rw [upd_eq _ hi, upd_eq _ h1] at this
          exact ⟨_, _, this, .moveFail h1 j1 k5⟩
        | ub r => rw [hp] at this; exact this
  | destroy i =>
    dsimp only
    cases hi : o.obj i with
    | none => exact skip (.destroySkip (h.emptyAt hi).1)
    | some v =>
      obtain ⟨al, xs, h1, h2⟩ := h.liveAt hi
      have := hS.destroy h.wf h2
      unfold wp at this
      simp only [delete]
      cases hp : C.destroy i ⟨v, o.m⟩ with
      | ok r o' =>
        rw [hp] at this
        obtain ⟨k1, k2⟩ := this
        exact ⟨_, _, h.next1 hR (i := i) (s' := none) (a' := none) ⟨rfl, k1⟩ k2, .destroy (by simp [h1])⟩
      | exn e o' => rw [hp] at this; exact this.elim
      | ub r => rw [hp] at this; exact this
  | op i x =>
    dsimp only
    cases hi : o.obj i with
    | none => exact skip (.opSkip (by simp [(h.emptyAt hi).1]))
    | some v =>
      obtain ⟨al, xs, h1, h2⟩ := h.liveAt hi
      have hz := hS.size h.wf h2
      unfold wp at hz
      simp only [callOp]
      cases hp : C.size ⟨v, o.m⟩ with
      | ok n o' =>
        rw [hp] at hz
        obtain ⟨rfl, rfl⟩ := hz
        simp only
        by_cases hx : S.pre xs.length x = true
        · rw [if_pos hx]
          have := hS.exec h.wf h2 hx
          unfold wp at this
          simp only [call]
          cases hq : C.exec i x ⟨v, o.m⟩ with
          | ok r o' =>
            rw [hq] at this
            obtain ⟨xs', ⟨F', k1, k2⟩, k3⟩ := this
            exact ⟨_, _, h.next1 hR (i := i) (s' := some o'.obj) (a' := some (al, xs')) k1 k2, .op h1 hx k3⟩
          | exn e o' =>
            rw [hq] at this
            obtain ⟨xs', ⟨F', k1, k2⟩, k3⟩ := this
            exact ⟨_, _, h.next1 hR (i := i) (s' := some o'.obj) (a' := some (al, xs')) k1 k2, .opFail h1 hx k3⟩
          | ub r => rw [hq] at this; exact this
        · rw [if_neg hx]
          refine skip (.opSkip ?_)
          intro ai ys he
          rw [h1] at he
          cases he
          simpa using hx
      | exn e o' => rw [hp] at hz; exact hz.elim
      | ub r => rw [hp] at hz; exact hz
  | assignCopy i j =>
    dsimp only
    cases hi : o.obj i with
    | none =>
      cases o.obj j <;> exact skip (.assignCopySkip (by simp [(h.emptyAt hi).1]))
    | some v =>
      obtain ⟨al, xs, h1, h2⟩ := h.liveAt hi
      cases hj : o.obj j with
      | none => exact skip (.assignCopySkip (by simp [(h.emptyAt hj).1]))
      | some w =>
        obtain ⟨aj, ys, j1, j2⟩ := h.liveAt hj
        simp only
        by_cases hij : i = j
        · subst hij
          rw [if_pos rfl]
          exact skip (.assignCopySelf (by simp [h1]))
        · rw [if_neg hij, hR.alloc h2, hR.alloc j2, sized_eq hS h.wf h2 j2]
          by_cases hp : S.copyPre al aj xs.length ys.length = true
          · rw [if_pos hp]
            have := hS.assignCopy hij h.wf h2 j2 (h.disj i j hij) hp
            unfold wp at this
            simp only [call]
            cases hq : C.assignCopy i j w ⟨v, o.m⟩ with
            | ok r o' =>
              rw [hq] at this
              obtain ⟨F', k1, k2⟩ := this
              exact ⟨_, _, h.next1 hR (i := i) (s' := some o'.obj) (a' := some (_, ys)) k1 k2, .assignCopy hij h1 j1 hp⟩
            | exn e o' =>
              rw [hq] at this
              rcases this with ⟨xs', ⟨F', k1, k2⟩, k3⟩ | ⟨he, F', k1, k2⟩
              · exact ⟨_, _, h.next1 hR (i := i) (s' := some o'.obj) (a' := some (_, xs')) k1 k2,
                  .assignCopyFail hij h1 j1 hp k3⟩
              · have k := h.next1 hR (i := i) (s' := some o'.obj) (a' := some (_, xs)) k1 k2
                rw [← h1, upd_self] at k
                exact ⟨_, _, k, .assignCopyEarly hij h1 j1 hp he⟩
            | ub r => rw [hq] at this; exact this
          · rw [if_neg hp]
            refine skip (.assignCopySkip ?_)
            intro ai xs1 aj1 ys1 e1 e2
            rw [h1] at e1; rw [j1] at e2
            cases e1; cases e2
            exact ⟨hij, by simpa using hp⟩
  | assignMove i j =>
    dsimp only
    cases hi : o.obj i with
    | none =>
      cases o.obj j <;> exact skip (.assignMoveSkip (by simp [(h.emptyAt hi).1]))
    | some v =>
      obtain ⟨al, xs, h1, h2⟩ := h.liveAt hi
      cases hj : o.obj j with
      | none => exact skip (.assignMoveSkip (by simp [(h.emptyAt hj).1]))
      | some w =>
        obtain ⟨aj, ys, j1, j2⟩ := h.liveAt hj
        simp only
        by_cases hij : i = j
        · rw [if_pos hij]
          exact skip (.assignMoveSkip fun _ _ _ _ _ _ => Or.inl hij)
        · rw [if_neg hij, hR.alloc h2, hR.alloc j2, sized_eq hS h.wf h2 j2]
          by_cases hp : S.movePre al aj xs.length ys.length = true
          · rw [if_pos hp]
            have := hS.assignMove hij h.wf h2 j2 (h.disj i j hij) hp
            unfold wp at this
            simp only [call2]
            cases hq : C.assignMove i j ⟨(v, w), o.m⟩ with
            | ok r o' =>
              rw [hq] at this
              obtain ⟨zs, ⟨F1, F2, k1, k2, k3, k4⟩, k5⟩ := this
              exact ⟨_, _, h.next2 hR hij (s := some o'.obj.1) (t := some o'.obj.2) (a := some (_, ys)) (b := some (aj, zs))
                k1 k2 k3 k4, .assignMove hij h1 j1 hp k5⟩
            | exn e o' =>
              rw [hq] at this
              rcases this with ⟨xs', zs, ⟨F1, F2, k1, k2, k3, k4⟩, k5, k6⟩ | ⟨he, F1, F2, k1, k2, k3, k4⟩
              · exact ⟨_, _, h.next2 hR hij (s := some o'.obj.1) (t := some o'.obj.2) (a := some (_, xs'))
                  (b := some (aj, zs)) k1 k2 k3 k4, .assignMoveFail hij h1 j1 hp k5 k6⟩
              · have k := h.next2 hR hij (s := some o'.obj.1) (t := some o'.obj.2) (a := some (_, xs))
                  (b := some (aj, ys)) k1 k2 k3 k4
                rw [← h1, upd_self, ← j1, upd_self] at k
                exact ⟨_, _, k, .assignMoveEarly hij h1 j1 hp he⟩
            | ub r => rw [hq] at this; exact this
          · rw [if_neg hp]
            refine skip (.assignMoveSkip ?_)
            intro ai xs1 aj1 ys1 e1 e2
            rw [h1] at e1; rw [j1] at e2
            cases e1; cases e2
            exact Or.inr (by simpa using hp)
  | swap i j =>
    dsimp only
    cases hi : o.obj i with
    | none =>
      cases o.obj j <;> exact skip (.swapSkip (by simp [(h.emptyAt hi).1]))
    | some v =>
      obtain ⟨al, xs, h1, h2⟩ := h.liveAt hi
      cases hj : o.obj j with
      | none => exact skip (.swapSkip (by simp [(h.emptyAt hj).1]))
      | some w =>
        obtain ⟨aj, ys, j1, j2⟩ := h.liveAt hj
        simp only
        by_cases hij : i = j
        · subst hij
          rw [if_pos rfl]
          exact skip (.swapSelf (by simp [h1]))
        · rw [if_neg hij, hR.alloc h2, hR.alloc j2]
          by_cases hp : S.swapPre al aj = true
          · rw [if_pos hp]
            have := hS.swap hij h.wf h2 j2 (h.disj i j hij) hp
            unfold wp at this
            simp only [call2]
            cases hq : C.swap i j ⟨(v, w), o.m⟩ with
            | ok r o' =>
              rw [hq] at this
              obtain ⟨F1, F2, k1, k2, k3, k4⟩ := this
              exact ⟨_, _, h.next2 hR hij (s := some o'.obj.1) (t := some o'.obj.2) (a := some (_, ys)) (b := some (_, xs))
                k1 k2 k3 k4, .swap hij h1 j1 hp⟩
            | exn e o' =>
              rw [hq] at this
              obtain ⟨xs', zs, ⟨F1, F2, k1, k2, k3, k4⟩, k5⟩ := this
              exact ⟨_, _, h.next2 hR hij (s := some o'.obj.1) (t := some o'.obj.2) (a := some (_, xs')) (b := some (_, zs))
                k1 k2 k3 k4, .swapFail hij h1 j1 hp k5⟩
            | ub r => rw [hq] at this; exact this
          · rw [if_neg hp]
            refine skip (.swapSkip ?_)
            intro ai xs' aj' ys' e1 e2
            rw [h1] at e1
            rw [j1] at e2
            cases e1; cases e2
            exact ⟨hij, by simpa using hp⟩

theorem Spec.runOps (hS : Spec C S R) (ops : List (WOp K Op I)) :
    ∀ {o : Slots K V α} {A : Abs K α} {F : Fin K → Foot}, Inv R m0 o A F →
    wp (runOps C S ops) (fun log o' => ∃ A' F', Inv R m0 o' A' F' ∧ WRun S A ops log A') (fun _ _ => False) o := by
  induction ops with
  | nil => intro o A F h; exact ⟨A, F, h, .nil⟩
  | cons x xs ih =>
    intro o A F h
    unfold World.runOps
    rw [wp_bind]
    refine wp_mono (hS.step h x) ?_ (fun _ _ h => h)
    rintro out o1 ⟨A1, F1, h1, w1⟩
    rw [wp_bind]
    refine wp_mono (ih h1) ?_ (fun _ _ h => h)
    rintro outs o2 ⟨A2, F2, h2, w2⟩
    exact ⟨A2, F2, h2, .cons w1 w2⟩

theorem Spec.readFrom (hS : Spec C S R) {i : Fin K} {m : St α} {v : V} {al : Nat} {xs : List α} {F : Foot}
    (hw : m.Wf) (h : R.rep i m v al xs F) (n : Nat) : ∀ k, k + n = xs.length →
    wp (readFrom C k n) (fun vs o' => vs = xs.drop k ∧ o' = ⟨v, m⟩) (fun _ _ => False) ⟨v, m⟩ := by
  induction n with
  | zero =>
    intro k hk
    refine ⟨?_, rfl⟩
    rw [List.drop_of_length_le (by omega)]
  | succ n ih =>
    intro k hk
    unfold World.readFrom
    have hlt : k < xs.length := by omega
    rw [wp_bind]
    refine wp_mono (hS.index hw h (show xs[k]? = some xs[k] by simp [hlt])) ?_ (fun _ _ h => h)
    rintro _ _ ⟨rfl, rfl⟩
    rw [wp_bind]
    refine wp_mono (ih (k + 1) (by omega)) ?_ (fun _ _ h => h)
    rintro _ _ ⟨rfl, rfl⟩
    rw [wp_pure]
    exact ⟨by rw [← List.drop_eq_getElem_cons], rfl⟩

theorem Spec.contents (hS : Spec C S R) {i : Fin K} {m : St α} {v : V} {al : Nat} {xs : List α} {F : Foot}
    (hw : m.Wf) (h : R.rep i m v al xs F) :
    wp (contents C) (fun vs o' => vs = xs ∧ o' = ⟨v, m⟩) (fun _ _ => False) ⟨v, m⟩ := by
  unfold World.contents
  rw [wp_bind]
  refine wp_mono (hS.size hw h) ?_ (fun _ _ h => h)
  rintro _ _ ⟨rfl, rfl⟩
  simpa using hS.readFrom hw h xs.length 0 (by omega)

theorem Spec.look (hS : Spec C S R) {o : Slots K V α} {A : Abs K α} {F : Fin K → Foot} (h : Inv R m0 o A F) (i : Fin K) :
    wp (look C i) (fun r o' => r = A i ∧ o' = o) (fun _ _ => False) o := by
  unfold wp World.look
  cases hi : o.obj i with
  | none => exact ⟨(h.emptyAt hi).1.symm, rfl⟩
  | some v =>
    obtain ⟨al, xs, h1, h2⟩ := h.liveAt hi
    have := hS.contents h.wf h2
    unfold wp at this
    simp only
    cases hp : World.contents C ⟨v, o.m⟩ with
    | ok r o' =>
      rw [hp] at this
      obtain ⟨rfl, rfl⟩ := this
      exact ⟨by rw [h1, hS.ok.alloc h2], rfl⟩
    | exn e o' => rw [hp] at this; exact this.elim
    | ub r => rw [hp] at this; exact this

theorem Spec.lookAll (hS : Spec C S R) {o : Slots K V α} {A : Abs K α} {F : Fin K → Foot} (h : Inv R m0 o A F)
    (is : List (Fin K)) :
    wp (lookAll C is) (fun r o' => r = is.map A ∧ o' = o) (fun _ _ => False) o := by
  induction is with
  | nil => exact ⟨rfl, rfl⟩
  | cons i is ih =>
    unfold World.lookAll
    rw [wp_bind]
    refine wp_mono (hS.look h i) ?_ (fun _ _ h => h)
    rintro _ _ ⟨rfl, rfl⟩
    rw [wp_bind]
    refine wp_mono ih ?_ (fun _ _ h => h)
    rintro _ _ ⟨rfl, rfl⟩
    exact ⟨rfl, rfl⟩

theorem destroyed {is : List (Fin K)} : ∀ {A B : Abs K α} {log : List (Out (Option ρ))},
    WRun S A (is.map .destroy) log B → (∀ i, i ∈ is → B i = none) ∧ ∀ i, A i = none → B i = none := by
  induction is with
  | nil =>
    intro A B log h
    cases h
    exact ⟨by simp, fun _ h => h⟩
  | cons i is ih =>
    intro A B log h
    rw [List.map_cons] at h
    cases h with
    | cons w1 w2 =>
      obtain ⟨k1, k2⟩ := ih w2
      cases w1 with
      | destroy hi =>
        refine ⟨?_, ?_⟩
        · intro j hj
          rcases List.mem_cons.mp hj with rfl | hj
          · exact k2 _ (upd_same _ _ _)
          · exact k1 j hj
        · intro j hj
          by_cases e : j = i
          · subst e; exact k2 _ (upd_same _ _ _)
          · exact k2 j (by rw [upd_ne _ _ e]; exact hj)
      | destroySkip hi =>
        refine ⟨?_, k2⟩
        intro j hj
        rcases List.mem_cons.mp hj with rfl | hj
        · exact k2 _ hi
        · exact k1 j hj

/-- With all slots empty, the memory is what it was at the start. -/
theorem Inv.restored (hR : R.Ok C) {o : Slots K V α} {A : Abs K α} {F : Fin K → Foot} (h : Inv R m0 o A F)
    (h0 : ∀ i, R.raw i m0) (hA : ∀ i, A i = none) : o.m.mem = m0.mem ∧ o.m.blk = m0.blk := by
  have key : ∀ c, o.m.blk c = m0.blk c ∧ ∀ k, o.m.mem c k = m0.mem c k := by
    intro c
    by_cases hc : ∃ i, F i c
    · obtain ⟨i, hi⟩ := hc
      have := h.cell i
      rw [hA i] at this
      unfold Rep.cell at this
      split at this
      · rw [this.1] at hi
        exact hR.rawEq h.wf0 h.wf (h0 i) this.2 c hi
      · simp_all
      · exact this.elim
    · exact h.restBlk c (fun i hi => hc ⟨i, hi⟩)
  exact ⟨funext fun c => funext fun k => (key c).2 k, funext fun c => (key c).1⟩

/-- The invariant holds when no container exists. -/
theorem Spec.start (hS : Spec C S R) (hw : m0.Wf) (h0 : ∀ i, R.raw i m0)
    (hd : ∀ i j, i ≠ j → Disj (R.dead i) (R.dead j)) :
    Inv R m0 (⟨fun _ => none, m0⟩ : Slots K V α) (fun _ => none) R.dead :=
  ⟨hw, hw, fun i => ⟨rfl, h0 i⟩, hd, fun _ _ => ⟨rfl, fun _ => rfl⟩, fun _ _ h h' => absurd h h',
    fun i c hc => hS.ok.rawLive (h0 i) c hc⟩

/-- **Programs with several containers.** -/
theorem Spec.session_rep (hS : Spec C S R) (hw : m0.Wf) (h0 : ∀ i, R.raw i m0)
    (hd : ∀ i j, i ≠ j → Disj (R.dead i) (R.dead j)) (ops : List (WOp K Op I)) :
    ∃ log A o', session C S ops ⟨fun _ => none, m0⟩ = .ok (log, (List.finRange K).map A) o' ∧
      WRun S (fun _ => none) ops log A ∧ (o'.m.mem = m0.mem ∧ o'.m.blk = m0.blk) ∧
      ∀ i al xs, A i = some (al, xs) → ∃ m v F, R.rep i m v al xs F := by
  have h := hS.start hw h0 hd
  have : wp (World.session C S ops) (fun r o' => ∃ A : Abs K α, r.2 = (List.finRange K).map A ∧
      WRun S (fun _ => none) ops r.1 A ∧ (o'.m.mem = m0.mem ∧ o'.m.blk = m0.blk) ∧
      ∀ i al xs, A i = some (al, xs) → ∃ m v F, R.rep i m v al xs F) (fun _ _ => False)
      (⟨fun _ => none, m0⟩ : Slots K V α) := by
    unfold World.session
    rw [wp_bind]
    refine wp_mono (hS.runOps ops h) ?_ (fun _ _ h => h)
    rintro log o1 ⟨A, F, h1, w1⟩
    rw [wp_bind]
    refine wp_mono (hS.lookAll h1 _) ?_ (fun _ _ h => h)
    rintro obs _ ⟨rfl, rfl⟩
    rw [wp_bind]
    refine wp_mono (hS.runOps _ h1) ?_ (fun _ _ h => h)
    rintro log2 o2 ⟨B, F2, h2, w2⟩
    rw [wp_pure]
    refine ⟨A, rfl, w1, h2.restored hS.ok h0 fun i => (destroyed w2).1 i (List.mem_finRange i), fun i al xs hi => ?_⟩
    have hc := h1.cell i
    rw [hi] at hc
    unfold Rep.cell at hc
    split at hc
    · rename_i e; cases e
    · rename_i e; cases e; exact ⟨_, _, _, hc⟩
    · exact hc.elim
  unfold wp at this
  cases hp : World.session C S ops (⟨fun _ => none, m0⟩ : Slots K V α) with
  | ok r o' =>
    rw [hp] at this
    obtain ⟨A, h1, h2, h3⟩ := this
    exact ⟨r.1, A, o', by rw [← h1], h2, h3⟩
  | exn e o' => rw [hp] at this; exact this.elim
  | ub r => rw [hp] at this; exact this.elim

/-- Programs of containers that satisfy `Spec` run without undefined behaviour, as specified, and restore memory. -/
theorem Spec.session (hS : Spec C S R) (hw : m0.Wf) (h0 : ∀ i, R.raw i m0)
    (hd : ∀ i j, i ≠ j → Disj (R.dead i) (R.dead j)) (ops : List (WOp K Op I)) :
    ∃ log A o', session C S ops ⟨fun _ => none, m0⟩ = .ok (log, (List.finRange K).map A) o' ∧
      WRun S (fun _ => none) ops log A ∧ o'.m.mem = m0.mem ∧ o'.m.blk = m0.blk := by
  obtain ⟨log, A, o', h1, h2, h3, -⟩ := hS.session_rep hw h0 hd ops
  exact ⟨log, A, o', h1, h2, h3⟩

/-- `o` is a container (its data members and the memory) in slot `i` after some program. -/
def Reached (C : Cont K Op I V α ρ) (S : Sem Op I α ρ) (m0 : St α) (i : Fin K) (o : Obj V α) : Prop :=
  ∃ ops log s v, World.runOps C S ops ⟨fun _ => none, m0⟩ = .ok log s ∧ s.obj i = some v ∧ o = ⟨v, s.m⟩

theorem Reached.rep {i : Fin K} {o : Obj V α} (h : Reached C S m0 i o) (hS : Spec C S R) {F : Fin K → Foot}
    (hi : Inv R m0 (⟨fun _ => none, m0⟩ : Slots K V α) (fun _ => none) F) :
    o.m.Wf ∧ ∃ al xs F, R.rep i o.m o.obj al xs F := by
  obtain ⟨ops, log, s, v, h1, h2, rfl⟩ := h
  obtain ⟨A, F, k, -⟩ := wp_ok h1 (hS.runOps ops hi)
  have hc := k.cell i
  rw [h2] at hc
  unfold Rep.cell at hc
  split at hc
  · rename_i e _; cases e
  · rename_i e _; cases e; exact ⟨k.wf, _, _, _, hc⟩
  · exact hc.elim
end

end Sfl.World
