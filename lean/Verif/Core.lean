/-
  Memory model, programs with exceptions and undefined behaviour.

  C++ source modelled here: the language-level operations used by
  /repo/include/sfl/private.hpp (construct_at_a, destroy_at_a, allocate,
  deallocate, lines 1239-1277) and assignment of elements.
-/

namespace Sfl

/-- Exceptions that can leave a library function.
`lengthError`/`outOfRange`: private.hpp:2377-2398. `badAlloc`: allocator failure
(private.hpp:1239-1247). `elem`: thrown by an operation of the element type. -/
inductive Exn where
  | lengthError | outOfRange | badAlloc | elem
  deriving DecidableEq, Repr

/-- Kinds of undefined behaviour the model distinguishes. (No code counterpart:
this is the C++ standard's list of things the library must not do.) -/
inductive UB where
  | constructOverLive | destroyRaw | readRaw | assignRaw | outOfBounds
  | badRange | badDealloc | leak | assertFailed
  deriving DecidableEq, Repr

/-- Result of running a program: normal return, exception, undefined behaviour. -/
inductive Res (σ β : Type) where
  | ok (b : β) (s : σ)
  | exn (e : Exn) (s : σ)
  | ub (r : UB)

/-- Programs over a state `σ`. -/
def M (σ β : Type) : Type := σ → Res σ β

namespace M
variable {σ β γ : Type}

protected def pure (b : β) : M σ β := fun s => .ok b s

protected def bind (m : M σ β) (f : β → M σ γ) : M σ γ := fun s =>
  match m s with
  | .ok b s' => f b s'
  | .exn e s' => .exn e s'
  | .ub r => .ub r

instance : Monad (M σ) where
  pure := M.pure
  bind := M.bind

/-- `throw` (private.hpp SFL_RETHROW, throw_length_error 2377, throw_out_of_range 2389). -/
def throw (e : Exn) : M σ β := fun s => .exn e s

/-- Undefined behaviour. -/
def undef (r : UB) : M σ β := fun _ => .ub r

/-- `try { m } catch (...) { h }`; undefined behaviour is not caught. -/
def tryCatch (m : M σ β) (h : Exn → M σ β) : M σ β := fun s =>
  match m s with
  | .ok b s' => .ok b s'
  | .exn e s' => h e s'
  | .ub r => .ub r

def get : M σ σ := fun s => .ok s s
def set (s : σ) : M σ Unit := fun _ => .ok () s
def modify (f : σ → σ) : M σ Unit := fun s => .ok () (f s)

/-- `SFL_ASSERT(c)`: a violated precondition is undefined behaviour (private.hpp SFL_ASSERT). -/
def assert (c : Prop) [Decidable c] : M σ Unit := fun s =>
  if c then .ok () s else .ub .assertFailed

end M

/-- Weakest precondition: `m` run in `s` returns normally with `Q`, or throws with `X`,
and has no undefined behaviour. -/
def wp {σ β : Type} (m : M σ β) (Q : β → σ → Prop) (X : Exn → σ → Prop) (s : σ) : Prop :=
  match m s with
  | .ok b s' => Q b s'
  | .exn e s' => X e s'
  | .ub _ => False

section wp
variable {σ τ β γ : Type} {Q : β → σ → Prop} {X : Exn → σ → Prop} {s : σ}

theorem wp_bind {m : M σ β} {f : β → M σ γ} {Q : γ → σ → Prop} :
    wp (m >>= f) Q X s = wp m (fun b s' => wp (f b) Q X s') X s := by
  show wp (M.bind m f) Q X s = _
  unfold wp M.bind
  cases h : m s <;> rfl

theorem wp_pure {b : β} : wp (pure b : M σ β) Q X s = Q b s := rfl

theorem wp_throw {e : Exn} : wp (M.throw e : M σ β) Q X s = X e s := rfl

theorem wp_undef {r : UB} : wp (M.undef r : M σ β) Q X s = False := rfl

theorem wp_tryCatch {m : M σ β} {h : Exn → M σ β} :
    wp (M.tryCatch m h) Q X s = wp m Q (fun e s' => wp (h e) Q X s') s := by
  unfold wp M.tryCatch
  cases h' : m s <;> rfl

theorem wp_get {Q : σ → σ → Prop} : wp (M.get : M σ σ) Q X s = Q s s := rfl

theorem wp_set {s' : σ} {Q : Unit → σ → Prop} : wp (M.set s') Q X s = Q () s' := rfl

theorem wp_modify {f : σ → σ} {Q : Unit → σ → Prop} : wp (M.modify f) Q X s = Q () (f s) := rfl

theorem wp_assert {c : Prop} [Decidable c] {Q : Unit → σ → Prop} :
    wp (M.assert c) Q X s = (c ∧ Q () s) := by
  unfold wp M.assert
  by_cases h : c <;> simp [h]

theorem wp_ite {c : Prop} [Decidable c] {m₁ m₂ : M σ β} :
    wp (if c then m₁ else m₂) Q X s = if c then wp m₁ Q X s else wp m₂ Q X s := by
  split <;> rfl

theorem wp_dite {c : Prop} [Decidable c] {m₁ : c → M σ β} {m₂ : ¬ c → M σ β} :
    wp (dite c m₁ m₂) Q X s = dite c (fun h => wp (m₁ h) Q X s) (fun h => wp (m₂ h) Q X s) := by
  split <;> rfl

theorem wp_mono {m : M σ β} {Q Q' : β → σ → Prop} {X X' : Exn → σ → Prop}
    (h : wp m Q X s) (hQ : ∀ b s', Q b s' → Q' b s') (hX : ∀ e s', X e s' → X' e s') :
    wp m Q' X' s := by
  unfold wp at *
  cases hm : m s with
  | ok b s' => rw [hm] at h; exact hQ _ _ h
  | exn e s' => rw [hm] at h; exact hX _ _ h
  | ub r => rw [hm] at h; exact h

theorem wp_ok {m : M σ β} {b : β} {s' : σ} (hm : m s = .ok b s') (h : wp m Q X s) : Q b s' := by
  unfold wp at h; rw [hm] at h; exact h

theorem wp_exn {m : M σ β} {e : Exn} {s' : σ} (hm : m s = .exn e s') (h : wp m Q X s) : X e s' := by
  unfold wp at h; rw [hm] at h; exact h

theorem wp_not_ub {m : M σ β} {r : UB} (h : wp m Q X s) : m s ≠ .ub r := by
  intro hm; unfold wp at h; rw [hm] at h; exact h

end wp

/-! ### Memory -/

/-- A pointer into a block. `nullptr` is block 0, offset 0; block 0 is never allocated. -/
structure Ptr where
  blk : Nat
  off : Nat
  deriving DecidableEq, Repr

namespace Ptr
def null : Ptr := ⟨0, 0⟩
/-- `p + n`. Pointer arithmetic leaving the block is not flagged until the pointer is used. -/
def add (p : Ptr) (n : Nat) : Ptr := ⟨p.blk, p.off + n⟩
/-- `p - n`. Going below the start of the block yields a null pointer, so that using it is flagged. -/
def sub (p : Ptr) (n : Nat) : Ptr := if n ≤ p.off then ⟨p.blk, p.off - n⟩ else null

@[simp, grind =] theorem null_blk : null.blk = 0 := rfl
@[simp, grind =] theorem null_off : null.off = 0 := rfl
@[simp, grind =] theorem add_blk (p : Ptr) (n : Nat) : (p.add n).blk = p.blk := rfl
@[simp, grind =] theorem add_off (p : Ptr) (n : Nat) : (p.add n).off = p.off + n := rfl
theorem sub_of_le {p : Ptr} {n : Nat} (h : n ≤ p.off) : p.sub n = ⟨p.blk, p.off - n⟩ := by
  simp [sub, h]
end Ptr

/-- Block descriptor: number of element slots and the allocator that owns it
(`none`: storage inside a container object, never given to an allocator). -/
structure Info where
  size : Nat
  alloc : Option Nat
  deriving DecidableEq, Repr

/-- Machine state: cells (`none` = raw storage, `some v` = live object with value `v`),
block table, next fresh block id, number of potentially throwing operations so far. -/
structure St (α : Type) where
  mem : Nat → Nat → Option α
  blk : Nat → Option Info
  next : Nat
  tick : Nat

/-- Behaviour of the element type, the allocator and the exception schedule. All
theorems quantify over it.
* `throws t`: does the `t`-th potentially throwing operation throw?
* `moved v`: value left in the source by a successful move.
* `failSrc`, `failDst`: arbitrary values left behind by a throwing move/assignment.
* `nothrowMoveCtor`, `copyable`: select the branch of `std::move_if_noexcept`.
* `dflt`: the value-initialised element. `maxSize`: `max_size()`. -/
structure Env (α : Type) where
  throws : Nat → Bool
  moved : α → α
  failSrc : Nat → α → α
  failDst : Nat → α → α → α
  nothrowMoveCtor : Bool
  nothrowMoveAssign : Bool
  copyable : Bool
  dflt : α
  maxSize : Nat

/-- How an element is initialised or assigned: from a value outside the container,
from an expiring value outside the container (`std::move(tmp)`),
a const reference (read when used, so it may alias), `std::move(*p)`,
`std::move_if_noexcept(*p)`. -/
inductive Arg (α : Type) where
  | val (v : α)
  | rv (v : α)
  | ref (p : Ptr)
  | mv (p : Ptr)
  | mvIf (p : Ptr)

variable {α : Type}

namespace St
/-- Overwrite one cell. -/
def put (s : St α) (p : Ptr) (c : Option α) : St α :=
  { s with mem := fun b k => if b = p.blk ∧ k = p.off then c else s.mem b k }
def bump (s : St α) : St α := { s with tick := s.tick + 1 }
def at' (s : St α) (p : Ptr) : Option α := s.mem p.blk p.off

/-- Slot `p` lies inside an existing block. -/
def inB (s : St α) (p : Ptr) : Bool :=
  match s.blk p.blk with
  | none => false
  | some i => decide (p.off < i.size)
end St

/-- Value an argument currently denotes. -/
def Arg.value (s : St α) : Arg α → Option α
  | .val v => some v
  | .rv v => some v
  | .ref p => s.mem p.blk p.off
  | .mv p => s.mem p.blk p.off
  | .mvIf p => s.mem p.blk p.off

/-- The object moved from, if the initialisation is a move
(`std::move_if_noexcept`: move iff the move constructor is noexcept or no copy exists). -/
def Arg.src (E : Env α) : Arg α → Option Ptr
  | .val _ => none
  | .rv _ => none
  | .ref _ => none
  | .mv p => some p
  | .mvIf p => if E.nothrowMoveCtor || !E.copyable then some p else none

/-- Is the argument an expiring value outside the container? -/
def Arg.isRv : Arg α → Bool
  | .rv _ => true
  | _ => false

/-- private.hpp:1258-1266 `construct_at_a` (and 2213-2229 `construct_at`): construct at `p` from `a`. -/
def construct (E : Env α) (p : Ptr) (a : Arg α) : M (St α) Unit := fun s =>
  match a.value s with
  | none => .ub .readRaw
  | some v =>
    if s.inB p = false then .ub .outOfBounds
    else if (s.mem p.blk p.off).isSome then .ub .constructOverLive
    else match a.src E with
      | none =>
        if E.throws s.tick && !(a.isRv && E.nothrowMoveCtor) then .exn .elem s.bump
        else .ok () (s.bump.put p (some v))
      | some q =>
        if E.throws s.tick && !E.nothrowMoveCtor then
          .exn .elem (s.bump.put q (some (E.failSrc s.tick v)))
        else .ok () ((s.bump.put p (some v)).put q (some (E.moved v)))

/-- Element assignment `*p = a` (language level; used e.g. at vector.hpp:650 and inside std::move/std::copy). -/
def assign (E : Env α) (p : Ptr) (a : Arg α) : M (St α) Unit := fun s =>
  match a.value s with
  | none => .ub .readRaw
  | some v =>
    match s.mem p.blk p.off with
    | none => .ub .assignRaw
    | some old =>
      match a.src E with
      | none =>
        if E.throws s.tick && !(a.isRv && E.nothrowMoveAssign) then
          .exn .elem (s.bump.put p (some (E.failDst s.tick old v)))
        else .ok () (s.bump.put p (some v))
      | some q =>
        if E.throws s.tick && !E.nothrowMoveAssign then
          .exn .elem ((s.bump.put p (some (E.failDst s.tick old v))).put q (some (E.failSrc s.tick v)))
        else .ok () ((s.bump.put p (some v)).put q (some (E.moved v)))

/-- Creating a temporary `value_type tmp(a)` on the stack (e.g. vector.hpp:634). -/
def mkTmp (E : Env α) (a : Arg α) : M (St α) α := fun s =>
  match a.value s with
  | none => .ub .readRaw
  | some v =>
    match a.src E with
    | none =>
      if E.throws s.tick && !(a.isRv && E.nothrowMoveCtor) then .exn .elem s.bump else .ok v s.bump
    | some q =>
      if E.throws s.tick && !E.nothrowMoveCtor then
        .exn .elem (s.bump.put q (some (E.failSrc s.tick v)))
      else .ok v (s.bump.put q (some (E.moved v)))

/-- private.hpp:1269-1277 `destroy_at_a` (and 2231-2235 `destroy_at`). -/
def destroyAt (p : Ptr) : M (St α) Unit := fun s =>
  match s.mem p.blk p.off with
  | none => .ub .destroyRaw
  | some _ => .ok () (s.put p none)

/-- Reading `*p`. -/
def readAt (p : Ptr) : M (St α) α := fun s =>
  match s.mem p.blk p.off with
  | none => .ub .readRaw
  | some v => .ok v s

/-- private.hpp:1239-1247 `allocate`: `n = 0` gives nullptr; otherwise a fresh raw block or an exception. -/
def allocate (E : Env α) (a : Nat) (n : Nat) : M (St α) Ptr := fun s =>
  if n = 0 then .ok Ptr.null s
  else if E.throws s.tick then .exn .badAlloc s.bump
  else .ok ⟨s.next, 0⟩
    { mem := fun b k => if b = s.next then none else s.mem b k
      blk := fun b => if b = s.next then some ⟨n, some a⟩ else s.blk b
      next := s.next + 1
      tick := s.tick + 1 }

/-- private.hpp:1249-1256 `deallocate`: nullptr is ignored; otherwise pointer, size and
allocator must be those of the allocation and no live object may remain. -/
def deallocate (a : Nat) (p : Ptr) (n : Nat) : M (St α) Unit := fun s =>
  if p = Ptr.null then .ok () s
  else match s.blk p.blk with
    | none => .ub .badDealloc
    | some i =>
      if p.off = 0 ∧ i.size = n ∧ i.alloc = some a then
        if ∀ k, k < n → (s.mem p.blk k).isNone then
          .ok () { s with blk := fun b => if b = p.blk then none else s.blk b }
        else .ub .leak
      else .ub .badDealloc

/-- `std::distance(first, last)` for pointers: a reversed or cross-block range is undefined. -/
def distance {σ : Type} (first last : Ptr) : M σ Nat := fun s =>
  if first.blk = last.blk ∧ first.off ≤ last.off then .ok (last.off - first.off) s
  else .ub .badRange

/-! ### Programs on a container object -/

/-- State of a program working on a container object `obj` (its data members) in memory `m`. -/
structure Obj (V α : Type) where
  obj : V
  m : St α

/-- Run a memory program, leaving the data members alone. -/
def lift {V β : Type} (p : M (St α) β) : M (Obj V α) β := fun o =>
  match p o.m with
  | .ok b s => .ok b ⟨o.obj, s⟩
  | .exn e s => .exn e ⟨o.obj, s⟩
  | .ub r => .ub r

/-- Read the data members. -/
def getObj {V : Type} : M (Obj V α) V := fun o => .ok o.obj o

/-- Write the data members. -/
def setObj {V : Type} (v : V) : M (Obj V α) Unit := fun o => .ok () ⟨v, o.m⟩

section
variable {V β : Type} {X : Exn → Obj V α → Prop} {o : Obj V α}

theorem wp_lift {p : M (St α) β} {Q : β → Obj V α → Prop} :
    wp (lift p) Q X o =
      wp p (fun b s => Q b ⟨o.obj, s⟩) (fun e s => X e ⟨o.obj, s⟩) o.m := by
  unfold wp lift
  cases h : p o.m <;> rfl

theorem wp_getObj {Q : V → Obj V α → Prop} : wp getObj Q X o = Q o.obj o := rfl

theorem wp_setObj {v : V} {Q : Unit → Obj V α → Prop} : wp (setObj v) Q X o = Q () ⟨v, o.m⟩ := rfl
end

end Sfl
