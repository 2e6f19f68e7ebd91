import Verif.Core
/-
  Specification of sequence containers: what each public operation does to the list of elements,
  what a client can observe, and what a failed operation may leave behind. Nothing in the first half
  of this file mentions memory or the implementation.
-/

namespace Sfl.Sq
variable {α : Type}

/-- Where the client takes the value argument of an operation from: an object of their own (lvalue), a temporary
(rvalue), or the `i`-th element of the very container the operation is applied to (an aliasing reference). -/
inductive Src (α : Type) where
  | value (v : α)
  | rvalue (v : α)
  | elem (i : Nat)

/-- The value the argument denotes when the container holds `xs`. -/
def Src.get? (xs : List α) : Src α → Option α
  | .value v => some v
  | .rvalue v => some v
  | .elem i => xs[i]?

/-- The argument exists (an aliasing reference must designate an element). -/
def Src.ok (n : Nat) : Src α → Bool
  | .elem i => decide (i < n)
  | _ => true

/-- The public modifiers of a sequence container; positions are `begin() + k`. -/
inductive Op (α : Type) where
  | pushBack (s : Src α)
  | emplace (k : Nat) (s : Src α)
  | insertN (k n : Nat) (s : Src α)
  | insertRange (k : Nat) (ys : List α)
  | insertInput (k : Nat) (ys : List α)
  | popBack
  | eraseAt (k : Nat)
  | eraseRange (k l : Nat)
  | resize (n : Nat)
  | resizeV (n : Nat) (s : Src α)
  | assignN (n : Nat) (v : α)
  | assignRange (ys : List α)
  | assignInput (ys : List α)
  | clear
  | reserve (n : Nat)
  | shrinkToFit
  /-- non-member erase_if(c, f), and erase(c, value) for `f x := x == value` -/
  | eraseIf (f : α → Bool)

namespace Op

/-- Documented precondition of the operation on a container of size `n`. -/
def pre (n : Nat) : Op α → Bool
  | .pushBack s => s.ok n
  | .emplace k s => decide (k ≤ n) && s.ok n
  | .insertN k _ s => decide (k ≤ n) && s.ok n
  | .insertRange k _ => decide (k ≤ n)
  | .insertInput k _ => decide (k ≤ n)
  | .popBack => decide (0 < n)
  | .eraseAt k => decide (k < n)
  | .eraseRange k l => decide (k ≤ l ∧ l ≤ n)
  | .resizeV _ s => s.ok n
  | _ => true

/-- Largest number of elements the operation asks the container to have room for. -/
def room (n : Nat) : Op α → Nat
  | .pushBack _ => n + 1
  | .emplace _ _ => n + 1
  | .insertN _ m _ => n + m
  | .insertRange _ ys => n + ys.length
  | .insertInput _ ys => n + ys.length
  | .resize m => m
  | .resizeV m _ => m
  | .assignN m _ => m
  | .assignRange ys => ys.length
  | .assignInput ys => ys.length
  | .reserve m => m
  | _ => n

/-- The sequence after the operation has succeeded. `d` is the value-initialised element. -/
def Result (d : α) (xs : List α) : Op α → List α → Prop
  | .pushBack s, r => ∃ v, s.get? xs = some v ∧ r = xs ++ [v]
  | .emplace k s, r => ∃ v, s.get? xs = some v ∧ r = xs.take k ++ [v] ++ xs.drop k
  | .insertN k n s, r => ∃ v, s.get? xs = some v ∧ r = xs.take k ++ List.replicate n v ++ xs.drop k
  | .insertRange k ys, r => r = xs.take k ++ ys ++ xs.drop k
  | .insertInput k ys, r => r = xs.take k ++ ys ++ xs.drop k
  | .popBack, r => r = xs.dropLast
  | .eraseAt k, r => r = xs.take k ++ xs.drop (k + 1)
  | .eraseRange k l, r => r = xs.take k ++ xs.drop l
  | .resize n, r => r = xs.take n ++ List.replicate (n - xs.length) d
  | .resizeV n s, r => ∃ v, s.get? xs = some v ∧ r = xs.take n ++ List.replicate (n - xs.length) v
  | .assignN n v, r => r = List.replicate n v
  | .assignRange ys, r => r = ys
  | .assignInput ys, r => r = ys
  | .clear, r => r = []
  | .reserve _, r => r = xs
  | .shrinkToFit, r => r = xs
  | .eraseIf f, r => r = xs.filter (fun x => !f x)

/-- What the operation returns, for the operations that return something: the index of the element the returned
iterator designates, or the number of elements removed. -/
def ret (xs : List α) : Op α → Option Nat
  | .pushBack _ => some xs.length
  | .emplace k _ => some k
  | .insertN k _ _ => some k
  | .insertRange k _ => some k
  | .insertInput k _ => some k
  | .eraseAt k => some k
  | .eraseRange k _ => some k
  | .eraseIf f => some (xs.countP f)
  | _ => none

/-- Operations that promise "no effects" if they throw, for elements that are nothrow move constructible or copyable. -/
def strong : Op α → Bool
  | .pushBack _ => true
  | .reserve _ => true
  | .shrinkToFit => true
  | .resize _ => true
  | .resizeV _ _ => true
  | _ => false

/-- Operations that never throw. -/
def nothrow : Op α → Bool
  | .popBack => true
  | .clear => true
  | _ => false

/-- What may remain after the operation has thrown `e`. `strongE`: the elements are nothrow move constructible or
copyable. `nothrowE`: moving elements (construction and assignment) never throws. -/
structure Failure (strongE nothrowE : Prop) (maxSize : Nat) (xs : List α) (op : Op α) (e : Exn) (xs' : List α) :
    Prop where
  can : op.nothrow = false
  len : e = .lengthError → maxSize < op.room xs.length
  strong : strongE → op.strong = true → xs' = xs
  erase : nothrowE → ∀ k l f, op ≠ .eraseAt k ∧ op ≠ .eraseRange k l ∧ op ≠ .eraseIf f
  emplace : nothrowE → ∀ k s, op = .emplace k s → xs' = xs

end Op

/-- What the client sees of one operation: it returned (with the index the returned iterator designates,
or whatever else the operation returns), it threw, or the client did not call it because its precondition was not met. -/
inductive Out (ρ : Type := Option Nat) where
  | ok (ret : ρ)
  | threw (e : Exn)
  | skipped
  deriving DecidableEq, Repr

/-- A history of operations as an abstract list sees it. `okStep`/`failStep` describe single operations. -/
inductive Run {Op ρ : Type} (pre : Nat → Op → Bool) (okStep : List α → Op → ρ → List α → Prop)
    (failStep : List α → Op → Exn → List α → Prop) : List α → List Op → List (Out ρ) → List α → Prop where
  | nil (xs : List α) : Run pre okStep failStep xs [] [] xs
  | ok {xs xs' ys : List α} {op : Op} {ops : List Op} {r : ρ} {outs : List (Out ρ)} :
      pre xs.length op = true → okStep xs op r xs' → Run pre okStep failStep xs' ops outs ys →
      Run pre okStep failStep xs (op :: ops) (.ok r :: outs) ys
  | threw {xs xs' ys : List α} {op : Op} {ops : List Op} {e : Exn} {outs : List (Out ρ)} :
      pre xs.length op = true → failStep xs op e xs' → Run pre okStep failStep xs' ops outs ys →
      Run pre okStep failStep xs (op :: ops) (.threw e :: outs) ys
  | skipped {xs ys : List α} {op : Op} {ops : List Op} {outs : List (Out ρ)} :
      pre xs.length op = false → Run pre okStep failStep xs ops outs ys →
      Run pre okStep failStep xs (op :: ops) (.skipped :: outs) ys

/-! ### The client program -/

/-- The part of a container's interface a client program uses. -/
structure Impl (Op V α : Type) (ρ : Type := Option Nat) where
  size : M (Obj V α) Nat
  index : Nat → M (Obj V α) α
  exec : Op → M (Obj V α) ρ
  destroy : M (Obj V α) Unit

variable {Op V ρ : Type}

/-- Call one operation, catching whatever it throws. -/
def Impl.attempt (I : Impl Op V α ρ) (op : Op) : M (Obj V α) (Out ρ) :=
  M.tryCatch (do let r ← I.exec op; pure (.ok r)) (fun e => pure (.threw e))

/-- Call the operation if its precondition holds for the size `n`. -/
def Impl.step (I : Impl Op V α ρ) (pre : Nat → Op → Bool) (n : Nat) (op : Op) : M (Obj V α) (Out ρ) :=
  if pre n op = true then I.attempt op else pure .skipped

/-- A client that performs the operations one after the other, asking for the size to check the
precondition `pre`, and going on after exceptions. -/
def Impl.runOps (I : Impl Op V α ρ) (pre : Nat → Op → Bool) : List Op → M (Obj V α) (List (Out ρ))
  | [] => pure []
  | op :: ops => do
    let n ← I.size
    let r ← I.step pre n op
    let rs ← I.runOps pre ops
    pure (r :: rs)

/-- Read `c[i], …, c[i + n - 1]`. -/
def Impl.readFrom (I : Impl Op V α ρ) (i : Nat) : Nat → M (Obj V α) (List α)
  | 0 => pure []
  | n + 1 => do
    let v ← I.index i
    let vs ← I.readFrom (i + 1) n
    pure (v :: vs)

/-- Read the whole container through `size()` and `operator[]`. -/
def Impl.contents (I : Impl Op V α ρ) : M (Obj V α) (List α) := do
  let n ← I.size
  I.readFrom 0 n

/-- A complete session: perform the operations, look at the elements, destroy the container. -/
def Impl.session (I : Impl Op V α ρ) (pre : Nat → Op → Bool) (ops : List Op) : M (Obj V α) (List (Out ρ) × List α) := do
  let log ← I.runOps pre ops
  let xs ← I.contents
  I.destroy
  pure (log, xs)

/-! ### From single operations to histories -/

section
variable {I : Impl Op V α ρ} {pre : Nat → Op → Bool} {okStep : List α → Op → ρ → List α → Prop}
  {failStep : List α → Op → Exn → List α → Prop} {Inv : Obj V α → List α → Prop}

/-- Each operation, run alone on a container satisfying the invariant, does one abstract step. -/
structure Correct (I : Impl Op V α ρ) (pre : Nat → Op → Bool) (okStep : List α → Op → ρ → List α → Prop)
    (failStep : List α → Op → Exn → List α → Prop) (Inv : Obj V α → List α → Prop) : Prop where
  size : ∀ o xs, Inv o xs → wp I.size (fun n o' => n = xs.length ∧ o' = o) (fun _ _ => False) o
  index : ∀ o xs i v, Inv o xs → xs[i]? = some v → wp (I.index i) (fun r o' => r = v ∧ o' = o) (fun _ _ => False) o
  exec : ∀ o xs op, Inv o xs → pre xs.length op = true →
    wp (I.exec op) (fun r o' => ∃ xs', Inv o' xs' ∧ okStep xs op r xs')
      (fun e o' => ∃ xs', Inv o' xs' ∧ failStep xs op e xs') o

theorem Correct.runOps (C : Correct I pre okStep failStep Inv) (ops : List Op) :
    ∀ o xs, Inv o xs →
    wp (I.runOps pre ops) (fun log o' => ∃ ys, Inv o' ys ∧ Run pre okStep failStep xs ops log ys)
      (fun _ _ => False) o := by
  induction ops with
  | nil => intro o xs h; exact ⟨xs, h, .nil xs⟩
  | cons op ops ih =>
    intro o xs h
    unfold Impl.runOps
    rw [wp_bind]
    refine wp_mono (C.size o xs h) ?_ (fun _ _ h => h)
    rintro _ _ ⟨rfl, rfl⟩
    unfold Impl.step
    rw [wp_bind, wp_ite]
    by_cases hp : pre xs.length op = true
    · rw [if_pos hp]
      unfold Impl.attempt
      rw [wp_tryCatch, wp_bind]
      refine wp_mono (C.exec _ xs op h hp) ?_ ?_
      · rintro r o1 ⟨xs', h1, h2⟩
        rw [wp_pure, wp_bind]
        refine wp_mono (ih o1 xs' h1) ?_ (fun _ _ h => h)
        rintro rs o2 ⟨ys, h3, h4⟩
        exact ⟨ys, h3, .ok hp h2 h4⟩
      · rintro e o1 ⟨xs', h1, h2⟩
        rw [wp_pure, wp_bind]
        refine wp_mono (ih o1 xs' h1) ?_ (fun _ _ h => h)
        rintro rs o2 ⟨ys, h3, h4⟩
        exact ⟨ys, h3, .threw hp h2 h4⟩
    · rw [if_neg hp, wp_pure, wp_bind]
      refine wp_mono (ih _ xs h) ?_ (fun _ _ h => h)
      rintro rs o2 ⟨ys, h3, h4⟩
      exact ⟨ys, h3, .skipped (by simpa using hp) h4⟩

theorem Correct.readFrom (C : Correct I pre okStep failStep Inv) (n : Nat) :
    ∀ i o xs, Inv o xs → i + n = xs.length →
    wp (I.readFrom i n) (fun vs o' => vs = xs.drop i ∧ o' = o) (fun _ _ => False) o := by
  induction n with
  | zero =>
    intro i o xs h hi
    refine ⟨?_, rfl⟩
    rw [List.drop_of_length_le (by omega)]
  | succ n ih =>
    intro i o xs h hi
    unfold Impl.readFrom
    have hlt : i < xs.length := by omega
    rw [wp_bind]
    refine wp_mono (C.index o xs i xs[i] h (by simp [hlt])) ?_ (fun _ _ h => h)
    rintro _ _ ⟨rfl, rfl⟩
    rw [wp_bind]
    refine wp_mono (ih (i + 1) _ xs h (by omega)) ?_ (fun _ _ h => h)
    rintro _ _ ⟨rfl, rfl⟩
    rw [wp_pure]
    exact ⟨by rw [← List.drop_eq_getElem_cons], rfl⟩

theorem Correct.contents (C : Correct I pre okStep failStep Inv) {o : Obj V α} {xs : List α} (h : Inv o xs) :
    wp I.contents (fun vs o' => vs = xs ∧ o' = o) (fun _ _ => False) o := by
  unfold Impl.contents
  rw [wp_bind]
  refine wp_mono (C.size o xs h) ?_ (fun _ _ h => h)
  rintro _ _ ⟨rfl, rfl⟩
  simpa using C.readFrom xs.length 0 _ xs h (by omega)

theorem Correct.session (C : Correct I pre okStep failStep Inv) {Fin : St α → Prop}
    (hd : ∀ o xs, Inv o xs → wp I.destroy (fun _ o' => Fin o'.m) (fun _ _ => False) o)
    (ops : List Op) {o : Obj V α} {xs : List α} (h : Inv o xs) :
    wp (I.session pre ops) (fun r o' => Run pre okStep failStep xs ops r.1 r.2 ∧ Fin o'.m) (fun _ _ => False) o := by
  unfold Impl.session
  rw [wp_bind]
  refine wp_mono (C.runOps ops o xs h) ?_ (fun _ _ h => h)
  rintro log o1 ⟨ys, h1, h2⟩
  rw [wp_bind]
  refine wp_mono (C.contents h1) ?_ (fun _ _ h => h)
  rintro _ _ ⟨rfl, rfl⟩
  rw [wp_bind]
  refine wp_mono (hd _ _ h1) ?_ (fun _ _ h => h)
  intro _ o2 h3
  exact ⟨h2, h3⟩

end

/-- The constructors of sequence containers without a source container. -/
inductive Init (α : Type) where
  | empty
  | count (n : Nat)
  | fill (n : Nat) (v : α)
  | range (ys : List α)
  | input (ys : List α)

/-- The elements the constructor is asked to create; `d` is the value-initialised element. -/
def Init.result {α : Type} (d : α) : Init α → List α
  | .empty => []
  | .count n => List.replicate n d
  | .fill n v => List.replicate n v
  | .range ys => ys
  | .input ys => ys

end Sfl.Sq
