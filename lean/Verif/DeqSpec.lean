import Verif.SeqSpec
/-
  Specification of double-ended sequence containers (devector, segmented_devector): what each public operation does to
  the list of elements. Nothing in this file mentions memory or the implementation.
-/

namespace Sfl.Dq
open Sq (Src)
variable {α : Type}

/-- The public modifiers of a double-ended sequence container; positions are `begin() + k`. -/
inductive Op (α : Type) where
  | pushFront (s : Src α)
  | pushBack (s : Src α)
  | emplace (k : Nat) (s : Src α)
  | insertN (k n : Nat) (s : Src α)
  | insertRange (k : Nat) (ys : List α)
  | insertInput (k : Nat) (ys : List α)
  | popFront
  | popBack
  | eraseAt (k : Nat)
  | eraseRange (k l : Nat)
  | resize (n : Nat)
  | resizeV (n : Nat) (s : Src α)
  | resizeFront (n : Nat)
  | resizeFrontV (n : Nat) (s : Src α)
  | resizeBack (n : Nat)
  | resizeBackV (n : Nat) (s : Src α)
  | assignN (n : Nat) (v : α)
  | assignRange (ys : List α)
  | assignInput (ys : List α)
  | clear
  | reserveFront (n : Nat)
  | reserveBack (n : Nat)
  | shrinkToFit
  /-- non-member erase_if(c, f), and erase(c, value) for `f x := x == value` -/
  | eraseIf (f : α → Bool)

namespace Op

/-- Documented precondition of the operation on a container of size `n`. -/
def pre (n : Nat) : Op α → Bool
  | .pushFront s => s.ok n
  | .pushBack s => s.ok n
  | .emplace k s => decide (k ≤ n) && s.ok n
  | .insertN k _ s => decide (k ≤ n) && s.ok n
  | .insertRange k _ => decide (k ≤ n)
  | .insertInput k _ => decide (k ≤ n)
  | .popFront => decide (0 < n)
  | .popBack => decide (0 < n)
  | .eraseAt k => decide (k < n)
  | .eraseRange k l => decide (k ≤ l ∧ l ≤ n)
  | .resizeV _ s => s.ok n
  | .resizeFrontV _ s => s.ok n
  | .resizeBackV _ s => s.ok n
  | _ => true

/-- `r` is `xs` brought to `n` elements: cut off at the end, or new elements `v` put before and after it. Where the new
elements go is left to the container (devector.md and segmented_devector.md, `resize`). -/
def Resized (xs : List α) (n : Nat) (v : α) (r : List α) : Prop :=
  ∃ i j, i + j = n - xs.length ∧ r = List.replicate i v ++ xs.take n ++ List.replicate j v

/-- The sequence after the operation has succeeded. `d` is the value-initialised element. -/
def Result (d : α) (xs : List α) : Op α → List α → Prop
  | .pushFront s, r => ∃ v, s.get? xs = some v ∧ r = v :: xs
  | .pushBack s, r => ∃ v, s.get? xs = some v ∧ r = xs ++ [v]
  | .emplace k s, r => ∃ v, s.get? xs = some v ∧ r = xs.take k ++ [v] ++ xs.drop k
  | .insertN k n s, r => ∃ v, s.get? xs = some v ∧ r = xs.take k ++ List.replicate n v ++ xs.drop k
  | .insertRange k ys, r => r = xs.take k ++ ys ++ xs.drop k
  | .insertInput k ys, r => r = xs.take k ++ ys ++ xs.drop k
  | .popFront, r => r = xs.tail
  | .popBack, r => r = xs.dropLast
  | .eraseAt k, r => r = xs.take k ++ xs.drop (k + 1)
  | .eraseRange k l, r => r = xs.take k ++ xs.drop l
  | .resize n, r => Resized xs n d r
  | .resizeV n s, r => ∃ v, s.get? xs = some v ∧ Resized xs n v r
  | .resizeFront n, r => r = List.replicate (n - xs.length) d ++ xs.drop (xs.length - n)
  | .resizeFrontV n s, r => ∃ v, s.get? xs = some v ∧ r = List.replicate (n - xs.length) v ++ xs.drop (xs.length - n)
  | .resizeBack n, r => r = xs.take n ++ List.replicate (n - xs.length) d
  | .resizeBackV n s, r => ∃ v, s.get? xs = some v ∧ r = xs.take n ++ List.replicate (n - xs.length) v
  | .assignN n v, r => r = List.replicate n v
  | .assignRange ys, r => r = ys
  | .assignInput ys, r => r = ys
  | .clear, r => r = []
  | .reserveFront _, r => r = xs
  | .reserveBack _, r => r = xs
  | .shrinkToFit, r => r = xs
  | .eraseIf f, r => r = xs.filter (fun x => !f x)

/-- What the operation returns, for the operations that return something: the index of the element the returned
reference or iterator designates, or the number of elements removed. -/
def ret (xs : List α) : Op α → Option Nat
  | .pushFront _ => some 0
  | .pushBack _ => some xs.length
  | .emplace k _ => some k
  | .insertN k _ _ => some k
  | .insertRange k _ => some k
  | .insertInput k _ => some k
  | .eraseAt k => some k
  | .eraseRange k _ => some k
  | .eraseIf f => some (xs.countP f)
  | _ => none

/-- Operations that never throw. -/
def nothrow : Op α → Bool
  | .popFront => true
  | .popBack => true
  | .clear => true
  | _ => false

/-- Operations that remove elements somewhere. -/
def erases : Op α → Bool
  | .eraseAt _ => true
  | .eraseRange _ _ => true
  | .eraseIf _ => true
  | _ => false

/-- The operation adds elements to, or asks for more room in, a container of size `n`. -/
def grows (n : Nat) : Op α → Bool
  | .pushFront _ => true
  | .pushBack _ => true
  | .emplace _ _ => true
  | .insertN _ m _ => decide (0 < m)
  | .insertRange _ ys => decide (0 < ys.length)
  | .insertInput _ ys => decide (0 < ys.length)
  | .resize m => decide (n < m)
  | .resizeV m _ => decide (n < m)
  | .resizeFront m => decide (n < m)
  | .resizeFrontV m _ => decide (n < m)
  | .resizeBack m => decide (n < m)
  | .resizeBackV m _ => decide (n < m)
  | .assignN m _ => decide (n < m)
  | .assignRange ys => decide (n < ys.length)
  | .assignInput ys => decide (n < ys.length)
  | .reserveFront m => decide (n < m)
  | .reserveBack m => decide (n < m)
  | _ => false

end Op

/-- A successful step of a double-ended sequence container. -/
def okStep (E : Env α) (xs : List α) (op : Op α) (r : Option Nat) (xs' : List α) : Prop :=
  op.Result E.dflt xs xs' ∧ r = op.ret xs

end Sfl.Dq
