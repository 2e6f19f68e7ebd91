import Verif.FlatSearch
import Verif.SeqSpec
/-
  Specification of the ordered flat containers: what each public operation does to the sequence of elements. Nothing
  in this file mentions memory or the implementation.
-/

namespace Sfl
variable {α κ : Type}

/-- The comparator is a strict weak order, and assigning to `it->second` does not change the key. -/
structure Order.Lawful (C : Order α κ) : Prop where
  weak : StrictWeak (fun a b => C.lt a b = true)
  upd : ∀ a b, C.key (C.upd a b) = C.key a

/-- Two elements have equivalent keys. -/
def Order.same (C : Order α κ) (a b : α) : Bool := !C.lt (C.key a) (C.key b) && !C.lt (C.key b) (C.key a)

/-- An element has a key equivalent to `k`. -/
def Order.hasKey (C : Order α κ) (k : κ) (a : α) : Bool := !C.lt (C.key a) k && !C.lt k (C.key a)

/-- Strictly increasing keys for the containers with unique keys (`multi = false`), increasing keys otherwise. -/
def Order.Sorted (C : Order α κ) (multi : Bool) (xs : List α) : Prop :=
  xs.Pairwise (fun a b => if multi = true then C.lt (C.key b) (C.key a) = false else C.lt (C.key a) (C.key b) = true)

/-- The probe agrees with the order of the sequence: the elements below the sought key come first, then the ones
equivalent to it, then the ones above. -/
structure Probe.Fits (P : Probe α) (xs : List α) : Prop where
  below : xs.Pairwise (fun a b => P.below b = true → P.below a = true)
  above : xs.Pairwise (fun a b => P.above a = true → P.above b = true)
  both : ∀ x ∈ xs, P.below x = true → P.above x = false

/-- The element is equivalent to the sought key. -/
def Probe.hit (P : Probe α) (x : α) : Bool := !P.below x && !P.above x

namespace Flat
open Sq (Src)

/-- The public modifiers of the ordered flat containers. `h`, `k`, `l` are positions `begin() + h`. `tryEmplace` is
try_emplace (maps), insertion of a heterogeneous key (sets) and operator[] (maps); `insertOrAssign` exists for maps.
`reserve` and `shrinkToFit` exist for the small containers. -/
inductive Op (α κ : Type) where
  | insert (s : Src α)
  | insertHint (h : Nat) (s : Src α)
  | emplace (v : α)
  | emplaceHint (h : Nat) (v : α)
  | tryEmplace (v : α)
  | tryEmplaceHint (h : Nat) (v : α)
  | insertOrAssign (v : α)
  | insertOrAssignHint (h : Nat) (v : α)
  | insertRange (vs : List α)
  | assignList (vs : List α)
  | eraseAt (k : Nat)
  | eraseRange (k l : Nat)
  | eraseKey (k : κ)
  | eraseIf (f : α → Bool)
  | clear
  | reserve (n : Nat)
  | shrinkToFit

/-- What an operation returns: nothing, an iterator (as an index), an iterator and whether an element has been
inserted, or the number of removed elements. -/
inductive Ret where
  | unit
  | pos (i : Nat)
  | ins (i : Nat) (new : Bool)
  | num (n : Nat)
  deriving DecidableEq, Repr

namespace Op

/-- Operations of maps and sets with unique keys only. -/
def uniqueOnly : Op α κ → Bool
  | .tryEmplace _ | .tryEmplaceHint _ _ | .insertOrAssign _ | .insertOrAssignHint _ _ => true
  | _ => false

/-- Documented precondition on a container of size `n`. -/
def pre (multi : Bool) (n : Nat) (op : Op α κ) : Bool :=
  !(multi && op.uniqueOnly) && match op with
  | .insert s => s.ok n
  | .insertHint h s => decide (h ≤ n) && s.ok n
  | .emplaceHint h _ => decide (h ≤ n)
  | .tryEmplaceHint h _ => decide (h ≤ n)
  | .insertOrAssignHint h _ => decide (h ≤ n)
  | .eraseAt k => decide (k < n)
  | .eraseRange k l => decide (k ≤ l ∧ l ≤ n)
  | _ => true

/-- Largest number of elements the operation asks the container to have room for. -/
def room (n : Nat) : Op α κ → Nat
  | .insert _ | .insertHint _ _ | .emplace _ | .emplaceHint _ _ | .tryEmplace _ | .tryEmplaceHint _ _
  | .insertOrAssign _ | .insertOrAssignHint _ _ => n + 1
  | .insertRange vs => n + vs.length
  | .assignList vs => vs.length
  | .reserve m => m
  | _ => n

end Op

/-- `v` inserted into `xs` gives `ys`: at position `i`, if the container allows equivalent elements or there is none;
otherwise nothing changes and `i` is the position of an equivalent element. -/
def Inserted (C : Order α κ) (multi : Bool) (xs : List α) (v : α) (i : Nat) (new : Bool) (ys : List α) : Prop :=
  (new = true ∧ (multi = true ∨ ∀ x ∈ xs, C.same x v = false) ∧ i ≤ xs.length ∧
    ys = xs.take i ++ v :: xs.drop i ∧ C.Sorted multi ys) ∨
  (new = false ∧ multi = false ∧ ys = xs ∧ ∃ x, xs[i]? = some x ∧ C.same x v = true)

/-- insert_or_assign: as above, but an existing element gets a new mapped value. -/
def Assigned (C : Order α κ) (xs : List α) (v : α) (i : Nat) (new : Bool) (ys : List α) : Prop :=
  (new = true ∧ Inserted C false xs v i true ys) ∨
  (new = false ∧ ∃ x, xs[i]? = some x ∧ C.same x v = true ∧ ys = xs.set i (C.upd x v))

/-- The elements after inserting the elements of a list one by one, in some order: a container with unique keys
keeps the first element of every class. -/
def merge (C : Order α κ) (multi : Bool) (xs : List α) : List α → List α
  | [] => xs
  | v :: vs => if multi = true ∨ xs.all (fun x => !C.same x v) = true then merge C multi (xs ++ [v]) vs
      else merge C multi xs vs

/-- What an operation that returns does to a container holding the (sorted) elements `xs`. -/
def Op.Result (C : Order α κ) (multi : Bool) (xs : List α) : Op α κ → Ret → List α → Prop
  | .insert s, r, ys => ∃ v i new, s.get? xs = some v ∧ r = .ins i new ∧ Inserted C multi xs v i new ys
  | .insertHint _ s, r, ys => ∃ v i new, s.get? xs = some v ∧ r = .pos i ∧ Inserted C multi xs v i new ys
  | .emplace v, r, ys => ∃ i new, r = .ins i new ∧ Inserted C multi xs v i new ys
  | .emplaceHint _ v, r, ys => ∃ i new, r = .pos i ∧ Inserted C multi xs v i new ys
  | .tryEmplace v, r, ys => ∃ i new, r = .ins i new ∧ Inserted C multi xs v i new ys
  | .tryEmplaceHint _ v, r, ys => ∃ i new, r = .pos i ∧ Inserted C multi xs v i new ys
  | .insertOrAssign v, r, ys => ∃ i new, r = .ins i new ∧ Assigned C xs v i new ys
  | .insertOrAssignHint _ v, r, ys => ∃ i new, r = .pos i ∧ Assigned C xs v i new ys
  | .insertRange vs, r, ys => r = .unit ∧ C.Sorted multi ys ∧ ys.Perm (merge C multi xs vs)
  | .assignList vs, r, ys => r = .unit ∧ C.Sorted multi ys ∧ ys.Perm (merge C multi [] vs)
  | .eraseAt k, r, ys => r = .pos k ∧ ys = xs.take k ++ xs.drop (k + 1)
  | .eraseRange k l, r, ys => r = .pos k ∧ ys = xs.take k ++ xs.drop l
  | .eraseKey k, r, ys => r = .num (xs.countP (C.hasKey k)) ∧ ys = xs.filter (fun x => !C.hasKey k x)
  | .eraseIf f, r, ys => r = .num (xs.countP f) ∧ ys = xs.filter (fun x => !f x)
  | .clear, r, ys => r = .unit ∧ ys = []
  | .reserve _, r, ys => r = .unit ∧ ys = xs
  | .shrinkToFit, r, ys => r = .unit ∧ ys = xs

/-- Operations that keep the order even if they throw, provided that moving elements does not throw: all of them for
multi containers (they make a temporary before shifting elements); for containers with unique keys the ones
that do not copy into the gap made by shifting the elements. -/
def Op.safe (multi : Bool) : Op α κ → Bool
  | .insert (.rvalue _) => true
  | .insertHint _ (.rvalue _) => true
  | .insert _ => multi
  | .insertHint _ _ => multi
  | .insertRange _ => multi
  | .assignList _ => multi
  | _ => true

/-- Operations whose effect does not depend on the elements being in order. -/
def Op.free : Op α κ → Bool
  | .assignList _ | .eraseAt _ | .eraseRange _ _ | .eraseIf _ | .clear | .reserve _ | .shrinkToFit => true
  | _ => false

/-- Operations that only change the storage. -/
def Op.storage : Op α κ → Bool
  | .reserve _ | .shrinkToFit => true
  | _ => false

/-- Operations that remove elements. -/
def Op.erases : Op α κ → Bool
  | .eraseAt _ | .eraseRange _ _ | .eraseKey _ | .eraseIf _ => true
  | _ => false

/-- clear() -/
def Op.clears : Op α κ → Bool
  | .clear => true
  | _ => false

/-- Operations made of several insertions. -/
def Op.many : Op α κ → Bool
  | .insertRange _ | .assignList _ => true
  | _ => false

/-- Operations that insert at most one new element. -/
def Op.one : Op α κ → Bool
  | .insert _ | .insertHint _ _ | .emplace _ | .emplaceHint _ _ | .tryEmplace _ | .tryEmplaceHint _ _ => true
  | _ => false

/-- Operations that change nothing at all if they are safe and throw. -/
def Op.atomic : Op α κ → Bool
  | .insertOrAssign _ | .insertOrAssignHint _ _ | .insertRange _ | .assignList _ => false
  | _ => true

/-- What may remain after the operation has thrown `e`. -/
structure Op.Failure (C : Order α κ) (multi : Bool) (strongE nothrowE : Prop) (maxSize : Nat) (xs : List α)
    (op : Op α κ) (e : Exn) (xs' : List α) : Prop where
  can : op.clears = false
  len : e = .lengthError → maxSize < op.room xs.length
  order : nothrowE → op.safe multi = true → C.Sorted multi xs → C.Sorted multi xs'
  same : nothrowE → op.safe multi = true → op.atomic = true → xs' = xs
  strong : strongE → op.storage = true → xs' = xs
  erase : nothrowE → C.nothrow = true → op.erases = false

end Flat

/-! ### Facts about orders and sequences -/

section
variable {C : Order α κ} {xs ys : List α}

theorem Order.Lawful.asymm (L : C.Lawful) {a b : κ} (h : C.lt a b = true) : C.lt b a = false := by
  cases hb : C.lt b a
  · rfl
  · exact absurd (L.weak.trans a b a h hb) (L.weak.irrefl a)

theorem Order.Lawful.irrefl (L : C.Lawful) (a : κ) : C.lt a a = false := by
  cases h : C.lt a a
  · rfl
  · exact absurd h (L.weak.irrefl a)

/-- `a < b` and `c` not below `b` give `a < c`. -/
theorem Order.Lawful.lt_of_lt_of_le (L : C.Lawful) {a b c : κ} (h : C.lt a b = true) (h' : C.lt c b = false) :
    C.lt a c = true := by
  cases hac : C.lt a c
  · exfalso
    by_cases hca : C.lt c a = true
    · have := L.weak.trans c a b hca h
      rw [this] at h'; cases h'
    · by_cases hbc : C.lt b c = true
      · have := L.weak.trans a b c h hbc
        rw [this] at hac; cases hac
      · have := L.weak.incomp a c b (by simp [hac]) (by simpa using hca) (by simp [h']) (by simpa using hbc)
        exact this.1 h
  · rfl

/-- `b` not below `a` and `b < c` give `a < c`. -/
theorem Order.Lawful.lt_of_le_of_lt (L : C.Lawful) {a b c : κ} (h : C.lt b a = false) (h' : C.lt b c = true) :
    C.lt a c = true := by
  cases hac : C.lt a c
  · exfalso
    by_cases hca : C.lt c a = true
    · have := L.weak.trans b c a h' hca
      rw [this] at h; cases h
    · by_cases hab : C.lt a b = true
      · have := L.weak.trans a b c hab h'
        rw [this] at hac; cases hac
      · have := L.weak.incomp b a c (by simp [h]) (by simpa using hab) (by simp [hac]) (by simpa using hca)
        exact this.1 h'
  · rfl

theorem Order.Lawful.le_trans (L : C.Lawful) {a b c : κ} (h : C.lt b a = false) (h' : C.lt c b = false) :
    C.lt c a = false := by
  cases hca : C.lt c a
  · rfl
  · rw [L.lt_of_le_of_lt h' hca] at h; cases h

theorem Order.Sorted.weaken (L : C.Lawful) {multi : Bool} (h : C.Sorted multi xs) : C.Sorted true xs := by
  refine h.imp ?_
  intro a b hab
  cases multi
  · simp at hab ⊢; exact L.asymm hab
  · simpa using hab

theorem Order.Lawful.fits (L : C.Lawful) {multi : Bool} (h : C.Sorted multi xs) (k : κ) : (C.probe k).Fits xs := by
  have h := h.weaken L
  refine ⟨h.imp ?_, h.imp ?_, ?_⟩
  · intro a b hab hb
    simp at hab
    exact L.lt_of_le_of_lt hab hb
  · intro a b hab hb
    simp at hab
    exact L.lt_of_lt_of_le hb hab
  · intro x _ hx
    exact L.asymm hx

/-- In a sequence in which the elements satisfying `f` come first, a cut separates all of them. -/
theorem Cut.all {f : α → Bool} {k : Nat} (c : Cut f xs k)
    (hp : xs.Pairwise (fun a b => f b = true → f a = true)) {i : Nat} {x : α} (hx : xs[i]? = some x) :
    f x = true ↔ i < k := by
  have hp' := List.pairwise_iff_getElem.mp hp
  obtain ⟨hi, rfl⟩ := List.getElem?_eq_some_iff.mp hx
  constructor
  · intro hf
    refine Nat.lt_of_not_le fun hki => ?_
    have hkl : k < xs.length := by omega
    have h1 : f xs[k] = false := c.right _ (by simp [hkl])
    have h2 : f xs[k] = true := by
      by_cases he : k = i
      · subst he; exact hf
      · exact hp' k i hkl hi (by omega) hf
    rw [h1] at h2; cases h2
  · intro hik
    obtain ⟨j, rfl⟩ : ∃ j, k = j + 1 := ⟨k - 1, by omega⟩
    have hj : j < xs.length := by have := c.le; omega
    have h1 : f xs[j] = true := c.left j _ rfl (by simp [hj])
    by_cases he : i = j
    · subst he; exact h1
    · exact hp' i j hi hj (by omega) h1

theorem Probe.Fits.above' {P : Probe α} (h : P.Fits xs) :
    xs.Pairwise (fun a b => (!P.above b) = true → (!P.above a) = true) := by
  refine h.above.imp ?_
  intro a b hab hb
  cases ha : P.above a
  · rfl
  · rw [hab ha] at hb; cases hb

end

end Sfl
