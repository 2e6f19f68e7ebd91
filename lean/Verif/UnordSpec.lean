import Verif.FlatMap
/-
  Specification of the unordered flat containers: what each public operation does to the elements. Nothing in this
  file mentions memory or the implementation.
-/

namespace Sfl
variable {α κ : Type}

/-- How an unordered flat container looks at its elements: the key of an element (the element itself for sets,
`value.first` for maps: small_unordered_flat_map.hpp:86-124 `ultra_equal`), the equality of keys, whether it can throw,
and the effect of `it->second = obj` on an element (maps only). The equality has no side effects. -/
structure KeyEq (α κ : Type) where
  key : α → κ
  eq : κ → κ → Bool
  nothrow : Bool
  upd : α → α → α

/-- The equality is an equivalence relation, and assigning to `it->second` does not change the key. -/
structure KeyEq.Lawful (U : KeyEq α κ) : Prop where
  equiv : KMap.Equiv U.eq
  upd : ∀ a b, U.key (U.upd a b) = U.key a

/-- Two elements have equal keys. -/
def KeyEq.same (U : KeyEq α κ) (a b : α) : Bool := U.eq (U.key a) (U.key b)

/-- An element has the key `k`. -/
def KeyEq.hasKey (U : KeyEq α κ) (k : κ) (a : α) : Bool := U.eq (U.key a) k

/-- No two elements with equal keys, except in the multi containers. -/
def KeyEq.Distinct (U : KeyEq α κ) (multi : Bool) (xs : List α) : Prop :=
  multi = false → KMap.Distinct U.key U.eq xs

/-- The finite map an unordered flat map stands for. -/
def KeyEq.get (U : KeyEq α κ) (xs : List α) : κ → Option α := KMap.get U.key U.eq xs

namespace Unord
open Sq (Src)
open Flat (Ret)

/-- The public modifiers of the unordered flat containers. `h`, `k`, `l` are positions `begin() + h`. `tryEmplace` is
try_emplace (maps), insertion of a heterogeneous key (sets) and operator[] (maps); `insertOrAssign` exists for maps.
`eraseKey k` is `erase(key)` with a key outside the container, `eraseEqual i` is `erase(key)` with the key of the
element at position `i`. `reserve` and `shrinkToFit` exist for the small containers. -/
inductive Op (α κ : Type) where
  | insert (s : Src α)
  | insertHint (h : Nat) (s : Src α)
  | emplace (v : α)
  | emplaceHint (h : Nat) (v : α)
  | tryEmplace (v : α)
  | tryEmplaceHint (h : Nat) (v : α)
  | insertOrAssign (v : α)
  | insertOrAssignHint (h : Nat) (v : α)
  | insertRange (vs : List α)
  | assignList (vs : List α)
  | eraseAt (k : Nat)
  | eraseRange (k l : Nat)
  | eraseKey (k : κ)
  | eraseEqual (i : Nat)
  | eraseIf (f : α → Bool)
  | clear
  | reserve (n : Nat)
  | shrinkToFit

namespace Op

/-- Operations of maps and sets with unique keys only. -/
def uniqueOnly : Op α κ → Bool
  | .tryEmplace _ | .tryEmplaceHint _ _ | .insertOrAssign _ | .insertOrAssignHint _ _ => true
  | _ => false

/-- Precondition on a container of size `n`. `erase(key)` of a multi container is wrong if the key is inside the
container (see `smallUnord_erase_alias`), so this case is excluded. -/
def pre (multi : Bool) (n : Nat) (op : Op α κ) : Bool :=
  !(multi && op.uniqueOnly) && match op with
  | .insert s => s.ok n
  | .insertHint h s => decide (h ≤ n) && s.ok n
  | .emplaceHint h _ => decide (h ≤ n)
  | .tryEmplaceHint h _ => decide (h ≤ n)
  | .insertOrAssignHint h _ => decide (h ≤ n)
  | .eraseAt k => decide (k < n)
  | .eraseRange k l => decide (k ≤ l ∧ l ≤ n)
  | .eraseEqual i => decide (i < n) && !multi
  | _ => true

/-- Largest number of elements the operation asks the container to have room for. -/
def room (n : Nat) : Op α κ → Nat
  | .insert _ | .insertHint _ _ | .emplace _ | .emplaceHint _ _ | .tryEmplace _ | .tryEmplaceHint _ _
  | .insertOrAssign _ | .insertOrAssignHint _ _ => n + 1
  | .insertRange vs => n + vs.length
  | .assignList vs => vs.length
  | .reserve m => m
  | _ => n

end Op

/-- `v` inserted into `xs` gives `ys`: a new last element, if the container allows equal keys or there is none;
otherwise nothing changes and `i` is the position of an element with an equal key. -/
def Inserted (U : KeyEq α κ) (multi : Bool) (xs : List α) (v : α) (i : Nat) (new : Bool) (ys : List α) : Prop :=
  (new = true ∧ (multi = true ∨ ∀ x ∈ xs, U.same x v = false) ∧ i = xs.length ∧ ys = xs ++ [v]) ∨
  (new = false ∧ multi = false ∧ ys = xs ∧ ∃ x, xs[i]? = some x ∧ U.same x v = true)

/-- insert_or_assign: as above, but an existing element gets a new mapped value. -/
def Assigned (U : KeyEq α κ) (xs : List α) (v : α) (i : Nat) (new : Bool) (ys : List α) : Prop :=
  (new = true ∧ Inserted U false xs v i true ys) ∨
  (new = false ∧ ∃ x, xs[i]? = some x ∧ U.same x v = true ∧ ys = xs.set i (U.upd x v))

/-- The elements after inserting the elements of a list one by one: a container with unique keys keeps the first
element for every key. -/
def merge (U : KeyEq α κ) (multi : Bool) (xs : List α) : List α → List α
  | [] => xs
  | v :: vs => if multi = true ∨ xs.all (fun x => !U.same x v) = true then merge U multi (xs ++ [v]) vs
      else merge U multi xs vs

/-- Removing the elements at positions `k, …, l - 1`: the elements before stay where they are, the others follow in any
order. -/
def Removed (xs : List α) (k l : Nat) (ys : List α) : Prop :=
  ys.take k = xs.take k ∧ (ys.drop k).Perm (xs.drop l)

/-- Removing the elements that satisfy `f` and returning how many there were. -/
def RemovedAll (f : α → Bool) (xs : List α) (r : Ret) (ys : List α) : Prop :=
  r = .num (xs.countP f) ∧ ys.Perm (xs.filter (fun x => !f x))

/-- What an operation that returns does to a container holding the elements `xs`. -/
def Op.Result (U : KeyEq α κ) (multi : Bool) (xs : List α) : Op α κ → Ret → List α → Prop
  | .insert s, r, ys => ∃ v i new, s.get? xs = some v ∧ r = .ins i new ∧ Inserted U multi xs v i new ys
  | .insertHint _ s, r, ys => ∃ v i new, s.get? xs = some v ∧ r = .pos i ∧ Inserted U multi xs v i new ys
  | .emplace v, r, ys => ∃ i new, r = .ins i new ∧ Inserted U multi xs v i new ys
  | .emplaceHint _ v, r, ys => ∃ i new, r = .pos i ∧ Inserted U multi xs v i new ys
  | .tryEmplace v, r, ys => ∃ i new, r = .ins i new ∧ Inserted U multi xs v i new ys
  | .tryEmplaceHint _ v, r, ys => ∃ i new, r = .pos i ∧ Inserted U multi xs v i new ys
  | .insertOrAssign v, r, ys => ∃ i new, r = .ins i new ∧ Assigned U xs v i new ys
  | .insertOrAssignHint _ v, r, ys => ∃ i new, r = .pos i ∧ Assigned U xs v i new ys
  | .insertRange vs, r, ys => r = .unit ∧ ys = merge U multi xs vs
  | .assignList vs, r, ys => r = .unit ∧ ys = merge U multi [] vs
  | .eraseAt k, r, ys => r = .pos k ∧ Removed xs k (k + 1) ys
  | .eraseRange k l, r, ys => r = .pos k ∧ Removed xs k l ys
  | .eraseKey k, r, ys => RemovedAll (U.hasKey k) xs r ys
  | .eraseEqual i, r, ys => ∃ x, xs[i]? = some x ∧ RemovedAll (U.hasKey (U.key x)) xs r ys
  | .eraseIf f, r, ys => RemovedAll f xs r ys
  | .clear, r, ys => r = .unit ∧ ys = []
  | .reserve _, r, ys => r = .unit ∧ ys = xs
  | .shrinkToFit, r, ys => r = .unit ∧ ys = xs

/-- Operations whose effect depends on the keys being different. -/
def Op.keyed : Op α κ → Bool
  | .eraseKey _ | .eraseEqual _ => true
  | _ => false

/-- Operations that only change the storage. -/
def Op.storage : Op α κ → Bool
  | .reserve _ | .shrinkToFit => true
  | _ => false

/-- Operations that remove elements. -/
def Op.erases : Op α κ → Bool
  | .eraseAt _ | .eraseRange _ _ | .eraseKey _ | .eraseEqual _ | .eraseIf _ => true
  | _ => false

/-- clear() -/
def Op.clears : Op α κ → Bool
  | .clear => true
  | _ => false

/-- Operations that insert at most one new element. -/
def Op.one : Op α κ → Bool
  | .insert _ | .insertHint _ _ | .emplace _ | .emplaceHint _ _ | .tryEmplace _ | .tryEmplaceHint _ _ => true
  | _ => false

/-- All operations except emplace and emplace_hint of those containers with unique keys that add the element before
looking for its key (`appends`: small maps, static sets and maps), if the equality may throw. -/
def Op.careful (multi appends nt : Bool) : Op α κ → Bool
  | .emplace _ | .emplaceHint _ _ => multi || !appends || nt
  | _ => true

/-- What may remain after the operation has thrown `e`. -/
structure Op.Failure (U : KeyEq α κ) (multi appends : Bool) (strongE nothrowE : Prop) (maxSize : Nat) (xs : List α)
    (op : Op α κ) (e : Exn) (xs' : List α) : Prop where
  can : op.clears = false
  len : e = .lengthError → maxSize < op.room xs.length
  distinct : nothrowE → op.careful multi appends U.nothrow = true → U.Distinct multi xs → U.Distinct multi xs'
  strong : strongE → op.careful multi appends U.nothrow = true → op.one = true ∨ op.storage = true → xs' = xs
  some : nothrowE → op.erases = true → ∃ zs, zs.Sublist xs ∧ xs'.Perm zs
  erase : nothrowE → U.nothrow = true → op.erases = false

/-- What an operation of an unordered flat map that holds the elements `xs` does to the finite map `m`, in terms of
finite maps. The elements are only used to tell which element a position or a reference argument means. -/
def Op.MapResult (U : KeyEq α κ) (xs : List α) (m : κ → Option α) : Op α κ → (κ → Option α) → Prop
  | .insert s, m' => ∃ v, s.get? xs = some v ∧ m' = KMap.putNew U.key U.eq m v
  | .insertHint _ s, m' => ∃ v, s.get? xs = some v ∧ m' = KMap.putNew U.key U.eq m v
  | .emplace v, m' => m' = KMap.putNew U.key U.eq m v
  | .emplaceHint _ v, m' => m' = KMap.putNew U.key U.eq m v
  | .tryEmplace v, m' => m' = KMap.putNew U.key U.eq m v
  | .tryEmplaceHint _ v, m' => m' = KMap.putNew U.key U.eq m v
  | .insertOrAssign v, m' => m' = KMap.put U.key U.eq U.upd m v
  | .insertOrAssignHint _ v, m' => m' = KMap.put U.key U.eq U.upd m v
  | .insertRange vs, m' => m' = vs.foldl (KMap.putNew U.key U.eq) m
  | .assignList vs, m' => m' = vs.foldl (KMap.putNew U.key U.eq) (fun _ => none)
  | .eraseAt i, m' => ∃ x, xs[i]? = some x ∧ m' = KMap.remove U.eq m (U.key x)
  | .eraseRange i j, m' => m' = ((xs.take j).drop i).foldl (fun m x => KMap.remove U.eq m (U.key x)) m
  | .eraseKey k, m' => m' = KMap.remove U.eq m k
  | .eraseEqual i, m' => ∃ x, xs[i]? = some x ∧ m' = KMap.remove U.eq m (U.key x)
  | .eraseIf f, m' => m' = KMap.keep (fun x => !f x) m
  | .clear, m' => m' = fun _ => none
  | .reserve _, m' => m' = m
  | .shrinkToFit, m' => m' = m

end Unord

/-! ### Facts about equalities and sequences -/

section
variable {U : KeyEq α κ} {multi : Bool} {xs ys : List α} {v : α}

theorem KeyEq.Lawful.same_symm (L : U.Lawful) (a b : α) : U.same a b = U.same b a := by
  rw [Bool.eq_iff_iff]
  exact ⟨L.equiv.symm, L.equiv.symm⟩

theorem KeyEq.Distinct.perm (L : U.Lawful) (h : U.Distinct multi xs) (hp : ys.Perm xs) : U.Distinct multi ys :=
  fun hm => (h hm).perm L.equiv hp

theorem KeyEq.Distinct.sublist (h : U.Distinct multi xs) (hs : ys.Sublist xs) : U.Distinct multi ys :=
  fun hm => List.Pairwise.sublist hs (h hm)

theorem KeyEq.Distinct.append (h : U.Distinct multi xs) (hv : multi = true ∨ ∀ x ∈ xs, U.same x v = false) :
    U.Distinct multi (xs ++ [v]) := by
  intro hm
  refine List.pairwise_append.mpr ⟨h hm, List.pairwise_singleton _ _, ?_⟩
  intro a ha c hc
  obtain rfl : c = v := by simpa using hc
  rcases hv with h | h
  · rw [hm] at h; cases h
  · exact h a ha

theorem KeyEq.Distinct.set (L : U.Lawful) {i : Nat} {x w : α} (h : U.Distinct multi xs) (hx : xs[i]? = some x) :
    U.Distinct multi (xs.set i (U.upd x w)) := by
  intro hm
  have h := h hm
  unfold KMap.Distinct at h ⊢
  rw [List.pairwise_iff_getElem] at h ⊢
  have hk : ∀ (j : Nat) (hj : j < xs.length), U.key ((xs.set i (U.upd x w))[j]'(by simpa using hj)) = U.key xs[j] := by
    intro j hj
    rw [List.getElem_set]
    split
    · rename_i e
      subst e
      rw [L.upd]
      congr 1
      exact (List.getElem?_eq_some_iff.mp hx).2.symm
    · rfl
  intro a c ha hc hac
  rw [hk a (by simpa using ha), hk c (by simpa using hc)]
  exact h a c _ _ hac

theorem Unord.Inserted.distinct {i : Nat} {new : Bool} (h : Unord.Inserted U multi xs v i new ys)
    (hs : U.Distinct multi xs) : U.Distinct multi ys := by
  rcases h with ⟨-, h1, -, rfl⟩ | ⟨-, -, rfl, -⟩
  · exact hs.append h1
  · exact hs

theorem Unord.Inserted.length {i : Nat} {new : Bool} (h : Unord.Inserted U multi xs v i new ys) :
    xs.length ≤ ys.length ∧ ys.length ≤ xs.length + 1 := by
  rcases h with ⟨-, -, -, rfl⟩ | ⟨-, -, rfl, -⟩ <;> simp

theorem Unord.Assigned.distinct (L : U.Lawful) {i : Nat} {new : Bool} (h : Unord.Assigned U xs v i new ys)
    (hs : U.Distinct false xs) : U.Distinct false ys := by
  rcases h with ⟨-, h⟩ | ⟨-, x, hx, -, rfl⟩
  · exact h.distinct hs
  · exact hs.set L hx

theorem Unord.merge_distinct (vs : List α) (hs : U.Distinct multi xs) : U.Distinct multi (merge U multi xs vs) := by
  induction vs generalizing xs with
  | nil => exact hs
  | cons v vs ih =>
    unfold merge
    split
    · rename_i hc
      refine ih (hs.append (hc.imp id fun h => ?_))
      intro x hx
      rw [List.all_eq_true] at h
      simpa using h x hx
    · exact ih hs

theorem Unord.Inserted.merge {i : Nat} {new : Bool} (vs : List α) (h : Unord.Inserted U multi xs v i new ys) :
    Unord.merge U multi ys vs = Unord.merge U multi xs (v :: vs) := by
  rcases h with ⟨-, h1, -, rfl⟩ | ⟨-, h2, rfl, x, hx, hxv⟩
  · have hc : multi = true ∨ xs.all (fun x => !U.same x v) = true := h1.imp id (fun h => by
      rw [List.all_eq_true]; intro x hx; simp [h x hx])
    rw [Unord.merge.eq_2, if_pos hc]
  · have hc : ¬ (multi = true ∨ ys.all (fun x => !U.same x v) = true) := by
      rintro (h | h)
      · rw [h2] at h; cases h
      · rw [List.all_eq_true] at h
        have := h x (List.mem_of_getElem? hx)
        simp [hxv] at this
    rw [Unord.merge.eq_2, if_neg hc]

theorem Unord.Removed.perm {k l : Nat} (h : Unord.Removed xs k l ys) : ys.Perm (xs.take k ++ xs.drop l) := by
  conv => lhs; rw [← List.take_append_drop k ys, h.1]
  exact h.2.append_left _

theorem Unord.cut_sublist {k l : Nat} (hkl : k ≤ l) : (xs.take k ++ xs.drop l).Sublist xs := by
  conv => rhs; rw [← List.take_append_drop k xs]
  refine (List.Sublist.refl _).append ?_
  rw [show l = k + (l - k) by omega, ← List.drop_drop]
  exact List.drop_sublist _ _

/-- In a container with unique keys a key is found at most once. -/
theorem KeyEq.Distinct.countP_le (L : U.Lawful) (h : U.Distinct false xs) (k : κ) : xs.countP (U.hasKey k) ≤ 1 := by
  have h := h rfl
  induction xs with
  | nil => simp
  | cons x xs ih =>
    have h1 := List.pairwise_cons.mp h
    rw [List.countP_cons]
    split
    · rename_i hx
      have : xs.countP (U.hasKey k) = 0 := by
        rw [List.countP_eq_zero]
        intro y hy hyk
        have := L.equiv.trans hx (L.equiv.symm hyk)
        rw [h1.1 y hy] at this; cases this
      omega
    · exact ih (fun _ => h1.2) h1.2

end

end Sfl
