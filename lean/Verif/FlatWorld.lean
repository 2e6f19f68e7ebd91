import Verif.WorldVec
import Verif.WorldTrack
import Verif.FlatExec
/-
  The small ordered flat containers as container types of the client programs of `World.lean`.
-/

namespace Sfl.Flat
open Sfl.Vector (VM)
open World
variable {α κ : Type}

/-- The constructors without a source container: default (small_flat_set.hpp:177-211) and from a range or an
initializer list (213-275, 351-385). -/
inductive Init (α : Type) where
  | empty
  | range (vs : List α)

/-- What the constructors produce: a sequence in order with one element of every class (all elements for the multi
containers). -/
def Init.Result (C : Order α κ) (multi : Bool) : Init α → List α → Prop
  | .empty, ys => ys = []
  | .range vs, ys => C.Sorted multi ys ∧ ys.Perm (merge C multi [] vs)

/-- Number of elements given to the constructor. -/
def Init.count : Init α → Nat
  | .empty => 0
  | .range vs => vs.length

/-- small_flat_set.hpp:1326-1357 `initialize_range` (small_flat_map.hpp:1560-1591, small_flat_multiset.hpp:1305-1336,
small_flat_multimap.hpp:1378-1409): insert one by one; on exception release everything. -/
def construct (multi : Bool) (C : Order α κ) (E : Env α) (ib N : Nat) : Init α → VM α Unit
  | .empty => pure ()
  | .range vs => M.tryCatch (insertRange (small multi E ib N) C E vs) (fun e => do
      SmallVector.destructor ib
      M.throw e)

/-- A modifier that returns. If the elements are in order (or the operation does not need that), it does what the
specification says. -/
def okStep (C : Order α κ) (multi : Bool) (xs : List α) (op : Op α κ) (r : Option Ret) (ys : List α) : Prop :=
  ∃ ret, r = some ret ∧ ((op.free = true ∨ C.Sorted multi xs) → op.Result C multi xs ret ys)

/-- A modifier that throws. -/
def failStep (C : Order α κ) (multi : Bool) (E : Env α) (xs : List α) (op : Op α κ) (e : Exn) (ys : List α) : Prop :=
  op.Failure C multi (Strong E) (NothrowMove E) E.maxSize xs e ys

/-- Abstract meaning of the small ordered flat containers. The comparator is the same for all containers of a program. -/
def smallSem (multi : Bool) (C : Order α κ) (E : Env α) (T : Traits) : Sem (Op α κ) (Init α) α Ret :=
  SmallVector.semOf E T (fun n op => op.pre multi n) (okStep C multi) (failStep C multi E) (Init.Result C multi)
    (fun i e => e = .lengthError → E.maxSize < i.count)

/-- The small ordered flat containers as a container type (small_flat_set.hpp:177-1067 and the corresponding functions
of small_flat_map.hpp, small_flat_multiset.hpp, small_flat_multimap.hpp). -/
def smallCont {K : Nat} (multi : Bool) (C : Order α κ) (E : Env α) (T : Traits) (ib : Fin K → Nat) (N : Nat) :
    Cont K (Op α κ) (Init α) Vec α Ret :=
  SmallVector.contOf E T ib N (fun i init => construct multi C E (ib i) N init) (fun i op => do
    let r ← (smallImpl multi C E (ib i) N).exec op
    pure (some r))

section
variable {K : Nat} {E : Env α} {T : Traits} {C : Order α κ} {multi : Bool} {N : Nat}

theorem construct_spec {H : Heap α} {ib al : Nat} {m : St α} (L : C.Lawful) (init : Init α) (hg : Gone H al ib N m)
    (hN : N ≤ E.maxSize) :
    wp (construct multi C E ib N init)
      (fun _ o' => ∃ b' cap' xs, VSt H E ib N o' al b' cap' xs ∧ init.Result C multi xs)
      (fun e o' => Gone H al ib N o'.m ∧ (e = .lengthError → E.maxSize < init.count))
      ⟨SmallVector.empty ib N al, m⟩ := by
  have hv := VSt.mkEmpty (E := E) hg.st hg.raw hN
  cases init with
  | empty => exact ⟨ib, N, [], hv, rfl⟩
  | range vs =>
    unfold construct
    rw [wp_tryCatch]
    refine wp_mono (insertRange_spec L (small_ok multi E ib N) vs hv (fun h => by cases h)) ?_ ?_
    · rintro _ o1 ⟨b1, cap1, ys, hd, -, -, hs⟩
      exact ⟨b1, cap1, ys, hd.v, hs List.Pairwise.nil⟩
    · rintro e o1 ⟨b1, cap1, xs1, hf, -, hl⟩
      rw [wp_bind]
      refine wp_mono (destructor_gone hf.v) ?_ (fun _ _ h => h.elim)
      rintro _ o2 ⟨g, -, -⟩
      rw [wp_throw]
      exact ⟨g, fun he => by have := hl he; simpa [Init.count] using this⟩

/-- The small ordered flat containers satisfy the requirements. -/
theorem smallSpec {ib : Fin K → Nat} (L : C.Lawful) (hN : N ≤ E.maxSize) :
    Spec (smallCont multi C E T ib N) (smallSem multi C E T) (SmallVector.rep E ib N) :=
  SmallVector.specOf hN
    (fun _ i _ _ init hg => construct_spec (ib := ib i) L init hg hN)
    (fun _ i _ _ _ _ _ op h hp => by
      rw [wp_bind]
      refine wp_mono (exec_spec L (small_ok multi E (ib i) N) op h hp (fun h => by cases h)) ?_ ?_
      · rintro r o1 ⟨b1, cap1, ys, hd, hr⟩
        exact ⟨b1, cap1, ys, hd.v, r, rfl, hr⟩
      · rintro e o1 ⟨b1, cap1, ys, hd, hr, -⟩
        exact ⟨b1, cap1, ys, hd.v, hr.fail⟩)

end

/-! ### Which containers are in order -/

/-- Operations whose result does not depend on the elements before. -/
def Op.renews : Op α κ → Bool
  | .clear | .assignList _ => true
  | _ => false

/-- What a client knows about order from the outcomes of operations (see `World.Flags`). -/
def smallFlags (multi nm : Bool) : Flags (Op α κ) where
  ok := fun op d => d && !op.renews
  fail := fun op d => d || !(nm && op.safe multi)

theorem Init.Result.sorted {C : Order α κ} {multi : Bool} {init : Init α} {xs : List α} (h : init.Result C multi xs) :
    C.Sorted multi xs := by
  cases init with
  | empty => rw [show xs = [] from h]; exact List.Pairwise.nil
  | range => exact h.1

theorem sorted_sublist {C : Order α κ} {multi : Bool} {xs ys : List α} (h : C.Sorted multi xs) (hs : ys.Sublist xs) :
    C.Sorted multi ys := h.sublist hs

/-- An operation keeps the order. -/
theorem Op.Result.sorted {C : Order α κ} {multi : Bool} {xs ys : List α} {op : Op α κ} {r : Ret} (L : C.Lawful)
    (hp : op.pre multi xs.length = true) (hs : C.Sorted multi xs ∨ op.renews = true)
    (h : op.Result C multi xs r ys) : C.Sorted multi ys := by
  have hs' : op.renews = false → C.Sorted multi xs := by
    intro e; rcases hs with h | h
    · exact h
    · rw [e] at h; cases h
  have hu : op.uniqueOnly = true → multi = false := by
    intro hu; unfold Op.pre at hp; rw [hu] at hp; cases multi
    · rfl
    · simp at hp
  cases op with
  | insert s => obtain ⟨v, i, new, -, -, h⟩ := h; exact h.sorted (hs' rfl)
  | insertHint _ s => obtain ⟨v, i, new, -, -, h⟩ := h; exact h.sorted (hs' rfl)
  | emplace v => obtain ⟨i, new, -, h⟩ := h; exact h.sorted (hs' rfl)
  | emplaceHint _ v => obtain ⟨i, new, -, h⟩ := h; exact h.sorted (hs' rfl)
  | tryEmplace v => obtain ⟨i, new, -, h⟩ := h; exact h.sorted (hs' rfl)
  | tryEmplaceHint _ v => obtain ⟨i, new, -, h⟩ := h; exact h.sorted (hs' rfl)
  | insertOrAssign v =>
    obtain rfl := hu rfl
    obtain ⟨i, new, -, h⟩ := h; exact h.sorted L (hs' rfl)
  | insertOrAssignHint _ v =>
    obtain rfl := hu rfl
    obtain ⟨i, new, -, h⟩ := h; exact h.sorted L (hs' rfl)
  | insertRange vs => exact h.2.1
  | assignList vs => exact h.2.1
  | eraseAt k =>
    obtain ⟨-, rfl⟩ := h
    refine sorted_sublist (hs' rfl) ?_
    conv => rhs; rw [← List.take_append_drop k xs]
    exact (List.Sublist.refl _).append (by rw [← List.drop_drop]; exact List.drop_sublist _ _)
  | eraseRange k l =>
    obtain ⟨-, rfl⟩ := h
    have hkl : k ≤ l := by simp [Op.pre, Op.uniqueOnly] at hp; exact hp.1
    refine sorted_sublist (hs' rfl) ?_
    conv => rhs; rw [← List.take_append_drop k xs]
    refine (List.Sublist.refl _).append ?_
    rw [show l = k + (l - k) by omega, ← List.drop_drop]
    exact List.drop_sublist _ _
  | eraseKey k => obtain ⟨-, rfl⟩ := h; exact sorted_sublist (hs' rfl) List.filter_sublist
  | eraseIf f => obtain ⟨-, rfl⟩ := h; exact sorted_sublist (hs' rfl) List.filter_sublist
  | clear => obtain ⟨-, rfl⟩ := h; exact List.Pairwise.nil
  | reserve n => obtain ⟨-, rfl⟩ := h; exact hs' rfl
  | shrinkToFit => obtain ⟨-, rfl⟩ := h; exact hs' rfl

theorem okStep.sorted {C : Order α κ} {multi : Bool} {xs ys : List α} {op : Op α κ} {r : Option Ret} (L : C.Lawful)
    (hp : op.pre multi xs.length = true) (h : okStep C multi xs op r ys)
    (hs : C.Sorted multi xs ∨ op.renews = true) : C.Sorted multi ys := by
  obtain ⟨ret, -, h⟩ := h
  refine (h ?_).sorted L hp hs
  rcases hs with hs | hs
  · exact Or.inr hs
  · left; cases op <;> simp_all [Op.free, Op.renews]

theorem smallKeeps {C : Order α κ} {multi nm : Bool} {E : Env α} {T : Traits} (L : C.Lawful)
    (hn : nm = true → NothrowMove E) : Keeps (smallSem multi C E T) (C.Sorted multi) (smallFlags multi nm) where
  init := fun _ _ h => h.sorted
  ok := by
    intro xs op r ys d hp h hx hd
    refine h.sorted L hp ?_
    simp only [smallFlags, Bool.and_eq_false_iff] at hd
    rcases hd with hd | hd
    · exact Or.inl (hx hd)
    · exact Or.inr (by simpa using hd)
  fail := by
    intro xs op e ys d hp h hx hd
    simp only [smallFlags, Bool.or_eq_false_iff, Bool.not_eq_false', Bool.and_eq_true] at hd
    exact h.order (hn hd.2.1) hd.2.2 (hx hd.1)

end Sfl.Flat
