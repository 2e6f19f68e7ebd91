import Verif.UnordExec
import Verif.StaticFlat
/-
  The unordered flat containers as container types of the client programs of `World.lean`. Copy and move constructors,
  copy and move assignment and `swap` have the text of small_vector's and static_vector's
  (small_unordered_flat_set.hpp:895-1055 `swap`, 1267-1299 `initialize_copy`, 1301-1357 `initialize_move`, 1421-1439
  `assign_copy`, 1441-1507 `assign_move`; static_unordered_flat_set.hpp:194-247 and 542-608; the same functions in the
  other six headers).
-/

namespace Sfl.Unord
open Sfl.Vector (VM)
open Flat (Ret Init)
open World
variable {α κ : Type}

/-- What the constructors without a source container produce: of elements with equal keys the first one (all elements
for the multi containers). -/
def InitResult (U : KeyEq α κ) (multi : Bool) : Init α → List α → Prop
  | .empty, ys => ys = []
  | .range vs, ys => ys = merge U multi [] vs

/-- small_unordered_flat_set.hpp:1234-1265 `initialize_range` (small_unordered_flat_map.hpp:1481-1512,
small_unordered_flat_multiset.hpp:1254-1285, small_unordered_flat_multimap.hpp:1340-1371): insert one by one; on exception
release everything. -/
def construct (multi isMap : Bool) (U : KeyEq α κ) (E : Env α) (ib N : Nat) : Init α → VM α Unit
  | .empty => pure ()
  | .range vs => M.tryCatch (insertRange (small multi isMap E ib N) U E vs) (fun e => do
      SmallVector.destructor ib
      M.throw e)

/-- The loop of the range constructor of the static containers: `emplace(*first)` (static_unordered_flat_set.hpp:150-154,
170-174, static_unordered_flat_map.hpp:203-207, 223-227, static_unordered_flat_multiset.hpp:150-154,
static_unordered_flat_multimap.hpp:203-207). -/
def emplaceRange (multi isMap : Bool) (U : KeyEq α κ) (E : Env α) : List α → VM α Unit
  | [] => pure ()
  | v :: vs => do
    (static multi isMap E).guard
    let _ ← emplace (static multi isMap E) U E v
    emplaceRange multi isMap U E vs

/-- The constructors of the static containers without a source container (static_unordered_flat_set.hpp:133-192,
static_unordered_flat_map.hpp:186-247, static_unordered_flat_multiset.hpp:133-192, static_unordered_flat_multimap.hpp:186-247):
on exception the elements are destroyed. -/
def staticConstruct (multi isMap : Bool) (U : KeyEq α κ) (E : Env α) : Init α → VM α Unit
  | .empty => pure ()
  | .range vs => M.tryCatch (emplaceRange multi isMap U E vs) (fun e => do
      StaticVector.destructor
      M.throw e)

/-- A modifier that returns. If the keys are different (or the operation does not need that), it does what the
specification says. -/
def okStep (U : KeyEq α κ) (multi : Bool) (xs : List α) (op : Op α κ) (r : Option Ret) (ys : List α) : Prop :=
  ∃ ret, r = some ret ∧ ((op.keyed = false ∨ U.Distinct multi xs) → op.Result U multi xs ret ys)

/-- A modifier that throws. -/
def failStep (U : KeyEq α κ) (multi appends : Bool) (E : Env α) (xs : List α) (op : Op α κ) (e : Exn) (ys : List α) : Prop :=
  op.Failure U multi appends (Strong E) (NothrowMove E) E.maxSize xs e ys

/-- Abstract meaning of the small unordered flat containers. -/
def smallSem (multi isMap : Bool) (U : KeyEq α κ) (E : Env α) (T : Traits) : Sem (Op α κ) (Init α) α Ret :=
  SmallVector.semOf E T (fun n op => op.pre multi n) (okStep U multi) (failStep U multi isMap E) (InitResult U multi)
    (fun i e => e = .lengthError → E.maxSize < i.count)

/-- The small unordered flat containers as a container type (small_unordered_flat_set.hpp:165-1055 and the corresponding
functions of the other three headers). -/
def smallCont {K : Nat} (multi isMap : Bool) (U : KeyEq α κ) (E : Env α) (T : Traits) (ib : Fin K → Nat) (N : Nat) :
    Cont K (Op α κ) (Init α) Vec α Ret :=
  SmallVector.contOf E T ib N (fun i init => construct multi isMap U E (ib i) N init) (fun i op => do
    let r ← (smallImpl multi isMap U E (ib i) N).exec op
    pure (some r))

/-- The operations of the static containers that exist, under their preconditions: there must be room for the new
elements, even if they turn out to be present already. -/
def staticPre (multi : Bool) (N : Nat) (n : Nat) (op : Op α κ) : Bool :=
  op.pre multi n && decide (op.room n ≤ N) && !op.storage

/-- A modifier that returns: `operator=(initializer_list)` leaves the list as it is. -/
def staticOk (U : KeyEq α κ) (multi : Bool) (N : Nat) (xs : List α) (op : Op α κ) (r : Option Ret) (ys : List α) : Prop :=
  ys.length ≤ N ∧ match op with
    | .assignList vs => r = some .unit ∧ ys = vs
    | op => okStep U multi xs op r ys

/-- A modifier that throws: never because of memory or length. -/
def staticFail (U : KeyEq α κ) (multi : Bool) (E : Env α) (N : Nat) (xs : List α) (op : Op α κ) (e : Exn) (ys : List α) :
    Prop :=
  ys.length ≤ N ∧ e ≠ .badAlloc ∧ e ≠ .lengthError ∧ match op with
    | .assignList _ => True
    | op => failStep U multi true E xs op e ys

/-- Abstract meaning of the static unordered flat containers. -/
def staticSem (multi : Bool) (U : KeyEq α κ) (E : Env α) (N : Nat) : Sem (Op α κ) (Init α) α Ret :=
  StaticVector.semOf E N (staticPre multi N) (staticOk U multi N) (staticFail U multi E N) (fun i => decide (i.count ≤ N))
    (InitResult U multi) (fun _ e => e ≠ .badAlloc ∧ e ≠ .lengthError)

/-- The static unordered flat containers as a container type (public functions of static_unordered_flat_set.hpp:133-608
and the other three headers). -/
def staticCont {K : Nat} (multi isMap : Bool) (U : KeyEq α κ) (E : Env α) (ib : Fin K → Nat) (N : Nat) :
    Cont K (Op α κ) (Init α) Vec α Ret :=
  StaticVector.contOf E ib N (fun _ init => staticConstruct multi isMap U E init) (fun _ op => do
    let r ← staticExec multi isMap U E N op
    pure (some r))

section
variable {K : Nat} {E : Env α} {T : Traits} {U : KeyEq α κ} {multi isMap : Bool} {N : Nat} {H : Heap α} {ib al : Nat}
  {o : Obj Vec α} {xs : List α}

theorem construct_spec {m : St α} (init : Init α) (hg : Gone H al ib N m)
    (hN : N ≤ E.maxSize) :
    wp (construct multi isMap U E ib N init)
      (fun _ o' => ∃ b' cap' xs, VSt H E ib N o' al b' cap' xs ∧ InitResult U multi init xs)
      (fun e o' => Gone H al ib N o'.m ∧ (e = .lengthError → E.maxSize < init.count))
      ⟨SmallVector.empty ib N al, m⟩ := by
  have hv := VSt.mkEmpty (E := E) hg.st hg.raw hN
  cases init with
  | empty => exact ⟨ib, N, [], hv, rfl⟩
  | range vs =>
    unfold construct
    rw [wp_tryCatch]
    refine wp_mono (insertRange_spec (U := U) (small_ok multi isMap E ib N) vs hv (fun h => by cases h)) ?_ ?_
    · rintro _ o1 ⟨b1, cap1, hd⟩
      exact ⟨b1, cap1, _, hd.v, rfl⟩
    · rintro e o1 ⟨b1, cap1, xs1, hf, -, hl⟩
      rw [wp_bind]
      refine wp_mono (destructor_gone hf.v) ?_ (fun _ _ h => h.elim)
      rintro _ o2 ⟨g, -, -⟩
      rw [wp_throw]
      exact ⟨g, fun he => by have := hl he; simpa [Init.count] using this⟩

/-- The small unordered flat containers satisfy the requirements. -/
theorem smallSpec {ib : Fin K → Nat} (L : U.Lawful) (hN : N ≤ E.maxSize) :
    Spec (smallCont multi isMap U E T ib N) (smallSem multi isMap U E T) (SmallVector.rep E ib N) :=
  SmallVector.specOf hN
    (fun _ i _ _ init hg => construct_spec (ib := ib i) init hg hN)
    (fun _ i _ _ _ _ _ op h hp => by
      rw [wp_bind]
      refine wp_mono (exec_spec L (small_ok multi isMap E (ib i) N) op h hp (fun h => by cases h)) ?_ ?_
      · rintro r o1 ⟨b1, cap1, ys, hd, hr⟩
        exact ⟨b1, cap1, ys, hd.v, r, rfl, hr⟩
      · rintro e o1 ⟨b1, cap1, ys, hd, hr, -⟩
        exact ⟨b1, cap1, ys, hd.v, hr⟩)

theorem emplaceRange_spec (L : U.Lawful) (vs : List α) : ∀ {o : Obj Vec α} {xs : List α}, VSt H E ib N o al ib N xs →
    xs.length + vs.length ≤ N →
    wp (emplaceRange multi isMap U E vs)
      (fun _ o' => VSt H E ib N o' al ib N (merge U multi xs vs) ∧ o'.m.next = o.m.next)
      (fun e o' => ∃ ys, VSt H E ib N o' al ib N ys ∧ o'.m.next = o.m.next ∧ e ≠ .badAlloc ∧ e ≠ .lengthError) o := by
  induction vs with
  | nil =>
    intro o xs h _
    exact ⟨h, rfl⟩
  | cons v vs ih =>
    intro o xs h hr
    simp only [List.length_cons] at hr
    have hN := h.nLe
    have hr1 : Fits true ib N ib N (xs.length + 1) := fun _ => ⟨rfl, rfl, by omega⟩
    unfold emplaceRange
    rw [wp_bind]
    refine (static_ok multi isMap E ib N).guard h hr1 ?_
    rw [wp_bind]
    refine wp_mono (emplace_spec L (static_ok multi isMap E ib N) h hr1) ?_ ?_
    · rintro r o1 ⟨b1, cap1, i, ys, hd, hi⟩
      obtain ⟨rfl, rfl, hn⟩ := hd.op.inside rfl rfl (by omega)
      have h2 := hi.length
      refine wp_mono (ih hd.op.v (by omega)) ?_ ?_
      · rintro _ o2 ⟨g1, g2⟩
        have e : merge U multi ys vs = merge U multi xs (v :: vs) := hi.merge vs
        rw [e] at g1
        exact ⟨g1, g2.trans hn⟩
      · rintro e o2 ⟨zs, g1, g2, g3⟩
        exact ⟨zs, g1, g2.trans hn, g3⟩
    · rintro e o1 ⟨b', cap', xs', hf⟩
      obtain ⟨rfl, rfl, g3, g4⟩ := hf.op.inside rfl rfl (by omega)
      exact ⟨xs', hf.op.v, g3, g4, fun he => by have := hf.lenErr he; omega⟩

theorem staticConstruct_spec {m : St α} (L : U.Lawful) (init : Init α) (hg : Gone H al ib N m) (hN : N ≤ E.maxSize)
    (hr : init.count ≤ N) :
    wp (staticConstruct multi isMap U E init)
      (fun _ o' => ∃ xs, VSt H E ib N o' al ib N xs ∧ InitResult U multi init xs)
      (fun e o' => Gone H al ib N o'.m ∧ e ≠ .badAlloc ∧ e ≠ .lengthError)
      ⟨SmallVector.empty ib N al, m⟩ := by
  have hv := VSt.mkEmpty (E := E) hg.st hg.raw hN
  cases init with
  | empty => exact ⟨[], hv, rfl⟩
  | range vs =>
    unfold staticConstruct
    rw [wp_tryCatch]
    refine wp_mono (emplaceRange_spec L vs hv (by simpa [Init.count] using hr)) ?_ ?_
    · rintro _ o1 ⟨hd, -⟩
      exact ⟨_, hd, rfl⟩
    · rintro e o1 ⟨ys, hd, -, he⟩
      rw [wp_bind]
      refine wp_mono (StaticVector.destructor_spec hd) ?_ (fun _ _ h => h.elim)
      rintro _ o2 ⟨g, -⟩
      rw [wp_throw]
      exact ⟨g, he⟩

theorem staticExec_spec (L : U.Lawful) (op : Op α κ) (h : VSt H E ib N o al ib N xs)
    (hp : staticPre multi N xs.length op = true) :
    wp (staticExec multi isMap U E N op)
      (fun r o' => ∃ ys, VSt H E ib N o' al ib N ys ∧ o'.m.next = o.m.next ∧ staticOk U multi N xs op (some r) ys)
      (fun e o' => ∃ ys, VSt H E ib N o' al ib N ys ∧ o'.m.next = o.m.next ∧ staticFail U multi E N xs op e ys) o := by
  have hN := h.nLe
  unfold staticPre at hp
  simp only [Bool.and_eq_true, decide_eq_true_eq, Bool.not_eq_true'] at hp
  obtain ⟨⟨hp1, hp2⟩, hp3⟩ := hp
  by_cases ha : ∃ vs, op = .assignList vs
  · obtain ⟨vs, rfl⟩ := ha
    have hl : vs.length ≤ N := hp2
    unfold staticExec
    rw [wp_bind]
    refine wp_eq (StaticVector.assignRange_eq h (by simpa using hl)) (wp_mono (assignRange_spec h (Exts.vals vs)) ?_ ?_)
    · rintro _ o' ⟨b', cap', k, hk, hn⟩
      obtain ⟨rfl, rfl⟩ := hk hl
      exact ⟨vs, k, hn (by omega), hl, rfl, rfl⟩
    · rintro e o' ⟨b', cap', xs', k, hk, hn, he⟩
      obtain ⟨rfl, rfl⟩ := hk hl
      exact ⟨xs', k, (hn (by omega)).1, k.len, (hn (by omega)).2, fun h => by have := (he h).1; omega, trivial⟩
  · have e : staticExec multi isMap U E N op o =
        exec (static multi isMap E) U E (SmallVector.reserve E ib N) (SmallVector.shrinkToFit E ib N) op o := by
      cases op <;> first | rfl | (exact absurd ⟨_, rfl⟩ ha) | (cases hp3)
    refine wp_eq e (wp_mono (exec_spec L (static_ok multi isMap E ib N) op h hp1 (fun _ => ⟨rfl, rfl, hp2⟩)) ?_ ?_)
    · rintro r o1 ⟨b1, cap1, ys, hd, hr⟩
      obtain ⟨rfl, rfl, hn⟩ := hd.inside rfl rfl hp2
      refine ⟨ys, hd.v, hn, hd.v.len, ?_⟩
      have : okStep U multi xs op (some r) ys := ⟨r, rfl, hr⟩
      cases op <;> first | exact this | exact absurd ⟨_, rfl⟩ ha
    · rintro e o1 ⟨b1, cap1, ys, hd, hr, -⟩
      obtain ⟨rfl, rfl, hn, he⟩ := hd.inside rfl rfl hp2
      refine ⟨ys, hd.v, hn, hd.v.len, he, fun h => by have := hr.len h; omega, ?_⟩
      cases op <;> first | exact hr | exact absurd ⟨_, rfl⟩ ha

/-- The static unordered flat containers satisfy the requirements. -/
theorem staticSpec {ib : Fin K → Nat} (L : U.Lawful) (hN : N ≤ E.maxSize) :
    Spec (staticCont multi isMap U E ib N) (staticSem multi U E N) (StaticVector.rep E ib N) :=
  StaticVector.specOf hN
    (fun _ i _ _ init hg hp => staticConstruct_spec (ib := ib i) L init hg hN (by simpa using hp))
    (fun _ i _ _ _ op h hp => by
      rw [wp_bind]
      refine wp_mono (staticExec_spec (ib := ib i) L op h hp) ?_ ?_
      · rintro r o1 ⟨ys, hv, -, hr⟩
        exact ⟨ys, hv, hr⟩
      · rintro e o1 ⟨ys, hv, -, hr⟩
        exact ⟨ys, hv, hr⟩)

end

/-! ### Which containers have different keys -/

/-- Operations whose result does not depend on the elements before. -/
def Op.renews : Op α κ → Bool
  | .clear | .assignList _ => true
  | _ => false

theorem InitResult.distinct {U : KeyEq α κ} {multi : Bool} {init : Init α} {xs : List α} (h : InitResult U multi init xs) :
    U.Distinct multi xs := by
  cases init with
  | empty => rw [show xs = [] from h]; exact distinct_nil
  | range vs => rw [show xs = merge U multi [] vs from h]; exact merge_distinct vs distinct_nil

/-- An operation keeps the keys different. -/
theorem Op.Result.distinct {U : KeyEq α κ} {multi : Bool} {xs ys : List α} {op : Op α κ} {r : Ret} (L : U.Lawful)
    (hp : op.pre multi xs.length = true) (hs : U.Distinct multi xs ∨ op.renews = true)
    (h : op.Result U multi xs r ys) : U.Distinct multi ys := by
  have hs' : op.renews = false → U.Distinct multi xs := by
    intro e; rcases hs with h | h
    · exact h
    · rw [e] at h; cases h
  have hu : op.uniqueOnly = true → multi = false := by
    intro hu; unfold Op.pre at hp; rw [hu] at hp; cases multi
    · rfl
    · simp at hp
  cases op with
  | insert s => obtain ⟨v, i, new, -, -, h⟩ := h; exact h.distinct (hs' rfl)
  | insertHint _ s => obtain ⟨v, i, new, -, -, h⟩ := h; exact h.distinct (hs' rfl)
  | emplace v => obtain ⟨i, new, -, h⟩ := h; exact h.distinct (hs' rfl)
  | emplaceHint _ v => obtain ⟨i, new, -, h⟩ := h; exact h.distinct (hs' rfl)
  | tryEmplace v => obtain ⟨i, new, -, h⟩ := h; exact h.distinct (hs' rfl)
  | tryEmplaceHint _ v => obtain ⟨i, new, -, h⟩ := h; exact h.distinct (hs' rfl)
  | insertOrAssign v =>
    obtain rfl := hu rfl
    obtain ⟨i, new, -, h⟩ := h; exact h.distinct L (hs' rfl)
  | insertOrAssignHint _ v =>
    obtain rfl := hu rfl
    obtain ⟨i, new, -, h⟩ := h; exact h.distinct L (hs' rfl)
  | insertRange vs => obtain ⟨-, rfl⟩ := h; exact merge_distinct vs (hs' rfl)
  | assignList vs => obtain ⟨-, rfl⟩ := h; exact merge_distinct vs distinct_nil
  | eraseAt k => exact ((hs' rfl).sublist (cut_sublist (Nat.le_succ k))).perm L h.2.perm
  | eraseRange k l =>
    have hkl : k ≤ l := by simp [Op.pre, Op.uniqueOnly] at hp; exact hp.1
    exact ((hs' rfl).sublist (cut_sublist hkl)).perm L h.2.perm
  | eraseKey k => exact ((hs' rfl).sublist List.filter_sublist).perm L h.2
  | eraseEqual i => obtain ⟨x, -, h⟩ := h; exact ((hs' rfl).sublist List.filter_sublist).perm L h.2
  | eraseIf f => exact ((hs' rfl).sublist List.filter_sublist).perm L h.2
  | clear => obtain ⟨-, rfl⟩ := h; exact distinct_nil
  | reserve n => obtain ⟨-, rfl⟩ := h; exact hs' rfl
  | shrinkToFit => obtain ⟨-, rfl⟩ := h; exact hs' rfl

theorem okStep.distinct {U : KeyEq α κ} {multi : Bool} {xs ys : List α} {op : Op α κ} {r : Option Ret} (L : U.Lawful)
    (hp : op.pre multi xs.length = true) (h : okStep U multi xs op r ys)
    (hs : U.Distinct multi xs ∨ op.renews = true) : U.Distinct multi ys := by
  obtain ⟨ret, -, h⟩ := h
  refine (h ?_).distinct L hp hs
  rcases hs with hs | hs
  · exact Or.inr hs
  · left; cases op <;> simp_all [Op.keyed, Op.renews]

/-- What a client knows about the keys from the outcomes of operations (see `World.Flags`): after an exception they may
not be different if moving elements can throw, or if the equality can throw in an emplace that adds first. -/
def smallFlags (multi isMap nm nt : Bool) : Flags (Op α κ) where
  ok := fun op d => d && !op.renews
  fail := fun op d => d || !(nm && op.careful multi isMap nt)

theorem smallKeeps {U : KeyEq α κ} {multi isMap nm : Bool} {E : Env α} {T : Traits} (L : U.Lawful)
    (hn : nm = true → NothrowMove E) :
    Keeps (smallSem multi isMap U E T) (U.Distinct multi) (smallFlags multi isMap nm U.nothrow) where
  init := fun _ _ h => h.distinct
  ok := by
    intro xs op r ys d hp h hx hd
    refine h.distinct L hp ?_
    simp only [smallFlags, Bool.and_eq_false_iff] at hd
    rcases hd with hd | hd
    · exact Or.inl (hx hd)
    · exact Or.inr (by simpa using hd)
  fail := by
    intro xs op e ys d hp h hx hd
    simp only [smallFlags, Bool.or_eq_false_iff, Bool.not_eq_false', Bool.and_eq_true] at hd
    exact h.distinct (hn hd.2.1) hd.2.2 (hx hd.1)

open Classical in
/-- What a client knows about the keys of the static containers: after `operator=(initializer_list)` they are different
iff those of the list are. -/
noncomputable def staticFlags (U : KeyEq α κ) (multi nm : Bool) : Flags (Op α κ) where
  ok := fun op d => match op with
    | .assignList vs => !decide (U.Distinct multi vs)
    | op => d && !op.renews
  fail := fun op d => match op with
    | .assignList _ => true
    | op => d || !(nm && op.careful multi true U.nothrow)

theorem staticKeeps {U : KeyEq α κ} {multi nm : Bool} {E : Env α} {N : Nat} (L : U.Lawful)
    (hn : nm = true → NothrowMove E) : Keeps (staticSem multi U E N) (U.Distinct multi) (staticFlags U multi nm) where
  init := fun _ _ h => h.distinct
  ok := by
    intro xs op r ys d hp h hx hd
    have hp' : op.pre multi xs.length = true := by
      have : staticPre multi N xs.length op = true := hp
      unfold staticPre at this
      simp only [Bool.and_eq_true] at this
      exact this.1.1
    obtain ⟨-, h⟩ : staticOk U multi N xs op r ys := h
    by_cases ha : ∃ vs, op = .assignList vs
    · obtain ⟨vs, rfl⟩ := ha
      obtain ⟨-, rfl⟩ := h
      simpa [staticFlags] using hd
    · have h : okStep U multi xs op r ys := by
        cases op <;> first | exact h | exact absurd ⟨_, rfl⟩ ha
      have hd : (d && !op.renews) = false := by
        cases op <;> first | exact hd | exact absurd ⟨_, rfl⟩ ha
      refine h.distinct L hp' ?_
      rw [Bool.and_eq_false_iff] at hd
      rcases hd with hd | hd
      · exact Or.inl (hx hd)
      · exact Or.inr (by simpa using hd)
  fail := by
    intro xs op e ys d hp h hx hd
    obtain ⟨-, -, -, h⟩ : staticFail U multi E N xs op e ys := h
    by_cases ha : ∃ vs, op = .assignList vs
    · obtain ⟨vs, rfl⟩ := ha
      cases hd
    · have h : failStep U multi true E xs op e ys := by
        cases op <;> first | exact h | exact absurd ⟨_, rfl⟩ ha
      have hd : (d || !(nm && op.careful multi true U.nothrow)) = false := by
        cases op <;> first | exact hd | exact absurd ⟨_, rfl⟩ ha
      simp only [Bool.or_eq_false_iff, Bool.not_eq_false', Bool.and_eq_true] at hd
      exact h.distinct (hn hd.2.1) hd.2.2 (hx hd.1)

end Sfl.Unord
