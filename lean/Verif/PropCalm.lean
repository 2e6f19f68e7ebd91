import Verif.CalmWorld
import Verif.PropTwo
import Verif.PropCompact
import Verif.PropDevector
import Verif.PropStatic
import Verif.PropSegVec
import Verif.PropSegDev
import Verif.PropUnord2
/-
  C44: no spurious exceptions. If no element operation and no allocation throws, a program with containers sees no exception but
  length_error, and length_error only if a container is asked for more than max_size() elements; the static containers throw nothing.

  `JRun S P` (CalmWorld.lean) is a history of the abstract specification `S` in which every exception `e` of a step `x` is justified by
  `P A x e`; `A` holds the containers before the step.
-/

set_option linter.unusedVariables false
set_option linter.unusedSimpArgs false

namespace Sfl
open Sq World
variable {α κ : Type} {K : Nat} {Op I ρ : Type}

/-- The only justification of an exception: it is length_error, and the constructor is asked for more than `maxSize` elements
(`count`), or the operation asks a container of its size for room for more (`room`). Copies, moves, swap and destructors must not
throw. -/
def Excess (maxSize : Nat) (room : Nat → Op → Nat) (count : I → Nat) (A : Abs K α) : WOp K Op I → Exn → Prop
  | .make _ _ init, e => e = .lengthError ∧ maxSize < count init
  | .op i op, e => e = .lengthError ∧ ∃ al xs, A i = some (al, xs) ∧ maxSize < room xs.length op
  | _, _ => False

theorem excess_of {S : Sem Op I α ρ} {maxSize : Nat} {room : Nat → Op → Nat} {count : I → Nat} {A B : Abs K α} {x : WOp K Op I} {e : Exn}
    (h1 : ∀ i, S.initFail i .lengthError → maxSize < count i)
    (h2 : ∀ xs op xs', S.failStep xs op .lengthError xs' → maxSize < room xs.length op)
    (h : WStep S A x (.threw e) B) (hx : Allowed (fun e => e = .lengthError) (fun _ _ => False) A e x) :
    Excess maxSize room count A x e := by
  cases h with
  | makeFail _ _ h => cases (hx : e = .lengthError); exact ⟨rfl, h1 _ h⟩
  | opFail h3 h4 h => cases (hx : e = .lengthError); exact ⟨rfl, _, _, h3, h2 _ _ _ h⟩
  | swapFail => exact (hx : False).elim
  | _ => obtain ⟨_, _, -, h⟩ := hx; exact h.elim

theorem nothing_of {A : Abs K α} {x : WOp K Op I} {e : Exn} (hx : Allowed (fun _ => False) (fun _ _ => False) A e x) : False := by
  cases x with
  | make => exact hx
  | op => exact hx
  | destroy => exact hx
  | swap => exact hx
  | _ => obtain ⟨_, _, -, h⟩ := hx; exact h

/-! ### vector, small_vector, compact_vector -/

/-- **C44**, vector. -/
theorem vector_no_spurious (K : Nat) (E : Env α) (T : Traits) (m0 : St α) (hw : m0.Wf) (hE : ∀ t, E.throws t = false)
    (ops : List (WOp K (Sq.Op α) (Sq.Init α))) :
    ∃ log A o', World.session (Vector.cont K E T) (Vector.sem E T) ops ⟨fun _ => none, m0⟩ = .ok (log, (List.finRange K).map A) o' ∧
      JRun (Vector.sem E T) (Excess E.maxSize (fun n op => op.room n) (fun i => (i.result E.dflt).length)) (fun _ => none) ops log A ∧
      o'.m.mem = m0.mem ∧ o'.m.blk = m0.blk := by
  have : Silent E := ⟨hE⟩
  refine Vector.tame.session Vector.spec hw (fun i => ⟨Or.inl ⟨rfl, rfl⟩, hw.dead 0 hw.blk_zero⟩) ?_
    (excess_of (fun _ h => h rfl) (fun _ _ _ h => h.len rfl)) ops
  intro i j _ c h
  exact absurd (h.2.elim id id) h.1

/-- **C44**, small_vector. -/
theorem smallVector_no_spurious (K : Nat) (E : Env α) (T : Traits) (N : Nat) (ib : Fin K → Nat) (m0 : St α) (hw : m0.Wf)
    (hr : ∀ i, RawObject m0 (ib i) N) (hd : ∀ i j, i ≠ j → ib i ≠ 0 → ib i ≠ ib j) (hN : N ≤ E.maxSize)
    (hE : ∀ t, E.throws t = false) (ops : List (WOp K (Sq.Op α) (Sq.Init α))) :
    ∃ log A o', World.session (SmallVector.cont E T ib N) (SmallVector.sem E T) ops ⟨fun _ => none, m0⟩ =
        .ok (log, (List.finRange K).map A) o' ∧
      JRun (SmallVector.sem E T) (Excess E.maxSize (fun n op => op.room n) (fun i => (i.result E.dflt).length)) (fun _ => none) ops log A ∧
      o'.m.mem = m0.mem ∧ o'.m.blk = m0.blk := by
  have : Silent E := ⟨hE⟩
  have : Allows (fun e => e = .lengthError) .lengthError := ⟨rfl⟩
  refine (SmallVector.tameOf (fun _ _ => inferInstance) (fun _ _ => inferInstance)).session (SmallVector.spec hN) hw
    (fun i => ⟨(hr i).blk, (hr i).raw⟩) ?_ (excess_of (fun _ h => h rfl) (fun _ _ _ h => h.len rfl)) ops
  intro i j hij c h1 h2
  have e1 := h1.2.elim id id
  have e2 := h2.2.elim id id
  exact hd i j hij (e1 ▸ h1.1) (e1.symm.trans e2)

/-- **C44**, compact_vector. -/
theorem compactVector_no_spurious (K : Nat) (E : Env α) (T : Traits) (m0 : St α) (hw : m0.Wf) (hE : ∀ t, E.throws t = false)
    (ops : List (WOp K (Sq.Op α) (Sq.Init α))) :
    ∃ log A o', World.session (CompactVector.cont K E T) (CompactVector.sem E T true) ops ⟨fun _ => none, m0⟩ =
        .ok (log, (List.finRange K).map A) o' ∧
      JRun (CompactVector.sem E T true) (Excess E.maxSize (fun n op => op.room n) (fun i => (i.result E.dflt).length)) (fun _ => none)
        ops log A ∧
      o'.m.mem = m0.mem ∧ o'.m.blk = m0.blk := by
  have : Silent E := ⟨hE⟩
  exact CompactVector.tame.session (CompactVector.spec (fun _ => hE)) hw (fun _ => ⟨Or.inl ⟨rfl, rfl⟩, hw.dead 0 hw.blk_zero⟩)
    (fun _ _ _ _ h => absurd (h.2.elim id id) h.1) (excess_of (fun _ h => h rfl) (fun _ _ _ h => h.len rfl)) ops

/-! ### The small flat containers -/

/-- **C44**, small_flat_set, _multiset, _map, _multimap. -/
theorem smallFlat_no_spurious (K : Nat) (multi : Bool) (C : Order α κ) (L : C.Lawful) (E : Env α) (T : Traits) (N : Nat)
    (ib : Fin K → Nat) (m0 : St α) (hm : Objects E ib N m0) (hE : ∀ t, E.throws t = false)
    (ops : List (WOp K (Flat.Op α κ) (Flat.Init α))) :
    ∃ log A o', World.session (Flat.smallCont multi C E T ib N) (Flat.smallSem multi C E T) ops ⟨fun _ => none, m0⟩ =
        .ok (log, (List.finRange K).map A) o' ∧
      JRun (Flat.smallSem multi C E T) (Excess E.maxSize (fun n op => op.room n) (fun i => i.count)) (fun _ => none) ops log A ∧
      o'.m.mem = m0.mem ∧ o'.m.blk = m0.blk := by
  have : Silent E := ⟨hE⟩
  have : Allows (fun e => e = .lengthError) .lengthError := ⟨rfl⟩
  refine (SmallVector.tameOf (fun _ _ => inferInstance) (fun i op => ?_)).session (Flat.smallSpec (multi := multi) (T := T) L hm.fits) hm.wf
    (fun i => ⟨(hm.raw i).blk, (hm.raw i).raw⟩) ?_ (excess_of (fun _ h => h rfl) (fun _ _ _ h => h.len rfl)) ops
  · unfold Flat.smallImpl; calm
  · intro i j hij c h1 h2
    have e1 := h1.2.elim id id
    have e2 := h2.2.elim id id
    exact hm.disj i j hij (e1 ▸ h1.1) (e1.symm.trans e2)

/-- **C44**, small_unordered_flat_set, _multiset, _map, _multimap. -/
theorem smallUnord_no_spurious (K : Nat) (multi isMap : Bool) (U : KeyEq α κ) (L : U.Lawful) (E : Env α) (T : Traits) (N : Nat)
    (ib : Fin K → Nat) (m0 : St α) (hm : Objects E ib N m0) (hE : ∀ t, E.throws t = false)
    (ops : List (WOp K (Unord.Op α κ) (Flat.Init α))) :
    ∃ log A o', World.session (Unord.smallCont multi isMap U E T ib N) (Unord.smallSem multi isMap U E T) ops ⟨fun _ => none, m0⟩ =
        .ok (log, (List.finRange K).map A) o' ∧
      JRun (Unord.smallSem multi isMap U E T) (Excess E.maxSize (fun n op => op.room n) (fun i => i.count)) (fun _ => none) ops log A ∧
      o'.m.mem = m0.mem ∧ o'.m.blk = m0.blk := by
  have : Silent E := ⟨hE⟩
  have : Allows (fun e => e = .lengthError) .lengthError := ⟨rfl⟩
  refine (SmallVector.tameOf (fun _ _ => inferInstance) (fun i op => ?_)).session
    (Unord.smallSpec (multi := multi) (isMap := isMap) (T := T) L hm.fits) hm.wf
    (fun i => ⟨(hm.raw i).blk, (hm.raw i).raw⟩) ?_ (excess_of (fun _ h => h rfl) (fun _ _ _ h => h.len rfl)) ops
  · unfold Unord.smallImpl; calm
  · intro i j hij c h1 h2
    have e1 := h1.2.elim id id
    have e2 := h2.2.elim id id
    exact hm.disj i j hij (e1 ▸ h1.1) (e1.symm.trans e2)

/-! ### The static containers -/

/-- **C44**, static_vector: nothing throws. -/
theorem staticVector_no_spurious (K : Nat) (E : Env α) (N : Nat) (ib : Fin K → Nat) (m0 : St α) (hm : Objects E ib N m0)
    (hE : ∀ t, E.throws t = false) (ops : List (WOp K (Sq.Op α) (Sq.Init α))) :
    ∃ log A o', World.session (StaticVector.cont E ib N) (StaticVector.sem E N) ops ⟨fun _ => none, m0⟩ =
        .ok (log, (List.finRange K).map A) o' ∧
      JRun (StaticVector.sem E N) (fun _ _ _ => False) (fun _ => none) ops log A ∧ o'.m.mem = m0.mem ∧ o'.m.blk = m0.blk := by
  have : Silent E := ⟨hE⟩
  refine (StaticVector.tameOf (fun _ _ => inferInstance) (fun _ _ => inferInstance)).session
    (StaticVector.spec (E := E) (ib := ib) hm.fits) hm.wf hm.static.1 hm.static.2 (fun _ hx => nothing_of hx) ops

/-- **C44**, static_flat_set, _multiset, _map, _multimap: nothing throws. -/
theorem staticFlat_no_spurious (K : Nat) (multi : Bool) (C : Order α κ) (L : C.Lawful) (E : Env α) (N : Nat)
    (ib : Fin K → Nat) (m0 : St α) (hm : Objects E ib N m0) (hE : ∀ t, E.throws t = false)
    (ops : List (WOp K (Flat.Op α κ) (Flat.Init α))) :
    ∃ log A o', World.session (Flat.staticCont multi C E ib N) (Flat.staticSem multi C E N) ops ⟨fun _ => none, m0⟩ =
        .ok (log, (List.finRange K).map A) o' ∧
      JRun (Flat.staticSem multi C E N) (fun _ _ _ => False) (fun _ => none) ops log A ∧ o'.m.mem = m0.mem ∧ o'.m.blk = m0.blk := by
  have : Silent E := ⟨hE⟩
  refine (StaticVector.tameOf (fun _ _ => inferInstance) (fun i op => ?_)).session
    (Flat.staticSpec (multi := multi) (E := E) (ib := ib) L hm.fits) hm.wf hm.static.1 hm.static.2 (fun _ hx => nothing_of hx) ops
  calm

/-- **C44**, static_unordered_flat_set, _multiset, _map, _multimap: nothing throws. -/
theorem staticUnord_no_spurious (K : Nat) (multi isMap : Bool) (U : KeyEq α κ) (L : U.Lawful) (E : Env α) (N : Nat)
    (ib : Fin K → Nat) (m0 : St α) (hm : Objects E ib N m0) (hE : ∀ t, E.throws t = false)
    (ops : List (WOp K (Unord.Op α κ) (Flat.Init α))) :
    ∃ log A o', World.session (Unord.staticCont multi isMap U E ib N) (Unord.staticSem multi U E N) ops ⟨fun _ => none, m0⟩ =
        .ok (log, (List.finRange K).map A) o' ∧
      JRun (Unord.staticSem multi U E N) (fun _ _ _ => False) (fun _ => none) ops log A ∧ o'.m.mem = m0.mem ∧ o'.m.blk = m0.blk := by
  have : Silent E := ⟨hE⟩
  refine (StaticVector.tameOf (fun _ _ => inferInstance) (fun i op => ?_)).session
    (Unord.staticSpec (multi := multi) (isMap := isMap) (E := E) (ib := ib) L hm.fits) hm.wf hm.static.1 hm.static.2
    (fun _ hx => nothing_of hx) ops
  calm

/-! ### segmented_vector -/

/-- As `Excess`, but a copy or move of a container that is already larger than max_size() (`segmentedVector_exceeds_max_size`) may
throw as well. -/
def SegExcess (maxSize : Nat) (room : Nat → Op → Nat) (count : I → Nat) (A : Abs K α) : WOp K Op I → Exn → Prop
  | .make _ _ init, e => e = .lengthError ∧ maxSize < count init
  | .op i op, e => e = .lengthError ∧ ∃ al xs, A i = some (al, xs) ∧ maxSize < room xs.length op
  | .makeCopy _ j _, e => e = .lengthError ∧ ∃ al xs, A j = some (al, xs) ∧ maxSize < xs.length
  | .makeMove _ j _, e => e = .lengthError ∧ ∃ al xs, A j = some (al, xs) ∧ maxSize < xs.length
  | .assignCopy _ j, e => e = .lengthError ∧ ∃ al xs, A j = some (al, xs) ∧ maxSize < xs.length
  | .assignMove _ j, e => e = .lengthError ∧ ∃ al xs, A j = some (al, xs) ∧ maxSize < xs.length
  | _, _ => False

/-- **C44**, segmented_vector. -/
theorem segmentedVector_no_spurious (K : Nat) (E : Env α) (N : Nat) (hN : 0 < N) (T : Traits) (ra : Sq.Op α → Bool)
    (rai : Sq.Init α → Bool) (m0 : St α) (hw : m0.Wf) (hE : ∀ t, E.throws t = false) (ops : List (WOp K (Sq.Op α) (Sq.Init α))) :
    ∃ log A o', World.session (SegVec.cont K E N T ra rai) (SegVec.sem E T) ops ⟨fun _ => none, m0⟩ =
        .ok (log, (List.finRange K).map A) o' ∧
      JRun (SegVec.sem E T) (SegExcess E.maxSize (fun n op => op.room n) (fun i => (i.result E.dflt).length)) (fun _ => none) ops log A ∧
      o'.m.mem = m0.mem ∧ o'.m.blk = m0.blk := by
  have : Silent E := ⟨hE⟩
  refine SegVec.tame.session (SegVec.spec hN) hw (fun _ => trivial) (fun _ _ _ _ h => h.elim) (fun {A B x e} h hx => ?_) ops
  cases h with
  | makeFail _ _ h => cases (hx : e = .lengthError); exact ⟨rfl, h rfl⟩
  | opFail h3 h4 h => cases (hx : e = .lengthError); exact ⟨rfl, _, _, h3, h.len rfl⟩
  | swapFail => exact (hx : False).elim
  | _ => obtain ⟨_, _, h1, h2, h3⟩ := hx; exact ⟨h2, _, _, h1, h3⟩

/-! ### devector and segmented_devector -/

/-- What justifies an exception of a double-ended container: it is length_error; `count` limits the constructors, `copies` the copies and
moves of a container; an operation may throw it only if it adds elements or asks for more room, and `resize`, `assign(n, v)` and
`assign(first, last)` only if the new size exceeds `maxSize`. -/
def EndsExcess (maxSize : Nat) (wanted : Dq.Op α → Option Nat) (count : I → Prop) (copies : Nat → Prop) (A : Abs K α) :
    WOp K (Dq.Op α) I → Exn → Prop
  | .make _ _ init, e => e = .lengthError ∧ count init
  | .op i op, e => e = .lengthError ∧ ∃ al xs, A i = some (al, xs) ∧ op.grows xs.length = true ∧ ∀ n, wanted op = some n → maxSize < n
  | .makeCopy _ j _, e => e = .lengthError ∧ ∃ al xs, A j = some (al, xs) ∧ copies xs.length
  | .makeMove _ j _, e => e = .lengthError ∧ ∃ al xs, A j = some (al, xs) ∧ copies xs.length
  | .assignCopy _ j, e => e = .lengthError ∧ ∃ al xs, A j = some (al, xs) ∧ copies xs.length
  | .assignMove _ j, e => e = .lengthError ∧ ∃ al xs, A j = some (al, xs) ∧ copies xs.length
  | _, _ => False

/-- **C44**, devector: only operations that add elements or ask for more room throw, only length_error, and `resize` and `assign` only
if the new size exceeds max_size(); copies, moves and swap throw nothing. Missing: the remaining operations throw length_error
only beyond max_size(), which is false (`devector_length_error`). -/
theorem devector_no_spurious_partial (K : Nat) (E : Env α) (T : Traits) (m0 : St α) (hw : m0.Wf) (hE : ∀ t, E.throws t = false)
    (ops : List (WOp K (Dq.Op α) (Sq.Init α))) :
    ∃ log A o', World.session (Devector.cont K E T) (Devector.sem E T true) ops ⟨fun _ => none, m0⟩ =
        .ok (log, (List.finRange K).map A) o' ∧
      JRun (Devector.sem E T true)
        (EndsExcess E.maxSize Devector.wanted (fun i => 0 < (i.result E.dflt).length) (fun _ => False)) (fun _ => none) ops log A ∧
      o'.m.mem = m0.mem ∧ o'.m.blk = m0.blk := by
  have : Silent E := ⟨hE⟩
  refine Devector.tame.session (Devector.spec (fun _ => hE)) hw (fun _ => ⟨Or.inl ⟨rfl, rfl⟩, hw.dead 0 hw.blk_zero⟩)
    (fun _ _ _ _ h => absurd (h.2.elim id id) h.1) (fun {A B x e} h hx => ?_) ops
  cases h with
  | makeFail _ _ h => cases (hx : e = .lengthError); exact ⟨rfl, h rfl⟩
  | opFail h3 h4 h => cases (hx : e = .lengthError); exact ⟨rfl, _, _, h3, h.grows rfl, h.room rfl⟩
  | swapFail => exact (hx : False).elim
  | _ => obtain ⟨_, _, -, h⟩ := hx; exact h.elim

/-- **C44**, segmented_devector: constructors, copies, moves, `resize` and `assign` throw only length_error, and only if asked for more
than max_size() elements. Missing: the same for the other operations that add elements or ask for more room, which is false
(`segmentedDevector_length_error`). -/
theorem segmentedDevector_no_spurious_partial (K : Nat) (E : Env α) (N : Nat) (hN : 0 < N) (T : Traits) (ra : Dq.Op α → Bool)
    (rai : Sq.Init α → Bool) (m0 : St α) (hw : m0.Wf) (hE : ∀ t, E.throws t = false) (ops : List (WOp K (Dq.Op α) (Sq.Init α))) :
    ∃ log A o', World.session (SegDev.cont K E N T ra rai) (SegDev.sem E T) ops ⟨fun _ => none, m0⟩ =
        .ok (log, (List.finRange K).map A) o' ∧
      JRun (SegDev.sem E T) (EndsExcess E.maxSize SegDev.wanted (fun i => E.maxSize < (i.result E.dflt).length) (fun n => E.maxSize < n))
        (fun _ => none) ops log A ∧
      o'.m.mem = m0.mem ∧ o'.m.blk = m0.blk := by
  have : Silent E := ⟨hE⟩
  refine SegDev.tame.session (SegDev.spec hN) hw (fun _ => trivial) (fun _ _ _ _ h => h.elim) (fun {A B x e} h hx => ?_) ops
  cases h with
  | makeFail _ _ h => cases (hx : e = .lengthError); exact ⟨rfl, h rfl⟩
  | opFail h3 h4 h => cases (hx : e = .lengthError); exact ⟨rfl, _, _, h3, h.grows rfl, h.room rfl⟩
  | swapFail => exact (hx : False).elim
  | _ => obtain ⟨_, _, h1, h2, h3⟩ := hx; exact ⟨h2, _, _, h1, h3⟩


/-! ### Programs that meet the hypotheses -/

/-- The environment of the programs below: nothing throws, and `max_size()` is 5. -/
def Demo.limit5 : Env Nat := { Demo.env [] with maxSize := 5 }

example : ∀ t, Demo.limit5.throws t = false := by simp [Demo.limit5, Demo.env]

/-- Vectors: a constructor and two insertions are refused; the copies, moves and swaps work. -/
example : Demo.show' (World.session (Vector.cont 3 Demo.limit5 Demo.T) (Vector.sem Demo.limit5 Demo.T)
    [.make 0 7 (.fill 6 1), .make 0 7 (.range [1, 2, 3]), .op 0 (.insertRange 1 [4, 5]), .op 0 (.pushBack (.value 6)),
     .makeCopy 1 0 none, .op 1 (.resize 9), .makeMove 2 0 (some 8), .swap 1 2, .assignCopy 1 2] ⟨fun _ => none, Demo.m1⟩) =
    some ([.threw .lengthError, .ok none, .ok (some 1), .threw .lengthError, .ok none, .threw .lengthError, .ok none, .ok none, .ok none],
      [some (7, [1000, 1000, 1000, 1000, 1000]), some (8, [1, 4, 5, 2, 3]), some (9, [1, 4, 5, 2, 3])]) := by decide +kernel

/-- The same program with small_vector<int, 2>. -/
example : Demo.show' (World.session (SmallVector.cont Demo.limit5 Demo.T Demo.ib3 2) (SmallVector.sem Demo.limit5 Demo.T)
    [.make 0 7 (.fill 6 1), .make 0 7 (.range [1, 2]), .op 0 (.insertRange 1 [4, 5, 6]), .op 0 (.pushBack (.value 6)),
     .makeCopy 1 0 none, .op 1 (.resize 9), .assignCopy 1 0] ⟨fun _ => none, Demo.m3⟩) =
    some ([.threw .lengthError, .ok none, .ok (some 1), .threw .lengthError, .ok none, .threw .lengthError, .ok none],
      [some (7, [1, 4, 5, 6, 2]), some (9, [1, 4, 5, 6, 2]), none]) := by decide +kernel

/-- The same program with compact_vector. -/
example : Demo.show' (World.session (CompactVector.cont 3 Demo.limit5 Demo.T) (CompactVector.sem Demo.limit5 Demo.T true)
    [.make 0 7 (.fill 6 1), .make 0 7 (.range [1, 2, 3]), .op 0 (.insertRange 1 [4, 5]), .op 0 (.pushBack (.value 6)),
     .makeCopy 1 0 none, .op 1 (.resize 9), .assignCopy 1 0] ⟨fun _ => none, Demo.m1⟩) =
    some ([.threw .lengthError, .ok none, .ok (some 1), .threw .lengthError, .ok none, .threw .lengthError, .ok none],
      [some (7, [1, 4, 5, 2, 3]), some (9, [1, 4, 5, 2, 3]), none]) := by decide +kernel

/-- Two small_flat_set<int, 2>: an insertion beyond max_size() is refused, a duplicate is not. -/
example : Demo.show' (World.session (Flat.smallCont false Demo.asc Demo.limit5 Demo.T Demo.ib3 2) (Flat.smallSem false Demo.asc Demo.limit5 Demo.T)
    [.make 0 7 (.range [3, 1, 3]), .op 0 (.insert (.value 2)), .op 0 (.insert (.value 5)), .op 0 (.insert (.value 4)), .op 0 (.insert (.value 2)), .op 0 (.insert (.value 9)),
     .makeCopy 1 0 none] ⟨fun _ => none, Demo.m3⟩) = some
    ([.ok none, .ok (some (.ins 1 true)), .ok (some (.ins 3 true)), .ok (some (.ins 3 true)), .ok (some (.ins 1 false)),
      .threw .lengthError, .ok none], [some (7, [1, 2, 3, 4, 5]), some (9, [1, 2, 3, 4, 5]), none]) := by decide +kernel

/-- Segmented vectors with segments of two elements. -/
example : Demo.show' (World.session (SegVec.cont 3 Demo.limit5 2 Demo.T (fun _ => true) (fun _ => true)) (SegVec.sem Demo.limit5 Demo.T)
    [.make 0 7 (.fill 6 1), .make 0 7 (.range [1, 2, 3]), .op 0 (.insertRange 1 [4]), .op 0 (.insertRange 1 [8, 9]),
     .makeCopy 1 0 none, .op 1 (.resize 9), .assignCopy 1 0] ⟨fun _ => none, Demo.m1⟩) = some
    ([.threw .lengthError, .ok none, .ok (some 1), .threw .lengthError, .ok none, .threw .lengthError, .ok none],
      [some (7, [1, 4, 2, 3]), some (9, [1, 4, 2, 3]), none]) := by decide +kernel

/-- Devectors: the insertion of a sixth element is refused; so is a fifth at the front (`devector_length_error`). -/
example : Demo.show' (World.session (Devector.cont 3 Demo.limit5 Demo.T) (Devector.sem Demo.limit5 Demo.T true)
    [.make 0 7 (.fill 6 1), .make 0 7 (.range [1, 2, 3]), .op 0 (.insertRange 1 [4]), .op 0 (.pushFront (.value 6)),
     .makeCopy 1 0 none, .op 1 (.resizeBack 9), .op 1 (.resizeBack 5), .assignCopy 0 1] ⟨fun _ => none, Demo.m1⟩) = some
    ([.threw .lengthError, .ok none, .ok (some 1), .threw .lengthError, .ok none, .threw .lengthError, .ok none, .ok none],
      [some (7, [1, 4, 2, 3, 0]), some (9, [1, 4, 2, 3, 0]), none]) := by decide +kernel

/-- Segmented devectors with segments of two elements. -/
example : Demo.show' (World.session (SegDev.cont 3 Demo.limit5 2 Demo.T (fun _ => true) (fun _ => true)) (SegDev.sem Demo.limit5 Demo.T)
    [.make 0 7 (.fill 6 1), .make 0 7 (.range [1, 2, 3]), .op 0 (.emplace 1 (.value 4)), .op 0 (.pushFront (.value 6)),
     .makeCopy 1 0 none, .op 1 (.resizeBack 9), .assignCopy 0 1] ⟨fun _ => none, Demo.m1⟩) = some
    ([.threw .lengthError, .ok none, .ok (some 1), .ok (some 0), .ok none, .threw .lengthError, .ok none],
      [some (7, [6, 1, 4, 2, 3]), some (9, [6, 1, 4, 2, 3]), none]) := by decide +kernel

/-- small_unordered_flat_set<int, 2>, static_flat_set<int, 3> and static_unordered_flat_set<int, 3>: these objects meet the hypotheses. -/
example : Objects Demo.limit5 Demo.ib3 2 Demo.m3 := Demo.objects3 _ (by decide)

/-! ### What does not hold -/

/-- **C44 does not hold** for `push_front` of segmented_devector: it may throw length_error although the container could hold another
element, and nothing throws. `grow_storage_front` compares max_size() with capacity() (segmented_devector.hpp:1328-1332), which
includes the free space at the back. Here the segments have three elements, max_size() is 8, and the container has 7. -/
theorem segmentedDevector_length_error : ∃ (E : Env Nat) (o : Obj SDVec Nat) (n : Nat),
    (∀ t, E.throws t = false) ∧
    Reached (SegDev.cont 2 E 3 Demo.T (fun _ => true) (fun _ => true)) (SegDev.sem E Demo.T) Demo.m1 0 o ∧
    SegDev.size 3 o = .ok n o ∧ n + 1 ≤ E.maxSize ∧
    ∃ o', SegDev.exec E 3 (fun _ => true) (.pushFront (.value 9)) o = .exn .lengthError o' := by
  let E : Env Nat := { Demo.env [] with maxSize := 8 }
  let ops : List (WOp 2 (Dq.Op Nat) (Sq.Init Nat)) := Demo.six ++ [.op 0 (.resizeFront 8), .op 0 .popBack]
  have hr := Demo.sdv_reached E ops (by decide +kernel)
  obtain ⟨H, al, V, tcap, f, xs, hv⟩ := hr.segDev (by omega) Demo.m1_wf
  have hn : Demo.show' (SegDev.size 3 (Demo.sdv E ops)) = some 7 := by decide +kernel
  rw [hv.size_run] at hn
  refine ⟨E, _, xs.length, by simp [E, Demo.env], hr, hv.size_run, by rw [Option.some.inj hn]; decide, ?_⟩
  have h : (match SegDev.exec E 3 (fun _ => true) (.pushFront (.value 9)) (Demo.sdv E ops) with
    | .exn .lengthError _ => true | _ => false) = true := by decide +kernel
  split at h
  · rename_i o' he; exact ⟨o', he⟩
  · cases h

end Sfl
