import Verif.StaticFlat
import Verif.FlatLook
/-
  Programs that never allocate and never release memory: all functions of the static containers, hence all programs
  made of them.
-/

namespace Sfl
open Sfl.Vector (VM)
open Sq (Out)
variable {α κ : Type}

/-- The program leaves the table of blocks as it is, whether it returns or throws. `f` extracts the memory. -/
def NoAlloc {σ β : Type} (f : σ → St α) (p : M σ β) : Prop := ∀ s,
  (∀ b s', p s = .ok b s' → Same (f s) (f s')) ∧ (∀ e s', p s = .exn e s' → Same (f s) (f s'))

/-- One step of the proof that a program does not allocate; extended below by every function proved. -/
syntax "na1" : tactic

/-- Proves `NoAlloc` along the structure of the program. -/
macro "na" : tactic => `(tactic| (repeat' first | na1 | split | dsimp only))

section rules
variable {σ β γ V : Type} {f : σ → St α}

theorem NoAlloc.pure (b : β) : NoAlloc f (pure b : M σ β) := by
  intro s; constructor
  · rintro _ _ ⟨⟩; exact .refl _
  · rintro _ _ ⟨⟩

theorem NoAlloc.throw (e : Exn) : NoAlloc f (M.throw e : M σ β) := by
  intro s; constructor
  · rintro _ _ ⟨⟩
  · rintro _ _ ⟨⟩; exact .refl _

theorem NoAlloc.assert (c : Prop) [Decidable c] : NoAlloc f (M.assert c : M σ Unit) := by
  intro s; unfold M.assert; constructor
  · intro b s' h; split at h
    · cases h; exact .refl _
    · cases h
  · intro b s' h; split at h <;> cases h

theorem NoAlloc.distance (p q : Ptr) : NoAlloc f (distance p q : M σ Nat) := by
  intro s; unfold Sfl.distance; constructor
  · intro b s' h; split at h
    · cases h; exact .refl _
    · cases h
  · intro b s' h; split at h <;> cases h

theorem NoAlloc.bind {p : M σ β} {g : β → M σ γ} (hp : NoAlloc f p) (hg : ∀ b, NoAlloc f (g b)) : NoAlloc f (p >>= g) := by
  intro s
  obtain ⟨h1, h2⟩ := hp s
  rw [bind_apply]
  cases hq : p s with
  | ok b s1 =>
    obtain ⟨h3, h4⟩ := hg b s1
    exact ⟨fun c s2 h => (h1 b s1 hq).trans (h3 c s2 h), fun e s2 h => (h1 b s1 hq).trans (h4 e s2 h)⟩
  | exn e s1 =>
    constructor
    · rintro _ _ ⟨⟩
    · rintro _ _ ⟨⟩; exact h2 e s1 hq
  | ub =>
    constructor
    · rintro _ _ ⟨⟩
    · rintro _ _ ⟨⟩

theorem NoAlloc.tryCatch {p : M σ β} {g : Exn → M σ β} (hp : NoAlloc f p) (hg : ∀ e, NoAlloc f (g e)) :
    NoAlloc f (M.tryCatch p g) := by
  intro s
  obtain ⟨h1, h2⟩ := hp s
  unfold M.tryCatch
  cases hq : p s with
  | ok b s1 =>
    constructor
    · rintro _ _ ⟨⟩; exact h1 b s1 hq
    · rintro _ _ ⟨⟩
  | exn e s1 =>
    obtain ⟨h3, h4⟩ := hg e s1
    exact ⟨fun c s2 h => (h2 e s1 hq).trans (h3 c s2 h), fun e' s2 h => (h2 e s1 hq).trans (h4 e' s2 h)⟩
  | ub =>
    constructor
    · rintro _ _ ⟨⟩
    · rintro _ _ ⟨⟩

theorem NoAlloc.getObj : NoAlloc Obj.m (getObj : M (Obj V α) V) := by
  intro s; constructor
  · rintro _ _ ⟨⟩; exact .refl _
  · rintro _ _ ⟨⟩

theorem NoAlloc.setObj (v : V) : NoAlloc Obj.m (setObj v : M (Obj V α) Unit) := by
  intro s; constructor
  · rintro _ _ ⟨⟩; exact .refl _
  · rintro _ _ ⟨⟩

theorem NoAlloc.lift {p : M (St α) β} (h : NoAlloc id p) : NoAlloc Obj.m (lift p : M (Obj V α) β) := by
  intro s
  obtain ⟨h1, h2⟩ := h s.m
  unfold Sfl.lift
  cases hq : p s.m with
  | ok b s1 =>
    constructor
    · rintro _ _ ⟨⟩; exact h1 b s1 hq
    · rintro _ _ ⟨⟩
  | exn e s1 =>
    constructor
    · rintro _ _ ⟨⟩
    · rintro _ _ ⟨⟩; exact h2 e s1 hq
  | ub =>
    constructor
    · rintro _ _ ⟨⟩
    · rintro _ _ ⟨⟩

theorem NoAlloc.onThis {W : Type} {p : M (Obj V α) β} (h : NoAlloc Obj.m p) :
    NoAlloc Obj.m (onThis p : M (Obj (V × W) α) β) := by
  intro s
  obtain ⟨h1, h2⟩ := h ⟨s.obj.1, s.m⟩
  unfold Sfl.onThis
  cases hq : p ⟨s.obj.1, s.m⟩ with
  | ok b s1 =>
    constructor
    · rintro _ _ ⟨⟩; exact h1 b s1 hq
    · rintro _ _ ⟨⟩
  | exn e s1 =>
    constructor
    · rintro _ _ ⟨⟩
    · rintro _ _ ⟨⟩; exact h2 e s1 hq
  | ub =>
    constructor
    · rintro _ _ ⟨⟩
    · rintro _ _ ⟨⟩

end rules

macro_rules | `(tactic| na1) => `(tactic| with_reducible refine NoAlloc.bind ?_ (fun _ => ?_))
macro_rules | `(tactic| na1) => `(tactic| with_reducible refine NoAlloc.tryCatch ?_ (fun _ => ?_))
macro_rules | `(tactic| na1) => `(tactic| with_reducible refine NoAlloc.lift ?_)
macro_rules | `(tactic| na1) => `(tactic| with_reducible refine NoAlloc.onThis ?_)
macro_rules | `(tactic| na1) => `(tactic| with_reducible exact NoAlloc.setObj _)
macro_rules | `(tactic| na1) => `(tactic| with_reducible exact NoAlloc.getObj)
macro_rules | `(tactic| na1) => `(tactic| with_reducible exact NoAlloc.distance _ _)
macro_rules | `(tactic| na1) => `(tactic| with_reducible exact NoAlloc.assert _)
macro_rules | `(tactic| na1) => `(tactic| with_reducible exact NoAlloc.throw _)
macro_rules | `(tactic| na1) => `(tactic| with_reducible exact NoAlloc.pure _)
macro_rules | `(tactic| na1) => `(tactic| with_reducible assumption)

/-! ### Element operations and algorithms -/

section algo
variable {E : Env α}

theorem construct_na (p : Ptr) (a : Arg α) : NoAlloc id (construct E p a) := by
  intro s; unfold construct
  constructor <;> (intro b s' h; grind [Same, id, St.put, St.bump])

theorem assign_na (p : Ptr) (a : Arg α) : NoAlloc id (assign E p a) := by
  intro s; unfold assign
  constructor <;> (intro b s' h; grind [Same, id, St.put, St.bump])

theorem mkTmp_na (a : Arg α) : NoAlloc id (mkTmp E a) := by
  intro s; unfold mkTmp
  constructor <;> (intro b s' h; grind [Same, id, St.put, St.bump])

theorem destroyAt_na (p : Ptr) : NoAlloc id (destroyAt p : M (St α) Unit) := by
  intro s; unfold destroyAt
  constructor <;> (intro b s' h; grind [Same, id, St.put, St.bump])

theorem readAt_na (p : Ptr) : NoAlloc id (readAt p : M (St α) α) := by
  intro s; unfold readAt
  constructor <;> (intro b s' h; grind [Same, id, St.put, St.bump])

theorem comp_na (nt r : Bool) : NoAlloc id (comp E nt r) := by
  intro s; unfold comp
  constructor <;> (intro b s' h; grind [Same, id, St.put, St.bump])

macro_rules | `(tactic| na1) => `(tactic| with_reducible exact construct_na _ _)
macro_rules | `(tactic| na1) => `(tactic| with_reducible exact assign_na _ _)
macro_rules | `(tactic| na1) => `(tactic| with_reducible exact mkTmp_na _)
macro_rules | `(tactic| na1) => `(tactic| with_reducible exact destroyAt_na _)
macro_rules | `(tactic| na1) => `(tactic| with_reducible exact readAt_na _)
macro_rules | `(tactic| na1) => `(tactic| with_reducible exact comp_na _ _)

theorem destroyN_na (n : Nat) : ∀ p, NoAlloc id (destroyN p n : M (St α) Unit) := by
  induction n with
  | zero => intro p; unfold destroyN; na
  | succ n ih => intro p; unfold destroyN; have := ih (p.add 1); na

macro_rules | `(tactic| na1) => `(tactic| with_reducible exact destroyN_na _ _)

theorem destroyRange_na (p q : Ptr) : NoAlloc id (destroyRange p q : M (St α) Unit) := by unfold destroyRange; na

macro_rules | `(tactic| na1) => `(tactic| with_reducible exact destroyRange_na _ _)

theorem uninitGo_na (d : Ptr) (as : List (Arg α)) : ∀ k, NoAlloc id (uninitGo E d k as) := by
  induction as with
  | nil => intro p; unfold uninitGo; na
  | cons a as ih => intro k; unfold uninitGo; have := ih (k + 1); na

theorem uninit_na (d : Ptr) (as : List (Arg α)) : NoAlloc id (uninit E d as) := uninitGo_na d as 0

macro_rules | `(tactic| na1) => `(tactic| with_reducible exact uninit_na _ _)

theorem uninitMove_na (p q d : Ptr) : NoAlloc id (uninitMove E p q d) := by unfold uninitMove; na
theorem uninitCopyList_na (d : Ptr) (ys : List α) : NoAlloc id (uninitCopyList E d ys) := by unfold uninitCopyList; na
theorem uninitFillN_na (d : Ptr) (n : Nat) (a : Arg α) : NoAlloc id (uninitFillN E d n a) := by unfold uninitFillN; na
theorem uninitFill_na (p q : Ptr) (a : Arg α) : NoAlloc id (uninitFill E p q a) := by unfold uninitFill; na

theorem assignGo_na (as : List (Arg α)) : ∀ d, NoAlloc id (assignGo E d as) := by
  induction as with
  | nil => intro p; unfold assignGo; na
  | cons a as ih => intro p; unfold assignGo; have := ih (p.add 1); na

macro_rules | `(tactic| na1) => `(tactic| with_reducible exact uninitMove_na _ _ _)
macro_rules | `(tactic| na1) => `(tactic| with_reducible exact uninitCopyList_na _ _)
macro_rules | `(tactic| na1) => `(tactic| with_reducible exact uninitFillN_na _ _ _)
macro_rules | `(tactic| na1) => `(tactic| with_reducible exact uninitFill_na _ _ _)
macro_rules | `(tactic| na1) => `(tactic| with_reducible exact assignGo_na _ _)

theorem moveFwd_na (p q d : Ptr) : NoAlloc id (moveFwd E p q d) := by unfold moveFwd; na
theorem fillRange_na (p q : Ptr) (a : Arg α) : NoAlloc id (fillRange E p q a) := by unfold fillRange; na
theorem copyList_na (d : Ptr) (ys : List α) : NoAlloc id (copyList E d ys) := by unfold copyList; na

theorem moveBackGo_na (p : Ptr) (n : Nat) : ∀ d, NoAlloc id (moveBackGo E p n d) := by
  induction n with
  | zero => intro d; unfold moveBackGo; na
  | succ n ih => intro d; unfold moveBackGo; have := ih (d.sub 1); na

macro_rules | `(tactic| na1) => `(tactic| with_reducible exact moveBackGo_na _ _ _)

theorem moveBackward_na (p q d : Ptr) : NoAlloc id (moveBackward E p q d) := by unfold moveBackward; na

theorem swapRanges_na (n : Nat) : ∀ p q, NoAlloc id (swapRanges E p q n) := by
  induction n with
  | zero => intro p q; unfold swapRanges; na
  | succ n ih => intro p q; unfold swapRanges; have := ih (p.add 1) (q.add 1); na

theorem assignRangeLoop_na (l : Ptr) (as : List (Arg α)) : ∀ d, NoAlloc id (Vector.assignRangeLoop E l as d) := by
  induction as with
  | nil => intro p; unfold Vector.assignRangeLoop; na
  | cons a as ih => intro p; unfold Vector.assignRangeLoop; have := ih (p.add 1); na

macro_rules | `(tactic| na1) => `(tactic| with_reducible exact moveFwd_na _ _ _)
macro_rules | `(tactic| na1) => `(tactic| with_reducible exact fillRange_na _ _ _)
macro_rules | `(tactic| na1) => `(tactic| with_reducible exact copyList_na _ _)
macro_rules | `(tactic| na1) => `(tactic| with_reducible exact moveBackward_na _ _ _)
macro_rules | `(tactic| na1) => `(tactic| with_reducible exact swapRanges_na _ _ _)
macro_rules | `(tactic| na1) => `(tactic| with_reducible exact assignRangeLoop_na _ _ _)

end algo

/-! ### static_vector -/

section
variable {E : Env α} {N : Nat}

theorem size_na : NoAlloc Obj.m (Vector.size : VM α Nat) := by unfold Vector.size; na
theorem index_na (k : Nat) : NoAlloc Obj.m (Vector.index k : VM α α) := by
  unfold Vector.index; have := size_na (α := α); na
theorem argOf_na (s : Sq.Src α) : NoAlloc Obj.m (Vector.argOf s) := by
  unfold Vector.argOf; na
theorem nth_na (k : Nat) : NoAlloc Obj.m (Vector.nth k : VM α Ptr) := by unfold Vector.nth; na
theorem indexOf_na (p : Ptr) : NoAlloc Obj.m (Vector.indexOf p : VM α (Option Nat)) := by unfold Vector.indexOf; na
theorem clear_na : NoAlloc Obj.m (Vector.clear : VM α Unit) := by unfold Vector.clear; na
theorem popBack_na : NoAlloc Obj.m (Vector.popBack : VM α Unit) := by unfold Vector.popBack; na
theorem eraseAt_na (p : Ptr) : NoAlloc Obj.m (Vector.eraseAt E p) := by unfold Vector.eraseAt; na
theorem eraseRange_na (p q : Ptr) : NoAlloc Obj.m (Vector.eraseRange E p q) := by unfold Vector.eraseRange; na

macro_rules | `(tactic| na1) => `(tactic| with_reducible exact size_na)
macro_rules | `(tactic| na1) => `(tactic| with_reducible exact argOf_na _)
macro_rules | `(tactic| na1) => `(tactic| with_reducible exact nth_na _)
macro_rules | `(tactic| na1) => `(tactic| with_reducible exact indexOf_na _)
macro_rules | `(tactic| na1) => `(tactic| with_reducible exact clear_na)
macro_rules | `(tactic| na1) => `(tactic| with_reducible exact popBack_na)
macro_rules | `(tactic| na1) => `(tactic| with_reducible exact eraseAt_na _)
macro_rules | `(tactic| na1) => `(tactic| with_reducible exact eraseRange_na _ _)

theorem findIf_na (f : α → Bool) (n : Nat) : ∀ p, NoAlloc id (findIf f p n : M (St α) Ptr) := by
  induction n with
  | zero => intro p; unfold findIf; na
  | succ n ih => intro p; unfold findIf; have := ih (p.add 1); na

theorem removeGo_na (f : α → Bool) (n : Nat) : ∀ p q, NoAlloc id (removeGo E f n p q) := by
  induction n with
  | zero => intro p q; unfold removeGo; na
  | succ n ih => intro p q; unfold removeGo; have h1 := ih p (q.add 1); have h2 := ih (p.add 1) (q.add 1); na

macro_rules | `(tactic| na1) => `(tactic| with_reducible exact findIf_na _ _ _)
macro_rules | `(tactic| na1) => `(tactic| with_reducible exact removeGo_na _ _ _ _)

theorem removeIf_na (f : α → Bool) (p q : Ptr) : NoAlloc id (removeIf E f p q) := by unfold removeIf; na

macro_rules | `(tactic| na1) => `(tactic| with_reducible exact removeIf_na _ _ _)

theorem eraseIf_na (f : α → Bool) : NoAlloc Obj.m (Vector.eraseIf E f) := by unfold Vector.eraseIf; na

macro_rules | `(tactic| na1) => `(tactic| with_reducible exact eraseIf_na _)

namespace StaticVector

theorem assertNotFull_na : NoAlloc Obj.m (assertNotFull N : VM α Unit) := by unfold assertNotFull; na
theorem assertAvailable_na (n : Nat) : NoAlloc Obj.m (assertAvailable N n : VM α Unit) := by unfold assertAvailable; na
theorem destructor_na : NoAlloc Obj.m (destructor : VM α Unit) := by unfold destructor; na
theorem initWith_na (as : List (Arg α)) : NoAlloc Obj.m (initWith E N as) := by unfold initWith; na

macro_rules | `(tactic| na1) => `(tactic| with_reducible exact assertNotFull_na)
macro_rules | `(tactic| na1) => `(tactic| with_reducible exact assertAvailable_na _)
macro_rules | `(tactic| na1) => `(tactic| with_reducible exact destructor_na)

theorem emplaceBack_na (a : Arg α) : NoAlloc Obj.m (emplaceBack E N a) := by unfold emplaceBack; na

macro_rules | `(tactic| na1) => `(tactic| with_reducible exact emplaceBack_na _)

theorem emplaceBackAll_na (as : List (Arg α)) : NoAlloc Obj.m (emplaceBackAll E N as) := by
  induction as with
  | nil => unfold emplaceBackAll; na
  | cons a as ih => unfold emplaceBackAll; na

macro_rules | `(tactic| na1) => `(tactic| with_reducible exact emplaceBackAll_na _)

theorem initRangeInput_na (ys : List α) : NoAlloc Obj.m (initRangeInput E N ys) := by unfold initRangeInput; na
theorem initCopy_na (w : Vec) : NoAlloc Obj.m (initCopy E w) := by unfold initCopy; na
theorem initMove_na : NoAlloc Obj.m (initMove E) := by unfold initMove; na
theorem assignFillN_na (n : Nat) (a : Arg α) : NoAlloc Obj.m (assignFillN E N n a) := by unfold assignFillN; na
theorem assignRangeInput_na (as : List (Arg α)) : NoAlloc Obj.m (assignRangeInput E N as) := by unfold assignRangeInput; na
theorem assignRange_na (as : List (Arg α)) : NoAlloc Obj.m (assignRange E N as) := by unfold assignRange; na

macro_rules | `(tactic| na1) => `(tactic| with_reducible exact assignRange_na _)

theorem assignCopy_na (w : Vec) : NoAlloc Obj.m (assignCopy E N w) := by unfold assignCopy; na
theorem assignMove_na : NoAlloc Obj.m (assignMove E N) := by unfold assignMove; na
theorem swap_na : NoAlloc Obj.m (swap E) := by unfold swap; na
theorem emplace_na (p : Ptr) (a : Arg α) : NoAlloc Obj.m (emplace E N p a) := by unfold emplace; na
theorem insertFillN_na (p : Ptr) (n : Nat) (a : Arg α) : NoAlloc Obj.m (insertFillN E N p n a) := by unfold insertFillN; na

macro_rules | `(tactic| na1) => `(tactic| with_reducible exact emplace_na _ _)

theorem insertRangeLoop_na (as : List (Arg α)) : ∀ p, NoAlloc Obj.m (insertRangeLoop E N as p) := by
  induction as with
  | nil => intro p; unfold insertRangeLoop; na
  | cons a as ih =>
    intro p; unfold insertRangeLoop
    refine NoAlloc.bind (by na) fun q => ih _

macro_rules | `(tactic| na1) => `(tactic| with_reducible exact insertRangeLoop_na _ _)

theorem insertRangeInput_na (p : Ptr) (ys : List α) : NoAlloc Obj.m (insertRangeInput E N p ys) := by
  unfold insertRangeInput; na
theorem insertRange_na (p : Ptr) (ys : List α) : NoAlloc Obj.m (insertRange E N p ys) := by unfold insertRange; na
theorem resizeWith_na (n : Nat) (a : Arg α) : NoAlloc Obj.m (resizeWith E N n a) := by unfold resizeWith; na

macro_rules | `(tactic| na1) => `(tactic| with_reducible exact initWith_na _)
macro_rules | `(tactic| na1) => `(tactic| with_reducible exact initRangeInput_na _)
macro_rules | `(tactic| na1) => `(tactic| with_reducible exact assignFillN_na _ _)
macro_rules | `(tactic| na1) => `(tactic| with_reducible exact assignRangeInput_na _)
macro_rules | `(tactic| na1) => `(tactic| with_reducible exact insertFillN_na _ _ _)
macro_rules | `(tactic| na1) => `(tactic| with_reducible exact insertRangeInput_na _ _)
macro_rules | `(tactic| na1) => `(tactic| with_reducible exact insertRange_na _ _)
macro_rules | `(tactic| na1) => `(tactic| with_reducible exact resizeWith_na _ _)

theorem construct_na (x : Sq.Init α) : NoAlloc Obj.m (construct E N x) := by cases x <;> unfold construct <;> na


theorem exec_na (op : Sq.Op α) : NoAlloc Obj.m (exec E N op) := by cases op <;> unfold exec <;> na

end StaticVector
end

/-! ### The static ordered flat containers -/

namespace Flat
variable {E : Env α} {C : Order α κ} {P : Probe α} {multi : Bool} {N : Nat}

theorem lowerBoundGo_na (nt : Bool) (lo : α → Bool) (fuel : Nat) : ∀ p n, NoAlloc id (lowerBoundGo E nt lo fuel p n) := by
  induction fuel with
  | zero => intro p n; unfold lowerBoundGo; na
  | succ k ih =>
    intro p n; unfold lowerBoundGo
    have h1 := ih p (n / 2)
    have h2 := ih ((p.add (n / 2)).add 1) (n - n / 2 - 1)
    na

theorem upperBoundGo_na (nt : Bool) (lo : α → Bool) (fuel : Nat) : ∀ p n, NoAlloc id (upperBoundGo E nt lo fuel p n) := by
  induction fuel with
  | zero => intro p n; unfold upperBoundGo; na
  | succ k ih =>
    intro p n; unfold upperBoundGo
    have h1 := ih p (n / 2)
    have h2 := ih ((p.add (n / 2)).add 1) (n - n / 2 - 1)
    na

macro_rules | `(tactic| na1) => `(tactic| with_reducible exact lowerBoundGo_na _ _ _ _ _)
macro_rules | `(tactic| na1) => `(tactic| with_reducible exact upperBoundGo_na _ _ _ _ _)

theorem equalRangeGo_na (nt : Bool) (P : Probe α) (fuel : Nat) : ∀ p n, NoAlloc id (equalRangeGo E nt P fuel p n) := by
  induction fuel with
  | zero => intro p n; unfold equalRangeGo; na
  | succ k ih =>
    intro p n; unfold equalRangeGo
    have h1 := ih p (n / 2)
    have h2 := ih ((p.add (n / 2)).add 1) (n - n / 2 - 1)
    na

macro_rules | `(tactic| na1) => `(tactic| with_reducible exact equalRangeGo_na _ _ _ _ _)

theorem lowerBound_na : NoAlloc Obj.m (lowerBound C E P) := by unfold lowerBound; na
theorem upperBound_na : NoAlloc Obj.m (upperBound C E P) := by unfold upperBound; na
theorem equalRange_na : NoAlloc Obj.m (equalRange C E P) := by unfold equalRange; na
theorem missing_na (p : Ptr) : NoAlloc Obj.m (missing C E P p) := by unfold missing; na

macro_rules | `(tactic| na1) => `(tactic| with_reducible exact lowerBound_na)
macro_rules | `(tactic| na1) => `(tactic| with_reducible exact upperBound_na)
macro_rules | `(tactic| na1) => `(tactic| with_reducible exact equalRange_na)
macro_rules | `(tactic| na1) => `(tactic| with_reducible exact missing_na _)

theorem find_na : NoAlloc Obj.m (find C E P) := by unfold find; na

macro_rules | `(tactic| na1) => `(tactic| with_reducible exact find_na)

theorem contains_na : NoAlloc Obj.m (contains C E P) := by unfold contains; na
theorem countMulti_na : NoAlloc Obj.m (countMulti C E P) := by unfold countMulti; na
theorem at'_na : NoAlloc Obj.m (at' C E P) := by unfold at'; na

theorem insertMiddle_na (temp : Bool) (p : Ptr) (a : Arg α) : NoAlloc Obj.m (insertMiddle temp E p a) := by
  unfold insertMiddle; na

macro_rules | `(tactic| na1) => `(tactic| with_reducible exact insertMiddle_na _ _ _)

theorem insertInPlace_na (temp : Bool) (p : Ptr) (a : Arg α) : NoAlloc Obj.m (insertInPlace temp E p a) := by
  unfold insertInPlace; na

macro_rules | `(tactic| na1) => `(tactic| with_reducible exact insertInPlace_na _ _ _)

theorem static_ins_na (p : Ptr) (a : Arg α) : NoAlloc Obj.m ((static multi E).ins p a) := by
  show NoAlloc Obj.m (insertStatic multi E p a)
  unfold insertStatic; na

theorem static_guard_na : NoAlloc Obj.m ((static multi E).guard) := by
  show NoAlloc Obj.m notFull
  unfold notFull; na

theorem argRead_na (a : Arg α) : NoAlloc id (argRead a) := by
  intro s; unfold argRead
  constructor <;> (intro b s' h; grind [Same, id])

theorem assignMapped_na (p : Ptr) (v : α) : NoAlloc id (assignMapped C E p v) := by
  intro s; unfold assignMapped
  constructor <;> (intro b s' h; grind [Same, id, St.put, St.bump])

macro_rules | `(tactic| na1) => `(tactic| with_reducible exact static_ins_na _ _)
macro_rules | `(tactic| na1) => `(tactic| with_reducible exact static_guard_na)
macro_rules | `(tactic| na1) => `(tactic| with_reducible exact argRead_na _)
macro_rules | `(tactic| na1) => `(tactic| with_reducible exact assignMapped_na _ _)

theorem insertAux_na (a : Arg α) : NoAlloc Obj.m (insertAux (static multi E) C E a) := by unfold insertAux; na
theorem hintLeft_na (p : Ptr) : NoAlloc Obj.m (hintLeft C E P p) := by unfold hintLeft; na

macro_rules | `(tactic| na1) => `(tactic| with_reducible exact insertAux_na _)
macro_rules | `(tactic| na1) => `(tactic| with_reducible exact hintLeft_na _)

theorem hintUnique_na (p : Ptr) : NoAlloc Obj.m (hintUnique C E P p) := by unfold hintUnique; na
theorem equivAt_na (p : Ptr) : NoAlloc id (equivAt C E P p) := by unfold equivAt; na

macro_rules | `(tactic| na1) => `(tactic| with_reducible exact hintUnique_na _)
macro_rules | `(tactic| na1) => `(tactic| with_reducible exact equivAt_na _)

theorem hintHere_na (p : Ptr) : NoAlloc Obj.m (hintHere C E P p) := by unfold hintHere; na
theorem hintBefore_na (p : Ptr) : NoAlloc Obj.m (hintBefore C E P p) := by unfold hintBefore; na

macro_rules | `(tactic| na1) => `(tactic| with_reducible exact hintHere_na _)
macro_rules | `(tactic| na1) => `(tactic| with_reducible exact hintBefore_na _)

theorem hintMulti_na (p : Ptr) : NoAlloc Obj.m (hintMulti C E P p) := by unfold hintMulti; na

macro_rules | `(tactic| na1) => `(tactic| with_reducible exact hintMulti_na _)

theorem hintGood_na (p : Ptr) : NoAlloc Obj.m (hintGood (static multi E) C E P p) := by unfold hintGood; na

macro_rules | `(tactic| na1) => `(tactic| with_reducible exact hintGood_na _)

theorem insertAuxHint_na (p : Ptr) (a : Arg α) : NoAlloc Obj.m (insertAuxHint (static multi E) C E p a) := by
  unfold insertAuxHint; na
theorem insertNew_na (p : Ptr) (v : α) : NoAlloc Obj.m (insertNew (static multi E) E p v) := by unfold insertNew; na

macro_rules | `(tactic| na1) => `(tactic| with_reducible exact insertAuxHint_na _ _)
macro_rules | `(tactic| na1) => `(tactic| with_reducible exact insertNew_na _ _)

theorem tryEmplaceAux_na (v : α) : NoAlloc Obj.m (tryEmplaceAux (static multi E) C E v) := by unfold tryEmplaceAux; na
theorem insertOrAssignAux_na (v : α) : NoAlloc Obj.m (insertOrAssignAux (static multi E) C E v) := by
  unfold insertOrAssignAux; na

macro_rules | `(tactic| na1) => `(tactic| with_reducible exact tryEmplaceAux_na _)
macro_rules | `(tactic| na1) => `(tactic| with_reducible exact insertOrAssignAux_na _)

theorem tryEmplaceAuxHint_na (p : Ptr) (v : α) : NoAlloc Obj.m (tryEmplaceAuxHint (static multi E) C E p v) := by
  unfold tryEmplaceAuxHint; na
theorem insertOrAssignAuxHint_na (p : Ptr) (v : α) : NoAlloc Obj.m (insertOrAssignAuxHint (static multi E) C E p v) := by
  unfold insertOrAssignAuxHint; na

macro_rules | `(tactic| na1) => `(tactic| with_reducible exact tryEmplaceAuxHint_na _ _)
macro_rules | `(tactic| na1) => `(tactic| with_reducible exact insertOrAssignAuxHint_na _ _)

theorem insertRange_na (vs : List α) : NoAlloc Obj.m (insertRange (static multi E) C E vs) := by
  induction vs with
  | nil => unfold insertRange; na
  | cons v vs ih => unfold insertRange; na

theorem emplaceRange_na (vs : List α) : NoAlloc Obj.m (emplaceRange multi C E vs) := by
  induction vs with
  | nil => unfold emplaceRange; na
  | cons v vs ih => unfold emplaceRange; na

theorem eraseKey_na : NoAlloc Obj.m (eraseKey multi C E P) := by
  unfold eraseKey eraseKeyMulti eraseKeyUnique; na

theorem eraseIfGo_na (f : α → Bool) (n : Nat) : ∀ p, NoAlloc Obj.m (eraseIfGo E f n p) := by
  induction n with
  | zero => intro p; unfold eraseIfGo; na
  | succ n ih =>
    intro p; unfold eraseIfGo
    refine NoAlloc.bind (by na) fun _ => ?_
    split
    · na
    · refine NoAlloc.bind (by na) fun _ => ?_
      split
      · exact NoAlloc.bind (by na) fun _ => ih _
      · exact ih _

theorem posOf_na (p : Ptr) : NoAlloc Obj.m (posOf p : VM α Ret) := by unfold posOf; na
theorem insOf_na (r : Ptr × Bool) : NoAlloc Obj.m (insOf r : VM α Ret) := by unfold insOf; na

macro_rules | `(tactic| na1) => `(tactic| with_reducible exact insertRange_na _)
macro_rules | `(tactic| na1) => `(tactic| with_reducible exact emplaceRange_na _)
macro_rules | `(tactic| na1) => `(tactic| with_reducible exact eraseKey_na)
macro_rules | `(tactic| na1) => `(tactic| with_reducible exact eraseIfGo_na _ _ _)
macro_rules | `(tactic| na1) => `(tactic| with_reducible exact posOf_na _)
macro_rules | `(tactic| na1) => `(tactic| with_reducible exact insOf_na _)

theorem exec_na (op : Op α κ) : NoAlloc Obj.m (exec (static multi E) C E (fun _ => pure ()) (pure ()) op) := by
  cases op <;> unfold exec <;> try unfold eraseIf
  all_goals try unfold assignList
  all_goals na

macro_rules | `(tactic| na1) => `(tactic| with_reducible exact exec_na _)
macro_rules | `(tactic| na1) => `(tactic| with_reducible exact StaticVector.assignRange_na _)
macro_rules | `(tactic| na1) => `(tactic| with_reducible exact StaticVector.destructor_na)

theorem staticExec_na (op : Op α κ) : NoAlloc Obj.m (staticExec multi C E N op) := by unfold staticExec; na
theorem staticConstruct_na (i : Init α) : NoAlloc Obj.m (staticConstruct multi C E i) := by
  cases i <;> unfold staticConstruct <;> na

end Flat

/-! ### Programs -/

namespace World
variable {K : Nat} {Op I V ρ : Type} {C : Cont K Op I V α ρ} {S : Sem Op I α ρ}

/-- No function of the container type allocates. -/
structure Still (C : Cont K Op I V α ρ) : Prop where
  make : ∀ i x, NoAlloc Obj.m (C.make i x)
  copyInit : ∀ i w, NoAlloc Obj.m (C.copyInit i w)
  moveInit : ∀ i j, NoAlloc Obj.m (C.moveInit i j)
  destroy : ∀ i, NoAlloc Obj.m (C.destroy i)
  size : NoAlloc Obj.m C.size
  index : ∀ k, NoAlloc Obj.m (C.index k)
  exec : ∀ i x, NoAlloc Obj.m (C.exec i x)
  assignCopy : ∀ i j w, NoAlloc Obj.m (C.assignCopy i j w)
  assignMove : ∀ i j, NoAlloc Obj.m (C.assignMove i j)
  swap : ∀ i j, NoAlloc Obj.m (C.swap i j)

theorem call_na {β : Type} {i : Fin K} {v : V} {p : M (Obj V α) β} {f : β → Out (Option ρ)} (h : NoAlloc Obj.m p) :
    NoAlloc Obj.m (call i v p f) := by
  intro s
  have h1 := h ⟨v, s.m⟩
  unfold call
  constructor <;> (intro b s' hb; grind)

theorem call2_na {i j : Fin K} {v w : V} {p : M (Obj (V × V) α) Unit} (h : NoAlloc Obj.m p) :
    NoAlloc Obj.m (call2 i j v w p : M (Slots K V α) (Out (Option ρ))) := by
  intro s
  have h1 := h ⟨(v, w), s.m⟩
  unfold call2
  constructor <;> (intro b s' hb; grind)

theorem create_na {i : Fin K} {v : V} {p : M (Obj V α) Unit} (h : NoAlloc Obj.m p) :
    NoAlloc Obj.m (create i v p : M (Slots K V α) (Out (Option ρ))) := by
  intro s
  have h1 := h ⟨v, s.m⟩
  unfold create
  constructor <;> (intro b s' hb; grind)

theorem create2_na {i j : Fin K} {v w : V} {p : M (Obj (V × V) α) Unit} (h : NoAlloc Obj.m p) :
    NoAlloc Obj.m (create2 i j v w p : M (Slots K V α) (Out (Option ρ))) := by
  intro s
  have h1 := h ⟨(v, w), s.m⟩
  unfold create2
  constructor <;> (intro b s' hb; grind)

theorem delete_na {i : Fin K} {v : V} {p : M (Obj V α) Unit} (h : NoAlloc Obj.m p) :
    NoAlloc Obj.m (delete i v p : M (Slots K V α) (Out (Option ρ))) := by
  intro s
  have h1 := h ⟨v, s.m⟩
  unfold delete
  constructor <;> (intro b s' hb; grind)

theorem callOp_na (h : Still C) {i : Fin K} {v : V} {x : Op} : NoAlloc Obj.m (callOp C S i v x) := by
  intro s
  have h1 := call_na (i := i) (v := v) (f := .ok) (h.exec i x) s
  unfold callOp
  constructor <;> (intro b s' hb; grind [Same])

theorem sized_na {v w : V} {p : Nat → Nat → Bool} {f : M (Slots K V α) (Out (Option ρ))} (h : NoAlloc Obj.m f) :
    NoAlloc Obj.m (sized C v w p f) := by
  intro s
  have h1 := h s
  unfold sized
  constructor <;> (intro b s' hb; grind [Same])

theorem step_na (h : Still C) (x : WOp K Op I) : NoAlloc Obj.m (step C S x) := by
  intro s
  have hr := Same.refl s.m
  unfold step
  cases x with
  | make i al init =>
    have h1 := create_na (ρ := ρ) (i := i) (v := C.blank i al) (h.make i init) s
    constructor <;> (intro b s' hb; grind)
  | makeCopy i j al =>
    have h1 := fun w v => create_na (ρ := ρ) (i := i) (v := v) (h.copyInit i w) s
    constructor <;> (intro b s' hb; grind)
  | makeMove i j al =>
    have h1 := fun w v => create2_na (ρ := ρ) (i := i) (j := j) (v := v) (w := w) (h.moveInit i j) s
    constructor <;> (intro b s' hb; grind)
  | destroy i =>
    have h1 := fun v => delete_na (ρ := ρ) (i := i) (v := v) (h.destroy i) s
    constructor <;> (intro b s' hb; grind)
  | op i x =>
    have h1 := fun v => callOp_na (S := S) h (i := i) (v := v) (x := x) s
    constructor <;> (intro b s' hb; grind)
  | assignCopy i j =>
    have h1 := fun w v p => sized_na (C := C) (v := v) (w := w) (p := p)
      (call_na (i := i) (v := v) (f := fun _ => (.ok none : Out (Option ρ))) (h.assignCopy i j w)) s
    constructor <;> (intro b s' hb; grind)
  | assignMove i j =>
    have h1 := fun v w p => sized_na (C := C) (v := v) (w := w) (p := p)
      (call2_na (ρ := ρ) (i := i) (j := j) (v := v) (w := w) (h.assignMove i j)) s
    constructor <;> (intro b s' hb; grind)
  | swap i j =>
    have h1 := fun v w => call2_na (ρ := ρ) (i := i) (j := j) (v := v) (w := w) (h.swap i j) s
    constructor <;> (intro b s' hb; grind)

theorem runOps_na (h : Still C) (xs : List (WOp K Op I)) : NoAlloc Obj.m (runOps C S xs) := by
  induction xs with
  | nil => exact .pure _
  | cons x xs ih => exact .bind (step_na h x) fun _ => .bind ih fun _ => .pure _

theorem look_na (i : Fin K) : NoAlloc Obj.m (look C i) := by
  intro s
  have hr := Same.refl s.m
  unfold look
  constructor <;> (intro b s' hb; grind)

theorem lookAll_na (is : List (Fin K)) : NoAlloc Obj.m (lookAll C is) := by
  induction is with
  | nil => exact .pure _
  | cons x xs ih => exact .bind (look_na x) fun _ => .bind ih fun _ => .pure _

theorem session_na (h : Still C) (xs : List (WOp K Op I)) : NoAlloc Obj.m (session C S xs) :=
  .bind (runOps_na h _) fun _ => .bind (lookAll_na _) fun _ => .bind (runOps_na h _) fun _ => .pure _

end World

namespace StaticVector
variable {K : Nat} {E : Env α} {ib : Fin K → Nat} {N : Nat} {Op I ρ : Type}

theorem still {make : Fin K → I → VM α Unit} {exec : Fin K → Op → VM α (Option ρ)} (h1 : ∀ i x, NoAlloc Obj.m (make i x))
    (h2 : ∀ i x, NoAlloc Obj.m (exec i x)) : World.Still (contOf E ib N make exec) where
  make := h1
  copyInit := fun _ w => initCopy_na w
  moveInit := fun _ _ => initMove_na
  destroy := fun _ => destructor_na
  size := size_na
  index := index_na
  exec := h2
  assignCopy := fun _ _ w => assignCopy_na w
  assignMove := fun _ _ => assignMove_na
  swap := fun _ _ => swap_na

theorem cont_still : World.Still (cont E ib N) := still (fun _ x => construct_na x) (fun _ x => exec_na x)

end StaticVector

theorem Flat.staticCont_still {K : Nat} {E : Env α} {ib : Fin K → Nat} {N : Nat} {multi : Bool} {C : Order α κ} :
    World.Still (Flat.staticCont multi C E ib N) :=
  StaticVector.still (fun _ x => Flat.staticConstruct_na x)
    (fun _ x => .bind (Flat.staticExec_na x) fun _ => .pure _)

end Sfl
