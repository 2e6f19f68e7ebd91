import Verif.Calm
import Verif.UnordWorld
import Verif.SegDevWorld
import Verif.SegWorld
import Verif.DevWorld
import Verif.CompactWorld
import Verif.StaticWorld
/-
  Programs whose element operations and allocations do not throw see no exception but length_error: the instances of `Calm` for the
  functions of all containers. Functions without the hypothesis `Allows L .lengthError` do not even throw that.
-/

set_option linter.unusedVariables false
set_option linter.unusedSimpArgs false

namespace Sfl
variable {α : Type} {E : Env α} {L : Exn → Prop}

instance (ib al : Nat) (p : Ptr) (n : Nat) : Calm L (freeUnless ib al p n : M (St α) Unit) := by unfold freeUnless; calm

/-- The functions an ordered flat container is built from are calm. -/
class Flat.CalmKind (L : Exn → Prop) (K : Flat.Kind α) : Prop where
  guard : Calm L K.guard
  ins : ∀ p a, Calm L (K.ins p a)

instance (K : Flat.Kind α) [h : Flat.CalmKind L K] : Calm L K.guard := h.guard
instance (K : Flat.Kind α) [h : Flat.CalmKind L K] (p : Ptr) (a : Arg α) : Calm L (K.ins p a) := h.ins p a

/-- The functions an unordered flat container is built from are calm. -/
class Unord.CalmKind (L : Exn → Prop) (K : Unord.Kind α) : Prop where
  guard : Calm L K.guard
  push : ∀ a, Calm L (K.push a)

instance (K : Unord.Kind α) [h : Unord.CalmKind L K] : Calm L K.guard := h.guard
instance (K : Unord.Kind α) [h : Unord.CalmKind L K] (a : Arg α) : Calm L (K.push a) := h.push a

/-! ### Remove.lean -/

instance (f : α → Bool) (p : Ptr) (x4 : Nat) : Calm L (findIf f p x4 : M (St α) Ptr) := by
   induction x4 generalizing p with
   | zero => unfold findIf; calm
   | succ n ih => unfold findIf; have := ih; calm

instance (f : α → Bool) (x4 : Nat) (x5 x6 : Ptr) [Silent E] : Calm L (removeGo E f x4 x5 x6 : M (St α) Ptr) := by
   induction x4 generalizing x5 x6 with
   | zero => unfold removeGo; calm
   | succ n ih => unfold removeGo; have := ih; calm

instance (f : α → Bool) (first last : Ptr) [Silent E] : Calm L (removeIf E f first last : M (St α) Ptr) := by
  unfold removeIf; calm

instance (f : α → Bool) [Silent E] : Calm L (Vector.eraseIf E f : Vector.VM α Nat) := by unfold Vector.eraseIf; calm

/-! ### Vector.lean -/

instance : Calm L (Vector.size : Vector.VM α Nat) := by unfold Vector.size; calm

instance : Calm L (Vector.capacity : Vector.VM α Nat) := by unfold Vector.capacity; calm

instance : Calm L (Vector.available : Vector.VM α Nat) := by unfold Vector.available; calm

instance (n : Nat) [Silent E] [Allows L .lengthError] : Calm L (Vector.checkSize E n : Vector.VM α Unit) := by
  unfold Vector.checkSize; calm

instance (n : Nat) [Silent E] [Allows L .lengthError] : Calm L (Vector.calculateNewCapacity E n : Vector.VM α Nat) := by
  unfold Vector.calculateNewCapacity; calm

instance (newFirst newLast newEos : Ptr) : Calm L (Vector.replaceStorage newFirst newLast newEos : Vector.VM α Unit)
    := by
  unfold Vector.replaceStorage; calm

instance (newCap : Nat) [Silent E] [Allows L .lengthError] : Calm L (Vector.reserve E newCap : Vector.VM α Unit) := by
  unfold Vector.reserve; calm

instance [Silent E] : Calm L (Vector.shrinkToFit E : Vector.VM α Unit) := by unfold Vector.shrinkToFit; calm

instance (pos : Nat) : Calm L (Vector.index pos : Vector.VM α α) := by unfold Vector.index; calm

instance (pos : Nat) [Allows L .outOfRange] : Calm L (Vector.at' pos : Vector.VM α α) := by unfold Vector.at'; calm

instance : Calm L (Vector.front : Vector.VM α α) := by unfold Vector.front; calm

instance : Calm L (Vector.back : Vector.VM α α) := by unfold Vector.back; calm

instance : Calm L (Vector.clear : Vector.VM α Unit) := by unfold Vector.clear; calm

instance (pos : Ptr) (a : Arg α) [Silent E] [Allows L .lengthError] : Calm L (Vector.emplace E pos a : Vector.VM α
    Ptr) := by
  unfold Vector.emplace; calm

instance (a : Arg α) [Silent E] [Allows L .lengthError] : Calm L (Vector.emplaceBack E a : Vector.VM α Ptr) := by
  unfold Vector.emplaceBack; calm

instance : Calm L (Vector.popBack : Vector.VM α Unit) := by unfold Vector.popBack; calm

instance (pos : Ptr) [Silent E] : Calm L (Vector.eraseAt E pos : Vector.VM α Ptr) := by unfold Vector.eraseAt; calm

instance (first last : Ptr) [Silent E] : Calm L (Vector.eraseRange E first last : Vector.VM α Ptr) := by
  unfold Vector.eraseRange; calm

instance (n : Nat) (a : Arg α) [Silent E] [Allows L .lengthError] : Calm L (Vector.resizeWith E n a : Vector.VM α
    Unit) := by
  unfold Vector.resizeWith; calm

instance (n : Nat) [Silent E] [Allows L .lengthError] : Calm L (Vector.resize E n : Vector.VM α Unit) := by
  unfold Vector.resize; calm

instance (newCap : Nat) [Silent E] : Calm L (Vector.reset E newCap : Vector.VM α Unit) := by unfold Vector.reset; calm

instance : Calm L (Vector.destructor : Vector.VM α Unit) := by unfold Vector.destructor; calm

instance (as : List (Arg α)) [Silent E] [Allows L .lengthError] : Calm L (Vector.initWith E as : Vector.VM α Unit) := by
  unfold Vector.initWith; calm

instance (n : Nat) [Silent E] [Allows L .lengthError] : Calm L (Vector.initDefaultN E n : Vector.VM α Unit) := by
  unfold Vector.initDefaultN; calm

instance (n : Nat) (a : Arg α) [Silent E] [Allows L .lengthError] : Calm L (Vector.initFillN E n a : Vector.VM α
    Unit) := by
  unfold Vector.initFillN; calm

instance (ys : List α) [Silent E] [Allows L .lengthError] : Calm L (Vector.initRange E ys : Vector.VM α Unit) := by
  unfold Vector.initRange; calm

instance (x3 : List (Arg α)) [Silent E] [Allows L .lengthError] : Calm L (Vector.emplaceBackAll E x3 : Vector.VM α
    Unit) := by
   induction x3 with
   | nil => unfold Vector.emplaceBackAll; calm
   | cons a as ih => unfold Vector.emplaceBackAll; have := ih; calm

instance (ys : List α) [Silent E] [Allows L .lengthError] : Calm L (Vector.initRangeInput E ys : Vector.VM α Unit) := by
  unfold Vector.initRangeInput; calm

instance (n : Nat) (a : Arg α) [Silent E] [Allows L .lengthError] : Calm L (Vector.assignFillN E n a : Vector.VM α
    Unit) := by
  unfold Vector.assignFillN; calm

instance (last : Ptr) (x4 : List (Arg α)) (x5 : Ptr) [Silent E] : Calm L (Vector.assignRangeLoop E last x4 x5 : M (St
    α) (List (Arg α) × Ptr)) := by
   induction x4 generalizing x5 with
   | nil => unfold Vector.assignRangeLoop; calm
   | cons a as ih => unfold Vector.assignRangeLoop; have := ih; calm

instance (as : List (Arg α)) [Silent E] [Allows L .lengthError] : Calm L (Vector.assignRangeInput E as : Vector.VM α
    Unit) := by
  unfold Vector.assignRangeInput; calm

instance (as : List (Arg α)) [Silent E] [Allows L .lengthError] : Calm L (Vector.assignRange E as : Vector.VM α Unit)
    := by
  unfold Vector.assignRange; calm

instance (pos : Ptr) (n : Nat) (a : Arg α) [Silent E] [Allows L .lengthError] : Calm L (Vector.insertFillN E pos n a
    : Vector.VM α Ptr) := by
  unfold Vector.insertFillN; calm

instance (x3 : List (Arg α)) (x4 : Ptr) [Silent E] [Allows L .lengthError] : Calm L (Vector.insertRangeLoop E x3 x4 :
    Vector.VM α Ptr) := by
   induction x3 generalizing x4 with
   | nil => unfold Vector.insertRangeLoop; calm
   | cons a as ih => unfold Vector.insertRangeLoop; have := ih; calm

instance (pos : Ptr) (ys : List α) [Silent E] [Allows L .lengthError] : Calm L (Vector.insertRangeInput E pos ys :
    Vector.VM α Ptr) := by
  unfold Vector.insertRangeInput; calm

instance (pos : Ptr) (ys : List α) [Silent E] [Allows L .lengthError] : Calm L (Vector.insertRange E pos ys :
    Vector.VM α Ptr) := by
  unfold Vector.insertRange; calm

/-! ### SmallVector.lean -/

instance (N n : Nat) [Silent E] [Allows L .lengthError] : Calm L (SmallVector.calculateNewCapacity E N n : Vector.VM
    α Nat) := by
  unfold SmallVector.calculateNewCapacity; calm

instance (ib N newCap : Nat) [Silent E] : Calm L (SmallVector.newStorage E ib N newCap : Vector.VM α (Ptr × Nat)) := by
  unfold SmallVector.newStorage; calm

instance (ib : Nat) (newFirst newLast newEos : Ptr) : Calm L (SmallVector.replaceStorage ib newFirst newLast newEos :
    Vector.VM α Unit) := by
  unfold SmallVector.replaceStorage; calm

instance (ib N newCap : Nat) [Silent E] : Calm L (SmallVector.relocate E ib N newCap : Vector.VM α Unit) := by
  unfold SmallVector.relocate; calm

instance (ib N newCap : Nat) [Silent E] [Allows L .lengthError] : Calm L (SmallVector.reserve E ib N newCap :
    Vector.VM α Unit) := by
  unfold SmallVector.reserve; calm

instance (ib N : Nat) [Silent E] : Calm L (SmallVector.shrinkToFit E ib N : Vector.VM α Unit) := by
  unfold SmallVector.shrinkToFit; calm

instance (ib N : Nat) (pos : Ptr) (a : Arg α) [Silent E] [Allows L .lengthError] : Calm L (SmallVector.emplace E ib N
    pos a : Vector.VM α Ptr) := by
  unfold SmallVector.emplace; calm

instance (ib N : Nat) (a : Arg α) [Silent E] [Allows L .lengthError] : Calm L (SmallVector.emplaceBack E ib N a :
    Vector.VM α Ptr) := by
  unfold SmallVector.emplaceBack; calm

instance (ib N n : Nat) (a : Arg α) [Silent E] [Allows L .lengthError] : Calm L (SmallVector.resizeWith E ib N n a :
    Vector.VM α Unit) := by
  unfold SmallVector.resizeWith; calm

instance (ib N n : Nat) [Silent E] [Allows L .lengthError] : Calm L (SmallVector.resize E ib N n : Vector.VM α Unit)
    := by
  unfold SmallVector.resize; calm

instance (ib N newCap : Nat) [Silent E] : Calm L (SmallVector.reset E ib N newCap : Vector.VM α Unit) := by
  unfold SmallVector.reset; calm

instance (ib : Nat) : Calm L (SmallVector.destructor ib : Vector.VM α Unit) := by unfold SmallVector.destructor; calm

instance (N : Nat) (as : List (Arg α)) [Silent E] [Allows L .lengthError] : Calm L (SmallVector.initWith E N as :
    Vector.VM α Unit) := by
  unfold SmallVector.initWith; calm

instance (N n : Nat) [Silent E] [Allows L .lengthError] : Calm L (SmallVector.initDefaultN E N n : Vector.VM α Unit)
    := by
  unfold SmallVector.initDefaultN; calm

instance (N n : Nat) (a : Arg α) [Silent E] [Allows L .lengthError] : Calm L (SmallVector.initFillN E N n a :
    Vector.VM α Unit) := by
  unfold SmallVector.initFillN; calm

instance (N : Nat) (ys : List α) [Silent E] [Allows L .lengthError] : Calm L (SmallVector.initRange E N ys :
    Vector.VM α Unit) := by
  unfold SmallVector.initRange; calm

instance (ib N : Nat) (x5 : List (Arg α)) [Silent E] [Allows L .lengthError] : Calm L (SmallVector.emplaceBackAll E
    ib N x5 : Vector.VM α Unit) := by
   induction x5 with
   | nil => unfold SmallVector.emplaceBackAll; calm
   | cons a as ih => unfold SmallVector.emplaceBackAll; have := ih; calm

instance (ib N : Nat) (ys : List α) [Silent E] [Allows L .lengthError] : Calm L (SmallVector.initRangeInput E ib N ys
    : Vector.VM α Unit) := by
  unfold SmallVector.initRangeInput; calm

instance (ib N n : Nat) (a : Arg α) [Silent E] [Allows L .lengthError] : Calm L (SmallVector.assignFillN E ib N n a :
    Vector.VM α Unit) := by
  unfold SmallVector.assignFillN; calm

instance (ib N : Nat) (as : List (Arg α)) [Silent E] [Allows L .lengthError] : Calm L (SmallVector.assignRangeInput E
    ib N as : Vector.VM α Unit) := by
  unfold SmallVector.assignRangeInput; calm

instance (ib N : Nat) (as : List (Arg α)) [Silent E] [Allows L .lengthError] : Calm L (SmallVector.assignRange E ib N
    as : Vector.VM α Unit) := by
  unfold SmallVector.assignRange; calm

instance (ib N : Nat) (pos : Ptr) (n : Nat) (a : Arg α) [Silent E] [Allows L .lengthError] : Calm L
    (SmallVector.insertFillN E ib N pos n a : Vector.VM α Ptr) := by
  unfold SmallVector.insertFillN; calm

instance (ib N : Nat) (x5 : List (Arg α)) (x6 : Ptr) [Silent E] [Allows L .lengthError] : Calm L
    (SmallVector.insertRangeLoop E ib N x5 x6 : Vector.VM α Ptr) := by
   induction x5 generalizing x6 with
   | nil => unfold SmallVector.insertRangeLoop; calm
   | cons a as ih => unfold SmallVector.insertRangeLoop; have := ih; calm

instance (ib N : Nat) (pos : Ptr) (ys : List α) [Silent E] [Allows L .lengthError] : Calm L
    (SmallVector.insertRangeInput E ib N pos ys : Vector.VM α Ptr) := by
  unfold SmallVector.insertRangeInput; calm

instance (ib N : Nat) (pos : Ptr) (ys : List α) [Silent E] [Allows L .lengthError] : Calm L (SmallVector.insertRange
    E ib N pos ys : Vector.VM α Ptr) := by
  unfold SmallVector.insertRange; calm

/-! ### Two.lean -/

instance {V W β : Type} (p : M (Obj V α) β) [Calm L p] : Calm L (onThis p : M (Obj (V × W) α) β) :=
  ⟨fun s e s' he => by
      unfold onThis at he
      split at he
      · cases he
      · rename_i hm; cases he; exact Calm.out _ _ _ hm
      · cases he⟩

instance {V W β : Type} (p : M (Obj W α) β) [Calm L p] : Calm L (onOther p : M (Obj (V × W) α) β) :=
  ⟨fun s e s' he => by
      unfold onOther at he
      split at he
      · cases he
      · rename_i hm; cases he; exact Calm.out _ _ _ hm
      · cases he⟩

instance (p q : Ptr) (x5 : Nat) [Silent E] : Calm L (swapRanges E p q x5 : M (St α) Unit) := by
   induction x5 generalizing p q with
   | zero => unfold swapRanges; calm
   | succ n ih => unfold swapRanges; have := ih; calm

instance (N : Nat) (other : Vec) [Silent E] [Allows L .lengthError] : Calm L (SmallVector.initCopy E N other :
    Vector.VM α Unit) := by
  unfold SmallVector.initCopy; calm

instance (N ibo : Nat) [Silent E] [Allows L .lengthError] : Calm L (SmallVector.initMove E N ibo : M2 α Unit) := by
  unfold SmallVector.initMove; calm

instance (ib N : Nat) (flag : Bool) (al : Nat) [Silent E] : Calm L (SmallVector.propagate E ib N flag al : Vector.VM
    α Unit) := by
  unfold SmallVector.propagate; calm

instance (T : Traits) (ib N : Nat) (other : Vec) [Silent E] [Allows L .lengthError] : Calm L (SmallVector.assignCopy
    E T ib N other : Vector.VM α Unit) := by
  unfold SmallVector.assignCopy; calm

instance (T : Traits) (ib N ibo : Nat) [Silent E] [Allows L .lengthError] : Calm L (SmallVector.assignMove E T ib N
    ibo : M2 α Unit) := by
  unfold SmallVector.assignMove; calm

instance [Silent E] : Calm L (SmallVector.swapInternal E : M2 α Unit) := by unfold SmallVector.swapInternal; calm

instance (N ibo : Nat) [Silent E] : Calm L (SmallVector.swapInHeap E N ibo : M2 α Unit) := by
  unfold SmallVector.swapInHeap; calm

instance (N ib : Nat) [Silent E] : Calm L (SmallVector.swapHeapIn E N ib : M2 α Unit) := by
  unfold SmallVector.swapHeapIn; calm

instance (T : Traits) : Calm L (SmallVector.swapAlloc T : M2 α Unit) := by unfold SmallVector.swapAlloc; calm

instance (T : Traits) (N ib ibo : Nat) [Silent E] : Calm L (SmallVector.swap E T N ib ibo : M2 α Unit) := by
  unfold SmallVector.swap; calm

instance (other : Vec) [Silent E] [Allows L .lengthError] : Calm L (Vector.initCopy E other : Vector.VM α Unit) := by
  unfold Vector.initCopy; calm

instance [Silent E] [Allows L .lengthError] : Calm L (Vector.initMove E : M2 α Unit) := by
  unfold Vector.initMove; calm

instance (flag : Bool) (al : Nat) [Silent E] : Calm L (Vector.propagate E flag al : Vector.VM α Unit) := by
  unfold Vector.propagate; calm

instance (T : Traits) (other : Vec) [Silent E] [Allows L .lengthError] : Calm L (Vector.assignCopy E T other :
    Vector.VM α Unit) := by
  unfold Vector.assignCopy; calm

instance (T : Traits) [Silent E] [Allows L .lengthError] : Calm L (Vector.assignMove E T : M2 α Unit) := by
  unfold Vector.assignMove; calm

instance (T : Traits) : Calm L (Vector.swap T : M2 α Unit) := by unfold Vector.swap; calm

/-! ### Static.lean -/

instance (N : Nat) : Calm L (StaticVector.assertNotFull N : Vector.VM α Unit) := by
  unfold StaticVector.assertNotFull; calm

instance (N n : Nat) : Calm L (StaticVector.assertAvailable N n : Vector.VM α Unit) := by
  unfold StaticVector.assertAvailable; calm

instance : Calm L (StaticVector.destructor : Vector.VM α Unit) := by unfold StaticVector.destructor; calm

instance (N : Nat) (as : List (Arg α)) [Silent E] : Calm L (StaticVector.initWith E N as : Vector.VM α Unit) := by
  unfold StaticVector.initWith; calm

instance (N : Nat) (a : Arg α) [Silent E] : Calm L (StaticVector.emplaceBack E N a : Vector.VM α Ptr) := by
  unfold StaticVector.emplaceBack; calm

instance (N : Nat) (x4 : List (Arg α)) [Silent E] : Calm L (StaticVector.emplaceBackAll E N x4 : Vector.VM α Unit) := by
   induction x4 with
   | nil => unfold StaticVector.emplaceBackAll; calm
   | cons a as ih => unfold StaticVector.emplaceBackAll; have := ih; calm

instance (N : Nat) (ys : List α) [Silent E] : Calm L (StaticVector.initRangeInput E N ys : Vector.VM α Unit) := by
  unfold StaticVector.initRangeInput; calm

instance (other : Vec) [Silent E] : Calm L (StaticVector.initCopy E other : Vector.VM α Unit) := by
  unfold StaticVector.initCopy; calm

instance [Silent E] : Calm L (StaticVector.initMove E : M2 α Unit) := by unfold StaticVector.initMove; calm

instance (N n : Nat) (a : Arg α) [Silent E] : Calm L (StaticVector.assignFillN E N n a : Vector.VM α Unit) := by
  unfold StaticVector.assignFillN; calm

instance (N : Nat) (as : List (Arg α)) [Silent E] : Calm L (StaticVector.assignRangeInput E N as : Vector.VM α Unit)
    := by
  unfold StaticVector.assignRangeInput; calm

instance (N : Nat) (as : List (Arg α)) [Silent E] : Calm L (StaticVector.assignRange E N as : Vector.VM α Unit) := by
  unfold StaticVector.assignRange; calm

instance (N : Nat) (other : Vec) [Silent E] : Calm L (StaticVector.assignCopy E N other : Vector.VM α Unit) := by
  unfold StaticVector.assignCopy; calm

instance (N : Nat) [Silent E] : Calm L (StaticVector.assignMove E N : M2 α Unit) := by
  unfold StaticVector.assignMove; calm

instance [Silent E] : Calm L (StaticVector.swap E : M2 α Unit) := by unfold StaticVector.swap; calm

instance (N : Nat) (pos : Ptr) (a : Arg α) [Silent E] : Calm L (StaticVector.emplace E N pos a : Vector.VM α Ptr) := by
  unfold StaticVector.emplace; calm

instance (N : Nat) (pos : Ptr) (n : Nat) (a : Arg α) [Silent E] : Calm L (StaticVector.insertFillN E N pos n a :
    Vector.VM α Ptr) := by
  unfold StaticVector.insertFillN; calm

instance (N : Nat) (x4 : List (Arg α)) (x5 : Ptr) [Silent E] : Calm L (StaticVector.insertRangeLoop E N x4 x5 :
    Vector.VM α Ptr) := by
   induction x4 generalizing x5 with
   | nil => unfold StaticVector.insertRangeLoop; calm
   | cons a as ih => unfold StaticVector.insertRangeLoop; have := ih; calm

instance (N : Nat) (pos : Ptr) (ys : List α) [Silent E] : Calm L (StaticVector.insertRangeInput E N pos ys :
    Vector.VM α Ptr) := by
  unfold StaticVector.insertRangeInput; calm

instance (N : Nat) (pos : Ptr) (ys : List α) [Silent E] : Calm L (StaticVector.insertRange E N pos ys : Vector.VM α
    Ptr) := by
  unfold StaticVector.insertRange; calm

instance (N n : Nat) (a : Arg α) [Silent E] : Calm L (StaticVector.resizeWith E N n a : Vector.VM α Unit) := by
  unfold StaticVector.resizeWith; calm

instance (N : Nat) (x4 : Sq.Init α) [Silent E] : Calm L (StaticVector.construct E N x4 : Vector.VM α Unit) := by
  unfold StaticVector.construct; calm

instance (N : Nat) (x4 : Sq.Op α) [Silent E] : Calm L (StaticVector.exec E N x4 : Vector.VM α (Option Nat)) := by
  unfold StaticVector.exec; calm

/-! ### CompactVector.lean -/

instance : Calm L (CompactVector.size : Vector.VM α Nat) := by unfold CompactVector.size; calm

instance : Calm L (CompactVector.capacity : Vector.VM α Nat) := by unfold CompactVector.capacity; calm

instance (n : Nat) [Silent E] [Allows L .lengthError] : Calm L (CompactVector.checkSize E n : Vector.VM α Unit) := by
  unfold CompactVector.checkSize; calm

instance (newFirst newLast newEos : Ptr) : Calm L (CompactVector.replace newFirst newLast newEos : Vector.VM α Unit)
    := by
  unfold CompactVector.replace; calm

instance : Calm L (CompactVector.clear : Vector.VM α Unit) := by unfold CompactVector.clear; calm

instance : Calm L (CompactVector.destructor : Vector.VM α Unit) := by unfold CompactVector.destructor; calm

instance (pos : Nat) : Calm L (CompactVector.index pos : Vector.VM α α) := by unfold CompactVector.index; calm

instance (pos : Ptr) (a : Arg α) [Silent E] [Allows L .lengthError] : Calm L (CompactVector.emplace E pos a :
    Vector.VM α Ptr) := by
  unfold CompactVector.emplace; calm

instance (a : Arg α) [Silent E] [Allows L .lengthError] : Calm L (CompactVector.emplaceBack E a : Vector.VM α Ptr) := by
  unfold CompactVector.emplaceBack; calm

instance (first last : Ptr) [Silent E] : Calm L (CompactVector.eraseRange E first last : Vector.VM α Ptr) := by
  unfold CompactVector.eraseRange; calm

instance (pos : Ptr) [Silent E] : Calm L (CompactVector.eraseAt E pos : Vector.VM α Ptr) := by
  unfold CompactVector.eraseAt; calm

instance [Silent E] : Calm L (CompactVector.popBack E : Vector.VM α Unit) := by unfold CompactVector.popBack; calm

instance (v : Vec) (n sz : Nat) (a : Arg α) (newFirst : Ptr) [Silent E] : Calm L (CompactVector.resizeGrow E v n sz a
    newFirst : Vector.VM α Ptr) := by
  unfold CompactVector.resizeGrow; calm

instance (v : Vec) (n : Nat) (newFirst : Ptr) [Silent E] : Calm L (CompactVector.resizeShrink E v n newFirst :
    Vector.VM α Ptr) := by
  unfold CompactVector.resizeShrink; calm

instance (n : Nat) (a : Arg α) [Silent E] [Allows L .lengthError] : Calm L (CompactVector.resizeWith E n a :
    Vector.VM α Unit) := by
  unfold CompactVector.resizeWith; calm

instance (n : Nat) [Silent E] [Allows L .lengthError] : Calm L (CompactVector.resize E n : Vector.VM α Unit) := by
  unfold CompactVector.resize; calm

instance (as : List (Arg α)) [Silent E] [Allows L .lengthError] : Calm L (CompactVector.initWith E as : Vector.VM α
    Unit) := by
  unfold CompactVector.initWith; calm

instance (x3 : List (Arg α)) [Silent E] [Allows L .lengthError] : Calm L (CompactVector.emplaceBackAll E x3 :
    Vector.VM α Unit) := by
   induction x3 with
   | nil => unfold CompactVector.emplaceBackAll; calm
   | cons a as ih => unfold CompactVector.emplaceBackAll; have := ih; calm

instance (ys : List α) [Silent E] [Allows L .lengthError] : Calm L (CompactVector.initRangeInput E ys : Vector.VM α
    Unit) := by
  unfold CompactVector.initRangeInput; calm

instance (as : List (Arg α)) [Silent E] : Calm L (CompactVector.refill E as : Vector.VM α Unit) := by
  unfold CompactVector.refill; calm

instance (as : List (Arg α)) [Silent E] : Calm L (CompactVector.reassign E as : Vector.VM α Unit) := by
  unfold CompactVector.reassign; calm

instance (n : Nat) (a : Arg α) [Silent E] [Allows L .lengthError] : Calm L (CompactVector.assignFillN E n a :
    Vector.VM α Unit) := by
  unfold CompactVector.assignFillN; calm

instance (as : List (Arg α)) [Silent E] [Allows L .lengthError] : Calm L (CompactVector.assignRangeInput E as :
    Vector.VM α Unit) := by
  unfold CompactVector.assignRangeInput; calm

instance (as : List (Arg α)) [Silent E] [Allows L .lengthError] : Calm L (CompactVector.assignRange E as : Vector.VM
    α Unit) := by
  unfold CompactVector.assignRange; calm

instance (pos : Ptr) (n : Nat) (a : Arg α) [Silent E] [Allows L .lengthError] : Calm L (CompactVector.insertFillN E
    pos n a : Vector.VM α Ptr) := by
  unfold CompactVector.insertFillN; calm

instance (x3 : List (Arg α)) (x4 : Ptr) [Silent E] [Allows L .lengthError] : Calm L (CompactVector.insertRangeLoop E
    x3 x4 : Vector.VM α Ptr) := by
   induction x3 generalizing x4 with
   | nil => unfold CompactVector.insertRangeLoop; calm
   | cons a as ih => unfold CompactVector.insertRangeLoop; have := ih; calm

instance (pos : Ptr) (ys : List α) [Silent E] [Allows L .lengthError] : Calm L (CompactVector.insertRangeInput E pos
    ys : Vector.VM α Ptr) := by
  unfold CompactVector.insertRangeInput; calm

instance (pos : Ptr) (ys : List α) [Silent E] [Allows L .lengthError] : Calm L (CompactVector.insertRange E pos ys :
    Vector.VM α Ptr) := by
  unfold CompactVector.insertRange; calm

instance (f : α → Bool) [Silent E] : Calm L (CompactVector.eraseIf E f : Vector.VM α Nat) := by
  unfold CompactVector.eraseIf; calm

instance (other : Vec) [Silent E] [Allows L .lengthError] : Calm L (CompactVector.initCopy E other : Vector.VM α
    Unit) := by
  unfold CompactVector.initCopy; calm

instance [Silent E] [Allows L .lengthError] : Calm L (CompactVector.initMove E : M2 α Unit) := by
  unfold CompactVector.initMove; calm

instance (flag : Bool) (al : Nat) : Calm L (CompactVector.propagate flag al : Vector.VM α Unit) := by
  unfold CompactVector.propagate; calm

instance (T : Traits) (other : Vec) [Silent E] [Allows L .lengthError] : Calm L (CompactVector.assignCopy E T other :
    Vector.VM α Unit) := by
  unfold CompactVector.assignCopy; calm

instance (T : Traits) [Silent E] [Allows L .lengthError] : Calm L (CompactVector.assignMove E T : M2 α Unit) := by
  unfold CompactVector.assignMove; calm

instance (T : Traits) : Calm L (CompactVector.swap T : M2 α Unit) := by unfold CompactVector.swap; calm

/-! ### Devector.lean -/

macro_rules | `(tactic| calm1) => `(tactic| with_reducible refine Devector.calm_guard ?_ ?_)

instance : Calm L (Devector.size : Devector.DM α Nat) := by unfold Devector.size; calm

instance : Calm L (Devector.capacity : Devector.DM α Nat) := by unfold Devector.capacity; calm

instance : Calm L (Devector.availableFront : Devector.DM α Nat) := by unfold Devector.availableFront; calm

instance : Calm L (Devector.availableBack : Devector.DM α Nat) := by unfold Devector.availableBack; calm

instance (n : Nat) [Silent E] [Allows L .lengthError] : Calm L (Devector.checkSize E n : Devector.DM α Unit) := by
  unfold Devector.checkSize; calm

instance (bos first : Ptr) (last eos : Ptr) : Calm L (Devector.replaceStorage bos first last eos : Devector.DM α
    Unit) := by
  unfold Devector.replaceStorage; calm

instance (n off : Nat) [Silent E] : Calm L (Devector.relocate E n off : Devector.DM α Unit) := by
  unfold Devector.relocate; calm

instance (newCap : Nat) [Silent E] [Allows L .lengthError] : Calm L (Devector.reserveFront E newCap : Devector.DM α
    Unit) := by
  unfold Devector.reserveFront; calm

instance (newCap : Nat) [Silent E] [Allows L .lengthError] : Calm L (Devector.reserveBack E newCap : Devector.DM α
    Unit) := by
  unfold Devector.reserveBack; calm

instance [Silent E] : Calm L (Devector.shrinkToFit E : Devector.DM α Unit) := by unfold Devector.shrinkToFit; calm

instance (additional : Nat) [Silent E] [Allows L .lengthError] : Calm L (Devector.growStorageFront E additional :
    Devector.DM α Unit) := by
  unfold Devector.growStorageFront; calm

instance (additional : Nat) [Silent E] [Allows L .lengthError] : Calm L (Devector.growStorageBack E additional :
    Devector.DM α Unit) := by
  unfold Devector.growStorageBack; calm

instance (pos : Nat) : Calm L (Devector.index pos : Devector.DM α α) := by unfold Devector.index; calm

instance (pos : Nat) [Allows L .outOfRange] : Calm L (Devector.at' pos : Devector.DM α α) := by
  unfold Devector.at'; calm

instance : Calm L (Devector.front : Devector.DM α α) := by unfold Devector.front; calm

instance : Calm L (Devector.back : Devector.DM α α) := by unfold Devector.back; calm

instance (pos : Nat) : Calm L (Devector.nth pos : Devector.DM α Ptr) := by unfold Devector.nth; calm

instance (pos : Ptr) : Calm L (Devector.indexOf pos : Devector.DM α (Option Nat)) := by unfold Devector.indexOf; calm

instance : Calm L (Devector.clear : Devector.DM α Unit) := by unfold Devector.clear; calm

instance : Calm L (Devector.popFront : Devector.DM α Unit) := by unfold Devector.popFront; calm

instance : Calm L (Devector.popBack : Devector.DM α Unit) := by unfold Devector.popBack; calm

instance (pos : Ptr) [Silent E] : Calm L (Devector.erase E pos : Devector.DM α Ptr) := by unfold Devector.erase; calm

instance (first last : Ptr) [Silent E] : Calm L (Devector.eraseRange E first last : Devector.DM α Ptr) := by
  unfold Devector.eraseRange; calm

instance (d : Ptr) (n : Nat) (x5 : Devector.Proxy α) [Silent E] : Calm L (Devector.Proxy.uninitInsertN E d n x5 : M
    (St α) (Ptr × Devector.Proxy α)) := by
  cases x5 <;> unfold Devector.Proxy.uninitInsertN <;> calm

instance (d : Ptr) (n : Nat) (x5 : Devector.Proxy α) [Silent E] : Calm L (Devector.Proxy.insertN E d n x5 : M (St α)
    (Ptr × Devector.Proxy α)) := by
  cases x5 <;> unfold Devector.Proxy.insertN <;> calm

instance (first last d : Ptr) [Silent E] : Calm L (Devector.moveFwdNe E first last d : M (St α) Unit) := by
  unfold Devector.moveFwdNe; calm

instance (first last d : Ptr) [Silent E] : Calm L (Devector.moveBackwardNe E first last d : M (St α) Unit) := by
  unfold Devector.moveBackwardNe; calm

instance (p10 p20 : Ptr) (p30 q10 : Ptr) (q20 q30 : Ptr) (n : Nat) (px : Devector.Proxy α) [Silent E] : Calm L
    (Devector.back1 E p10 p20 p30 q10 q20 q30 n px : M (St α) Unit) := by
  unfold Devector.back1; calm

instance (p10 p20 : Ptr) (p30 q10 : Ptr) (q20 q30 q40 : Ptr) (n : Nat) (px : Devector.Proxy α) [Silent E] : Calm L
    (Devector.back2 E p10 p20 p30 q10 q20 q30 q40 n px : M (St α) Unit) := by
  unfold Devector.back2; calm

instance (p10 p20 : Ptr) (p30 q10 : Ptr) (q20 q30 q40 : Ptr) (n : Nat) (px : Devector.Proxy α) [Silent E] : Calm L
    (Devector.back3 E p10 p20 p30 q10 q20 q30 q40 n px : M (St α) Unit) := by
  unfold Devector.back3; calm

instance (p10 p20 : Ptr) (p30 q10 : Ptr) (q20 q30 q40 : Ptr) (px : Devector.Proxy α) [Silent E] : Calm L
    (Devector.back4 E p10 p20 p30 q10 q20 q30 q40 px : M (St α) Unit) := by
  unfold Devector.back4; calm

instance (p10 p20 : Ptr) (p30 q10 : Ptr) (q20 q30 q40 : Ptr) (px : Devector.Proxy α) [Silent E] : Calm L
    (Devector.back5 E p10 p20 p30 q10 q20 q30 q40 px : M (St α) Unit) := by
  unfold Devector.back5; calm

instance (p10 p20 : Ptr) (p30 q10 : Ptr) (q20 q30 q40 : Ptr) (px : Devector.Proxy α) [Silent E] : Calm L
    (Devector.back6 E p10 p20 p30 q10 q20 q30 q40 px : M (St α) Unit) := by
  unfold Devector.back6; calm

instance (p10 p20 : Ptr) (p30 q10 : Ptr) (q20 q30 q40 : Ptr) (px : Devector.Proxy α) [Silent E] : Calm L
    (Devector.back7 E p10 p20 p30 q10 q20 q30 q40 px : M (St α) Unit) := by
  unfold Devector.back7; calm

instance (p10 p20 : Ptr) (p30 q10 : Ptr) (q20 q30 q40 : Ptr) (n : Nat) (px : Devector.Proxy α) [Silent E] : Calm L
    (Devector.back8 E p10 p20 p30 q10 q20 q30 q40 n px : M (St α) Unit) := by
  unfold Devector.back8; calm

instance (p10 p20 : Ptr) (p30 q10 : Ptr) (q20 q30 q40 : Ptr) (n : Nat) (px : Devector.Proxy α) [Silent E] : Calm L
    (Devector.back9 E p10 p20 p30 q10 q20 q30 q40 n px : M (St α) Unit) := by
  unfold Devector.back9; calm

instance (p10 p20 : Ptr) (p30 q10 : Ptr) (q20 q30 q40 : Ptr) (n : Nat) (px : Devector.Proxy α) [Silent E] : Calm L
    (Devector.back10 E p10 p20 p30 q10 q20 q30 q40 n px : M (St α) Unit) := by
  unfold Devector.back10; calm

instance (p10 p20 : Ptr) (p30 q10 : Ptr) (q20 q30 q40 : Ptr) (px : Devector.Proxy α) [Silent E] : Calm L
    (Devector.back11 E p10 p20 p30 q10 q20 q30 q40 px : M (St α) Unit) := by
  unfold Devector.back11; calm

instance (p10 p20 : Ptr) (p30 q10 : Ptr) (q20 q30 q40 : Ptr) (n : Nat) (px : Devector.Proxy α) [Silent E] : Calm L
    (Devector.shiftBackMem E p10 p20 p30 q10 q20 q30 q40 n px : M (St α) Unit) := by
  unfold Devector.shiftBackMem; calm

instance (shift : Nat) (pos : Ptr) (n : Nat) (px : Devector.Proxy α) [Silent E] : Calm L (Devector.insertShiftBack E
    shift pos n px : Devector.DM α Ptr) := by
  unfold Devector.insertShiftBack; calm

instance (p10 p20 : Ptr) (p30 q10 : Ptr) (q20 q30 : Ptr) (n : Nat) (px : Devector.Proxy α) [Silent E] : Calm L
    (Devector.front1 E p10 p20 p30 q10 q20 q30 n px : M (St α) Unit) := by
  unfold Devector.front1; calm

instance (p10 p20 : Ptr) (p30 q10 : Ptr) (q20 q30 q40 : Ptr) (n : Nat) (px : Devector.Proxy α) [Silent E] : Calm L
    (Devector.front2 E p10 p20 p30 q10 q20 q30 q40 n px : M (St α) Unit) := by
  unfold Devector.front2; calm

instance (p10 p20 : Ptr) (p30 q10 : Ptr) (q20 q30 q40 : Ptr) (px : Devector.Proxy α) [Silent E] : Calm L
    (Devector.front4 E p10 p20 p30 q10 q20 q30 q40 px : M (St α) Unit) := by
  unfold Devector.front4; calm

instance (p10 p20 : Ptr) (p30 q10 : Ptr) (q20 q30 q40 : Ptr) (px : Devector.Proxy α) [Silent E] : Calm L
    (Devector.front6 E p10 p20 p30 q10 q20 q30 q40 px : M (St α) Unit) := by
  unfold Devector.front6; calm

instance (p10 p20 : Ptr) (p30 q10 : Ptr) (q20 q30 q40 : Ptr) (px : Devector.Proxy α) [Silent E] : Calm L
    (Devector.front7 E p10 p20 p30 q10 q20 q30 q40 px : M (St α) Unit) := by
  unfold Devector.front7; calm

instance (p10 p20 : Ptr) (p30 q10 : Ptr) (q20 q30 : Ptr) (q40 g : Ptr) (n : Nat) (px : Devector.Proxy α) [Silent E] :
    Calm L (Devector.front8 E p10 p20 p30 q10 q20 q30 q40 g n px : M (St α) Unit) := by
  unfold Devector.front8; calm

instance (p10 p20 : Ptr) (p30 q10 : Ptr) (q20 q30 q40 : Ptr) (n : Nat) (px : Devector.Proxy α) [Silent E] : Calm L
    (Devector.front10 E p10 p20 p30 q10 q20 q30 q40 n px : M (St α) Unit) := by
  unfold Devector.front10; calm

instance (p10 p20 : Ptr) (p30 q10 : Ptr) (q20 q30 q40 : Ptr) (px : Devector.Proxy α) [Silent E] : Calm L
    (Devector.front11 E p10 p20 p30 q10 q20 q30 q40 px : M (St α) Unit) := by
  unfold Devector.front11; calm

instance (p10 p20 : Ptr) (p30 q10 : Ptr) (q20 q30 q40 : Ptr) (n : Nat) (px : Devector.Proxy α) [Silent E] : Calm L
    (Devector.shiftFrontMem E p10 p20 p30 q10 q20 q30 q40 n px : M (St α) Unit) := by
  unfold Devector.shiftFrontMem; calm

instance (shift : Nat) (pos : Ptr) (n : Nat) (px : Devector.Proxy α) [Silent E] : Calm L (Devector.insertShiftFront E
    shift pos n px : Devector.DM α Ptr) := by
  unfold Devector.insertShiftFront; calm

instance (newCap off : Nat) (pos : Ptr) (n : Nat) (px : Devector.Proxy α) [Silent E] : Calm L (Devector.insertGrow E
    newCap off pos n px : Devector.DM α Ptr) := by
  unfold Devector.insertGrow; calm

instance (additional : Nat) (pos : Ptr) (n : Nat) (px : Devector.Proxy α) [Silent E] [Allows L .lengthError] : Calm L
    (Devector.insertGrowFront E additional pos n px : Devector.DM α Ptr) := by
  unfold Devector.insertGrowFront; calm

instance (additional : Nat) (pos : Ptr) (n : Nat) (px : Devector.Proxy α) [Silent E] [Allows L .lengthError] : Calm L
    (Devector.insertGrowBack E additional pos n px : Devector.DM α Ptr) := by
  unfold Devector.insertGrowBack; calm

instance (n : Nat) : Calm L (Devector.additionalFront n : Devector.DM α Nat) := by
  unfold Devector.additionalFront; calm

instance (n : Nat) : Calm L (Devector.additionalBack n : Devector.DM α Nat) := by unfold Devector.additionalBack; calm

instance (pos : Ptr) (n : Nat) (px : Devector.Proxy α) [Silent E] [Allows L .lengthError] : Calm L
    (Devector.insertMoreFront E pos n px : Devector.DM α Ptr) := by
  unfold Devector.insertMoreFront; calm

instance (pos : Ptr) (n : Nat) (px : Devector.Proxy α) [Silent E] [Allows L .lengthError] : Calm L
    (Devector.insertMoreBack E pos n px : Devector.DM α Ptr) := by
  unfold Devector.insertMoreBack; calm

instance (a : Arg α) [Silent E] [Allows L .lengthError] : Calm L (Devector.emplaceFrontAux E a : Devector.DM α Ptr)
    := by
  unfold Devector.emplaceFrontAux; calm

instance (a : Arg α) [Silent E] [Allows L .lengthError] : Calm L (Devector.emplaceBackAux E a : Devector.DM α Ptr) := by
  unfold Devector.emplaceBackAux; calm

instance (p10 p20 : Ptr) (q10 q20 : Ptr) (n : Nat) (px : Devector.Proxy α) [Silent E] : Calm L (Devector.intoFront1 E
    p10 p20 q10 q20 n px : M (St α) Unit) := by
  unfold Devector.intoFront1; calm

instance (p10 p20 : Ptr) (q10 q20 q30 : Ptr) (px : Devector.Proxy α) [Silent E] : Calm L (Devector.intoFront2 E p10
    p20 q10 q20 q30 px : M (St α) Unit) := by
  unfold Devector.intoFront2; calm

instance (p20 p30 : Ptr) (q20 q30 q40 : Ptr) (n : Nat) (px : Devector.Proxy α) [Silent E] : Calm L
    (Devector.intoBack1 E p20 p30 q20 q30 q40 n px : M (St α) Unit) := by
  unfold Devector.intoBack1; calm

instance (p20 p30 : Ptr) (q20 q30 q40 : Ptr) (distToEnd : Nat) (px : Devector.Proxy α) [Silent E] : Calm L
    (Devector.intoBack2 E p20 p30 q20 q30 q40 distToEnd px : M (St α) Unit) := by
  unfold Devector.intoBack2; calm

instance (pos : Ptr) (n : Nat) (px : Devector.Proxy α) [Silent E] [Allows L .lengthError] : Calm L
    (Devector.insertAux E pos n px : Devector.DM α Ptr) := by
  unfold Devector.insertAux; calm

instance (pos : Ptr) (a : Arg α) [Silent E] [Allows L .lengthError] : Calm L (Devector.emplace E pos a : Devector.DM
    α Ptr) := by
  unfold Devector.emplace; calm

instance (a : Arg α) [Silent E] [Allows L .lengthError] : Calm L (Devector.emplaceFront E a : Devector.DM α Unit) := by
  unfold Devector.emplaceFront; calm

instance (a : Arg α) [Silent E] [Allows L .lengthError] : Calm L (Devector.emplaceBack E a : Devector.DM α Unit) := by
  unfold Devector.emplaceBack; calm

instance (pos : Ptr) (n : Nat) (a : Arg α) [Silent E] [Allows L .lengthError] : Calm L (Devector.insertFillN E pos n
    a : Devector.DM α Ptr) := by
  unfold Devector.insertFillN; calm

instance (pos : Ptr) (as : List (Arg α)) [Silent E] [Allows L .lengthError] : Calm L (Devector.insertRange E pos as :
    Devector.DM α Ptr) := by
  unfold Devector.insertRange; calm

instance (pos : Ptr) (x4 : List (Arg α)) [Silent E] [Allows L .lengthError] : Calm L (Devector.insertEach E pos x4 :
    Devector.DM α Unit) := by
   induction x4 generalizing pos with
   | nil => unfold Devector.insertEach; calm
   | cons a as ih => unfold Devector.insertEach; have := ih; calm

instance (pos : Ptr) (as : List (Arg α)) [Silent E] [Allows L .lengthError] : Calm L (Devector.insertInput E pos as :
    Devector.DM α Ptr) := by
  unfold Devector.insertInput; calm

instance (first last : Ptr) [Silent E] : Calm L (Devector.uninitDefault E first last : M (St α) Unit) := by
  unfold Devector.uninitDefault; calm

instance (n : Nat) (a : Arg α) [Silent E] [Allows L .lengthError] : Calm L (Devector.resizeWith E n a : Devector.DM α
    Unit) := by
  unfold Devector.resizeWith; calm

instance (n : Nat) (a : Arg α) [Silent E] [Allows L .lengthError] : Calm L (Devector.resizeFrontWith E n a :
    Devector.DM α Unit) := by
  unfold Devector.resizeFrontWith; calm

instance (n : Nat) (a : Arg α) [Silent E] [Allows L .lengthError] : Calm L (Devector.resizeBackWith E n a :
    Devector.DM α Unit) := by
  unfold Devector.resizeBackWith; calm

instance (as : List (Arg α)) [Silent E] [Allows L .lengthError] : Calm L (Devector.initWith E as : Devector.DM α
    Unit) := by
  unfold Devector.initWith; calm

instance (x3 : List (Arg α)) [Silent E] [Allows L .lengthError] : Calm L (Devector.emplaceBackAll E x3 : Devector.DM
    α Unit) := by
   induction x3 with
   | nil => unfold Devector.emplaceBackAll; calm
   | cons a as ih => unfold Devector.emplaceBackAll; have := ih; calm

instance : Calm L (Devector.destroy : Devector.DM α Unit) := by unfold Devector.destroy; calm

instance (as : List (Arg α)) [Silent E] [Allows L .lengthError] : Calm L (Devector.initInput E as : Devector.DM α
    Unit) := by
  unfold Devector.initInput; calm

instance (x3 : Sq.Init α) [Silent E] [Allows L .lengthError] : Calm L (Devector.construct' E x3 : Devector.DM α Unit)
    := by
  unfold Devector.construct'; calm

instance (other : DVec) [Silent E] [Allows L .lengthError] : Calm L (Devector.initCopy E other : Devector.DM α Unit)
    := by
  unfold Devector.initCopy; calm

instance [Silent E] [Allows L .lengthError] : Calm L (Devector.initMove E : M (Obj (DVec × DVec) α) Unit) := by
  unfold Devector.initMove; calm

instance : Calm L (Devector.reset : Devector.DM α Unit) := by unfold Devector.reset; calm

instance (n : Nat) (a : Arg α) [Silent E] [Allows L .lengthError] : Calm L (Devector.assignFillN E n a : Devector.DM
    α Unit) := by
  unfold Devector.assignFillN; calm

instance (as : List (Arg α)) [Silent E] [Allows L .lengthError] : Calm L (Devector.assignRange E as : Devector.DM α
    Unit) := by
  unfold Devector.assignRange; calm

instance (as : List (Arg α)) [Silent E] [Allows L .lengthError] : Calm L (Devector.assignInput E as : Devector.DM α
    Unit) := by
  unfold Devector.assignInput; calm

instance (T : Traits) (other : DVec) [Silent E] [Allows L .lengthError] : Calm L (Devector.assignCopy E T other :
    Devector.DM α Unit) := by
  unfold Devector.assignCopy; calm

instance (T : Traits) [Silent E] [Allows L .lengthError] : Calm L (Devector.assignMove E T : M (Obj (DVec × DVec) α)
    Unit) := by
  unfold Devector.assignMove; calm

instance (T : Traits) : Calm L (Devector.swap T : M (Obj (DVec × DVec) α) Unit) := by unfold Devector.swap; calm

instance (f : α → Bool) [Silent E] : Calm L (Devector.eraseIf E f : Devector.DM α Nat) := by
  unfold Devector.eraseIf; calm

/-! ### Seg.lean -/

instance {σ : Type} (t : Table) (p : Ptr) : Calm L (Seg.deref t p : M σ Ptr) :=
  ⟨fun s e s' he => by
      unfold Seg.deref at he
      try simp only [Silent.out, Bool.false_and, Bool.false_eq_true, if_false] at he
      repeat' split at he
      all_goals cases he⟩

instance {σ : Type} (p : Ptr) (k : Int) : Calm L (Seg.shift p k : M σ Ptr) :=
  ⟨fun s e s' he => by
      unfold Seg.shift at he
      try simp only [Silent.out, Bool.false_and, Bool.false_eq_true, if_false] at he
      repeat' split at he
      all_goals cases he⟩

instance {σ : Type} (p q : Ptr) : Calm L (Seg.ptrDiff p q : M σ Int) :=
  ⟨fun s e s' he => by
      unfold Seg.ptrDiff at he
      try simp only [Silent.out, Bool.false_and, Bool.false_eq_true, if_false] at he
      repeat' split at he
      all_goals cases he⟩

instance {σ : Type} (N : Nat) (t : Table) (it : SIt) : Calm L (Seg.inc N t it : M σ SIt) := by unfold Seg.inc; calm

instance {σ : Type} (N : Nat) (t : Table) (it : SIt) : Calm L (Seg.dec N t it : M σ SIt) := by unfold Seg.dec; calm

instance {σ : Type} (N : Nat) (t : Table) (it : SIt) (n : Int) : Calm L (Seg.advance N t it n : M σ SIt) := by
  unfold Seg.advance; calm

instance {σ : Type} (N : Nat) (t : Table) (x y : SIt) : Calm L (Seg.diff N t x y : M σ Int) := by
  unfold Seg.diff; calm

instance {σ : Type} (N : Nat) (t : Table) (x y : SIt) : Calm L (Seg.dist N t x y : M σ Nat) := by
  unfold Seg.dist; calm

instance {σ : Type} (N : Nat) (t : Table) (sg loc : Ptr) : Calm L (Seg.compose N t sg loc : M σ SIt) := by
  unfold Seg.compose; calm

instance {σ δ : Type} (N : Nat) (t : Table) (body : Ptr → Ptr → Ptr → δ → M σ δ) (last : Ptr) (x7 : Nat) (x8 : Ptr)
    (x9 : δ) [∀ y0 y1 y2 y3, Calm L (body y0 y1 y2 y3)] : Calm L (Seg.chunkLoop N t body last x7 x8 x9 : M σ δ) := by
   induction x7 generalizing x8 x9 with
   | zero => unfold Seg.chunkLoop; calm
   | succ n ih => unfold Seg.chunkLoop; have := ih; calm

instance {σ δ : Type} (N : Nat) (t : Table) (body1 : Ptr → Ptr → Ptr → δ → M σ δ) (body2 : Ptr → Ptr → Ptr → δ → M σ
    δ) (first last : SIt) (d : δ) [∀ y0 y1 y2 y3, Calm L (body1 y0 y1 y2 y3)] [∀ y0 y1 y2 y3, Calm L (body2 y0 y1 y2
    y3)] : Calm L (Seg.forChunks N t body1 body2 first last d : M σ δ) := by
  unfold Seg.forChunks; calm

theorem calm_forChunks {σ δ : Type} {N : Nat} {t : Table} {b1 b2 : Ptr → Ptr → Ptr → δ → M σ δ} {first last : SIt} {d : δ}
    (h1 : ∀ a b c d, Calm L (b1 a b c d)) (h2 : ∀ a b c d, Calm L (b2 a b c d)) :
    Calm L (Seg.forChunks N t b1 b2 first last d) :=
  inferInstance

instance {σ δ : Type} (N : Nat) (t : Table) (body : Ptr → Ptr → δ → M σ δ) (first : Ptr) (x7 : Nat) (x8 : Ptr) (x9 :
    δ) [∀ y0 y1 y2, Calm L (body y0 y1 y2)] : Calm L (Seg.chunkLoopBack N t body first x7 x8 x9 : M σ (Ptr × δ)) := by
   induction x7 generalizing x8 x9 with
   | zero => unfold Seg.chunkLoopBack; calm
   | succ n ih => unfold Seg.chunkLoopBack; have := ih; calm

instance {σ δ : Type} (N : Nat) (t : Table) (body : Ptr → Ptr → δ → M σ δ) (first last : SIt) (d : δ) [∀ y0 y1 y2,
    Calm L (body y0 y1 y2)] : Calm L (Seg.forChunksBack N t body first last d : M σ δ) := by
  unfold Seg.forChunksBack; calm

instance (N : Nat) (t : Table) (first last : SIt) : Calm L (Seg.destroy N t first last : M (St α) Unit) := by
  unfold Seg.destroy; calm

instance (N : Nat) (t : Table) (x4 x5 : Nat) (x6 x7 : Ptr) : Calm L (Seg.destroyNLoop N t x4 x5 x6 x7 : M (St α) SIt)
    := by
   induction x4 generalizing x5 x6 x7 with
   | zero => unfold Seg.destroyNLoop; calm
   | succ n ih => unfold Seg.destroyNLoop; have := ih; calm

instance (N : Nat) (t : Table) (first : SIt) (n : Nat) : Calm L (Seg.destroyN N t first n : M (St α) SIt) := by
  unfold Seg.destroyN; calm

instance (N : Nat) (t : Table) (first last : SIt) (a : Arg α) [Silent E] : Calm L (Seg.fill E N t first last a : M
    (St α) Unit) := by
  unfold Seg.fill; calm

instance (N : Nat) (t : Table) (first last : SIt) (a : Arg α) [Silent E] : Calm L (Seg.uninitFill E N t first last a
    : M (St α) Unit) := by
  unfold Seg.uninitFill; refine calm_forChunks (fun _ _ _ _ => ?_) (fun _ _ _ _ => ?_) <;> calm

instance (N : Nat) (t : Table) (first : SIt) (total : Nat) (a : Arg α) (x8 x9 : Nat) (x10 x11 : Ptr) [Silent E] :
    Calm L (Seg.uninitFillNLoop E N t first total a x8 x9 x10 x11 : M (St α) SIt) := by
   induction x8 generalizing x9 x10 x11 with
   | zero => unfold Seg.uninitFillNLoop; calm
   | succ n ih => unfold Seg.uninitFillNLoop; have := ih; calm

instance (N : Nat) (t : Table) (first : SIt) (n : Nat) (a : Arg α) [Silent E] : Calm L (Seg.uninitFillN E N t first n
    a : M (St α) SIt) := by
  unfold Seg.uninitFillN; calm

instance (N : Nat) (t : Table) (x5 : Nat) (x6 : List (Arg α)) (x7 x8 : Ptr) [Silent E] : Calm L (Seg.assignLoop E N t
    x5 x6 x7 x8 : M (St α) SIt) := by
   induction x5 generalizing x6 x7 x8 with
   | zero => unfold Seg.assignLoop; calm
   | succ n ih => unfold Seg.assignLoop; have := ih; calm

instance (N : Nat) (t : Table) (as : List (Arg α)) (d : SIt) [Silent E] : Calm L (Seg.assignTo E N t as d : M (St α)
    SIt) := by
  unfold Seg.assignTo; calm

instance (N : Nat) (t : Table) (x5 : List (Arg α)) (x6 : SIt) [Silent E] : Calm L (Seg.assignEach E N t x5 x6 : M (St
    α) SIt) := by
   induction x5 generalizing x6 with
   | nil => unfold Seg.assignEach; calm
   | cons a as ih => unfold Seg.assignEach; have := ih; calm

instance (N : Nat) (t : Table) (first : SIt) (x6 : Nat) (x7 : List (Arg α)) (x8 x9 : Ptr) [Silent E] : Calm L
    (Seg.uninitLoop E N t first x6 x7 x8 x9 : M (St α) SIt) := by
   induction x6 generalizing x7 x8 x9 with
   | zero => unfold Seg.uninitLoop; calm
   | succ n ih => unfold Seg.uninitLoop; have := ih; calm

instance (N : Nat) (t : Table) (as : List (Arg α)) (d : SIt) [Silent E] : Calm L (Seg.uninitTo E N t as d : M (St α)
    SIt) := by
  unfold Seg.uninitTo; calm

instance (N : Nat) (t : Table) (first : SIt) (x6 : List (Arg α)) (x7 : SIt) [Silent E] : Calm L (Seg.uninitEachGo E N
    t first x6 x7 : M (St α) SIt) := by
   induction x6 generalizing x7 with
   | nil => unfold Seg.uninitEachGo; calm
   | cons a as ih => unfold Seg.uninitEachGo; have := ih; calm

instance (N : Nat) (t : Table) (as : List (Arg α)) (d : SIt) [Silent E] : Calm L (Seg.uninitEach E N t as d : M (St
    α) SIt) := by
  unfold Seg.uninitEach; calm

instance (N : Nat) (t t' : Table) (mk : Ptr → Arg α) (first last d : SIt) [Silent E] : Calm L (Seg.assignSeg E N t t'
    mk first last d : M (St α) SIt) := by
  unfold Seg.assignSeg; refine calm_forChunks (fun _ _ _ _ => ?_) (fun _ _ _ _ => ?_) <;> calm

instance (N : Nat) (t t' : Table) (mk : Ptr → Arg α) (first last d : SIt) [Silent E] : Calm L (Seg.uninitSeg E N t t'
    mk first last d : M (St α) SIt) := by
  unfold Seg.uninitSeg; refine calm_forChunks (fun _ _ _ _ => ?_) (fun _ _ _ _ => ?_) <;> calm

instance (mk : Ptr → Arg α) (first : Ptr) (x5 : Nat) (x6 : Ptr) [Silent E] : Calm L (Seg.backGo E mk first x5 x6 : M
    (St α) Ptr) := by
   induction x5 generalizing x6 with
   | zero => unfold Seg.backGo; calm
   | succ n ih => unfold Seg.backGo; have := ih; calm

instance (N : Nat) (t : Table) (mk : Ptr → Arg α) (first : Ptr) (x7 : Nat) (x8 x9 x10 : Ptr) [Silent E] : Calm L
    (Seg.backLoop E N t mk first x7 x8 x9 x10 : M (St α) SIt) := by
   induction x7 generalizing x8 x9 x10 with
   | zero => unfold Seg.backLoop; calm
   | succ n ih => unfold Seg.backLoop; have := ih; calm

instance (N : Nat) (t : Table) (mk : Ptr → Arg α) (first last : Ptr) (d : SIt) [Silent E] : Calm L (Seg.backTo E N t
    mk first last d : M (St α) SIt) := by
  unfold Seg.backTo; calm

instance (N : Nat) (t t' : Table) (mk : Ptr → Arg α) (first last d : SIt) [Silent E] : Calm L (Seg.backSeg E N t t'
    mk first last d : M (St α) SIt) := by
  unfold Seg.backSeg; calm

/-! ### SegVec.lean -/

instance {σ : Type} (t : Table) (p q : Ptr) : Calm L (Seg.put t p q : M σ Table) :=
  ⟨fun s e s' he => by
      unfold Seg.put at he
      try simp only [Silent.out, Bool.false_and, Bool.false_eq_true, if_false] at he
      repeat' split at he
      all_goals cases he⟩

instance (N al x4 : Nat) (x5 : Ptr) : Calm L (Seg.deallocSegsN N al x4 x5 : Seg.TM α Unit) := by
   induction x4 generalizing x5 with
   | zero => unfold Seg.deallocSegsN; calm
   | succ n ih => unfold Seg.deallocSegsN; have := ih; calm

instance (N al : Nat) (first last : Ptr) : Calm L (Seg.deallocSegs N al first last : Seg.TM α Unit) := by
  unfold Seg.deallocSegs; calm

instance (N al : Nat) (first : Ptr) (x6 : Nat) (x7 : Ptr) [Silent E] : Calm L (Seg.allocSegs E N al first x6 x7 :
    Seg.TM α Unit) := by
   induction x6 generalizing x7 with
   | zero => unfold Seg.allocSegs; calm
   | succ n ih => unfold Seg.allocSegs; have := ih; calm

instance (al : Nat) (p : Ptr) (n : Nat) : Calm L (Seg.deallocTable al p n : Seg.TM α Unit) := by
  unfold Seg.deallocTable; calm

instance {σ : Type} (t : Table) (x3 : Nat) (x4 : Ptr) (x5 : Table) (x6 : Ptr) : Calm L (Seg.copyTable t x3 x4 x5 x6 :
    M σ Table) := by
   induction x3 generalizing x4 x5 x6 with
   | zero => unfold Seg.copyTable; calm
   | succ n ih => unfold Seg.copyTable; have := ih; calm

instance {σ : Type} (N : Nat) (t : Table) (x4 : Nat) (x5 : SIt) : Calm L (Seg.gather N t x4 x5 : M σ (List Ptr)) := by
   induction x4 generalizing x5 with
   | zero => unfold Seg.gather; calm
   | succ n ih => unfold Seg.gather; have := ih; calm

instance (N : Nat) (t : Table) (f : α → Bool) (x5 : Nat) (x6 : SIt) : Calm L (Seg.findIf N t f x5 x6 : M (St α) SIt)
    := by
   induction x5 generalizing x6 with
   | zero => unfold Seg.findIf; calm
   | succ n ih => unfold Seg.findIf; have := ih; calm

instance (N : Nat) (t : Table) (f : α → Bool) (x6 : Nat) (x7 x8 : SIt) [Silent E] : Calm L (Seg.removeGo E N t f x6
    x7 x8 : M (St α) SIt) := by
   induction x6 generalizing x7 x8 with
   | zero => unfold Seg.removeGo; calm
   | succ n ih => unfold Seg.removeGo; have := ih; calm

instance (N : Nat) (t : Table) (f : α → Bool) (first last : SIt) [Silent E] : Calm L (Seg.removeIf E N t f first last
    : M (St α) SIt) := by
  unfold Seg.removeIf; calm

instance {σ : Type} (N : Nat) (x4 : Seg.From α) : Calm L (Seg.From.dist N x4 : M σ Nat) := by
  unfold Seg.From.dist; calm

instance {σ : Type} (N n : Nat) (x5 : Seg.From α) : Calm L (Seg.From.split N n x5 : M σ (Seg.From α × Seg.From α)) := by
  unfold Seg.From.split; calm

instance (N : Nat) (t' : Table) (x5 : Seg.From α) (x6 : SIt) [Silent E] : Calm L (Seg.From.assign E N t' x5 x6 : M
    (St α) SIt) := by
  unfold Seg.From.assign; calm

instance (N : Nat) (t' : Table) (x5 : Seg.From α) (x6 : SIt) [Silent E] : Calm L (Seg.From.uninit E N t' x5 x6 : M
    (St α) SIt) := by
  unfold Seg.From.uninit; calm

instance {V W β : Type} (w : W) (p : M (Obj W α) β) [Calm L p] : Calm L (onLocal w p : M (Obj V α) (β × W)) :=
  ⟨fun s e s' he => by
      unfold onLocal at he
      split at he
      · cases he
      · rename_i hm; cases he; exact Calm.out _ _ _ hm
      · cases he⟩

instance {β : Type} (p : Seg.TM α β) [Calm L p] : Calm L (SegVec.onTab p : SegVec.SM α β) :=
  ⟨fun s e s' he => by
      unfold SegVec.onTab at he
      split at he
      · cases he
      · rename_i hm; cases he; exact Calm.out _ _ _ hm
      · cases he⟩

instance (N : Nat) : Calm L (SegVec.size N : SegVec.SM α Nat) := by unfold SegVec.size; calm

instance (N : Nat) : Calm L (SegVec.capacity N : SegVec.SM α Nat) := by unfold SegVec.capacity; calm

instance (N : Nat) : Calm L (SegVec.available N : SegVec.SM α Nat) := by unfold SegVec.available; calm

instance (N pos : Nat) : Calm L (SegVec.nth N pos : SegVec.SM α SIt) := by unfold SegVec.nth; calm

instance (N : Nat) (pos : SIt) : Calm L (SegVec.indexOf N pos : SegVec.SM α (Option Nat)) := by
  unfold SegVec.indexOf; calm

instance (N pos : Nat) : Calm L (SegVec.addressOf N pos : SegVec.SM α Ptr) := by unfold SegVec.addressOf; calm

instance (N pos : Nat) : Calm L (SegVec.index N pos : SegVec.SM α α) := by unfold SegVec.index; calm

instance (N pos : Nat) [Allows L .outOfRange] : Calm L (SegVec.at' N pos : SegVec.SM α α) := by
  unfold SegVec.at'; calm

instance : Calm L (SegVec.front : SegVec.SM α α) := by unfold SegVec.front; calm

instance (N : Nat) : Calm L (SegVec.back N : SegVec.SM α α) := by unfold SegVec.back; calm

instance (N n : Nat) [Silent E] [Allows L .lengthError] : Calm L (SegVec.allocateStorage E N n : SegVec.SM α Unit) := by
  unfold SegVec.allocateStorage; calm

instance (N : Nat) : Calm L (SegVec.deallocateStorage N : SegVec.SM α Unit) := by
  unfold SegVec.deallocateStorage; calm

instance (newCap : Nat) [Silent E] : Calm L (SegVec.replaceTable E newCap : SegVec.SM α Unit) := by
  unfold SegVec.replaceTable; calm

instance (required : Nat) [Silent E] : Calm L (SegVec.growTable E required : SegVec.SM α Unit) := by
  unfold SegVec.growTable; calm

instance (N n : Nat) [Silent E] [Allows L .lengthError] : Calm L (SegVec.growStorage E N n : SegVec.SM α Unit) := by
  unfold SegVec.growStorage; calm

instance (N : Nat) [Silent E] : Calm L (SegVec.shrinkStorage E N : SegVec.SM α Unit) := by
  unfold SegVec.shrinkStorage; calm

instance (N n : Nat) [Silent E] [Allows L .lengthError] : Calm L (SegVec.reserve E N n : SegVec.SM α Unit) := by
  unfold SegVec.reserve; calm

instance (N : Nat) : Calm L (SegVec.clear N : SegVec.SM α Unit) := by unfold SegVec.clear; calm

instance (N : Nat) : Calm L (SegVec.destructor N : SegVec.SM α Unit) := by unfold SegVec.destructor; calm

instance (N : Nat) (p1 : SIt) (a : Arg α) [Silent E] : Calm L (SegVec.emplaceTail E N p1 a : SegVec.SM α SIt) := by
  unfold SegVec.emplaceTail; calm

instance (N : Nat) (pos : SIt) (a : Arg α) [Silent E] [Allows L .lengthError] : Calm L (SegVec.emplace E N pos a :
    SegVec.SM α SIt) := by
  unfold SegVec.emplace; calm

instance (N : Nat) (a : Arg α) [Silent E] : Calm L (SegVec.emplaceBackTail E N a : SegVec.SM α SIt) := by
  unfold SegVec.emplaceBackTail; calm

instance (N : Nat) (a : Arg α) [Silent E] [Allows L .lengthError] : Calm L (SegVec.emplaceBack E N a : SegVec.SM α
    SIt) := by
  unfold SegVec.emplaceBack; calm

instance (N : Nat) (x4 : List (Arg α)) [Silent E] [Allows L .lengthError] : Calm L (SegVec.emplaceBackAll E N x4 :
    SegVec.SM α Unit) := by
   induction x4 with
   | nil => unfold SegVec.emplaceBackAll; calm
   | cons a as ih => unfold SegVec.emplaceBackAll; have := ih; calm

instance (N : Nat) : Calm L (SegVec.popBack N : SegVec.SM α Unit) := by unfold SegVec.popBack; calm

instance (N : Nat) (pos : SIt) [Silent E] : Calm L (SegVec.eraseAt E N pos : SegVec.SM α SIt) := by
  unfold SegVec.eraseAt; calm

instance (N : Nat) (first last : SIt) [Silent E] : Calm L (SegVec.eraseRange E N first last : SegVec.SM α SIt) := by
  unfold SegVec.eraseRange; calm

instance (N n sz : Nat) (a : Arg α) [Silent E] : Calm L (SegVec.resizeTail E N n sz a : SegVec.SM α Unit) := by
  unfold SegVec.resizeTail; calm

instance (N n : Nat) (a : Arg α) [Silent E] [Allows L .lengthError] : Calm L (SegVec.resizeWith E N n a : SegVec.SM α
    Unit) := by
  unfold SegVec.resizeWith; calm

instance (N n sz : Nat) (a : Arg α) [Silent E] : Calm L (SegVec.assignFillTail E N n sz a : SegVec.SM α Unit) := by
  unfold SegVec.assignFillTail; calm

instance (N n : Nat) (a : Arg α) [Silent E] [Allows L .lengthError] : Calm L (SegVec.assignFillN E N n a : SegVec.SM
    α Unit) := by
  unfold SegVec.assignFillN; calm

instance (N : Nat) (t : Table) (last : SIt) (x6 : List (Arg α)) (x7 : SIt) [Silent E] : Calm L
    (SegVec.assignRangeLoop E N t last x6 x7 : M (St α) (List (Arg α) × SIt)) := by
   induction x6 generalizing x7 with
   | nil => unfold SegVec.assignRangeLoop; calm
   | cons a as ih => unfold SegVec.assignRangeLoop; have := ih; calm

instance (N : Nat) (as : List (Arg α)) [Silent E] [Allows L .lengthError] : Calm L (SegVec.assignRangeInput E N as :
    SegVec.SM α Unit) := by
  unfold SegVec.assignRangeInput; calm

instance (N : Nat) (src : Seg.From α) (sz : Nat) [Silent E] : Calm L (SegVec.assignRangeTail E N src sz : SegVec.SM α
    Unit) := by
  unfold SegVec.assignRangeTail; calm

instance (N : Nat) (src : Seg.From α) [Silent E] [Allows L .lengthError] : Calm L (SegVec.assignRange E N src :
    SegVec.SM α Unit) := by
  unfold SegVec.assignRange; calm

instance (N offset n : Nat) (tmp : α) [Silent E] : Calm L (SegVec.insertFillTail E N offset n tmp : SegVec.SM α SIt)
    := by
  unfold SegVec.insertFillTail; calm

instance (N : Nat) (pos : SIt) (n : Nat) (a : Arg α) [Silent E] [Allows L .lengthError] : Calm L (SegVec.insertFillN
    E N pos n a : SegVec.SM α SIt) := by
  unfold SegVec.insertFillN; calm

instance (N : Nat) (x4 : List (Arg α)) (x5 : SIt) [Silent E] [Allows L .lengthError] : Calm L (SegVec.insertRangeLoop
    E N x4 x5 : SegVec.SM α SIt) := by
   induction x4 generalizing x5 with
   | nil => unfold SegVec.insertRangeLoop; calm
   | cons a as ih => unfold SegVec.insertRangeLoop; have := ih; calm

instance (N : Nat) (pos : SIt) (ys : List α) [Silent E] [Allows L .lengthError] : Calm L (SegVec.insertRangeInput E N
    pos ys : SegVec.SM α SIt) := by
  unfold SegVec.insertRangeInput; calm

instance (N : Nat) (ra : Bool) (offset distToEnd : Nat) (ys : List α) [Silent E] : Calm L (SegVec.insertRangeTail E N
    ra offset distToEnd ys : SegVec.SM α SIt) := by
  unfold SegVec.insertRangeTail; calm

instance (N : Nat) (ra : Bool) (pos : SIt) (ys : List α) [Silent E] [Allows L .lengthError] : Calm L
    (SegVec.insertRange E N ra pos ys : SegVec.SM α SIt) := by
  unfold SegVec.insertRange; calm

instance (N : Nat) (f : α → Bool) [Silent E] : Calm L (SegVec.eraseIf E N f : SegVec.SM α Nat) := by
  unfold SegVec.eraseIf; calm

instance (N n : Nat) (alg : Table → SIt → M (St α) SIt) [Silent E] [∀ y0 y1, Calm L (alg y0 y1)] [Allows L
    .lengthError] : Calm L (SegVec.initUsing E N n alg : SegVec.SM α Unit) := by
  unfold SegVec.initUsing; calm

instance (N : Nat) (ys : List α) [Silent E] [Allows L .lengthError] : Calm L (SegVec.initRangeInput E N ys :
    SegVec.SM α Unit) := by
  unfold SegVec.initRangeInput; calm

instance (N : Nat) (other : SVec) [Silent E] [Allows L .lengthError] : Calm L (SegVec.initCopy E N other : SegVec.SM
    α Unit) := by
  unfold SegVec.initCopy; calm

instance (N : Nat) [Silent E] [Allows L .lengthError] : Calm L (SegVec.initMove E N : M (Obj (SVec × SVec) α) Unit)
    := by
  unfold SegVec.initMove; calm

instance (N : Nat) (ra : Bool) (x5 : Sq.Init α) [Silent E] [Allows L .lengthError] : Calm L (SegVec.construct' E N ra
    x5 : SegVec.SM α Unit) := by
  unfold SegVec.construct'; calm

instance (N : Nat) : Calm L (SegVec.giveUp N : SegVec.SM α Unit) := by unfold SegVec.giveUp; calm

instance (N : Nat) (T : Traits) (other : SVec) [Silent E] [Allows L .lengthError] : Calm L (SegVec.assignCopy E N T
    other : SegVec.SM α Unit) := by
  unfold SegVec.assignCopy; calm

instance (N : Nat) (other : SVec) [Silent E] [Allows L .lengthError] : Calm L (SegVec.assignMoved E N other :
    SegVec.SM α Unit) := by
  unfold SegVec.assignMoved; calm

instance (N : Nat) (T : Traits) [Silent E] [Allows L .lengthError] : Calm L (SegVec.assignMove E N T : M (Obj (SVec ×
    SVec) α) Unit) := by
  unfold SegVec.assignMove; calm

instance (T : Traits) : Calm L (SegVec.swap T : M (Obj (SVec × SVec) α) Unit) := by unfold SegVec.swap; calm

instance (N : Nat) (x3 : Sq.Src α) : Calm L (SegVec.argOf N x3 : SegVec.SM α (Arg α)) := by unfold SegVec.argOf; calm

instance (N : Nat) (ra : Sq.Op α → Bool) (op : Sq.Op α) [Silent E] [Allows L .lengthError] : Calm L (SegVec.exec E N
    ra op : SegVec.SM α (Option Nat)) := by
  unfold SegVec.exec; calm

/-! ### SegDev.lean -/

instance {σ : Type} (t : Table) (x3 : Nat) (x4 : Ptr) (x5 : Table) (x6 : Ptr) : Calm L (Seg.copyTableBack t x3 x4 x5
    x6 : M σ (Table × Ptr)) := by
   induction x3 generalizing x4 x5 x6 with
   | zero => unfold Seg.copyTableBack; calm
   | succ n ih => unfold Seg.copyTableBack; have := ih; calm

instance {β : Type} (p : Seg.TM α β) [Calm L p] : Calm L (SegDev.onTab p : SegDev.DM α β) :=
  ⟨fun s e s' he => by
      unfold SegDev.onTab at he
      split at he
      · cases he
      · rename_i hm; cases he; exact Calm.out _ _ _ hm
      · cases he⟩

instance (N : Nat) : Calm L (SegDev.size N : SegDev.DM α Nat) := by unfold SegDev.size; calm

instance (N : Nat) : Calm L (SegDev.capacity N : SegDev.DM α Nat) := by unfold SegDev.capacity; calm

instance (N : Nat) : Calm L (SegDev.availableFront N : SegDev.DM α Nat) := by unfold SegDev.availableFront; calm

instance (N : Nat) : Calm L (SegDev.availableBack N : SegDev.DM α Nat) := by unfold SegDev.availableBack; calm

instance (N pos : Nat) : Calm L (SegDev.nth N pos : SegDev.DM α SIt) := by unfold SegDev.nth; calm

instance (N : Nat) (pos : SIt) : Calm L (SegDev.indexOf N pos : SegDev.DM α (Option Nat)) := by
  unfold SegDev.indexOf; calm

instance (N pos : Nat) : Calm L (SegDev.index N pos : SegDev.DM α α) := by unfold SegDev.index; calm

instance (N pos : Nat) [Allows L .outOfRange] : Calm L (SegDev.at' N pos : SegDev.DM α α) := by
  unfold SegDev.at'; calm

instance : Calm L (SegDev.front : SegDev.DM α α) := by unfold SegDev.front; calm

instance (N : Nat) : Calm L (SegDev.back N : SegDev.DM α α) := by unfold SegDev.back; calm

instance (N n : Nat) [Silent E] [Allows L .lengthError] : Calm L (SegDev.allocateStorage E N n : SegDev.DM α Unit) := by
  unfold SegDev.allocateStorage; calm

instance (N : Nat) : Calm L (SegDev.deallocateStorage N : SegDev.DM α Unit) := by
  unfold SegDev.deallocateStorage; calm

instance (newCap : Nat) (copy : SDVec → Ptr → SegDev.DM α (Table × Ptr × Ptr)) [Silent E] [∀ y0 y1, Calm L (copy y0
    y1)] : Calm L (SegDev.replaceTable E newCap copy : SegDev.DM α Unit) := by
  unfold SegDev.replaceTable; calm

instance (newCap : Nat) (v : SDVec) (p : Ptr) : Calm L (SegDev.copyFront newCap v p : SegDev.DM α (Table × Ptr ×
    Ptr)) := by
  unfold SegDev.copyFront; calm

instance (newCap : Nat) (v : SDVec) (p : Ptr) : Calm L (SegDev.copyBack newCap v p : SegDev.DM α (Table × Ptr × Ptr))
    := by
  unfold SegDev.copyBack; calm

instance (newCap : Nat) (v : SDVec) (p : Ptr) : Calm L (SegDev.copyShrink newCap v p : SegDev.DM α (Table × Ptr ×
    Ptr)) := by
  unfold SegDev.copyShrink; calm

instance (required : Nat) [Silent E] : Calm L (SegDev.growTableFront E required : SegDev.DM α Unit) := by
  unfold SegDev.growTableFront; calm

instance (required : Nat) [Silent E] : Calm L (SegDev.growTableBack E required : SegDev.DM α Unit) := by
  unfold SegDev.growTableBack; calm

instance (N n : Nat) [Silent E] [Allows L .lengthError] : Calm L (SegDev.growStorageFront E N n : SegDev.DM α Unit)
    := by
  unfold SegDev.growStorageFront; calm

instance (N n : Nat) [Silent E] [Allows L .lengthError] : Calm L (SegDev.growStorageBack E N n : SegDev.DM α Unit) := by
  unfold SegDev.growStorageBack; calm

instance (N : Nat) : Calm L (SegDev.shrinkFront N : SegDev.DM α Unit) := by unfold SegDev.shrinkFront; calm

instance (N : Nat) : Calm L (SegDev.shrinkBack N : SegDev.DM α Unit) := by unfold SegDev.shrinkBack; calm

instance (N : Nat) [Silent E] : Calm L (SegDev.shrinkStorage E N : SegDev.DM α Unit) := by
  unfold SegDev.shrinkStorage; calm

instance (N n : Nat) [Silent E] [Allows L .lengthError] : Calm L (SegDev.reserveFront E N n : SegDev.DM α Unit) := by
  unfold SegDev.reserveFront; calm

instance (N n : Nat) [Silent E] [Allows L .lengthError] : Calm L (SegDev.reserveBack E N n : SegDev.DM α Unit) := by
  unfold SegDev.reserveBack; calm

instance (N : Nat) : Calm L (SegDev.clear N : SegDev.DM α Unit) := by unfold SegDev.clear; calm

instance (N : Nat) : Calm L (SegDev.destructor N : SegDev.DM α Unit) := by unfold SegDev.destructor; calm

instance (N : Nat) (p1 : SIt) (a : Arg α) [Silent E] : Calm L (SegDev.emplaceFrontHalf E N p1 a : SegDev.DM α SIt) := by
  unfold SegDev.emplaceFrontHalf; calm

instance (N : Nat) (p1 : SIt) (a : Arg α) [Silent E] : Calm L (SegDev.emplaceBackHalf E N p1 a : SegDev.DM α SIt) := by
  unfold SegDev.emplaceBackHalf; calm

instance (N : Nat) (pos : SIt) (a : Arg α) [Silent E] [Allows L .lengthError] : Calm L (SegDev.emplace E N pos a :
    SegDev.DM α SIt) := by
  unfold SegDev.emplace; calm

instance (N : Nat) (a : Arg α) [Silent E] : Calm L (SegDev.emplaceFrontTail E N a : SegDev.DM α SIt) := by
  unfold SegDev.emplaceFrontTail; calm

instance (N : Nat) (a : Arg α) [Silent E] [Allows L .lengthError] : Calm L (SegDev.emplaceFront E N a : SegDev.DM α
    SIt) := by
  unfold SegDev.emplaceFront; calm

instance (N : Nat) (a : Arg α) [Silent E] : Calm L (SegDev.emplaceBackTail E N a : SegDev.DM α SIt) := by
  unfold SegDev.emplaceBackTail; calm

instance (N : Nat) (a : Arg α) [Silent E] [Allows L .lengthError] : Calm L (SegDev.emplaceBack E N a : SegDev.DM α
    SIt) := by
  unfold SegDev.emplaceBack; calm

instance (N : Nat) (x4 : List (Arg α)) [Silent E] [Allows L .lengthError] : Calm L (SegDev.emplaceBackAll E N x4 :
    SegDev.DM α Unit) := by
   induction x4 with
   | nil => unfold SegDev.emplaceBackAll; calm
   | cons a as ih => unfold SegDev.emplaceBackAll; have := ih; calm

instance (N : Nat) : Calm L (SegDev.popFront N : SegDev.DM α Unit) := by unfold SegDev.popFront; calm

instance (N : Nat) : Calm L (SegDev.popBack N : SegDev.DM α Unit) := by unfold SegDev.popBack; calm

instance (N : Nat) (pos : SIt) [Silent E] : Calm L (SegDev.eraseAt E N pos : SegDev.DM α SIt) := by
  unfold SegDev.eraseAt; calm

instance (N : Nat) (first last : SIt) [Silent E] : Calm L (SegDev.eraseRange E N first last : SegDev.DM α SIt) := by
  unfold SegDev.eraseRange; calm

instance (N n : Nat) : Calm L (SegDev.cutBack N n : SegDev.DM α Unit) := by unfold SegDev.cutBack; calm

instance (N n : Nat) : Calm L (SegDev.cutFront N n : SegDev.DM α Unit) := by unfold SegDev.cutFront; calm

instance (N n : Nat) (a : Arg α) [Silent E] : Calm L (SegDev.fillBack E N n a : SegDev.DM α Unit) := by
  unfold SegDev.fillBack; calm

instance (N : Nat) (a : Arg α) [Silent E] : Calm L (SegDev.fillEos E N a : SegDev.DM α Unit) := by
  unfold SegDev.fillEos; calm

instance (N n : Nat) (a : Arg α) [Silent E] : Calm L (SegDev.fillFront E N n a : SegDev.DM α Unit) := by
  unfold SegDev.fillFront; calm

instance (N : Nat) (a : Arg α) [Silent E] : Calm L (SegDev.fillBos E N a : SegDev.DM α Unit) := by
  unfold SegDev.fillBos; calm

instance (N n : Nat) (a : Arg α) [Silent E] [Allows L .lengthError] : Calm L (SegDev.resizeWith E N n a : SegDev.DM α
    Unit) := by
  unfold SegDev.resizeWith; calm

instance (N n : Nat) (a : Arg α) [Silent E] [Allows L .lengthError] : Calm L (SegDev.resizeFrontWith E N n a :
    SegDev.DM α Unit) := by
  unfold SegDev.resizeFrontWith; calm

instance (N n : Nat) (a : Arg α) [Silent E] [Allows L .lengthError] : Calm L (SegDev.resizeBackWith E N n a :
    SegDev.DM α Unit) := by
  unfold SegDev.resizeBackWith; calm

instance (N : Nat) (a : Arg α) [Silent E] : Calm L (SegDev.fillAll E N a : SegDev.DM α Unit) := by
  unfold SegDev.fillAll; calm

instance (N n : Nat) (a : Arg α) [Silent E] [Allows L .lengthError] : Calm L (SegDev.assignFillN E N n a : SegDev.DM
    α Unit) := by
  unfold SegDev.assignFillN; calm

instance (N : Nat) (as : List (Arg α)) [Silent E] [Allows L .lengthError] : Calm L (SegDev.assignRangeInput E N as :
    SegDev.DM α Unit) := by
  unfold SegDev.assignRangeInput; calm

instance (N : Nat) (src : Seg.From α) [Silent E] : Calm L (SegDev.copyAll E N src : SegDev.DM α Unit) := by
  unfold SegDev.copyAll; calm

instance (N : Nat) (src : Seg.From α) [Silent E] : Calm L (SegDev.rangeBack E N src : SegDev.DM α Unit) := by
  unfold SegDev.rangeBack; calm

instance (N n : Nat) (src : Seg.From α) [Silent E] : Calm L (SegDev.rangeFront E N n src : SegDev.DM α Unit) := by
  unfold SegDev.rangeFront; calm

instance (N : Nat) (src : Seg.From α) [Silent E] : Calm L (SegDev.rangeBos E N src : SegDev.DM α Unit) := by
  unfold SegDev.rangeBos; calm

instance (N : Nat) (src : Seg.From α) [Silent E] [Allows L .lengthError] : Calm L (SegDev.assignRange E N src :
    SegDev.DM α Unit) := by
  unfold SegDev.assignRange; calm

instance (N : Nat) (t : Table) (p q : SIt) (x7 : SegDev.Ins α) [Silent E] : Calm L (SegDev.Ins.assign E N t p q x7 :
    M (St α) Unit) := by
  unfold SegDev.Ins.assign; calm

instance (N : Nat) (t : Table) (p q : SIt) (x7 : SegDev.Ins α) [Silent E] : Calm L (SegDev.Ins.uninit E N t p q x7 :
    M (St α) Unit) := by
  unfold SegDev.Ins.uninit; calm

instance (N distToBegin : Nat) (src : SegDev.Ins α) [Silent E] : Calm L (SegDev.insertFrontHalf E N distToBegin src :
    SegDev.DM α SIt) := by
  unfold SegDev.insertFrontHalf; calm

instance (N distToBegin : Nat) (distToEnd n : Nat) (tmp : α) [Silent E] : Calm L (SegDev.fillBackHalf E N distToBegin
    distToEnd n tmp : SegDev.DM α SIt) := by
  unfold SegDev.fillBackHalf; calm

instance (N distToBegin distToEnd : Nat) (ra : Bool) (ys : List α) [Silent E] : Calm L (SegDev.rangeBackHalf E N
    distToBegin distToEnd ra ys : SegDev.DM α SIt) := by
  unfold SegDev.rangeBackHalf; calm

instance (N : Nat) (pos : SIt) (n : Nat) (a : Arg α) [Silent E] [Allows L .lengthError] : Calm L (SegDev.insertFillN
    E N pos n a : SegDev.DM α SIt) := by
  unfold SegDev.insertFillN; calm

instance (N : Nat) (x4 : List (Arg α)) (x5 : SIt) [Silent E] [Allows L .lengthError] : Calm L (SegDev.insertRangeLoop
    E N x4 x5 : SegDev.DM α SIt) := by
   induction x4 generalizing x5 with
   | nil => unfold SegDev.insertRangeLoop; calm
   | cons a as ih => unfold SegDev.insertRangeLoop; have := ih; calm

instance (N : Nat) (pos : SIt) (ys : List α) [Silent E] [Allows L .lengthError] : Calm L (SegDev.insertRangeInput E N
    pos ys : SegDev.DM α SIt) := by
  unfold SegDev.insertRangeInput; calm

instance (N : Nat) (ra : Bool) (pos : SIt) (ys : List α) [Silent E] [Allows L .lengthError] : Calm L
    (SegDev.insertRange E N ra pos ys : SegDev.DM α SIt) := by
  unfold SegDev.insertRange; calm

instance (N : Nat) (f : α → Bool) [Silent E] : Calm L (SegDev.eraseIf E N f : SegDev.DM α Nat) := by
  unfold SegDev.eraseIf; calm

instance (N n : Nat) (alg : Table → SIt → M (St α) SIt) [Silent E] [∀ y0 y1, Calm L (alg y0 y1)] [Allows L
    .lengthError] : Calm L (SegDev.initUsing E N n alg : SegDev.DM α Unit) := by
  unfold SegDev.initUsing; calm

instance (N : Nat) (ys : List α) [Silent E] [Allows L .lengthError] : Calm L (SegDev.initRangeInput E N ys :
    SegDev.DM α Unit) := by
  unfold SegDev.initRangeInput; calm

instance (N : Nat) (other : SDVec) [Silent E] [Allows L .lengthError] : Calm L (SegDev.initCopy E N other : SegDev.DM
    α Unit) := by
  unfold SegDev.initCopy; calm

instance (N : Nat) [Silent E] [Allows L .lengthError] : Calm L (SegDev.initMove E N : M (Obj (SDVec × SDVec) α) Unit)
    := by
  unfold SegDev.initMove; calm

instance (N : Nat) (ra : Bool) (x5 : Sq.Init α) [Silent E] [Allows L .lengthError] : Calm L (SegDev.construct' E N ra
    x5 : SegDev.DM α Unit) := by
  unfold SegDev.construct'; calm

instance (N : Nat) : Calm L (SegDev.giveUp N : SegDev.DM α Unit) := by unfold SegDev.giveUp; calm

instance (N : Nat) (T : Traits) (other : SDVec) [Silent E] [Allows L .lengthError] : Calm L (SegDev.assignCopy E N T
    other : SegDev.DM α Unit) := by
  unfold SegDev.assignCopy; calm

instance (N : Nat) (other : SDVec) [Silent E] [Allows L .lengthError] : Calm L (SegDev.assignMoved E N other :
    SegDev.DM α Unit) := by
  unfold SegDev.assignMoved; calm

instance (N : Nat) (T : Traits) [Silent E] [Allows L .lengthError] : Calm L (SegDev.assignMove E N T : M (Obj (SDVec
    × SDVec) α) Unit) := by
  unfold SegDev.assignMove; calm

instance (T : Traits) : Calm L (SegDev.swap T : M (Obj (SDVec × SDVec) α) Unit) := by unfold SegDev.swap; calm

instance (N : Nat) (x3 : Sq.Src α) : Calm L (SegDev.argOf N x3 : SegDev.DM α (Arg α)) := by unfold SegDev.argOf; calm

instance (N : Nat) (ra : Dq.Op α → Bool) (op : Dq.Op α) [Silent E] [Allows L .lengthError] : Calm L (SegDev.exec E N
    ra op : SegDev.DM α (Option Nat)) := by
  unfold SegDev.exec; calm

/-! ### FlatSearch.lean -/

instance (nt r : Bool) [Silent E] : Calm L (comp E nt r : M (St α) Bool) :=
  ⟨fun s e s' he => by
      unfold comp at he
      try simp only [Silent.out, Bool.false_and, Bool.false_eq_true, if_false] at he
      repeat' split at he
      all_goals cases he⟩

instance (nt : Bool) (lo : α → Bool) (x5 : Nat) (x6 : Ptr) (x7 : Nat) [Silent E] : Calm L (lowerBoundGo E nt lo x5 x6
    x7 : M (St α) Ptr) := by
   induction x5 generalizing x6 x7 with
   | zero => unfold lowerBoundGo; calm
   | succ n ih => unfold lowerBoundGo; have := ih; calm

instance (nt : Bool) (hi : α → Bool) (x5 : Nat) (x6 : Ptr) (x7 : Nat) [Silent E] : Calm L (upperBoundGo E nt hi x5 x6
    x7 : M (St α) Ptr) := by
   induction x5 generalizing x6 x7 with
   | zero => unfold upperBoundGo; calm
   | succ n ih => unfold upperBoundGo; have := ih; calm

instance (nt : Bool) (P : Probe α) (x5 : Nat) (x6 : Ptr) (x7 : Nat) [Silent E] : Calm L (equalRangeGo E nt P x5 x6 x7
    : M (St α) (Ptr × Ptr)) := by
   induction x5 generalizing x6 x7 with
   | zero => unfold equalRangeGo; calm
   | succ n ih => unfold equalRangeGo; have := ih; calm

instance {κ : Type} (C : Order α κ) (P : Probe α) [Silent E] : Calm L (Flat.lowerBound C E P : Vector.VM α Ptr) := by
  unfold Flat.lowerBound; calm

instance {κ : Type} (C : Order α κ) (P : Probe α) [Silent E] : Calm L (Flat.upperBound C E P : Vector.VM α Ptr) := by
  unfold Flat.upperBound; calm

instance {κ : Type} (C : Order α κ) (P : Probe α) [Silent E] : Calm L (Flat.equalRange C E P : Vector.VM α (Ptr ×
    Ptr)) := by
  unfold Flat.equalRange; calm

instance {κ : Type} (C : Order α κ) (P : Probe α) (it : Ptr) [Silent E] : Calm L (Flat.missing C E P it : Vector.VM α
    Bool) := by
  unfold Flat.missing; calm

instance {κ : Type} (C : Order α κ) (P : Probe α) [Silent E] : Calm L (Flat.find C E P : Vector.VM α Ptr) := by
  unfold Flat.find; calm

instance {κ : Type} (C : Order α κ) (P : Probe α) [Silent E] : Calm L (Flat.contains C E P : Vector.VM α Bool) := by
  unfold Flat.contains; calm

instance {κ : Type} (C : Order α κ) (P : Probe α) [Silent E] : Calm L (Flat.countMulti C E P : Vector.VM α Nat) := by
  unfold Flat.countMulti; calm

instance {κ : Type} (C : Order α κ) (P : Probe α) [Silent E] [Allows L .outOfRange] : Calm L (Flat.at' C E P :
    Vector.VM α α) := by
  unfold Flat.at'; calm

/-! ### Flat.lean -/

instance (temp : Bool) (p1 : Ptr) (a : Arg α) [Silent E] : Calm L (Flat.insertMiddle temp E p1 a : Vector.VM α Ptr)
    := by
  unfold Flat.insertMiddle; calm

instance (temp : Bool) (pos : Ptr) (a : Arg α) [Silent E] : Calm L (Flat.insertInPlace temp E pos a : Vector.VM α
    Ptr) := by
  unfold Flat.insertInPlace; calm

instance (temp : Bool) (ib N : Nat) (pos : Ptr) (a : Arg α) [Silent E] [Allows L .lengthError] : Calm L
    (Flat.insertExactlyAt temp E ib N pos a : Vector.VM α Ptr) := by
  unfold Flat.insertExactlyAt; calm

instance (temp : Bool) (pos : Ptr) (a : Arg α) [Silent E] : Calm L (Flat.insertStatic temp E pos a : Vector.VM α Ptr)
    := by
  unfold Flat.insertStatic; calm

instance (multi : Bool) (ib N : Nat) [Silent E] [Allows L .lengthError] : Flat.CalmKind L (Flat.small multi E ib N) :=
  ⟨by unfold Flat.small; calm, fun _ _ => by unfold Flat.small; calm⟩

instance (multi : Bool) [Silent E] : Flat.CalmKind L (Flat.static multi E) :=
  ⟨by unfold Flat.static; calm, fun _ _ => by unfold Flat.static; calm⟩

instance : Calm L (Flat.notFull : Vector.VM α Unit) := by unfold Flat.notFull; calm

instance (a : Arg α) : Calm L (Flat.argRead a : M (St α) α) :=
  ⟨fun s e s' he => by
      unfold Flat.argRead at he
      try simp only [Silent.out, Bool.false_and, Bool.false_eq_true, if_false] at he
      repeat' split at he
      all_goals cases he⟩

instance {κ : Type} (K : Flat.Kind α) (C : Order α κ) (a : Arg α) [Flat.CalmKind L K] [Silent E] : Calm L
    (Flat.insertAux K C E a : Vector.VM α (Ptr × Bool)) := by
  unfold Flat.insertAux; calm

instance {κ : Type} (C : Order α κ) (P : Probe α) (hint : Ptr) [Silent E] : Calm L (Flat.hintLeft C E P hint :
    Vector.VM α Bool) := by
  unfold Flat.hintLeft; calm

instance {κ : Type} (C : Order α κ) (P : Probe α) (hint : Ptr) [Silent E] : Calm L (Flat.hintUnique C E P hint :
    Vector.VM α Bool) := by
  unfold Flat.hintUnique; calm

instance {κ : Type} (C : Order α κ) (P : Probe α) (p : Ptr) [Silent E] : Calm L (Flat.equivAt C E P p : M (St α)
    Bool) := by
  unfold Flat.equivAt; calm

instance {κ : Type} (C : Order α κ) (P : Probe α) (hint : Ptr) [Silent E] : Calm L (Flat.hintHere C E P hint :
    Vector.VM α Bool) := by
  unfold Flat.hintHere; calm

instance {κ : Type} (C : Order α κ) (P : Probe α) (hint : Ptr) [Silent E] : Calm L (Flat.hintBefore C E P hint :
    Vector.VM α Bool) := by
  unfold Flat.hintBefore; calm

instance {κ : Type} (C : Order α κ) (P : Probe α) (hint : Ptr) [Silent E] : Calm L (Flat.hintMulti C E P hint :
    Vector.VM α Bool) := by
  unfold Flat.hintMulti; calm

instance {κ : Type} (K : Flat.Kind α) (C : Order α κ) (P : Probe α) (hint : Ptr) [Flat.CalmKind L K] [Silent E] :
    Calm L (Flat.hintGood K C E P hint : Vector.VM α Bool) := by
  unfold Flat.hintGood; calm

instance {κ : Type} (K : Flat.Kind α) (C : Order α κ) (hint : Ptr) (a : Arg α) [Flat.CalmKind L K] [Silent E] : Calm
    L (Flat.insertAuxHint K C E hint a : Vector.VM α Ptr) := by
  unfold Flat.insertAuxHint; calm

instance (K : Flat.Kind α) (pos : Ptr) (v : α) [Flat.CalmKind L K] [Silent E] : Calm L (Flat.insertNew K E pos v :
    Vector.VM α Ptr) := by
  unfold Flat.insertNew; calm

instance {κ : Type} (K : Flat.Kind α) (C : Order α κ) (v : α) [Flat.CalmKind L K] [Silent E] : Calm L
    (Flat.tryEmplaceAux K C E v : Vector.VM α (Ptr × Bool)) := by
  unfold Flat.tryEmplaceAux; calm

instance {κ : Type} (K : Flat.Kind α) (C : Order α κ) (hint : Ptr) (v : α) [Flat.CalmKind L K] [Silent E] : Calm L
    (Flat.tryEmplaceAuxHint K C E hint v : Vector.VM α Ptr) := by
  unfold Flat.tryEmplaceAuxHint; calm

instance {κ : Type} (C : Order α κ) (p : Ptr) (v : α) [Silent E] : Calm L (Flat.assignMapped C E p v : M (St α) Unit) :=
  ⟨fun s e s' he => by
      unfold Flat.assignMapped at he
      try simp only [Silent.out, Bool.false_and, Bool.false_eq_true, if_false] at he
      repeat' split at he
      all_goals cases he⟩

instance {κ : Type} (K : Flat.Kind α) (C : Order α κ) (v : α) [Flat.CalmKind L K] [Silent E] : Calm L
    (Flat.insertOrAssignAux K C E v : Vector.VM α (Ptr × Bool)) := by
  unfold Flat.insertOrAssignAux; calm

instance {κ : Type} (K : Flat.Kind α) (C : Order α κ) (hint : Ptr) (v : α) [Flat.CalmKind L K] [Silent E] : Calm L
    (Flat.insertOrAssignAuxHint K C E hint v : Vector.VM α Ptr) := by
  unfold Flat.insertOrAssignAuxHint; calm

instance {κ : Type} (K : Flat.Kind α) (C : Order α κ) (x6 : List α) [Flat.CalmKind L K] [Silent E] : Calm L
    (Flat.insertRange K C E x6 : Vector.VM α Unit) := by
   induction x6 with
   | nil => unfold Flat.insertRange; calm
   | cons a as ih => unfold Flat.insertRange; have := ih; calm

instance {κ : Type} (K : Flat.Kind α) (C : Order α κ) (vs : List α) [Flat.CalmKind L K] [Silent E] : Calm L
    (Flat.assignList K C E vs : Vector.VM α Unit) := by
  unfold Flat.assignList; calm

instance {κ : Type} (C : Order α κ) (P : Probe α) [Silent E] : Calm L (Flat.eraseKeyUnique C E P : Vector.VM α Nat)
    := by
  unfold Flat.eraseKeyUnique; calm

instance {κ : Type} (C : Order α κ) (P : Probe α) [Silent E] : Calm L (Flat.eraseKeyMulti C E P : Vector.VM α Nat) := by
  unfold Flat.eraseKeyMulti; calm

instance {κ : Type} (multi : Bool) (C : Order α κ) (P : Probe α) [Silent E] : Calm L (Flat.eraseKey multi C E P :
    Vector.VM α Nat) := by
  unfold Flat.eraseKey; calm

instance (f : α → Bool) (x4 : Nat) (x5 : Ptr) [Silent E] : Calm L (Flat.eraseIfGo E f x4 x5 : Vector.VM α Unit) := by
   induction x4 generalizing x5 with
   | zero => unfold Flat.eraseIfGo; calm
   | succ n ih => unfold Flat.eraseIfGo; have := ih; calm

instance (f : α → Bool) [Silent E] : Calm L (Flat.eraseIf E f : Vector.VM α Nat) := by unfold Flat.eraseIf; calm

instance (p : Ptr) : Calm L (Flat.posOf p : Vector.VM α Flat.Ret) := by unfold Flat.posOf; calm

instance (r : Ptr × Bool) : Calm L (Flat.insOf r : Vector.VM α Flat.Ret) := by unfold Flat.insOf; calm

instance {κ : Type} (K : Flat.Kind α) (C : Order α κ) (reserve : Nat → Vector.VM α Unit) (shrink : Vector.VM α Unit)
    (x8 : Flat.Op α κ) [Flat.CalmKind L K] [Silent E] [∀ y0, Calm L (reserve y0)] [Calm L shrink] : Calm L (Flat.exec
    K C E reserve shrink x8 : Vector.VM α Flat.Ret) := by
  unfold Flat.exec; calm

/-! ### FlatWorld.lean -/

instance {κ : Type} (multi : Bool) (C : Order α κ) (ib N : Nat) (x8 : Flat.Init α) [Silent E] [Allows L .lengthError]
    : Calm L (Flat.construct multi C E ib N x8 : Vector.VM α Unit) := by
  unfold Flat.construct; calm

/-! ### StaticFlat.lean -/

instance {κ : Type} (multi : Bool) (C : Order α κ) (N : Nat) (x7 : Flat.Op α κ) [Silent E] : Calm L (Flat.staticExec
    multi C E N x7 : Vector.VM α Flat.Ret) := by
  unfold Flat.staticExec; calm

instance {κ : Type} (multi : Bool) (C : Order α κ) (x6 : List α) [Silent E] : Calm L (Flat.emplaceRange multi C E x6
    : Vector.VM α Unit) := by
   induction x6 with
   | nil => unfold Flat.emplaceRange; calm
   | cons a as ih => unfold Flat.emplaceRange; have := ih; calm

instance {κ : Type} (multi : Bool) (C : Order α κ) (x6 : Flat.Init α) [Silent E] : Calm L (Flat.staticConstruct multi
    C E x6 : Vector.VM α Unit) := by
  unfold Flat.staticConstruct; calm

/-! ### Unord.lean -/

instance (a : Arg α) [Silent E] : Calm L (Unord.staticPush E a : Vector.VM α Ptr) := by unfold Unord.staticPush; calm

instance (multi isMap : Bool) (ib N : Nat) [Silent E] [Allows L .lengthError] :
    Unord.CalmKind L (Unord.small multi isMap E ib N) :=
  ⟨by unfold Unord.small; calm, fun _ => by unfold Unord.small; calm⟩

instance (multi isMap : Bool) [Silent E] : Unord.CalmKind L (Unord.static multi isMap E) :=
  ⟨by unfold Unord.static; calm, fun _ => by unfold Unord.static; calm⟩

instance {κ : Type} (U : KeyEq α κ) (q : Unord.Sought α) (it : Ptr) [Silent E] : Calm L (Unord.eqAt U E q it : M (St
    α) Bool) := by
  unfold Unord.eqAt; calm

instance {κ : Type} (U : KeyEq α κ) (q : Unord.Sought α) (x6 : Nat) (x7 : Ptr) [Silent E] : Calm L (Unord.findGo U E
    q x6 x7 : Vector.VM α Ptr) := by
   induction x6 generalizing x7 with
   | zero => unfold Unord.findGo; calm
   | succ n ih => unfold Unord.findGo; have := ih; calm

instance {κ : Type} (U : KeyEq α κ) (q : Unord.Sought α) [Silent E] : Calm L (Unord.find U E q : Vector.VM α Ptr) := by
  unfold Unord.find; calm

instance {κ : Type} (U : KeyEq α κ) (q : Unord.Sought α) (x6 : Nat) (x7 : Ptr) (x8 : Nat) [Silent E] : Calm L
    (Unord.countGo U E q x6 x7 x8 : Vector.VM α Nat) := by
   induction x6 generalizing x7 x8 with
   | zero => unfold Unord.countGo; calm
   | succ n ih => unfold Unord.countGo; have := ih; calm

instance {κ : Type} (U : KeyEq α κ) (q : Unord.Sought α) [Silent E] : Calm L (Unord.countMulti U E q : Vector.VM α
    Nat) := by
  unfold Unord.countMulti; calm

instance {κ : Type} (U : KeyEq α κ) (q : Unord.Sought α) [Silent E] : Calm L (Unord.contains U E q : Vector.VM α
    Bool) := by
  unfold Unord.contains; calm

instance {κ : Type} (U : KeyEq α κ) (q : Unord.Sought α) [Silent E] : Calm L (Unord.countUnique U E q : Vector.VM α
    Nat) := by
  unfold Unord.countUnique; calm

instance (p q : Ptr) [Silent E] : Calm L (Unord.fillHole E p q : M (St α) Unit) := by unfold Unord.fillHole; calm

instance (pos : Ptr) [Silent E] : Calm L (Unord.eraseAt E pos : Vector.VM α Ptr) := by unfold Unord.eraseAt; calm

instance (first last : Ptr) [Silent E] : Calm L (Unord.eraseRange E first last : Vector.VM α Ptr) := by
  unfold Unord.eraseRange; calm

instance (test : Ptr → M (St α) Bool) (x4 : Nat) (x5 : Ptr) (x6 : Nat) [Silent E] [∀ y0, Calm L (test y0)] : Calm L
    (Unord.eraseGo E test x4 x5 x6 : Vector.VM α Nat) := by
   induction x4 generalizing x5 x6 with
   | zero => unfold Unord.eraseGo; calm
   | succ n ih => unfold Unord.eraseGo; have := ih; calm

instance {κ : Type} (U : KeyEq α κ) (q : Unord.Sought α) [Silent E] : Calm L (Unord.eraseKeyMulti U E q : Vector.VM α
    Nat) := by
  unfold Unord.eraseKeyMulti; calm

instance {κ : Type} (U : KeyEq α κ) (q : Unord.Sought α) [Silent E] : Calm L (Unord.eraseKeyUnique U E q : Vector.VM
    α Nat) := by
  unfold Unord.eraseKeyUnique; calm

instance {κ : Type} (multi : Bool) (U : KeyEq α κ) (q : Unord.Sought α) [Silent E] : Calm L (Unord.eraseKey multi U E
    q : Vector.VM α Nat) := by
  unfold Unord.eraseKey; calm

instance (f : α → Bool) (it : Ptr) : Calm L (Unord.testIf f it : M (St α) Bool) := by unfold Unord.testIf; calm

instance (f : α → Bool) [Silent E] : Calm L (Unord.eraseIf E f : Vector.VM α Nat) := by unfold Unord.eraseIf; calm

instance (K : Unord.Kind α) (a : Arg α) [Unord.CalmKind L K] : Calm L (Unord.pushNew K a : Vector.VM α (Ptr × Bool))
    := by
  unfold Unord.pushNew; calm

instance {κ : Type} (K : Unord.Kind α) (U : KeyEq α κ) (a : Arg α) [Unord.CalmKind L K] [Silent E] : Calm L
    (Unord.insertAux K U E a : Vector.VM α (Ptr × Bool)) := by
  unfold Unord.insertAux; calm

instance {κ : Type} (K : Unord.Kind α) (U : KeyEq α κ) (x : α) [Unord.CalmKind L K] [Silent E] : Calm L
    (Unord.emplaceAux K U E x : Vector.VM α (Ptr × Bool)) := by
  unfold Unord.emplaceAux; calm

instance {κ : Type} (K : Unord.Kind α) (U : KeyEq α κ) (x : α) [Unord.CalmKind L K] [Silent E] : Calm L
    (Unord.emplace K U E x : Vector.VM α (Ptr × Bool)) := by
  unfold Unord.emplace; calm

instance (K : Unord.Kind α) (x : α) [Unord.CalmKind L K] [Silent E] : Calm L (Unord.pushKey K E x : Vector.VM α (Ptr
    × Bool)) := by
  unfold Unord.pushKey; calm

instance {κ : Type} (K : Unord.Kind α) (U : KeyEq α κ) (x : α) [Unord.CalmKind L K] [Silent E] : Calm L
    (Unord.tryEmplaceAux K U E x : Vector.VM α (Ptr × Bool)) := by
  unfold Unord.tryEmplaceAux; calm

instance {κ : Type} (U : KeyEq α κ) (p : Ptr) (x : α) [Silent E] : Calm L (Unord.assignMapped U E p x : M (St α)
    Unit) :=
  ⟨fun s e s' he => by
      unfold Unord.assignMapped at he
      try simp only [Silent.out, Bool.false_and, Bool.false_eq_true, if_false] at he
      repeat' split at he
      all_goals cases he⟩

instance {κ : Type} (K : Unord.Kind α) (U : KeyEq α κ) (x : α) [Unord.CalmKind L K] [Silent E] : Calm L
    (Unord.insertOrAssignAux K U E x : Vector.VM α (Ptr × Bool)) := by
  unfold Unord.insertOrAssignAux; calm

instance {κ : Type} (K : Unord.Kind α) (U : KeyEq α κ) (x6 : List α) [Unord.CalmKind L K] [Silent E] : Calm L
    (Unord.insertRange K U E x6 : Vector.VM α Unit) := by
   induction x6 with
   | nil => unfold Unord.insertRange; calm
   | cons a as ih => unfold Unord.insertRange; have := ih; calm

instance {κ : Type} (K : Unord.Kind α) (U : KeyEq α κ) (xs : List α) [Unord.CalmKind L K] [Silent E] : Calm L
    (Unord.assignList K U E xs : Vector.VM α Unit) := by
  unfold Unord.assignList; calm

instance (h : Nat) : Calm L (Unord.checkHint h : Vector.VM α Unit) := by unfold Unord.checkHint; calm

instance {κ : Type} (K : Unord.Kind α) (U : KeyEq α κ) (reserve : Nat → Vector.VM α Unit) (shrink : Vector.VM α Unit)
    (x8 : Unord.Op α κ) [Unord.CalmKind L K] [Silent E] [∀ y0, Calm L (reserve y0)] [Calm L shrink] : Calm L
    (Unord.exec K U E reserve shrink x8 : Vector.VM α Flat.Ret) := by
  unfold Unord.exec; calm

instance {κ : Type} (multi isMap : Bool) (U : KeyEq α κ) (N : Nat) (x8 : Unord.Op α κ) [Silent E] : Calm L
    (Unord.staticExec multi isMap U E N x8 : Vector.VM α Flat.Ret) := by
  unfold Unord.staticExec; calm

/-! ### UnordWorld.lean -/

instance {κ : Type} (multi isMap : Bool) (U : KeyEq α κ) (ib N : Nat) (x9 : Flat.Init α) [Silent E] [Allows L
    .lengthError] : Calm L (Unord.construct multi isMap U E ib N x9 : Vector.VM α Unit) := by
  unfold Unord.construct; calm

instance {κ : Type} (multi isMap : Bool) (U : KeyEq α κ) (x7 : List α) [Silent E] : Calm L (Unord.emplaceRange multi
    isMap U E x7 : Vector.VM α Unit) := by
   induction x7 with
   | nil => unfold Unord.emplaceRange; calm
   | cons a as ih => unfold Unord.emplaceRange; have := ih; calm

instance {κ : Type} (multi isMap : Bool) (U : KeyEq α κ) (x7 : Flat.Init α) [Silent E] : Calm L
    (Unord.staticConstruct multi isMap U E x7 : Vector.VM α Unit) := by
  unfold Unord.staticConstruct; calm

/-! ### WorldVec.lean -/

instance (x3 : Sq.Init α) [Silent E] [Allows L .lengthError] : Calm L (Vector.construct E x3 : Vector.VM α Unit) := by
  unfold Vector.construct; calm

instance (ib N : Nat) (x5 : Sq.Init α) [Silent E] [Allows L .lengthError] : Calm L (SmallVector.construct E ib N x5 :
    Vector.VM α Unit) := by
  unfold SmallVector.construct; calm

/-! ### CompactWorld.lean -/

instance (x3 : Sq.Op α) [Silent E] [Allows L .lengthError] : Calm L (CompactVector.exec E x3 : Vector.VM α (Option
    Nat)) := by
  unfold CompactVector.exec; calm

instance (x3 : Sq.Init α) [Silent E] [Allows L .lengthError] : Calm L (CompactVector.construct E x3 : Vector.VM α
    Unit) := by
  unfold CompactVector.construct; calm

/-! ### DevWorld.lean -/

instance (s : Sq.Src α) : Calm L (Devector.argOf s : Devector.DM α (Arg α)) := by unfold Devector.argOf; calm

instance (x3 : Dq.Op α) [Silent E] [Allows L .lengthError] : Calm L (Devector.exec E x3 : Devector.DM α (Option Nat))
    := by
  unfold Devector.exec; calm

end Sfl
