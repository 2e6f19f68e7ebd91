import Verif.SVSpec6
/-
  sfl::vector behaves as sfl::small_vector without internal storage: the two programs are equal.
-/

set_option linter.unusedSimpArgs false

namespace Sfl
variable {α : Type} {E : Env α}

theorem bind_apply {σ β γ : Type} (m : M σ β) (f : β → M σ γ) (s : σ) :
    (m >>= f) s = match m s with
      | .ok b s' => f b s'
      | .exn e s' => .exn e s'
      | .ub r => .ub r := rfl

theorem bind_congr' {σ β γ : Type} {m : M σ β} {f g : β → M σ γ} {s : σ}
    (h : ∀ r s', m s = .ok r s' → f r s' = g r s') : (m >>= f) s = (m >>= g) s := by
  rw [bind_apply, bind_apply]
  cases hm : m s with
  | ok r s' => exact h r s' hm
  | exn e s' => rfl
  | ub r => rfl

theorem deallocate_null_eq (a n : Nat) : (deallocate a Ptr.null n : M (St α) Unit) = pure () := by
  funext s; simp [deallocate]; rfl

theorem freeUnless_zero (al : Nat) (p : Ptr) (n : Nat) :
    (freeUnless 0 al p n : M (St α) Unit) = deallocate al p n := by
  unfold freeUnless
  by_cases h : p = ⟨0, 0⟩
  · subst h; simp; exact (deallocate_null_eq al n).symm
  · simp [h]

theorem getObj_ok {V : Type} {o o' : Obj V α} {v : V} (h : getObj o = .ok v o') : v = o.obj ∧ o' = o := by
  unfold getObj at h; cases h; exact ⟨rfl, rfl⟩

theorem assert_ok {σ : Type} {c : Prop} [Decidable c] {s s' : σ} {u : Unit} (h : M.assert c s = .ok u s') : s' = s := by
  unfold M.assert at h
  split at h
  · cases h; rfl
  · cases h

theorem distance_ok {σ : Type} {p q : Ptr} {s s' : σ} {n : Nat} (h : distance p q s = .ok n s') : s' = s := by
  unfold distance at h
  split at h
  · cases h; rfl
  · cases h

namespace SmallVector

theorem newCapacity_zero (m s c n : Nat) : newCapacity 0 m s c n = Vector.newCapacity m s c n := by
  unfold newCapacity Vector.newCapacity; simp

theorem calc_zero (n : Nat) :
    (calculateNewCapacity E 0 n : Vector.VM α Nat) = Vector.calculateNewCapacity E n := by
  unfold calculateNewCapacity Vector.calculateNewCapacity
  simp only [newCapacity_zero]
  rfl

theorem size_ok {o o' : Obj Vec α} {c : Nat} (h : Vector.size o = .ok c o') : o' = o := by
  unfold Vector.size at h
  obtain ⟨v, o1, h1, h2⟩ := bind_ok h
  obtain ⟨rfl, rfl⟩ := getObj_ok h1
  exact distance_ok h2

theorem available_ok {o o' : Obj Vec α} {c : Nat} (h : Vector.available o = .ok c o') : o' = o := by
  unfold Vector.available at h
  obtain ⟨v, o1, h1, h2⟩ := bind_ok h
  obtain ⟨rfl, rfl⟩ := getObj_ok h1
  exact distance_ok h2

theorem capacity_ok {o o' : Obj Vec α} {c : Nat} (h : Vector.capacity o = .ok c o') : o' = o := by
  unfold Vector.capacity at h
  obtain ⟨v, o1, h1, h2⟩ := bind_ok h
  obtain ⟨rfl, rfl⟩ := getObj_ok h1
  exact distance_ok h2

theorem calc_ok {o o' : Obj Vec α} {n c : Nat} (h : Vector.calculateNewCapacity E n o = .ok c o') : o' = o := by
  unfold Vector.calculateNewCapacity at h
  obtain ⟨sz, o1, h1, h2⟩ := bind_ok h
  obtain ⟨cap, o2, h3, h4⟩ := bind_ok h2
  obtain rfl := size_ok h1
  obtain rfl := capacity_ok h3
  cases hn : Vector.newCapacity E.maxSize sz cap n with
  | none => rw [hn] at h4; cases h4
  | some c' => rw [hn] at h4; cases h4; rfl

theorem newStorage_zero {β : Type} (n : Nat) (f : Ptr × Nat → Vector.VM α β) (o : Obj Vec α) :
    (newStorage E 0 0 n >>= f) o = (lift (allocate E o.obj.alloc n) >>= fun p => f (p, n)) o := by
  rw [bind_apply, bind_apply]
  unfold newStorage
  rw [bind_apply]
  simp only [getObj]
  by_cases h : n ≤ 0 ∧ o.obj.first ≠ ⟨0, 0⟩
  · obtain rfl : n = 0 := by omega
    rw [if_pos h]
    simp [lift, allocate, pure, Ptr.null, M.pure]
  · simp only [h, if_false]
    rw [bind_apply]
    cases lift (allocate E o.obj.alloc n) o <;> rfl

theorem replaceStorage_zero (f l e : Ptr) :
    (replaceStorage 0 f l e : Vector.VM α Unit) = Vector.replaceStorage f l e := by
  unfold replaceStorage Vector.replaceStorage
  simp only [freeUnless_zero]

theorem emplaceBack_zero (a : Arg α) : emplaceBack E 0 0 a = Vector.emplaceBack E a := by
  funext o
  unfold emplaceBack Vector.emplaceBack
  simp only [freeUnless_zero, replaceStorage_zero, calc_zero]
  refine bind_congr' fun v o1 h1 => ?_
  obtain ⟨rfl, rfl⟩ := getObj_ok h1
  split
  · rfl
  · refine bind_congr' fun c o2 h2 => ?_
    obtain rfl := calc_ok h2
    rw [newStorage_zero]

theorem emplace_zero (p : Ptr) (a : Arg α) : emplace E 0 0 p a = Vector.emplace E p a := by
  funext o
  unfold emplace Vector.emplace
  simp only [freeUnless_zero, replaceStorage_zero, calc_zero]
  refine bind_congr' fun v o1 h1 => ?_
  obtain ⟨rfl, rfl⟩ := getObj_ok h1
  refine bind_congr' fun _ o2 h2 => ?_
  obtain rfl := assert_ok h2
  split
  · rfl
  · refine bind_congr' fun c o2 h2 => ?_
    obtain rfl := calc_ok h2
    rw [newStorage_zero]

theorem insertFillN_zero (p : Ptr) (n : Nat) (a : Arg α) : insertFillN E 0 0 p n a = Vector.insertFillN E p n a := by
  funext o
  unfold insertFillN Vector.insertFillN
  simp only [freeUnless_zero, replaceStorage_zero, calc_zero]
  refine bind_congr' fun v o1 h1 => ?_
  obtain ⟨rfl, rfl⟩ := getObj_ok h1
  refine bind_congr' fun _ o2 h2 => ?_
  obtain rfl := assert_ok h2
  split
  · rfl
  refine bind_congr' fun _ o3 h3 => ?_
  obtain rfl := available_ok h3
  split
  · rfl
  · refine bind_congr' fun c o2 h2 => ?_
    obtain rfl := calc_ok h2
    rw [newStorage_zero]

theorem insertRange_zero (p : Ptr) (ys : List α) : insertRange E 0 0 p ys = Vector.insertRange E p ys := by
  funext o
  unfold insertRange Vector.insertRange
  simp only [freeUnless_zero, replaceStorage_zero, calc_zero]
  refine bind_congr' fun v o1 h1 => ?_
  obtain ⟨rfl, rfl⟩ := getObj_ok h1
  refine bind_congr' fun _ o2 h2 => ?_
  obtain rfl := assert_ok h2
  cases ys with
  | nil => rfl
  | cons y ys =>
  simp only [reduceCtorEq, if_false]
  refine bind_congr' fun _ o3 h3 => ?_
  obtain rfl := available_ok h3
  split
  · rfl
  · refine bind_congr' fun c o2 h2 => ?_
    obtain rfl := calc_ok h2
    rw [newStorage_zero]

theorem checkSize_ok {o o' : Obj Vec α} {n : Nat} {u : Unit} (h : Vector.checkSize E n o = .ok u o') : o' = o := by
  unfold Vector.checkSize at h
  split at h
  · cases h
  · cases h; rfl

theorem resizeWith_zero (n : Nat) (a : Arg α) : resizeWith E 0 0 n a = Vector.resizeWith E n a := by
  funext o
  unfold resizeWith Vector.resizeWith
  simp only [freeUnless_zero, replaceStorage_zero, calc_zero]
  refine bind_congr' fun _ o1 h1 => ?_
  obtain rfl := checkSize_ok h1
  refine bind_congr' fun v o1 h1 => ?_
  obtain ⟨rfl, rfl⟩ := getObj_ok h1
  refine bind_congr' fun _ o2 h2 => ?_
  obtain rfl := size_ok h2
  split
  · rfl
  split
  · refine bind_congr' fun _ o2 h2 => ?_
    obtain rfl := capacity_ok h2
    split
    · rw [newStorage_zero]
    · rfl
  · rfl

theorem reserve_zero (n : Nat) : reserve E 0 0 n = (Vector.reserve E n : Vector.VM α Unit) := by
  funext o
  unfold reserve Vector.reserve relocate
  simp only [replaceStorage_zero]
  refine bind_congr' fun _ o1 h1 => ?_
  refine bind_congr' fun c o2 h2 => ?_
  split
  · have : ¬ (n ≤ 0) := by omega
    simp only [this, if_false]
  · rfl

theorem reset_zero (n : Nat) : reset E 0 0 n = (Vector.reset E n : Vector.VM α Unit) := by
  unfold reset Vector.reset
  simp only [replaceStorage_zero]
  rfl

theorem destructor_zero : (destructor 0 : Vector.VM α Unit) = Vector.destructor := by
  unfold destructor Vector.destructor
  simp only [freeUnless_zero]

theorem emplaceBackAll_zero (as : List (Arg α)) : emplaceBackAll E 0 0 as = Vector.emplaceBackAll E as := by
  induction as with
  | nil => rfl
  | cons a as ih => unfold emplaceBackAll Vector.emplaceBackAll; rw [ih, emplaceBack_zero]

theorem initRangeInput_zero (ys : List α) : initRangeInput E 0 0 ys = Vector.initRangeInput E ys := by
  unfold initRangeInput Vector.initRangeInput
  rw [emplaceBackAll_zero, destructor_zero]

theorem assignFillN_zero (n : Nat) (a : Arg α) : assignFillN E 0 0 n a = Vector.assignFillN E n a := by
  unfold assignFillN Vector.assignFillN
  simp only [reset_zero]

theorem assignRange_zero (as : List (Arg α)) : assignRange E 0 0 as = Vector.assignRange E as := by
  unfold assignRange Vector.assignRange
  simp only [reset_zero]

theorem assignRangeInput_zero (as : List (Arg α)) : assignRangeInput E 0 0 as = Vector.assignRangeInput E as := by
  unfold assignRangeInput Vector.assignRangeInput
  simp only [emplaceBackAll_zero]

theorem insertRangeLoop_zero (as : List (Arg α)) (p : Ptr) :
    insertRangeLoop E 0 0 as p = Vector.insertRangeLoop E as p := by
  induction as generalizing p with
  | nil => rfl
  | cons a as ih => unfold insertRangeLoop Vector.insertRangeLoop; simp only [ih, emplace_zero]

theorem insertRangeInput_zero (p : Ptr) (ys : List α) :
    insertRangeInput E 0 0 p ys = Vector.insertRangeInput E p ys := by
  unfold insertRangeInput Vector.insertRangeInput
  simp only [insertRangeLoop_zero]

theorem initWith_zero (as : List (Arg α)) (al : Nat) (m : St α) :
    initWith E 0 as ⟨empty 0 0 al, m⟩ = Vector.initWith E as ⟨Vector.empty al, m⟩ := by
  unfold initWith Vector.initWith
  refine bind_congr' fun _ o1 h1 => ?_
  obtain rfl := checkSize_ok h1
  cases as with
  | nil =>
    simp [bind_apply, getObj, setObj, lift, allocate, uninit, uninitGo, M.tryCatch, pure, M.pure, Ptr.add, empty, Ptr.null,
      Vector.empty]
  | cons a as =>
    have h0 : (a :: as).length > 0 := by simp
    simp only [h0, if_true]
    rw [bind_apply, bind_apply]
    simp only [getObj]
    refine bind_congr' fun f o2 h2 => ?_
    rfl

end SmallVector
end Sfl
