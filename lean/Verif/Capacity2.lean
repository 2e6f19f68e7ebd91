import Verif.Devector
import Verif.SegDev
import Verif.StaticSpec
/-
  C05: the sizes computed by compact_vector, devector, segmented_vector and segmented_devector in machine arithmetic
  (64-bit `size_type`, wrapping).
-/

namespace Sfl

/-! ### compact_vector -/

/-- compact_vector.hpp:516-523, 1335-1343, 1458-1466: the new size with its overflow check, in `std::size_t` arithmetic.
`none`: throws length_error. -/
def CompactVector.newSize64 (maxSize size n : UInt64) : Option UInt64 :=
  if size + n < size ∨ size + n > maxSize then none else some (size + n)

/-- **C05** (compact_vector). length_error is thrown iff `size + n` exceeds `max_size` as integers, for every `n`, also
those for which `size + n` wraps around; otherwise exactly `size + n` slots are requested. -/
theorem compactVector_newSize (maxSize size n : UInt64) :
    (CompactVector.newSize64 maxSize size n = none ↔ maxSize.toNat < size.toNat + n.toNat) ∧
    ∀ c, CompactVector.newSize64 maxSize size n = some c → c.toNat = size.toNat + n.toNat := by
  have e := UInt64.toNat_add size n
  have b1 := maxSize.toNat_lt
  have b2 := n.toNat_lt
  have b3 := size.toNat_lt
  unfold CompactVector.newSize64
  simp only [gt_iff_lt, UInt64.lt_iff_toNat_lt]
  split
  · simp; omega
  · refine ⟨by simp; omega, fun c hc => ?_⟩
    cases hc
    omega

example : CompactVector.newSize64 1000 6 3 = some 9 := by decide +kernel
example : CompactVector.newSize64 1000 6 995 = none := by decide +kernel
/-- `size + n` wraps around to 5. -/
example : CompactVector.newSize64 1000 6 18446744073709551615 = none := by decide +kernel

/-! ### devector -/

/-- devector.hpp:1347-1364, 1366-1383 `calculate_additional_capacity_for_grow_storage_front`, `…_back` in `std::size_t`
arithmetic. `capacityEnd`: `capacity_front` or `capacity_back`; `available`: `available_front` or `available_back`. -/
def Devector.additional64 (capacityEnd available n : UInt64) : UInt64 :=
  if n ≥ available then
    (if n - available < capacityEnd / 2 then capacityEnd / 2 else n - available)
  else capacityEnd / 2

/-- devector.hpp:1420-1428, 1479-1487, 3873-3880, 3968-3975: the check and the new capacity of `grow_storage_front`,
`grow_storage_back` and the two `emplace_aux/insert_aux` that reallocate. `none`: throws length_error. -/
def Devector.grow64 (maxSize capacity additional : UInt64) : Option UInt64 :=
  if additional > maxSize - capacity then none else some (capacity + additional)

/-- devector.hpp:421-435, 486-500: the checks and the new capacity of `reserve_front` and `reserve_back`. `near` is the
free space at the end that is to grow, `far` the free space at the other end. `none`: throws length_error; `some none`:
nothing to do. -/
def Devector.reserve64 (maxSize size near far newCap : UInt64) : Option (Option UInt64) :=
  if newCap > maxSize - far then none
  else if newCap > size + near then some (some (far + newCap))
  else some none

/-- **C05** (devector). The additional capacity is no result of a wrap-around: it covers the elements that do not fit
into the free space and is at least half of the capacity seen from that end, and not more than needed for these two. -/
theorem devector_additional (capacityEnd available n : UInt64) :
    n.toNat ≤ available.toNat + (Devector.additional64 capacityEnd available n).toNat ∧
    capacityEnd.toNat / 2 ≤ (Devector.additional64 capacityEnd available n).toNat ∧
    ((Devector.additional64 capacityEnd available n).toNat = capacityEnd.toNat / 2 ∨
      available.toNat + (Devector.additional64 capacityEnd available n).toNat = n.toNat) := by
  have e3 : (capacityEnd / 2).toNat = capacityEnd.toNat / 2 := UInt64.toNat_div _ _
  unfold Devector.additional64
  simp only [ge_iff_le]
  split
  · rename_i h
    have e1 : (n - available).toNat = n.toNat - available.toNat := UInt64.toNat_sub_of_le _ _ h
    rw [UInt64.le_iff_toNat_le] at h
    simp only [UInt64.lt_iff_toNat_lt, e1, e3]
    split <;> omega
  · rename_i h
    rw [UInt64.le_iff_toNat_le] at h
    omega

example : Devector.additional64 10 2 3 = 5 ∧ Devector.additional64 10 2 30 = 28 ∧ Devector.additional64 10 7 3 = 5 := by
  decide +kernel

/-- **C05** (devector). length_error is thrown iff the new capacity as an integer exceeds `max_size`; otherwise the new
capacity is the sum, without wrap-around. -/
theorem devector_grow (maxSize capacity additional : UInt64) (h : capacity ≤ maxSize) :
    (Devector.grow64 maxSize capacity additional = none ↔ maxSize.toNat < capacity.toNat + additional.toNat) ∧
    ∀ c, Devector.grow64 maxSize capacity additional = some c →
      c.toNat = capacity.toNat + additional.toNat ∧ c ≤ maxSize := by
  have e1 : (maxSize - capacity).toNat = maxSize.toNat - capacity.toNat := UInt64.toNat_sub_of_le _ _ h
  have e4 := UInt64.toNat_add capacity additional
  have b1 := maxSize.toNat_lt
  rw [UInt64.le_iff_toNat_le] at h
  unfold Devector.grow64
  simp only [gt_iff_lt, UInt64.lt_iff_toNat_lt, e1]
  split
  · simp; omega
  · refine ⟨by simp; omega, fun c hc => ?_⟩
    cases hc
    rw [UInt64.le_iff_toNat_le]
    omega

example : Devector.grow64 1000 10 5 = some 15 ∧ Devector.grow64 1000 10 991 = none ∧
    Devector.grow64 1000 10 18446744073709551615 = none := by decide +kernel

/-- **C05** (devector). `reserve_front` and `reserve_back`: length_error iff the requested capacity together with the
free space at the other end exceeds `max_size`; nothing happens iff the capacity at that end suffices already; otherwise
the new storage has room for both, which is more than before and at most `max_size`. -/
theorem devector_reserve64 (maxSize size near far newCap : UInt64)
    (h : size.toNat + near.toNat + far.toNat ≤ maxSize.toNat) :
    (Devector.reserve64 maxSize size near far newCap = none ↔ maxSize.toNat < far.toNat + newCap.toNat) ∧
    (Devector.reserve64 maxSize size near far newCap = some none ↔
      far.toNat + newCap.toNat ≤ maxSize.toNat ∧ newCap.toNat ≤ size.toNat + near.toNat) ∧
    ∀ c, Devector.reserve64 maxSize size near far newCap = some (some c) →
      c.toNat = far.toNat + newCap.toNat ∧ size.toNat + near.toNat + far.toNat < c.toNat ∧ c ≤ maxSize := by
  have e1 : (maxSize - far).toNat = maxSize.toNat - far.toNat :=
    UInt64.toNat_sub_of_le _ _ (by rw [UInt64.le_iff_toNat_le]; omega)
  have e4 := UInt64.toNat_add far newCap
  have e5 := UInt64.toNat_add size near
  have b1 := maxSize.toNat_lt
  unfold Devector.reserve64
  simp only [gt_iff_lt, UInt64.lt_iff_toNat_lt, e1]
  split
  · simp; omega
  · split
    · refine ⟨by simp; omega, by simp; omega, fun c hc => ?_⟩
      cases hc
      rw [UInt64.le_iff_toNat_le]
      omega
    · refine ⟨by simp; omega, by simp; omega, fun c hc => ?_⟩
      cases hc

example : Devector.reserve64 1000 6 2 3 20 = some (some 23) ∧ Devector.reserve64 1000 6 2 3 8 = some none ∧
    Devector.reserve64 1000 6 2 3 998 = none := by decide +kernel

/-! ### segmented_vector and segmented_devector -/

/-- segmented_vector.hpp:898-901, 958-961, segmented_devector.hpp:1266-1270, 1417-1424: the number of segments for `n`
more elements at the back, with one slot more for the end. `none`: throws length_error. (`allocate_storage` checks
`n > max_size()`, which is the check with capacity 0.) -/
def SegVec.segments64 (N maxSize capacity n : UInt64) : Option UInt64 :=
  if maxSize - capacity < n then none else some (n / N + 1)

/-- segmented_devector.hpp:1329-1336: the number of segments for `n` more elements at the front. `none`: throws
length_error. -/
def SegDev.segmentsFront64 (N maxSize capacity n : UInt64) : Option UInt64 :=
  if maxSize - capacity < n then none else some (n / N + (if n % N == 0 then 0 else 1))

/-- segmented_vector.hpp:968-980, segmented_devector.hpp:1342-1352, 1430-1440: the new capacity of the table. `none`:
the table is kept. -/
def SegVec.tableCapacity64 (tableCapacity available required : UInt64) : Option UInt64 :=
  if required > available then
    some (if tableCapacity + tableCapacity / 2 < tableCapacity - available + required
      then tableCapacity - available + required else tableCapacity + tableCapacity / 2)
  else none

/-- Quotient and product: `n < (n / N + 1) * N`. -/
theorem lt_div_succ_mul (n N : Nat) (h : 0 < N) : n < (n / N + 1) * N := by
  have := Nat.lt_mul_div_succ n h
  rw [Nat.mul_comm]
  exact this

/-- **C05** (segmented_vector, segmented_devector at the back). As long as the capacity does not exceed `max_size`,
length_error is thrown iff the capacity and `n` together exceed it; otherwise the segments have room for `n` elements and
for the end iterator, they are not more than one segment too many, and their number is not the result of a
wrap-around. -/
theorem segmented_segments (N maxSize capacity n : UInt64) (h : capacity ≤ maxSize) (hN : 0 < N)
    (hm : maxSize.toNat < 2 ^ 63) :
    (SegVec.segments64 N maxSize capacity n = none ↔ maxSize.toNat < capacity.toNat + n.toNat) ∧
    ∀ c, SegVec.segments64 N maxSize capacity n = some c →
      n.toNat < c.toNat * N.toNat ∧ c.toNat * N.toNat ≤ n.toNat + N.toNat ∧ c.toNat ≤ 2 ^ 63 := by
  have e1 : (maxSize - capacity).toNat = maxSize.toNat - capacity.toNat := UInt64.toNat_sub_of_le _ _ h
  have e2 : (n / N).toNat = n.toNat / N.toNat := UInt64.toNat_div _ _
  have e3 := UInt64.toNat_add (n / N) 1
  rw [UInt64.le_iff_toNat_le] at h
  rw [UInt64.lt_iff_toNat_lt] at hN
  have hN' : 0 < N.toNat := hN
  have d1 := lt_div_succ_mul n.toNat N.toNat hN'
  have d2 := Nat.div_mul_le_self n.toNat N.toNat
  have d3 := Nat.div_le_self n.toNat N.toNat
  unfold SegVec.segments64
  simp only [UInt64.lt_iff_toNat_lt, e1]
  split
  · simp; omega
  · refine ⟨by simp; omega, fun c hc => ?_⟩
    cases hc
    have f : (n / N + 1).toNat = n.toNat / N.toNat + 1 := by
      rw [e3, e2]
      exact Nat.mod_eq_of_lt (by have : (1 : UInt64).toNat = 1 := rfl; omega)
    rw [f]
    refine ⟨d1, ?_, by omega⟩
    rw [Nat.succ_mul]
    omega

example : SegVec.segments64 4 1000 15 9 = some 3 ∧ SegVec.segments64 4 1000 15 8 = some 3 ∧
    SegVec.segments64 4 1000 15 986 = none := by decide +kernel

/-- The capacity of a segmented container can exceed `max_size` (`segmentedVector_exceeds_max_size`); the check then
wraps around and accepts what it should refuse. -/
example : SegVec.segments64 4 10 11 5 = some 2 ∧ 10 < 11 + 5 := by decide +kernel

/-- **C05** (segmented_devector at the front). As at the back, but without the slot for the end iterator. -/
theorem segmentedDevector_segments_front (N maxSize capacity n : UInt64) (h : capacity ≤ maxSize) (hN : 0 < N)
    (hm : maxSize.toNat < 2 ^ 63) :
    (SegDev.segmentsFront64 N maxSize capacity n = none ↔ maxSize.toNat < capacity.toNat + n.toNat) ∧
    ∀ c, SegDev.segmentsFront64 N maxSize capacity n = some c →
      n.toNat ≤ c.toNat * N.toNat ∧ c.toNat * N.toNat < n.toNat + N.toNat ∧ c.toNat ≤ 2 ^ 63 := by
  have e1 : (maxSize - capacity).toNat = maxSize.toNat - capacity.toNat := UInt64.toNat_sub_of_le _ _ h
  have e2 : (n / N).toNat = n.toNat / N.toNat := UInt64.toNat_div _ _
  have e3 := UInt64.toNat_add (n / N) 1
  have e4 : (n % N).toNat = n.toNat % N.toNat := UInt64.toNat_mod _ _
  rw [UInt64.le_iff_toNat_le] at h
  rw [UInt64.lt_iff_toNat_lt] at hN
  have hN' : 0 < N.toNat := hN
  have d1 := lt_div_succ_mul n.toNat N.toNat hN'
  have d2 := Nat.div_mul_le_self n.toNat N.toNat
  have d3 := Nat.div_le_self n.toNat N.toNat
  have d4 := Nat.div_add_mod n.toNat N.toNat
  rw [Nat.mul_comm] at d4
  unfold SegDev.segmentsFront64
  simp only [UInt64.lt_iff_toNat_lt, e1, beq_iff_eq]
  split
  · simp; omega
  · refine ⟨by simp; omega, fun c hc => ?_⟩
    cases hc
    split
    · rename_i h0
      have h1 : n.toNat % N.toNat = 0 := by rw [← e4, h0]; rfl
      have f : (n / N + 0).toNat = n.toNat / N.toNat := by rw [UInt64.add_zero, e2]
      rw [f]
      omega
    · rename_i h0
      have h1 : n.toNat % N.toNat ≠ 0 := by
        intro h2
        exact h0 (UInt64.toNat_inj.1 (by rw [e4, h2]; rfl))
      have f : (n / N + 1).toNat = n.toNat / N.toNat + 1 := by
        rw [e3, e2]
        exact Nat.mod_eq_of_lt (by have : (1 : UInt64).toNat = 1 := rfl; omega)
      rw [f]
      refine ⟨by omega, ?_, by omega⟩
      rw [Nat.succ_mul]
      omega

example : SegDev.segmentsFront64 4 1000 15 9 = some 3 ∧ SegDev.segmentsFront64 4 1000 15 8 = some 2 ∧
    SegDev.segmentsFront64 4 1000 15 986 = none := by decide +kernel

/-- **C05** (segmented_vector, segmented_devector). The table is replaced iff it has too few free entries; the new table
has room for the entries in use and the required ones, and is at least half as large again. The bounds say that a table
of 8-byte entries fits the address space and the number of required segments is at most 2^63 (`segmented_segments`). -/
theorem segmented_table (tableCapacity available required : UInt64) (h : available ≤ tableCapacity)
    (hc : tableCapacity.toNat < 2 ^ 61) (hr : required.toNat ≤ 2 ^ 63) :
    (SegVec.tableCapacity64 tableCapacity available required = none ↔ required.toNat ≤ available.toNat) ∧
    ∀ c, SegVec.tableCapacity64 tableCapacity available required = some c →
      (tableCapacity.toNat - available.toNat) + required.toNat ≤ c.toNat ∧
      tableCapacity.toNat + tableCapacity.toNat / 2 ≤ c.toNat ∧
      (c.toNat = (tableCapacity.toNat - available.toNat) + required.toNat ∨
        c.toNat = tableCapacity.toNat + tableCapacity.toNat / 2) := by
  have e1 : (tableCapacity - available).toNat = tableCapacity.toNat - available.toNat := UInt64.toNat_sub_of_le _ _ h
  have e3 : (tableCapacity / 2).toNat = tableCapacity.toNat / 2 := UInt64.toNat_div _ _
  have e4 := UInt64.toNat_add tableCapacity (tableCapacity / 2)
  have e5 := UInt64.toNat_add (tableCapacity - available) required
  rw [UInt64.le_iff_toNat_le] at h
  unfold SegVec.tableCapacity64
  simp only [gt_iff_lt, UInt64.lt_iff_toNat_lt]
  split
  · refine ⟨by simp; omega, fun c hc => ?_⟩
    cases hc
    split <;> omega
  · refine ⟨by simp; omega, fun c hc => ?_⟩
    cases hc

example : SegVec.tableCapacity64 8 1 3 = some 12 ∧ SegVec.tableCapacity64 8 1 30 = some 37 ∧
    SegVec.tableCapacity64 8 3 3 = none := by decide +kernel

/-! ### Agreement with the container models -/

/-- The wrapping subtraction of `Devector` is the one of the machine. -/
theorem devector_sizeSub64_eq (a b : UInt64) : Devector.sizeSub a.toNat b.toNat = (a - b).toNat := by
  have e := UInt64.toNat_sub a b
  have b1 := a.toNat_lt
  have b2 := b.toNat_lt
  unfold Devector.sizeSub
  split <;> omega

/-- The wrapping subtraction of `SegVec` and `SegDev` is the one of the machine. -/
theorem segVec_sizeSub64_eq (a b : UInt64) : SegVec.sizeSub a.toNat b.toNat = (a - b).toNat :=
  devector_sizeSub64_eq a b

/-- The additional capacity as natural number. -/
theorem devector_additional64_toNat (capacityEnd available n : UInt64) :
    (Devector.additional64 capacityEnd available n).toNat =
      if n.toNat ≥ available.toNat then max (n.toNat - available.toNat) (capacityEnd.toNat / 2)
      else capacityEnd.toNat / 2 := by
  have e3 : (capacityEnd / 2).toNat = capacityEnd.toNat / 2 := UInt64.toNat_div _ _
  unfold Devector.additional64
  simp only [ge_iff_le]
  by_cases h : available ≤ n
  · have e1 : (n - available).toNat = n.toNat - available.toNat := UInt64.toNat_sub_of_le _ _ h
    rw [if_pos h]
    rw [UInt64.le_iff_toNat_le] at h
    rw [if_pos h]
    simp only [UInt64.lt_iff_toNat_lt, e1, e3]
    split <;> omega
  · rw [if_neg h]
    rw [UInt64.le_iff_toNat_le] at h
    rw [if_neg h, e3]

/-- The 64-bit computation of the additional capacity at the front is the one in the model of devector. -/
theorem devector_additionalFront64_eq {α : Type} {o : Obj DVec α} {capacityFront available n : UInt64}
    (h1 : distance o.obj.bos o.obj.last o = .ok capacityFront.toNat o)
    (h2 : Devector.availableFront o = .ok available.toNat o) :
    Devector.additionalFront n.toNat o = .ok (Devector.additional64 capacityFront available n).toNat o := by
  rw [devector_additional64_toNat]
  unfold Devector.additionalFront
  rw [bind_run (show getObj o = .ok o.obj o from rfl), bind_run h1, bind_run h2]
  split <;> rfl

/-- The same at the back. -/
theorem devector_additionalBack64_eq {α : Type} {o : Obj DVec α} {capacityBack available n : UInt64}
    (h1 : distance o.obj.first o.obj.eos o = .ok capacityBack.toNat o)
    (h2 : Devector.availableBack o = .ok available.toNat o) :
    Devector.additionalBack n.toNat o = .ok (Devector.additional64 capacityBack available n).toNat o := by
  rw [devector_additional64_toNat]
  unfold Devector.additionalBack
  rw [bind_run (show getObj o = .ok o.obj o from rfl), bind_run h1, bind_run h2]
  split <;> rfl

/-- What the model of devector does with the 64-bit results: `grow_storage_back`. -/
theorem devector_growStorageBack64_eq {α : Type} {E : Env α} {o : Obj DVec α} {maxSize capacity additional : UInt64}
    (hm : E.maxSize = maxSize.toNat) (h1 : Devector.capacity o = .ok capacity.toNat o) (h : capacity ≤ maxSize) :
    Devector.growStorageBack E additional.toNat o =
      (match Devector.grow64 maxSize capacity additional with
       | none => M.throw .lengthError
       | some c => do
         let af ← Devector.availableFront
         Devector.relocate E c.toNat af : M (Obj DVec α) Unit) o := by
  have hg := devector_grow maxSize capacity additional h
  have e1 : (maxSize - capacity).toNat = maxSize.toNat - capacity.toNat := UInt64.toNat_sub_of_le _ _ h
  rw [UInt64.le_iff_toNat_le] at h
  unfold Devector.growStorageBack
  rw [bind_run h1, hm, devector_sizeSub64_eq, e1]
  cases hx : Devector.grow64 maxSize capacity additional with
  | none =>
    have := hg.1.1 hx
    rw [if_pos (by omega)]
  | some c =>
    obtain ⟨k1, k2⟩ := hg.2 c hx
    rw [UInt64.le_iff_toNat_le] at k2
    rw [if_neg (by omega), ← k1]

/-- `grow_storage_front`. -/
theorem devector_growStorageFront64_eq {α : Type} {E : Env α} {o : Obj DVec α} {maxSize capacity additional : UInt64}
    (hm : E.maxSize = maxSize.toNat) (h1 : Devector.capacity o = .ok capacity.toNat o) (h : capacity ≤ maxSize) :
    Devector.growStorageFront E additional.toNat o =
      (match Devector.grow64 maxSize capacity additional with
       | none => M.throw .lengthError
       | some c => do
         let v ← getObj
         let d ← distance v.first v.eos
         Devector.relocate E c.toNat (c.toNat - d) : M (Obj DVec α) Unit) o := by
  have hg := devector_grow maxSize capacity additional h
  have e1 : (maxSize - capacity).toNat = maxSize.toNat - capacity.toNat := UInt64.toNat_sub_of_le _ _ h
  rw [UInt64.le_iff_toNat_le] at h
  unfold Devector.growStorageFront
  rw [bind_run h1, hm, devector_sizeSub64_eq, e1]
  cases hx : Devector.grow64 maxSize capacity additional with
  | none =>
    have := hg.1.1 hx
    rw [if_pos (by omega)]
  | some c =>
    obtain ⟨k1, k2⟩ := hg.2 c hx
    rw [UInt64.le_iff_toNat_le] at k2
    rw [if_neg (by omega), ← k1]

/-- The numbers of segments and the size of the table are those in `SegVec.growStorage`, `SegVec.growTable`,
`SegDev.growStorageBack`, `SegDev.growTableFront` and `SegDev.growTableBack`. -/
theorem segmented_segments64_eq {N maxSize capacity n c : UInt64} (h : capacity ≤ maxSize) (hm : maxSize.toNat < 2 ^ 63)
    (hc : SegVec.segments64 N maxSize capacity n = some c) : c.toNat = n.toNat / N.toNat + 1 := by
  have e1 : (maxSize - capacity).toNat = maxSize.toNat - capacity.toNat := UInt64.toNat_sub_of_le _ _ h
  have e2 : (n / N).toNat = n.toNat / N.toNat := UInt64.toNat_div _ _
  have e3 := UInt64.toNat_add (n / N) 1
  have d3 := Nat.div_le_self n.toNat N.toNat
  unfold SegVec.segments64 at hc
  simp only [UInt64.lt_iff_toNat_lt, e1] at hc
  split at hc
  · cases hc
  · cases hc
    rw [e3, e2]
    exact Nat.mod_eq_of_lt (by have : (1 : UInt64).toNat = 1 := rfl; omega)

theorem segmented_table64_eq {tableCapacity available required c : UInt64} (h : available ≤ tableCapacity)
    (hc : tableCapacity.toNat < 2 ^ 61) (hr : required.toNat ≤ 2 ^ 63)
    (hx : SegVec.tableCapacity64 tableCapacity available required = some c) :
    c.toNat = max (tableCapacity.toNat + tableCapacity.toNat / 2)
      (tableCapacity.toNat - available.toNat + required.toNat) := by
  obtain ⟨k1, k2, k3⟩ := (segmented_table _ _ _ h hc hr).2 c hx
  omega

end Sfl
