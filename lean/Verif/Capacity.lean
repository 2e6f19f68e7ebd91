import Verif.SmallVector
/-
  C05: the computation of the new capacity in machine arithmetic (64-bit `size_type`, wrapping).
-/

namespace Sfl

/-- vector.hpp:1194-1216 `calculate_new_capacity` with `std::size_t` arithmetic. `none`: throws length_error. -/
def Vector.newCapacity64 (maxSize size capacity n : UInt64) : Option UInt64 :=
  if maxSize - size < n then none
  else if maxSize - capacity < capacity / 2 then some maxSize
  else if size + n < capacity + capacity / 2 then some (capacity + capacity / 2)
  else some (size + n)

/-- small_vector.hpp:1549-1571 `calculate_new_capacity` with `std::size_t` arithmetic; the same text is in
small_flat_set.hpp:1267-1289 and the other small_* flat containers. `none`: throws length_error. -/
def SmallVector.newCapacity64 (N maxSize size capacity n : UInt64) : Option UInt64 :=
  if maxSize - size < n then none
  else if maxSize - capacity < capacity / 2 then some maxSize
  else if size + n < capacity + capacity / 2 then
    some (if N < capacity + capacity / 2 then capacity + capacity / 2 else N)
  else some (if N < size + n then size + n else N)

/-- **C05** (vector). With 64-bit wrapping arithmetic: length_error is thrown iff `size + n` exceeds `max_size` (as
integers), otherwise the new capacity is at least `size + n`, at most `max_size`, and at least one and a half times the
old capacity unless it is `max_size`. -/
theorem vector_newCapacity (maxSize size capacity n : UInt64) (h1 : size ≤ capacity) (h2 : capacity ≤ maxSize) :
    (Vector.newCapacity64 maxSize size capacity n = none ↔ maxSize.toNat < size.toNat + n.toNat) ∧
    ∀ c, Vector.newCapacity64 maxSize size capacity n = some c →
      size.toNat + n.toNat ≤ c.toNat ∧ c ≤ maxSize ∧
      (c = maxSize ∨ capacity.toNat + capacity.toNat / 2 ≤ c.toNat) := by
  rw [UInt64.le_iff_toNat_le] at h1 h2
  have e1 : (maxSize - size).toNat = maxSize.toNat - size.toNat :=
    UInt64.toNat_sub_of_le _ _ (by rw [UInt64.le_iff_toNat_le]; omega)
  have e2 : (maxSize - capacity).toNat = maxSize.toNat - capacity.toNat :=
    UInt64.toNat_sub_of_le _ _ (by rw [UInt64.le_iff_toNat_le]; omega)
  have e3 : (capacity / 2).toNat = capacity.toNat / 2 := UInt64.toNat_div _ _
  have e4 := UInt64.toNat_add size n
  have e5 := UInt64.toNat_add capacity (capacity / 2)
  have b1 := maxSize.toNat_lt
  have b2 := n.toNat_lt
  unfold Vector.newCapacity64
  simp only [UInt64.lt_iff_toNat_lt, UInt64.le_iff_toNat_le, e1, e2, e3]
  by_cases c1 : maxSize.toNat - size.toNat < n.toNat
  · simp [c1]; omega
  · rw [if_neg c1]
    refine ⟨⟨?_, by omega⟩, ?_⟩
    · intro h; split at h
      · cases h
      · split at h <;> cases h
    · intro c hc
      split at hc
      · cases hc; exact ⟨by omega, by omega, Or.inl rfl⟩
      · split at hc <;> cases hc <;> omega

/-- Capacity 6 full of elements, one more requested. -/
example : Vector.newCapacity64 1000 6 6 1 = some 9 := by decide +kernel
example : Vector.newCapacity64 7 6 6 1 = some 7 := by decide +kernel
example : Vector.newCapacity64 7 6 6 2 = none := by decide +kernel

/-- **C05** (small_vector and the small flat containers). As for vector; the new capacity is also at least `N`. The
additional hypothesis is that the internal storage does not exceed `max_size`. -/
theorem smallVector_newCapacity (N maxSize size capacity n : UInt64) (h1 : size ≤ capacity) (h2 : capacity ≤ maxSize)
    (h3 : N ≤ maxSize) :
    (SmallVector.newCapacity64 N maxSize size capacity n = none ↔ maxSize.toNat < size.toNat + n.toNat) ∧
    ∀ c, SmallVector.newCapacity64 N maxSize size capacity n = some c →
      size.toNat + n.toNat ≤ c.toNat ∧ c ≤ maxSize ∧ N ≤ c ∧
      (c = maxSize ∨ capacity.toNat + capacity.toNat / 2 ≤ c.toNat) := by
  rw [UInt64.le_iff_toNat_le] at h1 h2 h3
  have e1 : (maxSize - size).toNat = maxSize.toNat - size.toNat :=
    UInt64.toNat_sub_of_le _ _ (by rw [UInt64.le_iff_toNat_le]; omega)
  have e2 : (maxSize - capacity).toNat = maxSize.toNat - capacity.toNat :=
    UInt64.toNat_sub_of_le _ _ (by rw [UInt64.le_iff_toNat_le]; omega)
  have e3 : (capacity / 2).toNat = capacity.toNat / 2 := UInt64.toNat_div _ _
  have e4 := UInt64.toNat_add size n
  have e5 := UInt64.toNat_add capacity (capacity / 2)
  have b1 := maxSize.toNat_lt
  have b2 := n.toNat_lt
  unfold SmallVector.newCapacity64
  simp only [UInt64.lt_iff_toNat_lt, UInt64.le_iff_toNat_le, e1, e2, e3]
  by_cases c1 : maxSize.toNat - size.toNat < n.toNat
  · simp [c1]; omega
  · rw [if_neg c1]
    refine ⟨⟨?_, by omega⟩, ?_⟩
    · intro h; split at h
      · cases h
      · split at h <;> cases h
    · intro c hc
      split at hc
      · cases hc; exact ⟨by omega, by omega, by omega, Or.inl rfl⟩
      · split at hc
        · cases hc; split <;> omega
        · cases hc; split <;> omega

example : SmallVector.newCapacity64 16 1000 6 6 1 = some 16 := by decide +kernel

/-- The hypothesis `N ≤ max_size` cannot be dropped: an allocator whose `max_size()` is smaller than the internal
storage. The code then reports no error although `size + n` exceeds `max_size`
(`max_size - size` wraps around). -/
example : SmallVector.newCapacity64 16 10 16 16 1 = some 24 ∧ 10 < 16 + 1 := by decide +kernel

/-- The 64-bit computation agrees with the one on natural numbers used in the container models. -/
theorem vector_newCapacity64_eq (maxSize size capacity n : UInt64) (h1 : size ≤ capacity) (h2 : capacity ≤ maxSize) :
    (Vector.newCapacity64 maxSize size capacity n).map UInt64.toNat =
      Vector.newCapacity maxSize.toNat size.toNat capacity.toNat n.toNat := by
  rw [UInt64.le_iff_toNat_le] at h1 h2
  have e1 : (maxSize - size).toNat = maxSize.toNat - size.toNat :=
    UInt64.toNat_sub_of_le _ _ (by rw [UInt64.le_iff_toNat_le]; omega)
  have e2 : (maxSize - capacity).toNat = maxSize.toNat - capacity.toNat :=
    UInt64.toNat_sub_of_le _ _ (by rw [UInt64.le_iff_toNat_le]; omega)
  have e3 : (capacity / 2).toNat = capacity.toNat / 2 := UInt64.toNat_div _ _
  have e4 := UInt64.toNat_add size n
  have e5 := UInt64.toNat_add capacity (capacity / 2)
  have b1 := maxSize.toNat_lt
  have b2 := n.toNat_lt
  unfold Vector.newCapacity64 Vector.newCapacity
  simp only [UInt64.lt_iff_toNat_lt, e1, e2, e3]
  by_cases c1 : maxSize.toNat - size.toNat < n.toNat
  · simp [c1]
  · rw [if_neg c1, if_neg c1]
    by_cases c2 : maxSize.toNat - capacity.toNat < capacity.toNat / 2
    · simp [c2]
    · rw [if_neg c2, if_neg c2]
      have f4 : (size + n).toNat = size.toNat + n.toNat := by omega
      have f5 : (capacity + capacity / 2).toNat = capacity.toNat + capacity.toNat / 2 := by omega
      rw [f4, f5]
      split <;> simp only [Option.map_some, f4, f5]

theorem smallVector_newCapacity64_eq (N maxSize size capacity n : UInt64) (h1 : size ≤ capacity)
    (h2 : capacity ≤ maxSize) :
    (SmallVector.newCapacity64 N maxSize size capacity n).map UInt64.toNat =
      SmallVector.newCapacity N.toNat maxSize.toNat size.toNat capacity.toNat n.toNat := by
  rw [UInt64.le_iff_toNat_le] at h1 h2
  have e1 : (maxSize - size).toNat = maxSize.toNat - size.toNat :=
    UInt64.toNat_sub_of_le _ _ (by rw [UInt64.le_iff_toNat_le]; omega)
  have e2 : (maxSize - capacity).toNat = maxSize.toNat - capacity.toNat :=
    UInt64.toNat_sub_of_le _ _ (by rw [UInt64.le_iff_toNat_le]; omega)
  have e3 : (capacity / 2).toNat = capacity.toNat / 2 := UInt64.toNat_div _ _
  have e4 := UInt64.toNat_add size n
  have e5 := UInt64.toNat_add capacity (capacity / 2)
  have b1 := maxSize.toNat_lt
  have b2 := n.toNat_lt
  unfold SmallVector.newCapacity64 SmallVector.newCapacity
  simp only [UInt64.lt_iff_toNat_lt, e1, e2, e3]
  by_cases c1 : maxSize.toNat - size.toNat < n.toNat
  · simp [c1]
  · rw [if_neg c1, if_neg c1]
    by_cases c2 : maxSize.toNat - capacity.toNat < capacity.toNat / 2
    · simp [c2]
    · rw [if_neg c2, if_neg c2]
      have f4 : (size + n).toNat = size.toNat + n.toNat := by omega
      have f5 : (capacity + capacity / 2).toNat = capacity.toNat + capacity.toNat / 2 := by omega
      rw [f4, f5]
      have g : ∀ a : UInt64, (if N.toNat < a.toNat then a else N).toNat = max N.toNat a.toNat := by
        intro a; split <;> omega
      have g4 := g (size + n)
      have g5 := g (capacity + capacity / 2)
      rw [f4] at g4
      rw [f5] at g5
      split <;> simp [g4, g5]

end Sfl
