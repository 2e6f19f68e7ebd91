import Verif.FlatOps
/-
  Where an ordered flat container may insert a new element: from the positions found by the searches and by the checks
  of a hint to the order of the resulting sequence.
-/

namespace Sfl
variable {α κ : Type} {C : Order α κ} {xs ys : List α} {multi : Bool} {v : α} {k : Nat}

/-- The order between neighbours. -/
def Order.rel (C : Order α κ) (multi : Bool) (a b : α) : Prop :=
  if multi = true then C.lt (C.key b) (C.key a) = false else C.lt (C.key a) (C.key b) = true

/-- Position `k` is a place for `v`. -/
structure Order.Place (C : Order α κ) (multi : Bool) (xs : List α) (v : α) (k : Nat) : Prop where
  le : k ≤ xs.length
  lo : ∀ x ∈ xs.take k, C.rel multi x v
  hi : ∀ x ∈ xs.drop k, C.rel multi v x

theorem pairwise_insert {R : α → α → Prop} (h : xs.Pairwise R) (h1 : ∀ x ∈ xs.take k, R x v)
    (h2 : ∀ x ∈ xs.drop k, R v x) : (xs.take k ++ v :: xs.drop k).Pairwise R := by
  rw [← List.take_append_drop k xs, List.pairwise_append] at h
  rw [List.pairwise_append, List.pairwise_cons]
  refine ⟨h.1, ⟨h2, h.2.1⟩, ?_⟩
  intro a ha b hb
  rcases List.mem_cons.mp hb with rfl | hb
  · exact h1 a ha
  · exact h.2.2 a ha b hb

theorem Order.Place.inserted (hs : C.Sorted multi xs) (p : C.Place multi xs v k) :
    Flat.Inserted C multi xs v k true (xs.take k ++ v :: xs.drop k) := by
  refine Or.inl ⟨rfl, ?_, p.le, rfl, pairwise_insert hs p.lo p.hi⟩
  cases multi
  · right
    intro x hx
    rw [← List.take_append_drop k xs, List.mem_append] at hx
    rcases hx with hx | hx
    · have := p.lo x hx
      simp [Order.rel] at this
      simp [Order.same, this]
    · have := p.hi x hx
      simp [Order.rel] at this
      simp [Order.same, this]
  · exact Or.inl rfl

theorem mem_take_iff {x : α} : x ∈ xs.take k ↔ ∃ i, i < k ∧ xs[i]? = some x := by
  rw [List.mem_iff_getElem?]
  constructor
  · rintro ⟨i, hi⟩
    rw [List.getElem?_take] at hi
    split at hi
    · exact ⟨i, by assumption, hi⟩
    · cases hi
  · rintro ⟨i, hi, hx⟩
    exact ⟨i, by rw [List.getElem?_take, if_pos hi, hx]⟩

theorem mem_drop_iff {x : α} : x ∈ xs.drop k ↔ ∃ i, k ≤ i ∧ xs[i]? = some x := by
  rw [List.mem_iff_getElem?]
  constructor
  · rintro ⟨i, hi⟩
    rw [List.getElem?_drop] at hi
    exact ⟨k + i, by omega, hi⟩
  · rintro ⟨i, hi, hx⟩
    refine ⟨i - k, ?_⟩
    rw [List.getElem?_drop, ← hx]; congr 1; omega

/-- Everything to the left of an element below the sought key is below it. -/
theorem Probe.Fits.belowLeft {P : Probe α} (f : P.Fits xs) {i j : Nat} {x y : α} (hx : xs[i]? = some x)
    (hy : xs[j]? = some y) (hij : i ≤ j) (h : P.below y = true) : P.below x = true := by
  obtain ⟨hi, rfl⟩ := List.getElem?_eq_some_iff.mp hx
  obtain ⟨hj, rfl⟩ := List.getElem?_eq_some_iff.mp hy
  by_cases he : i = j
  · subst he; exact h
  · exact List.pairwise_iff_getElem.mp f.below i j hi hj (by omega) h

/-- Everything to the right of an element above the sought key is above it. -/
theorem Probe.Fits.aboveRight {P : Probe α} (f : P.Fits xs) {i j : Nat} {x y : α} (hx : xs[i]? = some x)
    (hy : xs[j]? = some y) (hij : i ≤ j) (h : P.above x = true) : P.above y = true := by
  obtain ⟨hi, rfl⟩ := List.getElem?_eq_some_iff.mp hx
  obtain ⟨hj, rfl⟩ := List.getElem?_eq_some_iff.mp hy
  by_cases he : i = j
  · subst he; exact h
  · exact List.pairwise_iff_getElem.mp f.above i j hi hj (by omega) h

theorem Flat.absent_drop {P : Probe α} (f : P.Fits xs) (h : Flat.absent P xs k = true) {x : α} (hx : x ∈ xs.drop k) :
    P.above x = true := by
  obtain ⟨i, hi, hx⟩ := mem_drop_iff.mp hx
  have hl : k < xs.length := by have := (List.getElem?_eq_some_iff.mp hx).1; omega
  have hk : xs[k]? = some xs[k] := List.getElem?_eq_getElem hl
  unfold Flat.absent at h
  rw [hk] at h
  exact f.aboveRight hk hx hi h

/-- The last element before position `k` is below the sought key. -/
def Probe.Left (P : Probe α) (xs : List α) (k : Nat) : Prop := ∀ (j : Nat) x, j + 1 = k → xs[j]? = some x → P.below x = true

theorem Probe.Left.all {P : Probe α} (h : P.Left xs k) (f : P.Fits xs) (hk : k ≤ xs.length) {x : α}
    (hx : x ∈ xs.take k) : P.below x = true := by
  obtain ⟨i, hi, hxi⟩ := mem_take_iff.mp hx
  obtain ⟨j, rfl⟩ : ∃ j, k = j + 1 := ⟨k - 1, by omega⟩
  have hj : xs[j]? = some xs[j] := List.getElem?_eq_getElem (by omega)
  exact f.belowLeft hxi hj (by omega) (h j _ rfl hj)

/-- The place for an element that is not in the container yet. -/
theorem Order.Lawful.place (L : C.Lawful) (hs : C.Sorted multi xs) (hk : k ≤ xs.length)
    (hl : (C.probe (C.key v)).Left xs k) (ha : Flat.absent (C.probe (C.key v)) xs k = true) :
    C.Place multi xs v k := by
  have f := L.fits hs (C.key v)
  refine ⟨hk, ?_, ?_⟩
  · intro x hx
    have := hl.all f hk hx
    cases multi
    · simpa [Order.rel, Order.probe] using this
    · simpa [Order.rel] using L.asymm this
  · intro x hx
    have := Flat.absent_drop f ha hx
    cases multi
    · simpa [Order.rel, Order.probe] using this
    · simpa [Order.rel] using L.asymm this

/-- The place found by lower_bound in a container that allows equivalent elements. -/
theorem Order.Lawful.placeLower (L : C.Lawful) (hs : C.Sorted true xs) (c : Cut (C.probe (C.key v)).below xs k) :
    C.Place true xs v k := by
  have f := L.fits hs (C.key v)
  refine ⟨c.le, ?_, ?_⟩
  · intro x hx
    obtain ⟨i, hi, hx⟩ := mem_take_iff.mp hx
    simpa [Order.rel] using L.asymm ((c.all f.below hx).mpr hi)
  · intro x hx
    obtain ⟨i, hi, hx⟩ := mem_drop_iff.mp hx
    have : ¬ (C.probe (C.key v)).below x = true := fun h => by have := (c.all f.below hx).mp h; omega
    simpa [Order.rel, Order.probe] using this

/-- Next to an equivalent element. -/
theorem Order.Lawful.placeHit (L : C.Lawful) (hs : C.Sorted true xs) (hk : k ≤ xs.length) {j : Nat} {y : α}
    (hy : xs[j]? = some y) (hj : j = k ∨ j + 1 = k) (hh : (C.probe (C.key v)).hit y = true) :
    C.Place true xs v k := by
  have h1 : C.lt (C.key y) (C.key v) = false ∧ C.lt (C.key v) (C.key y) = false := by
    simpa [Probe.hit, Order.probe] using hh
  have hle : ∀ i x, xs[i]? = some x → i ≤ j → C.lt (C.key y) (C.key x) = false := by
    intro i x hx hij
    obtain ⟨hi, rfl⟩ := List.getElem?_eq_some_iff.mp hx
    obtain ⟨hj, rfl⟩ := List.getElem?_eq_some_iff.mp hy
    by_cases he : i = j
    · subst he; exact L.irrefl _
    · simpa using List.pairwise_iff_getElem.mp hs i j hi hj (by omega)
  have hge : ∀ i x, xs[i]? = some x → j ≤ i → C.lt (C.key x) (C.key y) = false := by
    intro i x hx hij
    obtain ⟨hi, rfl⟩ := List.getElem?_eq_some_iff.mp hx
    obtain ⟨hj, rfl⟩ := List.getElem?_eq_some_iff.mp hy
    by_cases he : j = i
    · subst he; exact L.irrefl _
    · simpa using List.pairwise_iff_getElem.mp hs j i hj hi (by omega)
  refine ⟨hk, ?_, ?_⟩
  · intro x hx
    obtain ⟨i, hi, hx⟩ := mem_take_iff.mp hx
    simpa [Order.rel] using L.le_trans (hle i x hx (by omega)) h1.2
  · intro x hx
    obtain ⟨i, hi, hx⟩ := mem_drop_iff.mp hx
    simpa [Order.rel] using L.le_trans h1.1 (hge i x hx (by omega))

/-- The element at the position found by lower_bound is equivalent, if it is not above. -/
theorem Flat.present (c : Cut (C.probe (C.key v)).below xs k)
    (ha : Flat.absent (C.probe (C.key v)) xs k = false) : ∃ x, xs[k]? = some x ∧ C.same x v = true := by
  unfold Flat.absent at ha
  cases hx : xs[k]? with
  | none => rw [hx] at ha; cases ha
  | some x =>
    rw [hx] at ha
    refine ⟨x, rfl, ?_⟩
    have := c.right x hx
    simp [Order.probe] at this ha
    simp [Order.same, this, ha]

theorem Cut.toLeft {P : Probe α} (c : Cut P.below xs k) : P.Left xs k := c.left

end Sfl
