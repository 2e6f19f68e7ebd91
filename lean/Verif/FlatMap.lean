import Verif.FlatSpec
/-
  Sequences with pairwise different keys as finite maps, and what the operations of flat maps mean for them. Nothing
  in this file mentions memory or the implementation.
-/

namespace Sfl.KMap
variable {α κ : Type}

/-- `eq` is an equivalence relation. -/
structure Equiv (eq : κ → κ → Bool) : Prop where
  refl : ∀ a, eq a a = true
  symm : ∀ {a b}, eq a b = true → eq b a = true
  trans : ∀ {a b c}, eq a b = true → eq b c = true → eq a c = true

/-- No two elements with equal keys. -/
def Distinct (key : α → κ) (eq : κ → κ → Bool) (xs : List α) : Prop :=
  xs.Pairwise (fun a b => eq (key a) (key b) = false)

/-- The finite map a sequence stands for: key ↦ element. -/
def get (key : α → κ) (eq : κ → κ → Bool) (xs : List α) (k : κ) : Option α := xs.find? (fun x => eq (key x) k)

/-- Add an element unless its key is present. -/
def putNew (key : α → κ) (eq : κ → κ → Bool) (m : κ → Option α) (v : α) : κ → Option α :=
  fun k => if eq (key v) k = true then (m k).or (some v) else m k

/-- Add an element, or change the mapped value of the one with its key. -/
def put (key : α → κ) (eq : κ → κ → Bool) (upd : α → α → α) (m : κ → Option α) (v : α) : κ → Option α :=
  fun k => if eq (key v) k = true then some (match m k with | some x => upd x v | none => v) else m k

/-- Remove a key. -/
def remove (eq : κ → κ → Bool) (m : κ → Option α) (k : κ) : κ → Option α :=
  fun q => if eq k q = true then none else m q

/-- Keep the elements that satisfy `f`. -/
def keep (f : α → Bool) (m : κ → Option α) : κ → Option α := fun k => (m k).filter f

section
variable {key : α → κ} {eq : κ → κ → Bool} {xs ys : List α}

theorem Distinct.unique (h : Distinct key eq xs) (he : Equiv eq) {a b : α} (ha : a ∈ xs) (hb : b ∈ xs)
    (hab : eq (key a) (key b) = true) : a = b := by
  obtain ⟨i, hi, rfl⟩ := List.mem_iff_getElem.mp ha
  obtain ⟨j, hj, rfl⟩ := List.mem_iff_getElem.mp hb
  have := List.pairwise_iff_getElem.mp h
  rcases Nat.lt_trichotomy i j with hl | rfl | hl
  · rw [this i j hi hj hl] at hab; cases hab
  · rfl
  · have := this j i hj hi hl
    rw [he.symm hab] at this; cases this

theorem get_iff (h : Distinct key eq xs) (he : Equiv eq) {k : κ} {x : α} :
    get key eq xs k = some x ↔ x ∈ xs ∧ eq (key x) k = true := by
  unfold get
  constructor
  · intro hf
    exact ⟨List.mem_of_find?_eq_some hf, by simpa using List.find?_some hf⟩
  · rintro ⟨h1, h2⟩
    cases hf : xs.find? (fun x => eq (key x) k) with
    | none => rw [List.find?_eq_none] at hf; exact absurd h2 (hf x h1)
    | some y =>
      have e1 := List.mem_of_find?_eq_some hf
      have e2 : eq (key y) k = true := by simpa using List.find?_some hf
      rw [h.unique he e1 h1 (he.trans e2 (he.symm h2))]

/-- Equality of finite maps from membership. -/
theorem get_ext (h : Distinct key eq xs) (he : Equiv eq) {m : κ → Option α}
    (hm : ∀ k x, m k = some x ↔ x ∈ xs ∧ eq (key x) k = true) : get key eq xs = m := by
  funext k
  apply Option.ext
  intro x
  rw [get_iff h he, hm]

theorem Distinct.perm (he : Equiv eq) (h : Distinct key eq xs) (hp : ys.Perm xs) : Distinct key eq ys := by
  have hs : ∀ {a b : α}, eq (key a) (key b) = false → eq (key b) (key a) = false := by
    intro a b hab
    cases hb : eq (key b) (key a)
    · rfl
    · rw [he.symm hb] at hab; cases hab
  exact (hp.pairwise_iff (R := fun a b => eq (key a) (key b) = false) hs).mpr h

theorem get_perm (he : Equiv eq) (h : Distinct key eq xs) (hp : ys.Perm xs) : get key eq ys = get key eq xs := by
  refine get_ext (h.perm he hp) he fun k x => ?_
  rw [get_iff h he, hp.mem_iff]

theorem get_cons (he : Equiv eq) {v : α} (hn : ∀ x ∈ xs, eq (key x) (key v) = false) :
    get key eq (v :: xs) = putNew key eq (get key eq xs) v := by
  funext k
  unfold get putNew
  rw [List.find?_cons]
  by_cases hv : eq (key v) k = true
  · simp only [hv, if_true]
    have : xs.find? (fun x => eq (key x) k) = none := by
      rw [List.find?_eq_none]
      intro x hx hk
      have := he.trans hk (he.symm hv)
      rw [hn x hx] at this; cases this
    simp [this]
  · simp [hv]

theorem putNew_present (he : Equiv eq) (h : Distinct key eq xs) {v x : α} (hx : x ∈ xs)
    (hv : eq (key x) (key v) = true) : putNew key eq (get key eq xs) v = get key eq xs := by
  funext k
  unfold putNew
  split
  · rename_i hk
    rw [(get_iff h he).mpr ⟨hx, he.trans hv hk⟩]
    rfl
  · rfl

theorem Distinct.cons (h : Distinct key eq xs) {v : α} (he : Equiv eq) (hn : ∀ x ∈ xs, eq (key x) (key v) = false) :
    Distinct key eq (v :: xs) := by
  refine List.Pairwise.cons (fun x hx => ?_) h
  cases hb : eq (key v) (key x)
  · rfl
  · have := hn x hx; rw [he.symm hb] at this; cases this

/-- Replacing an element by one with an equal key. -/
theorem Distinct.set (h : Distinct key eq xs) {i : Nat} {x y : α} (hi : xs[i]? = some x) (hk : key y = key x) :
    Distinct key eq (xs.set i y) := by
  have hkeys : (xs.set i y).map key = xs.map key := by
    rw [List.map_set, hk]
    apply List.ext_getElem? ; intro j
    rw [List.getElem?_set]
    split
    · rename_i hij; subst hij
      have hl := (List.getElem?_eq_some_iff.mp hi).1
      simp [hl]
      rw [(List.getElem?_eq_some_iff.mp hi).2]
    · rfl
  have : ((xs.set i y).map key).Pairwise (fun a b => eq a b = false) := by
    rw [hkeys]; exact List.pairwise_map.mpr h
  exact List.pairwise_map.mp this

theorem get_set (he : Equiv eq) (h : Distinct key eq xs) {upd : α → α → α} {i : Nat} {x v : α} (hi : xs[i]? = some x)
    (hk : key (upd x v) = key x) (hv : eq (key x) (key v) = true) :
    get key eq (xs.set i (upd x v)) = put key eq upd (get key eq xs) v := by
  have hx : x ∈ xs := List.mem_of_getElem? hi
  have hl := (List.getElem?_eq_some_iff.mp hi).1
  refine get_ext (h.set hi hk) he fun k y => ?_
  have hin : ∀ z, z ∈ xs.set i (upd x v) ↔ z = upd x v ∨ (z ∈ xs ∧ eq (key z) (key x) = false) := by
    intro z
    constructor
    · intro hz
      rcases List.mem_iff_getElem?.mp hz with ⟨j, hj⟩
      rw [List.getElem?_set] at hj
      split at hj
      · simp only [Option.some.injEq] at hj; exact Or.inl hj.symm
      · rename_i hij
        refine Or.inr ⟨List.mem_of_getElem? hj, ?_⟩
        cases hb : eq (key z) (key x)
        · rfl
        · obtain ⟨hj1, hj2⟩ := List.getElem?_eq_some_iff.mp hj
          obtain ⟨hi1, hi2⟩ := List.getElem?_eq_some_iff.mp hi
          have := List.pairwise_iff_getElem.mp h
          rcases Nat.lt_trichotomy i j with hlt | rfl | hlt
          · have := this i j hi1 hj1 hlt
            rw [hi2, hj2, he.symm hb] at this; cases this
          · exact absurd rfl hij
          · have := this j i hj1 hi1 hlt
            rw [hi2, hj2, hb] at this; cases this
    · rintro (rfl | ⟨hz, hzx⟩)
      · exact List.mem_set hl _
      · obtain ⟨j, hj⟩ := List.mem_iff_getElem?.mp hz
        have hij : i ≠ j := by
          rintro rfl
          rw [hi] at hj
          cases hj
          rw [he.refl] at hzx; cases hzx
        exact List.mem_iff_getElem?.mpr ⟨j, by rw [List.getElem?_set_ne hij]; exact hj⟩
  rw [hin]
  unfold put
  split
  · rename_i hvk
    rw [(get_iff h he).mpr ⟨hx, he.trans hv hvk⟩]
    simp only [Option.some.injEq]
    constructor
    · rintro rfl
      exact ⟨Or.inl rfl, by rw [hk]; exact he.trans hv hvk⟩
    · rintro ⟨rfl | ⟨h1, h2⟩, h3⟩
      · rfl
      · have := he.trans h3 (he.symm (he.trans hv hvk))
        rw [h2] at this; cases this
  · rename_i hvk
    rw [get_iff h he]
    constructor
    · rintro ⟨h1, h2⟩
      refine ⟨Or.inr ⟨h1, ?_⟩, h2⟩
      cases hb : eq (key y) (key x)
      · rfl
      · exact absurd (he.trans (he.trans (he.symm hv) (he.symm hb)) h2) hvk
    · rintro ⟨rfl | ⟨h1, h2⟩, h3⟩
      · rw [hk] at h3; exact absurd (he.trans (he.symm hv) h3) hvk
      · exact ⟨h1, h3⟩

theorem put_absent (he : Equiv eq) {upd : α → α → α} {v : α} (hn : ∀ x ∈ xs, eq (key x) (key v) = false) :
    put key eq upd (get key eq xs) v = putNew key eq (get key eq xs) v := by
  funext k
  unfold put putNew
  split
  · rename_i hk
    have : get key eq xs k = none := by
      unfold get
      rw [List.find?_eq_none]
      intro x hx hxk
      have := he.trans hxk (he.symm hk)
      rw [hn x hx] at this; cases this
    rw [this]; rfl
  · rfl

theorem get_filter (he : Equiv eq) (h : Distinct key eq xs) (f : α → Bool) :
    get key eq (xs.filter f) = keep f (get key eq xs) := by
  refine get_ext (h.sublist List.filter_sublist) he fun k x => ?_
  unfold keep
  rw [Option.filter_eq_some_iff, get_iff h he, List.mem_filter]
  constructor
  · rintro ⟨⟨h1, h2⟩, h3⟩; exact ⟨⟨h1, h3⟩, h2⟩
  · rintro ⟨⟨h1, h3⟩, h2⟩; exact ⟨⟨h1, h2⟩, h3⟩

theorem keep_remove (he : Equiv eq) (h : Distinct key eq xs) (k : κ) :
    keep (fun x => !eq (key x) k) (get key eq xs) = remove eq (get key eq xs) k := by
  funext q
  unfold keep remove
  cases hg : get key eq xs q with
  | none => simp
  | some x =>
    have hx := ((get_iff h he).mp hg).2
    by_cases hkq : eq k q = true
    · simp [hkq, he.trans hx (he.symm hkq)]
    · simp [hkq]
      cases hb : eq (key x) k
      · rfl
      · exact absurd (he.trans (he.symm hb) hx) hkq

theorem get_erase (he : Equiv eq) (h : Distinct key eq xs) {i : Nat} {x : α} (hi : xs[i]? = some x) :
    get key eq (xs.eraseIdx i) = remove eq (get key eq xs) (key x) := by
  have hx : x ∈ xs := List.mem_of_getElem? hi
  refine get_ext (h.sublist (List.eraseIdx_sublist ..)) he fun k y => ?_
  obtain ⟨hl, hi'⟩ := List.getElem?_eq_some_iff.mp hi
  have hin : y ∈ xs.eraseIdx i ↔ y ∈ xs ∧ eq (key x) (key y) = false := by
    have hp : xs.Perm (x :: xs.eraseIdx i) := by
      rw [List.eraseIdx_eq_take_drop_succ]
      conv => lhs; rw [← List.take_append_drop i xs, List.drop_eq_getElem_cons hl, hi']
      exact List.perm_middle
    have hd := h.perm he hp.symm
    have := (List.pairwise_cons.mp hd).1
    constructor
    · intro hy
      exact ⟨(List.eraseIdx_sublist ..).subset hy, this y hy⟩
    · rintro ⟨h1, h2⟩
      rcases List.mem_cons.mp (hp.mem_iff.mp h1) with rfl | h1
      · rw [he.refl] at h2; cases h2
      · exact h1
  unfold remove
  rw [hin]
  split
  · rename_i hk
    constructor
    · intro h; cases h
    · rintro ⟨⟨-, h1⟩, h2⟩
      rw [he.trans hk (he.symm h2)] at h1; cases h1
  · rename_i hk
    rw [get_iff h he]
    constructor
    · rintro ⟨h1, h2⟩
      refine ⟨⟨h1, ?_⟩, h2⟩
      cases hb : eq (key x) (key y)
      · rfl
      · exact absurd (he.trans hb h2) hk
    · rintro ⟨⟨h1, -⟩, h2⟩; exact ⟨h1, h2⟩

theorem get_cut (he : Equiv eq) (as bs cs : List α) (h : Distinct key eq (as ++ bs ++ cs)) :
    get key eq (as ++ cs) = bs.foldl (fun m x => remove eq m (key x)) (get key eq (as ++ bs ++ cs)) := by
  induction bs with
  | nil => simp
  | cons b bs ih =>
    have hi : (as ++ (b :: bs) ++ cs)[as.length]? = some b := by simp
    have := get_erase he h hi
    have he' : (as ++ (b :: bs) ++ cs).eraseIdx as.length = as ++ bs ++ cs := by
      rw [List.append_assoc, List.eraseIdx_append_of_length_le (Nat.le_refl _)]; simp
    rw [he'] at this
    rw [List.foldl_cons, ← this]
    refine ih ?_
    rw [← he']
    exact h.sublist (List.eraseIdx_sublist ..)

end

end Sfl.KMap

namespace Sfl
variable {α κ : Type}

/-- Equivalence of keys under the comparator. -/
def Order.eqv (C : Order α κ) (a b : κ) : Bool := !C.lt a b && !C.lt b a

/-- The finite map a flat map stands for. -/
def Order.get (C : Order α κ) (xs : List α) : κ → Option α := KMap.get C.key C.eqv xs

/-- What an operation of a flat map that holds the elements `xs` does to the finite map `m`, in terms of finite maps.
The elements are only used to tell which element a position or a reference argument means. -/
def Flat.Op.MapResult (C : Order α κ) (xs : List α) (m : κ → Option α) : Flat.Op α κ → (κ → Option α) → Prop
  | .insert s, m' => ∃ v, s.get? xs = some v ∧ m' = KMap.putNew C.key C.eqv m v
  | .insertHint _ s, m' => ∃ v, s.get? xs = some v ∧ m' = KMap.putNew C.key C.eqv m v
  | .emplace v, m' => m' = KMap.putNew C.key C.eqv m v
  | .emplaceHint _ v, m' => m' = KMap.putNew C.key C.eqv m v
  | .tryEmplace v, m' => m' = KMap.putNew C.key C.eqv m v
  | .tryEmplaceHint _ v, m' => m' = KMap.putNew C.key C.eqv m v
  | .insertOrAssign v, m' => m' = KMap.put C.key C.eqv C.upd m v
  | .insertOrAssignHint _ v, m' => m' = KMap.put C.key C.eqv C.upd m v
  | .insertRange vs, m' => m' = vs.foldl (KMap.putNew C.key C.eqv) m
  | .assignList vs, m' => m' = vs.foldl (KMap.putNew C.key C.eqv) (fun _ => none)
  | .eraseAt i, m' => ∃ x, xs[i]? = some x ∧ m' = KMap.remove C.eqv m (C.key x)
  | .eraseRange i j, m' => m' = ((xs.take j).drop i).foldl (fun m x => KMap.remove C.eqv m (C.key x)) m
  | .eraseKey k, m' => m' = KMap.remove C.eqv m k
  | .eraseIf f, m' => m' = KMap.keep (fun x => !f x) m
  | .clear, m' => m' = fun _ => none
  | .reserve _, m' => m' = m
  | .shrinkToFit, m' => m' = m

theorem Order.Lawful.equiv {C : Order α κ} (L : C.Lawful) : KMap.Equiv C.eqv where
  refl := fun a => by simp [Order.eqv, L.irrefl]
  symm := by intro a b; simp [Order.eqv]; intro h1 h2; exact ⟨h2, h1⟩
  trans := by
    intro a b c h1 h2
    simp only [Order.eqv, Bool.and_eq_true, Bool.not_eq_true'] at *
    exact ⟨L.le_trans h2.1 h1.1, L.le_trans h1.2 h2.2⟩

theorem Order.Sorted.distinct {C : Order α κ} {xs : List α} (h : C.Sorted false xs) : KMap.Distinct C.key C.eqv xs := by
  refine h.imp ?_
  intro a b hab
  simp at hab
  simp [Order.eqv, hab]

open KMap in
/-- Insertion in terms of finite maps. -/
theorem Flat.Inserted.map {C : Order α κ} (L : C.Lawful) {xs ys : List α} {v : α} {i : Nat} {new : Bool}
    (h : Inserted C false xs v i new ys) (hs : C.Sorted false xs) : C.get ys = putNew C.key C.eqv (C.get xs) v := by
  have he := L.equiv
  rcases h with ⟨rfl, h1, h2, rfl, h3⟩ | ⟨rfl, -, rfl, x, h1, h2⟩
  · have h1 : ∀ x ∈ xs, C.eqv (C.key x) (C.key v) = false := h1.resolve_left (by simp)
    have hp : (xs.take i ++ v :: xs.drop i).Perm (v :: xs) := by
      conv => rhs; rw [← List.take_append_drop i xs]
      exact List.perm_middle
    unfold Order.get
    rw [get_perm he (hs.distinct.cons he h1) hp, get_cons he h1]
  · exact (putNew_present he hs.distinct (List.mem_of_getElem? h1) h2).symm

open KMap in
theorem Flat.merge_map {C : Order α κ} (L : C.Lawful) (vs : List α) : ∀ xs : List α, Distinct C.key C.eqv xs →
    Distinct C.key C.eqv (merge C false xs vs) ∧
      C.get (merge C false xs vs) = vs.foldl (putNew C.key C.eqv) (C.get xs) := by
  have he := L.equiv
  induction vs with
  | nil => intro xs h; exact ⟨h, rfl⟩
  | cons v vs ih =>
    intro xs h
    unfold merge
    by_cases hn : xs.all (fun x => !C.same x v) = true
    · rw [if_pos (Or.inr hn)]
      have h1 : ∀ x ∈ xs, C.eqv (C.key x) (C.key v) = false := by
        intro x hx
        have := List.all_eq_true.mp hn x hx
        show C.same x v = false
        simpa using this
      have hd := (h.cons he h1).perm he (List.perm_append_singleton v xs)
      obtain ⟨k1, k2⟩ := ih _ hd
      refine ⟨k1, ?_⟩
      rw [k2, List.foldl_cons]
      congr 1
      unfold Order.get
      rw [get_perm he (h.cons he h1) (List.perm_append_singleton v xs), get_cons he h1]
    · rw [if_neg (by simpa using hn)]
      obtain ⟨k1, k2⟩ := ih _ h
      refine ⟨k1, ?_⟩
      rw [k2, List.foldl_cons]
      congr 1
      have : ∃ x, x ∈ xs ∧ C.eqv (C.key x) (C.key v) = true := by
        have hn : xs.all (fun x => !C.same x v) = false := by simpa using hn
        obtain ⟨x, hx, h2⟩ := List.all_eq_false.mp hn
        exact ⟨x, hx, show C.same x v = true by simpa using h2⟩
      obtain ⟨x, hx, h2⟩ := this
      exact (putNew_present he h hx h2).symm

open KMap in
/-- The specification of the flat maps on sequences implies the one on finite maps. -/
theorem Flat.Op.Result.map {C : Order α κ} (L : C.Lawful) {op : Flat.Op α κ} {xs ys : List α} {r : Ret}
    (hp : op.pre false xs.length = true) (hs : C.Sorted false xs) (h : op.Result C false xs r ys) :
    op.MapResult C xs (C.get xs) (C.get ys) := by
  have he := L.equiv
  have hasg : ∀ {v i new}, Assigned C xs v i new ys → C.get ys = put C.key C.eqv C.upd (C.get xs) v := by
    rintro v i new (⟨rfl, h⟩ | ⟨rfl, x, h1, h2, rfl⟩)
    · rw [h.map L hs]
      rcases h with ⟨-, h1, -⟩ | ⟨h, -⟩
      · exact (put_absent he (h1.resolve_left (by simp))).symm
      · cases h
    · exact get_set he hs.distinct h1 (L.upd _ _) h2
  cases op with
  | insert s => obtain ⟨v, i, new, h1, -, h⟩ := h; exact ⟨v, h1, h.map L hs⟩
  | insertHint _ s => obtain ⟨v, i, new, h1, -, h⟩ := h; exact ⟨v, h1, h.map L hs⟩
  | emplace v => obtain ⟨i, new, -, h⟩ := h; exact h.map L hs
  | emplaceHint _ v => obtain ⟨i, new, -, h⟩ := h; exact h.map L hs
  | tryEmplace v => obtain ⟨i, new, -, h⟩ := h; exact h.map L hs
  | tryEmplaceHint _ v => obtain ⟨i, new, -, h⟩ := h; exact h.map L hs
  | insertOrAssign v => obtain ⟨i, new, -, h⟩ := h; exact hasg h
  | insertOrAssignHint _ v => obtain ⟨i, new, -, h⟩ := h; exact hasg h
  | insertRange vs =>
    obtain ⟨-, -, h⟩ := h
    obtain ⟨k1, k2⟩ := merge_map L vs xs hs.distinct
    show C.get ys = _
    rw [← k2]
    exact get_perm he k1 h
  | assignList vs =>
    obtain ⟨-, -, h⟩ := h
    obtain ⟨k1, k2⟩ := merge_map L vs [] List.Pairwise.nil
    show C.get ys = _
    have : C.get ([] : List α) = fun _ => none := rfl
    rw [← this, ← k2]
    exact get_perm he k1 h
  | eraseAt k =>
    obtain ⟨-, rfl⟩ := h
    have hk : k < xs.length := by simpa [Op.pre, Op.uniqueOnly] using hp
    refine ⟨xs[k], by simp [hk], ?_⟩
    rw [← List.eraseIdx_eq_take_drop_succ]
    exact get_erase he hs.distinct (by simp [hk])
  | eraseRange k l =>
    obtain ⟨-, rfl⟩ := h
    have hkl : k ≤ l ∧ l ≤ xs.length := by simpa [Op.pre, Op.uniqueOnly] using hp
    have e : xs.take k ++ (xs.take l).drop k ++ xs.drop l = xs := by
      have : (xs.take l).take k = xs.take k := by rw [List.take_take, Nat.min_eq_left hkl.1]
      rw [← this, List.take_append_drop, List.take_append_drop]
    have := get_cut he (xs.take k) ((xs.take l).drop k) (xs.drop l) (by rw [e]; exact hs.distinct)
    rw [e] at this
    exact this
  | eraseKey k =>
    obtain ⟨-, rfl⟩ := h
    show C.get _ = _
    unfold Order.get
    rw [← keep_remove he hs.distinct]
    exact get_filter he hs.distinct _
  | eraseIf f => obtain ⟨-, rfl⟩ := h; exact get_filter he hs.distinct _
  | clear => obtain ⟨-, rfl⟩ := h; rfl
  | reserve n => obtain ⟨-, rfl⟩ := h; rfl
  | shrinkToFit => obtain ⟨-, rfl⟩ := h; rfl

/-- Insertion into a container with unique keys has only one possible result. -/
theorem Flat.Inserted.unique {C : Order α κ} (L : C.Lawful) {xs ys ys' : List α} {v : α} {i i' : Nat} {new new' : Bool}
    (hs : C.Sorted false xs) (h : Inserted C false xs v i new ys) (h' : Inserted C false xs v i' new' ys') :
    i = i' ∧ new = new' ∧ ys = ys' := by
  have he := L.equiv
  have key : ∀ {i i' : Nat} {ys : List α}, i < i' → i' ≤ xs.length → ys = xs.take i ++ v :: xs.drop i → C.Sorted false ys →
      C.Sorted false (xs.take i' ++ v :: xs.drop i') → False := by
    rintro i i' _ hlt hle rfl h1 h2
    have hi : i < xs.length := by omega
    have e1 : C.lt (C.key v) (C.key xs[i]) = true := by
      have := (List.pairwise_append.mp h1).2.1
      rw [List.drop_eq_getElem_cons hi] at this
      simpa using (List.pairwise_cons.mp this).1 xs[i] List.mem_cons_self
    have e2 : C.lt (C.key xs[i]) (C.key v) = true := by
      have := (List.pairwise_append.mp h2).2.2 xs[i] (by
        rw [List.mem_take_iff_getElem]; exact ⟨i, by omega, rfl⟩) v (by simp)
      simpa using this
    rw [L.asymm e1] at e2; cases e2
  rcases h with ⟨rfl, h1, h2, rfl, h3⟩ | ⟨rfl, -, rfl, x, h1, h2⟩ <;>
  rcases h' with ⟨rfl, k1, k2, rfl, k3⟩ | ⟨rfl, -, rfl, y, k1, k2⟩
  · have : i = i' := by
      rcases Nat.lt_trichotomy i i' with hl | hl | hl
      · exact (key hl k2 rfl h3 k3).elim
      · exact hl
      · exact (key hl h2 rfl k3 h3).elim
    subst this
    exact ⟨rfl, rfl, rfl⟩
  · have := h1.resolve_left (by simp) y (List.mem_of_getElem? k1)
    rw [k2] at this; cases this
  · have := k1.resolve_left (by simp) x (List.mem_of_getElem? h1)
    rw [h2] at this; cases this
  · refine ⟨?_, rfl, rfl⟩
    obtain ⟨a1, a2⟩ := List.getElem?_eq_some_iff.mp h1
    obtain ⟨b1, b2⟩ := List.getElem?_eq_some_iff.mp k1
    have hd := List.pairwise_iff_getElem.mp hs.distinct
    have hxy : C.eqv (C.key x) (C.key y) = true := he.trans h2 (he.symm k2)
    rcases Nat.lt_trichotomy i i' with hl | hl | hl
    · have := hd i i' a1 b1 hl
      rw [a2, b2, hxy] at this; cases this
    · exact hl
    · have := hd i' i b1 a1 hl
      rw [a2, b2, he.symm hxy] at this; cases this

end Sfl
