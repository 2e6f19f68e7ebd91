import Verif.Vector
/-
  Comparison operators of the contiguous containers: std::equal and std::lexicographical_compare over memory.
  The comparison of two elements is a total function that does not throw.
-/

namespace Sfl
variable {α : Type}

/-! ### Specification -/

/-- Two sequences are equal: same length, corresponding elements are equal. -/
def SeqEq (eq : α → α → Bool) (xs ys : List α) : Prop :=
  xs.length = ys.length ∧ ∀ (i : Nat) x y, xs[i]? = some x → ys[i]? = some y → eq x y = true

/-- Lexicographic order: after `k` pairs of equivalent elements, the first sequence ends before the second, or its
next element is smaller. -/
def LexLt (lt : α → α → Bool) (xs ys : List α) : Prop :=
  ∃ k, (∀ i, i < k → ∃ x y, xs[i]? = some x ∧ ys[i]? = some y ∧ lt x y = false ∧ lt y x = false) ∧
    ((xs.length = k ∧ k < ys.length) ∨ ∃ x y, xs[k]? = some x ∧ ys[k]? = some y ∧ lt x y = true)

/-- Strict weak order. -/
structure StrictWeak {β : Type} (R : β → β → Prop) : Prop where
  irrefl : ∀ a, ¬ R a a
  trans : ∀ a b c, R a b → R b c → R a c
  incomp : ∀ a b c, ¬ R a b → ¬ R b a → ¬ R b c → ¬ R c b → ¬ R a c ∧ ¬ R c a

/-- The six comparison operators. -/
inductive Cmp where
  | eq | ne | lt | gt | le | ge
  deriving DecidableEq, Repr

/-- What each operator means. -/
def Cmp.Holds (eq lt : α → α → Bool) (xs ys : List α) : Cmp → Prop
  | .eq => SeqEq eq xs ys
  | .ne => ¬ SeqEq eq xs ys
  | .lt => LexLt lt xs ys
  | .gt => LexLt lt ys xs
  | .le => ¬ LexLt lt ys xs
  | .ge => ¬ LexLt lt xs ys

/-! ### Model -/

/-- Loop of std::equal(first1, last1, first2), `n` elements left. -/
def equalGo (eq : α → α → Bool) (p q : Ptr) : Nat → M (St α) Bool
  | 0 => pure true
  | n + 1 => do
    let a ← readAt p
    let b ← readAt q
    if eq a b = true then equalGo eq (p.add 1) (q.add 1) n else pure false

/-- Loop of std::lexicographical_compare, `n` and `k` elements left. -/
def lexGo (lt : α → α → Bool) (p q : Ptr) : Nat → Nat → M (St α) Bool
  | 0, k => pure (decide (k ≠ 0))
  | _ + 1, 0 => pure false
  | n + 1, k + 1 => do
    let a ← readAt p
    let b ← readAt q
    if lt a b = true then pure true
    else if lt b a = true then pure false
    else lexGo lt (p.add 1) (q.add 1) n k

/-- vector.hpp:1984-1993, small_vector.hpp:2442-2451 `operator==` (static_vector.hpp:1023-1032, small_flat_set.hpp:1801-1810,
small_flat_map.hpp:2105-2114, small_flat_multiset.hpp:1770-1779, small_flat_multimap.hpp:1843-1852,
static_flat_set.hpp:968-977, static_flat_map.hpp:1285-1294, static_flat_multiset.hpp:935-944,
static_flat_multimap.hpp:1011-1020). -/
def Vec.eqOp (eq : α → α → Bool) (x y : Vec) : M (St α) Bool := do
  let n ← distance x.first x.last
  let k ← distance y.first y.last
  if n = k then equalGo eq x.first y.first n else pure false

/-- vector.hpp:2006-2015, small_vector.hpp:2464-2473 `operator<` (static_vector.hpp:1045-1054, small_flat_set.hpp:1823-1832,
small_flat_map.hpp:2127-2136, small_flat_multiset.hpp:1792-1801, small_flat_multimap.hpp:1865-1874,
static_flat_set.hpp:990-999, static_flat_map.hpp:1307-1316, static_flat_multiset.hpp:957-966,
static_flat_multimap.hpp:1033-1042). -/
def Vec.ltOp (lt : α → α → Bool) (x y : Vec) : M (St α) Bool := do
  let n ← distance x.first x.last
  let k ← distance y.first y.last
  lexGo lt x.first y.first n k

/-- vector.hpp:1984-2048, small_vector.hpp:2442-2506: all comparison operators (static_vector.hpp:1023-1086 and the end of
the eight headers of the ordered flat containers: `!=`, `>`, `<=`, `>=` are defined by `==` and `<`). -/
def Vec.compare (eq lt : α → α → Bool) (x y : Vec) : Cmp → M (St α) Bool
  | .eq => Vec.eqOp eq x y
  | .ne => do
    let b ← Vec.eqOp eq x y
    pure (!b)
  | .lt => Vec.ltOp lt x y
  | .gt => Vec.ltOp lt y x
  | .le => do
    let b ← Vec.ltOp lt y x
    pure (!b)
  | .ge => do
    let b ← Vec.ltOp lt x y
    pure (!b)

/-! ### Proofs -/

variable {X : Exn → St α → Prop}

theorem seqEq_cons {eq : α → α → Bool} {x y : α} {xs ys : List α} :
    SeqEq eq (x :: xs) (y :: ys) ↔ eq x y = true ∧ SeqEq eq xs ys := by
  constructor
  · rintro ⟨h1, h2⟩
    exact ⟨h2 0 x y rfl rfl, by simpa using h1, fun i a b ha hb => h2 (i + 1) a b (by simpa using ha) (by simpa using hb)⟩
  · rintro ⟨h0, h1, h2⟩
    refine ⟨by simp [h1], fun i a b ha hb => ?_⟩
    cases i with
    | zero => simp at ha hb; subst ha hb; exact h0
    | succ i => exact h2 i a b (by simpa using ha) (by simpa using hb)

theorem lexLt_nil_left {lt : α → α → Bool} {ys : List α} : LexLt lt [] ys ↔ ys ≠ [] := by
  constructor
  · rintro ⟨k, h1, ⟨_, h⟩ | ⟨x, y, h, _⟩⟩ e
    · subst e; simp at h
    · simp at h
  · intro h
    exact ⟨0, by simp, Or.inl ⟨rfl, List.length_pos_iff.mpr h⟩⟩

theorem lexLt_nil_right {lt : α → α → Bool} {xs : List α} : ¬ LexLt lt xs [] := by
  rintro ⟨k, h1, ⟨_, h⟩ | ⟨x, y, _, h, _⟩⟩ <;> simp at h

theorem lexLt_cons {lt : α → α → Bool} {x y : α} {xs ys : List α} :
    LexLt lt (x :: xs) (y :: ys) ↔ lt x y = true ∨ (lt x y = false ∧ lt y x = false ∧ LexLt lt xs ys) := by
  constructor
  · rintro ⟨k, h1, h2⟩
    cases k with
    | zero =>
      rcases h2 with ⟨h, _⟩ | ⟨a, b, ha, hb, h⟩
      · simp at h
      · simp at ha hb; subst ha hb; exact Or.inl h
    | succ k =>
      obtain ⟨a, b, ha, hb, e1, e2⟩ := h1 0 (by omega)
      simp at ha hb; subst ha hb
      refine Or.inr ⟨e1, e2, k, fun i hi => ?_, ?_⟩
      · simpa using h1 (i + 1) (by omega)
      · simpa using h2
  · rintro (h | ⟨h1, h2, k, h3, h4⟩)
    · exact ⟨0, by simp, Or.inr ⟨x, y, rfl, rfl, h⟩⟩
    · refine ⟨k + 1, fun i hi => ?_, by simpa using h4⟩
      cases i with
      | zero => exact ⟨x, y, rfl, rfl, h1, h2⟩
      | succ i => simpa using h3 i (by omega)

theorem wp_equalGo {eq : α → α → Bool} {xs ys : List α} {p q : Ptr} {s : St α} (he : xs.length = ys.length)
    (h1 : ∀ i, i < xs.length → s.mem p.blk (p.off + i) = xs[i]?)
    (h2 : ∀ i, i < ys.length → s.mem q.blk (q.off + i) = ys[i]?) :
    wp (equalGo eq p q xs.length) (fun r s' => (r = true ↔ SeqEq eq xs ys) ∧ s' = s) X s := by
  induction xs generalizing ys p q with
  | nil =>
    cases ys with
    | nil => exact ⟨⟨fun _ => ⟨rfl, by simp⟩, fun _ => rfl⟩, rfl⟩
    | cons y ys => simp at he
  | cons x xs ih =>
    cases ys with
    | nil => simp at he
    | cons y ys =>
      simp only [List.length_cons]
      unfold equalGo
      rw [wp_bind]
      refine wp_readAt (v := x) (by simpa using h1 0 (by simp)) ?_
      rw [wp_bind]
      refine wp_readAt (v := y) (by simpa using h2 0 (by simp)) ?_
      rw [wp_ite]
      by_cases hxy : eq x y = true
      · rw [if_pos hxy]
        have := ih (ys := ys) (p := p.add 1) (q := q.add 1) (by simpa using he)
          (fun i hi => by
            have := h1 (i + 1) (by simpa using hi)
            simp only [List.getElem?_cons_succ] at this
            rw [← this]; simp only [Ptr.add_blk, Ptr.add_off]; congr 1; omega)
          (fun i hi => by
            have := h2 (i + 1) (by simpa using hi)
            simp only [List.getElem?_cons_succ] at this
            rw [← this]; simp only [Ptr.add_blk, Ptr.add_off]; congr 1; omega)
        refine wp_mono this ?_ (fun _ _ h => h)
        rintro r s' ⟨e1, e2⟩
        exact ⟨by rw [e1, seqEq_cons]; simp [hxy], e2⟩
      · rw [if_neg hxy, wp_pure]
        exact ⟨by rw [seqEq_cons]; simp [hxy], rfl⟩

theorem wp_lexGo {lt : α → α → Bool} {xs ys : List α} {p q : Ptr} {s : St α}
    (h1 : ∀ i, i < xs.length → s.mem p.blk (p.off + i) = xs[i]?)
    (h2 : ∀ i, i < ys.length → s.mem q.blk (q.off + i) = ys[i]?) :
    wp (lexGo lt p q xs.length ys.length) (fun r s' => (r = true ↔ LexLt lt xs ys) ∧ s' = s) X s := by
  induction xs generalizing ys p q with
  | nil =>
    unfold lexGo
    rw [List.length_nil, wp_pure]
    refine ⟨?_, rfl⟩
    rw [lexLt_nil_left]
    cases ys <;> simp
  | cons x xs ih =>
    cases ys with
    | nil =>
      unfold lexGo
      simp only [List.length_nil, List.length_cons]
      rw [wp_pure]
      exact ⟨by simp [lexLt_nil_right], rfl⟩
    | cons y ys =>
      simp only [List.length_cons]
      unfold lexGo
      rw [wp_bind]
      refine wp_readAt (v := x) (by simpa using h1 0 (by simp)) ?_
      rw [wp_bind]
      refine wp_readAt (v := y) (by simpa using h2 0 (by simp)) ?_
      simp only [wp_ite, wp_pure]
      by_cases hxy : lt x y = true
      · rw [if_pos hxy]
        exact ⟨by rw [lexLt_cons]; simp [hxy], by trivial⟩
      · rw [if_neg hxy]
        by_cases hyx : lt y x = true
        · rw [if_pos hyx]
          exact ⟨by rw [lexLt_cons]; simp [hxy, hyx], by trivial⟩
        · rw [if_neg hyx]
          have := ih (ys := ys) (p := p.add 1) (q := q.add 1)
            (fun i hi => by
              have := h1 (i + 1) (by simpa using hi)
              simp only [List.getElem?_cons_succ] at this
              rw [← this]; simp only [Ptr.add_blk, Ptr.add_off]; congr 1; omega)
            (fun i hi => by
              have := h2 (i + 1) (by simpa using hi)
              simp only [List.getElem?_cons_succ] at this
              rw [← this]; simp only [Ptr.add_blk, Ptr.add_off]; congr 1; omega)
          refine wp_mono this ?_ (fun _ _ h => h)
          rintro r s' ⟨e1, e2⟩
          exact ⟨by rw [e1, lexLt_cons]; simp [hxy, hyx], e2⟩

/-- The data members `v` designate the elements `xs` in `s`. -/
structure Vec.Holds (s : St α) (v : Vec) (xs : List α) : Prop where
  blk : v.first.blk = v.last.blk
  off : v.last.off = v.first.off + xs.length
  cells : ∀ i, i < xs.length → s.mem v.first.blk (v.first.off + i) = xs[i]?

theorem compare_spec {eq lt : α → α → Bool} {v w : Vec} {xs ys : List α} {s : St α} (hv : v.Holds s xs)
    (hw : w.Holds s ys) (c : Cmp) :
    wp (Vec.compare eq lt v w c) (fun r s' => (r = true ↔ c.Holds eq lt xs ys) ∧ s' = s) X s := by
  have hEq : wp (Vec.eqOp eq v w) (fun r s' => (r = true ↔ SeqEq eq xs ys) ∧ s' = s) X s := by
    unfold Vec.eqOp
    rw [wp_bind]
    refine wp_distance hv.blk (by have := hv.off; omega) ?_
    rw [wp_bind]
    refine wp_distance hw.blk (by have := hw.off; omega) ?_
    rw [hv.off, hw.off, Nat.add_sub_cancel_left, Nat.add_sub_cancel_left, wp_ite]
    split
    · rename_i he
      exact wp_equalGo he hv.cells hw.cells
    · rename_i he
      rw [wp_pure]
      exact ⟨by simp [SeqEq, he], rfl⟩
  have hLt : ∀ {v w : Vec} {xs ys : List α}, v.Holds s xs → w.Holds s ys →
      wp (Vec.ltOp lt v w) (fun r s' => (r = true ↔ LexLt lt xs ys) ∧ s' = s) X s := by
    intro v w xs ys hv hw
    unfold Vec.ltOp
    rw [wp_bind]
    refine wp_distance hv.blk (by have := hv.off; omega) ?_
    rw [wp_bind]
    refine wp_distance hw.blk (by have := hw.off; omega) ?_
    rw [hv.off, hw.off, Nat.add_sub_cancel_left, Nat.add_sub_cancel_left]
    exact wp_lexGo hv.cells hw.cells
  have neg : ∀ {p : M (St α) Bool} {P : Prop}, wp p (fun r s' => (r = true ↔ P) ∧ s' = s) X s →
      wp (do let b ← p; pure (!b)) (fun r s' => (r = true ↔ ¬ P) ∧ s' = s) X s := by
    intro p P h
    rw [wp_bind]
    refine wp_mono h ?_ (fun _ _ h => h)
    rintro r s' ⟨e1, e2⟩
    rw [wp_pure]
    exact ⟨by rw [← e1]; cases r <;> simp, e2⟩
  cases c with
  | eq => exact hEq
  | ne => exact neg hEq
  | lt => exact hLt hv hw
  | gt => exact hLt hw hv
  | le => exact neg (hLt hw hv)
  | ge => exact neg (hLt hv hw)

/-- The order on sequences is a strict weak order if the order on elements is. -/
theorem lexLt_strictWeak {lt : α → α → Bool} (h : StrictWeak (fun a b => lt a b = true)) : StrictWeak (LexLt lt) where
  irrefl := by
    intro xs
    induction xs with
    | nil => exact lexLt_nil_right
    | cons x xs ih =>
      rw [lexLt_cons]
      rintro (h0 | ⟨_, _, h0⟩)
      · exact h.irrefl x h0
      · exact ih h0
  trans := by
    intro xs
    induction xs with
    | nil =>
      intro ys zs h1 h2
      cases zs with
      | nil => exact absurd h2 lexLt_nil_right
      | cons z zs => rw [lexLt_nil_left]; simp
    | cons x xs ih =>
      intro ys zs h1 h2
      cases ys with
      | nil => exact absurd h1 lexLt_nil_right
      | cons y ys =>
        cases zs with
        | nil => exact absurd h2 lexLt_nil_right
        | cons z zs =>
          rw [lexLt_cons] at h1 h2 ⊢
          have t := h.trans x y z
          have i := h.incomp
          have nf : ∀ a b, lt a b = false ↔ ¬ lt a b = true := fun a b => by simp
          simp only [nf] at h1 h2 ⊢
          rcases h1 with h1 | ⟨a1, a2, a3⟩
          · rcases h2 with h2 | ⟨b1, b2, b3⟩
            · exact Or.inl (t h1 h2)
            · left
              by_cases hxz : lt x z = true
              · exact hxz
              · by_cases hzx : lt z x = true
                · have := h.trans z x y hzx h1
                  exact absurd this b2
                · exact absurd h1 (i x z y hxz hzx b2 b1).1
          · rcases h2 with h2 | ⟨b1, b2, b3⟩
            · left
              by_cases hxz : lt x z = true
              · exact hxz
              · by_cases hzx : lt z x = true
                · have := h.trans y z x h2 hzx
                  exact absurd this a2
                · exact absurd h2 (i y x z a2 a1 hxz hzx).1
            · have := i x y z a1 a2 b1 b2
              exact Or.inr ⟨this.1, this.2, ih ys zs a3 b3⟩
  incomp := by
    intro xs
    induction xs with
    | nil =>
      intro ys zs h1 h2 h3 h4
      have e : ys = [] := by
        cases ys with
        | nil => rfl
        | cons y ys => exact absurd (lexLt_nil_left.mpr (by simp)) h1
      subst e
      exact ⟨h3, h4⟩
    | cons x xs ih =>
      intro ys zs h1 h2 h3 h4
      cases ys with
      | nil => exact absurd (lexLt_nil_left.mpr (by simp)) h2
      | cons y ys =>
        cases zs with
        | nil => exact absurd (lexLt_nil_left.mpr (by simp)) h4
        | cons z zs =>
          rw [lexLt_cons] at h1 h2 h3 h4 ⊢
          rw [lexLt_cons]
          have nf : ∀ a b, lt a b = false ↔ ¬ lt a b = true := fun a b => by simp
          simp only [nf, not_or] at h1 h2 h3 h4 ⊢
          have hxz := h.incomp x y z h1.1 h2.1 h3.1 h4.1
          have r := ih ys zs (fun e => h1.2 ⟨h1.1, h2.1, e⟩) (fun e => h2.2 ⟨h2.1, h1.1, e⟩)
            (fun e => h3.2 ⟨h3.1, h4.1, e⟩) (fun e => h4.2 ⟨h4.1, h3.1, e⟩)
          exact ⟨⟨hxz.1, fun e => r.1 e.2.2⟩, ⟨hxz.2, fun e => r.2 e.2.2⟩⟩

end Sfl
