import Verif.Compare
import Verif.SegDevSpec
import Verif.SegVecSpec
/-
  Comparison operators of the segmented containers: std::equal and std::lexicographical_compare over segmented iterators.
  The comparison of two elements is a total function that does not throw.
-/

namespace Sfl
variable {α : Type}

namespace Seg

/-- Loop of std::equal(first1, last1, first2), `n` elements left; the iterators belong to two containers. -/
def equalGo (N : Nat) (t t' : Table) (eq : α → α → Bool) : Nat → SIt → SIt → M (St α) Bool
  | 0, _, _ => pure true
  | n + 1, p, q => do
    let a ← readAt p.loc
    let b ← readAt q.loc
    if eq a b = true then do
      let p ← inc N t p
      let q ← inc N t' q
      equalGo N t t' eq n p q
    else pure false

/-- Loop of std::lexicographical_compare, `n` and `k` elements left. -/
def lexGo (N : Nat) (t t' : Table) (lt : α → α → Bool) : Nat → Nat → SIt → SIt → M (St α) Bool
  | 0, k, _, _ => pure (decide (k ≠ 0))
  | _ + 1, 0, _, _ => pure false
  | n + 1, k + 1, p, q => do
    let a ← readAt p.loc
    let b ← readAt q.loc
    if lt a b = true then pure true
    else if lt b a = true then pure false
    else do
      let p ← inc N t p
      let q ← inc N t' q
      lexGo N t t' lt n k p q

/-- A container as the comparison operators see it: its table, `begin()` and `end()`. -/
structure Bounds where
  tab : Table
  first : SIt
  last : SIt

/-- segmented_vector.hpp:1712-1719, segmented_devector.hpp:2493-2500 `operator==`. -/
def eqOp (N : Nat) (eq : α → α → Bool) (x y : Bounds) : M (St α) Bool := do
  let n ← dist N x.tab x.first x.last
  let k ← dist N y.tab y.first y.last
  if n = k then equalGo N x.tab y.tab eq n x.first y.first else pure false

/-- segmented_vector.hpp:1734-1741, segmented_devector.hpp:2515-2522 `operator<`. -/
def ltOp (N : Nat) (lt : α → α → Bool) (x y : Bounds) : M (St α) Bool := do
  let n ← dist N x.tab x.first x.last
  let k ← dist N y.tab y.first y.last
  lexGo N x.tab y.tab lt n k x.first y.first

/-- segmented_vector.hpp:1712-1774, segmented_devector.hpp:2493-2555: all comparison operators. -/
def compare (N : Nat) (eq lt : α → α → Bool) (x y : Bounds) : Cmp → M (St α) Bool
  | .eq => eqOp N eq x y
  | .ne => do
    let b ← eqOp N eq x y
    pure (!b)
  | .lt => ltOp N lt x y
  | .gt => ltOp N lt y x
  | .le => do
    let b ← ltOp N lt y x
    pure (!b)
  | .ge => do
    let b ← ltOp N lt x y
    pure (!b)

/-! ### Proofs -/

variable {X : Exn → St α → Prop}

/-- Iterating from `at' 0` one meets the elements `xs`. -/
structure Walk (N : Nat) (t : Table) (s : St α) (at' : Nat → SIt) (xs : List α) : Prop where
  inc : ∀ i, i < xs.length → Seg.inc N t (at' i) s = .ok (at' (i + 1)) s
  cell : ∀ i, i < xs.length → s.mem (at' i).loc.blk (at' i).loc.off = xs[i]?

theorem Walk.tail {N : Nat} {t : Table} {s : St α} {at' : Nat → SIt} {x : α} {xs : List α} (h : Walk N t s at' (x :: xs)) :
    Walk N t s (fun i => at' (i + 1)) xs where
  inc := fun i hi => h.inc (i + 1) (by simpa using hi)
  cell := fun i hi => by simpa using h.cell (i + 1) (by simpa using hi)

theorem wp_runs {β : Type} {m : M (St α) β} {b : β} {s : St α} {Q : β → St α → Prop} (h : m s = .ok b s) (hq : Q b s) :
    wp m Q X s := by
  unfold wp; rw [h]; exact hq

theorem wp_equalGo {N : Nat} {t t' : Table} {eq : α → α → Bool} {xs ys : List α} {p q : Nat → SIt} {s : St α}
    (he : xs.length = ys.length) (h1 : Walk N t s p xs) (h2 : Walk N t' s q ys) :
    wp (equalGo N t t' eq xs.length (p 0) (q 0)) (fun r s' => (r = true ↔ SeqEq eq xs ys) ∧ s' = s) X s := by
  induction xs generalizing ys p q with
  | nil =>
    cases ys with
    | nil => exact ⟨⟨fun _ => ⟨rfl, by simp⟩, fun _ => rfl⟩, rfl⟩
    | cons y ys => simp at he
  | cons x xs ih =>
    cases ys with
    | nil => simp at he
    | cons y ys =>
      simp only [List.length_cons]
      unfold equalGo
      rw [wp_bind]
      refine wp_readAt (v := x) (by simpa using h1.cell 0 (by simp)) ?_
      rw [wp_bind]
      refine wp_readAt (v := y) (by simpa using h2.cell 0 (by simp)) ?_
      rw [wp_ite]
      by_cases hxy : eq x y = true
      · rw [if_pos hxy, wp_bind]
        refine wp_runs (h1.inc 0 (by simp)) ?_
        rw [wp_bind]
        refine wp_runs (h2.inc 0 (by simp)) ?_
        refine wp_mono (ih (ys := ys) (by simpa using he) h1.tail h2.tail) ?_ (fun _ _ h => h)
        rintro r s' ⟨e1, e2⟩
        exact ⟨by rw [e1, seqEq_cons]; simp [hxy], e2⟩
      · rw [if_neg hxy, wp_pure]
        exact ⟨by rw [seqEq_cons]; simp [hxy], rfl⟩

theorem wp_lexGo {N : Nat} {t t' : Table} {lt : α → α → Bool} {xs ys : List α} {p q : Nat → SIt} {s : St α}
    (h1 : Walk N t s p xs) (h2 : Walk N t' s q ys) :
    wp (lexGo N t t' lt xs.length ys.length (p 0) (q 0)) (fun r s' => (r = true ↔ LexLt lt xs ys) ∧ s' = s) X s := by
  induction xs generalizing ys p q with
  | nil =>
    unfold lexGo
    rw [List.length_nil, wp_pure]
    refine ⟨?_, rfl⟩
    rw [lexLt_nil_left]
    cases ys <;> simp
  | cons x xs ih =>
    cases ys with
    | nil =>
      unfold lexGo
      simp only [List.length_nil, List.length_cons]
      rw [wp_pure]
      exact ⟨by simp [lexLt_nil_right], rfl⟩
    | cons y ys =>
      simp only [List.length_cons]
      unfold lexGo
      rw [wp_bind]
      refine wp_readAt (v := x) (by simpa using h1.cell 0 (by simp)) ?_
      rw [wp_bind]
      refine wp_readAt (v := y) (by simpa using h2.cell 0 (by simp)) ?_
      rw [wp_ite]
      by_cases hxy : lt x y = true
      · rw [if_pos hxy, wp_pure]
        exact ⟨by rw [lexLt_cons]; simp [hxy], by trivial⟩
      · rw [if_neg hxy, wp_ite]
        by_cases hyx : lt y x = true
        · rw [if_pos hyx, wp_pure]
          exact ⟨by rw [lexLt_cons]; simp [hxy, hyx], by trivial⟩
        · rw [if_neg hyx, wp_bind]
          refine wp_runs (h1.inc 0 (by simp)) ?_
          rw [wp_bind]
          refine wp_runs (h2.inc 0 (by simp)) ?_
          refine wp_mono (ih (ys := ys) h1.tail h2.tail) ?_ (fun _ _ h => h)
          rintro r s' ⟨e1, e2⟩
          exact ⟨by rw [e1, lexLt_cons]; simp [hxy, hyx], e2⟩

/-- `[begin(), end())` designates the elements `xs` in `s`. -/
def Bounds.Holds (N : Nat) (s : St α) (x : Bounds) (xs : List α) : Prop :=
  dist N x.tab x.first x.last s = .ok xs.length s ∧ ∃ p, x.first = p 0 ∧ Walk N x.tab s p xs

theorem compare_spec {N : Nat} {eq lt : α → α → Bool} {v w : Bounds} {xs ys : List α} {s : St α} (hv : v.Holds N s xs)
    (hw : w.Holds N s ys) (c : Cmp) :
    wp (compare N eq lt v w c) (fun r s' => (r = true ↔ c.Holds eq lt xs ys) ∧ s' = s) X s := by
  have hEq : wp (eqOp N eq v w) (fun r s' => (r = true ↔ SeqEq eq xs ys) ∧ s' = s) X s := by
    obtain ⟨d1, p, e1, k1⟩ := hv
    obtain ⟨d2, q, e2, k2⟩ := hw
    unfold eqOp
    rw [wp_bind]
    refine wp_runs d1 ?_
    rw [wp_bind]
    refine wp_runs d2 ?_
    rw [wp_ite]
    split
    · rename_i he
      rw [e1, e2]
      exact wp_equalGo he k1 k2
    · rename_i he
      rw [wp_pure]
      exact ⟨by simp [SeqEq, he], rfl⟩
  have hLt : ∀ {v w : Bounds} {xs ys : List α}, v.Holds N s xs → w.Holds N s ys →
      wp (ltOp N lt v w) (fun r s' => (r = true ↔ LexLt lt xs ys) ∧ s' = s) X s := by
    rintro v w xs ys ⟨d1, p, e1, k1⟩ ⟨d2, q, e2, k2⟩
    unfold ltOp
    rw [wp_bind]
    refine wp_runs d1 ?_
    rw [wp_bind]
    refine wp_runs d2 ?_
    rw [e1, e2]
    exact wp_lexGo k1 k2
  have neg : ∀ {p : M (St α) Bool} {P : Prop}, wp p (fun r s' => (r = true ↔ P) ∧ s' = s) X s →
      wp (do let b ← p; pure (!b)) (fun r s' => (r = true ↔ ¬ P) ∧ s' = s) X s := by
    intro p P h
    rw [wp_bind]
    refine wp_mono h ?_ (fun _ _ h => h)
    rintro r s' ⟨e1, e2⟩
    rw [wp_pure]
    exact ⟨by rw [← e1]; cases r <;> simp, e2⟩
  cases c with
  | eq => exact hEq
  | ne => exact neg hEq
  | lt => exact hLt hv hw
  | gt => exact hLt hw hv
  | le => exact neg (hLt hw hv)
  | ge => exact neg (hLt hv hw)

end Seg

/-- `begin()`, `end()` and the table of a segmented vector. -/
def SVec.bounds (v : SVec) : Seg.Bounds := ⟨v.tab, v.first, v.last⟩

/-- `begin()`, `end()` and the table of a segmented devector. -/
def SDVec.bounds (v : SDVec) : Seg.Bounds := ⟨v.tab, v.first, v.last⟩

theorem SegVec.GSt.bounds {N : Nat} {o : Obj SVec α} {al tcap : Nat} {V : View} {xs : List α} (h : SegVec.GSt N o al V tcap xs) :
    o.obj.bounds.Holds N o.m xs := by
  have hl := h.len
  obtain rfl := h.num
  refine ⟨?_, V.it, ?_, ⟨fun i hi => h.fit.inc (by omega) _, fun i hi => h.cells i (by have := V.size_le; omega)⟩⟩
  · rw [h.obj]
    exact h.fit.dist (Nat.zero_le xs.length) hl o.m
  · rw [h.obj]; rfl

theorem SegDev.DSt.bounds {H : Heap α} {N : Nat} {o : Obj SDVec α} {al tcap f : Nat} {V : View} {xs : List α}
    (h : SegDev.DSt H N o al V tcap f xs) : o.obj.bounds.Holds N o.m xs := by
  have hl := h.len
  obtain rfl := h.num
  refine ⟨?_, fun i => V.it (f + i), ?_, ⟨fun i hi => h.fit.inc (by omega) _, fun i hi => ?_⟩⟩
  · rw [h.obj]
    have := h.fit.dist (Nat.le_add_right f xs.length) hl o.m
    rw [Nat.add_sub_cancel_left] at this
    exact this
  · rw [h.obj]; rfl
  · have := h.cells (f + i)
    rw [if_pos (by omega), Nat.add_sub_cancel_left] at this
    rw [← this]
    exact (View.view_slot (by omega)).symm

end Sfl
