import Verif.UnordExec
import Verif.FlatLook
import Verif.Compare
/-
  Lookup in the unordered flat containers, and their comparison.
-/

namespace Sfl.Unord
open Sfl.Vector (VM)
open Flat (Ans toIndex wp_toIndex)
variable {α κ : Type}

/-! ### Lookup -/

/-- The lookup functions. `at` exists for maps. -/
inductive Query where
  | find | contains | count | at
  deriving DecidableEq

/-- The right answer for a key that elements satisfying `f` have, in a container holding `xs`: `find` gives the first
such element. -/
def Query.Answer (f : α → Bool) (xs : List α) : Query → Ans α → Prop
  | .find, a => ∃ k, a = .pos k ∧ k ≤ xs.length ∧ (∀ x ∈ xs.take k, f x = false) ∧ ∀ x, xs[k]? = some x → f x = true
  | .contains, a => a = .flag (xs.any f)
  | .count, a => a = .num (xs.countP f)
  | .at, a => ∃ x, a = .elem x ∧ x ∈ xs ∧ f x = true

/-- small_unordered_flat_map.hpp:1325-1376 `at` (static_unordered_flat_map.hpp:884-935). -/
def at' (U : KeyEq α κ) (E : Env α) (q : Sought α) : VM α α := do
  let it ← find U E q
  let v ← getObj
  if it = v.last then M.throw .outOfRange else lift (readAt it)

/-- The lookup functions (small_unordered_flat_set.hpp:1062-1146, small_unordered_flat_map.hpp:1233-1376,
small_unordered_flat_multiset.hpp:1062-1166, small_unordered_flat_multimap.hpp:1148-1252 and the same functions of the
static containers), dispatched on the query. -/
def query (multi : Bool) (U : KeyEq α κ) (E : Env α) (s : Sought α) : Query → VM α (Ans α)
  | .find => do
    let p ← find U E s
    let k ← toIndex p
    pure (.pos k)
  | .contains => do
    let b ← contains U E s
    pure (.flag b)
  | .count =>
    if multi = true then do
      let n ← countMulti U E s
      pure (.num n)
    else do
      let n ← countUnique U E s
      pure (.num n)
  | .at => do
    let x ← at' U E s
    pure (.elem x)

section
variable {E : Env α} {H : Heap α} {al ib N b cap : Nat} {o o' : Obj Vec α} {xs : List α} {U : KeyEq α κ} {multi : Bool}
  {f : α → Bool} {s : Sought α}

/-- Every lookup gives the right answer. -/
theorem query_spec (q : Query) (h : VSt H E ib N o al b cap xs) (hs : s.Means U o.m f)
    (hone : multi = false → q = .count → xs.countP f ≤ 1) :
    wp (query multi U E s q)
      (fun a o' => Looked o o' ∧ q.Answer f xs a)
      (fun e o' => Looked o o' ∧ (e = .outOfRange ∧ q = .at ∧ (∀ x ∈ xs, f x = false) ∨ e = .elem ∧ U.nothrow = false)) o := by
  have hX : ∀ e o', EqThrew U o e o' →
      Looked o o' ∧ (e = .outOfRange ∧ q = .at ∧ (∀ x ∈ xs, f x = false) ∨ e = .elem ∧ U.nothrow = false) :=
    fun e o' h => ⟨h.2.2, Or.inr ⟨h.2.1, h.1⟩⟩
  cases q with
  | find =>
    simp only [query, wp_bind]
    refine wp_mono (find_spec h hs) ?_ hX
    rintro _ o1 ⟨k, rfl, l1, hk⟩
    refine wp_toIndex (h.looked l1) ?_
    rw [wp_pure]
    exact ⟨l1, k, rfl, hk.le, hk.before, hk.at'⟩
  | contains =>
    simp only [query, wp_bind]
    refine wp_mono (contains_spec h hs) ?_ hX
    rintro r o1 ⟨l1, rfl⟩
    exact ⟨l1, rfl⟩
  | count =>
    simp only [query]
    cases multi
    · rw [if_neg (by simp), wp_bind]
      unfold countUnique
      rw [wp_bind]
      refine wp_mono (contains_spec h hs) ?_ hX
      rintro r o1 ⟨l1, rfl⟩
      rw [wp_pure, wp_pure]
      refine ⟨l1, ?_⟩
      show Ans.num _ = Ans.num _
      congr 1
      have := hone rfl rfl
      split
      · rename_i ha
        obtain ⟨x, hx, hh⟩ := List.any_eq_true.mp ha
        have : 0 < xs.countP f := List.countP_pos_iff.mpr ⟨x, hx, hh⟩
        omega
      · rename_i ha
        symm
        rw [List.countP_eq_zero]
        intro x hx hh
        exact ha (List.any_eq_true.mpr ⟨x, hx, hh⟩)
    · rw [if_pos rfl, wp_bind]
      refine wp_mono (countMulti_spec h hs) ?_ hX
      rintro r o1 ⟨l1, rfl⟩
      exact ⟨l1, rfl⟩
  | «at» =>
    unfold query at'
    rw [wp_bind, wp_bind]
    refine wp_mono (find_spec h hs) ?_ hX
    rintro _ o1 ⟨k, rfl, l1, hk⟩
    rw [wp_bind, wp_getObj, wp_ite, (h.looked l1).obj]
    by_cases he : k = xs.length
    · rw [if_pos (by simpa using he)]
      exact ⟨l1, Or.inl ⟨rfl, rfl, hk.none he⟩⟩
    · have hle := hk.le
      rw [if_neg (by simpa using he), wp_lift]
      refine wp_readAt (v := xs[k]) (by rw [(h.looked l1).cells]; simp) ?_
      rw [wp_pure]
      exact ⟨l1, xs[k], rfl, by simp, hk.at' _ (by simp)⟩

end

/-! ### Comparison: specification -/

/-- Two sequences have the same elements with the same multiplicities, in any order. -/
def SameBag (eq : α → α → Bool) (xs ys : List α) : Prop := ∃ zs, zs.Perm ys ∧ SeqEq eq xs zs

/-! ### Comparison: model -/

/-- `std::count_if(p, p + n, [&](e) { return e == x; })`, added to `c`. -/
def countIf (eq : α → α → Bool) (x : α) (p : Ptr) : Nat → Nat → M (St α) Nat
  | 0, c => pure c
  | n + 1, c => do
    let e ← readAt p
    countIf eq x (p.add 1) n (if eq e x = true then c + 1 else c)

/-- `std::find_if(p, p + n, [&](e) { return e == x; }) != p + n`. -/
def anyIf (eq : α → α → Bool) (x : α) (p : Ptr) : Nat → M (St α) Bool
  | 0 => pure false
  | n + 1 => do
    let e ← readAt p
    if eq e x = true then pure true else anyIf eq x (p.add 1) n

/-- The second loop of std::is_permutation over the elements that remain after the common prefix: `done` elements at
`p` have been looked at, `n` remain; the other range has `done + n` elements at `q`. -/
def permGo (eq : α → α → Bool) (p q : Ptr) (done : Nat) : Nat → M (St α) Bool
  | 0 => pure true
  | n + 1 => do
    let x ← readAt (p.add done)
    let seen ← anyIf eq x p done
    if seen = true then permGo eq p q (done + 1) n
    else do
      let matches' ← countIf eq x q (done + (n + 1)) 0
      let here ← countIf eq x (p.add done) (n + 1) 0
      if matches' = 0 ∨ here ≠ matches' then pure false
      else permGo eq p q (done + 1) n

/-- std::is_permutation(first1, last1, first2) with `n` elements, as in libstdc++ (bits/stl_algobase.h): skip the common
prefix, then compare the numbers of occurrences of every element. -/
def isPermutation (eq : α → α → Bool) (p q : Ptr) : Nat → M (St α) Bool
  | 0 => pure true
  | n + 1 => do
    let a ← readAt p
    let b ← readAt q
    if eq a b = true then isPermutation eq (p.add 1) (q.add 1) n else permGo eq p q 0 (n + 1)

/-- `operator==`: `x.size() == y.size() && std::is_permutation(x.begin(), x.end(), y.begin())`
(small_unordered_flat_set.hpp:1686-1695, small_unordered_flat_map.hpp:1972-1981, small_unordered_flat_multiset.hpp:1634-1643,
small_unordered_flat_multimap.hpp:1720-1729, static_unordered_flat_set.hpp:865-874, static_unordered_flat_map.hpp:1162-1171,
static_unordered_flat_multiset.hpp:799-808, static_unordered_flat_multimap.hpp:899-908). -/
def eqOp (eq : α → α → Bool) (x y : Vec) : M (St α) Bool := do
  let n ← distance x.first x.last
  let k ← distance y.first y.last
  if n = k then isPermutation eq x.first y.first n else pure false

/-- `operator!=` is `!(x == y)` (small_unordered_flat_set.hpp:1697-1706 and the same place in the other headers). -/
def neOp (eq : α → α → Bool) (x y : Vec) : M (St α) Bool := do
  let b ← eqOp eq x y
  pure (!b)

/-! ### Comparison: proofs -/

theorem seqEq_countP {eq : α → α → Bool} (he : KMap.Equiv eq) {xs ys : List α} (h : SeqEq eq xs ys) (a : α) :
    xs.countP (eq · a) = ys.countP (eq · a) := by
  induction xs generalizing ys with
  | nil =>
    cases ys with
    | nil => rfl
    | cons y ys => cases h.1
  | cons x xs ih =>
    cases ys with
    | nil => cases h.1
    | cons y ys =>
      rw [seqEq_cons] at h
      rw [List.countP_cons, List.countP_cons, ih h.2]
      have : eq x a = eq y a := by
        rw [Bool.eq_iff_iff]
        exact ⟨he.trans (he.symm h.1), he.trans h.1⟩
      rw [this]

theorem SameBag.length {eq : α → α → Bool} {xs ys : List α} (h : SameBag eq xs ys) : xs.length = ys.length := by
  obtain ⟨zs, h1, h2⟩ := h
  rw [h2.1, h1.length_eq]

theorem SameBag.countP {eq : α → α → Bool} (he : KMap.Equiv eq) {xs ys : List α} (h : SameBag eq xs ys) (a : α) :
    xs.countP (eq · a) = ys.countP (eq · a) := by
  obtain ⟨zs, h1, h2⟩ := h
  rw [seqEq_countP he h2, h1.countP_eq]

/-- It is enough to compare the numbers of occurrences of the elements of the first sequence. -/
theorem sameBag_of_counts {eq : α → α → Bool} (he : KMap.Equiv eq) {xs ys : List α} (hl : xs.length = ys.length)
    (h : ∀ a ∈ xs, xs.countP (eq · a) = ys.countP (eq · a)) : SameBag eq xs ys := by
  induction xs generalizing ys with
  | nil =>
    cases ys with
    | nil => exact ⟨[], .refl _, rfl, by simp⟩
    | cons => cases hl
  | cons x xs ih =>
    have h0 := h x List.mem_cons_self
    rw [List.countP_cons_of_pos (p := (eq · x)) (he.refl x)] at h0
    have hpos : 0 < ys.countP (eq · x) := by omega
    obtain ⟨y, hy, hyx⟩ := List.countP_pos_iff.mp hpos
    obtain ⟨as, bs, rfl⟩ := List.append_of_mem hy
    have hp : (as ++ y :: bs).Perm (y :: (as ++ bs)) := List.perm_middle
    obtain ⟨zs, k1, k2⟩ := ih (ys := as ++ bs) (by simp at hl ⊢; omega) (by
      intro a ha
      have := h a (List.mem_cons_of_mem _ ha)
      rw [hp.countP_eq, List.countP_cons, List.countP_cons] at this
      have e : eq x a = eq y a := by
        rw [Bool.eq_iff_iff]
        exact ⟨he.trans hyx, he.trans (he.symm hyx)⟩
      rw [e] at this
      omega)
    exact ⟨y :: zs, (k1.cons y).trans hp.symm, seqEq_cons.mpr ⟨he.symm hyx, k2⟩⟩

theorem sameBag_iff {eq : α → α → Bool} (he : KMap.Equiv eq) {xs ys : List α} :
    SameBag eq xs ys ↔ xs.length = ys.length ∧ ∀ a, xs.countP (eq · a) = ys.countP (eq · a) :=
  ⟨fun h => ⟨h.length, h.countP he⟩, fun h => sameBag_of_counts he h.1 fun a _ => h.2 a⟩

/-- If `==` is equality, `SameBag` is permutation. -/
theorem sameBag_perm {eq : α → α → Bool} (h : ∀ a b, eq a b = true ↔ a = b) {xs ys : List α} :
    SameBag eq xs ys ↔ xs.Perm ys := by
  have hs : ∀ {xs zs : List α}, SeqEq eq xs zs → xs = zs := by
    intro xs zs h'
    refine List.ext_getElem h'.1 fun i h1 h2 => ?_
    exact (h _ _).mp (h'.2 i _ _ (by simp) (by simp))
  constructor
  · rintro ⟨zs, h1, h2⟩
    rw [hs h2]; exact h1
  · intro hp
    refine ⟨xs, hp, rfl, fun i x y hx hy => ?_⟩
    rw [hx] at hy
    exact (h _ _).mpr (Option.some.inj hy)

theorem sameBag_cons {eq : α → α → Bool} (he : KMap.Equiv eq) {x y : α} {xs ys : List α} (hxy : eq x y = true) :
    SameBag eq (x :: xs) (y :: ys) ↔ SameBag eq xs ys := by
  rw [sameBag_iff he, sameBag_iff he]
  have e : ∀ a, eq x a = eq y a := by
    intro a
    rw [Bool.eq_iff_iff]
    exact ⟨he.trans (he.symm hxy), he.trans hxy⟩
  constructor
  · rintro ⟨h1, h2⟩
    refine ⟨by simpa using h1, fun a => ?_⟩
    have := h2 a
    rw [List.countP_cons, List.countP_cons, e] at this
    omega
  · rintro ⟨h1, h2⟩
    refine ⟨by simp [h1], fun a => ?_⟩
    rw [List.countP_cons, List.countP_cons, e, h2]

section
variable {eq : α → α → Bool} {s : St α} {X : Exn → St α → Prop}

/-- The `n` elements at `p` are `xs`. -/
def Cells (s : St α) (p : Ptr) (xs : List α) : Prop := ∀ i, i < xs.length → s.mem p.blk (p.off + i) = xs[i]?

theorem Cells.tail {p : Ptr} {x : α} {xs : List α} (h : Cells s p (x :: xs)) : Cells s (p.add 1) xs := by
  intro i hi
  have := h (i + 1) (by simpa using hi)
  simp only [List.getElem?_cons_succ] at this
  rw [← this]; simp only [Ptr.add_blk, Ptr.add_off]; congr 1; omega

theorem Cells.head {p : Ptr} {x : α} {xs : List α} (h : Cells s p (x :: xs)) : s.mem p.blk p.off = some x := by
  simpa using h 0 (by simp)

theorem Cells.right {p : Ptr} {xs ys : List α} (h : Cells s p (xs ++ ys)) : Cells s (p.add xs.length) ys := by
  intro i hi
  have := h (xs.length + i) (by simp; omega)
  rw [List.getElem?_append_right (by omega)] at this
  simp only [Nat.add_sub_cancel_left] at this
  rw [← this]; simp only [Ptr.add_blk, Ptr.add_off]; congr 1; omega

theorem Cells.left {p : Ptr} {xs ys : List α} (h : Cells s p (xs ++ ys)) : Cells s p xs := by
  intro i hi
  have := h i (by simp; omega)
  rwa [List.getElem?_append_left hi] at this

theorem wp_countIf {x : α} (xs : List α) : ∀ {p : Ptr} {c : Nat}, Cells s p xs →
    wp (countIf eq x p xs.length c) (fun r s' => r = c + xs.countP (eq · x) ∧ s' = s) X s := by
  induction xs with
  | nil => intro p c _; exact ⟨rfl, rfl⟩
  | cons a xs ih =>
    intro p c h
    simp only [List.length_cons]
    unfold countIf
    rw [wp_bind]
    refine wp_readAt (v := a) h.head ?_
    refine wp_mono (ih h.tail) ?_ (fun _ _ h => h)
    rintro r s' ⟨e1, e2⟩
    refine ⟨?_, e2⟩
    rw [e1, List.countP_cons]
    split <;> omega

theorem wp_anyIf {x : α} (xs : List α) : ∀ {p : Ptr}, Cells s p xs →
    wp (anyIf eq x p xs.length) (fun r s' => r = xs.any (eq · x) ∧ s' = s) X s := by
  induction xs with
  | nil => intro p _; exact ⟨rfl, rfl⟩
  | cons a xs ih =>
    intro p h
    simp only [List.length_cons]
    unfold anyIf
    rw [wp_bind]
    refine wp_readAt (v := a) h.head ?_
    rw [wp_ite]
    by_cases ha : eq a x = true
    · rw [if_pos ha, wp_pure]
      exact ⟨by simp [ha], by trivial⟩
    · rw [if_neg ha]
      refine wp_mono (ih h.tail) ?_ (fun _ _ h => h)
      rintro r s' ⟨e1, e2⟩
      exact ⟨by rw [e1]; simp [ha], e2⟩

theorem wp_permGo (he : KMap.Equiv eq) {ys : List α} {p q : Ptr} (bs : List α) : ∀ {as : List α}, Cells s p (as ++ bs) →
    Cells s q ys → (as ++ bs).length = ys.length →
    wp (permGo eq p q as.length bs.length)
      (fun r s' => (r = true ↔ ∀ a ∈ bs, as.any (eq · a) = false → (as ++ bs).countP (eq · a) = ys.countP (eq · a)) ∧ s' = s)
      X s := by
  induction bs with
  | nil => intro as _ _ _; exact ⟨by simp, rfl⟩
  | cons b bs ih =>
    intro as h1 h2 hl
    simp only [List.length_cons]
    unfold permGo
    rw [wp_bind]
    refine wp_readAt (v := b) h1.right.head ?_
    rw [wp_bind]
    refine wp_mono (wp_anyIf as h1.left) ?_ (fun _ _ h => h)
    rintro r s' ⟨rfl, rfl⟩
    have h1' : Cells s' p ((as ++ [b]) ++ bs) := by simpa using h1
    have hrec := ih (as := as ++ [b]) h1' h2 (by simpa using hl)
    simp only [List.length_append, List.length_singleton, List.append_assoc, List.singleton_append] at hrec
    -- the elements seen now are those seen before and `b`
    have hnext : ∀ P : α → Prop, (∀ a c, eq a c = true → (P a ↔ P c)) → (as.any (eq · b) = false → P b) →
        ((∀ a ∈ bs, (as ++ [b]).any (eq · a) = false → P a) ↔ ∀ a ∈ b :: bs, as.any (eq · a) = false → P a) := by
      intro P hP hb
      constructor
      · intro h a ha hn
        rcases List.mem_cons.mp ha with rfl | ha
        · exact hb hn
        · by_cases hab : eq b a = true
          · have : as.any (eq · b) = false := by
              rw [List.any_eq_false] at hn ⊢
              intro c hc hcb
              exact hn c hc (he.trans hcb hab)
            exact (hP _ _ hab).mp (hb this)
          · exact h a ha (by rw [List.any_append, hn]; simp [hab])
      · intro h a ha hn
        rw [List.any_append, Bool.or_eq_false_iff] at hn
        exact h a (List.mem_cons_of_mem _ ha) hn.1
    have hresp : ∀ a c, eq a c = true → ((as ++ b :: bs).countP (eq · a) = ys.countP (eq · a) ↔
        (as ++ b :: bs).countP (eq · c) = ys.countP (eq · c)) := by
      intro a c hac
      have : (fun x => eq x a) = fun x => eq x c := by
        funext x
        rw [Bool.eq_iff_iff]
        exact ⟨fun h => he.trans h hac, fun h => he.trans h (he.symm hac)⟩
      rw [this]
    simp only [wp_bind, wp_ite]
    by_cases hseen : as.any (eq · b) = true
    · rw [if_pos hseen]
      refine wp_mono hrec ?_ (fun _ _ h => h)
      rintro r s2 ⟨e1, e2⟩
      refine ⟨e1.trans (hnext _ hresp ?_), e2⟩
      rw [hseen]; intro h; cases h
    · rw [if_neg hseen]
      have hseen : as.any (eq · b) = false := by simpa using hseen
      rw [show as.length + (bs.length + 1) = ys.length by simpa using hl]
      refine wp_mono (wp_countIf ys h2) ?_ (fun _ _ h => h)
      rintro r s2 ⟨e1, rfl⟩
      have hcnt := wp_countIf (X := X) (eq := eq) (x := b) (c := 0) (b :: bs) h1.right
      rw [List.length_cons] at hcnt
      refine wp_mono hcnt ?_ (fun _ _ h => h)
      rintro r2 s3 ⟨e2, rfl⟩
      have hzero : as.countP (eq · b) = 0 := by
        rw [List.countP_eq_zero]
        exact List.any_eq_false.mp hseen
      have hall : (as ++ b :: bs).countP (eq · b) = r2 := by rw [List.countP_append, hzero, e2]
      have hge : 1 ≤ r2 := by rw [e2, List.countP_cons_of_pos (p := (eq · b)) (he.refl b)]; omega
      rw [Nat.zero_add] at e1
      by_cases hbad : r = 0 ∨ r2 ≠ r
      · rw [if_pos hbad, wp_pure]
        refine ⟨?_, by trivial⟩
        simp only [Bool.false_eq_true, false_iff]
        intro hc
        have := hc b List.mem_cons_self hseen
        rw [hall, ← e1] at this
        omega
      · rw [if_neg hbad]
        refine wp_mono hrec ?_ (fun _ _ h => h)
        rintro r s2 ⟨k1, k2⟩
        refine ⟨k1.trans (hnext _ hresp ?_), k2⟩
        intro _
        rw [hall, ← e1]; omega

theorem wp_isPermutation (he : KMap.Equiv eq) (xs : List α) : ∀ {ys : List α} {p q : Ptr}, Cells s p xs → Cells s q ys →
    xs.length = ys.length →
    wp (isPermutation eq p q xs.length) (fun r s' => (r = true ↔ SameBag eq xs ys) ∧ s' = s) X s := by
  induction xs with
  | nil =>
    intro ys p q _ _ hl
    cases ys with
    | nil => exact ⟨⟨fun _ => ⟨[], .refl _, rfl, by simp⟩, fun _ => rfl⟩, rfl⟩
    | cons => cases hl
  | cons x xs ih =>
    intro ys p q h1 h2 hl
    cases ys with
    | nil => cases hl
    | cons y ys =>
      simp only [List.length_cons]
      unfold isPermutation
      rw [wp_bind]
      refine wp_readAt (v := x) h1.head ?_
      rw [wp_bind]
      refine wp_readAt (v := y) h2.head ?_
      rw [wp_ite]
      by_cases hxy : eq x y = true
      · rw [if_pos hxy]
        refine wp_mono (ih h1.tail h2.tail (by simpa using hl)) ?_ (fun _ _ h => h)
        rintro r s' ⟨e1, e2⟩
        exact ⟨by rw [e1, sameBag_cons he hxy], e2⟩
      · rw [if_neg hxy]
        have := wp_permGo (X := X) he (x :: xs) (as := []) h1 h2 hl
        refine wp_mono this ?_ (fun _ _ h => h)
        rintro r s' ⟨e1, e2⟩
        refine ⟨e1.trans ⟨fun h => ?_, fun h a _ _ => h.countP he a⟩, e2⟩
        exact sameBag_of_counts he hl fun a ha => by simpa using h a ha (by simp)

theorem eqOp_spec (he : KMap.Equiv eq) {x y : Vec} {xs ys : List α} (hx : x.Holds s xs) (hy : y.Holds s ys) :
    wp (eqOp eq x y) (fun r s' => (r = true ↔ SameBag eq xs ys) ∧ s' = s) X s := by
  unfold eqOp
  rw [wp_bind]
  refine wp_distance hx.blk (by have := hx.off; omega) ?_
  rw [wp_bind]
  refine wp_distance hy.blk (by have := hy.off; omega) ?_
  rw [hx.off, hy.off, Nat.add_sub_cancel_left, Nat.add_sub_cancel_left, wp_ite]
  split
  · rename_i hl
    exact wp_isPermutation he xs hx.cells hy.cells hl
  · rename_i hl
    rw [wp_pure]
    exact ⟨by simp only [Bool.false_eq_true, false_iff]; exact fun h => hl h.length, by trivial⟩

theorem neOp_spec (he : KMap.Equiv eq) {x y : Vec} {xs ys : List α} (hx : x.Holds s xs) (hy : y.Holds s ys) :
    wp (neOp eq x y) (fun r s' => (r = true ↔ ¬ SameBag eq xs ys) ∧ s' = s) X s := by
  unfold neOp
  rw [wp_bind]
  refine wp_mono (eqOp_spec he hx hy) ?_ (fun _ _ h => h)
  rintro r s' ⟨h1, h2⟩
  rw [wp_pure]
  exact ⟨by rw [← h1]; cases r <;> simp, h2⟩

end
end Sfl.Unord
