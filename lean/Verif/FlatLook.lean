import Verif.FlatExec
/-
  Lookup in the ordered flat containers.
-/

namespace Sfl.Flat
open Sfl.Vector (VM)
variable {α κ : Type}

/-- The lookup functions. `at` exists for maps. -/
inductive Query where
  | lowerBound | upperBound | equalRange | find | contains | count | at
  deriving DecidableEq

/-- Their results; iterators are given as indices. -/
inductive Ans (α : Type) where
  | pos (k : Nat)
  | range (k l : Nat)
  | flag (b : Bool)
  | num (n : Nat)
  | elem (x : α)
  deriving DecidableEq

/-- The right answer of a lookup for the key described by `P` in a container holding `xs`. -/
def Query.Answer (P : Probe α) (xs : List α) : Query → Ans α → Prop
  | .lowerBound, a => ∃ k, a = .pos k ∧ k ≤ xs.length ∧ ∀ (i : Nat) x, xs[i]? = some x → (P.below x = true ↔ i < k)
  | .upperBound, a => ∃ k, a = .pos k ∧ k ≤ xs.length ∧ ∀ (i : Nat) x, xs[i]? = some x → (P.above x = true ↔ k ≤ i)
  | .equalRange, a => ∃ k l, a = .range k l ∧ k ≤ l ∧ l ≤ xs.length ∧ ∀ (i : Nat) x, xs[i]? = some x →
      (P.below x = true ↔ i < k) ∧ (P.above x = true ↔ l ≤ i)
  | .find, a => (∃ k x, a = .pos k ∧ xs[k]? = some x ∧ P.hit x = true) ∨
      (a = .pos xs.length ∧ ∀ x ∈ xs, P.hit x = false)
  | .contains, a => a = .flag (xs.any P.hit)
  | .count, a => a = .num (xs.countP P.hit)
  | .at, a => ∃ x, a = .elem x ∧ x ∈ xs ∧ P.hit x = true

/-- `it - begin()`. -/
def toIndex (p : Ptr) : VM α Nat := do
  let v ← getObj
  distance v.first p

/-- The lookup functions (small_flat_set.hpp:1074-1240, small_flat_map.hpp:1230-1456, small_flat_multiset.hpp:1051-1220,
small_flat_multimap.hpp:1124-1293 and the same functions of the static containers), dispatched on the query. -/
def query (multi : Bool) (C : Order α κ) (E : Env α) (P : Probe α) : Query → VM α (Ans α)
  | .lowerBound => do
    let p ← lowerBound C E P
    let k ← toIndex p
    pure (.pos k)
  | .upperBound => do
    let p ← upperBound C E P
    let k ← toIndex p
    pure (.pos k)
  | .equalRange => do
    let r ← equalRange C E P
    let k ← toIndex r.1
    let l ← toIndex r.2
    pure (.range k l)
  | .find => do
    let p ← find C E P
    let k ← toIndex p
    pure (.pos k)
  | .contains => do
    let b ← contains C E P
    pure (.flag b)
  | .count =>
    if multi = true then do
      let n ← countMulti C E P
      pure (.num n)
    else do
      let b ← contains C E P
      pure (.num (if b = true then 1 else 0))
  | .at => do
    let x ← at' C E P
    pure (.elem x)

section
variable {E : Env α} {H : Heap α} {al ib N b cap : Nat} {o o' : Obj Vec α} {xs : List α} {C : Order α κ} {P : Probe α}
  {multi : Bool}

theorem wp_toIndex {k : Nat} {Q : Nat → Obj Vec α → Prop} {X : Exn → Obj Vec α → Prop}
    (h : VSt H E ib N o al b cap xs) (hQ : Q k o) : wp (toIndex ⟨b, k⟩) Q X o := by
  unfold toIndex
  rw [wp_bind, wp_getObj, h.obj]
  exact wp_distance rfl (by simp) (by simpa using hQ)

/-- What is left of a lookup that throws. -/
def LookThrew (C : Order α κ) (P : Probe α) (xs : List α) (q : Query) (o : Obj Vec α) (e : Exn) (o' : Obj Vec α) : Prop :=
  Looked o o' ∧ (e = .outOfRange ∧ q = .at ∧ (∀ x ∈ xs, P.hit x = false) ∨ e = .elem ∧ C.nothrow = false)

theorem CompThrew.look {q : Query} {e : Exn} (h : CompThrew C o e o') : LookThrew C P xs q o e o' :=
  ⟨h.2.2, Or.inr ⟨h.2.1, h.1⟩⟩

theorem find_answer (f : P.Fits xs) {k : Nat} (cut : Cut P.below xs k) :
    (absent P xs k = true ∧ ∀ x ∈ xs, P.hit x = false) ∨
    (absent P xs k = false ∧ ∃ x, xs[k]? = some x ∧ P.hit x = true) := by
  cases ha : absent P xs k
  · right
    refine ⟨rfl, ?_⟩
    unfold absent at ha
    cases hx : xs[k]? with
    | none => rw [hx] at ha; cases ha
    | some x =>
      rw [hx] at ha
      exact ⟨x, rfl, by simp [Probe.hit, cut.right x hx, ha]⟩
  · exact Or.inl ⟨rfl, fun x hx => hit_none f cut ha hx⟩

/-- Every lookup gives the right answer. -/
theorem query_spec (q : Query) (h : VSt H E ib N o al b cap xs) (f : P.Fits xs)
    (hone : multi = false → q = .count → xs.countP P.hit ≤ 1) :
    wp (query multi C E P q)
      (fun a o' => Looked o o' ∧ q.Answer P xs a ∧
        ((q = .lowerBound ∨ q = .upperBound) → ∀ m, xs.length < 2 ^ m → o'.m.tick ≤ o.m.tick + m) ∧
        ((q = .find ∨ q = .contains ∨ q = .at) → ∀ m, xs.length < 2 ^ m → o'.m.tick ≤ o.m.tick + m + 1))
      (LookThrew C P xs q o) o := by
  have hcontains : ∀ {Q : Bool → Obj Vec α → Prop} {X : Exn → Obj Vec α → Prop},
      (∀ o', Looked o o' → (∀ m, xs.length < 2 ^ m → o'.m.tick ≤ o.m.tick + m + 1) → Q (xs.any P.hit) o') →
      (∀ e o', CompThrew C o e o' → X e o') → wp (contains C E P) Q X o := by
    intro Q X hQ hX
    unfold contains
    rw [wp_bind]
    refine wp_mono (find_spec h) ?_ hX
    rintro _ o1 ⟨k, rfl, l1, cut, ht⟩
    rw [wp_bind, wp_getObj, wp_pure, (h.looked l1).obj]
    refine cast (congrArg (fun r => Q r o1) ?_) (hQ o1 l1 ht)
    rcases find_answer f cut with ⟨ha, hno⟩ | ⟨ha, x, hx, hhit⟩
    · rw [if_pos ha]
      simpa using hno
    · rw [if_neg (by simp [ha])]
      have hk : k < xs.length := (List.getElem?_eq_some_iff.mp hx).1
      have : xs.any P.hit = true := List.any_eq_true.mpr ⟨x, List.mem_of_getElem? hx, hhit⟩
      rw [this]
      symm
      simp only [decide_eq_true_eq]
      intro he
      have : k = xs.length := congrArg Ptr.off he
      omega
  cases q with
  | lowerBound =>
    simp only [query, wp_bind]
    refine wp_mono (lowerBound_spec h) ?_ (fun _ _ => CompThrew.look)
    rintro _ o1 ⟨k, rfl, l1, cut, ht⟩
    refine wp_toIndex (h.looked l1) ?_
    rw [wp_pure]
    exact ⟨l1, ⟨k, rfl, cut.le, fun i x hx => cut.all f.below hx⟩, fun _ => ht, by simp⟩
  | upperBound =>
    simp only [query, wp_bind]
    refine wp_mono (upperBound_spec h) ?_ (fun _ _ => CompThrew.look)
    rintro _ o1 ⟨k, rfl, l1, cut, ht⟩
    refine wp_toIndex (h.looked l1) ?_
    rw [wp_pure]
    refine ⟨l1, ⟨k, rfl, cut.le, fun i x hx => ?_⟩, fun _ => ht, by simp⟩
    have := cut.all f.above' hx
    rw [← Nat.not_lt, ← this]
    simp
  | equalRange =>
    simp only [query, wp_bind]
    refine wp_mono (equalRange_spec h f.both) ?_ (fun _ _ => CompThrew.look)
    rintro _ o1 ⟨k, l, rfl, l1, hkl, c1, c2⟩
    refine wp_toIndex (h.looked l1) ?_
    refine wp_toIndex (h.looked l1) ?_
    rw [wp_pure]
    refine ⟨l1, ⟨k, l, rfl, hkl, c2.le, fun i x hx => ⟨c1.all f.below hx, ?_⟩⟩, by simp, by simp⟩
    have := c2.all f.above' hx
    rw [← Nat.not_lt, ← this]
    simp
  | find =>
    simp only [query, wp_bind]
    refine wp_mono (find_spec h) ?_ (fun _ _ => CompThrew.look)
    rintro _ o1 ⟨k, rfl, l1, cut, ht⟩
    refine wp_toIndex (h.looked l1) ?_
    rw [wp_pure]
    refine ⟨l1, ?_, by simp, fun _ => ht⟩
    rcases find_answer f cut with ⟨ha, hno⟩ | ⟨ha, x, hx, hhit⟩
    · rw [if_pos ha]; exact Or.inr ⟨rfl, hno⟩
    · rw [if_neg (by simp [ha])]; exact Or.inl ⟨k, x, rfl, hx, hhit⟩
  | contains =>
    simp only [query, wp_bind]
    refine hcontains (fun o1 l1 ht => ?_) (fun _ _ => CompThrew.look)
    exact ⟨l1, rfl, by simp, fun _ => ht⟩
  | count =>
    simp only [query]
    cases multi
    · rw [if_neg (by simp), wp_bind]
      refine hcontains (fun o1 l1 ht => ?_) (fun _ _ => CompThrew.look)
      rw [wp_pure]
      refine ⟨l1, ?_, by simp, by simp⟩
      show Ans.num _ = Ans.num _
      congr 1
      have := hone rfl rfl
      split
      · rename_i ha
        obtain ⟨x, hx, hh⟩ := List.any_eq_true.mp ha
        have : 0 < xs.countP P.hit := List.countP_pos_iff.mpr ⟨x, hx, hh⟩
        omega
      · rename_i ha
        symm
        rw [List.countP_eq_zero]
        intro x hx hh
        exact ha (List.any_eq_true.mpr ⟨x, hx, hh⟩)
    · rw [if_pos rfl, wp_bind]
      unfold countMulti
      rw [wp_bind]
      refine wp_mono (equalRange_spec h f.both) ?_ (fun _ _ => CompThrew.look)
      rintro _ o1 ⟨k, l, rfl, l1, hkl, c1, c2⟩
      refine wp_distance rfl hkl ?_
      rw [wp_pure]
      refine ⟨l1, ?_, by simp, by simp⟩
      show Ans.num _ = Ans.num _
      congr 1
      exact (filter_range hkl c2.le (fun i x hx => hit_multi f c1 c2 hx)).2.symm
  | «at» =>
    simp only [query, at', wp_bind]
    refine wp_mono (find_spec h) ?_ (fun _ _ => CompThrew.look)
    rintro _ o1 ⟨k, rfl, l1, cut, ht⟩
    rw [wp_getObj, wp_ite, (h.looked l1).obj]
    rcases find_answer f cut with ⟨ha, hno⟩ | ⟨ha, x, hx, hhit⟩
    · rw [if_pos ha, if_pos rfl]
      exact ⟨l1, Or.inl ⟨rfl, rfl, hno⟩⟩
    · have hk : k < xs.length := (List.getElem?_eq_some_iff.mp hx).1
      rw [if_neg (c := absent P xs k = true) (by simp [ha]), if_neg (by simp; omega), wp_lift]
      refine wp_readAt (v := x) (by rw [(h.looked l1).cells]; exact hx) ?_
      rw [wp_pure]
      exact ⟨l1, ⟨x, rfl, List.mem_of_getElem? hx, hhit⟩, by simp, fun _ => ht⟩

/-- In a container with unique keys at most one element has a given key. -/
theorem countP_own (L : C.Lawful) (hs : C.Sorted false xs) (k : κ) : xs.countP (C.probe k).hit ≤ 1 := by
  unfold Order.Sorted at hs
  induction xs with
  | nil => simp
  | cons x xs ih =>
    rw [List.pairwise_cons] at hs
    rw [List.countP_cons]
    split
    · rename_i hx
      have : xs.countP (C.probe k).hit = 0 := by
        rw [List.countP_eq_zero]
        intro y hy hh
        have h1 := hs.1 y hy
        simp only [Bool.false_eq_true, if_false] at h1
        simp only [Probe.hit, Order.probe, Bool.and_eq_true, Bool.not_eq_true'] at hx hh
        have := L.lt_of_lt_of_le h1 hh.2
        rw [hx.1] at this; cases this
      omega
    · have := ih hs.2; omega

end
end Sfl.Flat
