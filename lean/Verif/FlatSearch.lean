import Verif.SVImpl
import Verif.Compare
/-
  Searching in the ordered flat containers: std::lower_bound, std::upper_bound, std::equal_range as called at
  small_flat_set.hpp:1074-1155 (and the corresponding lines of the other seven ordered flat containers), and the
  member functions built on them. Nothing here changes the container.
-/

namespace Sfl
open Sfl.Vector (VM)
variable {α κ : Type}

/-- How an ordered flat container looks at its elements: the key of an element (the element itself for sets,
`value.first` for maps: small_flat_map.hpp:83-136 `ultra_compare`), the comparator on keys, whether the comparator
can throw, and the effect of `it->second = obj` on an element (maps only). The comparator has no side effects. -/
structure Order (α κ : Type) where
  key : α → κ
  lt : κ → κ → Bool
  nothrow : Bool
  upd : α → α → α

/-- What a search knows about the sought key `x`: `below e` is `comp(e, x)`, `above e` is `comp(x, e)`. Any type of
key is allowed (heterogeneous lookup). -/
structure Probe (α : Type) where
  below : α → Bool
  above : α → Bool

/-- Searching for a key of the container's own key type. -/
def Order.probe (C : Order α κ) (k : κ) : Probe α :=
  ⟨fun e => C.lt (C.key e) k, fun e => C.lt k (C.key e)⟩

/-- One call of the comparator, `data_.ref_to_comp()(…, …)` (small_flat_set.hpp:120-134), whose result is `r`. Each
call is counted, and may throw unless the comparator is known not to (`nt`). -/
def comp (E : Env α) (nt : Bool) (r : Bool) : M (St α) Bool := fun s =>
  if E.throws s.tick && !nt then .exn .elem s.bump else .ok r s.bump

/-- std::lower_bound(first, first + len, x, comp), `lo e` being `comp(e, x)` (called at small_flat_set.hpp:1074-1100).
`fuel` bounds the number of rounds; `len` is always enough. -/
def lowerBoundGo (E : Env α) (nt : Bool) (lo : α → Bool) : Nat → Ptr → Nat → M (St α) Ptr
  | 0, first, _ => pure first
  | fuel + 1, first, len => do
    if len = 0 then pure first
    else
      let half := len / 2
      let middle := first.add half
      let e ← readAt middle
      let r ← comp E nt (lo e)
      if r = true then lowerBoundGo E nt lo fuel (middle.add 1) (len - half - 1)
      else lowerBoundGo E nt lo fuel first half

/-- std::upper_bound(first, first + len, x, comp), `hi e` being `comp(x, e)` (called at small_flat_set.hpp:1102-1128). -/
def upperBoundGo (E : Env α) (nt : Bool) (hi : α → Bool) : Nat → Ptr → Nat → M (St α) Ptr
  | 0, first, _ => pure first
  | fuel + 1, first, len => do
    if len = 0 then pure first
    else
      let half := len / 2
      let middle := first.add half
      let e ← readAt middle
      let r ← comp E nt (hi e)
      if r = true then upperBoundGo E nt hi fuel first half
      else upperBoundGo E nt hi fuel (middle.add 1) (len - half - 1)

/-- std::equal_range(first, first + len, x, comp) (called at small_flat_set.hpp:1130-1156). -/
def equalRangeGo (E : Env α) (nt : Bool) (P : Probe α) : Nat → Ptr → Nat → M (St α) (Ptr × Ptr)
  | 0, first, _ => pure (first, first)
  | fuel + 1, first, len => do
    if len = 0 then pure (first, first)
    else
      let half := len / 2
      let middle := first.add half
      let e ← readAt middle
      let r ← comp E nt (P.below e)
      if r = true then equalRangeGo E nt P fuel (middle.add 1) (len - half - 1)
      else
        let r' ← comp E nt (P.above e)
        if r' = true then equalRangeGo E nt P fuel first half
        else
          let left ← lowerBoundGo E nt P.below half first half
          let right ← upperBoundGo E nt P.above (len - half - 1) (middle.add 1) (len - half - 1)
          pure (left, right)

namespace Flat

/-- small_flat_set.hpp:1074-1100 `lower_bound` (all overloads); likewise in the other ordered flat containers:
small_flat_map.hpp:1221, small_flat_multiset.hpp:1068, small_flat_multimap.hpp:1127, static_flat_set.hpp:630,
static_flat_map.hpp:801, static_flat_multiset.hpp:607, static_flat_multimap.hpp:666. -/
def lowerBound (C : Order α κ) (E : Env α) (P : Probe α) : VM α Ptr := do
  let v ← getObj
  let n ← distance v.first v.last
  lift (lowerBoundGo E C.nothrow P.below n v.first n)

/-- small_flat_set.hpp:1102-1128 `upper_bound`. -/
def upperBound (C : Order α κ) (E : Env α) (P : Probe α) : VM α Ptr := do
  let v ← getObj
  let n ← distance v.first v.last
  lift (upperBoundGo E C.nothrow P.above n v.first n)

/-- small_flat_set.hpp:1130-1156 `equal_range`. -/
def equalRange (C : Order α κ) (E : Env α) (P : Probe α) : VM α (Ptr × Ptr) := do
  let v ← getObj
  let n ← distance v.first v.last
  lift (equalRangeGo E C.nothrow P n v.first n)

/-- The condition `it == end() || comp(x, *it)` (small_flat_set.hpp:1582, 1607). -/
def missing (C : Order α κ) (E : Env α) (P : Probe α) (it : Ptr) : VM α Bool := do
  let v ← getObj
  if it = v.last then pure true
  else do
    let e ← lift (readAt it)
    lift (comp E C.nothrow (P.above e))

/-- small_flat_set.hpp:1158-1212 `find`. (The code tests `it != end() && comp(key, *it)` and then sets `it = end()`;
with `missing` the result is the same.) -/
def find (C : Order α κ) (E : Env α) (P : Probe α) : VM α Ptr := do
  let it ← lowerBound C E P
  let r ← missing C E P it
  let v ← getObj
  pure (if r = true then v.last else it)

/-- small_flat_set.hpp:1214-1240, `count` of the containers with unique keys, and `contains` of all containers. -/
def contains (C : Order α κ) (E : Env α) (P : Probe α) : VM α Bool := do
  let it ← find C E P
  let v ← getObj
  pure (decide (it ≠ v.last))

/-- small_flat_multiset.hpp:1205-1220 `count`. -/
def countMulti (C : Order α κ) (E : Env α) (P : Probe α) : VM α Nat := do
  let r ← equalRange C E P
  distance r.1 r.2

/-- small_flat_map.hpp:1404-1456 `at`: `it->second` is represented by the whole element. -/
def at' (C : Order α κ) (E : Env α) (P : Probe α) : VM α α := do
  let it ← find C E P
  let v ← getObj
  if it = v.last then M.throw .outOfRange else lift (readAt it)

end Flat

/-! ### Specifications -/

/-- Nothing but the operation counter has changed. -/
structure Quiet (s s' : St α) : Prop where
  mem : s'.mem = s.mem
  blk : s'.blk = s.blk
  next : s'.next = s.next

theorem Quiet.refl (s : St α) : Quiet s s := ⟨rfl, rfl, rfl⟩
theorem Quiet.trans {s t u : St α} (h : Quiet s t) (h' : Quiet t u) : Quiet s u :=
  ⟨h'.mem.trans h.mem, h'.blk.trans h.blk, h'.next.trans h.next⟩

variable {E : Env α} {nt : Bool} {s : St α} {X : Exn → St α → Prop}

theorem wp_comp {r : Bool} {Q : Bool → St α → Prop}
    (hQ : ∀ s', Quiet s s' → s'.tick = s.tick + 1 → Q r s')
    (hX : nt = false → ∀ s', Quiet s s' → X .elem s') : wp (comp E nt r) Q X s := by
  unfold wp comp
  by_cases h : E.throws s.tick && !nt
  · simp only [h]
    exact hX (by simp at h; exact h.2) _ ⟨rfl, rfl, rfl⟩
  · simp only [h]
    exact hQ _ ⟨rfl, rfl, rfl⟩ rfl

/-- Position `k` in `xs` separates, as far as its two neighbours are concerned, elements satisfying `f` from
elements not satisfying it. -/
structure Cut (f : α → Bool) (xs : List α) (k : Nat) : Prop where
  le : k ≤ xs.length
  left : ∀ (i : Nat) x, i + 1 = k → xs[i]? = some x → f x = true
  right : ∀ x, xs[k]? = some x → f x = false

theorem wp_lowerBoundGo {lo : α → Bool} {xs : List α} {b : Nat} (fuel : Nat) :
    ∀ {i len : Nat} {p : Ptr} {s : St α} {Q : Ptr → St α → Prop},
    p = ⟨b, i⟩ → (∀ j, s.mem b j = xs[j]?) → len ≤ fuel → i + len ≤ xs.length →
    (∀ (j : Nat) x, j + 1 = i → xs[j]? = some x → lo x = true) → (∀ x, xs[i + len]? = some x → lo x = false) →
    (∀ k s', Quiet s s' → i ≤ k → k ≤ i + len → Cut lo xs k → (∀ m, len < 2 ^ m → s'.tick ≤ s.tick + m) →
      Q ⟨b, k⟩ s') →
    (nt = false → ∀ s', Quiet s s' → X .elem s') →
    wp (lowerBoundGo E nt lo fuel p len) Q X s := by
  induction fuel with
  | zero =>
    intro i len p s Q hp hc hf hin hl hr hQ hX
    obtain rfl : len = 0 := by omega
    subst hp
    exact hQ i s (.refl s) (by omega) (by omega) ⟨by omega, hl, hr⟩ (by intros; omega)
  | succ fuel ih =>
    intro i len p s Q hp hc hf hin hl hr hQ hX
    subst hp
    unfold lowerBoundGo
    rw [wp_ite]
    by_cases h0 : len = 0
    · rw [if_pos h0]
      subst h0
      exact hQ i s (.refl s) (by omega) (by omega) ⟨by omega, hl, hr⟩ (by intros; omega)
    · rw [if_neg h0]
      have hlt : i + len / 2 < xs.length := by omega
      simp only [wp_bind]
      refine wp_readAt (v := xs[i + len / 2]) (by simp [Ptr.add, hc, hlt]) ?_
      refine wp_comp (fun s1 q1 t1 => ?_) hX
      have hc1 : ∀ j, s1.mem b j = xs[j]? := fun j => by rw [q1.mem, hc]
      rw [wp_ite]
      by_cases hm : lo xs[i + len / 2] = true
      · rw [if_pos hm]
        refine ih (i := i + len / 2 + 1) (len := len - len / 2 - 1) (by simp [Ptr.add]) hc1 (by omega) (by omega) ?_ ?_ ?_
          (fun hn s' q => hX hn s' (q1.trans q))
        · intro j x hj hx
          obtain rfl : j = i + len / 2 := by omega
          rw [List.getElem?_eq_getElem hlt] at hx
          cases hx; exact hm
        · intro x hx
          refine hr x ?_
          rw [← hx]; congr 1; omega
        · intro k s' q h1 h2 cut ht
          refine hQ k s' (q1.trans q) (by omega) (by omega) cut ?_
          intro m hm'
          cases m with
          | zero => simp at hm'; omega
          | succ m =>
            have := ht m (by rw [Nat.pow_succ] at hm'; omega)
            omega
      · rw [if_neg hm]
        refine ih (i := i) (len := len / 2) rfl hc1 (by omega) (by omega) hl ?_ ?_
          (fun hn s' q => hX hn s' (q1.trans q))
        · intro x hx
          rw [List.getElem?_eq_getElem hlt] at hx
          cases hx; simpa using hm
        · intro k s' q h1 h2 cut ht
          refine hQ k s' (q1.trans q) (by omega) (by omega) cut ?_
          intro m hm'
          cases m with
          | zero => simp at hm'; omega
          | succ m =>
            have := ht m (by rw [Nat.pow_succ] at hm'; omega)
            omega

theorem wp_upperBoundGo {hi : α → Bool} {xs : List α} {b : Nat} (fuel : Nat) :
    ∀ {i len : Nat} {p : Ptr} {s : St α} {Q : Ptr → St α → Prop},
    p = ⟨b, i⟩ → (∀ j, s.mem b j = xs[j]?) → len ≤ fuel → i + len ≤ xs.length →
    (∀ (j : Nat) x, j + 1 = i → xs[j]? = some x → hi x = false) → (∀ x, xs[i + len]? = some x → hi x = true) →
    (∀ k s', Quiet s s' → i ≤ k → k ≤ i + len → Cut (fun x => !hi x) xs k → (∀ m, len < 2 ^ m → s'.tick ≤ s.tick + m) →
      Q ⟨b, k⟩ s') →
    (nt = false → ∀ s', Quiet s s' → X .elem s') →
    wp (upperBoundGo E nt hi fuel p len) Q X s := by
  induction fuel with
  | zero =>
    intro i len p s Q hp hc hf hin hl hr hQ hX
    obtain rfl : len = 0 := by omega
    subst hp
    exact hQ i s (.refl s) (by omega) (by omega) ⟨by omega, fun j x h1 h2 => by simp [hl j x h1 h2], fun x h2 => by simp [hr x h2]⟩ (by intros; omega)
  | succ fuel ih =>
    intro i len p s Q hp hc hf hin hl hr hQ hX
    subst hp
    unfold upperBoundGo
    rw [wp_ite]
    by_cases h0 : len = 0
    · rw [if_pos h0]
      subst h0
      exact hQ i s (.refl s) (by omega) (by omega) ⟨by omega, fun j x h1 h2 => by simp [hl j x h1 h2], fun x h2 => by simp [hr x h2]⟩ (by intros; omega)
    · rw [if_neg h0]
      have hlt : i + len / 2 < xs.length := by omega
      simp only [wp_bind]
      refine wp_readAt (v := xs[i + len / 2]) (by simp [Ptr.add, hc, hlt]) ?_
      refine wp_comp (fun s1 q1 t1 => ?_) hX
      have hc1 : ∀ j, s1.mem b j = xs[j]? := fun j => by rw [q1.mem, hc]
      rw [wp_ite]
      by_cases hm : hi xs[i + len / 2] = true
      · rw [if_pos hm]
        refine ih (i := i) (len := len / 2) rfl hc1 (by omega) (by omega) hl ?_ ?_
          (fun hn s' q => hX hn s' (q1.trans q))
        · intro x hx
          rw [List.getElem?_eq_getElem hlt] at hx
          cases hx; exact hm
        · intro k s' q h1 h2 cut ht
          refine hQ k s' (q1.trans q) (by omega) (by omega) cut ?_
          intro m hm'
          cases m with
          | zero => simp at hm'; omega
          | succ m =>
            have := ht m (by rw [Nat.pow_succ] at hm'; omega)
            omega
      · rw [if_neg hm]
        refine ih (i := i + len / 2 + 1) (len := len - len / 2 - 1) (by simp [Ptr.add]) hc1 (by omega) (by omega) ?_ ?_ ?_
          (fun hn s' q => hX hn s' (q1.trans q))
        · intro j x hj hx
          obtain rfl : j = i + len / 2 := by omega
          rw [List.getElem?_eq_getElem hlt] at hx
          cases hx; simpa using hm
        · intro x hx
          refine hr x ?_
          rw [← hx]; congr 1; omega
        · intro k s' q h1 h2 cut ht
          refine hQ k s' (q1.trans q) (by omega) (by omega) cut ?_
          intro m hm'
          cases m with
          | zero => simp at hm'; omega
          | succ m =>
            have := ht m (by rw [Nat.pow_succ] at hm'; omega)
            omega

theorem wp_equalRangeGo {P : Probe α} {xs : List α} {b : Nat}
    (hnb : ∀ x ∈ xs, P.below x = true → P.above x = false) (fuel : Nat) :
    ∀ {i len : Nat} {p : Ptr} {s : St α} {Q : Ptr × Ptr → St α → Prop},
    p = ⟨b, i⟩ → (∀ j, s.mem b j = xs[j]?) → len ≤ fuel → i + len ≤ xs.length →
    (∀ (j : Nat) x, j + 1 = i → xs[j]? = some x → P.below x = true) →
    (∀ x, xs[i + len]? = some x → P.above x = true) →
    (∀ k l s', Quiet s s' → k ≤ l → Cut P.below xs k → Cut (fun x => !P.above x) xs l → Q (⟨b, k⟩, ⟨b, l⟩) s') →
    (nt = false → ∀ s', Quiet s s' → X .elem s') →
    wp (equalRangeGo E nt P fuel p len) Q X s := by
  have hna : ∀ x ∈ xs, P.above x = true → P.below x = false := by
    intro x hx h
    cases hb : P.below x
    · rfl
    · rw [hnb x hx hb] at h; cases h
  have last : ∀ {i : Nat}, i ≤ xs.length →
      (∀ (j : Nat) x, j + 1 = i → xs[j]? = some x → P.below x = true) →
      (∀ x, xs[i]? = some x → P.above x = true) → Cut P.below xs i ∧ Cut (fun x => !P.above x) xs i := by
    intro i hi hl hr
    refine ⟨⟨hi, hl, fun x hx => hna x (List.mem_of_getElem? hx) (hr x hx)⟩, ⟨hi, ?_, ?_⟩⟩
    · intro j x hj hx; simp [hnb x (List.mem_of_getElem? hx) (hl j x hj hx)]
    · intro x hx; simp [hr x hx]
  induction fuel with
  | zero =>
    intro i len p s Q hp hc hf hin hl hr hQ hX
    obtain rfl : len = 0 := by omega
    subst hp
    exact hQ i i s (.refl s) (by omega) (last hin hl hr).1 (last hin hl hr).2
  | succ fuel ih =>
    intro i len p s Q hp hc hf hin hl hr hQ hX
    subst hp
    unfold equalRangeGo
    rw [wp_ite]
    by_cases h0 : len = 0
    · rw [if_pos h0]
      subst h0
      exact hQ i i s (.refl s) (by omega) (last hin hl hr).1 (last hin hl hr).2
    · rw [if_neg h0]
      have hlt : i + len / 2 < xs.length := by omega
      simp only [wp_bind]
      refine wp_readAt (v := xs[i + len / 2]) (by simp [Ptr.add, hc, hlt]) ?_
      refine wp_comp (fun s1 q1 _ => ?_) hX
      have hc1 : ∀ j, s1.mem b j = xs[j]? := fun j => by rw [q1.mem, hc]
      rw [wp_ite]
      by_cases hm : P.below xs[i + len / 2] = true
      · rw [if_pos hm]
        refine ih (i := i + len / 2 + 1) (len := len - len / 2 - 1) (by simp [Ptr.add]) hc1 (by omega) (by omega)
          ?_ ?_ (fun k l s' q => hQ k l s' (q1.trans q)) (fun hn s' q => hX hn s' (q1.trans q))
        · intro j x hj hx
          obtain rfl : j = i + len / 2 := by omega
          rw [List.getElem?_eq_getElem hlt] at hx
          cases hx; exact hm
        · intro x hx
          refine hr x ?_
          rw [← hx]; congr 1; omega
      · rw [if_neg hm, wp_bind]
        refine wp_comp (fun s2 q2 _ => ?_) (fun hn s' q => hX hn s' (q1.trans q))
        have q12 := q1.trans q2
        have hc2 : ∀ j, s2.mem b j = xs[j]? := fun j => by rw [q12.mem, hc]
        rw [wp_ite]
        by_cases ha : P.above xs[i + len / 2] = true
        · rw [if_pos ha]
          refine ih (i := i) (len := len / 2) rfl hc2 (by omega) (by omega) hl ?_
            (fun k l s' q => hQ k l s' (q12.trans q)) (fun hn s' q => hX hn s' (q12.trans q))
          intro x hx
          rw [List.getElem?_eq_getElem hlt] at hx
          cases hx; exact ha
        · rw [if_neg ha]
          simp only [wp_bind, wp_pure]
          refine wp_lowerBoundGo (b := b) (xs := xs) (len / 2) (i := i) rfl hc2 (by omega) (by omega) hl ?_ ?_
            (fun hn s' q => hX hn s' (q12.trans q))
          · intro x hx
            rw [List.getElem?_eq_getElem hlt] at hx
            cases hx; simpa using hm
          · intro k s3 q3 k1 k2 cut _
            have hc3 : ∀ j, s3.mem b j = xs[j]? := fun j => by rw [q3.mem, hc2]
            refine wp_upperBoundGo (b := b) (xs := xs) (len - len / 2 - 1) (i := i + len / 2 + 1) (by simp [Ptr.add])
              hc3 (by omega) (by omega) ?_ ?_ ?_ (fun hn s' q => hX hn s' ((q12.trans q3).trans q))
            · intro j x hj hx
              obtain rfl : j = i + len / 2 := by omega
              rw [List.getElem?_eq_getElem hlt] at hx
              cases hx; simpa using ha
            · intro x hx
              refine hr x ?_
              rw [← hx]; congr 1; omega
            · intro l s4 q4 l1 l2 cut' _
              exact hQ k l s4 ((q12.trans q3).trans q4) (by omega) cut cut'

/-! ### Member functions -/

/-- Nothing but the operation counter has changed. -/
structure Looked (o o' : Obj Vec α) : Prop where
  obj : o'.obj = o.obj
  q : Quiet o.m o'.m

theorem Looked.refl (o : Obj Vec α) : Looked o o := ⟨rfl, .refl _⟩
theorem Looked.trans {o o' o'' : Obj Vec α} (h : Looked o o') (h' : Looked o' o'') : Looked o o'' :=
  ⟨h'.obj.trans h.obj, h.q.trans h'.q⟩

theorem Looked.value {o o' : Obj Vec α} (h : Looked o o') (a : Arg α) : a.value o'.m = a.value o.m := by
  cases a <;> simp [Arg.value, h.q.mem]

variable {H : Heap α} {al ib N b cap : Nat} {o o' : Obj Vec α} {xs : List α} {C : Order α κ} {P : Probe α}

theorem VSt.looked (h : VSt H E ib N o al b cap xs) (l : Looked o o') : VSt H E ib N o' al b cap xs where
  obj := l.obj.trans h.obj
  st := h.st.same ⟨l.q.blk, l.q.next⟩ l.q.mem
  len := h.len
  cells := fun i => by rw [l.q.mem, h.cells]
  capLe := h.capLe
  nLe := h.nLe

/-- What the searches leave behind if the comparator throws. -/
def CompThrew (C : Order α κ) (o : Obj Vec α) (e : Exn) (o' : Obj Vec α) : Prop :=
  C.nothrow = false ∧ e = .elem ∧ Looked o o'

theorem CompThrew.trans {o1 : Obj Vec α} {e : Exn} (h : Looked o o1) (h' : CompThrew C o1 e o') : CompThrew C o e o' :=
  ⟨h'.1, h'.2.1, h.trans h'.2.2⟩

namespace Flat

theorem lowerBound_spec (h : VSt H E ib N o al b cap xs) :
    wp (lowerBound C E P) (fun p o' => ∃ k, p = ⟨b, k⟩ ∧ Looked o o' ∧ Cut P.below xs k ∧
        ∀ m, xs.length < 2 ^ m → o'.m.tick ≤ o.m.tick + m) (CompThrew C o) o := by
  unfold lowerBound
  rw [wp_bind, wp_getObj, wp_bind, h.obj]
  refine wp_distance rfl (by simp) ?_
  rw [wp_lift]
  refine wp_lowerBoundGo (b := b) (xs := xs) _ (i := 0) rfl h.cells (Nat.le_refl _) (by simp) (by simp) (by simp) ?_ ?_
  · intro k s' q _ _ cut ht
    exact ⟨k, rfl, ⟨rfl, q⟩, cut, by simpa using ht⟩
  · intro hn s' q
    exact ⟨hn, rfl, rfl, q⟩

theorem upperBound_spec (h : VSt H E ib N o al b cap xs) :
    wp (upperBound C E P) (fun p o' => ∃ k, p = ⟨b, k⟩ ∧ Looked o o' ∧ Cut (fun x => !P.above x) xs k ∧
        ∀ m, xs.length < 2 ^ m → o'.m.tick ≤ o.m.tick + m) (CompThrew C o) o := by
  unfold upperBound
  rw [wp_bind, wp_getObj, wp_bind, h.obj]
  refine wp_distance rfl (by simp) ?_
  rw [wp_lift]
  refine wp_upperBoundGo (b := b) (xs := xs) _ (i := 0) rfl h.cells (Nat.le_refl _) (by simp) (by simp) (by simp) ?_ ?_
  · intro k s' q _ _ cut ht
    exact ⟨k, rfl, ⟨rfl, q⟩, cut, by simpa using ht⟩
  · intro hn s' q
    exact ⟨hn, rfl, rfl, q⟩

theorem equalRange_spec (h : VSt H E ib N o al b cap xs) (hnb : ∀ x ∈ xs, P.below x = true → P.above x = false) :
    wp (equalRange C E P) (fun p o' => ∃ k l, p = (⟨b, k⟩, ⟨b, l⟩) ∧ Looked o o' ∧ k ≤ l ∧ Cut P.below xs k ∧
        Cut (fun x => !P.above x) xs l) (CompThrew C o) o := by
  unfold equalRange
  rw [wp_bind, wp_getObj, wp_bind, h.obj]
  refine wp_distance rfl (by simp) ?_
  rw [wp_lift]
  refine wp_equalRangeGo (b := b) (xs := xs) hnb _ (i := 0) rfl h.cells (Nat.le_refl _) (by simp) (by simp) (by simp) ?_ ?_
  · intro k l s' q h1 h2 h3
    exact ⟨k, l, rfl, ⟨rfl, q⟩, h1, h2, h3⟩
  · intro hn s' q
    exact ⟨hn, rfl, rfl, q⟩

/-- The element at position `k`, if any, is above the sought key. -/
def absent (P : Probe α) (xs : List α) (k : Nat) : Bool :=
  match xs[k]? with
  | none => true
  | some x => P.above x

theorem missing_spec {k : Nat} (h : VSt H E ib N o al b cap xs) (hk : k ≤ xs.length) :
    wp (missing C E P ⟨b, k⟩) (fun r o' => Looked o o' ∧ r = absent P xs k ∧ o'.m.tick ≤ o.m.tick + 1)
      (CompThrew C o) o := by
  unfold missing
  rw [wp_bind, wp_getObj, h.obj, wp_ite]
  by_cases he : (⟨b, k⟩ : Ptr) = ⟨b, xs.length⟩
  · rw [if_pos he]
    obtain rfl : k = xs.length := by simpa using he
    exact ⟨.refl o, by simp [absent], by omega⟩
  · rw [if_neg he]
    have hlt : k < xs.length := by
      have : k ≠ xs.length := fun h' => he (by rw [h'])
      omega
    rw [wp_bind, wp_lift]
    refine wp_readAt (v := xs[k]) (by simp [h.cells, hlt]) ?_
    rw [wp_lift]
    refine wp_comp (fun s' q t => ⟨⟨rfl, q⟩, by simp [absent, hlt], by simp [t]⟩) (fun hn s' q => ⟨hn, rfl, rfl, q⟩)

theorem find_spec (h : VSt H E ib N o al b cap xs) :
    wp (find C E P) (fun p o' => ∃ k, p = ⟨b, if absent P xs k = true then xs.length else k⟩ ∧ Looked o o' ∧
        Cut P.below xs k ∧ ∀ m, xs.length < 2 ^ m → o'.m.tick ≤ o.m.tick + m + 1) (CompThrew C o) o := by
  unfold find
  rw [wp_bind]
  refine wp_mono (lowerBound_spec h) ?_ (fun _ _ h => h)
  rintro _ o1 ⟨k, rfl, l1, cut, t1⟩
  have h1 := h.looked l1
  rw [wp_bind]
  refine wp_mono (missing_spec h1 cut.le) ?_ (fun e o' h => CompThrew.trans l1 h)
  rintro _ o2 ⟨l2, rfl, t2⟩
  rw [wp_bind, wp_getObj, wp_pure]
  refine ⟨k, ?_, l1.trans l2, cut, fun m hm => ?_⟩
  · rw [(h1.looked l2).obj]
    split <;> rfl
  · have := t1 m hm; omega

end Flat

end Sfl
