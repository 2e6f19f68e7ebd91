import Verif.Core
/-
  The algorithms of /repo/include/sfl/private.hpp on contiguous ranges.
-/

namespace Sfl
variable {α : Type}

/-- Arguments obtained by dereferencing `p, p+1, …, p+n-1` with `mk` (`*it`, `std::move(*it)`, …). -/
def args (mk : Ptr → Arg α) (p : Ptr) : Nat → List (Arg α)
  | 0 => []
  | n + 1 => mk p :: args mk (p.add 1) n

/-- private.hpp:1341-1352 `destroy_n_a`; also the loop of `destroy_a`. -/
def destroyN (p : Ptr) : Nat → M (St α) Unit
  | 0 => pure ()
  | n + 1 => do
    destroyAt p
    destroyN (p.add 1) n

/-- private.hpp:1280-1288 `destroy_a` (and 2237-2245 `destroy`). -/
def destroyRange (first last : Ptr) : M (St α) Unit := do
  let n ← distance first last
  destroyN first n

/-- Common loop of the contiguous `uninitialized_*` algorithms: private.hpp:1398-1416, 1482-1500,
1556-1574, 1644-1662, 1723-1743, 1887-1907, 2051-2071, 2247-2370. `k` elements have been
constructed at `d`; when a constructor throws they are destroyed and the exception is rethrown.
The C++ `try` encloses the loop; enclosing each construction is equivalent because nothing
else in the loop throws. -/
def uninitGo (E : Env α) (d : Ptr) (k : Nat) : List (Arg α) → M (St α) Ptr
  | [] => pure (d.add k)
  | a :: as => do
    M.tryCatch (construct E (d.add k) a) (fun e => do
      destroyRange d (d.add k)
      M.throw e)
    uninitGo E d (k + 1) as

/-- Any `uninitialized_*` algorithm applied to a sequence of initialisers. -/
def uninit (E : Env α) (d : Ptr) (as : List (Arg α)) : M (St α) Ptr := uninitGo E d 0 as

/-- private.hpp:1723-1743 `uninitialized_copy_a` with source range in memory. -/
def uninitCopy (E : Env α) (first last d : Ptr) : M (St α) Ptr := do
  let n ← distance first last
  uninit E d (args .ref first n)

/-- private.hpp:1887-1907 `uninitialized_move_a`. -/
def uninitMove (E : Env α) (first last d : Ptr) : M (St α) Ptr := do
  let n ← distance first last
  uninit E d (args .mv first n)

/-- private.hpp:2051-2071 `uninitialized_move_if_noexcept_a`. -/
def uninitMoveIf (E : Env α) (first last d : Ptr) : M (St α) Ptr := do
  let n ← distance first last
  uninit E d (args .mvIf first n)

/-- private.hpp:1723-1743 `uninitialized_copy_a` with a source range outside the container. -/
def uninitCopyList (E : Env α) (d : Ptr) (ys : List α) : M (St α) Ptr :=
  uninit E d (ys.map .val)

/-- private.hpp:1644-1662 `uninitialized_fill_n_a`. -/
def uninitFillN (E : Env α) (d : Ptr) (n : Nat) (a : Arg α) : M (St α) Ptr :=
  uninit E d (List.replicate n a)

/-- private.hpp:1556-1574 `uninitialized_fill_a`. -/
def uninitFill (E : Env α) (first last : Ptr) (a : Arg α) : M (St α) Unit := do
  let n ← distance first last
  let _ ← uninit E first (List.replicate n a)
  pure ()

/-- private.hpp:1482-1500 `uninitialized_default_construct_n_a`. (Default construction is
modelled as construction from the fixed value `E.dflt`.) -/
def uninitDefaultN (E : Env α) (d : Ptr) (n : Nat) : M (St α) Ptr :=
  uninit E d (List.replicate n (.val E.dflt))

/-- Common loop of std::copy, std::move, std::fill, std::copy_n, std::fill_n: assign
successive elements. -/
def assignGo (E : Env α) (d : Ptr) : List (Arg α) → M (St α) Ptr
  | [] => pure d
  | a :: as => do
    assign E d a
    assignGo E (d.add 1) as

/-- private.hpp:938-947 `move` → std::move(first, last, d_first). -/
def moveFwd (E : Env α) (first last d : Ptr) : M (St α) Ptr := do
  let n ← distance first last
  assignGo E d (args .mv first n)

/-- private.hpp:700-709 `copy` → std::copy(first, last, d_first), source in memory. -/
def copyFwd (E : Env α) (first last d : Ptr) : M (St α) Ptr := do
  let n ← distance first last
  assignGo E d (args .ref first n)

/-- private.hpp:1170-1175 `fill`. -/
def fillRange (E : Env α) (first last : Ptr) (a : Arg α) : M (St α) Unit := do
  let n ← distance first last
  let _ ← assignGo E first (List.replicate n a)
  pure ()

/-- private.hpp:1227-1231 `fill_n`. -/
def fillN (E : Env α) (first : Ptr) (n : Nat) (a : Arg α) : M (St α) Ptr :=
  assignGo E first (List.replicate n a)

/-- private.hpp:700-709, 816-820 `copy`/`copy_n` from a range outside the container. -/
def copyList (E : Env α) (d : Ptr) (ys : List α) : M (St α) Ptr :=
  assignGo E d (ys.map .val)

/-- Loop of std::move_backward. -/
def moveBackGo (E : Env α) (first : Ptr) : Nat → Ptr → M (St α) Ptr
  | 0, d => pure d
  | n + 1, d => do
    assign E (d.sub 1) (.mv (first.add n))
    moveBackGo E first n (d.sub 1)

/-- private.hpp:1054-1063 `move_backward` → std::move_backward(first, last, d_last). -/
def moveBackward (E : Env α) (first last d : Ptr) : M (St α) Ptr := do
  let n ← distance first last
  moveBackGo E first n d

/-! ### Specifications -/

/-- Cell `(b,k)` lies in the range of `n` cells starting at `p`. -/
@[grind] def Ptr.has (p : Ptr) (n b k : Nat) : Prop := b = p.blk ∧ p.off ≤ k ∧ k < p.off + n

instance (p : Ptr) (n b k : Nat) : Decidable (p.has n b k) := by unfold Ptr.has; infer_instance

/-- Same block table. -/
structure Same (s s' : St α) : Prop where
  blk : s'.blk = s.blk
  next : s'.next = s.next

theorem Same.refl (s : St α) : Same s s := ⟨rfl, rfl⟩
theorem Same.trans {s t u : St α} (h : Same s t) (h' : Same t u) : Same s u :=
  ⟨h'.blk.trans h.blk, h'.next.trans h.next⟩
theorem Same.inB {s s' : St α} (h : Same s s') (p : Ptr) : s'.inB p = s.inB p := by
  unfold St.inB; rw [h.blk]

theorem St.inB_of {s : St α} {p : Ptr} {i : Info} (h : s.blk p.blk = some i) (hk : p.off < i.size) :
    s.inB p = true := by
  unfold St.inB; rw [h]; simpa using hk

@[simp, grind =] theorem put_mem (s : St α) (p : Ptr) (c : Option α) (b k : Nat) :
    (s.put p c).mem b k = if b = p.blk ∧ k = p.off then c else s.mem b k := rfl
@[simp, grind =] theorem put_blk (s : St α) (p : Ptr) (c : Option α) : (s.put p c).blk = s.blk := rfl
@[simp, grind =] theorem put_next (s : St α) (p : Ptr) (c : Option α) : (s.put p c).next = s.next := rfl
@[simp, grind =] theorem put_tick (s : St α) (p : Ptr) (c : Option α) : (s.put p c).tick = s.tick := rfl
@[simp, grind =] theorem bump_mem (s : St α) : s.bump.mem = s.mem := rfl
@[simp, grind =] theorem bump_blk (s : St α) : s.bump.blk = s.blk := rfl
@[simp, grind =] theorem bump_next (s : St α) : s.bump.next = s.next := rfl
@[simp, grind =] theorem bump_tick (s : St α) : s.bump.tick = s.tick + 1 := rfl

set_option hygiene false in
/-- `grind` after dropping continuation hypotheses. -/
macro "mgrind" : tactic => `(tactic| ((try clear hX); (try clear hQ); (try clear ih); grind (splits := 20)))

section specs
variable {E : Env α} {s : St α} {X : Exn → St α → Prop}

theorem wp_distance {σ : Type} {s : σ} {first last : Ptr} {Q : Nat → σ → Prop} {X : Exn → σ → Prop}
    (hb : first.blk = last.blk) (hle : first.off ≤ last.off)
    (hQ : Q (last.off - first.off) s) : wp (distance first last) Q X s := by
  unfold wp distance; simp [hb, hle, hQ]

/-- Construction by copy. -/
theorem construct_copy {p : Ptr} {a : Arg α} {v : α} {Q : Unit → St α → Prop}
    (hv : a.value s = some v) (hsrc : a.src E = none) (hb : s.inB p = true)
    (hr : s.mem p.blk p.off = none)
    (hQ : ∀ s', Same s s' → s'.tick = s.tick + 1 →
      (∀ b k, s'.mem b k = if b = p.blk ∧ k = p.off then some v else s.mem b k) → Q () s')
    (hX : ∀ s', Same s s' → s'.mem = s.mem → X .elem s') :
    wp (construct E p a) Q X s := by
  unfold wp construct
  simp only [hv, hb, hr, hsrc]
  by_cases ht : E.throws s.tick && !(a.isRv && E.nothrowMoveCtor)
  · simp only [ht]; exact hX _ ⟨rfl, rfl⟩ rfl
  · simp only [ht]; exact hQ _ ⟨rfl, rfl⟩ rfl (fun b k => rfl)

/-- Construction by move. -/
theorem construct_move {p q : Ptr} {a : Arg α} {v : α} {Q : Unit → St α → Prop}
    (hv : a.value s = some v) (hsrc : a.src E = some q) (hb : s.inB p = true)
    (hr : s.mem p.blk p.off = none)
    (hQ : ∀ s', Same s s' → s'.tick = s.tick + 1 →
      (∀ b k, s'.mem b k = if b = q.blk ∧ k = q.off then some (E.moved v)
        else if b = p.blk ∧ k = p.off then some v else s.mem b k) → Q () s')
    (hX : E.nothrowMoveCtor = false → ∀ s' w, Same s s' →
      (∀ b k, s'.mem b k = if b = q.blk ∧ k = q.off then some w else s.mem b k) → X .elem s') :
    wp (construct E p a) Q X s := by
  unfold wp construct
  simp only [hv, hb, hr, hsrc]
  by_cases ht : E.throws s.tick <;> simp [ht]
  · cases hn : E.nothrowMoveCtor
    · simp; exact hX hn _ _ ⟨rfl, rfl⟩ (fun b k => rfl)
    · simp; exact hQ _ ⟨rfl, rfl⟩ rfl (fun b k => rfl)
  · exact hQ _ ⟨rfl, rfl⟩ rfl (fun b k => rfl)

/-- Copy assignment. -/
theorem assign_copy {p : Ptr} {a : Arg α} {v : α} {Q : Unit → St α → Prop}
    (hv : a.value s = some v) (hsrc : a.src E = none) (hl : (s.mem p.blk p.off).isSome)
    (hQ : ∀ s', Same s s' → s'.tick = s.tick + 1 →
      (∀ b k, s'.mem b k = if b = p.blk ∧ k = p.off then some v else s.mem b k) → Q () s')
    (hX : (a.isRv = true → E.nothrowMoveAssign = false) → ∀ s' w, Same s s' →
      (∀ b k, s'.mem b k = if b = p.blk ∧ k = p.off then some w else s.mem b k) → X .elem s') :
    wp (assign E p a) Q X s := by
  unfold wp assign
  obtain ⟨old, ho⟩ := Option.isSome_iff_exists.mp hl
  simp only [hv, ho, hsrc]
  by_cases ht : E.throws s.tick && !(a.isRv && E.nothrowMoveAssign)
  · simp only [ht]; exact hX (by intro h; simp [h] at ht; exact ht.2) _ _ ⟨rfl, rfl⟩ (fun b k => rfl)
  · simp only [ht]; exact hQ _ ⟨rfl, rfl⟩ rfl (fun b k => rfl)

/-- Move assignment. -/
theorem assign_move {p q : Ptr} {a : Arg α} {v : α} {Q : Unit → St α → Prop}
    (hv : a.value s = some v) (hsrc : a.src E = some q) (hl : (s.mem p.blk p.off).isSome)
    (hQ : ∀ s', Same s s' → s'.tick = s.tick + 1 →
      (∀ b k, s'.mem b k = if b = q.blk ∧ k = q.off then some (E.moved v)
        else if b = p.blk ∧ k = p.off then some v else s.mem b k) → Q () s')
    (hX : E.nothrowMoveAssign = false → ∀ s' w w', Same s s' →
      (∀ b k, s'.mem b k = if b = q.blk ∧ k = q.off then some w
        else if b = p.blk ∧ k = p.off then some w' else s.mem b k) → X .elem s') :
    wp (assign E p a) Q X s := by
  unfold wp assign
  obtain ⟨old, ho⟩ := Option.isSome_iff_exists.mp hl
  simp only [hv, ho, hsrc]
  by_cases ht : E.throws s.tick <;> simp [ht]
  · cases hn : E.nothrowMoveAssign
    · simp; exact hX hn _ _ _ ⟨rfl, rfl⟩ (fun b k => rfl)
    · simp; exact hQ _ ⟨rfl, rfl⟩ rfl (fun b k => rfl)
  · exact hQ _ ⟨rfl, rfl⟩ rfl (fun b k => rfl)

theorem mkTmp_copy {a : Arg α} {v : α} {Q : α → St α → Prop}
    (hv : a.value s = some v) (hsrc : a.src E = none)
    (hQ : ∀ s', Same s s' → s'.tick = s.tick + 1 → s'.mem = s.mem → Q v s')
    (hX : ∀ s', Same s s' → s'.mem = s.mem → X .elem s') :
    wp (mkTmp E a) Q X s := by
  unfold wp mkTmp
  simp only [hv, hsrc]
  by_cases ht : E.throws s.tick && !(a.isRv && E.nothrowMoveCtor)
  · simp only [ht]; exact hX _ ⟨rfl, rfl⟩ rfl
  · simp only [ht]; exact hQ _ ⟨rfl, rfl⟩ rfl rfl

theorem mkTmp_move {a : Arg α} {v : α} {q : Ptr} {Q : α → St α → Prop}
    (hv : a.value s = some v) (hsrc : a.src E = some q)
    (hQ : ∀ s', Same s s' → s'.tick = s.tick + 1 →
      (∀ b k, s'.mem b k = if b = q.blk ∧ k = q.off then some (E.moved v) else s.mem b k) → Q v s')
    (hX : E.nothrowMoveCtor = false → ∀ s' w, Same s s' →
      (∀ b k, s'.mem b k = if b = q.blk ∧ k = q.off then some w else s.mem b k) → X .elem s') :
    wp (mkTmp E a) Q X s := by
  unfold wp mkTmp
  simp only [hv, hsrc]
  by_cases ht : E.throws s.tick <;> simp [ht]
  · cases hn : E.nothrowMoveCtor
    · simp; exact hX hn _ _ ⟨rfl, rfl⟩ (fun b k => rfl)
    · simp; exact hQ _ ⟨rfl, rfl⟩ rfl (fun b k => rfl)
  · exact hQ _ ⟨rfl, rfl⟩ rfl (fun b k => rfl)

theorem wp_destroyAt {p : Ptr} {Q : Unit → St α → Prop}
    (hl : (s.mem p.blk p.off).isSome)
    (hQ : ∀ s', Same s s' → s'.tick = s.tick →
      (∀ b k, s'.mem b k = if b = p.blk ∧ k = p.off then none else s.mem b k) → Q () s') :
    wp (destroyAt p) Q X s := by
  unfold wp destroyAt
  obtain ⟨old, ho⟩ := Option.isSome_iff_exists.mp hl
  simp only [ho]
  exact hQ _ ⟨rfl, rfl⟩ rfl (fun b k => rfl)

theorem wp_readAt {p : Ptr} {v : α} {Q : α → St α → Prop}
    (hl : s.mem p.blk p.off = some v) (hQ : Q v s) : wp (readAt p) Q X s := by
  unfold wp readAt
  simp only [hl]; exact hQ

theorem wp_destroyN {n : Nat} {p : Ptr} {s : St α} {Q : Unit → St α → Prop}
    (hl : ∀ k, k < n → (s.mem p.blk (p.off + k)).isSome)
    (hQ : ∀ s', Same s s' → s'.tick = s.tick →
      (∀ b k, s'.mem b k = if p.has n b k then none else s.mem b k) → Q () s') :
    wp (destroyN p n) Q X s := by
  induction n generalizing p s with
  | zero =>
    exact hQ s (Same.refl s) rfl (fun b k => by grind [Ptr.has])
  | succ n ih =>
    unfold destroyN
    rw [wp_bind]
    refine wp_destroyAt (by simpa using hl 0 (by omega)) ?_
    intro s1 hs1 ht1 hm1
    refine ih ?_ ?_
    · intro k hk
      have := hl (k + 1) (by omega)
      rw [hm1]; simp only [Ptr.add_blk, Ptr.add_off]
      rw [if_neg (by omega)]
      rw [show p.off + 1 + k = p.off + (k + 1) by omega]; exact this
    · intro s2 hs2 ht2 hm2
      refine hQ s2 (hs1.trans hs2) (by omega) ?_
      intro b k
      rw [hm2, hm1]
      simp only [Ptr.has, Ptr.add_blk, Ptr.add_off]
      mgrind

theorem wp_destroyRange {first last : Ptr} {Q : Unit → St α → Prop}
    (hb : first.blk = last.blk) (hle : first.off ≤ last.off)
    (hl : ∀ k, first.off ≤ k → k < last.off → (s.mem first.blk k).isSome)
    (hQ : ∀ s', Same s s' → s'.tick = s.tick →
      (∀ b k, s'.mem b k = if first.has (last.off - first.off) b k then none else s.mem b k) → Q () s') :
    wp (destroyRange first last) Q X s := by
  unfold destroyRange
  rw [wp_bind]
  refine wp_distance hb hle ?_
  exact wp_destroyN (fun k hk => hl _ (by omega) (by omega)) hQ

theorem value_congr {a : Arg α} {s s' : St α}
    (h : ∀ q : Ptr, a.value s = s.mem q.blk q.off → s'.mem q.blk q.off = s.mem q.blk q.off) :
    a.value s' = a.value s := by
  cases a with
  | val v => rfl
  | rv v => rfl
  | ref q => exact h q rfl
  | mv q => exact h q rfl
  | mvIf q => exact h q rfl

/-- `uninit` with copied initialisers: either all values are constructed or memory is as before. -/
theorem wp_uninitGo_copy {as : List (Arg α)} {vs : List α} {d : Ptr} {k : Nat} {s s0 : St α}
    {Q : Ptr → St α → Prop}
    (hv : as.map (Arg.value s) = vs.map some)
    (hsrc : ∀ a ∈ as, a.src E = none)
    (hb : ∀ j, k ≤ j → j < k + as.length → s.inB (d.add j) = true)
    (hr : ∀ j, k ≤ j → j < k + as.length → s.mem d.blk (d.off + j) = none)
    (hraw0 : ∀ j, j < k → s0.mem d.blk (d.off + j) = none)
    (h0 : ∀ b i, ¬ d.has k b i → s.mem b i = s0.mem b i)
    (hl : ∀ j, j < k → (s.mem d.blk (d.off + j)).isSome)
    (hQ : ∀ s', Same s s' → s'.tick = s.tick + as.length →
      (∀ b i, s'.mem b i = if (d.add k).has as.length b i then vs[i - (d.off + k)]? else s.mem b i) →
      Q (d.add (k + as.length)) s')
    (hX : ∀ s', Same s s' → s'.mem = s0.mem → X .elem s') :
    wp (uninitGo E d k as) Q X s := by
  induction as generalizing k s vs with
  | nil =>
    unfold uninitGo; rw [wp_pure]
    exact hQ s (Same.refl s) rfl (fun b i => by grind [Ptr.has])
  | cons a as ih =>
    obtain ⟨v, vs, rfl⟩ : ∃ v vs', vs = v :: vs' := by
      cases vs with
      | nil => simp at hv
      | cons v vs' => exact ⟨v, vs', rfl⟩
    simp only [List.map_cons, List.cons.injEq] at hv
    obtain ⟨hva, hvs⟩ := hv
    unfold uninitGo
    rw [wp_bind, wp_tryCatch]
    refine construct_copy hva (hsrc a (by simp)) (hb k (by omega) (by simp)) (hr k (by omega) (by simp)) ?_ ?_
    · intro s1 hs1 ht1 hm1
      have hrk := hr k (by omega) (by simp)
      refine ih (vs := vs) ?_ (fun a' h' => hsrc a' (by simp [h'])) ?_ ?_ ?_ ?_ ?_ ?_ ?_
      · rw [← hvs]
        apply List.map_congr_left
        intro a' ha'
        have hne : a'.value s ≠ none := by
          have : a'.value s ∈ vs.map some := by rw [← hvs]; exact List.mem_map_of_mem ha'
          intro h; rw [h] at this; simp at this
        refine value_congr (fun q hq => ?_)
        rw [hm1]; rw [if_neg]
        rintro ⟨h1, h2⟩; apply hne; rw [hq, h1, h2]; exact hrk
      · intro j h1 h2; rw [hs1.inB]; exact hb j (by omega) (by simp; omega)
      · intro j h1 h2; have := hr j (by omega) (by simp; omega); mgrind
      · intro j hj
        by_cases hjk : j = k
        · subst hjk
          have := h0 d.blk (d.off + j) (by simp [Ptr.has])
          rw [← this]; exact hrk
        · exact hraw0 j (by omega)
      · intro b i hbi
        rw [hm1]
        have h' := h0 b i
        simp only [Ptr.has, Ptr.add_blk, Ptr.add_off] at *
        mgrind
      · intro j hj
        rw [hm1]
        have h' := hl j
        simp only [Ptr.add_blk, Ptr.add_off] at *
        mgrind
      · intro s2 hs2 ht2 hm2
        have := hQ s2 (hs1.trans hs2) (by simp; omega) ?_
        · simp only [List.length_cons] at this
          rw [show k + 1 + as.length = k + (as.length + 1) by omega]; exact this
        · intro b i
          rw [hm2, hm1]
          simp only [Ptr.has, Ptr.add_blk, Ptr.add_off, List.length_cons]
          mgrind
      · intro s2 hs2 hm2
        exact hX s2 (hs1.trans hs2) hm2
    · intro s1 hs1 hm1
      rw [wp_bind]
      refine wp_destroyRange (by simp) (by simp) ?_ ?_
      · intro j h1 h2
        have := hl (j - d.off) (by simp at h2; omega)
        rw [hm1]; rw [show d.off + (j - d.off) = j by omega] at this; exact this
      · intro s2 hs2 ht2 hm2
        rw [wp_throw]
        refine hX s2 (hs1.trans hs2) ?_
        funext b i
        rw [hm2, hm1]
        have h' := h0 b i
        have h'' := hraw0 (i - d.off)
        simp only [Ptr.has, Ptr.add_off] at *
        mgrind

theorem wp_uninit_copy {as : List (Arg α)} {vs : List α} {d : Ptr} {Q : Ptr → St α → Prop}
    (hv : as.map (Arg.value s) = vs.map some)
    (hsrc : ∀ a ∈ as, a.src E = none)
    (hb : ∀ j, j < as.length → s.inB (d.add j) = true)
    (hr : ∀ j, j < as.length → s.mem d.blk (d.off + j) = none)
    (hQ : ∀ s', Same s s' → s'.tick = s.tick + as.length →
      (∀ b i, s'.mem b i = if d.has as.length b i then vs[i - d.off]? else s.mem b i) →
      Q (d.add as.length) s')
    (hX : ∀ s', Same s s' → s'.mem = s.mem → X .elem s') :
    wp (uninit E d as) Q X s := by
  unfold uninit
  refine wp_uninitGo_copy (s0 := s) hv hsrc (fun j _ h => hb j (by omega)) (fun j _ h => hr j (by omega))
    (by omega) (fun _ _ _ => rfl) (by omega) ?_ hX
  intro s' h1 h2 h3
  have := hQ s' h1 h2 (fun b i => by rw [h3]; mgrind)
  simpa using this

/-- `mk` dereferences its pointer, moving from it iff `m`. -/
structure MkOk (E : Env α) (mk : Ptr → Arg α) (m : Bool) : Prop where
  value : ∀ q (s : St α), (mk q).value s = s.mem q.blk q.off
  src : ∀ q, (mk q).src E = if m then some q else none

theorem mkOk_ref : MkOk E .ref false := ⟨fun _ _ => rfl, fun _ => rfl⟩
theorem mkOk_mv : MkOk E .mv true := ⟨fun _ _ => rfl, fun _ => rfl⟩
theorem mkOk_mvIf : MkOk E .mvIf (E.nothrowMoveCtor || !E.copyable) := ⟨fun _ _ => rfl, fun _ => rfl⟩

/-- `uninit` from a live range in memory. On an exception destination cells are raw again;
if sources are moved from they may have changed value but are alive. -/
theorem wp_uninitGo_range {mk : Ptr → Arg α} {m : Bool} (hmk : MkOk E mk m)
    {n : Nat} {p0 d : Ptr} {k : Nat} {s s0 : St α} {Q : Ptr → St α → Prop}
    (hs : ∀ j, k ≤ j → j < k + n → (s.mem p0.blk (p0.off + j)).isSome)
    (hb : ∀ j, k ≤ j → j < k + n → s.inB (d.add j) = true)
    (hr : ∀ j, k ≤ j → j < k + n → s.mem d.blk (d.off + j) = none)
    (hraw0 : ∀ j, j < k → s0.mem d.blk (d.off + j) = none)
    (h0 : ∀ b i, ¬ d.has k b i →
      s.mem b i = s0.mem b i ∨ (m = true ∧ p0.has k b i ∧ (s.mem b i).isSome))
    (hl : ∀ j, j < k → (s.mem d.blk (d.off + j)).isSome)
    (hQ : ∀ s', Same s s' → s'.tick = s.tick + n →
      (∀ b i, s'.mem b i =
        if (d.add k).has n b i then s.mem p0.blk (p0.off + k + (i - (d.off + k)))
        else if m = true ∧ (p0.add k).has n b i then (s.mem b i).map E.moved
        else s.mem b i) →
      Q (d.add (k + n)) s')
    (hX : (m = true → E.nothrowMoveCtor = false) → ∀ s', Same s s' →
      (∀ b i, s'.mem b i = s0.mem b i ∨ (m = true ∧ p0.has (k + n) b i ∧ (s'.mem b i).isSome)) →
      X .elem s') :
    wp (uninitGo E d k (args mk (p0.add k) n)) Q X s := by
  induction n generalizing k s with
  | zero =>
    unfold args uninitGo; rw [wp_pure]
    exact hQ s (Same.refl s) rfl (fun b i => by mgrind)
  | succ n ih =>
    unfold args uninitGo
    rw [wp_bind, wp_tryCatch]
    obtain ⟨v, hv⟩ := Option.isSome_iff_exists.mp (hs k (by omega) (by omega))
    have hrk := hr k (by omega) (by omega)
    have hcleanup : (m = true → E.nothrowMoveCtor = false) → ∀ s1, Same s s1 →
        (∀ b i, s1.mem b i = s.mem b i ∨ (m = true ∧ (p0.add k).has 1 b i ∧ (s1.mem b i).isSome)) →
        wp (do destroyRange d (d.add k); M.throw .elem : M (St α) Unit)
          (fun _ s' => wp (uninitGo E d (k + 1) (args mk ((p0.add k).add 1) n)) Q X s') X s1 := by
      intro hnm s1 hs1 hm1
      rw [wp_bind]
      refine wp_destroyRange (by simp) (by simp) ?_ ?_
      · intro j h1 h2
        have := hl (j - d.off) (by simp at h2; omega)
        rw [show d.off + (j - d.off) = j by omega] at this
        have := hm1 d.blk j
        mgrind
      · intro s2 hs2 ht2 hm2
        rw [wp_throw]
        refine hX hnm s2 (hs1.trans hs2) ?_
        intro b i
        rw [hm2]
        have h' := h0 b i
        have h'' := hraw0 (i - d.off)
        have h3 := hm1 b i
        mgrind
    have hnext : ∀ s1, Same s s1 → s1.tick = s.tick + 1 →
        (∀ b i, s1.mem b i = if b = d.blk ∧ i = d.off + k then some v
          else if m = true ∧ b = p0.blk ∧ i = p0.off + k then some (E.moved v) else s.mem b i) →
        wp (uninitGo E d (k + 1) (args mk ((p0.add k).add 1) n)) Q X s1 := by
      intro s1 hs1 ht1 hm1
      have hpe : (p0.add k).add 1 = p0.add (k + 1) := by simp [Ptr.add]; omega
      rw [hpe]
      refine ih ?_ ?_ ?_ ?_ ?_ ?_ ?_ ?_
      · intro j h1 h2
        have := hs j (by omega) (by omega)
        rw [hm1]; mgrind
      · intro j h1 h2; rw [hs1.inB]; exact hb j (by omega) (by omega)
      · intro j h1 h2; have := hr j (by omega) (by omega); rw [hm1]; mgrind
      · intro j hj
        by_cases hjk : j = k
        · subst hjk
          have := h0 d.blk (d.off + j) (by simp [Ptr.has])
          mgrind
        · exact hraw0 j (by omega)
      · intro b i hbi
        rw [hm1]
        have h' := h0 b i
        mgrind
      · intro j hj
        rw [hm1]
        have h' := hl j
        mgrind
      · intro s2 hs2 ht2 hm2
        have := hQ s2 (hs1.trans hs2) (by omega) ?_
        · rw [show k + 1 + n = k + (n + 1) by omega]; exact this
        · intro b i
          have hdis : ∀ i, p0.off + k ≤ i → i < p0.off + (k + n + 1) → ¬ (p0.blk = d.blk ∧ i = d.off + k) := by
            intro i h1 h2 h3
            have := hs (i - p0.off) (by omega) (by omega)
            rw [show p0.off + (i - p0.off) = i by omega, h3.1, h3.2, hrk] at this
            cases this
          clear hcleanup hs hr h0 hraw0 hl hb
          rw [hm2]
          by_cases c1 : (d.add (k + 1)).has n b i
          · have := hdis (p0.off + (k + 1) + (i - (d.off + (k + 1))))
            rw [if_pos c1, hm1]
            mgrind
          · rw [if_neg c1, hm1]
            have := hdis i
            mgrind
      · intro hnm s2 hs2 hm2
        refine hX hnm s2 (hs1.trans hs2) ?_
        intro b i
        have := hm2 b i
        mgrind
    cases m with
    | false =>
      refine construct_copy ((hmk.value _ _).trans hv) (by rw [hmk.src]; rfl) (hb k (by omega) (by omega)) hrk ?_ ?_
      · intro s1 hs1 ht1 hm1
        exact hnext s1 hs1 ht1 (fun b i => by rw [hm1]; mgrind)
      · intro s1 hs1 hm1
        exact hcleanup (by simp) s1 hs1 (fun b i => by rw [hm1]; simp)
    | true =>
      refine construct_move ((hmk.value _ _).trans hv) (by rw [hmk.src]; rfl) (hb k (by omega) (by omega)) hrk ?_ ?_
      · intro s1 hs1 ht1 hm1
        exact hnext s1 hs1 ht1 (fun b i => by rw [hm1]; mgrind)
      · intro hnm s1 w hs1 hm1
        exact hcleanup (fun _ => hnm) s1 hs1 (fun b i => by rw [hm1]; mgrind)

/-- Any of uninitialized_copy_a / uninitialized_move_a / uninitialized_move_if_noexcept_a on a memory range. -/
theorem wp_uninit_range {mk : Ptr → Arg α} {m : Bool} (hmk : MkOk E mk m)
    {first last d : Ptr} {n : Nat} {Q : Ptr → St α → Prop}
    (hblk : first.blk = last.blk) (hn : last.off = first.off + n)
    (hs : ∀ i, first.off ≤ i → i < last.off → (s.mem first.blk i).isSome)
    (hb : ∀ j, j < n → s.inB (d.add j) = true)
    (hr : ∀ i, d.off ≤ i → i < d.off + n → s.mem d.blk i = none)
    (hQ : ∀ s', Same s s' → s'.tick = s.tick + n →
      (∀ b i, s'.mem b i =
        if d.has n b i then s.mem first.blk (first.off + (i - d.off))
        else if m = true ∧ first.has n b i then (s.mem b i).map E.moved
        else s.mem b i) →
      Q (d.add n) s')
    (hX : (m = true → E.nothrowMoveCtor = false) → ∀ s', Same s s' →
      (∀ b i, s'.mem b i = s.mem b i ∨ (m = true ∧ first.has n b i ∧ (s'.mem b i).isSome)) →
      X .elem s') :
    wp (do let n ← distance first last; uninit E d (args mk first n)) Q X s := by
  rw [wp_bind]
  refine wp_distance hblk (by omega) ?_
  rw [show last.off - first.off = n by omega]
  unfold uninit
  have hp : first = first.add 0 := rfl
  rw [hp]
  refine wp_uninitGo_range hmk (s0 := s) (fun j _ h => hs _ (by omega) (by omega)) (fun j _ h => hb j (by omega))
    (fun j _ h => hr _ (by omega) (by omega))
    (by omega) (fun _ _ _ => Or.inl rfl) (by omega) ?_ ?_
  · intro s' h1 h2 h3
    have := hQ s' h1 h2 (fun b i => by rw [h3]; mgrind)
    simpa using this
  · intro h s' h1 h2
    exact hX h s' h1 (fun b i => by have := h2 b i; mgrind)

/-- Assignment of values to a live range; the arguments must not refer into the range. -/
theorem wp_assignGo_copy {as : List (Arg α)} {vs : List α} {d : Ptr} {s : St α} {Q : Ptr → St α → Prop}
    (hv : as.map (Arg.value s) = vs.map some)
    (hsrc : ∀ a ∈ as, a.src E = none)
    (hstable : ∀ a ∈ as, ∀ s' : St α, (∀ b i, ¬ d.has as.length b i → s'.mem b i = s.mem b i) →
      a.value s' = a.value s)
    (hl : ∀ i, d.off ≤ i → i < d.off + as.length → (s.mem d.blk i).isSome)
    (hQ : ∀ s', Same s s' → s'.tick = s.tick + as.length →
      (∀ b i, s'.mem b i = if d.has as.length b i then vs[i - d.off]? else s.mem b i) →
      Q (d.add as.length) s')
    (hX : ∀ s', Same s s' →
      (∀ b i, if d.has as.length b i then (s'.mem b i).isSome else s'.mem b i = s.mem b i) → X .elem s') :
    wp (assignGo E d as) Q X s := by
  induction as generalizing s d vs with
  | nil =>
    unfold assignGo; rw [wp_pure]
    exact hQ s (Same.refl s) rfl (fun b i => by mgrind)
  | cons a as ih =>
    obtain ⟨v, vs, rfl⟩ : ∃ v vs', vs = v :: vs' := by
      cases vs with
      | nil => simp at hv
      | cons v vs' => exact ⟨v, vs', rfl⟩
    simp only [List.map_cons, List.cons.injEq] at hv
    obtain ⟨hva, hvs⟩ := hv
    unfold assignGo
    rw [wp_bind]
    refine assign_copy hva (hsrc a (by simp)) (hl _ (by omega) (by simp)) ?_ ?_
    · intro s1 hs1 ht1 hm1
      have hst1 : ∀ b i, ¬ d.has (as.length + 1) b i → s1.mem b i = s.mem b i := by
        intro b i h; rw [hm1]; mgrind
      refine ih (vs := vs) ?_ (fun a' h' => hsrc a' (by simp [h'])) ?_ ?_ ?_ ?_
      · rw [← hvs]
        apply List.map_congr_left
        intro a' ha'
        exact hstable a' (by simp [ha']) s1 (by simpa using hst1)
      · intro a' ha' s' h'
        have e1 := hstable a' (by simp [ha']) s1 (by simpa using hst1)
        rw [e1]
        refine hstable a' (by simp [ha']) s' ?_
        intro b i hbi
        have := h' b i
        have := hst1 b i
        simp only [List.length_cons] at hbi
        mgrind
      · intro i h1 h2
        have := hl i (by simp at h1; omega) (by simp at h2 ⊢; omega)
        rw [hm1]; mgrind
      · intro s2 hs2 ht2 hm2
        have := hQ s2 (hs1.trans hs2) (by simp; omega) ?_
        · simp only [List.length_cons] at this
          have e : (d.add 1).add as.length = d.add (as.length + 1) := by simp [Ptr.add]; omega
          rw [e]; exact this
        · intro b i
          rw [hm2, hm1]
          simp only [List.length_cons]
          mgrind
      · intro s2 hs2 hm2
        refine hX s2 (hs1.trans hs2) ?_
        intro b i
        have := hm2 b i
        have := hm1 b i
        have := hl i
        simp only [List.length_cons] at *
        mgrind
    · intro _ s1 w hs1 hm1
      refine hX s1 hs1 ?_
      intro b i
      have := hm1 b i
      have := hl i
      simp only [List.length_cons] at *
      mgrind

/-- Moving a live range to the left (or between disjoint ranges) by assignment. -/
theorem wp_assignGo_move {n : Nat} {p d : Ptr} {s : St α} {Q : Ptr → St α → Prop}
    (hs : ∀ i, p.off ≤ i → i < p.off + n → (s.mem p.blk i).isSome)
    (hl : ∀ i, d.off ≤ i → i < d.off + n → (s.mem d.blk i).isSome)
    (hdir : d.blk ≠ p.blk ∨ d.off < p.off ∨ p.off + n ≤ d.off)
    (hQ : ∀ s', Same s s' → s'.tick = s.tick + n →
      (∀ b i, s'.mem b i = if d.has n b i then s.mem p.blk (p.off + (i - d.off))
        else if p.has n b i then (s.mem b i).map E.moved else s.mem b i) →
      Q (d.add n) s')
    (hX : E.nothrowMoveAssign = false → ∀ s', Same s s' →
      (∀ b i, if d.has n b i ∨ p.has n b i then (s'.mem b i).isSome else s'.mem b i = s.mem b i) →
      X .elem s') :
    wp (assignGo E d (args .mv p n)) Q X s := by
  induction n generalizing s d p with
  | zero =>
    unfold args assignGo; rw [wp_pure]
    exact hQ s (Same.refl s) rfl (fun b i => by mgrind)
  | succ n ih =>
    unfold args assignGo
    rw [wp_bind]
    obtain ⟨v, hv⟩ := Option.isSome_iff_exists.mp (hs p.off (by omega) (by omega))
    refine assign_move (v := v) (q := p) hv rfl (hl _ (by omega) (by omega)) ?_ ?_
    · intro s1 hs1 ht1 hm1
      refine ih ?_ ?_ ?_ ?_ ?_
      · intro i h1 h2
        have := hs i (by simp at h1; omega) (by simp at h2; omega)
        rw [hm1]; mgrind
      · intro i h1 h2
        have := hl i (by simp at h1; omega) (by simp at h2; omega)
        rw [hm1]; mgrind
      · mgrind
      · intro s2 hs2 ht2 hm2
        have := hQ s2 (hs1.trans hs2) (by omega) ?_
        · have e : (d.add 1).add n = d.add (n + 1) := by simp [Ptr.add]; omega
          rw [e]; exact this
        · intro b i
          rw [hm2, hm1, hm1]
          mgrind
      · intro hnm s2 hs2 hm2
        refine hX hnm s2 (hs1.trans hs2) ?_
        intro b i
        have := hm2 b i
        have := hm1 b i
        have := hl i
        have := hs i
        mgrind
    · intro hnm s1 w w' hs1 hm1
      refine hX hnm s1 hs1 ?_
      intro b i
      have := hm1 b i
      have := hl i
      have := hs i
      mgrind

theorem wp_moveFwd {first last d : Ptr} {n : Nat} {Q : Ptr → St α → Prop}
    (hblk : first.blk = last.blk) (hn : last.off = first.off + n)
    (hs : ∀ i, first.off ≤ i → i < last.off → (s.mem first.blk i).isSome)
    (hl : ∀ i, d.off ≤ i → i < d.off + n → (s.mem d.blk i).isSome)
    (hdir : d.blk ≠ first.blk ∨ d.off < first.off ∨ first.off + n ≤ d.off)
    (hQ : ∀ s', Same s s' → s'.tick = s.tick + n →
      (∀ b i, s'.mem b i = if d.has n b i then s.mem first.blk (first.off + (i - d.off))
        else if first.has n b i then (s.mem b i).map E.moved else s.mem b i) →
      Q (d.add n) s')
    (hX : E.nothrowMoveAssign = false → ∀ s', Same s s' →
      (∀ b i, if d.has n b i ∨ first.has n b i then (s'.mem b i).isSome else s'.mem b i = s.mem b i) →
      X .elem s') :
    wp (moveFwd E first last d) Q X s := by
  unfold moveFwd
  rw [wp_bind]
  refine wp_distance hblk (by omega) ?_
  rw [show last.off - first.off = n by omega]
  exact wp_assignGo_move (fun i h1 h2 => hs i h1 (by omega)) hl hdir hQ hX

/-- Moving a live range to the right (or between disjoint ranges) by assignment, back to front.
`q` is the start of the destination. -/
theorem wp_moveBackGo {n : Nat} {p q d : Ptr} {s : St α} {Q : Ptr → St α → Prop}
    (hd : d = q.add n)
    (hs : ∀ i, p.off ≤ i → i < p.off + n → (s.mem p.blk i).isSome)
    (hl : ∀ i, q.off ≤ i → i < q.off + n → (s.mem q.blk i).isSome)
    (hdir : q.blk ≠ p.blk ∨ p.off < q.off ∨ q.off + n ≤ p.off)
    (hQ : ∀ s', Same s s' → s'.tick = s.tick + n →
      (∀ b i, s'.mem b i = if q.has n b i then s.mem p.blk (p.off + (i - q.off))
        else if p.has n b i then (s.mem b i).map E.moved else s.mem b i) →
      Q q s')
    (hX : E.nothrowMoveAssign = false → ∀ s', Same s s' →
      (∀ b i, if q.has n b i ∨ p.has n b i then (s'.mem b i).isSome else s'.mem b i = s.mem b i) →
      X .elem s') :
    wp (moveBackGo E p n d) Q X s := by
  induction n generalizing s d with
  | zero =>
    unfold moveBackGo; rw [wp_pure]
    subst hd
    exact hQ s (Same.refl s) rfl (fun b i => by mgrind)
  | succ n ih =>
    unfold moveBackGo
    have hd1 : d.sub 1 = q.add n := by
      subst hd; rw [Ptr.sub_of_le (by simp; omega)]; simp [Ptr.add]
    rw [wp_bind, hd1]
    obtain ⟨v, hv⟩ := Option.isSome_iff_exists.mp (hs (p.off + n) (by omega) (by omega))
    refine assign_move (v := v) (q := p.add n) hv rfl (hl _ (by simp) (by simp)) ?_ ?_
    · intro s1 hs1 ht1 hm1
      refine ih rfl ?_ ?_ ?_ ?_ ?_
      · intro i h1 h2
        have := hs i (by omega) (by omega)
        rw [hm1]; mgrind
      · intro i h1 h2
        have := hl i (by omega) (by omega)
        rw [hm1]; mgrind
      · mgrind
      · intro s2 hs2 ht2 hm2
        refine hQ s2 (hs1.trans hs2) (by omega) ?_
        intro b i
        rw [hm2, hm1, hm1]
        mgrind
      · intro hnm s2 hs2 hm2
        refine hX hnm s2 (hs1.trans hs2) ?_
        intro b i
        have := hm2 b i
        have := hm1 b i
        have := hl i
        have := hs i
        mgrind
    · intro hnm s1 w w' hs1 hm1
      refine hX hnm s1 hs1 ?_
      intro b i
      have := hm1 b i
      have := hl i
      have := hs i
      mgrind

theorem wp_moveBackward {first last d q : Ptr} {n : Nat} {Q : Ptr → St α → Prop}
    (hblk : first.blk = last.blk) (hn : last.off = first.off + n) (hd : d = q.add n)
    (hs : ∀ i, first.off ≤ i → i < last.off → (s.mem first.blk i).isSome)
    (hl : ∀ i, q.off ≤ i → i < q.off + n → (s.mem q.blk i).isSome)
    (hdir : q.blk ≠ first.blk ∨ first.off < q.off ∨ q.off + n ≤ first.off)
    (hQ : ∀ s', Same s s' → s'.tick = s.tick + n →
      (∀ b i, s'.mem b i = if q.has n b i then s.mem first.blk (first.off + (i - q.off))
        else if first.has n b i then (s.mem b i).map E.moved else s.mem b i) →
      Q q s')
    (hX : E.nothrowMoveAssign = false → ∀ s', Same s s' →
      (∀ b i, if q.has n b i ∨ first.has n b i then (s'.mem b i).isSome else s'.mem b i = s.mem b i) →
      X .elem s') :
    wp (moveBackward E first last d) Q X s := by
  unfold moveBackward
  rw [wp_bind]
  refine wp_distance hblk (by omega) ?_
  rw [show last.off - first.off = n by omega]
  exact wp_moveBackGo hd (fun i h1 h2 => hs i h1 (by omega)) hl hdir hQ hX

/-! ### Allocation -/

/-- Well-formed memory: block 0 does not exist, fresh ids are unused, cells of non-existing
blocks and cells beyond the end of a block are raw. -/
structure St.Wf (s : St α) : Prop where
  next_pos : 0 < s.next
  blk_zero : s.blk 0 = none
  fresh : ∀ b, s.next ≤ b → s.blk b = none
  dead : ∀ b, s.blk b = none → ∀ k, s.mem b k = none

theorem wp_allocate {a n : Nat} {Q : Ptr → St α → Prop} (hw : s.Wf)
    (hz : n = 0 → Q Ptr.null s)
    (hQ : n ≠ 0 → ∀ s', s'.mem = s.mem → s'.next = s.next + 1 → s'.tick = s.tick + 1 →
      (∀ c, s'.blk c = if c = s.next then some ⟨n, some a⟩ else s.blk c) →
      Q ⟨s.next, 0⟩ s')
    (hX : n ≠ 0 → ∀ s', Same s s' → s'.mem = s.mem → X .badAlloc s') :
    wp (allocate E a n) Q X s := by
  unfold wp allocate
  by_cases hn : n = 0
  · simp [hn, hz]
  · simp only [hn, if_false]
    by_cases ht : E.throws s.tick <;> simp [ht]
    · exact hX hn _ ⟨rfl, rfl⟩ rfl
    · refine hQ hn _ ?_ rfl rfl (fun c => rfl)
      funext b k
      by_cases hb : b = s.next
      · simp only [hb, if_true]; rw [hw.dead _ (hw.fresh _ (Nat.le_refl _))]
      · simp [hb]

theorem wp_deallocate {a n : Nat} {p : Ptr} {Q : Unit → St α → Prop}
    (hp : p ≠ Ptr.null) (hi : s.blk p.blk = some ⟨n, some a⟩) (ho : p.off = 0)
    (hraw : ∀ k, k < n → s.mem p.blk k = none)
    (hQ : ∀ s', s'.mem = s.mem → s'.next = s.next → s'.tick = s.tick →
      (∀ c, s'.blk c = if c = p.blk then none else s.blk c) → Q () s') :
    wp (deallocate a p n) Q X s := by
  unfold wp deallocate
  have hr : ∀ k, k < n → (s.mem p.blk k).isNone = true := fun k hk => by rw [hraw k hk]; rfl
  simp only [hp, if_false, hi, ho, and_self, if_true]
  rw [if_pos hr]
  exact hQ _ rfl rfl rfl (fun c => rfl)

theorem wp_deallocate_null {a n : Nat} {Q : Unit → St α → Prop} (hQ : Q () s) :
    wp (deallocate a Ptr.null n) Q X s := by
  unfold wp deallocate; simpa using hQ

end specs
end Sfl
