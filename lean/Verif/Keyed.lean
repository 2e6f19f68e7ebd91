import Verif.WorldTrack
/-
  Programs with flat containers each of which has its own comparator (ordered containers) or key equality (unordered
  containers). The comparator is a data member of the container; the functions that touch it are modelled here, on top
  of the client programs of `World.lean`, whose containers all have the same comparator.
-/

namespace Sfl.Keyed
open World
variable {α P Op I V ρ : Type} {K : Nat}

/-- The step of `World.lean` that a step with comparators takes on elements and memory. -/
def strip : WOp K Op (P × I) → WOp K Op I
  | .make i al init => .make i al init.2
  | .makeCopy i j al => .makeCopy i j al
  | .makeMove i j al => .makeMove i j al
  | .destroy i => .destroy i
  | .op i x => .op i x
  | .assignCopy i j => .assignCopy i j
  | .assignMove i j => .assignMove i j
  | .swap i j => .swap i j

/-- The comparator a step uses: that of the constructor argument (`data_(comp)`, small_flat_set.hpp:213-275), otherwise
`data_.ref_to_comp()` of the container called (small_flat_set.hpp:1583; small_unordered_flat_set.hpp:1065
`ref_to_equal()`). Copies, moves, assignments, swaps and destructors do not call it. -/
def used (c : Fin K → P) : WOp K Op (P × I) → P
  | .make _ _ init => init.1
  | .makeCopy _ j _ => c j
  | .makeMove _ j _ => c j
  | .destroy i => c i
  | .op i _ => c i
  | .assignCopy i _ => c i
  | .assignMove i _ => c i
  | .swap i _ => c i

/-- The comparators after a step, whether it returned or threw. `mv p` is what moving from the comparator `p` leaves.
Constructors: small_flat_set.hpp:177-275; copy constructors take a copy (317, 330), move constructors move (340, 350);
the assignments copy the comparator before they touch an element (1527, 1545); swap exchanges the comparators first
(932). The same statements are in small_flat_map.hpp:370-403, 1090, 1761, 1779, small_flat_multiset.hpp:317-350, 909,
1506, 1524, small_flat_multimap.hpp:370-403, 982, 1579, 1597, static_flat_set.hpp:193, 204, 227, 241, 568,
static_flat_map.hpp:247, 258, 281, 295, 739, static_flat_multiset.hpp:193, 204, 227, 241, 543,
static_flat_multimap.hpp:247, 258, 281, 295, 619, and with `ref_to_equal()` in small_unordered_flat_set.hpp:317-352,
920, 1435, 1453, small_unordered_flat_map.hpp:373-408, 1091, 1682, 1700, small_unordered_flat_multiset.hpp:317-352, 920,
1455, 1473, small_unordered_flat_multimap.hpp:372-407, 1006, 1541, 1559, static_unordered_flat_set.hpp:190, 201, 224, 238,
551, static_unordered_flat_map.hpp:245, 256, 279, 293, 733, static_unordered_flat_multiset.hpp:190, 201, 224, 238, 549,
static_unordered_flat_multimap.hpp:245, 256, 279, 293, 637. Simplified: copying, moving and swapping comparators does not
throw. Where there is no container (also after a constructor has thrown) the value of `c` has no meaning. -/
def next (mv : P → P) (c : Fin K → P) : WOp K Op (P × I) → Sq.Out (Option ρ) → Fin K → P
  | _, .skipped => c
  | .make i _ init, _ => upd c i init.1
  | .makeCopy i j _, _ => upd c i (c j)
  | .makeMove i j _, _ => upd (upd c i (c j)) j (mv (c j))
  | .destroy _, _ => c
  | .op _ _, _ => c
  | .assignCopy i j, _ => upd c i (c j)
  | .assignMove i j, _ => upd c i (c j)
  | .swap i j, _ => upd (upd c i (c j)) j (c i)

/-- One step of a client. `C p` is the container type with the comparator `p`. -/
def step (C : P → Cont K Op I V α ρ) (S : P → Sem Op I α ρ) (mv : P → P) (c : Fin K → P) (x : WOp K Op (P × I)) :
    M (Slots K V α) (Sq.Out (Option ρ) × (Fin K → P)) := do
  let out ← World.step (C (used c x)) (S (used c x)) (strip x)
  pure (out, next mv c x out)

/-- A client performing the steps one after the other. -/
def runOps (C : P → Cont K Op I V α ρ) (S : P → Sem Op I α ρ) (mv : P → P) :
    (Fin K → P) → List (WOp K Op (P × I)) → M (Slots K V α) (List (Sq.Out (Option ρ)) × (Fin K → P))
  | c, [] => pure ([], c)
  | c, x :: xs => do
    let r ← step C S mv c x
    let rs ← runOps C S mv r.2 xs
    pure (r.1 :: rs.1, rs.2)

/-- Look at all slots in the list. -/
def lookAll (C : P → Cont K Op I V α ρ) (c : Fin K → P) : List (Fin K) → M (Slots K V α) (List (Option (Nat × List α)))
  | [] => pure []
  | i :: is => do
    let r ← World.look (C (c i)) i
    let rs ← lookAll C c is
    pure (r :: rs)

/-- A complete program: perform the steps, look at all containers and their comparators, destroy those that are left. -/
def session (C : P → Cont K Op I V α ρ) (S : P → Sem Op I α ρ) (mv : P → P) (c : Fin K → P)
    (ops : List (WOp K Op (P × I))) :
    M (Slots K V α) (List (Sq.Out (Option ρ)) × List (Option (Nat × List α)) × (Fin K → P)) := do
  let r ← runOps C S mv c ops
  let obs ← lookAll C r.2 (List.finRange K)
  let _ ← runOps C S mv r.2 ((List.finRange K).map .destroy)
  pure (r.1, obs, r.2)

/-- A history of steps on lists with comparators. -/
inductive Run (S : P → Sem Op I α ρ) (mv : P → P) :
    (Fin K → P) → Abs K α → List (WOp K Op (P × I)) → List (Sq.Out (Option ρ)) → (Fin K → P) → Abs K α → Prop where
  | nil {c A} : Run S mv c A [] [] c A
  | cons {c A B D d x xs out outs} : WStep (S (used c x)) A (strip x) out B → Run S mv (next mv c x out) B xs outs d D →
      Run S mv c A (x :: xs) (out :: outs) d D

/-- Which containers may violate their invariant, as far as the client can tell (`World.track`). -/
def trackAll (Fl : P → Flags Op) (mv : P → P) :
    (Fin K → P) → (Fin K → Bool) → List (WOp K Op (P × I)) → List (Sq.Out (Option ρ)) → Fin K → Bool
  | c, d, x :: xs, out :: outs => trackAll Fl mv (next mv c x out) (track (Fl (used c x)) d (strip x) out) xs outs
  | _, d, _, _ => d

/-- Every container not marked satisfies the invariant that belongs to its own comparator. -/
def InOrder (G : P → List α → Prop) (c : Fin K → P) (d : Fin K → Bool) (A : Abs K α) : Prop :=
  ∀ i al xs, A i = some (al, xs) → d i = false → G (c i) xs

section
variable {C : P → Cont K Op I V α ρ} {S : P → Sem Op I α ρ} {R : Rep K V α} {mv : P → P} {c : Fin K → P} {m0 : St α}
  {G : P → List α → Prop} {Fl : P → Flags Op} {d : Fin K → Bool} {A B : Abs K α}

theorem runOps_spec (hS : ∀ p, Spec (C p) (S p) R) (ops : List (WOp K Op (P × I))) :
    ∀ {c : Fin K → P} {o : Slots K V α} {A : Abs K α} {F : Fin K → Foot}, Inv R m0 o A F →
    wp (runOps C S mv c ops) (fun r o' => ∃ A' F', Inv R m0 o' A' F' ∧ Run S mv c A ops r.1 r.2 A') (fun _ _ => False) o := by
  induction ops with
  | nil => intro c o A F h; exact ⟨A, F, h, .nil⟩
  | cons x xs ih =>
    intro c o A F h
    unfold runOps step
    rw [wp_bind, wp_bind]
    refine wp_mono ((hS _).step h (strip x)) ?_ (fun _ _ h => h)
    rintro out o1 ⟨A1, F1, h1, w1⟩
    rw [wp_pure, wp_bind]
    refine wp_mono (ih h1) ?_ (fun _ _ h => h)
    rintro r o2 ⟨A2, F2, h2, w2⟩
    exact ⟨A2, F2, h2, .cons w1 w2⟩

theorem lookAll_spec (hS : ∀ p, Spec (C p) (S p) R) {o : Slots K V α} {F : Fin K → Foot} (h : Inv R m0 o A F)
    (is : List (Fin K)) : wp (lookAll C c is) (fun r o' => r = is.map A ∧ o' = o) (fun _ _ => False) o := by
  induction is with
  | nil => exact ⟨rfl, rfl⟩
  | cons i is ih =>
    unfold lookAll
    rw [wp_bind]
    refine wp_mono ((hS _).look h i) ?_ (fun _ _ h => h)
    rintro r _ ⟨rfl, rfl⟩
    rw [wp_bind]
    refine wp_mono ih ?_ (fun _ _ h => h)
    rintro rs _ ⟨rfl, rfl⟩
    exact ⟨rfl, rfl⟩

theorem run_destroys {is : List (Fin K)} {outs : List (Sq.Out (Option ρ))} {c' : Fin K → P} :
    Run S mv c A (is.map .destroy) outs c' B →
    (∀ j, A j = none → B j = none) ∧ ∀ j ∈ is, B j = none := by
  induction is generalizing c A outs with
  | nil => intro h; cases h; exact ⟨fun _ h => h, fun _ h => by cases h⟩
  | cons i is ih =>
    intro h
    cases h with
    | cons h1 h2 =>
      obtain ⟨k1, k2⟩ := ih h2
      simp only [strip] at h1
      cases h1 with
      | destroy hi =>
        refine ⟨fun j hj => k1 j ?_, fun j hj => ?_⟩
        · unfold upd; split
          · rfl
          · exact hj
        · rcases List.mem_cons.mp hj with rfl | hj
          · exact k1 _ (by unfold upd; rw [if_pos rfl])
          · exact k2 j hj
      | destroySkip hi =>
        refine ⟨k1, fun j hj => ?_⟩
        rcases List.mem_cons.mp hj with rfl | hj
        · exact k1 _ hi
        · exact k2 j hj

/-- Programs run without undefined behaviour, as specified, and restore memory. -/
theorem session_spec [hP : Nonempty P] (hS : ∀ p, Spec (C p) (S p) R) {F : Fin K → Foot}
    (h : Inv R m0 (⟨fun _ => none, m0⟩ : Slots K V α) (fun _ => none) F) (h0 : ∀ i, R.raw i m0)
    (ops : List (WOp K Op (P × I))) :
    ∃ log A c' o', session C S mv c ops ⟨fun _ => none, m0⟩ = .ok (log, (List.finRange K).map A, c') o' ∧
      Run S mv c (fun _ => none) ops log c' A ∧ o'.m.mem = m0.mem ∧ o'.m.blk = m0.blk := by
  have : wp (session C S mv c ops) (fun r o' => ∃ A : Abs K α, r.2.1 = (List.finRange K).map A ∧
      Run S mv c (fun _ => none) ops r.1 r.2.2 A ∧ o'.m.mem = m0.mem ∧ o'.m.blk = m0.blk) (fun _ _ => False)
      (⟨fun _ => none, m0⟩ : Slots K V α) := by
    unfold session
    rw [wp_bind]
    refine wp_mono (runOps_spec hS ops h) ?_ (fun _ _ h => h)
    rintro r o1 ⟨A, F, h1, w1⟩
    rw [wp_bind]
    refine wp_mono (lookAll_spec hS h1 _) ?_ (fun _ _ h => h)
    rintro obs _ ⟨rfl, rfl⟩
    rw [wp_bind]
    refine wp_mono (runOps_spec hS _ h1) ?_ (fun _ _ h => h)
    rintro r2 o2 ⟨B, F2, h2, w2⟩
    rw [wp_pure]
    exact ⟨A, rfl, w1, h2.restored (hS (Classical.choice hP)).ok h0 fun i => (run_destroys w2).2 i (List.mem_finRange i)⟩
  obtain ⟨r, o', hx, A, h1, h2, h3⟩ : ∃ r o', session C S mv c ops (⟨fun _ => none, m0⟩ : Slots K V α) = .ok r o' ∧
      ∃ A : Abs K α, r.2.1 = (List.finRange K).map A ∧
      Run S mv c (fun _ => none) ops r.1 r.2.2 A ∧ o'.m.mem = m0.mem ∧ o'.m.blk = m0.blk := by
    unfold wp at this
    cases hp : session C S mv c ops (⟨fun _ => none, m0⟩ : Slots K V α) with
    | ok r o' => rw [hp] at this; exact ⟨r, o', rfl, this⟩
    | exn e o' => rw [hp] at this; exact this.elim
    | ub r => rw [hp] at this; exact this.elim
  exact ⟨r.1, A, r.2.2, o', by rw [← h1]; exact hx, h2, h3⟩

/-! ### Order under the container's own comparator -/

theorem InOrder.one (h : InOrder G c d A) (i : Fin K) (p : P) (a : Option (Nat × List α)) (b : Bool)
    (hb : ∀ al xs, a = some (al, xs) → b = false → G p xs) : InOrder G (upd c i p) (upd d i b) (upd A i a) := by
  intro k al xs hk hd
  unfold upd at hk hd ⊢
  split at hk
  · rw [if_pos ‹_›] at hd; rw [if_pos ‹_›]; exact hb al xs hk hd
  · rw [if_neg ‹_›] at hd; rw [if_neg ‹_›]; exact h k al xs hk hd

theorem InOrder.mark (h : InOrder G c d A) (i : Fin K) (p : P) (a : Option (Nat × List α)) :
    InOrder G (upd c i p) (upd d i true) (upd A i a) :=
  h.one i p a true (fun _ _ _ h => by cases h)

theorem InOrder.markA (h : InOrder G c d A) (i : Fin K) (p : P) : InOrder G (upd c i p) (upd d i true) A := by
  have := h.mark i p (A i)
  rwa [upd_self] at this

theorem InOrder.markC (h : InOrder G c d A) (i : Fin K) (a : Option (Nat × List α)) :
    InOrder G c (upd d i true) (upd A i a) := by
  have := h.mark i (c i) a
  rwa [upd_self] at this

theorem InOrder.oneC (h : InOrder G c d A) (i : Fin K) (a : Option (Nat × List α)) (b : Bool)
    (hb : ∀ al xs, a = some (al, xs) → b = false → G (c i) xs) : InOrder G c (upd d i b) (upd A i a) := by
  have := h.one i (c i) a b hb
  rwa [upd_self] at this

/-- Nothing is known or needed about the comparator of an empty slot. -/
theorem InOrder.fresh (h : InOrder G c d A) {i : Fin K} (hi : A i = none) (p : P) : InOrder G (upd c i p) d A := by
  intro k al xs hk hd
  unfold upd
  split
  · rename_i e; rw [e, hi] at hk; cases hk
  · exact h k al xs hk hd

theorem InOrder.step (hS : ∀ p, Keeps (S p) (G p) (Fl p)) {x : WOp K Op (P × I)} {out : Sq.Out (Option ρ)}
    (h : InOrder G c d A) (hs : WStep (S (used c x)) A (strip x) out B) :
    InOrder G (next mv c x out) (track (Fl (used c x)) d (strip x) out) B := by
  cases x with
  | make i al init =>
    cases hs with
    | make _ _ h2 => exact h.one _ _ _ _ fun al xs e _ => by cases e; exact (hS _).init _ _ h2
    | makeFail h1 => exact h.fresh h1 _
    | makeSkip => exact h
  | makeCopy i j al =>
    cases hs with
    | copy _ h2 => exact h.one _ _ _ _ fun al xs e hd => by cases e; exact h _ _ _ h2 hd
    | copyFail h1 => exact h.fresh h1 _
    | copySkip => exact h
  | makeMove i j al =>
    cases hs with
    | move _ h2 => exact (h.one _ _ _ _ fun al xs e hd => by cases e; exact h _ _ _ h2 hd).mark _ _ _
    | moveFail h1 => exact (h.fresh h1 _).mark _ _ _
    | moveSkip => exact h
  | destroy i =>
    cases hs with
    | destroy => exact h.oneC _ _ _ fun al xs e _ => by cases e
    | destroySkip => exact h
  | op i op =>
    cases hs with
    | op h1 hp h2 =>
      refine h.oneC _ _ _ fun al xs e hd => ?_
      cases e
      exact (hS _).ok _ _ _ _ _ hp h2 (h _ _ _ h1) hd
    | opFail h1 hp h2 =>
      refine h.oneC _ _ _ fun al xs e hd => ?_
      cases e
      exact (hS _).fail _ _ _ _ _ hp h2 (h _ _ _ h1) hd
    | opSkip => exact h
  | assignCopy i j =>
    cases hs with
    | assignCopy _ _ h2 _ => exact h.one _ _ _ _ fun al xs e hd => by cases e; exact h _ _ _ h2 hd
    | assignCopyFail => exact h.mark _ _ _
    | assignCopyEarly => exact h.markA _ _
    | assignCopySelf => show InOrder _ (upd c _ (c _)) (upd d _ (d _)) _; rw [upd_self, upd_self]; exact h
    | assignCopySkip => exact h
  | assignMove i j =>
    cases hs with
    | assignMove _ _ h2 _ => exact (h.one _ _ _ _ fun al xs e hd => by cases e; exact h _ _ _ h2 hd).markC _ _
    | assignMoveFail => exact (h.mark _ _ _).markC _ _
    | assignMoveEarly =>
      have := (h.markA i (c j)).markC j (A j)
      rwa [upd_self] at this
    | assignMoveSkip => exact h
  | swap i j =>
    cases hs with
    | swap _ h1 h2 =>
      exact (h.one _ _ _ _ fun al xs e hd => by cases e; exact h _ _ _ h2 hd).one _ _ _ _ fun al xs e hd => by
        cases e; exact h _ _ _ h1 hd
    | swapFail => exact (h.mark _ _ _).mark _ _ _
    | swapSelf =>
      show InOrder _ (upd (upd c _ (c _)) _ (c _)) (upd (upd d _ (d _)) _ (d _)) _
      rw [upd_self, upd_self, upd_self, upd_self]; exact h
    | swapSkip => exact h

/-- Containers that are not marked satisfy the invariant of their own comparator at the end of any history. -/
theorem InOrder.run (hS : ∀ p, Keeps (S p) (G p) (Fl p)) {ops : List (WOp K Op (P × I))} {outs : List (Sq.Out (Option ρ))}
    {c' : Fin K → P} (h : InOrder G c d A) (hr : Run S mv c A ops outs c' B) :
    InOrder G c' (trackAll Fl mv c d ops outs) B := by
  induction hr generalizing d with
  | nil => exact h
  | cons hs _ ih => exact ih (h.step hS hs)

/-- A container of a running program. -/
theorem runOps_at (hS : ∀ p, Spec (C p) (S p) R) (hK : ∀ p, Keeps (S p) (G p) (Fl p)) {F : Fin K → Foot}
    (h : Inv R m0 (⟨fun _ => none, m0⟩ : Slots K V α) (fun _ => none) F) {ops : List (WOp K Op (P × I))}
    {log : List (Sq.Out (Option ρ))} {c' : Fin K → P} {s : Slots K V α} {i : Fin K} {v : V}
    (hx : runOps C S mv c ops ⟨fun _ => none, m0⟩ = .ok (log, c') s) (hv : s.obj i = some v) :
    s.m.Wf ∧ ∃ al xs F, R.rep i s.m v al xs F ∧
      (trackAll Fl mv c (fun _ => false) ops log i = false → G (c' i) xs) := by
  obtain ⟨A, F, k, w⟩ := wp_ok hx (runOps_spec hS ops h)
  have ho := InOrder.run (c := c) (d := fun _ => false) hK (fun _ _ _ h => by cases h) w
  have hc := k.cell i
  rw [hv] at hc
  cases hA : A i with
  | none => rw [hA] at hc; exact hc.elim
  | some a => rw [hA] at hc; exact ⟨k.wf, a.1, a.2, _, hc, ho i _ _ hA⟩

/-- Nothing is marked as long as nothing throws, nothing is moved from and all modifiers keep the flag off. -/
theorem trackAll_none (ops : List (WOp K Op (P × I))) (log : List (Sq.Out (Option ρ))) (c : Fin K → P)
    (hF : ∀ p i op, .op i op ∈ ops → (Fl p).ok op false = false)
    (h1 : ∀ op ∈ ops, op.moves = false) (h2 : ∀ out ∈ log, ∀ e, out ≠ .threw e) :
    trackAll Fl mv c (fun _ : Fin K => false) ops log = fun _ => false := by
  have hu : ∀ i : Fin K, upd (fun _ : Fin K => false) i false = fun _ => false := by
    intro i; funext k; simp [upd]
  induction ops generalizing log c with
  | nil => cases log <;> rfl
  | cons op ops ih =>
    cases log with
    | nil => rfl
    | cons out log =>
      have : track (Fl (used c op)) (fun _ => false) (strip op) out = fun _ => false := by
        have a1 := h1 op (by simp)
        have a2 := h2 out (by simp)
        cases out with
        | skipped => cases op <;> rfl
        | threw e => exact absurd rfl (a2 e)
        | ok r =>
          cases op with
          | op i op => simp only [strip, track]; rw [hF _ i op (by simp), hu]
          | makeMove => cases a1
          | assignMove => cases a1
          | _ => simp [strip, track, hu]
      simp only [trackAll, this]
      exact ih log _ (fun p i op h => hF p i op (by simp [h])) (fun op h => h1 op (by simp [h])) (fun out h => h2 out (by simp [h]))

end

end Sfl.Keyed
