import Verif.SegView
/-
  Simulation: a program on the segmented memory does what another program does on the contiguous one.
-/

set_option linter.unusedSimpArgs false

namespace Sfl
variable {α β β' γ γ' δ : Type}

/-- The environment with another `max_size()`. -/
def Env.lim (E : Env α) (k : Nat) : Env α := { E with maxSize := k }

/-- Corresponding outcomes; nothing is claimed when the contiguous program has undefined behaviour. -/
def SimRes (V : View) (al tcap : Nat) (R : β → β' → Prop) : Res (St α) β → Res (St α) β' → Prop
  | _, .ub _ => True
  | .ok b s, .ok b' s' => R b b' ∧ s' = V.view s ∧ V.Lay al tcap s
  | .exn e s, .exn e' s' => e' = e ∧ s' = V.view s ∧ V.Lay al tcap s
  | _, _ => False

/-- Running `m` is running `m'` on the contiguous memory. -/
def Sim (V : View) (al tcap : Nat) (m : M (St α) β) (m' : M (St α) β') (R : β → β' → Prop) : Prop :=
  ∀ s, V.Lay al tcap s → SimRes V al tcap R (m s) (m' (V.view s))

section laws
variable {σ : Type}

theorem M.bind_assoc (m : M σ β) (f : β → M σ γ) (g : γ → M σ δ) :
    (m >>= f) >>= g = m >>= fun b => f b >>= g := by
  funext s
  show M.bind (M.bind m f) g s = M.bind m (fun b => M.bind (f b) g) s
  unfold M.bind
  cases m s <;> rfl

theorem M.bind_run (m : M σ β) (f : β → M σ γ) (s : σ) :
    (m >>= f) s = match m s with
      | .ok b s' => f b s'
      | .exn e s' => .exn e s'
      | .ub r => .ub r := by
  show M.bind m f s = _
  unfold M.bind
  cases m s <;> rfl

theorem M.tryCatch_run (m : M σ β) (f : Exn → M σ β) (s : σ) :
    M.tryCatch m f s = match m s with
      | .ok b s' => .ok b s'
      | .exn e s' => f e s'
      | .ub r => .ub r := by
  unfold M.tryCatch
  cases m s <;> rfl

theorem M.pure_bind' (b : β) (f : β → M σ γ) : (pure b : M σ β) >>= f = f b := rfl

theorem M.bind_pure' (m : M σ β) : m >>= pure = m := by
  funext s
  show M.bind m M.pure s = m s
  unfold M.bind
  cases m s <;> rfl

end laws

section sim
variable {V : View} {al tcap : Nat} {R : β → β' → Prop} {E : Env α} {lim : Nat}

theorem Sim.pure {b : β} {b' : β'} (h : R b b') : Sim (α := α) V al tcap (pure b) (pure b') R :=
  fun _ hs => ⟨h, rfl, hs⟩

theorem Sim.throw {e : Exn} : Sim (α := α) V al tcap (M.throw e) (M.throw e) R :=
  fun _ hs => ⟨rfl, rfl, hs⟩

theorem Sim.bind {m : M (St α) β} {m' : M (St α) β'} {f : β → M (St α) γ} {f' : β' → M (St α) γ'} {S : γ → γ' → Prop}
    (h : Sim V al tcap m m' R) (hf : ∀ b b', R b b' → Sim V al tcap (f b) (f' b') S) :
    Sim V al tcap (m >>= f) (m' >>= f') S := by
  intro s hs
  have := h s hs
  show SimRes V al tcap S (M.bind m f s) (M.bind m' f' (V.view s))
  unfold M.bind
  cases h1 : m s <;> cases h2 : m' (V.view s) <;> rw [h1, h2] at this <;> simp only [SimRes] at this ⊢
  · obtain ⟨hr, rfl, hl⟩ := this
    exact hf _ _ hr _ hl
  · exact this

theorem Sim.tryCatch {m : M (St α) β} {m' : M (St α) β'} {f : Exn → M (St α) β} {f' : Exn → M (St α) β'}
    (h : Sim V al tcap m m' R) (hf : ∀ e, Sim V al tcap (f e) (f' e) R) :
    Sim V al tcap (M.tryCatch m f) (M.tryCatch m' f') R := by
  intro s hs
  have := h s hs
  unfold M.tryCatch
  cases h1 : m s <;> cases h2 : m' (V.view s) <;> rw [h1, h2] at this <;> simp only [SimRes] at this ⊢
  · exact this
  · obtain ⟨rfl, rfl, hl⟩ := this
    exact hf _ _ hl

theorem Sim.mono {m : M (St α) β} {m' : M (St α) β'} {S : β → β' → Prop} (h : Sim V al tcap m m' R)
    (hi : ∀ b b', R b b' → S b b') : Sim V al tcap m m' S := by
  intro s hs
  have := h s hs
  cases h1 : m s <;> cases h2 : m' (V.view s) <;> rw [h1, h2] at this <;> simp only [SimRes] at this ⊢
  · exact ⟨hi _ _ this.1, this.2⟩
  · exact this

/-- A step of `m` that only computes. -/
theorem Sim.step {m : M (St α) β} {b : β} {f : β → M (St α) γ} {m' : M (St α) γ'} {S : γ → γ' → Prop}
    (h : ∀ s, m s = .ok b s) (hf : Sim V al tcap (f b) m' S) : Sim V al tcap (m >>= f) m' S := by
  intro s hs
  have e : (m >>= f) s = f b s := by
    show M.bind m f s = _
    unfold M.bind; rw [h]
  rw [e]
  exact hf s hs

/-- A step of `m'` that only computes. -/
theorem Sim.step' {m' : M (St α) β'} {b' : β'} {f' : β' → M (St α) γ'} {m : M (St α) γ} {S : γ → γ' → Prop}
    (h : ∀ s, m' s = .ok b' s) (hf : Sim V al tcap m (f' b') S) : Sim V al tcap m (m' >>= f') S := by
  intro s hs
  have e : (m' >>= f') (V.view s) = f' b' (V.view s) := by
    show M.bind m' f' (V.view s) = _
    unfold M.bind; rw [h]
  rw [e]
  exact hf s hs

/-- A step of `m'` that only computes, or is undefined behaviour. -/
theorem Sim.step_ub {m' : M (St α) β'} {f' : β' → M (St α) γ'} {m : M (St α) γ} {S : γ → γ' → Prop}
    (h : ∀ s, (∃ r, m' s = .ub r) ∨ ∃ b', m' s = .ok b' s ∧ Sim V al tcap m (f' b') S) :
    Sim V al tcap m (m' >>= f') S := by
  intro s hs
  show SimRes V al tcap S (m s) (M.bind m' f' (V.view s))
  unfold M.bind
  rcases h (V.view s) with ⟨r, hr⟩ | ⟨b', hb, hf⟩
  · rw [hr]; cases m s <;> simp [SimRes]
  · rw [hb]; exact hf s hs

theorem distance_run {σ : Type} {p q : Ptr} (h1 : p.blk = q.blk) (h2 : p.off ≤ q.off) (s : σ) :
    distance p q s = .ok (q.off - p.off) s := by
  unfold distance; rw [if_pos ⟨h1, h2⟩]

theorem SimRes.ub_right {x : Res (St α) β} {r : UB} : SimRes V al tcap R x (.ub r : Res (St α) β') := by
  cases x <;> simp [SimRes]

/-! ### Operations on single elements -/

theorem Sim.construct {p : Ptr} {a : Arg α} :
    Sim V al tcap (construct E (V.map p) (a.map V.map)) (construct (E.lim lim) p a) (fun _ _ => True) := by
  intro s hs
  unfold Sfl.construct
  cases hv : a.value (V.view s) with
  | none => exact SimRes.ub_right
  | some v =>
    rw [View.value_view hv]
    simp only
    cases hb : (V.view s).inB p with
    | false => exact SimRes.ub_right
    | true =>
      have hp := View.valid_of_inB hb
      have hb' := hs.inB hb
      have hb2 : (s.bump).inB (V.map p) = true := hb'
      rw [hb']
      simp only [Bool.true_eq_false, if_false]
      cases hm : (V.view s).mem p.blk p.off with
      | some w => exact SimRes.ub_right
      | none =>
        rw [View.view_mem hp] at hm
        rw [hm]
        simp only [Option.isSome_none, Bool.false_eq_true, if_false]
        rw [Arg.map_src, Arg.map_isRv]
        have e1 : a.src (E.lim lim) = a.src E := by cases a <;> rfl
        rw [e1]
        have e2 : (E.lim lim).throws = E.throws := rfl
        have e3 : (E.lim lim).nothrowMoveCtor = E.nothrowMoveCtor := rfl
        have e4 : (E.lim lim).failSrc = E.failSrc := rfl
        have e5 : (E.lim lim).moved = E.moved := rfl
        have e6 : (V.view s).tick = s.tick := rfl
        rw [e2, e3, e4, e5, e6]
        cases hsrc : a.src E with
        | none =>
          simp only [Option.map_none]
          split
          · exact ⟨rfl, View.view_bump, hs.bump⟩
          · exact ⟨trivial, (hs.bump.view_put hp _).symm, hs.bump.put hp _ (Or.inl hb2)⟩
        | some q =>
          have hq := View.src_mem hv hsrc
          have hqv := View.valid_of_mem hq
          simp only [Option.map_some]
          split
          · exact ⟨rfl, (hs.bump.view_put hqv _).symm, hs.bump.put_live (p := q) hq _⟩
          · have h1 := hs.bump.put hp (some v) (Or.inl hb2)
            have h2 := hs.bump.view_put hp (some v)
            have hne : ∃ w, (V.view (s.bump.put (V.map p) (some v))).mem q.blk q.off = some w := by
              rw [h2, put_mem]
              split
              · exact ⟨v, rfl⟩
              · exact ⟨v, hq⟩
            obtain ⟨w, hw⟩ := hne
            refine ⟨trivial, ?_, h1.put_live hw _⟩
            rw [h1.view_put hqv, h2]
            rfl

theorem Sim.assign {p : Ptr} {a : Arg α} :
    Sim V al tcap (assign E (V.map p) (a.map V.map)) (assign (E.lim lim) p a) (fun _ _ => True) := by
  intro s hs
  unfold Sfl.assign
  cases hv : a.value (V.view s) with
  | none => exact SimRes.ub_right
  | some v =>
    rw [View.value_view hv]
    simp only
    cases hm : (V.view s).mem p.blk p.off with
    | none => exact SimRes.ub_right
    | some old =>
      have hp := View.valid_of_mem hm
      have hm' := hm
      rw [View.view_mem hp] at hm'
      rw [hm']
      simp only
      rw [Arg.map_src, Arg.map_isRv]
      have e1 : a.src (E.lim lim) = a.src E := by cases a <;> rfl
      rw [e1]
      have e2 : (E.lim lim).throws = E.throws := rfl
      have e3 : (E.lim lim).nothrowMoveAssign = E.nothrowMoveAssign := rfl
      have e4 : (E.lim lim).failSrc = E.failSrc := rfl
      have e5 : (E.lim lim).moved = E.moved := rfl
      have e7 : (E.lim lim).failDst = E.failDst := rfl
      have e6 : (V.view s).tick = s.tick := rfl
      rw [e2, e3, e4, e5, e6, e7]
      have hl : ∀ c, V.Lay al tcap (s.bump.put (V.map p) c) := fun c => hs.bump.put_live (p := p) hm c
      cases hsrc : a.src E with
      | none =>
        simp only [Option.map_none]
        split
        · exact ⟨rfl, (hs.bump.view_put hp _).symm, hl _⟩
        · exact ⟨trivial, (hs.bump.view_put hp _).symm, hl _⟩
      | some q =>
        have hq := View.src_mem hv hsrc
        have hqv := View.valid_of_mem hq
        have hne : ∀ c, ∃ w, (V.view (s.bump.put (V.map p) (some c))).mem q.blk q.off = some w := by
          intro c
          rw [hs.bump.view_put hp (some c), put_mem]
          split
          · exact ⟨c, rfl⟩
          · exact ⟨v, hq⟩
        simp only [Option.map_some]
        split
        · obtain ⟨w, hw⟩ := hne (E.failDst s.tick old v)
          refine ⟨rfl, ?_, (hl _).put_live hw _⟩
          rw [(hl _).view_put hqv, hs.bump.view_put hp]
          rfl
        · obtain ⟨w, hw⟩ := hne v
          refine ⟨trivial, ?_, (hl _).put_live hw _⟩
          rw [(hl _).view_put hqv, hs.bump.view_put hp]
          rfl

theorem Sim.mkTmp {a : Arg α} : Sim V al tcap (mkTmp E (a.map V.map)) (mkTmp (E.lim lim) a) Eq := by
  intro s hs
  unfold Sfl.mkTmp
  cases hv : a.value (V.view s) with
  | none => exact SimRes.ub_right
  | some v =>
    rw [View.value_view hv]
    simp only
    rw [Arg.map_src, Arg.map_isRv]
    have e1 : a.src (E.lim lim) = a.src E := by cases a <;> rfl
    rw [e1]
    have e2 : (E.lim lim).throws = E.throws := rfl
    have e3 : (E.lim lim).nothrowMoveCtor = E.nothrowMoveCtor := rfl
    have e4 : (E.lim lim).failSrc = E.failSrc := rfl
    have e5 : (E.lim lim).moved = E.moved := rfl
    have e6 : (V.view s).tick = s.tick := rfl
    rw [e2, e3, e4, e5, e6]
    cases hsrc : a.src E with
    | none =>
      simp only [Option.map_none]
      split
      · exact ⟨rfl, View.view_bump, hs.bump⟩
      · exact ⟨rfl, View.view_bump, hs.bump⟩
    | some q =>
      have hq := View.src_mem hv hsrc
      have hqv := View.valid_of_mem hq
      simp only [Option.map_some]
      split
      · exact ⟨rfl, (hs.bump.view_put hqv _).symm, hs.bump.put_live (p := q) hq _⟩
      · exact ⟨rfl, (hs.bump.view_put hqv _).symm, hs.bump.put_live (p := q) hq _⟩

theorem Sim.destroyAt {p : Ptr} : Sim (α := α) V al tcap (destroyAt (V.map p)) (destroyAt p) (fun _ _ => True) := by
  intro s hs
  unfold Sfl.destroyAt
  cases hm : (V.view s).mem p.blk p.off with
  | none => exact SimRes.ub_right
  | some old =>
    have hp := View.valid_of_mem hm
    have hm' := hm
    rw [View.view_mem hp] at hm'
    rw [hm']
    exact ⟨trivial, (hs.view_put hp _).symm, hs.put hp _ (Or.inr rfl)⟩

theorem Sim.readAt {p : Ptr} : Sim (α := α) V al tcap (readAt (V.map p)) (readAt p) Eq := by
  intro s hs
  unfold Sfl.readAt
  cases hm : (V.view s).mem p.blk p.off with
  | none => exact SimRes.ub_right
  | some old =>
    have hp := View.valid_of_mem hm
    rw [View.view_mem hp] at hm
    rw [hm]
    exact ⟨rfl, rfl, hs⟩

end sim

/-! ### Splitting the contiguous algorithms -/

section split
variable {E : Env α}

theorem args_eq (mk : Ptr → Arg α) (b p n : Nat) : args mk ⟨b, p⟩ n = (List.range' p n).map (fun i => mk ⟨b, i⟩) := by
  induction n generalizing p with
  | zero => rfl
  | succ n ih =>
    simp only [args, List.range'_succ, List.map_cons]
    rw [← ih (p + 1)]
    rfl

@[simp] theorem args_length (mk : Ptr → Arg α) (p : Ptr) (n : Nat) : (args mk p n).length = n := by
  induction n generalizing p with
  | zero => rfl
  | succ n ih => simp [args, ih]

theorem destroyN_add (p : Ptr) (m n : Nat) :
    (destroyN p (m + n) : M (St α) Unit) = destroyN p m >>= fun _ => destroyN (p.add m) n := by
  induction m generalizing p with
  | zero => rw [Nat.zero_add]; rfl
  | succ m ih =>
    rw [Nat.succ_add]
    show destroyAt p >>= (fun _ => destroyN (p.add 1) (m + n)) = (destroyAt p >>= fun _ => destroyN (p.add 1) m) >>= _
    rw [M.bind_assoc]
    congr 1
    funext _
    rw [ih]
    congr 1
    funext _
    congr 1
    simp [Ptr.add]; omega

/-- What `destroy` does. -/
theorem destroyN_run (p : Ptr) (n : Nat) (s : St α) :
    destroyN p n s = if ∀ k, k < n → (s.mem p.blk (p.off + k)).isSome
      then .ok () { s with mem := fun b k => if b = p.blk ∧ p.off ≤ k ∧ k < p.off + n then none else s.mem b k }
      else .ub .destroyRaw := by
  induction n generalizing p s with
  | zero =>
    rw [if_pos (by intro k hk; omega)]
    show Res.ok () s = _
    congr 1
    cases s
    congr 1
    funext b k
    simp only
    rw [if_neg (by omega)]
  | succ n ih =>
    show M.bind (destroyAt p) (fun _ => destroyN (p.add 1) n) s = _
    unfold M.bind destroyAt
    cases hm : s.mem p.blk p.off with
    | none =>
      simp only
      rw [if_neg]
      intro h
      have := h 0 (by omega)
      simp [hm] at this
    | some v =>
      simp only
      rw [ih]
      have e : (∀ k, k < n → ((s.put p none).mem (p.add 1).blk ((p.add 1).off + k)).isSome = true) ↔
          ∀ k, k < n + 1 → (s.mem p.blk (p.off + k)).isSome = true := by
        constructor
        · intro h k hk
          cases k with
          | zero => simp [hm]
          | succ k =>
            have h1 := h k (by omega)
            rw [put_mem, if_neg (by simp [Ptr.add]; omega)] at h1
            simpa [Ptr.add, Nat.add_assoc, Nat.add_comm 1] using h1
        · intro h k hk
          have h1 := h (k + 1) (by omega)
          rw [put_mem, if_neg (by simp [Ptr.add]; omega)]
          simpa [Ptr.add, Nat.add_assoc, Nat.add_comm 1] using h1
      by_cases hc : ∀ k, k < n + 1 → (s.mem p.blk (p.off + k)).isSome = true
      · rw [if_pos hc, if_pos (e.mpr hc)]
        congr 2
        unfold St.put
        dsimp only
        congr 1
        funext b k
        simp only [Ptr.add]
        by_cases h1 : b = p.blk
        · by_cases h2 : k = p.off
          · simp [h1, h2]
          · have : (p.off + 1 ≤ k ∧ k < p.off + 1 + n) ↔ (p.off ≤ k ∧ k < p.off + (n + 1)) := by omega
            simp [h1, h2, this]
        · simp [h1]
      · rw [if_neg hc, if_neg (fun h => hc (e.mp h))]

/-- Destroying the end of a range first makes no difference. -/
theorem destroyN_swap (p : Ptr) (m n : Nat) :
    (destroyN p (m + n) : M (St α) Unit) = destroyN (p.add m) n >>= fun _ => destroyN p m := by
  funext s
  rw [destroyN_run]
  show _ = M.bind (destroyN (p.add m) n) (fun _ => destroyN p m) s
  unfold M.bind
  rw [destroyN_run]
  by_cases h1 : ∀ k, k < n → (s.mem (p.add m).blk ((p.add m).off + k)).isSome = true
  · rw [if_pos h1]
    dsimp only
    rw [destroyN_run]
    dsimp only
    by_cases h2 : ∀ k, k < m → (s.mem p.blk (p.off + k)).isSome = true
    · rw [if_pos, if_pos]
      · congr 2
        funext b k
        simp only [Ptr.add]
        by_cases hb : b = p.blk
        · have : (p.off ≤ k ∧ k < p.off + (m + n)) ↔ (p.off ≤ k ∧ k < p.off + m) ∨ (p.off + m ≤ k ∧ k < p.off + m + n) := by
            omega
          simp only [hb, true_and, this]
          by_cases h3 : p.off ≤ k ∧ k < p.off + m
          · simp [h3]
          · simp [h3]
        · simp [hb]
      · intro k hk
        rw [if_neg (by simp [Ptr.add]; omega)]
        exact h2 k hk
      · intro k hk
        by_cases hkm : k < m
        · exact h2 k hkm
        · have := h1 (k - m) (by omega)
          simp only [Ptr.add] at this
          rw [show p.off + m + (k - m) = p.off + k by omega] at this
          exact this
    · rw [if_neg, if_neg]
      · intro h
        apply h2
        intro k hk
        have := h k hk
        rw [if_neg (by simp [Ptr.add]; omega)] at this
        exact this
      · intro h; exact h2 fun k hk => h k (by omega)
  · rw [if_neg h1, if_neg]
    intro h
    apply h1
    intro k hk
    have := h (m + k) (by omega)
    rw [← Nat.add_assoc] at this
    exact this

theorem destroyRange_eq (b p q : Nat) (h : p ≤ q) :
    (destroyRange ⟨b, p⟩ ⟨b, q⟩ : M (St α) Unit) = destroyN ⟨b, p⟩ (q - p) := by
  funext s
  unfold destroyRange
  rw [M.bind_run, distance_run (p := ⟨b, p⟩) (q := ⟨b, q⟩) rfl h]

theorem destroyRange_add (d : Ptr) (k : Nat) : (destroyRange d (d.add k) : M (St α) Unit) = destroyN d k := by
  have := destroyRange_eq (α := α) d.blk d.off (d.off + k) (by omega)
  rw [show d.off + k - d.off = k by omega] at this
  exact this

theorem uninitGo_append (d : Ptr) (k : Nat) (as bs : List (Arg α)) :
    uninitGo E d k (as ++ bs) = uninitGo E d k as >>= fun _ => uninitGo E d (k + as.length) bs := by
  induction as generalizing k with
  | nil => rfl
  | cons a as ih =>
    simp only [List.cons_append, uninitGo]
    rw [M.bind_assoc]
    congr 1
    funext _
    rw [ih, List.length_cons, Nat.add_assoc, Nat.add_comm 1]

/-- The handler of `uninit` cleans up in two parts. -/
theorem uninitGo_shift (d : Ptr) (k j : Nat) (as : List (Arg α)) :
    uninitGo E d (k + j) as = M.tryCatch (uninitGo E (d.add k) j as) (fun e => do
      destroyN d k
      M.throw e) := by
  induction as generalizing j with
  | nil =>
    funext s
    show Res.ok (d.add (k + j)) s = M.tryCatch (pure ((d.add k).add j)) _ s
    show _ = Res.ok ((d.add k).add j) s
    congr 1
    simp [Ptr.add, Nat.add_assoc]
  | cons a as ih =>
    funext s
    have e : (d.add k).add j = d.add (k + j) := by simp [Ptr.add, Nat.add_assoc]
    simp only [uninitGo]
    rw [M.tryCatch_run, M.bind_run, M.bind_run, M.tryCatch_run, M.tryCatch_run, e]
    cases hc : construct E (d.add (k + j)) a s with
    | ok u s1 =>
      dsimp only
      rw [Nat.add_assoc, ih (j + 1), M.tryCatch_run]
    | ub r => rfl
    | exn e1 s1 =>
      dsimp only
      rw [← e, destroyRange_add, e, destroyRange_add, destroyN_swap, M.bind_assoc, M.bind_run, M.bind_run]
      cases hd : destroyN (d.add k) j s1 with
      | ok u s2 =>
        dsimp only [M.throw]
        rw [M.bind_run, M.bind_run]
        cases hd2 : destroyN d k s2 <;> rfl
      | exn e2 s2 =>
        exfalso
        rw [destroyN_run] at hd
        split at hd <;> cases hd
      | ub r => rfl

theorem uninitGo_eq (d : Ptr) (k : Nat) (as : List (Arg α)) :
    uninitGo E d k as = M.tryCatch (uninit E (d.add k) as) (fun e => do
      destroyN d k
      M.throw e) := uninitGo_shift d k 0 as

theorem assignGo_append (d : Ptr) (as bs : List (Arg α)) :
    assignGo E d (as ++ bs) = assignGo E d as >>= fun d => assignGo E d bs := by
  induction as generalizing d with
  | nil => rfl
  | cons a as ih =>
    simp only [List.cons_append, assignGo]
    rw [M.bind_assoc]
    congr 1
    funext _
    rw [ih]

theorem backGo_add (mk : Ptr → Arg α) (first : Ptr) (m n : Nat) (d : Ptr) :
    Seg.backGo E mk first (m + n) d = Seg.backGo E mk (first.add m) n d >>= fun d => Seg.backGo E mk first m d := by
  induction n generalizing d with
  | zero => rfl
  | succ n ih =>
    rw [Nat.add_succ]
    simp only [Seg.backGo]
    rw [M.bind_assoc]
    have e : first.add (m + n) = (first.add m).add n := by simp [Ptr.add, Nat.add_assoc]
    rw [e]
    congr 1
    funext _
    rw [ih]

theorem moveBackGo_eq (first : Ptr) (n : Nat) (d : Ptr) : moveBackGo E first n d = Seg.backGo E .mv first n d := by
  induction n generalizing d with
  | zero => rfl
  | succ n ih =>
    simp only [Seg.backGo, moveBackGo]
    congr 1
    funext _
    rw [ih]

end split
end Sfl
