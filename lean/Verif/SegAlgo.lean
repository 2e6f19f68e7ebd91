import Verif.SegIter
/-
  The algorithms on segmented ranges do what the contiguous ones do.
-/

set_option linter.unusedSimpArgs false

namespace Sfl
variable {α δ δ' : Type}

namespace View
variable {V Vs : View} {al tcap : Nat} {E : Env α} {lim : Nat} {t t' : Table}

/-- The iterator and the pointer designate slot `p`. -/
def At (V : View) (p : Nat) (it : SIt) (q : Ptr) : Prop := it = V.it p ∧ q = ⟨V.tb, p⟩

/-! ### Within a segment -/

theorem map_at {p k : Nat} (hN : 0 < V.N) (h : p % V.N + k < V.N) : (V.addr p).add k = V.map ⟨V.tb, p + k⟩ := by
  rw [map_tb, addr_add hN h]

theorem sim_destroyN (hN : 0 < V.N) {p k n : Nat} (h : p % V.N + k + n ≤ V.N) :
    Sim (α := α) V al tcap (destroyN ((V.addr p).add k) n) (destroyN ⟨V.tb, p + k⟩ n) (fun _ _ => True) := by
  induction n generalizing k with
  | zero => exact Sim.pure trivial
  | succ n ih =>
    refine Sim.bind (R := fun _ _ => True) ?_ fun _ _ _ => ?_
    · rw [map_at hN (by omega)]; exact Sim.destroyAt
    · exact ih (k := k + 1) (by omega)

theorem sim_uninitGo (hN : 0 < V.N) {p k : Nat} {as : List (Arg α)} (h : p % V.N + k + as.length ≤ V.N) :
    Sim V al tcap (uninitGo E (V.addr p) k (as.map (Arg.map V.map))) (uninitGo (E.lim lim) ⟨V.tb, p⟩ k as)
      (fun q q' => q = (V.addr p).add (k + as.length) ∧ q' = ⟨V.tb, p + (k + as.length)⟩) := by
  induction as generalizing k with
  | nil => exact Sim.pure ⟨rfl, rfl⟩
  | cons a as ih =>
    simp only [List.length_cons] at h
    simp only [List.map_cons, uninitGo]
    refine Sim.bind (R := fun _ _ => True) (Sim.tryCatch ?_ fun e => ?_) fun _ _ _ => ?_
    · rw [map_at hN (by omega)]
      exact Sim.construct
    · refine Sim.bind (R := fun _ _ => True) ?_ fun _ _ _ => Sim.throw
      rw [destroyRange_add, destroyRange_add]
      exact sim_destroyN (k := 0) hN (by omega)
    · have := ih (k := k + 1) (by omega)
      simp only [List.length_cons]
      rw [show k + (as.length + 1) = k + 1 + as.length by omega]
      exact this

theorem sim_assignGo (hN : 0 < V.N) {p k : Nat} {as : List (Arg α)} (h : p % V.N + k + as.length ≤ V.N) :
    Sim V al tcap (assignGo E ((V.addr p).add k) (as.map (Arg.map V.map))) (assignGo (E.lim lim) ⟨V.tb, p + k⟩ as)
      (fun q q' => q = (V.addr p).add (k + as.length) ∧ q' = ⟨V.tb, p + (k + as.length)⟩) := by
  induction as generalizing k with
  | nil => exact Sim.pure ⟨rfl, rfl⟩
  | cons a as ih =>
    simp only [List.length_cons] at h
    simp only [List.map_cons, assignGo]
    refine Sim.bind (R := fun _ _ => True) ?_ fun _ _ _ => ?_
    · rw [map_at hN (by omega)]
      exact Sim.assign
    · have := ih (k := k + 1) (by omega)
      simp only [List.length_cons]
      rw [show k + (as.length + 1) = k + 1 + as.length by omega]
      exact this

/-- Backwards, from a source whose elements are at `first, first + 1, …` (`first'` in the contiguous memory). -/
theorem sim_backGo (hN : 0 < V.N) {mk : Ptr → Arg α} (hmk : ∀ q, (mk q).map V.map = mk (V.map q)) {first : Ptr} {va : Nat → Ptr}
    {p k n x : Nat} (h : p % V.N + k ≤ V.N) (hn : n ≤ k) (hva : ∀ i, i < n → V.map (va (x + i)) = first.add i)
    (first' : Ptr) (hf : ∀ i, i < n → first'.add i = va (x + i)) :
    Sim V al tcap (Seg.backGo E mk first n ((V.addr p).add k)) (Seg.backGo (E.lim lim) mk first' n ⟨V.tb, p + k⟩)
      (fun q q' => q = (V.addr p).add (k - n) ∧ q' = ⟨V.tb, p + (k - n)⟩) := by
  induction n generalizing k with
  | zero => exact Sim.pure ⟨rfl, rfl⟩
  | succ n ih =>
    simp only [Seg.backGo]
    have e1 : ((V.addr p).add k).sub 1 = (V.addr p).add (k - 1) := by
      rw [Ptr.sub_of_le (by simp; omega)]; simp [Ptr.add]; omega
    have e2 : (⟨V.tb, p + k⟩ : Ptr).sub 1 = ⟨V.tb, p + (k - 1)⟩ := by
      rw [Ptr.sub_of_le (by simp; omega)]; simp; omega
    rw [e1, e2]
    refine Sim.bind (R := fun _ _ => True) ?_ fun _ _ _ => ?_
    · rw [map_at hN (by omega), hf n (by omega), ← hva n (by omega), ← hmk]
      exact Sim.assign
    · have := ih (k := k - 1) (by omega) (by omega) (fun i hi => hva i (by omega)) (fun i hi => hf i (by omega))
      rw [show k - (n + 1) = k - 1 - n by omega]
      exact this

/-! ### Over the segments of a range -/

theorem Tab.len_lt (ht : V.Tab t) {i : Nat} (hi : i < V.segs.length) : V.base + i < t.cells.length := by
  have := ht.cells i hi
  cases h : t.cells[V.base + i]? with
  | none => rw [h] at this; cases this
  | some x => exact (List.getElem?_eq_some_iff.mp h).1

section chunks
variable {G : Nat → Nat → δ' → M (St α) δ'} {R : Nat → δ → δ' → Prop} {b1 b2 : Ptr → Ptr → Ptr → δ → M (St α) δ}

theorem sim_chunkLoop (ht : Vs.Tab t) (hN : 0 < Vs.N) {lo hi : Nat}
    (hnil : ∀ p d, lo ≤ p → G p p d = pure d)
    (hsplit : ∀ p q r d, lo ≤ p → p ≤ q → q ≤ r → G p r d = G p q d >>= fun d => G q r d)
    (h2 : ∀ i q d d', lo ≤ i * Vs.N → i * Vs.N ≤ q → q ≤ (i + 1) * Vs.N → q ≤ hi → R (i * Vs.N) d d' →
      Sim V al tcap (b2 ⟨Vs.tb, Vs.base + i⟩ ⟨Vs.sg i, 0⟩ ⟨Vs.sg i, q - i * Vs.N⟩ d) (G (i * Vs.N) q d') (R q))
    {i j k : Nat} {d : δ} {d' : δ'} (hij : i ≤ j) (hlo : lo ≤ i * Vs.N) (hhi : j * Vs.N ≤ hi) (hj : j < Vs.segs.length)
    (hk : j < i + k) (hr : R (i * Vs.N) d d') :
    Sim V al tcap (Seg.chunkLoop Vs.N t b2 ⟨Vs.tb, Vs.base + j⟩ k ⟨Vs.tb, Vs.base + i⟩ d)
      (G (i * Vs.N) (j * Vs.N) d') (R (j * Vs.N)) := by
  induction k generalizing i d d' with
  | zero => omega
  | succ k ih =>
    unfold Seg.chunkLoop
    by_cases he : i = j
    · subst he
      rw [if_pos rfl, hnil _ _ hlo]
      exact Sim.pure hr
    · rw [if_neg (by simpa using he)]
      have hmul : (i + 1) * Vs.N = i * Vs.N + Vs.N := Nat.succ_mul _ _
      have hle : (i + 1) * Vs.N ≤ j * Vs.N := Nat.mul_le_mul_right _ (by omega)
      rw [hsplit (i * Vs.N) ((i + 1) * Vs.N) (j * Vs.N) _ hlo (by omega) hle]
      refine Sim.step (deref_run ht (by omega)) ?_
      refine Sim.bind (R := R ((i + 1) * Vs.N)) ?_ fun d1 d1' hr1 => ?_
      · have := h2 i ((i + 1) * Vs.N) d d' hlo (by omega) (Nat.le_refl _) (by omega) hr
        rw [show (i + 1) * Vs.N - i * Vs.N = Vs.N by omega] at this
        simpa [Ptr.add] using this
      · exact ih (i := i + 1) (by omega) (by omega) (by omega) hr1

theorem sim_forChunks (ht : Vs.Tab t) (hN : 0 < Vs.N) {p q : Nat} (hpq : p ≤ q) (hq : q < Vs.cap)
    (hnil : ∀ x d, p ≤ x → G x x d = pure d)
    (hsplit : ∀ x y z d, p ≤ x → x ≤ y → y ≤ z → G x z d = G x y d >>= fun d => G y z d)
    (h1 : ∀ q' d d', p ≤ q' → q' ≤ (p / Vs.N + 1) * Vs.N → q' ≤ q → R p d d' →
      Sim V al tcap (b1 ⟨Vs.tb, Vs.base + p / Vs.N⟩ (Vs.addr p) ⟨Vs.sg (p / Vs.N), q' - p / Vs.N * Vs.N⟩ d) (G p q' d') (R q'))
    (h2 : ∀ i q' d d', p ≤ i * Vs.N → i * Vs.N ≤ q' → q' ≤ (i + 1) * Vs.N → q' ≤ q → R (i * Vs.N) d d' →
      Sim V al tcap (b2 ⟨Vs.tb, Vs.base + i⟩ ⟨Vs.sg i, 0⟩ ⟨Vs.sg i, q' - i * Vs.N⟩ d) (G (i * Vs.N) q' d') (R q'))
    {d : δ} {d' : δ'} (hr : R p d d') :
    Sim V al tcap (Seg.forChunks Vs.N t b1 b2 (Vs.it p) (Vs.it q) d) (G p q d') (R q) := by
  have hp1 := pos_split Vs p
  have hq1 := pos_split Vs q
  have hpm := Nat.mod_lt p hN
  have hqm := Nat.mod_lt q hN
  have hmul : (p / Vs.N + 1) * Vs.N = p / Vs.N * Vs.N + Vs.N := Nat.succ_mul _ _
  have hmul2 : (q / Vs.N + 1) * Vs.N = q / Vs.N * Vs.N + Vs.N := Nat.succ_mul _ _
  have hdiv : p / Vs.N ≤ q / Vs.N := Nat.div_le_div_right hpq
  unfold Seg.forChunks
  show Sim V al tcap (if (⟨Vs.tb, Vs.base + p / Vs.N⟩ : Ptr) = ⟨Vs.tb, Vs.base + q / Vs.N⟩ then _ else _) _ _
  by_cases he : p / Vs.N = q / Vs.N
  · rw [if_pos (by rw [he])]
    have := h1 q d d' hpq (by rw [he, hmul2]; omega) (Nat.le_refl _) hr
    have e : q - p / Vs.N * Vs.N = q % Vs.N := by rw [he]; omega
    rw [e] at this
    show Sim V al tcap (b1 _ _ (Vs.addr q) d) _ _
    unfold View.addr at this ⊢
    rw [← he]
    exact this
  · rw [if_neg (by simpa using he)]
    have hle : (p / Vs.N + 1) * Vs.N ≤ q / Vs.N * Vs.N := Nat.mul_le_mul_right _ (by omega)
    rw [hsplit p ((p / Vs.N + 1) * Vs.N) q _ (Nat.le_refl _) (by omega) (by omega)]
    refine Sim.step (deref_run ht (div_lt hN (by omega))) ?_
    refine Sim.bind (R := R ((p / Vs.N + 1) * Vs.N)) ?_ fun d1 d1' hr1 => ?_
    · have := h1 ((p / Vs.N + 1) * Vs.N) d d' (by omega) (Nat.le_refl _) (by omega) hr
      rw [show (p / Vs.N + 1) * Vs.N - p / Vs.N * Vs.N = Vs.N by omega] at this
      simpa [Ptr.add, View.it] using this
    · rw [hsplit ((p / Vs.N + 1) * Vs.N) (q / Vs.N * Vs.N) q _ (by omega) hle (by omega)]
      have hlen := ht.len_lt (div_lt hN hq)
      refine Sim.bind (R := R (q / Vs.N * Vs.N)) ?_ fun d2 d2' hr2 => ?_
      · exact sim_chunkLoop ht hN hnil hsplit h2 (i := p / Vs.N + 1) (j := q / Vs.N) (by omega) (by omega) (by omega)
          (div_lt hN hq) 
          (Nat.lt_of_lt_of_le (show q / Vs.N < t.cells.length by omega) (by generalize p / Vs.N = a; omega)) hr1
      · refine Sim.step (deref_run ht (div_lt hN hq)) ?_
        have := h2 (q / Vs.N) q d2 d2' (by omega) (by omega) (by omega) (Nat.le_refl _) hr2
        have e : q - q / Vs.N * Vs.N = q % Vs.N := by omega
        rw [e] at this
        exact this

end chunks

/-! ### destroy, fill -/

theorem sim_chunk_destroy (hN : 0 < V.N) {p q : Nat} (hpq : p ≤ q) (hq : q ≤ (p / V.N + 1) * V.N) :
    Sim (α := α) V al tcap (destroyRange (V.addr p) ⟨V.sg (p / V.N), q - p / V.N * V.N⟩) (destroyN ⟨V.tb, p⟩ (q - p))
      (fun _ _ => True) := by
  have hp1 := pos_split V p
  have hpm := Nat.mod_lt p hN
  rw [Nat.succ_mul] at hq
  have e : (⟨V.sg (p / V.N), q - p / V.N * V.N⟩ : Ptr) = (V.addr p).add (q - p) := by
    unfold View.addr Ptr.add; simp; omega
  rw [e, destroyRange_add]
  exact sim_destroyN (k := 0) hN (by omega)

theorem addr_sg {i : Nat} (hN : 0 < V.N) : (⟨V.sg i, 0⟩ : Ptr) = V.addr (i * V.N) := (addr_mul hN).symm

theorem mul_div {i : Nat} (hN : 0 < V.N) : i * V.N / V.N = i := Nat.mul_div_cancel _ hN

theorem sim_destroy (ht : V.Tab t) (hN : 0 < V.N) {p q : Nat} (hpq : p ≤ q) (hq : q < V.cap) :
    Sim (α := α) V al tcap (Seg.destroy V.N t (V.it p) (V.it q)) (destroyRange ⟨V.tb, p⟩ ⟨V.tb, q⟩) (fun _ _ => True) := by
  rw [destroyRange_eq _ _ _ hpq]
  unfold Seg.destroy
  refine sim_forChunks (G := fun x y (_ : Unit) => destroyN ⟨V.tb, x⟩ (y - x)) (R := fun _ _ _ => True)
    (d' := ()) ht hN hpq hq ?_ ?_ ?_ ?_ trivial
  · intro x d _; simp only [Nat.sub_self]; rfl
  · intro x y z d _ h1 h2
    rw [show z - x = (y - x) + (z - y) by omega, destroyN_add]
    simp only [Ptr.add]
    rw [show x + (y - x) = y by omega]
  · intro q' _ _ h1 h2 h3 _
    exact sim_chunk_destroy hN h1 h2
  · intro i q' _ _ h0 h1 h2 h3 _
    have := sim_chunk_destroy (α := α) (al := al) (tcap := tcap) hN (p := i * V.N) (q := q') h1 (by rw [mul_div hN]; exact h2)
    rw [mul_div hN, addr_mul hN] at this
    exact this

theorem sim_fill (ht : V.Tab t) (hN : 0 < V.N) {p q : Nat} (hpq : p ≤ q) (hq : q < V.cap) {a : Arg α} :
    Sim V al tcap (Seg.fill E V.N t (V.it p) (V.it q) (a.map V.map)) (fillRange (E.lim lim) ⟨V.tb, p⟩ ⟨V.tb, q⟩ a)
      (fun _ _ => True) := by
  have hG : fillRange (E.lim lim) ⟨V.tb, p⟩ ⟨V.tb, q⟩ a =
      assignGo (E.lim lim) ⟨V.tb, p⟩ (List.replicate (q - p) a) >>= fun _ => pure () := by
    funext s
    unfold fillRange
    rw [M.bind_run, distance_run (p := ⟨V.tb, p⟩) (q := ⟨V.tb, q⟩) rfl hpq]
  rw [hG]
  unfold Seg.fill
  have chunk : ∀ x y, x ≤ y → y ≤ (x / V.N + 1) * V.N →
      Sim V al tcap (fillRange E (V.addr x) ⟨V.sg (x / V.N), y - x / V.N * V.N⟩ (a.map V.map))
        (assignGo (E.lim lim) ⟨V.tb, x⟩ (List.replicate (y - x) a) >>= fun _ => pure ()) (fun _ _ => True) := by
    intro x y hxy hy
    have hp1 := pos_split V x
    have hpm := Nat.mod_lt x hN
    rw [Nat.succ_mul] at hy
    unfold fillRange
    refine Sim.step (b := y - x) ?_ ?_
    · intro s
      rw [distance_run (p := V.addr x) (q := ⟨V.sg (x / V.N), y - x / V.N * V.N⟩) rfl (by simp [View.addr]; omega)]
      simp only [View.addr]
      congr 1; omega
    · refine Sim.bind (R := fun _ _ => True) ?_ fun _ _ _ => Sim.pure trivial
      have := sim_assignGo (E := E) (lim := lim) (al := al) (tcap := tcap) hN (p := x) (k := 0) (as := List.replicate (y - x) a)
        (by simp; omega)
      rw [List.map_replicate] at this
      exact this.mono fun _ _ _ => trivial
  refine sim_forChunks
    (G := fun x y (_ : Unit) => assignGo (E.lim lim) ⟨V.tb, x⟩ (List.replicate (y - x) a) >>= fun _ => pure ())
    (R := fun _ _ _ => True) (d' := ()) ht hN hpq hq ?_ ?_ ?_ ?_ trivial
  · intro x d _; simp only [Nat.sub_self]; rfl
  · intro x y z d _ h1 h2
    rw [show z - x = (y - x) + (z - y) by omega, ← List.replicate_append_replicate, assignGo_append, M.bind_assoc, M.bind_assoc]
    funext s
    rw [M.bind_run, M.bind_run]
    have hres : ∀ (d : Ptr) (as : List (Arg α)) (s : St α) b s', assignGo (E.lim lim) d as s = .ok b s' → b = d.add as.length := by
      intro d as
      induction as generalizing d with
      | nil => intro s b s' h; cases h; rfl
      | cons a as ih =>
        intro s b s' h
        simp only [assignGo] at h
        rw [M.bind_run] at h
        cases ha : assign (E.lim lim) d a s with
        | ok u s1 =>
          rw [ha] at h
          have := ih _ _ _ _ h
          rw [this]; simp [Ptr.add]; omega
        | exn e s1 => rw [ha] at h; cases h
        | ub r => rw [ha] at h; cases h
    cases ha : assignGo (E.lim lim) ⟨V.tb, x⟩ (List.replicate (y - x) a) s with
    | ok b s1 =>
      dsimp only
      rw [hres _ _ _ _ _ ha]
      simp only [List.length_replicate, Ptr.add, M.pure_bind']
      rw [show x + (y - x) = y by omega]
    | exn e s1 => rfl
    | ub r => rfl
  · intro q' _ _ h1 h2 h3 _
    exact chunk p q' h1 h2
  · intro i q' _ _ h0 h1 h2 h3 _
    have := chunk (i * V.N) q' h1 (by rw [mul_div hN]; exact h2)
    rw [mul_div hN, addr_mul hN] at this
    exact this

/-! ### Loops over the segments of the destination -/

theorem next_seg (hN : 0 < V.N) {p c : Nat} (hc : p % V.N + c = V.N) :
    p + c = (p / V.N + 1) * V.N ∧ (p + c) / V.N = p / V.N + 1 ∧ V.addr (p + c) = ⟨V.sg (p / V.N + 1), 0⟩ := by
  have h := pos_split V p
  have e : p + c = (p / V.N + 1) * V.N := by rw [Nat.succ_mul]; omega
  refine ⟨e, ?_, ?_⟩
  · rw [e, mul_div hN]
  · rw [e, addr_mul hN]

theorem rest_run (hN : 0 < V.N) {σ : Type} {p : Nat} (s : σ) :
    distance (V.addr p) ((⟨V.sg (p / V.N), 0⟩ : Ptr).add V.N) s = .ok (V.N - p % V.N) s := by
  rw [distance_run (p := V.addr p) (q := (⟨V.sg (p / V.N), 0⟩ : Ptr).add V.N) rfl
    (by simp [View.addr, Ptr.add]; exact Nat.le_of_lt (Nat.mod_lt p hN))]
  simp [View.addr, Ptr.add]

theorem compose_at (ht : V.Tab t) (hN : 0 < V.N) {σ : Type} {p c : Nat} (h : p % V.N + c ≤ V.N) (hc : p + c < V.cap) (s : σ) :
    Seg.compose V.N t ⟨V.tb, V.base + p / V.N⟩ ((V.addr p).add c) s = .ok (V.it (p + c)) s := by
  have e := pos_split V p
  have := compose_run ht h hN (i := p / V.N) (by omega) s
  rw [show p / V.N * V.N + (p % V.N + c) = p + c by omega] at this
  exact this

theorem sim_destroyNLoop (ht : V.Tab t) (hN : 0 < V.N) {k p n : Nat} (hc : p + n < V.cap) (hk : V.segs.length ≤ p / V.N + k) :
    Sim (α := α) V al tcap (Seg.destroyNLoop V.N t k n ⟨V.tb, V.base + p / V.N⟩ (V.addr p)) (destroyN ⟨V.tb, p⟩ n)
      (fun it _ => it = V.it (p + n)) := by
  induction k generalizing p n with
  | zero => have := div_lt hN (show p < V.cap by omega); omega
  | succ k ih =>
    have hpm := Nat.mod_lt p hN
    unfold Seg.destroyNLoop
    refine Sim.step (deref_run ht (div_lt hN (by omega))) ?_
    refine Sim.step (rest_run hN) ?_
    dsimp only
    generalize hcc : min n (V.N - p % V.N) = c
    have hcn : n = c + (n - c) := by omega
    rw [show (destroyN ⟨V.tb, p⟩ n : M (St α) Unit) = destroyN ⟨V.tb, p⟩ (c + (n - c)) by rw [← hcn], destroyN_add]
    refine Sim.bind (R := fun _ _ => True) (sim_destroyN (k := 0) hN (by omega)) fun _ _ _ => ?_
    by_cases hz : n - c = 0
    · rw [if_pos hz, hz]
      intro s hs
      rw [compose_at ht hN (by omega) (by omega)]
      refine ⟨?_, rfl, hs⟩
      rw [show c = n by omega]
    · rw [if_neg hz]
      obtain ⟨e1, e2, e3⟩ := next_seg (V := V) hN (p := p) (c := c) (by omega)
      refine Sim.step (deref_run (i := p / V.N + 1) ht ?_) ?_
      · rw [← e2]; exact div_lt hN (by omega)
      · have := ih (p := p + c) (n := n - c) (by omega) (by rw [e2]; omega)
        rw [e2, e3, show p + c + (n - c) = p + n by omega] at this
        exact this

theorem sim_uninitGo' (hN : 0 < V.N) {p0 p : Nat} {as : List (Arg α)} {f : Exn → M (St α) Ptr} (h0 : p0 ≤ p)
    (h : p % V.N + as.length ≤ V.N)
    (hf : ∀ e, Sim V al tcap (f e) (do destroyN ⟨V.tb, p0⟩ (p - p0); M.throw e : M (St α) Ptr)
      (fun q q' => q = (V.addr p).add as.length ∧ q' = ⟨V.tb, p + as.length⟩)) :
    Sim V al tcap (M.tryCatch (uninit E (V.addr p) (as.map (Arg.map V.map))) f)
      (uninitGo (E.lim lim) ⟨V.tb, p0⟩ (p - p0) as)
      (fun q q' => q = (V.addr p).add as.length ∧ q' = ⟨V.tb, p + as.length⟩) := by
  rw [uninitGo_eq]
  refine Sim.tryCatch ?_ hf
  have := sim_uninitGo (E := E) (lim := lim) (al := al) (tcap := tcap) hN (p := p) (k := 0) (as := as) (by omega)
  simp only [Nat.zero_add] at this
  rw [show (⟨V.tb, p0⟩ : Ptr).add (p - p0) = ⟨V.tb, p⟩ by simp [Ptr.add]; omega]
  exact this

/-- The handlers destroy what was constructed before this segment. -/
theorem sim_cleanup {γ γ' : Type} {R : γ → γ' → Prop} (ht : V.Tab t) (hN : 0 < V.N) {p0 p : Nat} (h0 : p0 ≤ p) (hc : p < V.cap)
    {e : Exn} : Sim V al tcap (do Seg.destroy V.N t (V.it p0) (V.it p); M.throw e : M (St α) γ)
      (do destroyN ⟨V.tb, p0⟩ (p - p0); M.throw e : M (St α) γ') R := by
  refine Sim.bind (R := fun _ _ => True) ?_ fun _ _ _ => Sim.throw
  have := sim_destroy (α := α) (al := al) (tcap := tcap) ht hN h0 hc
  rwa [destroyRange_eq _ _ _ h0] at this

theorem Tab.fuel (ht : V.Tab t) (x : Nat) : V.segs.length ≤ x + (t.cells.length + 1) := by
  cases h : V.segs.length with
  | zero => omega
  | succ m =>
    have := ht.len_lt (i := m) (by omega)
    omega

theorem sim_cleanupN {γ γ' : Type} {R : γ → γ' → Prop} (ht : V.Tab t) (hN : 0 < V.N) {p0 p : Nat} (h0 : p0 ≤ p) (hc : p < V.cap)
    {e : Exn} : Sim V al tcap (do let _ ← Seg.destroyN V.N t (V.it p0) (p - p0); M.throw e : M (St α) γ)
      (do destroyN ⟨V.tb, p0⟩ (p - p0); M.throw e : M (St α) γ') R := by
  refine Sim.bind (R := fun _ _ => True) ?_ fun _ _ _ => Sim.throw
  exact (sim_destroyNLoop (α := α) (al := al) (tcap := tcap) ht hN (by omega) (ht.fuel _)).mono fun _ _ _ => trivial

theorem sim_destroyNSeg (ht : V.Tab t) (hN : 0 < V.N) {p n : Nat} (hc : p + n < V.cap) :
    Sim (α := α) V al tcap (Seg.destroyN V.N t (V.it p) n) (destroyN ⟨V.tb, p⟩ n) (fun it _ => it = V.it (p + n)) :=
  sim_destroyNLoop ht hN hc (ht.fuel _)

theorem sim_uninitFillNLoop (ht : V.Tab t) (hN : 0 < V.N) {a : Arg α} {k p0 p n rem : Nat} (h0 : p0 ≤ p) (hc : p + rem < V.cap)
    (hk : V.segs.length ≤ p / V.N + k) (hn : n = rem + (p - p0)) :
    Sim V al tcap (Seg.uninitFillNLoop E V.N t (V.it p0) n (a.map V.map) k rem ⟨V.tb, V.base + p / V.N⟩ (V.addr p))
      (uninitGo (E.lim lim) ⟨V.tb, p0⟩ (p - p0) (List.replicate rem a)) (V.At (p + rem)) := by
  induction k generalizing p rem with
  | zero => have := div_lt hN (show p < V.cap by omega); omega
  | succ k ih =>
    have hpm := Nat.mod_lt p hN
    unfold Seg.uninitFillNLoop
    refine Sim.step (deref_run ht (div_lt hN (by omega))) ?_
    refine Sim.step (rest_run hN) ?_
    dsimp only
    generalize hcc : min rem (V.N - p % V.N) = c
    have hcn : rem = c + (rem - c) := by omega
    rw [show (List.replicate rem a) = List.replicate c a ++ List.replicate (rem - c) a by
      rw [List.replicate_append_replicate, ← hcn], uninitGo_append]
    rw [show n - rem = p - p0 by omega]
    refine Sim.bind ?_ (R := fun q q' => q = (V.addr p).add c ∧ q' = ⟨V.tb, p + c⟩) ?_
    · have := sim_uninitGo' (E := E) (lim := lim) (al := al) (tcap := tcap) hN h0 (as := List.replicate c a) (by simp; omega)
        fun e => sim_cleanupN ht hN h0 (by omega) (e := e)
      rw [List.map_replicate, List.length_replicate] at this
      exact this
    · rintro _ _ ⟨rfl, rfl⟩
      rw [List.length_replicate]
      by_cases hz : rem - c = 0
      · rw [if_pos hz, hz]
        intro s hs
        rw [compose_at ht hN (by omega) (by omega)]
        refine ⟨?_, rfl, hs⟩
        rw [show c = rem by omega]
        exact ⟨rfl, by simp [Ptr.add]; omega⟩
      · rw [if_neg hz]
        obtain ⟨e1, e2, e3⟩ := next_seg (V := V) hN (p := p) (c := c) (by omega)
        refine Sim.step (deref_run (i := p / V.N + 1) ht ?_) ?_
        · rw [← e2]; exact div_lt hN (by omega)
        · have := ih (p := p + c) (rem := rem - c) (by omega) (by omega) (by rw [e2]; omega) (by omega)
          rw [e2, e3, show p + c + (rem - c) = p + rem by omega] at this
          rw [show p - p0 + c = p + c - p0 by omega]
          exact this

theorem sim_uninitFillN (ht : V.Tab t) (hN : 0 < V.N) {a : Arg α} {p n : Nat} (hc : p + n < V.cap) :
    Sim V al tcap (Seg.uninitFillN E V.N t (V.it p) n (a.map V.map)) (uninitFillN (E.lim lim) ⟨V.tb, p⟩ n a) (V.At (p + n)) := by
  have := sim_uninitFillNLoop (E := E) (lim := lim) (al := al) (tcap := tcap) ht hN (a := a) (p0 := p) (n := n) (Nat.le_refl p) hc
    (ht.fuel _) (by omega)
  rw [Nat.sub_self] at this
  exact this

theorem sim_uninitLoop (ht : V.Tab t) (hN : 0 < V.N) {as : List (Arg α)} {k p0 p : Nat} (h0 : p0 ≤ p)
    (hc : p + as.length < V.cap) (hk : V.segs.length ≤ p / V.N + k) :
    Sim V al tcap (Seg.uninitLoop E V.N t (V.it p0) k (as.map (Arg.map V.map)) ⟨V.tb, V.base + p / V.N⟩ (V.addr p))
      (uninitGo (E.lim lim) ⟨V.tb, p0⟩ (p - p0) as) (V.At (p + as.length)) := by
  induction k generalizing p as with
  | zero => have := div_lt hN (show p < V.cap by omega); omega
  | succ k ih =>
    have hpm := Nat.mod_lt p hN
    unfold Seg.uninitLoop
    refine Sim.step (deref_run ht (div_lt hN (by omega))) ?_
    refine Sim.step (rest_run hN) ?_
    dsimp only
    rw [List.length_map]
    generalize hcc : min as.length (V.N - p % V.N) = c
    have hl : (as.take c).length = c := by rw [List.length_take]; omega
    rw [show uninitGo (E.lim lim) ⟨V.tb, p0⟩ (p - p0) as = uninitGo (E.lim lim) ⟨V.tb, p0⟩ (p - p0) (as.take c ++ as.drop c) by
      rw [List.take_append_drop], uninitGo_append, hl, ← List.map_take, ← List.map_drop]
    refine Sim.bind ?_ (R := fun q q' => q = (V.addr p).add c ∧ q' = ⟨V.tb, p + c⟩) ?_
    · have := sim_uninitGo' (E := E) (lim := lim) (al := al) (tcap := tcap) hN h0 (as := as.take c) (by omega)
        (f := fun e => do
          let c ← Seg.compose V.N t ⟨V.tb, V.base + p / V.N⟩ (V.addr p)
          Seg.destroy V.N t (V.it p0) c
          M.throw e)
        fun e => Sim.step (compose_at (c := 0) ht hN (by omega) (by omega)) (sim_cleanup ht hN h0 (by omega) (e := e))
      rw [hl] at this
      exact this
    · rintro _ _ ⟨rfl, rfl⟩
      by_cases hz : as.length - c = 0
      · rw [if_pos (by rw [List.isEmpty_iff, List.map_eq_nil_iff, List.drop_eq_nil_iff]; omega),
          show as.drop c = [] by rw [List.drop_eq_nil_iff]; omega]
        intro s hs
        rw [compose_at ht hN (by omega) (by omega)]
        refine ⟨?_, rfl, hs⟩
        rw [show c = as.length by omega]
        exact ⟨rfl, by simp [Ptr.add]; omega⟩
      · rw [if_neg (by rw [List.isEmpty_iff, List.map_eq_nil_iff, List.drop_eq_nil_iff]; omega)]
        obtain ⟨e1, e2, e3⟩ := next_seg (V := V) hN (p := p) (c := c) (by omega)
        refine Sim.step (deref_run (i := p / V.N + 1) ht ?_) ?_
        · rw [← e2]; exact div_lt hN (by omega)
        · have hd : (as.drop c).length = as.length - c := List.length_drop
          have := ih (p := p + c) (as := as.drop c) (by omega) (by omega) (by rw [e2]; omega)
          rw [e2, e3, hd, show p + c + (as.length - c) = p + as.length by omega] at this
          rw [show p - p0 + c = p + c - p0 by omega]
          exact this

/-- Any part of an `uninitialized_*` algorithm (the elements from `p0` to `p` are already constructed). -/
theorem sim_uninitTo (ht : V.Tab t) (hN : 0 < V.N) {as : List (Arg α)} {p : Nat} (hc : p + as.length < V.cap) :
    Sim V al tcap (Seg.uninitTo E V.N t (as.map (Arg.map V.map)) (V.it p)) (uninit (E.lim lim) ⟨V.tb, p⟩ as)
      (V.At (p + as.length)) := by
  unfold Seg.uninitTo
  cases as with
  | nil => exact Sim.pure ⟨rfl, rfl⟩
  | cons a as =>
    rw [if_neg (by simp)]
    have := sim_uninitLoop (E := E) (lim := lim) (al := al) (tcap := tcap) ht hN (Nat.le_refl p) hc (ht.fuel _)
    rw [Nat.sub_self] at this
    exact this

theorem sim_assignLoop (ht : V.Tab t) (hN : 0 < V.N) {as : List (Arg α)} {k p : Nat} (hc : p + as.length < V.cap)
    (hk : V.segs.length ≤ p / V.N + k) :
    Sim V al tcap (Seg.assignLoop E V.N t k (as.map (Arg.map V.map)) ⟨V.tb, V.base + p / V.N⟩ (V.addr p))
      (assignGo (E.lim lim) ⟨V.tb, p⟩ as) (V.At (p + as.length)) := by
  induction k generalizing p as with
  | zero => have := div_lt hN (show p < V.cap by omega); omega
  | succ k ih =>
    have hpm := Nat.mod_lt p hN
    unfold Seg.assignLoop
    refine Sim.step (deref_run ht (div_lt hN (by omega))) ?_
    refine Sim.step (rest_run hN) ?_
    dsimp only
    rw [List.length_map]
    generalize hcc : min as.length (V.N - p % V.N) = c
    have hl : (as.take c).length = c := by rw [List.length_take]; omega
    rw [show assignGo (E.lim lim) ⟨V.tb, p⟩ as = assignGo (E.lim lim) ⟨V.tb, p⟩ (as.take c ++ as.drop c) by
      rw [List.take_append_drop], assignGo_append, ← List.map_take, ← List.map_drop]
    refine Sim.bind ?_ (R := fun q q' => q = (V.addr p).add c ∧ q' = ⟨V.tb, p + c⟩) ?_
    · have := sim_assignGo (E := E) (lim := lim) (al := al) (tcap := tcap) hN (p := p) (k := 0) (as := as.take c) (by omega)
      simp only [hl, Nat.zero_add] at this
      exact this
    · rintro _ _ ⟨rfl, rfl⟩
      by_cases hz : as.length - c = 0
      · rw [if_pos (by rw [List.isEmpty_iff, List.map_eq_nil_iff, List.drop_eq_nil_iff]; omega),
          show as.drop c = [] by rw [List.drop_eq_nil_iff]; omega]
        intro s hs
        rw [compose_at ht hN (by omega) (by omega)]
        refine ⟨?_, rfl, hs⟩
        rw [show c = as.length by omega]
        exact ⟨rfl, rfl⟩
      · rw [if_neg (by rw [List.isEmpty_iff, List.map_eq_nil_iff, List.drop_eq_nil_iff]; omega)]
        obtain ⟨e1, e2, e3⟩ := next_seg (V := V) hN (p := p) (c := c) (by omega)
        refine Sim.step (deref_run (i := p / V.N + 1) ht ?_) ?_
        · rw [← e2]; exact div_lt hN (by omega)
        · have hd : (as.drop c).length = as.length - c := List.length_drop
          have := ih (p := p + c) (as := as.drop c) (by omega) (by rw [e2]; omega)
          rw [e2, e3, hd, show p + c + (as.length - c) = p + as.length by omega] at this
          exact this

theorem sim_assignTo (ht : V.Tab t) (hN : 0 < V.N) {as : List (Arg α)} {p : Nat} (hc : p + as.length < V.cap) :
    Sim V al tcap (Seg.assignTo E V.N t (as.map (Arg.map V.map)) (V.it p)) (assignGo (E.lim lim) ⟨V.tb, p⟩ as)
      (V.At (p + as.length)) := by
  unfold Seg.assignTo
  cases as with
  | nil => exact Sim.pure ⟨rfl, rfl⟩
  | cons a as =>
    rw [if_neg (by simp)]
    exact sim_assignLoop (E := E) (lim := lim) (al := al) (tcap := tcap) ht hN hc (ht.fuel _)

theorem it_loc (p : Nat) : (V.it p).loc = V.map ⟨V.tb, p⟩ := by rw [map_tb]; rfl

theorem sim_assignEach (ht : V.Tab t) (hN : 0 < V.N) {as : List (Arg α)} {p : Nat} (hc : p + as.length < V.cap) :
    Sim V al tcap (Seg.assignEach E V.N t (as.map (Arg.map V.map)) (V.it p)) (assignGo (E.lim lim) ⟨V.tb, p⟩ as)
      (V.At (p + as.length)) := by
  induction as generalizing p with
  | nil => exact Sim.pure ⟨rfl, rfl⟩
  | cons a as ih =>
    simp only [List.length_cons] at hc
    simp only [List.map_cons, Seg.assignEach, assignGo]
    rw [it_loc]
    refine Sim.bind (R := fun _ _ => True) Sim.assign fun _ _ _ => ?_
    refine Sim.step (inc_run ht hN (by omega)) ?_
    have := ih (p := p + 1) (by omega)
    rw [List.length_cons, show p + (as.length + 1) = p + 1 + as.length by omega]
    exact this

theorem sim_uninitEachGo (ht : V.Tab t) (hN : 0 < V.N) {as : List (Arg α)} {p0 p : Nat} (h0 : p0 ≤ p) (hc : p + as.length < V.cap) :
    Sim V al tcap (Seg.uninitEachGo E V.N t (V.it p0) (as.map (Arg.map V.map)) (V.it p))
      (uninitGo (E.lim lim) ⟨V.tb, p0⟩ (p - p0) as) (V.At (p + as.length)) := by
  induction as generalizing p with
  | nil => exact Sim.pure ⟨rfl, by simp [Ptr.add]; omega⟩
  | cons a as ih =>
    simp only [List.length_cons] at hc
    simp only [List.map_cons, Seg.uninitEachGo, uninitGo]
    rw [it_loc]
    refine Sim.bind (R := fun _ _ => True) (Sim.tryCatch ?_ fun e => ?_) fun _ _ _ => ?_
    · rw [show (⟨V.tb, p0⟩ : Ptr).add (p - p0) = ⟨V.tb, p⟩ by simp [Ptr.add]; omega]
      exact Sim.construct
    · rw [destroyRange_add]
      exact sim_cleanup ht hN h0 (by omega)
    · refine Sim.step (inc_run ht hN (by omega)) ?_
      have := ih (p := p + 1) (by omega) (by omega)
      rw [List.length_cons, show p + (as.length + 1) = p + 1 + as.length by omega, show p - p0 + 1 = p + 1 - p0 by omega]
      exact this

theorem sim_uninitEach (ht : V.Tab t) (hN : 0 < V.N) {as : List (Arg α)} {p : Nat} (hc : p + as.length < V.cap) :
    Sim V al tcap (Seg.uninitEach E V.N t (as.map (Arg.map V.map)) (V.it p)) (uninit (E.lim lim) ⟨V.tb, p⟩ as)
      (V.At (p + as.length)) := by
  have := sim_uninitEachGo (E := E) (lim := lim) (al := al) (tcap := tcap) ht hN (Nat.le_refl p) hc
  rw [Nat.sub_self] at this
  exact this

/-! ### uninitialized_fill -/

theorem uninitFill_eq (E : Env α) (b p q : Nat) (h : p ≤ q) (a : Arg α) :
    Sfl.uninitFill E ⟨b, p⟩ ⟨b, q⟩ a = (uninit E ⟨b, p⟩ (List.replicate (q - p) a) >>= fun _ => pure ()) := by
  funext s
  unfold Sfl.uninitFill
  rw [M.bind_run, distance_run (p := ⟨b, p⟩) (q := ⟨b, q⟩) rfl h]

theorem uninitGo_unit (E : Env α) (d : Ptr) (k : Nat) (as : List (Arg α)) :
    (uninitGo E d k as >>= fun _ => pure ()) = M.tryCatch (uninit E (d.add k) as >>= fun _ => pure ()) (fun e => do
      destroyN d k
      M.throw e) := by
  rw [uninitGo_eq]
  funext s
  rw [M.bind_run, M.tryCatch_run, M.tryCatch_run, M.bind_run]
  cases h : uninit E (d.add k) as s with
  | ok b s1 => rfl
  | exn e s1 =>
    dsimp only
    rw [M.bind_run, M.bind_run]
    cases h2 : destroyN d k s1 <;> rfl
  | ub r => rfl

theorem sim_uninitFill (ht : V.Tab t) (hN : 0 < V.N) {p q : Nat} (hpq : p ≤ q) (hq : q < V.cap) {a : Arg α} :
    Sim V al tcap (Seg.uninitFill E V.N t (V.it p) (V.it q) (a.map V.map))
      (Sfl.uninitFill (E.lim lim) ⟨V.tb, p⟩ ⟨V.tb, q⟩ a) (fun _ _ => True) := by
  rw [uninitFill_eq _ _ _ _ hpq]
  unfold Seg.uninitFill
  have chunk : ∀ x y, x ≤ y → y ≤ (x / V.N + 1) * V.N →
      Sim V al tcap (Sfl.uninitFill E (V.addr x) ⟨V.sg (x / V.N), y - x / V.N * V.N⟩ (a.map V.map))
        (uninit (E.lim lim) ⟨V.tb, x⟩ (List.replicate (y - x) a) >>= fun _ => pure ()) (fun _ _ => True) := by
    intro x y hxy hy
    have hp1 := pos_split V x
    have hpm := Nat.mod_lt x hN
    rw [Nat.succ_mul] at hy
    unfold View.addr
    rw [uninitFill_eq _ _ _ _ (by omega), show y - x / V.N * V.N - x % V.N = y - x by omega]
    refine Sim.bind (R := fun _ _ => True) ?_ fun _ _ _ => Sim.pure trivial
    have := sim_uninitGo (E := E) (lim := lim) (al := al) (tcap := tcap) hN (p := x) (k := 0) (as := List.replicate (y - x) a)
      (by simp; omega)
    rw [List.map_replicate] at this
    exact this.mono fun _ _ _ => trivial
  have := sim_forChunks (V := V) (al := al) (tcap := tcap)
    (b1 := fun _ p q (_ : Unit) => Sfl.uninitFill E p q (a.map V.map))
    (b2 := fun sg x y (_ : Unit) => M.tryCatch (Sfl.uninitFill E x y (a.map V.map)) (fun e => do
      let b ← Seg.deref t sg
      let c ← Seg.compose V.N t sg b
      Seg.destroy V.N t (V.it p) c
      M.throw e))
    (G := fun x y (_ : Unit) => uninitGo (E.lim lim) ⟨V.tb, p⟩ (x - p) (List.replicate (y - x) a) >>= fun _ => pure ())
    (R := fun _ _ _ => True) (d := ()) (d' := ()) ht hN hpq hq ?_ ?_ ?_ ?_ trivial
  · rw [Nat.sub_self] at this
    exact this
  · intro x d _; simp only [Nat.sub_self]; rfl
  · intro x y z d h0 h1 h2
    rw [show z - x = (y - x) + (z - y) by omega, ← List.replicate_append_replicate, uninitGo_append, M.bind_assoc, M.bind_assoc,
      List.length_replicate, show x - p + (y - x) = y - p by omega]
    rfl
  · intro q' _ _ h1 h2 h3 _
    rw [Nat.sub_self]
    exact chunk p q' h1 h2
  · intro i q' _ _ h0 h1 h2 h3 _
    rw [uninitGo_unit]
    refine Sim.tryCatch ?_ fun e => ?_
    · have := chunk (i * V.N) q' h1 (by rw [mul_div hN]; exact h2)
      rw [mul_div hN, addr_mul hN] at this
      rw [show (⟨V.tb, p⟩ : Ptr).add (i * V.N - p) = ⟨V.tb, i * V.N⟩ by simp [Ptr.add]; omega]
      exact this
    · have hi : i * V.N + 0 < V.cap := by omega
      refine Sim.step (deref_run ht (lt_len hi)) ?_
      refine Sim.step (compose_run ht (i := i) (j := 0) (by omega) hN hi) ?_
      exact sim_cleanup ht hN h0 (by omega)

/-! ### From a segmented range to a segmented range -/

theorem args_map {mk : Ptr → Arg α} (hmk : ∀ q, (mk q).map V.map = mk (V.map q)) {va : Nat → Ptr} {b o x n : Nat}
    (hva : ∀ i, i < n → V.map (va (x + i)) = ⟨b, o + i⟩) :
    args mk ⟨b, o⟩ n = ((List.range' x n).map (fun i => mk (va i))).map (Arg.map V.map) := by
  rw [args_eq]
  apply List.ext_getElem
  · simp
  · intro i h1 h2
    simp at h1
    simp [hmk, hva i h1]

section seg
variable {mk : Ptr → Arg α} {va : Nat → Ptr} {p q r : Nat}

theorem range_split (f : Nat → Arg α) {x y z : Nat} (h1 : x ≤ y) (h2 : y ≤ z) :
    (List.range' x (z - x)).map f = (List.range' x (y - x)).map f ++ (List.range' y (z - y)).map f := by
  rw [← List.map_append]
  congr 1
  have := List.range'_append_1 (s := x) (m := y - x) (n := z - y)
  rw [show x + (y - x) = y by omega, show y - x + (z - y) = z - x by omega] at this
  exact this.symm

theorem chunk_args (hNs : 0 < Vs.N) (hmk : ∀ q, (mk q).map V.map = mk (V.map q)) {x y : Nat} (hxy : x ≤ y)
    (hy : y ≤ (x / Vs.N + 1) * Vs.N) (hva : ∀ i, x ≤ i → i < y → V.map (va i) = Vs.addr i) {β : Type} {f : Nat → M (St α) β}
    (s : St α) :
    (distance (Vs.addr x) ⟨Vs.sg (x / Vs.N), y - x / Vs.N * Vs.N⟩ >>= f) s = f (y - x) s ∧
    args mk (Vs.addr x) (y - x) = ((List.range' x (y - x)).map (fun i => mk (va i))).map (Arg.map V.map) := by
  have hp1 := pos_split Vs x
  have hpm := Nat.mod_lt x hNs
  rw [Nat.succ_mul] at hy
  constructor
  · rw [M.bind_run, distance_run (p := Vs.addr x) (q := ⟨Vs.sg (x / Vs.N), y - x / Vs.N * Vs.N⟩) rfl (by simp [View.addr]; omega)]
    simp only [View.addr]
    rw [show y - x / Vs.N * Vs.N - x % Vs.N = y - x by omega]
  · refine args_map hmk fun i hi => ?_
    rw [hva (x + i) (by omega) (by omega)]
    have := addr_add (V := Vs) (p := x) (k := i) hNs (by omega)
    rw [← this]; rfl

theorem sim_assignSeg (hs : Vs.Tab t) (ht : V.Tab t') (hN : 0 < V.N) (hNN : Vs.N = V.N)
    (hmk : ∀ q, (mk q).map V.map = mk (V.map q)) (hpq : p ≤ q) (hq : q < Vs.cap) (hr : r + (q - p) < V.cap)
    (hva : ∀ i, p ≤ i → i < q → V.map (va i) = Vs.addr i) :
    Sim V al tcap (Seg.assignSeg E V.N t t' mk (Vs.it p) (Vs.it q) (V.it r))
      (assignGo (E.lim lim) ⟨V.tb, r⟩ ((List.range' p (q - p)).map (fun i => mk (va i)))) (V.At (r + (q - p))) := by
  have hNs : 0 < Vs.N := by omega
  have body : ∀ x y d d', p ≤ x → x ≤ y → y ≤ (x / Vs.N + 1) * Vs.N → y ≤ q → V.At (r + (x - p)) d d' →
      Sim V al tcap
        (do let n ← distance (Vs.addr x) ⟨Vs.sg (x / Vs.N), y - x / Vs.N * Vs.N⟩
            Seg.assignTo E V.N t' (args mk (Vs.addr x) n) d)
        (assignGo (E.lim lim) d' ((List.range' x (y - x)).map (fun i => mk (va i)))) (V.At (r + (y - p))) := by
    rintro x y _ _ h0 h1 h2 h3 ⟨rfl, rfl⟩
    have hc := chunk_args (mk := mk) hNs hmk h1 h2 (fun i h4 h5 => hva i (by omega) (by omega))
      (f := fun n => Seg.assignTo E V.N t' (args mk (Vs.addr x) n) (V.it (r + (x - p))))
    intro s hl
    rw [(hc s).1, (hc s).2]
    have := sim_assignTo (E := E) (lim := lim) (al := al) (tcap := tcap) ht hN
      (as := (List.range' x (y - x)).map (fun i => mk (va i))) (p := r + (x - p)) (by simp; omega) s hl
    rw [List.length_map, List.length_range', show r + (x - p) + (y - x) = r + (y - p) by omega] at this
    exact this
  unfold Seg.assignSeg
  rw [show Seg.forChunks (σ := St α) (δ := SIt) V.N t = Seg.forChunks Vs.N t by rw [hNN]]
  refine sim_forChunks (G := fun x y d => assignGo (E.lim lim) d ((List.range' x (y - x)).map (fun i => mk (va i))))
    (R := fun x => V.At (r + (x - p))) hs hNs hpq hq ?_ ?_ ?_ ?_ ?_
  · intro x d _; simp only [Nat.sub_self]; rfl
  · intro x y z d h0 h1 h2
    rw [range_split _ h1 h2, assignGo_append]
  · intro q' d d' h1 h2 h3 h4
    exact body p q' d d' (Nat.le_refl _) h1 h2 h3 h4
  · intro i q' d d' h0 h1 h2 h3 h4
    have := body (i * Vs.N) q' d d' h0 h1 (by rw [mul_div hNs]; exact h2) h3 h4
    rw [mul_div hNs, addr_mul hNs] at this
    exact this
  · rw [Nat.sub_self]; exact ⟨rfl, rfl⟩

theorem uninitGo_ret (E : Env α) (d : Ptr) (k : Nat) (as : List (Arg α)) :
    uninitGo E d k as = (uninitGo E d k as >>= fun _ => pure ()) >>= fun _ => pure (d.add (k + as.length)) := by
  induction as generalizing k with
  | nil => rfl
  | cons a as ih =>
    simp only [uninitGo]
    rw [ih (k + 1)]
    simp only [M.bind_assoc, M.pure_bind', List.length_cons]
    rw [show k + 1 + as.length = k + (as.length + 1) by omega]

theorem sim_uninitSeg (hs : Vs.Tab t) (ht : V.Tab t') (hN : 0 < V.N) (hNN : Vs.N = V.N)
    (hmk : ∀ q, (mk q).map V.map = mk (V.map q)) (hpq : p ≤ q) (hq : q < Vs.cap) (hr : r + (q - p) < V.cap)
    (hva : ∀ i, p ≤ i → i < q → V.map (va i) = Vs.addr i) :
    Sim V al tcap (Seg.uninitSeg E V.N t t' mk (Vs.it p) (Vs.it q) (V.it r))
      (uninit (E.lim lim) ⟨V.tb, r⟩ ((List.range' p (q - p)).map (fun i => mk (va i)))) (V.At (r + (q - p))) := by
  have hNs : 0 < Vs.N := by omega
  have body : ∀ x y d, p ≤ x → x ≤ y → y ≤ (x / Vs.N + 1) * Vs.N → y ≤ q → d = V.it (r + (x - p)) →
      Sim V al tcap
        (do let n ← distance (Vs.addr x) ⟨Vs.sg (x / Vs.N), y - x / Vs.N * Vs.N⟩
            Seg.uninitTo E V.N t' (args mk (Vs.addr x) n) d)
        (uninit (E.lim lim) ⟨V.tb, r + (x - p)⟩ ((List.range' x (y - x)).map (fun i => mk (va i))) >>= fun _ => pure ())
        (fun d _ => d = V.it (r + (y - p))) := by
    rintro x y _ h0 h1 h2 h3 rfl
    have hc := chunk_args (mk := mk) hNs hmk h1 h2 (fun i h4 h5 => hva i (by omega) (by omega))
      (f := fun n => Seg.uninitTo E V.N t' (args mk (Vs.addr x) n) (V.it (r + (x - p))))
    intro s hl
    rw [(hc s).1, (hc s).2, ← M.bind_pure' (Seg.uninitTo _ _ _ _ _)]
    have := sim_uninitTo (E := E) (lim := lim) (al := al) (tcap := tcap) ht hN
      (as := (List.range' x (y - x)).map (fun i => mk (va i))) (p := r + (x - p)) (by simp; omega)
    rw [List.length_map, List.length_range', show r + (x - p) + (y - x) = r + (y - p) by omega] at this
    exact Sim.bind (S := fun d (_ : Unit) => d = V.it (r + (y - p))) this (fun _ _ hh => Sim.pure hh.1) s hl
  unfold Seg.uninitSeg
  rw [show Seg.forChunks (σ := St α) (δ := SIt) V.N t = Seg.forChunks Vs.N t by rw [hNN]]
  unfold uninit
  rw [uninitGo_ret, ← M.bind_pure' (Seg.forChunks _ _ _ _ _ _ _)]
  refine Sim.bind (R := fun d (_ : Unit) => d = V.it (r + (q - p))) ?_ ?_
  · have := sim_forChunks (V := V) (al := al) (tcap := tcap)
      (b1 := fun _ p q c => do
        let n ← distance p q
        Seg.uninitTo E V.N t' (args mk p n) c)
      (b2 := fun _ p q c => M.tryCatch
        (do
          let n ← distance p q
          Seg.uninitTo E V.N t' (args mk p n) c)
        (fun e => do
          Seg.destroy V.N t' (V.it r) c
          M.throw e))
      (G := fun x y (_ : Unit) => uninitGo (E.lim lim) ⟨V.tb, r⟩ (x - p) ((List.range' x (y - x)).map (fun i => mk (va i)))
        >>= fun _ => pure ())
      (R := fun x d (_ : Unit) => d = V.it (r + (x - p))) (d := V.it r) (d' := ()) hs hNs hpq hq ?_ ?_ ?_ ?_ (by simp)
    · rw [Nat.sub_self] at this
      exact this
    · intro x d _; simp only [Nat.sub_self]; rfl
    · intro x y z d h0 h1 h2
      rw [range_split _ h1 h2, uninitGo_append]
      simp only [M.bind_assoc, M.pure_bind', List.length_map, List.length_range']
      rw [show x - p + (y - x) = y - p by omega]
    · intro q' d _ h1 h2 h3 h4
      have := body p q' d (Nat.le_refl _) h1 h2 h3 h4
      rw [Nat.sub_self] at this ⊢
      exact this
    · intro i q' d _ h0 h1 h2 h3 h4
      rw [uninitGo_unit]
      refine Sim.tryCatch ?_ fun e => ?_
      · have := body (i * Vs.N) q' d h0 h1 (by rw [mul_div hNs]; exact h2) h3 h4
        rw [mul_div hNs, addr_mul hNs] at this
        exact this
      · rw [h4]
        have := sim_cleanup (al := al) (tcap := tcap) (α := α) (γ' := Unit) (R := fun (d : SIt) _ => d = V.it (r + (q' - p)))
          ht hN (p0 := r) (p := r + (i * Vs.N - p)) (by omega) (by omega) (e := e)
        rw [show r + (i * Vs.N - p) - r = i * Vs.N - p by omega] at this
        exact this
  · rintro _ _ rfl
    exact Sim.pure ⟨rfl, by simp [Ptr.add]⟩

/-! ### Backwards -/

theorem sim_backLoop (ht : V.Tab t) (hN : 0 < V.N) (hmk : ∀ q, (mk q).map V.map = mk (V.map q)) {first first' : Ptr}
    {i j k n : Nat} (hj : j ≤ V.N) (hc : i * V.N + j ≤ V.cap) (hn : n ≤ i * V.N + j) (hn0 : 0 < n) (hi : i < V.segs.length)
    (hk : i < k) (hf : ∀ x, x < n → V.map (first'.add x) = first.add x) :
    Sim V al tcap (Seg.backLoop E V.N t mk first k (first.add n) ⟨V.tb, V.base + i⟩ ⟨V.sg i, j⟩)
      (Seg.backGo (E.lim lim) mk first' n ⟨V.tb, i * V.N + j⟩) (V.At (i * V.N + j - n)) := by
  induction k generalizing i j n with
  | zero => omega
  | succ k ih =>
    unfold Seg.backLoop
    refine Sim.step (b := n) (fun s => ?_) ?_
    · rw [distance_run (p := first) (q := first.add n) rfl (by simp [Ptr.add])]
      simp [Ptr.add]
    refine Sim.step (deref_run ht hi) ?_
    refine Sim.step (b := j) (fun s => ?_) ?_
    · rw [distance_run (p := ⟨V.sg i, 0⟩) (q := ⟨V.sg i, j⟩) rfl (by simp)]
      rfl
    dsimp only
    generalize hcc : min n j = c
    refine Sim.step (b := first.add (n - c)) (fun s => ?_) ?_
    · rw [shift_run (by simp [Ptr.add]; omega)]
      simp [Ptr.add]; omega
    have hmod : i * V.N % V.N = 0 := Nat.mul_mod_left _ _
    have he : n = (n - c) + c := by omega
    rw [show Seg.backGo (E.lim lim) mk first' n ⟨V.tb, i * V.N + j⟩ =
      Seg.backGo (E.lim lim) mk first' ((n - c) + c) ⟨V.tb, i * V.N + j⟩ by rw [← he], backGo_add]
    refine Sim.bind ?_ (R := fun q q' => q = ⟨V.sg i, j - c⟩ ∧ q' = ⟨V.tb, i * V.N + (j - c)⟩) ?_
    · have := sim_backGo (E := E) (lim := lim) (al := al) (tcap := tcap) (V := V) hN hmk (first := first.add (n - c))
        (va := fun x => first'.add x) (p := i * V.N) (k := j) (n := c) (x := n - c) (by omega) (by omega)
        (fun x hx => by rw [hf _ (by omega)]; simp [Ptr.add]; omega) (first'.add (n - c)) (fun x hx => by simp [Ptr.add]; omega)
      rw [addr_mul hN] at this
      simpa [Ptr.add] using this
    · rintro _ _ ⟨rfl, rfl⟩
      by_cases hz : n - c = 0
      · rw [if_pos (by rw [hz]; rfl), hz]
        intro s hs
        rw [compose_run ht (by omega) hN (by omega)]
        refine ⟨?_, rfl, hs⟩
        rw [show i * V.N + (j - c) = i * V.N + j - n by omega]
        exact ⟨rfl, rfl⟩
      · rw [if_neg (by intro h; have := congrArg Ptr.off h; simp [Ptr.add] at this; omega)]
        have hi0 : 0 < i := by
          rcases Nat.eq_zero_or_pos i with rfl | h
          · simp at hn; omega
          · exact h
        have hmul : (i - 1) * V.N + V.N = i * V.N := by rw [← Nat.succ_mul]; congr 1; omega
        refine Sim.step (b := (⟨V.tb, V.base + (i - 1)⟩ : Ptr)) (fun s => ?_) ?_
        · rw [shift_run (by simp; omega)]
          simp; omega
        refine Sim.step (deref_run ht (i := i - 1) (by omega)) ?_
        have := ih (i := i - 1) (j := V.N) (n := n - c) (Nat.le_refl _) (by omega) (by omega) (by omega) (by omega) (by omega)
          (fun x hx => hf x (by omega))
        rw [hmul, show i * V.N - (n - c) = i * V.N + j - n by omega] at this
        rw [show j - c = 0 by omega]
        simpa [Ptr.add] using this

theorem sim_backTo (ht : V.Tab t) (hN : 0 < V.N) (hmk : ∀ q, (mk q).map V.map = mk (V.map q)) {first first' : Ptr}
    {p n : Nat} (hc : p < V.cap) (hn : n ≤ p) (hf : ∀ x, x < n → V.map (first'.add x) = first.add x) :
    Sim V al tcap (Seg.backTo E V.N t mk first (first.add n) (V.it p)) (Seg.backGo (E.lim lim) mk first' n ⟨V.tb, p⟩)
      (V.At (p - n)) := by
  have e := pos_split V p
  have hm := Nat.mod_lt p hN
  unfold Seg.backTo
  by_cases hz : n = 0
  · subst hz
    rw [if_pos (by simp [Ptr.add])]
    exact Sim.pure ⟨rfl, rfl⟩
  · rw [if_neg (by intro h; have := congrArg Ptr.off h; simp [Ptr.add] at this; omega)]
    have hi := div_lt hN hc
    have hl := ht.len_lt hi
    have := sim_backLoop (E := E) (lim := lim) (al := al) (tcap := tcap) ht hN hmk (first := first) (first' := first')
      (i := p / V.N) (j := p % V.N) (k := t.cells.length + 1) (n := n) (by omega) (by omega) (by omega) (by omega) hi
      (by generalize p / V.N = a at *; omega) hf
    rw [show p / V.N * V.N + p % V.N = p by omega] at this
    exact this

/-- A chunk of the source, `[x, y)` inside segment `i`. -/
theorem sim_backChunk (ht : V.Tab t) (hN : 0 < V.N) (hmk : ∀ q, (mk q).map V.map = mk (V.map q)) {i x y d : Nat}
    (hx : i * V.N ≤ x) (hxy : x ≤ y) (hy : y ≤ i * V.N + V.N) (hd : d < V.cap) (hn : y - x ≤ d) :
    Sim V al tcap (Seg.backTo E V.N t mk ⟨V.sg i, x - i * V.N⟩ ⟨V.sg i, y - i * V.N⟩ (V.it d))
      (Seg.backGo (E.lim lim) mk ⟨V.tb, x⟩ (y - x) ⟨V.tb, d⟩) (V.At (d - (y - x))) := by
  have := sim_backTo (E := E) (lim := lim) (al := al) (tcap := tcap) ht hN hmk (first := ⟨V.sg i, x - i * V.N⟩) (first' := ⟨V.tb, x⟩)
    (p := d) (n := y - x) hd hn (fun z hz => by
      have e : (⟨V.tb, x⟩ : Ptr).add z = ⟨V.tb, i * V.N + (x + z - i * V.N)⟩ := by simp [Ptr.add]; omega
      rw [e, ← map_at hN (by rw [Nat.mul_mod_left]; omega), addr_mul hN]
      simp [Ptr.add]; omega)
  rw [show (⟨V.sg i, x - i * V.N⟩ : Ptr).add (y - x) = ⟨V.sg i, y - i * V.N⟩ by simp [Ptr.add]; omega] at this
  exact this

theorem backGo_split (E : Env α) {x y z d : Nat} (h1 : x ≤ y) (h2 : y ≤ z) :
    Seg.backGo E mk ⟨V.tb, x⟩ (z - x) ⟨V.tb, d⟩ =
      Seg.backGo E mk ⟨V.tb, y⟩ (z - y) ⟨V.tb, d⟩ >>= fun d => Seg.backGo E mk ⟨V.tb, x⟩ (y - x) d := by
  have := backGo_add (E := E) mk ⟨V.tb, x⟩ (y - x) (z - y) ⟨V.tb, d⟩
  rw [show y - x + (z - y) = z - x by omega, show (⟨V.tb, x⟩ : Ptr).add (y - x) = ⟨V.tb, y⟩ by simp [Ptr.add]; omega] at this
  exact this

theorem sim_chunkLoopBack (ht : V.Tab t) (hN : 0 < V.N) (hmk : ∀ q, (mk q).map V.map = mk (V.map q)) {i0 i k d : Nat}
    (hi : i0 ≤ i) (hil : i < V.segs.length) (hk : i < k + i0) (hd : d < V.cap) (hn : (i - i0) * V.N ≤ d) :
    Sim V al tcap (Seg.chunkLoopBack V.N t (fun p q d => Seg.backTo E V.N t mk p q d) ⟨V.tb, V.base + i0⟩ k
        ⟨V.tb, V.base + i⟩ (V.it d))
      (Seg.backGo (E.lim lim) mk ⟨V.tb, (i0 + 1) * V.N⟩ ((i + 1) * V.N - (i0 + 1) * V.N) ⟨V.tb, d⟩)
      (fun r q' => r.1 = ⟨V.tb, V.base + i0⟩ ∧ V.At (d - (i - i0) * V.N) r.2 q') := by
  induction k generalizing i d with
  | zero => omega
  | succ k ih =>
    unfold Seg.chunkLoopBack
    by_cases he : i0 = i
    · subst he
      rw [if_pos rfl, Nat.sub_self]
      exact Sim.pure ⟨rfl, by simp [View.At]⟩
    · rw [if_neg (by simpa using he)]
      have h1 : (i + 1) * V.N = i * V.N + V.N := Nat.succ_mul _ _
      have h2 : (i0 + 1) * V.N ≤ i * V.N := Nat.mul_le_mul_right _ (by omega)
      have h3 : (i - i0) * V.N = (i - 1 - i0) * V.N + V.N := by rw [← Nat.succ_mul]; congr 1; omega
      rw [backGo_split (y := i * V.N) _ h2 (by omega)]
      refine Sim.step (deref_run ht hil) ?_
      refine Sim.bind ?_ (R := V.At (d - V.N)) ?_
      · have := sim_backChunk (E := E) (lim := lim) (al := al) (tcap := tcap) ht hN hmk (i := i) (x := i * V.N) (y := (i + 1) * V.N)
          (d := d) (Nat.le_refl _) (by omega) (by omega) hd (by omega)
        rw [show i * V.N - i * V.N = 0 by omega, show (i + 1) * V.N - i * V.N = V.N by omega] at this
        rw [show (i + 1) * V.N - i * V.N = V.N by omega]
        simpa [Ptr.add] using this
      · rintro _ _ ⟨rfl, rfl⟩
        refine Sim.step (b := (⟨V.tb, V.base + (i - 1)⟩ : Ptr)) (fun s => ?_) ?_
        · rw [shift_run (by simp; omega)]
          simp; omega
        have := ih (i := i - 1) (d := d - V.N) (by omega) (by omega) (by omega) (by omega) (by omega)
        rw [show (i - 1 + 1) = i by omega, show d - V.N - (i - 1 - i0) * V.N = d - (i - i0) * V.N by omega] at this
        exact this

theorem sim_backSeg (ht : V.Tab t) (hN : 0 < V.N) (hmk : ∀ q, (mk q).map V.map = mk (V.map q)) {d : Nat} (hpq : p ≤ q)
    (hq : q < V.cap) (hd : d < V.cap) (hn : q - p ≤ d) :
    Sim V al tcap (Seg.backSeg E V.N t t mk (V.it p) (V.it q) (V.it d)) (Seg.backGo (E.lim lim) mk ⟨V.tb, p⟩ (q - p) ⟨V.tb, d⟩)
      (V.At (d - (q - p))) := by
  obtain ⟨i, j, rfl, hj, hi⟩ := exists_pos (V := V) hN (p := p) (by omega)
  obtain ⟨i', j', rfl, hj', hi'⟩ := exists_pos (V := V) hN hq
  unfold Seg.backSeg Seg.forChunksBack
  rw [it_mk hj, it_mk hj']
  dsimp only
  have hmul : (i + 1) * V.N = i * V.N + V.N := Nat.succ_mul _ _
  by_cases he : i = i'
  · subst he
    rw [if_pos rfl]
    have := sim_backChunk (E := E) (lim := lim) (al := al) (tcap := tcap) ht hN hmk (i := i) (x := i * V.N + j) (y := i * V.N + j')
      (d := d) (by omega) hpq (by omega) hd hn
    rw [show i * V.N + j - i * V.N = j by omega, show i * V.N + j' - i * V.N = j' by omega] at this
    exact this
  · rw [if_neg (by simpa using he)]
    have hlt : i < i' := by
      rcases Nat.lt_or_ge i i' with h | h
      · exact h
      · have := Nat.mul_le_mul_right V.N (show i' + 1 ≤ i by omega)
        rw [Nat.succ_mul] at this
        omega
    have hle : (i + 1) * V.N ≤ i' * V.N := Nat.mul_le_mul_right _ (by omega)
    have hl := ht.len_lt hi'
    have hm1 : (i' - 1 + 1) * V.N = i' * V.N := by congr 1; omega
    have hm2 : (i' - 1 - i) * V.N + (i + 1) * V.N = i' * V.N := by
      rw [← Nat.add_mul]; congr 1; omega
    rw [backGo_split (y := i' * V.N) _ (by omega) (by omega)]
    refine Sim.step (deref_run ht hi') ?_
    refine Sim.bind ?_ (R := V.At (d - j')) ?_
    · have := sim_backChunk (E := E) (lim := lim) (al := al) (tcap := tcap) ht hN hmk (i := i') (x := i' * V.N) (y := i' * V.N + j')
        (d := d) (Nat.le_refl _) (by omega) (by omega) hd (by omega)
      rw [show i' * V.N - i' * V.N = 0 by omega, show i' * V.N + j' - i' * V.N = j' by omega] at this
      rw [show i' * V.N + j' - i' * V.N = j' by omega]
      exact this
    · rintro _ _ ⟨rfl, rfl⟩
      refine Sim.step (b := (⟨V.tb, V.base + (i' - 1)⟩ : Ptr)) (fun s => ?_) ?_
      · rw [shift_run (by simp; omega)]
        simp; omega
      rw [backGo_split (y := (i + 1) * V.N) _ (by omega) hle]
      refine Sim.bind ?_ (R := fun r q' => r.1 = ⟨V.tb, V.base + i⟩ ∧ V.At (d - j' - (i' - 1 - i) * V.N) r.2 q') ?_
      · have := sim_chunkLoopBack (E := E) (lim := lim) (al := al) (tcap := tcap) ht hN hmk (i0 := i) (i := i' - 1)
          (k := t.cells.length + 1) (d := d - j') (by omega) (by omega) (by omega) (by omega) (by omega)
        rw [hm1] at this
        exact this
      · rintro ⟨_, _⟩ _ ⟨rfl, rfl, rfl⟩
        refine Sim.step (deref_run ht (by omega)) ?_
        have := sim_backChunk (E := E) (lim := lim) (al := al) (tcap := tcap) ht hN hmk (i := i) (x := i * V.N + j)
          (y := (i + 1) * V.N) (d := d - j' - (i' - 1 - i) * V.N) (by omega) (by omega) (by omega) (by omega)
          (by omega)
        rw [show i * V.N + j - i * V.N = j by omega, show (i + 1) * V.N - i * V.N = V.N by omega,
          show d - j' - (i' - 1 - i) * V.N - ((i + 1) * V.N - (i * V.N + j)) = d - (i' * V.N + j' - (i * V.N + j)) by omega] at this
        simpa [Ptr.add] using this

end seg

end View
end Sfl
