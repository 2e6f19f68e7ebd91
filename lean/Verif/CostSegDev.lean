import Verif.CostSeg2
import Verif.SegDevWorld
/-
  What the algorithms on segmented ranges do to the counter, from the shape of the table of segments alone. Proof machinery: no code
  is modelled in this file.
-/

set_option linter.unusedSimpArgs false
set_option linter.unusedSectionVars false

namespace Sfl
variable {α β γ : Type}

/-- `m` spends at most `k`, whether it returns or throws. -/
def Pays (m : M (St α) β) (k : Nat) : Prop := ∀ t, cost m (fun _ t' => t' ≤ t + k) (fun t' => t' ≤ t + k) t

theorem Pays.mono {m : M (St α) β} {k k' : Nat} (h : Pays m k) (hk : k ≤ k') : Pays m k' :=
  fun t => (h t).mono (fun _ _ h => by omega) fun _ h => by omega

theorem Pays.bind {m : M (St α) γ} {f : γ → M (St α) β} {k k' : Nat} (h : Pays m k) (h' : ∀ b, Pays (f b) k') : Pays (m >>= f) (k + k') :=
  fun t => .bind ((h t).mono (fun b t' h => (h' b t').mono (fun _ _ h => by omega) fun _ h => by omega) fun _ h => by omega)

theorem Pays.still {m : M (St α) β} [Still m] : Pays m 0 := fun _ => .still fun _ => Nat.le_refl _

theorem Pays.then {m : M (St α) γ} [Still m] {f : γ → M (St α) β} {k : Nat} (h' : ∀ b, Pays (f b) k) : Pays (m >>= f) k :=
  fun t => .bind (.still fun b => h' b t)

/-- A function of the state that leaves it alone, with a known result. -/
theorem Pays.run {m : M (St α) γ} {b : γ} (hb : ∀ s, m s = .ok b s) {f : γ → M (St α) β} {k : Nat} (h' : Pays (f b) k) : Pays (m >>= f) k := by
  intro t s hs
  show match M.bind m f s with | .ok b s' => _ | .exn _ s' => _ | .ub _ => True
  unfold M.bind
  rw [hb]
  exact h' t s hs

theorem cost.run {m : M (St α) γ} {b : γ} (hb : ∀ s, m s = .ok b s) {f : γ → M (St α) β} {Q : β → Nat → Prop} {X : Nat → Prop} {t : Nat}
    (h' : cost (f b) Q X t) : cost (m >>= f) Q X t := by
  intro s hs
  show match M.bind m f s with | .ok b s' => _ | .exn _ s' => _ | .ub _ => True
  unfold M.bind
  rw [hb]
  exact h' s hs

theorem Pays.rethrow {m : M (St α) β} {h : Exn → M (St α) γ} {k : Nat} (hm : Pays m k) {g : Exn → M (St α) β}
    (hg : ∀ e, g e = (h e >>= fun _ => M.throw e)) (hh : ∀ e, Pays (h e) 0) : Pays (M.tryCatch m g) k :=
  fun t => .tryCatch ((hm t).mono (fun _ _ h => h) fun t' hle e => by
    rw [hg]
    exact .bind ((hh e t').mono (fun _ _ h => .throw (by omega)) fun _ h => by omega))

namespace Seg
open SegVec (Fit IsFrom)
variable {E : Env α} {N : Nat} {t t' : Table} {mk : Ptr → Arg α} {a : Arg α}

/-- Whether or not the storage fits: lists are worked off one by one. -/
theorem assignLoop_pays {k : Nat} {as : List (Arg α)} {sg loc : Ptr} : Pays (assignLoop E N t k as sg loc) as.length := by
  induction k generalizing as sg loc with
  | zero => exact fun _ => .undef
  | succ k ih =>
    unfold assignLoop
    refine .then fun b => .then fun c => ?_
    dsimp only
    refine (Pays.bind (k := min as.length c) (k' := as.length - min as.length c) (fun t => ?_) fun loc => ?_).mono (by omega)
    · refine cost.assignGo ?_ fun _ _ h => ?_
      · simp
      · simp at h ⊢; omega
    · intro t
      refine .ite (fun _ => .still fun _ => by omega) fun _ => ?_
      exact (Pays.then (k := (as.drop (min as.length c)).length) fun b => ih).mono (by simp) t

theorem assignTo_pays {as : List (Arg α)} {d : SIt} : Pays (assignTo E N t as d) as.length := by
  intro τ
  exact .ite (fun _ => .pure (by omega)) fun _ => assignLoop_pays τ

theorem assignEach_pays {as : List (Arg α)} {d : SIt} : Pays (assignEach E N t as d) as.length := by
  induction as generalizing d with
  | nil => exact fun τ => .pure (by omega)
  | cons a as ih =>
    rw [List.length_cons, Nat.add_comm]
    exact .bind (fun τ => .assign (Nat.le_refl _) (Nat.le_refl _)) fun _ => .then fun _ => ih

/-- Destructors are not counted. -/
theorem chunkLoop_free {δ : Type} {body : Ptr → Ptr → Ptr → δ → M (St α) δ} (h : ∀ sg p q d, Pays (body sg p q d) 0) {k : Nat} {last sg : Ptr}
    {d : δ} : Pays (chunkLoop N t body last k sg d) 0 := by
  induction k generalizing sg d with
  | zero => exact fun _ => .undef
  | succ k ih =>
    intro τ
    unfold chunkLoop
    exact .ite (fun _ => .pure (by omega)) fun _ => Pays.then (fun b => Pays.bind (k := 0) (k' := 0) (h _ _ _ _) fun d => ih) τ

theorem destroy_pays {first last : SIt} : Pays (destroy N t first last : M (St α) Unit) 0 := by
  have hb : ∀ p q, Pays (destroyRange p q : M (St α) Unit) 0 := fun p q τ => .destroyRange (Nat.le_refl _)
  intro τ
  unfold destroy forChunks
  refine .ite (fun _ => hb _ _ τ) fun _ => ?_
  exact Pays.then (fun b => Pays.bind (k := 0) (k' := 0) (hb _ _) fun d => Pays.bind (k := 0) (k' := 0)
    (chunkLoop_free fun _ _ _ _ => hb _ _) fun d => Pays.then fun b => hb _ _) τ

theorem destroyNLoop_pays {k n : Nat} {sg loc : Ptr} : Pays (destroyNLoop N t k n sg loc : M (St α) SIt) 0 := by
  induction k generalizing n sg loc with
  | zero => exact fun _ => .undef
  | succ k ih =>
    unfold destroyNLoop
    refine .then fun b => .then fun c => ?_
    dsimp only
    refine Pays.bind (k := 0) (k' := 0) (fun τ => .destroyN (Nat.le_refl _)) fun _ τ => ?_
    exact .ite (fun _ => .still fun _ => by omega) fun _ => Pays.then (fun b => ih) τ

theorem destroyN_pays {n : Nat} {first : SIt} : Pays (destroyN N t first n : M (St α) SIt) 0 := destroyNLoop_pays

theorem uninitLoop_pays {k : Nat} {as : List (Arg α)} {first : SIt} {sg loc : Ptr} : Pays (uninitLoop E N t first k as sg loc) as.length := by
  induction k generalizing as sg loc with
  | zero => exact fun _ => .undef
  | succ k ih =>
    unfold uninitLoop
    refine .then fun b => .then fun c => ?_
    dsimp only
    refine (Pays.bind (k := min as.length c) (k' := as.length - min as.length c) ?_ fun loc => ?_).mono (by omega)
    · refine Pays.rethrow (h := fun e => do let c ← compose N t sg loc; destroy N t first c) (fun τ => ?_) (fun _ => ?_)
        fun _ => .then fun _ => destroy_pays
      · refine cost.uninit ?_ fun _ _ h => ?_
        · simp
        · simp at h ⊢; omega
      · rw [M.bind_assoc]
    · intro τ
      refine .ite (fun _ => .still fun _ => by omega) fun _ => ?_
      exact (Pays.then (k := (as.drop (min as.length c)).length) fun b => ih).mono (by simp) τ

theorem uninitTo_pays {as : List (Arg α)} {d : SIt} : Pays (uninitTo E N t as d) as.length := by
  intro τ
  exact .ite (fun _ => .pure (by omega)) fun _ => uninitLoop_pays τ

theorem uninitEachGo_pays {as : List (Arg α)} {first d : SIt} : Pays (uninitEachGo E N t first as d) as.length := by
  induction as generalizing d with
  | nil => exact fun τ => .pure (by omega)
  | cons a as ih =>
    rw [List.length_cons, Nat.add_comm]
    refine .bind (Pays.rethrow (h := fun e => destroy N t first d) (fun τ => .construct (Nat.le_refl _) (Nat.le_refl _)) (fun _ => rfl)
      fun _ => destroy_pays) fun _ => .then fun _ => ih

theorem uninitFillNLoop_pays {total k rem : Nat} {first : SIt} {sg loc : Ptr} : Pays (uninitFillNLoop E N t first total a k rem sg loc) rem := by
  induction k generalizing rem sg loc with
  | zero => exact fun _ => .undef
  | succ k ih =>
    unfold uninitFillNLoop
    refine .then fun b => .then fun c => ?_
    dsimp only
    refine (Pays.bind (k := min rem c) (k' := rem - min rem c) ?_ fun loc => ?_).mono (by omega)
    · exact Pays.rethrow (h := fun e => destroyN N t first (total - rem)) (fun τ => cost.uninitFillN (Nat.le_refl _) fun _ _ h => h)
        (fun _ => rfl) fun _ => destroyN_pays
    · intro τ
      refine .ite (fun _ => .still fun _ => by omega) fun _ => ?_
      exact (Pays.then (k := rem - min rem c) fun b => ih) τ

theorem uninitFillN_pays {n : Nat} {first : SIt} : Pays (uninitFillN E N t first n a) n := uninitFillNLoop_pays

/-! ### Between two iterators -/

section chunks
variable {δ : Type} {V : View} (hF : Fit V t)
include hF

theorem deref_tab {i : Nat} (hi : i < V.segs.length) {σ : Type} (s : σ) : deref t ⟨V.tb, V.base + i⟩ s = .ok ⟨V.sg i, 0⟩ s := by
  unfold deref
  rw [if_pos hF.tab.blk.symm, hF.tab.cells i hi]

theorem shift_back {i j : Nat} (hi : j = i + 1) {σ : Type} (s : σ) : shift ⟨V.tb, V.base + j⟩ (-1) s = .ok ⟨V.tb, V.base + i⟩ s := by
  subst hi
  unfold shift
  dsimp only
  rw [if_pos (by omega), show ((V.base + (i + 1) : Nat) : Int) + -1 = ((V.base + i : Nat) : Int) by omega, Int.toNat_natCast]

theorem chunkLoop_pays {body : Ptr → Ptr → Ptr → δ → M (St α) δ} (h : ∀ sg p q d, Pays (body sg p q d) (q.off - p.off)) {k i j : Nat}
    {d : δ} (hij : i ≤ j) (hj : j < V.segs.length) :
    Pays (chunkLoop V.N t body ⟨V.tb, V.base + j⟩ k ⟨V.tb, V.base + i⟩ d) ((j - i) * V.N) := by
  induction k generalizing i d with
  | zero => exact fun _ => .undef
  | succ k ih =>
    intro τ
    unfold chunkLoop
    refine .ite (fun _ => .pure (Nat.le_add_right _ _)) fun hne => ?_
    have hlt : i < j := by
      rcases Nat.lt_or_ge i j with h | h
      · exact h
      · exact absurd (by rw [Nat.le_antisymm hij h]) hne
    obtain ⟨m, rfl⟩ : ∃ m, j = i + 1 + m := ⟨j - (i + 1), by omega⟩
    rw [show i + 1 + m - i = m + 1 by omega, Nat.add_mul, Nat.one_mul, Nat.add_comm (m * V.N)]
    refine Pays.run (b := ⟨V.sg i, 0⟩) (fun s => deref_tab hF (by omega) s) ?_ τ
    refine (Pays.bind (k := V.N) (k' := m * V.N) ?_ fun d => ?_)
    · exact (h _ _ _ _).mono (by simp [Ptr.add])
    · have := ih (i := i + 1) (d := d) (by omega)
      rwa [show i + 1 + m - (i + 1) = m by omega] at this

theorem forChunks_pays {body1 body2 : Ptr → Ptr → Ptr → δ → M (St α) δ} (h1 : ∀ sg p q d, Pays (body1 sg p q d) (q.off - p.off))
    (h2 : ∀ sg p q d, Pays (body2 sg p q d) (q.off - p.off)) {x y : Nat} {d : δ} (hxy : x ≤ y) (hy : y ≤ V.size) :
    Pays (forChunks V.N t body1 body2 (V.it x) (V.it y) d) (y - x) := by
  have hx := View.div_lt hF.npos (hF.lt (Nat.le_trans hxy hy))
  have hy' := View.div_lt hF.npos (hF.lt hy)
  have ex := Nat.div_add_mod x V.N
  have ey := Nat.div_add_mod y V.N
  have mx := Nat.mod_lt x hF.npos
  have my := Nat.mod_lt y hF.npos
  have hd : x / V.N ≤ y / V.N := Nat.div_le_div_right hxy
  intro τ
  unfold forChunks
  refine .ite (fun he => ?_) fun hne => ?_
  · have he : V.base + x / V.N = V.base + y / V.N := by
      have : (V.it x).seg.off = (V.it y).seg.off := by rw [he]
      exact this
    refine (h1 _ _ _ _).mono ?_ τ
    show y % V.N - x % V.N ≤ y - x
    rw [show x / V.N = y / V.N by omega] at ex
    omega
  · have hlt : x / V.N < y / V.N := by
      rcases Nat.lt_or_ge (x / V.N) (y / V.N) with h | h
      · exact h
      · exact absurd (show (⟨V.tb, V.base + x / V.N⟩ : Ptr) = ⟨V.tb, V.base + y / V.N⟩ by rw [Nat.le_antisymm hd h]) hne
    obtain ⟨m, hm⟩ : ∃ m, y / V.N = x / V.N + 1 + m := ⟨y / V.N - (x / V.N + 1), by omega⟩
    have hl := fun d => chunkLoop_pays hF h2 (k := t.cells.length + 1) (i := x / V.N + 1) (j := y / V.N) (d := d) (by omega) hy'
    rw [show y / V.N - (x / V.N + 1) = m by omega] at hl
    refine Pays.run (fun s => deref_tab hF hx s) ?_ τ
    have key : V.N - x % V.N + (m * V.N + y % V.N) ≤ y - x := by
      have : V.N * (y / V.N) = V.N * (x / V.N) + V.N + m * V.N := by
        rw [hm, Nat.mul_add, Nat.mul_add, Nat.mul_one, Nat.mul_comm V.N m]
      omega
    refine (Pays.bind (k := V.N - x % V.N) (k' := m * V.N + y % V.N) ((h1 _ _ _ _).mono ?_) fun d => ?_).mono key
    · show ({ blk := _, off := 0 } : Ptr).off + V.N - x % V.N ≤ _
      simp
    · refine Pays.bind (hl d) fun d => ?_
      refine Pays.run (fun s => deref_tab hF hy' s) ?_
      exact (h2 _ _ _ _).mono (by show y % V.N - 0 ≤ _; omega)

theorem chunkLoopBack_pays {body : Ptr → Ptr → δ → M (St α) δ} (h : ∀ p q d, Pays (body p q d) (q.off - p.off)) {k i j : Nat}
    {d : δ} (hij : i ≤ j) (hj : j < V.segs.length) :
    ∀ τ, cost (chunkLoopBack V.N t body ⟨V.tb, V.base + i⟩ k ⟨V.tb, V.base + j⟩ d)
      (fun r τ' => r.1 = ⟨V.tb, V.base + i⟩ ∧ τ' ≤ τ + (j - i) * V.N) (fun τ' => τ' ≤ τ + (j - i) * V.N) τ := by
  induction k generalizing j d with
  | zero => exact fun _ => .undef
  | succ k ih =>
    intro τ
    unfold chunkLoopBack
    refine .ite (fun he => .pure ⟨he.symm, Nat.le_add_right _ _⟩) fun hne => ?_
    have hlt : i < j := by
      rcases Nat.lt_or_ge i j with h | h
      · exact h
      · exact absurd (by rw [Nat.le_antisymm hij h]) hne
    obtain ⟨m, rfl⟩ : ∃ m, j = i + m + 1 := ⟨j - (i + 1), by omega⟩
    rw [show i + m + 1 - i = m + 1 by omega, Nat.add_mul, Nat.one_mul]
    refine cost.run (fun s => deref_tab hF (by omega) s) ?_
    refine cost.bind (((h ⟨V.sg (i + m + 1), 0⟩ (Ptr.add ⟨V.sg (i + m + 1), 0⟩ V.N) d).mono (k' := V.N) (by simp [Ptr.add]) τ).mono
      (fun d τ' hτ => ?_) fun _ hτ => by omega)
    refine cost.run (fun s => shift_back hF (i := i + m) rfl s) ?_
    have := ih (j := i + m) (d := d) (by omega) (by omega) τ'
    rw [show i + m - i = m by omega] at this
    exact this.mono (fun _ _ h => ⟨h.1, by omega⟩) fun _ h => by omega

theorem forChunksBack_pays {body : Ptr → Ptr → δ → M (St α) δ} (h : ∀ p q d, Pays (body p q d) (q.off - p.off)) {x y : Nat} {d : δ}
    (hxy : x ≤ y) (hy : y ≤ V.size) : Pays (forChunksBack V.N t body (V.it x) (V.it y) d) (y - x) := by
  have hx := View.div_lt hF.npos (hF.lt (Nat.le_trans hxy hy))
  have hy' := View.div_lt hF.npos (hF.lt hy)
  have ex := Nat.div_add_mod x V.N
  have ey := Nat.div_add_mod y V.N
  have mx := Nat.mod_lt x hF.npos
  have my := Nat.mod_lt y hF.npos
  have hd : x / V.N ≤ y / V.N := Nat.div_le_div_right hxy
  intro τ
  unfold forChunksBack
  refine .ite (fun he => ?_) fun hne => ?_
  · have he : V.base + x / V.N = V.base + y / V.N := by
      have : (V.it x).seg.off = (V.it y).seg.off := by rw [he]
      exact this
    refine (h _ _ _).mono ?_ τ
    show y % V.N - x % V.N ≤ y - x
    rw [show x / V.N = y / V.N by omega] at ex
    omega
  · have hlt : x / V.N < y / V.N := by
      rcases Nat.lt_or_ge (x / V.N) (y / V.N) with h | h
      · exact h
      · exact absurd (show (⟨V.tb, V.base + x / V.N⟩ : Ptr) = ⟨V.tb, V.base + y / V.N⟩ by rw [Nat.le_antisymm hd h]) hne
    obtain ⟨m, hm⟩ : ∃ m, y / V.N = x / V.N + m + 1 := ⟨y / V.N - (x / V.N + 1), by omega⟩
    have hl := fun d => chunkLoopBack_pays hF h (k := t.cells.length + 1) (i := x / V.N) (j := x / V.N + m) (d := d) (by omega) (by omega)
    rw [show x / V.N + m - x / V.N = m by omega] at hl
    refine Pays.run (fun s => deref_tab hF hy' s) ?_ τ
    have key : y % V.N + (m * V.N + (V.N - x % V.N)) ≤ y - x := by
      have : V.N * (y / V.N) = V.N * (x / V.N) + m * V.N + V.N := by
        rw [hm, Nat.mul_add, Nat.mul_add, Nat.mul_one, Nat.mul_comm V.N m]
      omega
    refine (Pays.bind (k := y % V.N) (k' := m * V.N + (V.N - x % V.N)) ((h _ _ _).mono ?_) fun d => ?_).mono key
    · show y % V.N - 0 ≤ _; omega
    · have hsh : ∀ s : St α, shift (V.it y).seg (-1) s = .ok ⟨V.tb, V.base + (x / V.N + m)⟩ s := shift_back hF hm
      refine Pays.run hsh fun τ => .bind ((hl d τ).mono ?_ fun _ h => by omega)
      rintro ⟨sg, d⟩ τ' ⟨rfl, hle⟩
      refine (Pays.run (fun s => deref_tab hF hx s) ((h _ _ _).mono (k' := V.N - x % V.N) ?_) τ').mono (fun _ _ h => by omega) fun _ h => by omega
      show ({ blk := _, off := 0 } : Ptr).off + V.N - x % V.N ≤ _
      simp

variable {x y : Nat}

theorem fill_pays (hxy : x ≤ y) (hy : y ≤ V.size) : Pays (fill E V.N t (V.it x) (V.it y) a) (y - x) :=
  forChunks_pays hF (fun _ _ _ _ _ => .fillRange (fun _ _ => Nat.le_refl _) fun _ _ h => h)
    (fun _ _ _ _ _ => .fillRange (fun _ _ => Nat.le_refl _) fun _ _ h => h) hxy hy

theorem uninitFill_pays (hxy : x ≤ y) (hy : y ≤ V.size) : Pays (uninitFill E V.N t (V.it x) (V.it y) a) (y - x) :=
  forChunks_pays hF (fun _ _ _ _ _ => .uninitFill (fun _ _ => Nat.le_refl _) fun _ _ h => h)
    (fun sg _ _ _ => Pays.rethrow (h := fun e => do let b ← deref t sg; let c ← compose V.N t sg b; destroy V.N t (V.it x) c)
      (fun _ => .uninitFill (fun _ _ => Nat.le_refl _) fun _ _ h => h) (fun _ => by rw [M.bind_assoc]; congr 1; funext b; rw [M.bind_assoc])
      fun _ => .then fun _ => .then fun _ => destroy_pays) hxy hy

theorem assignSeg_pays {d : SIt} (hxy : x ≤ y) (hy : y ≤ V.size) : Pays (assignSeg E V.N t t' mk (V.it x) (V.it y) d) (y - x) := by
  have hb : ∀ (p q : Ptr) (d : SIt), Pays (do let n ← distance p q; assignTo E V.N t' (args mk p n) d) (q.off - p.off) := fun p q d τ =>
    .bind (.distance fun _ _ => by have := assignTo_pays (E := E) (N := V.N) (t := t') (as := args mk p (q.off - p.off)) (d := d) τ; rwa [args_length] at this)
  exact forChunks_pays hF (fun _ _ _ _ => hb _ _ _) (fun _ _ _ _ => hb _ _ _) hxy hy

theorem uninitSeg_pays {d : SIt} (hxy : x ≤ y) (hy : y ≤ V.size) : Pays (uninitSeg E V.N t t' mk (V.it x) (V.it y) d) (y - x) := by
  have hb : ∀ (p q : Ptr) (d : SIt), Pays (do let n ← distance p q; uninitTo E V.N t' (args mk p n) d) (q.off - p.off) := fun p q d τ =>
    .bind (.distance fun _ _ => by have := uninitTo_pays (E := E) (N := V.N) (t := t') (as := args mk p (q.off - p.off)) (d := d) τ; rwa [args_length] at this)
  exact forChunks_pays hF (fun _ _ _ _ => hb _ _ _) (fun _ _ _ c => Pays.rethrow (h := fun e => destroy V.N t' d c) (hb _ _ _) (fun _ => rfl)
    fun _ => destroy_pays) hxy hy

omit hF in
theorem backGo_pays {n : Nat} {p d : Ptr} : Pays (backGo E mk p n d) n := by
  induction n generalizing d with
  | zero => exact fun _ => .pure (Nat.le_refl _)
  | succ n ih =>
    rw [Nat.add_comm n 1]
    exact Nat.add_comm n 1 ▸ Pays.bind (k := 1) (k' := n) (fun _ => .assign (Nat.le_refl _) (Nat.le_refl _)) fun _ => ih

omit hF in
theorem backLoop_pays {k : Nat} {first curr sg loc : Ptr} : Pays (backLoop E N t mk first k curr sg loc) (curr.off - first.off) := by
  induction k generalizing curr sg loc with
  | zero => exact fun _ => .undef
  | succ k ih =>
    unfold backLoop
    refine fun τ => .bind (.distance fun hb ho => ?_)
    refine Pays.then (fun b => .then fun c => ?_) τ
    dsimp only
    generalize hn : min (curr.off - first.off) c = n
    have hle : n ≤ curr.off - first.off := by omega
    refine Pays.run (b := ⟨curr.blk, curr.off - n⟩) (fun s => ?_) ?_
    · unfold shift
      rw [if_pos (by omega)]
      congr 2
      omega
    refine (Pays.bind (k := n) (k' := curr.off - first.off - n) backGo_pays fun loc τ => ?_).mono (by omega)
    refine .ite (fun _ => .still fun _ => by omega) fun _ => ?_
    refine (Pays.then fun sg => .then fun b => ih.mono ?_) τ
    simp; omega

omit hF in
theorem backTo_pays {p q : Ptr} {d : SIt} : Pays (backTo E N t mk p q d) (q.off - p.off) :=
  fun τ => .ite (fun _ => .pure (by omega)) fun _ => backLoop_pays τ

theorem backSeg_pays {d : SIt} (hxy : x ≤ y) (hy : y ≤ V.size) : Pays (backSeg E V.N t t' mk (V.it x) (V.it y) d) (y - x) :=
  forChunksBack_pays hF (fun _ _ _ => backTo_pays) hxy hy

omit hF in
theorem From.assignList_pays {ra : Bool} {as : List (Arg α)} {d : SIt} : Pays ((From.list ra as).assign E N t d) as.length := by
  cases ra
  · exact assignEach_pays
  · exact assignTo_pays

omit hF in
theorem From.uninitList_pays {ra : Bool} {as : List (Arg α)} {d : SIt} : Pays ((From.list ra as).uninit E N t d) as.length := by
  cases ra
  · exact uninitEachGo_pays
  · exact uninitTo_pays

omit hF in
theorem removeGo_pays {f : α → Bool} {n : Nat} {d q : SIt} : Pays (removeGo E N t f n d q) n := by
  induction n generalizing d q with
  | zero => exact fun _ => .pure (Nat.le_refl _)
  | succ n ih =>
    refine fun τ => .bind (.readAt fun v => .ite (fun _ => ?_) fun _ => ?_)
    · exact (Pays.then fun q => ih.mono (by omega)) τ
    · exact (Nat.add_comm 1 n ▸ Pays.bind (k := 1) (k' := n) (fun _ => .assign (Nat.le_refl _) (Nat.le_refl _)) fun _ => .then fun _ => .then fun _ => ih) τ

theorem findIf_pays {f : α → Bool} {n x : Nat} (h : x + n ≤ V.size) (τ : Nat) :
    cost (findIf V.N t f n (V.it x)) (fun p τ' => (∃ j, j ≤ n ∧ p = V.it (x + j)) ∧ τ' = τ) (fun _ => False) τ := by
  induction n generalizing x with
  | zero => exact .pure ⟨⟨0, Nat.le_refl _, rfl⟩, rfl⟩
  | succ n ih =>
    refine .bind (.readAt fun v => .ite (fun _ => .pure ⟨⟨0, Nat.zero_le _, rfl⟩, rfl⟩) fun _ => ?_)
    refine cost.run (fun s => hF.inc (by omega) s) ((ih (x := x + 1) (by omega)).mono ?_ fun _ h => h)
    rintro p τ' ⟨⟨j, hj, rfl⟩, h⟩
    exact ⟨⟨j + 1, by omega, by rw [Nat.add_assoc, Nat.add_comm 1 j]⟩, h⟩

theorem removeIf_pays {f : α → Bool} (hxy : x ≤ y) (hy : y ≤ V.size) : Pays (removeIf E V.N t f (V.it x) (V.it y)) (y - x) := by
  unfold removeIf
  refine Pays.run (fun s => hF.dist hxy hy s) fun τ => .bind ((findIf_pays hF (by omega) τ).mono ?_ fun _ h => h.elim)
  rintro p _ ⟨⟨j, hj, rfl⟩, rfl⟩
  refine .ite (fun _ => .pure (by omega)) fun hne => ?_
  have hlt : x + j ≠ y := by
    intro he
    rw [hF.eq (by omega) hy, he] at hne
    simp at hne
  refine Pays.run (fun s => hF.inc (by omega) s) (Pays.run (fun s => hF.dist (by omega) hy s) ?_) _
  exact removeGo_pays.mono (by omega)

end chunks
end Seg
end Sfl
