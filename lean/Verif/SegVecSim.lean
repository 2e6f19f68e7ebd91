import Verif.SegSlots
import Verif.SegVec
import Verif.StaticSpec
import Verif.Remove
/-
  The functions of segmented_vector that stay within the present storage do what the functions of static_vector do on
  the contiguous memory. Proof machinery: no code is modelled in this file.
-/

set_option linter.unusedSimpArgs false
set_option linter.unusedSectionVars false

namespace Sfl

section generic
variable {α β β' γ γ' W W' : Type} {V : View} {al tcap : Nat} {Rv : W → W' → Prop} {v w : W} {v' w' : W'}

/-- Corresponding outcomes of member functions. -/
def SimORes (V : View) (al tcap : Nat) (Rv : W → W' → Prop) (R : β → β' → Prop) :
    Res (Obj W α) β → Res (Obj W' α) β' → Prop
  | _, .ub _ => True
  | .ok b o, .ok b' o' => R b b' ∧ Rv o.obj o'.obj ∧ o'.m = V.view o.m ∧ V.Lay al tcap o.m
  | .exn e o, .exn e' o' => e' = e ∧ Rv o.obj o'.obj ∧ o'.m = V.view o.m ∧ V.Lay al tcap o.m
  | _, _ => False

/-- The member function `m` of an object with data members `v` does what `m'` does for data members `v'` on the
contiguous memory. -/
def SimO (V : View) (al tcap : Nat) (Rv : W → W' → Prop) (m : M (Obj W α) β) (m' : M (Obj W' α) β') (R : β → β' → Prop)
    (v : W) (v' : W') : Prop :=
  ∀ s, V.Lay al tcap s → SimORes V al tcap Rv R (m ⟨v, s⟩) (m' ⟨v', V.view s⟩)

variable {R : β → β' → Prop} {S : γ → γ' → Prop}

theorem SimORes.ub_right {x : Res (Obj W α) β} {r : UB} : SimORes V al tcap Rv R x (.ub r : Res (Obj W' α) β') := by
  cases x <;> simp [SimORes]

theorem SimO.pure {b : β} {b' : β'} (hv : Rv v v') (h : R b b') :
    SimO (α := α) V al tcap Rv (pure b) (pure b') R v v' := fun _ hs => ⟨h, hv, rfl, hs⟩

theorem SimO.bind {m : M (Obj W α) β} {m' : M (Obj W' α) β'} {f : β → M (Obj W α) γ} {f' : β' → M (Obj W' α) γ'}
    (h : SimO V al tcap Rv m m' R v v') (hf : ∀ b b' w w', R b b' → Rv w w' → SimO V al tcap Rv (f b) (f' b') S w w') :
    SimO V al tcap Rv (m >>= f) (m' >>= f') S v v' := by
  intro s hs
  have := h s hs
  rw [M.bind_run, M.bind_run]
  cases h1 : m ⟨v, s⟩ <;> cases h2 : m' ⟨v', V.view s⟩ <;> rw [h1, h2] at this <;> simp only [SimORes] at this ⊢
  · obtain ⟨hr, hv, he, hl⟩ := this
    rename_i b o b' o'
    obtain ⟨w, s1⟩ := o
    obtain ⟨w', s1'⟩ := o'
    dsimp only at hv he hl
    subst he
    exact hf _ _ _ _ hr hv _ hl
  · exact this

theorem SimO.lift {p : M (St α) β} {p' : M (St α) β'} (hv : Rv v v') (h : Sim V al tcap p p' R) :
    SimO V al tcap Rv (lift p) (lift p') R v v' := by
  intro s hs
  have := h s hs
  unfold Sfl.lift
  dsimp only
  cases h1 : p s <;> cases h2 : p' (V.view s) <;> rw [h1, h2] at this <;> simp only [SimRes, SimORes] at this ⊢
  · exact ⟨this.1, hv, this.2.1, this.2.2⟩
  · exact ⟨this.1, hv, this.2.1, this.2.2⟩

/-- A memory operation in both programs. -/
theorem SimO.lift_bind {p : M (St α) β} {p' : M (St α) β'} {f : β → M (Obj W α) γ} {f' : β' → M (Obj W' α) γ'} (hv : Rv v v')
    (h : Sim V al tcap p p' R) (hf : ∀ b b', R b b' → SimO V al tcap Rv (f b) (f' b') S v v') :
    SimO V al tcap Rv (Sfl.lift p >>= f) (Sfl.lift p' >>= f') S v v' := by
  intro s hs
  have := h s hs
  rw [M.bind_run, M.bind_run]
  unfold Sfl.lift
  dsimp only
  cases h1 : p s <;> cases h2 : p' (V.view s) <;> rw [h1, h2] at this <;> simp only [SimRes, SimORes] at this ⊢
  · obtain ⟨hr, rfl, hl⟩ := this
    exact hf _ _ hr _ hl
  · exact ⟨this.1, hv, this.2.1, this.2.2⟩

theorem SimO.get {f : W → M (Obj W α) γ} {m' : M (Obj W' α) γ'} (h : SimO V al tcap Rv (f v) m' S v v') :
    SimO V al tcap Rv (getObj >>= f) m' S v v' := fun s hs => h s hs

theorem SimO.get' {f' : W' → M (Obj W' α) γ'} {m : M (Obj W α) γ} (h : SimO V al tcap Rv m (f' v') S v v') :
    SimO V al tcap Rv m (getObj >>= f') S v v' := fun s hs => h s hs

theorem SimO.set {f : Unit → M (Obj W α) γ} {f' : Unit → M (Obj W' α) γ'}
    (h : SimO V al tcap Rv (f ()) (f' ()) S w w') :
    SimO V al tcap Rv (setObj w >>= f) (setObj w' >>= f') S v v' := fun s hs => h s hs

theorem SimO.setLast (hv : Rv w w') :
    SimO (α := α) V al tcap Rv (setObj w) (setObj w') (fun _ _ => True) v v' := fun _ hs => ⟨trivial, hv, rfl, hs⟩

/-- A step of the left program that only computes. -/
theorem SimO.step {m : M (Obj W α) β} {b : β} {f : β → M (Obj W α) γ} {m' : M (Obj W' α) γ'}
    (h : ∀ s, m s = .ok b s) (hf : SimO V al tcap Rv (f b) m' S v v') : SimO V al tcap Rv (m >>= f) m' S v v' := by
  intro s hs
  rw [M.bind_run, h]
  exact hf s hs

/-- A step of the right program that only computes. -/
theorem SimO.step' {m' : M (Obj W' α) β'} {b' : β'} {f' : β' → M (Obj W' α) γ'} {m : M (Obj W α) γ}
    (h : ∀ s, m' s = .ok b' s) (hf : SimO V al tcap Rv m (f' b') S v v') : SimO V al tcap Rv m (m' >>= f') S v v' := by
  intro s hs
  rw [M.bind_run, h]
  exact hf s hs

/-- A check of the left program that succeeds. -/
theorem SimO.check {c : Prop} [Decidable c] {f : Unit → M (Obj W α) γ} {m' : M (Obj W' α) γ'} (hc : c)
    (hf : SimO V al tcap Rv (f ()) m' S v v') : SimO V al tcap Rv (M.assert c >>= f) m' S v v' :=
  SimO.step (fun _ => assert_run hc) hf

/-- A check of the right program. -/
theorem SimO.check' {c : Prop} [Decidable c] {f' : Unit → M (Obj W' α) γ'} {m : M (Obj W α) γ}
    (hf : c → SimO V al tcap Rv m (f' ()) S v v') : SimO V al tcap Rv m (M.assert c >>= f') S v v' := by
  intro s hs
  by_cases hc : c
  · rw [M.bind_run, assert_run hc]; exact hf hc s hs
  · rw [M.bind_run]; unfold M.assert; rw [if_neg hc]; exact SimORes.ub_right

theorem SimO.mono {m : M (Obj W α) β} {m' : M (Obj W' α) β'} {S : β → β' → Prop} (h : SimO V al tcap Rv m m' R v v')
    (hi : ∀ b b', R b b' → S b b') : SimO V al tcap Rv m m' S v v' := by
  intro s hs
  have := h s hs
  cases h1 : m ⟨v, s⟩ <;> cases h2 : m' ⟨v', V.view s⟩ <;> rw [h1, h2] at this <;> simp only [SimORes] at this ⊢
  · exact ⟨hi _ _ this.1, this.2⟩
  · exact this

theorem SimO.wp {m : M (Obj W α) β} {m' : M (Obj W' α) β'} {Q : β → Obj W α → Prop} {X : Exn → Obj W α → Prop} {s : St α}
    (h : SimO V al tcap Rv m m' R v v') (hl : V.Lay al tcap s)
    (hw : wp m' (fun b' o'' => ∀ b w s', R b b' → Rv w o''.obj → o''.m = V.view s' → V.Lay al tcap s' → Q b ⟨w, s'⟩)
      (fun e o'' => ∀ w s', Rv w o''.obj → o''.m = V.view s' → V.Lay al tcap s' → X e ⟨w, s'⟩) ⟨v', V.view s⟩) :
    wp m Q X ⟨v, s⟩ := by
  have := h s hl
  unfold Sfl.wp at hw ⊢
  revert this hw
  cases m ⟨v, s⟩ <;> cases m' ⟨v', V.view s⟩ <;> simp [SimORes]
  · intro h4 h1 h2 h3 h5; exact h4 _ _ _ h1 h2 h3 h5
  · rintro h4 rfl h2 h3 h5; exact h4 _ _ h2 h3 h5

end generic

/-! ### segmented_vector and a contiguous vector -/

section
variable {α : Type}

/-- The data members of a segmented_vector with `p` elements. -/
def View.svec (V : View) (t : Table) (tcap al p : Nat) : SVec :=
  ⟨t, ⟨V.tb, 0⟩, ⟨V.tb, V.segs.length⟩, ⟨V.tb, tcap⟩, V.it 0, V.it p, V.it V.size, al⟩

/-- The data members of the corresponding contiguous vector. -/
def View.vec (V : View) (al p : Nat) : Vec := ⟨⟨V.tb, 0⟩, ⟨V.tb, p⟩, ⟨V.tb, V.size⟩, al⟩

/-- Corresponding data members. -/
def View.SV (V : View) (t : Table) (tcap al : Nat) (v : SVec) (v' : Vec) : Prop :=
  ∃ p, p ≤ V.size ∧ v = V.svec t tcap al p ∧ v' = V.vec al p

variable {V : View} {t : Table} {al tcap lim : Nat} {E : Env α}

theorem View.sv (V : View) (t : Table) (tcap al : Nat) {p : Nat} (hp : p ≤ V.size) :
    V.SV t tcap al (V.svec t tcap al p) (V.vec al p) := ⟨p, hp, rfl, rfl⟩

namespace SegVec

theorem moveBackGo_eq (E : Env α) (first d : Ptr) (n : Nat) : moveBackGo E first n d = Seg.backGo E .mv first n d := by
  induction n generalizing d with
  | zero => rfl
  | succ n ih => simp only [moveBackGo, Seg.backGo, ih]

/-- The facts about the storage used everywhere. -/
structure Fit (V : View) (t : Table) : Prop where
  tab : V.Tab t
  npos : 0 < V.N
  len : 0 < V.segs.length
  nodup : V.segs.Nodup

variable (hF : Fit V t)
include hF

theorem Fit.lt {p : Nat} (hp : p ≤ V.size) : p < V.cap := by
  have : 0 < V.cap := Nat.mul_pos hF.len hF.npos
  unfold View.size at hp; omega

theorem Fit.eq {p q : Nat} (hp : p ≤ V.size) (hq : q ≤ V.size) : Seg.eq (V.it p) (V.it q) = decide (p = q) :=
  View.eq_it hF.nodup hF.npos (hF.lt hp) (hF.lt hq)

theorem Fit.ltI {p q : Nat} (hp : p ≤ V.size) (hq : q ≤ V.size) : Seg.lt (V.it p) (V.it q) = decide (p < q) :=
  View.lt_it hF.npos (hF.lt hp) (hF.lt hq)

theorem Fit.inc {σ : Type} {p : Nat} (hp : p + 1 ≤ V.size) (s : σ) : Seg.inc V.N t (V.it p) s = .ok (V.it (p + 1)) s :=
  View.inc_run hF.tab hF.npos (hF.lt hp) s

theorem Fit.dec {σ : Type} {p : Nat} (hp : p + 1 ≤ V.size) (s : σ) : Seg.dec V.N t (V.it (p + 1)) s = .ok (V.it p) s :=
  View.dec_run hF.tab hF.npos (hF.lt hp) s

theorem Fit.dist {σ : Type} {p q : Nat} (hpq : p ≤ q) (hq : q ≤ V.size) (s : σ) :
    Seg.dist V.N t (V.it p) (V.it q) s = .ok (q - p) s :=
  View.dist_run hF.tab hF.npos hpq (hF.lt hq) s

theorem Fit.adv {σ : Type} {p q : Nat} {n : Int} (hp : p ≤ V.size) (hq : q ≤ V.size) (hn : (q : Int) = p + n) (s : σ) :
    Seg.advance V.N t (V.it p) n s = .ok (V.it q) s :=
  View.advance_run hF.tab hF.npos (hF.lt hp) (hF.lt hq) hn s

theorem Fit.moveFwd {p q r : Nat} (hpq : p ≤ q) (hq : q ≤ V.size) (hr : r + (q - p) ≤ V.size) :
    Sim V al tcap (Seg.assignSeg E V.N t t .mv (V.it p) (V.it q) (V.it r))
      (Sfl.moveFwd (E.lim lim) ⟨V.tb, p⟩ ⟨V.tb, q⟩ ⟨V.tb, r⟩) (V.At (r + (q - p))) := by
  unfold Sfl.moveFwd
  refine Sim.step' (fun s => distance_run (p := ⟨V.tb, p⟩) (q := ⟨V.tb, q⟩) rfl hpq s) ?_
  rw [args_eq]
  exact View.sim_assignSeg hF.tab hF.tab hF.npos rfl (fun _ => rfl) hpq (hF.lt hq) (hF.lt hr) (fun i _ _ => V.map_tb i)

theorem Fit.uninitMove {p q r : Nat} (hpq : p ≤ q) (hq : q ≤ V.size) (hr : r + (q - p) ≤ V.size) :
    Sim V al tcap (Seg.uninitSeg E V.N t t .mv (V.it p) (V.it q) (V.it r))
      (Sfl.uninitMove (E.lim lim) ⟨V.tb, p⟩ ⟨V.tb, q⟩ ⟨V.tb, r⟩) (V.At (r + (q - p))) := by
  unfold Sfl.uninitMove
  refine Sim.step' (fun s => distance_run (p := ⟨V.tb, p⟩) (q := ⟨V.tb, q⟩) rfl hpq s) ?_
  rw [args_eq]
  exact View.sim_uninitSeg hF.tab hF.tab hF.npos rfl (fun _ => rfl) hpq (hF.lt hq) (hF.lt hr) (fun i _ _ => V.map_tb i)

theorem Fit.moveBackward {p q r : Nat} (hpq : p ≤ q) (hq : q ≤ V.size) (hr : r ≤ V.size) (hn : q - p ≤ r) :
    Sim V al tcap (Seg.backSeg E V.N t t .mv (V.it p) (V.it q) (V.it r))
      (Sfl.moveBackward (E.lim lim) ⟨V.tb, p⟩ ⟨V.tb, q⟩ ⟨V.tb, r⟩) (V.At (r - (q - p))) := by
  unfold Sfl.moveBackward
  refine Sim.step' (fun s => distance_run (p := ⟨V.tb, p⟩) (q := ⟨V.tb, q⟩) rfl hpq s) ?_
  rw [moveBackGo_eq]
  exact View.sim_backSeg hF.tab hF.npos (fun _ => rfl) hpq (hF.lt hq) (hF.lt hr) hn

/-! ### Functions -/

variable {p : Nat} (hp : p ≤ V.size)
include hp

theorem size_run (s : St α) : SegVec.size V.N ⟨V.svec t tcap al p, s⟩ = .ok p ⟨V.svec t tcap al p, s⟩ := by
  unfold SegVec.size
  rw [bind_run (getObj_run _)]
  exact hF.dist (Nat.zero_le _) hp _

theorem capacity_run (s : St α) : SegVec.capacity V.N ⟨V.svec t tcap al p, s⟩ = .ok V.size ⟨V.svec t tcap al p, s⟩ := by
  unfold SegVec.capacity
  rw [bind_run (getObj_run _)]
  exact hF.dist (Nat.zero_le _) (Nat.le_refl _) _

theorem available_run (s : St α) :
    SegVec.available V.N ⟨V.svec t tcap al p, s⟩ = .ok (V.size - p) ⟨V.svec t tcap al p, s⟩ := by
  unfold SegVec.available
  rw [bind_run (getObj_run _)]
  exact hF.dist hp (Nat.le_refl _) _

theorem addressOf_run (hb : V.base = 0) {k : Nat} (hk : k ≤ V.size) (s : St α) :
    addressOf V.N k ⟨V.svec t tcap al p, s⟩ = .ok (V.addr k) ⟨V.svec t tcap al p, s⟩ := by
  unfold addressOf
  rw [bind_run (getObj_run _)]
  have h := View.deref_run hF.tab (View.div_lt hF.npos (hF.lt hk)) (⟨V.svec t tcap al p, s⟩ : Obj SVec α)
  rw [hb, Nat.zero_add] at h
  have e : (⟨V.tb, 0⟩ : Ptr).add (k / V.N) = ⟨V.tb, k / V.N⟩ := by simp [Ptr.add]
  dsimp only
  rw [show (V.svec t tcap al p).tfirst = ⟨V.tb, 0⟩ from rfl, e, show (V.svec t tcap al p).tab = t from rfl, bind_run h]
  show Res.ok _ _ = _
  have := View.pos_split V k
  simp only [View.addr, Ptr.add]
  rw [show 0 + (k - k / V.N * V.N) = k % V.N by omega]

theorem nth_run (hb : V.base = 0) {k : Nat} (hk : k ≤ p) (s : St α) :
    SegVec.nth V.N k ⟨V.svec t tcap al p, s⟩ = .ok (V.it k) ⟨V.svec t tcap al p, s⟩ := by
  unfold SegVec.nth
  rw [bind_run (size_run hF hp s), bind_run (assert_run hk), bind_run (getObj_run _)]
  have h := View.deref_run hF.tab (View.div_lt hF.npos (hF.lt (Nat.le_trans hk hp))) (⟨V.svec t tcap al p, s⟩ : Obj SVec α)
  rw [hb, Nat.zero_add] at h
  have e : (⟨V.tb, 0⟩ : Ptr).add (k / V.N) = ⟨V.tb, k / V.N⟩ := by simp [Ptr.add]
  dsimp only
  rw [show (V.svec t tcap al p).tfirst = ⟨V.tb, 0⟩ from rfl, e, show (V.svec t tcap al p).tab = t from rfl, bind_run h]
  show Res.ok _ _ = _
  have := View.pos_split V k
  simp only [View.it, View.addr, Ptr.add, hb]
  rw [show 0 + (k - k / V.N * V.N) = k % V.N by omega, Nat.zero_add]

theorem indexOf_run {k : Nat} (hk : k ≤ p) (s : St α) :
    SegVec.indexOf V.N (V.it k) ⟨V.svec t tcap al p, s⟩ = .ok (some k) ⟨V.svec t tcap al p, s⟩ := by
  unfold SegVec.indexOf
  rw [bind_run (getObj_run _), bind_run (assert_run _)]
  · dsimp only
    rw [show (V.svec t tcap al p).tab = t from rfl, show (V.svec t tcap al p).first = V.it 0 from rfl,
      bind_run (hF.dist (Nat.zero_le _) (by omega) _)]
    rfl
  · constructor
    · show Seg.lt (V.it k) (V.it 0) = false
      rw [hF.ltI (by omega) (by omega)]; simp
    · show Seg.lt (V.it p) (V.it k) = false
      rw [hF.ltI (by omega) (by omega)]; simp; omega

theorem inRange {k : Nat} (hk : k ≤ p) : InRange (V.svec t tcap al p) (V.it k) := by
  constructor
  · show Seg.lt (V.it k) (V.it 0) = false
    rw [hF.ltI (by omega) (by omega)]; simp
  · show Seg.lt (V.it p) (V.it k) = false
    rw [hF.ltI (by omega) (by omega)]; simp; omega

omit hF hp in
theorem vsize_run (al p : Nat) (s : St α) : Vector.size ⟨V.vec al p, s⟩ = .ok p ⟨V.vec al p, s⟩ := by
  unfold Vector.size
  rw [bind_run (getObj_run _)]
  exact distance_run (p := ⟨V.tb, 0⟩) (q := ⟨V.tb, p⟩) rfl (Nat.zero_le _) _

/-- `size()` of the contiguous vector. -/
theorem _root_.Sfl.SimO.size' {γ γ' : Type} {S : γ → γ' → Prop} {f' : Nat → M (Obj Vec α) γ'} {m : SM α γ}
    (h : SimO V al tcap (V.SV t tcap al) m (f' p) S (V.svec t tcap al p) (V.vec al p)) :
    SimO V al tcap (V.SV t tcap al) m (Vector.size >>= f') S (V.svec t tcap al p) (V.vec al p) := by
  intro s hs
  rw [bind_run (vsize_run al p _)]
  exact h s hs

theorem sim_emplaceBackTail {a : Arg α} :
    SimO V al tcap (V.SV t tcap al) (emplaceBackTail E V.N (a.map V.map)) (StaticVector.emplaceBack (E.lim lim) V.size a)
      (V.At p) (V.svec t tcap al p) (V.vec al p) := by
  unfold emplaceBackTail StaticVector.emplaceBack StaticVector.assertNotFull
  simp only [M.bind_assoc]
  refine SimO.get (SimO.size' hF hp (SimO.check' fun hn => SimO.get' ?_))
  refine SimO.lift_bind (V.sv t tcap al hp) (R := fun _ _ => True) ?_ fun _ _ _ => ?_
  · show Sim V al tcap (construct E (V.it p).loc (a.map V.map)) (construct (E.lim lim) ⟨V.tb, p⟩ a) _
    rw [View.it_loc]
    exact Sim.construct
  · refine SimO.step (hF.inc (p := p) (by omega)) (SimO.set ?_)
    exact SimO.pure (V.sv t tcap al (by omega)) ⟨rfl, rfl⟩

theorem sim_emplaceTail {a : Arg α} {k : Nat} (hk : k ≤ p) :
    SimO V al tcap (V.SV t tcap al) (emplaceTail E V.N (V.it k) (a.map V.map))
      (StaticVector.emplace (E.lim lim) V.size ⟨V.tb, k⟩ a) (V.At k) (V.svec t tcap al p) (V.vec al p) := by
  unfold emplaceTail StaticVector.emplace StaticVector.assertNotFull
  simp only [M.bind_assoc]
  refine SimO.get (SimO.size' hF hp (SimO.check' fun hn => SimO.get' (SimO.check' fun _ => ?_)))
  have e1 : (V.vec al p).first.add ((⟨V.tb, k⟩ : Ptr).off - (V.vec al p).first.off) = ⟨V.tb, k⟩ := by
    simp [View.vec, Ptr.add]
  rw [e1]
  rw [show (V.svec t tcap al p).last = V.it p from rfl, show (V.svec t tcap al p).tab = t from rfl,
    show (V.vec al p).last = ⟨V.tb, p⟩ from rfl, hF.eq (by omega) (by omega)]
  by_cases he : k = p
  · subst he
    rw [if_pos (by simp), if_pos rfl]
    refine SimO.lift_bind (V.sv t tcap al hp) (R := fun _ _ => True) ?_ fun _ _ _ => ?_
    · rw [View.it_loc]; exact Sim.construct
    · refine SimO.step (hF.inc (p := k) (by omega)) (SimO.set ?_)
      exact SimO.pure (V.sv t tcap al (by omega)) ⟨rfl, rfl⟩
  · rw [if_neg (by simpa using he), if_neg (by simpa using he)]
    obtain ⟨q, rfl⟩ : ∃ q, p = q + 1 := ⟨p - 1, by omega⟩
    refine SimO.step (hF.dec (p := q) (by omega)) ?_
    refine SimO.lift_bind (V.sv t tcap al hp) Sim.mkTmp ?_
    rintro tmp _ rfl
    have e2 : (⟨V.tb, q + 1⟩ : Ptr).sub 1 = ⟨V.tb, q⟩ := by simp [Ptr.sub]
    simp only [e2]
    refine SimO.lift_bind (V.sv t tcap al hp) (R := fun _ _ => True) ?_ fun _ _ _ => ?_
    · rw [View.it_loc, View.it_loc]
      exact Sim.construct (a := .mv ⟨V.tb, q⟩)
    · refine SimO.step (hF.inc (p := q + 1) (by omega)) (SimO.set ?_)
      have hv : V.SV t tcap al (V.svec t tcap al (q + 1 + 1)) (V.vec al (q + 1 + 1)) := V.sv t tcap al (by omega)
      refine SimO.lift_bind hv (hF.moveBackward (p := k) (q := q) (r := q + 1) (by omega) (by omega) (by omega) (by omega))
        fun _ _ _ => ?_
      refine SimO.lift_bind hv (R := fun _ _ => True) ?_ fun _ _ _ => SimO.pure hv ⟨rfl, rfl⟩
      rw [View.it_loc]
      exact Sim.assign (a := .rv tmp)

theorem sim_clear : SimO (α := α) V al tcap (V.SV t tcap al) (SegVec.clear V.N) Vector.clear (fun _ _ => True)
    (V.svec t tcap al p) (V.vec al p) := by
  unfold SegVec.clear Vector.clear
  refine SimO.get (SimO.get' ?_)
  refine SimO.lift_bind (V.sv t tcap al hp) (View.sim_destroy hF.tab hF.npos (Nat.zero_le _) (hF.lt hp)) fun _ _ _ => ?_
  exact SimO.setLast (V.sv t tcap al (Nat.zero_le _))

theorem sim_popBack : SimO (α := α) V al tcap (V.SV t tcap al) (SegVec.popBack V.N) Vector.popBack (fun _ _ => True)
    (V.svec t tcap al p) (V.vec al p) := by
  unfold SegVec.popBack Vector.popBack
  refine SimO.get (SimO.get' (SimO.check' fun hn => ?_))
  have h0 : p ≠ 0 := by rintro rfl; exact hn rfl
  refine SimO.check ?_ ?_
  · show Seg.eq (V.it p) (V.it 0) = false
    rw [hF.eq hp (Nat.zero_le _)]; simpa using h0
  obtain ⟨q, rfl⟩ : ∃ q, p = q + 1 := ⟨p - 1, by omega⟩
  refine SimO.step (hF.dec (p := q) (by omega)) ?_
  have e : (V.vec al (q + 1)).last.sub 1 = ⟨V.tb, q⟩ := by simp [View.vec, Ptr.sub]
  rw [e]
  refine SimO.set (w := V.svec t tcap al q) (w' := V.vec al q) ?_
  refine SimO.lift (V.sv t tcap al (by omega)) ?_
  rw [View.it_loc]
  exact Sim.destroyAt

theorem sim_eraseAt {k : Nat} (hk : k < p) :
    SimO V al tcap (V.SV t tcap al) (SegVec.eraseAt E V.N (V.it k)) (Vector.eraseAt (E.lim lim) ⟨V.tb, k⟩)
      (V.At k) (V.svec t tcap al p) (V.vec al p) := by
  unfold SegVec.eraseAt Vector.eraseAt
  refine SimO.get (SimO.get' (SimO.check' fun _ => SimO.check ?_ ?_))
  · constructor
    · show Seg.lt (V.it k) (V.it 0) = false
      rw [hF.ltI (by omega) (by omega)]; simp
    · show Seg.lt (V.it k) (V.it p) = true
      rw [hF.ltI (by omega) (by omega)]; simpa using hk
  have e1 : (V.vec al p).first.add ((⟨V.tb, k⟩ : Ptr).off - (V.vec al p).first.off) = ⟨V.tb, k⟩ := by
    simp [View.vec, Ptr.add]
  rw [e1]
  refine SimO.step (hF.dist (p := 0) (q := k) (by omega) (by omega)) ?_
  refine SimO.step (hF.adv (p := 0) (q := k) (by omega) (by omega) (by simp)) ?_
  refine SimO.step (hF.adv (p := k) (q := k + 1) (by omega) (by omega) (by simp)) ?_
  refine SimO.lift_bind (V.sv t tcap al hp) (hF.moveFwd (p := k + 1) (q := p) (r := k) (by omega) (by omega) (by omega)) ?_
  rintro _ _ ⟨rfl, rfl⟩
  refine SimO.set (w := V.svec t tcap al (k + (p - (k + 1)))) (w' := V.vec al (k + (p - (k + 1)))) ?_
  refine SimO.lift_bind (R := fun _ _ => True) (V.sv t tcap al (by omega)) ?_ fun _ _ _ =>
    SimO.pure (V.sv t tcap al (by omega)) ⟨rfl, rfl⟩
  rw [View.it_loc]
  exact Sim.destroyAt

theorem sim_eraseRange {k l : Nat} (hk : k ≤ l) (hl : l ≤ p) :
    SimO V al tcap (V.SV t tcap al) (SegVec.eraseRange E V.N (V.it k) (V.it l))
      (Vector.eraseRange (E.lim lim) ⟨V.tb, k⟩ ⟨V.tb, l⟩) (V.At k) (V.svec t tcap al p) (V.vec al p) := by
  unfold SegVec.eraseRange Vector.eraseRange
  refine SimO.get (SimO.get' (SimO.check' fun _ => SimO.check ?_ ?_))
  · refine ⟨?_, ?_, ?_⟩
    · show Seg.lt (V.it k) (V.it 0) = false
      rw [hF.ltI (by omega) (by omega)]; simp
    · rw [hF.ltI (by omega) (by omega)]; simpa using hk
    · show Seg.lt (V.it p) (V.it l) = false
      rw [hF.ltI (by omega) (by omega)]; simpa using hl
  have e1 : (V.vec al p).first.add ((⟨V.tb, k⟩ : Ptr).off - (V.vec al p).first.off) = ⟨V.tb, k⟩ := by
    simp [View.vec, Ptr.add]
  have e2 : (V.vec al p).first.add ((⟨V.tb, l⟩ : Ptr).off - (V.vec al p).first.off) = ⟨V.tb, l⟩ := by
    simp [View.vec, Ptr.add]
  rw [e1, e2]
  refine SimO.step (hF.dist (p := 0) (q := k) (by omega) (by omega)) ?_
  refine SimO.step (hF.adv (p := 0) (q := k) (by omega) (by omega) (by simp)) ?_
  rw [hF.eq (by omega) (by omega)]
  by_cases he : k = l
  · subst he
    rw [if_pos (by simp), if_pos rfl]
    exact SimO.pure (V.sv t tcap al hp) ⟨rfl, rfl⟩
  rw [if_neg (by simpa using he), if_neg (by simpa using he)]
  refine SimO.step (hF.dist (p := 0) (q := l) (by omega) (by omega)) ?_
  refine SimO.step (hF.adv (p := 0) (q := l) (by omega) (by omega) (by simp)) ?_
  refine SimO.lift_bind (V.sv t tcap al hp) (hF.moveFwd (p := l) (q := p) (r := k) (by omega) (by omega) (by omega)) ?_
  rintro _ _ ⟨rfl, rfl⟩
  refine SimO.lift_bind (V.sv t tcap al hp)
    (View.sim_destroy hF.tab hF.npos (p := k + (p - l)) (q := p) (by omega) (hF.lt hp)) fun _ _ _ => ?_
  refine SimO.set (w := V.svec t tcap al (k + (p - l))) (w' := V.vec al (k + (p - l))) ?_
  exact SimO.pure (V.sv t tcap al (by omega)) ⟨rfl, rfl⟩

omit hp in
theorem sim_findIf {f : α → Bool} {n k : Nat} (h : k + n ≤ V.size) :
    Sim V al tcap (Seg.findIf V.N t f n (V.it k)) (Sfl.findIf f ⟨V.tb, k⟩ n)
      (fun it q => ∃ j, k ≤ j ∧ j ≤ k + n ∧ V.At j it q) := by
  induction n generalizing k with
  | zero => exact Sim.pure ⟨k, by omega, by omega, rfl, rfl⟩
  | succ n ih =>
    simp only [Seg.findIf, Sfl.findIf]
    rw [View.it_loc]
    refine Sim.bind (R := Eq) Sim.readAt ?_
    rintro v _ rfl
    by_cases hf : f v = true
    · rw [if_pos hf, if_pos hf]
      exact Sim.pure ⟨k, by omega, by omega, rfl, rfl⟩
    · rw [if_neg hf, if_neg hf]
      refine Sim.step (hF.inc (p := k) (by omega)) ?_
      refine (ih (k := k + 1) (by omega)).mono ?_
      rintro _ _ ⟨j, h1, h2, h3⟩
      exact ⟨j, by omega, by omega, h3⟩

omit hp in
theorem sim_removeGo {f : α → Bool} {n d k : Nat} (h : k + n ≤ V.size) (hd : d ≤ k) :
    Sim V al tcap (Seg.removeGo E V.N t f n (V.it d) (V.it k)) (Sfl.removeGo (E.lim lim) f n ⟨V.tb, d⟩ ⟨V.tb, k⟩)
      (fun it q => ∃ j, d ≤ j ∧ j ≤ d + n ∧ V.At j it q) := by
  induction n generalizing k d with
  | zero => exact Sim.pure ⟨d, by omega, by omega, rfl, rfl⟩
  | succ n ih =>
    simp only [Seg.removeGo, Sfl.removeGo]
    rw [View.it_loc, View.it_loc]
    refine Sim.bind (R := Eq) Sim.readAt ?_
    rintro v _ rfl
    by_cases hf : f v = true
    · rw [if_pos hf, if_pos hf]
      refine Sim.step (hF.inc (p := k) (by omega)) ?_
      refine (ih (k := k + 1) (d := d) (by omega) (by omega)).mono ?_
      rintro _ _ ⟨j, h1, h2, h3⟩
      exact ⟨j, by omega, by omega, h3⟩
    · rw [if_neg hf, if_neg hf]
      refine Sim.bind (R := fun _ _ => True) (Sim.assign (a := .mv ⟨V.tb, k⟩)) fun _ _ _ => ?_
      refine Sim.step (hF.inc (p := d) (by omega)) ?_
      refine Sim.step (hF.inc (p := k) (by omega)) ?_
      refine (ih (k := k + 1) (d := d + 1) (by omega) (by omega)).mono ?_
      rintro _ _ ⟨j, h1, h2, h3⟩
      exact ⟨j, by omega, by omega, h3⟩

theorem sim_removeIf' {f : α → Bool} {x : Nat} (hx : x ≤ p) :
    Sim V al tcap (Seg.removeIf E V.N t f (V.it x) (V.it p)) (Sfl.removeIf (E.lim lim) f ⟨V.tb, x⟩ ⟨V.tb, p⟩)
      (fun it q => ∃ j, j ≤ p ∧ V.At j it q) := by
  unfold Seg.removeIf Sfl.removeIf
  refine Sim.step (hF.dist (p := x) (q := p) hx hp) ?_
  refine Sim.step' (fun s => distance_run (p := ⟨V.tb, x⟩) (q := ⟨V.tb, p⟩) rfl hx s) ?_
  refine Sim.bind (sim_findIf hF (k := x) (n := p - x) (by omega)) ?_
  rintro _ _ ⟨j, _, hj, rfl, rfl⟩
  rw [hF.eq (by omega) hp]
  by_cases he : j = p
  · subst he
    rw [if_pos (by simp), if_pos rfl]
    exact Sim.pure ⟨j, by omega, rfl, rfl⟩
  · rw [if_neg (by simpa using he), if_neg (by simpa using he)]
    refine Sim.step (hF.inc (p := j) (by omega)) ?_
    refine Sim.step (hF.dist (p := j + 1) (q := p) (by omega) hp) ?_
    refine Sim.step' (fun s => distance_run (p := ⟨V.tb, j + 1⟩) (q := ⟨V.tb, p⟩) rfl (by simp; omega) s) ?_
    refine (sim_removeGo hF (k := j + 1) (d := j) (n := p - (j + 1)) (by omega) (by omega)).mono ?_
    rintro _ _ ⟨i, h1, h2, h3⟩
    exact ⟨i, by omega, h3⟩

theorem sim_removeIf {f : α → Bool} :
    Sim V al tcap (Seg.removeIf E V.N t f (V.it 0) (V.it p)) (Sfl.removeIf (E.lim lim) f ⟨V.tb, 0⟩ ⟨V.tb, p⟩)
      (fun it q => ∃ j, j ≤ p ∧ V.At j it q) := sim_removeIf' hF hp (Nat.zero_le _)

theorem sim_eraseIf {f : α → Bool} :
    SimO V al tcap (V.SV t tcap al) (SegVec.eraseIf E V.N f) (Vector.eraseIf (E.lim lim) f) Eq
      (V.svec t tcap al p) (V.vec al p) := by
  unfold SegVec.eraseIf Vector.eraseIf
  refine SimO.get (SimO.get' ?_)
  refine SimO.lift_bind (V.sv t tcap al hp) (sim_removeIf hF hp) ?_
  rintro _ _ ⟨j, hj, rfl, rfl⟩
  refine SimO.get ?_
  refine SimO.step (hF.dist (p := j) (q := p) hj hp) ?_
  first
  | refine SimO.get' ?_
    refine SimO.step' (fun s => distance_run (p := ⟨V.tb, j⟩) (q := ⟨V.tb, p⟩) rfl hj s) ?_
    refine SimO.bind (sim_eraseRange hF hp hj (Nat.le_refl _)) ?_
    intro _ _ w w' _ hv
    exact SimO.pure hv rfl
  | refine SimO.step' (fun s => distance_run (p := ⟨V.tb, j⟩) (q := ⟨V.tb, p⟩) rfl hj s) ?_
    refine SimO.bind (sim_eraseRange hF hp hj (Nat.le_refl _)) ?_
    intro _ _ w w' _ hv
    exact SimO.pure hv rfl

theorem sim_resizeTail {n : Nat} {a : Arg α} (hn : p < n) (hn' : n ≤ V.size) :
    SimO V al tcap (V.SV t tcap al) (resizeTail E V.N n p (a.map V.map)) (StaticVector.resizeWith (E.lim lim) V.size n a)
      (fun _ _ => True) (V.svec t tcap al p) (V.vec al p) := by
  unfold resizeTail StaticVector.resizeWith
  refine SimO.get (SimO.check' fun _ => SimO.get' (SimO.size' hF hp ?_))
  rw [if_neg (by omega), if_pos hn]
  refine SimO.lift_bind (V.sv t tcap al hp)
    (View.sim_uninitFillN (a := a) hF.tab hF.npos (p := p) (n := n - p) (hF.lt (by omega))) ?_
  rintro _ _ ⟨rfl, rfl⟩
  exact SimO.setLast (V.sv t tcap al (by omega))

omit hp in
theorem destroyRange_same (q : Ptr) : destroyRange (α := α) q q = pure () := by
  funext s
  unfold destroyRange
  rw [bind_run (distance_run (p := q) (q := q) rfl (Nat.le_refl _) s), Nat.sub_self]
  rfl

theorem sim_resizeDown (hb : V.base = 0) {n : Nat} {a : Arg α} (hn : n ≤ p) :
    SimO V al tcap (V.SV t tcap al) (SegVec.resizeWith E V.N n (a.map V.map)) (StaticVector.resizeWith (E.lim lim) V.size n a)
      (fun _ _ => True) (V.svec t tcap al p) (V.vec al p) := by
  intro s hs
  unfold SegVec.resizeWith
  rw [bind_run (size_run hF hp s), if_pos hn, bind_run (nth_run hF hp hb hn s)]
  revert s hs
  show SimO V al tcap (V.SV t tcap al) _ _ _ _ _
  unfold StaticVector.resizeWith
  refine SimO.get (SimO.check' fun _ => SimO.get' (SimO.size' hF hp ?_))
  have hd := View.sim_destroy (α := α) (al := al) (tcap := tcap) hF.tab hF.npos hn (hF.lt hp)
  by_cases he : n = p
  · subst he
    rw [if_neg (by omega), if_neg (by omega)]
    have hd' : Sim (α := α) V al tcap (Seg.destroy V.N t (V.it n) (V.it n)) (pure ()) (fun _ _ => True) := by
      rw [← destroyRange_same hF ⟨V.tb, n⟩]; exact hd
    intro s hs
    exact SimO.lift_bind (V.sv t tcap al hp) hd' (f' := fun _ => setObj (V.vec al n))
      (fun _ _ _ => SimO.setLast (V.sv t tcap al hp)) s hs
  · rw [if_pos (by omega)]
    have e : (V.vec al p).first.add n = ⟨V.tb, n⟩ := by simp [View.vec, Ptr.add]
    rw [e]
    refine SimO.lift_bind (V.sv t tcap al hp) hd fun _ _ _ => ?_
    exact SimO.setLast (V.sv t tcap al (by omega))

theorem sim_assignFillTail {n : Nat} {a : Arg α} (hn : p < n) (hn' : n ≤ V.size) :
    SimO V al tcap (V.SV t tcap al) (assignFillTail E V.N n p (a.map V.map))
      (StaticVector.assignFillN (E.lim lim) V.size n a) (fun _ _ => True) (V.svec t tcap al p) (V.vec al p) := by
  unfold assignFillTail StaticVector.assignFillN
  refine SimO.get (SimO.check' fun _ => SimO.size' hF hp (SimO.get' ?_))
  rw [if_neg (by omega)]
  refine SimO.step (hF.adv (p := 0) (q := p) (by omega) (by omega) (by simp)) ?_
  refine SimO.lift_bind (V.sv t tcap al hp)
    (View.sim_fill (a := a) hF.tab hF.npos (p := 0) (q := p) (Nat.zero_le _) (hF.lt hp)) fun _ _ _ => ?_
  have e : (V.vec al p).first.add n = ⟨V.tb, n⟩ := by simp [View.vec, Ptr.add]
  rw [e]
  have h1 : Sfl.uninitFill (E.lim lim) ⟨V.tb, p⟩ ⟨V.tb, n⟩ a =
      (Sfl.uninitFillN (E.lim lim) ⟨V.tb, p⟩ (n - p) a >>= fun _ => pure ()) := by
    funext s
    unfold Sfl.uninitFill
    rw [bind_run (distance_run (p := ⟨V.tb, p⟩) (q := ⟨V.tb, n⟩) rfl (by simp; omega) s)]
    rfl
  have h2 := View.sim_uninitFillN (E := E) (al := al) (tcap := tcap) (lim := lim) (a := a) hF.tab hF.npos (p := p) (n := n - p)
    (hF.lt (by omega))
  have h3 : Sim V al tcap (Seg.uninitFillN E V.N t (V.it p) (n - p) (a.map V.map) >>= fun l => pure l)
      (Sfl.uninitFill (E.lim lim) ⟨V.tb, p⟩ ⟨V.tb, n⟩ a) (fun it _ => it = V.it (p + (n - p))) := by
    rw [h1]
    exact Sim.bind h2 (fun _ _ h => Sim.pure h.1)
  rw [M.bind_pure'] at h3
  refine SimO.lift_bind (V.sv t tcap al hp) h3 ?_
  rintro _ _ rfl
  rw [show p + (n - p) = n by omega]
  exact SimO.setLast (V.sv t tcap al (by omega))

theorem sim_assignFillDown {n : Nat} {a : Arg α} (hn : n ≤ p) :
    SimO V al tcap (V.SV t tcap al) (SegVec.assignFillN E V.N n (a.map V.map))
      (StaticVector.assignFillN (E.lim lim) V.size n a) (fun _ _ => True) (V.svec t tcap al p) (V.vec al p) := by
  intro s hs
  unfold SegVec.assignFillN
  rw [bind_run (size_run hF hp s), if_pos hn]
  revert s hs
  show SimO V al tcap (V.SV t tcap al) _ _ _ _ _
  unfold StaticVector.assignFillN
  refine SimO.get (SimO.check' fun _ => SimO.size' hF hp (SimO.get' ?_))
  rw [if_pos hn]
  refine SimO.step (hF.adv (p := 0) (q := n) (by omega) (by omega) (by simp)) ?_
  have e : (V.vec al p).first.add n = ⟨V.tb, n⟩ := by simp [View.vec, Ptr.add]
  rw [e]
  refine SimO.lift_bind (V.sv t tcap al hp)
    (View.sim_fill (a := a) hF.tab hF.npos (p := 0) (q := n) (Nat.zero_le _) (hF.lt (by omega))) fun _ _ _ => ?_
  refine SimO.lift_bind (V.sv t tcap al hp)
    (View.sim_destroy hF.tab hF.npos (p := n) (q := p) hn (hF.lt hp)) fun _ _ _ => ?_
  exact SimO.setLast (V.sv t tcap al (by omega))

omit hF hp in
/-- The source of a range function and the elements it gives, in terms of the contiguous memory. -/
inductive IsFrom (V : View) : Seg.From α → List (Arg α) → Prop
  | list (ra : Bool) (as : List (Arg α)) : IsFrom V (.list ra (as.map (Arg.map V.map))) as
  | seg {Vs : View} {ts : Table} {mk : Ptr → Arg α} {x y : Nat} {va : Nat → Ptr} (hs : Vs.Tab ts) (hN : Vs.N = V.N)
      (hmk : ∀ q, (mk q).map V.map = mk (V.map q)) (hxy : x ≤ y) (hy : y < Vs.cap)
      (hva : ∀ i, x ≤ i → i < y → V.map (va i) = Vs.addr i) :
      IsFrom V (.seg ts mk (Vs.it x) (Vs.it y)) ((List.range' x (y - x)).map (fun i => mk (va i)))

omit hp in
theorem IsFrom.dist {src : Seg.From α} {as : List (Arg α)} (h : IsFrom V src as) {σ : Type} (s : σ) :
    src.dist V.N s = .ok as.length s := by
  cases h with
  | list => simp [Seg.From.dist]; rfl
  | seg hs hN hmk hxy hy hva =>
    rw [List.length_map, List.length_range']
    have := View.dist_run hs (by rw [hN]; exact hF.npos) hxy hy s
    rw [hN] at this
    exact this

omit hp in
theorem IsFrom.split {src : Seg.From α} {as : List (Arg α)} (h : IsFrom V src as) {n : Nat} (hn : n ≤ as.length) {σ : Type} :
    ∃ lo hi, (∀ s : σ, src.split V.N n s = .ok (lo, hi) s) ∧ IsFrom V lo (as.take n) ∧ IsFrom V hi (as.drop n) := by
  cases h with
  | list ra as =>
    refine ⟨_, _, fun s => rfl, ?_, ?_⟩
    · rw [← List.map_take]; exact .list ra _
    · rw [← List.map_drop]; exact .list ra _
  | @seg Vs ts mk x y va hs hN hmk hxy hy hva =>
    simp only [List.length_map, List.length_range'] at hn
    refine ⟨.seg ts mk (Vs.it x) (Vs.it (x + n)), .seg ts mk (Vs.it (x + n)) (Vs.it y), ?_, ?_, ?_⟩
    · intro s
      have := View.advance_run (n := (n : Int)) hs (by rw [hN]; exact hF.npos) (p := x) (q := x + n) (by omega) (by omega) (by simp) s
      rw [hN] at this
      simp only [Seg.From.split]
      rw [bind_run this]
      rfl
    · rw [← List.map_take, show (List.range' x (y - x)).take n = List.range' x n by
        apply List.ext_getElem <;> simp <;> omega]
      have := IsFrom.seg (V := V) (x := x) (y := x + n) (va := va) hs hN hmk (by omega) (by omega) (fun i h1 h2 => hva i h1 (by omega))
      rw [Nat.add_sub_cancel_left] at this
      exact this
    · rw [← List.map_drop, List.drop_range']
      have := IsFrom.seg (V := V) (x := x + n) (y := y) (va := va) hs hN hmk (by omega) (by omega) (fun i h1 h2 => hva i (by omega) h2)
      rw [show y - (x + n) = y - x - n by omega] at this
      rw [show x + n * 1 = x + n by omega]
      exact this

omit hp in
theorem IsFrom.assign {src : Seg.From α} {as : List (Arg α)} (h : IsFrom V src as) {r : Nat} (hr : r + as.length ≤ V.size) :
    Sim V al tcap (src.assign E V.N t (V.it r)) (assignGo (E.lim lim) ⟨V.tb, r⟩ as) (V.At (r + as.length)) := by
  cases h with
  | list ra =>
    cases ra
    · exact View.sim_assignEach hF.tab hF.npos (hF.lt hr)
    · exact View.sim_assignTo hF.tab hF.npos (hF.lt hr)
  | seg hs hN hmk hxy hy hva =>
    rw [List.length_map, List.length_range'] at hr ⊢
    exact View.sim_assignSeg hs hF.tab hF.npos hN hmk hxy hy (hF.lt hr) hva

omit hp in
theorem IsFrom.uninit {src : Seg.From α} {as : List (Arg α)} (h : IsFrom V src as) {r : Nat} (hr : r + as.length ≤ V.size) :
    Sim V al tcap (src.uninit E V.N t (V.it r)) (Sfl.uninit (E.lim lim) ⟨V.tb, r⟩ as) (V.At (r + as.length)) := by
  cases h with
  | list ra =>
    cases ra
    · exact View.sim_uninitEach hF.tab hF.npos (hF.lt hr)
    · exact View.sim_uninitTo hF.tab hF.npos (hF.lt hr)
  | seg hs hN hmk hxy hy hva =>
    rw [List.length_map, List.length_range'] at hr ⊢
    exact View.sim_uninitSeg hs hF.tab hF.npos hN hmk hxy hy (hF.lt hr) hva

theorem sim_assignRangeTail {src : Seg.From α} {as : List (Arg α)} (hsrc : IsFrom V src as) (hn : p < as.length)
    (hn' : as.length ≤ V.size) :
    SimO V al tcap (V.SV t tcap al) (assignRangeTail E V.N src p)
      (StaticVector.assignRange (E.lim lim) V.size as) (fun _ _ => True) (V.svec t tcap al p) (V.vec al p) := by
  unfold assignRangeTail StaticVector.assignRange
  refine SimO.get (SimO.check' fun _ => SimO.size' hF hp (SimO.get' ?_))
  rw [if_neg (by omega)]
  obtain ⟨lo, hi, hs, h1, h2⟩ := hsrc.split hF (n := p) (by omega) (σ := Obj SVec α)
  refine SimO.step hs ?_
  refine SimO.lift_bind (V.sv t tcap al hp) (h1.assign hF (r := 0) (by simp; omega)) fun _ _ _ => ?_
  refine SimO.lift_bind (V.sv t tcap al hp) (h2.uninit hF (r := p) (by simp; omega)) ?_
  rintro _ _ ⟨rfl, rfl⟩
  exact SimO.setLast (V.sv t tcap al (by simp; omega))

theorem sim_assignRangeDown {src : Seg.From α} {as : List (Arg α)} (hsrc : IsFrom V src as) (hn : as.length ≤ p) :
    SimO V al tcap (V.SV t tcap al) (SegVec.assignRange E V.N src)
      (StaticVector.assignRange (E.lim lim) V.size as) (fun _ _ => True) (V.svec t tcap al p) (V.vec al p) := by
  intro s hs
  unfold SegVec.assignRange
  rw [bind_run (hsrc.dist hF _), bind_run (size_run hF hp s), if_pos hn]
  revert s hs
  show SimO V al tcap (V.SV t tcap al) _ _ _ _ _
  unfold StaticVector.assignRange
  refine SimO.get (SimO.check' fun _ => SimO.size' hF hp (SimO.get' ?_))
  rw [if_pos hn]
  refine SimO.lift_bind (V.sv t tcap al hp) (hsrc.assign hF (r := 0) (by omega)) ?_
  rintro _ _ ⟨rfl, rfl⟩
  refine SimO.lift_bind (V.sv t tcap al hp)
    (View.sim_destroy hF.tab hF.npos (p := 0 + as.length) (q := p) (by omega) (hF.lt hp)) fun _ _ _ => ?_
  exact SimO.setLast (V.sv t tcap al (by omega))

theorem sim_assignRangeLoop {as : List (Arg α)} {k : Nat} (hk : k ≤ p) :
    Sim V al tcap (SegVec.assignRangeLoop E V.N t (V.it p) (as.map (Arg.map V.map)) (V.it k))
      (Vector.assignRangeLoop (E.lim lim) ⟨V.tb, p⟩ as ⟨V.tb, k⟩)
      (fun r r' => r.1 = r'.1.map (Arg.map V.map) ∧ ∃ j, k ≤ j ∧ j ≤ p ∧ V.At j r.2 r'.2) := by
  induction as generalizing k with
  | nil => exact Sim.pure ⟨rfl, k, by omega, hk, rfl, rfl⟩
  | cons a as ih =>
    simp only [List.map_cons, SegVec.assignRangeLoop, Vector.assignRangeLoop]
    rw [hF.eq (by omega) hp]
    by_cases he : k = p
    · subst he
      rw [if_pos (by simp), if_neg (by simp)]
      exact Sim.pure ⟨rfl, k, by omega, hk, rfl, rfl⟩
    · rw [if_neg (by simpa using he), if_pos (by simpa using he), View.it_loc]
      refine Sim.bind (R := fun _ _ => True) Sim.assign fun _ _ _ => ?_
      refine Sim.step (hF.inc (p := k) (by omega)) ?_
      refine (ih (k := k + 1) (by omega)).mono ?_
      rintro _ _ ⟨h1, j, h2, h3, h4⟩
      exact ⟨h1, j, by omega, h3, h4⟩

omit hF hp in
/-- static_vector.hpp:637-698, the part of `insert(pos, n, value)` after the copy of `value`. -/
def flatFillTail (E : Env α) (offset n : Nat) (tmp : α) : Vector.VM α Ptr := do
  let v ← getObj
  let p1 := v.first.add offset
  let p2 := p1.add n
  let oldLast := v.last
  if p2.off ≤ v.last.off then
    let p3 := v.last.sub n
    let l ← Sfl.lift (Sfl.uninitMove E p3 v.last v.last)
    setObj { v with last := l }
    let _ ← Sfl.lift (Sfl.moveBackward E p1 p3 oldLast)
    Sfl.lift (fillRange E p1 p2 (.val tmp))
    pure p1
  else
    Sfl.lift (Sfl.uninitFill E v.last p2 (.val tmp))
    setObj { v with last := p2 }
    let l ← Sfl.lift (Sfl.uninitMove E p1 oldLast p2)
    setObj { v with last := l }
    Sfl.lift (fillRange E p1 oldLast (.val tmp))
    pure p1

theorem sim_insertFillTail {k n : Nat} {tmp : α} (hk : k ≤ p) (hn : p + n ≤ V.size) :
    SimO V al tcap (V.SV t tcap al) (insertFillTail E V.N k n tmp) (flatFillTail (E.lim lim) k n tmp)
      (V.At k) (V.svec t tcap al p) (V.vec al p) := by
  unfold insertFillTail flatFillTail
  refine SimO.get (SimO.get' ?_)
  refine SimO.step (hF.adv (p := 0) (q := k) (by omega) (by omega) (by simp)) ?_
  refine SimO.step (hF.adv (p := k) (q := k + n) (by omega) (by omega) (by simp)) ?_
  have e1 : (V.vec al p).first.add k = ⟨V.tb, k⟩ := by simp [View.vec, Ptr.add]
  have e2 : (⟨V.tb, k⟩ : Ptr).add n = ⟨V.tb, k + n⟩ := by simp [Ptr.add]
  dsimp only
  rw [e1, e2]
  rw [show (V.svec t tcap al p).last = V.it p from rfl, show (V.vec al p).last = ⟨V.tb, p⟩ from rfl,
    show (V.svec t tcap al p).tab = t from rfl, hF.ltI (by omega) (by omega)]
  by_cases hc : k + n ≤ p
  · rw [if_pos (by simpa using hc), if_pos hc]
    refine SimO.step (hF.adv (p := p) (q := p - n) (by omega) (by omega) (by omega)) ?_
    have e3 : (⟨V.tb, p⟩ : Ptr).sub n = ⟨V.tb, p - n⟩ := by simp [Ptr.sub]; omega
    rw [e3]
    refine SimO.lift_bind (V.sv t tcap al hp) (hF.uninitMove (p := p - n) (q := p) (r := p) (by omega) (by omega) (by omega)) ?_
    rintro _ _ ⟨rfl, rfl⟩
    refine SimO.set (w := V.svec t tcap al (p + (p - (p - n)))) (w' := V.vec al (p + (p - (p - n)))) ?_
    refine SimO.lift_bind (V.sv t tcap al (by omega))
      (hF.moveBackward (p := k) (q := p - n) (r := p) (by omega) (by omega) (by omega) (by omega)) fun _ _ _ => ?_
    refine SimO.lift_bind (V.sv t tcap al (by omega))
      (View.sim_fill (a := .val tmp) hF.tab hF.npos (p := k) (q := k + n) (by omega) (hF.lt (by omega))) fun _ _ _ => ?_
    exact SimO.pure (V.sv t tcap al (by omega)) ⟨rfl, rfl⟩
  · rw [if_neg (by simp; omega), if_neg hc]
    refine SimO.lift_bind (V.sv t tcap al hp)
      (View.sim_uninitFill (a := .val tmp) hF.tab hF.npos (p := p) (q := k + n) (by omega) (hF.lt (by omega))) fun _ _ _ => ?_
    refine SimO.set (w := V.svec t tcap al (k + n)) (w' := V.vec al (k + n)) ?_
    refine SimO.lift_bind (V.sv t tcap al (by omega))
      (hF.uninitMove (p := k) (q := p) (r := k + n) (by omega) (by omega) (by omega)) ?_
    rintro _ _ ⟨rfl, rfl⟩
    refine SimO.set (w := V.svec t tcap al (k + n + (p - k))) (w' := V.vec al (k + n + (p - k))) ?_
    refine SimO.lift_bind (V.sv t tcap al (by omega))
      (View.sim_fill (a := .val tmp) hF.tab hF.npos (p := k) (q := p) (by omega) (hF.lt (by omega))) fun _ _ _ => ?_
    exact SimO.pure (V.sv t tcap al (by omega)) ⟨rfl, rfl⟩

omit hF hp in
theorem map_val (ys : List α) : (ys.map Arg.val).map (Arg.map V.map) = ys.map Arg.val := by
  simp [Function.comp_def, Arg.map]

theorem sim_insertRangeTail {k : Nat} {ra : Bool} {ys : List α} (hk : k ≤ p) (hn : p + ys.length ≤ V.size) (h0 : ys ≠ []) :
    SimO V al tcap (V.SV t tcap al) (insertRangeTail E V.N ra k (p - k) ys)
      (StaticVector.insertRange (E.lim lim) V.size ⟨V.tb, k⟩ ys) (V.At k) (V.svec t tcap al p) (V.vec al p) := by
  have fl : ∀ zs : List α, IsFrom V (.list ra (zs.map .val)) (zs.map Arg.val) := by
    intro zs
    have := IsFrom.list (V := V) ra (zs.map Arg.val)
    rwa [map_val] at this
  unfold insertRangeTail StaticVector.insertRange StaticVector.assertAvailable
  simp only [M.bind_assoc]
  refine SimO.get (SimO.size' hF hp (SimO.check' fun _ => SimO.get' (SimO.check' fun _ => ?_)))
  rw [if_neg h0]
  refine SimO.step (hF.adv (p := 0) (q := k) (by omega) (by omega) (by simp)) ?_
  refine SimO.step (hF.adv (p := k) (q := k + ys.length) (by omega) (by omega) (by simp)) ?_
  have e1 : (V.vec al p).first.add ((⟨V.tb, k⟩ : Ptr).off - (V.vec al p).first.off) = ⟨V.tb, k⟩ := by
    simp [View.vec, Ptr.add]
  have e2 : (⟨V.tb, k⟩ : Ptr).add ys.length = ⟨V.tb, k + ys.length⟩ := by simp [Ptr.add]
  dsimp only at e1 ⊢
  rw [e1, e2]
  rw [show (V.svec t tcap al p).last = V.it p from rfl, show (V.vec al p).last = ⟨V.tb, p⟩ from rfl,
    show (V.svec t tcap al p).tab = t from rfl, hF.ltI (by omega) (by omega)]
  by_cases hc : k + ys.length ≤ p
  · rw [if_pos (by simpa using hc), if_pos hc]
    refine SimO.step (hF.adv (p := p) (q := p - ys.length) (by omega) (by omega) (by omega)) ?_
    have e3 : (⟨V.tb, p⟩ : Ptr).sub ys.length = ⟨V.tb, p - ys.length⟩ := by simp [Ptr.sub]; omega
    rw [e3]
    refine SimO.lift_bind (V.sv t tcap al hp) (hF.uninitMove (p := p - ys.length) (q := p) (r := p) (by omega) (by omega) (by omega)) ?_
    rintro _ _ ⟨rfl, rfl⟩
    refine SimO.set (w := V.svec t tcap al (p + (p - (p - ys.length)))) (w' := V.vec al (p + (p - (p - ys.length)))) ?_
    refine SimO.lift_bind (V.sv t tcap al (by omega))
      (hF.moveBackward (p := k) (q := p - ys.length) (r := p) (by omega) (by omega) (by omega) (by omega)) fun _ _ _ => ?_
    refine SimO.lift_bind (V.sv t tcap al (by omega)) ((fl ys).assign hF (r := k) (by simp; omega)) fun _ _ _ => ?_
    exact SimO.pure (V.sv t tcap al (by omega)) ⟨rfl, rfl⟩
  · rw [if_neg (by simp; omega), if_neg hc]
    refine SimO.step' (fun s => distance_run (p := ⟨V.tb, k⟩) (q := ⟨V.tb, p⟩) rfl hk s) ?_
    refine SimO.lift_bind (V.sv t tcap al hp) ((fl (ys.drop (p - k))).uninit hF (r := p) (by simp; omega)) ?_
    rintro _ _ ⟨rfl, rfl⟩
    simp only [List.length_map, List.length_drop]
    refine SimO.set (w := V.svec t tcap al (p + (ys.length - (p - k)))) (w' := V.vec al (p + (ys.length - (p - k)))) ?_
    refine SimO.lift_bind (V.sv t tcap al (by omega))
      (hF.uninitMove (p := k) (q := p) (r := p + (ys.length - (p - k))) (by omega) (by omega) (by omega)) ?_
    rintro _ _ ⟨rfl, rfl⟩
    refine SimO.set (w := V.svec t tcap al (p + (ys.length - (p - k)) + (p - k))) (w' := V.vec al (p + (ys.length - (p - k)) + (p - k))) ?_
    refine SimO.lift_bind (V.sv t tcap al (by omega)) ((fl (ys.take (p - k))).assign hF (r := k) (by simp; omega)) fun _ _ _ => ?_
    exact SimO.pure (V.sv t tcap al (by omega)) ⟨rfl, rfl⟩

end SegVec
end
end Sfl
