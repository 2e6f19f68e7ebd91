import Verif.Stays
/-
  From functions that leave the table of blocks as it is to whole programs, for containers with internal storage whose
  clients never ask for more elements than fit.
-/

namespace Sfl.World
open Sq
variable {α : Type} {K : Nat} {Op I V ρ : Type}

/-- The result of a function called in memory `m`: it has left the table of blocks as it is and has not thrown bad_alloc;
the data members satisfy `P` if it returned and `X` if it threw. -/
def Steady {β W : Type} (m : St α) (P X : W → Prop) : Res (Obj W α) β → Prop
  | .ok _ o' => Same m o'.m ∧ P o'.obj
  | .exn e o' => Same m o'.m ∧ e ≠ .badAlloc ∧ X o'.obj
  | .ub _ => True

theorem Steady.of {β W : Type} {p : M (Obj W α) β} {P X : W → Prop} {v : W} (h : stays p (fun _ => P) X v) (m : St α) :
    Steady m P X (p ⟨v, m⟩) := by
  have h := h m
  cases hq : p ⟨v, m⟩ with
  | ok b o => rw [hq] at h; exact h
  | exn e o => rw [hq] at h; exact h
  | ub r => trivial

/-- The functions of a container type leave the table of blocks as it is and keep `inn`. -/
structure Confined (C : Cont K Op I V α ρ) (S : Sem Op I α ρ) (R : Rep K V α) (inn : Fin K → V → Prop) : Prop where
  make : ∀ {i m al init}, m.Wf → R.raw i m → S.initPre init = true →
    Steady m (inn i) (fun _ => True) (C.make i init ⟨C.blank i al, m⟩)
  copy : ∀ {i j m al w al2 xs F}, m.Wf → R.raw i m → R.rep j m w al2 xs F → inn j w →
    Steady m (inn i) (fun _ => True) (C.copyInit i w ⟨C.blank i al, m⟩)
  move : ∀ {i j m al w al2 xs F}, m.Wf → R.raw i m → R.rep j m w al2 xs F → inn j w →
    Steady m (fun o => inn i o.1 ∧ inn j o.2) (fun o => inn j o.2) (C.moveInit i j ⟨(C.blank i al, w), m⟩)
  destroy : ∀ {i m v al xs F}, m.Wf → R.rep i m v al xs F → inn i v →
    Steady m (fun _ => True) (fun _ => True) (C.destroy i ⟨v, m⟩)
  exec : ∀ {i m v al xs F op}, m.Wf → R.rep i m v al xs F → inn i v → S.pre xs.length op = true →
    Steady m (inn i) (inn i) (C.exec i op ⟨v, m⟩)
  assignCopy : ∀ {i j m v al xs F w al2 xs2 F2}, m.Wf → R.rep i m v al xs F → R.rep j m w al2 xs2 F2 → inn i v → inn j w →
    Steady m (inn i) (inn i) (C.assignCopy i j w ⟨v, m⟩)
  assignMove : ∀ {i j m v al xs F w al2 xs2 F2}, m.Wf → R.rep i m v al xs F → R.rep j m w al2 xs2 F2 → inn i v → inn j w →
    Steady m (fun o => inn i o.1 ∧ inn j o.2) (fun o => inn i o.1 ∧ inn j o.2) (C.assignMove i j ⟨(v, w), m⟩)
  swap : ∀ {i j m v al xs F w al2 xs2 F2}, m.Wf → R.rep i m v al xs F → R.rep j m w al2 xs2 F2 → inn i v → inn j w →
    Steady m (fun o => inn i o.1 ∧ inn j o.2) (fun o => inn i o.1 ∧ inn j o.2) (C.swap i j ⟨(v, w), m⟩)

/-- All containers that exist satisfy `inn`. -/
def AllIn (inn : Fin K → V → Prop) (obj : Fin K → Option V) : Prop := ∀ i v, obj i = some v → inn i v

theorem AllIn.set {inn : Fin K → V → Prop} {obj : Fin K → Option V} (h : AllIn inn obj) {i : Fin K} {v : V} (hv : inn i v) :
    AllIn inn (upd obj i (some v)) := by
  intro k u hu
  by_cases hk : k = i
  · subst hk; rw [upd_same] at hu; cases hu; exact hv
  · rw [upd_ne _ _ hk] at hu; exact h k u hu

theorem AllIn.unset {inn : Fin K → V → Prop} {obj : Fin K → Option V} (h : AllIn inn obj) {i : Fin K} :
    AllIn inn (upd obj i none) := by
  intro k u hu
  by_cases hk : k = i
  · subst hk; rw [upd_same] at hu; cases hu
  · rw [upd_ne _ _ hk] at hu; exact h k u hu

section
variable {R : Rep K V α} {C : Cont K Op I V α ρ} {S : Sem Op I α ρ} {m0 : St α} {inn : Fin K → V → Prop}

/-- What a step leaves behind. -/
def StepIn (inn : Fin K → V → Prop) (o : Slots K V α) (r : Out (Option ρ)) (o' : Slots K V α) : Prop :=
  Same o.m o'.m ∧ AllIn inn o'.obj ∧ r ≠ .threw .badAlloc

theorem create_in {i : Fin K} {v : V} {p : M (Obj V α) Unit} {o o' : Slots K V α} {r : Out (Option ρ)} {X : V → Prop}
    (hk : Steady o.m (inn i) X (p ⟨v, o.m⟩)) (ha : AllIn inn o.obj)
    (h : (create i v p : M (Slots K V α) (Out (Option ρ))) o = .ok r o') : StepIn inn o r o' := by
  unfold create at h
  split at h <;> rename_i hp
  · rw [hp] at hk; cases h; exact ⟨hk.1, ha.set hk.2, by simp⟩
  · rw [hp] at hk; cases h; exact ⟨hk.1, ha, by simpa using hk.2.1⟩
  · cases h

theorem call_in {β : Type} {i : Fin K} {v : V} {p : M (Obj V α) β} {f : β → Option ρ} {o o' : Slots K V α} {r : Out (Option ρ)}
    (hk : Steady o.m (inn i) (inn i) (p ⟨v, o.m⟩)) (ha : AllIn inn o.obj)
    (h : call i v p (fun b => .ok (f b)) o = .ok r o') : StepIn inn o r o' := by
  unfold call at h
  split at h <;> rename_i hp
  · rw [hp] at hk; cases h; exact ⟨hk.1, ha.set hk.2, by simp⟩
  · rw [hp] at hk; cases h; exact ⟨hk.1, ha.set hk.2.2, by simpa using hk.2.1⟩
  · cases h

theorem delete_in {i : Fin K} {v : V} {p : M (Obj V α) Unit} {o o' : Slots K V α} {r : Out (Option ρ)} {P X : V → Prop}
    (hk : Steady o.m P X (p ⟨v, o.m⟩)) (ha : AllIn inn o.obj)
    (h : (delete i v p : M (Slots K V α) (Out (Option ρ))) o = .ok r o') : StepIn inn o r o' := by
  unfold delete at h
  split at h <;> rename_i hp
  · rw [hp] at hk; cases h; exact ⟨hk.1, ha.unset, by simp⟩
  · rw [hp] at hk; cases h; exact ⟨hk.1, ha.unset, by simpa using hk.2.1⟩
  · cases h

theorem create2_in {i j : Fin K} {v w : V} {p : M (Obj (V × V) α) Unit} {o o' : Slots K V α} {r : Out (Option ρ)}
    (hk : Steady o.m (fun o => inn i o.1 ∧ inn j o.2) (fun o => inn j o.2) (p ⟨(v, w), o.m⟩)) (ha : AllIn inn o.obj)
    (h : (create2 i j v w p : M (Slots K V α) (Out (Option ρ))) o = .ok r o') : StepIn inn o r o' := by
  unfold create2 at h
  split at h <;> rename_i hp
  · rw [hp] at hk; cases h; exact ⟨hk.1, (ha.set hk.2.1).set hk.2.2, by simp⟩
  · rw [hp] at hk; cases h; exact ⟨hk.1, ha.set hk.2.2, by simpa using hk.2.1⟩
  · cases h

theorem call2_in {i j : Fin K} {v w : V} {p : M (Obj (V × V) α) Unit} {o o' : Slots K V α} {r : Out (Option ρ)}
    (hk : Steady o.m (fun o => inn i o.1 ∧ inn j o.2) (fun o => inn i o.1 ∧ inn j o.2) (p ⟨(v, w), o.m⟩)) (ha : AllIn inn o.obj)
    (h : (call2 i j v w p : M (Slots K V α) (Out (Option ρ))) o = .ok r o') : StepIn inn o r o' := by
  unfold call2 at h
  split at h <;> rename_i hp
  · rw [hp] at hk; cases h; exact ⟨hk.1, (ha.set hk.2.1).set hk.2.2, by simp⟩
  · rw [hp] at hk; cases h; exact ⟨hk.1, (ha.set hk.2.2.1).set hk.2.2.2, by simpa using hk.2.1⟩
  · cases h

theorem skip_in {o o' : Slots K V α} {r r' : Out (Option ρ)} (ha : AllIn inn o.obj) (hr : r' ≠ .threw .badAlloc)
    (h : (Res.ok r' o : Res (Slots K V α) (Out (Option ρ))) = .ok r o') : StepIn inn o r o' := by
  cases h; exact ⟨.refl _, ha, hr⟩

/-- A step leaves the table of blocks as it is. -/
theorem Confined.step (hC : Confined C S R inn) (hS : Spec C S R) {o o' : Slots K V α} {A : Abs K α} {F : Fin K → Foot}
    (h : Inv R m0 o A F) (ha : AllIn inn o.obj) {x : WOp K Op I} {r : Out (Option ρ)} (hx : World.step C S x o = .ok r o') :
    StepIn inn o r o' := by
  unfold World.step at hx
  cases x with
  | make i al init =>
    dsimp only at hx
    split at hx
    · rename_i hi
      split at hx
      · exact create_in (hC.make h.wf (h.emptyAt hi).2.2 ‹_›) ha hx
      · exact skip_in ha (by simp) hx
    · exact skip_in ha (by simp) hx
  | makeCopy i j al =>
    dsimp only at hx
    split at hx
    · rename_i w hi hj
      obtain ⟨_, _, -, hr⟩ := h.liveAt hj
      exact create_in (hC.copy h.wf (h.emptyAt hi).2.2 hr (ha j w hj)) ha hx
    · exact skip_in ha (by simp) hx
  | makeMove i j al =>
    dsimp only at hx
    split at hx
    · rename_i w hi hj
      obtain ⟨_, _, -, hr⟩ := h.liveAt hj
      exact create2_in (hC.move h.wf (h.emptyAt hi).2.2 hr (ha j w hj)) ha hx
    · exact skip_in ha (by simp) hx
  | destroy i =>
    dsimp only at hx
    split at hx
    · rename_i v hi
      obtain ⟨_, _, -, hr⟩ := h.liveAt hi
      exact delete_in (hC.destroy h.wf hr (ha i v hi)) ha hx
    · exact skip_in ha (by simp) hx
  | op i y =>
    dsimp only at hx
    split at hx
    · rename_i v hi
      obtain ⟨al, xs, -, hr⟩ := h.liveAt hi
      obtain ⟨n, o1, e1, rfl, rfl⟩ := wp_elim (hS.size h.wf hr)
      unfold callOp at hx
      rw [e1] at hx
      dsimp only at hx
      split at hx
      · exact call_in (f := id) (hC.exec h.wf hr (ha i v hi) ‹_›) ha hx
      · exact skip_in ha (by simp) hx
    · exact skip_in ha (by simp) hx
  | assignCopy i j =>
    dsimp only at hx
    split at hx
    · rename_i v w hi hj
      split at hx
      · exact skip_in ha (by simp) hx
      · obtain ⟨_, _, -, h1⟩ := h.liveAt hi
        obtain ⟨_, _, -, h2⟩ := h.liveAt hj
        rw [sized_eq hS h.wf h1 h2] at hx
        split at hx
        · exact call_in (f := fun _ => none) (hC.assignCopy h.wf h1 h2 (ha i v hi) (ha j w hj)) ha hx
        · exact skip_in ha (by simp) hx
    · exact skip_in ha (by simp) hx
  | assignMove i j =>
    dsimp only at hx
    split at hx
    · rename_i v w hi hj
      split at hx
      · exact skip_in ha (by simp) hx
      · obtain ⟨_, _, -, h1⟩ := h.liveAt hi
        obtain ⟨_, _, -, h2⟩ := h.liveAt hj
        rw [sized_eq hS h.wf h1 h2] at hx
        split at hx
        · exact call2_in (hC.assignMove h.wf h1 h2 (ha i v hi) (ha j w hj)) ha hx
        · exact skip_in ha (by simp) hx
    · exact skip_in ha (by simp) hx
  | swap i j =>
    dsimp only at hx
    split at hx
    · rename_i v w hi hj
      split at hx
      · exact skip_in ha (by simp) hx
      · obtain ⟨_, _, -, h1⟩ := h.liveAt hi
        obtain ⟨_, _, -, h2⟩ := h.liveAt hj
        split at hx
        · exact call2_in (hC.swap h.wf h1 h2 (ha i v hi) (ha j w hj)) ha hx
        · exact skip_in ha (by simp) hx
    · exact skip_in ha (by simp) hx

/-- A program leaves the table of blocks as it is. -/
theorem Confined.runOps (hC : Confined C S R inn) (hS : Spec C S R) (xs : List (WOp K Op I)) :
    ∀ {o : Slots K V α} {A : Abs K α} {F : Fin K → Foot}, Inv R m0 o A F → AllIn inn o.obj →
    ∃ log o', World.runOps C S xs o = .ok log o' ∧ Same o.m o'.m ∧ AllIn inn o'.obj ∧ .threw .badAlloc ∉ log := by
  induction xs with
  | nil => intro o A F _ ha; exact ⟨[], o, rfl, .refl _, ha, by simp⟩
  | cons x xs ih =>
    intro o A F h ha
    obtain ⟨r, o1, e1, A1, F1, h1, -⟩ := wp_elim (hS.step h x)
    obtain ⟨k1, k2, k3⟩ := hC.step hS h ha e1
    obtain ⟨rs, o2, e2, k4, k5, k6⟩ := ih h1 k2
    refine ⟨r :: rs, o2, ?_, k1.trans k4, k5, ?_⟩
    · show (World.step C S x >>= fun r => World.runOps C S xs >>= fun rs => pure (r :: rs)) o = _
      rw [bind_run e1, bind_run e2]; rfl
    · simp only [List.mem_cons, not_or]
      exact ⟨fun e => k3 e.symm, k6⟩

/-- The same operations and constructors under stronger preconditions. -/
def Sem.limit (S : Sem Op I α ρ) (p : Nat → Op → Bool) (q : I → Bool) : Sem Op I α ρ :=
  { S with
    pre := fun n op => S.pre n op && p n op
    initPre := fun init => S.initPre init && q init }

theorem Spec.limit (hS : Spec C S R) (p : Nat → Op → Bool) (q : I → Bool) : Spec C (S.limit p q) R where
  ok := hS.ok
  make := by
    intro i m al init hw hr hp
    have hp : (S.initPre init && q init) = true := hp
    rw [Bool.and_eq_true] at hp
    exact hS.make hw hr hp.1
  copy := hS.copy
  move := hS.move
  destroy := hS.destroy
  size := hS.size
  index := hS.index
  exec := by
    intro i m v al xs F op hw hr hp
    have hp : (S.pre xs.length op && p xs.length op) = true := hp
    rw [Bool.and_eq_true] at hp
    exact hS.exec hw hr hp.1
  assignCopy := hS.assignCopy
  assignMove := hS.assignMove
  swap := hS.swap

end

end Sfl.World
