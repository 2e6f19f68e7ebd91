import Verif.CalmAll
/-
  If element operations and allocations do not throw: which steps of a program with several containers throw what. First for any container
  type, then the facts about copying and moving needed for the containers in contiguous memory.
-/

set_option linter.unusedVariables false
set_option linter.unusedSimpArgs false

namespace Sfl.World
open Sq
variable {α : Type} {K : Nat} {Op I V ρ : Type}

/-- A history of steps, in which a step `x` throws `e` only if `P A x e`, where `A` are the containers before the step. -/
inductive JRun (S : Sem Op I α ρ) (P : Abs K α → WOp K Op I → Exn → Prop) :
    Abs K α → List (WOp K Op I) → List (Out (Option ρ)) → Abs K α → Prop where
  | nil {A} : JRun S P A [] [] A
  | cons {A B D op ops out outs} : WStep S A op out B → (∀ e, out = .threw e → P A op e) → JRun S P B ops outs D →
      JRun S P A (op :: ops) (out :: outs) D

theorem JRun.run {S : Sem Op I α ρ} {P : Abs K α → WOp K Op I → Exn → Prop} {A B : Abs K α} {ops : List (WOp K Op I)}
    {log : List (Out (Option ρ))} (h : JRun S P A ops log B) : WRun S A ops log B := by
  induction h with
  | nil => exact .nil
  | cons h _ _ ih => exact .cons h ih

/-- Constructors from values and operations throw what is in `L`, copies and moves of a container of size `n` what is in `Lc n`; swap
and destructors throw nothing. -/
def Allowed (L : Exn → Prop) (Lc : Nat → Exn → Prop) (A : Abs K α) (e : Exn) : WOp K Op I → Prop
  | .make _ _ _ => L e
  | .op _ _ => L e
  | .makeCopy _ j _ => ∃ al xs, A j = some (al, xs) ∧ Lc xs.length e
  | .makeMove _ j _ => ∃ al xs, A j = some (al, xs) ∧ Lc xs.length e
  | .assignCopy _ j => ∃ al xs, A j = some (al, xs) ∧ Lc xs.length e
  | .assignMove _ j => ∃ al xs, A j = some (al, xs) ∧ Lc xs.length e
  | .destroy _ => False
  | .swap _ _ => False

/-- The functions of a container type throw what `Allowed` says. -/
structure Tame (C : Cont K Op I V α ρ) (S : Sem Op I α ρ) (R : Rep K V α) (L : Exn → Prop) (Lc : Nat → Exn → Prop) : Prop where
  make : ∀ i init, Calm L (C.make i init)
  exec : ∀ i op, Calm L (C.exec i op)
  copy : ∀ {i j w al xs F} {o o' : Obj V α} {e}, R.rep j o.m w al xs F → C.copyInit i w o = .exn e o' → Lc xs.length e
  move : ∀ {i j v w al xs F} {m : St α} {o' : Obj (V × V) α} {e}, R.rep j m w al xs F →
    C.moveInit i j ⟨(v, w), m⟩ = .exn e o' → Lc xs.length e
  assignCopy : ∀ {i j m v al xs F w al2 xs2 F2} {o' : Obj V α} {e}, m.Wf → R.rep i m v al xs F → R.rep j m w al2 xs2 F2 →
    Disj F F2 → S.copyPre al al2 xs.length xs2.length = true → C.assignCopy i j w ⟨v, m⟩ = .exn e o' → Lc xs2.length e
  assignMove : ∀ {i j m v al xs F w al2 xs2 F2} {o' : Obj (V × V) α} {e}, m.Wf → R.rep i m v al xs F → R.rep j m w al2 xs2 F2 →
    Disj F F2 → S.movePre al al2 xs.length xs2.length = true → C.assignMove i j ⟨(v, w), m⟩ = .exn e o' → Lc xs2.length e
  swap : ∀ i j, Calm (fun _ => False) (C.swap i j)

/-- The copying functions are calm whatever the containers look like. -/
theorem Tame.of {C : Cont K Op I V α ρ} {S : Sem Op I α ρ} {R : Rep K V α} {L Lc : Exn → Prop} (make : ∀ i init, Calm L (C.make i init))
    (exec : ∀ i op, Calm L (C.exec i op)) (copy : ∀ i w, Calm Lc (C.copyInit i w)) (move : ∀ i j, Calm Lc (C.moveInit i j))
    (assignCopy : ∀ i j w, Calm Lc (C.assignCopy i j w)) (assignMove : ∀ i j, Calm Lc (C.assignMove i j))
    (swap : ∀ i j, Calm (fun _ => False) (C.swap i j)) : Tame C S R L (fun _ => Lc) :=
  ⟨make, exec, fun _ h => (copy _ _).out _ _ _ h, fun _ h => (move _ _).out _ _ _ h,
    fun _ _ _ _ _ h => (assignCopy _ _ _).out _ _ _ h, fun _ _ _ _ _ h => (assignMove _ _).out _ _ _ h, swap⟩

section
variable {R : Rep K V α} {C : Cont K Op I V α ρ} {S : Sem Op I α ρ} {m0 : St α} {L : Exn → Prop} {Lc : Nat → Exn → Prop}

theorem create_threw {i : Fin K} {v : V} {p : M (Obj V α) Unit} {o o' : Slots K V α} {e : Exn}
    (h : (create i v p : M (Slots K V α) (Out (Option ρ))) o = .ok (.threw e) o') : ∃ o1, p ⟨v, o.m⟩ = .exn e o1 := by
  unfold create at h
  split at h
  · cases h
  · rename_i hp; cases h; exact ⟨_, hp⟩
  · cases h

theorem create2_threw {i j : Fin K} {v w : V} {p : M (Obj (V × V) α) Unit} {o o' : Slots K V α} {e : Exn}
    (h : (create2 i j v w p : M (Slots K V α) (Out (Option ρ))) o = .ok (.threw e) o') :
    ∃ o1, p ⟨(v, w), o.m⟩ = .exn e o1 := by
  unfold create2 at h
  split at h
  · cases h
  · rename_i hp; cases h; exact ⟨_, hp⟩
  · cases h

theorem call2_threw {i j : Fin K} {v w : V} {p : M (Obj (V × V) α) Unit} {o o' : Slots K V α} {e : Exn}
    (h : (call2 i j v w p : M (Slots K V α) (Out (Option ρ))) o = .ok (.threw e) o') :
    ∃ o1, p ⟨(v, w), o.m⟩ = .exn e o1 := by
  unfold call2 at h
  split at h
  · cases h
  · rename_i hp; cases h; exact ⟨_, hp⟩
  · cases h

theorem call_threw {β : Type} {i : Fin K} {v : V} {p : M (Obj V α) β} {f : β → Out (Option ρ)} {o o' : Slots K V α} {e : Exn}
    (hf : ∀ b, f b ≠ .threw e) (h : call i v p f o = .ok (.threw e) o') : ∃ o1, p ⟨v, o.m⟩ = .exn e o1 := by
  unfold call at h
  split at h
  · injection h with h1 h2; exact absurd h1 (hf _)
  · rename_i hp; cases h; exact ⟨_, hp⟩
  · cases h

/-- What a step throws. -/
theorem Tame.step_threw (hT : Tame C S R L Lc) (hS : Spec C S R) {o o' : Slots K V α} {A : Abs K α} {F : Fin K → Foot}
    (h : Inv R m0 o A F) {x : WOp K Op I} {e : Exn} (hx : World.step C S x o = .ok (.threw e) o') : Allowed L Lc A e x := by
  unfold World.step at hx
  cases x with
  | make i al init =>
    dsimp only at hx
    split at hx
    · split at hx
      · obtain ⟨o1, h1⟩ := create_threw hx
        exact (hT.make _ _).out _ _ _ h1
      · cases hx
    · cases hx
  | makeCopy i j al =>
    dsimp only at hx
    split at hx
    · rename_i w hi hj
      obtain ⟨_, _, hA, hr⟩ := h.liveAt hj
      obtain ⟨o1, h1⟩ := create_threw hx
      exact ⟨_, _, hA, hT.copy (o := ⟨_, o.m⟩) hr h1⟩
    · cases hx
  | makeMove i j al =>
    dsimp only at hx
    split at hx
    · rename_i w hi hj
      obtain ⟨_, _, hA, hr⟩ := h.liveAt hj
      obtain ⟨o1, h1⟩ := create2_threw hx
      exact ⟨_, _, hA, hT.move hr h1⟩
    · cases hx
  | destroy i =>
    dsimp only at hx
    split at hx
    · rename_i v hi
      obtain ⟨_, _, -, hr⟩ := h.liveAt hi
      unfold delete at hx
      split at hx
      · cases hx
      · rename_i hp
        exact (wp_exn hp (hS.destroy h.wf hr)).elim
      · cases hx
    · cases hx
  | op i y =>
    dsimp only at hx
    split at hx
    · rename_i v hi
      obtain ⟨_, _, -, hr⟩ := h.liveAt hi
      unfold callOp at hx
      split at hx
      · split at hx
        · obtain ⟨o1, h1⟩ := call_threw (fun _ => by simp) hx
          exact (hT.exec _ _).out _ _ _ h1
        · cases hx
      · rename_i hp
        exact (wp_exn hp (hS.size h.wf hr)).elim
      · cases hx
    · cases hx
  | assignCopy i j =>
    dsimp only at hx
    split at hx
    · rename_i v w hi hj
      split at hx
      · cases hx
      · rename_i hij
        obtain ⟨_, _, -, h1⟩ := h.liveAt hi
        obtain ⟨_, _, hA, h2⟩ := h.liveAt hj
        rw [sized_eq hS h.wf h1 h2] at hx
        split at hx
        · rename_i hp
          rw [hS.ok.alloc h1, hS.ok.alloc h2] at hp
          obtain ⟨o1, h3⟩ := call_threw (fun _ => by simp) hx
          exact ⟨_, _, hA, hT.assignCopy h.wf h1 h2 (h.disj i j hij) hp h3⟩
        · cases hx
    · cases hx
  | assignMove i j =>
    dsimp only at hx
    split at hx
    · rename_i v w hi hj
      split at hx
      · cases hx
      · rename_i hij
        obtain ⟨_, _, -, h1⟩ := h.liveAt hi
        obtain ⟨_, _, hA, h2⟩ := h.liveAt hj
        rw [sized_eq hS h.wf h1 h2] at hx
        split at hx
        · rename_i hp
          rw [hS.ok.alloc h1, hS.ok.alloc h2] at hp
          obtain ⟨o1, h3⟩ := call2_threw hx
          exact ⟨_, _, hA, hT.assignMove h.wf h1 h2 (h.disj i j hij) hp h3⟩
        · cases hx
    · cases hx
  | swap i j =>
    dsimp only at hx
    split at hx
    · split at hx
      · cases hx
      · split at hx
        · obtain ⟨o1, h3⟩ := call2_threw hx
          exact (hT.swap _ _).out _ _ _ h3
        · cases hx
    · cases hx

theorem Tame.runOps (hT : Tame C S R L Lc) (hS : Spec C S R) (ops : List (WOp K Op I)) :
    ∀ {o : Slots K V α} {A : Abs K α} {F : Fin K → Foot}, Inv R m0 o A F →
    wp (runOps C S ops) (fun log o' => ∃ A' F', Inv R m0 o' A' F' ∧
      JRun S (fun A x e => Allowed L Lc A e x ∧ ∃ B, WStep S A x (.threw e) B) A ops log A') (fun _ _ => False) o := by
  induction ops with
  | nil => intro o A F h; exact ⟨A, F, h, .nil⟩
  | cons x xs ih =>
    intro o A F h
    unfold World.runOps
    rw [wp_bind]
    have h1 := hS.step h x
    cases hx : World.step C S x o with
    | ub r => exact absurd hx (wp_not_ub h1)
    | exn e o1 => exact (wp_exn hx h1).elim
    | ok out o1 =>
      obtain ⟨A1, F1, h2, w1⟩ := wp_ok hx h1
      unfold wp
      rw [hx]
      show wp _ _ _ o1
      rw [wp_bind]
      refine wp_mono (ih h2) ?_ (fun _ _ h => h)
      rintro outs o2 ⟨A2, F2, h3, w2⟩
      refine ⟨A2, F2, h3, .cons w1 ?_ w2⟩
      rintro e rfl
      exact ⟨hT.step_threw hS h hx, _, w1⟩

/-- **Programs whose elements and allocators do not throw.** -/
theorem Tame.session (hT : Tame C S R L Lc) (hS : Spec C S R) (hw : m0.Wf) (h0 : ∀ i, R.raw i m0)
    (hd : ∀ i j, i ≠ j → Disj (R.dead i) (R.dead j)) {P : Abs K α → WOp K Op I → Exn → Prop}
    (hP : ∀ {A B x e}, WStep S A x (.threw e) B → Allowed L Lc A e x → P A x e) (ops : List (WOp K Op I)) :
    ∃ log A o', session C S ops ⟨fun _ => none, m0⟩ = .ok (log, (List.finRange K).map A) o' ∧
      JRun S P (fun _ => none) ops log A ∧ o'.m.mem = m0.mem ∧ o'.m.blk = m0.blk := by
  have h := hS.start hw h0 hd
  have : wp (World.session C S ops) (fun r o' => ∃ A : Abs K α, r.2 = (List.finRange K).map A ∧
      JRun S (fun A x e => Allowed L Lc A e x ∧ ∃ B, WStep S A x (.threw e) B) (fun _ => none) ops r.1 A ∧
      (o'.m.mem = m0.mem ∧ o'.m.blk = m0.blk)) (fun _ _ => False)
      (⟨fun _ => none, m0⟩ : Slots K V α) := by
    unfold World.session
    rw [wp_bind]
    refine wp_mono (hT.runOps hS ops h) ?_ (fun _ _ h => h)
    rintro log o1 ⟨A, F, h1, w1⟩
    rw [wp_bind]
    refine wp_mono (hS.lookAll h1 _) ?_ (fun _ _ h => h)
    rintro obs _ ⟨rfl, rfl⟩
    rw [wp_bind]
    refine wp_mono (hS.runOps _ h1) ?_ (fun _ _ h => h)
    rintro log2 o2 ⟨B, F2, h2, w2⟩
    rw [wp_pure]
    exact ⟨A, rfl, w1, h2.restored hS.ok h0 fun i => (destroyed w2).1 i (List.mem_finRange i)⟩
  have mono : ∀ {A B ops log}, JRun S (fun A x e => Allowed L Lc A e x ∧ ∃ B, WStep S A x (.threw e) B) A ops log B →
      JRun S P A ops log (B : Abs K α) := by
    intro A B ops log h
    induction h with
    | nil => exact .nil
    | cons h1 h2 _ ih => exact .cons h1 (fun e he => let ⟨k1, B, k2⟩ := h2 e he; hP k2 k1) ih
  unfold wp at this
  cases hp : World.session C S ops (⟨fun _ => none, m0⟩ : Slots K V α) with
  | ok r o' =>
    rw [hp] at this
    obtain ⟨A, h1, h2, h3⟩ := this
    exact ⟨r.1, A, o', by rw [← h1], mono h2, h3⟩
  | exn e o' => rw [hp] at this; exact this.elim
  | ub r => rw [hp] at this; exact this.elim

end
end Sfl.World

/-! ### Copying and moving containers in contiguous memory -/

namespace Sfl
variable {α β γ : Type} {L : Exn → Prop} {E : Env α}

/-- `p` throws only what is in `L` when it starts in `s`. -/
def CalmAt {σ : Type} (L : Exn → Prop) (m : M σ β) (s : σ) : Prop := ∀ e s', m s = .exn e s' → L e

theorem Calm.at {σ : Type} {m : M σ β} (h : Calm L m) (s : σ) : CalmAt L m s := h.out s

theorem CalmAt.bind {σ : Type} {m : M σ β} {f : β → M σ γ} {s : σ} (h : CalmAt L m s)
    (hf : ∀ b s', m s = .ok b s' → CalmAt L (f b) s') : CalmAt L (m >>= f) s := by
  intro e s' he
  rw [bind_apply] at he
  split at he
  · rename_i hm; exact hf _ _ hm _ _ he
  · rename_i hm; cases he; exact h _ _ hm
  · cases he

theorem CalmAt.get {V : Type} {f : V → M (Obj V α) γ} {o : Obj V α} (h : CalmAt L (f o.obj) o) :
    CalmAt L (getObj >>= f) o := h

theorem CalmAt.ite {σ : Type} {c : Prop} [Decidable c] {m k : M σ β} {s : σ} (h : CalmAt L m s) (hk : CalmAt L k s) :
    CalmAt L (if c then m else k) s := by
  split <;> assumption

theorem Calm.dist {σ : Type} {p q : Ptr} {f : Nat → M σ γ} (h : Calm L (f (q.off - p.off))) : Calm L (distance p q >>= f) :=
  ⟨fun s e s' he => by
    rw [bind_apply] at he
    unfold distance at he
    split at he
    · rename_i hm
      split at hm
      · cases hm; exact h.out _ _ _ he
      · cases hm
    · rename_i hm
      split at hm <;> cases hm
    · cases he⟩

theorem onThis_snd {V : Type} {m : M (Obj V α) β} {o o' : Obj (V × V) α} {b : β} (h : onThis m o = .ok b o') :
    o'.obj.2 = o.obj.2 := by
  unfold onThis at h
  split at h
  · cases h; rfl
  · cases h
  · cases h


theorem Vector.calm_checkSize {n : Nat} (h : n ≤ E.maxSize) : Calm L (Vector.checkSize E n) := by
  unfold Vector.checkSize; rw [if_neg (by omega)]; calm

theorem CompactVector.calm_checkSize {n : Nat} (h : n ≤ E.maxSize) : Sfl.Calm L (CompactVector.checkSize E n) := by
  unfold CompactVector.checkSize; rw [if_neg (by omega)]; calm

theorem Devector.calm_checkSize {n : Nat} (h : n ≤ E.maxSize) : Calm L (Devector.checkSize E n) := by
  unfold Devector.checkSize; rw [if_neg (by omega)]; calm

section
variable [Silent E]

theorem Vector.calm_initWith {as : List (Arg α)} (h : as.length ≤ E.maxSize) : Calm L (Vector.initWith E as) := by
  have := Vector.calm_checkSize (L := L) h
  unfold Vector.initWith; calm

theorem Vector.calm_assignRange {as : List (Arg α)} (h : as.length ≤ E.maxSize) : Calm L (Vector.assignRange E as) := by
  have := Vector.calm_checkSize (L := L) h
  unfold Vector.assignRange; calm

theorem SmallVector.calm_initWith {N : Nat} {as : List (Arg α)} (h : as.length ≤ E.maxSize) : Calm L (SmallVector.initWith E N as) := by
  have := Vector.calm_checkSize (L := L) h
  unfold SmallVector.initWith; calm

theorem SmallVector.calm_assignRange {ib N : Nat} {as : List (Arg α)} (h : as.length ≤ E.maxSize) :
    Calm L (SmallVector.assignRange E ib N as) := by
  have := Vector.calm_checkSize (L := L) h
  unfold SmallVector.assignRange; calm

theorem CompactVector.calm_initWith {as : List (Arg α)} (h : as.length ≤ E.maxSize) : Sfl.Calm L (CompactVector.initWith E as) := by
  have := CompactVector.calm_checkSize (L := L) h
  unfold CompactVector.initWith; calm

theorem CompactVector.calm_assignRange {as : List (Arg α)} (h : as.length ≤ E.maxSize) :
    Sfl.Calm L (CompactVector.assignRange E as) := by
  have := CompactVector.calm_checkSize (L := L) h
  unfold CompactVector.assignRange; calm

theorem Devector.calm_initWith {as : List (Arg α)} (h : as.length ≤ E.maxSize) : Calm L (Devector.initWith E as) := by
  have := Devector.calm_checkSize (L := L) h
  unfold Devector.initWith; calm

theorem Vector.calm_initCopy {w : Vec} (h : w.last.off - w.first.off ≤ E.maxSize) : Calm L (Vector.initCopy E w) :=
  Calm.dist (Vector.calm_initWith (by rwa [args_length]))

theorem Vector.calm_initMove {v w : Vec} {m : St α} (h : w.last.off - w.first.off ≤ E.maxSize) :
    CalmAt L (Vector.initMove E) ⟨(v, w), m⟩ := by
  refine CalmAt.get (CalmAt.ite (Calm.at (by calm) _) (Calm.at (Calm.dist ?_) _))
  have := Vector.calm_initWith (L := L) (E := E) (as := args .mv w.first (w.last.off - w.first.off)) (by rwa [args_length])
  infer_instance

theorem Vector.calm_assignCopy {T : Traits} {w : Vec} (h : w.last.off - w.first.off ≤ E.maxSize) :
    Calm L (Vector.assignCopy E T w) :=
  Calm.bind inferInstance fun _ => Calm.dist (Vector.calm_assignRange (by rwa [args_length]))

theorem Vector.calm_assignMove {T : Traits} {v w : Vec} {m : St α} (h : w.last.off - w.first.off ≤ E.maxSize) :
    CalmAt L (Vector.assignMove E T) ⟨(v, w), m⟩ := by
  refine CalmAt.get (CalmAt.bind (Calm.at (by calm) _) fun _ o ho => CalmAt.get ?_)
  have e : o.obj.2 = w := onThis_snd ho
  rw [e]
  refine CalmAt.ite (Calm.at (by calm) _) (Calm.at (Calm.dist ?_) _)
  have := Vector.calm_assignRange (L := L) (E := E) (as := args .mv w.first (w.last.off - w.first.off)) (by rwa [args_length])
  infer_instance

theorem CompactVector.calm_initCopy {w : Vec} (h : w.last.off - w.first.off ≤ E.maxSize) :
    Sfl.Calm L (CompactVector.initCopy E w) :=
  Calm.dist (CompactVector.calm_initWith (by rwa [args_length]))

theorem CompactVector.calm_initMove {v w : Vec} {m : St α} (h : w.last.off - w.first.off ≤ E.maxSize) :
    CalmAt L (CompactVector.initMove E) ⟨(v, w), m⟩ := by
  refine CalmAt.get (CalmAt.ite (Calm.at (by calm) _) (Calm.at (Calm.dist ?_) _))
  have := CompactVector.calm_initWith (L := L) (E := E) (as := args .mv w.first (w.last.off - w.first.off)) (by rwa [args_length])
  infer_instance

theorem CompactVector.calm_assignCopy {T : Traits} {w : Vec} (h : w.last.off - w.first.off ≤ E.maxSize) :
    Sfl.Calm L (CompactVector.assignCopy E T w) :=
  Calm.bind inferInstance fun _ => Calm.dist (CompactVector.calm_assignRange (by rwa [args_length]))

theorem CompactVector.calm_assignMove {T : Traits} {v w : Vec} {m : St α} (h : w.last.off - w.first.off ≤ E.maxSize) :
    CalmAt L (CompactVector.assignMove E T) ⟨(v, w), m⟩ := by
  refine CalmAt.get (CalmAt.bind (Calm.at (by calm) _) fun _ o ho => CalmAt.get ?_)
  have e : o.obj.2 = w := onThis_snd ho
  rw [e]
  refine CalmAt.ite (Calm.at (by calm) _) (Calm.at (Calm.dist ?_) _)
  have := CompactVector.calm_assignRange (L := L) (E := E) (as := args .mv w.first (w.last.off - w.first.off))
    (by rwa [args_length])
  infer_instance

theorem SmallVector.calm_initCopy {N : Nat} {w : Vec} (h : w.last.off - w.first.off ≤ E.maxSize) :
    Calm L (SmallVector.initCopy E N w) :=
  Calm.dist (SmallVector.calm_initWith (by rwa [args_length]))

theorem SmallVector.calm_initMove {N ibo : Nat} {v w : Vec} {m : St α} (h : w.last.off - w.first.off ≤ E.maxSize) :
    CalmAt L (SmallVector.initMove E N ibo) ⟨(v, w), m⟩ := by
  refine CalmAt.get (CalmAt.ite (Calm.at (by calm) _) (CalmAt.ite (Calm.at (by calm) _) (Calm.at (Calm.dist ?_) _)))
  have := SmallVector.calm_initWith (L := L) (E := E) (N := N) (as := args .mv w.first (w.last.off - w.first.off))
    (by rwa [args_length])
  infer_instance

theorem SmallVector.calm_assignCopy {T : Traits} {ib N : Nat} {w : Vec} (h : w.last.off - w.first.off ≤ E.maxSize) :
    Calm L (SmallVector.assignCopy E T ib N w) :=
  Calm.bind inferInstance fun _ => Calm.dist (SmallVector.calm_assignRange (by rwa [args_length]))

theorem SmallVector.calm_assignMove {T : Traits} {ib N ibo : Nat} {v w : Vec} {m : St α}
    (h : w.last.off - w.first.off ≤ E.maxSize) : CalmAt L (SmallVector.assignMove E T ib N ibo) ⟨(v, w), m⟩ := by
  refine CalmAt.get (CalmAt.bind (Calm.at (by calm) _) fun _ o ho => CalmAt.get ?_)
  have e : o.obj.2 = w := onThis_snd ho
  rw [e]
  have := SmallVector.calm_assignRange (L := L) (E := E) (ib := ib) (N := N)
    (as := args .mv w.first (w.last.off - w.first.off)) (by rwa [args_length])
  refine CalmAt.ite (Calm.at (Calm.dist inferInstance) _)
    (CalmAt.ite (Calm.at (by calm) _) (Calm.at (Calm.dist inferInstance) _))

omit [Silent E] in
theorem Own.calm {ib N al b cap : Nat} {m : St α} {v : Vec} {xs : List α} (h : Own E ib N m v al b cap xs) :
    v.last.off - v.first.off ≤ E.maxSize := by
  have h1 := h.len
  have h2 := h.capLe
  rw [h.obj]
  show xs.length - 0 ≤ _
  omega

instance [Allows L .lengthError] (ib N : Nat) (op : Sq.Op α) : Calm L (SmallVector.exec E ib N op) := by
  cases op <;> unfold SmallVector.exec <;> calm

instance [Allows L .lengthError] (op : Sq.Op α) : Calm L (Vector.exec E op) := by
  cases op <;> unfold Vector.exec <;> calm

open World

theorem Vector.tame {K : Nat} {T : Traits} {S} : Tame (Vector.cont K E T) S (SmallVector.rep E (fun _ => 0) 0)
    (fun e => e = .lengthError) (fun _ _ => False) := by
  have : Allows (fun e => e = .lengthError) .lengthError := ⟨rfl⟩
  refine ⟨fun _ _ => ?_, fun _ _ => ?_, ?_, ?_, ?_, ?_, fun _ _ => ?_⟩
  · show Calm _ (Vector.construct E _); infer_instance
  · show Calm _ (Vector.exec E _); infer_instance
  · rintro i j w al xs F o o' e ⟨b, cap, h, -⟩ hx; exact (Vector.calm_initCopy (L := fun _ => False) h.calm).out _ _ _ hx
  · rintro i j v w al xs F m o' e ⟨b, cap, h, -⟩ hx; exact Vector.calm_initMove (L := fun _ => False) h.calm _ _ hx
  · rintro i j m v al xs F w al2 xs2 F2 o' e - - ⟨b, cap, h, -⟩ - - hx; exact (Vector.calm_assignCopy (L := fun _ => False) h.calm).out _ _ _ hx
  · rintro i j m v al xs F w al2 xs2 F2 o' e - - ⟨b, cap, h, -⟩ - - hx; exact Vector.calm_assignMove (L := fun _ => False) h.calm _ _ hx
  · show Calm _ (Vector.swap T); infer_instance

theorem CompactVector.tame {K : Nat} {T : Traits} {S} : Tame (CompactVector.cont K E T) S (CompactVector.rep K E)
    (fun e => e = .lengthError) (fun _ _ => False) := by
  have : Allows (fun e => e = .lengthError) .lengthError := ⟨rfl⟩
  refine ⟨fun _ _ => ?_, fun _ _ => ?_, ?_, ?_, ?_, ?_, fun _ _ => ?_⟩
  · show Sfl.Calm _ (CompactVector.construct E _); infer_instance
  · show Sfl.Calm _ (CompactVector.exec E _); infer_instance
  · rintro i j w al xs F o o' e ⟨b, h, -⟩ hx; exact (CompactVector.calm_initCopy (L := fun _ => False) h.calm).out _ _ _ hx
  · rintro i j v w al xs F m o' e ⟨b, h, -⟩ hx; exact CompactVector.calm_initMove (L := fun _ => False) h.calm _ _ hx
  · rintro i j m v al xs F w al2 xs2 F2 o' e - - ⟨b, h, -⟩ - - hx; exact (CompactVector.calm_assignCopy (L := fun _ => False) h.calm).out _ _ _ hx
  · rintro i j m v al xs F w al2 xs2 F2 o' e - - ⟨b, h, -⟩ - - hx; exact CompactVector.calm_assignMove (L := fun _ => False) h.calm _ _ hx
  · show Sfl.Calm _ (CompactVector.swap T); infer_instance

theorem SmallVector.tameOf {K : Nat} {Op I ρ : Type} {T : Traits} {ib : Fin K → Nat} {N : Nat} {S}
    {make : Fin K → I → Vector.VM α Unit} {exec : Fin K → Op → Vector.VM α (Option ρ)}
    (h1 : ∀ i init, Calm (fun e => e = .lengthError) (make i init)) (h2 : ∀ i op, Calm (fun e => e = .lengthError) (exec i op)) :
    Tame (SmallVector.contOf E T ib N make exec) S (SmallVector.rep E ib N) (fun e => e = .lengthError) (fun _ _ => False) := by
  refine ⟨h1, h2, ?_, ?_, ?_, ?_, fun _ _ => ?_⟩
  · rintro i j w al xs F o o' e ⟨b, cap, h, -⟩ hx; exact (SmallVector.calm_initCopy (L := fun _ => False) h.calm).out _ _ _ hx
  · rintro i j v w al xs F m o' e ⟨b, cap, h, -⟩ hx; exact SmallVector.calm_initMove (L := fun _ => False) h.calm _ _ hx
  · rintro i j m v al xs F w al2 xs2 F2 o' e - - ⟨b, cap, h, -⟩ - - hx; exact (SmallVector.calm_assignCopy (L := fun _ => False) h.calm).out _ _ _ hx
  · rintro i j m v al xs F w al2 xs2 F2 o' e - - ⟨b, cap, h, -⟩ - - hx; exact SmallVector.calm_assignMove (L := fun _ => False) h.calm _ _ hx
  · show Calm _ (SmallVector.swap E T N _ _); infer_instance

theorem StaticVector.tameOf {K : Nat} {Op I ρ : Type} {ib : Fin K → Nat} {N : Nat} {R : Rep K Vec α} {S}
    {make : Fin K → I → Vector.VM α Unit} {exec : Fin K → Op → Vector.VM α (Option ρ)}
    (h1 : ∀ i init, Calm (fun _ => False) (make i init)) (h2 : ∀ i op, Calm (fun _ => False) (exec i op)) :
    Tame (StaticVector.contOf E ib N make exec) S R (fun _ => False) (fun _ _ => False) := by
  refine Tame.of h1 h2 (fun _ _ => ?_) (fun _ _ => ?_) (fun _ _ _ => ?_) (fun _ _ => ?_) (fun _ _ => ?_)
  · show Calm _ (StaticVector.initCopy E _); infer_instance
  · show Calm _ (StaticVector.initMove E); infer_instance
  · show Calm _ (StaticVector.assignCopy E N _); infer_instance
  · show Calm _ (StaticVector.assignMove E N); infer_instance
  · show Calm _ (StaticVector.swap E); infer_instance

theorem Devector.calm_initCopy {w : DVec} (h : w.last.off - w.first.off ≤ E.maxSize) : Calm L (Devector.initCopy E w) :=
  Calm.dist (Devector.calm_initWith (by rwa [args_length]))

theorem Devector.calm_initMove {v w : DVec} {m : St α} (h : w.last.off - w.first.off ≤ E.maxSize) :
    CalmAt L (Devector.initMove E) ⟨(v, w), m⟩ := by
  refine CalmAt.get (CalmAt.ite (Calm.at (by calm) _) (Calm.at (Calm.dist ?_) _))
  have := Devector.calm_initWith (L := L) (E := E) (as := args .mv w.first (w.last.off - w.first.off)) (by rwa [args_length])
  infer_instance

omit [Silent E] in
theorem Devector.DOwn.calm {al b cap f : Nat} {m : St α} {v : DVec} {xs : List α} (h : Devector.DOwn E m v al b cap f xs) :
    v.last.off - v.first.off ≤ E.maxSize := by
  have h1 := h.fit
  have h2 := h.capLe
  rw [h.obj]
  show f + xs.length - f ≤ _
  omega

theorem Devector.tame {K : Nat} {T : Traits} {quiet : Bool} : Tame (Devector.cont K E T) (Devector.sem E T quiet) (Devector.rep K E)
    (fun e => e = .lengthError) (fun _ _ => False) := by
  have : Allows (fun e => e = .lengthError) .lengthError := ⟨rfl⟩
  refine ⟨fun _ _ => ?_, fun _ _ => ?_, ?_, ?_, ?_, ?_, fun _ _ => ?_⟩
  · dsimp only [Devector.cont]; infer_instance
  · dsimp only [Devector.cont]; infer_instance
  · rintro i j w al xs F o o' e ⟨b, cap, f, h, -⟩ hx
    exact (Devector.calm_initCopy (L := fun _ => False) (Devector.DOwn.calm h)).out _ _ _ hx
  · rintro i j v w al xs F m o' e ⟨b, cap, f, h, -⟩ hx
    exact Devector.calm_initMove (L := fun _ => False) (Devector.DOwn.calm h) _ _ hx
  · rintro i j m v al xs F w al2 xs2 F2 o' e hw ⟨b, cap, f, h, rfl⟩ ⟨b2, cap2, f2, h2, rfl⟩ hd hp' hx
    have hs : T.pocca = false ∨ al = al2 := by simpa [Devector.sem] using hp'
    have k := wp_exn hx (Devector.assignCopy_spec (T := T) (Devector.DOwn.pair hw h h2 hd) (fun h1 h2 => by
      rcases hs with h | h
      · rw [h] at h1; simp at h1
      · exact absurd h h2))
    exact k.1 (Calm.out (L := fun e => e = .lengthError) (m := Devector.assignCopy E T w) _ _ _ hx)
  · rintro i j m v al xs F w al2 xs2 F2 o' e hw ⟨b, cap, f, h, rfl⟩ ⟨b2, cap2, f2, h2, rfl⟩ hd hp' hx
    obtain ⟨hs1, hs2⟩ : T.pocma = false ∧ al ≠ al2 := by simpa [Devector.sem] using hp'
    have k := wp_exn hx (Devector.assignMove_spec (T := T) (Devector.DOwn.pair hw h h2 hd) (fun h => by
      rcases h with h | h
      · rw [hs1] at h; simp at h
      · exact absurd h hs2))
    exact k.1 (Calm.out (L := fun e => e = .lengthError) (m := Devector.assignMove E T) _ _ _ hx)
  · dsimp only [Devector.cont]; infer_instance

/-! ### Segmented containers -/

theorem SegVec.calm_allocateStorage {N n : Nat} (h : n ≤ E.maxSize) : Calm L (SegVec.allocateStorage E N n) := by
  unfold SegVec.allocateStorage; rw [if_neg (by omega)]; calm

theorem SegVec.calm_initUsing {N n : Nat} {alg : Table → SIt → M (St α) SIt} (h : n ≤ E.maxSize) (ha : ∀ t d, Calm L (alg t d)) :
    Calm L (SegVec.initUsing E N n alg) := by
  have := SegVec.calm_allocateStorage (L := L) (N := N) h
  unfold SegVec.initUsing; calm

theorem Calm.run {σ : Type} {m : M σ β} {f : β → M σ γ} {b : β} (hm : ∀ s, m s = .ok b s) (h : Calm L (f b)) : Calm L (m >>= f) :=
  ⟨fun s e s' he => by
    rw [bind_apply, hm s] at he
    exact h.out _ _ _ he⟩

/-- `m` changes nothing. -/
def Reads {σ : Type} (m : M σ β) : Prop := ∀ s b s', m s = .ok b s' → s' = s

theorem Reads.bind {σ : Type} {m : M σ β} {f : β → M σ γ} (h : Reads m) (hf : ∀ b, Reads (f b)) : Reads (m >>= f) := by
  intro s c s' he
  rw [bind_apply] at he
  split at he
  · rename_i hm; cases h _ _ _ hm; exact hf _ _ _ _ he
  · cases he
  · cases he

theorem Reads.ptrDiff {σ : Type} {p q : Ptr} : Reads (Seg.ptrDiff p q : M σ Int) := by
  intro s b s' h; unfold Seg.ptrDiff at h; split at h <;> cases h; rfl

theorem Reads.deref {σ : Type} {t : Table} {p : Ptr} : Reads (Seg.deref t p : M σ Ptr) := by
  intro s b s' h
  unfold Seg.deref at h
  split at h
  · split at h <;> cases h; rfl
  · cases h

theorem Reads.pure {σ : Type} {b : β} : Reads (Pure.pure b : M σ β) := by
  intro s b s' h; cases h; rfl

omit [Silent E] in
theorem SegVec.capacity_state {N n : Nat} {o o' : Obj SVec α} (h : SegVec.capacity N o = .ok n o') : o' = o := by
  refine (Reads.bind (fun s b s' h => by cases h; rfl) fun v => Reads.bind (Reads.bind .ptrDiff fun _ => Reads.bind .deref fun _ =>
    Reads.bind .ptrDiff fun _ => Reads.bind .deref fun _ => Reads.bind .ptrDiff fun _ => .pure) fun d => ?_ :
    Reads (SegVec.capacity N : SegVec.SM α Nat)) _ _ _ h
  split
  · exact .pure
  · intro s b s' h; cases h

/-- The only length_error of `assign_range` is that of a source larger than max_size(). -/
theorem SegVec.calm_assignRange {N n : Nat} {src : Seg.From α} (hs : ∀ s : Obj SVec α, src.dist N s = .ok n s) (h : n ≤ E.maxSize) :
    Calm L (SegVec.assignRange E N src) := by
  refine Calm.run hs (Calm.bind (m := SegVec.size N) inferInstance fun sz => Calm.ite (by calm) ⟨?_⟩)
  intro s
  refine CalmAt.bind (m := SegVec.capacity N) (Calm.at inferInstance _) fun cap s1 h1 => ?_
  cases SegVec.capacity_state h1
  dsimp only
  by_cases hn : n > cap
  · rw [if_pos hn]
    refine CalmAt.bind (m := SegVec.growStorage E N (n - cap)) ?_ fun _ _ _ => Calm.at (by infer_instance) _
    refine CalmAt.bind (m := SegVec.capacity N) (Calm.at inferInstance _) fun cap' s2 h2 => ?_
    cases SegVec.capacity_state h2
    rw [h1] at h2
    cases h2
    rw [if_neg (by unfold SegVec.sizeSub; rw [if_pos (by omega)]; omega)]
    exact Calm.at (by calm) _
  · rw [if_neg hn]
    exact Calm.at (by infer_instance) _

theorem onLocal_obj {V W : Type} {m : M (Obj V α) β} {v : V} {o o' : Obj W α} {b : β × V} (h : onLocal v m o = .ok b o') :
    o'.obj = o.obj := by
  unfold onLocal at h
  split at h
  · cases h; rfl
  · cases h
  · cases h

namespace SegVec
variable {N al2 tcap2 : Nat} {w : SVec} {m : St α} {V2 : View} {xs2 : List α} {T : Traits}

theorem GSt.calm_dist {σ : Type} (h : GSt N ⟨w, m⟩ al2 V2 tcap2 xs2) (s : σ) :
    Seg.dist N w.tab w.first w.last s = .ok xs2.length s := by
  have e1 := h.first_eq
  have e2 := h.last_eq
  dsimp only at e1 e2
  rw [e1, e2]
  exact h.dist_run (Nat.zero_le _) h.len s

theorem GSt.calm_initCopy (h : GSt N ⟨w, m⟩ al2 V2 tcap2 xs2) (hn : xs2.length ≤ E.maxSize) : Calm L (initCopy E N w) :=
  Calm.run h.calm_dist (calm_initUsing hn fun _ _ => inferInstance)

theorem GSt.calm_initMove {v : SVec} {m' : St α} (h : GSt N ⟨w, m⟩ al2 V2 tcap2 xs2) (hn : xs2.length ≤ E.maxSize) :
    CalmAt L (initMove E N) ⟨(v, w), m'⟩ := by
  have h0 := calm_allocateStorage (L := L) (E := E) (N := N) (n := 0) (Nat.zero_le _)
  refine CalmAt.get (CalmAt.ite (Calm.at (by calm) _) (Calm.at (Calm.run h.calm_dist ?_) _))
  have := calm_initUsing (L := L) (N := N) hn (fun t d => (inferInstance : Calm L (Seg.uninitSeg E N w.tab t .mv w.first w.last d)))
  infer_instance

theorem GSt.calm_assignCopy (h : GSt N ⟨w, m⟩ al2 V2 tcap2 xs2) (hn : xs2.length ≤ E.maxSize) : Calm L (assignCopy E N T w) := by
  have h0 := calm_allocateStorage (L := L) (E := E) (N := N) (n := 0) (Nat.zero_le _)
  have := calm_assignRange (L := L) (E := E) (N := N) (src := .seg w.tab .ref w.first w.last) h.calm_dist hn
  unfold assignCopy
  calm

theorem GSt.calm_assignMoved (h : GSt N ⟨w, m⟩ al2 V2 tcap2 xs2) (hn : xs2.length ≤ E.maxSize) : Calm L (assignMoved E N w) := by
  refine Calm.run h.calm_dist (Calm.run (b := (List.range' 0 xs2.length).map V2.addr) (fun s => ?_)
    (calm_assignRange (n := xs2.length) (fun s => ?_) hn))
  · have e1 := h.first_eq
    dsimp only at e1
    rw [e1]
    exact gather_run h (by have := h.len; omega) s
  · simp [Seg.From.dist, pure, M.pure]

theorem GSt.calm_assignMove {v : SVec} {m' : St α} (h : GSt N ⟨w, m⟩ al2 V2 tcap2 xs2) (hn : xs2.length ≤ E.maxSize) :
    CalmAt L (assignMove E N T) ⟨(v, w), m'⟩ := by
  have h0 := calm_allocateStorage (L := L) (E := E) (N := N) (n := 0) (Nat.zero_le _)
  have h1 := h.calm_assignMoved (L := L) hn
  refine CalmAt.get (CalmAt.ite (Calm.at (by calm) _) (CalmAt.ite ?_ (Calm.at (by calm) _)))
  refine CalmAt.bind (Calm.at (by calm) _) fun b o1 ho1 => CalmAt.bind (Calm.at (by calm) _) fun _ o2 ho2 => CalmAt.get ?_
  have e : o2.obj.2 = w := by rw [onThis_snd ho2, onLocal_obj ho1]
  rw [e]
  exact Calm.at (by calm) _

end SegVec

theorem SegVec.tame {K N : Nat} {T : Traits} {ra rai S} : Tame (SegVec.cont K E N T ra rai) S (SegVec.rep K N)
    (fun e => e = .lengthError) (fun n e => e = .lengthError ∧ E.maxSize < n) := by
  have : Allows (fun e => e = .lengthError) .lengthError := ⟨rfl⟩
  have mix : ∀ {e : Exn} {n : Nat}, e = .lengthError → (n ≤ E.maxSize → False) → e = .lengthError ∧ E.maxSize < n :=
    fun h1 h2 => ⟨h1, Nat.lt_of_not_le h2⟩
  refine ⟨fun _ _ => ?_, fun _ _ => ?_, ?_, ?_, ?_, ?_, fun _ _ => ?_⟩
  · dsimp only [SegVec.cont]; infer_instance
  · dsimp only [SegVec.cont]; infer_instance
  · rintro i j w al xs F o o' e ⟨V, tcap, h, rfl⟩ hx
    exact mix (Calm.out (L := fun e => e = .lengthError) (m := SegVec.initCopy E N w) _ _ _ hx)
      (fun hn => (h.calm_initCopy (L := fun _ => False) hn).out _ _ _ hx)
  · rintro i j v w al xs F m o' e ⟨V, tcap, h, rfl⟩ hx
    exact mix (Calm.out (L := fun e => e = .lengthError) (m := SegVec.initMove E N) _ _ _ hx)
      (fun hn => h.calm_initMove (L := fun _ => False) hn _ _ hx)
  · rintro i j m v al xs F w al2 xs2 F2 o' e - - ⟨V, tcap, h, rfl⟩ - - hx
    exact mix (Calm.out (L := fun e => e = .lengthError) (m := SegVec.assignCopy E N T w) _ _ _ hx)
      (fun hn => (h.calm_assignCopy (L := fun _ => False) hn).out _ _ _ hx)
  · rintro i j m v al xs F w al2 xs2 F2 o' e - - ⟨V, tcap, h, rfl⟩ - - hx
    exact mix (Calm.out (L := fun e => e = .lengthError) (m := SegVec.assignMove E N T) _ _ _ hx)
      (fun hn => h.calm_assignMove (L := fun _ => False) hn _ _ hx)
  · dsimp only [SegVec.cont]; infer_instance

theorem SegDev.calm_allocateStorage {N n : Nat} (h : n ≤ E.maxSize) : Calm L (SegDev.allocateStorage E N n) := by
  unfold SegDev.allocateStorage; rw [if_neg (by omega)]; calm

theorem SegDev.calm_initUsing {N n : Nat} {alg : Table → SIt → M (St α) SIt} (h : n ≤ E.maxSize) (ha : ∀ t d, Calm L (alg t d)) :
    Calm L (SegDev.initUsing E N n alg) := by
  have := SegDev.calm_allocateStorage (L := L) (N := N) h
  unfold SegDev.initUsing; calm

namespace SegDev
variable {N al2 tcap2 f2 : Nat} {w : SDVec} {m : St α} {V2 : View} {xs2 : List α} {T : Traits} {H2 : Heap α}

theorem DSt.calm_dist {σ : Type} (h2 : DSt H2 N ⟨w, m⟩ al2 V2 tcap2 f2 xs2) (s : σ) :
    Seg.dist N w.tab w.first w.last s = .ok xs2.length s := by
  have hlen := h2.len
  have e1 : w.first = V2.it f2 := congrArg SDVec.first h2.obj
  have e2 : w.last = V2.it (f2 + xs2.length) := congrArg SDVec.last h2.obj
  rw [e1, e2, ← h2.num, h2.fit.dist (by omega) hlen s, Nat.add_sub_cancel_left]

theorem DSt.calm_initCopy (h : DSt H2 N ⟨w, m⟩ al2 V2 tcap2 f2 xs2) (hn : xs2.length ≤ E.maxSize) : Calm L (initCopy E N w) :=
  Calm.run h.calm_dist (calm_initUsing hn fun _ _ => inferInstance)

theorem DSt.calm_initMove {v : SDVec} {m' : St α} (h : DSt H2 N ⟨w, m⟩ al2 V2 tcap2 f2 xs2) (hn : xs2.length ≤ E.maxSize) :
    CalmAt L (initMove E N) ⟨(v, w), m'⟩ := by
  have h0 := calm_allocateStorage (L := L) (E := E) (N := N) (n := 0) (Nat.zero_le _)
  refine CalmAt.get (CalmAt.ite (Calm.at (by calm) _) (Calm.at (Calm.run h.calm_dist ?_) _))
  have := calm_initUsing (L := L) (N := N) hn (fun t d => (inferInstance : Calm L (Seg.uninitSeg E N w.tab t .mv w.first w.last d)))
  infer_instance

end SegDev

theorem SegDev.tame {K N : Nat} {T : Traits} {ra rai S} : Tame (SegDev.cont K E N T ra rai) S (SegDev.rep K N)
    (fun e => e = .lengthError) (fun n e => e = .lengthError ∧ E.maxSize < n) := by
  have : Allows (fun e => e = .lengthError) .lengthError := ⟨rfl⟩
  have mix : ∀ {e : Exn} {n : Nat}, e = .lengthError → (n ≤ E.maxSize → False) → e = .lengthError ∧ E.maxSize < n :=
    fun h1 h2 => ⟨h1, Nat.lt_of_not_le h2⟩
  refine ⟨fun _ _ => ?_, fun _ _ => ?_, ?_, ?_, ?_, ?_, fun _ _ => ?_⟩
  · dsimp only [SegDev.cont]; infer_instance
  · dsimp only [SegDev.cont]; infer_instance
  · rintro i j w al xs F o o' e ⟨V, tcap, f, H, h, rfl⟩ hx
    exact mix (Calm.out (L := fun e => e = .lengthError) (m := SegDev.initCopy E N w) _ _ _ hx)
      (fun hn => (h.calm_initCopy (L := fun _ => False) hn).out _ _ _ hx)
  · rintro i j v w al xs F m o' e ⟨V, tcap, f, H, h, rfl⟩ hx
    exact mix (Calm.out (L := fun e => e = .lengthError) (m := SegDev.initMove E N) _ _ _ hx)
      (fun hn => h.calm_initMove (L := fun _ => False) hn _ _ hx)
  · rintro i j m v al xs F w al2 xs2 F2 o' e hw ⟨V, tcap, f, H, h, rfl⟩ ⟨V2, tcap2, f2, H2, h2, rfl⟩ hd - hx
    have k := wp_exn hx (SegDev.assignCopy_spec (E := E) (T := T) h h2 (fun c h1 h2 => hd c h2 h1))
    have he := Calm.out (L := fun e => e = .lengthError) (m := SegDev.assignCopy E N T w) _ _ _ hx
    exact ⟨he, k.1 he⟩
  · rintro i j m v al xs F w al2 xs2 F2 o' e hw ⟨V, tcap, f, H, h, rfl⟩ ⟨V2, tcap2, f2, H2, h2, rfl⟩ hd - hx
    have k := wp_exn hx (SegDev.assignMove_spec (E := E) (T := T) h h2 (fun c h1 h2 => hd c h2 h1))
    have he := Calm.out (L := fun e => e = .lengthError) (m := SegDev.assignMove E N T) _ _ _ hx
    exact ⟨he, k.1 he⟩
  · dsimp only [SegDev.cont]; infer_instance

end
end Sfl
