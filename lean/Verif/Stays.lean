import Verif.NoAlloc
import Verif.WorldVec
/-
  Programs with several containers that have internal storage: as long as everything fits the internal storage, the
  functions of one and of two containers do not touch the table of blocks and never throw bad_alloc.
-/

namespace Sfl
open Sfl.Vector (VM)
open Sq (Out)
variable {α β γ σ V W : Type}

/-! ### Programs that do not ask for memory -/

/-- The program leaves the table of blocks as it is, whether it returns or throws, and never throws bad_alloc. -/
def Meek (p : M (St α) β) : Prop := ∀ s, match p s with
  | .ok _ s' => Same s s'
  | .exn e s' => Same s s' ∧ e ≠ .badAlloc
  | .ub _ => True

namespace Meek
variable {E : Env α}

theorem pure (b : β) : Meek (pure b : M (St α) β) := fun s => Same.refl s

theorem throw {e : Exn} (h : e ≠ .badAlloc) : Meek (M.throw e : M (St α) β) := fun s => ⟨Same.refl s, h⟩

theorem bind {p : M (St α) β} {g : β → M (St α) γ} (hp : Meek p) (hg : ∀ b, Meek (g b)) : Meek (p >>= g) := by
  intro s
  have h1 := hp s
  rw [bind_apply]
  cases hq : p s with
  | ok b s1 =>
    rw [hq] at h1
    have h2 := hg b s1
    dsimp only
    cases hr : g b s1 with
    | ok c s2 => rw [hr] at h2; exact h1.trans h2
    | exn e s2 => rw [hr] at h2; exact ⟨h1.trans h2.1, h2.2⟩
    | ub => trivial
  | exn e s1 => rw [hq] at h1; exact h1
  | ub => trivial

theorem tryCatch {p : M (St α) β} {g : Exn → M (St α) β} (hp : Meek p) (hg : ∀ e, e ≠ .badAlloc → Meek (g e)) :
    Meek (M.tryCatch p g) := by
  intro s
  have h1 := hp s
  unfold M.tryCatch
  cases hq : p s with
  | ok b s1 => rw [hq] at h1; exact h1
  | exn e s1 =>
    rw [hq] at h1
    have h2 := hg e h1.2 s1
    dsimp only
    cases hr : g e s1 with
    | ok c s2 => rw [hr] at h2; exact h1.1.trans h2
    | exn e s2 => rw [hr] at h2; exact ⟨h1.1.trans h2.1, h2.2⟩
    | ub => trivial
  | ub => trivial

theorem distance (p q : Ptr) : Meek (Sfl.distance p q : M (St α) Nat) := by
  intro s; unfold Sfl.distance
  split
  · rename_i h; split at h <;> cases h; exact .refl _
  · rename_i h; split at h <;> cases h
  · trivial

theorem assert (c : Prop) [Decidable c] : Meek (M.assert c : M (St α) Unit) := by
  intro s; unfold M.assert
  split
  · rename_i h; split at h <;> cases h; exact .refl _
  · rename_i h; split at h <;> cases h
  · trivial

theorem construct (p : Ptr) (a : Arg α) : Meek (construct E p a) := by
  intro s
  have h := construct_na (E := E) p a s
  cases hq : Sfl.construct E p a s with
  | ok b s1 => exact h.1 _ _ hq
  | exn e s1 =>
    refine ⟨h.2 _ _ hq, ?_⟩
    unfold Sfl.construct at hq
    grind
  | ub => trivial

theorem assign (p : Ptr) (a : Arg α) : Meek (assign E p a) := by
  intro s
  have h := assign_na (E := E) p a s
  cases hq : Sfl.assign E p a s with
  | ok b s1 => exact h.1 _ _ hq
  | exn e s1 =>
    refine ⟨h.2 _ _ hq, ?_⟩
    unfold Sfl.assign at hq
    grind
  | ub => trivial

theorem mkTmp (a : Arg α) : Meek (mkTmp E a) := by
  intro s
  have h := mkTmp_na (E := E) a s
  cases hq : Sfl.mkTmp E a s with
  | ok b s1 => exact h.1 _ _ hq
  | exn e s1 =>
    refine ⟨h.2 _ _ hq, ?_⟩
    unfold Sfl.mkTmp at hq
    grind
  | ub => trivial

theorem destroyAt (p : Ptr) : Meek (destroyAt p : M (St α) Unit) := by
  intro s
  have h := destroyAt_na (α := α) p s
  cases hq : (Sfl.destroyAt p : M (St α) Unit) s with
  | ok b s1 => exact h.1 _ _ hq
  | exn e s1 =>
    refine ⟨h.2 _ _ hq, ?_⟩
    unfold Sfl.destroyAt at hq
    grind
  | ub => trivial

theorem destroyN (n : Nat) : ∀ p, Meek (destroyN p n : M (St α) Unit) := by
  induction n with
  | zero => intro p; exact pure ()
  | succ n ih => intro p; exact bind (destroyAt p) fun _ => ih _

theorem destroyRange (p q : Ptr) : Meek (destroyRange p q : M (St α) Unit) := bind (distance _ _) fun _ => destroyN _ _

theorem uninitGo (d : Ptr) (as : List (Arg α)) : ∀ k, Meek (uninitGo E d k as) := by
  induction as with
  | nil => intro k; exact pure _
  | cons a as ih =>
    intro k
    exact bind (tryCatch (construct _ _) fun _ he => bind (destroyRange _ _) fun _ => throw he) fun _ => ih _

theorem uninit (d : Ptr) (as : List (Arg α)) : Meek (uninit E d as) := uninitGo d as 0

theorem uninitMove (p q d : Ptr) : Meek (uninitMove E p q d) := bind (distance _ _) fun _ => uninit _ _

theorem assignGo (as : List (Arg α)) : ∀ d, Meek (assignGo E d as) := by
  induction as with
  | nil => intro d; exact pure _
  | cons a as ih => intro d; exact bind (assign _ _) fun _ => ih _

theorem swapRanges (n : Nat) : ∀ p q, Meek (swapRanges E p q n) := by
  induction n with
  | zero => intro p q; exact pure _
  | succ n ih => intro p q; exact bind (mkTmp _) fun _ => bind (assign _ _) fun _ => bind (assign _ _) fun _ => ih _ _

theorem free {ib al : Nat} {p : Ptr} {n : Nat} (h : p = ⟨ib, 0⟩) : Meek (freeUnless ib al p n : M (St α) Unit) := by
  unfold freeUnless
  rw [if_neg (by simpa using h)]
  exact pure _

end Meek

/-! ### Functions of objects -/

/-- What a program does to the data members `v`, given that it leaves the table of blocks as it is and does not throw
bad_alloc: `Q` if it returns, `X` if it throws. -/
def stays (p : M (Obj V α) β) (Q : β → V → Prop) (X : V → Prop) (v : V) : Prop := ∀ m, match p ⟨v, m⟩ with
  | .ok b o' => Same m o'.m ∧ Q b o'.obj
  | .exn e o' => Same m o'.m ∧ e ≠ .badAlloc ∧ X o'.obj
  | .ub _ => True

namespace stays
variable {Q : β → V → Prop} {X : V → Prop} {v : V}

theorem bind {p : M (Obj V α) γ} {f : γ → M (Obj V α) β} (h : stays p (fun b v' => stays (f b) Q X v') X v) :
    stays (p >>= f) Q X v := by
  intro m
  have h := h m
  rw [bind_apply]
  cases hq : p ⟨v, m⟩ with
  | ok b o1 =>
    rw [hq] at h
    have h2 := h.2 o1.m
    dsimp only
    cases hr : f b ⟨o1.obj, o1.m⟩ with
    | ok c s2 => rw [hr] at h2; exact ⟨h.1.trans h2.1, h2.2⟩
    | exn e s2 => rw [hr] at h2; exact ⟨h.1.trans h2.1, h2.2⟩
    | ub => trivial
  | exn e s1 => rw [hq] at h; exact h
  | ub => trivial

theorem tryCatch {p : M (Obj V α) β} {g : Exn → M (Obj V α) β}
    (h : stays p Q (fun v' => ∀ e, e ≠ .badAlloc → stays (g e) Q X v') v) : stays (M.tryCatch p g) Q X v := by
  intro m
  have h := h m
  unfold M.tryCatch
  cases hq : p ⟨v, m⟩ with
  | ok b o1 => rw [hq] at h; exact h
  | exn e o1 =>
    rw [hq] at h
    have h2 := h.2.2 e h.2.1 o1.m
    dsimp only
    cases hr : g e ⟨o1.obj, o1.m⟩ with
    | ok c s2 => rw [hr] at h2; exact ⟨h.1.trans h2.1, h2.2⟩
    | exn e s2 => rw [hr] at h2; exact ⟨h.1.trans h2.1, h2.2⟩
    | ub => trivial
  | ub => trivial

theorem pure {b : β} (h : Q b v) : stays (pure b : M (Obj V α) β) Q X v := fun m => ⟨.refl m, h⟩

theorem throw {e : Exn} (he : e ≠ .badAlloc) (h : X v) : stays (M.throw e : M (Obj V α) β) Q X v := fun m => ⟨.refl m, he, h⟩

theorem assert {c : Prop} [Decidable c] {Q : Unit → V → Prop} (h : Q () v) : stays (M.assert c : M (Obj V α) Unit) Q X v := by
  intro m; unfold M.assert
  by_cases hc : c
  · rw [if_pos hc]; exact ⟨.refl m, h⟩
  · rw [if_neg hc]; trivial

theorem ite {c : Prop} [Decidable c] {p p' : M (Obj V α) β} (h : c → stays p Q X v) (h' : ¬ c → stays p' Q X v) :
    stays (if c then p else p') Q X v := by
  split
  · exact h ‹_›
  · exact h' ‹_›

theorem distance {Q : Nat → V → Prop} {p q : Ptr} (h : Q (q.off - p.off) v) :
    stays (Sfl.distance p q : M (Obj V α) Nat) Q X v := by
  intro m; unfold Sfl.distance
  by_cases hc : p.blk = q.blk ∧ p.off ≤ q.off
  · rw [if_pos hc]; exact ⟨.refl m, h⟩
  · rw [if_neg hc]; trivial

theorem lift {p : M (St α) β} (hp : Meek p) (hQ : ∀ b, Q b v) (hX : X v) : stays (lift p : M (Obj V α) β) Q X v := by
  intro m
  have h := hp m
  unfold Sfl.lift
  dsimp only
  cases hq : p m with
  | ok b s => rw [hq] at h; exact ⟨h, hQ b⟩
  | exn e s => rw [hq] at h; exact ⟨h.1, h.2, hX⟩
  | ub => trivial

theorem getObj {Q : V → V → Prop} (h : Q v v) : stays (getObj : M (Obj V α) V) Q X v := fun m => ⟨.refl m, h⟩

theorem setObj {v' : V} {Q : Unit → V → Prop} (h : Q () v') : stays (setObj v' : M (Obj V α) Unit) Q X v := fun m => ⟨.refl m, h⟩

theorem mono {p : M (Obj V α) β} {Q' : β → V → Prop} {X' : V → Prop} (h : stays p Q' X' v) (hQ : ∀ b v', Q' b v' → Q b v')
    (hX : ∀ v', X' v' → X v') : stays p Q X v := by
  intro m
  have h := h m
  cases hq : p ⟨v, m⟩ with
  | ok b s => rw [hq] at h; exact ⟨h.1, hQ _ _ h.2⟩
  | exn e s => rw [hq] at h; exact ⟨h.1, h.2.1, hX _ h.2.2⟩
  | ub => trivial

theorem onThis {p : M (Obj V α) β} {w : W} {Q : β → V × W → Prop} {X : V × W → Prop}
    (h : stays p (fun b v' => Q b (v', w)) (fun v' => X (v', w)) v) : stays (onThis p : M (Obj (V × W) α) β) Q X (v, w) := by
  intro m
  have h := h m
  unfold Sfl.onThis
  dsimp only
  cases hq : p ⟨v, m⟩ with
  | ok b s => rw [hq] at h; exact h
  | exn e s => rw [hq] at h; exact h
  | ub => trivial

end stays

namespace SmallVector
variable {E : Env α} {T : Traits} {ib ibo N : Nat} {v w : Vec}

/-- The data members point to the internal storage. -/
def In (ib N : Nat) (v : Vec) : Prop := v.first = ⟨ib, 0⟩ ∧ v.eos = ⟨ib, N⟩

theorem empty_in {al : Nat} : In ib N (empty ib N al) := ⟨rfl, rfl⟩

theorem destructor_stays (h : In ib N v) : stays (destructor ib : VM α Unit) (fun _ _ => True) (fun _ => True) v :=
  .bind (.getObj (.bind (.lift (Meek.destroyRange _ _) (fun _ => .bind (.distance
    (.lift (Meek.free h.1) (fun _ => trivial) trivial))) trivial)))

theorem checkSize_stays {n : Nat} (h : In ib N v) : stays (Vector.checkSize E n : VM α Unit) (fun _ => In ib N) (In ib N) v :=
  .ite (fun _ => .throw (by simp) h) fun _ => .pure h

theorem initWith_stays {as : List (Arg α)} (hl : as.length ≤ N) (h : In ib N v) :
    stays (initWith E N as) (fun _ => In ib N) (In ib N) v := by
  unfold initWith
  refine .bind ((checkSize_stays h).mono (fun _ v h => ?_) fun _ h => h)
  refine .bind (.getObj ?_)
  dsimp only
  have hc : ¬ as.length > N := by omega
  rw [if_neg hc]
  refine .bind (.getObj (.bind (.tryCatch (.lift (Meek.uninit _ _) (fun _ => .setObj h) fun e he => ?_))))
  rw [if_neg hc]
  exact .throw he h

theorem initCopy_stays (hl : w.last.off - w.first.off ≤ N) (h : In ib N v) :
    stays (initCopy E N w) (fun _ => In ib N) (In ib N) v := by
  refine .bind (.distance (initWith_stays ?_ h))
  rw [args_length]; exact hl

theorem initMove_stays (h : In ib N v) (h2 : In ibo N w) :
    stays (initMove E N ibo) (fun _ o => In ib N o.1 ∧ In ibo N o.2) (fun o => In ibo N o.2) (v, w) := by
  unfold initMove
  refine .bind (.getObj (.ite (fun _ => ?_) fun hc => absurd h2.1 hc))
  exact .bind (.lift (Meek.uninitMove _ _ _) (fun _ => .setObj ⟨h, h2⟩) h2)

theorem reset_stays {n : Nat} (hn : n ≤ N) (h : In ib N v) : stays (reset E ib N n) (fun _ => In ib N) (In ib N) v := by
  unfold reset replaceStorage
  refine .bind (.getObj (.bind (.bind (.getObj (.bind (.lift (Meek.destroyRange _ _) (fun _ => .bind (.distance (.bind
    (.lift (Meek.free h.1) (fun _ => .setObj ?_) h)))) h))))))
  exact .ite (fun hc => absurd hc (by omega)) fun _ => .pure ⟨rfl, rfl⟩

theorem propagate_stays {flag : Bool} {al : Nat} (h : In ib N v) :
    stays (propagate E ib N flag al) (fun _ => In ib N) (In ib N) v := by
  unfold propagate
  refine .bind (.getObj (.ite (fun _ => ?_) fun _ => .pure h))
  dsimp only
  refine .ite (fun _ => .bind ?_) fun _ => .bind (.getObj (.setObj h))
  exact (reset_stays (Nat.zero_le _) h).mono (fun _ _ h => .bind (.getObj (.setObj h))) fun _ h => h

theorem assignRange_stays {as : List (Arg α)} (hl : as.length ≤ N) (h : In ib N v) :
    stays (assignRange E ib N as) (fun _ => In ib N) (In ib N) v := by
  unfold assignRange Vector.capacity Vector.size
  refine .bind ((checkSize_stays h).mono (fun _ v h => ?_) fun _ h => h)
  refine .bind (.getObj (.bind (.bind (.getObj (.distance ?_)))))
  refine .ite (fun _ => .bind (.bind (.getObj (.distance ?_)))) fun hc => absurd hl (by rw [h.1, h.2] at hc; simpa using hc)
  refine .ite (fun _ => ?_) fun _ => ?_
  · exact .bind (.lift (Meek.assignGo _ _) (fun _ => .bind (.lift (Meek.destroyRange _ _) (fun _ => .setObj h) h)) h)
  · exact .bind (.lift (Meek.assignGo _ _) (fun _ => .bind (.lift (Meek.uninit _ _) (fun _ => .setObj h) h)) h)

theorem assignCopy_stays (hl : w.last.off - w.first.off ≤ N) (h : In ib N v) :
    stays (assignCopy E T ib N w) (fun _ => In ib N) (In ib N) v := by
  refine .bind ((propagate_stays h).mono (fun _ v h => .bind (.distance (assignRange_stays ?_ h))) fun _ h => h)
  rw [args_length]; exact hl

theorem assignMove_stays (hl : w.last.off - w.first.off ≤ N) (h : In ib N v) (h2 : In ibo N w) :
    stays (assignMove E T ib N ibo) (fun _ o => In ib N o.1 ∧ In ibo N o.2) (fun o => In ib N o.1 ∧ In ibo N o.2) (v, w) := by
  unfold assignMove
  refine .bind (.getObj (.bind (.onThis ((propagate_stays h).mono (fun _ v h => ?_) fun _ h => ⟨h, h2⟩))))
  refine .bind (.getObj (.ite (fun _ => .bind (.distance (.onThis ?_))) fun hc => absurd h2.1 hc))
  exact (assignRange_stays (by rw [args_length]; exact hl) h).mono (fun _ _ h => ⟨h, h2⟩) fun _ h => ⟨h, h2⟩

theorem swapInternal_stays (h : In ib N v) (h2 : In ibo N w) :
    stays (swapInternal E) (fun _ o => In ib N o.1 ∧ In ibo N o.2) (fun o => In ib N o.1 ∧ In ibo N o.2) (v, w) := by
  unfold swapInternal
  refine .bind (.getObj (.bind (.distance (.bind (.distance ?_)))))
  dsimp only
  refine .ite (fun _ => ?_) fun _ => ?_
  · exact .bind (.lift (Meek.swapRanges _ _ _) (fun _ => .bind (.lift (Meek.uninitMove _ _ _) (fun _ =>
      .bind (.lift (Meek.destroyRange _ _) (fun _ => .setObj ⟨h, h2⟩) ⟨h, h2⟩)) ⟨h, h2⟩)) ⟨h, h2⟩)
  · exact .bind (.lift (Meek.swapRanges _ _ _) (fun _ => .bind (.lift (Meek.uninitMove _ _ _) (fun _ =>
      .bind (.lift (Meek.destroyRange _ _) (fun _ => .setObj ⟨h, h2⟩) ⟨h, h2⟩)) ⟨h, h2⟩)) ⟨h, h2⟩)

theorem swap_stays (h : In ib N v) (h2 : In ibo N w) :
    stays (swap E T N ib ibo) (fun _ o => In ib N o.1 ∧ In ibo N o.2) (fun o => In ib N o.1 ∧ In ibo N o.2) (v, w) := by
  unfold swap swapAlloc
  refine .bind (.bind (.getObj (.bind (.assert (.ite (fun _ => .setObj ?_) fun _ => .pure ?_)))))
  · exact .bind (.getObj (.ite (fun _ => swapInternal_stays h h2) fun hc => absurd ⟨h.1, h2.1⟩ hc))
  · exact .bind (.getObj (.ite (fun _ => swapInternal_stays h h2) fun hc => absurd ⟨h.1, h2.1⟩ hc))

end SmallVector

end Sfl
