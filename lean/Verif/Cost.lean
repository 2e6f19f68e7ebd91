import Verif.Devector
/-
  Partial correctness through the operation counter: `cost m Q X t` says that `m`, started when the counter of
  potentially throwing operations stands at `t`, ends with `Q` if it returns and with `X` if it throws. `vcost` is the
  same for programs on a container object and speaks about the data members too. Neither excludes undefined behaviour;
  the theorems of the other files do.
-/

namespace Sfl
variable {α β γ V : Type}

/-- What `m` does to the counter. -/
def cost (m : M (St α) β) (Q : β → Nat → Prop) (X : Nat → Prop) (t : Nat) : Prop :=
  ∀ s : St α, s.tick = t → match m s with
    | .ok b s' => Q b s'.tick
    | .exn _ s' => X s'.tick
    | .ub _ => True

/-- What `m` does to the data members and the counter. -/
def vcost (m : M (Obj V α) β) (Q : β → V → Nat → Prop) (X : V → Nat → Prop) (v : V) (t : Nat) : Prop :=
  ∀ o : Obj V α, o.obj = v → o.m.tick = t → match m o with
    | .ok b o' => Q b o'.obj o'.m.tick
    | .exn _ o' => X o'.obj o'.m.tick
    | .ub _ => True

namespace cost
variable {Q : β → Nat → Prop} {X : Nat → Prop} {t : Nat}

theorem bind {m : M (St α) γ} {f : γ → M (St α) β} (h : cost m (fun b t' => cost (f b) Q X t') X t) :
    cost (m >>= f) Q X t := by
  intro s hs
  have h := h s hs
  show match M.bind m f s with | .ok b s' => Q b s'.tick | .exn _ s' => X s'.tick | .ub _ => True
  unfold M.bind
  cases hm : m s with
  | ok b s' => rw [hm] at h; exact h s' rfl
  | exn e s' => rw [hm] at h; exact h
  | ub r => trivial

theorem pure {b : β} (h : Q b t) : cost (pure b : M (St α) β) Q X t := by
  intro s hs; subst hs; exact h

theorem throw {e : Exn} (h : X t) : cost (M.throw e : M (St α) β) Q X t := by
  intro s hs; subst hs; exact h

theorem undef {r : UB} : cost (M.undef r : M (St α) β) Q X t := fun _ _ => trivial

theorem assert {p : Prop} [Decidable p] {Q : Unit → Nat → Prop} (h : p → Q () t) :
    cost (M.assert p : M (St α) Unit) Q X t := by
  intro s hs; subst hs
  by_cases hp : p
  · simp only [M.assert, if_pos hp]; exact h hp
  · simp only [M.assert, if_neg hp]

theorem ite {c : Prop} [Decidable c] {m m' : M (St α) β} (h : c → cost m Q X t) (h' : ¬ c → cost m' Q X t) :
    cost (if c then m else m') Q X t := by
  split
  · exact h ‹_›
  · exact h' ‹_›

theorem tryCatch {m : M (St α) β} {h : Exn → M (St α) β} (hm : cost m Q (fun t' => ∀ e, cost (h e) Q X t') t) :
    cost (M.tryCatch m h) Q X t := by
  intro s hs
  have hm := hm s hs
  unfold M.tryCatch
  cases e : m s with
  | ok b s' => rw [e] at hm; exact hm
  | exn e' s' => rw [e] at hm; exact hm _ s' rfl
  | ub r => trivial

theorem mono {m : M (St α) β} {Q' : β → Nat → Prop} {X' : Nat → Prop} (h : cost m Q' X' t)
    (hQ : ∀ b t', Q' b t' → Q b t') (hX : ∀ t', X' t' → X t') : cost m Q X t := by
  intro s hs
  have h := h s hs
  cases e : m s with
  | ok b s' => rw [e] at h; exact hQ _ _ h
  | exn e' s' => rw [e] at h; exact hX _ h
  | ub r => trivial

theorem and {m : M (St α) β} {Q' : β → Nat → Prop} {X' : Nat → Prop} (h : cost m Q X t) (h' : cost m Q' X' t) :
    cost m (fun b t' => Q b t' ∧ Q' b t') (fun t' => X t' ∧ X' t') t := by
  intro s hs
  have h := h s hs
  have h' := h' s hs
  cases e : m s with
  | ok b s' => rw [e] at h h'; exact ⟨h, h'⟩
  | exn e' s' => rw [e] at h h'; exact ⟨h, h'⟩
  | ub r => trivial

theorem distance {Q : Nat → Nat → Prop} {p q : Ptr}
    (h : p.blk = q.blk → p.off ≤ q.off → Q (q.off - p.off) t) : cost (Sfl.distance p q : M (St α) Nat) Q X t := by
  intro s hs; subst hs
  unfold Sfl.distance
  by_cases hc : p.blk = q.blk ∧ p.off ≤ q.off
  · rw [if_pos hc]; exact h hc.1 hc.2
  · rw [if_neg hc]; trivial

section ops
variable {E : Env α} {Q : Unit → Nat → Prop}

theorem construct {p : Ptr} {a : Arg α} (h : Q () (t + 1)) (hX : X (t + 1)) : cost (construct E p a) Q X t := by
  intro s hs; subst hs
  unfold Sfl.construct
  cases a.value s with
  | none => trivial
  | some v =>
    by_cases h1 : s.inB p = false
    · simp only [if_pos h1]
    · by_cases h2 : (s.mem p.blk p.off).isSome = true
      · simp only [if_neg h1, if_pos h2]
      · simp only [if_neg h1, if_neg h2]
        cases a.src E with
        | none =>
          by_cases h3 : (E.throws s.tick && !(a.isRv && E.nothrowMoveCtor)) = true
          · simp only [if_pos h3]; exact hX
          · simp only [if_neg h3]; exact h
        | some q =>
          by_cases h3 : (E.throws s.tick && !E.nothrowMoveCtor) = true
          · simp only [if_pos h3]; exact hX
          · simp only [if_neg h3]; exact h

theorem assign {p : Ptr} {a : Arg α} (h : Q () (t + 1)) (hX : X (t + 1)) : cost (assign E p a) Q X t := by
  intro s hs; subst hs
  unfold Sfl.assign
  cases a.value s with
  | none => trivial
  | some v =>
    cases s.mem p.blk p.off with
    | none => trivial
    | some old =>
      cases a.src E with
      | none =>
        by_cases h3 : (E.throws s.tick && !(a.isRv && E.nothrowMoveAssign)) = true
        · simp only [if_pos h3]; exact hX
        · simp only [if_neg h3]; exact h
      | some q =>
        by_cases h3 : (E.throws s.tick && !E.nothrowMoveAssign) = true
        · simp only [if_pos h3]; exact hX
        · simp only [if_neg h3]; exact h

theorem mkTmp {a : Arg α} {Q : α → Nat → Prop} (h : ∀ v, Q v (t + 1)) (hX : X (t + 1)) : cost (mkTmp E a) Q X t := by
  intro s hs; subst hs
  unfold Sfl.mkTmp
  cases a.value s with
  | none => trivial
  | some v =>
    cases a.src E with
    | none =>
      by_cases h3 : (E.throws s.tick && !(a.isRv && E.nothrowMoveCtor)) = true
      · simp only [if_pos h3]; exact hX
      · simp only [if_neg h3]; exact h _
    | some q =>
      by_cases h3 : (E.throws s.tick && !E.nothrowMoveCtor) = true
      · simp only [if_pos h3]; exact hX
      · simp only [if_neg h3]; exact h _

theorem destroyAt {p : Ptr} (h : Q () t) : cost (destroyAt p : M (St α) Unit) Q X t := by
  intro s hs; subst hs
  unfold Sfl.destroyAt
  cases s.mem p.blk p.off with
  | none => trivial
  | some v => exact h

theorem readAt {Q : α → Nat → Prop} {p : Ptr} (h : ∀ v, Q v t) : cost (readAt p : M (St α) α) Q X t := by
  intro s hs; subst hs
  unfold Sfl.readAt
  cases s.mem p.blk p.off with
  | none => trivial
  | some v => exact h v

theorem allocate {Q : Ptr → Nat → Prop} {a n : Nat} (h : ∀ b t', t ≤ t' → t' ≤ t + 1 → Q ⟨b, 0⟩ t') (hX : X (t + 1)) :
    cost (allocate E a n) Q X t := by
  intro s hs; subst hs
  unfold Sfl.allocate
  by_cases h0 : n = 0
  · rw [if_pos h0]; exact h 0 _ (by omega) (by omega)
  · rw [if_neg h0]
    by_cases ht : E.throws s.tick = true
    · rw [if_pos ht]; exact hX
    · rw [if_neg ht]; exact h _ _ (Nat.le_succ _) (Nat.le_refl _)

theorem deallocate {a n : Nat} {p : Ptr} (h : Q () t) : cost (deallocate a p n : M (St α) Unit) Q X t := by
  intro s hs; subst hs
  unfold Sfl.deallocate
  by_cases hp : p = Ptr.null
  · rw [if_pos hp]; exact h
  · rw [if_neg hp]
    cases s.blk p.blk with
    | none => trivial
    | some i =>
      dsimp only
      by_cases h1 : p.off = 0 ∧ i.size = n ∧ i.alloc = some a
      · rw [if_pos h1]
        by_cases h2 : ∀ k, k < n → (s.mem p.blk k).isNone
        · rw [if_pos h2]; exact h
        · rw [if_neg h2]; trivial
      · rw [if_neg h1]; trivial

theorem destroyN {n : Nat} {p : Ptr} (h : Q () t) : cost (destroyN p n : M (St α) Unit) Q X t := by
  induction n generalizing p with
  | zero => exact pure h
  | succ n ih => exact bind (destroyAt ih)

theorem destroyRange {p q : Ptr} (h : Q () t) : cost (destroyRange p q : M (St α) Unit) Q X t :=
  bind (distance fun _ _ => destroyN h)

theorem guard {c : M (St α) Unit} {m : M (St α) β} {Q : β → Nat → Prop} (hm : cost m Q X t)
    (hc : ∀ t', X t' → cost c (fun _ t' => X t') X t') : cost (Devector.guard c m) Q X t :=
  tryCatch (mono hm (fun _ _ h => h) fun t' h _ => bind (mono (hc t' h) (fun _ _ h => throw h) fun _ h => h))

/-- Each element is constructed once; a throwing construction ends the loop. -/
theorem uninitGo {Q : Ptr → Nat → Prop} {as : List (Arg α)} {d : Ptr} {k : Nat}
    (h : Q (d.add (k + as.length)) (t + as.length)) (hX : ∀ t', t ≤ t' → t' ≤ t + as.length → X t') :
    cost (uninitGo E d k as) Q X t := by
  induction as generalizing k t with
  | nil => exact pure h
  | cons a as ih =>
    unfold Sfl.uninitGo
    simp only [List.length_cons] at h hX
    refine bind (tryCatch (construct ?_ fun _ => bind (destroyRange (throw (hX _ (by omega) (by omega))))))
    refine ih ?_ fun t' _ _ => hX t' (by omega) (by omega)
    rw [show k + 1 + as.length = k + (as.length + 1) by omega, show t + 1 + as.length = t + (as.length + 1) by omega]
    exact h

theorem uninit {Q : Ptr → Nat → Prop} {as : List (Arg α)} {d : Ptr} (h : Q (d.add as.length) (t + as.length))
    (hX : ∀ t', t ≤ t' → t' ≤ t + as.length → X t') : cost (uninit E d as) Q X t :=
  uninitGo (by rw [Nat.zero_add]; exact h) hX

theorem _root_.Sfl.args_length {mk : Ptr → Arg α} {p : Ptr} {n : Nat} : (args mk p n).length = n := by
  induction n generalizing p with
  | zero => rfl
  | succ n ih => simp [args, ih]

theorem assignGo {Q : Ptr → Nat → Prop} {as : List (Arg α)} {d : Ptr}
    (h : Q (d.add as.length) (t + as.length)) (hX : ∀ t', t ≤ t' → t' ≤ t + as.length → X t') :
    cost (assignGo E d as) Q X t := by
  induction as generalizing d t with
  | nil => exact pure h
  | cons a as ih =>
    unfold Sfl.assignGo
    simp only [List.length_cons] at h hX
    refine bind (assign (ih ?_ fun t' _ _ => hX t' (by omega) (by omega)) (hX _ (by omega) (by omega)))
    rw [show (d.add 1).add as.length = d.add (as.length + 1) by simp [Ptr.add]; omega,
      show t + 1 + as.length = t + (as.length + 1) by omega]
    exact h

variable {Q : Ptr → Nat → Prop} {p q d : Ptr}

theorem uninitMove (h : p.blk = q.blk → p.off ≤ q.off → Q (d.add (q.off - p.off)) (t + (q.off - p.off)))
    (hX : ∀ t', t ≤ t' → t' ≤ t + (q.off - p.off) → X t') : cost (uninitMove E p q d) Q X t := by
  refine bind (distance fun h1 h2 => uninit ?_ ?_) <;> rw [args_length]
  · exact h h1 h2
  · exact hX

theorem uninitMoveIf (h : p.blk = q.blk → p.off ≤ q.off → Q (d.add (q.off - p.off)) (t + (q.off - p.off)))
    (hX : ∀ t', t ≤ t' → t' ≤ t + (q.off - p.off) → X t') : cost (uninitMoveIf E p q d) Q X t := by
  refine bind (distance fun h1 h2 => uninit ?_ ?_) <;> rw [args_length]
  · exact h h1 h2
  · exact hX

theorem uninitCopy (h : p.blk = q.blk → p.off ≤ q.off → Q (d.add (q.off - p.off)) (t + (q.off - p.off)))
    (hX : ∀ t', t ≤ t' → t' ≤ t + (q.off - p.off) → X t') : cost (uninitCopy E p q d) Q X t := by
  refine bind (distance fun h1 h2 => uninit ?_ ?_) <;> rw [args_length]
  · exact h h1 h2
  · exact hX

theorem uninitCopyList {ys : List α} (h : Q (d.add ys.length) (t + ys.length))
    (hX : ∀ t', t ≤ t' → t' ≤ t + ys.length → X t') : cost (uninitCopyList E d ys) Q X t := by
  refine uninit ?_ ?_ <;> rw [List.length_map]
  · exact h
  · exact hX

theorem uninitFillN {n : Nat} {a : Arg α} (h : Q (d.add n) (t + n)) (hX : ∀ t', t ≤ t' → t' ≤ t + n → X t') :
    cost (uninitFillN E d n a) Q X t := by
  refine uninit ?_ ?_ <;> rw [List.length_replicate]
  · exact h
  · exact hX

theorem uninitDefaultN {n : Nat} (h : Q (d.add n) (t + n)) (hX : ∀ t', t ≤ t' → t' ≤ t + n → X t') :
    cost (uninitDefaultN E d n) Q X t := uninitFillN h hX

theorem uninitFill {a : Arg α} {Q : Unit → Nat → Prop} (h : p.blk = q.blk → p.off ≤ q.off → Q () (t + (q.off - p.off)))
    (hX : ∀ t', t ≤ t' → t' ≤ t + (q.off - p.off) → X t') : cost (uninitFill E p q a) Q X t := by
  refine bind (distance fun h1 h2 => bind (uninit ?_ ?_)) <;> rw [List.length_replicate]
  · exact pure (h h1 h2)
  · exact hX

theorem fillRange {a : Arg α} {Q : Unit → Nat → Prop} (h : p.blk = q.blk → p.off ≤ q.off → Q () (t + (q.off - p.off)))
    (hX : ∀ t', t ≤ t' → t' ≤ t + (q.off - p.off) → X t') : cost (fillRange E p q a) Q X t := by
  refine bind (distance fun h1 h2 => bind (assignGo ?_ ?_)) <;> rw [List.length_replicate]
  · exact pure (h h1 h2)
  · exact hX

theorem fillN {n : Nat} {a : Arg α} (h : Q (d.add n) (t + n)) (hX : ∀ t', t ≤ t' → t' ≤ t + n → X t') :
    cost (fillN E d n a) Q X t := by
  refine assignGo ?_ ?_ <;> rw [List.length_replicate]
  · exact h
  · exact hX

theorem copyList {ys : List α} (h : Q (d.add ys.length) (t + ys.length))
    (hX : ∀ t', t ≤ t' → t' ≤ t + ys.length → X t') : cost (copyList E d ys) Q X t := by
  refine assignGo ?_ ?_ <;> rw [List.length_map]
  · exact h
  · exact hX

theorem moveFwd (h : p.blk = q.blk → p.off ≤ q.off → Q (d.add (q.off - p.off)) (t + (q.off - p.off)))
    (hX : ∀ t', t ≤ t' → t' ≤ t + (q.off - p.off) → X t') : cost (moveFwd E p q d) Q X t := by
  refine bind (distance fun h1 h2 => assignGo ?_ ?_) <;> rw [args_length]
  · exact h h1 h2
  · exact hX

theorem copyFwd (h : p.blk = q.blk → p.off ≤ q.off → Q (d.add (q.off - p.off)) (t + (q.off - p.off)))
    (hX : ∀ t', t ≤ t' → t' ≤ t + (q.off - p.off) → X t') : cost (copyFwd E p q d) Q X t := by
  refine bind (distance fun h1 h2 => assignGo ?_ ?_) <;> rw [args_length]
  · exact h h1 h2
  · exact hX

theorem moveBackGo {n : Nat} (h : ∀ r, r.off = d.off - n → (n ≤ d.off → r.blk = d.blk) → Q r (t + n)) (hX : ∀ t', t ≤ t' → t' ≤ t + n → X t') :
    cost (moveBackGo E p n d) Q X t := by
  induction n generalizing d t with
  | zero => exact pure (h d (by omega) fun _ => rfl)
  | succ n ih =>
    unfold Sfl.moveBackGo
    refine bind (assign (ih ?_ fun t' _ _ => hX t' (by omega) (by omega)) (hX _ (by omega) (by omega)))
    intro r hr hb
    rw [show t + 1 + n = t + (n + 1) by omega]
    refine h r ?_ ?_
    · rw [hr]
      unfold Ptr.sub
      split <;> simp <;> omega
    · intro hn
      unfold Ptr.sub at hb
      rw [if_pos (by omega)] at hb
      exact hb (by simp; omega)

theorem moveBackward (h : p.blk = q.blk → p.off ≤ q.off → ∀ r, r.off = d.off - (q.off - p.off) →
    (q.off - p.off ≤ d.off → r.blk = d.blk) → Q r (t + (q.off - p.off)))
    (hX : ∀ t', t ≤ t' → t' ≤ t + (q.off - p.off) → X t') : cost (moveBackward E p q d) Q X t :=
  bind (distance fun h1 h2 => moveBackGo (h h1 h2) hX)

theorem moveFwdNe {Q : Unit → Nat → Prop}
    (h : p.blk = q.blk → p.off ≤ q.off → p ≠ d → Q () (t + (q.off - p.off))) (h' : p.off = d.off → Q () t)
    (hX : ∀ t', t ≤ t' → t' ≤ t + (q.off - p.off) → X t') : cost (Devector.moveFwdNe E p q d) Q X t :=
  ite (fun hne => bind (moveFwd (fun h1 h2 => pure (h h1 h2 hne)) hX)) fun he => pure (h' (by simp only [ne_eq, Decidable.not_not] at he; rw [he]))

theorem moveBackwardNe {Q : Unit → Nat → Prop}
    (h : p.blk = q.blk → p.off ≤ q.off → q ≠ d → Q () (t + (q.off - p.off))) (h' : q.off = d.off → Q () t)
    (hX : ∀ t', t ≤ t' → t' ≤ t + (q.off - p.off) → X t') : cost (Devector.moveBackwardNe E p q d) Q X t :=
  ite (fun hne => bind (moveBackward (fun h1 h2 _ _ _ => pure (h h1 h2 hne)) hX)) fun he => pure (h' (by simp only [ne_eq, Decidable.not_not] at he; rw [he]))

end ops
end cost

namespace vcost
variable {Q : β → V → Nat → Prop} {X : V → Nat → Prop} {v : V} {t : Nat}

theorem bind {m : M (Obj V α) γ} {f : γ → M (Obj V α) β}
    (h : vcost m (fun b v' t' => vcost (f b) Q X v' t') X v t) : vcost (m >>= f) Q X v t := by
  intro o hv ht
  have h := h o hv ht
  show match M.bind m f o with | .ok b s' => Q b s'.obj s'.m.tick | .exn _ s' => X s'.obj s'.m.tick | .ub _ => True
  unfold M.bind
  cases hm : m o with
  | ok b o' => rw [hm] at h; exact h o' rfl rfl
  | exn e o' => rw [hm] at h; exact h
  | ub r => trivial

theorem pure {b : β} (h : Q b v t) : vcost (pure b : M (Obj V α) β) Q X v t := by
  intro o hv ht; subst hv ht; exact h

theorem throw {e : Exn} (h : X v t) : vcost (M.throw e : M (Obj V α) β) Q X v t := by
  intro o hv ht; subst hv ht; exact h

theorem undef {r : UB} : vcost (M.undef r : M (Obj V α) β) Q X v t := fun _ _ _ => trivial

theorem assert {p : Prop} [Decidable p] {Q : Unit → V → Nat → Prop} (h : p → Q () v t) :
    vcost (M.assert p : M (Obj V α) Unit) Q X v t := by
  intro o hv ht; subst hv ht
  by_cases hp : p
  · simp only [M.assert, if_pos hp]; exact h hp
  · simp only [M.assert, if_neg hp]

theorem ite {c : Prop} [Decidable c] {m m' : M (Obj V α) β} (h : c → vcost m Q X v t) (h' : ¬ c → vcost m' Q X v t) :
    vcost (if c then m else m') Q X v t := by
  split
  · exact h ‹_›
  · exact h' ‹_›

theorem tryCatch {m : M (Obj V α) β} {h : Exn → M (Obj V α) β}
    (hm : vcost m Q (fun v' t' => ∀ e, vcost (h e) Q X v' t') v t) : vcost (M.tryCatch m h) Q X v t := by
  intro o hv ht
  have hm := hm o hv ht
  unfold M.tryCatch
  cases e : m o with
  | ok b s' => rw [e] at hm; exact hm
  | exn e' s' => rw [e] at hm; exact hm _ s' rfl rfl
  | ub r => trivial

theorem mono {m : M (Obj V α) β} {Q' : β → V → Nat → Prop} {X' : V → Nat → Prop} (h : vcost m Q' X' v t)
    (hQ : ∀ b v' t', Q' b v' t' → Q b v' t') (hX : ∀ v' t', X' v' t' → X v' t') : vcost m Q X v t := by
  intro o hv ht
  have h := h o hv ht
  cases e : m o with
  | ok b s' => rw [e] at h; exact hQ _ _ _ h
  | exn e' s' => rw [e] at h; exact hX _ _ h
  | ub r => trivial

theorem and {m : M (Obj V α) β} {Q' : β → V → Nat → Prop} {X' : V → Nat → Prop} (h : vcost m Q X v t)
    (h' : vcost m Q' X' v t) :
    vcost m (fun b v' t' => Q b v' t' ∧ Q' b v' t') (fun v' t' => X v' t' ∧ X' v' t') v t := by
  intro o hv ht
  have h := h o hv ht
  have h' := h' o hv ht
  cases e : m o with
  | ok b s' => rw [e] at h h'; exact ⟨h, h'⟩
  | exn e' s' => rw [e] at h h'; exact ⟨h, h'⟩
  | ub r => trivial

theorem distance {Q : Nat → V → Nat → Prop} {p q : Ptr}
    (h : p.blk = q.blk → p.off ≤ q.off → Q (q.off - p.off) v t) :
    vcost (Sfl.distance p q : M (Obj V α) Nat) Q X v t := by
  intro o hv ht; subst hv ht
  unfold Sfl.distance
  by_cases hc : p.blk = q.blk ∧ p.off ≤ q.off
  · rw [if_pos hc]; exact h hc.1 hc.2
  · rw [if_neg hc]; trivial

theorem lift {m : M (St α) β} (h : cost m (fun b t' => Q b v t') (fun t' => X v t') t) :
    vcost (lift m : M (Obj V α) β) Q X v t := by
  intro o hv ht; subst hv
  have h := h o.m ht
  unfold Sfl.lift
  cases e : m o.m with
  | ok b s' => rw [e] at h; exact h
  | exn e' s' => rw [e] at h; exact h
  | ub r => trivial

theorem getObj {Q : V → V → Nat → Prop} (h : Q v v t) : vcost (getObj : M (Obj V α) V) Q X v t := by
  intro o hv ht; subst hv ht; exact h

theorem setObj {Q : Unit → V → Nat → Prop} {v' : V} (h : Q () v' t) :
    vcost (setObj v' : M (Obj V α) Unit) Q X v t := by
  intro o hv ht; subst ht; exact h

theorem out {m : M (Obj V α) β} {o : Obj V α} (h : vcost m Q X o.obj o.m.tick) {b : β} {o' : Obj V α}
    (e : m o = .ok b o') : Q b o'.obj o'.m.tick := by
  have := h o rfl rfl; rw [e] at this; exact this

theorem exn {m : M (Obj V α) β} {o : Obj V α} (h : vcost m Q X o.obj o.m.tick) {e : Exn} {o' : Obj V α}
    (he : m o = .exn e o') : X o'.obj o'.m.tick := by
  have := h o rfl rfl; rw [he] at this; exact this

end vcost

theorem Ptr.sub_off (p : Ptr) (n : Nat) : (p.sub n).off = p.off - n := by
  unfold Ptr.sub; split
  · rfl
  · simp; omega

theorem Ptr.sub_blk {p : Ptr} {n : Nat} (h : n ≤ p.off) : (p.sub n).blk = p.blk := by
  unfold Ptr.sub; rw [if_pos h]

theorem Ptr.off_ne {p q : Ptr} (hb : p.blk = q.blk) (hne : p ≠ q) : p.off ≠ q.off := by
  intro h; cases p; cases q; simp_all

/-- Closes the arithmetic that is left. -/
macro "cost_arith" : tactic => `(tactic| (
  (try simp only [Ptr.add_off, Ptr.sub_off, Ptr.add_blk, Ptr.null_off] at *) <;> omega))

/-- One rule for a program over the memory. -/
syntax "cost_step" : tactic

/-- Applies the rules until only arithmetic is left. -/
macro "cost" : tactic => `(tactic| repeat' cost_step)

macro_rules | `(tactic| cost_step) => `(tactic| (with_reducible first
  | exact cost.undef
  | assumption
  | intro _
  | apply cost.pure
  | apply cost.throw
  | apply cost.assert
  | apply cost.ite
  | apply cost.distance
  | apply cost.construct
  | apply cost.assign
  | apply cost.mkTmp
  | apply cost.readAt
  | apply cost.destroyAt
  | apply cost.destroyN
  | apply cost.destroyRange
  | apply cost.allocate
  | apply cost.deallocate
  | apply cost.guard
  | apply cost.uninitMove
  | apply cost.uninitMoveIf
  | apply cost.uninitCopy
  | apply cost.uninitCopyList
  | apply cost.uninitFillN
  | apply cost.uninitDefaultN
  | apply cost.uninitFill
  | apply cost.uninit
  | apply cost.fillRange
  | apply cost.fillN
  | apply cost.copyList
  | apply cost.moveFwd
  | apply cost.copyFwd
  | apply cost.assignGo
  | apply cost.moveFwdNe
  | apply cost.moveBackwardNe
  | apply cost.moveBackward
  | apply cost.tryCatch
  | apply cost.bind
  | dsimp only))

/-- One rule for a program over a container object. -/
syntax "vcost_step" : tactic

/-- Applies the rules until only arithmetic is left. -/
macro "vcost" : tactic => `(tactic| repeat' (first | vcost_step | cost_step))

macro_rules | `(tactic| vcost_step) => `(tactic| (with_reducible first
  | exact vcost.undef
  | apply vcost.pure
  | apply vcost.throw
  | apply vcost.assert
  | apply vcost.ite
  | apply vcost.distance
  | apply vcost.lift
  | apply vcost.getObj
  | apply vcost.setObj
  | apply vcost.tryCatch
  | apply vcost.bind))

end Sfl
