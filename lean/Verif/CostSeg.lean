import Verif.CostVec
import Verif.SegDev
/-
  What the functions of segmented_vector and segmented_devector that work at the ends do to the counter.
-/

namespace Sfl
variable {α β γ σ V : Type}

/-- The program computes a value and leaves the state alone. -/
class Still (m : M σ β) : Prop where
  run : ∀ s, match m s with
    | .ok _ s' => s' = s
    | .exn _ _ => False
    | .ub _ => True

namespace Still
instance pure {b : β} : Still (pure b : M σ β) := ⟨fun _ => rfl⟩

instance undef {r : UB} : Still (M.undef r : M σ β) := ⟨fun _ => trivial⟩

instance assert {p : Prop} [Decidable p] : Still (M.assert p : M σ Unit) := ⟨fun s => by
  by_cases hp : p
  · simp only [M.assert, if_pos hp]
  · simp only [M.assert, if_neg hp]⟩

instance distance {p q : Ptr} : Still (distance p q : M σ Nat) := ⟨fun s => by
  unfold Sfl.distance
  by_cases hc : p.blk = q.blk ∧ p.off ≤ q.off
  · rw [if_pos hc]
  · rw [if_neg hc]; trivial⟩

instance bind {m : M σ β} {f : β → M σ γ} [h : Still m] [h' : ∀ b, Still (f b)] : Still (m >>= f) := ⟨fun s => by
  have h := h.run s
  show match M.bind m f s with | .ok _ s' => s' = s | .exn _ _ => False | .ub _ => True
  unfold M.bind
  cases hm : m s with
  | ok b s' => rw [hm] at h; dsimp only at h; subst h; exact (h' b).run s'
  | exn e s' => rw [hm] at h; exact h
  | ub r => trivial⟩

instance ite {c : Prop} [Decidable c] {m m' : M σ β} [h : Still m] [h' : Still m'] : Still (if c then m else m') := by
  split <;> assumption

instance deref {t : Table} {p : Ptr} : Still (Seg.deref t p : M σ Ptr) := ⟨fun s => by
  unfold Seg.deref
  by_cases h : p.blk = t.blk
  · rw [if_pos h]
    rcases t.cells[p.off]? with _ | _ | q <;> trivial
  · rw [if_neg h]; trivial⟩

instance shift {p : Ptr} {k : Int} : Still (Seg.shift p k : M σ Ptr) := ⟨fun s => by
  unfold Seg.shift
  by_cases h : 0 ≤ (p.off : Int) + k
  · rw [if_pos h]
  · rw [if_neg h]; trivial⟩

instance ptrDiff {p q : Ptr} : Still (Seg.ptrDiff p q : M σ Int) := ⟨fun s => by
  unfold Seg.ptrDiff
  by_cases h : p.blk = q.blk
  · rw [if_pos h]
  · rw [if_neg h]; trivial⟩

instance put {t : Table} {p q : Ptr} : Still (Seg.put t p q : M σ Table) := ⟨fun s => by
  unfold Seg.put
  by_cases h : p.blk = t.blk ∧ p.off < t.cells.length
  · rw [if_pos h]
  · rw [if_neg h]; trivial⟩

instance inc {N : Nat} {t : Table} {it : SIt} : Still (Seg.inc N t it : M σ SIt) := by
  unfold Seg.inc; dsimp only; infer_instance

instance dec {N : Nat} {t : Table} {it : SIt} : Still (Seg.dec N t it : M σ SIt) := by
  unfold Seg.dec; infer_instance

instance advance {N : Nat} {t : Table} {it : SIt} {n : Int} : Still (Seg.advance N t it n : M σ SIt) := by
  unfold Seg.advance; dsimp only; infer_instance

instance diff {N : Nat} {t : Table} {x y : SIt} : Still (Seg.diff N t x y : M σ Int) := by
  unfold Seg.diff; infer_instance

instance dist {N : Nat} {t : Table} {x y : SIt} : Still (Seg.dist N t x y : M σ Nat) := by
  unfold Seg.dist; infer_instance

instance compose {N : Nat} {t : Table} {p q : Ptr} : Still (Seg.compose N t p q : M σ SIt) := by
  unfold Seg.compose; infer_instance

instance copyTable {t : Table} {n : Nat} {p q : Ptr} {t' : Table} : Still (Seg.copyTable t n p t' q : M σ Table) := by
  induction n generalizing p q t' with
  | zero => unfold Seg.copyTable; infer_instance
  | succ n ih => unfold Seg.copyTable; infer_instance

instance copyTableBack {t : Table} {n : Nat} {p q : Ptr} {t' : Table} :
    Still (Seg.copyTableBack t n p t' q : M σ (Table × Ptr)) := by
  induction n generalizing p q t' with
  | zero => unfold Seg.copyTableBack; infer_instance
  | succ n ih => unfold Seg.copyTableBack; infer_instance

end Still

theorem vcost.still {m : M (Obj V α) β} [h : Still m] {Q : β → V → Nat → Prop} {X : V → Nat → Prop} {v : V} {t : Nat}
    (hQ : ∀ b, Q b v t) : vcost m Q X v t := by
  intro o hv ht
  have h := h.run o
  cases e : m o with
  | ok b o' => rw [e] at h; dsimp only at h ⊢; subst h hv ht; exact hQ b
  | exn e' o' => rw [e] at h; exact h.elim
  | ub r => trivial

theorem cost.still {m : M (St α) β} [h : Still m] {Q : β → Nat → Prop} {X : Nat → Prop} {t : Nat}
    (hQ : ∀ b, Q b t) : cost m Q X t := by
  intro s ht
  have h := h.run s
  cases e : m s with
  | ok b o' => rw [e] at h; dsimp only at h ⊢; subst h ht; exact hQ b
  | exn e' o' => rw [e] at h; exact h.elim
  | ub r => trivial

macro_rules | `(tactic| vcost_step) => `(tactic| (with_reducible first
  | (apply vcost.still (m := Seg.deref _ _))
  | (apply vcost.still (m := Seg.shift _ _))
  | (apply vcost.still (m := Seg.put _ _ _))
  | (apply vcost.still (m := Seg.dist _ _ _ _))
  | (apply vcost.still (m := Seg.inc _ _ _))
  | (apply vcost.still (m := Seg.dec _ _ _))
  | (apply vcost.still (m := Seg.advance _ _ _ _))
  | (apply vcost.still (m := Seg.copyTable _ _ _ _ _))
  | (apply vcost.still (m := Seg.copyTableBack _ _ _ _ _))))

/-- `m` spends at most `k`, whether it returns or throws. -/
def Spends (m : M (Obj V α) β) (k : Nat) : Prop :=
  ∀ v t, vcost m (fun _ _ t' => t' ≤ t + k) (fun _ t' => t' ≤ t + k) v t

theorem vcost.spends {m : M (Obj V α) β} {k : Nat} (h : Spends m k) {Q : β → V → Nat → Prop} {X : V → Nat → Prop} {v : V}
    {t : Nat} (hQ : ∀ b v' t', t' ≤ t + k → Q b v' t') (hX : ∀ v' t', t' ≤ t + k → X v' t') : vcost m Q X v t :=
  (h v t).mono (fun b v' t' h => hQ b v' t' h) fun v' t' h => hX v' t' h

namespace Seg
variable {E : Env α} {N al n : Nat} {p q : Ptr}

theorem deallocSegsN_cost : Spends (deallocSegsN N al n p : TM α Unit) 0 := by
  induction n generalizing p with
  | zero => intro v t; exact .pure (Nat.le_refl _)
  | succ n ih =>
    intro v t
    refine .bind (.getObj (.bind (.still fun _ => .bind (.lift (.deallocate ?_)))))
    exact ih v t

theorem deallocSegs_cost : Spends (deallocSegs N al p q : TM α Unit) 0 :=
  fun v t => .bind (.still fun _ => deallocSegsN_cost v t)

theorem allocSegs_cost : Spends (allocSegs E N al p n q) n := by
  induction n generalizing q with
  | zero => intro v t; exact .pure (Nat.le_refl _)
  | succ n ih =>
    intro v t
    refine .bind (.tryCatch (.lift (.allocate (fun b t' h1 h2 => ?_) fun _ => ?_)))
    · refine .bind (.getObj (.bind (.still fun _ => .bind (.setObj ?_))))
      exact .spends ih (fun _ _ _ _ => by omega) fun _ _ _ => by omega
    · exact .bind (.spends deallocSegs_cost (fun _ _ _ _ => .throw (by omega)) fun _ _ _ => by omega)

theorem deallocTable_cost : Spends (deallocTable al p n : TM α Unit) 0 :=
  fun _ _ => .bind (.lift (.deallocate (.setObj (Nat.le_refl _))))
end Seg

namespace SegVec
variable {E : Env α} {N n : Nat}

theorem onTab_cost {m : Seg.TM α β} {k : Nat} (h : Spends m k) : Spends (onTab m) k := by
  intro v t o hv ht
  have h := h v.tab t ⟨v.tab, o.m⟩ rfl ht
  unfold onTab
  subst hv
  cases e : m ⟨o.obj.tab, o.m⟩ with
  | ok b o' => rw [e] at h; exact h
  | exn e' o' => rw [e] at h; exact h
  | ub r => trivial

theorem replaceTable_cost : Spends (replaceTable E n) 1 := by
  intro v t
  unfold replaceTable
  refine .bind (.getObj (.bind (.still fun _ => .bind (.still fun _ => .bind (.still fun _ => .bind (.lift (.allocate (fun b t' h1 h2 =>
    .bind (.still fun _ => .bind (.still fun _ => .bind ?_))) (by omega))))))))
  exact .spends (onTab_cost Seg.deallocTable_cost) (fun _ _ _ _ => .setObj (by omega)) fun _ _ _ => by omega

theorem growTable_cost : Spends (growTable E n) 1 := by
  intro v t
  refine .bind (.getObj (.bind (.still fun _ => .ite (fun _ => .bind (.still fun _ => replaceTable_cost _ _)) fun _ => .pure (by omega))))

theorem growStorage_cost : Spends (growStorage E N n) (n / N + 2) := by
  intro v t
  have h0 : 0 ≤ n / N := Nat.zero_le _
  refine .bind (.bind (.getObj (.still fun _ => .ite (fun _ => .throw (by omega)) fun _ => .bind ?_)))
  refine .spends growTable_cost (fun _ _ _ _ => .bind (.getObj (.bind ?_))) fun _ _ _ => by omega
  refine .spends (onTab_cost Seg.allocSegs_cost) (fun _ _ _ _ => .bind (.getObj (.bind (.still fun _ => .bind (.still fun _ =>
    .setObj (by omega)))))) fun _ _ _ => by omega

/-- One construction; if the last segment is full, at most two segments and a table are allocated before it. -/
theorem emplaceBack_cost {a : Arg α} : Spends (emplaceBack E N a) 4 := by
  intro v t
  have tail : ∀ v t, vcost (emplaceBackTail E N a) (fun _ _ t' => t' ≤ t + 1) (fun _ t' => t' ≤ t + 1) v t := fun v t =>
    .bind (.getObj (.bind (.lift (.construct (.bind (.still fun _ => .bind (.setObj (.pure (Nat.le_refl _))))) (Nat.le_refl _)))))
  have hN : 1 / N ≤ 1 := Nat.div_le_self 1 N
  refine .bind (.getObj (.ite (fun _ => .bind ?_) fun _ => ?_))
  · refine .spends growStorage_cost (fun _ v' t' _ => ?_) fun _ _ _ => by omega
    exact (tail v' t').mono (fun _ _ _ _ => by omega) fun _ _ _ => by omega
  · exact (tail _ _).mono (fun _ _ _ _ => by omega) fun _ _ _ => by omega

theorem popBack_cost : Spends (popBack N : SM α Unit) 0 :=
  fun _ _ => .bind (.getObj (.bind (.still fun _ => .bind (.still fun _ => .bind (.setObj (.lift (.destroyAt (Nat.le_refl _))))))))

theorem argOf_cost {s : Sq.Src α} : Spends (argOf N s) 0 := by
  intro v t
  cases s with
  | value x => exact .pure (Nat.le_refl _)
  | rvalue x => exact .pure (Nat.le_refl _)
  | elem i => exact .bind (.bind (.getObj (.bind (.still fun _ => .pure (.pure (Nat.le_refl _))))))

/-- Every push_back, pop_back costs at most a constant. -/
theorem exec_cost {ra : Sq.Op α → Bool} {op : Sq.Op α} (h : op.atBack = true) : Spends (exec E N ra op) 4 := by
  intro v t
  cases op with
  | pushBack s =>
    refine .bind (.spends argOf_cost (fun _ _ _ _ => .bind (.spends emplaceBack_cost (fun _ _ _ _ => ?_) fun _ _ _ => by omega))
      fun _ _ _ => by omega)
    exact .bind (.getObj (.bind (.still fun _ => .bind (.still fun _ => .pure (by omega)))))
  | popBack => exact .bind (.spends popBack_cost (fun _ _ _ _ => .pure (by omega)) fun _ _ _ => by omega)
  | _ => simp [Sq.Op.atBack] at h

end SegVec

namespace SegDev
variable {E : Env α} {N n : Nat}

theorem onTab_cost {m : Seg.TM α β} {k : Nat} (h : Spends m k) : Spends (onTab m) k := by
  intro v t o hv ht
  have h := h v.tab t ⟨v.tab, o.m⟩ rfl ht
  unfold onTab
  subst hv
  cases e : m ⟨o.obj.tab, o.m⟩ with
  | ok b o' => rw [e] at h; exact h
  | exn e' o' => rw [e] at h; exact h
  | ub r => trivial

theorem replaceTable_cost {c : SDVec → Ptr → DM α (Table × Ptr × Ptr)} [h : ∀ v p, Still (c v p)] :
    Spends (replaceTable E n c) 1 := by
  intro v t
  unfold replaceTable
  refine .bind (.getObj (.bind (.still fun _ => .bind (.still fun _ => .bind (.still fun _ => .bind (.lift (.allocate (fun b t' h1 h2 =>
    .bind (.still fun _ => .bind ?_)) (by omega))))))))
  exact .spends (onTab_cost Seg.deallocTable_cost) (fun _ _ _ _ => .bind (.still fun _ => .setObj (by omega))) fun _ _ _ => by omega

instance {v : SDVec} {p : Ptr} : Still (copyFront n v p : DM α (Table × Ptr × Ptr)) := by
  unfold copyFront; infer_instance

instance {v : SDVec} {p : Ptr} : Still (copyBack n v p : DM α (Table × Ptr × Ptr)) := by
  unfold copyBack; infer_instance

theorem growTableFront_cost : Spends (growTableFront E n) 1 := by
  intro v t
  refine .bind (.getObj (.bind (.still fun _ => .ite (fun _ => .bind (.still fun _ => replaceTable_cost _ _)) fun _ => .pure (by omega))))

theorem growTableBack_cost : Spends (growTableBack E n) 1 := by
  intro v t
  refine .bind (.getObj (.bind (.still fun _ => .ite (fun _ => .bind (.still fun _ => replaceTable_cost _ _)) fun _ => .pure (by omega))))

theorem growStorageBack_cost : Spends (growStorageBack E N n) (n / N + 2) := by
  intro v t
  have h0 : 0 ≤ n / N := Nat.zero_le _
  refine .bind (.bind (.getObj (.still fun _ => .ite (fun _ => .throw (by omega)) fun _ => .bind ?_)))
  refine .spends growTableBack_cost (fun _ _ _ _ => .bind (.getObj (.bind ?_))) fun _ _ _ => by omega
  refine .spends (onTab_cost Seg.allocSegs_cost) (fun _ _ _ _ => .bind (.getObj (.bind (.still fun _ => .bind (.still fun _ =>
    .setObj (by omega)))))) fun _ _ _ => by omega

theorem growStorageFront_cost : Spends (growStorageFront E N n) (n / N + 2) := by
  intro v t
  have h0 : 0 ≤ n / N := Nat.zero_le _
  have hr : n / N + (if n % N = 0 then 0 else 1) ≤ n / N + 1 := by split <;> omega
  refine .bind (.bind (.getObj (.still fun _ => .ite (fun _ => .throw (by omega)) fun _ => .bind ?_)))
  refine .spends growTableFront_cost (fun _ _ _ _ => .bind (.getObj (.bind (.still fun _ => .bind ?_)))) fun _ _ _ => by omega
  exact .spends (onTab_cost Seg.allocSegs_cost) (fun _ _ _ _ => .bind (.getObj (.bind (.still fun _ =>
    .setObj (by omega))))) fun _ _ _ => by omega

/-- One construction; if the last segment is full, at most two segments and a table are allocated before it. -/
theorem emplaceBack_cost {a : Arg α} : Spends (emplaceBack E N a) 4 := by
  intro v t
  have tail : ∀ v t, vcost (emplaceBackTail E N a) (fun _ _ t' => t' ≤ t + 1) (fun _ t' => t' ≤ t + 1) v t := fun v t =>
    .bind (.getObj (.bind (.lift (.construct (.bind (.still fun _ => .bind (.setObj (.pure (Nat.le_refl _))))) (Nat.le_refl _)))))
  have hN : 1 / N ≤ 1 := Nat.div_le_self 1 N
  refine .bind (.getObj (.ite (fun _ => .bind ?_) fun _ => ?_))
  · refine .spends growStorageBack_cost (fun _ v' t' _ => ?_) fun _ _ _ => by omega
    exact (tail v' t').mono (fun _ _ _ _ => by omega) fun _ _ _ => by omega
  · exact (tail _ _).mono (fun _ _ _ _ => by omega) fun _ _ _ => by omega

/-- One construction; if the first segment is full, at most a segment and a table are allocated before it. -/
theorem emplaceFront_cost {a : Arg α} : Spends (emplaceFront E N a) 4 := by
  intro v t
  have tail : ∀ v t, vcost (emplaceFrontTail E N a) (fun _ _ t' => t' ≤ t + 1) (fun _ t' => t' ≤ t + 1) v t := fun v t =>
    .bind (.getObj (.bind (.still fun _ => .bind (.lift (.construct (.bind (.setObj (.pure (Nat.le_refl _)))) (Nat.le_refl _))))))
  have hN : 1 / N ≤ 1 := Nat.div_le_self 1 N
  refine .bind (.getObj (.ite (fun _ => .bind ?_) fun _ => ?_))
  · refine .spends growStorageFront_cost (fun _ v' t' _ => ?_) fun _ _ _ => by omega
    exact (tail v' t').mono (fun _ _ _ _ => by omega) fun _ _ _ => by omega
  · exact (tail _ _).mono (fun _ _ _ _ => by omega) fun _ _ _ => by omega

theorem popFront_cost : Spends (popFront N : DM α Unit) 0 :=
  fun _ _ => .bind (.getObj (.bind (.still fun _ => .bind (.lift (.destroyAt (.bind (.still fun _ => .setObj (Nat.le_refl _))))))))

theorem popBack_cost : Spends (popBack N : DM α Unit) 0 :=
  fun _ _ => .bind (.getObj (.bind (.still fun _ => .bind (.still fun _ => .bind (.setObj (.lift (.destroyAt (Nat.le_refl _))))))))

theorem argOf_cost {s : Sq.Src α} : Spends (argOf N s) 0 := by
  intro v t
  cases s with
  | value x => exact .pure (Nat.le_refl _)
  | rvalue x => exact .pure (Nat.le_refl _)
  | elem i => exact .bind (.getObj (.bind (.still fun _ => .pure (Nat.le_refl _))))

/-- Every push_front, push_back, pop_front, pop_back costs at most a constant. -/
theorem exec_cost {ra : Dq.Op α → Bool} {op : Dq.Op α} (h : op.atEnds = true) : Spends (exec E N ra op) 4 := by
  intro v t
  cases op with
  | pushBack s =>
    refine .bind (.spends argOf_cost (fun _ _ _ _ => .bind (.spends emplaceBack_cost (fun _ _ _ _ => ?_) fun _ _ _ => by omega))
      fun _ _ _ => by omega)
    exact .bind (.getObj (.bind (.still fun _ => .bind (.still fun _ => .pure (by omega)))))
  | pushFront s =>
    refine .bind (.spends argOf_cost (fun _ _ _ _ => .bind (.spends emplaceFront_cost (fun _ _ _ _ => ?_) fun _ _ _ => by omega))
      fun _ _ _ => by omega)
    exact .bind (.getObj (.bind (.still fun _ => .bind (.still fun _ => .pure (by omega)))))
  | popFront => exact .bind (.spends popFront_cost (fun _ _ _ _ => .pure (by omega)) fun _ _ _ => by omega)
  | popBack => exact .bind (.spends popBack_cost (fun _ _ _ _ => .pure (by omega)) fun _ _ _ => by omega)
  | _ => simp [Dq.Op.atEnds, Dq.Op.isPushFront, Dq.Op.isPushBack, Dq.Op.isPop] at h

end SegDev
end Sfl
