import Verif.CostDev3
import Verif.SVImpl
/-
  What the functions of small_vector and vector that work at the end do to the data members and the counter.
-/

namespace Sfl
variable {α : Type}

namespace Sq.Op
/-- push_back, emplace_back, pop_back -/
def atBack : Op α → Bool
  | .pushBack _ => true
  | .popBack => true
  | _ => false
end Sq.Op

namespace SmallVector
variable {E : Env α} {v : Vec} {n r t ib N : Nat}

/-- `n` elements and `r` free slots behind them, in one block. -/
structure Dim (v : Vec) (n r : Nat) : Prop where
  blk1 : v.last.blk = v.first.blk
  blk2 : v.eos.blk = v.first.blk
  last : v.last.off = v.first.off + n
  eos : v.eos.off = v.first.off + n + r

theorem freeUnless_cost {X : Nat → Prop} {al k : Nat} {p : Ptr} {Q : Unit → Nat → Prop} (h : Q () t) :
    cost (freeUnless ib al p k : M (St α) Unit) Q X t :=
  .ite (fun _ => .deallocate h) fun _ => .pure h

macro_rules | `(tactic| cost_step) => `(tactic| (with_reducible apply freeUnless_cost))

/-- The free slots after a growth: at least half of the old size, unless the limit is reached. -/
theorem newCapacity_room {m n c : Nat} (h : newCapacity N m n n 1 = some c) :
    n < m ∧ n < c ∧ (m ≤ c ∨ n + n / 2 ≤ c) := by
  unfold newCapacity at h
  split at h
  · simp at h
  split at h
  · simp at h; omega
  split at h <;> simp at h <;> omega

theorem emplaceBack_cost (h : Dim v n r) {a : Arg α} :
    vcost (emplaceBack E ib N a)
      (fun _ v' t' => if 0 < r then Dim v' (n + 1) (r - 1) ∧ t' = t + 1
        else n < E.maxSize ∧ ∃ c, n < c ∧ (E.maxSize ≤ c ∨ n + n / 2 ≤ c) ∧ Dim v' (n + 1) (c - (n + 1)) ∧ t' ≤ t + n + 2)
      (fun _ t' => (0 < r → t' ≤ t + 1) ∧ t' ≤ t + n + 2 ∧ (r = 0 → E.maxSize ≤ n → t' = t)) v t := by
  have hd := h
  obtain ⟨h1, h2, h3, h4⟩ := h
  unfold emplaceBack
  refine .bind (.getObj (.ite (fun hne => ?_) fun he => ?_))
  · have hr : 0 < r := by have := Ptr.off_ne (by rw [h1, h2]) hne; omega
    refine .bind (.lift (.construct ?_ (by omega)))
    refine .bind (.setObj (.pure ?_))
    rw [if_pos hr]
    exact ⟨⟨h1, h2, by simp; omega, by simp; omega⟩, rfl⟩
  · have hr : r = 0 := by
      have he : v.last = v.eos := by simpa using he
      rw [he] at h3; omega
    subst hr
    unfold calculateNewCapacity Vector.size Vector.capacity
    refine .bind (.bind (.bind (.getObj (.distance fun _ _ => .bind (.bind (.getObj (.distance fun _ _ => ?_)))))))
    have e1 : v.last.off - v.first.off = n := by omega
    have e2 : v.eos.off - v.first.off = n := by omega
    rw [e1, e2]
    cases hc : newCapacity N E.maxSize n n 1 with
    | none => exact .throw (by omega)
    | some c =>
      obtain ⟨k1, k2, k3⟩ := newCapacity_room hc
      dsimp only
      unfold newStorage replaceStorage
      vcost
      all_goals first
        | (rw [if_neg (by omega)]; refine ⟨k1, N, ?_, ?_, ⟨?_, ?_, ?_, ?_⟩, ?_⟩ <;> cost_arith)
        | (rw [if_neg (by omega)]; refine ⟨k1, c, ?_, ?_, ⟨?_, ?_, ?_, ?_⟩, ?_⟩ <;> cost_arith)
        | cost_arith

theorem popBack_cost (h : Dim v n r) :
    vcost (Vector.popBack : Vector.VM α Unit) (fun _ v' t' => 0 < n ∧ Dim v' (n - 1) (r + 1) ∧ t' = t) (fun _ _ => False) v t := by
  obtain ⟨h1, h2, h3, h4⟩ := h
  refine .bind (.getObj (.bind (.assert fun hne => .bind (.setObj (.lift (.destroyAt ?_))))))
  have hb : 0 < n := by have := Ptr.off_ne (by rw [h1]) hne; omega
  refine ⟨hb, ⟨?_, h2, ?_, ?_⟩, rfl⟩ <;> dsimp only
  · rw [Ptr.sub_blk (by omega)]; exact h1
  all_goals cost_arith

theorem exec_pushBack_cost (h : Dim v n r) {s : Sq.Src α} :
    vcost (exec E ib N (.pushBack s))
      (fun _ v' t' => if 0 < r then Dim v' (n + 1) (r - 1) ∧ t' = t + 1
        else n < E.maxSize ∧ ∃ c, n < c ∧ (E.maxSize ≤ c ∨ n + n / 2 ≤ c) ∧ Dim v' (n + 1) (c - (n + 1)) ∧ t' ≤ t + n + 2)
      (fun _ t' => (0 < r → t' ≤ t + 1) ∧ t' ≤ t + n + 2 ∧ (r = 0 → E.maxSize ≤ n → t' = t)) v t := by
  refine .bind (.bind (.getObj (.pure (.bind ((emplaceBack_cost h).mono (fun p v' t' hq => ?_) fun _ _ h => h)))))
  exact .bind (.getObj (.bind (.distance fun _ _ => .pure hq)))

theorem exec_popBack_cost (h : Dim v n r) :
    vcost (exec E ib N .popBack) (fun _ v' t' => 0 < n ∧ Dim v' (n - 1) (r + 1) ∧ t' = t) (fun _ _ => False) v t :=
  .bind ((popBack_cost h).mono (fun _ _ _ hq => .pure hq) fun _ _ h => h)

/-- Each growth is paid for by the elements appended since the last one; once the limit is reached none is left. -/
theorem back_cost (ops : List (Sq.Op α)) : ∀ {v : Vec} {n r t : Nat}, Dim v n r →
    (∀ op ∈ ops, op.atBack = true) →
    vcost (runAll (exec E ib N) ops)
      (fun _ _ t' => t' ≤ t + 7 * ops.length + if E.maxSize ≤ n + r then 0 else n - 2 * r)
      (fun _ t' => t' ≤ t + 7 * ops.length + if E.maxSize ≤ n + r then 0 else n - 2 * r) v t := by
  induction ops with
  | nil => intro v n r t _ _; exact .pure (by omega)
  | cons op ops ih =>
    intro v n r t h hops
    have hops' : ∀ op ∈ ops, op.atBack = true := fun o ho => hops o (List.mem_cons_of_mem _ ho)
    have hop := hops op List.mem_cons_self
    unfold runAll
    simp only [List.length_cons]
    cases op with
    | pushBack s =>
      refine .bind ((exec_pushBack_cost h).mono (fun _ v' t' hq => ?_) fun _ _ h => ?_)
      · split at hq
        · exact (ih hq.1 hops').mono (fun _ _ _ hh => by (repeat' split at hh) <;> (repeat' split) <;> omega)
            fun _ _ hh => by (repeat' split at hh) <;> (repeat' split) <;> omega
        · obtain ⟨k1, c, k2, k3, k4, k5⟩ := hq
          exact (ih k4 hops').mono (fun _ _ _ hh => by (repeat' split at hh) <;> (repeat' split) <;> omega)
            fun _ _ hh => by (repeat' split at hh) <;> (repeat' split) <;> omega
      · (repeat' split) <;> omega
    | popBack =>
      refine .bind ((exec_popBack_cost h).mono (fun _ v' t' hq => ?_) fun _ _ h => h.elim)
      exact (ih hq.2.1 hops').mono (fun _ _ _ hh => by (repeat' split at hh) <;> (repeat' split) <;> omega)
            fun _ _ hh => by (repeat' split at hh) <;> (repeat' split) <;> omega
    | _ => simp [Sq.Op.atBack] at hop

end SmallVector
end Sfl
