import Verif.CostVec2
import Verif.CompactWorld
/-
  What the modifiers and constructors of compact_vector cost.
-/

namespace Sfl
variable {α : Type}

namespace CompactVector
open Sfl.Vector (VM)
variable {E : Env α} {v : Vec} {n t : Nat}

/-- `n` elements in one block. -/
structure Line (v : Vec) (n : Nat) : Prop where
  blk : v.last.blk = v.first.blk
  last : v.last.off = v.first.off + n

/-- A function ends, in whichever way, before the counter passes `W`. -/
abbrev Costs {β : Type} (m : VM α β) (W : Nat) (v : Vec) (t : Nat) : Prop :=
  vcost m (fun _ _ t' => t' ≤ W) (fun _ t' => t' ≤ W) v t

theorem Costs.mono {β : Type} {m : VM α β} {W W' : Nat} (h : Costs m W v t) (hW : W ≤ W') : Costs m W' v t :=
  vcost.mono h (fun _ _ _ h => Nat.le_trans h hW) fun _ _ h => Nat.le_trans h hW

theorem Costs.nth {β : Type} {f : Ptr → VM α β} {W k : Nat} (h : Costs (f (v.first.add k)) W v t) :
    Costs (Vector.nth k >>= f) W v t := .bind (.bind (.getObj (.pure h)))

theorem Costs.argOf {β : Type} {f : Arg α → VM α β} {W : Nat} {s : Sq.Src α} (h : ∀ a, Costs (f a) W v t) :
    Costs (Vector.argOf s >>= f) W v t := .bind (.bind (.getObj (.pure (h _))))

theorem Costs.indexOf {m : VM α Ptr} {W : Nat} (h : Costs m W v t) : Costs (m >>= fun p => Vector.indexOf p) W v t :=
  .bind (vcost.mono h (fun _ _ _ h => .bind (.getObj (.bind (.distance fun _ _ => .pure h)))) fun _ _ h => h)

theorem Costs.map {β γ : Type} {m : VM α β} {f : β → γ} {W : Nat} (h : Costs m W v t) :
    Costs (m >>= fun p => Pure.pure (f p)) W v t := .bind (vcost.mono h (fun _ _ _ h => .pure h) fun _ _ h => h)

theorem replace_cost {f l e : Ptr} {Q : Unit → Vec → Nat → Prop} {X : Vec → Nat → Prop}
    (h : Q () { v with first := f, last := l, eos := e } t) : vcost (replace f l e : VM α Unit) Q X v t := by
  unfold replace
  vcost

theorem checkSize_cost {m : Nat} {Q : Unit → Vec → Nat → Prop} {X : Vec → Nat → Prop} (h : m ≤ E.maxSize → Q () v t) (hX : X v t) :
    vcost (checkSize E m) Q X v t := by
  unfold checkSize
  exact .ite (fun _ => .throw hX) fun hc => .pure (h (by omega))

macro_rules | `(tactic| vcost_step) => `(tactic| (with_reducible apply replace_cost))
macro_rules | `(tactic| vcost_step) => `(tactic| (with_reducible apply checkSize_cost))

/-- `emplace` moves all elements. -/
theorem emplace_cost (h : Line v n) {pos : Ptr} {a : Arg α} {k : Nat} (hk : pos.off = v.first.off + k) :
    vcost (emplace E pos a)
      (fun p v' t' => p = v'.first.add k ∧ Line v' (n + 1) ∧ v'.first.off = 0 ∧ t + n + 1 ≤ t' ∧ t' ≤ t + n + 2)
      (fun _ t' => t' ≤ t + n + 2) v t := by
  obtain ⟨h1, h2⟩ := h
  unfold emplace size
  refine .bind (.getObj (.bind (.assert fun hin => ?_)))
  obtain ⟨g1, g2, g3⟩ := hin
  have hk' : pos.off - v.first.off = k := by omega
  rw [hk']
  vcost
  all_goals first
    | (refine ⟨rfl, ⟨?_, ?_⟩, ?_, ?_, ?_⟩ <;> cost_arith)
    | cost_arith

theorem emplace_costs (h : Line v n) {pos : Ptr} {a : Arg α} {k : Nat} (hk : pos.off = v.first.off + k) :
    Costs (emplace E pos a) (t + n + 2) v t :=
  (emplace_cost h hk).mono (fun _ _ _ h => h.2.2.2.2) fun _ _ h => h

theorem emplaceBack_cost (h : Line v n) {a : Arg α} :
    vcost (emplaceBack E a) (fun _ v' t' => Line v' (n + 1) ∧ t + n + 1 ≤ t' ∧ t' ≤ t + n + 2) (fun _ t' => t' ≤ t + n + 2) v t := by
  unfold emplaceBack
  exact .bind (.getObj ((emplace_cost h h.last).mono (fun _ _ _ h => ⟨h.2.1, h.2.2.2⟩) fun _ _ h => h))

theorem tri (m n c : Nat) : (m + 1) * (m + 1 + 2 * n + c) = m * (m + 2 * (n + 1) + c) + 2 * n + (c + 1) := by
  rw [Nat.succ_mul, show m + 1 + 2 * n + c = m + 2 * (n + 1) + c - 1 by omega, Nat.mul_sub, Nat.mul_one]
  have : m ≤ m * (m + 2 * (n + 1) + c) := Nat.le_mul_of_pos_right _ (by omega)
  omega

/-- Pushing elements one by one: twice the sum `0 + 1 + … + (m - 1)` and what a single one costs. -/
theorem emplaceBackAll_cost (as : List (Arg α)) : ∀ {v : Vec} {n t : Nat}, Line v n →
    vcost (emplaceBackAll E as)
      (fun _ _ t' => 2 * t + as.length * (as.length + 2 * n + 1) ≤ 2 * t' ∧ 2 * t' ≤ 2 * t + as.length * (as.length + 2 * n + 3))
      (fun _ t' => 2 * t' ≤ 2 * t + as.length * (as.length + 2 * n + 3)) v t := by
  induction as with
  | nil => intro v n t h; exact .pure (by simp)
  | cons a as ih =>
    intro v n t h
    unfold emplaceBackAll
    generalize hm : as.length = m at ih
    have e1 : (m + 1) * (m + 1 + 2 * n + 1) = m * (m + 2 * (n + 1) + 1) + 2 * n + 2 := tri m n 1
    have e2 : (m + 1) * (m + 1 + 2 * n + 3) = m * (m + 2 * (n + 1) + 3) + 2 * n + 4 := tri m n 3
    rw [List.length_cons, hm, e1, e2]
    refine .bind ((emplaceBack_cost h).mono (fun _ v' t' hq => ?_) fun v' t' hq => by omega)
    refine (ih hq.1).mono (fun _ _ _ hh => ?_) fun _ _ hh => ?_ <;> omega

theorem insertRangeLoop_cost (as : List (Arg α)) : ∀ {v : Vec} {n t k : Nat} {pos : Ptr}, Line v n → pos.off = v.first.off + k →
    vcost (insertRangeLoop E as pos)
      (fun _ _ t' => 2 * t + as.length * (as.length + 2 * n + 1) ≤ 2 * t' ∧ 2 * t' ≤ 2 * t + as.length * (as.length + 2 * n + 3))
      (fun _ t' => 2 * t' ≤ 2 * t + as.length * (as.length + 2 * n + 3)) v t := by
  induction as with
  | nil => intro v n t k pos h hk; exact .pure (by simp)
  | cons a as ih =>
    intro v n t k pos h hk
    unfold insertRangeLoop
    generalize hm : as.length = m at ih
    have e1 : (m + 1) * (m + 1 + 2 * n + 1) = m * (m + 2 * (n + 1) + 1) + 2 * n + 2 := tri m n 1
    have e2 : (m + 1) * (m + 1 + 2 * n + 3) = m * (m + 2 * (n + 1) + 3) + 2 * n + 4 := tri m n 3
    rw [List.length_cons, hm, e1, e2]
    refine .bind ((emplace_cost h hk).mono (fun p v' t' hq => ?_) fun v' t' hq => by omega)
    obtain ⟨rfl, q1, -, q2, q3⟩ := hq
    refine (ih (k := k + 1) q1 (by simp; omega)).mono (fun _ _ _ hh => ?_) fun _ _ hh => ?_ <;> omega

theorem insertFillN_costs (h : Line v n) {pos : Ptr} {m : Nat} {a : Arg α} : Costs (insertFillN E pos m a) (t + n + m + 1) v t := by
  obtain ⟨h1, h2⟩ := h
  unfold insertFillN size
  refine .bind (.getObj (.bind (.assert fun hin => .ite (fun h0 => ?_) fun h0 => ?_)))
  · vcost; omega
  obtain ⟨g1, g2, g3⟩ := hin
  vcost <;> cost_arith

theorem insertRange_costs (h : Line v n) {pos : Ptr} {ys : List α} : Costs (insertRange E pos ys) (t + n + ys.length + 1) v t := by
  obtain ⟨h1, h2⟩ := h
  unfold insertRange size
  refine .bind (.getObj (.bind (.assert fun hin => .ite (fun h0 => ?_) fun h0 => ?_)))
  · vcost; omega
  obtain ⟨g1, g2, g3⟩ := hin
  vcost <;> cost_arith

theorem eraseRange_costs (h : Line v n) {p q : Ptr} : Costs (eraseRange E p q) (t + n + 1) v t := by
  obtain ⟨h1, h2⟩ := h
  unfold eraseRange size
  refine .bind (.getObj (.bind (.assert fun hin => .ite (fun h0 => ?_) fun h0 => ?_)))
  · vcost; omega
  obtain ⟨g1, g2, g3, g4, g5⟩ := hin
  vcost <;> cost_arith

theorem eraseAt_costs (h : Line v n) {p : Ptr} : Costs (eraseAt E p) (t + n + 1) v t :=
  .bind (.getObj (.bind (.assert fun _ => eraseRange_costs h)))

theorem popBack_costs (h : Line v n) : Costs (popBack E) (t + n + 1) v t :=
  .bind (.getObj (.bind (.assert fun _ => .bind (vcost.mono (eraseAt_costs h) (fun _ _ _ h => .pure h) fun _ _ h => h))))

theorem resizeWith_costs (h : Line v n) {m : Nat} {a : Arg α} : Costs (resizeWith E m a) (t + m + 1) v t := by
  obtain ⟨h1, h2⟩ := h
  unfold resizeWith size
  refine .bind (.getObj (.bind (.bind (.getObj (.distance fun _ _ => .ite (fun h0 => ?_) fun h0 => ?_)))))
  · vcost; omega
  refine .bind (checkSize_cost (fun _ => .bind (.lift (.allocate (fun b t' _ _ => .ite (fun hm => ?_) fun hm => ?_) ?_))) ?_)
  · unfold resizeGrow
    vcost <;> cost_arith
  · unfold resizeShrink
    vcost <;> cost_arith
  · omega
  · omega

theorem initWith_costs {as : List (Arg α)} : Costs (initWith E as) (t + as.length + 1) v t := by
  unfold initWith
  vcost <;> cost_arith

theorem clear_cost : vcost (clear : VM α Unit) (fun _ v' t' => Line v' 0 ∧ t' = t) (fun _ t' => t' = t) v t := by
  unfold clear
  vcost
  exact ⟨⟨rfl, rfl⟩, rfl⟩

theorem reassign_costs {as : List (Arg α)} : Costs (reassign E as) (t + as.length + 1) v t := by
  unfold reassign refill clear
  vcost <;> cost_arith

theorem assignFillN_costs (h : Line v n) {m : Nat} {a : Arg α} : Costs (assignFillN E m a) (t + m + 1) v t := by
  obtain ⟨h1, h2⟩ := h
  unfold assignFillN size
  refine .bind (checkSize_cost (fun _ => .bind (.getObj (.bind (.bind (.getObj (.distance fun _ _ =>
    .ite (fun h0 => ?_) fun h0 => ?_)))))) (by omega))
  · vcost <;> cost_arith
  · exact Costs.mono reassign_costs (by simp)

theorem assignRange_costs (h : Line v n) {as : List (Arg α)} : Costs (assignRange E as) (t + as.length + 1) v t := by
  obtain ⟨h1, h2⟩ := h
  unfold assignRange size
  refine .bind (checkSize_cost (fun _ => .bind (.getObj (.bind (.bind (.getObj (.distance fun _ _ =>
    .ite (fun h0 => ?_) fun h0 => ?_)))))) (by omega))
  · vcost <;> cost_arith
  · exact reassign_costs

theorem eraseIf_costs (h : Line v n) {f : α → Bool} : Costs (eraseIf E f) (t + 2 * n + 1) v t := by
  unfold eraseIf
  refine .bind (.getObj (.bind (.lift ((SmallVector.removeIf_cost h.last).mono (fun i t' hq => ?_) fun t' hq => ?_))))
  · refine .bind (.getObj (.bind (.distance fun _ _ => .bind (vcost.mono (eraseRange_costs h) (fun _ _ _ hh => .pure ?_) fun _ _ hh => ?_)))) <;>
      omega
  · omega

end CompactVector

namespace Sq.Op
/-- assign(first, last), insert(pos, first, last) with input iterators -/
def isInput : Op α → Bool
  | .insertInput _ _ => true
  | .assignInput _ => true
  | _ => false
end Sq.Op

namespace CompactVector
variable {E : Env α} {v : Vec} {n t : Nat}

/-- Every modifier but those that read a range of input iterators. -/
theorem exec_costs (h : Line v n) (op : Sq.Op α) (hop : op.isInput = false) : Costs (exec E op) (t + n + op.room n + 1) v t := by
  generalize hR : op.room n = R
  cases op <;> simp only [Sq.Op.room] at hR <;> subst hR
  case pushBack s =>
    exact .argOf fun a => .indexOf (.bind (.getObj ((emplace_costs h h.last).mono (by omega))))
  case emplace k s => exact .argOf fun a => .nth (.indexOf ((emplace_costs h (k := k) (by simp)).mono (by omega)))
  case insertN k m s => exact .argOf fun a => .nth (.indexOf ((insertFillN_costs h).mono (by omega)))
  case insertRange k ys => exact .nth (.indexOf ((insertRange_costs h).mono (by omega)))
  case insertInput k ys => simp [Sq.Op.isInput] at hop
  case popBack => exact .map ((popBack_costs h).mono (by omega))
  case eraseAt k => exact .nth (.indexOf ((eraseAt_costs h).mono (by omega)))
  case eraseRange k l => exact .nth (.nth (.indexOf ((eraseRange_costs h).mono (by omega))))
  case resize m => exact .map ((resizeWith_costs h).mono (by omega))
  case resizeV m s => exact .argOf fun a => .map ((resizeWith_costs h).mono (by omega))
  case assignN m a => exact .map ((assignFillN_costs h).mono (by omega))
  case assignRange ys => exact .map ((assignRange_costs h).mono (by simp))
  case assignInput ys => simp [Sq.Op.isInput] at hop
  case clear => exact .map (vcost.mono clear_cost (fun _ _ _ h => by omega) fun _ _ h => by omega)
  case reserve m => exact .undef
  case shrinkToFit => exact .undef
  case eraseIf f => exact .map ((eraseIf_costs h).mono (by omega))

/-- Insertion of a range of input iterators. -/
theorem exec_insertInput_cost (h : Line v n) {k : Nat} {ys : List α} :
    vcost (exec E (.insertInput k ys))
      (fun _ _ t' => 2 * t + ys.length * (ys.length + 2 * n + 1) ≤ 2 * t' ∧ 2 * t' ≤ 2 * t + ys.length * (ys.length + 2 * n + 3))
      (fun _ t' => 2 * t' ≤ 2 * t + ys.length * (ys.length + 2 * n + 3)) v t := by
  refine .bind (.bind (.getObj (.pure (.bind (.bind (.getObj (.bind (.assert fun _ => .bind ?_))))))))
  refine (insertRangeLoop_cost (k := k) _ h (by simp)).mono (fun _ _ _ hh => ?_) fun _ _ h => by simpa using h
  rw [List.length_map] at hh
  exact .bind (.getObj (.pure (.bind (.getObj (.bind (.distance fun _ _ => .pure hh))))))

/-- Assignment of a range of input iterators. -/
theorem exec_assignInput_cost {ys : List α} :
    vcost (exec E (.assignInput ys))
      (fun _ _ t' => 2 * t + ys.length * (ys.length + 1) ≤ 2 * t' ∧ 2 * t' ≤ 2 * t + ys.length * (ys.length + 3))
      (fun _ t' => 2 * t' ≤ 2 * t + ys.length * (ys.length + 3)) v t := by
  refine .bind (.bind (clear_cost.mono (fun _ v' t' hq => ?_) fun _ t' hq => by omega))
  obtain ⟨h, rfl⟩ := hq
  refine (emplaceBackAll_cost _ h).mono (fun _ _ _ hh => .pure ?_) fun _ _ hh => ?_ <;> simpa using hh

/-- The constructors that do not read a range of input iterators. -/
theorem construct_costs {init : Sq.Init α} (hi : ∀ ys, init ≠ .input ys) :
    Costs (construct E init) (t + (init.result E.dflt).length + 1) v t := by
  cases init with
  | empty => exact .pure (by omega)
  | count m => exact Costs.mono initWith_costs (by simp [Sq.Init.result])
  | fill m x => exact Costs.mono initWith_costs (by simp [Sq.Init.result])
  | range ys => exact Costs.mono initWith_costs (by simp [Sq.Init.result])
  | input ys => exact (hi ys rfl).elim

/-- The constructor from a range of input iterators. -/
theorem construct_input_cost (h : Line v 0) {ys : List α} :
    vcost (construct E (.input ys))
      (fun _ _ t' => 2 * t + ys.length * (ys.length + 1) ≤ 2 * t' ∧ 2 * t' ≤ 2 * t + ys.length * (ys.length + 3))
      (fun _ t' => 2 * t' ≤ 2 * t + ys.length * (ys.length + 3)) v t := by
  refine .tryCatch ((emplaceBackAll_cost _ h).mono (fun _ _ _ hh => by simpa using hh) fun _ t' hh => fun e => ?_)
  unfold destructor
  vcost
  simpa using hh

end CompactVector
end Sfl
