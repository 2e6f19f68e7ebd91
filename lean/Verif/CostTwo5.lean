import Verif.CostTwo4
/-
  Costs of construction, copy, move, assignment and swap of segmented_devector. Proof machinery: no code is modelled in this file.
-/

set_option linter.unusedSimpArgs false

namespace Sfl
open World
variable {α : Type} {E : Env α} {T : Traits}

namespace SegDev
open Seg (Offers)
variable {N n k : Nat}

theorem allocateStorage_cost : Spends (allocateStorage E N n) (n / N + 2) := by
  unfold allocateStorage
  refine .ite (fun _ => .throw) fun _ => ?_
  dsimp only
  refine .get fun v => (Spends.bind (k := 1) (k' := n / N + 1) (.pays fun _ => ?_) fun p => ?_).mono (by omega)
  · exact .allocate (fun _ _ _ h => h) (Nat.le_refl _)
  · refine (Spends.bind (k := 0) (k' := n / N + 1) .set fun _ => ?_).mono (by omega)
    refine .rethrow ?_ fun _ => onTab_cost Seg.deallocTable_cost
    exact Spends.bind (k := n / N + 1) (k' := 0) (onTab_cost Seg.allocSegs_cost) fun _ => .get fun _ => .then fun _ => .then fun _ =>
      .then fun _ => .set

theorem deallocateStorage_cost : Spends (deallocateStorage N : DM α Unit) 0 := by
  unfold deallocateStorage
  exact .get fun _ => .bind (k := 0) (k' := 0) (onTab_cost Seg.deallocSegs_cost) fun _ => .then fun _ => onTab_cost Seg.deallocTable_cost

theorem clear_cost : Spends (clear N : DM α Unit) 0 := by
  unfold clear
  exact .get fun _ => .bind (k := 0) (k' := 0) (.pays Seg.destroy_pays) fun _ => .set

theorem destructor_cost : Spends (destructor N : DM α Unit) 0 := by
  unfold destructor
  exact .get fun _ => .bind (k := 0) (k' := 0) (.pays Seg.destroy_pays) fun _ => deallocateStorage_cost

theorem giveUp_cost : Spends (giveUp N : DM α Unit) 0 := by
  unfold giveUp
  exact .bind (k := 0) (k' := 0) clear_cost fun _ => .bind (k := 0) (k' := 0) deallocateStorage_cost fun _ => .get fun _ => .set

theorem initUsing_cost {alg : Table → SIt → M (St α) SIt} (h : ∀ t d, Pays (alg t d) k) : Spends (initUsing E N n alg) (n / N + 2 + k) := by
  unfold initUsing
  refine .bind allocateStorage_cost fun _ => .rethrow ?_ fun _ => deallocateStorage_cost
  exact .get fun v => .bind (k := k) (k' := 0) (.pays (h _ _)) fun _ => .set

theorem initRangeInput_cost {ys : List α} : Spends (initRangeInput E N ys) (4 * ys.length + 2) := by
  unfold initRangeInput
  refine (Spends.bind (k := 0 / N + 2) (k' := 4 * ys.length) allocateStorage_cost fun _ => ?_).mono (by simp; omega)
  have := emplaceBackAll_cost (E := E) (N := N) (as := ys.map .val)
  rw [List.length_map] at this
  have e : (fun e => do clear N; deallocateStorage N; M.throw e : Exn → DM α Unit)
      = fun e => (do clear N; deallocateStorage N : DM α Unit) >>= fun _ => M.throw e := by
    funext e; rw [M.bind_assoc]
  rw [e]
  exact .rethrow this fun _ => .bind (k := 0) (k' := 0) clear_cost fun _ => deallocateStorage_cost

theorem copyAll_cost {src : Seg.From α} (h : Offers N src n) : Spends (copyAll E N src) n :=
  .get fun _ => Spends.bind (k := n) (k' := 0) (.pays h.assign) fun _ => .pure

theorem rangeBack_cost {src : Seg.From α} (h : Offers N src n) : Spends (rangeBack E N src) n :=
  .get fun _ => Spends.bind (k := n) (k' := 0) (.pays h.uninit) fun _ => .set

theorem rangeFront_cost {src : Seg.From α} (h : Offers N src n) : Spends (rangeFront E N k src) n :=
  .get fun _ => .then fun _ => Spends.bind (k := n) (k' := 0) (.pays h.uninit) fun _ => .set

theorem rangeBos_cost {src : Seg.From α} (h : Offers N src n) : Spends (rangeBos E N src) n :=
  .get fun _ => Spends.bind (k := n) (k' := 0) (.pays h.uninit) fun _ => .set

theorem assignRange_cost {src : Seg.From α} (h : Offers N src n) : Spends (assignRange E N src) (n + n / N + 2) := by
  have hz := Nat.zero_le (n / N)
  have : Still (SegDev.size N : DM α Nat) := by unfold SegDev.size; infer_instance
  have : Still (SegDev.availableBack N : DM α Nat) := by unfold SegDev.availableBack; infer_instance
  have : Still (SegDev.availableFront N : DM α Nat) := by unfold SegDev.availableFront; infer_instance
  unfold assignRange
  refine .run (fun s => h.dist s) ?_
  refine .then fun sz => .ite (fun _ => ?_) fun hsz => ?_
  · refine .get fun v => (Spends.bind (k := n) (k' := 0) (.pays h.assign) fun _ => ?_).mono (by omega)
    exact .bind (k := 0) (k' := 0) (.pays Seg.destroy_pays) fun _ => .set
  refine .then fun ab => .ite (fun _ => ?_) fun hab => .then fun af => .ite (fun haf => ?_) fun haf => ?_
  · obtain ⟨lo, hi, h1, h2, h3⟩ := h.split (k := sz) (by omega) (σ := Obj SDVec α)
    exact .run h1 ((Spends.bind (copyAll_cost h2) fun _ => rangeBack_cost h3).mono (by omega))
  · obtain ⟨lo, rest, h1, h2, h3⟩ := h.split (k := n - (sz + ab)) (by omega) (σ := Obj SDVec α)
    obtain ⟨mid, hi, h4, h5, h6⟩ := h3.split (k := sz) (by omega) (σ := Obj SDVec α)
    exact .run h1 (.run h4 ((Spends.bind (copyAll_cost h5) fun _ => Spends.bind (rangeBack_cost h6) fun _ => rangeFront_cost h2).mono (by omega)))
  · obtain ⟨lo, rest, h1, h2, h3⟩ := h.split (k := af) (by omega) (σ := Obj SDVec α)
    obtain ⟨mid, hi, h4, h5, h6⟩ := h3.split (k := sz) (by omega) (σ := Obj SDVec α)
    refine (Spends.bind growStorageBack_cost fun _ => .run h1 (.run h4 (Spends.bind (copyAll_cost h5) fun _ =>
      Spends.bind (rangeBack_cost h6) fun _ => rangeBos_cost h2))).mono ?_
    have := div_sub_le (n := n) (k := af + sz + ab) (N := N)
    omega

theorem initCopy_cost {w : SDVec} (h : Offers N (.seg w.tab .ref w.first w.last : Seg.From α) n) : Spends (initCopy E N w) (2 * n + 4) := by
  unfold initCopy
  refine .run (fun s => h.dist s) ((initUsing_cost fun _ _ => h.uninit).mono ?_)
  have := segs_le_self (n := n) (N := N)
  omega

theorem initMove_cost {v w : SDVec} {t : Nat} (h : Offers N (.seg w.tab .mv w.first w.last : Seg.From α) n) :
    vcost (initMove E N) (fun _ _ t' => t' ≤ t + if v.alloc = w.alloc then 2 else 2 * n + 4)
      (fun _ t' => t' ≤ t + if v.alloc = w.alloc then 2 else 2 * n + 4) (v, w) t := by
  unfold initMove
  refine .bind (.getObj (.ite (fun ha => ?_) fun ha => ?_))
  · dsimp only at ha
    rw [if_pos ha]
    refine (Spends.bind (k := 2) (k' := 0) (Spends.onThis (allocateStorage_cost.mono (by simp))) fun _ => .get fun _ => .set) _ _
  · dsimp only at ha ⊢
    rw [if_neg ha]
    refine (Spends.run (fun s => h.dist s) (Spends.onThis ((initUsing_cost fun _ _ => h.uninit).mono ?_))) _ _
    have := segs_le_self (n := n) (N := N)
    omega

theorem assignCopy_cost {w : SDVec} (h : Offers N (.seg w.tab .ref w.first w.last : Seg.From α) n) :
    Spends (assignCopy E N T w) (2 * n + 4) := by
  have hr : Spends (assignRange E N (.seg w.tab .ref w.first w.last)) (2 * n + 2) := by
    have := segs_le_self (n := n) (N := N)
    exact (assignRange_cost h).mono (by omega)
  have h1 : Spends (do let v ← Sfl.getObj; Sfl.setObj { v with alloc := w.alloc }; assignRange E N (.seg w.tab .ref w.first w.last))
      (2 * n + 2) := .get fun _ => (Spends.bind (k := 0) .set fun _ => hr).mono (by omega)
  unfold assignCopy
  refine .ite (fun _ => .get fun v => .ite (fun _ => ?_) fun _ => h1.mono (by omega)) fun _ => hr.mono (by omega)
  refine (Spends.bind (k := 2) (k' := 2 * n + 2) (Spends.onLocal (allocateStorage_cost.mono (by simp))) fun b => ?_).mono (by omega)
  obtain ⟨-, temp⟩ := b
  refine (Spends.bind (k := 0) giveUp_cost fun _ => .get fun _ => Spends.bind (k := 0) .set fun _ => Spends.bind (k := 0)
    (Spends.onLocal destructor_cost) fun _ => h1).mono (by omega)

theorem assignMoved_cost {w : SDVec} (h : Offers N (.seg w.tab .mv w.first w.last : Seg.From α) n) : Spends (assignMoved E N w) (2 * n + 2) := by
  unfold assignMoved
  refine .run (fun s => h.dist s) (Seg.gather_spends (g := id) (f := fun ps => assignRange E N (.list true (ps.map .mv))) fun ps hps => ?_)
  have := Offers.list (N := N) true (ps.map (Arg.mv : Ptr → Arg α))
  rw [List.length_map, hps] at this
  have e := segs_le_self (n := n) (N := N)
  exact (assignRange_cost this).mono (by omega)

theorem assignMove_cost {v w : SDVec} {t : Nat} (h : Offers N (.seg w.tab .mv w.first w.last : Seg.From α) n) :
    vcost (assignMove E N T) (fun _ _ t' => t' ≤ t + if v.alloc = w.alloc then 2 else 2 * n + 4)
      (fun _ t' => t' ≤ t + if v.alloc = w.alloc then 2 else 2 * n + 4) (v, w) t := by
  unfold assignMove
  refine .bind (.getObj (.ite (fun ha => ?_) fun ha => ?_))
  · dsimp only at ha
    rw [if_pos ha]
    refine Spends.bind (k := 2) (k' := 0) (Spends.onLocal (allocateStorage_cost.mono (by simp))) (fun b => ?_) _ _
    refine Spends.bind (k := 0) (k' := 0) giveUp_cost.onThis fun _ => .get fun o => Spends.bind (k := 0) (k' := 0) .set fun _ => ?_
    refine .ite (fun _ => .get fun _ => Spends.bind (k := 0) (k' := 0) .set fun _ => ?_) fun _ => ?_ <;>
      exact Spends.bind (k := 0) (k' := 0) (Spends.onLocal destructor_cost) fun _ => .pure
  · dsimp only at ha ⊢
    rw [if_neg ha]
    refine .ite (fun _ => ?_) fun _ => ((assignMoved_cost h).onThis.mono (by omega) : Spends _ _) _ _
    refine .bind (.onLocal ((allocateStorage_cost (n := 0) _ _).mono (fun _ temp t1 h1 => ?_) fun _ t1 h1 => ?_))
    · refine .bind (.onThis ((giveUp_cost _ _).mono (fun _ v2 t2 h2 => ?_) fun _ _ h2 => ?_))
      · refine .bind (.getObj (.bind (.setObj ?_)))
        refine Spends.bind (k := 2 * n + 2) (k' := 0) (.rethrow (assignMoved_cost h).onThis fun _ => .onLocal destructor_cost)
          (fun _ => Spends.bind (k := 0) (k' := 0) (Spends.onLocal destructor_cost) fun _ => .pure) _ _ |>.mono ?_ ?_
        · intro _ _ _ h3; simp at h1; omega
        · intro _ _ h3; simp at h1; omega
      · simp at h1; omega
    · simp at h1; omega

theorem swap_cost : Spends (swap T : M (Obj (SDVec × SDVec) α) Unit) 0 := by
  unfold swap
  refine .get fun o => .then fun _ => .ite (fun _ => Spends.bind (k := 0) (k' := 0) .set fun _ => ?_) fun _ => ?_ <;>
    exact .get fun _ => .set

variable {K : Nat} {ra : Dq.Op α → Bool} {rai : Sq.Init α → Bool}

theorem rep_offers {i : Fin K} {m : St α} {w : SDVec} {al : Nat} {xs : List α} {F : Foot} (mk : Ptr → Arg α)
    (h : (rep K N).rep i m w al xs F) : w.alloc = al ∧ Offers N (.seg w.tab mk w.first w.last) xs.length := by
  obtain ⟨V, tcap, f, H, h, -⟩ := h
  have hl := h.len
  have e1 : w.first = V.it f := congrArg SDVec.first h.obj
  have e2 : w.last = V.it (f + xs.length) := congrArg SDVec.last h.obj
  have e3 := h.obj
  dsimp only at e3
  refine ⟨by rw [e3]; rfl, ?_⟩
  rw [e1, e2]
  have := Offers.seg mk (x := f) (y := f + xs.length) h.fit h.num (by omega) (by omega)
  rwa [Nat.add_sub_cancel_left] at this

/-- segmented_devector keeps to its prices. -/
theorem priced {S : Sem (Dq.Op α) (Sq.Init α) α Nat} (hS : S.takes = false) : Priced (cont K E N T ra rai) S (rep K N) segPrice where
  copy := fun _ _ hr ho => (initCopy_cost (rep_offers .ref hr).2).fin ho
  move := by
    intro i j m al w al2 xs F o' _ _ hr ho
    obtain ⟨rfl, h⟩ := rep_offers .mv hr
    exact vcost.fin (o := ⟨_, m⟩) (P := fun _ t' => t' ≤ m.tick + if al = w.alloc then 2 else 2 * xs.length + 4)
      (initMove_cost (v := blank al) h) ho
  destroy := fun _ _ ho => destructor_cost.fin ho
  assignCopy := fun _ _ hr _ ho => (assignCopy_cost (rep_offers .ref hr).2).fin ho
  assignMove := by
    intro i j m v al xs F w al2 xs2 F2 o' _ hr hr2 _ ho
    obtain ⟨rfl, -⟩ := rep_offers .mv hr
    obtain ⟨rfl, h⟩ := rep_offers .mv hr2
    rw [hS]
    simp only [Bool.false_eq_true, false_or]
    exact vcost.fin (o := ⟨_, m⟩) (P := fun _ t' => t' ≤ m.tick + if v.alloc = w.alloc then 2 else 2 * xs2.length + 4)
      (assignMove_cost h) ho
  swap := fun _ _ _ _ ho => swap_cost.fin ho

theorem made : World.Made (cont K E N T ra rai) segPrice (fun init => init.work (2 * ·) E.dflt) := by
  intro i m al init o' ho
  refine Spends.fin (o := ⟨_, m⟩) (m := construct' E N (rai init) init) (k := 2 * init.work (2 * ·) E.dflt + 4) ?_ ho
  have hw : ∀ {n : Nat} {alg : Table → SIt → M (St α) SIt}, (∀ t d, Pays (alg t d) n) → Spends (initUsing E N n alg) (2 * n + 4) :=
    fun {n alg} h => (initUsing_cost h).mono (by have := segs_le_self (n := n) (N := N); omega)
  cases init <;> simp only [construct']
  case empty => exact (allocateStorage_cost (n := 0)).mono (by simp)
  case count k => exact (hw (n := k) fun _ _ => Seg.uninitFillN_pays).mono (by simp [Sq.Init.work, Sq.Init.result])
  case fill k x => exact (hw (n := k) fun _ _ => Seg.uninitFillN_pays).mono (by simp [Sq.Init.work, Sq.Init.result])
  case range ys =>
    refine (hw (n := ys.length) fun t d => ?_).mono (by simp [Sq.Init.work, Sq.Init.result])
    have := Seg.From.uninitList_pays (E := E) (N := N) (ra := rai (.range ys)) (as := ys.map .val) (t := t) (d := d)
    rw [List.length_map] at this
    exact this
  case input ys => exact initRangeInput_cost.mono (by simp only [Sq.Init.work]; omega)

end SegDev

end Sfl
