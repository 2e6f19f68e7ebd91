import Verif.CostTwo2
import Verif.CostSegDev6
/-
  Costs of construction, copy, move, assignment and swap of segmented_vector. Proof machinery: no code is
  modelled in this file.
-/

set_option linter.unusedSimpArgs false

namespace Sfl
open World
variable {α β γ V W : Type} {E : Env α} {T : Traits}

theorem vcost.onLocal {p : M (Obj W α) β} {w : W} {Q : β × W → V → Nat → Prop} {X : V → Nat → Prop} {v : V} {t : Nat}
    (h : vcost p (fun b w' t' => Q (b, w') v t') (fun _ t' => X v t') w t) : vcost (onLocal w p) Q X v t := by
  intro o ho ht
  have h := h ⟨w, o.m⟩ rfl ht
  unfold Sfl.onLocal
  cases hp : p ⟨w, o.m⟩ with
  | ok b o' => rw [hp] at h; subst ho; exact h
  | exn e o' => rw [hp] at h; subst ho; exact h
  | ub r => trivial

theorem Spends.mono {m : M (Obj V α) β} {k k' : Nat} (h : Spends m k) (hk : k ≤ k') : Spends m k' :=
  fun v t => (h v t).mono (fun _ _ _ h => by omega) fun _ _ h => by omega

theorem Spends.bind {m : M (Obj V α) γ} {f : γ → M (Obj V α) β} {k k' : Nat} (h : Spends m k) (h' : ∀ b, Spends (f b) k') :
    Spends (m >>= f) (k + k') :=
  fun v t => .bind ((h v t).mono (fun b v' t' h => (h' b v' t').mono (fun _ _ _ h => by omega) fun _ _ h => by omega) fun _ _ h => by omega)

theorem Spends.then {m : M (Obj V α) γ} [Still m] {f : γ → M (Obj V α) β} {k : Nat} (h' : ∀ b, Spends (f b) k) : Spends (m >>= f) k :=
  fun v t => .bind (.still fun b => h' b v t)

theorem Spends.pays {m : M (St α) β} {k : Nat} (h : Pays m k) : Spends (lift m : M (Obj V α) β) k :=
  fun _ t => .lift ((h t).mono (fun _ _ h => h) fun _ h => h)

theorem Spends.get {f : V → M (Obj V α) β} {k : Nat} (h : ∀ v, Spends (f v) k) : Spends (Sfl.getObj >>= f) k :=
  fun v t => .bind (.getObj (h v v t))

theorem Spends.set {v : V} {k : Nat} : Spends (Sfl.setObj v : M (Obj V α) Unit) k := fun _ _ => .setObj (by omega)

theorem Spends.pure {b : β} {k : Nat} : Spends (Pure.pure b : M (Obj V α) β) k := fun _ _ => .pure (by omega)

theorem Spends.ite {c : Prop} [Decidable c] {m m' : M (Obj V α) β} {k : Nat} (h : c → Spends m k) (h' : ¬c → Spends m' k) :
    Spends (if c then m else m') k := by
  intro v t
  exact .ite (fun hc => h hc v t) fun hc => h' hc v t

theorem Spends.rethrow {m : M (Obj V α) β} {h : Exn → M (Obj V α) γ} {k : Nat} (hm : Spends m k) (hh : ∀ e, Spends (h e) 0) :
    Spends (M.tryCatch m fun e => h e >>= fun _ => M.throw e) k :=
  fun v t => .tryCatch ((hm v t).mono (fun _ _ _ h => h) fun v' t' hle e =>
    .bind ((hh e v' t').mono (fun _ _ _ h => .throw (by omega)) fun _ _ h => by omega))

theorem Spends.onThis {m : M (Obj V α) β} {k : Nat} (h : Spends m k) : Spends (Sfl.onThis m : M (Obj (V × W) α) β) k :=
  fun v t => .onThis ((h v.1 t).mono (fun _ _ _ h => h) fun _ _ h => h)

theorem Spends.onLocal {m : M (Obj W α) β} {w : W} {k : Nat} (h : Spends m k) : Spends (Sfl.onLocal w m : M (Obj V α) (β × W)) k :=
  fun _ t => .onLocal ((h w t).mono (fun _ _ _ h => h) fun _ _ h => h)

theorem Spends.run {m : M (Obj V α) γ} {b : γ} (hb : ∀ s, m s = .ok b s) {f : γ → M (Obj V α) β} {k : Nat} (h : Spends (f b) k) :
    Spends (m >>= f) k := fun v t => vcost.run hb (h v t)

theorem Spends.throw {e : Exn} {k : Nat} : Spends (M.throw e : M (Obj V α) β) k := fun _ _ => .throw (by omega)

theorem Spends.fin {m : M (Obj V α) β} {k : Nat} (h : Spends m k) {o o' : Obj V α} (e : (m o).final = some o') : o'.m.tick ≤ o.m.tick + k :=
  vcost.fin (P := fun _ t' => t' ≤ o.m.tick + k) (h _ _) e

namespace Seg
open SegVec (Fit)

/-- A source of `n` elements. -/
inductive Offers (N : Nat) : From α → Nat → Prop
  | list (ra : Bool) (as : List (Arg α)) : Offers N (.list ra as) as.length
  | seg {V : View} {t : Table} (mk : Ptr → Arg α) {x y : Nat} (h : Fit V t) (hN : V.N = N) (hxy : x ≤ y) (hy : y ≤ V.size) :
      Offers N (.seg t mk (V.it x) (V.it y)) (y - x)

variable {N n : Nat} {src : From α} (h : Offers N src n)
include h

theorem Offers.dist {σ : Type} (s : σ) : src.dist N s = .ok n s := by
  cases h with
  | list ra as => rfl
  | seg mk h hN hxy hy =>
    have := View.dist_run h.tab h.npos hxy (h.lt hy) s
    rw [hN] at this
    exact this

theorem Offers.split {k : Nat} (hk : k ≤ n) {σ : Type} :
    ∃ lo hi, (∀ s : σ, src.split N k s = .ok (lo, hi) s) ∧ Offers N lo k ∧ Offers N hi (n - k) := by
  cases h with
  | list ra as =>
    refine ⟨_, _, fun s => rfl, ?_, ?_⟩
    · have := Offers.list (N := N) ra (as.take k)
      rwa [List.length_take, Nat.min_eq_left hk] at this
    · have := Offers.list (N := N) ra (as.drop k)
      rwa [List.length_drop] at this
  | @seg V t mk x y h hN hxy hy =>
    refine ⟨.seg t mk (V.it x) (V.it (x + k)), .seg t mk (V.it (x + k)) (V.it y), fun s => ?_, ?_, ?_⟩
    · have := View.advance_run (n := (k : Int)) h.tab h.npos (p := x) (q := x + k) (h.lt (by omega)) (h.lt (by omega)) (by simp) s
      rw [hN] at this
      simp only [From.split]
      rw [bind_run this]
      rfl
    · have := Offers.seg mk h hN (x := x) (y := x + k) (by omega) (by omega)
      rwa [Nat.add_sub_cancel_left] at this
    · have := Offers.seg mk h hN (x := x + k) (y := y) (by omega) hy
      rwa [show y - (x + k) = y - x - k by omega] at this

theorem Offers.assign {t : Table} {d : SIt} : Pays (src.assign E N t d) n := by
  cases h with
  | list ra as => exact From.assignList_pays
  | seg mk h hN hxy hy => subst hN; exact assignSeg_pays h hxy hy

theorem Offers.uninit {t : Table} {d : SIt} : Pays (src.uninit E N t d) n := by
  cases h with
  | list ra as => exact From.uninitList_pays
  | seg mk h hN hxy hy => subst hN; exact uninitSeg_pays h hxy hy

omit h in
theorem gather_spends {t : Table} {f : List Ptr → M (Obj V α) β} {k : Nat} : ∀ {n : Nat} {it : SIt} {g : List Ptr → List Ptr},
    (∀ ps, ps.length = n → Spends (f (g ps)) k) → Spends (gather N t n it >>= fun ps => f (g ps)) k := by
  intro n
  induction n with
  | zero => intro it g h; exact h [] rfl
  | succ n ih =>
    intro it g h
    unfold gather
    simp only [M.bind_assoc]
    refine .then fun it' => ?_
    exact ih (g := fun ps => g (it.loc :: ps)) fun ps hps => h _ (by simp [hps])

end Seg

/-- The price of containers keeping their elements in segments: an operation for each element and for each segment, the tables, and
the storage of a temporary container. Taking over storage needs new storage for the container that gives its storage away. -/
def segPrice : Price := ⟨2, 4, fun _ => 2, fun _ _ => 0⟩

theorem segs_le_self {n N : Nat} : n / N ≤ n := Nat.div_le_self _ _

theorem div_sub_le {n k N : Nat} : (n - k) / N ≤ n / N := Nat.div_le_div_right (Nat.sub_le _ _)

namespace SegVec
open Seg (Offers)
variable {N n k : Nat}

theorem allocateStorage_cost : Spends (allocateStorage E N n) (n / N + 2) := by
  unfold allocateStorage
  refine .ite (fun _ => .throw) fun _ => ?_
  dsimp only
  refine .get fun v => (Spends.bind (k := 1) (k' := n / N + 1) (.pays fun _ => ?_) fun p => ?_).mono (by omega)
  · exact .allocate (fun _ _ _ h => h) (Nat.le_refl _)
  · refine (Spends.bind (k := 0) (k' := n / N + 1) .set fun _ => ?_).mono (by omega)
    refine .rethrow ?_ fun _ => onTab_cost Seg.deallocTable_cost
    exact Spends.bind (k := n / N + 1) (k' := 0) (onTab_cost Seg.allocSegs_cost) fun _ => .get fun _ => .then fun _ => .then fun _ =>
      .then fun _ => .set

theorem deallocateStorage_cost : Spends (deallocateStorage N : SM α Unit) 0 := by
  unfold deallocateStorage
  exact .get fun _ => .bind (k := 0) (k' := 0) (onTab_cost Seg.deallocSegs_cost) fun _ => .then fun _ => onTab_cost Seg.deallocTable_cost

theorem clear_cost : Spends (clear N : SM α Unit) 0 := by
  unfold clear
  exact .get fun _ => .bind (k := 0) (k' := 0) (.pays Seg.destroy_pays) fun _ => .set

theorem destructor_cost : Spends (destructor N : SM α Unit) 0 := by
  unfold destructor
  exact .get fun _ => .bind (k := 0) (k' := 0) (.pays Seg.destroy_pays) fun _ => deallocateStorage_cost

theorem giveUp_cost : Spends (giveUp N : SM α Unit) 0 := by
  unfold giveUp
  exact .bind (k := 0) (k' := 0) clear_cost fun _ => .bind (k := 0) (k' := 0) deallocateStorage_cost fun _ => .get fun _ => .set

theorem initUsing_cost {alg : Table → SIt → M (St α) SIt} (h : ∀ t d, Pays (alg t d) k) : Spends (initUsing E N n alg) (n / N + 2 + k) := by
  unfold initUsing
  refine .bind allocateStorage_cost fun _ => .rethrow ?_ fun _ => deallocateStorage_cost
  exact .get fun v => .bind (k := k) (k' := 0) (.pays (h _ _)) fun _ => .set

theorem initRangeInput_cost {ys : List α} : Spends (initRangeInput E N ys) (4 * ys.length + 2) := by
  unfold initRangeInput
  refine (Spends.bind (k := 0 / N + 2) (k' := 4 * ys.length) allocateStorage_cost fun _ => ?_).mono (by simp; omega)
  have := emplaceBackAll_cost (E := E) (N := N) (as := ys.map .val)
  rw [List.length_map] at this
  have e : (fun e => do clear N; deallocateStorage N; M.throw e : Exn → SM α Unit)
      = fun e => (do clear N; deallocateStorage N : SM α Unit) >>= fun _ => M.throw e := by
    funext e; rw [M.bind_assoc]
  rw [e]
  exact .rethrow this fun _ => .bind (k := 0) (k' := 0) clear_cost fun _ => deallocateStorage_cost

theorem assignRange_cost {src : Seg.From α} (h : Offers N src n) : Spends (assignRange E N src) (n + n / N + 2) := by
  have hz := Nat.zero_le (n / N)
  unfold assignRange
  refine .run (fun s => h.dist s) ?_
  have : Still (SegVec.size N : SM α Nat) := by unfold SegVec.size; infer_instance
  have : Still (SegVec.capacity N : SM α Nat) := by unfold SegVec.capacity; infer_instance
  refine .then fun sz => .ite (fun _ => ?_) fun hsz => ?_
  · refine .get fun v => (Spends.bind (k := n) (k' := 0) (.pays h.assign) fun _ => ?_).mono (by omega)
    exact .bind (k := 0) (k' := 0) (.pays Seg.destroy_pays) fun _ => .set
  · have ht : Spends (assignRangeTail E N src sz) n := by
      unfold assignRangeTail
      obtain ⟨lo, hi, h1, h2, h3⟩ := h.split (k := sz) (by omega) (σ := Obj SVec α)
      refine .get fun v => .run h1 ?_
      exact (Spends.bind (k := sz) (k' := n - sz) (.pays h2.assign) fun _ => .bind (k := n - sz) (k' := 0) (.pays h3.uninit) fun _ =>
        .set).mono (by omega)
    refine .then fun cap => .ite (fun _ => ?_) fun _ => ?_
    · refine (Spends.bind (k := (n - cap) / N + 2) (k' := n) growStorage_cost fun _ => ht).mono ?_
      have := div_sub_le (n := n) (k := cap) (N := N)
      omega
    · exact (ht.mono (k' := n + n / N + 2) (by omega) : Spends _ _)

theorem initCopy_cost {w : SVec} (h : Offers N (.seg w.tab .ref w.first w.last : Seg.From α) n) : Spends (initCopy E N w) (2 * n + 4) := by
  unfold initCopy
  refine .run (fun s => h.dist s) ((initUsing_cost fun _ _ => h.uninit).mono ?_)
  have := segs_le_self (n := n) (N := N)
  omega

theorem initMove_cost {v w : SVec} {t : Nat} (h : Offers N (.seg w.tab .mv w.first w.last : Seg.From α) n) :
    vcost (initMove E N) (fun _ _ t' => t' ≤ t + if v.alloc = w.alloc then 2 else 2 * n + 4)
      (fun _ t' => t' ≤ t + if v.alloc = w.alloc then 2 else 2 * n + 4) (v, w) t := by
  unfold initMove
  refine .bind (.getObj (.ite (fun ha => ?_) fun ha => ?_))
  · dsimp only at ha
    rw [if_pos ha]
    refine (Spends.bind (k := 2) (k' := 0) (Spends.onThis (allocateStorage_cost.mono (by simp))) fun _ => .get fun _ => .set) _ _
  · dsimp only at ha ⊢
    rw [if_neg ha]
    refine (Spends.run (fun s => h.dist s) (Spends.onThis ((initUsing_cost fun _ _ => h.uninit).mono ?_))) _ _
    have := segs_le_self (n := n) (N := N)
    omega

theorem assignCopy_cost {w : SVec} (h : Offers N (.seg w.tab .ref w.first w.last : Seg.From α) n) :
    Spends (assignCopy E N T w) (2 * n + 4) := by
  have hr : Spends (assignRange E N (.seg w.tab .ref w.first w.last)) (2 * n + 2) := by
    have := segs_le_self (n := n) (N := N)
    exact (assignRange_cost h).mono (by omega)
  have h1 : Spends (do let v ← Sfl.getObj; Sfl.setObj { v with alloc := w.alloc }; assignRange E N (.seg w.tab .ref w.first w.last))
      (2 * n + 2) := .get fun _ => (Spends.bind (k := 0) .set fun _ => hr).mono (by omega)
  unfold assignCopy
  refine .ite (fun _ => .get fun v => .ite (fun _ => ?_) fun _ => h1.mono (by omega)) fun _ => hr.mono (by omega)
  refine (Spends.bind (k := 2) (k' := 2 * n + 2) (Spends.onLocal (allocateStorage_cost.mono (by simp))) fun b => ?_).mono (by omega)
  obtain ⟨-, temp⟩ := b
  refine (Spends.bind (k := 0) giveUp_cost fun _ => .get fun _ => Spends.bind (k := 0) .set fun _ => Spends.bind (k := 0)
    (Spends.onLocal destructor_cost) fun _ => h1).mono (by omega)

theorem assignMoved_cost {w : SVec} (h : Offers N (.seg w.tab .mv w.first w.last : Seg.From α) n) : Spends (assignMoved E N w) (2 * n + 2) := by
  unfold assignMoved
  refine .run (fun s => h.dist s) (Seg.gather_spends (g := id) (f := fun ps => assignRange E N (.list true (ps.map .mv))) fun ps hps => ?_)
  have := Offers.list (N := N) true (ps.map (Arg.mv : Ptr → Arg α))
  rw [List.length_map, hps] at this
  have e := segs_le_self (n := n) (N := N)
  exact (assignRange_cost this).mono (by omega)

theorem assignMove_cost {v w : SVec} {t : Nat} (h : Offers N (.seg w.tab .mv w.first w.last : Seg.From α) n) :
    vcost (assignMove E N T) (fun _ _ t' => t' ≤ t + if v.alloc = w.alloc then 2 else 2 * n + 4)
      (fun _ t' => t' ≤ t + if v.alloc = w.alloc then 2 else 2 * n + 4) (v, w) t := by
  unfold assignMove
  refine .bind (.getObj (.ite (fun ha => ?_) fun ha => ?_))
  · dsimp only at ha
    rw [if_pos ha]
    refine Spends.bind (k := 2) (k' := 0) (Spends.onLocal (allocateStorage_cost.mono (by simp))) (fun b => ?_) _ _
    refine Spends.bind (k := 0) (k' := 0) giveUp_cost.onThis fun _ => .get fun o => Spends.bind (k := 0) (k' := 0) .set fun _ => ?_
    refine .ite (fun _ => .get fun _ => Spends.bind (k := 0) (k' := 0) .set fun _ => ?_) fun _ => ?_ <;>
      exact Spends.bind (k := 0) (k' := 0) (Spends.onLocal destructor_cost) fun _ => .pure
  · dsimp only at ha ⊢
    rw [if_neg ha]
    refine .ite (fun _ => ?_) fun _ => ((assignMoved_cost h).onThis.mono (by omega) : Spends _ _) _ _
    refine .bind (.onLocal ((allocateStorage_cost (n := 0) _ _).mono (fun _ temp t1 h1 => ?_) fun _ t1 h1 => ?_))
    · refine .bind (.onThis ((giveUp_cost _ _).mono (fun _ v2 t2 h2 => ?_) fun _ _ h2 => ?_))
      · refine .bind (.getObj (.bind (.setObj ?_)))
        refine Spends.bind (k := 2 * n + 2) (k' := 0) (.rethrow (assignMoved_cost h).onThis fun _ => .onLocal destructor_cost)
          (fun _ => Spends.bind (k := 0) (k' := 0) (Spends.onLocal destructor_cost) fun _ => .pure) _ _ |>.mono ?_ ?_
        · intro _ _ _ h3; simp at h1; omega
        · intro _ _ h3; simp at h1; omega
      · simp at h1; omega
    · simp at h1; omega

theorem swap_cost : Spends (swap T : M (Obj (SVec × SVec) α) Unit) 0 := by
  unfold swap
  refine .get fun o => .then fun _ => .ite (fun _ => Spends.bind (k := 0) (k' := 0) .set fun _ => ?_) fun _ => ?_ <;>
    exact .get fun _ => .set

variable {K : Nat} {ra : Sq.Op α → Bool} {rai : Sq.Init α → Bool}

theorem rep_offers {i : Fin K} {m : St α} {w : SVec} {al : Nat} {xs : List α} {F : Foot} (mk : Ptr → Arg α)
    (h : (rep K N).rep i m w al xs F) : w.alloc = al ∧ Offers N (.seg w.tab mk w.first w.last) xs.length := by
  obtain ⟨V, tcap, h, -⟩ := h
  have e1 := h.first_eq
  have e2 := h.last_eq
  have e3 := h.obj
  dsimp only at e1 e2 e3
  refine ⟨by rw [e3]; rfl, ?_⟩
  rw [e1, e2]
  exact Offers.seg mk (x := 0) (y := xs.length) h.fit h.num (Nat.zero_le _) h.len

/-- segmented_vector keeps to its prices. -/
theorem priced {S : Sem (Sq.Op α) (Sq.Init α) α Nat} (hS : S.takes = false) : Priced (cont K E N T ra rai) S (rep K N) segPrice where
  copy := fun _ _ hr ho => (initCopy_cost (rep_offers .ref hr).2).fin ho
  move := by
    intro i j m al w al2 xs F o' _ _ hr ho
    obtain ⟨rfl, h⟩ := rep_offers .mv hr
    exact vcost.fin (o := ⟨_, m⟩) (P := fun _ t' => t' ≤ m.tick + if al = w.alloc then 2 else 2 * xs.length + 4)
      (initMove_cost (v := blank al) h) ho
  destroy := fun _ _ ho => destructor_cost.fin ho
  assignCopy := fun _ _ hr _ ho => (assignCopy_cost (rep_offers .ref hr).2).fin ho
  assignMove := by
    intro i j m v al xs F w al2 xs2 F2 o' _ hr hr2 _ ho
    obtain ⟨rfl, -⟩ := rep_offers .mv hr
    obtain ⟨rfl, h⟩ := rep_offers .mv hr2
    rw [hS]
    simp only [Bool.false_eq_true, false_or]
    exact vcost.fin (o := ⟨_, m⟩) (P := fun _ t' => t' ≤ m.tick + if v.alloc = w.alloc then 2 else 2 * xs2.length + 4)
      (assignMove_cost h) ho
  swap := fun _ _ _ _ ho => swap_cost.fin ho

theorem made : World.Made (cont K E N T ra rai) segPrice (fun init => init.work (2 * ·) E.dflt) := by
  intro i m al init o' ho
  refine Spends.fin (o := ⟨_, m⟩) (m := construct' E N (rai init) init) (k := 2 * init.work (2 * ·) E.dflt + 4) ?_ ho
  have hw : ∀ {n : Nat} {alg : Table → SIt → M (St α) SIt}, (∀ t d, Pays (alg t d) n) → Spends (initUsing E N n alg) (2 * n + 4) :=
    fun {n alg} h => (initUsing_cost h).mono (by have := segs_le_self (n := n) (N := N); omega)
  cases init <;> simp only [construct']
  case empty => exact (allocateStorage_cost (n := 0)).mono (by simp)
  case count k => exact (hw (n := k) fun _ _ => Seg.uninitFillN_pays).mono (by simp [Sq.Init.work, Sq.Init.result])
  case fill k x => exact (hw (n := k) fun _ _ => Seg.uninitFillN_pays).mono (by simp [Sq.Init.work, Sq.Init.result])
  case range ys =>
    refine (hw (n := ys.length) fun t d => ?_).mono (by simp [Sq.Init.work, Sq.Init.result])
    have := Seg.From.uninitList_pays (E := E) (N := N) (ra := rai (.range ys)) (as := ys.map .val) (t := t) (d := d)
    rw [List.length_map] at this
    exact this
  case input ys => exact initRangeInput_cost.mono (by simp only [Sq.Init.work]; omega)

end SegVec

end Sfl
