import Verif.CostSegDev2
import Verif.CostSeg2
import Verif.SegDevWorld
/-
  What the modifiers of segmented_devector cost and how many segments they leave. Proof machinery: no code is modelled in this file.
-/

set_option linter.unusedSimpArgs false
set_option linter.unusedSectionVars false

namespace Sfl.SegDev
open SegVec (Fit)
variable {α β γ : Type} {E : Env α} {N n : Nat}

/-! ### Growing -/

theorem onTab_keeps {m : Seg.TM α β} {v : SDVec} {t : Nat} :
    vcost (onTab m) (fun _ v' _ => ∃ T, v' = { v with tab := T }) (fun v' _ => ∃ T, v' = { v with tab := T }) v t := by
  intro o hv ht
  subst hv
  unfold onTab
  cases e : m ⟨o.obj.tab, o.m⟩ with
  | ok b o' => exact ⟨_, rfl⟩
  | exn e' o' => exact ⟨_, rfl⟩
  | ub r => trivial

theorem _root_.Sfl.vcost.shift {V : Type} {p : Ptr} {k : Int} {f : Ptr → M (Obj V α) β} {Q : β → V → Nat → Prop} {X : V → Nat → Prop} {v : V} {t : Nat}
    (h : ∀ q : Ptr, (q.off : Int) = p.off + k → vcost (f q) Q X v t) : vcost (Seg.shift p k >>= f) Q X v t := by
  refine .bind ?_
  intro o hv ht
  unfold Seg.shift
  by_cases hk : 0 ≤ (p.off : Int) + k
  · rw [if_pos hk]
    subst hv ht
    exact h ⟨p.blk, ((p.off : Int) + k).toNat⟩ (by dsimp only; omega)
  · rw [if_neg hk]
    trivial

theorem copyTableBack_off {V : Type} {T : Table} {p : Ptr} {v : V} {t : Nat} : ∀ {n : Nat} {T' : Table} {q : Ptr},
    vcost (Seg.copyTableBack T n p T' q : M (Obj V α) _) (fun r v' t' => v' = v ∧ t' = t ∧ r.2.off + n = q.off) (fun _ _ => False) v t := by
  intro n
  induction n with
  | zero => intro T' q; exact .pure ⟨rfl, rfl, rfl⟩
  | succ n ih =>
    intro T' q
    refine .bind (.still fun b => ?_)
    refine vcost.shift fun q' hq => .bind (.still fun T'' => ?_)
    exact ih.mono (fun r v' t' h => ⟨h.1, h.2.1, by omega⟩) fun _ _ h => h

/-- How the slots in use are copied: as many as there are. -/
def Copies (c : SDVec → Ptr → DM α (Table × Ptr × Ptr)) : Prop :=
  ∀ v p t, vcost (c v p) (fun r v' t' => v' = v ∧ t' = t ∧ r.2.2.off - r.2.1.off ≤ nseg v) (fun _ _ => False) v t

theorem copyFront_copies {c : Nat} : Copies (α := α) (copyFront c) := by
  intro v p t
  refine .bind (.still fun k => .shift fun q hq => .bind (.distance fun _ hd => .bind (copyTableBack_off.mono ?_ fun _ _ h => h.elim)))
  rintro ⟨T, q'⟩ v' t' ⟨rfl, rfl, h⟩
  exact .pure ⟨rfl, rfl, by dsimp only at h ⊢; unfold nseg; omega⟩

theorem copyBack_copies {c : Nat} : Copies (α := α) (copyBack c) := by
  intro v p t
  refine .bind (.still fun k => .bind (.distance fun _ hd => .bind (.still fun T => .pure ⟨rfl, rfl, ?_⟩)))
  simp only [Ptr.add_off]
  unfold nseg
  omega

theorem replaceTable_nseg {c : SDVec → Ptr → DM α (Table × Ptr × Ptr)} (hc : Copies c) {v : SDVec} {t : Nat} :
    vcost (replaceTable E n c) (fun _ v' _ => nseg v' ≤ nseg v) (fun v' _ => nseg v' ≤ nseg v) v t := by
  unfold replaceTable
  refine .bind (.getObj (.bind (.still fun _ => .bind (.still fun _ => .bind (.still fun _ => .bind (.lift (.allocate (fun b t' h1 h2 =>
    .bind ((hc v _ t').mono ?_ fun _ _ h => h.elim)) (Nat.le_refl _))))))))
  rintro ⟨T, p, q⟩ v' t'' ⟨rfl, rfl, h⟩
  refine .bind (onTab_keeps.mono ?_ ?_)
  · rintro _ v1 t1 ⟨T1, rfl⟩
    exact .bind (.still fun e => .setObj h)
  · rintro v1 t1 ⟨T1, rfl⟩
    exact Nat.le_refl _

theorem growTableFront_nseg {v : SDVec} {t : Nat} :
    vcost (growTableFront E n) (fun _ v' _ => nseg v' ≤ nseg v) (fun v' _ => nseg v' ≤ nseg v) v t :=
  .bind (.getObj (.bind (.still fun _ => .ite (fun _ => .bind (.still fun _ => replaceTable_nseg copyFront_copies))
    fun _ => .pure (Nat.le_refl _))))

theorem growTableBack_nseg {v : SDVec} {t : Nat} :
    vcost (growTableBack E n) (fun _ v' _ => nseg v' ≤ nseg v) (fun v' _ => nseg v' ≤ nseg v) v t :=
  .bind (.getObj (.bind (.still fun _ => .ite (fun _ => .bind (.still fun _ => replaceTable_nseg copyBack_copies))
    fun _ => .pure (Nat.le_refl _))))

theorem growStorageBack_nseg {v : SDVec} {t : Nat} : vcost (growStorageBack E N n)
    (fun _ v' t' => nseg v' ≤ nseg v + (n / N + 1) ∧ t' ≤ t + (n / N + 2)) (fun v' t' => nseg v' ≤ nseg v ∧ t' ≤ t + (n / N + 2)) v t := by
  refine .and ?_ (growStorageBack_cost v t)
  refine .bind (.bind (.getObj (.still fun _ => .ite (fun _ => .throw (Nat.le_refl _)) fun _ => .bind ?_)))
  refine growTableBack_nseg.mono (fun _ v1 t1 h1 => .bind (.getObj (.bind (onTab_keeps.mono ?_ ?_)))) fun _ _ h => h
  · rintro _ v2 t2 ⟨T, rfl⟩
    refine .bind (.getObj (.bind (.still fun _ => .bind (.still fun _ => .setObj ?_))))
    unfold nseg at *
    simp only [Ptr.add_off]
    generalize n / N = q
    omega
  · rintro v2 t2 ⟨T, rfl⟩
    exact h1

theorem growStorageFront_nseg {v : SDVec} {t : Nat} : vcost (growStorageFront E N n)
    (fun _ v' t' => nseg v' ≤ nseg v + (n / N + 1) ∧ t' ≤ t + (n / N + 2)) (fun v' t' => nseg v' ≤ nseg v ∧ t' ≤ t + (n / N + 2)) v t := by
  refine .and ?_ (growStorageFront_cost v t)
  have hr : n / N + (if n % N = 0 then 0 else 1) ≤ n / N + 1 := by split <;> omega
  refine .bind (.bind (.getObj (.still fun _ => .ite (fun _ => .throw (Nat.le_refl _)) fun _ => .bind ?_)))
  refine growTableFront_nseg.mono (fun _ v1 t1 h1 => .bind (.getObj (.shift fun p hp => .bind (onTab_keeps.mono ?_ ?_)))) fun _ _ h => h
  · rintro _ v2 t2 ⟨T, rfl⟩
    refine .bind (.getObj (.bind (.still fun _ => .setObj ?_)))
    unfold nseg at *
    dsimp only
    generalize (n / N + if n % N = 0 then 0 else 1) = r at hr hp
    generalize n / N = q at hr ⊢
    omega
  · rintro v2 t2 ⟨T, rfl⟩
    exact h1

/-! ### Where a modifier ends -/

/-- However `m` ends, there are at most `S` segments and the counter is at most `W`. -/
def Ends (m : DM α β) (S W : Nat) (o : Obj SDVec α) : Prop := ∀ o', (m o).final = some o' → nseg o'.obj ≤ S ∧ o'.m.tick ≤ W

variable {H : Heap α} {o : Obj SDVec α} {al tcap f S W : Nat} {V : View} {xs : List α}

theorem Ends.mono {m : DM α β} {S' W' : Nat} (h : Ends m S W o) (hS : S ≤ S') (hW : W ≤ W') : Ends m S' W' o := fun o' hx => by
  have := h o' hx
  omega

theorem Ends.tail {m : DM α β} {k : Nat} (h : Tail m k o.obj) : Ends m (nseg o.obj) (o.m.tick + k) o := by
  intro o' hx
  have h := h o.m.tick o rfl rfl
  cases e : m o with
  | ok b s => rw [e] at h hx; cases hx; exact ⟨Nat.le_of_eq h.1.nseg, h.2⟩
  | exn b s => rw [e] at h hx; cases hx; exact ⟨Nat.le_of_eq h.1.nseg, h.2⟩
  | ub r => rw [e] at hx; cases hx

theorem Ends.tailTo {m : DM α β} {k : Nat} (h : Tail m k o.obj) (hS : nseg o.obj ≤ S) (hW : o.m.tick + k ≤ W) : Ends m S W o :=
  (Ends.tail h).mono hS hW

theorem Ends.wp {m : DM α γ} {g : γ → DM α β}
    (h : wp m (fun b o1 => Ends (g b) S W o1) (fun _ o1 => nseg o1.obj ≤ S ∧ o1.m.tick ≤ W) o) : Ends (m >>= g) S W o := by
  intro o' hx
  unfold Sfl.wp at h
  cases e : m o with
  | ok b s =>
    rw [e] at h
    rw [bind_run e] at hx
    exact h o' hx
  | exn b s =>
    rw [e] at h
    rw [bind_apply, e] at hx
    cases hx
    exact h
  | ub r => rw [e] at h; exact h.elim

theorem Ends.run {m : DM α γ} {g : γ → DM α β} {b : γ} (hb : m o = .ok b o) (h : Ends (g b) S W o) : Ends (m >>= g) S W o := by
  intro o' hx
  rw [bind_run hb] at hx
  exact h o' hx

theorem Ends.still {m : DM α γ} [hm : Still m] {g : γ → DM α β} (h : ∀ b, Ends (g b) S W o) : Ends (m >>= g) S W o := by
  intro o' hx
  have hm := hm.run o
  cases e : m o with
  | ok b s =>
    rw [e] at hm
    subst hm
    rw [bind_run e] at hx
    exact h b o' hx
  | exn b s => rw [e] at hm; exact hm.elim
  | ub r => rw [bind_apply, e] at hx; cases hx

theorem Ends.after {m : DM α γ} {g : γ → DM α β} (h : Ends m S W o) [hg : ∀ b, Still (g b)] : Ends (m >>= g) S W o := by
  intro o' hx
  cases e : m o with
  | ok b s =>
    rw [bind_run e] at hx
    have hg := (hg b).run s
    have h := h s (by rw [e]; rfl)
    cases e' : g b s with
    | ok b' s' => rw [e'] at hg hx; subst hg; cases hx; exact h
    | exn b' s' => rw [e'] at hg; exact hg.elim
    | ub r => rw [e'] at hx; cases hx
  | exn b s => rw [bind_apply, e] at hx; exact h o' (by rw [e]; exact hx)
  | ub r => rw [bind_apply, e] at hx; cases hx

theorem Ends.ite {c : Prop} [Decidable c] {m m' : DM α β} (h : c → Ends m S W o) (h' : ¬c → Ends m' S W o) :
    Ends (if c then m else m') S W o := by
  split <;> rename_i hc
  · exact h hc
  · exact h' hc

theorem Ends.pure {b : β} (hS : nseg o.obj ≤ S) (hW : o.m.tick ≤ W) : Ends (pure b : DM α β) S W o := by
  intro o' hx
  cases hx
  exact ⟨hS, hW⟩

theorem DSt.sits (h : DSt H N o al V tcap f xs) : Sits V o.obj f (f + xs.length) where
  fit := h.fit
  first := by rw [h.obj]; rfl
  last := by rw [h.obj]; rfl
  bos := by rw [h.obj]; rfl
  eos := by rw [h.obj]; rfl
  le := by omega
  len := h.len

theorem DSt.nseg_eq (h : DSt H N o al V tcap f xs) : nseg o.obj = V.segs.length := by
  rw [h.obj]
  simp [nseg, View.sdev]

theorem Ends.growBack {g : Unit → DM α β} (h : DSt H N o al V tcap f xs)
    (hf : ∀ o1 V1 tcap1, DSt H N o1 al V1 tcap1 f xs → V.size + n ≤ V1.size → nseg o1.obj ≤ nseg o.obj + (n / N + 1) →
      o1.m.mem = o.m.mem → o1.m.tick ≤ o.m.tick + (n / N + 2) → Ends (g ()) S W o1)
    (hS : nseg o.obj ≤ S) (hW : o.m.tick + (n / N + 2) ≤ W) : Ends (growStorageBack E N n >>= g) S W o := by
  refine .wp (wp_mono (wp_both (growStorageBack_spec (n := n) h) (growStorageBack_nseg (E := E) (N := N) (n := n))) ?_ ?_)
  · rintro _ o1 ⟨⟨V1, tcap1, -, hs, h1, hm⟩, hn, ht⟩
    exact hf o1 V1 tcap1 h1 hs hn hm ht
  · rintro e o1 ⟨-, hn, ht⟩
    omega

theorem Ends.growFront {g : Unit → DM α β} (h : DSt H N o al V tcap f xs)
    (hf : ∀ o1 V1 tcap1 f1, DSt H N o1 al V1 tcap1 f1 xs → f + n ≤ f1 → nseg o1.obj ≤ nseg o.obj + (n / N + 1) →
      o1.m.mem = o.m.mem → o1.m.tick ≤ o.m.tick + (n / N + 2) → Ends (g ()) S W o1)
    (hS : nseg o.obj ≤ S) (hW : o.m.tick + (n / N + 2) ≤ W) : Ends (growStorageFront E N n >>= g) S W o := by
  refine .wp (wp_mono (wp_both (growStorageFront_spec (n := n) h) (growStorageFront_nseg (E := E) (N := N) (n := n))) ?_ ?_)
  · rintro _ o1 ⟨⟨V1, tcap1, d, -, hs, h1, hm⟩, hn, ht⟩
    exact hf o1 V1 tcap1 _ h1 (by omega) hn hm ht
  · rintro e o1 ⟨-, hn, ht⟩
    omega

/-- The segments allocated if `m` slots are missing. -/
def segs (N m : Nat) : Nat := if m = 0 then 0 else m / N + 1

/-- The allocations if `m` slots are missing. -/
def allocs (N m : Nat) : Nat := if m = 0 then 0 else m / N + 2

theorem segs_le {m : Nat} (h : 0 < m) : m / N + 1 ≤ segs N m := by unfold segs; rw [if_neg (by omega)]; exact Nat.le_refl _
theorem allocs_le {m : Nat} (h : 0 < m) : m / N + 2 ≤ allocs N m := by unfold allocs; rw [if_neg (by omega)]; exact Nat.le_refl _

/-- Growing at the back if need be; `L` slots are missing. -/
theorem Ends.needBack {c : Prop} [Decidable c] {g : Unit → DM α β} {w L : Nat} (h : DSt H N o al V tcap f xs) (hc : c → n = L ∧ 0 < L)
    (hc' : ¬c → L = 0)
    (hf : ∀ o1 V1 tcap1, DSt H N o1 al V1 tcap1 f xs → V.size + L ≤ V1.size → o1.m.mem = o.m.mem → Ends (g ()) (nseg o1.obj) (o1.m.tick + w) o1) :
    Ends (if c then growStorageBack E N n >>= g else g ()) (nseg o.obj + segs N L) (o.m.tick + allocs N L + w) o := by
  refine .ite (fun h0 => ?_) fun h0 => ?_
  · obtain ⟨rfl, h0⟩ := hc h0
    have := segs_le (N := N) h0
    have := allocs_le (N := N) h0
    have h9 : 0 ≤ n / N := Nat.zero_le _
    exact .growBack h (fun o1 V1 tcap1 h1 h2 h3 h4 h5 => (hf o1 V1 tcap1 h1 h2 h4).mono (by omega) (by omega)) (by omega) (by omega)
  · obtain rfl := hc' h0
    exact (hf o V tcap h (by omega) rfl).mono (by omega) (by omega)

/-- Growing at the front if need be; `L` slots are missing. -/
theorem Ends.needFront {c : Prop} [Decidable c] {g : Unit → DM α β} {w L : Nat} (h : DSt H N o al V tcap f xs) (hc : c → n = L ∧ 0 < L)
    (hc' : ¬c → L = 0)
    (hf : ∀ o1 V1 tcap1 f1, DSt H N o1 al V1 tcap1 f1 xs → f + L ≤ f1 → o1.m.mem = o.m.mem → Ends (g ()) (nseg o1.obj) (o1.m.tick + w) o1) :
    Ends (if c then growStorageFront E N n >>= g else g ()) (nseg o.obj + segs N L) (o.m.tick + allocs N L + w) o := by
  refine .ite (fun h0 => ?_) fun h0 => ?_
  · obtain ⟨rfl, h0⟩ := hc h0
    have := segs_le (N := N) h0
    have := allocs_le (N := N) h0
    have h9 : 0 ≤ n / N := Nat.zero_le _
    exact .growFront h (fun o1 V1 tcap1 f1 h1 h2 h3 h4 h5 => (hf o1 V1 tcap1 f1 h1 h2 h4).mono (by omega) (by omega)) (by omega) (by omega)
  · obtain rfl := hc' h0
    exact (hf o V tcap f h (by omega) rfl).mono (by omega) (by omega)

end Sfl.SegDev
