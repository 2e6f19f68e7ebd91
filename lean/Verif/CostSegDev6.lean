import Verif.CostSegDev5
import Verif.CostSeg2
import Verif.CostDev5
import Verif.SegDevSpec5
/-
  What a modifier of segmented_devector costs. Proof machinery: no code is modelled in this file.
-/

set_option linter.unusedSimpArgs false
set_option linter.unusedSectionVars false

namespace Sfl.SegDev
open SegVec (Fit)
variable {α β γ : Type} {E : Env α} {N n : Nat} {H : Heap α} {o : Obj SDVec α} {al tcap f S W k : Nat} {V : View} {xs : List α} {a : Arg α}

theorem wp_ends {m : DM α β} {Q : β → Obj SDVec α → Prop} {X : Exn → Obj SDVec α → Prop} (h : wp m Q X o) (h' : Ends m S W o) :
    wp m (fun b o' => Q b o' ∧ nseg o'.obj ≤ S ∧ o'.m.tick ≤ W) (fun e o' => X e o' ∧ nseg o'.obj ≤ S ∧ o'.m.tick ≤ W) o := by
  unfold wp at *
  cases e : m o with
  | ok b s => rw [e] at h; exact ⟨h, h' s (by rw [e]; rfl)⟩
  | exn b s => rw [e] at h; exact ⟨h, h' s (by rw [e]; rfl)⟩
  | ub r => rw [e] at h; exact h

theorem Ends.of_wp {m : DM α β} (h : Sfl.wp m (fun _ o' => nseg o'.obj ≤ S ∧ o'.m.tick ≤ W) (fun _ o' => nseg o'.obj ≤ S ∧ o'.m.tick ≤ W) o) :
    Ends m S W o := by
  intro o' hx
  unfold Sfl.wp at h
  cases e : m o with
  | ok b s => rw [e] at h hx; cases hx; exact h
  | exn b s => rw [e] at h hx; cases hx; exact h
  | ub r => rw [e] at hx; cases hx

theorem Ends.both {m : DM α β} {W' S' : Nat} (h : Ends m S W' o) (h' : Ends m S' W o) : Ends m S W o :=
  fun o' hx => ⟨(h o' hx).1, (h' o' hx).2⟩

theorem DSt.slots (h : DSt H N o al V tcap f xs) : nseg o.obj * N = V.size + 1 := by
  have h1 := h.size_lt
  have h2 := h.num
  rw [h.nseg_eq, ← h2]
  unfold View.size View.cap at *
  omega

theorem div_mul_le' (m : Nat) : m / N * N ≤ m := Nat.div_mul_le_self m N

theorem emplaceBack_size {v : α} (h : DSt H N o al V tcap f xs) (hv : a.value o.m = some v) (hsrc : a.src E = none) :
    wp (emplaceBack E N a) (fun _ o' => ∃ V' tcap', DSt H N o' al V' tcap' f (xs ++ [v]) ∧ V.size ≤ V'.size) (fun _ _ => True) o := by
  have hlen := h.len
  unfold emplaceBack
  rw [wp_bind, wp_getObj]
  dsimp only
  rw [h.last_eos, wp_ite]
  split
  · rw [wp_bind]
    refine wp_mono (growStorageBack_spec h) ?_ fun _ _ _ => trivial
    rintro _ o1 ⟨V1, tcap1, hsub, hd, h1, hm1⟩
    refine wp_mono (emplaceBackTail_spec h1 (value_congr hm1 hv) hsrc (by omega)) ?_ fun _ _ _ => trivial
    rintro p o2 ⟨h2, rfl⟩
    exact ⟨V1, tcap1, h2, by omega⟩
  · rename_i hc
    refine wp_mono (emplaceBackTail_spec h hv hsrc (by simp at hc; omega)) ?_ fun _ _ _ => trivial
    rintro p o2 ⟨h2, rfl⟩
    exact ⟨V, tcap, h2, Nat.le_refl _⟩

theorem emplaceBackAll_ends {ys : List α} (h : DSt H N o al V tcap f xs) (hS : nseg o.obj ≤ S)
    (hT : V.size < f + xs.length + ys.length → f + xs.length + ys.length + N + 1 < (S + 1) * N) :
    Ends (emplaceBackAll E N (ys.map .val)) S (o.m.tick + 4 * ys.length) o := by
  induction ys generalizing o V tcap xs with
  | nil => exact .pure hS (by omega)
  | cons y ys ih =>
    have hl := h.len
    have hsl := h.slots
    simp only [List.length_cons] at hT
    have e1 : nseg o.obj + segs N (1 - (V.size - (f + xs.length))) ≤ S := by
      by_cases hb : f + xs.length < V.size
      · rw [show 1 - (V.size - (f + xs.length)) = 0 by omega]
        unfold segs
        rw [if_pos rfl]
        omega
      · have := hT (by omega)
        rw [show 1 - (V.size - (f + xs.length)) = 1 by omega]
        unfold segs
        rw [if_neg (by omega)]
        have h1 := div_mul_le' (N := N) 1
        have : (nseg o.obj + (1 / N + 1)) * N < (S + 1) * N := by
          rw [Nat.add_mul, Nat.add_mul (1 / N)]
          generalize 1 / N * N = q at *
          generalize (S + 1) * N = r at *
          omega
        exact Nat.le_of_lt_succ (Nat.lt_of_mul_lt_mul_right this)
    have e2 : allocs N (1 - (V.size - (f + xs.length))) ≤ 3 := by
      unfold allocs
      split
      · omega
      · have : (1 - (V.size - (f + xs.length))) / N ≤ 1 := Nat.le_trans (Nat.div_le_self _ _) (by omega)
        omega
    have hE : Ends (emplaceBack E N (.val y)) S (o.m.tick + 4) o := (emplaceBack_ends h).mono e1 (by omega)
    refine .wp (wp_mono (wp_ends (emplaceBack_size h (a := .val y) (v := y) rfl rfl) hE) ?_ ?_)
    · rintro _ o1 ⟨⟨V1, tcap1, h1, hs1⟩, hn, ht⟩
      refine (ih h1 hn fun hlt => ?_).mono (Nat.le_refl _) (by simp only [List.length_cons]; omega)
      simp only [List.length_append, List.length_singleton] at hlt ⊢
      have := hT (by omega)
      generalize (S + 1) * N = r at *
      omega
    · rintro e o1 ⟨-, hn, ht⟩
      exact ⟨hn, by simp only [List.length_cons]; omega⟩

theorem emplaceBackAll_cost {as : List (Arg α)} : Spends (emplaceBackAll E N as) (4 * as.length) := by
  induction as with
  | nil => intro v t; exact .pure (Nat.le_refl _)
  | cons a as ih =>
    intro v t
    refine .bind (.spends emplaceBack_cost (fun _ v' t' ht => ?_) fun _ _ _ => by simp only [List.length_cons]; omega)
    exact .spends ih (fun _ _ _ _ => by simp only [List.length_cons]; omega) fun _ _ _ => by simp only [List.length_cons]; omega

theorem assignRangeInput_cost {as : List (Arg α)} : Spends (assignRangeInput E N as) (4 * as.length) := by
  intro v t
  refine .bind (.getObj (.bind (.lift (SegVec.assignRangeLoop_cost.mono (fun r t' ht => ?_) fun t' ht => ?_))))
  · obtain ⟨rest, curr⟩ := r
    dsimp only at ht ⊢
    refine .ite (fun _ => .spends emplaceBackAll_cost (fun _ _ _ _ => by omega) fun _ _ _ => by omega) fun _ => ?_
    refine .ite (fun _ => .bind (.lift (SegVec.destroy_cost.mono (fun _ _ h => .setObj (by omega)) fun _ h => h.elim))) fun _ => .pure (by omega)
  · omega

theorem Ends.of_spends {m : DM α β} {k : Nat} (h : Spends m k) (hW : o.m.tick + k ≤ W) :
    ∀ o', (m o).final = some o' → o'.m.tick ≤ W := by
  intro o' hx
  have h := h o.obj o.m.tick o rfl rfl
  cases e : m o with
  | ok b s => rw [e] at h hx; cases hx; exact Nat.le_trans h hW
  | exn b s => rw [e] at h hx; cases hx; exact Nat.le_trans h hW
  | ub r => rw [e] at hx; cases hx

theorem assignRangeInput_ends {ys : List α} (h : DSt H N o al V tcap f xs) : Ends (assignRangeInput E N (ys.map .val))
    (nseg o.obj + segs N (ys.length - (xs.length + (V.size - (f + xs.length))))) (o.m.tick + 4 * ys.length) o := by
  have hl := h.len
  have hsl := h.slots
  have hN : 0 < N := h.num ▸ h.lay.npos
  have hn : ∀ {o1 : Obj SDVec α} {tcap' f' zs}, DSt H N o1 al V tcap' f' zs → nseg o1.obj = nseg o.obj := fun h1 => by
    rw [h1.nseg_eq, h.nseg_eq]
  have hw : wp (assignRangeInput E N (ys.map .val))
      (fun _ o' => nseg o'.obj ≤ nseg o.obj + segs N (ys.length - (xs.length + (V.size - (f + xs.length)))))
      (fun _ o' => nseg o'.obj ≤ nseg o.obj + segs N (ys.length - (xs.length + (V.size - (f + xs.length))))) o := by
    refine assignRangeInput_gen h (fun hlt o1 h1 => ?_) (fun _ o1 h1 => by rw [hn h1]; omega) fun o1 h1 => ?_
    · have key := emplaceBackAll_ends (E := E) (ys := ys.drop xs.length) (S := nseg o.obj + segs N (ys.length - (xs.length + (V.size - (f + xs.length)))))
        h1 (by rw [hn h1]; omega) (fun hx => ?_)
      · refine wp_mono (wp_ends (emplaceBackAll_spec (E := E) (ys := ys.drop xs.length) h1) key) (fun _ _ h => h.2.1) fun _ _ h => h.2.1
      · simp only [List.length_take, List.length_drop] at hx ⊢
        generalize hL : ys.length - (xs.length + (V.size - (f + xs.length))) = L
        unfold segs
        rw [if_neg (by omega)]
        have h1 : L < N * (L / N + 1) := Nat.lt_mul_div_succ L (by omega)
        rw [Nat.mul_comm] at h1
        rw [show nseg o.obj + (L / N + 1) + 1 = nseg o.obj + (L / N + 1) + 1 from rfl, Nat.add_mul, Nat.add_mul, hsl]
        generalize (L / N + 1) * N = q at *
        omega
    · obtain ⟨zs, h1, -⟩ := h1
      rw [hn h1]; omega
  have hs := Ends.of_spends (o := o) (assignRangeInput_cost (E := E) (N := N) (as := ys.map .val)) (Nat.le_refl _)
  intro o' hx
  refine ⟨?_, by have := hs o' hx; simpa using this⟩
  unfold wp at hw
  cases e : assignRangeInput E N (ys.map .val) o with
  | ok b s => rw [e] at hw hx; cases hx; exact hw
  | exn b s => rw [e] at hw hx; cases hx; exact hw
  | ub r => rw [e] at hx; cases hx

theorem insertRangeLoop_ends {ys : List α} (h : DSt H N o al V tcap f xs) (hk : k ≤ xs.length) :
    Ends (insertRangeLoop E N (ys.map .val) (V.it (f + k))) (nseg o.obj + ys.length * (1 / N + 1))
      (o.m.tick + ys.length * (xs.length - k + 5)) o := by
  induction ys generalizing o V tcap f xs k with
  | nil => exact .pure (by simp) (by simp)
  | cons y ys ih =>
    have e1 : ∀ b, segs N (1 - b) ≤ 1 / N + 1 := fun b => by
      unfold segs
      split
      · exact Nat.zero_le _
      · rw [show 1 - b = 1 by omega]; exact Nat.le_refl _
    have e2 : ∀ b, allocs N (1 - b) ≤ 3 := fun b => by
      unfold allocs
      split
      · omega
      · have : (1 - b) / N ≤ 1 := Nat.le_trans (Nat.div_le_self _ _) (by omega)
        omega
    have hE : Ends (emplace E N (V.it (f + k)) (.val y)) (nseg o.obj + (1 / N + 1)) (o.m.tick + (xs.length - k + 5)) o :=
      (emplace_ends h hk).mono (Nat.add_le_add_left (e1 _) _) (by
        have := e2 (if k < xs.length - k then f else V.size - (f + xs.length))
        omega)
    have hS : (ys.length + 1) * (1 / N + 1) = ys.length * (1 / N + 1) + (1 / N + 1) := Nat.succ_mul _ _
    have hT : (ys.length + 1) * (xs.length - k + 5) = ys.length * (xs.length - k + 5) + (xs.length - k + 5) := Nat.succ_mul _ _
    refine .wp (wp_mono (wp_ends (emplace_spec h (a := .val y) (v := y) rfl rfl hk) hE) ?_ ?_)
    · rintro p o1 ⟨⟨V1, tcap1, f1, h1, rfl⟩, hn, ht⟩
      have hlen : (xs.take k ++ [y] ++ xs.drop k).length = xs.length + 1 := by simp; omega
      have h1l := h1.len
      have hN := h1.num
      have hF := h1.fit
      refine .run rfl (.run (b := V1.it (f1 + k + 1)) (by rw [← hN]; exact hF.inc (by omega) _) ?_)
      refine (ih h1 (k := k + 1) (by omega)).mono ?_ ?_
      · simp only [List.length_cons]
        rw [hS]
        omega
      · simp only [List.length_cons]
        rw [hlen, hT, show xs.length + 1 - (k + 1) = xs.length - k by omega]
        omega
    · rintro e o1 ⟨-, hn, ht⟩
      simp only [List.length_cons]
      rw [hS, hT]
      generalize ys.length * (1 / N + 1) = q at *
      generalize ys.length * (xs.length - k + 5) = r at *
      have : 0 ≤ 1 / N := Nat.zero_le _
      omega

instance Still.argOf {s : Sq.Src α} : Still (argOf N s : DM α (Arg α)) := by
  unfold SegDev.argOf
  cases s <;> infer_instance

instance Still.nth {k : Nat} : Still (nth N k : DM α SIt) := by unfold SegDev.nth SegDev.size; infer_instance

instance Still.indexOf {p : SIt} : Still (indexOf N p : DM α (Option Nat)) := by unfold SegDev.indexOf; infer_instance

instance Still.copyShrink {v : SDVec} {p : Ptr} : Still (copyShrink n v p : DM α (Table × Ptr × Ptr)) := by
  unfold SegDev.copyShrink; infer_instance

theorem shrinkStorage_cost : Spends (shrinkStorage E N) 1 := by
  intro v t
  refine .bind (.bind (.getObj (.bind (.spends (onTab_cost Seg.deallocSegs_cost) (fun _ v1 t1 h1 => ?_) fun _ _ _ => by omega))))
  refine .bind (.getObj (.bind (.still fun _ => .setObj (.bind (.bind (.getObj (.bind ?_)))))))
  refine .spends (onTab_cost Seg.deallocSegs_cost) (fun _ v2 t2 h2 => ?_) fun _ _ _ => by omega
  refine .bind (.getObj (.bind (.still fun _ => .bind (.still fun _ => .setObj (.bind (.getObj (.bind (.still fun _ => ?_))))))))
  exact .spends replaceTable_cost (fun _ _ _ _ => by omega) fun _ _ _ => by omega

theorem shrinkStorage_ends (h : DSt H N o al V tcap f xs) : Ends (shrinkStorage E N) (nseg o.obj) (o.m.tick + 1) o := by
  have hN : 0 < N := h.num ▸ h.lay.npos
  have key : ∀ {V' tcap' d f' o'}, Sub V' d V → DSt H N o' al V' tcap' f' xs → nseg o'.obj ≤ nseg o.obj := by
    intro V' tcap' d f' o' hsub h'
    have h1 := h.slots
    have h2 := h'.slots
    have h3 := hsub.size
    refine Nat.le_of_mul_le_mul_right (c := N) ?_ hN
    omega
  refine .of_wp (wp_mono (wp_both (shrinkStorage_spec (E := E) h) (shrinkStorage_cost (E := E) (N := N) o.obj o.m.tick)) ?_ ?_)
  · rintro _ o1 ⟨⟨V', tcap', d, f', -, hsub, h1, -⟩, ht⟩
    exact ⟨key hsub h1, ht⟩
  · rintro e o1 ⟨⟨-, V', tcap', d, f', -, hsub, h1, -⟩, ht⟩
    exact ⟨key hsub h1, ht⟩

/-- What a modifier costs, other than the insertion of an input range. -/
theorem exec_ends {ra : Dq.Op α → Bool} {op : Dq.Op α} (h : DSt H N o al V tcap f xs) (hp : op.pre xs.length = true)
    (hi : op.isInsertInput = false) :
    Ends (exec E N ra op) (nseg o.obj + segs N (op.lack f xs.length (V.size - (f + xs.length))))
      (o.m.tick + allocs N (op.lack f xs.length (V.size - (f + xs.length))) + (4 * op.work xs.length + 2)) o := by
  have hs := h.sits
  have hN := h.num
  cases op with
  | pushFront s => exact .still fun a => .after ((emplaceFront_ends h).mono (Nat.le_refl _) (by simp only [Dq.Op.lack, Dq.Op.work]; omega))
  | pushBack s => exact .still fun a => .after ((emplaceBack_ends h).mono (Nat.le_refl _) (by simp only [Dq.Op.lack, Dq.Op.work]; omega))
  | emplace k s =>
    have hk : k ≤ xs.length := by simp [Dq.Op.pre] at hp; exact hp.1
    refine .still fun a => .run (h.nth_run hk) (.after ((emplace_ends h hk).mono (Nat.le_refl _) ?_))
    simp only [Dq.Op.lack, Dq.Op.work]; omega
  | insertN k m s =>
    obtain ⟨hk, hsok⟩ : k ≤ xs.length ∧ s.ok xs.length = true := by simpa [Dq.Op.pre] using hp
    refine .wp (wp_argOf (E := E) h hsok fun a v _ hv hsrc => .run (h.nth_run hk) (.after ((insertFillN_ends h hv hsrc hk).mono (Nat.le_refl _) ?_)))
    simp only [Dq.Op.lack, Dq.Op.work]; omega
  | insertRange k ys =>
    have hk : k ≤ xs.length := by simpa [Dq.Op.pre] using hp
    refine .run (h.nth_run hk) (.after ((insertRange_ends h hk).mono (Nat.le_refl _) ?_))
    simp only [Dq.Op.lack, Dq.Op.work]; omega
  | insertInput k ys => simp [Dq.Op.isInsertInput] at hi
  | popFront =>
    refine .after (.tailTo (k := 0) ?_ (by omega) (by omega))
    exact .get (.still fun _ => .spend pays_destroyAt (Nat.le_refl _) fun _ => .still fun _ => .setEnd ⟨_, _, rfl⟩)
  | popBack =>
    refine .after (.tailTo (k := 0) ?_ (by omega) (by omega))
    exact .get (.still fun _ => .still fun _ => .set ⟨_, _, rfl⟩ (.paysEnd pays_destroyAt))
  | eraseAt k =>
    have hk : k < xs.length := by simpa [Dq.Op.pre] using hp
    refine .run (h.nth_run (by omega)) (.after (.tailTo (k := min k (xs.length - k)) ?_ (by omega) (by simp only [Dq.Op.work]; omega)))
    have := eraseAt_tail (E := E) hs (k := k) (by omega)
    rw [hN, show f + xs.length - (f + k) = xs.length - k by omega] at this
    exact this
  | eraseRange k l =>
    obtain ⟨hk, hl⟩ : k ≤ l ∧ l ≤ xs.length := by simpa [Dq.Op.pre] using hp
    refine .run (h.nth_run (by omega)) (.run (h.nth_run (by omega))
      (.after (.tailTo (k := min k (xs.length - l)) ?_ (by omega) (by simp only [Dq.Op.work]; omega))))
    have := eraseRange_tail (E := E) hs hk (j := l) (by omega)
    rw [hN, show f + xs.length - (f + l) = xs.length - l by omega] at this
    exact this
  | resize m => exact .after ((resizeWith_ends h).mono (Nat.le_refl _) (by simp only [Dq.Op.lack, Dq.Op.work]; omega))
  | resizeV m s => exact .still fun a => .after ((resizeWith_ends h).mono (Nat.le_refl _) (by simp only [Dq.Op.lack, Dq.Op.work]; omega))
  | resizeFront m => exact .after ((resizeFrontWith_ends h).mono (Nat.le_refl _) (by simp only [Dq.Op.lack, Dq.Op.work]; omega))
  | resizeFrontV m s => exact .still fun a => .after ((resizeFrontWith_ends h).mono (Nat.le_refl _) (by simp only [Dq.Op.lack, Dq.Op.work]; omega))
  | resizeBack m => exact .after ((resizeBackWith_ends h).mono (Nat.le_refl _) (by simp only [Dq.Op.lack, Dq.Op.work]; omega))
  | resizeBackV m s => exact .still fun a => .after ((resizeBackWith_ends h).mono (Nat.le_refl _) (by simp only [Dq.Op.lack, Dq.Op.work]; omega))
  | assignN m v => exact .after ((assignFillN_ends h).mono (Nat.le_refl _) (by simp only [Dq.Op.lack, Dq.Op.work]; omega))
  | assignRange ys =>
    have := assignRange_ends (E := E) (ra := ra (.assignRange ys)) (as := ys.map .val) h
    rw [List.length_map] at this
    exact .after (this.mono (Nat.le_refl _) (by simp only [Dq.Op.lack, Dq.Op.work]; omega))
  | assignInput ys => exact .after ((assignRangeInput_ends h).mono (Nat.le_refl _) (by simp only [Dq.Op.lack, Dq.Op.work]; omega))
  | clear =>
    refine .after (.tailTo (k := 0) ?_ (by omega) (by omega))
    exact .get (.pays (k := 0) (k' := 0) Seg.destroy_pays fun _ => .setEnd ⟨_, _, rfl⟩)
  | reserveFront m => exact .after ((reserveFront_ends h).mono (Nat.le_refl _) (by simp only [Dq.Op.lack, Dq.Op.work]; omega))
  | reserveBack m => exact .after ((reserveBack_ends h).mono (Nat.le_refl _) (by simp only [Dq.Op.lack, Dq.Op.work]; omega))
  | shrinkToFit => exact .after ((shrinkStorage_ends h).mono (by omega) (by simp only [Dq.Op.lack, Dq.Op.work]; omega))
  | eraseIf g =>
    refine .after (.tailTo (k := xs.length) ?_ (by omega) (by simp only [Dq.Op.lack, Dq.Op.work]; omega))
    have := eraseIf_tail (E := E) (g := g) hs
    rw [hN, Nat.add_sub_cancel_left] at this
    exact this

/-- The insertion of a range of input iterators. -/
theorem exec_insertInput_ends {ra : Dq.Op α → Bool} {ys : List α} (h : DSt H N o al V tcap f xs) (hk : k ≤ xs.length) :
    Ends (exec E N ra (.insertInput k ys)) (nseg o.obj + ys.length * (1 / N + 1)) (o.m.tick + ys.length * (xs.length - k + 5)) o := by
  refine .run (h.nth_run hk) (.after (.still fun v => .still fun _ => .still fun d => .after ?_))
  exact insertRangeLoop_ends h hk

end Sfl.SegDev
