import Verif.SegVecSpec2
/-
  Specifications of the modifiers of segmented_vector, continued: the loops over input ranges and the dispatcher.
  Proof machinery: no code is modelled in this file.
-/

set_option linter.unusedSimpArgs false
set_option linter.unusedSectionVars false

namespace Sfl
open World
variable {α : Type}

namespace SegVec
variable {E : Env α} {N al tcap : Nat} {V : View} {xs : List α} {o : Obj SVec α}

theorem GSt.here (h : GSt N o al V tcap xs) {P : View → List α → Prop} (hp : P V xs) : Post N al V o P o :=
  ⟨V, tcap, xs, h, .refl V, Frame.refl h.lay.wf, hp⟩

/-- Appending the elements of an input range one by one. -/
theorem emplaceBackAll_spec {ys : List α} : ∀ {o : Obj SVec α} {V : View} {tcap : Nat} {xs : List α}, GSt N o al V tcap xs →
    wp (emplaceBackAll E N (ys.map .val))
      (fun _ o' => Post N al V o (fun _ xs' => xs' = xs ++ ys) o')
      (fun e o' => (e = .lengthError → E.maxSize < xs.length + ys.length) ∧ Post N al V o (fun _ _ => True) o') o := by
  induction ys with
  | nil =>
    intro o V tcap xs h
    simp only [List.map_nil, emplaceBackAll]
    rw [wp_pure]
    exact h.here (by simp)
  | cons y ys ih =>
    intro o V tcap xs h
    simp only [List.map_cons, emplaceBackAll]
    rw [wp_bind]
    refine wp_mono (emplaceBack_spec (s := .value y) h rfl) ?_ ?_
    · rintro r o1 ⟨V1, tcap1, xs1, hg, hx, hf, -, ⟨v, hv, rfl⟩, -⟩
      cases hv
      refine wp_mono (ih hg) ?_ ?_
      · exact fun _ o2 hp => (hp.after hx hf).mono (fun _ _ h => by rw [h]; simp)
      · rintro e o2 ⟨h1, h2⟩
        exact ⟨fun h => by have := h1 h; simp at this ⊢; omega, h2.after hx hf⟩
    · rintro e o1 ⟨V1, tcap1, xs1, hg, hx, hf, hfl⟩
      refine ⟨fun h => ?_, V1, tcap1, xs1, hg, hx, hf, trivial⟩
      have := hfl.len h
      simp only [Sq.Op.room] at this
      simp only [List.length_cons]; omega

theorem GSt.inc_run {σ : Type} (h : GSt N o al V tcap xs) {p : Nat} (hp : p + 1 ≤ V.size) (s : σ) :
    Seg.inc N o.obj.tab (V.it p) s = .ok (V.it (p + 1)) s := by
  have := h.fit.inc hp s
  rw [h.num] at this
  exact this

/-- Inserting the elements of an input range one by one. -/
theorem insertRangeLoop_spec {ys : List α} : ∀ {o : Obj SVec α} {V : View} {tcap k : Nat} {xs : List α}, GSt N o al V tcap xs → k ≤ xs.length →
    wp (insertRangeLoop E N (ys.map .val) (V.it k))
      (fun _ o' => Post N al V o (fun _ xs' => xs' = xs.take k ++ ys ++ xs.drop k) o')
      (fun e o' => (e = .lengthError → E.maxSize < xs.length + ys.length) ∧ Post N al V o (fun _ _ => True) o') o := by
  induction ys with
  | nil =>
    intro o V tcap k xs h hk
    simp only [List.map_nil, insertRangeLoop]
    rw [wp_pure]
    exact h.here (by simp)
  | cons y ys ih =>
    intro o V tcap k xs h hk
    simp only [List.map_cons, insertRangeLoop]
    rw [wp_bind]
    refine wp_mono (emplace_spec (s := .value y) h rfl hk) ?_ ?_
    · rintro r o1 ⟨V1, tcap1, xs1, hg, hx, hf, rfl, ⟨v, hv, rfl⟩, -⟩
      cases hv
      have hl := hg.len
      have hlen : (xs.take k ++ [y] ++ xs.drop k).length = xs.length + 1 := by simp; omega
      rw [wp_bind, wp_getObj, wp_bind, wp_run (hg.inc_run (by omega) _)]
      refine wp_mono (ih hg (k := k + 1) (by omega)) ?_ ?_
      · intro _ o2 hp
        refine (hp.after hx hf).mono (fun _ _ h => ?_)
        rw [h]
        have hk' : (xs.take k ++ [y]).length = k + 1 := by simp; omega
        rw [List.take_append_of_le_length (by omega), List.drop_append_of_le_length (by omega), List.take_of_length_le (by omega),
          List.drop_eq_nil_of_le (by omega)]
        simp
      · rintro e o2 ⟨h1, h2⟩
        refine ⟨fun h => ?_, h2.after hx hf⟩
        have := h1 h
        rw [hlen] at this
        simp only [List.length_cons]; omega
    · rintro e o1 ⟨V1, tcap1, xs1, hg, hx, hf, hfl⟩
      refine ⟨fun h => ?_, V1, tcap1, xs1, hg, hx, hf, trivial⟩
      have := hfl.len h
      simp only [Sq.Op.room] at this
      simp only [List.length_cons]; omega

/-- `insert(pos, first, last)` (input iterators). -/
theorem insertRangeInput_spec {k : Nat} {ys : List α} (h : GSt N o al V tcap xs) (hk : k ≤ xs.length) :
    wp (insertRangeInput E N (V.it k) ys)
      (fun r o' => Post N al V o (fun V' xs' => r = V'.it k ∧ Sq.okStep E xs (.insertInput k ys) (some k) xs') o')
      (fun e o' => Fails E N al V o xs (.insertInput k ys) e o') o := by
  have hl := h.len
  unfold insertRangeInput
  rw [wp_bind, wp_getObj, wp_bind, wp_run (assert_run (h.inRange hk)), h.first_eq, wp_bind,
    wp_run (h.dist_run (Nat.zero_le _) (by omega) _), wp_bind]
  refine wp_mono (insertRangeLoop_spec h hk) ?_ ?_
  · rintro _ o1 ⟨V1, tcap1, xs1, hg, hx, hf, rfl⟩
    rw [wp_run (hg.nth_run (k := k - 0) (by simp; omega)), Nat.sub_zero]
    exact ⟨V1, tcap1, _, hg, hx, hf, rfl, rfl, rfl⟩
  · rintro e o1 ⟨h1, h2⟩
    exact Post.mono h2 fun _ xs' _ => ⟨rfl, h1, fun _ h => (by cases h), fun _ => (by simp), fun _ _ _ h => (by cases h)⟩

/-- Dropping the elements from index `n` on. -/
theorem truncate_spec (E : Env α) {n : Nat} (h : GSt N o al V tcap xs) (hn : n ≤ xs.length) :
    wp (do lift (Seg.destroy N o.obj.tab (V.it n) o.obj.last); setObj { o.obj with last := V.it n } : SM α Unit)
      (fun _ o' => Post N al V o (fun _ xs' => xs' = xs.take n) o') (fun _ _ => False) o := by
  have hl := h.len
  have hsim : SimO (α := α) V al tcap (V.SV o.obj.tab tcap al)
      (do lift (Seg.destroy V.N o.obj.tab (V.it n) (V.it xs.length)); setObj { V.svec o.obj.tab tcap al xs.length with last := V.it n })
      (do lift (destroyRange ⟨V.tb, n⟩ ⟨V.tb, xs.length⟩); setObj { V.vec al xs.length with last := ⟨V.tb, n⟩ }) (fun _ _ => True)
      (V.svec o.obj.tab tcap al xs.length) (V.vec al xs.length) :=
    SimO.lift_bind (V.sv _ tcap al h.len) (View.sim_destroy h.tab h.lay.npos hn (h.fit.lt h.len)) fun _ _ _ =>
      SimO.setLast (V.sv o.obj.tab tcap al (p := n) (by omega))
  have hf := h.flat (E := E)
  have hob := h.obj
  rw [← hob, ← h.last_eq, h.num] at hsim
  refine h.run (E := E) (by rw [← hob]; exact hsim) ?_
  simp only [wp_bind, wp_lift, wp_setObj]
  refine wp_destroyRange rfl hn (fun i _ hi => (hf.live i).mpr (by simpa using hi)) ?_
  intro s1 hs1 ht1 hm1 _ _ _
  refine ⟨xs.take n, VSt.mk' rfl (by simp; omega) rfl (hf.st.upd hs1 ?_ ?_) (by simp; omega) ?_ hf.capLe hf.nLe, ?_⟩
  · intro i hi; rw [hm1]; have := hf.st.beyond i hi; grind
  · intro c hc i; rw [hm1]; grind
  · intro i
    rw [hm1]
    have := hf.cells i
    dsimp only at this ⊢
    rw [this, List.getElem?_take]
    grind
  · exact fun o' hg hfr _ => ⟨V, tcap, _, hg, .refl V, hfr, rfl⟩

/-- `assign(first, last)` (input iterators). -/
theorem assignRangeInput_spec {ys : List α} (h : GSt N o al V tcap xs) :
    wp (assignRangeInput E N (ys.map .val))
      (fun _ o' => Post N al V o (fun _ xs' => Sq.okStep E xs (.assignInput ys) none xs') o')
      (fun e o' => Fails E N al V o xs (.assignInput ys) e o') o := by
  have hl := h.len
  have hf := h.flat (E := E)
  have fails : ∀ {e o1}, (e = .lengthError → E.maxSize < ys.length) → Post N al V o (fun _ _ => True) o1 →
      Fails E N al V o xs (.assignInput ys) e o1 := fun h1 h2 =>
    Post.mono h2 fun _ xs' _ => ⟨rfl, h1, fun _ h => (by cases h), fun _ => (by simp), fun _ _ _ h => (by cases h)⟩
  unfold assignRangeInput
  rw [wp_bind, wp_getObj, wp_bind, wp_lift, h.last_eq, h.first_eq]
  have hsim := sim_assignRangeLoop (lim := V.size) (E := E) (al := al) (tcap := tcap) h.fit h.len (as := ys.map .val) (Nat.zero_le _)
  rw [map_val, h.num] at hsim
  refine Sim.wp hsim h.lay ?_
  refine assignRangeLoop_spec (H := V.heap o.m) (Exts.vals ys) hf.st.agree hf.st.hblk (Nat.zero_le _) (fun i _ hi => (hf.live i).mpr hi) ?_ ?_
  · intro s1 hs1 hm1
    rintro ⟨rest, curr⟩ s' ⟨hrest, j, -, -, hc1, hc2⟩ rfl hlay
    simp only [Nat.sub_zero, Nat.zero_add] at hm1 hrest hc1 hc2
    obtain rfl : j = min xs.length ys.length := by injection hc2 with _ h; exact h.symm
    subst hc1
    have hg := h.back (w := o.obj) (s' := s') (xs' := ys.take xs.length ++ xs.drop ys.length) (E' := E.lim V.size)
      (o' := ⟨V.vec al xs.length, V.view s'⟩)
      (VSt.mk' rfl (by simp; omega) rfl (hf.st.upd hs1
        (by intro i hi; rw [hm1]; have := hf.st.beyond i hi; grind) (by intro c hc i; rw [hm1]; grind)) (by simp; omega)
        (by
          intro i
          rw [hm1]
          have := hf.cells i
          dsimp only at this
          rw [this]
          simp only [List.getElem?_append, List.getElem?_take, List.length_take, List.getElem?_drop]
          grind) hf.capLe hf.nLe)
      ⟨xs.length, h.len, h.obj, rfl⟩ rfl hlay
    obtain ⟨hg, hfr⟩ := hg
    by_cases hlt : xs.length < ys.length
    · have hr : rest = (ys.drop xs.length).map .val := by
        rw [hrest, ← List.map_drop, map_val]
      have hne : rest ≠ [] := by rw [hr]; simp; omega
      rw [List.drop_eq_nil_of_le (by omega), List.append_nil] at hg
      dsimp only
      rw [if_pos hne, hr]
      refine wp_mono (emplaceBackAll_spec hg) ?_ ?_
      · exact fun _ o1 hp => (hp.after (.refl V) hfr).mono fun _ _ h => by
          rw [h, List.take_append_drop]; exact ⟨rfl, rfl⟩
      · rintro e o1 ⟨h1, h2⟩
        exact fails (fun h => by have := h1 h; simp at this; omega) (h2.after (.refl V) hfr)
    · have hr : rest = [] := by
        rw [hrest, List.drop_eq_nil_of_le (by simp; omega)]; rfl
      rw [hr, show min xs.length ys.length = ys.length by omega]
      rw [List.take_of_length_le (by omega)] at hg
      dsimp only
      rw [if_neg (by simp), h.fit.ltI (by omega) hl, wp_ite]
      split
      · have hlen : (ys ++ xs.drop ys.length).length = xs.length := by simp; omega
        have := truncate_spec E hg (n := ys.length) (by simp)
        dsimp only at this
        rw [h.last_eq, h.first_eq] at this
        refine wp_mono this ?_ (fun _ _ h => h.elim)
        exact fun _ o1 hp => (hp.after (.refl V) hfr).mono fun _ _ h => by rw [h]; simp [Sq.okStep, Sq.Op.Result, Sq.Op.ret]
      · rename_i hd
        simp only [decide_eq_true_eq] at hd
        rw [wp_pure]
        rw [List.drop_eq_nil_of_le (by omega), List.append_nil] at hg
        exact ⟨V, tcap, ys, hg, .refl V, hfr, rfl, rfl⟩
  · intro s1 hs1 hm1 s' he hlay
    have hlive : ∀ i, (s1.mem V.tb i).isSome ↔ i < xs.length := by
      intro i
      have h1 := hm1 V.tb i
      have h2 := hf.live i
      dsimp only at h2
      grind
    obtain ⟨xs', hv, -⟩ := VSt.ofLive hf (s' := s1) rfl (hf.st.upd hs1
        (by
          intro i hi
          have h1 := hlive i
          have := hf.len
          cases hh : s1.mem V.tb i with
          | none => rfl
          | some v => rw [hh] at h1; simp at h1; omega)
        (by intro c hc i; have := hm1 c i; grind)) h.len hlive
    obtain ⟨hg, hfr⟩ := h.back (w := o.obj) hv ⟨xs.length, h.len, h.obj, rfl⟩ he hlay
    exact fails (by simp) ⟨V, tcap, xs', hg, .refl V, hfr, trivial⟩

/-- `erase(pos)`. -/
theorem eraseAt_spec {k : Nat} (h : GSt N o al V tcap xs) (hk : k < xs.length) :
    wp (eraseAt E N (V.it k))
      (fun r o' => Post N al V o (fun V' xs' => r = V'.it k ∧ Sq.okStep E xs (.eraseAt k) (some k) xs') o')
      (fun e o' => Fails E N al V o xs (.eraseAt k) e o') o := by
  have hsim := sim_eraseAt (lim := V.size) (E := E) (al := al) (tcap := tcap) h.fit h.len hk
  rw [h.num] at hsim
  refine h.callAt (op := .eraseAt k) (t := o.m.tick) hsim ?_ (pre_of (by simp [Sq.Op.pre, hk]) h.len rfl)
  rw [← add0]; rfl

/-- `erase(first, last)`. -/
theorem eraseRange_spec {k l : Nat} (h : GSt N o al V tcap xs) (hk : k ≤ l) (hl : l ≤ xs.length) :
    wp (eraseRange E N (V.it k) (V.it l))
      (fun r o' => Post N al V o (fun V' xs' => r = V'.it k ∧ Sq.okStep E xs (.eraseRange k l) (some k) xs') o')
      (fun e o' => Fails E N al V o xs (.eraseRange k l) e o') o := by
  have hsim := sim_eraseRange (lim := V.size) (E := E) (al := al) (tcap := tcap) h.fit h.len hk hl
  rw [h.num] at hsim
  refine h.callAt (op := .eraseRange k l) (t := o.m.tick) hsim ?_ (pre_of (by simp [Sq.Op.pre, hk, hl]) h.len rfl)
  rw [← add0 V.tb k, ← add0 V.tb l]; rfl

/-- `erase_if`. -/
theorem eraseIf_spec {f : α → Bool} (h : GSt N o al V tcap xs) :
    wp (eraseIf E N f)
      (fun r o' => Post N al V o (fun _ xs' => Sq.okStep E xs (.eraseIf f) (some r) xs') o')
      (fun e o' => Fails E N al V o xs (.eraseIf f) e o') o := by
  have hsim := sim_eraseIf (lim := V.size) (E := E) (al := al) (tcap := tcap) (f := f) h.fit h.len
  rw [h.num] at hsim
  exact h.callVal (g := some) (op := .eraseIf f) hsim rfl (pre_of rfl h.len rfl)

/-- `pop_back`. -/
theorem popBack_spec (h : GSt N o al V tcap xs) (h0 : 0 < xs.length) :
    wp (popBack N)
      (fun _ o' => Post N al V o (fun _ xs' => Sq.okStep E xs .popBack none xs') o')
      (fun e o' => Fails E N al V o xs .popBack e o') o := by
  have hsim := sim_popBack (al := al) (tcap := tcap) (α := α) h.fit h.len
  rw [h.num] at hsim
  exact h.callVal (g := fun _ => none) (op := .popBack) (hsim.mono fun _ _ _ => rfl) rfl (pre_of (by simpa [Sq.Op.pre] using h0) h.len rfl)

/-- `clear`. -/
theorem clear_spec (E : Env α) (h : GSt N o al V tcap xs) :
    wp (clear N) (fun _ o' => Post N al V o (fun _ xs' => xs' = []) o') (fun _ _ => False) o := by
  have := truncate_spec E h (Nat.zero_le _)
  rw [← h.first_eq] at this
  unfold clear
  rw [wp_bind, wp_getObj]
  exact wp_mono this (fun _ _ hp => hp.mono fun _ _ h => by rw [h]; rfl) (fun _ _ h => h)

/-- `reserve`. -/
theorem reserve_spec {n : Nat} (h : GSt N o al V tcap xs) :
    wp (reserve E N n)
      (fun _ o' => Post N al V o (fun V' xs' => xs' = xs ∧ n ≤ V'.size) o')
      (fun e o' => Fails E N al V o xs (.reserve n) e o') o := by
  unfold reserve
  rw [wp_bind, wp_run h.capacity_run, wp_ite]
  split
  · have := wp_grow (E := E) (n := n - V.size) (f := fun _ => pure ()) (P := fun (_ : Unit) V' xs' => xs' = xs ∧ n ≤ V'.size) (op := .reserve n)
      h rfl (by simp) (by show _ ≤ n; omega) ?_
    · rw [wp_bind] at this
      exact this
    · intro o1 V1 tcap1 hg hsz hx _ _
      rw [wp_pure]
      exact hg.here ⟨rfl, by omega⟩
  · rw [wp_pure]
    exact h.here ⟨rfl, by omega⟩

/-- Segments added or removed at the end; the slots that remain are where they were. -/
structure _root_.Sfl.View.Near (V V' : View) : Prop where
  segs : V.segs <+: V'.segs ∨ V'.segs <+: V.segs
  num : V'.N = V.N

theorem _root_.Sfl.View.Near.addr {V V' : View} (h : V.Near V') (hN : 0 < V.N) {k : Nat} (hk : k < V.cap) (hk' : k < V'.cap) :
    V'.addr k = V.addr k := by
  rcases h.segs with h1 | h1
  · exact View.Ext.addr ⟨h1, h.num⟩ hN hk
  · exact (View.Ext.addr ⟨h1, h.num.symm⟩ (by rw [h.num]; exact hN) hk').symm

theorem okStep_bound {op : Sq.Op α} {k : Nat} {ys : List α} (h : Sq.okStep E xs op (some k) ys) (hp : op.pre xs.length = true)
    (he : ∀ f, op ≠ .eraseIf f) : k ≤ ys.length := by
  obtain ⟨h1, h2⟩ := h
  cases op <;> simp [Sq.Op.ret] at h2 <;> simp [Sq.Op.pre, Sq.Op.Result] at hp h1
  case eraseIf f => exact absurd rfl (he f)
  case pushBack s => obtain ⟨v, -, rfl⟩ := h1; simp; omega
  case emplace j s => obtain ⟨v, -, rfl⟩ := h1; simp; omega
  case insertN j n s => obtain ⟨v, -, rfl⟩ := h1; simp; omega
  all_goals subst h1; simp; omega

/-- The state after an operation of the public interface. -/
def Done (N al : Nat) (V : View) (o : Obj SVec α) (P : List α → Prop) (o' : Obj SVec α) : Prop :=
  ∃ V' tcap' xs', GSt N o' al V' tcap' xs' ∧ V.Near V' ∧ Frame o.m V.foot o'.m V'.foot ∧ P xs'

theorem Post.done {P : View → List α → Prop} {P' : List α → Prop} {o' : Obj SVec α} (h : Post N al V o P o')
    (hp : ∀ V' xs', P V' xs' → P' xs') : Done N al V o P' o' := by
  obtain ⟨V', tcap', xs', h1, h2, h3, h4⟩ := h
  exact ⟨V', tcap', xs', h1, ⟨Or.inl h2.segs, h2.num⟩, h3, hp _ _ h4⟩

theorem wp_index {f : SM α SIt} {op : Sq.Op α} {k : Nat} (hp : op.pre xs.length = true) (he : ∀ f, op ≠ .eraseIf f)
    (h : wp f (fun r o' => Post N al V o (fun V' xs' => r = V'.it k ∧ Sq.okStep E xs op (some k) xs') o')
      (fun e o' => Fails E N al V o xs op e o') o) :
    wp (f >>= indexOf N) (fun r o' => Done N al V o (Sq.okStep E xs op r) o')
      (fun e o' => Done N al V o (Sq.failStep E xs op e) o') o := by
  rw [wp_bind]
  refine wp_mono h ?_ (fun _ _ hp => hp.done fun _ _ h => h)
  rintro r o1 ⟨V', tcap', xs', hg, hx, hf, rfl, hs⟩
  rw [wp_run (hg.indexOf_run (okStep_bound hs hp he))]
  exact ⟨V', tcap', xs', hg, ⟨Or.inl hx.segs, hx.num⟩, hf, hs⟩

theorem wp_none {f : SM α Unit} {op : Sq.Op α}
    (h : wp f (fun _ o' => Post N al V o (fun _ xs' => Sq.okStep E xs op none xs') o')
      (fun e o' => Fails E N al V o xs op e o') o) :
    wp (f >>= fun _ => pure none) (fun r o' => Done N al V o (Sq.okStep E xs op r) o')
      (fun e o' => Done N al V o (Sq.failStep E xs op e) o') o := by
  rw [wp_bind]
  refine wp_mono h ?_ (fun _ _ hp => hp.done fun _ _ h => h)
  intro r o1 hp
  rw [wp_pure]
  exact hp.done fun _ _ h => h

/-- Every modifier of segmented_vector: the result of the list operation; the slots keep their addresses. -/
theorem exec_spec (ra : Sq.Op α → Bool) (op : Sq.Op α) (h : GSt N o al V tcap xs) (hp : op.pre xs.length = true) :
    wp (exec E N ra op) (fun r o' => Done N al V o (Sq.okStep E xs op r) o')
      (fun e o' => Done N al V o (Sq.failStep E xs op e) o') o := by
  cases op with
  | pushBack s =>
    show wp (argOf N s >>= fun a => emplaceBack E N a >>= indexOf N) _ _ o
    rw [wp_bind, wp_run (argOf_run h hp)]
    exact wp_index hp (by simp) (emplaceBack_spec h hp)
  | emplace k s =>
    show wp (argOf N s >>= fun a => nth N k >>= fun p => emplace E N p a >>= indexOf N) _ _ o
    have hp' : k ≤ xs.length ∧ s.ok xs.length = true := by simpa [Sq.Op.pre] using hp
    rw [wp_bind, wp_run (argOf_run h hp'.2), wp_bind, wp_run (h.nth_run hp'.1)]
    exact wp_index hp (by simp) (emplace_spec h hp'.2 hp'.1)
  | insertN k n s =>
    show wp (argOf N s >>= fun a => nth N k >>= fun p => insertFillN E N p n a >>= indexOf N) _ _ o
    have hp' : k ≤ xs.length ∧ s.ok xs.length = true := by simpa [Sq.Op.pre] using hp
    rw [wp_bind, wp_run (argOf_run h hp'.2), wp_bind, wp_run (h.nth_run hp'.1)]
    exact wp_index hp (by simp) (insertFillN_spec h hp'.2 hp'.1)
  | insertRange k ys =>
    show wp (nth N k >>= fun p => insertRange E N (ra (.insertRange k ys)) p ys >>= indexOf N) _ _ o
    have hp' : k ≤ xs.length := by simpa [Sq.Op.pre] using hp
    rw [wp_bind, wp_run (h.nth_run hp')]
    exact wp_index hp (by simp) (insertRange_spec h hp')
  | insertInput k ys =>
    show wp (nth N k >>= fun p => insertRangeInput E N p ys >>= indexOf N) _ _ o
    have hp' : k ≤ xs.length := by simpa [Sq.Op.pre] using hp
    rw [wp_bind, wp_run (h.nth_run hp')]
    exact wp_index hp (by simp) (insertRangeInput_spec h hp')
  | popBack => exact wp_none (popBack_spec h (by simpa [Sq.Op.pre] using hp))
  | eraseAt k =>
    show wp (nth N k >>= fun p => eraseAt E N p >>= indexOf N) _ _ o
    have hp' : k < xs.length := by simpa [Sq.Op.pre] using hp
    rw [wp_bind, wp_run (h.nth_run (by omega))]
    exact wp_index hp (by simp) (eraseAt_spec h hp')
  | eraseRange k l =>
    show wp (nth N k >>= fun p => nth N l >>= fun q => eraseRange E N p q >>= indexOf N) _ _ o
    have hp' : k ≤ l ∧ l ≤ xs.length := by simpa [Sq.Op.pre] using hp
    rw [wp_bind, wp_run (h.nth_run (by omega)), wp_bind, wp_run (h.nth_run hp'.2)]
    exact wp_index hp (by simp) (eraseRange_spec h hp'.1 hp'.2)
  | resize n => exact wp_none (resizeWith_spec (s := .value E.dflt) h rfl (Or.inr ⟨rfl, rfl⟩))
  | resizeV n s =>
    show wp (argOf N s >>= fun a => resizeWith E N n a >>= fun _ => pure none) _ _ o
    rw [wp_bind, wp_run (argOf_run h hp)]
    exact wp_none (resizeWith_spec h hp (Or.inl rfl))
  | assignN n v => exact wp_none (assignFillN_spec h)
  | assignRange ys => exact wp_none (assignRange_spec h)
  | assignInput ys => exact wp_none (assignRangeInput_spec h)
  | clear =>
    refine wp_none (op := .clear) (wp_mono (clear_spec E h) ?_ (fun _ _ h => h.elim))
    exact fun _ _ hp => hp.mono fun _ _ h => ⟨h, rfl⟩
  | reserve n =>
    refine wp_none (op := .reserve n) (wp_mono (reserve_spec h) ?_ (fun _ _ h => h))
    exact fun _ _ hp => hp.mono fun _ _ h => ⟨h.1, rfl⟩
  | shrinkToFit =>
    show wp (shrinkStorage E N >>= fun _ => pure none) _ _ o
    rw [wp_bind]
    refine wp_mono (shrinkStorage_spec h) ?_ ?_
    · rintro _ o1 ⟨tb, tcap', hg, -, hf⟩
      rw [wp_pure]
      exact ⟨_, tcap', xs, hg, ⟨Or.inr (List.take_prefix _ _), h.num.symm⟩, hf, rfl, rfl⟩
    · rintro e o1 ⟨rfl, tb, tcap', hg, -, hf⟩
      exact ⟨_, tcap', xs, hg, ⟨Or.inr (List.take_prefix _ _), h.num.symm⟩, hf, rfl, by simp, fun _ _ => rfl, fun _ => by simp,
        fun _ _ _ _ => rfl⟩
  | eraseIf f =>
    show wp (eraseIf E N f >>= fun n => pure (some n)) _ _ o
    rw [wp_bind]
    refine wp_mono (eraseIf_spec h) ?_ (fun _ _ hp => hp.done fun _ _ h => h)
    intro r o1 hp
    rw [wp_pure]
    exact hp.done fun _ _ h => h

end SegVec
end Sfl
