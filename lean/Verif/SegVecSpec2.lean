import Verif.SegVecSpec
/-
  Specifications of the modifiers of segmented_vector. Proof machinery: no code is modelled in this file.
-/

set_option linter.unusedSimpArgs false
set_option linter.unusedSectionVars false

namespace Sfl
open World
variable {α : Type}

/-- Memory outside the contiguous block. -/
def View.heap (V : View) (s : St α) : Heap α where
  mem := fun b k => if b = V.tb then none else (V.view s).mem b k
  blk := fun b => if b = V.tb then none else (V.view s).blk b

/-- More segments, the old ones in place. -/
structure View.Ext (V V' : View) : Prop where
  segs : V.segs <+: V'.segs
  num : V'.N = V.N

theorem View.Ext.refl (V : View) : V.Ext V := ⟨List.prefix_refl _, rfl⟩

theorem View.Ext.trans {V V' V'' : View} (h : V.Ext V') (h' : V'.Ext V'') : V.Ext V'' :=
  ⟨h.segs.trans h'.segs, h'.num.trans h.num⟩

theorem View.Ext.addr {V V' : View} (h : V.Ext V') (hN : 0 < V.N) {k : Nat} (hk : k < V.cap) : V'.addr k = V.addr k := by
  obtain ⟨news, hn⟩ := h.segs
  have := SegVec.addr_append V news V'.tb hN hk
  rw [hn, ← h.num] at this
  rw [← this]; rfl

namespace SegVec
variable {E : Env α} {N al tcap : Nat} {V : View} {xs : List α} {o : Obj SVec α}

theorem GSt.retick (h : GSt N o al V tcap xs) (t : Nat) : GSt N ⟨o.obj, { o.m with tick := t }⟩ al V tcap xs :=
  h.frame ⟨h.lay.wf.next_pos, h.lay.wf.blk_zero, h.lay.wf.fresh, h.lay.wf.dead⟩ (fun _ _ => ⟨rfl, fun _ => rfl⟩)

/-- The contiguous vector. -/
theorem GSt.flat (h : GSt N o al V tcap xs) :
    VSt (V.heap o.m) (E.lim V.size) V.tb V.size ⟨V.vec al xs.length, V.view o.m⟩ al V.tb V.size xs where
  obj := rfl
  st := by
    have hw : (V.view o.m).Wf := by
      have hfr : ∀ c, o.m.next ≤ c → c ≠ V.tb ∧ c ∉ V.segs := by
        intro c hc
        have hn := h.lay.wf.fresh c hc
        exact ⟨fun e => h.live c (Or.inl e) hn, fun e => h.live c (Or.inr e) hn⟩
      refine ⟨h.lay.wf.next_pos, ?_, ?_, ?_⟩
      · have h0 := h.lay.wf.blk_zero
        have h1 : (0 : Nat) ≠ V.tb := fun e => h.live 0 (Or.inl e) h0
        have h2 : (0 : Nat) ∉ V.segs := fun e => h.live 0 (Or.inr e) h0
        simp [View.view, h1, h2, h0]
      · intro c hc
        obtain ⟨h1, h2⟩ := hfr c hc
        simp [View.view, h1, h2, h.lay.wf.fresh c hc]
      · intro c hc i
        by_cases h1 : c = V.tb
        · simp [View.view, h1] at hc
        · by_cases h2 : c ∈ V.segs
          · simp [View.view, h1, h2]
          · simp only [View.view, h1, h2, if_false] at hc ⊢
            exact h.lay.wf.dead c hc i
    refine ⟨hw, Or.inr (by simp [View.view]), Or.inl ⟨rfl, rfl⟩, fun h => absurd rfl h, ?_, ?_, ?_, ?_, ?_, ?_, ?_⟩
    · intro i hi
      simp only [View.view, if_true]
      rw [if_neg (by omega)]
    all_goals simp +contextual [View.heap]
  len := h.len
  cells := by
    intro i
    by_cases hi : i < V.size
    · rw [View.view_slot hi]
      exact h.cells i (by have := V.size_le; omega)
    · simp only [View.view, if_true, if_neg hi]
      rw [List.getElem?_eq_none (by have := h.len; omega)]
  capLe := Nat.le_refl _
  nLe := Nat.le_refl _

/-- Back to the segments. -/
theorem GSt.back {o' : Obj Vec α} {w : SVec} {s' : St α} {xs' : List α} {E' : Env α} (h : GSt N o al V tcap xs)
    (hv : VSt (V.heap o.m) E' V.tb V.size o' al V.tb V.size xs') (hsv : V.SV o.obj.tab tcap al w o'.obj)
    (he : o'.m = V.view s') (hl : V.Lay al tcap s') :
    GSt N ⟨w, s'⟩ al V tcap xs' ∧ Frame o.m V.foot s' V.foot := by
  obtain ⟨p, hp, rfl, hvo⟩ := hsv
  have hpx : p = xs'.length := by
    have := hv.obj
    rw [hvo] at this
    injection this with _ h2
    injection h2
  subst hpx
  refine ⟨⟨hl, h.base, h.num, h.tab, h.tlen, h.slen, rfl, hv.len, ?_⟩, ⟨hl.wf, ?_, ?_, fun c h1 h2 => absurd h1 h2⟩⟩
  · intro k hk
    by_cases hi : k < V.size
    · rw [← View.view_slot hi]
      show (V.view s').mem _ _ = _
      rw [← he]; exact hv.cells k
    · have e : k = V.size := by have := V.size_le; unfold View.size at *; omega
      rw [List.getElem?_eq_none (by have := hv.len; omega), e]
      exact hl.hidden
  · intro c hc hb
    have h1 : c ≠ V.tb := fun e => hc (Or.inl e)
    have h2 : c ∉ V.segs := fun e => hc (Or.inr e)
    refine ⟨hc, ?_, fun k => ?_⟩
    · have := hv.st.fblk c h1 h1
      rw [he] at this
      simpa [View.heap, View.view, h1, h2] using this
    · have := hv.st.fmem c h1 h1 k
      rw [he] at this
      simpa [View.heap, View.view, h1, h2] using this
  · intro c hc hb _
    have h1 : c ≠ V.tb := fun e => hc (Or.inl e)
    have h2 : c ∉ V.segs := fun e => hc (Or.inr e)
    have := hv.st.fblk c h1 h1
    rw [he] at this
    simpa [View.heap, View.view, h1, h2, hb] using this

/-- A function that does what a contiguous one does. -/
theorem GSt.run {β β' : Type} {f : SM α β} {f' : Vector.VM α β'} {R : β → β' → Prop} {Q : β → Obj SVec α → Prop}
    {X : Exn → Obj SVec α → Prop} (h : GSt N o al V tcap xs)
    (hs : SimO V al tcap (V.SV o.obj.tab tcap al) f f' R (V.svec o.obj.tab tcap al xs.length) (V.vec al xs.length))
    (hw : wp f'
      (fun b' o'' => o''.obj.first = ⟨V.tb, 0⟩ → ∀ b, R b b' →
        ∃ xs', VSt (V.heap o.m) (E.lim V.size) V.tb V.size o'' al V.tb V.size xs' ∧
        ∀ o', GSt N o' al V tcap xs' → Frame o.m V.foot o'.m V.foot → o'.m.tick = o''.m.tick → Q b o')
      (fun e o'' => ∃ xs', VSt (V.heap o.m) (E.lim V.size) V.tb V.size o'' al V.tb V.size xs' ∧
        ∀ o', GSt N o' al V tcap xs' → Frame o.m V.foot o'.m V.foot → o'.m.tick = o''.m.tick → X e o')
      ⟨V.vec al xs.length, V.view o.m⟩) : wp f Q X o := by
  have ho : o = ⟨V.svec o.obj.tab tcap al xs.length, o.m⟩ := by
    have := h.obj
    cases o; simp only at this ⊢; rw [← this]
  rw [ho]
  refine hs.wp h.lay (wp_mono hw ?_ ?_)
  · rintro b' o'' hq b w s' hr hsv he hl
    obtain ⟨xs', hv, hq⟩ := hq (by obtain ⟨p, -, -, e⟩ := hsv; rw [e]; rfl) b hr
    obtain ⟨hg, hf⟩ := h.back hv hsv he hl
    exact hq _ hg hf (by rw [he]; rfl)
  · rintro e o'' ⟨xs', hv, hq⟩ w s' hsv he hl
    obtain ⟨hg, hf⟩ := h.back hv hsv he hl
    exact hq _ hg hf (by rw [he]; rfl)

theorem failStep_lim {E : Env α} {k : Nat} {op : Sq.Op α} {e : Exn} {ys : List α} (h : Sq.failStep (E.lim k) xs op e ys)
    (he : e ≠ .lengthError) : Sq.failStep E xs op e ys :=
  ⟨h.can, fun h => absurd h he, h.strong, h.erase, h.emplace⟩

/-- The state after an operation, with `P` about the segments and the elements. -/
def Post (N al : Nat) (V : View) (o : Obj SVec α) (P : View → List α → Prop) (o' : Obj SVec α) : Prop :=
  ∃ V' tcap' xs', GSt N o' al V' tcap' xs' ∧ V.Ext V' ∧ Frame o.m V.foot o'.m V'.foot ∧ P V' xs'

theorem Post.mono {P P' : View → List α → Prop} {o' : Obj SVec α} (h : Post N al V o P o') (hp : ∀ V' xs', P V' xs' → P' V' xs') :
    Post N al V o P' o' := by
  obtain ⟨V', tcap', xs', h1, h2, h3, h4⟩ := h
  exact ⟨V', tcap', xs', h1, h2, h3, hp _ _ h4⟩

theorem Post.after {P : View → List α → Prop} {V1 : View} {o1 o' : Obj SVec α} (h : Post N al V1 o1 P o') (he : V.Ext V1)
    (hf : Frame o.m V.foot o1.m V1.foot) : Post N al V o P o' := by
  obtain ⟨V', tcap', xs', h1, h2, h3, h4⟩ := h
  exact ⟨V', tcap', xs', h1, he.trans h2, hf.trans h3, h4⟩

/-- A throwing operation. -/
def Fails (E : Env α) (N al : Nat) (V : View) (o : Obj SVec α) (xs : List α) (op : Sq.Op α) (e : Exn) : Obj SVec α → Prop :=
  Post N al V o (fun _ xs' => Sq.failStep E xs op e xs')

/-- The index an iterator returned by a function designates. -/
theorem wp_dropIndex {f : Vector.VM α Ptr} {Q : Option Nat → Obj Vec α → Prop} {X : Exn → Obj Vec α → Prop} {o : Obj Vec α}
    (h : wp (f >>= Vector.indexOf) Q X o) :
    wp f (fun p o' => p.blk = o'.obj.first.blk → o'.obj.first.off ≤ p.off → Q (some (p.off - o'.obj.first.off)) o') X o := by
  rw [wp_bind] at h
  refine wp_mono h ?_ (fun _ _ h => h)
  intro p o' hq h1 h2
  unfold Vector.indexOf at hq
  rw [wp_bind, wp_getObj, wp_bind] at hq
  have := wp_run (Q := fun b o'' => wp (pure (some b)) Q X o'') (X := X) (distance_run (p := o'.obj.first) (q := p) h1.symm h2 o')
  rw [this] at hq
  exact hq

theorem wp_at {σ β : Type} {p q : M σ β} {s s' : σ} {Q : β → σ → Prop} {X : Exn → σ → Prop} (h : p s = q s')
    (hp : wp p Q X s) : wp q Q X s' := by
  unfold wp at hp ⊢
  rw [← h]; exact hp

/-- A function returning an iterator, run within the present storage. -/
theorem GSt.callAt {f : SM α SIt} {f' : Vector.VM α Ptr} {k : Nat} {op : Sq.Op α} {t : Nat} (h : GSt N o al V tcap xs)
    (hs : SimO V al tcap (V.SV o.obj.tab tcap al) f f' (V.At k) (V.svec o.obj.tab tcap al xs.length) (V.vec al xs.length))
    (he : StaticVector.exec (E.lim V.size) V.size op ⟨V.vec al xs.length, V.view { o.m with tick := t }⟩ =
      (f' >>= Vector.indexOf) ⟨V.vec al xs.length, V.view o.m⟩)
    (hp : StaticVector.pre V.size xs.length op = true) :
    wp f (fun r o' => Post N al V o (fun V' xs' => r = V'.it k ∧ Sq.okStep E xs op (some k) xs') o')
      (fun e o' => Fails E N al V o xs op e o') o := by
  refine h.run (E := E) hs ?_
  have hx := StaticVector.exec_spec op ((h.retick t).flat (E := E)) hp
  have hx := wp_dropIndex (wp_at he hx)
  refine wp_mono hx ?_ ?_
  · rintro p o'' hq
    rintro hfst it ⟨rfl, rfl⟩
    rw [hfst] at hq
    obtain ⟨xs', hv, -, h1, h2⟩ := hq rfl (Nat.zero_le _)
    exact ⟨xs', hv, fun o' hg hfr _ => ⟨V, tcap, xs', hg, .refl V, hfr, rfl, h1, h2⟩⟩
  · rintro e o'' ⟨xs', hv, -, hf, h1, h2⟩
    exact ⟨xs', hv, fun o' hg hfr _ => ⟨V, tcap, xs', hg, .refl V, hfr, failStep_lim hf h2⟩⟩

/-- A function without iterator result, run within the present storage. -/
theorem GSt.callVal {β : Type} {f : SM α β} {f' : Vector.VM α β} {g : β → Option Nat} {op : Sq.Op α} (h : GSt N o al V tcap xs)
    (hs : SimO V al tcap (V.SV o.obj.tab tcap al) f f' Eq (V.svec o.obj.tab tcap al xs.length) (V.vec al xs.length))
    (he : StaticVector.exec (E.lim V.size) V.size op ⟨V.vec al xs.length, V.view o.m⟩ =
      (f' >>= fun r => pure (g r)) ⟨V.vec al xs.length, V.view o.m⟩)
    (hp : StaticVector.pre V.size xs.length op = true) :
    wp f (fun r o' => Post N al V o (fun _ xs' => Sq.okStep E xs op (g r) xs') o')
      (fun e o' => Fails E N al V o xs op e o') o := by
  refine h.run (E := E) hs ?_
  have hx := StaticVector.exec_spec op (h.flat (E := E)) hp
  have hx := wp_at he hx
  rw [wp_bind] at hx
  refine wp_mono hx ?_ ?_
  · rintro r o'' hq
    rintro - r' rfl
    rw [wp_pure] at hq
    obtain ⟨xs', hv, -, h1, h2⟩ := hq
    exact ⟨xs', hv, fun o' hg hfr _ => ⟨V, tcap, xs', hg, .refl V, hfr, h1, h2⟩⟩
  · rintro e o'' ⟨xs', hv, -, hf, h1, h2⟩
    exact ⟨xs', hv, fun o' hg hfr _ => ⟨V, tcap, xs', hg, .refl V, hfr, failStep_lim hf h2⟩⟩

theorem pre_of {n m : Nat} {op : Sq.Op α} (h : op.pre n = true) (hr : op.room n ≤ m) (hf : StaticVector.foreign op = false) :
    StaticVector.pre m n op = true := by
  simp [StaticVector.pre, h, hr, hf]

/-- The argument a client passes. -/
def srcArg (V : View) : Sq.Src α → Arg α
  | .value v => .val v
  | .rvalue v => .rv v
  | .elem i => .ref (V.addr i)

theorem srcArg_map (V : View) (s : Sq.Src α) : (s.toArg ⟨V.tb, 0⟩).map V.map = srcArg V s := by
  cases s <;> simp [Sq.Src.toArg, Arg.map, srcArg, Ptr.add, View.map_tb]

theorem srcArg_ext {V' : View} (he : V.Ext V') (h : GSt N o al V tcap xs) {s : Sq.Src α} (hs : s.ok xs.length = true) :
    srcArg V' s = srcArg V s := by
  cases s with
  | elem i =>
    simp only [Sq.Src.ok, decide_eq_true_eq] at hs
    have := h.len
    have := V.size_le
    simp only [srcArg]
    rw [he.addr h.lay.npos (by omega)]
  | _ => rfl

theorem argOf_run (h : GSt N o al V tcap xs) {s : Sq.Src α} (hs : s.ok xs.length = true) : argOf N s o = .ok (srcArg V s) o := by
  cases s with
  | elem i =>
    simp only [Sq.Src.ok, decide_eq_true_eq] at hs
    have := h.len
    show (addressOf N i >>= fun p => pure (Arg.ref p)) o = _
    rw [bind_run (h.addressOf_run (by omega))]
    rfl
  | _ => rfl

theorem add0 (b k : Nat) : (⟨b, 0⟩ : Ptr).add k = ⟨b, k⟩ := by simp [Ptr.add]

/-- Growing the storage before the main part of an operation. -/
theorem wp_grow {β : Type} {f : Unit → SM α β} {n : Nat} {op : Sq.Op α} {P : β → View → List α → Prop}
    (h : GSt N o al V tcap xs) (hc : op.nothrow = false) (he : ∀ k l f, op ≠ .eraseAt k ∧ op ≠ .eraseRange k l ∧ op ≠ .eraseIf f)
    (hr : V.size + n ≤ op.room xs.length)
    (hf : ∀ o1 V1 tcap1, GSt N o1 al V1 tcap1 xs → V.size + n ≤ V1.size → V.Ext V1 → 0 < o1.m.tick → E.throws (o1.m.tick - 1) = false →
      wp (f ()) (fun r o' => Post N al V1 o1 (P r) o') (fun e o' => Fails E N al V1 o1 xs op e o') o1) :
    wp (growStorage E N n >>= f) (fun r o' => Post N al V o (P r) o') (fun e o' => Fails E N al V o xs op e o') o := by
  rw [wp_bind]
  refine wp_mono (growStorage_spec (n := n) h) ?_ ?_
  · rintro _ o1 ⟨tb, news, tcap1, hg, hsz, -, hfr, ht1, ht2⟩
    have hx : V.Ext ⟨tb, 0, V.segs ++ news, N⟩ := ⟨List.prefix_append _ _, h.num.symm⟩
    refine wp_mono (hf o1 _ tcap1 hg hsz.1 hx ht1 ht2) ?_ ?_
    · exact fun r o' hp => hp.after hx hfr
    · exact fun e o' hp => Post.after hp hx hfr
  · rintro e o1 ⟨hl, -, tb, tcap1, hg, -, hfr⟩
    refine ⟨_, tcap1, xs, hg, ⟨List.prefix_refl _, h.num.symm⟩, hfr, hc, fun h => ?_, fun _ _ => rfl, fun _ => he, fun _ _ _ _ => rfl⟩
    have := hl h
    omega

/-- `emplace_back`, once there is room. -/
theorem emplaceBackTail_spec {s : Sq.Src α} (h : GSt N o al V tcap xs) (hs : s.ok xs.length = true) (hr : xs.length + 1 ≤ V.size) :
    wp (emplaceBackTail E N (srcArg V s))
      (fun r o' => Post N al V o (fun V' xs' => r = V'.it xs.length ∧ Sq.okStep E xs (.pushBack s) (some xs.length) xs') o')
      (fun e o' => Fails E N al V o xs (.pushBack s) e o') o := by
  have hsim := sim_emplaceBackTail (lim := V.size) (E := E) (al := al) (tcap := tcap) h.fit h.len (a := s.toArg ⟨V.tb, 0⟩)
  rw [srcArg_map, h.num] at hsim
  exact h.callAt (op := .pushBack s) (t := o.m.tick) hsim rfl (pre_of hs hr rfl)

/-- `emplace_back`. -/
theorem emplaceBack_spec {s : Sq.Src α} (h : GSt N o al V tcap xs) (hs : s.ok xs.length = true) :
    wp (emplaceBack E N (srcArg V s))
      (fun r o' => Post N al V o (fun V' xs' => r = V'.it xs.length ∧ Sq.okStep E xs (.pushBack s) (some xs.length) xs') o')
      (fun e o' => Fails E N al V o xs (.pushBack s) e o') o := by
  have hl := h.len
  unfold emplaceBack
  rw [wp_bind, wp_getObj]
  have e1 : Seg.eq o.obj.last o.obj.eos = decide (xs.length = V.size) := by
    rw [h.obj]; exact h.fit.eq h.len (Nat.le_refl _)
  rw [e1]
  by_cases hd : xs.length = V.size
  · simp only [hd, decide_true, if_true]
    rw [← hd]
    refine wp_grow (op := .pushBack s) h rfl (by simp) (by show V.size + 1 ≤ xs.length + 1; omega) ?_
    intro o1 V1 tcap1 hg hsz hx _ _
    rw [← srcArg_ext hx h hs]
    exact emplaceBackTail_spec hg hs (by omega)
  · simp only [decide_eq_false hd, Bool.false_eq_true, if_false]
    exact emplaceBackTail_spec h hs (by omega)

theorem GSt.eq_end (h : GSt N o al V tcap xs) : Seg.eq o.obj.last o.obj.eos = decide (xs.length = V.size) := by
  rw [h.obj]; exact h.fit.eq h.len (Nat.le_refl _)

theorem GSt.first_eq (h : GSt N o al V tcap xs) : o.obj.first = V.it 0 := by rw [h.obj]; rfl

theorem GSt.last_eq (h : GSt N o al V tcap xs) : o.obj.last = V.it xs.length := by rw [h.obj]; rfl

theorem GSt.inRange (h : GSt N o al V tcap xs) {k : Nat} (hk : k ≤ xs.length) : InRange o.obj (V.it k) := by
  have := SegVec.inRange (al := al) (tcap := tcap) h.fit h.len hk
  rw [← h.obj] at this
  exact this

theorem GSt.dist_run {σ : Type} (h : GSt N o al V tcap xs) {p q : Nat} (hpq : p ≤ q) (hq : q ≤ V.size) (s : σ) :
    Seg.dist N o.obj.tab (V.it p) (V.it q) s = .ok (q - p) s := by
  have := h.fit.dist hpq hq s
  rw [h.num] at this
  exact this

theorem GSt.adv_run {σ : Type} (h : GSt N o al V tcap xs) {p q : Nat} {n : Int} (hp : p ≤ V.size) (hq : q ≤ V.size)
    (hn : (q : Int) = p + n) (s : σ) : Seg.advance N o.obj.tab (V.it p) n s = .ok (V.it q) s := by
  have := h.fit.adv hp hq hn s
  rw [h.num] at this
  exact this

/-- `emplace`, once there is room. -/
theorem emplaceTail_spec {k : Nat} {s : Sq.Src α} (h : GSt N o al V tcap xs) (hs : s.ok xs.length = true) (hk : k ≤ xs.length)
    (hr : xs.length + 1 ≤ V.size) :
    wp (emplaceTail E N (V.it k) (srcArg V s))
      (fun r o' => Post N al V o (fun V' xs' => r = V'.it k ∧ Sq.okStep E xs (.emplace k s) (some k) xs') o')
      (fun e o' => Fails E N al V o xs (.emplace k s) e o') o := by
  have hsim := sim_emplaceTail (lim := V.size) (E := E) (al := al) (tcap := tcap) h.fit h.len (a := s.toArg ⟨V.tb, 0⟩) hk
  rw [srcArg_map, h.num] at hsim
  refine h.callAt (op := .emplace k s) (t := o.m.tick) hsim ?_ (pre_of (by simp [Sq.Op.pre, hk, hs]) hr rfl)
  rw [← add0]; rfl

/-- `emplace`. -/
theorem emplace_spec {k : Nat} {s : Sq.Src α} (h : GSt N o al V tcap xs) (hs : s.ok xs.length = true) (hk : k ≤ xs.length) :
    wp (emplace E N (V.it k) (srcArg V s))
      (fun r o' => Post N al V o (fun V' xs' => r = V'.it k ∧ Sq.okStep E xs (.emplace k s) (some k) xs') o')
      (fun e o' => Fails E N al V o xs (.emplace k s) e o') o := by
  have hl := h.len
  unfold emplace
  rw [wp_bind, wp_getObj, wp_bind, wp_run (assert_run (h.inRange hk)), h.first_eq, wp_bind,
    wp_run (h.dist_run (Nat.zero_le _) (by omega) _), wp_bind,
    wp_run (h.adv_run (p := 0) (q := k) (by omega) (by omega) (by simp) _), h.eq_end, wp_ite]
  split
  · rename_i hd
    simp only [decide_eq_true_eq] at hd
    refine wp_grow (op := .emplace k s) h rfl (by simp) (by show V.size + 1 ≤ xs.length + 1; omega) ?_
    intro o1 V1 tcap1 hg hsz hx _ _
    rw [wp_bind, wp_run (hg.nth_run (k := k - 0) (by omega)), ← srcArg_ext hx h hs, Nat.sub_zero]
    exact emplaceTail_spec hg hs hk (by omega)
  · rename_i hd
    simp only [decide_eq_true_eq] at hd
    exact emplaceTail_spec h hs hk (by omega)

/-- `resize`, once there is room. -/
theorem resizeTail_spec {n : Nat} {s : Sq.Src α} {op : Sq.Op α} (h : GSt N o al V tcap xs) (hs : s.ok xs.length = true)
    (hn : xs.length < n) (hr : n ≤ V.size) (hop : op = .resizeV n s ∨ s = .value E.dflt ∧ op = .resize n) :
    wp (resizeTail E N n xs.length (srcArg V s))
      (fun _ o' => Post N al V o (fun _ xs' => Sq.okStep E xs op none xs') o')
      (fun e o' => Fails E N al V o xs op e o') o := by
  have hsim := sim_resizeTail (lim := V.size) (E := E) (al := al) (tcap := tcap) h.fit h.len (a := s.toArg ⟨V.tb, 0⟩) hn hr
  rw [srcArg_map, h.num] at hsim
  rcases hop with rfl | ⟨rfl, rfl⟩
  · exact h.callVal (g := fun _ => none) (op := .resizeV n s) (hsim.mono fun _ _ _ => rfl) rfl (pre_of hs hr rfl)
  · exact h.callVal (g := fun _ => none) (op := .resize n) (hsim.mono fun _ _ _ => rfl) rfl (pre_of rfl hr rfl)

/-- `resize`. -/
theorem resizeWith_spec {n : Nat} {s : Sq.Src α} {op : Sq.Op α} (h : GSt N o al V tcap xs) (hs : s.ok xs.length = true)
    (hop : op = .resizeV n s ∨ s = .value E.dflt ∧ op = .resize n) :
    wp (resizeWith E N n (srcArg V s))
      (fun _ o' => Post N al V o (fun _ xs' => Sq.okStep E xs op none xs') o')
      (fun e o' => Fails E N al V o xs op e o') o := by
  have hl := h.len
  by_cases hn : n ≤ xs.length
  · have hsim := sim_resizeDown (lim := V.size) (E := E) (al := al) (tcap := tcap) h.fit h.len h.base (a := s.toArg ⟨V.tb, 0⟩) hn
    rw [srcArg_map, h.num] at hsim
    rcases hop with rfl | ⟨rfl, rfl⟩
    · exact h.callVal (g := fun _ => none) (op := .resizeV n s) (hsim.mono fun _ _ _ => rfl) rfl
        (pre_of hs (by show n ≤ V.size; omega) rfl)
    · exact h.callVal (g := fun _ => none) (op := .resize n) (hsim.mono fun _ _ _ => rfl) rfl
        (pre_of rfl (by show n ≤ V.size; omega) rfl)
  · unfold resizeWith
    rw [wp_bind, wp_run h.size_run, if_neg hn, wp_bind, wp_run h.capacity_run, wp_ite]
    split
    · have hroom : op.room xs.length = n ∧ op.nothrow = false ∧ (∀ k l f, op ≠ .eraseAt k ∧ op ≠ .eraseRange k l ∧ op ≠ .eraseIf f) := by
        rcases hop with rfl | ⟨rfl, rfl⟩ <;> simp [Sq.Op.room, Sq.Op.nothrow]
      refine wp_grow (op := op) h hroom.2.1 hroom.2.2 (by rw [hroom.1]; omega) ?_
      intro o1 V1 tcap1 hg hsz hx _ _
      rw [← srcArg_ext hx h hs]
      exact resizeTail_spec hg hs (by omega) (by omega) hop
    · exact resizeTail_spec h hs (by omega) (by omega) hop

/-- `assign(n, value)`, once there is room. -/
theorem assignFillTail_spec {n : Nat} {v : α} (h : GSt N o al V tcap xs) (hn : xs.length < n) (hr : n ≤ V.size) :
    wp (assignFillTail E N n xs.length (.val v))
      (fun _ o' => Post N al V o (fun _ xs' => Sq.okStep E xs (.assignN n v) none xs') o')
      (fun e o' => Fails E N al V o xs (.assignN n v) e o') o := by
  have hsim := sim_assignFillTail (lim := V.size) (E := E) (al := al) (tcap := tcap) h.fit h.len (a := .val v) hn hr
  rw [h.num] at hsim
  exact h.callVal (g := fun _ => none) (op := .assignN n v) (hsim.mono fun _ _ _ => rfl) rfl (pre_of rfl hr rfl)

/-- `assign(n, value)`. -/
theorem assignFillN_spec {n : Nat} {v : α} (h : GSt N o al V tcap xs) :
    wp (assignFillN E N n (.val v))
      (fun _ o' => Post N al V o (fun _ xs' => Sq.okStep E xs (.assignN n v) none xs') o')
      (fun e o' => Fails E N al V o xs (.assignN n v) e o') o := by
  have hl := h.len
  by_cases hn : n ≤ xs.length
  · have hsim := sim_assignFillDown (lim := V.size) (E := E) (al := al) (tcap := tcap) h.fit h.len (a := .val v) hn
    rw [h.num] at hsim
    exact h.callVal (g := fun _ => none) (op := .assignN n v) (hsim.mono fun _ _ _ => rfl) rfl
      (pre_of rfl (by show n ≤ V.size; omega) rfl)
  · unfold assignFillN
    rw [wp_bind, wp_run h.size_run, if_neg hn, wp_bind, wp_run h.capacity_run, wp_ite]
    split
    · refine wp_grow (op := .assignN n v) h rfl (by simp) (by show V.size + (n - V.size) ≤ n; omega) ?_
      intro o1 V1 tcap1 hg hsz hx _ _
      exact assignFillTail_spec hg (by omega) (by omega)
    · exact assignFillTail_spec h (by omega) (by omega)

/-- `assign(first, last)`, once there is room. -/
theorem assignRangeTail_spec {ra : Bool} {ys : List α} (h : GSt N o al V tcap xs) (hn : xs.length < ys.length) (hr : ys.length ≤ V.size) :
    wp (assignRangeTail E N (.list ra (ys.map .val)) xs.length)
      (fun _ o' => Post N al V o (fun _ xs' => Sq.okStep E xs (.assignRange ys) none xs') o')
      (fun e o' => Fails E N al V o xs (.assignRange ys) e o') o := by
  have hf : IsFrom V (.list ra (ys.map .val)) (ys.map Arg.val) := by
    have := IsFrom.list (V := V) ra (ys.map Arg.val)
    rwa [map_val] at this
  have hsim := sim_assignRangeTail (lim := V.size) (E := E) (al := al) (tcap := tcap) h.fit h.len hf (by simpa using hn) (by simpa using hr)
  rw [h.num] at hsim
  exact h.callVal (g := fun _ => none) (op := .assignRange ys) (hsim.mono fun _ _ _ => rfl) rfl (pre_of rfl hr rfl)

/-- `assign(first, last)` (forward iterators). -/
theorem assignRange_spec {ra : Bool} {ys : List α} (h : GSt N o al V tcap xs) :
    wp (assignRange E N (.list ra (ys.map .val)))
      (fun _ o' => Post N al V o (fun _ xs' => Sq.okStep E xs (.assignRange ys) none xs') o')
      (fun e o' => Fails E N al V o xs (.assignRange ys) e o') o := by
  have hl := h.len
  by_cases hn : ys.length ≤ xs.length
  · have hf : IsFrom V (.list ra (ys.map .val)) (ys.map Arg.val) := by
      have := IsFrom.list (V := V) ra (ys.map Arg.val)
      rwa [map_val] at this
    have hsim := sim_assignRangeDown (lim := V.size) (E := E) (al := al) (tcap := tcap) h.fit h.len hf (by simpa using hn)
    rw [h.num] at hsim
    exact h.callVal (g := fun _ => none) (op := .assignRange ys) (hsim.mono fun _ _ _ => rfl) rfl
      (pre_of rfl (by show ys.length ≤ V.size; omega) rfl)
  · unfold assignRange
    simp only [Seg.From.dist]
    rw [wp_bind, wp_pure, List.length_map, wp_bind, wp_run h.size_run, if_neg hn, wp_bind, wp_run h.capacity_run, wp_ite]
    split
    · refine wp_grow (op := .assignRange ys) h rfl (by simp) (by show V.size + (ys.length - V.size) ≤ ys.length; omega) ?_
      intro o1 V1 tcap1 hg hsz hx _ _
      exact assignRangeTail_spec hg (by omega) (by omega)
    · exact assignRangeTail_spec h (by omega) (by omega)

/-- `insert(pos, first, last)`, once there is room. -/
theorem insertRangeTail_spec {ra : Bool} {k : Nat} {ys : List α} (h : GSt N o al V tcap xs) (hk : k ≤ xs.length)
    (hr : xs.length + ys.length ≤ V.size) (h0 : ys ≠ []) :
    wp (insertRangeTail E N ra k (xs.length - k) ys)
      (fun r o' => Post N al V o (fun V' xs' => r = V'.it k ∧ Sq.okStep E xs (.insertRange k ys) (some k) xs') o')
      (fun e o' => Fails E N al V o xs (.insertRange k ys) e o') o := by
  have hsim := sim_insertRangeTail (lim := V.size) (E := E) (al := al) (tcap := tcap) (ra := ra) h.fit h.len hk hr h0
  rw [h.num] at hsim
  refine h.callAt (op := .insertRange k ys) (t := o.m.tick) hsim ?_ (pre_of (by simp [Sq.Op.pre, hk]) hr rfl)
  rw [← add0]; rfl

/-- `insert(pos, first, last)` (forward iterators). -/
theorem insertRange_spec {ra : Bool} {k : Nat} {ys : List α} (h : GSt N o al V tcap xs) (hk : k ≤ xs.length) :
    wp (insertRange E N ra (V.it k) ys)
      (fun r o' => Post N al V o (fun V' xs' => r = V'.it k ∧ Sq.okStep E xs (.insertRange k ys) (some k) xs') o')
      (fun e o' => Fails E N al V o xs (.insertRange k ys) e o') o := by
  have hl := h.len
  unfold insertRange
  rw [wp_bind, wp_getObj, wp_bind, wp_run (assert_run (h.inRange hk)), h.first_eq, wp_bind,
    wp_run (h.dist_run (Nat.zero_le _) (by omega) _), wp_ite]
  split
  · rename_i h0
    subst h0
    rw [wp_run (h.adv_run (p := 0) (q := k) (by omega) (by omega) (by simp) _)]
    exact ⟨V, tcap, xs, h, .refl V, Frame.refl h.lay.wf, rfl, by simp [Sq.Op.Result], rfl⟩
  · rename_i h0
    rw [h.last_eq, wp_bind, wp_run (h.dist_run hk hl _), wp_bind, wp_run h.available_run, wp_ite, Nat.sub_zero]
    split
    · refine wp_grow (op := .insertRange k ys) h rfl (by simp) (by show _ ≤ xs.length + ys.length; omega) ?_
      intro o1 V1 tcap1 hg hsz hx _ _
      exact insertRangeTail_spec hg hk (by omega) h0
    · exact insertRangeTail_spec h hk (by omega) h0

theorem okStep_insertN {k n : Nat} {s s' : Sq.Src α} {v : α} {r : Option Nat} {ys : List α} (h1 : s.get? xs = some v)
    (h2 : s'.get? xs = some v) (h : Sq.okStep E xs (.insertN k n s') r ys) : Sq.okStep E xs (.insertN k n s) r ys := by
  obtain ⟨⟨w, hw, hy⟩, hr⟩ := h
  rw [h2] at hw
  cases hw
  exact ⟨⟨v, h1, hy⟩, hr⟩

theorem failStep_insertN {k n : Nat} {s s' : Sq.Src α} {e : Exn} {ys : List α} (h : Sq.failStep E xs (.insertN k n s') e ys) :
    Sq.failStep E xs (.insertN k n s) e ys :=
  ⟨rfl, h.len, fun _ h => (by cases h), fun _ _ _ _ => (by simp), fun _ _ _ h => (by cases h)⟩

/-- The contiguous operation, after the value has been copied. -/
theorem flatFillTail_eq {k n : Nat} {tmp : α} {s' : Sq.Src α} {rv : Bool} (hk : k ≤ xs.length) (hr : xs.length + n ≤ V.size) (h0 : n ≠ 0)
    (ha : s'.toArg (⟨V.tb, 0⟩ : Ptr) = (if rv = true then .rv tmp else .val tmp))
    (ht : 0 < o.m.tick) (hnt : (E.throws (o.m.tick - 1) && !(rv && E.nothrowMoveCtor)) = false) :
    StaticVector.exec (E.lim V.size) V.size (.insertN k n s') ⟨V.vec al xs.length, V.view { o.m with tick := o.m.tick - 1 }⟩ =
      (flatFillTail (E.lim V.size) k n tmp >>= Vector.indexOf) ⟨V.vec al xs.length, V.view o.m⟩ := by
  have hmk : (lift (mkTmp (E.lim V.size) (s'.toArg ⟨V.tb, 0⟩)) : Vector.VM α α) ⟨V.vec al xs.length, V.view { o.m with tick := o.m.tick - 1 }⟩ =
      .ok tmp ⟨V.vec al xs.length, V.view o.m⟩ := by
    rw [ha]
    have hb : (V.view { o.m with tick := o.m.tick - 1 }).bump = V.view o.m := by
      unfold View.view St.bump
      simp only
      congr 1
      omega
    unfold lift mkTmp
    cases rv
    · simp only [Bool.false_eq_true, if_false, Arg.value, Arg.src, Arg.isRv]
      rw [hb]
      rw [show (E.lim V.size).throws (V.view { o.m with tick := o.m.tick - 1 }).tick = E.throws (o.m.tick - 1) from rfl]
      have : E.throws (o.m.tick - 1) = false := by simpa using hnt
      simp [this]
    · simp only [if_true, Arg.value, Arg.src, Arg.isRv]
      rw [hb]
      rw [show (E.lim V.size).throws (V.view { o.m with tick := o.m.tick - 1 }).tick = E.throws (o.m.tick - 1) from rfl,
        show (E.lim V.size).nothrowMoveCtor = E.nothrowMoveCtor from rfl]
      rw [hnt]
      simp
  generalize V.view { o.m with tick := o.m.tick - 1 } = m0 at hmk ⊢
  generalize hm1 : V.view o.m = m1 at hmk ⊢
  show (StaticVector.insertFillN (E.lim V.size) V.size (Ptr.add ⟨V.tb, 0⟩ k) n (s'.toArg ⟨V.tb, 0⟩) >>= Vector.indexOf) _ = _
  rw [add0, bind_apply, bind_apply]
  congr 1
  unfold StaticVector.insertFillN StaticVector.assertAvailable flatFillTail
  rw [M.bind_assoc, bind_run (vsize_run al xs.length _), bind_run (assert_run (by omega)), bind_run (getObj_run _), bind_run (assert_run _)]
  · dsimp only
    rw [if_neg h0, bind_run hmk, bind_run (getObj_run _)]
    rfl
  · refine ⟨rfl, Nat.zero_le _, hk⟩

/-- An argument with a given value. -/
theorem src_of (V : View) (xs : List α) (tmp : α) (rv : Bool) :
    ∃ s' : Sq.Src α, s'.get? xs = some tmp ∧ s'.toArg (⟨V.tb, 0⟩ : Ptr) = (if rv = true then .rv tmp else .val tmp) ∧
      s'.ok xs.length = true := by
  cases rv
  · exact ⟨.value tmp, rfl, rfl, rfl⟩
  · exact ⟨.rvalue tmp, rfl, rfl, rfl⟩

/-- `insert(pos, n, value)`, once the value has been copied and there is room. -/
theorem insertFillTail_spec {k n : Nat} {tmp : α} {s : Sq.Src α} {rv : Bool} (h : GSt N o al V tcap xs) (hk : k ≤ xs.length)
    (hr : xs.length + n ≤ V.size) (h0 : n ≠ 0) (hs : s.get? xs = some tmp)
    (ht : 0 < o.m.tick) (hnt : (E.throws (o.m.tick - 1) && !(rv && E.nothrowMoveCtor)) = false) :
    wp (insertFillTail E N k n tmp)
      (fun r o' => Post N al V o (fun V' xs' => r = V'.it k ∧ Sq.okStep E xs (.insertN k n s) (some k) xs') o')
      (fun e o' => Fails E N al V o xs (.insertN k n s) e o') o := by
  have hsim := sim_insertFillTail (lim := V.size) (E := E) (al := al) (tcap := tcap) (tmp := tmp) h.fit h.len hk hr
  rw [h.num] at hsim
  obtain ⟨s', hg, ha⟩ := src_of V xs tmp rv
  refine wp_mono (h.callAt (op := .insertN k n s') (t := o.m.tick - 1) (E := E) hsim (flatFillTail_eq hk hr h0 ha.1 ht hnt)
    (pre_of (by simp [Sq.Op.pre, hk, ha.2]) hr rfl)) ?_ ?_
  · exact fun r o' hp => hp.mono fun V' xs' h => ⟨h.1, okStep_insertN hs hg h.2⟩
  · exact fun e o' hp => Post.mono hp fun V' xs' h => failStep_insertN h

/-- Copying the argument. -/
theorem wp_mkTmp_src {s : Sq.Src α} {Q : α → Obj SVec α → Prop} {X : Exn → Obj SVec α → Prop} (h : GSt N o al V tcap xs)
    (hs : s.ok xs.length = true)
    (hQ : ∀ v rv t, s.get? xs = some v → 0 < t → (E.throws (t - 1) && !(rv && E.nothrowMoveCtor)) = false → Q v ⟨o.obj, { o.m with tick := t }⟩)
    (hX : ∀ t, X .elem ⟨o.obj, { o.m with tick := t }⟩) :
    wp (lift (mkTmp E (srcArg V s))) Q X o := by
  rw [wp_lift]
  have key : ∀ (v : α) (a : Arg α), a.value o.m = some v → a.src E = none → s.get? xs = some v →
      wp (mkTmp E a) (fun b m' => Q b ⟨o.obj, m'⟩) (fun e m' => X e ⟨o.obj, m'⟩) o.m := by
    intro v a h1 h2 h3
    unfold wp mkTmp
    simp only [h1, h2]
    by_cases ht : (E.throws o.m.tick && !(a.isRv && E.nothrowMoveCtor)) = true
    · rw [if_pos ht]; exact hX (o.m.tick + 1)
    · rw [if_neg ht]
      exact hQ v a.isRv (o.m.tick + 1) h3 (by omega) (by simpa using ht)
  cases s with
  | value v => exact key v _ rfl rfl rfl
  | rvalue v => exact key v _ rfl rfl rfl
  | elem i =>
    simp only [Sq.Src.ok, decide_eq_true_eq] at hs
    refine key xs[i] _ ?_ rfl (by simp [Sq.Src.get?, hs])
    have := h.cells i (by have := h.len; have := V.size_le; omega)
    rw [List.getElem?_eq_getElem hs] at this
    exact this

/-- `insert(pos, n, value)`. -/
theorem insertFillN_spec {k n : Nat} {s : Sq.Src α} (h : GSt N o al V tcap xs) (hs : s.ok xs.length = true) (hk : k ≤ xs.length) :
    wp (insertFillN E N (V.it k) n (srcArg V s))
      (fun r o' => Post N al V o (fun V' xs' => r = V'.it k ∧ Sq.okStep E xs (.insertN k n s) (some k) xs') o')
      (fun e o' => Fails E N al V o xs (.insertN k n s) e o') o := by
  have hl := h.len
  unfold insertFillN
  rw [wp_bind, wp_getObj, wp_bind, wp_run (assert_run (h.inRange hk)), h.first_eq, wp_bind,
    wp_run (h.dist_run (Nat.zero_le _) (by omega) _), wp_ite]
  split
  · rename_i h0
    subst h0
    rw [wp_run (h.adv_run (p := 0) (q := k) (by omega) (by omega) (by simp) _)]
    obtain ⟨v, hv⟩ : ∃ v, s.get? xs = some v := by
      cases s with
      | elem i => simp only [Sq.Src.ok, decide_eq_true_eq] at hs; exact ⟨xs[i], by simp [Sq.Src.get?, hs]⟩
      | value v => exact ⟨v, rfl⟩
      | rvalue v => exact ⟨v, rfl⟩
    exact ⟨V, tcap, xs, h, .refl V, Frame.refl h.lay.wf, rfl, ⟨v, hv, by simp⟩, rfl⟩
  · rename_i h0
    rw [wp_bind]
    have hfr : ∀ t, Frame o.m V.foot ({ o.m with tick := t } : St α) V.foot := fun t =>
      Frame.of (h.retick t).lay.wf rfl (fun _ h1 h2 => absurd h1 h2) (fun _ _ _ => rfl) (fun _ h1 h2 => absurd h1 h2)
    refine wp_mkTmp_src h hs ?_ ?_
    · intro v rv t hv ht hnt
      have h1 := h.retick t
      rw [wp_bind, wp_run h1.available_run, Nat.sub_zero]
      refine wp_mono (Q' := fun r o' => Post N al V o (fun V' xs' => r = V'.it k ∧ Sq.okStep E xs (.insertN k n s) (some k) xs') o')
        (Q := fun r o' => Post N al V ⟨o.obj, { o.m with tick := t }⟩ (fun V' xs' => r = V'.it k ∧ Sq.okStep E xs (.insertN k n s) (some k) xs') o')
        (X := fun e o' => Fails E N al V ⟨o.obj, { o.m with tick := t }⟩ xs (.insertN k n s) e o') ?_
        (fun r o' hp => hp.after (.refl V) (hfr t)) (fun e o' hp => Post.after hp (.refl V) (hfr t))
      rw [wp_ite]
      split
      · refine wp_grow (op := .insertN k n s) h1 rfl (by simp) (by show _ ≤ xs.length + n; omega) ?_
        intro o1 V1 tcap1 hg hsz hx ht1 ht2
        exact insertFillTail_spec (rv := false) hg hk (by omega) h0 hv ht1 (by simp [ht2])
      · exact insertFillTail_spec h1 hk (by omega) h0 hv ht hnt
    · intro t
      exact ⟨V, tcap, xs, h.retick t, .refl V, hfr t, rfl, (by simp), fun _ _ => rfl, fun _ => (by simp), fun _ _ _ h => (by cases h)⟩

end SegVec
end Sfl
