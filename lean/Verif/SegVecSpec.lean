import Verif.SegStore
/-
  Specifications of the functions of segmented_vector: storage management, and in-place functions through the contiguous
  memory. Proof machinery: no code is modelled in this file.
-/

set_option linter.unusedSimpArgs false
set_option linter.unusedSectionVars false

namespace Sfl
open World
variable {α : Type}

theorem World.Frame.of {m m' : St α} {F F' : Foot} (wf : m'.Wf) (mem : m'.mem = m.mem) (new : ∀ c, F' c → ¬ F c → m.blk c = none)
    (keep : ∀ c, ¬ F c → ¬ F' c → m'.blk c = m.blk c) (freed : ∀ c, F c → ¬ F' c → m'.blk c = none) : Frame m F m' F' where
  wf := wf
  keep := fun c hc hb => by
    have : ¬ F' c := fun h => hb (new c h hc)
    exact ⟨this, keep c hc this, fun k => by rw [mem]⟩
  fresh := fun c hc hb hn => by rw [keep c hc hn]; exact hb
  freed := freed

/-- The blocks of a segmented container. -/
def View.foot (V : View) : Foot := fun c => c = V.tb ∨ c ∈ V.segs

/-- No blocks. -/
def World.noFoot : Foot := fun _ => False

namespace SegVec
variable {E : Env α} {N al tcap : Nat} {V : View} {xs : List α} {o : Obj SVec α}

theorem wp_onTab {β : Type} {p : Seg.TM α β} {Q : β → Obj SVec α → Prop} {X : Exn → Obj SVec α → Prop} :
    wp (onTab p) Q X o = wp p (fun b o' => Q b ⟨{ o.obj with tab := o'.obj }, o'.m⟩)
      (fun e o' => X e ⟨{ o.obj with tab := o'.obj }, o'.m⟩) ⟨o.obj.tab, o.m⟩ := by
  unfold wp onTab
  cases p ⟨o.obj.tab, o.m⟩ <;> rfl

/-- A segmented_vector holding `xs`, with the segments described by `V` and a table of `tcap` slots. -/
structure GSt (N : Nat) (o : Obj SVec α) (al : Nat) (V : View) (tcap : Nat) (xs : List α) : Prop where
  lay : V.Lay al tcap o.m
  base : V.base = 0
  num : V.N = N
  tab : V.Tab o.obj.tab
  tlen : o.obj.tab.cells.length = tcap
  slen : V.segs.length ≤ tcap
  obj : o.obj = V.svec o.obj.tab tcap al xs.length
  len : xs.length ≤ V.size
  cells : ∀ k, k < V.cap → V.slot o.m k = xs[k]?

theorem GSt.fit (h : GSt N o al V tcap xs) : Fit V o.obj.tab := ⟨h.tab, h.lay.npos, h.lay.len, h.lay.nodup⟩

theorem GSt.live (h : GSt N o al V tcap xs) : ∀ c, V.foot c → o.m.blk c ≠ none := by
  rintro c (rfl | hc)
  · rw [h.lay.tbk]; simp
  · rw [h.lay.sblk c hc]; simp

theorem GSt.view_eq (h : GSt N o al V tcap xs) : V = ⟨V.tb, 0, V.segs, N⟩ := by
  have hb := h.base
  have hn := h.num
  obtain ⟨tb, base, segs, N'⟩ := V
  obtain rfl : base = 0 := hb
  obtain rfl : N' = N := hn
  rfl

theorem wp_run {σ β : Type} {m : M σ β} {s s' : σ} {b : β} {Q : β → σ → Prop} {X : Exn → σ → Prop} (h : m s = .ok b s') :
    wp m Q X s = Q b s' := by
  unfold wp; rw [h]

theorem GSt.size_run (h : GSt N o al V tcap xs) : SegVec.size N o = .ok xs.length o := by
  have := SegVec.size_run (al := al) (tcap := tcap) h.fit h.len o.m
  rw [← h.obj, h.num] at this
  exact this

theorem GSt.capacity_run (h : GSt N o al V tcap xs) : SegVec.capacity N o = .ok V.size o := by
  have := SegVec.capacity_run (al := al) (tcap := tcap) h.fit h.len o.m
  rw [← h.obj, h.num] at this
  exact this

theorem GSt.available_run (h : GSt N o al V tcap xs) : SegVec.available N o = .ok (V.size - xs.length) o := by
  have := SegVec.available_run (al := al) (tcap := tcap) h.fit h.len o.m
  rw [← h.obj, h.num] at this
  exact this

theorem GSt.addressOf_run (h : GSt N o al V tcap xs) {k : Nat} (hk : k ≤ V.size) : addressOf N k o = .ok (V.addr k) o := by
  have := SegVec.addressOf_run (al := al) (tcap := tcap) h.fit h.len h.base hk o.m
  rw [← h.obj, h.num] at this
  exact this

theorem GSt.nth_run (h : GSt N o al V tcap xs) {k : Nat} (hk : k ≤ xs.length) : nth N k o = .ok (V.it k) o := by
  have := SegVec.nth_run (al := al) (tcap := tcap) h.fit h.len h.base hk o.m
  rw [← h.obj, h.num] at this
  exact this

theorem GSt.indexOf_run (h : GSt N o al V tcap xs) {k : Nat} (hk : k ≤ xs.length) : indexOf N (V.it k) o = .ok (some k) o := by
  have := SegVec.indexOf_run (al := al) (tcap := tcap) h.fit h.len hk o.m
  rw [← h.obj, h.num] at this
  exact this

theorem Holds_tab {t : Table} (h : V.Tab t) (hb : V.base = 0) : Seg.Holds t 0 V.segs := by
  intro j hj
  have := h.cells j hj
  rw [hb] at this
  exact this

theorem tab_of {t : Table} {tb : Nat} {segs : List Nat} (hb : t.blk = tb) (h : Seg.Holds t 0 segs) : View.Tab ⟨tb, 0, segs, N⟩ t :=
  ⟨hb, fun i hi => h i hi⟩

/-- The description of a segmented_vector from its parts. -/
theorem GSt.of {tb : Nat} {segs : List Nat} {t : Table} {m : St α} (hN : 0 < N) (wf : m.Wf) (len : 0 < segs.length)
    (nodup : segs.Nodup) (notin : tb ∉ segs) (tbk : m.blk tb = some ⟨tcap, some al⟩) (traw : ∀ i, m.mem tb i = none)
    (sblk : ∀ b, b ∈ segs → m.blk b = some ⟨N, some al⟩) (beyond : ∀ b, b ∈ segs → ∀ i, N ≤ i → m.mem b i = none)
    (hb : t.blk = tb) (hh : Seg.Holds t 0 segs) (tlen : t.cells.length = tcap) (hl : xs.length ≤ (View.mk tb 0 segs N).size)
    (cells : ∀ k, k < (View.mk tb 0 segs N).cap → (View.mk tb 0 segs N).slot m k = xs[k]?) :
    GSt N ⟨(View.mk tb 0 segs N).svec t tcap al xs.length, m⟩ al ⟨tb, 0, segs, N⟩ tcap xs := by
  have hcap : 0 < (View.mk tb 0 segs N).cap := Nat.mul_pos len hN
  refine ⟨⟨wf, hN, len, nodup, notin, tbk, traw, sblk, beyond, ?_⟩, rfl, rfl, tab_of hb hh, tlen, ?_, rfl, hl, cells⟩
  · have := cells (View.mk tb 0 segs N).size (by unfold View.size; omega)
    rw [List.getElem?_eq_none hl] at this
    exact this
  · have h1 := hh (segs.length - 1) (by omega)
    rw [List.getElem?_eq_some_iff] at h1
    obtain ⟨h2, -⟩ := h1
    rw [tlen] at h2; show segs.length ≤ tcap; omega

/-- Further segments do not move the slots. -/
theorem addr_append (V : View) (news : List Nat) (tb : Nat) (hN : 0 < V.N) {k : Nat} (hk : k < V.cap) :
    (View.mk tb 0 (V.segs ++ news) V.N).addr k = V.addr k := by
  unfold View.addr View.sg
  have := View.div_lt hN hk
  simp only [List.getD_eq_getElem?_getD]
  rw [List.getElem?_append_left this]

theorem addr_take (V : View) (n tb : Nat) {k : Nat} (hk : k < n * V.N) :
    (View.mk tb 0 (V.segs.take n) V.N).addr k = V.addr k := by
  unfold View.addr View.sg
  have : k / V.N < n := Nat.div_lt_of_lt_mul (by rw [Nat.mul_comm]; exact hk)
  simp only [List.getD_eq_getElem?_getD]
  rw [List.getElem?_take_of_lt this]

theorem size_of (tb : Nat) (segs : List Nat) {n : Nat} (hn : segs.length = n / N + 1) (hN : 0 < N) : n ≤ (View.mk tb 0 segs N).size := by
  unfold View.size View.cap
  simp only
  rw [hn, Nat.add_mul, Nat.one_mul]
  have h1 := Nat.div_add_mod n N
  have h2 := Nat.mod_lt n hN
  rw [Nat.mul_comm N] at h1
  omega

theorem it_zero (V : View) (h : V.base = 0) : V.it 0 = ⟨⟨V.tb, 0⟩, ⟨V.sg 0, 0⟩⟩ := by
  simp [View.it, View.addr, h]

theorem it_last (V : View) (h : V.base = 0) (hN : 0 < V.N) (hl : 0 < V.segs.length) :
    V.it V.size = ⟨⟨V.tb, V.segs.length - 1⟩, ⟨V.sg (V.segs.length - 1), V.N - 1⟩⟩ := by
  obtain ⟨n, hn⟩ : ∃ n, V.segs.length = n + 1 := ⟨V.segs.length - 1, by omega⟩
  have e : V.size = V.N - 1 + V.N * n := by
    unfold View.size View.cap
    rw [hn, Nat.add_mul, Nat.one_mul, Nat.mul_comm]; omega
  have h1 : V.size / V.N = n := by
    rw [e, Nat.add_mul_div_left _ _ hN, Nat.div_eq_of_lt (by omega), Nat.zero_add]
  have h2 : V.size % V.N = V.N - 1 := by
    rw [e, Nat.add_mul_mod_self_left, Nat.mod_eq_of_lt (by omega)]
  simp [View.it, View.addr, h, h1, h2, hn]

/-- `allocate_storage`. -/
theorem allocateStorage_spec {n : Nat} (hN : 0 < N) (hw : o.m.Wf) (hal : o.obj.alloc = al) :
    wp (allocateStorage E N n)
      (fun _ o' => ∃ V tcap, GSt N o' al V tcap [] ∧ n ≤ V.size ∧ o'.m.mem = o.m.mem ∧ Frame o.m noFoot o'.m V.foot)
      (fun e o' => Frame o.m noFoot o'.m noFoot ∧ o'.m.mem = o.m.mem ∧ (e = .lengthError → E.maxSize < n) ∧
        (e = .lengthError ∨ e = .badAlloc) ∧ (o'.obj.alloc = al)) o := by
  subst hal
  unfold allocateStorage
  split
  · rename_i h
    rw [wp_throw]
    exact ⟨Frame.refl hw, rfl, fun _ => h, Or.inl rfl, rfl⟩
  simp only [wp_bind, wp_getObj, wp_lift]
  refine wp_allocate' hw (by have := Nat.le_max_right (n / N + 1) 8; omega) ?_ ?_
  · intro s1 hw1 hm1 ht1 hth hnb hk1
    rw [wp_setObj, wp_tryCatch, wp_bind, wp_onTab]
    have hcap := Nat.le_max_left (n / N + 1) 8
    generalize max (n / N + 1) 8 = tcap at hk1 hcap ⊢
    have hr1 : 1 ≤ n / N + 1 := Nat.succ_le_succ (Nat.zero_le _)
    generalize hr : n / N + 1 = r at hcap hr1 ⊢
    refine Seg.wp_allocSegs hN rfl (by simp [Seg.newTable]; omega) hw1 ?_ ?_
    · intro news t' s' hl hx hh hu htk
      dsimp only at hx hu
      have hb : t'.blk = o.m.next := by rw [hu.blk]; rfl
      have htl : t'.cells.length = tcap := by rw [hu.len]; simp [Seg.newTable]
      have hnin : o.m.next ∉ news := by
        intro hc
        have := hx.fresh _ hc
        rw [hk1, if_pos rfl] at this; cases this
      rw [wp_bind, wp_getObj, wp_bind]
      obtain ⟨x, bs, rfl⟩ : ∃ x bs, news = x :: bs := by
        cases news with
        | nil => simp at hl; omega
        | cons x bs => exact ⟨x, bs, rfl⟩
      have h0 := hh 0 (by simp)
      have hlast := hh (r - 1) (by omega)
      refine Seg.wp_deref hb.symm h0 ?_
      rw [wp_bind]
      have e1 : ({ blk := o.m.next, off := 0 } : Ptr).add r = ⟨o.m.next, r⟩ := by simp [Ptr.add]
      rw [e1]
      refine Seg.wp_shift (by simp; omega) ?_
      have e2 : ((r : Int) + -1).toNat = r - 1 := by omega
      simp only
      rw [e2, wp_bind]
      rw [Nat.zero_add] at hlast
      refine Seg.wp_deref hb.symm hlast ?_
      rw [wp_setObj]
      have hsz : n ≤ (View.mk o.m.next 0 (x :: bs) N).size := size_of _ _ (by rw [hl, hr]) hN
      have hraw : ∀ c, c ∈ (x :: bs) → ∀ k, s'.mem c k = none := by
        intro c hc k
        rw [hx.mem]; exact hw1.dead c (hx.fresh c hc) k
      have hg := GSt.of (N := N) (al := o.obj.alloc) (tcap := tcap) (xs := ([] : List α)) (tb := o.m.next) (segs := x :: bs) (t := t') (m := s')
        hN hx.wf (by simp) hx.nodup hnin (by rw [hx.blk, if_neg hnin, hk1, if_pos rfl])
        (by intro i; rw [hx.mem, hm1]; exact hw.dead _ hnb i) (by intro b hb; rw [hx.blk, if_pos hb])
        (fun b hb i _ => hraw b hb i) hb hh htl (Nat.zero_le _)
        (by
          intro k hk
          show s'.mem _ _ = _
          rw [hraw _ (View.addr_mem hN hk)]; rfl)
      refine ⟨⟨o.m.next, 0, x :: bs, N⟩, tcap, ?_, hsz, by rw [← hm1]; exact hx.mem, ?_⟩
      · have el := it_last ⟨o.m.next, 0, x :: bs, N⟩ rfl hN (by simp)
        have ez := it_zero ⟨o.m.next, 0, x :: bs, N⟩ rfl
        have : (View.mk o.m.next 0 (x :: bs) N).svec t' tcap o.obj.alloc 0 = { o.obj with
            tab := t', tfirst := ⟨o.m.next, 0⟩, tlast := ⟨o.m.next, r⟩, teos := Ptr.add ⟨o.m.next, 0⟩ tcap,
            first := ⟨⟨o.m.next, 0⟩, ⟨(x :: bs).getD 0 0, 0⟩⟩, last := ⟨⟨o.m.next, 0⟩, ⟨(x :: bs).getD 0 0, 0⟩⟩,
            eos := ⟨⟨o.m.next, r - 1⟩, Ptr.add ⟨(x :: bs).getD (r - 1) 0, 0⟩ (N - 1)⟩ } := by
          unfold View.svec
          rw [el, ez]
          simp only [View.sg, hl, Ptr.add, Nat.zero_add]
        simp only [List.length_nil] at hg
        rw [this] at hg
        exact hg
      · refine Frame.of hx.wf (hx.mem.trans hm1) ?_ ?_ ?_
        · rintro c (rfl | hc) -
          · exact hnb
          · have := hx.fresh c hc
            rw [hk1] at this
            split at this
            · cases this
            · exact this
        · intro c _ hc
          rw [hx.blk, if_neg (fun h => hc (Or.inr h)), hk1, if_neg (fun h => hc (Or.inl h))]
        · intro c hc; exact hc.elim
    · intro t' s' hx hu
      dsimp only at hx hu
      rw [wp_bind, wp_onTab]
      refine Seg.wp_deallocTable hx.wf (by rw [hx.blk]; simp [hk1]) ?_ ?_
      · intro k
        show s'.mem _ k = none
        rw [hx.mem, hm1]; exact hw.dead _ hnb k
      · intro m' hw' hm' _ hk'
        rw [wp_throw]
        refine ⟨Frame.of hw' (hm'.trans (hx.mem.trans hm1)) (fun c h => h.elim) ?_ (fun c h => h.elim), hm'.trans (hx.mem.trans hm1),
          by simp, Or.inr rfl, rfl⟩
        intro c _ _
        rw [hk']
        show (if c = o.m.next then none else s'.blk c) = _
        rw [hx.blk, hk1]
        by_cases e : c = o.m.next
        · rw [if_pos e, e, hnb]
        · simp [e]
  · intro s' hw' hm hk
    refine ⟨Frame.of hw' hm (fun c h => h.elim) (fun c _ _ => hk c) (fun c h => h.elim), hm, by simp, Or.inr rfl, trivial⟩

/-- `deallocate_storage` of an empty container. -/
theorem deallocateStorage_spec (h : GSt N o al V tcap []) :
    wp (deallocateStorage N)
      (fun _ o' => o'.obj = { o.obj with tab := Seg.noTable } ∧ Frame o.m V.foot o'.m noFoot ∧ o'.m.mem = o.m.mem ∧ o'.m.tick = o.m.tick)
      (fun _ _ => False) o := by
  have hraw : ∀ c, c ∈ V.segs → ∀ k, o.m.mem c k = none := by
    intro c hc k
    by_cases hk : k < V.N
    · obtain ⟨i, hi, rfl⟩ := List.getElem_of_mem hc
      have h1 : i * V.N + k < V.cap := by
        unfold View.cap
        calc i * V.N + k < i * V.N + V.N := by omega
          _ = (i + 1) * V.N := by rw [Nat.add_mul, Nat.one_mul]
          _ ≤ V.segs.length * V.N := Nat.mul_le_mul_right _ hi
      have := h.cells _ h1
      have e1 : (i * V.N + k) / V.N = i := by
        rw [Nat.add_comm, Nat.mul_comm, Nat.add_mul_div_left _ _ h.lay.npos, Nat.div_eq_of_lt hk, Nat.zero_add]
      have e2 : (i * V.N + k) % V.N = k := by
        rw [Nat.add_comm, Nat.mul_comm, Nat.add_mul_mod_self_left, Nat.mod_eq_of_lt hk]
      simp only [View.slot, View.addr, e1, e2, View.sg_eq hi] at this
      rw [this]; rfl
    · exact h.lay.beyond c hc k (by omega)
  unfold deallocateStorage
  rw [wp_bind, wp_getObj, wp_bind, wp_onTab]
  have hobj := h.obj
  have e1 : o.obj.tfirst = ⟨V.tb, 0⟩ := by rw [hobj]; rfl
  have e2 : o.obj.tlast = ⟨V.tb, V.segs.length⟩ := by rw [hobj]; rfl
  have e3 : o.obj.teos = ⟨V.tb, tcap⟩ := by rw [hobj]; rfl
  have e4 : o.obj.alloc = al := by rw [hobj]; rfl
  rw [e1, e2, e3, e4]
  refine Seg.wp_deallocSegs (o := ⟨o.obj.tab, o.m⟩) h.tab.blk.symm (by simp) (Holds_tab h.tab h.base) h.lay.nodup h.lay.wf
    (by rw [← h.num]; exact h.lay.sblk) hraw ?_
  intro m1 hw1 hm1 ht1 hk1
  rw [wp_bind]
  refine wp_distance rfl (by simp) ?_
  rw [wp_onTab]
  refine Seg.wp_deallocTable hw1 ?_ ?_ ?_
  · show m1.blk V.tb = _
    rw [hk1, if_neg h.lay.notin]; exact h.lay.tbk
  · intro k
    show m1.mem V.tb k = _
    rw [hm1]; exact h.lay.traw k
  · intro m' hw' hm' ht' hk'
    refine ⟨rfl, Frame.of hw' (hm'.trans hm1) (fun c h => h.elim) ?_ ?_, hm'.trans hm1, ht'.trans ht1⟩
    · intro c hc _
      rw [hk']
      show (if c = V.tb then none else m1.blk c) = _
      rw [if_neg (fun e => hc (Or.inl e)), hk1, if_neg (fun e => hc (Or.inr e))]
    · intro c hc _
      rw [hk']
      show (if c = V.tb then none else m1.blk c) = _
      rcases hc with rfl | hc
      · simp
      · rw [hk1]; simp [hc]

theorem it_tb (tb tb' : Nat) (segs : List Nat) (k : Nat) :
    (View.mk tb' 0 segs N).it k = ⟨⟨tb', k / N⟩, ((View.mk tb 0 segs N).it k).loc⟩ := by
  simp [View.it, View.addr, View.sg]

theorem it_seg (tb : Nat) (segs : List Nat) (k : Nat) : ((View.mk tb 0 segs N).it k).seg = ⟨tb, k / N⟩ := by
  simp [View.it]

/-- The state does not depend on anything but the blocks of the container. -/
theorem GSt.frame {m' : St α} (h : GSt N o al V tcap xs) (hw : m'.Wf)
    (hf : ∀ c, V.foot c → m'.blk c = o.m.blk c ∧ ∀ k, m'.mem c k = o.m.mem c k) : GSt N ⟨o.obj, m'⟩ al V tcap xs := by
  have hs := h.lay.size_lt
  refine ⟨⟨hw, h.lay.npos, h.lay.len, h.lay.nodup, h.lay.notin, ?_, ?_, ?_, ?_, ?_⟩, h.base, h.num, h.tab, h.tlen, h.slen, h.obj,
    h.len, ?_⟩
  · show m'.blk _ = _
    rw [(hf _ (Or.inl rfl)).1]; exact h.lay.tbk
  · intro i
    show m'.mem _ i = _
    rw [(hf _ (Or.inl rfl)).2]; exact h.lay.traw i
  · intro b hb
    show m'.blk b = _
    rw [(hf b (Or.inr hb)).1]; exact h.lay.sblk b hb
  · intro b hb i hi
    show m'.mem b i = _
    rw [(hf b (Or.inr hb)).2]; exact h.lay.beyond b hb i hi
  · show m'.mem _ _ = _
    rw [(hf _ (Or.inr (View.addr_mem h.lay.npos hs))).2]; exact h.lay.hidden
  · intro k hk
    show m'.mem _ _ = _
    rw [(hf _ (Or.inr (View.addr_mem h.lay.npos hk))).2]; exact h.cells k hk

/-- A new table. -/
theorem replaceTable_spec {newCap : Nat} (h : GSt N o al V tcap xs) (hc : V.segs.length ≤ newCap) :
    wp (replaceTable E newCap)
      (fun _ o' => ∃ tb, GSt N o' al ⟨tb, 0, V.segs, N⟩ newCap xs ∧ o'.m.mem = o.m.mem ∧
        Frame o.m V.foot o'.m (View.mk tb 0 V.segs N).foot ∧ 0 < o'.m.tick ∧ E.throws (o'.m.tick - 1) = false)
      (fun e o' => e = .badAlloc ∧ GSt N o' al V tcap xs ∧ o'.m.mem = o.m.mem ∧ Frame o.m V.foot o'.m V.foot) o := by
  obtain ⟨tb, base, segs, N'⟩ := V
  obtain rfl : base = 0 := h.base
  obtain rfl : N' = N := h.num
  have hw := h.lay.wf
  have hlen : 0 < segs.length := h.lay.len
  have hobj := h.obj
  have hlx : xs.length / N' < segs.length := View.div_lt (V := ⟨tb, 0, segs, N'⟩) h.lay.npos (by have := h.lay.size_lt; have := h.len; omega)
  have e1 : o.obj.tfirst = ⟨tb, 0⟩ := by rw [hobj]; rfl
  have e2 : o.obj.tlast = ⟨tb, segs.length⟩ := by rw [hobj]; rfl
  have e3 : o.obj.teos = ⟨tb, tcap⟩ := by rw [hobj]; rfl
  have e4 : o.obj.alloc = al := by rw [hobj]; rfl
  have e5 : o.obj.first = (View.mk tb 0 segs N').it 0 := by rw [hobj]; rfl
  have e6 : o.obj.last = (View.mk tb 0 segs N').it xs.length := by rw [hobj]; rfl
  have e7 : o.obj.eos = (View.mk tb 0 segs N').it (View.mk tb 0 segs N').size := by rw [hobj]; rfl
  unfold replaceTable
  rw [wp_bind, wp_getObj]
  simp only [e1, e2, e3, e4, e5, e6, e7]
  simp only [it_seg]
  rw [wp_bind]
  refine wp_distance rfl (Nat.zero_le _) ?_
  rw [wp_bind]
  refine wp_distance rfl (by simp) ?_
  rw [wp_bind]
  refine wp_distance rfl (by simp) ?_
  rw [wp_bind, wp_lift]
  refine wp_allocate' hw (by dsimp only at hc; omega) ?_ ?_
  · intro s1 hw1 hm1 ht1 hth hnb hk1
    rw [wp_bind]
    refine wp_distance rfl (by simp) ?_
    rw [wp_bind]
    simp only [Nat.sub_zero]
    refine Seg.wp_copyTable (t := o.obj.tab) (t' := Seg.newTable ⟨o.m.next, 0⟩ newCap) (bs := segs) h.tab.blk.symm rfl
      (Holds_tab h.tab rfl) (by simp [Seg.newTable]; exact hc) ?_
    intro t'' hh hu
    rw [wp_bind, wp_onTab]
    have hne : tb ≠ o.m.next := by
      rintro rfl
      have := h.lay.tbk
      dsimp only at this
      rw [hnb] at this; cases this
    refine Seg.wp_deallocTable hw1 ?_ ?_ ?_
    · show s1.blk tb = _
      rw [hk1, if_neg hne]; exact h.lay.tbk
    · intro k
      show s1.mem tb k = _
      rw [hm1]; exact h.lay.traw k
    intro m' hw' hm' ht' hk'
    have hk : ∀ c, m'.blk c = if c = tb then none else if c = o.m.next then some ⟨newCap, some al⟩ else o.m.blk c := by
      intro c; rw [hk']; show (if c = tb then none else s1.blk c) = _; rw [hk1]
    have hm : m'.mem = o.m.mem := hm'.trans hm1
    have hns : o.m.next ∉ segs := by
      intro hc
      have := h.lay.sblk _ hc
      rw [hnb] at this; cases this
    rw [wp_setObj]
    have hbl : t''.blk = o.m.next := by rw [hu.blk]; rfl
    have hg := GSt.of (N := N') (al := al) (tcap := newCap) (xs := xs) (tb := o.m.next) (segs := segs) (t := t'') (m := m')
      h.lay.npos hw' hlen h.lay.nodup hns (by rw [hk, if_neg (Ne.symm hne), if_pos rfl])
      (by intro i; rw [hm]; exact hw.dead _ hnb i)
      (by
        intro b hb
        rw [hk, if_neg (fun e => h.lay.notin (by subst e; exact hb)), if_neg (fun e => hns (by subst e; exact hb))]
        exact h.lay.sblk b hb)
      (by intro b hb i hi; rw [hm]; exact h.lay.beyond b hb i hi) hbl hh (by rw [hu.len]; simp [Seg.newTable]) h.len
      (by intro k hk; have := h.cells k hk; rw [← this]; show m'.mem _ _ = _; rw [hm]; rfl)
    refine ⟨o.m.next, ?_, hm, ?_, ?_⟩
    · unfold View.svec at hg
      rw [it_tb tb o.m.next segs 0, it_tb tb o.m.next segs xs.length,
        it_tb tb o.m.next segs (View.mk o.m.next 0 segs N').size, Nat.zero_div] at hg
      simp only [Nat.zero_div, Nat.sub_zero, Ptr.add, Nat.zero_add]
      exact hg
    · refine Frame.of hw' hm ?_ ?_ ?_
      · rintro c (rfl | hc) hn
        · exact hnb
        · exact absurd (Or.inr hc) hn
      · intro c h1 h2
        rw [hk, if_neg (fun e => h1 (Or.inl e)), if_neg (fun e => h2 (Or.inl e))]
      · rintro c (rfl | hc) hn
        · rw [hk, if_pos rfl]
        · exact absurd (Or.inr hc) hn
    · show 0 < m'.tick ∧ _
      rw [ht']
      show 0 < s1.tick ∧ E.throws (s1.tick - 1) = false
      rw [ht1]
      exact ⟨by omega, by simpa using hth⟩
  · intro s' hw' hm hk
    refine ⟨by trivial, h.frame hw' (fun c _ => ⟨hk c, fun k => by rw [hm]⟩), hm,
      Frame.of hw' hm (fun c h1 h2 => absurd h1 h2) (fun c _ _ => hk c) (fun c h1 h2 => absurd h1 h2)⟩

/-- The first part of `grow_storage`: afterwards the table has `required` free slots. -/
theorem growTable_spec {required : Nat} (h : GSt N o al V tcap xs) :
    wp (growTable E required)
      (fun _ o' => ∃ tb tcap', GSt N o' al ⟨tb, 0, V.segs, N⟩ tcap' xs ∧ V.segs.length + required ≤ tcap' ∧
        o'.m.mem = o.m.mem ∧ Frame o.m V.foot o'.m (View.mk tb 0 V.segs N).foot)
      (fun e o' => e = .badAlloc ∧ GSt N o' al V tcap xs ∧ o'.m.mem = o.m.mem ∧ Frame o.m V.foot o'.m V.foot) o := by
  have hobj := h.obj
  have e1 : o.obj.tfirst = ⟨V.tb, 0⟩ := by rw [hobj]; rfl
  have e2 : o.obj.tlast = ⟨V.tb, V.segs.length⟩ := by rw [hobj]; rfl
  have e3 : o.obj.teos = ⟨V.tb, tcap⟩ := by rw [hobj]; rfl
  have hs := h.slen
  unfold growTable
  rw [wp_bind, wp_getObj, wp_bind, e1, e2, e3]
  refine wp_distance rfl (by simpa using hs) ?_
  rw [wp_ite]
  dsimp only
  split
  · rw [wp_bind]
    refine wp_distance rfl (by simp) ?_
    simp only [Nat.sub_zero]
    have hm := Nat.le_max_right (tcap + tcap / 2) (tcap - (tcap - V.segs.length) + required)
    refine wp_mono (replaceTable_spec h (by omega)) ?_ ?_
    · rintro _ o' ⟨tb, k1, k2, k3, -⟩
      exact ⟨tb, _, k1, by omega, k2, k3⟩
    · rintro e o' ⟨k1, k2, k3, k4⟩
      exact ⟨k1, k2, k3, k4⟩
  · rw [wp_pure]
    refine ⟨V.tb, tcap, ?_, by omega, rfl, ?_⟩
    · rw [← h.view_eq]; exact h
    · exact Frame.refl h.lay.wf

/-- `grow_storage`: the slots keep their addresses. -/
theorem growStorage_spec {n : Nat} (h : GSt N o al V tcap xs) :
    wp (growStorage E N n)
      (fun _ o' => ∃ tb news tcap', GSt N o' al ⟨tb, 0, V.segs ++ news, N⟩ tcap' xs ∧
        (V.size + n ≤ (View.mk tb 0 (V.segs ++ news) N).size ∧ (View.mk tb 0 (V.segs ++ news) N).size ≤ V.size + n + N) ∧
        o'.m.mem = o.m.mem ∧ Frame o.m V.foot o'.m (View.mk tb 0 (V.segs ++ news) N).foot ∧
        0 < o'.m.tick ∧ E.throws (o'.m.tick - 1) = false)
      (fun e o' => (e = .lengthError → E.maxSize < V.size + n) ∧ (e = .lengthError ∨ e = .badAlloc) ∧
        ∃ tb tcap', GSt N o' al ⟨tb, 0, V.segs, N⟩ tcap' xs ∧ o'.m.mem = o.m.mem ∧
          Frame o.m V.foot o'.m (View.mk tb 0 V.segs N).foot) o := by
  unfold growStorage
  rw [wp_bind, wp_run h.capacity_run, wp_ite]
  have hve := h.view_eq
  have hN : 0 < N := by have := h.lay.npos; rw [h.num] at this; exact this
  split
  · rename_i hs
    rw [wp_throw]
    refine ⟨fun _ => ?_, Or.inl rfl, V.tb, tcap, by rw [← hve]; exact h, rfl, by rw [← hve]; exact Frame.refl h.lay.wf⟩
    unfold sizeSub at hs
    split at hs <;> omega
  rw [wp_bind]
  have hr1 : 1 ≤ n / N + 1 := Nat.succ_le_succ (Nat.zero_le _)
  refine wp_mono (growTable_spec (required := n / N + 1) h) ?_ ?_
  · rintro _ o1 ⟨tb, tcap', h1, hl, hm1, hf⟩
    have hsz : V.size + n ≤ (V.segs.length + (n / N + 1)) * N - 1 ∧ (V.segs.length + (n / N + 1)) * N - 1 ≤ V.size + n + N := by
      have h1 := Nat.div_add_mod n N
      have h2 := Nat.mod_lt n hN
      rw [Nat.mul_comm N] at h1
      have h3 := h.lay.cap_pos
      unfold View.size
      unfold View.cap at h3 ⊢
      rw [h.num] at h3 ⊢
      rw [Nat.add_mul, Nat.add_mul, Nat.one_mul]
      omega
    generalize n / N + 1 = r at hr1 hl hsz ⊢
    have e1 : o1.obj.tlast = ⟨tb, V.segs.length⟩ := by rw [h1.obj]; rfl
    have e2 : o1.obj.alloc = al := by rw [h1.obj]; rfl
    rw [wp_bind, wp_getObj, wp_bind, wp_onTab, e1, e2]
    refine Seg.wp_allocSegs hN h1.tab.blk.symm (by show _ ≤ o1.obj.tab.cells.length; rw [h1.tlen]; exact hl) h1.lay.wf ?_ ?_
    · intro news t' s' hln hx hh hu htk
      dsimp only at hx hu
      rw [wp_bind, wp_getObj, wp_bind]
      have e3 : ({ o1.obj with tab := t' } : SVec).tlast.add r = ⟨tb, V.segs.length + r⟩ := by
        show o1.obj.tlast.add r = _
        rw [e1]; simp [Ptr.add]
      dsimp only at e3 ⊢
      rw [e3]
      refine Seg.wp_shift (by simp; omega) ?_
      have e4 : (((V.segs.length + r : Nat) : Int) + -1).toNat = V.segs.length + (r - 1) := by omega
      simp only
      rw [e4, wp_bind]
      have hb : t'.blk = tb := by rw [hu.blk]; exact h1.tab.blk
      have hlast := hh (r - 1) (by omega)
      refine Seg.wp_deref hb.symm hlast ?_
      rw [wp_setObj]
      have hfr : ∀ c, c ∈ news → o1.m.blk c = none := hx.fresh
      have hraw : ∀ c, c ∈ news → ∀ k, s'.mem c k = none := by
        intro c hc k
        rw [hx.mem]; exact h1.lay.wf.dead c (hfr c hc) k
      have hdis : ∀ c, c ∈ V.segs → c ∉ news := by
        intro c hc hn
        have h2 := hfr c hn
        rw [h1.lay.sblk c hc] at h2; cases h2
      have htn : tb ∉ news := by
        intro hn
        have h2 := hfr tb hn
        have h3 := h1.lay.tbk
        dsimp only at h3
        rw [h3] at h2; cases h2
      have hh' : Seg.Holds t' 0 (V.segs ++ news) := by
        intro j hj
        simp only [List.length_append] at hj
        by_cases hjs : j < V.segs.length
        · have h2 := Holds_tab h1.tab rfl j hjs
          rw [hu.out _ (by omega), h2]
          simp only [List.getD_eq_getElem?_getD, List.getElem?_append_left hjs]
        · have h2 := hh (j - V.segs.length) (by omega)
          rw [show V.segs.length + (j - V.segs.length) = 0 + j by omega] at h2
          rw [h2]
          simp only [List.getD_eq_getElem?_getD, List.getElem?_append_right (Nat.le_of_not_lt hjs)]
      have hcapN : (View.mk tb 0 (V.segs ++ news) N).size = (V.segs.length + r) * N - 1 := by
        simp [View.size, View.cap, hln]
      have hle : V.size ≤ (V.segs.length + r) * N - 1 := by omega
      have hg := GSt.of (N := N) (al := al) (tcap := tcap') (xs := xs) (tb := tb) (segs := V.segs ++ news) (t := t') (m := s')
        hN hx.wf (by simp; omega)
        (List.nodup_append.mpr ⟨h1.lay.nodup, hx.nodup, fun a ha b hb e => hdis a ha (e ▸ hb)⟩)
        (by simp only [List.mem_append, not_or]; exact ⟨h1.lay.notin, htn⟩)
        (by rw [hx.blk, if_neg htn]; exact h1.lay.tbk) (by intro i; rw [hx.mem]; exact h1.lay.traw i)
        (by
          intro b hb
          rw [hx.blk]
          rcases List.mem_append.mp hb with hb | hb
          · rw [if_neg (hdis b hb)]; exact h1.lay.sblk b hb
          · rw [if_pos hb])
        (by
          intro b hb i hi
          rcases List.mem_append.mp hb with hb | hb
          · rw [hx.mem]; exact h1.lay.beyond b hb i hi
          · exact hraw b hb i)
        hb hh' (by rw [hu.len]; exact h1.tlen) (by rw [hcapN]; have := h.len; omega)
        (by
          intro k hk
          show s'.mem _ _ = _
          by_cases hkc : k < V.cap
          · have e := addr_append V news tb h.lay.npos hkc
            rw [h.num] at e
            rw [e, hx.mem, hm1]
            exact h.cells k hkc
          · have h2 : (View.mk tb 0 (V.segs ++ news) N).addr k = ⟨(V.segs ++ news).getD (k / N) 0, k % N⟩ := rfl
            have h3 : V.segs.length ≤ k / N := by
              rw [Nat.le_div_iff_mul_le hN]
              unfold View.cap at hkc
              rw [h.num] at hkc
              omega
            have h4 := View.div_lt (V := ⟨tb, 0, V.segs ++ news, N⟩) hN hk
            simp only [List.length_append] at h4
            rw [h2, hraw]
            · rw [List.getElem?_eq_none]
              have := h.len
              have := V.size_le
              omega
            · simp only [List.getD_eq_getElem?_getD, List.getElem?_append_right h3]
              rw [List.getElem?_eq_getElem (by omega)]
              exact List.getElem_mem _)
      refine ⟨tb, news, tcap', ?_, by rw [hcapN]; exact hsz, hx.mem.trans hm1, ?_, ?_⟩
      · have el := it_last ⟨tb, 0, V.segs ++ news, N⟩ rfl hN (by simp; omega)
        unfold View.svec at hg
        rw [el] at hg
        have hz : ∀ k, k < V.cap → (View.mk tb 0 (V.segs ++ news) N).it k = (View.mk tb 0 V.segs N).it k := by
          intro k hk
          have e := addr_append V news tb h.lay.npos hk
          rw [h.num] at e
          unfold View.it
          rw [e, hve]
          rfl
        rw [hz 0 h.lay.cap_pos, hz xs.length (by have := h.len; have := h.lay.size_lt; omega)] at hg
        have ho : o1.obj.tfirst = ⟨tb, 0⟩ ∧ o1.obj.teos = ⟨tb, tcap'⟩ ∧ o1.obj.first = (View.mk tb 0 V.segs N).it 0 ∧
            o1.obj.last = (View.mk tb 0 V.segs N).it xs.length := by
          rw [h1.obj]; exact ⟨rfl, rfl, rfl, rfl⟩
        have ef : ({ o1.obj with
            tab := t', tlast := ⟨tb, V.segs.length + r⟩,
            eos := ⟨⟨tb, V.segs.length + (r - 1)⟩, Ptr.add ⟨news.getD (r - 1) 0, 0⟩ (N - 1)⟩ } : SVec) =
            ⟨t', ⟨tb, 0⟩, ⟨tb, (V.segs ++ news).length⟩, ⟨tb, tcap'⟩, (View.mk tb 0 V.segs N).it 0,
              (View.mk tb 0 V.segs N).it xs.length,
              ⟨⟨tb, (V.segs ++ news).length - 1⟩, ⟨(View.mk tb 0 (V.segs ++ news) N).sg ((V.segs ++ news).length - 1), N - 1⟩⟩, al⟩ := by
          rw [← ho.1, ← ho.2.1, ← ho.2.2.1, ← ho.2.2.2, ← e2]
          simp only [List.length_append, hln, Ptr.add, Nat.zero_add, View.sg]
          rw [show V.segs.length + r - 1 = V.segs.length + (r - 1) by omega]
          congr 3
          simp only [List.getD_eq_getElem?_getD]
          rw [List.getElem?_append_right (by omega), show V.segs.length + (r - 1) - V.segs.length = r - 1 by omega]
        rw [← ef] at hg
        exact hg
      · refine hf.trans (Frame.of hx.wf hx.mem ?_ ?_ ?_)
        · rintro c (hc | hc) hn
          · exact absurd (Or.inl hc) hn
          · rcases List.mem_append.mp hc with hc | hc
            · exact absurd (Or.inr hc) hn
            · exact hfr c hc
        · intro c _ h2
          rw [hx.blk, if_neg (fun e => h2 (Or.inr (List.mem_append.mpr (Or.inr e))))]
        · rintro c (hc | hc) hn
          · exact absurd (Or.inl hc) hn
          · exact absurd (Or.inr (List.mem_append.mpr (Or.inl hc))) hn
      · exact htk (by intro e; rw [e] at hln; simp at hln; omega)
    · intro t' s' hx hu
      dsimp only at hx hu
      refine ⟨by simp, Or.inr rfl, tb, tcap', ?_, hx.mem.trans hm1, ?_⟩
      · have hg := h1.frame hx.wf (fun c _ => ⟨by simpa using hx.blk c, fun k => by rw [hx.mem]⟩)
        have hob := h1.obj
        refine ⟨hg.lay, rfl, rfl, ⟨by show t'.blk = _; rw [hu.blk]; exact h1.tab.blk, ?_⟩, by show t'.cells.length = _; rw [hu.len]; exact h1.tlen,
          h1.slen, ?_, hg.len, hg.cells⟩
        · intro i hi
          show t'.cells[_]? = _
          rw [hu.out _ (Or.inl (by simpa using hi))]
          exact h1.tab.cells i hi
        · show ({ o1.obj with tab := t' } : SVec) = _
          rw [hob]; rfl
      · exact hf.trans (Frame.of hx.wf hx.mem (fun c h1 h2 => absurd h1 h2) (fun c _ _ => by simpa using hx.blk c)
          (fun c h1 h2 => absurd h1 h2))
  · rintro e o1 ⟨rfl, h1, h2, h3⟩
    exact ⟨by simp, Or.inr rfl, V.tb, tcap, by rw [← hve]; exact h1, h2, by rw [← hve]; exact h3⟩

/-- A segment past the last element holds nothing. -/
theorem GSt.rawSeg (h : GSt N o al V tcap xs) {i : Nat} (hi : i < V.segs.length) (hx : xs.length / N < i) (k : Nat) :
    o.m.mem V.segs[i] k = none := by
  by_cases hk : k < V.N
  · have h1 : i * V.N + k < V.cap := by
      unfold View.cap
      calc i * V.N + k < i * V.N + V.N := by omega
        _ = (i + 1) * V.N := by rw [Nat.add_mul, Nat.one_mul]
        _ ≤ V.segs.length * V.N := Nat.mul_le_mul_right _ hi
    have := h.cells _ h1
    have e1 : (i * V.N + k) / V.N = i := by
      rw [Nat.add_comm, Nat.mul_comm, Nat.add_mul_div_left _ _ h.lay.npos, Nat.div_eq_of_lt hk, Nat.zero_add]
    have e2 : (i * V.N + k) % V.N = k := by
      rw [Nat.add_comm, Nat.mul_comm, Nat.add_mul_mod_self_left, Nat.mod_eq_of_lt hk]
    simp only [View.slot, View.addr, e1, e2, View.sg_eq hi] at this
    rw [this, List.getElem?_eq_none]
    rw [← h.num] at hx
    have h2 := Nat.lt_mul_div_succ xs.length h.lay.npos
    have h3 : V.N * (xs.length / V.N + 1) ≤ i * V.N := by rw [Nat.mul_comm]; exact Nat.mul_le_mul_right _ hx
    omega
  · exact h.lay.beyond _ (List.getElem_mem hi) k (by omega)

/-- `shrink_to_fit`: the elements and their addresses stay, also when the allocation of the new table fails. -/
theorem shrinkStorage_spec (h : GSt N o al V tcap xs) :
    wp (shrinkStorage E N)
      (fun _ o' => ∃ tb tcap', GSt N o' al ⟨tb, 0, V.segs.take (xs.length / N + 1), N⟩ tcap' xs ∧ o'.m.mem = o.m.mem ∧
        Frame o.m V.foot o'.m (View.mk tb 0 (V.segs.take (xs.length / N + 1)) N).foot)
      (fun e o' => e = .badAlloc ∧ ∃ tb tcap', GSt N o' al ⟨tb, 0, V.segs.take (xs.length / N + 1), N⟩ tcap' xs ∧ o'.m.mem = o.m.mem ∧
        Frame o.m V.foot o'.m (View.mk tb 0 (V.segs.take (xs.length / N + 1)) N).foot) o := by
  have hve := h.view_eq
  have hN : 0 < N := by have := h.lay.npos; rw [h.num] at this; exact this
  have hlx : xs.length / N < V.segs.length := by
    have := View.div_lt (V := V) h.lay.npos (p := xs.length) (by have := h.lay.size_lt; have := h.len; omega)
    rw [h.num] at this; exact this
  have hlN : xs.length < (xs.length / N + 1) * N := by rw [Nat.mul_comm]; exact Nat.lt_mul_div_succ _ hN
  have hrs := fun i (hi : i < V.segs.length) => h.rawSeg hi
  have hsub : ∀ i, (View.mk V.tb 0 V.segs N).it i = V.it i := fun i => by rw [← hve]
  unfold shrinkStorage
  have e1 : o.obj.last.seg = ⟨V.tb, xs.length / N⟩ := by
    rw [h.obj]; show (V.it xs.length).seg = _
    rw [← hsub, it_seg]
  have e2 : o.obj.tlast = ⟨V.tb, V.segs.length⟩ := by rw [h.obj]; rfl
  have e3 : o.obj.alloc = al := by rw [h.obj]; rfl
  have e4 : o.obj.tfirst = ⟨V.tb, 0⟩ := by rw [h.obj]; rfl
  have e5 : (⟨V.tb, xs.length / N⟩ : Ptr).add 1 = ⟨V.tb, xs.length / N + 1⟩ := rfl
  rw [wp_bind, wp_getObj]
  dsimp only
  rw [wp_bind, wp_onTab, e1, e2, e3, e5]
  generalize hr : xs.length / N = r at hlx hlN hrs ⊢
  have hdrop : ∀ c, c ∈ V.segs.drop (r + 1) → c ∈ V.segs := fun c hc => List.mem_of_mem_drop hc
  refine Seg.wp_deallocSegs (o := ⟨o.obj.tab, o.m⟩) (bs := V.segs.drop (r + 1)) h.tab.blk.symm (by simp; omega) ?_
    (h.lay.nodup.sublist (List.drop_sublist _ _)) h.lay.wf
    (fun c hc => by rw [← h.num]; exact h.lay.sblk c (hdrop c hc)) ?_ ?_
  · intro j hj
    simp only [List.length_drop] at hj
    have h2 := Holds_tab h.tab h.base (r + 1 + j) (by omega)
    rw [Nat.zero_add] at h2
    rw [h2]
    simp [List.getElem?_drop]
  · intro c hc k
    obtain ⟨i, hi, rfl⟩ := List.getElem_of_mem hc
    simp only [List.length_drop] at hi
    rw [List.getElem_drop]
    exact hrs (r + 1 + i) (by omega) (by omega) k
  intro m1 hw1 hm1 ht1 hk1
  have htd : ∀ c, c ∈ V.segs.take (r + 1) → c ∉ V.segs.drop (r + 1) := by
    intro c h1 h2
    have := h.lay.nodup
    rw [← List.take_append_drop (r + 1) V.segs] at this
    exact (List.nodup_append.mp this).2.2 c h1 c h2 rfl
  have hlt : (V.segs.take (r + 1)).length = r + 1 := by simp; omega
  have htk : ∀ c, c ∈ V.segs.take (r + 1) → c ∈ V.segs := fun c hc => List.mem_of_mem_take hc
  have hh : Seg.Holds o.obj.tab 0 (V.segs.take (r + 1)) := by
    intro j hj
    rw [hlt] at hj
    have h2 := Holds_tab h.tab h.base j (by omega)
    rw [h2]
    simp only [List.getD_eq_getElem?_getD, List.getElem?_take_of_lt hj]
  have had : ∀ k, k < (r + 1) * N → (View.mk V.tb 0 (V.segs.take (r + 1)) N).addr k = V.addr k := by
    intro k hk
    have := addr_take V (r + 1) V.tb (k := k) (by rw [h.num]; exact hk)
    rw [h.num] at this
    exact this
  have hcap : (View.mk V.tb 0 (V.segs.take (r + 1)) N).cap = (r + 1) * N := by
    show (V.segs.take (r + 1)).length * N = _
    rw [hlt]
  have hg := GSt.of (N := N) (al := al) (tcap := tcap) (xs := xs) (tb := V.tb) (segs := V.segs.take (r + 1)) (t := o.obj.tab) (m := m1)
    hN hw1 (by omega) (h.lay.nodup.sublist (List.take_sublist _ _)) (fun hc => h.lay.notin (htk _ hc))
    (by rw [hk1, if_neg (fun hc => h.lay.notin (hdrop _ hc))]; exact h.lay.tbk) (by intro i; rw [hm1]; exact h.lay.traw i)
    (by
      intro b hb
      rw [hk1, if_neg (htd b hb)]
      have := h.lay.sblk b (htk b hb)
      rw [h.num] at this
      exact this)
    (by
      intro b hb i hi
      rw [hm1]
      exact h.lay.beyond b (htk b hb) i (by rw [h.num]; exact hi))
    h.tab.blk hh h.tlen (by unfold View.size; rw [hcap]; omega)
    (by
      intro k hk
      rw [hcap] at hk
      show m1.mem _ _ = _
      rw [had k hk, hm1]
      refine h.cells k ?_
      unfold View.cap
      rw [h.num]
      exact Nat.lt_of_lt_of_le hk (Nat.mul_le_mul_right _ hlx))
  have hfr : Frame o.m V.foot m1 (View.mk V.tb 0 (V.segs.take (r + 1)) N).foot := by
    refine Frame.of hw1 hm1 ?_ ?_ ?_
    · rintro c (hc | hc) hn
      · exact absurd (Or.inl hc) hn
      · exact absurd (Or.inr (htk c hc)) hn
    · intro c hn _
      rw [hk1, if_neg (fun hc => hn (Or.inr (hdrop c hc)))]
    · rintro c (hc | hc) hn
      · exact absurd (Or.inl hc) hn
      · rw [hk1, if_pos]
        rw [← List.take_append_drop (r + 1) V.segs] at hc
        rcases List.mem_append.mp hc with hc | hc
        · exact absurd (Or.inr hc) hn
        · exact hc
  rw [wp_bind, wp_getObj, wp_bind]
  refine Seg.wp_shift (by show (0 : Int) ≤ ((r + 1 : Nat) : Int) + -1; omega) ?_
  have e6 : (((r + 1 : Nat) : Int) + -1).toNat = r := by omega
  simp only
  rw [e6, wp_bind]
  have hlast := hh r (by omega)
  rw [Nat.zero_add] at hlast
  refine Seg.wp_deref h.tab.blk.symm hlast ?_
  rw [wp_bind, wp_setObj, wp_bind]
  refine wp_distance (by rw [e4]) (by rw [e4]; simp) ?_
  have ef : ({ o.obj with tlast := ⟨V.tb, r + 1⟩, eos := ⟨⟨V.tb, r⟩, Ptr.add ⟨(V.segs.take (r + 1)).getD r 0, 0⟩ (N - 1)⟩ } : SVec) =
      (View.mk V.tb 0 (V.segs.take (r + 1)) N).svec o.obj.tab tcap al xs.length := by
    have el := it_last ⟨V.tb, 0, V.segs.take (r + 1), N⟩ rfl hN (by show 0 < (V.segs.take (r + 1)).length; omega)
    have hz : ∀ k, k < (r + 1) * N → (View.mk V.tb 0 (V.segs.take (r + 1)) N).it k = V.it k := by
      intro k hk
      rw [← hsub]
      unfold View.it
      rw [had k hk]
      rw [show (View.mk V.tb 0 V.segs N).addr k = V.addr k by rw [← hve]]
    have ho : o.obj.tfirst = ⟨V.tb, 0⟩ ∧ o.obj.teos = ⟨V.tb, tcap⟩ ∧ o.obj.first = V.it 0 ∧ o.obj.last = V.it xs.length := by
      rw [h.obj]; exact ⟨rfl, rfl, rfl, rfl⟩
    unfold View.svec
    rw [el, hz 0 (by omega), hz _ hlN, ← ho.2.2.1, ← ho.2.2.2]
    simp only [hlt, ← ho.1, ← ho.2.1, ← e3]
    simp only [Ptr.add, Nat.zero_add, View.sg, Nat.add_sub_cancel]
  rw [← ef] at hg
  refine wp_mono (replaceTable_spec hg (by rw [e4]; show (V.segs.take (r + 1)).length ≤ max (r + 1 - 0) 8; omega)) ?_ ?_
  · rintro _ o' ⟨tb, h1, h2, h3, -⟩
    exact ⟨tb, _, h1, h2.trans hm1, hfr.trans h3⟩
  · rintro e o' ⟨h0, h1, h2, h3⟩
    exact ⟨h0, V.tb, tcap, h1, h2.trans hm1, hfr.trans h3⟩

end SegVec
end Sfl
