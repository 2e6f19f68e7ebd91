import Verif.SegDevSpec
/-
  Specifications of the storage management of segmented_devector. Proof machinery: no code is modelled in this file.
-/

set_option linter.unusedSimpArgs false
set_option linter.unusedSectionVars false

namespace Sfl
open World
variable {α : Type}

namespace Seg

/-- `copy_backward` of a part of a table. -/
theorem wp_copyTableBack {σ : Type} {t t' : Table} {b b' i i' : Nat} {bs : List Nat} {s : σ} {Q : Table × Ptr → σ → Prop}
    {X : Exn → σ → Prop} (hb : b = t.blk) (hb' : b' = t'.blk) (h : Holds t i bs) (hl : i' + bs.length ≤ t'.cells.length)
    (hQ : ∀ t'', Holds t'' i' bs → Upd t' t'' i' (i' + bs.length) → Q (t'', ⟨b', i'⟩) s) :
    wp (copyTableBack t bs.length ⟨b, i⟩ t' ⟨b', i' + bs.length⟩) Q X s := by
  suffices hs : ∀ n (t' : Table), n ≤ bs.length → b' = t'.blk → i' + bs.length ≤ t'.cells.length →
      (∀ t'', Upd t' t'' i' (i' + n) → (∀ j, j < n → t''.cells[i' + j]? = some (some ⟨bs.getD j 0, 0⟩)) → Q (t'', ⟨b', i'⟩) s) →
      wp (copyTableBack t n ⟨b, i⟩ t' ⟨b', i' + n⟩) Q X s from
    hs bs.length t' (Nat.le_refl _) hb' hl (fun t'' h1 h2 => hQ t'' h2 h1)
  intro n
  induction n with
  | zero =>
    intro t' _ _ _ hQ
    exact hQ t' (Upd.refl _ _ _) (fun j hj => absurd hj (Nat.not_lt_zero j))
  | succ n ih =>
    intro t' hn hb' hl hQ
    unfold copyTableBack
    rw [wp_bind]
    refine wp_deref hb (h n (by omega)) ?_
    rw [wp_bind]
    refine wp_shift (by simp; omega) ?_
    have e : (((i' + (n + 1) : Nat) : Int) + -1).toNat = i' + n := by omega
    simp only
    rw [e, wp_bind]
    refine wp_put hb' (by omega) ?_
    refine ih _ (by omega) hb' (by simpa using hl) ?_
    intro t'' hu hh
    refine hQ t'' ⟨hu.blk, by simpa using hu.len, fun j hj => ?_⟩ (fun j hj => ?_)
    · rw [hu.out j (by omega)]
      simp only
      rw [List.getElem?_set_ne (by omega)]
    · by_cases hj' : j < n
      · exact hh j hj'
      · have e : j = n := by omega
        subst e
        rw [hu.out _ (by omega)]
        simp [show i' + j < t'.cells.length by omega]

end Seg

namespace SegDev
open SegVec (Fit IsFrom wp_run sizeSub)
variable {E : Env α} {N al tcap f : Nat} {V : View} {xs : List α} {o : Obj SDVec α} {H : Heap α}

/-- Nothing but the foreign memory. -/
structure Bare (H : Heap α) (m : St α) : Prop where
  wf : m.Wf
  blk : ∀ c, m.blk c = H.blk c
  mem : ∀ c i, m.mem c i = H.mem c i

/-- `V'` has the slots of `V`, from slot `d` on. -/
structure Sub (V : View) (d : Nat) (V' : View) : Prop where
  num : V'.N = V.N
  addr : ∀ k, k < V.cap → V'.addr (k + d) = V.addr k
  cap : V.cap + d ≤ V'.cap
  size : V.size + d ≤ V'.size

theorem Sub.refl (V : View) : Sub V 0 V := ⟨rfl, fun _ _ => rfl, Nat.le_refl _, Nat.le_refl _⟩

theorem Sub.trans {V V' V'' : View} {d d' : Nat} (h : Sub V d V') (h' : Sub V' d' V'') : Sub V (d + d') V'' := by
  have h1 := h.cap
  have h2 := h'.cap
  have h3 := h.size
  have h4 := h'.size
  refine ⟨h'.num.trans h.num, fun k hk => ?_, by omega, by omega⟩
  rw [← h.addr k hk, ← h'.addr (k + d) (by omega), Nat.add_assoc]

theorem Sub.of {V V' : View} {a b : List Nat} (hn : V'.N = V.N) (hN : 0 < V.N) (hl : 0 < V.segs.length)
    (hs : V'.segs = a ++ V.segs ++ b) : Sub V (a.length * V.N) V' := by
  have h1 := View.cap_sub hn hs
  have h2 : 0 < V.cap := Nat.mul_pos hl hN
  exact ⟨hn, fun k hk => View.addr_sub hn hN hs hk, by omega, by unfold View.size; omega⟩

/-- `allocate_storage`. -/
theorem allocateStorage_spec {n : Nat} (hN : 0 < N) (hw : Bare H o.m) (hal : o.obj.alloc = al) :
    wp (allocateStorage E N n)
      (fun _ o' => ∃ V tcap, DSt H N o' al V tcap 0 [] ∧ n ≤ V.size ∧ o'.m.mem = o.m.mem)
      (fun e o' => Bare H o'.m ∧ (e = .lengthError → E.maxSize < n) ∧ (e = .lengthError ∨ e = .badAlloc) ∧ o'.obj.alloc = al) o := by
  subst hal
  have hwf := hw.wf
  unfold allocateStorage
  split
  · rename_i h
    rw [wp_throw]
    exact ⟨hw, fun _ => h, Or.inl rfl, rfl⟩
  simp only [wp_bind, wp_getObj, wp_lift]
  refine wp_allocate' hwf (by have := Nat.le_max_right (n / N + 1) 8; omega) ?_ ?_
  · intro s1 hw1 hm1 ht1 hth hnb hk1
    rw [wp_setObj, wp_tryCatch, wp_bind, wp_onTab]
    have hcap := Nat.le_max_left (n / N + 1) 8
    generalize max (n / N + 1) 8 = tcap at hk1 hcap ⊢
    have hr1 : 1 ≤ n / N + 1 := Nat.succ_le_succ (Nat.zero_le _)
    generalize hr : n / N + 1 = r at hcap hr1 ⊢
    refine Seg.wp_allocSegs hN rfl (by simp [Seg.newTable]; omega) hw1 ?_ ?_
    · intro news t' s' hl hx hh hu htk
      dsimp only at hx hu
      have hb : t'.blk = o.m.next := by rw [hu.blk]; rfl
      have htl : t'.cells.length = tcap := by rw [hu.len]; simp [Seg.newTable]
      have hnin : o.m.next ∉ news := by
        intro hc
        have := hx.fresh _ hc
        rw [hk1, if_pos rfl] at this; cases this
      rw [wp_bind, wp_getObj, wp_bind]
      obtain ⟨x, bs, rfl⟩ : ∃ x bs, news = x :: bs := by
        cases news with
        | nil => simp at hl; omega
        | cons x bs => exact ⟨x, bs, rfl⟩
      have h0 := hh 0 (by simp)
      have hlast := hh (r - 1) (by omega)
      refine Seg.wp_deref hb.symm h0 ?_
      rw [wp_bind]
      have e1 : ({ blk := o.m.next, off := 0 } : Ptr).add r = ⟨o.m.next, r⟩ := by simp [Ptr.add]
      rw [e1]
      refine Seg.wp_shift (by simp; omega) ?_
      have e2 : ((r : Int) + -1).toNat = r - 1 := by omega
      simp only
      rw [e2, wp_bind]
      rw [Nat.zero_add] at hlast
      refine Seg.wp_deref hb.symm hlast ?_
      rw [wp_setObj]
      let V : View := ⟨o.m.next, 0, x :: bs, N⟩
      have hsz : n ≤ V.size := SegVec.size_of _ _ (by rw [hl, hr]) hN
      have hfr : ∀ c, c ∈ (x :: bs) → o.m.blk c = none := by
        intro c hc
        have := hx.fresh c hc
        rw [hk1] at this
        split at this
        · cases this
        · exact this
      have hm : s'.mem = o.m.mem := hx.mem.trans hm1
      have hraw : ∀ c, c ∈ (x :: bs) → ∀ k, s'.mem c k = none := by
        intro c hc k
        rw [hm]; exact hwf.dead c (hfr c hc) k
      have ho : V.Owns H s' := by
        refine ⟨fun c hc => ?_, fun c hc i => by rw [hm]; exact hw.mem c i, ?_, ?_⟩
        · rw [hx.blk, if_neg (fun h => hc (Or.inr h)), hk1, if_neg (fun h => hc (Or.inl h)), hw.blk]
        · rintro c (rfl | hc)
          · rw [← hw.blk]; exact hnb
          · rw [← hw.blk]; exact hfr c hc
        · rintro c (rfl | hc) i
          · rw [← hw.mem]; exact hwf.dead _ hnb i
          · rw [← hw.mem]; exact hwf.dead c (hfr c hc) i
      have hg := DSt.of (V := V) (N := N) (al := o.obj.alloc) (tcap := tcap) (xs := ([] : List α)) (f := 0) (t := t') (m := s')
        rfl hN hx.wf (by simp [V]) hx.nodup hnin (by show s'.blk o.m.next = _; rw [hx.blk, if_neg hnin, hk1, if_pos rfl])
        (by intro i; show s'.mem o.m.next i = _; rw [hm]; exact hwf.dead _ hnb i)
        (by intro b hb; rw [hx.blk, if_pos hb])
        (fun b hb i _ => hraw b hb i) hb hh htl ho (by simp)
        (by
          intro k hk
          rw [hraw _ (View.addr_mem (V := V) hN hk)]; simp)
      refine ⟨V, tcap, ?_, hsz, hm⟩
      have el := V.it_end hN (by simp [V])
      have ez := V.it_begin
      have : V.sdev t' tcap o.obj.alloc 0 (0 + ([] : List α).length) = { o.obj with
          tab := t', tbos := ⟨o.m.next, 0⟩, tfirst := ⟨o.m.next, 0⟩, tlast := ⟨o.m.next, r⟩, teos := Ptr.add ⟨o.m.next, 0⟩ tcap,
          bos := ⟨⟨o.m.next, 0⟩, ⟨(x :: bs).getD 0 0, 0⟩⟩,
          first := ⟨⟨o.m.next, 0⟩, ⟨(x :: bs).getD 0 0, 0⟩⟩, last := ⟨⟨o.m.next, 0⟩, ⟨(x :: bs).getD 0 0, 0⟩⟩,
          eos := ⟨⟨o.m.next, r - 1⟩, Ptr.add ⟨(x :: bs).getD (r - 1) 0, 0⟩ (N - 1)⟩ } := by
        unfold View.sdev
        rw [el]
        simp only [List.length_nil, Nat.zero_add]
        rw [ez]
        simp only [V, View.sg, hl, Ptr.add, Nat.zero_add]
      rw [this] at hg
      exact hg
    · intro t' s' hx hu
      dsimp only at hx hu
      rw [wp_bind, wp_onTab]
      refine Seg.wp_deallocTable hx.wf (by rw [hx.blk]; simp [hk1]) ?_ ?_
      · intro k
        show s'.mem _ k = none
        rw [hx.mem, hm1]; exact hwf.dead _ hnb k
      · intro m' hw' hm' _ hk'
        rw [wp_throw]
        refine ⟨⟨hw', fun c => ?_, fun c i => ?_⟩, by simp, Or.inr rfl, rfl⟩
        · show m'.blk c = _
          rw [hk']
          show (if c = o.m.next then none else s'.blk c) = _
          rw [hx.blk, hk1, ← hw.blk]
          by_cases e : c = o.m.next
          · rw [if_pos e, e, hnb]
          · simp [e]
        · show m'.mem c i = _
          rw [hm']
          show s'.mem c i = _
          rw [hx.mem, hm1, hw.mem]
  · intro s' hw' hm hk
    refine ⟨⟨hw', fun c => ?_, fun c i => ?_⟩, by simp, Or.inr rfl, trivial⟩
    · show s'.blk c = _
      rw [hk, hw.blk]
    · show s'.mem c i = _
      rw [hm, hw.mem]

/-- A segment holding none of the elements. -/
theorem DSt.rawSeg (h : DSt H N o al V tcap f xs) {i : Nat} (hi : i < V.segs.length)
    (hx : (i + 1) * N ≤ f ∨ f + xs.length ≤ i * N) (k : Nat) : o.m.mem V.segs[i] k = none := by
  obtain rfl := h.num
  by_cases hk : k < V.N
  · obtain ⟨h1, h2⟩ := View.slot_seg h.lay.npos hi hk
    have := h.slot h1
    rw [h2] at this
    rw [this]
    split
    · rename_i hle
      rw [Nat.add_mul, Nat.one_mul] at hx
      rw [List.getElem?_eq_none (by omega)]
    · rfl
  · exact h.lay.beyond _ (List.getElem_mem hi) k (by omega)

/-- `deallocate_storage` when all elements have been destroyed; `last_` may be stale. -/
theorem deallocateStorage_last (h : DSt H N o al V tcap f []) (l : SIt) :
    wp (deallocateStorage N)
      (fun _ o' => o'.obj = { o.obj with tab := Seg.noTable, last := l } ∧ Bare H o'.m ∧ o'.m.mem = o.m.mem)
      (fun _ _ => False) ⟨{ o.obj with last := l }, o.m⟩ := by
  have hraw : ∀ c, c ∈ V.segs → ∀ k, o.m.mem c k = none := by
    intro c hc k
    obtain ⟨i, hi, rfl⟩ := List.getElem_of_mem hc
    by_cases hx : (i + 1) * N ≤ f ∨ f + ([] : List α).length ≤ i * N
    · exact h.rawSeg hi hx k
    · by_cases hk : k < V.N
      · obtain ⟨h1, h2⟩ := View.slot_seg h.lay.npos hi hk
        have := h.slot h1
        rw [h2] at this
        rw [this]; simp
      · exact h.lay.beyond _ (List.getElem_mem hi) k (by omega)
  unfold deallocateStorage
  rw [wp_bind, wp_getObj, wp_bind, wp_onTab]
  dsimp only
  have hobj := h.obj
  have e1 : o.obj.tfirst = ⟨V.tb, V.base⟩ := by rw [hobj]; rfl
  have e2 : o.obj.tlast = ⟨V.tb, V.base + V.segs.length⟩ := by rw [hobj]; rfl
  have e3 : o.obj.teos = ⟨V.tb, tcap⟩ := by rw [hobj]; rfl
  have e4 : o.obj.alloc = al := by rw [hobj]; rfl
  have e5 : o.obj.tbos = ⟨V.tb, 0⟩ := by rw [hobj]; rfl
  rw [e1, e2, e3, e4, e5]
  refine Seg.wp_deallocSegs (o := ⟨o.obj.tab, o.m⟩) h.fit.tab.blk.symm rfl h.fit.tab.holds h.lay.nodup h.lay.wf
    (by rw [← h.num]; exact h.lay.sblk) hraw ?_
  intro m1 hw1 hm1 ht1 hk1
  rw [wp_bind]
  refine wp_distance rfl (by simp) ?_
  rw [wp_onTab]
  refine Seg.wp_deallocTable hw1 ?_ ?_ ?_
  · show m1.blk V.tb = _
    rw [hk1, if_neg h.lay.notin]; exact h.lay.tbk
  · intro k
    show m1.mem V.tb k = _
    rw [hm1]; exact h.lay.traw k
  · intro m' hw' hm' ht' hk'
    have hm : m'.mem = o.m.mem := hm'.trans hm1
    refine ⟨rfl, ⟨hw', fun c => ?_, fun c i => ?_⟩, hm⟩
    · show m'.blk c = _
      rw [hk']
      show (if c = V.tb then none else m1.blk c) = _
      by_cases hc : V.blocks c
      · rw [h.owns.hblk c hc]
        rcases hc with rfl | hc
        · simp
        · rw [hk1]; simp [hc]
      · rw [if_neg (fun e => hc (Or.inl e)), hk1, if_neg (fun e => hc (Or.inr e)), h.owns.blk c hc]
    · show m'.mem c i = _
      rw [hm]
      by_cases hc : V.blocks c
      · rw [h.owns.hmem c hc]
        rcases hc with rfl | hc
        · exact h.lay.traw i
        · exact hraw c hc i
      · exact h.owns.mem c hc i

/-- `deallocate_storage` of an empty container. -/
theorem deallocateStorage_spec (h : DSt H N o al V tcap f []) :
    wp (deallocateStorage N) (fun _ o' => o'.obj = { o.obj with tab := Seg.noTable } ∧ Bare H o'.m ∧ o'.m.mem = o.m.mem)
      (fun _ _ => False) o := deallocateStorage_last h o.obj.last

/-- A new table. -/
theorem replaceTable_spec {newCap k : Nat} {copy : SDVec → Ptr → DM α (Table × Ptr × Ptr)} (h : DSt H N o al V tcap f xs)
    (hc : newCap ≠ 0)
    (hcopy : ∀ (b : Nat) (Q : Table × Ptr × Ptr → Obj SDVec α → Prop) (X : Exn → Obj SDVec α → Prop) (s : Obj SDVec α),
      (∀ t', t'.blk = b → t'.cells.length = newCap → Seg.Holds t' k V.segs → Q (t', ⟨b, k⟩, ⟨b, k + V.segs.length⟩) s) →
      wp (copy o.obj ⟨b, 0⟩) Q X s) :
    wp (replaceTable E newCap copy)
      (fun _ o' => ∃ tb, DSt H N o' al ⟨tb, k, V.segs, N⟩ newCap f xs ∧ o'.m.mem = o.m.mem)
      (fun e o' => e = .badAlloc ∧ DSt H N o' al V tcap f xs ∧ o'.m.mem = o.m.mem) o := by
  obtain rfl := h.num
  have hw := h.lay.wf
  have hlen := h.lay.len
  have hobj := h.obj
  have e0 : o.obj.tbos = ⟨V.tb, 0⟩ := by rw [hobj]; rfl
  have e3 : o.obj.teos = ⟨V.tb, tcap⟩ := by rw [hobj]; rfl
  have e4 : o.obj.alloc = al := by rw [hobj]; rfl
  have e5 : o.obj.bos = V.it 0 := by rw [hobj]; rfl
  have e6 : o.obj.first = V.it f := by rw [hobj]; rfl
  have e7 : o.obj.last = V.it (f + xs.length) := by rw [hobj]; rfl
  have e8 : o.obj.eos = V.it V.size := by rw [hobj]; rfl
  unfold replaceTable
  rw [wp_bind, wp_getObj]
  simp only [e0, e3, e4, e5, e6, e7, e8]
  rw [wp_bind]
  refine wp_distance rfl (by simp) ?_
  rw [wp_bind]
  refine wp_distance rfl (by simp [View.it]) ?_
  rw [wp_bind]
  refine wp_distance rfl (by simp [View.it]) ?_
  rw [wp_bind, wp_lift]
  refine wp_allocate' hw hc ?_ ?_
  · intro s1 hw1 hm1 ht1 hth hnb hk1
    rw [wp_bind]
    refine hcopy _ _ _ _ ?_
    intro t' hb htl hh
    simp only
    rw [wp_bind, wp_onTab]
    have hne : V.tb ≠ o.m.next := by
      intro e
      have := h.lay.tbk
      rw [e, hnb] at this; cases this
    refine Seg.wp_deallocTable hw1 ?_ ?_ ?_
    · show s1.blk V.tb = _
      rw [hk1, if_neg hne]; exact h.lay.tbk
    · intro k
      show s1.mem V.tb k = _
      rw [hm1]; exact h.lay.traw k
    intro m' hw' hm' ht' hk'
    have hk : ∀ c, m'.blk c = if c = V.tb then none else if c = o.m.next then some ⟨newCap, some al⟩ else o.m.blk c := by
      intro c; rw [hk']; show (if c = V.tb then none else s1.blk c) = _; rw [hk1]
    have hm : m'.mem = o.m.mem := hm'.trans hm1
    have hns : o.m.next ∉ V.segs := by
      intro hc
      have := h.lay.sblk _ hc
      rw [hnb] at this; cases this
    rw [wp_bind]
    refine Seg.wp_shift (by simp; omega) ?_
    have es : (((k + V.segs.length : Nat) : Int) + -1).toNat = k + V.segs.length - 1 := by omega
    simp only
    rw [es, wp_setObj]
    let W : View := ⟨o.m.next, k, V.segs, V.N⟩
    have ho : W.Owns H m' := by
      refine h.owns.step hw hm ?_ ?_ ?_
      · rintro c (rfl | hc) hn
        · exact hnb
        · exact absurd (Or.inr hc) hn
      · intro c h1 h2
        rw [hk, if_neg (fun e => h1 (Or.inl e)), if_neg (fun e => h2 (Or.inl e))]
      · rintro c (rfl | hc) hn
        · rw [hk, if_pos rfl]; exact ⟨rfl, h.lay.traw⟩
        · exact absurd (Or.inr hc) hn
    have hg := DSt.of (V := W) (N := V.N) (al := al) (tcap := newCap) (xs := xs) (f := f) (t := t') (m := m')
      rfl h.lay.npos hw' hlen h.lay.nodup hns (by rw [hk, if_neg (Ne.symm hne), if_pos rfl])
      (by intro i; show m'.mem o.m.next i = _; rw [hm]; exact hw.dead _ hnb i)
      (by
        intro b hb
        have hb : b ∈ V.segs := hb
        rw [hk, if_neg (fun e => h.lay.notin (by subst e; exact hb)), if_neg (fun e => hns (by subst e; exact hb))]
        exact h.lay.sblk b hb)
      (by intro b hb i hi; rw [hm]; exact h.lay.beyond b hb i hi) hb hh htl ho h.len
      (by intro j hj; rw [hm]; exact h.slot hj)
    refine ⟨o.m.next, ?_, hm⟩
    have ef : W.sdev t' newCap al f (f + xs.length) = { o.obj with
        tab := t', tbos := ⟨o.m.next, 0⟩, teos := Ptr.add ⟨o.m.next, 0⟩ newCap, tfirst := ⟨o.m.next, k⟩,
        tlast := ⟨o.m.next, k + V.segs.length⟩, bos := ⟨⟨o.m.next, k⟩, (V.it 0).loc⟩,
        eos := ⟨⟨o.m.next, k + V.segs.length - 1⟩, (V.it V.size).loc⟩,
        first := ⟨Ptr.add ⟨o.m.next, k⟩ ((V.it f).seg.off - (V.it 0).seg.off), (V.it f).loc⟩,
        last := ⟨Ptr.add ⟨o.m.next, k⟩ ((V.it (f + xs.length)).seg.off - (V.it 0).seg.off), (V.it (f + xs.length)).loc⟩,
        alloc := al } := by
      have a1 : (V.it f).seg.off - (V.it 0).seg.off = f / V.N := by simp [View.it]
      have a2 : (V.it (f + xs.length)).seg.off - (V.it 0).seg.off = (f + xs.length) / V.N := by simp [View.it]
      have a3 : (W.it W.size) = ⟨⟨o.m.next, k + V.segs.length - 1⟩, (V.it V.size).loc⟩ := by
        rw [W.it_end h.lay.npos hlen, V.it_end h.lay.npos hlen]; rfl
      unfold View.sdev
      rw [a1, a2, a3]
      simp [W, View.it, Ptr.add, View.addr, View.sg]
    rw [ef] at hg
    rw [← e4] at hg ⊢
    exact hg
  · intro s' hw' hm hk
    refine ⟨by trivial, ?_, hm⟩
    exact h.same (t' := o.obj.tab) hw' hm hk rfl rfl (fun _ _ => rfl)

/-- The first part of `grow_storage_front`: afterwards there are `required` free slots before the first one in use. -/
theorem growTableFront_spec {required : Nat} (h : DSt H N o al V tcap f xs) :
    wp (growTableFront E required)
      (fun _ o' => ∃ tb base tcap', DSt H N o' al ⟨tb, base, V.segs, N⟩ tcap' f xs ∧ required ≤ base ∧ o'.m.mem = o.m.mem)
      (fun e o' => e = .badAlloc ∧ DSt H N o' al V tcap f xs ∧ o'.m.mem = o.m.mem) o := by
  have hobj := h.obj
  have hs := h.geo.slen
  have e0 : o.obj.tbos = ⟨V.tb, 0⟩ := by rw [hobj]; rfl
  have e1 : o.obj.tfirst = ⟨V.tb, V.base⟩ := by rw [hobj]; rfl
  have e2 : o.obj.tlast = ⟨V.tb, V.base + V.segs.length⟩ := by rw [hobj]; rfl
  have e3 : o.obj.teos = ⟨V.tb, tcap⟩ := by rw [hobj]; rfl
  unfold growTableFront
  rw [wp_bind, wp_getObj, wp_bind, e0, e1, e3]
  refine wp_distance rfl (by simp) ?_
  rw [wp_ite]
  dsimp only
  split
  · rename_i hr
    rw [wp_bind]
    refine wp_distance rfl (by simp) ?_
    simp only [Nat.sub_zero] at hr ⊢
    have hm := Nat.le_max_right (tcap + tcap / 2) (tcap - V.base + required)
    generalize max (tcap + tcap / 2) (tcap - V.base + required) = c at hm ⊢
    have hpos := h.lay.len
    refine wp_mono (replaceTable_spec (k := V.base + (c - tcap)) h (by omega) ?_) ?_ ?_
    · intro b Q X s hQ
      unfold copyFront
      rw [e1, e2, e3, wp_bind]
      refine wp_distance rfl (by simpa using hs) ?_
      rw [wp_bind]
      refine Seg.wp_shift (by simp [Ptr.add]; omega) ?_
      rw [wp_bind]
      refine wp_distance rfl (by simp) ?_
      have ea : (V.base + V.segs.length) - V.base = V.segs.length := by omega
      have eb : (((Ptr.add (⟨b, 0⟩ : Ptr) c).off : Int) + -((tcap - (V.base + V.segs.length) : Nat) : Int)).toNat =
          V.base + (c - tcap) + V.segs.length := by
        show (((0 + c : Nat) : Int) + _).toNat = _
        omega
      dsimp only at eb ⊢
      rw [ea, eb, wp_bind]
      refine Seg.wp_copyTableBack (t := o.obj.tab) (t' := Seg.newTable ⟨b, 0⟩ c) h.fit.tab.blk.symm rfl
        h.fit.tab.holds (by simp [Seg.newTable]; omega) ?_
      intro t'' hh hu
      simp only [wp_pure]
      exact hQ t'' (by rw [hu.blk]; rfl) (by rw [hu.len]; simp [Seg.newTable]) hh
    · rintro _ o' ⟨tb, k1, k2⟩
      exact ⟨tb, _, c, k1, by omega, k2⟩
    · rintro e o' hx
      exact hx
  · rename_i hr
    simp only [Nat.sub_zero] at hr
    rw [wp_pure]
    obtain rfl := h.num
    exact ⟨V.tb, V.base, tcap, h, by omega, rfl⟩

/-- The first part of `grow_storage_back`: afterwards there are `required` free slots after the last one in use. -/
theorem growTableBack_spec {required : Nat} (h : DSt H N o al V tcap f xs) :
    wp (growTableBack E required)
      (fun _ o' => ∃ tb base tcap', DSt H N o' al ⟨tb, base, V.segs, N⟩ tcap' f xs ∧ base + V.segs.length + required ≤ tcap' ∧
        o'.m.mem = o.m.mem)
      (fun e o' => e = .badAlloc ∧ DSt H N o' al V tcap f xs ∧ o'.m.mem = o.m.mem) o := by
  have hobj := h.obj
  have hs := h.geo.slen
  have e0 : o.obj.tbos = ⟨V.tb, 0⟩ := by rw [hobj]; rfl
  have e1 : o.obj.tfirst = ⟨V.tb, V.base⟩ := by rw [hobj]; rfl
  have e2 : o.obj.tlast = ⟨V.tb, V.base + V.segs.length⟩ := by rw [hobj]; rfl
  have e3 : o.obj.teos = ⟨V.tb, tcap⟩ := by rw [hobj]; rfl
  unfold growTableBack
  rw [wp_bind, wp_getObj, wp_bind, e0, e2, e3]
  refine wp_distance rfl (by simpa using hs) ?_
  rw [wp_ite]
  dsimp only
  split
  · rename_i hr
    rw [wp_bind]
    refine wp_distance rfl (by simp) ?_
    simp only [Nat.sub_zero] at hr ⊢
    have hm := Nat.le_max_right (tcap + tcap / 2) (tcap - (tcap - (V.base + V.segs.length)) + required)
    generalize max (tcap + tcap / 2) (tcap - (tcap - (V.base + V.segs.length)) + required) = c at hm ⊢
    have hpos := h.lay.len
    refine wp_mono (replaceTable_spec (k := V.base) h (by omega) ?_) ?_ ?_
    · intro b Q X s hQ
      unfold copyBack
      rw [e0, e1, e2, wp_bind]
      refine wp_distance rfl (by simp) ?_
      rw [wp_bind]
      refine wp_distance rfl (by simp) ?_
      have ea : (V.base + V.segs.length) - V.base = V.segs.length := by omega
      have eb : Ptr.add (⟨b, 0⟩ : Ptr) (V.base - 0) = ⟨b, V.base⟩ := by simp [Ptr.add]
      dsimp only
      rw [ea, eb, wp_bind]
      refine Seg.wp_copyTable (t := o.obj.tab) (t' := Seg.newTable ⟨b, 0⟩ c) h.fit.tab.blk.symm rfl
        h.fit.tab.holds (by simp [Seg.newTable]; omega) ?_
      intro t'' hh hu
      simp only [wp_pure]
      exact hQ t'' (by rw [hu.blk]; rfl) (by rw [hu.len]; simp [Seg.newTable]) hh
    · rintro _ o' ⟨tb, k1, k2⟩
      exact ⟨tb, _, c, k1, by omega, k2⟩
    · rintro e o' hx
      exact hx
  · rename_i hr
    rw [wp_pure]
    obtain rfl := h.num
    exact ⟨V.tb, V.base, tcap, h, by omega, rfl⟩

/-- New segments around the old ones. -/
theorem DSt.grown {a b : List Nat} {base : Nat} {t' : Table} {s' : St α} (h : DSt H N o al V tcap f xs)
    (hx : Seg.Ext N al (a ++ b) o.m s') (hb : t'.blk = V.tb) (hh : Seg.Holds t' base (a ++ V.segs ++ b))
    (tlen : t'.cells.length = tcap) :
    DSt H N ⟨(View.mk V.tb base (a ++ V.segs ++ b) N).sdev t' tcap al (f + a.length * N) (f + a.length * N + xs.length), s'⟩ al
      ⟨V.tb, base, a ++ V.segs ++ b, N⟩ tcap (f + a.length * N) xs := by
  obtain rfl := h.num
  let W : View := ⟨V.tb, base, a ++ V.segs ++ b, V.N⟩
  have hN := h.lay.npos
  have hfr : ∀ c, c ∈ a ++ b → o.m.blk c = none := hx.fresh
  have hraw : ∀ c, c ∈ a ++ b → ∀ k, s'.mem c k = none := by
    intro c hc k
    rw [hx.mem]; exact h.lay.wf.dead c (hfr c hc) k
  have hdis : ∀ c, c ∈ V.segs → c ∉ a ++ b := by
    intro c hc hn
    have h2 := hfr c hn
    rw [h.lay.sblk c hc] at h2; cases h2
  have htn : V.tb ∉ a ++ b := by
    intro hn
    have h2 := hfr _ hn
    rw [h.lay.tbk] at h2; cases h2
  have hmem : ∀ c, c ∈ W.segs → c ∈ V.segs ∨ c ∈ a ++ b := by
    intro c hc
    simp only [W, List.mem_append] at hc ⊢
    rcases hc with (hc | hc) | hc
    · exact Or.inr (Or.inl hc)
    · exact Or.inl hc
    · exact Or.inr (Or.inr hc)
  have hnd := List.nodup_append.mp hx.nodup
  have hsub : Sub V (a.length * V.N) W := Sub.of rfl hN h.lay.len rfl
  have hcap := View.cap_sub (V := W) (W := V) rfl rfl
  refine DSt.of (V := W) rfl hN hx.wf (by simp [W]; have := h.lay.len; omega) ?_ ?_ ?_ ?_ ?_ ?_ hb hh tlen ?_ ?_ ?_
  · refine List.nodup_append.mpr ⟨List.nodup_append.mpr ⟨hnd.1, h.lay.nodup, ?_⟩, hnd.2.1, ?_⟩
    · rintro x hx' y hy rfl
      exact hdis x hy (List.mem_append.mpr (Or.inl hx'))
    · rintro x hx' y hy rfl
      rcases List.mem_append.mp hx' with h1 | h1
      · exact hnd.2.2 x h1 x hy rfl
      · exact hdis x h1 (List.mem_append.mpr (Or.inr hy))
  · intro hc
    rcases hmem _ hc with h1 | h1
    · exact h.lay.notin h1
    · exact htn h1
  · show s'.blk V.tb = _
    rw [hx.blk, if_neg htn]; exact h.lay.tbk
  · intro i
    rw [hx.mem]; exact h.lay.traw i
  · intro c hc
    rw [hx.blk]
    rcases hmem _ hc with h1 | h1
    · rw [if_neg (hdis c h1)]; exact h.lay.sblk c h1
    · rw [if_pos h1]
  · intro c hc i hi
    rcases hmem _ hc with h1 | h1
    · rw [hx.mem]; exact h.lay.beyond c h1 i hi
    · exact hraw c h1 i
  · refine h.owns.step h.lay.wf hx.mem ?_ ?_ ?_
    · rintro c (hc | hc) hn
      · exact absurd (Or.inl hc) hn
      · rcases hmem _ hc with h1 | h1
        · exact absurd (Or.inr h1) hn
        · exact hfr c h1
    · intro c h1 h2
      rw [hx.blk, if_neg]
      intro hc
      apply h2
      refine Or.inr ?_
      rcases List.mem_append.mp hc with h3 | h3
      · simp [W, h3]
      · simp [W, h3]
    · rintro c (hc | hc) hn
      · exact absurd (Or.inl hc) hn
      · exact absurd (Or.inr (by simp [W, hc])) hn
  · have := hsub.size
    have := h.len
    show _ ≤ W.size
    omega
  · intro k hk
    by_cases ho : k < a.length * V.N ∨ a.length * V.N + V.cap ≤ k
    · have h1 := View.addr_out (V := W) (W := V) rfl hN rfl hk ho
      rw [hraw _ (List.mem_append.mpr h1)]
      split
      · rw [List.getElem?_eq_none]
        have := h.len
        have := h.lay.size_lt
        omega
      · rfl
    · have h1 := View.addr_sub (V := W) (W := V) rfl hN rfl (k := k - a.length * V.N) (by omega)
      rw [Nat.sub_add_cancel (by omega)] at h1
      rw [h1, hx.mem, h.slot (by omega)]
      by_cases hf : f + a.length * V.N ≤ k
      · rw [if_pos hf, if_pos (by omega)]
        congr 1; omega
      · rw [if_neg hf, if_neg (by omega)]

/-- `grow_storage_front`. -/
theorem growStorageFront_spec {n : Nat} (h : DSt H N o al V tcap f xs) :
    wp (growStorageFront E N n)
      (fun _ o' => ∃ V' tcap' d, Sub V d V' ∧ n ≤ d ∧ DSt H N o' al V' tcap' (f + d) xs ∧ o'.m.mem = o.m.mem)
      (fun e o' => (e = .lengthError → E.maxSize < V.size + n) ∧ (e = .lengthError ∨ e = .badAlloc) ∧
        ∃ V' tcap', Sub V 0 V' ∧ V'.size = V.size ∧ DSt H N o' al V' tcap' f xs ∧ o'.m.mem = o.m.mem) o := by
  unfold growStorageFront
  rw [wp_bind, wp_run h.capacity_run, wp_ite]
  split
  · rename_i hs
    rw [wp_throw]
    refine ⟨fun _ => ?_, Or.inl rfl, V, tcap, Sub.refl V, rfl, h, rfl⟩
    unfold sizeSub at hs
    split at hs <;> omega
  rw [wp_bind]
  obtain rfl := h.num
  have hN := h.lay.npos
  have hroom : n ≤ (n / V.N + if n % V.N = 0 then 0 else 1) * V.N := by
    have h1 := Nat.div_add_mod n V.N
    have h2 := Nat.mod_lt n hN
    rw [Nat.mul_comm V.N] at h1
    rw [Nat.add_mul]
    split
    · omega
    · omega
  generalize (n / V.N + if n % V.N = 0 then 0 else 1) = r at hroom ⊢
  refine wp_mono (growTableFront_spec (required := r) h) ?_ ?_
  · rintro _ o1 ⟨tb, base, tcap', h1, hl, hm1⟩
    have hob := h1.obj
    have e1 : o1.obj.tfirst = ⟨tb, base⟩ := by rw [hob]; rfl
    have e2 : o1.obj.alloc = al := by rw [hob]; rfl
    rw [wp_bind, wp_getObj, wp_bind, e1, e2]
    refine Seg.wp_shift (by simp; omega) ?_
    have es : ((base : Int) + -(r : Int)).toNat = base - r := by omega
    dsimp only
    rw [es, wp_bind, wp_onTab]
    have hsl := h1.geo.slen
    dsimp only at hsl
    refine Seg.wp_allocSegs hN h1.fit.tab.blk.symm (by show _ ≤ o1.obj.tab.cells.length; rw [h1.geo.tlen]; omega) h1.lay.wf ?_ ?_
    · intro news t' s' hln hx hh hu htk
      dsimp only at hx hu
      have hb : t'.blk = tb := by rw [hu.blk]; exact h1.fit.tab.blk
      have hh' : Seg.Holds t' (base - r) (news ++ V.segs ++ []) := by
        intro j hj
        simp only [List.length_append, List.length_nil, Nat.add_zero] at hj
        rw [List.append_nil]
        by_cases hjs : j < news.length
        · rw [hh j hjs]
          simp only [List.getD_eq_getElem?_getD, List.getElem?_append_left hjs]
        · have h2 := h1.fit.tab.holds (j - news.length) (by show _ < V.segs.length; omega)
          dsimp only at h2
          rw [hu.out _ (by omega), show base - r + j = base + (j - news.length) by omega, h2]
          simp only [List.getD_eq_getElem?_getD, List.getElem?_append_right (Nat.le_of_not_lt hjs)]
      have hg := DSt.grown (a := news) (b := []) h1 (by rw [List.append_nil]; exact hx) hb hh' (by rw [hu.len]; exact h1.geo.tlen)
      rw [wp_bind, wp_getObj, wp_bind]
      let W : View := ⟨tb, base - r, news ++ V.segs ++ [], V.N⟩
      have h0 := hh' 0 (by have := h.lay.len; simp; omega)
      refine Seg.wp_deref hb.symm h0 ?_
      rw [wp_setObj]
      have hsub : Sub V (news.length * V.N) W := Sub.of rfl hN h.lay.len rfl
      refine ⟨W, tcap', news.length * V.N, hsub, by rw [hln]; exact hroom, ?_, hx.mem.trans hm1⟩
      have hit : ∀ k, k < V.cap → W.it (k + news.length * V.N) = (View.mk tb base V.segs V.N).it k := by
        intro k hk
        unfold View.it
        rw [hsub.addr k hk]
        have : (k + news.length * V.N) / V.N = k / V.N + news.length := Nat.add_mul_div_right _ _ hN
        simp only [W]
        rw [this, hln]
        rw [show base - r + (k / V.N + r) = base + k / V.N by omega]
        rfl
      have hsz : W.size = V.size + news.length * V.N := by
        have h1 := View.cap_sub (V := W) (W := V) (a := news) (b := []) rfl rfl
        have h2 := h.lay.cap_pos
        unfold View.size
        simp at h1
        omega
      have hlt := h.lay.size_lt
      have hle := h.len
      have ef : W.sdev t' tcap' al (f + news.length * V.N) (f + news.length * V.N + xs.length) =
          { o1.obj with
            tab := t', tfirst := ⟨tb, base - r⟩, bos := ⟨⟨tb, base - r⟩, ⟨(news ++ V.segs ++ []).getD 0 0, 0⟩⟩ } := by
        unfold View.sdev
        rw [hsz, hit _ hlt, show f + news.length * V.N + xs.length = f + xs.length + news.length * V.N by omega, hit _ (by omega),
          hit _ (by omega), W.it_begin, hob]
        simp only [View.sdev, W, List.length_append, hln, List.length_nil, Nat.add_zero]
        rw [show base - r + (r + V.segs.length) = base + V.segs.length by omega]
        rfl
      rw [ef] at hg
      exact hg
    · intro t' s' hx hu
      dsimp only at hx hu
      refine ⟨by simp, Or.inr rfl, ⟨tb, base, V.segs, V.N⟩, tcap', ⟨rfl, fun _ _ => rfl, Nat.le_refl _, Nat.le_refl _⟩, rfl, ?_,
        hx.mem.trans hm1⟩
      refine h1.same hx.wf hx.mem (fun c => by simpa using hx.blk c) hu.blk hu.len (fun i _ => ?_)
      exact hu.out _ (by dsimp only; omega)
  · rintro e o1 ⟨rfl, h1, h2⟩
    exact ⟨by simp, Or.inr rfl, V, tcap, Sub.refl V, rfl, h1, h2⟩

/-- `grow_storage_back`. -/
theorem growStorageBack_spec {n : Nat} (h : DSt H N o al V tcap f xs) :
    wp (growStorageBack E N n)
      (fun _ o' => ∃ V' tcap', Sub V 0 V' ∧ V.size + n ≤ V'.size ∧ DSt H N o' al V' tcap' f xs ∧ o'.m.mem = o.m.mem)
      (fun e o' => (e = .lengthError → E.maxSize < V.size + n) ∧ (e = .lengthError ∨ e = .badAlloc) ∧
        ∃ V' tcap', Sub V 0 V' ∧ V'.size = V.size ∧ DSt H N o' al V' tcap' f xs ∧ o'.m.mem = o.m.mem) o := by
  unfold growStorageBack
  rw [wp_bind, wp_run h.capacity_run, wp_ite]
  split
  · rename_i hs
    rw [wp_throw]
    refine ⟨fun _ => ?_, Or.inl rfl, V, tcap, Sub.refl V, rfl, h, rfl⟩
    unfold sizeSub at hs
    split at hs <;> omega
  rw [wp_bind]
  obtain rfl := h.num
  have hN := h.lay.npos
  have hroom : n ≤ (n / V.N + 1) * V.N := by
    have h1 := Nat.div_add_mod n V.N
    have h2 := Nat.mod_lt n hN
    rw [Nat.mul_comm V.N] at h1
    rw [Nat.add_mul]
    omega
  have hr1 : 1 ≤ n / V.N + 1 := Nat.succ_le_succ (Nat.zero_le _)
  generalize n / V.N + 1 = r at hroom hr1 ⊢
  refine wp_mono (growTableBack_spec (required := r) h) ?_ ?_
  · rintro _ o1 ⟨tb, base, tcap', h1, hl, hm1⟩
    have hob := h1.obj
    have e1 : o1.obj.tlast = ⟨tb, base + V.segs.length⟩ := by rw [hob]; rfl
    have e2 : o1.obj.alloc = al := by rw [hob]; rfl
    rw [wp_bind, wp_getObj, e1, e2, wp_bind, wp_onTab]
    have hsl := h1.geo.slen
    dsimp only at hsl
    refine Seg.wp_allocSegs hN h1.fit.tab.blk.symm (by show _ ≤ o1.obj.tab.cells.length; rw [h1.geo.tlen]; omega) h1.lay.wf ?_ ?_
    · intro news t' s' hln hx hh hu htk
      dsimp only at hx hu
      have hb : t'.blk = tb := by rw [hu.blk]; exact h1.fit.tab.blk
      have hh' : Seg.Holds t' base ([] ++ V.segs ++ news) := by
        intro j hj
        rw [List.nil_append] at hj ⊢
        simp only [List.length_append] at hj
        by_cases hjs : j < V.segs.length
        · have h2 := h1.fit.tab.holds j hjs
          dsimp only at h2
          rw [hu.out _ (by omega), h2]
          simp only [List.getD_eq_getElem?_getD, List.getElem?_append_left hjs]
        · have h2 := hh (j - V.segs.length) (by omega)
          rw [show base + V.segs.length + (j - V.segs.length) = base + j by omega] at h2
          rw [h2]
          simp only [List.getD_eq_getElem?_getD, List.getElem?_append_right (Nat.le_of_not_lt hjs)]
      have hg := DSt.grown (a := []) (b := news) h1 hx hb hh' (by rw [hu.len]; exact h1.geo.tlen)
      rw [wp_bind, wp_getObj, wp_bind]
      let W : View := ⟨tb, base, [] ++ V.segs ++ news, V.N⟩
      have e3 : ({ o1.obj with tab := t' } : SDVec).tlast.add r = ⟨tb, base + V.segs.length + r⟩ := by
        show o1.obj.tlast.add r = _
        rw [e1]; simp [Ptr.add]
      dsimp only at e3 ⊢
      rw [e3]
      refine Seg.wp_shift (by simp; omega) ?_
      have e4 : (((base + V.segs.length + r : Nat) : Int) + -1).toNat = base + V.segs.length + (r - 1) := by omega
      simp only
      rw [e4, wp_bind]
      refine Seg.wp_deref hb.symm (hh (r - 1) (by omega)) ?_
      rw [wp_setObj]
      have hsub : Sub V 0 W := by
        have := Sub.of (V := V) (V' := W) (a := []) (b := news) rfl hN h.lay.len rfl
        simpa using this
      have hsz : V.size + n ≤ W.size := by
        have h1 := View.cap_sub (V := W) (W := V) (a := []) (b := news) rfl rfl
        have h2 := h.lay.cap_pos
        unfold View.size
        rw [hln] at h1
        simp at h1
        omega
      have hWl : W.segs.length = V.segs.length + r := by simp [W, hln]
      refine ⟨W, tcap', hsub, hsz, ?_, hx.mem.trans hm1⟩
      have hit : ∀ k, k < V.cap → W.it k = (View.mk tb base V.segs V.N).it k := by
        intro k hk
        have := hsub.addr k hk
        rw [Nat.add_zero] at this
        unfold View.it
        rw [this]
        rfl
      have hlt := h.lay.size_lt
      have hle := h.len
      have ef : W.sdev t' tcap' al f (f + xs.length) =
          { o1.obj with
            tab := t', tlast := ⟨tb, base + V.segs.length + r⟩,
            eos := ⟨⟨tb, base + V.segs.length + (r - 1)⟩, Ptr.add ⟨news.getD (r - 1) 0, 0⟩ (V.N - 1)⟩ } := by
        unfold View.sdev
        rw [W.it_end hN (by omega), hit _ (by omega), hit _ (by omega), hit _ (by omega), hob]
        simp only [hWl, View.sdev, Ptr.add, Nat.zero_add]
        simp only [W, View.sg, List.nil_append, List.getD_eq_getElem?_getD]
        rw [List.getElem?_append_right (by omega), show V.segs.length + r - 1 - V.segs.length = r - 1 by omega,
          show base + (V.segs.length + r) - 1 = base + V.segs.length + (r - 1) by omega,
          show base + (V.segs.length + r) = base + V.segs.length + r by omega]
      simp only [List.length_nil, Nat.zero_mul, Nat.add_zero] at hg
      rw [ef] at hg
      exact hg
    · intro t' s' hx hu
      dsimp only at hx hu
      refine ⟨by simp, Or.inr rfl, ⟨tb, base, V.segs, V.N⟩, tcap', ⟨rfl, fun _ _ => rfl, Nat.le_refl _, Nat.le_refl _⟩, rfl, ?_,
        hx.mem.trans hm1⟩
      refine h1.same hx.wf hx.mem (fun c => by simpa using hx.blk c) hu.blk hu.len (fun i hi => ?_)
      refine hu.out _ (Or.inl ?_)
      dsimp only at hi ⊢
      omega
  · rintro e o1 ⟨rfl, h1, h2⟩
    exact ⟨by simp, Or.inr rfl, V, tcap, Sub.refl V, rfl, h1, h2⟩

/-- Segments without elements are given up. -/
theorem DSt.shrunk {a s b : List Nat} {f' : Nat} {m' : St α} (h : DSt H N o al V tcap f xs) (hs : V.segs = a ++ s ++ b)
    (hl : 0 < s.length) (hw : m'.Wf) (hm : m'.mem = o.m.mem) (hk : ∀ c, m'.blk c = if c ∈ a ++ b then none else o.m.blk c)
    (hraw : ∀ c, c ∈ a ++ b → ∀ i, o.m.mem c i = none) (hf : f = f' + a.length * N) (hlen : f' + xs.length < s.length * N) :
    DSt H N ⟨(View.mk V.tb (V.base + a.length) s N).sdev o.obj.tab tcap al f' (f' + xs.length), m'⟩ al
      ⟨V.tb, V.base + a.length, s, N⟩ tcap f' xs ∧
    Sub ⟨V.tb, V.base + a.length, s, N⟩ (a.length * N) V := by
  obtain rfl := h.num
  let W : View := ⟨V.tb, V.base + a.length, s, V.N⟩
  have hN := h.lay.npos
  have hsub : Sub W (a.length * V.N) V := Sub.of (V := W) (V' := V) rfl hN hl hs
  have hnd := h.lay.nodup
  rw [hs] at hnd
  obtain ⟨n1, n2, n3⟩ := List.nodup_append.mp hnd
  obtain ⟨n4, n5, n6⟩ := List.nodup_append.mp n1
  have hdis : ∀ c, c ∈ s → c ∉ a ++ b := by
    intro c hc hn
    rcases List.mem_append.mp hn with h1 | h1
    · exact n6 c h1 c hc rfl
    · exact n3 c (List.mem_append.mpr (Or.inr hc)) c h1 rfl
  have hin : ∀ c, c ∈ s → c ∈ V.segs := fun c hc => by rw [hs]; simp [hc]
  have hin' : ∀ c, c ∈ a ++ b → c ∈ V.segs := fun c hc => by
    rw [hs]
    rcases List.mem_append.mp hc with h1 | h1 <;> simp [h1]
  have hcapW : W.cap = s.length * V.N := rfl
  refine ⟨DSt.of (V := W) rfl hN hw hl n5 (fun hc => h.lay.notin (hin _ hc)) ?_ ?_ ?_ ?_ h.fit.tab.blk ?_ h.geo.tlen ?_ ?_ ?_, hsub⟩
  · rw [hk, if_neg (fun hc => h.lay.notin (hin' _ hc))]; exact h.lay.tbk
  · intro i; rw [hm]; exact h.lay.traw i
  · intro c hc
    rw [hk, if_neg (hdis c hc)]; exact h.lay.sblk c (hin c hc)
  · intro c hc i hi
    rw [hm]; exact h.lay.beyond c (hin c hc) i hi
  · intro j hj
    have hj : j < s.length := hj
    have h2 := h.fit.tab.holds (a.length + j) (by rw [hs]; simp; omega)
    show o.obj.tab.cells[V.base + a.length + j]? = some (some ⟨s.getD j 0, 0⟩)
    rw [Nat.add_assoc, h2, hs]
    simp only [List.getD_eq_getElem?_getD]
    rw [List.getElem?_append_left (by simp; omega), List.getElem?_append_right (Nat.le_add_right _ _), Nat.add_sub_cancel_left]
  · refine h.owns.step h.lay.wf hm ?_ ?_ ?_
    · rintro c (hc | hc) hn
      · exact absurd (Or.inl hc) hn
      · exact absurd (Or.inr (hin c hc)) hn
    · intro c h1 h2
      rw [hk, if_neg (fun hc => h1 (Or.inr (hin' c hc)))]
    · rintro c (hc | hc) hn
      · exact absurd (Or.inl hc) hn
      · have : c ∈ a ++ b := by
          rw [hs] at hc
          rcases List.mem_append.mp hc with h1 | h1
          · rcases List.mem_append.mp h1 with h2 | h2
            · simp [h2]
            · exact absurd (Or.inr h2) hn
          · simp [h1]
        exact ⟨by rw [hk, if_pos this], hraw c this⟩
  · unfold View.size
    rw [hcapW]; omega
  · intro k hk'
    have h1 := hsub.addr k hk'
    have h2 := hsub.cap
    rw [hm, ← h1, h.slot (by omega)]
    by_cases hf' : f' ≤ k
    · rw [if_pos hf', if_pos (by omega)]
      congr 1; omega
    · rw [if_neg hf', if_neg (by omega)]

theorem shrinkFront_spec (h : DSt H N o al V tcap f xs) :
    wp (shrinkFront N)
      (fun _ o' => ∃ V' d f', f = f' + d ∧ Sub V' d V ∧ DSt H N o' al V' tcap f' xs ∧ o'.m.mem = o.m.mem)
      (fun _ _ => False) o := by
  obtain rfl := h.num
  have hN := h.lay.npos
  have hob := h.obj
  have hlt := h.lay.size_lt
  have hle := h.len
  have hfl : f / V.N < V.segs.length := View.div_lt hN (by omega)
  have e0 : o.obj.first.seg = ⟨V.tb, V.base + f / V.N⟩ := by rw [hob]; rfl
  have e1 : o.obj.tfirst = ⟨V.tb, V.base⟩ := by rw [hob]; rfl
  have e2 : o.obj.alloc = al := by rw [hob]; rfl
  unfold shrinkFront
  rw [wp_bind, wp_getObj]
  dsimp only
  rw [wp_bind, wp_onTab, e0, e1, e2]
  have hfm : f = f % V.N + f / V.N * V.N := by
    have := Nat.div_add_mod f V.N
    rw [Nat.mul_comm] at this; omega
  have hmod := Nat.mod_lt f hN
  generalize f / V.N = q at hfl hfm ⊢
  generalize f % V.N = f' at hfm hmod ⊢
  have hta : (V.segs.take q).length = q := by simp; omega
  have hraw : ∀ c, c ∈ V.segs.take q → ∀ k, o.m.mem c k = none := by
    intro c hc k
    obtain ⟨i, hi, rfl⟩ := List.getElem_of_mem hc
    rw [hta] at hi
    rw [List.getElem_take]
    refine h.rawSeg (by omega) (Or.inl ?_) k
    have : (i + 1) * V.N ≤ q * V.N := Nat.mul_le_mul_right _ hi
    omega
  have hin : ∀ c, c ∈ V.segs.take q → c ∈ V.segs := fun c hc => List.mem_of_mem_take hc
  refine Seg.wp_deallocSegs (o := ⟨o.obj.tab, o.m⟩) (bs := V.segs.take q) h.fit.tab.blk.symm (by rw [hta]) ?_
    (h.lay.nodup.sublist (List.take_sublist _ _)) h.lay.wf (fun c hc => h.lay.sblk c (hin c hc)) hraw ?_
  · intro j hj
    rw [hta] at hj
    have h2 := h.fit.tab.holds j (by omega)
    rw [h2]
    simp only [List.getD_eq_getElem?_getD, List.getElem?_take_of_lt hj]
  intro m1 hw1 hm1 ht1 hk1
  rw [wp_bind, wp_getObj, wp_bind]
  have hq := h.fit.tab.holds q hfl
  refine Seg.wp_deref h.fit.tab.blk.symm hq ?_
  rw [wp_setObj]
  have hcap : V.cap = q * V.N + (V.segs.length - q) * V.N := by
    unfold View.cap
    rw [← Nat.add_mul, Nat.add_sub_cancel' (by omega)]
  obtain ⟨hg, hsub⟩ := DSt.shrunk (a := V.segs.take q) (s := V.segs.drop q) (b := []) (f' := f') (m' := m1) h
    (by rw [List.append_nil, List.take_append_drop]) (by simp; omega) hw1 hm1 (by rw [List.append_nil]; exact hk1)
    (by rw [List.append_nil]; exact hraw) (by rw [hta]; exact hfm) (by simp only [List.length_drop]; omega)
  rw [hta] at hg hsub
  refine ⟨_, _, f', hfm, hsub, ?_, hm1⟩
  have hit : ∀ k, k < (View.mk V.tb (V.base + q) (V.segs.drop q) V.N).cap →
      (View.mk V.tb (V.base + q) (V.segs.drop q) V.N).it k = V.it (k + q * V.N) := by
    intro k hk
    have h1 := hsub.addr k hk
    have h2 : (k + q * V.N) / V.N = k / V.N + q := Nat.add_mul_div_right _ _ hN
    unfold View.it
    rw [← h1, h2]
    rw [show V.base + (k / V.N + q) = V.base + q + k / V.N by omega]
  have hcW : (View.mk V.tb (V.base + q) (V.segs.drop q) V.N).cap = (V.segs.length - q) * V.N := by simp [View.cap]
  have hpos : 0 < (V.segs.length - q) * V.N := Nat.mul_pos (by omega) hN
  have hsz : (View.mk V.tb (V.base + q) (V.segs.drop q) V.N).size + q * V.N = V.size := by
    unfold View.size
    rw [hcW]; omega
  have ef : (View.mk V.tb (V.base + q) (V.segs.drop q) V.N).sdev o.obj.tab tcap al f' (f' + xs.length) =
      { o.obj with tfirst := ⟨V.tb, V.base + q⟩, bos := ⟨⟨V.tb, V.base + q⟩, ⟨V.segs.getD q 0, 0⟩⟩ } := by
    unfold View.sdev
    rw [hit (View.size _) (by unfold View.size; omega), hsz, hit f' (by omega), hit (f' + xs.length) (by omega), View.it_begin,
      show f' + xs.length + q * V.N = f + xs.length by omega, ← hfm, hob]
    simp only [View.sdev, View.sg, List.length_drop]
    rw [show V.base + q + (V.segs.length - q) = V.base + V.segs.length by omega]
    simp [List.getElem?_drop]
  rw [ef] at hg
  exact hg

theorem shrinkBack_spec (h : DSt H N o al V tcap f xs) :
    wp (shrinkBack N)
      (fun _ o' => ∃ V', Sub V' 0 V ∧ DSt H N o' al V' tcap f xs ∧ o'.m.mem = o.m.mem)
      (fun _ _ => False) o := by
  obtain rfl := h.num
  have hN := h.lay.npos
  have hob := h.obj
  have hlt := h.lay.size_lt
  have hle := h.len
  have hfl : (f + xs.length) / V.N < V.segs.length := View.div_lt hN (by omega)
  have e0 : o.obj.last.seg = ⟨V.tb, V.base + (f + xs.length) / V.N⟩ := by rw [hob]; rfl
  have e1 : o.obj.tlast = ⟨V.tb, V.base + V.segs.length⟩ := by rw [hob]; rfl
  have e2 : o.obj.alloc = al := by rw [hob]; rfl
  unfold shrinkBack
  rw [wp_bind, wp_getObj]
  dsimp only
  rw [wp_bind, wp_onTab, e0, e1, e2]
  have e3 : (⟨V.tb, V.base + (f + xs.length) / V.N⟩ : Ptr).add 1 = ⟨V.tb, V.base + ((f + xs.length) / V.N + 1)⟩ := rfl
  rw [e3]
  have hfm : f + xs.length < ((f + xs.length) / V.N + 1) * V.N := by
    rw [Nat.mul_comm]; exact Nat.lt_mul_div_succ _ hN
  generalize (f + xs.length) / V.N = q at hfl hfm ⊢
  have hta : (V.segs.take (q + 1)).length = q + 1 := by simp; omega
  have hin : ∀ c, c ∈ V.segs.drop (q + 1) → c ∈ V.segs := fun c hc => List.mem_of_mem_drop hc
  have hraw : ∀ c, c ∈ V.segs.drop (q + 1) → ∀ k, o.m.mem c k = none := by
    intro c hc k
    obtain ⟨i, hi, rfl⟩ := List.getElem_of_mem hc
    simp only [List.length_drop] at hi
    rw [List.getElem_drop]
    refine h.rawSeg (by omega) (Or.inr ?_) k
    have : (q + 1) * V.N ≤ (q + 1 + i) * V.N := Nat.mul_le_mul_right _ (by omega)
    omega
  refine Seg.wp_deallocSegs (o := ⟨o.obj.tab, o.m⟩) (bs := V.segs.drop (q + 1)) h.fit.tab.blk.symm (by simp; omega) ?_
    (h.lay.nodup.sublist (List.drop_sublist _ _)) h.lay.wf (fun c hc => h.lay.sblk c (hin c hc)) hraw ?_
  · intro j hj
    simp only [List.length_drop] at hj
    have h2 := h.fit.tab.holds (q + 1 + j) (by omega)
    rw [Nat.add_assoc, h2]
    simp [List.getElem?_drop]
  intro m1 hw1 hm1 ht1 hk1
  rw [wp_bind, wp_getObj, wp_bind]
  refine Seg.wp_shift (by simp; omega) ?_
  have e4 : (((V.base + (q + 1) : Nat) : Int) + -1).toNat = V.base + q := by omega
  dsimp only
  rw [e4, wp_bind]
  refine Seg.wp_deref h.fit.tab.blk.symm (h.fit.tab.holds q hfl) ?_
  rw [wp_setObj]
  obtain ⟨hg, hsub⟩ := DSt.shrunk (a := []) (s := V.segs.take (q + 1)) (b := V.segs.drop (q + 1)) (f' := f) (m' := m1) h
    (by rw [List.nil_append, List.take_append_drop]) (by omega) hw1 hm1 (by rw [List.nil_append]; exact hk1)
    (by rw [List.nil_append]; exact hraw) (by simp) (by rw [hta]; exact hfm)
  simp only [List.length_nil, Nat.zero_mul, Nat.add_zero] at hg hsub
  refine ⟨_, hsub, ?_, hm1⟩
  have hcW : (View.mk V.tb V.base (V.segs.take (q + 1)) V.N).cap = (q + 1) * V.N := by
    show (V.segs.take (q + 1)).length * V.N = _
    rw [hta]
  have hit : ∀ k, k < (q + 1) * V.N → (View.mk V.tb V.base (V.segs.take (q + 1)) V.N).it k = V.it k := by
    intro k hk
    have h1 := hsub.addr k (by rw [hcW]; exact hk)
    rw [Nat.add_zero] at h1
    unfold View.it
    rw [← h1]
  have ef : (View.mk V.tb V.base (V.segs.take (q + 1)) V.N).sdev o.obj.tab tcap al f (f + xs.length) =
      { o.obj with
        tlast := ⟨V.tb, V.base + (q + 1)⟩, eos := ⟨⟨V.tb, V.base + q⟩, Ptr.add ⟨V.segs.getD q 0, 0⟩ (V.N - 1)⟩ } := by
    unfold View.sdev
    rw [View.it_end (View.mk V.tb V.base (V.segs.take (q + 1)) V.N) hN (by show 0 < (V.segs.take (q + 1)).length; omega), hit 0 (by omega), hit f (by omega), hit (f + xs.length) (by omega), hob]
    simp only [View.sdev, hta, Ptr.add, Nat.zero_add]
    simp only [View.sg, List.getD_eq_getElem?_getD]
    rw [show V.base + (q + 1) - 1 = V.base + q by omega, show q + 1 - 1 = q by omega, List.getElem?_take_of_lt (by omega)]
  rw [ef] at hg
  exact hg

/-- `shrink_to_fit`. -/
theorem shrinkStorage_spec (h : DSt H N o al V tcap f xs) :
    wp (shrinkStorage E N)
      (fun _ o' => ∃ V' tcap' d f', f = f' + d ∧ Sub V' d V ∧ DSt H N o' al V' tcap' f' xs ∧ o'.m.mem = o.m.mem)
      (fun e o' => e = .badAlloc ∧
        ∃ V' tcap' d f', f = f' + d ∧ Sub V' d V ∧ DSt H N o' al V' tcap' f' xs ∧ o'.m.mem = o.m.mem) o := by
  unfold shrinkStorage
  rw [wp_bind]
  refine wp_mono (shrinkFront_spec h) ?_ (fun _ _ h => h.elim)
  rintro _ o1 ⟨V1, d, f1, hf, hs1, h1, hm1⟩
  rw [wp_bind]
  refine wp_mono (shrinkBack_spec h1) ?_ (fun _ _ h => h.elim)
  rintro _ o2 ⟨V2, hs2, h2, hm2⟩
  have hob := h2.obj
  have e1 : o2.obj.tfirst = ⟨V2.tb, V2.base⟩ := by rw [hob]; rfl
  have e2 : o2.obj.tlast = ⟨V2.tb, V2.base + V2.segs.length⟩ := by rw [hob]; rfl
  have hsub := hs2.trans hs1
  rw [Nat.zero_add] at hsub
  rw [wp_bind, wp_getObj, wp_bind, e1, e2]
  refine wp_distance rfl (by simp) ?_
  dsimp only
  rw [Nat.add_sub_cancel_left]
  have hmx := Nat.le_max_left V2.segs.length 8
  have hmx' := Nat.le_max_right V2.segs.length 8
  generalize max V2.segs.length 8 = c at hmx hmx' ⊢
  refine wp_mono (replaceTable_spec (k := 0) h2 (by omega) ?_) ?_ ?_
  · intro b Q X s hQ
    unfold copyShrink
    rw [e1, e2, wp_bind]
    refine wp_distance rfl (by simp) ?_
    dsimp only
    rw [Nat.add_sub_cancel_left, wp_bind]
    refine Seg.wp_copyTable (t := o2.obj.tab) (t' := Seg.newTable ⟨b, 0⟩ c) h2.fit.tab.blk.symm rfl
      h2.fit.tab.holds (by simp [Seg.newTable]; omega) ?_
    intro t'' hh hu
    simp only [wp_pure]
    have := hQ t'' (by rw [hu.blk]; rfl) (by rw [hu.len]; simp [Seg.newTable]) hh
    exact this
  · rintro _ o' ⟨tb, k1, k2⟩
    refine ⟨_, c, d, f1, hf, ?_, k1, by rw [k2, hm2, hm1]⟩
    have h3 := h2.num
    obtain rfl := h3
    exact ⟨hsub.num, hsub.addr, hsub.cap, hsub.size⟩
  · rintro e o' ⟨k1, k2, k3⟩
    exact ⟨k1, V2, tcap, d, f1, hf, hsub, k2, by rw [k3, hm2, hm1]⟩

end SegDev
end Sfl
