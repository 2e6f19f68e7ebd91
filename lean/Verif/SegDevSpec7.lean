import Verif.SegDevSpec6
import Verif.SegVecSpec6
/-
  Specifications of the functions of segmented_devector: construction, assignment and swap. Proof machinery: no code is modelled
  in this file.
-/

set_option linter.unusedSimpArgs false
set_option linter.unusedSectionVars false

namespace Sfl.SegDev
open World
open SegVec (Fit IsFrom wp_run wp_onLocal both_no both_comm)
variable {α : Type} {E : Env α} {N al al2 tcap tcap2 f f2 : Nat} {V V' V2 : View} {xs xs2 : List α} {o : Obj SDVec α}
  {H H' H2 : Heap α} {w : SDVec} {m m' : St α} {F F' : Foot}

/-! ### Two containers in one memory -/

/-- Everything outside the blocks `F` is the foreign memory `H`. -/
structure Has (F : Foot) (H : Heap α) (m : St α) : Prop where
  blk : ∀ c, ¬ F c → m.blk c = H.blk c
  mem : ∀ c, ¬ F c → ∀ i, m.mem c i = H.mem c i
  hblk : ∀ c, F c → H.blk c = none

theorem _root_.Sfl.View.Owns.has (h : V.Owns H m) : Has V.foot H m := ⟨h.blk, h.mem, h.hblk⟩

theorem Bare.has (h : Bare H m) : Has noFoot H m := ⟨fun c _ => h.blk c, fun c _ => h.mem c, fun _ h => h.elim⟩

theorem Has.frame (h : Has F H m) (h' : Has F' H m') (hw : m'.Wf) : Frame m F m' F' where
  wf := hw
  keep := fun c hc hb => by
    have : ¬ F' c := fun hn => hb (by rw [h.blk c hc]; exact h'.hblk c hn)
    exact ⟨this, by rw [h.blk c hc, h'.blk c this], fun k => by rw [h.mem c hc, h'.mem c this]⟩
  fresh := fun c hc hb hn => by rw [h'.blk c hn, ← h.blk c hc]; exact hb
  freed := fun c hc hn => by rw [h'.blk c hn]; exact h.hblk c hc

/-- The whole memory. -/
def whole (m : St α) : Heap α := ⟨m.mem, m.blk⟩

theorem bare_whole (hw : m.Wf) : Bare (whole m) m := ⟨hw, fun _ => rfl, fun _ _ => rfl⟩

/-- The addresses of the elements. -/
def addrs (V : View) (f n : Nat) : List Ptr := (List.range' f n).map V.addr

theorem addrs_get {j n : Nat} {p : Ptr} (h : (addrs V f n)[j]? = some p) : j < n ∧ p = V.addr (f + j) := by
  unfold addrs at h
  rw [List.getElem?_map] at h
  obtain ⟨k, hk, rfl⟩ := Option.map_eq_some_iff.mp h
  obtain ⟨hj, rfl⟩ := List.getElem?_eq_some_iff.mp hk
  simp at hj
  exact ⟨hj, by simp⟩

theorem get_addrs {j n : Nat} (h : j < n) : (addrs V f n)[j]? = some (V.addr (f + j)) := by
  unfold addrs
  rw [List.getElem?_map, List.getElem?_range' h]; simp

section
variable (h2 : DSt H2 N ⟨w, m⟩ al2 V2 tcap2 f2 xs2)
include h2

theorem DSt.mem_addrs {k : Nat} (hk : k < V2.cap) : V2.addr k ∈ addrs V2 f2 xs2.length ↔ f2 ≤ k ∧ k < f2 + xs2.length := by
  have hlen := h2.len
  have hs := V2.size_le
  unfold addrs
  simp only [List.mem_map, List.mem_range'_1]
  constructor
  · rintro ⟨i, hi, he⟩
    have := View.addr_inj h2.lay.nodup h2.lay.npos (by omega) hk he
    omega
  · intro h
    exact ⟨k, h, rfl⟩

theorem DSt.addrs_nodup : (addrs V2 f2 xs2.length).Nodup := by
  have hlen := h2.len
  have hs := V2.size_le
  unfold addrs List.Nodup
  rw [List.pairwise_map]
  refine List.Pairwise.imp_of_mem ?_ (List.nodup_range' (s := f2) (n := xs2.length) (step := 1))
  intro a b ha hb hne he
  simp only [List.mem_range'_1] at ha hb
  exact hne (View.addr_inj h2.lay.nodup h2.lay.npos (by omega) (by omega) he)

/-- The other container, of which elements may have been moved. -/
theorem DSt.other {ys : List α} (h : Has F H m) (h' : Has F' H' m') (hw : m'.Wf) (hd : ∀ c, V2.foot c → ¬ F c)
    (hb : H'.blk = H.blk) (hm : ∀ c i, (⟨c, i⟩ : Ptr) ∉ addrs V2 f2 xs2.length → H'.mem c i = H.mem c i)
    (hl : ys.length = xs2.length)
    (hy : ∀ j, j < xs2.length → H'.mem (V2.addr (f2 + j)).blk (V2.addr (f2 + j)).off = ys[j]?) :
    DSt (heapOf V2 m') N ⟨w, m'⟩ al2 V2 tcap2 f2 ys ∧ (∀ c, V2.foot c → ¬ F' c) ∧
      Frame m (Both F V2.foot) m' (Both F' V2.foot) := by
  have hlen := h2.len
  have hs := V2.size_le
  have hcl := h2.lay.size_lt
  have hlive := h2.live
  dsimp only at hlive
  have hdn : ∀ c, V2.foot c → ¬ F' c := fun c hc hn => by
    have := h'.hblk c hn
    rw [hb, ← h.blk c (hd c hc)] at this
    exact hlive c hc this
  have hblk : ∀ c, V2.foot c → m'.blk c = m.blk c := fun c hc => by
    rw [h'.blk c (hdn c hc), hb, h.blk c (hd c hc)]
  have hmem : ∀ c, V2.foot c → ∀ i, (⟨c, i⟩ : Ptr) ∉ addrs V2 f2 xs2.length → m'.mem c i = m.mem c i := fun c hc i hi => by
    rw [h'.mem c (hdn c hc), hm c i hi, h.mem c (hd c hc)]
  have inseg : ∀ p ∈ addrs V2 f2 xs2.length, p.blk ∈ V2.segs ∧ p.off < V2.N := by
    intro p hp
    unfold addrs at hp
    simp only [List.mem_map, List.mem_range'_1] at hp
    obtain ⟨k, hk, rfl⟩ := hp
    exact ⟨View.addr_mem h2.lay.npos (by omega), Nat.mod_lt _ h2.lay.npos⟩
  have hslot : ∀ k, k < V2.cap → m'.mem (V2.addr k).blk (V2.addr k).off = if f2 ≤ k then ys[k - f2]? else none := by
    intro k hk
    have hfoot : V2.foot (V2.addr k).blk := Or.inr (View.addr_mem h2.lay.npos hk)
    by_cases hin : f2 ≤ k ∧ k < f2 + xs2.length
    · have := hy (k - f2) (by omega)
      rw [show f2 + (k - f2) = k by omega] at this
      rw [h'.mem _ (hdn _ hfoot), this, if_pos hin.1]
    · rw [hmem _ hfoot _ (by rw [show (⟨(V2.addr k).blk, (V2.addr k).off⟩ : Ptr) = V2.addr k from rfl, h2.mem_addrs hk]; exact hin)]
      have := h2.slot hk
      dsimp only at this
      rw [this]
      split
      · rw [List.getElem?_eq_none (by omega), List.getElem?_eq_none (by omega)]
      · rfl
  refine ⟨?_, hdn, hw, ?_, ?_, ?_⟩
  · have ho := h2.obj
    dsimp only at ho
    rw [ho, ← hl]
    have hln := h2.lay
    dsimp only at hln
    refine DSt.of h2.num (by rw [← h2.num]; exact hln.npos) hw hln.len hln.nodup hln.notin (by rw [hblk _ (Or.inl rfl)]; exact hln.tbk)
      (fun i => ?_) (fun b hb => ?_) (fun b hb i hi => ?_) h2.fit.tab.blk h2.fit.tab.holds h2.geo.tlen (owns_heapOf _ _) (by omega) hslot
    · rw [hmem _ (Or.inl rfl) _ (fun hp => hln.notin (inseg _ hp).1)]; exact hln.traw i
    · rw [hblk _ (Or.inr hb), ← h2.num]; exact hln.sblk b hb
    · rw [← h2.num] at hi
      rw [hmem _ (Or.inr hb) _ (fun hp => by have := (inseg _ hp).2; dsimp only at this; omega)]; exact hln.beyond b hb i hi
  · intro c hc hne
    have h1 : ¬ F c := fun e => hc (Or.inl e)
    have h3 : ¬ V2.foot c := fun e => hc (Or.inr e)
    have h4 : ¬ F' c := fun hn => by
      have := h'.hblk c hn
      rw [hb, ← h.blk c h1] at this
      exact hne this
    refine ⟨fun e => e.elim h4 h3, by rw [h'.blk c h4, hb, h.blk c h1], fun k => ?_⟩
    rw [h'.mem c h4, hm c k (fun hp => h3 (Or.inr (inseg _ hp).1)), h.mem c h1]
  · intro c hc hne hn
    have h1 : ¬ F c := fun e => hc (Or.inl e)
    have h4 : ¬ F' c := fun e => hn (Or.inl e)
    rw [h'.blk c h4, hb, ← h.blk c h1, hne]
  · intro c hc hn
    have h4 : ¬ F' c := fun e => hn (Or.inl e)
    rcases hc with hc | hc
    · rw [h'.blk c h4, hb, h.hblk c hc]
    · exact absurd (Or.inr hc) hn

/-- All elements of the other container have been moved. -/
theorem DSt.otherMoved {as : List (Arg α)} (h : Has F H m) (h' : Has F' H' m') (hw : m'.Wf) (hd : ∀ c, V2.foot c → ¬ F c)
    (hf : Feed E H as xs2 (Option.some (addrs V2 f2 xs2.length)) (fun _ => True) H') :
    DSt (heapOf V2 m') N ⟨w, m'⟩ al2 V2 tcap2 f2 (xs2.map E.moved) ∧ (∀ c, V2.foot c → ¬ F' c) ∧
      Frame m (Both F V2.foot) m' (Both F' V2.foot) := by
  obtain ⟨k0, k1, k2, k3, k4, k5, k6⟩ := hf
  refine h2.other h h' hw hd k4 (fun c i hi => k6 c i (fun j hj => absurd (List.mem_of_getElem? hj) hi)) (by simp) ?_
  intro j hj
  have hg := get_addrs (V := V2) (f := f2) hj
  rw [k5 j _ hg trivial, (k3 j _ hg).1, List.getElem?_map]

/-- Some elements of the other container may have been moved. -/
theorem DSt.otherSpoilt (h : Has F H m) (h' : Has F' H' m') (hw : m'.Wf) (hd : ∀ c, V2.foot c → ¬ F c)
    (hf : Spoilt H (Option.some (addrs V2 f2 xs2.length)) H') :
    ∃ ys, ys.length = xs2.length ∧ DSt (heapOf V2 m') N ⟨w, m'⟩ al2 V2 tcap2 f2 ys ∧ (∀ c, V2.foot c → ¬ F' c) ∧
      Frame m (Both F V2.foot) m' (Both F' V2.foot) := by
  obtain ⟨k1, k2, k3⟩ := hf
  obtain ⟨ys, h3, h4⟩ := exists_list (n := xs2.length) (p := fun j => H'.mem (V2.addr (f2 + j)).blk (V2.addr (f2 + j)).off)
    (fun j hj => Option.isSome_iff_exists.mp (k3 _ (List.mem_of_getElem? (get_addrs hj))))
  exact ⟨ys, h3, h2.other h h' hw hd k1 k2 h3 h4⟩

theorem DSt.feed (h : Has F H m) (hd : ∀ c, V2.foot c → ¬ F c) :
    Feed E H ((addrs V2 f2 xs2.length).map .mv) xs2 (Option.some (addrs V2 f2 xs2.length)) (fun _ => False) H := by
  have hlen := h2.len
  have hs := V2.size_le
  refine Feed.move h2.addrs_nodup (by simp [addrs]) ?_
  intro j p hj
  obtain ⟨hj, rfl⟩ := addrs_get hj
  have hk : f2 + j < V2.cap := by omega
  have hfoot : V2.foot (V2.addr (f2 + j)).blk := Or.inr (View.addr_mem h2.lay.npos hk)
  have h3 := h2.slot hk
  dsimp only at h3
  refine ⟨?_, ?_⟩
  · rw [← h.mem _ (hd _ hfoot), h3, if_pos (by omega), Nat.add_sub_cancel_left]
  · rw [← h.blk _ (hd _ hfoot)]; exact h2.live _ hfoot

theorem DSt.exts (h : Has F H m) (hd : ∀ c, V2.foot c → ¬ F c) : Exts H E ((addrs V2 f2 xs2.length).map .ref) xs2 := by
  obtain ⟨k0, k1, k2, k3, k4, k5, k6⟩ := h2.feed (E := E) h hd
  refine ⟨?_, ?_⟩
  · intro a ha
    obtain ⟨i, -, rfl⟩ := List.mem_map.mp ha
    rfl
  · intro s hs
    apply List.ext_getElem?
    intro i
    rw [List.map_map, List.getElem?_map, List.getElem?_map]
    by_cases hi : i < xs2.length
    · obtain ⟨h3, h4⟩ := k3 i _ (get_addrs hi)
      rw [get_addrs hi]
      simp only [Option.map_some, Function.comp, Arg.value]
      rw [hs _ _ h4, h3, List.getElem?_eq_getElem hi]
      rfl
    · rw [List.getElem?_eq_none (by simp [addrs]; omega), List.getElem?_eq_none (by omega)]; rfl

/-- The elements of the other container as a source. -/
theorem DSt.source {mk : Ptr → Arg α} {W : View} (h : Has F H m) (hd : ∀ c, V2.foot c → ¬ F c) (hN : W.N = N)
    (hW : ∀ c, W.blocks c → H.blk c = none) (hmk : ∀ q, (mk q).map W.map = mk (W.map q)) :
    IsFrom W (.seg w.tab mk w.first w.last) ((addrs V2 f2 xs2.length).map mk) := by
  have hlen := h2.len
  have hs := h2.lay.size_lt
  have e1 : w.first = V2.it f2 := congrArg SDVec.first h2.obj
  have e2 : w.last = V2.it (f2 + xs2.length) := congrArg SDVec.last h2.obj
  rw [e1, e2]
  have := IsFrom.seg (V := W) (Vs := V2) (ts := w.tab) (x := f2) (y := f2 + xs2.length) (va := V2.addr) h2.fit.tab (by rw [h2.num, hN]) hmk
    (by omega) (by omega) ?_
  · rw [Nat.add_sub_cancel_left] at this
    unfold addrs
    rw [List.map_map]
    exact this
  · intro i _ hi
    have h3 : V2.foot (V2.addr i).blk := Or.inr (V2.addr_mem h2.lay.npos (by omega))
    refine if_neg (fun e => ?_)
    have := hW _ (Or.inl e)
    rw [← h.blk _ (hd _ h3)] at this
    exact h2.live _ h3 this

/-- The same elements through addresses. -/
theorem DSt.sourceList {mk : Ptr → Arg α} {W : View} (h : Has F H m) (hd : ∀ c, V2.foot c → ¬ F c)
    (hW : ∀ c, W.blocks c → H.blk c = none) (hmk : ∀ q, (mk q).map W.map = mk (W.map q)) (ra : Bool) :
    IsFrom W (.list ra ((addrs V2 f2 xs2.length).map mk)) ((addrs V2 f2 xs2.length).map mk) := by
  have hlen := h2.len
  have hs := h2.lay.size_lt
  have := IsFrom.list (V := W) ra ((addrs V2 f2 xs2.length).map mk)
  rw [List.map_map, List.map_congr_left (g := mk)] at this
  · exact this
  · intro p hp
    obtain ⟨j, hj⟩ := List.mem_iff_getElem?.mp hp
    obtain ⟨hj, rfl⟩ := addrs_get hj
    have h3 : V2.foot (V2.addr (f2 + j)).blk := Or.inr (V2.addr_mem h2.lay.npos (by omega))
    simp only [Function.comp]
    rw [hmk]
    congr 1
    refine if_neg (fun e => ?_)
    have := hW _ (Or.inl e)
    rw [← h.blk _ (hd _ h3)] at this
    exact h2.live _ h3 this

end

theorem gather_run {σ : Type} {t : Table} (hF : Fit V t) : ∀ {n k : Nat}, k + n ≤ V.size → ∀ s : σ,
    Seg.gather V.N t n (V.it k) s = .ok (addrs V k n) s := by
  intro n
  induction n with
  | zero => exact fun _ _ => rfl
  | succ n ih =>
    intro k hk s
    unfold Seg.gather
    rw [bind_run (hF.inc (by omega) s), bind_run (ih (by omega) s)]
    rfl

/-- Other memory may change. -/
theorem DSt.keep {G G' : Foot} (h2 : DSt H2 N ⟨w, m⟩ al2 V2 tcap2 f2 xs2) (hf : Frame m G m' G')
    (hd : ∀ c, V2.foot c → ¬ G c) : DSt (heapOf V2 m') N ⟨w, m'⟩ al2 V2 tcap2 f2 xs2 ∧ ∀ c, V2.foot c → ¬ G' c := by
  have h1 : ∀ c, V2.foot c → ¬ G' c ∧ m'.blk c = m.blk c ∧ ∀ k, m'.mem c k = m.mem c k :=
    fun c hc => hf.keep c (hd c hc) (h2.live c hc)
  exact ⟨h2.frame hf.wf (fun c hc => (h1 c hc).2) (owns_heapOf _ _), fun c hc => (h1 c hc).1⟩

/-! ### Construction -/

/-- The constructors that know the number of elements. -/
theorem initUsing_spec {vs : List α} {alg : Table → SIt → M (St α) SIt} {G B : Heap α → Prop} (hN : 0 < N) (hw : Bare H o.m)
    (hal : o.obj.alloc = al) (hB : B H)
    (fill : ∀ {V : View} {tcap : Nat} {t : Table} {s : St α}, Fit V t → V.N = N → (∀ c, V.blocks c → H.blk c = none) →
      SRow V al tcap H s (fun _ => False) → vs.length ≤ V.size →
      wp (alg t (V.it 0))
        (fun l s' => ∃ H', G H' ∧ l = V.it vs.length ∧ SRow V al tcap H' s' (fun i => i < vs.length) ∧
          ∀ i, i < vs.length → V.cell s' i = vs[i]?)
        (fun e s' => e = .elem ∧ ∃ H', B H' ∧ SRow V al tcap H' s' (fun _ => False)) s) :
    wp (initUsing E N vs.length alg)
      (fun _ o' => ∃ H' V tcap, G H' ∧ DSt H' N o' al V tcap 0 vs)
      (fun e o' => (e = .lengthError → E.maxSize < vs.length) ∧ ∃ H', B H' ∧ Bare H' o'.m) o := by
  unfold initUsing
  rw [wp_bind]
  refine wp_mono (allocateStorage_spec hN hw hal) ?_ ?_
  · rintro _ o1 ⟨V, tcap, h, hn, -⟩
    obtain ⟨t, m, rfl, rfl, hg, hF, hr, hl, hc⟩ := h.out
    rw [wp_tryCatch]
    sd
    have hr0 : SRow V al tcap H m (fun _ => False) := hr.congr (by intro i; simp)
    refine wp_mono (fill hF rfl hr.owns.hblk hr0 hn) ?_ ?_
    · rintro _ s' ⟨H', hG, rfl, r1, m1⟩
      exact ⟨H', V, tcap, hG, hg.state r1 (by iv) hn (by omega) (fun i _ hi => m1 i hi)⟩
    · rintro _ s' ⟨rfl, H', hb, r1⟩
      have h1 : DSt H' V.N ⟨V.sdev t tcap al 0 0, s'⟩ al V tcap 0 [] := hg.state r1 (by intro i; simp) (by omega) rfl (by iv)
      refine wp_mono (deallocateStorage_spec h1) ?_ (fun _ _ k => k.elim)
      rintro _ o2 ⟨-, k2, -⟩
      rw [wp_throw]
      exact ⟨by simp, H', hb, k2⟩
  · rintro e o1 ⟨k1, k2, -⟩
    exact ⟨k2, H, hB, k1⟩

/-- The constructors without a source container. -/
theorem construct_spec {ra : Bool} (init : Sq.Init α) (hN : 0 < N) (hw : Bare H o.m) (hal : o.obj.alloc = al) :
    wp (construct' E N ra init) (fun _ o' => ∃ V tcap, DSt H N o' al V tcap 0 (init.result E.dflt))
      (fun e o' => (e = .lengthError → E.maxSize < (init.result E.dflt).length) ∧ Bare H o'.m) o := by
  have conv : ∀ {vs : List α} {alg : Table → SIt → M (St α) SIt},
      wp (initUsing E N vs.length alg)
        (fun _ o' => ∃ H' V tcap, H' = H ∧ DSt H' N o' al V tcap 0 vs)
        (fun e o' => (e = .lengthError → E.maxSize < vs.length) ∧ ∃ H', H' = H ∧ Bare H' o'.m) o →
      wp (initUsing E N vs.length alg) (fun _ o' => ∃ V tcap, DSt H N o' al V tcap 0 vs)
        (fun e o' => (e = .lengthError → E.maxSize < vs.length) ∧ Bare H o'.m) o := by
    intro vs alg h
    refine wp_mono h ?_ ?_
    · rintro _ o' ⟨_, V, tcap, rfl, k⟩
      exact ⟨V, tcap, k⟩
    · rintro e o' ⟨k1, _, rfl, k2⟩
      exact ⟨k1, k2⟩
  have fill : ∀ (n : Nat) (v : α), wp (initUsing E N n (fun t d => Seg.uninitFillN E N t d n (.val v)))
      (fun _ o' => ∃ V tcap, DSt H N o' al V tcap 0 (List.replicate n v))
      (fun e o' => (e = .lengthError → E.maxSize < n) ∧ Bare H o'.m) o := by
    intro n v
    have := conv (vs := List.replicate n v) (alg := fun t d => Seg.uninitFillN E N t d n (.val v)) ?_
    · simpa using this
    refine initUsing_spec hN hw hal rfl ?_
    intro V tcap t s hF hn _ hr hsz
    rw [← hn]
    simp only [List.length_replicate] at hsz ⊢
    refine hr.uninitFillN hF (a := .val v) (v := v) rfl rfl (by omega) (fun _ _ _ => id) ?_ ?_
    · intro s' r1 m1
      refine ⟨H, rfl, by rw [Nat.zero_add], r1.congr (by intro i; simp), fun i hi => ?_⟩
      rw [m1, if_pos (by omega)]; simp [hi]
    · intro s' r1 _
      exact ⟨rfl, H, rfl, r1⟩
  cases init with
  | empty =>
    unfold construct'
    refine wp_mono (allocateStorage_spec hN hw hal) ?_ ?_
    · rintro _ o1 ⟨V, tcap, h, -, -⟩
      exact ⟨V, tcap, h⟩
    · rintro e o1 ⟨k1, k2, -⟩
      exact ⟨k2, k1⟩
  | count n =>
    have := fill n E.dflt
    simpa [construct', Sq.Init.result] using this
  | fill n v =>
    have := fill n v
    simpa [construct', Sq.Init.result] using this
  | range ys =>
    refine conv (vs := ys) (alg := fun t d => (Seg.From.list ra (ys.map .val)).uninit E N t d) (initUsing_spec hN hw hal rfl ?_)
    intro V tcap t s hF hn _ hr hsz
    rw [← hn]
    refine SRow.uninitVals hF hr (x := 0) (by omega) (fun _ _ _ => id) ?_ ?_
    · intro s' r1 m1
      refine ⟨H, rfl, by rw [Nat.zero_add], r1.congr (by intro i; simp), fun i hi => ?_⟩
      rw [m1, if_pos (by omega)]; rfl
    · intro s' r1 _
      exact ⟨rfl, H, rfl, r1⟩
  | input ys =>
    unfold construct' initRangeInput
    rw [wp_bind]
    refine wp_mono (allocateStorage_spec hN hw hal) ?_ ?_
    · rintro _ o1 ⟨V, tcap, h, -, -⟩
      rw [wp_tryCatch]
      refine wp_mono (emplaceBackAll_spec h) ?_ ?_
      · rintro _ o2 ⟨V2, tcap2, h2⟩
        exact ⟨V2, tcap2, h2⟩
      · rintro e o2 ⟨-, hmax, V2, tcap2, f2, zs, h2, -⟩
        rw [wp_bind]
        refine wp_mono (clear_spec h2) ?_ (fun _ _ k => k.elim)
        intro _ o3 h3
        rw [wp_bind]
        refine wp_mono (deallocateStorage_spec h3) ?_ (fun _ _ k => k.elim)
        rintro _ o4 ⟨-, h4, -⟩
        rw [wp_throw]
        exact ⟨fun he => by have := hmax he; simpa [Sq.Init.result] using this, h4⟩
    · rintro e o1 ⟨k1, k2, -⟩
      exact ⟨fun he => absurd (k2 he) (by omega), k1⟩

/-- Constructing the elements from those of another container. -/
theorem fillFrom {mv : Option (List Ptr)} {t : Table} {s : St α} {as : List (Arg α)} {src : Seg.From α}
    (hF : Fit V t) (hsrc : IsFrom V src as) (hf : Feed E H as xs2 mv (fun _ => False) H)
    (hr : SRow V al tcap H s (fun _ => False)) (hsz : xs2.length ≤ V.size) :
    wp (src.uninit E V.N t (V.it 0))
      (fun l s' => ∃ H', Feed E H as xs2 mv (fun _ => True) H' ∧ l = V.it xs2.length ∧
        SRow V al tcap H' s' (fun i => i < xs2.length) ∧ ∀ i, i < xs2.length → V.cell s' i = xs2[i]?)
      (fun e s' => e = .elem ∧ ∃ H', Spoilt H mv H' ∧ SRow V al tcap H' s' (fun _ => False)) s := by
  have hp : Piece V as 0 xs2.length src := by rw [← hf.length]; exact Piece.whole hsrc
  refine hp.uninit hF hf hr (by omega) (fun _ _ _ => id) (by omega) (fun _ _ _ => id) ?_ ?_
  · intro s' H' f1 r1 m1
    refine ⟨H', f1.congr (fun i hi => by simp; omega), by rw [Nat.zero_add], r1.congr (by intro i; simp), fun i hi => ?_⟩
    rw [m1, if_pos (by omega), Nat.zero_add]; rfl
  · intro s' H' f1 r1 _
    exact ⟨rfl, H', f1, r1⟩

/-- `initialize_copy`. -/
theorem initCopy_spec (hw : Bare H o.m) (h2 : DSt H2 N ⟨w, o.m⟩ al2 V2 tcap2 f2 xs2) (hal : o.obj.alloc = al) :
    wp (initCopy E N w) (fun _ o' => ∃ V tcap, DSt H N o' al V tcap 0 xs2)
      (fun e o' => (e = .lengthError → E.maxSize < xs2.length) ∧ Bare H o'.m) o := by
  have hlen := h2.len
  have hN : 0 < N := h2.num ▸ h2.lay.npos
  have e1 : w.first = V2.it f2 := congrArg SDVec.first h2.obj
  have e2 : w.last = V2.it (f2 + xs2.length) := congrArg SDVec.last h2.obj
  have hd : ∀ c, V2.foot c → ¬ noFoot c := fun _ _ h => h
  unfold initCopy
  rw [wp_bind, e1, e2, ← h2.num, wp_run (h2.fit.dist (by omega) hlen o), Nat.add_sub_cancel_left, h2.num, ← e1, ← e2]
  refine wp_mono (initUsing_spec (G := Feed E H ((addrs V2 f2 xs2.length).map .ref) xs2 none (fun _ => True)) (B := Spoilt H none)
    hN hw hal rfl ?_) ?_ ?_
  · intro V tcap t s hF hn hW hr hsz
    have := fillFrom (E := E) hF (h2.source (mk := .ref) hw.has hd hn hW (fun _ => rfl)) (.copy (h2.exts hw.has hd)) hr hsz
    rw [hn] at this
    exact this
  · rintro _ o' ⟨H', V, tcap, ⟨-, rfl⟩, k⟩
    exact ⟨V, tcap, k⟩
  · rintro e o' ⟨k1, H', k2, k⟩
    cases k2
    exact ⟨k1, k⟩

/-- `initialize_move`. -/
theorem initMove_spec (h2 : DSt H2 N ⟨w, o.m⟩ al2 V2 tcap2 f2 xs2) (hal : o.obj.alloc = al) :
    wp (initMove E N)
      (fun _ o' => ∃ V1 tcap1 f1 V2' tcap2' f2' ys, DSt (heapOf V1 o'.m) N ⟨o'.obj.1, o'.m⟩ al V1 tcap1 f1 xs2 ∧
        DSt (heapOf V2' o'.m) N ⟨o'.obj.2, o'.m⟩ al2 V2' tcap2' f2' ys ∧
        (∀ c, V1.foot c → ¬ V2'.foot c) ∧ Frame o.m V2.foot o'.m (Both V1.foot V2'.foot) ∧
        (if al = al2 then ys = [] else ys = xs2.map E.moved))
      (fun _ o' => ∃ ys, DSt (heapOf V2 o'.m) N ⟨o'.obj.2, o'.m⟩ al2 V2 tcap2 f2 ys ∧ Frame o.m V2.foot o'.m V2.foot ∧
        ys.length = xs2.length)
      ⟨(o.obj, w), o.m⟩ := by
  have hlen := h2.len
  have hN : 0 < N := h2.num ▸ h2.lay.npos
  have e1 : w.first = V2.it f2 := congrArg SDVec.first h2.obj
  have e2 : w.last = V2.it (f2 + xs2.length) := congrArg SDVec.last h2.obj
  have hw2 : w.alloc = al2 := congrArg SDVec.alloc h2.obj
  have hd : ∀ c, V2.foot c → ¬ noFoot c := fun _ _ h => h
  have hb := bare_whole h2.lay.wf
  dsimp only at hb
  unfold initMove
  rw [wp_bind, wp_getObj, wp_ite]
  simp only
  rw [hal, hw2]
  by_cases he : al = al2
  · rw [if_pos he, wp_bind, wp_onThis]
    refine wp_mono (allocateStorage_spec (o := o) hN hb hal) ?_ ?_
    · rintro _ o1 ⟨V1, tcap1, hg, -, -⟩
      rw [wp_bind, wp_getObj, wp_setObj]
      have hf := hb.has.frame hg.owns.has hg.lay.wf
      obtain ⟨g2, hdn⟩ := h2.keep hf (fun _ _ h => h)
      subst he
      refine ⟨V2, tcap2, f2, V1, tcap1, 0, [], g2, hg.toHeap, hdn, ?_, by rw [if_pos rfl]⟩
      have := hf.both (G := V2.foot)
      rw [both_no] at this
      rwa [both_comm] at this
    · rintro e o1 ⟨hb1, -⟩
      have hf := hb.has.frame hb1.has hb1.wf
      obtain ⟨g2, -⟩ := h2.keep hf (fun _ _ h => h)
      have := hf.both (G := V2.foot)
      rw [both_no] at this
      exact ⟨xs2, g2, this, rfl⟩
  · rw [if_neg he, wp_bind, e1, e2, ← h2.num, wp_run (h2.fit.dist (by omega) hlen _), Nat.add_sub_cancel_left, h2.num, ← e1, ← e2, wp_onThis]
    refine wp_mono (initUsing_spec (E := E) (N := N) (al := al) (o := o)
      (G := Feed E (whole o.m) ((addrs V2 f2 xs2.length).map .mv) xs2 (some (addrs V2 f2 xs2.length)) (fun _ => True))
      (B := Spoilt (whole o.m) (some (addrs V2 f2 xs2.length))) hN hb hal (h2.feed (E := E) hb.has hd).spoilt ?_) ?_ ?_
    · intro V tcap t s hF hn hW hr hsz
      have := fillFrom (E := E) hF (h2.source (mk := .mv) hb.has hd hn hW (fun _ => rfl)) (h2.feed hb.has hd) hr hsz
      rw [hn] at this
      exact this
    · rintro _ o' ⟨H', V, tcap, hfd, k⟩
      obtain ⟨g2, hdn, hf⟩ := h2.otherMoved hb.has k.owns.has k.lay.wf hd hfd
      rw [both_no] at hf
      exact ⟨V, tcap, 0, V2, tcap2, f2, _, k.toHeap, g2, fun c h1 h2 => hdn c h2 h1, hf, by rw [if_neg he]⟩
    · rintro e o' ⟨-, H', hsp, k⟩
      obtain ⟨ys, hy, g2, -, hf⟩ := h2.otherSpoilt hb.has k.has k.wf hd hsp
      rw [both_no] at hf
      exact ⟨ys, g2, hf, hy⟩

/-! ### Assignment -/

/-- A moved-from temporary after its storage has been given up. -/
structure Given (v : SDVec) : Prop where
  tbos : v.tbos = Ptr.null
  teos : v.teos = Ptr.null
  tfirst : v.tfirst = Ptr.null
  tlast : v.tlast = Ptr.null
  last : v.last = v.first

theorem giveUp_spec (h : DSt H N o al V tcap f xs) :
    wp (giveUp N) (fun _ o' => Given o'.obj ∧ Bare H o'.m) (fun _ _ => False) o := by
  unfold giveUp
  rw [wp_bind]
  refine wp_mono (clear_spec h) ?_ (fun _ _ h => h)
  intro _ o1 h1
  rw [wp_bind]
  refine wp_mono (deallocateStorage_spec h1) ?_ (fun _ _ h => h)
  rintro _ o2 ⟨hob, hb, -⟩
  rw [wp_bind, wp_getObj, wp_setObj]
  refine ⟨⟨rfl, rfl, rfl, rfl, ?_⟩, hb⟩
  simp only [hob]
  rw [h1.obj]
  rfl

theorem Given.destructor {v : SDVec} (h : Given v) :
    wp (SegDev.destructor N) (fun _ o' => o'.m = m) (fun _ _ => False) ⟨v, m⟩ := by
  unfold SegDev.destructor deallocateStorage Seg.destroy Seg.forChunks Seg.deallocSegs destroyRange Seg.deallocTable
  simp only [wp_bind, wp_getObj, wp_lift, wp_onTab, h.last, h.tfirst, h.tlast, h.tbos, h.teos, if_pos]
  refine wp_distance rfl (by simp) ?_
  rw [Nat.sub_self]
  simp only [Sfl.destroyN, wp_pure]
  refine wp_distance rfl (by simp) ?_
  rw [Nat.sub_self]
  simp only [Seg.deallocSegsN, wp_pure]
  refine wp_distance rfl (by simp) ?_
  rw [Nat.sub_self]
  simp [deallocate, wp, setObj]

/-- `giveUp`, by what changes. -/
theorem giveUp_frame (h : DSt H N o al V tcap f xs) :
    wp (giveUp N) (fun _ o' => Given o'.obj ∧ Frame o.m V.foot o'.m noFoot) (fun _ _ => False) o :=
  wp_mono (giveUp_spec h) (fun _ _ k => ⟨k.1, h.owns.has.frame k.2.has k.2.wf⟩) (fun _ _ h => h)

/-- Storage for a temporary. -/
theorem temp_spec (hN : 0 < N) (hw : m.Wf) :
    wp (allocateStorage E N 0)
      (fun _ o' => ∃ V tcap, DSt (heapOf V o'.m) N o' al V tcap 0 [] ∧ Frame m noFoot o'.m V.foot)
      (fun e o' => e ≠ .lengthError ∧ Frame m noFoot o'.m noFoot) ⟨blank al, m⟩ := by
  have hb := bare_whole hw
  refine wp_mono (allocateStorage_spec (o := ⟨blank al, m⟩) hN hb rfl) ?_ ?_
  · rintro _ o1 ⟨V1, tcap1, hg, -, -⟩
    exact ⟨V1, tcap1, hg.toHeap, hb.has.frame hg.owns.has hg.lay.wf⟩
  · rintro e o1 ⟨hb1, hle⟩
    exact ⟨fun h => absurd (hle.1 h) (Nat.not_lt_zero _), hb.has.frame hb1.has hb1.wf⟩

/-- `assign_copy`. -/
theorem assignCopy_spec {T : Traits} (h : DSt H N o al V tcap f xs) (h2 : DSt H2 N ⟨w, o.m⟩ al2 V2 tcap2 f2 xs2)
    (hd : ∀ c, V2.foot c → ¬ V.foot c) :
    wp (assignCopy E N T w)
      (fun _ o' => ∃ V' tcap' f', DSt (heapOf V' o'.m) N o' (if T.pocca = true then al2 else al) V' tcap' f' xs2 ∧
        Frame o.m V.foot o'.m V'.foot)
      (fun e o' => (e = .lengthError → E.maxSize < xs2.length) ∧
        ((∃ V' tcap' f' xs', DSt (heapOf V' o'.m) N o' (if T.pocca = true then al2 else al) V' tcap' f' xs' ∧
          Frame o.m V.foot o'.m V'.foot) ∨
        (DSt (heapOf V o'.m) N o' al V tcap f xs ∧ Frame o.m V.foot o'.m V.foot))) o := by
  have hN : 0 < N := h2.num ▸ h2.lay.npos
  have hw2 : w.alloc = al2 := congrArg SDVec.alloc h2.obj
  have hw1 : o.obj.alloc = al := by rw [h.obj]; rfl
  have main : ∀ {o1 : Obj SDVec α} {al1 : Nat} {V1 : View} {tcap1 f1 : Nat} {ys : List α} {H1 : Heap α},
      DSt H1 N o1 al1 V1 tcap1 f1 ys → Frame o.m V.foot o1.m V1.foot →
      wp (assignRange E N (.seg w.tab .ref w.first w.last))
        (fun _ o' => ∃ V' tcap' f', DSt (heapOf V' o'.m) N o' al1 V' tcap' f' xs2 ∧ Frame o.m V.foot o'.m V'.foot)
        (fun e o' => (e = .lengthError → E.maxSize < xs2.length) ∧
          ∃ V' tcap' f' xs', DSt (heapOf V' o'.m) N o' al1 V' tcap' f' xs' ∧ Frame o.m V.foot o'.m V'.foot) o1 := by
    intro o1 al1 V1 tcap1 f1 ys H1 hg hf
    obtain ⟨g2, hd1⟩ := h2.keep hf hd
    refine wp_mono (assignRange_spec hg (.copy (g2.exts hg.owns.has hd1))
      (fun W hWn hW => g2.source (mk := .ref) hg.owns.has hd1 hWn hW (fun _ => rfl))) ?_ ?_
    · rintro _ o2 ⟨H', V', tcap', f', ⟨-, rfl⟩, k1⟩
      exact ⟨V', tcap', f', k1.toHeap, hf.trans (hg.owns.has.frame k1.owns.has k1.lay.wf)⟩
    · rintro e o2 ⟨hle, H', k, V', tcap', f', xs', k1, -⟩
      cases k
      exact ⟨fun h => (hle h).1, V', tcap', f', xs', k1.toHeap, hf.trans (hg.owns.has.frame k1.owns.has k1.lay.wf)⟩
  have hr : Frame o.m V.foot o.m V.foot := Frame.refl h.lay.wf
  unfold assignCopy
  rw [wp_ite]
  by_cases hp : T.pocca = true
  · simp only [if_pos hp]
    rw [wp_bind, wp_getObj, wp_ite, hw1, hw2]
    by_cases he : al = al2
    · rw [if_neg (by simpa using he), wp_bind, wp_getObj, wp_bind, wp_setObj]
      subst he
      rw [← hw1]
      refine wp_mono (main h hr) ?_ ?_
      · rw [hw1]; exact fun _ _ h => h
      · rw [hw1]; exact fun _ _ h => ⟨h.1, Or.inl h.2⟩
    · rw [if_pos (by simpa using he), wp_bind, wp_onLocal]
      refine wp_mono (temp_spec (al := al2) hN h.lay.wf) ?_ ?_
      · rintro _ o1 ⟨V1, tcap1, hg, hf⟩
        dsimp only
        obtain ⟨g0, hd0⟩ := DSt.keep (w := o.obj) h hf (fun _ _ h => h)
        rw [wp_bind]
        refine wp_mono (giveUp_frame g0) ?_ (fun _ _ h => h.elim)
        rintro _ o2 ⟨hgv, hf2⟩
        rw [wp_bind, wp_getObj, wp_bind, wp_setObj, wp_bind, wp_onLocal]
        refine wp_mono hgv.destructor ?_ (fun _ _ h => h.elim)
        rintro _ o3 h3
        rw [wp_bind, wp_getObj, wp_bind, wp_setObj, h3]
        obtain ⟨g1, -⟩ := DSt.keep (w := o1.obj) hg hf2 (fun c h1 h2 => hd0 c h2 h1)
        have hob := hg.obj
        have : ({ o1.obj with alloc := al2 } : SDVec) = o1.obj := by rw [hob]; rfl
        dsimp only at this ⊢
        rw [this]
        have hfr : Frame o.m V.foot o2.m V1.foot := by
          have a1 := hf.both (G := V.foot)
          have a2 := hf2.both (G := V1.foot)
          rw [both_no] at a1 a2
          rw [both_comm] at a1
          exact a1.trans a2
        exact wp_mono (main g1 hfr) (fun _ _ h => h) (fun _ _ h => ⟨h.1, Or.inl h.2⟩)
      · rintro e o1 ⟨hle, hf⟩
        obtain ⟨g0, -⟩ := DSt.keep (w := o.obj) h hf (fun _ _ h => h)
        have := hf.both (G := V.foot)
        rw [both_no] at this
        exact ⟨fun h => absurd h hle, Or.inr ⟨g0, this⟩⟩
  · simp only [if_neg hp]
    exact wp_mono (main h hr) (fun _ _ h => h) (fun _ _ h => ⟨h.1, Or.inl h.2⟩)

/-- The state after an assignment between two containers. -/
def Two (N al al2 : Nat) (m : St α) (F : Foot) (P : List α → List α → Prop) (o' : Obj (SDVec × SDVec) α) : Prop :=
  ∃ V1 tcap1 f1 xs1 V2 tcap2 f2 xs2, DSt (heapOf V1 o'.m) N ⟨o'.obj.1, o'.m⟩ al V1 tcap1 f1 xs1 ∧
    DSt (heapOf V2 o'.m) N ⟨o'.obj.2, o'.m⟩ al2 V2 tcap2 f2 xs2 ∧
    (∀ c, V1.foot c → ¬ V2.foot c) ∧ Frame m F o'.m (Both V1.foot V2.foot) ∧ P xs1 xs2

/-- `assign_move`, the elements one by one. -/
theorem assignMoved_spec (h : DSt H N o al V tcap f xs) (h2 : DSt H2 N ⟨w, o.m⟩ al2 V2 tcap2 f2 xs2)
    (hd : ∀ c, V2.foot c → ¬ V.foot c) :
    wp (assignMoved E N w)
      (fun _ o' => Two N al al2 o.m (Both V.foot V2.foot) (fun xs' ys => xs' = xs2 ∧ ys = xs2.map E.moved) ⟨(o'.obj, w), o'.m⟩)
      (fun e o' => (e = .lengthError → E.maxSize < xs2.length) ∧
        Two N al al2 o.m (Both V.foot V2.foot) (fun _ ys => ys.length = xs2.length) ⟨(o'.obj, w), o'.m⟩) o := by
  have hlen := h2.len
  have e1 : w.first = V2.it f2 := congrArg SDVec.first h2.obj
  have e2 : w.last = V2.it (f2 + xs2.length) := congrArg SDVec.last h2.obj
  unfold assignMoved
  rw [wp_bind, e1, e2, ← h2.num, wp_run (h2.fit.dist (by omega) hlen _), Nat.add_sub_cancel_left, wp_bind,
    wp_run (gather_run h2.fit hlen _), h2.num]
  refine wp_mono (assignRange_spec h (h2.feed h.owns.has hd)
      (fun W _ hW => h2.sourceList (mk := .mv) h.owns.has hd hW (fun _ => rfl) true)) ?_ ?_
  · rintro _ o2 ⟨H', V', tcap', f', hfd, k1⟩
    obtain ⟨g2, hdn, hf⟩ := h2.otherMoved h.owns.has k1.owns.has k1.lay.wf hd hfd
    exact ⟨V', tcap', f', xs2, V2, tcap2, f2, _, k1.toHeap, g2, fun c h1 h2 => hdn c h2 h1, hf, rfl, rfl⟩
  · rintro e o2 ⟨hle, H', hsp, V', tcap', f', xs', k1, -⟩
    obtain ⟨ys, hy, g2, hdn, hf⟩ := h2.otherSpoilt h.owns.has k1.owns.has k1.lay.wf hd hsp
    exact ⟨fun h => (hle h).1, V', tcap', f', xs', V2, tcap2, f2, ys, k1.toHeap, g2, fun c h1 h2 => hdn c h2 h1, hf, hy⟩

/-- `assign_move`. -/
theorem assignMove_spec {T : Traits} (h : DSt H N o al V tcap f xs) (h2 : DSt H2 N ⟨w, o.m⟩ al2 V2 tcap2 f2 xs2)
    (hd : ∀ c, V2.foot c → ¬ V.foot c) :
    wp (assignMove E N T)
      (fun _ o' => Two N (if T.pocma = true then al2 else al) al2 o.m (Both V.foot V2.foot)
        (fun xs' ys => xs' = xs2 ∧ if al = al2 then ys = [] else ys = xs2.map E.moved) o')
      (fun e o' => (e = .lengthError → E.maxSize < xs2.length) ∧
        (Two N (if T.pocma = true then al2 else al) al2 o.m (Both V.foot V2.foot) (fun _ ys => ys.length = xs2.length) o' ∨
        Two N al al2 o.m (Both V.foot V2.foot) (fun xs' ys => xs' = xs ∧ ys = xs2) o')) ⟨(o.obj, w), o.m⟩ := by
  have hN : 0 < N := h2.num ▸ h2.lay.npos
  have hw2 : w.alloc = al2 := congrArg SDVec.alloc h2.obj
  have hw1 : o.obj.alloc = al := by rw [h.obj]; rfl
  have hd' : ∀ c, V.foot c → ¬ V2.foot c := fun c h1 h2 => hd c h2 h1
  -- the temporary could not be allocated
  have early : ∀ {o1 : Obj SDVec α}, Frame o.m noFoot o1.m noFoot →
      Two N al al2 o.m (Both V.foot V2.foot) (fun xs' ys => xs' = xs ∧ ys = xs2) ⟨(o.obj, w), o1.m⟩ := by
    intro o1 hf
    obtain ⟨g1, -⟩ := DSt.keep (w := o.obj) h hf (fun _ _ h => h)
    obtain ⟨g2, -⟩ := h2.keep hf (fun _ _ h => h)
    have := hf.both (G := Both V.foot V2.foot)
    rw [both_no] at this
    exact ⟨V, tcap, f, xs, V2, tcap2, f2, xs2, g1, g2, hd', this, rfl, rfl⟩
  -- the old storage has been replaced by that of the temporary
  have fresh : ∀ {o1 o2 : Obj SDVec α} {al1 : Nat} {V1 : View} {tcap1 : Nat} {H1 : Heap α}, DSt H1 N o1 al1 V1 tcap1 0 [] →
      Frame o.m noFoot o1.m V1.foot → Frame o1.m V.foot o2.m noFoot →
      DSt (heapOf V1 o2.m) N ⟨o1.obj, o2.m⟩ al1 V1 tcap1 0 [] ∧ DSt (heapOf V2 o2.m) N ⟨w, o2.m⟩ al2 V2 tcap2 f2 xs2 ∧
        (∀ c, V2.foot c → ¬ V1.foot c) ∧ Frame o.m (Both V.foot V2.foot) o2.m (Both V1.foot V2.foot) := by
    intro o1 o2 al1 V1 tcap1 H1 hg hf hf2
    obtain ⟨-, hd0⟩ := DSt.keep (w := o.obj) h hf (fun _ _ h => h)
    obtain ⟨g2, hd2⟩ := h2.keep hf (fun _ _ h => h)
    obtain ⟨g1, -⟩ := DSt.keep (w := o1.obj) hg hf2 (fun c h1 h2 => hd0 c h2 h1)
    obtain ⟨g3, -⟩ := g2.keep hf2 hd
    refine ⟨g1, g3, hd2, ?_⟩
    have a1 := hf.both (G := V.foot)
    have a2 := hf2.both (G := V1.foot)
    rw [both_no] at a1 a2
    rw [both_comm] at a1
    exact (a1.trans a2).both
  have moved : ∀ {o1 : Obj SDVec α} {al1 : Nat} {V1 : View} {tcap1 f1 : Nat} {zs : List α} {H1 H3 : Heap α},
      DSt H1 N o1 al1 V1 tcap1 f1 zs → DSt H3 N ⟨w, o1.m⟩ al2 V2 tcap2 f2 xs2 → (∀ c, V2.foot c → ¬ V1.foot c) →
      Frame o.m (Both V.foot V2.foot) o1.m (Both V1.foot V2.foot) →
      wp (assignMoved E N w)
        (fun _ o' => Two N al1 al2 o.m (Both V.foot V2.foot) (fun xs' ys => xs' = xs2 ∧ ys = xs2.map E.moved) ⟨(o'.obj, w), o'.m⟩)
        (fun e o' => (e = .lengthError → E.maxSize < xs2.length) ∧
          Two N al1 al2 o.m (Both V.foot V2.foot) (fun _ ys => ys.length = xs2.length) ⟨(o'.obj, w), o'.m⟩) o1 := by
    intro o1 al1 V1 tcap1 f1 zs H1 H3 g1 g2 hd1 hf
    refine wp_mono (assignMoved_spec (E := E) g1 g2 hd1) ?_ ?_
    · rintro _ o2 ⟨V', tcap', f', xs', V2', tcap2', f2', ys, k1, k2, k3, k4, k5⟩
      exact ⟨V', tcap', f', xs', V2', tcap2', f2', ys, k1, k2, k3, hf.trans k4, k5⟩
    · rintro _ o2 ⟨k0, V', tcap', f', xs', V2', tcap2', f2', ys, k1, k2, k3, k4, k5⟩
      exact ⟨k0, V', tcap', f', xs', V2', tcap2', f2', ys, k1, k2, k3, hf.trans k4, k5⟩
  unfold assignMove
  rw [wp_bind, wp_getObj, wp_ite]
  simp only
  rw [hw1, hw2]
  by_cases he : al = al2
  · rw [if_pos he]
    subst he
    simp only [if_true, ite_self]
    rw [wp_bind, wp_onLocal]
    refine wp_mono (temp_spec (al := al) hN h.lay.wf) ?_ (fun _ _ h => ⟨fun k => absurd k h.1, Or.inr (early h.2)⟩)
    rintro _ o1 ⟨V1, tcap1, hg, hf⟩
    dsimp only
    obtain ⟨g0, -⟩ := DSt.keep (w := o.obj) h hf (fun _ _ h => h)
    rw [wp_bind, wp_onThis]
    refine wp_mono (giveUp_frame g0) ?_ (fun _ _ h => h.elim)
    rintro _ o2 ⟨hgv, hf2⟩
    obtain ⟨k1, k2, k3, k4⟩ := fresh hg hf hf2
    rw [wp_bind, wp_getObj, wp_bind, wp_setObj]
    dsimp only
    have fin : wp (do let _ ← onLocal o2.obj (destructor N); pure ())
        (fun _ o' => Two N al al o.m (Both V.foot V2.foot) (fun xs' ys => xs' = xs2 ∧ ys = []) o')
        (fun e o' => (e = .lengthError → E.maxSize < xs2.length) ∧
          (Two N al al o.m (Both V.foot V2.foot) (fun _ ys => ys.length = xs2.length) o' ∨
          Two N al al o.m (Both V.foot V2.foot) (fun xs' ys => xs' = xs ∧ ys = xs2) o'))
        (⟨(w, o1.obj), o2.m⟩ : Obj (SDVec × SDVec) α) := by
      rw [wp_bind, wp_onLocal]
      refine wp_mono hgv.destructor ?_ (fun _ _ h => h.elim)
      rintro _ o3 h3
      rw [wp_pure, h3]
      refine ⟨V2, tcap2, f2, xs2, V1, tcap1, 0, [], k2, k1, k3, ?_, rfl, rfl⟩
      rw [both_comm (F := V2.foot)]; exact k4
    split
    · rw [wp_bind, wp_getObj, wp_bind, wp_setObj]
      have : ({ w with alloc := o1.obj.alloc } : SDVec) = w := by
        have : o1.obj.alloc = al := by rw [hg.obj]; rfl
        rw [this, ← hw2]
      dsimp only at this ⊢
      rw [this]
      exact fin
    · exact fin
  · rw [if_neg he, wp_ite]
    simp only [if_neg he]
    by_cases hp : T.pocma = true
    · simp only [if_pos hp]
      rw [wp_bind, wp_onLocal]
      refine wp_mono (temp_spec (al := al2) hN h.lay.wf) ?_ (fun _ _ h => ⟨fun k => absurd k h.1, Or.inr (early h.2)⟩)
      rintro _ o1 ⟨V1, tcap1, hg, hf⟩
      dsimp only
      obtain ⟨g0, -⟩ := DSt.keep (w := o.obj) h hf (fun _ _ h => h)
      rw [wp_bind, wp_onThis]
      refine wp_mono (giveUp_frame g0) ?_ (fun _ _ h => h.elim)
      rintro _ o2 ⟨hgv, hf2⟩
      obtain ⟨k1, k2, k3, k4⟩ := fresh hg hf hf2
      rw [wp_bind, wp_getObj, wp_bind, wp_setObj]
      dsimp only
      have : ({ o1.obj with alloc := w.alloc } : SDVec) = o1.obj := by
        rw [hw2]; rw [hg.obj]; rfl
      dsimp only at this
      rw [this, wp_bind, wp_tryCatch, wp_onThis]
      refine wp_mono (moved k1 k2 k3 k4) ?_ ?_
      · intro _ o3 hq
        rw [wp_bind, wp_onLocal]
        refine wp_mono hgv.destructor ?_ (fun _ _ h => h.elim)
        rintro _ o4 h4
        rw [wp_pure, h4]
        exact hq
      · intro e o3 hq
        rw [wp_bind, wp_onLocal]
        refine wp_mono hgv.destructor ?_ (fun _ _ h => h.elim)
        rintro _ o4 h4
        rw [wp_throw, h4]
        exact ⟨hq.1, Or.inl hq.2⟩
    · simp only [if_neg hp]
      rw [wp_onThis]
      exact wp_mono (moved h h2 hd (Frame.refl h.lay.wf)) (fun _ _ h => h) (fun _ _ h => ⟨h.1, Or.inl h.2⟩)

/-- `swap` of containers with equal allocators. -/
theorem swap_spec {T : Traits} (h : DSt H N o al V tcap f xs) (h2 : DSt H2 N ⟨w, o.m⟩ al V2 tcap2 f2 xs2)
    (hd : ∀ c, V2.foot c → ¬ V.foot c) :
    wp (swap T) (fun _ o' => Two N al al o.m (Both V.foot V2.foot) (fun xs' ys => xs' = xs2 ∧ ys = xs) o') (fun _ _ => False)
      ⟨(o.obj, w), o.m⟩ := by
  have hw2 : w.alloc = al := congrArg SDVec.alloc h2.obj
  have hw1 : o.obj.alloc = al := by rw [h.obj]; rfl
  have fin : Two N al al o.m (Both V.foot V2.foot) (fun xs' ys => xs' = xs2 ∧ ys = xs) ⟨(w, o.obj), o.m⟩ :=
    ⟨V2, tcap2, f2, xs2, V, tcap, f, xs, h2.toHeap, h.toHeap, hd, by rw [both_comm]; exact Frame.refl h.lay.wf, rfl, rfl⟩
  unfold swap
  rw [wp_bind, wp_getObj, wp_bind, wp_assert, hw1, hw2]
  refine ⟨Or.inr rfl, ?_⟩
  split
  · rw [wp_bind, wp_setObj, wp_bind, wp_getObj, wp_setObj]
    have a1 : ({ w with alloc := al } : SDVec) = w := by rw [← hw2]
    have a2 : ({ o.obj with alloc := al } : SDVec) = o.obj := by rw [← hw1]
    dsimp only at a1 a2 ⊢
    rw [a1, a2]
    exact fin
  · rw [wp_bind, wp_getObj, wp_setObj]
    exact fin

end Sfl.SegDev
