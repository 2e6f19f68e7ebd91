import Verif.SegVecSpec
import Verif.SegDevFeed
/-
  Specifications of the functions of segmented_devector: the state, access to it, and storage management. Proof machinery:
  no code is modelled in this file.
-/

set_option linter.unusedSimpArgs false
set_option linter.unusedSectionVars false

namespace Sfl
open World
variable {α : Type}

/-- The data members of a segmented_devector with the segments described by `V`, whose elements are in the slots
`f … l - 1`. -/
def View.sdev (V : View) (t : Table) (tcap al f l : Nat) : SDVec :=
  ⟨t, ⟨V.tb, 0⟩, ⟨V.tb, tcap⟩, ⟨V.tb, V.base⟩, ⟨V.tb, V.base + V.segs.length⟩, V.it 0, V.it V.size, V.it f, V.it l, al⟩

/-- Blocks are obtained and returned. -/
theorem View.Owns.step {V V' : View} {H : Heap α} {m m' : St α} (h : V.Owns H m) (hw : m.Wf) (hm : m'.mem = m.mem)
    (new : ∀ c, V'.blocks c → ¬ V.blocks c → m.blk c = none)
    (keep : ∀ c, ¬ V.blocks c → ¬ V'.blocks c → m'.blk c = m.blk c)
    (freed : ∀ c, V.blocks c → ¬ V'.blocks c → m'.blk c = none ∧ ∀ i, m.mem c i = none) : V'.Owns H m' where
  blk := fun c hc => by
    by_cases hb : V.blocks c
    · rw [h.hblk c hb]; exact (freed c hb hc).1
    · rw [← h.blk c hb]; exact keep c hb hc
  mem := fun c hc i => by
    rw [hm]
    by_cases hb : V.blocks c
    · rw [h.hmem c hb]; exact (freed c hb hc).2 i
    · exact h.mem c hb i
  hblk := fun c hc => by
    by_cases hb : V.blocks c
    · exact h.hblk c hb
    · rw [← h.blk c hb]; exact new c hc hb
  hmem := fun c hc i => by
    by_cases hb : V.blocks c
    · exact h.hmem c hb i
    · rw [← h.mem c hb]; exact hw.dead c (new c hc hb) i

/-- The same slots among other segments. -/
theorem View.addr_sub {V W : View} {a b : List Nat} (hn : V.N = W.N) (hN : 0 < W.N) (hs : V.segs = a ++ W.segs ++ b) {k : Nat}
    (hk : k < W.cap) : V.addr (k + a.length * W.N) = W.addr k := by
  have h1 := View.div_lt hN hk
  have e1 : (k + a.length * W.N) / W.N = k / W.N + a.length := Nat.add_mul_div_right _ _ hN
  have e2 : (k + a.length * W.N) % W.N = k % W.N := Nat.add_mul_mod_self_right _ _ _
  unfold View.addr View.sg
  rw [hn, e1, e2, hs]
  simp only [List.getD_eq_getElem?_getD]
  rw [List.getElem?_append_left (by simp; omega), List.getElem?_append_right (Nat.le_add_left _ _), Nat.add_sub_cancel]

theorem View.cap_sub {V W : View} {a b : List Nat} (hn : V.N = W.N) (hs : V.segs = a ++ W.segs ++ b) :
    V.cap = a.length * W.N + W.cap + b.length * W.N := by
  unfold View.cap
  rw [hn, hs]
  simp [Nat.add_mul, Nat.add_assoc]

/-- Slots before and after those of `W` are in the other segments. -/
theorem View.addr_out {V W : View} {a b : List Nat} (hn : V.N = W.N) (hN : 0 < W.N) (hs : V.segs = a ++ W.segs ++ b) {k : Nat}
    (hk : k < V.cap) (ho : k < a.length * W.N ∨ a.length * W.N + W.cap ≤ k) : (V.addr k).blk ∈ a ∨ (V.addr k).blk ∈ b := by
  have h1 := View.div_lt (V := V) (by omega) hk
  rw [hs] at h1
  simp only [List.length_append] at h1
  show V.sg (k / V.N) ∈ a ∨ V.sg (k / V.N) ∈ b
  unfold View.sg
  rw [hn] at h1 ⊢
  rw [hs]
  simp only [List.getD_eq_getElem?_getD]
  rcases ho with ho | ho
  · have : k / W.N < a.length := Nat.div_lt_of_lt_mul (by rw [Nat.mul_comm]; exact ho)
    left
    rw [List.append_assoc, List.getElem?_append_left this, List.getElem?_eq_getElem this]
    exact List.getElem_mem _
  · have : a.length + W.segs.length ≤ k / W.N := by
      rw [Nat.le_div_iff_mul_le hN, Nat.add_mul]; exact ho
    right
    rw [List.getElem?_append_right (by simpa using this), List.getElem?_eq_getElem (by simp; omega)]
    exact List.getElem_mem _

theorem View.it_end (V : View) (hN : 0 < V.N) (hl : 0 < V.segs.length) :
    V.it V.size = ⟨⟨V.tb, V.base + V.segs.length - 1⟩, ⟨V.sg (V.segs.length - 1), V.N - 1⟩⟩ := by
  obtain ⟨n, hn⟩ : ∃ n, V.segs.length = n + 1 := ⟨V.segs.length - 1, by omega⟩
  have e : V.size = V.N - 1 + V.N * n := by
    unfold View.size View.cap
    rw [hn, Nat.add_mul, Nat.one_mul, Nat.mul_comm]; omega
  have h1 : V.size / V.N = n := by
    rw [e, Nat.add_mul_div_left _ _ hN, Nat.div_eq_of_lt (by omega), Nat.zero_add]
  have h2 : V.size % V.N = V.N - 1 := by
    rw [e, Nat.add_mul_mod_self_left, Nat.mod_eq_of_lt (by omega)]
  simp [View.it, View.addr, h1, h2, hn]

theorem View.it_begin (V : View) : V.it 0 = ⟨⟨V.tb, V.base⟩, ⟨V.sg 0, 0⟩⟩ := by
  simp [View.it, View.addr]

theorem View.Tab.holds {V : View} {t : Table} (h : V.Tab t) : Seg.Holds t V.base V.segs := fun j hj => h.cells j hj

/-- The elements of a segment are slots. -/
theorem View.slot_seg {V : View} (hN : 0 < V.N) {i k : Nat} (hi : i < V.segs.length) (hk : k < V.N) :
    i * V.N + k < V.cap ∧ V.addr (i * V.N + k) = ⟨V.segs[i], k⟩ := by
  constructor
  · unfold View.cap
    calc i * V.N + k < i * V.N + V.N := by omega
      _ = (i + 1) * V.N := by rw [Nat.add_mul, Nat.one_mul]
      _ ≤ V.segs.length * V.N := Nat.mul_le_mul_right _ hi
  · have e1 : (i * V.N + k) / V.N = i := by
      rw [Nat.add_comm, Nat.mul_comm, Nat.add_mul_div_left _ _ hN, Nat.div_eq_of_lt hk, Nat.zero_add]
    have e2 : (i * V.N + k) % V.N = k := by
      rw [Nat.add_comm, Nat.mul_comm, Nat.add_mul_mod_self_left, Nat.mod_eq_of_lt hk]
    unfold View.addr
    rw [e1, e2, View.sg_eq hi]

namespace SegDev
open SegVec (Fit IsFrom wp_run)
variable {E : Env α} {N al tcap f : Nat} {V : View} {xs : List α} {o : Obj SDVec α} {H : Heap α}

theorem wp_onTab {β : Type} {p : Seg.TM α β} {Q : β → Obj SDVec α → Prop} {X : Exn → Obj SDVec α → Prop} :
    wp (onTab p) Q X o = wp p (fun b o' => Q b ⟨{ o.obj with tab := o'.obj }, o'.m⟩)
      (fun e o' => X e ⟨{ o.obj with tab := o'.obj }, o'.m⟩) ⟨o.obj.tab, o.m⟩ := by
  unfold wp onTab
  cases p ⟨o.obj.tab, o.m⟩ <;> rfl

/-- The table matches the segments. -/
structure Geo (N tcap : Nat) (V : View) (t : Table) : Prop where
  num : V.N = N
  fit : Fit V t
  tlen : t.cells.length = tcap
  slen : V.base + V.segs.length ≤ tcap

/-- A segmented_devector holding `xs`, the first element in slot `f` of the segments described by `V`, with a table of `tcap`
slots. All other memory is `H`. -/
structure DSt (H : Heap α) (N : Nat) (o : Obj SDVec α) (al : Nat) (V : View) (tcap f : Nat) (xs : List α) : Prop where
  geo : Geo N tcap V o.obj.tab
  lay : V.Lay al tcap o.m
  owns : V.Owns H o.m
  obj : o.obj = V.sdev o.obj.tab tcap al f (f + xs.length)
  len : f + xs.length ≤ V.size
  cells : ∀ i, V.cell o.m i = if f ≤ i then xs[i - f]? else none

theorem DSt.num (h : DSt H N o al V tcap f xs) : V.N = N := h.geo.num

theorem DSt.fit (h : DSt H N o al V tcap f xs) : Fit V o.obj.tab := h.geo.fit

theorem DSt.row (h : DSt H N o al V tcap f xs) : SRow V al tcap H o.m (fun i => f ≤ i ∧ i < f + xs.length) := by
  refine SRow.mk' h.lay h.owns fun i => ?_
  rw [h.cells]
  split
  · simp; omega
  · simp; omega

theorem DSt.first_le (h : DSt H N o al V tcap f xs) : f ≤ V.size := by have := h.len; omega

/-- The state from the slots in use. -/
theorem Geo.dst' {m : St α} {t : Table} {L : Nat → Prop} (g : Geo N tcap V t) (h : SRow V al tcap H m L) (hl : f + xs.length ≤ V.size)
    (hc : ∀ i, V.cell m i = if f ≤ i then xs[i - f]? else none) :
    DSt H N ⟨V.sdev t tcap al f (f + xs.length), m⟩ al V tcap f xs :=
  ⟨g, h.lay, h.owns, rfl, hl, hc⟩

theorem Geo.dst {m : St α} {t : Table} {L : Nat → Prop} {l : Nat} (g : Geo N tcap V t) (h : SRow V al tcap H m L) (hf : f ≤ l)
    (hl : l ≤ V.size) (hL : ∀ i, L i ↔ f ≤ i ∧ i < l) :
    ∃ ys, ys.length = l - f ∧ DSt H N ⟨V.sdev t tcap al f l, m⟩ al V tcap f ys := by
  have hex : ∀ i, i < l - f → ∃ v, V.cell m (f + i) = some v := fun i hi =>
    Option.isSome_iff_exists.mp ((h.live _).mpr ((hL _).mpr (by omega)))
  obtain ⟨ys, h1, h2⟩ : ∃ ys : List α, ys.length = l - f ∧ ∀ i, i < l - f → V.cell m (f + i) = ys[i]? := by
    generalize l - f = n at hex
    induction n with
    | zero => exact ⟨[], rfl, fun i hi => absurd hi (Nat.not_lt_zero i)⟩
    | succ n ih =>
      obtain ⟨ys, h1, h2⟩ := ih (fun i hi => hex i (by omega))
      obtain ⟨v, hv⟩ := hex n (by omega)
      refine ⟨ys ++ [v], by simp [h1], fun i hi => ?_⟩
      by_cases e : i = n
      · subst e; rw [hv, ← h1]; simp
      · rw [h2 i (by omega), List.getElem?_append_left (by omega)]
  refine ⟨ys, h1, g, h.lay, h.owns, ?_, by omega, fun i => ?_⟩
  · rw [show f + ys.length = l by omega]; rfl
  · split
    · by_cases hi : i < l
      · have := h2 (i - f) (by omega)
        rwa [show f + (i - f) = i by omega] at this
      · rw [List.getElem?_eq_none (by omega)]
        exact h.raw (by rw [hL]; omega)
    · exact h.raw (by rw [hL]; omega)

theorem DSt.slot (h : DSt H N o al V tcap f xs) {k : Nat} (hk : k < V.cap) :
    o.m.mem (V.addr k).blk (V.addr k).off = if f ≤ k then xs[k - f]? else none := by
  by_cases hi : k < V.size
  · rw [← View.cell_lt hi]; exact h.cells k
  · have e : k = V.size := by unfold View.size at *; omega
    rw [e, h.lay.hidden, List.getElem?_eq_none (by have := h.len; omega)]
    simp

/-- The state from its parts. -/
theorem DSt.of {t : Table} {m : St α} (hn : V.N = N) (hN : 0 < N) (wf : m.Wf) (len : 0 < V.segs.length)
    (nodup : V.segs.Nodup) (notin : V.tb ∉ V.segs) (tbk : m.blk V.tb = some ⟨tcap, some al⟩) (traw : ∀ i, m.mem V.tb i = none)
    (sblk : ∀ b, b ∈ V.segs → m.blk b = some ⟨N, some al⟩) (beyond : ∀ b, b ∈ V.segs → ∀ i, N ≤ i → m.mem b i = none)
    (hb : t.blk = V.tb) (hh : Seg.Holds t V.base V.segs) (tlen : t.cells.length = tcap) (ho : V.Owns H m)
    (hl : f + xs.length ≤ V.size)
    (slots : ∀ k, k < V.cap → m.mem (V.addr k).blk (V.addr k).off = if f ≤ k then xs[k - f]? else none) :
    DSt H N ⟨V.sdev t tcap al f (f + xs.length), m⟩ al V tcap f xs := by
  subst hn
  have hcap : 0 < V.cap := Nat.mul_pos len hN
  refine ⟨⟨rfl, ⟨⟨hb, hh⟩, hN, len, nodup⟩, tlen, ?_⟩, ⟨wf, hN, len, nodup, notin, tbk, traw, sblk, beyond, ?_⟩, ho, rfl, hl, fun i => ?_⟩
  · have h1 := hh (V.segs.length - 1) (by omega)
    rw [List.getElem?_eq_some_iff] at h1
    obtain ⟨h2, -⟩ := h1
    rw [tlen] at h2; omega
  · have := slots V.size (by unfold View.size; omega)
    rw [List.getElem?_eq_none (by omega), ite_self] at this
    exact this
  · by_cases hi : i < V.size
    · show V.cell m i = _
      rw [View.cell_lt hi]
      exact slots i (by have := V.size_le; omega)
    · rw [View.cell_ge (by omega), List.getElem?_eq_none (by omega), ite_self]

theorem DSt.live (h : DSt H N o al V tcap f xs) : ∀ c, V.foot c → o.m.blk c ≠ none := by
  rintro c (rfl | hc)
  · rw [h.lay.tbk]; simp
  · rw [h.lay.sblk c hc]; simp

/-- The foreign memory of a state. -/
def heapOf (V : View) (m : St α) : Heap α where
  mem := fun c i => if c = V.tb ∨ c ∈ V.segs then none else m.mem c i
  blk := fun c => if c = V.tb ∨ c ∈ V.segs then none else m.blk c

theorem owns_heapOf (V : View) (m : St α) : V.Owns (heapOf V m) m := by
  refine ⟨fun c hc => ?_, fun c hc i => ?_, fun c hc => ?_, fun c hc i => ?_⟩
  all_goals
    simp only [View.blocks] at hc
    simp [heapOf, hc]

theorem DSt.toHeap (h : DSt H N o al V tcap f xs) : DSt (heapOf V o.m) N o al V tcap f xs :=
  ⟨h.geo, h.lay, owns_heapOf V o.m, h.obj, h.len, h.cells⟩

/-- What changes when a segmented_devector changes. -/
theorem frame_of {V V' : View} {m m' : St α} (h : V.Owns H m) (h' : V'.Owns H m') (hw : m'.Wf) : Frame m V.foot m' V'.foot where
  wf := hw
  keep := fun c hc hb => by
    have : ¬ V'.blocks c := fun hn => hb (by rw [h.blk c hc]; exact h'.hblk c hn)
    exact ⟨this, by rw [h.blk c hc, h'.blk c this], fun k => by rw [h.mem c hc, h'.mem c this]⟩
  fresh := fun c hc hb hn => by rw [h'.blk c hn, ← h.blk c hc]; exact hb
  freed := fun c hc hn => by rw [h'.blk c hn]; exact h.hblk c hc

/-- The state does not depend on anything but the blocks of the container. -/
theorem DSt.frame {m' : St α} {H' : Heap α} (h : DSt H N o al V tcap f xs) (hw : m'.Wf)
    (hf : ∀ c, V.foot c → m'.blk c = o.m.blk c ∧ ∀ k, m'.mem c k = o.m.mem c k) (ho : V.Owns H' m') :
    DSt H' N ⟨o.obj, m'⟩ al V tcap f xs := by
  have hs := h.lay.size_lt
  have hmem : ∀ k, k < V.cap → m'.mem (V.addr k).blk (V.addr k).off = o.m.mem (V.addr k).blk (V.addr k).off :=
    fun k hk => (hf _ (Or.inr (View.addr_mem h.lay.npos hk))).2 _
  refine ⟨h.geo, ⟨hw, h.lay.npos, h.lay.len, h.lay.nodup, h.lay.notin, ?_, ?_, ?_, ?_, ?_⟩, ho, h.obj, h.len, fun i => ?_⟩
  · show m'.blk _ = _
    rw [(hf _ (Or.inl rfl)).1]; exact h.lay.tbk
  · intro i
    show m'.mem _ i = _
    rw [(hf _ (Or.inl rfl)).2]; exact h.lay.traw i
  · intro b hb
    show m'.blk b = _
    rw [(hf b (Or.inr hb)).1]; exact h.lay.sblk b hb
  · intro b hb i hi
    show m'.mem b i = _
    rw [(hf b (Or.inr hb)).2]; exact h.lay.beyond b hb i hi
  · rw [hmem _ hs]; exact h.lay.hidden
  · rw [← h.cells i]
    show V.cell m' i = _
    by_cases hi : i < V.size
    · rw [View.cell_lt hi, View.cell_lt hi, hmem _ (by omega)]
    · rw [View.cell_ge (by omega), View.cell_ge (by omega)]

/-- An allocation that fails changes nothing. -/
theorem DSt.same {m' : St α} {t' : Table} (h : DSt H N o al V tcap f xs) (hw : m'.Wf) (hm : m'.mem = o.m.mem) (hk : ∀ c, m'.blk c = o.m.blk c)
    (hb : t'.blk = o.obj.tab.blk) (ht : t'.cells.length = o.obj.tab.cells.length)
    (hc : ∀ i, i < V.segs.length → t'.cells[V.base + i]? = o.obj.tab.cells[V.base + i]?) :
    DSt H N ⟨{ o.obj with tab := t' }, m'⟩ al V tcap f xs := by
  have hg := h.frame hw (fun c _ => ⟨hk c, fun k => by rw [hm]⟩)
    (h.owns.step h.lay.wf hm (fun c h1 h2 => absurd h1 h2) (fun c _ _ => hk c) (fun c h1 h2 => absurd h1 h2))
  refine ⟨⟨h.num, ⟨⟨hb.trans h.fit.tab.blk, fun i hi => ?_⟩, h.fit.npos, h.fit.len, h.fit.nodup⟩, ht.trans h.geo.tlen, h.geo.slen⟩, hg.lay,
    hg.owns, ?_, hg.len, hg.cells⟩
  · show t'.cells[_]? = _
    rw [hc i hi]; exact h.fit.tab.cells i hi
  · show ({ o.obj with tab := t' } : SDVec) = _
    rw [h.obj]; rfl

/-! ### Access -/

section
variable (h : DSt H N o al V tcap f xs)
include h

theorem DSt.size_run : SegDev.size N o = .ok xs.length o := by
  obtain rfl := h.num
  unfold size
  rw [bind_run (m := getObj) (s' := o) rfl]
  rw [show o.obj.first = V.it f by rw [h.obj]; rfl, show o.obj.last = V.it (f + xs.length) by rw [h.obj]; rfl,
    h.fit.dist (by omega) h.len]
  rw [Nat.add_sub_cancel_left]

theorem DSt.capacity_run : SegDev.capacity N o = .ok V.size o := by
  obtain rfl := h.num
  unfold capacity
  rw [bind_run (m := getObj) (s' := o) rfl]
  rw [show o.obj.bos = V.it 0 by rw [h.obj]; rfl, show o.obj.eos = V.it V.size by rw [h.obj]; rfl,
    h.fit.dist (by omega) (Nat.le_refl _)]
  rfl

theorem DSt.availableFront_run : SegDev.availableFront N o = .ok f o := by
  obtain rfl := h.num
  unfold availableFront
  rw [bind_run (m := getObj) (s' := o) rfl]
  rw [show o.obj.bos = V.it 0 by rw [h.obj]; rfl, show o.obj.first = V.it f by rw [h.obj]; rfl,
    h.fit.dist (by omega) h.first_le]
  rfl

theorem DSt.availableBack_run : SegDev.availableBack N o = .ok (V.size - (f + xs.length)) o := by
  obtain rfl := h.num
  unfold availableBack
  rw [bind_run (m := getObj) (s' := o) rfl]
  rw [show o.obj.last = V.it (f + xs.length) by rw [h.obj]; rfl, show o.obj.eos = V.it V.size by rw [h.obj]; rfl,
    h.fit.dist h.len (Nat.le_refl _)]

theorem DSt.nth_run {k : Nat} (hk : k ≤ xs.length) : SegDev.nth N k o = .ok (V.it (f + k)) o := by
  have hs := h.size_run
  have hl := h.len
  obtain rfl := h.num
  unfold nth
  rw [bind_run hs, bind_run (assert_run hk), bind_run (m := getObj) (s' := o) rfl]
  rw [show o.obj.first = V.it f by rw [h.obj]; rfl, h.fit.adv (q := f + k) h.first_le (by omega) (by omega)]

theorem DSt.inRange {k : Nat} (hk : k ≤ xs.length) : InRange o.obj (V.it (f + k)) := by
  have hl := h.len
  unfold InRange
  rw [show o.obj.first = V.it f by rw [h.obj]; rfl, show o.obj.last = V.it (f + xs.length) by rw [h.obj]; rfl,
    h.fit.ltI (by omega) (by omega), h.fit.ltI (by omega) (by omega)]
  simp; omega

theorem DSt.indexOf_run {k : Nat} (hk : k ≤ xs.length) : SegDev.indexOf N (V.it (f + k)) o = .ok (some k) o := by
  have hl := h.len
  have hr := h.inRange hk
  obtain rfl := h.num
  unfold indexOf
  rw [bind_run (m := getObj) (s' := o) rfl, bind_run (assert_run hr), show o.obj.first = V.it f by rw [h.obj]; rfl,
    bind_run (h.fit.dist (by omega) (by omega) _), Nat.add_sub_cancel_left]
  rfl

theorem DSt.read_run {k : Nat} {x : α} (hk : xs[k]? = some x) : (lift (readAt (V.it (f + k)).loc) : DM α α) o = .ok x o := by
  have hlt : k < xs.length := (List.getElem?_eq_some_iff.mp hk).1
  have h2 := h.slot (k := f + k) (by have := h.len; have := h.lay.size_lt; omega)
  rw [if_pos (by omega), Nat.add_sub_cancel_left, hk] at h2
  have h3 : o.m.mem (V.it (f + k)).loc.blk (V.it (f + k)).loc.off = some x := h2
  unfold lift readAt
  simp only [h3]

theorem DSt.index_run {k : Nat} {x : α} (hk : xs[k]? = some x) : SegDev.index N k o = .ok x o := by
  have hlt : k < xs.length := (List.getElem?_eq_some_iff.mp hk).1
  have hr := h.read_run hk
  have hs := h.size_run
  have hl := h.len
  obtain rfl := h.num
  unfold index
  rw [bind_run hs, bind_run (assert_run hlt), bind_run (m := getObj) (s' := o) rfl, show o.obj.first = V.it f by rw [h.obj]; rfl,
    bind_run (h.fit.adv (q := f + k) h.first_le (by omega) (by omega) _), hr]

end

end SegDev
end Sfl
