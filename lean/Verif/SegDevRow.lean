import Verif.SegDev
import Verif.SegVecSim
import Verif.DevRow
import Verif.Remove
/-
  The steps of segmented_devector's algorithms, as seen on the slots of the segments: which slots hold elements, and what
  they hold. (Helper lemmas.)
-/

set_option linter.unusedSimpArgs false

namespace Sfl
variable {α : Type}

/-- What slot `i` of the storage holds; nothing beyond the capacity. -/
def View.cell (V : View) (s : St α) (i : Nat) : Option α := (V.view s).mem V.tb i

/-- The table and the segments. -/
def View.blocks (V : View) (c : Nat) : Prop := c = V.tb ∨ c ∈ V.segs

/-- Everything outside the table and the segments is the foreign memory `H`. -/
structure View.Owns (V : View) (H : Heap α) (s : St α) : Prop where
  blk : ∀ c, ¬ V.blocks c → s.blk c = H.blk c
  mem : ∀ c, ¬ V.blocks c → ∀ i, s.mem c i = H.mem c i
  hblk : ∀ c, V.blocks c → H.blk c = none
  hmem : ∀ c, V.blocks c → ∀ i, H.mem c i = none

section
variable {V : View} {al tcap : Nat} {s : St α} {H : Heap α}

theorem View.cell_lt {i : Nat} (hi : i < V.size) : V.cell s i = s.mem (V.addr i).blk (V.addr i).off := View.view_slot hi

theorem View.cell_ge {i : Nat} (hi : V.size ≤ i) : V.cell s i = none := by
  unfold View.cell View.view
  simp only [if_true]
  rw [if_neg (by omega)]

theorem View.Lay.view_wf (h : V.Lay al tcap s) : (V.view s).Wf := by
  have hne : ∀ {c}, (∃ x, s.blk c = some x) → c ≠ 0 ∧ c < s.next := by
    rintro c ⟨x, hx⟩
    constructor
    · rintro rfl; rw [h.wf.blk_zero] at hx; cases hx
    · by_cases hc : s.next ≤ c
      · rw [h.wf.fresh c hc] at hx; cases hx
      · omega
  have htb := hne ⟨_, h.tbk⟩
  refine ⟨h.wf.next_pos, ?_, ?_, ?_⟩
  · have : (0 : Nat) ∉ V.segs := fun hm => (hne ⟨_, h.sblk 0 hm⟩).1 rfl
    simp [View.view, this, Ne.symm htb.1, h.wf.blk_zero]
  · intro c hc
    have h1 : c ≠ V.tb := by intro e; subst e; exact absurd htb.2 (by simpa [View.view] using hc)
    have h2 : c ∉ V.segs := fun hm => absurd (hne ⟨_, h.sblk c hm⟩).2 (by simpa [View.view] using hc)
    simp only [View.view, h1, h2, if_false]
    exact h.wf.fresh c (by simpa [View.view] using hc)
  · intro c hc i
    by_cases h1 : c = V.tb
    · simp [View.view, h1] at hc
    · by_cases h2 : c ∈ V.segs
      · simp [View.view, h1, h2]
      · simp only [View.view, h1, h2, if_false] at hc ⊢
        exact h.wf.dead c hc i

/-- A live location is a slot of the storage, or outside. -/
theorem View.Lay.place (h : V.Lay al tcap s) {p : Ptr} {v : α} (hm : s.mem p.blk p.off = some v) :
    ∃ q, V.map q = p ∧ (V.view s).mem q.blk q.off = some v := by
  have hnt : p.blk ≠ V.tb := fun e => by rw [e, h.traw] at hm; cases hm
  by_cases hs : p.blk ∈ V.segs
  · obtain ⟨i, hi, he⟩ := List.getElem_of_mem hs
    have hoff : p.off < V.N := by
      by_cases hc : V.N ≤ p.off
      · rw [h.beyond _ hs _ hc] at hm; cases hm
      · omega
    have hk : V.addr (i * V.N + p.off) = p := by
      have e1 : (i * V.N + p.off) / V.N = i := by
        rw [Nat.mul_comm, Nat.mul_add_div h.npos, Nat.div_eq_of_lt hoff]; omega
      have e2 : (i * V.N + p.off) % V.N = p.off := by
        rw [Nat.mul_comm, Nat.mul_add_mod, Nat.mod_eq_of_lt hoff]
      unfold View.addr
      rw [e1, e2, View.sg_eq hi, he]
    have hcap : i * V.N + p.off < V.cap := by
      have : (i + 1) * V.N ≤ V.segs.length * V.N := Nat.mul_le_mul_right _ hi
      rw [Nat.succ_mul] at this
      unfold View.cap; omega
    have hsz : i * V.N + p.off < V.size := by
      by_cases hc : i * V.N + p.off = V.size
      · have := h.hidden
        rw [← hc, hk, hm] at this; cases this
      · unfold View.size at *; omega
    refine ⟨⟨V.tb, i * V.N + p.off⟩, by rw [View.map_tb, hk], ?_⟩
    show V.cell s _ = _
    rw [View.cell_lt hsz, hk, hm]
  · refine ⟨p, by unfold View.map; rw [if_neg hnt], ?_⟩
    simp only [View.view, hnt, hs, if_false]; exact hm

/-- An argument that is read has the same value in the contiguous memory. -/
theorem View.Lay.arg (h : V.Lay al tcap s) {a : Arg α} {v : α} {E : Env α} (hv : a.value s = some v) (hs : a.src E = none) :
    ∃ a' : Arg α, a'.map V.map = a ∧ a'.value (V.view s) = some v ∧ a'.src E = none ∧ a'.isRv = a.isRv := by
  cases a with
  | val w => exact ⟨.val w, rfl, hv, rfl, rfl⟩
  | rv w => exact ⟨.rv w, rfl, hv, rfl, rfl⟩
  | ref p =>
    obtain ⟨q, h1, h2⟩ := h.place hv
    exact ⟨.ref q, by rw [← h1]; rfl, h2, rfl, rfl⟩
  | mv p => cases hs
  | mvIf p =>
    obtain ⟨q, h1, h2⟩ := h.place hv
    refine ⟨.mvIf q, by rw [← h1]; rfl, h2, ?_, rfl⟩
    simp only [Arg.src] at hs ⊢
    split at hs
    · cases hs
    · rename_i hc; rw [if_neg hc]

end

namespace SegDev
open SegVec (Fit IsFrom)
open Devector (Row)
variable {V : View} {al tcap : Nat} {H : Heap α} {s s' : St α} {L : Nat → Prop} {t : Table} {E : Env α}
  {X : Exn → St α → Prop}

/-- Memory `s` is the foreign memory `H` and the storage described by `V`; exactly the slots in `L` hold an element. -/
structure SRow (V : View) (al tcap : Nat) (H : Heap α) (s : St α) (L : Nat → Prop) : Prop where
  lay : V.Lay al tcap s
  row : Row H (V.view s) al V.tb V.size s.next L V.tb V.size

theorem SRow.of {nx : Nat} (hl : V.Lay al tcap s) (hr : Row H (V.view s) al V.tb V.size nx L V.tb V.size) :
    SRow V al tcap H s L := by
  have := hr.next
  subst this
  exact ⟨hl, hr⟩

theorem SRow.owns (h : SRow V al tcap H s L) : V.Owns H s := by
  have key : ∀ c, ¬ V.blocks c → c ≠ V.tb ∧ c ∉ V.segs := fun c hc => ⟨fun e => hc (Or.inl e), fun e => hc (Or.inr e)⟩
  refine ⟨fun c hc => ?_, fun c hc i => ?_, fun c hc => ?_, fun c hc i => ?_⟩
  · obtain ⟨h1, h2⟩ := key c hc
    have := h.row.st.fblk c h1 h1
    simpa [View.view, h1, h2] using this
  · obtain ⟨h1, h2⟩ := key c hc
    have := h.row.st.fmem c h1 h1 i
    simpa [View.view, h1, h2] using this
  · by_cases e : c = V.tb
    · subst e; exact h.row.st.hblk
    · have h2 := hc.resolve_left e
      have := h.row.st.fblk c e e
      rw [← this]
      simp [View.view, e, h2]
  · by_cases e : c = V.tb
    · subst e; exact h.row.st.hmem i
    · have h2 := hc.resolve_left e
      have := h.row.st.fmem c e e i
      rw [← this]
      simp [View.view, e, h2]

theorem SRow.mk' (hl : V.Lay al tcap s) (ho : V.Owns H s) (hL : ∀ i, (V.cell s i).isSome ↔ L i) : SRow V al tcap H s L := by
  refine ⟨hl, ⟨hl.view_wf, Or.inr (by simp [View.view]), Or.inl ⟨rfl, rfl⟩, fun h => absurd rfl h,
    fun i hi => View.cell_ge hi, ?_, ?_, ho.hmem _ (Or.inl rfl), ho.hblk _ (Or.inl rfl), ho.hmem _ (Or.inl rfl),
    ho.hblk _ (Or.inl rfl)⟩, rfl, hL⟩
  · intro c h1 _ i
    by_cases h2 : c ∈ V.segs
    · rw [ho.hmem c (Or.inr h2)]; simp [View.view, h1, h2]
    · simp only [View.view, h1, h2, if_false]
      exact ho.mem c (fun h => h.elim h1 h2) i
  · intro c h1 _
    by_cases h2 : c ∈ V.segs
    · rw [ho.hblk c (Or.inr h2)]; simp [View.view, h1, h2]
    · simp only [View.view, h1, h2, if_false]
      exact ho.blk c (fun h => h.elim h1 h2)

theorem SRow.live (h : SRow V al tcap H s L) (i : Nat) : (V.cell s i).isSome ↔ L i := h.row.live i

theorem SRow.raw (h : SRow V al tcap H s L) {i : Nat} (hi : ¬ L i) : V.cell s i = none := h.row.raw hi

theorem SRow.lt (h : SRow V al tcap H s L) {i : Nat} (hi : L i) : i < V.size := by
  by_cases hc : V.size ≤ i
  · exact absurd hi (h.row.beyond i hc)
  · omega

theorem SRow.congr {L' : Nat → Prop} (h : SRow V al tcap H s L) (he : ∀ i, L' i ↔ L i) : SRow V al tcap H s L' :=
  ⟨h.lay, h.row.congr he⟩

/-- Foreign memory is unchanged. -/
theorem SRow.agree (h : SRow V al tcap H s L) (c i : Nat) (hc : H.blk c ≠ none) : s.mem c i = H.mem c i := by
  have := h.owns
  refine this.mem c (fun hb => hc (this.hblk c hb)) i

theorem SRow.fresh (h : SRow V al tcap H s L) (hs : Same s s') (hm : s'.mem = s.mem) : SRow V al tcap H s' L := by
  have hl : V.Lay al tcap s' := by
    obtain ⟨a1, a2, a3, a4, a5, a6, a7, a8, a9, a10⟩ := h.lay
    refine ⟨a1.upd hs fun c hc i => by rw [hm]; exact a1.dead c hc i, a2, a3, a4, a5, by rw [hs.blk]; exact a6,
      by rw [hm]; exact a7, by rw [hs.blk]; exact a8, by rw [hm]; exact a9, by rw [hm]; exact a10⟩
  have ho := h.owns
  refine SRow.mk' hl ⟨?_, ?_, ho.hblk, ho.hmem⟩ ?_
  · rw [hs.blk]; exact ho.blk
  · rw [hm]; exact ho.mem
  · intro i
    have : V.cell s' i = V.cell s i := by unfold View.cell View.view; simp only [hm]
    rw [this]; exact h.live i

theorem moveFwd_same (q d : Ptr) : Sfl.moveFwd E q q d = pure d := by
  funext s; simp [Sfl.moveFwd, distance, bind, M.bind, args, assignGo]

theorem uninitMove_same (q d : Ptr) : Sfl.uninitMove E q q d = pure d := by
  funext s; simp [Sfl.uninitMove, distance, bind, M.bind, args, Sfl.uninit, uninitGo]; rfl

theorem moveBackward_same (q d : Ptr) : Sfl.moveBackward E q q d = pure d := by
  funext s; simp [Sfl.moveBackward, distance, bind, M.bind, moveBackGo]

section ops
variable (hF : Fit V t)
include hF

theorem SRow.uninitMove {x y d : Nat} {Q : SIt → St α → Prop} (h : SRow V al tcap H s L)
    (hxy : x ≤ y) (hy : y ≤ V.size) (hs : ∀ i, x ≤ i → i < y → L i) (hd : d + (y - x) ≤ V.size)
    (hr : ∀ i, d ≤ i → i < d + (y - x) → ¬ L i)
    (hQ : ∀ s', SRow V al tcap H s' (fun i => L i ∨ (d ≤ i ∧ i < d + (y - x))) →
      (∀ i, V.cell s' i = if d ≤ i ∧ i < d + (y - x) then V.cell s (x + (i - d))
        else if x ≤ i ∧ i < y then (V.cell s i).map E.moved else V.cell s i) → Q (V.it (d + (y - x))) s')
    (hX : E.nothrowMoveCtor = false → x < y → ∀ s', SRow V al tcap H s' L → X .elem s') :
    wp (Seg.uninitSeg E V.N t t .mv (V.it x) (V.it y) (V.it d)) Q X s := by
  by_cases hlt : x = y
  · subst hlt
    refine Sim.wp (hF.uninitMove (lim := E.maxSize) hxy hy hd) h.lay ?_
    rw [uninitMove_same, wp_pure]
    rintro b s' ⟨rfl, -⟩ he hl
    have hc : ∀ i, V.cell s' i = V.cell s i := fun i => by unfold View.cell; rw [← he]
    have hrow := h.row
    rw [he] at hrow
    refine hQ s' ((SRow.of hl hrow).congr (fun i => by simp; omega)) (fun i => ?_)
    rw [hc, if_neg (by omega), if_neg (by omega)]
  refine Sim.wp (hF.uninitMove (lim := E.maxSize) hxy hy hd) h.lay (h.row.uninitMove hxy hs hd hr ?_ ?_)
  · rintro s'' hrow hm b s' ⟨rfl, -⟩ rfl hl
    exact hQ s' (.of hl hrow) hm
  · rintro ht s'' hrow s' rfl hl
    exact hX ht (by omega) s' (.of hl hrow)

theorem SRow.moveFwd {x y d : Nat} {Q : SIt → St α → Prop} (h : SRow V al tcap H s L)
    (hxy : x ≤ y) (hy : y ≤ V.size) (hs : ∀ i, x ≤ i → i < y → L i) (hd : d + (y - x) ≤ V.size)
    (hl : ∀ i, d ≤ i → i < d + (y - x) → L i) (hdir : d < x ∨ y ≤ d)
    (hQ : ∀ s', SRow V al tcap H s' L →
      (∀ i, V.cell s' i = if d ≤ i ∧ i < d + (y - x) then V.cell s (x + (i - d))
        else if x ≤ i ∧ i < y then (V.cell s i).map E.moved else V.cell s i) → Q (V.it (d + (y - x))) s')
    (hX : E.nothrowMoveAssign = false → x < y → ∀ s', SRow V al tcap H s' L → X .elem s') :
    wp (Seg.assignSeg E V.N t t .mv (V.it x) (V.it y) (V.it d)) Q X s := by
  by_cases hlt : x = y
  · subst hlt
    refine Sim.wp (hF.moveFwd (lim := E.maxSize) hxy hy hd) h.lay ?_
    rw [moveFwd_same, wp_pure]
    rintro b s' ⟨rfl, -⟩ he hl
    have hc : ∀ i, V.cell s' i = V.cell s i := fun i => by unfold View.cell; rw [← he]
    have hrow := h.row
    rw [he] at hrow
    refine hQ s' ((SRow.of hl hrow)) (fun i => ?_)
    rw [hc, if_neg (by omega), if_neg (by omega)]
  refine Sim.wp (hF.moveFwd (lim := E.maxSize) hxy hy hd) h.lay (h.row.moveFwd hxy hs hl hdir ?_ ?_)
  · rintro s'' hrow hm b s' ⟨rfl, -⟩ rfl hl
    exact hQ s' (.of hl hrow) hm
  · rintro ht s'' hrow s' rfl hl
    exact hX ht (by omega) s' (.of hl hrow)

theorem SRow.moveBackward {x y z : Nat} {Q : SIt → St α → Prop} (h : SRow V al tcap H s L)
    (hxy : x ≤ y) (hy : y ≤ V.size) (hz : y - x ≤ z) (hz' : z ≤ V.size) (hs : ∀ i, x ≤ i → i < y → L i)
    (hl : ∀ i, z - (y - x) ≤ i → i < z → L i) (hdir : y < z ∨ z ≤ x)
    (hQ : ∀ s', SRow V al tcap H s' L →
      (∀ i, V.cell s' i = if z - (y - x) ≤ i ∧ i < z then V.cell s (x + (i - (z - (y - x))))
        else if x ≤ i ∧ i < y then (V.cell s i).map E.moved else V.cell s i) → Q (V.it (z - (y - x))) s')
    (hX : E.nothrowMoveAssign = false → x < y → ∀ s', SRow V al tcap H s' L → X .elem s') :
    wp (Seg.backSeg E V.N t t .mv (V.it x) (V.it y) (V.it z)) Q X s := by
  by_cases hlt : x = y
  · subst hlt
    refine Sim.wp (hF.moveBackward (lim := E.maxSize) hxy hy hz' hz) h.lay ?_
    rw [moveBackward_same, wp_pure]
    rintro b s' ⟨rfl, -⟩ he hl
    have hc : ∀ i, V.cell s' i = V.cell s i := fun i => by unfold View.cell; rw [← he]
    have hrow := h.row
    rw [he] at hrow
    refine hQ s' ((SRow.of hl hrow)) (fun i => ?_)
    rw [hc, if_neg (by omega), if_neg (by omega)]
  refine Sim.wp (hF.moveBackward (lim := E.maxSize) hxy hy hz' hz) h.lay (h.row.moveBackward hxy hz hs hl hdir ?_ ?_)
  · rintro s'' hrow hm b s' ⟨rfl, -⟩ rfl hl
    exact hQ s' (.of hl hrow) hm
  · rintro ht s'' hrow s' rfl hl
    exact hX ht (by omega) s' (.of hl hrow)

theorem SRow.destroy {x y : Nat} {Q : Unit → St α → Prop} (h : SRow V al tcap H s L)
    (hxy : x ≤ y) (hy : y ≤ V.size) (hs : ∀ i, x ≤ i → i < y → L i)
    (hQ : ∀ s', SRow V al tcap H s' (fun i => L i ∧ ¬ (x ≤ i ∧ i < y)) →
      (∀ i, V.cell s' i = if x ≤ i ∧ i < y then none else V.cell s i) → Q () s') :
    wp (Seg.destroy V.N t (V.it x) (V.it y)) Q X s := by
  refine Sim.wp (View.sim_destroy hF.tab hF.npos hxy (hF.lt hy)) h.lay (h.row.destroy hxy hs ?_)
  rintro s'' hrow hm b s' - rfl hl
  exact hQ s' (.of hl hrow) hm

omit hF in
theorem SRow.destroyAt {x : Nat} {Q : Unit → St α → Prop} (h : SRow V al tcap H s L) (hs : L x)
    (hQ : ∀ s', SRow V al tcap H s' (fun i => L i ∧ i ≠ x) →
      (∀ i, V.cell s' i = if i = x then none else V.cell s i) → Q () s') :
    wp (Sfl.destroyAt (V.it x).loc) Q X s := by
  rw [View.it_loc]
  refine Sim.wp Sim.destroyAt h.lay (wp_destroyAt ((h.live x).mpr hs) ?_)
  rintro s'' hsm - hm b s' - rfl hl
  have hm' : ∀ i, V.cell s' i = if i = x then none else V.cell s i := by
    intro i
    have := hm V.tb i
    simp only [true_and] at this
    exact this
  refine hQ s' (.of hl (h.row.upd hsm ?_ ?_ ?_)) hm'
  · intro i
    have := hm' i
    unfold View.cell at this
    rw [this]
    by_cases hi : i = x
    · simp [hi]
    · rw [if_neg hi]
      have := h.live i
      unfold View.cell at this
      rw [this]; simp [hi]
  · intro i hi hc; exact h.row.beyond i hi hc.1
  · intro c hc i; rw [hm]; simp [hc]

omit hF in
/-- Constructing in a raw slot from an argument that is read. -/
theorem SRow.construct {d : Nat} {a : Arg α} {v : α} {Q : Unit → St α → Prop} (h : SRow V al tcap H s L)
    (hv : a.value s = some v) (hsrc : a.src E = none) (hd : d < V.size) (hr : ¬ L d)
    (hQ : ∀ s', SRow V al tcap H s' (fun i => L i ∨ i = d) →
      (∀ i, V.cell s' i = if i = d then some v else V.cell s i) → Q () s')
    (hX : ∀ s', SRow V al tcap H s' L → (∀ i, V.cell s' i = V.cell s i) → X .elem s') :
    wp (Sfl.construct E (V.it d).loc a) Q X s := by
  obtain ⟨a', rfl, hv', hs', -⟩ := h.lay.arg hv hsrc
  rw [View.it_loc]
  refine Sim.wp (Sim.construct (lim := E.maxSize)) h.lay (construct_copy hv' hs' (h.row.st.inB hd) (h.row.raw hr) ?_ ?_)
  · rintro s'' hsm - hm b s' - rfl hl
    have hm' : ∀ i, V.cell s' i = if i = d then some v else V.cell s i := by
      intro i
      have := hm V.tb i
      simp only [true_and] at this
      exact this
    refine hQ s' (.of hl (h.row.upd hsm ?_ ?_ ?_)) hm'
    · intro i
      have := hm' i
      unfold View.cell at this
      rw [this]
      by_cases hi : i = d
      · simp [hi]
      · rw [if_neg hi]
        have := h.live i
        unfold View.cell at this
        rw [this]; simp [hi]
    · intro i hi hc
      rcases hc with hc | hc
      · exact h.row.beyond i hi hc
      · omega
    · intro c hc i; rw [hm]; simp [hc]
  · rintro s'' hsm hm s' rfl hl
    refine hX s' (.of hl (h.row.fresh hsm hm)) (fun i => ?_)
    unfold View.cell; rw [hm]

omit hF in
/-- Constructing in a raw slot from an element of the container that is moved. -/
theorem SRow.constructMove {d x : Nat} {Q : Unit → St α → Prop} (h : SRow V al tcap H s L)
    (hx : L x) (hd : d < V.size) (hr : ¬ L d)
    (hQ : ∀ s', SRow V al tcap H s' (fun i => L i ∨ i = d) →
      (∀ i, V.cell s' i = if i = d then V.cell s x else if i = x then (V.cell s x).map E.moved else V.cell s i) → Q () s')
    (hX : E.nothrowMoveCtor = false → ∀ s', SRow V al tcap H s' L → X .elem s') :
    wp (Sfl.construct E (V.it d).loc (.mv (V.it x).loc)) Q X s := by
  rw [View.it_loc, View.it_loc]
  obtain ⟨v, hv⟩ := Option.isSome_iff_exists.mp ((h.live x).mpr hx)
  have hne : d ≠ x := fun e => hr (e ▸ hx)
  refine Sim.wp (Sim.construct (a := .mv ⟨V.tb, x⟩) (lim := E.maxSize)) h.lay
    (construct_move (v := v) (q := ⟨V.tb, x⟩) hv rfl (h.row.st.inB hd) (h.row.raw hr) ?_ ?_)
  · rintro s'' hsm - hm b s' - rfl hl
    have hm' : ∀ i, V.cell s' i = if i = d then V.cell s x else if i = x then (V.cell s x).map E.moved else V.cell s i := by
      intro i
      have := hm V.tb i
      simp only [true_and] at this
      rw [hv]
      unfold View.cell
      rw [this]
      by_cases h1 : i = d
      · rw [if_neg (by omega), if_pos h1, if_pos h1]
      · rw [if_neg h1, if_neg h1]; rfl
    refine hQ s' (.of hl (h.row.upd hsm ?_ ?_ ?_)) hm'
    · intro i
      have := hm' i
      unfold View.cell at this
      rw [this]
      by_cases hi : i = d
      · rw [if_pos hi]
        have := (h.live x).mpr hx
        unfold View.cell at this
        simp [hi, this]
      · rw [if_neg hi]
        split
        · rename_i h1
          have := (h.live x).mpr hx
          unfold View.cell at this
          simp only [Option.isSome_map, this, true_iff]
          exact Or.inl (h1 ▸ hx)
        · have := h.live i
          unfold View.cell at this
          rw [this]; simp [hi]
    · intro i hi hc
      rcases hc with hc | hc
      · exact h.row.beyond i hi hc
      · omega
    · intro c hc i; rw [hm]; simp [hc]
  · rintro ht s'' w hsm hm s' rfl hl
    refine hX ht s' (.of hl (h.row.upd hsm ?_ h.row.beyond ?_))
    · intro i
      rw [hm]
      by_cases hi : i = x
      · simp [hi, hx]
      · simp only [true_and]
        rw [if_neg hi]; exact h.live i
    · intro c hc i; rw [hm]; simp [hc]

omit hF in
/-- Assigning a value to a live slot. -/
theorem SRow.assign {d : Nat} {a : Arg α} {v : α} {Q : Unit → St α → Prop} (h : SRow V al tcap H s L)
    (hv : a.value s = some v) (hsrc : a.src E = none) (hl : L d)
    (hQ : ∀ s', SRow V al tcap H s' L →
      (∀ i, V.cell s' i = if i = d then some v else V.cell s i) → Q () s')
    (hX : (a.isRv = true → E.nothrowMoveAssign = false) → ∀ s', SRow V al tcap H s' L → X .elem s') :
    wp (Sfl.assign E (V.it d).loc a) Q X s := by
  obtain ⟨a', rfl, hv', hs', hrv⟩ := h.lay.arg hv hsrc
  rw [← hrv] at hX
  rw [View.it_loc]
  refine Sim.wp (Sim.assign (lim := E.maxSize)) h.lay (assign_copy hv' hs' ((h.live d).mpr hl) ?_ ?_)
  · rintro s'' hsm - hm b s' - rfl hlay
    have hm' : ∀ i, V.cell s' i = if i = d then some v else V.cell s i := by
      intro i
      have := hm V.tb i
      simp only [true_and] at this
      exact this
    refine hQ s' (.of hlay (h.row.upd hsm ?_ h.row.beyond ?_)) hm'
    · intro i
      have := hm' i
      unfold View.cell at this
      rw [this]
      by_cases hi : i = d
      · simp [hi, hl]
      · rw [if_neg hi]; exact h.live i
    · intro c hc i; rw [hm]; simp [hc]
  · rintro ht s'' w hsm hm s' rfl hlay
    refine hX ht s' (.of hlay (h.row.upd hsm ?_ h.row.beyond ?_))
    · intro i
      rw [hm]
      by_cases hi : i = d
      · simp [hi, hl]
      · simp only [true_and]
        rw [if_neg hi]; exact h.live i
    · intro c hc i; rw [hm]; simp [hc]

theorem SRow.uninitFillN {d n : Nat} {a : Arg α} {v : α} {Q : SIt → St α → Prop} (h : SRow V al tcap H s L)
    (hv : a.value s = some v) (hsrc : a.src E = none) (hd : d + n ≤ V.size) (hr : ∀ i, d ≤ i → i < d + n → ¬ L i)
    (hQ : ∀ s', SRow V al tcap H s' (fun i => L i ∨ (d ≤ i ∧ i < d + n)) →
      (∀ i, V.cell s' i = if d ≤ i ∧ i < d + n then some v else V.cell s i) → Q (V.it (d + n)) s')
    (hX : ∀ s', SRow V al tcap H s' L → (∀ i, V.cell s' i = V.cell s i) → X .elem s') :
    wp (Seg.uninitFillN E V.N t (V.it d) n a) Q X s := by
  obtain ⟨a', rfl, hv', hs', -⟩ := h.lay.arg hv hsrc
  refine Sim.wp (View.sim_uninitFillN (lim := E.maxSize) hF.tab hF.npos (hF.lt hd)) h.lay ?_
  refine h.row.uninitR (vs := List.replicate n v) (by simp [hv']) (by simp; intro _; exact hs') (by simpa using hd)
    (by simpa using hr) ?_ ?_
  · rintro s'' hrow hm b s' ⟨rfl, -⟩ rfl hl
    simp only [List.length_replicate] at hrow hm
    refine hQ s' (.of hl hrow) (fun i => ?_)
    unfold View.cell
    rw [hm]
    split
    · rw [List.getElem?_replicate, if_pos (by omega)]
    · rfl
  · rintro s'' hrow hm s' rfl hl
    exact hX s' (.of hl hrow) (fun i => by unfold View.cell; rw [hm])

theorem SRow.uninitFill {x y : Nat} {a : Arg α} {v : α} {Q : Unit → St α → Prop} (h : SRow V al tcap H s L)
    (hv : a.value s = some v) (hsrc : a.src E = none) (hxy : x ≤ y) (hy : y ≤ V.size) (hr : ∀ i, x ≤ i → i < y → ¬ L i)
    (hQ : ∀ s', SRow V al tcap H s' (fun i => L i ∨ (x ≤ i ∧ i < y)) →
      (∀ i, V.cell s' i = if x ≤ i ∧ i < y then some v else V.cell s i) → Q () s')
    (hX : ∀ s', SRow V al tcap H s' L → (∀ i, V.cell s' i = V.cell s i) → X .elem s') :
    wp (Seg.uninitFill E V.N t (V.it x) (V.it y) a) Q X s := by
  obtain ⟨a', rfl, hv', hs', -⟩ := h.lay.arg hv hsrc
  refine Sim.wp (View.sim_uninitFill (lim := E.maxSize) hF.tab hF.npos hxy (hF.lt hy)) h.lay ?_
  rw [View.uninitFill_eq _ _ _ _ hxy, wp_bind]
  refine h.row.uninitR (vs := List.replicate (y - x) v) (by simp [hv']) (by simp; intro _; exact hs') (by simp; omega)
    (by simp; intro i h1 h2; exact hr i h1 (by omega)) ?_ ?_
  · rintro s'' hrow hm
    rw [wp_pure]
    rintro b s' - rfl hl
    simp only [List.length_replicate, show x + (y - x) = y by omega] at hrow hm
    refine hQ s' (.of hl hrow) (fun i => ?_)
    unfold View.cell
    rw [hm]
    split
    · rw [List.getElem?_replicate, if_pos (by omega)]
    · rfl
  · rintro s'' hrow hm s' rfl hl
    exact hX s' (.of hl hrow) (fun i => by unfold View.cell; rw [hm])

theorem SRow.fill {x y : Nat} {v : α} {Q : Unit → St α → Prop} (h : SRow V al tcap H s L)
    (hxy : x ≤ y) (hy : y ≤ V.size) (hr : ∀ i, x ≤ i → i < y → L i)
    (hQ : ∀ s', SRow V al tcap H s' L →
      (∀ i, V.cell s' i = if x ≤ i ∧ i < y then some v else V.cell s i) → Q () s')
    (hX : ∀ s', SRow V al tcap H s' L → X .elem s') :
    wp (Seg.fill E V.N t (V.it x) (V.it y) (.val v)) Q X s := by
  refine Sim.wp (View.sim_fill (a := .val v) (lim := E.maxSize) hF.tab hF.npos hxy (hF.lt hy)) h.lay ?_
  unfold fillRange
  rw [wp_bind]
  refine wp_distance rfl hxy ?_
  dsimp only
  rw [wp_bind]
  refine h.row.assignGo (vs := List.replicate (y - x) v) (Exts.replicateVal _ _) (by simp; intro i h1 h2; exact hr i h1 (by omega)) ?_ ?_
  · rintro s'' hrow hm
    rw [wp_pure]
    rintro b s' - rfl hl
    simp only [List.length_replicate, show x + (y - x) = y by omega] at hrow hm
    refine hQ s' (.of hl hrow) (fun i => ?_)
    unfold View.cell
    rw [hm]
    split
    · rw [List.getElem?_replicate, if_pos (by omega)]
    · rfl
  · rintro s'' hrow s' rfl hl
    exact hX s' (.of hl hrow)

end ops
end SegDev
end Sfl
