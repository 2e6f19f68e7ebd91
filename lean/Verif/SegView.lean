import Verif.Seg
import Verif.Store
/-
  The slots of a segmented container seen as one contiguous block.

  `View` describes the segments of a container. `View.view` turns the memory into one where the segments are replaced by a
  single block (with the number of the table's block); `Sim m m'` says that running `m` is running `m'` on that memory.
  Everything here is proof machinery: no code is modelled in this file.
-/

namespace Sfl
variable {α : Type}

/-- A table at block `tb` whose slots `base, base + 1, …` hold the addresses of the segments `segs` of `N` slots each. -/
structure View where
  tb : Nat
  base : Nat
  segs : List Nat
  N : Nat

namespace View

/-- Number of slots of all segments. -/
def cap (V : View) : Nat := V.segs.length * V.N

/-- Number of slots used: the last one never holds an element, so that `end()` is in a segment. -/
def size (V : View) : Nat := V.cap - 1

/-- Block of the `i`-th segment. -/
def sg (V : View) (i : Nat) : Nat := V.segs.getD i 0

/-- Slot `p`: it is in segment `p / N`. -/
def addr (V : View) (p : Nat) : Ptr := ⟨V.sg (p / V.N), p % V.N⟩

/-- The iterator designating slot `p`. -/
def it (V : View) (p : Nat) : SIt := ⟨⟨V.tb, V.base + p / V.N⟩, V.addr p⟩

/-- The contents of the table. -/
structure Tab (V : View) (t : Table) : Prop where
  blk : t.blk = V.tb
  cells : ∀ i, i < V.segs.length → t.cells[V.base + i]? = some (some ⟨V.sg i, 0⟩)

/-- From an address in the contiguous block to the real address. -/
def map (V : View) (p : Ptr) : Ptr := if p.blk = V.tb then V.addr p.off else p

/-- Addresses of the contiguous memory. -/
def Valid (V : View) (p : Ptr) : Prop := (p.blk = V.tb ∧ p.off < V.size) ∨ (p.blk ≠ V.tb ∧ p.blk ∉ V.segs)

/-- The contiguous memory. -/
def view (V : View) (s : St α) : St α where
  mem := fun b k => if b = V.tb then (if k < V.size then s.mem (V.addr k).blk (V.addr k).off else none)
    else if b ∈ V.segs then none else s.mem b k
  blk := fun b => if b = V.tb then some ⟨V.size, none⟩ else if b ∈ V.segs then none else s.blk b
  next := s.next
  tick := s.tick

/-- The memory has the shape described by `V`. -/
structure Lay (V : View) (al tcap : Nat) (s : St α) : Prop where
  wf : s.Wf
  npos : 0 < V.N
  len : 0 < V.segs.length
  nodup : V.segs.Nodup
  notin : V.tb ∉ V.segs
  tbk : s.blk V.tb = some ⟨tcap, some al⟩
  traw : ∀ i, s.mem V.tb i = none
  sblk : ∀ b, b ∈ V.segs → s.blk b = some ⟨V.N, some al⟩
  beyond : ∀ b, b ∈ V.segs → ∀ i, V.N ≤ i → s.mem b i = none
  hidden : s.mem (V.addr V.size).blk (V.addr V.size).off = none

end View

/-- Same argument, other addresses. -/
def Arg.map (f : Ptr → Ptr) : Arg α → Arg α
  | .val v => .val v
  | .rv v => .rv v
  | .ref p => .ref (f p)
  | .mv p => .mv (f p)
  | .mvIf p => .mvIf (f p)

@[simp] theorem Arg.map_src (f : Ptr → Ptr) (E : Env α) (a : Arg α) : (a.map f).src E = (a.src E).map f := by
  cases a <;> simp [Arg.map, Arg.src]

@[simp] theorem Arg.map_isRv (f : Ptr → Ptr) (a : Arg α) : (a.map f).isRv = a.isRv := by cases a <;> rfl

theorem Nat.div_mod_unique {N a b : Nat} (h1 : a / N = b / N) (h2 : a % N = b % N) : a = b := by
  rw [← Nat.div_add_mod a N, ← Nat.div_add_mod b N, h1, h2]

namespace View
variable {V : View} {al tcap : Nat} {s : St α}

theorem Lay.cap_pos (h : Lay V al tcap s) : 0 < V.cap := Nat.mul_pos h.len h.npos

theorem Lay.size_lt (h : Lay V al tcap s) : V.size < V.cap := by have := h.cap_pos; unfold View.size; omega

theorem size_le (V : View) : V.size ≤ V.cap := by unfold View.size; omega

theorem div_lt (_hN : 0 < V.N) {p : Nat} (hp : p < V.cap) : p / V.N < V.segs.length :=
  Nat.div_lt_of_lt_mul (by rw [Nat.mul_comm]; exact hp)

theorem sg_eq {i : Nat} (hi : i < V.segs.length) : V.sg i = V.segs[i] := by
  simp [View.sg, List.getD_eq_getElem?_getD, hi]

theorem sg_mem {i : Nat} (hi : i < V.segs.length) : V.sg i ∈ V.segs := by
  rw [sg_eq hi]
  exact List.getElem_mem hi

theorem sg_inj (hd : V.segs.Nodup) {i j : Nat} (hi : i < V.segs.length) (hj : j < V.segs.length)
    (h : V.sg i = V.sg j) : i = j := by
  rw [sg_eq hi, sg_eq hj] at h
  exact (List.getElem_inj hd).mp h

theorem addr_inj (hd : V.segs.Nodup) (hN : 0 < V.N) {p q : Nat} (hp : p < V.cap) (hq : q < V.cap)
    (h : V.addr p = V.addr q) : p = q := by
  unfold View.addr at h
  injection h with h1 h2
  exact Nat.div_mod_unique (sg_inj hd (div_lt hN hp) (div_lt hN hq) h1) h2

theorem addr_mem (hN : 0 < V.N) {p : Nat} (hp : p < V.cap) : (V.addr p).blk ∈ V.segs := sg_mem (div_lt hN hp)

/-- Within a segment slots are adjacent. -/
theorem addr_add {p k : Nat} (hN : 0 < V.N) (h : p % V.N + k < V.N) : (V.addr p).add k = V.addr (p + k) := by
  have e : p + k = p % V.N + k + V.N * (p / V.N) := by have := Nat.div_add_mod p V.N; omega
  have h1 : (p + k) / V.N = p / V.N := by
    rw [e, Nat.add_mul_div_left _ _ hN, Nat.div_eq_of_lt h, Nat.zero_add]
  have h2 : (p + k) % V.N = p % V.N + k := by
    rw [e, Nat.add_mul_mod_self_left, Nat.mod_eq_of_lt h]
  unfold View.addr Ptr.add
  rw [h1, h2]

theorem addr_mul {i : Nat} (hN : 0 < V.N) : V.addr (i * V.N) = ⟨V.sg i, 0⟩ := by
  unfold View.addr
  rw [Nat.mul_div_cancel _ hN, Nat.mul_mod_left]

theorem map_tb (V : View) (p : Nat) : V.map ⟨V.tb, p⟩ = V.addr p := by simp [View.map]

theorem Lay.map_inj (h : Lay V al tcap s) {p q : Ptr} (hp : V.Valid p) (hq : V.Valid q) (he : V.map p = V.map q) :
    p = q := by
  have hs := h.size_lt
  unfold View.map at he
  rcases hp with ⟨h1, h2⟩ | ⟨h1, h2⟩ <;> rcases hq with ⟨h3, h4⟩ | ⟨h3, h4⟩
  · rw [if_pos h1, if_pos h3] at he
    have := addr_inj h.nodup h.npos (by omega) (by omega) he
    cases p; cases q; simp_all
  · rw [if_pos h1, if_neg h3] at he
    exact absurd (he ▸ addr_mem h.npos (p := p.off) (by omega)) h4
  · rw [if_neg h1, if_pos h3] at he
    exact absurd (he ▸ addr_mem h.npos (p := q.off) (by omega)) h2
  · rwa [if_neg h1, if_neg h3] at he

theorem view_mem {p : Ptr} (hp : V.Valid p) : (V.view s).mem p.blk p.off = s.mem (V.map p).blk (V.map p).off := by
  unfold View.view View.map
  rcases hp with ⟨h1, h2⟩ | ⟨h1, h2⟩
  · simp [h1, h2]
  · simp [h1, h2]

theorem valid_of_mem {p : Ptr} {v : α} (h : (V.view s).mem p.blk p.off = some v) : V.Valid p := by
  unfold View.view at h
  simp only at h
  split at h
  · split at h
    · left; exact ⟨‹_›, ‹_›⟩
    · cases h
  · split at h
    · cases h
    · right; exact ⟨‹_›, ‹_›⟩

theorem valid_of_inB {p : Ptr} (h : (V.view s).inB p = true) : V.Valid p := by
  unfold View.view St.inB at h
  simp only at h
  by_cases h1 : p.blk = V.tb
  · rw [if_pos h1] at h; left; exact ⟨h1, by simpa using h⟩
  · rw [if_neg h1] at h
    by_cases h2 : p.blk ∈ V.segs
    · rw [if_pos h2] at h; cases h
    · right; exact ⟨h1, h2⟩

theorem Lay.inB (h : Lay V al tcap s) {p : Ptr} (hi : (V.view s).inB p = true) : s.inB (V.map p) = true := by
  have hp := valid_of_inB hi
  have hs := h.size_lt
  rcases hp with ⟨h1, h2⟩ | ⟨h1, h2⟩
  · unfold View.map; rw [if_pos h1]
    exact St.inB_of (h.sblk _ (addr_mem h.npos (by omega))) (Nat.mod_lt _ h.npos)
  · unfold View.view St.inB at hi
    unfold View.map; rw [if_neg h1]
    simpa [h1, h2, St.inB] using hi

/-- Writing a slot. -/
theorem Lay.view_put (h : Lay V al tcap s) {p : Ptr} (hp : V.Valid p) (c : Option α) :
    V.view (s.put (V.map p) c) = (V.view s).put p c := by
  have hs := h.size_lt
  have e : ∀ b k, (V.view (s.put (V.map p) c)).mem b k = ((V.view s).put p c).mem b k := by
    intro b k
    by_cases hv : V.Valid ⟨b, k⟩
    · have e1 := view_mem (s := s.put (V.map p) c) hv
      have e2 := view_mem (s := s) hv
      simp only at e1 e2
      rw [e1, put_mem, put_mem, e2]
      by_cases he : b = p.blk ∧ k = p.off
      · rw [if_pos he, if_pos]
        obtain ⟨rfl, rfl⟩ := he
        exact ⟨rfl, rfl⟩
      · rw [if_neg he, if_neg]
        intro ⟨h1, h2⟩
        have h3 : V.map ⟨b, k⟩ = V.map p := by
          cases hq : V.map ⟨b, k⟩; cases hq' : V.map p; simp_all
        have h4 := h.map_inj hv hp h3
        exact he (by rw [← h4]; exact ⟨rfl, rfl⟩)
    · have n1 : ∀ s : St α, (V.view s).mem b k = none := by
        intro s
        cases hm : (V.view s).mem b k with
        | none => rfl
        | some v => exact absurd (valid_of_mem (p := ⟨b, k⟩) hm) hv
      rw [n1, put_mem, n1, if_neg]
      rintro ⟨rfl, rfl⟩
      exact hv hp
  unfold View.view St.put at *
  congr 1
  funext b k
  exact e b k

theorem view_bump : V.view s.bump = (V.view s).bump := rfl

theorem Lay.bump (h : Lay V al tcap s) : Lay V al tcap s.bump :=
  { wf := ⟨h.wf.next_pos, h.wf.blk_zero, h.wf.fresh, h.wf.dead⟩, npos := h.npos, len := h.len, nodup := h.nodup, notin := h.notin,
    tbk := h.tbk, traw := h.traw, sblk := h.sblk, beyond := h.beyond, hidden := h.hidden }

/-- A live slot is in a block. -/
theorem Lay.put (h : Lay V al tcap s) {p : Ptr} (hp : V.Valid p) (c : Option α) (hb : s.inB (V.map p) = true ∨ c = none) :
    Lay V al tcap (s.put (V.map p) c) := by
  have hs := h.size_lt
  have key : (V.map p).blk ≠ V.tb := by
    unfold View.map
    rcases hp with ⟨h1, h2⟩ | ⟨h1, h2⟩
    · rw [if_pos h1]; exact fun e => h.notin (e ▸ addr_mem h.npos (by omega))
    · rw [if_neg h1]; exact h1
  have key2 : (V.map p).blk ∈ V.segs → (V.map p).off < V.N ∧ V.map p ≠ V.addr V.size := by
    unfold View.map
    rcases hp with ⟨h1, h2⟩ | ⟨h1, h2⟩
    · rw [if_pos h1]; intro _
      refine ⟨Nat.mod_lt _ h.npos, fun e => ?_⟩
      have := addr_inj h.nodup h.npos (by omega) (by omega) e
      omega
    · rw [if_neg h1]; exact fun e => absurd e h2
  refine { wf := ⟨h.wf.next_pos, h.wf.blk_zero, h.wf.fresh, ?_⟩, npos := h.npos, len := h.len, nodup := h.nodup,
           notin := h.notin, tbk := h.tbk, traw := ?_, sblk := h.sblk, beyond := ?_, hidden := ?_ }
  · intro b hb' k
    rw [put_mem]
    split
    · rename_i he
      rcases hb with h1 | h1
      · unfold St.inB at h1
        rw [← he.1] at h1
        rw [put_blk] at hb'
        rw [hb'] at h1; cases h1
      · exact h1
    · exact h.wf.dead b hb' k
  · intro i; rw [put_mem, if_neg (fun e => key e.1.symm)]; exact h.traw i
  · intro b hb i hi
    rw [put_mem, if_neg]
    · exact h.beyond b hb i hi
    · rintro ⟨rfl, rfl⟩
      have := (key2 hb).1; omega
  · rw [put_mem, if_neg]
    · exact h.hidden
    · intro ⟨h1, h2⟩
      have := (key2 (h1 ▸ addr_mem h.npos (by omega))).2
      exact this (by cases hq : V.map p; cases hq' : V.addr V.size; simp_all)

theorem value_view {a : Arg α} {v : α} (h : a.value (V.view s) = some v) : (a.map V.map).value s = some v := by
  cases a with
  | val w => exact h
  | rv w => exact h
  | ref p => exact (view_mem (valid_of_mem h)).symm.trans h
  | mv p => exact (view_mem (valid_of_mem h)).symm.trans h
  | mvIf p => exact (view_mem (valid_of_mem h)).symm.trans h

theorem src_mem {a : Arg α} {E : Env α} {q : Ptr} {v : α} (h : a.value (V.view s) = some v) (hs : a.src E = some q) :
    (V.view s).mem q.blk q.off = some v := by
  cases a with
  | val w => cases hs
  | rv w => cases hs
  | ref p => cases hs
  | mv p => cases hs; exact h
  | mvIf p =>
    simp only [Arg.src] at hs
    split at hs
    · cases hs; exact h
    · cases hs

theorem Lay.wf_inB (h : s.Wf) {p : Ptr} {v : α} (hm : s.mem p.blk p.off = some v) : ∃ i, s.blk p.blk = some i := by
  cases hb : s.blk p.blk with
  | none => rw [h.dead _ hb] at hm; cases hm
  | some i => exact ⟨i, rfl⟩

/-- A live slot: writing keeps the shape (the new contents are in an existing block). -/
theorem Lay.put_live (h : Lay V al tcap s) {p : Ptr} {v : α} (hm : (V.view s).mem p.blk p.off = some v) (c : Option α) :
    Lay V al tcap (s.put (V.map p) c) := by
  have hp := valid_of_mem hm
  rw [view_mem hp] at hm
  obtain ⟨i, hi⟩ := Lay.wf_inB h.wf hm
  have hs := h.size_lt
  -- as `Lay.put`, but the slot need not be inside the nominal size of a foreign block
  cases c with
  | none => exact h.put hp none (Or.inr rfl)
  | some w =>
    have h0 := h.put hp none (Or.inr rfl)
    refine { wf := ⟨h.wf.next_pos, h.wf.blk_zero, h.wf.fresh, ?_⟩, npos := h.npos, len := h.len, nodup := h.nodup,
             notin := h.notin, tbk := h.tbk, traw := ?_, sblk := h.sblk, beyond := ?_, hidden := ?_ }
    · intro b hb' k
      rw [put_mem, if_neg]
      · exact h.wf.dead b hb' k
      · rintro ⟨rfl, rfl⟩
        rw [put_blk] at hb'
        rw [hb'] at hi; cases hi
    · intro k
      rw [put_mem, if_neg]
      · exact h.traw k
      · rintro ⟨e1, e2⟩
        rw [← e1, h.traw] at hm; cases hm
    · intro b hb k hk
      rw [put_mem, if_neg]
      · exact h.beyond b hb k hk
      · rintro ⟨rfl, rfl⟩
        rw [h.beyond _ hb _ hk] at hm; cases hm
    · rw [put_mem, if_neg]
      · exact h.hidden
      · rintro ⟨e1, e2⟩
        rw [← e1, ← e2, h.hidden] at hm; cases hm

end View
end Sfl
