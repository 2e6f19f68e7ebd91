import Verif.SegVecSim
/-
  Storage of the segmented containers: what allocating and releasing segments and tables does to the memory.
  Proof machinery: no code is modelled in this file.
-/

set_option linter.unusedSimpArgs false
set_option linter.unusedSectionVars false

namespace Sfl
open World
variable {α : Type}

theorem wp_allocate' {E : Env α} {X : Exn → St α → Prop} {s : St α} {a n : Nat} {Q : Ptr → St α → Prop} (hw : s.Wf) (hn : n ≠ 0)
    (hQ : ∀ s', s'.Wf → s'.mem = s.mem → s'.tick = s.tick + 1 → E.throws s.tick = false → s.blk s.next = none →
      (∀ c, s'.blk c = if c = s.next then some ⟨n, some a⟩ else s.blk c) → Q ⟨s.next, 0⟩ s')
    (hX : ∀ s', s'.Wf → s'.mem = s.mem → (∀ c, s'.blk c = s.blk c) → X .badAlloc s') :
    wp (allocate E a n) Q X s := by
  unfold wp allocate
  simp only [hn, if_false]
  have hf := hw.fresh _ (Nat.le_refl _)
  by_cases ht : E.throws s.tick <;> simp [ht]
  · exact hX _ ⟨hw.next_pos, hw.blk_zero, hw.fresh, hw.dead⟩ rfl (fun _ => rfl)
  · have hm : (fun b k => if b = s.next then none else s.mem b k) = s.mem := by
      funext b k
      by_cases hb : b = s.next
      · simp only [hb, if_true]; rw [hw.dead _ hf]
      · simp [hb]
    refine hQ _ ⟨Nat.succ_pos _, ?_, ?_, ?_⟩ hm rfl (by simpa using ht) hf (fun c => rfl)
    · show (if 0 = s.next then _ else _) = _
      rw [if_neg (by have := hw.next_pos; omega)]; exact hw.blk_zero
    · intro b hb
      show (if b = s.next then _ else _) = _
      have hb : s.next + 1 ≤ b := hb
      rw [if_neg (by omega)]; exact hw.fresh b (by omega)
    · intro b hb k
      show (if b = s.next then none else s.mem b k) = none
      have hb : (if b = s.next then some (⟨n, some a⟩ : Info) else s.blk b) = none := hb
      by_cases h : b = s.next
      · rw [if_pos h]
      · rw [if_neg h] at hb ⊢; exact hw.dead b hb k

theorem World.Frame.trans {m1 m2 m3 : St α} {F1 F2 F3 : Foot} (h : Frame m1 F1 m2 F2) (h' : Frame m2 F2 m3 F3) :
    Frame m1 F1 m3 F3 where
  wf := h'.wf
  keep := by
    intro c hc hb
    obtain ⟨h1, h2, h3⟩ := h.keep c hc hb
    obtain ⟨h4, h5, h6⟩ := h'.keep c h1 (by rw [h2]; exact hb)
    exact ⟨h4, by rw [h5, h2], fun k => by rw [h6, h3]⟩
  fresh := by
    intro c hc hb hn
    by_cases h2 : F2 c
    · exact h'.freed c h2 hn
    · exact h'.fresh c h2 (h.fresh c hc hb h2) hn
  freed := by
    intro c hc hn
    by_cases h2 : F2 c
    · exact h'.freed c h2 hn
    · exact h'.fresh c h2 (h.freed c hc h2) hn

namespace Seg

/-- Segments `news` have been allocated. -/
structure Ext (N al : Nat) (news : List Nat) (s s' : St α) : Prop where
  wf : s'.Wf
  mem : s'.mem = s.mem
  blk : ∀ c, s'.blk c = if c ∈ news then some ⟨N, some al⟩ else s.blk c
  fresh : ∀ c, c ∈ news → s.blk c = none
  nodup : news.Nodup

/-- The slots of the table from `i` on hold the segments `bs`. -/
def Holds (t : Table) (i : Nat) (bs : List Nat) : Prop :=
  ∀ j, j < bs.length → t.cells[i + j]? = some (some ⟨bs.getD j 0, 0⟩)

/-- The table is as before, except for the slots `i … k - 1`. -/
structure Upd (t t' : Table) (i k : Nat) : Prop where
  blk : t'.blk = t.blk
  len : t'.cells.length = t.cells.length
  out : ∀ j, j < i ∨ k ≤ j → t'.cells[j]? = t.cells[j]?

theorem Upd.refl (t : Table) (i k : Nat) : Upd t t i k := ⟨rfl, rfl, fun _ _ => rfl⟩

theorem Upd.trans {t t' t'' : Table} {i k : Nat} (h : Upd t t' i k) (h' : Upd t' t'' i k) : Upd t t'' i k :=
  ⟨h'.blk.trans h.blk, h'.len.trans h.len, fun j hj => (h'.out j hj).trans (h.out j hj)⟩

theorem Holds.nil (t : Table) (i : Nat) : Holds t i [] := fun j hj => absurd hj (Nat.not_lt_zero j)

theorem Holds.cons {t : Table} {i b : Nat} {bs : List Nat} (h : Holds t i (b :: bs)) :
    t.cells[i]? = some (some ⟨b, 0⟩) ∧ Holds t (i + 1) bs := by
  constructor
  · simpa using h 0 (by simp)
  · intro j hj
    have := h (j + 1) (by simpa using hj)
    rw [show i + (j + 1) = i + 1 + j by omega] at this
    simpa using this

theorem wp_deref {σ : Type} {t : Table} {b i : Nat} {q : Ptr} {Q : Ptr → σ → Prop} {X : Exn → σ → Prop} {s : σ}
    (hb : b = t.blk) (h : t.cells[i]? = some (some q)) (hQ : Q q s) : wp (deref t ⟨b, i⟩) Q X s := by
  unfold wp deref
  rw [if_pos hb]
  simp only [h]
  exact hQ

theorem wp_put {σ : Type} {t : Table} {b i : Nat} {q : Ptr} {Q : Table → σ → Prop} {X : Exn → σ → Prop} {s : σ}
    (hb : b = t.blk) (h : i < t.cells.length) (hQ : Q { t with cells := t.cells.set i (some q) } s) :
    wp (put t ⟨b, i⟩ q) Q X s := by
  unfold wp put
  rw [if_pos ⟨hb, h⟩]
  exact hQ

theorem wp_shift {σ : Type} {p : Ptr} {k : Int} {Q : Ptr → σ → Prop} {X : Exn → σ → Prop} {s : σ}
    (h : 0 ≤ (p.off : Int) + k) (hQ : Q ⟨p.blk, ((p.off : Int) + k).toNat⟩ s) : wp (shift p k) Q X s := by
  unfold wp shift
  rw [if_pos h]
  exact hQ

theorem wp_deallocSegsN {N al i : Nat} {bs : List Nat} {o : Obj Table α} {X : Exn → Obj Table α → Prop}
    {Q : Unit → Obj Table α → Prop} {b : Nat} (hb : b = o.obj.blk) (h : Holds o.obj i bs) (hd : bs.Nodup) (hw : o.m.Wf)
    (hblk : ∀ c, c ∈ bs → o.m.blk c = some ⟨N, some al⟩) (hraw : ∀ c, c ∈ bs → ∀ k, o.m.mem c k = none)
    (hQ : ∀ m', m'.Wf → m'.mem = o.m.mem → m'.tick = o.m.tick → (∀ c, m'.blk c = if c ∈ bs then none else o.m.blk c) → Q () ⟨o.obj, m'⟩) :
    wp (deallocSegsN N al bs.length ⟨b, i⟩) Q X o := by
  induction bs generalizing i o with
  | nil => exact hQ o.m hw rfl rfl (fun c => by simp)
  | cons x bs ih =>
    simp only [List.length_cons, deallocSegsN, wp_bind, wp_getObj, wp_lift]
    obtain ⟨h1, h2⟩ := h.cons
    refine wp_deref hb h1 ?_
    have hx := hblk x (by simp)
    have hx0 : x ≠ 0 := by rintro rfl; rw [hw.blk_zero] at hx; cases hx
    refine wp_deallocate (by simp [Ptr.null, hx0]) hx rfl (fun k _ => hraw x (by simp) k) ?_
    intro s' hm hn ht hk
    have hw' : s'.Wf := by
      refine ⟨by rw [hn]; exact hw.next_pos, ?_, ?_, ?_⟩
      · rw [hk]; split
        · rfl
        · exact hw.blk_zero
      · intro c hc; rw [hk]; split
        · rfl
        · exact hw.fresh c (by rw [hn] at hc; exact hc)
      · intro c hc k
        rw [hm]
        rw [hk] at hc
        by_cases e : c = x
        · subst e; exact hraw c (by simp) k
        · rw [if_neg e] at hc; exact hw.dead c hc k
    have hd' := List.nodup_cons.mp hd
    refine ih (o := ⟨o.obj, s'⟩) hb h2 hd'.2 hw' ?_ ?_ ?_
    · intro c hc
      show s'.blk c = _
      rw [hk, if_neg (by rintro rfl; exact hd'.1 hc)]
      exact hblk c (by simp [hc])
    · intro c hc k
      show s'.mem c k = _
      rw [hm]; exact hraw c (by simp [hc]) k
    · intro m' hw2 hm2 ht2 hk2
      refine hQ m' hw2 (hm2.trans hm) (ht2.trans ht) ?_
      intro c
      rw [hk2]
      show (if c ∈ bs then none else s'.blk c) = _
      rw [hk]
      by_cases e : c = x <;> by_cases e2 : c ∈ bs <;> simp [e, e2]

theorem wp_deallocSegs {N al i k : Nat} {bs : List Nat} {o : Obj Table α} {X : Exn → Obj Table α → Prop}
    {Q : Unit → Obj Table α → Prop} {b : Nat} (hb : b = o.obj.blk) (hk : k = i + bs.length) (h : Holds o.obj i bs) (hd : bs.Nodup)
    (hw : o.m.Wf) (hblk : ∀ c, c ∈ bs → o.m.blk c = some ⟨N, some al⟩) (hraw : ∀ c, c ∈ bs → ∀ k, o.m.mem c k = none)
    (hQ : ∀ m', m'.Wf → m'.mem = o.m.mem → m'.tick = o.m.tick → (∀ c, m'.blk c = if c ∈ bs then none else o.m.blk c) → Q () ⟨o.obj, m'⟩) :
    wp (deallocSegs N al ⟨b, i⟩ ⟨b, k⟩) Q X o := by
  unfold deallocSegs
  rw [wp_bind]
  refine wp_distance rfl (by simp; omega) ?_
  have e : (⟨b, k⟩ : Ptr).off - (⟨b, i⟩ : Ptr).off = bs.length := by show k - i = _; omega
  rw [e]
  exact wp_deallocSegsN hb h hd hw hblk hraw hQ

theorem Holds.snoc {t : Table} {i b : Nat} {bs : List Nat} (h : Holds t i bs) (hl : i + bs.length < t.cells.length) :
    Holds { t with cells := t.cells.set (i + bs.length) (some ⟨b, 0⟩) } i (bs ++ [b]) := by
  intro j hj
  simp only [List.length_append, List.length_singleton] at hj
  by_cases e : j = bs.length
  · subst e
    simp [List.getD_eq_getElem?_getD, hl]
  · have := h j (by omega)
    simp only [List.getD_eq_getElem?_getD] at this ⊢
    rw [List.getElem?_append_left (by omega), ← this]
    rw [List.getElem?_set_ne (by omega)]

/-- `allocate_segments`, some segments being there already. -/
theorem wp_allocSegsGo {E : Env α} {N al i n : Nat} {olds : List Nat} {t0 : Table} {s0 : St α} {o : Obj Table α} {b : Nat}
    {Q : Unit → Obj Table α → Prop} {X : Exn → Obj Table α → Prop} (hN : 0 < N) (hb : b = t0.blk)
    (hl : i + olds.length + n ≤ t0.cells.length) (hx : Ext N al olds s0 o.m) (hw0 : s0.Wf) (hh : Holds o.obj i olds)
    (hu : Upd t0 o.obj i (i + olds.length + n)) (ht : olds ≠ [] → 0 < o.m.tick ∧ E.throws (o.m.tick - 1) = false)
    (hQ : ∀ news t' s', news.length = olds.length + n → Ext N al news s0 s' → Holds t' i news → Upd t0 t' i (i + olds.length + n) →
      (news ≠ [] → 0 < s'.tick ∧ E.throws (s'.tick - 1) = false) → Q () ⟨t', s'⟩)
    (hX : ∀ t' s', Ext N al [] s0 s' → Upd t0 t' i (i + olds.length + n) → X .badAlloc ⟨t', s'⟩) :
    wp (allocSegs E N al ⟨b, i⟩ n ⟨b, i + olds.length⟩) Q X o := by
  induction n generalizing olds o with
  | zero => exact hQ olds o.obj o.m (by omega) hx hh hu ht
  | succ n ih =>
    unfold allocSegs
    rw [wp_bind, wp_tryCatch, wp_lift]
    refine wp_allocate' hx.wf (by omega) ?_ ?_
    · intro s' hw hm htk hth hnb hk
      have hb' : b = o.obj.blk := by rw [hu.blk]; exact hb
      have hlen : i + olds.length < o.obj.cells.length := by rw [hu.len]; omega
      rw [wp_bind, wp_getObj, wp_bind]
      refine wp_put hb' hlen ?_
      rw [wp_bind, wp_setObj]
      have e : (⟨b, i + olds.length⟩ : Ptr).add 1 = ⟨b, i + (olds ++ [o.m.next]).length⟩ := by
        simp [Ptr.add]; omega
      rw [e]
      have hn : o.m.next ∉ olds := by
        intro hc
        have := hx.blk o.m.next
        rw [if_pos hc, hnb] at this; cases this
      have hn0 : s0.blk o.m.next = none := by
        have := hx.blk o.m.next
        rw [if_neg hn, hnb] at this; exact this.symm
      refine ih (olds := olds ++ [o.m.next]) (by simp; omega) ?_ (hh.snoc hlen) ?_ ?_ ?_ ?_
      · refine ⟨hw, hm.trans hx.mem, ?_, ?_, ?_⟩
        · intro c
          rw [hk, hx.blk]
          by_cases e : c = o.m.next
          · simp [e]
          · simp [e]
        · intro c hc
          simp only [List.mem_append, List.mem_singleton] at hc
          rcases hc with hc | rfl
          · exact hx.fresh c hc
          · exact hn0
        · exact List.nodup_append.mpr ⟨hx.nodup, by simp, by intro x hx' y hy; simp at hy; subst hy; rintro rfl; exact hn hx'⟩
      · refine ⟨hu.blk, by simp [hu.len], ?_⟩
        intro j hj
        simp only [List.length_append, List.length_singleton] at hj
        rw [List.getElem?_set_ne (by omega)]
        exact hu.out j (by omega)
      · intro _
        show 0 < s'.tick ∧ _
        rw [htk]
        exact ⟨by omega, by simpa using hth⟩
      · intro news t' s'' h1 h2 h3 h4 h5
        refine hQ news t' s'' (by simp at h1; omega) h2 h3 ?_ h5
        simpa [Nat.add_assoc, Nat.add_comm 1] using h4
      · intro t' s'' h2 h4
        refine hX t' s'' h2 ?_
        simpa [Nat.add_assoc, Nat.add_comm 1] using h4
    · intro s' hw hm hk
      rw [wp_bind]
      refine wp_deallocSegs (o := ⟨o.obj, s'⟩) (by rw [hu.blk]; exact hb) rfl hh hx.nodup hw ?_ ?_ ?_
      · intro c hc; show s'.blk c = _; rw [hk, hx.blk, if_pos hc]
      · intro c hc k; show s'.mem c k = _; rw [hm, hx.mem]; exact hw0.dead c (hx.fresh c hc) k
      · intro m' hw' hm' _ hk'
        rw [wp_throw]
        refine hX _ _ ⟨hw', hm'.trans (hm.trans hx.mem), ?_, by simp, by simp⟩ hu
        intro c
        rw [hk']
        show (if c ∈ olds then none else s'.blk c) = _
        rw [hk, hx.blk]
        by_cases hc : c ∈ olds
        · simp [hc, hx.fresh c hc]
        · simp [hc]

/-- `allocate_segments`: all or nothing. -/
theorem wp_allocSegs {E : Env α} {N al i n : Nat} {o : Obj Table α} {b : Nat}
    {Q : Unit → Obj Table α → Prop} {X : Exn → Obj Table α → Prop} (hN : 0 < N) (hb : b = o.obj.blk)
    (hl : i + n ≤ o.obj.cells.length) (hw : o.m.Wf)
    (hQ : ∀ news t' s', news.length = n → Ext N al news o.m s' → Holds t' i news → Upd o.obj t' i (i + n) →
      (news ≠ [] → 0 < s'.tick ∧ E.throws (s'.tick - 1) = false) → Q () ⟨t', s'⟩)
    (hX : ∀ t' s', Ext N al [] o.m s' → Upd o.obj t' i (i + n) → X .badAlloc ⟨t', s'⟩) :
    wp (allocSegs E N al ⟨b, i⟩ n ⟨b, i⟩) Q X o := by
  have := wp_allocSegsGo (E := E) (N := N) (al := al) (i := i) (n := n) (olds := []) (t0 := o.obj) (s0 := o.m) (o := o) (b := b)
    (Q := Q) (X := X) hN hb (by simpa using hl) ⟨hw, rfl, by simp, by simp, by simp⟩ hw (Holds.nil _ _) (Upd.refl _ _ _)
    (by simp) (by simpa using hQ) (by simpa using hX)
  simpa using this

/-- `deallocate_table`. -/
theorem wp_deallocTable {al n : Nat} {o : Obj Table α} {b : Nat} {Q : Unit → Obj Table α → Prop} {X : Exn → Obj Table α → Prop}
    (hw : o.m.Wf) (hblk : o.m.blk b = some ⟨n, some al⟩) (hraw : ∀ k, o.m.mem b k = none)
    (hQ : ∀ m', m'.Wf → m'.mem = o.m.mem → m'.tick = o.m.tick → (∀ c, m'.blk c = if c = b then none else o.m.blk c) →
      Q () ⟨noTable, m'⟩) :
    wp (deallocTable al ⟨b, 0⟩ n) Q X o := by
  unfold deallocTable
  rw [wp_bind, wp_lift]
  have hb : b ≠ 0 := by rintro rfl; rw [hw.blk_zero] at hblk; cases hblk
  refine wp_deallocate (by simp [Ptr.null, hb]) hblk rfl (fun k _ => hraw k) ?_
  intro s' hm hn ht hk
  rw [wp_setObj]
  refine hQ s' ⟨by rw [hn]; exact hw.next_pos, ?_, ?_, ?_⟩ hm ht hk
  · rw [hk, if_neg (Ne.symm hb)]; exact hw.blk_zero
  · intro c hc; rw [hk]; split
    · rfl
    · exact hw.fresh c (by rw [hn] at hc; exact hc)
  · intro c hc k
    rw [hm]
    rw [hk] at hc
    by_cases e : c = b
    · subst e; exact hraw k
    · rw [if_neg e] at hc; exact hw.dead c hc k

/-- Copying slots of a table into another one. -/
theorem wp_copyTable {σ : Type} {t t' : Table} {b b' i i' : Nat} {bs : List Nat} {s : σ} {Q : Table → σ → Prop} {X : Exn → σ → Prop}
    (hb : b = t.blk) (hb' : b' = t'.blk) (h : Holds t i bs) (hl : i' + bs.length ≤ t'.cells.length)
    (hQ : ∀ t'', Holds t'' i' bs → Upd t' t'' i' (i' + bs.length) → Q t'' s) :
    wp (copyTable t bs.length ⟨b, i⟩ t' ⟨b', i'⟩) Q X s := by
  induction bs generalizing t' i i' with
  | nil => exact hQ t' (Holds.nil _ _) (Upd.refl _ _ _)
  | cons x bs ih =>
    simp only [List.length_cons, copyTable, wp_bind] at hl ⊢
    obtain ⟨h1, h2⟩ := h.cons
    refine wp_deref hb h1 (wp_put hb' (by omega) ?_)
    refine ih (t' := { t' with cells := t'.cells.set i' (some ⟨x, 0⟩) }) (i' := i' + 1) hb' h2 (by simp; omega) ?_
    intro t'' h3 h4
    refine hQ t'' ?_ ⟨h4.blk, by simpa using h4.len, ?_⟩
    · intro j hj
      cases j with
      | zero =>
        rw [h4.out _ (by omega)]
        simp [show i' < t'.cells.length by omega]
      | succ j =>
        have := h3 j (by simpa using hj)
        rw [show i' + (j + 1) = i' + 1 + j by omega]
        simpa using this
    · intro j hj
      simp only [List.length_cons] at hj
      rw [h4.out j (by omega)]
      simp only
      rw [List.getElem?_set_ne (by omega)]

end Seg
end Sfl
