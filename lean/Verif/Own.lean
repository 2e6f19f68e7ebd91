import Verif.SVImpl
import Verif.Two
/-
  Several containers in one memory: local ownership predicates and how operations on one or two of the
  containers affect them.
-/

set_option linter.unusedSimpArgs false

namespace Sfl
open Sfl.Vector (VM)
variable {α : Type} {E : Env α} {H : Heap α} {N : Nat}

section wp
variable {V W β : Type} {o : Obj (V × W) α} {p : M (Obj V α) β} {q : M (Obj W α) β} {Q : β → Obj (V × W) α → Prop}
  {X : Exn → Obj (V × W) α → Prop}

theorem wp_onThis : wp (onThis p) Q X o =
    wp p (fun r o' => Q r ⟨(o'.obj, o.obj.2), o'.m⟩) (fun e o' => X e ⟨(o'.obj, o.obj.2), o'.m⟩) ⟨o.obj.1, o.m⟩ := by
  unfold wp onThis
  cases p ⟨o.obj.1, o.m⟩ <;> rfl

theorem wp_onOther : wp (onOther q) Q X o =
    wp q (fun r o' => Q r ⟨(o.obj.1, o'.obj), o'.m⟩) (fun e o' => X e ⟨(o.obj.1, o'.obj), o'.m⟩) ⟨o.obj.2, o.m⟩ := by
  unfold wp onOther
  cases q ⟨o.obj.2, o.m⟩ <;> rfl
end wp

/-- The container with data members `v` holds `xs` in block `b` of `cap` slots in memory `m`: as `VSt`, but only
about the container's own blocks. -/
structure Own (E : Env α) (ib N : Nat) (m : St α) (v : Vec) (al b cap : Nat) (xs : List α) : Prop where
  obj : v = ⟨⟨b, 0⟩, ⟨b, xs.length⟩, ⟨b, cap⟩, al⟩
  ibk : (ib = 0 ∧ N = 0) ∨ m.blk ib = some ⟨N, none⟩
  own : (b = ib ∧ cap = N) ∨ (b = 0 ∧ cap = 0) ∨
    (N < cap ∧ b ≠ 0 ∧ b ≠ ib ∧ m.blk b = some ⟨cap, some al⟩)
  iraw : b ≠ ib → ∀ i, m.mem ib i = none
  len : xs.length ≤ cap
  cells : ∀ i, m.mem b i = xs[i]?
  capLe : cap ≤ E.maxSize
  nLe : N ≤ E.maxSize

/-- Outside the blocks `F` the memory `m` is `H`, and `H` knows nothing of the blocks `F`. -/
structure Rest (H : Heap α) (m : St α) (F : Nat → Prop) : Prop where
  mem : ∀ c, ¬ F c → ∀ i, m.mem c i = H.mem c i
  blk : ∀ c, ¬ F c → m.blk c = H.blk c
  hmem : ∀ c, F c → ∀ i, H.mem c i = none
  hblk : ∀ c, F c → H.blk c = none

open Classical in
/-- The memory `m` without the blocks `F`. -/
noncomputable def Heap.out (m : St α) (F : Nat → Prop) : Heap α where
  mem := fun c i => if F c then none else m.mem c i
  blk := fun c => if F c then none else m.blk c

theorem Rest.out (m : St α) (F : Nat → Prop) : Rest (Heap.out m F) m F := by
  constructor <;> intro c hc <;> simp [Heap.out, hc]

variable {m m' : St α} {v : Vec} {al b cap ib : Nat} {xs : List α}

theorem VSt.toOwn {o : Obj Vec α} (h : VSt H E ib N o al b cap xs) : Own E ib N o.m o.obj al b cap xs :=
  ⟨h.obj, h.st.ibk, h.st.own, h.st.iraw, h.len, h.cells, h.capLe, h.nLe⟩

theorem VSt.rest {o : Obj Vec α} (h : VSt H E ib N o al b cap xs) : Rest H o.m (fun c => c = b ∨ c = ib) where
  mem := fun c hc i => h.st.fmem c (fun h => hc (Or.inl h)) (fun h => hc (Or.inr h)) i
  blk := fun c hc => h.st.fblk c (fun h => hc (Or.inl h)) (fun h => hc (Or.inr h))
  hmem := fun _ hc i => hc.elim (fun e => e ▸ h.st.hmem i) (fun e => e ▸ h.st.himem i)
  hblk := fun _ hc => hc.elim (fun e => e ▸ h.st.hblk) (fun e => e ▸ h.st.hiblk)

theorem Own.store (h : Own E ib N m v al b cap xs) (hw : m.Wf) (hr : Rest H m (fun c => c = b ∨ c = ib)) :
    Store H m al ib N b cap where
  wf := hw
  ibk := h.ibk
  own := h.own
  iraw := h.iraw
  beyond := fun i hi => by rw [h.cells]; simp; have := h.len; omega
  fmem := fun c h1 h2 i => hr.mem c (by simp [h1, h2]) i
  fblk := fun c h1 h2 => hr.blk c (by simp [h1, h2])
  hmem := fun i => hr.hmem b (Or.inl rfl) i
  hblk := hr.hblk b (Or.inl rfl)
  himem := fun i => hr.hmem ib (Or.inr rfl) i
  hiblk := hr.hblk ib (Or.inr rfl)

theorem Own.vst (h : Own E ib N m v al b cap xs) (hw : m.Wf) (hr : Rest H m (fun c => c = b ∨ c = ib)) :
    VSt H E ib N ⟨v, m⟩ al b cap xs :=
  ⟨h.obj, h.store hw hr, h.len, h.cells, h.capLe, h.nLe⟩

/-- Ownership only depends on the container's own blocks. -/
theorem Own.frame (h : Own E ib N m v al b cap xs) (hb : m'.blk b = m.blk b) (hib : m'.blk ib = m.blk ib)
    (mb : ∀ i, m'.mem b i = m.mem b i) (mib : ∀ i, m'.mem ib i = m.mem ib i) : Own E ib N m' v al b cap xs :=
  ⟨h.obj, by rw [hib]; exact h.ibk, by rw [hb]; exact h.own, fun hn i => by rw [mib]; exact h.iraw hn i, h.len,
    fun i => by rw [mb]; exact h.cells i, h.capLe, h.nLe⟩

/-- Same storage, other elements. -/
theorem Own.cells' {ys : List α} (h : Own E ib N m v al b cap xs) (hb : m'.blk b = m.blk b) (hib : m'.blk ib = m.blk ib)
    (mb : ∀ i, m'.mem b i = ys[i]?) (hl : ys.length = xs.length) (mib : b ≠ ib → ∀ i, m'.mem ib i = m.mem ib i) :
    Own E ib N m' v al b cap ys :=
  ⟨by rw [h.obj, hl], by rw [hib]; exact h.ibk, by rw [hb]; exact h.own, fun hn i => by rw [mib hn]; exact h.iraw hn i,
    by rw [hl]; exact h.len, mb, h.capLe, h.nLe⟩

theorem Own.ib_some (h : Own E ib N m v al b cap xs) (h0 : ib ≠ 0) : m.blk ib = some ⟨N, none⟩ := by
  rcases h.ibk with ⟨h1, _⟩ | h1
  · exact absurd h1 h0
  · exact h1

theorem Own.b_some (h : Own E ib N m v al b cap xs) (h0 : b ≠ 0) : ∃ i, m.blk b = some i := by
  rcases h.own with ⟨h1, _⟩ | ⟨h1, _⟩ | ⟨_, _, _, h1⟩
  · subst h1; exact ⟨_, h.ib_some h0⟩
  · exact absurd h1 h0
  · exact ⟨_, h1⟩

theorem Own.live (h : Own E ib N m v al b cap xs) (i : Nat) : (m.mem b i).isSome ↔ i < xs.length := by
  rw [h.cells]; simp

/-- Two containers do not share blocks (except for block 0, the absent storage). -/
structure Sep (b1 ib1 b2 ib2 : Nat) : Prop where
  bb : b1 ≠ 0 → b1 ≠ b2
  bi : b1 ≠ 0 → b1 ≠ ib2
  ib : ib1 ≠ 0 → ib1 ≠ b2
  ii : ib1 ≠ 0 → ib1 ≠ ib2

theorem Sep.symm {b1 ib1 b2 ib2 : Nat} (h : Sep b1 ib1 b2 ib2) : Sep b2 ib2 b1 ib1 := by
  obtain ⟨h1, h2, h3, h4⟩ := h
  constructor <;> intro h0 he <;> subst he
  · exact h1 h0 rfl
  · exact h3 h0 rfl
  · exact h2 h0 rfl
  · exact h4 h0 rfl

/-- Two containers side by side, everything else being `H`. -/
structure Pair (H : Heap α) (E : Env α) (N ib1 ib2 : Nat) (m : St α) (v1 v2 : Vec)
    (al1 b1 cap1 : Nat) (xs1 : List α) (al2 b2 cap2 : Nat) (xs2 : List α) : Prop where
  wf : m.Wf
  one : Own E ib1 N m v1 al1 b1 cap1 xs1
  two : Own E ib2 N m v2 al2 b2 cap2 xs2
  sep : Sep b1 ib1 b2 ib2
  rest : Rest H m (fun c => (c = b1 ∨ c = ib1) ∨ (c = b2 ∨ c = ib2))

section pair
variable {ib1 ib2 al1 b1 cap1 al2 b2 cap2 : Nat} {v1 v2 : Vec} {xs1 xs2 : List α}

theorem Pair.symm (h : Pair H E N ib1 ib2 m v1 v2 al1 b1 cap1 xs1 al2 b2 cap2 xs2) :
    Pair H E N ib2 ib1 m v2 v1 al2 b2 cap2 xs2 al1 b1 cap1 xs1 :=
  ⟨h.wf, h.two, h.one, h.sep.symm, ⟨fun c hc => h.rest.mem c (fun h => hc h.symm), fun c hc => h.rest.blk c (fun h => hc h.symm),
    fun c hc => h.rest.hmem c hc.symm, fun c hc => h.rest.hblk c hc.symm⟩⟩

/-- The foreign memory as the first container sees it. -/
theorem Pair.vst1 (h : Pair H E N ib1 ib2 m v1 v2 al1 b1 cap1 xs1 al2 b2 cap2 xs2) :
    VSt (Heap.out m (fun c => c = b1 ∨ c = ib1)) E ib1 N ⟨v1, m⟩ al1 b1 cap1 xs1 :=
  h.one.vst h.wf (Rest.out _ _)

theorem Heap.out_mem {m : St α} {F : Nat → Prop} {c : Nat} (h : ¬ F c) (i : Nat) : (Heap.out m F).mem c i = m.mem c i := by
  simp [Heap.out, h]

theorem Heap.out_blk {m : St α} {F : Nat → Prop} {c : Nat} (h : ¬ F c) : (Heap.out m F).blk c = m.blk c := by
  simp [Heap.out, h]

theorem Heap.out_mem' {m : St α} {F : Nat → Prop} {c : Nat} (h : F c) (i : Nat) : (Heap.out m F).mem c i = none := by
  simp [Heap.out, h]

theorem Heap.out_blk' {m : St α} {F : Nat → Prop} {c : Nat} (h : F c) : (Heap.out m F).blk c = none := by
  simp [Heap.out, h]

/-- An operation on the first container that may also change the values of the second one's elements. -/
theorem Pair.step1 {H1 : Heap α} {v1' : Vec} {al1' b1' cap1' : Nat} {xs1' xs2' : List α}
    (h : Pair H E N ib1 ib2 m v1 v2 al1 b1 cap1 xs1 al2 b2 cap2 xs2)
    (h1 : VSt H1 E ib1 N ⟨v1', m'⟩ al1' b1' cap1' xs1')
    (hb : H1.blk = (Heap.out m (fun c => c = b1 ∨ c = ib1)).blk)
    (hm : ∀ c i, c ≠ b2 → H1.mem c i = (Heap.out m (fun c => c = b1 ∨ c = ib1)).mem c i)
    (hl : xs2'.length = xs2.length) (hm2 : b2 ≠ 0 → ∀ i, H1.mem b2 i = xs2'[i]?) :
    Pair H E N ib1 ib2 m' v1' v2 al1' b1' cap1' xs1' al2 b2 cap2 xs2' := by
  have hr := h1.rest
  have hw := h1.st.wf
  have hsep := h.sep
  have hs2 := hsep.symm
  -- the second container's blocks are foreign for the first one
  have key : ∀ c, c ≠ 0 → (c = b2 ∨ c = ib2) → ¬ (c = b1' ∨ c = ib1) ∧ H1.blk c = m.blk c ∧ m.blk c ≠ none := by
    intro c h0 hc
    have hne : ¬ (c = b1 ∨ c = ib1) := by
      rcases hc with rfl | rfl
      · rintro (h' | h')
        · exact hs2.bb h0 h'
        · exact hs2.bi h0 h'
      · rintro (h' | h')
        · exact hs2.ib h0 h'
        · exact hs2.ii h0 h'
    have e1 : H1.blk c = m.blk c := by rw [hb, Heap.out_blk hne]
    have e2 : m.blk c ≠ none := by
      rcases hc with rfl | rfl
      · obtain ⟨i, hi⟩ := h.two.b_some h0; simp [hi]
      · simp [h.two.ib_some h0]
    refine ⟨fun hF => e2 ?_, e1, e2⟩
    rw [← e1]; exact hr.hblk c hF
  have blk0 : ∀ c, (c = b2 ∨ c = ib2) → m'.blk c = m.blk c := by
    intro c hc
    by_cases h0 : c = 0
    · rw [h0, hw.blk_zero, h.wf.blk_zero]
    · obtain ⟨k1, k2, _⟩ := key c h0 hc
      rw [hr.blk c k1, k2]
  have hlen0 : b2 = 0 → xs2 = [] := by
    intro h0
    cases hx : xs2 with
    | nil => rfl
    | cons x xs =>
      have := h.two.cells 0
      rw [hx, h0, h.wf.dead 0 h.wf.blk_zero] at this
      simp at this
  have mb2 : ∀ i, m'.mem b2 i = xs2'[i]? := by
    intro i
    by_cases h0 : b2 = 0
    · have e := hlen0 h0
      have : xs2' = [] := List.length_eq_zero_iff.mp (by rw [hl, e]; rfl)
      rw [this, h0, hw.dead 0 hw.blk_zero]; simp
    · rw [hr.mem b2 (key b2 h0 (Or.inl rfl)).1, hm2 h0]
  have mi2 : b2 ≠ ib2 → ∀ i, m'.mem ib2 i = m.mem ib2 i := by
    intro hne i
    by_cases h0 : ib2 = 0
    · rw [h0, hw.dead 0 hw.blk_zero, h.wf.dead 0 h.wf.blk_zero]
    · rw [hr.mem ib2 (key ib2 h0 (Or.inr rfl)).1, hm ib2 i (Ne.symm hne), Heap.out_mem]
      rintro (h' | h')
      · exact hs2.ib h0 h'
      · exact hs2.ii h0 h'
  have sep' : Sep b1' ib1 b2 ib2 := by
    refine Sep.symm ⟨fun h0 he => ?_, fun h0 => hs2.bi h0, fun h0 he => ?_, fun h0 => hs2.ii h0⟩
    · exact (key b2 h0 (Or.inl rfl)).1 (Or.inl he)
    · exact (key ib2 h0 (Or.inr rfl)).1 (Or.inl he)
  refine ⟨hw, h1.toOwn, h.two.cells' (blk0 b2 (Or.inl rfl)) (blk0 ib2 (Or.inr rfl)) mb2 hl mi2, sep', ?_⟩
  have memH : ∀ c, ¬ ((c = b1' ∨ c = ib1) ∨ (c = b2 ∨ c = ib2)) → ∀ i, m'.mem c i = H.mem c i := by
    intro c hc i
    rw [hr.mem c (fun h => hc (Or.inl h)), hm c i (fun h => hc (Or.inr (Or.inl h)))]
    by_cases hF : c = b1 ∨ c = ib1
    · rw [Heap.out_mem' hF, h.rest.hmem c (Or.inl hF)]
    · rw [Heap.out_mem hF, h.rest.mem c (fun h' => h'.elim hF (fun h' => hc (Or.inr h')))]
  have blkH : ∀ c, ¬ ((c = b1' ∨ c = ib1) ∨ (c = b2 ∨ c = ib2)) → m'.blk c = H.blk c := by
    intro c hc
    rw [hr.blk c (fun h => hc (Or.inl h)), hb]
    by_cases hF : c = b1 ∨ c = ib1
    · rw [Heap.out_blk' hF, h.rest.hblk c (Or.inl hF)]
    · rw [Heap.out_blk hF, h.rest.blk c (fun h' => h'.elim hF (fun h' => hc (Or.inr h')))]
  refine ⟨memH, blkH, fun c hc i => ?_, fun c hc => ?_⟩
  · by_cases hF : (c = b1 ∨ c = ib1) ∨ (c = b2 ∨ c = ib2)
    · exact h.rest.hmem c hF i
    · have hc' : c = b1' ∨ c = ib1 := hc.resolve_right (fun h => hF (Or.inr h))
      rw [← h.rest.mem c hF, ← Heap.out_mem (m := m) (F := fun c => c = b1 ∨ c = ib1) (fun h => hF (Or.inl h)),
        ← hm c i (fun h => hF (Or.inr (Or.inl h)))]
      exact hr.hmem c hc' i
  · by_cases hF : (c = b1 ∨ c = ib1) ∨ (c = b2 ∨ c = ib2)
    · exact h.rest.hblk c hF
    · have hc' : c = b1' ∨ c = ib1 := hc.resolve_right (fun h => hF (Or.inr h))
      rw [← h.rest.blk c hF, ← Heap.out_blk (m := m) (F := fun c => c = b1 ∨ c = ib1) (fun h => hF (Or.inl h)), ← hb]
      exact hr.hblk c hc'

/-- An operation on the first container only. -/
theorem Pair.step {v1' : Vec} {al1' b1' cap1' : Nat} {xs1' : List α}
    (h : Pair H E N ib1 ib2 m v1 v2 al1 b1 cap1 xs1 al2 b2 cap2 xs2)
    (h1 : VSt (Heap.out m (fun c => c = b1 ∨ c = ib1)) E ib1 N ⟨v1', m'⟩ al1' b1' cap1' xs1') :
    Pair H E N ib1 ib2 m' v1' v2 al1' b1' cap1' xs1' al2 b2 cap2 xs2 :=
  h.step1 h1 rfl (fun _ _ _ => rfl) rfl (fun h0 i => by
    rw [Heap.out_mem, h.two.cells]
    rintro (h' | h')
    · exact h.sep.symm.bb h0 h'
    · exact h.sep.symm.bi h0 h')

end pair
end Sfl
