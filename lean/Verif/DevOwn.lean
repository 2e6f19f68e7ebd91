import Verif.DevSpec6
import Verif.OwnSpec
/-
  Two devectors in one memory: ownership, and operations that involve both.
-/

set_option linter.unusedSimpArgs false

namespace Sfl.Devector
variable {α : Type} {E : Env α} {H : Heap α} {m m' : St α}
variable {al b cap f al1 b1 cap1 f1 al2 b2 cap2 f2 : Nat} {v v1 v2 : DVec} {xs xs1 xs2 : List α}

/-- The devector with data members `v` owns block `b` (or no block) with elements `xs`, `f` free cells in front. -/
structure DOwn (E : Env α) (m : St α) (v : DVec) (al b cap f : Nat) (xs : List α) : Prop where
  obj : v = ⟨⟨b, 0⟩, ⟨b, f⟩, ⟨b, f + xs.length⟩, ⟨b, cap⟩, al⟩
  own : (b = 0 ∧ cap = 0) ∨ (0 < cap ∧ b ≠ 0 ∧ m.blk b = some ⟨cap, some al⟩)
  fit : f + xs.length ≤ cap
  capLe : cap ≤ E.maxSize
  cells : ∀ i, m.mem b i = if f ≤ i then xs[i - f]? else none

theorem DSt.toOwn {o : Obj DVec α} (h : DSt H E o al b cap f xs) : DOwn E o.m o.obj al b cap f xs :=
  ⟨h.obj, by
    rcases h.st.own with k | k | ⟨k1, k2, -, k4⟩
    · exact Or.inl k
    · exact Or.inl k
    · exact Or.inr ⟨k1, k2, k4⟩, h.fit, h.capLe, h.cells⟩

theorem DSt.rest {o : Obj DVec α} (h : DSt H E o al b cap f xs) : Rest H o.m (fun c => c = b ∨ c = 0) where
  mem := fun c hc i => h.st.fmem c (fun h => hc (Or.inl h)) (fun h => hc (Or.inr h)) i
  blk := fun c hc => h.st.fblk c (fun h => hc (Or.inl h)) (fun h => hc (Or.inr h))
  hmem := fun _ hc i => hc.elim (fun e => e ▸ h.st.hmem i) (fun e => e ▸ h.st.himem i)
  hblk := fun _ hc => hc.elim (fun e => e ▸ h.st.hblk) (fun e => e ▸ h.st.hiblk)

theorem DOwn.dst (h : DOwn E m v al b cap f xs) (hw : m.Wf) (hr : Rest H m (fun c => c = b ∨ c = 0)) :
    DSt H E ⟨v, m⟩ al b cap f xs where
  obj := h.obj
  st := {
    wf := hw
    ibk := Or.inl ⟨rfl, rfl⟩
    own := by
      rcases h.own with k | ⟨k1, k2, k3⟩
      · exact Or.inr (Or.inl k)
      · exact Or.inr (Or.inr ⟨k1, k2, k2, k3⟩)
    iraw := fun _ i => hw.dead 0 hw.blk_zero i
    beyond := fun i hi => by
      rw [h.cells]
      have := h.fit
      split
      · exact List.getElem?_eq_none (by omega)
      · rfl
    fmem := fun c h1 h2 i => hr.mem c (by simp [h1, h2]) i
    fblk := fun c h1 h2 => hr.blk c (by simp [h1, h2])
    hmem := fun i => hr.hmem b (Or.inl rfl) i
    hblk := hr.hblk b (Or.inl rfl)
    himem := fun i => hr.hmem 0 (Or.inr rfl) i
    hiblk := hr.hblk 0 (Or.inr rfl) }
  fit := h.fit
  capLe := h.capLe
  cells := h.cells

theorem DOwn.b_some (h : DOwn E m v al b cap f xs) (h0 : b ≠ 0) : m.blk b = some ⟨cap, some al⟩ := by
  rcases h.own with ⟨h1, _⟩ | ⟨_, _, h1⟩
  · exact absurd h1 h0
  · exact h1

theorem DOwn.zero (h : DOwn E m v al b cap f xs) (h0 : b = 0) : cap = 0 ∧ f = 0 ∧ xs = [] := by
  have := h.fit
  rcases h.own with ⟨_, h1⟩ | ⟨_, h1, _⟩
  · exact ⟨h1, by omega, List.length_eq_zero_iff.mp (by omega)⟩
  · exact absurd h0 h1

theorem DOwn.frame (h : DOwn E m v al b cap f xs) (hb : m'.blk b = m.blk b) (mb : ∀ i, m'.mem b i = m.mem b i) :
    DOwn E m' v al b cap f xs :=
  ⟨h.obj, by rw [hb]; exact h.own, h.fit, h.capLe, fun i => by rw [mb]; exact h.cells i⟩

theorem DOwn.empty (hw : m.Wf) : DOwn E m (Devector.empty al) al 0 0 0 [] :=
  ⟨rfl, Or.inl ⟨rfl, rfl⟩, by simp, Nat.zero_le _, fun i => by rw [hw.dead 0 hw.blk_zero]; simp⟩

/-- A devector without storage does not care about its allocator. -/
theorem DOwn.realloc (h : DOwn E m v al 0 cap f xs) (al' : Nat) : DOwn E m { v with alloc := al' } al' 0 cap f xs :=
  ⟨by rw [h.obj], Or.inl ⟨rfl, (h.zero rfl).1⟩, h.fit, h.capLe, h.cells⟩

/-- Two devectors with separate storage; everything else is `H`. -/
structure DPair (H : Heap α) (E : Env α) (m : St α) (v1 v2 : DVec)
    (al1 b1 cap1 f1 : Nat) (xs1 : List α) (al2 b2 cap2 f2 : Nat) (xs2 : List α) : Prop where
  wf : m.Wf
  one : DOwn E m v1 al1 b1 cap1 f1 xs1
  two : DOwn E m v2 al2 b2 cap2 f2 xs2
  sep : b1 ≠ 0 → b1 ≠ b2
  rest : Rest H m (fun c => (c = b1 ∨ c = 0) ∨ (c = b2 ∨ c = 0))

theorem DPair.symm (h : DPair H E m v1 v2 al1 b1 cap1 f1 xs1 al2 b2 cap2 f2 xs2) :
    DPair H E m v2 v1 al2 b2 cap2 f2 xs2 al1 b1 cap1 f1 xs1 :=
  ⟨h.wf, h.two, h.one, fun h0 e => h.sep (e ▸ h0) e.symm,
    ⟨fun c hc => h.rest.mem c (fun h => hc h.symm), fun c hc => h.rest.blk c (fun h => hc h.symm),
      fun c hc => h.rest.hmem c hc.symm, fun c hc => h.rest.hblk c hc.symm⟩⟩

theorem DPair.dst1 (h : DPair H E m v1 v2 al1 b1 cap1 f1 xs1 al2 b2 cap2 f2 xs2) :
    DSt (Heap.but m b1 0) E ⟨v1, m⟩ al1 b1 cap1 f1 xs1 :=
  h.one.dst h.wf (Rest.out _ _)

theorem DPair.ne2 (h : DPair H E m v1 v2 al1 b1 cap1 f1 xs1 al2 b2 cap2 f2 xs2) (h0 : b2 ≠ 0) : ¬ (b2 = b1 ∨ b2 = 0) := by
  rintro (h' | h')
  · exact h.sep (h' ▸ h0) h'.symm
  · exact h0 h'

/-- The first devector has been changed, and the values of the second one's elements. -/
theorem DPair.step1 {H1 : Heap α} {v1' : DVec} {al1' b1' cap1' f1' : Nat} {xs1' xs2' : List α}
    (h : DPair H E m v1 v2 al1 b1 cap1 f1 xs1 al2 b2 cap2 f2 xs2)
    (h1 : DSt H1 E ⟨v1', m'⟩ al1' b1' cap1' f1' xs1')
    (hb : H1.blk = (Heap.but m b1 0).blk)
    (hm : ∀ c i, c ≠ b2 → H1.mem c i = (Heap.but m b1 0).mem c i)
    (hl : xs2'.length = xs2.length) (hm2 : b2 ≠ 0 → ∀ i, H1.mem b2 i = if f2 ≤ i then xs2'[i - f2]? else none) :
    DPair H E m' v1' v2 al1' b1' cap1' f1' xs1' al2 b2 cap2 f2 xs2' := by
  have hr := h1.rest
  have hw : m'.Wf := h1.st.wf
  -- the second devector's block is foreign for the first one
  have key : b2 ≠ 0 → ¬ (b2 = b1' ∨ b2 = 0) ∧ m'.blk b2 = m.blk b2 := by
    intro h0
    have e1 : H1.blk b2 = m.blk b2 := by rw [hb, Heap.out_blk (h.ne2 h0)]
    have e2 : ¬ (b2 = b1' ∨ b2 = 0) := by
      intro hF
      have := hr.hblk b2 hF
      rw [e1, h.two.b_some h0] at this
      simp at this
    exact ⟨e2, (hr.blk b2 e2).trans e1⟩
  refine ⟨hw, h1.toOwn, ⟨by rw [h.two.obj, hl], ?_, by rw [hl]; exact h.two.fit, h.two.capLe, ?_⟩, ?_, ?_⟩
  · rcases h.two.own with k | ⟨k1, k2, k3⟩
    · exact Or.inl k
    · exact Or.inr ⟨k1, k2, by rw [(key k2).2]; exact k3⟩
  · intro i
    by_cases h0 : b2 = 0
    · obtain ⟨-, -, hx⟩ := h.two.zero h0
      have : xs2' = [] := List.length_eq_zero_iff.mp (by rw [hl, hx]; rfl)
      rw [this, h0, hw.dead 0 hw.blk_zero]; simp
    · exact (hr.mem b2 (key h0).1 i).trans (hm2 h0 i)
  · intro h0 he
    exact (key (he ▸ h0)).1 (Or.inl he.symm)
  · have hF : ∀ c, c ≠ 0 → (c = b1 ∨ c = 0) → c = b1 := fun c h0 h' => h'.resolve_right h0
    refine ⟨fun c hc i => ?_, fun c hc => ?_, fun c hc i => ?_, fun c hc => ?_⟩
    · rw [show m'.mem c i = H1.mem c i from hr.mem c (fun h => hc (Or.inl h)) i, hm c i (fun h => hc (Or.inr (Or.inl h)))]
      by_cases hF : c = b1 ∨ c = 0
      · rw [Heap.out_mem' hF, h.rest.hmem c (Or.inl hF)]
      · rw [Heap.out_mem hF, h.rest.mem c (fun h' => h'.elim hF (fun h' => hc (Or.inr h')))]
    · rw [show m'.blk c = H1.blk c from hr.blk c (fun h => hc (Or.inl h)), hb]
      by_cases hF : c = b1 ∨ c = 0
      · rw [Heap.out_blk' hF, h.rest.hblk c (Or.inl hF)]
      · rw [Heap.out_blk hF, h.rest.blk c (fun h' => h'.elim hF (fun h' => hc (Or.inr h')))]
    · by_cases hF : (c = b1 ∨ c = 0) ∨ (c = b2 ∨ c = 0)
      · exact h.rest.hmem c hF i
      · have hc' : c = b1' ∨ c = 0 := hc.resolve_right (fun h => hF (Or.inr h))
        rw [← h.rest.mem c hF, ← Heap.out_mem (m := m) (F := fun c => c = b1 ∨ c = 0) (fun h => hF (Or.inl h)),
          ← hm c i (fun h => hF (Or.inr (Or.inl h)))]
        exact hr.hmem c hc' i
    · by_cases hF : (c = b1 ∨ c = 0) ∨ (c = b2 ∨ c = 0)
      · exact h.rest.hblk c hF
      · have hc' : c = b1' ∨ c = 0 := hc.resolve_right (fun h => hF (Or.inr h))
        rw [← h.rest.blk c hF, ← Heap.out_blk (m := m) (F := fun c => c = b1 ∨ c = 0) (fun h => hF (Or.inl h)), ← hb]
        exact hr.hblk c hc'

/-- An operation on the first devector only. -/
theorem DPair.step {v1' : DVec} {al1' b1' cap1' f1' : Nat} {xs1' : List α}
    (h : DPair H E m v1 v2 al1 b1 cap1 f1 xs1 al2 b2 cap2 f2 xs2)
    (h1 : DSt (Heap.but m b1 0) E ⟨v1', m'⟩ al1' b1' cap1' f1' xs1') :
    DPair H E m' v1' v2 al1' b1' cap1' f1' xs1' al2 b2 cap2 f2 xs2 :=
  h.step1 h1 rfl (fun _ _ _ => rfl) rfl (fun h0 i => by rw [Heap.out_mem (h.ne2 h0), h.two.cells])

theorem DPair.source (h : DPair H E m v1 v2 al1 b1 cap1 f1 xs1 al2 b2 cap2 f2 xs2) :
    Source (Heap.but m b1 0) ⟨b2, f2⟩ xs2 := by
  by_cases h0 : b2 = 0
  · obtain ⟨-, -, hx⟩ := h.two.zero h0
    subst hx
    exact ⟨Or.inl rfl, fun i hi => by simp at hi⟩
  · have hne := h.ne2 h0
    refine ⟨Or.inr ?_, fun i _ => ?_⟩
    · simp only; rw [Heap.out_blk hne, h.two.b_some h0]; simp
    · simp only; rw [Heap.out_mem hne, h.two.cells, if_pos (by omega)]; congr 1; omega

theorem DPair.exts (h : DPair H E m v1 v2 al1 b1 cap1 f1 xs1 al2 b2 cap2 f2 xs2) :
    Exts (Heap.but m b1 0) E (args .ref ⟨b2, f2⟩ xs2.length) xs2 := by
  have hs := h.source
  rcases hs.blk with h0 | h0
  · have : xs2 = [] := List.length_eq_zero_iff.mp h0
    subst this
    exact Exts.vals []
  · exact Exts.refs h0 hs.val

/-- The first devector has been changed, the second one's elements have been moved from. -/
theorem DPair.stepMoved {H1 : Heap α} {v1' : DVec} {al1' b1' cap1' f1' : Nat} {xs1' : List α}
    (h : DPair H E m v1 v2 al1 b1 cap1 f1 xs1 al2 b2 cap2 f2 xs2)
    (hm : Heap.MovedFrom E ⟨b2, f2⟩ xs2.length (Heap.but m b1 0) H1)
    (h1 : DSt H1 E ⟨v1', m'⟩ al1' b1' cap1' f1' xs1') :
    DPair H E m' v1' v2 al1' b1' cap1' f1' xs1' al2 b2 cap2 f2 (xs2.map E.moved) := by
  refine h.step1 h1 hm.blk ?_ (by simp) ?_
  · intro c i hc; rw [hm.mem, if_neg (by simp [Ptr.has, hc])]
  · intro h0 i
    rw [hm.mem, Heap.out_mem (h.ne2 h0), h.two.cells]
    by_cases hf : f2 ≤ i
    · rw [if_pos hf, if_pos hf, List.getElem?_map]
      by_cases hi : i < f2 + xs2.length
      · rw [if_pos (by simp [Ptr.has, hf, hi])]
      · rw [if_neg (by simp [Ptr.has, hi])]
        have e1 : xs2[i - f2]? = none := List.getElem?_eq_none (by omega)
        rw [e1]; rfl
    · rw [if_neg (by simp [Ptr.has, hf]), if_neg hf, if_neg hf]

/-- The first devector has been changed, the second one's elements have been touched. -/
theorem DPair.stepDisturbed {H1 : Heap α} {v1' : DVec} {al1' b1' cap1' f1' : Nat} {xs1' : List α}
    (h : DPair H E m v1 v2 al1 b1 cap1 f1 xs1 al2 b2 cap2 f2 xs2)
    (hm : Heap.Disturbed ⟨b2, f2⟩ xs2.length (Heap.but m b1 0) H1)
    (h1 : DSt H1 E ⟨v1', m'⟩ al1' b1' cap1' f1' xs1') :
    ∃ xs2', xs2'.length = xs2.length ∧ DPair H E m' v1' v2 al1' b1' cap1' f1' xs1' al2 b2 cap2 f2 xs2' := by
  by_cases h0 : b2 = 0
  · obtain ⟨-, -, hx⟩ := h.two.zero h0
    refine ⟨[], by rw [hx], h.step1 h1 hm.blk ?_ (by rw [hx]) (fun h' => absurd h0 h')⟩
    intro c i hc; exact hm.out c i (by simp [Ptr.has, hc])
  · have old : ∀ i, ¬ (f2 ≤ i ∧ i < f2 + xs2.length) → H1.mem b2 i = none := by
      intro i hi
      rw [hm.out b2 i (by simpa [Ptr.has] using hi), Heap.out_mem (h.ne2 h0), h.two.cells]
      split
      · exact List.getElem?_eq_none (by omega)
      · rfl
    obtain ⟨ys, k1, k2⟩ := exists_list (f := fun i => H1.mem b2 (f2 + i)) xs2.length (fun i => by
      by_cases hi : i < xs2.length
      · have := hm.live b2 (f2 + i) (by simp [Ptr.has, hi]); simp [this, hi]
      · rw [old (f2 + i) (by omega)]; simp; omega)
    refine ⟨ys, k1, h.step1 h1 hm.blk ?_ k1 (fun _ i => ?_)⟩
    · intro c i hc; exact hm.out c i (by simp [Ptr.has, hc])
    · split
      · rename_i hf
        rw [← k2 (i - f2)]; congr 1; omega
      · rename_i hf
        exact old i (by omega)

/-- The first devector, which has no block, takes over the block of the second. -/
theorem DPair.steal (h : DPair H E m v1 v2 al1 0 cap1 f1 xs1 al2 b2 cap2 f2 xs2) (hal : al1 = al2) :
    DPair H E m { v2 with alloc := v1.alloc }
      { v2 with bos := Ptr.null, first := Ptr.null, last := Ptr.null, eos := Ptr.null }
      al1 b2 cap2 f2 xs2 al2 0 0 0 [] := by
  have e1 : v1.alloc = al1 := by rw [h.one.obj]
  have e2 : ({ v2 with alloc := v1.alloc } : DVec) = v2 := by rw [e1, hal, h.two.obj]
  have e3 : ({ v2 with bos := Ptr.null, first := Ptr.null, last := Ptr.null, eos := Ptr.null } : DVec) = Devector.empty al2 := by
    rw [h.two.obj]; rfl
  rw [e2, e3, hal]
  have h' := h.symm
  exact ⟨h.wf, h.two, DOwn.empty h.wf, h'.sep, h'.rest⟩

/-! ### Two-container operations -/

/-- `initialize_copy`. -/
theorem initCopy_spec (h : DPair H E m (Devector.empty al1) v2 al1 0 0 0 [] al2 b2 cap2 f2 xs2) :
    wp (initCopy E v2)
      (fun _ o' => ∃ b', DSt (Heap.but m 0 0) E o' al1 b' xs2.length 0 xs2)
      (fun e o' => Gone (Heap.but m 0 0) al1 0 0 o'.m ∧ (e = .lengthError → E.maxSize < xs2.length))
      ⟨Devector.empty al1, m⟩ := by
  unfold initCopy
  rw [wp_bind, h.two.obj]
  refine wp_distance rfl (by simp) ?_
  dsimp only
  rw [show f2 + xs2.length - f2 = xs2.length by omega]
  refine wp_mono (initWith_spec h.dst1.gone (Feed.copy h.exts)) ?_ ?_
  · rintro _ o' ⟨b', H', ⟨-, rfl⟩, k⟩
    exact ⟨b', k⟩
  · rintro e o' ⟨⟨H', rfl, k⟩, k2⟩
    exact ⟨k, k2⟩

/-- `initialize_move`. -/
theorem initMove_spec (h : DPair H E m (Devector.empty al1) v2 al1 0 0 0 [] al2 b2 cap2 f2 xs2) :
    wp (initMove E)
      (fun _ o' => ∃ b1' cap1' f1' b2' cap2' f2' ys,
        DPair H E o'.m o'.obj.1 o'.obj.2 al1 b1' cap1' f1' xs2 al2 b2' cap2' f2' ys ∧
        (if al1 = al2 then ys = [] else ys = xs2.map E.moved))
      (fun _ o' => ∃ ys, DPair H E o'.m (Devector.empty al1) o'.obj.2 al1 0 0 0 [] al2 b2 cap2 f2 ys ∧
        ys.length = xs2.length)
      ⟨(Devector.empty al1, v2), m⟩ := by
  unfold initMove
  rw [wp_bind, wp_getObj, wp_ite]
  dsimp only
  have ha2 : v2.alloc = al2 := by rw [h.two.obj]
  by_cases hal : al1 = al2
  · rw [if_pos (by rw [ha2]; exact hal), wp_setObj]
    exact ⟨b2, cap2, f2, 0, 0, 0, [], h.steal hal, by rw [if_pos hal]⟩
  · rw [if_neg (by rw [ha2]; exact hal), wp_bind]
    have e1 : v2.first = ⟨b2, f2⟩ := by rw [h.two.obj]
    have e2 : v2.last = ⟨b2, f2 + xs2.length⟩ := by rw [h.two.obj]
    rw [e1, e2]
    refine wp_distance rfl (by simp) ?_
    dsimp only
    rw [show f2 + xs2.length - f2 = xs2.length by omega, wp_onThis]
    refine wp_mono (initWith_spec h.dst1.gone (Feed.move h.source)) ?_ ?_
    · rintro _ o' ⟨b', H', k1, k2⟩
      exact ⟨b', _, 0, b2, cap2, f2, _, h.stepMoved (k1.moved (fun _ _ => trivial)) k2, by rw [if_neg hal]⟩
    · rintro e o' ⟨⟨H', k1, k2⟩, -⟩
      obtain ⟨ys, e1, e2⟩ := h.stepDisturbed (E := E) k1 (Gone.dst k2)
      exact ⟨ys, e2, e1⟩

/-- `assign_copy`. If the allocator is replaced the target must have no free cells in front. -/
theorem assignCopy_spec {T : Traits} (h : DPair H E m v1 v2 al1 b1 cap1 f1 xs1 al2 b2 cap2 f2 xs2)
    (hs : T.pocca = true → al1 ≠ al2 → f1 = 0) :
    wp (assignCopy E T v2)
      (fun _ o' => ∃ b' cap' f', DSt (Heap.but m b1 0) E o' (if T.pocca = true then al2 else al1) b' cap' f' xs2)
      (fun e o' => e ≠ .lengthError ∧ ∃ b' cap' f' xs', DSt (Heap.but m b1 0) E o' (if T.pocca = true then al2 else al1) b' cap' f' xs')
      ⟨v1, m⟩ := by
  have hcap := h.two.capLe
  have hfit := h.two.fit
  have main : ∀ {al b cap f : Nat} {xs : List α} {o : Obj DVec α}, DSt (Heap.but m b1 0) E o al b cap f xs →
      wp (do
        let n ← distance v2.first v2.last
        assignRange E (args .ref v2.first n))
      (fun _ o' => ∃ b' cap' f', DSt (Heap.but m b1 0) E o' al b' cap' f' xs2)
      (fun e o' => e ≠ .lengthError ∧ ∃ b' cap' f' xs', DSt (Heap.but m b1 0) E o' al b' cap' f' xs') o := by
    intro al b cap f xs o k
    rw [wp_bind, h.two.obj]
    refine wp_distance rfl (by simp) ?_
    dsimp only
    rw [show f2 + xs2.length - f2 = xs2.length by omega]
    refine wp_mono (assignRange_spec k (Feed.copy h.exts)) ?_ ?_
    · rintro _ o' ⟨b', cap', f', H', ⟨-, rfl⟩, k⟩
      exact ⟨b', cap', f', k⟩
    · rintro e o' ⟨⟨b', cap', f', xs', H', rfl, k, -⟩, hl⟩
      exact ⟨fun he => by have := hl he; omega, b', cap', f', xs', k⟩
  have a1 : v1.alloc = al1 := by rw [h.one.obj]
  have a2 : v2.alloc = al2 := by rw [h.two.obj]
  unfold assignCopy
  dsimp only
  rw [wp_ite]
  split
  · rename_i hT
    rw [wp_bind, wp_getObj]
    dsimp only
    rw [wp_ite]
    split
    · rename_i hne
      rw [a1, a2] at hne
      have e0 := hs hT hne
      subst e0
      rw [wp_bind]
      refine wp_mono (reset_spec h.dst1) ?_ (fun _ _ h => h.elim)
      intro _ o1 k
      rw [wp_bind, wp_getObj, wp_bind, wp_setObj, a2]
      exact main ((k.toOwn.realloc al2).dst k.st.wf k.rest)
    · rename_i hne
      rw [a1, a2] at hne
      have he : al1 = al2 := Classical.byContradiction hne
      rw [wp_bind, wp_getObj, wp_bind, wp_setObj, a2]
      have e1 : ({ v1 with alloc := al2 } : DVec) = v1 := by rw [h.one.obj, he]
      dsimp only
      rw [e1]
      have := h.dst1
      rw [he] at this
      exact main this
  · exact main h.dst1

/-- `assign_move`. Whenever the old storage of the target is given up it must have no free cells in front. -/
theorem assignMove_spec {T : Traits} (h : DPair H E m v1 v2 al1 b1 cap1 f1 xs1 al2 b2 cap2 f2 xs2)
    (hs : T.pocma = true ∨ al1 = al2 → f1 = 0) :
    wp (assignMove E T)
      (fun _ o' => ∃ b1' cap1' f1' b2' cap2' f2' ys,
        DPair H E o'.m o'.obj.1 o'.obj.2 (if T.pocma = true then al2 else al1) b1' cap1' f1' xs2 al2 b2' cap2' f2' ys ∧
        (if T.pocma = true ∨ al1 = al2 then ys = [] else ys = xs2.map E.moved))
      (fun e o' => e ≠ .lengthError ∧ ∃ b1' cap1' f1' xs1' ys,
        DPair H E o'.m o'.obj.1 o'.obj.2 (if T.pocma = true then al2 else al1) b1' cap1' f1' xs1' al2 b2 cap2 f2 ys ∧
        ys.length = xs2.length)
      ⟨(v1, v2), m⟩ := by
  have a2 : v2.alloc = al2 := by rw [h.two.obj]
  have hcap := h.two.capLe
  have hfit := h.two.fit
  have main : ∀ {al b cap f : Nat} {xs : List α} {v : DVec} {m : St α},
      DPair H E m v v2 al b cap f xs al2 b2 cap2 f2 xs2 → (al = al2 → f = 0) →
      wp (do
        let o ← getObj
        if o.1.alloc = o.2.alloc then do
          onThis reset
          let o ← getObj
          setObj ({ o.2 with alloc := o.1.alloc },
            { o.2 with bos := Ptr.null, first := Ptr.null, last := Ptr.null, eos := Ptr.null })
        else do
          let n ← distance o.2.first o.2.last
          onThis (assignRange E (args .mv o.2.first n)))
      (fun _ o' => ∃ b1' cap1' f1' b2' cap2' f2' ys,
        DPair H E o'.m o'.obj.1 o'.obj.2 al b1' cap1' f1' xs2 al2 b2' cap2' f2' ys ∧
        (if al = al2 then ys = [] else ys = xs2.map E.moved))
      (fun e o' => e ≠ .lengthError ∧ ∃ b1' cap1' f1' xs1' ys,
        DPair H E o'.m o'.obj.1 o'.obj.2 al b1' cap1' f1' xs1' al2 b2 cap2 f2 ys ∧ ys.length = xs2.length)
      ⟨(v, v2), m⟩ := by
    intro al b cap f xs v m h hf
    have a1 : v.alloc = al := by rw [h.one.obj]
    rw [wp_bind, wp_getObj, wp_ite]
    dsimp only
    rw [a1, a2]
    by_cases he : al = al2
    · rw [if_pos he, wp_bind, wp_onThis]
      obtain rfl := hf he
      refine wp_mono (reset_spec h.dst1) ?_ (fun _ _ h => h.elim)
      intro _ o1 k
      rw [wp_bind, wp_getObj, wp_setObj]
      exact ⟨b2, cap2, f2, 0, 0, 0, [], (h.step k).steal he, by rw [if_pos he]⟩
    · rw [if_neg he, wp_bind]
      have e1 : v2.first = ⟨b2, f2⟩ := by rw [h.two.obj]
      have e2 : v2.last = ⟨b2, f2 + xs2.length⟩ := by rw [h.two.obj]
      rw [e1, e2]
      refine wp_distance rfl (by simp) ?_
      dsimp only
      rw [show f2 + xs2.length - f2 = xs2.length by omega, wp_onThis]
      refine wp_mono (assignRange_spec h.dst1 (Feed.move h.source)) ?_ ?_
      · rintro _ o' ⟨b', cap', f', H', k1, k2⟩
        exact ⟨b', cap', f', b2, cap2, f2, _, h.stepMoved (k1.moved (fun _ _ => trivial)) k2, by rw [if_neg he]⟩
      · rintro e o' ⟨⟨b', cap', f', xs', H', k1, k2, -⟩, hl⟩
        obtain ⟨ys, e1, e2⟩ := h.stepDisturbed k1 k2
        exact ⟨fun he => by have := hl he; omega, b', cap', f', xs', ys, e2, e1⟩
  have a1 : v1.alloc = al1 := by rw [h.one.obj]
  unfold assignMove
  dsimp only
  rw [wp_ite]
  split
  · rename_i hT
    have e0 := hs (Or.inl hT)
    subst e0
    have done : ∀ {b cap : Nat} {xs : List α} {v : DVec} {m : St α},
        DPair H E m v v2 al2 b cap 0 xs al2 b2 cap2 f2 xs2 → _ := fun h => main h (fun _ => rfl)
    rw [wp_bind, wp_getObj]
    dsimp only
    rw [wp_ite]
    split
    · rename_i hne
      rw [wp_bind, wp_onThis]
      refine wp_mono (reset_spec h.dst1) ?_ (fun _ _ h => h.elim)
      intro _ o1 k
      rw [wp_bind, wp_getObj, wp_bind, wp_setObj]
      dsimp only
      rw [a2]
      have k2 := (k.toOwn.realloc al2).dst k.st.wf k.rest
      refine wp_mono (done (h.step k2)) ?_ (fun _ _ h => h)
      rintro _ o' ⟨b1', cap1', f1', b2', cap2', f2', ys, k3, k4⟩
      exact ⟨b1', cap1', f1', b2', cap2', f2', ys, k3, by rw [if_pos rfl] at k4; rw [if_pos (Or.inl hT)]; exact k4⟩
    · rename_i hne
      rw [a1, a2] at hne
      have he : al1 = al2 := Classical.byContradiction hne
      rw [wp_bind, wp_getObj, wp_bind, wp_setObj]
      dsimp only
      have e1 : ({ v1 with alloc := v2.alloc } : DVec) = v1 := by rw [a2, h.one.obj, he]
      rw [e1]
      rw [he] at h
      refine wp_mono (done h) ?_ (fun _ _ h => h)
      rintro _ o' ⟨b1', cap1', f1', b2', cap2', f2', ys, k3, k4⟩
      exact ⟨b1', cap1', f1', b2', cap2', f2', ys, k3, by rw [if_pos rfl] at k4; rw [if_pos (Or.inl hT)]; exact k4⟩
  · rename_i hT
    refine wp_mono (main h (fun e => hs (Or.inr e))) ?_ (fun _ _ h => h)
    rintro _ o' ⟨b1', cap1', f1', b2', cap2', f2', ys, k3, k4⟩
    refine ⟨b1', cap1', f1', b2', cap2', f2', ys, k3, ?_⟩
    simpa only [hT, false_or, reduceCtorEq] using k4

/-- `swap`. -/
theorem swap_spec {T : Traits} (h : DPair H E m v1 v2 al1 b1 cap1 f1 xs1 al2 b2 cap2 f2 xs2)
    (hT : T.pocs = true ∨ al1 = al2) :
    wp (swap T : M (Obj (DVec × DVec) α) Unit)
      (fun _ o' => DPair H E o'.m o'.obj.1 o'.obj.2 al2 b2 cap2 f2 xs2 al1 b1 cap1 f1 xs1) (fun _ _ => False)
      ⟨(v1, v2), m⟩ := by
  have a1 : v1.alloc = al1 := by rw [h.one.obj]
  have a2 : v2.alloc = al2 := by rw [h.two.obj]
  unfold swap
  rw [wp_bind, wp_getObj, wp_bind, wp_assert]
  refine ⟨by rw [a1, a2]; exact hT, ?_⟩
  dsimp only
  rw [wp_ite]
  split
  · rw [wp_bind, wp_setObj, wp_bind, wp_getObj, wp_setObj]
    exact h.symm
  · rename_i hn
    have he : al1 = al2 := hT.resolve_left hn
    rw [wp_bind, wp_getObj, wp_setObj]
    dsimp only
    have e1 : ({ v2 with alloc := v1.alloc } : DVec) = v2 := by rw [a1, h.two.obj, he]
    have e2 : ({ v1 with alloc := v2.alloc } : DVec) = v1 := by rw [a2, h.one.obj, he]
    rw [e1, e2]
    exact h.symm

end Sfl.Devector
