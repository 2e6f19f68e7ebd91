import Verif.OwnMove
/-
  Correctness of the operations of vector and small_vector that involve two containers.
-/

set_option linter.unusedSimpArgs false

namespace Sfl
open Sfl.Vector (VM)
variable {α : Type} {E : Env α} {H : Heap α} {N : Nat} {m : St α}
variable {ib1 ib2 al1 b1 cap1 al2 b2 cap2 : Nat} {v1 v2 : Vec} {xs1 xs2 : List α}

/-- The memory as the first container sees it. -/
noncomputable abbrev Heap.but (m : St α) (b ib : Nat) : Heap α := Heap.out m (fun c => c = b ∨ c = ib)

theorem Own.nil_of_zero {ib b cap al : Nat} {v : Vec} {xs : List α} (h : Own E ib N m v al b cap xs) (hw : m.Wf)
    (h0 : b = 0) : xs = [] := by
  cases hx : xs with
  | nil => rfl
  | cons x xs' =>
    have := h.cells 0
    rw [hx, h0, hw.dead 0 hw.blk_zero] at this
    simp at this

theorem Pair.ne2 (h : Pair H E N ib1 ib2 m v1 v2 al1 b1 cap1 xs1 al2 b2 cap2 xs2) (h0 : b2 ≠ 0) :
    ¬ (b2 = b1 ∨ b2 = ib1) := by
  rintro (h' | h')
  · exact h.sep.symm.bb h0 h'
  · exact h.sep.symm.bi h0 h'

theorem Pair.source (h : Pair H E N ib1 ib2 m v1 v2 al1 b1 cap1 xs1 al2 b2 cap2 xs2) :
    Source (Heap.but m b1 ib1) ⟨b2, 0⟩ xs2 := by
  by_cases h0 : b2 = 0
  · have := h.two.nil_of_zero h.wf h0
    subst this
    exact ⟨Or.inl rfl, fun i hi => by simp at hi⟩
  · have hne := h.ne2 h0
    obtain ⟨i, hi⟩ := h.two.b_some h0
    refine ⟨Or.inr ?_, fun i _ => ?_⟩
    · simp only; rw [Heap.out_blk hne, hi]; simp
    · simp only; rw [Heap.out_mem hne, h.two.cells]; simp

theorem Pair.exts (h : Pair H E N ib1 ib2 m v1 v2 al1 b1 cap1 xs1 al2 b2 cap2 xs2) :
    Exts (Heap.but m b1 ib1) E (args .ref ⟨b2, 0⟩ xs2.length) xs2 := by
  have hs := h.source
  rcases hs.blk with h0 | h0
  · have : xs2 = [] := List.length_eq_zero_iff.mp h0
    subst this
    exact Exts.vals []
  · exact Exts.refs h0 hs.val

/-- The first container has been changed, the second one's elements have been moved from. -/
theorem Pair.stepMoved {m' : St α} {H1 : Heap α} {v1' : Vec} {al1' b1' cap1' : Nat} {xs1' : List α}
    (h : Pair H E N ib1 ib2 m v1 v2 al1 b1 cap1 xs1 al2 b2 cap2 xs2)
    (hm : Heap.MovedFrom E ⟨b2, 0⟩ xs2.length (Heap.but m b1 ib1) H1)
    (h1 : VSt H1 E ib1 N ⟨v1', m'⟩ al1' b1' cap1' xs1') :
    Pair H E N ib1 ib2 m' v1' v2 al1' b1' cap1' xs1' al2 b2 cap2 (xs2.map E.moved) := by
  refine h.step1 h1 hm.blk ?_ (by simp) ?_
  · intro c i hc; rw [hm.mem, if_neg (by simp [Ptr.has, hc])]
  · intro h0 i
    rw [hm.mem, Heap.out_mem (h.ne2 h0), h.two.cells]
    by_cases hi : i < xs2.length
    · rw [if_pos (by simp [Ptr.has, hi])]; simp
    · rw [if_neg (by simp [Ptr.has, hi])]
      have e1 : xs2[i]? = none := List.getElem?_eq_none (by omega)
      rw [List.getElem?_map, e1]; rfl

/-- The first container has been changed, the second one's elements have been touched. -/
theorem Pair.stepDisturbed {m' : St α} {H1 : Heap α} {v1' : Vec} {al1' b1' cap1' : Nat} {xs1' : List α}
    (h : Pair H E N ib1 ib2 m v1 v2 al1 b1 cap1 xs1 al2 b2 cap2 xs2)
    (hm : Heap.Disturbed ⟨b2, 0⟩ xs2.length (Heap.but m b1 ib1) H1)
    (h1 : VSt H1 E ib1 N ⟨v1', m'⟩ al1' b1' cap1' xs1') :
    ∃ xs2', xs2'.length = xs2.length ∧ Pair H E N ib1 ib2 m' v1' v2 al1' b1' cap1' xs1' al2 b2 cap2 xs2' := by
  by_cases h0 : b2 = 0
  · have hx := h.two.nil_of_zero h.wf h0
    refine ⟨[], by rw [hx], h.step1 h1 hm.blk ?_ (by rw [hx]) (fun h' => absurd h0 h')⟩
    intro c i hc; exact hm.out c i (by simp [Ptr.has, hc])
  · obtain ⟨ys, k1, k2⟩ := exists_list (f := H1.mem b2) xs2.length (fun i => by
      by_cases hi : i < xs2.length
      · have := hm.live b2 i (by simp [Ptr.has, hi]); simp [this, hi]
      · rw [hm.out b2 i (by simp [Ptr.has, hi]), Heap.out_mem (h.ne2 h0), h.two.cells]; simp)
    refine ⟨ys, k1, h.step1 h1 hm.blk ?_ k1 (fun _ => k2)⟩
    intro c i hc; exact hm.out c i (by simp [Ptr.has, hc])

theorem Gone.empty {al ib : Nat} (h : Gone H al ib N m) (hN : N ≤ E.maxSize) :
    VSt H E ib N ⟨SmallVector.empty ib N al, m⟩ al ib N [] := VSt.mkEmpty h.st h.raw hN

theorem VSt.gone {al ib b cap : Nat} {o : Obj Vec α} (h : VSt H E ib N o al b cap []) (hb : b = ib ∧ cap = N) :
    Gone H al ib N o.m := by
  obtain ⟨rfl, rfl⟩ := hb
  exact ⟨h.st, fun i => by rw [h.cells]; simp⟩

/-- `initialize_copy` of small_vector. -/
theorem initCopy_spec
    (h : Pair H E N ib1 ib2 m (SmallVector.empty ib1 N al1) v2 al1 ib1 N [] al2 b2 cap2 xs2) :
    wp (SmallVector.initCopy E N v2)
      (fun _ o' => ∃ b1' cap1', Pair H E N ib1 ib2 o'.m o'.obj v2 al1 b1' cap1' xs2 al2 b2 cap2 xs2)
      (fun _ o' => Pair H E N ib1 ib2 o'.m (SmallVector.empty ib1 N al1) v2 al1 ib1 N [] al2 b2 cap2 xs2)
      ⟨SmallVector.empty ib1 N al1, m⟩ := by
  unfold SmallVector.initCopy
  rw [wp_bind, h.two.obj]
  refine wp_distance rfl (by simp) ?_
  refine wp_mono (initWith_spec (h.vst1.gone ⟨rfl, rfl⟩) h.one.nLe h.exts) ?_ ?_
  · rintro _ o' ⟨b', k1, -⟩
    have := h.step k1
    rw [h.two.obj] at this
    exact ⟨b', _, this⟩
  · rintro e o' ⟨k1, -⟩
    have := h.step (k1.empty h.one.nLe)
    rw [h.two.obj] at this
    exact this

/-- The internal storage of an empty container is raw. -/
theorem Own.raw {ib b cap al : Nat} {v : Vec} (h : Own E ib N m v al b cap []) (i : Nat) : m.mem ib i = none := by
  by_cases hb : b = ib
  · rw [← hb, h.cells]; simp
  · exact h.iraw hb i

theorem Own.zero_N {ib b cap al : Nat} {v : Vec} {xs : List α} (h : Own E ib N m v al b cap xs) (hw : m.Wf)
    (h0 : ib = 0) : N = 0 := by
  rcases h.ibk with ⟨_, k⟩ | k
  · exact k
  · rw [h0, hw.blk_zero] at k; simp at k

/-- The internal storage of a container with heap storage or none is raw. -/
theorem Own.raw' {ib b cap al : Nat} {v : Vec} {xs : List α} (h : Own E ib N m v al b cap xs) (hw : m.Wf)
    (hb : b ≠ 0 → b ≠ ib) (i : Nat) : m.mem ib i = none := by
  by_cases h0 : b = ib
  · have : b = 0 := Classical.byContradiction fun h' => hb h' h0
    rw [← h0, this]; exact hw.dead 0 hw.blk_zero i
  · exact h.iraw h0 i

/-- A container that does not use its internal storage has heap storage or none. -/
theorem Own.heap {ib b cap al : Nat} {v : Vec} {xs : List α} (h : Own E ib N m v al b cap xs) (hw : m.Wf)
    (hb : b ≠ 0 → b ≠ ib) : (b = 0 ∧ cap = 0) ∨ (N < cap ∧ b ≠ 0 ∧ m.blk b = some ⟨cap, some al⟩) := by
  rcases h.own with ⟨k1, k2⟩ | k | ⟨k1, k2, _, k4⟩
  · have h0 : b = 0 := Classical.byContradiction fun h' => hb h' k1
    exact Or.inl ⟨h0, by rw [k2]; exact h.zero_N hw (k1 ▸ h0)⟩
  · exact Or.inl k
  · exact Or.inr ⟨k1, k2, k4⟩

/-- The first container, empty and without heap storage, takes over the heap storage of the second. -/
theorem Pair.steal (h : Pair H E N ib1 ib2 m v1 v2 al1 b1 cap1 [] al2 b2 cap2 xs2)
    (hb1 : b1 = ib1 ∨ b1 = 0) (hb2 : b2 ≠ 0 → b2 ≠ ib2) (hal : al1 = al2) :
    Pair H E N ib1 ib2 m (v1.steal v2) v2.null al1 b2 cap2 xs2 al2 0 0 [] := by
  have hz : ∀ i, m.mem 0 i = none := h.wf.dead 0 h.wf.blk_zero
  have hsep := h.sep
  constructor
  · exact h.wf
  · refine ⟨by simp [Vec.steal, h.one.obj, h.two.obj], h.one.ibk, ?_, fun _ => h.one.raw, h.two.len, h.two.cells,
      h.two.capLe, h.two.nLe⟩
    rcases h.two.heap h.wf hb2 with k1 | ⟨k1, k2, k4⟩
    · exact Or.inr (Or.inl k1)
    · exact Or.inr (Or.inr ⟨k1, k2, hsep.symm.bi k2, by rw [hal]; exact k4⟩)
  · exact ⟨by simp [Vec.null, h.two.obj, Ptr.null], h.two.ibk, Or.inr (Or.inl ⟨rfl, rfl⟩), fun _ => h.two.raw' h.wf hb2, by simp,
      fun i => by rw [hz]; simp, by omega, h.two.nLe⟩
  · refine ⟨fun h0 he => absurd he h0, hb2, fun h0 he => absurd he h0, fun h0 => hsep.ii h0⟩
  · have hF : ∀ c, ((c = b2 ∨ c = ib1) ∨ (c = 0 ∨ c = ib2)) → c ≠ 0 →
        ((c = b1 ∨ c = ib1) ∨ (c = b2 ∨ c = ib2)) := by
      intro c hc h0; rcases hc with (h' | h') | (h' | h')
      · exact Or.inr (Or.inl h')
      · exact Or.inl (Or.inr h')
      · exact absurd h' h0
      · exact Or.inr (Or.inr h')
    have hF' : ∀ c, ¬ ((c = b2 ∨ c = ib1) ∨ (c = 0 ∨ c = ib2)) → ¬ ((c = b1 ∨ c = ib1) ∨ (c = b2 ∨ c = ib2)) := by
      rintro c hc ((h' | h') | (h' | h'))
      · rcases hb1 with e | e
        · exact hc (Or.inl (Or.inr (h'.trans e)))
        · exact hc (Or.inr (Or.inl (h'.trans e)))
      · exact hc (Or.inl (Or.inr h'))
      · exact hc (Or.inl (Or.inl h'))
      · exact hc (Or.inr (Or.inr h'))
    refine ⟨fun c hc => h.rest.mem c (hF' c hc), fun c hc => h.rest.blk c (hF' c hc), fun c hc i => ?_, fun c hc => ?_⟩
    · by_cases hG : (c = b1 ∨ c = ib1) ∨ (c = b2 ∨ c = ib2)
      · exact h.rest.hmem c hG i
      · rw [← h.rest.mem c hG]
        by_cases h0 : c = 0
        · rw [h0]; exact hz i
        · exact absurd (hF c hc h0) hG
    · by_cases hG : (c = b1 ∨ c = ib1) ∨ (c = b2 ∨ c = ib2)
      · exact h.rest.hblk c hG
      · rw [← h.rest.blk c hG]
        by_cases h0 : c = 0
        · rw [h0]; exact h.wf.blk_zero
        · exact absurd (hF c hc h0) hG

/-- A container whose storage is no heap block does not care about its allocator. -/
theorem Own.realloc {ib b cap al : Nat} {v : Vec} {xs : List α} (h : Own E ib N m v al b cap xs)
    (hb : b = ib ∨ b = 0) (al' : Nat) : Own E ib N m { v with alloc := al' } al' b cap xs := by
  refine ⟨by rw [h.obj], h.ibk, ?_, h.iraw, h.len, h.cells, h.capLe, h.nLe⟩
  rcases h.own with k | k | ⟨_, k2, k3, _⟩
  · exact Or.inl k
  · exact Or.inr (Or.inl k)
  · rcases hb with e | e
    · exact absurd e k3
    · exact absurd e k2

theorem Own.cap_N {ib b cap al : Nat} {v : Vec} {xs : List α} (h : Own E ib N m v al b cap xs) (hc : cap = N) :
    b = ib ∨ b = 0 := by
  rcases h.own with ⟨k, _⟩ | ⟨k, _⟩ | ⟨k, _⟩
  · exact Or.inl k
  · exact Or.inr k
  · omega

/-- `initialize_move` of small_vector. -/
theorem initMove_spec
    (h : Pair H E N ib1 ib2 m (SmallVector.empty ib1 N al1) v2 al1 ib1 N [] al2 b2 cap2 xs2) :
    wp (SmallVector.initMove E N ib2)
      (fun _ o' => ∃ b1' cap1' b2' cap2' ys, Pair H E N ib1 ib2 o'.m o'.obj.1 o'.obj.2 al1 b1' cap1' xs2 al2 b2' cap2' ys ∧
        (ys = xs2.map E.moved ∨ al1 = al2 ∧ ys = [] ∧ cap2' = 0))
      (fun _ o' => ∃ ys, Pair H E N ib1 ib2 o'.m (SmallVector.empty ib1 N al1) o'.obj.2 al1 ib1 N [] al2 b2 cap2 ys ∧
        ys.length = xs2.length)
      ⟨(SmallVector.empty ib1 N al1, v2), m⟩ := by
  unfold SmallVector.initMove
  rw [wp_bind, wp_getObj]
  simp only [wp_ite, wp_bind, wp_lift, wp_setObj]
  have hobj := h.two.obj
  have hsrc := h.source
  have hf : v2.first = ⟨b2, 0⟩ := by rw [hobj]
  have hl : v2.last = ⟨b2, xs2.length⟩ := by rw [hobj]
  rw [hf, hl]
  by_cases hb2 : b2 = ib2
  · rw [if_pos (by rw [hb2])]
    have hv1 := h.vst1
    have hst := hv1.st
    have hcap2 : xs2.length ≤ N := by
      have := h.two.len
      rcases h.two.own with ⟨_, k⟩ | ⟨_, k⟩ | ⟨_, _, k, _⟩
      · omega
      · omega
      · exact absurd hb2 k
    have hag := hsrc.agree hst
    have hne := hsrc.ne hst
    unfold uninitMove
    rw [wp_bind]
    refine wp_distance rfl (by simp) ?_
    simp only [Nat.sub_zero]
    refine wp_uninit_mv ?_ ?_ ?_ ?_ ?_
    · intro i h4 h5; have := hag i h4 h5; simp only at this ⊢; rw [this]; simp at h5 ⊢; omega
    · intro j hj; exact hst.inB (by simp only [SmallVector.empty]; omega)
    · intro i _ _; exact h.one.raw i
    · intro s2 hs2 ht2 hm2
      have k1 : VSt ((Heap.but m ib1 ib1).sync s2 ⟨b2, 0⟩ xs2.length) E ib1 N
          ⟨⟨⟨ib1, 0⟩, ⟨ib1, xs2.length⟩, ⟨ib1, N⟩, al1⟩, s2⟩ al1 ib1 N xs2 := by
        refine VSt.mk' rfl rfl rfl (hst.sync hs2 hsrc.blk ?_ ?_) (by omega) ?_ h.one.nLe h.one.nLe
        · intro i hi; rw [hm2, if_neg (by simp [Ptr.has, SmallVector.empty]; omega), if_neg (hne i)]; exact hst.beyond i hi
        · intro c i hcb hh; rw [hm2, if_neg (by simp [Ptr.has, hcb, SmallVector.empty]), if_neg hh]
        · intro i
          rw [hm2]
          by_cases hi : i < xs2.length
          · rw [if_pos (by simp [Ptr.has, hi, SmallVector.empty])]
            have := hag i (by simp) (by simpa using hi)
            simpa [SmallVector.empty] using this
          · rw [if_neg (by simp [Ptr.has, SmallVector.empty]; omega), if_neg (hne i), h.one.raw]; simp; omega
      have hmv : Heap.MovedFrom E ⟨b2, 0⟩ xs2.length (Heap.but m ib1 ib1) ((Heap.but m ib1 ib1).sync s2 ⟨b2, 0⟩ xs2.length) :=
        hst.moved hsrc.blk (fun c i hcb hh => by rw [hm2, if_neg (by simp [Ptr.has, hcb, SmallVector.empty]), if_pos hh])
      have := h.stepMoved hmv k1
      refine ⟨ib1, N, b2, cap2, _, ?_, Or.inl rfl⟩
      simpa [SmallVector.empty, Ptr.add] using this
    · intro _ s2 hs2 hm2
      have hraw : ∀ i, s2.mem ib1 i = none := fun i => by
        rcases hm2 ib1 i with h4 | ⟨h4, _⟩
        · rw [h4]; exact h.one.raw i
        · exact absurd h4 (hne i)
      have k1 : VSt ((Heap.but m ib1 ib1).sync s2 ⟨b2, 0⟩ xs2.length) E ib1 N
          ⟨SmallVector.empty ib1 N al1, s2⟩ al1 ib1 N [] := by
        refine VSt.mkEmpty (hst.sync hs2 hsrc.blk (fun i _ => hraw i) ?_) hraw h.one.nLe
        intro c i _ hh
        rcases hm2 c i with h4 | ⟨h4, _⟩
        · exact h4
        · exact absurd h4 hh
      obtain ⟨ys, e1, e2⟩ := h.stepDisturbed (Store.disturbed (s' := s2) (fun c i hh => by
        rcases hm2 c i with h4 | ⟨_, h4⟩
        · obtain ⟨h5, h6, h7⟩ := hh
          rw [h4, h5, hag i h6 h7]; simp at h7 ⊢; omega
        · exact h4)) k1
      exact ⟨ys, e2, e1⟩
  · rw [if_neg (by simpa using hb2)]
    by_cases hal : al1 = al2
    · rw [if_pos (by rw [hobj]; exact hal)]
      exact ⟨b2, cap2, 0, 0, [], h.steal (Or.inl rfl) (fun _ => hb2) hal, Or.inr ⟨hal, rfl, rfl⟩⟩
    · rw [if_neg (by rw [hobj]; exact hal)]
      refine wp_distance rfl (by simp) ?_
      simp only [Nat.sub_zero, wp_onThis]
      refine wp_mono (initWith_move_spec (h.vst1.gone ⟨rfl, rfl⟩) h.one.nLe hsrc) ?_ ?_
      · rintro _ o' ⟨b', H', k1, k2⟩
        exact ⟨b', _, b2, cap2, _, h.stepMoved k1 k2, Or.inl rfl⟩
      · rintro e o' ⟨H', k1, k2⟩
        obtain ⟨ys, e1, e2⟩ := h.stepDisturbed k1 (k2.empty h.one.nLe)
        exact ⟨ys, e2, e1⟩

theorem propagate_spec {ib b cap al al' : Nat} {o : Obj Vec α} {xs : List α} {flag : Bool}
    (h : VSt H E ib N o al b cap xs) :
    wp (SmallVector.propagate E ib N flag al')
      (fun _ o' => ∃ b' cap' xs', VSt H E ib N o' (if flag = true then al' else al) b' cap' xs' ∧
        (flag = false ∨ al = al' → xs' = xs ∧ b' = b ∧ cap' = cap))
      (fun _ _ => False) o := by
  unfold SmallVector.propagate
  simp only [wp_bind, wp_getObj, wp_ite, wp_pure, wp_setObj]
  cases flag with
  | false => exact ⟨b, cap, xs, by simpa using h, fun _ => ⟨rfl, rfl, rfl⟩⟩
  | true =>
    rw [if_pos rfl]
    have hal : o.obj.alloc = al := by rw [h.obj]
    by_cases he : al = al'
    · rw [if_neg (by rw [hal]; simpa using he)]
      refine ⟨b, cap, xs, ?_, fun _ => ⟨rfl, rfl, rfl⟩⟩
      have : ({ o.obj with alloc := al' } : Vec) = o.obj := by rw [h.obj, he]
      rw [this]
      simpa [he] using h
    · rw [if_pos (by rw [hal]; exact he)]
      refine wp_mono (reset_spec h (newCap := 0) (by omega)) ?_ ?_
      · rintro _ o1 ⟨b1, k1, -, -⟩
        have k2 := k1.toOwn.realloc (k1.toOwn.cap_N (by omega)) al'
        exact ⟨b1, _, [], by simpa using k2.vst k1.st.wf k1.rest, by simp [he]⟩
      · rintro e o1 ⟨_, k, _⟩
        omega

/-- `assign_copy` of small_vector, as the container assigned to sees it. -/
theorem assignCopy_spec' {T : Traits} (h : Pair H E N ib1 ib2 m v1 v2 al1 b1 cap1 xs1 al2 b2 cap2 xs2) :
    wp (SmallVector.assignCopy E T ib1 N v2)
      (fun _ o' => ∃ b1' cap1', VSt (Heap.but m b1 ib1) E ib1 N o' (if T.pocca = true then al2 else al1) b1' cap1' xs2)
      (fun _ o' => ∃ b1' cap1' xs1', VSt (Heap.but m b1 ib1) E ib1 N o' (if T.pocca = true then al2 else al1)
        b1' cap1' xs1')
      ⟨v1, m⟩ := by
  unfold SmallVector.assignCopy
  rw [wp_bind]
  have hal : v2.alloc = al2 := by rw [h.two.obj]
  rw [hal]
  refine wp_mono (propagate_spec h.vst1) ?_ (fun _ _ h => h.elim)
  rintro _ ⟨w1, m1⟩ ⟨c1, d1, ys, k1, -⟩
  rw [wp_bind, h.two.obj]
  refine wp_distance rfl (by simp) ?_
  simp only [Nat.sub_zero]
  refine wp_mono (assignRange_spec k1 h.exts) ?_ ?_
  · rintro _ o' ⟨b', cap', k2, -⟩
    exact ⟨b', cap', k2⟩
  · rintro _ o' ⟨b', cap', xs', k2, -⟩
    exact ⟨b', cap', xs', k2⟩

/-- `assign_move` of small_vector. -/
theorem assignMove_spec {T : Traits} (h : Pair H E N ib1 ib2 m v1 v2 al1 b1 cap1 xs1 al2 b2 cap2 xs2) :
    wp (SmallVector.assignMove E T ib1 N ib2)
      (fun _ o' => ∃ b1' cap1' b2' cap2' ys, Pair H E N ib1 ib2 o'.m o'.obj.1 o'.obj.2
        (if T.pocma = true then al2 else al1) b1' cap1' xs2 al2 b2' cap2' ys ∧
        (ys = xs2.map E.moved ∨ (T.pocma = true ∨ al1 = al2) ∧ ys = [] ∧ cap2' = 0))
      (fun _ o' => ∃ b1' cap1' xs1' ys, Pair H E N ib1 ib2 o'.m o'.obj.1 o'.obj.2
        (if T.pocma = true then al2 else al1) b1' cap1' xs1' al2 b2 cap2 ys ∧ ys.length = xs2.length)
      ⟨(v1, v2), m⟩ := by
  unfold SmallVector.assignMove
  rw [wp_bind, wp_getObj, wp_bind, wp_onThis]
  have hal : v2.alloc = al2 := by rw [h.two.obj]
  simp only
  rw [hal]
  refine wp_mono (propagate_spec h.vst1) ?_ (fun _ _ h => h.elim)
  rintro _ ⟨w1, m1⟩ ⟨c1, d1, ys, k1, -⟩
  have h1 := h.step k1
  have hq : (if T.pocma = true then al2 else al1) = al2 → T.pocma = true ∨ al1 = al2 := by
    intro he; split at he
    · exact Or.inl ‹_›
    · exact Or.inr he
  generalize (if T.pocma = true then al2 else al1) = al1' at h1 k1 hq ⊢
  rw [wp_bind, wp_getObj]
  simp only [wp_ite, wp_bind, wp_onThis]
  have hobj := h1.two.obj
  have hf : v2.first = ⟨b2, 0⟩ := by rw [hobj]
  have hl : v2.last = ⟨b2, xs2.length⟩ := by rw [hobj]
  have hw1 : w1.alloc = al1' := by rw [h1.one.obj]
  have mv : wp (SmallVector.assignRange E ib1 N (args .mv ⟨b2, 0⟩ xs2.length))
      (fun _ (o' : Obj Vec α) => ∃ b1' cap1' b2' cap2' ys, Pair H E N ib1 ib2 o'.m o'.obj v2 al1' b1' cap1' xs2 al2 b2' cap2' ys ∧
        (ys = xs2.map E.moved ∨ (T.pocma = true ∨ al1 = al2) ∧ ys = [] ∧ cap2' = 0))
      (fun _ o' => ∃ b1' cap1' xs1' ys, Pair H E N ib1 ib2 o'.m o'.obj v2 al1' b1' cap1' xs1' al2 b2 cap2 ys ∧
        ys.length = xs2.length) ⟨w1, m1⟩ := by
    refine wp_mono (assignRange_move_spec h1.vst1 h1.source) ?_ ?_
    · rintro _ o' ⟨b', cap', H', k2, k3⟩
      exact ⟨b', cap', b2, cap2, _, h1.stepMoved k2 k3, Or.inl rfl⟩
    · rintro _ o' ⟨b', cap', xs', H', k2, k3⟩
      obtain ⟨zs, e1, e2⟩ := h1.stepDisturbed k2 k3
      exact ⟨b', cap', xs', zs, e2, e1⟩
  rw [hf, hl]
  by_cases hb2 : b2 = ib2
  · rw [if_pos (by rw [hb2])]
    exact wp_distance rfl (by simp) mv
  · rw [if_neg (by simpa using hb2)]
    by_cases he : al1' = al2
    · rw [if_pos (by rw [hw1, hal]; exact he)]
      refine wp_mono (reset_spec h1.vst1 (newCap := 0) (by omega)) ?_ ?_
      · rintro _ o1 ⟨c2, k2, -, -⟩
        have h2 := h1.step k2
        have hc := k2.toOwn.cap_N (by omega)
        exact ⟨b2, cap2, 0, 0, [], h2.steal hc (fun _ => hb2) he, Or.inr ⟨hq he, rfl, rfl⟩⟩
      · rintro e o1 ⟨_, k, _⟩
        omega
    · rw [if_neg (by rw [hw1, hal]; exact he)]
      exact wp_distance rfl (by simp) mv

end Sfl
