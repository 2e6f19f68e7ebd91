import Verif.Algo
/-
  Ownership of a contiguous container's storage.

  These predicates are specification-level: they say which part of memory belongs to a container
  and that everything else (the foreign memory `H`) is as it was. They are shared by vector,
  small_vector, static_vector, compact_vector, devector and the flat containers.
-/

namespace Sfl

/-- Memory outside the container under consideration. -/
structure Heap (α : Type) where
  mem : Nat → Nat → Option α
  blk : Nat → Option Info

variable {α : Type}

/-- small_vector.hpp:259-267 (and everywhere else small containers give up a storage):
`if (p != internal_storage()) deallocate(p, n)`. -/
def freeUnless (ib al : Nat) (p : Ptr) (n : Nat) : M (St α) Unit :=
  if p ≠ ⟨ib, 0⟩ then deallocate al p n else pure ()

/-- Memory `s` is the foreign memory `H`, the container's internal storage (block `ib` with `N` slots;
`ib = 0, N = 0` for containers without internal storage) and the storage in use: block `b` with `cap`
slots, which is either the internal storage, or absent (null pointers), or a block obtained from
allocator `al` (and then larger than the internal storage). -/
structure Store (H : Heap α) (s : St α) (al ib N b cap : Nat) : Prop where
  wf : s.Wf
  ibk : (ib = 0 ∧ N = 0) ∨ s.blk ib = some ⟨N, none⟩
  own : (b = ib ∧ cap = N) ∨ (b = 0 ∧ cap = 0) ∨
    (N < cap ∧ b ≠ 0 ∧ b ≠ ib ∧ s.blk b = some ⟨cap, some al⟩)
  iraw : b ≠ ib → ∀ i, s.mem ib i = none
  beyond : ∀ i, cap ≤ i → s.mem b i = none
  fmem : ∀ c, c ≠ b → c ≠ ib → ∀ i, s.mem c i = H.mem c i
  fblk : ∀ c, c ≠ b → c ≠ ib → s.blk c = H.blk c
  hmem : ∀ i, H.mem b i = none
  hblk : H.blk b = none
  himem : ∀ i, H.mem ib i = none
  hiblk : H.blk ib = none

/-- As `Store`, with an additional storage `nb` of `ncap` slots about to replace `b`: a block just
obtained from `al`, or the internal storage. -/
structure Store2 (H : Heap α) (s : St α) (al ib N b cap nb ncap : Nat) : Prop where
  wf : s.Wf
  ibk : (ib = 0 ∧ N = 0) ∨ s.blk ib = some ⟨N, none⟩
  own : (b = ib ∧ cap = N) ∨ (b = 0 ∧ cap = 0) ∨
    (N < cap ∧ b ≠ 0 ∧ b ≠ ib ∧ s.blk b = some ⟨cap, some al⟩)
  nown : (nb = ib ∧ ncap = N) ∨ (N < ncap ∧ nb ≠ 0 ∧ nb ≠ ib ∧ s.blk nb = some ⟨ncap, some al⟩)
  iraw : b ≠ ib → nb ≠ ib → ∀ i, s.mem ib i = none
  beyond : ∀ i, cap ≤ i → s.mem b i = none
  ne : nb ≠ b
  nbeyond : ∀ i, ncap ≤ i → s.mem nb i = none
  fmem : ∀ c, c ≠ b → c ≠ ib → c ≠ nb → ∀ i, s.mem c i = H.mem c i
  fblk : ∀ c, c ≠ b → c ≠ ib → c ≠ nb → s.blk c = H.blk c
  hmem : ∀ i, H.mem b i = none
  hblk : H.blk b = none
  himem : ∀ i, H.mem ib i = none
  hiblk : H.blk ib = none
  nhmem : ∀ i, H.mem nb i = none
  nhblk : H.blk nb = none

variable {H : Heap α} {s s' : St α} {al ib N b cap nb ncap : Nat}

theorem St.Wf.upd {s s' : St α} (hw : s.Wf) (hs : Same s s')
    (hd : ∀ c, s.blk c = none → ∀ i, s'.mem c i = none) : s'.Wf where
  next_pos := by rw [hs.next]; exact hw.next_pos
  blk_zero := by rw [hs.blk]; exact hw.blk_zero
  fresh := fun c hc => by rw [hs.blk]; exact hw.fresh c (by rw [← hs.next]; exact hc)
  dead := fun c hc i => hd c (by rw [← hs.blk]; exact hc) i

theorem St.Wf.dealloc {s s' : St α} {c : Nat} (hw : s.Wf) (hm : s'.mem = s.mem) (hn : s'.next = s.next)
    (hb : ∀ d, s'.blk d = if d = c then none else s.blk d) (hr : ∀ i, s.mem c i = none) : s'.Wf := by
  refine ⟨by rw [hn]; exact hw.next_pos, ?_, ?_, ?_⟩
  · rw [hb]; split
    · rfl
    · exact hw.blk_zero
  · intro d hd; rw [hb]; split
    · rfl
    · exact hw.fresh d (by omega)
  · intro d hd k
    rw [hm]
    rw [hb] at hd
    split at hd
    · rename_i he; rw [he]; exact hr k
    · exact hw.dead d hd k

theorem Store.inB (h : Store H s al ib N b cap) {i : Nat} (hi : i < cap) : s.inB ⟨b, i⟩ = true := by
  rcases h.own with ⟨hb, hc⟩ | ⟨_, hc⟩ | ⟨_, _, _, hc⟩
  · rcases h.ibk with ⟨_, h2⟩ | h2
    · omega
    · rw [hb]; exact St.inB_of h2 (by simp; omega)
  · omega
  · exact St.inB_of hc (by simpa using hi)

/-- A block without descriptor holds nothing. -/
theorem Store.dead_b (h : Store H s al ib N b cap) (hc : s.blk b = none) : cap = 0 := by
  rcases h.own with ⟨hb, h0⟩ | ⟨_, h0⟩ | ⟨_, _, _, h0⟩
  · rcases h.ibk with ⟨_, h2⟩ | h2
    · omega
    · rw [hb, h2] at hc; cases hc
  · exact h0
  · rw [h0] at hc; cases hc

theorem Store.upd (h : Store H s al ib N b cap) (hs : Same s s')
    (hr : ∀ i, cap ≤ i → s'.mem b i = none) (hf : ∀ c, c ≠ b → ∀ i, s'.mem c i = s.mem c i) :
    Store H s' al ib N b cap where
  wf := by
    refine h.wf.upd hs ?_
    intro c hc i
    by_cases hcb : c = b
    · subst hcb; exact hr i (by have := h.dead_b hc; omega)
    · rw [hf c hcb]; exact h.wf.dead c hc i
  ibk := by rw [hs.blk]; exact h.ibk
  own := by rw [hs.blk]; exact h.own
  iraw := fun hb i => by rw [hf ib (Ne.symm hb)]; exact h.iraw hb i
  beyond := hr
  fmem := fun c h1 h2 i => by rw [hf c h1, h.fmem c h1 h2]
  fblk := fun c h1 h2 => by rw [hs.blk, h.fblk c h1 h2]
  hmem := h.hmem
  hblk := h.hblk
  himem := h.himem
  hiblk := h.hiblk

theorem Store.same (h : Store H s al ib N b cap) (hs : Same s s') (hm : s'.mem = s.mem) :
    Store H s' al ib N b cap :=
  h.upd hs (fun i hi => by rw [hm]; exact h.beyond i hi) (fun c _ i => by rw [hm])

/-- After allocating a new block. -/
theorem Store.alloc (h : Store H s al ib N b cap) (hm : s'.mem = s.mem) (hn : s'.next = s.next + 1)
    (hc0 : N < ncap)
    (hb : ∀ c, s'.blk c = if c = s.next then some ⟨ncap, some al⟩ else s.blk c) :
    Store2 H s' al ib N b cap s.next ncap ∧ (∀ i, s'.mem s.next i = none) := by
  have hfresh := h.wf.fresh s.next (Nat.le_refl _)
  have hdead := h.wf.dead s.next hfresh
  have hpos := h.wf.next_pos
  have hnei : s.next ≠ ib := by
    intro he
    rcases h.ibk with ⟨h0, _⟩ | h0
    · omega
    · rw [← he, hfresh] at h0; cases h0
  have hne : s.next ≠ b := by
    intro he
    rcases h.own with ⟨h0, _⟩ | ⟨h0, _⟩ | ⟨_, _, _, h0⟩
    · exact hnei (he.trans h0)
    · omega
    · rw [← he, hfresh] at h0; cases h0
  refine ⟨?_, fun i => by rw [hm]; exact hdead i⟩
  constructor
  · refine ⟨by omega, ?_, ?_, ?_⟩
    · rw [hb, if_neg (by omega)]; exact h.wf.blk_zero
    · intro c hc; rw [hb, if_neg (by omega)]; exact h.wf.fresh c (by omega)
    · intro c hc k
      rw [hm]
      rw [hb] at hc
      split at hc
      · cases hc
      · exact h.wf.dead c hc k
  · rw [hb, if_neg (Ne.symm hnei)]; exact h.ibk
  · rw [hb, if_neg (Ne.symm hne)]; exact h.own
  · right; exact ⟨hc0, by omega, hnei, by rw [hb, if_pos rfl]⟩
  · intro hbi _ i; rw [hm]; exact h.iraw hbi i
  · intro i hi; rw [hm]; exact h.beyond i hi
  · exact hne
  · intro i _; rw [hm]; exact hdead i
  · intro c h1 h2 _ i; rw [hm]; exact h.fmem c h1 h2 i
  · intro c h1 h2 h3; rw [hb, if_neg h3]; exact h.fblk c h1 h2
  · exact h.hmem
  · exact h.hblk
  · exact h.himem
  · exact h.hiblk
  · intro i; rw [← h.fmem _ hne hnei, hdead]
  · rw [← h.fblk _ hne hnei, hfresh]

/-- Use the (currently unused) internal storage as new storage. -/
theorem Store.useInternal (h : Store H s al ib N b cap) (hb : b ≠ ib) :
    Store2 H s al ib N b cap ib N ∧ (∀ i, s.mem ib i = none) := by
  refine ⟨?_, h.iraw hb⟩
  exact { wf := h.wf, ibk := h.ibk, own := h.own, nown := Or.inl ⟨rfl, rfl⟩,
          iraw := fun _ h' => absurd rfl h', beyond := h.beyond, ne := Ne.symm hb,
          nbeyond := fun i _ => h.iraw hb i, fmem := fun c h1 h2 _ => h.fmem c h1 h2,
          fblk := fun c h1 h2 _ => h.fblk c h1 h2, hmem := h.hmem, hblk := h.hblk,
          himem := h.himem, hiblk := h.hiblk, nhmem := h.himem, nhblk := h.hiblk }

theorem Store2.old (h : Store2 H s al ib N b cap nb ncap) (hc : s.blk b = none) : cap = 0 := by
  rcases h.own with ⟨hb, h0⟩ | ⟨_, h0⟩ | ⟨_, _, _, h0⟩
  · rcases h.ibk with ⟨_, h2⟩ | h2
    · omega
    · rw [hb, h2] at hc; cases hc
  · exact h0
  · rw [h0] at hc; cases hc

theorem Store2.new (h : Store2 H s al ib N b cap nb ncap) (hc : s.blk nb = none) : ncap = 0 := by
  rcases h.nown with ⟨hb, h0⟩ | ⟨_, _, _, h0⟩
  · rcases h.ibk with ⟨_, h2⟩ | h2
    · omega
    · rw [hb, h2] at hc; cases hc
  · rw [h0] at hc; cases hc

theorem Store2.upd (h : Store2 H s al ib N b cap nb ncap) (hs : Same s s')
    (hr : ∀ i, cap ≤ i → s'.mem b i = none) (hnr : ∀ i, ncap ≤ i → s'.mem nb i = none)
    (hf : ∀ c, c ≠ b → c ≠ nb → ∀ i, s'.mem c i = s.mem c i) :
    Store2 H s' al ib N b cap nb ncap where
  wf := by
    refine h.wf.upd hs ?_
    intro c hc i
    by_cases hcn : c = nb
    · subst hcn; exact hnr i (by have := h.new hc; omega)
    by_cases hcb : c = b
    · subst hcb; exact hr i (by have := h.old hc; omega)
    · rw [hf c hcb hcn]; exact h.wf.dead c hc i
  ibk := by rw [hs.blk]; exact h.ibk
  own := by rw [hs.blk]; exact h.own
  nown := by rw [hs.blk]; exact h.nown
  iraw := fun hb hn i => by rw [hf ib (Ne.symm hb) (Ne.symm hn)]; exact h.iraw hb hn i
  beyond := hr
  ne := h.ne
  nbeyond := hnr
  fmem := fun c h1 h2 h3 i => by rw [hf c h1 h3, h.fmem c h1 h2 h3]
  fblk := fun c h1 h2 h3 => by rw [hs.blk, h.fblk c h1 h2 h3]
  hmem := h.hmem
  hblk := h.hblk
  himem := h.himem
  hiblk := h.hiblk
  nhmem := h.nhmem
  nhblk := h.nhblk

theorem Store2.inB (h : Store2 H s al ib N b cap nb ncap) {i : Nat} (hi : i < ncap) :
    s.inB ⟨nb, i⟩ = true := by
  rcases h.nown with ⟨hb, h0⟩ | ⟨_, _, _, h0⟩
  · rcases h.ibk with ⟨_, h2⟩ | h2
    · omega
    · rw [hb]; exact St.inB_of h2 (by simp; omega)
  · exact St.inB_of h0 (by simpa using hi)

theorem ptr0_ne_null {c : Nat} (h : c ≠ 0) : (⟨c, 0⟩ : Ptr) ≠ Ptr.null := by
  intro h0; exact h (by simpa using congrArg Ptr.blk h0)

/-- Give up the new storage (all raw): back to the old storage. -/
theorem Store2.drop {X : Exn → St α → Prop} {Q : Unit → St α → Prop} {n : Nat}
    (h : Store2 H s al ib N b cap nb ncap) (hn : nb ≠ ib → n = ncap)
    (hraw : ∀ i, i < ncap → s.mem nb i = none)
    (hQ : ∀ s', s'.mem = s.mem → s'.next = s.next → s'.tick = s.tick → Store H s' al ib N b cap → Q () s') :
    wp (freeUnless ib al ⟨nb, 0⟩ n) Q X s := by
  have hnm : ∀ i, s.mem nb i = none := fun i => by
    by_cases hi : i < ncap
    · exact hraw i hi
    · exact h.nbeyond i (by omega)
  unfold freeUnless
  by_cases hni : nb = ib
  · subst hni
    rw [if_neg (by simp), wp_pure]
    exact hQ s rfl rfl rfl
      { wf := h.wf, ibk := h.ibk, own := h.own, iraw := fun _ => hnm, beyond := h.beyond,
        fmem := fun c h1 h2 => h.fmem c h1 h2 h2, fblk := fun c h1 h2 => h.fblk c h1 h2 h2,
        hmem := h.hmem, hblk := h.hblk, himem := h.himem, hiblk := h.hiblk }
  rw [if_pos (by simpa using hni)]
  obtain rfl := hn hni
  rcases h.nown with ⟨h0, _⟩ | ⟨_, h0, _, hbk⟩
  · exact absurd h0 hni
  refine wp_deallocate (ptr0_ne_null h0) hbk rfl hraw ?_
  intro s' hm hn ht hb
  simp only at hb
  refine hQ s' hm hn ht ?_
  constructor
  · exact h.wf.dealloc hm hn hb hnm
  · rw [hb, if_neg (Ne.symm hni)]; exact h.ibk
  · rw [hb, if_neg (Ne.symm h.ne)]; exact h.own
  · intro hbi i; rw [hm]; exact h.iraw hbi hni i
  · intro i hi; rw [hm]; exact h.beyond i hi
  · intro c hc hci i
    rw [hm]
    by_cases hcn : c = nb
    · rw [hcn, hnm, h.nhmem]
    · exact h.fmem c hc hci hcn i
  · intro c hc hci
    rw [hb]
    by_cases hcn : c = nb
    · rw [if_pos hcn, hcn, h.nhblk]
    · rw [if_neg hcn]; exact h.fblk c hc hci hcn
  · exact h.hmem
  · exact h.hblk
  · exact h.himem
  · exact h.hiblk

theorem Store2.switch (h : Store2 H s al ib N b cap nb ncap)
    (hb : b = ib ∨ b = 0) (hold : ∀ i, s.mem b i = none) : Store H s al ib N nb ncap where
  wf := h.wf
  ibk := h.ibk
  own := by
    rcases h.nown with h1 | h1
    · exact Or.inl h1
    · exact Or.inr (Or.inr h1)
  iraw := fun hni i => by
    by_cases hbi : b = ib
    · rw [← hbi]; exact hold i
    · exact h.iraw hbi hni i
  beyond := h.nbeyond
  fmem := fun c h1 h2 i => by
    by_cases hcb : c = b
    · rw [hcb, hold, h.hmem]
    · exact h.fmem c hcb h2 h1 i
  fblk := fun c h1 h2 => by
    by_cases hcb : c = b
    · rcases hb with hb | hb
      · exact absurd (hcb.trans hb) h2
      · rw [hcb, h.hblk, hb]; exact h.wf.blk_zero
    · exact h.fblk c hcb h2 h1
  hmem := h.nhmem
  hblk := h.nhblk
  himem := h.himem
  hiblk := h.hiblk

/-- The old storage is raw: release it; the new storage becomes the storage. -/
theorem Store2.commit {X : Exn → St α → Prop} {Q : Unit → St α → Prop}
    (h : Store2 H s al ib N b cap nb ncap)
    (hold : ∀ i, s.mem b i = none)
    (hQ : ∀ s', s'.mem = s.mem → s'.next = s.next → s'.tick = s.tick → Store H s' al ib N nb ncap → Q () s') :
    wp (freeUnless ib al ⟨b, 0⟩ cap) Q X s := by
  unfold freeUnless
  rcases h.own with ⟨h0, _⟩ | ⟨h0, _⟩ | ⟨hc, h0, hbi, hbk⟩
  · rw [if_neg (by simp [h0]), wp_pure]
    exact hQ s rfl rfl rfl (h.switch (Or.inl h0) hold)
  · have hsw := h.switch (Or.inr h0) hold
    subst h0
    split
    · exact wp_deallocate_null (hQ s rfl rfl rfl hsw)
    · exact hQ s rfl rfl rfl hsw
  rw [if_pos (by simpa using hbi)]
  refine wp_deallocate (ptr0_ne_null h0) hbk rfl (fun k _ => hold k) ?_
  intro s' hm hn ht hb'
  simp only at hb'
  refine hQ s' hm hn ht ?_
  constructor
  · exact h.wf.dealloc hm hn hb' hold
  · rw [hb', if_neg (Ne.symm hbi)]; exact h.ibk
  · rw [hb', if_neg h.ne]
    rcases h.nown with h1 | h1
    · exact Or.inl h1
    · exact Or.inr (Or.inr h1)
  · intro hni i; rw [hm]; exact h.iraw hbi hni i
  · intro i hi; rw [hm]; exact h.nbeyond i hi
  · intro c h1 h2 i
    rw [hm]
    by_cases hcb : c = b
    · rw [hcb, hold, h.hmem]
    · exact h.fmem c hcb h2 h1 i
  · intro c h1 h2
    rw [hb']
    by_cases hcb : c = b
    · rw [if_pos hcb, hcb, h.hblk]
    · rw [if_neg hcb]; exact h.fblk c hcb h2 h1
  · exact h.nhmem
  · exact h.nhblk
  · exact h.himem
  · exact h.hiblk

/-- The storage is raw: release it; the container falls back to its (raw) internal storage. -/
theorem Store.release {X : Exn → St α → Prop} {Q : Unit → St α → Prop}
    (h : Store H s al ib N b cap) (hold : ∀ i, s.mem b i = none)
    (hQ : ∀ s', s'.mem = s.mem → s'.next = s.next → s'.tick = s.tick → Store H s' al ib N ib N → Q () s') :
    wp (freeUnless ib al ⟨b, 0⟩ cap) Q X s := by
  unfold freeUnless
  by_cases hbi : b = ib
  · subst hbi
    rw [if_neg (by simp), wp_pure]
    refine hQ s rfl rfl rfl ?_
    exact { h with own := Or.inl ⟨rfl, rfl⟩, beyond := fun i _ => hold i }
  · have h2 := (h.useInternal hbi).1
    have := h2.commit (X := X) (Q := Q) hold hQ
    unfold freeUnless at this
    exact this

/-- Turn "the first `n` cells are alive, the rest raw" into a list. -/
theorem exists_list {f : Nat → Option α} (n : Nat) (h : ∀ i, (f i).isSome ↔ i < n) :
    ∃ ys : List α, ys.length = n ∧ ∀ i, f i = ys[i]? := by
  induction n generalizing f with
  | zero =>
    refine ⟨[], rfl, fun i => ?_⟩
    have := h i
    simp at this; simp [this]
  | succ n ih =>
    obtain ⟨v, hv⟩ := Option.isSome_iff_exists.mp ((h 0).mpr (by omega))
    obtain ⟨ys, hl, hy⟩ := ih (f := fun i => f (i + 1)) (fun i => by rw [h (i + 1)]; omega)
    refine ⟨v :: ys, by simp [hl], fun i => ?_⟩
    cases i with
    | zero => simpa using hv
    | succ i => simpa using hy i

theorem value_of_mem {a : Arg α} (hm : s'.mem = s.mem) : a.value s' = a.value s :=
  value_congr (fun q _ => by rw [hm])

/-- The elements are nothrow move constructible or copyable: the documented condition for the
strong guarantee (docs: reserve, shrink_to_fit). -/
def Strong (E : Env α) : Prop := E.nothrowMoveCtor = true ∨ E.copyable = true

end Sfl
