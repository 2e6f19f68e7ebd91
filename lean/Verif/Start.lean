import Verif.SVImpl
/-
  Starting and ending a container's life in an arbitrary memory.
-/

namespace Sfl
variable {α : Type} {E : Env α} {H : Heap α} {al ib N : Nat} {m m' : St α}

/-- The foreign memory around a container with internal storage `ib`: everything else. -/
def Heap.around (m : St α) (ib : Nat) : Heap α where
  mem := fun c i => if c = ib then none else m.mem c i
  blk := fun c => if c = ib then none else m.blk c

/-- The internal storage of an object under construction: `N` raw slots belonging to no allocator,
or nothing at all (block 0) for containers without internal storage and for `N == 0`. -/
structure RawObject (m : St α) (ib N : Nat) : Prop where
  wf : m.Wf
  blk : (ib = 0 ∧ N = 0) ∨ m.blk ib = some ⟨N, none⟩
  raw : ∀ i, m.mem ib i = none

theorem RawObject.gone (h : RawObject m ib N) : Gone (Heap.around m ib) al ib N m where
  st :=
    { wf := h.wf
      ibk := h.blk
      own := Or.inl ⟨rfl, rfl⟩
      iraw := fun h' => absurd rfl h'
      beyond := fun i _ => h.raw i
      fmem := fun c _ hc i => by simp [Heap.around, hc]
      fblk := fun c _ hc => by simp [Heap.around, hc]
      hmem := fun i => by simp [Heap.around]
      hblk := by simp [Heap.around]
      himem := fun i => by simp [Heap.around]
      hiblk := by simp [Heap.around] }
  raw := h.raw

theorem RawObject.nothing (hw : m.Wf) : RawObject m 0 0 :=
  ⟨hw, Or.inl ⟨rfl, rfl⟩, fun i => hw.dead 0 hw.blk_zero i⟩

/-- When nothing of the container is left, memory is as it was before the container existed. -/
theorem Gone.restored (h : RawObject m ib N) (g : Gone (Heap.around m ib) al ib N m') :
    m'.mem = m.mem ∧ m'.blk = m.blk := by
  constructor
  · funext c i
    by_cases hc : c = ib
    · rw [hc, g.raw, h.raw]
    · rw [g.st.fmem c hc hc]; simp [Heap.around, hc]
  · funext c
    by_cases hc : c = ib
    · subst hc
      rcases h.blk with ⟨h1, _⟩ | h1
      · subst h1; rw [g.st.wf.blk_zero, h.wf.blk_zero]
      · rcases g.st.ibk with ⟨h2, _⟩ | h2
        · subst h2; rw [g.st.wf.blk_zero, h.wf.blk_zero]
        · rw [h1, h2]
    · rw [g.st.fblk c hc hc]; simp [Heap.around, hc]

/-- Two states with the same storage have the same blocks. -/
theorem VSt.blk_eq {o o' : Obj Vec α} {b cap : Nat} {xs ys : List α} (h : VSt H E ib N o al b cap xs)
    (h' : VSt H E ib N o' al b cap ys) : o'.m.blk = o.m.blk := by
  funext c
  have hib : o'.m.blk ib = o.m.blk ib := by
    rcases h.st.ibk with ⟨h1, h2⟩ | h1
    · rw [h1, h.st.wf.blk_zero, h'.st.wf.blk_zero]
    · rcases h'.st.ibk with ⟨h3, h4⟩ | h3
      · rw [h3, h.st.wf.blk_zero, h'.st.wf.blk_zero]
      · rw [h1, h3]
  by_cases hb : c = b
  · rcases h.st.own with ⟨h1, _⟩ | ⟨h1, _⟩ | ⟨_, h1, h2, h3⟩
    · rw [hb, h1]; exact hib
    · rw [hb, h1, h.st.wf.blk_zero, h'.st.wf.blk_zero]
    · rcases h'.st.own with ⟨h4, _⟩ | ⟨h4, _⟩ | ⟨_, _, _, h4⟩
      · exact absurd h4 h2
      · exact absurd h4 h1
      · rw [hb, h3, h4]
  by_cases hi : c = ib
  · rw [hi]; exact hib
  rw [h.st.fblk c hb hi, h'.st.fblk c hb hi]

/-- Two states with the same storage and the same elements are the same state (apart from counters). -/
theorem VSt.eq {o o' : Obj Vec α} {b cap : Nat} {xs : List α} (h : VSt H E ib N o al b cap xs)
    (h' : VSt H E ib N o' al b cap xs) : o'.obj = o.obj ∧ o'.m.mem = o.m.mem ∧ o'.m.blk = o.m.blk := by
  refine ⟨by rw [h.obj, h'.obj], ?_, h.blk_eq h'⟩
  funext c i
  by_cases hb : c = b
  · rw [hb, h.cells, h'.cells]
  by_cases hi : c = ib
  · rw [hi, h.st.iraw (by rw [← hi]; exact Ne.symm hb), h'.st.iraw (by rw [← hi]; exact Ne.symm hb)]
  rw [h.st.fmem c hb hi, h'.st.fmem c hb hi]

theorem wp_elim {σ β : Type} {p : M σ β} {Q : β → σ → Prop} {s : σ} (h : wp p Q (fun _ _ => False) s) :
    ∃ r s', p s = .ok r s' ∧ Q r s' := by
  unfold wp at h
  cases hp : p s with
  | ok r s' => rw [hp] at h; exact ⟨r, s', rfl, h⟩
  | exn e s' => rw [hp] at h; exact h.elim
  | ub r => rw [hp] at h; exact h.elim

theorem VSt.size_eq {o o1 : Obj Vec α} {b cap n : Nat} {xs : List α} (h : VSt H E ib N o al b cap xs)
    (hn : Vector.size o = .ok n o1) : n = xs.length := by
  have := wp_size (Q := fun n _ => n = xs.length) (X := fun _ _ => False) h.obj rfl
  rw [wp, hn] at this
  exact this

end Sfl
