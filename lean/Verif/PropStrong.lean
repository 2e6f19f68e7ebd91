import Verif.PropDevector
import Verif.PropCompact
/-
  C54: operations of devector and compact_vector without effect when they throw.
-/

namespace Sfl
open World
variable {α : Type}

/-- Nothing observable has changed: the data members are the same, and so are the blocks and the contents of every cell
of memory. Elements have kept their addresses. -/
structure Untouched {V : Type} (o o' : Obj V α) : Prop where
  obj : o'.obj = o.obj
  mem : o'.m.mem = o.m.mem
  blk : o'.m.blk = o.m.blk

namespace Devector
variable {E : Env α} {H : Heap α} {al b cap f k s : Nat} {o o' : Obj DVec α} {xs : List α}

theorem DSt.untouched (h : DSt H E o al b cap f xs) (h' : DSt H E o' al b cap f xs) : Untouched o o' := by
  refine ⟨by rw [h.obj, h'.obj], ?_, ?_⟩
  · funext c i
    by_cases hb : c = b
    · rw [hb, h.cells, h'.cells]
    by_cases hi : c = 0
    · rw [hi, h.st.iraw (by rw [← hi]; exact Ne.symm hb), h'.st.iraw (by rw [← hi]; exact Ne.symm hb)]
    rw [h.st.fmem c hb hi, h'.st.fmem c hb hi]
  · funext c
    by_cases hz : c = 0
    · rw [hz, h.st.wf.blk_zero, h'.st.wf.blk_zero]
    by_cases hb : c = b
    · have hb0 : b ≠ 0 := fun e => hz (hb.trans e)
      rcases h.st.own with ⟨h1, _⟩ | ⟨h1, _⟩ | ⟨_, _, _, h3⟩
      · exact absurd h1 hb0
      · exact absurd h1 hb0
      · rcases h'.st.own with ⟨h4, _⟩ | ⟨h4, _⟩ | ⟨_, _, _, h4⟩
        · exact absurd h4 hb0
        · exact absurd h4 hb0
        · rw [hb, h3, h4]
    · rw [h.st.fblk c hb hz, h'.st.fblk c hb hz]

/-- The operations that are to leave nothing behind when they throw, if reallocations move or copy without changing the
source: those of devector.md:665-745. -/
def stores : Dq.Op α → Bool
  | .reserveFront _ => true
  | .reserveBack _ => true
  | .shrinkToFit => true
  | _ => false

/-- The operations that insert one element. -/
def inserts : Dq.Op α → Bool
  | .pushFront _ => true
  | .pushBack _ => true
  | .emplace _ _ => true
  | _ => false

theorem exec_stores (op : Dq.Op α) (hop : stores op = true) (h : DSt H E o al b cap f xs) :
    wp (exec E op) (fun _ _ => True)
      (fun _ o' => ∃ xs', DSt H E o' al b cap f xs' ∧ xs'.length = xs.length ∧ (Strong E → xs' = xs)) o := by
  cases op <;> simp only [stores, Bool.false_eq_true] at hop <;> simp only [exec, wp_bind, wp_pure]
  · exact wp_mono (reserveFront_spec h) (fun _ _ _ => trivial) (fun _ _ ⟨xs', k1, k2, k3, _⟩ => ⟨xs', k1, k2, k3⟩)
  · exact wp_mono (reserveBack_spec h) (fun _ _ _ => trivial) (fun _ _ ⟨xs', k1, k2, k3, _⟩ => ⟨xs', k1, k2, k3⟩)
  · exact wp_mono (shrinkToFit_spec h) (fun _ _ _ => trivial) (fun _ _ ⟨xs', k1, k2, k3, _⟩ => ⟨xs', k1, k2, k3⟩)

theorem exec_inserts (op : Dq.Op α) (hop : inserts op = true) (hE : NothrowMove E) (hp : op.pre xs.length = true)
    (h : DSt H E o al b cap f xs) :
    wp (exec E op) (fun _ _ => True) (fun _ o' => DSt H E o' al b cap f xs) o := by
  have fin : ∀ {bug P : Prop} {e : Exn} {o' : Obj DVec α}, Broken H E al b cap f xs true bug P e o' →
      DSt H E o' al b cap f xs := by
    intro bug P e o' k
    obtain ⟨xs', k1, _, k3⟩ := k.safe (Or.inr (Or.inr ⟨rfl, hE⟩))
    rw [k3 rfl hE] at k1
    exact k1
  cases op <;> simp only [inserts, Bool.false_eq_true] at hop <;> simp only [exec, wp_bind]
  · refine wp_argOf h hp fun a v hg hv hsrc _ => ?_
    refine wp_mono (emplaceFrontAux_spec h hv hsrc) ?_ (fun _ _ k => fin k)
    rintro p o1 ⟨b', cap', f', k1, rfl⟩
    exact wp_indexOf k1 (by simp) trivial
  · refine wp_argOf h hp fun a v hg hv hsrc _ => ?_
    refine wp_mono (emplaceBackAux_spec h hv hsrc) ?_ (fun _ _ k => fin k)
    rintro p o1 ⟨b', cap', f', k1, rfl⟩
    exact wp_indexOf k1 (by simp) trivial
  · rename_i k s
    obtain ⟨hk, hs⟩ : k ≤ xs.length ∧ s.ok xs.length = true := by simpa [Dq.Op.pre] using hp
    refine wp_argOf h hs fun a v hg hv hsrc _ => wp_nth h hk ?_
    refine wp_mono (emplace_spec h hv hsrc hk) ?_ (fun _ _ k => fin k)
    rintro p o1 ⟨b', cap', f', k1, rfl⟩
    exact wp_indexOf k1 (by simp; omega) trivial

end Devector

/-- **C54** (devector). `reserve_front`, `reserve_back` and `shrink_to_fit` that throw have no effects if elements have
a noexcept move constructor or a copy constructor (devector.md:672-677); otherwise the devector keeps its storage, its
free space at both ends and the number of its elements. -/
theorem devector_reserve_strong {E : Env α} {o o' : Obj DVec α} {f s : Nat} {xs : List α}
    (h : Devector.Layout E o f xs s) (op : Dq.Op α) (hop : Devector.stores op = true) {e : Exn}
    (hx : Devector.exec E op o = .exn e o') :
    (E.nothrowMoveCtor = true ∨ E.copyable = true → Untouched o o') ∧
    ∃ ys, Devector.Layout E o' f ys s ∧ ys.length = xs.length ∧ o'.obj = o.obj := by
  obtain ⟨b, h⟩ := h.dst
  obtain ⟨ys, k1, k2, k3⟩ := wp_exn hx (Devector.exec_stores op hop h)
  refine ⟨fun hE => ?_, ys, ?_, k2, ?_⟩
  · rw [k3 hE] at k1
    exact h.untouched k1
  · have := k1.layout
    rw [k2, show f + xs.length + s - (f + xs.length) = s by omega] at this
    exact this
  · rw [k1.obj, h.obj, k2]

/-- The hypotheses are met: `3, 4, 5` with two free cells in front of them, a reservation at each end and the release
of the free cells, each refused by the allocator. -/
example : ∃ ts o, Devector.Layout (Demo.env ts) o 2 [3, 4, 5] 0 ∧
    (∃ e o', Devector.exec (Demo.env ts) (.reserveFront 9) o = .exn e o') ∧
    (∃ e o', Devector.exec (Demo.env ts) (.reserveBack 9) o = .exn e o') ∧
    ∃ e o', Devector.exec (Demo.env ts) .shrinkToFit o = .exn e o' :=
  ⟨[6], _, Demo.front2_layout [6] (by decide +kernel) (by decide +kernel), Demo.exn_of (by decide +kernel),
    Demo.exn_of (by decide +kernel), Demo.exn_of (by decide +kernel)⟩

/-- **C54** (devector). An insertion of one element (`push_front`, `push_back`, `emplace_front`, `emplace_back`,
`insert`, `emplace` at any position, the argument possibly an element of the devector) that throws has no effects if
elements can be moved without exceptions, in every layout, also those in which insertions of several elements or of
other elements go wrong (C20). -/
theorem devector_insert_strong {E : Env α} {o o' : Obj DVec α} {f s : Nat} {xs : List α}
    (h : Devector.Layout E o f xs s) (op : Dq.Op α) (hop : Devector.inserts op = true) (hp : op.pre xs.length = true)
    (h1 : E.nothrowMoveCtor = true) (h2 : E.nothrowMoveAssign = true) {e : Exn}
    (hx : Devector.exec E op o = .exn e o') : Untouched o o' := by
  obtain ⟨b, h⟩ := h.dst
  exact h.untouched (wp_exn hx (Devector.exec_inserts op hop ⟨h1, h2⟩ hp h))

/-- The hypotheses are met, in a layout with a faulty scope guard (`devector_insert_throw_front`). -/
example : ∃ (E : Env Nat) (o : Obj DVec Nat), Devector.Layout E o 2 [3, 4, 5] 0 ∧ E.nothrowMoveCtor = true ∧
    E.nothrowMoveAssign = true ∧
    (∃ e o', Devector.exec E (.emplace 2 (.elem 0)) o = .exn e o') ∧
    (∃ e o', Devector.exec E (.pushFront (.elem 0)) o = .exn e o') ∧
    ∃ e o', Devector.exec E (.pushBack (.value 9)) o = .exn e o' :=
  ⟨{ Demo.env [6] with nothrowMoveCtor := true, nothrowMoveAssign := true }, _,
    Demo.dv_layout (Demo.dv_reached _ Demo.T Demo.front2 0 (by decide +kernel)) (by decide +kernel), rfl, rfl,
    Demo.exn_of (by decide +kernel), Demo.exn_of (by decide +kernel), Demo.exn_of (by decide +kernel)⟩

namespace CompactVector
variable {E : Env α} {H : Heap α} {al b : Nat} {o o' : Obj Vec α} {xs : List α} {quiet : Bool}

theorem exec_strong (op : Sq.Op α) (hop : strong op = true) (hp : op.pre xs.length = true) (h : CSt H E o al b xs) :
    wp (CompactVector.exec E op) (fun _ _ => True) (fun _ o' => Left H E al b xs (Strong E) o') o := by
  cases op <;> simp only [strong, Bool.false_eq_true] at hop <;> simp only [CompactVector.exec, wp_bind, wp_pure]
  · refine wp_argOf h hp fun a v hg hv hsrc => ?_
    refine wp_mono (emplaceBack_spec h hv hsrc) ?_ (fun _ _ k => k.1)
    rintro p o1 ⟨b1, k1, hp⟩
    exact wp_indexOf k1 hp trivial
  · rename_i k s
    obtain ⟨hk, hs⟩ : k ≤ xs.length ∧ s.ok xs.length = true := by simpa [Sq.Op.pre] using hp
    refine wp_argOf h hs fun a v hg hv hsrc => wp_nth h ?_
    refine wp_mono (emplace_spec h hv hsrc hk) ?_ (fun _ _ k => k.1)
    rintro p o1 ⟨b1, k1, hp⟩
    exact wp_indexOf k1 hp trivial
  · rename_i k n s
    obtain ⟨hk, hs⟩ : k ≤ xs.length ∧ s.ok xs.length = true := by simpa [Sq.Op.pre] using hp
    refine wp_argOf h hs fun a v hg hv hsrc => wp_nth h ?_
    refine wp_mono (insertFillN_spec h hv hsrc hk) ?_ (fun _ _ k => k.1)
    rintro p o1 ⟨b1, k1, hp⟩
    exact wp_indexOf k1 hp trivial
  · have hk : 0 < xs.length := by simpa [Sq.Op.pre] using hp
    exact wp_mono (popBack_spec h hk) (fun _ _ _ => trivial) (fun _ _ k => k.1)
  · have hk := of_decide_eq_true hp
    refine wp_nth h ?_
    refine wp_mono (eraseAt_spec h hk) ?_ (fun _ _ k => k.1)
    rintro p o1 ⟨b1, k1, hp⟩
    exact wp_indexOf k1 hp trivial
  · obtain ⟨hkl, hl⟩ : _ ∧ _ := by simpa [Sq.Op.pre] using hp
    refine wp_nth h (wp_nth h ?_)
    refine wp_mono (eraseRange_spec h hkl hl) ?_ (fun _ _ k => k.1)
    rintro p o1 ⟨b1, k1, hp⟩
    exact wp_indexOf k1 hp trivial

end CompactVector

/-- **C54** (compact_vector). `push_back`, `emplace`, `insert` of one element or `n` copies, `pop_back` and `erase` that
throw have no effects if elements have a noexcept move constructor or a copy constructor; otherwise storage and number of
elements are kept. -/
theorem compactVector_strong {K : Nat} {E : Env α} {T : Traits} {quiet : Bool} {m0 : St α} {i : Fin K} {o o' : Obj Vec α}
    (hw : m0.Wf) (hq : quiet = true → ∀ t, E.throws t = false)
    (h : Reached (CompactVector.cont K E T) (CompactVector.sem E T quiet) m0 i o)
    {n : Nat} {o1 : Obj Vec α} (hn : CompactVector.size o = .ok n o1)
    (op : Sq.Op α) (hop : CompactVector.strong op = true) (hp : op.pre n = true) {e : Exn}
    (hx : CompactVector.exec E op o = .exn e o') :
    (E.nothrowMoveCtor = true ∨ E.copyable = true → Untouched o o') ∧ o'.obj = o.obj ∧ o'.m.blk = o.m.blk := by
  obtain ⟨H, al, b, xs, hv⟩ := h.compact hw hq
  obtain rfl : n = xs.length := by
    have := wp_ok hn (CompactVector.wp_size (Q := fun n _ => n = xs.length) (X := fun _ _ => True) hv rfl)
    exact this
  obtain ⟨ys, k1, k2, k3⟩ := wp_exn hx (CompactVector.exec_strong op hop hp hv)
  refine ⟨fun hE => ?_, ?_, ?_⟩
  · rw [k3 hE] at k1
    obtain ⟨g1, g2, g3⟩ := VSt.eq hv k1
    exact ⟨g1, g2, g3⟩
  · rw [k1.obj, hv.obj, k2]
  · refine VSt.blk_eq hv (ys := ys) ?_
    have := k1
    unfold CSt at this
    rw [k2] at this
    exact this

/-- The hypotheses are met: an insertion that throws when two elements have been copied to the new storage, and an
erasure. -/
example : Reached (CompactVector.cont 2 (Demo.env [8]) Demo.T) (CompactVector.sem (Demo.env [8]) Demo.T false) Demo.m1 0
      (Demo.cv (Demo.env [8]) [1, 2, 3]) ∧ (∃ o1, CompactVector.size (Demo.cv (Demo.env [8]) [1, 2, 3]) = .ok 3 o1) ∧
    (Demo.env [8]).copyable = true ∧
    (∃ e o', CompactVector.exec (Demo.env [8]) (.emplace 1 (.elem 2)) (Demo.cv (Demo.env [8]) [1, 2, 3]) = .exn e o') ∧
    ∃ e o', CompactVector.exec (Demo.env [6]) (.eraseAt 1) (Demo.cv (Demo.env [6]) [1, 2, 3]) = .exn e o' :=
  ⟨Demo.cv_reached _ _ (by decide +kernel), Demo.ok_of (by decide +kernel), rfl, Demo.exn_of (by decide +kernel),
    Demo.exn_of (by decide +kernel)⟩

end Sfl
