import Verif.DevAlias
import Verif.CalmAll
import Verif.PropSegVec
/-
  Properties of sfl::devector: C18, C19, C20, C21, and its share of C09, C10, C40, C41, C42. The theorems are about
  all layouts (free space at the front and at the back), or about containers in arbitrary programs.
-/

namespace Sfl
open Sq World
variable {α : Type}

/-- devector as a client sees it. -/
def Devector.impl (E : Env α) : Impl (Dq.Op α) DVec α where
  size := Devector.size
  index := Devector.index
  exec := Devector.exec E
  destroy := Devector.destroy

/-- The devector `o` is valid: it has the elements `xs`, with `front` free cells before and `back` free cells behind them, in one
block of exactly that size which was allocated with the allocator of the container, or it has no block at all. The free
cells hold no objects. -/
structure Devector.Layout (E : Env α) (o : Obj DVec α) (front : Nat) (xs : List α) (back : Nat) : Prop where
  wf : o.m.Wf
  own : ∃ b, Devector.DOwn E o.m o.obj o.obj.alloc b (front + xs.length + back) front xs

/-- What an operation that turns the devector `o` into `o'` does to the rest of memory: nothing. If the storage has been
replaced, the old block has been returned and the new one was not in use before. -/
structure Devector.Local (o o' : Obj DVec α) : Prop where
  blk : ∀ c, c ≠ o.obj.bos.blk → c ≠ o'.obj.bos.blk → o'.m.blk c = o.m.blk c
  mem : ∀ c, c ≠ o.obj.bos.blk → c ≠ o'.obj.bos.blk → ∀ i, o'.m.mem c i = o.m.mem c i
  freed : o.obj.bos.blk ≠ o'.obj.bos.blk → o'.m.blk o.obj.bos.blk = none
  fresh : o.obj.bos.blk ≠ o'.obj.bos.blk → o.m.blk o'.obj.bos.blk = none

section
variable {K : Nat} {E : Env α} {T : Traits} {quiet : Bool} {m0 : St α} {o : Obj DVec α} {f s : Nat} {xs : List α}

theorem Devector.start (hw : m0.Wf) (hq : quiet = true → ∀ t, E.throws t = false) :
    Inv (Devector.rep K E) m0 (⟨fun _ => none, m0⟩ : Slots K DVec α) (fun _ => none) (Devector.rep K E).dead :=
  (Devector.spec (T := ⟨false, false, false, id⟩) hq).start hw (fun _ => ⟨Or.inl ⟨rfl, rfl⟩, hw.dead 0 hw.blk_zero⟩)
    (fun _ _ _ _ h => absurd (h.2.elim id id) h.1)

theorem Devector.Layout.dst (h : Devector.Layout E o f xs s) :
    ∃ b, Devector.DSt (Heap.but o.m b 0) E o o.obj.alloc b (f + xs.length + s) f xs := by
  obtain ⟨b, h1⟩ := h.own
  exact ⟨b, h1.dst h.wf (Rest.out _ _)⟩

theorem Devector.DSt.layout {H : Heap α} {al b cap f : Nat} (h : Devector.DSt H E o al b cap f xs) :
    Devector.Layout E o f xs (cap - (f + xs.length)) := by
  have hfit := h.fit
  refine ⟨h.st.wf, b, ?_⟩
  have e1 : f + xs.length + (cap - (f + xs.length)) = cap := by omega
  have e2 : o.obj.alloc = al := by rw [h.obj]
  rw [e1, e2]
  exact h.toOwn

theorem Devector.DSt.local {al b cap f b' al' cap' f' : Nat} {o' : Obj DVec α} {xs xs' : List α}
    (h : Devector.DSt (Heap.but o.m b 0) E o al b cap f xs)
    (h' : Devector.DSt (Heap.but o.m b 0) E o' al' b' cap' f' xs') : Devector.Local o o' := by
  have hb : o.obj.bos.blk = b := by rw [h.obj]
  have hb' : o'.obj.bos.blk = b' := by rw [h'.obj]
  have hw := h.st.wf
  have hw' := h'.st.wf
  constructor <;> rw [hb, hb']
  · intro c h1 h2
    by_cases h0 : c = 0
    · rw [h0, hw.blk_zero, hw'.blk_zero]
    · rw [h'.st.fblk c h2 h0, h.st.fblk c h1 h0]
  · intro c h1 h2 i
    by_cases h0 : c = 0
    · rw [h0, hw.dead 0 hw.blk_zero, hw'.dead 0 hw'.blk_zero]
    · rw [h'.st.fmem c h2 h0, h.st.fmem c h1 h0]
  · intro h1
    by_cases h0 : b = 0
    · rw [h0, hw'.blk_zero]
    · rw [h'.st.fblk b h1 h0, h.st.hblk]
  · intro h1
    by_cases h0 : b' = 0
    · rw [h0, hw.blk_zero]
    · rw [h.st.fblk b' (Ne.symm h1) h0, h'.st.hblk]

theorem Devector.contents_spec {H : Heap α} {al b cap f : Nat} (h : Devector.DSt H E o al b cap f xs) :
    (Devector.impl E).contents o = .ok xs o := by
  have hsz : (Devector.impl E).size o = .ok xs.length o := by
    obtain ⟨r, o', e, h1, h2⟩ := wp_elim (Devector.wp_size (X := fun _ _ => False)
      (Q := fun r o' => r = xs.length ∧ o' = o) h ⟨rfl, rfl⟩)
    rw [h1, h2] at e
    exact e
  have hread : ∀ n i, i + n = xs.length → (Devector.impl E).readFrom i n o = .ok (xs.drop i) o := by
    intro n
    induction n with
    | zero =>
      intro i hi
      rw [List.drop_eq_nil_of_le (by omega)]; rfl
    | succ n ih =>
      intro i hi
      have hlt : i < xs.length := by omega
      have h1 : (Devector.impl E).index i o = .ok xs[i] o := by
        obtain ⟨r, o', e, h1, h2⟩ := wp_elim (Devector.index_spec (x := xs[i]) h (List.getElem?_eq_getElem hlt))
        rw [h1, h2] at e
        exact e
      unfold Impl.readFrom
      rw [bind_run h1, bind_run (ih (i + 1) (by omega)), List.drop_eq_getElem_cons hlt]
      rfl
  unfold Impl.contents
  rw [bind_run hsz, hread _ 0 (by omega)]
  rfl

/-- A valid devector reports its elements and free space; `reserve_front(n)` and `reserve_back(n)` count the elements in. -/
theorem devector_observe (h : Devector.Layout E o f xs s) :
    (Devector.impl E).contents o = .ok xs o ∧ Devector.size o = .ok xs.length o ∧
    Devector.capacity o = .ok (f + xs.length + s) o ∧ Devector.availableFront o = .ok f o ∧
    Devector.availableBack o = .ok s o ∧
    (∀ k, (h : k < xs.length) → Devector.at' k o = .ok xs[k] o) ∧
    (∀ k, xs.length ≤ k → Devector.at' k o = .exn .outOfRange o) ∧
    (∀ x, xs.head? = some x → Devector.front o = .ok x o) ∧ (∀ x, xs.getLast? = some x → Devector.back o = .ok x o) := by
  obtain ⟨b, h⟩ := h.dst
  obtain ⟨w, m⟩ := o
  obtain ⟨al, hal⟩ : ∃ al, w.alloc = al := ⟨_, rfl⟩
  dsimp only at h
  rw [hal] at h
  obtain rfl : w = _ := h.obj
  have hcell : ∀ k x, xs[k]? = some x → readAt (⟨b, f + k⟩ : Ptr) m = .ok x m := by
    intro k x hk
    have := h.cell k
    dsimp only at this
    unfold readAt
    rw [this, hk]
  have hat : ∀ k, Devector.at' k ⟨⟨⟨b, 0⟩, ⟨b, f⟩, ⟨b, f + xs.length⟩, ⟨b, f + xs.length + s⟩, al⟩, m⟩ =
      if k ≥ xs.length then .exn .outOfRange ⟨⟨⟨b, 0⟩, ⟨b, f⟩, ⟨b, f + xs.length⟩, ⟨b, f + xs.length + s⟩, al⟩, m⟩
      else lift (readAt (⟨b, f + k⟩ : Ptr)) ⟨⟨⟨b, 0⟩, ⟨b, f⟩, ⟨b, f + xs.length⟩, ⟨b, f + xs.length + s⟩, al⟩, m⟩ := by
    intro k
    unfold Devector.at' Devector.size
    simp only [bind_apply, getObj, distance, Ptr.add]
    simp
    split <;> rfl
  refine ⟨Devector.contents_spec h, ?_, ?_, ?_, ?_, fun k hk => ?_, fun k hk => ?_, fun x hx => ?_, fun x hx => ?_⟩
  · unfold Devector.size; simp [bind_apply, getObj, distance]
  · unfold Devector.capacity; simp [bind_apply, getObj, distance]
  · unfold Devector.availableFront; simp [bind_apply, getObj, distance]
  · unfold Devector.availableBack; simp [bind_apply, getObj, distance]
  · rw [hat, if_neg (by omega)]
    unfold lift
    rw [hcell k _ (List.getElem?_eq_getElem hk)]
  · rw [hat, if_pos hk]
  · have hne : xs.length ≠ 0 := fun h0 => by rw [List.length_eq_zero_iff.mp h0] at hx; cases hx
    unfold Devector.front
    simp only [bind_apply, getObj, M.assert]
    have : (⟨b, f⟩ : Ptr) ≠ ⟨b, f + xs.length⟩ := by simp; exact fun h => hne (by simp [h])
    simp only [this, ne_eq, not_false_eq_true, if_true]
    unfold lift
    have := hcell 0 x (by rw [← hx, List.head?_eq_getElem?])
    rw [Nat.add_zero] at this
    rw [this]
  · have hne : xs.length ≠ 0 := fun h0 => by rw [List.length_eq_zero_iff.mp h0] at hx; cases hx
    unfold Devector.back
    simp only [bind_apply, getObj, M.assert]
    have : (⟨b, f⟩ : Ptr) ≠ ⟨b, f + xs.length⟩ := by simp; exact fun h => hne (by simp [h])
    simp only [this, ne_eq, not_false_eq_true, if_true]
    unfold lift
    have e : (⟨b, f + xs.length⟩ : Ptr).sub 1 = ⟨b, f + (xs.length - 1)⟩ := by
      unfold Ptr.sub; rw [if_pos (by dsimp only; omega)]; dsimp only; congr 1; omega
    rw [e, hcell (xs.length - 1) x (by rw [← hx, List.getLast?_eq_getElem?])]

/-- Every devector in every program is valid. -/
theorem devector_reached {i : Fin K} (hw : m0.Wf) (hq : quiet = true → ∀ t, E.throws t = false)
    (h : Reached (Devector.cont K E T) (Devector.sem E T quiet) m0 i o) : ∃ f xs s, Devector.Layout E o f xs s := by
  obtain ⟨hw', al, xs, F, ⟨b, cap, f, k, -⟩⟩ := h.rep (Devector.spec (T := T) hq) (Devector.start hw hq)
  exact ⟨f, xs, _, (k.dst hw' (Rest.out _ _)).layout⟩

/-! ### Whole programs: C18, C20, C40, C41, C42 -/

/-- **C18, C20, C40, C41, C42.** Any program with any number of devectors (constructors, copies, moves, assignments, swaps,
modifiers in any order), followed by reading all containers and destroying them, has no undefined behaviour, in particular
every block is returned at its address, with its size and to its allocator; outcomes, elements and allocators are
those of lists (`Devector.sem`); in the end memory is what it was, also if operations threw. With `quiet`, no element
operation and no allocation throws; without, anything may throw.

Missing from the full statement are the calls excluded by `Devector.pre` and `Devector.sem`, in which the code is
wrong: with exceptions, insertions of several elements between others and of one element at position `(size() + 1) / 2` if
moving elements may throw (`devector_insert_throw_front`, `devector_insert_throw_back`); `insert(pos, n, c[i])` and growing
`resize*(n, c[i])` (`devector_insert_alias`, `devector_resize_alias`); and the assignments between devectors that give up the storage
of the target (`devector_assign_move_reset`, `devector_assign_copy_reset`). -/
theorem devector_session_partial (K : Nat) (E : Env α) (T : Traits) (quiet : Bool)
    (hq : quiet = true → ∀ t, E.throws t = false) (m0 : St α) (hw : m0.Wf)
    (ops : List (WOp K (Dq.Op α) (Sq.Init α))) :
    ∃ log A o', World.session (Devector.cont K E T) (Devector.sem E T quiet) ops ⟨fun _ => none, m0⟩ =
        .ok (log, (List.finRange K).map A) o' ∧
      WRun (Devector.sem E T quiet) (fun _ => none) ops log A ∧ o'.m.mem = m0.mem ∧ o'.m.blk = m0.blk :=
  (Devector.spec hq).session hw (fun _ => ⟨Or.inl ⟨rfl, rfl⟩, hw.dead 0 hw.blk_zero⟩)
    (fun _ _ _ _ h => absurd (h.2.elim id id) h.1) ops

/-! ### Single operations: C18, C20 -/

/-- The value argument of an operation is not an element of the devector, unless the operation copies it first
(`emplace`, `push_front`, `push_back`). -/
def Devector.plain : Dq.Op α → Bool
  | .insertN _ _ s => Devector.own s
  | .resizeV _ s => Devector.own s
  | .resizeFrontV _ s => Devector.own s
  | .resizeBackV _ s => Devector.own s
  | _ => true

/-- **C18.** In the absence of exceptions of elements and allocators, every modifier of a devector with any split of the free
space has no undefined behaviour; it has the result of the list operation, and touches nothing but the storage of
the devector, which is replaced or not but not lost. (Only length_error remains; then the devector is valid and
has its elements, or in the case of operations that work step by step some more.) Arguments that are elements of the devector are C21. -/
theorem devector_modify (h : Devector.Layout E o f xs s) (hq : ∀ t, E.throws t = false) (op : Dq.Op α)
    (hp : op.pre xs.length = true) (ha : Devector.plain op = true) :
    (∀ u, Devector.exec E op o ≠ .ub u) ∧
    (∀ r o', Devector.exec E op o = .ok r o' → ∃ f' ys s', Devector.Layout E o' f' ys s' ∧ Dq.okStep E xs op r ys ∧
      Devector.Local o o') ∧
    (∀ e o', Devector.exec E op o = .exn e o' → ∃ f' ys s', Devector.Layout E o' f' ys s' ∧ Devector.Failure E xs op e ys ∧
      Devector.Local o o' ∧ e = .lengthError) := by
  have : Silent E := ⟨hq⟩
  have : Allows (fun e => e = .lengthError) .lengthError := ⟨rfl⟩
  obtain ⟨b, h⟩ := h.dst
  have hp' : Devector.pre E true xs.length op = true := by
    cases op <;> simp_all [Devector.pre, Dq.Op.pre, Devector.plain]
  have hs := Devector.exec_spec (fun _ => hq) op h hp'
  refine ⟨fun u => wp_not_ub hs, fun r o' hx => ?_, fun e o' hx => ?_⟩
  · obtain ⟨b', cap', f', ys, k1, k2⟩ := wp_ok hx hs
    exact ⟨f', ys, _, k1.layout, k2, h.local k1⟩
  · obtain ⟨b', cap', f', ys, k1, k2⟩ := wp_exn hx hs
    exact ⟨f', ys, _, k1.layout, k2, h.local k1, Calm.out (L := fun e => e = .lengthError) _ _ _ hx⟩

/-- **C20** for all modifiers: anything may throw; the operations allowed by `Devector.pre` still have no undefined behaviour,
and if they throw the devector is valid, nothing is leaked, and the elements are those of `Devector.Failure`.
Missing: the calls excluded by `Devector.pre`; `devector_insert_partial` covers more of them. -/
theorem devector_modify_partial (h : Devector.Layout E o f xs s) (op : Dq.Op α)
    (hp : Devector.pre E false xs.length op = true) :
    (∀ u, Devector.exec E op o ≠ .ub u) ∧
    (∀ r o', Devector.exec E op o = .ok r o' → ∃ f' ys s', Devector.Layout E o' f' ys s' ∧ Dq.okStep E xs op r ys ∧
      Devector.Local o o') ∧
    (∀ e o', Devector.exec E op o = .exn e o' → ∃ f' ys s', Devector.Layout E o' f' ys s' ∧ Devector.Failure E xs op e ys ∧
      Devector.Local o o') := by
  obtain ⟨b, h⟩ := h.dst
  have hs := Devector.exec_spec (quiet := false) (by simp) op h hp
  refine ⟨fun u => wp_not_ub hs, fun r o' hx => ?_, fun e o' hx => ?_⟩
  · obtain ⟨b', cap', f', ys, k1, k2⟩ := wp_ok hx hs
    exact ⟨f', ys, _, k1.layout, k2, h.local k1⟩
  · obtain ⟨b', cap', f', ys, k1, k2⟩ := wp_exn hx hs
    exact ⟨f', ys, _, k1.layout, k2, h.local k1⟩

/-- The layouts in which an insertion of `n` elements before position `k` of a devector with `f` free cells before and `s`
free cells behind its `len` elements destroys the wrong elements if an element operation throws: insert_aux shifts
all elements by `d` cells and runs into one of the two faulty scope guards. -/
def Devector.Faulty (f len s k n : Nat) : Prop :=
  if k < len - k then
    /- towards the back (2712-2774): the guard at 2746 destroys nothing -/
    f < n ∧ ∃ d, d = max (n - f) ((f + len) / 2) ∧ d < s ∧ len ≤ d + k ∧ d < n ∧ n ≤ d + k
  else
    /- towards the front (3655-3713): the guard at 3676 destroys too much -/
    s < n ∧ ∃ d, d = max (n - s) ((len + s) / 2) ∧ d < f ∧ d < k ∧ n ≤ d ∧ k + d < len + n

theorem Devector.clash_iff {f len s k n : Nat} :
    Devector.Clash (f + len + s) f len k n ↔ Devector.Faulty f len s k n := by
  unfold Devector.Clash Devector.ClashFront Devector.ClashBack Devector.aF Devector.aB Devector.Faulty
  have e1 : f + len + s - (f + len) = s := by omega
  have e2 : f + len + s - f = len + s := by omega
  rw [e1, e2]
  split <;> simp

/-- **C20.** Insertion of one or several elements at any position of a devector with any split of the free space, when
anything may throw: outside the faulty layouts, or if nothing throws, or if one element is inserted and moving elements does not throw,
there is no undefined behaviour and the insertion either happens as documented, or throws and leaves a valid
devector with the same number of elements and the same storage: nothing is leaked and nothing destroyed twice. If one
element is inserted and moving elements does not throw, nothing has changed. length_error is thrown only if the storage would have to
grow beyond max_size().

Missing: the faulty layouts (`devector_insert_throw_front`, `devector_insert_throw_back`). -/
theorem devector_insert_partial (h : Devector.Layout E o f xs s) (op : Dq.Op α) (k : Nat) (vs : List α) (one : Bool)
    (hop : (∃ a v, op = .emplace k a ∧ a.ok xs.length = true ∧ a.get? xs = some v ∧ vs = [v] ∧ one = true) ∨
      (∃ n a v, op = .insertN k n a ∧ Devector.own a = true ∧ a.get? xs = some v ∧ vs = List.replicate n v ∧ one = false) ∨
      (op = .insertRange k vs ∧ one = false))
    (hk : k ≤ xs.length)
    (hs : ¬ Devector.Faulty f xs.length s k vs.length ∨ (∀ t, E.throws t = false) ∨ (one = true ∧ NothrowMove E)) :
    (∀ u, Devector.exec E op o ≠ .ub u) ∧
    (∀ r o', Devector.exec E op o = .ok r o' → r = some k ∧
      ∃ f' s', Devector.Layout E o' f' (xs.take k ++ vs ++ xs.drop k) s' ∧ Devector.Local o o') ∧
    (∀ e o', Devector.exec E op o = .exn e o' → ∃ ys, Devector.Layout E o' f ys s ∧ ys.length = xs.length ∧
      o'.obj = o.obj ∧ o'.m.blk = o.m.blk ∧ Devector.Local o o' ∧ (one = true → NothrowMove E → ys = xs) ∧
      (e = .lengthError → E.maxSize < (f + xs.length + s) + max vs.length ((f + xs.length + s) / 2))) := by
  obtain ⟨b, h⟩ := h.dst
  rw [← Devector.clash_iff] at hs
  have key : wp (Devector.exec E op) (fun r o' => r = some k ∧ ∃ b' cap' f',
        Devector.DSt (Heap.but o.m b 0) E o' o.obj.alloc b' cap' f' (xs.take k ++ vs ++ xs.drop k))
      (Devector.Broken (Heap.but o.m b 0) E o.obj.alloc b (f + xs.length + s) f xs one
        (Devector.Clash (f + xs.length + s) f xs.length k vs.length)
        (E.maxSize < (f + xs.length + s) + max vs.length ((f + xs.length + s) / 2))) o := by
    have fin : ∀ (p : Devector.DM α Ptr) (P : Prop),
        (P → E.maxSize < (f + xs.length + s) + max vs.length ((f + xs.length + s) / 2)) →
        wp p (Devector.Inserted (Heap.but o.m b 0) E o.obj.alloc xs vs k)
          (Devector.Broken (Heap.but o.m b 0) E o.obj.alloc b (f + xs.length + s) f xs one
            (Devector.Clash (f + xs.length + s) f xs.length k vs.length) P) o →
        wp p (fun q => wp (Devector.indexOf q) (fun r o' => r = some k ∧ ∃ b' cap' f',
            Devector.DSt (Heap.but o.m b 0) E o' o.obj.alloc b' cap' f' (xs.take k ++ vs ++ xs.drop k))
          (Devector.Broken (Heap.but o.m b 0) E o.obj.alloc b (f + xs.length + s) f xs one
            (Devector.Clash (f + xs.length + s) f xs.length k vs.length)
            (E.maxSize < (f + xs.length + s) + max vs.length ((f + xs.length + s) / 2))))
          (Devector.Broken (Heap.but o.m b 0) E o.obj.alloc b (f + xs.length + s) f xs one
            (Devector.Clash (f + xs.length + s) f xs.length k vs.length)
            (E.maxSize < (f + xs.length + s) + max vs.length ((f + xs.length + s) / 2))) o := by
      intro p P hP hp
      refine wp_mono hp ?_ (fun e o' g => ⟨g.safe, fun he => hP (g.len he)⟩)
      rintro q o1 ⟨b', cap', f', k1, rfl⟩
      exact Devector.wp_indexOf k1 (by simp; omega) ⟨rfl, b', cap', f', k1⟩
    rcases hop with ⟨a, v, rfl, ha, hg, rfl, rfl⟩ | ⟨n, a, v, rfl, ha, hg, rfl, rfl⟩ | ⟨rfl, rfl⟩
    · simp only [Devector.exec, wp_bind]
      refine Devector.wp_argOf h ha fun a' v' hg' hv hsrc _ => Devector.wp_nth h hk ?_
      obtain rfl : v = v' := Option.some.inj (hg.symm.trans hg')
      exact fin _ _ (fun h => h) (Devector.emplace_spec h hv hsrc hk)
    · simp only [Devector.exec, wp_bind]
      refine Devector.wp_argOf h (by cases a <;> simp_all [Devector.own, Sq.Src.ok]) fun a' v' hg' hv hsrc hx => Devector.wp_nth h hk ?_
      obtain rfl : v = v' := Option.some.inj (hg.symm.trans hg')
      have := Devector.insertFillN_spec (n := n) h (hx ha) hk
      exact fin _ (0 < n ∧ E.maxSize < (f + xs.length + s) + max n ((f + xs.length + s) / 2)) (fun h => by simpa using h.2)
        (by simpa using this)
    · simp only [Devector.exec, wp_bind]
      exact Devector.wp_nth h hk (fin _ _ (fun h => h.2) (Devector.insertRange_spec h (Exts.vals vs) hk))
  refine ⟨fun u => wp_not_ub key, fun r o' hx => ?_, fun e o' hx => ?_⟩
  · obtain ⟨k1, b', cap', f', k2⟩ := wp_ok hx key
    exact ⟨k1, f', _, k2.layout, h.local k2⟩
  · have k := wp_exn hx key
    obtain ⟨ys, k1, k2, k3⟩ := k.safe hs
    have kl := k1.layout
    rw [k2, show f + xs.length + s - (f + xs.length) = s by omega] at kl
    have hl := h.local k1
    refine ⟨ys, kl, k2, ?_, ?_, hl, k3, k.len⟩
    · rw [h.obj, k1.obj, k2]
    · funext c
      have e1 : o.obj.bos.blk = b := by rw [h.obj]
      have e2 : o'.obj.bos.blk = b := by rw [k1.obj]
      by_cases hc : c = b
      · subst hc
        by_cases h0 : c = 0
        · rw [h0, h.st.wf.blk_zero, k1.st.wf.blk_zero]
        · rw [h.toOwn.b_some h0, k1.toOwn.b_some h0]
      · exact hl.blk c (by rw [e1]; exact hc) (by rw [e2]; exact hc)

/-- **C18**, `reserve_front`, `reserve_back`, `shrink_to_fit` provide the free space they promise, keep the elements and
the free space at the other end; they do nothing if there is nothing to do. -/
theorem devector_reserve (h : Devector.Layout E o f xs s) (n : Nat) :
    (∀ o', Devector.reserveFront E n o = .ok () o' → ∃ f', Devector.Layout E o' f' xs s ∧ n ≤ f' + xs.length ∧
      (n ≤ f + xs.length → o' = o)) ∧
    (∀ o', Devector.reserveBack E n o = .ok () o' → ∃ s', Devector.Layout E o' f xs s' ∧ n ≤ xs.length + s' ∧
      (n ≤ xs.length + s → o' = o)) ∧
    (∀ o', Devector.shrinkToFit E o = .ok () o' → Devector.Layout E o' 0 xs 0) := by
  obtain ⟨b, h⟩ := h.dst
  refine ⟨fun o' hx => ?_, fun o' hx => ?_, fun o' hx => ?_⟩
  · obtain ⟨b', cap', f', k1, k2, k3, k4⟩ := wp_ok hx (Devector.reserveFront_spec h)
    have := k1.layout
    rw [k3, show f + xs.length + s - (f + xs.length) = s by omega] at this
    exact ⟨f', this, k2, k4⟩
  · obtain ⟨b', cap', k1, k2, k3⟩ := wp_ok hx (Devector.reserveBack_spec h)
    exact ⟨_, k1.layout, by omega, fun hn => k3 (by omega)⟩
  · obtain ⟨b', k1⟩ := wp_ok hx (Devector.shrinkToFit_spec h)
    have := k1.layout
    rw [show xs.length - (0 + xs.length) = 0 by omega] at this
    exact this

/-- **C10.** `erase_if(c, f)` (and `erase(c, value)`, with `f x := x == value`) of a devector leaves exactly the elements that do not
match, in order, in the same storage, and returns the number of the others; it does not throw if moves do not throw. -/
theorem devector_eraseIf (h : Devector.Layout E o f xs s) (p : α → Bool) :
    (∀ u, Devector.eraseIf E p o ≠ .ub u) ∧
    (∀ r o', Devector.eraseIf E p o = .ok r o' → r = xs.countP p ∧ Devector.Local o o' ∧
      ∃ f' s', Devector.Layout E o' f' (xs.filter (fun x => !p x)) s') ∧
    (∀ e o', Devector.eraseIf E p o = .exn e o' → ¬ NothrowMove E ∧ ∃ ys, ys.length = xs.length ∧ Devector.Layout E o' f ys s) := by
  obtain ⟨b, h⟩ := h.dst
  refine ⟨fun u => wp_not_ub (Devector.eraseIf_spec h), fun r o' hx => ?_, fun e o' hx => ?_⟩
  · obtain ⟨f', k1, k2⟩ := wp_ok hx (Devector.eraseIf_spec h)
    refine ⟨?_, h.local k1, f', _, k1.layout⟩
    rw [k2, List.length_eq_countP_add_countP p, ← List.countP_eq_length_filter]
    have : List.countP (fun a => decide ¬p a = true) xs = List.countP (fun x => !p x) xs :=
      List.countP_congr (by simp)
    omega
  · obtain ⟨rfl, k1, ys, k2, k3⟩ := wp_exn hx (Devector.eraseIf_spec h)
    have := k2.layout
    rw [k3, show f + xs.length + s - (f + xs.length) = s by omega] at this
    exact ⟨k1, ys, k3, this⟩

/-! ### Arguments that are elements of the devector: C21 -/

/-- Calls with `value = c[i]` that need no new storage, and do not shift elements. -/
def Devector.InPlace (f len s : Nat) : Dq.Op α → Prop
  | .insertN k n (.elem i) => i < len ∧ ((k = len ∧ n ≤ s) ∨ (k = 0 ∧ n ≤ f))
  | .resizeV n (.elem i) => i < len ∧ n ≤ f + len + s
  | .resizeFrontV n (.elem i) => i < len ∧ n ≤ f + len
  | .resizeBackV n (.elem i) => i < len ∧ n ≤ len + s
  | _ => False

/-- **C21**, as far as it holds: if no new storage is needed, `resize(n, c[i])`, `resize_front(n, c[i])`,
`resize_back(n, c[i])`, and `insert(pos, n, c[i])` at one end of the container have no undefined behaviour and append or
prepend copies of `c[i]`. If a copy throws, the devector is valid and nothing is lost.
(`emplace(pos, c[i])`, `insert(pos, c[i])`, `push_front(c[i])`, `push_back(c[i])` are right in all cases: `devector_modify`.)

Missing: `insert(pos, n, c[i])` between elements, and all of these functions when the storage grows; see `devector_insert_alias` and
`devector_resize_alias`. -/
theorem devector_alias_partial (h : Devector.Layout E o f xs s) (op : Dq.Op α) (hp : Devector.InPlace f xs.length s op) :
    (∀ u, Devector.exec E op o ≠ .ub u) ∧
    (∀ r o', Devector.exec E op o = .ok r o' → ∃ f' ys s', Devector.Layout E o' f' ys s' ∧ Dq.okStep E xs op r ys ∧
      Devector.Local o o') ∧
    (∀ e o', Devector.exec E op o = .exn e o' → ∃ f' ys s', Devector.Layout E o' f' ys s' ∧ Devector.Local o o' ∧
      xs.length ≤ ys.length ∧ (Strong E → xs <+: ys)) := by
  obtain ⟨b, h⟩ := h.dst
  have key : wp (Devector.exec E op)
      (fun r o' => ∃ b' cap' f' ys, Devector.DSt (Heap.but o.m b 0) E o' o.obj.alloc b' cap' f' ys ∧ Dq.okStep E xs op r ys)
      (fun _ o' => ∃ b' cap' f' ys, Devector.DSt (Heap.but o.m b 0) E o' o.obj.alloc b' cap' f' ys ∧ xs.length ≤ ys.length ∧
        (Strong E → xs <+: ys)) o := by
    have arg : ∀ i, i < xs.length → (Sq.Src.elem i : Sq.Src α).ok xs.length = true := by
      intro i hi; simpa [Sq.Src.ok] using hi
    match op with
    | .insertN k n (.elem i) =>
      obtain ⟨hi, hp⟩ := hp
      simp only [Devector.exec, wp_bind]
      refine Devector.wp_argOf h (arg i hi) fun a v hg hv hsrc _ => ?_
      rcases hp with ⟨rfl, hn⟩ | ⟨rfl, hn⟩
      · refine Devector.wp_nth h (by omega) ?_
        refine wp_mono (Devector.insertFillN_alias_back h hv hsrc (by omega)) ?_ ?_
        · rintro p o1 ⟨b', cap', f', k1, rfl⟩
          exact Devector.wp_indexOf k1 (by simp) ⟨b', cap', f', _, k1, ⟨v, hg, by simp⟩, rfl⟩
        · intro e o1 k1
          exact ⟨b, _, f, xs, k1, by omega, fun _ => List.prefix_refl xs⟩
      · refine Devector.wp_nth h (by omega) ?_
        refine wp_mono (Devector.insertFillN_alias_front h hv hsrc (List.length_pos_iff.mp (by omega)) hn) ?_ ?_
        · rintro p o1 ⟨b', cap', f', k1, rfl⟩
          exact Devector.wp_indexOf k1 (by simp) ⟨b', cap', f', _, k1, ⟨v, hg, by simp⟩, rfl⟩
        · intro e o1 k1
          exact ⟨b, _, f, xs, k1, by omega, fun _ => List.prefix_refl xs⟩
    | .resizeV n (.elem i) =>
      obtain ⟨hi, hp⟩ := hp
      simp only [Devector.exec, wp_bind, wp_pure]
      refine Devector.wp_argOf h (arg i hi) fun a v hg hv hsrc _ => ?_
      refine wp_mono (Devector.resizeWith_spec h hv hsrc (fun hn => by omega)) ?_ ?_
      · rintro _ o1 ⟨b', cap', f', i', j', k1, k2⟩
        exact ⟨b', cap', f', _, k1, ⟨v, hg, i', j', k2, rfl⟩, rfl⟩
      · rintro e o1 ⟨k1, k2, b', cap', f', xs', k3, k4, k5, k6⟩
        exact ⟨b', cap', f', xs', k3, k4, fun hE => by obtain ⟨m, hm⟩ := k6 hE; exact ⟨_, hm.symm⟩⟩
    | .resizeFrontV n (.elem i) =>
      obtain ⟨hi, hp⟩ := hp
      simp only [Devector.exec, wp_bind, wp_pure]
      refine Devector.wp_argOf h (arg i hi) fun a v hg hv hsrc _ => ?_
      refine wp_mono (Devector.resizeFrontWith_spec h hv hsrc (fun hn => by omega)) ?_ ?_
      · rintro _ o1 ⟨b', cap', f', k1⟩
        exact ⟨b', cap', f', _, k1, ⟨v, hg, rfl⟩, rfl⟩
      · rintro e o1 ⟨k1, -, b', cap', f', xs', k3, k4, k5⟩
        exact ⟨b', cap', f', xs', k3, by omega, fun hE => by rw [k5 hE]; exact List.prefix_refl xs⟩
    | .resizeBackV n (.elem i) =>
      obtain ⟨hi, hp⟩ := hp
      simp only [Devector.exec, wp_bind, wp_pure]
      refine Devector.wp_argOf h (arg i hi) fun a v hg hv hsrc _ => ?_
      refine wp_mono (Devector.resizeBackWith_spec h hv hsrc (fun hn => by omega)) ?_ ?_
      · rintro _ o1 ⟨b', cap', f', k1⟩
        exact ⟨b', cap', f', _, k1, ⟨v, hg, rfl⟩, rfl⟩
      · rintro e o1 ⟨k1, -, b', cap', f', xs', k3, k4, k5⟩
        exact ⟨b', cap', f', xs', k3, by omega, fun hE => by rw [k5 hE]; exact List.prefix_refl xs⟩
  refine ⟨fun u => wp_not_ub key, fun r o' hx => ?_, fun e o' hx => ?_⟩
  · obtain ⟨b', cap', f', ys, k1, k2⟩ := wp_ok hx key
    exact ⟨f', ys, _, k1.layout, k2, h.local k1⟩
  · obtain ⟨b', cap', f', ys, k1, k2, k3⟩ := wp_exn hx key
    exact ⟨f', ys, _, k1.layout, h.local k1, k2, k3⟩

/-! ### Two devectors: C19 -/

/-- Two devectors `o.obj` with the elements `xs` and `ys`, made from the devectors `v` and `w` in memory `m`: both are valid and
have separate storage, the old blocks have been returned unless they still belong to one of them, and nothing else has
changed. -/
structure Devector.Pair (E : Env α) (v w : DVec) (m : St α) (o : Obj (DVec × DVec) α) (xs ys : List α) : Prop where
  one : ∃ f s, Devector.Layout E ⟨o.obj.1, o.m⟩ f xs s
  two : ∃ f s, Devector.Layout E ⟨o.obj.2, o.m⟩ f ys s
  sep : o.obj.1.bos.blk ≠ 0 → o.obj.1.bos.blk ≠ o.obj.2.bos.blk
  blk : ∀ c, c ≠ o.obj.1.bos.blk → c ≠ o.obj.2.bos.blk →
    o.m.blk c = if c = v.bos.blk ∨ c = w.bos.blk then none else m.blk c
  mem : ∀ c, c ≠ o.obj.1.bos.blk → c ≠ o.obj.2.bos.blk → ∀ i,
    o.m.mem c i = if c = v.bos.blk ∨ c = w.bos.blk then none else m.mem c i

theorem Devector.DPair.pair {v w : DVec} {m : St α} {o : Obj (DVec × DVec) α} {b1 b2 al1 b1' cap1 f1 al2 b2' cap2 f2 : Nat}
    {xs ys : List α} (hw : m.Wf) (hv1 : v.bos.blk = b1) (hv2 : w.bos.blk = b2)
    (h : Devector.DPair (Heap.out m (fun c => (c = b1 ∨ c = 0) ∨ (c = b2 ∨ c = 0))) E o.m o.obj.1 o.obj.2
      al1 b1' cap1 f1 xs al2 b2' cap2 f2 ys) : Devector.Pair E v w m o xs ys := by
  have e1 : o.obj.1.bos.blk = b1' := by rw [h.one.obj]
  have e2 : o.obj.2.bos.blk = b2' := by rw [h.two.obj]
  refine ⟨⟨f1, _, (h.one.dst h.wf (Rest.out _ _)).layout⟩, ⟨f2, _, (h.two.dst h.wf (Rest.out _ _)).layout⟩,
    by rw [e1, e2]; exact h.sep, fun c h1 h2 => ?_, fun c h1 h2 i => ?_⟩
  · rw [e1] at h1
    rw [e2] at h2
    rw [hv1, hv2]
    by_cases h0 : c = 0
    · rw [h0, h.wf.blk_zero, hw.blk_zero]; simp
    · rw [h.rest.blk c (by simp [h0, h1, h2])]
      simp only [Heap.out, h0, or_false]
  · rw [e1] at h1
    rw [e2] at h2
    rw [hv1, hv2]
    by_cases h0 : c = 0
    · rw [h0, h.wf.dead 0 h.wf.blk_zero, hw.dead 0 hw.blk_zero]; simp
    · rw [h.rest.mem c (by simp [h0, h1, h2])]
      simp only [Heap.out, h0, or_false]

theorem Devector.Layout.pair {v w : DVec} {m : St α} {f1 f2 s1 s2 : Nat} {ys : List α}
    (h1 : Devector.Layout E ⟨v, m⟩ f1 xs s1) (h2 : Devector.Layout E ⟨w, m⟩ f2 ys s2)
    (hd : v.bos.blk ≠ 0 → v.bos.blk ≠ w.bos.blk) :
    Devector.DPair (Heap.out m (fun c => (c = v.bos.blk ∨ c = 0) ∨ (c = w.bos.blk ∨ c = 0))) E m v w
      v.alloc v.bos.blk (f1 + xs.length + s1) f1 xs w.alloc w.bos.blk (f2 + ys.length + s2) f2 ys := by
  obtain ⟨b1, k1⟩ := h1.own
  obtain ⟨b2, k2⟩ := h2.own
  have e1 : v.bos.blk = b1 := by have := k1.obj; dsimp only at this; rw [this]
  have e2 : w.bos.blk = b2 := by have := k2.obj; dsimp only at this; rw [this]
  rw [← e1] at k1
  rw [← e2] at k2
  exact ⟨h1.wf, k1, k2, hd, Rest.out _ _⟩

/-- **C19**, move assignment, as far as it holds: if the storage of the target has to be given up, because the allocators are equal
or propagate, the target must have no free space at the front. Then there is no undefined behaviour, every
block is returned as it was obtained, the target has the elements of the source and the source is empty, or has moved-from
elements if the allocators differ. If something throws both devectors are valid.

Missing: targets with free space at the front; `devector_assign_move_reset` shows undefined behaviour. -/
theorem devector_assign_move_partial {v w : DVec} {m : St α} {f1 f2 s1 s2 : Nat} {ys : List α}
    (h1 : Devector.Layout E ⟨v, m⟩ f1 xs s1) (h2 : Devector.Layout E ⟨w, m⟩ f2 ys s2)
    (hd : v.bos.blk ≠ 0 → v.bos.blk ≠ w.bos.blk) (hs : T.pocma = true ∨ v.alloc = w.alloc → f1 = 0) :
    (∀ u, Devector.assignMove E T ⟨(v, w), m⟩ ≠ .ub u) ∧
    (∀ o', Devector.assignMove E T ⟨(v, w), m⟩ = .ok () o' →
      Devector.Pair E v w m o' ys (if T.pocma = true ∨ v.alloc = w.alloc then [] else ys.map E.moved) ∧
      o'.obj.1.alloc = (if T.pocma = true then w.alloc else v.alloc) ∧ o'.obj.2.alloc = w.alloc) ∧
    (∀ e o', Devector.assignMove E T ⟨(v, w), m⟩ = .exn e o' →
      e ≠ .lengthError ∧ ∃ xs' ys', ys'.length = ys.length ∧ Devector.Pair E v w m o' xs' ys') := by
  have key := Devector.assignMove_spec (T := T) (h1.pair h2 hd) hs
  refine ⟨fun u => wp_not_ub key, fun o' hx => ?_, fun e o' hx => ?_⟩
  · obtain ⟨b1', cap1', f1', b2', cap2', f2', zs, k1, k2⟩ := wp_ok hx key
    refine ⟨?_, by rw [k1.one.obj], by rw [k1.two.obj]⟩
    have : zs = if T.pocma = true ∨ v.alloc = w.alloc then [] else ys.map E.moved := by
      split at k2
      · rename_i hc; rw [if_pos hc]; exact k2
      · rename_i hc; rw [if_neg hc]; exact k2
    rw [← this]
    exact k1.pair h1.wf rfl rfl
  · obtain ⟨hl, b1', cap1', f1', xs', ys', k1, k2⟩ := wp_exn hx key
    exact ⟨hl, xs', ys', k2, k1.pair h1.wf rfl rfl⟩

/-- **C19**, copy assignment, as far as it holds: if an unequal allocator propagates, the target must have no free space at the
front. The source does not change.

Missing: targets with free space at the front and propagation of an unequal allocator; `devector_assign_copy_reset` shows
undefined behaviour. -/
theorem devector_assign_copy_partial {v w : DVec} {m : St α} {f1 f2 s1 s2 : Nat} {ys : List α}
    (h1 : Devector.Layout E ⟨v, m⟩ f1 xs s1) (h2 : Devector.Layout E ⟨w, m⟩ f2 ys s2)
    (hd : v.bos.blk ≠ 0 → v.bos.blk ≠ w.bos.blk) (hs : T.pocca = true → v.alloc ≠ w.alloc → f1 = 0) :
    (∀ u, Devector.assignCopy E T w ⟨v, m⟩ ≠ .ub u) ∧
    (∀ o', Devector.assignCopy E T w ⟨v, m⟩ = .ok () o' → Devector.Pair E v w m ⟨(o'.obj, w), o'.m⟩ ys ys ∧
      o'.obj.alloc = if T.pocca = true then w.alloc else v.alloc) ∧
    (∀ e o', Devector.assignCopy E T w ⟨v, m⟩ = .exn e o' →
      e ≠ .lengthError ∧ ∃ xs', Devector.Pair E v w m ⟨(o'.obj, w), o'.m⟩ xs' ys) := by
  have hp := h1.pair h2 hd
  have key := Devector.assignCopy_spec (T := T) hp hs
  refine ⟨fun u => wp_not_ub key, fun o' hx => ?_, fun e o' hx => ?_⟩
  · obtain ⟨b', cap', f', k1⟩ := wp_ok hx key
    exact ⟨(hp.step k1).pair (o := ⟨(o'.obj, w), o'.m⟩) h1.wf rfl rfl, by rw [k1.obj]⟩
  · obtain ⟨hl, b', cap', f', xs', k1⟩ := wp_exn hx key
    exact ⟨hl, xs', (hp.step k1).pair (o := ⟨(o'.obj, w), o'.m⟩) h1.wf rfl rfl⟩

/-- `swap` exchanges elements, storage and allocators, and touches no memory; equal or propagating allocators are required. -/
theorem devector_swap {v w : DVec} {m : St α} {f1 f2 s1 s2 : Nat} {ys : List α}
    (h1 : Devector.Layout E ⟨v, m⟩ f1 xs s1) (h2 : Devector.Layout E ⟨w, m⟩ f2 ys s2)
    (hd : v.bos.blk ≠ 0 → v.bos.blk ≠ w.bos.blk) (hT : T.pocs = true ∨ v.alloc = w.alloc) :
    ∃ o', Devector.swap T ⟨(v, w), m⟩ = .ok () o' ∧ Devector.Pair E v w m o' ys xs ∧
      o'.obj.1.alloc = w.alloc ∧ o'.obj.2.alloc = v.alloc := by
  obtain ⟨_, o', e, k⟩ := wp_elim (Devector.swap_spec (T := T) (h1.pair h2 hd) hT)
  exact ⟨o', e, k.pair h1.wf rfl rfl, by rw [k.one.obj], by rw [k.two.obj]⟩

end

/-! ### Examples, and cases in which the code is wrong -/

namespace Demo

/-- A program with two devectors, next to an unrelated object in memory. -/
def dvRun (E : Env Nat) (T : Traits) (ops : List (WOp 2 (Dq.Op Nat) (Sq.Init Nat))) :
    Res (Slots 2 DVec Nat) (List (Out (Option Nat))) :=
  World.runOps (Devector.cont 2 E T) (Devector.sem E T false) ops ⟨fun _ => none, m1⟩

/-- The devector in slot `i` after a program. -/
def dvIn (E : Env Nat) (T : Traits) (ops : List (WOp 2 (Dq.Op Nat) (Sq.Init Nat))) (i : Fin 2) : Obj DVec Nat :=
  match dvRun E T ops with
  | .ok _ s => match s.obj i with
    | some v => ⟨v, s.m⟩
    | none => ⟨Devector.empty 7, s.m⟩
  | _ => ⟨Devector.empty 7, m1⟩

/-- Whether a program returned and the devector in slot `i` exists. -/
def dvOk (E : Env Nat) (T : Traits) (ops : List (WOp 2 (Dq.Op Nat) (Sq.Init Nat))) (i : Fin 2) : Bool :=
  match dvRun E T ops with
  | .ok _ s => (s.obj i).isSome
  | _ => false

theorem dv_reached (E : Env Nat) (T : Traits) (ops : List (WOp 2 (Dq.Op Nat) (Sq.Init Nat))) (i : Fin 2)
    (h : dvOk E T ops i = true) : Reached (Devector.cont 2 E T) (Devector.sem E T false) m1 i (dvIn E T ops i) := by
  unfold dvOk dvRun at h
  split at h
  · rename_i log s hx
    obtain ⟨v, hv⟩ := Option.isSome_iff_exists.mp h
    refine ⟨_, log, s, v, hx, hv, ?_⟩
    unfold dvIn dvRun
    rw [hx]
    simp [hv]
  · cases h

theorem dv_layout {E : Env Nat} {T : Traits} {i : Fin 2} {o : Obj DVec Nat} {f s : Nat} {xs : List Nat}
    (h : Reached (Devector.cont 2 E T) (Devector.sem E T false) m1 i o)
    (hx : show' ((do
      let a ← Devector.availableFront
      let ys ← (Devector.impl E).contents
      let b ← Devector.availableBack
      pure (a, ys, b) : Devector.DM Nat _) o) = some (f, xs, s)) : Devector.Layout E o f xs s := by
  obtain ⟨f', xs', s', k⟩ := devector_reached m1_wf (by simp) h
  obtain ⟨h1, -, -, h2, h3, -⟩ := devector_observe k
  rw [bind_run h2, bind_run h1, bind_run h3] at hx
  simp only [show', pure, M.pure, Option.some.injEq, Prod.mk.injEq] at hx
  obtain ⟨rfl, rfl, rfl⟩ := hx
  exact k

/-- Whether a program leaves two devectors with property `p`. -/
def dvTwo (E : Env Nat) (T : Traits) (ops : List (WOp 2 (Dq.Op Nat) (Sq.Init Nat))) (p : DVec → DVec → St Nat → Bool) : Bool :=
  match dvRun E T ops with
  | .ok _ s => match s.obj 0, s.obj 1 with
    | some v, some w => p v w s.m
    | _, _ => false
  | _ => false

theorem dv_two {E : Env Nat} {T : Traits} {ops : List (WOp 2 (Dq.Op Nat) (Sq.Init Nat))} {p : DVec → DVec → St Nat → Bool}
    (h : dvTwo E T ops p = true) :
    ∃ v w m, Reached (Devector.cont 2 E T) (Devector.sem E T false) m1 0 ⟨v, m⟩ ∧
      Reached (Devector.cont 2 E T) (Devector.sem E T false) m1 1 ⟨w, m⟩ ∧ p v w m = true := by
  unfold dvTwo dvRun at h
  split at h
  · rename_i log s hx
    split at h
    · rename_i v w hv hw
      exact ⟨v, w, s.m, ⟨_, log, s, v, hx, hv, rfl⟩, ⟨_, log, s, w, hx, hw, rfl⟩, h⟩
    · cases h
  · cases h

/-- Free space at the front, elements, and free space at the back. -/
def layout (E : Env Nat) (o : Obj DVec Nat) : Option (Nat × List Nat × Nat) :=
  show' ((do
      let a ← Devector.availableFront
      let ys ← (Devector.impl E).contents
      let b ← Devector.availableBack
      pure (a, ys, b) : Devector.DM Nat _) o)

/-- `3, 4, 5` with two free cells in front of them. -/
def front2 : List (WOp 2 (Dq.Op Nat) (Sq.Init Nat)) := [.make 0 7 (.range [1, 2, 3, 4, 5]), .op 0 .popFront, .op 0 .popFront]

/-- And three free cells behind them. -/
def both : List (WOp 2 (Dq.Op Nat) (Sq.Init Nat)) := front2 ++ [.op 0 (.reserveBack 6)]

/-- `front2` with a second devector `8, 9` that uses allocator `al`. -/
def next (al : Nat) : List (WOp 2 (Dq.Op Nat) (Sq.Init Nat)) := front2 ++ [.make 1 al (.range [8, 9])]

/-- Two devectors with allocators 7 and 8 without free space. -/
def packed : List (WOp 2 (Dq.Op Nat) (Sq.Init Nat)) := [.make 0 7 (.range [1, 2, 3]), .make 1 8 (.range [8, 9])]

/-- A program with copies, a move, a swap, growth at both ends. -/
def dvProg : List (WOp 2 (Dq.Op Nat) (Sq.Init Nat)) :=
  [.make 0 7 (.range [1, 2, 3]), .op 0 (.pushFront (.elem 2)), .op 0 (.pushFront (.elem 2)), .makeCopy 1 0 none, .op 1 (.emplace 2 (.value 9)),
   .op 1 (.resizeFront 8), .swap 0 1, .op 0 .popFront, .op 0 (.insertRange 0 [4, 5, 6]), .assignCopy 1 0, .op 1 (.eraseRange 1 2),
   .destroy 0, .makeMove 0 1 none, .op 0 (.insertInput 9 [7, 8])]

theorem front2_layout (ts : List Nat) (h : dvOk (env ts) T front2 0 = true)
    (hx : layout (env ts) (dvIn (env ts) T front2 0) = some (2, [3, 4, 5], 0)) :
    Devector.Layout (env ts) (dvIn (env ts) T front2 0) 2 [3, 4, 5] 0 := dv_layout (dv_reached _ _ _ _ h) hx

theorem both_layout (E : Env Nat) (h : dvOk E T both 0 = true)
    (hx : layout E (dvIn E T both 0) = some (2, [3, 4, 5], 3)) :
    Devector.Layout E (dvIn E T both 0) 2 [3, 4, 5] 3 := dv_layout (dv_reached _ _ _ _ h) hx

/-- What happens when the devector left behind by an exception is destroyed. -/
def destroyed {β : Type} : Res (Obj DVec Nat) β → Option UB
  | .exn _ o => isUb (Devector.destroy o)
  | _ => none

theorem isUb_of {β γ : Type} {r : Res γ β} {u : UB} (h : isUb r = some u) : r = .ub u := by
  cases r with
  | ub => simpa [isUb] using h
  | ok => cases h
  | exn => cases h

theorem exn_destroyed {β : Type} {r : Res (Obj DVec Nat) β} {u : UB} (h : destroyed r = some u) :
    ∃ e o, r = .exn e o ∧ Devector.destroy o = .ub u := by
  cases r with
  | exn e o => exact ⟨e, o, rfl, isUb_of h⟩
  | ok => cases h
  | ub => cases h

end Demo

/-- The hypotheses of `devector_observe`, `devector_modify`, `devector_reserve`, `devector_eraseIf`, `devector_alias_partial` are met by
a devector with free space at both ends, in which an insertion moves elements, and whose storage an insertion can replace. -/
example : Devector.Layout (Demo.env []) (Demo.dvIn (Demo.env []) Demo.T Demo.both 0) 2 [3, 4, 5] 3 ∧
    Devector.plain (.insertRange 1 [7, 8, 9] : Dq.Op Nat) = true ∧
    Devector.InPlace 2 3 3 (.insertN 0 2 (.elem 1) : Dq.Op Nat) ∧ Devector.InPlace 2 3 3 (.resizeV 8 (.elem 2) : Dq.Op Nat) ∧
    Demo.show' ((do
      let r1 ← Devector.exec (Demo.env []) (.insertN 0 2 (.elem 1))
      let x1 ← (Devector.impl (Demo.env [])).contents
      let r2 ← Devector.exec (Demo.env []) (.insertRange 1 [7, 8, 9])
      let x2 ← (Devector.impl (Demo.env [])).contents
      let n ← Devector.eraseIf (Demo.env []) (fun x => x % 2 == 0)
      let x3 ← (Devector.impl (Demo.env [])).contents
      let r4 ← Devector.exec (Demo.env []) (.insertN 2 6 (.value 0))
      let x4 ← (Devector.impl (Demo.env [])).contents
      let _ ← Devector.reserveFront (Demo.env []) 30
      let a ← Devector.availableFront
      pure ([(r1, x1), (r2, x2), (r4, x4)], n, x3, a) : Devector.DM Nat _) (Demo.dvIn (Demo.env []) Demo.T Demo.both 0)) =
    some ([(some 0, [4, 4, 3, 4, 5]), (some 1, [4, 7, 8, 9, 4, 3, 4, 5]), (some 2, [7, 9, 0, 0, 0, 0, 0, 0, 3, 5])],
      4, [7, 9, 3, 5], 20) :=
  ⟨Demo.both_layout _ (by decide +kernel) (by decide +kernel), rfl, by simp [Devector.InPlace], by simp [Devector.InPlace],
    by decide +kernel⟩

/-- The hypotheses of `devector_modify_partial` and `devector_insert_partial` are met by insertions that shift elements:
position 1 is fine for one element and for five elements, here with both outcomes. -/
example : Devector.Layout (Demo.env [14]) (Demo.dvIn (Demo.env [14]) Demo.T Demo.both 0) 2 [3, 4, 5] 3 ∧
    Devector.pre (Demo.env [14]) false 3 (.emplace 1 (.elem 2)) = true ∧ ¬ Devector.Faulty 2 3 3 1 5 ∧
    (∃ o', Devector.exec (Demo.env [14]) (.emplace 1 (.elem 2)) (Demo.dvIn (Demo.env [14]) Demo.T Demo.both 0) =
      .ok (some 1) o') ∧
    ∃ e o', Devector.exec (Demo.env [14]) (.insertRange 1 [7, 8, 9, 7, 8])
      (Demo.dvIn (Demo.env [14]) Demo.T Demo.both 0) = .exn e o' ∧
        Demo.show' ((Devector.impl (Demo.env [14])).contents o') = some [1000, 4, 5] :=
  ⟨Demo.both_layout _ (by decide +kernel) (by decide +kernel), rfl, by simp [Devector.Faulty],
    Demo.ok_of (by decide +kernel), Demo.exn_leftIn (by decide +kernel)⟩

/-- **C20 does not hold** for the insertion of an element that shifts the elements to the front, at position
`(size() + 1) / 2`, if moving elements may throw: the scope guard at devector.hpp:3676 destroys `[q10, q20)`
instead of `[q10, q11)`, including cells that hold no objects. The exception leaves a devector with holes, whose
destruction is undefined behaviour. -/
theorem devector_insert_throw_front : ∃ (E : Env Nat) (o o' : Obj DVec Nat) (f s : Nat) (xs : List Nat) (op : Dq.Op Nat) (e : Exn),
    Reached (Devector.cont 2 E Demo.T) (Devector.sem E Demo.T false) Demo.m1 0 o ∧ Devector.Layout E o f xs s ∧
    op.pre xs.length = true ∧ Devector.plain op = true ∧ Devector.Faulty f xs.length s 2 1 ∧
    Devector.exec E op o = .exn e o' ∧ Devector.destroy o' = .ub .destroyRaw := by
  obtain ⟨e, o', h1, h2⟩ := Demo.exn_destroyed (r := Devector.exec (Demo.env [8]) (.emplace 2 (.value 9))
    (Demo.dvIn (Demo.env [8]) Demo.T Demo.front2 0)) (u := .destroyRaw) (by decide +kernel)
  exact ⟨Demo.env [8], _, o', 2, 0, _, .emplace 2 (.value 9), e, Demo.dv_reached _ _ _ _ (by decide +kernel),
    Demo.front2_layout [8] (by decide +kernel) (by decide +kernel), rfl, rfl, by simp [Devector.Faulty], h1, h2⟩

/-- **C20 does not hold** for insertions of several elements that shift the elements to the back: the scope guard at
devector.hpp:2746 destroys the empty range `[q10, q10)`. The exception leaves new elements outside of `[first_, last_)`, which are never
destroyed: destroying the devector releases a block with live objects in it. -/
theorem devector_insert_throw_back : ∃ (E : Env Nat) (o o' : Obj DVec Nat) (f s : Nat) (xs : List Nat) (op : Dq.Op Nat) (e : Exn),
    Reached (Devector.cont 2 E Demo.T) (Devector.sem E Demo.T false) Demo.m1 0 o ∧ Devector.Layout E o f xs s ∧
    op.pre xs.length = true ∧ Devector.plain op = true ∧ Devector.Faulty f xs.length s 1 3 ∧
    Devector.exec E op o = .exn e o' ∧ Devector.destroy o' = .ub .leak := by
  obtain ⟨e, o', h1, h2⟩ := Demo.exn_destroyed (r := Devector.exec (Demo.env [13]) (.insertRange 1 [7, 8, 9])
    (Demo.dvIn (Demo.env [13]) Demo.T Demo.both 0)) (u := .leak) (by decide +kernel)
  exact ⟨Demo.env [13], _, o', 2, 3, _, .insertRange 1 [7, 8, 9], e, Demo.dv_reached _ _ _ _ (by decide +kernel),
    Demo.both_layout _ (by decide +kernel) (by decide +kernel), rfl, rfl, by simp [Devector.Faulty], h1, h2⟩

/-- **C21 does not hold** for `insert(pos, n, c[i])` between elements: the copies are made from the element after it
has been moved away (devector.hpp:1310-1336, 4050-4055 keep a reference). Nothing throws, and the new elements are
copies of a moved-from object. -/
theorem devector_insert_alias : ∃ (E : Env Nat) (o o' : Obj DVec Nat) (f s : Nat) (xs ys : List Nat) (op : Dq.Op Nat) (r : Option Nat),
    (∀ t, E.throws t = false) ∧
    Reached (Devector.cont 2 E Demo.T) (Devector.sem E Demo.T false) Demo.m1 0 o ∧ Devector.Layout E o f xs s ∧
    op.pre xs.length = true ∧ Devector.exec E op o = .ok r o' ∧
    Demo.show' ((Devector.impl E).contents o') = some ys ∧ ¬ Dq.okStep E xs op r ys := by
  obtain ⟨r, o', hx, ho⟩ := Demo.ok_leftIn (I := Devector.impl (Demo.env []))
    (r := Devector.exec (Demo.env []) (.insertN 1 2 (.elem 0)) (Demo.dvIn (Demo.env []) Demo.T Demo.both 0))
    (xs := [3, 1000, 1000, 4, 5]) (by decide +kernel)
  refine ⟨Demo.env [], _, o', 2, 3, _, [3, 1000, 1000, 4, 5], .insertN 1 2 (.elem 0), r, by simp [Demo.env],
    Demo.dv_reached _ _ _ _ (by decide +kernel), Demo.both_layout _ (by decide +kernel) (by decide +kernel), rfl, hx, ho, ?_⟩
  rintro ⟨⟨v, h1, h2⟩, -⟩
  simp [Sq.Src.get?] at h1
  subst h1
  simp at h2

/-- **C21 does not hold** for `resize(n, c[i])`, `resize_front(n, c[i])` and `resize_back(n, c[i])` if the storage grows: they
read the element after it has been destroyed together with the old storage. -/
theorem devector_resize_alias : ∃ (E : Env Nat) (o : Obj DVec Nat) (f s : Nat) (xs : List Nat) (n : Nat) (a : Sq.Src Nat),
    (∀ t, E.throws t = false) ∧
    Reached (Devector.cont 2 E Demo.T) (Devector.sem E Demo.T false) Demo.m1 0 o ∧ Devector.Layout E o f xs s ∧
    a.ok xs.length = true ∧ n ≤ E.maxSize ∧ Devector.exec E (.resizeV n a) o = .ub .readRaw ∧
    Devector.exec E (.resizeFrontV n a) o = .ub .readRaw ∧ Devector.exec E (.resizeBackV n a) o = .ub .readRaw :=
  ⟨Demo.env [], _, 2, 3, _, 9, .elem 0, by simp [Demo.env], Demo.dv_reached _ _ _ _ (by decide +kernel),
    Demo.both_layout _ (by decide +kernel) (by decide +kernel), rfl, by decide, Demo.isUb_of (by decide +kernel),
    Demo.isUb_of (by decide +kernel), Demo.isUb_of (by decide +kernel)⟩

/-- `push_front` may throw length_error although the container could hold another element: the code asks for half as much storage
again, and throws if that exceeds max_size() (devector.hpp:2056-2076, 3859-3874), unlike vector, which then takes max_size(). -/
theorem devector_length_error : ∃ (E : Env Nat) (o : Obj DVec Nat) (xs : List Nat),
    (∀ t, E.throws t = false) ∧
    Reached (Devector.cont 2 E Demo.T) (Devector.sem E Demo.T false) Demo.m1 0 o ∧ Devector.Layout E o 0 xs 0 ∧
    xs.length + 1 ≤ E.maxSize ∧ ∃ e o', Devector.exec E (.pushFront (.value 9)) o = .exn e o' :=
  have h := Demo.dv_reached { Demo.env [] with maxSize := 5 } Demo.T [.make 0 7 (.range [1, 2, 3, 4])] 0 (by decide +kernel)
  ⟨_, _, [1, 2, 3, 4], by simp [Demo.env], h, Demo.dv_layout h (by decide +kernel), by decide, Demo.exn_of (by decide +kernel)⟩

/-- **C19 does not hold** for move assignment to a devector with free space at the front if its storage is given up: `reset`
(devector.hpp:1385-1416) passes `first_` to `deallocate`, which is not the address of the block. Here elements are
removed at the front, and then another devector with the same allocator is moved in. -/
theorem devector_assign_move_reset : ∃ (E : Env Nat) (v w : DVec) (m : St Nat) (f1 s1 f2 s2 : Nat) (xs ys : List Nat),
    (∀ t, E.throws t = false) ∧
    Reached (Devector.cont 2 E Demo.T) (Devector.sem E Demo.T false) Demo.m1 0 ⟨v, m⟩ ∧
    Reached (Devector.cont 2 E Demo.T) (Devector.sem E Demo.T false) Demo.m1 1 ⟨w, m⟩ ∧
    Devector.Layout E ⟨v, m⟩ f1 xs s1 ∧ Devector.Layout E ⟨w, m⟩ f2 ys s2 ∧ v.bos.blk ≠ w.bos.blk ∧ v.alloc = w.alloc ∧
    Devector.assignMove E Demo.T ⟨(v, w), m⟩ = .ub .badDealloc := by
  obtain ⟨v, w, m, h1, h2, h3⟩ := Demo.dv_two (E := Demo.env []) (T := Demo.T) (ops := Demo.next 7)
    (p := fun v w m => decide (Demo.layout (Demo.env []) ⟨v, m⟩ = some (2, [3, 4, 5], 0) ∧
      Demo.layout (Demo.env []) ⟨w, m⟩ = some (0, [8, 9], 0) ∧ v.bos.blk ≠ w.bos.blk ∧ v.alloc = w.alloc ∧
      Demo.isUb (Devector.assignMove (Demo.env []) Demo.T ⟨(v, w), m⟩) = some .badDealloc)) (by decide +kernel)
  obtain ⟨k1, k2, k3, k4, k5⟩ := of_decide_eq_true h3
  exact ⟨Demo.env [], v, w, m, 2, 0, 0, 0, [3, 4, 5], [8, 9], by simp [Demo.env], h1, h2,
    Demo.dv_layout h1 k1, Demo.dv_layout h2 k2, k3, k4, Demo.isUb_of k5⟩

/-- **C19 does not hold** for copy assignment to a devector with free space at the front if an unequal allocator propagates. -/
theorem devector_assign_copy_reset : ∃ (E : Env Nat) (T : Traits) (v w : DVec) (m : St Nat) (f1 s1 f2 s2 : Nat) (xs ys : List Nat),
    (∀ t, E.throws t = false) ∧ T.pocca = true ∧
    Reached (Devector.cont 2 E T) (Devector.sem E T false) Demo.m1 0 ⟨v, m⟩ ∧
    Reached (Devector.cont 2 E T) (Devector.sem E T false) Demo.m1 1 ⟨w, m⟩ ∧
    Devector.Layout E ⟨v, m⟩ f1 xs s1 ∧ Devector.Layout E ⟨w, m⟩ f2 ys s2 ∧ v.bos.blk ≠ w.bos.blk ∧ v.alloc ≠ w.alloc ∧
    Devector.assignCopy E T w ⟨v, m⟩ = .ub .badDealloc := by
  obtain ⟨v, w, m, h1, h2, h3⟩ := Demo.dv_two (E := Demo.env []) (T := ⟨true, true, true, id⟩) (ops := Demo.next 8)
    (p := fun v w m => decide (Demo.layout (Demo.env []) ⟨v, m⟩ = some (2, [3, 4, 5], 0) ∧
      Demo.layout (Demo.env []) ⟨w, m⟩ = some (0, [8, 9], 0) ∧ v.bos.blk ≠ w.bos.blk ∧ v.alloc ≠ w.alloc ∧
      Demo.isUb (Devector.assignCopy (Demo.env []) ⟨true, true, true, id⟩ w ⟨v, m⟩) = some .badDealloc)) (by decide +kernel)
  obtain ⟨k1, k2, k3, k4, k5⟩ := of_decide_eq_true h3
  exact ⟨Demo.env [], _, v, w, m, 2, 0, 0, 0, [3, 4, 5], [8, 9], by simp [Demo.env], rfl, h1, h2,
    Demo.dv_layout h1 k1, Demo.dv_layout h2 k2, k3, k4, Demo.isUb_of k5⟩

/-- The hypotheses of `devector_assign_move_partial`, `devector_assign_copy_partial` and `devector_swap` are met by two devectors with
unequal allocators which propagate. -/
example : ∃ v w m, Devector.Layout (Demo.env []) ⟨v, m⟩ 0 [1, 2, 3] 0 ∧ Devector.Layout (Demo.env []) ⟨w, m⟩ 0 [8, 9] 0 ∧
    v.bos.blk ≠ w.bos.blk ∧ v.alloc = 7 ∧ w.alloc = 8 := by
  obtain ⟨v, w, m, h1, h2, h3⟩ := Demo.dv_two (E := Demo.env []) (T := ⟨true, true, true, id⟩) (ops := Demo.packed)
    (p := fun v w m => decide (Demo.layout (Demo.env []) ⟨v, m⟩ = some (0, [1, 2, 3], 0) ∧
      Demo.layout (Demo.env []) ⟨w, m⟩ = some (0, [8, 9], 0) ∧ v.bos.blk ≠ w.bos.blk ∧ v.alloc = 7 ∧ w.alloc = 8)) (by decide +kernel)
  obtain ⟨k1, k2, k3, k4, k5⟩ := of_decide_eq_true h3
  exact ⟨v, w, m, Demo.dv_layout h1 k1, Demo.dv_layout h2 k2, k3, k4, k5⟩

/-- And of the theorems about assignments by devectors with free space at the front whose storage is kept. -/
example : ∃ v w m, Devector.Layout (Demo.env []) ⟨v, m⟩ 2 [3, 4, 5] 0 ∧ Devector.Layout (Demo.env []) ⟨w, m⟩ 0 [8, 9] 0 ∧
    v.bos.blk ≠ w.bos.blk ∧ ¬ (Traits.pocma ⟨false, false, true, id⟩ = true ∨ v.alloc = w.alloc) := by
  obtain ⟨v, w, m, h1, h2, h3⟩ := Demo.dv_two (E := Demo.env []) (T := Demo.T) (ops := Demo.next 8)
    (p := fun v w m => decide (Demo.layout (Demo.env []) ⟨v, m⟩ = some (2, [3, 4, 5], 0) ∧
      Demo.layout (Demo.env []) ⟨w, m⟩ = some (0, [8, 9], 0) ∧ v.bos.blk ≠ w.bos.blk ∧ v.alloc ≠ w.alloc)) (by decide +kernel)
  obtain ⟨k1, k2, k3, k4⟩ := of_decide_eq_true h3
  exact ⟨v, w, m, Demo.dv_layout h1 k1, Demo.dv_layout h2 k2, k3, by simpa using k4⟩

/-- `devector_session_partial` and `devector_compare` on a program with copies, moves, swaps, growth at both ends and
an exception. -/
example : Demo.show' (World.session (Devector.cont 2 (Demo.env [7]) Demo.T) (Devector.sem (Demo.env [7]) Demo.T false)
    Demo.dvProg ⟨fun _ => none, Demo.m1⟩) =
    some ([.ok none, .threw .elem, .ok (some 0), .ok none, .ok (some 2), .ok none, .ok none, .ok none, .ok (some 0),
      .ok none, .ok (some 1), .ok none, .ok none, .ok (some 9)],
      [some (7, [4, 6, 0, 0, 3, 2000, 9, 2, 3, 7, 8]), some (7, [])]) := by
  decide +kernel

/-! ### Construction, comparison and moves: C40, C09, C42 -/

/-- **C40** for devector: the constructor yields exactly the requested elements, and destroying the container restores
memory, or it throws and memory is exactly as before. -/
theorem devector_construct (E : Env α) (al : Nat) (m : St α) (hw : m.Wf) (init : Sq.Init α) :
    (∃ o', Devector.construct' E init ⟨Devector.empty al, m⟩ = .ok () o' ∧ o'.obj.alloc = al ∧
      (∃ f s, Devector.Layout E o' f (init.result E.dflt) s) ∧
      ∃ o2, Devector.destroy o' = .ok () o2 ∧ o2.m.mem = m.mem ∧ o2.m.blk = m.blk) ∨
    (∃ e o', Devector.construct' E init ⟨Devector.empty al, m⟩ = .exn e o' ∧ o'.m.mem = m.mem ∧ o'.m.blk = m.blk ∧
      (e = .lengthError → 0 < (init.result E.dflt).length)) := by
  have hr := RawObject.nothing hw
  have h := Devector.construct_spec (E := E) (al := al) init hr.gone
  unfold wp at h
  split at h
  · rename_i _ o' he
    obtain ⟨b', cap', f', h⟩ := h
    obtain ⟨_, o2, d1, d2⟩ := wp_elim (wp_mono (Devector.destroy_spec h)
      (fun _ o' g => g.restored hr) (fun _ _ h => h))
    exact Or.inl ⟨_, he, by rw [h.obj], ⟨f', _, h.layout⟩, o2, d1, d2⟩
  · rename_i e o' he
    exact Or.inr ⟨e, o', he, (h.1.restored hr).1, (h.1.restored hr).2, h.2⟩
  · exact h.elim

/-- `devector_construct`: both outcomes for three elements. -/
example : (∃ o', Devector.construct' (Demo.env []) (.range [1, 2, 3]) ⟨Devector.empty 7, Demo.m1⟩ = .ok () o') ∧
    ∃ e o', Devector.construct' (Demo.env [2]) (.range [1, 2, 3]) ⟨Devector.empty 7, Demo.m1⟩ = .exn e o' :=
  ⟨Demo.ok_of (by decide +kernel), Demo.exn_of (by decide +kernel)⟩

/-- devector.hpp:4088-4153, the comparison operators: the code of those of vector, applied to `begin()` and `end()`. -/
def Devector.compare (eq lt : α → α → Bool) (x y : DVec) (c : Cmp) : M (St α) Bool :=
  Vec.compare eq lt ⟨x.first, x.last, x.eos, x.alloc⟩ ⟨y.first, y.last, y.eos, y.alloc⟩ c

/-- **C09** for devector: after any program, comparing the containers in two slots (also the same one) gives the answer for their
elements. -/
theorem devector_compare (K : Nat) (E : Env α) (T : Traits) (quiet : Bool)
    (hq : quiet = true → ∀ t, E.throws t = false) (m0 : St α) (hw : m0.Wf) (eq lt : α → α → Bool)
    (ops : List (WOp K (Dq.Op α) (Sq.Init α))) :
    ∃ log A o, World.runOps (Devector.cont K E T) (Devector.sem E T quiet) ops ⟨fun _ => none, m0⟩ = .ok log o ∧
      WRun (Devector.sem E T quiet) (fun _ => none) ops log A ∧
      ∀ i j a b xs ys, A i = some (a, xs) → A j = some (b, ys) → ∃ v w, o.obj i = some v ∧ o.obj j = some w ∧
        ∀ c : Cmp, ∃ r, Devector.compare eq lt v w c o.m = .ok r o.m ∧ (r = true ↔ c.Holds eq lt xs ys) := by
  have hS := Devector.spec (K := K) (T := T) hq
  obtain ⟨log, o, e, A, F, k1, k2⟩ := wp_elim (hS.runOps ops (Devector.start hw hq))
  refine ⟨log, A, o, e, k2, ?_⟩
  have get : ∀ i a xs, A i = some (a, xs) → ∃ v, o.obj i = some v ∧
      Vec.Holds o.m ⟨v.first, v.last, v.eos, v.alloc⟩ xs := by
    intro i a xs hi
    have := k1.cell i
    rw [hi] at this
    cases hv : o.obj i with
    | none => rw [hv] at this; exact this.elim
    | some v =>
      rw [hv] at this
      obtain ⟨b, cap, f, k, -⟩ := this
      refine ⟨v, rfl, by rw [k.obj], by rw [k.obj], fun i hi => ?_⟩
      rw [k.obj]
      simpa using k.cells (f + i)
  intro i j a b xs ys hi hj
  obtain ⟨v, hv, kv⟩ := get i a xs hi
  obtain ⟨w, hw, kw⟩ := get j b ys hj
  refine ⟨v, w, hv, hw, fun c => ?_⟩
  obtain ⟨r, s', e, k, rfl⟩ := wp_elim (compare_spec (eq := eq) (lt := lt) (X := fun _ _ => False) kv kw c)
  exact ⟨r, e, k⟩

/-- **C42** for devector: move construction with the allocator of the source takes over the storage; memory does not
change and the source is afterwards identical to a default constructed container. -/
theorem devector_move_construct (E : Env α) (w : DVec) (m : St α) :
    Devector.initMove E ⟨(Devector.empty w.alloc, w), m⟩ = .ok () ⟨(w, Devector.empty w.alloc), m⟩ := by
  unfold Devector.initMove
  simp [bind, M.bind, getObj, setObj, Devector.empty]

end Sfl
