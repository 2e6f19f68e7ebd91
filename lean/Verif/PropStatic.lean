import Verif.PropFlat
import Verif.NoAlloc
/-
  Properties of static_vector (C15) and of static_flat_set, static_flat_map (`multi = false`), static_flat_multiset and
  static_flat_multimap (`multi = true`): C28-C32, C35, C36. All theorems are about containers in arbitrary programs
  with any number of containers, exception schedules and initial memories.
-/

namespace Sfl
open World Flat
variable {α κ : Type}

theorem Objects.static {K : Nat} {E : Env α} {ib : Fin K → Nat} {N : Nat} {m0 : St α} (h : Objects E ib N m0) :
    (∀ i, (StaticVector.rep E ib N).raw i m0) ∧
    ∀ i j, i ≠ j → Disj ((StaticVector.rep E ib N).dead i) ((StaticVector.rep E ib N).dead j) :=
  ⟨fun i => ⟨(h.raw i).blk, (h.raw i).raw⟩, by
    intro i j hij c h1 h2
    have e1 := h1.2.elim id id
    have e2 := h2.2.elim id id
    exact h.disj i j hij (e1 ▸ h1.1) (e1.symm.trans e2)⟩

theorem World.Reached.static {K : Nat} {E : Env α} {ib : Fin K → Nat} {N : Nat} {m0 : St α} {Op I ρ : Type}
    {c : Cont K Op I Vec α ρ} {S : Sem Op I α ρ} {i : Fin K} {o : Obj Vec α} (h : Reached c S m0 i o)
    (hm : Objects E ib N m0) (hS : Spec c S (StaticVector.rep E ib N)) :
    ∃ H al xs, VSt H E (ib i) N o al (ib i) N xs := by
  obtain ⟨hw, al, xs, F, k, -⟩ := h.rep hS (hS.start hm.wf hm.static.1 hm.static.2)
  exact ⟨_, al, xs, k.vst hw (Rest.out _ _)⟩

theorem VSt.contents {Op ρ : Type} {E : Env α} {N : Nat} {o : Obj Vec α} {xs : List α} {H : Heap α} {al b cap ib : Nat}
    (h : VSt H E ib N o al b cap xs) (I : Sq.Impl Op Vec α ρ) (h1 : I.size = Vector.size) (h2 : I.index = Vector.index) :
    I.contents o = .ok xs o := by
  obtain ⟨_, _, c, rfl, rfl⟩ := wp_elim ((SmallVector.correct H E al ib N).contents (xs := xs) ⟨b, cap, h⟩)
  rw [← c]
  exact congrFun (Sq.Impl.contents_congr (I := I) (J := SmallVector.impl E ib N) h1 h2) _

/-! ### static_vector: C15 -/

/-- **C15.** Any program with static_vectors (constructors, copies, moves, assignments, swaps and modifiers in any order,
under the documented preconditions, all element operations possibly throwing) followed by reading all containers and
destroying them has no undefined behaviour, follows the abstract specification (`StaticVector.sem`: the list
operations, no bad_alloc or length_error from modifiers), never holds more than `N` elements in a container, never
allocates (`next`, the address for the next block, stays the same), and ends with the memory as it was: every
element is destroyed. -/
theorem staticVector_session (K : Nat) (E : Env α) (N : Nat) (ib : Fin K → Nat) (m0 : St α) (hm : Objects E ib N m0)
    (ops : List (WOp K (Sq.Op α) (Sq.Init α))) :
    ∃ log A o', World.session (StaticVector.cont E ib N) (StaticVector.sem E N) ops ⟨fun _ => none, m0⟩ =
        .ok (log, (List.finRange K).map A) o' ∧
      WRun (StaticVector.sem E N) (fun _ => none) ops log A ∧ (∀ i al xs, A i = some (al, xs) → xs.length ≤ N) ∧
      o'.m.mem = m0.mem ∧ o'.m.blk = m0.blk ∧ o'.m.next = m0.next := by
  obtain ⟨log, A, o', h1, h2, ⟨h3, h4⟩, h5⟩ := (StaticVector.spec (E := E) (ib := ib) hm.fits).session_rep hm.wf hm.static.1
    hm.static.2 ops
  refine ⟨log, A, o', h1, h2, fun i al xs hi => ?_, h3, h4, ?_⟩
  · obtain ⟨m, v, F, k, -⟩ := h5 i al xs hi
    exact k.len
  · exact ((World.session_na StaticVector.cont_still ops _).1 _ _ h1).2

/-- Three static_vector<int, 2> with elements that throw now and then: references to own elements, copy that throws, swap,
moves, insertion that throws. -/
example : Demo.show' (World.session (StaticVector.cont (Demo.env [4, 20]) Demo.ib3 2) (StaticVector.sem (Demo.env [4, 20]) 2)
    [.make 0 0 (.range [5, 6]), .op 0 (.eraseAt 0), .op 0 (.pushBack (.elem 0)), .op 0 (.emplace 0 (.elem 0)),
     .makeCopy 1 0 none, .makeCopy 1 0 none, .op 1 .popBack, .op 1 (.emplace 0 (.value 8)), .swap 0 1, .makeMove 2 1 none,
     .op 1 .clear, .assignMove 1 2, .op 2 (.resizeV 1 (.value 3)), .op 2 (.insertRange 0 [3])]
    ⟨fun _ => none, Demo.m3⟩) =
    some ([.ok none, .ok (some 0), .ok (some 1), .skipped, .threw .elem, .ok none, .ok none, .ok (some 0), .ok none,
      .ok none, .ok none, .ok none, .ok none, .threw .elem],
      [some (0, [8, 6]), some (0, [6, 6]), some (0, [2000])]) := by decide +kernel

section
variable {K : Nat} {E : Env α} {ib : Fin K → Nat} {N : Nat} {m0 : St α} {i : Fin K} {o : Obj Vec α}

/-- **C15** for one operation: every modifier of every static_vector in every program, called under its precondition (the
result must fit), has no undefined behaviour; it returns with the result of the list operation, or it throws an
exception of an element operation and leaves a valid static_vector; in both cases at most `N` elements, and no memory
is allocated or released. -/
theorem staticVector_modify (hm : Objects E ib N m0)
    (h : Reached (StaticVector.cont E ib N) (StaticVector.sem E N) m0 i o) :
    ∃ xs, (StaticVector.impl E N).contents o = .ok xs o ∧ xs.length ≤ N ∧
      ∀ op : Sq.Op α, op.pre xs.length = true → op.room xs.length ≤ N → StaticVector.foreign op = false →
      (∀ u, (StaticVector.impl E N).exec op o ≠ .ub u) ∧
      (∀ r o', (StaticVector.impl E N).exec op o = .ok r o' → ∃ ys, (StaticVector.impl E N).contents o' = .ok ys o' ∧
        Sq.okStep E xs op r ys ∧ ys.length ≤ N ∧ o'.m.blk = o.m.blk ∧ o'.m.next = o.m.next) ∧
      (∀ e o', (StaticVector.impl E N).exec op o = .exn e o' → ∃ ys, (StaticVector.impl E N).contents o' = .ok ys o' ∧
        Sq.failStep E xs op e ys ∧ ys.length ≤ N ∧ o'.m.blk = o.m.blk ∧ o'.m.next = o.m.next ∧
        e ≠ .badAlloc ∧ e ≠ .lengthError) := by
  obtain ⟨H, al, xs, hv⟩ := h.static hm (StaticVector.spec hm.fits)
  refine ⟨xs, hv.contents _ rfl rfl, hv.len, fun op h1 h2 h3 => ?_⟩
  have hp : StaticVector.pre N xs.length op = true := by simp [StaticVector.pre, h1, h2, h3]
  have hs := StaticVector.exec_spec op hv hp
  have hn := StaticVector.exec_na (E := E) (N := N) op o
  refine ⟨fun u => wp_not_ub hs, fun r o' hx => ?_, fun e o' hx => ?_⟩
  · obtain ⟨ys, k1, k2, k3⟩ := wp_ok hx hs
    exact ⟨ys, k1.contents _ rfl rfl, k3, k1.len, (hn.1 _ _ hx).1, (hn.1 _ _ hx).2⟩
  · obtain ⟨ys, k1, k2, k3, k4⟩ := wp_exn hx hs
    exact ⟨ys, k1.contents _ rfl rfl, k3, k1.len, (hn.2 _ _ hx).1, (hn.2 _ _ hx).2, k4⟩

/-- **C10** for static_vector: `erase_if(c, f)` and `erase(c, value)`. -/
theorem staticVector_eraseIf (hm : Objects E ib N m0)
    (h : Reached (StaticVector.cont E ib N) (StaticVector.sem E N) m0 i o) (f : α → Bool) :
    ∃ xs, (StaticVector.impl E N).contents o = .ok xs o ∧
      (∀ r o', Vector.eraseIf E f o = .ok r o' →
        (StaticVector.impl E N).contents o' = .ok (xs.filter (fun x => !f x)) o' ∧ r = xs.countP f) ∧
      (∀ u, Vector.eraseIf E f o ≠ .ub u) ∧
      (E.nothrowMoveAssign = true → ∃ r o', Vector.eraseIf E f o = .ok r o') := by
  obtain ⟨H, al, xs, hv⟩ := h.static hm (StaticVector.spec hm.fits)
  refine ⟨xs, hv.contents _ rfl rfl, fun r o' hx => ?_, fun u => wp_not_ub (eraseIf_spec hv), fun hE => ?_⟩
  · obtain ⟨k1, -, k2⟩ := wp_ok hx (eraseIf_spec hv)
    refine ⟨k1.contents _ rfl rfl, ?_⟩
    rw [k2, List.length_eq_countP_add_countP f, ← List.countP_eq_length_filter]
    have : List.countP (fun a => decide ¬f a = true) xs = List.countP (fun x => !f x) xs := List.countP_congr (by simp)
    omega
  · have := wp_mono (eraseIf_spec (f := f) hv) (Q' := fun _ _ => True) (X' := fun _ _ => False) (fun _ _ _ => trivial)
      (by rintro e o' ⟨_, _, _, _, _, k⟩; rw [hE] at k; cases k)
    obtain ⟨r, o', e, -⟩ := wp_elim this
    exact ⟨r, o', e⟩

end

/-! ### Static ordered flat containers, whole programs: C28, C32, C36 -/

/-- **C28, C32, C36** for the static containers: any program has no undefined behaviour, never allocates, ends with the
memory as it was, follows the abstract specification (`staticSem`), and every container whose history does not contain
a move from it, an exception of an operation without a promise, or the assignment of an unsorted
initializer list (see `staticFlat_assign_unsorted`) is in order. -/
theorem staticFlat_session (K : Nat) (multi : Bool) (C : Order α κ) (L : C.Lawful) (E : Env α) (N : Nat)
    (ib : Fin K → Nat) (m0 : St α) (hm : Objects E ib N m0) (ops : List (WOp K (Flat.Op α κ) (Flat.Init α))) :
    ∃ log A o', World.session (staticCont multi C E ib N) (staticSem multi C E N) ops ⟨fun _ => none, m0⟩ =
        .ok (log, (List.finRange K).map A) o' ∧
      WRun (staticSem multi C E N) (fun _ => none) ops log A ∧ (∀ i al xs, A i = some (al, xs) → xs.length ≤ N) ∧
      InOrder (C.Sorted multi) (trackAll (staticFlags C multi E.nothrowMoves) (fun _ => false) ops log) A ∧
      o'.m.mem = m0.mem ∧ o'.m.blk = m0.blk ∧ o'.m.next = m0.next := by
  obtain ⟨log, A, o', h1, h2, ⟨h3, h4⟩, h5⟩ := (staticSpec (multi := multi) (E := E) (ib := ib) L hm.fits).session_rep hm.wf
    hm.static.1 hm.static.2 ops
  refine ⟨log, A, o', h1, h2, fun i al xs hi => ?_, ?_, h3, h4, ?_⟩
  · obtain ⟨m, v, F, k, -⟩ := h5 i al xs hi
    exact k.len
  · refine InOrder.run (staticKeeps L (fun h => ?_)) ?_ h2
    · simpa [Env.nothrowMoves, NothrowMove] using h
    · intro i al xs hi; cases hi
  · exact ((World.session_na staticCont_still ops _).1 _ _ h1).2

/-- The program assigns no initializer list to container. -/
def Flat.noLists {K : Nat} (op : WOp K (Flat.Op α κ) (Flat.Init α)) : Prop := ∀ i vs, op ≠ .op i (.assignList vs)

/-- **C28** (static containers): as long as operations complete normally, no container is moved from and no initializer
list is assigned, all static flat sets and maps of a program are strictly increasing under the comparator
(multisets and multimaps: increasing, C32). What is missing is `operator=(initializer_list)`, which does not
establish the order: `staticFlat_assign_unsorted`. -/
theorem staticFlat_sorted_partial (K : Nat) (multi : Bool) (C : Order α κ) (L : C.Lawful) (E : Env α) (N : Nat)
    (ib : Fin K → Nat) (m0 : St α) (hm : Objects E ib N m0) (ops : List (WOp K (Flat.Op α κ) (Flat.Init α)))
    {log : List (Sq.Out (Option Flat.Ret))} {cs : List (Option (Nat × List α))} {o' : Slots K Vec α}
    (hx : World.session (staticCont multi C E ib N) (staticSem multi C E N) ops ⟨fun _ => none, m0⟩ = .ok (log, cs) o')
    (hn : ∀ op ∈ ops, op.moves = false ∧ noLists op) (ht : ∀ out ∈ log, ∀ e, out ≠ .threw e) :
    ∀ al xs, some (al, xs) ∈ cs → C.Sorted multi xs := by
  obtain ⟨log', A, o1, h1, -, -, h3, -⟩ := staticFlat_session K multi C L E N ib m0 hm ops
  rw [hx] at h1
  cases h1
  rw [trackAll_none ops log (fun i op hop => ?_) (fun op hop => (hn op hop).1) ht] at h3
  · intro al xs hc
    obtain ⟨i, -, hi⟩ := List.mem_map.mp hc
    exact h3 i al xs hi rfl
  · cases op with
    | assignList vs => exact absurd rfl ((hn _ hop).2 i vs)
    | _ => rfl

/-- Three static_flat_map<int, int, 2> with elements that throw now and then. -/
example : Demo.show' (World.session (staticCont false Demo.map (Demo.env [4, 30]) Demo.ib3 2)
    (staticSem false Demo.map (Demo.env [4, 30]) 2)
    [.make 0 0 (.range [301, 502]), .make 0 0 (.range [301, 502]), .op 0 (.insert (.value 404)),
     .op 0 (.eraseKey 3), .op 0 (.insertHint 1 (.elem 0)), .op 0 (.insertOrAssign 555), .op 0 (.insertOrAssign 655),
     .make 1 0 .empty, .op 1 (.emplaceHint 0 900), .assignCopy 1 0, .op 0 (.eraseKey 4), .swap 0 1, .makeMove 2 0 none,
     .op 2 (.eraseAt 0), .op 2 (.tryEmplaceHint 0 404), .op 0 (.assignList [100, 200])] ⟨fun _ => none, Demo.m3⟩) =
    some ([.threw .elem, .ok none, .skipped, .ok (some (.num 1)), .ok (some (.pos 0)), .ok (some (.ins 0 false)),
      .ok (some (.ins 0 true)), .ok none, .ok (some (.pos 0)), .ok none, .threw .elem, .ok none, .ok none,
      .ok (some (.pos 0)), .ok (some (.pos 1)), .ok (some .unit)],
      [some (0, [100, 200]), some (0, [655, 555]), some (0, [555, 404])]) := by decide +kernel

/-- A program as in `staticFlat_sorted_partial`: static_flat_multiset<int, 2> with classes of equivalent elements. -/
example : Demo.show' (World.session (staticCont true Demo.tens (Demo.env []) Demo.ib3 2)
    (staticSem true Demo.tens (Demo.env []) 2)
    [.make 0 0 (.range [31, 12]), .op 0 (.eraseKey 39), .op 0 (.insertHint 1 (.elem 0)), .makeCopy 1 0 none,
     .op 1 .clear, .op 1 (.emplace 38), .swap 0 1, .op 0 (.insert (.value 17))] ⟨fun _ => none, Demo.m3⟩) =
    some ([.ok none, .ok (some (.num 1)), .ok (some (.pos 1)), .ok none, .ok (some .unit), .ok (some (.ins 0 true)),
      .ok none, .ok (some (.ins 0 true))], [some (0, [17, 38]), some (0, [12, 12]), none]) := by decide +kernel

/-! ### One static container in any program: C30, C31, C32, C36 -/

section
variable {K : Nat} {multi : Bool} {C : Order α κ} {E : Env α} {ib : Fin K → Nat} {N : Nat} {m0 : St α}
  {i : Fin K} {o : Obj Vec α} {xs : List α}

/-- `operator=(initializer_list)`? -/
def Flat.Op.assigns : Flat.Op α κ → Bool
  | .assignList _ => true
  | _ => false

/-- **C30, C31, C32, C36** for the static containers: every modifier of every container in every program, called under
its precondition (there must be room): no undefined behaviour, no allocation, at most `N` elements; if it returns,
result and elements are as specified (`Op.Result`; provided that the container was in order, or that the operation does not
depend on that); if it throws, `Op.Failure` holds, and the exception is neither bad_alloc nor length_error. For
`operator=(initializer_list)` see `staticFlat_assign_partial`. -/
theorem staticFlat_modify (L : C.Lawful) (hm : Objects E ib N m0)
    (h : Reached (staticCont multi C E ib N) (staticSem multi C E N) m0 i o) :
    ∃ xs, (staticImpl multi C E N).contents o = .ok xs o ∧ xs.length ≤ N ∧ ∀ op : Flat.Op α κ,
      op.pre multi xs.length = true → op.room xs.length ≤ N → op.storage = false → op.assigns = false →
      (∀ u, (staticImpl multi C E N).exec op o ≠ .ub u) ∧
      (∀ r o', (staticImpl multi C E N).exec op o = .ok r o' → ∃ ys, (staticImpl multi C E N).contents o' = .ok ys o' ∧
        ((op.free = true ∨ C.Sorted multi xs) → op.Result C multi xs r ys) ∧ ys.length ≤ N ∧
        o'.m.blk = o.m.blk ∧ o'.m.next = o.m.next) ∧
      (∀ e o', (staticImpl multi C E N).exec op o = .exn e o' → ∃ ys, (staticImpl multi C E N).contents o' = .ok ys o' ∧
        op.Failure C multi (Strong E) (NothrowMove E) E.maxSize xs e ys ∧ ys.length ≤ N ∧
        o'.m.blk = o.m.blk ∧ o'.m.next = o.m.next ∧ e ≠ .badAlloc ∧ e ≠ .lengthError) := by
  obtain ⟨H, al, xs, hv⟩ := h.static hm (staticSpec L hm.fits)
  refine ⟨xs, hv.contents _ rfl rfl, hv.len, fun op h1 h2 h3 h4 => ?_⟩
  have hp : staticPre multi N xs.length op = true := by simp [staticPre, h1, h2, h3]
  have hs := staticExec_spec L op hv hp
  have hn := staticExec_na (C := C) (E := E) (N := N) (multi := multi) op o
  refine ⟨fun u => wp_not_ub hs, fun r o' hx => ?_, fun e o' hx => ?_⟩
  · obtain ⟨ys, k1, k2, k3, k4⟩ := wp_ok hx hs
    refine ⟨ys, k1.contents _ rfl rfl, ?_, k3, (hn.1 _ _ hx).1, (hn.1 _ _ hx).2⟩
    have k4 : okStep C multi xs op (some r) ys := by
      cases op <;> first | exact k4 | cases h4
    obtain ⟨r', e, k⟩ := k4
    cases e
    exact k
  · obtain ⟨ys, k1, k2, k3, k4, k5, k6⟩ := wp_exn hx hs
    refine ⟨ys, k1.contents _ rfl rfl, ?_, k3, (hn.2 _ _ hx).1, (hn.2 _ _ hx).2, k4, k5⟩
    have k6 : failStep C multi E xs op e ys := by
      cases op <;> first | exact k6 | cases h4
    exact k6

/-- **C36** for the static containers, with the same restrictions as `smallFlat_throw_partial`; for the rest see
`staticFlat_insert_throw`. -/
theorem staticFlat_throw_partial (L : C.Lawful) (hm : Objects E ib N m0)
    (h : Reached (staticCont multi C E ib N) (staticSem multi C E N) m0 i o)
    (hc : (staticImpl multi C E N).contents o = .ok xs o) (hs : C.Sorted multi xs) (hE : NothrowMove E)
    {op : Flat.Op α κ} (hsafe : op.safe multi = true) (hp : op.pre multi xs.length = true)
    (hroom : op.room xs.length ≤ N) (hst : op.storage = false) (ha : op.assigns = false) {e : Exn} {o' : Obj Vec α}
    (hx : (staticImpl multi C E N).exec op o = .exn e o') :
    ∃ ys, (staticImpl multi C E N).contents o' = .ok ys o' ∧ C.Sorted multi ys ∧ (op.atomic = true → ys = xs) := by
  obtain ⟨xs', hc', -, hop⟩ := staticFlat_modify L hm h
  rw [hc] at hc'
  cases hc'
  obtain ⟨ys, k1, k2, -⟩ := (hop op hp hroom hst ha).2.2 e o' hx
  exact ⟨ys, k1, k2.order hE hsafe hs, k2.same hE hsafe⟩

/-- **C28** for the static containers of a running program. -/
theorem staticFlat_in_order (L : C.Lawful) (hm : Objects E ib N m0) {ops : List (WOp K (Flat.Op α κ) (Flat.Init α))}
    {log : List (Sq.Out (Option Flat.Ret))} {s : Slots K Vec α} {v : Vec}
    (hx : World.runOps (staticCont multi C E ib N) (staticSem multi C E N) ops ⟨fun _ => none, m0⟩ = .ok log s)
    (hv : s.obj i = some v) (ht : trackAll (staticFlags C multi E.nothrowMoves) (fun _ => false) ops log i = false) :
    ∃ xs, (staticImpl multi C E N).contents ⟨v, s.m⟩ = .ok xs ⟨v, s.m⟩ ∧ C.Sorted multi xs := by
  have hS := staticSpec (multi := multi) (ib := ib) L hm.fits
  obtain ⟨A, F, k, w⟩ := wp_ok hx (hS.runOps ops (hS.start hm.wf hm.static.1 hm.static.2))
  have ho : InOrder (C.Sorted multi) (trackAll (staticFlags C multi E.nothrowMoves) (fun _ => false) ops log) A := by
    refine InOrder.run (staticKeeps L (fun h => ?_)) ?_ w
    · simpa [Env.nothrowMoves, NothrowMove] using h
    · intro i al xs hi; cases hi
  have hc := k.cell i
  rw [hv] at hc
  cases hA : A i with
  | none => rw [hA] at hc; exact hc.elim
  | some a =>
    rw [hA] at hc
    obtain ⟨k', -⟩ := hc
    exact ⟨a.2, (k'.vst k.wf (Rest.out _ _)).contents _ rfl rfl, ho i _ _ hA ht⟩

/-- **C30** for the static containers. -/
theorem staticFlat_insert (L : C.Lawful) (hm : Objects E ib N m0)
    (h : Reached (staticCont false C E ib N) (staticSem false C E N) m0 i o)
    (hc : (staticImpl false C E N).contents o = .ok xs o) (hs : C.Sorted false xs) (hroom : xs.length < N) {s : Sq.Src α}
    (hsrc : s.ok xs.length = true) {r : Flat.Ret} {o' : Obj Vec α}
    (hx : (staticImpl false C E N).exec (.insert s) o = .ok r o') :
    ∃ v j new ys, s.get? xs = some v ∧ r = .ins j new ∧ (staticImpl false C E N).contents o' = .ok ys o' ∧
      (new = true ↔ ∀ x ∈ xs, C.same x v = false) ∧ (∃ y, ys[j]? = some y ∧ C.same y v = true) ∧
      (new = true → ys = xs.take j ++ v :: xs.drop j) ∧ (new = false → ys = xs) ∧
      ∀ p ≤ xs.length, ∀ r2 o2, (staticImpl false C E N).exec (.insertHint p s) o = .ok r2 o2 →
        r2 = .pos j ∧ (staticImpl false C E N).contents o2 = .ok ys o2 := by
  obtain ⟨xs', hc', -, hop⟩ := staticFlat_modify L hm h
  rw [hc] at hc'
  cases hc'
  obtain ⟨ys, k1, k2, -⟩ := (hop (.insert s) (by simpa [Flat.Op.pre, Flat.Op.uniqueOnly] using hsrc)
    (show xs.length + 1 ≤ N from hroom) rfl rfl).2.1 r o' hx
  obtain ⟨v, j, new, e1, e2, k3⟩ := k2 (Or.inr hs)
  refine ⟨v, j, new, ys, e1, e2, k1, ?_, ?_, ?_, ?_, ?_⟩
  · rcases k3 with ⟨rfl, h1, -⟩ | ⟨rfl, -, -, x, h1, h2⟩
    · simpa using h1
    · simp only [Bool.false_eq_true, false_iff]
      intro hno
      rw [hno x (List.mem_of_getElem? h1)] at h2; cases h2
  · rcases k3 with ⟨rfl, h1, h2, rfl, -⟩ | ⟨rfl, -, rfl, x, h1, h2⟩
    · refine ⟨v, ?_, by simp [Order.same, L.irrefl]⟩
      rw [List.getElem?_append_right (by simp [h2])]
      simp [Nat.min_eq_left h2]
    · exact ⟨x, h1, h2⟩
  · rcases k3 with ⟨rfl, h1, h2, rfl, -⟩ | ⟨rfl, -⟩
    · intro _; rfl
    · intro h; cases h
  · rcases k3 with ⟨rfl, -⟩ | ⟨rfl, -, rfl, -⟩
    · intro h; cases h
    · intro _; rfl
  · intro p hp r2 o2 hx2
    obtain ⟨ys2, q1, q2, -⟩ := (hop (.insertHint p s) (by simpa [Flat.Op.pre, Flat.Op.uniqueOnly] using ⟨hp, hsrc⟩)
      (show xs.length + 1 ≤ N from hroom) rfl rfl).2.1 r2 o2 hx2
    obtain ⟨v2, j2, new2, f1, f2, q3⟩ := q2 (Or.inr hs)
    rw [e1] at f1
    cases f1
    obtain ⟨rfl, -, rfl⟩ := k3.unique L hs q3
    exact ⟨f2, q1⟩

/-- **C31** for the static maps. -/
theorem staticFlat_map (L : C.Lawful) (hm : Objects E ib N m0)
    (h : Reached (staticCont false C E ib N) (staticSem false C E N) m0 i o)
    (hc : (staticImpl false C E N).contents o = .ok xs o) (hs : C.Sorted false xs) {op : Flat.Op α κ}
    (hp : op.pre false xs.length = true) (hroom : op.room xs.length ≤ N) (hst : op.storage = false)
    (ha : op.assigns = false) {r : Flat.Ret} {o' : Obj Vec α} (hx : (staticImpl false C E N).exec op o = .ok r o') :
    ∃ ys, (staticImpl false C E N).contents o' = .ok ys o' ∧ op.MapResult C xs (C.get xs) (C.get ys) ∧
      C.Sorted false ys := by
  obtain ⟨xs', hc', -, hop⟩ := staticFlat_modify L hm h
  rw [hc] at hc'
  cases hc'
  obtain ⟨ys, k1, k2, -⟩ := (hop op hp hroom hst ha).2.1 r o' hx
  exact ⟨ys, k1, (k2 (Or.inr hs)).map L hp hs, (k2 (Or.inr hs)).sorted L hp (Or.inl hs)⟩

/-- **C29** for the static containers and keys of the container's key type. -/
theorem staticFlat_lookup (L : C.Lawful) (hm : Objects E ib N m0)
    (h : Reached (staticCont multi C E ib N) (staticSem multi C E N) m0 i o)
    (hc : (staticImpl multi C E N).contents o = .ok xs o) (hs : C.Sorted multi xs) (k : κ) (q : Flat.Query) :
    LooksUp multi C E (C.probe k) q xs o := by
  obtain ⟨H, al, xs', hv⟩ := h.static hm (staticSpec L hm.fits)
  have := hv.contents (staticImpl multi C E N) rfl rfl
  rw [hc] at this
  cases this
  refine looksUp hv (L.fits hs k) q fun hm _ => ?_
  subst hm
  exact countP_own L hs k

/-- **C29** for the static containers and keys of other types, with the restriction of `smallFlat_lookup_partial`. -/
theorem staticFlat_lookup_partial (L : C.Lawful) (hm : Objects E ib N m0)
    (h : Reached (staticCont multi C E ib N) (staticSem multi C E N) m0 i o)
    (hc : (staticImpl multi C E N).contents o = .ok xs o) (P : Probe α) (f : P.Fits xs) (q : Flat.Query)
    (hone : multi = false → q = .count → xs.countP P.hit ≤ 1) : LooksUp multi C E P q xs o := by
  obtain ⟨H, al, xs', hv⟩ := h.static hm (staticSpec L hm.fits)
  have := hv.contents (staticImpl multi C E N) rfl rfl
  rw [hc] at this
  cases this
  exact looksUp hv f q hone

/-- **C35** as far as it holds: after `c = {x1, …, xn}` the container has exactly these elements in this order; hence it is
in order if the list was strictly increasing (multi containers: increasing) already. The property asks for a container
in order for every list: `staticFlat_assign_unsorted`. -/
theorem staticFlat_assign_partial (L : C.Lawful) (hm : Objects E ib N m0)
    (h : Reached (staticCont multi C E ib N) (staticSem multi C E N) m0 i o) {vs : List α} (hv : vs.length ≤ N) :
    (∀ u, (staticImpl multi C E N).exec (.assignList vs) o ≠ .ub u) ∧
    (∀ r o', (staticImpl multi C E N).exec (.assignList vs) o = .ok r o' →
      (staticImpl multi C E N).contents o' = .ok vs o' ∧
      ∃ ys, (staticImpl multi C E N).contents o' = .ok ys o' ∧ (C.Sorted multi vs → C.Sorted multi ys)) ∧
    (∀ e o', (staticImpl multi C E N).exec (.assignList vs) o = .exn e o' →
      ∃ ys, (staticImpl multi C E N).contents o' = .ok ys o' ∧ ys.length ≤ N) := by
  obtain ⟨H, al, xs, hx⟩ := h.static hm (staticSpec L hm.fits)
  have hs := staticExec_spec (multi := multi) L (.assignList vs) hx (by
    simp [staticPre, Flat.Op.pre, Flat.Op.uniqueOnly, Flat.Op.storage]
    exact hv)
  refine ⟨fun u => wp_not_ub hs, fun r o' hr => ?_, fun e o' hr => ?_⟩
  · obtain ⟨ys, k1, -, -, -, rfl⟩ := wp_ok hr hs
    exact ⟨k1.contents _ rfl rfl, _, k1.contents _ rfl rfl, id⟩
  · obtain ⟨ys, k1, -⟩ := wp_exn hr hs
    exact ⟨ys, k1.contents _ rfl rfl, k1.len⟩

end

/-! ### Concrete cases -/

namespace Demo

theorem reachedIn {Op I ρ : Type} {c : Cont 3 Op I Vec Nat ρ} {S : Sem Op I Nat ρ} {i : Fin 3} {ops : List (WOp 3 Op I)}
    (h : alive (World.runOps c S ops ⟨fun _ => none, m3⟩) i = true) :
    Reached c S m3 i (after (World.runOps c S ops ⟨fun _ => none, m3⟩) i) := by
  cases hr : World.runOps c S ops ⟨fun _ => none, m3⟩ with
  | ok log s =>
    rw [hr] at h
    simp only [alive] at h
    cases hv : s.obj i with
    | none => rw [hv] at h; cases h
    | some v => exact ⟨ops, log, s, v, hr, hv, by simp [after, hv]⟩
  | exn => rw [hr] at h; cases h
  | ub => rw [hr] at h; cases h

/-- A static_vector<int, 2> with one element 6. -/
def svec : Obj Vec Nat :=
  after (World.runOps (StaticVector.cont (env [9]) ib3 2) (StaticVector.sem (env [9]) 2) [.make 0 0 (.range [6])]
    ⟨fun _ => none, m3⟩) 0

/-- A static_flat_set<int, 2> with one element 5. -/
def sset (ts : List Nat) : Obj Vec Nat :=
  after (World.runOps (staticCont false asc (envCopy ts) ib3 2) (staticSem false asc (envCopy ts) 2)
    [.make 0 0 (.range [5])] ⟨fun _ => none, m3⟩) 0

theorem sset_reached (ts : List Nat) (h : alive (World.runOps (staticCont false asc (envCopy ts) ib3 2)
      (staticSem false asc (envCopy ts) 2) [.make 0 0 (.range [5])] ⟨fun _ => none, m3⟩) 0 = true) :
    Reached (staticCont false asc (envCopy ts) ib3 2) (staticSem false asc (envCopy ts) 2) m3 0 (sset ts) := reachedIn h

theorem contents_of {Op ρ V : Type} {I : Sq.Impl Op V Nat ρ} {o : Obj V Nat} {xs ys : List Nat}
    (h : I.contents o = .ok xs o) (h' : show' (I.contents o) = some ys) : xs = ys := by
  rw [h] at h'
  exact Option.some.inj h'

/-- Contents of a static flat set<int, 2> after a function. -/
def left {β : Type} (E : Env Nat) : Res (Obj Vec Nat) β → Option (List Nat)
  | .exn _ o => show' ((staticImpl false asc E 2).contents o)
  | .ok _ o => show' ((staticImpl false asc E 2).contents o)
  | .ub _ => none

/-- A static_flat_set<int, 2> with elements 12 and 17. -/
def sset2 : Obj Vec Nat :=
  after (World.runOps (staticCont false asc (envCopy []) ib3 2) (staticSem false asc (envCopy []) 2)
    [.make 0 0 (.range [17, 12])] ⟨fun _ => none, m3⟩) 0

theorem sset2_reached : Reached (staticCont false asc (envCopy []) ib3 2) (staticSem false asc (envCopy []) 2) m3 0 sset2 :=
  reachedIn (by decide +kernel)

end Demo

open Demo in
/-- **C15**: the hypotheses of `staticVector_modify` are met; insertion of a reference to an own element at the front. -/
example : Reached (StaticVector.cont (env [9]) ib3 2) (StaticVector.sem (env [9]) 2) m3 0 svec ∧
    show' ((do
      let r1 ← (StaticVector.impl (env [9]) 2).exec (.emplace 0 (.elem 0))
      let r2 ← (StaticVector.impl (env [9]) 2).exec (.assignRange [7, 8])
      let xs ← (StaticVector.impl (env [9]) 2).contents
      pure (r1, r2, xs) : Vector.VM Nat _) svec) = some (some 0, none, [7, 8]) :=
  ⟨reachedIn (by decide +kernel), by decide +kernel⟩

open Demo in
/-- **C10**: the hypotheses of `staticVector_eraseIf` are met; `erase(c, 8)` removes one of two elements. -/
example : Reached (StaticVector.cont (env [9]) ib3 2) (StaticVector.sem (env [9]) 2) m3 0 svec ∧
    show' ((do
      let _ ← (StaticVector.impl (env [9]) 2).exec (.assignRange [8, 7])
      let r ← Vector.eraseIf (env [9]) (· == 8)
      let xs ← (StaticVector.impl (env [9]) 2).contents
      pure (r, xs) : Vector.VM Nat _) svec) = some (1, [7]) :=
  ⟨reachedIn (by decide +kernel), by decide +kernel⟩

open Demo in
/-- `staticFlat_modify`, `staticFlat_insert`, `staticFlat_map`, `staticFlat_in_order`, `staticFlat_lookup`: their
hypotheses are met by `Demo.sset`. -/
example : Reached (staticCont false asc (envCopy [90]) ib3 2) (staticSem false asc (envCopy [90]) 2) m3 0 (sset [90]) ∧
    show' ((do
      let r1 ← (staticImpl false asc (envCopy [90]) 2).exec (.insert (.elem 0))
      let r2 ← (staticImpl false asc (envCopy [90]) 2).exec (.insertHint 1 (.value 3))
      let r3 ← query false asc (envCopy [90]) (asc.probe 4) .lowerBound
      let xs ← (staticImpl false asc (envCopy [90]) 2).contents
      let r4 ← (staticImpl false asc (envCopy [90]) 2).exec (.eraseKey 5)
      pure (r1, r2, r3, xs, r4) : Vector.VM Nat _) (sset [90])) =
      some (.ins 0 false, .pos 0, .pos 1, [3, 5], .num 1) :=
  ⟨sset_reached _ (by decide +kernel), by decide +kernel⟩

open Demo in
/-- **C36**: the hypotheses of `staticFlat_throw_partial` are met by `emplace(3)` on the set {5}, where creating the value
throws. -/
example : NothrowMove (envCopy [2]) ∧
    Reached (staticCont false asc (envCopy [2]) ib3 2) (staticSem false asc (envCopy [2]) 2) m3 0 (sset [2]) ∧
    (Flat.Op.emplace 3 : Flat.Op Nat Nat).safe false = true ∧
    ∃ e o', (staticImpl false asc (envCopy [2]) 2).exec (.emplace 3) (sset [2]) = .exn e o' :=
  ⟨⟨rfl, rfl⟩, sset_reached _ (by decide +kernel), rfl, exn_of (by decide +kernel)⟩

/-- **C35 does not hold**: `operator=(initializer_list)` of the static flat containers copies the list as it is
(static_flat_set.hpp:252-256, static_flat_map.hpp:306-310, static_flat_multiset.hpp:252-256,
static_flat_multimap.hpp:306-310): assigning {7, 3} or {7, 7} to the static_flat_set {5} leaves [7, 3] or [7, 7], and
a lookup of 3 in [7, 3] finds nothing. -/
theorem staticFlat_assign_unsorted : ∃ (E : Env Nat) (o : Obj Vec Nat), NothrowMove E ∧
    Reached (staticCont false Demo.asc E Demo.ib3 2) (staticSem false Demo.asc E 2) Demo.m3 0 o ∧
    (∃ r o', (staticImpl false Demo.asc E 2).exec (.assignList [7, 3]) o = .ok r o' ∧
      (staticImpl false Demo.asc E 2).contents o' = .ok [7, 3] o' ∧ ¬ Demo.asc.Sorted false [7, 3] ∧
      ∃ o2, query false Demo.asc E (Demo.asc.probe 3) .contains o' = .ok (.flag false) o2) ∧
    (∃ r o', (staticImpl false Demo.asc E 2).exec (.assignList [7, 7]) o = .ok r o' ∧
      (staticImpl false Demo.asc E 2).contents o' = .ok [7, 7] o' ∧ ¬ Demo.asc.Sorted false [7, 7]) := by
  have hr := Demo.sset_reached [] (by decide +kernel)
  refine ⟨_, Demo.sset [], ⟨rfl, rfl⟩, hr, ?_, ?_⟩
  · have hx := (staticFlat_assign_partial (vs := [7, 3]) Demo.asc_lawful (Demo.objects3 _ (by decide)) hr (by decide)).2.1
    have hq : Demo.show' ((do
        let _ ← (staticImpl false Demo.asc (Demo.envCopy []) 2).exec (.assignList [7, 3])
        query false Demo.asc (Demo.envCopy []) (Demo.asc.probe 3) .contains : Vector.VM Nat _) (Demo.sset [])) = some (.flag false) := by
      decide +kernel
    cases he : (staticImpl false Demo.asc (Demo.envCopy []) 2).exec (.assignList [7, 3]) (Demo.sset []) with
    | ok r o' =>
      rw [bind_apply, he] at hq
      obtain ⟨o2, h2⟩ := Demo.ok_of hq
      exact ⟨r, o', rfl, (hx r o' he).1, by simp [Order.Sorted, Demo.asc], o2, h2⟩
    | exn e o' => rw [bind_apply, he] at hq; cases hq
    | ub u => rw [bind_apply, he] at hq; cases hq
  · have hx := (staticFlat_assign_partial (vs := [7, 7]) Demo.asc_lawful (Demo.objects3 _ (by decide)) hr (by decide)).2.1
    have hq : Demo.left (Demo.envCopy []) ((staticImpl false Demo.asc (Demo.envCopy []) 2).exec (.assignList [7, 7]) (Demo.sset [])) =
      some [7, 7] ∧ Demo.threw ((staticImpl false Demo.asc (Demo.envCopy []) 2).exec (.assignList [7, 7]) (Demo.sset [])) = false := by
      decide +kernel
    cases he : (staticImpl false Demo.asc (Demo.envCopy []) 2).exec (.assignList [7, 7]) (Demo.sset []) with
    | ok r o' => exact ⟨r, o', rfl, (hx r o' he).1, by simp [Order.Sorted, Demo.asc]⟩
    | exn e o' => rw [he] at hq; cases hq.2
    | ub u => rw [he] at hq; cases hq.1

/-- **C36 does not hold** for the static containers either: `insert(const value_type&)` of a static_flat_set shifts the
elements and then copy assigns to the gap (static_flat_set.hpp:930-948); if the copy throws, {5} is left as {5, 5}. -/
theorem staticFlat_insert_throw : ∃ (E : Env Nat) (o o' : Obj Vec Nat) (e : Exn), NothrowMove E ∧
    Reached (staticCont false Demo.asc E Demo.ib3 2) (staticSem false Demo.asc E 2) Demo.m3 0 o ∧
    (staticImpl false Demo.asc E 2).contents o = .ok [5] o ∧
    (staticImpl false Demo.asc E 2).exec (.insert (.value 1)) o = .exn e o' ∧
    (staticImpl false Demo.asc E 2).contents o' = .ok [5, 5] o' := by
  have hr := Demo.sset_reached [5] (by decide +kernel)
  obtain ⟨xs, hc, -, hop⟩ := staticFlat_modify Demo.asc_lawful (Demo.objects3 _ (by decide)) hr
  obtain rfl : xs = [5] := Demo.contents_of hc (by decide +kernel)
  obtain ⟨e, o', hx⟩ := Demo.exn_of
    (r := (staticImpl false Demo.asc (Demo.envCopy [5]) 2).exec (.insert (.value 1)) (Demo.sset [5])) (by decide +kernel)
  obtain ⟨ys, h1, -⟩ := (hop (.insert (.value 1)) rfl (by decide) rfl rfl).2.2 e o' hx
  have hys : Demo.left (Demo.envCopy [5])
      ((staticImpl false Demo.asc (Demo.envCopy [5]) 2).exec (.insert (.value 1)) (Demo.sset [5])) = some [5, 5] := by
    decide +kernel
  rw [hx] at hys
  obtain rfl : ys = [5, 5] := Demo.contents_of h1 hys
  exact ⟨_, _, o', e, ⟨rfl, rfl⟩, hr, hc, hx, h1⟩

/-- **C29 does not hold** for heterogeneous `count` of the static containers with unique keys (static_flat_set.hpp:767-778,
static_flat_map.hpp:938-950). -/
theorem staticFlat_count_heterogeneous : ∃ (o : Obj Vec Nat) (xs : List Nat) (P : Probe Nat) (o' : Obj Vec Nat),
    Reached (staticCont false Demo.asc (Demo.envCopy []) Demo.ib3 2) (staticSem false Demo.asc (Demo.envCopy []) 2) Demo.m3 0 o ∧
    (staticImpl false Demo.asc (Demo.envCopy []) 2).contents o = .ok xs o ∧ Demo.asc.Sorted false xs ∧
    P.Fits xs ∧ query false Demo.asc (Demo.envCopy []) P .count o = .ok (.num 1) o' ∧ xs.countP P.hit = 2 := by
  obtain ⟨xs, hc, -⟩ := staticFlat_modify Demo.asc_lawful (Demo.objects3 _ (by decide)) Demo.sset2_reached
  obtain rfl : xs = [12, 17] := Demo.contents_of hc (by decide +kernel)
  obtain ⟨o', ho'⟩ := Demo.ok_of (r := query false Demo.asc (Demo.envCopy []) Demo.oneTen .count Demo.sset2)
    (b := .num 1) (by decide +kernel)
  exact ⟨_, _, Demo.oneTen, o', Demo.sset2_reached, hc, by simp [Order.Sorted, Demo.asc],
    ⟨by simp [Demo.oneTen], by simp [Demo.oneTen], by simp [Demo.oneTen]⟩, ho', by decide⟩

end Sfl
