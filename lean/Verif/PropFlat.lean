import Verif.PropTwo
import Verif.FlatWorld
import Verif.FlatLook
import Verif.FlatMap
/-
  Properties of small_flat_set, small_flat_map (`multi = false`), small_flat_multiset and small_flat_multimap
  (`multi = true`): C28-C32, C36, C37. All theorems are about containers in arbitrary programs with any number of
  containers, allocators, exception schedules and initial memories.
-/

namespace Sfl
open World Flat
variable {α κ : Type}

/-- The objects of a program: an internal storage of `N` raw slots for each of them, all different, in a memory that
may contain anything else. -/
structure Objects {K : Nat} (E : Env α) (ib : Fin K → Nat) (N : Nat) (m0 : St α) : Prop where
  wf : m0.Wf
  raw : ∀ i, RawObject m0 (ib i) N
  disj : ∀ i j, i ≠ j → ib i ≠ 0 → ib i ≠ ib j
  fits : N ≤ E.maxSize

theorem Objects.start {K : Nat} {E : Env α} {ib : Fin K → Nat} {N : Nat} {m0 : St α} {Op I ρ : Type}
    {c : Cont K Op I Vec α ρ} {S : Sem Op I α ρ} (h : Objects E ib N m0)
    (hS : Spec c S (SmallVector.rep E ib N)) :
    Inv (SmallVector.rep E ib N) m0 (⟨fun _ => none, m0⟩ : Slots K Vec α) (fun _ => none) (SmallVector.rep E ib N).dead :=
  hS.start h.wf (fun i => ⟨(h.raw i).blk, (h.raw i).raw⟩) (by
    intro i j hij c h1 h2
    have e1 := h1.2.elim id id
    have e2 := h2.2.elim id id
    exact h.disj i j hij (e1 ▸ h1.1) (e1.symm.trans e2))

theorem Demo.objects3 (E : Env Nat) (h : 2 ≤ E.maxSize) : Objects E Demo.ib3 2 Demo.m3 :=
  ⟨Demo.m3_wf, Demo.ib3_raw, by decide, h⟩

/-- Integers in ascending order (a set). -/
def Demo.asc : Order Nat Nat := ⟨id, fun a b => decide (a < b), true, fun a _ => a⟩

/-- Elements `100 * key + value`, ordered by descending key (a map). -/
def Demo.map : Order Nat Nat := ⟨fun a => a / 100, fun a b => decide (b < a), false, fun a b => a / 100 * 100 + b % 100⟩

theorem Demo.map_lawful : Demo.map.Lawful where
  weak := by
    constructor
    · intro a; simp [Demo.map]
    · intro a b c; simp [Demo.map]; omega
    · intro a b c; simp [Demo.map]; omega
  upd := by intro a b; simp [Demo.map]; omega

/-- `a < b` on tens: a comparator with classes of equivalent keys. -/
def Demo.tens : Order Nat Nat := ⟨id, fun a b => decide (a / 10 < b / 10), true, fun a _ => a⟩

theorem Demo.tens_lawful : Demo.tens.Lawful where
  weak := by
    constructor
    · intro a; simp [Demo.tens]
    · intro a b c; simp [Demo.tens]; omega
    · intro a b c; simp [Demo.tens]; omega
  upd := by intro a b; rfl

/-! ### Whole programs: C28, C32, C36 -/

/-- Whether moving an element never throws. -/
def Env.nothrowMoves (E : Env α) : Bool := E.nothrowMoveCtor && E.nothrowMoveAssign

/-- **C28, C32, C36.** Any program with small flat sets, maps, multisets or multimaps (constructors, copies, moves,
assignments, swaps and modifiers in any order, everything possibly throwing) followed by reading all containers and
destroying them has no undefined behaviour and ends with the memory as it was; results and elements follow the
abstract specification (`smallSem`, lists only); and every container whose history (`trackAll`) does not contain a
move from it or an exception of an operation without a promise is in order: strictly increasing for sets and maps,
increasing for multisets and multimaps. -/
theorem smallFlat_session (K : Nat) (multi : Bool) (C : Order α κ) (L : C.Lawful) (E : Env α) (T : Traits) (N : Nat)
    (ib : Fin K → Nat) (m0 : St α) (hm : Objects E ib N m0) (ops : List (WOp K (Flat.Op α κ) (Flat.Init α))) :
    ∃ log A o', World.session (smallCont multi C E T ib N) (smallSem multi C E T) ops ⟨fun _ => none, m0⟩ =
        .ok (log, (List.finRange K).map A) o' ∧
      WRun (smallSem multi C E T) (fun _ => none) ops log A ∧
      InOrder (C.Sorted multi) (trackAll (smallFlags multi E.nothrowMoves) (fun _ => false) ops log) A ∧
      o'.m.mem = m0.mem ∧ o'.m.blk = m0.blk := by
  obtain ⟨log, A, o', h1, h2, h3, h4⟩ := (smallSpec (multi := multi) (T := T) L hm.fits).session hm.wf
    (fun i => ⟨(hm.raw i).blk, (hm.raw i).raw⟩) (by
      intro i j hij c h1 h2
      have e1 := h1.2.elim id id
      have e2 := h2.2.elim id id
      exact hm.disj i j hij (e1 ▸ h1.1) (e1.symm.trans e2)) ops
  refine ⟨log, A, o', h1, h2, ?_, h3, h4⟩
  refine InOrder.run (smallKeeps L (fun h => ?_)) ?_ h2
  · simpa [Env.nothrowMoves, NothrowMove] using h
  · intro i al xs hi; cases hi

/-- **C28.** As long as operations complete normally and no container is moved from, all flat sets and maps of a
program are strictly increasing under the comparator (multisets and multimaps: increasing, C32). -/
theorem smallFlat_sorted (K : Nat) (multi : Bool) (C : Order α κ) (L : C.Lawful) (E : Env α) (T : Traits) (N : Nat)
    (ib : Fin K → Nat) (m0 : St α) (hm : Objects E ib N m0) (ops : List (WOp K (Flat.Op α κ) (Flat.Init α)))
    {log : List (Sq.Out (Option Flat.Ret))} {cs : List (Option (Nat × List α))} {o' : Slots K Vec α}
    (hx : World.session (smallCont multi C E T ib N) (smallSem multi C E T) ops ⟨fun _ => none, m0⟩ = .ok (log, cs) o')
    (hn : ∀ op ∈ ops, op.moves = false) (ht : ∀ out ∈ log, ∀ e, out ≠ .threw e) :
    ∀ al xs, some (al, xs) ∈ cs → C.Sorted multi xs := by
  obtain ⟨log', A, o1, h1, -, h3, -⟩ := smallFlat_session K multi C L E T N ib m0 hm ops
  rw [hx] at h1
  cases h1
  rw [trackAll_none ops log (fun _ _ _ => rfl) hn ht] at h3
  intro al xs hc
  obtain ⟨i, -, hi⟩ := List.mem_map.mp hc
  exact h3 i al xs hi rfl

/-- Three small_flat_map<int, int, 2> with elements that throw now and then: insertions with good and bad hints,
assignment to existing keys, copy assignment that throws, swap, move, erasure. -/
example : Demo.show' (World.session (smallCont false Demo.map (Demo.env [4, 30]) Demo.T Demo.ib3 2)
    (smallSem false Demo.map (Demo.env [4, 30]) Demo.T)
    [.make 0 7 (.range [301, 502, 303]), .make 0 7 (.range [301, 502, 303]), .op 0 (.insert (.value 404)),
     .op 0 (.insertHint 3 (.elem 1)), .op 0 (.insertOrAssign 455), .make 1 7 .empty, .op 1 (.emplaceHint 0 900),
     .assignCopy 1 0, .op 0 (.eraseKey 4), .swap 0 1, .makeMove 2 0 none, .op 2 (.tryEmplaceHint 0 404), .op 2 (.eraseRange 0 2)]
    ⟨fun _ => none, Demo.m3⟩) =
    some ([.threw .elem, .ok none, .ok (some (.ins 1 true)), .ok (some (.pos 1)), .ok (some (.ins 1 false)), .ok none,
      .ok (some (.pos 0)), .threw .badAlloc, .ok (some (.num 1)), .ok none, .ok none, .ok (some (.pos 0)), .skipped],
      [some (7, []), some (7, [502, 301]), some (7, [404])]) := by decide +kernel

/-- A program as in `smallFlat_sorted`: three small_flat_multiset<int, 2> with classes of equivalent elements. -/
example : Demo.show' (World.session (smallCont true Demo.tens (Demo.env []) Demo.T Demo.ib3 2)
    (smallSem true Demo.tens (Demo.env []) Demo.T)
    [.make 0 7 (.range [31, 12, 35]), .op 0 (.insert (.value 17)), .op 0 (.insertHint 0 (.elem 1)), .makeCopy 1 0 none,
     .op 1 (.eraseKey 10), .op 0 (.emplaceHint 5 38), .swap 0 1, .op 1 (.insertRange [22, 19])] ⟨fun _ => none, Demo.m3⟩) =
    some ([.ok none, .ok (some (.ins 0 true)), .ok (some (.pos 0)), .ok none, .ok (some (.num 3)), .ok (some (.pos 5)),
      .skipped, .ok (some .unit)], [some (7, [12, 17, 12, 35, 31, 38]), some (9, [19, 22, 35, 31]), none]) := by
  decide +kernel

/-! ### One container in any program: C30, C31, C32, C37 -/

/-- `o` is a small flat container (its data members and the memory) in some slot of some program. -/
def SmallFlat.Reached {K : Nat} (multi : Bool) (C : Order α κ) (E : Env α) (T : Traits) (ib : Fin K → Nat) (N : Nat)
    (m0 : St α) (i : Fin K) (o : Obj Vec α) : Prop :=
  ∃ ops log s v, World.runOps (smallCont multi C E T ib N) (smallSem multi C E T) ops ⟨fun _ => none, m0⟩ = .ok log s ∧
    s.obj i = some v ∧ o = ⟨v, s.m⟩

section
variable {K : Nat} {multi : Bool} {C : Order α κ} {E : Env α} {T : Traits} {ib : Fin K → Nat} {N : Nat} {m0 : St α}
  {i : Fin K} {o : Obj Vec α} {xs : List α}

theorem SmallFlat.Reached.repr (h : SmallFlat.Reached multi C E T ib N m0 i o) (L : C.Lawful) (hm : Objects E ib N m0) :
    ∃ H al b cap xs, VSt H E (ib i) N o al b cap xs := by
  obtain ⟨ops, log, s, v, h1, h2, rfl⟩ := h
  have hS := smallSpec (multi := multi) (T := T) (ib := ib) L hm.fits
  obtain ⟨A, F, k, -⟩ := wp_ok h1 (hS.runOps ops (hm.start hS))
  have hc := k.cell i
  rw [h2] at hc
  cases hA : A i with
  | none => rw [hA] at hc; exact hc.elim
  | some a =>
    rw [hA] at hc
    obtain ⟨b, cap, k', -⟩ := hc
    exact ⟨_, _, b, cap, _, k'.vst k.wf (Rest.out _ _)⟩

theorem Sq.Impl.contents_congr {Op Op' V ρ ρ' : Type} {I : Sq.Impl Op V α ρ} {J : Sq.Impl Op' V α ρ'}
    (h1 : I.size = J.size) (h2 : I.index = J.index) : I.contents = J.contents := by
  have : ∀ n k, I.readFrom k n = J.readFrom k n := by
    intro n
    induction n with
    | zero => intro k; rfl
    | succ n ih => intro k; simp only [Sq.Impl.readFrom, h2, ih]
  simp only [Sq.Impl.contents, h1, this]

theorem VSt.flatContents {H : Heap α} {al b cap : Nat} {ib : Nat} (h : VSt H E ib N o al b cap xs) :
    (smallImpl multi C E ib N).contents o = .ok xs o := by
  obtain ⟨_, _, c, rfl, rfl⟩ := wp_elim ((SmallVector.correct H E al ib N).contents (xs := xs) ⟨b, cap, h⟩)
  rw [← c]
  exact congrFun (Sq.Impl.contents_congr (I := smallImpl multi C E ib N) (J := SmallVector.impl E ib N) rfl rfl) _

/-- **C30, C31, C32, C36.** Every modifier of every small flat container in every program, called under its
precondition: it has no undefined behaviour; if it returns, result and elements are as specified (provided that the
container was in order, or that the operation does not depend on that); if it throws, what is left is as described in
`Op.Failure` (length_error only if more than `max_size` elements were requested; still in order for the operations and
elements named there). -/
theorem smallFlat_modify (L : C.Lawful) (hm : Objects E ib N m0) (h : SmallFlat.Reached multi C E T ib N m0 i o) :
    ∃ xs, (smallImpl multi C E (ib i) N).contents o = .ok xs o ∧ ∀ op : Flat.Op α κ, op.pre multi xs.length = true →
      (∀ u, (smallImpl multi C E (ib i) N).exec op o ≠ .ub u) ∧
      (∀ r o', (smallImpl multi C E (ib i) N).exec op o = .ok r o' → ∃ ys,
        (smallImpl multi C E (ib i) N).contents o' = .ok ys o' ∧
        ((op.free = true ∨ C.Sorted multi xs) → op.Result C multi xs r ys)) ∧
      (∀ e o', (smallImpl multi C E (ib i) N).exec op o = .exn e o' → ∃ ys,
        (smallImpl multi C E (ib i) N).contents o' = .ok ys o' ∧
        op.Failure C multi (Strong E) (NothrowMove E) E.maxSize xs e ys) := by
  obtain ⟨H, al, b, cap, xs, hv⟩ := h.repr L hm
  refine ⟨xs, hv.flatContents, fun op hp => ?_⟩
  have hs := exec_spec L (small_ok multi E (ib i) N) op hv hp (fun h => by cases h)
  refine ⟨fun u => wp_not_ub hs, fun r o' hx => ?_, fun e o' hx => ?_⟩
  · obtain ⟨b', cap', ys, k1, k2⟩ := wp_ok hx hs
    exact ⟨ys, k1.v.flatContents, k2⟩
  · obtain ⟨b', cap', ys, k1, k2, -⟩ := wp_exn hx hs
    exact ⟨ys, k1.v.flatContents, k2.fail⟩

/-- **C36** for all operations of multisets and multimaps, and for the operations of sets and maps that do not copy into
the gap (insert(value_type&&), emplace, try_emplace, insert_or_assign, erase, reserve, shrink_to_fit), if moving
elements does not throw: whatever throws (copies, allocation, comparator), the container is still in order; single
insertions, erase, reserve and shrink_to_fit have not changed it at all. See `smallFlat_insert_throw` for the rest. -/
theorem smallFlat_throw_partial (L : C.Lawful) (hm : Objects E ib N m0) (h : SmallFlat.Reached multi C E T ib N m0 i o)
    (hc : (smallImpl multi C E (ib i) N).contents o = .ok xs o) (hs : C.Sorted multi xs) (hE : NothrowMove E)
    {op : Flat.Op α κ} (hsafe : op.safe multi = true) (hp : op.pre multi xs.length = true) {e : Exn} {o' : Obj Vec α}
    (hx : (smallImpl multi C E (ib i) N).exec op o = .exn e o') :
    ∃ ys, (smallImpl multi C E (ib i) N).contents o' = .ok ys o' ∧ C.Sorted multi ys ∧ (op.atomic = true → ys = xs) := by
  obtain ⟨xs', hc', hop⟩ := smallFlat_modify L hm h
  rw [hc] at hc'
  cases hc'
  obtain ⟨ys, k1, k2⟩ := (hop op hp).2.2 e o' hx
  exact ⟨ys, k1, k2.order hE hsafe hs, k2.same hE hsafe⟩

/-- **C37.** If an insertion of one element has to reallocate (`size() == capacity()`), or if `reserve` or
`shrink_to_fit` is called, and it throws (allocation, element or comparator), the container and all of memory are
unchanged: no element is lost, nothing is leaked. Elements must be nothrow move constructible or copyable. -/
theorem smallFlat_strong (L : C.Lawful) (hm : Objects E ib N m0) (h : SmallFlat.Reached multi C E T ib N m0 i o)
    (hE : Strong E) {op : Flat.Op α κ} {n c : Nat} {o1 o2 o' : Obj Vec α} {e : Exn} (hn : Vector.size o = .ok n o1)
    (hc : Vector.capacity o = .ok c o2) (hp : op.pre multi n = true)
    (hop : op.one = true ∧ n = c ∨ op.storage = true)
    (hx : (smallImpl multi C E (ib i) N).exec op o = .exn e o') :
    o'.obj = o.obj ∧ o'.m.mem = o.m.mem ∧ o'.m.blk = o.m.blk := by
  obtain ⟨H, al, b, cap, xs, hv⟩ := h.repr L hm
  obtain rfl := hv.size_eq hn
  have hcap : c = cap := by
    have := wp_capacity (X := fun _ _ => False) hv.obj (Q := fun r _ => r = cap) rfl
    exact wp_ok (Q := fun r _ => r = cap) hc this
  subst hcap
  obtain ⟨b', cap', ys, k1, k2, k3⟩ := wp_exn hx (exec_spec L (small_ok multi E (ib i) N) op hv hp (fun h => by cases h))
  have hm : op.many = false := by
    rcases hop with ⟨h1, -⟩ | h1
    · cases op <;> simp [Flat.Op.one, Flat.Op.many] at h1 ⊢
    · cases op <;> simp [Flat.Op.storage, Flat.Op.many] at h1 ⊢
  rcases k3 with k3 | ⟨rfl, rfl⟩
  · rw [hm] at k3; cases k3
  · have : ys = xs := by
      rcases hop with ⟨h1, h2⟩ | h1
      · exact k2.full hE h2 h1
      · exact k2.fail.strong hE h1
    subst this
    exact hv.eq k1.v

/-- **C28** for the containers of a running program: a container whose history contains no move from it and no
exception of an operation without a promise is in order. -/
theorem smallFlat_in_order (L : C.Lawful) (hm : Objects E ib N m0) {ops : List (WOp K (Flat.Op α κ) (Flat.Init α))}
    {log : List (Sq.Out (Option Flat.Ret))} {s : Slots K Vec α} {v : Vec}
    (hx : World.runOps (smallCont multi C E T ib N) (smallSem multi C E T) ops ⟨fun _ => none, m0⟩ = .ok log s)
    (hv : s.obj i = some v) (ht : trackAll (smallFlags multi E.nothrowMoves) (fun _ => false) ops log i = false) :
    ∃ xs, (smallImpl multi C E (ib i) N).contents ⟨v, s.m⟩ = .ok xs ⟨v, s.m⟩ ∧ C.Sorted multi xs := by
  have hS := smallSpec (multi := multi) (T := T) (ib := ib) L hm.fits
  obtain ⟨A, F, k, w⟩ := wp_ok hx (hS.runOps ops (hm.start hS))
  have ho : InOrder (C.Sorted multi) (trackAll (smallFlags multi E.nothrowMoves) (fun _ => false) ops log) A := by
    refine InOrder.run (smallKeeps L (fun h => ?_)) ?_ w
    · simpa [Env.nothrowMoves, NothrowMove] using h
    · intro i al xs hi; cases hi
  have hc := k.cell i
  rw [hv] at hc
  cases hA : A i with
  | none => rw [hA] at hc; exact hc.elim
  | some a =>
    rw [hA] at hc
    obtain ⟨b, cap, k', -⟩ := hc
    exact ⟨a.2, (k'.vst k.wf (Rest.out _ _)).flatContents, ho i _ _ hA ht⟩

/-- **C30.** `insert(value)` into a flat set or map in order: `true` is returned iff there was no equivalent element, and
then the value has been added; otherwise nothing changes; the iterator refers to the equivalent element; insertion with
any hint gives the same elements and the same position. -/
theorem smallFlat_insert (L : C.Lawful) (hm : Objects E ib N m0) (h : SmallFlat.Reached false C E T ib N m0 i o)
    (hc : (smallImpl false C E (ib i) N).contents o = .ok xs o) (hs : C.Sorted false xs) {s : Sq.Src α}
    (hsrc : s.ok xs.length = true) {r : Flat.Ret} {o' : Obj Vec α}
    (hx : (smallImpl false C E (ib i) N).exec (.insert s) o = .ok r o') :
    ∃ v j new ys, s.get? xs = some v ∧ r = .ins j new ∧ (smallImpl false C E (ib i) N).contents o' = .ok ys o' ∧
      (new = true ↔ ∀ x ∈ xs, C.same x v = false) ∧ (∃ y, ys[j]? = some y ∧ C.same y v = true) ∧
      (new = true → ys = xs.take j ++ v :: xs.drop j) ∧ (new = false → ys = xs) ∧
      ∀ p ≤ xs.length, ∀ r2 o2, (smallImpl false C E (ib i) N).exec (.insertHint p s) o = .ok r2 o2 →
        r2 = .pos j ∧ (smallImpl false C E (ib i) N).contents o2 = .ok ys o2 := by
  obtain ⟨xs', hc', hop⟩ := smallFlat_modify L hm h
  rw [hc] at hc'
  cases hc'
  obtain ⟨ys, k1, k2⟩ := (hop (.insert s) (by simpa [Flat.Op.pre, Flat.Op.uniqueOnly] using hsrc)).2.1 r o' hx
  obtain ⟨v, j, new, e1, e2, k3⟩ := k2 (Or.inr hs)
  refine ⟨v, j, new, ys, e1, e2, k1, ?_, ?_, ?_, ?_, ?_⟩
  · rcases k3 with ⟨rfl, h1, -⟩ | ⟨rfl, -, -, x, h1, h2⟩
    · simpa using h1
    · simp only [Bool.false_eq_true, false_iff]
      intro hno
      rw [hno x (List.mem_of_getElem? h1)] at h2; cases h2
  · rcases k3 with ⟨rfl, h1, h2, rfl, -⟩ | ⟨rfl, -, rfl, x, h1, h2⟩
    · refine ⟨v, ?_, by simp [Order.same, L.irrefl]⟩
      rw [List.getElem?_append_right (by simp [h2])]
      simp [Nat.min_eq_left h2]
    · exact ⟨x, h1, h2⟩
  · rcases k3 with ⟨rfl, h1, h2, rfl, -⟩ | ⟨rfl, -⟩
    · intro _; rfl
    · intro h; cases h
  · rcases k3 with ⟨rfl, -⟩ | ⟨rfl, -, rfl, -⟩
    · intro h; cases h
    · intro _; rfl
  · intro p hp r2 o2 hx2
    obtain ⟨ys2, q1, q2⟩ := (hop (.insertHint p s) (by simpa [Flat.Op.pre, Flat.Op.uniqueOnly] using ⟨hp, hsrc⟩)).2.1 r2 o2 hx2
    obtain ⟨v2, j2, new2, f1, f2, q3⟩ := q2 (Or.inr hs)
    rw [e1] at f1
    cases f1
    obtain ⟨rfl, -, rfl⟩ := k3.unique L hs q3
    exact ⟨f2, q1⟩

/-- **C31.** Every operation of a flat map in order acts on the finite map the elements stand for like the operation
of finite maps (`Flat.Op.MapResult`), and keeps the container in order; `operator[]` is try_emplace with a default
value. -/
theorem smallFlat_map (L : C.Lawful) (hm : Objects E ib N m0) (h : SmallFlat.Reached false C E T ib N m0 i o)
    (hc : (smallImpl false C E (ib i) N).contents o = .ok xs o) (hs : C.Sorted false xs) {op : Flat.Op α κ}
    (hp : op.pre false xs.length = true) {r : Flat.Ret} {o' : Obj Vec α}
    (hx : (smallImpl false C E (ib i) N).exec op o = .ok r o') :
    ∃ ys, (smallImpl false C E (ib i) N).contents o' = .ok ys o' ∧ op.MapResult C xs (C.get xs) (C.get ys) ∧
      C.Sorted false ys := by
  obtain ⟨xs', hc', hop⟩ := smallFlat_modify L hm h
  rw [hc] at hc'
  cases hc'
  obtain ⟨ys, k1, k2⟩ := (hop op hp).2.1 r o' hx
  exact ⟨ys, k1, (k2 (Or.inr hs)).map L hp hs, (k2 (Or.inr hs)).sorted L hp (Or.inl hs)⟩

/-! ### C29: lookup -/

/-- What lookup does: the right answer, nothing but the counter of element operations changes, few comparisons; only
`at` throws out_of_range, exactly if there is no equivalent element, and other exceptions come from the comparator. -/
def LooksUp (multi : Bool) (C : Order α κ) (E : Env α) (P : Probe α) (q : Flat.Query) (xs : List α) (o : Obj Vec α) : Prop :=
  (∀ u, query multi C E P q o ≠ .ub u) ∧
  (∀ a o', query multi C E P q o = .ok a o' → q.Answer P xs a ∧ o'.obj = o.obj ∧ o'.m.mem = o.m.mem ∧ o'.m.blk = o.m.blk ∧
    ((q = .lowerBound ∨ q = .upperBound) → ∀ n, xs.length < 2 ^ n → o'.m.tick ≤ o.m.tick + n) ∧
    ((q = .find ∨ q = .contains ∨ q = .at) → ∀ n, xs.length < 2 ^ n → o'.m.tick ≤ o.m.tick + n + 1)) ∧
  (∀ e o', query multi C E P q o = .exn e o' → o'.obj = o.obj ∧ o'.m.mem = o.m.mem ∧ o'.m.blk = o.m.blk ∧
    (e = .outOfRange ∧ q = .at ∧ (∀ x ∈ xs, P.hit x = false) ∨ e = .elem ∧ C.nothrow = false))

theorem looksUp {H : Heap α} {ib al b cap : Nat} (h : VSt H E ib N o al b cap xs) {P : Probe α} (f : P.Fits xs)
    (q : Flat.Query) (hone : multi = false → q = .count → xs.countP P.hit ≤ 1) : LooksUp multi C E P q xs o := by
  have hs := query_spec (multi := multi) (C := C) q h f hone
  refine ⟨fun u => wp_not_ub hs, fun a o' hx => ?_, fun e o' hx => ?_⟩
  · obtain ⟨l, k1, k2, k3⟩ := wp_ok hx hs
    exact ⟨k1, l.obj, l.q.mem, l.q.blk, k2, k3⟩
  · obtain ⟨l, k⟩ := wp_exn hx hs
    exact ⟨l.obj, l.q.mem, l.q.blk, k⟩

/-- **C29** for keys of the container's key type: in every container in order every lookup is exact. -/
theorem smallFlat_lookup (L : C.Lawful) (hm : Objects E ib N m0) (h : SmallFlat.Reached multi C E T ib N m0 i o)
    (hc : (smallImpl multi C E (ib i) N).contents o = .ok xs o) (hs : C.Sorted multi xs) (k : κ) (q : Flat.Query) :
    LooksUp multi C E (C.probe k) q xs o := by
  obtain ⟨H, al, b, cap, xs', hv⟩ := h.repr L hm
  have := hv.flatContents (C := C) (multi := multi)
  rw [hc] at this
  cases this
  refine looksUp hv (L.fits hs k) q fun hm _ => ?_
  subst hm
  exact countP_own L hs k

/-- **C29** for keys of other types (heterogeneous lookup): exact for every key that is compatible with the order of the
elements, except `count` of containers with unique keys, which needs that at most one element is equivalent to
the key; see `smallFlat_count_heterogeneous`. -/
theorem smallFlat_lookup_partial (L : C.Lawful) (hm : Objects E ib N m0) (h : SmallFlat.Reached multi C E T ib N m0 i o)
    (hc : (smallImpl multi C E (ib i) N).contents o = .ok xs o) (P : Probe α) (f : P.Fits xs) (q : Flat.Query)
    (hone : multi = false → q = .count → xs.countP P.hit ≤ 1) : LooksUp multi C E P q xs o := by
  obtain ⟨H, al, b, cap, xs', hv⟩ := h.repr L hm
  have := hv.flatContents (C := C) (multi := multi)
  rw [hc] at this
  cases this
  exact looksUp hv f q hone

end

/-! ### Concrete cases -/

namespace Demo

/-- The container in slot `i` after a program. -/
def after {β : Type} (r : Res (Slots 3 Vec Nat) β) (i : Fin 3) : Obj Vec Nat := match r with
  | .ok _ s => match s.obj i with
    | some v => ⟨v, s.m⟩
    | none => ⟨SmallVector.empty 0 0 0, m0⟩
  | _ => ⟨SmallVector.empty 0 0 0, m0⟩

/-- Whether there is one. -/
def alive {β : Type} (r : Res (Slots 3 Vec Nat) β) (i : Fin 3) : Bool := match r with
  | .ok _ s => (s.obj i).isSome
  | _ => false

theorem reached {multi : Bool} {C : Order Nat Nat} {E : Env Nat} {T : Traits} {N : Nat} {i : Fin 3}
    {ops : List (WOp 3 (Flat.Op Nat Nat) (Flat.Init Nat))}
    (h : alive (World.runOps (smallCont multi C E T ib3 N) (smallSem multi C E T) ops ⟨fun _ => none, m3⟩) i = true) :
    SmallFlat.Reached multi C E T ib3 N m3 i
      (after (World.runOps (smallCont multi C E T ib3 N) (smallSem multi C E T) ops ⟨fun _ => none, m3⟩) i) := by
  cases hr : World.runOps (smallCont multi C E T ib3 N) (smallSem multi C E T) ops ⟨fun _ => none, m3⟩ with
  | ok log s =>
    rw [hr] at h
    simp only [alive] at h
    cases hv : s.obj i with
    | none => rw [hv] at h; cases h
    | some v => exact ⟨ops, log, s, v, hr, hv, by simp [after, hv]⟩
  | exn => rw [hr] at h; cases h
  | ub => rw [hr] at h; cases h

/-- A small_flat_map<int, int, 2> with elements (5, 2), (4, 4), (3, 1) in descending order of keys, on the heap. -/
def fmap (ts : List Nat) : Obj Vec Nat :=
  after (World.runOps (smallCont false map (env ts) T ib3 2) (smallSem false map (env ts) T)
    [.make 0 7 (.range [301, 502, 404])] ⟨fun _ => none, m3⟩) 0

/-- A small_flat_multiset<int, 2> with elements 12, 17, 35, 31 compared by their tens. -/
def fmulti (ts : List Nat) : Obj Vec Nat :=
  after (World.runOps (smallCont true tens (env ts) T ib3 2) (smallSem true tens (env ts) T)
    [.make 0 7 (.range [31, 17, 35, 12])] ⟨fun _ => none, m3⟩) 0

theorem fmap_reached : SmallFlat.Reached false map (env [40, 50]) T ib3 2 m3 0 (fmap [40, 50]) := reached (by decide +kernel)

theorem fmulti_reached : SmallFlat.Reached true tens (env [40, 50]) T ib3 2 m3 0 (fmulti [40, 50]) :=
  reached (by decide +kernel)

theorem asc_lawful : asc.Lawful where
  weak := by
    constructor
    · intro a; simp [asc]
    · intro a b c; simp [asc]; omega
    · intro a b c; simp [asc]; omega
  upd := by intro a b; rfl

/-- Elements whose moves do not throw and copy (like a struct of numbers), and whose copy assignment, if it throws
(operations in `ts`), changes nothing. -/
def envCopy (ts : List Nat) : Env Nat where
  throws := fun t => ts.contains t
  moved := id
  failSrc := fun _ x => x
  failDst := fun _ x _ => x
  nothrowMoveCtor := true
  nothrowMoveAssign := true
  copyable := true
  dflt := 0
  maxSize := 100

/-- Contents, for display. -/
def elems (multi : Bool) (C : Order Nat Nat) (E : Env Nat) (o : Obj Vec Nat) : Option (List Nat) :=
  show' ((smallImpl multi C E (ib3 0) 2).contents o)

theorem elems_of {multi : Bool} {C : Order Nat Nat} {E : Env Nat} {o : Obj Vec Nat} {xs ys : List Nat}
    (h : (smallImpl multi C E (ib3 0) 2).contents o = .ok xs o) (h' : elems multi C E o = some ys) : xs = ys := by
  unfold elems at h'
  rw [h] at h'
  exact Option.some.inj h'

/-- Whether the result is an exception. -/
def threw {β γ : Type} : Res γ β → Bool
  | .exn _ _ => true
  | _ => false

/-- The state an exception leaves, for display. -/
def elemsAfterThrow {β : Type} (multi : Bool) (C : Order Nat Nat) (E : Env Nat) : Res (Obj Vec Nat) β → Option (List Nat)
  | .exn _ o => elems multi C E o
  | _ => none

theorem exn_of {β γ : Type} {r : Res γ β} (h : threw r = true) : ∃ e o, r = .exn e o := by
  cases r with
  | exn e o => exact ⟨e, o, rfl⟩
  | ok => cases h
  | ub => cases h

/-- The small_flat_set<int, 2> {12, 17, 35}. -/
def fset : Obj Vec Nat :=
  after (World.runOps (smallCont false asc (env []) T ib3 2) (smallSem false asc (env []) T)
    [.make 0 7 (.range [35, 12, 17])] ⟨fun _ => none, m3⟩) 0

theorem fset_reached : SmallFlat.Reached false asc (env []) T ib3 2 m3 0 fset := reached (by decide +kernel)

/-- The small_flat_set {5} with capacity 2. -/
def fset5 : Obj Vec Nat :=
  after (World.runOps (smallCont false asc (envCopy [4]) T ib3 2) (smallSem false asc (envCopy [4]) T)
    [.make 0 7 (.range [5])] ⟨fun _ => none, m3⟩) 0

theorem fset5_reached : SmallFlat.Reached false asc (envCopy [4]) T ib3 2 m3 0 fset5 := reached (by decide +kernel)

/-- The key "one ten". -/
def oneTen : Probe Nat := ⟨fun x => decide (x / 10 < 1), fun x => decide (1 < x / 10)⟩

end Demo

open Demo in
/-- `smallFlat_modify`, `smallFlat_insert`, `smallFlat_map`: their hypotheses are met by `Demo.fmap`, where
inserting an element that refers into the container, one with an existing key, and one with a new key succeed. -/
example : SmallFlat.Reached false map (env [40, 50]) T ib3 2 m3 0 (fmap [40, 50]) ∧
    elems false map (env [40, 50]) (fmap [40, 50]) = some [502, 404, 301] ∧
    show' ((do
      let E := env [40, 50]
      let r1 ← (smallImpl false map E 2 2).exec (.insert (.elem 1))
      let r2 ← (smallImpl false map E 2 2).exec (.insertHint 0 (.value 399))
      let r3 ← (smallImpl false map E 2 2).exec (.insertHint 3 (.value 477))
      let r4 ← (smallImpl false map E 2 2).exec (.insertOrAssignHint 0 477)
      let r5 ← (smallImpl false map E 2 2).exec (.insert (.value 208))
      let xs ← (smallImpl false map E 2 2).contents
      pure ([r1, r2, r3, r4, r5], xs) : Vector.VM Nat _) (fmap [40, 50])) =
    some ([.ins 1 false, .pos 2, .pos 1, .pos 1, .ins 3 true], [502, 477, 301, 208]) :=
  ⟨fmap_reached, by decide +kernel, by decide +kernel⟩

open Demo in
/-- **C32**: a multiset; insertion of a reference to an element with a bad hint, and `erase(key)` removing two elements. -/
example : SmallFlat.Reached true tens (env [40, 50]) T ib3 2 m3 0 (fmulti [40, 50]) ∧
    elems true tens (env [40, 50]) (fmulti [40, 50]) = some [12, 17, 35, 31] ∧
    show' ((do
      let E := env [40, 50]
      let r1 ← (smallImpl true tens E 2 2).exec (.insertHint 0 (.elem 3))
      let xs ← (smallImpl true tens E 2 2).contents
      let r2 ← (smallImpl true tens E 2 2).exec (.eraseKey 15)
      let ys ← (smallImpl true tens E 2 2).contents
      pure (r1, xs, r2, ys) : Vector.VM Nat _) (fmulti [40, 50])) =
    some (.pos 2, [12, 17, 31, 35, 31], .num 2, [31, 35, 31]) :=
  ⟨fmulti_reached, by decide +kernel, by decide +kernel⟩

open Demo in
/-- **C37**: the hypotheses of `smallFlat_strong` are met by an insertion into the full map `Demo.fmap` whose second
element move fails. -/
example : SmallFlat.Reached false map (env [17]) T ib3 2 m3 0 (fmap [17]) ∧ Strong (env [17]) ∧
    show' (Vector.size (fmap [17])) = some 3 ∧ show' (Vector.capacity (fmap [17])) = some 3 ∧
    ∃ e o', (smallImpl false map (env [17]) 2 2).exec (.insert (.value 250)) (fmap [17]) = .exn e o' :=
  ⟨reached (by decide +kernel), Or.inr rfl, by decide +kernel, by decide +kernel, exn_of (by decide +kernel)⟩

open Demo in
/-- **C36**: the hypotheses of `smallFlat_throw_partial` are met by an insertion of a temporary into the set {5}: nothrow
moves, and the comparator throws. -/
example : NothrowMove (envCopy [1]) ∧ SmallFlat.Reached false { asc with nothrow := false } (envCopy [1]) T ib3 2 m3 0
      (after (World.runOps (smallCont false { asc with nothrow := false } (envCopy [1]) T ib3 2)
        (smallSem false { asc with nothrow := false } (envCopy [1]) T) [.make 0 7 (.range [5])] ⟨fun _ => none, m3⟩) 0) ∧
    (Flat.Op.insert (.rvalue 1) : Flat.Op Nat Nat).safe false = true ∧
    ∃ e o', (smallImpl false { asc with nothrow := false } (envCopy [1]) (ib3 0) 2).exec (.insert (.rvalue 1))
      (after (World.runOps (smallCont false { asc with nothrow := false } (envCopy [1]) T ib3 2)
        (smallSem false { asc with nothrow := false } (envCopy [1]) T) [.make 0 7 (.range [5])] ⟨fun _ => none, m3⟩) 0) = .exn e o' :=
  ⟨⟨rfl, rfl⟩, reached (by decide +kernel), rfl, exn_of (by decide +kernel)⟩

open Demo in
/-- **C29**: lookups in `Demo.fmap` and `Demo.fmulti`; `at` of a missing key throws. -/
example : show' ((do
      let E := env [40, 50]
      let a ← query false map E (map.probe 4) .find
      let b ← query false map E (map.probe 6) .lowerBound
      let c ← query false map E (map.probe 3) .at
      let d ← query false map E (map.probe 2) .count
      pure [a, b, c, d] : Vector.VM Nat _) (fmap [40, 50])) = some [.pos 1, .pos 0, .elem 301, .num 0] ∧
    show' ((do
      let E := env [40, 50]
      let a ← query true tens E (tens.probe 36) .equalRange
      let b ← query true tens E (tens.probe 36) .count
      let c ← query true tens E (tens.probe 22) .upperBound
      pure [a, b, c] : Vector.VM Nat _) (fmulti [40, 50])) = some [.range 2 4, .num 2, .pos 2] ∧
    ∃ e o', query false map (env [40, 50]) (map.probe 2) .at (fmap [40, 50]) = .exn e o' :=
  ⟨by decide +kernel, by decide +kernel, exn_of (by decide +kernel)⟩

/-- **C29 does not hold** for heterogeneous `count` of containers with unique keys (small_flat_set.hpp:1213-1225,
small_flat_map.hpp:1372-1383): with a transparent comparator several elements may be equivalent to the sought key, here
12 and 17 in the set {12, 17, 35} for the key "one ten", but the result is 1. -/
theorem smallFlat_count_heterogeneous : ∃ (o : Obj Vec Nat) (xs : List Nat) (P : Probe Nat) (o' : Obj Vec Nat),
    SmallFlat.Reached false Demo.asc (Demo.env []) Demo.T Demo.ib3 2 Demo.m3 0 o ∧
    (smallImpl false Demo.asc (Demo.env []) (Demo.ib3 0) 2).contents o = .ok xs o ∧ Demo.asc.Sorted false xs ∧
    P.Fits xs ∧ query false Demo.asc (Demo.env []) P .count o = .ok (.num 1) o' ∧ xs.countP P.hit = 2 := by
  obtain ⟨xs, hc, -⟩ := smallFlat_modify Demo.asc_lawful (Demo.objects3 _ (by decide)) Demo.fset_reached
  obtain rfl : xs = [12, 17, 35] := Demo.elems_of hc (by decide +kernel)
  obtain ⟨o', ho'⟩ := Demo.ok_of (r := query false Demo.asc (Demo.env []) Demo.oneTen .count Demo.fset)
    (b := .num 1) (by decide +kernel)
  exact ⟨_, _, Demo.oneTen, o', Demo.fset_reached, hc, by simp [Order.Sorted, Demo.asc],
    ⟨by simp [Demo.oneTen], by simp [Demo.oneTen], by simp [Demo.oneTen]⟩, ho', by decide⟩

/-- **C36 does not hold** in general, not even for elements whose moves never throw and whose copy assignment has the
strong guarantee: `insert(const value_type&)` of a flat set with spare capacity shifts the elements and then copy
assigns to the gap (small_flat_set.hpp:1648-1674 `*p1 = value`); if the copy throws, the set {5} is left as {5, 5}. -/
theorem smallFlat_insert_throw : ∃ (E : Env Nat) (o o' : Obj Vec Nat) (e : Exn), NothrowMove E ∧
    SmallFlat.Reached false Demo.asc E Demo.T Demo.ib3 2 Demo.m3 0 o ∧
    (smallImpl false Demo.asc E (Demo.ib3 0) 2).contents o = .ok [5] o ∧
    (smallImpl false Demo.asc E (Demo.ib3 0) 2).exec (.insert (.value 1)) o = .exn e o' ∧
    (smallImpl false Demo.asc E (Demo.ib3 0) 2).contents o' = .ok [5, 5] o' := by
  obtain ⟨xs, hc, hop⟩ := smallFlat_modify Demo.asc_lawful (Demo.objects3 _ (by decide)) Demo.fset5_reached
  obtain rfl : xs = [5] := Demo.elems_of hc (by decide +kernel)
  obtain ⟨e, o', hx⟩ := Demo.exn_of
    (r := (smallImpl false Demo.asc (Demo.envCopy [4]) (Demo.ib3 0) 2).exec (.insert (.value 1)) Demo.fset5) (by decide +kernel)
  obtain ⟨ys, h1, -⟩ := (hop (.insert (.value 1)) rfl).2.2 e o' hx
  have hys : Demo.elemsAfterThrow false Demo.asc (Demo.envCopy [4])
      ((smallImpl false Demo.asc (Demo.envCopy [4]) (Demo.ib3 0) 2).exec (.insert (.value 1)) Demo.fset5) = some [5, 5] := by
    decide +kernel
  rw [hx] at hys
  obtain rfl : ys = [5, 5] := Demo.elems_of h1 hys
  exact ⟨_, _, o', e, ⟨rfl, rfl⟩, Demo.fset5_reached, hc, hx, h1⟩

end Sfl
