import Verif.SegWorld
import Verif.SegVecSpec7
import Verif.PropCompact
/-
  Properties of sfl::segmented_vector: C24, and its share of C10, C26, C27, C40, C41, C42. The theorems are about
  containers in arbitrary programs with any number of containers, segment sizes, exception schedules and initial memories.
-/

namespace Sfl
open Sq World
variable {α : Type}

/-- segmented_vector as a client sees it. -/
def SegVec.impl (E : Env α) (N : Nat) (ra : Sq.Op α → Bool) : Impl (Sq.Op α) SVec α where
  size := SegVec.size N
  index := SegVec.index N
  exec := SegVec.exec E N ra
  destroy := SegVec.destructor N

section
variable {K : Nat} {E : Env α} {N : Nat} {T : Traits} {ra : Sq.Op α → Bool} {rai : Sq.Init α → Bool} {m0 : St α}

theorem SegVec.start (hw : m0.Wf) :
    Inv (SegVec.rep K N) m0 (⟨fun _ => none, m0⟩ : Slots K SVec α) (fun _ => none) (SegVec.rep (α := α) K N).dead :=
  ⟨hw, hw, fun _ => ⟨rfl, trivial⟩, fun _ _ _ _ h => h.elim, fun _ _ => ⟨rfl, fun _ => rfl⟩, fun _ _ h h' => absurd h h',
    fun _ _ h => h.elim⟩

theorem SegVec.contents_run {o : Obj SVec α} {al tcap : Nat} {V : View} {xs : List α} (h : SegVec.GSt N o al V tcap xs) :
    (SegVec.impl E N ra).contents o = .ok xs o := by
  have hread : ∀ n i, i + n = xs.length → (SegVec.impl E N ra).readFrom i n o = .ok (xs.drop i) o := by
    intro n
    induction n with
    | zero =>
      intro i hi
      rw [List.drop_eq_nil_of_le (by omega)]; rfl
    | succ n ih =>
      intro i hi
      have hlt : i < xs.length := by omega
      have h1 : (SegVec.impl E N ra).index i o = .ok xs[i] o := SegVec.index_run h (by simp)
      unfold Impl.readFrom
      rw [bind_run h1, bind_run (ih (i + 1) (by omega)), List.drop_eq_getElem_cons hlt]
      rfl
  unfold Impl.contents
  have h1 : (SegVec.impl E N ra).size o = .ok xs.length o := h.size_run
  rw [bind_run h1, hread _ 0 (by omega)]
  rfl

theorem World.Reached.segVec {i : Fin K} {o : Obj SVec α} (h : Reached (SegVec.cont K E N T ra rai) (SegVec.sem E T) m0 i o)
    (hN : 0 < N) (hw : m0.Wf) : ∃ al V tcap xs, SegVec.GSt N o al V tcap xs := by
  obtain ⟨hw', al, xs, F, ⟨V, tcap, k, -⟩⟩ := h.rep (SegVec.spec (T := T) hN) (SegVec.start hw)
  exact ⟨al, V, tcap, xs, k⟩

/-! ### Whole programs: C24, C26, C40, C41, C42 -/

/-- **C24, C26, C40, C41, C42.** Any program with any number of segmented vectors (constructors, copies, moves,
assignments, swaps, modifiers in any order), followed by reading all containers and destroying them, has no undefined
behaviour; in particular every segment and every table is returned with the size and to the allocator it was requested with.
Outcomes, elements and allocators are those of lists (`SegVec.sem`); in the end memory is what it was, also if operations
threw. A container that has been moved from is empty, or holds moved-from elements if the allocators differ, and can be used
like any other.

Missing from C26: `swap` of containers with unequal allocators that propagate, which `SegVec.sem` excludes
(`segmentedVector_swap_propagate` shows undefined behaviour). -/
theorem segmentedVector_session_partial (K : Nat) (E : Env α) (N : Nat) (hN : 0 < N) (T : Traits) (ra : Sq.Op α → Bool)
    (rai : Sq.Init α → Bool) (m0 : St α) (hw : m0.Wf) (ops : List (WOp K (Sq.Op α) (Sq.Init α))) :
    ∃ log A o', World.session (SegVec.cont K E N T ra rai) (SegVec.sem E T) ops ⟨fun _ => none, m0⟩ =
        .ok (log, (List.finRange K).map A) o' ∧
      WRun (SegVec.sem E T) (fun _ => none) ops log A ∧ o'.m.mem = m0.mem ∧ o'.m.blk = m0.blk :=
  (SegVec.spec hN).session hw (fun _ => trivial) (fun _ _ _ _ h => h.elim) ops

/-- The state of a container of the model and what a client sees of it. -/
structure SegVec.Seen (N : Nat) (o : Obj SVec α) (xs : List α) (addr : Nat → Ptr) : Prop where
  /-- `size()` and `operator[]` -/
  contents : ∀ (E : Env α) (ra : Sq.Op α → Bool), (SegVec.impl E N ra).contents o = .ok xs o
  /-- the address of element `k`, which is also where `nth(k)` points -/
  address : ∀ k, k < xs.length → SegVec.addressOf N k o = .ok (addr k) o
  nth : ∀ k, k < xs.length → ∃ it, SegVec.nth N k o = .ok it o ∧ it.loc = addr k
  /-- the element is there -/
  element : ∀ k, k < xs.length → o.m.mem (addr k).blk (addr k).off = xs[k]?

theorem SegVec.GSt.seen {o : Obj SVec α} {al tcap : Nat} {V : View} {xs : List α} (h : SegVec.GSt N o al V tcap xs) :
    SegVec.Seen N o xs V.addr where
  contents := fun _ _ => SegVec.contents_run h
  address := fun k hk => h.addressOf_run (by have := h.len; omega)
  nth := fun k hk => ⟨_, h.nth_run (by omega), rfl⟩
  element := fun k hk => h.cells k (by have := h.len; have := V.size_le; omega)

/-- **C24** for one operation: every modifier of every segmented vector in every program has no undefined behaviour. If it
returns, the container has the elements and the operation the result of the list operation; if it throws, the container is
valid, and unchanged where the list specification demands it. In both cases the slots stay where they are: whatever the
operation, element `k` before and element `k` after it have the same address. -/
theorem segmentedVector_modify {i : Fin K} {o : Obj SVec α} (hN : 0 < N) (hw : m0.Wf)
    (h : Reached (SegVec.cont K E N T ra rai) (SegVec.sem E T) m0 i o) :
    ∃ xs addr, SegVec.Seen N o xs addr ∧ ∀ op : Sq.Op α, op.pre xs.length = true →
      (∀ u, SegVec.exec E N ra op o ≠ .ub u) ∧
      (∀ r o', SegVec.exec E N ra op o = .ok r o' → ∃ ys addr', SegVec.Seen N o' ys addr' ∧ Sq.okStep E xs op r ys ∧
        ∀ k, k < xs.length → k < ys.length → addr' k = addr k) ∧
      (∀ e o', SegVec.exec E N ra op o = .exn e o' → ∃ ys addr', SegVec.Seen N o' ys addr' ∧ Sq.failStep E xs op e ys ∧
        ∀ k, k < xs.length → k < ys.length → addr' k = addr k) := by
  obtain ⟨al, V, tcap, xs, hv⟩ := h.segVec hN hw
  refine ⟨xs, V.addr, hv.seen, fun op hp => ?_⟩
  have hs := SegVec.exec_spec (E := E) ra op hv hp
  have near : ∀ {o' : Obj SVec α} {V' : View} {tcap' : Nat} {ys : List α}, SegVec.GSt N o' al V' tcap' ys → V.Near V' →
      ∀ k, k < xs.length → k < ys.length → V'.addr k = V.addr k := by
    intro o' V' tcap' ys hg hn k h1 h2
    exact hn.addr hv.lay.npos (by have := hv.len; have := V.size_le; omega) (by have := hg.len; have := V'.size_le; omega)
  refine ⟨fun u => wp_not_ub hs, fun r o' hx => ?_, fun e o' hx => ?_⟩
  · obtain ⟨V', tcap', ys, k1, k2, -, k4⟩ := wp_ok hx hs
    exact ⟨ys, V'.addr, k1.seen, k4, near k1 k2⟩
  · obtain ⟨V', tcap', ys, k1, k2, -, k4⟩ := wp_exn hx hs
    exact ⟨ys, V'.addr, k1.seen, k4, near k1 k2⟩

/-- Operations that only add elements at the end of a container of size `n`, or none. -/
def SegVec.grows (n : Nat) : Sq.Op α → Bool
  | .pushBack _ => true
  | .reserve _ => true
  | .resize m => decide (n ≤ m)
  | .resizeV m _ => decide (n ≤ m)
  | _ => false

/-- **C24**, stable references: `push_back`, `emplace_back`, `reserve` and a growing `resize` leave all elements where they
are, with the values they have, whether they return or throw, and for all element types. -/
theorem segmentedVector_references {i : Fin K} {o o' : Obj SVec α} (hN : 0 < N) (hw : m0.Wf)
    (h : Reached (SegVec.cont K E N T ra rai) (SegVec.sem E T) m0 i o) {xs : List α}
    (hc : (SegVec.impl E N ra).contents o = .ok xs o) {op : Sq.Op α} (hp : op.pre xs.length = true)
    (hg : SegVec.grows xs.length op = true)
    (hx : (∃ r, SegVec.exec E N ra op o = .ok r o') ∨ ∃ e, SegVec.exec E N ra op o = .exn e o') :
    ∀ k (hk : k < xs.length), ∃ p, SegVec.addressOf N k o = .ok p o ∧ SegVec.addressOf N k o' = .ok p o' ∧
      o.m.mem p.blk p.off = some xs[k] ∧ o'.m.mem p.blk p.off = some xs[k] := by
  obtain ⟨al, V, tcap, xs', hv⟩ := h.segVec hN hw
  obtain rfl : xs = xs' := by
    have := SegVec.contents_run (E := E) (ra := ra) hv
    rw [hc] at this
    injection this
  have hs := SegVec.exec_strong (E := E) ra op hv hp (by cases op <;> simp [SegVec.grows] at hg <;> rfl)
  have done : ∀ {ys : List α} {V' : View} {tcap' : Nat}, SegVec.GSt N o' al V' tcap' ys → V.Near V' → xs <+: ys →
      ∀ k (hk : k < xs.length), ∃ p, SegVec.addressOf N k o = .ok p o ∧ SegVec.addressOf N k o' = .ok p o' ∧
        o.m.mem p.blk p.off = some xs[k] ∧ o'.m.mem p.blk p.off = some xs[k] := by
    intro ys V' tcap' g1 gn g2 k hk
    have hk' : k < ys.length := Nat.lt_of_lt_of_le hk g2.length_le
    have e : V'.addr k = V.addr k :=
      gn.addr hv.lay.npos (by have := hv.len; have := V.size_le; omega) (by have := g1.len; have := V'.size_le; omega)
    refine ⟨V.addr k, hv.seen.address k hk, e ▸ g1.seen.address k hk', ?_, ?_⟩
    · rw [hv.seen.element k hk]; simp
    · rw [← e, g1.seen.element k hk']
      obtain ⟨zs, rfl⟩ := g2
      rw [List.getElem?_append_left hk]; simp
  rcases hx with ⟨r, hx⟩ | ⟨e, hx⟩
  · obtain ⟨V', tcap', ys, g1, g2, -, g3, -⟩ := wp_ok hx hs
    refine done g1 g2 ?_
    cases op <;> simp [SegVec.grows] at hg <;> simp [Sq.Op.Result] at g3
    case pushBack s => obtain ⟨v, -, rfl⟩ := g3; simp
    case reserve n => subst g3; simp
    case resize n => subst g3; rw [List.take_of_length_le hg]; simp
    case resizeV n s => obtain ⟨v, -, rfl⟩ := g3; rw [List.take_of_length_le hg]; simp
  · obtain ⟨V', tcap', ys, g1, g2, -, -, rfl⟩ := wp_exn hx hs
    exact done g1 g2 (List.prefix_refl _)

/-- The position one past the last element, `end()`, refers to a segment that exists. -/
structure SegVec.EndValid (N : Nat) (v : SVec) (m : St α) : Prop where
  /-- its segment pointer points into the used part of the table -/
  inTable : v.last.seg.blk = v.tfirst.blk ∧ v.tfirst.off ≤ v.last.seg.off ∧ v.last.seg.off < v.tlast.off ∧
    v.tlast.blk = v.tfirst.blk
  /-- where the table holds the beginning of the segment that the local pointer points into -/
  entry : v.tab.blk = v.last.seg.blk ∧ v.tab.cells[v.last.seg.off]? = some (some ⟨v.last.loc.blk, 0⟩)
  /-- at one of its cells, which is raw -/
  cell : v.last.loc.off < N ∧ m.mem v.last.loc.blk v.last.loc.off = none
  /-- the segment is allocated, with `N` cells and by the allocator of the container -/
  segment : m.blk v.last.loc.blk = some ⟨N, some v.alloc⟩

theorem SegVec.GSt.endValid {o : Obj SVec α} {al tcap : Nat} {V : View} {xs : List α} (hv : SegVec.GSt N o al V tcap xs) :
    SegVec.EndValid N o.obj o.m := by
  have hN : 0 < V.N := hv.lay.npos
  have hpos := hv.lay.len
  have hcap : xs.length < V.cap := by
    have h1 := hv.len
    have : 0 < V.cap := Nat.mul_pos hpos hN
    unfold View.size at h1
    omega
  have hi : xs.length / V.N < V.segs.length := Nat.div_lt_of_lt_mul (by rw [Nat.mul_comm]; exact hcap)
  have hmem : V.sg (xs.length / V.N) ∈ V.segs := by
    unfold View.sg
    rw [List.getD, List.getElem?_eq_getElem hi]
    exact List.getElem_mem _
  have hc := hv.cells _ hcap
  have htab := hv.tab
  have hbase := hv.base
  have hobj := hv.obj
  have e1 : o.obj.last = V.it xs.length := hv.last_eq
  have e2 : o.obj.tfirst = ⟨V.tb, 0⟩ := by rw [hobj]; rfl
  have e3 : o.obj.tlast = ⟨V.tb, V.segs.length⟩ := by rw [hobj]; rfl
  have e4 : o.obj.alloc = al := by rw [hobj]; rfl
  refine ⟨?_, ?_, ?_, ?_⟩
  · rw [e1, e2, e3]
    exact ⟨rfl, Nat.zero_le _, by show V.base + xs.length / V.N < V.segs.length; omega, rfl⟩
  · rw [e1]
    exact ⟨htab.blk, htab.cells _ hi⟩
  · rw [e1]
    refine ⟨?_, ?_⟩
    · rw [← hv.num]; exact Nat.mod_lt _ hN
    · have : V.slot o.m xs.length = none := by rw [hc]; simp
      exact this
  · rw [e1, e4, ← hv.num]
    exact hv.lay.sblk _ hmem

/-- **C24**: in every state that a program reaches, `end()` of every segmented vector designates a cell of an allocated
segment (there is always one cell more than `capacity()`), even if the container is full. -/
theorem segmentedVector_end {i : Fin K} {o : Obj SVec α} (hN : 0 < N) (hw : m0.Wf)
    (h : Reached (SegVec.cont K E N T ra rai) (SegVec.sem E T) m0 i o) : SegVec.EndValid N o.obj o.m := by
  obtain ⟨al, V, tcap, xs, hv⟩ := h.segVec hN hw
  exact hv.endValid

/-- **C10.** `erase_if(c, f)` (and `erase(c, value)`, with `f x := x == value`) of a segmented vector leaves exactly the
elements that do not match, in order, and returns the number of the others. -/
theorem segmentedVector_eraseIf {i : Fin K} {o : Obj SVec α} (hN : 0 < N) (hw : m0.Wf)
    (h : Reached (SegVec.cont K E N T ra rai) (SegVec.sem E T) m0 i o) (f : α → Bool) :
    ∃ xs, (SegVec.impl E N ra).contents o = .ok xs o ∧ (∀ u, SegVec.eraseIf E N f o ≠ .ub u) ∧
      ∀ r o', SegVec.eraseIf E N f o = .ok r o' →
        (SegVec.impl E N ra).contents o' = .ok (xs.filter (fun x => !f x)) o' ∧ r = xs.countP f := by
  obtain ⟨al, V, tcap, xs, hv⟩ := h.segVec hN hw
  have hs := SegVec.eraseIf_spec (E := E) (f := f) hv
  refine ⟨xs, SegVec.contents_run hv, fun u => wp_not_ub hs, fun r o' hx => ?_⟩
  obtain ⟨V', tcap', ys, k1, -, -, k2, k3⟩ := wp_ok hx hs
  simp [Sq.Op.Result, Sq.Op.ret] at k2 k3
  subst k2
  exact ⟨SegVec.contents_run k1, k3⟩

end

/-! ### Construction: C40 -/

/-- **C40** for segmented_vector: the constructor yields exactly the requested elements, and destroying the container
restores memory, or it throws and memory is exactly as before. -/
theorem segmentedVector_construct (E : Env α) (N : Nat) (hN : 0 < N) (ra : Bool) (al : Nat) (m : St α) (hw : m.Wf)
    (init : Sq.Init α) :
    (∃ o', SegVec.construct' E N ra init ⟨SegVec.blank al, m⟩ = .ok () o' ∧
      (SegVec.impl E N (fun _ => ra)).contents o' = .ok (init.result E.dflt) o' ∧ SegVec.EndValid N o'.obj o'.m ∧
      ∃ o2, SegVec.destructor N o' = .ok () o2 ∧ o2.m.mem = m.mem ∧ o2.m.blk = m.blk) ∨
    (∃ e o', SegVec.construct' E N ra init ⟨SegVec.blank al, m⟩ = .exn e o' ∧ o'.m.mem = m.mem ∧ o'.m.blk = m.blk ∧
      (e = .lengthError → E.maxSize < (init.result E.dflt).length)) := by
  have h := SegVec.construct_spec (E := E) (N := N) (o := ⟨SegVec.blank al, m⟩) (al := al) (ra := ra) init hN hw rfl
  have back : ∀ {m' : St α}, Frame m noFoot m' noFoot → m'.mem = m.mem ∧ m'.blk = m.blk := by
    intro m' hf
    constructor
    · funext c k
      by_cases hc : m.blk c = none
      · have h1 := hf.fresh c id hc id
        rw [hw.dead c hc, hf.wf.dead c h1]
      · exact (hf.keep c id hc).2.2 k
    · funext c
      by_cases hc : m.blk c = none
      · rw [hf.fresh c id hc id, hc]
      · exact (hf.keep c id hc).2.1
  unfold wp at h
  split at h
  · rename_i _ o' he
    obtain ⟨V, tcap, hg, hf⟩ := h
    obtain ⟨_, o2, d1, d2⟩ := wp_elim (SegVec.destructor_spec E hg)
    exact Or.inl ⟨o', he, SegVec.contents_run hg, hg.endValid, o2, d1, back (hf.trans d2)⟩
  · rename_i e o' he
    exact Or.inr ⟨e, o', he, (back h.1).1, (back h.1).2, h.2⟩
  · exact h.elim

/-! ### The size limit: C27 -/

section
variable {K : Nat} {E : Env α} {N : Nat} {T : Traits} {ra : Sq.Op α → Bool} {rai : Sq.Init α → Bool} {m0 : St α}

/-- **C27**, what holds: in a segmented vector whose capacity `c` is at most `max_size()`,
* `reserve(n)` for more than `c` elements throws length_error exactly if `n > max_size()`, changing nothing; otherwise it
  can only throw bad_alloc;
* if the container is full and `c = max_size()`, `push_back` throws length_error and changes nothing.

Missing: the capacity of a segmented vector can exceed `max_size()`, since storage is allocated in whole segments; then
`max_size() - capacity()` wraps around and nothing stops the container from growing further
(`segmentedVector_exceeds_max_size`). -/
theorem segmentedVector_limit_partial {i : Fin K} {o : Obj SVec α} (hN : 0 < N) (hw : m0.Wf)
    (h : Reached (SegVec.cont K E N T ra rai) (SegVec.sem E T) m0 i o) :
    ∃ c sz, SegVec.capacity N o = .ok c o ∧ SegVec.size N o = .ok sz o ∧ (c ≤ E.maxSize →
      (∀ n, c < n → (E.maxSize < n → SegVec.reserve E N n o = .exn .lengthError o) ∧
        (n ≤ E.maxSize → ∀ e o', SegVec.reserve E N n o = .exn e o' → e = .badAlloc)) ∧
      (sz = c → c = E.maxSize → ∀ a, SegVec.emplaceBack E N a o = .exn .lengthError o)) := by
  obtain ⟨al, V, tcap, xs, hv⟩ := h.segVec hN hw
  refine ⟨V.size, xs.length, hv.capacity_run, hv.size_run, fun hc => ⟨fun n hn => ⟨fun hm => ?_, fun hm e o' hx => ?_⟩, fun hs hm a => ?_⟩⟩
  · unfold SegVec.reserve SegVec.growStorage
    rw [bind_run hv.capacity_run, ite_run, if_pos hn, bind_run hv.capacity_run, ite_run,
      if_pos (by unfold SegVec.sizeSub; rw [if_pos hc]; omega)]
    rfl
  · unfold SegVec.reserve at hx
    rw [bind_run hv.capacity_run, ite_run, if_pos hn] at hx
    obtain ⟨h1, h2, -⟩ := wp_exn hx (SegVec.growStorage_spec (E := E) (n := n - V.size) hv)
    rcases h2 with rfl | rfl
    · have := h1 rfl
      omega
    · rfl
  · unfold SegVec.emplaceBack SegVec.growStorage
    have e1 : Seg.eq o.obj.last o.obj.eos = true := by rw [hv.eq_end]; simpa using hs
    rw [bind_run (m := getObj) (s' := o) rfl]
    simp only [e1, if_true]
    rw [show ∀ (p : SegVec.SM α Unit) (q : Unit → SegVec.SM α SIt), p o = .exn .lengthError o → (p >>= q) o = .exn .lengthError o from
      fun p q hp => by simp [bind, M.bind, hp]]
    rw [bind_run hv.capacity_run, ite_run, if_pos (by unfold SegVec.sizeSub; rw [if_pos hc]; omega)]
    rfl

end

/-- Constructors refuse more than `max_size()` elements before allocating anything. -/
theorem segmentedVector_construct_limit (E : Env α) (N : Nat) (ra : Bool) (n : Nat) (v : α) (hn : E.maxSize < n) (o : Obj SVec α) :
    SegVec.construct' E N ra (.count n) o = .exn .lengthError o ∧ SegVec.construct' E N ra (.fill n v) o = .exn .lengthError o ∧
    ∀ ys : List α, E.maxSize < ys.length → SegVec.construct' E N ra (.range ys) o = .exn .lengthError o := by
  have h : ∀ k, E.maxSize < k → ∀ alg, SegVec.initUsing E N k alg o = .exn .lengthError o := by
    intro k hk alg
    unfold SegVec.initUsing SegVec.allocateStorage
    rw [bind_apply, ite_run, if_pos hk]
    rfl
  refine ⟨?_, ?_, fun ys hy => ?_⟩
  · unfold SegVec.construct'; exact h _ hn _
  · unfold SegVec.construct'; exact h _ hn _
  · unfold SegVec.construct'; exact h _ hy _

namespace Demo

/-- The outcome of a small program on two segmented_vectors with segments of three elements, with an unrelated object in
memory. -/
def segRun (E : Env Nat) (ops : List (WOp 2 (Sq.Op Nat) (Sq.Init Nat))) : Res (Slots 2 SVec Nat) (List (Out (Option Nat))) :=
  World.runOps (SegVec.cont 2 E 3 T (fun _ => true) (fun _ => true)) (SegVec.sem E T) ops ⟨fun _ => none, m1⟩

/-- The segmented vector in slot 0 afterwards. -/
def sgv (E : Env Nat) (ops : List (WOp 2 (Sq.Op Nat) (Sq.Init Nat))) : Obj SVec Nat :=
  match segRun E ops with
  | .ok _ s => match s.obj 0 with
    | some v => ⟨v, s.m⟩
    | none => ⟨SegVec.blank 7, s.m⟩
  | _ => ⟨SegVec.blank 7, m1⟩

/-- Whether it exists. -/
def sgvOk (E : Env Nat) (ops : List (WOp 2 (Sq.Op Nat) (Sq.Init Nat))) : Bool :=
  match segRun E ops with
  | .ok _ s => (s.obj 0).isSome
  | _ => false

theorem sgv_reached (E : Env Nat) (ops : List (WOp 2 (Sq.Op Nat) (Sq.Init Nat))) (h : sgvOk E ops = true) :
    Reached (SegVec.cont 2 E 3 T (fun _ => true) (fun _ => true)) (SegVec.sem E T) m1 0 (sgv E ops) := by
  unfold sgvOk at h
  split at h
  · rename_i log s hx
    obtain ⟨v, hv⟩ := Option.isSome_iff_exists.mp h
    refine ⟨_, log, s, v, hx, hv, ?_⟩
    unfold sgv
    rw [hx]
    simp [hv]
  · cases h

/-- Five elements. -/
def five : List (WOp 2 (Sq.Op Nat) (Sq.Init Nat)) := [.make 0 7 (.range [1, 2, 3, 4]), .op 0 (.pushBack (.value 5))]

end Demo

/-- Three segmented vectors with segments of two elements: a copy constructor that throws, an insertion that throws, growth,
move construction with another allocator, swap, move assignment, further use of a moved-from container. -/
example : Demo.show' (World.session (SegVec.cont 3 (Demo.env [10, 24]) 2 Demo.T (fun _ => true) (fun _ => false))
    (SegVec.sem (Demo.env [10, 24]) Demo.T)
    [.make 0 7 (.range [1, 2, 3]), .makeCopy 1 0 none, .makeCopy 1 0 none, .op 1 (.pushBack (.elem 0)),
     .op 1 (.assignRange [4, 5, 6]), .op 1 (.insertN 1 2 (.elem 1)),
     .makeMove 2 0 (some 8), .assignCopy 0 1, .assignMove 1 0, .swap 0 1, .assignCopy 2 2, .swap 1 1,
     .op 0 (.pushBack (.value 4)), .op 0 (.insertN 1 2 (.elem 0)), .op 0 (.eraseRange 1 2), .op 0 .popBack,
     .op 0 .shrinkToFit, .destroy 2, .makeMove 2 1 none] ⟨fun _ => none, Demo.m1⟩) =
    some ([.ok none, .threw .elem, .ok none, .ok (some 3), .ok none, .threw .elem, .ok none, .ok none, .ok none, .ok none,
      .ok none, .ok none, .ok (some 3), .ok (some 1), .ok (some 1), .ok none, .ok none, .ok none, .ok none],
      [some (7, [4, 4, 1000, 2000]), some (7, []), some (7, [1000, 1000, 1000])]) := by decide +kernel

/-- The hypotheses of `segmentedVector_modify` and `segmentedVector_references` are met: a container of five elements, which
fill its two segments, and both outcomes of `resize(9, c[0])`; the second time the third copy throws, after a table and
segments have been allocated. -/
example : Reached (SegVec.cont 2 (Demo.env [12]) 3 Demo.T (fun _ => true) (fun _ => true)) (SegVec.sem (Demo.env [12]) Demo.T) Demo.m1 0
      (Demo.sgv (Demo.env [12]) Demo.five) ∧
    Demo.show' ((SegVec.impl (Demo.env [12]) 3 (fun _ => true)).contents (Demo.sgv (Demo.env [12]) Demo.five)) = some [1, 2, 3, 4, 5] ∧
    Sq.Op.pre 5 (.resizeV 9 (.elem 0) : Sq.Op Nat) = true ∧ SegVec.grows 5 (.resizeV 9 (.elem 0) : Sq.Op Nat) = true ∧
    (∃ r o', SegVec.exec (Demo.env []) 3 (fun _ => true) (.resizeV 9 (.elem 0)) (Demo.sgv (Demo.env []) Demo.five) = .ok r o') ∧
    ∃ e o', SegVec.exec (Demo.env [12]) 3 (fun _ => true) (.resizeV 9 (.elem 0)) (Demo.sgv (Demo.env [12]) Demo.five) = .exn e o' :=
  ⟨Demo.sgv_reached _ _ (by decide +kernel), by decide +kernel, rfl, rfl,
    ⟨_, Demo.ok_of (b := none) (by decide +kernel)⟩, Demo.exn_of (by decide +kernel)⟩

/-- This container is full; its `end()` is the last cell of the second segment. -/
example : Demo.show' (SegVec.capacity 3 (Demo.sgv (Demo.env []) Demo.five)) = some 5 ∧
    (Demo.sgv (Demo.env []) Demo.five).obj.last.seg.off = 1 ∧ (Demo.sgv (Demo.env []) Demo.five).obj.last.loc.off = 2 := by
  decide +kernel

/-- The removal of the odd numbers. -/
example : Demo.show' ((do
      let r ← SegVec.eraseIf (Demo.env []) 3 (fun x => x % 2 == 1)
      let ys ← (SegVec.impl (Demo.env []) 3 (fun _ => true)).contents
      pure (r, ys) : SegVec.SM Nat _) (Demo.sgv (Demo.env []) Demo.five)) = some (3, [2, 4]) := by decide +kernel

/-- Both outcomes of a constructor: the fourth of five copies throws, or none. -/
example : (∃ e o', SegVec.construct' (Demo.env [6]) 3 true (.fill 5 8) ⟨SegVec.blank 3, Demo.m1⟩ = .exn e o') ∧
    ∃ o', SegVec.construct' (Demo.env [9]) 3 true (.fill 5 8) ⟨SegVec.blank 3, Demo.m1⟩ = .ok () o' :=
  ⟨Demo.exn_of (by decide +kernel), Demo.ok_of (by decide +kernel)⟩

/-- The hypotheses of `segmentedVector_limit_partial` are met with `max_size() = 5`: the container above is full and has
reached the limit. -/
example : Demo.show' (SegVec.capacity 3 (Demo.sgv { Demo.env [] with maxSize := 5 } Demo.five)) = some 5 ∧
    Demo.show' (SegVec.size 3 (Demo.sgv { Demo.env [] with maxSize := 5 } Demo.five)) = some 5 ∧
    Demo.threw (SegVec.emplaceBack { Demo.env [] with maxSize := 5 } 3 (.val 0) (Demo.sgv { Demo.env [] with maxSize := 5 } Demo.five)) = true := by
  decide +kernel

/-! ### What does not hold -/

/-- **C27 does not hold**: with segments of three elements and `max_size() = 10`, a segmented vector grows to 12
elements. The capacities are 2, 5, 8, 11, …; `grow_storage` compares the number of new elements with
`max_size() - capacity()` (segmented_vector.hpp:956-961), so that the capacity can become 11, and from then on the difference is
`10 - 11`, a huge number. -/
theorem segmentedVector_exceeds_max_size : ∃ (E : Env Nat) (o : Obj SVec Nat) (n : Nat),
    Reached (SegVec.cont 2 E 3 Demo.T (fun _ => true) (fun _ => true)) (SegVec.sem E Demo.T) Demo.m1 0 o ∧
    SegVec.size 3 o = .ok n o ∧ E.maxSize < n := by
  let E : Env Nat := { Demo.env [] with maxSize := 10 }
  let ops : List (WOp 2 (Sq.Op Nat) (Sq.Init Nat)) := .make 0 7 .empty :: List.replicate 12 (.op 0 (.pushBack (.value 5)))
  have hr := Demo.sgv_reached E ops (by decide +kernel)
  obtain ⟨al, V, tcap, xs, hv⟩ := hr.segVec (by omega) Demo.m1_wf
  have hn : Demo.show' (SegVec.size 3 (Demo.sgv E ops)) = some 12 := by decide +kernel
  rw [hv.size_run] at hn
  have hn : xs.length = 12 := Option.some.inj hn
  exact ⟨E, _, xs.length, hr, hv.size_run, by rw [hn]; decide⟩

/-- **C26 does not hold** for propagating unequal allocators: `swap` exchanges the allocators (segmented_vector.hpp:799-805)
and then `swap(data_, other.data_)` exchanges all data members including the allocators, which form a base class of
the data (81-123). Each container ends up with the storage of the other one and its own allocator, and the destructor
returns the segments to the wrong allocator. -/
theorem segmentedVector_swap_propagate : ∃ (E : Env Nat) (T : Traits) (ops : List (WOp 2 (Sq.Op Nat) (Sq.Init Nat)))
    (log : List (Out (Option Nat))) (s : Slots 2 SVec Nat) (v w v' w' : SVec),
    World.runOps (SegVec.cont 2 E 3 T (fun _ => true) (fun _ => true)) (SegVec.sem E T) ops ⟨fun _ => none, Demo.m1⟩ = .ok log s ∧
    s.obj 0 = some v ∧ s.obj 1 = some w ∧ T.pocs = true ∧ v.alloc = 7 ∧ w.alloc = 8 ∧
    SegVec.swap T ⟨(v, w), s.m⟩ = .ok () ⟨(v', w'), s.m⟩ ∧ v'.alloc = 7 ∧ s.m.blk v'.first.loc.blk = some ⟨3, some 8⟩ ∧
    SegVec.destructor 3 ⟨v', s.m⟩ = .ub .badDealloc := by
  let ops : List (WOp 2 (Sq.Op Nat) (Sq.Init Nat)) := [.make 0 7 (.range [1, 2]), .make 1 8 (.range [3, 4, 5])]
  have h : (match Demo.segRun (Demo.env []) ops with
    | .ok _ s => match s.obj 0, s.obj 1 with
      | some v, some w => decide (v.alloc = 7 ∧ w.alloc = 8 ∧ s.m.blk w.first.loc.blk = some ⟨3, some 8⟩ ∧
          Demo.isUb (SegVec.destructor 3 ⟨{ w with alloc := v.alloc }, s.m⟩) = some .badDealloc)
      | _, _ => false
    | _ => false) = true := by decide +kernel
  split at h
  · rename_i log s hx
    split at h
    · rename_i v w hv hw
      obtain ⟨h1, h2, h3, h4⟩ := of_decide_eq_true h
      refine ⟨Demo.env [], Demo.T, ops, log, s, v, w, { w with alloc := v.alloc }, { v with alloc := w.alloc }, hx, hv, hw, rfl, h1, h2,
        ?_, h1, h3, ?_⟩
      · unfold SegVec.swap
        rfl
      · unfold Demo.isUb at h4
        split at h4
        · rename_i r h; rw [h]; simp at h4; rw [h4]
        · simp at h4
    · cases h
  · cases h

end Sfl
