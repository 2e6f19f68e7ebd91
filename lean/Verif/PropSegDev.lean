import Verif.SegDevWorld
import Verif.PropSegVec
/-
  Properties of sfl::segmented_devector: C25, and its share of C10, C26, C27, C40, C41, C42. The theorems are about
  containers in arbitrary programs with any number of containers, segment sizes, exception schedules and initial memories.
-/

namespace Sfl
open Sq World
variable {α : Type}

/-- segmented_devector as a client sees it. -/
def SegDev.impl (E : Env α) (N : Nat) (ra : Dq.Op α → Bool) : Impl (Dq.Op α) SDVec α where
  size := SegDev.size N
  index := SegDev.index N
  exec := SegDev.exec E N ra
  destroy := SegDev.destructor N

/-- The address of the object that `operator[]` returns a reference to (segmented_devector.hpp:478-490). -/
def SegDev.addressOf (N pos : Nat) : SegDev.DM α Ptr := do
  let sz ← SegDev.size N
  M.assert (pos < sz)
  let v ← getObj
  let it ← Seg.advance N v.tab v.first pos
  pure it.loc

section
variable {K : Nat} {E : Env α} {N : Nat} {T : Traits} {ra : Dq.Op α → Bool} {rai : Sq.Init α → Bool} {m0 : St α}

theorem SegDev.start (hw : m0.Wf) :
    Inv (SegDev.rep K N) m0 (⟨fun _ => none, m0⟩ : Slots K SDVec α) (fun _ => none) (SegDev.rep (α := α) K N).dead :=
  ⟨hw, hw, fun _ => ⟨rfl, trivial⟩, fun _ _ _ _ h => h.elim, fun _ _ => ⟨rfl, fun _ => rfl⟩, fun _ _ h h' => absurd h h',
    fun _ _ h => h.elim⟩

theorem SegDev.DSt.addressOf_run {H : Heap α} {o : Obj SDVec α} {al tcap f k : Nat} {V : View} {xs : List α}
    (h : SegDev.DSt H N o al V tcap f xs) (hk : k < xs.length) : SegDev.addressOf N k o = .ok (V.addr (f + k)) o := by
  have hs := h.size_run
  have hl := h.len
  obtain rfl := h.num
  unfold SegDev.addressOf
  rw [bind_run hs, bind_run (assert_run hk), bind_run (m := getObj) (s' := o) rfl, show o.obj.first = V.it f by rw [h.obj]; rfl,
    bind_run (h.fit.adv (q := f + k) h.first_le (by omega) (by omega) _)]
  rfl

theorem SegDev.contents_run {H : Heap α} {o : Obj SDVec α} {al tcap f : Nat} {V : View} {xs : List α}
    (h : SegDev.DSt H N o al V tcap f xs) : (SegDev.impl E N ra).contents o = .ok xs o := by
  have hread : ∀ n i, i + n = xs.length → (SegDev.impl E N ra).readFrom i n o = .ok (xs.drop i) o := by
    intro n
    induction n with
    | zero =>
      intro i hi
      rw [List.drop_eq_nil_of_le (by omega)]; rfl
    | succ n ih =>
      intro i hi
      have hlt : i < xs.length := by omega
      have h1 : (SegDev.impl E N ra).index i o = .ok xs[i] o := h.index_run (by simp)
      unfold Impl.readFrom
      rw [bind_run h1, bind_run (ih (i + 1) (by omega)), List.drop_eq_getElem_cons hlt]
      rfl
  unfold Impl.contents
  have h1 : (SegDev.impl E N ra).size o = .ok xs.length o := h.size_run
  rw [bind_run h1, hread _ 0 (by omega)]
  rfl

theorem World.Reached.segDev {i : Fin K} {o : Obj SDVec α} (h : Reached (SegDev.cont K E N T ra rai) (SegDev.sem E T) m0 i o)
    (hN : 0 < N) (hw : m0.Wf) : ∃ H al V tcap f xs, SegDev.DSt H N o al V tcap f xs := by
  obtain ⟨hw', al, xs, F, ⟨V, tcap, f, H, k, -⟩⟩ := h.rep (SegDev.spec (T := T) hN) (SegDev.start hw)
  exact ⟨H, al, V, tcap, f, xs, k⟩

/-! ### Whole programs: C25, C26, C40, C41, C42 -/

/-- **C25, C26, C40, C41, C42.** Any program with any number of segmented devectors (constructors, copies, moves,
assignments, swaps, modifiers in any order), followed by reading all containers and destroying them, has no undefined
behaviour; in particular every segment and every table is returned with the size and to the allocator it was requested with.
Outcomes, elements and allocators are those of lists (`SegDev.sem`); in the end memory is what it was, also if operations
threw. A container that has been moved from is empty, or holds moved-from elements if the allocators differ, and can be used
like any other.

Missing from C25: `insert(pos, first, last)` with forward iterators in the second half of the container if more elements are
inserted than it has, which `SegDev.sem` excludes (`segmentedDevector_insert_range_ub` shows undefined behaviour).
Missing from C26: `swap` of containers with unequal allocators that propagate, which `SegDev.sem` excludes
(`segmentedDevector_swap_propagate` shows undefined behaviour). -/
theorem segmentedDevector_session_partial (K : Nat) (E : Env α) (N : Nat) (hN : 0 < N) (T : Traits) (ra : Dq.Op α → Bool)
    (rai : Sq.Init α → Bool) (m0 : St α) (hw : m0.Wf) (ops : List (WOp K (Dq.Op α) (Sq.Init α))) :
    ∃ log A o', World.session (SegDev.cont K E N T ra rai) (SegDev.sem E T) ops ⟨fun _ => none, m0⟩ =
        .ok (log, (List.finRange K).map A) o' ∧
      WRun (SegDev.sem E T) (fun _ => none) ops log A ∧ o'.m.mem = m0.mem ∧ o'.m.blk = m0.blk :=
  (SegDev.spec hN).session hw (fun _ => trivial) (fun _ _ _ _ h => h.elim) ops

/-- The state of a container of the model and what a client sees of it. -/
structure SegDev.Seen (N : Nat) (o : Obj SDVec α) (xs : List α) (addr : Nat → Ptr) : Prop where
  /-- `size()` and `operator[]` -/
  contents : ∀ (E : Env α) (ra : Dq.Op α → Bool), (SegDev.impl E N ra).contents o = .ok xs o
  /-- the address of element `k`, which is also where `nth(k)` points -/
  address : ∀ k, k < xs.length → SegDev.addressOf N k o = .ok (addr k) o
  nth : ∀ k, k < xs.length → ∃ it, SegDev.nth N k o = .ok it o ∧ it.loc = addr k
  /-- the element is there -/
  element : ∀ k, k < xs.length → o.m.mem (addr k).blk (addr k).off = xs[k]?

theorem SegDev.DSt.seen {H : Heap α} {o : Obj SDVec α} {al tcap f : Nat} {V : View} {xs : List α}
    (h : SegDev.DSt H N o al V tcap f xs) : SegDev.Seen N o xs (fun k => V.addr (f + k)) where
  contents := fun _ _ => SegDev.contents_run h
  address := fun k hk => h.addressOf_run hk
  nth := fun k hk => ⟨_, h.nth_run (by omega), rfl⟩
  element := fun k hk => by
    have := h.slot (k := f + k) (by have := h.len; have := h.lay.size_lt; omega)
    rw [if_pos (by omega), Nat.add_sub_cancel_left] at this
    exact this

/-- **C25** for one operation: every modifier of every segmented devector in every program has no undefined behaviour. If it
returns, the container has the elements and the operation the result of the list operation; if it throws, the container is
valid, and unchanged where `SegDev.Failure` says so. Elements that are not removed by an operation at one of the ends stay
where they are (`SegDev.okStays`, `SegDev.failStays`). -/
theorem segmentedDevector_modify_partial {i : Fin K} {o : Obj SDVec α} (hN : 0 < N) (hw : m0.Wf)
    (h : Reached (SegDev.cont K E N T ra rai) (SegDev.sem E T) m0 i o) :
    ∃ xs addr, SegDev.Seen N o xs addr ∧ ∀ op : Dq.Op α, SegDev.pre xs.length op = true →
      (∀ u, SegDev.exec E N ra op o ≠ .ub u) ∧
      (∀ r o', SegDev.exec E N ra op o = .ok r o' → ∃ ys addr', SegDev.Seen N o' ys addr' ∧ Dq.okStep E xs op r ys ∧
        SegDev.okStays xs ys addr addr' op) ∧
      (∀ e o', SegDev.exec E N ra op o = .exn e o' → ∃ ys addr', SegDev.Seen N o' ys addr' ∧ SegDev.Failure E xs op e ys ∧
        SegDev.failStays xs ys addr addr' op) := by
  obtain ⟨H, al, V, tcap, f, xs, hv⟩ := h.segDev hN hw
  refine ⟨xs, _, hv.seen, fun op hp => ?_⟩
  have hs := SegDev.exec_spec (E := E) ra op hv hp
  refine ⟨fun u => wp_not_ub hs, fun r o' hx => ?_, fun e o' hx => ?_⟩
  · obtain ⟨V', tcap', f', ys, k1, k2, k3⟩ := wp_ok hx hs
    exact ⟨ys, _, k1.seen, k2, k3⟩
  · obtain ⟨V', tcap', f', ys, k1, k2, k3⟩ := wp_exn hx hs
    exact ⟨ys, _, k1.seen, k2, k3⟩

/-- **C25** for `insert(pos, first, last)` with forward iterators, with the exact condition under which the code is right: in
the second half of the container, at most `available_front() + size()` elements are inserted. -/
theorem segmentedDevector_insert_range_partial {i : Fin K} {o : Obj SDVec α} (hN : 0 < N) (hw : m0.Wf)
    (h : Reached (SegDev.cont K E N T ra rai) (SegDev.sem E T) m0 i o) :
    ∃ xs af, (SegDev.impl E N ra).contents o = .ok xs o ∧ SegDev.availableFront N o = .ok af o ∧
      ∀ k (ys : List α), k ≤ xs.length → (2 * k < xs.length ∨ ys.length ≤ af + xs.length) →
        (∀ u, SegDev.exec E N ra (.insertRange k ys) o ≠ .ub u) ∧
        (∀ r o', SegDev.exec E N ra (.insertRange k ys) o = .ok r o' → r = some k ∧
          (SegDev.impl E N ra).contents o' = .ok (xs.take k ++ ys ++ xs.drop k) o') ∧
        ∀ e o', SegDev.exec E N ra (.insertRange k ys) o = .exn e o' → ys ≠ [] ∧
          ∃ zs, (SegDev.impl E N ra).contents o' = .ok zs o' ∧ xs.length ≤ zs.length := by
  obtain ⟨H, al, V, tcap, f, xs, hv⟩ := h.segDev hN hw
  refine ⟨xs, f, SegDev.contents_run hv, hv.availableFront_run, fun k ys hk hy => ?_⟩
  have hs : wp (SegDev.exec E N ra (.insertRange k ys))
      (fun r o' => r = some k ∧ (SegDev.impl E N ra).contents o' = .ok (xs.take k ++ ys ++ xs.drop k) o')
      (fun _ o' => ys ≠ [] ∧ ∃ zs, (SegDev.impl E N ra).contents o' = .ok zs o' ∧ xs.length ≤ zs.length) o := by
    simp only [SegDev.exec, wp_bind]
    refine SegDev.wp_nth hv hk ?_
    refine wp_mono (SegDev.insertRange_spec hv hk (by omega)) ?_ ?_
    · rintro p o1 ⟨V', tcap', f', k1, rfl⟩
      exact SegDev.wp_indexOf k1 (by simp; omega) ⟨rfl, SegDev.contents_run k1⟩
    · rintro e o1 ⟨k1, V', tcap', f', zs, k2, k3⟩
      exact ⟨List.length_pos_iff.mp k1, zs, SegDev.contents_run k2, k3⟩
  refine ⟨fun u => wp_not_ub hs, fun r o' hx => ?_, fun e o' hx => ?_⟩
  · have := wp_ok hx hs; exact this
  · have := wp_exn hx hs; exact this

/-- Operations that only add elements at the ends of a container of size `n`, or none. -/
def SegDev.grows (n : Nat) : Dq.Op α → Bool
  | .pushFront _ => true
  | .pushBack _ => true
  | .reserveFront _ => true
  | .reserveBack _ => true
  | .resize m => decide (n ≤ m)
  | .resizeV m _ => decide (n ≤ m)
  | .resizeFront m => decide (n ≤ m)
  | .resizeFrontV m _ => decide (n ≤ m)
  | .resizeBack m => decide (n ≤ m)
  | .resizeBackV m _ => decide (n ≤ m)
  | _ => false

/-- Operations that put all new elements at the front. -/
def SegDev.front' : Dq.Op α → Bool
  | .pushFront _ => true
  | .resizeFront _ => true
  | .resizeFrontV _ _ => true
  | _ => false

/-- **C25**, stable references: `push_front`, `push_back`, `emplace_front`, `emplace_back`, `reserve_front`, `reserve_back` and
growing `resize`, `resize_front`, `resize_back` leave all elements where they are, with the values they have, whether they
return or throw, and for all element types. The elements become the elements `i, i + 1, …` of the container: `i = 0` if the
operation throws, or if it does not add elements at the front; all the additional elements if it adds them at the front; and
for `resize`, which may add elements at both ends, at most the additional elements. -/
theorem segmentedDevector_references {i : Fin K} {o o' : Obj SDVec α} (hN : 0 < N) (hw : m0.Wf)
    (h : Reached (SegDev.cont K E N T ra rai) (SegDev.sem E T) m0 i o) {xs : List α}
    (hc : (SegDev.impl E N ra).contents o = .ok xs o) {op : Dq.Op α} (hp : op.pre xs.length = true)
    (hg : SegDev.grows xs.length op = true)
    (hx : (∃ r, SegDev.exec E N ra op o = .ok r o') ∨ ∃ e, SegDev.exec E N ra op o = .exn e o') :
    ∃ n i, SegDev.size N o' = .ok n o' ∧ i + xs.length ≤ n ∧
      ((∃ e, SegDev.exec E N ra op o = .exn e o') → i = 0) ∧
      ((∃ r, SegDev.exec E N ra op o = .ok r o') → SegDev.front' op = true → i = n - xs.length) ∧
      ((∀ k, op ≠ .resize k) → (∀ k s, op ≠ .resizeV k s) → SegDev.front' op = false → i = 0) ∧
      ∀ k (hk : k < xs.length), ∃ p, SegDev.addressOf N k o = .ok p o ∧ SegDev.addressOf N (i + k) o' = .ok p o' ∧
        o.m.mem p.blk p.off = some xs[k] ∧ o'.m.mem p.blk p.off = some xs[k] := by
  obtain ⟨H, al, V, tcap, f, xs', hv⟩ := h.segDev hN hw
  obtain rfl : xs = xs' := by
    have := SegDev.contents_run (E := E) (ra := ra) hv
    rw [hc] at this
    injection this
  have hp' : SegDev.pre xs.length op = true := by cases op <;> simp [SegDev.grows] at hg <;> exact hp
  have hs := SegDev.exec_spec (E := E) ra op hv hp'
  have done : ∀ {ys : List α} {V' : View} {tcap' f' : Nat} (j : Nat), SegDev.DSt H N o' al V' tcap' f' ys →
      SegDev.Stays xs ys (fun k => V.addr (f + k)) (fun k => V'.addr (f' + k)) j 0 → j + xs.length ≤ ys.length →
      ∀ k (hk : k < xs.length), ∃ p, SegDev.addressOf N k o = .ok p o ∧ SegDev.addressOf N (j + k) o' = .ok p o' ∧
        o.m.mem p.blk p.off = some xs[k] ∧ o'.m.mem p.blk p.off = some xs[k] := by
    intro ys V' tcap' f' j g1 gs gl k hk
    have hk' : j + k < ys.length := by omega
    obtain ⟨e1, e2⟩ := gs k (by omega) hk (by omega)
    rw [Nat.sub_zero, Nat.add_comm k j] at e1 e2
    have e2 : V'.addr (f' + (j + k)) = V.addr (f + k) := e2
    refine ⟨V.addr (f + k), hv.addressOf_run hk, e2 ▸ g1.addressOf_run hk', ?_, ?_⟩
    · rw [hv.seen.element k hk]; simp
    · rw [← e2, g1.seen.element (j + k) hk', e1]; simp
  rcases hx with ⟨r, hx⟩ | ⟨e, hx⟩
  · obtain ⟨V', tcap', f', ys, g1, ⟨g2, -⟩, g3⟩ := wp_ok hx hs
    have hne : ¬ ∃ e, SegDev.exec E N ra op o = .exn e o' := by rw [hx]; simp
    cases op <;> simp [SegDev.grows] at hg <;> simp only [Dq.Op.Result] at g2
    case pushFront s =>
      obtain ⟨v, -, rfl⟩ := g2
      exact ⟨_, 1, g1.size_run, by simp; omega, fun h => absurd h hne, by simp, by simp [SegDev.front'],
        done 1 g1 g3 (by simp; omega)⟩
    case pushBack s =>
      obtain ⟨v, -, rfl⟩ := g2
      exact ⟨_, 0, g1.size_run, by simp, fun _ => rfl, by simp [SegDev.front'], by simp, done 0 g1 g3 (by simp)⟩
    case reserveFront n =>
      subst g2
      exact ⟨_, 0, g1.size_run, by simp, fun _ => rfl, by simp, by simp, done 0 g1 g3 (by simp)⟩
    case reserveBack n =>
      subst g2
      exact ⟨_, 0, g1.size_run, by simp, fun _ => rfl, by simp, by simp, done 0 g1 g3 (by simp)⟩
    case resize n =>
      obtain ⟨a, b, hab, rfl⟩ := g2
      obtain ⟨j, k1, k2, k3⟩ := g3
      have hl : j + xs.length ≤ (List.replicate a E.dflt ++ xs.take n ++ List.replicate b E.dflt).length := by simp; omega
      exact ⟨_, j, g1.size_run, hl, fun h => absurd h hne, by simp [SegDev.front'], by simp, done j g1 k2 hl⟩
    case resizeV n s =>
      obtain ⟨v, -, a, b, hab, rfl⟩ := g2
      obtain ⟨j, k1, k2, k3⟩ := g3
      have hl : j + xs.length ≤ (List.replicate a v ++ xs.take n ++ List.replicate b v).length := by simp; omega
      exact ⟨_, j, g1.size_run, hl, fun h => absurd h hne, by simp [SegDev.front'], by simp, done j g1 k2 hl⟩
    case resizeFront n =>
      subst g2
      have e1 : xs.length - n = 0 := by omega
      simp only [SegDev.okStays, e1, List.drop_zero] at g3 g1
      exact ⟨_, n - xs.length, g1.size_run, by simp, fun h => absurd h hne, by simp, by simp [SegDev.front'],
        done _ g1 g3 (by simp)⟩
    case resizeFrontV n s =>
      obtain ⟨v, -, rfl⟩ := g2
      have e1 : xs.length - n = 0 := by omega
      simp only [SegDev.okStays, e1, List.drop_zero] at g3 g1
      exact ⟨_, n - xs.length, g1.size_run, by simp, fun h => absurd h hne, by simp, by simp [SegDev.front'],
        done _ g1 g3 (by simp)⟩
    case resizeBack n =>
      subst g2
      exact ⟨_, 0, g1.size_run, by simp; omega, fun _ => rfl, by simp [SegDev.front'], by simp, done 0 g1 g3 (by simp; omega)⟩
    case resizeBackV n s =>
      obtain ⟨v, -, rfl⟩ := g2
      exact ⟨_, 0, g1.size_run, by simp; omega, fun _ => rfl, by simp [SegDev.front'], by simp, done 0 g1 g3 (by simp; omega)⟩
  · obtain ⟨V', tcap', f', ys, g1, g2, g3⟩ := wp_exn hx hs
    have hne : ¬ ∃ r, SegDev.exec E N ra op o = .ok r o' := by rw [hx]; simp
    have hl : 0 + xs.length ≤ ys.length := by have := g2.some; omega
    have hst : SegDev.Stays xs ys (fun k => V.addr (f + k)) (fun k => V'.addr (f' + k)) 0 0 := by
      cases op <;> simp [SegDev.grows] at hg <;> first | exact g3 rfl | exact g3
    exact ⟨_, 0, g1.size_run, hl, fun _ => rfl, fun h => absurd h hne, fun _ _ _ => rfl, done 0 g1 hst hl⟩

/-- The positions `begin()` and `end()` refer to segments that exist. -/
structure SegDev.EndValid (N : Nat) (v : SDVec) (m : St α) : Prop where
  /-- their segment pointers point into the used part of the table -/
  inTable : v.tlast.blk = v.tfirst.blk ∧ ∀ it, it = v.first ∨ it = v.last →
    it.seg.blk = v.tfirst.blk ∧ v.tfirst.off ≤ it.seg.off ∧ it.seg.off < v.tlast.off
  /-- where the table holds the beginning of the segment that the local pointer points into -/
  entry : ∀ it, it = v.first ∨ it = v.last →
    v.tab.blk = it.seg.blk ∧ v.tab.cells[it.seg.off]? = some (some ⟨it.loc.blk, 0⟩) ∧ it.loc.off < N
  /-- the segments are allocated, with `N` cells and by the allocator of the container -/
  segment : ∀ it, it = v.first ∨ it = v.last → m.blk it.loc.blk = some ⟨N, some v.alloc⟩
  /-- `end()` is at a cell which is raw -/
  cell : m.mem v.last.loc.blk v.last.loc.off = none

theorem SegDev.DSt.endValid {H : Heap α} {o : Obj SDVec α} {al tcap f : Nat} {V : View} {xs : List α}
    (hv : SegDev.DSt H N o al V tcap f xs) : SegDev.EndValid N o.obj o.m := by
  have hN : 0 < V.N := hv.lay.npos
  have hsz := hv.lay.size_lt
  have hlen := hv.len
  have hobj := hv.obj
  have e0 : o.obj.first = V.it f := by rw [hobj]; rfl
  have e1 : o.obj.last = V.it (f + xs.length) := by rw [hobj]; rfl
  have e2 : o.obj.tfirst = ⟨V.tb, V.base⟩ := by rw [hobj]; rfl
  have e3 : o.obj.tlast = ⟨V.tb, V.base + V.segs.length⟩ := by rw [hobj]; rfl
  have e4 : o.obj.alloc = al := by rw [hobj]; rfl
  have key : ∀ it, it = o.obj.first ∨ it = o.obj.last → ∃ q, q < V.cap ∧ it = V.it q := by
    rintro it (rfl | rfl)
    · exact ⟨f, by omega, e0⟩
    · exact ⟨f + xs.length, by omega, e1⟩
  have seg : ∀ q, q < V.cap → q / V.N < V.segs.length := fun q hq =>
    Nat.div_lt_of_lt_mul (by rw [Nat.mul_comm]; exact hq)
  refine ⟨⟨by rw [e2, e3], fun it hit => ?_⟩, fun it hit => ?_, fun it hit => ?_, ?_⟩
  · obtain ⟨q, hq, rfl⟩ := key it hit
    have := seg q hq
    rw [e2, e3]
    exact ⟨rfl, Nat.le_add_right _ _, by show V.base + q / V.N < V.base + V.segs.length; omega⟩
  · obtain ⟨q, hq, rfl⟩ := key it hit
    refine ⟨hv.fit.tab.blk, hv.fit.tab.cells _ (seg q hq), ?_⟩
    rw [← hv.num]; exact Nat.mod_lt _ hN
  · obtain ⟨q, hq, rfl⟩ := key it hit
    have hmem : V.sg (q / V.N) ∈ V.segs := by
      unfold View.sg
      rw [List.getD, List.getElem?_eq_getElem (seg q hq)]
      exact List.getElem_mem _
    rw [e4, ← hv.num]
    exact hv.lay.sblk _ hmem
  · rw [e1]
    have := hv.slot (k := f + xs.length) (by omega)
    rw [if_pos (by omega), Nat.add_sub_cancel_left, List.getElem?_eq_none (by omega)] at this
    exact this

/-- **C25**: in every state that a program reaches, `begin()` and `end()` of every segmented devector designate cells of
allocated segments (there is always one cell more than `capacity()`), even if the container is full. -/
theorem segmentedDevector_end {i : Fin K} {o : Obj SDVec α} (hN : 0 < N) (hw : m0.Wf)
    (h : Reached (SegDev.cont K E N T ra rai) (SegDev.sem E T) m0 i o) : SegDev.EndValid N o.obj o.m := by
  obtain ⟨H, al, V, tcap, f, xs, hv⟩ := h.segDev hN hw
  exact hv.endValid

/-- **C10.** `erase_if(c, g)` (and `erase(c, value)`, with `g x := x == value`) of a segmented devector leaves exactly the
elements that do not match, in order, and returns the number of the others. -/
theorem segmentedDevector_eraseIf {i : Fin K} {o : Obj SDVec α} (hN : 0 < N) (hw : m0.Wf)
    (h : Reached (SegDev.cont K E N T ra rai) (SegDev.sem E T) m0 i o) (g : α → Bool) :
    ∃ xs, (SegDev.impl E N ra).contents o = .ok xs o ∧ (∀ u, SegDev.eraseIf E N g o ≠ .ub u) ∧
      ∀ r o', SegDev.eraseIf E N g o = .ok r o' →
        (SegDev.impl E N ra).contents o' = .ok (xs.filter (fun x => !g x)) o' ∧ r = xs.countP g := by
  obtain ⟨H, al, V, tcap, f, xs, hv⟩ := h.segDev hN hw
  have hs := SegDev.exec_spec (E := E) ra (.eraseIf g) hv rfl
  have he : ∀ x, SegDev.eraseIf E N g o = x → SegDev.exec E N ra (.eraseIf g) o =
      match x with | .ok n o' => .ok (some n) o' | .exn e o' => .exn e o' | .ub u => .ub u := by
    rintro _ rfl
    simp only [SegDev.exec, bind_apply]
    cases SegDev.eraseIf E N g o <;> rfl
  refine ⟨xs, SegDev.contents_run hv, fun u hx => wp_not_ub hs (he _ hx), fun r o' hx => ?_⟩
  obtain ⟨V', tcap', f', ys, k1, ⟨k2, k3⟩, -⟩ := wp_ok (he _ hx) hs
  simp [Dq.Op.Result, Dq.Op.ret] at k2 k3
  subst k2
  exact ⟨SegDev.contents_run k1, k3⟩

end

/-! ### Construction: C40 -/

/-- **C40** for segmented_devector: the constructor yields exactly the requested elements, and destroying the container
restores memory, or it throws and memory is exactly as before. -/
theorem segmentedDevector_construct (E : Env α) (N : Nat) (hN : 0 < N) (ra : Bool) (al : Nat) (m : St α) (hw : m.Wf)
    (init : Sq.Init α) :
    (∃ o', SegDev.construct' E N ra init ⟨SegDev.blank al, m⟩ = .ok () o' ∧
      (SegDev.impl E N (fun _ => ra)).contents o' = .ok (init.result E.dflt) o' ∧ SegDev.EndValid N o'.obj o'.m ∧
      ∃ o2, SegDev.destructor N o' = .ok () o2 ∧ o2.m.mem = m.mem ∧ o2.m.blk = m.blk) ∨
    (∃ e o', SegDev.construct' E N ra init ⟨SegDev.blank al, m⟩ = .exn e o' ∧ o'.m.mem = m.mem ∧ o'.m.blk = m.blk ∧
      (e = .lengthError → E.maxSize < (init.result E.dflt).length)) := by
  have hb := SegDev.bare_whole hw
  have h := SegDev.construct_spec (E := E) (N := N) (o := ⟨SegDev.blank al, m⟩) (al := al) (ra := ra) init hN hb rfl
  have back : ∀ {m' : St α}, Frame m noFoot m' noFoot → m'.mem = m.mem ∧ m'.blk = m.blk := by
    intro m' hf
    constructor
    · funext c k
      by_cases hc : m.blk c = none
      · have h1 := hf.fresh c id hc id
        rw [hw.dead c hc, hf.wf.dead c h1]
      · exact (hf.keep c id hc).2.2 k
    · funext c
      by_cases hc : m.blk c = none
      · rw [hf.fresh c id hc id, hc]
      · exact (hf.keep c id hc).2.1
  unfold wp at h
  split at h
  · rename_i _ o' he
    obtain ⟨V, tcap, hg⟩ := h
    obtain ⟨_, o2, d1, d2, -⟩ := wp_elim (SegDev.destructor_spec hg)
    exact Or.inl ⟨o', he, SegDev.contents_run hg, hg.endValid, o2, d1, back (hb.has.frame d2.has d2.wf)⟩
  · rename_i e o' he
    have := back (hb.has.frame h.2.has h.2.wf)
    exact Or.inr ⟨e, o', he, this.1, this.2, h.1⟩
  · exact h.elim

/-! ### The size limit: C27 -/

section
variable {K : Nat} {E : Env α} {N : Nat} {T : Traits} {ra : Dq.Op α → Bool} {rai : Sq.Init α → Bool} {m0 : St α}

/-- **C27**, what holds: in a segmented devector whose capacity `c` is at most `max_size()`,
* `reserve_front(n)` for more elements than there is room for without new segments at the front throws length_error exactly if
  the capacity would have to exceed `max_size()`, changing nothing; otherwise it can only throw bad_alloc;
* likewise `reserve_back(n)`;
* if the container is full and `c = max_size()`, `push_front` and `push_back` throw length_error and change nothing.

Missing: the capacity of a segmented devector can exceed `max_size()`, since storage is allocated in whole segments; then
`max_size() - capacity()` wraps around and nothing stops the container from growing further
(`segmentedDevector_exceeds_max_size`). -/
theorem segmentedDevector_limit_partial {i : Fin K} {o : Obj SDVec α} (hN : 0 < N) (hw : m0.Wf)
    (h : Reached (SegDev.cont K E N T ra rai) (SegDev.sem E T) m0 i o) :
    ∃ c sz af ab, SegDev.capacity N o = .ok c o ∧ SegDev.size N o = .ok sz o ∧ SegDev.availableFront N o = .ok af o ∧
      SegDev.availableBack N o = .ok ab o ∧ c = af + sz + ab ∧ (c ≤ E.maxSize →
      (∀ n, sz + af < n → (E.maxSize < n + ab → SegDev.reserveFront E N n o = .exn .lengthError o) ∧
        (n + ab ≤ E.maxSize → ∀ e o', SegDev.reserveFront E N n o = .exn e o' → e = .badAlloc)) ∧
      (∀ n, sz + ab < n → (E.maxSize < n + af → SegDev.reserveBack E N n o = .exn .lengthError o) ∧
        (n + af ≤ E.maxSize → ∀ e o', SegDev.reserveBack E N n o = .exn e o' → e = .badAlloc)) ∧
      (sz = E.maxSize → ∀ a, SegDev.emplaceFront E N a o = .exn .lengthError o ∧ SegDev.emplaceBack E N a o = .exn .lengthError o)) := by
  obtain ⟨H, al, V, tcap, f, xs, hv⟩ := h.segDev hN hw
  have hl := hv.len
  refine ⟨V.size, xs.length, f, V.size - (f + xs.length), hv.capacity_run, hv.size_run, hv.availableFront_run,
    hv.availableBack_run, by omega, fun hc => ⟨fun n hn => ⟨fun hm => ?_, fun hm e o' hx => ?_⟩,
      fun n hn => ⟨fun hm => ?_, fun hm e o' hx => ?_⟩, fun hs a => ⟨?_, ?_⟩⟩⟩
  · unfold SegDev.reserveFront SegDev.growStorageFront
    rw [bind_run hv.size_run, bind_run hv.availableFront_run, ite_run, if_pos hn, bind_run hv.capacity_run, ite_run,
      if_pos (by unfold SegVec.sizeSub; rw [if_pos hc]; omega)]
    rfl
  · unfold SegDev.reserveFront at hx
    rw [bind_run hv.size_run, bind_run hv.availableFront_run, ite_run, if_pos hn] at hx
    obtain ⟨h1, h2, -⟩ := wp_exn hx (SegDev.growStorageFront_spec (E := E) (n := n - (xs.length + f)) hv)
    rcases h2 with rfl | rfl
    · have := h1 rfl
      omega
    · rfl
  · unfold SegDev.reserveBack SegDev.growStorageBack
    rw [bind_run hv.size_run, bind_run hv.availableBack_run, ite_run, if_pos hn, bind_run hv.capacity_run, ite_run,
      if_pos (by unfold SegVec.sizeSub; rw [if_pos hc]; omega)]
    rfl
  · unfold SegDev.reserveBack at hx
    rw [bind_run hv.size_run, bind_run hv.availableBack_run, ite_run, if_pos hn] at hx
    obtain ⟨h1, h2, -⟩ := wp_exn hx (SegDev.growStorageBack_spec (E := E) (n := n - (xs.length + (V.size - (f + xs.length)))) hv)
    rcases h2 with rfl | rfl
    · have := h1 rfl
      omega
    · rfl
  · unfold SegDev.emplaceFront SegDev.growStorageFront
    have e1 : Seg.eq o.obj.first o.obj.bos = true := by
      rw [show o.obj.first = V.it f by rw [hv.obj]; rfl, show o.obj.bos = V.it 0 by rw [hv.obj]; rfl,
        show f = 0 by omega]
      simp [Seg.eq]
    rw [bind_run (m := getObj) (s' := o) rfl]
    simp only [e1, if_true]
    rw [show ∀ (p : SegDev.DM α Unit) (q : Unit → SegDev.DM α SIt), p o = .exn .lengthError o → (p >>= q) o = .exn .lengthError o from
      fun p q hp => by simp [bind, M.bind, hp]]
    rw [bind_run hv.capacity_run, ite_run, if_pos (by unfold SegVec.sizeSub; rw [if_pos hc]; omega)]
    rfl
  · unfold SegDev.emplaceBack SegDev.growStorageBack
    have e1 : Seg.eq o.obj.last o.obj.eos = true := by
      rw [show o.obj.last = V.it (f + xs.length) by rw [hv.obj]; rfl, show o.obj.eos = V.it V.size by rw [hv.obj]; rfl,
        show f + xs.length = V.size by omega]
      simp [Seg.eq]
    rw [bind_run (m := getObj) (s' := o) rfl]
    simp only [e1, if_true]
    rw [show ∀ (p : SegDev.DM α Unit) (q : Unit → SegDev.DM α SIt), p o = .exn .lengthError o → (p >>= q) o = .exn .lengthError o from
      fun p q hp => by simp [bind, M.bind, hp]]
    rw [bind_run hv.capacity_run, ite_run, if_pos (by unfold SegVec.sizeSub; rw [if_pos hc]; omega)]
    rfl

end

/-- Constructors refuse more than `max_size()` elements before allocating anything. -/
theorem segmentedDevector_construct_limit (E : Env α) (N : Nat) (ra : Bool) (n : Nat) (v : α) (hn : E.maxSize < n) (o : Obj SDVec α) :
    SegDev.construct' E N ra (.count n) o = .exn .lengthError o ∧ SegDev.construct' E N ra (.fill n v) o = .exn .lengthError o ∧
    ∀ ys : List α, E.maxSize < ys.length → SegDev.construct' E N ra (.range ys) o = .exn .lengthError o := by
  have h : ∀ k, E.maxSize < k → ∀ alg, SegDev.initUsing E N k alg o = .exn .lengthError o := by
    intro k hk alg
    unfold SegDev.initUsing SegDev.allocateStorage
    rw [bind_apply, ite_run, if_pos hk]
    rfl
  refine ⟨?_, ?_, fun ys hy => ?_⟩
  · unfold SegDev.construct'; exact h _ hn _
  · unfold SegDev.construct'; exact h _ hn _
  · unfold SegDev.construct'; exact h _ hy _

namespace Demo

/-- The outcome of a small program on two segmented_devectors with segments of three elements, with an unrelated object in
memory. -/
def sdvRun (E : Env Nat) (ops : List (WOp 2 (Dq.Op Nat) (Sq.Init Nat))) : Res (Slots 2 SDVec Nat) (List (Out (Option Nat))) :=
  World.runOps (SegDev.cont 2 E 3 T (fun _ => true) (fun _ => true)) (SegDev.sem E T) ops ⟨fun _ => none, m1⟩

/-- The segmented devector in slot 0 afterwards. -/
def sdv (E : Env Nat) (ops : List (WOp 2 (Dq.Op Nat) (Sq.Init Nat))) : Obj SDVec Nat :=
  match sdvRun E ops with
  | .ok _ s => match s.obj 0 with
    | some v => ⟨v, s.m⟩
    | none => ⟨SegDev.blank 7, s.m⟩
  | _ => ⟨SegDev.blank 7, m1⟩

/-- Whether it exists. -/
def sdvOk (E : Env Nat) (ops : List (WOp 2 (Dq.Op Nat) (Sq.Init Nat))) : Bool :=
  match sdvRun E ops with
  | .ok _ s => (s.obj 0).isSome
  | _ => false

theorem sdv_reached (E : Env Nat) (ops : List (WOp 2 (Dq.Op Nat) (Sq.Init Nat))) (h : sdvOk E ops = true) :
    Reached (SegDev.cont 2 E 3 T (fun _ => true) (fun _ => true)) (SegDev.sem E T) m1 0 (sdv E ops) := by
  unfold sdvOk at h
  split at h
  · rename_i log s hx
    obtain ⟨v, hv⟩ := Option.isSome_iff_exists.mp h
    refine ⟨_, log, s, v, hx, hv, ?_⟩
    unfold sdv
    rw [hx]
    simp [hv]
  · cases h

/-- Six elements, the first of which was put at the front. -/
def six : List (WOp 2 (Dq.Op Nat) (Sq.Init Nat)) := [.make 0 7 (.range [1, 2, 3, 4, 5]), .op 0 (.pushFront (.value 0))]

end Demo

/-- Three segmented devectors with segments of two elements: a copy constructor that throws, an insertion that throws,
growth at both ends, move construction with another allocator, swap, move assignment, further use of a moved-from
container. -/
example : Demo.show' (World.session (SegDev.cont 3 (Demo.env [10, 24]) 2 Demo.T (fun _ => true) (fun _ => false))
    (SegDev.sem (Demo.env [10, 24]) Demo.T)
    [.make 0 7 (.range [1, 2, 3]), .makeCopy 1 0 none, .makeCopy 1 0 none, .op 1 (.pushFront (.elem 2)),
     .op 1 (.assignRange [4, 5, 6]), .op 1 (.insertN 1 2 (.elem 1)),
     .makeMove 2 0 (some 8), .assignCopy 0 1, .assignMove 1 0, .swap 0 1, .assignCopy 2 2, .swap 1 1,
     .op 0 (.pushBack (.value 4)), .op 0 (.insertN 1 2 (.elem 0)), .op 0 (.insertRange 1 [8, 9]), .op 0 (.eraseRange 1 2),
     .op 0 .popFront, .op 0 .shrinkToFit, .op 0 (.resizeFront 5), .op 2 (.eraseIf (fun x => x == 1000)), .destroy 2,
     .makeMove 2 1 none] ⟨fun _ => none, Demo.m1⟩) =
    some ([.ok none, .threw .elem, .ok none, .ok (some 0), .ok none, .threw .badAlloc, .ok none, .ok none, .ok none, .ok none,
      .ok none, .ok none, .ok (some 3), .ok (some 1), .ok (some 1), .ok (some 1), .ok none, .ok none, .ok none, .ok (some 0),
      .ok none, .ok none],
      [some (7, [4, 4, 5, 6, 4]), some (7, []), some (7, [1000, 1000, 1000])]) := by decide +kernel

/-- The hypotheses of `segmentedDevector_modify_partial` and `segmentedDevector_references` are met: a container of six
elements with room for two more at the front, and both outcomes of `resize_front(9, c[0])`; the second time a copy throws,
after a segment has been allocated. -/
example : Reached (SegDev.cont 2 (Demo.env [13]) 3 Demo.T (fun _ => true) (fun _ => true)) (SegDev.sem (Demo.env [13]) Demo.T) Demo.m1 0
      (Demo.sdv (Demo.env [13]) Demo.six) ∧
    Demo.show' ((SegDev.impl (Demo.env [13]) 3 (fun _ => true)).contents (Demo.sdv (Demo.env [13]) Demo.six)) = some [0, 1, 2, 3, 4, 5] ∧
    Dq.Op.pre 6 (.resizeFrontV 9 (.elem 0) : Dq.Op Nat) = true ∧ SegDev.pre 6 (.resizeFrontV 9 (.elem 0) : Dq.Op Nat) = true ∧
    SegDev.grows 6 (.resizeFrontV 9 (.elem 0) : Dq.Op Nat) = true ∧
    (∃ r o', SegDev.exec (Demo.env []) 3 (fun _ => true) (.resizeFrontV 9 (.elem 0)) (Demo.sdv (Demo.env []) Demo.six) = .ok r o') ∧
    ∃ e o', SegDev.exec (Demo.env [13]) 3 (fun _ => true) (.resizeFrontV 9 (.elem 0)) (Demo.sdv (Demo.env [13]) Demo.six) = .exn e o' :=
  ⟨Demo.sdv_reached _ _ (by decide +kernel), by decide +kernel, rfl, rfl, rfl,
    ⟨_, Demo.ok_of (b := none) (by decide +kernel)⟩, Demo.exn_of (by decide +kernel)⟩

/-- The hypotheses of `segmentedDevector_insert_range_partial` are met by the insertion of eight elements at the end of this
container; both outcomes. -/
example : Demo.show' (SegDev.availableFront 3 (Demo.sdv (Demo.env [15]) Demo.six)) = some 2 ∧
    (∃ r o', SegDev.exec (Demo.env []) 3 (fun _ => true) (.insertRange 6 [1, 2, 3, 4, 5, 6, 7, 8])
      (Demo.sdv (Demo.env []) Demo.six) = .ok r o') ∧
    ∃ e o', SegDev.exec (Demo.env [15]) 3 (fun _ => true) (.insertRange 6 [1, 2, 3, 4, 5, 6, 7, 8])
      (Demo.sdv (Demo.env [15]) Demo.six) = .exn e o' :=
  ⟨by decide +kernel, ⟨_, Demo.ok_of (b := some 6) (by decide +kernel)⟩, Demo.exn_of (by decide +kernel)⟩

/-- There is no room at the back of this container; its `end()` is the last cell of the third segment. -/
example : Demo.show' (SegDev.availableBack 3 (Demo.sdv (Demo.env []) Demo.six)) = some 0 ∧
    (Demo.sdv (Demo.env []) Demo.six).obj.last.seg.off = (Demo.sdv (Demo.env []) Demo.six).obj.tlast.off - 1 ∧
    (Demo.sdv (Demo.env []) Demo.six).obj.last.loc.off = 2 := by
  decide +kernel

/-- The removal of the odd numbers. -/
example : Demo.show' ((do
      let r ← SegDev.eraseIf (Demo.env []) 3 (fun x => x % 2 == 1)
      let ys ← (SegDev.impl (Demo.env []) 3 (fun _ => true)).contents
      pure (r, ys) : SegDev.DM Nat _) (Demo.sdv (Demo.env []) Demo.six)) = some (3, [0, 2, 4]) := by decide +kernel

/-- Both outcomes of a constructor: the fourth of five copies throws, or none. -/
example : (∃ e o', SegDev.construct' (Demo.env [6]) 3 true (.fill 5 8) ⟨SegDev.blank 3, Demo.m1⟩ = .exn e o') ∧
    ∃ o', SegDev.construct' (Demo.env [9]) 3 true (.fill 5 8) ⟨SegDev.blank 3, Demo.m1⟩ = .ok () o' :=
  ⟨Demo.exn_of (by decide +kernel), Demo.ok_of (by decide +kernel)⟩

/-- The hypotheses of `segmentedDevector_limit_partial` are met with `max_size() = 8`: the container above, filled at the
front, has reached the limit. -/
example :
    let E : Env Nat := { Demo.env [] with maxSize := 8 }
    let o := Demo.sdv E (Demo.six ++ [.op 0 (.resizeFront 8)])
    Demo.show' (SegDev.capacity 3 o) = some 8 ∧ Demo.show' (SegDev.size 3 o) = some 8 ∧
    Demo.threw (SegDev.emplaceFront E 3 (.val 0) o) = true ∧ Demo.threw (SegDev.emplaceBack E 3 (.val 0) o) = true := by
  decide +kernel

/-! ### What does not hold -/

/-- **C25 does not hold** for `insert(pos, first, last)` with forward iterators: inserting two elements at the end of an empty
segmented devector has undefined behaviour. In the second half of the container `insert_range` computes the iterator
`p2 = data_.last_ - n` before looking at whether it needs it (segmented_devector.hpp:2423-2426), which
reads the table of segments outside of the part in use if there are fewer than `n` slots before `last_`. -/
theorem segmentedDevector_insert_range_ub : ∃ (E : Env Nat) (o : Obj SDVec Nat),
    Reached (SegDev.cont 2 E 3 Demo.T (fun _ => true) (fun _ => true)) (SegDev.sem E Demo.T) Demo.m1 0 o ∧
    (SegDev.impl E 3 (fun _ => true)).contents o = .ok [] o ∧ (Dq.Op.insertRange 0 [1, 2] : Dq.Op Nat).pre 0 = true ∧
    SegDev.exec E 3 (fun _ => true) (.insertRange 0 [1, 2]) o = .ub .outOfBounds := by
  let E : Env Nat := Demo.env []
  let ops : List (WOp 2 (Dq.Op Nat) (Sq.Init Nat)) := [.make 0 7 .empty]
  have hr := Demo.sdv_reached E ops (by decide +kernel)
  obtain ⟨H, al, V, tcap, f, xs, hv⟩ := hr.segDev (by omega) Demo.m1_wf
  have hn : Demo.show' (SegDev.size 3 (Demo.sdv E ops)) = some 0 := by decide +kernel
  rw [hv.size_run] at hn
  obtain rfl : xs = [] := List.length_eq_zero_iff.mp (Option.some.inj hn)
  refine ⟨E, _, hr, SegDev.contents_run hv, rfl, ?_⟩
  have h : Demo.isUb (SegDev.exec E 3 (fun _ => true) (.insertRange 0 [1, 2]) (Demo.sdv E ops)) = some .outOfBounds := by
    decide +kernel
  unfold Demo.isUb at h
  split at h
  · rename_i r h'; rw [h']; simp at h; rw [h]
  · simp at h

/-- **C27 does not hold**: with segments of three elements and `max_size() = 10`, a segmented devector grows to 12 elements,
at either end (segmented_devector.hpp:1328-1332, 1417-1420; see `segmentedVector_exceeds_max_size`). -/
theorem segmentedDevector_exceeds_max_size (front : Bool) : ∃ (E : Env Nat) (o : Obj SDVec Nat) (n : Nat)
    (ops : List (WOp 2 (Dq.Op Nat) (Sq.Init Nat))) (log : List (Out (Option Nat))) (s : Slots 2 SDVec Nat),
    ops = .make 0 7 .empty :: List.replicate 12 (.op 0 (if front then .pushFront (.value 5) else .pushBack (.value 5))) ∧
    World.runOps (SegDev.cont 2 E 3 Demo.T (fun _ => true) (fun _ => true)) (SegDev.sem E Demo.T) ops
      ⟨fun _ => none, Demo.m1⟩ = .ok log s ∧ (s.obj 0).map (fun v => (⟨v, s.m⟩ : Obj SDVec Nat)) = some o ∧
    SegDev.size 3 o = .ok n o ∧ E.maxSize < n := by
  let E : Env Nat := { Demo.env [] with maxSize := 10 }
  let ops : List (WOp 2 (Dq.Op Nat) (Sq.Init Nat)) :=
    .make 0 7 .empty :: List.replicate 12 (.op 0 (if front then .pushFront (.value 5) else .pushBack (.value 5)))
  have hok : Demo.sdvOk E ops = true := by cases front <;> decide +kernel
  have hr := Demo.sdv_reached E ops hok
  obtain ⟨H, al, V, tcap, f, xs, hv⟩ := hr.segDev (by omega) Demo.m1_wf
  have hn : Demo.show' (SegDev.size 3 (Demo.sdv E ops)) = some 12 := by cases front <;> decide +kernel
  rw [hv.size_run] at hn
  have hn : xs.length = 12 := Option.some.inj hn
  unfold Demo.sdvOk at hok
  split at hok
  · rename_i log s hx
    obtain ⟨v, hv'⟩ := Option.isSome_iff_exists.mp hok
    have e : Demo.sdv E ops = ⟨v, s.m⟩ := by unfold Demo.sdv; rw [hx]; simp [hv']
    rw [e] at hv
    exact ⟨E, _, xs.length, ops, log, s, rfl, hx, by rw [hv']; rfl, hv.size_run, by rw [hn]; decide⟩
  · cases hok

/-- **C26 does not hold** for propagating unequal allocators: `swap` exchanges the allocators (segmented_devector.hpp:1171-1174)
and then `swap(data_, other.data_)` exchanges all data members including the allocators, which form a base class of
the data (80-126). Each container ends up with the storage of the other one and its own allocator, and the destructor
returns the segments to the wrong allocator. -/
theorem segmentedDevector_swap_propagate : ∃ (E : Env Nat) (T : Traits) (ops : List (WOp 2 (Dq.Op Nat) (Sq.Init Nat)))
    (log : List (Out (Option Nat))) (s : Slots 2 SDVec Nat) (v w v' w' : SDVec),
    World.runOps (SegDev.cont 2 E 3 T (fun _ => true) (fun _ => true)) (SegDev.sem E T) ops ⟨fun _ => none, Demo.m1⟩ = .ok log s ∧
    s.obj 0 = some v ∧ s.obj 1 = some w ∧ T.pocs = true ∧ v.alloc = 7 ∧ w.alloc = 8 ∧
    SegDev.swap T ⟨(v, w), s.m⟩ = .ok () ⟨(v', w'), s.m⟩ ∧ v'.alloc = 7 ∧ s.m.blk v'.first.loc.blk = some ⟨3, some 8⟩ ∧
    SegDev.destructor 3 ⟨v', s.m⟩ = .ub .badDealloc := by
  let ops : List (WOp 2 (Dq.Op Nat) (Sq.Init Nat)) := [.make 0 7 (.range [1, 2]), .make 1 8 (.range [3, 4, 5])]
  have h : (match Demo.sdvRun (Demo.env []) ops with
    | .ok _ s => match s.obj 0, s.obj 1 with
      | some v, some w => decide (v.alloc = 7 ∧ w.alloc = 8 ∧ s.m.blk w.first.loc.blk = some ⟨3, some 8⟩ ∧
          Demo.isUb (SegDev.destructor 3 ⟨{ w with alloc := v.alloc }, s.m⟩) = some .badDealloc)
      | _, _ => false
    | _ => false) = true := by decide +kernel
  split at h
  · rename_i log s hx
    split at h
    · rename_i v w hv hw
      obtain ⟨h1, h2, h3, h4⟩ := of_decide_eq_true h
      refine ⟨Demo.env [], Demo.T, ops, log, s, v, w, { w with alloc := v.alloc }, { v with alloc := w.alloc }, hx, hv, hw, rfl, h1, h2,
        ?_, h1, h3, ?_⟩
      · unfold SegDev.swap
        rfl
      · unfold Demo.isUb at h4
        split at h4
        · rename_i r h; rw [h]; simp at h4; rw [h4]
        · simp at h4
    · cases h
  · cases h

end Sfl
