import Verif.SelfMove2
import Verif.PropTwo
import Verif.PropFlat
import Verif.PropStatic
import Verif.PropUnord
import Verif.PropUnord2
import Verif.PropCompact
import Verif.PropSegVec
import Verif.PropSegDev
import Verif.PropDevector
/-
  C52: self move assignment `c = std::move(c)` anywhere in a program. The containers of the programs have one more
  modifier, `.selfMove`.
-/

namespace Sfl
open World
variable {α κ : Type}

/-! ### Sequence containers -/

/-- **C52** (vector). A program that may also move assign vectors to themselves has no undefined behaviour, restores
memory and behaves as specified; self move assignment never throws and leaves the vector empty. -/
theorem vector_self_move_session (K : Nat) (E : Env α) (T : Traits) (m0 : St α) (hw : m0.Wf)
    (ops : List (WOp K (SelfOp (Sq.Op α)) (Sq.Init α))) :
    let S := (Vector.sem E T).withSelf (fun _ ys => ys = []) (fun _ _ => False)
    ∃ log A o', World.session ((Vector.cont K E T).withSelf (fun _ => Vector.assignMoveSelf E)) S ops ⟨fun _ => none, m0⟩ =
        .ok (log, (List.finRange K).map A) o' ∧
      WRun S (fun _ => none) ops log A ∧ o'.m.mem = m0.mem ∧ o'.m.blk = m0.blk := by
  refine (Vector.spec.withSelf Vector.selfSpec).session hw (fun i => ⟨Or.inl ⟨rfl, rfl⟩, hw.dead 0 hw.blk_zero⟩) ?_ ops
  intro i j _ c h
  exact absurd (h.2.elim id id) h.1

/-- **C52** (small_vector). Self move assignment leaves the container empty if its elements were on the heap, else with
its moved-from elements; if a move assignment of an element throws the number of elements has not changed. -/
theorem smallVector_self_move_session (K : Nat) (E : Env α) (T : Traits) (N : Nat) (ib : Fin K → Nat) (m0 : St α)
    (hm : Objects E ib N m0) (ops : List (WOp K (SelfOp (Sq.Op α)) (Sq.Init α))) :
    let S := (SmallVector.sem E T).withSelf (fun xs ys => ys = [] ∨ ys = xs.map E.moved) (fun xs ys => ys.length = xs.length)
    ∃ log A o', World.session ((SmallVector.cont E T ib N).withSelf (fun i => SmallVector.assignMoveSelf E (ib i) N)) S ops
        ⟨fun _ => none, m0⟩ = .ok (log, (List.finRange K).map A) o' ∧
      WRun S (fun _ => none) ops log A ∧ o'.m.mem = m0.mem ∧ o'.m.blk = m0.blk := by
  refine ((SmallVector.spec hm.fits).withSelf SmallVector.selfSpec).session hm.wf (fun i => ⟨(hm.raw i).blk, (hm.raw i).raw⟩) ?_ ops
  intro i j hij c h1 h2
  have e1 := h1.2.elim id id
  have e2 := h2.2.elim id id
  exact hm.disj i j hij (e1 ▸ h1.1) (e1.symm.trans e2)

/-- **C52** (static_vector). Self move assignment leaves the moved-from elements. -/
theorem staticVector_self_move_session (K : Nat) (E : Env α) (N : Nat) (ib : Fin K → Nat) (m0 : St α)
    (hm : Objects E ib N m0) (ops : List (WOp K (SelfOp (Sq.Op α)) (Sq.Init α))) :
    let S := (StaticVector.sem E N).withSelf (fun xs ys => ys = xs.map E.moved) (fun xs ys => ys.length = xs.length)
    ∃ log A o', World.session ((StaticVector.cont E ib N).withSelf (fun _ => StaticVector.assignMoveSelf E N)) S ops
        ⟨fun _ => none, m0⟩ = .ok (log, (List.finRange K).map A) o' ∧
      WRun S (fun _ => none) ops log A ∧ o'.m.mem = m0.mem ∧ o'.m.blk = m0.blk :=
  ((StaticVector.spec hm.fits).withSelf StaticVector.selfSpec).session hm.wf hm.static.1 hm.static.2 ops

/-- **C52** (compact_vector), in the programs of `compactVector_session_partial`. -/
theorem compactVector_self_move_session (K : Nat) (E : Env α) (T : Traits) (quiet : Bool)
    (hq : quiet = true → ∀ t, E.throws t = false) (m0 : St α) (hw : m0.Wf)
    (ops : List (WOp K (SelfOp (Sq.Op α)) (Sq.Init α))) :
    let S := (CompactVector.sem E T quiet).withSelf (fun _ ys => ys = []) (fun _ _ => False)
    ∃ log A o', World.session ((CompactVector.cont K E T).withSelf (fun _ => CompactVector.assignMoveSelf)) S ops
        ⟨fun _ => none, m0⟩ = .ok (log, (List.finRange K).map A) o' ∧
      WRun S (fun _ => none) ops log A ∧ o'.m.mem = m0.mem ∧ o'.m.blk = m0.blk :=
  ((CompactVector.spec hq).withSelf CompactVector.selfSpec).session hw
    (fun _ => ⟨Or.inl ⟨rfl, rfl⟩, hw.dead 0 hw.blk_zero⟩) (fun _ _ _ _ h => absurd (h.2.elim id id) h.1) ops

/-- **C52** (segmented_vector), in the programs of `segmentedVector_session_partial`: self move assignment leaves the
container empty, or, if it cannot allocate, has no effect. -/
theorem segmentedVector_self_move_session (K : Nat) (E : Env α) (N : Nat) (hN : 0 < N) (T : Traits) (ra : Sq.Op α → Bool)
    (rai : Sq.Init α → Bool) (m0 : St α) (hw : m0.Wf) (ops : List (WOp K (SelfOp (Sq.Op α)) (Sq.Init α))) :
    let S := (SegVec.sem E T).withSelf (fun _ ys => ys = []) (fun xs ys => ys = xs)
    ∃ log A o', World.session ((SegVec.cont K E N T ra rai).withSelf (fun _ => SegVec.assignMoveSelf E N)) S ops
        ⟨fun _ => none, m0⟩ = .ok (log, (List.finRange K).map A) o' ∧
      WRun S (fun _ => none) ops log A ∧ o'.m.mem = m0.mem ∧ o'.m.blk = m0.blk :=
  ((SegVec.spec hN).withSelf SegVec.selfSpec).session hw (fun _ => trivial) (fun _ _ _ _ h => h.elim) ops

/-- **C52** (segmented_devector), in the programs of `segmentedDevector_session_partial`. -/
theorem segmentedDevector_self_move_session (K : Nat) (E : Env α) (N : Nat) (hN : 0 < N) (T : Traits) (ra : Dq.Op α → Bool)
    (rai : Sq.Init α → Bool) (m0 : St α) (hw : m0.Wf) (ops : List (WOp K (SelfOp (Dq.Op α)) (Sq.Init α))) :
    let S := (SegDev.sem E T).withSelf (fun _ ys => ys = []) (fun xs ys => ys = xs)
    ∃ log A o', World.session ((SegDev.cont K E N T ra rai).withSelf (fun _ => SegDev.assignMoveSelf E N)) S ops
        ⟨fun _ => none, m0⟩ = .ok (log, (List.finRange K).map A) o' ∧
      WRun S (fun _ => none) ops log A ∧ o'.m.mem = m0.mem ∧ o'.m.blk = m0.blk :=
  ((SegDev.spec hN).withSelf SegDev.selfSpec).session hw (fun _ => trivial) (fun _ _ _ _ h => h.elim) ops

/-! ### devector -/

/-- **C52** (devector), with `shrink_to_fit()` before each self move assignment, so that there is no free space in front
of the elements. What is missing is self move assignment alone: `devector_self_move_ub`. -/
theorem devector_self_move_session_partial (K : Nat) (E : Env α) (T : Traits) (quiet : Bool)
    (hq : quiet = true → ∀ t, E.throws t = false) (m0 : St α) (hw : m0.Wf)
    (ops : List (WOp K (SelfOp (Dq.Op α)) (Sq.Init α))) :
    let S := (Devector.sem E T quiet).withSelf (fun _ ys => ys = []) (fun xs ys => ys.length = xs.length)
    ∃ log A o', World.session ((Devector.cont K E T).withSelf (fun _ => Devector.shrinkAssignMoveSelf E)) S ops
        ⟨fun _ => none, m0⟩ = .ok (log, (List.finRange K).map A) o' ∧
      WRun S (fun _ => none) ops log A ∧ o'.m.mem = m0.mem ∧ o'.m.blk = m0.blk :=
  ((Devector.spec hq).withSelf Devector.selfSpec).session hw
    (fun _ => ⟨Or.inl ⟨rfl, rfl⟩, hw.dead 0 hw.blk_zero⟩) (fun _ _ _ _ h => absurd (h.2.elim id id) h.1) ops

/-- **C52** (devector). Without free space in front of the elements self move assignment returns and leaves the devector
empty, without storage; the rest of memory is not touched. -/
theorem devector_self_move_partial {E : Env α} {o : Obj DVec α} {xs : List α} {s : Nat} (h : Devector.Layout E o 0 xs s) :
    ∃ o', (Devector.assignMoveSelf : Devector.DM α Unit) o = .ok () o' ∧ Devector.Layout E o' 0 [] 0 ∧
      o'.obj = Devector.empty o.obj.alloc ∧ Devector.Local o o' := by
  obtain ⟨b, k⟩ := h.own
  have kd := k.dst h.wf (Rest.out _ _)
  obtain ⟨_, o', h1, h2⟩ := wp_elim (Devector.assignMoveSelf_spec kd)
  exact ⟨o', h1, h2.layout, h2.obj, kd.local h2⟩

/-- **C52 does not hold** for devector: whenever there is free space in front of the elements, self move assignment is
undefined, since `reset` (devector.hpp:1385-1416) passes `first_` to `deallocate`. -/
theorem devector_self_move_ub {E : Env α} {o : Obj DVec α} {xs : List α} {f s : Nat} (h : Devector.Layout E o f xs s)
    (hf : 0 < f) : (Devector.assignMoveSelf : Devector.DM α Unit) o = .ub .badDealloc := by
  obtain ⟨b, k⟩ := h.own
  have kd := k.dst h.wf (Rest.out _ _)
  have hobj := k.obj
  obtain ⟨v, m⟩ := o
  dsimp only at hobj k kd
  have hb0 : b ≠ 0 := by
    rintro rfl
    rcases k.own with ⟨-, h0⟩ | ⟨-, h0, -⟩
    · omega
    · exact h0 rfl
  obtain ⟨_, m1, h1, -⟩ := wp_elim (kd.row.destroy (x := f) (y := f + xs.length)
    (Q := fun _ _ => True) (by omega) (fun i h1 h2 => by omega) (fun _ _ _ => trivial))
  have e1 : v.first = ⟨b, f⟩ := by rw [hobj]
  have e2 : v.last = ⟨b, f + xs.length⟩ := by rw [hobj]
  have e3 : v.bos.blk = v.eos.blk ∧ v.bos.off ≤ v.eos.off := by rw [hobj]; simp
  have hne : v.first ≠ Ptr.null := by rw [e1]; simp [Ptr.null, hb0]
  have hd : deallocate v.alloc v.first (v.eos.off - v.bos.off) m1 = .ub .badDealloc := by
    unfold deallocate
    rw [if_neg hne, e1]
    dsimp only
    split
    · rfl
    · rw [if_neg (by omega)]
  rw [← e1, ← e2] at h1
  unfold Devector.assignMoveSelf Devector.reset
  simp [bind, M.bind, getObj, lift, h1, distance, e3, hd]

/-! ### Flat containers -/

/-- **C52** (small ordered flat containers): as `smallVector_self_move_session`; afterwards the container is marked, since
moved-from elements are in no order. All unmarked containers are in order. -/
theorem smallFlat_self_move_session (K : Nat) (multi : Bool) (C : Order α κ) (L : C.Lawful) (E : Env α) (T : Traits) (N : Nat)
    (ib : Fin K → Nat) (m0 : St α) (hm : Objects E ib N m0) (ops : List (WOp K (SelfOp (Flat.Op α κ)) (Flat.Init α))) :
    let S := (Flat.smallSem multi C E T).withSelf (fun xs ys => ys = [] ∨ ys = xs.map E.moved) (fun xs ys => ys.length = xs.length)
    ∃ log A o', World.session ((Flat.smallCont multi C E T ib N).withSelf (fun i => SmallVector.assignMoveSelf E (ib i) N)) S ops
        ⟨fun _ => none, m0⟩ = .ok (log, (List.finRange K).map A) o' ∧
      WRun S (fun _ => none) ops log A ∧
      InOrder (C.Sorted multi) (trackAll (Flat.smallFlags multi E.nothrowMoves).withSelf (fun _ => false) ops log) A ∧
      o'.m.mem = m0.mem ∧ o'.m.blk = m0.blk := by
  intro S
  obtain ⟨log, A, o', h1, h2, h3, h4⟩ := ((Flat.smallSpec (multi := multi) (T := T) L hm.fits).withSelf
    SmallVector.selfSpec).session hm.wf
    (fun i => ⟨(hm.raw i).blk, (hm.raw i).raw⟩) (by
      intro i j hij c h1 h2
      have e1 := h1.2.elim id id
      have e2 := h2.2.elim id id
      exact hm.disj i j hij (e1 ▸ h1.1) (e1.symm.trans e2)) ops
  refine ⟨log, A, o', h1, h2, ?_, h3, h4⟩
  refine InOrder.run (Flat.smallKeeps L (fun h => ?_)).withSelf ?_ h2
  · simpa [Env.nothrowMoves, NothrowMove] using h
  · intro i al xs hi; cases hi

/-- **C52** (static ordered flat containers). -/
theorem staticFlat_self_move_session (K : Nat) (multi : Bool) (C : Order α κ) (L : C.Lawful) (E : Env α) (N : Nat)
    (ib : Fin K → Nat) (m0 : St α) (hm : Objects E ib N m0) (ops : List (WOp K (SelfOp (Flat.Op α κ)) (Flat.Init α))) :
    let S := (Flat.staticSem multi C E N).withSelf (fun xs ys => ys = xs.map E.moved) (fun xs ys => ys.length = xs.length)
    ∃ log A o', World.session ((Flat.staticCont multi C E ib N).withSelf (fun _ => StaticVector.assignMoveSelf E N)) S ops
        ⟨fun _ => none, m0⟩ = .ok (log, (List.finRange K).map A) o' ∧
      WRun S (fun _ => none) ops log A ∧
      InOrder (C.Sorted multi) (trackAll (Flat.staticFlags C multi E.nothrowMoves).withSelf (fun _ => false) ops log) A ∧
      o'.m.mem = m0.mem ∧ o'.m.blk = m0.blk := by
  intro S
  obtain ⟨log, A, o', h1, h2, h3, h4⟩ := ((Flat.staticSpec (multi := multi) (E := E) (ib := ib) L hm.fits).withSelf
    StaticVector.selfSpec).session hm.wf hm.static.1 hm.static.2 ops
  refine ⟨log, A, o', h1, h2, ?_, h3, h4⟩
  refine InOrder.run (Flat.staticKeeps L (fun h => ?_)).withSelf ?_ h2
  · simpa [Env.nothrowMoves, NothrowMove] using h
  · intro i al xs hi; cases hi

/-- **C52** (small unordered flat containers). -/
theorem smallUnord_self_move_session (K : Nat) (multi isMap : Bool) (U : KeyEq α κ) (L : U.Lawful) (E : Env α) (T : Traits) (N : Nat)
    (ib : Fin K → Nat) (m0 : St α) (hm : Objects E ib N m0) (ops : List (WOp K (SelfOp (Unord.Op α κ)) (Flat.Init α))) :
    let S := (Unord.smallSem multi isMap U E T).withSelf (fun xs ys => ys = [] ∨ ys = xs.map E.moved)
      (fun xs ys => ys.length = xs.length)
    ∃ log A o', World.session ((Unord.smallCont multi isMap U E T ib N).withSelf (fun i => SmallVector.assignMoveSelf E (ib i) N))
        S ops ⟨fun _ => none, m0⟩ = .ok (log, (List.finRange K).map A) o' ∧
      WRun S (fun _ => none) ops log A ∧
      InOrder (U.Distinct multi)
        (trackAll (Unord.smallFlags multi isMap E.nothrowMoves U.nothrow).withSelf (fun _ => false) ops log) A ∧
      o'.m.mem = m0.mem ∧ o'.m.blk = m0.blk := by
  intro S
  obtain ⟨log, A, o', h1, h2, h3, h4⟩ := ((Unord.smallSpec (multi := multi) (isMap := isMap) (T := T) L hm.fits).withSelf
    SmallVector.selfSpec).session hm.wf
    (fun i => ⟨(hm.raw i).blk, (hm.raw i).raw⟩) (by
      intro i j hij c h1 h2
      have e1 := h1.2.elim id id
      have e2 := h2.2.elim id id
      exact hm.disj i j hij (e1 ▸ h1.1) (e1.symm.trans e2)) ops
  refine ⟨log, A, o', h1, h2, ?_, h3, h4⟩
  refine InOrder.run (Unord.smallKeeps L (fun h => ?_)).withSelf ?_ h2
  · simpa [Env.nothrowMoves, NothrowMove] using h
  · intro i al xs hi; cases hi

/-- **C52** (static unordered flat containers). -/
theorem staticUnord_self_move_session (K : Nat) (multi isMap : Bool) (U : KeyEq α κ) (L : U.Lawful) (E : Env α) (N : Nat)
    (ib : Fin K → Nat) (m0 : St α) (hm : Objects E ib N m0) (ops : List (WOp K (SelfOp (Unord.Op α κ)) (Flat.Init α))) :
    let S := (Unord.staticSem multi U E N).withSelf (fun xs ys => ys = xs.map E.moved) (fun xs ys => ys.length = xs.length)
    ∃ log A o', World.session ((Unord.staticCont multi isMap U E ib N).withSelf (fun _ => StaticVector.assignMoveSelf E N)) S ops
        ⟨fun _ => none, m0⟩ = .ok (log, (List.finRange K).map A) o' ∧
      WRun S (fun _ => none) ops log A ∧
      InOrder (U.Distinct multi) (trackAll (Unord.staticFlags U multi E.nothrowMoves).withSelf (fun _ => false) ops log) A ∧
      o'.m.mem = m0.mem ∧ o'.m.blk = m0.blk := by
  intro S
  obtain ⟨log, A, o', h1, h2, h3, h4⟩ := ((Unord.staticSpec (multi := multi) (isMap := isMap) (E := E) (ib := ib) L
    hm.fits).withSelf StaticVector.selfSpec).session hm.wf hm.static.1 hm.static.2 ops
  refine ⟨log, A, o', h1, h2, ?_, h3, h4⟩
  refine InOrder.run (Unord.staticKeeps L (fun h => ?_)).withSelf ?_ h2
  · simpa [Env.nothrowMoves, NothrowMove] using h
  · intro i al xs hi; cases hi

/-! ### Concrete programs -/

namespace Demo

/-- A program with self move assignment, what it logs and what is in the containers at the end. -/
def selfRun {K : Nat} {Op I V ρ : Type} (C : Cont K Op I V Nat ρ) (S : Sem Op I Nat ρ) (self : Fin K → M (Obj V Nat) Unit)
    (m : St Nat) (ops : List (WOp K (SelfOp Op) I)) :=
  show' (World.session (C.withSelf self) (S.withSelf (fun _ _ => True) (fun _ _ => True)) ops ⟨fun _ => none, m⟩)

/-- vector: afterwards a throwing and a successful append, self move assignment of empty vectors. -/
example : selfRun (Vector.cont 3 (env [5]) T) (Vector.sem (env [5]) T) (fun _ => Vector.assignMoveSelf (env [5])) m1
    [.make 0 7 (.range [1, 2, 3]), .op 0 .selfMove, .op 0 (.op (.pushBack (.value 4))), .op 0 (.op (.pushBack (.value 4))),
     .makeCopy 1 0 none, .op 1 .selfMove, .op 1 .selfMove] =
    some ([.ok none, .ok none, .threw .elem, .ok (some 0), .ok none, .ok none, .ok none],
      [some (7, [4]), some (9, []), none]) := by decide +kernel

/-- small_vector<int, 2>: elements on the heap; elements in the object (the move assignment of one throws), swap of a
container without storage of either kind. -/
example : selfRun (SmallVector.cont (env [8]) T ib3 2) (SmallVector.sem (env [8]) T)
    (fun i => SmallVector.assignMoveSelf (env [8]) (ib3 i) 2) m3
    [.make 0 7 (.range [1, 2, 3]), .op 0 .selfMove, .op 0 (.op (.pushBack (.value 4))), .make 1 7 (.range [8, 9]),
     .op 1 .selfMove, .op 1 .selfMove, .swap 0 1] =
    some ([.ok none, .ok none, .ok (some 0), .ok none, .threw .elem, .ok none, .ok none],
      [some (7, [1000, 1000]), some (7, [4]), none]) := by decide +kernel

/-- static_vector<int, 2>. -/
example : selfRun (StaticVector.cont (env [3]) ib3 2) (StaticVector.sem (env [3]) 2)
    (fun _ => StaticVector.assignMoveSelf (env [3]) 2) m3
    [.make 0 7 (.range [1, 2]), .op 0 .selfMove, .op 0 (.op .popBack), .op 0 .selfMove, .op 0 (.op (.pushBack (.value 4)))] =
    some ([.ok none, .threw .elem, .ok none, .ok none, .ok (some 1)], [some (7, [1000, 4]), none, none]) := by decide +kernel

/-- compact_vector. -/
example : selfRun (CompactVector.cont 2 (env []) T) (CompactVector.sem (env []) T true) (fun _ => CompactVector.assignMoveSelf)
    m1 [.make 0 7 (.range [1, 2]), .op 0 .selfMove, .op 0 .selfMove, .op 0 (.op (.pushBack (.value 4)))] =
    some ([.ok none, .ok none, .ok none, .ok (some 0)], [some (7, [4]), none]) := by decide +kernel

/-- segmented_vector with segments of two elements: the temporary cannot be allocated. -/
example : selfRun (SegVec.cont 2 (env [6]) 2 T (fun _ => true) (fun _ => true)) (SegVec.sem (env [6]) T)
    (fun _ => SegVec.assignMoveSelf (env [6]) 2) m1
    [.make 0 7 (.range [1, 2, 3]), .op 0 .selfMove, .op 0 .selfMove, .op 0 (.op (.pushBack (.value 4)))] =
    some ([.ok none, .threw .badAlloc, .ok none, .ok (some 0)], [some (7, [4]), none]) := by decide +kernel

/-- segmented_devector with segments of two elements. -/
example : selfRun (SegDev.cont 2 (env [9]) 2 T (fun _ => true) (fun _ => true)) (SegDev.sem (env [9]) T)
    (fun _ => SegDev.assignMoveSelf (env [9]) 2) m1
    [.make 0 7 (.range [1, 2, 3]), .op 0 .selfMove, .op 0 .selfMove, .op 0 (.op (.pushFront (.value 4)))] =
    some ([.ok none, .ok none, .threw .badAlloc, .ok (some 0)], [some (7, [4]), none]) := by decide +kernel

/-- devector: `pop_front` makes free space in front of the elements, which `shrink_to_fit` removes. -/
example : selfRun (Devector.cont 2 (env []) T) (Devector.sem (env []) T true) (fun _ => Devector.shrinkAssignMoveSelf (env [])) m1
    [.make 0 7 (.range [1, 2]), .op 0 (.op .popFront), .op 0 .selfMove, .op 0 .selfMove, .op 0 (.op (.pushFront (.value 4)))] =
    some ([.ok none, .ok none, .ok none, .ok none, .ok (some 0)], [some (7, [4]), none]) := by decide +kernel

/-- Devectors of running programs without and with free space in front of the elements. -/
example : Reached (Devector.cont 2 (env []) T) (Devector.sem (env []) T false) m1 0 (dvIn (env []) T packed 0) ∧
    Devector.Layout (env []) (dvIn (env []) T packed 0) 0 [1, 2, 3] 0 ∧
    Reached (Devector.cont 2 (env []) T) (Devector.sem (env []) T false) m1 0 (dvIn (env []) T front2 0) ∧
    Devector.Layout (env []) (dvIn (env []) T front2 0) 2 [3, 4, 5] 0 ∧
    isUb (Devector.assignMoveSelf (dvIn (env []) T front2 0)) = some .badDealloc :=
  have h1 := dv_reached (env []) T packed 0 (by decide +kernel)
  have h2 := dv_reached (env []) T front2 0 (by decide +kernel)
  ⟨h1, dv_layout h1 (by decide +kernel), h2, dv_layout h2 (by decide +kernel), by decide +kernel⟩

/-- small_flat_set<int, 2>. -/
example : selfRun (Flat.smallCont false asc (env []) T ib3 2) (Flat.smallSem false asc (env []) T)
    (fun i => SmallVector.assignMoveSelf (env []) (ib3 i) 2) m3
    [.make 0 7 (.range [3, 1, 2]), .op 0 .selfMove, .op 0 (.op (.insert (.value 4))), .make 1 7 (.range [9, 8]), .op 1 .selfMove,
     .op 1 (.op .clear), .op 1 (.op (.insert (.value 8)))] =
    some ([.ok none, .ok none, .ok (some (.ins 0 true)), .ok none, .ok none, .ok (some .unit), .ok (some (.ins 0 true))],
      [some (7, [4]), some (7, [8]), none]) := by decide +kernel

/-- static_unordered_flat_set<int, 2>. -/
example : selfRun (Unord.staticCont false false ueq (env []) ib3 2) (Unord.staticSem false ueq (env []) 2)
    (fun _ => StaticVector.assignMoveSelf (env []) 2) m3
    [.make 0 7 (.range [3, 1]), .op 0 .selfMove, .op 0 (.op .clear), .op 0 (.op (.insert (.value 8)))] =
    some ([.ok none, .ok none, .ok (some .unit), .ok (some (.ins 0 true))], [some (7, [8]), none, none]) := by decide +kernel

/-- The memory of the programs. -/
example : Objects (env [8]) ib3 2 m3 ∧ m1.Wf := ⟨objects3 _ (by decide), m1_wf⟩

end Demo
end Sfl
