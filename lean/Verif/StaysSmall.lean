import Verif.StaysWorld
import Verif.PropFlatInside
import Verif.PropFlat
/-
  The containers with the storage of small_vector satisfy the requirements of `StaysWorld.lean`.
-/

namespace Sfl
open World Sq
open Sfl.Vector (VM)
variable {α κ : Type} {K : Nat} {E : Env α} {T : Traits} {ib : Fin K → Nat} {N : Nat}

/-- A function of one container whose elements stay in the internal storage. -/
theorem Steady.vst {β : Type} {H : Heap α} {b al : Nat} {p : VM α β} {v : Vec} {m : St α} {xs : List α}
    (hv : VSt H E b N ⟨v, m⟩ al b N xs)
    (h : wp p (fun _ o' => ∃ ys, VSt H E b N o' al b N ys ∧ o'.m.next = m.next)
      (fun e o' => ∃ ys, VSt H E b N o' al b N ys ∧ o'.m.next = m.next ∧ e ≠ .badAlloc) ⟨v, m⟩) :
    Steady m (SmallVector.In b N) (SmallVector.In b N) (p ⟨v, m⟩) := by
  unfold wp at h
  cases hp : p ⟨v, m⟩ with
  | ok r o' =>
    rw [hp] at h
    obtain ⟨ys, h1, h2⟩ := h
    exact ⟨⟨hv.blk_eq h1, h2⟩, by rw [h1.obj], by rw [h1.obj]⟩
  | exn e o' =>
    rw [hp] at h
    obtain ⟨ys, h1, h2, h3⟩ := h
    exact ⟨⟨hv.blk_eq h1, h2⟩, h3, by rw [h1.obj], by rw [h1.obj]⟩
  | ub r => trivial

/-- A constructor whose elements stay in the internal storage. -/
theorem Steady.gone {β : Type} {H : Heap α} {b al : Nat} {p : VM α β} {v : Vec} {m : St α} (hN : N ≤ E.maxSize)
    (hv : VSt H E b N ⟨v, m⟩ al b N [])
    (h : wp p (fun _ o' => ∃ ys, VSt H E b N o' al b N ys ∧ o'.m.next = m.next)
      (fun e o' => Gone H al b N o'.m ∧ o'.m.next = m.next ∧ e ≠ .badAlloc) ⟨v, m⟩) :
    Steady m (SmallVector.In b N) (fun _ => True) (p ⟨v, m⟩) := by
  unfold wp at h
  cases hp : p ⟨v, m⟩ with
  | ok r o' =>
    rw [hp] at h
    obtain ⟨ys, h1, h2⟩ := h
    exact ⟨⟨hv.blk_eq h1, h2⟩, by rw [h1.obj], by rw [h1.obj]⟩
  | exn e o' =>
    rw [hp] at h
    obtain ⟨h1, h2, h3⟩ := h
    have hv' : VSt H E b N ⟨SmallVector.empty b N al, o'.m⟩ al b N [] := VSt.mkEmpty h1.st h1.raw hN
    have hb : o'.m.blk = m.blk := VSt.blk_eq (o' := ⟨SmallVector.empty b N al, o'.m⟩) hv hv'
    exact ⟨⟨hb, h2⟩, h3, trivial⟩
  | ub r => trivial

namespace SmallVector

/-- An owner whose data members point to the internal storage. -/
theorem In.own {i : Fin K} {m : St α} {v : Vec} {al : Nat} {xs : List α} {F : Foot} (hr : (rep E ib N).rep i m v al xs F)
    (h : In (ib i) N v) : Own E (ib i) N m v al (ib i) N xs ∧ v.last.off - v.first.off ≤ N := by
  obtain ⟨b, cap, ho, rfl⟩ := hr
  have e := ho.obj
  obtain ⟨h1, h2⟩ := h
  rw [e] at h1 h2
  simp only [Ptr.mk.injEq, and_true] at h1
  subst h1
  simp only [Ptr.mk.injEq, true_and] at h2
  subst h2
  refine ⟨ho, ?_⟩
  have := ho.len
  rw [e]
  simpa using this

/-- Containers with the storage of small_vector. -/
theorem confinedOf {Op I ρ : Type} {S : Sem Op I α ρ} {make : Fin K → I → VM α Unit} {exec : Fin K → Op → VM α (Option ρ)}
    (hN : N ≤ E.maxSize)
    (hmake : ∀ (H : Heap α) (i : Fin K) (al : Nat) (m : St α) (x : I), S.initPre x = true → Gone H al (ib i) N m →
      wp (make i x) (fun _ o' => ∃ ys, VSt H E (ib i) N o' al (ib i) N ys ∧ o'.m.next = m.next)
        (fun e o' => Gone H al (ib i) N o'.m ∧ o'.m.next = m.next ∧ e ≠ .badAlloc) ⟨SmallVector.empty (ib i) N al, m⟩)
    (hexec : ∀ (H : Heap α) (i : Fin K) (al : Nat) (o : Obj Vec α) (xs : List α) (x : Op),
      VSt H E (ib i) N o al (ib i) N xs → S.pre xs.length x = true →
      wp (exec i x) (fun _ o' => ∃ ys, VSt H E (ib i) N o' al (ib i) N ys ∧ o'.m.next = o.m.next)
        (fun e o' => ∃ ys, VSt H E (ib i) N o' al (ib i) N ys ∧ o'.m.next = o.m.next ∧ e ≠ .badAlloc) o) :
    Confined (contOf E T ib N make exec) S (rep E ib N) (fun i => In (ib i) N) where
  make := by
    intro i m al init hw hr hp
    have hv := (raw_own (al := al) hN hr).vst hw (Rest.out _ _)
    exact Steady.gone hN hv (hmake _ i al m init hp (hv.gone ⟨rfl, rfl⟩))
  copy := by
    intro i j m al w al2 xs F _ _ hr hi
    exact Steady.of ((initCopy_stays (In.own hr hi).2 empty_in).mono (fun _ _ h => h) fun _ _ => trivial) m
  move := by
    intro i j m al w al2 xs F _ _ hr hi
    exact Steady.of (initMove_stays empty_in hi) m
  destroy := by
    intro i m v al xs F _ hr hi
    exact Steady.of (destructor_stays hi) m
  exec := by
    intro i m v al xs F op hw hr hi hp
    have hv := (In.own hr hi).1.vst hw (Rest.out _ _)
    exact Steady.vst hv (hexec _ i al _ xs op hv hp)
  assignCopy := by
    intro i j m v al xs F w al2 xs2 F2 _ hr hr2 hi hi2
    exact Steady.of (assignCopy_stays (In.own hr2 hi2).2 hi) m
  assignMove := by
    intro i j m v al xs F w al2 xs2 F2 _ hr hr2 hi hi2
    exact Steady.of (assignMove_stays (In.own hr2 hi2).2 hi hi2) m
  swap := by
    intro i j m v al xs F w al2 xs2 F2 _ hr hr2 hi hi2
    exact Steady.of (swap_stays hi hi2) m

/-- The constructors of small_vector. -/
theorem construct_inside {H : Heap α} {b al : Nat} {m : St α} (hN : N ≤ E.maxSize) (init : Sq.Init α)
    (hl : (init.result E.dflt).length ≤ N) (hg : Gone H al b N m) :
    wp (construct E b N init) (fun _ o' => ∃ ys, VSt H E b N o' al b N ys ∧ o'.m.next = m.next)
      (fun e o' => Gone H al b N o'.m ∧ o'.m.next = m.next ∧ e ≠ .badAlloc) ⟨SmallVector.empty b N al, m⟩ := by
  have hw : ∀ {as : List (Arg α)} {vs : List α}, Exts H E as vs → vs.length ≤ N →
      wp (initWith E N as) (fun _ o' => ∃ ys, VSt H E b N o' al b N ys ∧ o'.m.next = m.next)
      (fun e o' => Gone H al b N o'.m ∧ o'.m.next = m.next ∧ e ≠ .badAlloc) ⟨SmallVector.empty b N al, m⟩ := by
    intro as vs hx hl
    refine wp_mono (initWith_spec hg hN hx) ?_ ?_
    · rintro _ o' ⟨b', h1, h2⟩
      obtain ⟨h3, rfl⟩ := h2 hl
      rw [show max N vs.length = N by omega] at h1
      exact ⟨vs, h1, h3⟩
    · rintro e o' ⟨h1, h2, -⟩
      exact ⟨h1, h2 hl⟩
  cases init with
  | empty => exact ⟨[], VSt.mkEmpty hg.st hg.raw hN, rfl⟩
  | count n => exact hw (Exts.replicateVal n E.dflt) (by simpa [Sq.Init.result] using hl)
  | fill n v => exact hw (Exts.replicateVal n v) (by simpa [Sq.Init.result] using hl)
  | range ys => exact hw (Exts.vals ys) hl
  | input ys =>
    refine wp_mono (initRangeInput_spec hg hN) ?_ ?_
    · rintro _ o' ⟨b', cap', h1, h2⟩
      obtain ⟨h3, rfl, rfl⟩ := h2 hl
      exact ⟨ys, h1, h3⟩
    · rintro e o' ⟨h1, h2, -⟩
      exact ⟨h1, h2 hl⟩

theorem confined (hN : N ≤ E.maxSize) :
    Confined (cont E T ib N) ((sem E T).limit (fun n op => decide (op.room n ≤ N))
      (fun init => decide ((init.result E.dflt).length ≤ N))) (rep E ib N) (fun i => In (ib i) N) :=
  confinedOf hN
    (fun _ i al m x hp hg => by
      have hp : (true && decide ((x.result E.dflt).length ≤ N)) = true := hp
      exact construct_inside hN x (by simpa using hp) hg)
    (fun _ i al o xs op h hp => by
      have hp : (op.pre xs.length && decide (op.room xs.length ≤ N)) = true := hp
      obtain ⟨hp1, hp2⟩ : op.pre xs.length = true ∧ op.room xs.length ≤ N := by simpa using hp
      refine wp_mono (SmallVector.exec_spec op h hp1) ?_ ?_
      · rintro r o' ⟨b', cap', xs', k1, -⟩
        obtain ⟨rfl, rfl, k3⟩ := k1.inside rfl rfl hp2
        exact ⟨xs', k1.v, k3⟩
      · rintro e o' ⟨b', cap', xs', k1, -⟩
        obtain ⟨rfl, rfl, k3, k4⟩ := k1.inside rfl rfl hp2
        exact ⟨xs', k1.v, k3, k4⟩)

end SmallVector

/-- A constructor of a flat container that inserts one by one. -/
theorem construct_inside {β : Type} {H : Heap α} {b al : Nat} {m : St α} {p : VM α β} {n : Nat} (hl : n ≤ N)
    (h : wp p (fun _ o' => ∃ b' cap' ys, OpDone H E b N al b N ⟨SmallVector.empty b N al, m⟩ o' b' cap' n ys)
      (fun e o' => ∃ b' cap' ys, OpFail H E b N al b N e ⟨SmallVector.empty b N al, m⟩ o' b' cap' n ys)
      ⟨SmallVector.empty b N al, m⟩) :
    wp (M.tryCatch p (fun e => do SmallVector.destructor b; M.throw e))
      (fun _ o' => ∃ ys, VSt H E b N o' al b N ys ∧ o'.m.next = m.next)
      (fun e o' => Gone H al b N o'.m ∧ o'.m.next = m.next ∧ e ≠ .badAlloc) ⟨SmallVector.empty b N al, m⟩ := by
  rw [wp_tryCatch]
  refine wp_mono h ?_ ?_
  · rintro _ o' ⟨b', cap', ys, k1⟩
    obtain ⟨rfl, rfl, k3⟩ := k1.inside rfl rfl hl
    exact ⟨ys, k1.v, k3⟩
  · rintro e o' ⟨b', cap', ys, k1⟩
    obtain ⟨rfl, rfl, k3, k4⟩ := k1.inside rfl rfl hl
    rw [wp_bind]
    refine wp_mono (destructor_gone k1.v) ?_ (fun _ _ h => h.elim)
    rintro _ o2 ⟨g, g1, -⟩
    rw [wp_throw]
    exact ⟨g, g1.trans k3, k4⟩

theorem Flat.small_confined {multi : Bool} {C : Order α κ} (L : C.Lawful) (hN : N ≤ E.maxSize) :
    Confined (Flat.smallCont multi C E T ib N) ((Flat.smallSem multi C E T).limit (fun n op => decide (op.room n ≤ N))
      (fun init => decide (init.count ≤ N))) (SmallVector.rep E ib N) (fun i => SmallVector.In (ib i) N) :=
  SmallVector.confinedOf hN
    (fun H i al m x hp hg => by
      have hp : (true && decide (x.count ≤ N)) = true := hp
      have hl : x.count ≤ N := by simpa using hp
      have hv := VSt.mkEmpty (E := E) hg.st hg.raw hN
      cases x with
      | empty => exact ⟨[], hv, rfl⟩
      | range vs =>
        refine construct_inside (n := vs.length) hl ?_
        refine wp_mono (Flat.insertRange_spec L (Flat.small_ok multi E (ib i) N) vs hv (fun h => by cases h)) ?_ ?_
        · rintro _ o1 ⟨b1, cap1, ys, hd, -, g2, -⟩
          exact ⟨b1, cap1, ys, hd.op (by simpa using g2)⟩
        · rintro e o1 ⟨b1, cap1, xs1, hf, -, -⟩
          exact ⟨b1, cap1, xs1, by simpa using hf⟩)
    (fun _ i al o xs op h hp => by
      have hp : (op.pre multi xs.length && decide (op.room xs.length ≤ N)) = true := hp
      obtain ⟨hp1, hp2⟩ : op.pre multi xs.length = true ∧ op.room xs.length ≤ N := by simpa using hp
      rw [wp_bind]
      refine wp_mono (Flat.exec_spec L (Flat.small_ok multi E (ib i) N) op h hp1 (fun h => by cases h)) ?_ ?_
      · rintro r o' ⟨b', cap', xs', k1, -⟩
        obtain ⟨rfl, rfl, k3⟩ := k1.inside rfl rfl hp2
        exact ⟨xs', k1.v, k3⟩
      · rintro e o' ⟨b', cap', xs', k1, -⟩
        obtain ⟨rfl, rfl, k3, k4⟩ := k1.inside rfl rfl hp2
        exact ⟨xs', k1.v, k3, k4⟩)

theorem Unord.small_confined {multi isMap : Bool} {U : KeyEq α κ} (L : U.Lawful) (hN : N ≤ E.maxSize) :
    Confined (Unord.smallCont multi isMap U E T ib N) ((Unord.smallSem multi isMap U E T).limit
      (fun n op => decide (op.room n ≤ N)) (fun init => decide (init.count ≤ N))) (SmallVector.rep E ib N)
      (fun i => SmallVector.In (ib i) N) :=
  SmallVector.confinedOf hN
    (fun H i al m x hp hg => by
      have hp : (true && decide (x.count ≤ N)) = true := hp
      have hl : x.count ≤ N := by simpa using hp
      have hv := VSt.mkEmpty (E := E) hg.st hg.raw hN
      cases x with
      | empty => exact ⟨[], hv, rfl⟩
      | range vs =>
        refine construct_inside (n := vs.length) hl ?_
        refine wp_mono (Unord.insertRange_spec (U := U) (Unord.small_ok multi isMap E (ib i) N) vs hv (fun h => by cases h)) ?_ ?_
        · rintro _ o1 ⟨b1, cap1, hd⟩
          exact ⟨b1, cap1, _, by simpa using hd⟩
        · rintro e o1 ⟨b1, cap1, xs1, hf, -, -⟩
          exact ⟨b1, cap1, xs1, by simpa using hf⟩)
    (fun _ i al o xs op h hp => by
      have hp : (op.pre multi xs.length && decide (op.room xs.length ≤ N)) = true := hp
      obtain ⟨hp1, hp2⟩ : op.pre multi xs.length = true ∧ op.room xs.length ≤ N := by simpa using hp
      rw [wp_bind]
      refine wp_mono (Unord.exec_spec L (Unord.small_ok multi isMap E (ib i) N) op h hp1 (fun h => by cases h)) ?_ ?_
      · rintro r o' ⟨b', cap', xs', k1, -⟩
        obtain ⟨rfl, rfl, k3⟩ := k1.inside rfl rfl hp2
        exact ⟨xs', k1.v, k3⟩
      · rintro e o' ⟨b', cap', xs', k1, -⟩
        obtain ⟨rfl, rfl, k3, k4⟩ := k1.inside rfl rfl hp2
        exact ⟨xs', k1.v, k3, k4⟩)

end Sfl
