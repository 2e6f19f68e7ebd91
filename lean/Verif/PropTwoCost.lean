import Verif.CostTwo3
import Verif.CostTwo5
import Verif.PropAccess
import Verif.PropDevCost
/-
  C50: what constructing, copying, moving, assigning and exchanging whole containers costs. A program makes containers, works on them
  and then executes one more step that is not a modifier of a single container. The step costs no more than `WOp.price` says: copying
  is linear in the number of elements copied; moving between equal allocators takes over the storage and costs nothing for the elements
  (except those in internal storage); exchanging containers costs nothing for elements outside internal storage; destruction is free.
  Constructions and assignments of elements and allocations count 1 each, whether or not they throw.
-/

namespace Sfl
open World Sq
variable {α : Type}

/-- What is common to the theorems below: the invariant holds after a program. -/
theorem World.Priced.after {K : Nat} {Op I V ρ : Type} {R : Rep K V α} {C : Cont K Op I V α ρ} {S : Sem Op I α ρ} {m0 : St α} {P : Price}
    {len : I → Nat} (hP : Priced C S R P) (hS : Spec C S R) (h0 : Inv R m0 ⟨fun _ => none, m0⟩ (fun _ => none) R.dead)
    {ops : List (WOp K Op I)} {log : List (Out (Option ρ))} {s s' : Slots K V α} {x : WOp K Op I} {r : Out (Option ρ)}
    (hx : World.runOps C S ops ⟨fun _ => none, m0⟩ = .ok log s) (hs : World.step C S x s = .ok r s') (hop : ∀ i y, x ≠ .op i y)
    (hM : (∀ i al init, x ≠ .make i al init) ∨ Made C P len) {size alloc : Fin K → Nat} (hsee : Seen C s size alloc) :
    s'.m.tick ≤ s.m.tick + x.price P len S.takes size alloc := by
  obtain ⟨A, F, k, -⟩ := wp_ok hx (hS.runOps ops h0)
  exact hP.step hS k hs hop hM hsee

/-- **C50** for vector: a copy, a constructor or an assignment of `n` elements costs at most `n + 1` operations (7 n + 1 for a
constructor from input iterators), a move between equal allocators, or an assignment that takes the allocator along, costs nothing,
nor does swap. -/
theorem vector_whole_cost {K : Nat} {E : Env α} {T : Traits} {m0 : St α} (hw : m0.Wf) {ops : List (WOp K (Sq.Op α) (Sq.Init α))}
    {log : List (Out (Option Nat))} {s s' : Slots K Vec α} {x : WOp K (Sq.Op α) (Sq.Init α)} {r : Out (Option Nat)}
    (hx : World.runOps (Vector.cont K E T) (Vector.sem E T) ops ⟨fun _ => none, m0⟩ = .ok log s)
    (hs : World.step (Vector.cont K E T) (Vector.sem E T) x s = .ok r s') (hop : ∀ i y, x ≠ .op i y)
    {size alloc : Fin K → Nat} (hsee : Seen (Vector.cont K E T) s size alloc) :
    s'.m.tick ≤ s.m.tick + x.price ⟨1, 1, fun _ => 0, fun _ _ => 0⟩ (fun init => init.work (7 * ·) E.dflt) T.pocma size alloc :=
  Vector.priced.after Vector.spec (Vector.spec (T := T).start hw (fun _ => ⟨Or.inl ⟨rfl, rfl⟩, hw.dead 0 hw.blk_zero⟩)
    (fun _ _ _ _ h => absurd (h.2.elim id id) h.1)) hx hs hop (.inr Vector.made) hsee

/-- **C50** for small_vector: as vector, but elements in internal storage are moved one by one; swap moves the elements in internal
storage across and exchanges them where both containers use it (three operations for a pair). -/
theorem smallVector_whole_cost {K : Nat} {E : Env α} {T : Traits} {N : Nat} {ib : Fin K → Nat} {m0 : St α} (hm : Objects E ib N m0)
    {ops : List (WOp K (Sq.Op α) (Sq.Init α))}
    {log : List (Out (Option Nat))} {s s' : Slots K Vec α} {x : WOp K (Sq.Op α) (Sq.Init α)} {r : Out (Option Nat)}
    (hx : World.runOps (SmallVector.cont E T ib N) (SmallVector.sem E T) ops ⟨fun _ => none, m0⟩ = .ok log s)
    (hs : World.step (SmallVector.cont E T ib N) (SmallVector.sem E T) x s = .ok r s') (hop : ∀ i y, x ≠ .op i y)
    {size alloc : Fin K → Nat} (hsee : Seen (SmallVector.cont E T ib N) s size alloc) :
    s'.m.tick ≤ s.m.tick + x.price ⟨1, 1, fun n => min n N, fun n k => min n N + min k N + min (min n k) N⟩
      (fun init => init.work (7 * ·) E.dflt) T.pocma size alloc :=
  (SmallVector.pricedOf rfl).after (SmallVector.spec hm.fits) (hm.start (SmallVector.spec (T := T) hm.fits)) hx hs hop
    (.inr SmallVector.made) hsee

/-- **C50** for compact_vector, whose constructor from input iterators is quadratic (`compactVector_input_quadratic`). -/
theorem compactVector_whole_cost {K : Nat} {E : Env α} {T : Traits} {quiet : Bool} (hq : quiet = true → ∀ t, E.throws t = false)
    {m0 : St α} (hw : m0.Wf) {ops : List (WOp K (Sq.Op α) (Sq.Init α))}
    {log : List (Out (Option Nat))} {s s' : Slots K Vec α} {x : WOp K (Sq.Op α) (Sq.Init α)} {r : Out (Option Nat)}
    (hx : World.runOps (CompactVector.cont K E T) (CompactVector.sem E T quiet) ops ⟨fun _ => none, m0⟩ = .ok log s)
    (hs : World.step (CompactVector.cont K E T) (CompactVector.sem E T quiet) x s = .ok r s') (hop : ∀ i y, x ≠ .op i y)
    {size alloc : Fin K → Nat} (hsee : Seen (CompactVector.cont K E T) s size alloc) :
    s'.m.tick ≤ s.m.tick + x.price ⟨1, 1, fun _ => 0, fun _ _ => 0⟩ (fun init => init.work (fun n => n * (n + 3) / 2) E.dflt) T.pocma
      size alloc :=
  (CompactVector.priced rfl).after (CompactVector.spec hq) (CompactVector.start hw hq) hx hs hop (.inr CompactVector.made) hsee

/-- **C50** for devector: as vector, up to two operations for each element that is copied. -/
theorem devector_whole_cost {K : Nat} {E : Env α} {T : Traits} {quiet : Bool} (hq : quiet = true → ∀ t, E.throws t = false)
    {m0 : St α} (hw : m0.Wf) {ops : List (WOp K (Dq.Op α) (Sq.Init α))}
    {log : List (Out (Option Nat))} {s s' : Slots K DVec α} {x : WOp K (Dq.Op α) (Sq.Init α)} {r : Out (Option Nat)}
    (hx : World.runOps (Devector.cont K E T) (Devector.sem E T quiet) ops ⟨fun _ => none, m0⟩ = .ok log s)
    (hs : World.step (Devector.cont K E T) (Devector.sem E T quiet) x s = .ok r s') (hop : ∀ i y, x ≠ .op i y)
    {size alloc : Fin K → Nat} (hsee : Seen (Devector.cont K E T) s size alloc) :
    s'.m.tick ≤ s.m.tick + x.price ⟨2, 1, fun _ => 0, fun _ _ => 0⟩ (fun init => init.work (5 * ·) E.dflt) T.pocma size alloc :=
  (Devector.priced rfl).after (Devector.spec hq) (Devector.start hw hq) hx hs hop (.inr Devector.made) hsee

/-- **C50** for static_vector: there is no storage to take over, and nothing is allocated. -/
theorem staticVector_whole_cost {K : Nat} {E : Env α} {N : Nat} {ib : Fin K → Nat} {m0 : St α} (hm : Objects E ib N m0)
    {ops : List (WOp K (Sq.Op α) (Sq.Init α))}
    {log : List (Out (Option Nat))} {s s' : Slots K Vec α} {x : WOp K (Sq.Op α) (Sq.Init α)} {r : Out (Option Nat)}
    (hx : World.runOps (StaticVector.cont E ib N) (StaticVector.sem E N) ops ⟨fun _ => none, m0⟩ = .ok log s)
    (hs : World.step (StaticVector.cont E ib N) (StaticVector.sem E N) x s = .ok r s') (hop : ∀ i y, x ≠ .op i y)
    {size alloc : Fin K → Nat} (hsee : Seen (StaticVector.cont E ib N) s size alloc) :
    s'.m.tick ≤ s.m.tick + x.price ⟨1, 0, fun n => n, fun n k => n + k + min n k⟩ (fun init => (init.result E.dflt).length)
      (StaticVector.sem E N).takes size alloc :=
  StaticVector.pricedOf.after (StaticVector.spec hm.fits) ((StaticVector.spec (E := E) hm.fits).start hm.wf hm.static.1 hm.static.2)
    hx hs hop (.inr StaticVector.made) hsee

/-- **C50** for segmented_vector: up to two operations for each element (its segment may have to be allocated), a table and storage for
a temporary; taking over storage costs the two allocations of the storage left behind; move assignment between unequal allocators moves
the elements even if the allocator is taken along. -/
theorem segmentedVector_whole_cost {K : Nat} {E : Env α} {N : Nat} (hN : 0 < N) {T : Traits} {ra : Sq.Op α → Bool}
    {rai : Sq.Init α → Bool} {m0 : St α} (hw : m0.Wf) {ops : List (WOp K (Sq.Op α) (Sq.Init α))}
    {log : List (Out (Option Nat))} {s s' : Slots K SVec α} {x : WOp K (Sq.Op α) (Sq.Init α)} {r : Out (Option Nat)}
    (hx : World.runOps (SegVec.cont K E N T ra rai) (SegVec.sem E T) ops ⟨fun _ => none, m0⟩ = .ok log s)
    (hs : World.step (SegVec.cont K E N T ra rai) (SegVec.sem E T) x s = .ok r s') (hop : ∀ i y, x ≠ .op i y)
    {size alloc : Fin K → Nat} (hsee : Seen (SegVec.cont K E N T ra rai) s size alloc) :
    s'.m.tick ≤ s.m.tick + x.price ⟨2, 4, fun _ => 2, fun _ _ => 0⟩ (fun init => init.work (2 * ·) E.dflt) false size alloc :=
  (SegVec.priced rfl).after (SegVec.spec hN) (SegVec.start hw) hx hs hop (.inr SegVec.made) hsee

/-- **C50** for segmented_devector. -/
theorem segmentedDevector_whole_cost {K : Nat} {E : Env α} {N : Nat} (hN : 0 < N) {T : Traits} {ra : Dq.Op α → Bool}
    {rai : Sq.Init α → Bool} {m0 : St α} (hw : m0.Wf) {ops : List (WOp K (Dq.Op α) (Sq.Init α))}
    {log : List (Out (Option Nat))} {s s' : Slots K SDVec α} {x : WOp K (Dq.Op α) (Sq.Init α)} {r : Out (Option Nat)}
    (hx : World.runOps (SegDev.cont K E N T ra rai) (SegDev.sem E T) ops ⟨fun _ => none, m0⟩ = .ok log s)
    (hs : World.step (SegDev.cont K E N T ra rai) (SegDev.sem E T) x s = .ok r s') (hop : ∀ i y, x ≠ .op i y)
    {size alloc : Fin K → Nat} (hsee : Seen (SegDev.cont K E N T ra rai) s size alloc) :
    s'.m.tick ≤ s.m.tick + x.price ⟨2, 4, fun _ => 2, fun _ _ => 0⟩ (fun init => init.work (2 * ·) E.dflt) false size alloc :=
  (SegDev.priced rfl).after (SegDev.spec hN) (SegDev.start hw) hx hs hop (.inr SegDev.made) hsee

/-! ### Moving a small_vector with another allocator -/

namespace SmallVector
variable {E : Env α} {N n r t ibo : Nat} {v w : Vec}

theorem initWith_least {as : List (Arg α)} :
    vcost (initWith E N as) (fun _ _ t' => t + as.length ≤ t') (fun _ _ => True) v t := by
  unfold initWith Vector.checkSize
  refine .bind (.ite (fun _ => .throw trivial) fun _ => .pure (.bind (.getObj (.ite (fun h => ?_) fun h => ?_))))
  · vcost <;> first | omega | (intros; trivial)
  · vcost <;> first | omega | (intros; trivial)

theorem initMove_least (hw : Dim w n r) (hi : w.first = ⟨ibo, 0⟩ → n ≤ N) (ha : v.alloc ≠ w.alloc) :
    vcost (initMove E N ibo) (fun _ _ t' => t + n ≤ t') (fun _ _ => True) (v, w) t := by
  have h3 := hw.last
  unfold initMove
  refine .bind (.getObj (.ite (fun hf => ?_) fun hf => .ite (fun ha' => absurd ha' ha) fun _ => ?_))
  · have := hi hf
    vcost <;> (try dsimp only at *) <;> first | omega | (intros; trivial)
  · refine .bind (.distance fun _ _ => .onThis (initWith_least.mono (fun _ _ _ h => ?_) fun _ _ h => trivial))
    rw [args_length] at h
    dsimp only at h
    have e : w.last.off - w.first.off = n := by omega
    rw [e] at h
    exact h

end SmallVector

/-- **C50, the documentation is wrong.** Move construction of a small_vector is documented as "linear in `N` in the worst case"
(small_vector.md:276). With another allocator than that of the source it moves all elements, however small `N` is
(small_vector.hpp:1798-1818). -/
theorem smallVector_move_linear {K : Nat} {E : Env α} {T : Traits} {N : Nat} {ib : Fin K → Nat} {m0 : St α} (hm : Objects E ib N m0)
    {ops : List (WOp K (Sq.Op α) (Sq.Init α))} {log : List (Out (Option Nat))} {s s' : Slots K Vec α} {i j : Fin K} {al : Nat}
    (hx : World.runOps (SmallVector.cont E T ib N) (SmallVector.sem E T) ops ⟨fun _ => none, m0⟩ = .ok log s)
    (hs : World.step (SmallVector.cont E T ib N) (SmallVector.sem E T) (.makeMove i j (some al)) s = .ok (.ok none) s')
    {size alloc : Fin K → Nat} (hsee : Seen (SmallVector.cont E T ib N) s size alloc) (hal : al ≠ alloc j) :
    s.m.tick + size j ≤ s'.m.tick := by
  obtain ⟨A, F, k, -⟩ := wp_ok hx ((SmallVector.spec (T := T) hm.fits).runOps ops (hm.start (SmallVector.spec (T := T) hm.fits)))
  unfold World.step at hs
  dsimp only at hs
  split at hs
  · rename_i w hi hj
    obtain ⟨al2, xs, -, hr⟩ := k.liveAt hj
    obtain ⟨e1, o1, e2⟩ := hsee j w hj
    obtain ⟨f1, ⟨r, hd⟩, f3⟩ := SmallVector.rep_internal hr
    have hz : size j = xs.length := by
      have h1 := hd.last
      have h2 := hd.blk1
      have h3 : (distance w.first w.last : M (Obj Vec α) Nat) ⟨w, s.m⟩ = .ok (size j) o1 := e2
      unfold distance at h3
      split at h3
      · injection h3 with h3 _; omega
      · cases h3
    rw [hz]
    unfold create2 at hs
    split at hs
    · rename_i o2 h2
      cases hs
      have ha : (SmallVector.empty (ib i) N al).alloc ≠ w.alloc := by
        rw [show w.alloc = alloc j from e1]; exact hal
      have h4 := SmallVector.initMove_least (E := E) (v := SmallVector.empty (ib i) N al) hd f3 ha ⟨_, s.m⟩ rfl rfl
      rw [show SmallVector.initMove E N (ib j) ⟨(SmallVector.empty (ib i) N al, w), s.m⟩ = _ from h2] at h4
      exact h4
    · cases hs
    · cases hs
  · cases hs

/-! ### Flat containers: copies, moves, assignments, swap and destruction -/

/-- **C50** for the small ordered flat containers: no element is compared, and the prices are those of small_vector. -/
theorem smallFlat_whole_cost {κ : Type} {K : Nat} {multi : Bool} {C : Order α κ} (L : C.Lawful) {E : Env α} {T : Traits} {N : Nat}
    {ib : Fin K → Nat} {m0 : St α} (hm : Objects E ib N m0) {ops : List (WOp K (Flat.Op α κ) (Flat.Init α))}
    {log : List (Out (Option Flat.Ret))} {s s' : Slots K Vec α} {x : WOp K (Flat.Op α κ) (Flat.Init α)} {r : Out (Option Flat.Ret)}
    (hx : World.runOps (Flat.smallCont multi C E T ib N) (Flat.smallSem multi C E T) ops ⟨fun _ => none, m0⟩ = .ok log s)
    (hs : World.step (Flat.smallCont multi C E T ib N) (Flat.smallSem multi C E T) x s = .ok r s')
    (hop : ∀ i y, x ≠ .op i y) (hmk : ∀ i al init, x ≠ .make i al init)
    {size alloc : Fin K → Nat} (hsee : Seen (Flat.smallCont multi C E T ib N) s size alloc) :
    s'.m.tick ≤ s.m.tick + x.price ⟨1, 1, fun n => min n N, fun n k => min n N + min k N + min (min n k) N⟩ (fun _ => 0) T.pocma
      size alloc :=
  (SmallVector.pricedOf (S := Flat.smallSem multi C E T) rfl).after (Flat.smallSpec L hm.fits)
    (hm.start (Flat.smallSpec (multi := multi) (T := T) L hm.fits)) hx hs hop (.inl hmk) hsee

/-- **C50** for the static ordered flat containers. -/
theorem staticFlat_whole_cost {κ : Type} {K : Nat} {multi : Bool} {C : Order α κ} (L : C.Lawful) {E : Env α} {N : Nat}
    {ib : Fin K → Nat} {m0 : St α} (hm : Objects E ib N m0) {ops : List (WOp K (Flat.Op α κ) (Flat.Init α))}
    {log : List (Out (Option Flat.Ret))} {s s' : Slots K Vec α} {x : WOp K (Flat.Op α κ) (Flat.Init α)} {r : Out (Option Flat.Ret)}
    (hx : World.runOps (Flat.staticCont multi C E ib N) (Flat.staticSem multi C E N) ops ⟨fun _ => none, m0⟩ = .ok log s)
    (hs : World.step (Flat.staticCont multi C E ib N) (Flat.staticSem multi C E N) x s = .ok r s')
    (hop : ∀ i y, x ≠ .op i y) (hmk : ∀ i al init, x ≠ .make i al init)
    {size alloc : Fin K → Nat} (hsee : Seen (Flat.staticCont multi C E ib N) s size alloc) :
    s'.m.tick ≤ s.m.tick + x.price ⟨1, 0, fun n => n, fun n k => n + k + min n k⟩ (fun _ => 0)
      (Flat.staticSem multi C E N).takes size alloc :=
  StaticVector.pricedOf.after (Flat.staticSpec L hm.fits)
    ((Flat.staticSpec (multi := multi) (E := E) L hm.fits).start hm.wf hm.static.1 hm.static.2) hx hs hop (.inl hmk) hsee

/-- **C50** for the small unordered flat containers. -/
theorem smallUnord_whole_cost {κ : Type} {K : Nat} {multi isMap : Bool} {U : KeyEq α κ} (L : U.Lawful) {E : Env α} {T : Traits} {N : Nat}
    {ib : Fin K → Nat} {m0 : St α} (hm : Objects E ib N m0) {ops : List (WOp K (Unord.Op α κ) (Flat.Init α))}
    {log : List (Out (Option Flat.Ret))} {s s' : Slots K Vec α} {x : WOp K (Unord.Op α κ) (Flat.Init α)} {r : Out (Option Flat.Ret)}
    (hx : World.runOps (Unord.smallCont multi isMap U E T ib N) (Unord.smallSem multi isMap U E T) ops ⟨fun _ => none, m0⟩ = .ok log s)
    (hs : World.step (Unord.smallCont multi isMap U E T ib N) (Unord.smallSem multi isMap U E T) x s = .ok r s')
    (hop : ∀ i y, x ≠ .op i y) (hmk : ∀ i al init, x ≠ .make i al init)
    {size alloc : Fin K → Nat} (hsee : Seen (Unord.smallCont multi isMap U E T ib N) s size alloc) :
    s'.m.tick ≤ s.m.tick + x.price ⟨1, 1, fun n => min n N, fun n k => min n N + min k N + min (min n k) N⟩ (fun _ => 0) T.pocma
      size alloc :=
  (SmallVector.pricedOf (S := Unord.smallSem multi isMap U E T) rfl).after (Unord.smallSpec L hm.fits)
    (hm.start (Unord.smallSpec (multi := multi) (isMap := isMap) (T := T) L hm.fits)) hx hs hop (.inl hmk) hsee

/-- **C50** for the static unordered flat containers. -/
theorem staticUnord_whole_cost {κ : Type} {K : Nat} {multi isMap : Bool} {U : KeyEq α κ} (L : U.Lawful) {E : Env α} {N : Nat}
    {ib : Fin K → Nat} {m0 : St α} (hm : Objects E ib N m0) {ops : List (WOp K (Unord.Op α κ) (Flat.Init α))}
    {log : List (Out (Option Flat.Ret))} {s s' : Slots K Vec α} {x : WOp K (Unord.Op α κ) (Flat.Init α)} {r : Out (Option Flat.Ret)}
    (hx : World.runOps (Unord.staticCont multi isMap U E ib N) (Unord.staticSem multi U E N) ops ⟨fun _ => none, m0⟩ = .ok log s)
    (hs : World.step (Unord.staticCont multi isMap U E ib N) (Unord.staticSem multi U E N) x s = .ok r s')
    (hop : ∀ i y, x ≠ .op i y) (hmk : ∀ i al init, x ≠ .make i al init)
    {size alloc : Fin K → Nat} (hsee : Seen (Unord.staticCont multi isMap U E ib N) s size alloc) :
    s'.m.tick ≤ s.m.tick + x.price ⟨1, 0, fun n => n, fun n k => n + k + min n k⟩ (fun _ => 0)
      (Unord.staticSem multi U E N).takes size alloc :=
  StaticVector.pricedOf.after (Unord.staticSpec L hm.fits)
    ((Unord.staticSpec (multi := multi) (isMap := isMap) (E := E) L hm.fits).start hm.wf hm.static.1 hm.static.2) hx hs hop (.inl hmk) hsee

/-! ### Examples -/

namespace Demo

section
variable {K : Nat} {Op I V ρ : Type} (C : Cont K Op I V Nat ρ) (S : Sem Op I Nat ρ) (ops : List (WOp K Op I)) (m0 : St Nat) (x : WOp K Op I)
  (size alloc : Fin K → Nat) (k : Nat)

/-- The sizes and allocators after the program are as given, and the last step costs `k`. -/
def costs : Bool :=
  match World.runOps C S ops ⟨fun _ => none, m0⟩ with
  | .ok _ s => match World.step C S x s with
    | .ok _ s' => (List.finRange K).all (fun i => match s.obj i with
        | none => true
        | some v => C.alloc v == alloc i && (match C.size ⟨v, s.m⟩ with
          | .ok n _ => n == size i
          | _ => false)) && s'.m.tick == s.m.tick + k
    | _ => false
  | _ => false

variable {C S ops m0 x size alloc k}

/-- The hypotheses of the theorems hold, and the cost is `k`. -/
theorem costs_of (h : costs C S ops m0 x size alloc k = true) :
    ∃ log s r s', World.runOps C S ops ⟨fun _ => none, m0⟩ = .ok log s ∧ World.step C S x s = .ok r s' ∧ Seen C s size alloc ∧
      s'.m.tick = s.m.tick + k := by
  unfold costs at h
  split at h
  · rename_i log s h1
    split at h
    · rename_i r s' h2
      rw [Bool.and_eq_true, List.all_eq_true, beq_iff_eq] at h
      refine ⟨log, s, r, s', h1, h2, fun i v hv => ?_, h.2⟩
      have h3 := h.1 i (List.mem_finRange i)
      rw [hv] at h3
      simp only [Bool.and_eq_true, beq_iff_eq] at h3
      refine ⟨h3.1, ?_⟩
      have h4 := h3.2
      split at h4
      · rename_i n o1 e
        rw [beq_iff_eq] at h4
        exact ⟨o1, by rw [e, h4]⟩
      · cases h4
    · cases h
  · cases h

end

/-- Sizes or allocators: `a` for container 0, `b` for container 1. -/
def two (a b : Nat) : Fin 3 → Nat := fun i => if i = 0 then a else b

/-- `vector_whole_cost`: of five elements, a copy costs 6; moving, with the allocator of the source or by assignment between different
allocators (propagated), costs nothing; move construction with another allocator costs 6. -/
example : ∀ p ∈ [(WOp.makeCopy 2 0 none, 6), (.makeMove 2 0 none, 0), (.assignMove 1 0, 0), (.makeMove 2 0 (some 8), 6)],
    costs (Vector.cont 3 (env []) T) (Vector.sem (env []) T) [.make 0 7 (.range [1, 2, 3, 4, 5]), .make 1 8 (.range [6, 7])] m1 p.1
      (two 5 2) (two 7 8) p.2 = true ∧
    (p.1.price (Op := Sq.Op Nat) ⟨1, 1, fun _ => 0, fun _ _ => 0⟩ (fun init => init.work (7 * ·) (env []).dflt) T.pocma (two 5 2) (two 7 8)
      = p.2) := by decide +kernel

/-- `smallVector_whole_cost`: two elements in internal storage are moved; swapping them with one costs 4 (the bound is 4), swapping
five on the heap with two costs 2. -/
example : costs (SmallVector.cont (env []) T ib3 2) (SmallVector.sem (env []) T) [.make 0 7 (.range [1, 2]), .make 1 7 (.range [6])] m3
      (.makeMove 2 0 none) (two 2 1) (two 7 7) 2 = true ∧
    costs (SmallVector.cont (env []) T ib3 2) (SmallVector.sem (env []) T) [.make 0 7 (.range [1, 2]), .make 1 7 (.range [6])] m3
      (.swap 0 1) (two 2 1) (two 7 7) 4 = true ∧
    costs (SmallVector.cont (env []) T ib3 2) (SmallVector.sem (env []) T) [.make 0 7 (.range [1, 2, 3, 4, 5]), .make 1 7 (.range [6, 7])] m3
      (.swap 0 1) (two 5 2) (two 7 7) 2 = true := by decide +kernel

example : Objects (env []) ib3 2 m3 := objects3 _ (by decide)

/-- `smallVector_move_linear`: five elements are moved, although N = 2. -/
example : ∃ log s s', World.runOps (SmallVector.cont (env []) T ib3 2) (SmallVector.sem (env []) T)
      [.make 0 7 (.range [1, 2, 3, 4, 5])] ⟨fun _ => none, m3⟩ = .ok log s ∧
    World.step (SmallVector.cont (env []) T ib3 2) (SmallVector.sem (env []) T) (.makeMove 2 0 (some 8)) s = .ok (.ok none) s' ∧
    Seen (SmallVector.cont (env []) T ib3 2) s (two 5 0) (two 7 0) ∧ s'.m.tick = s.m.tick + 5 + 1 := by
  obtain ⟨log, s, r, s', h1, h2, h3, h4⟩ := costs_of (C := SmallVector.cont (env []) T ib3 2) (S := SmallVector.sem (env []) T)
    (ops := [.make 0 7 (.range [1, 2, 3, 4, 5])]) (m0 := m3) (x := .makeMove 2 0 (some 8)) (size := two 5 0) (alloc := two 7 0) (k := 6)
    (by decide +kernel)
  refine ⟨log, s, s', h1, ?_, h3, h4⟩
  rw [h2]
  have : (match World.runOps (SmallVector.cont (env []) T ib3 2) (SmallVector.sem (env []) T) [.make 0 7 (.range [1, 2, 3, 4, 5])]
      ⟨fun _ => none, m3⟩ with
    | .ok _ s => match World.step (SmallVector.cont (env []) T ib3 2) (SmallVector.sem (env []) T) (.makeMove 2 0 (some 8)) s with
      | .ok r _ => decide (r = .ok none)
      | _ => false
    | _ => false) = true := by decide +kernel
  rw [h1] at this
  dsimp only at this
  rw [h2] at this
  rw [of_decide_eq_true this]

/-- `compactVector_whole_cost`. -/
example : costs (CompactVector.cont 3 (env []) T) (CompactVector.sem (env []) T true)
      [.make 0 7 (.range [1, 2, 3, 4, 5]), .make 1 8 (.range [6, 7])] m1 (.assignCopy 1 0) (two 5 2) (two 7 8) 6 = true ∧
    costs (CompactVector.cont 3 (env []) T) (CompactVector.sem (env []) T true)
      [.make 0 7 (.range [1, 2, 3, 4, 5]), .make 1 8 (.range [6, 7])] m1 (.make 2 7 (.input [1, 2, 3])) (two 5 2) (two 7 8) 9 = true := by
  decide +kernel

example : true = true → ∀ t, (env []).throws t = false := fun _ _ => rfl

/-- `devector_whole_cost`: copy assignment of five elements over two costs 8. -/
example : costs (Devector.cont 3 (env []) T) (Devector.sem (env []) T false)
      [.make 0 7 (.range [1, 2, 3, 4, 5]), .make 1 8 (.range [6, 7])] m1 (.assignCopy 1 0) (two 5 2) (two 7 8) 8 = true ∧
    costs (Devector.cont 3 (env []) T) (Devector.sem (env []) T false)
      [.make 0 7 (.range [1, 2, 3, 4, 5]), .make 1 8 (.range [6, 7])] m1 (.assignMove 1 0) (two 5 2) (two 7 8) 0 = true := by
  decide +kernel

/-- `staticVector_whole_cost`: swapping two elements with one costs 4. -/
example : costs (StaticVector.cont (env []) ib3 2) (StaticVector.sem (env []) 2) [.make 0 7 (.range [1, 2]), .make 1 7 (.range [6])] m3
      (.swap 0 1) (two 2 1) (two 7 7) 4 = true := by decide +kernel

/-- `segmentedVector_whole_cost`: a copy of five elements in segments of two allocates a table and three segments; a move allocates a
table and a segment; move assignment between different allocators moves the elements. -/
example : ∀ p ∈ [(WOp.makeCopy 2 0 none, 9), (.makeMove 2 0 none, 2), (.assignCopy 1 0, 7), (.assignMove 1 0, 10)],
    costs (SegVec.cont 3 (env []) 2 T (fun _ => true) (fun _ => true)) (SegVec.sem (env []) T)
      [.make 0 7 (.range [1, 2, 3, 4, 5]), .make 1 8 (.range [6, 7])] m1 p.1 (two 5 2) (two 7 8) p.2 = true := by decide +kernel

/-- `segmentedDevector_whole_cost`. -/
example : ∀ p ∈ [(WOp.makeCopy 2 0 none, 9), (.makeMove 2 0 none, 2), (.assignCopy 1 0, 7), (.assignMove 1 0, 10)],
    costs (SegDev.cont 3 (env []) 2 T (fun _ => true) (fun _ => true)) (SegDev.sem (env []) T)
      [.make 0 7 (.range [1, 2, 3, 4, 5]), .make 1 8 (.range [6, 7])] m1 p.1 (two 5 2) (two 7 8) p.2 = true := by decide +kernel

/-- `smallFlat_whole_cost` and `smallUnord_whole_cost`: of three elements on the heap, a copy costs 4, a move nothing, and swapping them
with one element in internal storage costs 1. -/
example : ∀ p ∈ [(WOp.makeCopy 2 0 none, 4), (.makeMove 2 0 none, 0), (.assignCopy 1 0, 4), (.swap 0 1, 1)],
    costs (Flat.smallCont false asc (env []) T ib3 2) (Flat.smallSem false asc (env []) T)
      [.make 0 7 (.range [3, 1, 2]), .make 1 7 (.range [6])] m3 p.1 (two 3 1) (two 7 7) p.2 = true := by decide +kernel

example : ∀ p ∈ [(WOp.makeCopy 2 0 none, 4), (.makeMove 2 0 none, 0), (.assignCopy 1 0, 4), (.swap 0 1, 1)],
    costs (Unord.smallCont false false ueq (env []) T ib3 2) (Unord.smallSem false false ueq (env []) T)
      [.make 0 7 (.range [3, 1, 2]), .make 1 7 (.range [6])] m3 p.1 (two 3 1) (two 7 7) p.2 = true := by decide +kernel

/-- `staticFlat_whole_cost` and `staticUnord_whole_cost`. -/
example : ∀ p ∈ [(WOp.makeCopy 2 0 none, 2), (.makeMove 2 0 none, 2), (.assignCopy 1 0, 2), (.swap 0 1, 4)],
    costs (Flat.staticCont false asc (env []) ib3 2) (Flat.staticSem false asc (env []) 2)
      [.make 0 7 (.range [3, 1]), .make 1 7 (.range [6])] m3 p.1 (two 2 1) (two 7 7) p.2 = true := by decide +kernel

example : ∀ p ∈ [(WOp.makeCopy 2 0 none, 2), (.makeMove 2 0 none, 2), (.assignCopy 1 0, 2), (.swap 0 1, 4)],
    costs (Unord.staticCont false false ueq (env []) ib3 2) (Unord.staticSem false ueq (env []) 2)
      [.make 0 7 (.range [3, 1]), .make 1 7 (.range [6])] m3 p.1 (two 2 1) (two 7 7) p.2 = true := by decide +kernel

end Demo

end Sfl
