import Verif.Keyed
import Verif.PropFlat
import Verif.PropStatic
import Verif.PropUnord
import Verif.PropUnord2
/-
  C51: flat containers whose comparators (key equalities) differ from object to object. `ord : P → Order α κ` interprets
  the comparator objects, all of which are strict weak orders (`eqv : P → KeyEq α κ`, equivalences). `mv p` is what
  moving from a comparator leaves.
-/

namespace Sfl
open World Flat
variable {α κ P : Type} {K : Nat}

/-! ### Programs -/

/-- **C51** (small ordered containers). Any program with small flat containers that have comparators of their own
(constructors, copies, moves, assignments, swaps, modifiers in any order, everything possibly throwing, followed by
reading and destroying all containers) has no undefined behaviour, does what the specification on lists and comparators
says (`Keyed.Run`), restores memory, and every container that has not been marked (moved from, or an operation without
a promise has thrown) is in order under its own comparator. What is missing for the full claim is an assignment that
throws: `smallFlat_comparator_throw`. -/
theorem smallFlat_comparator_session_partial [Nonempty P] (multi : Bool) (ord : P → Order α κ) (L : ∀ p, (ord p).Lawful)
    (mv : P → P) (E : Env α) (T : Traits) (N : Nat) (ib : Fin K → Nat) (m0 : St α) (hm : Objects E ib N m0) (c : Fin K → P)
    (ops : List (WOp K (Flat.Op α κ) (P × Flat.Init α))) :
    ∃ log A c' o', Keyed.session (fun p => Flat.smallCont multi (ord p) E T ib N) (fun p => Flat.smallSem multi (ord p) E T)
        mv c ops ⟨fun _ => none, m0⟩ = .ok (log, (List.finRange K).map A, c') o' ∧
      Keyed.Run (fun p => Flat.smallSem multi (ord p) E T) mv c (fun _ => none) ops log c' A ∧
      (∀ i al xs, A i = some (al, xs) →
        Keyed.trackAll (fun _ => Flat.smallFlags multi E.nothrowMoves) mv c (fun _ => false) ops log i = false →
        (ord (c' i)).Sorted multi xs) ∧
      o'.m.mem = m0.mem ∧ o'.m.blk = m0.blk := by
  have hS := fun p => Flat.smallSpec (multi := multi) (E := E) (T := T) (ib := ib) (L p) hm.fits
  obtain ⟨log, A, c', o', h1, h2, h3⟩ := Keyed.session_spec (mv := mv) (c := c) hS
    (hm.start (hS (Classical.choice inferInstance))) (fun i => ⟨(hm.raw i).blk, (hm.raw i).raw⟩) ops
  refine ⟨log, A, c', o', h1, h2, ?_, h3⟩
  refine Keyed.InOrder.run (G := fun p => (ord p).Sorted multi) (fun p => Flat.smallKeeps (L p) (fun h => ?_)) ?_ h2
  · simpa [Env.nothrowMoves, NothrowMove] using h
  · intro i al xs hi; cases hi

/-- **C51** (small ordered containers). As long as operations complete normally and nothing is moved from, all flat
containers of a program are in order under their own comparators. -/
theorem smallFlat_comparator_sorted [Nonempty P] (multi : Bool) (ord : P → Order α κ) (L : ∀ p, (ord p).Lawful)
    (mv : P → P) (E : Env α) (T : Traits) (N : Nat) (ib : Fin K → Nat) (m0 : St α) (hm : Objects E ib N m0) (c : Fin K → P)
    (ops : List (WOp K (Flat.Op α κ) (P × Flat.Init α)))
    {log : List (Sq.Out (Option Flat.Ret))} {c' : Fin K → P} {s : Slots K Vec α} {i : Fin K} {v : Vec}
    (hx : Keyed.runOps (fun p => Flat.smallCont multi (ord p) E T ib N) (fun p => Flat.smallSem multi (ord p) E T)
        mv c ops ⟨fun _ => none, m0⟩ = .ok (log, c') s) (hv : s.obj i = some v)
    (hn : ∀ op ∈ ops, op.moves = false) (ht : ∀ out ∈ log, ∀ e, out ≠ .threw e) :
    ∃ xs, (Flat.smallImpl multi (ord (c' i)) E (ib i) N).contents ⟨v, s.m⟩ = .ok xs ⟨v, s.m⟩ ∧
      (ord (c' i)).Sorted multi xs := by
  have hS := fun p => Flat.smallSpec (multi := multi) (E := E) (T := T) (ib := ib) (L p) hm.fits
  obtain ⟨hw, al, xs, F, ⟨b, cap, k, -⟩, hg⟩ := Keyed.runOps_at hS
    (Fl := fun _ => Flat.smallFlags multi E.nothrowMoves) (G := fun p => (ord p).Sorted multi)
    (fun p => Flat.smallKeeps (L p) (fun h => by simpa [Env.nothrowMoves, NothrowMove] using h))
    (hm.start (hS (Classical.choice inferInstance))) hx hv
  refine ⟨xs, (k.vst hw (Rest.out _ _)).flatContents, hg ?_⟩
  rw [Keyed.trackAll_none ops log c (fun _ _ _ _ => rfl) hn ht]

/-- **C51, C29.** In a running program, lookup in a container that is not marked is exact with respect to its own
comparator. -/
theorem smallFlat_comparator_lookup [Nonempty P] (multi : Bool) (ord : P → Order α κ) (L : ∀ p, (ord p).Lawful)
    (mv : P → P) (E : Env α) (T : Traits) (N : Nat) (ib : Fin K → Nat) (m0 : St α) (hm : Objects E ib N m0) (c : Fin K → P)
    (ops : List (WOp K (Flat.Op α κ) (P × Flat.Init α)))
    {log : List (Sq.Out (Option Flat.Ret))} {c' : Fin K → P} {s : Slots K Vec α} {i : Fin K} {v : Vec}
    (hx : Keyed.runOps (fun p => Flat.smallCont multi (ord p) E T ib N) (fun p => Flat.smallSem multi (ord p) E T)
        mv c ops ⟨fun _ => none, m0⟩ = .ok (log, c') s) (hv : s.obj i = some v)
    (ht : Keyed.trackAll (fun _ => Flat.smallFlags multi E.nothrowMoves) mv c (fun _ => false) ops log i = false) :
    ∃ xs, (Flat.smallImpl multi (ord (c' i)) E (ib i) N).contents ⟨v, s.m⟩ = .ok xs ⟨v, s.m⟩ ∧
      ∀ (k : κ) (q : Flat.Query), LooksUp multi (ord (c' i)) E ((ord (c' i)).probe k) q xs ⟨v, s.m⟩ := by
  have hS := fun p => Flat.smallSpec (multi := multi) (E := E) (T := T) (ib := ib) (L p) hm.fits
  obtain ⟨hw, al, xs, F, ⟨b, cap, k, -⟩, hg⟩ := Keyed.runOps_at hS
    (Fl := fun _ => Flat.smallFlags multi E.nothrowMoves) (G := fun p => (ord p).Sorted multi)
    (fun p => Flat.smallKeeps (L p) (fun h => by simpa [Env.nothrowMoves, NothrowMove] using h))
    (hm.start (hS (Classical.choice inferInstance))) hx hv
  have hvst := k.vst hw (Rest.out _ _)
  refine ⟨xs, hvst.flatContents, fun k q => looksUp hvst ((L _).fits (hg ht) k) q fun hm _ => ?_⟩
  subst hm
  exact countP_own (L _) (hg ht) k

/-- **C51** (static ordered containers), as `smallFlat_comparator_session_partial`. Also marked are the containers to
which an initializer list has been assigned (C35). -/
theorem staticFlat_comparator_session_partial [Nonempty P] (multi : Bool) (ord : P → Order α κ) (L : ∀ p, (ord p).Lawful)
    (mv : P → P) (E : Env α) (N : Nat) (ib : Fin K → Nat) (m0 : St α) (hm : Objects E ib N m0) (c : Fin K → P)
    (ops : List (WOp K (Flat.Op α κ) (P × Flat.Init α))) :
    ∃ log A c' o', Keyed.session (fun p => Flat.staticCont multi (ord p) E ib N) (fun p => Flat.staticSem multi (ord p) E N)
        mv c ops ⟨fun _ => none, m0⟩ = .ok (log, (List.finRange K).map A, c') o' ∧
      Keyed.Run (fun p => Flat.staticSem multi (ord p) E N) mv c (fun _ => none) ops log c' A ∧
      (∀ i al xs, A i = some (al, xs) →
        Keyed.trackAll (fun p => Flat.staticFlags (ord p) multi E.nothrowMoves) mv c (fun _ => false) ops log i = false →
        (ord (c' i)).Sorted multi xs) ∧
      o'.m.mem = m0.mem ∧ o'.m.blk = m0.blk := by
  have hS := fun p => Flat.staticSpec (multi := multi) (E := E) (ib := ib) (L p) hm.fits
  obtain ⟨log, A, c', o', h1, h2, h3⟩ := Keyed.session_spec (mv := mv) (c := c) hS
    ((hS (Classical.choice inferInstance)).start hm.wf hm.static.1 hm.static.2) hm.static.1 ops
  refine ⟨log, A, c', o', h1, h2, ?_, h3⟩
  refine Keyed.InOrder.run (G := fun p => (ord p).Sorted multi) (fun p => Flat.staticKeeps (L p) (fun h => ?_)) ?_ h2
  · simpa [Env.nothrowMoves, NothrowMove] using h
  · intro i al xs hi; cases hi

/-- **C51, C29** for the static ordered containers. -/
theorem staticFlat_comparator_lookup [Nonempty P] (multi : Bool) (ord : P → Order α κ) (L : ∀ p, (ord p).Lawful)
    (mv : P → P) (E : Env α) (N : Nat) (ib : Fin K → Nat) (m0 : St α) (hm : Objects E ib N m0) (c : Fin K → P)
    (ops : List (WOp K (Flat.Op α κ) (P × Flat.Init α)))
    {log : List (Sq.Out (Option Flat.Ret))} {c' : Fin K → P} {s : Slots K Vec α} {i : Fin K} {v : Vec}
    (hx : Keyed.runOps (fun p => Flat.staticCont multi (ord p) E ib N) (fun p => Flat.staticSem multi (ord p) E N)
        mv c ops ⟨fun _ => none, m0⟩ = .ok (log, c') s) (hv : s.obj i = some v)
    (ht : Keyed.trackAll (fun p => Flat.staticFlags (ord p) multi E.nothrowMoves) mv c (fun _ => false) ops log i = false) :
    ∃ xs, (Flat.staticImpl multi (ord (c' i)) E N).contents ⟨v, s.m⟩ = .ok xs ⟨v, s.m⟩ ∧
      ∀ (k : κ) (q : Flat.Query), LooksUp multi (ord (c' i)) E ((ord (c' i)).probe k) q xs ⟨v, s.m⟩ := by
  have hS := fun p => Flat.staticSpec (multi := multi) (E := E) (ib := ib) (L p) hm.fits
  obtain ⟨hw, al, xs, F, ⟨k, -⟩, hg⟩ := Keyed.runOps_at hS
    (Fl := fun p => Flat.staticFlags (ord p) multi E.nothrowMoves) (G := fun p => (ord p).Sorted multi)
    (fun p => Flat.staticKeeps (L p) (fun h => by simpa [Env.nothrowMoves, NothrowMove] using h))
    ((hS (Classical.choice inferInstance)).start hm.wf hm.static.1 hm.static.2) hx hv
  have hvst := k.vst hw (Rest.out _ _)
  refine ⟨xs, hvst.contents _ rfl rfl, fun k q => looksUp hvst ((L _).fits (hg ht) k) q fun hm _ => ?_⟩
  subst hm
  exact countP_own (L _) (hg ht) k

/-- **C51** (small unordered containers), as `smallFlat_comparator_session_partial`: no two elements are equal under the
container's own `key_eq()`. What is missing is an assignment that throws: `smallUnord_comparator_throw`. -/
theorem smallUnord_comparator_session_partial [Nonempty P] (multi isMap : Bool) (eqv : P → KeyEq α κ) (L : ∀ p, (eqv p).Lawful)
    (mv : P → P) (E : Env α) (T : Traits) (N : Nat) (ib : Fin K → Nat) (m0 : St α) (hm : Objects E ib N m0) (c : Fin K → P)
    (ops : List (WOp K (Unord.Op α κ) (P × Flat.Init α))) :
    ∃ log A c' o', Keyed.session (fun p => Unord.smallCont multi isMap (eqv p) E T ib N)
        (fun p => Unord.smallSem multi isMap (eqv p) E T)
        mv c ops ⟨fun _ => none, m0⟩ = .ok (log, (List.finRange K).map A, c') o' ∧
      Keyed.Run (fun p => Unord.smallSem multi isMap (eqv p) E T) mv c (fun _ => none) ops log c' A ∧
      (∀ i al xs, A i = some (al, xs) →
        Keyed.trackAll (fun p => Unord.smallFlags multi isMap E.nothrowMoves (eqv p).nothrow) mv c (fun _ => false) ops log i
          = false → (eqv (c' i)).Distinct multi xs) ∧
      o'.m.mem = m0.mem ∧ o'.m.blk = m0.blk := by
  have hS := fun p => Unord.smallSpec (multi := multi) (isMap := isMap) (E := E) (T := T) (ib := ib) (L p) hm.fits
  obtain ⟨log, A, c', o', h1, h2, h3⟩ := Keyed.session_spec (mv := mv) (c := c) hS
    (hm.start (hS (Classical.choice inferInstance))) (fun i => ⟨(hm.raw i).blk, (hm.raw i).raw⟩) ops
  refine ⟨log, A, c', o', h1, h2, ?_, h3⟩
  refine Keyed.InOrder.run (G := fun p => (eqv p).Distinct multi) (fun p => Unord.smallKeeps (L p) (fun h => ?_)) ?_ h2
  · simpa [Env.nothrowMoves, NothrowMove] using h
  · intro i al xs hi; cases hi

/-- **C51, C33.** In a running program, lookup in a small unordered container that is not marked is exact with respect to
its own key equality. -/
theorem smallUnord_comparator_lookup [Nonempty P] (multi isMap : Bool) (eqv : P → KeyEq α κ) (L : ∀ p, (eqv p).Lawful)
    (mv : P → P) (E : Env α) (T : Traits) (N : Nat) (ib : Fin K → Nat) (m0 : St α) (hm : Objects E ib N m0) (c : Fin K → P)
    (ops : List (WOp K (Unord.Op α κ) (P × Flat.Init α)))
    {log : List (Sq.Out (Option Flat.Ret))} {c' : Fin K → P} {s : Slots K Vec α} {i : Fin K} {v : Vec}
    (hx : Keyed.runOps (fun p => Unord.smallCont multi isMap (eqv p) E T ib N) (fun p => Unord.smallSem multi isMap (eqv p) E T)
        mv c ops ⟨fun _ => none, m0⟩ = .ok (log, c') s) (hv : s.obj i = some v)
    (ht : Keyed.trackAll (fun p => Unord.smallFlags multi isMap E.nothrowMoves (eqv p).nothrow) mv c (fun _ => false) ops log i
      = false) :
    ∃ xs, (Unord.smallImpl multi isMap (eqv (c' i)) E (ib i) N).contents ⟨v, s.m⟩ = .ok xs ⟨v, s.m⟩ ∧
      ∀ (k : κ) (q : Unord.Query), FindsKey multi (eqv (c' i)) E (.pred fun x => (eqv (c' i)).eq ((eqv (c' i)).key x) k)
        (fun x => (eqv (c' i)).eq ((eqv (c' i)).key x) k) q xs ⟨v, s.m⟩ := by
  have hS := fun p => Unord.smallSpec (multi := multi) (isMap := isMap) (E := E) (T := T) (ib := ib) (L p) hm.fits
  obtain ⟨hw, al, xs, F, ⟨b, cap, k, -⟩, hg⟩ := Keyed.runOps_at hS
    (Fl := fun p => Unord.smallFlags multi isMap E.nothrowMoves (eqv p).nothrow) (G := fun p => (eqv p).Distinct multi)
    (fun p => Unord.smallKeeps (L p) (fun h => by simpa [Env.nothrowMoves, NothrowMove] using h))
    (hm.start (hS (Classical.choice inferInstance))) hx hv
  have hvst := k.vst hw (Rest.out _ _)
  refine ⟨xs, hvst.contents _ rfl rfl, fun k q => findsKey (s := .pred _) hvst rfl q fun hm _ => ?_⟩
  subst hm
  exact KeyEq.Distinct.countP_le (L _) (hg ht) k

/-- **C51** (static unordered containers). -/
theorem staticUnord_comparator_session_partial [Nonempty P] (multi isMap : Bool) (eqv : P → KeyEq α κ) (L : ∀ p, (eqv p).Lawful)
    (mv : P → P) (E : Env α) (N : Nat) (ib : Fin K → Nat) (m0 : St α) (hm : Objects E ib N m0) (c : Fin K → P)
    (ops : List (WOp K (Unord.Op α κ) (P × Flat.Init α))) :
    ∃ log A c' o', Keyed.session (fun p => Unord.staticCont multi isMap (eqv p) E ib N)
        (fun p => Unord.staticSem multi (eqv p) E N)
        mv c ops ⟨fun _ => none, m0⟩ = .ok (log, (List.finRange K).map A, c') o' ∧
      Keyed.Run (fun p => Unord.staticSem multi (eqv p) E N) mv c (fun _ => none) ops log c' A ∧
      (∀ i al xs, A i = some (al, xs) →
        Keyed.trackAll (fun p => Unord.staticFlags (eqv p) multi E.nothrowMoves) mv c (fun _ => false) ops log i = false →
        (eqv (c' i)).Distinct multi xs) ∧
      o'.m.mem = m0.mem ∧ o'.m.blk = m0.blk := by
  have hS := fun p => Unord.staticSpec (multi := multi) (isMap := isMap) (E := E) (ib := ib) (L p) hm.fits
  obtain ⟨log, A, c', o', h1, h2, h3⟩ := Keyed.session_spec (mv := mv) (c := c) hS
    ((hS (Classical.choice inferInstance)).start hm.wf hm.static.1 hm.static.2) hm.static.1 ops
  refine ⟨log, A, c', o', h1, h2, ?_, h3⟩
  refine Keyed.InOrder.run (G := fun p => (eqv p).Distinct multi) (fun p => Unord.staticKeeps (L p) (fun h => ?_)) ?_ h2
  · simpa [Env.nothrowMoves, NothrowMove] using h
  · intro i al xs hi; cases hi

/-! ### Concrete programs -/

namespace Demo

/-- Integers in descending order (`std::greater<int>`). -/
def desc : Order Nat Nat := ⟨id, fun a b => decide (b < a), true, fun a _ => a⟩

theorem desc_lawful : desc.Lawful where
  weak := by
    constructor
    · intro a; simp [desc]
    · intro a b c; simp [desc]; omega
    · intro a b c; simp [desc]; omega
  upd := fun _ _ => rfl

/-- A comparator with a state: ascending or descending. -/
def dir (up : Bool) : Order Nat Nat := if up then asc else desc

theorem dir_lawful : ∀ p, (dir p).Lawful
  | true => asc_lawful
  | false => desc_lawful

/-- A key equality with a state: equal, or the same tens. -/
def grain (fine : Bool) : KeyEq Nat Nat := if fine then ueq else utens

theorem grain_lawful : ∀ p, (grain p).Lawful
  | true => ueq_lawful
  | false => utens_lawful

/-- What the clients below do with small_flat_set<int, 2, direction>. -/
abbrev keyedRun (ts : List Nat) (ops : List (WOp 3 (Flat.Op Nat Nat) (Bool × Flat.Init Nat))) :
    Res (Slots 3 Vec Nat) (List (Sq.Out (Option Flat.Ret)) × (Fin 3 → Bool)) :=
  Keyed.runOps (fun p => Flat.smallCont false (dir p) (envCopy ts) T ib3 2)
    (fun p => Flat.smallSem false (dir p) (envCopy ts) T) id (fun _ => true) ops ⟨fun _ => none, m3⟩

/-- A client with small_unordered_flat_set<int, 2, ..., grain>. -/
abbrev keyedRunU (ts : List Nat) (ops : List (WOp 3 (Unord.Op Nat Nat) (Bool × Flat.Init Nat))) :
    Res (Slots 3 Vec Nat) (List (Sq.Out (Option Flat.Ret)) × (Fin 3 → Bool)) :=
  Keyed.runOps (fun p => Unord.smallCont false false (grain p) (envCopy ts) T ib3 2)
    (fun p => Unord.smallSem false false (grain p) (envCopy ts) T) id (fun _ => true) ops ⟨fun _ => none, m3⟩

/-- Log and comparators, if the program has completed. -/
def keyedLog {ρ : Type} (r : Res (Slots 3 Vec Nat) (List (Sq.Out (Option ρ)) × (Fin 3 → Bool))) :
    Option (List (Sq.Out (Option ρ)) × List Bool) := match r with
  | .ok x _ => some (x.1, (List.finRange 3).map x.2)
  | _ => none

theorem keyed_of {ρ : Type} {r : Res (Slots 3 Vec Nat) (List (Sq.Out (Option ρ)) × (Fin 3 → Bool))}
    {log : List (Sq.Out (Option ρ))} {cs : List Bool} (h : keyedLog r = some (log, cs)) {i : Fin 3} (ha : alive r i = true) :
    ∃ c s v, r = .ok (log, c) s ∧ (List.finRange 3).map c = cs ∧ s.obj i = some v ∧ after r i = ⟨v, s.m⟩ := by
  cases r with
  | ok x s =>
    simp only [keyedLog, Option.some.injEq, Prod.mk.injEq] at h
    simp only [alive] at ha
    cases hv : s.obj i with
    | none => rw [hv] at ha; cases ha
    | some v => exact ⟨x.2, s, v, by rw [← h.1], h.2, hv, by simp [after, hv]⟩
  | exn => cases h
  | ub => cases h

/-- Two sets, one ascending, one descending; a copy, an insertion into the copy, a swap. -/
abbrev keyedProg : List (WOp 3 (Flat.Op Nat Nat) (Bool × Flat.Init Nat)) :=
  [.make 0 7 (true, .range [2, 1]), .make 1 7 (false, .range [4, 3, 5]), .makeCopy 2 1 (some 7), .op 2 (.insert (.value 9)),
   .swap 0 1]

/-- A copy assignment between a set of two ascending and one of two descending elements. -/
abbrev keyedAssign : List (WOp 3 (Flat.Op Nat Nat) (Bool × Flat.Init Nat)) :=
  [.make 0 7 (true, .range [2, 1]), .make 1 7 (false, .range [3, 4]), .assignCopy 0 1]

/-- A copy assignment from a set that compares tens to one that compares exactly. -/
abbrev keyedAssignU : List (WOp 3 (Unord.Op Nat Nat) (Bool × Flat.Init Nat)) :=
  [.make 0 7 (true, .range [11, 12]), .make 1 7 (false, .range [20, 30]), .assignCopy 0 1]

end Demo

open Demo in
/-- The program: after the swap the first container is the descending one, all are in order, and nothing is marked. -/
example : keyedLog (keyedRun [] keyedProg) =
      some ([.ok none, .ok none, .ok none, .ok (some (.ins 0 true)), .ok none], [false, true, false]) ∧
    (List.finRange 3).map (fun i => show' ((smallImpl false asc (envCopy []) (ib3 i) 2).contents (after (keyedRun [] keyedProg) i)))
      = [some [5, 4, 3], some [1, 2], some [9, 5, 4, 3]] := by
  decide +kernel

open Demo in
example := smallFlat_comparator_session_partial false dir dir_lawful id (envCopy []) T 2 ib3 m3 (objects3 _ (by decide))
  (fun _ => true) keyedProg

open Demo in
/-- The hypotheses of `smallFlat_comparator_sorted` and `smallFlat_comparator_lookup` hold for this program. -/
example : ∃ c' s v, keyedRun [] keyedProg =
      .ok ([.ok none, .ok none, .ok none, .ok (some (.ins 0 true)), .ok none], c') s ∧ s.obj 0 = some v ∧
    (∃ xs, (smallImpl false (dir (c' 0)) (envCopy []) (ib3 0) 2).contents ⟨v, s.m⟩ = .ok xs ⟨v, s.m⟩ ∧
      (dir (c' 0)).Sorted false xs) := by
  obtain ⟨c, s, v, h, -, hv, -⟩ := keyed_of (r := keyedRun [] keyedProg) (i := 0)
    (log := [.ok none, .ok none, .ok none, .ok (some (.ins 0 true)), .ok none]) (cs := [false, true, false])
    (by decide +kernel) (by decide +kernel)
  refine ⟨c, s, v, h, hv, ?_⟩
  exact smallFlat_comparator_sorted false dir dir_lawful id (envCopy []) T 2 ib3 m3 (objects3 _ (by decide))
    (fun _ => true) keyedProg h hv (by decide) (by simp)

open Demo in
example := staticFlat_comparator_session_partial false dir dir_lawful id (envCopy []) 2 ib3 m3 (objects3 _ (by decide))
  (fun _ => true) keyedAssign

open Demo in
example := smallUnord_comparator_session_partial false false grain grain_lawful id (envCopy []) T 2 ib3 m3
  (objects3 _ (by decide)) (fun _ => true) keyedAssignU

open Demo in
example := staticUnord_comparator_session_partial false false grain grain_lawful id (envCopy []) 2 ib3 m3
  (objects3 _ (by decide)) (fun _ => true) keyedAssignU

open Demo in
/-- The copy, with an element inserted, is searched in descending order. -/
example : ∃ c' s v, keyedRun [] keyedProg =
      .ok ([.ok none, .ok none, .ok none, .ok (some (.ins 0 true)), .ok none], c') s ∧ s.obj 2 = some v ∧
    (∃ xs, (smallImpl false (dir (c' 2)) (envCopy []) (ib3 2) 2).contents ⟨v, s.m⟩ = .ok xs ⟨v, s.m⟩ ∧
      ∀ k q, LooksUp false (dir (c' 2)) (envCopy []) ((dir (c' 2)).probe k) q xs ⟨v, s.m⟩) := by
  obtain ⟨c, s, v, h, -, hv, -⟩ := keyed_of (r := keyedRun [] keyedProg) (i := 2)
    (log := [.ok none, .ok none, .ok none, .ok (some (.ins 0 true)), .ok none]) (cs := [false, true, false])
    (by decide +kernel) (by decide +kernel)
  exact ⟨c, s, v, h, hv, smallFlat_comparator_lookup false dir dir_lawful id (envCopy []) T 2 ib3 m3 (objects3 _ (by decide))
    (fun _ => true) keyedProg h hv (by decide +kernel)⟩

open Demo in
example : ∃ c' s v, keyedRunU [] keyedAssignU = .ok ([.ok none, .ok none, .ok none], c') s ∧ s.obj 0 = some v ∧
    (∃ xs, (Unord.smallImpl false false (grain (c' 0)) (envCopy []) (ib3 0) 2).contents ⟨v, s.m⟩ = .ok xs ⟨v, s.m⟩ ∧
      ∀ k q, FindsKey false (grain (c' 0)) (envCopy []) (.pred fun x => (grain (c' 0)).eq ((grain (c' 0)).key x) k)
        (fun x => (grain (c' 0)).eq ((grain (c' 0)).key x) k) q xs ⟨v, s.m⟩) := by
  obtain ⟨c, s, v, h, -, hv, -⟩ := keyed_of (r := keyedRunU [] keyedAssignU) (i := 0)
    (log := [.ok none, .ok none, .ok none]) (cs := [false, false, true]) (by decide +kernel) (by decide +kernel)
  exact ⟨c, s, v, h, hv, smallUnord_comparator_lookup false false grain grain_lawful id (envCopy []) T 2 ib3 m3
    (objects3 _ (by decide)) (fun _ => true) keyedAssignU h hv (by decide +kernel)⟩

open Demo in
/-- The same with static_flat_set<int, 2, direction>. -/
example : ∃ c' s v, Keyed.runOps (fun p => Flat.staticCont false (dir p) (envCopy []) ib3 2)
      (fun p => Flat.staticSem false (dir p) (envCopy []) 2) id (fun _ => true) keyedAssign ⟨fun _ => none, m3⟩ =
      .ok ([.ok none, .ok none, .ok none], c') s ∧ s.obj 0 = some v ∧
    (∃ xs, (Flat.staticImpl false (dir (c' 0)) (envCopy []) 2).contents ⟨v, s.m⟩ = .ok xs ⟨v, s.m⟩ ∧
      ∀ k q, LooksUp false (dir (c' 0)) (envCopy []) ((dir (c' 0)).probe k) q xs ⟨v, s.m⟩) := by
  obtain ⟨c, s, v, h, -, hv, -⟩ := keyed_of (i := 0) (log := [.ok none, .ok none, .ok none]) (cs := [false, false, true])
    (r := Keyed.runOps (fun p => Flat.staticCont false (dir p) (envCopy []) ib3 2)
      (fun p => Flat.staticSem false (dir p) (envCopy []) 2) id (fun _ => true) keyedAssign ⟨fun _ => none, m3⟩)
    (by decide +kernel) (by decide +kernel)
  exact ⟨c, s, v, h, hv, staticFlat_comparator_lookup false dir dir_lawful id (envCopy []) 2 ib3 m3
    (objects3 _ (by decide)) (fun _ => true) keyedAssign h hv (by decide +kernel)⟩

/-- **C51 fails for exceptions.** Copy assignment takes the comparator of the source before it copies the elements
(small_flat_set.hpp:1527-1529). If copying the first element throws, an ascending set with elements 1, 2 keeps its
elements but is left with the descending comparator: it is not in order, and `find` does not find 1, which is in it. -/
theorem smallFlat_comparator_throw : ∃ (E : Env Nat) (c : Fin 3 → Bool) (s : Slots 3 Vec Nat) (v : Vec) (o : Obj Vec Nat),
    NothrowMove E ∧
    Keyed.runOps (fun p => Flat.smallCont false (Demo.dir p) E Demo.T Demo.ib3 2)
      (fun p => Flat.smallSem false (Demo.dir p) E Demo.T) id (fun _ => true)
      [.make 0 7 (true, .range [2, 1]), .make 1 7 (false, .range [3, 4]), .assignCopy 0 1] ⟨fun _ => none, Demo.m3⟩ =
        .ok ([.ok none, .ok none, .threw .elem], c) s ∧
    s.obj 0 = some v ∧ c 0 = false ∧
    (smallImpl false (Demo.dir (c 0)) E (Demo.ib3 0) 2).contents ⟨v, s.m⟩ = .ok [1, 2] ⟨v, s.m⟩ ∧
    ¬ (Demo.dir (c 0)).Sorted false [1, 2] ∧
    query false (Demo.dir (c 0)) E ((Demo.dir (c 0)).probe 1) .find ⟨v, s.m⟩ = .ok (.pos 2) o := by
  obtain ⟨c, s, v, h, hc, hv, ha⟩ := Demo.keyed_of (r := Demo.keyedRun [10] Demo.keyedAssign) (i := 0)
    (log := [.ok none, .ok none, .threw .elem]) (cs := [false, false, true]) (by decide +kernel) (by decide +kernel)
  have hc0 : c 0 = false := by
    have : (List.finRange 3).map c = [c 0, c 1, c 2] := rfl
    rw [this] at hc
    exact (List.cons.inj hc).1
  have hS := fun p => Flat.smallSpec (multi := false) (E := Demo.envCopy [10]) (T := Demo.T) (ib := Demo.ib3) (N := 2)
    (Demo.dir_lawful p) (Demo.objects3 (Demo.envCopy [10]) (by decide)).fits
  obtain ⟨hw, al, xs, F, ⟨b, cap, k, -⟩, -⟩ := Keyed.runOps_at hS
    (Fl := fun _ => Flat.smallFlags false true) (G := fun p => (Demo.dir p).Sorted false)
    (fun p => Flat.smallKeeps (Demo.dir_lawful p) (fun _ => ⟨rfl, rfl⟩))
    ((Demo.objects3 (Demo.envCopy [10]) (by decide)).start (hS true)) h hv
  have hx := (k.vst hw (Rest.out _ _)).flatContents (multi := false) (C := Demo.desc)
  obtain rfl : xs = [1, 2] := Demo.elems_of hx (by rw [← ha]; decide +kernel)
  obtain ⟨o, ho⟩ := Demo.ok_of (b := Ans.pos 2)
    (r := query false Demo.desc (Demo.envCopy [10]) (Demo.desc.probe 1) .find (Demo.after (Demo.keyedRun [10] Demo.keyedAssign) 0))
    (by decide +kernel)
  rw [ha] at ho
  refine ⟨_, c, s, v, o, ⟨rfl, rfl⟩, h, hv, hc0, ?_, ?_, ?_⟩
  · rw [hc0]; exact hx
  · rw [hc0]; simp [Order.Sorted, Demo.dir, Demo.desc]
  · rw [hc0]; exact ho

/-- **C51 fails for exceptions** in the same way for key equalities (small_unordered_flat_set.hpp:1435-1437): a set with
elements 11, 12 is left with the key equality of the source, under which 11 and 12 are equal. -/
theorem smallUnord_comparator_throw : ∃ (E : Env Nat) (c : Fin 3 → Bool) (s : Slots 3 Vec Nat) (v : Vec),
    NothrowMove E ∧
    Keyed.runOps (fun p => Unord.smallCont false false (Demo.grain p) E Demo.T Demo.ib3 2)
      (fun p => Unord.smallSem false false (Demo.grain p) E Demo.T) id (fun _ => true)
      [.make 0 7 (true, .range [11, 12]), .make 1 7 (false, .range [20, 30]), .assignCopy 0 1] ⟨fun _ => none, Demo.m3⟩ =
        .ok ([.ok none, .ok none, .threw .elem], c) s ∧
    s.obj 0 = some v ∧ c 0 = false ∧
    (Unord.smallImpl false false (Demo.grain (c 0)) E (Demo.ib3 0) 2).contents ⟨v, s.m⟩ = .ok [11, 12] ⟨v, s.m⟩ ∧
    ¬ (Demo.grain (c 0)).Distinct false [11, 12] := by
  obtain ⟨c, s, v, h, hc, hv, ha⟩ := Demo.keyed_of (r := Demo.keyedRunU [6] Demo.keyedAssignU) (i := 0)
    (log := [.ok none, .ok none, .threw .elem]) (cs := [false, false, true]) (by decide +kernel) (by decide +kernel)
  have hc0 : c 0 = false := by
    have : (List.finRange 3).map c = [c 0, c 1, c 2] := rfl
    rw [this] at hc
    exact (List.cons.inj hc).1
  have hS := fun p => Unord.smallSpec (multi := false) (isMap := false) (E := Demo.envCopy [6]) (T := Demo.T)
    (ib := Demo.ib3) (N := 2) (Demo.grain_lawful p) (Demo.objects3 (Demo.envCopy [6]) (by decide)).fits
  obtain ⟨hw, al, xs, F, ⟨b, cap, k, -⟩, -⟩ := Keyed.runOps_at hS
    (Fl := fun p => Unord.smallFlags false false true (Demo.grain p).nothrow) (G := fun p => (Demo.grain p).Distinct false)
    (fun p => Unord.smallKeeps (Demo.grain_lawful p) (fun _ => ⟨rfl, rfl⟩))
    ((Demo.objects3 (Demo.envCopy [6]) (by decide)).start (hS true)) h hv
  have hx := (k.vst hw (Rest.out _ _)).contents (Unord.smallImpl false false Demo.utens (Demo.envCopy [6]) (Demo.ib3 0) 2) rfl rfl
  have hs : Demo.show' ((Unord.smallImpl false false Demo.utens (Demo.envCopy [6]) (Demo.ib3 0) 2).contents
      (Demo.after (Demo.keyedRunU [6] Demo.keyedAssignU) 0)) = some [11, 12] := by decide +kernel
  rw [ha, hx] at hs
  obtain rfl : xs = [11, 12] := by simpa [Demo.show'] using hs
  refine ⟨_, c, s, v, ⟨rfl, rfl⟩, h, hv, hc0, ?_, ?_⟩
  · rw [hc0]; exact hx
  · rw [hc0]; simp [KeyEq.Distinct, KMap.Distinct, Demo.grain, Demo.utens]

end Sfl
