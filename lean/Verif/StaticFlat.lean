import Verif.StaticWorld
import Verif.FlatWorld
/-
  The static ordered flat containers: static_flat_set, static_flat_map, static_flat_multiset, static_flat_multimap.
-/

namespace Sfl.Flat
open Sfl.Vector (VM)
open World
variable {α κ : Type}

/-- The public modifiers of the static containers: those of the small containers (with `SFL_ASSERT(!full())` and
without reallocation, `Flat.static`), except `operator=(initializer_list)`, which is `assign_range`
(static_flat_set.hpp:252-256, static_flat_map.hpp:306-310, static_flat_multiset.hpp:252-256,
static_flat_multimap.hpp:306-310). reserve and shrink_to_fit do not exist. -/
def staticExec (multi : Bool) (C : Order α κ) (E : Env α) (N : Nat) : Op α κ → VM α Ret
  | .assignList vs => do
    StaticVector.assignRange E N (vs.map .val)
    pure .unit
  | op => exec (static multi E) C E (fun _ => pure ()) (pure ()) op

/-- A static flat container as a client sees it (static_flat_set.hpp:214-218 destructor). -/
def staticImpl (multi : Bool) (C : Order α κ) (E : Env α) (N : Nat) : Sq.Impl (Op α κ) Vec α Ret where
  size := Vector.size
  index := Vector.index
  exec := staticExec multi C E N
  destroy := StaticVector.destructor

/-- The loop of the range constructor: `emplace(*first)` (static_flat_set.hpp:151-155, 171-175). -/
def emplaceRange (multi : Bool) (C : Order α κ) (E : Env α) : List α → VM α Unit
  | [] => pure ()
  | v :: vs => do
    (static multi E).guard
    let tmp ← lift (mkTmp E (.val v))
    let _ ← insertAux (static multi E) C E (.rv tmp)
    emplaceRange multi C E vs

/-- The constructors without a source container (static_flat_set.hpp:136-190, static_flat_map.hpp:190-242,
static_flat_multiset.hpp:136-190, static_flat_multimap.hpp:190-244): on exception the elements are destroyed. -/
def staticConstruct (multi : Bool) (C : Order α κ) (E : Env α) : Init α → VM α Unit
  | .empty => pure ()
  | .range vs => M.tryCatch (emplaceRange multi C E vs) (fun e => do
      StaticVector.destructor
      M.throw e)

/-- The operations that exist, under their preconditions: there must be room for the new elements, even if they turn
out to be present already. -/
def staticPre (multi : Bool) (N : Nat) (n : Nat) (op : Op α κ) : Bool :=
  op.pre multi n && decide (op.room n ≤ N) && !op.storage

/-- A modifier that returns: `operator=(initializer_list)` leaves the list as it is. -/
def staticOk (C : Order α κ) (multi : Bool) (N : Nat) (xs : List α) (op : Op α κ) (r : Option Ret) (ys : List α) : Prop :=
  ys.length ≤ N ∧ match op with
    | .assignList vs => r = some .unit ∧ ys = vs
    | op => okStep C multi xs op r ys

/-- A modifier that throws: never because of memory or length. -/
def staticFail (C : Order α κ) (multi : Bool) (E : Env α) (N : Nat) (xs : List α) (op : Op α κ) (e : Exn) (ys : List α) :
    Prop :=
  ys.length ≤ N ∧ e ≠ .badAlloc ∧ e ≠ .lengthError ∧ match op with
    | .assignList _ => True
    | op => failStep C multi E xs op e ys

/-- Abstract meaning of the static ordered flat containers. -/
def staticSem (multi : Bool) (C : Order α κ) (E : Env α) (N : Nat) : Sem (Op α κ) (Init α) α Ret :=
  StaticVector.semOf E N (staticPre multi N) (staticOk C multi N) (staticFail C multi E N) (fun i => decide (i.count ≤ N))
    (Init.Result C multi) (fun _ e => e ≠ .badAlloc ∧ e ≠ .lengthError)

/-- The static ordered flat containers as a container type (public functions of static_flat_set.hpp:136-618 and the
other three headers). -/
def staticCont {K : Nat} (multi : Bool) (C : Order α κ) (E : Env α) (ib : Fin K → Nat) (N : Nat) :
    Cont K (Op α κ) (Init α) Vec α Ret :=
  StaticVector.contOf E ib N (fun _ init => staticConstruct multi C E init) (fun _ op => do
    let r ← staticExec multi C E N op
    pure (some r))

section
variable {K : Nat} {E : Env α} {C : Order α κ} {multi : Bool} {N : Nat} {H : Heap α} {ib al : Nat} {o : Obj Vec α}
  {xs : List α}

theorem emplaceRange_spec (L : C.Lawful) (vs : List α) : ∀ {o : Obj Vec α} {xs : List α}, VSt H E ib N o al ib N xs →
    xs.length + vs.length ≤ N →
    wp (emplaceRange multi C E vs)
      (fun _ o' => ∃ ys, VSt H E ib N o' al ib N ys ∧ o'.m.next = o.m.next ∧
        (C.Sorted multi xs → C.Sorted multi ys ∧ ys.Perm (merge C multi xs vs)))
      (fun e o' => ∃ ys, VSt H E ib N o' al ib N ys ∧ o'.m.next = o.m.next ∧ e ≠ .badAlloc ∧ e ≠ .lengthError) o := by
  induction vs with
  | nil =>
    intro o xs h _
    exact ⟨xs, h, rfl, fun hs => ⟨hs, .refl _⟩⟩
  | cons v vs ih =>
    intro o xs h hr
    simp only [List.length_cons] at hr
    have hN := h.nLe
    have hr1 : Room true xs N 1 := fun _ => by omega
    unfold emplaceRange
    rw [wp_bind]
    refine (static_ok multi E ib N).guard h hr1 ?_
    rw [wp_bind, wp_lift]
    refine mkTmp_copy (v := v) rfl rfl ?_ ?_
    · intro s1 hs1 _ hm1
      have l1 : Looked o ⟨o.obj, s1⟩ := .ofSame hs1 hm1
      rw [wp_bind]
      refine wp_mono (insertAux_spec (a := .rv v) (v := v) L (static_ok multi E ib N) (h.looked l1) rfl rfl hr1 (by simp [loc])) ?_ ?_
      · rintro r o1 ⟨b1, cap1, i, ys, hd, hi⟩
        have hd := hd.since (o := o) l1.q.next
        have h2 := hd.le
        obtain ⟨rfl, rfl⟩ := hd.done.keep (by omega)
        refine wp_mono (ih hd.done.v (by omega)) ?_ ?_
        · rintro _ o2 ⟨zs, g1, g2, g3⟩
          refine ⟨zs, g1, g2.trans ((hd.done.op hd.le).inside rfl rfl (by omega)).2.2, fun hs => ?_⟩
          obtain ⟨g4, g5⟩ := g3 ((hi hs).sorted hs)
          exact ⟨g4, g5.trans ((hi hs).perm vs)⟩
        · rintro e o2 ⟨zs, g1, g2, g3⟩
          exact ⟨zs, g1, g2.trans ((hd.done.op hd.le).inside rfl rfl (by omega)).2.2, g3⟩
      · rintro e o1 ⟨xs', hf⟩
        have hf := hf.since (o := o) l1.q.next
        obtain ⟨-, -, g3, g4⟩ := hf.kept.op.inside rfl rfl (by omega)
        exact ⟨xs', hf.kept.v, g3, g4, fun he => by have := hf.lenErr he; omega⟩
    · intro s1 hs1 hm1
      have hf := OneFail.quiet (safe := True) h (.ofSame hs1 hm1)
      exact ⟨xs, hf.kept.v, (hf.kept.op.inside rfl rfl (by omega)).2.2.1, by simp, by simp⟩

theorem staticConstruct_spec {m : St α} (L : C.Lawful) (init : Init α) (hg : Gone H al ib N m) (hN : N ≤ E.maxSize)
    (hr : init.count ≤ N) :
    wp (staticConstruct multi C E init)
      (fun _ o' => ∃ xs, VSt H E ib N o' al ib N xs ∧ init.Result C multi xs)
      (fun e o' => Gone H al ib N o'.m ∧ e ≠ .badAlloc ∧ e ≠ .lengthError)
      ⟨SmallVector.empty ib N al, m⟩ := by
  have hv := VSt.mkEmpty (E := E) hg.st hg.raw hN
  cases init with
  | empty => exact ⟨[], hv, rfl⟩
  | range vs =>
    unfold staticConstruct
    rw [wp_tryCatch]
    refine wp_mono (emplaceRange_spec L vs hv (by simpa [Init.count] using hr)) ?_ ?_
    · rintro _ o1 ⟨ys, hd, -, hs⟩
      exact ⟨ys, hd, hs List.Pairwise.nil⟩
    · rintro e o1 ⟨ys, hd, -, he⟩
      rw [wp_bind]
      refine wp_mono (StaticVector.destructor_spec hd) ?_ (fun _ _ h => h.elim)
      rintro _ o2 ⟨g, -⟩
      rw [wp_throw]
      exact ⟨g, he⟩

theorem staticExec_spec (L : C.Lawful) (op : Op α κ) (h : VSt H E ib N o al ib N xs)
    (hp : staticPre multi N xs.length op = true) :
    wp (staticExec multi C E N op)
      (fun r o' => ∃ ys, VSt H E ib N o' al ib N ys ∧ o'.m.next = o.m.next ∧ staticOk C multi N xs op (some r) ys)
      (fun e o' => ∃ ys, VSt H E ib N o' al ib N ys ∧ o'.m.next = o.m.next ∧ staticFail C multi E N xs op e ys) o := by
  have hN := h.nLe
  unfold staticPre at hp
  simp only [Bool.and_eq_true, decide_eq_true_eq, Bool.not_eq_true'] at hp
  obtain ⟨⟨hp1, hp2⟩, hp3⟩ := hp
  by_cases ha : ∃ vs, op = .assignList vs
  · obtain ⟨vs, rfl⟩ := ha
    have hl : vs.length ≤ N := by simp [Op.room] at hp2; omega
    unfold staticExec
    rw [wp_bind]
    refine wp_eq (StaticVector.assignRange_eq h (by simpa using hl)) (wp_mono (assignRange_spec h (Exts.vals vs)) ?_ ?_)
    · rintro _ o' ⟨b', cap', k, hk, hn⟩
      obtain ⟨rfl, rfl⟩ := hk hl
      exact ⟨vs, k, hn (by omega), hl, rfl, rfl⟩
    · rintro e o' ⟨b', cap', xs', k, hk, hn, he⟩
      obtain ⟨rfl, rfl⟩ := hk hl
      exact ⟨xs', k, (hn (by omega)).1, k.len, (hn (by omega)).2, fun h => by have := (he h).1; omega, trivial⟩
  · have e : staticExec multi C E N op o = exec (static multi E) C E (SmallVector.reserve E ib N) (SmallVector.shrinkToFit E ib N) op o := by
      cases op <;> first | rfl | (exact absurd ⟨_, rfl⟩ ha) | (cases hp3)
    refine wp_eq e (wp_mono (exec_spec L (static_ok multi E ib N) op h hp1 (fun _ => hp2)) ?_ ?_)
    · rintro r o1 ⟨b1, cap1, ys, hd, hr⟩
      obtain ⟨rfl, rfl, hn⟩ := hd.inside rfl rfl hp2
      refine ⟨ys, hd.v, hn, hd.v.len, ?_⟩
      have : okStep C multi xs op (some r) ys := ⟨r, rfl, hr⟩
      cases op <;> first | exact this | exact absurd ⟨_, rfl⟩ ha
    · rintro e o1 ⟨b1, cap1, ys, hd, hr, -⟩
      obtain ⟨rfl, rfl, hn, he⟩ := hd.inside rfl rfl hp2
      refine ⟨ys, hd.v, hn, hd.v.len, he, fun h => by have := hr.fail.len h; omega, ?_⟩
      have := hr.fail
      cases op <;> first | exact this | exact absurd ⟨_, rfl⟩ ha

/-- The static ordered flat containers satisfy the requirements. -/
theorem staticSpec {ib : Fin K → Nat} (L : C.Lawful) (hN : N ≤ E.maxSize) :
    Spec (staticCont multi C E ib N) (staticSem multi C E N) (StaticVector.rep E ib N) :=
  StaticVector.specOf hN
    (fun _ i _ _ init hg hp => staticConstruct_spec (ib := ib i) L init hg hN (by simpa using hp))
    (fun _ i _ _ _ op h hp => by
      rw [wp_bind]
      refine wp_mono (staticExec_spec (ib := ib i) L op h hp) ?_ ?_
      · rintro r o1 ⟨ys, hv, -, hr⟩
        exact ⟨ys, hv, hr⟩
      · rintro e o1 ⟨ys, hv, -, hr⟩
        exact ⟨ys, hv, hr⟩)

end

open Classical in
/-- What a client knows about order: after `operator=(initializer_list)` the container is in order iff the list is. -/
noncomputable def staticFlags (C : Order α κ) (multi nm : Bool) : Flags (Op α κ) where
  ok := fun op d => match op with
    | .assignList vs => !decide (C.Sorted multi vs)
    | op => d && !op.renews
  fail := fun op d => match op with
    | .assignList _ => true
    | op => d || !(nm && op.safe multi)

theorem staticKeeps {C : Order α κ} {multi nm : Bool} {E : Env α} {N : Nat} (L : C.Lawful)
    (hn : nm = true → NothrowMove E) : Keeps (staticSem multi C E N) (C.Sorted multi) (staticFlags C multi nm) where
  init := fun _ _ h => h.sorted
  ok := by
    intro xs op r ys d hp h hx hd
    have hp' : op.pre multi xs.length = true := by
      have : staticPre multi N xs.length op = true := hp
      unfold staticPre at this
      simp only [Bool.and_eq_true] at this
      exact this.1.1
    obtain ⟨-, h⟩ : staticOk C multi N xs op r ys := h
    by_cases ha : ∃ vs, op = .assignList vs
    · obtain ⟨vs, rfl⟩ := ha
      obtain ⟨-, rfl⟩ := h
      simpa [staticFlags] using hd
    · have h : okStep C multi xs op r ys := by
        cases op <;> first | exact h | exact absurd ⟨_, rfl⟩ ha
      have hd : (d && !op.renews) = false := by
        cases op <;> first | exact hd | exact absurd ⟨_, rfl⟩ ha
      refine h.sorted L hp' ?_
      rw [Bool.and_eq_false_iff] at hd
      rcases hd with hd | hd
      · exact Or.inl (hx hd)
      · exact Or.inr (by simpa using hd)
  fail := by
    intro xs op e ys d hp h hx hd
    obtain ⟨-, -, -, h⟩ : staticFail C multi E N xs op e ys := h
    by_cases ha : ∃ vs, op = .assignList vs
    · obtain ⟨vs, rfl⟩ := ha
      cases hd
    · have h : failStep C multi E xs op e ys := by
        cases op <;> first | exact h | exact absurd ⟨_, rfl⟩ ha
      have hd : (d || !(nm && op.safe multi)) = false := by
        cases op <;> first | exact hd | exact absurd ⟨_, rfl⟩ ha
      simp only [Bool.or_eq_false_iff, Bool.not_eq_false', Bool.and_eq_true] at hd
      exact h.order (hn hd.2.1) hd.2.2 (hx hd.1)

end Sfl.Flat
