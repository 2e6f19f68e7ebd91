import Verif.PropStrong
import Verif.PropFlatInside
import Verif.PropStatic
import Verif.PropUnord2
import Verif.PropEnds
/-
  Insertion of elements whose keys are present: lemmas.
-/

namespace Sfl
open Sfl.Vector (VM)
variable {α κ : Type} {E : Env α} {H : Heap α} {al ib N b cap : Nat} {o o1 o' : Obj Vec α} {xs : List α}

/-- Nothing has changed but the counter of element operations, and if there was an exception it came from an element
operation or a comparison. -/
def LookedThrew (o : Obj Vec α) (e : Exn) (o' : Obj Vec α) : Prop := e = .elem ∧ Looked o o'

theorem LookedThrew.trans {e : Exn} (l : Looked o o1) (h : LookedThrew o1 e o') : LookedThrew o e o' := ⟨h.1, l.trans h.2⟩

theorem Looked.untouched (l : Looked o o') : Untouched o o' ∧ o'.m.next = o.m.next := ⟨⟨l.obj, l.q.mem, l.q.blk⟩, l.q.next⟩

/-- Both outcomes at once. -/
theorem wp_looked_final {β : Type} {m : VM α β} (h : wp m (fun _ o' => Looked o o') (LookedThrew o) o)
    (hx : (m o).final = some o') : Looked o o' := by
  cases hr : m o with
  | ok r o2 =>
    rw [hr] at hx
    cases hx
    exact wp_ok (Q := fun _ o2 => Looked o o2) hr h
  | exn e o2 =>
    rw [hr] at hx
    cases hx
    exact (wp_exn (X := LookedThrew o) hr h).2
  | ub u =>
    rw [hr] at hx
    cases hx

namespace Flat
variable {C : Order α κ} {K : Kind α} {st : Bool} {v : α} {k : Nat} {a : Arg α}

/-- A key that is present is not missing at any place. -/
theorem here_not_absent {x : α} (L : C.Lawful) (hs : C.Sorted false xs) (hm : x ∈ xs) (he : C.same x v = true) (hk : k ≤ xs.length)
    (hl : (C.probe (C.key v)).Left xs k) (ha : absent (C.probe (C.key v)) xs k = true) : False := by
  have f := L.fits hs (C.key v)
  obtain ⟨e1, e2⟩ : C.lt (C.key x) (C.key v) = false ∧ C.lt (C.key v) (C.key x) = false := by simpa [Order.same] using he
  rw [← List.take_append_drop k xs, List.mem_append] at hm
  rcases hm with hm | hm
  · have : C.lt (C.key x) (C.key v) = true := hl.all f hk hm
    rw [e1] at this; cases this
  · have : C.lt (C.key v) (C.key x) = true := absent_drop f ha hm
    rw [e2] at this; cases this

/-- Some element has the key of `v`. -/
def Here (C : Order α κ) (xs : List α) (v : α) : Prop := ∃ x ∈ xs, C.same x v = true

theorem insertAux_here (L : C.Lawful) (hu : K.multi = false) (h : VSt H E ib N o al b cap xs) (hs : C.Sorted false xs)
    (hv : a.value o.m = some v) (hh : Here C xs v) :
    wp (insertAux K C E a) (fun r o' => Looked o o' ∧ ∃ i, r = (⟨b, i⟩, false)) (LookedThrew o) o := by
  obtain ⟨x, hx, he⟩ := hh
  unfold insertAux
  rw [wp_bind, wp_lift]
  refine wp_argRead hv ?_
  rw [wp_bind]
  refine wp_mono (lowerBound_spec h) ?_ (fun e o' hc => ⟨hc.2.1, hc.2.2⟩)
  rintro _ o1 ⟨k, rfl, l1, cut, -⟩
  rw [wp_ite, if_neg (by simp [hu]), wp_bind]
  refine wp_mono (missing_spec (h.looked l1) cut.le) ?_ (fun e o' hc => ⟨hc.2.1, l1.trans hc.2.2⟩)
  rintro r o2 ⟨l2, hr2, -⟩
  rw [wp_ite]
  by_cases hab : r = true
  · exact (here_not_absent L hs hx he cut.le cut.toLeft (by rw [← hr2]; exact hab)).elim
  · rw [if_neg hab, wp_pure]
    exact ⟨l1.trans l2, k, rfl⟩

theorem hintGood_here (L : C.Lawful) (hu : K.multi = false) (h : VSt H E ib N o al b cap xs) (hs : C.Sorted false xs)
    (hk : k ≤ xs.length) (hh : Here C xs v) :
    wp (hintGood K C E (C.probe (C.key v)) ⟨b, k⟩) (fun r o' => Looked o o' ∧ r = false) (LookedThrew o) o := by
  obtain ⟨x, hx, he⟩ := hh
  unfold hintGood
  rw [if_neg (by simp [hu])]
  refine wp_mono (hintUnique_spec h hk) ?_ (fun e o' hc => ⟨hc.2.1, hc.2.2⟩)
  rintro r o1 ⟨l1, h1⟩
  refine ⟨l1, ?_⟩
  cases r
  · rfl
  · obtain ⟨p1, p2⟩ := h1 rfl
    exact (here_not_absent L hs hx he hk p1 p2).elim

theorem insertAuxHint_here (L : C.Lawful) (hu : K.multi = false) (h : VSt H E ib N o al b cap xs) (hs : C.Sorted false xs)
    (hv : a.value o.m = some v) (hk : k ≤ xs.length) (hh : Here C xs v) :
    wp (insertAuxHint K C E ⟨b, k⟩ a) (fun p o' => Looked o o' ∧ ∃ i, p = ⟨b, i⟩) (LookedThrew o) o := by
  unfold insertAuxHint
  rw [wp_bind, wp_lift]
  refine wp_argRead hv ?_
  rw [wp_bind]
  refine wp_mono (hintGood_here L hu h hs hk hh) ?_ (fun _ _ h => h)
  rintro _ o1 ⟨l1, rfl⟩
  rw [wp_ite, if_neg (by simp), wp_bind]
  refine wp_mono (insertAux_here (a := a) L hu (h.looked l1) hs ((l1.value a).trans hv) hh) ?_ (fun _ _ h => h.trans l1)
  rintro _ o2 ⟨l2, i, rfl⟩
  exact ⟨l1.trans l2, i, rfl⟩

theorem tryEmplaceAux_here (L : C.Lawful) (h : VSt H E ib N o al b cap xs) (hs : C.Sorted false xs) (hh : Here C xs v) :
    wp (tryEmplaceAux K C E v) (fun r o' => Looked o o' ∧ ∃ i, r = (⟨b, i⟩, false)) (LookedThrew o) o := by
  obtain ⟨x, hx, he⟩ := hh
  unfold tryEmplaceAux
  rw [wp_bind]
  refine wp_mono (lowerBound_spec h) ?_ (fun e o' hc => ⟨hc.2.1, hc.2.2⟩)
  rintro _ o1 ⟨k, rfl, l1, cut, -⟩
  rw [wp_bind]
  refine wp_mono (missing_spec (h.looked l1) cut.le) ?_ (fun e o' hc => ⟨hc.2.1, l1.trans hc.2.2⟩)
  rintro r o2 ⟨l2, hr2, -⟩
  rw [wp_ite]
  by_cases hab : r = true
  · exact (here_not_absent L hs hx he cut.le cut.toLeft (by rw [← hr2]; exact hab)).elim
  · rw [if_neg hab, wp_pure]
    exact ⟨l1.trans l2, k, rfl⟩

theorem tryEmplaceAuxHint_here (L : C.Lawful) (hu : K.multi = false) (h : VSt H E ib N o al b cap xs) (hs : C.Sorted false xs)
    (hk : k ≤ xs.length) (hh : Here C xs v) :
    wp (tryEmplaceAuxHint K C E ⟨b, k⟩ v) (fun p o' => Looked o o' ∧ ∃ i, p = ⟨b, i⟩) (LookedThrew o) o := by
  unfold tryEmplaceAuxHint
  rw [wp_bind]
  refine wp_mono (hintGood_here L hu h hs hk hh) ?_ (fun _ _ h => h)
  rintro _ o1 ⟨l1, rfl⟩
  rw [wp_ite, if_neg (by simp), wp_bind]
  refine wp_mono (tryEmplaceAux_here L (h.looked l1) hs hh) ?_ (fun _ _ h => h.trans l1)
  rintro _ o2 ⟨l2, i, rfl⟩
  exact ⟨l1.trans l2, i, rfl⟩

theorem insertRange_here (L : C.Lawful) (hK : K.Ok E ib N st) (hu : K.multi = false) (hs : C.Sorted false xs) (vs : List α) :
    ∀ {o : Obj Vec α}, VSt H E ib N o al b cap xs → Room st xs cap vs.length → (∀ v ∈ vs, Here C xs v) →
    wp (insertRange K C E vs) (fun _ o' => Looked o o') (LookedThrew o) o := by
  induction vs with
  | nil => intro o h _ _; exact .refl o
  | cons v vs ih =>
    intro o h hr hh
    unfold insertRange
    rw [wp_bind]
    refine hK.guard h (fun hst => by have := hr hst; simp at this; omega) ?_
    rw [wp_bind]
    refine wp_mono (insertAux_here (a := .val v) L hu h hs rfl (hh v (by simp))) ?_ (fun _ _ h => h)
    rintro _ o1 ⟨l1, -⟩
    refine wp_mono (ih (h.looked l1) (fun hst => by have := hr hst; simp at this; omega) fun w hw => hh w (by simp [hw])) ?_
      (fun _ _ h => h.trans l1)
    exact fun _ o2 l2 => l1.trans l2

/-- The elements that the operation is to insert into a container holding `xs`. -/
def Op.adds (xs : List α) : Op α κ → Option (List α)
  | .insert s | .insertHint _ s => (s.get? xs).map fun v => [v]
  | .emplace v | .emplaceHint _ v | .tryEmplace v | .tryEmplaceHint _ v => some [v]
  | .insertRange vs => some vs
  | _ => none

theorem exec_here (L : C.Lawful) (hK : K.Ok E ib N st) (hu : K.multi = false) (op : Op α κ) (h : VSt H E ib N o al b cap xs)
    (hs : C.Sorted false xs) (hp : op.pre false xs.length = true) (hst : st = true → op.room xs.length ≤ cap)
    {vs : List α} (hvs : op.adds xs = some vs) (hh : ∀ v ∈ vs, Here C xs v) (reserve : Nat → VM α Unit) (shrink : VM α Unit) :
    wp (exec K C E reserve shrink op) (fun _ o' => Looked o o') (LookedThrew o) o := by
  cases op <;> simp only [Op.adds, reduceCtorEq, Option.some.injEq] at hvs <;> simp only [exec, wp_bind]
  case insert s =>
    have hs' : s.ok xs.length = true := by simpa [Op.pre, Op.uniqueOnly] using hp
    refine wp_argOf' h hs' fun a v hg hv hsrc hmem hrv => hK.guard h hst ?_
    rw [hg] at hvs
    cases hvs
    refine wp_mono (insertAux_here L hu h hs hv (hh v (by simp))) ?_ (fun _ _ h => h)
    rintro _ o1 ⟨l1, i, rfl⟩
    exact wp_insOf (h.looked l1) rfl l1
  case insertHint hn s =>
    obtain ⟨hk, hs'⟩ : hn ≤ xs.length ∧ s.ok xs.length = true := by simpa [Op.pre, Op.uniqueOnly] using hp
    refine wp_argOf' h hs' fun a v hg hv hsrc hmem hrv => wp_nth h (hK.guard h hst ?_)
    rw [hg] at hvs
    cases hvs
    rw [wp_getObj, wp_assert, h.obj]
    refine ⟨⟨rfl, by simp, by simpa using hk⟩, ?_⟩
    refine wp_mono (insertAuxHint_here L hu h hs hv hk (hh v (by simp))) ?_ (fun _ _ h => h)
    rintro _ o1 ⟨l1, i, rfl⟩
    exact wp_posOf (h.looked l1) rfl l1
  case emplace v =>
    subst hvs
    refine hK.guard h hst ?_
    rw [wp_lift]
    refine mkTmp_copy (v := v) rfl rfl ?_ (fun s1 hs1 hm1 => ⟨rfl, .ofSame hs1 hm1⟩)
    intro s1 hs1 _ hm1
    have l0 : Looked o ⟨o.obj, s1⟩ := .ofSame hs1 hm1
    refine wp_mono (insertAux_here (a := .rv v) L hu (h.looked l0) hs rfl (hh v (by simp))) ?_ (fun _ _ h => h.trans l0)
    rintro _ o1 ⟨l1, i, rfl⟩
    exact wp_insOf (h.looked (l0.trans l1)) rfl (l0.trans l1)
  case emplaceHint hn v =>
    subst hvs
    have hk : hn ≤ xs.length := by simpa [Op.pre, Op.uniqueOnly] using hp
    refine wp_nth h (hK.guard h hst ?_)
    rw [wp_getObj, wp_assert, h.obj]
    refine ⟨⟨rfl, by simp, by simpa using hk⟩, ?_⟩
    rw [wp_lift]
    refine mkTmp_copy (v := v) rfl rfl ?_ (fun s1 hs1 hm1 => ⟨rfl, .ofSame hs1 hm1⟩)
    intro s1 hs1 _ hm1
    have l0 : Looked o ⟨o.obj, s1⟩ := .ofSame hs1 hm1
    refine wp_mono (insertAuxHint_here (a := .rv v) L hu (h.looked l0) hs rfl hk (hh v (by simp))) ?_ (fun _ _ h => h.trans l0)
    rintro _ o1 ⟨l1, i, rfl⟩
    exact wp_posOf (h.looked (l0.trans l1)) rfl (l0.trans l1)
  case tryEmplace v =>
    subst hvs
    refine hK.guard h hst ?_
    refine wp_mono (tryEmplaceAux_here L h hs (hh v (by simp))) ?_ (fun _ _ h => h)
    rintro _ o1 ⟨l1, i, rfl⟩
    exact wp_insOf (h.looked l1) rfl l1
  case tryEmplaceHint hn v =>
    subst hvs
    have hk : hn ≤ xs.length := by simpa [Op.pre, Op.uniqueOnly] using hp
    refine wp_nth h (hK.guard h hst ?_)
    rw [wp_getObj, wp_assert, h.obj]
    refine ⟨⟨rfl, by simp, by simpa using hk⟩, ?_⟩
    refine wp_mono (tryEmplaceAuxHint_here L hu h hs hk (hh v (by simp))) ?_ (fun _ _ h => h)
    rintro _ o1 ⟨l1, i, rfl⟩
    exact wp_posOf (h.looked l1) rfl l1
  case insertRange vs' =>
    subst hvs
    refine wp_mono (insertRange_here L hK hu hs vs' h hst hh) ?_ (fun _ _ h => h)
    exact fun _ _ l => l

end Flat

namespace Unord
open Flat (Ret wp_argRead wp_insOf wp_posOf wp_argOf')
variable {U : KeyEq α κ} {K : Kind α} {st : Bool} {v : α} {k : Nat} {a : Arg α}

/-- Some element has the key of `v`. -/
def Here (U : KeyEq α κ) (xs : List α) (v : α) : Prop := ∃ x ∈ xs, U.same x v = true

theorem find_here (h : VSt H E ib N o al b cap xs) (hh : Here U xs v) :
    wp (find U E (.pred (fun e => U.same e v)))
      (fun p o' => Looked o o' ∧ ∃ i < xs.length, p = ⟨b, i⟩) (LookedThrew o) o := by
  obtain ⟨x, hx, he⟩ := hh
  refine wp_mono (find_spec (f := fun e => U.same e v) h rfl) ?_ (fun e o' hc => ⟨hc.2.1, hc.2.2⟩)
  rintro p o2 ⟨k, rfl, l, hk⟩
  refine ⟨l, k, ?_, rfl⟩
  rcases Nat.lt_or_ge k xs.length with h1 | h1
  · exact h1
  · have := hk.none (Nat.le_antisymm hk.le h1) x hx
    rw [he] at this; cases this

theorem insertAux_here (hu : K.multi = false) (h : VSt H E ib N o al b cap xs) (hv : a.value o.m = some v) (hh : Here U xs v) :
    wp (insertAux K U E a) (fun r o' => Looked o o' ∧ ∃ i, r = (⟨b, i⟩, false)) (LookedThrew o) o := by
  unfold insertAux
  rw [if_neg (by simp [hu]), wp_bind, wp_lift]
  refine wp_argRead hv ?_
  rw [wp_bind]
  refine wp_mono (find_here h hh) ?_ (fun _ _ h => h)
  rintro _ o1 ⟨l, i, hi, rfl⟩
  rw [wp_bind, wp_getObj, wp_ite, (h.looked l).obj, if_neg (by simp; omega), wp_pure]
  exact ⟨l, i, rfl⟩

theorem tryEmplaceAux_here (h : VSt H E ib N o al b cap xs) (hh : Here U xs v) :
    wp (tryEmplaceAux K U E v) (fun r o' => Looked o o' ∧ ∃ i, r = (⟨b, i⟩, false)) (LookedThrew o) o := by
  unfold tryEmplaceAux
  rw [wp_bind]
  refine wp_mono (find_here h hh) ?_ (fun _ _ h => h)
  rintro _ o1 ⟨l, i, hi, rfl⟩
  rw [wp_bind, wp_getObj, wp_ite, (h.looked l).obj, if_neg (by simp; omega), wp_pure]
  exact ⟨l, i, rfl⟩

theorem emplace_here (hu : K.multi = false) (ha : K.appends = false) (h : VSt H E ib N o al b cap xs) (hh : Here U xs v) :
    wp (emplace K U E v) (fun r o' => Looked o o' ∧ ∃ i, r = (⟨b, i⟩, false)) (LookedThrew o) o := by
  unfold emplace
  rw [if_neg (by simp [hu]), if_neg (by simp [ha]), wp_bind, wp_lift]
  refine mkTmp_copy (v := v) rfl rfl ?_ (fun s1 hs1 hm1 => ⟨rfl, .ofSame hs1 hm1⟩)
  intro s1 hs1 _ hm1
  have l0 : Looked o ⟨o.obj, s1⟩ := .ofSame hs1 hm1
  refine wp_mono (insertAux_here (a := .rv v) hu (h.looked l0) rfl hh) ?_ (fun _ _ h => h.trans l0)
  rintro _ o1 ⟨l1, i, rfl⟩
  exact ⟨l0.trans l1, i, rfl⟩

theorem insertRange_here (hK : K.Ok E ib N st) (hu : K.multi = false) (vs : List α) :
    ∀ {o : Obj Vec α}, VSt H E ib N o al b cap xs → Fits st ib N b cap (xs.length + vs.length) → (∀ v ∈ vs, Here U xs v) →
    wp (insertRange K U E vs) (fun _ o' => Looked o o') (LookedThrew o) o := by
  induction vs with
  | nil => intro o h _ _; exact .refl o
  | cons v vs ih =>
    intro o h hr hh
    have hr' : ∀ m, m ≤ vs.length + 1 → Fits st ib N b cap (xs.length + m) := fun m hm hst => by
      obtain ⟨r1, r2, r3⟩ := hr hst
      simp at r3
      exact ⟨r1, r2, by omega⟩
    unfold insertRange
    rw [wp_bind]
    refine hK.guard h (hr' 1 (by omega)) ?_
    rw [wp_bind]
    refine wp_mono (insertAux_here (a := .val v) hu h rfl (hh v (by simp))) ?_ (fun _ _ h => h)
    rintro _ o1 ⟨l1, -⟩
    refine wp_mono (ih (h.looked l1) (hr' _ (by omega)) fun w hw => hh w (by simp [hw])) ?_ (fun _ _ h => h.trans l1)
    exact fun _ o2 l2 => l1.trans l2

/-- The elements that the operation is to insert into a container holding `xs`. -/
def Op.adds (xs : List α) : Op α κ → Option (List α)
  | .insert s | .insertHint _ s => (s.get? xs).map fun v => [v]
  | .emplace v | .emplaceHint _ v | .tryEmplace v | .tryEmplaceHint _ v => some [v]
  | .insertRange vs => some vs
  | _ => none

/-- `emplace` and `emplace_hint`. -/
def Op.emplaces : Op α κ → Bool
  | .emplace _ | .emplaceHint _ _ => true
  | _ => false

theorem exec_here (hK : K.Ok E ib N st) (hu : K.multi = false) (op : Op α κ) (ha : K.appends = true → op.emplaces = false)
    (h : VSt H E ib N o al b cap xs) (hp : op.pre false xs.length = true) (hst : Fits st ib N b cap (op.room xs.length))
    {vs : List α} (hvs : op.adds xs = some vs) (hh : ∀ v ∈ vs, Here U xs v) (reserve : Nat → VM α Unit) (shrink : VM α Unit) :
    wp (exec K U E reserve shrink op) (fun _ o' => Looked o o') (LookedThrew o) o := by
  cases op <;> simp only [Op.adds, reduceCtorEq, Option.some.injEq] at hvs <;> simp only [exec, wp_bind]
  case insert s =>
    have hs' : s.ok xs.length = true := by simpa [Op.pre, Op.uniqueOnly] using hp
    refine wp_argOf' h hs' fun a v hg hv hsrc hmem hrv => hK.guard h hst ?_
    rw [hg] at hvs
    cases hvs
    refine wp_mono (insertAux_here hu h hv (hh v (by simp))) ?_ (fun _ _ h => h)
    rintro _ o1 ⟨l1, i, rfl⟩
    exact wp_insOf (h.looked l1) rfl l1
  case insertHint hn s =>
    obtain ⟨hk, hs'⟩ : hn ≤ xs.length ∧ s.ok xs.length = true := by simpa [Op.pre, Op.uniqueOnly] using hp
    refine wp_argOf' h hs' fun a v hg hv hsrc hmem hrv => hK.guard h hst (wp_checkHint h hk ?_)
    rw [hg] at hvs
    cases hvs
    refine wp_mono (insertAux_here hu h hv (hh v (by simp))) ?_ (fun _ _ h => h)
    rintro _ o1 ⟨l1, i, rfl⟩
    exact wp_posOf (h.looked l1) rfl l1
  case emplace v =>
    subst hvs
    have ha : K.appends = false := by
      cases hc : K.appends
      · rfl
      · exact absurd (ha hc) (by simp [Op.emplaces])
    refine hK.guard h hst ?_
    refine wp_mono (emplace_here hu ha h (hh v (by simp))) ?_ (fun _ _ h => h)
    rintro _ o1 ⟨l1, i, rfl⟩
    exact wp_insOf (h.looked l1) rfl l1
  case emplaceHint hn v =>
    subst hvs
    have ha : K.appends = false := by
      cases hc : K.appends
      · rfl
      · exact absurd (ha hc) (by simp [Op.emplaces])
    have hk : hn ≤ xs.length := by simpa [Op.pre, Op.uniqueOnly] using hp
    refine hK.guard h hst (wp_checkHint h hk ?_)
    refine wp_mono (emplace_here hu ha h (hh v (by simp))) ?_ (fun _ _ h => h)
    rintro _ o1 ⟨l1, i, rfl⟩
    exact wp_posOf (h.looked l1) rfl l1
  case tryEmplace v =>
    subst hvs
    refine hK.guard h hst ?_
    refine wp_mono (tryEmplaceAux_here h (hh v (by simp))) ?_ (fun _ _ h => h)
    rintro _ o1 ⟨l1, i, rfl⟩
    exact wp_insOf (h.looked l1) rfl l1
  case tryEmplaceHint hn v =>
    subst hvs
    have hk : hn ≤ xs.length := by simpa [Op.pre, Op.uniqueOnly] using hp
    refine hK.guard h hst (wp_checkHint h hk ?_)
    refine wp_mono (tryEmplaceAux_here h (hh v (by simp))) ?_ (fun _ _ h => h)
    rintro _ o1 ⟨l1, i, rfl⟩
    exact wp_posOf (h.looked l1) rfl l1
  case insertRange vs' =>
    subst hvs
    refine wp_mono (insertRange_here hK hu vs' h hst hh) ?_ (fun _ _ h => h)
    exact fun _ _ l => l

/-- `emplace_aux` with a key that is present, if there is room for one more element: it is added and removed again. -/
theorem emplaceAux_here (hpush : ∀ {o : Obj Vec α}, VSt H E ib N o al b cap xs → xs.length < cap →
      wp (K.push (.val v)) (fun p o' => VSt H E ib N o' al b cap (xs ++ [v]) ∧ p = ⟨b, xs.length⟩ ∧ o'.m.next = o.m.next)
        (fun _ _ => True) o)
    (h : VSt H E ib N o al b cap xs) (hc : xs.length < cap) (hh : Here U xs v) :
    wp (emplaceAux K U E v) (fun r o' => VSt H E ib N o' al b cap xs ∧ o'.m.next = o.m.next ∧ ∃ i, r = (⟨b, i⟩, false))
      (fun _ _ => True) o := by
  obtain ⟨x, hx, he⟩ := hh
  unfold emplaceAux
  rw [wp_bind]
  refine wp_mono (hpush h hc) ?_ (fun _ _ _ => trivial)
  rintro _ o1 ⟨h1, rfl, hn1⟩
  have hlast : o1.m.mem b xs.length = some v := by rw [h1.cells]; simp
  rw [wp_bind]
  refine wp_mono (find_spec (U := U) (f := fun e => U.same e v) h1 ⟨v, hlast, rfl⟩) ?_ (fun _ _ _ => trivial)
  rintro _ o2 ⟨k, rfl, l, hk⟩
  have hkl : k < xs.length := by
    apply Classical.byContradiction
    intro hc
    have := hk.before x (by
      rw [List.take_append, List.take_of_length_le (Nat.le_of_not_lt hc)]; simp [hx])
    rw [he] at this; cases this
  rw [wp_ite, if_neg (by simp; omega), wp_bind]
  refine wp_mono (popBack_spec (h1.looked l)) ?_ (fun _ _ h => h.elim)
  rintro _ o3 ⟨h3, hn3, -⟩
  rw [wp_pure]
  exact ⟨h3, hn3.trans (l.q.next.trans hn1), k, rfl⟩

end Unord
end Sfl
