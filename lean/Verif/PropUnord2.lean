import Verif.PropUnord
/-
  Properties of static_unordered_flat_set, static_unordered_flat_map (`multi = false`), static_unordered_flat_multiset and
  static_unordered_flat_multimap (`multi = true`): C31, C33, C34, C35, C36, C38; comparison operators of static_vector
  and of the ordered flat containers: C09.
-/

namespace Sfl
open World Unord
open Flat (Ret Init Ans)
variable {α κ : Type}

/-! ### Whole programs: C33, C36 -/

/-- **C33, C36** for the static containers: any program has no undefined behaviour, never allocates, ends with the memory
as it was, follows the abstract specification (`staticSem`), and every set and map whose history does not contain a
move from it, an exception of an operation without a promise, or the assignment of an initializer list with equal
keys (see `staticUnord_assign_duplicates`) contains no two equal keys. -/
theorem staticUnord_session (K : Nat) (multi isMap : Bool) (U : KeyEq α κ) (L : U.Lawful) (E : Env α) (N : Nat)
    (ib : Fin K → Nat) (m0 : St α) (hm : Objects E ib N m0) (ops : List (WOp K (Unord.Op α κ) (Init α))) :
    ∃ log A o', World.session (staticCont multi isMap U E ib N) (staticSem multi U E N) ops ⟨fun _ => none, m0⟩ =
        .ok (log, (List.finRange K).map A) o' ∧
      WRun (staticSem multi U E N) (fun _ => none) ops log A ∧ (∀ i al xs, A i = some (al, xs) → xs.length ≤ N) ∧
      InOrder (U.Distinct multi) (trackAll (staticFlags U multi E.nothrowMoves) (fun _ => false) ops log) A ∧
      o'.m.mem = m0.mem ∧ o'.m.blk = m0.blk ∧ o'.m.next = m0.next := by
  obtain ⟨log, A, o', h1, h2, ⟨h3, h4⟩, h5⟩ := (staticSpec (multi := multi) (isMap := isMap) (E := E) (ib := ib) L
    hm.fits).session_rep hm.wf hm.static.1 hm.static.2 ops
  refine ⟨log, A, o', h1, h2, fun i al xs hi => ?_, ?_, h3, h4, ?_⟩
  · obtain ⟨m, v, F, k, -⟩ := h5 i al xs hi
    exact k.len
  · refine InOrder.run (staticKeeps L (fun h => ?_)) ?_ h2
    · simpa [Env.nothrowMoves, NothrowMove] using h
    · intro i al xs hi; cases hi
  · exact ((World.session_na staticCont_still ops _).1 _ _ h1).2

/-- The program assigns no initializer list to a container. -/
def Unord.noLists {K : Nat} (op : WOp K (Unord.Op α κ) (Init α)) : Prop := ∀ i vs, op ≠ .op i (.assignList vs)

/-- **C33** (static containers): as long as operations complete normally, no container is moved from and no initializer
list is assigned, no static unordered flat set or map of a program contains two equal keys. What is missing is
`operator=(initializer_list)`: `staticUnord_assign_duplicates`. -/
theorem staticUnord_distinct_partial (K : Nat) (isMap : Bool) (U : KeyEq α κ) (L : U.Lawful) (E : Env α) (N : Nat)
    (ib : Fin K → Nat) (m0 : St α) (hm : Objects E ib N m0) (ops : List (WOp K (Unord.Op α κ) (Init α)))
    {log : List (Sq.Out (Option Ret))} {cs : List (Option (Nat × List α))} {o' : Slots K Vec α}
    (hx : World.session (staticCont false isMap U E ib N) (staticSem false U E N) ops ⟨fun _ => none, m0⟩ = .ok (log, cs) o')
    (hn : ∀ op ∈ ops, op.moves = false ∧ Unord.noLists op) (ht : ∀ out ∈ log, ∀ e, out ≠ .threw e) :
    ∀ al xs, some (al, xs) ∈ cs → xs.Pairwise (fun a b => U.eq (U.key a) (U.key b) = false) := by
  obtain ⟨log', A, o1, h1, -, -, h3, -⟩ := staticUnord_session K false isMap U L E N ib m0 hm ops
  rw [hx] at h1
  cases h1
  rw [trackAll_none ops log (fun i op hop => ?_) (fun op hop => (hn op hop).1) ht] at h3
  · intro al xs hc
    obtain ⟨i, -, hi⟩ := List.mem_map.mp hc
    exact h3 i al xs hi rfl rfl
  · cases op with
    | assignList vs => exact absurd rfl ((hn _ hop).2 i vs)
    | _ => rfl

/-! ### One container in any program -/

section
variable {K : Nat} {multi isMap : Bool} {U : KeyEq α κ} {E : Env α} {ib : Fin K → Nat} {N : Nat} {m0 : St α}
  {i : Fin K} {o : Obj Vec α} {xs : List α}

/-- `operator=(initializer_list)`? -/
def Unord.Op.assigns : Unord.Op α κ → Bool
  | .assignList _ => true
  | _ => false

/-- **C31, C33, C34, C36** for the static containers: every modifier of every container in every program, called under
its precondition (there must be room): no undefined behaviour, no allocation, at most `N` elements; if it returns,
result and elements are as specified (provided, for `erase(key)` of sets and maps, that there are no equal keys); if it
throws, `Op.Failure` holds, and the exception is neither bad_alloc nor length_error. For
`operator=(initializer_list)` see `staticUnord_assign_partial`. -/
theorem staticUnord_modify (L : U.Lawful) (hm : Objects E ib N m0)
    (h : Reached (staticCont multi isMap U E ib N) (staticSem multi U E N) m0 i o) :
    ∃ xs, (staticImpl multi isMap U E N).contents o = .ok xs o ∧ xs.length ≤ N ∧ ∀ op : Unord.Op α κ,
      op.pre multi xs.length = true → op.room xs.length ≤ N → op.storage = false → op.assigns = false →
      (∀ u, (staticImpl multi isMap U E N).exec op o ≠ .ub u) ∧
      (∀ r o', (staticImpl multi isMap U E N).exec op o = .ok r o' → ∃ ys,
        (staticImpl multi isMap U E N).contents o' = .ok ys o' ∧
        ((op.keyed = false ∨ U.Distinct multi xs) → op.Result U multi xs r ys) ∧ ys.length ≤ N ∧
        o'.m.blk = o.m.blk ∧ o'.m.next = o.m.next) ∧
      (∀ e o', (staticImpl multi isMap U E N).exec op o = .exn e o' → ∃ ys,
        (staticImpl multi isMap U E N).contents o' = .ok ys o' ∧
        op.Failure U multi true (Strong E) (NothrowMove E) E.maxSize xs e ys ∧ ys.length ≤ N ∧
        o'.m.blk = o.m.blk ∧ o'.m.next = o.m.next ∧ e ≠ .badAlloc ∧ e ≠ .lengthError) := by
  obtain ⟨H, al, xs, hv⟩ := h.static hm (staticSpec L hm.fits)
  refine ⟨xs, hv.contents _ rfl rfl, hv.len, fun op h1 h2 h3 h4 => ?_⟩
  have hp : staticPre multi N xs.length op = true := by simp [staticPre, h1, h2, h3]
  have hs := staticExec_spec (isMap := isMap) L op hv hp
  have hn := staticExec_na (U := U) (E := E) (N := N) (multi := multi) (isMap := isMap) op o
  refine ⟨fun u => wp_not_ub hs, fun r o' hx => ?_, fun e o' hx => ?_⟩
  · obtain ⟨ys, k1, k2, k3, k4⟩ := wp_ok hx hs
    refine ⟨ys, k1.contents _ rfl rfl, ?_, k3, (hn.1 _ _ hx).1, (hn.1 _ _ hx).2⟩
    have k4 : okStep U multi xs op (some r) ys := by
      cases op <;> first | exact k4 | cases h4
    obtain ⟨r', e, k⟩ := k4
    cases e
    exact k
  · obtain ⟨ys, k1, k2, k3, k4, k5, k6⟩ := wp_exn hx hs
    refine ⟨ys, k1.contents _ rfl rfl, ?_, k3, (hn.2 _ _ hx).1, (hn.2 _ _ hx).2, k4, k5⟩
    have k6 : failStep U multi true E xs op e ys := by
      cases op <;> first | exact k6 | cases h4
    exact k6

/-- **C36** for the static containers, if moving elements does not throw, for all operations except `emplace` of sets and
maps with an equality that may throw; insertions of one element have not changed the container at all. See
`staticUnord_emplace_throw` for the rest. -/
theorem staticUnord_throw_partial (L : U.Lawful) (hm : Objects E ib N m0)
    (h : Reached (staticCont multi isMap U E ib N) (staticSem multi U E N) m0 i o)
    (hc : (staticImpl multi isMap U E N).contents o = .ok xs o) (hs : U.Distinct multi xs) (hE : NothrowMove E)
    {op : Unord.Op α κ} (hsafe : op.careful multi true U.nothrow = true) (hp : op.pre multi xs.length = true)
    (hroom : op.room xs.length ≤ N) (hst : op.storage = false) (ha : op.assigns = false) {e : Exn} {o' : Obj Vec α}
    (hx : (staticImpl multi isMap U E N).exec op o = .exn e o') :
    ∃ ys, (staticImpl multi isMap U E N).contents o' = .ok ys o' ∧ U.Distinct multi ys ∧ (op.one = true → ys = xs) ∧
      (op.erases = true → ∃ zs, zs.Sublist xs ∧ ys.Perm zs) := by
  obtain ⟨xs', hc', -, hop⟩ := staticUnord_modify L hm h
  rw [hc] at hc'
  cases hc'
  obtain ⟨ys, k1, k2, -⟩ := (hop op hp hroom hst ha).2.2 e o' hx
  exact ⟨ys, k1, k2.distinct hE hsafe hs, fun h => k2.strong (Or.inl hE.1) hsafe (Or.inl h), k2.some hE⟩

/-- **C33** for the static containers of a running program. -/
theorem staticUnord_in_order (L : U.Lawful) (hm : Objects E ib N m0) {ops : List (WOp K (Unord.Op α κ) (Init α))}
    {log : List (Sq.Out (Option Ret))} {s : Slots K Vec α} {v : Vec}
    (hx : World.runOps (staticCont multi isMap U E ib N) (staticSem multi U E N) ops ⟨fun _ => none, m0⟩ = .ok log s)
    (hv : s.obj i = some v) (ht : trackAll (staticFlags U multi E.nothrowMoves) (fun _ => false) ops log i = false) :
    ∃ xs, (staticImpl multi isMap U E N).contents ⟨v, s.m⟩ = .ok xs ⟨v, s.m⟩ ∧ U.Distinct multi xs := by
  have hS := staticSpec (multi := multi) (isMap := isMap) (ib := ib) L hm.fits
  obtain ⟨A, F, k, w⟩ := wp_ok hx (hS.runOps ops (hS.start hm.wf hm.static.1 hm.static.2))
  have ho : InOrder (U.Distinct multi) (trackAll (staticFlags U multi E.nothrowMoves) (fun _ => false) ops log) A := by
    refine InOrder.run (staticKeeps L (fun h => ?_)) ?_ w
    · simpa [Env.nothrowMoves, NothrowMove] using h
    · intro i al xs hi; cases hi
  have hc := k.cell i
  rw [hv] at hc
  cases hA : A i with
  | none => rw [hA] at hc; exact hc.elim
  | some a =>
    rw [hA] at hc
    obtain ⟨k', -⟩ := hc
    exact ⟨a.2, (k'.vst k.wf (Rest.out _ _)).contents _ rfl rfl, ho i _ _ hA ht⟩

/-- **C33** for the static containers: insertion and emplacement into sets and maps that are not full. -/
theorem staticUnord_insert (L : U.Lawful) (hm : Objects E ib N m0)
    (h : Reached (staticCont false isMap U E ib N) (staticSem false U E N) m0 i o)
    (hc : (staticImpl false isMap U E N).contents o = .ok xs o) (hroom : xs.length < N) :
    (∀ (s : Sq.Src α) r o', s.ok xs.length = true → (staticImpl false isMap U E N).exec (.insert s) o = .ok r o' →
      ∃ v ys, s.get? xs = some v ∧ (staticImpl false isMap U E N).contents o' = .ok ys o' ∧ InsertsOne U xs v r ys) ∧
    (∀ v r o', (staticImpl false isMap U E N).exec (.emplace v) o = .ok r o' → ∃ ys,
        (staticImpl false isMap U E N).contents o' = .ok ys o' ∧ InsertsOne U xs v r ys) := by
  obtain ⟨xs', hc', -, hop⟩ := staticUnord_modify L hm h
  rw [hc] at hc'
  cases hc'
  constructor
  · intro s r o' hsrc hx
    obtain ⟨ys, k1, k2, -⟩ := (hop (.insert s) (by simpa [Unord.Op.pre, Unord.Op.uniqueOnly] using hsrc)
      (show xs.length + 1 ≤ N from hroom) rfl rfl).2.1 r o' hx
    obtain ⟨v, j, new, e1, rfl, k3⟩ := k2 (Or.inl rfl)
    exact ⟨v, ys, e1, k1, k3.one L⟩
  · intro v r o' hx
    obtain ⟨ys, k1, k2, -⟩ := (hop (.emplace v) rfl (show xs.length + 1 ≤ N from hroom) rfl rfl).2.1 r o' hx
    obtain ⟨j, new, rfl, k3⟩ := k2 (Or.inl rfl)
    exact ⟨ys, k1, k3.one L⟩

/-- **C33** for the static containers: `erase(pos)` and `erase(first, last)`. -/
theorem staticUnord_erase (L : U.Lawful) (hm : Objects E ib N m0)
    (h : Reached (staticCont multi isMap U E ib N) (staticSem multi U E N) m0 i o)
    (hc : (staticImpl multi isMap U E N).contents o = .ok xs o) {k l : Nat} (hkl : k ≤ l) (hl : l ≤ xs.length)
    {r : Ret} {o' : Obj Vec α}
    (hx : (staticImpl multi isMap U E N).exec (.eraseRange k l) o = .ok r o' ∨
      l = k + 1 ∧ (staticImpl multi isMap U E N).exec (.eraseAt k) o = .ok r o') :
    r = .pos k ∧ ∃ ys, (staticImpl multi isMap U E N).contents o' = .ok ys o' ∧
      ys.Perm (xs.take k ++ xs.drop l) ∧ ys.take k = xs.take k := by
  obtain ⟨xs', hc', hN, hop⟩ := staticUnord_modify L hm h
  rw [hc] at hc'
  cases hc'
  rcases hx with hx | ⟨rfl, hx⟩
  · obtain ⟨ys, k1, k2, -⟩ := (hop (.eraseRange k l) (by simp [Unord.Op.pre, Unord.Op.uniqueOnly, hkl, hl]) hN rfl rfl).2.1
      r o' hx
    obtain ⟨e1, e2⟩ := k2 (Or.inl rfl)
    exact ⟨e1, ys, k1, e2.perm, e2.1⟩
  · obtain ⟨ys, k1, k2, -⟩ := (hop (.eraseAt k) (by simp [Unord.Op.pre, Unord.Op.uniqueOnly]; omega) hN rfl rfl).2.1 r o' hx
    obtain ⟨e1, e2⟩ := k2 (Or.inl rfl)
    exact ⟨e1, ys, k1, e2.perm, e2.1⟩

/-- **C33, C34** for the static containers: `erase(key)`, with the restriction of `smallUnord_erase_key_partial`. -/
theorem staticUnord_erase_key_partial (L : U.Lawful) (hm : Objects E ib N m0)
    (h : Reached (staticCont multi isMap U E ib N) (staticSem multi U E N) m0 i o)
    (hc : (staticImpl multi isMap U E N).contents o = .ok xs o) (hs : U.Distinct multi xs) {op : Unord.Op α κ} {k : κ}
    (hop : op = .eraseKey k ∨ ∃ j x, xs[j]? = some x ∧ k = U.key x ∧ op = .eraseEqual j ∧ multi = false)
    {r : Ret} {o' : Obj Vec α} (hx : (staticImpl multi isMap U E N).exec op o = .ok r o') :
    r = .num (xs.countP (fun x => U.eq (U.key x) k)) ∧
    ∃ ys, (staticImpl multi isMap U E N).contents o' = .ok ys o' ∧
      ys.Perm (xs.filter (fun x => !U.eq (U.key x) k)) := by
  obtain ⟨xs', hc', hN, hmod⟩ := staticUnord_modify L hm h
  rw [hc] at hc'
  cases hc'
  rcases hop with rfl | ⟨j, x, hj, rfl, rfl, rfl⟩
  · obtain ⟨ys, k1, k2, -⟩ := (hmod (.eraseKey k) (by simp [Unord.Op.pre, Unord.Op.uniqueOnly]) hN rfl rfl).2.1 r o' hx
    obtain ⟨e1, e2⟩ := k2 (Or.inr hs)
    exact ⟨e1, ys, k1, e2⟩
  · have hlt : j < xs.length := (List.getElem?_eq_some_iff.mp hj).1
    obtain ⟨ys, k1, k2, -⟩ := (hmod (.eraseEqual j) (by simpa [Unord.Op.pre, Unord.Op.uniqueOnly] using hlt) hN rfl rfl).2.1
      r o' hx
    obtain ⟨x', hx', e1, e2⟩ := k2 (Or.inr hs)
    rw [hj] at hx'
    cases hx'
    exact ⟨e1, ys, k1, e2⟩

/-- **C31** for the static maps. -/
theorem staticUnord_map (L : U.Lawful) (hm : Objects E ib N m0)
    (h : Reached (staticCont false isMap U E ib N) (staticSem false U E N) m0 i o)
    (hc : (staticImpl false isMap U E N).contents o = .ok xs o) (hs : U.Distinct false xs) {op : Unord.Op α κ}
    (hp : op.pre false xs.length = true) (hroom : op.room xs.length ≤ N) (hst : op.storage = false)
    (ha : op.assigns = false) {r : Ret} {o' : Obj Vec α} (hx : (staticImpl false isMap U E N).exec op o = .ok r o') :
    ∃ ys, (staticImpl false isMap U E N).contents o' = .ok ys o' ∧ op.MapResult U xs (U.get xs) (U.get ys) ∧
      U.Distinct false ys := by
  obtain ⟨xs', hc', -, hop⟩ := staticUnord_modify L hm h
  rw [hc] at hc'
  cases hc'
  obtain ⟨ys, k1, k2, -⟩ := (hop op hp hroom hst ha).2.1 r o' hx
  exact ⟨ys, k1, (k2 (Or.inr hs)).map L hp hs, (k2 (Or.inr hs)).distinct L hp (Or.inl hs)⟩

/-- **C31, C33** for the static containers: lookup with a key of the container's key type. -/
theorem staticUnord_lookup (L : U.Lawful) (hm : Objects E ib N m0)
    (h : Reached (staticCont multi isMap U E ib N) (staticSem multi U E N) m0 i o)
    (hc : (staticImpl multi isMap U E N).contents o = .ok xs o) (hs : U.Distinct multi xs) (k : κ) (q : Unord.Query) :
    FindsKey multi U E (.pred fun x => U.eq (U.key x) k) (fun x => U.eq (U.key x) k) q xs o := by
  obtain ⟨H, al, xs', hv⟩ := h.static hm (staticSpec L hm.fits)
  have := hv.contents (staticImpl multi isMap U E N) rfl rfl
  rw [hc] at this
  cases this
  refine findsKey (s := .pred _) hv rfl q fun hm _ => ?_
  subst hm
  exact hs.countP_le L k

/-- **C31, C33** for the static containers: lookup with keys of other types, with the restriction of
`smallUnord_lookup_partial`. -/
theorem staticUnord_lookup_partial (L : U.Lawful) (hm : Objects E ib N m0)
    (h : Reached (staticCont multi isMap U E ib N) (staticSem multi U E N) m0 i o)
    (hc : (staticImpl multi isMap U E N).contents o = .ok xs o) (f : α → Bool) (q : Unord.Query)
    (hone : multi = false → q = .count → xs.countP f ≤ 1) : FindsKey multi U E (.pred f) f q xs o := by
  obtain ⟨H, al, xs', hv⟩ := h.static hm (staticSpec L hm.fits)
  have := hv.contents (staticImpl multi isMap U E N) rfl rfl
  rw [hc] at this
  cases this
  exact findsKey (s := .pred _) hv rfl q hone

/-- **C35** (unordered) as far as it holds: after `c = {x1, …, xn}` the container has exactly these elements in this order;
hence no two equal keys if the list had none. The property asks for this for every list:
`staticUnord_assign_duplicates`. -/
theorem staticUnord_assign_partial (L : U.Lawful) (hm : Objects E ib N m0)
    (h : Reached (staticCont multi isMap U E ib N) (staticSem multi U E N) m0 i o) {vs : List α} (hv : vs.length ≤ N) :
    (∀ u, (staticImpl multi isMap U E N).exec (.assignList vs) o ≠ .ub u) ∧
    (∀ r o', (staticImpl multi isMap U E N).exec (.assignList vs) o = .ok r o' →
      (staticImpl multi isMap U E N).contents o' = .ok vs o' ∧
      ∃ ys, (staticImpl multi isMap U E N).contents o' = .ok ys o' ∧ (U.Distinct multi vs → U.Distinct multi ys)) ∧
    (∀ e o', (staticImpl multi isMap U E N).exec (.assignList vs) o = .exn e o' →
      ∃ ys, (staticImpl multi isMap U E N).contents o' = .ok ys o' ∧ ys.length ≤ N) := by
  obtain ⟨H, al, xs, hx⟩ := h.static hm (staticSpec L hm.fits)
  have hs := staticExec_spec (multi := multi) (isMap := isMap) L (.assignList vs) hx (by
    simp [staticPre, Unord.Op.pre, Unord.Op.uniqueOnly, Unord.Op.storage]
    exact hv)
  refine ⟨fun u => wp_not_ub hs, fun r o' hr => ?_, fun e o' hr => ?_⟩
  · obtain ⟨ys, k1, -, -, -, rfl⟩ := wp_ok hr hs
    exact ⟨k1.contents _ rfl rfl, _, k1.contents _ rfl rfl, id⟩
  · obtain ⟨ys, k1, -⟩ := wp_exn hr hs
    exact ⟨ys, k1.contents _ rfl rfl, k1.len⟩

end

/-! ### Comparison: C09, C38 -/

theorem World.Inv.staticHolds {K : Nat} {E : Env α} {ib : Fin K → Nat} {N : Nat} {m0 : St α} {o : Slots K Vec α}
    {A : Abs K α} {F : Fin K → Foot} (h : Inv (StaticVector.rep E ib N) m0 o A F) :
    ∀ i a xs, A i = some (a, xs) → ∃ v, o.obj i = some v ∧ v.Holds o.m xs := by
  intro i a xs hi
  have := h.cell i
  rw [hi] at this
  cases hv : o.obj i with
  | none => rw [hv] at this; exact this.elim
  | some v =>
    rw [hv] at this
    obtain ⟨k, -⟩ := this
    exact ⟨v, rfl, k.holds⟩

/-- **C38** for the static containers. -/
theorem staticUnord_compare (K : Nat) (multi isMap : Bool) (U : KeyEq α κ) (L : U.Lawful) (E : Env α) (N : Nat)
    (ib : Fin K → Nat) (m0 : St α) (hm : Objects E ib N m0) (eq : α → α → Bool) (he : KMap.Equiv eq)
    (ops : List (WOp K (Unord.Op α κ) (Init α))) :
    ∃ log A o, World.runOps (staticCont multi isMap U E ib N) (staticSem multi U E N) ops ⟨fun _ => none, m0⟩ = .ok log o ∧
      WRun (staticSem multi U E N) (fun _ => none) ops log A ∧ BagCompares eq o A := by
  have hS := staticSpec (multi := multi) (isMap := isMap) (ib := ib) L hm.fits
  obtain ⟨log, o, e, A, F, k1, k2⟩ := wp_elim (hS.runOps ops (hS.start hm.wf hm.static.1 hm.static.2))
  exact ⟨log, A, o, e, k2, bagCompares he k1.staticHolds⟩

theorem comparesLike {K : Nat} {o : Slots K Vec α} {A : Abs K α} (eq lt : α → α → Bool)
    (get : ∀ i a xs, A i = some (a, xs) → ∃ v, o.obj i = some v ∧ v.Holds o.m xs) : ComparesLike eq lt o A := by
  intro i j a b xs ys hi hj
  obtain ⟨v, hv, kv⟩ := get i a xs hi
  obtain ⟨w, hw, kw⟩ := get j b ys hj
  refine ⟨v, w, hv, hw, fun c => ?_⟩
  obtain ⟨r, s', e, k, rfl⟩ := wp_elim (compare_spec (eq := eq) (lt := lt) (X := fun _ _ => False) kv kw c)
  exact ⟨r, e, k⟩

/-- **C09** for static_vector: after any program, comparing two containers gives the answer for their elements. -/
theorem staticVector_compare (K : Nat) (E : Env α) (N : Nat) (ib : Fin K → Nat) (m0 : St α) (hm : Objects E ib N m0)
    (eq lt : α → α → Bool) (ops : List (WOp K (Sq.Op α) (Sq.Init α))) :
    ∃ log A o, World.runOps (StaticVector.cont E ib N) (StaticVector.sem E N) ops ⟨fun _ => none, m0⟩ = .ok log o ∧
      WRun (StaticVector.sem E N) (fun _ => none) ops log A ∧ ComparesLike eq lt o A := by
  have hS := StaticVector.spec (E := E) (ib := ib) hm.fits
  obtain ⟨log, o, e, A, F, k1, k2⟩ := wp_elim (hS.runOps ops (hS.start hm.wf hm.static.1 hm.static.2))
  exact ⟨log, A, o, e, k2, comparesLike eq lt k1.staticHolds⟩

/-- **C09** for the small ordered flat containers (`eq` and `lt` are `==` and `<` of the elements, not the comparator). -/
theorem smallFlat_compare (K : Nat) (multi : Bool) (C : Order α κ) (L : C.Lawful) (E : Env α) (T : Traits) (N : Nat)
    (ib : Fin K → Nat) (m0 : St α) (hm : Objects E ib N m0) (eq lt : α → α → Bool)
    (ops : List (WOp K (Flat.Op α κ) (Init α))) :
    ∃ log A o, World.runOps (Flat.smallCont multi C E T ib N) (Flat.smallSem multi C E T) ops ⟨fun _ => none, m0⟩ =
        .ok log o ∧ WRun (Flat.smallSem multi C E T) (fun _ => none) ops log A ∧ ComparesLike eq lt o A := by
  have hS := Flat.smallSpec (multi := multi) (T := T) (ib := ib) L hm.fits
  obtain ⟨log, o, e, A, F, k1, k2⟩ := wp_elim (hS.runOps ops (hm.start hS))
  exact ⟨log, A, o, e, k2, comparesLike eq lt k1.holds⟩

/-- **C09** for the static ordered flat containers. -/
theorem staticFlat_compare (K : Nat) (multi : Bool) (C : Order α κ) (L : C.Lawful) (E : Env α) (N : Nat)
    (ib : Fin K → Nat) (m0 : St α) (hm : Objects E ib N m0) (eq lt : α → α → Bool)
    (ops : List (WOp K (Flat.Op α κ) (Init α))) :
    ∃ log A o, World.runOps (Flat.staticCont multi C E ib N) (Flat.staticSem multi C E N) ops ⟨fun _ => none, m0⟩ =
        .ok log o ∧ WRun (Flat.staticSem multi C E N) (fun _ => none) ops log A ∧ ComparesLike eq lt o A := by
  have hS := Flat.staticSpec (multi := multi) (ib := ib) L hm.fits
  obtain ⟨log, o, e, A, F, k1, k2⟩ := wp_elim (hS.runOps ops (hS.start hm.wf hm.static.1 hm.static.2))
  exact ⟨log, A, o, e, k2, comparesLike eq lt k1.staticHolds⟩

/-! ### Concrete cases -/

/-- Three static_unordered_flat_map<.., .., 2>: a construction that throws, skipped calls on full maps, assignment of lists. -/
example : Demo.show' (World.session (staticCont false true Demo.umap (Demo.env [4, 30]) Demo.ib3 2)
    (staticSem false Demo.umap (Demo.env [4, 30]) 2)
    [.make 0 0 (.range [301, 502]), .make 0 0 (.range [301, 502]), .op 0 (.insert (.value 404)),
     .op 0 (.eraseKey 3), .op 0 (.insertHint 1 (.elem 0)), .op 0 (.insertOrAssign 555), .op 0 (.insertOrAssign 655),
     .make 1 0 .empty, .op 1 (.emplaceHint 0 900), .assignCopy 1 0, .op 0 (.eraseKey 4), .swap 0 1, .makeMove 2 0 none,
     .op 2 (.eraseAt 0), .op 2 (.tryEmplaceHint 0 404), .op 0 (.assignList [100, 200])] ⟨fun _ => none, Demo.m3⟩) =
    some ([.threw .elem, .ok none, .skipped, .ok (some (.num 1)), .ok (some (.pos 0)), .ok (some (.ins 0 false)),
      .ok (some (.ins 1 true)), .ok none, .ok (some (.pos 0)), .ok none, .ok (some (.num 0)), .ok none, .threw .elem, .skipped,
      .skipped, .ok (some .unit)], [some (0, [100, 200]), some (0, [555, 655]), none]) := by decide +kernel

/-- Three static_unordered_flat_set<.., 2>. -/
example : Demo.show' (World.session (staticCont false false Demo.utens (Demo.env []) Demo.ib3 2)
    (staticSem false Demo.utens (Demo.env []) 2)
    [.make 0 0 (.range [31, 35]), .op 0 (.emplace 39), .op 0 (.insertHint 1 (.elem 0)), .op 0 (.insert (.value 12)),
     .makeCopy 1 0 none, .op 1 (.eraseEqual 0), .op 1 (.emplace 38), .swap 0 1, .op 0 (.insert (.value 17)),
     .op 0 (.eraseRange 0 1)] ⟨fun _ => none, Demo.m3⟩) =
    some ([.ok none, .ok (some (.ins 0 false)), .ok (some (.pos 0)), .ok (some (.ins 1 true)), .ok none, .ok (some (.num 1)),
      .ok (some (.ins 1 true)), .ok none, .skipped, .ok (some (.pos 0))], [some (0, [38]), some (0, [31, 12]), none]) := by
  decide +kernel

namespace Demo

/-- A static_unordered_flat_map<Nat, void, 2> made from `xs`; the `t`-th call that may throw for `t ∈ ts` does. -/
def sumapOf (ts xs : List Nat) : Obj Vec Nat :=
  after (World.runOps (staticCont false true ueqT (envCopy ts) ib3 2) (staticSem false ueqT (envCopy ts) 2)
    [.make 0 0 (.range xs)] ⟨fun _ => none, m3⟩) 0

theorem sumapOf_reached (ts xs : List Nat) (h : alive (World.runOps (staticCont false true ueqT (envCopy ts) ib3 2)
    (staticSem false ueqT (envCopy ts) 2) [.make 0 0 (.range xs)] ⟨fun _ => none, m3⟩) 0 = true) :
    Reached (staticCont false true ueqT (envCopy ts) ib3 2) (staticSem false ueqT (envCopy ts) 2) m3 0 (sumapOf ts xs) :=
  reachedIn h

/-- A static_unordered_flat_multiset<Nat, 2> made from `xs`. -/
def sumultiOf (xs : List Nat) : Obj Vec Nat :=
  after (World.runOps (staticCont true false ueq (env []) ib3 2) (staticSem true ueq (env []) 2)
    [.make 0 0 (.range xs)] ⟨fun _ => none, m3⟩) 0

theorem sumultiOf_reached (xs : List Nat) (h : alive (World.runOps (staticCont true false ueq (env []) ib3 2)
    (staticSem true ueq (env []) 2) [.make 0 0 (.range xs)] ⟨fun _ => none, m3⟩) 0 = true) :
    Reached (staticCont true false ueq (env []) ib3 2) (staticSem true ueq (env []) 2) m3 0 (sumultiOf xs) :=
  reachedIn h

end Demo

open Demo in
/-- `staticUnord_modify`, `_insert`, `_erase`, `_erase_key_partial`, `_map`, `_lookup`, `_lookup_partial`, `_in_order`,
`_assign_partial`: their hypotheses are met by `Demo.sumapOf [90] [5]`. -/
example : Reached (staticCont false true ueqT (envCopy [90]) ib3 2) (staticSem false ueqT (envCopy [90]) 2) m3 0
      (sumapOf [90] [5]) ∧
    show' ((do
      let I := staticImpl false true ueqT (envCopy [90]) 2
      let a ← I.contents
      let r1 ← I.exec (.insert (.elem 0))
      let r2 ← I.exec (.insertHint 0 (.value 8))
      let b ← I.contents
      let q1 ← query false ueqT (envCopy [90]) (.pred (ueqT.hasKey 8)) .find
      let q2 ← query false ueqT (envCopy [90]) (.pred (ueqT.hasKey 6)) .count
      let r3 ← I.exec (.eraseAt 0)
      let c ← I.contents
      let r4 ← I.exec (.emplace 3)
      let r5 ← I.exec (.eraseKey 8)
      let d ← I.contents
      pure ([a, b, c, d], [r1, r2, r3, r4, r5], [q1, q2]) : Vector.VM Nat _) (sumapOf [90] [5])) =
    some ([[5], [5, 8], [8], [3]], [.ins 0 false, .pos 1, .pos 0, .ins 1 true, .num 1], [.pos 1, .num 0]) :=
  ⟨reachedIn (by decide +kernel), by decide +kernel⟩

open Demo in
/-- `staticUnord_throw_partial`: an insertion into {5} where the equality throws. -/
example : NothrowMove (envCopy [2]) ∧
    Reached (staticCont false true ueqT (envCopy [2]) ib3 2) (staticSem false ueqT (envCopy [2]) 2) m3 0 (sumapOf [2] [5]) ∧
    show' ((staticImpl false true ueqT (envCopy [2]) 2).contents (sumapOf [2] [5])) = some [5] ∧
    (Unord.Op.insert (.value 4) : Unord.Op Nat Nat).careful false true ueqT.nothrow = true ∧
    ∃ e o', (staticImpl false true ueqT (envCopy [2]) 2).exec (.insert (.value 4)) (sumapOf [2] [5]) = .exn e o' :=
  ⟨⟨rfl, rfl⟩, sumapOf_reached _ _ (by decide +kernel), by decide +kernel, rfl, exn_of (by decide +kernel)⟩

open Demo in
/-- `staticUnord_compare`: [1, 2] and [2, 1] are equal, [1, 1] and [2, 1] are not. -/
example : show' ((do
      let _ ← World.runOps (staticCont true false ueq (env []) ib3 2) (staticSem true ueq (env []) 2)
        [.make 0 7 (.range [1, 2]), .make 1 7 (.range [2, 1]), .make 2 7 (.range [1, 1])]
      fun o => match o.obj 0, o.obj 1, o.obj 2 with
        | some v, some w, some x =>
          .ok (show' (Unord.eqOp (· == ·) v w o.m), show' (Unord.eqOp (· == ·) x w o.m), show' (Unord.neOp (· == ·) x v o.m)) o
        | _, _, _ => .ub .badRange : M (Slots 3 Vec Nat) _) ⟨fun _ => none, m3⟩) =
    some (some true, some false, some true) := by decide +kernel

/-- `staticVector_compare`: `[1]` and `[1, 2]`, `[1, 2]` and itself. -/
example : Demo.show' ((do
    let _ ← World.runOps (StaticVector.cont (Demo.env []) Demo.ib3 2) (StaticVector.sem (Demo.env []) 2)
      [.make 0 7 (.range [1]), .make 1 7 (.range [1, 2])]
    let a ← Demo.compareAll 0 1
    let b ← Demo.compareAll 1 1
    pure (a, b) : M (Slots 3 Vec Nat) _) ⟨fun _ => none, Demo.m3⟩) =
    some ([false, true, true, false, true, false], [true, false, false, false, true, true]) := by decide +kernel

/-- `smallFlat_compare` and `staticFlat_compare`: {1, 5} and {1, 3} as sets. -/
example : Demo.show' ((do
    let _ ← World.runOps (Flat.smallCont false Demo.asc (Demo.env []) Demo.T Demo.ib3 2)
      (Flat.smallSem false Demo.asc (Demo.env []) Demo.T) [.make 0 7 (.range [5, 1]), .make 1 7 (.range [3, 1, 3])]
    Demo.compareAll 0 1 : M (Slots 3 Vec Nat) _) ⟨fun _ => none, Demo.m3⟩) =
      some [false, true, false, true, false, true] ∧
    Demo.show' ((do
    let _ ← World.runOps (Flat.staticCont false Demo.asc (Demo.env []) Demo.ib3 2)
      (Flat.staticSem false Demo.asc (Demo.env []) 2) [.make 0 7 (.range [5, 1]), .make 1 7 (.range [3, 1])]
    Demo.compareAll 0 1 : M (Slots 3 Vec Nat) _) ⟨fun _ => none, Demo.m3⟩) =
      some [false, true, false, true, false, true] := by decide +kernel

/-! ### What the code does not do -/

/-- **C35 does not hold** for static_unordered_flat_set and static_unordered_flat_map
(static_unordered_flat_set.hpp:249-253, static_unordered_flat_map.hpp:304-308): `operator=(initializer_list)` copies the list without removing equal
keys. After `m = {7, 7}` the map has two elements with the key 7 and one `erase(7)` leaves one of them. -/
theorem staticUnord_assign_duplicates : ∃ (o : Obj Vec Nat) (r r2 : Ret) (o' o2 : Obj Vec Nat),
    Reached (staticCont false true Demo.ueqT (Demo.envCopy []) Demo.ib3 2) (staticSem false Demo.ueqT (Demo.envCopy []) 2)
      Demo.m3 0 o ∧
    (staticImpl false true Demo.ueqT (Demo.envCopy []) 2).exec (.assignList [7, 7]) o = .ok r o' ∧
    (staticImpl false true Demo.ueqT (Demo.envCopy []) 2).contents o' = .ok [7, 7] o' ∧
    ¬ Demo.ueqT.Distinct false [7, 7] ∧
    (staticImpl false true Demo.ueqT (Demo.envCopy []) 2).exec (.eraseKey 7) o' = .ok r2 o2 ∧
    Demo.show' ((staticImpl false true Demo.ueqT (Demo.envCopy []) 2).contents o2) = some [7] := by
  have hr := Demo.sumapOf_reached [] [] (by decide +kernel)
  have hx := (staticUnord_assign_partial (vs := [7, 7]) Demo.ueqT_lawful (Demo.objects3 _ (by decide)) hr (by decide)).2.1
  have hq : Demo.leftIn (staticImpl false true Demo.ueqT (Demo.envCopy []) 2) ((do
      let _ ← (staticImpl false true Demo.ueqT (Demo.envCopy []) 2).exec (.assignList [7, 7])
      (staticImpl false true Demo.ueqT (Demo.envCopy []) 2).exec (.eraseKey 7) : Vector.VM Nat _) (Demo.sumapOf [] [])) =
        some [7] ∧
      Demo.threw ((do
      let _ ← (staticImpl false true Demo.ueqT (Demo.envCopy []) 2).exec (.assignList [7, 7])
      (staticImpl false true Demo.ueqT (Demo.envCopy []) 2).exec (.eraseKey 7) : Vector.VM Nat _) (Demo.sumapOf [] [])) =
        false := by decide +kernel
  cases he : (staticImpl false true Demo.ueqT (Demo.envCopy []) 2).exec (.assignList [7, 7]) (Demo.sumapOf [] []) with
  | ok r o' =>
    rw [bind_apply, he] at hq
    dsimp only at hq
    cases he2 : (staticImpl false true Demo.ueqT (Demo.envCopy []) 2).exec (.eraseKey 7) o' with
    | ok r2 o2 =>
      rw [he2] at hq
      exact ⟨_, r, r2, o', o2, hr, he, (hx r o' he).1, by simp [KeyEq.Distinct, KMap.Distinct, Demo.ueqT, Demo.ueq], he2, hq.1⟩
    | exn e o2 => rw [he2] at hq; exact absurd hq.2 (by simp [Demo.threw])
    | ub u => rw [he2] at hq; exact absurd hq.1 (by simp [Demo.leftIn])
  | exn e o' => rw [bind_apply, he] at hq; exact absurd hq.2 (by simp [Demo.threw])
  | ub u => rw [bind_apply, he] at hq; exact absurd hq.1 (by simp [Demo.leftIn])

/-- **C34 does not hold** for the static multi containers if the key passed to `erase(const Key&)` is (part of) an element:
from {1, 2}, `erase(*begin())` removes both elements; from {1, 1}, `erase(*(begin() + 1))` reads a destroyed object. -/
theorem staticUnord_erase_alias :
    (∃ o r o', Reached (staticCont true false Demo.ueq (Demo.env []) Demo.ib3 2) (staticSem true Demo.ueq (Demo.env []) 2)
        Demo.m3 0 o ∧
      (staticImpl true false Demo.ueq (Demo.env []) 2).contents o = .ok [1, 2] o ∧
      (staticImpl true false Demo.ueq (Demo.env []) 2).exec (.eraseEqual 0) o = .ok r o' ∧
      Demo.show' ((staticImpl true false Demo.ueq (Demo.env []) 2).contents o') = some []) ∧
    (∃ o u, Reached (staticCont true false Demo.ueq (Demo.env []) Demo.ib3 2) (staticSem true Demo.ueq (Demo.env []) 2)
        Demo.m3 0 o ∧
      (staticImpl true false Demo.ueq (Demo.env []) 2).contents o = .ok [1, 1] o ∧
      (staticImpl true false Demo.ueq (Demo.env []) 2).exec (.eraseEqual 1) o = .ub u) := by
  constructor
  · have hr := Demo.sumultiOf_reached [1, 2] (by decide +kernel)
    obtain ⟨xs, hc, -⟩ := staticUnord_modify Demo.ueq_lawful (Demo.objects3 _ (by decide)) hr
    obtain rfl : xs = [1, 2] := Demo.contents_of hc (by decide +kernel)
    obtain ⟨r, o', hx, ho⟩ := Demo.ok_leftIn (I := staticImpl true false Demo.ueq (Demo.env []) 2)
      (r := (staticImpl true false Demo.ueq (Demo.env []) 2).exec (.eraseEqual 0) (Demo.sumultiOf [1, 2]))
      (xs := []) (by decide +kernel)
    exact ⟨_, r, o', hr, hc, hx, ho⟩
  · have hr := Demo.sumultiOf_reached [1, 1] (by decide +kernel)
    obtain ⟨xs, hc, -⟩ := staticUnord_modify Demo.ueq_lawful (Demo.objects3 _ (by decide)) hr
    obtain rfl : xs = [1, 1] := Demo.contents_of hc (by decide +kernel)
    obtain ⟨u, hx⟩ := Demo.ub_of
      (r := (staticImpl true false Demo.ueq (Demo.env []) 2).exec (.eraseEqual 1) (Demo.sumultiOf [1, 1]))
      (by decide +kernel)
    exact ⟨_, u, hr, hc, hx⟩

/-- **C36 does not hold** for `emplace` of static_unordered_flat_set and static_unordered_flat_map: the element is
appended, and if the equality throws while looking for its key, it stays. -/
theorem staticUnord_emplace_throw : ∃ (U : KeyEq Nat Nat) (E : Env Nat) (o o' : Obj Vec Nat) (e : Exn), U.Lawful ∧ NothrowMove E ∧
    Reached (staticCont false true U E Demo.ib3 2) (staticSem false U E 2) Demo.m3 0 o ∧
    (staticImpl false true U E 2).contents o = .ok [5] o ∧
    (staticImpl false true U E 2).exec (.emplace 5) o = .exn e o' ∧
    (staticImpl false true U E 2).contents o' = .ok [5, 5] o' := by
  have hr := Demo.sumapOf_reached [3] [5] (by decide +kernel)
  obtain ⟨xs, hc, -, hop⟩ := staticUnord_modify Demo.ueqT_lawful (Demo.objects3 _ (by decide)) hr
  obtain rfl : xs = [5] := Demo.contents_of hc (by decide +kernel)
  obtain ⟨e, o', hx⟩ := Demo.exn_of
    (r := (staticImpl false true Demo.ueqT (Demo.envCopy [3]) 2).exec (.emplace 5) (Demo.sumapOf [3] [5])) (by decide +kernel)
  obtain ⟨ys, h1, -⟩ := (hop (.emplace 5) rfl (by decide) rfl rfl).2.2 e o' hx
  have hys : Demo.leftIn (staticImpl false true Demo.ueqT (Demo.envCopy [3]) 2)
      ((staticImpl false true Demo.ueqT (Demo.envCopy [3]) 2).exec (.emplace 5) (Demo.sumapOf [3] [5])) = some [5, 5] := by
    decide +kernel
  rw [hx] at hys
  obtain rfl : ys = [5, 5] := Demo.contents_of h1 hys
  exact ⟨_, _, _, o', e, Demo.ueqT_lawful, ⟨rfl, rfl⟩, hr, hc, hx, h1⟩

/-- Heterogeneous `count` of the static containers with unique keys is at most 1: in {5, 3} there are two odd numbers. -/
theorem staticUnord_count_heterogeneous : ∃ (o : Obj Vec Nat) (xs : List Nat) (f : Nat → Bool) (o' : Obj Vec Nat),
    Reached (staticCont false true Demo.ueqT (Demo.envCopy []) Demo.ib3 2)
      (staticSem false Demo.ueqT (Demo.envCopy []) 2) Demo.m3 0 o ∧
    (staticImpl false true Demo.ueqT (Demo.envCopy []) 2).contents o = .ok xs o ∧ Demo.ueqT.Distinct false xs ∧
    query false Demo.ueqT (Demo.envCopy []) (.pred f) .count o = .ok (.num 1) o' ∧ xs.countP f = 2 := by
  have hr := Demo.sumapOf_reached [] [5, 3] (by decide +kernel)
  obtain ⟨xs, hc, -⟩ := staticUnord_modify Demo.ueqT_lawful (Demo.objects3 _ (by decide)) hr
  obtain rfl : xs = [5, 3] := Demo.contents_of hc (by decide +kernel)
  obtain ⟨o', ho'⟩ := Demo.ok_of
    (r := query false Demo.ueqT (Demo.envCopy []) (.pred fun x => x % 2 == 1) .count (Demo.sumapOf [] [5, 3]))
    (b := .num 1) (by decide +kernel)
  exact ⟨_, _, _, o', hr, hc, by simp [KeyEq.Distinct, KMap.Distinct, Demo.ueqT, Demo.ueq], ho', by decide⟩

end Sfl
