import Verif.PropStatic
import Verif.PropVector3
import Verif.UnordNoAlloc
import Verif.UnordMap
/-
  Properties of small_unordered_flat_set, small_unordered_flat_map (`multi = false`), small_unordered_flat_multiset and
  small_unordered_flat_multimap (`multi = true`): C31, C33, C34, C36, C37, C38. All theorems are about containers in
  arbitrary programs with any number of containers, allocators, exception schedules and initial memories.
-/

namespace Sfl
open World Unord
open Flat (Ret Init Ans)
variable {α κ : Type}

theorem World.Reached.small {K : Nat} {E : Env α} {ib : Fin K → Nat} {N : Nat} {m0 : St α} {Op I ρ : Type}
    {c : Cont K Op I Vec α ρ} {S : Sem Op I α ρ} {i : Fin K} {o : Obj Vec α} (h : Reached c S m0 i o)
    (hm : Objects E ib N m0) (hS : Spec c S (SmallVector.rep E ib N)) :
    ∃ H al b cap xs, VSt H E (ib i) N o al b cap xs := by
  obtain ⟨hw, al, xs, F, b, cap, k, -⟩ := h.rep hS (hm.start hS)
  exact ⟨_, al, b, cap, xs, k.vst hw (Rest.out _ _)⟩

/-- Integers with `==` (a set). -/
def Demo.ueq : KeyEq Nat Nat := ⟨id, fun a b => a == b, true, fun a _ => a⟩

/-- Elements `100 * key + value` (a map). -/
def Demo.umap : KeyEq Nat Nat := ⟨fun a => a / 100, fun a b => a == b, false, fun a b => a / 100 * 100 + b % 100⟩

/-- Integers, equal if they have the same tens. -/
def Demo.utens : KeyEq Nat Nat := ⟨id, fun a b => a / 10 == b / 10, true, fun a _ => a⟩

theorem Demo.ueq_lawful : Demo.ueq.Lawful :=
  ⟨⟨by simp [Demo.ueq], by simp [Demo.ueq], by simp [Demo.ueq]⟩, by simp [Demo.ueq]⟩

theorem Demo.umap_lawful : Demo.umap.Lawful :=
  ⟨⟨by simp [Demo.umap], by simp [Demo.umap], by simp [Demo.umap]⟩, by simp [Demo.umap]; omega⟩

theorem Demo.utens_lawful : Demo.utens.Lawful :=
  ⟨⟨by simp [Demo.utens], by simp [Demo.utens]; omega, by simp [Demo.utens]; omega⟩, by simp [Demo.utens]⟩

/-! ### Whole programs: C33, C36 -/

/-- **C33, C36.** Any program with small unordered flat sets, maps, multisets or multimaps (constructors, copies, moves,
assignments, swaps and modifiers in any order, everything possibly throwing) followed by reading all containers and
destroying them has no undefined behaviour and ends with the memory as it was; results and elements follow the
abstract specification (`smallSem`, lists only); and every set and map whose history (`trackAll`) does not contain a
move from it or an exception of an operation without a promise contains no two equal keys. -/
theorem smallUnord_session (K : Nat) (multi isMap : Bool) (U : KeyEq α κ) (L : U.Lawful) (E : Env α) (T : Traits) (N : Nat)
    (ib : Fin K → Nat) (m0 : St α) (hm : Objects E ib N m0) (ops : List (WOp K (Unord.Op α κ) (Init α))) :
    ∃ log A o', World.session (smallCont multi isMap U E T ib N) (smallSem multi isMap U E T) ops ⟨fun _ => none, m0⟩ =
        .ok (log, (List.finRange K).map A) o' ∧
      WRun (smallSem multi isMap U E T) (fun _ => none) ops log A ∧
      InOrder (U.Distinct multi) (trackAll (smallFlags multi isMap E.nothrowMoves U.nothrow) (fun _ => false) ops log) A ∧
      o'.m.mem = m0.mem ∧ o'.m.blk = m0.blk := by
  obtain ⟨log, A, o', h1, h2, h3, h4⟩ := (smallSpec (multi := multi) (isMap := isMap) (T := T) L hm.fits).session hm.wf
    (fun i => ⟨(hm.raw i).blk, (hm.raw i).raw⟩) (by
      intro i j hij c h1 h2
      have e1 := h1.2.elim id id
      have e2 := h2.2.elim id id
      exact hm.disj i j hij (e1 ▸ h1.1) (e1.symm.trans e2)) ops
  refine ⟨log, A, o', h1, h2, ?_, h3, h4⟩
  refine InOrder.run (smallKeeps L (fun h => ?_)) ?_ h2
  · simpa [Env.nothrowMoves, NothrowMove] using h
  · intro i al xs hi; cases hi

/-- **C33.** As long as operations complete normally and no container is moved from, no unordered flat set or map of a
program contains two equal keys. -/
theorem smallUnord_distinct (K : Nat) (isMap : Bool) (U : KeyEq α κ) (L : U.Lawful) (E : Env α) (T : Traits) (N : Nat)
    (ib : Fin K → Nat) (m0 : St α) (hm : Objects E ib N m0) (ops : List (WOp K (Unord.Op α κ) (Init α)))
    {log : List (Sq.Out (Option Ret))} {cs : List (Option (Nat × List α))} {o' : Slots K Vec α}
    (hx : World.session (smallCont false isMap U E T ib N) (smallSem false isMap U E T) ops ⟨fun _ => none, m0⟩ =
      .ok (log, cs) o')
    (hn : ∀ op ∈ ops, op.moves = false) (ht : ∀ out ∈ log, ∀ e, out ≠ .threw e) :
    ∀ al xs, some (al, xs) ∈ cs → xs.Pairwise (fun a b => U.eq (U.key a) (U.key b) = false) := by
  obtain ⟨log', A, o1, h1, -, h3, -⟩ := smallUnord_session K false isMap U L E T N ib m0 hm ops
  rw [hx] at h1
  cases h1
  rw [trackAll_none ops log (fun _ _ _ => rfl) hn ht] at h3
  intro al xs hc
  obtain ⟨i, -, hi⟩ := List.mem_map.mp hc
  exact h3 i al xs hi rfl rfl

/-! ### One container in any program: C31, C33, C34, C36, C37 -/

section
variable {K : Nat} {multi isMap : Bool} {U : KeyEq α κ} {E : Env α} {T : Traits} {ib : Fin K → Nat} {N : Nat} {m0 : St α}
  {i : Fin K} {o : Obj Vec α} {xs : List α}

/-- **C31, C33, C34, C36.** Every modifier of every small unordered flat container in every program, called under its
precondition: it has no undefined behaviour; if it returns, result and elements are as specified (provided, for
`erase(key)` of sets and maps, that there are no equal keys); if it throws, what is left is as described in `Op.Failure`. -/
theorem smallUnord_modify (L : U.Lawful) (hm : Objects E ib N m0)
    (h : Reached (smallCont multi isMap U E T ib N) (smallSem multi isMap U E T) m0 i o) :
    ∃ xs, (smallImpl multi isMap U E (ib i) N).contents o = .ok xs o ∧
      ∀ op : Unord.Op α κ, op.pre multi xs.length = true →
      (∀ u, (smallImpl multi isMap U E (ib i) N).exec op o ≠ .ub u) ∧
      (∀ r o', (smallImpl multi isMap U E (ib i) N).exec op o = .ok r o' → ∃ ys,
        (smallImpl multi isMap U E (ib i) N).contents o' = .ok ys o' ∧
        ((op.keyed = false ∨ U.Distinct multi xs) → op.Result U multi xs r ys)) ∧
      (∀ e o', (smallImpl multi isMap U E (ib i) N).exec op o = .exn e o' → ∃ ys,
        (smallImpl multi isMap U E (ib i) N).contents o' = .ok ys o' ∧
        op.Failure U multi isMap (Strong E) (NothrowMove E) E.maxSize xs e ys) := by
  obtain ⟨H, al, b, cap, xs, hv⟩ := h.small hm (smallSpec L hm.fits)
  refine ⟨xs, hv.contents _ rfl rfl, fun op hp => ?_⟩
  have hs := exec_spec L (small_ok multi isMap E (ib i) N) op hv hp (fun h => by cases h)
  refine ⟨fun u => wp_not_ub hs, fun r o' hx => ?_, fun e o' hx => ?_⟩
  · obtain ⟨b', cap', ys, k1, k2⟩ := wp_ok hx hs
    exact ⟨ys, k1.v.contents _ rfl rfl, k2⟩
  · obtain ⟨b', cap', ys, k1, k2, -⟩ := wp_exn hx hs
    exact ⟨ys, k1.v.contents _ rfl rfl, k2⟩

/-- **C36** if moving elements does not throw, for all operations except `emplace` of maps with an equality that may throw:
whatever throws (copies, allocation, equality), there are still no two equal keys; and insertions of one element have
not changed the container at all. See `smallUnord_emplace_throw` for the rest. -/
theorem smallUnord_throw_partial (L : U.Lawful) (hm : Objects E ib N m0)
    (h : Reached (smallCont multi isMap U E T ib N) (smallSem multi isMap U E T) m0 i o)
    (hc : (smallImpl multi isMap U E (ib i) N).contents o = .ok xs o) (hs : U.Distinct multi xs) (hE : NothrowMove E)
    {op : Unord.Op α κ} (hsafe : op.careful multi isMap U.nothrow = true) (hp : op.pre multi xs.length = true) {e : Exn}
    {o' : Obj Vec α} (hx : (smallImpl multi isMap U E (ib i) N).exec op o = .exn e o') :
    ∃ ys, (smallImpl multi isMap U E (ib i) N).contents o' = .ok ys o' ∧ U.Distinct multi ys ∧
      (op.one = true → ys = xs) ∧ (op.erases = true → ∃ zs, zs.Sublist xs ∧ ys.Perm zs) := by
  obtain ⟨xs', hc', hop⟩ := smallUnord_modify L hm h
  rw [hc] at hc'
  cases hc'
  obtain ⟨ys, k1, k2⟩ := (hop op hp).2.2 e o' hx
  exact ⟨ys, k1, k2.distinct hE hsafe hs, fun h => k2.strong (Or.inl hE.1) hsafe (Or.inl h), k2.some hE⟩

/-- **C37.** If an insertion of one element, `reserve` or `shrink_to_fit` throws (allocation, element or equality), the
container and all of memory are unchanged: no element is lost, nothing is leaked. Elements must be nothrow move
constructible or copyable; `emplace` of maps is excluded if the equality may throw. -/
theorem smallUnord_strong (L : U.Lawful) (hm : Objects E ib N m0)
    (h : Reached (smallCont multi isMap U E T ib N) (smallSem multi isMap U E T) m0 i o)
    (hE : Strong E) {op : Unord.Op α κ} {n : Nat} {o1 o' : Obj Vec α} {e : Exn} (hn : Vector.size o = .ok n o1)
    (hp : op.pre multi n = true) (hsafe : op.careful multi isMap U.nothrow = true)
    (hop : op.one = true ∨ op.storage = true) (hx : (smallImpl multi isMap U E (ib i) N).exec op o = .exn e o') :
    o'.obj = o.obj ∧ o'.m.mem = o.m.mem ∧ o'.m.blk = o.m.blk := by
  obtain ⟨H, al, b, cap, xs, hv⟩ := h.small hm (smallSpec L hm.fits)
  obtain rfl := hv.size_eq hn
  obtain ⟨b', cap', ys, k1, k2, k3⟩ := wp_exn hx
    (exec_spec L (small_ok multi isMap E (ib i) N) op hv hp (fun h => by cases h))
  obtain ⟨rfl, rfl⟩ := k3 hE hsafe hop
  obtain rfl : ys = xs := k2.strong hE hsafe hop
  exact hv.eq k1.v

/-- **C33** for the containers of a running program: a set or map whose history contains no move from it and no
exception of an operation without a promise has no two equal keys. -/
theorem smallUnord_in_order (L : U.Lawful) (hm : Objects E ib N m0) {ops : List (WOp K (Unord.Op α κ) (Init α))}
    {log : List (Sq.Out (Option Ret))} {s : Slots K Vec α} {v : Vec}
    (hx : World.runOps (smallCont multi isMap U E T ib N) (smallSem multi isMap U E T) ops ⟨fun _ => none, m0⟩ = .ok log s)
    (hv : s.obj i = some v)
    (ht : trackAll (smallFlags multi isMap E.nothrowMoves U.nothrow) (fun _ => false) ops log i = false) :
    ∃ xs, (smallImpl multi isMap U E (ib i) N).contents ⟨v, s.m⟩ = .ok xs ⟨v, s.m⟩ ∧ U.Distinct multi xs := by
  have hS := smallSpec (multi := multi) (isMap := isMap) (T := T) (ib := ib) L hm.fits
  obtain ⟨A, F, k, w⟩ := wp_ok hx (hS.runOps ops (hm.start hS))
  have ho : InOrder (U.Distinct multi)
      (trackAll (smallFlags multi isMap E.nothrowMoves U.nothrow) (fun _ => false) ops log) A := by
    refine InOrder.run (smallKeeps L (fun h => ?_)) ?_ w
    · simpa [Env.nothrowMoves, NothrowMove] using h
    · intro i al xs hi; cases hi
  have hc := k.cell i
  rw [hv] at hc
  cases hA : A i with
  | none => rw [hA] at hc; exact hc.elim
  | some a =>
    rw [hA] at hc
    obtain ⟨b, cap, k', -⟩ := hc
    exact ⟨a.2, (k'.vst k.wf (Rest.out _ _)).contents _ rfl rfl, ho i _ _ hA ht⟩

/-- What `insert(value)` and `emplace` do to a set or map with elements `xs`: `true` is returned iff there was no equal
key, and then the value has been added; otherwise nothing changes; the iterator refers to the element with
the key. -/
def InsertsOne (U : KeyEq α κ) (xs : List α) (v : α) (r : Ret) (ys : List α) : Prop :=
  ∃ j new, r = .ins j new ∧ (new = true ↔ ∀ x ∈ xs, U.eq (U.key x) (U.key v) = false) ∧
    (∃ y, ys[j]? = some y ∧ U.eq (U.key y) (U.key v) = true) ∧ (new = true → ys.Perm (v :: xs)) ∧ (new = false → ys = xs)

theorem Unord.Inserted.one (L : U.Lawful) {v : α} {j : Nat} {new : Bool} {ys : List α} (h : Inserted U false xs v j new ys) :
    InsertsOne U xs v (.ins j new) ys := by
  refine ⟨j, new, rfl, ?_, ?_, ?_, ?_⟩
  · rcases h with ⟨rfl, h1, -⟩ | ⟨rfl, -, -, x, h1, h2⟩
    · exact ⟨fun _ => h1.resolve_left (by simp), fun _ => rfl⟩
    · simp only [Bool.false_eq_true, false_iff]
      intro hno
      have := hno x (List.mem_of_getElem? h1)
      rw [KeyEq.same, this] at h2; cases h2
  · rcases h with ⟨rfl, h1, rfl, rfl⟩ | ⟨rfl, -, rfl, x, h1, h2⟩
    · exact ⟨v, by simp, L.equiv.refl _⟩
    · exact ⟨x, h1, h2⟩
  · rcases h with ⟨rfl, h1, rfl, rfl⟩ | ⟨rfl, -⟩
    · intro _; exact List.perm_append_singleton v xs
    · intro h; cases h
  · rcases h with ⟨rfl, -⟩ | ⟨rfl, -, rfl, -⟩
    · intro h; cases h
    · intro _; rfl

/-- **C33**: insertion and emplacement into sets and maps. -/
theorem smallUnord_insert (L : U.Lawful) (hm : Objects E ib N m0)
    (h : Reached (smallCont false isMap U E T ib N) (smallSem false isMap U E T) m0 i o)
    (hc : (smallImpl false isMap U E (ib i) N).contents o = .ok xs o) :
    (∀ (s : Sq.Src α) r o', s.ok xs.length = true →
      (smallImpl false isMap U E (ib i) N).exec (.insert s) o = .ok r o' → ∃ v ys, s.get? xs = some v ∧
        (smallImpl false isMap U E (ib i) N).contents o' = .ok ys o' ∧ InsertsOne U xs v r ys) ∧
    (∀ v r o', (smallImpl false isMap U E (ib i) N).exec (.emplace v) o = .ok r o' → ∃ ys,
        (smallImpl false isMap U E (ib i) N).contents o' = .ok ys o' ∧ InsertsOne U xs v r ys) := by
  obtain ⟨xs', hc', hop⟩ := smallUnord_modify L hm h
  rw [hc] at hc'
  cases hc'
  constructor
  · intro s r o' hsrc hx
    obtain ⟨ys, k1, k2⟩ := (hop (.insert s) (by simpa [Unord.Op.pre, Unord.Op.uniqueOnly] using hsrc)).2.1 r o' hx
    obtain ⟨v, j, new, e1, rfl, k3⟩ := k2 (Or.inl rfl)
    exact ⟨v, ys, e1, k1, k3.one L⟩
  · intro v r o' hx
    obtain ⟨ys, k1, k2⟩ := (hop (.emplace v) rfl).2.1 r o' hx
    obtain ⟨j, new, rfl, k3⟩ := k2 (Or.inl rfl)
    exact ⟨ys, k1, k3.one L⟩

/-- **C33**: `erase(pos)` and `erase(first, last)` remove exactly the designated elements and keep all others; the
iterator returned is the position of the first removed element, and what stood before has not moved. -/
theorem smallUnord_erase (L : U.Lawful) (hm : Objects E ib N m0)
    (h : Reached (smallCont multi isMap U E T ib N) (smallSem multi isMap U E T) m0 i o)
    (hc : (smallImpl multi isMap U E (ib i) N).contents o = .ok xs o) {k l : Nat} (hkl : k ≤ l) (hl : l ≤ xs.length)
    {r : Ret} {o' : Obj Vec α}
    (hx : (smallImpl multi isMap U E (ib i) N).exec (.eraseRange k l) o = .ok r o' ∨
      l = k + 1 ∧ (smallImpl multi isMap U E (ib i) N).exec (.eraseAt k) o = .ok r o') :
    r = .pos k ∧ ∃ ys, (smallImpl multi isMap U E (ib i) N).contents o' = .ok ys o' ∧
      ys.Perm (xs.take k ++ xs.drop l) ∧ ys.take k = xs.take k := by
  obtain ⟨xs', hc', hop⟩ := smallUnord_modify L hm h
  rw [hc] at hc'
  cases hc'
  rcases hx with hx | ⟨rfl, hx⟩
  · obtain ⟨ys, k1, k2⟩ := (hop (.eraseRange k l) (by simp [Unord.Op.pre, Unord.Op.uniqueOnly, hkl, hl])).2.1 r o' hx
    obtain ⟨e1, e2⟩ := k2 (Or.inl rfl)
    exact ⟨e1, ys, k1, e2.perm, e2.1⟩
  · obtain ⟨ys, k1, k2⟩ := (hop (.eraseAt k) (by simp [Unord.Op.pre, Unord.Op.uniqueOnly]; omega)).2.1 r o' hx
    obtain ⟨e1, e2⟩ := k2 (Or.inl rfl)
    exact ⟨e1, ys, k1, e2.perm, e2.1⟩

/-- **C33, C34**: `erase(key)` removes exactly the elements with an equal key, keeps all others, and returns how many
have been removed; for sets and maps also if the key is that of an element of the container. For multi containers the
key must not be inside the container: `smallUnord_erase_alias`. -/
theorem smallUnord_erase_key_partial (L : U.Lawful) (hm : Objects E ib N m0)
    (h : Reached (smallCont multi isMap U E T ib N) (smallSem multi isMap U E T) m0 i o)
    (hc : (smallImpl multi isMap U E (ib i) N).contents o = .ok xs o) (hs : U.Distinct multi xs) {op : Unord.Op α κ} {k : κ}
    (hop : op = .eraseKey k ∨ ∃ j x, xs[j]? = some x ∧ k = U.key x ∧ op = .eraseEqual j ∧ multi = false)
    {r : Ret} {o' : Obj Vec α} (hx : (smallImpl multi isMap U E (ib i) N).exec op o = .ok r o') :
    r = .num (xs.countP (fun x => U.eq (U.key x) k)) ∧
    ∃ ys, (smallImpl multi isMap U E (ib i) N).contents o' = .ok ys o' ∧
      ys.Perm (xs.filter (fun x => !U.eq (U.key x) k)) := by
  obtain ⟨xs', hc', hmod⟩ := smallUnord_modify L hm h
  rw [hc] at hc'
  cases hc'
  rcases hop with rfl | ⟨j, x, hj, rfl, rfl, rfl⟩
  · obtain ⟨ys, k1, k2⟩ := (hmod (.eraseKey k) (by simp [Unord.Op.pre, Unord.Op.uniqueOnly])).2.1 r o' hx
    obtain ⟨e1, e2⟩ := k2 (Or.inr hs)
    exact ⟨e1, ys, k1, e2⟩
  · have hlt : j < xs.length := (List.getElem?_eq_some_iff.mp hj).1
    obtain ⟨ys, k1, k2⟩ := (hmod (.eraseEqual j) (by simpa [Unord.Op.pre, Unord.Op.uniqueOnly] using hlt)).2.1 r o' hx
    obtain ⟨x', hx', e1, e2⟩ := k2 (Or.inr hs)
    rw [hj] at hx'
    cases hx'
    exact ⟨e1, ys, k1, e2⟩

/-- **C31.** Every operation of an unordered flat map without equal keys acts on the finite map the elements stand for
like the operation of finite maps (`Op.MapResult`), and keeps the keys different; `operator[]` is try_emplace with a
default value. -/
theorem smallUnord_map (L : U.Lawful) (hm : Objects E ib N m0)
    (h : Reached (smallCont false isMap U E T ib N) (smallSem false isMap U E T) m0 i o)
    (hc : (smallImpl false isMap U E (ib i) N).contents o = .ok xs o) (hs : U.Distinct false xs) {op : Unord.Op α κ}
    (hp : op.pre false xs.length = true) {r : Ret} {o' : Obj Vec α}
    (hx : (smallImpl false isMap U E (ib i) N).exec op o = .ok r o') :
    ∃ ys, (smallImpl false isMap U E (ib i) N).contents o' = .ok ys o' ∧ op.MapResult U xs (U.get xs) (U.get ys) ∧
      U.Distinct false ys := by
  obtain ⟨xs', hc', hop⟩ := smallUnord_modify L hm h
  rw [hc] at hc'
  cases hc'
  obtain ⟨ys, k1, k2⟩ := (hop op hp).2.1 r o' hx
  exact ⟨ys, k1, (k2 (Or.inr hs)).map L hp hs, (k2 (Or.inr hs)).distinct L hp (Or.inl hs)⟩

/-! ### Lookup: C31, C33 -/

/-- What lookup does: the right answer; nothing but the counter of element operations changes; only `at` throws
out_of_range, exactly if no element matches, and other exceptions come from the equality. -/
def FindsKey (multi : Bool) (U : KeyEq α κ) (E : Env α) (s : Sought α) (f : α → Bool) (q : Unord.Query) (xs : List α)
    (o : Obj Vec α) : Prop :=
  (∀ u, Unord.query multi U E s q o ≠ .ub u) ∧
  (∀ a o', Unord.query multi U E s q o = .ok a o' →
    q.Answer f xs a ∧ o'.obj = o.obj ∧ o'.m.mem = o.m.mem ∧ o'.m.blk = o.m.blk) ∧
  (∀ e o', Unord.query multi U E s q o = .exn e o' → o'.obj = o.obj ∧ o'.m.mem = o.m.mem ∧ o'.m.blk = o.m.blk ∧
    (e = .outOfRange ∧ q = .at ∧ (∀ x ∈ xs, f x = false) ∨ e = .elem ∧ U.nothrow = false))

theorem findsKey {H : Heap α} {ib al b cap : Nat} (h : VSt H E ib N o al b cap xs) {s : Sought α} {f : α → Bool}
    (hs : s.Means U o.m f) (q : Unord.Query) (hone : multi = false → q = .count → xs.countP f ≤ 1) :
    FindsKey multi U E s f q xs o := by
  have hs := Unord.query_spec (multi := multi) (U := U) q h hs hone
  refine ⟨fun u => wp_not_ub hs, fun a o' hx => ?_, fun e o' hx => ?_⟩
  · obtain ⟨l, k⟩ := wp_ok hx hs
    exact ⟨k, l.obj, l.q.mem, l.q.blk⟩
  · obtain ⟨l, k⟩ := wp_exn hx hs
    exact ⟨l.obj, l.q.mem, l.q.blk, k⟩

/-- **C31, C33**: lookup with a key of the container's key type is exact. -/
theorem smallUnord_lookup (L : U.Lawful) (hm : Objects E ib N m0)
    (h : Reached (smallCont multi isMap U E T ib N) (smallSem multi isMap U E T) m0 i o)
    (hc : (smallImpl multi isMap U E (ib i) N).contents o = .ok xs o) (hs : U.Distinct multi xs) (k : κ) (q : Unord.Query) :
    FindsKey multi U E (.pred fun x => U.eq (U.key x) k) (fun x => U.eq (U.key x) k) q xs o := by
  obtain ⟨H, al, b, cap, xs', hv⟩ := h.small hm (smallSpec L hm.fits)
  have := hv.contents (smallImpl multi isMap U E (ib i) N) rfl rfl
  rw [hc] at this
  cases this
  refine findsKey (s := .pred _) hv rfl q fun hm _ => ?_
  subst hm
  exact hs.countP_le L k

/-- **C31, C33**: lookup with keys of other types (heterogeneous lookup), for any notion of "equal to the key", is exact,
except `count` of containers with unique keys, which needs that at most one element matches; see
`smallUnord_count_heterogeneous`. -/
theorem smallUnord_lookup_partial (L : U.Lawful) (hm : Objects E ib N m0)
    (h : Reached (smallCont multi isMap U E T ib N) (smallSem multi isMap U E T) m0 i o)
    (hc : (smallImpl multi isMap U E (ib i) N).contents o = .ok xs o) (f : α → Bool) (q : Unord.Query)
    (hone : multi = false → q = .count → xs.countP f ≤ 1) : FindsKey multi U E (.pred f) f q xs o := by
  obtain ⟨H, al, b, cap, xs', hv⟩ := h.small hm (smallSpec L hm.fits)
  have := hv.contents (smallImpl multi isMap U E (ib i) N) rfl rfl
  rw [hc] at this
  cases this
  exact findsKey (s := .pred _) hv rfl q hone

end

/-! ### Comparison: C38 -/

/-- What a program that ends in the state `o` with the abstract containers `A` can observe with `==` and `!=`: for the
containers in any two slots (also the same one), they are equal iff the elements of one can be rearranged to be equal,
one by one, to those of the other; nothing changes. -/
def BagCompares {K : Nat} (eq : α → α → Bool) (o : Slots K Vec α) (A : Abs K α) : Prop :=
  ∀ i j a b xs ys, A i = some (a, xs) → A j = some (b, ys) → ∃ v w, o.obj i = some v ∧ o.obj j = some w ∧
    (∃ r, Unord.eqOp eq v w o.m = .ok r o.m ∧ (r = true ↔ SameBag eq xs ys)) ∧
    (∃ r, Unord.neOp eq v w o.m = .ok r o.m ∧ (r = true ↔ ¬ SameBag eq xs ys))

theorem bagCompares {K : Nat} {o : Slots K Vec α} {A : Abs K α} {eq : α → α → Bool} (he : KMap.Equiv eq)
    (get : ∀ i a xs, A i = some (a, xs) → ∃ v, o.obj i = some v ∧ v.Holds o.m xs) : BagCompares eq o A := by
  intro i j a b xs ys hi hj
  obtain ⟨v, hv, kv⟩ := get i a xs hi
  obtain ⟨w, hw, kw⟩ := get j b ys hj
  refine ⟨v, w, hv, hw, ?_, ?_⟩
  · obtain ⟨r, s', e, k, rfl⟩ := wp_elim (eqOp_spec (X := fun _ _ => False) he kv kw)
    exact ⟨r, e, k⟩
  · obtain ⟨r, s', e, k, rfl⟩ := wp_elim (neOp_spec (X := fun _ _ => False) he kv kw)
    exact ⟨r, e, k⟩

theorem World.Inv.holds {K : Nat} {E : Env α} {ib : Fin K → Nat} {N : Nat} {m0 : St α} {o : Slots K Vec α} {A : Abs K α}
    {F : Fin K → Foot} (h : Inv (SmallVector.rep E ib N) m0 o A F) :
    ∀ i a xs, A i = some (a, xs) → ∃ v, o.obj i = some v ∧ v.Holds o.m xs := by
  intro i a xs hi
  have := h.cell i
  rw [hi] at this
  cases hv : o.obj i with
  | none => rw [hv] at this; exact this.elim
  | some v =>
    rw [hv] at this
    obtain ⟨b, cap, k, -⟩ := this
    exact ⟨v, rfl, k.holds⟩

/-- **C38.** After any program with any number of small unordered flat containers, `==` and `!=` compare any two of them as
multisets of elements, if `==` of the elements is an equivalence relation. -/
theorem smallUnord_compare (K : Nat) (multi isMap : Bool) (U : KeyEq α κ) (L : U.Lawful) (E : Env α) (T : Traits) (N : Nat)
    (ib : Fin K → Nat) (m0 : St α) (hm : Objects E ib N m0) (eq : α → α → Bool) (he : KMap.Equiv eq)
    (ops : List (WOp K (Unord.Op α κ) (Init α))) :
    ∃ log A o, World.runOps (smallCont multi isMap U E T ib N) (smallSem multi isMap U E T) ops ⟨fun _ => none, m0⟩ =
        .ok log o ∧ WRun (smallSem multi isMap U E T) (fun _ => none) ops log A ∧ BagCompares eq o A := by
  have hS := smallSpec (multi := multi) (isMap := isMap) (T := T) (ib := ib) L hm.fits
  obtain ⟨log, o, e, A, F, k1, k2⟩ := wp_elim (hS.runOps ops (hm.start hS))
  exact ⟨log, A, o, e, k2, bagCompares he k1.holds⟩

/-- **C38**, meaning of `SameBag`: every element occurs as often in one sequence as in the other, up to `==`; and if
`==` is equality, the sequences are permutations of each other. -/
theorem unord_sameBag {eq : α → α → Bool} (he : KMap.Equiv eq) (xs ys : List α) :
    (SameBag eq xs ys ↔ xs.length = ys.length ∧ ∀ a, xs.countP (eq · a) = ys.countP (eq · a)) ∧
    ((∀ a b, eq a b = true ↔ a = b) → (SameBag eq xs ys ↔ xs.Perm ys)) :=
  ⟨sameBag_iff he, fun h => sameBag_perm h⟩

/-! ### Concrete cases -/

/-- Three small_unordered_flat_map<int, int, 2> with elements that throw now and then (`smallUnord_session`). -/
example : Demo.show' (World.session (smallCont false true Demo.umap (Demo.env [4, 30]) Demo.T Demo.ib3 2)
    (smallSem false true Demo.umap (Demo.env [4, 30]) Demo.T)
    [.make 0 7 (.range [301, 502, 303]), .make 0 7 (.range [301, 502, 303]), .op 0 (.insert (.value 404)),
     .op 0 (.insertHint 3 (.elem 1)), .op 0 (.insertOrAssign 455), .make 1 7 .empty, .op 1 (.emplaceHint 0 900),
     .assignCopy 1 0, .op 0 (.eraseKey 4), .swap 0 1, .makeMove 2 0 none, .op 2 (.tryEmplaceHint 0 404), .op 2 (.eraseRange 0 2)]
    ⟨fun _ => none, Demo.m3⟩) =
    some ([.ok none, .skipped, .threw .elem, .skipped, .ok (some (.ins 2 true)), .ok none, .ok (some (.pos 0)), .ok none,
      .ok (some (.num 1)), .ok none, .ok none, .ok (some (.pos 2)), .ok (some (.pos 0))],
      [some (7, []), some (7, [301, 502]), some (7, [455])]) := by decide +kernel

/-- A program as in `smallUnord_distinct`: two small_unordered_flat_set<int, 2> of classes of numbers. -/
example : Demo.show' (World.session (smallCont false false Demo.utens (Demo.env []) Demo.T Demo.ib3 2)
    (smallSem false false Demo.utens (Demo.env []) Demo.T)
    [.make 0 7 (.range [31, 12, 35, 55, 71]), .op 0 (.insert (.value 17)), .op 0 (.insertHint 0 (.elem 1)),
     .makeCopy 1 0 none, .op 1 (.eraseKey 10), .op 0 (.emplaceHint 1 38), .op 0 (.emplace 88), .op 0 (.eraseRange 0 1),
     .op 0 (.eraseEqual 1), .op 1 (.insertRange [22, 19, 24])] ⟨fun _ => none, Demo.m3⟩) =
    some ([.ok none, .ok (some (.ins 1 false)), .ok (some (.pos 1)), .ok none, .ok (some (.num 1)), .ok (some (.pos 0)),
      .ok (some (.ins 4 true)), .ok (some (.pos 0)), .ok (some (.num 1)), .ok (some .unit)],
      [some (7, [88, 71, 55]), some (9, [31, 71, 55, 22, 19]), none]) := by decide +kernel

namespace Demo

/-- A small_unordered_flat_map<int, int, 2> with elements (3, 1), (5, 2). -/
def umapOf (ts : List Nat) : Obj Vec Nat :=
  after (World.runOps (smallCont false true umap (env ts) T ib3 2) (smallSem false true umap (env ts) T)
    [.make 0 7 (.range [301, 502])] ⟨fun _ => none, m3⟩) 0

/-- A small_unordered_flat_set<int, 2> of classes of numbers. -/
def usetOf : Obj Vec Nat :=
  after (World.runOps (smallCont false false utens (env []) T ib3 2) (smallSem false false utens (env []) T)
    [.make 0 7 (.range [31, 12, 55])] ⟨fun _ => none, m3⟩) 0

/-- A small_unordered_flat_multiset<int, 2>. -/
def umultiOf (xs : List Nat) : Obj Vec Nat :=
  after (World.runOps (smallCont true false ueq (env []) T ib3 2) (smallSem true false ueq (env []) T)
    [.make 0 7 (.range xs)] ⟨fun _ => none, m3⟩) 0

/-- `==` of integers as a function that may throw. -/
def ueqT : KeyEq Nat Nat := { ueq with nothrow := false }

theorem ueqT_lawful : ueqT.Lawful := ⟨ueq_lawful.equiv, ueq_lawful.upd⟩

/-- A small_unordered_flat_map with one element 5 (a key without value), capacity 2. -/
def umap5 : Obj Vec Nat :=
  after (World.runOps (smallCont false true ueqT (envCopy [2]) T ib3 2) (smallSem false true ueqT (envCopy [2]) T)
    [.make 0 7 (.range [5])] ⟨fun _ => none, m3⟩) 0

theorem umap5_reached : Reached (smallCont false true ueqT (envCopy [2]) T ib3 2) (smallSem false true ueqT (envCopy [2]) T)
    m3 0 umap5 := reachedIn (by decide +kernel)

theorem umultiOf_reached (xs : List Nat) (h : alive (World.runOps (smallCont true false ueq (env []) T ib3 2)
      (smallSem true false ueq (env []) T) [.make 0 7 (.range xs)] ⟨fun _ => none, m3⟩) 0 = true) :
    Reached (smallCont true false ueq (env []) T ib3 2) (smallSem true false ueq (env []) T) m3 0 (umultiOf xs) :=
  reachedIn h

theorem usetOf_reached : Reached (smallCont false false utens (env []) T ib3 2) (smallSem false false utens (env []) T)
    m3 0 usetOf := reachedIn (by decide +kernel)

/-- The contents left by a function, for display. -/
def leftIn {β Op ρ V : Type} (I : Sq.Impl Op V Nat ρ) : Res (Obj V Nat) β → Option (List Nat)
  | .exn _ o => show' (I.contents o)
  | .ok _ o => show' (I.contents o)
  | .ub _ => none

/-- Whether the result is undefined behaviour. -/
def isUB {β γ : Type} : Res γ β → Bool
  | .ub _ => true
  | _ => false

theorem ub_of {β γ : Type} {r : Res γ β} (h : isUB r = true) : ∃ u, r = .ub u := by
  cases r with
  | ub u => exact ⟨u, rfl⟩
  | ok => cases h
  | exn => cases h

theorem ok_leftIn {β Op ρ V : Type} {I : Sq.Impl Op V Nat ρ} {r : Res (Obj V Nat) β} {xs : List Nat}
    (h : leftIn I r = some xs ∧ threw r = false) : ∃ b o, r = .ok b o ∧ show' (I.contents o) = some xs := by
  cases r with
  | ok b o => exact ⟨b, o, rfl, h.1⟩
  | exn => cases h.2
  | ub => cases h.1

end Demo

open Demo in
/-- `smallUnord_modify`, `smallUnord_insert`, `smallUnord_erase`, `smallUnord_erase_key_partial`, `smallUnord_map`,
`smallUnord_lookup`, `smallUnord_lookup_partial`, `smallUnord_in_order`: their hypotheses are met by `Demo.umapOf`. -/
example : Reached (smallCont false true umap (env [90]) T ib3 2) (smallSem false true umap (env [90]) T) m3 0 (umapOf [90]) ∧
    show' ((do
      let I := smallImpl false true umap (env [90]) 2 2
      let a ← I.contents
      let r1 ← I.exec (.insert (.elem 1))
      let r2 ← I.exec (.emplace 399)
      let r3 ← I.exec (.insertHint 0 (.value 477))
      let r4 ← I.exec (.insertOrAssign 577)
      let b ← I.contents
      let q1 ← query false umap (env [90]) (.pred (umap.hasKey 5)) .at
      let q2 ← query false umap (env [90]) (.pred (umap.hasKey 4)) .find
      let q3 ← query false umap (env [90]) (.pred (umap.hasKey 6)) .count
      let r5 ← I.exec (.eraseAt 0)
      let c ← I.contents
      let r6 ← I.exec (.eraseEqual 0)
      let d ← I.contents
      pure ([a, b, c, d], [r1, r2, r3, r4, r5, r6], [q1, q2, q3]) : Vector.VM Nat _) (umapOf [90])) =
    some ([[301, 502], [301, 577, 477], [477, 577], [577]],
      [.ins 1 false, .ins 0 false, .pos 2, .ins 1 false, .pos 0, .num 1], [.elem 577, .pos 2, .num 0]) :=
  ⟨reachedIn (by decide +kernel), by decide +kernel⟩

open Demo in
/-- `smallUnord_strong`: an insertion into the full map `Demo.umapOf` whose second element move fails. -/
example : Reached (smallCont false true umap (env [7]) T ib3 2) (smallSem false true umap (env [7]) T) m3 0 (umapOf [7]) ∧
    Strong (env [7]) ∧ show' (Vector.size (umapOf [7])) = some 2 ∧
    (Unord.Op.insert (.value 404) : Unord.Op Nat Nat).careful false true umap.nothrow = true ∧
    ∃ e o', (smallImpl false true umap (env [7]) 2 2).exec (.insert (.value 404)) (umapOf [7]) = .exn e o' :=
  ⟨reachedIn (by decide +kernel), Or.inr rfl, by decide +kernel, rfl, exn_of (by decide +kernel)⟩

open Demo in
/-- `smallUnord_throw_partial`: an insertion into the set {5} where the equality throws. -/
example : NothrowMove (envCopy [2]) ∧
    Reached (smallCont false true ueqT (envCopy [2]) T ib3 2) (smallSem false true ueqT (envCopy [2]) T) m3 0 umap5 ∧
    show' ((smallImpl false true ueqT (envCopy [2]) (ib3 0) 2).contents umap5) = some [5] ∧
    (Unord.Op.insertRange [4, 3] : Unord.Op Nat Nat).careful false true ueqT.nothrow = true ∧
    ∃ e o', (smallImpl false true ueqT (envCopy [2]) (ib3 0) 2).exec (.insertRange [4, 3]) umap5 = .exn e o' :=
  ⟨⟨rfl, rfl⟩, umap5_reached, by decide +kernel, rfl, exn_of (by decide +kernel)⟩

open Demo in
/-- `smallUnord_compare`: [1, 2, 1] and [2, 1, 1] are equal, [1, 2, 2] and [2, 1, 1] are not. -/
example : show' ((do
      let _ ← World.runOps (smallCont true false ueq (env []) T ib3 2) (smallSem true false ueq (env []) T)
        [.make 0 7 (.range [1, 2, 1]), .make 1 7 (.range [2, 1, 1]), .make 2 7 (.range [1, 2, 2])]
      fun o => match o.obj 0, o.obj 1, o.obj 2 with
        | some v, some w, some x =>
          .ok (show' (Unord.eqOp (· == ·) v w o.m), show' (Unord.eqOp (· == ·) x w o.m), show' (Unord.neOp (· == ·) x v o.m)) o
        | _, _, _ => .ub .badRange : M (Slots 3 Vec Nat) _) ⟨fun _ => none, m3⟩) =
    some (some true, some false, some true) := by decide +kernel

/-- **C34 does not hold** if the key passed to `erase(const Key&)` is (part of) an element of a multi container
(small_unordered_flat_multiset.hpp:853-871, small_unordered_flat_multimap.hpp:939-957; the static ones are the same): the
element is overwritten by the last element while the loop goes on comparing with it. From the multiset {1, 2, 3},
`erase(*begin())` removes all elements although only one is equal to 1; from {1, 2, 1}, `erase(*(begin() + 2))`
reads a destroyed object. -/
theorem smallUnord_erase_alias :
    (∃ o r o', Reached (smallCont true false Demo.ueq (Demo.env []) Demo.T Demo.ib3 2)
        (smallSem true false Demo.ueq (Demo.env []) Demo.T) Demo.m3 0 o ∧
      (smallImpl true false Demo.ueq (Demo.env []) (Demo.ib3 0) 2).contents o = .ok [1, 2, 3] o ∧
      (smallImpl true false Demo.ueq (Demo.env []) (Demo.ib3 0) 2).exec (.eraseEqual 0) o = .ok r o' ∧
      Demo.show' ((smallImpl true false Demo.ueq (Demo.env []) (Demo.ib3 0) 2).contents o') = some []) ∧
    (∃ o u, Reached (smallCont true false Demo.ueq (Demo.env []) Demo.T Demo.ib3 2)
        (smallSem true false Demo.ueq (Demo.env []) Demo.T) Demo.m3 0 o ∧
      (smallImpl true false Demo.ueq (Demo.env []) (Demo.ib3 0) 2).contents o = .ok [1, 2, 1] o ∧
      (smallImpl true false Demo.ueq (Demo.env []) (Demo.ib3 0) 2).exec (.eraseEqual 2) o = .ub u) := by
  constructor
  · have hr := Demo.umultiOf_reached [1, 2, 3] (by decide +kernel)
    obtain ⟨xs, hc, -⟩ := smallUnord_modify Demo.ueq_lawful (Demo.objects3 _ (by decide)) hr
    obtain rfl : xs = [1, 2, 3] := Demo.contents_of hc (by decide +kernel)
    obtain ⟨r, o', hx, ho⟩ := Demo.ok_leftIn (I := smallImpl true false Demo.ueq (Demo.env []) (Demo.ib3 0) 2)
      (r := (smallImpl true false Demo.ueq (Demo.env []) (Demo.ib3 0) 2).exec (.eraseEqual 0) (Demo.umultiOf [1, 2, 3]))
      (xs := []) (by decide +kernel)
    exact ⟨_, r, o', hr, hc, hx, ho⟩
  · have hr := Demo.umultiOf_reached [1, 2, 1] (by decide +kernel)
    obtain ⟨xs, hc, -⟩ := smallUnord_modify Demo.ueq_lawful (Demo.objects3 _ (by decide)) hr
    obtain rfl : xs = [1, 2, 1] := Demo.contents_of hc (by decide +kernel)
    obtain ⟨u, hx⟩ := Demo.ub_of
      (r := (smallImpl true false Demo.ueq (Demo.env []) (Demo.ib3 0) 2).exec (.eraseEqual 2) (Demo.umultiOf [1, 2, 1]))
      (by decide +kernel)
    exact ⟨_, u, hr, hc, hx⟩

/-- **C36 does not hold** for `emplace` of small_unordered_flat_map (small_unordered_flat_map.hpp:1733-1746), even if moves
of elements never throw: the element is appended, and if the equality throws while looking for its key, it stays: the
keys {5} become {5, 5}. -/
theorem smallUnord_emplace_throw : ∃ (U : KeyEq Nat Nat) (E : Env Nat) (o o' : Obj Vec Nat) (e : Exn), U.Lawful ∧ NothrowMove E ∧
    Reached (smallCont false true U E Demo.T Demo.ib3 2) (smallSem false true U E Demo.T) Demo.m3 0 o ∧
    (smallImpl false true U E (Demo.ib3 0) 2).contents o = .ok [5] o ∧
    (smallImpl false true U E (Demo.ib3 0) 2).exec (.emplace 5) o = .exn e o' ∧
    (smallImpl false true U E (Demo.ib3 0) 2).contents o' = .ok [5, 5] o' := by
  obtain ⟨xs, hc, hop⟩ := smallUnord_modify Demo.ueqT_lawful (Demo.objects3 _ (by decide)) Demo.umap5_reached
  obtain rfl : xs = [5] := Demo.contents_of hc (by decide +kernel)
  obtain ⟨e, o', hx⟩ := Demo.exn_of
    (r := (smallImpl false true Demo.ueqT (Demo.envCopy [2]) (Demo.ib3 0) 2).exec (.emplace 5) Demo.umap5) (by decide +kernel)
  obtain ⟨ys, h1, -⟩ := (hop (.emplace 5) rfl).2.2 e o' hx
  have hys : Demo.leftIn (smallImpl false true Demo.ueqT (Demo.envCopy [2]) (Demo.ib3 0) 2)
      ((smallImpl false true Demo.ueqT (Demo.envCopy [2]) (Demo.ib3 0) 2).exec (.emplace 5) Demo.umap5) = some [5, 5] := by
    decide +kernel
  rw [hx] at hys
  obtain rfl : ys = [5, 5] := Demo.contents_of h1 hys
  exact ⟨_, _, _, o', e, Demo.ueqT_lawful, ⟨rfl, rfl⟩, Demo.umap5_reached, hc, hx, h1⟩

/-- Heterogeneous `count` of containers with unique keys (small_unordered_flat_set.hpp:1122-1133,
small_unordered_flat_map.hpp:1293-1304) is at most 1, also if several elements are equal to the sought key: in the set
{31, 12, 55} there are two odd numbers. -/
theorem smallUnord_count_heterogeneous : ∃ (o : Obj Vec Nat) (xs : List Nat) (f : Nat → Bool) (o' : Obj Vec Nat),
    Reached (smallCont false false Demo.utens (Demo.env []) Demo.T Demo.ib3 2)
      (smallSem false false Demo.utens (Demo.env []) Demo.T) Demo.m3 0 o ∧
    (smallImpl false false Demo.utens (Demo.env []) (Demo.ib3 0) 2).contents o = .ok xs o ∧ Demo.utens.Distinct false xs ∧
    query false Demo.utens (Demo.env []) (.pred f) .count o = .ok (.num 1) o' ∧ xs.countP f = 2 := by
  obtain ⟨xs, hc, -⟩ := smallUnord_modify Demo.utens_lawful (Demo.objects3 _ (by decide)) Demo.usetOf_reached
  obtain rfl : xs = [31, 12, 55] := Demo.contents_of hc (by decide +kernel)
  obtain ⟨o', ho'⟩ := Demo.ok_of (r := query false Demo.utens (Demo.env []) (.pred fun x => x % 2 == 1) .count Demo.usetOf)
    (b := .num 1) (by decide +kernel)
  exact ⟨_, _, _, o', Demo.usetOf_reached, hc, by simp [KeyEq.Distinct, KMap.Distinct, Demo.utens], ho', by decide⟩

end Sfl
