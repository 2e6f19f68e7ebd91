import Verif.KeepFlat
import Verif.PropKeep
import Verif.PropUnord2
import Verif.PropFlatInside
/-
  C58: flat containers keep storage that suffices. A modifier that finds enough room neither moves the storage nor changes its capacity,
  and elements before the position it returns stay where they are.
-/

namespace Sfl
open Sq World
variable {α κ : Type} {K : Nat}

/-- The operation of a small flat container is permitted, asks for at most `c` elements and is not shrink_to_fit. -/
def Flat.Within (multi : Bool) (c n : Nat) : Flat.Op α κ → Bool
  | .shrinkToFit => false
  | op => op.pre multi n && decide (op.room n ≤ c)

/-- The same for the small unordered flat containers. -/
def Unord.Within (multi : Bool) (c n : Nat) : Unord.Op α κ → Bool
  | .shrinkToFit => false
  | op => op.pre multi n && decide (op.room n ≤ c)

/-- Number of elements before the position that an insertion or erasure returns. -/
def Flat.Ret.before : Flat.Ret → Nat
  | .pos i => i
  | .ins i _ => i
  | _ => 0

/-- An operation on an ordered container of size `n` that returned `r` touched no element before this position. -/
def Flat.Op.start (n : Nat) : Flat.Op α κ → Flat.Ret → Nat
  | .reserve _, _ => n
  | _, r => r.before

/-- An operation on an unordered container of size `n` that returned `r` touched no element before this position. Insertions touch
none. -/
def Unord.Op.start (n : Nat) : Unord.Op α κ → Flat.Ret → Nat
  | .insert _, _ | .insertHint _ _, _ | .emplace _, _ | .emplaceHint _ _, _ | .tryEmplace _, _ | .tryEmplaceHint _ _, _
  | .insertRange _, _ | .reserve _, _ => n
  | .eraseKey _, _ | .eraseEqual _, _ => 0
  | _, r => r.before

theorem Flat.Within.elim {multi : Bool} {c n : Nat} {op : Flat.Op α κ} (h : Flat.Within multi c n op = true) :
    op.pre multi n = true ∧ op.room n ≤ c ∧ op ≠ .shrinkToFit := by
  cases op <;> simp_all [Flat.Within]

theorem Unord.Within.elim {multi : Bool} {c n : Nat} {op : Unord.Op α κ} (h : Unord.Within multi c n op = true) :
    op.pre multi n = true ∧ op.room n ≤ c ∧ op ≠ .shrinkToFit := by
  cases op <;> simp_all [Unord.Within]

section
variable {H : Heap α} {E : Env α} {ib N al b cap b' cap' : Nat} {o o' : Obj Vec α} {xs ys : List α}

theorem wp_seen {σ β : Type} {m : M σ β} {Q : β → σ → Prop} {X : Exn → σ → Prop} {s : σ} (h : wp m Q X s) :
    wp m (fun r s' => Q r s' ∧ (m s).final = some s') (fun e s' => X e s' ∧ (m s).final = some s') s := by
  unfold wp at h ⊢
  cases hx : m s with
  | ok r s' => rw [hx] at h; exact ⟨h, rfl⟩
  | exn e s' => rw [hx] at h; exact ⟨h, rfl⟩
  | ub u => rw [hx] at h; exact h

/-- The same pointers mean the same block. -/
theorem VSt.pin (h : VSt H E ib N o al b cap xs) (h' : VSt H E ib N o' al b' cap' ys) (hv : SmallVector.Hold o.obj o'.obj) :
    b' = b ∧ cap' = cap := by
  obtain ⟨e1, e2, -⟩ := hv
  rw [h.obj, h'.obj] at e1 e2
  injection e1 with e1
  injection e2 with _ e2
  exact ⟨e1, e2⟩

theorem VSt.cell_eq (h : VSt H E ib N o al b cap xs) (h' : VSt H E ib N o' al b cap ys) {j : Nat} (hj : ys[j]? = xs[j]?) :
    o'.m.mem o.obj.first.blk (o.obj.first.off + j) = o.m.mem o.obj.first.blk (o.obj.first.off + j) := by
  rw [h.obj]
  simp only [Nat.zero_add]
  rw [h.cells, h'.cells, hj]

theorem Flat.Op.Result.start {C : Order α κ} {multi : Bool} {op : Flat.Op α κ} {r : Flat.Ret} (h : op.Result C multi xs r ys)
    (hp : op.pre multi xs.length = true) {j : Nat} (hj : j < op.start xs.length r) : ys[j]? = xs[j]? := by
  have cut : ∀ {k : Nat} {zs : List α}, j < k → k ≤ xs.length → (xs.take k ++ zs)[j]? = xs[j]? := by
    intro k zs h1 h2
    rw [List.getElem?_append_left (by simp; omega), List.getElem?_take_of_lt h1]
  have ins : ∀ {v : α} {i : Nat} {new : Bool}, Inserted C multi xs v i new ys → j < i → ys[j]? = xs[j]? := by
    rintro v i new (⟨-, -, hi, rfl, -⟩ | ⟨-, -, rfl, -⟩) hj
    · exact cut hj hi
    · rfl
  have asg : ∀ {v : α} {i : Nat} {new : Bool}, Assigned C xs v i new ys → j < i → ys[j]? = xs[j]? := by
    rintro v i new (⟨-, h | h⟩ | ⟨-, x, -, -, rfl⟩) hj
    · obtain ⟨-, -, hi, rfl, -⟩ := h; exact cut hj hi
    · obtain ⟨-, -, rfl, -⟩ := h; rfl
    · rw [List.getElem?_set_ne (by omega)]
  cases op <;> simp only [Flat.Op.Result] at h
  case insert s => obtain ⟨v, i, new, -, rfl, h⟩ := h; exact ins h hj
  case insertHint i s => obtain ⟨v, i, new, -, rfl, h⟩ := h; exact ins h hj
  case emplace v => obtain ⟨i, new, rfl, h⟩ := h; exact ins h hj
  case emplaceHint i v => obtain ⟨i, new, rfl, h⟩ := h; exact ins h hj
  case tryEmplace v => obtain ⟨i, new, rfl, h⟩ := h; exact ins h hj
  case tryEmplaceHint i v => obtain ⟨i, new, rfl, h⟩ := h; exact ins h hj
  case insertOrAssign v => obtain ⟨i, new, rfl, h⟩ := h; exact asg h hj
  case insertOrAssignHint i v => obtain ⟨i, new, rfl, h⟩ := h; exact asg h hj
  case eraseAt k =>
    obtain ⟨rfl, rfl⟩ := h
    have hk : k < xs.length := by simpa [Op.pre, Op.uniqueOnly] using hp
    exact cut hj (by omega)
  case eraseRange k l =>
    obtain ⟨rfl, rfl⟩ := h
    have hk : k ≤ l ∧ l ≤ xs.length := by simpa [Op.pre, Op.uniqueOnly] using hp
    exact cut hj (by omega)
  case reserve m => obtain ⟨rfl, rfl⟩ := h; rfl
  all_goals first
    | (obtain ⟨rfl, -⟩ := h; exact absurd hj (Nat.not_lt_zero _))
    | (obtain ⟨x, -, rfl, -⟩ := h; exact absurd hj (Nat.not_lt_zero _))

theorem Unord.merge_prefix (U : KeyEq α κ) (multi : Bool) (vs : List α) : ∀ xs : List α, ∃ zs, merge U multi xs vs = xs ++ zs := by
  induction vs with
  | nil => exact fun xs => ⟨[], by simp [merge]⟩
  | cons v vs ih =>
    intro xs
    unfold merge
    split
    · obtain ⟨zs, e⟩ := ih (xs ++ [v])
      exact ⟨v :: zs, by rw [e]; simp⟩
    · exact ih xs

theorem Unord.Op.Result.start {U : KeyEq α κ} {multi : Bool} {op : Unord.Op α κ} {r : Flat.Ret} (h : op.Result U multi xs r ys)
    {j : Nat} (hj : j < op.start xs.length r) : ys[j]? = xs[j]? := by
  have ins : ∀ {v : α} {i : Nat} {new : Bool}, Inserted U multi xs v i new ys → j < xs.length → ys[j]? = xs[j]? := by
    rintro v i new (⟨-, -, -, rfl⟩ | ⟨-, -, rfl, -⟩) hj
    · rw [List.getElem?_append_left hj]
    · rfl
  have asg : ∀ {v : α} {i : Nat} {new : Bool}, Assigned U xs v i new ys → j < i → ys[j]? = xs[j]? := by
    rintro v i new (⟨-, h | h⟩ | ⟨-, x, -, -, rfl⟩) hj
    · obtain ⟨-, -, rfl, rfl⟩ := h; rw [List.getElem?_append_left hj]
    · obtain ⟨-, -, rfl, -⟩ := h; rfl
    · rw [List.getElem?_set_ne (by omega)]
  have era : ∀ {k l : Nat}, Removed xs k l ys → j < k → ys[j]? = xs[j]? := by
    rintro k l ⟨h, -⟩ hj
    rw [← List.getElem?_take_of_lt hj, h, List.getElem?_take_of_lt hj]
  cases op <;> simp only [Unord.Op.Result] at h
  case insert s => obtain ⟨v, i, new, -, -, h⟩ := h; exact ins h hj
  case insertHint i s => obtain ⟨v, i, new, -, -, h⟩ := h; exact ins h hj
  case emplace v => obtain ⟨i, new, -, h⟩ := h; exact ins h hj
  case emplaceHint i v => obtain ⟨i, new, -, h⟩ := h; exact ins h hj
  case tryEmplace v => obtain ⟨i, new, -, h⟩ := h; exact ins h hj
  case tryEmplaceHint i v => obtain ⟨i, new, -, h⟩ := h; exact ins h hj
  case insertOrAssign v => obtain ⟨i, new, rfl, h⟩ := h; exact asg h hj
  case insertOrAssignHint i v => obtain ⟨i, new, rfl, h⟩ := h; exact asg h hj
  case insertRange vs =>
    obtain ⟨-, rfl⟩ := h
    obtain ⟨zs, e⟩ := merge_prefix U multi vs xs
    rw [e, List.getElem?_append_left hj]
  case eraseAt k => obtain ⟨rfl, h⟩ := h; exact era h hj
  case eraseRange k l => obtain ⟨rfl, h⟩ := h; exact era h hj
  case reserve m => obtain ⟨-, rfl⟩ := h; rfl
  all_goals first
    | (obtain ⟨rfl, -⟩ := h; exact absurd hj (Nat.not_lt_zero _))
    | (obtain ⟨x, -, rfl, -⟩ := h; exact absurd hj (Nat.not_lt_zero _))

theorem VSt.flatHold {multi : Bool} {C : Order α κ} (h : VSt H E ib N o al b cap xs) {op : Flat.Op α κ} (hop : op ≠ .shrinkToFit)
    (hroom : op.room xs.length ≤ cap) (hx : ((Flat.smallImpl multi C E ib N).exec op o).final = some o') :
    SmallVector.Hold o.obj o'.obj := by
  have := h.len
  exact vcost.fin (P := fun v' _ => SmallVector.Hold o.obj v') (Flat.smallExec_keeps h.dim op hop (by omega)) hx

theorem VSt.unordHold {multi isMap : Bool} {U : KeyEq α κ} (h : VSt H E ib N o al b cap xs) {op : Unord.Op α κ}
    (hop : op ≠ .shrinkToFit) (hroom : op.room xs.length ≤ cap)
    (hx : ((Unord.smallImpl multi isMap U E ib N).exec op o).final = some o') : SmallVector.Hold o.obj o'.obj := by
  have := h.len
  exact vcost.fin (P := fun v' _ => SmallVector.Hold o.obj v') (Unord.smallExec_keeps h.dim op hop (by omega)) hx

theorem final_bind {σ β γ : Type} {m : M σ β} {a : γ} {s : σ} : ((m >>= fun _ => pure a) s).final = (m s).final := by
  show (M.bind m _ s).final = _
  unfold M.bind
  cases m s <;> rfl

/-- reserve and shrink_to_fit. -/
theorem VSt.flatMoves {multi : Bool} {C : Order α κ} (h : VSt H E ib N o al b cap xs) {op : Flat.Op α κ}
    (hop : op = .shrinkToFit ∨ ∃ m, op = .reserve m) (hx : ((Flat.smallImpl multi C E ib N).exec op o).final = some o') :
    o'.obj = o.obj ∨ o'.obj.eos.off - o'.obj.first.off ≠ cap := by
  rcases hop with rfl | ⟨m, rfl⟩
  · exact h.moves (op := .shrinkToFit) (.inl rfl) (by rw [← hx]; exact final_bind.trans final_bind.symm)
  · exact h.moves (op := .reserve m) (.inr ⟨m, rfl⟩) (by rw [← hx]; exact final_bind.trans final_bind.symm)

theorem VSt.unordMoves {multi isMap : Bool} {U : KeyEq α κ} (h : VSt H E ib N o al b cap xs) {op : Unord.Op α κ}
    (hop : op = .shrinkToFit ∨ ∃ m, op = .reserve m) (hx : ((Unord.smallImpl multi isMap U E ib N).exec op o).final = some o') :
    o'.obj = o.obj ∨ o'.obj.eos.off - o'.obj.first.off ≠ cap := by
  rcases hop with rfl | ⟨m, rfl⟩
  · exact h.moves (op := .shrinkToFit) (.inl rfl) (by rw [← hx]; exact final_bind.trans final_bind.symm)
  · exact h.moves (op := .reserve m) (.inr ⟨m, rfl⟩) (by rw [← hx]; exact final_bind.trans final_bind.symm)

end

/-! ### The ordered containers -/

namespace Demo

/-- A small_flat_map<int, int, 2> with keys in descending order, three elements and room for six. -/
def fmap6 (ts : List Nat) : Obj Vec Nat :=
  after (World.runOps (Flat.smallCont false map (env ts) T ib3 2) (Flat.smallSem false map (env ts) T)
    [.make 0 7 (.range [301, 502, 404]), .op 0 (.reserve 6)] ⟨fun _ => none, m3⟩) 0

/-- A small_unordered_flat_map<int, int, 2> with three elements and room for six. -/
def umapOf6 : Obj Vec Nat :=
  after (World.runOps (Unord.smallCont false true umap (env []) T ib3 2) (Unord.smallSem false true umap (env []) T)
    [.make 0 7 (.range [301, 502, 404]), .op 0 (.reserve 6)] ⟨fun _ => none, m3⟩) 0

end Demo

section
variable {multi : Bool} {C : Order α κ} {E : Env α} {T : Traits} {ib : Fin K → Nat} {N c : Nat} {m0 : St α} {i : Fin K}
  {o o' o1 o2 : Obj Vec α} {xs : List α}

/-- **C58** (small_flat_set, small_flat_map, small_flat_multiset, small_flat_multimap). Any operations, in any number, that never ask
for more elements than the container can hold, whether they return or throw: the elements stay in the same storage, of the same
capacity, and nothing is allocated or freed. -/
theorem smallFlat_storage_kept (L : C.Lawful) (hm : Objects E ib N m0) (h : SmallFlat.Reached multi C E T ib N m0 i o)
    (hc : Vector.capacity o = .ok c o1) (ops : List (Flat.Op α κ)) :
    ∃ log o', (Flat.smallImpl multi C E (ib i) N).runOps (Flat.Within multi c) ops o = .ok log o' ∧ o'.obj.first = o.obj.first ∧
      Vector.capacity o' = .ok c o' ∧ o'.m.blk = o.m.blk := by
  obtain ⟨H, al, b, cap, xs, hv⟩ := h.repr L hm
  obtain rfl := hv.capacity_eq hc
  have G : Correct (Flat.smallImpl multi C E (ib i) N) (Flat.Within multi c) (fun _ _ _ _ => True) (fun _ _ _ _ => True)
      (fun o xs => VSt H E (ib i) N o al b c xs) :=
    { size := fun _ _ h => wp_size h.obj ⟨rfl, rfl⟩
      index := fun _ _ _ _ h hv => index_spec h hv
      exec := by
        intro o xs op h hp
        obtain ⟨h1, h2, h3⟩ := Flat.Within.elim hp
        refine wp_mono (wp_seen (Flat.exec_spec L (Flat.small_ok multi E (ib i) N) op h h1 (fun h => by cases h))) ?_ ?_
        · rintro r o' ⟨⟨b', cap', ys, k1, -⟩, k2⟩
          obtain ⟨rfl, rfl⟩ := h.pin k1.v (h.flatHold h3 h2 k2)
          exact ⟨ys, k1.v, trivial⟩
        · rintro e o' ⟨⟨b', cap', ys, k1, -⟩, k2⟩
          obtain ⟨rfl, rfl⟩ := h.pin k1.v (h.flatHold h3 h2 k2)
          exact ⟨ys, k1.v, trivial⟩ }
  obtain ⟨log, o', h1, ys, h2, -⟩ := wp_elim (G.runOps ops _ _ hv)
  refine ⟨log, o', h1, by rw [h2.obj, hv.obj], ?_, hv.blk_eq h2⟩
  show (distance o'.obj.first o'.obj.eos : M (Obj Vec α) Nat) o' = _
  rw [h2.obj]
  simp [distance]

/-- A small_flat_map with room for six elements: ten operations; two are left out because they do not keep the storage, one of the others
throws. -/
example : SmallFlat.Reached false Demo.map (Demo.env [60]) Demo.T Demo.ib3 2 Demo.m3 0 (Demo.fmap6 [60]) ∧
    (∃ o1, Vector.capacity (Demo.fmap6 [60]) = .ok 6 o1) ∧
    Demo.show' ((Flat.smallImpl false Demo.map (Demo.env [60]) (Demo.ib3 0) 2).runOps (Flat.Within false 6)
      [.insert (.value 450), .insertRange [777, 301, 100], .shrinkToFit, .eraseAt 1, .insertOrAssign 499,
        .assignList [1, 102, 203, 304, 405, 506], .reserve 6, .reserve 7, .emplace 999, .clear] (Demo.fmap6 [60])) =
      some [.ok (.ins 1 false), .ok .unit, .skipped, .ok (.pos 1), .ok (.ins 1 false), .threw .elem, .ok .unit, .skipped,
        .ok (.ins 0 true), .ok .unit] :=
  ⟨Demo.reached (by decide +kernel), Demo.ok_of (by decide +kernel), by decide +kernel⟩

/-- **C58** (the same containers). If the container can hold the elements an operation asks for, the operation leaves the elements
before the position it returns where they are: references and iterators to them stay valid. -/
theorem smallFlat_references_kept (L : C.Lawful) (hm : Objects E ib N m0) (h : SmallFlat.Reached multi C E T ib N m0 i o)
    (hx : (Flat.smallImpl multi C E (ib i) N).contents o = .ok xs o) (hs : C.Sorted multi xs) (hc : Vector.capacity o = .ok c o1)
    {op : Flat.Op α κ} (hw : Flat.Within multi c xs.length op = true) {r : Flat.Ret}
    (hr : (Flat.smallImpl multi C E (ib i) N).exec op o = .ok r o') :
    o'.obj.first = o.obj.first ∧ ∀ j, j < op.start xs.length r →
      o'.m.mem o.obj.first.blk (o.obj.first.off + j) = o.m.mem o.obj.first.blk (o.obj.first.off + j) := by
  obtain ⟨H, al, b, cap, xs', hv⟩ := h.repr L hm
  obtain rfl := hv.capacity_eq hc
  rw [hv.contents _ rfl rfl] at hx
  cases hx
  obtain ⟨h1, h2, h3⟩ := Flat.Within.elim hw
  have hh := hv.flatHold h3 h2 (by rw [hr]; rfl)
  obtain ⟨b', cap', ys, k1, k2⟩ := wp_ok hr (Flat.exec_spec L (Flat.small_ok multi E (ib i) N) op hv h1 (fun h => by cases h))
  obtain ⟨rfl, rfl⟩ := hv.pin k1.v hh
  exact ⟨hh.first, fun j hj => hv.cell_eq k1.v ((k2 (.inr hs)).start h1 hj)⟩

/-- Insertion of 200 at the end of the same map leaves its three elements where they are. -/
example : SmallFlat.Reached false Demo.map (Demo.env []) Demo.T Demo.ib3 2 Demo.m3 0 (Demo.fmap6 []) ∧
    Demo.show' ((Flat.smallImpl false Demo.map (Demo.env []) (Demo.ib3 0) 2).contents (Demo.fmap6 [])) = some [502, 404, 301] ∧
    Demo.map.Sorted false [502, 404, 301] ∧ (∃ o1, Vector.capacity (Demo.fmap6 []) = .ok 6 o1) ∧
    Flat.Within false 6 3 (.insert (.value 200) : Flat.Op Nat Nat) = true ∧
    (∃ o', (Flat.smallImpl false Demo.map (Demo.env []) (Demo.ib3 0) 2).exec (.insert (.value 200)) (Demo.fmap6 []) =
      .ok (.ins 3 true) o') ∧ (.insert (.value 200) : Flat.Op Nat Nat).start 3 (.ins 3 true) = 3 :=
  ⟨Demo.reached (by decide +kernel), by decide +kernel, by simp [Order.Sorted, Demo.map], Demo.ok_of (by decide +kernel), by decide,
    Demo.ok_of (by decide +kernel), rfl⟩

/-- **C58** (the same containers). If the capacity is the same after reserve or shrink_to_fit, whether they return or throw, nothing has
been moved. -/
theorem smallFlat_capacity_moved (L : C.Lawful) (hm : Objects E ib N m0) (h : SmallFlat.Reached multi C E T ib N m0 i o)
    (hc : Vector.capacity o = .ok c o1) {op : Flat.Op α κ} (hop : op = .shrinkToFit ∨ ∃ m, op = .reserve m)
    (hx : ((Flat.smallImpl multi C E (ib i) N).exec op o).final = some o') (hc' : Vector.capacity o' = .ok c o2) : o'.obj = o.obj := by
  obtain ⟨H, al, b, cap, xs, hv⟩ := h.repr L hm
  obtain rfl := hv.capacity_eq hc
  exact (hv.flatMoves hop hx).resolve_right fun hne => hne (SmallVector.capacity_off hc').symm

/-- shrink_to_fit of a map that exactly fits changes nothing; reserve(4) changes the capacity. -/
example : SmallFlat.Reached false Demo.map (Demo.env [40, 50]) Demo.T Demo.ib3 2 Demo.m3 0 (Demo.fmap [40, 50]) ∧
    (∃ o1, Vector.capacity (Demo.fmap [40, 50]) = .ok 3 o1) ∧
    Demo.show' (((Flat.smallImpl false Demo.map (Demo.env [40, 50]) (Demo.ib3 0) 2).exec .shrinkToFit >>= fun _ => Vector.capacity)
      (Demo.fmap [40, 50])) = some 3 ∧
    Demo.show' (((Flat.smallImpl false Demo.map (Demo.env [40, 50]) (Demo.ib3 0) 2).exec (.reserve 4) >>= fun _ => Vector.capacity)
      (Demo.fmap [40, 50])) = some 4 :=
  ⟨Demo.fmap_reached, Demo.ok_of (by decide +kernel), by decide +kernel, by decide +kernel⟩

/-- **C58** (static_flat_set, static_flat_map, static_flat_multiset, static_flat_multimap). -/
theorem staticFlat_references_kept (L : C.Lawful) (hm : Objects E ib N m0)
    (h : Reached (Flat.staticCont multi C E ib N) (Flat.staticSem multi C E N) m0 i o)
    (hx : (Flat.staticImpl multi C E N).contents o = .ok xs o) (hs : C.Sorted multi xs) {op : Flat.Op α κ}
    (hp : op.pre multi xs.length = true) (hroom : op.room xs.length ≤ N) (hst : op.storage = false) (ha : op.assigns = false)
    {r : Flat.Ret} (hr : (Flat.staticImpl multi C E N).exec op o = .ok r o') :
    o'.obj.first = o.obj.first ∧ ∀ j, j < op.start xs.length r →
      o'.m.mem o.obj.first.blk (o.obj.first.off + j) = o.m.mem o.obj.first.blk (o.obj.first.off + j) := by
  obtain ⟨H, al, xs', hv⟩ := h.static hm (Flat.staticSpec L hm.fits)
  rw [hv.contents _ rfl rfl] at hx
  cases hx
  have hq : Flat.staticPre multi N xs.length op = true := by simp [Flat.staticPre, hp, hroom, hst]
  obtain ⟨ys, k1, k2, k3, k4⟩ := wp_ok hr (Flat.staticExec_spec L op hv hq)
  have k4 : Flat.okStep C multi xs op (some r) ys := by
    cases op <;> first | exact k4 | cases ha
  obtain ⟨r', e, k⟩ := k4
  cases e
  exact ⟨by rw [k1.obj, hv.obj], fun j hj => hv.cell_eq k1 ((k (.inr hs)).start hp hj)⟩

/-- A static_flat_set<int, 2> with the element 5: emplace_hint(begin(), 9) leaves it where it is. -/
example : Reached (Flat.staticCont false Demo.asc (Demo.envCopy []) Demo.ib3 2) (Flat.staticSem false Demo.asc (Demo.envCopy []) 2)
      Demo.m3 0 (Demo.sset []) ∧
    Demo.show' ((Flat.staticImpl false Demo.asc (Demo.envCopy []) 2).contents (Demo.sset [])) = some [5] ∧
    (∃ o', (Flat.staticImpl false Demo.asc (Demo.envCopy []) 2).exec (.emplaceHint 0 9) (Demo.sset []) = .ok (.pos 1) o') ∧
    (.emplaceHint 0 9 : Flat.Op Nat Nat).start 1 (.pos 1) = 1 :=
  ⟨Demo.sset_reached [] (by decide +kernel), by decide +kernel, Demo.ok_of (by decide +kernel), rfl⟩

end

/-! ### The unordered containers -/

section
variable {multi isMap : Bool} {U : KeyEq α κ} {E : Env α} {T : Traits} {ib : Fin K → Nat} {N c : Nat} {m0 : St α} {i : Fin K}
  {o o' o1 o2 : Obj Vec α} {xs : List α}

/-- **C58** (small_unordered_flat_set, small_unordered_flat_map, small_unordered_flat_multiset, small_unordered_flat_multimap). Any
operations, in any number, that never ask for more elements than the container can hold, whether they return or throw: the elements stay
in the same storage, of the same capacity, and nothing is allocated or freed. -/
theorem smallUnord_storage_kept (L : U.Lawful) (hm : Objects E ib N m0)
    (h : Reached (Unord.smallCont multi isMap U E T ib N) (Unord.smallSem multi isMap U E T) m0 i o)
    (hc : Vector.capacity o = .ok c o1) (ops : List (Unord.Op α κ)) :
    ∃ log o', (Unord.smallImpl multi isMap U E (ib i) N).runOps (Unord.Within multi c) ops o = .ok log o' ∧
      o'.obj.first = o.obj.first ∧ Vector.capacity o' = .ok c o' ∧ o'.m.blk = o.m.blk := by
  obtain ⟨H, al, b, cap, xs, hv⟩ := h.small hm (Unord.smallSpec L hm.fits)
  obtain rfl := hv.capacity_eq hc
  have G : Correct (Unord.smallImpl multi isMap U E (ib i) N) (Unord.Within multi c) (fun _ _ _ _ => True) (fun _ _ _ _ => True)
      (fun o xs => VSt H E (ib i) N o al b c xs) :=
    { size := fun _ _ h => wp_size h.obj ⟨rfl, rfl⟩
      index := fun _ _ _ _ h hv => index_spec h hv
      exec := by
        intro o xs op h hp
        obtain ⟨h1, h2, h3⟩ := Unord.Within.elim hp
        refine wp_mono (wp_seen (Unord.exec_spec L (Unord.small_ok multi isMap E (ib i) N) op h h1 (fun h => by cases h))) ?_ ?_
        · rintro r o' ⟨⟨b', cap', ys, k1, -⟩, k2⟩
          obtain ⟨rfl, rfl⟩ := h.pin k1.v (h.unordHold h3 h2 k2)
          exact ⟨ys, k1.v, trivial⟩
        · rintro e o' ⟨⟨b', cap', ys, k1, -⟩, k2⟩
          obtain ⟨rfl, rfl⟩ := h.pin k1.v (h.unordHold h3 h2 k2)
          exact ⟨ys, k1.v, trivial⟩ }
  obtain ⟨log, o', h1, ys, h2, -⟩ := wp_elim (G.runOps ops _ _ hv)
  refine ⟨log, o', h1, by rw [h2.obj, hv.obj], ?_, hv.blk_eq h2⟩
  show (distance o'.obj.first o'.obj.eos : M (Obj Vec α) Nat) o' = _
  rw [h2.obj]
  simp [distance]

/-- The example above for a small_unordered_flat_map. -/
example : Reached (Unord.smallCont false true Demo.umap (Demo.env []) Demo.T Demo.ib3 2)
      (Unord.smallSem false true Demo.umap (Demo.env []) Demo.T) Demo.m3 0 Demo.umapOf6 ∧
    (∃ o1, Vector.capacity Demo.umapOf6 = .ok 6 o1) ∧
    Demo.show' ((Unord.smallImpl false true Demo.umap (Demo.env []) (Demo.ib3 0) 2).runOps (Unord.Within false 6)
      [.insert (.value 450), .insertRange [777, 301, 100], .shrinkToFit, .eraseAt 1, .insertOrAssign 499,
        .assignList [1, 102, 203, 304, 405, 506], .reserve 6, .reserve 7, .emplace 999, .clear] Demo.umapOf6) =
      some [.ok (.ins 2 false), .ok .unit, .skipped, .ok (.pos 1), .ok (.ins 2 false), .ok .unit, .ok .unit, .skipped, .skipped,
        .ok .unit] :=
  ⟨Demo.reachedIn (by decide +kernel), Demo.ok_of (by decide +kernel), by decide +kernel⟩

/-- **C58** (the same containers). If the container can hold the elements an operation asks for, insertions leave all elements where
they are; other operations those before the position they return. -/
theorem smallUnord_references_kept (L : U.Lawful) (hm : Objects E ib N m0)
    (h : Reached (Unord.smallCont multi isMap U E T ib N) (Unord.smallSem multi isMap U E T) m0 i o)
    (hx : (Unord.smallImpl multi isMap U E (ib i) N).contents o = .ok xs o) (hc : Vector.capacity o = .ok c o1)
    {op : Unord.Op α κ} (hw : Unord.Within multi c xs.length op = true) {r : Flat.Ret}
    (hr : (Unord.smallImpl multi isMap U E (ib i) N).exec op o = .ok r o') :
    o'.obj.first = o.obj.first ∧ ∀ j, j < op.start xs.length r →
      o'.m.mem o.obj.first.blk (o.obj.first.off + j) = o.m.mem o.obj.first.blk (o.obj.first.off + j) := by
  obtain ⟨H, al, b, cap, xs', hv⟩ := h.small hm (Unord.smallSpec L hm.fits)
  obtain rfl := hv.capacity_eq hc
  rw [hv.contents _ rfl rfl] at hx
  cases hx
  obtain ⟨h1, h2, h3⟩ := Unord.Within.elim hw
  have hh := hv.unordHold h3 h2 (by rw [hr]; rfl)
  obtain ⟨b', cap', ys, k1, k2⟩ := wp_ok hr (Unord.exec_spec L (Unord.small_ok multi isMap E (ib i) N) op hv h1 (fun h => by cases h))
  obtain ⟨rfl, rfl⟩ := hv.pin k1.v hh
  refine ⟨hh.first, fun j hj => hv.cell_eq k1.v ?_⟩
  by_cases hk : op.keyed = false
  · exact (k2 (.inl hk)).start hj
  · cases op <;> first | exact absurd rfl hk | exact absurd hj (Nat.not_lt_zero _)

/-- insert of three elements into the same map leaves its three elements where they are. -/
example : Demo.show' ((Unord.smallImpl false true Demo.umap (Demo.env []) (Demo.ib3 0) 2).contents Demo.umapOf6) =
      some [301, 502, 404] ∧
    Unord.Within false 6 3 (.insertRange [777, 304, 888] : Unord.Op Nat Nat) = true ∧
    (∃ o', (Unord.smallImpl false true Demo.umap (Demo.env []) (Demo.ib3 0) 2).exec (.insertRange [777, 304, 888]) Demo.umapOf6 =
      .ok .unit o') ∧ (.insertRange [777, 304, 888] : Unord.Op Nat Nat).start 3 .unit = 3 :=
  ⟨by decide +kernel, by decide, Demo.ok_of (by decide +kernel), rfl⟩

/-- **C58** (the same containers). If the capacity is the same after reserve or shrink_to_fit, whether they return or throw, nothing has
been moved. -/
theorem smallUnord_capacity_moved (L : U.Lawful) (hm : Objects E ib N m0)
    (h : Reached (Unord.smallCont multi isMap U E T ib N) (Unord.smallSem multi isMap U E T) m0 i o)
    (hc : Vector.capacity o = .ok c o1) {op : Unord.Op α κ} (hop : op = .shrinkToFit ∨ ∃ m, op = .reserve m)
    (hx : ((Unord.smallImpl multi isMap U E (ib i) N).exec op o).final = some o') (hc' : Vector.capacity o' = .ok c o2) : o'.obj = o.obj := by
  obtain ⟨H, al, b, cap, xs, hv⟩ := h.small hm (Unord.smallSpec L hm.fits)
  obtain rfl := hv.capacity_eq hc
  exact (hv.unordMoves hop hx).resolve_right fun hne => hne (SmallVector.capacity_off hc').symm

/-- reserve(6) of a map that has room for six elements changes nothing; shrink_to_fit changes the capacity. -/
example : (∃ o1, Vector.capacity Demo.umapOf6 = .ok 6 o1) ∧
    Demo.show' (((Unord.smallImpl false true Demo.umap (Demo.env []) (Demo.ib3 0) 2).exec (.reserve 6) >>= fun _ => Vector.capacity)
      Demo.umapOf6) = some 6 ∧
    Demo.show' (((Unord.smallImpl false true Demo.umap (Demo.env []) (Demo.ib3 0) 2).exec .shrinkToFit >>= fun _ => Vector.capacity)
      Demo.umapOf6) = some 3 :=
  ⟨Demo.ok_of (by decide +kernel), by decide +kernel, by decide +kernel⟩

/-- **C58** (static_unordered_flat_set, static_unordered_flat_map, static_unordered_flat_multiset, static_unordered_flat_multimap). -/
theorem staticUnord_references_kept (L : U.Lawful) (hm : Objects E ib N m0)
    (h : Reached (Unord.staticCont multi isMap U E ib N) (Unord.staticSem multi U E N) m0 i o)
    (hx : (Unord.staticImpl multi isMap U E N).contents o = .ok xs o) {op : Unord.Op α κ} (hp : op.pre multi xs.length = true)
    (hroom : op.room xs.length ≤ N) (hst : op.storage = false) (ha : op.assigns = false) {r : Flat.Ret}
    (hr : (Unord.staticImpl multi isMap U E N).exec op o = .ok r o') :
    o'.obj.first = o.obj.first ∧ ∀ j, j < op.start xs.length r →
      o'.m.mem o.obj.first.blk (o.obj.first.off + j) = o.m.mem o.obj.first.blk (o.obj.first.off + j) := by
  obtain ⟨H, al, xs', hv⟩ := h.static hm (Unord.staticSpec L hm.fits)
  rw [hv.contents _ rfl rfl] at hx
  cases hx
  have hq : Unord.staticPre multi N xs.length op = true := by simp [Unord.staticPre, hp, hroom, hst]
  obtain ⟨ys, k1, k2, k3, k4⟩ := wp_ok hr (Unord.staticExec_spec (isMap := isMap) L op hv hq)
  have k4 : Unord.okStep U multi xs op (some r) ys := by
    cases op <;> first | exact k4 | cases ha
  obtain ⟨r', e, k⟩ := k4
  cases e
  refine ⟨by rw [k1.obj, hv.obj], fun j hj => hv.cell_eq k1 ?_⟩
  by_cases hk : op.keyed = false
  · exact (k (.inl hk)).start hj
  · cases op <;> first | exact absurd rfl hk | exact absurd hj (Nat.not_lt_zero _)

/-- A static_unordered_flat_multiset<int, 2> with the element 5: insertion of a reference to it leaves it where it is. -/
example : Reached (Unord.staticCont true false Demo.ueq (Demo.env []) Demo.ib3 2) (Unord.staticSem true Demo.ueq (Demo.env []) 2)
      Demo.m3 0 (Demo.sumultiOf [5]) ∧
    Demo.show' ((Unord.staticImpl true false Demo.ueq (Demo.env []) 2).contents (Demo.sumultiOf [5])) = some [5] ∧
    (∃ o', (Unord.staticImpl true false Demo.ueq (Demo.env []) 2).exec (.insert (.elem 0)) (Demo.sumultiOf [5]) =
      .ok (.ins 1 true) o') ∧ (.insert (.elem 0) : Unord.Op Nat Nat).start 1 (.ins 1 true) = 1 :=
  ⟨Demo.sumultiOf_reached [5] (by decide +kernel), by decide +kernel, Demo.ok_of (by decide +kernel), rfl⟩

end
end Sfl
