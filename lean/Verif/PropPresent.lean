import Verif.Present
import Verif.PropWork
/-
  C56: inserting an element whose key is present has no effect.
-/

namespace Sfl
open World
variable {α κ : Type}

theorem Demo.ok_any {β γ : Type} {r : Res γ β} (h : (Demo.show' r).isSome = true) : ∃ b o, r = .ok b o := by
  cases r with
  | ok b o => exact ⟨b, o, rfl⟩
  | exn => cases h
  | ub => cases h

section ordered
open Flat
variable {K : Nat} {C : Order α κ} {E : Env α} {T : Traits} {ib : Fin K → Nat} {N : Nat} {m0 : St α}
  {i : Fin K} {o o' : Obj Vec α} {xs vs : List α}

/-- **C56** (small_flat_set, small_flat_map). `insert`, `emplace`, `try_emplace`, `operator[]` with or without a hint, and
`insert` of a range, when every element to be inserted has an equivalent one in the container: whether the call returns
or throws, data members, blocks and all cells of memory are as before (so every iterator and reference stays valid), and
nothing has been allocated. -/
theorem smallFlat_present (L : C.Lawful) (hm : Objects E ib N m0) (h : SmallFlat.Reached false C E T ib N m0 i o)
    (hc : (smallImpl false C E (ib i) N).contents o = .ok xs o) (hs : C.Sorted false xs) (op : Flat.Op α κ)
    (hp : op.pre false xs.length = true) (hvs : op.adds xs = some vs) (hh : ∀ v ∈ vs, ∃ x ∈ xs, C.same x v = true)
    (hx : ((smallImpl false C E (ib i) N).exec op o).final = some o') :
    Untouched o o' ∧ o'.m.next = o.m.next := by
  obtain ⟨H, al, b, cap, xs', hv⟩ := h.repr L hm
  have := hv.contents (smallImpl false C E (ib i) N) rfl rfl
  rw [hc] at this
  cases this
  exact (wp_looked_final (exec_here L (small_ok false E (ib i) N) rfl op hv hs hp (fun h => by cases h) hvs hh _ _) hx).untouched

/-- The hypotheses are met: a range of two present keys inserted into a map, and a comparison that throws. -/
example : SmallFlat.Reached false Demo.map (Demo.env [40, 50]) Demo.T Demo.ib3 2 Demo.m3 0 (Demo.fmap [40, 50]) ∧
    Demo.show' ((smallImpl false Demo.map (Demo.env [40, 50]) (Demo.ib3 0) 2).contents (Demo.fmap [40, 50])) =
      some [502, 404, 301] ∧ Demo.map.Sorted false [502, 404, 301] ∧
    (Flat.Op.insertRange [377, 588] : Flat.Op Nat Nat).adds [502, 404, 301] = some [377, 588] ∧
    (∀ v ∈ [377, 588], ∃ x ∈ [502, 404, 301], Demo.map.same x v = true) ∧
    (∃ r o', (smallImpl false Demo.map (Demo.env [40, 50]) (Demo.ib3 0) 2).exec (.insertRange [377, 588])
      (Demo.fmap [40, 50]) = .ok r o') ∧
    ∃ e o', (smallImpl false Demo.map (Demo.env [15]) (Demo.ib3 0) 2).exec (.emplaceHint 1 499) (Demo.fmap [15]) = .exn e o' :=
  ⟨Demo.fmap_reached, by decide +kernel, by simp [Order.Sorted, Demo.map], rfl, by decide, Demo.ok_any (by decide +kernel),
    Demo.exn_of (by decide +kernel)⟩

/-- **C56** (static_flat_set, static_flat_map). The precondition `!full()` is part of `op.room xs.length ≤ N`. -/
theorem staticFlat_present (L : C.Lawful) (hm : Objects E ib N m0)
    (h : Reached (staticCont false C E ib N) (staticSem false C E N) m0 i o)
    (hc : (staticImpl false C E N).contents o = .ok xs o) (hs : C.Sorted false xs) (op : Flat.Op α κ)
    (hp : op.pre false xs.length = true) (hr : op.room xs.length ≤ N) (hvs : op.adds xs = some vs)
    (hh : ∀ v ∈ vs, ∃ x ∈ xs, C.same x v = true) (hx : ((staticImpl false C E N).exec op o).final = some o') :
    Untouched o o' ∧ o'.m.next = o.m.next := by
  obtain ⟨H, al, xs', hv⟩ := h.static hm (staticSpec L hm.fits)
  have := hv.contents (staticImpl false C E N) rfl rfl
  rw [hc] at this
  cases this
  have hw := exec_here L (static_ok false E (ib i) N) rfl op hv hs hp (fun _ => hr) hvs hh (fun _ => pure ()) (pure ())
  refine (wp_looked_final hw ?_).untouched
  cases op <;> first | exact hx | cases hvs

/-- The hypotheses are met. -/
example : Reached (staticCont false Demo.asc (Demo.envCopy []) Demo.ib3 2) (staticSem false Demo.asc (Demo.envCopy []) 2)
      Demo.m3 0 (Demo.sset []) ∧
    Demo.show' ((staticImpl false Demo.asc (Demo.envCopy []) 2).contents (Demo.sset [])) = some [5] ∧
    (Flat.Op.insertHint 0 (.elem 0) : Flat.Op Nat Nat).adds [5] = some [5] ∧
    (∃ r o', (staticImpl false Demo.asc (Demo.envCopy []) 2).exec (.insertHint 0 (.elem 0)) (Demo.sset []) = .ok r o') :=
  ⟨Demo.sset_reached [] (by decide +kernel), by decide +kernel, rfl, Demo.ok_any (by decide +kernel)⟩

end ordered

section unordered
open Unord
variable {K : Nat} {isMap : Bool} {U : KeyEq α κ} {E : Env α} {T : Traits} {ib : Fin K → Nat} {N : Nat} {m0 : St α}
  {i : Fin K} {o o' : Obj Vec α} {xs vs : List α}

/-- **C56** (small_unordered_flat_set, small_unordered_flat_map), all operations except `emplace` and `emplace_hint` of
maps. -/
theorem smallUnord_present (L : U.Lawful) (hm : Objects E ib N m0)
    (h : Reached (smallCont false isMap U E T ib N) (smallSem false isMap U E T) m0 i o)
    (hc : (smallImpl false isMap U E (ib i) N).contents o = .ok xs o) (op : Unord.Op α κ)
    (hop : isMap = true → op.emplaces = false)
    (hp : op.pre false xs.length = true) (hvs : op.adds xs = some vs) (hh : ∀ v ∈ vs, ∃ x ∈ xs, U.same x v = true)
    (hx : ((smallImpl false isMap U E (ib i) N).exec op o).final = some o') :
    Untouched o o' ∧ o'.m.next = o.m.next := by
  obtain ⟨H, al, b, cap, xs', hv⟩ := h.small hm (smallSpec L hm.fits)
  have := hv.contents (smallImpl false isMap U E (ib i) N) rfl rfl
  rw [hc] at this
  cases this
  exact (wp_looked_final (exec_here (small_ok false isMap E (ib i) N) rfl op hop hv hp (fun h => by cases h) hvs hh _ _)
    hx).untouched

/-- The hypotheses are met: `operator[]` on a full container with a key that is present. -/
example : Reached (smallCont false true Demo.umap (Demo.env [90]) Demo.T Demo.ib3 2)
      (smallSem false true Demo.umap (Demo.env [90]) Demo.T) Demo.m3 0 (Demo.umapOf [90]) ∧
    Demo.show' ((smallImpl false true Demo.umap (Demo.env [90]) (Demo.ib3 0) 2).contents (Demo.umapOf [90])) =
      some [301, 502] ∧
    (∀ v ∈ [599], ∃ x ∈ [301, 502], Demo.umap.same x v = true) ∧
    (∃ r o', (smallImpl false true Demo.umap (Demo.env [90]) (Demo.ib3 0) 2).exec (.tryEmplace 599) (Demo.umapOf [90]) =
      .ok r o') :=
  ⟨Demo.reachedIn (by decide +kernel), by decide +kernel, by decide, Demo.ok_any (by decide +kernel)⟩

theorem emplace_returns {Kd : Unord.Kind α} {H : Heap α} {al jb b cap : Nat} {v : α} (hu : Kd.multi = false)
    (ha : Kd.appends = true) (hpush : ∀ {o : Obj Vec α}, VSt H E jb N o al b cap xs → xs.length < cap →
      wp (Kd.push (.val v)) (fun p o' => VSt H E jb N o' al b cap (xs ++ [v]) ∧ p = ⟨b, xs.length⟩ ∧ o'.m.next = o.m.next)
        (fun _ _ => True) o)
    (h : VSt H E jb N o al b cap xs) (hcap : xs.length < cap) (hh : ∃ x ∈ xs, U.same x v = true) :
    wp (Unord.emplace Kd U E v) (fun r o' => VSt H E jb N o' al b cap xs ∧ o'.m.next = o.m.next ∧ ∃ i, r = (⟨b, i⟩, false))
      (fun _ _ => True) o := by
  unfold Unord.emplace
  rw [if_neg (by simp [hu]), if_pos ha]
  exact emplaceAux_here hpush h hcap hh

theorem small_push {H : Heap α} {al jb b cap : Nat} {v : α} (isMap : Bool) {o : Obj Vec α}
    (h : VSt H E jb N o al b cap xs) (hc : xs.length < cap) :
    wp ((small false isMap E jb N).push (.val v))
      (fun p o' => VSt H E jb N o' al b cap (xs ++ [v]) ∧ p = ⟨b, xs.length⟩ ∧ o'.m.next = o.m.next) (fun _ _ => True) o := by
  refine wp_mono (emplaceBack_spec (a := .val v) (v := v) h rfl rfl) ?_ (fun _ _ _ => trivial)
  rintro p o1 ⟨b', cap', hd, hp, -⟩
  have hl : (xs ++ [v]).length ≤ cap := by simp; omega
  obtain ⟨rfl, rfl⟩ := hd.keep hl
  exact ⟨hd.v, hp, hd.next.resolve_right (by omega)⟩

theorem static_push {H : Heap α} {al jb : Nat} {v : α} (isMap : Bool) {o : Obj Vec α}
    (h : VSt H E jb N o al jb N xs) (hc : xs.length < N) :
    wp ((static false isMap E).push (.val v))
      (fun p o' => VSt H E jb N o' al jb N (xs ++ [v]) ∧ p = ⟨jb, xs.length⟩ ∧ o'.m.next = o.m.next) (fun _ _ => True) o := by
  refine wp_mono ((static_ok false isMap E jb N).push (a := .val v) (v := v) h rfl rfl (fun _ => ⟨rfl, rfl, by omega⟩)) ?_
    (fun _ _ _ => trivial)
  rintro p o1 ⟨b', cap', hd⟩
  obtain ⟨rfl, rfl, hn⟩ := hd.op.inside rfl rfl (by omega)
  exact ⟨hd.op.v, hd.ptr, hn⟩

/-- **C56** (small_unordered_flat_map), `emplace` and `emplace_hint`, which add the element before they look for its key:
no effect if there is room for one more element and nothing throws.

Missing: a full container (`smallUnord_emplace_present` below) and an equality that throws (`smallUnord_emplace_throw`). -/
theorem smallUnord_emplace_present_partial (L : U.Lawful) (hm : Objects E ib N m0)
    (h : Reached (smallCont false true U E T ib N) (smallSem false true U E T) m0 i o)
    (hc : (smallImpl false true U E (ib i) N).contents o = .ok xs o) {c : Nat} {o1 : Obj Vec α}
    (hcap : Vector.capacity o = .ok c o1) (hroom : xs.length < c) {v : α} (hh : ∃ x ∈ xs, U.same x v = true)
    {op : Unord.Op α κ} (hop : op = .emplace v ∨ ∃ k ≤ xs.length, op = .emplaceHint k v) {r : Flat.Ret}
    (hx : (smallImpl false true U E (ib i) N).exec op o = .ok r o') :
    Untouched o o' ∧ o'.m.next = o.m.next := by
  obtain ⟨H, al, b, cap, xs', hv⟩ := h.small hm (smallSpec L hm.fits)
  have := hv.contents (smallImpl false true U E (ib i) N) rfl rfl
  rw [hc] at this
  cases this
  obtain rfl := hv.capacity_eq hcap
  have key := emplace_returns (U := U) (Kd := small false true E (ib i) N) (v := v) rfl rfl
    (fun h hc => small_push true h hc) hv hroom hh
  have hw : wp ((smallImpl false true U E (ib i) N).exec op)
      (fun _ o' => VSt H E (ib i) N o' al b c xs ∧ o'.m.next = o.m.next) (fun _ _ => True) o := by
    rcases hop with rfl | ⟨k, hk, rfl⟩ <;> simp only [smallImpl, exec, wp_bind]
    · refine (small_ok false true E (ib i) N).guard hv (fun h => by cases h) ?_
      refine wp_mono key ?_ (fun _ _ h => h)
      rintro _ o2 ⟨k1, k2, j, rfl⟩
      exact Flat.wp_insOf k1 rfl ⟨k1, k2⟩
    · refine (small_ok false true E (ib i) N).guard hv (fun h => by cases h) (wp_checkHint hv hk ?_)
      refine wp_mono key ?_ (fun _ _ h => h)
      rintro _ o2 ⟨k1, k2, j, rfl⟩
      exact Flat.wp_posOf k1 rfl ⟨k1, k2⟩
  obtain ⟨k1, k2⟩ := wp_ok hx hw
  obtain ⟨g1, g2, g3⟩ := hv.eq k1
  exact ⟨⟨g1, g2, g3⟩, k2⟩

/-- The hypotheses are met: the map has one element 5 and capacity 2. -/
example : Reached (smallCont false true Demo.ueqT (Demo.envCopy [2]) Demo.T Demo.ib3 2)
      (smallSem false true Demo.ueqT (Demo.envCopy [2]) Demo.T) Demo.m3 0 Demo.umap5 ∧
    (∃ o1, Vector.capacity Demo.umap5 = .ok 2 o1) ∧
    Demo.show' ((smallImpl false true Demo.ueqT (Demo.envCopy [2]) (Demo.ib3 0) 2).contents Demo.umap5) = some [5] ∧
    ∃ r o', (smallImpl false true Demo.ueqT (Demo.envCopy []) (Demo.ib3 0) 2).exec (.emplace 5) Demo.umap5 = .ok r o' :=
  ⟨Demo.umap5_reached, Demo.ok_of (by decide +kernel), by decide +kernel, Demo.ok_any (by decide +kernel)⟩

/-- **C56** (static_unordered_flat_set, static_unordered_flat_map), all operations except `emplace` and `emplace_hint`. -/
theorem staticUnord_present (L : U.Lawful) (hm : Objects E ib N m0)
    (h : Reached (staticCont false isMap U E ib N) (staticSem false U E N) m0 i o)
    (hc : (staticImpl false isMap U E N).contents o = .ok xs o) (op : Unord.Op α κ) (hop : op.emplaces = false)
    (hp : op.pre false xs.length = true) (hr : op.room xs.length ≤ N) (hvs : op.adds xs = some vs)
    (hh : ∀ v ∈ vs, ∃ x ∈ xs, U.same x v = true) (hx : ((staticImpl false isMap U E N).exec op o).final = some o') :
    Untouched o o' ∧ o'.m.next = o.m.next := by
  obtain ⟨H, al, xs', hv⟩ := h.static hm (staticSpec L hm.fits)
  have := hv.contents (staticImpl false isMap U E N) rfl rfl
  rw [hc] at this
  cases this
  have hw := exec_here (U := U) (static_ok false isMap E (ib i) N) rfl op (fun _ => hop) hv hp (fun _ => ⟨rfl, rfl, hr⟩) hvs hh
    (fun _ => pure ()) (pure ())
  refine (wp_looked_final hw ?_).untouched
  cases op <;> first | exact hx | cases hvs

/-- **C56** (static_unordered_flat_set, static_unordered_flat_map), `emplace` and `emplace_hint`: no effect if nothing
throws. `xs.length < N` is their precondition.

Missing: an equality that throws (`staticUnord_emplace_throw`). -/
theorem staticUnord_emplace_present_partial (L : U.Lawful) (hm : Objects E ib N m0)
    (h : Reached (staticCont false isMap U E ib N) (staticSem false U E N) m0 i o)
    (hc : (staticImpl false isMap U E N).contents o = .ok xs o) (hroom : xs.length < N) {v : α}
    (hh : ∃ x ∈ xs, U.same x v = true) {op : Unord.Op α κ} (hop : op = .emplace v ∨ ∃ k ≤ xs.length, op = .emplaceHint k v)
    {r : Flat.Ret} (hx : (staticImpl false isMap U E N).exec op o = .ok r o') :
    Untouched o o' ∧ o'.m.next = o.m.next := by
  obtain ⟨H, al, xs', hv⟩ := h.static hm (staticSpec L hm.fits)
  have := hv.contents (staticImpl false isMap U E N) rfl rfl
  rw [hc] at this
  cases this
  have key := emplace_returns (U := U) (Kd := static false isMap E) (v := v) rfl rfl
    (fun h hc => static_push isMap h hc) hv hroom hh
  have hw : wp ((staticImpl false isMap U E N).exec op)
      (fun _ o' => VSt H E (ib i) N o' al (ib i) N xs ∧ o'.m.next = o.m.next) (fun _ _ => True) o := by
    rcases hop with rfl | ⟨k, hk, rfl⟩ <;> simp only [staticImpl, staticExec, exec, wp_bind]
    · refine (static_ok false isMap E (ib i) N).guard hv (fun _ => ⟨rfl, rfl, hroom⟩) ?_
      refine wp_mono key ?_ (fun _ _ h => h)
      rintro _ o2 ⟨k1, k2, j, rfl⟩
      exact Flat.wp_insOf k1 rfl ⟨k1, k2⟩
    · refine (static_ok false isMap E (ib i) N).guard hv (fun _ => ⟨rfl, rfl, hroom⟩) (wp_checkHint hv hk ?_)
      refine wp_mono key ?_ (fun _ _ h => h)
      rintro _ o2 ⟨k1, k2, j, rfl⟩
      exact Flat.wp_posOf k1 rfl ⟨k1, k2⟩
  obtain ⟨k1, k2⟩ := wp_ok hx hw
  obtain ⟨g1, g2, g3⟩ := hv.eq k1
  exact ⟨⟨g1, g2, g3⟩, k2⟩

/-- The hypotheses of `staticUnord_present` and `staticUnord_emplace_present_partial` are met. -/
example : Reached (staticCont false true Demo.ueqT (Demo.envCopy [90]) Demo.ib3 2)
      (staticSem false Demo.ueqT (Demo.envCopy [90]) 2) Demo.m3 0 (Demo.sumapOf [90] [5]) ∧
    Demo.show' ((staticImpl false true Demo.ueqT (Demo.envCopy [90]) 2).contents (Demo.sumapOf [90] [5])) = some [5] ∧
    (∃ r o', (staticImpl false true Demo.ueqT (Demo.envCopy [90]) 2).exec (.insert (.value 5)) (Demo.sumapOf [90] [5]) =
      .ok r o') ∧
    ∃ r o', (staticImpl false true Demo.ueqT (Demo.envCopy [90]) 2).exec (.emplaceHint 1 5) (Demo.sumapOf [90] [5]) =
      .ok r o' :=
  ⟨Demo.sumapOf_reached _ _ (by decide +kernel), by decide +kernel, Demo.ok_any (by decide +kernel), Demo.ok_any (by decide +kernel)⟩

/-- **C56 does not hold** for `emplace` of a small_unordered_flat_map that is full (small_unordered_flat_map.hpp:1733-1746):
the element is appended before its key is looked for. In a small_unordered_flat_map<int, int, 2> with the keys 3 and 5
in the internal storage, `emplace(5, 2)` allocates memory and moves all elements there, although nothing is inserted. All
references to elements are invalid then, and with an allocator without memory the call throws. -/
theorem smallUnord_emplace_present :
    (∃ (o o' : Obj Vec Nat),
      Reached (smallCont false true Demo.umap (Demo.env [90]) Demo.T Demo.ib3 2)
        (smallSem false true Demo.umap (Demo.env [90]) Demo.T) Demo.m3 0 o ∧
      (smallImpl false true Demo.umap (Demo.env [90]) (Demo.ib3 0) 2).contents o = .ok [301, 502] o ∧
      (smallImpl false true Demo.umap (Demo.env [90]) (Demo.ib3 0) 2).exec (.emplace 502) o = .ok (.ins 1 false) o' ∧
      o.obj.first = ⟨Demo.ib3 0, 0⟩ ∧ o'.obj.first.blk ≠ Demo.ib3 0 ∧ o'.m.next = o.m.next + 1) ∧
    ∃ (o o' : Obj Vec Nat),
      Reached (smallCont false true Demo.umap (Demo.env [3]) Demo.T Demo.ib3 2)
        (smallSem false true Demo.umap (Demo.env [3]) Demo.T) Demo.m3 0 o ∧
      (smallImpl false true Demo.umap (Demo.env [3]) (Demo.ib3 0) 2).contents o = .ok [301, 502] o ∧
      (smallImpl false true Demo.umap (Demo.env [3]) (Demo.ib3 0) 2).exec (.emplace 502) o = .exn .badAlloc o' := by
  have hr : ∀ ts, Demo.alive (World.runOps (smallCont false true Demo.umap (Demo.env ts) Demo.T Demo.ib3 2)
      (smallSem false true Demo.umap (Demo.env ts) Demo.T) [.make 0 7 (.range [301, 502])] ⟨fun _ => none, Demo.m3⟩) 0 = true →
      Reached (smallCont false true Demo.umap (Demo.env ts) Demo.T Demo.ib3 2)
        (smallSem false true Demo.umap (Demo.env ts) Demo.T) Demo.m3 0 (Demo.umapOf ts) := fun ts h => Demo.reachedIn h
  have h1 := hr [90] (by decide +kernel)
  have h2 := hr [3] (by decide +kernel)
  obtain ⟨xs, hc, -⟩ := smallUnord_modify Demo.umap_lawful (Demo.objects3 _ (by decide)) h1
  obtain rfl : xs = [301, 502] := Demo.contents_of hc (by decide +kernel)
  obtain ⟨ys, hd, -⟩ := smallUnord_modify Demo.umap_lawful (Demo.objects3 _ (by decide)) h2
  obtain rfl : ys = [301, 502] := Demo.contents_of hd (by decide +kernel)
  have hok : (match (smallImpl false true Demo.umap (Demo.env [90]) (Demo.ib3 0) 2).exec (.emplace 502) (Demo.umapOf [90]) with
      | .ok r o' => decide (r = .ins 1 false ∧ o'.obj.first.blk ≠ Demo.ib3 0 ∧ o'.m.next = (Demo.umapOf [90]).m.next + 1)
      | _ => false) = true := by decide +kernel
  have hex : (match (smallImpl false true Demo.umap (Demo.env [3]) (Demo.ib3 0) 2).exec (.emplace 502) (Demo.umapOf [3]) with
      | .exn e _ => decide (e = .badAlloc)
      | _ => false) = true := by decide +kernel
  refine ⟨⟨Demo.umapOf [90], ?_⟩, ⟨Demo.umapOf [3], ?_⟩⟩
  · split at hok
    case h_1 r o' hx =>
      have hok := of_decide_eq_true hok
      exact ⟨o', h1, hc, by rw [hx, hok.1], by decide +kernel, hok.2⟩
    case h_2 => cases hok
  · split at hex
    case h_1 e o' hx =>
      have hex := of_decide_eq_true hex
      exact ⟨o', h2, hd, by rw [hx, hex]⟩
    case h_2 => cases hex

end unordered
end Sfl
