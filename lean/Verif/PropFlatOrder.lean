import Verif.PropFlatKeep
/-
  C59: inserting a range into a flat container is inserting its elements one by one; the order of insertion does not matter.
-/

namespace Sfl
open Sq World
variable {α κ : Type} {K : Nat}

/-- The operation is to insert one element with this value (specification; insert, emplace and try_emplace, small_flat_set.hpp:782-830,
small_flat_map.hpp:835-883, 948-1003). -/
def Flat.Op.puts : Flat.Op α κ → Option α
  | .insert (.value v) | .insert (.rvalue v) | .insertHint _ (.value v) | .insertHint _ (.rvalue v) => some v
  | .emplace v | .emplaceHint _ v | .tryEmplace v | .tryEmplaceHint _ v => some v
  | _ => none

/-- The same for the unordered containers (small_unordered_flat_set.hpp:738-788). -/
def Unord.Op.puts : Unord.Op α κ → Option α
  | .insert (.value v) | .insert (.rvalue v) | .insertHint _ (.value v) | .insertHint _ (.rvalue v) => some v
  | .emplace v | .emplaceHint _ v | .tryEmplace v | .tryEmplaceHint _ v => some v
  | _ => none

/-- Every step of the program returned. -/
def Sq.Out.AllOk {ρ : Type} (log : List (Sq.Out ρ)) : Prop := ∀ x ∈ log, ∃ r, x = .ok r

/-- `ws` has the elements of `vs`, in the same order or, if no two of them have equal keys (or equal keys are allowed), in any order. -/
def SameSet (same : α → α → Bool) (multi : Bool) (vs ws : List α) : Prop :=
  ws = vs ∨ ws.Perm vs ∧ (multi = true ∨ vs.Pairwise fun a b => same a b = false)

section
variable {xs ys vs ws : List α}

theorem Flat.Op.Result.puts {C : Order α κ} {multi : Bool} {op : Flat.Op α κ} {r : Flat.Ret} {v : α} (h : op.Result C multi xs r ys)
    (hv : op.puts = some v) : ∃ i new, Flat.Inserted C multi xs v i new ys := by
  cases op <;> simp only [Flat.Op.Result] at h <;> simp only [Flat.Op.puts, reduceCtorEq] at hv
  case insert s => cases s <;> cases hv <;> (obtain ⟨w, i, new, e, -, h⟩ := h; cases e; exact ⟨i, new, h⟩)
  case insertHint k s => cases s <;> cases hv <;> (obtain ⟨w, i, new, e, -, h⟩ := h; cases e; exact ⟨i, new, h⟩)
  all_goals (cases hv; obtain ⟨i, new, -, h⟩ := h; exact ⟨i, new, h⟩)

theorem Unord.Op.Result.puts {U : KeyEq α κ} {multi : Bool} {op : Unord.Op α κ} {r : Flat.Ret} {v : α} (h : op.Result U multi xs r ys)
    (hv : op.puts = some v) : ∃ i new, Unord.Inserted U multi xs v i new ys := by
  cases op <;> simp only [Unord.Op.Result] at h <;> simp only [Unord.Op.puts, reduceCtorEq] at hv
  case insert s => cases s <;> cases hv <;> (obtain ⟨w, i, new, e, -, h⟩ := h; cases e; exact ⟨i, new, h⟩)
  case insertHint k s => cases s <;> cases hv <;> (obtain ⟨w, i, new, e, -, h⟩ := h; cases e; exact ⟨i, new, h⟩)
  all_goals (cases hv; obtain ⟨i, new, -, h⟩ := h; exact ⟨i, new, h⟩)

theorem Flat.run_puts {C : Order α κ} {multi : Bool} {pre : Nat → Flat.Op α κ → Bool} {F : List α → Flat.Op α κ → Exn → List α → Prop}
    {ops : List (Flat.Op α κ)} {log : List (Out Flat.Ret)}
    (h : Run pre (fun xs op r ys => op.puts ≠ none → C.Sorted multi xs → op.Result C multi xs r ys) F xs ops log ys)
    (hok : Out.AllOk log) (hv : ops.map Flat.Op.puts = vs.map some) (hs : C.Sorted multi xs) :
    C.Sorted multi ys ∧ ys.Perm (Flat.merge C multi xs vs) := by
  induction h generalizing vs with
  | nil xs =>
    cases vs with
    | nil => exact ⟨hs, .refl _⟩
    | cons v vs => cases hv
  | ok hp hr hrun ih =>
    cases vs with
    | nil => cases hv
    | cons v vs =>
      simp only [List.map_cons, List.cons.injEq] at hv
      obtain ⟨i, new, hi⟩ := (hr (by rw [hv.1]; simp) hs).puts hv.1
      obtain ⟨k1, k2⟩ := ih (fun x hx => hok x (List.mem_cons_of_mem _ hx)) hv.2 (hi.sorted hs)
      exact ⟨k1, k2.trans (hi.perm vs)⟩
  | threw hp hr hrun ih => obtain ⟨r, e⟩ := hok _ List.mem_cons_self; cases e
  | skipped hp hrun ih => obtain ⟨r, e⟩ := hok _ List.mem_cons_self; cases e

theorem Unord.run_puts {U : KeyEq α κ} {multi : Bool} {pre : Nat → Unord.Op α κ → Bool} {F : List α → Unord.Op α κ → Exn → List α → Prop}
    {ops : List (Unord.Op α κ)} {log : List (Out Flat.Ret)}
    (h : Run pre (fun xs op r ys => op.puts ≠ none → op.Result U multi xs r ys) F xs ops log ys)
    (hok : Out.AllOk log) (hv : ops.map Unord.Op.puts = vs.map some) : ys = Unord.merge U multi xs vs := by
  induction h generalizing vs with
  | nil xs =>
    cases vs with
    | nil => rfl
    | cons v vs => cases hv
  | ok hp hr hrun ih =>
    cases vs with
    | nil => cases hv
    | cons v vs =>
      simp only [List.map_cons, List.cons.injEq] at hv
      obtain ⟨i, new, hi⟩ := (hr (by rw [hv.1]; simp)).puts hv.1
      rw [ih (fun x hx => hok x (List.mem_cons_of_mem _ hx)) hv.2, hi.merge vs]
  | threw hp hr hrun ih => obtain ⟨r, e⟩ := hok _ List.mem_cons_self; cases e
  | skipped hp hrun ih => obtain ⟨r, e⟩ := hok _ List.mem_cons_self; cases e

theorem Order.same_symm (C : Order α κ) (a b : α) : C.same a b = C.same b a := by
  unfold Order.same
  rw [Bool.and_comm]

theorem Flat.merge_eq_filter {C : Order α κ} (vs : List α) : ∀ xs : List α, vs.Pairwise (fun a b => C.same a b = false) →
    Flat.merge C false xs vs = xs ++ vs.filter fun v => xs.all fun x => !C.same x v := by
  induction vs with
  | nil => intro xs _; simp [Flat.merge]
  | cons v vs ih =>
    intro xs h
    obtain ⟨h1, h2⟩ := List.pairwise_cons.mp h
    unfold Flat.merge
    by_cases hc : xs.all (fun x => !C.same x v) = true
    · rw [if_pos (.inr hc), ih _ h2, List.filter_cons_of_pos (p := fun v => xs.all fun x => !C.same x v) hc, List.append_assoc]
      refine congrArg (xs ++ ·) (congrArg (v :: ·) (List.filter_congr fun w hw => ?_))
      simp [h1 w hw]
    · rw [if_neg (by simpa using hc), ih _ h2, List.filter_cons_of_neg (p := fun v => xs.all fun x => !C.same x v) hc]

theorem Flat.merge_true {C : Order α κ} (vs : List α) : ∀ xs : List α, Flat.merge C true xs vs = xs ++ vs := by
  induction vs with
  | nil => intro xs; simp [Flat.merge]
  | cons v vs ih => intro xs; unfold Flat.merge; rw [if_pos (.inl rfl), ih]; simp

theorem Flat.merge_sameSet {C : Order α κ} {multi : Bool} (h : SameSet C.same multi vs ws) :
    (Flat.merge C multi xs ws).Perm (Flat.merge C multi xs vs) := by
  rcases h with rfl | ⟨hp, h⟩
  · exact .refl _
  · cases multi with
    | true => rw [merge_true, merge_true]; exact hp.append_left _
    | false =>
      have h := h.resolve_left (by simp)
      have h' : ws.Pairwise fun a b => C.same a b = false :=
        (hp.pairwise_iff fun {a b} h => by rw [C.same_symm]; exact h).mpr h
      rw [merge_eq_filter _ _ h, merge_eq_filter _ _ h']
      exact (hp.filter _).append_left _

theorem Unord.merge_eq_filter {U : KeyEq α κ} (vs : List α) : ∀ xs : List α, vs.Pairwise (fun a b => U.same a b = false) →
    Unord.merge U false xs vs = xs ++ vs.filter fun v => xs.all fun x => !U.same x v := by
  induction vs with
  | nil => intro xs _; simp [Unord.merge]
  | cons v vs ih =>
    intro xs h
    obtain ⟨h1, h2⟩ := List.pairwise_cons.mp h
    unfold Unord.merge
    by_cases hc : xs.all (fun x => !U.same x v) = true
    · rw [if_pos (.inr hc), ih _ h2, List.filter_cons_of_pos (p := fun v => xs.all fun x => !U.same x v) hc, List.append_assoc]
      refine congrArg (xs ++ ·) (congrArg (v :: ·) (List.filter_congr fun w hw => ?_))
      simp [h1 w hw]
    · rw [if_neg (by simpa using hc), ih _ h2, List.filter_cons_of_neg (p := fun v => xs.all fun x => !U.same x v) hc]

theorem Unord.merge_true {U : KeyEq α κ} (vs : List α) : ∀ xs : List α, Unord.merge U true xs vs = xs ++ vs := by
  induction vs with
  | nil => intro xs; simp [Unord.merge]
  | cons v vs ih => intro xs; unfold Unord.merge; rw [if_pos (.inl rfl), ih]; simp

theorem Unord.merge_sameSet {U : KeyEq α κ} {multi : Bool} (L : U.Lawful) (h : SameSet U.same multi vs ws) :
    (Unord.merge U multi xs ws).Perm (Unord.merge U multi xs vs) := by
  rcases h with rfl | ⟨hp, h⟩
  · exact .refl _
  · cases multi with
    | true => rw [merge_true, merge_true]; exact hp.append_left _
    | false =>
      have h := h.resolve_left (by simp)
      have h' : ws.Pairwise fun a b => U.same a b = false :=
        (hp.pairwise_iff fun {a b} h => by rw [L.same_symm]; exact h).mpr h
      rw [merge_eq_filter _ _ h, merge_eq_filter _ _ h']
      exact (hp.filter _).append_left _

theorem Order.Sorted.eq_of_perm {C : Order α κ} (L : C.Lawful) (h1 : C.Sorted false xs) (h2 : C.Sorted false ys) (h : xs.Perm ys) :
    xs = ys := by
  refine h.eq_of_pairwise (le := fun a b => C.lt (C.key a) (C.key b) = true) ?_ (by simpa [Order.Sorted] using h1)
    (by simpa [Order.Sorted] using h2)
  intro a b _ _ e1 e2
  rw [L.asymm e1] at e2
  cases e2

end

/-! ### The ordered containers -/

section
variable {multi : Bool} {C : Order α κ} {E : Env α} {T : Traits} {ib : Fin K → Nat} {N : Nat} {m0 : St α} {i : Fin K}
  {o o1 o2 : Obj Vec α} {xs vs ws : List α} {ops : List (Flat.Op α κ)} {r : Flat.Ret} {log : List (Out Flat.Ret)}

/-- **C59** (small_flat_set, small_flat_map, small_flat_multiset, small_flat_multimap). `insert(first, last)` and any mixture of single
insertions of the same elements lead to containers with the same elements; for sets and maps, to equal containers. -/
theorem smallFlat_insert_order (L : C.Lawful) (hm : Objects E ib N m0) (h : SmallFlat.Reached multi C E T ib N m0 i o)
    (hc : (Flat.smallImpl multi C E (ib i) N).contents o = .ok xs o) (hs : C.Sorted multi xs) (hv : ops.map Flat.Op.puts = ws.map some)
    (hw : SameSet C.same multi vs ws) (h1 : (Flat.smallImpl multi C E (ib i) N).exec (.insertRange vs) o = .ok r o1)
    (h2 : (Flat.smallImpl multi C E (ib i) N).runOps (fun n op => op.pre multi n) ops o = .ok log o2) (hok : Out.AllOk log) :
    ∃ ys zs, (Flat.smallImpl multi C E (ib i) N).contents o1 = .ok ys o1 ∧
      (Flat.smallImpl multi C E (ib i) N).contents o2 = .ok zs o2 ∧ ys.Perm zs ∧ (multi = false → ys = zs) := by
  obtain ⟨H, al, b, cap, xs', h0⟩ := h.repr L hm
  rw [h0.contents _ rfl rfl] at hc
  cases hc
  obtain ⟨b1, cap1, ys, k1, k2⟩ := wp_ok h1 (Flat.exec_spec L (Flat.small_ok multi E (ib i) N) (.insertRange vs) h0
    (by simp [Flat.Op.pre, Flat.Op.uniqueOnly]) (fun h => by cases h))
  obtain ⟨-, k2, k3⟩ := k2 (.inr hs)
  have G : Correct (Flat.smallImpl multi C E (ib i) N) (fun n op => op.pre multi n)
      (fun xs op r ys => op.puts ≠ none → C.Sorted multi xs → op.Result C multi xs r ys) (fun _ _ _ _ => True)
      (fun o xs => ∃ b cap, VSt H E (ib i) N o al b cap xs) :=
    { size := fun _ _ ⟨_, _, h⟩ => wp_size h.obj ⟨rfl, rfl⟩
      index := fun _ _ _ _ ⟨_, _, h⟩ hv => index_spec h hv
      exec := by
        rintro o xs op ⟨b, cap, h⟩ hp
        refine wp_mono (Flat.exec_spec L (Flat.small_ok multi E (ib i) N) op h hp (fun h => by cases h)) ?_ ?_
        · rintro r o' ⟨b', cap', ys, k1, k2⟩
          exact ⟨ys, ⟨b', cap', k1.v⟩, fun _ hs => k2 (.inr hs)⟩
        · rintro e o' ⟨b', cap', ys, k1, -⟩
          exact ⟨ys, ⟨b', cap', k1.v⟩, trivial⟩ }
  obtain ⟨zs, ⟨b2, cap2, q1⟩, q2⟩ := wp_ok h2 (G.runOps ops _ _ ⟨b, cap, h0⟩)
  obtain ⟨q2, q3⟩ := Flat.run_puts q2 hok hv hs
  have hp : ys.Perm zs := k3.trans (q3.trans (Flat.merge_sameSet hw)).symm
  refine ⟨ys, zs, k1.v.contents _ rfl rfl, q1.contents _ rfl rfl, hp, ?_⟩
  rintro rfl
  exact k2.eq_of_perm L q2 hp

/-- A small_flat_map with keys 5, 4, 3: a range with keys 7, 4, 1, 2 and the same elements in another order by four functions. -/
example : SmallFlat.Reached false Demo.map (Demo.env []) Demo.T Demo.ib3 2 Demo.m3 0 (Demo.fmap []) ∧
    Demo.map.Sorted false [502, 404, 301] ∧ SameSet Demo.map.same false [777, 450, 188, 222] [188, 450, 222, 777] ∧
    ([.insert (.value 188), .emplaceHint 0 450, .tryEmplace 222, .insertHint 2 (.rvalue 777)] : List (Flat.Op Nat Nat)).map Flat.Op.puts =
      [188, 450, 222, 777].map some ∧
    Demo.show' (((Flat.smallImpl false Demo.map (Demo.env []) (Demo.ib3 0) 2).exec (.insertRange [777, 450, 188, 222]) >>= fun _ =>
      (Flat.smallImpl false Demo.map (Demo.env []) (Demo.ib3 0) 2).contents) (Demo.fmap [])) = some [777, 502, 404, 301, 222, 188] ∧
    Demo.show' ((Flat.smallImpl false Demo.map (Demo.env []) (Demo.ib3 0) 2).runOps (fun n op => op.pre false n)
      [.insert (.value 188), .emplaceHint 0 450, .tryEmplace 222, .insertHint 2 (.rvalue 777)] (Demo.fmap [])) =
      some [.ok (.ins 3 true), .ok (.pos 1), .ok (.ins 3 true), .ok (.pos 0)] :=
  ⟨Demo.reached (by decide +kernel), by simp [Order.Sorted, Demo.map], .inr ⟨by decide, .inr (by decide)⟩, rfl, by decide +kernel,
    by decide +kernel⟩

/-- **C59** (static_flat_set, static_flat_map, static_flat_multiset, static_flat_multimap). -/
theorem staticFlat_insert_order (L : C.Lawful) (hm : Objects E ib N m0)
    (h : Reached (Flat.staticCont multi C E ib N) (Flat.staticSem multi C E N) m0 i o)
    (hc : (Flat.staticImpl multi C E N).contents o = .ok xs o) (hs : C.Sorted multi xs) (hv : ops.map Flat.Op.puts = ws.map some)
    (hw : SameSet C.same multi vs ws) (hn : xs.length + vs.length ≤ N)
    (h1 : (Flat.staticImpl multi C E N).exec (.insertRange vs) o = .ok r o1)
    (h2 : (Flat.staticImpl multi C E N).runOps (Flat.staticPre multi N) ops o = .ok log o2) (hok : Out.AllOk log) :
    ∃ ys zs, (Flat.staticImpl multi C E N).contents o1 = .ok ys o1 ∧
      (Flat.staticImpl multi C E N).contents o2 = .ok zs o2 ∧ ys.Perm zs ∧ (multi = false → ys = zs) := by
  obtain ⟨H, al, xs', h0⟩ := h.static hm (Flat.staticSpec L hm.fits)
  rw [h0.contents _ rfl rfl] at hc
  cases hc
  obtain ⟨ys, k1, -, -, k2⟩ := wp_ok h1 (Flat.staticExec_spec L (.insertRange vs) h0
    (by simp [Flat.staticPre, Flat.Op.pre, Flat.Op.uniqueOnly, Flat.Op.room, Flat.Op.storage, hn]))
  obtain ⟨r', e, k2⟩ := (show Flat.okStep C multi xs (.insertRange vs) (some r) ys from k2)
  cases e
  obtain ⟨-, k2, k3⟩ := k2 (.inr hs)
  have G : Correct (Flat.staticImpl multi C E N) (Flat.staticPre multi N)
      (fun xs op r ys => op.puts ≠ none → C.Sorted multi xs → op.Result C multi xs r ys) (fun _ _ _ _ => True)
      (fun o xs => VSt H E (ib i) N o al (ib i) N xs) :=
    { size := fun _ _ h => wp_size h.obj ⟨rfl, rfl⟩
      index := fun _ _ _ _ h hv => index_spec h hv
      exec := by
        intro o xs op h hp
        refine wp_mono (Flat.staticExec_spec L op h hp) ?_ ?_
        · rintro r o' ⟨ys, k1, -, -, k2⟩
          refine ⟨ys, k1, fun h1 hs => ?_⟩
          have k2 : Flat.okStep C multi xs op (some r) ys := by
            cases op <;> first | exact k2 | exact absurd rfl h1
          obtain ⟨r', e, k⟩ := k2
          cases e
          exact k (.inr hs)
        · rintro e o' ⟨ys, k1, -⟩
          exact ⟨ys, k1, trivial⟩ }
  obtain ⟨zs, q1, q2⟩ := wp_ok h2 (G.runOps ops _ _ h0)
  obtain ⟨q2, q3⟩ := Flat.run_puts q2 hok hv hs
  have hp : ys.Perm zs := k3.trans (q3.trans (Flat.merge_sameSet hw)).symm
  refine ⟨ys, zs, k1.contents _ rfl rfl, q1.contents _ rfl rfl, hp, ?_⟩
  rintro rfl
  exact k2.eq_of_perm L q2 hp

/-- A static_flat_set<int, 2> with the element 5, and 3. -/
example : Reached (Flat.staticCont false Demo.asc (Demo.envCopy []) Demo.ib3 2) (Flat.staticSem false Demo.asc (Demo.envCopy []) 2)
      Demo.m3 0 (Demo.sset []) ∧
    Demo.show' ((Flat.staticImpl false Demo.asc (Demo.envCopy []) 2).contents (Demo.sset [])) = some [5] ∧
    (∃ o', (Flat.staticImpl false Demo.asc (Demo.envCopy []) 2).exec (.insertRange [3]) (Demo.sset []) = .ok .unit o') ∧
    Demo.show' ((Flat.staticImpl false Demo.asc (Demo.envCopy []) 2).runOps (Flat.staticPre false 2) [.insertHint 1 (.value 3)]
      (Demo.sset [])) = some [.ok (.pos 0)] :=
  ⟨Demo.sset_reached [] (by decide +kernel), by decide +kernel, Demo.ok_of (by decide +kernel), by decide +kernel⟩

end

/-! ### The unordered containers -/

section
variable {multi isMap : Bool} {U : KeyEq α κ} {E : Env α} {T : Traits} {ib : Fin K → Nat} {N : Nat} {m0 : St α} {i : Fin K}
  {o o1 o2 : Obj Vec α} {xs vs ws : List α} {ops : List (Unord.Op α κ)} {r : Flat.Ret} {log : List (Out Flat.Ret)}

/-- **C59** (small_unordered_flat_set, small_unordered_flat_map, small_unordered_flat_multiset, small_unordered_flat_multimap). -/
theorem smallUnord_insert_order (L : U.Lawful) (hm : Objects E ib N m0)
    (h : Reached (Unord.smallCont multi isMap U E T ib N) (Unord.smallSem multi isMap U E T) m0 i o)
    (hc : (Unord.smallImpl multi isMap U E (ib i) N).contents o = .ok xs o) (hv : ops.map Unord.Op.puts = ws.map some)
    (hw : SameSet U.same multi vs ws) (h1 : (Unord.smallImpl multi isMap U E (ib i) N).exec (.insertRange vs) o = .ok r o1)
    (h2 : (Unord.smallImpl multi isMap U E (ib i) N).runOps (fun n op => op.pre multi n) ops o = .ok log o2) (hok : Out.AllOk log) :
    ∃ ys zs, (Unord.smallImpl multi isMap U E (ib i) N).contents o1 = .ok ys o1 ∧
      (Unord.smallImpl multi isMap U E (ib i) N).contents o2 = .ok zs o2 ∧ ys.Perm zs ∧ (ws = vs → ys = zs) := by
  obtain ⟨H, al, b, cap, xs', h0⟩ := h.small hm (Unord.smallSpec L hm.fits)
  rw [h0.contents _ rfl rfl] at hc
  cases hc
  obtain ⟨b1, cap1, ys, k1, k2⟩ := wp_ok h1 (Unord.exec_spec L (Unord.small_ok multi isMap E (ib i) N) (.insertRange vs) h0
    (by simp [Unord.Op.pre, Unord.Op.uniqueOnly]) (fun h => by cases h))
  obtain ⟨-, k2⟩ := k2 (.inl rfl)
  have G : Correct (Unord.smallImpl multi isMap U E (ib i) N) (fun n op => op.pre multi n)
      (fun xs op r ys => op.puts ≠ none → op.Result U multi xs r ys) (fun _ _ _ _ => True)
      (fun o xs => ∃ b cap, VSt H E (ib i) N o al b cap xs) :=
    { size := fun _ _ ⟨_, _, h⟩ => wp_size h.obj ⟨rfl, rfl⟩
      index := fun _ _ _ _ ⟨_, _, h⟩ hv => index_spec h hv
      exec := by
        rintro o xs op ⟨b, cap, h⟩ hp
        refine wp_mono (Unord.exec_spec L (Unord.small_ok multi isMap E (ib i) N) op h hp (fun h => by cases h)) ?_ ?_
        · rintro r o' ⟨b', cap', ys, k1, k2⟩
          exact ⟨ys, ⟨b', cap', k1.v⟩, fun hn => k2 (.inl (by cases op <;> first | rfl | exact absurd rfl hn))⟩
        · rintro e o' ⟨b', cap', ys, k1, -⟩
          exact ⟨ys, ⟨b', cap', k1.v⟩, trivial⟩ }
  obtain ⟨zs, ⟨b2, cap2, q1⟩, q2⟩ := wp_ok h2 (G.runOps ops _ _ ⟨b, cap, h0⟩)
  have q3 := Unord.run_puts q2 hok hv
  refine ⟨ys, zs, k1.v.contents _ rfl rfl, q1.contents _ rfl rfl, ?_, ?_⟩
  · rw [k2, q3]
    exact (Unord.merge_sameSet L hw).symm
  · rintro rfl
    rw [k2, q3]
    rfl

/-- The elements of the first example and a small_unordered_flat_map. -/
example : Reached (Unord.smallCont false true Demo.umap (Demo.env []) Demo.T Demo.ib3 2)
      (Unord.smallSem false true Demo.umap (Demo.env []) Demo.T) Demo.m3 0 Demo.umapOf6 ∧
    SameSet Demo.umap.same false [777, 450, 188, 222] [188, 450, 222, 777] ∧
    (∃ o', (Unord.smallImpl false true Demo.umap (Demo.env []) (Demo.ib3 0) 2).exec (.insertRange [777, 450, 188, 222]) Demo.umapOf6 =
      .ok .unit o') ∧
    Demo.show' ((Unord.smallImpl false true Demo.umap (Demo.env []) (Demo.ib3 0) 2).runOps (fun n op => op.pre false n)
      [.insert (.value 188), .emplaceHint 0 450, .tryEmplace 222, .insertHint 2 (.rvalue 777)] Demo.umapOf6) =
      some [.ok (.ins 3 true), .ok (.pos 2), .ok (.ins 4 true), .ok (.pos 5)] :=
  ⟨Demo.reachedIn (by decide +kernel), .inr ⟨by decide, .inr (by decide)⟩, Demo.ok_of (by decide +kernel), by decide +kernel⟩

/-- **C59** (static_unordered_flat_set, static_unordered_flat_map, static_unordered_flat_multiset, static_unordered_flat_multimap). -/
theorem staticUnord_insert_order (L : U.Lawful) (hm : Objects E ib N m0)
    (h : Reached (Unord.staticCont multi isMap U E ib N) (Unord.staticSem multi U E N) m0 i o)
    (hc : (Unord.staticImpl multi isMap U E N).contents o = .ok xs o) (hv : ops.map Unord.Op.puts = ws.map some)
    (hw : SameSet U.same multi vs ws) (hn : xs.length + vs.length ≤ N)
    (h1 : (Unord.staticImpl multi isMap U E N).exec (.insertRange vs) o = .ok r o1)
    (h2 : (Unord.staticImpl multi isMap U E N).runOps (Unord.staticPre multi N) ops o = .ok log o2) (hok : Out.AllOk log) :
    ∃ ys zs, (Unord.staticImpl multi isMap U E N).contents o1 = .ok ys o1 ∧
      (Unord.staticImpl multi isMap U E N).contents o2 = .ok zs o2 ∧ ys.Perm zs ∧ (ws = vs → ys = zs) := by
  obtain ⟨H, al, xs', h0⟩ := h.static hm (Unord.staticSpec L hm.fits)
  rw [h0.contents _ rfl rfl] at hc
  cases hc
  obtain ⟨ys, k1, -, -, k2⟩ := wp_ok h1 (Unord.staticExec_spec (isMap := isMap) L (.insertRange vs) h0
    (by simp [Unord.staticPre, Unord.Op.pre, Unord.Op.uniqueOnly, Unord.Op.room, Unord.Op.storage, hn]))
  obtain ⟨r', e, k2⟩ := (show Unord.okStep U multi xs (.insertRange vs) (some r) ys from k2)
  cases e
  obtain ⟨-, k2⟩ := k2 (.inl rfl)
  have G : Correct (Unord.staticImpl multi isMap U E N) (Unord.staticPre multi N)
      (fun xs op r ys => op.puts ≠ none → op.Result U multi xs r ys) (fun _ _ _ _ => True)
      (fun o xs => VSt H E (ib i) N o al (ib i) N xs) :=
    { size := fun _ _ h => wp_size h.obj ⟨rfl, rfl⟩
      index := fun _ _ _ _ h hv => index_spec h hv
      exec := by
        intro o xs op h hp
        refine wp_mono (Unord.staticExec_spec (isMap := isMap) L op h hp) ?_ ?_
        · rintro r o' ⟨ys, k1, -, -, k2⟩
          refine ⟨ys, k1, fun h1 => ?_⟩
          have k2 : Unord.okStep U multi xs op (some r) ys := by
            cases op <;> first | exact k2 | exact absurd rfl h1
          obtain ⟨r', e, k⟩ := k2
          cases e
          exact k (.inl (by cases op <;> first | rfl | exact absurd rfl h1))
        · rintro e o' ⟨ys, k1, -⟩
          exact ⟨ys, k1, trivial⟩ }
  obtain ⟨zs, q1, q2⟩ := wp_ok h2 (G.runOps ops _ _ h0)
  have q3 := Unord.run_puts q2 hok hv
  refine ⟨ys, zs, k1.contents _ rfl rfl, q1.contents _ rfl rfl, ?_, ?_⟩
  · rw [k2, q3]
    exact (Unord.merge_sameSet L hw).symm
  · rintro rfl
    rw [k2, q3]

/-- A static_unordered_flat_multiset<int, 2> with the element 5, and 5 again. -/
example : Reached (Unord.staticCont true false Demo.ueq (Demo.env []) Demo.ib3 2) (Unord.staticSem true Demo.ueq (Demo.env []) 2)
      Demo.m3 0 (Demo.sumultiOf [5]) ∧
    (∃ o', (Unord.staticImpl true false Demo.ueq (Demo.env []) 2).exec (.insertRange [5]) (Demo.sumultiOf [5]) = .ok .unit o') ∧
    Demo.show' ((Unord.staticImpl true false Demo.ueq (Demo.env []) 2).runOps (Unord.staticPre true 2) [.insertHint 1 (.value 5)]
      (Demo.sumultiOf [5])) = some [.ok (.pos 1)] :=
  ⟨Demo.sumultiOf_reached [5] (by decide +kernel), Demo.ok_of (by decide +kernel), by decide +kernel⟩

end

/-! ### Equality of sets and maps -/

section
variable {C : Order α κ} {E : Env α} {T : Traits} {ib : Fin K → Nat} {N : Nat} {m0 : St α} {i j : Fin K}
  {ops : List (WOp K (Flat.Op α κ) (Flat.Init α))} {log : List (Out (Option Flat.Ret))} {s : Slots K Vec α} {v w : Vec}

theorem seqEq_iff {eq : α → α → Bool} (he : ∀ a b, eq a b = true ↔ a = b) {xs ys : List α} : SeqEq eq xs ys ↔ xs = ys := by
  refine ⟨fun ⟨h1, h2⟩ => List.ext_getElem h1 fun i hi hi' => ?_, ?_⟩
  · exact (he _ _).mp (h2 i _ _ (List.getElem?_eq_getElem hi) (List.getElem?_eq_getElem hi'))
  · rintro rfl
    exact ⟨rfl, fun i x y hx hy => (he _ _).mpr (Option.some.inj (hx.symm.trans hy))⟩

theorem Order.Sorted.same_elements {xs ys : List α} (L : C.Lawful) (h1 : C.Sorted false xs) (h2 : C.Sorted false ys) :
    xs = ys ↔ ∀ x, x ∈ xs ↔ x ∈ ys := by
  refine ⟨fun h => by simp [h], fun h => h1.eq_of_perm L h2 ?_⟩
  have nd : ∀ {zs : List α}, C.Sorted false zs → zs.Nodup := by
    intro zs hz
    refine hz.imp ?_
    rintro a b hab rfl
    simp [L.irrefl] at hab
  exact (List.perm_ext_iff_of_nodup (nd h1) (nd h2)).mpr h

theorem equal_of_holds {eq lt : α → α → Bool} (L : C.Lawful) (he : ∀ a b, eq a b = true ↔ a = b) {m : St α} {xs ys : List α}
    (hv : v.Holds m xs) (hw : w.Holds m ys) (h1 : C.Sorted false xs) (h2 : C.Sorted false ys) :
    ∃ r, Vec.compare eq lt v w .eq m = .ok r m ∧ (r = true ↔ ∀ x, x ∈ xs ↔ x ∈ ys) := by
  obtain ⟨r, s', e, k, rfl⟩ := wp_elim (compare_spec (eq := eq) (lt := lt) (X := fun _ _ => False) hv hw .eq)
  exact ⟨r, e, k.trans ((seqEq_iff he).trans (h1.same_elements L h2))⟩

/-- Whether the containers 0 and 1 are equal after a program, and whether they are in order (test function). -/
def Demo.equal01 {τ : Type} (track : List (Out τ) → Fin 3 → Bool) (r : Res (Slots 3 Vec Nat) (List (Out τ))) : Option (Bool × Bool × Bool) :=
  match r with
  | .ok log s => match s.obj 0, s.obj 1 with
    | some v, some w => (Demo.show' (Vec.compare (· == ·) (fun a b => decide (a < b)) v w .eq s.m)).map
        fun r => (r, track log 0, track log 1)
    | _, _ => none
  | _ => none

/-- **C59** (small_flat_set, small_flat_map). After any program, two containers in order (`trackAll`, C28) compare equal iff they have the
same elements, whatever their histories, capacities and storages are. -/
theorem smallFlat_equal (L : C.Lawful) (hm : Objects E ib N m0) {eq lt : α → α → Bool} (he : ∀ a b, eq a b = true ↔ a = b)
    (hx : World.runOps (Flat.smallCont false C E T ib N) (Flat.smallSem false C E T) ops ⟨fun _ => none, m0⟩ = .ok log s)
    (hv : s.obj i = some v) (hw : s.obj j = some w)
    (hi : trackAll (Flat.smallFlags false E.nothrowMoves) (fun _ => false) ops log i = false)
    (hj : trackAll (Flat.smallFlags false E.nothrowMoves) (fun _ => false) ops log j = false) :
    ∃ xs ys r, (Flat.smallImpl false C E (ib i) N).contents ⟨v, s.m⟩ = .ok xs ⟨v, s.m⟩ ∧
      (Flat.smallImpl false C E (ib j) N).contents ⟨w, s.m⟩ = .ok ys ⟨w, s.m⟩ ∧
      Vec.compare eq lt v w .eq s.m = .ok r s.m ∧ (r = true ↔ ∀ x, x ∈ xs ↔ x ∈ ys) := by
  obtain ⟨xs, k1, k2⟩ := smallFlat_in_order L hm hx hv hi
  obtain ⟨ys, q1, q2⟩ := smallFlat_in_order L hm hx hw hj
  have hS := Flat.smallSpec (multi := false) (T := T) (ib := ib) L hm.fits
  obtain ⟨A, F, k, -⟩ := wp_ok hx (hS.runOps ops (hm.start hS))
  have get : ∀ {i : Fin K} {v : Vec} {xs : List α}, s.obj i = some v →
      (Flat.smallImpl false C E (ib i) N).contents ⟨v, s.m⟩ = .ok xs ⟨v, s.m⟩ → v.Holds s.m xs := by
    intro i v xs hv hc
    have h := k.cell i
    rw [hv] at h
    cases hA : A i with
    | none => rw [hA] at h; exact h.elim
    | some a =>
      rw [hA] at h
      obtain ⟨b, cap, k', -⟩ := h
      rw [(k'.vst k.wf (Rest.out _ _)).contents _ rfl rfl] at hc
      cases hc
      exact k'.holds
  obtain ⟨r, e, h⟩ := equal_of_holds (lt := lt) L he (get hv k1) (get hw q1) k2 q2
  exact ⟨xs, ys, r, k1, q1, e, h⟩

example : Objects (Demo.env []) Demo.ib3 2 Demo.m3 ∧ (∀ a b : Nat, (a == b) = true ↔ a = b) ∧
    (let ops : List (WOp 3 (Flat.Op Nat Nat) (Flat.Init Nat)) := [.make 0 7 (.range [31, 12, 35]), .make 1 4 .empty,
      .op 1 (.insert (.value 35)), .op 1 (.insert (.value 12)), .op 1 (.insertHint 0 (.value 99)), .op 1 (.eraseKey 99),
      .op 1 (.emplace 31)]
    Demo.equal01 (trackAll (Flat.smallFlags false (Demo.env []).nothrowMoves) (fun _ => false) ops)
      (World.runOps (Flat.smallCont false Demo.asc (Demo.env []) Demo.T Demo.ib3 2) (Flat.smallSem false Demo.asc (Demo.env []) Demo.T) ops
        ⟨fun _ => none, Demo.m3⟩) = some (true, false, false)) :=
  ⟨Demo.objects3 _ (by decide), by simp, by decide +kernel⟩

/-- **C59** (static_flat_set, static_flat_map). -/
theorem staticFlat_equal (L : C.Lawful) (hm : Objects E ib N m0) {eq lt : α → α → Bool} (he : ∀ a b, eq a b = true ↔ a = b)
    (hx : World.runOps (Flat.staticCont false C E ib N) (Flat.staticSem false C E N) ops ⟨fun _ => none, m0⟩ = .ok log s)
    (hv : s.obj i = some v) (hw : s.obj j = some w)
    (hi : trackAll (Flat.staticFlags C false E.nothrowMoves) (fun _ => false) ops log i = false)
    (hj : trackAll (Flat.staticFlags C false E.nothrowMoves) (fun _ => false) ops log j = false) :
    ∃ xs ys r, (Flat.staticImpl false C E N).contents ⟨v, s.m⟩ = .ok xs ⟨v, s.m⟩ ∧
      (Flat.staticImpl false C E N).contents ⟨w, s.m⟩ = .ok ys ⟨w, s.m⟩ ∧
      Vec.compare eq lt v w .eq s.m = .ok r s.m ∧ (r = true ↔ ∀ x, x ∈ xs ↔ x ∈ ys) := by
  obtain ⟨xs, k1, k2⟩ := staticFlat_in_order L hm hx hv hi
  obtain ⟨ys, q1, q2⟩ := staticFlat_in_order L hm hx hw hj
  have hS := Flat.staticSpec (multi := false) (ib := ib) L hm.fits
  obtain ⟨A, F, k, -⟩ := wp_ok hx (hS.runOps ops (hS.start hm.wf hm.static.1 hm.static.2))
  have get : ∀ {i : Fin K} {v : Vec} {xs : List α}, s.obj i = some v →
      (Flat.staticImpl false C E N).contents ⟨v, s.m⟩ = .ok xs ⟨v, s.m⟩ → v.Holds s.m xs := by
    intro i v xs hv hc
    have h := k.cell i
    rw [hv] at h
    cases hA : A i with
    | none => rw [hA] at h; exact h.elim
    | some a =>
      rw [hA] at h
      obtain ⟨k', -⟩ := h
      rw [(k'.vst k.wf (Rest.out _ _)).contents _ rfl rfl] at hc
      cases hc
      exact k'.holds
  obtain ⟨r, e, h⟩ := equal_of_holds (lt := lt) L he (get hv k1) (get hw q1) k2 q2
  exact ⟨xs, ys, r, k1, q1, e, h⟩

example : Objects (Demo.env []) Demo.ib3 2 Demo.m3 ∧
    (let ops : List (WOp 3 (Flat.Op Nat Nat) (Flat.Init Nat)) := [.make 0 0 (.range [31, 12]), .make 1 0 .empty,
      .op 1 (.insert (.value 31)), .op 1 (.insertHint 1 (.value 12))]
    Demo.equal01 (trackAll (Flat.staticFlags Demo.asc false (Demo.env []).nothrowMoves) (fun _ => false) ops)
      (World.runOps (Flat.staticCont false Demo.asc (Demo.env []) Demo.ib3 2) (Flat.staticSem false Demo.asc (Demo.env []) 2) ops
        ⟨fun _ => none, Demo.m3⟩) = some (true, false, false)) :=
  ⟨Demo.objects3 _ (by decide), by decide +kernel⟩

end

/-! ### Assignment of a list -/

section
variable {multi isMap : Bool} {C : Order α κ} {U : KeyEq α κ} {E : Env α} {T : Traits} {ib : Fin K → Nat} {N : Nat} {m0 m1 : St α} {i j : Fin K}
  {o p o1 p1 : Obj Vec α} {vs ws : List α} {r q : Flat.Ret}

/-- **C59** (small_flat_set, small_flat_map, small_flat_multiset, small_flat_multimap). `operator=(initializer_list)` forgets the past: two
containers, in any states in any programs (also out of order after an exception), that are given the same elements have the same
elements, in order. -/
theorem smallFlat_assign_order (L : C.Lawful) (hm : Objects E ib N m0) (hm1 : Objects E ib N m1)
    (ho : SmallFlat.Reached multi C E T ib N m0 i o) (hp : SmallFlat.Reached multi C E T ib N m1 j p)
    (hw : SameSet C.same multi vs ws) (h1 : (Flat.smallImpl multi C E (ib i) N).exec (.assignList vs) o = .ok r o1)
    (h2 : (Flat.smallImpl multi C E (ib j) N).exec (.assignList ws) p = .ok q p1) :
    ∃ ys zs, (Flat.smallImpl multi C E (ib i) N).contents o1 = .ok ys o1 ∧
      (Flat.smallImpl multi C E (ib j) N).contents p1 = .ok zs p1 ∧ C.Sorted multi ys ∧ C.Sorted multi zs ∧ ys.Perm zs ∧
      (multi = false → ys = zs) := by
  obtain ⟨H, al, b, cap, xs, h0⟩ := ho.repr L hm
  obtain ⟨G, al', b', cap', xs', g0⟩ := hp.repr L hm1
  obtain ⟨b1, cap1, ys, k1, k2⟩ := wp_ok h1 (Flat.exec_spec L (Flat.small_ok multi E (ib i) N) (.assignList vs) h0
    (by simp [Flat.Op.pre, Flat.Op.uniqueOnly]) (fun h => by cases h))
  obtain ⟨b2, cap2, zs, q1, q2⟩ := wp_ok h2 (Flat.exec_spec L (Flat.small_ok multi E (ib j) N) (.assignList ws) g0
    (by simp [Flat.Op.pre, Flat.Op.uniqueOnly]) (fun h => by cases h))
  obtain ⟨-, k2, k3⟩ := k2 (.inl rfl)
  obtain ⟨-, q2, q3⟩ := q2 (.inl rfl)
  have e : ys.Perm zs := k3.trans (q3.trans (Flat.merge_sameSet hw)).symm
  refine ⟨ys, zs, k1.v.contents _ rfl rfl, q1.v.contents _ rfl rfl, k2, q2, e, ?_⟩
  rintro rfl
  exact k2.eq_of_perm L q2 e

/-- A map with three elements and one with six are assigned the same elements in different orders. -/
example : SmallFlat.Reached false Demo.map (Demo.env []) Demo.T Demo.ib3 2 Demo.m3 0 (Demo.fmap []) ∧
    SmallFlat.Reached false Demo.map (Demo.env []) Demo.T Demo.ib3 2 Demo.m3 0 (Demo.fmap6 []) ∧
    SameSet Demo.map.same false [777, 450, 188] [188, 777, 450] ∧
    Demo.show' (((Flat.smallImpl false Demo.map (Demo.env []) (Demo.ib3 0) 2).exec (.assignList [777, 450, 188]) >>= fun _ =>
      (Flat.smallImpl false Demo.map (Demo.env []) (Demo.ib3 0) 2).contents) (Demo.fmap [])) = some [777, 450, 188] ∧
    Demo.show' (((Flat.smallImpl false Demo.map (Demo.env []) (Demo.ib3 0) 2).exec (.assignList [188, 777, 450]) >>= fun _ =>
      (Flat.smallImpl false Demo.map (Demo.env []) (Demo.ib3 0) 2).contents) (Demo.fmap6 [])) = some [777, 450, 188] :=
  ⟨Demo.reached (by decide +kernel), Demo.reached (by decide +kernel), .inr ⟨by decide, .inr (by decide)⟩, by decide +kernel,
    by decide +kernel⟩

/-- **C59** (small_unordered_flat_set, small_unordered_flat_map, small_unordered_flat_multiset, small_unordered_flat_multimap). -/
theorem smallUnord_assign_order (L : U.Lawful) (hm : Objects E ib N m0) (hm1 : Objects E ib N m1)
    (ho : Reached (Unord.smallCont multi isMap U E T ib N) (Unord.smallSem multi isMap U E T) m0 i o)
    (hp : Reached (Unord.smallCont multi isMap U E T ib N) (Unord.smallSem multi isMap U E T) m1 j p)
    (hw : SameSet U.same multi vs ws) (h1 : (Unord.smallImpl multi isMap U E (ib i) N).exec (.assignList vs) o = .ok r o1)
    (h2 : (Unord.smallImpl multi isMap U E (ib j) N).exec (.assignList ws) p = .ok q p1) :
    ∃ ys zs, (Unord.smallImpl multi isMap U E (ib i) N).contents o1 = .ok ys o1 ∧
      (Unord.smallImpl multi isMap U E (ib j) N).contents p1 = .ok zs p1 ∧ ys.Perm zs ∧ (ws = vs → ys = zs) := by
  obtain ⟨H, al, b, cap, xs, h0⟩ := ho.small hm (Unord.smallSpec L hm.fits)
  obtain ⟨G, al', b', cap', xs', g0⟩ := hp.small hm1 (Unord.smallSpec L hm1.fits)
  obtain ⟨b1, cap1, ys, k1, k2⟩ := wp_ok h1 (Unord.exec_spec L (Unord.small_ok multi isMap E (ib i) N) (.assignList vs) h0
    (by simp [Unord.Op.pre, Unord.Op.uniqueOnly]) (fun h => by cases h))
  obtain ⟨b2, cap2, zs, q1, q2⟩ := wp_ok h2 (Unord.exec_spec L (Unord.small_ok multi isMap E (ib j) N) (.assignList ws) g0
    (by simp [Unord.Op.pre, Unord.Op.uniqueOnly]) (fun h => by cases h))
  obtain ⟨-, k2⟩ := k2 (.inl rfl)
  obtain ⟨-, q2⟩ := q2 (.inl rfl)
  refine ⟨ys, zs, k1.v.contents _ rfl rfl, q1.v.contents _ rfl rfl, ?_, ?_⟩
  · rw [k2, q2]
    exact (Unord.merge_sameSet L hw).symm
  · rintro rfl
    rw [k2, q2]
    rfl

/-- The elements are stored in the order of the list. -/
example : Reached (Unord.smallCont false true Demo.umap (Demo.env []) Demo.T Demo.ib3 2)
      (Unord.smallSem false true Demo.umap (Demo.env []) Demo.T) Demo.m3 0 Demo.umapOf6 ∧
    SameSet Demo.umap.same false [777, 450, 188] [188, 777, 450] ∧
    Demo.show' (((Unord.smallImpl false true Demo.umap (Demo.env []) (Demo.ib3 0) 2).exec (.assignList [777, 450, 188]) >>= fun _ =>
      (Unord.smallImpl false true Demo.umap (Demo.env []) (Demo.ib3 0) 2).contents) Demo.umapOf6) = some [777, 450, 188] ∧
    Demo.show' (((Unord.smallImpl false true Demo.umap (Demo.env []) (Demo.ib3 0) 2).exec (.assignList [188, 777, 450]) >>= fun _ =>
      (Unord.smallImpl false true Demo.umap (Demo.env []) (Demo.ib3 0) 2).contents) Demo.umapOf6) = some [188, 777, 450] :=
  ⟨Demo.reachedIn (by decide +kernel), .inr ⟨by decide, .inr (by decide)⟩, by decide +kernel, by decide +kernel⟩

end
end Sfl
