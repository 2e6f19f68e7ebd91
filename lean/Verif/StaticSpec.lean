import Verif.Static
/-
  The functions of static_vector do what the corresponding functions of small_vector do while these stay in their
  internal storage; hence the results about small_vector carry over.
-/

set_option linter.unusedSimpArgs false

namespace Sfl
open Sfl.Vector (VM)
open World
variable {α : Type} {E : Env α} {H : Heap α} {al ib N : Nat} {o : Obj Vec α} {xs : List α}

theorem wp_eq {σ β : Type} {p q : M σ β} {s : σ} {Q : β → σ → Prop} {X : Exn → σ → Prop} (h : p s = q s)
    (hq : wp q Q X s) : wp p Q X s := wp_congr h.symm hq

theorem VSt.size_run (h : VSt H E ib N o al ib N xs) : Vector.size o = .ok xs.length o := by
  unfold Vector.size
  rw [bind_apply]
  simp [getObj, h.obj, distance]

theorem VSt.cap_run (h : VSt H E ib N o al ib N xs) : Vector.capacity o = .ok N o := by
  unfold Vector.capacity
  rw [bind_apply]
  simp [getObj, h.obj, distance]

theorem VSt.avail_run (h : VSt H E ib N o al ib N xs) : Vector.available o = .ok (N - xs.length) o := by
  have := h.len
  unfold Vector.available
  rw [bind_apply]
  simp [getObj, h.obj, distance, this]

theorem bind_run {σ β γ : Type} {m : M σ β} {f : β → M σ γ} {s s' : σ} {b : β} (h : m s = .ok b s') :
    (m >>= f) s = f b s' := by rw [bind_apply, h]

theorem assert_run {σ : Type} {c : Prop} [Decidable c] {s : σ} (h : c) : M.assert c s = .ok () s := by
  unfold M.assert; rw [if_pos h]

theorem getObj_run {V : Type} (o : Obj V α) : getObj o = .ok o.obj o := rfl

theorem check_run {n : Nat} (h : n ≤ E.maxSize) (o : Obj Vec α) : Vector.checkSize E n o = .ok () o := by
  unfold Vector.checkSize; rw [if_neg (by omega)]; rfl

theorem ite_run {σ β : Type} (c : Prop) [Decidable c] (p q : M σ β) (s : σ) :
    (if c then p else q) s = if c then p s else q s := by split <;> rfl

namespace StaticVector

theorem notFull_run (h : VSt H E ib N o al ib N xs) (hr : xs.length < N) :
    assertNotFull N o = .ok () o := by
  unfold assertNotFull
  rw [bind_run h.size_run, assert_run (by omega)]

theorem available_run {n : Nat} (h : VSt H E ib N o al ib N xs) (hr : xs.length + n ≤ N) :
    assertAvailable N n o = .ok () o := by
  unfold assertAvailable
  rw [bind_run h.size_run, assert_run (by omega)]

theorem emplaceBack_eq {a : Arg α} (h : VSt H E ib N o al ib N xs) (hr : xs.length < N) :
    emplaceBack E N a o = SmallVector.emplaceBack E ib N a o := by
  unfold emplaceBack SmallVector.emplaceBack
  rw [bind_run (notFull_run h hr), bind_run (getObj_run o), bind_run (getObj_run o), if_pos]
  rw [h.obj]; simp; omega

theorem emplace_eq {pos : Ptr} {a : Arg α} (h : VSt H E ib N o al ib N xs) (hr : xs.length < N) :
    emplace E N pos a o = SmallVector.emplace E ib N pos a o := by
  unfold emplace SmallVector.emplace
  rw [bind_run (notFull_run h hr)]
  refine bind_congr' fun v o' hg => ?_
  obtain ⟨rfl, rfl⟩ := getObj_ok hg
  refine bind_congr' fun u o' ha => ?_
  obtain rfl := assert_ok ha
  rw [if_pos (c := o'.obj.last ≠ o'.obj.eos) (by rw [h.obj]; simp; omega)]

theorem insertFillN_eq {pos : Ptr} {n : Nat} {a : Arg α} (h : VSt H E ib N o al ib N xs) (hr : xs.length + n ≤ N) :
    insertFillN E N pos n a o = SmallVector.insertFillN E ib N pos n a o := by
  unfold insertFillN SmallVector.insertFillN
  rw [bind_run (available_run h hr)]
  refine bind_congr' fun v o' hg => ?_
  obtain ⟨rfl, rfl⟩ := getObj_ok hg
  refine bind_congr' fun u o' ha => ?_
  obtain rfl := assert_ok ha
  by_cases hn : n = 0
  · simp only [hn, if_true]
  · simp only [if_neg hn]
    rw [bind_run h.avail_run, if_pos (by omega)]

theorem insertRange_eq {pos : Ptr} {ys : List α} (h : VSt H E ib N o al ib N xs) (hr : xs.length + ys.length ≤ N) :
    insertRange E N pos ys o = SmallVector.insertRange E ib N pos ys o := by
  unfold insertRange SmallVector.insertRange
  rw [bind_run (available_run h hr)]
  refine bind_congr' fun v o' hg => ?_
  obtain ⟨rfl, rfl⟩ := getObj_ok hg
  refine bind_congr' fun u o' ha => ?_
  obtain rfl := assert_ok ha
  by_cases hn : ys = []
  · simp only [hn, if_true]
  · simp only [if_neg hn]
    rw [bind_run h.avail_run, if_pos (c := N - xs.length ≥ ys.length) (by omega)]

theorem resizeWith_eq {n : Nat} {a : Arg α} (h : VSt H E ib N o al ib N xs) (hr : n ≤ N) :
    resizeWith E N n a o = SmallVector.resizeWith E ib N n a o := by
  have := h.nLe
  unfold resizeWith SmallVector.resizeWith
  rw [bind_run (assert_run hr), bind_run (check_run (by omega) o), bind_run (getObj_run o), bind_run (getObj_run o),
    bind_run h.size_run, bind_run h.size_run]
  by_cases h1 : n < xs.length
  · rw [if_pos h1, if_pos h1]
  · rw [if_neg h1, if_neg h1]
    by_cases h2 : n > xs.length
    · rw [if_pos h2, if_pos h2, bind_run h.cap_run, if_neg (by omega)]
    · rw [if_neg h2, if_neg h2]

theorem assignFillN_eq {n : Nat} {a : Arg α} (h : VSt H E ib N o al ib N xs) (hr : n ≤ N) :
    assignFillN E N n a o = SmallVector.assignFillN E ib N n a o := by
  have := h.nLe
  unfold assignFillN SmallVector.assignFillN
  rw [bind_run (assert_run hr), bind_run (check_run (by omega) o), bind_run (getObj_run o), bind_run h.cap_run, if_pos hr,
    bind_run h.size_run, bind_run h.size_run, bind_run (getObj_run o)]

theorem assignRange_eq {as : List (Arg α)} (h : VSt H E ib N o al ib N xs) (hr : as.length ≤ N) :
    assignRange E N as o = SmallVector.assignRange E ib N as o := by
  have := h.nLe
  unfold assignRange SmallVector.assignRange
  rw [bind_run (assert_run hr), bind_run (check_run (by omega) o), bind_run (getObj_run o), bind_run h.cap_run, if_pos hr,
    bind_run h.size_run, bind_run h.size_run, bind_run (getObj_run o)]

theorem initWith_eq {as : List (Arg α)} (m : St α) (hN : N ≤ E.maxSize) (hr : as.length ≤ N) :
    initWith E N as ⟨SmallVector.empty ib N al, m⟩ = SmallVector.initWith E N as ⟨SmallVector.empty ib N al, m⟩ := by
  unfold initWith SmallVector.initWith
  rw [bind_run (assert_run hr), bind_run (check_run (by omega) _), bind_run (getObj_run _), bind_run (getObj_run _),
    if_neg (by omega)]
  show _ = (do
    let v ← getObj
    let l ← M.tryCatch (lift (uninit E v.first as)) (fun e => do
      if as.length > N then lift (deallocate v.alloc v.first as.length) else pure ()
      M.throw e)
    setObj { v with last := l } : VM α Unit) _
  rw [bind_run (getObj_run _)]
  simp only [if_neg (show ¬ as.length > N by omega)]
  rw [bind_apply, bind_apply]
  unfold M.tryCatch
  cases (lift (uninit E (SmallVector.empty ib N al).first as) : VM α Ptr) ⟨SmallVector.empty ib N al, m⟩ <;> rfl

theorem emplaceBackAll_eq {as : List (Arg α)} {vs : List α} (hx : Exts H E as vs) :
    ∀ {o : Obj Vec α} {xs : List α}, VSt H E ib N o al ib N xs → xs.length + as.length ≤ N →
    emplaceBackAll E N as o = SmallVector.emplaceBackAll E ib N as o := by
  induction as generalizing vs with
  | nil => intro o xs _ _; rfl
  | cons a as ih =>
    intro o xs h hr
    simp only [List.length_cons] at hr
    obtain ⟨v, vs', rfl, h1, h2, h3⟩ := hx.cons
    unfold emplaceBackAll SmallVector.emplaceBackAll
    rw [bind_apply, emplaceBack_eq h (by omega), ← bind_apply (f := fun _ => emplaceBackAll E N as)]
    refine bind_congr' fun p o1 hp => ?_
    obtain ⟨b1, cap1, hd, -⟩ := wp_ok hp (emplaceBack_spec h (h2 _ h.st.agree) h1)
    obtain ⟨rfl, rfl⟩ := hd.keep (by simp; omega)
    exact ih h3 hd.v (by simp; omega)

theorem insertRangeLoop_eq {as : List (Arg α)} {vs : List α} (hx : Exts H E as vs) :
    ∀ {o : Obj Vec α} {xs : List α} {k : Nat}, VSt H E ib N o al ib N xs → k ≤ xs.length → xs.length + as.length ≤ N →
    insertRangeLoop E N as ⟨ib, k⟩ o = SmallVector.insertRangeLoop E ib N as ⟨ib, k⟩ o := by
  induction as generalizing vs with
  | nil => intro o xs k _ _ _; rfl
  | cons a as ih =>
    intro o xs k h hk hr
    simp only [List.length_cons] at hr
    obtain ⟨v, vs', rfl, h1, h2, h3⟩ := hx.cons
    unfold insertRangeLoop SmallVector.insertRangeLoop
    rw [bind_apply, emplace_eq h (by omega), ← bind_apply (f := fun p : Ptr => insertRangeLoop E N as (p.add 1))]
    refine bind_congr' fun p o1 hp => ?_
    obtain ⟨b1, cap1, hd, rfl⟩ := wp_ok hp (emplace_spec h (h2 _ h.st.agree) h1 hk)
    have hl : (xs.take k ++ v :: xs.drop k).length = xs.length + 1 := by simp; omega
    obtain ⟨rfl, rfl⟩ := hd.keep (by rw [hl]; omega)
    exact ih h3 hd.v (k := k + 1) (by rw [hl]; omega) (by rw [hl]; omega)

theorem insertRangeInput_eq {k : Nat} {ys : List α} (h : VSt H E ib N o al ib N xs) (hk : k ≤ xs.length)
    (hr : xs.length + ys.length ≤ N) :
    insertRangeInput E N ⟨ib, k⟩ ys o = SmallVector.insertRangeInput E ib N ⟨ib, k⟩ ys o := by
  unfold insertRangeInput SmallVector.insertRangeInput
  refine bind_congr' fun v o' hg => ?_
  obtain ⟨rfl, rfl⟩ := getObj_ok hg
  refine bind_congr' fun u o' ha => ?_
  obtain rfl := assert_ok ha
  dsimp only
  rw [bind_apply, insertRangeLoop_eq (Exts.vals ys) h hk (by simpa using hr)]
  rfl

theorem assignRangeInput_eq {as : List (Arg α)} {vs : List α} (h : VSt H E ib N o al ib N xs) (hx : Exts H E as vs)
    (hr : as.length ≤ N) :
    assignRangeInput E N as o = SmallVector.assignRangeInput E ib N as o := by
  have hlen := h.len
  have hal := hx.length
  unfold assignRangeInput SmallVector.assignRangeInput
  refine bind_congr' fun v o' hg => ?_
  obtain ⟨rfl, rfl⟩ := getObj_ok hg
  refine bind_congr' fun r o1 hp => ?_
  have key : wp (lift (Vector.assignRangeLoop E o'.obj.last as o'.obj.first) : VM α _)
      (fun r o1 => r.1 ≠ [] → VSt H E ib N o1 al ib N (vs.take xs.length) ∧ r.1 = as.drop xs.length)
      (fun _ _ => True) o' := by
    rw [wp_lift, h.obj]
    refine assignRangeLoop_spec hx h.st.agree h.st.hblk (by omega) (fun i _ hi => (h.live i).mpr hi) ?_ (fun _ _ _ => trivial)
    intro s1 hs1 hm1
    simp only [Nat.sub_zero, Nat.zero_add] at hm1 ⊢
    intro hne
    have hlt : xs.length < vs.length := by
      by_cases hh : xs.length < as.length
      · omega
      · exact absurd (List.drop_eq_nil_of_le (by omega)) hne
    refine ⟨?_, by trivial⟩
    refine VSt.mk' rfl (by simp; omega) rfl (h.st.upd hs1 ?_ ?_) (by simp; omega) ?_ h.capLe h.nLe
    · intro i hi; rw [hm1]; have := h.st.beyond i hi; grind
    · intro c hc i; rw [hm1]; grind
    · intro i; rw [hm1, h.cells]; simp only [List.getElem?_take]; grind
  have key := wp_ok hp key
  obtain ⟨rest, curr⟩ := r
  dsimp only at key ⊢
  by_cases hne : rest ≠ []
  · rw [if_pos hne, if_pos hne]
    obtain ⟨k1, rfl⟩ := key hne
    refine emplaceBackAll_eq (hx.drop xs.length) k1 ?_
    simp only [List.length_drop, List.length_take]; omega
  · rw [if_neg hne, if_neg hne]

/-! ### Specifications -/

theorem exec_eq (op : Sq.Op α) (h : VSt H E ib N o al ib N xs) (hp : pre N xs.length op = true) :
    exec E N op o = SmallVector.exec E ib N op o := by
  unfold pre at hp
  simp only [Bool.and_eq_true, decide_eq_true_eq, Bool.not_eq_true'] at hp
  obtain ⟨⟨hp, hr⟩, hf⟩ := hp
  have nth : ∀ {k : Nat} {f g : Ptr → VM α (Option Nat)}, f ⟨ib, k⟩ o = g ⟨ib, k⟩ o →
      (Vector.nth k >>= f) o = (Vector.nth k >>= g) o := by
    intro k f g hfg
    refine bind_congr' fun p o1 hp => ?_
    unfold Vector.nth at hp
    rw [bind_run (getObj_run o), h.obj] at hp
    cases hp
    simpa [Ptr.add] using hfg
  have arg : ∀ {s : Sq.Src α} {f g : Arg α → VM α (Option Nat)}, (∀ a, f a o = g a o) →
      (Vector.argOf s >>= f) o = (Vector.argOf s >>= g) o := by
    intro s f g hfg
    refine bind_congr' fun a o1 hp => ?_
    unfold Vector.argOf at hp
    rw [bind_run (getObj_run o)] at hp
    cases hp
    exact hfg _
  have bnd : ∀ {β : Type} {p q : VM α β} {f : β → VM α (Option Nat)}, p o = q o → (p >>= f) o = (q >>= f) o := by
    intro β p q f hpq; rw [bind_apply, bind_apply, hpq]
  cases op with
  | pushBack s => exact arg fun a => bnd (emplaceBack_eq h hr)
  | emplace k s => exact arg fun a => nth (bnd (emplace_eq h hr))
  | insertN k n s => exact arg fun a => nth (bnd (insertFillN_eq h hr))
  | insertRange k ys => exact nth (bnd (insertRange_eq h hr))
  | insertInput k ys => exact nth (bnd (insertRangeInput_eq h (by simpa [Sq.Op.pre] using hp) hr))
  | popBack => rfl
  | eraseAt k => rfl
  | eraseRange k l => rfl
  | resize n => exact bnd (resizeWith_eq h hr)
  | resizeV n s => exact arg fun a => bnd (resizeWith_eq h hr)
  | assignN n v => exact bnd (assignFillN_eq h hr)
  | assignRange ys => exact bnd (assignRange_eq h (by simpa [Sq.Op.room] using hr))
  | assignInput ys => exact bnd (assignRangeInput_eq h (Exts.vals ys) (by simpa [Sq.Op.room] using hr))
  | clear => rfl
  | reserve n => simp [foreign] at hf
  | shrinkToFit => simp [foreign] at hf
  | eraseIf f => rfl

/-- Every modifier of static_vector: the result of the list operation, in the same array, without allocation. -/
theorem exec_spec (op : Sq.Op α) (h : VSt H E ib N o al ib N xs) (hp : pre N xs.length op = true) :
    wp (exec E N op)
      (fun r o' => ∃ xs', VSt H E ib N o' al ib N xs' ∧ o'.m.next = o.m.next ∧ Sq.okStep E xs op r xs')
      (fun e o' => ∃ xs', VSt H E ib N o' al ib N xs' ∧ o'.m.next = o.m.next ∧ Sq.failStep E xs op e xs' ∧
        e ≠ .badAlloc ∧ e ≠ .lengthError) o := by
  have hN := h.nLe
  refine wp_eq (exec_eq op h hp) ?_
  unfold pre at hp
  simp only [Bool.and_eq_true, decide_eq_true_eq, Bool.not_eq_true'] at hp
  refine wp_mono (SmallVector.exec_spec op h hp.1.1) ?_ ?_
  · rintro r o1 ⟨b1, cap1, ys, hd, hk⟩
    obtain ⟨rfl, rfl, hn⟩ := hd.inside rfl rfl hp.1.2
    exact ⟨ys, hd.v, hn, hk⟩
  · rintro e o1 ⟨b1, cap1, ys, hd, hk⟩
    obtain ⟨rfl, rfl, hn, he⟩ := hd.inside rfl rfl hp.1.2
    exact ⟨ys, hd.v, hn, hk, he, fun hl => by have := hk.len hl; omega⟩

theorem destructor_spec (h : VSt H E ib N o al ib N xs) :
    wp (destructor) (fun _ o' => Gone H al ib N o'.m ∧ o'.m.next = o.m.next) (fun _ _ => False) o := by
  have e : destructor o = SmallVector.destructor ib o := by
    unfold destructor SmallVector.destructor
    rw [bind_run (getObj_run o), bind_run (getObj_run o), h.obj]
    cases hd : (lift (destroyRange ⟨ib, 0⟩ ⟨ib, xs.length⟩) : VM α Unit) o with
    | ok u o1 =>
      rw [bind_run hd, bind_run (b := N) (s' := o1) (by simp [distance])]
      simp [freeUnless, lift]; rfl
    | exn e o1 => rw [bind_apply, hd]
    | ub r => rw [bind_apply, hd]
  refine wp_eq e (wp_mono (destructor_gone h) ?_ (fun _ _ h => h))
  rintro _ o1 ⟨g, hn, -⟩
  exact ⟨g, hn⟩

theorem construct_spec {m : St α} (init : Sq.Init α) (hg : Gone H al ib N m) (hN : N ≤ E.maxSize)
    (hr : (init.result E.dflt).length ≤ N) :
    wp (construct E N init)
      (fun _ o' => VSt H E ib N o' al ib N (init.result E.dflt) ∧ o'.m.next = m.next)
      (fun e o' => Gone H al ib N o'.m ∧ o'.m.next = m.next ∧ e ≠ .badAlloc ∧ e ≠ .lengthError)
      ⟨SmallVector.empty ib N al, m⟩ := by
  have hv := VSt.mkEmpty (E := E) hg.st hg.raw hN
  have key : ∀ as vs, Exts H E as vs → vs.length ≤ N → wp (initWith E N as)
      (fun _ o' => VSt H E ib N o' al ib N vs ∧ o'.m.next = m.next)
      (fun e o' => Gone H al ib N o'.m ∧ o'.m.next = m.next ∧ e ≠ .badAlloc ∧ e ≠ .lengthError)
      ⟨SmallVector.empty ib N al, m⟩ := by
    intro as vs hx hl
    have := hx.length
    refine wp_eq (initWith_eq m hN (by omega)) (wp_mono (initWith_spec hg hN hx) ?_ ?_)
    · rintro _ o1 ⟨b', k1, k2⟩
      obtain ⟨k3, rfl⟩ := k2 hl
      rw [show max N vs.length = N by omega] at k1
      exact ⟨k1, k3⟩
    · rintro e o1 ⟨k1, k2, k3⟩
      exact ⟨k1, (k2 hl).1, (k2 hl).2, fun he => by have := k3.mp he; omega⟩
  cases init with
  | empty => exact ⟨hv, rfl⟩
  | count n => exact key _ _ (Exts.replicateVal n E.dflt) hr
  | fill n v => exact key _ _ (Exts.replicateVal n v) hr
  | range ys => exact key _ _ (Exts.vals ys) hr
  | input ys =>
    have hr : ys.length ≤ N := hr
    show wp (initRangeInput E N ys) _ _ _
    unfold initRangeInput
    rw [wp_tryCatch]
    refine wp_eq (emplaceBackAll_eq (Exts.vals ys) hv (by simpa using hr)) (wp_mono (emplaceBackAll_spec (Exts.vals ys) hv) ?_ ?_)
    · rintro _ o1 ⟨b', cap', k1, k2, k3⟩
      obtain ⟨rfl, rfl⟩ := k2 (by simpa using hr)
      exact ⟨k1, k3 (by simp; omega)⟩
    · rintro e o1 ⟨b', cap', xs', k1, -, -, k2, k3, k4⟩
      obtain ⟨rfl, rfl⟩ := k2 (by simpa using hr)
      obtain ⟨k3, k5⟩ := k3 (by simp; omega)
      rw [wp_bind]
      refine wp_mono (destructor_spec k1) ?_ (fun _ _ h => h.elim)
      rintro _ o2 ⟨g, hn⟩
      rw [wp_throw]
      exact ⟨g, hn.trans k3, k5, fun he => by have := k4 he; simp at this; omega⟩

end StaticVector
end Sfl
