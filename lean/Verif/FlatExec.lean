import Verif.FlatStep
/-
  Every public modifier of the ordered flat containers refines the abstract operation of `FlatSpec.lean`.
-/

namespace Sfl.Flat
open Sfl.Vector (VM)
open Sq (Src)
variable {α κ : Type} {E : Env α} {H : Heap α} {al ib N b cap : Nat} {o : Obj Vec α} {xs : List α}
  {C : Order α κ} {K : Kind α} {st : Bool} {v : α} {k : Nat}

/-! ### Ranges -/

theorem Inserted.sorted {multi : Bool} {ys : List α} {i : Nat} {new : Bool} (hs : C.Sorted multi xs)
    (h : Inserted C multi xs v i new ys) : C.Sorted multi ys := by
  rcases h with ⟨-, -, -, -, h⟩ | ⟨-, -, rfl, -⟩
  · exact h
  · exact hs

theorem Assigned.sorted (L : C.Lawful) {ys : List α} {i : Nat} {new : Bool} (hs : C.Sorted false xs)
    (h : Assigned C xs v i new ys) : C.Sorted false ys := by
  rcases h with ⟨-, h⟩ | ⟨-, x, hx, -, rfl⟩
  · exact h.sorted hs
  · exact sorted_upd L hs hx

theorem merge_perm {multi : Bool} {xs ys : List α} (vs : List α) (h : xs.Perm ys) :
    (merge C multi xs vs).Perm (merge C multi ys vs) := by
  induction vs generalizing xs ys with
  | nil => exact h
  | cons v vs ih =>
    have hall : xs.all (fun x => !C.same x v) = ys.all (fun x => !C.same x v) := by
      rw [Bool.eq_iff_iff, List.all_eq_true, List.all_eq_true]
      exact ⟨fun hh x hx => hh x (h.mem_iff.mpr hx), fun hh x hx => hh x (h.mem_iff.mp hx)⟩
    unfold merge
    rw [hall]
    split
    · exact ih (h.append_right [v])
    · exact ih h

theorem Inserted.perm {multi : Bool} {ys : List α} {i : Nat} {new : Bool} (vs : List α)
    (h : Inserted C multi xs v i new ys) : (merge C multi ys vs).Perm (merge C multi xs (v :: vs)) := by
  rcases h with ⟨-, h1, hi, rfl, -⟩ | ⟨-, h2, rfl, x, hx, hxv⟩
  · have hc : multi = true ∨ xs.all (fun x => !C.same x v) = true := h1.imp id (fun h => by
      rw [List.all_eq_true]; intro x hx; simp [h x hx])
    rw [merge, if_pos hc]
    refine merge_perm vs ?_
    have := List.perm_middle (a := v) (l₁ := xs.take i) (l₂ := xs.drop i)
    rw [List.take_append_drop] at this
    exact this.trans (List.perm_append_singleton v xs).symm
  · have hc : ¬ (multi = true ∨ ys.all (fun x => !C.same x v) = true) := by
      rintro (h | h)
      · rw [h2] at h; cases h
      · rw [List.all_eq_true] at h
        have := h x (List.mem_of_getElem? hx)
        simp [hxv] at this
    rw [merge, if_neg hc]

theorem insertRange_spec (L : C.Lawful) (hK : K.Ok E ib N st) (vs : List α) :
    ∀ {b cap : Nat} {o : Obj Vec α} {xs : List α}, VSt H E ib N o al b cap xs → Room st xs cap vs.length →
    wp (insertRange K C E vs)
      (fun _ o' => ∃ b' cap' ys, Done H E ib N al b cap o o' b' cap' ys ∧ xs.length ≤ ys.length ∧
        ys.length ≤ xs.length + vs.length ∧
        (C.Sorted K.multi xs → C.Sorted K.multi ys ∧ ys.Perm (merge C K.multi xs vs)))
      (fun e o' => ∃ b' cap' xs', OpFail H E ib N al b cap e o o' b' cap' (xs.length + vs.length) xs' ∧
        (NothrowMove E → K.multi = true → C.Sorted K.multi xs → C.Sorted K.multi xs') ∧
        (e = .lengthError → E.maxSize < xs.length + vs.length)) o := by
  induction vs with
  | nil =>
    intro b cap o xs h _
    exact ⟨b, cap, xs, h.doneLooked (.refl o), by omega, by simp, fun hs => ⟨hs, .refl _⟩⟩
  | cons v vs ih =>
    intro b cap o xs h hr
    have hr1 : Room st xs cap 1 := fun hst => by have := hr hst; simp at this; omega
    unfold insertRange
    rw [wp_bind]
    refine hK.guard h hr1 ?_
    rw [wp_bind]
    refine wp_mono (insertAux_spec (a := .val v) (v := v) L hK h rfl rfl hr1 (by simp [loc])) ?_ ?_
    · rintro r o1 ⟨b1, cap1, i, ys, hd, hi⟩
      have hr2 : Room st ys cap1 vs.length := by
        intro hst
        have h1 := hr hst
        have h2 := hd.le
        simp at h1
        obtain ⟨-, h3⟩ := hd.done.keep (by omega)
        omega
      refine wp_mono (ih hd.done.v hr2) ?_ ?_
      · rintro _ o2 ⟨b2, cap2, zs, hd2, g1, g2, g3⟩
        have := hd.le
        have := hd.ge
        refine ⟨b2, cap2, zs, hd.done.trans hd2 g1, by omega, by simp; omega, fun hs => ?_⟩
        obtain ⟨g4, g5⟩ := g3 ((hi hs).sorted hs)
        exact ⟨g4, g5.trans ((hi hs).perm vs)⟩
      · rintro e o2 ⟨b2, cap2, zs, hf, g1, g2⟩
        have hle := hd.le
        have hge := hd.ge
        refine ⟨b2, cap2, zs, ⟨hf.v, ?_⟩, fun hE hm hs => g1 hE hm ((hi hs).sorted hs), fun he => ?_⟩
        · intro e1 e2 e3
          simp at e3
          obtain ⟨f1, f2⟩ := hd.done.keep (by omega)
          obtain ⟨f3, f4, f5, f6⟩ := hf.inside (f1.trans e1) (f2.trans e2) (by omega)
          refine ⟨f3, f4, f5.trans ?_, f6⟩
          rcases hd.done.next with h0 | h0
          · exact h0
          · omega
        · have := g2 he; simp; omega
    · rintro e o1 ⟨xs', hf⟩
      refine ⟨b, cap, xs', ⟨hf.kept.v, ?_⟩, fun hE hm hs => ?_, fun he => ?_⟩
      · intro e1 e2 e3
        simp at e3
        exact hf.kept.op.inside e1 e2 (by omega)
      · rw [hf.same hE (Or.inl hm)]; exact hs
      · have := hf.lenErr he; simp; omega

theorem assignList_spec (L : C.Lawful) (hK : K.Ok E ib N st) (vs : List α) (h : VSt H E ib N o al b cap xs)
    (hr : st = true → vs.length ≤ cap) :
    wp (assignList K C E vs)
      (fun _ o' => ∃ b' cap' ys, OpDone H E ib N al b cap o o' b' cap' vs.length ys ∧
        C.Sorted K.multi ys ∧ ys.Perm (merge C K.multi [] vs))
      (fun e o' => ∃ b' cap' xs', OpFail H E ib N al b cap e o o' b' cap' vs.length xs' ∧
        (NothrowMove E → K.multi = true → C.Sorted K.multi xs') ∧ (e = .lengthError → E.maxSize < vs.length)) o := by
  unfold assignList
  rw [wp_bind]
  refine wp_mono (clear_spec h) ?_ (fun _ _ h => h.elim)
  rintro _ o1 ⟨h1, hn, -⟩
  refine wp_mono (insertRange_spec L hK vs h1 (fun hst => by have := hr hst; simp; omega)) ?_ ?_
  · rintro _ o2 ⟨b2, cap2, ys, hd, g1, g2, g3⟩
    obtain ⟨g4, g5⟩ := g3 List.Pairwise.nil
    refine ⟨b2, cap2, ys, ⟨hd.v, ?_⟩, g4, g5⟩
    intro e1 e2 e3
    obtain ⟨f1, f2, f3⟩ := (hd.op (need := vs.length) (by simpa using g2)).inside e1 e2 e3
    exact ⟨f1, f2, f3.trans hn⟩
  · rintro e o2 ⟨b2, cap2, ys, hf, g1, g2⟩
    refine ⟨b2, cap2, ys, ⟨hf.v, ?_⟩, fun hE hm => g1 hE hm List.Pairwise.nil, fun he => by simpa using g2 he⟩
    intro e1 e2 e3
    obtain ⟨f1, f2, f3, f4⟩ := hf.inside e1 e2 (by simpa using e3)
    exact ⟨f1, f2, f3.trans hn, f4⟩

/-! ### Removing elements -/

/-- What is left after removing elements has thrown. -/
structure EraseFail (H : Heap α) (E : Env α) (ib N al b cap : Nat) (C : Order α κ) (xs : List α) (e : Exn)
    (o o' : Obj Vec α) (xs' : List α) : Prop where
  v : VSt H E ib N o' al b cap xs'
  next : o'.m.next = o.m.next
  elem : e = .elem
  why : xs' = xs ∧ C.nothrow = false ∨ E.nothrowMoveAssign = false

theorem EraseFail.ofComp {o' : Obj Vec α} {e : Exn} (h : VSt H E ib N o al b cap xs) (hc : CompThrew C o e o') :
    ∃ xs', EraseFail H E ib N al b cap C xs e o o' xs' := by
  obtain ⟨hn, rfl, l⟩ := hc
  exact ⟨xs, h.looked l, l.q.next, rfl, Or.inl ⟨rfl, hn⟩⟩

/-- The elements satisfying `f` are the ones in positions `k, …, l - 1`. -/
theorem filter_range {f : α → Bool} {l : Nat} (hkl : k ≤ l) (hl : l ≤ xs.length)
    (hf : ∀ (i : Nat) x, xs[i]? = some x → (f x = true ↔ k ≤ i ∧ i < l)) :
    xs.filter (fun x => !f x) = xs.take k ++ xs.drop l ∧ xs.countP f = l - k := by
  have e : xs = xs.take k ++ ((xs.drop k).take (l - k) ++ xs.drop l) := by
    have : xs.drop l = (xs.drop k).drop (l - k) := by rw [List.drop_drop]; congr 1; omega
    rw [this, List.take_append_drop, List.take_append_drop]
  have h1 : ∀ x ∈ xs.take k, f x = false := by
    intro x hx
    obtain ⟨i, hi, hx⟩ := mem_take_iff.mp hx
    cases hfx : f x
    · rfl
    · have := (hf i x hx).mp hfx; omega
  have h3 : ∀ x ∈ xs.drop l, f x = false := by
    intro x hx
    obtain ⟨i, hi, hx⟩ := mem_drop_iff.mp hx
    cases hfx : f x
    · rfl
    · have := (hf i x hx).mp hfx; omega
  have h2 : ∀ x ∈ (xs.drop k).take (l - k), f x = true := by
    intro x hx
    obtain ⟨i, hi, hx⟩ := mem_take_iff.mp hx
    rw [List.getElem?_drop] at hx
    exact (hf (k + i) x hx).mpr (by omega)
  constructor
  · conv => lhs; rw [e]
    rw [List.filter_append, List.filter_append, List.filter_eq_self.mpr (fun x hx => by simp [h1 x hx]),
      List.filter_eq_nil_iff.mpr (fun x hx => by simp [h2 x hx]), List.filter_eq_self.mpr (fun x hx => by simp [h3 x hx])]
    rfl
  · conv => lhs; rw [e]
    rw [List.countP_append, List.countP_append, List.countP_eq_zero.mpr (fun x hx => by simp [h1 x hx]),
      List.countP_eq_length.mpr h2, List.countP_eq_zero.mpr (fun x hx => by simp [h3 x hx])]
    simp
    omega

theorem hit_multi {P : Probe α} {l : Nat} (f : P.Fits xs) (c1 : Cut P.below xs k)
    (c2 : Cut (fun x => !P.above x) xs l) {i : Nat} {x : α} (hx : xs[i]? = some x) :
    P.hit x = true ↔ k ≤ i ∧ i < l := by
  have h1 := c1.all f.below hx
  have h2 := c2.all f.above' hx
  unfold Probe.hit
  rw [Bool.and_eq_true, h2, Bool.not_eq_true', ← Bool.not_eq_true, h1]
  omega

theorem hit_unique (L : C.Lawful) {key : κ} (hs : C.Sorted false xs) (c1 : Cut (C.probe key).below xs k)
    (ha : absent (C.probe key) xs k = false) {i : Nat} {x : α} (hx : xs[i]? = some x) :
    (C.probe key).hit x = true ↔ k ≤ i ∧ i < k + 1 := by
  have f := L.fits hs key
  unfold absent at ha
  cases hy : xs[k]? with
  | none => rw [hy] at ha; cases ha
  | some y =>
    rw [hy] at ha
    have h1 := c1.all f.below hx
    have h1y := c1.right y hy
    have habove : k < i → (C.probe key).above x = true := by
      intro hki
      obtain ⟨hi, rfl⟩ := List.getElem?_eq_some_iff.mp hx
      obtain ⟨hk, rfl⟩ := List.getElem?_eq_some_iff.mp hy
      have hlt : C.lt (C.key xs[k]) (C.key xs[i]) = true := by
        simpa using List.pairwise_iff_getElem.mp hs k i hk hi hki
      exact L.lt_of_le_of_lt h1y hlt
    unfold Probe.hit
    constructor
    · intro hh
      simp only [Bool.and_eq_true, Bool.not_eq_true'] at hh
      have hki : ¬ i < k := fun hlt => by rw [h1.mpr hlt] at hh; simp at hh
      have : ¬ k < i := fun hlt => by rw [habove hlt] at hh; simp at hh
      omega
    · intro hh
      obtain rfl : i = k := by omega
      rw [hy] at hx; cases hx
      have ha : (C.probe key).above x = false := ha
      simp [h1y, ha]

theorem hit_none {P : Probe α} (f : P.Fits xs) (c1 : Cut P.below xs k) (ha : absent P xs k = true) {x : α}
    (hx : x ∈ xs) : P.hit x = false := by
  rw [← List.take_append_drop k xs, List.mem_append] at hx
  unfold Probe.hit
  rcases hx with hx | hx
  · simp [c1.toLeft.all f c1.le hx]
  · simp [absent_drop f ha hx]

theorem eraseKeyUnique_spec (L : C.Lawful) {key : κ} (h : VSt H E ib N o al b cap xs) :
    wp (eraseKeyUnique C E (C.probe key))
      (fun n o' => ∃ ys, VSt H E ib N o' al b cap ys ∧ o'.m.next = o.m.next ∧
        (C.Sorted false xs → n = xs.countP (C.hasKey key) ∧ ys = xs.filter (fun x => !C.hasKey key x)))
      (fun e o' => ∃ xs', EraseFail H E ib N al b cap C xs e o o' xs') o := by
  unfold eraseKeyUnique
  rw [wp_bind]
  refine wp_mono (find_spec h) ?_ (fun e o' hc => EraseFail.ofComp h hc)
  rintro _ o1 ⟨k, rfl, l1, cut, -⟩
  rw [wp_bind, wp_getObj, (h.looked l1).obj, wp_ite]
  by_cases ha : absent (C.probe key) xs k = true
  · rw [if_pos ha, if_pos rfl]
    refine ⟨xs, h.looked l1, l1.q.next, fun hs => ?_⟩
    have hno : ∀ x ∈ xs, C.hasKey key x = false := fun x hx => hit_none (L.fits hs key) cut ha hx
    exact ⟨(List.countP_eq_zero.mpr (fun x hx => by simp [hno x hx])).symm,
      (List.filter_eq_self.mpr (fun x hx => by simp [hno x hx])).symm⟩
  · have ha' : absent (C.probe key) xs k = false := by simpa using ha
    have hk : k < xs.length := by
      unfold absent at ha'
      cases hx : xs[k]? with
      | none => rw [hx] at ha'; cases ha'
      | some x => exact (List.getElem?_eq_some_iff.mp hx).1
    rw [if_neg ha, if_neg (by simp; omega), wp_bind]
    refine wp_mono (eraseAt_spec (h.looked l1) hk) ?_ ?_
    · rintro p o2 ⟨h2, hn, -⟩
      refine ⟨_, h2, hn.trans l1.q.next, fun hs => ?_⟩
      obtain ⟨e1, e2⟩ := filter_range (f := C.hasKey key) (k := k) (l := k + 1) (by omega) (by omega)
        (fun i x hx => hit_unique L hs cut ha' hx)
      exact ⟨by rw [e2]; omega, e1.symm⟩
    · rintro e o2 ⟨xs', h2, -, hn, -, he, hm⟩
      exact ⟨xs', h2, hn.trans l1.q.next, he, Or.inr hm⟩

theorem eraseKeyMulti_spec (L : C.Lawful) {key : κ} (h : VSt H E ib N o al b cap xs) :
    wp (eraseKeyMulti C E (C.probe key))
      (fun n o' => ∃ ys, VSt H E ib N o' al b cap ys ∧ o'.m.next = o.m.next ∧
        (C.Sorted true xs → n = xs.countP (C.hasKey key) ∧ ys = xs.filter (fun x => !C.hasKey key x)))
      (fun e o' => ∃ xs', EraseFail H E ib N al b cap C xs e o o' xs') o := by
  unfold eraseKeyMulti
  rw [wp_bind]
  refine wp_mono (equalRange_spec h (fun x _ hx => L.asymm hx)) ?_ (fun e o' hc => EraseFail.ofComp h hc)
  rintro _ o1 ⟨k, l, rfl, l1, hkl, c1, c2⟩
  rw [wp_bind]
  refine wp_distance rfl hkl ?_
  rw [wp_bind]
  refine wp_mono (eraseRange_spec (h.looked l1) hkl c2.le) ?_ ?_
  · rintro p o2 ⟨h2, hn, -⟩
    refine ⟨_, h2, hn.trans l1.q.next, fun hs => ?_⟩
    obtain ⟨e1, e2⟩ := filter_range (f := C.hasKey key) hkl c2.le
      (fun i x hx => hit_multi (L.fits hs key) c1 c2 hx)
    exact ⟨e2.symm, e1.symm⟩
  · rintro e o2 ⟨xs', h2, -, hn, -, he, hm⟩
    exact ⟨xs', h2, hn.trans l1.q.next, he, Or.inr hm⟩

theorem eraseKey_spec (L : C.Lawful) {key : κ} {multi : Bool} (h : VSt H E ib N o al b cap xs) :
    wp (eraseKey multi C E (C.probe key))
      (fun n o' => ∃ ys, VSt H E ib N o' al b cap ys ∧ o'.m.next = o.m.next ∧
        (C.Sorted multi xs → n = xs.countP (C.hasKey key) ∧ ys = xs.filter (fun x => !C.hasKey key x)))
      (fun e o' => ∃ xs', EraseFail H E ib N al b cap C xs e o o' xs') o := by
  unfold eraseKey
  cases multi
  · rw [if_neg (by simp)]; exact eraseKeyUnique_spec L h
  · rw [if_pos rfl]; exact eraseKeyMulti_spec L h

theorem eraseIfGo_spec {f : α → Bool} (n : Nat) :
    ∀ {o : Obj Vec α} {xs : List α} {k : Nat}, VSt H E ib N o al b cap xs → k ≤ xs.length → xs.length ≤ k + n →
    wp (eraseIfGo E f n ⟨b, k⟩)
      (fun _ o' => VSt H E ib N o' al b cap (xs.take k ++ (xs.drop k).filter (fun x => !f x)) ∧
        o'.m.next = o.m.next)
      (fun e o' => ∃ xs', VSt H E ib N o' al b cap xs' ∧ o'.m.next = o.m.next ∧ e = .elem ∧
        E.nothrowMoveAssign = false) o := by
  induction n with
  | zero =>
    intro o xs k h hk hn
    obtain rfl : k = xs.length := by omega
    simp only [List.drop_length, List.filter_nil, List.take_length, List.append_nil]
    exact ⟨h, rfl⟩
  | succ n ih =>
    intro o xs k h hk hn
    unfold eraseIfGo
    rw [wp_bind, wp_getObj, h.obj, wp_ite]
    by_cases he : (⟨b, k⟩ : Ptr) = ⟨b, xs.length⟩
    · rw [if_pos he]
      obtain rfl : k = xs.length := by simpa using he
      simp only [List.drop_length, List.filter_nil, List.take_length, List.append_nil]
      exact ⟨h, rfl⟩
    · have hlt : k < xs.length := by
        have : k ≠ xs.length := fun h' => he (by rw [h'])
        omega
      rw [if_neg he, wp_bind, wp_lift]
      refine wp_readAt (v := xs[k]) (by simp [h.cells, hlt]) ?_
      rw [wp_ite, List.drop_eq_getElem_cons hlt]
      by_cases hf : f xs[k] = true
      · rw [if_pos hf, wp_bind]
        refine wp_mono (eraseAt_spec h hlt) ?_ ?_
        · rintro _ o1 ⟨h1, hn1, rfl⟩
          refine wp_mono (ih h1 (by simp; omega) (by simp; omega)) ?_ ?_
          · rintro _ o2 ⟨h2, hn2⟩
            refine ⟨?_, hn2.trans hn1⟩
            have hlk : (xs.take k).length = k := by simp; omega
            have e1 : (xs.take k ++ xs.drop (k + 1)).take k = xs.take k := by
              rw [List.take_append_of_le_length (by omega), List.take_take]; simp
            have e2 : (xs.take k ++ xs.drop (k + 1)).drop k = xs.drop (k + 1) := by
              rw [List.drop_append_of_le_length (by omega), List.drop_of_length_le (by omega)]; simp
            rw [e1, e2] at h2
            rw [List.filter_cons, if_neg (by simp [hf])]
            exact h2
          · rintro e o2 ⟨xs', h2, hn2, e1, e2⟩
            exact ⟨xs', h2, hn2.trans hn1, e1, e2⟩
        · rintro e o1 ⟨xs', h2, -, hn2, -, e1, e2⟩
          exact ⟨xs', h2, hn2, e1, e2⟩
      · rw [if_neg hf]
        have hp : (⟨b, k⟩ : Ptr).add 1 = ⟨b, k + 1⟩ := rfl
        rw [hp]
        refine wp_mono (ih h (by omega) (by omega)) ?_ (fun _ _ h => h)
        rintro _ o2 ⟨h2, hn2⟩
        refine ⟨?_, hn2⟩
        rw [List.take_add_one, List.getElem?_eq_getElem hlt, List.append_assoc] at h2
        rw [List.filter_cons, if_pos (by simpa using hf)]
        exact h2

theorem eraseIf_spec {f : α → Bool} (h : VSt H E ib N o al b cap xs) :
    wp (eraseIf E f)
      (fun n o' => VSt H E ib N o' al b cap (xs.filter (fun x => !f x)) ∧ o'.m.next = o.m.next ∧ n = xs.countP f)
      (fun e o' => ∃ xs', EraseFail H E ib N al b cap C xs e o o' xs') o := by
  unfold eraseIf
  rw [wp_bind]
  refine wp_size h.obj ?_
  rw [wp_bind, wp_getObj, wp_bind, h.obj]
  refine wp_mono (eraseIfGo_spec xs.length (k := 0) h (by omega) (by omega)) ?_ ?_
  · rintro _ o1 ⟨h1, hn⟩
    simp only [List.take_zero, List.drop_zero, List.nil_append] at h1
    rw [wp_bind]
    refine wp_size h1.obj ?_
    refine ⟨h1, hn, ?_⟩
    have := List.length_eq_countP_add_countP f (l := xs)
    have e : xs.countP (fun a => decide ¬ (f a = true)) = (xs.filter (fun x => !f x)).length := by
      rw [List.countP_eq_length_filter]
      congr 1
      apply List.filter_congr
      intro x _
      cases f x <;> simp
    omega
  · rintro e o1 ⟨xs', h1, h2, h3, h4⟩
    exact ⟨xs', h1, h2, h3, Or.inr h4⟩

/-! ### All modifiers -/

theorem wp_posOf {p : Ptr} {i : Nat} {Q : Ret → Obj Vec α → Prop} {X : Exn → Obj Vec α → Prop}
    (h : VSt H E ib N o al b cap xs) (hp : p = ⟨b, i⟩) (hQ : Q (.pos i) o) : wp (posOf p) Q X o := by
  subst hp
  unfold posOf
  rw [wp_bind, wp_getObj, wp_bind, h.obj]
  exact wp_distance rfl (by simp) (by simpa [wp_pure] using hQ)

theorem wp_insOf {r : Ptr × Bool} {i : Nat} {Q : Ret → Obj Vec α → Prop} {X : Exn → Obj Vec α → Prop}
    (h : VSt H E ib N o al b cap xs) (hp : r.1 = ⟨b, i⟩) (hQ : Q (.ins i r.2) o) : wp (insOf r) Q X o := by
  unfold insOf
  rw [wp_bind, wp_getObj, wp_bind, h.obj, hp]
  exact wp_distance rfl (by simp) (by simpa [wp_pure] using hQ)

theorem wp_argOf' {s : Src α} {Q : Arg α → Obj Vec α → Prop} {X : Exn → Obj Vec α → Prop}
    (h : VSt H E ib N o al b cap xs) (hs : s.ok xs.length = true)
    (hQ : ∀ a v, s.get? xs = some v → a.value o.m = some v → a.src E = none → (loc a ≠ none → v ∈ xs) →
      ((s matches .rvalue _) → a.isRv = true) → Q a o) :
    wp (Vector.argOf s) Q X o := by
  unfold Vector.argOf
  rw [wp_bind, wp_getObj, wp_pure, h.obj]
  cases s with
  | value v => exact hQ _ v rfl rfl rfl (by simp [Src.toArg, loc]) (by simp)
  | rvalue v => exact hQ _ v rfl rfl rfl (by simp [Src.toArg, loc]) (by simp [Src.toArg, Arg.isRv])
  | elem i =>
    have hi : i < xs.length := by simpa [Src.ok] using hs
    refine hQ _ xs[i] ?_ ?_ rfl (fun _ => by simp) (by simp)
    · simp [Src.get?, hi]
    · simp [Src.toArg, Arg.value, h.cells, hi]

theorem wp_inRange {Q : Unit → Obj Vec α → Prop} {X : Exn → Obj Vec α → Prop}
    (h : VSt H E ib N o al b cap xs) (hk : k ≤ xs.length) (hQ : Q () o) :
    wp (do let v ← getObj; M.assert (Vector.InRange v ⟨b, k⟩)) Q X o := by
  rw [wp_bind, wp_getObj, wp_assert, h.obj]
  exact ⟨⟨rfl, by simp, by simpa using hk⟩, hQ⟩

/-- Everything claimed about an operation that threw. -/
structure Threw (C : Order α κ) (multi : Bool) (E : Env α) (cap : Nat) (xs : List α) (op : Op α κ) (e : Exn)
    (xs' : List α) : Prop where
  fail : op.Failure C multi (Strong E) (NothrowMove E) E.maxSize xs e xs'
  full : Strong E → xs.length = cap → op.one = true → xs' = xs

theorem OneFail.threw {multi : Bool} {safe : Prop} {op : Op α κ} {e : Exn} {o' : Obj Vec α} {xs' : List α}
    (h : OneFail H E ib N al b cap safe xs e o o' xs') (hroom : op.room xs.length = xs.length + 1)
    (hone : op.one = true) (hs : op.safe multi = true → safe) :
    Threw C multi E cap xs op e xs' where
  fail := {
    can := by cases op <;> simp [Op.one, Op.clears] at hone ⊢
    len := by rw [hroom]; exact h.lenErr
    order := fun hE hsafe hs' => by rw [h.same hE (hs hsafe)]; exact hs'
    same := fun hE hsafe _ => h.same hE (hs hsafe)
    strong := by cases op <;> simp [Op.one, Op.storage] at hone ⊢
    erase := by cases op <;> simp [Op.one, Op.erases] at hone ⊢ }
  full := fun hE hl _ => h.strong hE hl

theorem EraseFail.threw {multi : Bool} {op : Op α κ} {e : Exn} {o' : Obj Vec α} {xs' : List α}
    (h : EraseFail H E ib N al b cap C xs e o o' xs')
    (hop : op matches .eraseAt _ | .eraseRange _ _ | .eraseKey _ | .eraseIf _) :
    Threw C multi E cap xs op e xs' where
  fail := {
    can := by cases op <;> simp [Op.clears] at hop ⊢
    len := by rw [h.elem]; simp
    order := fun hE _ hs' => by
      rcases h.why with ⟨rfl, -⟩ | h'
      · exact hs'
      · rw [hE.2] at h'; cases h'
    same := fun hE _ _ => by
      rcases h.why with ⟨rfl, -⟩ | h'
      · rfl
      · rw [hE.2] at h'; cases h'
    strong := by cases op <;> simp [Op.storage] at hop ⊢
    erase := fun hE hC => by
      exfalso
      rcases h.why with ⟨-, h'⟩ | h'
      · rw [hC] at h'; cases h'
      · rw [hE.2] at h'; cases h' }
  full := by cases op <;> simp [Op.one] at hop ⊢

theorem EraseFail.op {e : Exn} {o' : Obj Vec α} {xs' : List α} {need : Nat}
    (h : EraseFail H E ib N al b cap C xs e o o' xs') : OpFail H E ib N al b cap e o o' b cap need xs' :=
  ⟨h.v, fun e1 e2 _ => ⟨e1, e2, h.next, by rw [h.elem]; simp⟩⟩

theorem AsgFail.threw {multi : Bool} {op : Op α κ} {e : Exn} {o' : Obj Vec α} {xs' : List α}
    (h : AsgFail H E ib N al b cap C multi xs e o o' xs') (hroom : op.room xs.length = xs.length + 1)
    (hop : op matches .insertOrAssign _ | .insertOrAssignHint _ _) :
    Threw C multi E cap xs op e xs' where
  fail := {
    can := by cases op <;> simp [Op.clears] at hop ⊢
    len := by rw [hroom]; exact h.lenErr
    order := fun hE _ hs' => h.order hE hs'
    same := by cases op <;> simp [Op.atomic] at hop ⊢
    strong := by cases op <;> simp [Op.storage] at hop ⊢
    erase := by cases op <;> simp [Op.erases] at hop ⊢ }
  full := by cases op <;> simp [Op.one] at hop ⊢

theorem exec_spec (L : C.Lawful) (hK : K.Ok E ib N st) (op : Op α κ) (h : VSt H E ib N o al b cap xs)
    (hp : op.pre K.multi xs.length = true) (hst : st = true → op.room xs.length ≤ cap) :
    wp (exec K C E (SmallVector.reserve E ib N) (SmallVector.shrinkToFit E ib N) op)
      (fun r o' => ∃ b' cap' ys, OpDone H E ib N al b cap o o' b' cap' (op.room xs.length) ys ∧
        ((op.free = true ∨ C.Sorted K.multi xs) → op.Result C K.multi xs r ys))
      (fun e o' => ∃ b' cap' xs', OpFail H E ib N al b cap e o o' b' cap' (op.room xs.length) xs' ∧
        Threw C K.multi E cap xs op e xs' ∧ (op.many = true ∨ b' = b ∧ cap' = cap)) o := by
  cases op with
  | insert s =>
    have hs : s.ok xs.length = true := by simpa [Op.pre, Op.uniqueOnly] using hp
    have hr : Room st xs cap 1 := hst
    simp only [exec, wp_bind]
    refine wp_argOf' h hs fun a v hg hv hsrc hmem hrv => hK.guard h hr ?_
    refine wp_mono (insertAux_spec L hK h hv hsrc hr hmem) ?_ ?_
    · rintro r o1 ⟨b1, cap1, i, ys, hd, hi⟩
      exact wp_insOf hd.done.v hd.ptr ⟨b1, cap1, ys, hd.done.op hd.le, fun hs => ⟨v, i, r.2, hg, rfl, hi (hs.resolve_left (by simp [Op.free]))⟩⟩
    · rintro e o1 ⟨xs', hf⟩
      refine ⟨b, cap, xs', hf.kept.op, hf.threw rfl rfl ?_, Or.inr ⟨rfl, rfl⟩⟩
      cases s <;> simp [Op.safe] at hrv ⊢
      · exact Or.inl
      · exact Or.inr hrv
      · exact Or.inl
  | insertHint hn s =>
    obtain ⟨hk, hs⟩ : hn ≤ xs.length ∧ s.ok xs.length = true := by simpa [Op.pre, Op.uniqueOnly] using hp
    have hr : Room st xs cap 1 := hst
    simp only [exec, wp_bind]
    refine wp_argOf' h hs fun a v hg hv hsrc hmem hrv => wp_nth h (hK.guard h hr ?_)
    rw [wp_getObj, wp_assert, h.obj]
    refine ⟨⟨rfl, by simp, by simpa using hk⟩, ?_⟩
    refine wp_mono (insertAuxHint_spec L hK h hv hsrc hr hmem hk) ?_ ?_
    · rintro r o1 ⟨b1, cap1, i, new, ys, hd, hi⟩
      exact wp_posOf hd.done.v hd.ptr ⟨b1, cap1, ys, hd.done.op hd.le, fun hs => ⟨v, i, new, hg, rfl, hi (hs.resolve_left (by simp [Op.free]))⟩⟩
    · rintro e o1 ⟨xs', hf⟩
      refine ⟨b, cap, xs', hf.kept.op, hf.threw rfl rfl ?_, Or.inr ⟨rfl, rfl⟩⟩
      cases s <;> simp [Op.safe] at hrv ⊢
      · exact Or.inl
      · exact Or.inr hrv
      · exact Or.inl
  | emplace v =>
    have hr : Room st xs cap 1 := hst
    simp only [exec, wp_bind]
    refine hK.guard h hr ?_
    rw [wp_lift]
    refine mkTmp_copy (v := v) rfl rfl ?_ ?_
    · intro s1 hs1 _ hm1
      have l1 : Looked o ⟨o.obj, s1⟩ := .ofSame hs1 hm1
      refine wp_mono (insertAux_spec (a := .rv v) (v := v) L hK (h.looked l1) rfl rfl hr (by simp [loc])) ?_ ?_
      · rintro r o1 ⟨b1, cap1, i, ys, hd, hi⟩
        have hd := hd.since (o := o) l1.q.next
        exact wp_insOf hd.done.v hd.ptr ⟨b1, cap1, ys, hd.done.op hd.le, fun hs => ⟨i, r.2, rfl, hi (hs.resolve_left (by simp [Op.free]))⟩⟩
      · rintro e o1 ⟨xs', hf⟩
        have hf := hf.since (o := o) l1.q.next
        exact ⟨b, cap, xs', hf.kept.op, hf.threw rfl rfl (fun _ => Or.inr rfl), Or.inr ⟨rfl, rfl⟩⟩
    · intro s1 hs1 hm1
      have hf := OneFail.quiet (safe := True) h (.ofSame hs1 hm1)
      exact ⟨b, cap, xs, hf.kept.op, hf.threw rfl rfl (fun _ => trivial), Or.inr ⟨rfl, rfl⟩⟩
  | emplaceHint hn v =>
    have hk : hn ≤ xs.length := by simpa [Op.pre, Op.uniqueOnly] using hp
    have hr : Room st xs cap 1 := hst
    simp only [exec, wp_bind]
    refine wp_nth h (hK.guard h hr ?_)
    rw [wp_getObj, wp_assert, h.obj]
    refine ⟨⟨rfl, by simp, by simpa using hk⟩, ?_⟩
    rw [wp_lift]
    refine mkTmp_copy (v := v) rfl rfl ?_ ?_
    · intro s1 hs1 _ hm1
      have l1 : Looked o ⟨o.obj, s1⟩ := .ofSame hs1 hm1
      refine wp_mono (insertAuxHint_spec (a := .rv v) (v := v) L hK (h.looked l1) rfl rfl hr (by simp [loc]) hk) ?_ ?_
      · rintro r o1 ⟨b1, cap1, i, new, ys, hd, hi⟩
        have hd := hd.since (o := o) l1.q.next
        exact wp_posOf hd.done.v hd.ptr ⟨b1, cap1, ys, hd.done.op hd.le, fun hs => ⟨i, new, rfl, hi (hs.resolve_left (by simp [Op.free]))⟩⟩
      · rintro e o1 ⟨xs', hf⟩
        have hf := hf.since (o := o) l1.q.next
        exact ⟨b, cap, xs', hf.kept.op, hf.threw rfl rfl (fun _ => Or.inr rfl), Or.inr ⟨rfl, rfl⟩⟩
    · intro s1 hs1 hm1
      have hf := OneFail.quiet (safe := True) h (.ofSame hs1 hm1)
      exact ⟨b, cap, xs, hf.kept.op, hf.threw rfl rfl (fun _ => trivial), Or.inr ⟨rfl, rfl⟩⟩
  | tryEmplace v =>
    have hu : K.multi = false := by simpa [Op.pre, Op.uniqueOnly] using hp
    have hr : Room st xs cap 1 := hst
    simp only [exec, wp_bind]
    refine hK.guard h hr ?_
    refine wp_mono (tryEmplaceAux_spec L hK h hr hu) ?_ ?_
    · rintro r o1 ⟨b1, cap1, i, ys, hd, hi⟩
      exact wp_insOf hd.done.v hd.ptr ⟨b1, cap1, ys, hd.done.op hd.le, fun hs => ⟨i, r.2, rfl, hi (hs.resolve_left (by simp [Op.free]))⟩⟩
    · rintro e o1 ⟨xs', hf⟩
      exact ⟨b, cap, xs', hf.kept.op, hf.threw rfl rfl (fun _ => trivial), Or.inr ⟨rfl, rfl⟩⟩
  | tryEmplaceHint hn v =>
    obtain ⟨hu, hk⟩ : K.multi = false ∧ hn ≤ xs.length := by simpa [Op.pre, Op.uniqueOnly] using hp
    have hr : Room st xs cap 1 := hst
    simp only [exec, wp_bind]
    refine wp_nth h (hK.guard h hr ?_)
    rw [wp_getObj, wp_assert, h.obj]
    refine ⟨⟨rfl, by simp, by simpa using hk⟩, ?_⟩
    refine wp_mono (tryEmplaceAuxHint_spec L hK h hr hu hk) ?_ ?_
    · rintro r o1 ⟨b1, cap1, i, new, ys, hd, hi⟩
      exact wp_posOf hd.done.v hd.ptr ⟨b1, cap1, ys, hd.done.op hd.le, fun hs => ⟨i, new, rfl, hi (hs.resolve_left (by simp [Op.free]))⟩⟩
    · rintro e o1 ⟨xs', hf⟩
      exact ⟨b, cap, xs', hf.kept.op, hf.threw rfl rfl (fun _ => trivial), Or.inr ⟨rfl, rfl⟩⟩
  | insertOrAssign v =>
    have hu : K.multi = false := by simpa [Op.pre, Op.uniqueOnly] using hp
    have hr : Room st xs cap 1 := hst
    simp only [exec, wp_bind]
    refine hK.guard h hr ?_
    rw [hu]
    refine wp_mono (insertOrAssignAux_spec L hK h hr hu) ?_ ?_
    · rintro r o1 ⟨b1, cap1, i, ys, hd, hi⟩
      exact wp_insOf hd.done.v hd.ptr ⟨b1, cap1, ys, hd.done.op hd.le, fun hs => ⟨i, r.2, rfl, hi (hs.resolve_left (by simp [Op.free]))⟩⟩
    · rintro e o1 ⟨xs', hf⟩
      exact ⟨b, cap, xs', hf.kept.op, hf.threw rfl rfl, Or.inr ⟨rfl, rfl⟩⟩
  | insertOrAssignHint hn v =>
    obtain ⟨hu, hk⟩ : K.multi = false ∧ hn ≤ xs.length := by simpa [Op.pre, Op.uniqueOnly] using hp
    have hr : Room st xs cap 1 := hst
    simp only [exec, wp_bind]
    refine wp_nth h (hK.guard h hr ?_)
    rw [wp_getObj, wp_assert, h.obj]
    refine ⟨⟨rfl, by simp, by simpa using hk⟩, ?_⟩
    rw [hu]
    refine wp_mono (insertOrAssignAuxHint_spec L hK h hr hu hk) ?_ ?_
    · rintro r o1 ⟨b1, cap1, i, new, ys, hd, hi⟩
      exact wp_posOf hd.done.v hd.ptr ⟨b1, cap1, ys, hd.done.op hd.le, fun hs => ⟨i, new, rfl, hi (hs.resolve_left (by simp [Op.free]))⟩⟩
    · rintro e o1 ⟨xs', hf⟩
      exact ⟨b, cap, xs', hf.kept.op, hf.threw rfl rfl, Or.inr ⟨rfl, rfl⟩⟩
  | insertRange vs =>
    simp only [exec, wp_bind]
    refine wp_mono (insertRange_spec L hK vs h hst) ?_ ?_
    · rintro _ o1 ⟨b1, cap1, ys, hd, g1, g2, g3⟩
      exact ⟨b1, cap1, ys, hd.op g2, fun hs => ⟨rfl, g3 (hs.resolve_left (by simp [Op.free]))⟩⟩
    · rintro e o1 ⟨b1, cap1, xs', hf, g1, g2⟩
      exact ⟨b1, cap1, xs', hf, ⟨⟨rfl, g2, fun hE hm hs => g1 hE hm hs, by simp [Op.atomic], by simp [Op.storage], fun _ _ => rfl⟩,
        by simp [Op.one]⟩, Or.inl rfl⟩
  | assignList vs =>
    simp only [exec, wp_bind]
    refine wp_mono (assignList_spec L hK vs h hst) ?_ ?_
    · rintro _ o1 ⟨b1, cap1, ys, hd, g1, g2⟩
      refine ⟨b1, cap1, ys, ⟨hd.v, fun e1 e2 e3 => hd.inside e1 e2 ?_⟩, fun hs => ⟨rfl, g1, g2⟩⟩
      simp [Op.room] at e3; omega
    · rintro e o1 ⟨b1, cap1, xs', hf, g1, g2⟩
      refine ⟨b1, cap1, xs', ⟨hf.v, fun e1 e2 e3 => hf.inside e1 e2 ?_⟩, ⟨⟨rfl, fun he => ?_,
        fun hE hm hs => g1 hE hm, by simp [Op.atomic], by simp [Op.storage], fun _ _ => rfl⟩, by simp [Op.one]⟩, Or.inl rfl⟩
      · simp [Op.room] at e3; omega
      · have := g2 he; simp [Op.room]; omega
  | eraseAt k =>
    have hk : k < xs.length := by simpa [Op.pre, Op.uniqueOnly] using hp
    simp only [exec, wp_bind]
    refine wp_nth h ?_
    refine wp_mono (eraseAt_spec h hk) ?_ ?_
    · rintro p o1 ⟨h1, h2, hp⟩
      exact wp_posOf h1 hp ⟨b, cap, _, ⟨h1, fun e1 e2 _ => ⟨e1, e2, h2⟩⟩, fun _ => ⟨rfl, rfl⟩⟩
    · rintro e o1 ⟨xs', h1, h2, h3, h4, rfl, h5⟩
      have hf : EraseFail H E ib N al b cap C xs .elem o o1 xs' := ⟨h1, h3, rfl, Or.inr h5⟩
      exact ⟨b, cap, xs', hf.op, hf.threw rfl, Or.inr ⟨rfl, rfl⟩⟩
  | eraseRange k l =>
    obtain ⟨hkl, hl⟩ : k ≤ l ∧ l ≤ xs.length := by simpa [Op.pre, Op.uniqueOnly] using hp
    simp only [exec, wp_bind]
    refine wp_nth h (wp_nth h ?_)
    refine wp_mono (eraseRange_spec h hkl hl) ?_ ?_
    · rintro p o1 ⟨h1, h2, hp⟩
      exact wp_posOf h1 hp ⟨b, cap, _, ⟨h1, fun e1 e2 _ => ⟨e1, e2, h2⟩⟩, fun _ => ⟨rfl, rfl⟩⟩
    · rintro e o1 ⟨xs', h1, h2, h3, h4, rfl, h5⟩
      have hf : EraseFail H E ib N al b cap C xs .elem o o1 xs' := ⟨h1, h3, rfl, Or.inr h5⟩
      exact ⟨b, cap, xs', hf.op, hf.threw rfl, Or.inr ⟨rfl, rfl⟩⟩
  | eraseKey key =>
    simp only [exec, wp_bind]
    refine wp_mono (eraseKey_spec L h) ?_ ?_
    · rintro n o1 ⟨ys, h1, h2, h3⟩
      refine ⟨b, cap, ys, ⟨h1, fun e1 e2 _ => ⟨e1, e2, h2⟩⟩, fun hs => ?_⟩
      obtain ⟨rfl, rfl⟩ := h3 (hs.resolve_left (by simp [Op.free]))
      exact ⟨rfl, rfl⟩
    · rintro e o1 ⟨xs', hf⟩
      exact ⟨b, cap, xs', hf.op, hf.threw rfl, Or.inr ⟨rfl, rfl⟩⟩
  | eraseIf f =>
    simp only [exec, wp_bind]
    refine wp_mono (eraseIf_spec (C := C) h) ?_ ?_
    · rintro n o1 ⟨h1, h2, rfl⟩
      exact ⟨b, cap, _, ⟨h1, fun e1 e2 _ => ⟨e1, e2, h2⟩⟩, fun hs => ⟨rfl, rfl⟩⟩
    · rintro e o1 ⟨xs', hf⟩
      exact ⟨b, cap, xs', hf.op, hf.threw rfl, Or.inr ⟨rfl, rfl⟩⟩
  | clear =>
    simp only [exec, wp_bind]
    refine wp_mono (clear_spec h) ?_ (fun _ _ h => h.elim)
    rintro _ o1 ⟨h1, h2, h3⟩
    exact ⟨b, cap, _, ⟨h1, fun e1 e2 _ => ⟨e1, e2, h2⟩⟩, fun _ => ⟨rfl, rfl⟩⟩
  | reserve n =>
    simp only [exec, wp_bind]
    refine wp_mono (reserve_spec h) ?_ ?_
    · rintro _ o1 ⟨b1, cap1, hv, k1, k2, k3, k4⟩
      refine ⟨b1, cap1, _, ⟨hv, ?_⟩, fun _ => ⟨rfl, rfl⟩⟩
      rintro rfl rfl hh
      simp only [Op.room] at hh
      obtain ⟨e1, e2, e3⟩ := k3 hh
      exact ⟨e1, e2, k4 (by omega)⟩
    · rintro e o1 ⟨xs', k1, k2, k3, k4, k5⟩
      refine ⟨b, cap, xs', ⟨k1, ?_⟩, ⟨⟨rfl, k5.mp, fun hE _ hs => by rw [k3 (Or.inl hE.1)]; exact hs,
        fun hE _ _ => k3 (Or.inl hE.1), fun hE _ => k3 hE, fun _ _ => rfl⟩, by simp [Op.one]⟩, Or.inr ⟨rfl, rfl⟩⟩
      rintro rfl rfl hh
      simp only [Op.room] at hh
      exact ⟨rfl, rfl, k4 (by omega)⟩
  | shrinkToFit =>
    simp only [exec, wp_bind]
    refine wp_mono (shrinkToFit_spec h) ?_ ?_
    · rintro _ o1 ⟨b1, cap1, hv, k1, k2⟩
      refine ⟨b1, cap1, _, ⟨hv, ?_⟩, fun _ => ⟨rfl, rfl⟩⟩
      rintro rfl rfl hh
      simp only [Op.room] at hh
      obtain ⟨e1, e2⟩ := k2 hh
      have hb : b1 = b := by
        rcases e2 with e2 | e2
        · exact e2
        · exact e2.1
      subst hb
      exact ⟨rfl, hv.internal, e1⟩
    · rintro e o1 ⟨xs', k1, k2, k3, k4, k5⟩
      refine ⟨b, cap, xs', ⟨k1, ?_⟩, ⟨⟨rfl, fun he => absurd he k5, fun hE _ hs => by rw [k3 (Or.inl hE.1)]; exact hs,
        fun hE _ _ => k3 (Or.inl hE.1), fun hE _ => k3 hE, fun _ _ => rfl⟩, by simp [Op.one]⟩, Or.inr ⟨rfl, rfl⟩⟩
      rintro rfl rfl hh
      simp only [Op.room] at hh
      exact ⟨rfl, rfl, k4 (by omega)⟩

end Sfl.Flat
