import Verif.CostUnord
import Verif.StaticFlat
import Verif.UnordWorld
import Verif.CalmAll
import Verif.PropStorage
import Verif.FlatLook
import Verif.UnordLook
/-
  Lower bounds for the work of the flat containers, used for the negative parts of C48: inserting a range of descending keys into an
  ordered container moves every element again and again, inserting a range of different keys into an unordered container with unique
  keys compares every pair. Also the work of assigning to a static container.
-/

namespace Sfl
open Flat
variable {α κ : Type}

/-- Every element of `vs` comes before all elements of `xs`. -/
def Order.Before (C : Order α κ) (vs xs : List α) : Prop := ∀ v ∈ vs, ∀ x ∈ xs, C.lt (C.key v) (C.key x) = true

/-- Descending keys. -/
def Order.Descending (C : Order α κ) (vs : List α) : Prop := vs.Pairwise fun a b => C.lt (C.key b) (C.key a) = true

/-- Keys that are all different. -/
def KeyEq.Fresh (U : KeyEq α κ) (vs : List α) : Prop := vs.Pairwise fun a b => U.same a b = false

/-- What a function does, and what it costs. -/
theorem wp_vcost {V β : Type} {m : M (Obj V α) β} {Q : β → Obj V α → Prop} {X : Exn → Obj V α → Prop} {Q' : β → V → Nat → Prop}
    {X' : V → Nat → Prop} {o : Obj V α} (h : wp m Q X o) (h' : vcost m Q' X' o.obj o.m.tick) :
    wp m (fun b o' => Q b o' ∧ Q' b o'.obj o'.m.tick) X o := by
  have h' := h' o rfl rfl
  unfold wp at *
  cases hm : m o with
  | ok b s => rw [hm] at h h'; exact ⟨h, h'⟩
  | exn x s => rw [hm] at h; exact h
  | ub r => rw [hm] at h; exact h

namespace Flat
open Sfl.Vector (VM)
variable {E : Env α} {H : Heap α} {C : Order α κ} {ib N al b cap : Nat} {o : Obj Vec α} {xs : List α} {K : Kind α} {st : Bool}

/-- An element before all others is inserted at the front. -/
theorem Inserted.front (L : C.Lawful) {multi new : Bool} {v : α} {i : Nat} {ys : List α} (h : Inserted C multi xs v i new ys)
    (hb : ∀ x ∈ xs, C.lt (C.key v) (C.key x) = true) : new = true ∧ i = 0 ∧ ys = v :: xs := by
  rcases h with ⟨h1, -, h3, h4, h5⟩ | ⟨-, -, -, x, hx, hs⟩
  · have hi : i = 0 := by
      rcases Nat.eq_zero_or_pos i with h0 | h0
      · exact h0
      · exfalso
        cases xs with
        | nil => simp at h3; omega
        | cons x xs =>
          obtain ⟨i, rfl⟩ : ∃ j, i = j + 1 := ⟨i - 1, by omega⟩
          rw [h4, List.take_succ_cons, List.drop_succ_cons, List.cons_append] at h5
          have h6 := (List.pairwise_cons.mp h5).1 v (by simp)
          have h7 := hb x (by simp)
          have h8 := L.asymm h7
          cases multi <;> simp_all
    subst hi
    exact ⟨h1, rfl, by simpa using h4⟩
  · have h1 := hb x (List.mem_of_getElem? hx)
    simp [Order.same, h1] at hs

theorem insertAux_front {a : Arg α} {v : α} (L : C.Lawful) (hK : K.Ok E ib N st) (hC : K.Costs N) (h : VSt H E ib N o al b cap xs)
    (hv : a.value o.m = some v) (hsrc : a.src E = none) (hr : Room st xs cap 1) (hmem : loc a ≠ none → v ∈ xs)
    (hs : C.Sorted K.multi xs) (hb : ∀ x ∈ xs, C.lt (C.key v) (C.key x) = true) :
    wp (insertAux K C E a)
      (fun _ o' => ∃ b' cap', Done H E ib N al b cap o o' b' cap' (v :: xs) ∧ C.Sorted K.multi (v :: xs) ∧
        o.m.tick + xs.length ≤ o'.m.tick)
      (fun _ _ => True) o := by
  refine wp_mono (wp_vcost (insertAux_spec L hK h hv hsrc hr hmem) (insertAux_lower (C := C) (E := E) (a := a) hC h.dim)) ?_
    fun _ _ _ => trivial
  rintro r o1 ⟨⟨b', cap', i, ys, hd, hi⟩, hl⟩
  have hi := hi hs
  have hys := hi.sorted hs
  obtain ⟨h1, rfl, rfl⟩ := hi.front L hb
  refine ⟨b', cap', hd.done, hys, ?_⟩
  have hl := hl h1
  rw [hd.ptr, hd.done.v.obj] at hl
  simpa using hl

/-- Room for one more and for the rest. -/
theorem Room.next {v : α} {vs : List α} {b' cap' : Nat} {o' : Obj Vec α} (hr : Room st xs cap (v :: vs).length)
    (hd : Done H E ib N al b cap o o' b' cap' (v :: xs)) : Room st (v :: xs) cap' vs.length := by
  intro hst
  have h1 := hr hst
  simp only [List.length_cons] at h1 ⊢
  obtain ⟨-, h3⟩ := hd.keep (by simp only [List.length_cons]; omega)
  omega

theorem _root_.Sfl.Order.Before.step {v : α} {vs : List α} (hd : C.Descending (v :: vs)) (hb : C.Before (v :: vs) xs) : C.Before vs (v :: xs) := by
  intro w hw x hx
  rcases List.mem_cons.mp hx with rfl | hx
  · exact (List.pairwise_cons.mp hd).1 w hw
  · exact hb w (by simp [hw]) x hx

/-- Descending keys, each before all elements, inserted one by one. -/
theorem insertRange_front (L : C.Lawful) (hK : K.Ok E ib N st) (hC : K.Costs N) (vs : List α) :
    ∀ {b cap : Nat} {o : Obj Vec α} {xs : List α}, VSt H E ib N o al b cap xs → Room st xs cap vs.length → C.Sorted K.multi xs →
    C.Descending vs → C.Before vs xs →
    wp (insertRange K C E vs)
      (fun _ o' => (∃ b' cap', VSt H E ib N o' al b' cap' (vs.reverse ++ xs)) ∧
        2 * o.m.tick + (xs.length + vs.length) * (xs.length + vs.length - 1) ≤ 2 * o'.m.tick + xs.length * (xs.length - 1))
      (fun _ _ => True) o := by
  induction vs with
  | nil =>
    intro b cap o xs h _ _ _ _
    exact ⟨⟨b, cap, h⟩, by simp⟩
  | cons v vs ih =>
    intro b cap o xs h hr hs hd hb
    have hr1 : Room st xs cap 1 := fun hst => by have := hr hst; simp at this; omega
    unfold insertRange
    rw [wp_bind]
    refine hK.guard h hr1 ?_
    rw [wp_bind]
    refine wp_mono (insertAux_front (a := .val v) (v := v) L hK hC h rfl rfl hr1 (by simp [loc]) hs fun x hx => hb v (by simp) x hx) ?_
      fun _ _ _ => trivial
    rintro _ o1 ⟨b1, cap1, hd1, hs1, ht⟩
    refine wp_mono (ih hd1.v (hr.next hd1) hs1 (List.pairwise_cons.mp hd).2 (hb.step hd)) ?_ fun _ _ _ => trivial
    rintro _ o2 ⟨⟨b2, cap2, h2⟩, ht2⟩
    refine ⟨⟨b2, cap2, by simpa using h2⟩, ?_⟩
    simp only [List.length_cons] at ht2 ⊢
    have e : xs.length + (vs.length + 1) = xs.length + 1 + vs.length := by omega
    have e2 := tri xs.length
    simp only [Nat.add_sub_cancel] at ht2
    rw [e]
    omega

/-- The same with the range constructor of the static containers. -/
theorem emplaceRange_front {multi : Bool} (L : C.Lawful) (vs : List α) :
    ∀ {o : Obj Vec α} {xs : List α}, VSt H E ib N o al ib N xs → xs.length + vs.length ≤ N → C.Sorted multi xs →
    C.Descending vs → C.Before vs xs →
    wp (emplaceRange multi C E vs)
      (fun _ o' => VSt H E ib N o' al ib N (vs.reverse ++ xs) ∧
        2 * o.m.tick + (xs.length + vs.length) * (xs.length + vs.length - 1) ≤ 2 * o'.m.tick + xs.length * (xs.length - 1))
      (fun _ _ => True) o := by
  induction vs with
  | nil =>
    intro o xs h _ _ _ _
    exact ⟨h, by simp⟩
  | cons v vs ih =>
    intro o xs h hr hs hd hb
    simp only [List.length_cons] at hr
    have hr1 : Room true xs N 1 := fun _ => by omega
    unfold emplaceRange
    rw [wp_bind]
    refine (static_ok multi E ib N).guard h hr1 ?_
    rw [wp_bind, wp_lift]
    refine mkTmp_copy (v := v) rfl rfl ?_ ?_
    rotate_left
    · intros; trivial
    · intro s1 hs1 ht1 hm1
      have l1 : Looked o ⟨o.obj, s1⟩ := .ofSame hs1 hm1
      rw [wp_bind]
      refine wp_mono (insertAux_front (a := .rv v) (v := v) L (static_ok multi E ib N) (static_costs multi E N) (h.looked l1) rfl rfl hr1
        (by simp [loc]) hs fun x hx => hb v (by simp) x hx) ?_ fun _ _ _ => trivial
      rintro _ o1 ⟨b1, cap1, hd1, hs1, ht⟩
      obtain ⟨rfl, rfl⟩ := hd1.keep (by simp only [List.length_cons]; omega)
      refine wp_mono (ih hd1.v (by simp only [List.length_cons]; omega) hs1 (List.pairwise_cons.mp hd).2 (hb.step hd)) ?_
        fun _ _ _ => trivial
      rintro _ o2 ⟨h2, ht2⟩
      refine ⟨by simpa using h2, ?_⟩
      simp only [List.length_cons] at ht2 ⊢
      have e : xs.length + (vs.length + 1) = xs.length + 1 + vs.length := by omega
      have e2 := tri xs.length
      simp only [Nat.add_sub_cancel] at ht2
      rw [e]
      dsimp only at ht
      omega

end Flat

namespace Unord
open Sfl.Vector (VM)
open SmallVector (Dim)
variable {E : Env α} {H : Heap α} {U : KeyEq α κ} {ib N al b cap n r t : Nat} {o : Obj Vec α} {xs : List α} {K : Kind α} {st : Bool}
  {v : Vec} {q : Sought α}

/-- A search compares every element before the one it finds. -/
theorem findGo_ge (m : Nat) : ∀ {it : Ptr} {t : Nat},
    vcost (findGo U E q m it) (fun p v' t' => v' = v ∧ t + (p.off - it.off) ≤ t') (fun _ _ => True) v t := by
  induction m with
  | zero => intro it t; exact .pure ⟨rfl, by omega⟩
  | succ m ih =>
    intro it t
    unfold findGo
    refine .bind (.getObj (.ite (fun _ => .pure ⟨rfl, by omega⟩) fun _ => .bind (.lift (eqAt_cost (fun b => .ite (fun _ => .pure ⟨rfl, by omega⟩)
      fun _ => ?_) trivial))))
    refine vcost.mono ih (fun p _ _ hq => ⟨hq.1, ?_⟩) fun _ _ _ => trivial
    have := hq.2
    rw [Ptr.add_off] at this
    omega

theorem find_ge : vcost (find U E q) (fun p v' t' => v' = v ∧ t + (p.off - v.first.off) ≤ t') (fun _ _ => True) v t := by
  unfold find Vector.size
  exact .bind (.bind (.getObj (.distance fun _ _ => .bind (.getObj (findGo_ge _)))))

/-- `emplace_back` does not turn the counter back; where it puts the element. -/
structure Kind.Pushes (K : Kind α) : Prop where
  multi : K.multi = false
  ge : ∀ {v : Vec} {n r t : Nat} {a : Arg α}, Dim v n r →
    vcost (K.push a) (fun p v' t' => t ≤ t' ∧ p.off = v'.first.off + n) (fun _ _ => True) v t

theorem small_pushes (isMap : Bool) (E : Env α) (ib N : Nat) : (small false isMap E ib N).Pushes where
  multi := rfl
  ge := by
    intro v n r t a h
    obtain ⟨h1, h2, h3, h4⟩ := h
    show vcost (SmallVector.emplaceBack E ib N a) _ _ v t
    unfold SmallVector.emplaceBack
    refine .bind (.getObj (.ite (fun hne => ?_) fun he => ?_))
    · vcost <;> first | trivial | (refine ⟨?_, ?_⟩ <;> (try simp only [Ptr.add_off] at *) <;> omega)
    · unfold SmallVector.calculateNewCapacity Vector.size Vector.capacity
      refine .bind (.bind (.bind (.getObj (.distance fun _ _ => .bind (.bind (.getObj (.distance fun _ _ => ?_)))))))
      cases hc : SmallVector.newCapacity N E.maxSize (v.last.off - v.first.off) (v.eos.off - v.first.off) 1 with
      | none => exact .throw trivial
      | some c =>
        dsimp only
        unfold SmallVector.newStorage SmallVector.replaceStorage
        vcost <;> first | trivial | (refine ⟨?_, ?_⟩ <;> (try simp only [Ptr.add_off] at *) <;> omega)

theorem static_pushes (isMap : Bool) (E : Env α) : (static false isMap E).Pushes where
  multi := rfl
  ge := by
    intro v n r t a h
    obtain ⟨h1, h2, h3, h4⟩ := h
    show vcost (staticPush E a) _ _ v t
    unfold staticPush Flat.notFull
    vcost <;> first | trivial | (refine ⟨?_, ?_⟩ <;> (try simp only [Ptr.add_off] at *) <;> omega)

theorem insertAux_ge {a : Arg α} (hK : K.Pushes) (h : Dim v n r) :
    vcost (insertAux K U E a) (fun r _ t' => r.2 = true → t + n ≤ t') (fun _ _ => True) v t := by
  unfold insertAux
  rw [if_neg (by simp [hK.multi])]
  refine .bind (.lift (.argRead fun x => .bind (vcost.mono find_ge (fun p v1 t1 hq => ?_) fun _ _ _ => trivial)))
  obtain ⟨rfl, hq⟩ := hq
  refine .bind (.getObj (.ite (fun he => ?_) fun _ => .pure (by simp)))
  subst he
  have hl := h.last
  exact .bind (vcost.mono (hK.ge h) (fun p v2 t2 hq2 => .pure fun _ => by omega) fun _ _ _ => trivial)

theorem emplaceAux_ge {x : α} (hK : K.Pushes) (h : Dim v n r) :
    vcost (emplaceAux K U E x) (fun r _ t' => r.2 = true → t + n ≤ t') (fun _ _ => True) v t := by
  unfold emplaceAux
  refine .bind (vcost.mono (hK.ge h) (fun p v1 t1 hq => ?_) fun _ _ _ => trivial)
  refine .bind (vcost.mono find_ge (fun p' v2 t2 hq2 => ?_) fun _ _ _ => trivial)
  refine .ite (fun he => .pure fun _ => ?_) fun _ => .bind ?_
  · subst he; omega
  · unfold Vector.popBack
    vcost <;> first | trivial | simp

theorem emplace_ge {x : α} (hK : K.Pushes) (h : Dim v n r) :
    vcost (emplace K U E x) (fun r _ t' => r.2 = true → t + n ≤ t') (fun _ _ => True) v t := by
  unfold emplace
  rw [if_neg (by simp [hK.multi])]
  by_cases ha : K.appends = true
  · rw [if_pos ha]; exact emplaceAux_ge hK h
  · rw [if_neg ha]
    refine .bind (.lift (.mkTmp (fun tmp => ?_) trivial))
    exact vcost.mono (insertAux_ge hK h) (fun _ _ _ hq hr => by have := hq hr; omega) fun _ _ h => h

/-- A new key is added at the end. -/
theorem Inserted.back {multi new : Bool} {v : α} {i : Nat} {ys : List α} (h : Inserted U multi xs v i new ys)
    (hb : ∀ x ∈ xs, U.same x v = false) : new = true ∧ ys = xs ++ [v] := by
  rcases h with ⟨h1, -, -, h4⟩ | ⟨-, -, -, x, hx, hs⟩
  · exact ⟨h1, h4⟩
  · rw [hb x (List.mem_of_getElem? hx)] at hs; cases hs

theorem fresh_back {v : α} {vs : List α} (h : KeyEq.Fresh U (xs ++ v :: vs)) : ∀ x ∈ xs, U.same x v = false := fun x hx =>
  (List.pairwise_append.mp h).2.2 x hx v (by simp)

/-- Different keys, inserted one by one. -/
theorem insertRange_fresh (hK : K.Ok E ib N st) (hP : K.Pushes) (vs : List α) :
    ∀ {b cap : Nat} {o : Obj Vec α} {xs : List α}, VSt H E ib N o al b cap xs → Fits st ib N b cap (xs.length + vs.length) →
    KeyEq.Fresh U (xs ++ vs) →
    wp (insertRange K U E vs)
      (fun _ o' => (∃ b' cap', VSt H E ib N o' al b' cap' (xs ++ vs)) ∧
        2 * o.m.tick + (xs.length + vs.length) * (xs.length + vs.length - 1) ≤ 2 * o'.m.tick + xs.length * (xs.length - 1))
      (fun _ _ => True) o := by
  induction vs with
  | nil =>
    intro b cap o xs h _ _
    exact ⟨⟨b, cap, by simpa using h⟩, by simp⟩
  | cons v vs ih =>
    intro b cap o xs h hr hf
    have hr1 : Fits st ib N b cap (xs.length + 1) := fun hst => by
      obtain ⟨h1, h2, h3⟩ := hr hst
      simp at h3
      exact ⟨h1, h2, by omega⟩
    unfold insertRange
    rw [wp_bind]
    refine hK.guard h hr1 ?_
    rw [wp_bind]
    refine wp_mono (wp_vcost (insertAux_spec (a := .val v) (v := v) hK h rfl rfl hr1) (insertAux_ge hP h.dim)) ?_
      fun _ _ _ => trivial
    rintro r o1 ⟨⟨b1, cap1, i, ys, hd, hi⟩, hl⟩
    obtain ⟨h1, rfl⟩ := hi.back (fresh_back hf)
    have hl := hl h1
    have hr2 : Fits st ib N b1 cap1 ((xs ++ [v]).length + vs.length) := fun hst => by
      obtain ⟨e1, e2, e3⟩ := hr hst
      simp at e3
      obtain ⟨f1, f2, -⟩ := hd.op.inside e1 e2 (by omega)
      exact ⟨f1, f2, by simp; omega⟩
    refine wp_mono (ih hd.op.v hr2 (by simpa using hf)) ?_ fun _ _ _ => trivial
    rintro _ o2 ⟨⟨b2, cap2, h2⟩, ht2⟩
    refine ⟨⟨b2, cap2, by simpa using h2⟩, ?_⟩
    simp only [List.length_cons, List.length_append, List.length_nil, Nat.zero_add] at ht2 ⊢
    have e : xs.length + (vs.length + 1) = xs.length + 1 + vs.length := by omega
    have e2 := Flat.tri xs.length
    simp only [Nat.add_sub_cancel] at ht2
    rw [e]
    omega

/-- The same with the range constructor of the static containers. -/
theorem emplaceRange_fresh {isMap : Bool} (L : U.Lawful) (vs : List α) :
    ∀ {o : Obj Vec α} {xs : List α}, VSt H E ib N o al ib N xs → xs.length + vs.length ≤ N → KeyEq.Fresh U (xs ++ vs) →
    wp (emplaceRange false isMap U E vs)
      (fun _ o' => VSt H E ib N o' al ib N (xs ++ vs) ∧
        2 * o.m.tick + (xs.length + vs.length) * (xs.length + vs.length - 1) ≤ 2 * o'.m.tick + xs.length * (xs.length - 1))
      (fun _ _ => True) o := by
  induction vs with
  | nil =>
    intro o xs h _ _
    exact ⟨by simpa using h, by simp⟩
  | cons v vs ih =>
    intro o xs h hr hf
    simp only [List.length_cons] at hr
    have hr1 : Fits true ib N ib N (xs.length + 1) := fun _ => ⟨rfl, rfl, by omega⟩
    unfold emplaceRange
    rw [wp_bind]
    refine (static_ok false isMap E ib N).guard h hr1 ?_
    rw [wp_bind]
    refine wp_mono (wp_vcost (emplace_spec (v := v) L (static_ok false isMap E ib N) h hr1) (emplace_ge (static_pushes isMap E) h.dim)) ?_
      fun _ _ _ => trivial
    rintro r o1 ⟨⟨b1, cap1, i, ys, hd, hi⟩, hl⟩
    obtain ⟨h1, rfl⟩ := hi.back (fresh_back hf)
    have hl := hl h1
    obtain ⟨rfl, rfl, -⟩ := hd.op.inside rfl rfl (by omega)
    refine wp_mono (ih hd.op.v (by simp; omega) (by simpa using hf)) ?_ fun _ _ _ => trivial
    rintro _ o2 ⟨h2, ht2⟩
    refine ⟨by simpa using h2, ?_⟩
    simp only [List.length_cons, List.length_append, List.length_nil, Nat.zero_add] at ht2 ⊢
    have e : xs.length + (vs.length + 1) = xs.length + 1 + vs.length := by omega
    have e2 := Flat.tri xs.length
    simp only [Nat.add_sub_cancel] at ht2
    rw [e]
    omega

end Unord

namespace StaticVector
open SmallVector (Dim Fit)
variable {E : Env α} {v : Vec} {n r t N : Nat}

/-- Assigning to a static container: one operation for each new element. -/
theorem assignRange_stays {as : List (Arg α)} (h : Dim v n r) (hN : n + r = N) :
    Stays (assignRange E N as) (max n as.length) N (t + as.length) v t := by
  obtain ⟨h1, h2, h3, h4⟩ := h
  unfold assignRange Vector.size
  refine .bind (.assert fun hle => .bind (.bind (.getObj (.distance fun _ _ => .bind (.getObj ?_)))))
  have e : v.last.off - v.first.off = n := by omega
  rw [e]
  refine .ite (fun hg => ?_) fun hg => ?_
  · vcost <;> lim
  · have e1 : (as.take n).length = n := by rw [List.length_take]; omega
    have e2 : (as.drop n).length = as.length - n := List.length_drop
    vcost <;> lim

end StaticVector

/-! ### Lookups -/

namespace Flat
open Sfl.Vector (VM)
open SmallVector (Dim)
variable {multi : Bool} {C : Order α κ} {E : Env α} {P : Probe α} {v : Vec} {n r t W : Nat}

theorem pure_looks {β : Type} {b : β} (h : t ≤ W) : Looks (pure b : VM α β) W v t := .pure ⟨rfl, h⟩

theorem toIndex_looks {p : Ptr} (h : t ≤ W) : Looks (toIndex p : VM α Nat) W v t := by
  unfold toIndex
  exact .bind (.getObj (.distance fun _ _ => ⟨rfl, h⟩))

theorem looks_then {β γ : Type} {m : VM α β} {f : β → VM α γ} (h : Looks m W v t) (hf : ∀ b t', t' ≤ W → Looks (f b) W v t') :
    Looks (m >>= f) W v t :=
  looks_bind h (fun _ ht => ⟨rfl, ht⟩) hf

theorem looks_le {β : Type} {m : VM α β} {W' : Nat} (h : Looks m W v t) (hW : W ≤ W') : Looks m W' v t :=
  vcost.mono h (fun _ _ _ h => ⟨h.1, by omega⟩) fun _ _ h => ⟨h.1, by omega⟩

theorem getObj_looks {γ : Type} {f : Vec → VM α γ} (hf : Looks (f v) W v t) : Looks (getObj >>= f) W v t := .bind (.getObj hf)

/-- All lookups of the ordered containers. -/
theorem query_looks (h : Dim v n r) (q : Query) : Looks (query multi C E P q) (t + 2 * steps n) v t := by
  have hs : 1 ≤ steps n := by unfold steps; omega
  have hf : Looks (find C E P) (t + 2 * steps n) v t := looks_le (find_looks h) (by omega)
  have hc : Looks (contains C E P) (t + 2 * steps n) v t :=
    looks_then hf fun _ _ ht => getObj_looks (pure_looks ht)
  have he := equalRange_looks (C := C) (E := E) (P := P) (t := t) h
  cases q <;> unfold query
  case lowerBound => exact looks_then (looks_le (lowerBound_looks h) (by omega)) fun _ _ ht => looks_then (toIndex_looks ht) fun _ _ => pure_looks
  case upperBound => exact looks_then (looks_le (upperBound_looks h) (by omega)) fun _ _ ht => looks_then (toIndex_looks ht) fun _ _ => pure_looks
  case equalRange =>
    exact looks_then he fun _ _ ht => looks_then (toIndex_looks ht) fun _ _ ht => looks_then (toIndex_looks ht) fun _ _ => pure_looks
  case find => exact looks_then hf fun _ _ ht => looks_then (toIndex_looks ht) fun _ _ => pure_looks
  case contains => exact looks_then hc fun _ _ => pure_looks
  case count =>
    refine .ite (fun _ => ?_) fun _ => looks_then hc fun _ _ => pure_looks
    exact looks_then (looks_then he fun _ _ ht => .distance fun _ _ => ⟨rfl, ht⟩) fun _ _ => pure_looks
  case «at» =>
    refine looks_then (looks_then hf fun _ _ ht => getObj_looks (.ite (fun _ => .throw ⟨rfl, ht⟩) fun _ => ?_)) fun _ _ => pure_looks
    exact .lift (.readAt fun _ => ⟨rfl, ht⟩)

end Flat

namespace Unord
open Sfl.Vector (VM)
open SmallVector (Dim)
variable {multi : Bool} {U : KeyEq α κ} {E : Env α} {s : Sought α} {v : Vec} {n r t : Nat}

/-- All lookups of the unordered containers. -/
theorem query_looks (h : Dim v n r) (q : Query) : Looks (query multi U E s q) (t + n) v t := by
  have hf := find_looks (U := U) (E := E) (q := s) (t := t) h
  cases q <;> unfold query
  case find => exact looks_then hf fun _ _ ht => looks_then (toIndex_looks ht) fun _ _ => pure_looks
  case contains => exact looks_then (contains_looks h) fun _ _ => pure_looks
  case count =>
    refine .ite (fun _ => looks_then (countMulti_looks h) fun _ _ => pure_looks) fun _ => ?_
    unfold countUnique
    exact looks_then (looks_then (contains_looks h) fun _ _ => pure_looks) fun _ _ => pure_looks
  case «at» =>
    refine looks_then (looks_then hf fun _ _ ht => getObj_looks (.ite (fun _ => .throw ⟨rfl, ht⟩) fun _ => ?_)) fun _ _ => pure_looks
    exact .lift (.readAt fun _ => ⟨rfl, ht⟩)

end Unord

/-! ### Modifiers of the static containers, and modifiers that succeed -/

namespace Flat
open SmallVector (Dim)
variable {multi : Bool} {C : Order α κ} {E : Env α} {v : Vec} {n r t ib N al b cap : Nat} {H : Heap α} {o : Obj Vec α} {xs : List α}

/-- The static ordered containers. -/
theorem staticExec_stays (h : Dim v n r) (hN : n + r = N) (op : Op α κ) (hr : op.room n ≤ N) :
    Stays (staticExec multi C E N op) (max n (op.room n)) (max N (max (n + r) (op.room n + op.room n / 2))) (t + op.work n) v t := by
  by_cases ha : ∃ vs, op = .assignList vs
  · obtain ⟨vs, rfl⟩ := ha
    refine .map (Stays.mono (StaticVector.assignRange_stays h hN) ?_ (by omega) ?_)
    · simp [Op.room]
    · simp only [List.length_map, Op.work]
      exact Nat.add_le_add_left (Nat.le_mul_of_pos_right _ (by omega)) _
  · have e : staticExec multi C E N op = exec (static multi E) C E (fun _ => pure ()) (pure ()) op := by
      cases op <;> first | rfl | exact absurd ⟨_, rfl⟩ ha
    rw [e]
    refine Stays.mono (exec_stays (static_costs multi E N) h op (fun m => ?_) ?_) (Nat.le_refl _) (Nat.le_refl _) ?_
    · exact .pure ⟨(Lim.of h).mono (by omega) (by omega), by omega⟩
    · exact .pure ⟨(Lim.of h).mono (by omega) (by omega), by omega⟩
    · rw [if_pos (by omega)]; omega

theorem _root_.Sfl.VSt.eraseAll_run [Silent E] (h : VSt H E ib N o al b cap xs) : ∃ r o', eraseIf E (fun _ => true) o = .ok r o' ∧
    VSt H E ib N o' al b cap [] ∧ 2 * o'.m.tick = 2 * o.m.tick + xs.length * (xs.length - 1) := by
  have hs := eraseIf_spec (C := (⟨id, fun _ _ => false, true, fun a _ => a⟩ : Order α α)) (f := fun _ => true) h
  have hw := wp_vcost hs (Flat.eraseIf_all (E := E) (f := fun _ => true) (fun _ => rfl) h.dim)
  cases hx : eraseIf E (fun _ => true) o with
  | ok r o' =>
    obtain ⟨⟨h1, -, -⟩, h2⟩ := wp_ok hx hw
    exact ⟨r, o', rfl, by
      rwa [List.filter_eq_nil_iff.2 (by simp)] at h1, h2⟩
  | exn e o' => exact (Calm.out (L := fun _ => False) _ _ _ hx).elim
  | ub u => exact (wp_not_ub hs hx).elim

theorem _root_.Sfl.VSt.size_is (h : VSt H E ib N o al b cap xs) : Vector.size o = .ok xs.length o := by
  unfold Vector.size
  rw [bind_apply]
  simp [getObj, h.obj, distance]

theorem _root_.Sfl.VSt.clear_run (h : VSt H E ib N o al b cap xs) : ∃ o', Vector.clear o = .ok () o' ∧
    VSt H E ib N o' al b cap [] ∧ o'.m.tick = o.m.tick := by
  have hs := clear_spec h
  have hw := wp_vcost hs (clear_dim h.dim)
  cases hx : Vector.clear o with
  | ok r o' =>
    obtain ⟨h1, h2⟩ := wp_ok hx hw
    exact ⟨o', rfl, h1.1, h2.2⟩
  | exn e o' => exact (wp_exn hx hs).elim
  | ub u => exact (wp_not_ub hs hx).elim

end Flat

namespace Unord
open SmallVector (Dim Ends)
variable {multi isMap : Bool} {U : KeyEq α κ} {E : Env α} {v : Vec} {n r t N : Nat}

/-- An insertion that adds an element has compared all the others. -/
theorem exec_insert_ge {K : Kind α} {reserve : Nat → Vector.VM α Unit} {shrink : Vector.VM α Unit} (hK : K.Pushes)
    (hC : K.Costs N) (h : Dim v n r) (s : Sq.Src α) :
    vcost (exec K U E reserve shrink (.insert s)) (fun r _ t' => (∃ k, r = .ins k true) → t + n ≤ t') (fun _ _ => True) v t := by
  show vcost (Vector.argOf s >>= fun a => K.guard >>= fun _ => insertAux K U E a >>= fun r => insOf r) _ _ v t
  refine .bind (.bind (.getObj (.pure (.bind (vcost.mono hC.guard (fun _ v1 t1 hq => ?_) fun _ _ hq => hq.elim)))))
  obtain ⟨rfl, rfl⟩ := hq
  refine .bind (vcost.mono (insertAux_ge hK h) (fun p v1 t1 hq => ?_) fun _ _ h => h)
  unfold insOf
  refine .bind (.getObj (.bind (.distance fun _ _ => .pure ?_)))
  rintro ⟨k, hk⟩
  injection hk with _ hk
  exact hq hk

/-- The static unordered containers. -/
theorem staticExec_ends (h : Dim v n r) (hN : n + r = N) (op : Op α κ) (hr : op.room n ≤ N) :
    Ends (staticExec multi isMap U E N op) (max N (max (n + r) (op.room n + op.room n / 2))) (t + op.work multi n) v t := by
  by_cases ha : ∃ vs, op = .assignList vs
  · obtain ⟨vs, rfl⟩ := ha
    refine Ends.ofStays (.map (Stays.mono (StaticVector.assignRange_stays h hN) (Nat.le_refl _) (by omega) ?_))
    simp only [List.length_map, Op.work]
    split
    · omega
    · exact Nat.add_le_add_left (Nat.le_mul_of_pos_right _ (by omega)) _
  · have e : staticExec multi isMap U E N op = exec (static multi isMap E) U E (fun _ => pure ()) (pure ()) op := by
      cases op <;> first | rfl | exact absurd ⟨_, rfl⟩ ha
    rw [e]
    refine SmallVector.Ends.mono (exec_ends (static_costs multi isMap E N) h op (fun m => ?_) ?_) (Nat.le_refl _) ?_
    · exact .pure ⟨(Lim.of h).mono (by omega) (by omega), by omega⟩
    · exact .pure ⟨(Lim.of h).mono (by omega) (by omega), by omega⟩
    · rw [if_pos (by omega)]; exact Nat.le_refl _

end Unord
end Sfl
