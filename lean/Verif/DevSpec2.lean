import Verif.DevSpec
/-
  Correctness of the functions of devector: access and removal. (Helper lemmas.)
-/

set_option linter.unusedSimpArgs false

namespace Sfl.Devector
open Sfl
variable {α : Type} {E : Env α} {H : Heap α} {al b cap f : Nat} {o : Obj DVec α} {xs : List α}

/-! ### Access -/

theorem index_spec {i : Nat} {x : α} (h : DSt H E o al b cap f xs) (hx : xs[i]? = some x) :
    wp (index i) (fun r o' => r = x ∧ o' = o) (fun _ _ => False) o := by
  obtain ⟨hi, -⟩ := List.getElem?_eq_some_iff.mp hx
  unfold index
  rw [wp_bind, wp_getObj, wp_bind]
  refine wp_size h ?_
  rw [wp_bind, wp_assert]
  refine ⟨hi, ?_⟩
  rw [wp_lift, h.obj]
  refine wp_readAt (v := x) ?_ ⟨rfl, by rw [← h.obj]⟩
  simpa [Ptr.add] using (h.cell i).trans hx

theorem at_spec {i : Nat} (h : DSt H E o al b cap f xs) :
    wp (at' i) (fun r o' => xs[i]? = some r ∧ o' = o) (fun e o' => xs.length ≤ i ∧ e = .outOfRange ∧ o' = o) o := by
  unfold at'
  rw [wp_bind, wp_getObj, wp_bind]
  refine wp_size h ?_
  rw [wp_ite]
  split
  · rw [wp_throw]; exact ⟨by omega, rfl, rfl⟩
  · rename_i hi
    rw [wp_lift, h.obj]
    refine wp_readAt (v := xs[i]'(by omega)) ?_ ⟨by simp, by rw [← h.obj]⟩
    simpa [Ptr.add] using (h.cell i).trans (List.getElem?_eq_getElem (by omega))

theorem front_spec (h : DSt H E o al b cap f xs) (hx : xs ≠ []) :
    wp front (fun r o' => xs.head? = some r ∧ o' = o) (fun _ _ => False) o := by
  have hl : 0 < xs.length := List.length_pos_iff.mpr hx
  unfold front
  rw [wp_bind, wp_getObj, wp_bind, wp_assert, h.obj]
  refine ⟨by simp; omega, ?_⟩
  rw [wp_lift]
  refine wp_readAt (v := xs[0]) ?_ ⟨?_, rfl⟩
  · have := h.cell 0
    simp only [Nat.add_zero] at this
    rw [this]; simp
  · cases xs with
    | nil => exact absurd rfl hx
    | cons x xs => rfl

theorem back_spec (h : DSt H E o al b cap f xs) (hx : xs ≠ []) :
    wp back (fun r o' => xs.getLast? = some r ∧ o' = o) (fun _ _ => False) o := by
  have hl : 0 < xs.length := List.length_pos_iff.mpr hx
  unfold back
  rw [wp_bind, wp_getObj, wp_bind, wp_assert, h.obj]
  refine ⟨by simp; omega, ?_⟩
  rw [wp_lift]
  refine wp_readAt (v := xs[xs.length - 1]) ?_ ⟨?_, rfl⟩
  · have := h.cell (xs.length - 1)
    unfold Ptr.sub
    rw [if_pos (by simp; omega)]
    dsimp only
    rw [show f + xs.length - 1 = f + (xs.length - 1) by omega, this]
    simp
  · rw [List.getLast?_eq_getElem?]; simp

theorem wp_nth {k : Nat} {Q : Ptr → Obj DVec α → Prop} {X : Exn → Obj DVec α → Prop} (h : DSt H E o al b cap f xs)
    (hk : k ≤ xs.length) (hQ : Q ⟨b, f + k⟩ o) : wp (nth k) Q X o := by
  unfold nth
  rw [wp_bind, wp_getObj, wp_bind]
  refine wp_size h ?_
  rw [wp_bind, wp_assert]
  refine ⟨hk, ?_⟩
  rw [wp_pure, h.obj]
  exact hQ

theorem wp_indexOf {k : Nat} {Q : Option Nat → Obj DVec α → Prop} {X : Exn → Obj DVec α → Prop}
    (h : DSt H E o al b cap f xs) (hk : k ≤ xs.length) (hQ : Q (some k) o) : wp (indexOf ⟨b, f + k⟩) Q X o := by
  unfold indexOf
  rw [wp_bind, wp_getObj, wp_bind, wp_assert, h.obj]
  refine ⟨⟨rfl, by simp, by simp; omega⟩, ?_⟩
  rw [wp_bind]
  refine wp_distance rfl (by simp) ?_
  rw [wp_pure]
  simpa using hQ

/-! ### Removal -/

/-- What a throwing element operation leaves behind. -/
def Lost (H : Heap α) (E : Env α) (al b cap f : Nat) (xs : List α) (o' : Obj DVec α) : Prop :=
  ∃ xs', DSt H E o' al b cap f xs' ∧ xs'.length = xs.length

theorem DSt.lost {s : St α} {nx : Nat} {v : DVec} (h : DSt H E o al b cap f xs) (hv : v = o.obj)
    (hr : Row H s al b cap nx (fun i => f ≤ i ∧ i < f + xs.length)) :
    Lost H E al b cap f xs ⟨v, s⟩ := by
  obtain ⟨ys, k1, k2, -⟩ := hr.dst (E := E) (v := v) (by omega) h.fit h.capLe (hv.trans h.obj)
  exact ⟨ys, k1, by omega⟩

theorem Row.destroyAt {s : St α} {nx x : Nat} {L : Nat → Prop} {Q : Unit → St α → Prop} {X : Exn → St α → Prop}
    (h : Row H s al b cap nx L) (hs : L x)
    (hQ : ∀ s', Row H s' al b cap nx (fun i => L i ∧ i ≠ x) → (∀ i, i ≠ x → s'.mem b i = s.mem b i) → Q () s') :
    wp (destroyAt ⟨b, x⟩) Q X s := by
  have := h.destroyN (X := X) (Q := Q) (x := x) (n := 1)
    (fun i h1 h2 => by obtain rfl : i = x := by omega
                       exact hs)
    (fun s' k1 k2 => hQ s' (k1.congr (fun i => by rw [show (x ≤ i ∧ i < x + 1) ↔ i = x by omega])) (fun i hi => by
      rw [k2 i, if_neg (by omega)]))
  unfold Sfl.destroyN at this
  rw [wp_bind] at this
  refine wp_mono this ?_ (fun _ _ h => h)
  intro _ s1 h1
  exact h1

theorem clear_spec (h : DSt H E o al b cap f xs) :
    wp clear (fun _ o' => DSt H E o' al b cap f []) (fun _ _ => False) o := by
  have hfit := h.fit
  unfold clear
  simp only [wp_bind, wp_getObj, wp_lift, wp_setObj]
  rw [h.obj]
  refine h.row.des (by omega) (fun i h1 h2 => ⟨h1, h2⟩) ?_
  intro s1 r1 m1
  exact (r1.congr (by lv)).dst' (l := f) (by omega) h.capLe rfl (by simp) (fun i _ _ => by omega)

theorem popFront_spec (h : DSt H E o al b cap f xs) (hx : xs ≠ []) :
    wp popFront (fun _ o' => DSt H E o' al b cap (f + 1) xs.tail) (fun _ _ => False) o := by
  have hfit := h.fit
  have hl : 0 < xs.length := List.length_pos_iff.mpr hx
  unfold popFront
  rw [wp_bind, wp_getObj, wp_bind, wp_assert, h.obj]
  refine ⟨by simp; omega, ?_⟩
  simp only [wp_bind, wp_lift, wp_setObj]
  refine h.row.destroyAt ⟨by omega, by omega⟩ ?_
  intro s1 r1 m1
  refine (r1.congr (L' := fun i => f + 1 ≤ i ∧ i < f + xs.length) (by lv)).dst' (by omega) h.capLe rfl (by simp; try omega) ?_
  intro i h1 h2
  rw [m1 i (by omega), h.cells, if_pos (by omega), List.getElem?_tail]
  congr 1; omega

theorem popBack_spec (h : DSt H E o al b cap f xs) (hx : xs ≠ []) :
    wp popBack (fun _ o' => DSt H E o' al b cap f xs.dropLast) (fun _ _ => False) o := by
  have hfit := h.fit
  have hl : 0 < xs.length := List.length_pos_iff.mpr hx
  unfold popBack
  rw [wp_bind, wp_getObj, wp_bind, wp_assert, h.obj]
  refine ⟨by simp; omega, ?_⟩
  have e : (⟨b, f + xs.length⟩ : Ptr).sub 1 = ⟨b, f + xs.length - 1⟩ := by
    unfold Ptr.sub; rw [if_pos (by simp; omega)]
  dsimp only
  rw [e]
  simp only [wp_bind, wp_lift, wp_setObj]
  refine h.row.destroyAt ⟨by omega, by omega⟩ ?_
  intro s1 r1 m1
  refine (r1.congr (L' := fun i => f ≤ i ∧ i < f + xs.length - 1) (by lv)).dst' (by omega) h.capLe rfl (by simp; omega) ?_
  intro i h1 h2
  rw [m1 i (by omega), h.cells, if_pos (by omega), List.getElem?_dropLast, if_pos (by omega)]

theorem erase_spec {k : Nat} (h : DSt H E o al b cap f xs) (hk : k < xs.length) :
    wp (erase E ⟨b, f + k⟩)
      (fun r o' => ∃ f', DSt H E o' al b cap f' (xs.take k ++ xs.drop (k + 1)) ∧ r = ⟨b, f' + k⟩)
      (fun e o' => e = .elem ∧ ¬ NothrowMove E ∧ Lost H E al b cap f xs o') o := by
  have hfit := h.fit
  have hcell := h.cells
  have hlen : (xs.take k ++ xs.drop (k + 1)).length = xs.length - 1 := by simp; omega
  unfold erase
  rw [wp_bind, wp_getObj, wp_bind, wp_assert, h.obj]
  refine ⟨⟨⟨rfl, by simp, by simp; omega⟩, by simp; omega⟩, ?_⟩
  dsimp only
  rw [wp_bind]
  refine dist (by omega) ?_
  rw [wp_bind]
  refine dist (by omega) ?_
  dsimp only [Ptr.add]
  rw [wp_ite]
  split
  · simp only [wp_bind, wp_lift, wp_setObj, wp_pure]
    refine h.row.moveBackward (by omega) (by omega) (by lv) (by lv) (by omega) ?_ ?_
    · intro s1 r1 m1
      refine r1.destroyAt (by omega) ?_
      intro s2 r2 m2
      refine ⟨f + 1, (r2.congr (L' := fun i => f + 1 ≤ i ∧ i < f + xs.length) (by lv)).dst' (by omega) h.capLe ?_ (by omega) ?_, ?_⟩
      · simp; omega
      · intro i h1 h2
        rw [m2 i (by omega), m1 i]
        split
        · rw [hcell, if_pos (by omega), List.getElem?_append_left (by simp; omega), List.getElem?_take, if_pos (by omega)]
          congr 1; omega
        · rw [if_neg (by omega), hcell, if_pos (by omega), List.getElem?_append_right (by simp; omega), List.getElem?_drop]
          congr 1
          simp; omega
      · simp; omega
    · intro ht s1 r1
      exact ⟨rfl, fun hn => (by rw [hn.2] at ht; cases ht), h.lost rfl r1⟩
  · simp only [wp_bind, wp_lift, wp_setObj, wp_pure]
    refine h.row.moveFwd (by omega) (by lv) (by lv) (by omega) ?_ ?_
    · intro s1 r1 m1
      refine r1.destroyAt (by omega) ?_
      intro s2 r2 m2
      refine ⟨f, (r2.congr (L' := fun i => f ≤ i ∧ i < f + xs.length - 1) (by lv)).dst' (by omega) h.capLe ?_ (by omega) ?_, ?_⟩
      · simp; omega
      · intro i h1 h2
        rw [m2 i (by omega), m1 i]
        split
        · rw [hcell, if_pos (by omega), List.getElem?_append_right (by simp; omega), List.getElem?_drop]
          congr 1
          simp; omega
        · rw [if_neg (by omega), hcell, if_pos (by omega), List.getElem?_append_left (by simp; omega), List.getElem?_take, if_pos (by omega)]
      · simp
    · intro ht s1 r1
      exact ⟨rfl, fun hn => (by rw [hn.2] at ht; cases ht), h.lost rfl r1⟩

theorem eraseRange_spec {k l : Nat} (h : DSt H E o al b cap f xs) (hk : k ≤ l) (hl : l ≤ xs.length) :
    wp (eraseRange E ⟨b, f + k⟩ ⟨b, f + l⟩)
      (fun r o' => ∃ f', DSt H E o' al b cap f' (xs.take k ++ xs.drop l) ∧ r = ⟨b, f' + k⟩)
      (fun e o' => e = .elem ∧ ¬ NothrowMove E ∧ k < l ∧ l < xs.length ∧ Lost H E al b cap f xs o') o := by
  have hfit := h.fit
  have hcell := h.cells
  have hlen : (xs.take k ++ xs.drop l).length = xs.length - (l - k) := by simp; omega
  unfold eraseRange
  rw [wp_bind, wp_getObj, wp_bind, wp_assert, h.obj]
  refine ⟨⟨⟨rfl, by simp, by simp; omega⟩, by simp; omega, ⟨rfl, by simp, by simp; omega⟩⟩, ?_⟩
  dsimp only
  rw [wp_ite]
  split
  · rename_i he
    obtain rfl : k = l := by simpa using he
    rw [wp_bind]
    refine dist (by omega) ?_
    rw [wp_pure]
    exact ⟨f, by simpa using h, by simp [Ptr.add]⟩
  rename_i he
  have hkl : k < l := by simp at he; omega
  rw [wp_bind]
  refine dist (by omega) ?_
  rw [wp_bind]
  refine dist (by omega) ?_
  rw [wp_bind]
  refine dist (by omega) ?_
  dsimp only [Ptr.add]
  rw [wp_ite]
  split
  · simp only [wp_bind, wp_lift, wp_setObj, wp_pure]
    refine h.row.moveBackward (by omega) (by omega) (by lv) (by lv) (by omega) ?_ ?_
    · intro s1 r1 m1
      refine r1.des (by omega) (by lv) ?_
      intro s2 r2 m2
      refine ⟨f + (l - k), (r2.congr (L' := fun i => f + (l - k) ≤ i ∧ i < f + xs.length) (by lv)).dst' (by omega) h.capLe ?_ (by omega) ?_, ?_⟩
      · simp; omega
      · intro i h1 h2
        rw [m2.oth i (by omega), m1 i]
        split
        · rw [hcell, if_pos (by omega), List.getElem?_append_left (by simp; omega), List.getElem?_take, if_pos (by omega)]
          congr 1; omega
        · rw [if_neg (by omega), hcell, if_pos (by omega), List.getElem?_append_right (by simp; omega), List.getElem?_drop]
          congr 1
          simp; omega
      · simp; omega
    · intro ht s1 r1
      exact ⟨rfl, fun hn => (by rw [hn.2] at ht; cases ht), hkl, by omega,
        h.lost rfl r1⟩
  · simp only [wp_bind, wp_lift, wp_setObj, wp_pure]
    have key : ∀ s1 : St α, Row H s1 al b cap o.m.next (fun i => f ≤ i ∧ i < f + xs.length) →
        (∀ i, f ≤ i → i < f + (xs.length - (l - k)) → s1.mem b i = (xs.take k ++ xs.drop l)[i - f]?) →
        wp (destroyRange ⟨b, f + k + (f + xs.length - (f + l))⟩ ⟨b, f + xs.length⟩) (fun _ s2 => ∃ f', DSt H E ⟨⟨⟨b, 0⟩, ⟨b, f⟩,
          ⟨b, f + k + (f + xs.length - (f + l))⟩, ⟨b, cap⟩, al⟩, s2⟩ al b cap f' (xs.take k ++ xs.drop l) ∧
          (⟨b, f + k⟩ : Ptr) = ⟨b, f' + k⟩) (fun _ _ => False) s1 := by
      intro s1 r1 m1
      refine r1.des (by omega) (by lv) ?_
      intro s2 r2 m2
      refine ⟨f, (r2.congr (L' := fun i => f ≤ i ∧ i < f + (xs.length - (l - k))) (by lv)).dst' (by omega) h.capLe ?_ (by omega) ?_, rfl⟩
      · simp; omega
      · intro i h1 h2
        rw [m2.oth i (by omega)]
        exact m1 i h1 h2
    have e1 : f + (f + k - f) = f + k := by omega
    have e2 : f + (f + l - f) = f + l := by omega
    rw [e1, e2]
    by_cases hll : l < xs.length
    · refine h.row.moveFwd (by omega) (by lv) (by lv) (by omega) ?_ ?_
      · intro s1 r1 m1
        refine wp_mono (key s1 r1 ?_) (fun _ _ h => h) (fun _ _ h => h.elim)
        intro i h1 h2
        rw [m1 i]
        split
        · rw [hcell, if_pos (by omega), List.getElem?_append_right (by simp; omega), List.getElem?_drop]
          congr 1
          simp; omega
        · rw [if_neg (by omega), hcell, if_pos (by omega), List.getElem?_append_left (by simp; omega), List.getElem?_take, if_pos (by omega)]
      · intro ht s1 r1
        exact ⟨rfl, fun hn => (by rw [hn.2] at ht; cases ht), hkl, hll,
          h.lost rfl r1⟩
    · obtain rfl : l = xs.length := by omega
      have : moveFwd E (⟨b, f + xs.length⟩ : Ptr) ⟨b, f + xs.length⟩ ⟨b, f + k⟩ = pure ⟨b, f + k⟩ := by
        funext s
        simp [moveFwd, distance, bind, M.bind, args, assignGo]
      rw [this, wp_pure]
      have hk' := key o.m h.row ?_
      · rw [show f + k + (f + xs.length - (f + xs.length)) = f + k by omega] at hk'
        exact wp_mono hk' (fun _ _ h => h) (fun _ _ h => h.elim)
      · intro i h1 h2
        rw [hcell, if_pos h1, List.getElem?_append_left (by simp; omega), List.getElem?_take, if_pos (by omega)]

/-- `std::remove_if` on the elements of the container. -/
theorem removeIf_spec {g : α → Bool} (h : DSt H E o al b cap f xs) :
    wp (lift (removeIf E g ⟨b, f⟩ ⟨b, f + xs.length⟩) : DM α Ptr)
      (fun p o' => ∃ ys, DSt H E o' al b cap f ys ∧ ys.length = xs.length ∧
        p = ⟨b, f + (xs.filter (fun x => !g x)).length⟩ ∧
        ys.take (xs.filter (fun x => !g x)).length = xs.filter (fun x => !g x))
      (fun e o' => e = .elem ∧ E.nothrowMoveAssign = false ∧ Lost H E al b cap f xs o') o := by
  have hfit := h.fit
  rw [wp_lift]
  unfold removeIf
  rw [wp_bind]
  refine dist (by omega) ?_
  rw [wp_bind, show f + xs.length - f = xs.length by omega]
  refine wp_findIf (ys := xs) (fun i hi => h.cell i) ?_
  intro k hk h1 h2
  rw [wp_ite]
  have hadd : (⟨b, f⟩ : Ptr).add k = ⟨b, f + k⟩ := rfl
  rw [hadd]
  by_cases hke : k = xs.length
  · subst hke
    rw [if_pos rfl, wp_pure]
    have hall : xs.filter (fun x => !g x) = xs := by
      rw [List.filter_eq_self]
      intro x hx
      rw [List.take_length] at h1
      simp [h1 x hx]
    exact ⟨xs, h, rfl, by rw [hall], by rw [hall]; simp⟩
  · rw [if_neg (by simpa using hke), wp_bind]
    have hklt : k < xs.length := by omega
    have hfx : g xs[k] = true := h2 _ (by simp [hklt])
    have hsplit : xs.filter (fun x => !g x) = xs.take k ++ (xs.drop (k + 1)).filter (fun x => !g x) := by
      conv => lhs; rw [← List.take_append_drop k xs, List.drop_eq_getElem_cons hklt]
      rw [List.filter_append, List.filter_cons]
      simp only [hfx, Bool.not_true, Bool.false_eq_true, if_false]
      congr 1
      rw [List.filter_eq_self]
      intro x hx
      simp [h1 x hx]
    refine wp_distance (by rfl) (by simp [Ptr.add]; omega) ?_
    have hn : (⟨b, f + xs.length⟩ : Ptr).off - ((⟨b, f + k⟩ : Ptr).add 1).off = (xs.drop (k + 1)).length := by
      simp [Ptr.add]; omega
    rw [hn]
    have hdl : (xs.drop (k + 1)).length = xs.length - (k + 1) := by simp
    have hrow : ∀ s', Within o.m s' b (f + k) (f + k + 1 + (xs.drop (k + 1)).length) →
        Row H s' al b cap o.m.next (fun i => f ≤ i ∧ i < f + xs.length) := by
      intro s' g2
      refine h.row.upd g2.same ?_ h.row.beyond (fun c hc i => g2.rest c i (fun e => absurd e hc))
      intro i
      by_cases hi : f + k ≤ i ∧ i < f + xs.length
      · have := g2.live i hi.1 (by omega)
        simp only [this, true_iff]; omega
      · rw [g2.rest b i (fun _ _ => by omega)]; exact h.live i
    refine wp_removeGo (by rfl) (by simp [Ptr.add]) ?_ ?_ ?_ ?_
    · intro i hi
      simp only [Ptr.add_blk, Ptr.add_off]
      rw [show f + k + 1 + i = f + (k + 1 + i) by omega, h.cell, List.getElem?_drop]
    · intro i h3 h4
      simp only [Ptr.add_off, Ptr.add_blk] at h3 h4 ⊢
      rw [h.live]; omega
    · intro s' g2 g1
      simp only [Ptr.add_blk] at g1
      simp only [Ptr.add_blk, Ptr.add_off] at g2
      obtain ⟨ys, k1, k2, k3⟩ := (hrow s' g2).dst (E := E) (v := o.obj) (by omega) hfit h.capLe h.obj
      refine ⟨ys, k1, by omega, ?_, ?_⟩
      · rw [hsplit]; simp [Ptr.add]; omega
      · rw [hsplit]
        refine List.ext_getElem? fun i => ?_
        rw [List.getElem?_take]
        simp only [List.length_append, List.length_take, Nat.min_eq_left (Nat.le_of_lt hklt)]
        by_cases hi : i < k + ((xs.drop (k + 1)).filter (fun x => !g x)).length
        · rw [if_pos hi, ← k3 i, List.getElem?_append]
          simp only [List.length_take, Nat.min_eq_left (Nat.le_of_lt hklt)]
          by_cases hik : i < k
          · rw [if_pos hik]
            rw [g2.rest b (f + i) (fun _ _ => by omega), h.cell, List.getElem?_take, if_pos hik]
          · rw [if_neg hik]
            have := g1 (i - k) (by omega)
            rw [show f + k + (i - k) = f + i by omega] at this
            exact this
        · rw [if_neg hi, List.getElem?_eq_none]
          simp only [List.length_append, List.length_take]; omega
    · intro hE s' g2
      simp only [Ptr.add_blk, Ptr.add_off] at g2
      exact ⟨rfl, hE, h.lost rfl (hrow s' g2)⟩

theorem eraseIf_spec {g : α → Bool} (h : DSt H E o al b cap f xs) :
    wp (eraseIf E g)
      (fun r o' => ∃ f', DSt H E o' al b cap f' (xs.filter (fun x => !g x)) ∧
        r = xs.length - (xs.filter (fun x => !g x)).length)
      (fun e o' => e = .elem ∧ ¬ NothrowMove E ∧ Lost H E al b cap f xs o')
      o := by
  have hfl : (xs.filter (fun x => !g x)).length ≤ xs.length := List.length_filter_le _ _
  unfold eraseIf
  rw [wp_bind, wp_getObj, wp_bind, h.obj]
  refine wp_mono (removeIf_spec h) ?_ (fun e o' k => ⟨k.1, fun hn => (by have := k.2.1; rw [hn.2] at this; cases this), k.2.2⟩)
  rintro p o1 ⟨ys, h1, h2, rfl, h4⟩
  rw [wp_bind, wp_getObj, wp_bind, h1.obj]
  refine dist (by omega) ?_
  rw [wp_bind]
  refine wp_mono (eraseRange_spec (k := (xs.filter (fun x => !g x)).length) (l := ys.length) h1 (by omega) (by omega)) ?_ ?_
  · rintro p o2 ⟨f', k1, -⟩
    rw [wp_pure]
    rw [h4] at k1
    simp only [List.drop_length, List.append_nil] at k1
    exact ⟨f', k1, by omega⟩
  · rintro e o2 ⟨-, -, -, k3, -⟩
    omega

end Sfl.Devector
