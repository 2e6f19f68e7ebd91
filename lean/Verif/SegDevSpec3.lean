import Verif.SegDevSpec2
/-
  Specifications of the functions of segmented_devector: removal. Proof machinery: no code is modelled in this file.
-/

set_option linter.unusedSimpArgs false
set_option linter.unusedSectionVars false

namespace Sfl.SegDev
open SegVec (Fit IsFrom wp_run)
open Devector (Row)
variable {α : Type} {E : Env α} {N al tcap f : Nat} {V : View} {xs : List α} {o : Obj SDVec α} {H : Heap α}

theorem sdev_tab {t : Table} {l : Nat} : (V.sdev t tcap al f l).tab = t := rfl
theorem sdev_first {t : Table} {l : Nat} : (V.sdev t tcap al f l).first = V.it f := rfl
theorem sdev_last {t : Table} {l : Nat} : (V.sdev t tcap al f l).last = V.it l := rfl
theorem sdev_bos {t : Table} {l : Nat} : (V.sdev t tcap al f l).bos = V.it 0 := rfl
theorem sdev_eos {t : Table} {l : Nat} : (V.sdev t tcap al f l).eos = V.it V.size := rfl

/-- Compute with the data members of a segmented_devector. -/
macro "sd" : tactic => `(tactic| simp only [wp_bind, wp_getObj, wp_lift, wp_setObj, wp_pure, sdev_tab, sdev_first, sdev_last, sdev_bos, sdev_eos])

/-- The data members and the slots of a segmented_devector. -/
theorem DSt.out (h : DSt H N o al V tcap f xs) : ∃ t m, o = ⟨V.sdev t tcap al f (f + xs.length), m⟩ ∧ V.N = N ∧ Geo V.N tcap V t ∧
    Fit V t ∧ SRow V al tcap H m (fun i => f ≤ i ∧ i < f + xs.length) ∧ f + xs.length ≤ V.size ∧
    ∀ i, f ≤ i → V.cell m i = xs[i - f]? := by
  have hr := h.row
  have hg := h.geo
  have hc := h.cells
  obtain rfl := h.num
  exact ⟨o.obj.tab, o.m, by rw [← h.obj], rfl, hg, h.fit, hr, h.len, fun i hi => by rw [hc, if_pos hi]⟩

theorem exists_list {n : Nat} {p : Nat → Option α} (hex : ∀ i, i < n → ∃ v, p i = some v) :
    ∃ ys : List α, ys.length = n ∧ ∀ i, i < n → p i = ys[i]? := by
  induction n with
  | zero => exact ⟨[], rfl, fun i hi => absurd hi (Nat.not_lt_zero i)⟩
  | succ n ih =>
    obtain ⟨ys, h1, h2⟩ := ih (fun i hi => hex i (by omega))
    obtain ⟨v, hv⟩ := hex n (by omega)
    refine ⟨ys ++ [v], by simp [h1], fun i hi => ?_⟩
    by_cases e : i = n
    · subst e; rw [hv, ← h1]; simp
    · rw [h2 i (by omega), List.getElem?_append_left (by omega)]

theorem Geo.state {m : St α} {t : Table} {L : Nat → Prop} {l : Nat} (g : Geo N tcap V t) (h : SRow V al tcap H m L)
    (hL : ∀ i, L i ↔ f ≤ i ∧ i < l) (hl : l ≤ V.size) (hlen : l = f + xs.length)
    (hc : ∀ i, f ≤ i → i < l → V.cell m i = xs[i - f]?) : DSt H N ⟨V.sdev t tcap al f l, m⟩ al V tcap f xs := by
  subst hlen
  refine g.dst' h hl fun i => ?_
  split
  · rename_i hi
    by_cases h2 : i < f + xs.length
    · exact hc i hi h2
    · rw [List.getElem?_eq_none (by omega)]
      exact h.raw (by rw [hL]; omega)
  · exact h.raw (by rw [hL]; omega)

/-- What a throwing element operation leaves behind. -/
def Lost (H : Heap α) (N al : Nat) (V : View) (tcap f n : Nat) (o' : Obj SDVec α) : Prop :=
  ∃ ys, DSt H N o' al V tcap f ys ∧ ys.length = n

theorem Geo.lost {m : St α} {t : Table} {n : Nat} {L : Nat → Prop} (g : Geo N tcap V t) (h : SRow V al tcap H m L)
    (hl : f + n ≤ V.size) (hL : ∀ i, L i ↔ f ≤ i ∧ i < f + n) : Lost H N al V tcap f n ⟨V.sdev t tcap al f (f + n), m⟩ := by
  obtain ⟨ys, h1, h2⟩ := g.dst h (f := f) (l := f + n) (by omega) hl hL
  exact ⟨ys, h2, by omega⟩

/-- Sets of slots. -/
macro "iv" : tactic => `(tactic| first | (intro i; omega) | (intro i; simp only [not_and, not_or, Nat.not_lt, Nat.not_le]; omega) | (intros; omega))

/-- Where a slot's value comes from: split the cases, rewrite with `h`, look up the list. -/
macro "cel" h:term : tactic => `(tactic| (
  (repeat' split) <;> first
  | omega
  | ((try rw [$h _ (by omega)])
     simp only [List.getElem?_append, List.getElem?_take, List.getElem?_drop, List.getElem?_replicate, List.length_append,
       List.length_take, List.length_drop, List.length_replicate, List.getElem?_map, List.getElem?_singleton,
       List.length_cons, List.length_nil]
     (repeat' split) <;> first | rfl | omega | (congr 1; omega) | (congr 2; omega) )))

theorem clear_spec (h : DSt H N o al V tcap f xs) :
    wp (clear N) (fun _ o' => DSt H N o' al V tcap f []) (fun _ _ => False) o := by
  obtain ⟨t, m, rfl, rfl, hg, hF, hr, hl, hc⟩ := h.out
  unfold clear
  sd
  refine hr.destroy hF (by omega) hl (fun i h1 h2 => ⟨h1, h2⟩) ?_
  intro s1 r1 m1
  exact hg.state r1 (by iv) (by omega) rfl (by iv)

theorem destructor_spec (h : DSt H N o al V tcap f xs) :
    wp (destructor N) (fun _ o' => Bare H o'.m ∧ o'.obj.alloc = al) (fun _ _ => False) o := by
  obtain ⟨t, m, rfl, rfl, hg, hF, hr, hl, hc⟩ := h.out
  unfold destructor
  sd
  refine hr.destroy hF (by omega) hl (fun i h1 h2 => ⟨h1, h2⟩) ?_
  intro s1 r1 m1
  have h1 : DSt H V.N ⟨V.sdev t tcap al f f, s1⟩ al V tcap f [] := hg.state r1 (by iv) (by omega) rfl (by iv)
  refine wp_mono (deallocateStorage_last h1 (V.it (f + xs.length))) ?_ (fun _ _ k => k)
  rintro _ o2 ⟨k1, k2, k3⟩
  exact ⟨k2, by rw [k1]; rfl⟩

theorem popFront_spec (h : DSt H N o al V tcap f xs) (hx : xs ≠ []) :
    wp (popFront N) (fun _ o' => DSt H N o' al V tcap (f + 1) xs.tail) (fun _ _ => False) o := by
  have hxl : 0 < xs.length := List.length_pos_iff.mpr hx
  obtain ⟨t, m, rfl, rfl, hg, hF, hr, hl, hc⟩ := h.out
  unfold popFront empty
  rw [wp_bind, wp_getObj, wp_bind, wp_assert]
  sd
  rw [hF.eq (by omega) (by omega)]
  refine ⟨by simp; omega, ?_⟩
  refine hr.destroyAt ⟨by omega, by omega⟩ ?_
  intro s1 r1 m1
  rw [wp_run (hF.inc (by omega) _)]
  refine hg.state r1 (by iv) (by omega) (by simp; omega) ?_
  intro i h1 h2
  rw [m1, if_neg (by omega), hc i (by omega), List.getElem?_tail]
  congr 1; omega

theorem popBack_spec (h : DSt H N o al V tcap f xs) (hx : xs ≠ []) :
    wp (popBack N) (fun _ o' => DSt H N o' al V tcap f xs.dropLast) (fun _ _ => False) o := by
  have hxl : 0 < xs.length := List.length_pos_iff.mpr hx
  obtain ⟨t, m, rfl, rfl, hg, hF, hr, hl, hc⟩ := h.out
  unfold popBack empty
  rw [wp_bind, wp_getObj, wp_bind, wp_assert]
  sd
  rw [hF.eq (by omega) (by omega)]
  refine ⟨by simp; omega, ?_⟩
  obtain ⟨n, hn⟩ : ∃ n, f + xs.length = n + 1 := ⟨f + xs.length - 1, by omega⟩
  rw [hn] at hr hl ⊢
  rw [wp_run (hF.dec (by omega) _)]
  refine hr.destroyAt ⟨by omega, by omega⟩ ?_
  intro s1 r1 m1
  refine hg.state r1 (by iv) (by omega) (by simp; omega) ?_
  intro i h1 h2
  rw [m1, if_neg (by omega), hc i (by omega), List.getElem?_dropLast, if_pos (by omega)]

theorem eraseAt_spec {k : Nat} (h : DSt H N o al V tcap f xs) (hk : k < xs.length) :
    wp (eraseAt E N (V.it (f + k)))
      (fun r o' => ∃ f', DSt H N o' al V tcap f' (xs.take k ++ xs.drop (k + 1)) ∧ r = V.it (f' + k))
      (fun e o' => e = .elem ∧ ¬ NothrowMove E ∧ Lost H N al V tcap f xs.length o') o := by
  have hlen : (xs.take k ++ xs.drop (k + 1)).length = xs.length - 1 := by simp; omega
  obtain ⟨t, m, rfl, rfl, hg, hF, hr, hl, hc⟩ := h.out
  unfold eraseAt
  rw [wp_bind, wp_getObj, wp_bind, wp_assert]
  sd
  rw [hF.ltI (by omega) (by omega), hF.ltI (by omega) (by omega)]
  refine ⟨by simp; omega, ?_⟩
  rw [wp_run (hF.dist (by omega) (by omega) _), wp_run (hF.dist (by omega) (by omega) _),
    wp_run (hF.adv (q := f + k) (by omega) (by omega) (by omega) _), wp_run (hF.inc (by omega) _), wp_ite]
  split
  · sd
    refine hr.moveBackward hF (by omega) (by omega) (by omega) (by omega) (by iv) (by iv) (by omega) ?_ ?_
    · intro s1 r1 m1
      refine r1.destroyAt (by omega) ?_
      intro s2 r2 m2
      refine ⟨f + 1, ?_, by congr 1; omega⟩
      rw [show f + k + 1 - (f + k - f) = f + 1 by omega] at m1 ⊢
      refine hg.state r2 (by iv) (by omega) (by omega) ?_
      intro i h1 h2
      rw [m2, if_neg (by omega), m1]
      cel hc
    · intro ht _ s1 r1
      exact ⟨rfl, fun hn => (by rw [hn.2] at ht; cases ht), hg.lost r1 hl (by iv)⟩
  · sd
    refine hr.moveFwd hF (by omega) (by omega) (by iv) (by omega) (by iv) (by omega) ?_ ?_
    · intro s1 r1 m1
      refine r1.destroyAt (by omega) ?_
      intro s2 r2 m2
      refine ⟨f, hg.state r2 (by iv) (by omega) (by omega) ?_, rfl⟩
      intro i h1 h2
      rw [m2, if_neg (by omega), m1]
      cel hc
    · intro ht _ s1 r1
      exact ⟨rfl, fun hn => (by rw [hn.2] at ht; cases ht), hg.lost r1 hl (by iv)⟩

theorem eraseRange_spec {k l : Nat} (h : DSt H N o al V tcap f xs) (hk : k ≤ l) (hlx : l ≤ xs.length) :
    wp (eraseRange E N (V.it (f + k)) (V.it (f + l)))
      (fun r o' => ∃ f', DSt H N o' al V tcap f' (xs.take k ++ xs.drop l) ∧ r = V.it (f' + k))
      (fun e o' => e = .elem ∧ ¬ NothrowMove E ∧ k < l ∧ l < xs.length ∧ Lost H N al V tcap f xs.length o') o := by
  have hlen : (xs.take k ++ xs.drop l).length = xs.length - (l - k) := by simp; omega
  obtain ⟨t, m, rfl, rfl, hg, hF, hr, hl, hc⟩ := h.out
  unfold eraseRange
  rw [wp_bind, wp_getObj, wp_bind, wp_assert]
  sd
  rw [hF.ltI (by omega) (by omega), hF.ltI (by omega) (by omega), hF.ltI (by omega) (by omega)]
  refine ⟨by simp; omega, ?_⟩
  rw [wp_run (hF.dist (by omega) (by omega) _), 
    wp_run (hF.adv (q := f + k) (by omega) (by omega) (by omega) _), wp_ite, hF.eq (by omega) (by omega)]
  split
  · rename_i he
    obtain rfl : k = l := by simp at he; omega
    rw [wp_pure]
    exact ⟨f, by simpa using h, rfl⟩
  rename_i he
  have hkl : k < l := by simp at he; omega
  sd
  rw [wp_run (hF.dist (by omega) (by omega) _), wp_run (hF.dist (by omega) (by omega) _),
    wp_run (hF.adv (q := f + l) (by omega) (by omega) (by omega) _), wp_ite]
  split
  · sd
    refine hr.moveBackward hF (by omega) (by omega) (by omega) (by omega) (by iv) (by iv) (by omega) ?_ ?_
    · intro s1 r1 m1
      rw [show f + l - (f + k - f) = f + (l - k) by omega] at m1 ⊢
      refine r1.destroy hF (by omega) (by omega) (by iv) ?_
      intro s2 r2 m2
      refine ⟨f + (l - k), ?_, by congr 1; omega⟩
      refine hg.state r2 (by iv) (by omega) (by omega) ?_
      intro i h1 h2
      rw [m2, if_neg (by omega), m1]
      cel hc
    · intro ht _ s1 r1
      exact ⟨rfl, fun hn => (by rw [hn.2] at ht; cases ht), hkl, by omega, hg.lost r1 hl (by iv)⟩
  · sd
    refine hr.moveFwd hF (by omega) (by omega) (by iv) (by omega) (by iv) (by omega) ?_ ?_
    · intro s1 r1 m1
      refine r1.destroy hF (by omega) (by omega) (by iv) ?_
      intro s2 r2 m2
      refine ⟨f, hg.state r2 (by iv) (by omega) (by omega) ?_, rfl⟩
      intro i h1 h2
      rw [m2, if_neg (by omega), m1]
      cel hc
    · intro ht hlt s1 r1
      exact ⟨rfl, fun hn => (by rw [hn.2] at ht; cases ht), hkl, by omega, hg.lost r1 hl (by iv)⟩

/-- `std::remove_if` on a row of elements. -/
theorem Row.removeIf {b cap nx ib M : Nat} {s : St α} {g : α → Bool} {Q : Ptr → St α → Prop} {X : Exn → St α → Prop}
    (h : Row H s al b cap nx (fun i => f ≤ i ∧ i < f + xs.length) ib M) (hc : ∀ i, f ≤ i → s.mem b i = xs[i - f]?)
    (hQ : ∀ (s' : St α) (ys : List α), Row H s' al b cap nx (fun i => f ≤ i ∧ i < f + xs.length) ib M → ys.length = xs.length →
      (∀ i, f ≤ i → i < f + xs.length → s'.mem b i = ys[i - f]?) →
      ys.take (xs.filter (fun x => !g x)).length = xs.filter (fun x => !g x) →
      Q ⟨b, f + (xs.filter (fun x => !g x)).length⟩ s')
    (hX : E.nothrowMoveAssign = false → ∀ s', Row H s' al b cap nx (fun i => f ≤ i ∧ i < f + xs.length) ib M → X .elem s') :
    wp (Sfl.removeIf E g ⟨b, f⟩ ⟨b, f + xs.length⟩) Q X s := by
  have hcell : ∀ i, s.mem b (f + i) = xs[i]? := fun i => by rw [hc _ (by omega), Nat.add_sub_cancel_left]
  unfold Sfl.removeIf
  rw [wp_bind]
  refine wp_distance rfl (by simp) ?_
  rw [wp_bind, show (⟨b, f + xs.length⟩ : Ptr).off - (⟨b, f⟩ : Ptr).off = xs.length by simp]
  refine wp_findIf (ys := xs) (fun i hi => hcell i) ?_
  intro k hk h1 h2
  rw [wp_ite]
  have hadd : (⟨b, f⟩ : Ptr).add k = ⟨b, f + k⟩ := rfl
  rw [hadd]
  by_cases hke : k = xs.length
  · subst hke
    rw [if_pos rfl, wp_pure]
    have hall : xs.filter (fun x => !g x) = xs := by
      rw [List.filter_eq_self]
      intro x hx
      rw [List.take_length] at h1
      simp [h1 x hx]
    have := hQ s xs h rfl (fun i h1 _ => hc i h1) (by rw [hall]; simp)
    rw [hall] at this
    exact this
  · rw [if_neg (by simpa using hke), wp_bind]
    have hklt : k < xs.length := by omega
    have hfx : g xs[k] = true := h2 _ (by simp [hklt])
    have hsplit : xs.filter (fun x => !g x) = xs.take k ++ (xs.drop (k + 1)).filter (fun x => !g x) := by
      conv => lhs; rw [← List.take_append_drop k xs, List.drop_eq_getElem_cons hklt]
      rw [List.filter_append, List.filter_cons]
      simp only [hfx, Bool.not_true, Bool.false_eq_true, if_false]
      congr 1
      rw [List.filter_eq_self]
      intro x hx
      simp [h1 x hx]
    refine wp_distance (by rfl) (by simp [Ptr.add]; omega) ?_
    have hn : (⟨b, f + xs.length⟩ : Ptr).off - ((⟨b, f + k⟩ : Ptr).add 1).off = (xs.drop (k + 1)).length := by
      simp [Ptr.add]; omega
    rw [hn]
    have hdl : (xs.drop (k + 1)).length = xs.length - (k + 1) := by simp
    have hfl : ((xs.drop (k + 1)).filter (fun x => !g x)).length ≤ (xs.drop (k + 1)).length := List.length_filter_le _ _
    have hrow : ∀ s', Within s s' b (f + k) (f + k + 1 + (xs.drop (k + 1)).length) →
        Row H s' al b cap nx (fun i => f ≤ i ∧ i < f + xs.length) ib M := by
      intro s' g2
      refine h.upd g2.same ?_ h.beyond (fun c hc i => g2.rest c i (fun e => absurd e hc))
      intro i
      by_cases hi : f + k ≤ i ∧ i < f + xs.length
      · have := g2.live i hi.1 (by omega)
        simp only [this, true_iff]; omega
      · rw [g2.rest b i (fun _ _ => by omega)]; exact h.live i
    refine wp_removeGo (by rfl) (by simp [Ptr.add]) ?_ ?_ ?_ ?_
    · intro i hi
      simp only [Ptr.add_blk, Ptr.add_off]
      rw [show f + k + 1 + i = f + (k + 1 + i) by omega, hcell, List.getElem?_drop]
    · intro i h3 h4
      simp only [Ptr.add_off, Ptr.add_blk] at h3 h4 ⊢
      rw [h.live]; omega
    · intro s' g2 g1
      simp only [Ptr.add_blk] at g1
      simp only [Ptr.add_blk, Ptr.add_off] at g2
      have hr' := hrow s' g2
      obtain ⟨ys, k2, k3⟩ : ∃ ys : List α, ys.length = xs.length ∧ ∀ i, i < xs.length → s'.mem b (f + i) = ys[i]? :=
        exists_list fun i hi => Option.isSome_iff_exists.mp ((hr'.live _).mpr (by omega))
      have := hQ s' ys hr' k2 (fun i h1 h2 => by
        have := k3 (i - f) (by omega)
        rwa [show f + (i - f) = i by omega] at this) ?_
      · rw [hsplit] at this
        simp only [List.length_append, List.length_take, Nat.min_eq_left (Nat.le_of_lt hklt)] at this
        simp only [Ptr.add]
        rw [Nat.add_assoc]
        exact this
      · rw [hsplit]
        refine List.ext_getElem? fun i => ?_
        rw [List.getElem?_take]
        simp only [List.length_append, List.length_take, Nat.min_eq_left (Nat.le_of_lt hklt)]
        by_cases hi : i < k + ((xs.drop (k + 1)).filter (fun x => !g x)).length
        · rw [if_pos hi, ← k3 i (by omega), List.getElem?_append]
          simp only [List.length_take, Nat.min_eq_left (Nat.le_of_lt hklt)]
          by_cases hik : i < k
          · rw [if_pos hik]
            rw [g2.rest b (f + i) (fun _ _ => by omega), hcell, List.getElem?_take, if_pos hik]
          · rw [if_neg hik]
            have := g1 (i - k) (by omega)
            rw [show f + k + (i - k) = f + i by omega] at this
            exact this
        · rw [if_neg hi, List.getElem?_eq_none]
          simp only [List.length_append, List.length_take]; omega
    · intro hE s' g2
      simp only [Ptr.add_blk, Ptr.add_off] at g2
      exact hX hE s' (hrow s' g2)

theorem eraseIf_spec {g : α → Bool} (h : DSt H N o al V tcap f xs) :
    wp (eraseIf E N g)
      (fun r o' => ∃ f', DSt H N o' al V tcap f' (xs.filter (fun x => !g x)) ∧
        r = xs.length - (xs.filter (fun x => !g x)).length)
      (fun e o' => e = .elem ∧ ¬ NothrowMove E ∧ Lost H N al V tcap f xs.length o')
      o := by
  have hfl : (xs.filter (fun x => !g x)).length ≤ xs.length := List.length_filter_le _ _
  obtain ⟨t, m, rfl, rfl, hg, hF, hr, hl, hc⟩ := h.out
  unfold eraseIf
  sd
  refine Sim.wp (SegVec.sim_removeIf' (lim := E.maxSize) hF hl (by omega)) hr.lay (Row.removeIf hr.row hc ?_ ?_)
  · rintro s'' ys hrow k2 k3 k4 b s' ⟨j, hj, rfl, hp⟩ rfl hlay
    obtain rfl : f + (xs.filter (fun x => !g x)).length = j := by simpa using hp
    have h1 : DSt H V.N ⟨V.sdev t tcap al f (f + xs.length), s'⟩ al V tcap f ys :=
      hg.state (.of hlay hrow) (by iv) hl (by omega) k3
    rw [wp_run (hF.dist (by omega) (by omega) _)]
    have h2 := eraseRange_spec (E := E) (k := (xs.filter (fun x => !g x)).length) (l := ys.length) h1 (by omega) (by omega)
    rw [k2] at h2
    refine wp_mono h2 ?_ ?_
    · rintro p o2 ⟨f', k1, -⟩
      rw [k4, ← k2] at k1
      simp only [List.drop_length, List.append_nil] at k1
      exact ⟨f', k1, by omega⟩
    · rintro e o2 ⟨-, -, -, k3, -⟩
      omega
  · rintro ht s'' hrow s' rfl hlay
    have ht : E.nothrowMoveAssign = false := ht
    exact ⟨rfl, fun hn => (by rw [hn.2] at ht; cases ht), hg.lost (.of hlay hrow) hl (by iv)⟩

end Sfl.SegDev
