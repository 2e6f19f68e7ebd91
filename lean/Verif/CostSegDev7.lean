import Verif.CostSegDev6
import Verif.PropCalm
/-
  The cost of inserting a range of input iterators into a segmented_devector from below, and the state of a segmented_devector used
  as a queue. Proof machinery: no code is modelled in this file.
-/

set_option linter.unusedSimpArgs false
set_option linter.unusedSectionVars false

namespace Sfl.SegDev
open SegVec (Fit wp_run)
variable {α β γ : Type} {E : Env α} {N n : Nat} {H : Heap α} {o : Obj SDVec α} {al tcap f S W k : Nat} {V : View} {xs : List α} {a : Arg α}

theorem wp_calm {m : DM α β} {Q : β → Obj SDVec α → Prop} {X : Exn → Obj SDVec α → Prop} [Calm (fun _ => False) m] (h : wp m Q X o) :
    wp m Q (fun _ _ => False) o := by
  unfold wp at *
  cases e : m o with
  | ok b s => rw [e] at h; exact h
  | exn b s => exact (Calm.out (L := fun _ => False) _ _ _ e).elim
  | ub r => rw [e] at h; exact h

theorem wp_cost {m : M (St α) β} {Q : β → St α → Prop} {X : Exn → St α → Prop} {Q' : β → Nat → Prop} {X' : Nat → Prop} {s : St α}
    (h : wp m Q X s) (h' : cost m Q' X' s.tick) :
    wp m (fun b s' => Q b s' ∧ Q' b s'.tick) (fun e s' => X e s' ∧ X' s'.tick) s := by
  have h' := h' s rfl
  unfold wp at *
  cases e : m s with
  | ok b s => rw [e] at h h'; exact ⟨h, h'⟩
  | exn b s => rw [e] at h h'; exact ⟨h, h'⟩
  | ub r => rw [e] at h; exact h

/-- Moving elements to higher addresses, element by element. -/
theorem backSeg_exact {t : Table} {s : St α} {L : Nat → Prop} {x y z : Nat} (hF : Fit V t) (h : SRow V al tcap H s L)
    (hxy : x ≤ y) (hy : y ≤ V.size) (hz : y - x ≤ z) (hz' : z ≤ V.size) (hs : ∀ i, x ≤ i → i < y → L i)
    (hl : ∀ i, z - (y - x) ≤ i → i < z → L i) (hdir : y < z ∨ z ≤ x) :
    wp (Seg.backSeg E V.N t t .mv (V.it x) (V.it y) (V.it z)) (fun _ s' => SRow V al tcap H s' L ∧ s'.tick = s.tick + (y - x))
      (fun _ _ => True) s := by
  refine Sim.wp (hF.moveBackward (lim := E.maxSize) hxy hy hz' hz) h.lay ?_
  refine wp_mono (wp_cost (h.row.moveBackward (Q := fun _ s'' => ∀ s', s'' = V.view s' → V.Lay al tcap s' → SRow V al tcap H s' L)
    (X := fun _ _ => True) hxy hz hs hl hdir (fun s'' hr _ s' he hl => .of hl (he ▸ hr)) fun _ _ _ => trivial) (cost.moveBackward (Q := fun _ t' => t' = s.tick + (y - x)) (X := fun _ => True) (fun _ _ _ _ _ => rfl)
    fun _ _ _ => trivial)) ?_ ?_
  · rintro _ s'' ⟨hr, ht⟩ b s' - rfl hl
    exact ⟨hr s' rfl hl, ht⟩
  · intros; trivial

/-- The back half of `emplace` moves every element behind the place. -/
theorem emplaceBackHalf_low {v : α} (h : DSt H N o al V tcap f xs) (hv : a.value o.m = some v) (hsrc : a.src E = none)
    (hf : f + xs.length < V.size) (hk : k < xs.length) :
    wp (emplaceBackHalf E N (V.it (f + k)) a) (fun _ o' => o.m.tick + (xs.length - k) ≤ o'.m.tick) (fun _ _ => True) o := by
  obtain ⟨t, m, rfl, rfl, hg, hF, hr, hl, hc⟩ := h.out
  unfold emplaceBackHalf
  sd
  refine wp_cases (fun hk0 => ?_) (fun hk0 => ?_) <;> rw [hF.eq (by omega) (by omega)] at hk0
  · simp at hk0; omega
  · obtain ⟨g, hgl⟩ : ∃ g, f + xs.length = g + 1 := ⟨f + xs.length - 1, by omega⟩
    sd
    rw [hgl, wp_run (hF.dec (by omega) _)]
    refine mkTmp_copy hv hsrc ?_ fun _ _ _ => trivial
    intro s0 hs0 ht0 hm0
    have r0 := hr.fresh hs0 hm0
    refine wp_mono (wp_cost (r0.constructMove (E := E) (d := g + 1) (x := g)
      (Q := fun _ s1 => SRow V al tcap H s1 (fun i => (f ≤ i ∧ i < f + xs.length) ∨ i = g + 1)) (X := fun _ _ => True)
      (by omega) (by omega) (by omega) (fun s1 r1 _ => r1) fun _ _ _ => trivial)
      (cost.construct (Q := fun _ t' => t' = s0.tick + 1) (X := fun _ => True) rfl trivial)) ?_ fun _ _ _ => trivial
    rintro _ s1 ⟨r1, ht1⟩
    rw [wp_run (hF.inc (by omega) _)]
    refine wp_mono (backSeg_exact (E := E) hF r1 (by omega) (by omega) (by omega) (by omega) (by iv) (by iv) (by omega)) ?_ fun _ _ _ => trivial
    rintro _ s2 ⟨r2, ht2⟩
    refine wp_mono (wp_cost (r2.assign (E := E) (a := .rv v) (v := v) (Q := fun _ _ => True) (X := fun _ _ => True) rfl rfl (by omega)
      (fun _ _ _ => trivial) fun _ _ _ => trivial)
      (cost.assign (Q := fun _ t' => t' = s2.tick + 1) (X := fun _ => True) rfl trivial)) ?_ fun _ _ _ => trivial
    rintro _ s3 ⟨-, ht3⟩
    have ht0 : s0.tick = m.tick + 1 := ht0
    have ht2 : s2.tick = s1.tick + (g - (f + k)) := ht2
    show m.tick + (xs.length - k) ≤ s3.tick
    omega

/-- `emplace` in the back half if there is room. -/
theorem emplace_low [Silent E] {v : α} (h : DSt H N o al V tcap f xs) (hv : a.value o.m = some v) (hsrc : a.src E = none)
    (hf : f + xs.length < V.size) (hk : k < xs.length) (hb : xs.length - k ≤ k) :
    wp (emplace E N (V.it (f + k)) a) (fun p o' => (DSt H N o' al V tcap f (xs.take k ++ [v] ++ xs.drop k) ∧ p = V.it (f + k)) ∧
      o.m.tick + (xs.length - k) ≤ o'.m.tick) (fun _ _ => False) o := by
  have hlen := h.len
  have hin := h.inRange (k := k) (by omega)
  have hF := h.fit
  have hs := h.sits
  have hN := h.num
  subst hN
  unfold emplace
  rw [wp_bind, wp_getObj, wp_bind, wp_assert]
  refine ⟨hin, ?_⟩
  rw [h.last_eos, hs.first, hs.last]
  rw [wp_bind, wp_run (hF.dist (by omega) (by omega) _), Nat.add_sub_cancel_left, wp_bind,
    wp_run (hF.adv (q := f + k) (by omega) (by omega) (by omega) _), wp_bind, wp_run (hF.dist (by omega) (by omega) _),
    if_neg (by omega), if_neg (by simp; omega)]
  exact wp_calm (wp_and (emplaceBackHalf_spec h hv hsrc hf (by omega)) (emplaceBackHalf_low h hv hsrc hf hk))

theorem insertRangeLoop_low [Silent E] {ys : List α} (h : DSt H N o al V tcap f xs) (hk : k < xs.length) (hb : xs.length - k ≤ k)
    (hr : f + xs.length + ys.length ≤ V.size) :
    wp (insertRangeLoop E N (ys.map .val) (V.it (f + k)))
      (fun _ o' => DSt H N o' al V tcap f (xs.take k ++ ys ++ xs.drop k) ∧ o.m.tick + ys.length * (xs.length - k) ≤ o'.m.tick)
      (fun _ _ => False) o := by
  induction ys generalizing o xs k with
  | nil =>
    rw [List.map_nil, insertRangeLoop, wp_pure]
    exact ⟨by simpa using h, by simp⟩
  | cons y ys ih =>
    simp only [List.length_cons] at hr
    rw [List.map_cons, insertRangeLoop, wp_bind]
    refine wp_mono (emplace_low h (a := .val y) (v := y) rfl rfl (by omega) hk hb) ?_ fun _ _ h => h
    rintro p o1 ⟨⟨h1, rfl⟩, ht⟩
    have hlen : (xs.take k ++ [y] ++ xs.drop k).length = xs.length + 1 := by simp; omega
    have h1l := h1.len
    have hN := h1.num
    have hF := h1.fit
    rw [wp_bind, wp_getObj, wp_bind, ← hN, wp_run (hF.inc (by omega) _), Nat.add_assoc, hN]
    refine wp_mono (ih h1 (k := k + 1) (by omega) (by omega) (by omega)) ?_ fun _ _ h => h
    rintro _ o2 ⟨h2, ht2⟩
    refine ⟨?_, ?_⟩
    · have e : (xs.take k ++ [y] ++ xs.drop k).take (k + 1) ++ ys ++ (xs.take k ++ [y] ++ xs.drop k).drop (k + 1) =
          xs.take k ++ y :: ys ++ xs.drop k := by
        have hl : (xs.take k ++ [y]).length = k + 1 := by simp; omega
        rw [List.take_left' hl, List.drop_left' hl]; simp
      rwa [e] at h2
    · rw [hlen, show xs.length + 1 - (k + 1) = xs.length - k by omega] at ht2
      rw [List.length_cons, Nat.succ_mul]
      omega

/-- One round of push_back and pop_front moves the empty range of elements one slot to the back. -/
theorem round_spec [Silent E] {ra : Dq.Op α → Bool} {x : α} (h : DSt H N o al V tcap f []) (hm : f + 1 ≤ E.maxSize) :
    ∃ r o1 o2 V' tcap' ys, exec E N ra (.pushBack (.value x)) o = .ok r o1 ∧ DSt H N o1 al V' tcap' f ys ∧ ys.length = 1 ∧
      exec E N ra .popFront o1 = .ok none o2 ∧ DSt H N o2 al V' tcap' (f + 1) [] := by
  have : Allows (fun e => e = .lengthError) .lengthError := ⟨rfl⟩
  have hw : wp (exec E N ra (.pushBack (.value x))) (fun _ o' => ∃ V' tcap', DSt H N o' al V' tcap' f [x])
      (fun e _ => e = .lengthError → E.maxSize < f + 1) o := by
    simp only [exec, wp_bind]
    refine wp_argOf (E := E) h rfl fun a v hg hv hsrc => ?_
    cases hg
    refine wp_mono (emplaceBack_spec h hv hsrc) ?_ fun e o1 h => h.2
    rintro p o1 ⟨V', tcap', k1, rfl, -⟩
    exact wp_indexOf (k := 0) k1 (by simp) ⟨V', tcap', k1⟩
  cases hx : exec E N ra (.pushBack (.value x)) o with
  | ub u => exact (wp_not_ub hw hx).elim
  | exn e o' =>
    have := wp_exn hx hw (Calm.out (L := fun e => e = .lengthError) _ _ _ hx)
    omega
  | ok r o1 =>
    obtain ⟨V', tcap', k1⟩ := wp_ok hx hw
    have hp := popFront_spec k1 (by simp)
    obtain ⟨_, o2, e, k2⟩ := wp_elim hp
    exact ⟨r, o1, o2, V', tcap', _, rfl, k1, rfl, by show (popFront N >>= fun _ => pure none) o1 = _; rw [bind_run e]; rfl, k2⟩

end Sfl.SegDev
