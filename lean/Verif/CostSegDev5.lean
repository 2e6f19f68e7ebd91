import Verif.CostSegDev4
/-
  What resizing, assigning and the other modifiers of segmented_devector cost. Proof machinery: no code is modelled in this file.
-/

set_option linter.unusedSimpArgs false
set_option linter.unusedSectionVars false

namespace Sfl.SegDev
open SegVec (Fit)
variable {α β γ : Type} {E : Env α} {N n : Nat} {H : Heap α} {o : Obj SDVec α} {al tcap f S W k : Nat} {V : View} {xs : List α} {a : Arg α}

theorem TailBack.keep {m : DM α γ} {f : γ → DM α β} {k k' : Nat} {v : SDVec} (h : Keep m k v) (h' : ∀ b, TailBack (f b) k' v) :
    TailBack (m >>= f) (k + k') v :=
  fun t => .bind ((h t).mono (fun b v' t' ⟨hv, ht⟩ => by
    subst hv
    exact (h' b t').mono (fun _ _ _ h => ⟨h.1, by omega⟩) fun _ _ h => ⟨h.1, by omega⟩)
    fun v' _ h => ⟨h.1 ▸ ⟨v'.last, by cases v'; rfl⟩, by omega⟩)

theorem bind_done {m : DM α β} : (m >>= fun b => pure b) = m := by
  funext o
  rw [bind_apply]
  cases m o <;> rfl

section
variable (h : DSt H N o al V tcap f xs)
include h

/-- Growing at the back by what is missing. -/
theorem Ends.growLack {g : Unit → DM α β} {w L : Nat} (hL : 0 < L)
    (hf : ∀ o1 V1 tcap1, DSt H N o1 al V1 tcap1 f xs → V.size + L ≤ V1.size → Ends (g ()) (nseg o1.obj) (o1.m.tick + w) o1) :
    Ends (growStorageBack E N L >>= g) (nseg o.obj + segs N L) (o.m.tick + allocs N L + w) o := by
  have := segs_le (N := N) hL
  have := allocs_le (N := N) hL
  have h9 : 0 ≤ L / N := Nat.zero_le _
  exact .growBack h (fun o1 V1 tcap1 h1 h2 h3 _ h5 => (hf o1 V1 tcap1 h1 h2).mono (by omega) (by omega)) (by omega) (by omega)

theorem resizeWith_ends {m : Nat} : Ends (resizeWith E N m a)
    (nseg o.obj + segs N (m - (f + xs.length + (V.size - (f + xs.length)))))
    (o.m.tick + allocs N (m - (f + xs.length + (V.size - (f + xs.length)))) + (m - xs.length)) o := by
  have hl := h.len
  have hN := h.num
  have hs := h.sits
  subst hN
  refine .run h.size_run (.ite (fun h1 => .tailTo cutBack_tail (by omega) (by omega)) fun h1 => ?_)
  refine .run h.availableBack_run (.ite (fun h2 => .tailTo fillBack_tail.tail (by omega) (by omega)) fun h2 => ?_)
  refine .run h.availableFront_run (.ite (fun h3 => ?_) fun h3 => ?_)
  · exact .tailTo (k := (V.size - (f + xs.length)) + (m - (xs.length + (V.size - (f + xs.length)))))
      ((fillEos_tail hs).then fun _ l => fillFront_tail hs (by omega)) (by omega) (by omega)
  · refine .growLack h (by omega) fun o1 V1 tcap1 g1 g2 => ?_
    have hx : Tail (fillBack E V.N (m - (xs.length + f)) a >>= fun _ => fillBos E V.N a) _ o1.obj :=
      fillBack_tail.then fun _ l => by have := fillBos_tail (E := E) (a := a) g1.sits (l' := l); rw [g1.num] at this; exact this
    exact .tailTo hx (by omega) (by omega)

theorem resizeFrontWith_ends {m : Nat} : Ends (resizeFrontWith E N m a)
    (nseg o.obj + segs N (m - (xs.length + f))) (o.m.tick + allocs N (m - (xs.length + f)) + (m - xs.length)) o := by
  have hl := h.len
  have hN := h.num
  subst hN
  refine .run h.size_run (.ite (fun h1 => .tailTo cutFront_tail (by omega) (by omega)) fun h1 => .run h.availableFront_run ?_)
  refine .needFront h (fun hc => by omega) (fun hc => by omega) fun o1 V1 tcap1 f1 g1 g2 _ => ?_
  have hx := fillFront_tail (E := E) (a := a) g1.sits (n := m - xs.length) (l' := o1.obj.last) (by omega)
  rw [g1.num] at hx
  exact .tail hx

theorem resizeBackWith_ends {m : Nat} : Ends (resizeBackWith E N m a)
    (nseg o.obj + segs N (m - (xs.length + (V.size - (f + xs.length)))))
    (o.m.tick + allocs N (m - (xs.length + (V.size - (f + xs.length)))) + (m - xs.length)) o := by
  have hl := h.len
  refine .run h.size_run (.ite (fun h1 => .tailTo cutBack_tail (by omega) (by omega)) fun h1 => .run h.availableBack_run ?_)
  exact .needBack h (fun hc => by omega) (fun hc => by omega) fun o1 V1 tcap1 g1 g2 _ => .tail fillBack_tail.tail

theorem reserveFront_ends {m : Nat} : Ends (reserveFront E N m)
    (nseg o.obj + segs N (m - (xs.length + f))) (o.m.tick + allocs N (m - (xs.length + f)) + 0) o := by
  refine .run h.size_run (.run h.availableFront_run ?_)
  have := Ends.needFront (E := E) (g := fun u => (pure u : DM α Unit)) (w := 0) (c := m > xs.length + f) (n := m - (xs.length + f))
    (L := m - (xs.length + f)) h (fun hc => by omega) (fun hc => by omega) fun o1 V1 tcap1 f1 g1 g2 _ => .pure (Nat.le_refl _) (Nat.le_refl _)
  rw [bind_done] at this
  exact this

theorem reserveBack_ends {m : Nat} : Ends (reserveBack E N m)
    (nseg o.obj + segs N (m - (xs.length + (V.size - (f + xs.length)))))
    (o.m.tick + allocs N (m - (xs.length + (V.size - (f + xs.length)))) + 0) o := by
  refine .run h.size_run (.run h.availableBack_run ?_)
  have := Ends.needBack (E := E) (g := fun u => (pure u : DM α Unit)) (w := 0) (c := m > xs.length + (V.size - (f + xs.length)))
    (n := m - (xs.length + (V.size - (f + xs.length))))
    (L := m - (xs.length + (V.size - (f + xs.length)))) h (fun hc => by omega) (fun hc => by omega)
    fun o1 V1 tcap1 g1 g2 _ => .pure (Nat.le_refl _) (Nat.le_refl _)
  rw [bind_done] at this
  exact this

theorem assignFillN_ends {m : Nat} : Ends (assignFillN E N m a)
    (nseg o.obj + segs N (m - (f + xs.length + (V.size - (f + xs.length)))))
    (o.m.tick + allocs N (m - (f + xs.length + (V.size - (f + xs.length)))) + m) o := by
  have hl := h.len
  have hN := h.num
  have hs := h.sits
  have hF := h.fit
  subst hN
  refine .run h.size_run (.ite (fun h1 => .tailTo (k := m) ?_ (by omega) (by omega)) fun h1 => ?_)
  · refine .get ?_
    rw [hs.first]
    refine .run (fun o => hF.adv (p := f) (q := f + m) (by omega) (by omega) (by omega) o) ?_
    have e := Seg.fill_pays (E := E) (a := a) hF (x := f) (y := f + m) (by omega) (by omega)
    rw [Nat.add_sub_cancel_left] at e
    refine (Tail.pays (k' := 0) e fun _ => ?_).mono (by omega)
    exact .pays (k := 0) (k' := 0) Seg.destroy_pays fun _ => .setEnd ⟨_, _, rfl⟩
  refine .run h.availableBack_run (.ite (fun h2 => ?_) fun h2 => ?_)
  · exact .tailTo ((fillAll_tail hs).then fun _ => fillBack_tail.tail) (by omega) (by omega)
  refine .run h.availableFront_run (.ite (fun h3 => ?_) fun h3 => ?_)
  · exact .tailTo ((fillAll_tail hs).then fun _ => (fillEos_tail hs).then fun _ l =>
      fillFront_tail hs (n := m - (xs.length + (V.size - (f + xs.length)))) (by omega)) (by omega) (by omega)
  · refine .growLack h (by omega) fun o1 V1 tcap1 g1 g2 => ?_
    have h1 := g1.num
    have hx : Tail (fillAll E V1.N a >>= fun _ => fillBack E V1.N (m - (xs.length + f)) a >>= fun _ => fillBos E V1.N a) _ o1.obj :=
      (fillAll_tail g1.sits).then fun _ => fillBack_tail.then fun _ l => fillBos_tail g1.sits
    rw [h1] at hx
    exact .tailTo hx (by omega) (by omega)

theorem assignRange_ends {ra : Bool} {as : List (Arg α)} : Ends (assignRange E N (.list ra as))
    (nseg o.obj + segs N (as.length - (f + xs.length + (V.size - (f + xs.length)))))
    (o.m.tick + allocs N (as.length - (f + xs.length + (V.size - (f + xs.length)))) + as.length) o := by
  have hl := h.len
  have hs := h.sits
  refine .run (b := as.length) rfl (.run h.size_run (.ite (fun h1 => .tailTo (k := as.length) ?_ (by omega) (by omega)) fun h1 => ?_))
  · exact .get (.pays (k' := 0) Seg.From.assignList_pays fun _ => .pays (k := 0) (k' := 0) Seg.destroy_pays fun _ => .setEnd ⟨_, _, rfl⟩)
  refine .run h.availableBack_run (.ite (fun h2 => ?_) fun h2 => ?_)
  · refine .run (b := (.list ra (as.take xs.length), .list ra (as.drop xs.length))) rfl ?_
    exact .tailTo (copyAll_tail.then fun _ => rangeBack_tail.tail) (by omega) (by simp only [List.length_take, List.length_drop]; omega)
  refine .run h.availableFront_run (.ite (fun h3 => ?_) fun h3 => ?_)
  · refine .run (b := (.list ra (as.take (as.length - (xs.length + (V.size - (f + xs.length))))),
      .list ra (as.drop (as.length - (xs.length + (V.size - (f + xs.length))))))) rfl ?_
    refine .run (b := (.list ra (List.take xs.length _), .list ra (List.drop xs.length _))) rfl ?_
    exact .tailTo (copyAll_tail.then fun _ => rangeBack_tail.then fun _ l => rangeFront_tail) (by omega)
      (by simp only [List.length_take, List.length_drop]; omega)
  · refine .growLack h (by omega) fun o1 V1 tcap1 g1 g2 => ?_
    refine .run (b := (.list ra (as.take f), .list ra (as.drop f))) rfl ?_
    refine .run (b := (.list ra (List.take xs.length _), .list ra (List.drop xs.length _))) rfl ?_
    exact .tailTo (copyAll_tail.then fun _ => rangeBack_tail.then fun _ l => rangeBos_tail) (by omega)
      (by simp only [List.length_take, List.length_drop]; omega)

end
end Sfl.SegDev
