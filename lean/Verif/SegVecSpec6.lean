import Verif.SegVecSpec5
/-
  Moving, assigning and swapping segmented vectors. Proof machinery: no code is modelled in this file.
-/

set_option linter.unusedSimpArgs false
set_option linter.unusedSectionVars false

namespace Sfl
open World
variable {α : Type}

namespace SegVec
variable {E : Env α} {N al al2 tcap tcap2 : Nat} {V V2 : View} {xs xs2 : List α} {o : Obj SVec α} {w : SVec}

theorem away_initWith {K lim : Nat} {as : List (Arg α)} {v : Vec} (h : ¬ V.foot v.first.blk) :
    SimO V al tcap Eq (StaticVector.initWith E K (as.map (Arg.map V.map))) (StaticVector.initWith (E.lim lim) K as)
      (fun _ _ => True) v v := by
  unfold StaticVector.initWith
  rw [List.length_map]
  refine SimO.check' fun hc => SimO.check hc (SimO.get (SimO.get' ?_))
  refine SimO.lift_bind rfl (away_uninitGo (lim := lim) h) ?_
  rintro b _ rfl
  exact SimO.setLast rfl

/-- Constructing the elements from those of another container, by moves. -/
theorem fillIn_move_spec {alg : Table → SIt → M (St α) SIt} (h : GSt N o al V tcap [])
    (h2 : GSt N ⟨w, o.m⟩ al2 V2 tcap2 xs2) (hd : ∀ c, V2.foot c → ¬ V.foot c)
    (hs : Sim V al tcap (alg o.obj.tab (V.it 0))
      (uninit (E.lim V.size) ⟨V.tb, 0⟩ ((List.range' 0 xs2.length).map (fun i => (Arg.mv (V2.addr i) : Arg α)))) (V.At xs2.length))
    (hn : xs2.length ≤ V.size) :
    wp (fillIn o.obj alg)
      (fun _ o' => GSt N o' al V tcap xs2 ∧ GSt N ⟨w, o'.m⟩ al2 V2 tcap2 (xs2.map E.moved) ∧
        Frame o.m (Both V.foot V2.foot) o'.m (Both V.foot V2.foot))
      (fun _ o' => GSt N o' al V tcap [] ∧ (∃ ys, GSt N ⟨w, o'.m⟩ al2 V2 tcap2 ys ∧ ys.length = xs2.length) ∧
        Frame o.m (Both V.foot V2.foot) o'.m (Both V.foot V2.foot)) o := by
  have hd' : ∀ c, V.foot c → ¬ V2.foot c := fun c h1 h2 => hd c h2 h1
  have hsim : SimO (α := α) V al tcap (V.SV o.obj.tab tcap al) (fillIn o.obj alg)
      (StaticVector.initWith (E.lim V.size) V.size ((List.range' 0 xs2.length).map (fun i => (Arg.mv (V2.addr i) : Arg α))))
      (fun _ _ => True) (V.svec o.obj.tab tcap al 0) (V.vec al 0) := by
    rw [h.obj]
    unfold StaticVector.initWith
    refine SimO.check' fun _ => SimO.get' ?_
    refine SimO.lift_bind (V.sv _ tcap al (by omega)) hs ?_
    rintro _ _ ⟨rfl, rfl⟩
    exact SimO.setLast (V.sv o.obj.tab tcap al hn)
  have hs2 := away_initWith (E := E.lim V.size) (lim := V.size) (V := V2) (al := al2) (tcap := tcap2) (K := V.size)
    (as := args .mv (⟨V2.tb, 0⟩ : Ptr) xs2.length) (v := V.vec al 0) (hd' _ (Or.inl rfl))
  rw [moved_map] at hs2
  refine wp_mono (GSt.run2 (E := E) (P := fun xs' => xs' = xs2) (X := fun _ xs' => xs' = []) h h2 hd hsim hs2 ?_) ?_ ?_
  · intro H hv hsrc
    have hg : Gone H al V.tb V.size (V2.view (V.view o.m)) := ⟨hv.st, hv.cells⟩
    have key := wp_eq (StaticVector.initWith_eq (E := E.lim V.size) (as := args .mv (⟨V2.tb, 0⟩ : Ptr) xs2.length) (ib := V.tb) (al := al)
      (V2.view (V.view o.m)) hv.nLe (by rw [args_length]; exact hn)) (initWith_move_spec hg hv.nLe hsrc)
    have hmx : max V.size xs2.length = V.size := by omega
    rw [hmx] at key
    unfold StaticVector.initWith at key ⊢
    simp only [wp_bind, wp_getObj, wp_lift, wp_setObj, wp_assert, args_length] at key ⊢
    refine ⟨hn, wp_mono (key.2) ?_ ?_⟩
    · rintro l s1 ⟨b', H', k1, k2⟩
      have := k2.obj
      simp only [SmallVector.empty, Vec.mk.injEq, Ptr.mk.injEq] at this
      obtain rfl : V.tb = b' := this.1.1
      exact ⟨xs2, H', ⟨k1.blk, k1.mem⟩, k2, rfl⟩
    · rintro e s1 ⟨H', k1, k2⟩
      exact ⟨[], H', k1, VSt.mk' rfl rfl rfl k2.st (Nat.zero_le _) k2.raw hv.capLe hv.nLe, rfl⟩
  · rintro _ o1 ⟨xs', g1, g2, g3, rfl⟩
    exact ⟨g1, g2, g3⟩
  · rintro e o1 ⟨xs', ys, g1, g2, hy, g3, rfl⟩
    exact ⟨g1, ⟨ys, g2, hy⟩, g3⟩

/-- `initialize_move`. -/
theorem initMove_spec (h2 : GSt N ⟨w, o.m⟩ al2 V2 tcap2 xs2) (hal : o.obj.alloc = al) :
    wp (initMove E N)
      (fun _ o' => ∃ V1 tcap1 V2' tcap2' ys, GSt N ⟨o'.obj.1, o'.m⟩ al V1 tcap1 xs2 ∧ GSt N ⟨o'.obj.2, o'.m⟩ al2 V2' tcap2' ys ∧
        (∀ c, V1.foot c → ¬ V2'.foot c) ∧ Frame o.m V2.foot o'.m (Both V1.foot V2'.foot) ∧
        (if al = al2 then ys = [] else ys = xs2.map E.moved))
      (fun _ o' => ∃ ys, GSt N ⟨o'.obj.2, o'.m⟩ al2 V2 tcap2 ys ∧ Frame o.m V2.foot o'.m V2.foot ∧ ys.length = xs2.length)
      ⟨(o.obj, w), o.m⟩ := by
  have e1 := h2.first_eq
  have e2 := h2.last_eq
  have e3 := h2.obj
  dsimp only at e1 e2 e3
  have hN : 0 < N := h2.num ▸ h2.lay.npos
  have hw2 : w.alloc = al2 := by rw [e3]; rfl
  have fno : ∀ {F : Foot}, Both noFoot F = F := by
    intro F; funext c; simp [Both, noFoot]
  unfold initMove
  rw [wp_bind, wp_getObj, wp_ite]
  simp only
  rw [hal, hw2]
  by_cases he : al = al2
  · rw [if_pos he, wp_bind, wp_onThis]
    refine wp_mono (allocateStorage_spec (o := o) hN h2.lay.wf hal) ?_ ?_
    · rintro _ o1 ⟨V1, tcap1, hg, -, -, hf⟩
      rw [wp_bind, wp_getObj, wp_setObj]
      obtain ⟨g2, hd⟩ := h2.keep hf (fun _ _ h => h)
      subst he
      refine ⟨V2, tcap2, V1, tcap1, [], g2, hg, hd, ?_, by rw [if_pos rfl]⟩
      have := hf.both (G := V2.foot)
      rw [fno] at this
      rwa [show Both V2.foot V1.foot = Both V1.foot V2.foot from by funext c; simp [Both, Or.comm]]
    · rintro e o1 ⟨hf, -⟩
      obtain ⟨g2, -⟩ := h2.keep hf (fun _ _ h => h)
      have := hf.both (G := V2.foot)
      rw [fno] at this
      exact ⟨xs2, g2, this, rfl⟩
  · rw [if_neg he, wp_bind, e1, e2, wp_run (h2.dist_run (Nat.zero_le _) h2.len _), wp_onThis]
    refine initUsing_spec (E := E) (N := N) (o := o) (al := al)
      (Q := fun o' => ∃ V1 tcap1 V2' tcap2' ys, GSt N ⟨o'.obj, o'.m⟩ al V1 tcap1 xs2 ∧ GSt N ⟨w, o'.m⟩ al2 V2' tcap2' ys ∧
        (∀ c, V1.foot c → ¬ V2'.foot c) ∧ Frame o.m V2.foot o'.m (Both V1.foot V2'.foot) ∧
        (if al = al2 then ys = [] else ys = xs2.map E.moved))
      (Y := fun _ o' => ∃ ys, GSt N ⟨w, o'.m⟩ al2 V2 tcap2 ys ∧ Frame o.m V2.foot o'.m V2.foot ∧ ys.length = xs2.length)
      (X := fun _ V1 o' => ∃ ys, GSt N ⟨w, o'.m⟩ al2 V2 tcap2 ys ∧ (∀ c, V2.foot c → ¬ V1.foot c) ∧
        Frame o.m V2.foot o'.m (Both V1.foot V2.foot) ∧ ys.length = xs2.length) hN h2.lay.wf hal ?_ ?_ ?_
    · intro o1 V tcap hg hsz hm hf
      obtain ⟨h3, hd⟩ := h2.keep hf (fun _ _ h => h)
      have hfrom := isFrom_seg (V := V) (mk := Arg.mv) h3 hd hg.num (fun q => rfl)
      have hsim := hfrom.uninit (E := E) (lim := V.size) (al := al) (tcap := tcap) hg.fit (r := 0) (by simpa using hsz)
      simp only [Seg.From.uninit, Nat.zero_add, e1, e2, hg.num, List.length_map, List.length_range'] at hsim
      have hfb := hf.both (G := V2.foot)
      rw [fno] at hfb
      refine wp_mono (fillIn_move_spec (E := E) hg h3 hd (by simpa using hsim) (by simpa using hsz)) ?_ ?_
      · rintro _ o2 ⟨g1, g2, g3⟩
        exact ⟨V, tcap, V2, tcap2, _, g1, g2, fun c h1 h2 => hd c h2 h1, hfb.trans g3, by rw [if_neg he]⟩
      · rintro _ o2 ⟨g1, ⟨ys, g2, hy⟩, g3⟩
        exact ⟨⟨tcap, g1⟩, ys, g2, hd, hfb.trans g3, hy⟩
    · rintro _ V1 o1 o2 ⟨ys, g1, g2, g3, g4⟩ hf _
      obtain ⟨g5, -⟩ := g1.keep hf g2
      have := hf.both (G := V2.foot)
      rw [fno] at this
      exact ⟨ys, g5, g3.trans this, g4⟩
    · intro _ o' hf _ _
      obtain ⟨g2, -⟩ := h2.keep hf (fun _ _ h => h)
      have := hf.both (G := V2.foot)
      rw [fno] at this
      exact ⟨xs2, g2, this, rfl⟩

/-- A moved-from temporary after its storage has been given up. -/
structure Given (v : SVec) : Prop where
  tfirst : v.tfirst = Ptr.null
  tlast : v.tlast = Ptr.null
  teos : v.teos = Ptr.null
  last : v.last = v.first

theorem giveUp_spec (E : Env α) (h : GSt N o al V tcap xs) :
    wp (giveUp N) (fun _ o' => Given o'.obj ∧ Frame o.m V.foot o'.m noFoot) (fun _ _ => False) o := by
  unfold giveUp
  rw [wp_bind]
  refine wp_mono (clear_spec E h) ?_ (fun _ _ h => h)
  rintro _ o1 ⟨V1, tcap1, xs1, g1, -, f1, rfl⟩
  rw [wp_bind]
  refine wp_mono (deallocateStorage_spec g1) ?_ (fun _ _ h => h)
  rintro _ o2 ⟨hob, f2, -, -⟩
  rw [wp_bind, wp_getObj, wp_setObj]
  refine ⟨⟨rfl, rfl, rfl, ?_⟩, f1.trans f2⟩
  simp only [hob]
  rw [g1.last_eq, g1.first_eq]
  rfl

theorem Given.destructor {v : SVec} {m : St α} (h : Given v) :
    wp (SegVec.destructor N) (fun _ o' => o'.m = m) (fun _ _ => False) ⟨v, m⟩ := by
  unfold SegVec.destructor deallocateStorage Seg.destroy Seg.forChunks Seg.deallocSegs destroyRange Seg.deallocTable
  simp only [wp_bind, wp_getObj, wp_lift, wp_onTab, h.last, h.tfirst, h.tlast, h.teos, if_pos]
  refine wp_distance rfl (by simp) ?_
  rw [Nat.sub_self]
  simp only [Sfl.destroyN, wp_pure]
  refine wp_distance rfl (by simp) ?_
  rw [Nat.sub_self]
  simp only [Seg.deallocSegsN, wp_pure]
  refine wp_distance rfl (by simp) ?_
  rw [Nat.sub_self]
  simp [deallocate, wp, setObj]

theorem both_no {F : Foot} : Both noFoot F = F := by
  funext c; simp [Both, noFoot]

theorem both_comm {F G : Foot} : Both F G = Both G F := by
  funext c; simp [Both, Or.comm]

/-- `assign_copy`. -/
theorem assignCopy_spec {T : Traits} (h : GSt N o al V tcap xs) (h2 : GSt N ⟨w, o.m⟩ al2 V2 tcap2 xs2)
    (hd : ∀ c, V2.foot c → ¬ V.foot c) :
    wp (assignCopy E N T w)
      (fun _ o' => ∃ V' tcap', GSt N o' (if T.pocca = true then al2 else al) V' tcap' xs2 ∧ Frame o.m V.foot o'.m V'.foot)
      (fun _ o' => (∃ V' tcap' xs', GSt N o' (if T.pocca = true then al2 else al) V' tcap' xs' ∧ Frame o.m V.foot o'.m V'.foot) ∨
        (GSt N o' al V tcap xs ∧ Frame o.m V.foot o'.m V.foot)) o := by
  have hN : 0 < N := h2.num ▸ h2.lay.npos
  have e3 := h2.obj
  dsimp only at e3
  have hw2 : w.alloc = al2 := by rw [e3]; rfl
  have hw1 : o.obj.alloc = al := by rw [h.obj]; rfl
  have main : ∀ {o1 : Obj SVec α} {al1 : Nat} {V1 : View} {tcap1 : Nat} {ys : List α}, GSt N o1 al1 V1 tcap1 ys →
      Frame o.m V.foot o1.m V1.foot →
      wp (assignRange E N (.seg w.tab .ref w.first w.last))
        (fun _ o' => ∃ V' tcap', GSt N o' al1 V' tcap' xs2 ∧ Frame o.m V.foot o'.m V'.foot)
        (fun _ o' => ∃ V' tcap' xs', GSt N o' al1 V' tcap' xs' ∧ Frame o.m V.foot o'.m V'.foot) o1 := by
    intro o1 al1 V1 tcap1 ys hg hf
    obtain ⟨g2, hd1⟩ := h2.keep hf hd
    refine wp_mono (assignRange_copy_spec hg g2 hd1) ?_ ?_
    · rintro _ o2 ⟨V', tcap', xs', k1, -, k2, rfl⟩
      exact ⟨V', tcap', k1, hf.trans k2⟩
    · rintro e o2 ⟨V', tcap', xs', k1, -, k2, -⟩
      exact ⟨V', tcap', xs', k1, hf.trans k2⟩
  have hr : Frame o.m V.foot o.m V.foot := Frame.refl h.lay.wf
  unfold assignCopy
  rw [wp_ite]
  by_cases hp : T.pocca = true
  · simp only [if_pos hp]
    rw [wp_bind, wp_getObj, wp_ite, hw1, hw2]
    by_cases he : al = al2
    · rw [if_neg (by simpa using he), wp_bind, wp_getObj, wp_bind, wp_setObj]
      subst he
      rw [← hw1]
      refine wp_mono (main h hr) ?_ ?_
      · rw [hw1]; exact fun _ _ h => h
      · rw [hw1]; exact fun _ _ h => Or.inl h
    · rw [if_pos (by simpa using he), wp_bind, wp_onLocal]
      refine wp_mono (allocateStorage_spec (o := ⟨blank al2, o.m⟩) hN h.lay.wf rfl) ?_ ?_
      · rintro _ o1 ⟨V1, tcap1, hg, -, -, hf⟩
        dsimp only
        obtain ⟨g0, hd0⟩ := h.keep (w := o.obj) hf (fun _ _ h => h)
        rw [wp_bind]
        refine wp_mono (giveUp_spec E g0) ?_ (fun _ _ h => h.elim)
        rintro _ o2 ⟨hgv, hf2⟩
        rw [wp_bind, wp_getObj, wp_bind, wp_setObj, wp_bind, wp_onLocal]
        refine wp_mono hgv.destructor ?_ (fun _ _ h => h.elim)
        rintro _ o3 h3
        rw [wp_bind, wp_getObj, wp_bind, wp_setObj, h3]
        obtain ⟨g1, -⟩ := GSt.keep (w := o1.obj) hg hf2 (fun c h1 h2 => hd0 c h2 h1)
        have hob := hg.obj
        have : ({ o1.obj with alloc := al2 } : SVec) = o1.obj := by rw [hob]; rfl
        dsimp only at this ⊢
        rw [this]
        have hfr : Frame o.m V.foot o2.m V1.foot := by
          have a1 := hf.both (G := V.foot)
          have a2 := hf2.both (G := V1.foot)
          rw [both_no] at a1 a2
          rw [both_comm] at a1
          exact a1.trans a2
        exact wp_mono (main g1 hfr) (fun _ _ h => h) (fun _ _ h => Or.inl h)
      · rintro e o1 ⟨hf, -⟩
        obtain ⟨g0, -⟩ := h.keep (w := o.obj) hf (fun _ _ h => h)
        have := hf.both (G := V.foot)
        rw [both_no] at this
        exact Or.inr ⟨g0, this⟩
  · simp only [if_neg hp]
    exact wp_mono (main h hr) (fun _ _ h => h) (fun _ _ h => Or.inl h)

/-- The state after an assignment between two containers. -/
def Two (N al al2 : Nat) (m : St α) (F : Foot) (P : List α → List α → Prop) (o' : Obj (SVec × SVec) α) : Prop :=
  ∃ V1 tcap1 xs1 V2 tcap2 xs2, GSt N ⟨o'.obj.1, o'.m⟩ al V1 tcap1 xs1 ∧ GSt N ⟨o'.obj.2, o'.m⟩ al2 V2 tcap2 xs2 ∧
    (∀ c, V1.foot c → ¬ V2.foot c) ∧ Frame m F o'.m (Both V1.foot V2.foot) ∧ P xs1 xs2

/-- `assign_move`. -/
theorem assignMove_spec {T : Traits} (h : GSt N o al V tcap xs) (h2 : GSt N ⟨w, o.m⟩ al2 V2 tcap2 xs2)
    (hd : ∀ c, V2.foot c → ¬ V.foot c) :
    wp (assignMove E N T)
      (fun _ o' => Two N (if T.pocma = true then al2 else al) al2 o.m (Both V.foot V2.foot)
        (fun xs' ys => xs' = xs2 ∧ if al = al2 then ys = [] else ys = xs2.map E.moved) o')
      (fun _ o' => Two N (if T.pocma = true then al2 else al) al2 o.m (Both V.foot V2.foot) (fun _ ys => ys.length = xs2.length) o' ∨
        Two N al al2 o.m (Both V.foot V2.foot) (fun xs' ys => xs' = xs ∧ ys = xs2) o') ⟨(o.obj, w), o.m⟩ := by
  have hN : 0 < N := h2.num ▸ h2.lay.npos
  have e3 := h2.obj
  dsimp only at e3
  have hw2 : w.alloc = al2 := by rw [e3]; rfl
  have hw1 : o.obj.alloc = al := by rw [h.obj]; rfl
  have hd' : ∀ c, V.foot c → ¬ V2.foot c := fun c h1 h2 => hd c h2 h1
  -- the temporary could not be allocated
  have early : ∀ {o1 : Obj SVec α}, Frame o.m noFoot o1.m noFoot →
      Two N al al2 o.m (Both V.foot V2.foot) (fun xs' ys => xs' = xs ∧ ys = xs2) ⟨(o.obj, w), o1.m⟩ := by
    intro o1 hf
    obtain ⟨g1, -⟩ := h.keep (w := o.obj) hf (fun _ _ h => h)
    obtain ⟨g2, -⟩ := h2.keep hf (fun _ _ h => h)
    have := hf.both (G := Both V.foot V2.foot)
    rw [both_no] at this
    exact ⟨V, tcap, xs, V2, tcap2, xs2, g1, g2, hd', this, rfl, rfl⟩
  -- the old storage has been replaced by that of the temporary
  have fresh : ∀ {o1 o2 : Obj SVec α} {al1 : Nat} {V1 : View} {tcap1 : Nat}, GSt N o1 al1 V1 tcap1 [] → Frame o.m noFoot o1.m V1.foot →
      Frame o1.m V.foot o2.m noFoot →
      GSt N ⟨o1.obj, o2.m⟩ al1 V1 tcap1 [] ∧ GSt N ⟨w, o2.m⟩ al2 V2 tcap2 xs2 ∧ (∀ c, V2.foot c → ¬ V1.foot c) ∧
        Frame o.m (Both V.foot V2.foot) o2.m (Both V1.foot V2.foot) := by
    intro o1 o2 al1 V1 tcap1 hg hf hf2
    obtain ⟨-, hd0⟩ := h.keep (w := o.obj) hf (fun _ _ h => h)
    obtain ⟨g2, hd2⟩ := h2.keep hf (fun _ _ h => h)
    obtain ⟨g1, -⟩ := GSt.keep (w := o1.obj) hg hf2 (fun c h1 h2 => hd0 c h2 h1)
    obtain ⟨g3, -⟩ := g2.keep hf2 hd
    refine ⟨g1, g3, hd2, ?_⟩
    have a1 := hf.both (G := V.foot)
    have a2 := hf2.both (G := V1.foot)
    rw [both_no] at a1 a2
    rw [both_comm] at a1
    exact (a1.trans a2).both
  have moved : ∀ {o1 : Obj SVec α} {al1 : Nat} {V1 : View} {tcap1 : Nat} {zs : List α}, GSt N o1 al1 V1 tcap1 zs →
      GSt N ⟨w, o1.m⟩ al2 V2 tcap2 xs2 → (∀ c, V2.foot c → ¬ V1.foot c) → Frame o.m (Both V.foot V2.foot) o1.m (Both V1.foot V2.foot) →
      wp (assignMoved E N w)
        (fun _ o' => Two N al1 al2 o.m (Both V.foot V2.foot) (fun xs' ys => xs' = xs2 ∧ ys = xs2.map E.moved) ⟨(o'.obj, w), o'.m⟩)
        (fun _ o' => Two N al1 al2 o.m (Both V.foot V2.foot) (fun _ ys => ys.length = xs2.length) ⟨(o'.obj, w), o'.m⟩) o1 := by
    intro o1 al1 V1 tcap1 zs g1 g2 hd1 hf
    refine wp_mono (assignMoved_spec (E := E) g1 g2 hd1) ?_ ?_
    · rintro _ o2 ⟨V', tcap', xs', ys, k1, k2, k3, k4, k5⟩
      exact ⟨V', tcap', xs', V2, tcap2, ys, k1, k2, fun c h1 h2 => k3 c h2 h1, hf.trans k4, k5⟩
    · rintro _ o2 ⟨V', tcap', xs', ys, k1, k2, k3, k4, k5⟩
      exact ⟨V', tcap', xs', V2, tcap2, ys, k1, k2, fun c h1 h2 => k3 c h2 h1, hf.trans k4, k5⟩
  unfold assignMove
  rw [wp_bind, wp_getObj, wp_ite]
  simp only
  rw [hw1, hw2]
  by_cases he : al = al2
  · rw [if_pos he]
    subst he
    simp only [if_true, ite_self]
    rw [wp_bind, wp_onLocal]
    refine wp_mono (allocateStorage_spec (o := ⟨blank al, o.m⟩) hN h.lay.wf rfl) ?_ (fun _ _ h => Or.inr (early h.1))
    rintro _ o1 ⟨V1, tcap1, hg, -, -, hf⟩
    dsimp only
    obtain ⟨g0, -⟩ := h.keep (w := o.obj) hf (fun _ _ h => h)
    rw [wp_bind, wp_onThis]
    refine wp_mono (giveUp_spec E g0) ?_ (fun _ _ h => h.elim)
    rintro _ o2 ⟨hgv, hf2⟩
    obtain ⟨k1, k2, k3, k4⟩ := fresh hg hf hf2
    rw [wp_bind, wp_getObj, wp_bind, wp_setObj]
    dsimp only
    have fin : wp (do let _ ← onLocal o2.obj (destructor N); pure ())
        (fun _ o' => Two N al al o.m (Both V.foot V2.foot) (fun xs' ys => xs' = xs2 ∧ ys = []) o')
        (fun _ o' => Two N al al o.m (Both V.foot V2.foot) (fun _ ys => ys.length = xs2.length) o' ∨
          Two N al al o.m (Both V.foot V2.foot) (fun xs' ys => xs' = xs ∧ ys = xs2) o')
        (⟨(w, o1.obj), o2.m⟩ : Obj (SVec × SVec) α) := by
      rw [wp_bind, wp_onLocal]
      refine wp_mono hgv.destructor ?_ (fun _ _ h => h.elim)
      rintro _ o3 h3
      rw [wp_pure, h3]
      refine ⟨V2, tcap2, xs2, V1, tcap1, [], k2, k1, k3, ?_, rfl, rfl⟩
      rw [both_comm (F := V2.foot)]; exact k4
    split
    · rw [wp_bind, wp_getObj, wp_bind, wp_setObj]
      have : ({ w with alloc := o1.obj.alloc } : SVec) = w := by
        have : o1.obj.alloc = al := by rw [hg.obj]; rfl
        rw [this, ← hw2]
      dsimp only at this ⊢
      rw [this]
      exact fin
    · exact fin
  · rw [if_neg he, wp_ite]
    simp only [if_neg he]
    by_cases hp : T.pocma = true
    · simp only [if_pos hp]
      rw [wp_bind, wp_onLocal]
      refine wp_mono (allocateStorage_spec (o := ⟨blank al2, o.m⟩) hN h.lay.wf rfl) ?_ (fun _ _ h => Or.inr (early h.1))
      rintro _ o1 ⟨V1, tcap1, hg, -, -, hf⟩
      dsimp only
      obtain ⟨g0, -⟩ := h.keep (w := o.obj) hf (fun _ _ h => h)
      rw [wp_bind, wp_onThis]
      refine wp_mono (giveUp_spec E g0) ?_ (fun _ _ h => h.elim)
      rintro _ o2 ⟨hgv, hf2⟩
      obtain ⟨k1, k2, k3, k4⟩ := fresh hg hf hf2
      rw [wp_bind, wp_getObj, wp_bind, wp_setObj]
      dsimp only
      have : ({ o1.obj with alloc := w.alloc } : SVec) = o1.obj := by
        rw [hw2]; rw [hg.obj]; rfl
      dsimp only at this
      rw [this, wp_bind, wp_tryCatch, wp_onThis]
      refine wp_mono (moved k1 k2 k3 k4) ?_ ?_
      · intro _ o3 hq
        rw [wp_bind, wp_onLocal]
        refine wp_mono hgv.destructor ?_ (fun _ _ h => h.elim)
        rintro _ o4 h4
        rw [wp_pure, h4]
        exact hq
      · intro e o3 hq
        rw [wp_bind, wp_onLocal]
        refine wp_mono hgv.destructor ?_ (fun _ _ h => h.elim)
        rintro _ o4 h4
        rw [wp_throw, h4]
        exact Or.inl hq
    · simp only [if_neg hp]
      rw [wp_onThis]
      exact wp_mono (moved h h2 hd (Frame.refl h.lay.wf)) (fun _ _ h => h) (fun _ _ h => Or.inl h)

/-- `swap` of containers with equal allocators. -/
theorem swap_spec {T : Traits} (h : GSt N o al V tcap xs) (h2 : GSt N ⟨w, o.m⟩ al V2 tcap2 xs2) (hd : ∀ c, V2.foot c → ¬ V.foot c) :
    wp (swap T) (fun _ o' => Two N al al o.m (Both V.foot V2.foot) (fun xs' ys => xs' = xs2 ∧ ys = xs) o') (fun _ _ => False)
      ⟨(o.obj, w), o.m⟩ := by
  have e3 := h2.obj
  dsimp only at e3
  have hw2 : w.alloc = al := by rw [e3]; rfl
  have hw1 : o.obj.alloc = al := by rw [h.obj]; rfl
  have fin : Two N al al o.m (Both V.foot V2.foot) (fun xs' ys => xs' = xs2 ∧ ys = xs) ⟨(w, o.obj), o.m⟩ :=
    ⟨V2, tcap2, xs2, V, tcap, xs, h2, h, hd, by rw [both_comm]; exact Frame.refl h.lay.wf, rfl, rfl⟩
  unfold swap
  rw [wp_bind, wp_getObj, wp_bind, wp_assert, hw1, hw2]
  refine ⟨Or.inr rfl, ?_⟩
  split
  · rw [wp_bind, wp_setObj, wp_bind, wp_getObj, wp_setObj]
    have a1 : ({ w with alloc := al } : SVec) = w := by rw [← hw2]
    have a2 : ({ o.obj with alloc := al } : SVec) = o.obj := by rw [← hw1]
    dsimp only at a1 a2 ⊢
    rw [a1, a2]
    exact fin
  · rw [wp_bind, wp_getObj, wp_setObj]
    exact fin

end SegVec
end Sfl
