import Verif.SegVecSpec4
import Verif.OwnMove
/-
  Assignment between segmented vectors. Proof machinery: no code is modelled in this file.
-/

set_option linter.unusedSimpArgs false
set_option linter.unusedSectionVars false

namespace Sfl
open World
variable {α : Type}

namespace SegVec
variable {E : Env α} {N al al2 tcap tcap2 : Nat} {V V2 : View} {xs xs2 : List α} {o : Obj SVec α} {w : SVec}

/-! ### Copies -/

theorem GSt.assignFlat {as : List (Arg α)} {f : SM α Unit} (h : GSt N o al V tcap xs)
    (hs : SimO V al tcap (V.SV o.obj.tab tcap al) f (StaticVector.assignRange (E.lim V.size) V.size as) (fun _ _ => True)
      (V.svec o.obj.tab tcap al xs.length) (V.vec al xs.length))
    (hx : Exts (V.heap o.m) (E.lim V.size) as xs2) (hn : as.length ≤ V.size) :
    wp f (fun _ o' => Post N al V o (fun _ xs' => xs' = xs2) o')
      (fun e o' => Fails E N al V o xs (.assignRange xs2) e o') o := by
  have hf := h.flat (E := E)
  have hl := hx.length
  refine h.run (E := E) hs ?_
  refine wp_mono (wp_eq (StaticVector.assignRange_eq hf hn) (Sfl.assignRange_spec hf hx)) ?_ ?_
  · rintro _ o1 ⟨b', cap', hv, hk, -⟩ _ _ _
    obtain ⟨rfl, rfl⟩ := hk (by omega)
    exact ⟨xs2, hv, fun o' h1 h2 _ => ⟨V, tcap, xs2, h1, .refl V, h2, rfl⟩⟩
  · rintro e o1 ⟨b', cap', xs', hv, hk, -, hle⟩
    obtain ⟨rfl, rfl⟩ := hk (by omega)
    refine ⟨xs', hv, fun o' h1 h2 _ => ⟨V, tcap, xs', h1, .refl V, h2, rfl, fun he => ?_, fun _ h => (by cases h), fun _ => by simp,
      fun _ _ _ h => (by cases h)⟩⟩
    have := (hle he).1
    simp only [Env.lim] at this
    omega

/-- `assign_range` from the elements of another segmented vector. -/
theorem assignRange_copy_spec (h : GSt N o al V tcap xs) (h2 : GSt N ⟨w, o.m⟩ al2 V2 tcap2 xs2)
    (hd : ∀ c, V2.foot c → ¬ V.foot c) :
    wp (assignRange E N (.seg w.tab .ref w.first w.last))
      (fun _ o' => Post N al V o (fun _ xs' => xs' = xs2) o')
      (fun e o' => Fails E N al V o xs (.assignRange xs2) e o') o := by
  have hl := h.len
  have hmk : ∀ (V : View) (q : Ptr), (Arg.ref q : Arg α).map V.map = .ref (V.map q) := fun _ _ => rfl
  have hfrom := isFrom_seg h2 hd h.num (hmk V)
  by_cases hn : xs2.length ≤ xs.length
  · have hsim := sim_assignRangeDown (lim := V.size) (E := E) (al := al) (tcap := tcap) h.fit h.len hfrom (by simpa using hn)
    rw [h.num] at hsim
    exact h.assignFlat hsim (exts_seg h2 hd) (by simp; omega)
  · unfold assignRange
    have hdist := hfrom.dist h.fit o
    rw [h.num] at hdist
    rw [wp_bind, wp_run hdist, List.length_map, List.length_range', wp_bind, wp_run h.size_run, if_neg hn, wp_bind,
      wp_run h.capacity_run, wp_ite]
    have tail : ∀ {o1 : Obj SVec α} {V1 : View} {tcap1 : Nat}, GSt N o1 al V1 tcap1 xs → GSt N ⟨w, o1.m⟩ al2 V2 tcap2 xs2 →
        (∀ c, V2.foot c → ¬ V1.foot c) → xs2.length ≤ V1.size →
        wp (assignRangeTail E N (.seg w.tab .ref w.first w.last) xs.length)
          (fun _ o' => Post N al V1 o1 (fun _ xs' => xs' = xs2) o')
          (fun e o' => Fails E N al V1 o1 xs (.assignRange xs2) e o') o1 := by
      intro o1 V1 tcap1 hg hg2 hd1 hsz
      have hsim := sim_assignRangeTail (lim := V1.size) (E := E) (al := al) (tcap := tcap1) hg.fit hg.len
        (isFrom_seg hg2 hd1 hg.num (hmk V1)) (by simp; omega) (by simpa using hsz)
      rw [hg.num] at hsim
      exact hg.assignFlat hsim (exts_seg hg2 hd1) (by simpa using hsz)
    split
    · rw [wp_bind]
      refine wp_mono (growStorage_spec (n := xs2.length - V.size) h) ?_ ?_
      · rintro _ o1 ⟨tb, news, tcap1, hg, hsz, -, hfr, -, -⟩
        have hx : V.Ext ⟨tb, 0, V.segs ++ news, N⟩ := ⟨List.prefix_append _ _, h.num.symm⟩
        obtain ⟨hg2, hd1⟩ := h2.keep hfr hd
        refine wp_mono (tail hg hg2 hd1 (by omega)) ?_ ?_
        · exact fun r o' hp => hp.after hx hfr
        · exact fun e o' hp => Post.after hp hx hfr
      · rintro e o1 ⟨hl, -, tb, tcap1, hg, -, hfr⟩
        refine ⟨_, tcap1, xs, hg, ⟨List.prefix_refl _, h.num.symm⟩, hfr, rfl, fun h => ?_, fun _ _ => rfl, fun _ => by simp,
          fun _ _ _ _ => rfl⟩
        have := hl h
        show E.maxSize < xs2.length
        omega
    · exact tail h h2 hd (by omega)

/-! ### Programs that do not touch the segments of the other container -/

section away
variable {tcap al : Nat} {lim : Nat}

theorem map_away (V : View) {p : Ptr} (h : ¬ V.foot p.blk) : V.map p = p := if_neg fun e => h (Or.inl e)

theorem away_construct {p : Ptr} {a : Arg α} (h : ¬ V.foot p.blk) :
    Sim V al tcap (construct E p (a.map V.map)) (construct (E.lim lim) p a) (fun _ _ => True) := by
  have := Sim.construct (V := V) (al := al) (tcap := tcap) (E := E) (lim := lim) (p := p) (a := a)
  rwa [map_away V h] at this

theorem away_assign {p : Ptr} {a : Arg α} (h : ¬ V.foot p.blk) :
    Sim V al tcap (assign E p (a.map V.map)) (assign (E.lim lim) p a) (fun _ _ => True) := by
  have := Sim.assign (V := V) (al := al) (tcap := tcap) (E := E) (lim := lim) (p := p) (a := a)
  rwa [map_away V h] at this

theorem away_destroyAt {p : Ptr} (h : ¬ V.foot p.blk) :
    Sim (α := α) V al tcap (destroyAt p) (destroyAt p) (fun _ _ => True) := by
  have := Sim.destroyAt (α := α) (V := V) (al := al) (tcap := tcap) (p := p)
  rwa [map_away V h] at this

theorem away_destroyN {n : Nat} : ∀ {p : Ptr}, ¬ V.foot p.blk →
    Sim (α := α) V al tcap (destroyN p n) (destroyN p n) (fun _ _ => True) := by
  induction n with
  | zero => exact fun _ => Sim.pure trivial
  | succ n ih =>
    intro p h
    exact Sim.bind (away_destroyAt h) fun _ _ _ => ih h

theorem away_destroyRange {p q : Ptr} (h : ¬ V.foot p.blk) :
    Sim (α := α) V al tcap (destroyRange p q) (destroyRange p q) (fun _ _ => True) := by
  unfold destroyRange
  by_cases hc : p.blk = q.blk ∧ p.off ≤ q.off
  · exact Sim.step (distance_run hc.1 hc.2) (Sim.step' (distance_run hc.1 hc.2) (away_destroyN h))
  · intro s hs
    have : ∀ s : St α, distance p q s = .ub .badRange := by intro s; unfold distance; rw [if_neg hc]
    rw [M.bind_run, M.bind_run, this, this]
    exact SimRes.ub_right

theorem away_assignGo {as : List (Arg α)} : ∀ {p : Ptr}, ¬ V.foot p.blk →
    Sim V al tcap (assignGo E p (as.map (Arg.map V.map))) (assignGo (E.lim lim) p as) (fun q q' => q = q' ∧ q.blk = p.blk) := by
  induction as with
  | nil => exact fun _ => Sim.pure ⟨rfl, rfl⟩
  | cons a as ih =>
    intro p h
    exact Sim.bind (away_assign h) fun _ _ _ => ih h

theorem away_uninitGo {d : Ptr} {as : List (Arg α)} (h : ¬ V.foot d.blk) : ∀ {k : Nat},
    Sim V al tcap (uninitGo E d k (as.map (Arg.map V.map))) (uninitGo (E.lim lim) d k as) Eq := by
  induction as with
  | nil => exact Sim.pure rfl
  | cons a as ih =>
    intro k
    simp only [List.map_cons, uninitGo]
    refine Sim.bind (R := fun _ _ => True) (Sim.tryCatch (away_construct h) fun e => ?_) fun _ _ _ => ih
    exact Sim.bind (R := fun _ _ => True) (away_destroyRange h) fun _ _ _ => Sim.throw

theorem away_assignRange {K : Nat} {as : List (Arg α)} {v : Vec} (h : ¬ V.foot v.first.blk) (hb : v.last.blk = v.first.blk)
    (ho : v.first.off ≤ v.last.off) :
    SimO V al tcap Eq (StaticVector.assignRange E K (as.map (Arg.map V.map))) (StaticVector.assignRange (E.lim lim) K as)
      (fun _ _ => True) v v := by
  have hl : ¬ V.foot v.last.blk := by rwa [hb]
  have hsz : ∀ s : St α, Vector.size ⟨v, s⟩ = .ok (v.last.off - v.first.off) ⟨v, s⟩ := by
    intro s
    unfold Vector.size
    rw [bind_run (getObj_run _), distance_run hb.symm ho]
  intro s hs
  unfold StaticVector.assignRange
  rw [List.length_map]
  by_cases hM : as.length ≤ K
  · rw [bind_run (assert_run hM), bind_run (assert_run hM), bind_run (hsz s), bind_run (hsz _), bind_run (getObj_run _),
      bind_run (getObj_run _)]
    refine (?_ : SimO V al tcap Eq _ _ (fun _ _ => True) v v) s hs
    dsimp only
    split
    · refine SimO.lift_bind rfl (away_assignGo (lim := lim) h) ?_
      rintro b _ ⟨rfl, hbb⟩
      exact SimO.lift_bind rfl (R := fun _ _ => True) (away_destroyRange (by rw [hbb]; exact h)) fun _ _ _ => SimO.setLast rfl
    · rw [← List.map_take, ← List.map_drop]
      refine SimO.lift_bind rfl (away_assignGo (lim := lim) h) fun _ _ _ => ?_
      refine SimO.lift_bind rfl (away_uninitGo (lim := lim) hl) ?_
      rintro b _ rfl
      exact SimO.setLast rfl
  · have : ∀ (f : Unit → Vector.VM α Unit) (o : Obj Vec α), (M.assert (as.length ≤ K) >>= f) o = .ub .assertFailed := by
      intro f o
      show M.bind _ _ _ = _
      unfold M.bind M.assert
      rw [if_neg hM]
    rw [this, this]
    exact SimORes.ub_right

end away

/-! ### Two containers seen as contiguous ones -/

theorem view_out (V : View) (s : St α) {c : Nat} (h : ¬ V.foot c) : (V.view s).blk c = s.blk c ∧ ∀ k, (V.view s).mem c k = s.mem c k := by
  have h1 : c ≠ V.tb := fun e => h (Or.inl e)
  have h2 : c ∉ V.segs := fun e => h (Or.inr e)
  simp [View.view, h1, h2]

/-- Back from two contiguous containers. -/
theorem GSt.back2 {E' : Env α} {o3 : Obj Vec α} {s1 s2 : St α} {v : SVec} {xs' ys : List α} {H H' : Heap α} {m : St α} {v0 : SVec}
    (h : GSt N ⟨v0, m⟩ al V tcap xs) (h2 : GSt N ⟨w, m⟩ al2 V2 tcap2 xs2) (hd : ∀ c, V2.foot c → ¬ V.foot c)
    (hH : H = Heap.out (V2.view (V.view m)) (fun c => c = V.tb ∨ c = V.tb))
    (hv : VSt H' E' V.tb V.size o3 al V.tb V.size xs') (hb : H'.blk = H.blk) (hm : ∀ c, c ≠ V2.tb → ∀ i, H'.mem c i = H.mem c i)
    (hy : ∀ i, H'.mem V2.tb i = ys[i]?) (hyl : ys.length = xs2.length)
    (e3 : o3.m = V2.view s2) (l2 : V2.Lay al2 tcap2 s2) (e2 : s2 = V.view s1) (l1 : V.Lay al tcap s1)
    (hsv : V.SV v0.tab tcap al v o3.obj) :
    GSt N ⟨v, s1⟩ al V tcap xs' ∧ GSt N ⟨w, s1⟩ al2 V2 tcap2 ys ∧ Frame m (Both V.foot V2.foot) s1 (Both V.foot V2.foot) := by
  obtain ⟨p, hp, rfl, hvo⟩ := hsv
  have hpx : p = xs'.length := by
    have := hv.obj
    rw [hvo] at this
    injection this with _ h2
    injection h2
  subst hpx
  have hd' : ∀ c, V.foot c → ¬ V2.foot c := fun c h1 h2 => hd c h2 h1
  have htb : V2.tb ≠ V.tb := fun e => hd V2.tb (Or.inl rfl) (Or.inl e)
  have hlen2 := h2.len
  refine ⟨⟨l1, h.base, h.num, h.tab, h.tlen, h.slen, rfl, hv.len, ?_⟩, ?_, ?_⟩
  · intro k hk
    by_cases hi : k < V.size
    · rw [← View.view_slot hi]
      have := hv.cells k
      rw [e3, (view_out V2 s2 (hd' _ (Or.inl rfl))).2, e2] at this
      exact this
    · have e : k = V.size := by have := V.size_le; unfold View.size at *; omega
      rw [List.getElem?_eq_none (by have := hv.len; omega), e]
      exact l1.hidden
  · have hg2 : GSt N ⟨w, s2⟩ al2 V2 tcap2 ys := by
      refine ⟨l2, h2.base, h2.num, h2.tab, h2.tlen, h2.slen, by rw [hyl]; exact h2.obj, by omega, ?_⟩
      intro k hk
      by_cases hi : k < V2.size
      · rw [← View.view_slot hi, ← hy, ← hv.st.fmem V2.tb htb htb, e3]
      · have e : k = V2.size := by have := V2.size_le; unfold View.size at *; omega
        rw [List.getElem?_eq_none (by omega), e]
        exact l2.hidden
    refine hg2.frame l1.wf fun c hc => ?_
    have := view_out V s1 (hd c hc)
    subst e2
    exact ⟨this.1.symm, fun k => (this.2 k).symm⟩
  · have key : ∀ c, ¬ Both V.foot V2.foot c → s1.blk c = m.blk c ∧ ∀ k, s1.mem c k = m.mem c k := by
      intro c hc
      have n1 : ¬ V.foot c := fun h => hc (Or.inl h)
      have n2 : ¬ V2.foot c := fun h => hc (Or.inr h)
      have n3 : c ≠ V.tb := fun e => n1 (Or.inl e)
      have n4 : c ≠ V2.tb := fun e => n2 (Or.inl e)
      have a1 := view_out V s1 n1
      have a2 := view_out V2 s2 n2
      have a3 := view_out V m n1
      have a4 := view_out V2 (V.view m) n2
      have hcn : ¬ (c = V.tb ∨ c = V.tb) := by simp [n3]
      constructor
      · rw [← a1.1, ← e2, ← a2.1, ← e3, hv.st.fblk c n3 n3, hb, hH, Heap.out_blk hcn, a4.1, a3.1]
      · intro k
        rw [← a1.2, ← e2, ← a2.2, ← e3, hv.st.fmem c n3 n3, hm c n4, hH, Heap.out_mem hcn, a4.2, a3.2]
    exact ⟨l1.wf, fun c hc _ => ⟨hc, key c hc⟩, fun c hc hn _ => by rw [(key c hc).1]; exact hn, fun c h1 h2 => absurd h1 h2⟩

/-- A function of the first container that moves from the elements of the second one. -/
theorem GSt.run2 {f : SM α Unit} {f' f'' : Vector.VM α Unit} {P : List α → Prop} {X : Exn → List α → Prop}
    (h : GSt N o al V tcap xs) (h2 : GSt N ⟨w, o.m⟩ al2 V2 tcap2 xs2) (hd : ∀ c, V2.foot c → ¬ V.foot c)
    (hs : SimO V al tcap (V.SV o.obj.tab tcap al) f f' (fun _ _ => True) (V.svec o.obj.tab tcap al xs.length) (V.vec al xs.length))
    (hs2 : SimO V2 al2 tcap2 Eq f' f'' (fun _ _ => True) (V.vec al xs.length) (V.vec al xs.length))
    (hw : ∀ H, VSt H (E.lim V.size) V.tb V.size ⟨V.vec al xs.length, V2.view (V.view o.m)⟩ al V.tb V.size xs →
      Source H ⟨V2.tb, 0⟩ xs2 →
      wp f'' (fun _ o'' => ∃ xs' H', Heap.MovedFrom E ⟨V2.tb, 0⟩ xs2.length H H' ∧
            VSt H' (E.lim V.size) V.tb V.size o'' al V.tb V.size xs' ∧ P xs')
          (fun e o'' => ∃ xs' H', Heap.Disturbed ⟨V2.tb, 0⟩ xs2.length H H' ∧
            VSt H' (E.lim V.size) V.tb V.size o'' al V.tb V.size xs' ∧ X e xs')
        ⟨V.vec al xs.length, V2.view (V.view o.m)⟩) :
    wp f (fun _ o' => ∃ xs', GSt N o' al V tcap xs' ∧ GSt N ⟨w, o'.m⟩ al2 V2 tcap2 (xs2.map E.moved) ∧
        Frame o.m (Both V.foot V2.foot) o'.m (Both V.foot V2.foot) ∧ P xs')
      (fun e o' => ∃ xs' ys, GSt N o' al V tcap xs' ∧ GSt N ⟨w, o'.m⟩ al2 V2 tcap2 ys ∧ ys.length = xs2.length ∧
        Frame o.m (Both V.foot V2.foot) o'.m (Both V.foot V2.foot) ∧ X e xs') o := by
  have hf := h.flat (E := E)
  have hd' : ∀ c, V.foot c → ¬ V2.foot c := fun c h1 h2 => hd c h2 h1
  have htb : V2.tb ≠ V.tb := fun e => hd V2.tb (Or.inl rfl) (Or.inl e)
  have h2v : GSt N ⟨w, V.view o.m⟩ al2 V2 tcap2 xs2 := h2.frame hf.st.wf fun c hc => view_out V o.m (hd c hc)
  have hf2 := h2v.flat (E := E)
  have hvt := view_out V2 (V.view o.m) (hd' V.tb (Or.inl rfl))
  have hvst := (hf.toOwn.frame (m' := V2.view (V.view o.m)) hvt.1 hvt.1 hvt.2 hvt.2).vst hf2.st.wf (Rest.out _ _)
  have hn2 : ¬ (V2.tb = V.tb ∨ V2.tb = V.tb) := by simp [htb]
  have hcells : ∀ i, (V2.view (V.view o.m)).mem V2.tb i = xs2[i]? := hf2.cells
  have hsrc : Source (Heap.out (V2.view (V.view o.m)) (fun c => c = V.tb ∨ c = V.tb)) ⟨V2.tb, 0⟩ xs2 := by
    refine ⟨Or.inr ?_, fun i _ => ?_⟩
    · rw [Heap.out_blk hn2]; simp [View.view]
    · rw [Heap.out_mem hn2, Nat.zero_add]; exact hcells i
  have ho : o = ⟨V.svec o.obj.tab tcap al xs.length, o.m⟩ := by
    have := h.obj
    cases o; simp only at this ⊢; rw [← this]
  rw [ho]
  have key := hw _ hvst hsrc
  refine hs.wp h.lay (hs2.wp h2v.lay (wp_mono key ?_ ?_))
  · rintro _ o3 ⟨xs', H', hmv, hv, hP⟩ _ w2 s2 _ he e3 l2 _ w1 s1 _ hsv e2 l1
    have he' : w2 = o3.obj := he
    subst he'
    obtain ⟨g1, g2, g3⟩ := GSt.back2 (v0 := o.obj) (m := o.m) (ys := xs2.map E.moved) h h2 hd rfl hv hmv.blk
      (fun c hc i => by
        rw [hmv.mem, if_neg]
        rintro ⟨h1, -⟩
        exact hc h1)
      (fun i => by
        rw [hmv.mem, Heap.out_mem hn2, hcells, List.getElem?_map]
        split
        · rfl
        · rename_i hh
          have : xs2[i]? = none := List.getElem?_eq_none (by
            rcases Nat.lt_or_ge i xs2.length with h | h
            · exact absurd ⟨rfl, Nat.zero_le _, by simpa using h⟩ hh
            · exact h)
          rw [this]; rfl) (by simp) e3 l2 e2 l1 hsv
    exact ⟨xs', g1, g2, g3, hP⟩
  · rintro e o3 ⟨xs', H', hds, hv, hP⟩ w2 s2 he e3 l2 w1 s1 hsv e2 l1
    have he' : w2 = o3.obj := he
    subst he'
    obtain ⟨ys, hyl, hy⟩ := exists_list (f := fun i => H'.mem V2.tb i) xs2.length (by
      intro i
      by_cases hi : i < xs2.length
      · exact iff_of_true (hds.live V2.tb i ⟨rfl, Nat.zero_le _, by simpa using hi⟩) hi
      · refine iff_of_false ?_ hi
        rw [hds.out _ _ (by rintro ⟨-, -, h⟩; simp at h; omega), Heap.out_mem hn2, hcells, List.getElem?_eq_none (by omega)]
        simp)
    obtain ⟨g1, g2, g3⟩ := GSt.back2 (v0 := o.obj) (m := o.m) (ys := ys) h h2 hd rfl hv hds.blk
      (fun c hc i => by
        rw [hds.out]
        rintro ⟨h1, -⟩
        exact hc h1) hy hyl e3 l2 e2 l1 hsv
    exact ⟨xs', ys, g1, g2, hyl, g3, hP⟩

/-! ### Moves -/

/-- The addresses of the elements. -/
theorem gather_run {σ : Type} (h : GSt N o al V tcap xs) : ∀ {n k : Nat}, k + n ≤ V.size → ∀ s : σ,
    Seg.gather N o.obj.tab n (V.it k) s = .ok ((List.range' k n).map V.addr) s := by
  intro n
  induction n with
  | zero => exact fun _ _ => rfl
  | succ n ih =>
    intro k hk s
    unfold Seg.gather
    rw [bind_run (h.inc_run (by omega) s), bind_run (ih (by omega) s)]
    rfl

theorem moved_map {n : Nat} : ∀ {k : Nat}, ((args Arg.mv (⟨V.tb, k⟩ : Ptr) n : List (Arg α)).map (Arg.map V.map)) =
    (List.range' k n).map (fun i => .mv (V.addr i)) := by
  induction n with
  | zero => exact rfl
  | succ n ih =>
    intro k
    simp only [args, List.map_cons, List.range'_succ]
    rw [show (⟨V.tb, k⟩ : Ptr).add 1 = ⟨V.tb, k + 1⟩ from rfl, ih]
    simp [Arg.map, View.map]

theorem range_away {n : Nat} (h2 : GSt N ⟨w, o.m⟩ al2 V2 tcap2 xs2) (hd : ∀ c, V2.foot c → ¬ V.foot c) (hn : n ≤ V2.size) :
    ((List.range' 0 n).map (fun i => (Arg.mv (V2.addr i) : Arg α))).map (Arg.map V.map) = (List.range' 0 n).map (fun i => .mv (V2.addr i)) := by
  rw [List.map_map]
  refine List.map_congr_left fun i hi => ?_
  simp only [List.mem_range'_1, Nat.zero_add] at hi
  have h1 := V2.addr_mem h2.lay.npos (p := i) (by have := V2.size_le; have := h2.lay.size_lt; omega)
  simp only [Function.comp, Arg.map]
  rw [map_away V (hd _ (Or.inr h1))]

theorem _root_.Sfl.World.Frame.both {m m' : St α} {F F' G : Foot} (h : Frame m F m' F') : Frame m (Both F G) m' (Both F' G) where
  wf := h.wf
  keep := fun c hc hb => by
    obtain ⟨h1, h2⟩ := h.keep c (fun h => hc (Or.inl h)) hb
    exact ⟨fun h => h.elim h1 (fun h => hc (Or.inr h)), h2⟩
  fresh := fun c hc hb hn => h.fresh c (fun h => hc (Or.inl h)) hb (fun h => hn (Or.inl h))
  freed := fun c hc hn => by
    rcases hc with hc | hc
    · exact h.freed c hc (fun h => hn (Or.inl h))
    · exact absurd (Or.inr hc) hn

/-- The state after a function that moves from the elements of another container. -/
def Post2 (N al al2 : Nat) (V V2 : View) (tcap2 : Nat) (w : SVec) (o : Obj SVec α) (P : List α → List α → Prop)
    (o' : Obj SVec α) : Prop :=
  ∃ V' tcap' xs' ys, GSt N o' al V' tcap' xs' ∧ GSt N ⟨w, o'.m⟩ al2 V2 tcap2 ys ∧ (∀ c, V2.foot c → ¬ V'.foot c) ∧
    Frame o.m (Both V.foot V2.foot) o'.m (Both V'.foot V2.foot) ∧ P xs' ys

theorem assignMovedFlat {f : SM α Unit} (h : GSt N o al V tcap xs)
    (h2 : GSt N ⟨w, o.m⟩ al2 V2 tcap2 xs2) (hd : ∀ c, V2.foot c → ¬ V.foot c)
    (hs : SimO V al tcap (V.SV o.obj.tab tcap al) f
      (StaticVector.assignRange (E.lim V.size) V.size ((List.range' 0 xs2.length).map (fun i => (Arg.mv (V2.addr i) : Arg α))))
      (fun _ _ => True) (V.svec o.obj.tab tcap al xs.length) (V.vec al xs.length)) (hn : xs2.length ≤ V.size) :
    wp f (fun _ o' => Post2 N al al2 V V2 tcap2 w o (fun xs' ys => xs' = xs2 ∧ ys = xs2.map E.moved) o')
      (fun _ o' => Post2 N al al2 V V2 tcap2 w o (fun _ ys => ys.length = xs2.length) o') o := by
  have hd' : ∀ c, V.foot c → ¬ V2.foot c := fun c h1 h2 => hd c h2 h1
  have hs2 := away_assignRange (E := E.lim V.size) (lim := V.size) (V := V2) (al := al2) (tcap := tcap2) (K := V.size)
    (as := args .mv (⟨V2.tb, 0⟩ : Ptr) xs2.length) (v := V.vec al xs.length) (hd' _ (Or.inl rfl)) rfl (Nat.zero_le _)
  rw [moved_map] at hs2
  refine wp_mono (GSt.run2 (E := E) (P := fun xs' => xs' = xs2) (X := fun _ _ => True) h h2 hd hs hs2 ?_) ?_ ?_
  · intro H hv hsrc
    refine wp_mono (Fixes.wp (StaticVector.assignRange_fixes _) (wp_eq (StaticVector.assignRange_eq (as := args .mv (⟨V2.tb, 0⟩ : Ptr) xs2.length)
      hv (by rw [args_length]; exact hn)) (assignRange_move_spec hv hsrc))) ?_ ?_
    · rintro _ o1 ⟨⟨b', cap', H', k1, k2⟩, q1, q2⟩
      rw [k2.obj] at q1 q2
      obtain ⟨rfl, -⟩ : b' = V.tb ∧ True := ⟨by injection q1, trivial⟩
      obtain rfl : cap' = V.size := by injection q2
      exact ⟨xs2, H', ⟨k1.blk, k1.mem⟩, k2, rfl⟩
    · rintro e o1 ⟨⟨b', cap', xs', H', k1, k2⟩, q1, q2⟩
      rw [k2.obj] at q1 q2
      obtain ⟨rfl, -⟩ : b' = V.tb ∧ True := ⟨by injection q1, trivial⟩
      obtain rfl : cap' = V.size := by injection q2
      exact ⟨xs', H', k1, k2, trivial⟩
  · rintro _ o1 ⟨xs', g1, g2, g3, rfl⟩
    exact ⟨V, tcap, xs', _, g1, g2, hd, g3, rfl, rfl⟩
  · rintro e o1 ⟨xs', ys, g1, g2, hy, g3, -⟩
    exact ⟨V, tcap, xs', ys, g1, g2, hd, g3, hy⟩

/-- `assign_range` from a range of move iterators into another segmented vector. -/
theorem assignMoved_spec (h : GSt N o al V tcap xs) (h2 : GSt N ⟨w, o.m⟩ al2 V2 tcap2 xs2) (hd : ∀ c, V2.foot c → ¬ V.foot c) :
    wp (assignMoved E N w)
      (fun _ o' => Post2 N al al2 V V2 tcap2 w o (fun xs' ys => xs' = xs2 ∧ ys = xs2.map E.moved) o')
      (fun _ o' => Post2 N al al2 V V2 tcap2 w o (fun _ ys => ys.length = xs2.length) o') o := by
  have hl := h.len
  have e1 := h2.first_eq
  have e2 := h2.last_eq
  dsimp only at e1 e2
  have hl2 := h2.len
  unfold assignMoved
  rw [wp_bind, e1, e2, wp_run (h2.dist_run (Nat.zero_le _) h2.len o), wp_bind, Nat.sub_zero]
  have hga := gather_run h2 (n := xs2.length) (k := 0) (by omega) o
  dsimp only at hga
  rw [wp_run hga, List.map_map]
  show wp (assignRange E N (.list true ((List.range' 0 xs2.length).map (fun i => (Arg.mv (V2.addr i) : Arg α))))) _ _ o
  have from' : ∀ {V1 : View} {o1 : Obj SVec α}, GSt N ⟨w, o1.m⟩ al2 V2 tcap2 xs2 → (∀ c, V2.foot c → ¬ V1.foot c) →
      IsFrom V1 (.list true ((List.range' 0 xs2.length).map (fun i => (Arg.mv (V2.addr i) : Arg α))))
        ((List.range' 0 xs2.length).map (fun i => (Arg.mv (V2.addr i) : Arg α))) := by
    intro V1 o1 hg2 hd1
    have := IsFrom.list (V := V1) true ((List.range' 0 xs2.length).map (fun i => (Arg.mv (V2.addr i) : Arg α)))
    rwa [range_away hg2 hd1 hl2] at this
  by_cases hn : xs2.length ≤ xs.length
  · have hsim := sim_assignRangeDown (lim := V.size) (E := E) (al := al) (tcap := tcap) h.fit h.len (from' h2 hd) (by simpa using hn)
    rw [h.num] at hsim
    exact assignMovedFlat h h2 hd hsim (by omega)
  · have tail : ∀ {o1 : Obj SVec α} {V1 : View} {tcap1 : Nat}, GSt N o1 al V1 tcap1 xs → GSt N ⟨w, o1.m⟩ al2 V2 tcap2 xs2 →
        (∀ c, V2.foot c → ¬ V1.foot c) → xs2.length ≤ V1.size →
        wp (assignRangeTail E N (.list true ((List.range' 0 xs2.length).map (fun i => (Arg.mv (V2.addr i) : Arg α)))) xs.length)
          (fun _ o' => Post2 N al al2 V1 V2 tcap2 w o1 (fun xs' ys => xs' = xs2 ∧ ys = xs2.map E.moved) o')
          (fun _ o' => Post2 N al al2 V1 V2 tcap2 w o1 (fun _ ys => ys.length = xs2.length) o') o1 := by
      intro o1 V1 tcap1 hg hg2 hd1 hsz
      have hsim := sim_assignRangeTail (lim := V1.size) (E := E) (al := al) (tcap := tcap1) hg.fit hg.len (from' hg2 hd1)
        (by simp; omega) (by simpa using hsz)
      rw [hg.num] at hsim
      exact assignMovedFlat hg hg2 hd1 hsim hsz
    unfold assignRange
    rw [wp_bind]
    simp only [Seg.From.dist]
    rw [wp_pure, List.length_map, List.length_range', wp_bind, wp_run h.size_run, if_neg hn, wp_bind, wp_run h.capacity_run, wp_ite]
    split
    · rw [wp_bind]
      have fb : ∀ {m' : St α} {F' : Foot}, Frame o.m V.foot m' F' → Frame o.m (Both V.foot V2.foot) m' (Both F' V2.foot) :=
        fun hf => World.Frame.both hf
      refine wp_mono (growStorage_spec (n := xs2.length - V.size) h) ?_ ?_
      · rintro _ o1 ⟨tb, news, tcap1, hg, hsz, -, hfr, -, -⟩
        obtain ⟨hg2, hd1⟩ := h2.keep hfr hd
        refine wp_mono (tail hg hg2 hd1 (by omega)) ?_ ?_
        · rintro _ o2 ⟨V', tcap', xs', ys, k1, k2, k3, k4, k5⟩
          exact ⟨V', tcap', xs', ys, k1, k2, k3, (fb hfr).trans k4, k5⟩
        · rintro _ o2 ⟨V', tcap', xs', ys, k1, k2, k3, k4, k5⟩
          exact ⟨V', tcap', xs', ys, k1, k2, k3, (fb hfr).trans k4, k5⟩
      · rintro e o1 ⟨hl, -, tb, tcap1, hg, -, hfr⟩
        obtain ⟨hg2, hd1⟩ := h2.keep hfr hd
        exact ⟨_, tcap1, xs, xs2, hg, hg2, hd1, fb hfr, rfl⟩
    · exact tail h h2 hd (by omega)

end SegVec
end Sfl
