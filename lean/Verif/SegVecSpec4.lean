import Verif.SegVecSpec3
import Verif.StaticWorld
/-
  Constructors, destructor and copy assignment of segmented_vector. Proof machinery: no code is modelled in this file.
-/

set_option linter.unusedSimpArgs false
set_option linter.unusedSectionVars false

namespace Sfl
open World
variable {α : Type}

namespace SegVec
variable {E : Env α} {N al tcap : Nat} {V : View} {xs : List α} {o : Obj SVec α}

theorem wp_onLocal {W β : Type} {w : W} {p : M (Obj W α) β} {X' : Type} {o : Obj X' α} {Q : β × W → Obj X' α → Prop}
    {X : Exn → Obj X' α → Prop} :
    wp (onLocal w p) Q X o = wp p (fun b o' => Q (b, o'.obj) ⟨o.obj, o'.m⟩) (fun e o' => X e ⟨o.obj, o'.m⟩) ⟨w, o.m⟩ := by
  unfold wp onLocal
  cases p ⟨w, o.m⟩ <;> rfl

/-- The part of the initialisation after the storage has been allocated. -/
abbrev fillIn (v : SVec) (alg : Table → SIt → M (St α) SIt) : SM α Unit := do
  let l ← lift (alg v.tab v.first)
  setObj { v with last := l }

/-- Constructing the elements from values stored elsewhere. -/
theorem fillIn_spec {alg : Table → SIt → M (St α) SIt} {as : List (Arg α)} {vs : List α} (h : GSt N o al V tcap [])
    (hs : Sim V al tcap (alg o.obj.tab (V.it 0)) (uninit (E.lim V.size) ⟨V.tb, 0⟩ as) (V.At as.length))
    (hx : Exts (V.heap o.m) (E.lim V.size) as vs) (hn : as.length ≤ V.size) :
    wp (fillIn o.obj alg) (fun _ o' => GSt N o' al V tcap vs ∧ Frame o.m V.foot o'.m V.foot)
      (fun e o' => e = .elem ∧ GSt N o' al V tcap [] ∧ Frame o.m V.foot o'.m V.foot) o := by
  have hf := h.flat (E := E)
  have hob := h.obj
  have hlen := hx.length
  have hsim : SimO (α := α) V al tcap (V.SV o.obj.tab tcap al) (fillIn (V.svec o.obj.tab tcap al 0) alg)
      (do let l ← lift (uninit (E.lim V.size) ⟨V.tb, 0⟩ as); setObj { V.vec al 0 with last := l }) (fun _ _ => True)
      (V.svec o.obj.tab tcap al 0) (V.vec al 0) := by
    refine SimO.lift_bind (V.sv _ tcap al (by omega)) hs ?_
    rintro _ _ ⟨rfl, rfl⟩
    exact SimO.setLast (V.sv o.obj.tab tcap al hn)
  rw [hob]
  refine h.run (E := E) hsim ?_
  simp only [wp_bind, wp_lift, wp_setObj]
  refine wp_uninit_copy (hx.val _ hf.st.agree) hx.src ?_ ?_ ?_ ?_
  · intro j hj
    have := hf.st.ibk
    simp [St.inB, Ptr.add, View.view]; omega
  · intro j hj
    have := hf.cells (0 + j)
    simpa using this
  · intro s1 hs1 ht1 hm1 _ _ _
    refine ⟨vs, VSt.mk' rfl (by simp [hlen, Ptr.add]) rfl (hf.st.upd hs1 ?_ ?_) (by omega) ?_ hf.capLe hf.nLe, fun o' h1 h2 _ => ⟨h1, h2⟩⟩
    · intro i hi; rw [hm1]; have := hf.st.beyond i hi; grind
    · intro c hc i; rw [hm1]; grind
    · intro i
      rw [hm1]
      have := hf.cells i
      dsimp only at this ⊢
      grind
  · intro s1 hs1 hm1
    exact ⟨[], VSt.mk' rfl rfl rfl (hf.st.upd hs1 (by rw [hm1]; exact hf.st.beyond) (by intro c hc i; rw [hm1])) hf.len
      (by rw [hm1]; exact hf.cells) hf.capLe hf.nLe, fun o' h1 h2 _ => ⟨rfl, h1, h2⟩⟩

/-- Allocate, fill in; give the storage back after a failure. -/
theorem initUsing_spec {n : Nat} {alg : Table → SIt → M (St α) SIt} {Q : Obj SVec α → Prop} {X : Exn → View → Obj SVec α → Prop}
    {Y : Exn → Obj SVec α → Prop} (hN : 0 < N) (hw : o.m.Wf) (hal : o.obj.alloc = al)
    (halg : ∀ o1 V tcap, GSt N o1 al V tcap [] → n ≤ V.size → o1.m.mem = o.m.mem → Frame o.m noFoot o1.m V.foot →
      wp (fillIn o1.obj alg) (fun _ o' => Q o') (fun e o' => (∃ tcap, GSt N o' al V tcap []) ∧ X e V o') o1)
    (hd : ∀ e V o1 o2, X e V o1 → Frame o1.m V.foot o2.m noFoot → o2.m.mem = o1.m.mem → Y e o2)
    (ha : ∀ e o', Frame o.m noFoot o'.m noFoot → o'.m.mem = o.m.mem → (e = .lengthError → E.maxSize < n) → Y e o') :
    wp (initUsing E N n alg) (fun _ o' => Q o') Y o := by
  unfold initUsing
  rw [wp_bind]
  refine wp_mono (allocateStorage_spec hN hw hal) ?_ ?_
  · rintro _ o1 ⟨V, tcap, hg, hsz, hm, hf⟩
    rw [wp_tryCatch, wp_bind, wp_getObj]
    refine wp_mono (halg o1 V tcap hg hsz hm hf) (fun _ _ h => h) ?_
    rintro e o2 ⟨⟨tcap', hg2⟩, hx⟩
    rw [wp_bind]
    refine wp_mono (deallocateStorage_spec hg2) ?_ (fun _ _ h => h.elim)
    rintro _ o3 ⟨-, hf3, hm3, -⟩
    rw [wp_throw]
    exact hd e V o2 o3 hx hf3 hm3
  · rintro e o1 ⟨h1, h2, h3, -, -⟩
    exact ha e o1 h1 h2 h3

/-- The state after a constructor. -/
def Made (N al : Nat) (m : St α) (ys : List α) (o' : Obj SVec α) : Prop :=
  ∃ V tcap, GSt N o' al V tcap ys ∧ Frame m noFoot o'.m V.foot

theorem initCopied_spec {n : Nat} {alg : Table → SIt → M (St α) SIt} {ys : List α} (hN : 0 < N) (hw : o.m.Wf)
    (hal : o.obj.alloc = al)
    (halg : ∀ o1 V tcap, GSt N o1 al V tcap [] → n ≤ V.size → o1.m.mem = o.m.mem → Frame o.m noFoot o1.m V.foot →
      wp (fillIn o1.obj alg) (fun _ o' => GSt N o' al V tcap ys ∧ Frame o1.m V.foot o'.m V.foot)
        (fun e o' => e = .elem ∧ GSt N o' al V tcap [] ∧ Frame o1.m V.foot o'.m V.foot) o1) :
    wp (initUsing E N n alg) (fun _ o' => Made N al o.m ys o')
      (fun e o' => Frame o.m noFoot o'.m noFoot ∧ (e = .lengthError → E.maxSize < n)) o := by
  refine initUsing_spec (X := fun e V o' => e = .elem ∧ Frame o.m noFoot o'.m V.foot) hN hw hal ?_ ?_ (fun _ _ h _ h' => ⟨h, h'⟩)
  · intro o1 V tcap hg hn hm hf
    refine wp_mono (halg o1 V tcap hg hn hm hf) ?_ ?_
    · rintro _ o2 ⟨h1, h2⟩
      exact ⟨V, tcap, h1, hf.trans h2⟩
    · rintro e o2 ⟨rfl, h1, h2⟩
      exact ⟨⟨tcap, h1⟩, rfl, hf.trans h2⟩
  · rintro e V o1 o2 ⟨rfl, h1⟩ h2 _
    exact ⟨h1.trans h2, by simp⟩

theorem Frame.foots {m m' : St α} {V : View} (h : Frame m noFoot m' V.foot) {c : Nat} (hc : m.blk c ≠ none) :
    ¬ V.foot c ∧ m'.blk c = m.blk c ∧ ∀ k, m'.mem c k = m.mem c k := h.keep c (fun h => h) hc

/-- Elements of another container, by reference. -/
theorem exts_seg {m : St α} {w : SVec} {al2 tcap2 : Nat} {V2 : View} {xs2 : List α} (h2 : GSt N ⟨w, m⟩ al2 V2 tcap2 xs2)
    (hd : ∀ c, V2.foot c → ¬ V.foot c) :
    Exts (V.heap m) E ((List.range' 0 xs2.length).map (fun i => Arg.ref (V2.addr i))) xs2 := by
  refine ⟨?_, ?_⟩
  · intro a ha
    obtain ⟨i, -, rfl⟩ := List.mem_map.mp ha
    rfl
  · intro s hs
    apply List.ext_getElem?
    intro i
    rw [List.map_map, List.getElem?_map, List.getElem?_map]
    by_cases hi : i < xs2.length
    · have h1 : i < V2.cap := by have := h2.len; have := V2.size_le; omega
      have h3 := V2.addr_mem h2.lay.npos h1
      have h4 := hd _ (Or.inr h3)
      have h5 : (V2.addr i).blk ≠ V.tb := fun e => h4 (Or.inl e)
      have h6 : (V2.addr i).blk ∉ V.segs := fun e => h4 (Or.inr e)
      have h7 := h2.cells i h1
      have h8 : (V.heap m).blk (V2.addr i).blk ≠ none := by
        simp only [View.heap, View.view, if_neg h5, if_neg h6]
        rw [h2.lay.sblk _ h3]; simp
      rw [List.getElem?_range' hi]
      have h9 := hs _ (V2.addr i).off h8
      simp only [View.heap, View.view, if_neg h5, if_neg h6] at h9
      simp only [Option.map_some, Function.comp, Arg.value, Nat.zero_add, Nat.one_mul]
      rw [h9, show m.mem (V2.addr i).blk (V2.addr i).off = xs2[i]? from h7, List.getElem?_eq_getElem hi]
      rfl
    · rw [List.getElem?_eq_none (by simpa using hi), List.getElem?_eq_none (by omega)]
      rfl

theorem isFrom_seg {m : St α} {w : SVec} {al2 tcap2 : Nat} {V2 : View} {xs2 : List α} {mk : Ptr → Arg α}
    (h2 : GSt N ⟨w, m⟩ al2 V2 tcap2 xs2) (hd : ∀ c, V2.foot c → ¬ V.foot c) (hN : V.N = N)
    (hmk : ∀ q, (mk q).map V.map = mk (V.map q)) :
    IsFrom V (.seg w.tab mk w.first w.last) ((List.range' 0 xs2.length).map (fun i => mk (V2.addr i))) := by
  have e1 := h2.first_eq
  have e2 := h2.last_eq
  dsimp only at e1 e2
  rw [e1, e2]
  have := IsFrom.seg (V := V) (Vs := V2) (ts := w.tab) (x := 0) (y := xs2.length) (va := V2.addr) h2.tab (by rw [h2.num, hN]) hmk
    (Nat.zero_le _) (h2.fit.lt h2.len) ?_
  · exact this
  · intro i _ hi
    have h1 : i < V2.cap := by have := h2.len; have := V2.size_le; omega
    have h3 := V2.addr_mem h2.lay.npos h1
    have h4 := hd _ (Or.inr h3)
    exact if_neg (fun e => h4 (Or.inl e))

/-- Other memory may change. -/
theorem GSt.keep {m : St α} {w : SVec} {m' : St α} {F F' : Foot} (h : GSt N ⟨w, m⟩ al V tcap xs) (hf : Frame m F m' F')
    (hd : ∀ c, V.foot c → ¬ F c) : GSt N ⟨w, m'⟩ al V tcap xs ∧ ∀ c, V.foot c → ¬ F' c := by
  have h1 : ∀ c, V.foot c → ¬ F' c ∧ m'.blk c = m.blk c ∧ ∀ k, m'.mem c k = m.mem c k := fun c hc => hf.keep c (hd c hc) (h.live c hc)
  exact ⟨h.frame hf.wf (fun c hc => (h1 c hc).2), fun c hc => (h1 c hc).1⟩

/-- `initialize_copy`. -/
theorem initCopy_spec {w : SVec} {al2 tcap2 : Nat} {V2 : View} {xs2 : List α} (h2 : GSt N ⟨w, o.m⟩ al2 V2 tcap2 xs2)
    (hal : o.obj.alloc = al) :
    wp (initCopy E N w) (fun _ o' => Made N al o.m xs2 o')
      (fun e o' => Frame o.m noFoot o'.m noFoot ∧ (e = .lengthError → E.maxSize < xs2.length)) o := by
  have e1 := h2.first_eq
  have e2 := h2.last_eq
  dsimp only at e1 e2
  have hN : 0 < N := h2.num ▸ h2.lay.npos
  unfold initCopy
  rw [wp_bind, e1, e2, wp_run (h2.dist_run (Nat.zero_le _) h2.len o)]
  refine initCopied_spec hN h2.lay.wf hal ?_
  intro o1 V tcap hg hsz hm hf
  obtain ⟨h3, hd⟩ := h2.keep hf (fun _ _ h => h)
  have hfrom := isFrom_seg (V := V) (mk := Arg.ref) h3 hd hg.num (fun q => rfl)
  have hsim := hfrom.uninit (E := E) (lim := V.size) (al := al) (tcap := tcap) hg.fit (r := 0) (by simpa using hsz)
  simp only [Seg.From.uninit, Nat.zero_add, e1, e2, hg.num] at hsim
  exact fillIn_spec (E := E) hg hsim (exts_seg h3 hd) (by simpa using hsz)

/-- The constructors. -/
theorem construct_spec {ra : Bool} (init : Sq.Init α) (hN : 0 < N) (hw : o.m.Wf) (hal : o.obj.alloc = al) :
    wp (construct' E N ra init) (fun _ o' => Made N al o.m (init.result E.dflt) o')
      (fun e o' => Frame o.m noFoot o'.m noFoot ∧ (e = .lengthError → E.maxSize < (init.result E.dflt).length)) o := by
  have fill : ∀ (n : Nat) (v : α), wp (initUsing E N n (fun t d => Seg.uninitFillN E N t d n (.val v)))
      (fun _ o' => Made N al o.m (List.replicate n v) o')
      (fun e o' => Frame o.m noFoot o'.m noFoot ∧ (e = .lengthError → E.maxSize < n)) o := by
    intro n v
    refine initCopied_spec hN hw hal ?_
    intro o1 V tcap hg hsz hm hf
    have hsim := View.sim_uninitFillN (E := E) (lim := V.size) (al := al) (tcap := tcap) hg.tab hg.lay.npos (a := .val v) (p := 0) (n := n)
      (by have := hg.lay.size_lt; omega)
    rw [Nat.zero_add, hg.num] at hsim
    exact fillIn_spec (E := E) (as := List.replicate n (.val v)) hg (by rw [List.length_replicate]; exact hsim) (Exts.replicateVal n v) (by simpa using hsz)
  cases init with
  | empty =>
    refine wp_mono (allocateStorage_spec hN hw hal) ?_ ?_
    · rintro _ o1 ⟨V, tcap, h1, -, -, h2⟩
      exact ⟨V, tcap, h1, h2⟩
    · rintro e o1 ⟨h1, -, h2, -⟩
      exact ⟨h1, h2⟩
  | count n =>
    refine wp_mono (fill n E.dflt) (fun _ _ h => h) ?_
    rintro e o1 ⟨h1, h2⟩
    exact ⟨h1, by simpa [Sq.Init.result] using h2⟩
  | fill n v =>
    refine wp_mono (fill n v) (fun _ _ h => h) ?_
    rintro e o1 ⟨h1, h2⟩
    exact ⟨h1, by simpa [Sq.Init.result] using h2⟩
  | range ys =>
    show wp (initUsing E N ys.length (fun t d => (Seg.From.list ra (ys.map .val)).uninit E N t d))
      (fun _ o' => Made N al o.m ys o') (fun e o' => Frame o.m noFoot o'.m noFoot ∧ (e = .lengthError → E.maxSize < ys.length)) o
    refine initCopied_spec hN hw hal ?_
    intro o1 V tcap hg hsz hm hf
    have hfrom := IsFrom.list (V := V) ra (ys.map Arg.val)
    rw [map_val] at hfrom
    have hsim := hfrom.uninit (E := E) (lim := V.size) (al := al) (tcap := tcap) hg.fit (r := 0) (by simpa using hsz)
    rw [Nat.zero_add, hg.num] at hsim
    exact fillIn_spec (E := E) hg hsim (Exts.vals ys) (by simpa using hsz)
  | input ys =>
    show wp (initRangeInput E N ys) _ _ o
    unfold initRangeInput
    rw [wp_bind]
    refine wp_mono (allocateStorage_spec hN hw hal) ?_ ?_
    · rintro _ o1 ⟨V, tcap, hg, -, -, hf⟩
      rw [wp_tryCatch]
      refine wp_mono (emplaceBackAll_spec hg) ?_ ?_
      · rintro _ o2 ⟨V', tcap', xs', h1, -, h2, rfl⟩
        exact ⟨V', tcap', h1, hf.trans h2⟩
      · rintro e o2 ⟨hl, V', tcap', xs', h1, -, h2, -⟩
        rw [wp_bind]
        refine wp_mono (clear_spec E h1) ?_ (fun _ _ h => h.elim)
        rintro _ o3 ⟨V3, tcap3, xs3, h3, -, f3, rfl⟩
        rw [wp_bind]
        refine wp_mono (deallocateStorage_spec h3) ?_ (fun _ _ h => h.elim)
        rintro _ o4 ⟨-, f4, -, -⟩
        rw [wp_throw]
        exact ⟨((hf.trans h2).trans f3).trans f4, by simpa [Sq.Init.result] using hl⟩
    · rintro e o1 ⟨h1, -, h2, -⟩
      exact ⟨h1, fun h => by have := h2 h; omega⟩

theorem dealloc_last {v : SVec} {l : SIt} {m : St α} {Q : St α → Prop}
    (h : wp (deallocateStorage N) (fun _ o' => Q o'.m) (fun _ _ => False) ⟨{ v with last := l }, m⟩) :
    wp (deallocateStorage N) (fun _ o' => Q o'.m) (fun _ _ => False) ⟨v, m⟩ := by
  unfold deallocateStorage at *
  simp only [wp_bind, wp_getObj, wp_onTab] at *
  refine wp_mono h (fun _ o1 h => ?_) (fun _ _ h => h)
  unfold distance at h ⊢
  by_cases hc : v.tfirst.blk = v.teos.blk ∧ v.tfirst.off ≤ v.teos.off
  · simp only [if_pos hc, wp] at h ⊢; exact h
  · simp only [if_neg hc, wp] at h

/-- The destructor. -/
theorem destructor_spec (E : Env α) (h : GSt N o al V tcap xs) :
    wp (destructor N) (fun _ o' => Frame o.m V.foot o'.m noFoot) (fun _ _ => False) o := by
  have hc := clear_spec E h
  unfold destructor
  unfold clear at hc
  simp only [wp_bind, wp_getObj, wp_lift, wp_setObj] at hc ⊢
  refine wp_mono hc ?_ (fun _ _ h => h)
  rintro _ m1 ⟨V', tcap', xs', h1, -, hf, rfl⟩
  refine dealloc_last (Q := fun m' => Frame o.m V.foot m' noFoot) (wp_mono (deallocateStorage_spec h1) ?_ (fun _ _ h => h))
  rintro _ o' ⟨-, h2, -, -⟩
  exact hf.trans h2

end SegVec
end Sfl
