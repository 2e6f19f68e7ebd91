import Verif.WorldVec
import Verif.WorldTrack
import Verif.StaticWorld
/-
  Self move assignment `c = std::move(c)`. The move assignments have no test for `this == &other`
  (vector.hpp:1601-1633, small_vector.hpp:2007-2047, static_vector.hpp:328-336, …), so that the functions run with both
  references bound to the same object. Programs that may do this are programs whose containers have one more modifier.
-/

namespace Sfl.World
variable {K : Nat} {Op I V α ρ : Type}

/-- The modifiers of a container, and its move assignment to itself. -/
inductive SelfOp (Op : Type) where
  | op (x : Op)
  | selfMove

/-- The container type with `self i`, the body of `operator=(C&&)` for `this == &other`, as a further modifier
(operator= returns `*this`; vector.hpp:331-338, small_vector.hpp:423-430, static_vector.hpp:328-336). -/
def Cont.withSelf (C : Cont K Op I V α ρ) (self : Fin K → M (Obj V α) Unit) : Cont K (SelfOp Op) I V α ρ where
  alloc := C.alloc
  blank := C.blank
  make := C.make
  copyInit := C.copyInit
  moveInit := C.moveInit
  destroy := C.destroy
  size := C.size
  index := C.index
  exec := fun i x => match x with
    | .op x => C.exec i x
    | .selfMove => do
      self i
      pure none
  assignCopy := C.assignCopy
  assignMove := C.assignMove
  swap := C.swap

/-- What self move assignment may do to the elements (specification; `left` if it returns, `fail` if it throws). -/
def Sem.withSelf (S : Sem Op I α ρ) (left fail : List α → List α → Prop) : Sem (SelfOp Op) I α ρ where
  pre := fun n x => match x with
    | .op x => S.pre n x
    | .selfMove => true
  okStep := fun xs x r ys => match x with
    | .op x => S.okStep xs x r ys
    | .selfMove => r = none ∧ left xs ys
  failStep := fun xs x e ys => match x with
    | .op x => S.failStep xs x e ys
    | .selfMove => fail xs ys
  initPre := S.initPre
  init := S.init
  initFail := S.initFail
  left := S.left
  moveFail := S.moveFail
  assignFail := S.assignFail
  swapFail := S.swapFail
  swapPre := S.swapPre
  copyPre := S.copyPre
  movePre := S.movePre
  T := S.T
  takes := S.takes
  early := S.early

/-- Self move assignment, called alone, does what the specification says and respects ownership. -/
def SelfSpec (R : Rep K V α) (self : Fin K → M (Obj V α) Unit) (left fail : List α → List α → Prop) : Prop :=
  ∀ {i m v al xs F}, m.Wf → R.rep i m v al xs F →
    wp (self i) (fun _ o' => ∃ xs', R.Now i m F al xs' o' ∧ left xs xs')
      (fun _ o' => ∃ xs', R.Now i m F al xs' o' ∧ fail xs xs') ⟨v, m⟩

section
variable {C : Cont K Op I V α ρ} {S : Sem Op I α ρ} {R : Rep K V α} {self : Fin K → M (Obj V α) Unit}
  {left fail : List α → List α → Prop}

theorem Spec.withSelf (h : Spec C S R) (hs : SelfSpec R self left fail) :
    Spec (C.withSelf self) (S.withSelf left fail) R where
  ok := { live := h.ok.live, deadSub := h.ok.deadSub, frame := h.ok.frame, alloc := h.ok.alloc, rawLive := h.ok.rawLive,
          rawFrame := h.ok.rawFrame, rawEq := h.ok.rawEq }
  make := h.make
  copy := h.copy
  move := h.move
  destroy := h.destroy
  size := h.size
  index := h.index
  exec := by
    intro i m v al xs F op hw hr hp
    cases op with
    | op x => exact h.exec hw hr hp
    | selfMove =>
      show wp (do self i; pure none) _ _ _
      rw [wp_bind]
      refine wp_mono (hs hw hr) ?_ (fun _ _ h => h)
      rintro _ o' ⟨xs', k1, k2⟩
      rw [wp_pure]
      exact ⟨xs', k1, rfl, k2⟩
  assignCopy := h.assignCopy
  assignMove := h.assignMove
  swap := h.swap

/-- After a self move assignment nothing is known about the order of the elements. -/
def Flags.withSelf (F : Flags Op) : Flags (SelfOp Op) where
  ok := fun x d => match x with
    | .op x => F.ok x d
    | .selfMove => true
  fail := fun x d => match x with
    | .op x => F.fail x d
    | .selfMove => true

theorem Keeps.withSelf {P : List α → Prop} {F : Flags Op} (h : Keeps S P F) :
    Keeps (S.withSelf left fail) P F.withSelf where
  init := h.init
  ok := by
    intro xs op r ys d hp hs hd hf
    cases op with
    | op x => exact h.ok xs x r ys d hp hs hd hf
    | selfMove => cases hf
  fail := by
    intro xs op r ys d hp hs hd hf
    cases op with
    | op x => exact h.fail xs x r ys d hp hs hd hf
    | selfMove => cases hf

end

end Sfl.World

namespace Sfl
open Sfl.Vector (VM)
open World
variable {α : Type}

/-- vector.hpp:1601-1633 `assign_move` for `this == &other`: the allocators are equal (self move assignment of an
allocator, line 1610, is taken to leave it alone), `reset()` has made the pointers null, which are then copied to
themselves and set to null. -/
def Vector.assignMoveSelf (E : Env α) : VM α Unit := do
  reset E 0
  let v ← getObj
  setObj (v.steal v).null

/-- small_vector.hpp:2007-2047 `assign_move` for `this == &other`; the same function is in the small flat containers
(small_flat_set.hpp:1533-1575, small_flat_map.hpp:1767-1809, small_flat_multiset.hpp:1512-1554,
small_flat_multimap.hpp:1585-1627, small_unordered_flat_set.hpp:1441-1483, small_unordered_flat_map.hpp:1688-1730,
small_unordered_flat_multiset.hpp:1461-1503, small_unordered_flat_multimap.hpp:1547-1589). Elements in internal storage
are move assigned to themselves. -/
def SmallVector.assignMoveSelf (E : Env α) (ib N : Nat) : VM α Unit := do
  let v ← getObj
  if v.first = ⟨ib, 0⟩ then do
    let n ← distance v.first v.last
    assignRange E ib N (args .mv v.first n)
  else do
    reset E ib N 0
    let v ← getObj
    setObj (v.steal v).null

/-- static_vector.hpp:328-336 `operator=(static_vector&&)` for `this == &other`; the same in the static flat containers
(static_flat_set.hpp:239-250, static_flat_map.hpp:293-304, static_flat_multiset.hpp:239-250, static_flat_multimap.hpp:293-304,
static_unordered_flat_set.hpp:236-247, static_unordered_flat_map.hpp:291-302, static_unordered_flat_multiset.hpp:236-247,
static_unordered_flat_multimap.hpp:291-302). -/
def StaticVector.assignMoveSelf (E : Env α) (N : Nat) : VM α Unit := do
  let v ← getObj
  let n ← distance v.first v.last
  assignRange E N (args .mv v.first n)

/-- Moving elements to themselves one by one. -/
theorem wp_assignGo_self {E : Env α} {n : Nat} {p : Ptr} {s : St α} {Q : Ptr → St α → Prop} {X : Exn → St α → Prop}
    (hs : ∀ i, p.off ≤ i → i < p.off + n → (s.mem p.blk i).isSome)
    (hQ : ∀ s', Same s s' → (∀ b i, s'.mem b i = if p.has n b i then (s.mem b i).map E.moved else s.mem b i) →
      Q (p.add n) s')
    (hX : ∀ s', Same s s' → (∀ b i, if p.has n b i then (s'.mem b i).isSome else s'.mem b i = s.mem b i) → X .elem s') :
    wp (assignGo E p (args .mv p n)) Q X s := by
  induction n generalizing s p with
  | zero =>
    unfold args assignGo; rw [wp_pure]
    exact hQ s (Same.refl s) (fun b i => by mgrind)
  | succ n ih =>
    unfold args assignGo
    rw [wp_bind]
    obtain ⟨v, hv⟩ := Option.isSome_iff_exists.mp (hs p.off (by omega) (by omega))
    refine assign_move (v := v) (q := p) hv rfl (hs _ (by omega) (by omega)) ?_ ?_
    · intro s1 hs1 ht1 hm1
      refine ih ?_ ?_ ?_
      · intro i h1 h2
        have := hs i (by simp at h1; omega) (by simp at h2; omega)
        rw [hm1]; mgrind
      · intro s2 hs2 hm2
        have := hQ s2 (hs1.trans hs2) ?_
        · have e : (p.add 1).add n = p.add (n + 1) := by simp [Ptr.add]; omega
          rw [e]; exact this
        · intro b i
          rw [hm2, hm1]
          mgrind
      · intro s2 hs2 hm2
        refine hX s2 (hs1.trans hs2) ?_
        intro b i
        have := hm2 b i
        have := hm1 b i
        have := hs i
        mgrind
    · intro hnm s1 w w' hs1 hm1
      refine hX s1 hs1 ?_
      intro b i
      have := hm1 b i
      have := hs i
      mgrind

section
variable {K : Nat} {E : Env α} {N : Nat} {H : Heap α} {ib al b cap : Nat} {o : Obj Vec α} {xs : List α}

/-- Assigning the container's own elements, moved, to the container. -/
theorem assignRange_self (h : VSt H E ib N o al b cap xs) :
    wp (SmallVector.assignRange E ib N (args .mv ⟨b, 0⟩ xs.length))
      (fun _ o' => VSt H E ib N o' al b cap (xs.map E.moved))
      (fun _ o' => ∃ xs', VSt H E ib N o' al b cap xs' ∧ xs'.length = xs.length) o := by
  have hlen := h.len
  have hcap := h.capLe
  unfold SmallVector.assignRange Vector.checkSize
  simp only [wp_bind, wp_getObj, wp_ite, wp_lift, wp_setObj, wp_pure, wp_throw, args_length]
  rw [if_neg (by omega)]
  refine wp_capacity h.obj ?_
  rw [if_pos hlen]
  refine wp_size h.obj ?_
  rw [if_pos (Nat.le_refl _), h.obj]
  dsimp only
  refine wp_assignGo_self ?_ ?_ ?_
  · intro i _ hi; exact (h.live i).mpr (by simpa using hi)
  · intro s1 hs1 hm1
    have hst1 : Store H s1 al ib N b cap := h.st.upd hs1
      (fun i hi => by rw [hm1]; have := h.st.beyond i hi; grind) (fun c hc i => by rw [hm1]; grind)
    refine wp_destroyRange (by simp) (by simp) (fun i h1 h2 => by simp at h1 h2; omega) ?_
    intro s2 hs2 ht2 hm2
    refine VSt.mk' rfl (by simp [Ptr.add]) rfl (hst1.upd hs2 ?_ ?_) (by simpa using hlen) ?_ h.capLe h.nLe
    · intro i hi; rw [hm2]; have := hst1.beyond i hi; grind
    · intro c hc i; rw [hm2]; grind
    · intro i
      rw [hm2, hm1, h.cells]
      simp only [Ptr.has, Ptr.add_blk, Ptr.add_off, List.getElem?_map]
      grind
  · intro s1 hs1 hm1
    obtain ⟨xs', k1, k2⟩ := h.ofLive (n := xs.length) (l := (⟨b, xs.length⟩ : Ptr)) rfl
      (h.st.upd hs1 (fun i hi => by have := hm1 b i; have := h.st.beyond i hi; grind)
        (fun c hc i => by have := hm1 c i; grind)) (by omega)
      (fun i => by have h1 := hm1 b i; have h2 := h.cells i; grind)
    exact ⟨xs', k1, k2⟩

/-- An empty container that has given up its storage, after its pointers have been set to null. -/
theorem VSt.nulled {v : Vec} {m : St α} (h : VSt H E ib N ⟨v, m⟩ al b N []) :
    VSt H E ib N ⟨(v.steal v).null, m⟩ al 0 0 [] := by
  have hw : m.Wf := h.st.wf
  have hz : ∀ i, m.mem 0 i = none := hw.dead 0 hw.blk_zero
  have hb : b ≠ 0 → b = ib := by
    intro h0
    rcases h.toOwn.own with ⟨k, -⟩ | ⟨k, -⟩ | ⟨k, -⟩
    · exact k
    · exact absurd k h0
    · omega
  have hraw : ∀ i, m.mem ib i = none := by
    intro i
    by_cases h0 : b = ib
    · rw [← h0]; have := h.cells i; simpa using this
    · exact h.toOwn.iraw h0 i
  have ho : Own E ib N m (v.steal v).null al 0 0 [] :=
    ⟨by have := h.obj; simp only at this; subst this; simp [Vec.null, Vec.steal, Ptr.null], h.toOwn.ibk, Or.inr (Or.inl ⟨rfl, rfl⟩),
      fun _ => hraw, by simp, fun i => by rw [hz]; simp, by omega, h.nLe⟩
  have hr := h.rest
  refine ho.vst hw ⟨?_, ?_, ?_, ?_⟩
  · intro c hc i
    by_cases hcb : c = b
    · have : b = ib := hb (fun h0 => hc (Or.inl (hcb.trans h0)))
      exact absurd (Or.inr (hcb.trans this)) hc
    · exact hr.mem c (fun h' => h'.elim hcb (fun h' => hc (Or.inr h'))) i
  · intro c hc
    by_cases hcb : c = b
    · have : b = ib := hb (fun h0 => hc (Or.inl (hcb.trans h0)))
      exact absurd (Or.inr (hcb.trans this)) hc
    · exact hr.blk c (fun h' => h'.elim hcb (fun h' => hc (Or.inr h')))
  · rintro c (rfl | rfl) i
    · by_cases h0 : (0 : Nat) = b ∨ 0 = ib
      · exact hr.hmem 0 h0 i
      · rw [← hr.mem 0 h0 i]; exact hz i
    · exact hr.hmem _ (Or.inr rfl) i
  · rintro c (rfl | rfl)
    · by_cases h0 : (0 : Nat) = b ∨ 0 = ib
      · exact hr.hblk 0 h0
      · rw [← hr.blk 0 h0]; exact hw.blk_zero
    · exact hr.hblk _ (Or.inr rfl)

theorem SmallVector.assignMoveSelf_spec (h : VSt H E ib N o al b cap xs) :
    wp (SmallVector.assignMoveSelf E ib N)
      (fun _ o' => ∃ b' cap' xs', VSt H E ib N o' al b' cap' xs' ∧ (xs' = [] ∨ xs' = xs.map E.moved))
      (fun _ o' => ∃ b' cap' xs', VSt H E ib N o' al b' cap' xs' ∧ xs'.length = xs.length) o := by
  unfold SmallVector.assignMoveSelf
  simp only [wp_bind, wp_getObj, wp_ite]
  rw [h.obj]
  by_cases hb : (⟨b, 0⟩ : Ptr) = ⟨ib, 0⟩
  · rw [if_pos hb]
    refine wp_distance rfl (by simp) ?_
    simp only [Nat.sub_zero]
    exact wp_mono (assignRange_self h) (fun _ _ k => ⟨b, cap, _, k, Or.inr rfl⟩) (fun _ _ ⟨xs', k1, k2⟩ => ⟨b, cap, xs', k1, k2⟩)
  · rw [if_neg hb]
    refine wp_mono (reset_spec h (Nat.zero_le _)) ?_ ?_
    · rintro _ o' ⟨b', k, -⟩
      have k' : VSt H E ib N o' al b' N [] := by simpa using k
      rw [wp_setObj]
      exact ⟨0, 0, [], k'.nulled, Or.inl rfl⟩
    · rintro e o' ⟨_, h1, _⟩
      omega

theorem Vector.assignMoveSelf_spec (h : VSt H E 0 0 o al b cap xs) :
    wp (Vector.assignMoveSelf E) (fun _ o' => VSt H E 0 0 o' al 0 0 []) (fun _ _ => False) o := by
  unfold Vector.assignMoveSelf
  simp only [wp_bind, wp_getObj, ← SmallVector.reset_zero]
  refine wp_mono (reset_spec h (Nat.zero_le _)) ?_ ?_
  · rintro _ o' ⟨b', k, -⟩
    rw [wp_setObj]
    exact VSt.nulled (by simpa using k)
  · rintro e o' ⟨_, h1, _⟩
    omega

theorem StaticVector.assignMoveSelf_spec (h : VSt H E ib N o al ib N xs) :
    wp (StaticVector.assignMoveSelf E N) (fun _ o' => VSt H E ib N o' al ib N (xs.map E.moved))
      (fun _ o' => ∃ xs', VSt H E ib N o' al ib N xs' ∧ xs'.length = xs.length) o := by
  unfold StaticVector.assignMoveSelf
  simp only [wp_bind, wp_getObj]
  rw [h.obj]
  refine wp_distance rfl (by simp) ?_
  simp only [Nat.sub_zero]
  refine wp_congr (StaticVector.assignRange_eq h (by simpa [args_length] using h.len)).symm ?_
  exact assignRange_self h

/-! ### Containers of programs -/

theorem SmallVector.selfSpec {ib : Fin K → Nat} : SelfSpec (SmallVector.rep E ib N)
    (fun i => SmallVector.assignMoveSelf E (ib i) N) (fun xs ys => ys = [] ∨ ys = xs.map E.moved)
    (fun xs ys => ys.length = xs.length) := by
  rintro i m v al xs F hw ⟨b, cap, h, rfl⟩
  refine wp_mono (SmallVector.assignMoveSelf_spec (h.vst hw (Rest.out _ _))) ?_ ?_
  · rintro _ o' ⟨b', cap', xs', k1, k2⟩
    exact ⟨xs', VSt.now hw k1, k2⟩
  · rintro _ o' ⟨b', cap', xs', k1, k2⟩
    exact ⟨xs', VSt.now hw k1, k2⟩

theorem Vector.selfSpec : SelfSpec (SmallVector.rep E (fun _ : Fin K => 0) 0) (fun _ => Vector.assignMoveSelf E)
    (fun _ ys => ys = []) (fun _ _ => False) := by
  rintro i m v al xs F hw ⟨b, cap, h, rfl⟩
  refine wp_mono (Vector.assignMoveSelf_spec (h.vst hw (Rest.out _ _))) ?_ (fun _ _ h => h.elim)
  rintro _ o' k
  exact ⟨[], VSt.now (ib := fun _ : Fin K => 0) (i := i) hw k, rfl⟩

theorem StaticVector.selfSpec {ib : Fin K → Nat} : SelfSpec (StaticVector.rep E ib N)
    (fun _ => StaticVector.assignMoveSelf E N) (fun xs ys => ys = xs.map E.moved)
    (fun xs ys => ys.length = xs.length) := by
  rintro i m v al xs F hw ⟨h, rfl⟩
  refine wp_mono (StaticVector.assignMoveSelf_spec (h.vst hw (Rest.out _ _))) ?_ ?_
  · rintro _ o' k
    exact ⟨_, StaticVector.now hw k, rfl⟩
  · rintro _ o' ⟨xs', k1, k2⟩
    exact ⟨xs', StaticVector.now hw k1, k2⟩

end

end Sfl
