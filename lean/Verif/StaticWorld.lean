import Verif.StaticSpec
/-
  The static containers as container types of the client programs of `World.lean`.
-/

namespace Sfl
open Sfl.Vector (VM)
open World
variable {α : Type}

/-- The data members keep the pointers to the beginning and the end of the storage. -/
def Vec.Kept (v v' : Vec) : Prop := v'.first = v.first ∧ v'.eos = v.eos

/-- The program keeps the pointers to the beginning and the end of the storage and returns a result satisfying `P`. -/
def Fixes {β : Type} (v : Vec) (p : VM α β) (P : β → Prop) : Prop := ∀ o, v.Kept o.obj →
  (∀ b o', p o = .ok b o' → v.Kept o'.obj ∧ P b) ∧ (∀ e o', p o = .exn e o' → v.Kept o'.obj)

section fixes
variable {β γ : Type} {v : Vec}

theorem Fixes.pure (b : β) : Fixes v (pure b : VM α β) (fun _ => True) := by
  intro o h
  constructor
  · rintro b o' ⟨⟩; exact ⟨h, trivial⟩
  · rintro e o' ⟨⟩

theorem Fixes.getObj : Fixes v (getObj : VM α Vec) (fun w => v.Kept w) := by
  intro o h
  constructor
  · rintro b o' ⟨⟩; exact ⟨h, h⟩
  · rintro e o' ⟨⟩

theorem Fixes.setObj {w : Vec} (hw : v.Kept w) : Fixes v (setObj w : VM α Unit) (fun _ => True) := by
  intro o h
  constructor
  · rintro b o' ⟨⟩; exact ⟨hw, trivial⟩
  · rintro e o' ⟨⟩

theorem Fixes.lift (p : M (St α) β) : Fixes v (lift p : VM α β) (fun _ => True) := by
  intro o h
  unfold Sfl.lift
  cases p o.m
  · constructor
    · rintro b o' ⟨⟩; exact ⟨h, trivial⟩
    · rintro e o' ⟨⟩
  · constructor
    · rintro b o' ⟨⟩
    · rintro e o' ⟨⟩; exact h
  · constructor
    · rintro b o' ⟨⟩
    · rintro e o' ⟨⟩

theorem Fixes.bind {p : VM α β} {f : β → VM α γ} {P : β → Prop} {Q : γ → Prop} (hp : Fixes v p P)
    (hf : ∀ b, P b → Fixes v (f b) Q) : Fixes v (p >>= f) Q := by
  intro o h
  obtain ⟨h1, h2⟩ := hp o h
  rw [bind_apply]
  cases hq : p o with
  | ok b o1 => obtain ⟨k1, k2⟩ := h1 b o1 hq; exact hf b k2 o1 k1
  | exn e o1 =>
    constructor
    · rintro b o' ⟨⟩
    · rintro _ _ ⟨⟩; exact h2 e o1 hq
  | ub =>
    constructor
    · rintro b o' ⟨⟩
    · rintro e o' ⟨⟩

theorem Fixes.assert (c : Prop) [Decidable c] : Fixes v (M.assert c : VM α Unit) (fun _ => True) := by
  intro o h
  unfold M.assert
  split
  · exact Fixes.pure () o h
  · constructor
    · rintro b o' ⟨⟩
    · rintro e o' ⟨⟩

theorem Fixes.distance (p q : Ptr) : Fixes v (distance p q : VM α Nat) (fun _ => True) := by
  intro o h
  unfold Sfl.distance
  constructor
  · intro b o' he
    split at he
    · cases he; exact ⟨h, trivial⟩
    · cases he
  · intro e o' he
    split at he <;> cases he

theorem Fixes.ite {c : Prop} [Decidable c] {p q : VM α β} {P : β → Prop} (hp : Fixes v p P) (hq : Fixes v q P) :
    Fixes v (if c then p else q) P := by
  split
  · exact hp
  · exact hq

theorem Fixes.wp {p : VM α β} {P : β → Prop} {o : Obj Vec α} {Q : β → Obj Vec α → Prop} {X : Exn → Obj Vec α → Prop}
    (h : Fixes o.obj p P) (hp : wp p Q X o) :
    wp p (fun b o' => Q b o' ∧ o.obj.Kept o'.obj) (fun e o' => X e o' ∧ o.obj.Kept o'.obj) o := by
  obtain ⟨h1, h2⟩ := h o ⟨rfl, rfl⟩
  unfold Sfl.wp at *
  cases hq : p o with
  | ok b o' => rw [hq] at hp; exact ⟨hp, (h1 b o' hq).1⟩
  | exn e o' => rw [hq] at hp; exact ⟨hp, h2 e o' hq⟩
  | ub => rw [hq] at hp; exact hp

theorem Fixes.size : Fixes v (Vector.size : VM α Nat) (fun _ => True) :=
  Fixes.getObj.bind fun _ _ => Fixes.distance _ _

end fixes

namespace StaticVector
variable {K : Nat} {E : Env α} {T : Traits} {ib : Fin K → Nat} {N : Nat} {m m' : St α} {H : Heap α}

theorem assignRange_fixes {v : Vec} (as : List (Arg α)) : Fixes v (assignRange E N as) (fun _ => True) := by
  unfold assignRange
  refine (Fixes.assert _).bind fun _ _ => Fixes.size.bind fun _ _ => Fixes.getObj.bind fun w hw => ?_
  refine Fixes.ite ?_ ?_
  · exact (Fixes.lift _).bind fun _ _ => (Fixes.lift _).bind fun _ _ => Fixes.setObj hw
  · exact (Fixes.lift _).bind fun _ _ => (Fixes.lift _).bind fun _ _ => Fixes.setObj hw

/-- Ownership by a static container: the elements are in the internal storage. -/
def rep (E : Env α) (ib : Fin K → Nat) (N : Nat) : Rep K Vec α where
  rep := fun i m v al xs F => Own E (ib i) N m v al (ib i) N xs ∧ F = foot (ib i) (ib i)
  raw := fun i m => ((ib i = 0 ∧ N = 0) ∨ m.blk (ib i) = some ⟨N, none⟩) ∧ ∀ k, m.mem (ib i) k = none
  dead := fun i => foot (ib i) (ib i)

theorem Own.recap {ib1 al b cap : Nat} {v : Vec} {xs : List α} (h : Own E ib1 N m v al b cap xs)
    (h1 : v.first = ⟨ib1, 0⟩) (h2 : v.eos = ⟨ib1, N⟩) : Own E ib1 N m v al ib1 N xs := by
  have e1 : b = ib1 := by rw [h.obj] at h1; simpa using h1
  have e2 : cap = N := by rw [h.obj] at h2; simp at h2; exact h2.2
  subst e1 e2
  exact h

theorem rep_ok {Op I ρ : Type} {make : Fin K → I → VM α Unit} {exec : Fin K → Op → VM α (Option ρ)} :
    (rep E ib N).Ok (contOf E ib N make exec) where
  live := by
    rintro i m v al xs F ⟨h, rfl⟩ c ⟨h0, rfl | rfl⟩ <;> simp [h.ib_some h0]
  deadSub := by
    rintro i m v al xs F ⟨h, rfl⟩ c ⟨h0, h1⟩
    exact ⟨h0, h1⟩
  frame := by
    rintro i m m' v al xs F hw hw' ⟨h, rfl⟩ hm
    have blk : m'.blk (ib i) = m.blk (ib i) := by
      by_cases h0 : ib i = 0
      · rw [h0, hw.blk_zero, hw'.blk_zero]
      · exact (hm _ ⟨h0, Or.inl rfl⟩).1
    have mem : ∀ k, m'.mem (ib i) k = m.mem (ib i) k := by
      by_cases h0 : ib i = 0
      · intro k; rw [h0, hw.dead 0 hw.blk_zero, hw'.dead 0 hw'.blk_zero]
      · exact (hm _ ⟨h0, Or.inl rfl⟩).2
    exact ⟨h.frame blk blk mem mem, rfl⟩
  alloc := by
    rintro i m v al xs F ⟨h, rfl⟩
    show v.alloc = al
    rw [h.obj]
  rawLive := (SmallVector.rep_ok (E := E) (T := noTraits) (make := make) (exec := exec)).rawLive
  rawFrame := (SmallVector.rep_ok (E := E) (T := noTraits) (make := make) (exec := exec)).rawFrame
  rawEq := (SmallVector.rep_ok (E := E) (T := noTraits) (make := make) (exec := exec)).rawEq

/-- From the view of one container to ownership in the program. -/
theorem now {i : Fin K} {al' : Nat} {xs' : List α} {o' : Obj Vec α} (hw : m.Wf)
    (h : VSt (Heap.out m (fun c => c = ib i ∨ c = ib i)) E (ib i) N o' al' (ib i) N xs') :
    (rep E ib N).Now i m (foot (ib i) (ib i)) al' xs' o' :=
  ⟨foot (ib i) (ib i), ⟨h.toOwn, rfl⟩, Rest.toFrame hw h.st.wf h.rest⟩

theorem now2 {i j : Fin K} {al1 al2 : Nat} {xs1 xs2 : List α} {o' : Obj (Vec × Vec) α} (hw : m.Wf)
    (h : Pair (Heap.out m (fun c => (c = ib i ∨ c = ib i) ∨ (c = ib j ∨ c = ib j))) E N (ib i) (ib j) o'.m o'.obj.1 o'.obj.2
      al1 (ib i) N xs1 al2 (ib j) N xs2) :
    (rep E ib N).Now2 i j m (Both (foot (ib i) (ib i)) (foot (ib j) (ib j))) al1 xs1 al2 xs2 o' :=
  ⟨foot (ib i) (ib i), foot (ib j) (ib j), ⟨h.one, rfl⟩, ⟨h.two, rfl⟩, h.sep.disj, by
    rw [foot_both]; exact Rest.toFrame hw h.wf h.rest⟩

theorem raw_own {i : Fin K} {al : Nat} (hN : N ≤ E.maxSize) (h : (rep E ib N).raw i m) :
    Own E (ib i) N m (SmallVector.empty (ib i) N al) al (ib i) N [] := SmallVector.raw_own hN h

section pairs
variable {ib1 ib2 al1 al2 : Nat} {v1 v2 : Vec} {xs1 xs2 : List α}

theorem initMove_spec (h : Pair H E N ib1 ib2 m (SmallVector.empty ib1 N al1) v2 al1 ib1 N [] al2 ib2 N xs2) :
    wp (initMove E)
      (fun _ o' => Pair H E N ib1 ib2 o'.m o'.obj.1 o'.obj.2 al1 ib1 N xs2 al2 ib2 N (xs2.map E.moved))
      (fun _ o' => ∃ ys, Pair H E N ib1 ib2 o'.m (SmallVector.empty ib1 N al1) o'.obj.2 al1 ib1 N [] al2 ib2 N ys ∧
        ys.length = xs2.length)
      ⟨(SmallVector.empty ib1 N al1, v2), m⟩ := by
  have key := Sfl.initMove_spec h
  unfold SmallVector.initMove at key
  unfold initMove
  rw [wp_bind, wp_getObj] at key ⊢
  rw [if_pos (by rw [h.two.obj])] at key
  simp only [wp_bind, wp_lift, wp_setObj] at key ⊢
  refine wp_mono key ?_ (fun _ _ h => h)
  rintro l s ⟨b1', cap1', b2', cap2', ys, k, hy⟩
  have e1 := Own.recap k.one rfl rfl
  have e2 := Own.recap k.two (by simp [h.two.obj]) (by simp [h.two.obj])
  rcases k.one.obj, k.two.obj with ⟨o1, o2⟩
  have q1 : b1' = ib1 := by have := congrArg (·.first.blk) o1; simpa [SmallVector.empty] using this.symm
  have q2 : b2' = ib2 := by have := congrArg (·.first.blk) o2; simpa [h.two.obj] using this.symm
  have q3 : cap1' = N := by have := congrArg (·.eos.off) o1; simpa [SmallVector.empty] using this.symm
  have q4 : cap2' = N := by have := congrArg (·.eos.off) o2; simpa [h.two.obj] using this.symm
  subst q1 q2 q3
  rw [q4] at k
  rcases hy with rfl | ⟨_, rfl, hc⟩
  · exact k
  · have h0 : xs2 = [] := by
      have := h.two.len
      cases xs2 with
      | nil => rfl
      | cons x l => simp at this; omega
    subst h0
    exact k

theorem assignMove_spec (h : Pair H E N ib1 ib2 m v1 v2 al1 ib1 N xs1 al2 ib2 N xs2) :
    wp (assignMove E N)
      (fun _ o' => Pair H E N ib1 ib2 o'.m o'.obj.1 o'.obj.2 al1 ib1 N xs2 al2 ib2 N (xs2.map E.moved))
      (fun _ o' => ∃ xs1' ys, Pair H E N ib1 ib2 o'.m o'.obj.1 o'.obj.2 al1 ib1 N xs1' al2 ib2 N ys ∧
        ys.length = xs2.length)
      ⟨(v1, v2), m⟩ := by
  unfold assignMove
  rw [wp_bind, wp_getObj]
  simp only [wp_bind, wp_onThis]
  have hf : v2.first = ⟨ib2, 0⟩ := by rw [h.two.obj]
  have hl : v2.last = ⟨ib2, xs2.length⟩ := by rw [h.two.obj]
  rw [hf, hl]
  refine wp_distance rfl (by simp) ?_
  have hlen : xs2.length ≤ N := h.two.len
  refine wp_mono (Fixes.wp (assignRange_fixes _) (wp_eq (assignRange_eq h.vst1 (by rw [args_length]; exact hlen))
    (assignRange_move_spec h.vst1 h.source))) ?_ ?_
  · rintro _ o' ⟨⟨b', cap', H', k2, k3⟩, hk⟩
    have k := h.stepMoved k2 k3
    have o1 := k.one.obj
    simp only [Vec.Kept, h.one.obj, o1] at hk
    obtain ⟨q1, q2⟩ := hk
    simp only [Ptr.mk.injEq] at q1 q2
    obtain ⟨rfl, _⟩ := q1
    obtain ⟨_, rfl⟩ := q2
    exact k
  · rintro _ o' ⟨⟨b', cap', xs', H', k2, k3⟩, hk⟩
    obtain ⟨zs, e1, k⟩ := h.stepDisturbed k2 k3
    have o1 := k.one.obj
    simp only [Vec.Kept, h.one.obj, o1] at hk
    obtain ⟨q1, q2⟩ := hk
    simp only [Ptr.mk.injEq] at q1 q2
    obtain ⟨rfl, _⟩ := q1
    obtain ⟨_, rfl⟩ := q2
    exact ⟨xs', zs, k, e1⟩

theorem Own.retag {ib1 al al' : Nat} {v : Vec} {xs : List α} (h : Own E ib1 N m v al ib1 N xs) :
    Own E ib1 N m ⟨⟨ib1, 0⟩, ⟨ib1, xs.length⟩, ⟨ib1, N⟩, al'⟩ al' ib1 N xs :=
  ⟨rfl, h.ibk, Or.inl ⟨rfl, rfl⟩, h.iraw, h.len, h.cells, h.capLe, h.nLe⟩

theorem swap_spec (h : Pair H E N ib1 ib2 m v1 v2 al1 ib1 N xs1 al2 ib2 N xs2) :
    wp (swap E)
      (fun _ o' => Pair H E N ib1 ib2 o'.m o'.obj.1 o'.obj.2 al1 ib1 N xs2 al2 ib2 N xs1)
      (fun _ o' => ¬ NothrowMove E ∧ ∃ ys1 ys2, ys1.length = xs1.length ∧ ys2.length = xs2.length ∧
        Pair H E N ib1 ib2 o'.m o'.obj.1 o'.obj.2 al1 ib1 N ys1 al2 ib2 N ys2)
      ⟨(v1, v2), m⟩ := by
  have h' : Pair H E N ib1 ib2 m _ _ al2 ib1 N xs1 al1 ib2 N xs2 :=
    ⟨h.wf, Own.retag h.one, Own.retag h.two, h.sep, h.rest⟩
  have o1 := h.one.obj
  have o2 := h.two.obj
  subst o1 o2
  unfold swap
  rw [wp_bind, wp_getObj, wp_bind]
  refine wp_distance rfl (by simp) ?_
  rw [wp_bind]
  refine wp_distance rfl (by simp) ?_
  simp only [Nat.sub_zero]
  by_cases hn : xs1.length ≤ xs2.length
  · rw [if_pos hn]
    have := internal_le h' hn
    unfold swapHalf at this
    simp only [wp_bind, wp_lift] at this ⊢
    refine wp_mono this ?_ ?_
    · intro _ s1 k1
      refine wp_mono k1 ?_ ?_
      · intro l s2 k2
        refine wp_mono k2 ?_ ?_
        · intro _ s3 k3
          rw [wp_setObj]
          simpa [swapped, Ptr.add] using k3
        · rintro _ s3 ⟨hE, ys1, ys2, q1, q2, q3⟩
          refine ⟨hE, ys1, ys2, q1, q2, ?_⟩
          simpa [swapped, Ptr.add] using q3
      · rintro _ s3 ⟨hE, ys1, ys2, q1, q2, q3⟩
        refine ⟨hE, ys1, ys2, q1, q2, ?_⟩
        simpa [swapped, Ptr.add] using q3
    · rintro _ s3 ⟨hE, ys1, ys2, q1, q2, q3⟩
      refine ⟨hE, ys1, ys2, q1, q2, ?_⟩
      simpa [swapped, Ptr.add] using q3
  · rw [if_neg hn]
    have := internal_le h'.symm (Nat.le_of_lt (Nat.lt_of_not_le hn))
    unfold swapHalf at this
    simp only [wp_bind, wp_lift] at this ⊢
    refine wp_mono this ?_ ?_
    · intro _ s1 k1
      refine wp_mono k1 ?_ ?_
      · intro l s2 k2
        refine wp_mono k2 ?_ ?_
        · intro _ s3 k3
          rw [wp_setObj]
          simpa [swapped, Ptr.add] using k3.symm
        · rintro _ s3 ⟨hE, ys1, ys2, q1, q2, q3⟩
          refine ⟨hE, ys2, ys1, q2, q1, ?_⟩
          simpa [swapped, Ptr.add] using q3.symm
      · rintro _ s3 ⟨hE, ys1, ys2, q1, q2, q3⟩
        refine ⟨hE, ys2, ys1, q2, q1, ?_⟩
        simpa [swapped, Ptr.add] using q3.symm
    · rintro _ s3 ⟨hE, ys1, ys2, q1, q2, q3⟩
      refine ⟨hE, ys2, ys1, q2, q1, ?_⟩
      simpa [swapped, Ptr.add] using q3.symm

end pairs

/-- Containers with the storage of static_vector satisfy the requirements if their constructors and modifiers do. -/
theorem specOf {Op I ρ : Type} {make : Fin K → I → VM α Unit} {exec : Fin K → Op → VM α (Option ρ)}
    {pre : Nat → Op → Bool} {okStep : List α → Op → Option ρ → List α → Prop}
    {failStep : List α → Op → Exn → List α → Prop} {initPre : I → Bool} {init : I → List α → Prop}
    {initFail : I → Exn → Prop}
    (hN : N ≤ E.maxSize)
    (hmake : ∀ (H : Heap α) (i : Fin K) (al : Nat) (m : St α) (x : I), Gone H al (ib i) N m → initPre x = true →
      wp (make i x) (fun _ o' => ∃ xs, VSt H E (ib i) N o' al (ib i) N xs ∧ init x xs)
        (fun e o' => Gone H al (ib i) N o'.m ∧ initFail x e) ⟨SmallVector.empty (ib i) N al, m⟩)
    (hexec : ∀ (H : Heap α) (i : Fin K) (al : Nat) (o : Obj Vec α) (xs : List α) (x : Op),
      VSt H E (ib i) N o al (ib i) N xs → pre xs.length x = true →
      wp (exec i x) (fun r o' => ∃ xs', VSt H E (ib i) N o' al (ib i) N xs' ∧ okStep xs x r xs')
        (fun e o' => ∃ xs', VSt H E (ib i) N o' al (ib i) N xs' ∧ failStep xs x e xs') o) :
    Spec (contOf E ib N make exec) (semOf E N pre okStep failStep initPre init initFail) (rep E ib N) where
  ok := rep_ok
  make := by
    intro i m al init hw hr hpre
    have hv := (raw_own (al := al) hN hr).vst hw (Rest.out _ _)
    refine wp_mono (hmake _ i al m init (hv.gone ⟨rfl, rfl⟩) hpre) ?_ ?_
    · rintro _ o' ⟨xs, h, h2⟩
      exact ⟨xs, now hw h, h2⟩
    · rintro e o' ⟨h1, h2⟩
      exact ⟨h1.rawFrame (E := E) hw, h2⟩
  copy := by
    rintro i j m al w al2 xs2 F2 hij hw hr ⟨h2, rfl⟩ hd
    have hp := Own.pair hw (raw_own (al := al) hN hr) h2 hd
    have hv := (raw_own (al := al) hN hr).vst hw (Rest.out _ _)
    show wp (initCopy E w) _ _ _
    have hl := h2.len
    have hl' : (args .ref ⟨ib j, 0⟩ xs2.length : List (Arg α)).length ≤ N := by rw [args_length]; exact hl
    unfold initCopy
    rw [wp_bind, h2.obj]
    refine wp_distance rfl (by simp) ?_
    have e := initWith_eq (E := E) (ib := ib i) (al := al) m hN hl'
    unfold initWith at e
    rw [bind_run (assert_run hl')] at e
    refine wp_eq e (wp_mono (initWith_spec (hv.gone ⟨rfl, rfl⟩) hN hp.exts) ?_ ?_)
    · rintro _ o' ⟨b', h, hin⟩
      rw [show max N xs2.length = N by omega, (hin hl).2] at h
      exact now hw h
    · rintro e o' ⟨h1, _⟩
      exact h1.rawFrame (E := E) hw
  move := by
    rintro i j m al w al2 xs2 F2 hij hw hr ⟨h2, rfl⟩ hd
    have hp := Own.pair hw (raw_own (al := al) hN hr) h2 hd
    refine wp_mono (initMove_spec hp) ?_ ?_
    · rintro _ o' h
      exact ⟨_, now2 hw h, rfl⟩
    · rintro e o' ⟨ys, h, hy⟩
      refine ⟨⟨h.one.ibk, h.one.raw⟩, ys, foot (ib j) (ib j), ⟨h.two, rfl⟩, h.sep.disj, ?_, hy⟩
      show Frame m (Both (foot (ib i) (ib i)) (foot (ib j) (ib j))) o'.m (Both (foot (ib i) (ib i)) (foot (ib j) (ib j)))
      rw [foot_both]
      exact Rest.toFrame hw h.wf h.rest
  destroy := by
    rintro i m v al xs F hw ⟨h, rfl⟩
    exact wp_mono (destructor_spec (h.vst hw (Rest.out _ _))) (fun _ _ ⟨g, _⟩ => g.rawFrame (E := E) hw) (fun _ _ h => h)
  size := by
    rintro i m v al xs F hw ⟨h, rfl⟩
    exact (SmallVector.correct _ E al (ib i) N).size _ _ ⟨_, _, h.vst hw (Rest.out _ _)⟩
  index := by
    rintro i m v al xs F k x hw ⟨h, rfl⟩ hk
    exact (SmallVector.correct _ E al (ib i) N).index _ _ _ _ ⟨_, _, h.vst hw (Rest.out _ _)⟩ hk
  exec := by
    rintro i m v al xs F op hw ⟨h, rfl⟩ hp
    refine wp_mono (hexec _ i al _ xs op (h.vst hw (Rest.out _ _)) hp) ?_ ?_
    · rintro r o' ⟨xs', k1, k2⟩
      exact ⟨xs', now hw k1, k2⟩
    · rintro r o' ⟨xs', k1, k2⟩
      exact ⟨xs', now hw k1, k2⟩
  assignCopy := by
    rintro i j m v al xs F w al2 xs2 F2 hij hw ⟨h, rfl⟩ ⟨h2, rfl⟩ hd _
    have hp := Own.pair hw h h2 hd
    have hv := h.vst hw (Rest.out _ _)
    show wp (assignCopy E N w) _ _ _
    unfold assignCopy
    rw [wp_bind, h2.obj]
    refine wp_distance rfl (by simp) ?_
    have hlen := h2.len
    refine wp_eq (assignRange_eq hv (by rw [args_length]; exact hlen)) (wp_mono (assignRange_spec hv hp.exts) ?_ ?_)
    · rintro _ o' ⟨b', cap', k, hk, _⟩
      obtain ⟨rfl, rfl⟩ := hk hlen
      exact now hw k
    · rintro _ o' ⟨b', cap', xs', k, hk, _⟩
      obtain ⟨rfl, rfl⟩ := hk hlen
      exact Or.inl ⟨xs', now hw k, k.len⟩
  assignMove := by
    rintro i j m v al xs F w al2 xs2 F2 hij hw ⟨h, rfl⟩ ⟨h2, rfl⟩ hd _
    have hp := Own.pair hw h h2 hd
    refine wp_mono (assignMove_spec hp) ?_ ?_
    · rintro _ o' k
      exact ⟨_, now2 hw k, rfl⟩
    · rintro e o' ⟨xs1', ys, k, hy⟩
      exact Or.inl ⟨xs1', ys, now2 hw k, k.one.len, hy⟩
  swap := by
    rintro i j m v al xs F w al2 xs2 F2 hij hw ⟨h, rfl⟩ ⟨h2, rfl⟩ hd hs
    have hp := Own.pair hw h h2 hd
    refine wp_mono (swap_spec hp) ?_ ?_
    · rintro _ o' k
      exact now2 hw k
    · rintro e o' ⟨hE, ys1, ys2, q1, q2, k⟩
      exact ⟨ys1, ys2, now2 hw k, hE, q1, q2⟩

/-- static_vector satisfies the requirements. -/
theorem spec (hN : N ≤ E.maxSize) : Spec (cont E ib N) (sem E N) (rep E ib N) :=
  specOf hN
    (fun _ i _ _ init hg hp => wp_mono (construct_spec (ib := ib i) init hg hN (by simpa using hp))
      (fun _ _ ⟨h, _⟩ => ⟨_, h, rfl⟩) (fun _ _ ⟨h, _, h2⟩ => ⟨h, h2⟩))
    (fun _ i _ _ _ op h hp => wp_mono (exec_spec (ib := ib i) op h hp)
      (fun _ _ ⟨xs', k1, _, k2⟩ => ⟨xs', k1, k2, k1.len⟩)
      (fun _ _ ⟨xs', k1, _, k2, k3⟩ => ⟨xs', k1, k2, k1.len, k3⟩))

end StaticVector
end Sfl
