import Verif.SelfMove
import Verif.CompactWorld
import Verif.SegWorld
import Verif.SegDevWorld
import Verif.DevWorld
/-
  Self move assignment of compact_vector, segmented_vector, segmented_devector and devector.
-/

namespace Sfl
open World
variable {K : Nat} {α : Type}

/-! ### compact_vector -/

namespace CompactVector
open Sfl.Vector (VM)

/-- compact_vector.hpp:1297-1326 `assign_move` for `this == &other` (248-252): the allocators are equal, `clear()` has
made the pointers null, which are then copied to themselves and set to null. -/
def assignMoveSelf : VM α Unit := do
  clear
  let v ← getObj
  setObj (v.steal v).null

variable {E : Env α} {H : Heap α} {o : Obj Vec α} {al b : Nat} {xs : List α}

theorem assignMoveSelf_spec (h : CSt H E o al b xs) :
    wp (assignMoveSelf : VM α Unit) (fun _ o' => CSt H E o' al 0 []) (fun _ _ => False) o := by
  unfold assignMoveSelf
  simp only [wp_bind, wp_getObj]
  refine wp_mono (clear_spec h) ?_ (fun _ _ h => h)
  intro _ o' k
  rw [wp_setObj]
  have e : (o'.obj.steal o'.obj).null = CompactVector.empty al := by
    rw [k.1]; rfl
  rw [e]
  exact emptied ⟨rfl, k.2⟩

theorem selfSpec : SelfSpec (rep K E) (fun _ => assignMoveSelf) (fun _ ys => ys = []) (fun _ _ => False) := by
  rintro i m v al xs F hw ⟨b, h, rfl⟩
  refine wp_mono (assignMoveSelf_spec (h.vst hw (Rest.out _ _))) ?_ (fun _ _ h => h.elim)
  rintro _ o' k
  exact ⟨[], now hw k, rfl⟩

end CompactVector

/-! ### segmented_vector -/

namespace SegVec

/-- segmented_vector.hpp:1414-1520 `assign_move` for `this == &other` (262-266): the allocators are equal; the first swap
(1441) exchanges `data_` with itself, the second (1448) gives the container the storage of `temp`. -/
def assignMoveSelf (E : Env α) (N : Nat) : SM α Unit := do
  let v ← getObj
  let (_, temp) ← onLocal (blank v.alloc) (allocateStorage E N 0)
  giveUp N
  let v ← getObj
  setObj temp
  let _ ← onLocal v (destructor N)
  pure ()

variable {E : Env α} {N : Nat} {o : Obj SVec α} {al tcap : Nat} {V : View} {xs : List α}

theorem assignMoveSelf_spec (h : GSt N o al V tcap xs) :
    wp (assignMoveSelf E N)
      (fun _ o' => ∃ V' tcap', GSt N o' al V' tcap' [] ∧ Frame o.m V.foot o'.m V'.foot)
      (fun _ o' => GSt N o' al V tcap xs ∧ Frame o.m V.foot o'.m V.foot) o := by
  have hN : 0 < N := h.num ▸ h.lay.npos
  have ha : o.obj.alloc = al := by rw [h.obj]; rfl
  unfold assignMoveSelf
  rw [wp_bind, wp_getObj, wp_bind, wp_onLocal, ha]
  refine wp_mono (allocateStorage_spec (o := ⟨blank al, o.m⟩) hN h.lay.wf rfl) ?_ ?_
  · rintro _ o1 ⟨V1, tcap1, hg, -, -, hf⟩
    obtain ⟨g0, hd0⟩ := h.keep (w := o.obj) hf (fun _ _ h => h)
    dsimp only
    rw [wp_bind]
    refine wp_mono (giveUp_spec E g0) ?_ (fun _ _ h => h.elim)
    rintro _ o2 ⟨hgv, hf2⟩
    rw [wp_bind, wp_getObj, wp_bind, wp_setObj, wp_bind, wp_onLocal]
    refine wp_mono hgv.destructor ?_ (fun _ _ h => h.elim)
    rintro _ o3 h3
    rw [wp_pure, h3]
    obtain ⟨g1, -⟩ := GSt.keep (w := o1.obj) hg hf2 (fun c h1 h2 => hd0 c h2 h1)
    have a1 := hf.both (G := V.foot)
    have a2 := hf2.both (G := V1.foot)
    rw [both_no] at a1 a2
    rw [both_comm] at a1
    exact ⟨V1, tcap1, g1, a1.trans a2⟩
  · rintro e o1 ⟨hf, -⟩
    obtain ⟨g0, -⟩ := h.keep (w := o.obj) hf (fun _ _ h => h)
    have := hf.both (G := V.foot)
    rw [both_no] at this
    exact ⟨g0, this⟩

theorem selfSpec : SelfSpec (rep K N) (fun _ => assignMoveSelf E N) (fun _ ys => ys = []) (fun xs ys => ys = xs) := by
  rintro i m v al xs F hw ⟨V, tcap, h, rfl⟩
  refine wp_mono (assignMoveSelf_spec (E := E) h) ?_ ?_
  · rintro _ o' ⟨V', tcap', g, hf⟩
    exact ⟨[], ⟨_, ⟨V', tcap', g, rfl⟩, hf⟩, rfl⟩
  · rintro _ o' ⟨g, hf⟩
    exact ⟨xs, ⟨_, ⟨V, tcap, g, rfl⟩, hf⟩, rfl⟩

end SegVec

/-! ### segmented_devector -/

namespace SegDev

/-- segmented_devector.hpp:2028-2136 `assign_move` for `this == &other` (264-268), as for segmented_vector. -/
def assignMoveSelf (E : Env α) (N : Nat) : DM α Unit := do
  let v ← getObj
  let (_, temp) ← onLocal (blank v.alloc) (allocateStorage E N 0)
  giveUp N
  let v ← getObj
  setObj temp
  let _ ← onLocal v (destructor N)
  pure ()

variable {E : Env α} {H : Heap α} {N : Nat} {o : Obj SDVec α} {al tcap f : Nat} {V : View} {xs : List α}

theorem assignMoveSelf_spec (h : DSt H N o al V tcap f xs) :
    wp (assignMoveSelf E N)
      (fun _ o' => ∃ V' tcap' H', DSt H' N o' al V' tcap' 0 [] ∧ Frame o.m V.foot o'.m V'.foot)
      (fun _ o' => ∃ H', DSt H' N o' al V tcap f xs ∧ Frame o.m V.foot o'.m V.foot) o := by
  have hN : 0 < N := h.num ▸ h.lay.npos
  have ha : o.obj.alloc = al := by rw [h.obj]; rfl
  unfold assignMoveSelf
  rw [wp_bind, wp_getObj, wp_bind, SegVec.wp_onLocal, ha]
  refine wp_mono (temp_spec (al := al) hN h.lay.wf) ?_ ?_
  · rintro _ o1 ⟨V1, tcap1, hg, hf⟩
    obtain ⟨g0, hd0⟩ := DSt.keep (w := o.obj) h hf (fun _ _ h => h)
    dsimp only
    rw [wp_bind]
    refine wp_mono (giveUp_frame g0) ?_ (fun _ _ h => h.elim)
    rintro _ o2 ⟨hgv, hf2⟩
    rw [wp_bind, wp_getObj, wp_bind, wp_setObj, wp_bind, SegVec.wp_onLocal]
    refine wp_mono hgv.destructor ?_ (fun _ _ h => h.elim)
    rintro _ o3 h3
    rw [wp_pure, h3]
    obtain ⟨g1, -⟩ := DSt.keep (w := o1.obj) hg hf2 (fun c h1 h2 => hd0 c h2 h1)
    have a1 := hf.both (G := V.foot)
    have a2 := hf2.both (G := V1.foot)
    rw [SegVec.both_no] at a1 a2
    rw [SegVec.both_comm] at a1
    exact ⟨V1, tcap1, _, g1, a1.trans a2⟩
  · rintro e o1 ⟨-, hf⟩
    obtain ⟨g0, -⟩ := DSt.keep (w := o.obj) h hf (fun _ _ h => h)
    have := hf.both (G := V.foot)
    rw [SegVec.both_no] at this
    exact ⟨_, g0, this⟩

theorem selfSpec : SelfSpec (rep K N) (fun _ => assignMoveSelf E N) (fun _ ys => ys = []) (fun xs ys => ys = xs) := by
  rintro i m v al xs F hw ⟨V, tcap, f, H, h, rfl⟩
  refine wp_mono (assignMoveSelf_spec (E := E) h) ?_ ?_
  · rintro _ o' ⟨V', tcap', H', g, hf⟩
    exact ⟨[], ⟨_, ⟨V', tcap', 0, H', g, rfl⟩, hf⟩, rfl⟩
  · rintro _ o' ⟨H', g, hf⟩
    exact ⟨xs, ⟨_, ⟨V, tcap, f, H', g, rfl⟩, hf⟩, rfl⟩

end SegDev

/-! ### devector -/

namespace Devector

/-- devector.hpp:2005-2041 `assign_move` for `this == &other` (258-262): the allocators are equal, `reset()` has made the
pointers null, which are then copied to themselves and set to null. -/
def assignMoveSelf : DM α Unit := do
  reset
  let v ← getObj
  setObj { v with bos := Ptr.null, first := Ptr.null, last := Ptr.null, eos := Ptr.null }

variable {E : Env α} {H : Heap α} {o : Obj DVec α} {al b cap : Nat} {xs : List α}

theorem assignMoveSelf_spec (h : DSt H E o al b cap 0 xs) :
    wp (assignMoveSelf : DM α Unit) (fun _ o' => DSt H E o' al 0 0 0 []) (fun _ _ => False) o := by
  unfold assignMoveSelf
  simp only [wp_bind, wp_getObj]
  refine wp_mono (reset_spec h) ?_ (fun _ _ h => h)
  rintro _ ⟨v, m⟩ k
  rw [wp_setObj]
  have e := k.obj
  dsimp only at e ⊢
  subst e
  exact k

/-- `c.shrink_to_fit(); c = std::move(c);`, a client's code: afterwards there are no free cells in front of the elements
(devector.hpp:551-591, 258-262). -/
def shrinkAssignMoveSelf (E : Env α) : DM α Unit := do
  shrinkToFit E
  assignMoveSelf

theorem selfSpec : SelfSpec (rep K E) (fun _ => shrinkAssignMoveSelf E) (fun _ ys => ys = []) (fun xs ys => ys.length = xs.length) := by
  rintro i m v al xs F hw ⟨b, cap, f, h, rfl⟩
  show wp (do shrinkToFit E; assignMoveSelf) _ _ _
  rw [wp_bind]
  refine wp_mono (shrinkToFit_spec (h.dst hw (Rest.out _ _))) ?_ ?_
  · rintro _ o1 ⟨b1, k⟩
    refine wp_mono (assignMoveSelf_spec k) ?_ (fun _ _ h => h.elim)
    rintro _ o' k
    exact ⟨[], now hw k, rfl⟩
  · rintro e o1 ⟨xs', k, hl, -⟩
    exact ⟨xs', now hw k, hl⟩

end Devector
end Sfl
