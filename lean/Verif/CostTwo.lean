import Verif.CostFlat2
import Verif.CostDev4
import Verif.CostCompact
import Verif.CostStatic
import Verif.PropWork
import Verif.WorldVec
/-
  What construction, copying, moving, assigning and swapping whole containers costs. First the bookkeeping for client programs, then
  the functions of each container type.
-/

set_option linter.unusedSimpArgs false

namespace Sfl

namespace World
open Sq
variable {α : Type} {K : Nat} {Op I V ρ : Type}

/-- Prices of the functions that make, copy, move or swap whole containers. -/
structure Price where
  /-- for each element that is constructed or assigned -/
  unit : Nat
  /-- for each call -/
  base : Nat
  /-- for taking over the storage of a container of `n` elements -/
  take : Nat → Nat
  /-- for exchanging containers of `n` and `k` elements -/
  swap : Nat → Nat → Nat

/-- The price of a step that is not a call of a modifier: a constructor pays for the elements it makes, copying pays for the elements
that are copied, moving is free of that if the allocators are equal or (`takes`) become so. -/
def WOp.price (P : Price) (len : I → Nat) (takes : Bool) (size alloc : Fin K → Nat) : WOp K Op I → Nat
  | .make _ _ init => P.unit * len init + P.base
  | .makeCopy _ j _ => P.unit * size j + P.base
  | .makeMove _ j al => if al.getD (alloc j) = alloc j then P.take (size j) else P.unit * size j + P.base
  | .destroy _ => 0
  | .op _ _ => 0
  | .assignCopy _ j => P.unit * size j + P.base
  | .assignMove i j => if takes = true ∨ alloc i = alloc j then P.take (size j) else P.unit * size j + P.base
  | .swap i j => P.swap (size i) (size j)

/-- The constructors of a container type keep to the prices. -/
def Made (C : Cont K Op I V α ρ) (P : Price) (len : I → Nat) : Prop :=
  ∀ {i m al init} {o' : Obj V α}, (C.make i init ⟨C.blank i al, m⟩).final = some o' → o'.m.tick ≤ m.tick + (P.unit * len init + P.base)

/-- The other functions of a container type keep to the prices. -/
structure Priced (C : Cont K Op I V α ρ) (S : Sem Op I α ρ) (R : Rep K V α) (P : Price) : Prop where
  copy : ∀ {i j m al w al2 xs F} {o' : Obj V α}, m.Wf → R.raw i m → R.rep j m w al2 xs F →
    (C.copyInit i w ⟨C.blank i al, m⟩).final = some o' → o'.m.tick ≤ m.tick + (P.unit * xs.length + P.base)
  move : ∀ {i j m al w al2 xs F} {o' : Obj (V × V) α}, m.Wf → R.raw i m → R.rep j m w al2 xs F →
    (C.moveInit i j ⟨(C.blank i al, w), m⟩).final = some o' →
    o'.m.tick ≤ m.tick + if al = al2 then P.take xs.length else P.unit * xs.length + P.base
  destroy : ∀ {i m v al xs F} {o' : Obj V α}, m.Wf → R.rep i m v al xs F → (C.destroy i ⟨v, m⟩).final = some o' → o'.m.tick ≤ m.tick
  assignCopy : ∀ {i j m v al xs F w al2 xs2 F2} {o' : Obj V α}, m.Wf → R.rep i m v al xs F → R.rep j m w al2 xs2 F2 → Disj F F2 →
    (C.assignCopy i j w ⟨v, m⟩).final = some o' → o'.m.tick ≤ m.tick + (P.unit * xs2.length + P.base)
  assignMove : ∀ {i j m v al xs F w al2 xs2 F2} {o' : Obj (V × V) α}, m.Wf → R.rep i m v al xs F → R.rep j m w al2 xs2 F2 → Disj F F2 →
    (C.assignMove i j ⟨(v, w), m⟩).final = some o' →
    o'.m.tick ≤ m.tick + if S.takes = true ∨ al = al2 then P.take xs2.length else P.unit * xs2.length + P.base
  swap : ∀ {i j m v al xs F w al2 xs2 F2} {o' : Obj (V × V) α}, m.Wf → R.rep i m v al xs F → R.rep j m w al2 xs2 F2 → Disj F F2 →
    (C.swap i j ⟨(v, w), m⟩).final = some o' → o'.m.tick ≤ m.tick + P.swap xs.length xs2.length

section
variable {R : Rep K V α} {C : Cont K Op I V α ρ} {S : Sem Op I α ρ} {m0 : St α} {P : Price} {len : I → Nat}

theorem create_tick {i : Fin K} {v : V} {p : M (Obj V α) Unit} {o o' : Slots K V α} {r : Out (Option ρ)}
    (h : (create i v p : M (Slots K V α) (Out (Option ρ))) o = .ok r o') : ∃ o1, (p ⟨v, o.m⟩).final = some o1 ∧ o'.m = o1.m := by
  unfold create at h
  split at h <;> rename_i hp
  · cases h; exact ⟨_, by rw [hp]; rfl, rfl⟩
  · cases h; exact ⟨_, by rw [hp]; rfl, rfl⟩
  · cases h

theorem create2_tick {i j : Fin K} {v w : V} {p : M (Obj (V × V) α) Unit} {o o' : Slots K V α} {r : Out (Option ρ)}
    (h : (create2 i j v w p : M (Slots K V α) (Out (Option ρ))) o = .ok r o') :
    ∃ o1, (p ⟨(v, w), o.m⟩).final = some o1 ∧ o'.m = o1.m := by
  unfold create2 at h
  split at h <;> rename_i hp
  · cases h; exact ⟨_, by rw [hp]; rfl, rfl⟩
  · cases h; exact ⟨_, by rw [hp]; rfl, rfl⟩
  · cases h

theorem call2_tick {i j : Fin K} {v w : V} {p : M (Obj (V × V) α) Unit} {o o' : Slots K V α} {r : Out (Option ρ)}
    (h : (call2 i j v w p : M (Slots K V α) (Out (Option ρ))) o = .ok r o') :
    ∃ o1, (p ⟨(v, w), o.m⟩).final = some o1 ∧ o'.m = o1.m := by
  unfold call2 at h
  split at h <;> rename_i hp
  · cases h; exact ⟨_, by rw [hp]; rfl, rfl⟩
  · cases h; exact ⟨_, by rw [hp]; rfl, rfl⟩
  · cases h

theorem call_tick {β : Type} {i : Fin K} {v : V} {p : M (Obj V α) β} {f : β → Out (Option ρ)} {o o' : Slots K V α} {r : Out (Option ρ)}
    (h : call i v p f o = .ok r o') : ∃ o1, (p ⟨v, o.m⟩).final = some o1 ∧ o'.m = o1.m := by
  unfold call at h
  split at h <;> rename_i hp
  · cases h; exact ⟨_, by rw [hp]; rfl, rfl⟩
  · cases h; exact ⟨_, by rw [hp]; rfl, rfl⟩
  · cases h

theorem delete_tick {i : Fin K} {v : V} {p : M (Obj V α) Unit} {o o' : Slots K V α} {r : Out (Option ρ)}
    (h : (delete i v p : M (Slots K V α) (Out (Option ρ))) o = .ok r o') : ∃ o1, (p ⟨v, o.m⟩).final = some o1 ∧ o'.m = o1.m := by
  unfold delete at h
  split at h <;> rename_i hp
  · cases h; exact ⟨_, by rw [hp]; rfl, rfl⟩
  · cases h; exact ⟨_, by rw [hp]; rfl, rfl⟩
  · cases h

/-- `size` and `alloc` are the sizes and allocators of the containers that exist. -/
def Seen (C : Cont K Op I V α ρ) (s : Slots K V α) (size alloc : Fin K → Nat) : Prop :=
  ∀ i v, s.obj i = some v → C.alloc v = alloc i ∧ ∃ o1, C.size ⟨v, s.m⟩ = .ok (size i) o1

/-- A step keeps to the prices. -/
theorem Priced.step (hP : Priced C S R P) (hS : Spec C S R) {o o' : Slots K V α} {A : Abs K α} {F : Fin K → Foot}
    (h : Inv R m0 o A F) {x : WOp K Op I} {r : Out (Option ρ)} (hx : World.step C S x o = .ok r o') (hop : ∀ i y, x ≠ .op i y)
    (hM : (∀ i al init, x ≠ .make i al init) ∨ Made C P len)
    {size alloc : Fin K → Nat} (hs : Seen C o size alloc) : o'.m.tick ≤ o.m.tick + x.price P len S.takes size alloc := by
  have hz : ∀ {i : Fin K} {v : V} {al : Nat} {xs : List α} {F : Foot}, o.obj i = some v → R.rep i o.m v al xs F →
      size i = xs.length ∧ alloc i = al := by
    intro i v al xs F hi hr
    obtain ⟨h1, o1, h2⟩ := hs i v hi
    have := wp_ok h2 (hS.size h.wf hr)
    exact ⟨this.1, by rw [← h1, hS.ok.alloc hr]⟩
  have hR : ∀ {i : Fin K}, o.obj i = none → R.raw i o.m := by
    intro i hi
    have hc := h.cell i
    rw [hi] at hc
    unfold Rep.cell at hc
    split at hc
    · exact hc.2
    · rename_i e _; cases e
    · exact hc.elim
  unfold World.step at hx
  cases x with
  | make i al init =>
    dsimp only at hx
    split at hx
    · rename_i hi
      split at hx
      · obtain ⟨o1, h1, e⟩ := create_tick hx
        rw [e]
        exact hM.elim (fun h => absurd rfl (h _ _ _)) fun h => h h1
      · cases hx; exact Nat.le_add_right _ _
    · cases hx; exact Nat.le_add_right _ _
  | makeCopy i j al =>
    dsimp only at hx
    split at hx
    · rename_i w hi hj
      obtain ⟨_, _, hA, hr⟩ := h.liveAt hj
      obtain ⟨o1, h1, e⟩ := create_tick hx
      rw [e]
      show _ ≤ _ + (P.unit * size j + P.base)
      rw [(hz hj hr).1]
      exact hP.copy h.wf (hR hi) hr h1
    · cases hx; exact Nat.le_add_right _ _
  | makeMove i j al =>
    dsimp only at hx
    split at hx
    · rename_i w hi hj
      obtain ⟨a2, _, hA, hr⟩ := h.liveAt hj
      obtain ⟨o1, h1, e⟩ := create2_tick hx
      rw [e]
      show _ ≤ _ + if al.getD (alloc j) = alloc j then P.take (size j) else P.unit * size j + P.base
      rw [(hz hj hr).1, (hz hj hr).2]
      rw [hS.ok.alloc hr] at h1
      exact hP.move h.wf (hR hi) hr h1
    · cases hx; exact Nat.le_add_right _ _
  | destroy i =>
    dsimp only at hx
    split at hx
    · rename_i v hi
      obtain ⟨_, _, -, hr⟩ := h.liveAt hi
      obtain ⟨o1, h1, e⟩ := delete_tick hx
      rw [e]
      exact hP.destroy h.wf hr h1
    · cases hx; exact Nat.le_add_right _ _
  | op i y => exact absurd rfl (hop i y)
  | assignCopy i j =>
    dsimp only at hx
    split at hx
    · rename_i v w hi hj
      split at hx
      · cases hx; exact Nat.le_add_right _ _
      · rename_i hij
        obtain ⟨_, _, -, h1⟩ := h.liveAt hi
        obtain ⟨_, _, hA, h2⟩ := h.liveAt hj
        rw [sized_eq hS h.wf h1 h2] at hx
        split at hx
        · obtain ⟨o1, h3, e⟩ := call_tick hx
          rw [e]
          show _ ≤ _ + (P.unit * size j + P.base)
          rw [(hz hj h2).1]
          exact hP.assignCopy h.wf h1 h2 (h.disj i j hij) h3
        · cases hx; exact Nat.le_add_right _ _
    · cases hx; exact Nat.le_add_right _ _
  | assignMove i j =>
    dsimp only at hx
    split at hx
    · rename_i v w hi hj
      split at hx
      · cases hx; exact Nat.le_add_right _ _
      · rename_i hij
        obtain ⟨_, _, -, h1⟩ := h.liveAt hi
        obtain ⟨_, _, hA, h2⟩ := h.liveAt hj
        rw [sized_eq hS h.wf h1 h2] at hx
        split at hx
        · obtain ⟨o1, h3, e⟩ := call2_tick hx
          rw [e]
          show _ ≤ _ + if S.takes = true ∨ alloc i = alloc j then P.take (size j) else P.unit * size j + P.base
          rw [(hz hj h2).1, (hz hj h2).2, (hz hi h1).2]
          exact hP.assignMove h.wf h1 h2 (h.disj i j hij) h3
        · cases hx; exact Nat.le_add_right _ _
    · cases hx; exact Nat.le_add_right _ _
  | swap i j =>
    dsimp only at hx
    split at hx
    · rename_i v w hi hj
      split at hx
      · cases hx; exact Nat.le_add_right _ _
      · rename_i hij
        obtain ⟨_, _, -, h1⟩ := h.liveAt hi
        obtain ⟨_, _, hA, h2⟩ := h.liveAt hj
        split at hx
        · obtain ⟨o1, h3, e⟩ := call2_tick hx
          rw [e]
          show _ ≤ _ + P.swap (size i) (size j)
          rw [(hz hj h2).1, (hz hi h1).1]
          exact hP.swap h.wf h1 h2 (h.disj i j hij) h3
        · cases hx; exact Nat.le_add_right _ _
    · cases hx; exact Nat.le_add_right _ _

end

end World

end Sfl
