import Verif.DevWorld
/-
  insert(pos, n, value) of devector at the ends, without reallocation, when value may be an element. (Helper lemmas.)
-/

set_option linter.unusedSimpArgs false

namespace Sfl.Devector
open Sfl
variable {α : Type} {E : Env α} {H : Heap α} {al b cap f n : Nat} {o : Obj DVec α} {xs : List α} {s : St α} {a : Arg α} {v : α}

theorem wp_uninitMove_nil {x : Nat} {d : Ptr} {Q : Ptr → St α → Prop} {X : Exn → St α → Prop} (hQ : Q d s) :
    wp (uninitMove E ⟨b, x⟩ ⟨b, x⟩ d) Q X s := by
  unfold uninitMove
  rw [wp_bind]
  refine wp_distance rfl (by simp) ?_
  simp only [Nat.sub_self, args]
  unfold uninit uninitGo
  exact hQ

theorem wp_destroy_nil {x : Nat} {Q : Unit → St α → Prop} {X : Exn → St α → Prop} (hQ : Q () s) :
    wp (destroyRange (α := α) ⟨b, x⟩ ⟨b, x⟩) Q X s := by
  unfold destroyRange
  rw [wp_bind]
  refine wp_distance rfl (by simp) ?_
  simp only [Nat.sub_self]
  unfold destroyN
  exact hQ

theorem wp_fill_nil {x : Nat} {Q : Ptr × Proxy α → St α → Prop} {X : Exn → St α → Prop} (hQ : Q (⟨b, x⟩, .fill a) s) :
    wp ((Proxy.fill a).insertN E ⟨b, x⟩ 0) Q X s := by
  unfold Proxy.insertN
  rw [wp_bind]
  dsimp only [Ptr.add]
  refine wp_fillRange ?_
  exact hQ

/-- At the end, with room for the new elements behind the last one. -/
theorem insertFillN_alias_back (h : DSt H E o al b cap f xs) (hv : a.value o.m = some v) (hsrc : a.src E = none)
    (hr : f + xs.length + n ≤ cap) :
    wp (insertFillN E ⟨b, f + xs.length⟩ n a) (Inserted H E al xs (List.replicate n v) xs.length)
      (fun _ o' => DSt H E o' al b cap f xs) o := by
  unfold insertFillN
  rw [wp_bind, wp_getObj, wp_bind, wp_assert, h.obj]
  refine ⟨⟨rfl, by simp, by simp⟩, ?_⟩
  unfold insertAux
  rw [wp_bind, wp_getObj, wp_bind, wp_assert, h.obj]
  refine ⟨⟨rfl, by simp, by simp⟩, ?_⟩
  rw [wp_bind]
  refine dist (by omega) ?_
  rw [wp_ite]
  split
  · rename_i hn0
    subst hn0
    rw [wp_pure]
    exact ⟨b, cap, f, by simpa using h, by simp [Ptr.add]⟩
  rename_i hn0
  rw [wp_bind]
  refine dist (by omega) ?_
  rw [wp_ite, if_neg (by omega), wp_bind]
  refine wp_availableBack h ?_
  rw [wp_ite, if_pos (by omega), wp_ite, if_neg (by omega)]
  dsimp only [Ptr.add]
  rw [show f + xs.length - f = xs.length by omega, Nat.sub_self, Nat.add_zero]
  simp only [wp_bind, wp_lift, wp_setObj, wp_pure]
  unfold intoBack2
  rw [wp_bind]
  refine wp_uninitMove_nil ?_
  rw [wp_guard, wp_bind]
  refine wp_fill_nil ?_
  rw [wp_bind]
  refine dist (by omega) ?_
  rw [show f + xs.length + n - (f + xs.length) = n by omega]
  simp only [Proxy.uninitInsertN, wp_bind, wp_pure, Ptr.add]
  refine wp_uninitFill rfl ?_
  refine h.fillBack rfl hv hsrc hr ?_ ?_
  · intro s' _ k
    exact ⟨b, cap, f, by simpa using k, rfl⟩
  · intro s' k
    refine wp_destroy_nil ?_
    exact k

/-- At the beginning, with room for the new elements before the first one. -/
theorem insertFillN_alias_front (h : DSt H E o al b cap f xs) (hv : a.value o.m = some v) (hsrc : a.src E = none)
    (hx : xs ≠ []) (hr : n ≤ f) :
    wp (insertFillN E ⟨b, f⟩ n a) (Inserted H E al xs (List.replicate n v) 0)
      (fun _ o' => DSt H E o' al b cap f xs) o := by
  have hlen : 0 < xs.length := List.length_pos_iff.mpr hx
  unfold insertFillN
  rw [wp_bind, wp_getObj, wp_bind, wp_assert, h.obj]
  refine ⟨⟨rfl, by simp, by simp⟩, ?_⟩
  unfold insertAux
  rw [wp_bind, wp_getObj, wp_bind, wp_assert, h.obj]
  refine ⟨⟨rfl, by simp, by simp⟩, ?_⟩
  rw [wp_bind]
  refine dist (by omega) ?_
  rw [wp_ite]
  split
  · rename_i hn0
    subst hn0
    rw [wp_pure]
    exact ⟨b, cap, f, by simpa using h, by simp [Ptr.add]⟩
  rename_i hn0
  rw [wp_bind]
  refine dist (by omega) ?_
  rw [wp_ite, if_pos (by omega), wp_bind]
  refine wp_availableFront h ?_
  rw [wp_ite, if_pos (by omega), wp_ite, if_neg (by omega)]
  have hsub : (⟨b, f⟩ : Ptr).sub n = ⟨b, f - n⟩ := by unfold Ptr.sub; rw [if_pos (by simpa using hr)]
  rw [hsub]
  dsimp only [Ptr.add]
  rw [Nat.sub_self, Nat.add_zero, Nat.add_zero]
  simp only [wp_bind, wp_lift, wp_setObj, wp_pure]
  unfold intoFront2
  rw [wp_bind]
  refine wp_uninitMove_nil ?_
  rw [wp_guard, wp_bind]
  refine dist (by omega) ?_
  rw [show f - (f - n) = n by omega]
  simp only [Proxy.uninitInsertN, wp_bind, wp_pure, Ptr.add]
  rw [show f - n + n = f by omega]
  refine h.fillFront hv hsrc hr ?_ ?_
  · intro s' _ k
    rw [wp_guard, wp_bind]
    refine dist (by omega) ?_
    rw [Nat.sub_self, wp_bind]
    refine wp_fill_nil ?_
    rw [wp_pure]
    exact ⟨b, cap, f - n, by simpa using k, rfl⟩
  · intro s' k
    refine wp_destroy_nil ?_
    exact k

end Sfl.Devector
