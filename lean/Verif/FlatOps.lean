import Verif.Flat
/-
  Correctness of the single steps of the ordered flat containers.
-/

namespace Sfl.Flat
open Sfl.Vector (VM)
open Sq (Src)
variable {α κ : Type} {E : Env α} {H : Heap α} {al ib N b cap : Nat} {o : Obj Vec α} {xs : List α} {C : Order α κ}

theorem wp_distance_eq {σ : Type} {s : σ} {first last : Ptr} {Q : Nat → σ → Prop} {X : Exn → σ → Prop}
    (hb : first.blk = last.blk) (hle : first.off ≤ last.off) :
    wp (distance first last) Q X s = Q (last.off - first.off) s := by
  unfold wp distance; simp [hb, hle]

/-- Where no element is overwritten before the argument is used, insert_exactly_at is small_vector::emplace. -/
theorem insertExactlyAt_of_emplace {temp : Bool} {a : Arg α} {k : Nat} {Q : Ptr → Obj Vec α → Prop}
    {X : Exn → Obj Vec α → Prop} (h : VSt H E ib N o al b cap xs) 
    (ht : temp = true ∨ xs.length = cap ∨ k = xs.length)
    (hw : wp (SmallVector.emplace E ib N ⟨b, k⟩ a) Q X o) : wp (insertExactlyAt temp E ib N ⟨b, k⟩ a) Q X o := by
  unfold SmallVector.emplace at hw
  unfold insertExactlyAt
  simp only [wp_bind, wp_getObj, wp_ite, wp_assert] at hw ⊢
  rw [h.obj] at hw ⊢
  obtain ⟨-, hw⟩ := hw
  dsimp only at hw ⊢
  by_cases hfull : (⟨b, xs.length⟩ : Ptr) ≠ ⟨b, cap⟩
  · rw [if_pos hfull] at hw ⊢
    unfold insertInPlace insertMiddle
    simp only [wp_bind, wp_getObj, wp_ite]
    rw [h.obj]
    dsimp only
    rw [wp_distance_eq (first := ⟨b, 0⟩) (last := ⟨b, k⟩) rfl (Nat.zero_le _)]
    split at hw
    · rename_i he
      rw [if_pos he]; exact hw
    · rename_i he
      rw [if_neg he]
      have : temp = true := by
        rcases ht with ht | ht | ht
        · exact ht
        · exact absurd (by rw [ht]) hfull
        · exact absurd (by simp [Ptr.add, ht]) he
      rw [if_pos this, h.obj]
      exact hw
  · rw [if_neg hfull] at hw ⊢
    rw [wp_distance_eq (first := ⟨b, 0⟩) (last := ⟨b, k⟩) rfl (Nat.zero_le _)]
    exact hw

/-- What is left after an insertion at position `k` has thrown. -/
structure InsFail (H : Heap α) (E : Env α) (ib N al b cap : Nat) (temp : Bool) (a : Arg α) (xs : List α) (k : Nat)
    (e : Exn) (o o' : Obj Vec α) (xs' : List α) : Prop where
  kept : Kept H E ib N al b cap e o o' (xs.length + 1) xs'
  strong : Strong E → xs.length = cap ∨ k = xs.length → xs' = xs
  same : NothrowMove E → temp = true ∨ a.isRv = true → xs' = xs
  lenErr : e = .lengthError → E.maxSize < xs.length + 1
  len : xs'.length ≤ xs.length + 1

/-- The object an argument refers to. -/
def loc : Arg α → Option Ptr
  | .val _ | .rv _ => none
  | .ref p | .mv p | .mvIf p => some p

/-- The shifting branch of the containers with unique keys: the gap is assigned the argument as it is after the
shift, which is the original value unless the argument refers to an element. -/
theorem insertMiddle_spec {a : Arg α} {v : α} {k : Nat} (h : VSt H E ib N o al b cap xs)
    (hv : a.value o.m = some v) (hsrc : a.src E = none) (hk' : k < xs.length) (hlt : xs.length < cap) :
    wp (insertMiddle false E ⟨b, k⟩ a)
      (fun p o' => ∃ w, Done H E ib N al b cap o o' b cap (xs.take k ++ w :: xs.drop k) ∧ p = ⟨b, k⟩ ∧
        (loc a = none → w = v))
      (fun e o' => ∃ xs', InsFail H E ib N al b cap false a xs k e o o' xs')
      o := by
  have hlen := h.len
  unfold insertMiddle
  simp only [wp_bind, wp_getObj, wp_ite, wp_lift, wp_setObj, wp_pure]
  rw [h.obj, if_neg (by simp)]
  dsimp only
  have hsub : (⟨b, xs.length⟩ : Ptr).sub 1 = ⟨b, xs.length - 1⟩ := Ptr.sub_of_le (by simp; omega)
  rw [hsub]
  have hc1 : ∀ i, o.m.mem b i = xs[i]? := h.cells
  have hst1 := h.st
  have hx1 : xs[xs.length - 1]? = some (xs[xs.length - 1]'(by omega)) := List.getElem?_eq_getElem _
  refine construct_move (v := xs[xs.length - 1]'(by omega)) ((hc1 _).trans hx1) rfl
    (hst1.inB hlt) (by rw [hc1]; simp) ?_ ?_
  · intro s2 hs2 ht2 hm2
    have hst2 : Store H s2 al ib N b cap := hst1.upd hs2
      (fun i hi => by rw [hm2]; have := hst1.beyond i hi; grind) (fun c hc i => by rw [hm2]; grind)
    have hc2 : ∀ i, s2.mem b i = if i = xs.length then xs[xs.length - 1]?
        else if i = xs.length - 1 then (xs[i]?).map E.moved else xs[i]? := fun i => by
      rw [hm2, hc1]; grind
    refine wp_moveBackward (n := xs.length - 1 - k) (q := ⟨b, k + 1⟩) rfl (by simp; omega)
      (by simp [Ptr.add]; omega) ?_ ?_ (Or.inr (Or.inl (by simp))) ?_ ?_
    · intro i _ hi; simp at hi ⊢; rw [hc2]; grind
    · intro i _ hi; simp at hi ⊢; rw [hc2]; grind
    · intro s3 hs3 ht3 hm3
      have hst3 : Store H s3 al ib N b cap := hst2.upd hs3
        (fun i hi => by rw [hm3]; have := hst2.beyond i hi; grind) (fun c hc i => by rw [hm3]; grind)
      have hc3 : ∀ w i, i ≠ k → s3.mem b i = (xs.take k ++ w :: xs.drop k)[i]? := fun w i hi => by
        rw [hm3, hc2, hc2]; grind
      have hc3k : (s3.mem b k).isSome := by rw [hm3, hc2, hc2]; grind
      have hw : ∃ w, a.value s3 = some w ∧ (loc a = none → w = v) := by
        have hmem : ∀ q : Ptr, o.m.mem q.blk q.off = some v → ∃ w, s3.mem q.blk q.off = some w := by
          intro q hq
          by_cases hqb : q.blk = b
          · rw [hqb] at hq ⊢
            by_cases hqk : q.off = k
            · rw [hqk]; exact Option.isSome_iff_exists.mp hc3k
            · rw [hc3 v _ hqk]
              rw [hc1] at hq
              have : q.off < xs.length := (List.getElem?_eq_some_iff.mp hq).1
              exact ⟨_, List.getElem?_eq_getElem (by simp; omega)⟩
          · refine ⟨v, ?_⟩
            rw [hm3, if_neg (by grind), if_neg (by grind), hm2, if_neg (by grind), if_neg (by grind), hq]
        cases a with
        | val x => exact ⟨v, hv, fun _ => rfl⟩
        | rv x => exact ⟨v, hv, fun _ => rfl⟩
        | mv q => simp [Arg.src] at hsrc
        | mvIf q => obtain ⟨w, hw⟩ := hmem q hv; exact ⟨w, hw, by simp [loc]⟩
        | ref q => obtain ⟨w, hw⟩ := hmem q hv; exact ⟨w, hw, by simp [loc]⟩
      obtain ⟨w, hw1, hw2⟩ := hw
      refine assign_copy (v := w) hw1 hsrc (by simpa using hc3k) ?_ ?_
      · intro s4 hs4 ht4 hm4
        refine ⟨w, ⟨?_, fun _ => ⟨rfl, rfl⟩, Or.inl rfl, Or.inl ?_⟩, by simp, hw2⟩
        · refine VSt.mk' rfl (by simp [Ptr.add]; omega) rfl (hst3.upd hs4 ?_ ?_) (by simp; omega) ?_ h.capLe h.nLe
          · intro i hi; rw [hm4]; have := hst3.beyond i hi; grind
          · intro c hc i; rw [hm4]; grind
          · intro i; rw [hm4]
            have := hc3 w i
            by_cases hik : i = k
            · subst hik; simp; grind
            · rw [if_neg (by simp; omega)]; exact this hik
        · exact (hs2.trans (hs3.trans hs4)).next
      · intro hnm s4 w hs4 hm4
        obtain ⟨xs', k1, k2⟩ := h.ofLive (n := xs.length + 1) (l := (⟨b, xs.length⟩ : Ptr).add 1) rfl
          (hst3.upd hs4 (fun i hi => by rw [hm4]; have := hst3.beyond i hi; grind)
            (fun c hc i => by rw [hm4]; grind)) (by omega)
          (fun i => by
            rw [hm4]
            by_cases hik : i = k
            · subst hik; simp; omega
            · rw [if_neg (by simp; omega), hc3 w i hik]; simp; omega)
        refine ⟨xs', ⟨k1, Or.inl (hs2.trans (hs3.trans hs4)).next, by simp⟩,
          fun _ hh => by omega, fun hh hr => ?_, by simp, by omega⟩
        have := hnm (hr.resolve_left (by simp)); rw [hh.2] at this; cases this
    · intro hnm s3 hs3 hm3
      obtain ⟨xs', k1, k2⟩ := h.ofLive (n := xs.length + 1) (l := (⟨b, xs.length⟩ : Ptr).add 1) rfl
        (hst2.upd hs3 (fun i hi => by have := hm3 b i; have := hst2.beyond i hi; grind)
          (fun c hc i => by have := hm3 c i; grind)) (by omega)
        (fun i => by
          have h1 := hm3 b i
          have h2 := hc2 i
          grind)
      refine ⟨xs', ⟨k1, Or.inl (hs2.trans hs3).next, by simp⟩,
        fun _ hh => by omega, fun hh _ => ?_, by simp, by omega⟩
      rw [hh.2] at hnm; cases hnm
  · intro hnm s2 w hs2 hm2
    obtain ⟨xs', k1, k2⟩ := h.ofLive (n := xs.length) (l := (⟨b, xs.length⟩ : Ptr)) rfl
      (hst1.upd hs2 (fun i hi => by rw [hm2]; have := hst1.beyond i hi; grind)
        (fun c hc i => by rw [hm2]; grind)) (by omega)
      (fun i => by rw [hm2, hc1]; grind)
    refine ⟨xs', ⟨k1, Or.inl hs2.next, by simp⟩,
      fun _ hh => by omega, fun hh _ => ?_, by simp, by omega⟩
    rw [hh.1] at hnm; cases hnm

/-- An insertion at position `k` that returned. -/
structure InsDone (H : Heap α) (E : Env α) (ib N al b cap : Nat) (temp : Bool) (a : Arg α) (v : α) (xs : List α)
    (k : Nat) (p : Ptr) (o o' : Obj Vec α) (b' cap' : Nat) (w : α) : Prop where
  done : Done H E ib N al b cap o o' b' cap' (xs.take k ++ w :: xs.drop k)
  ptr : p = ⟨b', k⟩
  val : temp = true ∨ loc a = none → w = v

theorem insertExactlyAt_spec {temp : Bool} {a : Arg α} {v : α} {k : Nat} (h : VSt H E ib N o al b cap xs)
    (hv : a.value o.m = some v) (hsrc : a.src E = none) (hk : k ≤ xs.length) :
    wp (insertExactlyAt temp E ib N ⟨b, k⟩ a)
      (fun p o' => ∃ b' cap' w, InsDone H E ib N al b cap temp a v xs k p o o' b' cap' w)
      (fun e o' => ∃ xs', InsFail H E ib N al b cap temp a xs k e o o' xs') o := by
  have hlen := h.len
  by_cases ht : temp = true ∨ xs.length = cap ∨ k = xs.length
  · refine insertExactlyAt_of_emplace h ht (wp_mono (emplace_spec h hv hsrc hk) ?_ ?_)
    · rintro p o' ⟨b', cap', hd, hp⟩
      exact ⟨b', cap', v, hd, hp, fun _ => rfl⟩
    · rintro e o' ⟨xs', k1, k2, k3, k4, k5⟩
      exact ⟨xs', k1, k3, fun hn _ => k4 hn.1 hn.2, k5, k2⟩
  · have ht' : temp = false := by
      cases temp
      · rfl
      · exact absurd (Or.inl rfl) ht
    subst ht'
    unfold insertExactlyAt
    simp only [wp_bind, wp_getObj, wp_ite]
    rw [h.obj, if_pos (by simp; omega)]
    unfold insertInPlace
    simp only [wp_bind, wp_getObj, wp_ite]
    rw [h.obj]
    dsimp only
    rw [wp_distance_eq (first := ⟨b, 0⟩) (last := ⟨b, k⟩) rfl (Nat.zero_le _), if_neg (by simp [Ptr.add]; omega)]
    have hp : (⟨b, 0⟩ : Ptr).add ((⟨b, k⟩ : Ptr).off - (⟨b, 0⟩ : Ptr).off) = ⟨b, k⟩ := by simp [Ptr.add]
    rw [hp]
    refine wp_mono (insertMiddle_spec (k := k) h hv hsrc (by omega) (by omega)) ?_ ?_
    · rintro p o' ⟨w, hd, hp, hw⟩
      exact ⟨b, cap, w, hd, hp, by simpa using hw⟩
    · exact fun _ _ h => h

theorem insertStatic_spec {temp : Bool} {a : Arg α} {v : α} {k : Nat} (h : VSt H E ib N o al b cap xs)
    (hv : a.value o.m = some v) (hsrc : a.src E = none) (hk : k ≤ xs.length) (hroom : xs.length < cap) :
    wp (insertStatic temp E ⟨b, k⟩ a)
      (fun p o' => ∃ b' cap' w, InsDone H E ib N al b cap temp a v xs k p o o' b' cap' w)
      (fun e o' => ∃ xs', InsFail H E ib N al b cap temp a xs k e o o' xs') o := by
  have hw := insertExactlyAt_spec (temp := temp) h hv hsrc hk
  unfold insertExactlyAt at hw
  unfold insertStatic
  simp only [wp_bind, wp_getObj, wp_ite, wp_assert] at hw ⊢
  rw [h.obj] at hw ⊢
  dsimp only at hw ⊢
  have hne : (⟨b, xs.length⟩ : Ptr) ≠ ⟨b, cap⟩ := by simp; omega
  rw [if_pos hne] at hw
  exact ⟨hne, ⟨rfl, by simp, by simpa using hk⟩, hw⟩

end Sfl.Flat
