import Verif.SegVecSpec6
import Verif.WorldVec
/-
  segmented_vector as a container type of the client programs of `World.lean`.
-/

set_option linter.unusedSimpArgs false
set_option linter.unusedSectionVars false

namespace Sfl
open World
variable {α : Type}

namespace SegVec

/-- Abstract meaning of segmented_vector. Move assignment between unequal allocators moves the elements. An assignment may
fail before anything has changed: a temporary with storage of its own is constructed first. `swap` is only called with equal
allocators. -/
def sem (E : Env α) (T : Traits) : Sem (Sq.Op α) (Sq.Init α) α Nat where
  pre := fun n op => op.pre n
  okStep := Sq.okStep E
  failStep := Sq.failStep E
  init := fun i xs => xs = i.result E.dflt
  initFail := fun i e => e = .lengthError → E.maxSize < (i.result E.dflt).length
  left := fun eq xs ys => if eq = true then ys = [] else ys = xs.map E.moved
  moveFail := fun xs ys => ys.length = xs.length
  assignFail := fun _ => True
  swapFail := fun _ _ _ _ => False
  swapPre := fun a b => a == b
  T := T
  takes := false
  early := true

/-- Ownership by a segmented vector: its table and its segments. -/
def rep (K N : Nat) : Rep K SVec α where
  rep := fun _ m v al xs F => ∃ V tcap, GSt N ⟨v, m⟩ al V tcap xs ∧ F = V.foot
  raw := fun _ _ => True
  dead := fun _ => noFoot

section
variable {K : Nat} {E : Env α} {N : Nat} {T : Traits} {ra : Sq.Op α → Bool} {rai : Sq.Init α → Bool}

theorem rep_ok : (rep (α := α) K N).Ok (cont K E N T ra rai) where
  live := by
    rintro i m v al xs F ⟨V, tcap, h, rfl⟩
    exact h.live
  deadSub := fun _ _ h => h.elim
  frame := by
    rintro i m m' v al xs F _ hw ⟨V, tcap, h, rfl⟩ hf
    exact ⟨V, tcap, h.frame hw hf, rfl⟩
  alloc := by
    rintro i m v al xs F ⟨V, tcap, h, rfl⟩
    have := h.obj
    dsimp only at this
    show v.alloc = al
    rw [this]; rfl
  rawLive := fun _ _ h => h.elim
  rawFrame := fun _ _ _ _ => trivial
  rawEq := fun _ _ _ _ _ h => h.elim

theorem index_run {o : Obj SVec α} {al tcap k : Nat} {V : View} {xs : List α} {x : α} (h : GSt N o al V tcap xs) (hk : xs[k]? = some x) :
    SegVec.index N k o = .ok x o := by
  have hlt : k < xs.length := (List.getElem?_eq_some_iff.mp hk).1
  have hl := h.len
  unfold index
  rw [bind_run h.size_run, bind_run (assert_run hlt), bind_run (h.addressOf_run (by omega))]
  have h1 : k < V.cap := by have := V.size_le; omega
  have h2 : o.m.mem (V.addr k).blk (V.addr k).off = xs[k]? := h.cells k h1
  unfold lift readAt
  simp only [h2, hk]

theorem two_now2 {i j : Fin K} {al al2 : Nat} {m : St α} {F : Foot} {P : List α → List α → Prop} {o' : Obj (SVec × SVec) α}
    (h : Two N al al2 m F P o') : ∃ xs1 xs2, (rep K N).Now2 i j m F al xs1 al2 xs2 o' ∧ P xs1 xs2 := by
  obtain ⟨V1, tcap1, xs1, V2, tcap2, xs2, g1, g2, hd, hf, hp⟩ := h
  exact ⟨xs1, xs2, ⟨V1.foot, V2.foot, ⟨V1, tcap1, g1, rfl⟩, ⟨V2, tcap2, g2, rfl⟩, hd, hf⟩, hp⟩

theorem spec (hN : 0 < N) : Spec (cont K E N T ra rai) (sem E T) (rep K N) where
  ok := rep_ok
  make := by
    intro i m al init hw _ _
    refine wp_mono (construct_spec (E := E) (o := ⟨blank al, m⟩) (ra := rai init) init hN hw rfl) ?_ ?_
    · rintro _ o' ⟨V, tcap, h1, h2⟩
      exact ⟨_, ⟨_, ⟨V, tcap, h1, rfl⟩, h2⟩, rfl⟩
    · rintro e o' ⟨h1, h2⟩
      exact ⟨⟨trivial, h1⟩, h2⟩
  copy := by
    rintro i j m al w al2 xs2 F2 hij hw _ ⟨V2, tcap2, h2, rfl⟩ _
    refine wp_mono (initCopy_spec (E := E) (o := ⟨blank al, m⟩) h2 rfl) ?_ ?_
    · rintro _ o' ⟨V, tcap, h1, h2⟩
      exact ⟨_, ⟨V, tcap, h1, rfl⟩, h2⟩
    · rintro e o' ⟨h1, h2⟩
      exact ⟨trivial, h1⟩
  move := by
    rintro i j m al w al2 xs2 F2 hij hw _ ⟨V2, tcap2, h2, rfl⟩ _
    refine wp_mono (initMove_spec (E := E) (o := ⟨blank al, m⟩) h2 rfl) ?_ ?_
    · rintro _ o' ⟨V1, tcap1, V2', tcap2', ys, g1, g2, hd, hf, hy⟩
      refine ⟨ys, ⟨V1.foot, V2'.foot, ⟨V1, tcap1, g1, rfl⟩, ⟨V2', tcap2', g2, rfl⟩, hd, ?_⟩, ?_⟩
      · show Frame m (Both noFoot V2.foot) _ _
        rw [both_no]; exact hf
      · have hy' : if al = al2 then ys = [] else ys = xs2.map E.moved := hy
        simpa only [sem, decide_eq_true_eq] using hy'
    · rintro e o' ⟨ys, g1, hf, hy⟩
      refine ⟨trivial, ys, V2.foot, ⟨V2, tcap2, g1, rfl⟩, fun _ h => h.elim, ?_, hy⟩
      show Frame m (Both noFoot V2.foot) _ (Both noFoot V2.foot)
      rw [both_no]; exact hf
  destroy := by
    rintro i m v al xs F hw ⟨V, tcap, h, rfl⟩
    exact wp_mono (destructor_spec E h) (fun _ _ h => ⟨trivial, h⟩) (fun _ _ h => h)
  size := by
    rintro i m v al xs F hw ⟨V, tcap, h, rfl⟩
    show wp (size N) _ _ _
    rw [wp_run h.size_run]
    exact ⟨rfl, rfl⟩
  index := by
    rintro i m v al xs F k x hw ⟨V, tcap, h, rfl⟩ hk
    show wp (index N k) _ _ _
    rw [wp_run (index_run h hk)]
    exact ⟨rfl, rfl⟩
  exec := by
    rintro i m v al xs F op hw ⟨V, tcap, h, rfl⟩ hp
    refine wp_mono (exec_spec (E := E) ra op h hp) ?_ ?_
    · rintro r o' ⟨V', tcap', xs', g, -, hf, hs⟩
      exact ⟨xs', ⟨_, ⟨V', tcap', g, rfl⟩, hf⟩, hs⟩
    · rintro r o' ⟨V', tcap', xs', g, -, hf, hs⟩
      exact ⟨xs', ⟨_, ⟨V', tcap', g, rfl⟩, hf⟩, hs⟩
  assignCopy := by
    rintro i j m v al xs F w al2 xs2 F2 hij hw ⟨V, tcap, h, rfl⟩ ⟨V2, tcap2, h2, rfl⟩ hd _
    refine wp_mono (assignCopy_spec (E := E) (T := T) h h2 (fun c h1 h2 => hd c h2 h1)) ?_ ?_
    · rintro _ o' ⟨V', tcap', g, hf⟩
      exact ⟨_, ⟨V', tcap', g, rfl⟩, hf⟩
    · rintro _ o' (⟨V', tcap', xs', g, hf⟩ | ⟨g, hf⟩)
      · exact Or.inl ⟨xs', ⟨_, ⟨V', tcap', g, rfl⟩, hf⟩, trivial⟩
      · exact Or.inr ⟨rfl, _, ⟨V, tcap, g, rfl⟩, hf⟩
  assignMove := by
    rintro i j m v al xs F w al2 xs2 F2 hij hw ⟨V, tcap, h, rfl⟩ ⟨V2, tcap2, h2, rfl⟩ hd _
    refine wp_mono (assignMove_spec (E := E) (T := T) h h2 (fun c h1 h2 => hd c h2 h1)) ?_ ?_
    · rintro _ o' ht
      obtain ⟨xs1, ys, k, rfl, hy⟩ := two_now2 (i := i) (j := j) ht
      exact ⟨ys, k, by simpa only [sem, Bool.false_or, decide_eq_true_eq] using hy⟩
    · rintro _ o' (ht | ht)
      · obtain ⟨xs1, ys, k, hy⟩ := two_now2 (i := i) (j := j) ht
        exact Or.inl ⟨xs1, ys, k, trivial, hy⟩
      · obtain ⟨xs1, ys, k, rfl, rfl⟩ := two_now2 (i := i) (j := j) ht
        exact Or.inr ⟨rfl, k⟩
  swap := by
    rintro i j m v al xs F w al2 xs2 F2 hij hw ⟨V, tcap, h, rfl⟩ ⟨V2, tcap2, h2, rfl⟩ hd hs
    obtain rfl : al = al2 := by simpa [sem] using hs
    rw [ite_self]
    refine wp_mono (swap_spec (T := T) h h2 (fun c h1 h2 => hd c h2 h1)) ?_ (fun _ _ h => h.elim)
    rintro _ o' ht
    obtain ⟨xs1, ys, k, rfl, rfl⟩ := two_now2 (i := i) (j := j) ht
    exact k

end
end SegVec
end Sfl
