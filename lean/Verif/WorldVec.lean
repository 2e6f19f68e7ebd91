import Verif.World
import Verif.OwnSwap
import Verif.Start
/-
  vector and small_vector as container types of the client programs of `World.lean`.
-/

namespace Sfl
open Sfl.Vector (VM)
open World
variable {α : Type}

/-- Abstract meaning of vector. A move leaves its source empty if the allocators are equal (or become so). -/
def Vector.sem (E : Env α) (T : Traits) : Sem (Sq.Op α) (Sq.Init α) α Nat where
  pre := fun n op => op.pre n
  okStep := Sq.okStep E
  failStep := Sq.failStep E
  init := fun i xs => xs = i.result E.dflt
  initFail := fun i e => e = .lengthError → E.maxSize < (i.result E.dflt).length
  left := fun eq xs ys => if eq = true then ys = [] else ys = xs.map E.moved
  moveFail := fun xs ys => ys.length = xs.length
  assignFail := fun _ => True
  swapFail := fun _ _ _ _ => False
  swapPre := fun a b => T.pocs || a == b
  T := T

/-- Abstract meaning of containers with the storage of small_vector. A move leaves its source empty or full of
moved-from elements. `swap` is only called with equal allocators, or with propagating allocators and elements whose
moves do not throw. -/
def SmallVector.semOf {Op I ρ : Type} (E : Env α) (T : Traits) (pre : Nat → Op → Bool)
    (okStep : List α → Op → Option ρ → List α → Prop) (failStep : List α → Op → Exn → List α → Prop)
    (init : I → List α → Prop) (initFail : I → Exn → Prop) : Sem Op I α ρ where
  pre := pre
  okStep := okStep
  failStep := failStep
  init := init
  initFail := initFail
  left := fun eq xs ys => ys = xs.map E.moved ∨ eq = true ∧ ys = []
  moveFail := fun xs ys => ys.length = xs.length
  assignFail := fun _ => True
  swapFail := fun xs ys xs' ys' => ¬ NothrowMove E ∧ xs'.length = xs.length ∧ ys'.length = ys.length
  swapPre := fun a b => (T.pocs && E.nothrowMoveCtor && E.nothrowMoveAssign) || a == b
  T := T

/-- Abstract meaning of small_vector. -/
def SmallVector.sem (E : Env α) (T : Traits) : Sem (Sq.Op α) (Sq.Init α) α Nat :=
  SmallVector.semOf E T (fun n op => op.pre n) (Sq.okStep E) (Sq.failStep E) (fun i xs => xs = i.result E.dflt)
    (fun i e => e = .lengthError → E.maxSize < (i.result E.dflt).length)

/-- The constructors of vector without a source container: vector.hpp:114-160, 191-198. -/
def Vector.construct (E : Env α) : Sq.Init α → VM α Unit
  | .empty => pure ()
  | .count n => Vector.initDefaultN E n
  | .fill n v => Vector.initFillN E n (.val v)
  | .range ys => Vector.initRange E ys
  | .input ys => Vector.initRangeInput E ys

/-- The constructors of small_vector without a source container: small_vector.hpp:156-211, 242-248. -/
def SmallVector.construct (E : Env α) (ib N : Nat) : Sq.Init α → VM α Unit
  | .empty => pure ()
  | .count n => SmallVector.initDefaultN E N n
  | .fill n v => SmallVector.initFillN E N n (.val v)
  | .range ys => SmallVector.initRange E N ys
  | .input ys => SmallVector.initRangeInput E ib N ys

/-- vector as a container type (public functions of vector.hpp:114-1182). -/
def Vector.cont (K : Nat) (E : Env α) (T : Traits) : Cont K (Sq.Op α) (Sq.Init α) Vec α Nat where
  alloc := Vec.alloc
  blank := fun _ al => Vector.empty al
  make := fun _ init => Vector.construct E init
  copyInit := fun _ w => Vector.initCopy E w
  moveInit := fun _ _ => Vector.initMove E
  destroy := fun _ => Vector.destructor
  size := Vector.size
  index := Vector.index
  exec := fun _ => Vector.exec E
  assignCopy := fun _ _ w => Vector.assignCopy E T w
  assignMove := fun _ _ => Vector.assignMove E T
  swap := fun _ _ => Vector.swap T

/-- Containers with the storage of small_vector, that is small_vector (small_vector.hpp:1379-1537, 1741-1830,
1985-2047) and the small flat containers, whose functions have the same text apart from the comparator
(small_flat_set.hpp:907-1067, 1359-1448, 1513-1575 and the same functions of small_flat_map.hpp, small_flat_multiset.hpp,
small_flat_multimap.hpp, small_unordered_flat_*.hpp). The internal storage of the object in slot `i` is the block
`ib i`. -/
def SmallVector.contOf {K : Nat} {Op I ρ : Type} (E : Env α) (T : Traits) (ib : Fin K → Nat) (N : Nat)
    (make : Fin K → I → VM α Unit) (exec : Fin K → Op → VM α (Option ρ)) : Cont K Op I Vec α ρ where
  alloc := Vec.alloc
  blank := fun i al => SmallVector.empty (ib i) N al
  make := make
  copyInit := fun _ w => SmallVector.initCopy E N w
  moveInit := fun _ j => SmallVector.initMove E N (ib j)
  destroy := fun i => SmallVector.destructor (ib i)
  size := Vector.size
  index := Vector.index
  exec := exec
  assignCopy := fun i _ w => SmallVector.assignCopy E T (ib i) N w
  assignMove := fun i j => SmallVector.assignMove E T (ib i) N (ib j)
  swap := fun i j => SmallVector.swap E T N (ib i) (ib j)

/-- small_vector as a container type (public functions of small_vector.hpp:156-1537). -/
def SmallVector.cont {K : Nat} (E : Env α) (T : Traits) (ib : Fin K → Nat) (N : Nat) :
    Cont K (Sq.Op α) (Sq.Init α) Vec α Nat :=
  SmallVector.contOf E T ib N (fun i init => SmallVector.construct E (ib i) N init) (fun i => SmallVector.exec E (ib i) N)

/-! ### Correctness -/

/-- The blocks of a container whose elements are in block `b` and whose internal storage is `ib`. -/
def foot (b ib : Nat) : Foot := fun c => c ≠ 0 ∧ (c = b ∨ c = ib)

/-- Ownership by a vector or small_vector. -/
def SmallVector.rep {K : Nat} (E : Env α) (ib : Fin K → Nat) (N : Nat) : Rep K Vec α where
  rep := fun i m v al xs F => ∃ b cap, Own E (ib i) N m v al b cap xs ∧ F = foot b (ib i)
  raw := fun i m => ((ib i = 0 ∧ N = 0) ∨ m.blk (ib i) = some ⟨N, none⟩) ∧ ∀ k, m.mem (ib i) k = none
  dead := fun i => foot (ib i) (ib i)

section
variable {K : Nat} {E : Env α} {T : Traits} {ib : Fin K → Nat} {N : Nat} {m m' : St α}

theorem Rest.toFrame {G G' : Nat → Prop} (hw : m.Wf) (hw' : m'.Wf) (h : Rest (Heap.out m G) m' G') :
    Frame m (fun c => c ≠ 0 ∧ G c) m' (fun c => c ≠ 0 ∧ G' c) := by
  refine ⟨hw', ?_, ?_, ?_⟩
  · intro c hF hb
    have h0 : c ≠ 0 := fun e => hb (by rw [e]; exact hw.blk_zero)
    have hG : ¬ G c := fun hG => hF ⟨h0, hG⟩
    have e1 : (Heap.out m G).blk c = m.blk c := Heap.out_blk hG
    have hG' : ¬ G' c := fun hG' => hb (by rw [← e1]; exact h.hblk c hG')
    exact ⟨fun hF' => hG' hF'.2, by rw [h.blk c hG', e1], fun k => by rw [h.mem c hG', Heap.out_mem hG]⟩
  · intro c hF hb hF'
    by_cases h0 : c = 0
    · rw [h0]; exact hw'.blk_zero
    · rw [h.blk c (fun hG => hF' ⟨h0, hG⟩), Heap.out_blk (fun hG => hF ⟨h0, hG⟩)]; exact hb
  · intro c hF hF'
    rw [h.blk c (fun hG => hF' ⟨hF.1, hG⟩), Heap.out_blk' hF.2]

theorem foot_both {b1 ib1 b2 ib2 : Nat} :
    Both (foot b1 ib1) (foot b2 ib2) = fun c => c ≠ 0 ∧ ((c = b1 ∨ c = ib1) ∨ (c = b2 ∨ c = ib2)) := by
  funext c
  simp only [Both, foot]
  apply propext
  constructor
  · rintro (⟨h, h'⟩ | ⟨h, h'⟩)
    · exact ⟨h, Or.inl h'⟩
    · exact ⟨h, Or.inr h'⟩
  · rintro ⟨h, h' | h'⟩
    · exact Or.inl ⟨h, h'⟩
    · exact Or.inr ⟨h, h'⟩

theorem Sep.disj {b1 ib1 b2 ib2 : Nat} (h : Sep b1 ib1 b2 ib2) : Disj (foot b1 ib1) (foot b2 ib2) := by
  rintro c ⟨h0, h1 | h1⟩ ⟨_, h2 | h2⟩
  · exact h.bb (h1 ▸ h0) (h1.symm.trans h2)
  · exact h.bi (h1 ▸ h0) (h1.symm.trans h2)
  · exact h.ib (h1 ▸ h0) (h1.symm.trans h2)
  · exact h.ii (h1 ▸ h0) (h1.symm.trans h2)

theorem Disj.sep {b1 ib1 b2 ib2 : Nat} (h : Disj (foot b1 ib1) (foot b2 ib2)) : Sep b1 ib1 b2 ib2 where
  bb := fun h0 e => h b1 ⟨h0, Or.inl rfl⟩ ⟨h0, Or.inl e⟩
  bi := fun h0 e => h b1 ⟨h0, Or.inl rfl⟩ ⟨h0, Or.inr e⟩
  ib := fun h0 e => h ib1 ⟨h0, Or.inr rfl⟩ ⟨h0, Or.inl e⟩
  ii := fun h0 e => h ib1 ⟨h0, Or.inr rfl⟩ ⟨h0, Or.inr e⟩

/-- From the view of one container to ownership in the program. -/
theorem VSt.now {i : Fin K} {b b' cap' al' : Nat} {xs' : List α} {o' : Obj Vec α} (hw : m.Wf)
    (h : VSt (Heap.out m (fun c => c = b ∨ c = ib i)) E (ib i) N o' al' b' cap' xs') :
    (SmallVector.rep E ib N).Now i m (foot b (ib i)) al' xs' o' :=
  ⟨foot b' (ib i), ⟨b', cap', h.toOwn, rfl⟩, Rest.toFrame hw h.st.wf h.rest⟩

theorem Pair.now2 {i j : Fin K} {G : Nat → Prop} {al1 b1 cap1 al2 b2 cap2 : Nat} {xs1 xs2 : List α}
    {o' : Obj (Vec × Vec) α} (hw : m.Wf)
    (h : Pair (Heap.out m G) E N (ib i) (ib j) o'.m o'.obj.1 o'.obj.2 al1 b1 cap1 xs1 al2 b2 cap2 xs2) :
    (SmallVector.rep E ib N).Now2 i j m (fun c => c ≠ 0 ∧ G c) al1 xs1 al2 xs2 o' :=
  ⟨foot b1 (ib i), foot b2 (ib j), ⟨b1, cap1, h.one, rfl⟩, ⟨b2, cap2, h.two, rfl⟩, h.sep.disj, by
    rw [foot_both]; exact Rest.toFrame hw h.wf h.rest⟩

theorem Own.pair {ib1 ib2 : Nat} {v w : Vec} {al b cap al2 b2 cap2 : Nat} {xs xs2 : List α} (hw : m.Wf)
    (h1 : Own E ib1 N m v al b cap xs) (h2 : Own E ib2 N m w al2 b2 cap2 xs2) (hd : Disj (foot b ib1) (foot b2 ib2)) :
    Pair (Heap.out m (fun c => (c = b ∨ c = ib1) ∨ (c = b2 ∨ c = ib2))) E N ib1 ib2 m v w al b cap xs al2 b2 cap2 xs2 :=
  ⟨hw, h1, h2, Disj.sep hd, Rest.out _ _⟩

theorem SmallVector.raw_own {i : Fin K} {al : Nat} (hN : N ≤ E.maxSize) (h : (SmallVector.rep E ib N).raw i m) :
    Own E (ib i) N m (SmallVector.empty (ib i) N al) al (ib i) N [] where
  obj := rfl
  ibk := h.1
  own := Or.inl ⟨rfl, rfl⟩
  iraw := fun h => absurd rfl h
  len := by simp
  cells := fun k => by rw [h.2]; simp
  capLe := hN
  nLe := hN

theorem Gone.rawFrame {i : Fin K} {al b : Nat} (hw : m.Wf)
    (h : Gone (Heap.out m (fun c => c = b ∨ c = ib i)) al (ib i) N m') :
    (SmallVector.rep E ib N).raw i m' ∧ Frame m (foot b (ib i)) m' ((SmallVector.rep E ib N).dead i) := by
  refine ⟨⟨h.st.ibk, h.raw⟩, ?_⟩
  refine Rest.toFrame hw h.st.wf ⟨?_, ?_, ?_, ?_⟩
  · intro c hc k; exact h.st.fmem c (fun e => hc (Or.inl e)) (fun e => hc (Or.inr e)) k
  · intro c hc; exact h.st.fblk c (fun e => hc (Or.inl e)) (fun e => hc (Or.inr e))
  · rintro c (rfl | rfl) k <;> exact h.st.himem k
  · rintro c (rfl | rfl) <;> exact h.st.hiblk

theorem SmallVector.rep_ok {Op I ρ : Type} {make : Fin K → I → VM α Unit} {exec : Fin K → Op → VM α (Option ρ)} :
    (SmallVector.rep E ib N).Ok (SmallVector.contOf E T ib N make exec) where
  live := by
    rintro i m v al xs F ⟨b, cap, h, rfl⟩ c ⟨h0, rfl | rfl⟩
    · obtain ⟨i, hi⟩ := h.b_some h0; simp [hi]
    · simp [h.ib_some h0]
  deadSub := by
    rintro i m v al xs F ⟨b, cap, h, rfl⟩ c ⟨h0, h1⟩
    exact ⟨h0, Or.inr (h1.elim id id)⟩
  frame := by
    rintro i m m' v al xs F hw hw' ⟨b, cap, h, rfl⟩ hm
    have blk : ∀ c, c = b ∨ c = ib i → m'.blk c = m.blk c := by
      intro c hc
      by_cases h0 : c = 0
      · rw [h0, hw.blk_zero, hw'.blk_zero]
      · exact (hm c ⟨h0, hc⟩).1
    have mem : ∀ c, c = b ∨ c = ib i → ∀ k, m'.mem c k = m.mem c k := by
      intro c hc
      by_cases h0 : c = 0
      · intro k; rw [h0, hw.dead 0 hw.blk_zero, hw'.dead 0 hw'.blk_zero]
      · exact (hm c ⟨h0, hc⟩).2
    exact ⟨b, cap, h.frame (blk _ (Or.inl rfl)) (blk _ (Or.inr rfl)) (mem _ (Or.inl rfl)) (mem _ (Or.inr rfl)), rfl⟩
  alloc := by
    rintro i m v al xs F ⟨b, cap, h, rfl⟩
    show v.alloc = al
    rw [h.obj]
  rawLive := by
    rintro i m ⟨h, _⟩ c ⟨h0, h1⟩
    have : c = ib i := h1.elim id id
    subst this
    rcases h with ⟨h, _⟩ | h
    · exact absurd h h0
    · simp [h]
  rawFrame := by
    rintro i m m' hw hw' ⟨h1, h2⟩ hm
    by_cases h0 : ib i = 0
    · refine ⟨?_, fun k => by rw [h0]; exact hw'.dead 0 hw'.blk_zero k⟩
      rcases h1 with h1 | h1
      · exact Or.inl h1
      · rw [h0, hw.blk_zero] at h1; simp at h1
    · obtain ⟨e1, e2⟩ := hm (ib i) ⟨h0, Or.inl rfl⟩
      exact ⟨by rw [e1]; exact h1, fun k => by rw [e2]; exact h2 k⟩
  rawEq := by
    rintro i m m' hw hw' ⟨h1, h2⟩ ⟨h3, h4⟩ c ⟨h0, h5⟩
    have : c = ib i := h5.elim id id
    subst this
    refine ⟨?_, fun k => by rw [h2, h4]⟩
    rcases h1 with ⟨h1, _⟩ | h1
    · exact absurd h1 h0
    · rcases h3 with ⟨h3, _⟩ | h3
      · exact absurd h3 h0
      · rw [h1, h3]

theorem SmallVector.construct_spec {H : Heap α} {ib al : Nat} (init : Sq.Init α) (hg : Gone H al ib N m) (hN : N ≤ E.maxSize) :
    wp (SmallVector.construct E ib N init)
      (fun _ o' => ∃ b' cap', VSt H E ib N o' al b' cap' (init.result E.dflt))
      (fun e o' => Gone H al ib N o'.m ∧ (e = .lengthError → E.maxSize < (init.result E.dflt).length))
      ⟨SmallVector.empty ib N al, m⟩ := by
  have key : ∀ as vs, Exts H E as vs → wp (SmallVector.initWith E N as)
      (fun _ o' => ∃ b' cap', VSt H E ib N o' al b' cap' vs)
      (fun e o' => Gone H al ib N o'.m ∧ (e = .lengthError → E.maxSize < vs.length))
      ⟨SmallVector.empty ib N al, m⟩ := fun as vs hx =>
    wp_mono (initWith_spec hg hN hx) (fun _ _ ⟨b', h, _⟩ => ⟨b', _, h⟩) (fun _ _ ⟨h1, _, h2⟩ => ⟨h1, h2.mp⟩)
  cases init with
  | empty => exact ⟨ib, N, VSt.mkEmpty hg.st hg.raw hN⟩
  | count n => exact key _ _ (Exts.replicateVal n E.dflt)
  | fill n v => exact key _ _ (Exts.replicateVal n v)
  | range ys => exact key _ _ (Exts.vals ys)
  | input ys =>
    exact wp_mono (initRangeInput_spec hg hN) (fun _ _ ⟨b', cap', h, _⟩ => ⟨b', cap', h⟩) (fun _ _ ⟨h1, _, h2⟩ => ⟨h1, h2⟩)

/-- Containers with the storage of small_vector satisfy the requirements if their constructors and modifiers do. -/
theorem SmallVector.specOf {Op I ρ : Type} {make : Fin K → I → VM α Unit} {exec : Fin K → Op → VM α (Option ρ)}
    {pre : Nat → Op → Bool} {okStep : List α → Op → Option ρ → List α → Prop}
    {failStep : List α → Op → Exn → List α → Prop} {init : I → List α → Prop} {initFail : I → Exn → Prop}
    (hN : N ≤ E.maxSize)
    (hmake : ∀ (H : Heap α) (i : Fin K) (al : Nat) (m : St α) (x : I), Gone H al (ib i) N m →
      wp (make i x) (fun _ o' => ∃ b' cap' xs, VSt H E (ib i) N o' al b' cap' xs ∧ init x xs)
        (fun e o' => Gone H al (ib i) N o'.m ∧ initFail x e) ⟨SmallVector.empty (ib i) N al, m⟩)
    (hexec : ∀ (H : Heap α) (i : Fin K) (al b cap : Nat) (o : Obj Vec α) (xs : List α) (x : Op),
      VSt H E (ib i) N o al b cap xs → pre xs.length x = true →
      wp (exec i x) (fun r o' => ∃ b' cap' xs', VSt H E (ib i) N o' al b' cap' xs' ∧ okStep xs x r xs')
        (fun e o' => ∃ b' cap' xs', VSt H E (ib i) N o' al b' cap' xs' ∧ failStep xs x e xs') o) :
    Spec (SmallVector.contOf E T ib N make exec) (SmallVector.semOf E T pre okStep failStep init initFail)
      (SmallVector.rep E ib N) where
  ok := SmallVector.rep_ok
  make := by
    intro i m al init hw hr _
    have hv := (SmallVector.raw_own (al := al) hN hr).vst hw (Rest.out _ _)
    refine wp_mono (hmake _ i al m init (hv.gone ⟨rfl, rfl⟩)) ?_ ?_
    · rintro _ o' ⟨b', cap', xs, h, h2⟩
      exact ⟨xs, VSt.now hw h, h2⟩
    · rintro e o' ⟨h1, h2⟩
      exact ⟨h1.rawFrame hw, h2⟩
  copy := by
    rintro i j m al w al2 xs2 F2 hij hw hr ⟨b2, cap2, h2, rfl⟩ hd
    have hp := Own.pair hw (SmallVector.raw_own (al := al) hN hr) h2 hd
    have hv := (SmallVector.raw_own (al := al) hN hr).vst hw (Rest.out _ _)
    show wp (SmallVector.initCopy E N w) _ _ _
    unfold SmallVector.initCopy
    rw [wp_bind, h2.obj]
    refine wp_distance rfl (by simp) ?_
    refine wp_mono (initWith_spec (hv.gone ⟨rfl, rfl⟩) hN hp.exts) ?_ ?_
    · rintro _ o' ⟨b', h, _⟩
      exact VSt.now hw h
    · rintro e o' ⟨h1, _⟩
      exact h1.rawFrame hw
  move := by
    rintro i j m al w al2 xs2 F2 hij hw hr ⟨b2, cap2, h2, rfl⟩ hd
    have hp := Own.pair hw (SmallVector.raw_own (al := al) hN hr) h2 hd
    refine wp_mono (initMove_spec hp) ?_ ?_
    · rintro _ o' ⟨b1', cap1', b2', cap2', ys, h, hy⟩
      refine ⟨ys, ?_, ?_⟩
      · have := h.now2 (ib := ib) hw
        rwa [← foot_both] at this
      · rcases hy with h | ⟨h1, h2, _⟩
        · exact Or.inl h
        · exact Or.inr ⟨by simpa using h1, h2⟩
    · rintro e o' ⟨ys, h, hy⟩
      refine ⟨⟨h.one.ibk, h.one.raw⟩, ys, foot b2 (ib j), ⟨b2, cap2, h.two, rfl⟩, h.sep.disj, ?_, hy⟩
      show Frame m (Both (foot (ib i) (ib i)) (foot b2 (ib j))) o'.m (Both (foot (ib i) (ib i)) (foot b2 (ib j)))
      rw [foot_both]
      exact Rest.toFrame hw h.wf h.rest
  destroy := by
    rintro i m v al xs F hw ⟨b, cap, h, rfl⟩
    exact wp_mono (destructor_gone (h.vst hw (Rest.out _ _))) (fun _ _ ⟨g, _⟩ => g.rawFrame hw) (fun _ _ h => h)
  size := by
    rintro i m v al xs F hw ⟨b, cap, h, rfl⟩
    exact (SmallVector.correct _ E al (ib i) N).size _ _ ⟨b, cap, h.vst hw (Rest.out _ _)⟩
  index := by
    rintro i m v al xs F k x hw ⟨b, cap, h, rfl⟩ hk
    exact (SmallVector.correct _ E al (ib i) N).index _ _ _ _ ⟨b, cap, h.vst hw (Rest.out _ _)⟩ hk
  exec := by
    rintro i m v al xs F op hw ⟨b, cap, h, rfl⟩ hp
    refine wp_mono (hexec _ i al b cap _ xs op (h.vst hw (Rest.out _ _)) hp) ?_ ?_
    · rintro r o' ⟨b', cap', xs', k1, k2⟩
      exact ⟨xs', VSt.now hw k1, k2⟩
    · rintro r o' ⟨b', cap', xs', k1, k2⟩
      exact ⟨xs', VSt.now hw k1, k2⟩
  assignCopy := by
    rintro i j m v al xs F w al2 xs2 F2 hij hw ⟨b, cap, h, rfl⟩ ⟨b2, cap2, h2, rfl⟩ hd _
    have hp := Own.pair hw h h2 hd
    have hv := h.vst hw (Rest.out _ _)
    refine wp_mono (assignCopy_spec' hp) ?_ ?_
    · rintro _ o' ⟨b1', cap1', k⟩
      exact VSt.now hw k
    · rintro _ o' ⟨b1', cap1', xs1', k⟩
      exact Or.inl ⟨xs1', VSt.now hw k, trivial⟩
  assignMove := by
    rintro i j m v al xs F w al2 xs2 F2 hij hw ⟨b, cap, h, rfl⟩ ⟨b2, cap2, h2, rfl⟩ hd _
    have hp := Own.pair hw h h2 hd
    refine wp_mono (assignMove_spec (T := T) hp) ?_ ?_
    · rintro _ o' ⟨b1', cap1', b2', cap2', ys, k, hy⟩
      refine ⟨ys, ?_, ?_⟩
      · have := k.now2 (ib := ib) hw
        rwa [← foot_both] at this
      · rcases hy with h | ⟨h1, h2, _⟩
        · exact Or.inl h
        · exact Or.inr ⟨by simpa [SmallVector.semOf] using h1, h2⟩
    · rintro e o' ⟨b1', cap1', xs1', ys, k, hy⟩
      refine Or.inl ⟨xs1', ys, ?_, trivial, hy⟩
      have := k.now2 (ib := ib) hw
      rwa [← foot_both] at this
  swap := by
    rintro i j m v al xs F w al2 xs2 F2 hij hw ⟨b, cap, h, rfl⟩ ⟨b2, cap2, h2, rfl⟩ hd hs
    have hp := Own.pair hw h h2 hd
    have hs' : (T.pocs = true ∧ NothrowMove E) ∨ al = al2 := by
      simp only [SmallVector.semOf, Bool.or_eq_true, Bool.and_eq_true, beq_iff_eq] at hs
      rcases hs with ⟨⟨h1, h2⟩, h3⟩ | h1
      · exact Or.inl ⟨h1, h2, h3⟩
      · exact Or.inr h1
    have e1 : (if (SmallVector.semOf E T pre okStep failStep init initFail).T.pocs = true then al2 else al) = al2 := by
      split
      · rfl
      · rcases hs' with ⟨h1, _⟩ | h1
        · exact absurd h1 ‹_›
        · exact h1
    have e2 : (if (SmallVector.semOf E T pre okStep failStep init initFail).T.pocs = true then al else al2) = al := by
      split
      · rfl
      · rcases hs' with ⟨h1, _⟩ | h1
        · exact absurd h1 ‹_›
        · exact h1.symm
    rw [e1, e2]
    refine wp_mono (swap_spec hp (hs'.imp And.left id) (hs'.imp And.right id)) ?_ ?_
    · rintro _ o' ⟨b1', cap1', b2', cap2', k⟩
      have := k.now2 (ib := ib) hw
      rwa [← foot_both] at this
    · rintro e o' ⟨hE, b1', cap1', b2', cap2', ys1, ys2, q1, q2, k⟩
      refine ⟨ys1, ys2, ?_, hE, q1, q2⟩
      have := k.now2 (ib := ib) hw
      rwa [← foot_both] at this

/-- small_vector satisfies the requirements. -/
theorem SmallVector.spec (hN : N ≤ E.maxSize) :
    Spec (SmallVector.cont E T ib N) (SmallVector.sem E T) (SmallVector.rep E ib N) :=
  SmallVector.specOf hN
    (fun _ i _ _ init hg => wp_mono (SmallVector.construct_spec (ib := ib i) init hg hN)
      (fun _ _ ⟨b', cap', h⟩ => ⟨b', cap', _, h, rfl⟩) (fun _ _ h => h))
    (fun _ i _ _ _ _ _ op h hp => wp_mono (SmallVector.exec_spec (ib := ib i) op h hp)
      (fun _ _ ⟨b', cap', xs', k1, k2⟩ => ⟨b', cap', xs', k1.v, k2⟩)
      (fun _ _ ⟨b', cap', xs', k1, k2⟩ => ⟨b', cap', xs', k1.v, k2⟩))

theorem Vector.construct_eq {al : Nat} (init : Sq.Init α) :
    SmallVector.construct E 0 0 init ⟨Vector.empty al, m⟩ = Vector.construct E init ⟨Vector.empty al, m⟩ := by
  cases init with
  | empty => rfl
  | count n => exact SmallVector.initWith_zero _ _ _
  | fill n v => exact SmallVector.initWith_zero _ _ _
  | range ys => exact SmallVector.initWith_zero _ _ _
  | input ys => exact congrFun (SmallVector.initRangeInput_zero ys) _

/-- vector satisfies the requirements: it owns memory like a small_vector without internal storage. -/
theorem Vector.spec : Spec (Vector.cont K E T) (Vector.sem E T) (SmallVector.rep E (fun _ => 0) 0) where
  ok :=
    have h := (SmallVector.spec (T := T) (E := E) (ib := fun _ : Fin K => 0) (N := 0) (Nat.zero_le _)).ok
    { live := h.live, deadSub := h.deadSub, frame := h.frame, alloc := h.alloc, rawLive := h.rawLive,
      rawFrame := h.rawFrame, rawEq := h.rawEq }
  make := by
    intro i m al init hw hr _
    have h := (SmallVector.spec (T := T) (E := E) (ib := fun _ : Fin K => 0) (N := 0) (Nat.zero_le _)).make (i := i) (al := al) (init := init) hw hr rfl
    exact wp_congr (Vector.construct_eq init) h
  copy := by
    rintro i j m al w al2 xs2 F2 hij hw hr h2 hd
    obtain ⟨b2, cap2, h2, rfl⟩ := h2
    have hp := Own.pair hw (SmallVector.raw_own (ib := fun _ : Fin K => 0) (al := al) (Nat.zero_le _) hr) h2 hd
    have hv := (SmallVector.raw_own (ib := fun _ : Fin K => 0) (E := E) (al := al) (Nat.zero_le _) hr).vst hw (Rest.out _ _)
    show wp (Vector.initCopy E w) _ _ _
    unfold Vector.initCopy
    rw [wp_bind, h2.obj]
    refine wp_distance rfl (by simp) ?_
    refine wp_mono (wp_congr (SmallVector.initWith_zero _ _ _) (initWith_spec (hv.gone ⟨rfl, rfl⟩) (Nat.zero_le _) hp.exts)) ?_ ?_
    · rintro _ o' ⟨b', h, _⟩
      exact VSt.now (ib := fun _ : Fin K => 0) (i := i) hw h
    · rintro e o' ⟨h1, _⟩
      exact h1.rawFrame (ib := fun _ : Fin K => 0) (i := i) hw
  move := by
    rintro i j m al w al2 xs2 F2 hij hw hr ⟨b2, cap2, h2, rfl⟩ hd
    have hp := Own.pair hw (SmallVector.raw_own (ib := fun _ : Fin K => 0) (al := al) (Nat.zero_le _) hr) h2 hd
    refine wp_mono (Vector.initMove_spec hp) ?_ ?_
    · rintro _ o' ⟨b1', cap1', b2', cap2', ys, h, hy⟩
      refine ⟨ys, ?_, ?_⟩
      · have := h.now2 (ib := fun _ : Fin K => 0) (i := i) (j := j) hw
        rwa [← foot_both] at this
      · simp only [Vector.sem, decide_eq_true_eq]
        split at hy
        · rw [if_pos ‹_›]; exact hy.1
        · rw [if_neg ‹_›]; exact hy
    · rintro e o' ⟨ys, h, hy⟩
      refine ⟨⟨h.one.ibk, h.one.raw⟩, ys, foot b2 0, ⟨b2, cap2, h.two, rfl⟩, h.sep.disj, ?_, hy⟩
      show Frame m (Both (foot 0 0) (foot b2 0)) o'.m (Both (foot 0 0) (foot b2 0))
      rw [foot_both]
      exact Rest.toFrame hw h.wf h.rest
  destroy := by
    intro i m v al xs F hw h
    have := (SmallVector.spec (T := T) (E := E) (ib := fun _ : Fin K => 0) (N := 0) (Nat.zero_le _)).destroy hw h
    exact wp_congr (congrFun SmallVector.destructor_zero _) this
  size := (SmallVector.spec (T := T) (E := E) (ib := fun _ : Fin K => 0) (N := 0) (Nat.zero_le _)).size
  index := (SmallVector.spec (T := T) (E := E) (ib := fun _ : Fin K => 0) (N := 0) (Nat.zero_le _)).index
  exec := by
    rintro i m v al xs F op hw ⟨b, cap, h, rfl⟩ hp
    refine wp_mono (Vector.exec_spec op (h.vst hw (Rest.out _ _)) hp) ?_ ?_
    · rintro r o' ⟨b', cap', xs', k1, k2⟩
      exact ⟨xs', VSt.now (ib := fun _ : Fin K => 0) (i := i) hw k1.v, k2⟩
    · rintro r o' ⟨b', cap', xs', k1, k2⟩
      exact ⟨xs', VSt.now (ib := fun _ : Fin K => 0) (i := i) hw k1.v, k2⟩
  assignCopy := by
    rintro i j m v al xs F w al2 xs2 F2 hij hw ⟨b, cap, h, rfl⟩ ⟨b2, cap2, h2, rfl⟩ hd _
    have hp := Own.pair hw h h2 hd
    refine wp_mono (Vector.assignCopy_spec hp) ?_ ?_
    · rintro _ o' ⟨b1', cap1', k⟩
      exact VSt.now (ib := fun _ : Fin K => 0) (i := i) hw k
    · rintro _ o' ⟨b1', cap1', xs1', k⟩
      exact Or.inl ⟨xs1', VSt.now (ib := fun _ : Fin K => 0) (i := i) hw k, trivial⟩
  assignMove := by
    rintro i j m v al xs F w al2 xs2 F2 hij hw ⟨b, cap, h, rfl⟩ ⟨b2, cap2, h2, rfl⟩ hd _
    have hp := Own.pair hw h h2 hd
    refine wp_mono (Vector.assignMove_spec (T := T) hp) ?_ ?_
    · rintro _ o' ⟨b1', cap1', b2', cap2', ys, k, hy⟩
      refine ⟨ys, ?_, ?_⟩
      · have := k.now2 (ib := fun _ : Fin K => 0) (i := i) (j := j) hw
        rwa [← foot_both] at this
      · simp only [Vector.sem, Bool.or_eq_true, decide_eq_true_eq]
        split at hy
        · rw [if_pos ‹_›]; exact hy.1
        · rw [if_neg ‹_›]; exact hy
    · rintro e o' ⟨b1', cap1', xs1', ys, k, hy⟩
      refine Or.inl ⟨xs1', ys, ?_, trivial, hy⟩
      have := k.now2 (ib := fun _ : Fin K => 0) (i := i) (j := j) hw
      rwa [← foot_both] at this
  swap := by
    rintro i j m v al xs F w al2 xs2 F2 hij hw ⟨b, cap, h, rfl⟩ ⟨b2, cap2, h2, rfl⟩ hd hs
    have hp := Own.pair hw h h2 hd
    have hs' : T.pocs = true ∨ al = al2 := by
      simpa only [Vector.sem, Bool.or_eq_true, beq_iff_eq] using hs
    have e1 : (if (Vector.sem E T).T.pocs = true then al2 else al) = al2 := by
      split
      · rfl
      · rcases hs' with h1 | h1
        · exact absurd h1 ‹_›
        · exact h1
    have e2 : (if (Vector.sem E T).T.pocs = true then al else al2) = al := by
      split
      · rfl
      · rcases hs' with h1 | h1
        · exact absurd h1 ‹_›
        · exact h1.symm
    rw [e1, e2]
    refine wp_mono (Vector.swap_spec hp hs') ?_ (fun _ _ h => h.elim)
    rintro _ o' ⟨b1', cap1', b2', cap2', k⟩
    have := k.now2 (ib := fun _ : Fin K => 0) (i := i) (j := j) hw
    rwa [← foot_both] at this

end
end Sfl
