import Verif.CostTwo
/-
  Costs of construction, copy, move, assignment and swap of vector, small_vector, compact_vector, devector and static_vector.
-/

set_option linter.unusedSimpArgs false

namespace Sfl
open World
variable {α V W β : Type} {E : Env α} {T : Traits} {v w : Vec} {t n r : Nat}

/-! ### Functions of two containers -/

theorem vcost.onThis {p : M (Obj V α) β} {Q : β → V × W → Nat → Prop} {X : V × W → Nat → Prop} {vw : V × W}
    (h : vcost p (fun b v' t' => Q b (v', vw.2) t') (fun v' t' => X (v', vw.2) t') vw.1 t) : vcost (onThis p) Q X vw t := by
  intro o ho ht
  have h := h ⟨o.obj.1, o.m⟩ (by rw [← ho]) ht
  unfold Sfl.onThis
  cases hp : p ⟨o.obj.1, o.m⟩ with
  | ok b o' => rw [hp] at h; subst ho; exact h
  | exn e o' => rw [hp] at h; subst ho; exact h
  | ub r => trivial

theorem vcost.onOther {p : M (Obj W α) β} {Q : β → V × W → Nat → Prop} {X : V × W → Nat → Prop} {vw : V × W}
    (h : vcost p (fun b w' t' => Q b (vw.1, w') t') (fun w' t' => X (vw.1, w') t') vw.2 t) : vcost (onOther p) Q X vw t := by
  intro o ho ht
  have h := h ⟨o.obj.2, o.m⟩ (by rw [← ho]) ht
  unfold Sfl.onOther
  cases hp : p ⟨o.obj.2, o.m⟩ with
  | ok b o' => rw [hp] at h; subst ho; exact h
  | exn e o' => rw [hp] at h; subst ho; exact h
  | ub r => trivial

theorem cost.swapRanges {n : Nat} : ∀ {p q : Ptr} {t : Nat} {Q : Unit → Nat → Prop} {X : Nat → Prop}, Q () (t + 3 * n) →
    (∀ t', t ≤ t' → t' ≤ t + 3 * n → X t') → cost (swapRanges E p q n) Q X t := by
  induction n with
  | zero => intro p q t Q X h _; exact .pure h
  | succ n ih =>
    intro p q t Q X h hX
    unfold Sfl.swapRanges
    refine .bind (.mkTmp (fun _ => .bind (.assign (.bind (.assign (ih (by rw [show t + 1 + 1 + 1 + 3 * n = t + 3 * (n + 1) by omega]; exact h)
      fun t' h1 h2 => hX t' (by omega) (by omega)) ?_)) ?_)) ?_) <;> exact hX _ (by omega) (by omega)

theorem Own.dim {m : St α} {ib N al b cap : Nat} {xs : List α} (h : Own E ib N m v al b cap xs) :
    SmallVector.Dim v xs.length (cap - xs.length) := by
  have := h.len
  constructor <;> rw [h.obj] <;> simp <;> omega

namespace SmallVector
variable {ib N ibo : Nat}

theorem initWith_costs {as : List (Arg α)} :
    vcost (initWith E N as) (fun _ _ t' => t' ≤ t + as.length + if as.length ≤ N then 0 else 1)
      (fun _ t' => t' ≤ t + as.length + if as.length ≤ N then 0 else 1) v t := by
  unfold initWith Vector.checkSize
  refine .bind (.ite (fun _ => .throw (by omega)) fun _ => .pure (.bind (.getObj (.ite (fun h => ?_) fun h => ?_))))
  · rw [if_neg (by omega)]; vcost <;> omega
  · rw [if_pos (by omega)]; vcost <;> omega

/-- Giving up the storage is free. -/
theorem reset_free (h : Dim v n r) :
    vcost (reset E ib N 0 : Vector.VM α Unit) (fun _ v' t' => Dim v' 0 N ∧ v'.alloc = v.alloc ∧ t' = t) (fun _ _ => False) v t := by
  obtain ⟨h1, h2, h3, h4⟩ := h
  unfold reset replaceStorage freeUnless
  vcost
  all_goals first
    | (exfalso; omega)
    | (refine ⟨⟨?_, ?_, ?_, ?_⟩, ?_, ?_⟩ <;> first | rfl | cost_arith)

theorem propagate_free (h : Dim v n r) {flag : Bool} {al : Nat} :
    vcost (propagate E ib N flag al : Vector.VM α Unit)
      (fun _ v' t' => (∃ n' r', Dim v' n' r') ∧ v'.alloc = (if flag = true then al else v.alloc) ∧ t' = t) (fun _ _ => False) v t := by
  unfold propagate
  refine .bind (.getObj (.ite (fun hf => ?_) fun hf => ?_))
  · rw [if_pos hf]
    refine .ite (fun _ => .bind ((reset_free h).mono (fun _ v' t' hq => ?_) fun _ _ hq => hq)) fun _ => ?_
    · obtain ⟨⟨h1, h2, h3, h4⟩, -, h6⟩ := hq
      exact .bind (.getObj (.setObj ⟨⟨0, N, ⟨h1, h2, h3, h4⟩⟩, rfl, h6⟩))
    · obtain ⟨h1, h2, h3, h4⟩ := h
      exact .bind (.getObj (.setObj ⟨⟨n, r, ⟨h1, h2, h3, h4⟩⟩, rfl, rfl⟩))
  · rw [if_neg hf]
    exact .pure ⟨⟨n, r, h⟩, rfl, rfl⟩

/-- Assigning elements that fit into the internal storage does not allocate. -/
theorem assignRange_internal (h : Dim v n r) {as : List (Arg α)} (hl : as.length ≤ N) :
    vcost (assignRange E ib N as) (fun _ _ t' => t' ≤ t + as.length) (fun _ t' => t' ≤ t + as.length) v t := by
  have hd := h
  obtain ⟨h1, h2, h3, h4⟩ := h
  unfold assignRange Vector.checkSize Vector.capacity Vector.size
  refine .bind (.ite (fun _ => .throw (by omega)) fun _ => .pure (.bind (.getObj (.bind (.bind (.getObj (.distance fun _ _ => ?_)))))))
  refine .ite (fun _ => ?_) fun _ => ?_
  · vcost <;> (try simp only [List.length_drop, List.length_take] at *) <;> cost_arith
  · refine .bind (?_ : vcost _ (fun _ _ t' => _) (fun _ t' => _) _ _)
    unfold reset replaceStorage freeUnless
    vcost <;> cost_arith

theorem assignRange_costs (h : Dim v n r) {as : List (Arg α)} :
    vcost (assignRange E ib N as) (fun _ _ t' => t' ≤ t + (as.length + 1)) (fun _ t' => t' ≤ t + (as.length + 1)) v t :=
  vcost.mono (assignRange_ends h) (fun _ _ _ h => by have := h.2; omega) fun _ _ h => by have := h.2; omega

theorem initCopy_costs (h : Dim w n r) :
    vcost (initCopy E N w) (fun _ _ t' => t' ≤ t + (n + 1)) (fun _ t' => t' ≤ t + (n + 1)) v t := by
  have h3 := h.last
  unfold initCopy
  refine .bind (.distance fun _ _ => initWith_costs.mono (fun _ _ _ h => ?_) fun _ _ h => ?_) <;>
    · rw [args_length] at h
      split at h <;> omega

theorem assignCopy_costs (h : Dim v n r) {n' r' : Nat} (hw : Dim w n' r') :
    vcost (assignCopy E T ib N w) (fun _ _ t' => t' ≤ t + (n' + 1)) (fun _ t' => t' ≤ t + (n' + 1)) v t := by
  have h3 := hw.last
  unfold assignCopy
  refine .bind ((propagate_free h).mono (fun _ v' t' hq => ?_) fun _ _ hq => hq.elim)
  obtain ⟨⟨n1, r1, hd⟩, -, rfl⟩ := hq
  refine .bind (.distance fun _ _ => (assignRange_costs hd).mono (fun _ _ _ h => ?_) fun _ _ h => ?_) <;>
    · rw [args_length] at h; omega

/-- Move construction. -/
theorem initMove_costs (hw : Dim w n r) (hi : w.first = ⟨ibo, 0⟩ → n ≤ N) :
    vcost (initMove E N ibo) (fun _ _ t' => t' ≤ t + if v.alloc = w.alloc then min n N else n + 1)
      (fun _ t' => t' ≤ t + if v.alloc = w.alloc then min n N else n + 1) (v, w) t := by
  have h3 := hw.last
  unfold initMove
  refine .bind (.getObj (.ite (fun hf => ?_) fun hf => .ite (fun ha => ?_) fun ha => ?_))
  · have := hi hf
    split <;> (vcost <;> (try dsimp only at *) <;> omega)
  · rw [if_pos ha]; vcost; omega
  · rw [if_neg ha]
    refine .bind (.distance fun _ _ => .onThis (initWith_costs.mono (fun _ _ _ h => ?_) fun _ _ h => ?_)) <;>
      · rw [args_length] at h
        dsimp only at h
        split at h <;> omega

/-- Move assignment. -/
theorem assignMove_costs (h : Dim v n r) {n' r' : Nat} (hw : Dim w n' r') (hi : w.first = ⟨ibo, 0⟩ → n' ≤ N) :
    vcost (assignMove E T ib N ibo)
      (fun _ _ t' => t' ≤ t + if T.pocma = true ∨ v.alloc = w.alloc then min n' N else n' + 1)
      (fun _ t' => t' ≤ t + if T.pocma = true ∨ v.alloc = w.alloc then min n' N else n' + 1) (v, w) t := by
  have h3 := hw.last
  unfold assignMove
  refine .bind (.getObj (.bind (.onThis ((propagate_free h).mono (fun _ v' t' hq => ?_) fun _ _ hq => hq.elim))))
  obtain ⟨⟨n1, r1, hd⟩, hal, rfl⟩ := hq
  refine .bind (.getObj (.ite (fun hf => ?_) fun hf => .ite (fun ha => ?_) fun ha => ?_))
  · have := hi hf
    refine .bind (.distance fun _ _ => .onThis ((assignRange_internal hd (by rw [args_length]; dsimp only; omega)).mono
      (fun _ _ _ h => ?_) fun _ _ h => ?_)) <;>
      · rw [args_length] at h
        dsimp only at h
        split <;> omega
  · refine .bind (.onThis ((reset_free hd).mono (fun _ v' t' hq => ?_) fun _ _ hq => hq.elim))
    obtain ⟨-, -, rfl⟩ := hq
    exact .bind (.getObj (.setObj (Nat.le_add_right _ _)))
  · have : ¬ (T.pocma = true ∨ v.alloc = w.alloc) := by
      dsimp only at ha
      rw [hal] at ha
      rintro (e | e)
      · rw [if_pos e] at ha; exact ha rfl
      · split at ha <;> exact ha (by first | rfl | exact e)
    rw [if_neg this]
    refine .bind (.distance fun _ _ => .onThis ((assignRange_costs hd).mono (fun _ _ _ h => ?_) fun _ _ h => ?_)) <;>
      · rw [args_length] at h
        dsimp only at h
        omega

theorem swapAlloc_free {vw : Vec × Vec} :
    vcost (swapAlloc T : M2 α Unit) (fun _ vw' t' => (vw'.1.first = vw.1.first ∧ vw'.1.last = vw.1.last) ∧
      (vw'.2.first = vw.2.first ∧ vw'.2.last = vw.2.last) ∧ t' = t) (fun _ _ => False) vw t := by
  unfold swapAlloc
  exact .bind (.getObj (.bind (.assert fun _ => .ite (fun _ => .setObj ⟨⟨rfl, rfl⟩, ⟨rfl, rfl⟩, rfl⟩)
    fun _ => .pure ⟨⟨rfl, rfl⟩, ⟨rfl, rfl⟩, rfl⟩)))

/-- swap: at most the elements in internal storage are touched. -/
theorem swap_costs {n' : Nat} (h : v.last.off = v.first.off + n) (hw : w.last.off = w.first.off + n')
    (hi : v.first = ⟨ib, 0⟩ → n ≤ N) (hi' : w.first = ⟨ibo, 0⟩ → n' ≤ N) :
    vcost (swap E T N ib ibo) (fun _ _ t' => t' ≤ t + (min n N + min n' N + min (min n n') N))
      (fun _ t' => t' ≤ t + (min n N + min n' N + min (min n n') N)) (v, w) t := by
  unfold swap
  refine .bind (swapAlloc_free.mono (fun _ vw t' hq => ?_) fun _ _ hq => hq.elim)
  obtain ⟨⟨a1, a2⟩, ⟨b1, b2⟩, rfl⟩ := hq
  dsimp only at a1 a2 b1 b2
  rw [← a1, ← a2] at h
  rw [← b1, ← b2] at hw
  rw [← a1] at hi
  rw [← b1] at hi'
  refine .bind (.getObj (.ite (fun hf => ?_) fun hf => .ite (fun hf1 => ?_) fun hf1 => .ite (fun hf2 => ?_) fun hf2 => ?_))
  · have g1 := hi hf.1
    have g2 := hi' hf.2
    unfold swapInternal
    refine .bind (.getObj (.bind (.distance fun _ _ => .bind (.distance fun _ _ => .ite (fun hle => ?_) fun hle => ?_))))
    all_goals
      refine .bind (.lift (.swapRanges ?_ fun t' _ _ => ?_))
      · vcost <;> (try simp only [Ptr.add_off] at *) <;> omega
      · omega
  · have g1 := hi hf1
    unfold swapInHeap
    vcost <;> (try dsimp only at *) <;> omega
  · have g1 := hi' hf2
    unfold swapHeapIn
    vcost <;> (try dsimp only at *) <;> omega
  · exact .setObj (Nat.le_add_right _ _)


theorem destructor_free : vcost (destructor ib : Vector.VM α Unit) (fun _ _ t' => t' ≤ t) (fun _ t' => t' ≤ t) v t := by
  unfold destructor freeUnless
  vcost <;> omega

end SmallVector

/-- What a constructor is asked to do: `f n` for a range of `n` elements given by input iterators, otherwise one operation for each
element. -/
def Sq.Init.work {α : Type} (f : Nat → Nat) (d : α) : Sq.Init α → Nat
  | .input ys => f ys.length
  | init => (init.result d).length

namespace SmallVector
variable {K : Nat} {ib : Fin K → Nat} {N : Nat}

/-- Prices of containers with the storage of small_vector. -/
def price (N : Nat) : Price where
  unit := 1
  base := 1
  take := fun n => min n N
  swap := fun n k => min n N + min k N + min (min n k) N

theorem construct_costs {b N al : Nat} {init : Sq.Init α} :
    vcost (construct E b N init) (fun _ _ t' => t' ≤ t + (init.work (7 * ·) E.dflt + 1))
      (fun _ t' => t' ≤ t + (init.work (7 * ·) E.dflt + 1)) (empty b N al) t := by
  have hw : ∀ {as : List (Arg α)} {v : Vec}, vcost (initWith E N as) (fun _ _ t' => t' ≤ t + (as.length + 1))
      (fun _ t' => t' ≤ t + (as.length + 1)) v t := fun {as v} =>
    initWith_costs.mono (fun _ _ _ h => by split at h <;> omega) fun _ _ h => by split at h <;> omega
  cases init with
  | empty => exact .pure (by simp [Sq.Init.work])
  | count m => exact hw.mono (fun _ _ _ h => by simpa [Sq.Init.work, Sq.Init.result] using h) fun _ _ h => by simpa [Sq.Init.work, Sq.Init.result] using h
  | fill m x => exact hw.mono (fun _ _ _ h => by simpa [Sq.Init.work, Sq.Init.result] using h) fun _ _ h => by simpa [Sq.Init.work, Sq.Init.result] using h
  | range ys => exact hw.mono (fun _ _ _ h => by simpa [Sq.Init.work, Sq.Init.result] using h) fun _ _ h => by simpa [Sq.Init.work, Sq.Init.result] using h
  | input ys =>
    have hd : Dim (empty b N al) 0 N := ⟨rfl, rfl, rfl, by simp [empty]⟩
    refine .tryCatch (vcost.mono (emplaceBackAll_amortised (ys.map .val) hd) (fun _ _ _ h => ?_) fun _ _ h e => ?_)
    · have := h.2
      rw [List.length_map] at this
      show _ ≤ t + (7 * ys.length + 1)
      split at this <;> omega
    · refine .bind (destructor_free.mono (fun _ _ _ h' => .throw ?_) fun _ _ h' => ?_) <;>
        · have := h.2
          rw [List.length_map] at this
          show _ ≤ t + (7 * ys.length + 1)
          split at this <;> omega

theorem rep_internal {i : Fin K} {m : St α} {v : Vec} {al : Nat} {xs : List α} {F : Foot} (h : (rep E ib N).rep i m v al xs F) :
    v.alloc = al ∧ (∃ r, Dim v xs.length r) ∧ (v.first = ⟨ib i, 0⟩ → xs.length ≤ N) := by
  obtain ⟨b, cap, h, rfl⟩ := h
  refine ⟨by rw [h.obj], ⟨_, h.dim⟩, fun hf => ?_⟩
  have hl := h.len
  rw [h.obj] at hf
  simp only [Ptr.mk.injEq, and_true] at hf
  rcases h.own with ⟨-, h2⟩ | ⟨-, h2⟩ | ⟨-, -, h3, -⟩
  · omega
  · omega
  · exact absurd hf h3

/-- Containers with the storage of small_vector keep to the prices. -/
theorem pricedOf {Op I ρ : Type} {S : Sem Op I α ρ} {make : Fin K → I → Vector.VM α Unit} {exec : Fin K → Op → Vector.VM α (Option ρ)}
    (hS : S.takes = T.pocma) : Priced (contOf E T ib N make exec) S (rep E ib N) (price N) where
  copy := by
    intro i j m al w al2 xs F o' _ _ hr ho
    obtain ⟨-, ⟨r, hd⟩, -⟩ := rep_internal hr
    exact vcost.fin (o := ⟨_, m⟩) (P := fun _ t' => t' ≤ m.tick + (1 * xs.length + 1)) (by rw [Nat.one_mul]; exact initCopy_costs hd) ho
  move := by
    intro i j m al w al2 xs F o' _ _ hr ho
    obtain ⟨rfl, ⟨r, hd⟩, hi⟩ := rep_internal hr
    exact vcost.fin (o := ⟨_, m⟩) (P := fun _ t' => t' ≤ m.tick + if al = w.alloc then min xs.length N else 1 * xs.length + 1)
      (by rw [Nat.one_mul]; exact initMove_costs (v := empty (ib i) N al) hd hi) ho
  destroy := by
    intro i m v al xs F o' _ _ ho
    exact vcost.fin (o := ⟨_, m⟩) (P := fun _ t' => t' ≤ m.tick) destructor_free ho
  assignCopy := by
    intro i j m v al xs F w al2 xs2 F2 o' _ hr hr2 _ ho
    obtain ⟨-, ⟨r, hd⟩, -⟩ := rep_internal hr
    obtain ⟨-, ⟨r2, hd2⟩, -⟩ := rep_internal hr2
    exact vcost.fin (o := ⟨_, m⟩) (P := fun _ t' => t' ≤ m.tick + (1 * xs2.length + 1)) (by rw [Nat.one_mul]; exact assignCopy_costs hd hd2) ho
  assignMove := by
    intro i j m v al xs F w al2 xs2 F2 o' _ hr hr2 _ ho
    obtain ⟨rfl, ⟨r, hd⟩, -⟩ := rep_internal hr
    obtain ⟨rfl, ⟨r2, hd2⟩, hi⟩ := rep_internal hr2
    rw [hS]
    exact vcost.fin (o := ⟨_, m⟩)
      (P := fun _ t' => t' ≤ m.tick + if T.pocma = true ∨ v.alloc = w.alloc then min xs2.length N else 1 * xs2.length + 1)
      (by rw [Nat.one_mul]; exact assignMove_costs hd hd2 hi) ho
  swap := by
    intro i j m v al xs F w al2 xs2 F2 o' _ hr hr2 _ ho
    obtain ⟨-, ⟨r, hd⟩, hi⟩ := rep_internal hr
    obtain ⟨-, ⟨r2, hd2⟩, hi2⟩ := rep_internal hr2
    exact vcost.fin (o := ⟨_, m⟩)
      (P := fun _ t' => t' ≤ m.tick + (min xs.length N + min xs2.length N + min (min xs.length xs2.length) N))
      (swap_costs hd.last hd2.last hi hi2) ho

theorem made : Made (SmallVector.cont E T ib N) (price N) (fun init => init.work (7 * ·) E.dflt) := by
  intro i m al init o' ho
  exact vcost.fin (o := ⟨_, m⟩) (P := fun _ t' => t' ≤ m.tick + (1 * init.work (7 * ·) E.dflt + 1))
    (by rw [Nat.one_mul]; exact construct_costs) ho

end SmallVector

namespace Vector
variable {K : Nat}

/-- Prices of vector. -/
def price : Price := ⟨1, 1, fun _ => 0, fun _ _ => 0⟩

theorem initWith_costs {as : List (Arg α)} :
    vcost (initWith E as) (fun _ _ t' => t' ≤ t + (as.length + 1)) (fun _ t' => t' ≤ t + (as.length + 1)) v t := by
  unfold initWith Vector.checkSize
  vcost <;> omega

theorem initMove_costs (hw : SmallVector.Dim w n r) :
    vcost (initMove E) (fun _ _ t' => t' ≤ t + if v.alloc = w.alloc then 0 else n + 1)
      (fun _ t' => t' ≤ t + if v.alloc = w.alloc then 0 else n + 1) (v, w) t := by
  have h3 := hw.last
  unfold initMove
  refine .bind (.getObj (.ite (fun ha => ?_) fun ha => ?_))
  · rw [if_pos ha]; exact .setObj (Nat.le_refl _)
  · rw [if_neg ha]
    refine .bind (.distance fun _ _ => .onThis (initWith_costs.mono (fun _ _ _ h => ?_) fun _ _ h => ?_)) <;>
      · rw [args_length] at h
        dsimp only at h
        omega

theorem assignMove_costs (h : SmallVector.Dim v n r) {n' r' : Nat} (hw : SmallVector.Dim w n' r') :
    vcost (assignMove E T)
      (fun _ _ t' => t' ≤ t + if T.pocma = true ∨ v.alloc = w.alloc then 0 else n' + 1)
      (fun _ t' => t' ≤ t + if T.pocma = true ∨ v.alloc = w.alloc then 0 else n' + 1) (v, w) t := by
  have h3 := hw.last
  unfold assignMove
  simp only [← SmallVector.reset_zero, ← SmallVector.assignRange_zero, propagate_eq]
  refine .bind (.getObj (.bind (.onThis ((SmallVector.propagate_free h).mono (fun _ v' t' hq => ?_) fun _ _ hq => hq.elim))))
  obtain ⟨⟨n1, r1, hd⟩, hal, rfl⟩ := hq
  refine .bind (.getObj (.ite (fun ha => ?_) fun ha => ?_))
  · refine .bind (.onThis ((SmallVector.reset_free hd).mono (fun _ v' t' hq => ?_) fun _ _ hq => hq.elim))
    obtain ⟨-, -, rfl⟩ := hq
    exact .bind (.getObj (.setObj (Nat.le_add_right _ _)))
  · have : ¬ (T.pocma = true ∨ v.alloc = w.alloc) := by
      dsimp only at ha
      rw [hal] at ha
      rintro (e | e)
      · rw [if_pos e] at ha; exact ha rfl
      · split at ha <;> exact ha (by first | rfl | exact e)
    rw [if_neg this]
    refine .bind (.distance fun _ _ => .onThis ((SmallVector.assignRange_costs hd).mono (fun _ _ _ h => ?_) fun _ _ h => ?_)) <;>
      · rw [args_length] at h
        dsimp only at h
        omega

theorem priced : Priced (Vector.cont K E T) (Vector.sem E T) (SmallVector.rep E (fun _ => 0) 0) price where
  copy := by
    intro i j m al w al2 xs F o' _ _ hr ho
    obtain ⟨-, ⟨r, hd⟩, -⟩ := SmallVector.rep_internal hr
    have h3 := hd.last
    refine vcost.fin (o := ⟨_, m⟩) (P := fun _ t' => t' ≤ m.tick + (1 * xs.length + 1)) ?_ ho
    rw [Nat.one_mul]
    refine .bind (.distance fun _ _ => initWith_costs.mono (fun _ _ _ h => ?_) fun _ _ h => ?_) <;>
      · rw [args_length] at h; dsimp only at h ⊢; omega
  move := by
    intro i j m al w al2 xs F o' _ _ hr ho
    obtain ⟨rfl, ⟨r, hd⟩, -⟩ := SmallVector.rep_internal hr
    exact vcost.fin (o := ⟨_, m⟩) (P := fun _ t' => t' ≤ m.tick + if al = w.alloc then 0 else 1 * xs.length + 1)
      (by rw [Nat.one_mul]; exact initMove_costs (v := empty al) hd) ho
  destroy := by
    intro i m v al xs F o' _ _ ho
    refine vcost.fin (o := ⟨_, m⟩) (P := fun _ t' => t' ≤ m.tick) ?_ ho
    show vcost Vector.destructor _ _ _ _
    rw [← SmallVector.destructor_zero]
    exact SmallVector.destructor_free
  assignCopy := by
    intro i j m v al xs F w al2 xs2 F2 o' _ hr hr2 _ ho
    obtain ⟨-, ⟨r, hd⟩, -⟩ := SmallVector.rep_internal hr
    obtain ⟨-, ⟨r2, hd2⟩, -⟩ := SmallVector.rep_internal hr2
    refine vcost.fin (o := ⟨_, m⟩) (P := fun _ t' => t' ≤ m.tick + (1 * xs2.length + 1)) ?_ ho
    rw [Nat.one_mul]
    have := SmallVector.assignCopy_costs (E := E) (T := T) (ib := 0) (N := 0) (t := m.tick) hd hd2
    unfold SmallVector.assignCopy at this
    simp only [SmallVector.assignRange_zero, ← propagate_eq] at this
    exact this
  assignMove := by
    intro i j m v al xs F w al2 xs2 F2 o' _ hr hr2 _ ho
    obtain ⟨rfl, ⟨r, hd⟩, -⟩ := SmallVector.rep_internal hr
    obtain ⟨rfl, ⟨r2, hd2⟩, -⟩ := SmallVector.rep_internal hr2
    exact vcost.fin (o := ⟨_, m⟩)
      (P := fun _ t' => t' ≤ m.tick + if T.pocma = true ∨ v.alloc = w.alloc then 0 else 1 * xs2.length + 1)
      (by rw [Nat.one_mul]; exact assignMove_costs hd hd2) ho
  swap := by
    intro i j m v al xs F w al2 xs2 F2 o' _ _ _ _ ho
    refine vcost.fin (o := ⟨_, m⟩) (P := fun _ t' => t' ≤ m.tick + 0) ?_ ho
    refine .bind (SmallVector.swapAlloc_free.mono (fun _ vw t' hq => ?_) fun _ _ hq => hq.elim)
    obtain ⟨-, -, rfl⟩ := hq
    exact .bind (.getObj (.setObj (Nat.le_refl _)))

theorem made : Made (Vector.cont K E T) price (fun init => init.work (7 * ·) E.dflt) := by
  intro i m al init o' ho
  refine vcost.fin (o := ⟨_, m⟩) (P := fun _ t' => t' ≤ m.tick + (1 * init.work (7 * ·) E.dflt + 1))
    (m := SmallVector.construct E 0 0 init) ?_ ((congrArg Res.final (construct_eq init)).trans ho)
  rw [Nat.one_mul]
  exact SmallVector.construct_costs

end Vector

end Sfl
