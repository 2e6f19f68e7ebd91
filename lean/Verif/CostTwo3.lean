import Verif.CostTwo2
import Verif.CompactWorld
import Verif.DevWorld
import Verif.StaticWorld
import Verif.CostDev5
/-
  Costs of construction, copy, move, assignment and swap of compact_vector, devector and static_vector.
-/

set_option linter.unusedSimpArgs false

namespace Sfl
open World
variable {α : Type} {E : Env α} {T : Traits} {t n r : Nat} {K : Nat}

namespace CompactVector
variable {v w : Vec}

theorem rep_line {i : Fin K} {m : St α} {al : Nat} {xs : List α} {F : Foot} (h : (rep K E).rep i m v al xs F) :
    v.alloc = al ∧ Line v xs.length := by
  obtain ⟨b, h, rfl⟩ := h
  refine ⟨by rw [h.obj], ?_, ?_⟩ <;> rw [h.obj] <;> simp

theorem propagate_free (h : Line v n) {flag : Bool} {al : Nat} :
    vcost (propagate flag al : Vector.VM α Unit)
      (fun _ v' t' => (∃ n', Line v' n') ∧ v'.alloc = (if flag = true then al else v.alloc) ∧ t' = t) (fun _ t' => t' = t) v t := by
  unfold propagate
  refine .bind (.getObj (.ite (fun hf => ?_) fun hf => ?_))
  · rw [if_pos hf]
    refine .ite (fun _ => .bind (clear_cost.mono (fun _ v' t' hq => ?_) fun _ _ hq => hq)) fun _ => ?_
    · obtain ⟨⟨h1, h2⟩, h6⟩ := hq
      exact .bind (.getObj (.setObj ⟨⟨0, ⟨h1, h2⟩⟩, rfl, h6⟩))
    · obtain ⟨h1, h2⟩ := h
      exact .bind (.getObj (.setObj ⟨⟨n, ⟨h1, h2⟩⟩, rfl, rfl⟩))
  · rw [if_neg hf]
    exact .pure ⟨⟨n, h⟩, rfl, rfl⟩

theorem initMove_costs (hw : Line w n) :
    vcost (initMove E) (fun _ _ t' => t' ≤ t + if v.alloc = w.alloc then 0 else n + 1)
      (fun _ t' => t' ≤ t + if v.alloc = w.alloc then 0 else n + 1) (v, w) t := by
  have h3 := hw.last
  unfold initMove
  refine .bind (.getObj (.ite (fun ha => ?_) fun ha => ?_))
  · rw [if_pos ha]; exact .setObj (Nat.le_refl _)
  · rw [if_neg ha]
    refine .bind (.distance fun _ _ => .onThis (vcost.mono initWith_costs (fun _ _ _ h => ?_) fun _ _ h => ?_)) <;>
      · rw [args_length] at h
        dsimp only at h
        omega

theorem assignMove_costs (h : Line v n) {n' : Nat} (hw : Line w n') :
    vcost (assignMove E T)
      (fun _ _ t' => t' ≤ t + if T.pocma = true ∨ v.alloc = w.alloc then 0 else n' + 1)
      (fun _ t' => t' ≤ t + if T.pocma = true ∨ v.alloc = w.alloc then 0 else n' + 1) (v, w) t := by
  have h3 := hw.last
  unfold assignMove
  refine .bind (.getObj (.bind (.onThis ((propagate_free h).mono (fun _ v' t' hq => ?_) fun _ _ hq => by omega))))
  obtain ⟨⟨n1, hd⟩, hal, rfl⟩ := hq
  refine .bind (.getObj (.ite (fun ha => ?_) fun ha => ?_))
  · refine .bind (.onThis (clear_cost.mono (fun _ v' t' hq => ?_) fun _ _ hq => by omega))
    obtain ⟨-, rfl⟩ := hq
    exact .bind (.getObj (.setObj (Nat.le_add_right _ _)))
  · have : ¬ (T.pocma = true ∨ v.alloc = w.alloc) := by
      dsimp only at ha
      rw [hal] at ha
      rintro (e | e)
      · rw [if_pos e] at ha; exact ha rfl
      · split at ha <;> exact ha (by first | rfl | exact e)
    rw [if_neg this]
    refine .bind (.distance fun _ _ => .onThis (vcost.mono (assignRange_costs hd) (fun _ _ _ h => ?_) fun _ _ h => ?_)) <;>
      · rw [args_length] at h
        dsimp only at h
        omega

/-- compact_vector keeps to the prices of vector. -/
theorem priced {S : Sem (Sq.Op α) (Sq.Init α) α Nat} (hS : S.takes = T.pocma) :
    Priced (cont K E T) S (rep K E) Vector.price where
  copy := by
    intro i j m al w al2 xs F o' _ _ hr ho
    have h3 := (rep_line hr).2.last
    refine vcost.fin (o := ⟨_, m⟩) (P := fun _ t' => t' ≤ m.tick + (1 * xs.length + 1)) ?_ ho
    rw [Nat.one_mul]
    refine .bind (.distance fun _ _ => vcost.mono initWith_costs (fun _ _ _ h => ?_) fun _ _ h => ?_) <;>
      · rw [args_length] at h; dsimp only at h ⊢; omega
  move := by
    intro i j m al w al2 xs F o' _ _ hr ho
    obtain ⟨rfl, hd⟩ := rep_line hr
    exact vcost.fin (o := ⟨_, m⟩) (P := fun _ t' => t' ≤ m.tick + if al = w.alloc then 0 else 1 * xs.length + 1)
      (by rw [Nat.one_mul]; exact initMove_costs (v := empty al) hd) ho
  destroy := by
    intro i m v al xs F o' _ _ ho
    refine vcost.fin (o := ⟨_, m⟩) (P := fun _ t' => t' ≤ m.tick) ?_ ho
    show vcost destructor _ _ _ _
    unfold destructor
    vcost
    exact Nat.le_refl _
  assignCopy := by
    intro i j m v al xs F w al2 xs2 F2 o' _ hr hr2 _ ho
    have h3 := (rep_line hr2).2.last
    refine vcost.fin (o := ⟨_, m⟩) (P := fun _ t' => t' ≤ m.tick + (1 * xs2.length + 1)) ?_ ho
    rw [Nat.one_mul]
    refine .bind ((propagate_free (rep_line hr).2).mono (fun _ v' t' hq => ?_) fun _ _ hq => by dsimp only at hq; omega)
    obtain ⟨⟨n1, hd⟩, -, rfl⟩ := hq
    refine .bind (.distance fun _ _ => vcost.mono (assignRange_costs hd) (fun _ _ _ h => ?_) fun _ _ h => ?_) <;>
      · rw [args_length] at h; dsimp only at h ⊢; omega
  assignMove := by
    intro i j m v al xs F w al2 xs2 F2 o' _ hr hr2 _ ho
    obtain ⟨rfl, hd⟩ := rep_line hr
    obtain ⟨rfl, hd2⟩ := rep_line hr2
    rw [hS]
    exact vcost.fin (o := ⟨_, m⟩)
      (P := fun _ t' => t' ≤ m.tick + if T.pocma = true ∨ v.alloc = w.alloc then 0 else 1 * xs2.length + 1)
      (by rw [Nat.one_mul]; exact assignMove_costs hd hd2) ho
  swap := by
    intro i j m v al xs F w al2 xs2 F2 o' _ _ _ _ ho
    refine vcost.fin (o := ⟨_, m⟩) (P := fun _ t' => t' ≤ m.tick + 0) ?_ ho
    refine .bind (SmallVector.swapAlloc_free.mono (fun _ vw t' hq => ?_) fun _ _ hq => hq.elim)
    obtain ⟨-, -, rfl⟩ := hq
    exact .bind (.getObj (.setObj (Nat.le_refl _)))

theorem made : Made (cont K E T) Vector.price (fun init => init.work (fun n => n * (n + 3) / 2) E.dflt) := by
  intro i m al init o' ho
  refine vcost.fin (o := ⟨_, m⟩) (P := fun _ t' => t' ≤ m.tick + (1 * init.work (fun n => n * (n + 3) / 2) E.dflt + 1)) ?_ ho
  rw [Nat.one_mul]
  cases init with
  | input ys =>
    refine vcost.mono (construct_input_cost (v := empty al) ⟨rfl, rfl⟩) (fun _ _ _ h => ?_) fun _ _ h => ?_ <;>
      · show _ ≤ _ + (ys.length * (ys.length + 3) / 2 + 1)
        dsimp only at h
        omega
  | empty => exact vcost.mono (construct_costs (E := E) (init := .empty) (by simp)) (fun _ _ _ h => by rw [Nat.add_assoc] at h; exact h) fun _ _ h => by rw [Nat.add_assoc] at h; exact h
  | count k => exact vcost.mono (construct_costs (E := E) (init := .count k) (by simp)) (fun _ _ _ h => by rw [Nat.add_assoc] at h; exact h) fun _ _ h => by rw [Nat.add_assoc] at h; exact h
  | fill k x => exact vcost.mono (construct_costs (E := E) (init := .fill k x) (by simp)) (fun _ _ _ h => by rw [Nat.add_assoc] at h; exact h) fun _ _ h => by rw [Nat.add_assoc] at h; exact h
  | range ys => exact vcost.mono (construct_costs (E := E) (init := .range ys) (by simp)) (fun _ _ _ h => by rw [Nat.add_assoc] at h; exact h) fun _ _ h => by rw [Nat.add_assoc] at h; exact h

end CompactVector

namespace Devector
variable {v w : DVec} {f b : Nat}

theorem rep_dim {i : Fin K} {m : St α} {al : Nat} {xs : List α} {F : Foot} (h : (rep K E).rep i m v al xs F) :
    v.alloc = al ∧ ∃ f b, Dim v f xs.length b := by
  obtain ⟨b, cap, f, h, rfl⟩ := h
  have := h.fit
  refine ⟨by rw [h.obj], f, cap - (f + xs.length), ?_⟩
  constructor <;> rw [h.obj] <;> simp <;> omega

/-- Prices of devector: an assignment that does not fit first moves the old elements, of which there are less than new ones. -/
def price : Price := ⟨2, 1, fun _ => 0, fun _ _ => 0⟩

theorem initWith_costs {as : List (Arg α)} :
    vcost (initWith E as) (fun _ _ t' => t' ≤ t + (as.length + 1)) (fun _ t' => t' ≤ t + (as.length + 1)) v t := by
  unfold initWith checkSize
  vcost <;> omega

theorem assignRange_costs (h : Dim v f n b) {as : List (Arg α)} :
    vcost (assignRange E as) (fun _ _ t' => t' ≤ t + (2 * as.length + 1)) (fun _ t' => t' ≤ t + (2 * as.length + 1)) v t :=
  vcost.mono (assignRange_ends h) (fun _ _ _ h => by have := h.2; split at this <;> omega) fun _ _ h => by
    have := h.2; split at this <;> omega

/-- Giving up the storage is free. -/
theorem reset_free : vcost (reset : DM α Unit) (fun _ v' t' => Dim v' 0 0 0 ∧ v'.alloc = v.alloc ∧ t' = t) (fun _ _ => False) v t := by
  unfold reset
  vcost
  exact ⟨⟨rfl, rfl, rfl, rfl, rfl, rfl⟩, rfl, rfl⟩

theorem destroy_free : vcost (destroy : DM α Unit) (fun _ _ t' => t' ≤ t) (fun _ t' => t' ≤ t) v t := by
  unfold destroy
  vcost
  exact Nat.le_refl _

theorem initMove_costs (hw : Dim w f n b) :
    vcost (initMove E) (fun _ _ t' => t' ≤ t + if v.alloc = w.alloc then 0 else 2 * n + 1)
      (fun _ t' => t' ≤ t + if v.alloc = w.alloc then 0 else 2 * n + 1) (v, w) t := by
  have h2 := hw.first
  have h3 := hw.last
  unfold initMove
  refine .bind (.getObj (.ite (fun ha => ?_) fun ha => ?_))
  · rw [if_pos ha]; exact .setObj (Nat.le_refl _)
  · rw [if_neg ha]
    refine .bind (.distance fun _ _ => .onThis (initWith_costs.mono (fun _ _ _ h => ?_) fun _ _ h => ?_)) <;>
      · rw [args_length] at h
        dsimp only at h
        omega

theorem assignCopy_costs (h : Dim v f n b) {f' n' b' : Nat} (hw : Dim w f' n' b') :
    vcost (assignCopy E T w) (fun _ _ t' => t' ≤ t + (2 * n' + 1)) (fun _ t' => t' ≤ t + (2 * n' + 1)) v t := by
  have h2 := hw.first
  have h3 := hw.last
  have key : ∀ {v : DVec} {f n b : Nat}, Dim v f n b → vcost (do
      let n ← distance w.first w.last
      assignRange E (args .ref w.first n)) (fun _ _ t' => t' ≤ t + (2 * n' + 1)) (fun _ t' => t' ≤ t + (2 * n' + 1)) v t := by
    intro v f n b hd
    refine .bind (.distance fun _ _ => (assignRange_costs hd).mono (fun _ _ _ h => ?_) fun _ _ h => ?_) <;>
      · rw [args_length] at h; omega
  unfold assignCopy
  refine .ite (fun _ => .bind (.getObj (.ite (fun _ => ?_) fun _ => ?_))) fun _ => key h
  · refine .bind (reset_free.mono (fun _ v' t' hq => ?_) fun _ _ hq => hq.elim)
    obtain ⟨⟨g1, g2, g3, g4, g5, g6⟩, -, rfl⟩ := hq
    exact .bind (.getObj (.bind (.setObj (key (f := 0) (n := 0) (b := 0) ⟨g1, g2, g3, g4, g5, g6⟩))))
  · obtain ⟨g1, g2, g3, g4, g5, g6⟩ := h
    exact .bind (.getObj (.bind (.setObj (key (f := f) (n := n) (b := b) ⟨g1, g2, g3, g4, g5, g6⟩))))

theorem assignMove_costs (h : Dim v f n b) {f' n' b' : Nat} (hw : Dim w f' n' b') :
    vcost (assignMove E T)
      (fun _ _ t' => t' ≤ t + if T.pocma = true ∨ v.alloc = w.alloc then 0 else 2 * n' + 1)
      (fun _ t' => t' ≤ t + if T.pocma = true ∨ v.alloc = w.alloc then 0 else 2 * n' + 1) (v, w) t := by
  have h2 := hw.first
  have h3 := hw.last
  have key : ∀ {v : DVec} {f n b B : Nat}, Dim v f n b → (v.alloc = w.alloc ∨ 2 * n' + 1 ≤ B) → vcost (do
      let o ← getObj
      if o.1.alloc = o.2.alloc then do
        onThis reset
        let o ← getObj
        setObj ({ o.2 with alloc := o.1.alloc },
          { o.2 with bos := Ptr.null, first := Ptr.null, last := Ptr.null, eos := Ptr.null })
      else do
        let n ← distance o.2.first o.2.last
        onThis (assignRange E (args .mv o.2.first n)))
      (fun _ _ t' => t' ≤ t + B) (fun _ t' => t' ≤ t + B) (v, w) t := by
    intro v f n b B hd hB
    refine .bind (.getObj (.ite (fun ha => ?_) fun ha => ?_))
    · refine .bind (.onThis (reset_free.mono (fun _ v' t' hq => ?_) fun _ _ hq => hq.elim))
      obtain ⟨-, -, rfl⟩ := hq
      exact .bind (.getObj (.setObj (Nat.le_add_right _ _)))
    · have hB := hB.resolve_left ha
      refine .bind (.distance fun _ _ => .onThis ((assignRange_costs hd).mono (fun _ _ _ h => ?_) fun _ _ h => ?_)) <;>
        · rw [args_length] at h
          dsimp only at h
          omega
  unfold assignMove
  refine .ite (fun hp => .bind (.getObj (.ite (fun _ => ?_) fun _ => ?_))) fun hp => ?_
  · refine .bind (.onThis (reset_free.mono (fun _ v' t' hq => ?_) fun _ _ hq => hq.elim))
    obtain ⟨⟨g1, g2, g3, g4, g5, g6⟩, -, rfl⟩ := hq
    exact .bind (.getObj (.bind (.setObj (key (f := 0) (n := 0) (b := 0) ⟨g1, g2, g3, g4, g5, g6⟩ (Or.inl rfl)))))
  · obtain ⟨g1, g2, g3, g4, g5, g6⟩ := h
    exact .bind (.getObj (.bind (.setObj (key (f := f) (n := n) (b := b) ⟨g1, g2, g3, g4, g5, g6⟩ (Or.inl rfl)))))
  · refine key h ?_
    by_cases e : v.alloc = w.alloc
    · exact Or.inl e
    · rw [if_neg (by simp [hp, e])]
      exact Or.inr (Nat.le_refl _)

/-- devector keeps to its prices. -/
theorem priced {S : Sem (Dq.Op α) (Sq.Init α) α Nat} (hS : S.takes = T.pocma) : Priced (cont K E T) S (rep K E) price where
  copy := by
    intro i j m al w al2 xs F o' _ _ hr ho
    obtain ⟨-, f, b, hd⟩ := rep_dim hr
    have h2 := hd.first
    have h3 := hd.last
    refine vcost.fin (o := ⟨_, m⟩) (P := fun _ t' => t' ≤ m.tick + (2 * xs.length + 1)) ?_ ho
    refine .bind (.distance fun _ _ => initWith_costs.mono (fun _ _ _ h => ?_) fun _ _ h => ?_) <;>
      · rw [args_length] at h; dsimp only at h ⊢; omega
  move := by
    intro i j m al w al2 xs F o' _ _ hr ho
    obtain ⟨rfl, f, b, hd⟩ := rep_dim hr
    exact vcost.fin (o := ⟨_, m⟩) (P := fun _ t' => t' ≤ m.tick + if al = w.alloc then 0 else 2 * xs.length + 1)
      (initMove_costs (v := empty al) hd) ho
  destroy := by
    intro i m v al xs F o' _ _ ho
    exact vcost.fin (o := ⟨_, m⟩) (P := fun _ t' => t' ≤ m.tick) destroy_free ho
  assignCopy := by
    intro i j m v al xs F w al2 xs2 F2 o' _ hr hr2 _ ho
    obtain ⟨-, f, b, hd⟩ := rep_dim hr
    obtain ⟨-, f2, b2, hd2⟩ := rep_dim hr2
    exact vcost.fin (o := ⟨_, m⟩) (P := fun _ t' => t' ≤ m.tick + (2 * xs2.length + 1)) (assignCopy_costs hd hd2) ho
  assignMove := by
    intro i j m v al xs F w al2 xs2 F2 o' _ hr hr2 _ ho
    obtain ⟨rfl, f, b, hd⟩ := rep_dim hr
    obtain ⟨rfl, f2, b2, hd2⟩ := rep_dim hr2
    rw [hS]
    exact vcost.fin (o := ⟨_, m⟩)
      (P := fun _ t' => t' ≤ m.tick + if T.pocma = true ∨ v.alloc = w.alloc then 0 else 2 * xs2.length + 1)
      (assignMove_costs hd hd2) ho
  swap := by
    intro i j m v al xs F w al2 xs2 F2 o' _ _ _ _ ho
    refine vcost.fin (o := ⟨_, m⟩) (P := fun _ t' => t' ≤ m.tick + 0) ?_ ho
    refine .bind (.getObj (.bind (.assert fun _ => .ite (fun _ => .bind (.setObj ?_)) fun _ => ?_))) <;>
      exact .bind (.getObj (.setObj (Nat.le_refl _)))

theorem made : Made (cont K E T) price (fun init => init.work (5 * ·) E.dflt) := by
  intro i m al init o' ho
  refine vcost.fin (o := ⟨_, m⟩) (P := fun _ t' => t' ≤ m.tick + (2 * init.work (5 * ·) E.dflt + 1)) ?_ ho
  have hw : ∀ {as : List (Arg α)} {v : DVec} {t k : Nat}, as.length ≤ k → vcost (initWith E as) (fun _ _ t' => t' ≤ t + (2 * k + 1))
      (fun _ t' => t' ≤ t + (2 * k + 1)) v t := fun {as v t k} hk =>
    initWith_costs.mono (fun _ _ _ h => by omega) fun _ _ h => by omega
  cases init with
  | empty => exact .pure (Nat.le_add_right _ _)
  | count k => exact hw (by simp [Sq.Init.work, Sq.Init.result])
  | fill k x => exact hw (by simp [Sq.Init.work, Sq.Init.result])
  | range ys => exact hw (by simp [Sq.Init.work, Sq.Init.result])
  | input ys =>
    have hd : Dim (empty al) 0 0 0 := ⟨rfl, rfl, rfl, rfl, rfl, rfl⟩
    refine .tryCatch (vcost.mono (emplaceBackAll_amortised (ys.map .val) hd) (fun _ _ _ h => ?_) fun _ _ h e => ?_)
    · have := h.2
      rw [List.length_map] at this
      show _ ≤ _ + (2 * (5 * ys.length) + 1)
      dsimp only at this
      omega
    · refine .bind (destroy_free.mono (fun _ _ _ h' => .throw ?_) fun _ _ h' => ?_) <;>
        · have := h.2
          rw [List.length_map] at this
          show _ ≤ _ + (2 * (5 * ys.length) + 1)
          dsimp only at this
          omega

end Devector

namespace StaticVector
variable {ib : Fin K → Nat} {N : Nat} {v w : Vec}

/-- Prices of containers with the storage of static_vector. -/
def price : Price := ⟨1, 0, fun n => n, fun n k => n + k + min n k⟩

theorem rep_dim {i : Fin K} {m : St α} {al : Nat} {xs : List α} {F : Foot} (h : (rep E ib N).rep i m v al xs F) :
    v.alloc = al ∧ ∃ r, SmallVector.Dim v xs.length r ∧ xs.length + r = N := by
  obtain ⟨h, -⟩ := h
  have := h.len
  exact ⟨by rw [h.obj], _, h.dim, by omega⟩

theorem assignRange_costs (h : SmallVector.Dim v n r) (hN : n + r = N) {as : List (Arg α)} :
    vcost (assignRange E N as) (fun _ _ t' => t' ≤ t + as.length) (fun _ t' => t' ≤ t + as.length) v t :=
  vcost.mono (assignRange_ends h hN) (fun _ _ _ h => h.2) fun _ _ h => h.2

theorem swap_costs {n' : Nat} (h : v.last.off = v.first.off + n) (hw : w.last.off = w.first.off + n') :
    vcost (swap E) (fun _ _ t' => t' ≤ t + (n + n' + min n n'))
      (fun _ t' => t' ≤ t + (n + n' + min n n')) (v, w) t := by
  unfold swap
  refine .bind (.getObj (.bind (.distance fun _ _ => .bind (.distance fun _ _ => .ite (fun hle => ?_) fun hle => ?_))))
  all_goals
    refine .bind (.lift (.swapRanges ?_ fun t' _ _ => ?_))
    · vcost <;> (try simp only [Ptr.add_off] at *) <;> omega
    · dsimp only at *; omega

/-- Containers with the storage of static_vector keep to the prices. -/
theorem pricedOf {Op I ρ : Type} {S : Sem Op I α ρ} {make : Fin K → I → Vector.VM α Unit} {exec : Fin K → Op → Vector.VM α (Option ρ)} :
    Priced (contOf E ib N make exec) S (rep E ib N) price where
  copy := by
    intro i j m al w al2 xs F o' _ _ hr ho
    obtain ⟨-, r, hd, -⟩ := rep_dim hr
    have h3 := hd.last
    refine vcost.fin (o := ⟨_, m⟩) (P := fun _ t' => t' ≤ m.tick + (1 * xs.length + 0)) ?_ ho
    rw [Nat.one_mul]
    refine .bind (.distance fun _ _ => .bind (.getObj (.bind (.lift (.uninit ?_ ?_)))))
    · rw [args_length]; exact .setObj (by dsimp only; omega)
    · intro t' _ h; rw [args_length] at h; dsimp only at h ⊢; omega
  move := by
    intro i j m al w al2 xs F o' _ _ hr ho
    obtain ⟨-, r, hd, -⟩ := rep_dim hr
    have h3 := hd.last
    refine vcost.fin (o := ⟨_, m⟩) (P := fun _ t' => t' ≤ m.tick + if al = al2 then xs.length else 1 * xs.length + 0) ?_ ho
    rw [Nat.one_mul, Nat.add_zero, ite_self]
    show vcost (initMove E) _ _ _ _
    unfold initMove
    vcost <;> dsimp only at * <;> omega
  destroy := by
    intro i m v al xs F o' _ _ ho
    refine vcost.fin (o := ⟨_, m⟩) (P := fun _ t' => t' ≤ m.tick) ?_ ho
    show vcost destructor _ _ _ _
    unfold destructor
    vcost
    exact Nat.le_refl _
  assignCopy := by
    intro i j m v al xs F w al2 xs2 F2 o' _ hr hr2 _ ho
    obtain ⟨-, r, hd, hN⟩ := rep_dim hr
    obtain ⟨-, r2, hd2, -⟩ := rep_dim hr2
    have h3 := hd2.last
    refine vcost.fin (o := ⟨_, m⟩) (P := fun _ t' => t' ≤ m.tick + (1 * xs2.length + 0)) ?_ ho
    rw [Nat.one_mul]
    refine .bind (.distance fun _ _ => (assignRange_costs hd hN).mono (fun _ _ _ h => ?_) fun _ _ h => ?_) <;>
      · rw [args_length] at h; dsimp only at h ⊢; omega
  assignMove := by
    intro i j m v al xs F w al2 xs2 F2 o' _ hr hr2 _ ho
    obtain ⟨-, r, hd, hN⟩ := rep_dim hr
    obtain ⟨-, r2, hd2, -⟩ := rep_dim hr2
    have h3 := hd2.last
    refine vcost.fin (o := ⟨_, m⟩) (P := fun _ t' => t' ≤ m.tick + if S.takes = true ∨ al = al2 then xs2.length else 1 * xs2.length + 0) ?_ ho
    rw [Nat.one_mul, Nat.add_zero, ite_self]
    refine .bind (.getObj (.bind (.distance fun _ _ => .onThis ((assignRange_costs hd hN).mono (fun _ _ _ h => ?_) fun _ _ h => ?_)))) <;>
      · rw [args_length] at h; dsimp only at h ⊢; omega
  swap := by
    intro i j m v al xs F w al2 xs2 F2 o' _ hr hr2 _ ho
    obtain ⟨-, r, hd, hN⟩ := rep_dim hr
    obtain ⟨-, r2, hd2, -⟩ := rep_dim hr2
    exact vcost.fin (o := ⟨_, m⟩) (P := fun _ t' => t' ≤ m.tick + (xs.length + xs2.length + min xs.length xs2.length))
      (swap_costs hd.last hd2.last) ho

theorem emplaceBackAll_costs (as : List (Arg α)) : ∀ {v : Vec} {t : Nat},
    vcost (emplaceBackAll E N as) (fun _ _ t' => t' ≤ t + as.length) (fun _ t' => t' ≤ t + as.length) v t := by
  induction as with
  | nil => intro v t; exact .pure (Nat.le_refl _)
  | cons a as ih =>
    intro v t
    unfold emplaceBackAll
    refine .bind (vcost.mono (Q' := fun _ _ t' => t' ≤ t + 1) (X' := fun _ t' => t' ≤ t + 1) ?_ (fun _ _ t' h => ih.mono (fun _ _ _ h' => ?_) fun _ _ h' => ?_) fun _ _ h => ?_)
    · unfold emplaceBack assertNotFull Vector.size
      vcost <;> omega
    all_goals simp only [List.length_cons]; omega

theorem made : Made (cont E ib N) price (fun init => (init.result E.dflt).length) := by
  intro i m al init o' ho
  refine vcost.fin (o := ⟨_, m⟩) (P := fun _ t' => t' ≤ m.tick + (1 * (init.result E.dflt).length + 0)) ?_ ho
  rw [Nat.one_mul]
  have hw : ∀ {as : List (Arg α)} {v : Vec} {t k : Nat}, as.length ≤ k → vcost (initWith E N as) (fun _ _ t' => t' ≤ t + k)
      (fun _ t' => t' ≤ t + k) v t := by
    intro as v t k hk
    unfold initWith
    vcost
    · omega
    · exact Nat.le_trans ‹_› (by omega)
  cases init with
  | empty => exact .pure (Nat.le_add_right _ _)
  | count k => exact hw (by simp [Sq.Init.result])
  | fill k x => exact hw (by simp [Sq.Init.result])
  | range ys => exact hw (by simp [Sq.Init.result])
  | input ys =>
    refine .tryCatch (vcost.mono (emplaceBackAll_costs (ys.map .val)) (fun _ _ _ h => ?_) fun _ _ h e => ?_)
    · rw [List.length_map] at h; exact h
    · rw [List.length_map] at h
      unfold destructor
      vcost
      exact h

end StaticVector

end Sfl
