import Verif.CostDev4
/-
  What the public modifiers of devector cost and how much storage they leave behind.
-/

namespace Sfl
variable {α : Type}

namespace Devector
variable {E : Env α} {v : DVec} {f n b t : Nat}

theorem emplaceBack_ends (h : Dim v f n b) {a : Arg α} :
    vcost (emplaceBack E a)
      (fun _ v' t' => if 0 < b then Dim v' f (n + 1) (b - 1) ∧ t' = t + 1
        else ∃ f' b', Dim v' f' (n + 1) b' ∧ max 1 (n / 2) - 1 = b' ∧ f' + n + 1 + b' ≤ max (f + n + b) (2 * (n + 1)) ∧ t' ≤ t + n + 4)
      (fun v' t' => v' = v ∧ (0 < b → t' ≤ t + 1) ∧ t' ≤ t + n + 4) v t := by
  refine .bind ((emplaceBackAux_cost h).mono (fun _ v' t' hq => .pure ?_) fun _ _ h => h)
  split at hq
  · rw [if_pos ‹_›]; exact hq
  · rw [if_neg ‹_›]
    split at hq
    · exact ⟨_, _, hq.1, rfl, by omega, hq.2.2⟩
    · exact ⟨_, _, hq.1, rfl, by omega, hq.2⟩

/-- One after the other at the end: each growth is paid for by the elements appended since the last one. -/
theorem emplaceBackAll_amortised (as : List (Arg α)) : ∀ {v : DVec} {f n b t : Nat}, Dim v f n b →
    Ends (emplaceBackAll E as) (max (f + n + b) (2 * (n + as.length))) (t + 9 * as.length + (n - 2 * b)) v t := by
  induction as with
  | nil => intro v f n b t h; exact .pure ⟨h.fit (by omega), by omega⟩
  | cons a as ih =>
    intro v f n b t h
    unfold emplaceBackAll
    simp only [List.length_cons]
    refine .bind ((emplaceBack_ends h).mono (fun _ v' t' hq => ?_) fun v' t' hq => ?_)
    · split at hq
      · exact (ih hq.1).mono (by omega) (by omega)
      · obtain ⟨f', b', k1, k2, k3, k4⟩ := hq
        exact (ih k1).mono (by omega) (by omega)
    · obtain ⟨rfl, _, k⟩ := hq
      exact ⟨h.fit (by omega), by omega⟩

/-- With room for all of them nothing is reallocated. -/
theorem emplaceBackAll_room (as : List (Arg α)) : ∀ {v : DVec} {f n b t : Nat}, Dim v f n b → as.length ≤ b →
    Ends (emplaceBackAll E as) (f + n + b) (t + as.length) v t := by
  induction as with
  | nil => intro v f n b t h _; exact .pure ⟨h.fit (by omega), by omega⟩
  | cons a as ih =>
    intro v f n b t h hb
    unfold emplaceBackAll
    simp only [List.length_cons] at *
    refine .bind ((emplaceBack_ends h).mono (fun _ v' t' hq => ?_) fun v' t' hq => ?_)
    · rw [if_pos (by omega)] at hq
      exact (ih hq.1 (by omega)).mono (by omega) (by omega)
    · obtain ⟨rfl, k, -⟩ := hq
      exact ⟨h.fit (by omega), by omega⟩

theorem assignInput_ends (h : Dim v f n b) {as : List (Arg α)} :
    Ends (assignInput E as) (max (f + n + b) (2 * as.length)) (t + as.length + if as.length ≤ n + b then 0 else 8 * as.length + n) v t := by
  have hd := h
  obtain ⟨h1, h2, h3, h4, h5, h6⟩ := h
  unfold assignInput size
  refine .bind (.getObj (.bind (.bind (.getObj (.distance fun _ _ => .bind (.lift (.assignGo ?_ ?_)))))))
  · have e : v.last.off - v.first.off = n := by omega
    rw [e]
    refine .ite (fun hl => ?_) fun hl => .ite (fun hc => ?_) fun hc => .pure ⟨hd.fit (by omega), ?_⟩
    · have e1 : (as.take n).length = n := by rw [List.length_take]; omega
      have e2 : (as.drop n).length = as.length - n := List.length_drop
      rw [e1]
      by_cases hb : as.length ≤ n + b
      · rw [if_pos hb]
        refine (emplaceBackAll_room _ hd (by omega)).mono (by omega) (by omega)
      · rw [if_neg hb]
        refine (emplaceBackAll_amortised _ hd).mono (by omega) (by omega)
    · rw [if_pos (by omega)]
      rw [List.length_take] at *
      vcost
      dfit
    · rw [List.length_take]; omega
  · intro t' k1 k2
    rw [List.length_take] at k2
    exact ⟨hd.fit (by omega), by omega⟩

theorem eraseIf_ends (h : Dim v f n b) {p : α → Bool} : Ends (eraseIf E p) (f + n + b) (t + n) v t := by
  have hd := h
  obtain ⟨h1, h2, h3, h4, h5, h6⟩ := h
  unfold eraseIf
  refine .bind (.getObj (.bind (.lift ((SmallVector.removeIf_cost (n := n) (by omega)).mono (fun i t' hq => ?_) fun t' hq => ?_))))
  · obtain ⟨g1, g2, g3, g4⟩ := hq
    refine .bind (.getObj (.bind (.distance fun _ _ => .bind ?_)))
    refine vcost.mono (eraseRange_ends (i := i.off - v.first.off) (j := n) hd (by omega) (by omega)) (fun _ _ _ hq => .pure ⟨hq.1, by omega⟩) fun _ _ hq => ⟨hq.1, by omega⟩
  · exact ⟨hd.fit (by omega), hq⟩

theorem resizeBackWith_ends (h : Dim v f n b) {m : Nat} {a : Arg α} :
    Ends (resizeBackWith E m a) (max (f + n + b) (f + m)) (t + (m - n) + if m ≤ n + b then 0 else n + 1) v t :=
  (resizeBackWith_cost h).mono (fun _ _ _ hq => ⟨hq.1.fit (by omega), hq.2⟩) fun _ _ h => h

theorem resizeFrontWith_ends (h : Dim v f n b) {m : Nat} {a : Arg α} :
    Ends (resizeFrontWith E m a) (max (f + n + b) (b + m)) (t + (m - n) + if m ≤ n + f then 0 else n + 1) v t :=
  (resizeFrontWith_cost h).mono (fun _ _ _ hq => ⟨hq.1.fit (by omega), hq.2⟩) fun _ _ h => h

theorem reserveBack_ends (h : Dim v f n b) {m : Nat} :
    Ends (reserveBack E m) (max (f + n + b) (f + m)) (t + if m ≤ n + b then 0 else n + 1) v t :=
  (reserveBack_cost h).mono (fun _ _ _ hq => ⟨hq.1.fit (by omega), hq.2⟩) fun _ _ hq => ⟨hq.1 ▸ h.fit (by omega), hq.2⟩

theorem reserveFront_ends (h : Dim v f n b) {m : Nat} :
    Ends (reserveFront E m) (max (f + n + b) (b + m)) (t + if m ≤ n + f then 0 else n + 1) v t :=
  (reserveFront_cost h).mono (fun _ _ _ hq => ⟨hq.1.fit (by omega), hq.2⟩) fun _ _ hq => ⟨hq.1 ▸ h.fit (by omega), hq.2⟩

theorem emplace_any (h : Dim v f n b) {pos : Ptr} {a : Arg α} :
    Ends (emplace E pos a) (max (f + n + b) (2 * (n + 1))) (t + 2 * n + 6) v t := by
  by_cases hp : v.first.off ≤ pos.off
  · refine (emplace_ends (i := pos.off - v.first.off) h (by omega)).mono (Nat.le_refl _) ?_
    split <;> omega
  · unfold emplace
    exact .bind (.getObj (.bind (.assert fun hr => absurd hr.2.1 hp)))

theorem insertAux_size (h : Dim v f n b) {i k : Nat} {pos : Ptr} {px : Proxy α} (hp : pos.off = v.first.off + i) :
    vcost (insertAux E pos k px) (fun _ v' _ => v'.last.off = v'.first.off + (n + k)) (fun _ _ => True) v t := by
  by_cases hN : (i < n - i → k ≤ f) ∧ (n - i ≤ i → k ≤ b)
  · refine (insertAux_room h hp hN.1 hN.2).mono (fun _ v' t' hq => ?_) fun v' t' hq => trivial
    have := hq.1.first
    have := hq.1.last
    omega
  · have hd := h
    obtain ⟨g1, g2, g3, g4, g5, g6⟩ := h
    unfold insertAux availableFront availableBack
    refine .bind (.getObj (.bind (.assert fun hr => .bind (.distance fun _ _ => .ite (fun h0 => .pure (by omega)) fun h0 => .bind (.distance fun _ _ => ?_)))))
    obtain ⟨r1, r2, r3⟩ := hr
    have e1 : pos.off - v.first.off = i := by omega
    have e2 : v.last.off - pos.off = n - i := by omega
    rw [e1, e2]
    refine .ite (fun hlt => ?_) fun hlt => ?_
    · refine .bind (.bind (.getObj (.distance fun _ _ => .ite (fun _ => by omega) fun _ => ?_)))
      refine (insertMoreFront_cost hd hp (by omega) (by omega)).mono (fun _ v' t' hq => ?_) fun _ _ _ => trivial
      obtain ⟨hq, -⟩ := hq
      split at hq
      · have := hq.1.first; have := hq.1.last; omega
      · have := hq.first; have := hq.last; omega
    · refine .bind (.bind (.getObj (.distance fun _ _ => .ite (fun _ => by omega) fun _ => ?_)))
      refine (insertMoreBack_cost hd hp (by omega) (by omega)).mono (fun _ v' t' hq => ?_) fun _ _ _ => trivial
      obtain ⟨hq, -⟩ := hq
      split at hq
      · have := hq.1.first; have := hq.1.last; omega
      · have := hq.first; have := hq.last; omega

theorem emplace_size (h : Dim v f n b) {pos : Ptr} {a : Arg α} :
    vcost (emplace E pos a) (fun _ v' _ => v'.last.off = v'.first.off + (n + 1)) (fun _ _ => True) v t := by
  unfold emplace
  refine .bind (.getObj (.bind (.assert fun hr => .ite (fun h0 => ?_) fun h0 => .ite (fun h1 => ?_) fun h1 =>
    .bind (.lift (.mkTmp (fun tmp => ?_) trivial)))))
  · refine (emplaceFrontAux_cost h).mono (fun _ v' t' hq => ?_) fun _ _ _ => trivial
    (repeat' split at hq) <;> (have := hq.1.first; have := hq.1.last; omega)
  · refine (emplaceBackAux_cost h).mono (fun _ v' t' hq => ?_) fun _ _ _ => trivial
    (repeat' split at hq) <;> (have := hq.1.first; have := hq.1.last; omega)
  · exact insertAux_size (i := pos.off - v.first.off) h (by have := hr.2.1; omega)

/-- One by one at a place in the middle. -/
theorem insertEach_ends (as : List (Arg α)) : ∀ {v : DVec} {f n b t : Nat} {pos : Ptr}, Dim v f n b →
    Ends (insertEach E pos as) (max (f + n + b) (2 * (n + as.length))) (t + as.length * (2 * (n + as.length) + 6)) v t := by
  induction as with
  | nil => intro v f n b t pos h; exact .pure ⟨h.fit (by omega), by omega⟩
  | cons a as ih =>
    intro v f n b t pos h
    unfold insertEach
    simp only [List.length_cons]
    rw [Nat.succ_mul as.length]
    refine .bind ((vcost.and (emplace_any h) (emplace_size h)).mono (fun p v' t' hq => ?_) fun v' t' hq => ?_)
    · obtain ⟨⟨k1, k2⟩, k3⟩ := hq
      have k4 := k1.cap
      have k5 := k1.first
      have k6 := k1.eos
      have := k1.dim
      rw [show v'.last.off - v'.first.off = n + 1 by omega] at this
      refine (ih this).mono (by omega) ?_
      rw [show n + 1 + as.length = n + (as.length + 1) by omega]
      generalize as.length * (2 * (n + (as.length + 1)) + 6) = z
      omega
    · obtain ⟨⟨k1, k2⟩, -⟩ := hq
      exact ⟨k1.mono (by omega), by omega⟩

theorem insertInput_ends (h : Dim v f n b) {pos : Ptr} {as : List (Arg α)} :
    Ends (insertInput E pos as) (max (f + n + b) (2 * (n + as.length))) (t + as.length * (2 * (n + as.length) + 6)) v t := by
  unfold insertInput
  refine .bind (.getObj (.bind (.assert fun hr => .bind (.distance fun _ _ => .bind ?_))))
  exact vcost.mono (insertEach_ends as h) (fun _ _ _ hq => .bind (.getObj (.pure hq))) fun _ _ h => h

end Devector

namespace Dq.Op

/-- The number of elements a container of size `n` is asked to hold. -/
def room (n : Nat) : Op α → Nat
  | .pushFront _ => n + 1
  | .pushBack _ => n + 1
  | .emplace _ _ => n + 1
  | .insertN _ m _ => n + m
  | .insertRange _ ys => n + ys.length
  | .insertInput _ ys => n + ys.length
  | .resize m => m
  | .resizeV m _ => m
  | .resizeFront m => m
  | .resizeFrontV m _ => m
  | .resizeBack m => m
  | .resizeBackV m _ => m
  | .assignN m _ => m
  | .assignRange ys => ys.length
  | .assignInput ys => ys.length
  | .reserveFront m => m
  | .reserveBack m => m
  | _ => n

/-- The complexity the documentation gives for an operation on a container with `n` elements, as a number of elements: devector.md
"Linear in distance(first, last) plus linear in min(distance(begin(), pos), distance(pos, end()))", "Linear in n", "Linear in
difference between size() and n" and so on. (For insert(pos, n, value) the documentation leaves out the summand `n`, devector.md:960.)
The destructors are not counted. -/
def work (n : Nat) : Op α → Nat
  | .pushFront _ => 1
  | .pushBack _ => 1
  | .emplace k _ => min k (n - k)
  | .insertN k m _ => m + min k (n - k)
  | .insertRange k ys => ys.length + min k (n - k)
  | .insertInput k ys => ys.length + min k (n - k)
  | .popFront => 0
  | .popBack => 0
  | .eraseAt k => min k (n - k)
  | .eraseRange k l => min k (n - l)
  | .resize m => m - n
  | .resizeV m _ => m - n
  | .resizeFront m => m - n
  | .resizeFrontV m _ => m - n
  | .resizeBack m => m - n
  | .resizeBackV m _ => m - n
  | .assignN m _ => m
  | .assignRange ys => ys.length
  | .assignInput ys => ys.length
  | .clear => 0
  | .reserveFront _ => 0
  | .reserveBack _ => 0
  | .shrinkToFit => n
  | .eraseIf _ => n

/-- With `f` free slots before and `b` free slots behind the `n` elements: the free slots suffice, at the end at which the operation
works; insertions work at the nearer end. -/
def fits (f n b : Nat) : Op α → Bool
  | .pushFront _ => decide (0 < f)
  | .pushBack _ => decide (0 < b)
  | .emplace k _ => decide ((k ≤ n - k → 1 ≤ f) ∧ (n - k ≤ k → 1 ≤ b))
  | .insertN k m _ => decide ((k ≤ n - k → m ≤ f) ∧ (n - k ≤ k → m ≤ b))
  | .insertRange k ys => decide ((k ≤ n - k → ys.length ≤ f) ∧ (n - k ≤ k → ys.length ≤ b))
  | .insertInput k ys => decide ((k ≤ n - k → ys.length ≤ f) ∧ (n - k ≤ k → ys.length ≤ b))
  | .resize m => decide (m ≤ f + n + b)
  | .resizeV m _ => decide (m ≤ f + n + b)
  | .resizeFront m => decide (m ≤ n + f)
  | .resizeFrontV m _ => decide (m ≤ n + f)
  | .resizeBack m => decide (m ≤ n + b)
  | .resizeBackV m _ => decide (m ≤ n + b)
  | .assignN m _ => decide (m ≤ f + n + b)
  | .assignRange ys => decide (ys.length ≤ f + n + b)
  | .assignInput ys => decide (ys.length ≤ n + b)
  | .reserveFront m => decide (m ≤ n + f)
  | .reserveBack m => decide (m ≤ n + b)
  | _ => true

/-- The operations that only look at the free slots at one end. -/
def oneSided : Op α → Bool
  | .resizeFront _ => true
  | .resizeFrontV _ _ => true
  | .resizeBack _ => true
  | .resizeBackV _ _ => true
  | .reserveFront _ => true
  | .reserveBack _ => true
  | _ => false

/-- insert(pos, first, last) with input iterators -/
def isInsertInput : Op α → Bool
  | .insertInput _ _ => true
  | _ => false

end Dq.Op

namespace Devector
variable {E : Env α} {v : DVec} {f n b t : Nat}

theorem Ends.nth {β : Type} {g : Ptr → DM α β} {B W k : Nat} (h : Ends (g (v.first.add k)) B W v t) :
    Ends (nth k >>= g) B W v t := .bind (.bind (.getObj (.bind (.bind (.getObj (.distance fun _ _ => .bind (.assert fun _ => .pure h)))))))

theorem Ends.argOf {β : Type} {g : Arg α → DM α β} {B W : Nat} {s : Sq.Src α} (h : ∀ a, Ends (g a) B W v t) :
    Ends (argOf s >>= g) B W v t := .bind (.bind (.getObj (.pure (h _))))

theorem Ends.indexOf {m : DM α Ptr} {B W : Nat} (h : Ends m B W v t) :
    Ends (m >>= fun p => indexOf p) B W v t :=
  .bind (vcost.mono h (fun _ _ _ h => .bind (.getObj (.bind (.assert fun _ => .bind (.distance fun _ _ => .pure h))))) fun _ _ h => h)

theorem Ends.map {β γ : Type} {m : DM α β} {g : β → γ} {B W : Nat} (h : Ends m B W v t) :
    Ends (m >>= fun p => Pure.pure (g p)) B W v t := .bind (vcost.mono h (fun _ _ _ h => .pure h) fun _ _ h => h)

theorem near_if {i k x y : Nat} : (if Near f n b i k then x else y) = if (i ≤ n - i → k ≤ f) ∧ (n - i ≤ i → k ≤ b) then x else y := by
  by_cases h : Near f n b i k
  · exact (if_pos h).trans (if_pos (c := (i ≤ n - i → k ≤ f) ∧ (n - i ≤ i → k ≤ b)) h).symm
  · exact (if_neg h).trans (if_neg (c := (i ≤ n - i → k ≤ f) ∧ (n - i ≤ i → k ≤ b)) h).symm

/-- The storage an operation may leave behind. -/
def bound (f n b : Nat) (op : Dq.Op α) : Nat :=
  if op.oneSided = true then f + n + b + op.room n else max (f + n + b) (2 * op.room n)

/-- Every modifier but the insertion of a range of input iterators. -/
theorem exec_ends (h : Dim v f n b) (op : Dq.Op α) (hop : op.isInsertInput = false) :
    Ends (exec E op) (bound f n b op)
      (t + 2 * op.work n + 3 + if op.fits f n b = true then 0 else 7 * op.work n + n + 3) v t := by
  unfold bound
  generalize hS : op.oneSided = S
  generalize hR : op.room n = R
  generalize hW : op.work n = W
  generalize hF : op.fits f n b = F
  cases op <;> simp only [Dq.Op.room, Dq.Op.work, Dq.Op.fits, Dq.Op.oneSided] at hR hW hF hS <;> subst hR hW hF hS <;>
    simp only [decide_eq_true_eq, if_true, Bool.false_eq_true, if_false]
  case pushFront s =>
    refine .argOf fun a => .indexOf ((emplaceFrontAux_ends h).mono (by omega) ?_)
    (repeat' split) <;> omega
  case pushBack s =>
    refine .argOf fun a => .indexOf ((emplaceBackAux_ends h).mono (by omega) ?_)
    (repeat' split) <;> omega
  case emplace k s =>
    refine .argOf fun a => .nth (.indexOf ((emplace_ends h (Ptr.add_off _ _)).mono (by omega) ?_))
    rw [near_if]
    (repeat' split) <;> omega
  case insertN k m s =>
    refine .argOf fun a => .nth (.indexOf ((insertFillN_ends h (Ptr.add_off _ _)).mono (by omega) ?_))
    rw [near_if]
    (repeat' split) <;> omega
  case insertRange k ys =>
    refine .nth (.indexOf ((insertRange_ends h (Ptr.add_off _ _)).mono (by simp only [List.length_map]; omega) ?_))
    simp only [List.length_map]
    rw [near_if]
    (repeat' split) <;> omega
  case insertInput k ys => simp [Dq.Op.isInsertInput] at hop
  case popFront => exact .map ((popFront_ends h).mono (by omega) (by omega))
  case popBack => exact .map ((popBack_ends h).mono (by omega) (by omega))
  case eraseAt k =>
    exact .nth (.indexOf ((erase_ends h (Ptr.add_off _ _)).mono (by omega) (by omega)))
  case eraseRange k l =>
    exact .nth (.nth (.indexOf ((eraseRange_ends h (Ptr.add_off _ _) (Ptr.add_off _ _)).mono (by omega) (by omega))))
  case resize m =>
    refine .map ((resizeWith_ends h).mono (by omega) ?_); (repeat' split) <;> omega
  case resizeV m s =>
    refine .argOf fun a => .map ((resizeWith_ends h).mono (by omega) ?_); (repeat' split) <;> omega
  case resizeFront m =>
    refine .map ((resizeFrontWith_ends h).mono (by omega) ?_); (repeat' split) <;> omega
  case resizeFrontV m s =>
    refine .argOf fun a => .map ((resizeFrontWith_ends h).mono (by omega) ?_); (repeat' split) <;> omega
  case resizeBack m =>
    refine .map ((resizeBackWith_ends h).mono (by omega) ?_); (repeat' split) <;> omega
  case resizeBackV m s =>
    refine .argOf fun a => .map ((resizeBackWith_ends h).mono (by omega) ?_); (repeat' split) <;> omega
  case assignN m a =>
    refine .map ((assignFillN_ends h).mono (by omega) ?_); (repeat' split) <;> omega
  case assignRange ys =>
    refine .map ((assignRange_ends h).mono (by simp only [List.length_map]; omega) ?_)
    simp only [List.length_map]; (repeat' split) <;> omega
  case assignInput ys =>
    refine .map ((assignInput_ends h).mono (by simp only [List.length_map]; omega) ?_)
    simp only [List.length_map]; (repeat' split) <;> omega
  case clear => exact .map ((clear_ends h).mono (by omega) (by omega))
  case reserveFront m =>
    refine .map ((reserveFront_ends h).mono (by omega) ?_); (repeat' split) <;> omega
  case reserveBack m =>
    refine .map ((reserveBack_ends h).mono (by omega) ?_); (repeat' split) <;> omega
  case shrinkToFit =>
    refine .map ((shrinkToFit_ends h).mono (by omega) ?_); (repeat' split) <;> omega
  case eraseIf p => exact .map ((eraseIf_ends h).mono (by omega) (by omega))

theorem exec_insertInput_ends (h : Dim v f n b) {k : Nat} {ys : List α} :
    Ends (exec E (.insertInput k ys)) (bound f n b (.insertInput k ys)) (t + ys.length * (2 * (n + ys.length) + 6)) v t := by
  refine .nth (.indexOf ((insertInput_ends h).mono ?_ ?_)) <;> simp only [List.length_map, bound, Dq.Op.oneSided, Dq.Op.room] <;>
    simp

end Devector
end Sfl
