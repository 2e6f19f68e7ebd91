import Verif.CostSeg
import Verif.PropDevector
import Verif.PropVector2
import Verif.PropSmallVector
import Verif.PropSegVec
import Verif.PropSegDev
/-
  C45: what programs that work at the ends of a container cost. The documentation says "Constant." for push_back, emplace_back,
  pop_back (vector.md, small_vector.md, segmented_vector.md, devector.md, segmented_devector.md) and for push_front,
  emplace_front, pop_front (devector.md, segmented_devector.md). A single push_back that reallocates moves all elements; the claim
  is that a program of `k` such operations costs at most a constant times `size() + k`.

  Costs are counted in element constructions, element assignments and allocations (`St.tick`). The destructors that run are at
  most as many as the elements that were there or have been constructed. For the segmented containers the copying of pointers in
  the table of segments is not counted.
-/

namespace Sfl
variable {α : Type}

/-- The state in which a program ends, by return or by exception. -/
def Res.final {σ β : Type} : Res σ β → Option σ
  | .ok _ s => some s
  | .exn _ s => some s
  | .ub _ => none

theorem vcost.final {V β : Type} {m : M (Obj V α) β} {o o' : Obj V α} {k : Nat}
    (h : vcost m (fun _ _ t' => t' ≤ k) (fun _ t' => t' ≤ k) o.obj o.m.tick) (e : (m o).final = some o') : o'.m.tick ≤ k := by
  have h := h o rfl rfl
  cases hm : m o with
  | ok b s => rw [hm] at h e; cases e; exact h
  | exn x s => rw [hm] at h e; cases e; exact h
  | ub r => rw [hm] at e; cases e

/-! ### vector and small_vector -/

theorem VSt.dim {H : Heap α} {E : Env α} {ib N al b cap : Nat} {o : Obj Vec α} {xs : List α} (h : VSt H E ib N o al b cap xs) :
    SmallVector.Dim o.obj xs.length (cap - xs.length) := by
  have := h.len
  constructor <;> rw [h.obj] <;> simp <;> omega

/-- **C45**, small_vector: any program of push_back, emplace_back, pop_back, whatever it throws. -/
theorem smallVector_ends {E : Env α} {ib N al : Nat} {m0 : St α} {o o' o1 : Obj Vec α} {n : Nat} (hr : RawObject m0 ib N)
    (hN : N ≤ E.maxSize) (h : SmallVector.Reachable E ib N al m0 o) (hn : Vector.size o = .ok n o1) (ops : List (Sq.Op α))
    (hops : ∀ op ∈ ops, op.atBack = true) (hx : (runAll (SmallVector.exec E ib N) ops o).final = some o') :
    o'.m.tick ≤ o.m.tick + 7 * ops.length + n := by
  obtain ⟨xs, b, cap, h⟩ := h.repr hr hN
  obtain rfl := h.size_eq hn
  have := vcost.final ((SmallVector.back_cost (E := E) (ib := ib) (N := N) (t := o.m.tick) ops h.dim hops).mono
    (fun _ _ t' (k : t' ≤ _) => k) fun _ _ k => k) hx
  split at this <;> omega

theorem Vector.runAll_eq {E : Env α} (ops : List (Sq.Op α)) (hops : ∀ op ∈ ops, op.atBack = true) :
    runAll (Vector.exec E) ops = runAll (SmallVector.exec E 0 0) ops := by
  induction ops with
  | nil => rfl
  | cons op ops ih =>
    have : Vector.exec E op = SmallVector.exec E 0 0 op := by
      have := hops op List.mem_cons_self
      cases op <;> simp only [Sq.Op.atBack, Bool.false_eq_true] at this
      · simp only [Vector.exec, SmallVector.exec, SmallVector.emplaceBack_zero]
      · rfl
    unfold runAll
    rw [this, ih fun o ho => hops o (List.mem_cons_of_mem _ ho)]

/-- **C45**, vector: any program of push_back, emplace_back, pop_back, whatever it throws. -/
theorem vector_ends {E : Env α} {al : Nat} {m0 : St α} {o o' o1 : Obj Vec α} {n : Nat} (hw : m0.Wf)
    (h : Vector.Reachable E al m0 o) (hn : Vector.size o = .ok n o1) (ops : List (Sq.Op α))
    (hops : ∀ op ∈ ops, op.atBack = true) (hx : (runAll (Vector.exec E) ops o).final = some o') :
    o'.m.tick ≤ o.m.tick + 7 * ops.length + n := by
  obtain ⟨xs, b, cap, h⟩ := h.repr hw
  obtain rfl := h.size_eq hn
  rw [Vector.runAll_eq ops hops] at hx
  have := vcost.final ((SmallVector.back_cost (E := E) (ib := 0) (N := 0) (t := o.m.tick) ops h.dim hops).mono
    (fun _ _ t' (k : t' ≤ _) => k) fun _ _ k => k) hx
  split at this <;> omega

/-! ### segmented_vector and segmented_devector -/

/-- **C45**, segmented_vector: each push_back, emplace_back, pop_back by itself is cheap, whatever it throws. -/
theorem segmentedVector_ends {E : Env α} {N : Nat} {ra : Sq.Op α → Bool} {o o' : Obj SVec α} (op : Sq.Op α)
    (hop : op.atBack = true) (hx : (SegVec.exec E N ra op o).final = some o') : o'.m.tick ≤ o.m.tick + 4 :=
  vcost.final (SegVec.exec_cost hop _ _) hx

/-- **C45**, segmented_devector: each push_front, push_back, pop_front, pop_back by itself is cheap, whatever it throws. -/
theorem segmentedDevector_ends {E : Env α} {N : Nat} {ra : Dq.Op α → Bool} {o o' : Obj SDVec α} (op : Dq.Op α)
    (hop : op.atEnds = true) (hx : (SegDev.exec E N ra op o).final = some o') : o'.m.tick ≤ o.m.tick + 4 :=
  vcost.final (SegDev.exec_cost hop _ _) hx

/-! ### devector -/

namespace Devector
variable {E : Env α} {o o' : Obj DVec α} {f s n : Nat} {xs : List α}

theorem Layout.dim (h : Layout E o f xs s) : Dim o.obj f xs.length s := by
  obtain ⟨b, h⟩ := h.dst
  constructor <;> rw [h.obj] <;> simp

theorem Dim.unique {v : DVec} {f' n' s' : Nat} (h : Dim v f n s) (h' : Dim v f' n' s') : f = f' ∧ n = n' ∧ s = s' := by
  have := h.first; have := h.last; have := h.eos; have := h'.first; have := h'.last; have := h'.eos
  omega

/-- **C45**, devector, as far as it holds: programs of push_back, push_front, pop_back, pop_front that do not contain both kinds of
push together with pops, whatever they throw.

Missing: programs that push at both ends and pop; see `devector_ends_quadratic`. -/
theorem _root_.Sfl.devector_ends_partial (h : Layout E o f xs s) (ops : List (Dq.Op α)) (hops : ∀ op ∈ ops, op.atEnds = true)
    (hp : (∀ op ∈ ops, op.isPushFront = false) ∨ (∀ op ∈ ops, op.isPushBack = false) ∨ (∀ op ∈ ops, op.isPop = false))
    (hx : (runAll (exec E) ops o).final = some o') : o'.m.tick ≤ o.m.tick + 12 * ops.length + 2 * xs.length := by
  have hd := h.dim
  have ends : ∀ op ∈ ops, op.isPushFront = true ∨ op.isPushBack = true ∨ op.isPop = true := by
    intro op ho; simpa [Dq.Op.atEnds, or_assoc] using hops op ho
  rcases hp with hp | hp | hp
  · refine vcost.final ((back_cost (E := E) (t := o.m.tick) ops hd fun op ho => ?_).mono (fun _ _ _ _ => by omega) fun _ _ _ => by omega) hx
    rcases ends op ho with h | h | h
    · rw [hp op ho] at h; cases h
    · exact Or.inl h
    · exact Or.inr h
  · refine vcost.final ((front_cost (E := E) (t := o.m.tick) ops hd fun op ho => ?_).mono (fun _ _ _ _ => by omega) fun _ _ _ => by omega) hx
    rcases ends op ho with h | h | h
    · exact Or.inl h
    · rw [hp op ho] at h; cases h
    · exact Or.inr h
  · refine vcost.final ((push_cost (E := E) (t := o.m.tick) ops hd fun op ho => ?_).mono ?_ ?_) hx
    · rcases ends op ho with h | h | h
      · exact Or.inl h
      · exact Or.inr h
      · rw [hp op ho] at h; cases h
    · intro _ _ t' k; unfold debt at k; (repeat' split at k) <;> omega
    · intro _ t' k; unfold debt at k; (repeat' split at k) <;> omega

/-- A devector with `f` free cells, `n` elements and `s` free cells. -/
def Shape (E : Env α) (o : Obj DVec α) (f n s : Nat) : Prop := ∃ xs, Layout E o f xs s ∧ xs.length = n

theorem Shape.cast {f' n' s' : Nat} (h : Shape E o f n s) (h1 : f = f') (h2 : n = n') (h3 : s = s') : Shape E o f' n' s' := by
  subst h1 h2 h3; exact h

theorem Shape.of_dim {f' n' s' : Nat} (h : ∃ f n s, Shape E o f n s) (hd : Dim o.obj f' n' s') : Shape E o f' n' s' := by
  obtain ⟨f, n, s, xs, h, rfl⟩ := h
  obtain ⟨rfl, rfl, rfl⟩ := hd.unique h.dim
  exact ⟨xs, h, rfl⟩

section steps
variable (hq : ∀ t, E.throws t = false) (x : α)

/-- push_back succeeds if even a larger storage would be within the limit. -/
theorem Layout.pushBack (hq : ∀ t, E.throws t = false) (h : Layout E o f xs s)
    (hm : f + xs.length + s + max 1 ((f + xs.length + s) / 2) ≤ E.maxSize) (x : α) :
    ∃ r o', exec E (.pushBack (.value x)) o = .ok r o' ∧ ∃ f n s, Shape E o' f n s := by
  have : Silent E := ⟨hq⟩
  have : Allows (fun e => e = .lengthError) .lengthError := ⟨rfl⟩
  obtain ⟨b, h⟩ := h.dst
  have hw : wp (exec E (.pushBack (.value x))) (fun _ o' => ∃ f n s, Shape E o' f n s) (fun e _ => e = .lengthError → False) o := by
    simp only [exec, wp_bind]
    refine wp_argOf h rfl fun a v hg hv hsrc _ => ?_
    refine wp_mono (emplaceBackAux_spec h hv hsrc) ?_ ?_
    · rintro p o1 ⟨b', cap', f', k1, rfl⟩
      exact wp_indexOf k1 (by simp) ⟨_, _, _, _, k1.layout, rfl⟩
    · rintro e o1 k he
      have := k.len he
      omega
  cases hx : exec E (.pushBack (.value x)) o with
  | ok r o' => exact ⟨r, o', rfl, wp_ok hx hw⟩
  | exn e o' => exact (wp_exn hx hw (Calm.out (L := fun e => e = .lengthError) _ _ _ hx)).elim
  | ub u => exact (wp_not_ub hw hx).elim

theorem Layout.pushFront (hq : ∀ t, E.throws t = false) (h : Layout E o f xs s)
    (hm : f + xs.length + s + max 1 ((f + xs.length + s) / 2) ≤ E.maxSize) (x : α) :
    ∃ r o', exec E (.pushFront (.value x)) o = .ok r o' ∧ ∃ f n s, Shape E o' f n s := by
  have : Silent E := ⟨hq⟩
  have : Allows (fun e => e = .lengthError) .lengthError := ⟨rfl⟩
  obtain ⟨b, h⟩ := h.dst
  have hw : wp (exec E (.pushFront (.value x))) (fun _ o' => ∃ f n s, Shape E o' f n s) (fun e _ => e = .lengthError → False) o := by
    simp only [exec, wp_bind]
    refine wp_argOf h rfl fun a v hg hv hsrc _ => ?_
    refine wp_mono (emplaceFrontAux_spec h hv hsrc) ?_ ?_
    · rintro p o1 ⟨b', cap', f', k1, rfl⟩
      exact wp_indexOf k1 (by simp) ⟨_, _, _, _, k1.layout, rfl⟩
    · rintro e o1 k he
      have := k.len he
      omega
  cases hx : exec E (.pushFront (.value x)) o with
  | ok r o' => exact ⟨r, o', rfl, wp_ok hx hw⟩
  | exn e o' => exact (wp_exn hx hw (Calm.out (L := fun e => e = .lengthError) _ _ _ hx)).elim
  | ub u => exact (wp_not_ub hw hx).elim

/-- The operation `op` leads from `o` to a devector with the shape `(f, n, s)` and costs at least `k`. -/
def Leads (E : Env α) (o : Obj DVec α) (ops : List (Dq.Op α)) (f n s k : Nat) : Prop :=
  ∃ o', runAll (exec E) ops o = .ok () o' ∧ Shape E o' f n s ∧ o.m.tick + k ≤ o'.m.tick

theorem Leads.nil (h : Shape E o f n s) : Leads E o [] f n s 0 := ⟨o, rfl, h, by omega⟩

theorem Leads.cons {op : Dq.Op α} {ops : List (Dq.Op α)} {r : Option Nat} {k k' : Nat} (hx : exec E op o = .ok r o')
    (hk : o.m.tick + k ≤ o'.m.tick) (h : Leads E o' ops f n s k') : Leads E o (op :: ops) f n s (k + k') := by
  obtain ⟨o2, h1, h2, h3⟩ := h
  refine ⟨o2, ?_, h2, by omega⟩
  unfold runAll
  rw [bind_run hx]
  exact h1

theorem runAll_append (ops ops' : List (Dq.Op α)) {o' : Obj DVec α} (h : runAll (exec E) ops o = .ok () o') :
    runAll (exec E) (ops ++ ops') o = runAll (exec E) ops' o' := by
  induction ops generalizing o with
  | nil => cases h; rfl
  | cons op ops ih =>
    unfold runAll at h
    cases hx : exec E op o with
    | ok r o2 =>
      rw [bind_run hx] at h
      refine Eq.trans (b := runAll (exec E) (ops ++ ops') o2) ?_ (ih h)
      exact bind_run (f := fun _ => runAll (exec E) (ops ++ ops')) hx
    | exn e o2 => simp [Bind.bind, M.bind, hx] at h
    | ub u => simp [Bind.bind, M.bind, hx] at h

theorem Leads.append {ops ops' : List (Dq.Op α)} {k k' : Nat} {f' n' s' : Nat} (h : Leads E o ops f n s k)
    (h' : ∀ o', Shape E o' f n s → Leads E o' ops' f' n' s' k') : Leads E o (ops ++ ops') f' n' s' (k + k') := by
  obtain ⟨o1, h1, h2, h3⟩ := h
  obtain ⟨o2, h4, h5, h6⟩ := h' _ h2
  exact ⟨o2, by rw [runAll_append ops ops' h1, h4], h5, by omega⟩

/-- push_back into the free space behind the elements. -/
theorem Shape.back_room {x : α} (hq : ∀ t, E.throws t = false) (h : Shape E o f n (s + 1))
    (hm : f + n + s + 1 + max 1 ((f + n + s + 1) / 2) ≤ E.maxSize) : Leads E o [.pushBack (.value x)] f (n + 1) s 1 := by
  obtain ⟨xs, h, rfl⟩ := h
  obtain ⟨r, o', hx, hs⟩ := h.pushBack hq (by omega) x
  have hc := vcost.out (exec_pushBack_cost h.dim) hx
  rw [if_pos (by omega)] at hc
  exact .cons hx (by omega) (.nil (Shape.of_dim hs hc.1))

/-- push_back without free space behind the elements, all of which move towards the front. -/
theorem Shape.back_shift {x : α} (hq : ∀ t, E.throws t = false) (h : Shape E o f n 0)
    (hm : f + n + max 1 ((f + n) / 2) ≤ E.maxSize) (hf : max 1 (n / 2) < f) :
    Leads E o [.pushBack (.value x)] (f - max 1 (n / 2)) (n + 1) (max 1 (n / 2) - 1) n := by
  obtain ⟨xs, h, rfl⟩ := h
  obtain ⟨r, o', hx, hs⟩ := h.pushBack hq (by omega) x
  have hc := vcost.out (exec_pushBack_cost h.dim) hx
  rw [if_neg (by omega), if_pos hf] at hc
  exact .cons hx hc.2.1 (.nil (Shape.of_dim hs hc.1))

/-- push_front into the free space before the elements. -/
theorem Shape.front_room {x : α} (hq : ∀ t, E.throws t = false) (h : Shape E o (f + 1) n s)
    (hm : f + 1 + n + s + max 1 ((f + 1 + n + s) / 2) ≤ E.maxSize) : Leads E o [.pushFront (.value x)] f (n + 1) s 1 := by
  obtain ⟨xs, h, rfl⟩ := h
  obtain ⟨r, o', hx, hs⟩ := h.pushFront hq (by omega) x
  have hc := vcost.out (exec_pushFront_cost h.dim) hx
  rw [if_pos (by omega)] at hc
  exact .cons hx (by omega) (.nil (Shape.of_dim hs hc.1))

/-- push_front without free space before the elements, all of which move towards the back. -/
theorem Shape.front_shift {x : α} (hq : ∀ t, E.throws t = false) (h : Shape E o 0 n s)
    (hm : n + s + max 1 ((n + s) / 2) ≤ E.maxSize) (hf : max 1 (n / 2) < s) :
    Leads E o [.pushFront (.value x)] (max 1 (n / 2) - 1) (n + 1) (s - max 1 (n / 2)) n := by
  obtain ⟨xs, h, rfl⟩ := h
  obtain ⟨r, o', hx, hs⟩ := h.pushFront hq (by omega) x
  have hc := vcost.out (exec_pushFront_cost h.dim) hx
  rw [if_neg (by omega), if_pos hf] at hc
  exact .cons hx hc.2.1 (.nil (Shape.of_dim hs hc.1))

theorem Shape.popBack (h : Shape E o f (n + 1) s) : Leads E o [.popBack] f n (s + 1) 0 := by
  obtain ⟨xs, h, hn⟩ := h
  obtain ⟨b, hd⟩ := h.dst
  have hw : wp (exec E .popBack) (fun _ o' => ∃ f n s, Shape E o' f n s) (fun _ _ => False) o := by
    simp only [exec, wp_bind]
    refine wp_mono (popBack_spec hd (by intro h; simp [h] at hn)) (fun _ o1 k => ?_) fun _ _ h => h
    exact ⟨_, _, _, _, k.layout, rfl⟩
  obtain ⟨r, o', hx, hs⟩ := wp_elim hw
  have hc := vcost.out (exec_popBack_cost h.dim) hx
  exact .cons hx (by omega) (.nil ((Shape.of_dim hs hc.2.1).cast rfl (by omega) rfl))

theorem Shape.popFront (h : Shape E o f (n + 1) s) : Leads E o [.popFront] (f + 1) n s 0 := by
  obtain ⟨xs, h, hn⟩ := h
  obtain ⟨b, hd⟩ := h.dst
  have hw : wp (exec E .popFront) (fun _ o' => ∃ f n s, Shape E o' f n s) (fun _ _ => False) o := by
    simp only [exec, wp_bind]
    refine wp_mono (popFront_spec hd (by intro h; simp [h] at hn)) (fun _ o1 k => ?_) fun _ _ h => h
    exact ⟨_, _, _, _, k.layout, rfl⟩
  obtain ⟨r, o', hx, hs⟩ := wp_elim hw
  have hc := vcost.out (exec_popFront_cost h.dim) hx
  exact .cons hx (by omega) (.nil ((Shape.of_dim hs hc.2.1).cast rfl (by omega) rfl))

theorem Leads.cast {ops : List (Dq.Op α)} {k f' n' s' k' : Nat} (h : Leads E o ops f n s k) (h1 : f = f') (h2 : n = n')
    (h3 : s = s') (h4 : k' ≤ k) : Leads E o ops f' n' s' k' := by
  subst h1 h2 h3
  obtain ⟨o1, k1, k2, k3⟩ := h
  exact ⟨o1, k1, k2, by omega⟩

end steps

/-- Eight operations that twice take a devector with `size()` and `size() / 2 + 1` free cells at one end to one with the
free cells at the other end. -/
def pingPong (x : α) : List (Dq.Op α) :=
  [.pushBack (.value x)] ++ ([.pushFront (.value x)] ++ ([.popBack] ++ ([.popBack] ++
    ([.pushFront (.value x)] ++ ([.pushBack (.value x)] ++ ([.popFront] ++ [.popFront]))))))

theorem pingPong_leads {x : α} (hq : ∀ t, E.throws t = false) {S : Nat} (hS : 4 ≤ S) (hm : 4 * S ≤ E.maxSize)
    (h : Shape E o (S / 2 + 1) S 0) : Leads E o (pingPong x) (S / 2 + 1) S 0 (2 * S) := by
  unfold pingPong
  refine Leads.cast (k := S + (1 + (0 + (0 + (S + (1 + (0 + 0))))))) ?_ rfl rfl rfl (by omega)
  refine ((h.back_shift hq (by omega) (by omega)).cast (f' := 0 + 1) (n' := S + 1) (s' := S / 2 - 1) (by omega) (by omega) (by omega)
    (Nat.le_refl _)).append fun o h => ?_
  refine (h.front_room hq (by omega)).append fun o h => ?_
  refine h.popBack.append fun o h => ?_
  refine h.popBack.append fun o h => ?_
  have h := h.cast (f' := 0) (n' := S) (s' := S / 2 + 1) rfl rfl (by omega)
  refine ((h.front_shift hq (by omega) (by omega)).cast (f' := S / 2 - 1) (n' := S + 1) (s' := 0 + 1) (by omega) (by omega) (by omega)
    (Nat.le_refl _)).append fun o h => ?_
  refine (h.back_room hq (by omega)).append fun o h => ?_
  refine h.popFront.append fun o h => ?_
  exact h.popFront.cast (by omega) rfl rfl (Nat.le_refl _)

/-- `k` rounds. -/
def pingPongs (x : α) : Nat → List (Dq.Op α)
  | 0 => []
  | k + 1 => pingPong x ++ pingPongs x k

theorem pingPongs_leads {x : α} (hq : ∀ t, E.throws t = false) {S : Nat} (hS : 4 ≤ S) (hm : 4 * S ≤ E.maxSize) (k : Nat) :
    ∀ {o}, Shape E o (S / 2 + 1) S 0 → Leads E o (pingPongs x k) (S / 2 + 1) S 0 (2 * S * k) := by
  induction k with
  | zero => exact fun h => .nil h
  | succ k ih =>
    intro o h
    refine Leads.cast (k := 2 * S + 2 * S * k) ((pingPong_leads hq hS hm h).append fun o h => ih h) rfl rfl rfl ?_
    rw [Nat.mul_succ]; omega

/-- pop_front, `k` times. -/
theorem pops_leads (k : Nat) : ∀ {o f n}, Shape E o f (n + k) s → Leads E o (List.replicate k .popFront) (f + k) n s 0 := by
  induction k with
  | zero => exact fun h => .nil h
  | succ k ih =>
    intro o f n h
    rw [List.replicate_succ, ← List.singleton_append]
    exact (Leads.append (k := 0) (k' := 0) (Shape.popFront (n := n + k) h) fun o h => ih h).cast (by omega) rfl rfl (Nat.le_refl _)

theorem pingPongs_ends {x : α} (k : Nat) : ∀ op ∈ pingPongs x k, op.atEnds = true := by
  induction k with
  | zero => simp [pingPongs]
  | succ k ih =>
    intro op ho
    rw [pingPongs, List.mem_append] at ho
    rcases ho with ho | ho
    · simp only [pingPong, List.mem_append, List.mem_singleton] at ho
      rcases ho with rfl | rfl | rfl | rfl | rfl | rfl | rfl | rfl <;> rfl
    · exact ih op ho

theorem pingPongs_length {x : α} (k : Nat) : (pingPongs x k).length = 8 * k := by
  induction k with
  | zero => rfl
  | succ k ih => rw [pingPongs, List.length_append, ih]; simp [pingPong]; omega

/-- **C45 does not hold** for devector: programs that push at both ends and pop cost more than any constant times the number
of elements and operations. If there is no room at one end, but more than half the size at the other end, all elements are moved so
that half the size is free at this end and the rest at the other (devector.hpp:1347-1383, 2247-2258, 2365-2376); if this rest is
small, a push at the other end soon moves all elements back.

The devector is constructed from `xs`; nothing throws. -/
theorem _root_.Sfl.devector_ends_quadratic (C : Nat) : ∃ (E : Env Nat) (xs : List Nat) (ops : List (Dq.Op Nat)) (o o' : Obj DVec Nat),
    (∀ t, E.throws t = false) ∧ construct' E (.range xs) ⟨empty 7, Demo.m1⟩ = .ok () o ∧ (∀ op ∈ ops, op.atEnds = true) ∧
    runAll (exec E) ops o = .ok () o' ∧ C * (xs.length + ops.length) < o'.m.tick - o.m.tick := by
  /- the size -/
  let S := 8 * C + 4
  let E : Env Nat := { Demo.env [] with maxSize := 4 * S }
  let xs := List.replicate (S + (S / 2 + 1)) 0
  have hq : ∀ t, E.throws t = false := fun t => by simp [E, Demo.env]
  have hxs : xs.length = S + (S / 2 + 1) := List.length_replicate
  have : Silent E := ⟨hq⟩
  have : Allows (fun e => e = .lengthError) .lengthError := ⟨rfl⟩
  have hr := RawObject.nothing Demo.m1_wf
  have hw := initWith_spec (E := E) (al := 7) (as := xs.map .val) (vs := xs) (mv := none) hr.gone (Feed.copy (Exts.vals xs))
  obtain ⟨o, hx, hs⟩ : ∃ o, construct' E (.range xs) ⟨empty 7, Demo.m1⟩ = .ok () o ∧ Shape E o 0 xs.length 0 := by
    cases hx : initWith E (xs.map .val) ⟨empty 7, Demo.m1⟩ with
    | ok r o =>
      obtain ⟨b', H', -, k⟩ := wp_ok hx hw
      exact ⟨o, hx, xs, by simpa using k.layout, rfl⟩
    | exn e o' =>
      have he := Calm.out (L := fun e => e = .lengthError) _ _ _ hx
      have := (wp_exn hx hw).2 he
      have : 4 * S < xs.length := this
      omega
    | ub u => exact (wp_not_ub hw hx).elim
  obtain ⟨o', h1, -, h3⟩ := (pops_leads (S / 2 + 1) (hs.cast rfl hxs rfl)).append fun o h =>
    pingPongs_leads (x := 0) hq (S := S) (by omega) (Nat.le_refl _) S (h.cast (by omega) rfl rfl)
  refine ⟨E, xs, _, o, o', hq, hx, ?_, h1, ?_⟩
  · intro op ho
    rcases List.mem_append.mp ho with ho | ho
    · rw [List.eq_of_mem_replicate ho]; rfl
    · exact pingPongs_ends _ _ ho
  · rw [List.length_append, pingPongs_length, hxs, List.length_replicate]
    have e1 : C * (S + (S / 2 + 1) + (S / 2 + 1 + 8 * S)) ≤ C * (11 * S) := Nat.mul_le_mul_left _ (by omega)
    have e2 : C * (11 * S) = 11 * C * S := by rw [← Nat.mul_assoc, Nat.mul_comm C 11]
    have e3 : 11 * C * S < 2 * S * S := Nat.mul_lt_mul_of_pos_right (by omega) (by omega)
    omega

end Devector

/-! ### Instances -/

/-- A program for the vector with two elements: it grows, and in the second case the allocation fails. -/
example : ∃ o1 o', Vector.Reachable (Demo.env []) 3 Demo.m1 (Demo.v (Demo.env [])) ∧ Vector.size (Demo.v (Demo.env [])) = .ok 2 o1 ∧
    (runAll (Vector.exec (Demo.env [])) [.pushBack (.value 1), .pushBack (.elem 0), .popBack] (Demo.v (Demo.env []))).final = some o' := by
  obtain ⟨o', h⟩ := Option.isSome_iff_exists.mp (show (runAll (Vector.exec (Demo.env []))
    [.pushBack (.value 1), .pushBack (.elem 0), .popBack] (Demo.v (Demo.env []))).final.isSome = true by decide +kernel)
  exact ⟨_, o', Demo.v_reachable _, rfl, h⟩

/-- A program for a small_vector with internal storage for three elements that leaves it; a construction throws. -/
example : ∃ n o1 o', SmallVector.Reachable (Demo.env [9]) 2 3 7 Demo.m2 (Demo.sv (Demo.env [9])) ∧
    Vector.size (Demo.sv (Demo.env [9])) = .ok n o1 ∧
    (runAll (SmallVector.exec (Demo.env [9]) 2 3) [.pushBack (.value 1), .pushBack (.value 2), .popBack, .pushBack (.value 3)]
      (Demo.sv (Demo.env [9]))).final = some o' := by
  obtain ⟨o', h⟩ := Option.isSome_iff_exists.mp (show (runAll (SmallVector.exec (Demo.env [9]) 2 3)
    [.pushBack (.value 1), .pushBack (.value 2), .popBack, .pushBack (.value 3)] (Demo.sv (Demo.env [9]))).final.isSome = true by
      decide +kernel)
  exact ⟨_, _, o', Demo.sv_reachable _, rfl, h⟩

/-- A segmented_vector with segments of two elements, the last of them full. -/
example : (SegVec.exec (Demo.env []) 2 (fun _ => true) (.pushBack (.value 7)) (Demo.sgv (Demo.env []) Demo.five)).final.isSome = true := by
  decide +kernel

/-- A segmented_devector with segments of two elements. -/
example : (SegDev.exec (Demo.env []) 2 (fun _ => true) (.pushFront (.elem 1)) (Demo.sdv (Demo.env []) Demo.six)).final.isSome = true := by
  decide +kernel

/-- `devector_ends_partial` for a devector with free space at both ends; the third push_back moves the elements. -/
example : Devector.Layout (Demo.env []) (Demo.dvIn (Demo.env []) Demo.T Demo.both 0) 2 [3, 4, 5] 3 ∧
    (runAll (Devector.exec (Demo.env [])) [.pushBack (.value 1), .pushBack (.value 2), .popFront, .pushBack (.value 3), .pushBack (.value 4)]
      (Demo.dvIn (Demo.env []) Demo.T Demo.both 0)).final.isSome = true :=
  ⟨Demo.both_layout _ (by decide +kernel) (by decide +kernel), by decide +kernel⟩

end Sfl
