import Verif.KeepVec
import Verif.KeepDev
import Verif.PropDevCost
import Verif.PropSegCost
/-
  C49: storage that suffices is kept. A modifier that finds enough room neither moves the storage nor changes its capacity, whatever it
  throws, so that references to elements it does not touch stay valid; and an operation after which the capacity is the same has not
  moved anything.
-/

namespace Sfl
open Sq World
variable {α : Type}

/-- The operation changes no element before this position. -/
def Sq.Op.start (n : Nat) : Sq.Op α → Nat
  | .pushBack _ => n
  | .emplace k _ => k
  | .insertN k _ _ => k
  | .insertRange k _ => k
  | .insertInput k _ => k
  | .popBack => n - 1
  | .eraseAt k => k
  | .eraseRange k _ => k
  | .resize m => min m n
  | .resizeV m _ => min m n
  | .assignN _ _ => 0
  | .assignRange _ => 0
  | .assignInput _ => 0
  | .clear => 0
  | .reserve _ => n
  | .shrinkToFit => n
  | .eraseIf _ => 0

theorem Sq.Op.Result.start {d : α} {xs ys : List α} {op : Sq.Op α} (h : op.Result d xs ys) (hp : op.pre xs.length = true) {i : Nat}
    (hi : i < op.start xs.length) : ys[i]? = xs[i]? := by
  have cut : ∀ {k : Nat} {zs : List α}, i < k → k ≤ xs.length → (xs.take k ++ zs)[i]? = xs[i]? := by
    intro k zs h1 h2
    rw [List.getElem?_append_left (by simp; omega), List.getElem?_take_of_lt h1]
  cases op <;> simp only [Op.start, Op.Result, Op.pre, Bool.and_eq_true, decide_eq_true_eq] at h hi hp
  case pushBack s => obtain ⟨v, -, rfl⟩ := h; rw [List.getElem?_append_left hi]
  case emplace k s => obtain ⟨v, -, rfl⟩ := h; rw [List.append_assoc]; exact cut hi hp.1
  case insertN k m s => obtain ⟨v, -, rfl⟩ := h; rw [List.append_assoc]; exact cut hi hp.1
  case insertRange k zs => subst h; rw [List.append_assoc]; exact cut hi hp
  case insertInput k zs => subst h; rw [List.append_assoc]; exact cut hi hp
  case popBack => subst h; rw [List.dropLast_eq_take, List.getElem?_take_of_lt hi]
  case eraseAt k => subst h; exact cut hi (by omega)
  case eraseRange k l => subst h; exact cut hi (by omega)
  case resize m =>
    subst h
    by_cases hm : m ≤ xs.length
    · exact cut (by omega) hm
    · rw [List.take_of_length_le (by omega), List.getElem?_append_left (by omega)]
  case resizeV m s =>
    obtain ⟨v, -, rfl⟩ := h
    by_cases hm : m ≤ xs.length
    · exact cut (by omega) hm
    · rw [List.take_of_length_le (by omega), List.getElem?_append_left (by omega)]
  case reserve m => subst h; rfl
  case shrinkToFit => subst h; rfl
  all_goals omega

/-! ### vector and small_vector -/

section
variable {H : Heap α} {E : Env α} {ib N al b cap c : Nat} {o o' : Obj Vec α} {xs : List α}

theorem VSt.hold (h : VSt H E ib N o al b cap xs) (hv : SmallVector.Hold o.obj o'.obj) :
    o'.obj.first = o.obj.first ∧ Vector.capacity o' = .ok cap o' := by
  obtain ⟨h1, h2, -⟩ := hv
  refine ⟨h1, ?_⟩
  show (distance o'.obj.first o'.obj.eos : M (Obj Vec α) Nat) o' = _
  rw [h1, h2, h.obj]
  simp [distance]

theorem VSt.stays (h : VSt H E ib N o al b cap xs) {op : Sq.Op α} (hop : op ≠ .shrinkToFit) (hroom : op.room xs.length ≤ cap)
    (hx : (SmallVector.exec E ib N op o).final = some o') : SmallVector.Hold o.obj o'.obj := by
  have := h.len
  exact vcost.fin (P := fun v' _ => SmallVector.Hold o.obj v') (SmallVector.exec_keeps h.dim op hop (by omega)) hx

/-- The cells of the elements before the place of the operation, if it stays in the same storage. -/
theorem VSt.same (h : VSt H E ib N o al b cap xs) {op : Sq.Op α} (hp : op.pre xs.length = true) (hv : SmallVector.Hold o.obj o'.obj)
    {r : Option Nat} (hx : SmallVector.exec E ib N op o = .ok r o') {i : Nat} (hi : i < op.start xs.length) :
    o'.m.mem o.obj.first.blk (o.obj.first.off + i) = o.m.mem o.obj.first.blk (o.obj.first.off + i) := by
  obtain ⟨b', cap', xs', k1, k2⟩ := wp_ok hx (SmallVector.exec_spec op h hp)
  have e := hv.first
  rw [k1.v.obj, h.obj] at e
  injection e with e
  subst e
  rw [h.obj]
  simp only [Nat.zero_add]
  rw [h.cells, k1.v.cells]
  exact k2.1.start hp hi

/-- reserve and shrink_to_fit. -/
theorem VSt.moves (h : VSt H E ib N o al b cap xs) {op : Sq.Op α} (hop : op = .shrinkToFit ∨ ∃ m, op = .reserve m)
    (hx : (SmallVector.exec E ib N op o).final = some o') : o'.obj = o.obj ∨ o'.obj.eos.off - o'.obj.first.off ≠ cap := by
  have hl := h.len
  have hd := h.dim
  have hc : xs.length + (cap - xs.length) = cap := by omega
  have ho : o.obj.first ≠ ⟨ib, 0⟩ → ∀ m, m ≠ cap → (m ≤ N → m < cap → N < cap) := by
    intro hf m _ _ hlt
    rcases h.st.own with ⟨rfl, -⟩ | ⟨rfl, rfl⟩ | ⟨hlt, -⟩
    · rw [h.obj] at hf; exact absurd rfl hf
    · omega
    · exact hlt
  suffices hs : vcost (SmallVector.exec E ib N op) (fun _ v' _ => v' = o.obj ∨ v'.eos.off - v'.first.off ≠ cap)
      (fun v' _ => v' = o.obj ∨ v'.eos.off - v'.first.off ≠ cap) o.obj o.m.tick from
    vcost.fin (P := fun v' _ => v' = o.obj ∨ v'.eos.off - v'.first.off ≠ cap) hs hx
  rcases hop with rfl | ⟨m, rfl⟩
  · refine .bind ?_
    unfold SmallVector.shrinkToFit Vector.capacity Vector.size
    refine .bind (.bind (.getObj (.distance fun _ _ => .bind (.bind (.getObj (.distance fun _ _ => ?_))))))
    refine .ite (fun hg => ?_) fun hg => .pure (.pure (.inl rfl))
    have e1 := hd.last
    have e2 := hd.eos
    refine (SmallVector.relocate_moves hd (fun hf hN => ?_) (by omega)).mono (fun _ _ _ hq => .pure (by rwa [hc] at hq)) fun _ _ hq => .inl hq
    have := ho hf _ (by omega) hN (by omega)
    omega
  · refine .bind ?_
    unfold SmallVector.reserve Vector.checkSize Vector.capacity
    refine .bind (.ite (fun _ => .throw (.inl rfl)) fun _ => .pure (.bind (.bind (.getObj (.distance fun _ _ => ?_)))))
    refine .ite (fun hg => ?_) fun hg => .pure (.pure (.inl rfl))
    have e1 := hd.last
    have e2 := hd.eos
    exact (SmallVector.relocate_moves hd (fun hf hN => by omega) (by omega)).mono (fun _ _ _ hq => .pure (by rwa [hc] at hq)) fun _ _ hq => .inl hq

end

/-- **C49**, small_vector: a modifier that asks for no more than capacity() elements leaves data() and capacity() as they are, whether
it returns or throws. -/
theorem smallVector_storage_kept {E : Env α} {ib N al : Nat} {m0 : St α} {o o' o1 o2 : Obj Vec α} {n c : Nat} (hr : RawObject m0 ib N)
    (hN : N ≤ E.maxSize) (h : SmallVector.Reachable E ib N al m0 o) (hn : Vector.size o = .ok n o1) (hc : Vector.capacity o = .ok c o2)
    (op : Sq.Op α) (hop : op ≠ .shrinkToFit) (hroom : op.room n ≤ c) (hx : (SmallVector.exec E ib N op o).final = some o') :
    o'.obj.first = o.obj.first ∧ Vector.capacity o' = .ok c o' := by
  obtain ⟨xs, b, cap, h⟩ := h.repr hr hN
  obtain rfl := h.size_eq hn
  obtain rfl := h.capacity_eq hc
  exact h.hold (h.stays hop hroom hx)

/-- **C49**, small_vector: the elements before the place of the operation are where and what they were. -/
theorem smallVector_references_kept {E : Env α} {ib N al : Nat} {m0 : St α} {o o' o1 o2 : Obj Vec α} {n c : Nat} (hr : RawObject m0 ib N)
    (hN : N ≤ E.maxSize) (h : SmallVector.Reachable E ib N al m0 o) (hn : Vector.size o = .ok n o1) (hc : Vector.capacity o = .ok c o2)
    (op : Sq.Op α) (hop : op ≠ .shrinkToFit) (hp : op.pre n = true) (hroom : op.room n ≤ c) {r : Option Nat}
    (hx : SmallVector.exec E ib N op o = .ok r o') {i : Nat} (hi : i < op.start n) :
    o'.m.mem o.obj.first.blk (o.obj.first.off + i) = o.m.mem o.obj.first.blk (o.obj.first.off + i) := by
  obtain ⟨xs, b, cap, h⟩ := h.repr hr hN
  obtain rfl := h.size_eq hn
  obtain rfl := h.capacity_eq hc
  exact h.same hp (h.stays hop hroom (by rw [hx]; rfl)) hx hi

/-- **C49**, small_vector: if the capacity is the same after reserve or shrink_to_fit, nothing has been moved. -/
theorem smallVector_capacity_moved {E : Env α} {ib N al : Nat} {m0 : St α} {o o' o1 o2 : Obj Vec α} {c : Nat} (hr : RawObject m0 ib N)
    (hN : N ≤ E.maxSize) (h : SmallVector.Reachable E ib N al m0 o) (hc : Vector.capacity o = .ok c o1) (op : Sq.Op α)
    (hop : op = .shrinkToFit ∨ ∃ m, op = .reserve m) (hx : (SmallVector.exec E ib N op o).final = some o')
    (hc' : Vector.capacity o' = .ok c o2) : o'.obj = o.obj := by
  obtain ⟨xs, b, cap, h⟩ := h.repr hr hN
  obtain rfl := h.capacity_eq hc
  exact (h.moves hop hx).resolve_right fun hne => hne (SmallVector.capacity_off hc').symm

/-- **C49**, vector: a modifier that asks for no more than capacity() elements leaves data() and capacity() as they are, whether it
returns or throws. -/
theorem vector_storage_kept {E : Env α} {al : Nat} {m0 : St α} {o o' o1 o2 : Obj Vec α} {n c : Nat} (hw : m0.Wf)
    (h : Vector.Reachable E al m0 o) (hn : Vector.size o = .ok n o1) (hc : Vector.capacity o = .ok c o2)
    (op : Sq.Op α) (hop : op ≠ .shrinkToFit) (hroom : op.room n ≤ c) (hx : (Vector.exec E op o).final = some o') :
    o'.obj.first = o.obj.first ∧ Vector.capacity o' = .ok c o' := by
  obtain ⟨xs, b, cap, h⟩ := h.repr hw
  obtain rfl := h.size_eq hn
  obtain rfl := h.capacity_eq hc
  rw [← Vector.exec_eq op h] at hx
  exact h.hold (h.stays hop hroom hx)

/-- **C49**, vector: the elements before the place of the operation are where and what they were. -/
theorem vector_references_kept {E : Env α} {al : Nat} {m0 : St α} {o o' o1 o2 : Obj Vec α} {n c : Nat} (hw : m0.Wf)
    (h : Vector.Reachable E al m0 o) (hn : Vector.size o = .ok n o1) (hc : Vector.capacity o = .ok c o2)
    (op : Sq.Op α) (hop : op ≠ .shrinkToFit) (hp : op.pre n = true) (hroom : op.room n ≤ c) {r : Option Nat}
    (hx : Vector.exec E op o = .ok r o') {i : Nat} (hi : i < op.start n) :
    o'.m.mem o.obj.first.blk (o.obj.first.off + i) = o.m.mem o.obj.first.blk (o.obj.first.off + i) := by
  obtain ⟨xs, b, cap, h⟩ := h.repr hw
  obtain rfl := h.size_eq hn
  obtain rfl := h.capacity_eq hc
  rw [← Vector.exec_eq op h] at hx
  exact h.same hp (h.stays hop hroom (by rw [hx]; rfl)) hx hi

/-- **C49**, vector: if the capacity is the same after reserve or shrink_to_fit, nothing has been moved. -/
theorem vector_capacity_moved {E : Env α} {al : Nat} {m0 : St α} {o o' o1 o2 : Obj Vec α} {c : Nat} (hw : m0.Wf)
    (h : Vector.Reachable E al m0 o) (hc : Vector.capacity o = .ok c o1) (op : Sq.Op α)
    (hop : op = .shrinkToFit ∨ ∃ m, op = .reserve m) (hx : (Vector.exec E op o).final = some o')
    (hc' : Vector.capacity o' = .ok c o2) : o'.obj = o.obj := by
  obtain ⟨xs, b, cap, h⟩ := h.repr hw
  obtain rfl := h.capacity_eq hc
  rw [← Vector.exec_eq op h] at hx
  exact (h.moves hop hx).resolve_right fun hne => hne (SmallVector.capacity_off hc').symm

/-! ### static_vector -/

/-- **C49**, static_vector: a modifier leaves data() as it is, whether it returns or throws. -/
theorem staticVector_storage_kept {K : Nat} {E : Env α} {ib : Fin K → Nat} {N : Nat} {m0 : St α} {i : Fin K} {o o' o1 : Obj Vec α} {n : Nat}
    (hm : Objects E ib N m0) (h : Reached (StaticVector.cont E ib N) (StaticVector.sem E N) m0 i o) (hn : Vector.size o = .ok n o1)
    (op : Sq.Op α) (hp : StaticVector.pre N n op = true) (hx : (StaticVector.exec E N op o).final = some o') :
    o'.obj.first = o.obj.first ∧ Vector.capacity o' = .ok N o' := by
  obtain ⟨H, al, xs, h⟩ := h.static hm (StaticVector.spec hm.fits)
  obtain rfl := h.size_eq hn
  have hw := StaticVector.exec_spec op h hp
  have key : ∀ {ys : List α}, VSt H E (ib i) N o' al (ib i) N ys → o'.obj.first = o.obj.first ∧ Vector.capacity o' = .ok N o' := by
    intro ys k
    refine ⟨by rw [k.obj, h.obj], ?_⟩
    show (distance o'.obj.first o'.obj.eos : M (Obj Vec α) Nat) o' = _
    rw [k.obj]
    simp [distance]
  cases hm : StaticVector.exec E N op o with
  | ok r s => rw [hm] at hx; cases hx; exact key (wp_ok hm hw).choose_spec.1
  | exn e s => rw [hm] at hx; cases hx; exact key (wp_exn hm hw).choose_spec.1
  | ub r => rw [hm] at hx; cases hx

/-- **C49**, static_vector: the elements before the place of the operation are where and what they were. -/
theorem staticVector_references_kept {K : Nat} {E : Env α} {ib : Fin K → Nat} {N : Nat} {m0 : St α} {i : Fin K} {o o' o1 : Obj Vec α}
    {n : Nat} (hm : Objects E ib N m0) (h : Reached (StaticVector.cont E ib N) (StaticVector.sem E N) m0 i o)
    (hn : Vector.size o = .ok n o1) (op : Sq.Op α) (hp : StaticVector.pre N n op = true) {r : Option Nat}
    (hx : StaticVector.exec E N op o = .ok r o') {j : Nat} (hj : j < op.start n) :
    o'.m.mem o.obj.first.blk (o.obj.first.off + j) = o.m.mem o.obj.first.blk (o.obj.first.off + j) := by
  obtain ⟨H, al, xs, h⟩ := h.static hm (StaticVector.spec hm.fits)
  obtain rfl := h.size_eq hn
  obtain ⟨ys, k1, -, k2⟩ := wp_ok hx (StaticVector.exec_spec op h hp)
  rw [h.obj]
  simp only [Nat.zero_add]
  rw [h.cells, k1.cells]
  unfold StaticVector.pre at hp
  simp only [Bool.and_eq_true] at hp
  exact k2.1.start hp.1.1 hj

/-! ### devector -/

namespace Devector
variable {E : Env α} {o o' : Obj DVec α} {f s n : Nat} {xs : List α}

theorem Hold.capacity {c : Nat} {o1 : Obj DVec α} (h : Hold o.obj o'.obj) (hc : capacity o = .ok c o1) : capacity o' = .ok c o' := by
  have hc : (distance o.obj.bos o.obj.eos : M (Obj DVec α) Nat) o = .ok c o1 := hc
  show (distance o'.obj.bos o'.obj.eos : M (Obj DVec α) Nat) o' = _
  rw [h.bos, h.eos]
  unfold distance at hc ⊢
  split at hc <;> cases hc
  rw [if_pos ‹_›]

/-- **C49**, devector: a modifier that finds enough room at the end at which it works stays in the same block, of the same capacity,
whether it returns or throws. -/
theorem _root_.Sfl.devector_storage_kept (h : Layout E o f xs s) (op : Dq.Op α) (hop : op.stays f xs.length s = true)
    (hx : (exec E op o).final = some o') :
    o'.obj.bos = o.obj.bos ∧ o'.obj.eos = o.obj.eos ∧ ∃ c, capacity o = .ok c o ∧ capacity o' = .ok c o' := by
  have hv := vcost.fin (P := fun v' _ => Hold o.obj v') (exec_keeps h.dim op hop) hx
  have hc := Shape.capacity ⟨xs, h, rfl⟩
  exact ⟨hv.bos, hv.eos, _, hc, hv.capacity hc⟩

/-- **C49**, devector: with a free slot at that end push_back and push_front leave all elements where and what they were. -/
theorem _root_.Sfl.devector_push_kept (h : Layout E o f xs s) (op : Dq.Op α) (hp : op.pre xs.length = true)
    (hop : (∃ a, op = .pushBack a ∧ 0 < s) ∨ (∃ a, op = .pushFront a ∧ 0 < f)) {r : Option Nat} (hx : exec E op o = .ok r o')
    {i : Nat} (hi : i < xs.length) :
    o'.m.mem o.obj.first.blk (o.obj.first.off + i) = o.m.mem o.obj.first.blk (o.obj.first.off + i) := by
  obtain ⟨b, d⟩ := h.dst
  have hpre : pre E false xs.length op = true := by
    rcases hop with ⟨a, rfl, -⟩ | ⟨a, rfl, -⟩ <;> simpa [pre] using hp
  obtain ⟨b', cap', f', xs', k1, k2, -⟩ := wp_ok hx (exec_spec (quiet := false) (fun h => by cases h) op d hpre)
  rcases hop with ⟨a, rfl, h0⟩ | ⟨a, rfl, h0⟩
  · obtain ⟨-, e⟩ := vcost.out (exec_back_keeps h.dim h0) hx
    obtain ⟨w, -, rfl⟩ := k2
    rw [k1.obj, d.obj] at e
    injection e with e1 e2
    subst e1 e2
    rw [d.obj, k1.cells, d.cells]
    simp [List.getElem?_append_left hi]
  · obtain ⟨-, e⟩ := vcost.out (exec_front_keeps h.dim h0) hx
    obtain ⟨w, -, rfl⟩ := k2
    rw [k1.obj, d.obj] at e
    injection e with e1 e2
    subst e1
    simp only [List.length_cons] at e2
    rw [d.obj, k1.cells, d.cells]
    simp only
    rw [if_pos (by omega), if_pos (by omega), show f + i - f' = i + 1 by omega, show f + i - f = i by omega]
    rfl

/-- The operations whose only purpose is to change the storage. -/
def _root_.Sfl.Dq.Op.tunes : Dq.Op α → Bool
  | .reserveFront _ => true
  | .reserveBack _ => true
  | .shrinkToFit => true
  | _ => false

/-- **C49**, devector: if the capacity is the same after reserve_front, reserve_back or shrink_to_fit, nothing has been moved. -/
theorem _root_.Sfl.devector_capacity_moved {c : Nat} {o1 o2 : Obj DVec α} (h : Layout E o f xs s) (hc : capacity o = .ok c o1)
    (op : Dq.Op α) (hop : op.tunes = true) (hx : (exec E op o).final = some o') (hc' : capacity o' = .ok c o2) : o'.obj = o.obj := by
  have hd := h.dim
  obtain rfl : c = f + xs.length + s := by have := capacity_off hc; have := hd.eos; omega
  have away : ∀ {v' : DVec} {t' f' b' : Nat}, Dim v' f' xs.length b' ∧ t' ≤ o.m.tick + xs.length + 1 → f' + b' ≠ f + s →
      v' = o.obj ∨ v'.eos.off - v'.bos.off ≠ f + xs.length + s := by
    intro v' t' f' b' hq hne
    have := hq.1.eos
    exact .inr (by omega)
  suffices hs : vcost (exec E op) (fun _ v' _ => v' = o.obj ∨ v'.eos.off - v'.bos.off ≠ f + xs.length + s)
      (fun v' _ => v' = o.obj ∨ v'.eos.off - v'.bos.off ≠ f + xs.length + s) o.obj o.m.tick from
    (vcost.fin (P := fun v' _ => v' = o.obj ∨ v'.eos.off - v'.bos.off ≠ f + xs.length + s) hs hx).resolve_right
      fun hne => hne (capacity_off hc').symm
  obtain ⟨h1, h2, h3, h4, h5, h6⟩ := h.dim
  cases op <;> simp only [Dq.Op.tunes, Bool.false_eq_true] at hop
  case reserveFront m =>
    refine .bind ?_
    unfold reserveFront availableFront availableBack size
    refine .bind (.bind (.getObj (.distance fun _ _ => .ite (fun _ => .throw (.inl rfl)) fun _ => .bind (.bind (.getObj
      (.distance fun _ _ => .bind (.bind (.getObj (.distance fun _ _ => ?_)))))))))
    refine .ite (fun hg => ?_) fun hg => .pure (.pure (.inl rfl))
    refine .bind (.getObj (.bind (.distance fun _ _ => ?_)))
    exact (relocate_cost hd (by omega)).mono (fun _ v' t' hq => .pure (away hq (by omega))) fun _ _ hq => .inl hq.1
  case reserveBack m =>
    refine .bind ?_
    unfold reserveBack availableFront availableBack size
    refine .bind (.bind (.getObj (.distance fun _ _ => .ite (fun _ => .throw (.inl rfl)) fun _ => .bind (.bind (.getObj
      (.distance fun _ _ => .bind (.bind (.getObj (.distance fun _ _ => ?_)))))))))
    refine .ite (fun hg => ?_) fun hg => .pure (.pure (.inl rfl))
    exact (relocate_cost hd (by omega)).mono (fun _ v' t' hq => .pure (away hq (by omega))) fun _ _ hq => .inl hq.1
  case shrinkToFit =>
    refine .bind ?_
    unfold shrinkToFit size capacity
    refine .bind (.bind (.getObj (.distance fun _ _ => .bind (.bind (.getObj (.distance fun _ _ => ?_))))))
    refine .ite (fun hg => ?_) fun hg => .pure (.pure (.inl rfl))
    exact (relocate_cost hd (by omega)).mono (fun _ v' t' hq => .pure (away hq (by omega))) fun _ _ hq => .inl hq.1

end Devector

/-- Whether the block in which the first element was is still there. -/
def Demo.blockStays {β : Type} (o : Obj DVec Nat) : Res (Obj DVec Nat) β → Option Bool
  | .ok _ o' => some (o'.m.blk o.obj.first.blk).isSome
  | _ => none

theorem Demo.of_blockStays {β : Type} {o : Obj DVec Nat} {r : Res (Obj DVec Nat) β} (h : blockStays o r = some false) :
    ∃ x o', r = .ok x o' ∧ o'.m.blk o.obj.first.blk = none := by
  cases r with
  | ok x o' => exact ⟨x, o', rfl, by simpa [blockStays] using h⟩
  | exn e o' => cases h
  | ub u => cases h

/-- **C49**, devector, against doc/devector.md:660 and 694: "references and pointers to elements remain valid" when reserve_front or
reserve_back change the capacity. There are three elements in a block that the call returns to the allocator. -/
theorem devector_reserve_references : ∃ (E : Env Nat) (o : Obj DVec Nat), Devector.Layout E o 2 [3, 4, 5] 3 ∧
    (o.m.blk o.obj.first.blk).isSome ∧
    (∃ r o', Devector.exec E (.reserveFront 9) o = .ok r o' ∧ o'.m.blk o.obj.first.blk = none) ∧
    (∃ r o', Devector.exec E (.reserveBack 9) o = .ok r o' ∧ o'.m.blk o.obj.first.blk = none) :=
  ⟨Demo.env [], Demo.dvIn (Demo.env []) Demo.T Demo.both 0, Demo.both_layout _ (by decide +kernel) (by decide +kernel),
    by decide +kernel, Demo.of_blockStays (by decide +kernel), Demo.of_blockStays (by decide +kernel)⟩

/-! ### Cases that meet the hypotheses -/

/-- A vector of 2 elements with capacity 3: insert(1, 9) has enough room, also when it throws, and so has resize(3). The first
element stays. With capacity 3 and size 3 shrink_to_fit and reserve(3) have nothing to do. -/
example : Vector.Reachable (Demo.env []) 3 Demo.m1 (Demo.v (Demo.env [])) ∧ Vector.size (Demo.v (Demo.env [])) = .ok 2 (Demo.v (Demo.env [])) ∧
    Vector.capacity (Demo.v (Demo.env [])) = .ok 3 (Demo.v (Demo.env [])) ∧
    (∃ r o', Vector.exec (Demo.env []) (.emplace 1 (.value 9)) (Demo.v (Demo.env [])) = .ok r o') ∧
    (Sq.Op.emplace 1 (.value 9) : Sq.Op Nat).room 2 = 3 ∧ 0 < (Sq.Op.emplace 1 (.value 9) : Sq.Op Nat).start 2 ∧
    (∃ e o', Vector.exec (Demo.env [3]) (.emplace 1 (.value 9)) (Demo.v (Demo.env [3])) = .exn e o') ∧
    (∃ r o', Vector.exec (Demo.env []) (.reserve 3) (Demo.v (Demo.env [])) = .ok r o' ∧ Vector.capacity o' = .ok 3 o') :=
  ⟨Demo.v_reachable _, rfl, rfl, ⟨_, _, rfl⟩, rfl, by decide, ⟨_, _, rfl⟩, ⟨_, _, rfl, rfl⟩⟩

/-- A small_vector of 3 elements in its internal storage of 3: erase(1, 2), assign(3 values) and resize(2) stay there; it takes one more
element to leave it. -/
example : SmallVector.Reachable (Demo.env []) 2 3 7 Demo.m2 (Demo.sv (Demo.env [])) ∧
    Vector.size (Demo.sv (Demo.env [])) = .ok 3 (Demo.sv (Demo.env [])) ∧
    Vector.capacity (Demo.sv (Demo.env [])) = .ok 3 (Demo.sv (Demo.env [])) ∧
    (∃ r o', SmallVector.exec (Demo.env []) 2 3 (.assignRange [8, 8, 9]) (Demo.sv (Demo.env [])) = .ok r o') ∧
    (Sq.Op.assignRange [8, 8, 9] : Sq.Op Nat).room 3 = 3 ∧
    (∃ r o', SmallVector.exec (Demo.env []) 2 3 (.eraseRange 1 2) (Demo.sv (Demo.env [])) = .ok r o') ∧
    (Sq.Op.eraseRange 1 2 : Sq.Op Nat).room 3 ≤ 3 ∧ 0 < (Sq.Op.eraseRange 1 2 : Sq.Op Nat).start 3 ∧
    (∃ r o', SmallVector.exec (Demo.env []) 2 3 .shrinkToFit (Demo.sv (Demo.env [])) = .ok r o' ∧ Vector.capacity o' = .ok 3 o') ∧
    (∃ r o', SmallVector.exec (Demo.env []) 2 3 (.pushBack (.value 1)) (Demo.sv (Demo.env [])) = .ok r o' ∧
      o'.obj.first ≠ (Demo.sv (Demo.env [])).obj.first) :=
  ⟨Demo.sv_reachable _, rfl, rfl, ⟨_, _, rfl⟩, rfl, ⟨_, _, rfl⟩, by decide, by decide, ⟨_, _, rfl, rfl⟩, ⟨_, _, rfl, by decide +kernel⟩⟩

/-- A static_vector of 2 elements: erase(1, 2) keeps the first one. -/
example : Objects (Demo.env []) Demo.ib3 2 Demo.m3 ∧
    Reached (StaticVector.cont (Demo.env []) Demo.ib3 2) (StaticVector.sem (Demo.env []) 2) Demo.m3 0 Demo.st2 ∧
    StaticVector.pre 2 2 (.eraseRange 1 2 : Sq.Op Nat) = true ∧ 0 < (Sq.Op.eraseRange 1 2 : Sq.Op Nat).start 2 ∧
    (∃ r o', StaticVector.exec (Demo.env []) 2 (.eraseRange 1 2) Demo.st2 = .ok r o') :=
  ⟨Demo.objects3 _ (by decide), Demo.st2_reached, by decide, by decide, ⟨some 1, Demo.ok_of (by decide +kernel)⟩⟩

/-- A devector with 2 free slots, 3 elements, 3 free slots: insert of 3 elements before the end, insert of 2 elements from input
iterators and the pushes at both ends have enough room; reserve_front(2) has nothing to do. -/
example : Devector.Layout (Demo.env []) (Demo.dvIn (Demo.env []) Demo.T Demo.both 0) 2 [3, 4, 5] 3 ∧
    (Dq.Op.insertRange 3 [7, 8, 9] : Dq.Op Nat).stays 2 3 3 = true ∧
    (∃ o', Devector.exec (Demo.env []) (.insertRange 3 [7, 8, 9]) (Demo.dvIn (Demo.env []) Demo.T Demo.both 0) = .ok (some 3) o') ∧
    (Dq.Op.insertInput 1 [7, 8] : Dq.Op Nat).stays 2 3 3 = true ∧
    (∃ o', Devector.exec (Demo.env []) (.insertInput 1 [7, 8]) (Demo.dvIn (Demo.env []) Demo.T Demo.both 0) = .ok (some 1) o') ∧
    (∃ o', Devector.exec (Demo.env []) (.pushFront (.elem 1)) (Demo.dvIn (Demo.env []) Demo.T Demo.both 0) = .ok (some 0) o') ∧
    (∃ o', Devector.exec (Demo.env []) (.reserveFront 5) (Demo.dvIn (Demo.env []) Demo.T Demo.both 0) = .ok none o') ∧
    (∃ o', Devector.capacity (Demo.dvIn (Demo.env []) Demo.T Demo.both 0) = .ok 8 o') :=
  ⟨Demo.both_layout _ (by decide +kernel) (by decide +kernel), rfl, Demo.ok_of (by decide +kernel), rfl, Demo.ok_of (by decide +kernel),
    Demo.ok_of (by decide +kernel), Demo.ok_of (by decide +kernel), Demo.ok_of (by decide +kernel)⟩

end Sfl
