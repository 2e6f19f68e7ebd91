import Verif.CostDev5
import Verif.PropStorage
/-
  C46 and C47 for devector.
-/

namespace Sfl
open World
variable {α : Type}

namespace Devector
variable {E : Env α} {o o' : Obj DVec α} {f s n : Nat} {xs : List α}

theorem size_off {o1 : Obj DVec α} (h : size o = .ok n o1) : n = o.obj.last.off - o.obj.first.off := by
  have h : (distance o.obj.first o.obj.last : M (Obj DVec α) Nat) o = .ok n o1 := h
  unfold distance at h
  split at h <;> cases h
  rfl

theorem capacity_off {o1 : Obj DVec α} (h : capacity o = .ok n o1) : n = o.obj.eos.off - o.obj.bos.off := by
  have h : (distance o.obj.bos o.obj.eos : M (Obj DVec α) Nat) o = .ok n o1 := h
  unfold distance at h
  split at h <;> cases h
  rfl

/-! ### C46 -/

/-- **C46**, devector: a modifier costs at most twice the documented number of element operations plus 3 if the free slots at its end
suffice, and otherwise a constant times that number plus the size, whatever it throws.

Missing: insert(pos, first, last) with input iterators; see `devector_insert_input_quadratic`. -/
theorem _root_.Sfl.devector_work_partial (h : Layout E o f xs s) (op : Dq.Op α) (hop : op.isInsertInput = false)
    (hx : (exec E op o).final = some o') :
    o'.m.tick ≤ o.m.tick + 2 * op.work xs.length + 3 +
      if op.fits f xs.length s = true then 0 else 7 * op.work xs.length + xs.length + 3 :=
  (vcost.fin (P := fun v t => Fit v _ ∧ t ≤ _) (exec_ends h.dim op hop) hx).2

/-- Inserting a range of input iterators costs at most the number of inserted elements times the number of all elements, up to
constants. -/
theorem _root_.Sfl.devector_insert_input (h : Layout E o f xs s) (k : Nat) (ys : List α)
    (hx : (exec E (.insertInput k ys) o).final = some o') :
    o'.m.tick ≤ o.m.tick + ys.length * (2 * (xs.length + ys.length) + 6) :=
  (vcost.fin (P := fun v t => Fit v _ ∧ t ≤ _) (exec_insertInput_ends h.dim) hx).2

/-- emplace in the half that is nearer to the end, with room behind the elements. -/
theorem emplace_back_room {v : DVec} {b t i : Nat} {pos : Ptr} {a : Arg α} (h : Dim v f n b) (hp : pos.off = v.first.off + i)
    (h0 : 0 < i) (h1 : i < n) (h2 : n - i ≤ i) (hb : 0 < b) :
    vcost (emplace E pos a) (fun _ v' t' => Dim v' f (n + 1) (b - 1) ∧ t + (n - i) ≤ t') (fun _ _ => True) v t := by
  have hf := h.first
  have hl := h.last
  unfold emplace
  refine .bind (.getObj (.bind (.assert fun hr => .ite (fun h0 => ?_) fun h0 => .ite (fun h1 => ?_) fun h1 =>
    .bind (.lift (.mkTmp (fun tmp => ?_) trivial)))))
  · subst h0; omega
  · subst h1; omega
  · refine (insertAux_room h hp (by omega) (by omega)).mono (fun _ v' t' hq => ?_) fun _ _ _ => trivial
    obtain ⟨k1, -, k2⟩ := hq
    rw [if_neg (by omega), if_neg (by omega)] at k1
    exact ⟨k1, by omega⟩

theorem insertEach_quadratic {H : Heap α} {al p : Nat} (hq : ∀ t, E.throws t = false) (hp : 0 < p) (ys : List α) :
    ∀ {o : Obj DVec α} {b cap f : Nat} {xs : List α} {k : Nat}, DSt H E o al b cap f xs → xs.length = k + p → p ≤ k →
      f + xs.length + ys.length ≤ cap → cap + max 1 (cap / 2) ≤ E.maxSize →
      ∃ o', insertEach E ⟨b, f + k⟩ (ys.map .val) o = .ok () o' ∧ o.m.tick + ys.length * p ≤ o'.m.tick := by
  have : Silent E := ⟨hq⟩
  have : Allows (fun e => e = .lengthError) .lengthError := ⟨rfl⟩
  induction ys with
  | nil => intro o b cap f xs k h _ _ _ _; exact ⟨o, rfl, by simp⟩
  | cons y ys ih =>
    intro o b cap f xs k h hl hk hc hm
    simp only [List.length_cons] at hc ⊢
    have hd := h.layout.dim
    have hf := h.fit
    have hw := emplace_spec (a := .val y) (v := y) h rfl rfl (k := k) (by omega)
    cases hx : emplace E ⟨b, f + k⟩ (.val y) o with
    | ub u => exact (wp_not_ub hw hx).elim
    | exn e o1 =>
      have := (wp_exn hx hw).len (Calm.out (L := fun e => e = .lengthError) _ _ _ hx)
      omega
    | ok r o1 =>
      obtain ⟨b', cap', f', k1, rfl⟩ := wp_ok hx hw
      obtain ⟨c1, c2⟩ := vcost.out (emplace_back_room (i := k) hd (by rw [h.obj]) (by omega) (by omega) (by omega) (by omega)) hx
      have hl' : (xs.take k ++ [y] ++ xs.drop k).length = xs.length + 1 := by simp; omega
      have hf' := k1.fit
      obtain ⟨e1, e2, e3⟩ := c1.unique k1.layout.dim
      subst e1
      rw [hl'] at hf' e3
      obtain rfl : cap' = cap := by omega
      obtain ⟨o2, g1, g2⟩ := ih (k := k + 1) k1 (by omega) (by omega) (by omega) hm
      refine ⟨o2, ?_, ?_⟩
      · show (emplace E _ _ >>= fun p => insertEach E (p.add 1) _) o = _
        rw [bind_run hx]
        exact g1
      · rw [Nat.succ_mul]; omega

/-- **C46 does not hold** for insert(pos, first, last) with input iterators of devector: inserting `p` elements in the middle of
`2 * p` elements moves `p` elements for each of them, although there is room for all of them (devector.hpp:4056-4069). -/
theorem _root_.Sfl.devector_insert_input_quadratic {al : Nat} {m0 : St α} (hm : m0.Wf) (hq : ∀ t, E.throws t = false)
    (x y : α) {p : Nat} (hp : 0 < p) (h5 : 5 * p ≤ E.maxSize) : ∃ o1 o r o',
    construct' E (.range (List.replicate (2 * p) x)) ⟨empty al, m0⟩ = .ok () o1 ∧
    reserveBack E (3 * p) o1 = .ok () o ∧ Layout E o 0 (List.replicate (2 * p) x) p ∧
    exec E (.insertInput p (List.replicate p y)) o = .ok r o' ∧
    (Dq.Op.insertInput p (List.replicate p y)).work (2 * p) = 2 * p ∧ o.m.tick + p * p ≤ o'.m.tick := by
  have : Silent E := ⟨hq⟩
  have : Allows (fun e => e = .lengthError) .lengthError := ⟨rfl⟩
  have hr := RawObject.nothing hm
  let xs := List.replicate (2 * p) x
  have hxs : xs.length = 2 * p := List.length_replicate
  have hw := initWith_spec (E := E) (al := al) (as := xs.map .val) (vs := xs) (mv := none) hr.gone (Feed.copy (Exts.vals xs))
  obtain ⟨o1, hx1, h1⟩ : ∃ o, construct' E (.range xs) ⟨empty al, m0⟩ = .ok () o ∧ Layout E o 0 xs 0 := by
    cases hx : initWith E (xs.map .val) ⟨empty al, m0⟩ with
    | ok r o =>
      obtain ⟨b', H', -, k⟩ := wp_ok hx hw
      exact ⟨o, hx, by simpa using k.layout⟩
    | exn e o' =>
      have := (wp_exn hx hw).2 (Calm.out (L := fun e => e = .lengthError) _ _ _ hx)
      omega
    | ub u => exact (wp_not_ub hw hx).elim
  obtain ⟨b1, d1⟩ := h1.dst
  have hw := reserveBack_spec (n := 3 * p) d1
  obtain ⟨o, hx, h⟩ : ∃ o, reserveBack E (3 * p) o1 = .ok () o ∧ Layout E o 0 xs p := by
    cases hx : reserveBack E (3 * p) o1 with
    | ok r o =>
      obtain ⟨b', cap', k, -⟩ := wp_ok hx hw
      have c := (vcost.out (reserveBack_cost (E := E) (m := 3 * p) d1.layout.dim) hx).1
      obtain ⟨-, -, e⟩ := c.unique k.layout.dim
      refine ⟨o, rfl, ?_⟩
      have := k.layout
      rwa [← e, show max _ _ = p by omega] at this
    | exn e o' =>
      obtain ⟨_, -, -, -, k⟩ := wp_exn hx hw
      have := k (Calm.out (L := fun e => e = .lengthError) _ _ _ hx)
      omega
    | ub u => exact (wp_not_ub hw hx).elim
  obtain ⟨b, d⟩ := h.dst
  obtain ⟨o2, hx2, h2⟩ := insertEach_quadratic (p := p) hq hp (List.replicate p y) (k := p) d (by omega) (by omega)
    (by simp) (by omega)
  have hw := insertInput_spec (k := p) d (Exts.vals (List.replicate p y)) (by omega)
  obtain ⟨r, o', hx', ht⟩ : ∃ r o', exec E (.insertInput p (List.replicate p y)) o = .ok r o' ∧ o'.m.tick = o2.m.tick := by
    have hw' : wp (exec E (.insertInput p (List.replicate p y)))
        (fun _ o' => o'.m.tick = o2.m.tick) (fun _ _ => False) o := by
      simp only [exec, wp_bind]
      refine wp_nth d (by omega) ?_
      have hi : ∃ r, insertInput E ⟨b, 0 + p⟩ ((List.replicate p y).map .val) o = .ok r o2 := by
        refine ⟨o2.obj.first.add p, ?_⟩
        unfold insertInput
        have e1 : getObj o = .ok o.obj o := rfl
        rw [bind_run e1]
        have e2 : M.assert (InRange o.obj ⟨b, 0 + p⟩) o = .ok () o := by
          unfold M.assert
          rw [if_pos (by rw [d.obj]; refine ⟨rfl, ?_, ?_⟩ <;> simp; omega)]
        rw [bind_run e2]
        have e3 : (distance o.obj.first ⟨b, 0 + p⟩ : DM α Nat) o = .ok p o := by
          unfold distance
          rw [d.obj]
          simp
        rw [bind_run e3, bind_run hx2]
        rfl
      obtain ⟨r, hi⟩ := hi
      obtain ⟨b', cap', f', k, e⟩ := wp_ok hi hw
      subst e
      unfold wp
      rw [hi]
      exact wp_indexOf k (by simp; omega) rfl
    obtain ⟨r, o', hx', ht⟩ := wp_elim hw'
    exact ⟨r, o', hx', ht⟩
  refine ⟨o1, o, r, o', hx1, hx, h, hx', ?_, ?_⟩
  · simp [Dq.Op.work]; omega
  · simp only [List.length_replicate] at h2; omega

/-! ### C47 -/

/-- **C47**, devector, as far as it holds: programs without resize_front, resize_back, reserve_front and reserve_back, whatever they
throw. Twice as much as ever was asked for.

Missing: these four functions; see `devector_storage_unbounded`. -/
theorem _root_.Sfl.devector_storage_partial {o1 o2 : Obj DVec α} {c c' P : Nat} (h : Layout E o f xs s) (hc : capacity o = .ok c o1)
    (hw : Asked size (fun op : { op : Dq.Op α // op.oneSided = false } => exec E op.1) (fun n op => op.1.room n) P o o')
    (hc' : capacity o' = .ok c' o2) : c' ≤ max c (2 * P) := by
  obtain rfl := capacity_off hc
  have hf : Fit o'.obj (max (o.obj.eos.off - o.obj.bos.off) (2 * P)) := by
    clear hc'
    induction hw with
    | refl =>
      have hd := h.dim
      have := hd.first
      have := hd.last
      have := hd.eos
      exact hd.fit (by omega)
    | step hw hs hp hx ih =>
      rename_i o1 o2 o3 n op
      obtain rfl := size_off hs
      have hb := ih.dim
      have : Fit o3.obj (bound (o1.obj.first.off - o1.obj.bos.off) (o1.obj.last.off - o1.obj.first.off)
          (o1.obj.eos.off - o1.obj.last.off) op.1) := by
        by_cases hop : op.1.isInsertInput = false
        · exact (vcost.fin (P := fun v t => Fit v _ ∧ t ≤ _) (exec_ends (E := E) hb op.1 hop) hx).1
        · obtain ⟨op, ho⟩ := op
          cases op <;> simp [Dq.Op.isInsertInput] at hop
          exact (vcost.fin (P := fun v t => Fit v _ ∧ t ≤ _) (exec_insertInput_ends (E := E) hb) hx).1
      refine this.mono ?_
      unfold bound
      rw [op.2, if_neg (by simp)]
      have := ih.cap
      have := ih.eos
      have := ih.last
      have := ih.first
      omega
  rw [capacity_off hc']
  exact hf.cap

/-- resize_back(1) on an empty devector without room behind. -/
theorem Shape.resizeBack (hq : ∀ t, E.throws t = false) (h : Shape E o f 0 0) (hm : f + 1 ≤ E.maxSize) :
    ∃ r o', exec E (.resizeBack 1) o = .ok r o' ∧ Shape E o' f 1 0 := by
  have : Silent E := ⟨hq⟩
  have : Allows (fun e => e = .lengthError) .lengthError := ⟨rfl⟩
  obtain ⟨xs, h, hn⟩ := h
  obtain ⟨b, hd⟩ := h.dst
  have hw : wp (exec E (.resizeBack 1)) (fun _ o' => ∃ f n s, Shape E o' f n s) (fun e _ => e = .lengthError → False) o := by
    simp only [exec, wp_bind]
    refine wp_mono (resizeBackWith_spec hd (a := .val E.dflt) (v := E.dflt) rfl rfl fun _ => Exts.vals [E.dflt]) ?_ ?_
    · rintro _ o1 ⟨b', cap', f', k⟩
      exact ⟨_, _, _, _, k.layout, rfl⟩
    · rintro e o1 ⟨-, k, -⟩ he
      have := k he
      omega
  have hc : vcost (exec E (.resizeBack 1)) (fun _ v' _ => Dim v' f 1 0) (fun _ _ => True) o.obj o.m.tick :=
    .bind ((resizeBackWith_cost h.dim).mono (fun _ _ _ hq => .pure (hq.1.cast rfl rfl (by omega))) fun _ _ _ => trivial)
  cases hx : exec E (.resizeBack 1) o with
  | ok r o' => exact ⟨r, o', rfl, Shape.of_dim (wp_ok (Q := fun _ o' => ∃ f n s, Shape E o' f n s) hx hw) (vcost.out hc hx)⟩
  | exn e o' => exact (wp_exn hx hw (Calm.out (L := fun e => e = .lengthError) _ _ _ hx)).elim
  | ub u => exact (wp_not_ub hw hx).elim

theorem Shape.size (h : Shape E o f n s) : Devector.size o = .ok n o := by
  obtain ⟨xs, h, rfl⟩ := h
  obtain ⟨b, h⟩ := h.dst
  obtain ⟨_, _, e, h1, h2⟩ := wp_elim (wp_size (X := fun _ _ => False) (Q := fun n' o' => n' = xs.length ∧ o' = o) h ⟨rfl, rfl⟩)
  rw [e, h1, h2]

theorem Shape.capacity (h : Shape E o f n s) : Devector.capacity o = .ok (f + n + s) o := by
  obtain ⟨xs, h, rfl⟩ := h
  obtain ⟨b, h⟩ := h.dst
  obtain ⟨_, _, e, h1, h2⟩ := wp_elim (wp_capacity (X := fun _ _ => False) (Q := fun n' o' => n' = f + xs.length + s ∧ o' = o) h ⟨rfl, rfl⟩)
  rw [e, h1, h2]

/-- **C47 does not hold** for resize_back of devector: `k` rounds of resize_back(1) and pop_front() make the capacity `k`, though there
is never more than one element. resize_back gets new storage if there is no room behind the elements, and keeps all the room before them
(devector.hpp:1120-1153). The devector starts empty; nothing throws. -/
theorem _root_.Sfl.devector_storage_unbounded {al : Nat} {m0 : St α} (hm : m0.Wf) (hq : ∀ t, E.throws t = false) {k : Nat}
    (hk : k ≤ E.maxSize) : ∃ o, Asked Devector.size (exec E) (fun n op => op.room n) 1 ⟨empty al, m0⟩ o ∧
      Devector.size o = .ok 0 o ∧ Devector.capacity o = .ok k o := by
  suffices ∃ o, Asked Devector.size (exec E) (fun n op => op.room n) 1 ⟨empty al, m0⟩ o ∧ Shape E o k 0 0 by
    obtain ⟨o, h1, h2⟩ := this
    exact ⟨o, h1, h2.size, h2.capacity⟩
  induction k with
  | zero => exact ⟨_, .refl, [], (Devector.Gone.dst (E := E) (RawObject.nothing hm).gone).layout, rfl⟩
  | succ k ih =>
    obtain ⟨o, h1, h2⟩ := ih (by omega)
    obtain ⟨r, o1, hx, h3⟩ := h2.resizeBack hq hk
    obtain ⟨o2, h4, h5, -⟩ := h3.popFront
    refine ⟨o2, .step (op := .popFront) (.step (op := .resizeBack 1) h1 h2.size (Nat.le_refl _) (by rw [hx]; rfl)) h3.size (Nat.le_refl _) ?_, h5⟩
    unfold runAll at h4
    cases hp : exec E .popFront o1 with
    | ok r o3 => rw [bind_run hp] at h4; cases h4; rfl
    | exn e o3 => simp [Bind.bind, M.bind, hp] at h4
    | ub u => simp [Bind.bind, M.bind, hp] at h4

end Devector

/-! ### Non-vacuity -/

/-- The devector with room at both ends, after an insertion in the middle. -/
def Demo.wider : Obj DVec Nat :=
  ((Devector.exec (Demo.env []) (.insertRange 1 [7, 8, 9]) (Demo.dvIn (Demo.env []) Demo.T Demo.both 0)).final).getD
    (Demo.dvIn (Demo.env []) Demo.T Demo.both 0)

/-- `devector_work_partial`, `devector_insert_input` and `devector_storage_partial` for that devector. -/
example : ∃ c o1 o'' o3,
    Devector.Layout (Demo.env []) (Demo.dvIn (Demo.env []) Demo.T Demo.both 0) 2 [3, 4, 5] 3 ∧
    (Devector.exec (Demo.env []) (.insertRange 1 [7, 8, 9]) (Demo.dvIn (Demo.env []) Demo.T Demo.both 0)).final = some Demo.wider ∧
    (Devector.exec (Demo.env []) (.insertInput 2 [7, 8, 9]) (Demo.dvIn (Demo.env []) Demo.T Demo.both 0)).final = some o'' ∧
    Devector.capacity (Demo.dvIn (Demo.env []) Demo.T Demo.both 0) = .ok c o1 ∧
    Asked Devector.size (fun op : { op : Dq.Op Nat // op.oneSided = false } => Devector.exec (Demo.env []) op.1)
      (fun n op => op.1.room n) 6 (Demo.dvIn (Demo.env []) Demo.T Demo.both 0) Demo.wider ∧
    Devector.capacity Demo.wider = .ok 8 o3 := by
  obtain ⟨o'', h⟩ := Option.isSome_iff_exists.mp (show (Devector.exec (Demo.env []) (.insertInput 2 [7, 8, 9])
    (Demo.dvIn (Demo.env []) Demo.T Demo.both 0)).final.isSome = true by decide +kernel)
  have hx := Demo.some_getD (x := (Devector.exec (Demo.env []) (.insertRange 1 [7, 8, 9])
    (Demo.dvIn (Demo.env []) Demo.T Demo.both 0)).final) (Demo.dvIn (Demo.env []) Demo.T Demo.both 0) (by decide +kernel)
  have hl := Demo.both_layout (Demo.env []) (by decide +kernel) (by decide +kernel)
  have hs : Devector.Shape (Demo.env []) _ 2 3 3 := ⟨_, hl, rfl⟩
  obtain ⟨o3, hc⟩ := Demo.ok_of (r := Devector.capacity Demo.wider) (b := 8) (by decide +kernel)
  exact ⟨_, _, o'', o3, hl, hx, h, hs.capacity,
    .step (o2 := Demo.dvIn (Demo.env []) Demo.T Demo.both 0) (n := 3) (o3 := Demo.wider) (op := ⟨.insertRange 1 [7, 8, 9], rfl⟩)
      .refl hs.size (by simp [Dq.Op.room]) hx, hc⟩

/-- `devector_insert_input_quadratic` for ten elements: at least 100 operations, where the documentation promises a number linear
in 20. -/
example : ∃ o r o', Devector.exec (Demo.env []) (.insertInput 10 (List.replicate 10 (4 : Nat))) o = .ok r o' ∧
    o.m.tick + 100 ≤ o'.m.tick := by
  obtain ⟨-, o, r, o', -, -, -, h, -, h'⟩ := devector_insert_input_quadratic (E := Demo.env []) (al := 3) Demo.m1_wf (fun _ => rfl) 3 4
    (p := 10) (by decide) (by decide)
  exact ⟨o, r, o', h, h'⟩

/-- `devector_storage_unbounded` for twenty rounds. -/
example : ∃ o, Devector.size (α := Nat) o = .ok 0 o ∧ Devector.capacity o = .ok 20 o := by
  obtain ⟨o, -, h⟩ := devector_storage_unbounded (E := Demo.env []) (al := 3) Demo.m1_wf (fun _ => rfl) (k := 20) (by decide)
  exact ⟨o, h⟩

end Sfl
