import Verif.CostFlat
import Verif.Unord
/-
  What the functions of the unordered flat containers do to the data members and the counter (of element operations,
  allocations and comparisons).
-/

namespace Sfl.Unord
open Sfl.Vector (VM)
open SmallVector (Dim Fit Ends)
open Flat (Looks Lim Stays grown looks_bind le_grown grown_le argRead)
variable {α κ : Type} {E : Env α} {U : KeyEq α κ} {q : Sought α} {v : Vec} {n r t ib N : Nat}

theorem eqAt_cost {it : Ptr} {Q : Bool → Nat → Prop} {X : Nat → Prop} (h : ∀ b, Q b (t + 1)) (hX : X (t + 1)) :
    cost (eqAt U E q it) Q X t := by
  unfold eqAt
  refine .bind (.readAt fun e => ?_)
  cases q with
  | pred f => exact .comp (h _) hX
  | obj p => exact .bind (.readAt fun k => .comp (h _) hX)

theorem findGo_looks (m : Nat) : ∀ {it : Ptr} {t : Nat}, Looks (findGo U E q m it) (t + m) v t := by
  induction m with
  | zero => intro it t; exact .pure ⟨rfl, by omega⟩
  | succ m ih =>
    intro it t
    unfold findGo
    refine .bind (.getObj (.ite (fun _ => .pure ⟨rfl, by omega⟩) fun _ => .bind (.lift (eqAt_cost (fun b => .ite (fun _ => .pure ⟨rfl, by omega⟩)
      fun _ => ?_) ⟨rfl, by omega⟩))))
    exact vcost.mono ih (fun _ _ _ hq => ⟨hq.1, by omega⟩) fun _ _ hq => ⟨hq.1, by omega⟩

theorem find_looks (h : Dim v n r) : Looks (find U E q) (t + n) v t := by
  have hl := h.last
  have e : v.last.off - v.first.off = n := by omega
  unfold find Vector.size
  refine .bind (.bind (.getObj (.distance fun _ _ => .bind (.getObj ?_))))
  rw [e]
  exact findGo_looks n

theorem countGo_looks (m : Nat) : ∀ {it : Ptr} {t c : Nat}, Looks (countGo U E q m it c) (t + m) v t := by
  induction m with
  | zero => intro it t c; exact .pure ⟨rfl, by omega⟩
  | succ m ih =>
    intro it t c
    unfold countGo
    refine .bind (.getObj (.ite (fun _ => .pure ⟨rfl, by omega⟩) fun _ => .bind (.lift (eqAt_cost (fun b => .ite (fun _ => ?_)
      fun _ => ?_) ⟨rfl, by omega⟩)))) <;>
    exact vcost.mono ih (fun _ _ _ hq => ⟨hq.1, by omega⟩) fun _ _ hq => ⟨hq.1, by omega⟩

theorem countMulti_looks (h : Dim v n r) : Looks (countMulti U E q) (t + n) v t := by
  have hl := h.last
  have e : v.last.off - v.first.off = n := by omega
  unfold countMulti Vector.size
  refine .bind (.bind (.getObj (.distance fun _ _ => .bind (.getObj ?_))))
  rw [e]
  exact countGo_looks n

theorem contains_looks (h : Dim v n r) : Looks (contains U E q) (t + n) v t :=
  looks_bind (find_looks h) (fun _ ht => ⟨rfl, ht⟩) fun _ _ ht => .bind (.getObj (.pure ⟨rfl, ht⟩))

/-! ### Erasure -/

theorem eraseAt_stays {pos : Ptr} (h : Dim v n r) :
    Stays (eraseAt E pos) n (n + r) (t + 1) v t := by
  obtain ⟨h1, h2, h3, h4⟩ := h
  unfold eraseAt fillHole
  refine .bind (.getObj (.bind (.assert fun hin => ?_)))
  obtain ⟨g1, g2, g3⟩ := hin
  have := Ptr.sub_blk (p := v.last) (n := 1) (by omega)
  vcost <;> lim

theorem eraseRange_stays {p q : Ptr} (h : Dim v n r) :
    Stays (eraseRange E p q) n (n + r) (t + min (q.off - p.off) (n - (q.off - v.first.off))) v t := by
  obtain ⟨h1, h2, h3, h4⟩ := h
  unfold eraseRange
  refine .bind (.getObj (.bind (.assert fun hin => ?_)))
  obtain ⟨g1, g2, g3, g4, g5⟩ := hin
  vcost <;> lim

theorem eraseGo_stays {test : Ptr → M (St α) Bool} {c : Nat}
    (ht : ∀ {it : Ptr} {t : Nat}, cost (test it) (fun _ t' => t' ≤ t + c) (fun t' => t' ≤ t + c) t) (m : Nat) :
    ∀ {v : Vec} {n r t k : Nat} {it : Ptr}, Dim v n r → Stays (eraseGo E test m it k) n (n + r) (t + m * (c + 1)) v t := by
  induction m with
  | zero => intro v n r t k it h; exact .pure ⟨.of h, by omega⟩
  | succ m ih =>
    intro v n r t k it h
    unfold eraseGo
    rw [Nat.succ_mul]
    refine .bind (.getObj (.ite (fun _ => .pure ⟨.of h, by omega⟩) fun _ => .bind (.lift (ht.mono (fun b t1 h1 => .ite (fun _ => ?_)
      fun _ => ?_) fun t1 h1 => ⟨.of h, by omega⟩))))
    · refine .bind (vcost.mono (eraseAt_stays h) (fun p v2 t2 hq => ?_) fun v2 t2 hq => ⟨hq.1, by omega⟩)
      obtain ⟨n', r', hd, hn, hr⟩ := hq.1.dim
      exact Stays.mono (ih hd) (by omega) (by omega) (by omega)
    · exact Stays.mono (ih h) (by omega) (by omega) (by omega)

theorem eraseKey_stays {multi : Bool} (h : Dim v n r) : Stays (eraseKey multi U E q) n (n + r) (t + 2 * n + 1) v t := by
  have hl := h.last
  have e : v.last.off - v.first.off = n := by omega
  unfold eraseKey
  refine .ite (fun _ => ?_) fun _ => ?_
  · unfold eraseKeyMulti Vector.size
    refine .bind (.bind (.getObj (.distance fun _ _ => .bind (.getObj ?_))))
    rw [e]
    exact Stays.mono (eraseGo_stays (c := 1) (eqAt_cost (fun _ => Nat.le_refl _) (Nat.le_refl _)) n h) (by omega) (by omega) (by omega)
  · unfold eraseKeyUnique
    refine looks_bind (find_looks h) (fun t' ht => ⟨.of h, by omega⟩) fun it t' ht => .bind (.getObj
      (.ite (fun _ => .pure ⟨.of h, by omega⟩) fun _ => .bind ?_))
    exact vcost.mono (eraseAt_stays h) (fun _ _ _ hq => .pure ⟨hq.1, by omega⟩) fun _ _ hq => ⟨hq.1, by omega⟩

theorem eraseIf_stays {f : α → Bool} (h : Dim v n r) : Stays (eraseIf E f) n (n + r) (t + n) v t := by
  have hl := h.last
  have e : v.last.off - v.first.off = n := by omega
  unfold eraseIf Vector.size
  refine .bind (.bind (.getObj (.distance fun _ _ => .bind (.getObj ?_))))
  rw [e]
  refine .bind (vcost.mono (eraseGo_stays (c := 0) (.bind (.readAt fun x => .pure (by omega))) n h) (fun _ v1 t1 hq => ?_)
    fun v1 t1 hq => ⟨hq.1, by omega⟩)
  exact .bind (.bind (.getObj (.distance fun _ _ => .pure ⟨hq.1, by omega⟩)))

/-! ### Insertion -/

/-- What the guard and `emplace_back` have to do with the data members and the counter. -/
structure Kind.Costs (K : Kind α) (N : Nat) : Prop where
  guard : ∀ {v : Vec} {t : Nat}, vcost K.guard (fun _ v' t' => v' = v ∧ t' = t) (fun _ _ => False) v t
  push : ∀ {v : Vec} {n r t : Nat} {a : Arg α}, Dim v n r →
    Stays (K.push a) (n + 1) (grown N n r) (t + 1 + if 0 < r then 0 else n + 1) v t
  many : K.multi = true → ∀ (κ : Type) (U : KeyEq α κ) (E : Env α) (vs : List α) {v : Vec} {n r t : Nat}, Dim v n r →
    Ends (insertRange K U E vs) (max N (max (n + r) (n + vs.length + (n + vs.length) / 2)))
      (t + 7 * vs.length + if vs.length ≤ r then 0 else n) v t

/-- Work of adding an element at the end. -/
def growth (n r : Nat) : Nat := if 0 < r then 0 else n + 1

section
variable {K : Kind α}

theorem pushNew_stays (hK : K.Costs N) {a : Arg α} (h : Dim v n r) :
    Stays (pushNew K a) (n + 1) (grown N n r) (t + 1 + growth n r) v t :=
  .bind (vcost.mono (hK.push h) (fun _ _ _ hq => .pure hq) fun _ _ hq => hq)

theorem insertAux_stays (hK : K.Costs N) {a : Arg α} (h : Dim v n r) :
    Stays (insertAux K U E a) (n + 1) (grown N n r) (t + (if K.multi = true then 0 else n) + 1 + growth n r) v t := by
  have hg := @le_grown n r N
  unfold insertAux
  refine .ite (fun hm => ?_) fun hm => ?_
  · rw [if_pos hm]; exact pushNew_stays hK h
  · rw [if_neg hm]
    refine .bind (.lift (.argRead fun x => looks_bind (find_looks h) (fun t' ht => ⟨(Lim.of h).mono (by omega) hg, by omega⟩)
      fun it t' ht => .bind (.getObj (.ite (fun _ => ?_) fun _ => .pure ⟨(Lim.of h).mono (by omega) hg, by omega⟩))))
    exact Stays.mono (pushNew_stays hK h) (by omega) (by omega) (by omega)

theorem emplaceAux_stays (hK : K.Costs N) {x : α} (h : Dim v n r) :
    Stays (emplaceAux K U E x) (n + 1) (grown N n r) (t + n + 2 + growth n r) v t := by
  have hg := @le_grown n r N
  unfold emplaceAux
  refine .bind (vcost.mono (hK.push h) (fun p v1 t1 hq => ?_) fun v1 t1 hq => ⟨hq.1, by unfold growth; omega⟩)
  obtain ⟨n', r', hd, hn, hr⟩ := hq.1.dim
  have ht := hq.2
  refine looks_bind (find_looks hd) (fun t' ht => ⟨(Lim.of hd).mono (by omega) (by omega), by unfold growth; omega⟩)
    fun it t' ht => .ite (fun _ => .pure ⟨(Lim.of hd).mono (by omega) (by omega), by unfold growth; omega⟩) fun _ => ?_
  refine .bind (vcost.mono (SmallVector.popBack_cost hd) (fun _ v2 t2 hq => .pure ?_) fun _ _ hq => hq.elim)
  obtain ⟨h0, h1, h2⟩ := hq
  exact ⟨(Lim.of h1).mono (by omega) (by omega), by unfold growth; omega⟩

theorem emplace_stays (hK : K.Costs N) {x : α} (h : Dim v n r) :
    Stays (emplace K U E x) (n + 1) (grown N n r) (t + (if K.multi = true then 0 else n) + 2 + growth n r) v t := by
  have hg := @le_grown n r N
  unfold emplace
  refine .ite (fun hm => ?_) fun hm => .ite (fun _ => ?_) fun _ => .bind (.lift (.mkTmp (fun tmp => ?_)
    ⟨(Lim.of h).mono (by omega) hg, by omega⟩))
  · rw [if_pos hm]; exact Stays.mono (pushNew_stays hK h) (by omega) (by omega) (by omega)
  · rw [if_neg hm]; exact Stays.mono (emplaceAux_stays hK h) (by omega) (by omega) (by omega)
  · refine Stays.mono (insertAux_stays hK h) (by omega) (by omega) ?_
    rw [if_neg hm]; omega

theorem pushKey_stays (hK : K.Costs N) {x : α} (h : Dim v n r) :
    Stays (pushKey K E x) (n + 1) (grown N n r) (t + 2 + growth n r) v t := by
  have hg := @le_grown n r N
  unfold pushKey
  refine .ite (fun _ => ?_) fun _ => .bind (.lift (.mkTmp (fun tmp => ?_) ⟨(Lim.of h).mono (by omega) hg, by omega⟩))
  · exact Stays.mono (pushNew_stays hK h) (by omega) (by omega) (by omega)
  · exact Stays.mono (pushNew_stays hK h) (by omega) (by omega) (by omega)

theorem tryEmplaceAux_stays (hK : K.Costs N) {x : α} (h : Dim v n r) :
    Stays (tryEmplaceAux K U E x) (n + 1) (grown N n r) (t + n + 2 + growth n r) v t := by
  have hg := @le_grown n r N
  unfold tryEmplaceAux
  refine looks_bind (find_looks h) (fun t' ht => ⟨(Lim.of h).mono (by omega) hg, by omega⟩)
    fun it t' ht => .bind (.getObj (.ite (fun _ => ?_) fun _ => .pure ⟨(Lim.of h).mono (by omega) hg, by omega⟩))
  exact Stays.mono (pushKey_stays hK h) (by omega) (by omega) (by omega)

theorem assignMapped_cost {p : Ptr} {x : α} {Q : Unit → Nat → Prop} {X : Nat → Prop} (h : Q () (t + 1)) (hX : X (t + 1)) :
    cost (assignMapped U E p x) Q X t := by
  intro s hs; subst hs
  unfold assignMapped
  cases s.mem p.blk p.off with
  | none => trivial
  | some old =>
    by_cases hc : E.throws s.tick = true
    · simp only [if_pos hc]; exact hX
    · simp only [if_neg hc]; exact h

theorem insertOrAssignAux_stays (hK : K.Costs N) {x : α} (h : Dim v n r) :
    Stays (insertOrAssignAux K U E x) (n + 1) (grown N n r) (t + n + 2 + growth n r) v t := by
  have hg := @le_grown n r N
  unfold insertOrAssignAux
  refine looks_bind (find_looks h) (fun t' ht => ⟨(Lim.of h).mono (by omega) hg, by omega⟩)
    fun it t' ht => .bind (.getObj (.ite (fun _ => ?_) fun _ => ?_))
  · exact Stays.mono (pushNew_stays hK h) (by omega) (by omega) (by omega)
  · exact .bind (.lift (assignMapped_cost (.pure ⟨(Lim.of h).mono (by omega) hg, by omega⟩) ⟨(Lim.of h).mono (by omega) hg, by omega⟩))

/-- One insertion after the other. -/
theorem insertRange_stays (hK : K.Costs N) (vs : List α) : ∀ {v : Vec} {n r t S B : Nat}, Dim v n r → n + vs.length ≤ S →
    n + r ≤ B → max N (S + S / 2) ≤ B →
    Stays (insertRange K U E vs) S B (t + vs.length * (2 * S + 2)) v t := by
  induction vs with
  | nil => intro v n r t S B h hS hB _; exact .pure ⟨(Lim.of h).mono hS hB, by simp⟩
  | cons x vs ih =>
    intro v n r t S B h hS hB hm
    simp only [List.length_cons] at hS
    have hg : grown N n r ≤ B := by unfold grown; split <;> omega
    have hw : growth n r ≤ n + 1 := by unfold growth; split <;> omega
    have hw' : (if K.multi = true then 0 else n) ≤ n := by split <;> omega
    unfold insertRange
    rw [List.length_cons, Nat.succ_mul]
    refine .bind (vcost.mono hK.guard (fun _ v1 t1 hq => ?_) fun _ _ hq => hq.elim)
    obtain ⟨rfl, rfl⟩ := hq
    refine .bind (vcost.mono (insertAux_stays hK h) (fun p v2 t2 hq => ?_) fun v2 t2 hq => ⟨hq.1.mono (by omega) hg, by omega⟩)
    obtain ⟨n', r', hd, hn, hr⟩ := hq.1.dim
    exact Stays.mono (ih hd (S := S) (B := B) (by omega) (by omega) hm) (by omega) (by omega) (by omega)

end

theorem emplaceBack_stays {a : Arg α} (h : Dim v n r) :
    Stays (SmallVector.emplaceBack E ib N a) (n + 1) (grown N n r) (t + 1 + if 0 < r then 0 else n + 1) v t := by
  obtain ⟨h1, h2, h3, h4⟩ := h
  unfold SmallVector.emplaceBack
  refine .bind (.getObj (.ite (fun hne => ?_) fun he => ?_))
  · have hr : 0 < r := by have := Ptr.off_ne (by rw [h1, h2]) hne; omega
    simp only [if_pos hr]
    vcost <;> lim
  · have hr : r = 0 := by
      have he : v.last = v.eos := by simpa using he
      rw [he] at h3; omega
    subst hr
    simp only [Nat.lt_irrefl, if_false]
    unfold SmallVector.calculateNewCapacity Vector.size Vector.capacity
    refine .bind (.bind (.bind (.getObj (.distance fun _ _ => .bind (.bind (.getObj (.distance fun _ _ => ?_)))))))
    have e1 : v.last.off - v.first.off = n := by omega
    have e2 : v.eos.off - v.first.off = n := by omega
    rw [e1, e2]
    cases hc : SmallVector.newCapacity N E.maxSize n n 1 with
    | none => refine .throw ?_; lim
    | some c =>
      have k1 := SmallVector.newCapacity_le hc Nat.one_pos
      dsimp only
      unfold SmallVector.newStorage SmallVector.replaceStorage
      vcost <;> lim

/-- The range insertion of the small multi containers is a sequence of emplace_back. -/
theorem small_many {isMap : Bool} {E' : Env α} (vs : List α) : ∀ o : Obj Vec α,
    insertRange (small true isMap E ib N) U E' vs o = SmallVector.emplaceBackAll E ib N (vs.map .val) o := by
  induction vs with
  | nil => intro o; rfl
  | cons x vs ih =>
    intro o
    show (pure () >>= fun _ => (SmallVector.emplaceBack E ib N (.val x) >>= fun p => pure (p, true)) >>= fun _ =>
      insertRange (small true isMap E ib N) U E' vs) o = (SmallVector.emplaceBack E ib N (.val x) >>= fun _ =>
      SmallVector.emplaceBackAll E ib N (vs.map .val)) o
    show M.bind (M.bind (SmallVector.emplaceBack E ib N (.val x)) fun p => pure (p, true)) (fun _ =>
      insertRange (small true isMap E ib N) U E' vs) o = M.bind (SmallVector.emplaceBack E ib N (.val x)) (fun _ =>
      SmallVector.emplaceBackAll E ib N (vs.map .val)) o
    unfold M.bind
    cases SmallVector.emplaceBack E ib N (.val x) o with
    | ok p o1 => exact ih o1
    | exn e o1 => rfl
    | ub u => rfl

theorem vcost.eq {β V : Type} {m m' : M (Obj V α) β} {Q : β → V → Nat → Prop} {X : V → Nat → Prop} {v : V}
    (h : vcost m Q X v t) (he : ∀ o, m' o = m o) : vcost m' Q X v t := by
  intro o hv ht
  rw [he]
  exact h o hv ht

theorem small_costs (multi isMap : Bool) (E : Env α) (ib N : Nat) : (small multi isMap E ib N).Costs N where
  guard := .pure ⟨rfl, rfl⟩
  push := fun h => emplaceBack_stays h
  many := by
    intro hm κ U E' vs v n r t h
    obtain rfl : multi = true := hm
    refine vcost.eq ?_ (small_many vs)
    by_cases hr : vs.length ≤ r
    · refine vcost.mono (SmallVector.emplaceBackAll_room (vs.map .val) h (by simpa using hr)) (fun _ _ _ hq => ?_) fun _ _ hq => ?_ <;>
        · obtain ⟨⟨k1, k2, k3, k4, k5⟩, k6⟩ := hq
          rw [List.length_map] at k6
          exact ⟨⟨k1, k2, k3, k4, by omega⟩, by omega⟩
    · rw [if_neg hr]
      refine vcost.mono (SmallVector.emplaceBackAll_amortised (vs.map .val) h) (fun _ _ _ hq => ?_) fun _ _ hq => ?_ <;>
        · obtain ⟨⟨k1, k2, k3, k4, k5⟩, k6⟩ := hq
          rw [List.length_map] at *
          refine ⟨⟨k1, k2, k3, k4, by omega⟩, ?_⟩
          split at k6 <;> omega

theorem staticPush_stays {a : Arg α} (h : Dim v n r) :
    Stays (staticPush E a) (n + 1) (grown N n r) (t + 1 + if 0 < r then 0 else n + 1) v t := by
  obtain ⟨h1, h2, h3, h4⟩ := h
  unfold staticPush Flat.notFull
  refine .bind (.bind (.getObj (.assert fun hne => ?_)))
  have hr : 0 < r := by have := Ptr.off_ne (by rw [h1, h2]) hne; omega
  vcost <;> lim

theorem static_many {multi isMap : Bool} {E' : Env α} (hm : multi = true) (vs : List α) : ∀ {v : Vec} {n r t : Nat}, Dim v n r →
    Ends (insertRange (static multi isMap E) U E' vs) (n + r) (t + vs.length) v t := by
  subst hm
  induction vs with
  | nil => intro v n r t h; exact .pure ⟨(Lim.of h).fit, by simp⟩
  | cons x vs ih =>
    intro v n r t h
    have hd := h
    obtain ⟨h1, h2, h3, h4⟩ := h
    refine .bind (.bind (.getObj (.assert fun hne => ?_)))
    have hr : 0 < r := by have := Ptr.off_ne (by rw [h1, h2]) hne; omega
    rw [List.length_cons]
    refine .bind (.bind (.bind (.bind (.getObj (.assert fun _ => .bind (.getObj (.bind (.lift (.construct ?_
      ⟨(Lim.of hd).fit, by omega⟩)))))))))
    refine .bind (.setObj (.pure (.pure ?_)))
    refine vcost.mono (ih (n := n + 1) (r := r - 1) ⟨h1, h2, by simp; omega, by simp; omega⟩) (fun _ _ _ hq => ?_) fun _ _ hq => ?_ <;>
      · obtain ⟨⟨k1, k2, k3, k4, k5⟩, k6⟩ := hq
        exact ⟨⟨k1, k2, k3, k4, by omega⟩, by omega⟩

theorem static_costs (multi isMap : Bool) (E : Env α) (N : Nat) : (static multi isMap E).Costs N where
  guard := .bind (.getObj (.assert fun _ => ⟨rfl, rfl⟩))
  push := fun h => staticPush_stays h
  many := by
    intro hm κ U E' vs v n r t h
    refine vcost.mono (static_many hm vs h) (fun _ _ _ hq => ?_) fun _ _ hq => ?_ <;>
      · obtain ⟨⟨k1, k2, k3, k4, k5⟩, k6⟩ := hq
        exact ⟨⟨k1, k2, k3, k4, by omega⟩, by omega⟩

/-! ### All modifiers -/

/-- Work of a modifier on `n` elements when nothing has to be reallocated: a search where keys are unique, and a constant number of
element operations for a single insertion or erasure (small_unordered_flat_set.md:67); the sum over the single insertions for
a range. -/
def Op.work (multi : Bool) (n : Nat) : Op α κ → Nat
  | .insert _ | .insertHint _ _ | .emplace _ | .emplaceHint _ _ => (if multi = true then 0 else n) + 2
  | .tryEmplace _ | .tryEmplaceHint _ _ | .insertOrAssign _ | .insertOrAssignHint _ _ => n + 2
  | .insertRange vs => if multi = true then 7 * vs.length else vs.length * (2 * (n + vs.length) + 2)
  | .assignList vs => if multi = true then 7 * vs.length else vs.length * (2 * vs.length + 2)
  | .eraseAt _ => 1
  | .eraseRange k l => min (l - k) (n - l)
  | .eraseKey _ | .eraseEqual _ => 2 * n + 1
  | .eraseIf _ => n
  | .clear | .reserve _ => 0
  | .shrinkToFit => n + 1

section
variable {K : Kind α} {reserve : Nat → VM α Unit} {shrink : VM α Unit}

theorem Ends.ofStays {β : Type} {m : VM α β} {S B W : Nat} (h : Stays m S B W v t) : Ends m B W v t :=
  vcost.mono h (fun _ _ _ h => ⟨h.1.fit, h.2⟩) fun _ _ h => ⟨h.1.fit, h.2⟩

theorem Stays.guard {β : Type} (hK : K.Costs N) {f : Unit → VM α β} {S B W : Nat} (h : Stays (f ()) S B W v t) :
    Stays (K.guard >>= f) S B W v t :=
  vcost.bind (vcost.mono hK.guard (fun _ v1 t1 hq => by obtain ⟨rfl, rfl⟩ := hq; exact h) fun _ _ hq => hq.elim)

theorem Stays.hint {β : Type} {f : Unit → VM α β} {S B W i : Nat} (h : Stays (f ()) S B W v t) :
    Stays (checkHint i >>= f) S B W v t :=
  vcost.bind (.bind (.bind (.getObj (.pure (.bind (.getObj (.assert fun _ => h)))))))

theorem Stays.posOf {m : VM α (Ptr × Bool)} {S B W : Nat} (h : Stays m S B W v t) : Stays (m >>= fun p => Flat.posOf p.1) S B W v t := by
  unfold Flat.posOf
  exact vcost.bind (vcost.mono h (fun _ _ _ h => .bind (.getObj (.bind (.distance fun _ _ => .pure h)))) fun _ _ h => h)

theorem growth_eq (n r : Nat) : growth n r = if n + 1 ≤ n + r then 0 else n + 1 := by
  unfold growth
  by_cases h : 0 < r
  · rw [if_pos h, if_pos (by omega)]
  · rw [if_neg h, if_neg (by omega)]

/-- What every modifier does to the data members and the counter. -/
theorem exec_ends (hK : K.Costs N) (h : Dim v n r) (op : Op α κ)
    (hres : ∀ m, Stays (reserve m) n (max N (max (n + r) m)) (t + if m ≤ n + r then 0 else n + 1) v t)
    (hshr : Stays shrink n (max N (n + r)) (t + n + 1) v t) :
    Ends (exec K U E reserve shrink op) (max N (max (n + r) (op.room n + op.room n / 2)))
      (t + op.work K.multi n + if op.room n ≤ n + r then 0 else n + 1) v t := by
  have hg := @grown_le n r N
  generalize hR : op.room n = R
  generalize hW : op.work K.multi n = W
  cases op <;> simp only [Op.room, Op.work] at hR hW <;> subst hR hW
  case insert s =>
    rw [← growth_eq]
    exact Ends.ofStays (.argOf fun a => Stays.guard hK (Flat.Stays.insOf (Flat.Stays.mono (insertAux_stays hK h) (Nat.le_refl _) (by omega) (by omega))))
  case insertHint i s =>
    rw [← growth_eq]
    exact Ends.ofStays (.argOf fun a => Stays.guard hK (Stays.hint (Stays.posOf (Flat.Stays.mono (insertAux_stays hK h) (Nat.le_refl _) (by omega) (by omega)))))
  case emplace x =>
    rw [← growth_eq]
    exact Ends.ofStays (Stays.guard hK (Flat.Stays.insOf (Flat.Stays.mono (emplace_stays hK h) (Nat.le_refl _) (by omega) (by omega))))
  case emplaceHint i x =>
    rw [← growth_eq]
    exact Ends.ofStays (Stays.guard hK (Stays.hint (Stays.posOf (Flat.Stays.mono (emplace_stays hK h) (Nat.le_refl _) (by omega) (by omega)))))
  case tryEmplace x =>
    rw [← growth_eq]
    exact Ends.ofStays (Stays.guard hK (Flat.Stays.insOf (Flat.Stays.mono (tryEmplaceAux_stays hK h) (Nat.le_refl _) (by omega) (by omega))))
  case tryEmplaceHint i x =>
    rw [← growth_eq]
    exact Ends.ofStays (Stays.guard hK (Stays.hint (Stays.posOf (Flat.Stays.mono (tryEmplaceAux_stays hK h) (Nat.le_refl _) (by omega) (by omega)))))
  case insertOrAssign x =>
    rw [← growth_eq]
    exact Ends.ofStays (Stays.guard hK (Flat.Stays.insOf (Flat.Stays.mono (insertOrAssignAux_stays hK h) (Nat.le_refl _) (by omega) (by omega))))
  case insertOrAssignHint i x =>
    rw [← growth_eq]
    exact Ends.ofStays (Stays.guard hK (Stays.hint (Stays.posOf (Flat.Stays.mono (insertOrAssignAux_stays hK h) (Nat.le_refl _) (by omega) (by omega)))))
  case insertRange vs =>
    refine SmallVector.Ends.map ?_
    by_cases hm : K.multi = true
    · rw [if_pos hm]
      refine SmallVector.Ends.mono (hK.many hm κ U E vs h) (by omega) ?_
      split <;> split <;> omega
    · rw [if_neg hm]
      refine Ends.ofStays (Flat.Stays.mono (insertRange_stays hK vs h (S := n + vs.length) (B := max N (max (n + r) (n + vs.length + (n + vs.length) / 2)))
        (by omega) (by omega) (by omega)) (Nat.le_refl _) (by omega) (by omega))
  case assignList vs =>
    refine SmallVector.Ends.map ?_
    unfold assignList
    refine vcost.bind (vcost.mono (Flat.clear_dim h) (fun _ v1 t1 hq => ?_) fun _ _ hq => hq.elim)
    obtain ⟨h1, rfl⟩ := hq
    by_cases hm : K.multi = true
    · rw [if_pos hm]
      refine SmallVector.Ends.mono (hK.many hm κ U E vs h1) (by omega) ?_
      split <;> omega
    · rw [if_neg hm]
      refine Ends.ofStays (Flat.Stays.mono (insertRange_stays hK vs h1 (S := vs.length) (B := max N (max (n + r) (vs.length + vs.length / 2)))
        (by omega) (by omega) (by omega)) (Nat.le_refl _) (by omega) (by omega))
  case eraseAt k =>
    exact Ends.ofStays (.nth (Flat.Stays.posOf (Flat.Stays.mono (eraseAt_stays h) (Nat.le_refl _) (by omega) (by omega))))
  case eraseRange k l =>
    refine Ends.ofStays (.nth (.nth (Flat.Stays.posOf (Flat.Stays.mono (eraseRange_stays h) (Nat.le_refl _) (by omega) ?_))))
    simp only [Ptr.add_off]
    have e1 : v.first.off + l - (v.first.off + k) = l - k := by omega
    have e2 : v.first.off + l - v.first.off = l := by omega
    rw [e1, e2]
    omega
  case eraseKey k => exact Ends.ofStays (.map (Flat.Stays.mono (eraseKey_stays h) (Nat.le_refl _) (by omega) (by omega)))
  case eraseEqual k => exact Ends.ofStays (.nth (.map (Flat.Stays.mono (eraseKey_stays h) (Nat.le_refl _) (by omega) (by omega))))
  case eraseIf f => exact Ends.ofStays (.map (Flat.Stays.mono (eraseIf_stays h) (Nat.le_refl _) (by omega) (by omega)))
  case clear => exact Ends.ofStays (.map (Flat.Stays.mono (Flat.clear_stays h) (Nat.le_refl _) (by omega) (by omega)))
  case reserve m => exact Ends.ofStays (.map (Flat.Stays.mono (hres m) (Nat.le_refl _) (by omega) (by omega)))
  case shrinkToFit => exact Ends.ofStays (.map (Flat.Stays.mono hshr (Nat.le_refl _) (by omega) (by omega)))

/-- The small containers. -/
theorem smallExec_ends {multi isMap : Bool} (h : Dim v n r) (op : Op α κ) :
    Ends (exec (small multi isMap E ib N) U E (SmallVector.reserve E ib N) (SmallVector.shrinkToFit E ib N) op)
      (max N (max (n + r) (op.room n + op.room n / 2))) (t + op.work multi n + if op.room n ≤ n + r then 0 else n + 1) v t :=
  exec_ends (small_costs multi isMap E ib N) h op (fun _ => Flat.reserve_stays h) (Flat.shrinkToFit_stays h)

end

end Sfl.Unord
