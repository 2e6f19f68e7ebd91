import Verif.SVSpec4
/-
  std::remove_if and the non-member functions erase / erase_if of the contiguous containers.
-/

namespace Sfl
open Sfl.Vector (VM)
variable {α : Type}

/-- Loop of std::find_if over the `n` elements from `p` (called by std::remove and std::remove_if). -/
def findIf (f : α → Bool) (p : Ptr) : Nat → M (St α) Ptr
  | 0 => pure p
  | n + 1 => do
    let v ← readAt p
    if f v = true then pure p else findIf f (p.add 1) n

/-- Second loop of std::remove_if: `d` is where the next kept element goes, `n` elements from `q` are left. -/
def removeGo (E : Env α) (f : α → Bool) : Nat → Ptr → Ptr → M (St α) Ptr
  | 0, d, _ => pure d
  | n + 1, d, q => do
    let v ← readAt q
    if f v = true then removeGo E f n d (q.add 1)
    else do
      assign E d (.mv q)
      removeGo E f n (d.add 1) (q.add 1)

/-- std::remove_if(first, last, f); std::remove(first, last, value) with `f x := x == value`, `value` not being an
element of the range (called at vector.hpp:2063, 2073, small_vector.hpp:2521, 2531,
static_vector.hpp:1101, 1111). -/
def removeIf (E : Env α) (f : α → Bool) (first last : Ptr) : M (St α) Ptr := do
  let n ← distance first last
  let p ← findIf f first n
  if p = last then pure p
  else do
    let k ← distance (p.add 1) last
    removeGo E f k p (p.add 1)

/-- vector.hpp:2058-2078, small_vector.hpp:2514-2536 and static_vector.hpp:1097-1116, non-member `erase(c, value)` and `erase_if(c, pred)`. The
predicate (or comparison) itself does not throw and has no side effects. -/
def Vector.eraseIf (E : Env α) (f : α → Bool) : VM α Nat := do
  let v ← getObj
  let it ← lift (removeIf E f v.first v.last)
  let v ← getObj
  let r ← distance it v.last
  let _ ← Vector.eraseRange E it v.last
  pure r

variable {E : Env α} {H : Heap α} {al ib N b cap : Nat} {X : Exn → St α → Prop}

theorem wp_findIf {f : α → Bool} {ys : List α} {p : Ptr} {s : St α} {Q : Ptr → St α → Prop}
    (hc : ∀ i, i < ys.length → s.mem p.blk (p.off + i) = ys[i]?)
    (hQ : ∀ k, k ≤ ys.length → (∀ x ∈ ys.take k, f x = false) → (∀ x, ys[k]? = some x → f x = true) → Q (p.add k) s) :
    wp (findIf f p ys.length) Q X s := by
  induction ys generalizing p with
  | nil => exact hQ 0 (by simp) (by simp) (by simp)
  | cons y ys ih =>
    simp only [List.length_cons]
    unfold findIf
    rw [wp_bind]
    have h0 := hc 0 (by simp)
    simp only [Nat.add_zero, List.getElem?_cons_zero] at h0
    refine wp_readAt h0 ?_
    rw [wp_ite]
    split
    · rename_i hf
      rw [wp_pure]
      exact hQ 0 (by simp) (by simp) (by simpa using hf)
    · rename_i hf
      refine ih ?_ ?_
      · intro i hi
        have := hc (i + 1) (by simpa using hi)
        simp only [List.getElem?_cons_succ] at this
        rw [← this]
        simp only [Ptr.add_blk, Ptr.add_off]
        congr 1; omega
      · intro k hk h1 h2
        have e : (p.add 1).add k = p.add (k + 1) := by simp [Ptr.add]; omega
        rw [e]
        refine hQ (k + 1) (by simpa using hk) ?_ (by simpa using h2)
        intro x hx
        simp only [List.take_succ_cons, List.mem_cons] at hx
        rcases hx with rfl | hx
        · simpa using hf
        · exact h1 x hx

/-- From `s` to `s'` only the cells `lo … hi-1` of block `c` have changed, and they are live. -/
structure Within (s s' : St α) (c lo hi : Nat) : Prop where
  same : Same s s'
  live : ∀ i, lo ≤ i → i < hi → (s'.mem c i).isSome
  rest : ∀ c' i, (c' = c → lo ≤ i → hi ≤ i) → s'.mem c' i = s.mem c' i

theorem wp_removeGo {f : α → Bool} {ys : List α} {d q : Ptr} {s : St α} {Q : Ptr → St α → Prop}
    (hb : d.blk = q.blk) (hd : d.off < q.off)
    (hc : ∀ i, i < ys.length → s.mem q.blk (q.off + i) = ys[i]?)
    (hl : ∀ i, d.off ≤ i → i < q.off → (s.mem q.blk i).isSome)
    (hQ : ∀ s', Within s s' q.blk d.off (q.off + ys.length) →
      (∀ i, i < (ys.filter (fun x => !f x)).length → s'.mem q.blk (d.off + i) = (ys.filter (fun x => !f x))[i]?) →
      Q (d.add (ys.filter (fun x => !f x)).length) s')
    (hX : E.nothrowMoveAssign = false → ∀ s', Within s s' q.blk d.off (q.off + ys.length) → X .elem s') :
    wp (removeGo E f ys.length d q) Q X s := by
  induction ys generalizing d q s with
  | nil =>
    exact hQ s ⟨Same.refl s, fun i h1 h2 => hl i h1 (by simpa using h2), fun _ _ _ => rfl⟩ (by simp)
  | cons y ys ih =>
    simp only [List.length_cons]
    unfold removeGo
    rw [wp_bind]
    have h0 := hc 0 (by simp)
    simp only [Nat.add_zero, List.getElem?_cons_zero] at h0
    have hcs : ∀ i, i < ys.length → s.mem q.blk (q.off + 1 + i) = ys[i]? := by
      intro i hi
      have := hc (i + 1) (by simpa using hi)
      simp only [List.getElem?_cons_succ] at this
      rw [← this]; congr 1; omega
    have hq : ((q.add 1).off + ys.length) = q.off + (y :: ys).length := by simp [Ptr.add]; omega
    refine wp_readAt h0 ?_
    rw [wp_ite]
    by_cases hf : f y = true
    · rw [if_pos hf]
      have ef : (y :: ys).filter (fun x => !f x) = ys.filter (fun x => !f x) := by simp [hf]
      rw [ef] at hQ
      refine ih (q := q.add 1) hb (by simp; omega) hcs ?_ ?_ ?_
      · intro i h1 h2
        simp only [Ptr.add_blk, Ptr.add_off] at h2 ⊢
        by_cases hi : i = q.off
        · rw [hi, h0]; rfl
        · exact hl i h1 (by omega)
      · intro s' hw h1
        rw [hq] at hw
        exact hQ s' hw h1
      · intro hE s' hw
        rw [hq] at hw
        exact hX hE s' hw
    · rw [if_neg hf]
      have ef : (y :: ys).filter (fun x => !f x) = y :: ys.filter (fun x => !f x) := by simp [hf]
      rw [ef] at hQ
      rw [wp_bind]
      refine assign_move (v := y) (q := q) h0 rfl (by rw [hb]; exact hl _ (by omega) hd) ?_ ?_
      · intro s1 hs1 ht1 hm1
        have hm2 : ∀ i, i ≠ q.off → i ≠ d.off → s1.mem q.blk i = s.mem q.blk i := fun i e1 e2 => by
          rw [hm1, if_neg (fun h => e1 h.2), if_neg (fun h => e2 h.2)]
        have hcomp : ∀ s', Within s1 s' (q.add 1).blk (d.add 1).off ((q.add 1).off + ys.length) →
            Within s s' q.blk d.off (q.off + (y :: ys).length) := by
          intro s' hw
          rw [hq] at hw
          refine ⟨hs1.trans hw.same, ?_, ?_⟩
          · intro i h1 h2
            by_cases hi : i = d.off
            · subst hi
              rw [hw.rest q.blk d.off (by intro _ h; simp at h; omega), hm1, if_neg (by omega), if_pos ⟨hb.symm, rfl⟩]
              rfl
            · exact hw.live i (by simp; omega) h2
          · intro c i h
            rw [hw.rest c i (fun e h' => h e (by simp at h'; omega)), hm1]
            rw [if_neg (fun h' => by have := h h'.1 (by omega); simp at this; omega),
              if_neg (fun h' => by have := h (h'.1.trans hb) (by omega); simp at this; omega)]
        refine ih (d := d.add 1) (q := q.add 1) hb (by simp; omega) ?_ ?_ ?_ ?_
        · intro i hi
          rw [← hcs i hi]
          exact hm2 _ (by simp [Ptr.add]; omega) (by simp [Ptr.add]; omega)
        · intro i h1 h2
          simp only [Ptr.add_blk, Ptr.add_off] at h1 h2 ⊢
          by_cases hi : i = q.off
          · rw [hm1, if_pos ⟨rfl, hi⟩]; rfl
          · rw [hm2 i hi (by omega)]
            exact hl i (by omega) (by omega)
        · intro s' hw h1
          have e : (d.add 1).add (ys.filter (fun x => !f x)).length = d.add (y :: ys.filter (fun x => !f x)).length := by
            simp [Ptr.add]; omega
          rw [e]
          refine hQ s' (hcomp s' hw) ?_
          intro i hi
          cases i with
          | zero =>
            have := hw.rest q.blk d.off (by intro _ h; simp at h; omega)
            rw [Nat.add_zero, this, hm1, if_neg (by omega), if_pos ⟨hb.symm, rfl⟩]
            rfl
          | succ i =>
            have := h1 i (by simpa using hi)
            simp only [Ptr.add_blk, Ptr.add_off] at this
            rw [List.getElem?_cons_succ, ← this]
            congr 1; omega
        · intro hE s' hw
          exact hX hE s' (hcomp s' hw)
      · intro hE s' w w' hs hm
        refine hX hE s' ⟨hs, ?_, ?_⟩
        · intro i h1 h2
          simp only [List.length_cons] at h2
          rw [hm]
          by_cases e1 : i = q.off
          · rw [if_pos ⟨rfl, e1⟩]; rfl
          · rw [if_neg (fun h => e1 h.2)]
            by_cases e2 : i = d.off
            · rw [if_pos ⟨hb.symm, e2⟩]; rfl
            · rw [if_neg (fun h => e2 h.2)]
              by_cases e3 : i < q.off
              · exact hl i h1 e3
              · have := hcs (i - q.off - 1) (by omega)
                rw [show q.off + 1 + (i - q.off - 1) = i by omega] at this
                rw [this]; simp; omega
        · intro c i h
          rw [hm]
          rw [if_neg (fun h' => by have := h h'.1 (by omega); simp at this; omega),
            if_neg (fun h' => by have := h (h'.1.trans hb) (by omega); simp at this; omega)]

/-- std::remove_if on the elements of a container. -/
theorem removeIf_spec {o : Obj Vec α} {xs : List α} {f : α → Bool} (h : VSt H E ib N o al b cap xs) :
    wp (lift (removeIf E f ⟨b, 0⟩ ⟨b, xs.length⟩) : VM α Ptr)
      (fun p o' => ∃ ys, VSt H E ib N o' al b cap ys ∧ ys.length = xs.length ∧ o'.m.next = o.m.next ∧
        p = ⟨b, (xs.filter (fun x => !f x)).length⟩ ∧
        ys.take (xs.filter (fun x => !f x)).length = xs.filter (fun x => !f x))
      (fun e o' => ∃ xs', VSt H E ib N o' al b cap xs' ∧ xs'.length = xs.length ∧ o'.m.next = o.m.next ∧
        e = .elem ∧ E.nothrowMoveAssign = false) o := by
  have hlen := h.len
  rw [wp_lift]
  unfold removeIf
  rw [wp_bind]
  refine wp_distance rfl (by simp) ?_
  rw [wp_bind]
  refine wp_findIf (ys := xs) (fun i hi => by simp [h.cells]) ?_
  intro k hk h1 h2
  rw [wp_ite]
  have hadd : (⟨b, 0⟩ : Ptr).add k = ⟨b, k⟩ := by simp [Ptr.add]
  rw [hadd]
  have hsame : ∀ m : St α, (⟨o.obj, m⟩ : Obj Vec α).obj = o.obj := fun _ => rfl
  by_cases hke : k = xs.length
  · subst hke
    rw [if_pos rfl, wp_pure]
    have hall : xs.filter (fun x => !f x) = xs := by
      rw [List.filter_eq_self]
      intro x hx
      rw [List.take_length] at h1
      simp [h1 x hx]
    exact ⟨xs, h, rfl, rfl, by rw [hall], by rw [hall]; simp⟩
  · rw [if_neg (by simpa using hke), wp_bind]
    have hklt : k < xs.length := by omega
    have hfx : f xs[k] = true := h2 _ (by simp [hklt])
    have hsplit : xs.filter (fun x => !f x) = xs.take k ++ (xs.drop (k + 1)).filter (fun x => !f x) := by
      conv => lhs; rw [← List.take_append_drop k xs, List.drop_eq_getElem_cons hklt]
      rw [List.filter_append, List.filter_cons]
      simp only [hfx, Bool.not_true, Bool.false_eq_true, if_false]
      congr 1
      rw [List.filter_eq_self]
      intro x hx
      simp [h1 x hx]
    refine wp_distance (by rfl) (by simp [Ptr.add]; omega) ?_
    have hn : (⟨b, xs.length⟩ : Ptr).off - ((⟨b, k⟩ : Ptr).add 1).off = (xs.drop (k + 1)).length := by simp [Ptr.add]
    rw [hn]
    have hdl : (xs.drop (k + 1)).length = xs.length - (k + 1) := by simp
    refine wp_removeGo (by rfl) (by simp [Ptr.add]) ?_ ?_ ?_ ?_
    · intro i hi
      simp only [Ptr.add_blk, Ptr.add_off]
      rw [h.cells, List.getElem?_drop]
    · intro i h3 h4
      simp only [Ptr.add_off, Ptr.add_blk] at h3 h4 ⊢
      rw [h.cells]; simp; omega
    · intro s' g2 g1
      simp only [Ptr.add_blk] at g1
      simp only [Ptr.add_blk, Ptr.add_off] at g2
      obtain ⟨ys, k1, k2⟩ := h.ofLive (n := xs.length) (l := (⟨b, xs.length⟩ : Ptr)) rfl
        (h.st.upd g2.same (fun i hi => by
            rw [g2.rest b i (fun _ _ => by omega)]; exact h.st.beyond i hi)
          (fun c hc i => g2.rest c i (fun e => absurd e hc))) (by omega)
        (fun i => by
          by_cases hi : k ≤ i ∧ i < xs.length
          · have := g2.live i hi.1 (by omega)
            simp [this, hi.2]
          · rw [g2.rest b i (fun _ _ => by omega), h.cells]; simp)
      have hobj : o.obj = ⟨⟨b, 0⟩, ⟨b, xs.length⟩, ⟨b, cap⟩, al⟩ := h.obj
      refine ⟨ys, ?_, k2, g2.same.next, ?_, ?_⟩
      · rw [hobj]; exact k1
      · rw [hsplit]; simp [Ptr.add]; omega
      · rw [hsplit]
        refine List.ext_getElem? fun i => ?_
        rw [List.getElem?_take]
        simp only [List.length_append, List.length_take, Nat.min_eq_left (Nat.le_of_lt hklt)]
        have hce : s'.mem b i = ys[i]? := k1.cells i
        by_cases hi : i < k + ((xs.drop (k + 1)).filter (fun x => !f x)).length
        · rw [if_pos hi, ← hce, List.getElem?_append]
          simp only [List.length_take, Nat.min_eq_left (Nat.le_of_lt hklt)]
          by_cases hik : i < k
          · rw [if_pos hik]
            rw [g2.rest b i (fun _ _ => by omega), h.cells, List.getElem?_take, if_pos hik]
          · rw [if_neg hik]
            have := g1 (i - k) (by omega)
            rw [show k + (i - k) = i by omega] at this
            exact this
        · rw [if_neg hi, List.getElem?_eq_none]
          simp only [List.length_append, List.length_take]; omega
    · intro hE s' g2
      simp only [Ptr.add_blk, Ptr.add_off] at g2
      obtain ⟨ys, k1, k2⟩ := h.ofLive (n := xs.length) (l := (⟨b, xs.length⟩ : Ptr)) rfl
        (h.st.upd g2.same (fun i hi => by
            rw [g2.rest b i (fun _ _ => by omega)]; exact h.st.beyond i hi)
          (fun c hc i => g2.rest c i (fun e => absurd e hc))) (by omega)
        (fun i => by
          by_cases hi : k ≤ i ∧ i < xs.length
          · have := g2.live i hi.1 (by omega)
            simp [this, hi.2]
          · rw [g2.rest b i (fun _ _ => by omega), h.cells]; simp)
      have hobj : o.obj = ⟨⟨b, 0⟩, ⟨b, xs.length⟩, ⟨b, cap⟩, al⟩ := h.obj
      exact ⟨ys, by rw [hobj]; exact k1, k2, g2.same.next, rfl, hE⟩

theorem eraseIf_spec {o : Obj Vec α} {xs : List α} {f : α → Bool} (h : VSt H E ib N o al b cap xs) :
    wp (Vector.eraseIf E f)
      (fun r o' => VSt H E ib N o' al b cap (xs.filter (fun x => !f x)) ∧ o'.m.next = o.m.next ∧
        r = xs.length - (xs.filter (fun x => !f x)).length)
      (fun e o' => ∃ xs', VSt H E ib N o' al b cap xs' ∧ xs'.length = xs.length ∧ o'.m.next = o.m.next ∧
        e = .elem ∧ E.nothrowMoveAssign = false)
      o := by
  have hlen := h.len
  unfold Vector.eraseIf
  rw [wp_bind, wp_getObj, wp_bind, h.obj]
  refine wp_mono (removeIf_spec h) ?_ (fun _ _ h => h)
  rintro p o1 ⟨ys, h1, h2, h3, rfl, h4⟩
  have hfl : (xs.filter (fun x => !f x)).length ≤ xs.length := List.length_filter_le _ _
  rw [wp_bind, wp_getObj, wp_bind, h1.obj]
  refine wp_distance rfl (by simp; omega) ?_
  rw [wp_bind]
  refine wp_mono (eraseRange_spec (k := (xs.filter (fun x => !f x)).length) (l := ys.length) h1 (by omega) (by omega)) ?_ ?_
  · rintro p o2 ⟨k1, k2, -⟩
    rw [wp_pure]
    rw [h4] at k1
    simp only [List.drop_length, List.append_nil] at k1
    exact ⟨k1, k2.trans h3, by simp [h2]⟩
  · rintro e o2 ⟨xs', k1, k2, k3, -, k4, k5⟩
    exact ⟨xs', k1, by omega, by omega, k4, k5⟩

end Sfl
