import Verif.Unord
import Verif.FlatExec
import Verif.StaticSpec
/-
  Searching and erasing in the unordered flat containers.
-/

namespace Sfl.Unord
open Sfl.Vector (VM)
open Flat (Ret)
variable {α κ : Type} {E : Env α} {H : Heap α} {al ib N b cap : Nat} {o o1 o' : Obj Vec α} {xs : List α}
  {U : KeyEq α κ} {v : α} {k : Nat}

/-- What a search leaves behind if the equality throws. -/
def EqThrew (U : KeyEq α κ) (o : Obj Vec α) (e : Exn) (o' : Obj Vec α) : Prop :=
  U.nothrow = false ∧ e = .elem ∧ Looked o o'

theorem EqThrew.trans {e : Exn} (h : Looked o o1) (h' : EqThrew U o1 e o') : EqThrew U o e o' :=
  ⟨h'.1, h'.2.1, h.trans h'.2.2⟩

/-- What comparing an element with `q` means. -/
def Sought.Means (U : KeyEq α κ) (s : St α) (f : α → Bool) : Sought α → Prop
  | .pred g => g = f
  | .obj p => ∃ x, s.mem p.blk p.off = some x ∧ f = fun e => U.same e x

theorem Sought.Means.looked {f : α → Bool} {q : Sought α} (h : q.Means U o.m f) (l : Looked o o') : q.Means U o'.m f := by
  cases q with
  | pred g => exact h
  | obj p => obtain ⟨x, h1, h2⟩ := h; exact ⟨x, by rw [l.q.mem]; exact h1, h2⟩

theorem wp_eqAt {f : α → Bool} {q : Sought α} {p : Ptr} {x : α} {s : St α} {Q : Bool → St α → Prop}
    {X : Exn → St α → Prop} (hq : q.Means U s f) (hx : s.mem p.blk p.off = some x)
    (hQ : ∀ s', Quiet s s' → Q (f x) s') (hX : U.nothrow = false → ∀ s', Quiet s s' → X .elem s') :
    wp (eqAt U E q p) Q X s := by
  unfold eqAt
  rw [wp_bind]
  refine wp_readAt hx ?_
  cases q with
  | pred g =>
    obtain rfl : g = f := hq
    exact wp_comp (fun s' h _ => hQ s' h) hX
  | obj r =>
    obtain ⟨y, h1, rfl⟩ := hq
    show wp (do let k ← readAt r; comp E U.nothrow (U.same x k)) Q X s
    rw [wp_bind]
    exact wp_readAt h1 (wp_comp (fun s' h _ => hQ s' h) hX)

/-- `k` is the first position with an element satisfying `f` (the end if there is none). -/
structure First (f : α → Bool) (xs : List α) (k : Nat) : Prop where
  le : k ≤ xs.length
  before : ∀ x ∈ xs.take k, f x = false
  at' : ∀ x, xs[k]? = some x → f x = true

theorem First.none {f : α → Bool} (h : First f xs k) (hk : k = xs.length) : ∀ x ∈ xs, f x = false := by
  subst hk
  have := h.before
  rwa [List.take_length] at this

theorem findGo_spec {f : α → Bool} {q : Sought α} (n : Nat) : ∀ {o : Obj Vec α} {i : Nat},
    VSt H E ib N o al b cap xs → q.Means U o.m f → i + n = xs.length → (∀ x ∈ xs.take i, f x = false) →
    wp (findGo U E q n ⟨b, i⟩)
      (fun p o' => ∃ k, p = ⟨b, k⟩ ∧ Looked o o' ∧ First f xs k)
      (EqThrew U o) o := by
  induction n with
  | zero =>
    intro o i h hq hi hb
    exact ⟨i, rfl, .refl _, by omega, hb, fun x hx => by rw [List.getElem?_eq_none (by omega)] at hx; cases hx⟩
  | succ n ih =>
    intro o i h hq hi hb
    unfold findGo
    rw [wp_bind, wp_getObj, wp_ite, h.obj, if_neg (by simp; omega), wp_bind, wp_lift]
    have hx : xs[i]? = some xs[i] := by simp
    refine wp_eqAt hq (x := xs[i]) (by simp only; rw [h.cells, hx]) ?_ ?_
    · intro s' hs'
      have l : Looked o ⟨o.obj, s'⟩ := ⟨rfl, hs'⟩
      rw [wp_ite]
      by_cases hf : f xs[i] = true
      · rw [if_pos hf]
        exact ⟨i, rfl, l, by omega, hb, fun x hx' => by rw [hx] at hx'; cases hx'; exact hf⟩
      · rw [if_neg hf]
        have e : (⟨b, i⟩ : Ptr).add 1 = ⟨b, i + 1⟩ := rfl
        rw [e]
        refine wp_mono (ih (h.looked l) (hq.looked l) (by omega) ?_) ?_ ?_
        · intro x hx'
          rw [List.take_add_one, hx] at hx'
          simp only [Option.toList_some, List.mem_append, List.mem_singleton] at hx'
          rcases hx' with hx' | rfl
          · exact hb x hx'
          · simpa using hf
        · rintro p o2 ⟨k, rfl, l2, hk⟩
          exact ⟨k, rfl, l.trans l2, hk⟩
        · exact fun e o2 ht => ht.trans l
    · intro hn s' hs'
      exact ⟨hn, rfl, rfl, hs'⟩

theorem find_spec {f : α → Bool} {q : Sought α} (h : VSt H E ib N o al b cap xs) (hq : q.Means U o.m f) :
    wp (find U E q)
      (fun p o' => ∃ k, p = ⟨b, k⟩ ∧ Looked o o' ∧ First f xs k)
      (EqThrew U o) o := by
  unfold find
  rw [wp_bind]
  refine wp_size h.obj ?_
  rw [wp_bind, wp_getObj, h.obj]
  exact findGo_spec xs.length h hq (by omega) (by simp)

theorem countGo_spec {f : α → Bool} {q : Sought α} (n : Nat) : ∀ {o : Obj Vec α} {i c : Nat},
    VSt H E ib N o al b cap xs → q.Means U o.m f → i + n = xs.length →
    wp (countGo U E q n ⟨b, i⟩ c)
      (fun r o' => Looked o o' ∧ r = c + (xs.drop i).countP f)
      (EqThrew U o) o := by
  induction n with
  | zero =>
    intro o i c h hq hi
    exact ⟨.refl _, by rw [List.drop_of_length_le (by omega)]; simp⟩
  | succ n ih =>
    intro o i c h hq hi
    unfold countGo
    rw [wp_bind, wp_getObj, wp_ite, h.obj, if_neg (by simp; omega), wp_bind, wp_lift]
    have hx : xs[i]? = some xs[i] := by simp
    refine wp_eqAt hq (x := xs[i]) (by simp only; rw [h.cells, hx]) ?_ ?_
    · intro s' hs'
      have l : Looked o ⟨o.obj, s'⟩ := ⟨rfl, hs'⟩
      have e : (⟨b, i⟩ : Ptr).add 1 = ⟨b, i + 1⟩ := rfl
      rw [wp_ite, e, List.drop_eq_getElem_cons (show i < xs.length by omega), List.countP_cons]
      by_cases hf : f xs[i] = true
      · rw [if_pos hf, if_pos hf]
        refine wp_mono (ih (h.looked l) (hq.looked l) (by omega)) ?_ (fun e o2 ht => ht.trans l)
        rintro r o2 ⟨l2, hr⟩
        exact ⟨l.trans l2, by omega⟩
      · rw [if_neg hf, if_neg hf]
        refine wp_mono (ih (h.looked l) (hq.looked l) (by omega)) ?_ (fun e o2 ht => ht.trans l)
        rintro r o2 ⟨l2, hr⟩
        exact ⟨l.trans l2, by omega⟩
    · intro hn s' hs'
      exact ⟨hn, rfl, rfl, hs'⟩

theorem countMulti_spec {f : α → Bool} {q : Sought α} (h : VSt H E ib N o al b cap xs) (hq : q.Means U o.m f) :
    wp (countMulti U E q) (fun r o' => Looked o o' ∧ r = xs.countP f) (EqThrew U o) o := by
  unfold countMulti
  rw [wp_bind]
  refine wp_size h.obj ?_
  rw [wp_bind, wp_getObj, h.obj]
  refine wp_mono (countGo_spec xs.length h hq (by omega)) ?_ (fun _ _ h => h)
  rintro r o1 ⟨l, hr⟩
  exact ⟨l, by simpa using hr⟩

theorem contains_spec {f : α → Bool} {q : Sought α} (h : VSt H E ib N o al b cap xs) (hq : q.Means U o.m f) :
    wp (contains U E q) (fun r o' => Looked o o' ∧ r = xs.any f) (EqThrew U o) o := by
  unfold contains
  rw [wp_bind]
  refine wp_mono (find_spec h hq) ?_ (fun _ _ h => h)
  rintro p o1 ⟨k, rfl, l, hk⟩
  rw [wp_bind, wp_getObj, (h.looked l).obj, wp_pure]
  refine ⟨l, ?_⟩
  have hle := hk.le
  rw [Bool.eq_iff_iff, decide_eq_true_eq, List.any_eq_true]
  constructor
  · intro hne
    have hlt : k < xs.length := by
      have : k ≠ xs.length := fun e => hne (by rw [e])
      omega
    exact ⟨xs[k], by simp, hk.at' _ (by simp)⟩
  · rintro ⟨x, hx, hf⟩ he
    have := hk.none (by simpa using he) x hx
    rw [hf] at this; cases this

/-! ### Erasing -/

theorem removed_last {xs : List α} {x : α} : Removed (xs ++ [x]) xs.length (xs.length + 1) xs := by
  refine ⟨by simp, ?_⟩
  rw [List.drop_of_length_le (by simp)]; simp

theorem removed_hole {as bs : List α} {x y : α} :
    Removed (as ++ x :: (bs ++ [y])) as.length (as.length + 1) (as ++ y :: bs) := by
  refine ⟨by simp, ?_⟩
  have e : as ++ x :: (bs ++ [y]) = (as ++ [x]) ++ (bs ++ [y]) := by simp
  rw [e, List.drop_append_of_le_length (l₁ := as ++ [x]) (by simp), List.drop_of_length_le (l := as ++ [x]) (by simp)]
  simp only [List.drop_left, List.nil_append]
  exact (List.perm_append_singleton y bs).symm

/-- A list cut at position `k` that is not the last. -/
theorem split_hole (hk : k + 1 < xs.length) : ∃ as bs x y, xs = as ++ x :: (bs ++ [y]) ∧ as.length = k := by
  have h1 : xs = xs.take k ++ xs.drop k := (List.take_append_drop k xs).symm
  rw [List.drop_eq_getElem_cons (by omega)] at h1
  have hne : xs.drop (k + 1) ≠ [] := by intro e; have := congrArg List.length e; simp at this; omega
  refine ⟨xs.take k, (xs.drop (k + 1)).dropLast, xs[k], (xs.drop (k + 1)).getLast hne, ?_, by simp; omega⟩
  rw [List.dropLast_concat_getLast]
  exact h1

theorem eraseAt_spec (h : VSt H E ib N o al b cap xs) (hk : k < xs.length) :
    wp (eraseAt E ⟨b, k⟩)
      (fun p o' => ∃ ys, VSt H E ib N o' al b cap ys ∧ o'.m.next = o.m.next ∧ p = ⟨b, k⟩ ∧ Removed xs k (k + 1) ys)
      (fun e o' => ∃ xs', VSt H E ib N o' al b cap xs' ∧ xs'.length = xs.length ∧ o'.m.next = o.m.next ∧
        e = .elem ∧ E.nothrowMoveAssign = false)
      o := by
  have hlen := h.len
  unfold eraseAt
  simp only [wp_bind, wp_getObj, wp_lift, wp_setObj, wp_assert, wp_pure]
  rw [h.obj]
  refine ⟨⟨rfl, by simp, hk⟩, ?_⟩
  have hp : (⟨b, 0⟩ : Ptr).add (k - 0) = ⟨b, k⟩ := by simp [Ptr.add]
  have hl : (⟨b, xs.length⟩ : Ptr).sub 1 = ⟨b, xs.length - 1⟩ := by rw [Ptr.sub_of_le (by simp; omega)]
  simp only [hp, hl]
  unfold fillHole
  rw [wp_ite]
  have hc1 := h.cells
  by_cases hlt : k + 1 < xs.length
  · rw [if_pos (by simp; omega)]
    obtain ⟨as, bs, x, y, rfl, rfl⟩ := split_hole hlt
    have hn : (as ++ x :: (bs ++ [y])).length - 1 = as.length + bs.length + 1 := by simp; omega
    rw [hn]
    have hy : o.m.mem b (as.length + bs.length + 1) = some y := by
      rw [hc1, List.getElem?_append_right (by omega)]
      simp [show as.length + bs.length + 1 - as.length = bs.length + 1 by omega]
    refine assign_move (v := y) (q := ⟨b, as.length + bs.length + 1⟩) hy rfl (by simp [hc1]) ?_ ?_
    · intro s2 hs2 ht2 hm2
      have hst2 : Store H s2 al ib N b cap := h.st.upd hs2
        (fun i hi => by rw [hm2]; have := h.st.beyond i hi; simp only [List.length_append, List.length_cons, List.length_nil] at hlen; grind)
        (fun c hc i => by rw [hm2]; grind)
      refine wp_destroyAt (by rw [hm2, if_pos ⟨rfl, rfl⟩]; rfl) ?_
      intro s3 hs3 ht3 hm3
      refine ⟨as ++ y :: bs, VSt.mk' rfl (by simp; omega) rfl (hst2.upd hs3 ?_ ?_) (by simp at hlen ⊢; omega) ?_ h.capLe h.nLe,
        hs3.next.trans hs2.next, (by trivial), removed_hole⟩
      · intro i hi; rw [hm3]; have := hst2.beyond i hi; grind
      · intro c hc i; rw [hm3]; grind
      · intro i
        rw [hm3, hm2]
        simp only [true_and]
        by_cases e1 : i = as.length + bs.length + 1
        · rw [if_pos e1, List.getElem?_eq_none (by simp; omega)]
        · rw [if_neg e1, if_neg e1]
          by_cases e2 : i = as.length
          · rw [if_pos e2, e2]; simp
          · rw [if_neg e2, hc1, List.getElem?_append, List.getElem?_append]
            split
            · rfl
            · obtain ⟨j, hj⟩ : ∃ j, i - as.length = j + 1 := ⟨i - as.length - 1, by omega⟩
              rw [hj, List.getElem?_cons_succ, List.getElem?_cons_succ, List.getElem?_append]
              split
              · rfl
              · rw [List.getElem?_eq_none (by simp; omega), List.getElem?_eq_none (by omega)]
    · intro hna s2 w w' hs2 hm2
      obtain ⟨xs', k1, k2⟩ := h.ofLive (n := (as ++ x :: (bs ++ [y])).length) (l := (⟨b, (as ++ x :: (bs ++ [y])).length⟩ : Ptr)) rfl
        (h.st.upd hs2 (fun i hi => by
            rw [hm2]; have := h.st.beyond i hi; simp only [List.length_append, List.length_cons, List.length_nil] at hlen; grind)
          (fun c hc i => by rw [hm2]; grind)) hlen
        (fun i => by
          rw [hm2, hc1]
          simp only [true_and]
          split
          · simp; omega
          · split
            · simp; omega
            · simp)
      exact ⟨xs', k1, k2, hs2.next, (by trivial), hna⟩
  · rw [if_neg (by simp; omega), wp_pure]
    obtain ⟨ys, x, rfl⟩ : ∃ ys x, xs = ys ++ [x] := by
      rcases List.eq_nil_or_concat xs with rfl | ⟨ys, x, rfl⟩
      · simp at hk
      · exact ⟨ys, x, by simp⟩
    have hkl : k = ys.length := by simp at hk hlt; omega
    subst hkl
    have hn : (ys ++ [x]).length - 1 = ys.length := by simp
    rw [hn]
    refine wp_destroyAt (by simp [hc1]) ?_
    intro s3 hs3 ht3 hm3
    refine ⟨ys, VSt.mk' rfl rfl rfl (h.st.upd hs3 ?_ ?_) (by simp at hlen ⊢; omega) ?_ h.capLe h.nLe,
      hs3.next, (by trivial), removed_last⟩
    · intro i hi; rw [hm3]; have := h.st.beyond i hi; grind
    · intro c hc i; rw [hm3]; grind
    · intro i
      rw [hm3, hc1, List.getElem?_append]
      simp only [true_and]
      split
      · rename_i e; rw [e]; simp
      · split
        · rfl
        · rw [List.getElem?_eq_none (by simp; omega), List.getElem?_eq_none (by omega)]

theorem removed_tail {as bs cs ds : List α} :
    Removed (as ++ bs ++ cs ++ ds) as.length (as.length + bs.length) (as ++ ds ++ cs) := by
  constructor
  · simp
  · have e1 : (as ++ ds ++ cs).drop as.length = ds ++ cs := by simp
    have e2 : (as ++ bs ++ cs ++ ds).drop (as.length + bs.length) = cs ++ ds := by
      have : as ++ bs ++ cs ++ ds = (as ++ bs) ++ (cs ++ ds) := by simp
      rw [this, ← List.length_append, List.drop_left]
    rw [e1, e2]
    exact List.perm_append_comm

theorem eraseRange_spec {l : Nat} (h : VSt H E ib N o al b cap xs) (hkl : k ≤ l) (hl : l ≤ xs.length) :
    wp (eraseRange E ⟨b, k⟩ ⟨b, l⟩)
      (fun p o' => ∃ ys, VSt H E ib N o' al b cap ys ∧ o'.m.next = o.m.next ∧ p = ⟨b, k⟩ ∧ Removed xs k l ys)
      (fun e o' => ∃ xs', VSt H E ib N o' al b cap xs' ∧ xs'.length = xs.length ∧ o'.m.next = o.m.next ∧
        e = .elem ∧ E.nothrowMoveAssign = false)
      o := by
  have hlen := h.len
  by_cases hcnt : l - k ≥ xs.length - l ∨ k = l
  · -- the same as in a vector
    have e : eraseRange E ⟨b, k⟩ ⟨b, l⟩ o = Vector.eraseRange E ⟨b, k⟩ ⟨b, l⟩ o := by
      unfold eraseRange Vector.eraseRange
      refine bind_congr' fun v o1 hv => ?_
      obtain ⟨rfl, rfl⟩ := getObj_ok hv
      refine bind_congr' fun _ o2 hv => ?_
      have hobj := h.obj
      by_cases hk : k = l
      · subst hk; simp
      · have hne : ¬ ((⟨b, k⟩ : Ptr) = ⟨b, l⟩) := by simpa using hk
        have hp : ((⟨b, 0⟩ : Ptr).add (k - 0)).add (l - k) = (⟨b, 0⟩ : Ptr).add (l - 0) := by simp [Ptr.add]; omega
        simp only [hobj, if_neg hne, if_pos (hcnt.resolve_right hk), hp]
    refine wp_eq e (wp_mono (Sfl.eraseRange_spec h hkl hl) ?_ ?_)
    · rintro p o1 ⟨h1, h2, h3⟩
      refine ⟨_, h1, h2, h3, ?_, ?_⟩
      · rw [List.take_append_of_le_length (by simp; omega), List.take_take, Nat.min_self]
      · rw [List.drop_append, List.drop_of_length_le (by simp; omega)]
        simp [Nat.min_eq_left (show k ≤ xs.length by omega)]
    · rintro e o1 ⟨xs', h1, h2, h3, -, h4, h5⟩
      exact ⟨xs', h1, h2, h3, h4, h5⟩
  · have hlt : k < l := by omega
    have hc : ¬ (l - k ≥ xs.length - l) := fun h => hcnt (Or.inl h)
    unfold eraseRange
    simp only [wp_bind, wp_getObj, wp_lift, wp_setObj, wp_assert, wp_ite, wp_pure]
    rw [h.obj]
    refine ⟨⟨rfl, by simp, (by trivial), hkl, hl⟩, ?_⟩
    have hp : ∀ j, (⟨b, 0⟩ : Ptr).add (j - 0) = ⟨b, j⟩ := fun j => by simp [Ptr.add]
    have hp2 : (⟨b, k⟩ : Ptr).add (xs.length - l) = ⟨b, xs.length - (l - k)⟩ := by simp [Ptr.add]; omega
    dsimp only
    simp only [hp, hp2]
    rw [if_neg (by simp; omega), if_neg hc]
    -- xs = as ++ bs ++ cs ++ ds, bs and ds having the same length
    obtain ⟨as, bs, cs, ds, rfl, rfl, rfl, hd⟩ : ∃ as bs cs ds, xs = as ++ bs ++ cs ++ ds ∧ as.length = k ∧
        l = as.length + bs.length ∧ ds.length = bs.length := by
      refine ⟨xs.take k, (xs.take l).drop k, (xs.take (xs.length - (l - k))).drop l, xs.drop (xs.length - (l - k)), ?_, ?_, ?_, ?_⟩
      · have e1 : xs.take k = (xs.take l).take k := by rw [List.take_take]; congr 1; omega
        have e2 : xs.take l = (xs.take (xs.length - (l - k))).take l := by rw [List.take_take]; congr 1; omega
        rw [e1, List.take_append_drop]
        conv => rhs; rw [e2]
        rw [List.take_append_drop, List.take_append_drop]
      · simp; omega
      · simp; omega
      · simp; omega
    have hX : (as ++ bs ++ cs ++ ds).length = as.length + bs.length + cs.length + bs.length := by simp; omega
    have hm : (as ++ bs ++ cs ++ ds).length - (as.length + bs.length - as.length) = as.length + bs.length + cs.length := by omega
    rw [hm, hX]
    have hc1 := h.cells
    have hlive : ∀ i, i < as.length + bs.length + cs.length + bs.length → (o.m.mem b i).isSome := fun i hi => by
      rw [hc1]; simp; omega
    refine wp_moveFwd (n := bs.length) rfl (by simp) ?_ ?_ (Or.inr (Or.inl (by simp; omega))) ?_ ?_
    · intro i h1 h2; exact hlive i h2
    · intro i h1 h2; exact hlive i (by simp at h2; omega)
    · intro s2 hs2 ht2 hm2
      have hst2 : Store H s2 al ib N b cap := h.st.upd hs2
        (fun i hi => by
          rw [hm2, if_neg (by simp [Ptr.has]; omega), if_neg (by simp [Ptr.has]; omega)]
          exact h.st.beyond i hi)
        (fun c hc i => by rw [hm2, if_neg (by simp [Ptr.has]; omega), if_neg (by simp [Ptr.has]; omega)])
      refine wp_destroyRange rfl (by simp) ?_ ?_
      · intro i h1 h2
        simp only at h1 h2
        rw [hm2, if_neg (by simp [Ptr.has]; omega), if_pos (by simp [Ptr.has]; omega)]
        simp only [Option.isSome_map]
        exact hlive i h2
      · intro s3 hs3 ht3 hm3
        refine ⟨as ++ ds ++ cs, VSt.mk' rfl (by simp; omega) rfl (hst2.upd hs3 ?_ ?_) (by simp; omega) ?_ h.capLe h.nLe,
          hs3.next.trans hs2.next, (by trivial), removed_tail⟩
        · intro i hi; rw [hm3, if_neg (by simp [Ptr.has]; omega)]; exact hst2.beyond i hi
        · intro c hc i; rw [hm3, if_neg (by simp [Ptr.has]; omega)]
        · intro i
          rw [hm3]
          by_cases e1 : as.length + bs.length + cs.length ≤ i
          · rw [List.getElem?_eq_none (by simp; omega)]
            by_cases e2 : i < as.length + bs.length + cs.length + bs.length
            · rw [if_pos (by simp [Ptr.has]; omega)]
            · rw [if_neg (by simp [Ptr.has]; omega), hm2, if_neg (by simp [Ptr.has]; omega), if_neg (by simp [Ptr.has]; omega)]
              rw [hc1, List.getElem?_eq_none (by simp; omega)]
          · rw [if_neg (by simp [Ptr.has]; omega), hm2]
            by_cases e2 : i < as.length
            · rw [if_neg (by simp [Ptr.has]; omega), if_neg (by simp [Ptr.has]; omega), hc1]
              rw [List.append_assoc, List.append_assoc, List.append_assoc, List.getElem?_append_left e2, List.getElem?_append_left e2]
            · by_cases e3 : i < as.length + bs.length
              · rw [if_pos (by simp [Ptr.has]; omega)]
                simp only
                rw [hc1, List.getElem?_append_right (by simp; omega), List.append_assoc as ds cs, List.getElem?_append_right (by omega),
                  List.getElem?_append_left (by omega)]
                congr 1; simp; omega
              · rw [if_neg (by simp [Ptr.has]; omega), if_neg (by simp [Ptr.has]; omega), hc1]
                rw [List.getElem?_append_left (by simp; omega), List.getElem?_append_right (by simp; omega),
                  List.getElem?_append_right (by simp; omega)]
                congr 1; simp; omega
    · intro hna s2 hs2 hm2
      obtain ⟨xs', k1, k2⟩ := h.ofLive (n := as.length + bs.length + cs.length + bs.length)
        (l := (⟨b, as.length + bs.length + cs.length + bs.length⟩ : Ptr)) rfl
        (h.st.upd hs2 (fun i hi => by
            have h1 := hm2 b i
            rw [if_neg (by simp [Ptr.has]; omega)] at h1
            rw [h1]; exact h.st.beyond i hi)
          (fun c hc i => by
            have h1 := hm2 c i
            rw [if_neg (by simp [Ptr.has]; omega)] at h1
            exact h1)) (by omega)
        (fun i => by
          have h1 := hm2 b i
          split at h1
          · rename_i hh
            simp [Ptr.has] at hh
            simp only [h1, true_iff]; omega
          · rw [h1, hc1]; simp; omega)
      exact ⟨xs', k1, k2, hs2.next, (by trivial), hna⟩

/-- What an erasing operation that threw leaves behind. -/
structure EraseFail (H : Heap α) (E : Env α) (ib N al b cap : Nat) (nt : Bool) (xs : List α) (e : Exn)
    (o o' : Obj Vec α) (xs' : List α) : Prop where
  v : VSt H E ib N o' al b cap xs'
  next : o'.m.next = o.m.next
  elem : e = .elem
  why : (nt = false ∧ ∃ zs, zs.Sublist xs ∧ xs'.Perm zs) ∨ E.nothrowMoveAssign = false

theorem EraseFail.ofEq {e : Exn} (h : VSt H E ib N o al b cap xs) (hc : EqThrew U o e o') :
    ∃ xs', EraseFail H E ib N al b cap U.nothrow xs e o o' xs' := by
  obtain ⟨hn, rfl, l⟩ := hc
  exact ⟨xs, h.looked l, l.q.next, rfl, Or.inl ⟨hn, xs, .refl _, .refl _⟩⟩

/-- The test of an erasing loop: it decides `f` on the element it is given and changes nothing. -/
def Tests (H : Heap α) (E : Env α) (ib N al b cap : Nat) (nt : Bool) (test : Ptr → M (St α) Bool) (f : α → Bool) : Prop :=
  ∀ {o : Obj Vec α} {xs : List α} {i : Nat} {x : α}, VSt H E ib N o al b cap xs → xs[i]? = some x →
    wp (lift (test ⟨b, i⟩) : VM α Bool) (fun r o' => r = f x ∧ Looked o o')
      (fun e o' => nt = false ∧ e = .elem ∧ Looked o o') o

theorem eraseGo_spec {nt : Bool} {test : Ptr → M (St α) Bool} {f : α → Bool} (ht : Tests H E ib N al b cap nt test f)
    (n : Nat) : ∀ {o : Obj Vec α} {xs : List α} {i c : Nat}, VSt H E ib N o al b cap xs → i + n = xs.length →
    wp (eraseGo E test n ⟨b, i⟩ c)
      (fun r o' => ∃ ys, VSt H E ib N o' al b cap ys ∧ o'.m.next = o.m.next ∧ r = c + (xs.drop i).countP f ∧
        ys.take i = xs.take i ∧ (ys.drop i).Perm ((xs.drop i).filter (fun x => !f x)))
      (fun e o' => ∃ xs', EraseFail H E ib N al b cap nt xs e o o' xs') o := by
  induction n with
  | zero =>
    intro o xs i c h hi
    exact ⟨xs, h, rfl, by rw [List.drop_of_length_le (by omega)]; simp, rfl, by rw [List.drop_of_length_le (by omega)]; simp⟩
  | succ n ih =>
    intro o xs i c h hi
    unfold eraseGo
    rw [wp_bind, wp_getObj, wp_ite, h.obj, if_neg (by simp; omega), wp_bind]
    have hlt : i < xs.length := by omega
    have hx : xs[i]? = some xs[i] := by simp
    have hdrop : xs.drop i = xs[i] :: xs.drop (i + 1) := List.drop_eq_getElem_cons hlt
    refine wp_mono (ht h hx) ?_ ?_
    · rintro r o1 ⟨rfl, l⟩
      rw [wp_ite]
      by_cases hf : f xs[i] = true
      · rw [if_pos hf, wp_bind]
        refine wp_mono (eraseAt_spec (h.looked l) hlt) ?_ ?_
        · rintro p o2 ⟨ys, h2, hn2, rfl, hr⟩
          have hyl : ys.length = xs.length - 1 := by
            have := hr.perm.length_eq
            simp at this; omega
          refine wp_mono (ih h2 (by omega)) ?_ ?_
          · rintro r o3 ⟨zs, h3, hn3, hc, ht3, hp3⟩
            refine ⟨zs, h3, hn3.trans (hn2.trans l.q.next), ?_, ht3.trans hr.1, ?_⟩
            · rw [hc, hr.2.countP_eq, hdrop, List.countP_cons, if_pos hf]; omega
            · rw [hdrop, List.filter_cons, if_neg (by simp [hf])]
              exact hp3.trans (hr.2.filter _)
          · rintro e o3 ⟨xs', hf3⟩
            refine ⟨xs', hf3.v, hf3.next.trans (hn2.trans l.q.next), hf3.elem, hf3.why.imp ?_ id⟩
            rintro ⟨hnt, zs, hs, hp⟩
            obtain ⟨ws, hw1, hw2⟩ := List.exists_perm_sublist hs hr.perm
            exact ⟨hnt, ws, hw2.trans (cut_sublist (by omega)), hp.trans hw1.symm⟩
        · rintro e o2 ⟨xs', h2, -, hn2, rfl, hna⟩
          exact ⟨xs', h2, hn2.trans l.q.next, rfl, Or.inr hna⟩
      · rw [if_neg hf]
        have e : (⟨b, i⟩ : Ptr).add 1 = ⟨b, i + 1⟩ := rfl
        rw [e]
        refine wp_mono (ih (h.looked l) (by omega)) ?_ ?_
        · rintro r o3 ⟨zs, h3, hn3, hc, ht3, hp3⟩
          have htk : zs.take i = xs.take i := by
            have := congrArg (List.take i) ht3
            rwa [List.take_take, List.take_take, Nat.min_eq_left (by omega)] at this
          have hzi : zs[i]? = some xs[i] := by
            have := congrArg (fun l : List α => l[i]?) ht3
            simp only [List.getElem?_take, if_pos (show i < i + 1 by omega)] at this
            rw [this, hx]
          obtain ⟨hzl, hze⟩ := List.getElem?_eq_some_iff.mp hzi
          refine ⟨zs, h3, hn3.trans l.q.next, ?_, htk, ?_⟩
          · rw [hc, hdrop, List.countP_cons, if_neg hf]; omega
          · rw [hdrop, List.filter_cons, if_pos (by simp [hf]), List.drop_eq_getElem_cons hzl, hze]
            exact hp3.cons _
        · rintro e o3 ⟨xs', hf3⟩
          exact ⟨xs', hf3.v, hf3.next.trans l.q.next, hf3.elem, hf3.why⟩
    · rintro e o1 ⟨hn, rfl, l⟩
      exact ⟨xs, h.looked l, l.q.next, rfl, Or.inl ⟨hn, xs, .refl _, .refl _⟩⟩

theorem tests_pred {f : α → Bool} : Tests H E ib N al b cap U.nothrow (eqAt U E (.pred f)) f := by
  intro o xs i x h hx
  rw [wp_lift]
  exact wp_eqAt (f := f) rfl (by rw [h.cells]; exact hx) (fun s' hs' => ⟨rfl, rfl, hs'⟩) (fun hn s' hs' => ⟨hn, rfl, rfl, hs'⟩)

theorem tests_if {f : α → Bool} : Tests H E ib N al b cap true (testIf f) f := by
  intro o xs i x h hx
  rw [wp_lift]
  unfold testIf
  rw [wp_bind]
  exact wp_readAt (v := x) (by rw [h.cells]; exact hx) ⟨rfl, .refl _⟩

theorem eraseKeyMulti_spec {f : α → Bool} (h : VSt H E ib N o al b cap xs) :
    wp (eraseKeyMulti U E (.pred f))
      (fun n o' => ∃ ys, VSt H E ib N o' al b cap ys ∧ o'.m.next = o.m.next ∧ n = xs.countP f ∧
        ys.Perm (xs.filter (fun x => !f x)))
      (fun e o' => ∃ xs', EraseFail H E ib N al b cap U.nothrow xs e o o' xs') o := by
  unfold eraseKeyMulti
  rw [wp_bind]
  refine wp_size h.obj ?_
  rw [wp_bind, wp_getObj, h.obj]
  refine wp_mono (eraseGo_spec tests_pred xs.length h (by omega)) ?_ (fun _ _ h => h)
  rintro r o1 ⟨ys, h1, h2, h3, -, h5⟩
  exact ⟨ys, h1, h2, by simpa using h3, by simpa using h5⟩

theorem eraseIf_spec {f : α → Bool} (h : VSt H E ib N o al b cap xs) :
    wp (eraseIf E f)
      (fun n o' => ∃ ys, VSt H E ib N o' al b cap ys ∧ o'.m.next = o.m.next ∧ n = xs.countP f ∧
        ys.Perm (xs.filter (fun x => !f x)))
      (fun e o' => ∃ xs', EraseFail H E ib N al b cap true xs e o o' xs') o := by
  unfold eraseIf
  rw [wp_bind]
  refine wp_size h.obj ?_
  rw [wp_bind, wp_getObj, wp_bind, h.obj]
  refine wp_mono (eraseGo_spec tests_if xs.length h (by omega)) ?_ (fun _ _ h => h)
  rintro r o1 ⟨ys, h1, h2, h3, -, h5⟩
  rw [wp_bind]
  refine wp_size h1.obj ?_
  rw [wp_pure]
  simp only [List.drop_zero] at h5
  refine ⟨ys, h1, h2, ?_, h5⟩
  rw [h5.length_eq]
  have e1 := List.length_eq_countP_add_countP f (l := xs)
  have e2 : (xs.filter (fun x => !f x)).length = xs.countP (fun x => !f x) := (List.countP_eq_length_filter).symm
  simp only [decide_not, Bool.decide_eq_true] at e1
  omega

/-- If at most one element satisfies `f`, removing the first one removes all. -/
theorem removed_unique {f : α → Bool} {ys : List α} (hk : First f xs k) (hlt : k < xs.length) (h1 : xs.countP f ≤ 1)
    (hr : Removed xs k (k + 1) ys) : 1 = xs.countP f ∧ ys.Perm (xs.filter (fun x => !f x)) := by
  have hfx : f xs[k] = true := hk.at' _ (by simp)
  have hs : xs = xs.take k ++ xs[k] :: xs.drop (k + 1) := by
    rw [← List.drop_eq_getElem_cons hlt, List.take_append_drop]
  have hc : xs.countP f = (xs.take k).countP f + (1 + (xs.drop (k + 1)).countP f) := by
    conv => lhs; rw [hs]
    rw [List.countP_append, List.countP_cons, if_pos hfx]; omega
  have hc0 : (xs.drop (k + 1)).countP f = 0 := by omega
  refine ⟨by omega, hr.perm.trans ?_⟩
  have e : xs.filter (fun x => !f x) = xs.take k ++ xs.drop (k + 1) := by
    conv => lhs; rw [hs]
    rw [List.filter_append, List.filter_cons, if_neg (by simp [hfx])]
    congr 1
    · rw [List.filter_eq_self]; intro x hx; simp [hk.before x hx]
    · rw [List.filter_eq_self]; intro x hx; rw [List.countP_eq_zero] at hc0; simpa using hc0 x hx
  rw [e]

theorem eraseKeyUnique_spec {f : α → Bool} {q : Sought α} (h : VSt H E ib N o al b cap xs) (hq : q.Means U o.m f) :
    wp (eraseKeyUnique U E q)
      (fun n o' => ∃ ys, VSt H E ib N o' al b cap ys ∧ o'.m.next = o.m.next ∧
        (xs.countP f ≤ 1 → n = xs.countP f ∧ ys.Perm (xs.filter (fun x => !f x))))
      (fun e o' => ∃ xs', EraseFail H E ib N al b cap U.nothrow xs e o o' xs') o := by
  unfold eraseKeyUnique
  rw [wp_bind]
  refine wp_mono (find_spec h hq) ?_ (fun e o' hc => EraseFail.ofEq h hc)
  rintro p o1 ⟨k, rfl, l, hk⟩
  have hle := hk.le
  rw [wp_bind, wp_getObj, wp_ite, (h.looked l).obj]
  by_cases he : k = xs.length
  · rw [if_pos (by simpa using he), wp_pure]
    refine ⟨xs, h.looked l, l.q.next, fun _ => ?_⟩
    have hn := hk.none he
    constructor
    · exact (List.countP_eq_zero.mpr (fun x hx => by simp [hn x hx])).symm
    · rw [List.filter_eq_self.mpr (fun x hx => by simp [hn x hx])]
  · rw [if_neg (by simpa using he), wp_bind]
    have hlt : k < xs.length := by omega
    refine wp_mono (eraseAt_spec (h.looked l) hlt) ?_ ?_
    · rintro p o2 ⟨ys, h2, hn2, rfl, hr⟩
      exact ⟨ys, h2, hn2.trans l.q.next, fun h1 => removed_unique hk hlt h1 hr⟩
    · rintro e o2 ⟨xs', h2, -, hn2, rfl, hna⟩
      exact ⟨xs', h2, hn2.trans l.q.next, rfl, Or.inr hna⟩

end Sfl.Unord
