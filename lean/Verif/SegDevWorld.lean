import Verif.SegDevSpec7
import Verif.DeqSpec
import Verif.WorldVec
/-
  segmented_devector as a container type of the client programs of `World.lean`.
-/

set_option linter.unusedSimpArgs false
set_option linter.unusedSectionVars false

namespace Sfl
open World SegVec
variable {α : Type}

namespace SegDev

/-! ### Abstract meaning -/

/-- Which operations a client calls on a segmented devector of size `n`: the documented preconditions, without the
case in which `insert(pos, first, last)` computes an iterator before the storage: in the second half of the container at
most `n` elements are inserted. -/
def pre (n : Nat) : Dq.Op α → Bool
  | .insertRange k ys => decide (k ≤ n) && (decide (2 * k < n) || decide (ys.length ≤ n))
  | op => op.pre n

/-- Operations without effect if they throw, for all element types. -/
def strong : Dq.Op α → Bool
  | .pushFront _ => true
  | .pushBack _ => true
  | .reserveFront _ => true
  | .reserveBack _ => true
  | .shrinkToFit => true
  | .resizeFront _ => true
  | .resizeFrontV _ _ => true
  | .resizeBack _ => true
  | .resizeBackV _ _ => true
  | _ => false

/-- The size the operation gives the container, for operations that only throw length_error if it is too large. -/
def wanted : Dq.Op α → Option Nat
  | .resize n => some n
  | .resizeV n _ => some n
  | .assignN n _ => some n
  | .assignRange ys => some ys.length
  | _ => none

/-- The size a `resize` or `reserve` function gives the container. -/
def target : Dq.Op α → Option Nat
  | .resize n => some n
  | .resizeV n _ => some n
  | .resizeFront n => some n
  | .resizeFrontV n _ => some n
  | .resizeBack n => some n
  | .resizeBackV n _ => some n
  | .reserveFront n => some n
  | .reserveBack n => some n
  | _ => none

/-- What may remain after an operation of segmented_devector has thrown `e`. -/
structure Failure (E : Env α) (xs : List α) (op : Dq.Op α) (e : Exn) (xs' : List α) : Prop where
  can : op.nothrow = false
  grows : e = .lengthError → op.grows xs.length = true
  room : e = .lengthError → ∀ n, wanted op = some n → E.maxSize < n
  shrink : ∀ n, target op = some n → xs.length < n
  erase : op.erases = true → ¬ NothrowMove E ∧ xs'.length = xs.length
  strong : strong op = true → xs' = xs
  single : ∀ k s, op = .emplace k s → (NothrowMove E → xs' = xs) ∧ xs'.length ≤ xs.length + 1
  some : xs.length ≤ xs'.length
  resize : (∀ n, op = .resize n → ∃ k, xs' = xs ++ List.replicate k E.dflt) ∧
    (∀ n s, op = .resizeV n s → ∃ k v, s.get? xs = .some v ∧ xs' = xs ++ List.replicate k v)

/-- Abstract meaning of segmented_devector. Move assignment between unequal allocators moves the elements. An assignment
may fail before anything has changed: a temporary with storage of its own is constructed first. `swap` is only called with
equal allocators. -/
def sem (E : Env α) (T : Traits) : Sem (Dq.Op α) (Sq.Init α) α Nat where
  pre := pre
  okStep := Dq.okStep E
  failStep := Failure E
  init := fun i xs => xs = i.result E.dflt
  initFail := fun i e => e = .lengthError → E.maxSize < (i.result E.dflt).length
  left := fun eq xs ys => if eq = true then ys = [] else ys = xs.map E.moved
  moveFail := fun xs ys => ys.length = xs.length
  assignFail := fun _ => True
  swapFail := fun _ _ _ _ => False
  swapPre := fun a b => a == b
  T := T
  takes := false
  early := true

/-! ### Where elements are -/

/-- Elements `j, j + 1, …` of `xs` are, after the operation, the elements `i, i + 1, …` of `ys`, in the same places. -/
def Stays (xs ys : List α) (addr addr' : Nat → Ptr) (i j : Nat) : Prop :=
  ∀ k, j ≤ k → k < xs.length → k + i - j < ys.length → ys[k + i - j]? = xs[k]? ∧ addr' (k + i - j) = addr k

/-- Which elements stay in their places when an operation succeeds: all that an operation at one end leaves in the
container. -/
def okStays (xs ys : List α) (addr addr' : Nat → Ptr) : Dq.Op α → Prop
  | .pushFront _ => Stays xs ys addr addr' 1 0
  | .pushBack _ => Stays xs ys addr addr' 0 0
  | .popFront => Stays xs ys addr addr' 0 1
  | .popBack => Stays xs ys addr addr' 0 0
  | .reserveFront _ => Stays xs ys addr addr' 0 0
  | .reserveBack _ => Stays xs ys addr addr' 0 0
  | .shrinkToFit => Stays xs ys addr addr' 0 0
  | .resize n => ∃ i, i ≤ n - xs.length ∧ Stays xs ys addr addr' i 0 ∧ ∀ k, k < xs.length → k < n → k + i < ys.length
  | .resizeV n _ => ∃ i, i ≤ n - xs.length ∧ Stays xs ys addr addr' i 0 ∧ ∀ k, k < xs.length → k < n → k + i < ys.length
  | .resizeFront n => Stays xs ys addr addr' (n - xs.length) (xs.length - n)
  | .resizeFrontV n _ => Stays xs ys addr addr' (n - xs.length) (xs.length - n)
  | .resizeBack _ => Stays xs ys addr addr' 0 0
  | .resizeBackV _ _ => Stays xs ys addr addr' 0 0
  | _ => True

/-- Which elements stay in their places when an operation throws. -/
def failStays (xs ys : List α) (addr addr' : Nat → Ptr) : Dq.Op α → Prop
  | .resize _ => Stays xs ys addr addr' 0 0
  | .resizeV _ _ => Stays xs ys addr addr' 0 0
  | op => strong op = true → Stays xs ys addr addr' 0 0

section
variable {E : Env α} {H : Heap α} {N al tcap f : Nat} {V : View} {xs : List α} {o : Obj SDVec α}

theorem Stay.stays {V' : View} {f' i j n : Nat} {ys : List α} (h : Stay V f V' f' i j n)
    (hn : ∀ k, j ≤ k → k < xs.length → k + i - j < ys.length → k < n ∧ ys[k + i - j]? = xs[k]?) :
    Stays xs ys (fun k => V.addr (f + k)) (fun k => V'.addr (f' + k)) i j :=
  fun k h1 h2 h3 => ⟨(hn k h1 h2 h3).2, h k h1 (hn k h1 h2 h3).1⟩

theorem resized_stays {V' : View} {f' i j n : Nat} {v : α} (h1 : i + j = n - xs.length) (h : Stay V f V' f' i 0 (min n xs.length)) :
    ∃ i', i' ≤ n - xs.length ∧
      Stays xs (List.replicate i v ++ xs.take n ++ List.replicate j v) (fun k => V.addr (f + k)) (fun k => V'.addr (f' + k)) i' 0 ∧
      ∀ k, k < xs.length → k < n → k + i' < (List.replicate i v ++ xs.take n ++ List.replicate j v).length := by
  refine ⟨i, by omega, h.stays fun k _ h2 h3 => ?_, fun k h2 h3 => by simp; omega⟩
  simp only [List.length_append, List.length_replicate, List.length_take] at h3
  have hk : k < n := by omega
  refine ⟨by omega, ?_⟩
  rw [Nat.sub_zero, List.append_assoc, List.getElem?_append_right (by simp), List.getElem?_append_left (by simp; omega)]
  simp [hk]

theorem resizedFront_stays {V' : View} {f' n : Nat} {v : α} (h : Stay V f V' f' (n - xs.length) (xs.length - n) xs.length) :
    Stays xs (List.replicate (n - xs.length) v ++ xs.drop (xs.length - n)) (fun k => V.addr (f + k)) (fun k => V'.addr (f' + k))
      (n - xs.length) (xs.length - n) := by
  refine h.stays fun k h1 h2 h3 => ⟨h2, ?_⟩
  rw [List.getElem?_append_right (by simp; omega), List.getElem?_drop]
  congr 1; simp; omega

theorem resizedBack_stays {V' : View} {n : Nat} {v : α} (h : Stay V f V' f 0 0 (min n xs.length)) :
    Stays xs (xs.take n ++ List.replicate (n - xs.length) v) (fun k => V.addr (f + k)) (fun k => V'.addr (f + k)) 0 0 := by
  refine h.stays fun k h1 h2 h3 => ?_
  simp only [List.length_append, List.length_replicate, List.length_take] at h3
  have hk : k < n := by omega
  refine ⟨by omega, ?_⟩
  rw [List.getElem?_append_left (by simp; omega)]
  simp [hk]

theorem wp_argOf {s : Sq.Src α} {Q : Arg α → Obj SDVec α → Prop} {X : Exn → Obj SDVec α → Prop}
    (h : DSt H N o al V tcap f xs) (hs : s.ok xs.length = true)
    (hQ : ∀ a v, s.get? xs = some v → a.value o.m = some v → a.src E = none → Q a o) :
    wp (argOf N s) Q X o := by
  cases s with
  | value v => exact hQ _ v rfl rfl rfl
  | rvalue v => exact hQ _ v rfl rfl rfl
  | elem i =>
    have hi : i < xs.length := by simpa [Sq.Src.ok] using hs
    have hl := h.len
    have e : o.obj.first = V.it f := by rw [h.obj]; rfl
    unfold argOf
    obtain rfl := h.num
    have h2 := h.slot (k := f + i) (by have := h.lay.size_lt; omega)
    rw [if_pos (by omega), Nat.add_sub_cancel_left] at h2
    rw [wp_bind, wp_getObj, wp_bind, e, wp_run (h.fit.adv (q := f + i) h.first_le (by omega) (by omega) _), wp_pure]
    refine hQ _ xs[i] ?_ ?_ rfl
    · simp [Sq.Src.get?, hi]
    · show o.m.mem (V.addr (f + i)).blk (V.addr (f + i)).off = _
      rw [h2]; simp [hi]

theorem wp_nth {k : Nat} {Q : SIt → Obj SDVec α → Prop} {X : Exn → Obj SDVec α → Prop} (h : DSt H N o al V tcap f xs)
    (hk : k ≤ xs.length) (hQ : Q (V.it (f + k)) o) : wp (nth N k) Q X o := by
  rw [wp_run (h.nth_run hk)]; exact hQ

theorem wp_indexOf {k : Nat} {Q : Option Nat → Obj SDVec α → Prop} {X : Exn → Obj SDVec α → Prop} (h : DSt H N o al V tcap f xs)
    (hk : k ≤ xs.length) (hQ : Q (some k) o) : wp (indexOf N (V.it (f + k))) Q X o := by
  rw [wp_run (h.indexOf_run hk)]; exact hQ

/-- The state after a successful operation. -/
def Good (H : Heap α) (E : Env α) (N al : Nat) (V : View) (f : Nat) (xs : List α) (op : Dq.Op α) (r : Option Nat)
    (o' : Obj SDVec α) : Prop :=
  ∃ V' tcap' f' xs', DSt H N o' al V' tcap' f' xs' ∧ Dq.okStep E xs op r xs' ∧
    okStays xs xs' (fun k => V.addr (f + k)) (fun k => V'.addr (f' + k)) op

/-- The state after an operation has thrown. -/
def Bad (H : Heap α) (E : Env α) (N al : Nat) (V : View) (f : Nat) (xs : List α) (op : Dq.Op α) (e : Exn)
    (o' : Obj SDVec α) : Prop :=
  ∃ V' tcap' f' xs', DSt H N o' al V' tcap' f' xs' ∧ Failure E xs op e xs' ∧
    failStays xs xs' (fun k => V.addr (f + k)) (fun k => V'.addr (f' + k)) op

theorem Lost.bad {o' : Obj SDVec α} {op : Dq.Op α} (h : Lost H N al V tcap f xs.length o') (hE : ¬ NothrowMove E)
    (h1 : op.erases = true) : Bad H E N al V f xs op .elem o' := by
  obtain ⟨xs', k1, k2⟩ := h
  refine ⟨V, tcap, f, xs', k1, ?_⟩
  cases op <;> simp [Dq.Op.erases] at h1 <;>
    exact ⟨⟨rfl, by simp, by simp, by simp [target], fun _ => ⟨hE, k2⟩, by simp [strong], by simp,
      by omega, by simp⟩, by simp [failStays, strong]⟩

theorem Held.bad {e : Exn} {o' : Obj SDVec α} {op : Dq.Op α} (h : Held H N al V f xs o') (h1 : strong op = true)
    (h2 : e = .lengthError → op.grows xs.length = true) (h3 : ∀ n, target op = some n → xs.length < n) :
    Bad H E N al V f xs op e o' := by
  obtain ⟨V', tcap', f', k1, k2⟩ := h
  have hs : Stays xs xs (fun k => V.addr (f + k)) (fun k => V'.addr (f' + k)) 0 0 := k2.stays fun k _ h2 _ => ⟨h2, rfl⟩
  refine ⟨V', tcap', f', xs, k1, ?_, ?_⟩
  · cases op <;> simp [strong] at h1 <;>
      exact ⟨rfl, h2, by simp [wanted], h3, by simp [Dq.Op.erases], fun _ => rfl, by simp, by omega, by simp⟩
  · cases op <;> simp [strong] at h1 <;> exact fun _ => hs

theorem Some'.bad {e : Exn} {o' : Obj SDVec α} {op : Dq.Op α} (h : Some' H N al xs.length o') (h1 : strong op = false)
    (h2 : e = .lengthError → op.grows xs.length = true) (h3 : target op = none) (h4 : op.nothrow = false) (h5 : op.erases = false)
    (h6 : ∀ k s, op ≠ .emplace k s) (h7 : e = .lengthError → ∀ n, wanted op = some n → E.maxSize < n) :
    Bad H E N al V f xs op e o' := by
  obtain ⟨V', tcap', f', ys, k1, k2⟩ := h
  refine ⟨V', tcap', f', ys, k1, ⟨h4, h2, h7, by simp [h3], by simp [h5], by simp [h1], fun k s h => absurd h (h6 k s), k2,
    fun n h => ?_, fun n s h => ?_⟩, ?_⟩
  · subst h; simp [target] at h3
  · subst h; simp [target] at h3
  · cases op <;> simp [target] at h3 <;> simp [strong] at h1 <;> simp [failStays, strong]

theorem exec_spec (ra : Dq.Op α → Bool) (op : Dq.Op α) (h : DSt H N o al V tcap f xs) (hp : pre xs.length op = true) :
    wp (exec E N ra op) (fun r o' => Good H E N al V f xs op r o') (fun e o' => Bad H E N al V f xs op e o') o := by
  cases op with
  | pushFront s =>
    simp only [exec, wp_bind]
    refine wp_argOf (E := E) h hp fun a v hg hv hsrc => ?_
    refine wp_mono (emplaceFront_spec h hv hsrc) ?_ ?_
    · rintro p o1 ⟨V', tcap', f', k1, rfl, k2⟩
      refine wp_indexOf (k := 0) k1 (by simp) ⟨V', tcap', f', _, k1, ⟨⟨v, hg, rfl⟩, rfl⟩, ?_⟩
      exact k2.stays fun k _ h2 _ => ⟨h2, by simp⟩
    · rintro e o1 k
      exact k.bad rfl (fun _ => rfl) (by simp [target])
  | pushBack s =>
    simp only [exec, wp_bind]
    refine wp_argOf (E := E) h hp fun a v hg hv hsrc => ?_
    refine wp_mono (emplaceBack_spec h hv hsrc) ?_ ?_
    · rintro p o1 ⟨V', tcap', k1, rfl, k2⟩
      refine wp_indexOf k1 (by simp) ⟨V', tcap', f, _, k1, ⟨⟨v, hg, rfl⟩, rfl⟩, ?_⟩
      exact k2.stays fun k _ h2 _ => ⟨h2, List.getElem?_append_left h2⟩
    · rintro e o1 ⟨k, -⟩
      exact k.bad rfl (fun _ => rfl) (by simp [target])
  | emplace k s =>
    obtain ⟨hk, hs⟩ : k ≤ xs.length ∧ s.ok xs.length = true := by simpa [pre, Dq.Op.pre] using hp
    simp only [exec, wp_bind]
    refine wp_argOf (E := E) h hs fun a v hg hv hsrc => wp_nth h hk ?_
    refine wp_mono (emplace_spec h hv hsrc hk) ?_ ?_
    · rintro p o1 ⟨V', tcap', f', k1, rfl⟩
      exact wp_indexOf k1 (by simp; omega) ⟨V', tcap', f', _, k1, ⟨⟨v, hg, rfl⟩, rfl⟩, trivial⟩
    · rintro e o1 ⟨V', tcap', f', ys, k1, k2, k3, k4⟩
      exact ⟨V', tcap', f', ys, k1, ⟨rfl, fun _ => rfl, by simp [wanted], by simp [target], by simp [Dq.Op.erases],
        by simp [strong], fun _ _ _ => ⟨k2, k4⟩, k3, by simp⟩, by simp [failStays, strong]⟩
  | insertN k n s =>
    obtain ⟨hk, hs⟩ : k ≤ xs.length ∧ s.ok xs.length = true := by simpa [pre, Dq.Op.pre] using hp
    simp only [exec, wp_bind]
    refine wp_argOf (E := E) h hs fun a v hg hv hsrc => wp_nth h hk ?_
    refine wp_mono (insertFillN_spec h hv hsrc hk) ?_ ?_
    · rintro p o1 ⟨V', tcap', f', k1, rfl⟩
      exact wp_indexOf k1 (by simp; omega) ⟨V', tcap', f', _, k1, ⟨⟨v, hg, rfl⟩, rfl⟩, trivial⟩
    · rintro e o1 ⟨k1, k2⟩
      exact k2.bad rfl (fun _ => by simpa [Dq.Op.grows] using k1) rfl rfl rfl (by simp) (by simp [wanted])
  | insertRange k ys =>
    obtain ⟨hk, hs⟩ : k ≤ xs.length ∧ (2 * k < xs.length ∨ ys.length ≤ xs.length) := by simpa [pre] using hp
    simp only [exec, wp_bind]
    refine wp_nth h hk ?_
    refine wp_mono (insertRange_spec h hk (by omega)) ?_ ?_
    · rintro p o1 ⟨V', tcap', f', k1, rfl⟩
      exact wp_indexOf k1 (by simp; omega) ⟨V', tcap', f', _, k1, ⟨rfl, rfl⟩, trivial⟩
    · rintro e o1 ⟨k1, k2⟩
      exact k2.bad rfl (fun _ => by simpa [Dq.Op.grows] using k1) rfl rfl rfl (by simp) (by simp [wanted])
  | insertInput k ys =>
    have hk : k ≤ xs.length := by simpa [pre, Dq.Op.pre] using hp
    simp only [exec, wp_bind]
    refine wp_nth h hk ?_
    refine wp_mono (insertRangeInput_spec h hk) ?_ ?_
    · rintro p o1 ⟨V', tcap', f', k1, rfl⟩
      exact wp_indexOf k1 (by simp; omega) ⟨V', tcap', f', _, k1, ⟨rfl, rfl⟩, trivial⟩
    · rintro e o1 ⟨k1, k2⟩
      have k2 : Some' H N al xs.length o1 := k2
      exact k2.bad rfl (fun _ => by simpa [Dq.Op.grows] using List.length_pos_iff.mpr k1) rfl rfl rfl (by simp) (by simp [wanted])
  | popFront =>
    have hk : xs ≠ [] := List.length_pos_iff.mp (by simpa [pre, Dq.Op.pre] using hp)
    simp only [exec, wp_bind, wp_pure]
    refine wp_mono (popFront_spec h hk) ?_ (fun _ _ h => h.elim)
    refine fun _ o1 k1 => ⟨V, tcap, _, _, k1, ⟨rfl, rfl⟩, fun k h1 h2 h3 => ⟨?_, ?_⟩⟩
    · rw [List.getElem?_tail]; congr 1; omega
    · show V.addr (f + 1 + (k + 0 - 1)) = V.addr (f + k)
      congr 1; omega
  | popBack =>
    have hk : xs ≠ [] := List.length_pos_iff.mp (by simpa [pre, Dq.Op.pre] using hp)
    simp only [exec, wp_bind, wp_pure]
    refine wp_mono (popBack_spec h hk) ?_ (fun _ _ h => h.elim)
    refine fun _ o1 k1 => ⟨V, tcap, _, _, k1, ⟨rfl, rfl⟩, fun k h1 h2 h3 => ⟨?_, rfl⟩⟩
    simp only [Nat.add_zero, Nat.sub_zero] at *
    rw [List.getElem?_eq_getElem h3, List.getElem?_eq_getElem h2, List.getElem_dropLast]
  | eraseAt k =>
    have hk : k < xs.length := by simpa [pre, Dq.Op.pre] using hp
    simp only [exec, wp_bind]
    refine wp_nth h (by omega) ?_
    refine wp_mono (eraseAt_spec h hk) ?_ ?_
    · rintro p o1 ⟨f', k1, rfl⟩
      exact wp_indexOf k1 (by simp; omega) ⟨V, tcap, f', _, k1, ⟨rfl, rfl⟩, trivial⟩
    · rintro e o1 ⟨rfl, k1, k2⟩
      exact k2.bad k1 rfl
  | eraseRange k l =>
    obtain ⟨hkl, hl⟩ : k ≤ l ∧ l ≤ xs.length := by simpa [pre, Dq.Op.pre] using hp
    simp only [exec, wp_bind]
    refine wp_nth h (by omega) (wp_nth h hl ?_)
    refine wp_mono (eraseRange_spec h hkl hl) ?_ ?_
    · rintro p o1 ⟨f', k1, rfl⟩
      exact wp_indexOf k1 (by simp; omega) ⟨V, tcap, f', _, k1, ⟨rfl, rfl⟩, trivial⟩
    · rintro e o1 ⟨rfl, k1, -, -, k2⟩
      exact k2.bad k1 rfl
  | resize n =>
    simp only [exec, wp_bind, wp_pure]
    refine wp_mono (resizeWith_spec (v := E.dflt) h rfl rfl) ?_ ?_
    · rintro _ o1 ⟨V', tcap', f', i, j, k1, k2, k3⟩
      exact ⟨V', tcap', f', _, k2, ⟨⟨i, j, k1, rfl⟩, rfl⟩, resized_stays k1 k3⟩
    · rintro e o1 ⟨k1, k2, V', tcap', k, k3, k4⟩
      refine ⟨V', tcap', f, _, k3, ⟨rfl, fun _ => by simpa [Dq.Op.grows] using k1, ?_, ?_, by simp [Dq.Op.erases],
        by simp [strong], by simp, by simp, fun _ _ => ⟨k, rfl⟩, by simp⟩, ?_⟩
      · intro he m hm; simp only [wanted, Option.some.injEq] at hm; subst hm; exact k2 he
      · intro m hm; simp only [target, Option.some.injEq] at hm; subst hm; exact k1
      · exact k4.stays fun k _ h2 _ => ⟨h2, List.getElem?_append_left h2⟩
  | resizeV n s =>
    simp only [exec, wp_bind, wp_pure]
    refine wp_argOf (E := E) h hp fun a v hg hv hsrc => ?_
    refine wp_mono (resizeWith_spec (v := v) h hv hsrc) ?_ ?_
    · rintro _ o1 ⟨V', tcap', f', i, j, k1, k2, k3⟩
      exact ⟨V', tcap', f', _, k2, ⟨⟨v, hg, i, j, k1, rfl⟩, rfl⟩, resized_stays k1 k3⟩
    · rintro e o1 ⟨k1, k2, V', tcap', k, k3, k4⟩
      refine ⟨V', tcap', f, _, k3, ⟨rfl, fun _ => by simpa [Dq.Op.grows] using k1, ?_, ?_, by simp [Dq.Op.erases],
        by simp [strong], by simp, by simp, by simp, ?_⟩, ?_⟩
      · intro he m hm; simp only [wanted, Option.some.injEq] at hm; subst hm; exact k2 he
      · intro m hm; simp only [target, Option.some.injEq] at hm; subst hm; exact k1
      · rintro n' s' he
        obtain ⟨-, rfl⟩ : n = n' ∧ s = s' := by simpa using he
        exact ⟨k, v, hg, rfl⟩
      · exact k4.stays fun k _ h2 _ => ⟨h2, List.getElem?_append_left h2⟩
  | resizeFront n =>
    simp only [exec, wp_bind, wp_pure]
    refine wp_mono (resizeFrontWith_spec (v := E.dflt) h rfl rfl) ?_ ?_
    · rintro _ o1 ⟨V', tcap', f', k1, k2⟩
      exact ⟨V', tcap', f', _, k1, ⟨rfl, rfl⟩, resizedFront_stays k2⟩
    · rintro e o1 ⟨k1, k2⟩
      refine k2.bad rfl (fun _ => by simpa [Dq.Op.grows] using k1) ?_
      intro m hm; simp only [target, Option.some.injEq] at hm; subst hm; exact k1
  | resizeFrontV n s =>
    simp only [exec, wp_bind, wp_pure]
    refine wp_argOf (E := E) h hp fun a v hg hv hsrc => ?_
    refine wp_mono (resizeFrontWith_spec (v := v) h hv hsrc) ?_ ?_
    · rintro _ o1 ⟨V', tcap', f', k1, k2⟩
      exact ⟨V', tcap', f', _, k1, ⟨⟨v, hg, rfl⟩, rfl⟩, resizedFront_stays k2⟩
    · rintro e o1 ⟨k1, k2⟩
      refine k2.bad rfl (fun _ => by simpa [Dq.Op.grows] using k1) ?_
      intro m hm; simp only [target, Option.some.injEq] at hm; subst hm; exact k1
  | resizeBack n =>
    simp only [exec, wp_bind, wp_pure]
    refine wp_mono (resizeBackWith_spec (v := E.dflt) h rfl rfl) ?_ ?_
    · rintro _ o1 ⟨V', tcap', k1, k2⟩
      exact ⟨V', tcap', f, _, k1, ⟨rfl, rfl⟩, resizedBack_stays k2⟩
    · rintro e o1 ⟨k1, k2⟩
      refine k2.bad rfl (fun _ => by simpa [Dq.Op.grows] using k1) ?_
      intro m hm; simp only [target, Option.some.injEq] at hm; subst hm; exact k1
  | resizeBackV n s =>
    simp only [exec, wp_bind, wp_pure]
    refine wp_argOf (E := E) h hp fun a v hg hv hsrc => ?_
    refine wp_mono (resizeBackWith_spec (v := v) h hv hsrc) ?_ ?_
    · rintro _ o1 ⟨V', tcap', k1, k2⟩
      exact ⟨V', tcap', f, _, k1, ⟨⟨v, hg, rfl⟩, rfl⟩, resizedBack_stays k2⟩
    · rintro e o1 ⟨k1, k2⟩
      refine k2.bad rfl (fun _ => by simpa [Dq.Op.grows] using k1) ?_
      intro m hm; simp only [target, Option.some.injEq] at hm; subst hm; exact k1
  | assignN n v =>
    simp only [exec, wp_bind, wp_pure]
    refine wp_mono (assignFillN_spec h) ?_ ?_
    · rintro _ o1 ⟨V', tcap', f', k1⟩
      exact ⟨V', tcap', f', _, k1, ⟨rfl, rfl⟩, trivial⟩
    · rintro e o1 ⟨k1, k2⟩
      refine k2.bad rfl (fun he => by simpa [Dq.Op.grows] using (k1 he).2) rfl rfl rfl (by simp) ?_
      intro he m hm; simp only [wanted, Option.some.injEq] at hm; subst hm; exact (k1 he).1
  | assignRange ys =>
    simp only [exec, wp_bind, wp_pure]
    refine wp_mono (assignVals_spec h) ?_ ?_
    · rintro _ o1 ⟨V', tcap', f', k1⟩
      exact ⟨V', tcap', f', _, k1, ⟨rfl, rfl⟩, trivial⟩
    · rintro e o1 ⟨k1, k2⟩
      refine k2.bad rfl (fun he => by simpa [Dq.Op.grows] using (k1 he).2) rfl rfl rfl (by simp) ?_
      intro he m hm; simp only [wanted, Option.some.injEq] at hm; subst hm; exact (k1 he).1
  | assignInput ys =>
    simp only [exec, wp_bind, wp_pure]
    refine wp_mono (assignRangeInput_spec h) ?_ ?_
    · rintro _ o1 ⟨V', tcap', f', k1⟩
      exact ⟨V', tcap', f', _, k1, ⟨rfl, rfl⟩, trivial⟩
    · rintro e o1 ⟨k1, k2⟩
      exact k2.bad rfl (fun he => by simpa [Dq.Op.grows] using k1 he) rfl rfl rfl (by simp) (by simp [wanted])
  | clear =>
    simp only [exec, wp_bind, wp_pure]
    refine wp_mono (clear_spec h) ?_ (fun _ _ h => h.elim)
    exact fun _ o1 k1 => ⟨V, tcap, f, _, k1, ⟨rfl, rfl⟩, trivial⟩
  | reserveFront n =>
    simp only [exec, wp_bind, wp_pure]
    refine wp_mono (reserveFront_spec h) ?_ ?_
    · rintro _ o1 ⟨V', tcap', f', k1, k2⟩
      exact ⟨V', tcap', f', _, k1, ⟨rfl, rfl⟩, k2.stays fun k _ h2 _ => ⟨h2, rfl⟩⟩
    · rintro e o1 ⟨k1, k2⟩
      refine k2.bad rfl (fun _ => by simpa [Dq.Op.grows] using k1) ?_
      intro m hm; simp only [target, Option.some.injEq] at hm; subst hm; exact k1
  | reserveBack n =>
    simp only [exec, wp_bind, wp_pure]
    refine wp_mono (reserveBack_spec h) ?_ ?_
    · rintro _ o1 ⟨V', tcap', f', k1, k2⟩
      exact ⟨V', tcap', f', _, k1, ⟨rfl, rfl⟩, k2.stays fun k _ h2 _ => ⟨h2, rfl⟩⟩
    · rintro e o1 ⟨k1, k2⟩
      refine k2.bad rfl (fun _ => by simpa [Dq.Op.grows] using k1) ?_
      intro m hm; simp only [target, Option.some.injEq] at hm; subst hm; exact k1
  | shrinkToFit =>
    simp only [exec, wp_bind, wp_pure]
    refine wp_mono (shrink_spec h) ?_ ?_
    · rintro _ o1 ⟨V', tcap', f', k1, k2⟩
      exact ⟨V', tcap', f', _, k1, ⟨rfl, rfl⟩, k2.stays fun k _ h2 _ => ⟨h2, rfl⟩⟩
    · rintro e o1 ⟨rfl, k2⟩
      exact k2.bad rfl (by simp) (by simp [target])
  | eraseIf g =>
    simp only [exec, wp_bind, wp_pure]
    refine wp_mono (eraseIf_spec h) ?_ ?_
    · rintro r o1 ⟨f', k1, rfl⟩
      refine ⟨V, tcap, f', _, k1, ⟨rfl, ?_⟩, trivial⟩
      simp only [Dq.Op.ret, Option.some.injEq]
      have := List.length_eq_countP_add_countP g (l := xs)
      rw [← List.countP_eq_length_filter]
      simp only [Bool.not_eq_true] at this
      have e : List.countP (fun x => !g x) xs = List.countP (fun a => decide (g a = false)) xs := by
        congr 1; funext x; cases g x <;> rfl
      omega
    · rintro e o1 ⟨rfl, k1, k2⟩
      exact k2.bad k1 rfl

end

/-! ### Programs -/

/-- Ownership by a segmented devector: its table and its segments. -/
def rep (K N : Nat) : Rep K SDVec α where
  rep := fun _ m v al xs F => ∃ V tcap f H, DSt H N ⟨v, m⟩ al V tcap f xs ∧ F = V.foot
  raw := fun _ _ => True
  dead := fun _ => noFoot

section
variable {K : Nat} {E : Env α} {N : Nat} {T : Traits} {ra : Dq.Op α → Bool} {rai : Sq.Init α → Bool}

theorem rep_ok : (rep (α := α) K N).Ok (cont K E N T ra rai) where
  live := by
    rintro i m v al xs F ⟨V, tcap, f, H, h, rfl⟩
    exact h.live
  deadSub := fun _ _ h => h.elim
  frame := by
    rintro i m m' v al xs F _ hw ⟨V, tcap, f, H, h, rfl⟩ hf
    exact ⟨V, tcap, f, _, h.frame hw hf (owns_heapOf _ _), rfl⟩
  alloc := by
    rintro i m v al xs F ⟨V, tcap, f, H, h, rfl⟩
    exact congrArg SDVec.alloc h.obj
  rawLive := fun _ _ h => h.elim
  rawFrame := fun _ _ _ _ => trivial
  rawEq := fun _ _ _ _ _ h => h.elim

theorem two_now2 {i j : Fin K} {al al2 : Nat} {m : St α} {F : Foot} {P : List α → List α → Prop} {o' : Obj (SDVec × SDVec) α}
    (h : Two N al al2 m F P o') : ∃ xs1 xs2, (rep K N).Now2 i j m F al xs1 al2 xs2 o' ∧ P xs1 xs2 := by
  obtain ⟨V1, tcap1, f1, xs1, V2, tcap2, f2, xs2, g1, g2, hd, hf, hp⟩ := h
  exact ⟨xs1, xs2, ⟨V1.foot, V2.foot, ⟨V1, tcap1, f1, _, g1, rfl⟩, ⟨V2, tcap2, f2, _, g2, rfl⟩, hd, hf⟩, hp⟩

/-- A segmented devector owns its table and segments, whatever the rest of memory is called. -/
theorem DSt.step {H : Heap α} {al tcap f al' tcap' f' : Nat} {V V' : View} {xs ys : List α} {o o' : Obj SDVec α}
    (h : DSt H N o al V tcap f xs) (k : DSt H N o' al' V' tcap' f' ys) : Frame o.m V.foot o'.m V'.foot :=
  h.owns.has.frame k.owns.has k.lay.wf

theorem spec (hN : 0 < N) : Spec (cont K E N T ra rai) (sem E T) (rep K N) where
  ok := rep_ok
  make := by
    intro i m al init hw _ _
    refine wp_mono (construct_spec (E := E) (o := ⟨blank al, m⟩) (ra := rai init) init hN (bare_whole hw) rfl) ?_ ?_
    · rintro _ o' ⟨V, tcap, h1⟩
      exact ⟨_, ⟨_, ⟨V, tcap, 0, _, h1, rfl⟩, (bare_whole hw).has.frame h1.owns.has h1.lay.wf⟩, rfl⟩
    · rintro e o' ⟨h1, h2⟩
      exact ⟨⟨trivial, (bare_whole hw).has.frame h2.has h2.wf⟩, h1⟩
  copy := by
    rintro i j m al w al2 xs2 F2 hij hw _ ⟨V2, tcap2, f2, H2, h2, rfl⟩ _
    refine wp_mono (initCopy_spec (E := E) (o := ⟨blank al, m⟩) (bare_whole hw) h2 rfl) ?_ ?_
    · rintro _ o' ⟨V, tcap, h1⟩
      exact ⟨_, ⟨V, tcap, 0, _, h1, rfl⟩, (bare_whole hw).has.frame h1.owns.has h1.lay.wf⟩
    · rintro e o' ⟨h1, h2⟩
      exact ⟨trivial, (bare_whole hw).has.frame h2.has h2.wf⟩
  move := by
    rintro i j m al w al2 xs2 F2 hij hw _ ⟨V2, tcap2, f2, H2, h2, rfl⟩ _
    refine wp_mono (initMove_spec (E := E) (o := ⟨blank al, m⟩) h2 rfl) ?_ ?_
    · rintro _ o' ⟨V1, tcap1, f1, V2', tcap2', f2', ys, g1, g2, hd, hf, hy⟩
      refine ⟨ys, ⟨V1.foot, V2'.foot, ⟨V1, tcap1, f1, _, g1, rfl⟩, ⟨V2', tcap2', f2', _, g2, rfl⟩, hd, ?_⟩, ?_⟩
      · show Frame m (Both noFoot V2.foot) _ _
        rw [both_no]; exact hf
      · have hy' : if al = al2 then ys = [] else ys = xs2.map E.moved := hy
        simpa only [sem, decide_eq_true_eq] using hy'
    · rintro e o' ⟨ys, g1, hf, hy⟩
      refine ⟨trivial, ys, V2.foot, ⟨V2, tcap2, f2, _, g1, rfl⟩, fun _ h => h.elim, ?_, hy⟩
      show Frame m (Both noFoot V2.foot) _ (Both noFoot V2.foot)
      rw [both_no]; exact hf
  destroy := by
    rintro i m v al xs F hw ⟨V, tcap, f, H, h, rfl⟩
    exact wp_mono (destructor_spec h) (fun _ _ k => ⟨trivial, h.owns.has.frame k.1.has k.1.wf⟩) (fun _ _ h => h)
  size := by
    rintro i m v al xs F hw ⟨V, tcap, f, H, h, rfl⟩
    show wp (size N) _ _ _
    rw [wp_run h.size_run]
    exact ⟨rfl, rfl⟩
  index := by
    rintro i m v al xs F k x hw ⟨V, tcap, f, H, h, rfl⟩ hk
    show wp (index N k) _ _ _
    rw [wp_run (h.index_run hk)]
    exact ⟨rfl, rfl⟩
  exec := by
    rintro i m v al xs F op hw ⟨V, tcap, f, H, h, rfl⟩ hp
    refine wp_mono (exec_spec (E := E) ra op h hp) ?_ ?_
    · rintro r o' ⟨V', tcap', f', xs', g, hs, -⟩
      exact ⟨xs', ⟨_, ⟨V', tcap', f', _, g, rfl⟩, h.step g⟩, hs⟩
    · rintro r o' ⟨V', tcap', f', xs', g, hs, -⟩
      exact ⟨xs', ⟨_, ⟨V', tcap', f', _, g, rfl⟩, h.step g⟩, hs⟩
  assignCopy := by
    rintro i j m v al xs F w al2 xs2 F2 hij hw ⟨V, tcap, f, H, h, rfl⟩ ⟨V2, tcap2, f2, H2, h2, rfl⟩ hd _
    refine wp_mono (assignCopy_spec (E := E) (T := T) h h2 (fun c h1 h2 => hd c h2 h1)) ?_ ?_
    · rintro _ o' ⟨V', tcap', f', g, hf⟩
      exact ⟨_, ⟨V', tcap', f', _, g, rfl⟩, hf⟩
    · rintro _ o' ⟨-, ⟨V', tcap', f', xs', g, hf⟩ | ⟨g, hf⟩⟩
      · exact Or.inl ⟨xs', ⟨_, ⟨V', tcap', f', _, g, rfl⟩, hf⟩, trivial⟩
      · exact Or.inr ⟨rfl, _, ⟨V, tcap, f, _, g, rfl⟩, hf⟩
  assignMove := by
    rintro i j m v al xs F w al2 xs2 F2 hij hw ⟨V, tcap, f, H, h, rfl⟩ ⟨V2, tcap2, f2, H2, h2, rfl⟩ hd _
    refine wp_mono (assignMove_spec (E := E) (T := T) h h2 (fun c h1 h2 => hd c h2 h1)) ?_ ?_
    · rintro _ o' ht
      obtain ⟨xs1, ys, k, rfl, hy⟩ := two_now2 (i := i) (j := j) ht
      exact ⟨ys, k, by simpa only [sem, Bool.false_or, decide_eq_true_eq] using hy⟩
    · rintro _ o' ⟨-, ht | ht⟩
      · obtain ⟨xs1, ys, k, hy⟩ := two_now2 (i := i) (j := j) ht
        exact Or.inl ⟨xs1, ys, k, trivial, hy⟩
      · obtain ⟨xs1, ys, k, rfl, rfl⟩ := two_now2 (i := i) (j := j) ht
        exact Or.inr ⟨rfl, k⟩
  swap := by
    rintro i j m v al xs F w al2 xs2 F2 hij hw ⟨V, tcap, f, H, h, rfl⟩ ⟨V2, tcap2, f2, H2, h2, rfl⟩ hd hs
    obtain rfl : al = al2 := by simpa [sem] using hs
    rw [ite_self]
    refine wp_mono (swap_spec (T := T) h h2 (fun c h1 h2 => hd c h2 h1)) ?_ (fun _ _ h => h.elim)
    rintro _ o' ht
    obtain ⟨xs1, ys, k, rfl, rfl⟩ := two_now2 (i := i) (j := j) ht
    exact k

end
end SegDev
end Sfl
