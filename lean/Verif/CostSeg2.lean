import Verif.CostStatic
import Verif.CostSeg
import Verif.PropEnds
import Verif.SegVecSpec3
/-
  What every modifier of segmented_vector does to the storage and the counter. Proof machinery: no code is modelled in this file.
-/

set_option linter.unusedSimpArgs false
set_option linter.unusedSectionVars false

namespace Sfl
open World
variable {α : Type}

/-- Two facts about one run. -/
theorem wp_and {σ β : Type} {m : M σ β} {Q Q' : β → σ → Prop} {X X' : Exn → σ → Prop} {s : σ} (h : wp m Q X s) (h' : wp m Q' X' s) :
    wp m (fun b s => Q b s ∧ Q' b s) (fun e s => X e s ∧ X' e s) s := by
  unfold wp at *
  cases hm : m s with
  | ok b s => rw [hm] at h h'; exact ⟨h, h'⟩
  | exn x s => rw [hm] at h h'; exact ⟨h, h'⟩
  | ub r => rw [hm] at h; exact h

/-- A specification and what is known about the counter. -/
theorem wp_both {V β : Type} {m : M (Obj V α) β} {Q : β → Obj V α → Prop} {X : Exn → Obj V α → Prop} {Q' : β → V → Nat → Prop}
    {X' : V → Nat → Prop} {o : Obj V α} (h : wp m Q X o) (h' : vcost m Q' X' o.obj o.m.tick) :
    wp m (fun b o' => Q b o' ∧ Q' b o'.obj o'.m.tick) (fun e o' => X e o' ∧ X' o'.obj o'.m.tick) o := by
  have h' := h' o rfl rfl
  unfold wp at *
  cases hm : m o with
  | ok b s => rw [hm] at h h'; exact ⟨h, h'⟩
  | exn x s => rw [hm] at h h'; exact ⟨h, h'⟩
  | ub r => rw [hm] at h; exact h

namespace SegVec
variable {E : Env α} {N al tcap : Nat} {V : View} {xs : List α} {o : Obj SVec α}

/-- A segmented_vector of at most `B` slots, the counter at most `W`. -/
def Within (N al B W : Nat) (o' : Obj SVec α) : Prop :=
  (∃ V' tcap' xs', GSt N o' al V' tcap' xs' ∧ V'.size ≤ B) ∧ o'.m.tick ≤ W

/-- A modifier of segmented_vector ends, in whichever way, within `B` slots and before the counter passes `W`. -/
def Ends {β : Type} (N al : Nat) (m : SM α β) (B W : Nat) (o : Obj SVec α) : Prop :=
  wp m (fun _ o' => Within N al B W o') (fun _ o' => Within N al B W o') o

theorem Within.mono {B W B' W' : Nat} {o' : Obj SVec α} (h : Within N al B W o') (hB : B ≤ B') (hW : W ≤ W') : Within N al B' W' o' := by
  obtain ⟨⟨V', tcap', xs', h1, h2⟩, h3⟩ := h
  exact ⟨⟨V', tcap', xs', h1, by omega⟩, by omega⟩

theorem Ends.mono {β : Type} {m : SM α β} {B W B' W' : Nat} (h : Ends N al m B W o) (hB : B ≤ B') (hW : W ≤ W') : Ends N al m B' W' o :=
  wp_mono h (fun _ _ h => h.mono hB hW) (fun _ _ h => h.mono hB hW)

theorem GSt.within {B W : Nat} (h : GSt N o al V tcap xs) (hB : V.size ≤ B) (hW : o.m.tick ≤ W) : Within N al B W o :=
  ⟨⟨V, tcap, xs, h, hB⟩, hW⟩

/-- What a function returning an iterator costs, run within the present storage. -/
theorem GSt.costAt {f : SM α SIt} {f' : Vector.VM α Ptr} {k : Nat} {op : Sq.Op α} {t : Nat} {Q' X' : Nat → Prop} (h : GSt N o al V tcap xs)
    (hs : SimO V al tcap (V.SV o.obj.tab tcap al) f f' (V.At k) (V.svec o.obj.tab tcap al xs.length) (V.vec al xs.length))
    (he : StaticVector.exec (E.lim V.size) V.size op ⟨V.vec al xs.length, V.view { o.m with tick := t }⟩ =
      (f' >>= Vector.indexOf) ⟨V.vec al xs.length, V.view o.m⟩)
    (hp : StaticVector.pre V.size xs.length op = true)
    (hc : vcost (StaticVector.exec (E.lim V.size) V.size op) (fun _ _ t' => Q' t') (fun _ t' => X' t') (V.vec al xs.length) t) :
    wp f (fun _ o' => (∃ xs', GSt N o' al V tcap xs') ∧ Q' o'.m.tick) (fun _ o' => (∃ xs', GSt N o' al V tcap xs') ∧ X' o'.m.tick) o := by
  refine h.run (E := E) hs ?_
  have hx := wp_both (StaticVector.exec_spec op ((h.retick t).flat (E := E)) hp) hc
  have hx := wp_dropIndex (wp_at he hx)
  refine wp_mono hx ?_ ?_
  · rintro p o'' hq
    rintro hfst it ⟨rfl, rfl⟩
    rw [hfst] at hq
    obtain ⟨⟨xs', hv, -, h1, h2⟩, hq⟩ := hq rfl (Nat.zero_le _)
    exact ⟨xs', hv, fun o' hg hfr ht => ⟨⟨xs', hg⟩, by rw [ht]; exact hq⟩⟩
  · rintro e o'' ⟨⟨xs', hv, -, hf, h1, h2⟩, hq⟩
    exact ⟨xs', hv, fun o' hg hfr ht => ⟨⟨xs', hg⟩, by rw [ht]; exact hq⟩⟩

/-- What a function without iterator result costs, run within the present storage. -/
theorem GSt.costVal {β : Type} {f : SM α β} {f' : Vector.VM α β} {g : β → Option Nat} {op : Sq.Op α} {Q' X' : Nat → Prop}
    (h : GSt N o al V tcap xs)
    (hs : SimO V al tcap (V.SV o.obj.tab tcap al) f f' Eq (V.svec o.obj.tab tcap al xs.length) (V.vec al xs.length))
    (he : StaticVector.exec (E.lim V.size) V.size op ⟨V.vec al xs.length, V.view o.m⟩ =
      (f' >>= fun r => pure (g r)) ⟨V.vec al xs.length, V.view o.m⟩)
    (hp : StaticVector.pre V.size xs.length op = true)
    (hc : vcost (StaticVector.exec (E.lim V.size) V.size op) (fun _ _ t' => Q' t') (fun _ t' => X' t') (V.vec al xs.length) o.m.tick) :
    wp f (fun _ o' => (∃ xs', GSt N o' al V tcap xs') ∧ Q' o'.m.tick) (fun _ o' => (∃ xs', GSt N o' al V tcap xs') ∧ X' o'.m.tick) o := by
  refine h.run (E := E) hs ?_
  have hx := wp_both (StaticVector.exec_spec op (h.flat (E := E)) hp) hc
  have hx := wp_at he hx
  rw [wp_bind] at hx
  refine wp_mono hx ?_ ?_
  · rintro r o'' hq
    rintro - r' rfl
    rw [wp_pure] at hq
    obtain ⟨⟨xs', hv, -, h1, h2⟩, hq⟩ := hq
    exact ⟨xs', hv, fun o' hg hfr ht => ⟨⟨xs', hg⟩, by rw [ht]; exact hq⟩⟩
  · rintro e o'' ⟨⟨xs', hv, -, hf, h1, h2⟩, hq⟩
    exact ⟨xs', hv, fun o' hg hfr ht => ⟨⟨xs', hg⟩, by rw [ht]; exact hq⟩⟩

/-- The bound for the contiguous vector of the same size. -/
theorem GSt.flatEnds (h : GSt N o al V tcap xs) {op : Sq.Op α} (hi : op.isInsertInput = false) (t : Nat) :
    vcost (StaticVector.exec (E.lim V.size) V.size op) (fun _ _ t' => t' ≤ t + op.work xs.length + 2)
      (fun _ t' => t' ≤ t + op.work xs.length + 2) (V.vec al xs.length) t := by
  have hl := h.len
  have hd := (h.flat (E := E)).dim
  exact vcost.mono (StaticVector.exec_ends hd (by omega) op hi) (fun _ _ _ h => h.2) fun _ _ h => h.2

theorem Ends.of {β : Type} {f : SM α β} {W : Nat}
    (h : wp f (fun _ o' => (∃ xs', GSt N o' al V tcap xs') ∧ o'.m.tick ≤ W) (fun _ o' => (∃ xs', GSt N o' al V tcap xs') ∧ o'.m.tick ≤ W) o) :
    Ends N al f V.size W o :=
  wp_mono h (fun _ _ h => ⟨h.1.elim fun xs' h => ⟨V, tcap, xs', h, Nat.le_refl _⟩, h.2⟩)
    fun _ _ h => ⟨h.1.elim fun xs' h => ⟨V, tcap, xs', h, Nat.le_refl _⟩, h.2⟩

theorem GSt.endsAt {f : SM α SIt} {f' : Vector.VM α Ptr} {k : Nat} {op : Sq.Op α} {t : Nat} (h : GSt N o al V tcap xs)
    (hs : SimO V al tcap (V.SV o.obj.tab tcap al) f f' (V.At k) (V.svec o.obj.tab tcap al xs.length) (V.vec al xs.length))
    (he : StaticVector.exec (E.lim V.size) V.size op ⟨V.vec al xs.length, V.view { o.m with tick := t }⟩ =
      (f' >>= Vector.indexOf) ⟨V.vec al xs.length, V.view o.m⟩)
    (hp : StaticVector.pre V.size xs.length op = true) (hi : op.isInsertInput = false) :
    Ends N al f V.size (t + op.work xs.length + 2) o :=
  .of (h.costAt hs he hp (h.flatEnds hi t))

theorem GSt.endsVal {β : Type} {f : SM α β} {f' : Vector.VM α β} {g : β → Option Nat} {op : Sq.Op α} (h : GSt N o al V tcap xs)
    (hs : SimO V al tcap (V.SV o.obj.tab tcap al) f f' Eq (V.svec o.obj.tab tcap al xs.length) (V.vec al xs.length))
    (he : StaticVector.exec (E.lim V.size) V.size op ⟨V.vec al xs.length, V.view o.m⟩ =
      (f' >>= fun r => pure (g r)) ⟨V.vec al xs.length, V.view o.m⟩)
    (hp : StaticVector.pre V.size xs.length op = true) (hi : op.isInsertInput = false) :
    Ends N al f V.size (o.m.tick + op.work xs.length + 2) o :=
  .of (h.costVal hs he hp (h.flatEnds hi _))

/-- Growing the storage before the main part of an operation. -/
theorem ends_grow {β : Type} {f : Unit → SM α β} {n w : Nat} (h : GSt N o al V tcap xs)
    (hf : ∀ o1 V1 tcap1, GSt N o1 al V1 tcap1 xs → V.size + n ≤ V1.size → V.Ext V1 → 0 < o1.m.tick → E.throws (o1.m.tick - 1) = false →
      Ends N al (f ()) V1.size (o1.m.tick + w) o1) :
    Ends N al (growStorage E N n >>= f) (V.size + n + N) (o.m.tick + (n / N + 2) + w) o := by
  unfold Ends
  rw [wp_bind]
  refine wp_mono (wp_both (growStorage_spec (n := n) h) (growStorage_cost (E := E) (N := N) (n := n) o.obj o.m.tick)) ?_ ?_
  · rintro _ o1 ⟨⟨tb, news, tcap1, hg, hsz, -, hfr, ht1, ht2⟩, ht⟩
    have hx : V.Ext ⟨tb, 0, V.segs ++ news, N⟩ := ⟨List.prefix_append _ _, h.num.symm⟩
    exact (hf o1 _ tcap1 hg hsz.1 hx ht1 ht2).mono hsz.2 (by omega)
  · rintro e o1 ⟨⟨hl, -, tb, tcap1, hg, -, hfr⟩, ht⟩
    refine hg.within ?_ (by omega)
    have e : (View.mk tb 0 V.segs N).size = V.size := by
      have := h.view_eq
      rw [this]; rfl
    omega

/-- `emplace_back`, once there is room. -/
theorem emplaceBackTail_ends {s : Sq.Src α} (h : GSt N o al V tcap xs) (hs : s.ok xs.length = true) (hr : xs.length + 1 ≤ V.size) :
    Ends N al (emplaceBackTail E N (srcArg V s)) V.size (o.m.tick + 3) o := by
  have hsim := sim_emplaceBackTail (lim := V.size) (E := E) (al := al) (tcap := tcap) h.fit h.len (a := s.toArg ⟨V.tb, 0⟩)
  rw [srcArg_map, h.num] at hsim
  exact h.endsAt (op := .pushBack s) (t := o.m.tick) hsim rfl (pre_of hs hr rfl) rfl

/-- The slots an operation that needs `r` of them leaves. -/
def slots (N c r : Nat) : Nat := if r ≤ c then c else r + N

/-- The allocations an operation that needs `r` slots makes. -/
def allocs (N c r : Nat) : Nat := if r ≤ c then 0 else (r - c) / N + 2

/-- Growing if need be. -/
theorem ends_need {β : Type} {f g : SM α β} {c : Prop} [Decidable c] {k : Unit → SM α β} {r w : Nat} (h : GSt N o al V tcap xs)
    (hc : c ↔ V.size < r) (hg : V.size < r → f = (growStorage E N (r - V.size) >>= k))
    (hk : ∀ o1 V1 tcap1, GSt N o1 al V1 tcap1 xs → r ≤ V1.size → V.Ext V1 → 0 < o1.m.tick → E.throws (o1.m.tick - 1) = false →
      Ends N al (k ()) V1.size (o1.m.tick + w) o1)
    (hs : r ≤ V.size → Ends N al g V.size (o.m.tick + w) o) :
    Ends N al (if c then f else g) (slots N V.size r) (o.m.tick + allocs N V.size r + w) o := by
  unfold slots allocs
  by_cases hcr : r ≤ V.size
  · rw [if_neg (by rw [hc]; omega), if_pos hcr, if_pos hcr]
    exact hs hcr
  · rw [if_pos (by rw [hc]; omega), if_neg hcr, if_neg hcr, hg (by omega)]
    exact (ends_grow h fun o1 V1 tcap1 h1 h2 => hk o1 V1 tcap1 h1 (by omega)).mono (by omega) (by omega)

/-- `emplace_back`. -/
theorem emplaceBack_ends {s : Sq.Src α} (h : GSt N o al V tcap xs) (hs : s.ok xs.length = true) :
    Ends N al (emplaceBack E N (srcArg V s)) (slots N V.size (xs.length + 1)) (o.m.tick + allocs N V.size (xs.length + 1) + 3) o := by
  have hl := h.len
  unfold emplaceBack Ends
  rw [wp_bind, wp_getObj, h.eq_end]
  refine ends_need (E := E) (k := fun _ => emplaceBackTail E N (srcArg V s)) h (by simp; omega) (fun hv => ?_) ?_ ?_
  · rw [show xs.length + 1 - V.size = 1 by omega]
  · intro o1 V1 tcap1 hg hsz hx _ _
    rw [← srcArg_ext hx h hs]
    exact emplaceBackTail_ends hg hs (by omega)
  · intro hr
    exact emplaceBackTail_ends h hs (by omega)

/-- `emplace`, once there is room. -/
theorem emplaceTail_ends {k : Nat} {s : Sq.Src α} (h : GSt N o al V tcap xs) (hs : s.ok xs.length = true) (hk : k ≤ xs.length)
    (hr : xs.length + 1 ≤ V.size) : Ends N al (emplaceTail E N (V.it k) (srcArg V s)) V.size (o.m.tick + (xs.length - k) + 2) o := by
  have hsim := sim_emplaceTail (lim := V.size) (E := E) (al := al) (tcap := tcap) h.fit h.len (a := s.toArg ⟨V.tb, 0⟩) hk
  rw [srcArg_map, h.num] at hsim
  refine h.endsAt (E := E) (op := .emplace k s) (t := o.m.tick) hsim ?_ (pre_of (by simp [Sq.Op.pre, hk, hs]) hr rfl) rfl
  rw [← add0]; rfl

/-- `emplace`. -/
theorem emplace_ends {k : Nat} {s : Sq.Src α} (h : GSt N o al V tcap xs) (hs : s.ok xs.length = true) (hk : k ≤ xs.length) :
    Ends N al (emplace E N (V.it k) (srcArg V s)) (slots N V.size (xs.length + 1))
      (o.m.tick + allocs N V.size (xs.length + 1) + (xs.length - k + 2)) o := by
  have hl := h.len
  unfold emplace Ends
  rw [wp_bind, wp_getObj, wp_bind, wp_run (assert_run (h.inRange hk)), h.first_eq, wp_bind,
    wp_run (h.dist_run (Nat.zero_le _) (by omega) _), wp_bind,
    wp_run (h.adv_run (p := 0) (q := k) (by omega) (by omega) (by simp) _), h.eq_end]
  refine ends_need (E := E) (k := fun _ => nth N (k - 0) >>= fun p => emplaceTail E N p (srcArg V s)) h (by simp; omega) (fun hv => ?_) ?_ ?_
  · rw [show xs.length + 1 - V.size = 1 by omega]
  · intro o1 V1 tcap1 hg hsz hx _ _
    unfold Ends
    rw [wp_bind, wp_run (hg.nth_run (k := k - 0) (by omega)), ← srcArg_ext hx h hs, Nat.sub_zero]
    exact emplaceTail_ends hg hs hk (by omega)
  · intro hr
    exact emplaceTail_ends h hs hk (by omega)

/-- `resize`, once there is room. -/
theorem resizeTail_ends {n : Nat} {s : Sq.Src α} (h : GSt N o al V tcap xs) (hs : s.ok xs.length = true)
    (hn : xs.length < n) (hr : n ≤ V.size) :
    Ends N al (resizeTail E N n xs.length (srcArg V s)) V.size (o.m.tick + (n - xs.length + 2)) o := by
  have hsim := sim_resizeTail (lim := V.size) (E := E) (al := al) (tcap := tcap) h.fit h.len (a := s.toArg ⟨V.tb, 0⟩) hn hr
  rw [srcArg_map, h.num] at hsim
  exact h.endsVal (E := E) (g := fun _ => none) (op := .resizeV n s) (hsim.mono fun _ _ _ => rfl) rfl (pre_of hs hr rfl) rfl

theorem slots_le {c r : Nat} (h : r ≤ c) : slots N c r = c := if_pos h
theorem allocs_le {c r : Nat} (h : r ≤ c) : allocs N c r = 0 := if_pos h

/-- `resize`. -/
theorem resizeWith_ends {n : Nat} {s : Sq.Src α} (h : GSt N o al V tcap xs) (hs : s.ok xs.length = true) :
    Ends N al (resizeWith E N n (srcArg V s)) (slots N V.size n) (o.m.tick + allocs N V.size n + (n - xs.length + 2)) o := by
  have hl := h.len
  by_cases hn : n ≤ xs.length
  · have hsim := sim_resizeDown (lim := V.size) (E := E) (al := al) (tcap := tcap) h.fit h.len h.base (a := s.toArg ⟨V.tb, 0⟩) hn
    rw [srcArg_map, h.num] at hsim
    rw [slots_le (by omega), allocs_le (by omega)]
    exact h.endsVal (E := E) (g := fun _ => none) (op := .resizeV n s) (hsim.mono fun _ _ _ => rfl) rfl
        (pre_of hs (by show n ≤ V.size; omega) rfl) rfl
  · unfold resizeWith Ends
    rw [wp_bind, wp_run h.size_run, if_neg hn, wp_bind, wp_run h.capacity_run]
    refine ends_need (E := E) (k := fun _ => resizeTail E N n xs.length (srcArg V s)) h Iff.rfl (fun hv => rfl) ?_ ?_
    · intro o1 V1 tcap1 hg hsz hx _ _
      rw [← srcArg_ext hx h hs]
      exact resizeTail_ends hg hs (by omega) (by omega)
    · exact fun hr => resizeTail_ends h hs (by omega) hr

/-- `assign(n, value)`, once there is room. -/
theorem assignFillTail_ends {n : Nat} {v : α} (h : GSt N o al V tcap xs) (hn : xs.length < n) (hr : n ≤ V.size) :
    Ends N al (assignFillTail E N n xs.length (.val v)) V.size (o.m.tick + (n + 2)) o := by
  have hsim := sim_assignFillTail (lim := V.size) (E := E) (al := al) (tcap := tcap) h.fit h.len (a := .val v) hn hr
  rw [h.num] at hsim
  exact h.endsVal (E := E) (g := fun _ => none) (op := .assignN n v) (hsim.mono fun _ _ _ => rfl) rfl (pre_of rfl hr rfl) rfl

/-- `assign(n, value)`. -/
theorem assignFillN_ends {n : Nat} {v : α} (h : GSt N o al V tcap xs) :
    Ends N al (assignFillN E N n (.val v)) (slots N V.size n) (o.m.tick + allocs N V.size n + (n + 2)) o := by
  have hl := h.len
  by_cases hn : n ≤ xs.length
  · have hsim := sim_assignFillDown (lim := V.size) (E := E) (al := al) (tcap := tcap) h.fit h.len (a := .val v) hn
    rw [h.num] at hsim
    rw [slots_le (by omega), allocs_le (by omega)]
    exact h.endsVal (E := E) (g := fun _ => none) (op := .assignN n v) (hsim.mono fun _ _ _ => rfl) rfl
      (pre_of rfl (by show n ≤ V.size; omega) rfl) rfl
  · unfold assignFillN Ends
    rw [wp_bind, wp_run h.size_run, if_neg hn, wp_bind, wp_run h.capacity_run]
    refine ends_need (E := E) (k := fun _ => assignFillTail E N n xs.length (.val v)) h Iff.rfl (fun hv => rfl) ?_ ?_
    · intro o1 V1 tcap1 hg hsz hx _ _
      exact assignFillTail_ends hg (by omega) (by omega)
    · exact fun hr => assignFillTail_ends h (by omega) hr

/-- `assign(first, last)`, once there is room. -/
theorem assignRangeTail_ends {ra : Bool} {ys : List α} (h : GSt N o al V tcap xs) (hn : xs.length < ys.length) (hr : ys.length ≤ V.size) :
    Ends N al (assignRangeTail E N (.list ra (ys.map .val)) xs.length) V.size (o.m.tick + (ys.length + 2)) o := by
  have hf : IsFrom V (.list ra (ys.map .val)) (ys.map Arg.val) := by
    have := IsFrom.list (V := V) ra (ys.map Arg.val)
    rwa [map_val] at this
  have hsim := sim_assignRangeTail (lim := V.size) (E := E) (al := al) (tcap := tcap) h.fit h.len hf (by simpa using hn) (by simpa using hr)
  rw [h.num] at hsim
  exact h.endsVal (E := E) (g := fun _ => none) (op := .assignRange ys) (hsim.mono fun _ _ _ => rfl) rfl (pre_of rfl hr rfl) rfl

/-- `assign(first, last)` (forward iterators). -/
theorem assignRange_ends {ra : Bool} {ys : List α} (h : GSt N o al V tcap xs) :
    Ends N al (assignRange E N (.list ra (ys.map .val))) (slots N V.size ys.length)
      (o.m.tick + allocs N V.size ys.length + (ys.length + 2)) o := by
  have hl := h.len
  by_cases hn : ys.length ≤ xs.length
  · have hf : IsFrom V (.list ra (ys.map .val)) (ys.map Arg.val) := by
      have := IsFrom.list (V := V) ra (ys.map Arg.val)
      rwa [map_val] at this
    have hsim := sim_assignRangeDown (lim := V.size) (E := E) (al := al) (tcap := tcap) h.fit h.len hf (by simpa using hn)
    rw [h.num] at hsim
    rw [slots_le (by omega), allocs_le (by omega)]
    exact h.endsVal (E := E) (g := fun _ => none) (op := .assignRange ys) (hsim.mono fun _ _ _ => rfl) rfl
      (pre_of rfl (by show ys.length ≤ V.size; omega) rfl) rfl
  · unfold assignRange Ends
    simp only [Seg.From.dist]
    rw [wp_bind, wp_pure, List.length_map, wp_bind, wp_run h.size_run, if_neg hn, wp_bind, wp_run h.capacity_run]
    refine ends_need (E := E) (k := fun _ => assignRangeTail E N (.list ra (ys.map .val)) xs.length) h Iff.rfl (fun hv => rfl) ?_ ?_
    · intro o1 V1 tcap1 hg hsz hx _ _
      exact assignRangeTail_ends hg (by omega) (by omega)
    · exact fun hr => assignRangeTail_ends h (by omega) hr

/-- `insert(pos, first, last)`, once there is room. -/
theorem insertRangeTail_ends {ra : Bool} {k : Nat} {ys : List α} (h : GSt N o al V tcap xs) (hk : k ≤ xs.length)
    (hr : xs.length + ys.length ≤ V.size) (h0 : ys ≠ []) :
    Ends N al (insertRangeTail E N ra k (xs.length - k) ys) V.size (o.m.tick + (ys.length + (xs.length - k) + 2)) o := by
  have hsim := sim_insertRangeTail (lim := V.size) (E := E) (al := al) (tcap := tcap) (ra := ra) h.fit h.len hk hr h0
  rw [h.num] at hsim
  refine h.endsAt (E := E) (op := .insertRange k ys) (t := o.m.tick) hsim ?_ (pre_of (by simp [Sq.Op.pre, hk]) hr rfl) rfl
  rw [← add0]; rfl

/-- `insert(pos, first, last)` (forward iterators). -/
theorem insertRange_ends {ra : Bool} {k : Nat} {ys : List α} (h : GSt N o al V tcap xs) (hk : k ≤ xs.length) :
    Ends N al (insertRange E N ra (V.it k) ys) (slots N V.size (xs.length + ys.length))
      (o.m.tick + allocs N V.size (xs.length + ys.length) + (ys.length + (xs.length - k) + 2)) o := by
  have hl := h.len
  unfold insertRange Ends
  rw [wp_bind, wp_getObj, wp_bind, wp_run (assert_run (h.inRange hk)), h.first_eq, wp_bind,
    wp_run (h.dist_run (Nat.zero_le _) (by omega) _), wp_ite]
  split
  · rename_i h0
    subst h0
    rw [wp_run (h.adv_run (p := 0) (q := k) (by omega) (by omega) (by simp) _)]
    rw [slots_le (by simpa using hl)]
    exact h.within (Nat.le_refl _) (by omega)
  · rename_i h0
    rw [h.last_eq, wp_bind, wp_run (h.dist_run hk hl _), wp_bind, wp_run h.available_run, Nat.sub_zero]
    refine ends_need (E := E) (k := fun _ => insertRangeTail E N ra k (xs.length - k) ys) h (by omega) (fun hv => ?_) ?_ ?_
    · rw [show xs.length + ys.length - V.size = ys.length - (V.size - xs.length) by omega]
    · intro o1 V1 tcap1 hg hsz hx _ _
      exact insertRangeTail_ends hg hk (by omega) h0
    · exact fun hr => insertRangeTail_ends h hk hr h0

/-- `insert(pos, n, value)`, once the value has been copied and there is room. -/
theorem insertFillTail_ends {k n : Nat} {tmp : α} {rv : Bool} (h : GSt N o al V tcap xs) (hk : k ≤ xs.length)
    (hr : xs.length + n ≤ V.size) (h0 : n ≠ 0)
    (ht : 0 < o.m.tick) (hnt : (E.throws (o.m.tick - 1) && !(rv && E.nothrowMoveCtor)) = false) :
    Ends N al (insertFillTail E N k n tmp) V.size (o.m.tick + (n + (xs.length - k) + 1)) o := by
  have hsim := sim_insertFillTail (lim := V.size) (E := E) (al := al) (tcap := tcap) (tmp := tmp) h.fit h.len hk hr
  rw [h.num] at hsim
  obtain ⟨s', hg, ha⟩ := src_of V xs tmp rv
  refine (h.endsAt (op := .insertN k n s') (t := o.m.tick - 1) (E := E) hsim (flatFillTail_eq hk hr h0 ha.1 ht hnt)
    (pre_of (by simp [Sq.Op.pre, hk, ha.2]) hr rfl) rfl).mono (Nat.le_refl _) ?_
  simp only [Sq.Op.work]
  omega

/-- `insert(pos, n, value)`. -/
theorem insertFillN_ends {k n : Nat} {s : Sq.Src α} (h : GSt N o al V tcap xs) (hs : s.ok xs.length = true) (hk : k ≤ xs.length) :
    Ends N al (insertFillN E N (V.it k) n (srcArg V s)) (slots N V.size (xs.length + n))
      (o.m.tick + allocs N V.size (xs.length + n) + (n + (xs.length - k) + 2)) o := by
  have hl := h.len
  have hle : V.size ≤ slots N V.size (xs.length + n) := by unfold slots; split <;> omega
  unfold insertFillN Ends
  rw [wp_bind, wp_getObj, wp_bind, wp_run (assert_run (h.inRange hk)), h.first_eq, wp_bind,
    wp_run (h.dist_run (Nat.zero_le _) (by omega) _), wp_ite]
  split
  · rename_i h0
    subst h0
    rw [wp_run (h.adv_run (p := 0) (q := k) (by omega) (by omega) (by simp) _)]
    exact h.within hle (by omega)
  · rename_i h0
    rw [wp_bind]
    refine wp_mono (wp_both (wp_mkTmp_src (E := E) (s := s)
      (Q := fun v o' => ∃ rv t, o' = ⟨o.obj, { o.m with tick := t }⟩ ∧ 0 < t ∧ (E.throws (t - 1) && !(rv && E.nothrowMoveCtor)) = false)
      (X := fun _ o' => ∃ t, o' = ⟨o.obj, { o.m with tick := t }⟩) h hs
      (fun v rv t hv ht hnt => ⟨rv, t, rfl, ht, hnt⟩) fun t => ⟨t, rfl⟩)
      (Q' := fun _ _ t' => t' ≤ o.m.tick + 1) (X' := fun _ t' => t' ≤ o.m.tick + 1)
      (vcost.lift (cost.mkTmp (fun _ => Nat.le_refl _) (Nat.le_refl _)))) ?_ ?_
    · rintro v o1 ⟨⟨rv, t, rfl, ht, hnt⟩, ht1⟩
      have h1 := h.retick t
      dsimp only at ht1
      rw [wp_bind, wp_run h1.available_run, Nat.sub_zero]
      refine Ends.mono (ends_need (E := E) (k := fun _ => insertFillTail E N k n v) (r := xs.length + n) (w := n + (xs.length - k) + 1)
        h1 (by omega) (fun hv => ?_) ?_ ?_) (Nat.le_refl _) (by dsimp only; omega)
      · rw [show xs.length + n - V.size = n - (V.size - xs.length) by omega]
      · intro o1 V1 tcap1 hg hsz hx ht1 ht2
        exact insertFillTail_ends (rv := false) hg hk (by omega) h0 ht1 (by simp [ht2])
      · exact fun hr => insertFillTail_ends h1 hk hr h0 ht hnt
    · rintro e o1 ⟨⟨t, rfl⟩, ht1⟩
      exact (h.retick t).within hle (by dsimp only at ht1 ⊢; omega)

/-- `erase(pos)`. -/
theorem eraseAt_ends {k : Nat} (h : GSt N o al V tcap xs) (hk : k < xs.length) :
    Ends N al (eraseAt E N (V.it k)) V.size (o.m.tick + (xs.length - k) + 2) o := by
  have hsim := sim_eraseAt (lim := V.size) (E := E) (al := al) (tcap := tcap) h.fit h.len hk
  rw [h.num] at hsim
  refine h.endsAt (E := E) (op := .eraseAt k) (t := o.m.tick) hsim ?_ (pre_of (by simp [Sq.Op.pre, hk]) h.len rfl) rfl
  rw [← add0]; rfl

/-- `erase(first, last)`. -/
theorem eraseRange_ends {k l : Nat} (h : GSt N o al V tcap xs) (hk : k ≤ l) (hl : l ≤ xs.length) :
    Ends N al (eraseRange E N (V.it k) (V.it l)) V.size (o.m.tick + (xs.length - l) + 2) o := by
  have hsim := sim_eraseRange (lim := V.size) (E := E) (al := al) (tcap := tcap) h.fit h.len hk hl
  rw [h.num] at hsim
  refine h.endsAt (E := E) (op := .eraseRange k l) (t := o.m.tick) hsim ?_ (pre_of (by simp [Sq.Op.pre, hk, hl]) h.len rfl) rfl
  rw [← add0 V.tb k, ← add0 V.tb l]; rfl

/-- `erase_if`. -/
theorem eraseIf_ends {f : α → Bool} (h : GSt N o al V tcap xs) :
    Ends N al (eraseIf E N f) V.size (o.m.tick + xs.length + 2) o := by
  have hsim := sim_eraseIf (lim := V.size) (E := E) (al := al) (tcap := tcap) (f := f) h.fit h.len
  rw [h.num] at hsim
  exact h.endsVal (E := E) (g := some) (op := .eraseIf f) hsim rfl (pre_of rfl h.len rfl) rfl

/-- `pop_back`. -/
theorem popBack_ends (E : Env α) (h : GSt N o al V tcap xs) (h0 : 0 < xs.length) :
    Ends N al (popBack N) V.size (o.m.tick + 0 + 2) o := by
  have hsim := sim_popBack (al := al) (tcap := tcap) (α := α) h.fit h.len
  rw [h.num] at hsim
  exact h.endsVal (E := E) (g := fun _ => none) (op := .popBack) (hsim.mono fun _ _ _ => rfl) rfl
    (pre_of (by simpa [Sq.Op.pre] using h0) h.len rfl) rfl

/-! ### Loops -/

theorem GSt.same {V' : View} {tcap' : Nat} {xs' : List α} (h : GSt N o al V tcap xs) (h' : GSt N o al V' tcap' xs') :
    V'.size = V.size ∧ xs'.length = xs.length := by
  have h1 := h.capacity_run.symm.trans h'.capacity_run
  have h2 := h.size_run.symm.trans h'.size_run
  injection h1 with h1
  injection h2 with h2
  exact ⟨h1.symm, h2.symm⟩

theorem _root_.Sfl.View.Ext.size {V V' : View} (h : V.Ext V') : V.size ≤ V'.size := by
  unfold View.size View.cap
  rw [h.num]
  have := Nat.mul_le_mul_right V.N h.segs.length_le
  omega

theorem slots_step {c c1 n m : Nat} (h1 : c ≤ c1) (h2 : c1 ≤ slots N c (n + 1)) : slots N c1 (n + 1 + m) ≤ slots N c (n + (m + 1)) := by
  unfold slots at *
  split at h2 <;> split <;> split <;> omega

/-- Appending the elements of an input range one by one. -/
theorem emplaceBackAll_ends {ys : List α} : ∀ {o : Obj SVec α} {V : View} {tcap : Nat} {xs : List α}, GSt N o al V tcap xs →
    Ends N al (emplaceBackAll E N (ys.map .val)) (slots N V.size (xs.length + ys.length)) (o.m.tick + 4 * ys.length) o := by
  induction ys with
  | nil =>
    intro o V tcap xs h
    unfold Ends
    simp only [List.map_nil, emplaceBackAll]
    rw [wp_pure]
    rw [slots_le (by simpa using h.len)]
    exact h.within (Nat.le_refl _) (by omega)
  | cons y ys ih =>
    intro o V tcap xs h
    unfold Ends
    simp only [List.map_cons, emplaceBackAll, List.length_cons]
    rw [wp_bind]
    have hs := slots_step (N := N) (m := ys.length) (n := xs.length) (Nat.le_refl V.size)
    refine wp_mono (wp_both (wp_and (emplaceBack_spec (s := .value y) h rfl) (emplaceBack_ends (E := E) (s := .value y) h rfl))
      (emplaceBack_cost _ _)) ?_ ?_
    · rintro r o1 ⟨⟨⟨V1, tcap1, xs1, hg, hx, hf, -, ⟨v, hv, rfl⟩, -⟩, ⟨V2, tcap2, xs2, hg2, hz⟩, -⟩, ht⟩
      cases hv
      have he := hg.same hg2
      have hx := hx.size
      refine (ih hg).mono ?_ (by omega)
      rw [List.length_append]
      exact slots_step hx (by omega)
    · rintro e o1 ⟨⟨-, ⟨V2, tcap2, xs2, hg2, hz⟩, -⟩, ht⟩
      refine hg2.within (Nat.le_trans hz ?_) (by omega)
      unfold slots
      split <;> split <;> omega

theorem assignRangeLoop_cost {t : Table} {l : SIt} : ∀ {as : List (Arg α)} {c : SIt} {k : Nat},
    cost (assignRangeLoop E N t l as c) (fun r k' => k' + r.1.length ≤ k + as.length ∧ r.1.length ≤ as.length)
      (fun k' => k' ≤ k + as.length) k := by
  intro as
  induction as with
  | nil => intro c k; exact .pure ⟨Nat.le_refl _, Nat.le_refl _⟩
  | cons a as ih =>
    intro c k
    unfold assignRangeLoop
    refine .ite (fun _ => .pure ⟨Nat.le_refl _, Nat.le_refl _⟩) fun _ => .bind (.assign (.bind (.still fun c' => ?_)) ?_)
    · refine (ih (c := c') (k := k + 1)).mono (fun _ _ h => ?_) fun _ h => ?_ <;> simp only [List.length_cons] <;> omega
    · simp only [List.length_cons]; omega

theorem emplaceBackAll_cost {as : List (Arg α)} : Spends (emplaceBackAll E N as) (4 * as.length) := by
  induction as with
  | nil => intro v t; exact .pure (Nat.le_refl _)
  | cons a as ih =>
    intro v t
    refine .bind (.spends emplaceBack_cost (fun _ v' t' ht => ?_) fun _ _ _ => by simp only [List.length_cons]; omega)
    exact .spends ih (fun _ _ _ _ => by simp only [List.length_cons]; omega) fun _ _ _ => by simp only [List.length_cons]; omega

/-- Dropping the elements from index `n` on. -/
theorem truncate_ends (E : Env α) {n : Nat} (h : GSt N o al V tcap xs) (hn : n ≤ xs.length) :
    wp (do lift (Seg.destroy N o.obj.tab (V.it n) o.obj.last); setObj { o.obj with last := V.it n } : SM α Unit)
      (fun _ o' => (∃ xs', GSt N o' al V tcap xs') ∧ o'.m.tick = o.m.tick) (fun _ _ => False) o := by
  have hl := h.len
  have hsim : SimO (α := α) V al tcap (V.SV o.obj.tab tcap al)
      (do lift (Seg.destroy V.N o.obj.tab (V.it n) (V.it xs.length)); setObj { V.svec o.obj.tab tcap al xs.length with last := V.it n })
      (do lift (destroyRange ⟨V.tb, n⟩ ⟨V.tb, xs.length⟩); setObj { V.vec al xs.length with last := ⟨V.tb, n⟩ }) (fun _ _ => True)
      (V.svec o.obj.tab tcap al xs.length) (V.vec al xs.length) :=
    SimO.lift_bind (V.sv _ tcap al h.len) (View.sim_destroy h.tab h.lay.npos hn (h.fit.lt h.len)) fun _ _ _ =>
      SimO.setLast (V.sv o.obj.tab tcap al (p := n) (by omega))
  have hf := h.flat (E := E)
  have hob := h.obj
  rw [← hob, ← h.last_eq, h.num] at hsim
  refine h.run (E := E) (by rw [← hob]; exact hsim) ?_
  simp only [wp_bind, wp_lift, wp_setObj]
  refine wp_destroyRange rfl hn (fun i _ hi => (hf.live i).mpr (by simpa using hi)) ?_
  intro s1 hs1 ht1 hm1 _ _ _
  refine ⟨xs.take n, VSt.mk' rfl (by simp; omega) rfl (hf.st.upd hs1 ?_ ?_) (by simp; omega) ?_ hf.capLe hf.nLe, ?_⟩
  · intro i hi; rw [hm1]; have := hf.st.beyond i hi; grind
  · intro c hc i; rw [hm1]; grind
  · intro i
    rw [hm1]
    have := hf.cells i
    dsimp only at this ⊢
    rw [this, List.getElem?_take]
    grind
  · exact fun o' hg hfr ht => ⟨⟨_, hg⟩, ht.trans ht1⟩

theorem chunkLoop_cost {t : Table} {last : Ptr} {k : Nat} {c : Nat} : ∀ {sg : Ptr},
    cost (Seg.chunkLoop N t (fun _ p q _ => destroyRange p q) last c sg () : M (St α) Unit) (fun _ k' => k' = k) (fun _ => False) k := by
  induction c with
  | zero => intro sg; exact fun _ _ => trivial
  | succ c ih =>
    intro sg
    unfold Seg.chunkLoop
    exact .ite (fun _ => .pure rfl) fun _ => .bind (.still fun _ => .bind (.destroyRange ih))

theorem destroy_cost {t : Table} {p q : SIt} {k : Nat} :
    cost (Seg.destroy N t p q : M (St α) Unit) (fun _ k' => k' = k) (fun _ => False) k := by
  unfold Seg.destroy Seg.forChunks
  refine .ite (fun _ => .destroyRange rfl) fun _ => .bind (.still fun _ => .bind (.destroyRange (.bind ?_)))
  refine chunkLoop_cost.mono (fun _ _ h => ?_) fun _ h => h
  subst h
  exact .bind (.still fun _ => .destroyRange rfl)

theorem assignRangeInput_cost {as : List (Arg α)} : Spends (assignRangeInput E N as) (4 * as.length) := by
  intro v t
  refine .bind (.getObj (.bind (.lift (assignRangeLoop_cost.mono (fun r t' ht => ?_) fun t' ht => ?_))))
  · obtain ⟨rest, curr⟩ := r
    dsimp only at ht ⊢
    refine .ite (fun _ => .spends emplaceBackAll_cost (fun _ _ _ _ => by omega) fun _ _ _ => by omega) fun _ => ?_
    refine .ite (fun _ => .bind (.lift (destroy_cost.mono (fun _ _ h => .setObj (by omega)) fun _ h => h.elim))) fun _ => .pure (by omega)
  · omega

/-- What `assign(first, last)` (input iterators) does to the storage. -/
theorem assignRangeInput_size {ys : List α} (h : GSt N o al V tcap xs) :
    wp (assignRangeInput E N (ys.map .val))
      (fun _ o' => ∃ V' tcap' xs', GSt N o' al V' tcap' xs' ∧ V'.size ≤ slots N V.size ys.length)
      (fun _ o' => ∃ V' tcap' xs', GSt N o' al V' tcap' xs' ∧ V'.size ≤ slots N V.size ys.length) o := by
  have hl := h.len
  have hf := h.flat (E := E)
  have hle : V.size ≤ slots N V.size ys.length := by unfold slots; split <;> omega
  unfold assignRangeInput
  rw [wp_bind, wp_getObj, wp_bind, wp_lift, h.last_eq, h.first_eq]
  have hsim := sim_assignRangeLoop (lim := V.size) (E := E) (al := al) (tcap := tcap) h.fit h.len (as := ys.map .val) (Nat.zero_le _)
  rw [map_val, h.num] at hsim
  refine Sim.wp hsim h.lay ?_
  refine assignRangeLoop_spec (H := V.heap o.m) (Exts.vals ys) hf.st.agree hf.st.hblk (Nat.zero_le _) (fun i _ hi => (hf.live i).mpr hi) ?_ ?_
  · intro s1 hs1 hm1
    rintro ⟨rest, curr⟩ s' ⟨hrest, j, -, -, hc1, hc2⟩ rfl hlay
    simp only [Nat.sub_zero, Nat.zero_add] at hm1 hrest hc1 hc2
    obtain rfl : j = min xs.length ys.length := by injection hc2 with _ h; exact h.symm
    subst hc1
    have hg := h.back (w := o.obj) (s' := s') (xs' := ys.take xs.length ++ xs.drop ys.length) (E' := E.lim V.size)
      (o' := ⟨V.vec al xs.length, V.view s'⟩)
      (VSt.mk' rfl (by simp; omega) rfl (hf.st.upd hs1
        (by intro i hi; rw [hm1]; have := hf.st.beyond i hi; grind) (by intro c hc i; rw [hm1]; grind)) (by simp; omega)
        (by
          intro i
          rw [hm1]
          have := hf.cells i
          dsimp only at this
          rw [this]
          simp only [List.getElem?_append, List.getElem?_take, List.length_take, List.getElem?_drop]
          grind) hf.capLe hf.nLe)
      ⟨xs.length, h.len, h.obj, rfl⟩ rfl hlay
    obtain ⟨hg, hfr⟩ := hg
    by_cases hlt : xs.length < ys.length
    · have hr : rest = (ys.drop xs.length).map .val := by
        rw [hrest, ← List.map_drop, map_val]
      have hne : rest ≠ [] := by rw [hr]; simp; omega
      rw [List.drop_eq_nil_of_le (by omega), List.append_nil] at hg
      dsimp only
      rw [if_pos hne, hr]
      have := emplaceBackAll_ends (E := E) (ys := ys.drop xs.length) hg
      rw [show (ys.take xs.length).length + (ys.drop xs.length).length = ys.length by simp; omega] at this
      exact wp_mono this (fun _ _ h => h.1) fun _ _ h => h.1
    · have hr : rest = [] := by
        rw [hrest, List.drop_eq_nil_of_le (by simp; omega)]; rfl
      rw [hr, show min xs.length ys.length = ys.length by omega]
      rw [List.take_of_length_le (by omega)] at hg
      dsimp only
      rw [if_neg (by simp), h.fit.ltI (by omega) hl, wp_ite]
      split
      · have := truncate_ends E hg (n := ys.length) (by simp)
        dsimp only at this
        rw [h.last_eq, h.first_eq] at this
        refine wp_mono this ?_ (fun _ _ h => h.elim)
        rintro _ o1 ⟨⟨xs', h1⟩, -⟩
        exact ⟨V, tcap, xs', h1, hle⟩
      · rw [wp_pure]
        exact ⟨V, tcap, _, hg, hle⟩
  · intro s1 hs1 hm1 s' he hlay
    have hlive : ∀ i, (s1.mem V.tb i).isSome ↔ i < xs.length := by
      intro i
      have h1 := hm1 V.tb i
      have h2 := hf.live i
      dsimp only at h2
      grind
    obtain ⟨xs', hv, -⟩ := VSt.ofLive hf (s' := s1) rfl (hf.st.upd hs1
        (by
          intro i hi
          have h1 := hlive i
          have := hf.len
          cases hh : s1.mem V.tb i with
          | none => rfl
          | some v => rw [hh] at h1; simp at h1; omega)
        (by intro c hc i; have := hm1 c i; grind)) h.len hlive
    obtain ⟨hg, hfr⟩ := h.back (w := o.obj) hv ⟨xs.length, h.len, h.obj, rfl⟩ he hlay
    exact ⟨V, tcap, xs', hg, hle⟩

/-- `assign(first, last)` (input iterators). -/
theorem assignRangeInput_ends {ys : List α} (h : GSt N o al V tcap xs) :
    Ends N al (assignRangeInput E N (ys.map .val)) (slots N V.size ys.length) (o.m.tick + 4 * ys.length) o := by
  have := wp_both (assignRangeInput_size (E := E) (ys := ys) h) (assignRangeInput_cost _ _)
  rw [List.length_map] at this
  exact this

theorem allocs_one {c n : Nat} (h : n ≤ c) : allocs N c (n + 1) ≤ 3 := by
  unfold allocs
  split
  · omega
  · have : (n + 1 - c) / N ≤ n + 1 - c := Nat.div_le_self _ _
    omega

/-- Inserting the elements of an input range one by one. -/
theorem insertRangeLoop_ends {ys : List α} : ∀ {o : Obj SVec α} {V : View} {tcap k : Nat} {xs : List α}, GSt N o al V tcap xs → k ≤ xs.length →
    Ends N al (insertRangeLoop E N (ys.map .val) (V.it k)) (slots N V.size (xs.length + ys.length))
      (o.m.tick + ys.length * (xs.length - k + 5)) o := by
  induction ys with
  | nil =>
    intro o V tcap k xs h hk
    unfold Ends
    simp only [List.map_nil, insertRangeLoop]
    rw [wp_pure, slots_le (by simpa using h.len)]
    exact h.within (Nat.le_refl _) (by omega)
  | cons y ys ih =>
    intro o V tcap k xs h hk
    unfold Ends
    simp only [List.map_cons, insertRangeLoop, List.length_cons, Nat.succ_mul]
    have h3 := allocs_one (N := N) h.len
    rw [wp_bind]
    refine wp_mono (wp_and (emplace_spec (s := .value y) h rfl hk) (emplace_ends (E := E) (s := .value y) h rfl hk)) ?_ ?_
    · rintro r o1 ⟨⟨V1, tcap1, xs1, hg, hx, hf, rfl, ⟨v, hv, rfl⟩, -⟩, ⟨V2, tcap2, xs2, hg2, hz⟩, ht⟩
      cases hv
      have hl := hg.len
      have he := hg.same hg2
      have hx := hx.size
      have hlen : (xs.take k ++ [y] ++ xs.drop k).length = xs.length + 1 := by simp; omega
      rw [wp_bind, wp_getObj, wp_bind, wp_run (hg.inc_run (by omega) _)]
      have := ih hg (k := k + 1) (by omega)
      rw [hlen, show xs.length + 1 - (k + 1) = xs.length - k by omega] at this
      exact this.mono (slots_step hx (by omega)) (by omega)
    · rintro e o1 ⟨-, ⟨V2, tcap2, xs2, hg2, hz⟩, ht⟩
      refine hg2.within (Nat.le_trans hz ?_) (by omega)
      unfold slots
      split <;> split <;> omega

/-- `insert(pos, first, last)` (input iterators). -/
theorem insertRangeInput_ends {k : Nat} {ys : List α} (h : GSt N o al V tcap xs) (hk : k ≤ xs.length) :
    Ends N al (insertRangeInput E N (V.it k) ys) (slots N V.size (xs.length + ys.length))
      (o.m.tick + ys.length * (xs.length - k + 5)) o := by
  have hl := h.len
  unfold insertRangeInput Ends
  rw [wp_bind, wp_getObj, wp_bind, wp_run (assert_run (h.inRange hk)), h.first_eq, wp_bind,
    wp_run (h.dist_run (Nat.zero_le _) (by omega) _), wp_bind]
  refine wp_mono (wp_and (insertRangeLoop_spec h hk) (insertRangeLoop_ends (E := E) h hk)) ?_ fun _ _ h => h.2
  rintro _ o1 ⟨⟨V1, tcap1, xs1, hg, hx, hf, rfl⟩, hw⟩
  rw [wp_run (hg.nth_run (k := k - 0) (by simp; omega))]
  exact hw

/-- `clear`. -/
theorem clear_ends (E : Env α) (h : GSt N o al V tcap xs) : Ends N al (clear N) V.size o.m.tick o := by
  have := truncate_ends E h (Nat.zero_le _)
  rw [← h.first_eq] at this
  unfold clear Ends
  rw [wp_bind, wp_getObj]
  refine wp_mono this ?_ (fun _ _ h => h.elim)
  rintro _ o1 ⟨⟨xs', h1⟩, ht⟩
  exact h1.within (Nat.le_refl _) (by omega)

/-- `reserve`. -/
theorem reserve_ends {n : Nat} (h : GSt N o al V tcap xs) :
    Ends N al (reserve E N n) (slots N V.size n) (o.m.tick + allocs N V.size n + 0) o := by
  unfold reserve Ends
  rw [wp_bind, wp_run h.capacity_run]
  refine ends_need (E := E) (k := fun _ => pure ()) h Iff.rfl (fun _ => (M.bind_pure' _).symm) ?_ ?_
  · intro o1 V1 tcap1 hg _ _ _ _
    exact hg.within (Nat.le_refl _) (Nat.le_refl _)
  · exact fun _ => h.within (Nat.le_refl _) (Nat.le_refl _)

theorem shrinkStorage_cost : Spends (shrinkStorage E N) 1 := by
  intro v t
  refine .bind (.getObj (.bind (.spends (onTab_cost Seg.deallocSegs_cost) (fun _ _ _ _ => ?_) fun _ _ _ => by omega)))
  refine .bind (.getObj (.bind (.still fun _ => .bind (.still fun _ => .bind (.setObj (.bind (.still fun _ => ?_)))))))
  exact .spends replaceTable_cost (fun _ _ _ _ => by omega) fun _ _ _ => by omega

/-- `shrink_to_fit`. -/
theorem shrinkStorage_ends (h : GSt N o al V tcap xs) : Ends N al (shrinkStorage E N) V.size (o.m.tick + 1) o := by
  have hz : ∀ tb, (View.mk tb 0 (V.segs.take (xs.length / N + 1)) N).size ≤ V.size := fun tb =>
    View.Ext.size ⟨List.take_prefix _ _, h.num⟩
  refine wp_mono (wp_both (shrinkStorage_spec h) (shrinkStorage_cost _ _)) ?_ ?_
  · rintro _ o1 ⟨⟨tb, tcap', hg, -⟩, ht⟩
    exact hg.within (hz tb) ht
  · rintro e o1 ⟨⟨rfl, tb, tcap', hg, -⟩, ht⟩
    exact hg.within (hz tb) ht

/-! ### The dispatcher -/

theorem Ends.index {f : SM α SIt} {op : Sq.Op α} {k B W : Nat} (hp : op.pre xs.length = true) (he : ∀ f, op ≠ .eraseIf f)
    (h : wp f (fun r o' => Post N al V o (fun V' xs' => r = V'.it k ∧ Sq.okStep E xs op (some k) xs') o')
      (fun e o' => Fails E N al V o xs op e o') o) (h' : Ends N al f B W o) : Ends N al (f >>= indexOf N) B W o := by
  unfold Ends
  rw [wp_bind]
  refine wp_mono (wp_and h h') ?_ (fun _ _ h => h.2)
  rintro r o1 ⟨⟨V', tcap', xs', hg, hx, hf, rfl, hs⟩, hw⟩
  rw [wp_run (hg.indexOf_run (okStep_bound hs hp he))]
  exact hw

theorem Ends.map {β γ : Type} {f : SM α β} {g : β → γ} {B W : Nat} (h : Ends N al f B W o) : Ends N al (f >>= fun r => pure (g r)) B W o := by
  unfold Ends
  rw [wp_bind]
  refine wp_mono h ?_ (fun _ _ h => h)
  intro r o1 hp
  rw [wp_pure]
  exact hp

/-- Every modifier but the insertion of a range of input iterators. -/
theorem exec_ends (ra : Sq.Op α → Bool) (op : Sq.Op α) (h : GSt N o al V tcap xs) (hp : op.pre xs.length = true)
    (hi : op.isInsertInput = false) :
    Ends N al (exec E N ra op) (slots N V.size (op.room xs.length))
      (o.m.tick + 4 * op.work xs.length + 2 + allocs N V.size (op.room xs.length)) o := by
  have hl := h.len
  generalize hR : op.room xs.length = R
  generalize hW : op.work xs.length = W
  cases op <;> simp only [Sq.Op.room] at hR <;> simp only [Sq.Op.work] at hW <;> subst hR hW
  case pushBack s =>
    show wp (argOf N s >>= fun a => emplaceBack E N a >>= indexOf N) _ _ o
    rw [wp_bind, wp_run (argOf_run h hp)]
    exact (Ends.index hp (by simp) (emplaceBack_spec h hp) (emplaceBack_ends h hp)).mono (Nat.le_refl _) (by omega)
  case emplace k s =>
    show wp (argOf N s >>= fun a => nth N k >>= fun p => emplace E N p a >>= indexOf N) _ _ o
    have hp' : k ≤ xs.length ∧ s.ok xs.length = true := by simpa [Sq.Op.pre] using hp
    rw [wp_bind, wp_run (argOf_run h hp'.2), wp_bind, wp_run (h.nth_run hp'.1)]
    exact (Ends.index hp (by simp) (emplace_spec h hp'.2 hp'.1) (emplace_ends h hp'.2 hp'.1)).mono (Nat.le_refl _) (by omega)
  case insertN k n s =>
    show wp (argOf N s >>= fun a => nth N k >>= fun p => insertFillN E N p n a >>= indexOf N) _ _ o
    have hp' : k ≤ xs.length ∧ s.ok xs.length = true := by simpa [Sq.Op.pre] using hp
    rw [wp_bind, wp_run (argOf_run h hp'.2), wp_bind, wp_run (h.nth_run hp'.1)]
    exact (Ends.index hp (by simp) (insertFillN_spec h hp'.2 hp'.1) (insertFillN_ends h hp'.2 hp'.1)).mono (Nat.le_refl _) (by omega)
  case insertRange k ys =>
    show wp (nth N k >>= fun p => insertRange E N (ra (.insertRange k ys)) p ys >>= indexOf N) _ _ o
    have hp' : k ≤ xs.length := by simpa [Sq.Op.pre] using hp
    rw [wp_bind, wp_run (h.nth_run hp')]
    exact (Ends.index hp (by simp) (insertRange_spec h hp') (insertRange_ends h hp')).mono (Nat.le_refl _) (by omega)
  case insertInput k ys => simp [Sq.Op.isInsertInput] at hi
  case popBack =>
    rw [slots_le hl]
    exact (popBack_ends E h (by simpa [Sq.Op.pre] using hp)).map.mono (Nat.le_refl _) (by omega)
  case eraseAt k =>
    show wp (nth N k >>= fun p => eraseAt E N p >>= indexOf N) _ _ o
    have hp' : k < xs.length := by simpa [Sq.Op.pre] using hp
    rw [wp_bind, wp_run (h.nth_run (by omega)), slots_le hl]
    exact (Ends.index hp (by simp) (eraseAt_spec h hp') (eraseAt_ends h hp')).mono (Nat.le_refl _) (by omega)
  case eraseRange k l =>
    show wp (nth N k >>= fun p => nth N l >>= fun q => eraseRange E N p q >>= indexOf N) _ _ o
    have hp' : k ≤ l ∧ l ≤ xs.length := by simpa [Sq.Op.pre] using hp
    rw [wp_bind, wp_run (h.nth_run (by omega)), wp_bind, wp_run (h.nth_run hp'.2), slots_le hl]
    exact (Ends.index hp (by simp) (eraseRange_spec h hp'.1 hp'.2) (eraseRange_ends h hp'.1 hp'.2)).mono (Nat.le_refl _) (by omega)
  case resize n => exact (resizeWith_ends (s := .value E.dflt) h rfl).map.mono (Nat.le_refl _) (by omega)
  case resizeV n s =>
    show wp (argOf N s >>= fun a => resizeWith E N n a >>= fun _ => pure none) _ _ o
    rw [wp_bind, wp_run (argOf_run h hp)]
    exact (resizeWith_ends h hp).map.mono (Nat.le_refl _) (by omega)
  case assignN n v => exact (assignFillN_ends h).map.mono (Nat.le_refl _) (by omega)
  case assignRange ys => exact (assignRange_ends h).map.mono (Nat.le_refl _) (by omega)
  case assignInput ys => exact (assignRangeInput_ends h).map.mono (Nat.le_refl _) (by omega)
  case clear => rw [slots_le hl]; exact (clear_ends E h).map.mono (Nat.le_refl _) (by omega)
  case reserve n => exact (reserve_ends h).map.mono (Nat.le_refl _) (by omega)
  case shrinkToFit => rw [slots_le hl]; exact (shrinkStorage_ends h).map.mono (Nat.le_refl _) (by omega)
  case eraseIf f => rw [slots_le hl]; exact (eraseIf_ends h).map.mono (Nat.le_refl _) (by omega)

/-- The insertion of a range of input iterators. -/
theorem exec_insertInput_ends (ra : Sq.Op α → Bool) {k : Nat} {ys : List α} (h : GSt N o al V tcap xs) (hk : k ≤ xs.length) :
    Ends N al (exec E N ra (.insertInput k ys)) (slots N V.size (xs.length + ys.length))
      (o.m.tick + ys.length * (xs.length - k + 5)) o := by
  show wp (nth N k >>= fun p => insertRangeInput E N p ys >>= indexOf N) _ _ o
  have hp : (Sq.Op.insertInput k ys).pre xs.length = true := by simpa [Sq.Op.pre] using hk
  rw [wp_bind, wp_run (h.nth_run hk)]
  exact Ends.index hp (by simp) (insertRangeInput_spec h hk) (insertRangeInput_ends h hk)

/-! ### The exact cost of the insertion of a range of input iterators -/

/-- `emplace` before the end if there is room. -/
theorem emplace_exact {k : Nat} {s : Sq.Src α} (h : GSt N o al V tcap xs) (hs : s.ok xs.length = true) (hk : k < xs.length)
    (hr : xs.length + 1 ≤ V.size) :
    wp (emplace E N (V.it k) (srcArg V s))
      (fun _ o' => (∃ xs', GSt N o' al V tcap xs') ∧ o'.m.tick = o.m.tick + (xs.length - k) + 2) (fun _ _ => True) o := by
  have hl := h.len
  unfold emplace
  rw [wp_bind, wp_getObj, wp_bind, wp_run (assert_run (h.inRange (Nat.le_of_lt hk))), h.first_eq, wp_bind,
    wp_run (h.dist_run (Nat.zero_le _) (by omega) _), wp_bind,
    wp_run (h.adv_run (p := 0) (q := k) (by omega) (by omega) (by simp) _), h.eq_end, if_neg (by simp; omega)]
  have hsim := sim_emplaceTail (lim := V.size) (E := E) (al := al) (tcap := tcap) h.fit h.len (a := s.toArg ⟨V.tb, 0⟩) (Nat.le_of_lt hk)
  rw [srcArg_map, h.num] at hsim
  refine wp_mono (h.costAt (E := E) (op := .emplace k s) (t := o.m.tick) (Q' := fun t' => t' = o.m.tick + (xs.length - k) + 2)
    (X' := fun _ => True) hsim ?_ (pre_of (by simp [Sq.Op.pre, hs]; omega) hr rfl) ?_) (fun _ _ h => h) fun _ _ _ => trivial
  · rw [← add0]; rfl
  · have hd := (h.flat (E := E)).dim
    refine .bind ?_
    have argOf : ∀ {Q : Arg α → Vec → Nat → Prop} {X : Vec → Nat → Prop} {v : Vec} {t : Nat}, (∀ a, Q a v t) →
        vcost (Vector.argOf s : Vector.VM α (Arg α)) Q X v t := by
      intro Q X v t hQ
      unfold Vector.argOf
      exact .bind (.getObj (.pure (hQ _)))
    refine argOf fun a => .bind (.bind (.getObj (.pure (.bind ?_))))
    refine (StaticVector.emplace_cost (k := k) hd (by simp)).mono (fun _ _ _ hh => ?_) fun _ _ _ => trivial
    exact .bind (.getObj (.bind (.distance fun _ _ => .pure (hh.2.2.2.2.2 hk))))

theorem insertRangeLoop_exact {ys : List α} : ∀ {o : Obj SVec α} {V : View} {tcap k : Nat} {xs : List α}, GSt N o al V tcap xs → k < xs.length →
    xs.length + ys.length ≤ V.size →
    wp (insertRangeLoop E N (ys.map .val) (V.it k))
      (fun _ o' => o'.m.tick = o.m.tick + ys.length * (xs.length - k + 2)) (fun _ _ => True) o := by
  induction ys with
  | nil =>
    intro o V tcap k xs h hk hr
    simp only [List.map_nil, insertRangeLoop]
    rw [wp_pure]
    simp
  | cons y ys ih =>
    intro o V tcap k xs h hk hr
    simp only [List.map_cons, insertRangeLoop, List.length_cons, Nat.succ_mul] at hr ⊢
    rw [wp_bind]
    refine wp_mono (wp_and (emplace_spec (s := .value y) h rfl (Nat.le_of_lt hk)) (emplace_exact (E := E) (s := .value y) h rfl hk (by omega))) ?_
      fun _ _ _ => trivial
    rintro r o1 ⟨⟨V1, tcap1, xs1, hg, hx, hf, rfl, ⟨v, hv, rfl⟩, -⟩, ⟨xs2, hg2⟩, ht⟩
    cases hv
    have hl := hg.len
    have he := hg.same hg2
    have hlen : (xs.take k ++ [y] ++ xs.drop k).length = xs.length + 1 := by simp; omega
    rw [wp_bind, wp_getObj, wp_bind, wp_run (hg.inc_run (by omega) _)]
    have := ih hg (k := k + 1) (by omega) (by omega)
    rw [hlen, show xs.length + 1 - (k + 1) = xs.length - k by omega] at this
    refine wp_mono this (fun _ _ h => ?_) fun _ _ h => h
    omega

theorem exec_insertInput_exact (ra : Sq.Op α → Bool) {k : Nat} {ys : List α} (h : GSt N o al V tcap xs) (hk : k < xs.length)
    (hr : xs.length + ys.length ≤ V.size) :
    wp (exec E N ra (.insertInput k ys)) (fun _ o' => o'.m.tick = o.m.tick + ys.length * (xs.length - k + 2)) (fun _ _ => True) o := by
  have hl := h.len
  show wp (nth N k >>= fun p => insertRangeInput E N p ys >>= indexOf N) _ _ o
  rw [wp_bind, wp_run (h.nth_run (Nat.le_of_lt hk))]
  unfold insertRangeInput
  simp only [M.bind_assoc]
  rw [wp_bind, wp_getObj, wp_bind, wp_run (assert_run (h.inRange (Nat.le_of_lt hk))), h.first_eq, wp_bind,
    wp_run (h.dist_run (Nat.zero_le _) (by omega) _), wp_bind]
  refine wp_mono (wp_and (insertRangeLoop_spec h (Nat.le_of_lt hk)) (insertRangeLoop_exact (E := E) h hk hr)) ?_ fun _ _ _ => trivial
  rintro _ o1 ⟨⟨V1, tcap1, xs1, hg, hx, hf, rfl⟩, hw⟩
  rw [wp_bind, wp_run (hg.nth_run (k := k - 0) (by simp; omega)), wp_run (hg.indexOf_run (by simp; omega))]
  exact hw

end SegVec
end Sfl
