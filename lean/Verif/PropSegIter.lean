import Verif.SegSlots
/-
  Segmented iterators (C22) and the algorithms on segmented ranges (C23).

  `View` describes a layout: a table in block `tb` holding at index `base`, `base + 1`, … the addresses of the segments
  `segs`, each of `N` slots. Slot `p` is slot `p % N` of segment `p / N`; `V.it p` is the iterator designating it.
-/

set_option linter.unusedSimpArgs false

namespace Sfl
variable {α σ : Type}

/-- Run `f` `n` times. -/
def timesM (f : SIt → M σ SIt) : Nat → SIt → M σ SIt
  | 0, it => pure it
  | n + 1, it => do
    let it ← f it
    timesM f n it

/-- C22. Iterators designating slots of a layout obey the laws of random access iterators; no step reads the table
outside the entries of the layout (that would be undefined behaviour, and every operation below returns). -/
theorem segIter_laws {V : View} {t : Table} (ht : V.Tab t) (hN : 0 < V.N) (hd : V.segs.Nodup) (s : σ) :
    -- increment, decrement, and that they are inverse
    (∀ p, p + 1 < V.cap → Seg.inc V.N t (V.it p) s = .ok (V.it (p + 1)) s ∧ Seg.dec V.N t (V.it (p + 1)) s = .ok (V.it p) s) ∧
    (∀ p, p + 1 < V.cap →
      (Seg.inc V.N t (V.it p) >>= fun x => Seg.dec V.N t x) s = .ok (V.it p) s ∧
      (Seg.dec V.N t (V.it (p + 1)) >>= fun x => Seg.inc V.N t x) s = .ok (V.it (p + 1)) s) ∧
    -- `it + n` and `it - n` are `n` increments and decrements
    (∀ p n, p + n < V.cap → Seg.advance V.N t (V.it p) n s = timesM (Seg.inc V.N t) n (V.it p) s ∧
      Seg.advance V.N t (V.it (p + n)) (-n) s = timesM (Seg.dec V.N t) n (V.it (p + n)) s) ∧
    -- `(it + n) - it == n`, for `n` of any sign
    (∀ (p q : Nat) (n : Int), p < V.cap → q < V.cap → (q : Int) = p + n →
      Seg.advance V.N t (V.it p) n s = .ok (V.it q) s ∧
      (Seg.advance V.N t (V.it p) n >>= fun x => Seg.diff V.N t x (V.it p)) s = .ok n s) ∧
    -- order and equality
    (∀ p q, p < V.cap → q < V.cap → (Seg.lt (V.it p) (V.it q) = true ↔ ∃ d, Seg.diff V.N t (V.it q) (V.it p) s = .ok d s ∧ 0 < d) ∧
      (Seg.eq (V.it p) (V.it q) = true ↔ p = q)) ∧
    -- the slot designated
    (∀ i j, i < V.segs.length → j < V.N → (V.it (i * V.N + j)).loc = ⟨V.segs.getD i 0, j⟩) := by
  have hinc : ∀ n p, p + n < V.cap → timesM (Seg.inc V.N t) n (V.it p) s = .ok (V.it (p + n)) s := by
    intro n
    induction n with
    | zero => intro p _; rfl
    | succ n ih =>
      intro p h
      unfold timesM
      rw [M.bind_run, View.inc_run ht hN (by omega)]
      dsimp only
      rw [ih (p + 1) (by omega), show p + 1 + n = p + (n + 1) by omega]
  have hdec : ∀ n p, p + n < V.cap → timesM (Seg.dec V.N t) n (V.it (p + n)) s = .ok (V.it p) s := by
    intro n
    induction n with
    | zero => intro p _; rfl
    | succ n ih =>
      intro p h
      unfold timesM
      rw [M.bind_run, show p + (n + 1) = p + n + 1 by omega, View.dec_run ht hN (by omega)]
      dsimp only
      rw [ih p (by omega)]
  refine ⟨fun p h => ⟨View.inc_run ht hN h s, View.dec_run ht hN h s⟩, fun p h => ⟨?_, ?_⟩, fun p n h => ⟨?_, ?_⟩,
    fun p q n hp hq he => ⟨View.advance_run ht hN hp hq he s, ?_⟩, fun p q hp hq => ⟨?_, ?_⟩, fun i j hi hj => ?_⟩
  · rw [M.bind_run, View.inc_run ht hN h]; exact View.dec_run ht hN h s
  · rw [M.bind_run, View.dec_run ht hN h]; exact View.inc_run ht hN h s
  · rw [hinc n p h]; exact View.advance_run ht hN (by omega) h (by simp) s
  · rw [hdec n p h]; exact View.advance_run ht hN h (by omega) (by simp; omega) s
  · rw [M.bind_run, View.advance_run ht hN hp hq he]
    dsimp only
    rw [View.diff_run ht hN hq hp]
    congr 1; omega
  · rw [View.lt_it hN hp hq, View.diff_run ht hN hq hp, decide_eq_true_iff]
    constructor
    · intro h; exact ⟨_, rfl, by omega⟩
    · rintro ⟨d, h, h2⟩
      cases h; omega
  · rw [View.eq_it hd hN hp hq, decide_eq_true_iff]
  · rw [View.it_mk hj]; rfl

namespace SegDemo

/-- Three segments of two slots. -/
def V : View := ⟨10, 1, [12, 11, 14], 2⟩
/-- A table with unused entries at both ends. -/
def t : Table := ⟨10, [none, some ⟨12, 0⟩, some ⟨11, 0⟩, some ⟨14, 0⟩, none]⟩

theorem tab : V.Tab t := by
  refine ⟨rfl, ?_⟩
  intro i hi
  match i, hi with
  | 0, _ => rfl
  | 1, _ => rfl
  | 2, _ => rfl

end SegDemo

example : SegDemo.V.Tab SegDemo.t ∧ 0 < SegDemo.V.N ∧ SegDemo.V.segs.Nodup ∧ SegDemo.V.cap = 6 ∧
    SegDemo.V.it 3 = ⟨⟨10, 2⟩, ⟨11, 1⟩⟩ ∧
    Seg.advance 2 SegDemo.t (SegDemo.V.it 1) 3 () = .ok (SegDemo.V.it 4) () ∧
    Seg.advance 2 SegDemo.t (SegDemo.V.it 5) (-4) () = .ok (SegDemo.V.it 1) () :=
  ⟨SegDemo.tab, by decide, by decide, rfl, by decide, rfl, rfl⟩

namespace SegDemo

/-- Three segments of two slots holding 1, 2, 3, 4 (slots 0 to 3). -/
def m : St Nat where
  mem := fun b k => if b = 12 ∧ k = 0 then some 1 else if b = 12 ∧ k = 1 then some 2 else if b = 11 ∧ k = 0 then some 3
    else if b = 11 ∧ k = 1 then some 4 else none
  blk := fun b => if b = 10 then some ⟨5, some 7⟩ else if b = 11 ∨ b = 12 ∨ b = 14 then some ⟨2, some 7⟩ else none
  next := 20
  tick := 0

theorem lay : V.Lay 7 5 m where
  wf := by
    refine ⟨by decide, rfl, fun b hb => ?_, fun b hb k => ?_⟩
    · simp [m] at hb
      simp only [m]
      rw [if_neg (by omega), if_neg (by omega)]
    · have h1 : b ≠ 11 := by rintro rfl; simp [m] at hb
      have h2 : b ≠ 12 := by rintro rfl; simp [m] at hb
      simp [m, h1, h2]
  npos := by decide
  len := by decide
  nodup := by decide
  notin := by decide
  tbk := rfl
  traw := fun i => by simp [m, SegDemo.V]
  sblk := by
    intro b hb
    simp [SegDemo.V] at hb
    rcases hb with rfl | rfl | rfl <;> rfl
  beyond := by
    intro b hb i hi
    simp [SegDemo.V] at hb hi
    simp only [m]
    rw [if_neg (by omega), if_neg (by omega), if_neg (by omega), if_neg (by omega)]
  hidden := rfl

/-- Like `m`, every slot but the last one alive. -/
def full : St Nat := { m with mem := fun b k => if b = 14 ∧ k = 0 then some 5 else m.mem b k }

/-- A second container, with the same memory: its segments are 21 and 22, holding 8, 9, 6 from the middle of the first. -/
def V2 : View := ⟨20, 0, [21, 22], 2⟩
def t2 : Table := ⟨20, [some ⟨21, 0⟩, some ⟨22, 0⟩]⟩
def both : St Nat where
  mem := fun b k => if b = 21 ∧ k = 1 then some 8 else if b = 22 ∧ k = 0 then some 9 else m.mem b k
  blk := fun b => if b = 20 ∨ b = 21 ∨ b = 22 then some ⟨2, some 7⟩ else m.blk b
  next := 30
  tick := 0

theorem lay_of {s : St Nat} (hw : s.Wf) (hb : ∀ b, b = 10 ∨ b = 11 ∨ b = 12 ∨ b = 14 → s.blk b = m.blk b)
    (hm : ∀ b, b = 10 ∨ b = 11 ∨ b = 12 → ∀ k, s.mem b k = m.mem b k) (h14 : ∀ k, 1 ≤ k → s.mem 14 k = none) :
    V.Lay 7 5 s where
  wf := hw
  npos := by decide
  len := by decide
  nodup := by decide
  notin := by decide
  tbk := hb 10 (by simp)
  traw := fun i => by rw [show V.tb = 10 from rfl, hm 10 (by simp)]; exact lay.traw i
  sblk := by
    intro b hb'
    rw [hb b (by simp [SegDemo.V] at hb'; omega)]
    exact lay.sblk b hb'
  beyond := by
    intro b hb' i hi
    have h : b = 12 ∨ b = 11 ∨ b = 14 := by simpa [SegDemo.V] using hb'
    have hi' : 2 ≤ i := hi
    rcases h with rfl | rfl | rfl
    · rw [hm 12 (by simp)]; exact lay.beyond 12 hb' i hi
    · rw [hm 11 (by simp)]; exact lay.beyond 11 hb' i hi
    · exact h14 i (by omega)
  hidden := h14 1 (by omega)

theorem full_lay : V.Lay 7 5 full := by
  refine lay_of ⟨by decide, rfl, lay.wf.fresh, fun b hb k => ?_⟩ (fun _ _ => rfl) (fun b hb k => ?_) (fun k hk => ?_)
  · have : b ≠ 14 := by rintro rfl; simp [full, m] at hb
    simp only [full, this, false_and, if_false]
    exact lay.wf.dead b hb k
  · simp only [full]; rw [if_neg (by omega)]
  · simp only [full]; rw [if_neg (by omega)]; simp [m]

theorem both_lay : V.Lay 7 5 both := by
  refine lay_of ⟨by decide, rfl, fun b hb => ?_, fun b hb k => ?_⟩ (fun b hb => ?_) (fun b hb k => ?_) (fun k hk => ?_)
  · simp [both] at hb
    simp only [both]; rw [if_neg (by omega)]; exact lay.wf.fresh b (by simp [m]; omega)
  · have h1 : b ≠ 21 := by rintro rfl; simp [both] at hb
    have h2 : b ≠ 22 := by rintro rfl; simp [both] at hb
    have h3 : b ≠ 20 := by rintro rfl; simp [both] at hb
    simp only [both, h1, h2, h3, false_and, if_false, false_or] at hb ⊢
    exact lay.wf.dead b hb k
  · simp only [both]; rw [if_neg (by omega)]
  · simp only [both]; rw [if_neg (by omega), if_neg (by omega)]
  · simp only [both]; rw [if_neg (by omega), if_neg (by omega)]; simp [m]

/-- Only slot 0 alive. -/
def one : St Nat := { m with mem := fun b k => if b = 12 ∧ k = 0 then some 1 else none }

theorem one_lay : V.Lay 7 5 one where
  wf := by
    refine ⟨by decide, rfl, lay.wf.fresh, fun b hb k => ?_⟩
    have : b ≠ 12 := by rintro rfl; simp [one, m] at hb
    simp [one, this]
  npos := by decide
  len := by decide
  nodup := by decide
  notin := by decide
  tbk := rfl
  traw := fun i => by simp [one, SegDemo.V]
  sblk := lay.sblk
  beyond := by
    intro b hb i hi
    have hi' : 2 ≤ i := hi
    simp only [one]
    rw [if_neg (by omega)]
  hidden := rfl

/-- The contents of the slots. -/
def slots (V : View) (s : St Nat) : List (Option Nat) := (List.range V.cap).map (V.slot s)

def after {β : Type} (r : Res (St Nat) β) : List (Option Nat) :=
  match r with
  | .ok _ s => slots V s
  | .exn _ s => slots V s
  | .ub _ => []

/-- Moving from an element leaves 1000; the operations at the given times throw. -/
def env (ts : List Nat) : Env Nat where
  throws := fun t => ts.contains t
  moved := fun _ => 1000
  failSrc := fun _ _ => 2000
  failDst := fun _ _ _ => 3000
  nothrowMoveCtor := false
  nothrowMoveAssign := false
  copyable := true
  dflt := 0
  maxSize := 100

end SegDemo

/-! ### C23 -/

section
variable {V Vs : View} {al tcap : Nat} {E : Env α} {t : Table} {s : St α}

/-- C23. `fill` over the slots `[p, q)` assigns to exactly these, whatever segments they lie in. -/
theorem segFill_slots {p q : Nat} {x : α} (hl : V.Lay al tcap s) (ht : V.Tab t) (hpq : p ≤ q) (hq : q ≤ V.size)
    (hlive : ∀ k, p ≤ k → k < q → (V.slot s k).isSome) :
    wp (Seg.fill E V.N t (V.it p) (V.it q) (.val x))
      (fun _ s' => (∀ k, k < V.cap → V.slot s' k = if p ≤ k ∧ k < q then some x else V.slot s k) ∧ V.Elsewhere s s')
      (fun e s' => e = .elem ∧ (∀ k, k < V.cap → if p ≤ k ∧ k < q then (V.slot s' k).isSome else V.slot s' k = V.slot s k) ∧
        V.Elsewhere s s') s := by
  have hc := hl.size_lt
  refine Sim.wp (View.sim_fill (lim := 0) (a := .val x) ht hl.npos hpq (by omega)) hl ?_
  unfold fillRange
  rw [wp_bind]
  refine wp_distance rfl hpq ?_
  rw [wp_bind]
  refine wp_assignGo_copy (vs := List.replicate (q - p) x) (by simp [Arg.value]) (by simp [Arg.src]) (by simp [Arg.value]) ?_ ?_ ?_
  · intro i h1 h2
    simp at h1 h2
    rw [View.view_slot (by omega)]; exact hlive i h1 (by omega)
  · intro s1 _ _ hm
    rw [wp_pure]
    intro _ s' _ he hl'
    refine View.slots_of hl hl' he (fun k hk => ?_) (fun k hk => ?_) (fun b i hb => ?_)
    · rw [hm]
      simp only [Ptr.has, List.length_replicate]
      by_cases h : p ≤ k ∧ k < q
      · rw [if_pos (by simp; omega), if_pos h, List.getElem?_replicate, if_pos (by omega)]
      · rw [if_neg (by simp; omega), if_neg h, View.view_slot hk]
    · rw [if_neg (by omega)]
    · rw [hm, if_neg (by simp [Ptr.has]; intro h; exact absurd h hb)]
  · intro s1 _ hm s' he hl'
    refine ⟨rfl, View.slots_exn hl hl' he (fun k hk => ?_) (fun k hk => by omega) (fun b i hb => ?_)⟩
    · have := hm V.tb k
      simp only [Ptr.has, List.length_replicate] at this
      by_cases h : p ≤ k ∧ k < q
      · rw [if_pos (by simp; omega)] at this; rw [if_pos h]; exact this
      · rw [if_neg (by simp; omega)] at this; rw [if_neg h]; exact this
    · have := hm b i
      rwa [if_neg (by simp [Ptr.has]; intro h; exact absurd h hb)] at this

example : (∀ k, 1 ≤ k → k < 4 → (SegDemo.V.slot SegDemo.m k).isSome) ∧ SegDemo.V.Lay 7 5 SegDemo.m ∧
    SegDemo.after (Seg.fill (SegDemo.env []) 2 SegDemo.t (SegDemo.V.it 1) (SegDemo.V.it 4) (.val 9) SegDemo.m) =
      [some 1, some 9, some 9, some 9, none, none] ∧
    SegDemo.after (Seg.fill (SegDemo.env [1]) 2 SegDemo.t (SegDemo.V.it 1) (SegDemo.V.it 4) (.val 9) SegDemo.m) =
      [some 1, some 9, some 3000, some 4, none, none] := by
  refine ⟨fun k h1 h2 => ?_, SegDemo.lay, by decide, by decide⟩
  have : k = 1 ∨ k = 2 ∨ k = 3 := by omega
  rcases this with rfl | rfl | rfl <;> rfl

/-- C23. Copying a sequence of values (a flat source) onto the slots from `r` on. `ra` says whether the source has random
access iterators: then whole segments are copied at a time, otherwise the elements one by one. -/
theorem segCopyIn_slots {ra : Bool} {r : Nat} {xs : List α} (hl : V.Lay al tcap s) (ht : V.Tab t) (hr : r + xs.length ≤ V.size)
    (hlive : ∀ k, r ≤ k → k < r + xs.length → (V.slot s k).isSome) :
    wp (if ra then Seg.assignTo E V.N t (xs.map .val) (V.it r) else Seg.assignEach E V.N t (xs.map .val) (V.it r))
      (fun it s' => it = V.it (r + xs.length) ∧
        (∀ k, k < V.cap → V.slot s' k = if r ≤ k ∧ k < r + xs.length then xs[k - r]? else V.slot s k) ∧ V.Elsewhere s s')
      (fun e s' => e = .elem ∧
        (∀ k, k < V.cap → if r ≤ k ∧ k < r + xs.length then (V.slot s' k).isSome else V.slot s' k = V.slot s k) ∧
        V.Elsewhere s s') s := by
  have hc := hl.size_lt
  have hsim : Sim V al tcap
      (if ra then Seg.assignTo E V.N t (xs.map .val) (V.it r) else Seg.assignEach E V.N t (xs.map .val) (V.it r))
      (assignGo (E.lim 0) ⟨V.tb, r⟩ (xs.map .val)) (V.At (r + xs.length)) := by
    have e : xs.map (Arg.val (α := α)) = (xs.map .val).map (Arg.map V.map) := by simp [Arg.map]
    have h1 := View.sim_assignTo (E := E) (lim := 0) (al := al) (tcap := tcap) (as := xs.map .val) (p := r) ht hl.npos (by simp; omega)
    have h2 := View.sim_assignEach (E := E) (lim := 0) (al := al) (tcap := tcap) (as := xs.map .val) (p := r) ht hl.npos (by simp; omega)
    rw [← e, List.length_map] at h1 h2
    cases ra
    · exact h2
    · exact h1
  refine Sim.wp hsim hl ?_
  refine wp_assignGo_copy (vs := xs) (by simp [Arg.value]) (by simp [Arg.src]) (by simp [Arg.value]) ?_ ?_ ?_
  · intro i h1 h2
    simp at h1 h2
    rw [View.view_slot (by omega)]; exact hlive i h1 (by omega)
  · intro s1 _ _ hm it s' hat he hl'
    refine ⟨hat.1, View.slots_of hl hl' he (fun k hk => ?_) (fun k hk => ?_) (fun b i hb => ?_)⟩
    · rw [hm]
      simp only [Ptr.has, List.length_map]
      by_cases h : r ≤ k ∧ k < r + xs.length
      · rw [if_pos (by simp; omega), if_pos h]
      · rw [if_neg (by simp; omega), if_neg h, View.view_slot hk]
    · rw [if_neg (by omega)]
    · rw [hm, if_neg (by simp [Ptr.has]; intro h; exact absurd h hb)]
  · intro s1 _ hm s' he hl'
    refine ⟨rfl, View.slots_exn hl hl' he (fun k hk => ?_) (fun k hk => by omega) (fun b i hb => ?_)⟩
    · have := hm V.tb k
      simp only [Ptr.has, List.length_map] at this
      by_cases h : r ≤ k ∧ k < r + xs.length
      · rw [if_pos (by simp; omega)] at this; rw [if_pos h]; exact this
      · rw [if_neg (by simp; omega)] at this; rw [if_neg h]; exact this
    · have := hm b i
      rwa [if_neg (by simp [Ptr.has]; intro h; exact absurd h hb)] at this

example : (∀ k, 1 ≤ k → k < 1 + [7, 8, 9].length → (SegDemo.V.slot SegDemo.m k).isSome) ∧ SegDemo.V.Lay 7 5 SegDemo.m ∧
    SegDemo.after (Seg.assignTo (SegDemo.env []) 2 SegDemo.t ([7, 8, 9].map .val) (SegDemo.V.it 1) SegDemo.m) =
      [some 1, some 7, some 8, some 9, none, none] ∧
    SegDemo.after (Seg.assignEach (SegDemo.env []) 2 SegDemo.t ([7, 8, 9].map .val) (SegDemo.V.it 1) SegDemo.m) =
      [some 1, some 7, some 8, some 9, none, none] := by
  refine ⟨fun k h1 h2 => ?_, SegDemo.lay, by decide, by decide⟩
  have : k = 1 ∨ k = 2 ∨ k = 3 := by simp at h2; omega
  rcases this with rfl | rfl | rfl <;> rfl

/-- C23. Constructing elements from a sequence of values (a flat source) in the slots from `r` on: if a constructor
throws, none is left. -/
theorem segConstruct_slots {ra : Bool} {r : Nat} {xs : List α} (hl : V.Lay al tcap s) (ht : V.Tab t) (hr : r + xs.length ≤ V.size)
    (hraw : ∀ k, r ≤ k → k < r + xs.length → V.slot s k = none) :
    wp (if ra then Seg.uninitTo E V.N t (xs.map .val) (V.it r) else Seg.uninitEach E V.N t (xs.map .val) (V.it r))
      (fun it s' => it = V.it (r + xs.length) ∧
        (∀ k, k < V.cap → V.slot s' k = if r ≤ k ∧ k < r + xs.length then xs[k - r]? else V.slot s k) ∧ V.Elsewhere s s')
      (fun e s' => e = .elem ∧ (∀ k, k < V.cap → V.slot s' k = V.slot s k) ∧ V.Elsewhere s s') s := by
  have hc := hl.size_lt
  have hsim : Sim V al tcap
      (if ra then Seg.uninitTo E V.N t (xs.map .val) (V.it r) else Seg.uninitEach E V.N t (xs.map .val) (V.it r))
      (uninit (E.lim 0) ⟨V.tb, r⟩ (xs.map .val)) (V.At (r + xs.length)) := by
    have e : xs.map (Arg.val (α := α)) = (xs.map .val).map (Arg.map V.map) := by simp [Arg.map]
    have h1 := View.sim_uninitTo (E := E) (lim := 0) (al := al) (tcap := tcap) (as := xs.map .val) (p := r) ht hl.npos (by simp; omega)
    have h2 := View.sim_uninitEach (E := E) (lim := 0) (al := al) (tcap := tcap) (as := xs.map .val) (p := r) ht hl.npos (by simp; omega)
    rw [← e, List.length_map] at h1 h2
    cases ra
    · exact h2
    · exact h1
  refine Sim.wp hsim hl ?_
  refine wp_uninit_copy (vs := xs) (by simp [Arg.value]) (by simp [Arg.src]) ?_ ?_ ?_ ?_
  · intro j hj
    simp at hj
    have : r + j < V.size := by omega
    simp [St.inB, View.view, Ptr.add, this]
  · intro j hj
    simp at hj
    show (V.view s).mem V.tb (r + j) = none
    rw [View.view_slot (by omega)]; exact hraw _ (by omega) (by omega)
  · intro s1 _ _ hm it s' hat he hl'
    refine ⟨hat.1, View.slots_of hl hl' he (fun k hk => ?_) (fun k hk => ?_) (fun b i hb => ?_)⟩
    · rw [hm]
      simp only [Ptr.has, List.length_map]
      by_cases h : r ≤ k ∧ k < r + xs.length
      · rw [if_pos (by simp; omega), if_pos h]
      · rw [if_neg (by simp; omega), if_neg h, View.view_slot hk]
    · rw [if_neg (by omega)]
    · rw [hm, if_neg (by simp [Ptr.has]; intro h; exact absurd h hb)]
  · intro s1 _ hm s' he hl'
    exact ⟨rfl, View.slots_of hl hl' he (fun k hk => by rw [hm, View.view_slot hk]) (fun _ _ => rfl) (fun b i hb => by rw [hm])⟩

example : (∀ k, 1 ≤ k → k < 1 + [7, 8, 9].length → SegDemo.V.slot SegDemo.one k = none) ∧ SegDemo.V.Lay 7 5 SegDemo.one ∧
    SegDemo.after (Seg.uninitTo (SegDemo.env []) 2 SegDemo.t ([7, 8, 9].map .val) (SegDemo.V.it 1) SegDemo.one) =
      [some 1, some 7, some 8, some 9, none, none] ∧
    SegDemo.after (Seg.uninitTo (SegDemo.env [2]) 2 SegDemo.t ([7, 8, 9].map .val) (SegDemo.V.it 1) SegDemo.one) =
      [some 1, none, none, none, none, none] := by
  refine ⟨fun k h1 h2 => ?_, SegDemo.one_lay, by decide, by decide⟩
  have : k = 1 ∨ k = 2 ∨ k = 3 := by simp at h2; omega
  rcases this with rfl | rfl | rfl <;> rfl

/-- C23. Destroying the slots `[p, q)`. -/
theorem segDestroy_slots {p q : Nat} (hl : V.Lay al tcap s) (ht : V.Tab t) (hpq : p ≤ q) (hq : q ≤ V.size)
    (hlive : ∀ k, p ≤ k → k < q → (V.slot s k).isSome) :
    wp (Seg.destroy V.N t (V.it p) (V.it q))
      (fun _ s' => (∀ k, k < V.cap → V.slot s' k = if p ≤ k ∧ k < q then none else V.slot s k) ∧ V.Elsewhere s s')
      (fun _ _ => False) s := by
  have hc := hl.size_lt
  refine Sim.wp (View.sim_destroy ht hl.npos hpq (by omega)) hl ?_
  refine wp_destroyRange rfl hpq (fun k h1 h2 => ?_) ?_
  · rw [View.view_slot (by simp at h2; omega)]; exact hlive k h1 h2
  · intro s1 _ _ hm _ s' _ he hl'
    refine View.slots_of hl hl' he (fun k hk => ?_) (fun k hk => ?_) (fun b i hb => ?_)
    · rw [hm]
      simp only [Ptr.has]
      by_cases h : p ≤ k ∧ k < q
      · rw [if_pos (by simp; omega), if_pos h]
      · rw [if_neg (by simp; omega), if_neg h, View.view_slot hk]
    · rw [if_neg (by omega)]
    · rw [hm, if_neg (by simp [Ptr.has]; intro h; exact absurd h hb)]

example : (∀ k, 1 ≤ k → k < 4 → (SegDemo.V.slot SegDemo.m k).isSome) ∧ SegDemo.V.Lay 7 5 SegDemo.m ∧
    SegDemo.after (Seg.destroy 2 SegDemo.t (SegDemo.V.it 1) (SegDemo.V.it 4) SegDemo.m) =
      [some 1, none, none, none, none, none] := by
  refine ⟨fun k h1 h2 => ?_, SegDemo.lay, by decide⟩
  have : k = 1 ∨ k = 2 ∨ k = 3 := by omega
  rcases this with rfl | rfl | rfl <;> rfl

/-- C23. Moving the elements of the slots `[p, q)` towards the front (as erasure does), within one container: the slots
`[r, r + (q - p))` then hold them, in their order, wherever the segment boundaries are. -/
theorem segMoveForward_slots {p q r : Nat} (hl : V.Lay al tcap s) (ht : V.Tab t) (hrp : r < p) (hpq : p ≤ q) (hq : q ≤ V.size)
    (hlive : ∀ k, r ≤ k → k < q → (V.slot s k).isSome) :
    wp (Seg.assignSeg E V.N t t .mv (V.it p) (V.it q) (V.it r))
      (fun it s' => it = V.it (r + (q - p)) ∧
        (∀ k, k < V.cap → V.slot s' k = if r ≤ k ∧ k < r + (q - p) then V.slot s (p + (k - r))
          else if p ≤ k ∧ k < q then (V.slot s k).map E.moved else V.slot s k) ∧ V.Elsewhere s s')
      (fun e s' => e = .elem ∧ E.nothrowMoveAssign = false ∧
        (∀ k, k < V.cap → if r ≤ k ∧ k < q then (V.slot s' k).isSome else V.slot s' k = V.slot s k) ∧ V.Elsewhere s s') s := by
  have hc := hl.size_lt
  have hsim := View.sim_assignSeg (E := E) (lim := 0) (al := al) (tcap := tcap) (mk := .mv) (va := fun k => ⟨V.tb, k⟩)
    (p := p) (q := q) (r := r) ht ht hl.npos rfl (fun _ => rfl) hpq (by omega) (by omega) (fun i _ _ => View.map_tb ..)
  rw [← args_eq] at hsim
  refine Sim.wp hsim hl ?_
  refine wp_assignGo_move (fun i h1 h2 => ?_) (fun i h1 h2 => ?_) (Or.inr (Or.inl hrp)) ?_ ?_
  · simp at h1 h2; rw [View.view_slot (by omega)]; exact hlive i (by omega) (by omega)
  · simp at h1 h2; rw [View.view_slot (by omega)]; exact hlive i (by omega) (by omega)
  · intro s1 _ _ hm it s' hat he hl'
    refine ⟨hat.1, View.slots_of hl hl' he (fun k hk => ?_) (fun k hk => ?_) (fun b i hb => ?_)⟩
    · rw [hm]
      simp only [Ptr.has]
      by_cases h : r ≤ k ∧ k < r + (q - p)
      · rw [if_pos (by simp; omega), if_pos h, View.view_slot (by omega)]
      · rw [if_neg (by simp; omega), if_neg h]
        by_cases h' : p ≤ k ∧ k < q
        · rw [if_pos (by simp; omega), if_pos h', View.view_slot hk]; rfl
        · rw [if_neg (by simp; omega), if_neg h', View.view_slot hk]
    · rw [if_neg (by omega), if_neg (by omega)]
    · rw [hm, if_neg (by simp [Ptr.has]; intro h; exact absurd h hb), if_neg (by simp [Ptr.has]; intro h; exact absurd h hb)]
  · intro hn s1 _ hm s' he hl'
    refine ⟨rfl, hn, View.slots_exn hl hl' he (fun k hk => ?_) (fun k hk => by omega) (fun b i hb => ?_)⟩
    · have := hm V.tb k
      by_cases h' : (⟨V.tb, r⟩ : Ptr).has (q - p) V.tb k ∨ (⟨V.tb, p⟩ : Ptr).has (q - p) V.tb k
      · rw [if_pos h'] at this
        simp [Ptr.has] at h'
        rw [if_pos (by omega)]; exact this
      · rw [if_neg h'] at this
        split
        · rw [this, View.view_slot hk]; exact hlive k (by omega) (by omega)
        · exact this
    · have := hm b i
      rwa [if_neg (by simp [Ptr.has]; constructor <;> (intro h; exact absurd h hb))] at this

example : (∀ k, 1 ≤ k → k < 5 → (SegDemo.V.slot SegDemo.full k).isSome) ∧ SegDemo.V.Lay 7 5 SegDemo.full ∧
    SegDemo.after (Seg.assignSeg (SegDemo.env []) 2 SegDemo.t SegDemo.t .mv (SegDemo.V.it 2) (SegDemo.V.it 5) (SegDemo.V.it 1)
      SegDemo.full) = [some 1, some 3, some 4, some 5, some 1000, none] := by
  refine ⟨fun k h1 h2 => ?_, SegDemo.full_lay, by decide⟩
  have : k = 1 ∨ k = 2 ∨ k = 3 ∨ k = 4 := by omega
  rcases this with rfl | rfl | rfl | rfl <;> rfl

/-- C23. Moving the elements of the slots `[p, q)` towards the back (as insertion does), within one container: they end
up in the slots before `r`. -/
theorem segMoveBackward_slots {p q r : Nat} (hl : V.Lay al tcap s) (ht : V.Tab t) (hqr : q < r) (hpq : p ≤ q) (hr : r ≤ V.size)
    (hlive : ∀ k, p ≤ k → k < r → (V.slot s k).isSome) :
    wp (Seg.backSeg E V.N t t .mv (V.it p) (V.it q) (V.it r))
      (fun it s' => it = V.it (r - (q - p)) ∧
        (∀ k, k < V.cap → V.slot s' k = if r - (q - p) ≤ k ∧ k < r then V.slot s (p + (k - (r - (q - p))))
          else if p ≤ k ∧ k < q then (V.slot s k).map E.moved else V.slot s k) ∧ V.Elsewhere s s')
      (fun e s' => e = .elem ∧ E.nothrowMoveAssign = false ∧
        (∀ k, k < V.cap → if p ≤ k ∧ k < r then (V.slot s' k).isSome else V.slot s' k = V.slot s k) ∧ V.Elsewhere s s') s := by
  have hc := hl.size_lt
  have hsim := View.sim_backSeg (E := E) (lim := 0) (al := al) (tcap := tcap) (mk := .mv)
    (p := p) (q := q) (d := r) ht hl.npos (fun _ => rfl) hpq (by omega) (by omega) (by omega)
  rw [← moveBackGo_eq] at hsim
  refine Sim.wp hsim hl ?_
  have hback : moveBackGo (E.lim 0) ⟨V.tb, p⟩ (q - p) ⟨V.tb, r⟩ = moveBackward (E.lim 0) ⟨V.tb, p⟩ ⟨V.tb, q⟩ ⟨V.tb, r⟩ := by
    funext s
    unfold moveBackward
    rw [M.bind_run, distance_run (p := ⟨V.tb, p⟩) (q := ⟨V.tb, q⟩) rfl hpq]
  rw [hback]
  refine wp_moveBackward (q := ⟨V.tb, r - (q - p)⟩) (n := q - p) rfl (by simp; omega) (by simp [Ptr.add]; omega) (fun i h1 h2 => ?_)
    (fun i h1 h2 => ?_) (Or.inr (Or.inl (by simp; omega))) ?_ ?_
  · simp at h1 h2; rw [View.view_slot (by omega)]; exact hlive i (by omega) (by omega)
  · simp at h1 h2; rw [View.view_slot (by omega)]; exact hlive i (by omega) (by omega)
  · intro s1 _ _ hm it s' hat he hl'
    refine ⟨hat.1, View.slots_of hl hl' he (fun k hk => ?_) (fun k hk => ?_) (fun b i hb => ?_)⟩
    · rw [hm]
      simp only [Ptr.has]
      by_cases h : r - (q - p) ≤ k ∧ k < r
      · rw [if_pos (by simp; omega), if_pos h, View.view_slot (by omega)]
      · rw [if_neg (by simp; omega), if_neg h]
        by_cases h' : p ≤ k ∧ k < q
        · rw [if_pos (by simp; omega), if_pos h', View.view_slot hk]; rfl
        · rw [if_neg (by simp; omega), if_neg h', View.view_slot hk]
    · rw [if_neg (by omega), if_neg (by omega)]
    · rw [hm, if_neg (by simp [Ptr.has]; intro h; exact absurd h hb), if_neg (by simp [Ptr.has]; intro h; exact absurd h hb)]
  · intro hn s1 _ hm s' he hl'
    refine ⟨rfl, hn, View.slots_exn hl hl' he (fun k hk => ?_) (fun k hk => by omega) (fun b i hb => ?_)⟩
    · have := hm V.tb k
      by_cases h' : (⟨V.tb, r - (q - p)⟩ : Ptr).has (q - p) V.tb k ∨ (⟨V.tb, p⟩ : Ptr).has (q - p) V.tb k
      · rw [if_pos h'] at this
        simp [Ptr.has] at h'
        rw [if_pos (by omega)]; exact this
      · rw [if_neg h'] at this
        split
        · rw [this, View.view_slot hk]; exact hlive k (by omega) (by omega)
        · exact this
    · have := hm b i
      rwa [if_neg (by simp [Ptr.has]; constructor <;> (intro h; exact absurd h hb))] at this

example : (∀ k, 1 ≤ k → k < 5 → (SegDemo.V.slot SegDemo.full k).isSome) ∧ SegDemo.V.Lay 7 5 SegDemo.full ∧
    SegDemo.after (Seg.backSeg (SegDemo.env []) 2 SegDemo.t SegDemo.t .mv (SegDemo.V.it 1) (SegDemo.V.it 4) (SegDemo.V.it 5)
      SegDemo.full) = [some 1, some 1000, some 2, some 3, some 4, none] := by
  refine ⟨fun k h1 h2 => ?_, SegDemo.full_lay, by decide⟩
  have : k = 1 ∨ k = 2 ∨ k = 3 ∨ k = 4 := by omega
  rcases this with rfl | rfl | rfl | rfl <;> rfl

/-- C23. Copying the slots `[p, q)` of another container onto the slots from `r` on; the two are segmented differently
only in where the segment boundaries fall (same `N`). -/
theorem segCopyBetween_slots {t' : Table} {p q r : Nat} (hl : V.Lay al tcap s) (ht : V.Tab t) (hs : Vs.Tab t') (hNN : Vs.N = V.N)
    (hsep : ∀ b ∈ Vs.segs, b ≠ V.tb ∧ b ∉ V.segs) (hpq : p ≤ q) (hq : q < Vs.cap) (hr : r + (q - p) ≤ V.size)
    (hsrc : ∀ k, p ≤ k → k < q → (Vs.slot s k).isSome) (hlive : ∀ k, r ≤ k → k < r + (q - p) → (V.slot s k).isSome) :
    wp (Seg.assignSeg E V.N t' t .ref (Vs.it p) (Vs.it q) (V.it r))
      (fun it s' => it = V.it (r + (q - p)) ∧
        (∀ k, k < V.cap → V.slot s' k = if r ≤ k ∧ k < r + (q - p) then Vs.slot s (p + (k - r)) else V.slot s k) ∧
        V.Elsewhere s s')
      (fun e s' => e = .elem ∧
        (∀ k, k < V.cap → if r ≤ k ∧ k < r + (q - p) then (V.slot s' k).isSome else V.slot s' k = V.slot s k) ∧
        V.Elsewhere s s') s := by
  have hc := hl.size_lt
  have hNs : 0 < Vs.N := by rw [hNN]; exact hl.npos
  have haddr : ∀ k, k < Vs.cap → (Vs.addr k).blk ≠ V.tb ∧ (Vs.addr k).blk ∉ V.segs := fun k hk =>
    hsep _ (View.sg_mem (View.div_lt hNs hk))
  have hslot : ∀ k, k < Vs.cap → (V.view s).mem (Vs.addr k).blk (Vs.addr k).off = Vs.slot s k := fun k hk => by
    simp [View.view, haddr k hk, View.slot]
  have hsim := View.sim_assignSeg (E := E) (lim := 0) (al := al) (tcap := tcap) (mk := .ref) (va := fun k => Vs.addr k)
    (p := p) (q := q) (r := r) hs ht hl.npos hNN (fun _ => rfl) hpq hq (by omega)
    (fun i _ h => by unfold View.map; rw [if_neg (haddr i (by omega)).1])
  refine Sim.wp hsim hl ?_
  have hval : ∀ i, i < q - p → ∃ v, (V.view s).mem (Vs.addr (p + i)).blk (Vs.addr (p + i)).off = some v := fun i hi => by
    rw [hslot _ (by omega)]
    exact Option.isSome_iff_exists.mp (hsrc _ (by omega) (by omega))
  obtain ⟨vs, hvl, hvs⟩ : ∃ vs : List α, vs.length = q - p ∧ ∀ i, i < q - p → vs[i]? = Vs.slot s (p + i) := by
    refine ⟨(List.range (q - p)).filterMap (fun i => Vs.slot s (p + i)), ?_⟩
    have : ∀ n, n ≤ q - p → ((List.range n).filterMap (fun i => Vs.slot s (p + i))).length = n ∧
        ∀ i, i < n → ((List.range n).filterMap (fun i => Vs.slot s (p + i)))[i]? = Vs.slot s (p + i) := by
      intro n
      induction n with
      | zero => intro _; exact ⟨rfl, fun i hi => by omega⟩
      | succ n ih =>
        intro hn
        obtain ⟨h1, h2⟩ := ih (by omega)
        obtain ⟨v, hv⟩ := Option.isSome_iff_exists.mp (hsrc (p + n) (by omega) (by omega))
        rw [List.range_succ, List.filterMap_append]
        simp only [List.filterMap_cons, hv, List.filterMap_nil]
        refine ⟨by simp [h1], fun i hi => ?_⟩
        by_cases hin : i < n
        · rw [List.getElem?_append_left (by omega), h2 i hin]
        · rw [List.getElem?_append_right (by omega), h1, show i - n = 0 by omega, show i = n by omega, hv]
          rfl
    exact this _ (Nat.le_refl _)
  have hlen : ((List.range' p (q - p)).map (fun i => Arg.ref (α := α) (Vs.addr i))).length = q - p := by simp
  refine wp_assignGo_copy (vs := vs) ?_ (fun a ha => ?_) ?_ ?_ ?_ ?_
  rotate_left
  · simp only [List.mem_map] at ha
    obtain ⟨i, _, rfl⟩ := ha
    rfl
  rotate_right
  · apply List.ext_getElem?
    intro i
    by_cases hi : i < q - p
    · simp only [List.map_map, List.getElem?_map, List.getElem?_range' hi, Function.comp, Option.map_some, Arg.value, Nat.one_mul]
      rw [hslot _ (by omega), hvs i hi]
      cases h : Vs.slot s (p + i) with
      | none => have := hsrc (p + i) (by omega) (by omega); rw [h] at this; cases this
      | some v => rfl
    · rw [List.getElem?_eq_none (by rw [List.length_map, hlen]; omega), List.getElem?_eq_none (by rw [List.length_map, hvl]; omega)]
  · intro a ha s' h
    simp only [List.mem_map, List.mem_range'] at ha
    obtain ⟨i, ⟨j, hj, rfl⟩, rfl⟩ := ha
    simp only [Arg.value]
    refine h _ _ ?_
    simp only [Ptr.has]
    intro h2
    exact (haddr (p + 1 * j) (by omega)).1 h2.1
  · intro i h1 h2
    rw [hlen] at h2
    simp at h1 h2
    rw [View.view_slot (by omega)]; exact hlive i h1 (by omega)
  · intro s1 _ _ hm it s' hat he hl'
    rw [hlen] at hm
    refine ⟨hat.1, View.slots_of hl hl' he (fun k hk => ?_) (fun k hk => ?_) (fun b i hb => ?_)⟩
    · rw [hm]
      simp only [Ptr.has]
      by_cases h : r ≤ k ∧ k < r + (q - p)
      · rw [if_pos (by simp; omega), if_pos h, hvs _ (by omega)]
      · rw [if_neg (by simp; omega), if_neg h, View.view_slot hk]
    · rw [if_neg (by omega)]
    · rw [hm, if_neg (by simp [Ptr.has]; intro h; exact absurd h hb)]
  · intro s1 _ hm s' he hl'
    rw [hlen] at hm
    refine ⟨rfl, View.slots_exn hl hl' he (fun k hk => ?_) (fun k hk => by omega) (fun b i hb => ?_)⟩
    · have := hm V.tb k
      simp only [Ptr.has] at this
      by_cases h : r ≤ k ∧ k < r + (q - p)
      · rw [if_pos (by simp; omega)] at this; rw [if_pos h]; exact this
      · rw [if_neg (by simp; omega)] at this; rw [if_neg h]; exact this
    · have := hm b i
      rwa [if_neg (by simp [Ptr.has]; intro h; exact absurd h hb)] at this

example : (∀ b ∈ SegDemo.V2.segs, b ≠ SegDemo.V.tb ∧ b ∉ SegDemo.V.segs) ∧ SegDemo.V2.Tab SegDemo.t2 ∧
    (∀ k, 1 ≤ k → k < 3 → (SegDemo.V2.slot SegDemo.both k).isSome ∧ (SegDemo.V.slot SegDemo.both k).isSome) ∧
    SegDemo.V.Lay 7 5 SegDemo.both ∧
    SegDemo.after (Seg.assignSeg (SegDemo.env []) 2 SegDemo.t2 SegDemo.t .ref (SegDemo.V2.it 1) (SegDemo.V2.it 3) (SegDemo.V.it 1)
      SegDemo.both) = [some 1, some 8, some 9, some 4, none, none] := by
  refine ⟨by decide, ⟨rfl, fun i hi => ?_⟩, fun k h1 h2 => ?_, SegDemo.both_lay, by decide⟩
  · match i, hi with
    | 0, _ => rfl
    | 1, _ => rfl
  · have : k = 1 ∨ k = 2 := by omega
    rcases this with rfl | rfl <;> exact ⟨rfl, rfl⟩

end
end Sfl
