import Verif.DevRow
/-
  The cases of insert_aux, insert_aux_shift_to_back and insert_aux_shift_to_front of devector. (Helper lemmas.)
-/

namespace Sfl.Devector
open Sfl
variable {α : Type} {E : Env α} {H : Heap α} {al b cap nx : Nat} {X : Exn → St α → Prop}
  {s : St α} {L : Nat → Prop}

theorem dist {σ : Type} {b x y : Nat} {s : σ} {Q : Nat → σ → Prop} {X : Exn → σ → Prop} (h : x ≤ y)
    (hQ : Q (y - x) s) : wp (distance ⟨b, x⟩ ⟨b, y⟩) Q X s := wp_distance rfl h hQ

/-- Block `b` of `s'` has in `[d, d + (y - x))` what `s` had in `[x, y)`, and is unchanged elsewhere except for
`[x, y)`. -/
structure Mv (s s' : St α) (b x y d : Nat) : Prop where
  dst : ∀ i, d ≤ i → i < d + (y - x) → s'.mem b i = s.mem b (x + (i - d))
  oth : ∀ i, ¬ (d ≤ i ∧ i < d + (y - x)) → ¬ (x ≤ i ∧ i < y) → s'.mem b i = s.mem b i

/-- Block `b` of `s'` has the first `n` of the values `vs` in `[d, d + n)` and is unchanged elsewhere. -/
structure Ins (s s' : St α) (b d n : Nat) (vs : List α) : Prop where
  dst : ∀ i, d ≤ i → i < d + n → s'.mem b i = vs[i - d]?
  oth : ∀ i, ¬ (d ≤ i ∧ i < d + n) → s'.mem b i = s.mem b i

/-- Block `b` of `s'` is unchanged outside `[x, y)`. -/
structure Des (s s' : St α) (b x y : Nat) : Prop where
  oth : ∀ i, ¬ (x ≤ i ∧ i < y) → s'.mem b i = s.mem b i

theorem Row.um {x y d : Nat} {Q : Ptr → St α → Prop} (h : Row H s al b cap nx L)
    (hxy : x ≤ y) (hs : ∀ i, x ≤ i → i < y → L i) (hd : d + (y - x) ≤ cap)
    (hr : ∀ i, d ≤ i → i < d + (y - x) → ¬ L i)
    (hQ : ∀ s', Row H s' al b cap nx (fun i => L i ∨ (d ≤ i ∧ i < d + (y - x))) → Mv s s' b x y d →
      Q ⟨b, d + (y - x)⟩ s')
    (hX : ¬ NothrowMove E → ∀ s', Row H s' al b cap nx L → X .elem s') :
    wp (Sfl.uninitMove E ⟨b, x⟩ ⟨b, y⟩ ⟨b, d⟩) Q X s := by
  refine h.uninitMove hxy hs hd hr (fun s' hrow hm => hQ s' hrow ⟨fun i h1 h2 => ?_, fun i h1 h2 => ?_⟩)
    (fun ht => hX (fun hn => by rw [hn.1] at ht; cases ht))
  · rw [hm, if_pos ⟨h1, h2⟩]
  · rw [hm, if_neg h1, if_neg h2]

theorem Row.mf {x y d : Nat} {Q : Ptr → St α → Prop} (h : Row H s al b cap nx L)
    (hxy : x ≤ y) (hs : ∀ i, x ≤ i → i < y → L i) (hl : ∀ i, d ≤ i → i < d + (y - x) → L i)
    (hdir : d < x ∨ y ≤ d)
    (hQ : ∀ s', Row H s' al b cap nx L → Mv s s' b x y d → Q ⟨b, d + (y - x)⟩ s')
    (hX : ¬ NothrowMove E → ∀ s', Row H s' al b cap nx L → X .elem s') :
    wp (Sfl.moveFwd E ⟨b, x⟩ ⟨b, y⟩ ⟨b, d⟩) Q X s := by
  refine h.moveFwd hxy hs hl hdir (fun s' hrow hm => hQ s' hrow ⟨fun i h1 h2 => ?_, fun i h1 h2 => ?_⟩)
    (fun ht => hX (fun hn => by rw [hn.2] at ht; cases ht))
  · rw [hm, if_pos ⟨h1, h2⟩]
  · rw [hm, if_neg h1, if_neg h2]

theorem Row.mfNe {x y d : Nat} {Q : Unit → St α → Prop} (h : Row H s al b cap nx L)
    (hxy : x ≤ y) (hs : ∀ i, x ≤ i → i < y → L i) (hl : ∀ i, d ≤ i → i < d + (y - x) → L i)
    (hdir : d ≤ x ∨ y ≤ d)
    (hQ : ∀ s', Row H s' al b cap nx L → Mv s s' b x y d → Q () s')
    (hX : ¬ NothrowMove E → ∀ s', Row H s' al b cap nx L → X .elem s') :
    wp (moveFwdNe E ⟨b, x⟩ ⟨b, y⟩ ⟨b, d⟩) Q X s := by
  unfold moveFwdNe
  by_cases hc : x = d
  · rw [if_neg (by simp [hc]), wp_pure]
    refine hQ s h ⟨fun i h1 h2 => by congr 1; omega, fun i h1 h2 => rfl⟩
  · rw [if_pos (by simp [hc]), wp_bind]
    refine h.mf hxy hs hl (by omega) (fun s' hrow hm => ?_) hX
    rw [wp_pure]; exact hQ s' hrow hm

theorem Row.mbNe {x y z : Nat} {Q : Unit → St α → Prop} (h : Row H s al b cap nx L)
    (hxy : x ≤ y) (hz : y - x ≤ z) (hs : ∀ i, x ≤ i → i < y → L i) (hl : ∀ i, z - (y - x) ≤ i → i < z → L i)
    (hdir : y ≤ z ∨ z ≤ x)
    (hQ : ∀ s', Row H s' al b cap nx L → Mv s s' b x y (z - (y - x)) → Q () s')
    (hX : ¬ NothrowMove E → ∀ s', Row H s' al b cap nx L → X .elem s') :
    wp (moveBackwardNe E ⟨b, x⟩ ⟨b, y⟩ ⟨b, z⟩) Q X s := by
  unfold moveBackwardNe
  by_cases hc : y = z
  · rw [if_neg (by simp [hc]), wp_pure]
    refine hQ s h ⟨fun i h1 h2 => by congr 1; omega, fun i h1 h2 => rfl⟩
  · rw [if_pos (by simp [hc]), wp_bind]
    refine h.moveBackward hxy hz hs hl (by omega) (fun s' hrow hm => ?_)
      (fun ht => hX (fun hn => by rw [hn.2] at ht; cases ht))
    rw [wp_pure]
    refine hQ s' hrow ⟨fun i h1 h2 => ?_, fun i h1 h2 => ?_⟩
    · rw [hm, if_pos ⟨h1, by omega⟩]
    · rw [hm, if_neg (by omega), if_neg h2]

theorem Row.des {x y : Nat} {Q : Unit → St α → Prop} (h : Row H s al b cap nx L)
    (hxy : x ≤ y) (hs : ∀ i, x ≤ i → i < y → L i)
    (hQ : ∀ s', Row H s' al b cap nx (fun i => L i ∧ ¬ (x ≤ i ∧ i < y)) → Des s s' b x y → Q () s') :
    wp (destroyRange ⟨b, x⟩ ⟨b, y⟩) Q X s :=
  h.destroy hxy hs (fun s' hrow hm => hQ s' hrow ⟨fun i h1 => by rw [hm, if_neg h1]⟩)

theorem Proxy.Has.ui {px : Proxy α} {vs : List α} {d n : Nat} {Q : Ptr × Proxy α → St α → Prop}
    (hp : px.Has H E vs) (h : Row H s al b cap nx L) (hn : n ≤ vs.length) (hd : d + n ≤ cap)
    (hr : ∀ i, d ≤ i → i < d + n → ¬ L i)
    (hQ : ∀ s' px', px'.Has H E (vs.drop n) → px'.isOne = px.isOne →
      Row H s' al b cap nx (fun i => L i ∨ (d ≤ i ∧ i < d + n)) → Ins s s' b d n vs → Q (⟨b, d + n⟩, px') s')
    (hX : (px.isOne = true → ¬ NothrowMove E) → ∀ s', Row H s' al b cap nx L → X .elem s') :
    wp (px.uninitInsertN E ⟨b, d⟩ n) Q X s := by
  refine hp.uninit h hn hd hr (fun s' px' h1 h2 h3 hm => hQ s' px' h1 h2 h3 ⟨fun i h1 h2 => ?_, fun i h1 => ?_⟩)
    (fun ht => hX (fun ho hn => by rw [hn.1] at ht; cases ht ho))
  · rw [hm, if_pos ⟨h1, h2⟩]
  · rw [hm, if_neg h1]

theorem Proxy.Has.ai {px : Proxy α} {vs : List α} {d n : Nat} {Q : Ptr × Proxy α → St α → Prop}
    (hp : px.Has H E vs) (h : Row H s al b cap nx L) (hn : n ≤ vs.length)
    (hr : ∀ i, d ≤ i → i < d + n → L i)
    (hQ : ∀ s' px', px'.Has H E (vs.drop n) → px'.isOne = px.isOne →
      Row H s' al b cap nx L → Ins s s' b d n vs → Q (⟨b, d + n⟩, px') s')
    (hX : (px.isOne = true → ¬ NothrowMove E) → ∀ s', Row H s' al b cap nx L → X .elem s') :
    wp (px.insertN E ⟨b, d⟩ n) Q X s := by
  refine hp.insert h hn hr (fun s' px' h1 h2 h3 hm => hQ s' px' h1 h2 h3 ⟨fun i h1 h2 => ?_, fun i h1 => ?_⟩) hX
  · rw [hm, if_pos ⟨h1, h2⟩]
  · rw [hm, if_neg h1]

/-- The elements of `[p10, p20)` and `[p20, …)` are now at `q10` and `q30`, the values `vs` at `q20`. -/
structure Shifted (s s' : St α) (b p10 p20 q10 q20 q30 q40 : Nat) (vs : List α) : Prop where
  a : ∀ i, q10 ≤ i → i < q20 → s'.mem b i = s.mem b (p10 + (i - q10))
  v : ∀ i, q20 ≤ i → i < q30 → s'.mem b i = vs[i - q20]?
  z : ∀ i, q30 ≤ i → i < q40 → s'.mem b i = s.mem b (p20 + (i - q30))

/-- Outcome of a case on success. -/
def Good (H : Heap α) (s : St α) (al b cap nx p10 p20 q10 q20 q30 q40 : Nat) (vs : List α) (_ : Unit) (s' : St α) : Prop :=
  Row H s' al b cap nx (fun i => q10 ≤ i ∧ i < q40) ∧ Shifted s s' b p10 p20 q10 q20 q30 q40 vs

/-- Outcome of a case on exception: the slots holding elements are those that held elements before. -/
def Bad (H : Heap α) (E : Env α) (px : Proxy α) (al b cap nx p10 p30 : Nat) (e : Exn) (s' : St α) : Prop :=
  e = .elem ∧ (px.isOne = true → ¬ NothrowMove E) ∧ Row H s' al b cap nx (fun i => p10 ≤ i ∧ i < p30)

/-- Arithmetic side conditions. -/
macro "lv" : tactic => `(tactic| (intros; (try dsimp only at *); omega))

set_option hygiene false in
/-- An exception: run the guards. -/
macro "unwind" : tactic => `(tactic| (
  intro hno sx hx
  repeat (first
    | (refine Row.des hx (by omega) (by lv) ?_; clear hx; intro sx hx _)
    | (refine Row.destroyN hx (by lv) ?_; clear hx; intro sx hx _))
  exact ⟨rfl, by intro ho; first | exact hno | exact hno ho | exact hno (by grind only), hx.congr (by lv)⟩))

set_option linter.unusedSimpArgs false

section cases
variable {p10 p20 p30 q10 q20 q30 q40 n : Nat} {px : Proxy α} {vs : List α}
  (h : Row H s al b cap nx (fun i => p10 ≤ i ∧ i < p30)) (hp : px.Has H E vs) (hn : vs.length = n)
  (h12 : p10 ≤ p20) (h23 : p20 ≤ p30) (e2 : q20 = q10 + (p20 - p10)) (e3 : q30 = q20 + n)
  (e4 : q40 = q30 + (p30 - p20)) (hc : q40 ≤ cap)
include h hp hn h12 h23 e2 e3 e4 hc

theorem back1_spec (c0 : q40 > p30) (c1 : q10 ≥ p30) :
    wp (back1 E ⟨b, p10⟩ ⟨b, p20⟩ ⟨b, p30⟩ ⟨b, q10⟩ ⟨b, q20⟩ ⟨b, q30⟩ n px)
      (Good H s al b cap nx p10 p20 q10 q20 q30 q40 vs) (Bad H E px al b cap nx p10 p30) s := by
  unfold back1
  rw [wp_bind]
  refine h.um (by omega) (by lv) (by omega) (by lv) ?_ (by unwind)
  intro s1 r1 m1
  rw [wp_guard]
  rw [wp_bind]
  refine hp.ui r1 (by omega) (by omega) (by lv) ?_ (by unwind)
  intro s2 px2 hp2 o2 r2 m2
  rw [wp_guard]
  rw [wp_bind]
  refine r2.um (by omega) (by lv) (by omega) (by lv) ?_ (by unwind)
  intro s3 r3 m3
  refine r3.des (by omega) (by lv) ?_
  intro s4 r4 m4
  refine ⟨r4.congr (by lv), ⟨?_, ?_, ?_⟩⟩
  all_goals
    intro i h1 h2
    all_goals
      simp (disch := omega) only [m1.dst, m1.oth, m2.dst, m2.oth, m3.dst, m3.oth, m4.oth, List.getElem?_drop]
      try first | (congr 1; omega) | (congr 2; omega)

theorem back2_spec (c0 : q40 > p30) (c1 : q20 ≥ p30) (c2 : q10 < p30) (c3 : q10 ≥ p20) :
    wp (back2 E ⟨b, p10⟩ ⟨b, p20⟩ ⟨b, p30⟩ ⟨b, q10⟩ ⟨b, q20⟩ ⟨b, q30⟩ ⟨b, q40⟩ n px)
      (Good H s al b cap nx p10 p20 q10 q20 q30 q40 vs) (Bad H E px al b cap nx p10 p30) s := by
  unfold back2
  rw [wp_bind]
  refine dist (by omega) ?_
  try dsimp only [Ptr.add]
  rw [wp_bind]
  refine h.um (by omega) (by lv) (by omega) (by lv) ?_ (by unwind)
  intro s1 r1 m1
  rw [wp_guard]
  rw [wp_bind]
  refine hp.ui r1 (by omega) (by omega) (by lv) ?_ (by unwind)
  intro s2 px2 hp2 o2 r2 m2
  rw [wp_guard]
  rw [wp_bind]
  refine r2.um (by omega) (by lv) (by omega) (by lv) ?_ (by unwind)
  intro s3 r3 m3
  rw [wp_guard]
  rw [wp_bind]
  refine r3.mf (by omega) (by lv) (by lv) (by omega) ?_ (by unwind)
  intro s4 r4 m4
  refine r4.des (by omega) (by lv) ?_
  intro s5 r5 m5
  refine ⟨r5.congr (by lv), ⟨?_, ?_, ?_⟩⟩
  all_goals
    intro i h1 h2
    rcases Nat.lt_or_ge i (p30) with k0 | k0
    all_goals try omega
    all_goals
      simp (disch := omega) only [m1.dst, m1.oth, m2.dst, m2.oth, m3.dst, m3.oth, m4.dst, m4.oth, m5.oth, List.getElem?_drop]
      try first | (congr 1; omega) | (congr 2; omega)

theorem back3_spec (c0 : q40 > p30) (c1 : q20 ≥ p30) (c2 : q10 < p20) (c3 : q10 ≥ p10) :
    wp (back3 E ⟨b, p10⟩ ⟨b, p20⟩ ⟨b, p30⟩ ⟨b, q10⟩ ⟨b, q20⟩ ⟨b, q30⟩ ⟨b, q40⟩ n px)
      (Good H s al b cap nx p10 p20 q10 q20 q30 q40 vs) (Bad H E px al b cap nx p10 p30) s := by
  unfold back3
  rw [wp_bind]
  refine dist (by omega) ?_
  try dsimp only [Ptr.add]
  rw [wp_bind]
  refine h.um (by omega) (by lv) (by omega) (by lv) ?_ (by unwind)
  intro s1 r1 m1
  rw [wp_guard]
  rw [wp_bind]
  refine hp.ui r1 (by omega) (by omega) (by lv) ?_ (by unwind)
  intro s2 px2 hp2 o2 r2 m2
  rw [wp_guard]
  rw [wp_bind]
  refine r2.um (by omega) (by lv) (by omega) (by lv) ?_ (by unwind)
  intro s3 r3 m3
  rw [wp_guard]
  rw [wp_bind]
  refine r3.mbNe (by omega) (by omega) (by lv) (by lv) (by omega) ?_ (by unwind)
  intro s4 r4 m4
  refine r4.des (by omega) (by lv) ?_
  intro s5 r5 m5
  refine ⟨r5.congr (by lv), ⟨?_, ?_, ?_⟩⟩
  all_goals
    intro i h1 h2
    rcases Nat.lt_or_ge i (p30) with k0 | k0
    all_goals try omega
    all_goals
      simp (disch := omega) only [m1.dst, m1.oth, m2.dst, m2.oth, m3.dst, m3.oth, m4.dst, m4.oth, m5.oth, List.getElem?_drop]
      try first | (congr 1; omega) | (congr 2; omega)

theorem back4_spec (c0 : q40 > p30) (c1 : q30 ≥ p30) (c2 : q20 < p30) (c3 : q10 ≥ p20) :
    wp (back4 E ⟨b, p10⟩ ⟨b, p20⟩ ⟨b, p30⟩ ⟨b, q10⟩ ⟨b, q20⟩ ⟨b, q30⟩ ⟨b, q40⟩ px)
      (Good H s al b cap nx p10 p20 q10 q20 q30 q40 vs) (Bad H E px al b cap nx p10 p30) s := by
  unfold back4
  rw [wp_bind]
  refine h.um (by omega) (by lv) (by omega) (by lv) ?_ (by unwind)
  intro s1 r1 m1
  rw [wp_guard]
  rw [wp_bind]
  refine r1.mf (by omega) (by lv) (by lv) (by omega) ?_ (by unwind)
  intro s2 r2 m2
  rw [wp_bind]
  refine dist (by omega) ?_
  try dsimp only [Ptr.add]
  rw [wp_bind]
  refine hp.ai r2 (by omega) (by lv) ?_ (by unwind)
  intro s3 px3 hp3 o3 r3 m3
  rw [wp_bind]
  refine dist (by omega) ?_
  try dsimp only [Ptr.add]
  rw [wp_bind]
  refine hp3.ui r3 (by simp only [List.length_drop]; omega) (by omega) (by lv) ?_ (by unwind)
  intro s4 px4 hp4 o4 r4 m4
  refine r4.des (by omega) (by lv) ?_
  intro s5 r5 m5
  refine ⟨r5.congr (by lv), ⟨?_, ?_, ?_⟩⟩
  all_goals
    intro i h1 h2
    rcases Nat.lt_or_ge i (p30) with k0 | k0
    all_goals try omega
    all_goals
      simp (disch := omega) only [m1.dst, m1.oth, m2.dst, m2.oth, m3.dst, m3.oth, m4.dst, m4.oth, m5.oth, List.getElem?_drop]
      try first | (congr 1; omega) | (congr 2; omega)

theorem back5_spec (c0 : q40 > p30) (c1 : q30 ≥ p30) (c2 : q20 < p30) (c3 : q20 ≥ p20) (c4 : q10 < p20) (c5 : q10 ≥ p10) :
    wp (back5 E ⟨b, p10⟩ ⟨b, p20⟩ ⟨b, p30⟩ ⟨b, q10⟩ ⟨b, q20⟩ ⟨b, q30⟩ ⟨b, q40⟩ px)
      (Good H s al b cap nx p10 p20 q10 q20 q30 q40 vs) (Bad H E px al b cap nx p10 p30) s := by
  unfold back5
  rw [wp_bind]
  refine h.um (by omega) (by lv) (by omega) (by lv) ?_ (by unwind)
  intro s1 r1 m1
  rw [wp_guard]
  rw [wp_bind]
  refine r1.mbNe (by omega) (by omega) (by lv) (by lv) (by omega) ?_ (by unwind)
  intro s2 r2 m2
  rw [wp_bind]
  refine dist (by omega) ?_
  try dsimp only [Ptr.add]
  rw [wp_bind]
  refine hp.ai r2 (by omega) (by lv) ?_ (by unwind)
  intro s3 px3 hp3 o3 r3 m3
  rw [wp_bind]
  refine dist (by omega) ?_
  try dsimp only [Ptr.add]
  rw [wp_bind]
  refine hp3.ui r3 (by simp only [List.length_drop]; omega) (by omega) (by lv) ?_ (by unwind)
  intro s4 px4 hp4 o4 r4 m4
  refine r4.des (by omega) (by lv) ?_
  intro s5 r5 m5
  refine ⟨r5.congr (by lv), ⟨?_, ?_, ?_⟩⟩
  all_goals
    intro i h1 h2
    rcases Nat.lt_or_ge i (p30) with k0 | k0
    all_goals try omega
    all_goals
      simp (disch := omega) only [m1.dst, m1.oth, m2.dst, m2.oth, m3.dst, m3.oth, m4.dst, m4.oth, m5.oth, List.getElem?_drop]
      try first | (congr 1; omega) | (congr 2; omega)

theorem back7_spec (c0 : q40 > p30) (c1 : q30 ≥ p30) (c2 : q20 < p10) :
    wp (back7 E ⟨b, p10⟩ ⟨b, p20⟩ ⟨b, p30⟩ ⟨b, q10⟩ ⟨b, q20⟩ ⟨b, q30⟩ ⟨b, q40⟩ px)
      (Good H s al b cap nx p10 p20 q10 q20 q30 q40 vs) (Bad H E px al b cap nx p10 p30) s := by
  unfold back7
  rw [wp_bind]
  refine h.um (by omega) (by lv) (by omega) (by lv) ?_ (by unwind)
  intro s1 r1 m1
  rw [wp_guard]
  rw [wp_bind]
  refine r1.um (by omega) (by lv) (by omega) (by lv) ?_ (by unwind)
  intro s2 r2 m2
  rw [wp_guard]
  rw [wp_bind]
  refine dist (by omega) ?_
  try dsimp only [Ptr.add]
  rw [wp_bind]
  refine hp.ui r2 (by omega) (by omega) (by lv) ?_ (by unwind)
  intro s3 px3 hp3 o3 r3 m3
  rw [wp_guard]
  rw [wp_bind]
  refine dist (by omega) ?_
  try dsimp only [Ptr.add]
  rw [wp_bind]
  refine hp3.ai r3 (by simp only [List.length_drop]; omega) (by lv) ?_ (by unwind)
  intro s4 px4 hp4 o4 r4 m4
  rw [wp_bind]
  refine dist (by omega) ?_
  try dsimp only [Ptr.add]
  rw [wp_bind]
  refine hp4.ui r4 (by simp only [List.length_drop]; omega) (by omega) (by lv) ?_ (by unwind)
  intro s5 px5 hp5 o5 r5 m5
  rw [wp_pure]
  refine ⟨r5.congr (by lv), ⟨?_, ?_, ?_⟩⟩
  all_goals
    intro i h1 h2
    rcases Nat.lt_or_ge i (p10) with k0 | k0
    all_goals try omega
    all_goals rcases Nat.lt_or_ge i (p30) with k1 | k1
    all_goals try omega
    all_goals
      simp (disch := omega) only [m1.dst, m1.oth, m2.dst, m2.oth, m3.dst, m3.oth, m4.dst, m4.oth, m5.dst, m5.oth, List.getElem?_drop]
      try first | (congr 1; omega) | (congr 2; omega)

theorem back8_spec (c0 : q40 > p30) (c1 : q30 < p30) (c2 : q10 ≥ p20) :
    wp (back8 E ⟨b, p10⟩ ⟨b, p20⟩ ⟨b, p30⟩ ⟨b, q10⟩ ⟨b, q20⟩ ⟨b, q30⟩ ⟨b, q40⟩ n px)
      (Good H s al b cap nx p10 p20 q10 q20 q30 q40 vs) (Bad H E px al b cap nx p10 p30) s := by
  unfold back8
  rw [wp_bind]
  refine dist (by omega) ?_
  try dsimp only [Ptr.add]
  rw [wp_bind]
  refine h.um (by omega) (by lv) (by omega) (by lv) ?_ (by unwind)
  intro s1 r1 m1
  rw [wp_guard]
  rw [wp_bind]
  refine r1.mbNe (by omega) (by omega) (by lv) (by lv) (by omega) ?_ (by unwind)
  intro s2 r2 m2
  rw [wp_bind]
  refine r2.mf (by omega) (by lv) (by lv) (by omega) ?_ (by unwind)
  intro s3 r3 m3
  rw [wp_bind]
  refine hp.ai r3 (by omega) (by lv) ?_ (by unwind)
  intro s4 px4 hp4 o4 r4 m4
  refine r4.des (by omega) (by lv) ?_
  intro s5 r5 m5
  refine ⟨r5.congr (by lv), ⟨?_, ?_, ?_⟩⟩
  all_goals
    intro i h1 h2
    rcases Nat.lt_or_ge i (p30) with k0 | k0
    all_goals try omega
    all_goals
      simp (disch := omega) only [m1.dst, m1.oth, m2.dst, m2.oth, m3.dst, m3.oth, m4.dst, m4.oth, m5.oth, List.getElem?_drop]
      try first | (congr 1; omega) | (congr 2; omega)

theorem back9_spec (c0 : q40 > p30) (c1 : q30 < p30) (c2 : q20 ≥ p20) (c3 : q10 < p20) (c4 : q10 ≥ p10) :
    wp (back9 E ⟨b, p10⟩ ⟨b, p20⟩ ⟨b, p30⟩ ⟨b, q10⟩ ⟨b, q20⟩ ⟨b, q30⟩ ⟨b, q40⟩ n px)
      (Good H s al b cap nx p10 p20 q10 q20 q30 q40 vs) (Bad H E px al b cap nx p10 p30) s := by
  unfold back9
  rw [wp_bind]
  refine dist (by omega) ?_
  try dsimp only [Ptr.add]
  rw [wp_bind]
  refine h.um (by omega) (by lv) (by omega) (by lv) ?_ (by unwind)
  intro s1 r1 m1
  rw [wp_guard]
  rw [wp_bind]
  refine r1.mbNe (by omega) (by omega) (by lv) (by lv) (by omega) ?_ (by unwind)
  intro s2 r2 m2
  rw [wp_bind]
  refine r2.mbNe (by omega) (by omega) (by lv) (by lv) (by omega) ?_ (by unwind)
  intro s3 r3 m3
  rw [wp_bind]
  refine hp.ai r3 (by omega) (by lv) ?_ (by unwind)
  intro s4 px4 hp4 o4 r4 m4
  refine r4.des (by omega) (by lv) ?_
  intro s5 r5 m5
  refine ⟨r5.congr (by lv), ⟨?_, ?_, ?_⟩⟩
  all_goals
    intro i h1 h2
    rcases Nat.lt_or_ge i (p30) with k0 | k0
    all_goals try omega
    all_goals
      simp (disch := omega) only [m1.dst, m1.oth, m2.dst, m2.oth, m3.dst, m3.oth, m4.dst, m4.oth, m5.oth, List.getElem?_drop]
      try first | (congr 1; omega) | (congr 2; omega)

theorem back10_spec (c0 : q40 > p30) (c1 : q30 < p30) (c2 : q20 < p20) (c3 : q20 ≥ p10) :
    wp (back10 E ⟨b, p10⟩ ⟨b, p20⟩ ⟨b, p30⟩ ⟨b, q10⟩ ⟨b, q20⟩ ⟨b, q30⟩ ⟨b, q40⟩ n px)
      (Good H s al b cap nx p10 p20 q10 q20 q30 q40 vs) (Bad H E px al b cap nx p10 p30) s := by
  unfold back10
  rw [wp_bind]
  refine dist (by omega) ?_
  try dsimp only [Ptr.add]
  rw [wp_bind]
  refine dist (by omega) ?_
  try dsimp only [Ptr.add]
  rw [wp_bind]
  refine h.um (by omega) (by lv) (by omega) (by lv) ?_ (by unwind)
  intro s1 r1 m1
  rw [wp_guard]
  rw [wp_bind]
  refine r1.mfNe (by omega) (by lv) (by lv) (by omega) ?_ (by unwind)
  intro s2 r2 m2
  rw [wp_bind]
  refine r2.um (by omega) (by lv) (by omega) (by lv) ?_ (by unwind)
  intro s3 r3 m3
  rw [wp_guard]
  rw [wp_bind]
  refine r3.mbNe (by omega) (by omega) (by lv) (by lv) (by omega) ?_ (by unwind)
  intro s4 r4 m4
  rw [wp_bind]
  refine hp.ai r4 (by omega) (by lv) ?_ (by unwind)
  intro s5 px5 hp5 o5 r5 m5
  rw [wp_pure]
  refine ⟨r5.congr (by lv), ⟨?_, ?_, ?_⟩⟩
  all_goals
    intro i h1 h2
    rcases Nat.lt_or_ge i (p10) with k0 | k0
    all_goals try omega
    all_goals rcases Nat.lt_or_ge i (p30) with k1 | k1
    all_goals try omega
    all_goals
      simp (disch := omega) only [m1.dst, m1.oth, m2.dst, m2.oth, m3.dst, m3.oth, m4.dst, m4.oth, m5.dst, m5.oth, List.getElem?_drop]
      try first | (congr 1; omega) | (congr 2; omega)

theorem back11_spec (c0 : q40 > p30) (c1 : q30 < p30) (c2 : q20 < p10) :
    wp (back11 E ⟨b, p10⟩ ⟨b, p20⟩ ⟨b, p30⟩ ⟨b, q10⟩ ⟨b, q20⟩ ⟨b, q30⟩ ⟨b, q40⟩ px)
      (Good H s al b cap nx p10 p20 q10 q20 q30 q40 vs) (Bad H E px al b cap nx p10 p30) s := by
  unfold back11
  rw [wp_bind]
  refine dist (by omega) ?_
  try dsimp only [Ptr.add]
  rw [wp_bind]
  refine h.um (by omega) (by lv) (by omega) (by lv) ?_ (by unwind)
  intro s1 r1 m1
  rw [wp_guard]
  rw [wp_bind]
  refine r1.um (by omega) (by lv) (by omega) (by lv) ?_ (by unwind)
  intro s2 r2 m2
  rw [wp_guard]
  rw [wp_bind]
  refine r2.mbNe (by omega) (by omega) (by lv) (by lv) (by omega) ?_ (by unwind)
  intro s3 r3 m3
  rw [wp_bind]
  refine dist (by omega) ?_
  try dsimp only [Ptr.add]
  rw [wp_bind]
  refine hp.ui r3 (by omega) (by omega) (by lv) ?_ (by unwind)
  intro s4 px4 hp4 o4 r4 m4
  rw [wp_guard]
  rw [wp_bind]
  refine dist (by omega) ?_
  try dsimp only [Ptr.add]
  rw [wp_bind]
  refine hp4.ai r4 (by simp only [List.length_drop]; omega) (by lv) ?_ (by unwind)
  intro s5 px5 hp5 o5 r5 m5
  rw [wp_pure]
  refine ⟨r5.congr (by lv), ⟨?_, ?_, ?_⟩⟩
  all_goals
    intro i h1 h2
    rcases Nat.lt_or_ge i (p10) with k0 | k0
    all_goals try omega
    all_goals rcases Nat.lt_or_ge i (p30) with k1 | k1
    all_goals try omega
    all_goals
      simp (disch := omega) only [m1.dst, m1.oth, m2.dst, m2.oth, m3.dst, m3.oth, m4.dst, m4.oth, m5.dst, m5.oth, List.getElem?_drop]
      try first | (congr 1; omega) | (congr 2; omega)

theorem front1_spec (c0 : q10 < p10) (c1 : q40 ≤ p10) :
    wp (front1 E ⟨b, p10⟩ ⟨b, p20⟩ ⟨b, p30⟩ ⟨b, q10⟩ ⟨b, q20⟩ ⟨b, q30⟩ n px)
      (Good H s al b cap nx p10 p20 q10 q20 q30 q40 vs) (Bad H E px al b cap nx p10 p30) s := by
  unfold front1
  rw [wp_bind]
  refine h.um (by omega) (by lv) (by omega) (by lv) ?_ (by unwind)
  intro s1 r1 m1
  rw [wp_guard]
  rw [wp_bind]
  refine hp.ui r1 (by omega) (by omega) (by lv) ?_ (by unwind)
  intro s2 px2 hp2 o2 r2 m2
  rw [wp_guard]
  rw [wp_bind]
  refine r2.um (by omega) (by lv) (by omega) (by lv) ?_ (by unwind)
  intro s3 r3 m3
  refine r3.des (by omega) (by lv) ?_
  intro s4 r4 m4
  refine ⟨r4.congr (by lv), ⟨?_, ?_, ?_⟩⟩
  all_goals
    intro i h1 h2
    all_goals
      simp (disch := omega) only [m1.dst, m1.oth, m2.dst, m2.oth, m3.dst, m3.oth, m4.oth, List.getElem?_drop]
      try first | (congr 1; omega) | (congr 2; omega)

theorem front2_spec (c0 : q10 < p10) (c1 : q30 ≤ p10) (c2 : q40 > p10) (c3 : q40 ≤ p30) :
    wp (front2 E ⟨b, p10⟩ ⟨b, p20⟩ ⟨b, p30⟩ ⟨b, q10⟩ ⟨b, q20⟩ ⟨b, q30⟩ ⟨b, q40⟩ n px)
      (Good H s al b cap nx p10 p20 q10 q20 q30 q40 vs) (Bad H E px al b cap nx p10 p30) s := by
  unfold front2
  rw [wp_bind]
  refine dist (by omega) ?_
  try dsimp only [Ptr.add]
  rw [wp_bind]
  refine h.um (by omega) (by lv) (by omega) (by lv) ?_ (by unwind)
  intro s1 r1 m1
  rw [wp_guard]
  rw [wp_bind]
  refine hp.ui r1 (by omega) (by omega) (by lv) ?_ (by unwind)
  intro s2 px2 hp2 o2 r2 m2
  rw [wp_guard]
  rw [wp_bind]
  refine r2.um (by omega) (by lv) (by omega) (by lv) ?_ (by unwind)
  intro s3 r3 m3
  rw [wp_guard]
  rw [wp_bind]
  refine r3.mfNe (by omega) (by lv) (by lv) (by omega) ?_ (by unwind)
  intro s4 r4 m4
  refine r4.des (by omega) (by lv) ?_
  intro s5 r5 m5
  refine ⟨r5.congr (by lv), ⟨?_, ?_, ?_⟩⟩
  all_goals
    intro i h1 h2
    rcases Nat.lt_or_ge i (p10) with k0 | k0
    all_goals try omega
    all_goals
      simp (disch := omega) only [m1.dst, m1.oth, m2.dst, m2.oth, m3.dst, m3.oth, m4.dst, m4.oth, m5.oth, List.getElem?_drop]
      try first | (congr 1; omega) | (congr 2; omega)

theorem front4_spec (c0 : q10 < p10) (c1 : q20 ≤ p10) (c2 : q30 > p10) (c3 : q30 ≤ p20) (c4 : q40 ≤ p30) :
    wp (front4 E ⟨b, p10⟩ ⟨b, p20⟩ ⟨b, p30⟩ ⟨b, q10⟩ ⟨b, q20⟩ ⟨b, q30⟩ ⟨b, q40⟩ px)
      (Good H s al b cap nx p10 p20 q10 q20 q30 q40 vs) (Bad H E px al b cap nx p10 p30) s := by
  unfold front4
  rw [wp_bind]
  refine h.um (by omega) (by lv) (by omega) (by lv) ?_ (by unwind)
  intro s1 r1 m1
  rw [wp_guard]
  rw [wp_bind]
  refine dist (by omega) ?_
  try dsimp only [Ptr.add]
  rw [wp_bind]
  refine hp.ui r1 (by omega) (by omega) (by lv) ?_ (by unwind)
  intro s2 px2 hp2 o2 r2 m2
  rw [wp_guard]
  rw [wp_bind]
  refine dist (by omega) ?_
  try dsimp only [Ptr.add]
  rw [wp_bind]
  refine hp2.ai r2 (by simp only [List.length_drop]; omega) (by lv) ?_ (by unwind)
  intro s3 px3 hp3 o3 r3 m3
  rw [wp_bind]
  refine r3.mfNe (by omega) (by lv) (by lv) (by omega) ?_ (by unwind)
  intro s4 r4 m4
  refine r4.des (by omega) (by lv) ?_
  intro s5 r5 m5
  refine ⟨r5.congr (by lv), ⟨?_, ?_, ?_⟩⟩
  all_goals
    intro i h1 h2
    rcases Nat.lt_or_ge i (p10) with k0 | k0
    all_goals try omega
    all_goals
      simp (disch := omega) only [m1.dst, m1.oth, m2.dst, m2.oth, m3.dst, m3.oth, m4.dst, m4.oth, m5.oth, List.getElem?_drop]
      try first | (congr 1; omega) | (congr 2; omega)

theorem front6_spec (c0 : q10 < p10) (c1 : q20 ≤ p10) (c2 : q30 > p20) (c3 : q30 ≤ p30) :
    wp (front6 E ⟨b, p10⟩ ⟨b, p20⟩ ⟨b, p30⟩ ⟨b, q10⟩ ⟨b, q20⟩ ⟨b, q30⟩ ⟨b, q40⟩ px)
      (Good H s al b cap nx p10 p20 q10 q20 q30 q40 vs) (Bad H E px al b cap nx p10 p30) s := by
  unfold front6
  rw [wp_bind]
  refine dist (by omega) ?_
  try dsimp only [Ptr.add]
  rw [wp_bind]
  refine h.um (by omega) (by lv) (by omega) (by lv) ?_ (by unwind)
  intro s1 r1 m1
  rw [wp_guard]
  rw [wp_bind]
  refine dist (by omega) ?_
  try dsimp only [Ptr.add]
  rw [wp_bind]
  refine hp.ui r1 (by omega) (by omega) (by lv) ?_ (by unwind)
  intro s2 px2 hp2 o2 r2 m2
  rw [wp_guard]
  rw [wp_bind]
  refine r2.um (by omega) (by lv) (by omega) (by lv) ?_ (by unwind)
  intro s3 r3 m3
  rw [wp_guard]
  rw [wp_bind]
  refine r3.mbNe (by omega) (by omega) (by lv) (by lv) (by omega) ?_ (by unwind)
  intro s4 r4 m4
  rw [wp_bind]
  refine dist (by omega) ?_
  try dsimp only [Ptr.add]
  rw [wp_bind]
  refine hp2.ai r4 (by simp only [List.length_drop]; omega) (by lv) ?_ (by unwind)
  intro s5 px5 hp5 o5 r5 m5
  rw [wp_pure]
  refine ⟨r5.congr (by lv), ⟨?_, ?_, ?_⟩⟩
  all_goals
    intro i h1 h2
    rcases Nat.lt_or_ge i (p10) with k0 | k0
    all_goals try omega
    all_goals rcases Nat.lt_or_ge i (p30) with k1 | k1
    all_goals try omega
    all_goals
      simp (disch := omega) only [m1.dst, m1.oth, m2.dst, m2.oth, m3.dst, m3.oth, m4.dst, m4.oth, m5.dst, m5.oth, List.getElem?_drop]
      try first | (congr 1; omega) | (congr 2; omega)

theorem front7_spec (c0 : q10 < p10) (c1 : q20 ≤ p10) (c2 : q30 > p30) :
    wp (front7 E ⟨b, p10⟩ ⟨b, p20⟩ ⟨b, p30⟩ ⟨b, q10⟩ ⟨b, q20⟩ ⟨b, q30⟩ ⟨b, q40⟩ px)
      (Good H s al b cap nx p10 p20 q10 q20 q30 q40 vs) (Bad H E px al b cap nx p10 p30) s := by
  unfold front7
  rw [wp_bind]
  refine h.um (by omega) (by lv) (by omega) (by lv) ?_ (by unwind)
  intro s1 r1 m1
  rw [wp_guard]
  rw [wp_bind]
  refine dist (by omega) ?_
  try dsimp only [Ptr.add]
  rw [wp_bind]
  refine hp.ui r1 (by omega) (by omega) (by lv) ?_ (by unwind)
  intro s2 px2 hp2 o2 r2 m2
  rw [wp_guard]
  rw [wp_bind]
  refine r2.um (by omega) (by lv) (by omega) (by lv) ?_ (by unwind)
  intro s3 r3 m3
  rw [wp_guard]
  rw [wp_bind]
  refine dist (by omega) ?_
  try dsimp only [Ptr.add]
  rw [wp_bind]
  refine hp2.ai r3 (by simp only [List.length_drop]; omega) (by lv) ?_ (by unwind)
  intro s4 px4 hp4 o4 r4 m4
  rw [wp_bind]
  refine dist (by omega) ?_
  try dsimp only [Ptr.add]
  rw [wp_bind]
  refine hp4.ui r4 (by simp only [List.length_drop]; omega) (by omega) (by lv) ?_ (by unwind)
  intro s5 px5 hp5 o5 r5 m5
  rw [wp_pure]
  refine ⟨r5.congr (by lv), ⟨?_, ?_, ?_⟩⟩
  all_goals
    intro i h1 h2
    rcases Nat.lt_or_ge i (p10) with k0 | k0
    all_goals try omega
    all_goals rcases Nat.lt_or_ge i (p30) with k1 | k1
    all_goals try omega
    all_goals
      simp (disch := omega) only [m1.dst, m1.oth, m2.dst, m2.oth, m3.dst, m3.oth, m4.dst, m4.oth, m5.dst, m5.oth, List.getElem?_drop]
      try first | (congr 1; omega) | (congr 2; omega)

theorem front8_spec (c0 : q10 < p10) (c1 : q20 > p10) (c2 : q30 ≤ p20) (c3 : q40 ≤ p30) :
    wp (front8 E ⟨b, p10⟩ ⟨b, p20⟩ ⟨b, p30⟩ ⟨b, q10⟩ ⟨b, q20⟩ ⟨b, q30⟩ ⟨b, q40⟩ ⟨b, p10⟩ n px)
      (Good H s al b cap nx p10 p20 q10 q20 q30 q40 vs) (Bad H E px al b cap nx p10 p30) s := by
  unfold front8
  rw [wp_bind]
  refine dist (by omega) ?_
  try dsimp only [Ptr.add]
  rw [wp_bind]
  refine h.um (by omega) (by lv) (by omega) (by lv) ?_ (by unwind)
  intro s1 r1 m1
  rw [wp_guard]
  rw [wp_bind]
  refine r1.mfNe (by omega) (by lv) (by lv) (by omega) ?_ (by unwind)
  intro s2 r2 m2
  rw [wp_bind]
  refine hp.ai r2 (by omega) (by lv) ?_ (by unwind)
  intro s3 px3 hp3 o3 r3 m3
  rw [wp_bind]
  refine r3.mfNe (by omega) (by lv) (by lv) (by omega) ?_ (by unwind)
  intro s4 r4 m4
  refine r4.des (by omega) (by lv) ?_
  intro s5 r5 m5
  refine ⟨r5.congr (by lv), ⟨?_, ?_, ?_⟩⟩
  all_goals
    intro i h1 h2
    rcases Nat.lt_or_ge i (p10) with k0 | k0
    all_goals try omega
    all_goals
      simp (disch := omega) only [m1.dst, m1.oth, m2.dst, m2.oth, m3.dst, m3.oth, m4.dst, m4.oth, m5.oth, List.getElem?_drop]
      try first | (congr 1; omega) | (congr 2; omega)

theorem front10_spec (c0 : q10 < p10) (c1 : q20 > p10) (c2 : q30 > p20) (c3 : q30 ≤ p30) :
    wp (front10 E ⟨b, p10⟩ ⟨b, p20⟩ ⟨b, p30⟩ ⟨b, q10⟩ ⟨b, q20⟩ ⟨b, q30⟩ ⟨b, q40⟩ n px)
      (Good H s al b cap nx p10 p20 q10 q20 q30 q40 vs) (Bad H E px al b cap nx p10 p30) s := by
  unfold front10
  rw [wp_bind]
  refine dist (by omega) ?_
  try dsimp only [Ptr.add]
  rw [wp_bind]
  refine dist (by omega) ?_
  try dsimp only [Ptr.add]
  rw [wp_bind]
  refine h.um (by omega) (by lv) (by omega) (by lv) ?_ (by unwind)
  intro s1 r1 m1
  rw [wp_guard]
  rw [wp_bind]
  refine r1.mfNe (by omega) (by lv) (by lv) (by omega) ?_ (by unwind)
  intro s2 r2 m2
  rw [wp_bind]
  refine r2.um (by omega) (by lv) (by omega) (by lv) ?_ (by unwind)
  intro s3 r3 m3
  rw [wp_guard]
  rw [wp_bind]
  refine r3.mbNe (by omega) (by omega) (by lv) (by lv) (by omega) ?_ (by unwind)
  intro s4 r4 m4
  rw [wp_bind]
  refine hp.ai r4 (by omega) (by lv) ?_ (by unwind)
  intro s5 px5 hp5 o5 r5 m5
  rw [wp_pure]
  refine ⟨r5.congr (by lv), ⟨?_, ?_, ?_⟩⟩
  all_goals
    intro i h1 h2
    rcases Nat.lt_or_ge i (p10) with k0 | k0
    all_goals try omega
    all_goals rcases Nat.lt_or_ge i (p30) with k1 | k1
    all_goals try omega
    all_goals
      simp (disch := omega) only [m1.dst, m1.oth, m2.dst, m2.oth, m3.dst, m3.oth, m4.dst, m4.oth, m5.dst, m5.oth, List.getElem?_drop]
      try first | (congr 1; omega) | (congr 2; omega)

theorem front11_spec (c0 : q10 < p10) (c1 : q20 > p10) (c2 : q30 > p30) :
    wp (front11 E ⟨b, p10⟩ ⟨b, p20⟩ ⟨b, p30⟩ ⟨b, q10⟩ ⟨b, q20⟩ ⟨b, q30⟩ ⟨b, q40⟩ px)
      (Good H s al b cap nx p10 p20 q10 q20 q30 q40 vs) (Bad H E px al b cap nx p10 p30) s := by
  unfold front11
  rw [wp_bind]
  refine dist (by omega) ?_
  try dsimp only [Ptr.add]
  rw [wp_bind]
  refine h.um (by omega) (by lv) (by omega) (by lv) ?_ (by unwind)
  intro s1 r1 m1
  rw [wp_guard]
  rw [wp_bind]
  refine r1.mfNe (by omega) (by lv) (by lv) (by omega) ?_ (by unwind)
  intro s2 r2 m2
  rw [wp_bind]
  refine r2.um (by omega) (by lv) (by omega) (by lv) ?_ (by unwind)
  intro s3 r3 m3
  rw [wp_guard]
  rw [wp_bind]
  refine dist (by omega) ?_
  try dsimp only [Ptr.add]
  rw [wp_bind]
  refine hp.ai r3 (by omega) (by lv) ?_ (by unwind)
  intro s4 px4 hp4 o4 r4 m4
  rw [wp_bind]
  refine dist (by omega) ?_
  try dsimp only [Ptr.add]
  rw [wp_bind]
  refine hp4.ui r4 (by simp only [List.length_drop]; omega) (by omega) (by lv) ?_ (by unwind)
  intro s5 px5 hp5 o5 r5 m5
  rw [wp_pure]
  refine ⟨r5.congr (by lv), ⟨?_, ?_, ?_⟩⟩
  all_goals
    intro i h1 h2
    rcases Nat.lt_or_ge i (p10) with k0 | k0
    all_goals try omega
    all_goals rcases Nat.lt_or_ge i (p30) with k1 | k1
    all_goals try omega
    all_goals
      simp (disch := omega) only [m1.dst, m1.oth, m2.dst, m2.oth, m3.dst, m3.oth, m4.dst, m4.oth, m5.dst, m5.oth, List.getElem?_drop]
      try first | (congr 1; omega) | (congr 2; omega)

end cases

end Sfl.Devector
