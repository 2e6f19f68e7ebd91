import Verif.DevShift
/-
  devector: the remaining cases of insert_aux and the choice between them. (Helper lemmas.)
-/

namespace Sfl.Devector
open Sfl
variable {α : Type} {E : Env α} {H : Heap α} {al b cap nx : Nat} {X : Exn → St α → Prop}
  {s : St α} {L : Nat → Prop}
set_option linter.unusedSimpArgs false

/-- Outcome of the two cases with a wrong guard on exception: nothing is said about the memory. -/
def Bad0 (E : Env α) (px : Proxy α) (e : Exn) (_ : St α) : Prop :=
  e = .elem ∧ (px.isOne = true → ¬ NothrowMove E)

set_option hygiene false in
/-- An exception: run the guards (and forget the memory). -/
macro "unwind0" : tactic => `(tactic| (
  intro hno sx hx
  repeat (first
    | (refine Row.des hx (by omega) (by lv) ?_; clear hx; intro sx hx _)
    | (refine Row.destroyN hx (by lv) ?_; clear hx; intro sx hx _))
  exact ⟨rfl, by intro ho; first | exact hno | exact hno ho | exact hno (by grind only)⟩))

section cases
variable {p10 p20 p30 q10 q20 q30 q40 n : Nat} {px : Proxy α} {vs : List α}
  (h : Row H s al b cap nx (fun i => p10 ≤ i ∧ i < p30)) (hp : px.Has H E vs) (hn : vs.length = n)
  (h12 : p10 ≤ p20) (h23 : p20 ≤ p30) (e2 : q20 = q10 + (p20 - p10)) (e3 : q30 = q20 + n)
  (e4 : q40 = q30 + (p30 - p20)) (hc : q40 ≤ cap)
include h hp hn h12 h23 e2 e3 e4 hc

theorem back6_spec (c0 : q40 > p30) (c1 : q30 ≥ p30) (c2 : q20 < p20) (c3 : q20 ≥ p10) :
    wp (back6 E ⟨b, p10⟩ ⟨b, p20⟩ ⟨b, p30⟩ ⟨b, q10⟩ ⟨b, q20⟩ ⟨b, q30⟩ ⟨b, q40⟩ px)
      (Good H s al b cap nx p10 p20 q10 q20 q30 q40 vs) (Bad0 E px) s := by
  unfold back6
  rw [wp_bind]
  refine dist (by omega) ?_
  try dsimp only [Ptr.add]
  rw [wp_bind]
  refine h.um (by omega) (by lv) (by omega) (by lv) ?_ (by unwind0)
  intro s1 r1 m1
  rw [wp_guard]
  rw [wp_bind]
  refine r1.um (by omega) (by lv) (by omega) (by lv) ?_ (by unwind0)
  intro s2 r2 m2
  rw [wp_guard]
  rw [wp_bind]
  refine r2.mfNe (by omega) (by lv) (by lv) (by omega) ?_ (by unwind0)
  intro s3 r3 m3
  rw [wp_bind]
  refine dist (by omega) ?_
  try dsimp only [Ptr.add]
  rw [wp_bind]
  refine hp.ai r3 (by omega) (by lv) ?_ (by unwind0)
  intro s4 px4 hp4 o4 r4 m4
  rw [wp_bind]
  refine dist (by omega) ?_
  try dsimp only [Ptr.add]
  rw [wp_bind]
  refine hp4.ui r4 (by simp only [List.length_drop]; omega) (by omega) (by lv) ?_ (by unwind0)
  intro s5 px5 hp5 o5 r5 m5
  rw [wp_pure]
  refine ⟨r5.congr (by lv), ⟨?_, ?_, ?_⟩⟩
  all_goals
    intro i h1 h2
    rcases Nat.lt_or_ge i (p10) with k0 | k0
    all_goals try omega
    all_goals rcases Nat.lt_or_ge i (p30) with k1 | k1
    all_goals try omega
    all_goals
      simp (disch := omega) only [m1.dst, m1.oth, m2.dst, m2.oth, m3.dst, m3.oth, m4.dst, m4.oth, m5.dst, m5.oth, List.getElem?_drop]
      try first | (congr 1; omega) | (congr 2; omega)

theorem front8_bug_spec (c0 : q10 < p10) (c1 : q20 > p10) (c2 : q30 ≤ p20) (c3 : q40 ≤ p30) :
    wp (front8 E ⟨b, p10⟩ ⟨b, p20⟩ ⟨b, p30⟩ ⟨b, q10⟩ ⟨b, q20⟩ ⟨b, q30⟩ ⟨b, q40⟩ ⟨b, q20⟩ n px)
      (Good H s al b cap nx p10 p20 q10 q20 q30 q40 vs) (Bad0 E px) s := by
  unfold front8
  rw [wp_bind]
  refine dist (by omega) ?_
  try dsimp only [Ptr.add]
  rw [wp_bind]
  refine h.um (by omega) (by lv) (by omega) (by lv) ?_ (by unwind0)
  intro s1 r1 m1
  rw [wp_guard]
  rw [wp_bind]
  refine r1.mfNe (by omega) (by lv) (by lv) (by omega) ?_ (by unwind0)
  intro s2 r2 m2
  rw [wp_bind]
  refine hp.ai r2 (by omega) (by lv) ?_ (by unwind0)
  intro s3 px3 hp3 o3 r3 m3
  rw [wp_bind]
  refine r3.mfNe (by omega) (by lv) (by lv) (by omega) ?_ (by unwind0)
  intro s4 r4 m4
  refine r4.des (by omega) (by lv) ?_
  intro s5 r5 m5
  refine ⟨r5.congr (by lv), ⟨?_, ?_, ?_⟩⟩
  all_goals
    intro i h1 h2
    rcases Nat.lt_or_ge i (p10) with k0 | k0
    all_goals try omega
    all_goals
      simp (disch := omega) only [m1.dst, m1.oth, m2.dst, m2.oth, m3.dst, m3.oth, m4.dst, m4.oth, m5.oth, List.getElem?_drop]
      try first | (congr 1; omega) | (congr 2; omega)

theorem intoFront1_spec (c0 : q30 = p20) (c1 : q20 > p10) :
    wp (intoFront1 E ⟨b, p10⟩ ⟨b, p20⟩ ⟨b, q10⟩ ⟨b, q20⟩ n px)
      (Good H s al b cap nx p10 p20 q10 q20 q30 q40 vs) (Bad H E px al b cap nx p10 p30) s := by
  unfold intoFront1
  rw [wp_bind]
  refine dist (by omega) ?_
  try dsimp only [Ptr.add]
  rw [wp_bind]
  refine h.um (by omega) (by lv) (by omega) (by lv) ?_ (by unwind)
  intro s1 r1 m1
  rw [wp_guard]
  rw [wp_bind]
  refine r1.mfNe (by omega) (by lv) (by lv) (by omega) ?_ (by unwind)
  intro s2 r2 m2
  rw [wp_bind]
  refine hp.ai r2 (by omega) (by lv) ?_ (by unwind)
  intro s3 px3 hp3 o3 r3 m3
  rw [wp_pure]
  refine ⟨r3.congr (by lv), ⟨?_, ?_, ?_⟩⟩
  all_goals
    intro i h1 h2
    rcases Nat.lt_or_ge i (p10) with k0 | k0
    all_goals try omega
    all_goals
      simp (disch := omega) only [m1.dst, m1.oth, m2.dst, m2.oth, m3.dst, m3.oth, List.getElem?_drop]
      try first | (congr 1; omega) | (congr 2; omega)

theorem intoFront2_spec (c0 : q30 = p20) (c1 : q20 ≤ p10) :
    wp (intoFront2 E ⟨b, p10⟩ ⟨b, p20⟩ ⟨b, q10⟩ ⟨b, q20⟩ ⟨b, q30⟩ px)
      (Good H s al b cap nx p10 p20 q10 q20 q30 q40 vs) (Bad H E px al b cap nx p10 p30) s := by
  unfold intoFront2
  rw [wp_bind]
  refine h.um (by omega) (by lv) (by omega) (by lv) ?_ (by unwind)
  intro s1 r1 m1
  rw [wp_guard]
  rw [wp_bind]
  refine dist (by omega) ?_
  try dsimp only [Ptr.add]
  rw [wp_bind]
  refine hp.ui r1 (by omega) (by omega) (by lv) ?_ (by unwind)
  intro s2 px2 hp2 o2 r2 m2
  rw [wp_guard]
  rw [wp_bind]
  refine dist (by omega) ?_
  try dsimp only [Ptr.add]
  rw [wp_bind]
  refine hp2.ai r2 (by simp only [List.length_drop]; omega) (by lv) ?_ (by unwind)
  intro s3 px3 hp3 o3 r3 m3
  rw [wp_pure]
  refine ⟨r3.congr (by lv), ⟨?_, ?_, ?_⟩⟩
  all_goals
    intro i h1 h2
    rcases Nat.lt_or_ge i (p10) with k0 | k0
    all_goals try omega
    all_goals
      simp (disch := omega) only [m1.dst, m1.oth, m2.dst, m2.oth, m3.dst, m3.oth, List.getElem?_drop]
      try first | (congr 1; omega) | (congr 2; omega)

theorem intoBack1_spec (c0 : q20 = p20) (c1 : q30 < p30) :
    wp (intoBack1 E ⟨b, p20⟩ ⟨b, p30⟩ ⟨b, q20⟩ ⟨b, q30⟩ ⟨b, q40⟩ n px)
      (Good H s al b cap nx p10 p20 q10 q20 q30 q40 vs) (Bad H E px al b cap nx p10 p30) s := by
  unfold intoBack1
  rw [wp_bind]
  refine dist (by omega) ?_
  try dsimp only [Ptr.add]
  rw [wp_bind]
  refine h.um (by omega) (by lv) (by omega) (by lv) ?_ (by unwind)
  intro s1 r1 m1
  rw [wp_guard]
  rw [wp_bind]
  refine r1.mbNe (by omega) (by omega) (by lv) (by lv) (by omega) ?_ (by unwind)
  intro s2 r2 m2
  rw [wp_bind]
  refine hp.ai r2 (by omega) (by lv) ?_ (by unwind)
  intro s3 px3 hp3 o3 r3 m3
  rw [wp_pure]
  refine ⟨r3.congr (by lv), ⟨?_, ?_, ?_⟩⟩
  all_goals
    intro i h1 h2
    rcases Nat.lt_or_ge i (p30) with k0 | k0
    all_goals try omega
    all_goals
      simp (disch := omega) only [m1.dst, m1.oth, m2.dst, m2.oth, m3.dst, m3.oth, List.getElem?_drop]
      try first | (congr 1; omega) | (congr 2; omega)

theorem intoBack2_spec (c0 : q20 = p20) (c1 : q30 ≥ p30) :
    wp (intoBack2 E ⟨b, p20⟩ ⟨b, p30⟩ ⟨b, q20⟩ ⟨b, q30⟩ ⟨b, q40⟩ (p30-p20) px)
      (Good H s al b cap nx p10 p20 q10 q20 q30 q40 vs) (Bad H E px al b cap nx p10 p30) s := by
  unfold intoBack2
  rw [wp_bind]
  refine h.um (by omega) (by lv) (by omega) (by lv) ?_ (by unwind)
  intro s1 r1 m1
  rw [wp_guard]
  rw [wp_bind]
  refine hp.ai r1 (by omega) (by lv) ?_ (by unwind)
  intro s2 px2 hp2 o2 r2 m2
  rw [wp_bind]
  refine dist (by omega) ?_
  try dsimp only [Ptr.add]
  rw [wp_bind]
  refine hp2.ui r2 (by simp only [List.length_drop]; omega) (by omega) (by lv) ?_ (by unwind)
  intro s3 px3 hp3 o3 r3 m3
  rw [wp_pure]
  refine ⟨r3.congr (by lv), ⟨?_, ?_, ?_⟩⟩
  all_goals
    intro i h1 h2
    rcases Nat.lt_or_ge i (p30) with k0 | k0
    all_goals try omega
    all_goals
      simp (disch := omega) only [m1.dst, m1.oth, m2.dst, m2.oth, m3.dst, m3.oth, List.getElem?_drop]
      try first | (congr 1; omega) | (congr 2; omega)

end cases

end Sfl.Devector
