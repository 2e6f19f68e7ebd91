import Verif.SegDevSpec3
/-
  Specifications of the functions of segmented_devector: resizing, reserving, insertion of one element. Proof machinery: no
  code is modelled in this file.
-/

set_option linter.unusedSimpArgs false
set_option linter.unusedSectionVars false

namespace Sfl.SegDev
open SegVec (Fit IsFrom wp_run)
variable {α : Type} {E : Env α} {N al tcap f n : Nat} {V V' : View} {xs : List α} {o : Obj SDVec α} {H : Heap α} {a : Arg α} {v : α}

theorem wp_cases {σ β : Type} {c : Prop} {inst : Decidable c} {a b : M σ β} {Q : β → σ → Prop} {X : Exn → σ → Prop} {s : σ}
    (h1 : c → wp a Q X s) (h2 : ¬ c → wp b Q X s) : wp (@ite _ c inst a b) Q X s := by
  split
  · exact h1 ‹_›
  · exact h2 ‹_›

/-- An argument keeps its value when the elements keep theirs. -/
theorem SRow.keeps {s s' : St α} {L L' : Nat → Prop} (h : SRow V al tcap H s L) (h' : SRow V al tcap H s' L')
    (hc : ∀ i, L i → V.cell s' i = V.cell s i) (hv : a.value s = some v) : a.value s' = some v := by
  have key : ∀ p : Ptr, s.mem p.blk p.off = some v → s'.mem p.blk p.off = some v := by
    intro p hp
    obtain ⟨q, hq, hm⟩ := h.lay.place hp
    by_cases hb : q.blk = V.tb
    · obtain ⟨qb, k⟩ := q
      dsimp only at hb; subst hb
      rw [View.map_tb] at hq
      subst hq
      have hcs : V.cell s k = some v := hm
      have hL : L k := (h.live k).mp (by rw [hcs]; rfl)
      have := hc k hL
      rw [hcs, View.cell_lt (h.lt hL)] at this
      exact this
    · have : p = q := by rw [← hq]; unfold View.map; rw [if_neg hb]
      subst this
      have hs : p.blk ∉ V.segs := fun hs => by simp [View.view, hb, hs] at hm
      have hnb : ¬ V.blocks p.blk := fun hx => hx.elim hb hs
      rw [h'.owns.mem _ hnb, ← h.owns.mem _ hnb]; exact hp
  cases a with
  | val w => exact hv
  | rv w => exact hv
  | ref p => exact key p hv
  | mv p => exact key p hv
  | mvIf p => exact key p hv

theorem value_congr {s s' : St α} (hm : s'.mem = s.mem) (hv : a.value s = some v) : a.value s' = some v := by
  cases a <;> simp only [Arg.value, hm] at hv ⊢ <;> exact hv

/-- The elements with indices `j ≤ k < n` have stayed where they were, and now have the indices `k + i - j`. -/
def Stay (V : View) (f : Nat) (V' : View) (f' i j n : Nat) : Prop :=
  ∀ k, j ≤ k → k < n → V'.addr (f' + (k + i - j)) = V.addr (f + k)

theorem Stay.refl : Stay V f V f 0 0 n := fun k _ _ => by rw [Nat.add_zero, Nat.sub_zero]

theorem Sub.stay {d : Nat} (h : Sub V d V') (hn : f + n ≤ V.size) (hs : V.size < V.cap) : Stay V f V' (f + d) 0 0 n := by
  intro k _ hk
  rw [Nat.add_zero, Nat.sub_zero, ← h.addr (f + k) (by omega)]
  congr 1; omega

theorem Stay.front {f' m : Nat} (h : Stay V f V' f' 0 0 n) (hm : m ≤ f') : Stay V f V' (f' - m) m 0 n := by
  intro k h1 h2
  rw [← h k h1 h2]
  congr 1; omega

/-- The container has been left as it was, up to its spare room. -/
def Held (H : Heap α) (N al : Nat) (V : View) (f : Nat) (xs : List α) (o' : Obj SDVec α) : Prop :=
  ∃ V' tcap' f', DSt H N o' al V' tcap' f' xs ∧ Stay V f V' f' 0 0 xs.length

theorem DSt.held (h : DSt H N o al V tcap f xs) : Held H N al V f xs o := ⟨V, tcap, f, h, Stay.refl⟩

theorem DSt.size_lt (h : DSt H N o al V tcap f xs) : V.size < V.cap := h.lay.size_lt

/-! ### Cutting -/

theorem cutBack_spec (h : DSt H N o al V tcap f xs) (hn : n ≤ xs.length) :
    wp (cutBack N n) (fun _ o' => DSt H N o' al V tcap f (xs.take n)) (fun _ _ => False) o := by
  have hnth := h.nth_run hn
  obtain ⟨t, m, rfl, rfl, hg, hF, hr, hl, hc⟩ := h.out
  unfold cutBack
  rw [wp_bind, wp_run hnth]
  sd
  refine hr.destroy hF (by omega) (by omega) (by iv) ?_
  intro s1 r1 m1
  refine hg.state r1 (by iv) (by omega) (by simp; omega) ?_
  intro i h1 h2
  rw [m1]
  cel hc

theorem cutFront_spec (h : DSt H N o al V tcap f xs) (hn : n ≤ xs.length) :
    wp (cutFront N n) (fun _ o' => DSt H N o' al V tcap (f + n) (xs.drop n)) (fun _ _ => False) o := by
  have hnth := h.nth_run hn
  obtain ⟨t, m, rfl, rfl, hg, hF, hr, hl, hc⟩ := h.out
  unfold cutFront
  rw [wp_bind, wp_run hnth]
  sd
  refine hr.destroy hF (by omega) (by omega) (by iv) ?_
  intro s1 r1 m1
  refine hg.state r1 (by iv) (by omega) (by simp; omega) ?_
  intro i h1 h2
  rw [m1]
  cel hc

/-! ### Filling -/

section
variable (h : DSt H N o al V tcap f xs) (hv : a.value o.m = some v) (hsrc : a.src E = none)
include h hv hsrc

theorem fillBack_spec (hn : f + xs.length + n ≤ V.size) :
    wp (fillBack E N n a) (fun _ o' => DSt H N o' al V tcap f (xs ++ List.replicate n v) ∧ a.value o'.m = some v)
      (fun e o' => e = .elem ∧ DSt H N o' al V tcap f xs) o := by
  obtain ⟨t, m, rfl, rfl, hg, hF, hr, hl, hc⟩ := h.out
  unfold fillBack
  sd
  refine hr.uninitFillN hF hv hsrc hn (by iv) ?_ ?_
  · intro s1 r1 m1
    refine ⟨hg.state r1 (by iv) (by omega) (by simp; omega) ?_, hr.keeps r1 (fun i hi => by rw [m1, if_neg (by omega)]) hv⟩
    intro i h1 h2
    rw [m1]
    cel hc
  · intro s1 r1 m1
    exact ⟨rfl, hg.state r1 (by iv) (by omega) rfl (fun i h1 _ => by rw [m1]; exact hc i h1)⟩

theorem fillEos_spec :
    wp (fillEos E N a) (fun _ o' => DSt H N o' al V tcap f (xs ++ List.replicate (V.size - (f + xs.length)) v) ∧ a.value o'.m = some v)
      (fun e o' => e = .elem ∧ DSt H N o' al V tcap f xs) o := by
  obtain ⟨t, m, rfl, rfl, hg, hF, hr, hl, hc⟩ := h.out
  unfold fillEos
  sd
  refine hr.uninitFill hF hv hsrc hl (Nat.le_refl _) (by iv) ?_ ?_
  · intro s1 r1 m1
    refine ⟨hg.state r1 (by iv) (by omega) (by simp; omega) ?_, hr.keeps r1 (fun i hi => by rw [m1, if_neg (by omega)]) hv⟩
    intro i h1 h2
    rw [m1]
    cel hc
  · intro s1 r1 m1
    exact ⟨rfl, hg.state r1 (by iv) (by omega) rfl (fun i h1 _ => by rw [m1]; exact hc i h1)⟩

theorem fillFront_spec (hn : n ≤ f) :
    wp (fillFront E N n a) (fun _ o' => DSt H N o' al V tcap (f - n) (List.replicate n v ++ xs) ∧ a.value o'.m = some v)
      (fun e o' => e = .elem ∧ DSt H N o' al V tcap f xs) o := by
  obtain ⟨t, m, rfl, rfl, hg, hF, hr, hl, hc⟩ := h.out
  unfold fillFront
  sd
  rw [wp_run (hF.adv (q := f - n) (by omega) (by omega) (by omega) _)]
  refine hr.uninitFill hF hv hsrc (by omega) (by omega) (by iv) ?_ ?_
  · intro s1 r1 m1
    refine ⟨hg.state r1 (by iv) (by omega) (by simp; omega) ?_, hr.keeps r1 (fun i hi => by rw [m1, if_neg (by omega)]) hv⟩
    intro i h1 h2
    rw [m1]
    cel hc
  · intro s1 r1 m1
    exact ⟨rfl, hg.state r1 (by iv) (by omega) rfl (fun i h1 _ => by rw [m1]; exact hc i h1)⟩

theorem fillBos_spec :
    wp (fillBos E N a) (fun _ o' => DSt H N o' al V tcap 0 (List.replicate f v ++ xs) ∧ a.value o'.m = some v)
      (fun e o' => e = .elem ∧ DSt H N o' al V tcap f xs) o := by
  obtain ⟨t, m, rfl, rfl, hg, hF, hr, hl, hc⟩ := h.out
  unfold fillBos
  sd
  refine hr.uninitFill hF hv hsrc (by omega) (by omega) (by iv) ?_ ?_
  · intro s1 r1 m1
    refine ⟨hg.state r1 (by iv) (by omega) (by simp) ?_, hr.keeps r1 (fun i hi => by rw [m1, if_neg (by omega)]) hv⟩
    intro i h1 h2
    rw [m1]
    cel hc
  · intro s1 r1 m1
    exact ⟨rfl, hg.state r1 (by iv) (by omega) rfl (fun i h1 _ => by rw [m1]; exact hc i h1)⟩

/-! ### Resizing -/

theorem resizeWith_spec :
    wp (resizeWith E N n a)
      (fun _ o' => ∃ V' tcap' f' i j, i + j = n - xs.length ∧
        DSt H N o' al V' tcap' f' (List.replicate i v ++ xs.take n ++ List.replicate j v) ∧ Stay V f V' f' i 0 (min n xs.length))
      (fun e o' => xs.length < n ∧ (e = .lengthError → E.maxSize < n) ∧
        ∃ V' tcap' k, DSt H N o' al V' tcap' f (xs ++ List.replicate k v) ∧ Stay V f V' f 0 0 xs.length) o := by
  have hlt := h.size_lt
  have hlen := h.len
  unfold resizeWith
  rw [wp_bind, wp_run h.size_run, wp_ite]
  split
  · rename_i hn
    refine wp_mono (cutBack_spec h hn) ?_ (fun _ _ k => k.elim)
    intro _ o1 h1
    exact ⟨V, tcap, f, 0, 0, by omega, by simpa using h1, Stay.refl⟩
  rename_i hn
  have htk : xs.take n = xs := List.take_of_length_le (by omega)
  rw [htk, Nat.min_eq_right (by omega)]
  rw [wp_bind, wp_run h.availableBack_run, wp_ite]
  split
  · refine wp_mono (fillBack_spec h hv hsrc (by omega)) ?_ ?_
    · rintro _ o1 ⟨h1, -⟩
      exact ⟨V, tcap, f, 0, n - xs.length, by omega, by simpa using h1, Stay.refl⟩
    · rintro e o1 ⟨rfl, h1⟩
      exact ⟨by omega, by simp, V, tcap, 0, by simpa using h1, Stay.refl⟩
  rw [wp_bind, wp_run h.availableFront_run, wp_ite]
  split
  · rw [wp_bind]
    refine wp_mono (fillEos_spec h hv hsrc) ?_ ?_
    · rintro _ o1 ⟨h1, hv1⟩
      refine wp_mono (fillFront_spec h1 hv1 hsrc (by omega)) ?_ ?_
      · rintro _ o2 ⟨h2, -⟩
        refine ⟨V, tcap, _, n - (xs.length + (V.size - (f + xs.length))), V.size - (f + xs.length), by omega, by simpa using h2, ?_⟩
        exact Stay.refl.front (by omega)
      · rintro e o2 ⟨rfl, h2⟩
        exact ⟨by omega, by simp, V, tcap, _, h2, Stay.refl⟩
    · rintro e o1 ⟨rfl, h1⟩
      exact ⟨by omega, by simp, V, tcap, 0, by simpa using h1, Stay.refl⟩
  rw [wp_bind]
  refine wp_mono (growStorageBack_spec h) ?_ ?_
  · rintro _ o1 ⟨V1, tcap1, hsub, hsz, h1, hm1⟩
    have hst : Stay V f V1 f 0 0 xs.length := hsub.stay hlen hlt
    rw [wp_bind]
    refine wp_mono (fillBack_spec h1 (value_congr hm1 hv) hsrc (by omega)) ?_ ?_
    · rintro _ o2 ⟨h2, hv2⟩
      refine wp_mono (fillBos_spec h2 hv2 hsrc) ?_ ?_
      · rintro _ o3 ⟨h3, -⟩
        refine ⟨V1, tcap1, 0, f, n - (xs.length + f), by omega, by simpa using h3, ?_⟩
        have := hst.front (Nat.le_refl f)
        rwa [Nat.sub_self] at this
      · rintro e o3 ⟨rfl, h3⟩
        exact ⟨by omega, by simp, V1, tcap1, _, h3, hst⟩
    · rintro e o2 ⟨rfl, h2⟩
      exact ⟨by omega, by simp, V1, tcap1, 0, by simpa using h2, hst⟩
  · rintro e o1 ⟨k1, -, V1, tcap1, hsub, -, h1, -⟩
    exact ⟨by omega, fun he => (by have := k1 he; omega), V1, tcap1, 0, by simpa using h1, hsub.stay hlen hlt⟩

theorem resizeFrontWith_spec :
    wp (resizeFrontWith E N n a)
      (fun _ o' => ∃ V' tcap' f', DSt H N o' al V' tcap' f' (List.replicate (n - xs.length) v ++ xs.drop (xs.length - n)) ∧
        Stay V f V' f' (n - xs.length) (xs.length - n) xs.length)
      (fun _ o' => xs.length < n ∧ Held H N al V f xs o') o := by
  have hlt := h.size_lt
  have hlen := h.len
  unfold resizeFrontWith
  rw [wp_bind, wp_run h.size_run, wp_ite]
  split
  · rename_i hn
    refine wp_mono (cutFront_spec h (n := xs.length - n) (by omega)) ?_ (fun _ _ k => k.elim)
    intro _ o1 h1
    refine ⟨V, tcap, f + (xs.length - n), ?_, ?_⟩
    · rw [show n - xs.length = 0 by omega]; simpa using h1
    · intro k h1 h2; congr 1; omega
  rename_i hn
  rw [show xs.length - n = 0 by omega, List.drop_zero]
  rw [wp_bind, wp_run h.availableFront_run]
  dsimp only
  have key : ∀ {V1 tcap1 f1 o1}, Stay V f V1 f1 0 0 xs.length → DSt H N o1 al V1 tcap1 f1 xs → a.value o1.m = some v →
      n - xs.length ≤ f1 → wp (fillFront E N (n - xs.length) a)
        (fun _ o' => ∃ V' tcap' f', DSt H N o' al V' tcap' f' (List.replicate (n - xs.length) v ++ xs) ∧
          Stay V f V' f' (n - xs.length) 0 xs.length)
        (fun _ o' => xs.length < n ∧ Held H N al V f xs o') o1 := by
    intro V1 tcap1 f1 o1 hst h1 hv1 hd
    refine wp_mono (fillFront_spec h1 hv1 hsrc hd) ?_ ?_
    · rintro _ o2 ⟨h2, -⟩
      exact ⟨V1, tcap1, _, h2, hst.front hd⟩
    · rintro e o2 ⟨-, h2⟩
      exact ⟨by omega, V1, tcap1, f1, h2, hst⟩
  rw [wp_ite]
  split
  · rw [wp_bind]
    refine wp_mono (growStorageFront_spec h) ?_ ?_
    · rintro _ o1 ⟨V1, tcap1, d, hsub, hd, h1, hm1⟩
      exact key (hsub.stay hlen hlt) h1 (value_congr hm1 hv) (by omega)
    · rintro e o1 ⟨-, -, V1, tcap1, hsub, -, h1, -⟩
      exact ⟨by omega, V1, tcap1, f, h1, hsub.stay hlen hlt⟩
  · exact key Stay.refl h hv (by omega)

theorem resizeBackWith_spec :
    wp (resizeBackWith E N n a)
      (fun _ o' => ∃ V' tcap', DSt H N o' al V' tcap' f (xs.take n ++ List.replicate (n - xs.length) v) ∧
        Stay V f V' f 0 0 (min n xs.length))
      (fun _ o' => xs.length < n ∧ Held H N al V f xs o') o := by
  have hlt := h.size_lt
  have hlen := h.len
  unfold resizeBackWith
  rw [wp_bind, wp_run h.size_run, wp_ite]
  split
  · rename_i hn
    refine wp_mono (cutBack_spec h (by omega)) ?_ (fun _ _ k => k.elim)
    intro _ o1 h1
    refine ⟨V, tcap, ?_, Stay.refl⟩
    rw [show n - xs.length = 0 by omega]; simpa using h1
  rename_i hn
  rw [List.take_of_length_le (by omega), Nat.min_eq_right (by omega)]
  rw [wp_bind, wp_run h.availableBack_run]
  dsimp only
  have key : ∀ {V1 tcap1 o1}, Stay V f V1 f 0 0 xs.length → DSt H N o1 al V1 tcap1 f xs → a.value o1.m = some v →
      f + xs.length + (n - xs.length) ≤ V1.size → wp (fillBack E N (n - xs.length) a)
        (fun _ o' => ∃ V' tcap', DSt H N o' al V' tcap' f (xs ++ List.replicate (n - xs.length) v) ∧
          Stay V f V' f 0 0 xs.length)
        (fun _ o' => xs.length < n ∧ Held H N al V f xs o') o1 := by
    intro V1 tcap1 o1 hst h1 hv1 hd
    refine wp_mono (fillBack_spec h1 hv1 hsrc hd) ?_ ?_
    · rintro _ o2 ⟨h2, -⟩
      exact ⟨V1, tcap1, h2, hst⟩
    · rintro e o2 ⟨-, h2⟩
      exact ⟨by omega, V1, tcap1, f, h2, hst⟩
  rw [wp_ite]
  split
  · rw [wp_bind]
    refine wp_mono (growStorageBack_spec h) ?_ ?_
    · rintro _ o1 ⟨V1, tcap1, hsub, hd, h1, hm1⟩
      exact key (hsub.stay hlen hlt) h1 (value_congr hm1 hv) (by omega)
    · rintro e o1 ⟨-, -, V1, tcap1, hsub, -, h1, -⟩
      exact ⟨by omega, V1, tcap1, f, h1, hsub.stay hlen hlt⟩
  · exact key Stay.refl h hv (by omega)

end

/-! ### Reserving -/

theorem reserveFront_spec (h : DSt H N o al V tcap f xs) :
    wp (reserveFront E N n) (fun _ o' => Held H N al V f xs o') (fun _ o' => xs.length < n ∧ Held H N al V f xs o') o := by
  have hlt := h.size_lt
  have hlen := h.len
  unfold reserveFront
  rw [wp_bind, wp_run h.size_run, wp_bind, wp_run h.availableFront_run, wp_ite]
  split
  · refine wp_mono (growStorageFront_spec h) ?_ ?_
    · rintro _ o1 ⟨V1, tcap1, d, hsub, hd, h1, hm1⟩
      exact ⟨V1, tcap1, _, h1, hsub.stay hlen hlt⟩
    · rintro e o1 ⟨-, -, V1, tcap1, hsub, -, h1, -⟩
      exact ⟨by omega, V1, tcap1, f, h1, hsub.stay hlen hlt⟩
  · rw [wp_pure]; exact h.held

theorem reserveBack_spec (h : DSt H N o al V tcap f xs) :
    wp (reserveBack E N n) (fun _ o' => Held H N al V f xs o') (fun _ o' => xs.length < n ∧ Held H N al V f xs o') o := by
  have hlt := h.size_lt
  have hlen := h.len
  unfold reserveBack
  rw [wp_bind, wp_run h.size_run, wp_bind, wp_run h.availableBack_run, wp_ite]
  split
  · refine wp_mono (growStorageBack_spec h) ?_ ?_
    · rintro _ o1 ⟨V1, tcap1, hsub, hd, h1, hm1⟩
      exact ⟨V1, tcap1, _, h1, hsub.stay hlen hlt⟩
    · rintro e o1 ⟨-, -, V1, tcap1, hsub, -, h1, -⟩
      exact ⟨by omega, V1, tcap1, f, h1, hsub.stay hlen hlt⟩
  · rw [wp_pure]; exact h.held

theorem shrink_held {o' : Obj SDVec α} {V' : View} {tcap' d f' : Nat} (hf : f = f' + d) (hs : Sub V' d V)
    (h' : DSt H N o' al V' tcap' f' xs) : Held H N al V f xs o' := by
  have h1 := h'.len
  have h2 := h'.size_lt
  refine ⟨V', tcap', f', h', fun k _ hk => ?_⟩
  rw [Nat.add_zero, Nat.sub_zero, ← hs.addr (f' + k) (by omega), hf]
  congr 1; omega

theorem shrink_spec (h : DSt H N o al V tcap f xs) :
    wp (shrinkStorage E N) (fun _ o' => Held H N al V f xs o') (fun e o' => e = .badAlloc ∧ Held H N al V f xs o') o := by
  refine wp_mono (shrinkStorage_spec h) ?_ ?_
  · rintro _ o' ⟨V', tcap', d, f', hf, hs, h', -⟩
    exact shrink_held hf hs h'
  · rintro e o' ⟨rfl, V', tcap', d, f', hf, hs, h', -⟩
    exact ⟨rfl, shrink_held hf hs h'⟩

/-! ### One element -/

section
variable (h : DSt H N o al V tcap f xs) (hv : a.value o.m = some v) (hsrc : a.src E = none)
include h hv hsrc

theorem emplaceFrontTail_spec (hf : 0 < f) :
    wp (emplaceFrontTail E N a) (fun p o' => DSt H N o' al V tcap (f - 1) (v :: xs) ∧ p = V.it (f - 1))
      (fun e o' => e = .elem ∧ DSt H N o' al V tcap f xs) o := by
  obtain ⟨t, m, rfl, rfl, hg, hF, hr, hl, hc⟩ := h.out
  obtain ⟨g, rfl⟩ : ∃ g, f = g + 1 := ⟨f - 1, by omega⟩
  unfold emplaceFrontTail
  sd
  rw [wp_run (hF.dec (by omega) _)]
  refine hr.construct hv hsrc (by omega) (by omega) ?_ ?_
  · intro s1 r1 m1
    refine ⟨hg.state r1 (by iv) (by omega) (by simp; omega) ?_, rfl⟩
    intro i h1 h2
    rw [m1]
    split
    · rename_i hi; subst hi; simp
    · rw [hc i (by omega), show i - g = (i - (g + 1)) + 1 by omega, List.getElem?_cons_succ]
  · intro s1 r1 m1
    exact ⟨rfl, hg.state r1 (by iv) (by omega) rfl (fun i h1 _ => by rw [m1]; exact hc i h1)⟩

theorem emplaceBackTail_spec (hf : f + xs.length < V.size) :
    wp (emplaceBackTail E N a) (fun p o' => DSt H N o' al V tcap f (xs ++ [v]) ∧ p = V.it (f + xs.length))
      (fun e o' => e = .elem ∧ DSt H N o' al V tcap f xs) o := by
  obtain ⟨t, m, rfl, rfl, hg, hF, hr, hl, hc⟩ := h.out
  unfold emplaceBackTail
  sd
  refine hr.construct hv hsrc (by omega) (by omega) ?_ ?_
  · intro s1 r1 m1
    rw [wp_run (hF.inc (by omega) _)]
    refine ⟨hg.state r1 (by iv) (by omega) (by simp; omega) ?_, trivial⟩
    intro i h1 h2
    rw [m1]
    split
    · rename_i hi; subst hi; simp
    · rw [hc i (by omega), List.getElem?_append_left (by omega)]
  · intro s1 r1 m1
    exact ⟨rfl, hg.state r1 (by iv) (by omega) rfl (fun i h1 _ => by rw [m1]; exact hc i h1)⟩

theorem emplaceFront_spec :
    wp (emplaceFront E N a)
      (fun p o' => ∃ V' tcap' f', DSt H N o' al V' tcap' f' (v :: xs) ∧ p = V'.it f' ∧ Stay V f V' f' 1 0 xs.length)
      (fun _ o' => Held H N al V f xs o') o := by
  have hlt := h.size_lt
  have hlen := h.len
  have e1 : Seg.eq o.obj.first o.obj.bos = decide (f = 0) := by
    rw [show o.obj.first = V.it f by rw [h.obj]; rfl, show o.obj.bos = V.it 0 by rw [h.obj]; rfl, h.fit.eq (by omega) (by omega)]
  unfold emplaceFront
  rw [wp_bind, wp_getObj]
  dsimp only
  rw [e1]
  have key : ∀ {V1 tcap1 f1 o1}, Stay V f V1 f1 0 0 xs.length → DSt H N o1 al V1 tcap1 f1 xs → a.value o1.m = some v → 0 < f1 →
      wp (emplaceFrontTail E N a)
      (fun p o' => ∃ V' tcap' f', DSt H N o' al V' tcap' f' (v :: xs) ∧ p = V'.it f' ∧ Stay V f V' f' 1 0 xs.length)
      (fun _ o' => Held H N al V f xs o') o1 := by
    intro V1 tcap1 f1 o1 hst h1 hv1 hd
    refine wp_mono (emplaceFrontTail_spec h1 hv1 hsrc hd) ?_ ?_
    · rintro p o2 ⟨h2, rfl⟩
      exact ⟨V1, tcap1, _, h2, rfl, hst.front hd⟩
    · rintro e o2 ⟨-, h2⟩
      exact ⟨V1, tcap1, f1, h2, hst⟩
  rw [wp_ite]
  split
  · rw [wp_bind]
    refine wp_mono (growStorageFront_spec h) ?_ ?_
    · rintro _ o1 ⟨V1, tcap1, d, hsub, hd, h1, hm1⟩
      exact key (hsub.stay hlen hlt) h1 (value_congr hm1 hv) (by omega)
    · rintro e o1 ⟨-, -, V1, tcap1, hsub, -, h1, -⟩
      exact ⟨V1, tcap1, f, h1, hsub.stay hlen hlt⟩
  · rename_i hc
    exact key Stay.refl h hv (by simp at hc; omega)

theorem emplaceBack_spec :
    wp (emplaceBack E N a)
      (fun p o' => ∃ V' tcap', DSt H N o' al V' tcap' f (xs ++ [v]) ∧ p = V'.it (f + xs.length) ∧ Stay V f V' f 0 0 xs.length)
      (fun e o' => Held H N al V f xs o' ∧ (e = .lengthError → E.maxSize < f + xs.length + 1)) o := by
  have hlt := h.size_lt
  have hlen := h.len
  have e1 : Seg.eq o.obj.last o.obj.eos = decide (f + xs.length = V.size) := by
    rw [show o.obj.last = V.it (f + xs.length) by rw [h.obj]; rfl, show o.obj.eos = V.it V.size by rw [h.obj]; rfl,
      h.fit.eq (by omega) (by omega)]
  unfold emplaceBack
  rw [wp_bind, wp_getObj]
  dsimp only
  rw [e1]
  have key : ∀ {V1 tcap1 o1}, Stay V f V1 f 0 0 xs.length → DSt H N o1 al V1 tcap1 f xs → a.value o1.m = some v →
      f + xs.length < V1.size → wp (emplaceBackTail E N a)
      (fun p o' => ∃ V' tcap', DSt H N o' al V' tcap' f (xs ++ [v]) ∧ p = V'.it (f + xs.length) ∧ Stay V f V' f 0 0 xs.length)
      (fun e o' => Held H N al V f xs o' ∧ (e = .lengthError → E.maxSize < f + xs.length + 1)) o1 := by
    intro V1 tcap1 o1 hst h1 hv1 hd
    refine wp_mono (emplaceBackTail_spec h1 hv1 hsrc hd) ?_ ?_
    · rintro p o2 ⟨h2, rfl⟩
      exact ⟨V1, tcap1, h2, rfl, hst⟩
    · rintro e o2 ⟨rfl, h2⟩
      exact ⟨⟨V1, tcap1, f, h2, hst⟩, by simp⟩
  rw [wp_ite]
  split
  · rename_i hc
    rw [wp_bind]
    refine wp_mono (growStorageBack_spec h) ?_ ?_
    · rintro _ o1 ⟨V1, tcap1, hsub, hd, h1, hm1⟩
      exact key (hsub.stay hlen hlt) h1 (value_congr hm1 hv) (by omega)
    · rintro e o1 ⟨hmax, -, V1, tcap1, hsub, -, h1, -⟩
      exact ⟨⟨V1, tcap1, f, h1, hsub.stay hlen hlt⟩, fun he => by have := hmax he; simp at hc; omega⟩
  · rename_i hc
    exact key Stay.refl h hv (by simp at hc; omega)

/-- What a failed insertion of one element leaves behind. -/
def Half (H : Heap α) (E : Env α) (N al : Nat) (xs : List α) (o' : Obj SDVec α) : Prop :=
  ∃ V' tcap' f' ys, DSt H N o' al V' tcap' f' ys ∧ (NothrowMove E → ys = xs) ∧ xs.length ≤ ys.length ∧ ys.length ≤ xs.length + 1

omit hv hsrc in
theorem DSt.half : Half H E N al xs o := ⟨V, tcap, f, xs, h, fun _ => rfl, by omega, by omega⟩

theorem emplaceFrontHalf_spec {k : Nat} (hf : 0 < f) (hk : k < xs.length) :
    wp (emplaceFrontHalf E N (V.it (f + k)) a)
      (fun p o' => DSt H N o' al V tcap (f - 1) (xs.take k ++ [v] ++ xs.drop k) ∧ p = V.it (f - 1 + k))
      (fun _ o' => Half H E N al xs o') o := by
  obtain ⟨t, m, rfl, rfl, hg, hF, hr, hl, hc⟩ := h.out
  obtain ⟨g, rfl⟩ : ∃ g, f = g + 1 := ⟨f - 1, by omega⟩
  have hlen : (xs.take k ++ [v] ++ xs.drop k).length = xs.length + 1 := by simp; omega
  have ek : g + 1 + k = g + k + 1 := by omega
  unfold emplaceFrontHalf
  sd
  rw [ek, wp_run (hF.dec (by omega) _)]
  refine wp_cases (fun hk0 => ?_) (fun hk0 => ?_) <;> rw [hF.eq (by omega) (by omega)] at hk0
  · obtain rfl : k = 0 := by simp at hk0; omega
    sd
    refine hr.construct hv hsrc (by omega) (by omega) ?_ ?_
    · intro s1 r1 m1
      refine ⟨hg.state (f := g) (l := g + 1 + xs.length) r1 (by iv) (by omega) (by omega) ?_, rfl⟩
      intro i h1 h2
      rw [m1]
      split
      · rename_i hi; subst hi; simp
      · rw [hc i (by omega), show i - g = (i - (g + 1)) + 1 by omega]; simp
    · intro s1 r1 m1
      exact (hg.state r1 (by iv) (by omega) rfl (fun i h1 _ => by rw [m1]; exact hc i h1)).half
  · have hk0 : 0 < k := by simp at hk0; omega
    sd
    rw [wp_run (hF.inc (by omega) _), wp_run (hF.dec (by omega) _)]
    refine mkTmp_copy hv hsrc ?_ ?_
    · intro s0 hs0 _ hm0
      have r0 := hr.fresh hs0 hm0
      have hc0 : ∀ i, V.cell s0 i = V.cell m i := fun i => by unfold View.cell View.view; simp only [hm0]
      refine r0.constructMove (by omega) (by omega) (by omega) ?_ ?_
      · intro s1 r1 m1
        refine r1.moveFwd hF (by omega) (by omega) (by iv) (by omega) (by iv) (by omega) ?_ ?_
        · intro s2 r2 m2
          refine r2.assign (a := .rv v) (v := v) rfl rfl (by omega) ?_ ?_
          · intro s3 r3 m3
            refine ⟨hg.state (f := g) (l := g + 1 + xs.length) r3 (by iv) (by omega) (by omega) ?_, rfl⟩
            intro i h1 h2
            rw [m3, m2]
            simp only [m1, hc0]
            cel hc
          · intro hx s3 r3
            have hx := hx rfl
            obtain ⟨ys, k1, k2⟩ := hg.lost (f := g) (n := xs.length + 1) r3 (by omega) (by iv)
            refine ⟨V, tcap, g, ys, ?_, fun hn => (by rw [hn.2] at hx; cases hx), by omega, by omega⟩
            rw [show g + (xs.length + 1) = g + 1 + xs.length by omega] at k1; exact k1
        · intro hx _ s2 r2
          obtain ⟨ys, k1, k2⟩ := hg.lost (f := g) (n := xs.length + 1) r2 (by omega) (by iv)
          refine ⟨V, tcap, g, ys, ?_, fun hn => (by rw [hn.2] at hx; cases hx), by omega, by omega⟩
          rw [show g + (xs.length + 1) = g + 1 + xs.length by omega] at k1; exact k1
      · intro hx s1 r1
        obtain ⟨ys, k1, k2⟩ := hg.lost (f := g + 1) (n := xs.length) r1 (by omega) (by iv)
        exact ⟨V, tcap, _, ys, k1, fun hn => (by rw [hn.1] at hx; cases hx), by omega, by omega⟩
    · intro s0 hs0 hm0
      have hc0 : ∀ i, V.cell s0 i = V.cell m i := fun i => by unfold View.cell View.view; simp only [hm0]
      exact (hg.state (hr.fresh hs0 hm0) (by iv) (by omega) rfl (fun i h1 _ => by rw [hc0]; exact hc i h1)).half

theorem emplaceBackHalf_spec {k : Nat} (hf : f + xs.length < V.size) (hk : k ≤ xs.length) :
    wp (emplaceBackHalf E N (V.it (f + k)) a)
      (fun p o' => DSt H N o' al V tcap f (xs.take k ++ [v] ++ xs.drop k) ∧ p = V.it (f + k))
      (fun _ o' => Half H E N al xs o') o := by
  obtain ⟨t, m, rfl, rfl, hg, hF, hr, hl, hc⟩ := h.out
  have hlen : (xs.take k ++ [v] ++ xs.drop k).length = xs.length + 1 := by simp; omega
  unfold emplaceBackHalf
  sd
  refine wp_cases (fun hk0 => ?_) (fun hk0 => ?_) <;> rw [hF.eq (by omega) (by omega)] at hk0
  · obtain rfl : k = xs.length := by simp at hk0; omega
    sd
    refine hr.construct hv hsrc (by omega) (by omega) ?_ ?_
    · intro s1 r1 m1
      rw [wp_run (hF.inc (by omega) _)]
      refine ⟨hg.state r1 (by iv) (by omega) (by omega) ?_, trivial⟩
      intro i h1 h2
      rw [m1]
      cel hc
    · intro s1 r1 m1
      exact (hg.state r1 (by iv) (by omega) rfl (fun i h1 _ => by rw [m1]; exact hc i h1)).half
  · have hk0 : k < xs.length := by simp at hk0; omega
    obtain ⟨g, hgl⟩ : ∃ g, f + xs.length = g + 1 := ⟨f + xs.length - 1, by omega⟩
    sd
    rw [hgl, wp_run (hF.dec (by omega) _)]
    refine mkTmp_copy hv hsrc ?_ ?_
    · intro s0 hs0 _ hm0
      have r0 := hr.fresh hs0 hm0
      have hc0 : ∀ i, V.cell s0 i = V.cell m i := fun i => by unfold View.cell View.view; simp only [hm0]
      refine r0.constructMove (by omega) (by omega) (by omega) ?_ ?_
      · intro s1 r1 m1
        rw [wp_run (hF.inc (by omega) _)]
        refine r1.moveBackward hF (by omega) (by omega) (by omega) (by omega) (by iv) (by iv) (by omega) ?_ ?_
        · intro s2 r2 m2
          refine r2.assign (a := .rv v) (v := v) rfl rfl (by omega) ?_ ?_
          · intro s3 r3 m3
            refine ⟨hg.state r3 (by iv) (by omega) (by omega) ?_, trivial⟩
            intro i h1 h2
            rw [m3, m2]
            simp only [m1, hc0]
            cel hc
          · intro hx s3 r3
            have hx := hx rfl
            obtain ⟨ys, k1, k2⟩ := hg.lost (f := f) (n := xs.length + 1) r3 (by omega) (by iv)
            refine ⟨V, tcap, f, ys, ?_, fun hn => (by rw [hn.2] at hx; cases hx), by omega, by omega⟩
            rw [show f + (xs.length + 1) = g + 1 + 1 by omega] at k1; exact k1
        · intro hx _ s2 r2
          obtain ⟨ys, k1, k2⟩ := hg.lost (f := f) (n := xs.length + 1) r2 (by omega) (by iv)
          refine ⟨V, tcap, f, ys, ?_, fun hn => (by rw [hn.2] at hx; cases hx), by omega, by omega⟩
          rw [show f + (xs.length + 1) = g + 1 + 1 by omega] at k1; exact k1
      · intro hx s1 r1
        obtain ⟨ys, k1, k2⟩ := hg.lost (f := f) (n := xs.length) r1 (by omega) (by iv)
        rw [hgl] at k1
        exact ⟨V, tcap, _, ys, k1, fun hn => (by rw [hn.1] at hx; cases hx), by omega, by omega⟩
    · intro s0 hs0 hm0
      have hc0 : ∀ i, V.cell s0 i = V.cell m i := fun i => by unfold View.cell View.view; simp only [hm0]
      rw [← hgl]
      exact (hg.state (hr.fresh hs0 hm0) (by iv) (by omega) rfl (fun i h1 _ => by rw [hc0]; exact hc i h1)).half

theorem emplace_spec {k : Nat} (hk : k ≤ xs.length) :
    wp (emplace E N (V.it (f + k)) a)
      (fun p o' => ∃ V' tcap' f', DSt H N o' al V' tcap' f' (xs.take k ++ [v] ++ xs.drop k) ∧ p = V'.it (f' + k))
      (fun _ o' => Half H E N al xs o') o := by
  have hlt := h.size_lt
  have hlen := h.len
  have hin := h.inRange hk
  have hN := h.num
  have ef : o.obj.first = V.it f := by rw [h.obj]; rfl
  have el : o.obj.last = V.it (f + xs.length) := by rw [h.obj]; rfl
  have eb : o.obj.bos = V.it 0 := by rw [h.obj]; rfl
  have ee : o.obj.eos = V.it V.size := by rw [h.obj]; rfl
  have hF := h.fit
  subst hN
  unfold emplace
  rw [wp_bind, wp_getObj, wp_bind, wp_assert]
  refine ⟨hin, ?_⟩
  simp only [ef, el, eb, ee]
  rw [wp_bind, wp_run (hF.dist (by omega) (by omega) _), Nat.add_sub_cancel_left, wp_bind,
    wp_run (hF.adv (q := f + k) (by omega) (by omega) (by omega) _), wp_bind, wp_run (hF.dist (by omega) (by omega) _)]
  refine wp_cases (fun hd => ?_) (fun hd => ?_)
  · have fin : ∀ {V1 tcap1 f1 o1}, DSt H V.N o1 al V1 tcap1 f1 xs → a.value o1.m = some v → 0 < f1 →
        wp (emplaceFrontHalf E V.N (V1.it (f1 + k)) a)
        (fun p o' => ∃ V' tcap' f', DSt H V.N o' al V' tcap' f' (xs.take k ++ [v] ++ xs.drop k) ∧ p = V'.it (f' + k))
        (fun _ o' => Half H E V.N al xs o') o1 := by
      intro V1 tcap1 f1 o1 h1 hv1 hf1
      refine wp_mono (emplaceFrontHalf_spec h1 hv1 hsrc hf1 (by omega)) ?_ (fun _ _ k => k)
      rintro p o2 ⟨h2, rfl⟩
      exact ⟨V1, tcap1, _, h2, rfl⟩
    refine wp_cases (fun hc => ?_) (fun hc => ?_) <;> rw [hF.eq (by omega) (by omega)] at hc
    · rw [wp_bind]
      refine wp_mono (growStorageFront_spec h) ?_ ?_
      · rintro _ o1 ⟨V1, tcap1, d, hsub, hd, h1, hm1⟩
        rw [wp_bind, wp_run (h1.nth_run hk)]
        exact fin h1 (value_congr hm1 hv) (by omega)
      · rintro e o1 ⟨-, -, V1, tcap1, hsub, -, h1, -⟩
        exact h1.half
    · exact fin h hv (by simp at hc; omega)
  · have fin : ∀ {V1 tcap1 f1 o1}, DSt H V.N o1 al V1 tcap1 f1 xs → a.value o1.m = some v → f1 + xs.length < V1.size →
        wp (emplaceBackHalf E V.N (V1.it (f1 + k)) a)
        (fun p o' => ∃ V' tcap' f', DSt H V.N o' al V' tcap' f' (xs.take k ++ [v] ++ xs.drop k) ∧ p = V'.it (f' + k))
        (fun _ o' => Half H E V.N al xs o') o1 := by
      intro V1 tcap1 f1 o1 h1 hv1 hf1
      refine wp_mono (emplaceBackHalf_spec h1 hv1 hsrc hf1 hk) ?_ (fun _ _ k => k)
      rintro p o2 ⟨h2, rfl⟩
      exact ⟨V1, tcap1, _, h2, rfl⟩
    refine wp_cases (fun hc => ?_) (fun hc => ?_) <;> rw [hF.eq (by omega) (by omega)] at hc
    · rw [wp_bind]
      refine wp_mono (growStorageBack_spec h) ?_ ?_
      · rintro _ o1 ⟨V1, tcap1, hsub, hd, h1, hm1⟩
        rw [wp_bind, wp_run (h1.nth_run hk)]
        exact fin h1 (value_congr hm1 hv) (by omega)
      · rintro e o1 ⟨-, -, V1, tcap1, hsub, -, h1, -⟩
        exact h1.half
    · exact fin h hv (by simp at hc; omega)

end

/-! ### Elements inserted one by one -/

/-- A range outside the container is inserted before element `k`. -/
theorem insertRangeLoop_spec {ys : List α} {k : Nat} (h : DSt H N o al V tcap f xs) (hk : k ≤ xs.length) :
    wp (insertRangeLoop E N (ys.map .val) (V.it (f + k)))
      (fun _ o' => ∃ V' tcap' f', DSt H N o' al V' tcap' f' (xs.take k ++ ys ++ xs.drop k))
      (fun _ o' => ys ≠ [] ∧ ∃ V' tcap' f' zs, DSt H N o' al V' tcap' f' zs ∧ xs.length ≤ zs.length) o := by
  induction ys generalizing o V tcap f xs k with
  | nil =>
    rw [List.map_nil, insertRangeLoop, wp_pure]
    exact ⟨V, tcap, f, by simpa using h⟩
  | cons y ys ih =>
    rw [List.map_cons, insertRangeLoop, wp_bind]
    refine wp_mono (emplace_spec h (a := .val y) (v := y) rfl rfl hk) ?_ ?_
    · rintro p o1 ⟨V1, tcap1, f1, h1, rfl⟩
      have hlen : (xs.take k ++ [y] ++ xs.drop k).length = xs.length + 1 := by simp; omega
      have h1l := h1.len
      have hN := h1.num
      have hF := h1.fit
      rw [wp_bind, wp_getObj, wp_bind, ← hN, wp_run (hF.inc (by omega) _), Nat.add_assoc, hN]
      refine wp_mono (ih h1 (k := k + 1) (by omega)) ?_ ?_
      · rintro _ o2 ⟨V2, tcap2, f2, h2⟩
        refine ⟨V2, tcap2, f2, ?_⟩
        have e : (xs.take k ++ [y] ++ xs.drop k).take (k + 1) ++ ys ++ (xs.take k ++ [y] ++ xs.drop k).drop (k + 1) =
            xs.take k ++ y :: ys ++ xs.drop k := by
          have hl : (xs.take k ++ [y]).length = k + 1 := by simp; omega
          rw [List.take_left' hl, List.drop_left' hl]; simp
        rwa [e] at h2
      · rintro e o2 ⟨-, V2, tcap2, f2, zs, h2, hz⟩
        exact ⟨by simp, V2, tcap2, f2, zs, h2, by omega⟩
    · rintro e o1 ⟨V1, tcap1, f1, zs, h1, -, hz, -⟩
      exact ⟨by simp, V1, tcap1, f1, zs, h1, hz⟩

theorem insertRangeInput_spec {ys : List α} {k : Nat} (h : DSt H N o al V tcap f xs) (hk : k ≤ xs.length) :
    wp (insertRangeInput E N (V.it (f + k)) ys)
      (fun p o' => ∃ V' tcap' f', DSt H N o' al V' tcap' f' (xs.take k ++ ys ++ xs.drop k) ∧ p = V'.it (f' + k))
      (fun _ o' => ys ≠ [] ∧ ∃ V' tcap' f' zs, DSt H N o' al V' tcap' f' zs ∧ xs.length ≤ zs.length) o := by
  have hlen := h.len
  have hin := h.inRange hk
  have hF := h.fit
  have ef : o.obj.first = V.it f := by rw [h.obj]; rfl
  unfold insertRangeInput
  rw [wp_bind, wp_getObj, wp_bind, wp_assert]
  refine ⟨hin, ?_⟩
  rw [ef, ← h.num, wp_bind, wp_run (hF.dist (by omega) (by omega) _), Nat.add_sub_cancel_left, wp_bind, h.num]
  refine wp_mono (insertRangeLoop_spec h hk) ?_ (fun _ _ k => k)
  rintro _ o1 ⟨V1, tcap1, f1, h1⟩
  rw [wp_run (h1.nth_run (k := k) (by simp; omega))]
  exact ⟨V1, tcap1, f1, h1, rfl⟩

theorem emplaceBackAll_spec {ys : List α} (h : DSt H N o al V tcap f xs) :
    wp (emplaceBackAll E N (ys.map .val))
      (fun _ o' => ∃ V' tcap', DSt H N o' al V' tcap' f (xs ++ ys))
      (fun e o' => ys ≠ [] ∧ (e = .lengthError → E.maxSize < f + xs.length + ys.length) ∧
        ∃ V' tcap' f' zs, DSt H N o' al V' tcap' f' zs ∧ xs.length ≤ zs.length) o := by
  induction ys generalizing o V tcap xs with
  | nil =>
    rw [List.map_nil, emplaceBackAll, wp_pure]
    exact ⟨V, tcap, by simpa using h⟩
  | cons y ys ih =>
    rw [List.map_cons, emplaceBackAll, wp_bind]
    refine wp_mono (emplaceBack_spec h (a := .val y) (v := y) rfl rfl) ?_ ?_
    · rintro p o1 ⟨V1, tcap1, h1, -, -⟩
      refine wp_mono (ih h1) ?_ ?_
      · rintro _ o2 ⟨V2, tcap2, h2⟩
        exact ⟨V2, tcap2, by simpa using h2⟩
      · rintro e o2 ⟨-, hmax, V2, tcap2, f2, zs, h2, hz⟩
        exact ⟨by simp, fun he => by have := hmax he; simp at this; simp; omega, V2, tcap2, f2, zs, h2, by simp at hz; omega⟩
    · rintro e o1 ⟨⟨V1, tcap1, f1, h1, -⟩, hmax⟩
      exact ⟨by simp, fun he => by have := hmax he; simp; omega, V1, tcap1, f1, xs, h1, Nat.le_refl _⟩

end Sfl.SegDev
