import Verif.SVSpec4
/-
  Correctness of assign, constructors and of the single-pass (input iterator) overloads
  (small_vector and vector).
-/

set_option linter.unusedSimpArgs false

namespace Sfl
variable {α : Type} {E : Env α} {H : Heap α} {al ib N b cap nb ncap : Nat}

/-- The arguments `as` denote the values `vs`, stored outside the container (in the foreign memory `H`
or nowhere in particular), and using them does not modify them. -/
structure Exts (H : Heap α) (E : Env α) (as : List (Arg α)) (vs : List α) : Prop where
  src : ∀ a ∈ as, a.src E = none
  val : ∀ s : St α, (∀ c i, H.blk c ≠ none → s.mem c i = H.mem c i) → as.map (Arg.value s) = vs.map some

theorem Exts.vals (ys : List α) : Exts H E (ys.map .val) ys :=
  ⟨mem_map_val_src, fun _ _ => map_value_val ys⟩

theorem Exts.replicateVal (n : Nat) (v : α) : Exts H E (List.replicate n (.val v)) (List.replicate n v) :=
  ⟨fun a ha => by rw [List.eq_of_mem_replicate ha]; rfl, fun _ _ => map_value_replicate rfl⟩

theorem args_length {mk : Ptr → Arg α} {p : Ptr} {n : Nat} : (args mk p n).length = n := by
  induction n generalizing p with
  | zero => rfl
  | succ n ih => simp [args, ih]

/-- A range of live foreign objects, read by const reference. -/
theorem Exts.refs {p : Ptr} {vs : List α} (hb : H.blk p.blk ≠ none)
    (hv : ∀ i, i < vs.length → H.mem p.blk (p.off + i) = vs[i]?) : Exts H E (args .ref p vs.length) vs := by
  induction vs generalizing p with
  | nil => exact ⟨by simp [args], fun _ _ => rfl⟩
  | cons v vs ih =>
    obtain ⟨h1, h2⟩ := ih (p := p.add 1) hb (fun i hi => by
      have := hv (i + 1) (by simpa using hi)
      simp only [Ptr.add_blk, Ptr.add_off]
      rw [Nat.add_assoc, Nat.add_comm 1 i, this]; simp)
    constructor
    · intro a ha
      simp only [List.length_cons, args, List.mem_cons] at ha
      rcases ha with rfl | ha
      · rfl
      · exact h1 a ha
    · intro s hs
      simp only [List.length_cons, args, List.map_cons, h2 s hs]
      have := hv 0 (by simp)
      simp only [Arg.value]
      rw [hs _ _ hb]
      simp at this; rw [this]

theorem Exts.length {as : List (Arg α)} {vs : List α} (h : Exts H E as vs) : as.length = vs.length := by
  have := congrArg List.length (h.val ⟨H.mem, H.blk, 0, 0⟩ (fun _ _ _ => rfl))
  simpa using this

theorem Exts.take {as : List (Arg α)} {vs : List α} (h : Exts H E as vs) (n : Nat) :
    Exts H E (as.take n) (vs.take n) :=
  ⟨fun a ha => h.src a (List.mem_of_mem_take ha), fun s hs => by rw [List.map_take, List.map_take, h.val s hs]⟩

theorem Exts.drop {as : List (Arg α)} {vs : List α} (h : Exts H E as vs) (n : Nat) :
    Exts H E (as.drop n) (vs.drop n) :=
  ⟨fun a ha => h.src a (List.mem_of_mem_drop ha), fun s hs => by rw [List.map_drop, List.map_drop, h.val s hs]⟩

theorem Exts.cons {a : Arg α} {as : List (Arg α)} {vs : List α} (h : Exts H E (a :: as) vs) :
    ∃ v vs', vs = v :: vs' ∧ a.src E = none ∧
      (∀ s : St α, (∀ c i, H.blk c ≠ none → s.mem c i = H.mem c i) → a.value s = some v) ∧ Exts H E as vs' := by
  cases vs with
  | nil => have := h.length; simp at this
  | cons v vs' =>
    refine ⟨v, vs', rfl, h.src a (by simp), fun s hs => ?_, fun a ha => h.src a (by simp [ha]), fun s hs => ?_⟩
    · have := h.val s hs; simp at this; exact this.1
    · have := h.val s hs; simp only [List.map_cons, List.cons.injEq] at this; exact this.2

theorem Store.agree {s : St α} (h : Store H s al ib N b cap) :
    ∀ c i, H.blk c ≠ none → s.mem c i = H.mem c i := by
  intro c i hc
  refine h.fmem c ?_ ?_ i
  · intro he; exact hc (he ▸ h.hblk)
  · intro he; exact hc (he ▸ h.hiblk)

theorem Exts.stable {as : List (Arg α)} {vs : List α} (h : Exts H E as vs) {s s' : St α}
    (hs : ∀ c i, H.blk c ≠ none → s.mem c i = H.mem c i) (hs' : ∀ c i, H.blk c ≠ none → s'.mem c i = H.mem c i) :
    ∀ a ∈ as, a.value s' = a.value s := by
  have := (h.val s' hs').trans (h.val s hs).symm
  exact List.map_eq_map_iff.mp this

theorem emplaceBackAll_spec {as : List (Arg α)} {vs : List α} (hx : Exts H E as vs) :
    ∀ {o : Obj Vec α} {xs : List α} {b cap : Nat}, VSt H E ib N o al b cap xs →
    wp (SmallVector.emplaceBackAll E ib N as)
      (fun _ o' => ∃ b' cap', VSt H E ib N o' al b' cap' (xs ++ vs) ∧
        (xs.length + vs.length ≤ cap → b' = b ∧ cap' = cap) ∧
        (xs.length + vs.length ≤ max cap N → o'.m.next = o.m.next))
      (fun e o' => ∃ b' cap' xs', VSt H E ib N o' al b' cap' xs' ∧
        xs'.length ≤ xs.length + vs.length ∧
        (Strong E → ∃ k, k ≤ vs.length ∧ xs' = xs ++ vs.take k) ∧
        (xs.length + vs.length ≤ cap → b' = b ∧ cap' = cap) ∧
        (xs.length + vs.length ≤ max cap N → o'.m.next = o.m.next ∧ e ≠ .badAlloc) ∧
        (e = .lengthError → E.maxSize < xs.length + vs.length))
      o := by
  induction as generalizing vs with
  | nil =>
    intro o xs b cap h
    have hv : vs = [] := by have := hx.length; simpa using this.symm
    subst hv
    unfold SmallVector.emplaceBackAll
    rw [wp_pure]
    exact ⟨b, cap, by simpa using h, fun _ => ⟨rfl, rfl⟩, fun _ => rfl⟩
  | cons a as ih =>
    intro o xs b cap h
    obtain ⟨v, vs', rfl, h1, h2, h3⟩ := hx.cons
    unfold SmallVector.emplaceBackAll
    rw [wp_bind]
    refine wp_mono (emplaceBack_spec h (h2 _ h.st.agree) h1) ?_ ?_
    · rintro p o1 ⟨b1, cap1, hd, -⟩
      have hcc : max cap N ≤ max cap1 N ∧ cap ≤ cap1 := by
        have hl := hd.v.len
        have := hd.keep
        have hh := h.st.cap_cases
        have hh1 := hd.v.st.cap_cases
        simp at hl this
        by_cases hle : xs.length + 1 ≤ cap
        · have := this hle; omega
        · omega
      refine wp_mono (ih h3 hd.v) ?_ ?_
      · rintro _ o2 ⟨b2, cap2, k1, k2, k3⟩
        refine ⟨b2, cap2, by simpa using k1, ?_, ?_⟩
        · intro hh
          simp at hh k2
          obtain ⟨e1, e2⟩ := hd.keep (by simp; omega)
          have := k2 (by omega)
          omega
        · intro hh
          simp at hh k3
          rw [k3 (by omega)]
          rcases hd.next with h0 | h0
          · exact h0
          · simp at h0; omega
      · rintro e o2 ⟨b2, cap2, xs', k1, k2, k3, k6, k4, k5⟩
        refine ⟨b2, cap2, xs', k1, by simp at k2 ⊢; omega, ?_, ?_, ?_, fun he => by have := k5 he; simp at this ⊢; omega⟩
        · intro hE
          obtain ⟨k, hk, e⟩ := k3 hE
          exact ⟨k + 1, by simpa using hk, by simpa using e⟩
        · intro hh
          simp at hh k6
          obtain ⟨e1, e2⟩ := hd.keep (by simp; omega)
          have := k6 (by omega)
          omega
        · intro hh
          simp at hh k4
          refine ⟨?_, (k4 (by omega)).2⟩
          rw [(k4 (by omega)).1]
          rcases hd.next with h0 | h0
          · exact h0
          · simp at h0; omega
    · rintro e o1 ⟨xs', k1, k2, k3, -, k4⟩
      refine ⟨b, cap, xs', k1.v, by simp; omega, fun hE => ⟨0, by simp, by simpa using k3 hE⟩, fun _ => ⟨rfl, rfl⟩, ?_,
        fun he => by have := k4 he; simp; omega⟩
      intro hh
      refine ⟨?_, fun he => by have := k1.bad he; simp at hh; omega⟩
      rcases k1.next with h0 | h0
      · exact h0
      · simp at hh; omega

/-- Assigning a forward range stored outside the container. -/
theorem assignRange_spec {o : Obj Vec α} {xs : List α} {as : List (Arg α)} {vs : List α}
    (h : VSt H E ib N o al b cap xs) (hx : Exts H E as vs) :
    wp (SmallVector.assignRange E ib N as)
      (fun _ o' => ∃ b' cap', VSt H E ib N o' al b' cap' vs ∧ (vs.length ≤ cap → b' = b ∧ cap' = cap) ∧
        (vs.length ≤ max cap N → o'.m.next = o.m.next))
      (fun e o' => ∃ b' cap' xs', VSt H E ib N o' al b' cap' xs' ∧
        (vs.length ≤ cap → b' = b ∧ cap' = cap) ∧
        (vs.length ≤ max cap N → o'.m.next = o.m.next ∧ e ≠ .badAlloc) ∧
        (e = .lengthError → E.maxSize < vs.length ∧ xs' = xs))
      o := by
  have hlen := h.len
  have hal := hx.length
  unfold SmallVector.assignRange Vector.checkSize
  simp only [wp_bind, wp_getObj, wp_ite, wp_lift, wp_setObj, wp_pure, wp_throw]
  by_cases hmax : as.length > E.maxSize
  · rw [if_pos hmax]
    exact ⟨b, cap, xs, h, fun _ => ⟨rfl, rfl⟩, fun _ => ⟨by trivial, by simp⟩, fun _ => ⟨by omega, (by trivial)⟩⟩
  rw [if_neg hmax]
  refine wp_capacity h.obj ?_
  by_cases hc : as.length ≤ cap
  · rw [if_pos hc]
    refine wp_size h.obj ?_
    rw [h.obj]
    dsimp only
    by_cases hs : as.length ≤ xs.length
    · rw [if_pos hs]
      refine wp_assignGo_copy (hx.val _ h.st.agree) hx.src ?_ ?_ ?_ ?_
      · intro a ha s' hs'
        refine hx.stable h.st.agree (fun c i hc => ?_) a ha
        rw [hs' c i (by rintro ⟨e, _⟩; exact hc (e ▸ h.st.hblk))]
        exact h.st.agree c i hc
      · intro i _ hi; exact (h.live i).mpr (by simp at hi; omega)
      · intro s1 hs1 ht1 hm1
        have hst1 : Store H s1 al ib N b cap := h.st.upd hs1
          (fun i hi => by rw [hm1]; have := h.st.beyond i hi; grind) (fun c hc i => by rw [hm1]; grind)
        refine wp_destroyRange (by simp) (by simpa using hs) ?_ ?_
        · intro i h1 h2; rw [Ptr.add_blk, hm1, h.cells]; simp at h1 h2 ⊢; grind
        · intro s2 hs2 ht2 hm2
          refine ⟨b, cap, VSt.mk' rfl (by simp [Ptr.add]; omega) rfl (hst1.upd hs2 ?_ ?_) (by omega) ?_ h.capLe h.nLe,
            fun _ => ⟨rfl, rfl⟩, fun _ => hs2.next.trans hs1.next⟩
          · intro i hi; rw [hm2]; have := hst1.beyond i hi; grind
          · intro c hc i; rw [hm2]; grind
          · intro i; rw [hm2, hm1, h.cells]
            simp only [Ptr.has, Ptr.add_blk, Ptr.add_off]
            grind
      · intro s1 hs1 hm1
        obtain ⟨xs', k1, k2⟩ := h.ofLive (n := xs.length) (l := (⟨b, xs.length⟩ : Ptr)) rfl
          (h.st.upd hs1 (fun i hi => by have := hm1 b i; have := h.st.beyond i hi; grind)
            (fun c hc i => by have := hm1 c i; grind)) (by omega)
          (fun i => by have h1 := hm1 b i; have h2 := h.cells i; grind)
        exact ⟨b, cap, xs', k1, fun _ => ⟨rfl, rfl⟩, fun _ => ⟨hs1.next, by simp⟩, by simp⟩
    · rw [if_neg hs]
      have hx1 := hx.take xs.length
      have hx2 := hx.drop xs.length
      have hl1 : (as.take xs.length).length = xs.length := by simp; omega
      have hl2 : (as.drop xs.length).length = as.length - xs.length := by simp
      refine wp_assignGo_copy (hx1.val _ h.st.agree) hx1.src ?_ ?_ ?_ ?_
      · intro a ha s' hs'
        refine hx1.stable h.st.agree (fun c i hc => ?_) a ha
        rw [hs' c i (by rintro ⟨e, _⟩; exact hc (e ▸ h.st.hblk))]
        exact h.st.agree c i hc
      · intro i _ hi; exact (h.live i).mpr (by rw [hl1] at hi; simpa using hi)
      · intro s1 hs1 ht1 hm1
        have hst1 : Store H s1 al ib N b cap := h.st.upd hs1
          (fun i hi => by rw [hm1]; have := h.st.beyond i hi; grind) (fun c hc i => by rw [hm1]; grind)
        rw [hl1] at hm1
        refine wp_uninit_copy (hx2.val _ hst1.agree) hx2.src ?_ ?_ ?_ ?_
        · intro j hj; exact hst1.inB (by rw [hl2] at hj; simp; omega)
        · intro j hj; simp only; rw [hm1, h.cells]; grind
        · intro s2 hs2 ht2 hm2
          rw [hl2] at hm2
          refine ⟨b, cap, VSt.mk' rfl (by simp [Ptr.add]; omega) rfl (hst1.upd hs2 ?_ ?_) (by omega) ?_ h.capLe h.nLe,
            fun _ => ⟨rfl, rfl⟩, fun _ => hs2.next.trans hs1.next⟩
          · intro i hi; rw [hm2]; have := hst1.beyond i hi; grind
          · intro c hc i; rw [hm2]; grind
          · intro i; rw [hm2, hm1, h.cells]
            have e : xs.length ≤ i → xs.length + (i - xs.length) = i := by omega
            simp only [Ptr.has, Ptr.add_blk, Ptr.add_off, List.getElem?_take, List.getElem?_drop]
            grind
        · intro s2 hs2 hm2
          obtain ⟨xs', k1, k2⟩ := h.ofLive (n := xs.length) (l := (⟨b, xs.length⟩ : Ptr)) rfl
            (hst1.same hs2 hm2) (by omega)
            (fun i => by rw [hm2, hm1, h.cells]; simp only [List.getElem?_take]; grind)
          exact ⟨b, cap, xs', k1, fun _ => ⟨rfl, rfl⟩, fun _ => ⟨hs2.next.trans hs1.next, by simp⟩, by simp⟩
      · intro s1 hs1 hm1
        rw [hl1] at hm1
        obtain ⟨xs', k1, k2⟩ := h.ofLive (n := xs.length) (l := (⟨b, xs.length⟩ : Ptr)) rfl
          (h.st.upd hs1 (fun i hi => by have := hm1 b i; have := h.st.beyond i hi; grind)
            (fun c hc i => by have := hm1 c i; grind)) (by omega)
          (fun i => by have h1 := hm1 b i; have h2 := h.cells i; grind)
        exact ⟨b, cap, xs', k1, fun _ => ⟨rfl, rfl⟩, fun _ => ⟨hs1.next, by simp⟩, by simp⟩
  · rw [if_neg hc]
    have hcN : vs.length ≤ max cap N → as.length ≤ N := by omega
    refine wp_mono (reset_spec h (newCap := as.length) (by omega)) ?_ ?_
    · rintro _ o1 ⟨b1, hv1, hn1, -⟩
      have hobj := hv1.obj
      rw [hobj]
      dsimp only
      refine wp_uninit_copy (hx.val _ hv1.st.agree) hx.src ?_ ?_ ?_ ?_
      · intro j hj; exact hv1.st.inB (by simp; omega)
      · intro j hj; simp only; rw [hv1.cells]; simp
      · intro s2 hs2 ht2 hm2
        refine ⟨b1, _, VSt.mk' rfl (by simp [Ptr.add]; omega) rfl (hv1.st.upd hs2 ?_ ?_) (by omega) ?_ hv1.capLe h.nLe,
          by omega, fun hh => by rw [← hn1 (hcN hh)]; exact hs2.next⟩
        · intro i hi; rw [hm2]; have := hv1.st.beyond i hi; grind
        · intro c hc i; rw [hm2]; grind
        · intro i; rw [hm2, hv1.cells]; simp only [Ptr.has]; grind
      · intro s2 hs2 hm2
        refine ⟨b1, _, [], VSt.mk' rfl rfl rfl (hv1.st.same hs2 hm2) (by simp) (fun i => by rw [hm2, hv1.cells])
          hv1.capLe h.nLe, by omega, fun hh => ⟨by rw [← hn1 (hcN hh)]; exact hs2.next, by simp⟩, by simp⟩
    · rintro e o1 ⟨hv1, hn1, rfl⟩
      exact ⟨ib, N, [], hv1, by omega, by omega, by simp⟩

theorem wp_conj {σ β : Type} {m : M σ β} {Q : β → σ → Prop} {X : Exn → σ → Prop} {s : σ} {P : β → Prop}
    (h : wp m Q X s) (hp : ∀ r s', m s = .ok r s' → P r) : wp m (fun r s' => P r ∧ Q r s') X s := by
  unfold wp at *
  cases hm : m s with
  | ok r s' => rw [hm] at h; exact ⟨hp r s' hm, h⟩
  | exn e s' => rw [hm] at h; exact h
  | ub r => rw [hm] at h; exact h

theorem bind_ok {σ β γ : Type} {m : M σ β} {f : β → M σ γ} {s s' : σ} {r : γ} (h : (m >>= f) s = .ok r s') :
    ∃ x s1, m s = .ok x s1 ∧ f x s1 = .ok r s' := by
  change M.bind m f s = _ at h
  unfold M.bind at h
  cases hm : m s with
  | ok x s1 => rw [hm] at h; exact ⟨x, s1, rfl, h⟩
  | exn e s1 => rw [hm] at h; cases h
  | ub r => rw [hm] at h; cases h

theorem assignGo_ret {as : List (Arg α)} {d p : Ptr} {s s' : St α} (h : assignGo E d as s = .ok p s') :
    p = d.add as.length := by
  induction as generalizing d s with
  | nil => unfold assignGo at h; cases h; simp [Ptr.add]
  | cons a as ih =>
    unfold assignGo at h
    obtain ⟨_, s1, _, h2⟩ := bind_ok h
    rw [ih h2]; simp [Ptr.add]; omega

theorem uninitGo_ret {as : List (Arg α)} {d p : Ptr} {k : Nat} {s s' : St α} (h : uninitGo E d k as s = .ok p s') :
    p = d.add (k + as.length) := by
  induction as generalizing k s with
  | nil => unfold uninitGo at h; cases h; simp
  | cons a as ih =>
    unfold uninitGo at h
    obtain ⟨_, s1, _, h2⟩ := bind_ok h
    rw [ih h2]; simp [Ptr.add]; omega

theorem uninit_ret {as : List (Arg α)} {d p : Ptr} {s s' : St α} (h : uninit E d as s = .ok p s') :
    p = d.add as.length := by
  have := uninitGo_ret h; simpa using this

/-- `assign_fill_n` is `assign_range` of `n` copies. -/
theorem assignFillN_spec {o : Obj Vec α} {xs : List α} {v : α} {n : Nat} (h : VSt H E ib N o al b cap xs) :
    wp (SmallVector.assignFillN E ib N n (.val v))
      (fun _ o' => ∃ b' cap', VSt H E ib N o' al b' cap' (List.replicate n v) ∧ (n ≤ cap → b' = b ∧ cap' = cap) ∧
        (n ≤ max cap N → o'.m.next = o.m.next))
      (fun e o' => ∃ b' cap' xs', VSt H E ib N o' al b' cap' xs' ∧ (n ≤ cap → b' = b ∧ cap' = cap) ∧
        (n ≤ max cap N → o'.m.next = o.m.next ∧ e ≠ .badAlloc) ∧
        (e = .lengthError → E.maxSize < n ∧ xs' = xs))
      o := by
  have hr := assignRange_spec h (Exts.replicateVal (H := H) (E := E) n v)
  have hlen := h.len
  unfold SmallVector.assignRange Vector.checkSize at hr
  unfold SmallVector.assignFillN Vector.checkSize fillRange uninitFill uninitFillN
  simp only [wp_bind, wp_getObj, wp_ite, wp_lift, wp_setObj, wp_pure, wp_throw, List.length_replicate,
    List.take_replicate, List.drop_replicate] at hr ⊢
  by_cases hmax : n > E.maxSize
  · rw [if_pos hmax] at hr ⊢; exact hr
  rw [if_neg hmax] at hr ⊢
  refine wp_capacity h.obj ?_
  have hr : wp Vector.capacity _ _ o := hr
  unfold Vector.capacity at hr
  rw [wp_bind, wp_getObj] at hr
  have hcap : ∀ {Q : Nat → Obj Vec α → Prop} {X : Exn → Obj Vec α → Prop},
      wp (distance o.obj.first o.obj.eos) Q X o → Q cap o := by
    intro Q X hh
    unfold wp distance at hh
    rw [h.obj] at hh
    simpa using hh
  have hsz : ∀ {Q : Nat → Obj Vec α → Prop} {X : Exn → Obj Vec α → Prop},
      wp Vector.size Q X o → Q xs.length o := by
    intro Q X hh
    unfold Vector.size at hh
    rw [wp_bind, wp_getObj] at hh
    unfold wp distance at hh
    rw [h.obj] at hh
    simpa using hh
  have hr := hcap hr
  by_cases hc : n ≤ cap
  · rw [if_pos hc] at hr ⊢
    have hr := hsz hr
    refine wp_size h.obj ?_
    rw [h.obj] at hr ⊢
    dsimp only at hr ⊢
    by_cases hs : n ≤ xs.length
    · rw [if_pos hs] at hr ⊢
      refine wp_distance rfl (by simp) ?_
      simp only [Ptr.add_off, Nat.zero_add, Nat.sub_zero]
      refine wp_mono (wp_conj hr (fun _ _ => assignGo_ret)) ?_ (fun _ _ h => h)
      rintro p s1 ⟨rfl, h1⟩
      simpa using h1
    · rw [if_neg hs] at hr ⊢
      rw [Nat.min_eq_left (by omega)] at hr
      refine wp_distance rfl (by simp) ?_
      simp only [Ptr.add_off, Nat.zero_add, Nat.sub_zero]
      refine wp_mono hr ?_ (fun _ _ h => h)
      intro p s1 h1
      refine wp_distance rfl (by simp; omega) ?_
      simp only [Ptr.add_off, Nat.zero_add, Nat.sub_zero]
      refine wp_mono (wp_conj h1 (fun _ _ => uninit_ret)) ?_ (fun _ _ h => h)
      rintro p s1 ⟨rfl, h1⟩
      have : (⟨b, xs.length⟩ : Ptr).add (n - xs.length) = (⟨b, 0⟩ : Ptr).add n := by simp [Ptr.add]; omega
      simpa [this] using h1
  · rw [if_neg hc] at hr ⊢
    exact hr

end Sfl
