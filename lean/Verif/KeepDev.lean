import Verif.CostDev5
/-
  Modifiers of devector that find enough room leave the storage where it is.
-/

namespace Sfl
variable {α : Type}

namespace Devector
variable {E : Env α} {v : DVec} {f n b t : Nat}

/-- Same storage, the elements somewhere in it. -/
structure Hold (v v' : DVec) : Prop where
  bos : v'.bos = v.bos
  eos : v'.eos = v.eos
  blk1 : v'.first.blk = v.bos.blk
  blk2 : v'.last.blk = v.bos.blk
  lo : v.bos.off ≤ v'.first.off
  mid : v'.first.off ≤ v'.last.off
  hi : v'.last.off ≤ v.eos.off

/-- A modifier ends, in whichever way, in the same storage. -/
abbrev Holds {β : Type} (m : DM α β) (v : DVec) (t : Nat) : Prop :=
  vcost m (fun _ v' _ => Hold v v') (fun v' _ => Hold v v') v t

macro "dhold" : tactic => `(tactic| (refine ⟨?_, ?_, ?_, ?_, ?_, ?_, ?_⟩ <;> first | rfl | assumption | cost_arith))

theorem Dim.hold (h : Dim v f n b) : Hold v v := by
  obtain ⟨h1, h2, h3, h4, h5, h6⟩ := h
  dhold

theorem Hold.trans {v1 v2 : DVec} (h : Hold v v1) (h' : Hold v1 v2) : Hold v v2 := by
  obtain ⟨h1, h2, h3, h4, h5, h6, h7⟩ := h
  obtain ⟨k1, k2, k3, k4, k5, k6, k7⟩ := h'
  exact ⟨k1.trans h1, k2.trans h2, by rw [k3, h1], by rw [k4, h1], by rw [← h1]; exact k5, k6, by rw [← h2]; exact k7⟩

theorem Holds.after {β : Type} {m : DM α β} {v' : DVec} (hv : Hold v v') (h : Holds m v' t) :
    vcost m (fun _ v' _ => Hold v v') (fun v' _ => Hold v v') v' t :=
  vcost.mono h (fun _ _ _ h => hv.trans h) fun _ _ h => hv.trans h

theorem insertAux_keeps (h : Dim v f n b) {i k : Nat} {pos : Ptr} {px : Proxy α} (hp : pos.off = v.first.off + i)
    (h1 : i < n - i → k ≤ f) (h2 : n - i ≤ i → k ≤ b) : Holds (insertAux E pos k px) v t := by
  have hd := h
  obtain ⟨g1, g2, g3, g4, g5, g6⟩ := h
  unfold insertAux availableFront availableBack
  refine .bind (.getObj (.bind (.assert fun hr => .bind (.distance fun _ _ => .ite (fun h0 => .pure hd.hold) fun h0 => .bind (.distance fun _ _ => ?_)))))
  obtain ⟨r1, r2, r3⟩ := hr
  have e1 : pos.off - v.first.off = i := by omega
  have e2 : v.last.off - pos.off = n - i := by omega
  rw [e1, e2]
  refine .ite (fun hlt => ?_) fun hlt => ?_
  · have h1 := h1 hlt
    refine .bind (.bind (.getObj (.distance fun _ _ => .ite (fun _ => ?_) fun _ => by omega)))
    refine .ite (fun hk => ?_) fun hk => ?_
    · unfold intoFront1
      vcost
      all_goals (refine ⟨?_, ?_, ?_, ?_, ?_, ?_, ?_⟩ <;> (try simp only [Ptr.sub_blk (p := v.first) (n := k) (by omega)]) <;> first | rfl | assumption | cost_arith)
    · unfold intoFront2
      vcost
      all_goals (refine ⟨?_, ?_, ?_, ?_, ?_, ?_, ?_⟩ <;> (try simp only [Ptr.sub_blk (p := v.first) (n := k) (by omega)]) <;> first | rfl | assumption | cost_arith)
  · have h2 := h2 (by omega)
    refine .bind (.bind (.getObj (.distance fun _ _ => .ite (fun _ => ?_) fun _ => by omega)))
    refine .ite (fun hk => ?_) fun hk => ?_
    · unfold intoBack1
      vcost <;> dhold
    · unfold intoBack2
      vcost <;> dhold

/-- At the back nothing but the end of the elements moves. -/
theorem emplaceBackAux_keeps (h : Dim v f n b) {a : Arg α} (hb : 0 < b) :
    vcost (emplaceBackAux E a) (fun _ v' _ => Hold v v' ∧ v'.first = v.first) (fun v' _ => v' = v) v t := by
  obtain ⟨g1, g2, g3, g4, g5, g6⟩ := h
  unfold emplaceBackAux
  refine .bind (.getObj (.ite (fun hne => ?_) fun he => ?_))
  · vcost
    all_goals first
      | rfl
      | (refine ⟨?_, rfl⟩; dhold)
  · have he : v.last = v.eos := by simpa using he
    rw [he] at g5; omega

/-- At the front nothing but the begin of the elements moves. -/
theorem emplaceFrontAux_keeps (h : Dim v f n b) {a : Arg α} (hf : 0 < f) :
    vcost (emplaceFrontAux E a) (fun _ v' _ => Hold v v' ∧ v'.last = v.last) (fun v' _ => v' = v) v t := by
  obtain ⟨g1, g2, g3, g4, g5, g6⟩ := h
  unfold emplaceFrontAux
  refine .bind (.getObj (.ite (fun hne => ?_) fun he => ?_))
  · vcost
    all_goals first
      | rfl
      | (refine ⟨?_, rfl⟩
         refine ⟨?_, ?_, ?_, ?_, ?_, ?_, ?_⟩ <;> (try simp only [Ptr.sub_blk (p := v.first) (n := 1) (by omega)]) <;> first | rfl | assumption | cost_arith)
  · have he : v.first = v.bos := by simpa using he
    rw [he] at g4; omega

theorem emplace_keeps (h : Dim v f n b) {i : Nat} {pos : Ptr} {a : Arg α} (hp : pos.off = v.first.off + i)
    (h1 : i ≤ n - i → 1 ≤ f) (h2 : n - i ≤ i → 1 ≤ b) : Holds (emplace E pos a) v t := by
  have hd := h
  obtain ⟨g1, g2, g3, g4, g5, g6⟩ := h
  unfold emplace
  refine .bind (.getObj (.bind (.assert fun hr => .ite (fun h0 => ?_) fun h0 => .ite (fun h1 => ?_) fun h1 => .bind (.lift (.mkTmp (fun tmp => ?_) hd.hold)))))
  · subst h0
    exact (emplaceFrontAux_keeps hd (by omega)).mono (fun _ _ _ h => h.1) fun _ _ h => h ▸ hd.hold
  · subst h1
    exact (emplaceBackAux_keeps hd (by omega)).mono (fun _ _ _ h => h.1) fun _ _ h => h ▸ hd.hold
  · exact insertAux_keeps hd hp (fun h => by have := h1; omega) h2

theorem erase_keeps (h : Dim v f n b) {pos : Ptr} : Holds (erase E pos) v t := by
  obtain ⟨g1, g2, g3, g4, g5, g6⟩ := h
  unfold erase
  refine .bind (.getObj (.bind (.assert fun hr => ?_)))
  obtain ⟨⟨r1, r2, r3⟩, r4⟩ := hr
  vcost
  all_goals dhold

theorem eraseRange_keeps (h : Dim v f n b) {p q : Ptr} : Holds (eraseRange E p q) v t := by
  obtain ⟨g1, g2, g3, g4, g5, g6⟩ := h
  unfold eraseRange
  refine .bind (.getObj (.bind (.assert fun hr => ?_)))
  obtain ⟨⟨r1, r2, r3⟩, r4, r5, r6, r7⟩ := hr
  vcost
  all_goals dhold

theorem clear_keeps (h : Dim v f n b) : Holds (clear : DM α Unit) v t := by
  obtain ⟨g1, g2, g3, g4, g5, g6⟩ := h
  unfold clear
  vcost
  all_goals dhold

theorem popFront_keeps (h : Dim v f n b) :
    vcost (popFront : DM α Unit) (fun _ v' _ => Hold v v' ∧ v'.last = v.last) (fun _ _ => False) v t := by
  obtain ⟨g1, g2, g3, g4, g5, g6⟩ := h
  refine .bind (.getObj (.bind (.assert fun hne => .bind (.lift (.destroyAt (.setObj ?_))))))
  have hb : 0 < n := by have := Ptr.off_ne (by rw [g1, g2]) hne; omega
  refine ⟨?_, rfl⟩
  dhold

theorem popBack_keeps (h : Dim v f n b) :
    vcost (popBack : DM α Unit) (fun _ v' _ => Hold v v' ∧ v'.first = v.first) (fun _ _ => False) v t := by
  obtain ⟨g1, g2, g3, g4, g5, g6⟩ := h
  refine .bind (.getObj (.bind (.assert fun hne => .bind (.setObj (.lift (.destroyAt ?_))))))
  have hb : 0 < n := by have := Ptr.off_ne (by rw [g1, g2]) hne; omega
  refine ⟨?_, rfl⟩
  refine ⟨?_, ?_, ?_, ?_, ?_, ?_, ?_⟩ <;> (try simp only [Ptr.sub_blk (p := v.last) (n := 1) (by omega)]) <;> first | rfl | assumption | cost_arith

theorem reserveBack_keeps (h : Dim v f n b) {m : Nat} (hm : m ≤ n + b) : Holds (reserveBack E m) v t := by
  have hd := h
  obtain ⟨h1, h2, h3, h4, h5, h6⟩ := h
  unfold reserveBack availableFront availableBack size
  refine .bind (.bind (.getObj (.distance fun _ _ => .ite (fun _ => .throw hd.hold) fun _ => .bind (.bind (.getObj
    (.distance fun _ _ => .bind (.bind (.getObj (.distance fun _ _ => ?_)))))))))
  exact .ite (fun hg => by omega) fun hg => .pure hd.hold

theorem reserveFront_keeps (h : Dim v f n b) {m : Nat} (hm : m ≤ n + f) : Holds (reserveFront E m) v t := by
  have hd := h
  obtain ⟨h1, h2, h3, h4, h5, h6⟩ := h
  unfold reserveFront availableFront availableBack size
  refine .bind (.bind (.getObj (.distance fun _ _ => .ite (fun _ => .throw hd.hold) fun _ => .bind (.bind (.getObj
    (.distance fun _ _ => .bind (.bind (.getObj (.distance fun _ _ => ?_)))))))))
  exact .ite (fun hg => by omega) fun hg => .pure hd.hold

theorem resizeBackWith_keeps (h : Dim v f n b) {m : Nat} {a : Arg α} (hm : m ≤ n + b) :
    vcost (resizeBackWith E m a) (fun _ v' _ => Hold v v' ∧ v'.first = v.first) (fun v' _ => Hold v v' ∧ v'.first = v.first) v t := by
  have hd := h
  obtain ⟨h1, h2, h3, h4, h5, h6⟩ := h
  unfold resizeBackWith size availableBack
  refine .bind (.getObj (.bind (.bind (.getObj (.distance fun _ _ => .ite (fun hle => ?_) fun hle => .bind (.bind (.getObj (.distance fun _ _ => ?_))))))))
  · vcost <;> (refine ⟨?_, rfl⟩; dhold)
  · exact .ite (fun hg => by omega) fun hg => .bind (.getObj (by vcost <;> (refine ⟨?_, rfl⟩; dhold)))

theorem resizeFrontWith_keeps (h : Dim v f n b) {m : Nat} {a : Arg α} (hm : m ≤ n + f) :
    vcost (resizeFrontWith E m a) (fun _ v' _ => Hold v v' ∧ v'.last = v.last) (fun v' _ => Hold v v' ∧ v'.last = v.last) v t := by
  have hd := h
  obtain ⟨h1, h2, h3, h4, h5, h6⟩ := h
  unfold resizeFrontWith size availableFront
  refine .bind (.getObj (.bind (.bind (.getObj (.distance fun _ _ => .ite (fun hle => ?_) fun hle => .bind (.bind (.getObj (.distance fun _ _ => ?_))))))))
  · vcost <;> (refine ⟨?_, rfl⟩; dhold)
  · refine .ite (fun hg => by omega) fun hg => .bind (.getObj ?_)
    have : m - (v.last.off - v.first.off) ≤ v.first.off := by omega
    vcost
    all_goals refine ⟨?_, rfl⟩
    all_goals (refine ⟨?_, ?_, ?_, ?_, ?_, ?_, ?_⟩ <;> (try simp only [Ptr.sub_blk this]) <;> first | rfl | assumption | cost_arith)

theorem resizeWith_keeps (h : Dim v f n b) {m : Nat} {a : Arg α} (hm : m ≤ f + n + b) : Holds (resizeWith E m a) v t := by
  have hd := h
  obtain ⟨h1, h2, h3, h4, h5, h6⟩ := h
  unfold resizeWith size availableFront availableBack
  refine .bind (.getObj (.bind (.bind (.getObj (.distance fun _ _ => .ite (fun hle => ?_) fun hle => .bind (.bind (.getObj (.distance fun _ _ => ?_))))))))
  · vcost <;> dhold
  · refine .ite (fun hg => ?_) fun hg => .bind (.bind (.getObj (.distance fun _ _ => .ite (fun hg' => ?_) fun hg' => by omega)))
    · vcost
      all_goals dhold
    · have : m - (v.last.off - v.first.off + (v.eos.off - v.last.off)) ≤ v.first.off := by omega
      vcost
      all_goals (refine ⟨?_, ?_, ?_, ?_, ?_, ?_, ?_⟩ <;> (try simp only [Ptr.sub_blk this]) <;> first | rfl | assumption | cost_arith)

theorem assignFillN_keeps (h : Dim v f n b) {m : Nat} {a : Arg α} (hm : m ≤ f + n + b) : Holds (assignFillN E m a) v t := by
  have hd := h
  obtain ⟨h1, h2, h3, h4, h5, h6⟩ := h
  unfold assignFillN size availableFront availableBack
  refine .bind (.getObj (.bind (.bind (.getObj (.distance fun _ _ => .ite (fun hle => ?_) fun hle => .bind (.bind (.getObj (.distance fun _ _ => ?_))))))))
  · vcost
    all_goals dhold
  · refine .ite (fun hg => ?_) fun hg => .bind (.bind (.getObj (.distance fun _ _ => .ite (fun hg' => ?_) fun hg' => by omega)))
    · vcost
      all_goals dhold
    · have : m - (v.last.off - v.first.off + (v.eos.off - v.last.off)) ≤ v.first.off := by omega
      vcost
      all_goals (refine ⟨?_, ?_, ?_, ?_, ?_, ?_, ?_⟩ <;> (try simp only [Ptr.sub_blk this]) <;> first | rfl | assumption | cost_arith)

theorem assignRange_keeps (h : Dim v f n b) {as : List (Arg α)} (hm : as.length ≤ f + n + b) : Holds (assignRange E as) v t := by
  have hd := h
  obtain ⟨h1, h2, h3, h4, h5, h6⟩ := h
  unfold assignRange size availableFront availableBack
  refine .bind (.getObj (.bind (.bind (.getObj (.distance fun _ _ => .ite (fun hle => ?_) fun hle => .bind (.bind (.getObj (.distance fun _ _ => ?_))))))))
  · vcost
    all_goals dhold
  · refine .ite (fun hg => ?_) fun hg => .bind (.bind (.getObj (.distance fun _ _ => .ite (fun hg' => ?_) fun hg' => by omega)))
    · vcost <;> (try simp only [List.length_drop, List.length_take] at *) <;> dhold
    · have : as.length - (v.last.off - v.first.off + (v.eos.off - v.last.off)) ≤ v.first.off := by omega
      vcost <;> (try simp only [List.length_drop, List.length_take] at *) <;>
        (refine ⟨?_, ?_, ?_, ?_, ?_, ?_, ?_⟩ <;> (try simp only [Ptr.sub_blk this]) <;> first | rfl | assumption | cost_arith)

theorem emplaceBack_keeps (h : Dim v f n b) {a : Arg α} (hb : 0 < b) : Holds (emplaceBack E a) v t :=
  .bind ((emplaceBackAux_keeps h hb).mono (fun _ _ _ hq => .pure hq.1) fun _ _ hq => hq ▸ h.hold)

theorem emplaceBackAll_keeps (as : List (Arg α)) : ∀ {v : DVec} {f n b t : Nat}, Dim v f n b → as.length ≤ b →
    Holds (emplaceBackAll E as) v t := by
  induction as with
  | nil => intro v f n b t h _; exact .pure h.hold
  | cons a as ih =>
    intro v f n b t h hb
    unfold emplaceBackAll
    simp only [List.length_cons] at *
    have hb0 : 0 < b := by omega
    refine .bind ((vcost.and (emplaceBack_ends h) (emplaceBack_keeps h hb0)).mono (fun _ v' t' hq => ?_) fun v' t' hq => hq.2)
    rw [if_pos hb0] at hq
    exact Holds.after hq.2 (ih hq.1.1 (by omega))

theorem assignInput_keeps (h : Dim v f n b) {as : List (Arg α)} (hm : as.length ≤ n + b) : Holds (assignInput E as) v t := by
  have hd := h
  obtain ⟨h1, h2, h3, h4, h5, h6⟩ := h
  unfold assignInput size
  refine .bind (.getObj (.bind (.bind (.getObj (.distance fun _ _ => .bind (.lift (.assignGo ?_ fun _ _ _ => hd.hold)))))))
  have e : v.last.off - v.first.off = n := by omega
  rw [e]
  refine .ite (fun hl => ?_) fun hl => .ite (fun hc => ?_) fun hc => .pure hd.hold
  · have e1 : (as.take n).length = n := by rw [List.length_take]; omega
    have e2 : (as.drop n).length = as.length - n := List.length_drop
    rw [e1]
    exact emplaceBackAll_keeps _ hd (by omega)
  · rw [List.length_take] at *
    vcost
    dhold

theorem eraseIf_keeps (h : Dim v f n b) {p : α → Bool} : Holds (eraseIf E p) v t := by
  unfold eraseIf
  refine .bind (.getObj (.bind (.lift ((SmallVector.removeIf_cost (n := n) (by have := h.first; have := h.last; omega)).mono (fun i t' hq => ?_) fun t' hq => h.hold))))
  exact .bind (.getObj (.bind (.distance fun _ _ => .bind (vcost.mono (eraseRange_keeps h) (fun _ _ _ hq => .pure hq) fun _ _ hq => hq))))

theorem emplace_dim (h : Dim v f n b) {i : Nat} {pos : Ptr} {a : Arg α} (hp : pos.off = v.first.off + i)
    (h1 : i ≤ n - i → 1 ≤ f) (h2 : n - i ≤ i → 1 ≤ b) :
    vcost (emplace E pos a) (fun _ v' _ => ∃ f' b', Dim v' f' (n + 1) b' ∧ f ≤ f' + 1 ∧ b ≤ b' + 1) (fun _ _ => True) v t := by
  have hd := h
  obtain ⟨g1, g2, g3, g4, g5, g6⟩ := h
  unfold emplace
  refine .bind (.getObj (.bind (.assert fun hr => .ite (fun h0 => ?_) fun h0 => .ite (fun h1 => ?_) fun h1 => .bind (.lift (.mkTmp (fun tmp => ?_) trivial)))))
  · subst h0
    refine (emplaceFrontAux_cost hd).mono (fun _ _ _ h => ?_) fun _ _ _ => trivial
    rw [if_pos (by omega)] at h
    exact ⟨_, _, h.1, by omega, by omega⟩
  · subst h1
    refine (emplaceBackAux_cost hd).mono (fun _ _ _ h => ?_) fun _ _ _ => trivial
    rw [if_pos (by omega)] at h
    exact ⟨_, _, h.1, by omega, by omega⟩
  · refine (insertAux_room hd hp (fun h => by have := h1; omega) h2).mono (fun _ _ _ h => ⟨_, _, h.1, ?_, ?_⟩) fun _ _ _ => trivial <;>
      split <;> omega

theorem insertEach_keeps (as : List (Arg α)) : ∀ {v : DVec} {f n b t : Nat} {pos : Ptr}, Dim v f n b → as.length ≤ f → as.length ≤ b →
    Holds (insertEach E pos as) v t := by
  induction as with
  | nil => intro v f n b t pos h _ _; exact .pure h.hold
  | cons a as ih =>
    intro v f n b t pos h hf hb
    unfold insertEach
    simp only [List.length_cons] at *
    by_cases hp : v.first.off ≤ pos.off
    · have hk : Holds (emplace E pos a) v t :=
        emplace_keeps (i := pos.off - v.first.off) h (by omega) (fun _ => by omega) fun _ => by omega
      have hk' := emplace_dim (E := E) (pos := pos) (a := a) (t := t) (i := pos.off - v.first.off) h (by omega) (fun _ => by omega) fun _ => by omega
      refine .bind ((vcost.and hk hk').mono (fun p v' t' hq => ?_) fun v' t' hq => hq.1)
      obtain ⟨hq, f', b', k1, k2, k3⟩ := hq
      exact Holds.after hq (ih k1 (by omega) (by omega))
    · unfold emplace
      exact .bind (.bind (.getObj (.bind (.assert fun hr => absurd hr.2.1 hp))))

end Devector

namespace Dq.Op

/-- With `f` free slots before and `b` free slots behind the `n` elements the operation needs no other storage: the free slots suffice at
the end at which it works (`fits`). An insertion of a range of input iterators may work at either end. shrink_to_fit is there to get other
storage. -/
def stays (f n b : Nat) : Op α → Bool
  | .insertInput _ ys => decide (ys.length ≤ f ∧ ys.length ≤ b)
  | .shrinkToFit => false
  | op => op.fits f n b

end Dq.Op

namespace Devector
variable {E : Env α} {v : DVec} {f n b t : Nat}

theorem Holds.nth {β : Type} {g : Ptr → DM α β} {k : Nat} (h : Holds (g (v.first.add k)) v t) :
    Holds (nth k >>= g) v t := .bind (.bind (.getObj (.bind (.bind (.getObj (.distance fun _ _ => .bind (.assert fun _ => .pure h)))))))

theorem Holds.argOf {β : Type} {g : Arg α → DM α β} {s : Sq.Src α} (h : ∀ a, Holds (g a) v t) :
    Holds (argOf s >>= g) v t := .bind (.bind (.getObj (.pure (h _))))

theorem Holds.indexOf {m : DM α Ptr} (h : Holds m v t) : Holds (m >>= fun p => indexOf p) v t :=
  .bind (vcost.mono h (fun _ _ _ h => .bind (.getObj (.bind (.assert fun _ => .bind (.distance fun _ _ => .pure h))))) fun _ _ h => h)

theorem Holds.map {β γ : Type} {m : DM α β} {g : β → γ} (h : Holds m v t) :
    Holds (m >>= fun p => Pure.pure (g p)) v t := .bind (vcost.mono h (fun _ _ _ h => .pure h) fun _ _ h => h)

/-- Every modifier that finds room. -/
theorem exec_keeps (h : Dim v f n b) (op : Dq.Op α) (hop : op.stays f n b = true) : Holds (exec E op) v t := by
  cases op <;> simp only [Dq.Op.stays, Dq.Op.fits, decide_eq_true_eq] at hop
  case pushFront s =>
    exact .argOf fun a => .indexOf ((emplaceFrontAux_keeps h hop).mono (fun _ _ _ h => h.1) fun _ _ hq => hq ▸ h.hold)
  case pushBack s =>
    exact .argOf fun a => .indexOf ((emplaceBackAux_keeps h hop).mono (fun _ _ _ h => h.1) fun _ _ hq => hq ▸ h.hold)
  case emplace k s => exact .argOf fun a => .nth (.indexOf (emplace_keeps h (Ptr.add_off _ _) hop.1 hop.2))
  case insertN k m s =>
    exact .argOf fun a => .nth (.indexOf (.bind (.getObj (.bind (.assert fun _ =>
      insertAux_keeps h (Ptr.add_off _ _) (fun h => hop.1 (by omega)) hop.2)))))
  case insertRange k ys =>
    refine .nth (.indexOf (.bind (.getObj (.bind (.assert fun _ => insertAux_keeps h (Ptr.add_off _ _) ?_ ?_))))) <;>
      rw [List.length_map] <;> omega
  case insertInput k ys =>
    refine .nth (.indexOf (.bind (.getObj (.bind (.assert fun hr => .bind (.distance fun _ _ => .bind ?_))))))
    exact vcost.mono (insertEach_keeps _ h (by rw [List.length_map]; omega) (by rw [List.length_map]; omega))
      (fun _ _ _ hq => .bind (.getObj (.pure hq))) fun _ _ h => h
  case popFront => exact .map ((popFront_keeps h).mono (fun _ _ _ h => h.1) fun _ _ h => h.elim)
  case popBack => exact .map ((popBack_keeps h).mono (fun _ _ _ h => h.1) fun _ _ h => h.elim)
  case eraseAt k => exact .nth (.indexOf (erase_keeps h))
  case eraseRange k l => exact .nth (.nth (.indexOf (eraseRange_keeps h)))
  case resize m => exact .map (resizeWith_keeps h hop)
  case resizeV m s => exact .argOf fun a => .map (resizeWith_keeps h hop)
  case resizeFront m => exact .map ((resizeFrontWith_keeps h hop).mono (fun _ _ _ h => h.1) fun _ _ h => h.1)
  case resizeFrontV m s => exact .argOf fun a => .map ((resizeFrontWith_keeps h hop).mono (fun _ _ _ h => h.1) fun _ _ h => h.1)
  case resizeBack m => exact .map ((resizeBackWith_keeps h hop).mono (fun _ _ _ h => h.1) fun _ _ h => h.1)
  case resizeBackV m s => exact .argOf fun a => .map ((resizeBackWith_keeps h hop).mono (fun _ _ _ h => h.1) fun _ _ h => h.1)
  case assignN m a => exact .map (assignFillN_keeps h hop)
  case assignRange ys => exact .map (assignRange_keeps h (by rw [List.length_map]; omega))
  case assignInput ys => exact .map (assignInput_keeps h (by rw [List.length_map]; omega))
  case clear => exact .map (clear_keeps h)
  case reserveFront m => exact .map (reserveFront_keeps h hop)
  case reserveBack m => exact .map (reserveBack_keeps h hop)
  case shrinkToFit => exact absurd hop (by simp)
  case eraseIf p => exact .map (eraseIf_keeps h)

/-- The operations at the back leave the begin of the elements where it is. -/
theorem exec_back_keeps (h : Dim v f n b) {s : Sq.Src α} (hb : 0 < b) :
    vcost (exec E (.pushBack s)) (fun _ v' _ => Hold v v' ∧ v'.first = v.first) (fun v' _ => v' = v) v t :=
  .bind (.bind (.getObj (.pure (.bind ((emplaceBackAux_keeps h hb).mono
    (fun _ _ _ h => .bind (.getObj (.bind (.assert fun _ => .bind (.distance fun _ _ => .pure h))))) fun _ _ h => h)))))

/-- The operations at the front leave the end of the elements where it is. -/
theorem exec_front_keeps (h : Dim v f n b) {s : Sq.Src α} (hb : 0 < f) :
    vcost (exec E (.pushFront s)) (fun _ v' _ => Hold v v' ∧ v'.last = v.last) (fun v' _ => v' = v) v t :=
  .bind (.bind (.getObj (.pure (.bind ((emplaceFrontAux_keeps h hb).mono
    (fun _ _ _ h => .bind (.getObj (.bind (.assert fun _ => .bind (.distance fun _ _ => .pure h))))) fun _ _ h => h)))))

end Devector
end Sfl
