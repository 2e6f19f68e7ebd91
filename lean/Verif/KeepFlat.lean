import Verif.KeepVec
import Verif.PropFlatCost

/-
  Modifiers of the flat containers that find enough room leave the storage where it is.
-/

namespace Sfl
variable {α κ : Type}

namespace SmallVector

theorem Hold.dim {v v' : Vec} {n r : Nat} (h : Hold v v') (hd : Dim v n r) : ∃ n' r', Dim v' n' r' ∧ n' + r' = n + r := by
  obtain ⟨h1, h2, h3, h4, h5⟩ := h
  obtain ⟨d1, d2, d3, d4⟩ := hd
  refine ⟨v'.last.off - v.first.off, v.eos.off - v'.last.off, ⟨?_, ?_, ?_, ?_⟩, by omega⟩
  · rw [h1, h3]
  · rw [h1, h2]; exact d2
  · rw [h1]; omega
  · rw [h1, h2]; omega

end SmallVector

namespace Flat
open Sfl.Vector (VM)
open SmallVector (Dim Hold Keeps)
variable {C : Order α κ} {E : Env α} {P : Probe α} {v : Vec} {n r t ib N : Nat}

theorem Looks.keeps {β : Type} {m : VM α β} {W : Nat} (h : Looks m W v t) (hd : Dim v n r) : Keeps m v t :=
  vcost.mono h (fun _ _ _ hq => by obtain ⟨rfl, hq⟩ := hq; exact hd.hold) fun _ _ hq => by obtain ⟨rfl, hq⟩ := hq; exact hd.hold

/-- `insert_exactly_at` stays in the storage if there is room. -/
def Kind.Keeping (K : Kind α) : Prop :=
  ∀ {v : Vec} {n r t : Nat} {pos : Ptr} {a : Arg α}, Dim v n r → 0 < r → Keeps (K.ins pos a) v t

theorem insertInPlace_keeps {temp : Bool} {pos : Ptr} {a : Arg α} (h : Dim v n r) (hr : 0 < r) :
    Keeps (insertInPlace temp E pos a) v t := by
  obtain ⟨h1, h2, h3, h4⟩ := h
  unfold insertInPlace insertMiddle
  vcost <;> hold

theorem small_keeping (multi : Bool) (E : Env α) (ib N : Nat) : (small multi E ib N).Keeping := by
  intro v n r t pos a h hr
  show Keeps (insertExactlyAt multi E ib N pos a) v t
  unfold insertExactlyAt
  refine .bind (.getObj (.ite (fun hne => insertInPlace_keeps h hr) fun he => ?_))
  have he : v.last = v.eos := by simpa using he
  have h3 := h.last
  have h4 := h.eos
  rw [he] at h3
  omega

section
variable {K : Kind α}

theorem insertAux_keeps (hI : K.Keeping) {a : Arg α} (h : Dim v n r) (hr : 0 < r) : Keeps (insertAux K C E a) v t := by
  unfold insertAux
  refine .bind (.lift (.argRead fun x => looks_bind (lowerBound_looks h) (fun _ _ => h.hold) fun it t' _ => ?_))
  refine .ite (fun _ => SmallVector.Keeps.map (hI h hr)) fun _ => looks_bind missing_looks (fun _ _ => h.hold) fun b t' _ => ?_
  exact .ite (fun _ => SmallVector.Keeps.map (hI h hr)) fun _ => .pure h.hold

theorem insertAuxHint_keeps (hI : K.Keeping) {a : Arg α} {it : Ptr} (h : Dim v n r) (hr : 0 < r) :
    Keeps (insertAuxHint K C E it a) v t := by
  unfold insertAuxHint
  refine .bind (.lift (.argRead fun x => looks_bind hintGood_looks (fun _ _ => h.hold) fun b t' ht => ?_))
  exact .ite (fun _ => hI h hr) fun _ => SmallVector.Keeps.map (insertAux_keeps hI h hr)

theorem insertNew_keeps (hI : K.Keeping) {x : α} {it : Ptr} (h : Dim v n r) (hr : 0 < r) : Keeps (insertNew K E it x) v t := by
  unfold insertNew
  exact .bind (.lift (.mkTmp (fun tmp => hI h hr) h.hold))

theorem tryEmplaceAux_keeps (hI : K.Keeping) {x : α} (h : Dim v n r) (hr : 0 < r) : Keeps (tryEmplaceAux K C E x) v t := by
  unfold tryEmplaceAux
  refine looks_bind (lowerBound_looks h) (fun _ _ => h.hold) fun it t' _ => looks_bind missing_looks (fun _ _ => h.hold) fun b t' _ => ?_
  exact .ite (fun _ => SmallVector.Keeps.map (insertNew_keeps hI h hr)) fun _ => .pure h.hold

theorem tryEmplaceAuxHint_keeps (hI : K.Keeping) {x : α} {it : Ptr} (h : Dim v n r) (hr : 0 < r) :
    Keeps (tryEmplaceAuxHint K C E it x) v t := by
  unfold tryEmplaceAuxHint
  refine looks_bind hintGood_looks (fun _ _ => h.hold) fun b t' _ => ?_
  exact .ite (fun _ => insertNew_keeps hI h hr) fun _ => SmallVector.Keeps.map (tryEmplaceAux_keeps hI h hr)

theorem insertOrAssignAux_keeps (hI : K.Keeping) {x : α} (h : Dim v n r) (hr : 0 < r) : Keeps (insertOrAssignAux K C E x) v t := by
  unfold insertOrAssignAux
  refine looks_bind (lowerBound_looks h) (fun _ _ => h.hold) fun it t' _ => looks_bind missing_looks (fun _ _ => h.hold) fun b t' _ => ?_
  exact .ite (fun _ => SmallVector.Keeps.map (insertNew_keeps hI h hr)) fun _ => .bind (.lift (assignMapped_cost (.pure h.hold) h.hold))

theorem insertOrAssignAuxHint_keeps (hI : K.Keeping) {x : α} {it : Ptr} (h : Dim v n r) (hr : 0 < r) :
    Keeps (insertOrAssignAuxHint K C E it x) v t := by
  unfold insertOrAssignAuxHint
  refine looks_bind hintGood_looks (fun _ _ => h.hold) fun b t' _ => ?_
  exact .ite (fun _ => insertNew_keeps hI h hr) fun _ => SmallVector.Keeps.map (insertOrAssignAux_keeps hI h hr)

theorem insertRange_keeps (hK : K.Costs N) (hI : K.Keeping) (vs : List α) : ∀ {v : Vec} {n r t : Nat}, Dim v n r → vs.length ≤ r →
    Keeps (insertRange K C E vs) v t := by
  induction vs with
  | nil => intro v n r t h _; exact .pure h.hold
  | cons x vs ih =>
    intro v n r t h hr
    simp only [List.length_cons] at hr
    unfold insertRange
    refine .bind (vcost.mono hK.guard (fun _ v1 t1 hq => ?_) fun _ _ hq => hq.elim)
    obtain ⟨rfl, rfl⟩ := hq
    refine .bind (vcost.mono ((insertAux_stays hK h).and (insertAux_keeps hI h (by omega))) (fun p v2 t2 hq => ?_) fun v2 t2 hq => hq.2)
    obtain ⟨⟨hs, -⟩, hh⟩ := hq
    obtain ⟨n', r', hd, e⟩ := hh.dim h
    have := hs.size
    have := hd.last
    exact SmallVector.Keeps.after hh (ih hd (by omega))

theorem eraseIfGo_keeps {f : α → Bool} (m : Nat) : ∀ {v : Vec} {n r t : Nat} {it : Ptr}, Dim v n r → Keeps (eraseIfGo E f m it) v t := by
  induction m with
  | zero => intro v n r t it h; exact .pure h.hold
  | succ m ih =>
    intro v n r t it h
    unfold eraseIfGo
    refine .bind (.getObj (.ite (fun _ => .pure h.hold) fun hne => .bind (.lift (.readAt fun x => .ite (fun _ => ?_) fun _ => ih h))))
    refine .bind (vcost.mono (SmallVector.eraseAt_keeps h) (fun p v1 t1 hq => ?_) fun v1 t1 hq => hq)
    obtain ⟨n', r', hd, -⟩ := hq.dim h
    exact SmallVector.Keeps.after hq (ih hd)

theorem eraseIf_keeps {f : α → Bool} (h : Dim v n r) : Keeps (eraseIf E f) v t := by
  unfold eraseIf Vector.size
  refine .bind (.bind (.getObj (.distance fun _ _ => .bind (.getObj (.bind (vcost.mono (eraseIfGo_keeps _ h) (fun _ v1 t1 hq => ?_)
    fun v1 t1 hq => hq))))))
  exact .bind (.bind (.getObj (.distance fun _ _ => .pure hq)))

theorem eraseKey_keeps {multi : Bool} (h : Dim v n r) : Keeps (eraseKey multi C E P) v t := by
  unfold eraseKey
  refine .ite (fun _ => ?_) fun _ => ?_
  · unfold eraseKeyMulti
    refine looks_bind (equalRange_looks h) (fun _ _ => h.hold) fun er t' _ => .bind (.distance fun _ _ => ?_)
    exact SmallVector.Keeps.map (SmallVector.eraseRange_keeps h)
  · unfold eraseKeyUnique
    refine looks_bind (find_looks h) (fun _ _ => h.hold) fun er t' _ => .bind (.getObj (.ite (fun _ => .pure h.hold) fun _ => ?_))
    exact SmallVector.Keeps.map (SmallVector.eraseAt_keeps h)

end

theorem keeps_posOf {m : VM α Ptr} (h : Keeps m v t) : Keeps (m >>= fun p => posOf p) v t := by
  unfold Flat.posOf
  exact vcost.bind (vcost.mono h (fun _ _ _ h => .bind (.getObj (.bind (.distance fun _ _ => .pure h)))) fun _ _ h => h)

theorem keeps_insOf {m : VM α (Ptr × Bool)} (h : Keeps m v t) : Keeps (m >>= fun p => insOf p) v t := by
  unfold Flat.insOf
  exact vcost.bind (vcost.mono h (fun _ _ _ h => .bind (.getObj (.bind (.distance fun _ _ => .pure h)))) fun _ _ h => h)

theorem keeps_guard {β : Type} {K : Kind α} (hK : K.Costs N) {f : Unit → VM α β} (h : Keeps (f ()) v t) : Keeps (K.guard >>= f) v t :=
  vcost.bind (vcost.mono hK.guard (fun _ v1 t1 hq => by obtain ⟨rfl, rfl⟩ := hq; exact h) fun _ _ hq => hq.elim)

/-- Every modifier that asks for no more than the capacity. -/
theorem exec_keeps {K : Kind α} {reserve : Nat → VM α Unit} {shrink : VM α Unit} (hK : K.Costs N) (hI : K.Keeping) (h : Dim v n r)
    (op : Op α κ) (hop : op ≠ .shrinkToFit) (hroom : op.room n ≤ n + r) (hres : ∀ m, m ≤ n + r → Keeps (reserve m) v t) :
    Keeps (exec K C E reserve shrink op) v t := by
  cases op <;> simp only [Op.room] at hroom
  case insert s => exact SmallVector.Keeps.argOf fun a => keeps_guard hK (keeps_insOf (insertAux_keeps hI h (by omega)))
  case insertHint i s =>
    refine SmallVector.Keeps.argOf fun a => SmallVector.Keeps.nth (keeps_guard hK (vcost.bind (.getObj (.bind (.assert fun hin => ?_)))))
    exact keeps_posOf (insertAuxHint_keeps hI h (by omega))
  case emplace x =>
    exact keeps_guard hK (vcost.bind (.lift (.mkTmp (fun tmp => keeps_insOf (insertAux_keeps hI h (by omega))) h.hold)))
  case emplaceHint i x =>
    refine SmallVector.Keeps.nth (keeps_guard hK (vcost.bind (.getObj (.bind (.assert fun hin => .bind (.lift (.mkTmp (fun tmp => ?_) h.hold)))))))
    exact keeps_posOf (insertAuxHint_keeps hI h (by omega))
  case tryEmplace x => exact keeps_guard hK (keeps_insOf (tryEmplaceAux_keeps hI h (by omega)))
  case tryEmplaceHint i x =>
    refine SmallVector.Keeps.nth (keeps_guard hK (vcost.bind (.getObj (.bind (.assert fun hin => ?_)))))
    exact keeps_posOf (tryEmplaceAuxHint_keeps hI h (by omega))
  case insertOrAssign x => exact keeps_guard hK (keeps_insOf (insertOrAssignAux_keeps hI h (by omega)))
  case insertOrAssignHint i x =>
    refine SmallVector.Keeps.nth (keeps_guard hK (vcost.bind (.getObj (.bind (.assert fun hin => ?_)))))
    exact keeps_posOf (insertOrAssignAuxHint_keeps hI h (by omega))
  case insertRange vs => exact SmallVector.Keeps.map (insertRange_keeps hK hI vs h (by omega))
  case assignList vs =>
    refine SmallVector.Keeps.map ?_
    unfold assignList
    refine vcost.bind (vcost.mono ((clear_dim h).and (SmallVector.clear_keeps h)) (fun _ v1 t1 hq => ?_) fun _ _ hq => hq.1.elim)
    exact SmallVector.Keeps.after hq.2 (insertRange_keeps hK hI vs hq.1.1 (by omega))
  case eraseAt k => exact SmallVector.Keeps.nth (keeps_posOf (SmallVector.eraseAt_keeps h))
  case eraseRange k l => exact SmallVector.Keeps.nth (SmallVector.Keeps.nth (keeps_posOf (SmallVector.eraseRange_keeps h)))
  case eraseKey k => exact SmallVector.Keeps.map (eraseKey_keeps h)
  case eraseIf f => exact SmallVector.Keeps.map (eraseIf_keeps h)
  case clear => exact SmallVector.Keeps.map (SmallVector.clear_keeps h)
  case reserve m => exact SmallVector.Keeps.map (hres m hroom)
  case shrinkToFit => exact absurd rfl hop

/-- The small containers. -/
theorem smallExec_keeps {multi : Bool} (h : Dim v n r) (op : Op α κ) (hop : op ≠ .shrinkToFit) (hroom : op.room n ≤ n + r) :
    Keeps (exec (small multi E ib N) C E (SmallVector.reserve E ib N) (SmallVector.shrinkToFit E ib N) op) v t :=
  exec_keeps (small_costs multi E ib N) (small_keeping multi E ib N) h op hop hroom fun _ hm => SmallVector.reserve_keeps h hm

end Flat

namespace Unord
open Sfl.Vector (VM)
open SmallVector (Dim Hold Keeps)
open Flat (looks_bind keeps_posOf keeps_insOf)
variable {U : KeyEq α κ} {E : Env α} {q : Sought α} {v : Vec} {n r t ib N : Nat}

/-- `emplace_back` stays in the storage if there is room. -/
def Kind.Keeping (K : Kind α) : Prop :=
  ∀ {v : Vec} {n r t : Nat} {a : Arg α}, Dim v n r → 0 < r → Keeps (K.push a) v t

theorem small_keeping (multi isMap : Bool) (E : Env α) (ib N : Nat) : (small multi isMap E ib N).Keeping :=
  fun h hr => SmallVector.emplaceBack_keeps h hr

theorem eraseAt_keeps {pos : Ptr} (h : Dim v n r) : Keeps (eraseAt E pos) v t := by
  obtain ⟨h1, h2, h3, h4⟩ := h
  unfold eraseAt fillHole
  refine .bind (.getObj (.bind (.assert fun hin => ?_)))
  obtain ⟨g1, g2, g3⟩ := hin
  have := Ptr.sub_blk (p := v.last) (n := 1) (by omega)
  vcost <;> hold

theorem eraseRange_keeps {p q : Ptr} (h : Dim v n r) : Keeps (eraseRange E p q) v t := by
  obtain ⟨h1, h2, h3, h4⟩ := h
  unfold eraseRange
  refine .bind (.getObj (.bind (.assert fun hin => ?_)))
  obtain ⟨g1, g2, g3, g4, g5⟩ := hin
  vcost <;> hold

theorem eraseGo_keeps {test : Ptr → M (St α) Bool}
    (ht : ∀ {it : Ptr} {t : Nat}, cost (test it) (fun _ _ => True) (fun _ => True) t) (m : Nat) :
    ∀ {v : Vec} {n r t k : Nat} {it : Ptr}, Dim v n r → Keeps (eraseGo E test m it k) v t := by
  induction m with
  | zero => intro v n r t k it h; exact .pure h.hold
  | succ m ih =>
    intro v n r t k it h
    unfold eraseGo
    refine .bind (.getObj (.ite (fun _ => .pure h.hold) fun _ => .bind (.lift (ht.mono (fun b t1 _ => .ite (fun _ => ?_)
      fun _ => ih h) fun t1 _ => h.hold))))
    refine .bind (vcost.mono (eraseAt_keeps h) (fun p v2 t2 hq => ?_) fun v2 t2 hq => hq)
    obtain ⟨n', r', hd, -⟩ := hq.dim h
    exact SmallVector.Keeps.after hq (ih hd)

theorem eraseKey_keeps {multi : Bool} (h : Dim v n r) : Keeps (eraseKey multi U E q) v t := by
  unfold eraseKey
  refine .ite (fun _ => ?_) fun _ => ?_
  · unfold eraseKeyMulti Vector.size
    refine .bind (.bind (.getObj (.distance fun _ _ => .bind (.getObj ?_))))
    exact eraseGo_keeps (eqAt_cost (fun _ => trivial) trivial) _ h
  · unfold eraseKeyUnique
    refine looks_bind (find_looks h) (fun _ _ => h.hold) fun it t' _ => .bind (.getObj (.ite (fun _ => .pure h.hold) fun _ => ?_))
    exact SmallVector.Keeps.map (eraseAt_keeps h)

theorem eraseIf_keeps {f : α → Bool} (h : Dim v n r) : Keeps (eraseIf E f) v t := by
  unfold eraseIf Vector.size
  refine .bind (.bind (.getObj (.distance fun _ _ => .bind (.getObj ?_))))
  refine .bind (vcost.mono (eraseGo_keeps (.bind (.readAt fun x => .pure trivial)) _ h) (fun _ v1 t1 hq => ?_) fun v1 t1 hq => hq)
  exact .bind (.bind (.getObj (.distance fun _ _ => .pure hq)))

section
variable {K : Kind α}

theorem insertAux_keeps (hI : K.Keeping) {a : Arg α} (h : Dim v n r) (hr : 0 < r) : Keeps (insertAux K U E a) v t := by
  unfold insertAux
  refine .ite (fun _ => SmallVector.Keeps.map (hI h hr)) fun _ => .bind (.lift (.argRead fun x => looks_bind (find_looks h) (fun _ _ => h.hold)
    fun it t' _ => .bind (.getObj (.ite (fun _ => SmallVector.Keeps.map (hI h hr)) fun _ => .pure h.hold))))

theorem emplaceAux_keeps (hI : K.Keeping) {x : α} (h : Dim v n r) (hr : 0 < r) : Keeps (emplaceAux K U E x) v t := by
  unfold emplaceAux
  refine .bind (vcost.mono (hI h hr) (fun p v1 t1 hq => ?_) fun v1 t1 hq => hq)
  obtain ⟨n', r', hd, -⟩ := hq.dim h
  refine looks_bind (find_looks hd) (fun _ _ => hq) fun it t' _ => .ite (fun _ => .pure hq) fun _ => ?_
  exact SmallVector.Keeps.after hq (SmallVector.Keeps.map (SmallVector.popBack_keeps hd))

theorem emplace_keeps (hI : K.Keeping) {x : α} (h : Dim v n r) (hr : 0 < r) : Keeps (emplace K U E x) v t := by
  unfold emplace
  exact .ite (fun _ => SmallVector.Keeps.map (hI h hr)) fun _ => .ite (fun _ => emplaceAux_keeps hI h hr) fun _ => .bind (.lift (.mkTmp
    (fun tmp => insertAux_keeps hI h hr) h.hold))

theorem pushKey_keeps (hI : K.Keeping) {x : α} (h : Dim v n r) (hr : 0 < r) : Keeps (pushKey K E x) v t := by
  unfold pushKey
  exact .ite (fun _ => SmallVector.Keeps.map (hI h hr)) fun _ => .bind (.lift (.mkTmp (fun tmp => SmallVector.Keeps.map (hI h hr)) h.hold))

theorem tryEmplaceAux_keeps (hI : K.Keeping) {x : α} (h : Dim v n r) (hr : 0 < r) : Keeps (tryEmplaceAux K U E x) v t := by
  unfold tryEmplaceAux
  exact looks_bind (find_looks h) (fun _ _ => h.hold) fun it t' _ => .bind (.getObj (.ite (fun _ => pushKey_keeps hI h hr)
    fun _ => .pure h.hold))

theorem insertOrAssignAux_keeps (hI : K.Keeping) {x : α} (h : Dim v n r) (hr : 0 < r) : Keeps (insertOrAssignAux K U E x) v t := by
  unfold insertOrAssignAux
  exact looks_bind (find_looks h) (fun _ _ => h.hold) fun it t' _ => .bind (.getObj (.ite (fun _ => SmallVector.Keeps.map (hI h hr))
    fun _ => .bind (.lift (assignMapped_cost (.pure h.hold) h.hold))))

theorem insertRange_keeps (hK : K.Costs N) (hI : K.Keeping) (vs : List α) : ∀ {v : Vec} {n r t : Nat}, Dim v n r → vs.length ≤ r →
    Keeps (insertRange K U E vs) v t := by
  induction vs with
  | nil => intro v n r t h _; exact .pure h.hold
  | cons x vs ih =>
    intro v n r t h hr
    simp only [List.length_cons] at hr
    unfold insertRange
    refine .bind (vcost.mono hK.guard (fun _ v1 t1 hq => ?_) fun _ _ hq => hq.elim)
    obtain ⟨rfl, rfl⟩ := hq
    refine .bind (vcost.mono ((insertAux_stays hK h).and (insertAux_keeps hI h (by omega))) (fun p v2 t2 hq => ?_) fun v2 t2 hq => hq.2)
    obtain ⟨⟨hs, -⟩, hh⟩ := hq
    obtain ⟨n', r', hd, e⟩ := hh.dim h
    have := hs.size
    have := hd.last
    exact SmallVector.Keeps.after hh (ih hd (by omega))

theorem keeps_guard {β : Type} (hK : K.Costs N) {f : Unit → VM α β} (h : Keeps (f ()) v t) : Keeps (K.guard >>= f) v t :=
  vcost.bind (vcost.mono hK.guard (fun _ v1 t1 hq => by obtain ⟨rfl, rfl⟩ := hq; exact h) fun _ _ hq => hq.elim)

theorem keeps_hint {β : Type} {f : Unit → VM α β} {i : Nat} (h : Keeps (f ()) v t) : Keeps (checkHint i >>= f) v t :=
  vcost.bind (.bind (.bind (.getObj (.pure (.bind (.getObj (.assert fun _ => h)))))))

theorem keeps_fst {m : VM α (Ptr × Bool)} (h : Keeps m v t) : Keeps (m >>= fun p => Flat.posOf p.1) v t := by
  unfold Flat.posOf
  exact vcost.bind (vcost.mono h (fun _ _ _ h => .bind (.getObj (.bind (.distance fun _ _ => .pure h)))) fun _ _ h => h)

/-- Every modifier that asks for no more than the capacity. -/
theorem exec_keeps {reserve : Nat → VM α Unit} {shrink : VM α Unit} (hK : K.Costs N) (hI : K.Keeping) (h : Dim v n r)
    (op : Op α κ) (hop : op ≠ .shrinkToFit) (hroom : op.room n ≤ n + r) (hres : ∀ m, m ≤ n + r → Keeps (reserve m) v t) :
    Keeps (exec K U E reserve shrink op) v t := by
  cases op <;> simp only [Op.room] at hroom
  case insert s => exact SmallVector.Keeps.argOf fun a => keeps_guard hK (keeps_insOf (insertAux_keeps hI h (by omega)))
  case insertHint i s => exact SmallVector.Keeps.argOf fun a => keeps_guard hK (keeps_hint (keeps_fst (insertAux_keeps hI h (by omega))))
  case emplace x => exact keeps_guard hK (keeps_insOf (emplace_keeps hI h (by omega)))
  case emplaceHint i x => exact keeps_guard hK (keeps_hint (keeps_fst (emplace_keeps hI h (by omega))))
  case tryEmplace x => exact keeps_guard hK (keeps_insOf (tryEmplaceAux_keeps hI h (by omega)))
  case tryEmplaceHint i x => exact keeps_guard hK (keeps_hint (keeps_fst (tryEmplaceAux_keeps hI h (by omega))))
  case insertOrAssign x => exact keeps_guard hK (keeps_insOf (insertOrAssignAux_keeps hI h (by omega)))
  case insertOrAssignHint i x => exact keeps_guard hK (keeps_hint (keeps_fst (insertOrAssignAux_keeps hI h (by omega))))
  case insertRange vs => exact SmallVector.Keeps.map (insertRange_keeps hK hI vs h (by omega))
  case assignList vs =>
    refine SmallVector.Keeps.map ?_
    unfold assignList
    refine vcost.bind (vcost.mono ((Flat.clear_dim h).and (SmallVector.clear_keeps h)) (fun _ v1 t1 hq => ?_) fun _ _ hq => hq.1.elim)
    exact SmallVector.Keeps.after hq.2 (insertRange_keeps hK hI vs hq.1.1 (by omega))
  case eraseAt k => exact SmallVector.Keeps.nth (keeps_posOf (eraseAt_keeps h))
  case eraseRange k l => exact SmallVector.Keeps.nth (SmallVector.Keeps.nth (keeps_posOf (eraseRange_keeps h)))
  case eraseKey k => exact SmallVector.Keeps.map (eraseKey_keeps h)
  case eraseEqual k => exact SmallVector.Keeps.nth (SmallVector.Keeps.map (eraseKey_keeps h))
  case eraseIf f => exact SmallVector.Keeps.map (eraseIf_keeps h)
  case clear => exact SmallVector.Keeps.map (SmallVector.clear_keeps h)
  case reserve m => exact SmallVector.Keeps.map (hres m hroom)
  case shrinkToFit => exact absurd rfl hop

/-- The small containers. -/
theorem smallExec_keeps {multi isMap : Bool} (h : Dim v n r) (op : Op α κ) (hop : op ≠ .shrinkToFit) (hroom : op.room n ≤ n + r) :
    Keeps (exec (small multi isMap E ib N) U E (SmallVector.reserve E ib N) (SmallVector.shrinkToFit E ib N) op) v t :=
  exec_keeps (small_costs multi isMap E ib N) (small_keeping multi isMap E ib N) h op hop hroom
    fun _ hm => SmallVector.reserve_keeps h hm

end

end Unord

end Sfl
