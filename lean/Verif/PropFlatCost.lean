import Verif.CostFlat2
import Verif.PropFlat
import Verif.PropUnord
import Verif.PropStatic
import Verif.PropUnord2
/-
  C48: what the lookups and modifiers of the flat containers cost, and C47 for them. Comparisons count like operations on elements.
-/

namespace Sfl
open World
variable {α κ : Type}

/-! ### Ordered containers -/

section ordered
open Flat
variable {K : Nat} {multi : Bool} {C : Order α κ} {E : Env α} {T : Traits} {ib : Fin K → Nat} {N : Nat} {m0 : St α}
  {i : Fin K} {o o' o1 o2 : Obj Vec α} {n c : Nat}

/-- **C48**, small ordered containers: a lookup makes a logarithmic number of comparisons, and nothing else. -/
theorem smallFlat_lookup_work (L : C.Lawful) (hm : Objects E ib N m0) (h : SmallFlat.Reached multi C E T ib N m0 i o)
    (hn : Vector.size o = .ok n o1) (P : Probe α) (q : Query) (hx : (query multi C E P q o).final = some o') :
    o'.obj = o.obj ∧ o'.m.tick ≤ o.m.tick + 2 * (Nat.log2 n + 1) := by
  obtain ⟨H, al, b, cap, xs, hv⟩ := h.repr L hm
  obtain rfl := hv.size_eq hn
  exact vcost.fin (P := fun v t => v = o.obj ∧ t ≤ _) (query_looks hv.dim q) hx

/-- **C48**, static ordered containers. -/
theorem staticFlat_lookup_work (L : C.Lawful) (hm : Objects E ib N m0)
    (h : Reached (staticCont multi C E ib N) (staticSem multi C E N) m0 i o)
    (hn : Vector.size o = .ok n o1) (P : Probe α) (q : Query) (hx : (query multi C E P q o).final = some o') :
    o'.obj = o.obj ∧ o'.m.tick ≤ o.m.tick + 2 * (Nat.log2 n + 1) := by
  obtain ⟨H, al, xs, hv⟩ := h.static hm (staticSpec L hm.fits)
  obtain rfl := hv.size_eq hn
  exact vcost.fin (P := fun v t => v = o.obj ∧ t ≤ _) (query_looks hv.dim q) hx

/-- **C48**, small ordered containers: what a modifier costs at most (`Flat.Op.work`), whatever it throws; one more operation for each
element and the allocation if the capacity does not suffice.

Missing: erase_if, range constructors and assignment of an initializer list are documented as linear; see
`smallFlat_eraseIf_quadratic` and `smallFlat_range_quadratic`. -/
theorem smallFlat_work_partial (L : C.Lawful) (hm : Objects E ib N m0) (h : SmallFlat.Reached multi C E T ib N m0 i o)
    (hn : Vector.size o = .ok n o1) (hc : Vector.capacity o = .ok c o2) (op : Flat.Op α κ)
    (hx : ((smallImpl multi C E (ib i) N).exec op o).final = some o') :
    o'.m.tick ≤ o.m.tick + op.work n + if op.room n ≤ c then 0 else n + 1 := by
  obtain ⟨H, al, b, cap, xs, hv⟩ := h.repr L hm
  obtain rfl := hv.size_eq hn
  obtain rfl := hv.capacity_eq hc
  have := (vcost.fin (P := fun v t => Lim v _ _ ∧ t ≤ _) (smallExec_stays (E := E) (C := C) (multi := multi) hv.dim op) hx).2
  have e : xs.length + (c - xs.length) = c := by have := hv.len; omega
  rwa [e] at this

/-- **C48**, static ordered containers. -/
theorem staticFlat_work_partial (L : C.Lawful) (hm : Objects E ib N m0)
    (h : Reached (staticCont multi C E ib N) (staticSem multi C E N) m0 i o) (hn : Vector.size o = .ok n o1) (op : Flat.Op α κ)
    (hr : op.room n ≤ N) (hx : ((staticImpl multi C E N).exec op o).final = some o') : o'.m.tick ≤ o.m.tick + op.work n := by
  obtain ⟨H, al, xs, hv⟩ := h.static hm (staticSpec L hm.fits)
  obtain rfl := hv.size_eq hn
  have e : xs.length + (N - xs.length) = N := by have := hv.len; omega
  exact (vcost.fin (P := fun v t => Lim v _ _ ∧ t ≤ _) (staticExec_stays (E := E) (C := C) (multi := multi) hv.dim e op hr) hx).2

/-- Against **C48**: erase_if is documented as linear (small_flat_set.md:1373, small_flat_map.md:1697, small_flat_multiset.md:1324), but
erases one element after the other: if it erases all of n elements, it does n(n-1)/2 move assignments. -/
theorem smallFlat_eraseIf_quadratic (L : C.Lawful) (hm : Objects E ib N m0) (h : SmallFlat.Reached multi C E T ib N m0 i o)
    (hE : ∀ t, E.throws t = false) (hn : Vector.size o = .ok n o1) : ∃ r o',
    (smallImpl multi C E (ib i) N).exec (.eraseIf fun _ => true) o = .ok r o' ∧ Vector.size o' = .ok 0 o' ∧
    2 * o'.m.tick = 2 * o.m.tick + n * (n - 1) := by
  have : Silent E := ⟨hE⟩
  have : Allows (fun e => e = .lengthError) .lengthError := ⟨rfl⟩
  obtain ⟨H, al, b, cap, xs, hv⟩ := h.repr L hm
  obtain rfl := hv.size_eq hn
  obtain ⟨r, o', e1, e2, e3⟩ := hv.eraseAll_run
  refine ⟨_, o', bind_run e1, ?_, e3⟩
  exact e2.size_is

/-- Against **C48** in the same way (static_flat_set.md:1272). -/
theorem staticFlat_eraseIf_quadratic (L : C.Lawful) (hm : Objects E ib N m0)
    (h : Reached (staticCont multi C E ib N) (staticSem multi C E N) m0 i o)
    (hE : ∀ t, E.throws t = false) (hn : Vector.size o = .ok n o1) : ∃ r o',
    (staticImpl multi C E N).exec (.eraseIf fun _ => true) o = .ok r o' ∧ Vector.size o' = .ok 0 o' ∧
    2 * o'.m.tick = 2 * o.m.tick + n * (n - 1) := by
  have : Silent E := ⟨hE⟩
  obtain ⟨H, al, xs, hv⟩ := h.static hm (staticSpec L hm.fits)
  obtain rfl := hv.size_eq hn
  obtain ⟨r, o', e1, e2, e3⟩ := hv.eraseAll_run
  refine ⟨_, o', bind_run e1, ?_, e3⟩
  exact e2.size_is

/-- Against **C48**: the range constructors are documented as linear (small_flat_set.md:223, 246; small_flat_map.md:249, 272), but insert
one element after the other: m elements in descending order take at least m(m-1)/2 operations on elements. -/
theorem smallFlat_range_quadratic (L : C.Lawful) {ib al : Nat} (hr : RawObject m0 ib N) (hN : N ≤ E.maxSize)
    (hE : ∀ t, E.throws t = false) (vs : List α) (hd : C.Descending vs) (hl : vs.length ≤ E.maxSize) : ∃ o',
    Flat.construct multi C E ib N (.range vs) ⟨SmallVector.empty ib N al, m0⟩ = .ok () o' ∧
    (smallImpl multi C E ib N).contents o' = .ok vs.reverse o' ∧
    2 * m0.tick + vs.length * (vs.length - 1) ≤ 2 * o'.m.tick := by
  have : Silent E := ⟨hE⟩
  have : Allows (fun e => e = .lengthError) .lengthError := ⟨rfl⟩
  have h : VSt (Heap.around m0 ib) E ib N ⟨SmallVector.empty ib N al, m0⟩ al ib N [] := VSt.mkEmpty (hr.gone).st hr.raw hN
  have hK := small_ok multi E ib N
  have hs := Flat.insertRange_spec L hK vs h (fun h => by cases h)
  have hf := insertRange_front L hK (small_costs multi E ib N) vs h (fun h => by cases h) List.Pairwise.nil hd
    (fun _ _ _ hx => by cases hx)
  cases hx : insertRange (small multi E ib N) C E vs ⟨SmallVector.empty ib N al, m0⟩ with
  | ok r o' =>
    obtain ⟨⟨b', cap', h1⟩, h2⟩ := wp_ok hx hf
    rw [List.append_nil] at h1
    refine ⟨o', ?_, h1.flatContents, by simpa using h2⟩
    simp only [Flat.construct, M.tryCatch, hx]
  | exn e o' =>
    obtain ⟨_, _, _, -, -, k⟩ := wp_exn hx hs
    have := k (Calm.out (L := fun e => e = .lengthError) _ _ _ hx)
    simp at this
    omega
  | ub u => exact (wp_not_ub hs hx).elim

/-- Against **C48**: so is the assignment of an initializer list (small_flat_set.md:363, small_flat_map.md:389). -/
theorem smallFlat_assign_quadratic (L : C.Lawful) (hm : Objects E ib N m0) (h : SmallFlat.Reached multi C E T ib N m0 i o)
    (hE : ∀ t, E.throws t = false) (vs : List α) (hd : C.Descending vs) (hl : vs.length ≤ E.maxSize) : ∃ r o',
    (smallImpl multi C E (ib i) N).exec (.assignList vs) o = .ok r o' ∧
    (smallImpl multi C E (ib i) N).contents o' = .ok vs.reverse o' ∧
    2 * o.m.tick + vs.length * (vs.length - 1) ≤ 2 * o'.m.tick := by
  have : Silent E := ⟨hE⟩
  have : Allows (fun e => e = .lengthError) .lengthError := ⟨rfl⟩
  obtain ⟨H, al, b, cap, xs, hv⟩ := h.repr L hm
  obtain ⟨o1, e1, h1, ht⟩ := hv.clear_run
  have hK := small_ok multi E (ib i) N
  have hs := Flat.insertRange_spec L hK vs h1 (fun h => by cases h)
  have hf := insertRange_front L hK (small_costs multi E (ib i) N) vs h1 (fun h => by cases h) List.Pairwise.nil hd
    (fun _ _ _ hx => by cases hx)
  cases hx : insertRange (small multi E (ib i) N) C E vs o1 with
  | ok r o' =>
    obtain ⟨⟨b', cap', h2⟩, h3⟩ := wp_ok hx hf
    rw [List.append_nil] at h2
    refine ⟨.unit, o', ?_, h2.flatContents, ?_⟩
    · show M.bind (M.bind Vector.clear fun _ => insertRange (small multi E (ib i) N) C E vs) (fun _ => pure Ret.unit) o = _
      simp only [M.bind, e1, hx]
      rfl
    · simp at h3; omega
  | exn e o' =>
    obtain ⟨_, _, _, -, -, k⟩ := wp_exn hx hs
    have := k (Calm.out (L := fun e => e = .lengthError) _ _ _ hx)
    simp at this
    omega
  | ub u => exact (wp_not_ub hs hx).elim

/-- Against **C48**: the range constructors of the static containers (static_flat_set.md:187, 207). -/
theorem staticFlat_range_quadratic (L : C.Lawful) {ib al : Nat} (hr : RawObject m0 ib N) (hN : N ≤ E.maxSize)
    (hE : ∀ t, E.throws t = false) (vs : List α) (hd : C.Descending vs) (hl : vs.length ≤ N) : ∃ o',
    staticConstruct multi C E (.range vs) ⟨SmallVector.empty ib N al, m0⟩ = .ok () o' ∧
    (staticImpl multi C E N).contents o' = .ok vs.reverse o' ∧
    2 * m0.tick + vs.length * (vs.length - 1) ≤ 2 * o'.m.tick := by
  have : Silent E := ⟨hE⟩
  have h : VSt (Heap.around m0 ib) E ib N ⟨SmallVector.empty ib N al, m0⟩ al ib N [] := VSt.mkEmpty (hr.gone).st hr.raw hN
  have hs := emplaceRange_spec (multi := multi) L vs h (by simpa using hl)
  have hf := emplaceRange_front (multi := multi) L vs h (by simpa using hl) List.Pairwise.nil hd (fun _ _ _ hx => by cases hx)
  cases hx : emplaceRange multi C E vs ⟨SmallVector.empty ib N al, m0⟩ with
  | ok r o' =>
    obtain ⟨h1, h2⟩ := wp_ok hx hf
    rw [List.append_nil] at h1
    refine ⟨o', ?_, h1.contents _ rfl rfl, by simpa using h2⟩
    simp only [Flat.staticConstruct, M.tryCatch, hx]
  | exn e o' => exact (Calm.out (L := fun _ => False) _ _ _ hx).elim
  | ub u => exact (wp_not_ub hs hx).elim

/-- **C47**, small ordered containers: one and a half times as much as ever was asked for. -/
theorem smallFlat_storage (L : C.Lawful) (hm : Objects E ib N m0) (h : SmallFlat.Reached multi C E T ib N m0 i o) {c' P : Nat}
    (hc : Vector.capacity o = .ok c o1)
    (hw : Asked Vector.size (smallImpl multi C E (ib i) N).exec (fun n op => op.room n) P o o')
    (hc' : Vector.capacity o' = .ok c' o2) : c' ≤ max (max c N) (P + P / 2) := by
  obtain ⟨H, al, b, cap, xs, h⟩ := h.repr L hm
  obtain rfl := h.capacity_eq hc
  have hf : SmallVector.Fit o'.obj (max (max c N) (P + P / 2)) := by
    clear hc'
    induction hw with
    | refl => exact h.dim.fit.mono (by have := h.len; omega)
    | step hw hs hp hx ih =>
      rename_i o1 o2 o3 n op
      obtain rfl := SmallVector.size_off hs
      refine SmallVector.Fit.mono (vcost.fin (P := fun v t => Lim v _ _ ∧ t ≤ _)
        (smallExec_stays (E := E) (C := C) (multi := multi) ih.dim op) hx).1.fit ?_
      have := ih.cap
      have := ih.eos
      have := ih.last
      omega
  rw [SmallVector.capacity_off hc']
  exact hf.cap

end ordered

/-! ### Unordered containers -/

section unordered
open Unord
variable {K : Nat} {multi isMap : Bool} {U : KeyEq α κ} {E : Env α} {T : Traits} {ib : Fin K → Nat} {N : Nat} {m0 : St α}
  {i : Fin K} {o o' o1 o2 : Obj Vec α} {n c : Nat}

/-- **C48**, small unordered containers: a lookup compares every element at most once, and does nothing else. -/
theorem smallUnord_lookup_work (L : U.Lawful) (hm : Objects E ib N m0)
    (h : Reached (smallCont multi isMap U E T ib N) (smallSem multi isMap U E T) m0 i o)
    (hn : Vector.size o = .ok n o1) (s : Sought α) (q : Query) (hx : (query multi U E s q o).final = some o') :
    o'.obj = o.obj ∧ o'.m.tick ≤ o.m.tick + n := by
  obtain ⟨H, al, b, cap, xs, hv⟩ := h.small hm (smallSpec L hm.fits)
  obtain rfl := hv.size_eq hn
  exact vcost.fin (P := fun v t => v = o.obj ∧ t ≤ _) (query_looks hv.dim q) hx

/-- **C48**, static unordered containers. -/
theorem staticUnord_lookup_work (L : U.Lawful) (hm : Objects E ib N m0)
    (h : Reached (staticCont multi isMap U E ib N) (staticSem multi U E N) m0 i o)
    (hn : Vector.size o = .ok n o1) (s : Sought α) (q : Query) (hx : (query multi U E s q o).final = some o') :
    o'.obj = o.obj ∧ o'.m.tick ≤ o.m.tick + n := by
  obtain ⟨H, al, xs, hv⟩ := h.static hm (staticSpec L hm.fits)
  obtain rfl := hv.size_eq hn
  exact vcost.fin (P := fun v t => v = o.obj ∧ t ≤ _) (query_looks hv.dim q) hx

/-- **C48**, small unordered containers: what a modifier costs at most (`Unord.Op.work`), whatever it throws; one more operation for each
element and the allocation if the capacity does not suffice.

Missing: single insertions into containers with unique keys are documented as constant, their range constructors and assignments as
linear; see `smallUnord_insert_linear` and `smallUnord_range_quadratic`. -/
theorem smallUnord_work_partial (L : U.Lawful) (hm : Objects E ib N m0)
    (h : Reached (smallCont multi isMap U E T ib N) (smallSem multi isMap U E T) m0 i o)
    (hn : Vector.size o = .ok n o1) (hc : Vector.capacity o = .ok c o2) (op : Unord.Op α κ)
    (hx : ((smallImpl multi isMap U E (ib i) N).exec op o).final = some o') :
    o'.m.tick ≤ o.m.tick + op.work multi n + if op.room n ≤ c then 0 else n + 1 := by
  obtain ⟨H, al, b, cap, xs, hv⟩ := h.small hm (smallSpec L hm.fits)
  obtain rfl := hv.size_eq hn
  obtain rfl := hv.capacity_eq hc
  have := (vcost.fin (P := fun v t => SmallVector.Fit v _ ∧ t ≤ _)
    (smallExec_ends (E := E) (U := U) (multi := multi) (isMap := isMap) hv.dim op) hx).2
  have e : xs.length + (c - xs.length) = c := by have := hv.len; omega
  rwa [e] at this

/-- **C48**, static unordered containers. -/
theorem staticUnord_work_partial (L : U.Lawful) (hm : Objects E ib N m0)
    (h : Reached (staticCont multi isMap U E ib N) (staticSem multi U E N) m0 i o) (hn : Vector.size o = .ok n o1)
    (op : Unord.Op α κ) (hr : op.room n ≤ N) (hx : ((staticImpl multi isMap U E N).exec op o).final = some o') :
    o'.m.tick ≤ o.m.tick + op.work multi n := by
  obtain ⟨H, al, xs, hv⟩ := h.static hm (staticSpec L hm.fits)
  obtain rfl := hv.size_eq hn
  have e : xs.length + (N - xs.length) = N := by have := hv.len; omega
  exact (vcost.fin (P := fun v t => SmallVector.Fit v _ ∧ t ≤ _)
    (staticExec_ends (E := E) (U := U) (multi := multi) (isMap := isMap) hv.dim e op hr) hx).2

/-- Against **C48**: the insertion into a set or map is documented as constant (small_unordered_flat_set.md:67), but whenever it adds an
element, it has compared the new element with all n others. -/
theorem smallUnord_insert_linear (L : U.Lawful) (hm : Objects E ib N m0)
    (h : Reached (smallCont false isMap U E T ib N) (smallSem false isMap U E T) m0 i o)
    (hn : Vector.size o = .ok n o1) (s : Sq.Src α) {k : Nat}
    (hx : (smallImpl false isMap U E (ib i) N).exec (.insert s) o = .ok (.ins k true) o') : o.m.tick + n ≤ o'.m.tick := by
  obtain ⟨H, al, b, cap, xs, hv⟩ := h.small hm (smallSpec L hm.fits)
  obtain rfl := hv.size_eq hn
  exact vcost.out (exec_insert_ge (reserve := fun _ => pure ()) (shrink := pure ()) (E := E) (U := U)
    (small_pushes isMap E (ib i) N) (small_costs false isMap E (ib i) N) hv.dim s) hx
    ⟨k, rfl⟩

/-- Against **C48**, static sets and maps. -/
theorem staticUnord_insert_linear (L : U.Lawful) (hm : Objects E ib N m0)
    (h : Reached (staticCont false isMap U E ib N) (staticSem false U E N) m0 i o)
    (hn : Vector.size o = .ok n o1) (s : Sq.Src α) {k : Nat}
    (hx : (staticImpl false isMap U E N).exec (.insert s) o = .ok (.ins k true) o') : o.m.tick + n ≤ o'.m.tick := by
  obtain ⟨H, al, xs, hv⟩ := h.static hm (staticSpec L hm.fits)
  obtain rfl := hv.size_eq hn
  exact vcost.out (exec_insert_ge (reserve := fun _ => pure ()) (shrink := pure ()) (E := E) (U := U)
    (static_pushes isMap E) (static_costs false isMap E N) hv.dim s) hx ⟨k, rfl⟩

/-- Against **C48**: the range constructors of sets and maps compare every element with all elements before it. -/
theorem smallUnord_range_quadratic {ib al : Nat} (hr : RawObject m0 ib N) (hN : N ≤ E.maxSize)
    (hE : ∀ t, E.throws t = false) (vs : List α) (hd : U.Fresh vs) (hl : vs.length ≤ E.maxSize) : ∃ o',
    Unord.construct false isMap U E ib N (.range vs) ⟨SmallVector.empty ib N al, m0⟩ = .ok () o' ∧
    (smallImpl false isMap U E ib N).contents o' = .ok vs o' ∧
    2 * m0.tick + vs.length * (vs.length - 1) ≤ 2 * o'.m.tick := by
  have : Silent E := ⟨hE⟩
  have : Allows (fun e => e = .lengthError) .lengthError := ⟨rfl⟩
  have h : VSt (Heap.around m0 ib) E ib N ⟨SmallVector.empty ib N al, m0⟩ al ib N [] := VSt.mkEmpty (hr.gone).st hr.raw hN
  have hK := small_ok false isMap E ib N
  have hs := Unord.insertRange_spec (U := U) hK vs h (fun h => by cases h)
  have hf := insertRange_fresh (U := U) hK (small_pushes isMap E ib N) vs h (fun h => by cases h) hd
  cases hx : insertRange (small false isMap E ib N) U E vs ⟨SmallVector.empty ib N al, m0⟩ with
  | ok r o' =>
    obtain ⟨⟨b', cap', h1⟩, h2⟩ := wp_ok hx hf
    rw [List.nil_append] at h1
    refine ⟨o', ?_, h1.contents _ rfl rfl, by simpa using h2⟩
    simp only [Unord.construct, M.tryCatch, hx]
  | exn e o' =>
    obtain ⟨_, _, _, -, -, k⟩ := wp_exn hx hs
    have := k (Calm.out (L := fun e => e = .lengthError) _ _ _ hx)
    simp at this
    omega
  | ub u => exact (wp_not_ub hs hx).elim

/-- Against **C48**: the assignment of an initializer list to a set or map is documented as linear (small_unordered_flat_set.md:341). -/
theorem smallUnord_assign_quadratic (L : U.Lawful) (hm : Objects E ib N m0)
    (h : Reached (smallCont false isMap U E T ib N) (smallSem false isMap U E T) m0 i o)
    (hE : ∀ t, E.throws t = false) (vs : List α) (hd : U.Fresh vs) (hl : vs.length ≤ E.maxSize) : ∃ r o',
    (smallImpl false isMap U E (ib i) N).exec (.assignList vs) o = .ok r o' ∧
    (smallImpl false isMap U E (ib i) N).contents o' = .ok vs o' ∧
    2 * o.m.tick + vs.length * (vs.length - 1) ≤ 2 * o'.m.tick := by
  have : Silent E := ⟨hE⟩
  have : Allows (fun e => e = .lengthError) .lengthError := ⟨rfl⟩
  obtain ⟨H, al, b, cap, xs, hv⟩ := h.small hm (smallSpec L hm.fits)
  obtain ⟨o1, e1, h1, ht⟩ := hv.clear_run
  have hK := small_ok false isMap E (ib i) N
  have hs := Unord.insertRange_spec (U := U) hK vs h1 (fun h => by cases h)
  have hf := insertRange_fresh (U := U) hK (small_pushes isMap E (ib i) N) vs h1 (fun h => by cases h) hd
  cases hx : insertRange (small false isMap E (ib i) N) U E vs o1 with
  | ok r o' =>
    obtain ⟨⟨b', cap', h2⟩, h3⟩ := wp_ok hx hf
    rw [List.nil_append] at h2
    refine ⟨.unit, o', ?_, h2.contents _ rfl rfl, ?_⟩
    · show M.bind (M.bind Vector.clear fun _ => insertRange (small false isMap E (ib i) N) U E vs) (fun _ => pure Flat.Ret.unit) o = _
      simp only [M.bind, e1, hx]
      rfl
    · simp at h3; omega
  | exn e o' =>
    obtain ⟨_, _, _, -, -, k⟩ := wp_exn hx hs
    have := k (Calm.out (L := fun e => e = .lengthError) _ _ _ hx)
    simp at this
    omega
  | ub u => exact (wp_not_ub hs hx).elim

/-- Against **C48**: the range constructors of the static sets and maps (static_unordered_flat_set.md:171, 191). -/
theorem staticUnord_range_quadratic (L : U.Lawful) {ib al : Nat} (hr : RawObject m0 ib N) (hN : N ≤ E.maxSize)
    (hE : ∀ t, E.throws t = false) (vs : List α) (hd : U.Fresh vs) (hl : vs.length ≤ N) : ∃ o',
    staticConstruct false isMap U E (.range vs) ⟨SmallVector.empty ib N al, m0⟩ = .ok () o' ∧
    (staticImpl false isMap U E N).contents o' = .ok vs o' ∧
    2 * m0.tick + vs.length * (vs.length - 1) ≤ 2 * o'.m.tick := by
  have : Silent E := ⟨hE⟩
  have h : VSt (Heap.around m0 ib) E ib N ⟨SmallVector.empty ib N al, m0⟩ al ib N [] := VSt.mkEmpty (hr.gone).st hr.raw hN
  have hs := emplaceRange_spec (multi := false) (isMap := isMap) L vs h (by simpa using hl)
  have hf := emplaceRange_fresh (isMap := isMap) L vs h (by simpa using hl) hd
  cases hx : emplaceRange false isMap U E vs ⟨SmallVector.empty ib N al, m0⟩ with
  | ok r o' =>
    obtain ⟨h1, h2⟩ := wp_ok hx hf
    rw [List.nil_append] at h1
    refine ⟨o', ?_, h1.contents _ rfl rfl, by simpa using h2⟩
    simp only [Unord.staticConstruct, M.tryCatch, hx]
  | exn e o' => exact (Calm.out (L := fun _ => False) _ _ _ hx).elim
  | ub u => exact (wp_not_ub hs hx).elim

/-- **C47**, small unordered containers: one and a half times as much as ever was asked for. -/
theorem smallUnord_storage (L : U.Lawful) (hm : Objects E ib N m0)
    (h : Reached (smallCont multi isMap U E T ib N) (smallSem multi isMap U E T) m0 i o) {c' P : Nat}
    (hc : Vector.capacity o = .ok c o1)
    (hw : Asked Vector.size (smallImpl multi isMap U E (ib i) N).exec (fun n op => op.room n) P o o')
    (hc' : Vector.capacity o' = .ok c' o2) : c' ≤ max (max c N) (P + P / 2) := by
  obtain ⟨H, al, b, cap, xs, h⟩ := h.small hm (smallSpec L hm.fits)
  obtain rfl := h.capacity_eq hc
  have hf : SmallVector.Fit o'.obj (max (max c N) (P + P / 2)) := by
    clear hc'
    induction hw with
    | refl => exact h.dim.fit.mono (by have := h.len; omega)
    | step hw hs hp hx ih =>
      rename_i o1 o2 o3 n op
      obtain rfl := SmallVector.size_off hs
      refine SmallVector.Fit.mono (vcost.fin (P := fun v t => SmallVector.Fit v _ ∧ t ≤ _)
        (smallExec_ends (E := E) (U := U) (multi := multi) (isMap := isMap) ih.dim op) hx).1 ?_
      have := ih.cap
      have := ih.eos
      have := ih.last
      omega
  rw [SmallVector.capacity_off hc']
  exact hf.cap

end unordered
/-! ### Non-vacuity -/

namespace Demo

/-- The operations a function spent. -/
def spent {β V : Type} (o : Obj V Nat) : Res (Obj V Nat) β → Option Nat
  | .ok _ o' | .exn _ o' => some (o'.m.tick - o.m.tick)
  | .ub _ => none

/-- A small_flat_set<int, 2> {1, …, 6}. -/
def fset6 : Obj Vec Nat :=
  after (World.runOps (Flat.smallCont false asc (env []) T ib3 2) (Flat.smallSem false asc (env []) T)
    [.make 0 7 (.range [6, 5, 4, 3, 2, 1])] ⟨fun _ => none, m3⟩) 0

theorem fset6_reached : SmallFlat.Reached false asc (env []) T ib3 2 m3 0 fset6 := reached (by decide +kernel)

/-- A static_flat_set<int, 2> {12, 17}. -/
def sset17 : Obj Vec Nat :=
  after (World.runOps (Flat.staticCont false asc (env []) ib3 2) (Flat.staticSem false asc (env []) 2)
    [.make 0 0 (.range [17, 12])] ⟨fun _ => none, m3⟩) 0

theorem sset17_reached : Reached (Flat.staticCont false asc (env []) ib3 2) (Flat.staticSem false asc (env []) 2) m3 0 sset17 :=
  reachedIn (by decide +kernel)

/-- A small_unordered_flat_set<int, 2> {6, …, 1}. -/
def uset6 : Obj Vec Nat :=
  after (World.runOps (Unord.smallCont false false ueq (env []) T ib3 2) (Unord.smallSem false false ueq (env []) T)
    [.make 0 7 (.range [6, 5, 4, 3, 2, 1])] ⟨fun _ => none, m3⟩) 0

theorem uset6_reached : Reached (Unord.smallCont false false ueq (env []) T ib3 2) (Unord.smallSem false false ueq (env []) T)
    m3 0 uset6 := reachedIn (by decide +kernel)

end Demo

open Demo

/-- `smallFlat_lookup_work` in a set of six elements: at most 2 · 3 comparisons, and six for the first element. -/
example : Nat.log2 6 + 1 = 3 ∧ Objects (env []) ib3 2 m3 ∧ SmallFlat.Reached false asc (env []) T ib3 2 m3 0 fset6 ∧
    (∃ o1, Vector.size fset6 = .ok 6 o1) ∧
    [1, 2, 3, 4, 5, 6, 7].map (fun k => spent fset6 (Flat.query false asc (env []) (asc.probe k) .equalRange fset6)) =
      [some 6, some 6, some 5, some 6, some 5, some 4, some 2] :=
  ⟨by decide +kernel, objects3 _ (by decide), fset6_reached, ok_of (by decide +kernel), by decide +kernel⟩

/-- `smallFlat_work_partial`, `smallFlat_eraseIf_quadratic`: the same set, which is full to a capacity of six. Inserting a first element costs
twelve operations, inserting a last one ten, erasing the first one nine; erasing all elements by erase_if costs 6 · 5 / 2. -/
example : (∃ o1, Vector.capacity fset6 = .ok 6 o1) ∧
    spent fset6 ((Flat.smallImpl false asc (env []) (ib3 0) 2).exec (.insert (.value 0)) fset6) = some 12 ∧
    spent fset6 ((Flat.smallImpl false asc (env []) (ib3 0) 2).exec (.insert (.value 9)) fset6) = some 10 ∧
    spent fset6 ((Flat.smallImpl false asc (env []) (ib3 0) 2).exec (.eraseKey 1) fset6) = some 9 ∧
    spent fset6 ((Flat.smallImpl false asc (env []) (ib3 0) 2).exec (.eraseIf fun _ => true) fset6) = some 15 ∧
    ∀ t, (env []).throws t = false :=
  ⟨ok_of (by decide +kernel), by decide +kernel, by decide +kernel, by decide +kernel, by decide +kernel, fun _ => rfl⟩

/-- `staticFlat_lookup_work`, `staticFlat_work_partial` and `staticFlat_eraseIf_quadratic`. -/
example : Reached (Flat.staticCont false asc (env []) ib3 2) (Flat.staticSem false asc (env []) 2) m3 0 sset17 ∧
    (∃ o1, Vector.size sset17 = .ok 2 o1) ∧ (Flat.Op.eraseKey 12 : Flat.Op Nat Nat).room 2 ≤ 2 ∧
    spent sset17 (Flat.query false asc (env []) (asc.probe 12) .equalRange sset17) = some 4 ∧
    spent sset17 ((Flat.staticImpl false asc (env []) 2).exec (.eraseKey 12) sset17) = some 4 ∧
    spent sset17 ((Flat.staticImpl false asc (env []) 2).exec (.eraseIf fun _ => true) sset17) = some 1 :=
  ⟨sset17_reached, ok_of (by decide +kernel), by decide, by decide +kernel, by decide +kernel, by decide +kernel⟩

/-- `smallFlat_range_quadratic`, `smallFlat_assign_quadratic` and `staticFlat_range_quadratic` for descending numbers. -/
example : asc.Descending [9, 7, 5, 4, 2, 1] ∧ [9, 7, 5, 4, 2, 1].length ≤ (env []).maxSize ∧ asc.Descending [9, 7] ∧
    RawObject m3 (ib3 0) 2 := by
  refine ⟨?_, by decide, ?_, ib3_raw 0⟩ <;> unfold Order.Descending <;> decide

/-- `smallUnord_lookup_work`, `smallUnord_work_partial` and `smallUnord_insert_linear`: finding nothing among six elements takes six
comparisons, inserting another one takes 14 operations with the reallocation, and erasing at a position takes one. -/
example : Reached (Unord.smallCont false false ueq (env []) T ib3 2) (Unord.smallSem false false ueq (env []) T) m3 0 uset6 ∧
    (∃ o1, Vector.size uset6 = .ok 6 o1) ∧ (∃ o1, Vector.capacity uset6 = .ok 6 o1) ∧
    spent uset6 (Unord.query false ueq (env []) (.pred fun x => x == 7) .find uset6) = some 6 ∧
    show' ((Unord.smallImpl false false ueq (env []) (ib3 0) 2).exec (.insert (.value 0)) uset6) = some (.ins 6 true) ∧
    spent uset6 ((Unord.smallImpl false false ueq (env []) (ib3 0) 2).exec (.insert (.value 0)) uset6) = some 14 ∧
    spent uset6 ((Unord.smallImpl false false ueq (env []) (ib3 0) 2).exec (.eraseAt 1) uset6) = some 1 :=
  ⟨uset6_reached, ok_of (by decide +kernel), ok_of (by decide +kernel), by decide +kernel, by decide +kernel, by decide +kernel, by decide +kernel⟩

/-- `staticUnord_lookup_work`, `staticUnord_work_partial` and `staticUnord_insert_linear`. -/
example : Reached (Unord.staticCont false true ueqT (envCopy []) ib3 2) (Unord.staticSem false ueqT (envCopy []) 2) m3 0
      (sumapOf [] [3]) ∧
    (∃ o1, Vector.size (sumapOf [] [3]) = .ok 1 o1) ∧ (Unord.Op.insert (.value 4) : Unord.Op Nat Nat).room 1 ≤ 2 ∧
    spent (sumapOf [] [3]) (Unord.query false ueqT (envCopy []) (.pred fun x => x == 7) .find (sumapOf [] [3])) = some 1 ∧
    show' ((Unord.staticImpl false true ueqT (envCopy []) 2).exec (.insert (.value 4)) (sumapOf [] [3])) = some (.ins 1 true) ∧
    spent (sumapOf [] [3]) ((Unord.staticImpl false true ueqT (envCopy []) 2).exec (.insert (.value 4)) (sumapOf [] [3])) = some 2 :=
  ⟨sumapOf_reached _ _ (by decide +kernel), ok_of (by decide +kernel), by decide, by decide +kernel, by decide +kernel, by decide +kernel⟩

/-- `smallUnord_range_quadratic`, `smallUnord_assign_quadratic` and `staticUnord_range_quadratic` for different numbers. -/
example : ueq.Fresh [3, 7, 5, 4, 2, 1] ∧ [3, 7, 5, 4, 2, 1].length ≤ (env []).maxSize ∧ ueq.Fresh [4, 7] := by
  refine ⟨?_, by decide, ?_⟩ <;> unfold KeyEq.Fresh <;> decide

/-- `smallFlat_storage`: a further element, seven in all; the capacity is nine afterwards. -/
example : ∃ o3 o' o2, Vector.size fset6 = .ok 6 o3 ∧
    Asked Vector.size (Flat.smallImpl false asc (env []) (ib3 0) 2).exec (fun n op => op.room n) 7 fset6 o' ∧
    Vector.capacity o' = .ok 9 o2 := by
  obtain ⟨o3, hs⟩ := ok_of (r := Vector.size fset6) (b := 6) (by decide +kernel)
  have hx := some_getD fset6 (x := ((Flat.smallImpl false asc (env []) (ib3 0) 2).exec (.insertRange [11]) fset6).final)
    (by decide +kernel)
  obtain ⟨o2, hc⟩ := ok_of (r := Vector.capacity (((Flat.smallImpl false asc (env []) (ib3 0) 2).exec (.insertRange [11])
    fset6).final.getD fset6)) (b := 9) (by decide +kernel)
  exact ⟨o3, _, o2, hs, .step .refl hs (by decide) hx, hc⟩

/-- `smallUnord_storage`. -/
example : ∃ o3 o' o2, Vector.size uset6 = .ok 6 o3 ∧
    Asked Vector.size (Unord.smallImpl false false ueq (env []) (ib3 0) 2).exec (fun n op => op.room n) 7 uset6 o' ∧
    Vector.capacity o' = .ok 9 o2 := by
  obtain ⟨o3, hs⟩ := ok_of (r := Vector.size uset6) (b := 6) (by decide +kernel)
  have hx := some_getD uset6 (x := ((Unord.smallImpl false false ueq (env []) (ib3 0) 2).exec (.insertRange [11]) uset6).final)
    (by decide +kernel)
  obtain ⟨o2, hc⟩ := ok_of (r := Vector.capacity (((Unord.smallImpl false false ueq (env []) (ib3 0) 2).exec (.insertRange [11])
    uset6).final.getD uset6)) (b := 9) (by decide +kernel)
  exact ⟨o3, _, o2, hs, .step .refl hs (by decide) hx, hc⟩

end Sfl
