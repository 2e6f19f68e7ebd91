import Verif.SegSim
/-
  What the operations of segmented iterators compute.
-/

namespace Sfl
namespace View
variable {σ : Type} {V : View} {t : Table}

theorem it_mk {i j : Nat} (hj : j < V.N) : V.it (i * V.N + j) = ⟨⟨V.tb, V.base + i⟩, ⟨V.sg i, j⟩⟩ := by
  have hN : 0 < V.N := by omega
  have h1 : (i * V.N + j) / V.N = i := by
    rw [Nat.add_comm, Nat.add_mul_div_right _ _ hN, Nat.div_eq_of_lt hj, Nat.zero_add]
  have h2 : (i * V.N + j) % V.N = j := by
    rw [Nat.add_comm, Nat.add_mul_mod_self_right, Nat.mod_eq_of_lt hj]
  unfold View.it View.addr
  rw [h1, h2]

theorem pos_split (V : View) (p : Nat) : p = p / V.N * V.N + p % V.N := by
  rw [Nat.mul_comm]; exact (Nat.div_add_mod p V.N).symm

/-- A slot is given by its segment and its place there. -/
theorem exists_pos (hN : 0 < V.N) {p : Nat} (hp : p < V.cap) :
    ∃ i j, p = i * V.N + j ∧ j < V.N ∧ i < V.segs.length :=
  ⟨p / V.N, p % V.N, pos_split V p, Nat.mod_lt _ hN, div_lt hN hp⟩

theorem lt_len {i j : Nat} (h : i * V.N + j < V.cap) : i < V.segs.length := by
  have : i * V.N < V.segs.length * V.N := by unfold View.cap at h; omega
  exact Nat.lt_of_mul_lt_mul_right this

theorem deref_run (ht : V.Tab t) {i : Nat} (hi : i < V.segs.length) (s : σ) :
    Seg.deref t ⟨V.tb, V.base + i⟩ s = .ok ⟨V.sg i, 0⟩ s := by
  unfold Seg.deref
  rw [if_pos ht.blk.symm]
  simp only [ht.cells i hi]

theorem shift_run {p : Ptr} {k : Int} (h : 0 ≤ (p.off : Int) + k) (s : σ) :
    Seg.shift p k s = .ok ⟨p.blk, ((p.off : Int) + k).toNat⟩ s := by
  unfold Seg.shift; rw [if_pos h]

theorem inc_run (ht : V.Tab t) (hN : 0 < V.N) {p : Nat} (hp : p + 1 < V.cap) (s : σ) :
    Seg.inc V.N t (V.it p) s = .ok (V.it (p + 1)) s := by
  obtain ⟨i, j, rfl, hj, hi⟩ := exists_pos (V := V) hN (p := p) (by omega)
  unfold Seg.inc
  rw [it_mk hj]
  dsimp only
  rw [M.bind_run, deref_run ht hi]
  dsimp only
  by_cases he : j + 1 = V.N
  · have hi' : i + 1 < V.segs.length := by
      refine lt_len (V := V) (i := i + 1) (j := 0) ?_
      rw [Nat.succ_mul]; omega
    rw [if_pos (by simp [Ptr.add, he])]
    rw [M.bind_run, show (⟨V.tb, V.base + i⟩ : Ptr).add 1 = ⟨V.tb, V.base + (i + 1)⟩ from rfl, deref_run ht hi']
    have e : i * V.N + j + 1 = (i + 1) * V.N + 0 := by rw [Nat.succ_mul]; omega
    rw [e, it_mk (by omega)]
    rfl
  · rw [if_neg (by simp [Ptr.add]; omega), Nat.add_assoc, it_mk (by omega)]
    rfl

theorem dec_run (ht : V.Tab t) (hN : 0 < V.N) {p : Nat} (hp : p + 1 < V.cap) (s : σ) :
    Seg.dec V.N t (V.it (p + 1)) s = .ok (V.it p) s := by
  obtain ⟨i, j, rfl, hj, hi⟩ := exists_pos (V := V) hN (p := p) (by omega)
  unfold Seg.dec
  by_cases he : j + 1 = V.N
  · have hi' : i + 1 < V.segs.length := by
      refine lt_len (V := V) (i := i + 1) (j := 0) ?_
      rw [Nat.succ_mul]; omega
    have e : i * V.N + j + 1 = (i + 1) * V.N + 0 := by rw [Nat.succ_mul]; omega
    rw [e, it_mk (by omega), it_mk hj]
    dsimp only
    rw [M.bind_run, deref_run ht hi']
    dsimp only
    rw [if_pos rfl, M.bind_run, shift_run (by simp only; omega)]
    dsimp only
    have e2 : ((V.base + (i + 1) : Nat) + (-1) : Int).toNat = V.base + i := by omega
    rw [e2, M.bind_run, deref_run ht hi]
    dsimp only
    rw [M.bind_run, shift_run (by simp [Ptr.add]; omega)]
    dsimp only [Ptr.add]
    have e3 : (((0 + V.N : Nat) : Int) + -1).toNat = j := by omega
    rw [e3]
    rfl
  · rw [Nat.add_assoc, it_mk (by omega), it_mk hj]
    dsimp only
    rw [M.bind_run, deref_run ht hi]
    dsimp only
    rw [if_neg (by simp), M.bind_run, shift_run (by simp only; omega)]
    dsimp only
    have e2 : (((j + 1 : Nat) : Int) + -1).toNat = j := by omega
    rw [e2]
    rfl

theorem advance_run (ht : V.Tab t) (hN : 0 < V.N) {p q : Nat} {n : Int} (hp : p < V.cap) (hq : q < V.cap)
    (he : (q : Int) = p + n) (s : σ) : Seg.advance V.N t (V.it p) n s = .ok (V.it q) s := by
  obtain ⟨i, j, rfl, hj, hi⟩ := exists_pos (V := V) hN hp
  obtain ⟨i', j', rfl, hj', hi'⟩ := exists_pos (V := V) hN hq
  have heI : (i' : Int) * V.N + j' = i * V.N + j + n := by
    have h1 : ((i' * V.N + j' : Nat) : Int) = (i' : Int) * V.N + j' := by simp
    have h2 : ((i * V.N + j : Nat) : Int) = (i : Int) * V.N + j := by simp
    rw [← h1, ← h2]; exact he
  unfold Seg.advance
  rw [it_mk hj, it_mk hj']
  dsimp only
  rw [M.bind_run, deref_run ht hi]
  dsimp only
  rw [M.bind_run, distance_run (p := ⟨V.sg i, 0⟩) (q := ⟨V.sg i, j⟩) rfl (by simp)]
  dsimp only
  rw [Nat.sub_zero]
  by_cases hc : 0 ≤ (j : Int) + n ∧ (j : Int) + n < V.N
  · rw [if_pos hc]
    have hii : i' = i := by
      have h0 : (i' : Int) * V.N + j' = i * V.N + (j + n) := by omega
      have h1 : ((i' : Int) * V.N + j') / V.N = i' := by
        rw [Int.add_comm, Int.add_mul_ediv_right _ _ (by omega), Int.ediv_eq_zero_of_lt (by omega) (by omega)]; omega
      have h2 : ((i : Int) * V.N + (j + n)) / V.N = i := by
        rw [Int.add_comm, Int.add_mul_ediv_right _ _ (by omega), Int.ediv_eq_zero_of_lt (by omega) (by omega)]; omega
      rw [h0, h2] at h1
      omega
    subst hii
    rw [M.bind_run, shift_run (by simp only; omega)]
    have : ((j : Int) + n).toNat = j' := by omega
    dsimp only
    rw [this]
    rfl
  · rw [if_neg hc]
    have hso : (if (j : Int) + n > 0 then ((j : Int) + n) / V.N else -((-((j : Int) + n) - 1) / V.N) - 1) = (i' : Int) - i := by
      have hoff : (j : Int) + n = ((i' : Int) - i) * V.N + j' := by rw [Int.sub_mul]; omega
      split
      · rw [hoff, Int.add_comm, Int.add_mul_ediv_right _ _ (by omega), Int.ediv_eq_zero_of_lt (by omega) (by omega)]; omega
      · have : -((j : Int) + n) - 1 = ((V.N : Int) - 1 - j') + (((i : Int) - i') - 1) * V.N := by
          rw [hoff, Int.sub_mul, Int.sub_mul, Int.sub_mul]; omega
        rw [this, Int.add_mul_ediv_right _ _ (by omega), Int.ediv_eq_zero_of_lt (by omega) (by omega)]
        omega
    rw [hso, M.bind_run, shift_run (by simp only; omega)]
    dsimp only
    have e1 : (((V.base + i : Nat) : Int) + (↑i' - ↑i)).toNat = V.base + i' := by omega
    rw [e1, M.bind_run, deref_run ht hi']
    dsimp only
    have e2 : (j : Int) + n - ((i' : Int) - i) * V.N = j' := by rw [Int.sub_mul]; omega
    rw [e2, M.bind_run, shift_run (by simp only; omega)]
    simp
    rfl

theorem diff_run (ht : V.Tab t) (hN : 0 < V.N) {p q : Nat} (hp : p < V.cap) (hq : q < V.cap) (s : σ) :
    Seg.diff V.N t (V.it p) (V.it q) s = .ok ((p : Int) - q) s := by
  obtain ⟨i, j, rfl, hj, hi⟩ := exists_pos (V := V) hN hp
  obtain ⟨i', j', rfl, hj', hi'⟩ := exists_pos (V := V) hN hq
  unfold Seg.diff
  rw [it_mk hj, it_mk hj']
  dsimp only
  have run : ∀ {a b c : Nat} (s : σ), Seg.ptrDiff ⟨a, b⟩ ⟨a, c⟩ s = .ok ((b : Int) - c) s := by
    intro a b c s; unfold Seg.ptrDiff; rw [if_pos rfl]
  rw [M.bind_run, run]
  dsimp only
  rw [M.bind_run, deref_run ht hi]
  dsimp only
  rw [M.bind_run, run]
  dsimp only
  rw [M.bind_run, deref_run ht hi']
  dsimp only
  rw [M.bind_run, run]
  dsimp only
  show Res.ok _ s = _
  congr 1
  have e : ((V.base + i : Nat) : Int) - ((V.base + i' : Nat) : Int) = (i : Int) - i' := by omega
  rw [e, Int.sub_mul]
  have h1 : ((i' * V.N + j' : Nat) : Int) = (i' : Int) * V.N + j' := by simp
  have h2 : ((i * V.N + j : Nat) : Int) = (i : Int) * V.N + j := by simp
  rw [h1, h2]
  omega

theorem dist_run (ht : V.Tab t) (hN : 0 < V.N) {p q : Nat} (hpq : p ≤ q) (hq : q < V.cap) (s : σ) :
    Seg.dist V.N t (V.it p) (V.it q) s = .ok (q - p) s := by
  unfold Seg.dist
  rw [M.bind_run, diff_run ht hN hq (by omega)]
  dsimp only
  rw [if_pos (by omega)]
  show Res.ok _ s = _
  congr 1
  omega

theorem eq_it (hd : V.segs.Nodup) (hN : 0 < V.N) {p q : Nat} (hp : p < V.cap) (hq : q < V.cap) :
    Seg.eq (V.it p) (V.it q) = decide (p = q) := by
  unfold Seg.eq
  rw [decide_eq_decide]
  constructor
  · intro h; exact addr_inj hd hN hp hq h
  · rintro rfl; rfl

theorem lt_it (hN : 0 < V.N) {p q : Nat} (hp : p < V.cap) (hq : q < V.cap) :
    Seg.lt (V.it p) (V.it q) = decide (p < q) := by
  obtain ⟨i, j, rfl, hj, hi⟩ := exists_pos (V := V) hN hp
  obtain ⟨i', j', rfl, hj', hi'⟩ := exists_pos (V := V) hN hq
  unfold Seg.lt
  rw [it_mk hj, it_mk hj']
  dsimp only
  by_cases he : i = i'
  · subst he
    rw [if_pos rfl, decide_eq_decide]
    omega
  · rw [if_neg (by simpa using he), decide_eq_decide]
    constructor
    · intro h
      have : (i + 1) * V.N ≤ i' * V.N := Nat.mul_le_mul_right _ (by omega)
      rw [Nat.succ_mul] at this
      omega
    · intro h
      by_cases h' : i < i'
      · omega
      · have : (i' + 1) * V.N ≤ i * V.N := Nat.mul_le_mul_right _ (by omega)
        rw [Nat.succ_mul] at this
        omega

theorem compose_run (ht : V.Tab t) {i j : Nat} (hj : j ≤ V.N) (hN : 0 < V.N) (hc : i * V.N + j < V.cap) (s : σ) :
    Seg.compose V.N t ⟨V.tb, V.base + i⟩ ⟨V.sg i, j⟩ s = .ok (V.it (i * V.N + j)) s := by
  unfold Seg.compose
  rw [M.bind_run, deref_run ht (lt_len hc)]
  dsimp only
  rw [M.bind_run]
  unfold M.assert
  rw [if_pos (by refine ⟨rfl, by omega, by omega⟩)]
  dsimp only
  by_cases he : j = V.N
  · have hi' : i + 1 < V.segs.length := by
      refine lt_len (V := V) (i := i + 1) (j := 0) ?_
      rw [Nat.succ_mul]; omega
    rw [if_pos (by simp [Ptr.add, he])]
    rw [M.bind_run, show (⟨V.tb, V.base + i⟩ : Ptr).add 1 = ⟨V.tb, V.base + (i + 1)⟩ from rfl, deref_run ht hi']
    have e : i * V.N + j = (i + 1) * V.N + 0 := by rw [Nat.succ_mul]; omega
    rw [e, it_mk (by omega)]
    rfl
  · rw [if_neg (by simp [Ptr.add]; omega), it_mk (by omega)]
    rfl

end View
end Sfl
