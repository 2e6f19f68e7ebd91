import Verif.Devector
import Verif.OwnMove
/-
  The steps of devector's insertion algorithms, as seen on one block of memory: which slots hold elements, and what
  they hold. (Helper lemmas.)
-/

namespace Sfl.Devector
open Sfl
variable {α : Type} {E : Env α} {H : Heap α} {al b cap nx : Nat} {X : Exn → St α → Prop}

theorem wp_guard {σ β : Type} {c : M σ Unit} {m : M σ β} {Q : β → σ → Prop} {X : Exn → σ → Prop} {s : σ} :
    wp (guard c m) Q X s = wp m Q (fun e s' => wp c (fun _ s'' => X e s'') X s') s := by
  unfold guard
  rw [wp_tryCatch]
  simp only [wp_bind, wp_throw]

/-- Memory `s` is the foreign memory `H` and block `b` with `cap` slots, of which exactly those in `L` hold an element;
the next block to be allocated is `nx`. The internal block (`ib`, of `N` slots) is absent in devector. -/
structure Row (H : Heap α) (s : St α) (al b cap nx : Nat) (L : Nat → Prop) (ib N : Nat := 0) : Prop where
  st : Store H s al ib N b cap
  next : s.next = nx
  live : ∀ i, (s.mem b i).isSome ↔ L i

variable {ib N : Nat}

theorem Row.congr {s : St α} {L L' : Nat → Prop} (h : Row H s al b cap nx L ib N) (he : ∀ i, L' i ↔ L i) :
    Row H s al b cap nx L' ib N := ⟨h.st, h.next, fun i => (h.live i).trans (he i).symm⟩

theorem Row.raw {s : St α} {L : Nat → Prop} (h : Row H s al b cap nx L ib N) {i : Nat} (hi : ¬ L i) : s.mem b i = none := by
  have := h.live i
  cases hm : s.mem b i with
  | none => rfl
  | some v => rw [hm] at this; exact absurd (this.mp rfl) hi

/-- Everything outside block `b` as before, and nothing beyond `cap`. -/
theorem Row.upd {s s' : St α} {L L' : Nat → Prop} (h : Row H s al b cap nx L ib N) (hs : Same s s')
    (hL : ∀ i, (s'.mem b i).isSome ↔ L' i) (hr : ∀ i, cap ≤ i → ¬ L' i)
    (hf : ∀ c, c ≠ b → ∀ i, s'.mem c i = s.mem c i) : Row H s' al b cap nx L' ib N := by
  refine ⟨h.st.upd hs ?_ hf, by rw [hs.next]; exact h.next, hL⟩
  intro i hi
  have := hL i
  cases hm : s'.mem b i with
  | none => rfl
  | some v => rw [hm] at this; exact absurd (this.mp rfl) (hr i hi)

theorem Row.beyond {s : St α} {L : Nat → Prop} (h : Row H s al b cap nx L ib N) (i : Nat) (hi : cap ≤ i) : ¬ L i := by
  intro hl
  have := (h.live i).mpr hl
  rw [h.st.beyond i hi] at this; cases this

variable {s : St α} {L : Nat → Prop}

theorem Row.uninitMove {x y d : Nat} {Q : Ptr → St α → Prop} (h : Row H s al b cap nx L ib N)
    (hxy : x ≤ y) (hs : ∀ i, x ≤ i → i < y → L i) (hd : d + (y - x) ≤ cap)
    (hr : ∀ i, d ≤ i → i < d + (y - x) → ¬ L i)
    (hQ : ∀ s', Row H s' al b cap nx (fun i => L i ∨ (d ≤ i ∧ i < d + (y - x))) ib N →
      (∀ i, s'.mem b i = if d ≤ i ∧ i < d + (y - x) then s.mem b (x + (i - d))
        else if x ≤ i ∧ i < y then (s.mem b i).map E.moved else s.mem b i) → Q ⟨b, d + (y - x)⟩ s')
    (hX : E.nothrowMoveCtor = false → ∀ s', Row H s' al b cap nx L ib N → X .elem s') :
    wp (uninitMove E ⟨b, x⟩ ⟨b, y⟩ ⟨b, d⟩) Q X s := by
  unfold Sfl.uninitMove
  refine wp_uninit_range mkOk_mv (n := y - x) rfl (by simp; omega) ?_ ?_ ?_ ?_ ?_
  · intro i h1 h2; exact (h.live i).mpr (hs i h1 h2)
  · intro j hj; exact h.st.inB (by simp; omega)
  · intro i h1 h2; exact h.raw (hr i h1 h2)
  · intro s' hsame _ hm
    have hm' : ∀ i, s'.mem b i = if d ≤ i ∧ i < d + (y - x) then s.mem b (x + (i - d))
        else if x ≤ i ∧ i < y then (s.mem b i).map E.moved else s.mem b i := by
      intro i
      rw [hm]
      have e : (x ≤ i ∧ i < x + (y - x)) ↔ (x ≤ i ∧ i < y) := by omega
      simp only [Ptr.has, true_and, e]
    refine hQ s' (h.upd hsame ?_ ?_ ?_) hm'
    · intro i
      rw [hm' i]
      split
      · rename_i hc
        have := (h.live (x + (i - d))).mpr (hs _ (by omega) (by omega))
        simp [this, hc]
      · rename_i hc
        split
        · simp [hc, h.live i]
        · simp [hc, h.live i]
    · intro i hi
      have := h.beyond i hi
      simp only [this, false_or]; omega
    · intro c hc i
      rw [hm]; simp only [Ptr.has, hc, false_and, and_false, if_false]
  · intro ht s' hsame hm
    refine hX (ht rfl) s' (h.upd hsame ?_ h.beyond ?_)
    · intro i
      rcases hm b i with h1 | ⟨_, h1, h2⟩
      · rw [h1]; exact h.live i
      · simp only [h2, true_iff]
        simp only [Ptr.has, true_and] at h1
        exact hs i (by omega) (by omega)
    · intro c hc i
      rcases hm c i with h1 | ⟨_, h1, h2⟩
      · exact h1
      · exact absurd h1.1 hc

theorem Row.moveFwd {x y d : Nat} {Q : Ptr → St α → Prop} (h : Row H s al b cap nx L ib N)
    (hxy : x ≤ y) (hs : ∀ i, x ≤ i → i < y → L i) (hl : ∀ i, d ≤ i → i < d + (y - x) → L i)
    (hdir : d < x ∨ y ≤ d)
    (hQ : ∀ s', Row H s' al b cap nx L ib N →
      (∀ i, s'.mem b i = if d ≤ i ∧ i < d + (y - x) then s.mem b (x + (i - d))
        else if x ≤ i ∧ i < y then (s.mem b i).map E.moved else s.mem b i) → Q ⟨b, d + (y - x)⟩ s')
    (hX : E.nothrowMoveAssign = false → ∀ s', Row H s' al b cap nx L ib N → X .elem s') :
    wp (moveFwd E ⟨b, x⟩ ⟨b, y⟩ ⟨b, d⟩) Q X s := by
  refine wp_moveFwd (n := y - x) rfl (by simp; omega) ?_ ?_ (by right; simp; omega) ?_ ?_
  · intro i h1 h2; exact (h.live i).mpr (hs i h1 h2)
  · intro i h1 h2; exact (h.live i).mpr (hl i h1 h2)
  · intro s' hsame _ hm
    have hm' : ∀ i, s'.mem b i = if d ≤ i ∧ i < d + (y - x) then s.mem b (x + (i - d))
        else if x ≤ i ∧ i < y then (s.mem b i).map E.moved else s.mem b i := by
      intro i
      rw [hm]
      have e : (x ≤ i ∧ i < x + (y - x)) ↔ (x ≤ i ∧ i < y) := by omega
      simp only [Ptr.has, true_and, e]
    refine hQ s' (h.upd hsame ?_ h.beyond ?_) hm'
    · intro i
      rw [hm' i]
      split
      · rename_i hc
        have := (h.live (x + (i - d))).mpr (hs _ (by omega) (by omega))
        simp [this, hl i hc.1 hc.2]
      · split
        · simp [h.live i]
        · exact h.live i
    · intro c hc i
      rw [hm]; simp only [Ptr.has, hc, false_and, if_false]
  · intro ht s' hsame hm
    refine hX ht s' (h.upd hsame ?_ h.beyond ?_)
    · intro i
      have := hm b i
      simp only [Ptr.has, true_and] at this
      split at this
      · rename_i hc
        simp only [this, true_iff]
        rcases hc with hc | hc
        · exact hl i hc.1 hc.2
        · exact hs i hc.1 (by omega)
      · rw [this]; exact h.live i
    · intro c hc i
      have := hm c i
      simp only [Ptr.has, hc, false_and, or_self, if_false] at this
      exact this

/-- `move_backward([x, y), z)`: the destination is `[z - (y - x), z)`. -/
theorem Row.moveBackward {x y z : Nat} {Q : Ptr → St α → Prop} (h : Row H s al b cap nx L ib N)
    (hxy : x ≤ y) (hz : y - x ≤ z) (hs : ∀ i, x ≤ i → i < y → L i) (hl : ∀ i, z - (y - x) ≤ i → i < z → L i)
    (hdir : y < z ∨ z ≤ x)
    (hQ : ∀ s', Row H s' al b cap nx L ib N →
      (∀ i, s'.mem b i = if z - (y - x) ≤ i ∧ i < z then s.mem b (x + (i - (z - (y - x))))
        else if x ≤ i ∧ i < y then (s.mem b i).map E.moved else s.mem b i) → Q ⟨b, z - (y - x)⟩ s')
    (hX : E.nothrowMoveAssign = false → ∀ s', Row H s' al b cap nx L ib N → X .elem s') :
    wp (moveBackward E ⟨b, x⟩ ⟨b, y⟩ ⟨b, z⟩) Q X s := by
  refine wp_moveBackward (n := y - x) (q := ⟨b, z - (y - x)⟩) rfl (by simp; omega)
    (by simp only [Ptr.add, Ptr.mk.injEq, true_and]; omega) ?_ ?_ (by right; simp; omega) ?_ ?_
  · intro i h1 h2; exact (h.live i).mpr (hs i h1 h2)
  · intro i h1 h2; simp only at h1 h2; exact (h.live i).mpr (hl i h1 (by omega))
  · intro s' hsame _ hm
    have hm' : ∀ i, s'.mem b i = if z - (y - x) ≤ i ∧ i < z then s.mem b (x + (i - (z - (y - x))))
        else if x ≤ i ∧ i < y then (s.mem b i).map E.moved else s.mem b i := by
      intro i
      rw [hm]
      have e : (x ≤ i ∧ i < x + (y - x)) ↔ (x ≤ i ∧ i < y) := by omega
      have e2 : (z - (y - x) ≤ i ∧ i < z - (y - x) + (y - x)) ↔ (z - (y - x) ≤ i ∧ i < z) := by omega
      simp only [Ptr.has, true_and, e, e2]
    refine hQ s' (h.upd hsame ?_ h.beyond ?_) hm'
    · intro i
      rw [hm' i]
      split
      · rename_i hc
        have := (h.live (x + (i - (z - (y - x))))).mpr (hs _ (by omega) (by omega))
        simp [this, hl i hc.1 hc.2]
      · split
        · simp [h.live i]
        · exact h.live i
    · intro c hc i
      rw [hm]; simp only [Ptr.has, hc, false_and, if_false]
  · intro ht s' hsame hm
    refine hX ht s' (h.upd hsame ?_ h.beyond ?_)
    · intro i
      have := hm b i
      simp only [Ptr.has, true_and] at this
      split at this
      · rename_i hc
        simp only [this, true_iff]
        rcases hc with hc | hc
        · exact hl i hc.1 (by omega)
        · exact hs i hc.1 (by omega)
      · rw [this]; exact h.live i
    · intro c hc i
      have := hm c i
      simp only [Ptr.has, hc, false_and, or_self, if_false] at this
      exact this

theorem Row.destroy {x y : Nat} {Q : Unit → St α → Prop} (h : Row H s al b cap nx L ib N)
    (hxy : x ≤ y) (hs : ∀ i, x ≤ i → i < y → L i)
    (hQ : ∀ s', Row H s' al b cap nx (fun i => L i ∧ ¬ (x ≤ i ∧ i < y)) ib N →
      (∀ i, s'.mem b i = if x ≤ i ∧ i < y then none else s.mem b i) → Q () s') :
    wp (destroyRange ⟨b, x⟩ ⟨b, y⟩) Q X s := by
  refine wp_destroyRange rfl hxy (fun k h1 h2 => (h.live k).mpr (hs k h1 h2)) ?_
  intro s' hsame _ hm
  have hm' : ∀ i, s'.mem b i = if x ≤ i ∧ i < y then none else s.mem b i := by
    intro i
    rw [hm]
    have e : (x ≤ i ∧ i < x + (y - x)) ↔ (x ≤ i ∧ i < y) := by omega
    simp only [Ptr.has, true_and, e]
  refine hQ s' (h.upd hsame ?_ ?_ ?_) hm'
  · intro i
    rw [hm' i]
    split
    · rename_i hc; simp [hc]
    · rename_i hc; simp [hc, h.live i]
  · intro i hi hc; exact h.beyond i hi hc.1
  · intro c hc i
    rw [hm]; simp only [Ptr.has, hc, false_and, if_false]

theorem Row.destroyN {x n : Nat} {Q : Unit → St α → Prop} (h : Row H s al b cap nx L ib N)
    (hs : ∀ i, x ≤ i → i < x + n → L i)
    (hQ : ∀ s', Row H s' al b cap nx (fun i => L i ∧ ¬ (x ≤ i ∧ i < x + n)) ib N →
      (∀ i, s'.mem b i = if x ≤ i ∧ i < x + n then none else s.mem b i) → Q () s') :
    wp (destroyN ⟨b, x⟩ n) Q X s := by
  have : (Sfl.destroyN ⟨b, x⟩ n : M (St α) Unit) = destroyRange ⟨b, x⟩ ⟨b, x + n⟩ := by
    funext s
    simp [destroyRange, distance, bind, M.bind]
  rw [this]
  exact h.destroy (by omega) hs hQ

theorem Row.fresh {s' : St α} (h : Row H s al b cap nx L ib N) (hs : Same s s') (hm : s'.mem = s.mem) :
    Row H s' al b cap nx L ib N :=
  h.upd hs (fun i => by rw [hm]; exact h.live i) h.beyond (fun c _ i => by rw [hm])

/-- Constructing in raw slots from arguments that are read. -/
theorem Row.uninitR {as : List (Arg α)} {vs : List α} {d : Nat} {Q : Ptr → St α → Prop} (h : Row H s al b cap nx L ib N)
    (hv : as.map (Arg.value s) = vs.map some) (hsrc : ∀ a ∈ as, a.src E = none)
    (hd : d + vs.length ≤ cap) (hr : ∀ i, d ≤ i → i < d + vs.length → ¬ L i)
    (hQ : ∀ s', Row H s' al b cap nx (fun i => L i ∨ (d ≤ i ∧ i < d + vs.length)) ib N →
      (∀ i, s'.mem b i = if d ≤ i ∧ i < d + vs.length then vs[i - d]? else s.mem b i) →
      Q ⟨b, d + vs.length⟩ s')
    (hX : ∀ s', Row H s' al b cap nx L ib N → s'.mem = s.mem → X .elem s') :
    wp (uninit E ⟨b, d⟩ as) Q X s := by
  have hlen : as.length = vs.length := by simpa using congrArg List.length hv
  refine wp_uninit_copy hv hsrc ?_ ?_ ?_ ?_
  · intro j hj; exact h.st.inB (by simp; omega)
  · intro j hj; exact h.raw (hr _ (by simp) (by simp; omega))
  · intro s' hsame _ hm
    rw [hlen] at hm ⊢
    have hm' : ∀ i, s'.mem b i = if d ≤ i ∧ i < d + vs.length then vs[i - d]? else s.mem b i := by
      intro i; rw [hm]; simp only [Ptr.has, true_and]
    refine hQ s' (h.upd hsame ?_ ?_ ?_) hm'
    · intro i
      rw [hm' i]
      split
      · rename_i hc
        rw [List.getElem?_eq_getElem (by omega)]; simp [hc]
      · rename_i hc; simp [hc, h.live i]
    · intro i hi
      have := h.beyond i hi
      simp only [this, false_or]; omega
    · intro c hc i
      rw [hm]; simp only [Ptr.has, hc, false_and, if_false]
  · intro s' hsame hm; exact hX s' (h.fresh hsame hm) hm

/-- Constructing from external arguments in raw slots. -/
theorem Row.uninit {as : List (Arg α)} {vs : List α} {d : Nat} {Q : Ptr → St α → Prop} (h : Row H s al b cap nx L ib N)
    (hx : Exts H E as vs) (hd : d + vs.length ≤ cap) (hr : ∀ i, d ≤ i → i < d + vs.length → ¬ L i)
    (hQ : ∀ s', Row H s' al b cap nx (fun i => L i ∨ (d ≤ i ∧ i < d + vs.length)) ib N →
      (∀ i, s'.mem b i = if d ≤ i ∧ i < d + vs.length then vs[i - d]? else s.mem b i) →
      Q ⟨b, d + vs.length⟩ s')
    (hX : ∀ s', Row H s' al b cap nx L ib N → s'.mem = s.mem → X .elem s') :
    wp (uninit E ⟨b, d⟩ as) Q X s :=
  h.uninitR (hx.val s h.st.agree) hx.src hd hr hQ hX

/-- Assigning external arguments to live slots. -/
theorem Row.assignGo {as : List (Arg α)} {vs : List α} {d : Nat} {Q : Ptr → St α → Prop} (h : Row H s al b cap nx L ib N)
    (hx : Exts H E as vs) (hl : ∀ i, d ≤ i → i < d + vs.length → L i)
    (hQ : ∀ s', Row H s' al b cap nx L ib N →
      (∀ i, s'.mem b i = if d ≤ i ∧ i < d + vs.length then vs[i - d]? else s.mem b i) →
      Q ⟨b, d + vs.length⟩ s')
    (hX : ∀ s', Row H s' al b cap nx L ib N → X .elem s') :
    wp (assignGo E ⟨b, d⟩ as) Q X s := by
  have hlen := hx.length
  refine wp_assignGo_copy (hx.val s h.st.agree) hx.src ?_ ?_ ?_ ?_
  · intro a ha s' hs'
    refine hx.stable h.st.agree ?_ a ha
    intro c i hc
    rw [hs']
    · exact h.st.agree c i hc
    · intro hh; exact hc (hh.1 ▸ h.st.hblk)
  · intro i h1 h2; rw [hlen] at h2; exact (h.live i).mpr (hl i h1 h2)
  · intro s' hsame _ hm
    rw [hlen] at hm ⊢
    have hm' : ∀ i, s'.mem b i = if d ≤ i ∧ i < d + vs.length then vs[i - d]? else s.mem b i := by
      intro i; rw [hm]; simp only [Ptr.has, true_and]
    refine hQ s' (h.upd hsame ?_ h.beyond ?_) hm'
    · intro i
      rw [hm' i]
      split
      · rename_i hc
        rw [List.getElem?_eq_getElem (by omega)]; simp [hl i hc.1 hc.2]
      · exact h.live i
    · intro c hc i
      rw [hm]; simp only [Ptr.has, hc, false_and, if_false]
  · intro s' hsame hm
    rw [hlen] at hm
    refine hX s' (h.upd hsame ?_ h.beyond ?_)
    · intro i
      have := hm b i
      simp only [Ptr.has, true_and] at this
      split at this
      · rename_i hc; simp only [this, true_iff]; exact hl i hc.1 hc.2
      · rw [this]; exact h.live i
    · intro c hc i
      have := hm c i
      simp only [Ptr.has, hc, false_and, if_false] at this
      exact this

/-- Construction from a temporary. -/
theorem construct_rv {p : Ptr} {v : α} {Q : Unit → St α → Prop} {s : St α} (hb : s.inB p = true)
    (hr : s.mem p.blk p.off = none)
    (hQ : ∀ s', Same s s' → (∀ b k, s'.mem b k = if b = p.blk ∧ k = p.off then some v else s.mem b k) → Q () s')
    (hX : E.nothrowMoveCtor = false → ∀ s', Same s s' → s'.mem = s.mem → X .elem s') :
    wp (construct E p (.rv v)) Q X s := by
  unfold wp construct
  simp only [Arg.value, hb, hr, Arg.src, Arg.isRv]
  by_cases ht : E.throws s.tick && !(true && E.nothrowMoveCtor)
  · simp only [ht]; exact hX (by simp at ht; exact ht.2) _ ⟨rfl, rfl⟩ rfl
  · simp only [ht]; exact hQ _ ⟨rfl, rfl⟩ (fun b k => rfl)

theorem mkTmp_rv {v : α} {Q : α → St α → Prop} {s : St α}
    (hQ : ∀ s', Same s s' → s'.mem = s.mem → Q v s')
    (hX : E.nothrowMoveCtor = false → ∀ s', Same s s' → s'.mem = s.mem → X .elem s') :
    wp (mkTmp E (.rv v)) Q X s := by
  unfold wp mkTmp
  simp only [Arg.value, Arg.src, Arg.isRv]
  by_cases ht : E.throws s.tick && !(true && E.nothrowMoveCtor)
  · simp only [ht]; exact hX (by simp at ht; exact ht.2) _ ⟨rfl, rfl⟩ rfl
  · simp only [ht]; exact hQ _ ⟨rfl, rfl⟩ rfl

/-! ### Proxies -/

/-- The proxy has the values `vs` to insert. (`one` says that it is the proxy of emplace.) -/
def Proxy.Has (H : Heap α) (E : Env α) (px : Proxy α) (vs : List α) : Prop :=
  match px with
  | .one v => vs = [v] ∨ vs = []
  | .fill a => ∃ v, Exts H E [a] [v] ∧ vs = List.replicate vs.length v
  | .range as => Exts H E as vs

/-- The proxy of emplace. -/
def Proxy.isOne : Proxy α → Bool
  | .one _ => true
  | _ => false

theorem Exts.replicate {a : Arg α} {v : α} (h : Exts H E [a] [v]) (n : Nat) :
    Exts H E (List.replicate n a) (List.replicate n v) := by
  refine ⟨fun x hx => ?_, fun s hs => ?_⟩
  · rw [List.eq_of_mem_replicate hx]; exact h.src a (by simp)
  · have := h.val s hs; simp at this; simp [this]

theorem Proxy.Has.uninit {px : Proxy α} {vs : List α} {d n : Nat} {Q : Ptr × Proxy α → St α → Prop}
    (hp : px.Has H E vs) (h : Row H s al b cap nx L) (hn : n ≤ vs.length) (hd : d + n ≤ cap)
    (hr : ∀ i, d ≤ i → i < d + n → ¬ L i)
    (hQ : ∀ s' px', px'.Has H E (vs.drop n) → px'.isOne = px.isOne →
      Row H s' al b cap nx (fun i => L i ∨ (d ≤ i ∧ i < d + n)) →
      (∀ i, s'.mem b i = if d ≤ i ∧ i < d + n then vs[i - d]? else s.mem b i) → Q (⟨b, d + n⟩, px') s')
    (hX : (px.isOne = true → E.nothrowMoveCtor = false) → ∀ s', Row H s' al b cap nx L → X .elem s') :
    wp (px.uninitInsertN E ⟨b, d⟩ n) Q X s := by
  have key : ∀ as, Exts H E as (vs.take n) → px.isOne = false →
      wp (Sfl.uninit E ⟨b, d⟩ as) (fun p s' => p = ⟨b, d + n⟩ ∧ ∀ px', px'.Has H E (vs.drop n) → px'.isOne = px.isOne →
        Q (⟨b, d + n⟩, px') s') X s := by
    intro as has hone
    have hl : (vs.take n).length = n := by simp; omega
    refine h.uninit has (by omega) (fun i h1 h2 => hr i h1 (by omega)) ?_ ?_
    · intro s' hrow hm
      rw [hl] at hrow hm ⊢
      refine ⟨rfl, fun px' h1 h2 => hQ s' px' h1 h2 hrow ?_⟩
      intro i; rw [hm i]
      split
      · rename_i hc; rw [List.getElem?_take, if_pos (by omega)]
      · rfl
    · intro s' hrow _; exact hX (by rw [hone]; intro h; cases h) s' hrow
  cases px with
  | one v =>
    unfold Proxy.uninitInsertN
    rw [wp_ite]
    split
    · subst n
      rw [wp_pure]
      refine hQ s (.one v) (by simpa using hp) rfl (h.congr (fun i => by simp; omega)) (fun i => ?_)
      rw [if_neg (by omega)]
    · rename_i hn0
      have hvs : vs = [v] := by
        rcases hp with h | h
        · exact h
        · subst h; simp at hn; omega
      subst hvs
      obtain rfl : n = 1 := by simp at hn; omega
      rw [wp_bind, wp_assert]
      refine ⟨rfl, ?_⟩
      rw [wp_bind]
      refine construct_rv (v := v) (h.st.inB (by omega)) (h.raw (hr d (by omega) (by omega))) ?_ ?_
      · intro s' hsame hm
        rw [wp_pure]
        have hm' : ∀ i, s'.mem b i = if d ≤ i ∧ i < d + 1 then [v][i - d]? else s.mem b i := by
          intro i
          rw [hm]
          have e : (i = d) ↔ (d ≤ i ∧ i < d + 1) := by omega
          simp only [true_and, e]
          split
          · rename_i hc
            obtain rfl : i = d := by omega
            simp
          · rfl
        refine hQ s' _ (Or.inr rfl) rfl (h.upd hsame ?_ ?_ ?_) hm'
        · intro i
          rw [hm' i]
          split
          · rename_i hc
            rw [List.getElem?_eq_getElem (by simp; omega)]; simp [hc]
          · rename_i hc; simp [hc, h.live i]
        · intro i hi
          have := h.beyond i hi
          simp only [this, false_or]; omega
        · intro c hc i
          rw [hm]; simp only [hc, false_and, if_false]
      · intro ht s' hsame hm
        exact hX (fun _ => ht) s' (h.fresh hsame hm)
  | fill a =>
    obtain ⟨v, hv, hvs⟩ := hp
    unfold Proxy.uninitInsertN uninitFill
    simp only
    rw [wp_bind, wp_bind]
    refine wp_distance rfl (by simp) ?_
    simp only [Ptr.add_off, Nat.add_sub_cancel_left]
    rw [wp_bind]
    refine wp_mono (key (List.replicate n a)
      (by rw [hvs, List.take_replicate, Nat.min_eq_left hn]; exact Exts.replicate hv n) rfl) ?_ (fun _ _ h => h)
    rintro p s' ⟨-, hk⟩
    rw [wp_pure, wp_pure]
    exact hk _ ⟨v, hv, by rw [hvs, List.drop_replicate]; simp⟩ rfl
  | range as =>
    unfold Proxy.uninitInsertN
    have hlen : as.length = vs.length := Exts.length hp
    simp only
    rw [if_pos (by omega), wp_bind]
    refine wp_mono (key _ (Exts.take hp n) rfl) ?_ (fun _ _ h => h)
    rintro p s' ⟨rfl, hk⟩
    exact hk _ (Exts.drop hp n) rfl

theorem Proxy.Has.insert {px : Proxy α} {vs : List α} {d n : Nat} {Q : Ptr × Proxy α → St α → Prop}
    (hp : px.Has H E vs) (h : Row H s al b cap nx L) (hn : n ≤ vs.length)
    (hr : ∀ i, d ≤ i → i < d + n → L i)
    (hQ : ∀ s' px', px'.Has H E (vs.drop n) → px'.isOne = px.isOne →
      Row H s' al b cap nx L →
      (∀ i, s'.mem b i = if d ≤ i ∧ i < d + n then vs[i - d]? else s.mem b i) → Q (⟨b, d + n⟩, px') s')
    (hX : (px.isOne = true → ¬ NothrowMove E) → ∀ s', Row H s' al b cap nx L → X .elem s') :
    wp (px.insertN E ⟨b, d⟩ n) Q X s := by
  have key : ∀ as, Exts H E as (vs.take n) → px.isOne = false →
      wp (Sfl.assignGo E ⟨b, d⟩ as) (fun p s' => p = ⟨b, d + n⟩ ∧ ∀ px', px'.Has H E (vs.drop n) → px'.isOne = px.isOne →
        Q (⟨b, d + n⟩, px') s') X s := by
    intro as has hone
    have hl : (vs.take n).length = n := by simp; omega
    refine h.assignGo has (fun i h1 h2 => hr i h1 (by omega)) ?_ ?_
    · intro s' hrow hm
      rw [hl] at  hm ⊢
      refine ⟨rfl, fun px' h1 h2 => hQ s' px' h1 h2 hrow ?_⟩
      intro i; rw [hm i]
      split
      · rename_i hc; rw [List.getElem?_take, if_pos (by omega)]
      · rfl
    · intro s' hrow; exact hX (by rw [hone]; intro h; cases h) s' hrow
  cases px with
  | one v =>
    unfold Proxy.insertN
    rw [wp_ite]
    split
    · subst n
      rw [wp_pure]
      refine hQ s (.one v) (by simpa using hp) rfl h (fun i => ?_)
      rw [if_neg (by omega)]
    · rename_i hn0
      have hvs : vs = [v] := by
        rcases hp with h | h
        · exact h
        · subst h; simp at hn; omega
      subst hvs
      obtain rfl : n = 1 := by simp at hn; omega
      rw [wp_bind, wp_assert]
      refine ⟨rfl, ?_⟩
      rw [wp_bind]
      refine mkTmp_rv ?_ (fun ht s' hsame hm => hX (fun _ hno => by rw [hno.1] at ht; cases ht) s' (h.fresh hsame hm))
      intro s1 hsame1 hm1
      have h1 := h.fresh hsame1 hm1
      rw [wp_bind]
      refine assign_copy (v := v) rfl rfl ((h1.live d).mpr (hr d (by omega) (by omega))) ?_ ?_
      · intro s' hsame _ hm
        rw [hm1] at hm
        rw [wp_pure]
        have hm' : ∀ i, s'.mem b i = if d ≤ i ∧ i < d + 1 then [v][i - d]? else s.mem b i := by
          intro i
          rw [hm]
          have e : (i = d) ↔ (d ≤ i ∧ i < d + 1) := by omega
          simp only [true_and, e]
          split
          · rename_i hc
            obtain rfl : i = d := by omega
            simp
          · rfl
        refine hQ s' _ (Or.inr rfl) rfl (h.upd (hsame1.trans hsame) ?_ ?_ ?_) hm'
        · intro i
          rw [hm' i]
          split
          · rename_i hc
            rw [List.getElem?_eq_getElem (by simp; omega)]; simp [hr i hc.1 hc.2]
          · simp [h.live i]
        · intro i hi
          have := h.beyond i hi
          exact this
        · intro c hc i
          rw [hm]; simp only [hc, false_and, if_false]
      · intro ht s' w hsame hm
        refine hX (fun _ hno => by rw [hno.2] at ht; cases ht rfl) s' (h1.upd hsame ?_ h.beyond ?_)
        · intro i
          rw [hm]
          split
          · rename_i hc; rw [hc.2]; simp [hr d (by omega) (by omega)]
          · exact h1.live i
        · intro c hc i
          rw [hm]; simp only [hc, false_and, if_false]
  | fill a =>
    obtain ⟨v, hv, hvs⟩ := hp
    unfold Proxy.insertN fillRange
    simp only
    rw [wp_bind, wp_bind]
    refine wp_distance rfl (by simp) ?_
    simp only [Ptr.add_off, Nat.add_sub_cancel_left]
    rw [wp_bind]
    refine wp_mono (key (List.replicate n a)
      (by rw [hvs, List.take_replicate, Nat.min_eq_left hn]; exact Exts.replicate hv n) rfl) ?_ (fun _ _ h => h)
    rintro p s' ⟨-, hk⟩
    rw [wp_pure, wp_pure]
    exact hk _ ⟨v, hv, by rw [hvs, List.drop_replicate]; simp⟩ rfl
  | range as =>
    unfold Proxy.insertN
    have hlen : as.length = vs.length := Exts.length hp
    simp only
    rw [if_pos (by omega), wp_bind]
    refine wp_mono (key _ (Exts.take hp n) rfl) ?_ (fun _ _ h => h)
    rintro p s' ⟨rfl, hk⟩
    exact hk _ (Exts.drop hp n) rfl

end Sfl.Devector
