import Verif.SegVecSpec6
/-
  Functions of segmented_vector that do not move elements do not depend on whether elements are copyable.
-/

set_option linter.unusedSimpArgs false

namespace Sfl
variable {α : Type}

/-- The same element type, copyable. -/
def Env.free (E : Env α) : Env α := { E with copyable := true }

/-- An argument that is not `std::move_if_noexcept`. -/
def Arg.plain : Arg α → Bool
  | .mvIf _ => false
  | _ => true

variable {E : Env α} {N : Nat} {a : Arg α}

theorem construct_free (ha : a.plain = true) (p : Ptr) : construct E.free p a = construct E p a := by
  cases a <;> simp [Arg.plain] at ha <;> rfl

theorem uninitGo_free {d : Ptr} : ∀ {as : List (Arg α)} {k : Nat}, (∀ a ∈ as, a.plain = true) → uninitGo E.free d k as = uninitGo E d k as
  | [], _, _ => rfl
  | a :: as, k, h => by
    unfold uninitGo
    rw [construct_free (h a List.mem_cons_self), uninitGo_free (fun a ha => h a (List.mem_cons_of_mem _ ha))]

namespace SegVec

theorem fillLoop_free {t : Table} {first : SIt} {total : Nat} (ha : a.plain = true) : ∀ {k rem : Nat} {sg loc : Ptr},
    Seg.uninitFillNLoop E.free N t first total a k rem sg loc = Seg.uninitFillNLoop E N t first total a k rem sg loc
  | 0, _, _, _ => rfl
  | k + 1, rem, sg, loc => by
    unfold Seg.uninitFillNLoop Sfl.uninitFillN uninit
    have e : ∀ (p : Ptr) (n : Nat), uninitGo E.free p 0 (List.replicate n a) = uninitGo E p 0 (List.replicate n a) :=
      fun p n => uninitGo_free (fun b hb => by rw [List.eq_of_mem_replicate hb]; exact ha)
    simp only [e, fillLoop_free ha]

theorem allocSegs_free {al : Nat} {first : Ptr} : ∀ {n : Nat} {p : Ptr}, Seg.allocSegs E.free N al first n p = Seg.allocSegs E N al first n p
  | 0, _ => rfl
  | n + 1, p => by
    unfold Seg.allocSegs
    simp only [allocSegs_free]
    rfl

theorem growStorage_free {n : Nat} : growStorage E.free N n = growStorage E N n := by
  unfold growStorage
  simp only [allocSegs_free]
  rfl

theorem emplaceBack_free (ha : a.plain = true) : emplaceBack E.free N a = emplaceBack E N a := by
  unfold emplaceBack emplaceBackTail
  simp only [growStorage_free, construct_free ha]

theorem resizeWith_free (ha : a.plain = true) {n : Nat} : resizeWith E.free N n a = resizeWith E N n a := by
  unfold resizeWith resizeTail Seg.uninitFillN
  simp only [growStorage_free, fillLoop_free ha]

theorem argOf_plain {s : Sq.Src α} {V : View} : (srcArg V s).plain = true := by cases s <;> rfl

/-- Operations that only add elements at the end. -/
def appends : Sq.Op α → Bool
  | .pushBack _ => true
  | .reserve _ => true
  | .resize _ => true
  | .resizeV _ _ => true
  | _ => false

theorem exec_free {o : Obj SVec α} {al tcap : Nat} {V : View} {xs : List α} {ra : Sq.Op α → Bool} {op : Sq.Op α} (h : GSt N o al V tcap xs)
    (hp : op.pre xs.length = true) (ho : appends op = true) : exec E.free N ra op o = exec E N ra op o := by
  cases op <;> simp [appends] at ho
  case pushBack s =>
    unfold exec
    dsimp only
    rw [bind_run (argOf_run h hp), bind_run (argOf_run h hp), emplaceBack_free argOf_plain]
  case reserve n =>
    unfold exec reserve
    simp only [growStorage_free]
  case resize n =>
    unfold exec
    simp only [resizeWith_free (E := E) (a := .val E.dflt) rfl]
    rw [← resizeWith_free (E := E) (a := .val E.dflt) rfl]
    rfl
  case resizeV n s =>
    unfold exec
    dsimp only
    rw [bind_run (argOf_run h hp), bind_run (argOf_run h hp), resizeWith_free argOf_plain]

/-- If one of these operations throws, the elements are the same, whatever the element type. -/
theorem exec_strong {o : Obj SVec α} {al tcap : Nat} {V : View} {xs : List α} (ra : Sq.Op α → Bool) (op : Sq.Op α) (h : GSt N o al V tcap xs)
    (hp : op.pre xs.length = true) (ho : appends op = true) :
    wp (exec E N ra op) (fun r o' => Done N al V o (Sq.okStep E xs op r) o')
      (fun e o' => Done N al V o (fun ys => Sq.failStep E xs op e ys ∧ ys = xs) o') o := by
  refine wp_at (exec_free h hp ho) (wp_mono (exec_spec (E := E.free) ra op h hp) (fun _ _ h => h) ?_)
  rintro e o' ⟨V', tcap', ys, h1, h2, h3, h4⟩
  have e : ys = xs := h4.strong (Or.inr rfl) (by cases op <;> simp [appends] at ho <;> rfl)
  exact ⟨V', tcap', ys, h1, h2, h3, ⟨h4.can, h4.len, fun _ => h4.strong (Or.inr rfl), h4.erase, h4.emplace⟩, e⟩

end SegVec
end Sfl
