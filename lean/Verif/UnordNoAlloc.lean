import Verif.NoAlloc
import Verif.UnordWorld
import Verif.UnordLook
/-
  The static unordered flat containers never allocate and never release memory.
-/

namespace Sfl.Unord
open Sfl.Vector (VM)
open Flat (Init)
variable {α κ : Type} {E : Env α} {U : KeyEq α κ} {multi isMap : Bool} {N : Nat} {q : Sought α}

theorem eqAt_na (it : Ptr) : NoAlloc id (eqAt U E q it) := by unfold eqAt; na

macro_rules | `(tactic| na1) => `(tactic| with_reducible exact eqAt_na _)

theorem findGo_na (n : Nat) : ∀ it, NoAlloc Obj.m (findGo U E q n it) := by
  induction n with
  | zero => intro it; unfold findGo; na
  | succ n ih =>
    intro it; unfold findGo
    refine NoAlloc.bind (by na) fun _ => ?_
    split
    · na
    · refine NoAlloc.bind (by na) fun _ => ?_
      split
      · na
      · exact ih _

theorem countGo_na (n : Nat) : ∀ it c, NoAlloc Obj.m (countGo U E q n it c) := by
  induction n with
  | zero => intro it c; unfold countGo; na
  | succ n ih =>
    intro it c; unfold countGo
    refine NoAlloc.bind (by na) fun _ => ?_
    split
    · na
    · refine NoAlloc.bind (by na) fun _ => ?_
      split
      · exact ih _ _
      · exact ih _ _

macro_rules | `(tactic| na1) => `(tactic| with_reducible exact findGo_na _ _)
macro_rules | `(tactic| na1) => `(tactic| with_reducible exact countGo_na _ _ _)

theorem find_na : NoAlloc Obj.m (find U E q) := by unfold find; na
theorem countMulti_na : NoAlloc Obj.m (countMulti U E q) := by unfold countMulti; na

macro_rules | `(tactic| na1) => `(tactic| with_reducible exact find_na)
macro_rules | `(tactic| na1) => `(tactic| with_reducible exact countMulti_na)

theorem contains_na : NoAlloc Obj.m (contains U E q) := by unfold contains; na
theorem fillHole_na (p q : Ptr) : NoAlloc id (fillHole E p q) := by unfold fillHole; na

macro_rules | `(tactic| na1) => `(tactic| with_reducible exact contains_na)
macro_rules | `(tactic| na1) => `(tactic| with_reducible exact fillHole_na _ _)

theorem eraseAt_na (p : Ptr) : NoAlloc Obj.m (eraseAt E p) := by unfold eraseAt; na
theorem eraseRange_na (p q : Ptr) : NoAlloc Obj.m (eraseRange E p q) := by unfold eraseRange; na

macro_rules | `(tactic| na1) => `(tactic| with_reducible exact eraseAt_na _)
macro_rules | `(tactic| na1) => `(tactic| with_reducible exact eraseRange_na _ _)

theorem eraseGo_na {t : Ptr → M (St α) Bool} (ht : ∀ p, NoAlloc id (t p)) (n : Nat) :
    ∀ it c, NoAlloc Obj.m (eraseGo E t n it c) := by
  induction n with
  | zero => intro it c; unfold eraseGo; na
  | succ n ih =>
    intro it c; unfold eraseGo
    refine NoAlloc.bind (by na) fun _ => ?_
    split
    · na
    · refine NoAlloc.bind (.lift (ht _)) fun _ => ?_
      split
      · exact NoAlloc.bind (by na) fun _ => ih _ _
      · exact ih _ _

theorem testIf_na (f : α → Bool) (it : Ptr) : NoAlloc id (testIf f it) := by unfold testIf; na

theorem eraseKeyMulti_na : NoAlloc Obj.m (eraseKeyMulti U E q) := by
  unfold eraseKeyMulti
  exact .bind (by na) fun _ => .bind (by na) fun _ => eraseGo_na (fun _ => eqAt_na _) _ _ _

theorem eraseKeyUnique_na : NoAlloc Obj.m (eraseKeyUnique U E q) := by unfold eraseKeyUnique; na

macro_rules | `(tactic| na1) => `(tactic| with_reducible exact eraseKeyMulti_na)
macro_rules | `(tactic| na1) => `(tactic| with_reducible exact eraseKeyUnique_na)

theorem eraseKey_na : NoAlloc Obj.m (eraseKey multi U E q) := by unfold eraseKey; na

theorem eraseIf_na (f : α → Bool) : NoAlloc Obj.m (eraseIf E f) := by
  unfold eraseIf
  exact .bind (by na) fun _ => .bind (by na) fun _ => .bind (eraseGo_na (testIf_na f) _ _ _) fun _ => by na

theorem notFull_na : NoAlloc Obj.m (Flat.notFull : VM α Unit) := by unfold Flat.notFull; na

macro_rules | `(tactic| na1) => `(tactic| with_reducible exact eraseKey_na)
macro_rules | `(tactic| na1) => `(tactic| with_reducible exact eraseIf_na _)
macro_rules | `(tactic| na1) => `(tactic| with_reducible exact notFull_na)

theorem static_push_na (a : Arg α) : NoAlloc Obj.m ((static multi isMap E).push a) := by
  show NoAlloc Obj.m (staticPush E a)
  unfold staticPush; na

theorem static_guard_na : NoAlloc Obj.m ((static multi isMap E).guard) := notFull_na

macro_rules | `(tactic| na1) => `(tactic| with_reducible exact static_push_na _)
macro_rules | `(tactic| na1) => `(tactic| with_reducible exact static_guard_na)

theorem pushNew_na (a : Arg α) : NoAlloc Obj.m (pushNew (static multi isMap E) a) := by unfold pushNew; na

macro_rules | `(tactic| na1) => `(tactic| with_reducible exact pushNew_na _)

theorem assignMapped_na (p : Ptr) (v : α) : NoAlloc id (assignMapped U E p v) := by
  intro s; unfold assignMapped
  constructor <;> (intro b s' h; grind [Same, id, St.put, St.bump])

macro_rules | `(tactic| na1) => `(tactic| with_reducible exact assignMapped_na _ _)

theorem insertAux_na (a : Arg α) : NoAlloc Obj.m (insertAux (static multi isMap E) U E a) := by unfold insertAux; na
theorem emplaceAux_na (x : α) : NoAlloc Obj.m (emplaceAux (static multi isMap E) U E x) := by unfold emplaceAux; na

macro_rules | `(tactic| na1) => `(tactic| with_reducible exact insertAux_na _)
macro_rules | `(tactic| na1) => `(tactic| with_reducible exact emplaceAux_na _)

theorem emplace_na (x : α) : NoAlloc Obj.m (emplace (static multi isMap E) U E x) := by unfold emplace; na
theorem pushKey_na (x : α) : NoAlloc Obj.m (pushKey (static multi isMap E) E x) := by unfold pushKey; na

macro_rules | `(tactic| na1) => `(tactic| with_reducible exact emplace_na _)
macro_rules | `(tactic| na1) => `(tactic| with_reducible exact pushKey_na _)

theorem tryEmplaceAux_na (x : α) : NoAlloc Obj.m (tryEmplaceAux (static multi isMap E) U E x) := by
  unfold tryEmplaceAux; na
theorem insertOrAssignAux_na (x : α) : NoAlloc Obj.m (insertOrAssignAux (static multi isMap E) U E x) := by
  unfold insertOrAssignAux; na
theorem checkHint_na (h : Nat) : NoAlloc Obj.m (checkHint h : VM α Unit) := by unfold checkHint; na

macro_rules | `(tactic| na1) => `(tactic| with_reducible exact tryEmplaceAux_na _)
macro_rules | `(tactic| na1) => `(tactic| with_reducible exact insertOrAssignAux_na _)
macro_rules | `(tactic| na1) => `(tactic| with_reducible exact checkHint_na _)

theorem insertRange_na (vs : List α) : NoAlloc Obj.m (insertRange (static multi isMap E) U E vs) := by
  induction vs with
  | nil => unfold insertRange; na
  | cons v vs ih => unfold insertRange; na

theorem emplaceRange_na (vs : List α) : NoAlloc Obj.m (emplaceRange multi isMap U E vs) := by
  induction vs with
  | nil => unfold emplaceRange; na
  | cons v vs ih => unfold emplaceRange; na

macro_rules | `(tactic| na1) => `(tactic| with_reducible exact insertRange_na _)
macro_rules | `(tactic| na1) => `(tactic| with_reducible exact emplaceRange_na _)

theorem exec_na (op : Op α κ) : NoAlloc Obj.m (exec (static multi isMap E) U E (fun _ => pure ()) (pure ()) op) := by
  cases op <;> unfold exec
  all_goals try unfold assignList
  all_goals na

macro_rules | `(tactic| na1) => `(tactic| with_reducible exact exec_na _)

theorem staticExec_na (op : Op α κ) : NoAlloc Obj.m (staticExec multi isMap U E N op) := by unfold staticExec; na
theorem staticConstruct_na (i : Init α) : NoAlloc Obj.m (staticConstruct multi isMap U E i) := by
  cases i <;> unfold staticConstruct <;> na

theorem staticCont_still {K : Nat} {ib : Fin K → Nat} : World.Still (staticCont multi isMap U E ib N) :=
  StaticVector.still (fun _ x => staticConstruct_na x) (fun _ x => .bind (staticExec_na x) fun _ => .pure _)

end Sfl.Unord
