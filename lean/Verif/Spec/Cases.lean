import Verif.Model.History

/-!
# Concrete histories

`holds ops p`: the calls `ops` on a new document all return, use only live handles, and lead to a state with `p`.
Used to show that hypotheses of theorems can be met and for counterexamples.
-/

namespace Svgdom

/-- Run calls one after the other; stop with an error if a handle is not live. -/
def runAll (s : St) : List Op → Except Err St
  | [] => .ok s
  | op :: ops =>
    if op.handles.all s.live then
      match op.run s with
      | .ok t => runAll t ops
      | .error e => .error e
    else .error .diverge

theorem runAll_reachable {ops : List Op} {s t : St} (h : Reachable s) (e : runAll s ops = .ok t) : Reachable t := by
  induction ops generalizing s with
  | nil => simp [runAll] at e; exact e ▸ h
  | cons op ops ih =>
    simp only [runAll] at e
    split at e
    · next hl =>
      split at e
      · next u hu => exact ih (.call op h (fun i hi => List.all_eq_true.1 hl i hi) hu) e
      · simp at e
    · simp at e

/-- The history `ops` leads to a state with `p`. -/
def holds (ops : List Op) (p : St → Bool) : Bool :=
  match runAll (St.init true) ops with
  | .ok s => p s
  | .error _ => false

theorem exists_of_holds {ops : List Op} {p : St → Bool} (h : holds ops p = true) : ∃ s, Reachable s ∧ p s = true := by
  unfold holds at h
  split at h
  · next s hs => exact ⟨s, runAll_reachable (.init true) hs, h⟩
  · simp at h

/-- Did the call panic because a `RefCell` was already borrowed? -/
def isBorrowPanic : Except Err St → Bool
  | .error (.panic .borrowed) => true
  | _ => false

theorem isBorrowPanic_iff {x : Except Err St} : isBorrowPanic x = true ↔ x = .error (.panic .borrowed) := by
  unfold isBorrowPanic
  split <;> simp_all

/-- A state property after a call that may fail. -/
def okAnd (x : Except Err St) (p : St → Bool) : Bool :=
  match x with
  | .ok s => p s
  | .error _ => false

theorem okAnd_iff {x : Except Err St} {p : St → Bool} : okAnd x p = true ↔ ∃ s, x = .ok s ∧ p s = true := by
  unfold okAnd
  split <;> simp_all

end Svgdom
