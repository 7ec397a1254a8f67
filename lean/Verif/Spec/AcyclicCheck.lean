import Verif.Spec.Acyclic
import Verif.Spec.Cases

/-!
# Checking acyclicity of concrete states

Only used to show that the hypotheses of theorems can be met.
-/

namespace Svgdom

/-- Does climbing from `i` end within `k` steps? -/
def St.ends (s : St) : Nat → NodeId → Bool
  | 0, _ => false
  | k + 1, i =>
    match s.parent i with
    | none => true
    | some p => s.ends k p

theorem ends_no_cycle {s : St} : ∀ (k : Nat) (i : NodeId), s.ends k i = true → ¬ s.Ancestor i i := by
  intro k
  induction k with
  | zero => intro i h; simp [St.ends] at h
  | succ k ih =>
    intro i h hc
    obtain ⟨p, hp, hr⟩ := Relation.TransGen.head'_iff.1 hc
    have hp' : s.parent i = some p := hp
    simp only [St.ends, hp'] at h
    refine ih p h ?_
    exact Relation.TransGen.tail' hr hp

/-- All nodes below `n` have finitely many ancestors. -/
def St.acyclicB (s : St) (n : Nat) : Bool :=
  (List.range n).all fun i => s.ends (n + 1) i

theorem acyclic_of_check {s : St} {n : Nat} (hl : ∀ i, s.live i = true → i < n) (h : s.acyclicB n = true) : s.Acyclic := by
  intro i hi
  exact ends_no_cycle _ i (List.all_eq_true.1 h i (List.mem_range.2 (hl i hi)))

end Svgdom
