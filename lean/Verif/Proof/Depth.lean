import Verif.Model.Stack
import Verif.Spec.Depth
import Verif.Proof.ParseDoc

/-!
# Depth of recursion: lemmas
-/

set_option autoImplicit false

namespace Svgdom

theorem step_bind {ε α β : Type} (r : Except ε α) (f : α → Except ε β) : step (r >>= f) = step r >>= fun a => step (f a) := by
  cases r <;> rfl

theorem step_ok {ε α : Type} (a : α) : step (.ok a : Except ε α) = .ok a := rfl

theorem processNodesS_enough (L : Lib) (sheet : List Rule) : ∀ (x : Xml) (d : Nat) (pos : XmlPos) (prev : List (Option XmlElem))
    (parent : NodeId) (p : PSt), x.svgHeight ≤ d →
    processNodesS L sheet d pos prev parent x p = step (processNodes L sheet pos prev parent x p)
  | .nil, d, pos, prev, parent, p, h => by simp [processNodesS, processNodes, step_ok]
  | .element ns name attrs kids rest, d, pos, prev, parent, p, h => by
    simp only [Xml.svgHeight] at h
    obtain ⟨d, rfl⟩ : ∃ m, d = m + 1 := ⟨d - 1, by split at h <;> omega⟩
    have hr : ∀ prev p, processNodesS L sheet (d + 1) pos prev parent rest p = step (processNodes L sheet pos prev parent rest p) :=
      fun prev p => processNodesS_enough L sheet rest (d + 1) pos prev parent p (by omega)
    simp only [processNodesS, processNodes, step_bind, hr]
    congr 1
    by_cases hns : ns = some svgNs
    · simp only [hns, ne_eq, not_true_eq_false, if_false, step_bind, elementNamed_eq]
      cases hnm : elementNamed name with
      | none => rfl
      | some eid =>
        have hk : ∀ pos prev n p, processNodesS L sheet d pos prev n kids p = step (processNodes L sheet pos prev n kids p) := by
          intro pos prev n p
          refine processNodesS_enough L sheet kids d pos prev n p ?_
          rw [if_pos ⟨hns, by simp [hnm]⟩] at h
          omega
        simp only [okOrFail, hk]
        simp only [step, Except.mapError, bind, Except.bind]
        cases parseElement L sheet p (.elem pos prev ⟨some svgNs, name, attrs⟩) eid attrs with
        | error _ => rfl
        | ok q =>
          simp only [okOrFail]
          cases q.1.dom.append parent q.2 with
          | error _ => rfl
          | ok s =>
            simp only
            cases processNodes L sheet (.elem pos prev ⟨some svgNs, name, attrs⟩) [] q.2 kids ⟨s, q.1.links⟩ with
            | error _ => rfl
            | ok p1 =>
              simp only
              cases checkFirst p1.dom parent <;> rfl
    · simp [hns, step, Except.mapError, pure, Except.pure, bind, Except.bind]
  | .text t rest, d, pos, prev, parent, p, h => by
    simp only [Xml.svgHeight] at h
    obtain ⟨d, rfl⟩ : ∃ m, d = m + 1 := ⟨d - 1, by omega⟩
    have hr : ∀ prev p, processNodesS L sheet (d + 1) pos prev parent rest p = step (processNodes L sheet pos prev parent rest p) :=
      fun prev p => processNodesS_enough L sheet rest (d + 1) pos prev parent p (by omega)
    simp only [processNodesS, processNodes, step_bind, hr]
  | .comment t rest, d, pos, prev, parent, p, h => by
    simp only [Xml.svgHeight] at h
    obtain ⟨d, rfl⟩ : ∃ m, d = m + 1 := ⟨d - 1, by omega⟩
    have hr : ∀ prev p, processNodesS L sheet (d + 1) pos prev parent rest p = step (processNodes L sheet pos prev parent rest p) :=
      fun prev p => processNodesS_enough L sheet rest (d + 1) pos prev parent p (by omega)
    simp only [processNodesS, processNodes, step_bind, hr]
  | .pi rest, d, pos, prev, parent, p, h => by
    simp only [Xml.svgHeight] at h
    obtain ⟨d, rfl⟩ : ∃ m, d = m + 1 := ⟨d - 1, by omega⟩
    have hr : ∀ prev p, processNodesS L sheet (d + 1) pos prev parent rest p = step (processNodes L sheet pos prev parent rest p) :=
      fun prev p => processNodesS_enough L sheet rest (d + 1) pos prev parent p (by omega)
    simp only [processNodesS, processNodes, step_bind, hr]

theorem processNodesS_short (L : Lib) (sheet : List Rule) : ∀ (x : Xml) (d : Nat) (pos : XmlPos) (prev : List (Option XmlElem))
    (parent : NodeId) (p q : PSt), processNodes L sheet pos prev parent x p = .ok q → d < x.svgHeight →
    processNodesS L sheet d pos prev parent x p = .error .overflow
  | .nil, d, pos, prev, parent, p, q, e, h => by simp [Xml.svgHeight] at h
  | .element ns name attrs kids rest, 0, pos, prev, parent, p, q, e, h => by simp [processNodesS]
  | .text t rest, 0, pos, prev, parent, p, q, e, h => by simp [processNodesS]
  | .comment t rest, 0, pos, prev, parent, p, q, e, h => by simp [processNodesS]
  | .pi rest, 0, pos, prev, parent, p, q, e, h => by simp [processNodesS]
  | .text t rest, d + 1, pos, prev, parent, p, q, e, h => by
    simp only [Xml.svgHeight] at h
    simp only [processNodes, bind, Except.bind] at e
    simp only [processNodesS, step, bind, Except.bind]
    cases h1 : okOrFail (processText p parent t) with
    | error _ => rw [h1] at e; simp at e
    | ok p1 =>
      rw [h1] at e
      simp only [Except.mapError] at e ⊢
      cases h2 : checkFirst p1.dom parent with
      | error _ => rw [h2] at e; simp at e
      | ok _ =>
        rw [h2] at e
        exact processNodesS_short L sheet rest (d + 1) pos _ parent p1 q e (by omega)
  | .comment t rest, d + 1, pos, prev, parent, p, q, e, h => by
    simp only [Xml.svgHeight] at h
    simp only [processNodes, bind, Except.bind] at e
    simp only [processNodesS, step, bind, Except.bind]
    cases h1 : okOrFail (appendNew p parent .comment t) with
    | error _ => rw [h1] at e; simp at e
    | ok p1 =>
      rw [h1] at e
      simp only [Except.mapError] at e ⊢
      cases h2 : checkFirst p1.dom parent with
      | error _ => rw [h2] at e; simp at e
      | ok _ =>
        rw [h2] at e
        exact processNodesS_short L sheet rest (d + 1) pos _ parent p1 q e (by omega)
  | .pi rest, d + 1, pos, prev, parent, p, q, e, h => by
    simp only [Xml.svgHeight] at h
    simp only [processNodes, bind, Except.bind] at e
    simp only [processNodesS, step, bind, Except.bind]
    cases h2 : checkFirst p.dom parent with
    | error _ => rw [h2] at e; simp at e
    | ok _ =>
      rw [h2] at e
      exact processNodesS_short L sheet rest (d + 1) pos _ parent p q e (by omega)
  | .element ns name attrs kids rest, d + 1, pos, prev, parent, p, q, e, h => by
    simp only [Xml.svgHeight] at h
    by_cases hns : ns = some svgNs
    · subst hns
      cases hnm : elementNamed name with
      | none =>
        simp only [hnm, Option.isSome_none, Bool.false_eq_true, and_false, if_false] at h
        simp only [processNodes, elementNamed_eq, hnm, okOrFail, bind, Except.bind, ne_eq, not_true_eq_false, if_false, pure,
          Except.pure] at e
        simp only [processNodesS, elementNamed_eq, hnm, okOrFail, step, Except.mapError, bind, Except.bind, ne_eq, not_true_eq_false,
          if_false, pure, Except.pure]
        exact processNodesS_short L sheet rest (d + 1) pos _ parent p q e (by omega)
      | some eid =>
        rw [if_pos ⟨rfl, by simp [hnm]⟩] at h
        simp only [processNodes, elementNamed_eq, hnm, okOrFail, bind, Except.bind, ne_eq, not_true_eq_false, if_false, pure,
          Except.pure] at e
        simp only [processNodesS, elementNamed_eq, hnm, okOrFail, step, Except.mapError, bind, Except.bind, ne_eq, not_true_eq_false,
          if_false, pure, Except.pure]
        cases h1 : parseElement L sheet p (.elem pos prev ⟨some svgNs, name, attrs⟩) eid attrs with
        | error _ => rw [h1] at e; simp at e
        | ok q1 =>
          rw [h1] at e
          simp only at e ⊢
          cases h2 : q1.1.dom.append parent q1.2 with
          | error _ => rw [h2] at e; simp at e
          | ok s =>
            rw [h2] at e
            simp only at e ⊢
            cases h3 : processNodes L sheet (.elem pos prev ⟨some svgNs, name, attrs⟩) [] q1.2 kids ⟨s, q1.1.links⟩ with
            | error _ => rw [h3] at e; simp at e
            | ok p1 =>
              rw [h3] at e
              simp only at e ⊢
              cases h4 : checkFirst p1.dom parent with
              | error _ => rw [h4] at e; simp at e
              | ok _ =>
                rw [h4] at e
                simp only at e
                by_cases hk : kids.svgHeight ≤ d
                · rw [processNodesS_enough L sheet kids d _ _ _ _ hk, h3]
                  simp only [step, Except.mapError, h4]
                  exact processNodesS_short L sheet rest (d + 1) pos _ parent p1 q e (by omega)
                · rw [processNodesS_short L sheet kids d _ _ _ _ _ h3 (by omega)]
    · have hn : ¬ (ns = some st!"http://www.w3.org/2000/svg" ∧ (elementNamed name).isSome = true) := fun hh => hns hh.1
      rw [if_neg hn] at h
      simp only [processNodes, hns, bind, Except.bind, ne_eq, not_false_eq_true, if_true, pure, Except.pure] at e
      simp only [processNodesS, hns, step, Except.mapError, bind, Except.bind, ne_eq, not_false_eq_true, if_true, pure, Except.pure]
      exact processNodesS_short L sheet rest (d + 1) pos _ parent p q e (by omega)

end Svgdom
