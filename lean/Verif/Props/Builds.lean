import Verif.Proof.Builds
import Verif.Props.Parse
import Verif.Props.Read
import Verif.Spec.Cases
import Verif.Spec.Samples

/-!
# C120: release builds do what debug builds do

A `debug_assert!` that fails is the only thing that can make a difference.
-/

set_option autoImplicit false

namespace Svgdom

/-- The conditions passed to `drain` do not look at how the program was built. -/
def Op.plain : Op → Prop
  | .drain _ f => ∀ s j, f s.release j = f s j
  | _ => True

/-- C120: every call gives in a release build what it gives in a debug build, also the same panic, unless a `debug_assert!` fails. -/
theorem C120_call (op : Op) (hop : op.plain) (s : St) :
    op.run s = .error (.panic .debugAssert) ∨ op.run s.release = (op.run s).map St.release := by
  refine calm_call op (fun i f e => ?_) s
  subst e
  exact hop

/-- C120: so do several calls. -/
theorem C120_history (ops : List Op) (hops : ∀ op ∈ ops, op.plain) (s : St) :
    runAll s ops = .error (.panic .debugAssert) ∨ runAll s.release ops = (runAll s ops).map St.release := by
  induction ops generalizing s with
  | nil => exact .inr rfl
  | cons op ops ih =>
    simp only [runAll]
    have hlive : s.release.live = s.live := rfl
    rw [hlive]
    split
    · rcases C120_call op (hops op (by simp)) s with h | h
      · left; rw [h]
      · rw [h]
        cases op.run s with
        | error e => exact .inr rfl
        | ok t => exact ih (fun o ho => hops o (by simp [ho])) t
    · exact .inr rfl

/-- C120: parsing gives the same document or the same error in both builds; in the parser no `debug_assert!` fails. -/
theorem C120_parse (L : Lib) (x : Xml) : parseSvg L false x = (parseSvg L true x).map St.release := by
  rcases calm_parse L x with h | h
  · exact absurd h (C44_no_panic L true x _)
  · exact h

theorem calm_writeSvgAttributes (s : St) (W : ValueWriter) (n : NodeId) : ∀ l : List (AttributeId × Attribute),
    s.release.writeSvgAttributes W n l = s.writeSvgAttributes W n l
  | [] => rfl
  | (aid, a) :: l => by
    have h : s.release.writeSvgAttribute W n aid a.name = s.writeSvgAttribute W n aid a.name := rfl
    simp only [St.writeSvgAttributes, h, calm_writeSvgAttributes s W n l]

theorem calm_writeNamespaces (s : St) (n : NodeId) : s.release.writeNamespaces n = s.writeNamespaces n := by
  simp only [St.writeNamespaces, calm_descendantList]
  rfl

theorem calm_writeAttributes (s : St) (W : ValueWriter) (n : NodeId) : s.release.writeAttributes W n = s.writeAttributes W n := by
  simp only [St.writeAttributes, calm_writeNamespaces, calm_writeSvgAttributes]
  rfl

theorem calm_writeStart (s : St) (W : ValueWriter) (n : NodeId) : s.release.writeStart W n = s.writeStart W n := by
  simp only [St.writeStart, calm_writeAttributes]
  rfl

theorem calm_writeEdges (s : St) (W : ValueWriter) : ∀ l : List Edge, s.release.writeEdges W l = s.writeEdges W l
  | [] => rfl
  | .start n :: l => by simp only [St.writeEdges, calm_writeStart, calm_writeEdges s W l]
  | .stop n :: l => by
    simp only [St.writeEdges, calm_writeEdges s W l]
    rfl

/-- C120: and writing gives the same output. -/
theorem C120_write (s : St) (W : ValueWriter) : s.release.writeDom W = s.writeDom W := by
  have h : s.release.rootId = s.rootId := rfl
  simp only [St.writeDom, h, calm_edgeList, calm_writeEdges]

/-- The failure of a `debug_assert!`. -/
def isDebugPanic : Except Err St → Bool
  | .error (.panic .debugAssert) => true
  | _ => false

theorem isDebugPanic_iff {x : Except Err St} : isDebugPanic x = true ↔ x = .error (.panic .debugAssert) := by
  rcases x with (_ | _ | _) | _ <;> simp [isDebugPanic]
  next k => cases k <;> simp

/-- Calls that succeed in a debug build: the release build arrives at the same document. -/
example : ∃ t, runAll (St.init true) [.createElement (.id .Svg), .append 0 1, .setId 1 ['a'], .copyNodeDeep 1] = .ok t ∧
    runAll (St.init true).release [.createElement (.id .Svg), .append 0 1, .setId 1 ['a'], .copyNodeDeep 1] = .ok t.release ∧
    t.idOf 1 = ['a'] := by
  have key : okAnd (runAll (St.init true) [.createElement (.id .Svg), .append 0 1, .setId 1 ['a'], .copyNodeDeep 1])
    (fun t => decide (t.idOf 1 = ['a'])) = true := by decide +kernel
  obtain ⟨t, e, h⟩ := okAnd_iff.1 key
  refine ⟨t, e, ?_, by simpa using h⟩
  rcases C120_history [.createElement (.id .Svg), .append 0 1, .setId 1 ['a'], .copyNodeDeep 1] (by simp [Op.plain]) (St.init true)
    with h' | h'
  · rw [e] at h'; cases h'
  · rw [h', e]; rfl

/-- The exception does occur: a comment is given an id. The debug build panics, the release build goes on. -/
example : runAll (St.init true) [.createNode .comment ['c'], .setId 1 ['a']] = .error (.panic .debugAssert) ∧
    ∃ t, runAll (St.init true).release [.createNode .comment ['c'], .setId 1 ['a']] = .ok t ∧ t.idOf 1 = ['a'] := by
  refine ⟨isDebugPanic_iff.1 (by decide +kernel), ?_⟩
  have key : okAnd (runAll (St.init true).release [.createNode .comment ['c'], .setId 1 ['a']])
    (fun t => decide (t.idOf 1 = ['a'])) = true := by decide +kernel
  obtain ⟨t, e, h⟩ := okAnd_iff.1 key
  exact ⟨t, e, by simpa using h⟩

end Svgdom
