import Verif.Props.UnwindNode
import Verif.Model.Edit

/-!
# C86: `text_mut` while a node is borrowed
-/

set_option autoImplicit false

namespace Svgdom

/-- C86: an assignment through `text_mut` panics exactly if the caller holds a borrow of this node, and then nothing has changed. Otherwise exactly
the text of the node is replaced; borrows of other nodes do not matter, nor does the type of the node. -/
theorem C86_text_mut (g : Guards) (s : St) (i : NodeId) (t : Str) :
    forget (s.textMutU g i t) = s.textMutG g i t ∧
    (g i ≠ .free → s.textMutU g i t = .error (.panic .borrowed, s)) ∧
    (g i = .free → ∃ u, s.textMutU g i t = .ok u ∧ u.text i = t ∧ u = s.editText i t ∧ (∀ j, j ≠ i → u.data j = s.data j) ∧
      u.links = s.links) := by
  refine ⟨?_, fun h => ?_, fun h => ⟨s.editText i t, ?_, ?_, rfl, fun j hj => ?_, rfl⟩⟩
  · simp only [St.textMutU, St.textMutG, forget_bind, forget_fails, forget_pure]
  · simp [St.textMutU, wr, h, St.fails, Except.mapError, bind, Except.bind]
  · simp [St.textMutU, wr, h, St.fails, Except.mapError, bind, Except.bind, pure, Except.pure, St.editText]
  · simp [St.editText, St.text]
  · simp [St.editText, hj]

/-- Both cases occur. -/
example : (St.init true).textMutU (oneGuard 0 .shared) 0 ['a'] = .error (.panic .borrowed, St.init true) ∧
    ∃ u, (St.init true).textMutU (oneGuard 1 .excl) 0 ['a'] = .ok u ∧ u.text 0 = ['a'] := by
  refine ⟨(C86_text_mut _ _ _ _).2.1 (by decide), ?_⟩
  obtain ⟨u, h1, h2, _⟩ := (C86_text_mut (oneGuard 1 .excl) (St.init true) 0 ['a']).2.2 (by decide)
  exact ⟨u, h1, h2⟩

end Svgdom
