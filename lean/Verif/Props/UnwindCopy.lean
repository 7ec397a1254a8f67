import Verif.Proof.UnwindCopy
import Verif.Props.UnwindNode

/-!
# C109: the copies do not change existing nodes, even if they panic
-/

set_option autoImplicit false

namespace Svgdom

/-- The functions that also give the state at a panic are those of the claims about borrows. -/
theorem C109_same_calls (g : Guards) (s : St) (i : NodeId) :
    forget (s.copyNodeGU g i) = s.copyNodeG g i ∧ forget (s.copyNodeDeepGU g i) = s.copyNodeDeepG g i :=
  ⟨copyNodeGU_agrees s i, copyNodeDeepGU_agrees s i⟩

theorem SameBefore.linked_live {s t : St} (h : Reachable s) (hb : SameBefore s.nextId s t) {j : NodeId} (hj : s.live j = true) :
    (t.linkedNodes j).filter (s.live ·) = s.linkedNodes j := by
  have hback := hb.back j (h.inv.liveBelow j hj)
  have h1 : (t.linkedNodes j).filter (s.live ·) = (t.linkedNodes j).filter (fun m : Nat => m < s.nextId) := by
    refine List.filter_congr fun m hm => ?_
    by_cases hl : s.live m = true
    · rw [hl]; exact (decide_eq_true (h.inv.liveBelow m hl)).symm
    · have : ¬ (m : Nat) < s.nextId := fun hlt => by
        have hmem : m ∈ (t.linkedNodes j).filter (fun m : Nat => m < s.nextId) := List.mem_filter.2 ⟨hm, decide_eq_true hlt⟩
        rw [hback] at hmem
        exact hl (h.inv.link.back j hj m (List.mem_filter.1 hmem).1)
      rw [decide_eq_false this]
      simpa using hl
  rw [h1, hback, List.filter_eq_self.2]
  intro m hm
  exact decide_eq_true (h.inv.liveBelow m (h.inv.link.back j hj m hm))

theorem SameBefore.undisturbed {s t : St} (h : Reachable s) (hb : SameBefore s.nextId s t) : Undisturbed s t := by
  have below := h.inv.liveBelow
  have hup : ∀ w : Option NodeId, (∀ m : NodeId, w = some m → m < s.nextId) → t.upgrade w = s.upgrade w := by
    intro w hw
    cases w with
    | none => rfl
    | some m => simp only [St.upgrade, hb.live m (hw m rfl)]
  obtain ⟨F, hT⟩ := h.inv.tree
  have hl : ∀ j, s.live j = true → t.links j = s.links j := fun j hj => hb.links j (below j hj)
  have hd : ∀ j, s.live j = true → t.data j = { s.data j with linkedNodes := t.linkedNodes j } := fun j hj => hb.data j (below j hj)
  refine ⟨fun j hj => (hb.live j (below j hj)).trans hj, hb.stored, fun j hj => ?_, fun j hj => ?_, fun j hj => ?_, fun j hj => ?_,
    fun j hj => ?_, fun j hj => ?_, fun j hj => ?_, fun j hj => ?_, hb.rootId⟩
  · simp only [St.root, hl j hj]
    cases e : (s.links j).root with
    | none => rfl
    | some r => simp only; rw [hup (some r) fun m hm => by cases hm; exact (hT.below j).root r e]
  · simp only [St.parent, hl j hj]; exact hup _ (hT.below j).parent
  · simp only [St.firstChild, hl j hj]
  · simp only [St.lastChild, hl j hj]; exact hup _ (hT.below j).lastChild
  · simp only [St.prevSibling, hl j hj]; exact hup _ (hT.below j).prevSib
  · simp only [St.nextSibling, hl j hj]
  · simp only [St.nodeType, St.tagName, St.idOf, St.text, St.attributes, hd j hj, and_self]
  · exact hb.linked_live h hj

/-- C109, `copy_node`: whatever the caller has borrowed, and whether the call returns, panics or does not end: nothing that existed
has changed. -/
theorem C109_copy {s : St} (h : Reachable s) (g : Guards) (i : NodeId) :
    (∀ t m, s.copyNodeGU g i = .ok (t, m) → Undisturbed s t ∧ s.live m = false) ∧
      ∀ e t, s.copyNodeGU g i = .error (e, t) → Undisturbed s t := by
  have hoff := (Off.refl s).copyNode (g := g) i
  refine ⟨fun t m e => ?_, fun e t he => ?_⟩
  · rw [e] at hoff
    refine ⟨hoff.1.toSameBefore.undisturbed h, ?_⟩
    cases hl : s.live m with
    | false => rfl
    | true => exact absurd (h.inv.liveBelow m hl) (Nat.not_lt.2 (hoff.2 t m rfl).1)
  · rw [he] at hoff
    exact hoff.1.toSameBefore.undisturbed h

/-- C109, `copy_node_deep`. -/
theorem C109_deep {s : St} (h : Reachable s) (g : Guards) (i : NodeId) :
    (∀ t m, s.copyNodeDeepGU g i = .ok (t, m) → Undisturbed s t) ∧
      ∀ e t, s.copyNodeDeepGU g i = .error (e, t) → Undisturbed s t := by
  have hoff := (Off.refl s).copyNodeDeep (g := g) i
  refine ⟨fun t m e => ?_, fun e t he => ?_⟩
  · rw [e] at hoff
    exact SameBefore.undisturbed h (Off.toSameBefore hoff)
  · rw [he] at hoff
    exact SameBefore.undisturbed h (Off.toSameBefore hoff)

/-- A borrowed gradient stops the deep copy of the `svg` element when the rectangle is copied: the copies of the gradient and of the group
stay, and the new rectangle refers to the gradient, which does not know it. -/
example : ∃ s t, Reachable s ∧ s.live 1 = true ∧ s.copyNodeDeepGU (oneGuard 2 .shared) 1 = .error (.panic .borrowed, t) ∧
    t.nextId = 10 ∧ t.firstChild 6 = some 7 ∧ t.nextSibling 7 = some 8 ∧
    (t.attributes 9).map (·.value.linkNode) = [some 2] ∧ t.linkedNodes 2 = [4] ∧ s.linkedNodes 2 = [4] := by
  obtain ⟨s, h, e⟩ := exists_of_holds (ops := guardHistory)
    (p := fun s => s.live 1 && decide (s.linkedNodes 2 = [4]) && errAnd (s.copyNodeDeepGU (oneGuard 2 .shared) 1) (.panic .borrowed) (fun t =>
      decide (t.nextId = 10) && decide (t.firstChild 6 = some 7) && decide (t.nextSibling 7 = some 8) &&
      decide ((t.attributes 9).map (·.value.linkNode) = [some 2]) && decide (t.linkedNodes 2 = [4]))) (by decide +kernel)
  simp only [Bool.and_eq_true, decide_eq_true_eq, errAnd_iff] at e
  obtain ⟨⟨h1, h2⟩, t, h3, ⟨⟨⟨⟨h4, h5⟩, h6⟩, h7⟩, h8⟩⟩ := e
  exact ⟨s, t, h, h1, h3, h4, h5, h6, h7, h8, h2⟩

end Svgdom
