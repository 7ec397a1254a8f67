import Verif.Proof.Barred
import Verif.Props.Guard

/-!
# C83 for `remove_node`
-/

set_option autoImplicit false

namespace Svgdom

open Relation

/-- C83, `remove_node`: it panics because of a borrow exactly if one of the nodes named in `InTheWay` is borrowed; otherwise it does the
same as without borrows. -/
theorem C83_node (g : Guards) {s : St} (h : Reachable s) (ha : s.Acyclic) {i : NodeId} (hi : s.live i = true) :
    (s.removeNodeG g i = .error (.panic .borrowed) ↔ InTheWay g s i) ∧
    (¬ InTheWay g s i → ∃ t, s.removeNodeG g i = .ok t ∧ s.removeNode i = .ok t) := by
  obtain ⟨F, hF⟩ := C01_forest h
  have hkl : ∀ c ∈ F.kids i, s.live c = true := fun c hc => (hF.wf.kids i hi c hc).1
  obtain ⟨K, hK⟩ := trees_exist h.inv hF ha (F.kids i) hkl
  have hT : (Trees.cons i K .nil).Of F [i] := ⟨[], rfl, hK, rfl⟩
  have h1 := pre_nodup hF ha hT (by simpa using hi) (by simp) (by simp)
  simp only [Trees.pre, List.append_nil] at h1
  have h2 := length_le_of_below h1 (n := s.nextId) fun j hj =>
    h.inv.liveBelow j (pre_live hF hT (by simpa using hi) j (by simpa [Trees.pre] using hj))
  obtain ⟨t, e, -⟩ := removeNode_spec h.inv ha hF hi hK
  have hm : ∀ j, j ∈ i :: K.pre ↔ s.live j = true ∧ s.InSubtree i j := by
    intro j
    constructor
    · intro hj
      rcases List.mem_cons.1 hj with rfl | hj
      · exact ⟨hi, .refl⟩
      · have hlj := pre_live hF hK hkl j hj
        exact ⟨hlj, ((mem_pre_kids hF hi hK hlj).1 hj).to_reflTransGen⟩
    · rintro ⟨hj, hs⟩
      rcases reflTransGen_iff_eq_or_transGen.1 hs with e | hs
      · exact List.mem_cons.2 (.inl e.symm)
      · exact List.mem_cons.2 (.inr ((mem_pre_kids hF hi hK hj).2 hs))
  have hb : InTheWay g s i ↔ Barred g s (i :: K.pre) ∨ Guarded g (s.around i) := by
    unfold InTheWay Barred
    simp only [hm]
    constructor
    · rintro (h3 | ⟨m, h3, h4, h5 | ⟨j, h5, h6 | h6⟩⟩)
      · exact .inr h3
      · exact .inl (.inl ⟨m, ⟨h3, h4⟩, h5⟩)
      · exact .inl (.inr (.inl ⟨m, ⟨h3, h4⟩, j, h5, h6⟩))
      · exact .inl (.inr (.inr ⟨m, ⟨h3, h4⟩, j, h5, h6⟩))
    · rintro ((⟨m, ⟨h3, h4⟩, h5⟩ | ⟨m, ⟨h3, h4⟩, j, h5, h6⟩ | ⟨m, ⟨h3, h4⟩, j, h5, h6⟩) | h3)
      · exact .inr ⟨m, h3, h4, .inl h5⟩
      · exact .inr ⟨m, h3, h4, .inr ⟨j, h5, .inl h6⟩⟩
      · exact .inr ⟨m, h3, h4, .inr ⟨j, h5, .inr h6⟩⟩
      · exact .inl h3
  have key := removeAuxG_of_kids (g := g) (kidsBarred K) (k := s.fuel) h.inv hF hi hK h1
    (by simp only [St.fuel, List.length_cons] at h2 ⊢; omega) e
  rw [← not_or, ← hb] at key
  have hr := Respects.removeNode (g := g) s i
  have e' : s.removeNode i = .ok t := e
  have key' : s.removeNodeG g i = .ok t ↔ ¬ InTheWay g s i := key
  refine ⟨⟨fun e1 => ?_, fun h3 => ?_⟩, fun h3 => ⟨t, key'.2 h3, e'⟩⟩
  · by_contra h3
    rw [key'.2 h3] at e1
    cases e1
  · rcases hr.1 with ⟨h4, -⟩ | h4
    · exact h4
    · exact absurd h3 (key'.1 (h4.trans e'))

/-- A path (6) refers to the gradient (2) with an attribute of another name, and the rectangle (4) by `fill`. -/
def barredHistory : List Op :=
  guardHistory ++ [.createElement (.id .Path), .append 1 6, .setAttribute 6 ⟨.name st!"a", .link 2⟩]

/-- All cases exist. Removing the gradient: a shared borrow of the path, of the parent's other children or of an unrelated node is no
obstacle; a mutable one of the path is, and so is any borrow of the rectangle, of the parent and of the next sibling. Removing the rectangle
needs the gradient. -/
example : ∃ s t, Reachable s ∧ s.Acyclic ∧ s.live 2 = true ∧ s.live 4 = true ∧ s.removeNode 2 = .ok t ∧
    ¬ InTheWay (oneGuard 6 .shared) s 2 ∧ s.removeNodeG (oneGuard 6 .shared) 2 = .ok t ∧
    InTheWay (oneGuard 6 .excl) s 2 ∧ InTheWay (oneGuard 4 .shared) s 2 ∧ InTheWay (oneGuard 1 .shared) s 2 ∧
    InTheWay (oneGuard 3 .shared) s 2 ∧ ¬ InTheWay (oneGuard 5 .excl) s 2 ∧ InTheWay (oneGuard 2 .shared) s 4 := by
  obtain ⟨s, h, e⟩ := exists_of_holds (ops := barredHistory)
    (p := fun s => (decide (s.nextId = 7) && s.acyclicB 7) && (s.live 2 && (s.live 4 &&
      (okAnd (s.removeNodeG (oneGuard 6 .shared) 2) (fun _ => true) &&
      (bPanic (s.removeNodeG (oneGuard 6 .excl) 2) && (bPanic (s.removeNodeG (oneGuard 4 .shared) 2) &&
      (bPanic (s.removeNodeG (oneGuard 1 .shared) 2) && (bPanic (s.removeNodeG (oneGuard 3 .shared) 2) &&
      (okAnd (s.removeNodeG (oneGuard 5 .excl) 2) (fun _ => true) && bPanic (s.removeNodeG (oneGuard 2 .shared) 4))))))))))
    (by decide +kernel)
  simp only [Bool.and_eq_true, decide_eq_true_eq, okAnd_iff, bPanic_iff, and_true] at e
  obtain ⟨⟨h0, h0'⟩, h1, h2, ⟨t, h3⟩, h4, h5, h6, h7, ⟨u, h8⟩, h9⟩ := e
  have ha : s.Acyclic := acyclic_of_check (h0 ▸ h.inv.liveBelow) h0'
  have no : ∀ {g : Guards} {i : NodeId} {v : St}, s.live i = true → s.removeNodeG g i = .ok v → ¬ InTheWay g s i := by
    intro g i v hi e hw
    rw [(C83_node g h ha hi).1.2 hw] at e
    cases e
  exact ⟨s, t, h, ha, h1, h2, (Respects.removeNode s 2).eq_ok h3, no h1 h3, h3, (C83_node _ h ha h1).1.1 h4, (C83_node _ h ha h1).1.1 h5,
    (C83_node _ h ha h1).1.1 h6, (C83_node _ h ha h1).1.1 h7, no h1 h8, (C83_node _ h ha h2).1.1 h9⟩

end Svgdom
