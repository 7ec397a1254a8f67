import Verif.Proof.Abort
import Verif.Props.Iter

/-!
# C76, C77: panics that are caught, and dropping the document while a panic unwinds the stack
-/

set_option autoImplicit false

namespace Svgdom

/-- The functions with the state at a panic agree with those that all other claims are about. -/
theorem runU_agrees (m : Mv) (s : St) (x y : NodeId) : forget (m.runU s x y) = m.run s x y := by
  cases m
  · exact appendU_agrees s x y
  · exact prependU_agrees s x y
  · exact insertAfterU_agrees s x y
  · exact insertBeforeU_agrees s x y

/-- All four methods start with the assertion and the detach. -/
theorem runU_form (m : Mv) (s : St) (x y : NodeId) : ∃ rest : St → Except (Err × St) St,
    m.runU s x y = (do s.fails (assertOrPanic (x != y)); let u ← s.detachCoreU [x, y] y; rest u) := by
  cases m <;> exact ⟨_, rfl⟩

theorem touching_blocked {s : St} (h : Reachable s) {x y : NodeId} (hy : s.live y = true) (hne : x ≠ y)
    (hself : s.parent y ≠ some y) : s.blocked [x, y] y ↔ Touching s y x := by
  obtain ⟨F, hF⟩ := C01_forest h
  rw [(h.inv.reps hF).blocked_iff hy, touching_iff hF hy hne hself]

/-- In an acyclic state a panic is the assertion or happens in the detach, except for `insert_after` of the parent of a last child. -/
theorem runU_error {s t : St} (h : Reachable s) (ha : s.Acyclic) {m : Mv} {x y : NodeId} (hx : s.live x = true) (hy : s.live y = true)
    (hm : m = .insertAfter → s.lastChild y ≠ some x) {e : Err} (er : m.runU s x y = .error (e, t)) :
    (x = y ∧ t = s) ∨ (x ≠ y ∧ s.detachCoreU [x, y] y = .error (e, t)) := by
  obtain ⟨rest, hr⟩ := runU_form m s x y
  have hag := runU_agrees m s x y
  rw [er] at hag
  have hsx : s.parent x ≠ some x := fun hh => ha x hx (.single hh)
  have hsy : s.parent y ≠ some y := fun hh => ha y hy (.single hh)
  by_cases hxy : x = y
  · left
    rw [hr, hxy] at er
    simp [assertOrPanic, St.fails, Except.mapError, bind, Except.bind] at er
    exact ⟨hxy, er.2.symm⟩
  · right
    refine ⟨hxy, ?_⟩
    rw [hr] at er
    have hne : (x != y) = true := by simp [hxy]
    simp only [assertOrPanic, hne, if_true, St.fails, Except.mapError, bind, Except.bind] at er
    cases hd : s.detachCoreU [x, y] y with
    | error z => rw [hd] at er; simpa using er
    | ok u =>
      exfalso
      have hok : s.detachCore [x, y] y = .ok u := by rw [← detachCoreU_agrees, hd]; rfl
      have hnt : ¬ Touching s y x := by
        rw [← touching_blocked h hy hxy hsy]
        intro hb
        rw [St.detachCore_blocked s _ _ hb] at hok
        simp at hok
      obtain ⟨v, hv⟩ : ∃ v, m.run s x y = .ok v := by
        cases m
        · exact (C04_append_partial h hx hy hsx hsy).2.2 hxy hnt
        · exact (C04_prepend_partial h hx hy hsx hsy).2.2 hxy hnt
        · exact (C04_insertAfter_partial h hx hy hsx hsy).2.2 hxy hnt (hm rfl)
        · exact (C04_insertBefore_partial h hx hy hsx hsy).2.2 hxy hnt
      rw [hv] at hag
      simp [forget, Except.mapError] at hag

/-! ## C76 -/

/-- C76: "after a panic the tree is as before" is false. Node 1 has the children 2, 3, 4; `1.append(2)` panics (C04), and if the
program catches this panic, it finds only child 2 from the front, which in turn knows no parent. -/
theorem C76_refuted : ∃ s t, Reachable s ∧ s.Acyclic ∧ s.live 1 = true ∧ s.live 2 = true ∧ s.childList 1 = .ok [2, 3, 4] ∧
    s.appendU 1 2 = .error (.panic .borrowed, t) ∧ t.childList 1 = .ok [2] ∧ t.parent 2 = none ∧ t.parent 3 = some 1 ∧
    t.lastChild 1 = some 4 ∧ ¬ ∃ F, Describes t F := by
  obtain ⟨s, h, e⟩ := exists_of_holds
    (ops := [.createElement (.id .Svg), .createElement (.id .G), .createElement (.id .Rect), .createElement (.id .Path),
      .append 1 2, .append 1 3, .append 1 4])
    (p := fun s => s.live 1 && s.live 2 && s.acyclicB s.nextId && decide (s.childList 1 = .ok [2, 3, 4]) &&
      (match s.appendU 1 2 with
        | .ok _ => false
        | .error (e, t) => decide (e = .panic .borrowed) && decide (t.childList 1 = .ok [2]) && decide (t.parent 2 = none) &&
            decide (t.parent 3 = some 1) && decide (t.lastChild 1 = some 4) && decide (t.firstChild 1 = some 2) && t.live 1))
    (by decide +kernel)
  simp only [Bool.and_eq_true, decide_eq_true_eq] at e
  obtain ⟨⟨⟨⟨h1, h2⟩, h3⟩, h4⟩, h5⟩ := e
  split at h5
  · simp at h5
  · next x t hx =>
    simp only [Bool.and_eq_true, decide_eq_true_eq] at h5
    obtain ⟨⟨⟨⟨⟨⟨rfl, g1⟩, g2⟩, g3⟩, g4⟩, g5⟩, g6⟩ := h5
    refine ⟨s, t, h, acyclic_of_check h.inv.liveBelow h3, h1, h2, h4, hx, g1, g2, g3, g4, ?_⟩
    rintro ⟨F, hF⟩
    rw [hF.shows.first 1 g6] at g5
    have := hF.wf.kids 1 g6 2 (List.mem_of_mem_head? g5)
    rw [hF.shows.parent 2 this.1, this.2] at g2
    simp at g2

/-- C76, what holds in acyclic states: the assertion changes nothing; no panic changes the data of a node, the storage or the links
of any node but the moved one and one neighbour. -/
theorem C76_links_partial {s t : St} (h : Reachable s) (ha : s.Acyclic) {m : Mv} {x y : NodeId} (hx : s.live x = true)
    (hy : s.live y = true) (hm : m = .insertAfter → s.lastChild y ≠ some x) {e : Err} (er : m.runU s x y = .error (e, t)) :
    OnlyLinks s t ∧ (x = y → t = s) ∧ ∃ n, ∀ j, j ≠ y → j ≠ n → t.links j = s.links j := by
  obtain ⟨F, hF⟩ := C01_forest h
  have hl := loose_of_describes hF (fun i hi hp => ha i hi (.single hp))
  rcases runU_error h ha hx hy hm er with ⟨_, rfl⟩ | ⟨hne, er⟩
  · exact ⟨.refl _, fun _ => rfl, y, fun _ _ _ => rfl⟩
  · rcases detachCoreU_loose hl [x, y] hy with ⟨u, e2, _⟩ | ⟨u, e2, _, ho, hn⟩
    · rw [er] at e2; simp at e2
    · rw [er] at e2
      simp only [Except.error.injEq, Prod.mk.injEq] at e2
      obtain ⟨_, rfl⟩ := e2
      exact ⟨ho, fun hh => absurd hh hne, hn⟩

/-- C76, exactly: in acyclic states a panic of a move leaves the tree intact only if the two nodes were the same (the assertion).
In all other cases the links between nodes no longer describe any forest. -/
theorem C76_iff {s t : St} (h : Reachable s) (ha : s.Acyclic) {m : Mv} {x y : NodeId} (hx : s.live x = true)
    (hy : s.live y = true) {e : Err} (er : m.runU s x y = .error (e, t)) :
    (t = s ↔ x = y) ∧ ((∃ F, Describes t F) ↔ x = y) := by
  have hsy : s.parent y ≠ some y := fun hh => ha y hy (.single hh)
  have key : (x = y ∧ t = s) ∨ (x ≠ y ∧ ¬ ∃ F, Describes t F) := by
    by_cases hm : m = .insertAfter → s.lastChild y ≠ some x
    · rcases runU_error h ha hx hy hm er with hh | ⟨hne, er⟩
      · exact .inl hh
      · exact .inr ⟨hne, half_detached h hy hsy er⟩
    · simp only [Classical.not_imp, not_not] at hm
      obtain ⟨rfl, hl⟩ := hm
      obtain ⟨F, hF⟩ := C01_forest h
      have st := abort_state' (h.inv.reps hF) ha hy hl er
      refine .inr ⟨(last_not_blocked hF ha hy hl).1, st.stuck.not_describes (by rw [st.live]; exact hx) st.child.2.1 ?_⟩
      rw [st.child.2.2]; simp
  rcases key with ⟨h1, h2⟩ | ⟨h1, h2⟩
  · subst h2
    exact ⟨by simp [h1], by simp only [h1, iff_true]; exact C01_forest h⟩
  · exact ⟨⟨fun hh => absurd (hh ▸ C01_forest h) h2, fun hh => absurd hh h1⟩, fun hh => absurd hh h2, fun hh => absurd hh h1⟩

/-! ## C77 -/

/-- C77: "dropping the document while a panic unwinds the stack does not panic again" is false: `2.insert_after(1)` for the only child 2
of 1 panics after 1 was made its own parent, and then `Drop for Document` panics, too. A panic during unwinding aborts the process. -/
theorem C77_refuted : ∃ s t, Reachable s ∧ s.Acyclic ∧ s.live 1 = true ∧ s.live 2 = true ∧
    s.insertAfterU 2 1 = .error (.panic .borrowed, t) ∧ t.dropDocument = .error (.panic .borrowed) := by
  obtain ⟨s, h, e⟩ := exists_of_holds
    (ops := [.createElement (.id .Svg), .createElement (.id .G), .append 1 2])
    (p := fun s => s.live 1 && s.live 2 && s.acyclicB s.nextId &&
      (match s.insertAfterU 2 1 with
        | .ok _ => false
        | .error (e, t) => decide (e = .panic .borrowed) && isBorrowPanic t.dropDocument)) (by decide +kernel)
  simp only [Bool.and_eq_true] at e
  obtain ⟨⟨⟨h1, h2⟩, h3⟩, h5⟩ := e
  split at h5
  · simp at h5
  · next x t hx =>
    simp only [Bool.and_eq_true, decide_eq_true_eq, isBorrowPanic_iff] at h5
    obtain ⟨rfl, g1⟩ := h5
    exact ⟨s, t, h, acyclic_of_check h.inv.liveBelow h3, h1, h2, hx, g1⟩

/-- C77, what holds: after every other panic of a move in an acyclic state the document can be dropped. -/
theorem C77_partial {s t : St} (h : Reachable s) (ha : s.Acyclic) {m : Mv} {x y : NodeId} (hx : s.live x = true)
    (hy : s.live y = true) (hm : m = .insertAfter → s.lastChild y ≠ some x) {e : Err} (er : m.runU s x y = .error (e, t)) :
    ∃ u, t.dropDocument = .ok u := by
  obtain ⟨F, hF⟩ := C01_forest h
  have hl := loose_of_describes hF (fun i hi hp => ha i hi (.single hp))
  have hst := (C24_slots h).2
  rcases runU_error h ha hx hy hm er with ⟨_, rfl⟩ | ⟨hne, er⟩
  · exact hl.drop _ hst (by simp)
  · rcases detachCoreU_loose hl [x, y] hy with ⟨u, e2, _⟩ | ⟨u, e2, h1, ho, hn⟩
    · rw [er] at e2; simp at e2
    · rw [er] at e2
      simp only [Except.error.injEq, Prod.mk.injEq] at e2
      obtain ⟨_, rfl⟩ := e2
      exact h1.drop _ (by rw [ho.slab, ho.live]; exact hst) (by simp)

/-- C77, exactly: after a panic of a move in an acyclic state the document can be dropped, unless the call was `insert_after` of the
parent of a last child and the document stores that parent. -/
theorem C77_iff {s t : St} (h : Reachable s) (ha : s.Acyclic) {m : Mv} {x y : NodeId} (hx : s.live x = true)
    (hy : s.live y = true) {e : Err} (er : m.runU s x y = .error (e, t)) :
    (∃ u, t.dropDocument = .ok u) ↔ ¬ (m = .insertAfter ∧ s.lastChild y = some x ∧ s.isDetached y = false) := by
  by_cases hm : m = .insertAfter → s.lastChild y ≠ some x
  · refine ⟨fun _ hh => hm hh.1 hh.2.1, fun _ => C77_partial h ha hx hy hm er⟩
  · simp only [Classical.not_imp, not_not] at hm
    obtain ⟨rfl, hl⟩ := hm
    obtain ⟨F, hF⟩ := C01_forest h
    have st := abort_state' (h.inv.reps hF) ha hy hl er
    have hlv : ∀ n ∈ t.slab.nodes, t.live n = true := by rw [st.slab, st.live]; exact (C24_slots h).2
    have hmem := C24_detached h hy
    constructor
    · rintro ⟨u, eu⟩ ⟨_, _, hd⟩
      have := st.stuck.drop t.slab.nodes hlv (by rw [st.slab]; exact hmem.1 hd)
      rw [St.dropDocument, this] at eu
      simp at eu
    · intro hh
      obtain ⟨ord, hlo⟩ := st.loose
      refine hlo.drop _ hlv fun n hn hy2 => ?_
      cases hy2
      rw [st.slab] at hn
      exact hh ⟨rfl, hl, hmem.2 hn⟩

/-- Both cases of C77_iff occur: in the second one node 1 was removed before, and then got a child. -/
example : (∃ s t, Reachable s ∧ s.Acyclic ∧ s.live 1 = true ∧ s.live 2 = true ∧ s.lastChild 1 = some 2 ∧ s.isDetached 1 = false ∧
      Mv.insertAfter.runU s 2 1 = .error (.panic .borrowed, t)) ∧
    ∃ s t, Reachable s ∧ s.Acyclic ∧ s.live 1 = true ∧ s.live 2 = true ∧ s.lastChild 1 = some 2 ∧ s.isDetached 1 = true ∧
      Mv.insertAfter.runU s 2 1 = .error (.panic .borrowed, t) := by
  have key : ∀ (ops : List Op) (b : Bool), holds ops (fun s => s.live 1 && s.live 2 && s.acyclicB s.nextId &&
      decide (s.lastChild 1 = some 2) && decide (s.isDetached 1 = b) && isBorrowPanic (s.insertAfter 2 1)) = true →
      ∃ s t, Reachable s ∧ s.Acyclic ∧ s.live 1 = true ∧ s.live 2 = true ∧ s.lastChild 1 = some 2 ∧ s.isDetached 1 = b ∧
        Mv.insertAfter.runU s 2 1 = .error (.panic .borrowed, t) := by
    intro ops b hh
    obtain ⟨s, h, e⟩ := exists_of_holds hh
    simp only [Bool.and_eq_true, decide_eq_true_eq, isBorrowPanic_iff] at e
    obtain ⟨⟨⟨⟨⟨h1, h2⟩, h3⟩, h4⟩, h5⟩, h6⟩ := e
    have h6 : Mv.insertAfter.run s 2 1 = .error (.panic .borrowed) := h6
    rw [← runU_agrees] at h6
    cases hr : Mv.insertAfter.runU s 2 1 with
    | ok t => rw [hr] at h6; simp [forget, Except.mapError] at h6
    | error z =>
      rw [hr] at h6
      obtain ⟨z, t⟩ := z
      simp only [forget, Except.mapError, Except.error.injEq] at h6
      exact ⟨s, t, h, acyclic_of_check h.inv.liveBelow h3, h1, h2, h4, h5, by rw [hr, h6]⟩
  exact ⟨key [.createElement (.id .Svg), .createElement (.id .G), .append 1 2] false (by decide +kernel),
    key [.createElement (.id .Svg), .createElement (.id .G), .removeNode 1, .append 1 2] true (by decide +kernel)⟩

/-- The hypotheses of C76_links_partial and C77_partial: each of the four methods can panic. -/
example : ∃ s, Reachable s ∧ s.Acyclic ∧ s.live 1 = true ∧ s.live 2 = true ∧ s.live 3 = true ∧ s.lastChild 3 ≠ some 2 ∧
    (∃ t, Mv.append.runU s 1 2 = .error (.panic .borrowed, t)) ∧ (∃ t, Mv.prepend.runU s 1 2 = .error (.panic .borrowed, t)) ∧
    (∃ t, Mv.insertAfter.runU s 2 3 = .error (.panic .borrowed, t)) ∧ ∃ t, Mv.insertBefore.runU s 2 3 = .error (.panic .borrowed, t) := by
  obtain ⟨s, h, e⟩ := exists_of_holds
    (ops := [.createElement (.id .Svg), .createElement (.id .G), .createElement (.id .Rect), .createElement (.id .Path),
      .append 1 2, .append 1 3, .append 1 4])
    (p := fun s => s.live 1 && s.live 2 && s.live 3 && s.acyclicB s.nextId && decide (s.lastChild 3 ≠ some 2) &&
      isBorrowPanic (s.append 1 2) && isBorrowPanic (s.prepend 1 2) && isBorrowPanic (s.insertAfter 2 3) &&
      isBorrowPanic (s.insertBefore 2 3)) (by decide +kernel)
  simp only [Bool.and_eq_true, decide_eq_true_eq, isBorrowPanic_iff] at e
  obtain ⟨⟨⟨⟨⟨⟨⟨⟨h1, h2⟩, h3⟩, h4⟩, h5⟩, h6⟩, h7⟩, h8⟩, h9⟩ := e
  have key : ∀ (m : Mv) x y, m.run s x y = .error (.panic .borrowed) → ∃ t, m.runU s x y = .error (.panic .borrowed, t) := by
    intro m x y hm
    rw [← runU_agrees] at hm
    cases hr : m.runU s x y with
    | ok t => rw [hr] at hm; simp [forget, Except.mapError] at hm
    | error z =>
      rw [hr] at hm
      obtain ⟨z, t⟩ := z
      simp only [forget, Except.mapError, Except.error.injEq] at hm
      exact ⟨t, by rw [hm]⟩
  exact ⟨s, h, acyclic_of_check h.inv.liveBelow h4, h1, h2, h3, h5, key .append 1 2 h6, key .prepend 1 2 h7, key .insertAfter 2 3 h8,
    key .insertBefore 2 3 h9⟩

end Svgdom
