import Verif.Props.Iter
import Verif.Proof.Exact
import Verif.Props.Storage

/-!
# C78, C79: the exact panic conditions of the moves, and exactly when a call creates a cycle
-/

set_option autoImplicit false

namespace Svgdom

theorem patched_iff {s : St} {F : Forest} (hF : Describes s F) {c p : NodeId} (hc : s.live c = true) :
    (∃ n ∈ F.patched c, n ∈ [p, c]) ↔ Touching s c p ∨ Touching s c c := by
  simp only [Forest.patched, ← hF.shows.next c hc, ← hF.shows.prev c hc, ← hF.shows.parent c hc, Touching]
  generalize s.nextSibling c = n
  generalize s.prevSibling c = q
  generalize s.parent c = r
  cases n <;> cases q <;> cases r <;>
    simp only [Option.or, Option.toList, List.cons_append, List.nil_append, List.mem_cons, List.not_mem_nil, or_false,
      exists_eq_or_imp, exists_eq_left, Option.some.injEq, ne_eq, reduceCtorEq, false_and, exists_false, false_or,
      and_true, and_false, or_true, not_false_eq_true, or_self] <;> tauto

/-- The outcome of a move: the assertion, a `RefCell` panic exactly under `P`, or a normal return. -/
def Outcome (r : Except Err St) (same : Prop) (P : Prop) : Prop :=
  (same → r = .error (.panic .assertFailed)) ∧ (¬ same → P → r = .error (.panic .borrowed)) ∧ (¬ same → ¬ P → ∃ t, r = .ok t)

/-- C78, `p.append(c)`. -/
theorem C78_append {s : St} (h : Reachable s) {p c : NodeId} (hp : s.live p = true) (hc : s.live c = true) :
    Outcome (s.append p c) (p = c) (Touching s c p ∨ Touching s c c ∨ s.lastChild p = some p) := by
  obtain ⟨F, hF⟩ := C01_forest h
  have hs := append_spec (h.inv.reps hF) hp hc
  have hpi := patched_iff hF hc (p := p)
  have hk : (F.detach c).kids p = (F.kids p).erase c := by simp [Forest.detach]
  rw [hk] at hs
  have hn := hF.wf.kids_nodup hp
  refine ⟨fun e => by simpa [e] using hs, fun hne ht => ?_, fun hne ht => ?_⟩
  · rw [if_neg hne, if_pos] at hs
    · exact hs
    · rcases ht with h1 | h1 | h1
      · exact .inl (hpi.2 (.inl h1))
      · exact .inl (hpi.2 (.inr h1))
      · rw [hF.shows.last p hp] at h1
        exact .inr (last_erase_x hn hne h1)
  · rw [if_neg hne, if_neg] at hs
    · obtain ⟨t, e, _⟩ := hs; exact ⟨t, e⟩
    · rintro (h1 | h1)
      · rcases hpi.1 h1 with h1 | h1
        · exact ht (.inl h1)
        · exact ht (.inr (.inl h1))
      · rcases erase_last_x hn h1 with h2 | ⟨h2, h3⟩
        · exact ht (.inr (.inr (by rw [hF.shows.last p hp]; exact h2)))
        · have hm := List.mem_of_mem_getLast? h2
          have := hF.wf.kids_sibs hp hm
          exact ht (.inl (.inr (.inl (by rw [hF.shows.prev c hc, ← this]; exact h3))))

/-- C78, `p.prepend(c)`. -/
theorem C78_prepend {s : St} (h : Reachable s) {p c : NodeId} (hp : s.live p = true) (hc : s.live c = true) :
    Outcome (s.prepend p c) (p = c) (Touching s c p ∨ Touching s c c ∨ s.firstChild p = some p) := by
  obtain ⟨F, hF⟩ := C01_forest h
  have hs := prepend_spec (h.inv.reps hF) hp hc
  have hpi := patched_iff hF hc (p := p)
  have hk : (F.detach c).kids p = (F.kids p).erase c := by simp [Forest.detach]
  rw [hk] at hs
  have hn := hF.wf.kids_nodup hp
  refine ⟨fun e => by simpa [e] using hs, fun hne ht => ?_, fun hne ht => ?_⟩
  · rw [if_neg hne, if_pos] at hs
    · exact hs
    · rcases ht with h1 | h1 | h1
      · exact .inl (hpi.2 (.inl h1))
      · exact .inl (hpi.2 (.inr h1))
      · rw [hF.shows.first p hp] at h1
        exact .inr (head_erase_x hn hne h1)
  · rw [if_neg hne, if_neg] at hs
    · obtain ⟨t, e, _⟩ := hs; exact ⟨t, e⟩
    · rintro (h1 | h1)
      · rcases hpi.1 h1 with h1 | h1
        · exact ht (.inl h1)
        · exact ht (.inr (.inl h1))
      · rcases erase_head_x hn h1 with h2 | ⟨h2, h3⟩
        · exact ht (.inr (.inr (by rw [hF.shows.first p hp]; exact h2)))
        · have hm := List.mem_of_mem_head? h2
          have := hF.wf.kids_sibs hp hm
          exact ht (.inl (.inl (by rw [hF.shows.next c hc, ← this]; exact h3)))

/-- C78, `x.insert_after(y)`. -/
theorem C78_insertAfter {s : St} (h : Reachable s) {x y : NodeId} (hx : s.live x = true) (hy : s.live y = true) :
    Outcome (s.insertAfter x y) (x = y) (Touching s y x ∨ Touching s y y ∨
      (s.nextSibling x = none ∧ (s.parent x = some x ∨ s.parent x = some y))) := by
  obtain ⟨F, hF⟩ := C01_forest h
  have hs := insertAfter_spec (h.inv.reps hF) hx hy
  have hpi := patched_iff hF hy (p := x)
  have hn := hF.wf.nodup x hx
  refine ⟨fun e => by simpa [e] using hs, fun hne ht => ?_, fun hne ht => ?_⟩
  · have e1 : (F.detach y).sibs x = (F.sibs x).erase y := by simp [Forest.detach, hne]
    have e2 : (F.detach y).par x = F.par x := by simp [Forest.detach, hne]
    rw [e1, e2, ← hF.shows.parent x hx] at hs
    rw [if_neg hne, if_pos] at hs
    · exact hs
    · rcases ht with h1 | h1 | ⟨h1, h2⟩
      · exact .inl (hpi.2 (.inl h1))
      · exact .inl (hpi.2 (.inr h1))
      · rw [hF.shows.next x hx] at h1
        refine .inr ⟨after_erase_x hn hne h1, ?_⟩
        rcases h2 with h2 | h2
        · exact ⟨x, h2, by simp⟩
        · exact ⟨y, h2, by simp⟩
  · have e1 : (F.detach y).sibs x = (F.sibs x).erase y := by simp [Forest.detach, hne]
    have e2 : (F.detach y).par x = F.par x := by simp [Forest.detach, hne]
    rw [e1, e2, ← hF.shows.parent x hx] at hs
    rw [if_neg hne, if_neg] at hs
    · obtain ⟨t, e, _⟩ := hs; exact ⟨t, e⟩
    · rintro (h1 | ⟨h1, p, h2, h3⟩)
      · rcases hpi.1 h1 with h1 | h1
        · exact ht (.inl h1)
        · exact ht (.inr (.inl h1))
      · rcases erase_after_x hn hne h1 with h4 | h4
        · refine ht (.inr (.inr ⟨by rw [hF.shows.next x hx]; exact h4, ?_⟩))
          simp only [List.mem_cons, List.not_mem_nil, or_false] at h3
          rcases h3 with rfl | rfl
          · exact .inl h2
          · exact .inr h2
        · rw [← hF.shows.next x hx] at h4
          exact ht (.inl (.inr (.inl ((C01_next_prev h hx ((C01_neighbours h hx).1 h4).1).1 h4))))

/-- C78, `x.insert_before(y)`. -/
theorem C78_insertBefore {s : St} (h : Reachable s) {x y : NodeId} (hx : s.live x = true) (hy : s.live y = true) :
    Outcome (s.insertBefore x y) (x = y) (Touching s y x ∨ Touching s y y ∨
      (s.prevSibling x = none ∧ s.parent x = some x)) := by
  obtain ⟨F, hF⟩ := C01_forest h
  have hs := insertBefore_spec (h.inv.reps hF) hx hy
  have hpi := patched_iff hF hy (p := x)
  have hn := hF.wf.nodup x hx
  refine ⟨fun e => by simpa [e] using hs, fun hne ht => ?_, fun hne ht => ?_⟩
  · have e1 : (F.detach y).sibs x = (F.sibs x).erase y := by simp [Forest.detach, hne]
    have e2 : (F.detach y).par x = F.par x := by simp [Forest.detach, hne]
    rw [e1, e2, ← hF.shows.parent x hx] at hs
    rw [if_neg hne, if_pos] at hs
    · exact hs
    · rcases ht with h1 | h1 | ⟨h1, h2⟩
      · exact .inl (hpi.2 (.inl h1))
      · exact .inl (hpi.2 (.inr h1))
      · rw [hF.shows.prev x hx] at h1
        exact .inr ⟨before_erase_x hn hne h1, h2⟩
  · have e1 : (F.detach y).sibs x = (F.sibs x).erase y := by simp [Forest.detach, hne]
    have e2 : (F.detach y).par x = F.par x := by simp [Forest.detach, hne]
    rw [e1, e2, ← hF.shows.parent x hx] at hs
    rw [if_neg hne, if_neg] at hs
    · obtain ⟨t, e, _⟩ := hs; exact ⟨t, e⟩
    · rintro (h1 | ⟨h1, h2⟩)
      · rcases hpi.1 h1 with h1 | h1
        · exact ht (.inl h1)
        · exact ht (.inr (.inl h1))
      · rcases erase_before_x hn hne h1 with h4 | h4
        · exact ht (.inr (.inr ⟨by rw [hF.shows.prev x hx]; exact h4, h2⟩))
        · rw [← hF.shows.prev x hx] at h4
          exact ht (.inl (.inl ((C01_next_prev h ((C01_neighbours h hx).2.1 h4).1 hx).2 h4)))

/-- C78, `n.detach()`: it panics exactly if the node is its own parent and has no next or no previous sibling. -/
theorem C78_detach {s : St} (h : Reachable s) {n : NodeId} (hn : s.live n = true) :
    Outcome (s.detach n) False (s.parent n = some n ∧ (s.nextSibling n = none ∨ s.prevSibling n = none)) := by
  obtain ⟨F, hF⟩ := C01_forest h
  have hb := (h.inv.reps hF).blocked_iff hn [n]
  have hpi := patched_iff hF hn (p := n)
  have h1 := (C01_neighbours h hn (j := n)).1
  have h2 := (C01_neighbours h hn (j := n)).2.1
  refine ⟨False.elim, fun _ ht => ?_, fun _ ht => ?_⟩
  · refine St.detachCore_blocked s _ _ (hb.2 ?_)
    obtain ⟨m, hm, hm'⟩ := hpi.2 (.inl (.inr (.inr ht)))
    exact ⟨m, hm, by simpa using hm'⟩
  · refine ⟨_, St.detachCore_ok s _ _ fun hh => ht ?_⟩
    obtain ⟨m, hm, hm'⟩ := hb.1 hh
    have : Touching s n n := by
      rcases hpi.1 ⟨m, hm, by simpa using hm'⟩ with h | h <;> exact h
    rcases this with h3 | h3 | h3
    · exact absurd rfl (h1 h3).2.2
    · exact absurd rfl (h2 h3).2.2
    · exact h3

/-- `C78_append` in its third case: node 1 is its own parent, and appending the unrelated node 3 to it panics. A node that is
its own parent, but between two siblings, can be detached. -/
example : (∃ s, Reachable s ∧ s.live 1 = true ∧ s.live 3 = true ∧ ¬ Touching s 3 1 ∧ ¬ Touching s 3 3 ∧
      s.lastChild 2 = none ∧ s.lastChild 1 = some 2 ∧ s.firstChild 1 = some 1 ∧
      s.prepend 1 3 = .error (.panic .borrowed) ∧ ∃ t, s.append 1 3 = .ok t) ∧
    ∃ s t, Reachable s ∧ s.live 1 = true ∧ s.parent 1 = some 1 ∧ s.detach 1 = .ok t := by
  constructor
  · obtain ⟨s, h, e⟩ := exists_of_holds
      (ops := [.createElement (.id .Svg), .createElement (.id .G), .createElement (.id .G), .append 1 2, .insertBefore 2 1])
      (p := fun s => s.live 1 && s.live 3 && decide (s.nextSibling 3 = none ∧ s.prevSibling 3 = none ∧ s.parent 3 = none) &&
        decide (s.lastChild 2 = none ∧ s.lastChild 1 = some 2 ∧ s.firstChild 1 = some 1)) (by decide +kernel)
    simp only [Bool.and_eq_true, decide_eq_true_eq] at e
    obtain ⟨⟨⟨h1, h3⟩, h4, h5, h6⟩, h7, h8, h9⟩ := e
    have t1 : ¬ Touching s 3 1 := by simp [Touching, h4, h5, h6]
    have t3 : ¬ Touching s 3 3 := by simp [Touching, h4, h5, h6]
    exact ⟨s, h, h1, h3, t1, t3, h7, h8, h9, (C78_prepend h h1 h3).2.1 (by simp) (.inr (.inr h9)),
      (C78_append h h1 h3).2.2 (by simp) (by simp [t1, t3, h8])⟩
  · obtain ⟨s, h, e⟩ := exists_of_holds
      (ops := [.createElement (.id .Svg), .createElement (.id .G), .createElement (.id .G), .append 1 2, .append 1 3,
        .insertBefore 3 1])
      (p := fun s => s.live 1 && decide (s.parent 1 = some 1 ∧ s.nextSibling 1 = some 3 ∧ s.prevSibling 1 = some 2))
      (by decide +kernel)
    simp only [Bool.and_eq_true, decide_eq_true_eq] at e
    obtain ⟨h1, h2, h3, h4⟩ := e
    obtain ⟨t, ht⟩ := (C78_detach h h1).2.2 (by simp) (by simp [h3, h4])
    exact ⟨s, t, h, h1, h2, ht⟩

/-! ## C79 -/

open Relation in
theorem cyclic_move {s t : St} {c q : NodeId} (hc : s.live c = true) (hq : s.live q = true) (hlv : t.live = s.live)
    (hlb : ∀ a b, s.Up a b → s.live a = true → s.live b = true)
    (hpar : ∀ j, s.live j = true → t.parent j = if j = c then some q else s.parent j) (hs : s.InSubtree c q) :
    ¬ t.Acyclic := by
  intro ha
  have key : ∀ j, s.live j = true → s.InSubtree c j → t.InSubtree c j := by
    intro j hj hsub
    induction hsub using ReflTransGen.head_induction_on with
    | refl => exact .refl
    | @head a b hu hrest ih =>
      by_cases hac : a = c
      · subst hac; exact .refl
      · refine ReflTransGen.head (?_ : t.Up a b) (ih (hlb a b hu hj))
        show t.parent a = some b
        rw [hpar a hj, if_neg hac]; exact hu
  refine ha c (by rw [hlv]; exact hc) ?_
  refine TransGen.head' (?_ : t.Up c q) (key q hq hs)
  show t.parent c = some q
  rw [hpar c hc, if_pos rfl]

open Relation in
/-- C79: from an acyclic state, a call that returns leaves an acyclic state exactly if it does not move a node below itself. -/
theorem C79_exact {s t : St} (h : Reachable s) (ha : s.Acyclic) (op : Op) (hl : ∀ i ∈ op.handles, s.live i = true)
    (e : op.run s = .ok t) : t.Acyclic ↔ op.Safe s := by
  refine ⟨fun hat => ?_, fun hs => C05_step_partial h ha op hl hs e⟩
  have hinv := h.inv
  have hlb : ∀ a b, s.Up a b → s.live a = true → s.live b = true := fun a b hu hx =>
    ((C01_neighbours h hx).2.2.2.2 hu).1
  have hanc : ∀ {x y : NodeId}, s.Ancestor y x → ∃ q, s.parent x = some q ∧ s.InSubtree y q := by
    intro x y hxy
    rcases (TransGen.head'_iff).1 hxy with ⟨q, hq, hr⟩
    exact ⟨q, hq, hr⟩
  cases op with
  | append p c =>
    have hp := hl p (by simp [Op.handles])
    have hc := hl c (by simp [Op.handles])
    exact fun hs => cyclic_move hc hp (hinv.append hp hc e).2.live hlb (append_parent hinv hp hc e) hs hat
  | prepend p c =>
    have hp := hl p (by simp [Op.handles])
    have hc := hl c (by simp [Op.handles])
    exact fun hs => cyclic_move hc hp (hinv.prepend hp hc e).2.live hlb (prepend_parent hinv hp hc e) hs hat
  | insertAfter x y =>
    have hx := hl x (by simp [Op.handles])
    have hy := hl y (by simp [Op.handles])
    intro hs
    obtain ⟨q, hq, hr⟩ := hanc hs
    have := insertAfter_parent hinv hx hy e
    rw [hq] at this
    exact cyclic_move hy (hlb x q hq hx) (hinv.insertAfter hx hy e).2.live hlb this hr hat
  | insertBefore x y =>
    have hx := hl x (by simp [Op.handles])
    have hy := hl y (by simp [Op.handles])
    intro hs
    obtain ⟨q, hq, hr⟩ := hanc hs
    have := insertBefore_parent hinv hx hy e
    rw [hq] at this
    exact cyclic_move hy (hlb x q hq hx) (hinv.insertBefore hx hy e).2.live hlb this hr hat
  | _ => trivial

/-- Both sides occur: in a chain of three, inserting the top after the bottom creates a cycle, moving the bottom up does not. -/
example : ∃ s t u, Reachable s ∧ s.Acyclic ∧ s.live 1 = true ∧ s.live 3 = true ∧ s.Ancestor 1 3 ∧
    s.insertAfter 3 1 = .ok t ∧ ¬ t.Acyclic ∧ s.append 1 3 = .ok u ∧ u.Acyclic := by
  obtain ⟨s, h, e⟩ := exists_of_holds
    (ops := [.createElement (.id .Svg), .createElement (.id .G), .createElement (.id .G), .append 1 2, .append 2 3])
    (p := fun s => s.acyclicB s.nextId && s.live 1 && s.live 3 && decide (s.parent 3 = some 2 ∧ s.parent 2 = some 1) &&
      okAnd (s.insertAfter 3 1) (fun _ => true) && okAnd (s.append 1 3) (fun u => u.acyclicB u.nextId)) (by decide +kernel)
  simp only [Bool.and_eq_true, decide_eq_true_eq, okAnd_iff] at e
  obtain ⟨⟨⟨⟨⟨h1, h2⟩, h3⟩, h4, h5⟩, ⟨t, ht, _⟩⟩, ⟨u, hu, hu2⟩⟩ := e
  have ha := acyclic_of_check h.inv.liveBelow h1
  have han : s.Ancestor 1 3 := .head h4 (.single h5)
  refine ⟨s, t, u, h, ha, h2, h3, han, ht, fun hat => ?_, hu, ?_⟩
  · exact (C79_exact h ha (.insertAfter 3 1) (by simp [Op.handles, h2, h3]) ht).1 hat han
  · have hq : Reachable u := .call (.append 1 3) h (by simp [Op.handles, h2, h3]) hu
    exact acyclic_of_check hq.inv.liveBelow hu2

end Svgdom
