import Verif.Proof.Respect
import Verif.Props.Exact

/-!
# C81 – C83: calls while the caller holds borrows
-/

set_option autoImplicit false

namespace Svgdom

theorem outcome_of_eq {g : Guards} {same : Prop} {need : List NodeId} {plain r : Except Err St} (P : Prop) [Decidable P]
    (hs : same → r = .error (.panic .assertFailed))
    (hr : ¬ same → r = if P then .error (.panic .borrowed) else plain)
    (h1 : ¬ same → Guarded g need → P ∨ plain = .error (.panic .borrowed))
    (h2 : ¬ same → P → Guarded g need) : GuardedOutcome g same need plain r := by
  refine ⟨hs, fun hn hg => ?_, fun hn hg => ?_⟩
  · rw [hr hn]
    rcases h1 hn hg with h | h
    · rw [if_pos h]
    · rw [h, ite_self]
  · rw [hr hn, if_neg fun h => hg (h2 hn h)]

theorem blocked_plain {α : Type} {s : St} {p c : NodeId} (h : s.blocked [p, c] c) (f : St → Except Err α) :
    (s.detachCore [p, c] c >>= f) = .error (.panic .borrowed) := by
  rw [St.detachCore_blocked _ _ _ h]; rfl

section
variable {g : Guards} {s : St}
open scoped Classical

/-- C81, `n.detach()`: the node and the neighbours that get new pointers. -/
theorem C81_detach (g : Guards) (s : St) (n : NodeId) :
    GuardedOutcome g False (n :: s.around n) (s.detach n) (s.detachG g n) :=
  outcome_of_eq _ False.elim (fun _ => detachG_eq n) (fun _ h => .inl h) fun _ h => h

theorem not_blocked_plain {p c : NodeId} {α : Type} (hne : p ≠ c) (f : St → Except Err α) (hb : s.blocked [p, c] c) :
    (assertOrPanic (p != c) >>= fun _ => s.detachCore [p, c] c >>= f) = .error (.panic .borrowed) := by
  have ha : assertOrPanic (p != c) = .ok () := by simp [assertOrPanic, hne]
  rw [ha]
  exact blocked_plain hb _

theorem mem_around {c n : NodeId} : n ∈ s.around c ↔
    (s.nextSibling c).or (s.parent c) = some n ∨ (s.prevSibling c).or (s.parent c) = some n := by
  simp [St.around]

/-- C81, `p.append(c)`: in addition the parent and its last child. -/
theorem C81_append (g : Guards) (h : Reachable s) {p c : NodeId} (hc : s.live c = true) :
    GuardedOutcome g (p = c) (p :: c :: s.around c ++ (s.lastChild p).toList) (s.append p c) (s.appendG g p c) := by
  have hl : (s.detached c).lastChild p = if s.nextSibling c = none ∧ s.parent c = some p then s.prevSibling c else s.lastChild p := by
    simp only [St.lastChild, St.detached, St.detachedLinks, St.prevSibling]
    split <;> rfl
  refine outcome_of_eq _ (fun e => ?_) (fun hne => appendG_eq hne) (fun hne hg => ?_) (fun hne hg => ?_)
  · subst e; simp [St.appendG, assertOrPanic, bind, Except.bind]
  · by_cases hb : s.blocked [p, c] c
    · exact .inr (not_blocked_plain hne _ hb)
    left
    rw [guarded_append] at hg
    rcases hg with hg | hg
    · exact .inl hg
    obtain ⟨l, hll, hgl⟩ := guarded_toList.1 hg
    by_cases hlc : l = c
    · subst hlc; exact .inl (by simp [guarded_cons, hgl])
    refine .inr ⟨hb, guarded_toList.2 ⟨l, ?_, hgl⟩⟩
    rw [hl, if_neg, hll]
    rintro ⟨h1, h2⟩
    have := ((C01_neighbours h hc).2.2.2.2 h2).2.2 h1
    rw [hll] at this
    exact hlc (Option.some.inj this)
  · rw [guarded_append]
    rcases hg with hg | ⟨_, hg⟩
    · exact .inl hg
    obtain ⟨l, hll, hgl⟩ := guarded_toList.1 hg
    rw [hl] at hll
    split at hll
    · exact .inl ⟨l, by simp [mem_around, hll], hgl⟩
    · exact .inr (guarded_toList.2 ⟨l, hll, hgl⟩)

/-- C81, `p.prepend(c)`: in addition the parent and its first child. -/
theorem C81_prepend (g : Guards) (h : Reachable s) {p c : NodeId} (hc : s.live c = true) :
    GuardedOutcome g (p = c) (p :: c :: s.around c ++ (s.firstChild p).toList) (s.prepend p c) (s.prependG g p c) := by
  have hl : (s.detached c).firstChild p =
      if s.prevSibling c = none ∧ s.parent c = some p then s.nextSibling c else s.firstChild p := rfl
  refine outcome_of_eq _ (fun e => ?_) (fun hne => prependG_eq hne) (fun hne hg => ?_) (fun hne hg => ?_)
  · subst e; simp [St.prependG, assertOrPanic, bind, Except.bind]
  · by_cases hb : s.blocked [p, c] c
    · exact .inr (not_blocked_plain hne _ hb)
    left
    rw [guarded_append] at hg
    rcases hg with hg | hg
    · exact .inl hg
    obtain ⟨l, hll, hgl⟩ := guarded_toList.1 hg
    by_cases hlc : l = c
    · subst hlc; exact .inl (by simp [guarded_cons, hgl])
    refine .inr ⟨hb, guarded_toList.2 ⟨l, ?_, hgl⟩⟩
    rw [hl, if_neg, hll]
    rintro ⟨h1, h2⟩
    have := ((C01_neighbours h hc).2.2.2.2 h2).2.1 h1
    rw [hll] at this
    exact hlc (Option.some.inj this)
  · rw [guarded_append]
    rcases hg with hg | ⟨_, hg⟩
    · exact .inl hg
    obtain ⟨l, hll, hgl⟩ := guarded_toList.1 hg
    rw [hl] at hll
    split at hll
    · exact .inl ⟨l, by simp [mem_around, hll], hgl⟩
    · exact .inr (guarded_toList.2 ⟨l, hll, hgl⟩)

/-- C81, `x.insert_after(y)`: in addition the node and its next sibling, or its parent if there is none. -/
theorem C81_insertAfter (g : Guards) (h : Reachable s) {x y : NodeId} (hx : s.live x = true) (hy : s.live y = true) :
    GuardedOutcome g (x = y) (x :: y :: s.around y ++ ((s.nextSibling x).or (s.parent x)).toList)
      (s.insertAfter x y) (s.insertAfterG g x y) := by
  refine outcome_of_eq _ (fun e => ?_) (fun hne => insertAfterG_eq hne) (fun hne hg => ?_) (fun hne hg => ?_)
  · subst e; simp [St.insertAfterG, assertOrPanic, bind, Except.bind]
  · by_cases hb : s.blocked [x, y] y
    · exact .inr (not_blocked_plain hne _ hb)
    left
    have hl : (s.detached y).nextSibling x =
        if s.prevSibling y = some x then s.nextSibling y else if x = y then none else s.nextSibling x := rfl
    rw [if_neg hne] at hl
    rw [guarded_append] at hg
    rcases hg with hg | hg
    · exact .inl hg
    obtain ⟨l, hll, hgl⟩ := guarded_toList.1 hg
    by_cases hlc : l = y
    · subst hlc; exact .inl (by simp [guarded_cons, hgl])
    refine .inr ⟨hb, guarded_toList.2 ⟨l, ?_, hgl⟩⟩
    rw [hl, if_neg, hll]
    intro h1
    rw [(C01_next_prev h hx hy).2 h1] at hll
    exact hlc (Option.some.inj hll).symm
  · have hl : (s.detached y).nextSibling x =
        if s.prevSibling y = some x then s.nextSibling y else if x = y then none else s.nextSibling x := rfl
    rw [if_neg hne] at hl
    rw [guarded_append]
    rcases hg with hg | ⟨_, hg⟩
    · exact .inl hg
    obtain ⟨l, hll, hgl⟩ := guarded_toList.1 hg
    rw [hl] at hll
    split at hll
    · next h1 =>
      have := ((C01_neighbours h hy).2.1 h1).2.1
      rw [this] at hll
      exact .inl ⟨l, by simp [mem_around, hll], hgl⟩
    · exact .inr (guarded_toList.2 ⟨l, hll, hgl⟩)

/-- C81, `x.insert_before(y)`: in addition the node and its previous sibling, or its parent if there is none. -/
theorem C81_insertBefore (g : Guards) (h : Reachable s) {x y : NodeId} (hx : s.live x = true) (hy : s.live y = true) :
    GuardedOutcome g (x = y) (x :: y :: s.around y ++ ((s.prevSibling x).or (s.parent x)).toList)
      (s.insertBefore x y) (s.insertBeforeG g x y) := by
  refine outcome_of_eq _ (fun e => ?_) (fun hne => insertBeforeG_eq hne) (fun hne hg => ?_) (fun hne hg => ?_)
  · subst e; simp [St.insertBeforeG, assertOrPanic, bind, Except.bind]
  · by_cases hb : s.blocked [x, y] y
    · exact .inr (not_blocked_plain hne _ hb)
    left
    have hl : (s.detached y).prevSibling x =
        if s.nextSibling y = some x then s.prevSibling y else s.prevSibling x := by
      simp only [St.prevSibling, St.detached, St.detachedLinks, hne, if_false]
      split <;> rfl
    rw [guarded_append] at hg
    rcases hg with hg | hg
    · exact .inl hg
    obtain ⟨l, hll, hgl⟩ := guarded_toList.1 hg
    by_cases hlc : l = y
    · subst hlc; exact .inl (by simp [guarded_cons, hgl])
    refine .inr ⟨hb, guarded_toList.2 ⟨l, ?_, hgl⟩⟩
    rw [hl, if_neg, hll]
    intro h1
    rw [(C01_next_prev h hy hx).1 h1] at hll
    exact hlc (Option.some.inj hll).symm
  · have hl : (s.detached y).prevSibling x =
        if s.nextSibling y = some x then s.prevSibling y else s.prevSibling x := by
      simp only [St.prevSibling, St.detached, St.detachedLinks, hne, if_false]
      split <;> rfl
    rw [guarded_append]
    rcases hg with hg | ⟨_, hg⟩
    · exact .inl hg
    obtain ⟨l, hll, hgl⟩ := guarded_toList.1 hg
    rw [hl] at hll
    split at hll
    · next h1 =>
      have := ((C01_neighbours h hy).1 h1).2.1
      rw [this] at hll
      exact .inl ⟨l, by simp [mem_around, hll], hgl⟩
    · exact .inr (guarded_toList.2 ⟨l, hll, hgl⟩)

/-- C81: the documented nodes are enough: if neither node and none of their adjoining nodes is borrowed, the result is the one without
guards. -/
theorem C81_documented (g : Guards) (h : Reachable s) {x y : NodeId} (hx : s.live x = true) (hy : s.live y = true) (hne : x ≠ y)
    (hg : ¬ Guarded g (x :: y :: s.adjoining x ++ s.adjoining y)) :
    s.detachG g y = s.detach y ∧ s.appendG g x y = s.append x y ∧ s.prependG g x y = s.prepend x y ∧
    s.insertAfterG g x y = s.insertAfter x y ∧ s.insertBeforeG g x y = s.insertBefore x y := by
  have key : ∀ l : List NodeId, (∀ n ∈ l, n ∈ x :: y :: s.adjoining x ++ s.adjoining y) → ¬ Guarded g l :=
    fun l hl ⟨n, hn, hgn⟩ => hg ⟨n, hl n hn, hgn⟩
  have ha : ∀ n ∈ s.around y, n ∈ x :: y :: s.adjoining x ++ s.adjoining y := by
    intro n hn
    rw [mem_around] at hn
    simp only [Option.or_eq_some_iff] at hn
    simp only [St.adjoining, List.cons_append, List.mem_cons, List.mem_append, Option.mem_toList]
    tauto
  have hb : ∀ n, (s.firstChild x = some n ∨ s.lastChild x = some n ∨ (s.nextSibling x).or (s.parent x) = some n ∨
      (s.prevSibling x).or (s.parent x) = some n) → n ∈ x :: y :: s.adjoining x ++ s.adjoining y := by
    intro n hn
    simp only [Option.or_eq_some_iff] at hn
    simp only [St.adjoining, List.cons_append, List.mem_cons, List.mem_append, Option.mem_toList]
    tauto
  refine ⟨(C81_detach g s y).2.2 id (key _ fun n hn => ?_), (C81_append g h hy).2.2 hne (key _ fun n hn => ?_),
    (C81_prepend g h hy).2.2 hne (key _ fun n hn => ?_), (C81_insertAfter g h hx hy).2.2 hne (key _ fun n hn => ?_),
    (C81_insertBefore g h hx hy).2.2 hne (key _ fun n hn => ?_)⟩
  all_goals
    simp only [List.cons_append, List.mem_cons, List.mem_append, Option.mem_toList] at hn
  · rcases hn with rfl | hn
    · simp
    · exact ha n hn
  all_goals
    rcases hn with rfl | rfl | hn | hn
    · simp
    · simp
    · exact ha n hn
    · exact hb n (by tauto)

end

/-- A tree for the examples: below `svg` (1) a gradient (2), a group (3), a rectangle (4) that links to the gradient, and a text (5). -/
def guardHistory : List Op :=
  [.createElement (.id .Svg), .append 0 1, .createElement (.id .LinearGradient), .append 1 2, .setId 2 st!"lg",
   .createElement (.id .G), .append 1 3, .createElement (.id .Rect), .append 1 4, .setAttribute 4 ⟨.id .Fill, .funcLink 2⟩,
   .createNode .text st!"abc", .append 1 5]

/-- The caller holds one guard. -/
def oneGuard (n : NodeId) (x : Guard) : Guards := fun j => if j = n then x else .free

/-- A borrowed parent is one of the documented nodes, but detaching its middle child does not need it. A borrowed sibling is needed. -/
example : ∃ s t, Reachable s ∧ s.live 3 = true ∧ 1 ∈ s.adjoining 3 ∧ s.detachG (oneGuard 1 .excl) 3 = .ok t ∧ s.detach 3 = .ok t ∧
    s.detachG (oneGuard 4 .shared) 3 = .error (.panic .borrowed) := by
  obtain ⟨s, h, e⟩ := exists_of_holds (ops := guardHistory)
    (p := fun s => s.live 3 && decide (1 ∈ s.adjoining 3) && decide (¬ Guarded (oneGuard 1 .excl) (3 :: s.around 3)) &&
      decide (Guarded (oneGuard 4 .shared) (3 :: s.around 3)) && okAnd (s.detach 3) (fun _ => true)) (by decide +kernel)
  simp only [Bool.and_eq_true, decide_eq_true_eq, okAnd_iff] at e
  obtain ⟨⟨⟨⟨h1, h2⟩, h3⟩, h4⟩, t, h5, -⟩ := e
  exact ⟨s, t, h, h1, h2, by rw [(C81_detach _ s 3).2.2 id h3, h5], h5, (C81_detach _ s 3).2.1 id h4⟩

/-! ## C82 -/

/-- C82: with guards on existing nodes, every call panics because of a guard or does the same as without guards; if it returns, nothing
that is borrowed was changed. -/
theorem C82_call {g : Guards} {s : St} (h : Reachable s) (hg : ∀ j, g j ≠ .free → s.live j = true) (op : Op)
    (hl : ∀ i ∈ op.handles, s.live i = true) : Respects g id s (op.runG g s) (op.run s) := .run h.inv hg op hl

/-- C82, dropping the document. -/
theorem C82_drop (g : Guards) (s : St) : Respects g id s (s.dropDocumentG g) s.dropDocument := .dropLoop _ _

theorem finishRemoveG_free {g : Guards} {s t : St} {i : NodeId} (e : s.finishRemoveG g i = .ok t) : g i = .free := by
  by_contra hi
  unfold St.finishRemoveG at e
  rw [wr_guarded hi] at e
  cases e

/-- C82: `remove_node` returns only if no node of the subtree is borrowed. -/
theorem C82_remove {g : Guards} {s t : St} (h : Reachable s) (ha : s.Acyclic) {i : NodeId} (hi : s.live i = true)
    (e : s.removeNodeG g i = .ok t) {j : NodeId} (hj : s.live j = true) (hs : s.InSubtree i j) : g j = .free := by
  have hr := Respects.removeNode (g := g) s i
  rcases Relation.reflTransGen_iff_eq_or_transGen.1 hs with rfl | hs'
  · unfold St.removeNodeG at e
    cases hk : s.fuel with
    | zero => rw [hk] at e; cases e
    | succ k =>
      rw [hk] at e
      unfold St.removeAuxG at e
      simp only [bind_ok] at e
      obtain ⟨_, _, _, _, _, _, _, _, _, _, _, _, _, _, e⟩ := e
      exact finishRemoveG_free e
  · by_contra hg
    have e' := hr.eq_ok e
    have h1 := ((C20_getters h ha hi e').1 j hj hs).2.1
    have h2 := (hr.2 t e j hg).1
    obtain ⟨p, hp, -⟩ := Relation.TransGen.head'_iff.1 hs'
    have : s.parent j = some p := hp
    obtain ⟨F, hF⟩ := C01_forest h
    obtain ⟨t', S, e2, -, hrm, -⟩ := C20_remove h ha hF hi
    rw [e'] at e2
    cases e2
    have h2' : t.links j = s.links j := h2
    simp only [St.parent, ← h2'] at this
    simp only [St.parent, St.upgrade, hrm.live] at h1
    simp only [St.upgrade] at this
    rw [h1] at this
    cases this

theorem dropLoopG_free {g : Guards} : ∀ (l : List NodeId) {s t : St}, s.dropLoopG g l = .ok t → ∀ n ∈ l, g n = .free
  | [], _, _, _, n, hn => by cases hn
  | m :: l, s, t, e, n, hn => by
    unfold St.dropLoopG at e
    rw [bind_ok] at e
    obtain ⟨u, e1, e2⟩ := e
    rcases List.mem_cons.1 hn with rfl | hn
    · by_contra hg
      unfold St.dropOneG at e1
      rw [wr_guarded hg] at e1
      cases e1
    · exact dropLoopG_free l e2 n hn

/-- C82: dropping the document while a node in its storage is borrowed panics. -/
theorem C82_drop_stored {g : Guards} {s t : St} (e : s.dropDocumentG g = .ok t) {n : NodeId} (hn : n ∈ s.slab.nodes) :
    g n = .free := dropLoopG_free _ e n hn

def bPanic {α : Type} : Except Err α → Bool
  | .error (.panic .borrowed) => true
  | _ => false

theorem bPanic_iff {α : Type} {r : Except Err α} : bPanic r = true ↔ r = .error (.panic .borrowed) := by
  unfold bPanic; split <;> simp_all

/-- Guards on other nodes do not disturb a removal; a guard on a node deep in the subtree does. -/
example : ∃ s t, Reachable s ∧ s.Acyclic ∧ s.live 1 = true ∧ s.live 3 = true ∧ s.InSubtree 1 3 ∧ s.removeNode 1 = .ok t ∧
    s.removeNodeG (oneGuard 6 .shared) 1 = .ok t ∧ s.live 6 = true ∧
    s.removeNodeG (oneGuard 3 .shared) 1 = .error (.panic .borrowed) := by
  obtain ⟨s, h, e⟩ := exists_of_holds (ops := guardHistory ++ [.createElement (.id .Path)])
    (p := fun s => (decide (s.nextId = 7) && s.acyclicB 7) && s.live 1 && s.live 3 && s.live 6 && decide (s.parent 3 = some 1) &&
      okAnd (s.removeNodeG (oneGuard 6 .shared) 1) (fun _ => true) &&
      bPanic (s.removeNodeG (oneGuard 3 .shared) 1)) (by decide +kernel)
  simp only [Bool.and_eq_true, decide_eq_true_eq, okAnd_iff] at e
  obtain ⟨⟨⟨⟨⟨⟨⟨h0, h0'⟩, h1⟩, h2⟩, h3⟩, h4⟩, t, h5, -⟩, h6⟩ := e
  exact ⟨s, t, h, acyclic_of_check (h0 ▸ h.inv.liveBelow) h0', h1, h2, .single h4, (Respects.removeNode s 1).eq_ok h5, h5, h3,
    bPanic_iff.1 h6⟩

/-! ## C83 -/

/-- C83, `remove_attribute`: a mutable borrow of the node always matters; otherwise, if there is such an attribute, also a shared one,
and a borrow of the node it links to. -/
theorem C83_remove_partial (g : Guards) {s : St} (h : Reachable s) {i : NodeId} (hi : s.live i = true) (x : AName) :
    (g i = .excl → s.removeAttributeG g i x = .error (.panic .borrowed)) ∧
    (s.hasAttribute i x = true → Guarded g (i :: (s.oldTarget i x).toList) → s.removeAttributeG g i x = .error (.panic .borrowed)) ∧
    (g i ≠ .excl → s.hasAttribute i x = false → s.removeAttributeG g i x = .ok s) ∧
    (¬ Guarded g (i :: (s.oldTarget i x).toList) → s.removeAttributeG g i x = s.removeAttribute i x) := by
  have e := St.removeAttribute_ok h.inv.link hi x
  rw [removeAttributeG_eq e]
  refine ⟨fun h1 => by rw [if_pos (.inl h1)], fun h1 h2 => by rw [if_pos (.inr ⟨h1, h2⟩)], fun h1 h2 => ?_, fun h1 => ?_⟩
  · have : s.removeAttribute i x = .ok s := by unfold St.removeAttribute; simp [h2]
    rw [if_neg (by simp [h1, h2]), ← e, this]
  · rw [if_neg, e]
    rintro (h2 | ⟨_, h2⟩)
    · exact h1 ⟨i, by simp, by simp [h2]⟩
    · exact h1 h2

/-- C83, `set_attribute_checked`: where it would set the attribute, the node, the node the new value links to and the node the old value
links to must not be borrowed. Where it would report an error, shared borrows do not matter. -/
theorem C83_set_partial (g : Guards) {s t : St} (h : Reachable s) {i : NodeId} (hi : s.live i = true) {a : Attribute}
    {o : Option DomError} (e : s.setAttributeChecked i a = .ok (t, o)) :
    (o = none → Guarded g (i :: a.value.linkNode.toList ++ (s.oldTarget i a.name).toList) →
      s.setAttributeCheckedG g i a = .error (.panic .borrowed)) ∧
    (o = none → ¬ Guarded g (i :: a.value.linkNode.toList ++ (s.oldTarget i a.name).toList) →
      s.setAttributeCheckedG g i a = .ok (t, none)) ∧
    (o ≠ none → (∀ j ∈ i :: a.value.linkNode.toList, g j ≠ .excl) → s.setAttributeCheckedG g i a = .ok (t, o)) := by
  refine ⟨?_, ?_, fun ho hg => ?_⟩
  · rintro rfl hg; rw [setAttributeCheckedG_exact h.inv.link hi e, if_pos hg]
  · rintro rfl hg; rw [setAttributeCheckedG_exact h.inv.link hi e, if_neg hg]
  · cases o with
    | none => exact absurd rfl ho
    | some o => exact setAttributeCheckedG_err e (hg i (by simp)) fun n hn => hg n (by simp [hn])

/-- C83 is false as documented. Only one node is borrowed, and it is none of those named in the documentation of the called method:
* `rect.set_attribute((Stroke, gradient))` while `gradient.id()` is held;
* `rect.remove_attribute(Fill)` while the `id()` of the gradient it links to is held;
* `remove_node(rect)` in the same situation, the gradient being neither adjoining nor below;
* `text.set_text(..)` while `text.text()` is held, which is no mutable borrow;
* `rect.has_parent()` while the parent is borrowed mutably;
* `svg_element()` while the `svg` element, not the root, is borrowed mutably.
All of them panic; without the borrow all of them return. -/
theorem C83_refuted : ∃ s, Reachable s ∧ s.live 1 = true ∧ s.live 2 = true ∧ s.live 4 = true ∧ s.live 5 = true ∧
    (∃ t, s.setAttribute 4 ⟨.id .Stroke, .funcLink 2⟩ = .ok t) ∧
    s.setAttributeG (oneGuard 2 .shared) 4 ⟨.id .Stroke, .funcLink 2⟩ = .error (.panic .borrowed) ∧
    (∃ t, s.removeAttribute 4 (.id .Fill) = .ok t) ∧
    s.removeAttributeG (oneGuard 2 .shared) 4 (.id .Fill) = .error (.panic .borrowed) ∧
    (∃ t, s.removeNode 4 = .ok t) ∧ 2 ∉ s.adjoining 4 ∧ s.parent 2 = some 1 ∧ s.parent 1 = some 0 ∧ s.parent 0 = none ∧
    s.removeNodeG (oneGuard 2 .shared) 4 = .error (.panic .borrowed) ∧
    (∃ t, s.setText 5 st!"x" = .ok t) ∧
    s.setTextG (oneGuard 5 .shared) 5 st!"x" = .error (.panic .borrowed) ∧
    s.hasParentG (oneGuard 1 .excl) 4 = .error (.panic .borrowed) ∧
    s.svgElementG (oneGuard 1 .excl) = .error (.panic .borrowed) ∧ s.rootId = 0 := by
  obtain ⟨s, h, e⟩ := exists_of_holds (ops := guardHistory)
    (p := fun s => s.live 1 && (s.live 2 && (s.live 4 && (s.live 5 &&
      (okAnd (s.setAttribute 4 ⟨.id .Stroke, .funcLink 2⟩) (fun _ => true) &&
      (bPanic (s.setAttributeG (oneGuard 2 .shared) 4 ⟨.id .Stroke, .funcLink 2⟩) &&
      (okAnd (s.removeAttribute 4 (.id .Fill)) (fun _ => true) &&
      (bPanic (s.removeAttributeG (oneGuard 2 .shared) 4 (.id .Fill)) &&
      (okAnd (s.removeNode 4) (fun _ => true) && (decide (2 ∉ s.adjoining 4) && (decide (s.parent 2 = some 1) &&
      (decide (s.parent 1 = some 0) && (decide (s.parent 0 = none) &&
      (bPanic (s.removeNodeG (oneGuard 2 .shared) 4) &&
      (okAnd (s.setText 5 st!"x") (fun _ => true) &&
      (bPanic (s.setTextG (oneGuard 5 .shared) 5 st!"x") &&
      (bPanic (s.hasParentG (oneGuard 1 .excl) 4) && (bPanic (s.svgElementG (oneGuard 1 .excl)) && decide (s.rootId = 0)))))))))))))))))))
    (by decide +kernel)
  simp only [Bool.and_eq_true, decide_eq_true_eq, okAnd_iff, bPanic_iff, and_true] at e
  exact ⟨s, h, e⟩

/-- The situations of the two theorems above exist: an attribute that links to the borrowed node can neither be removed nor
replaced, but an attribute that is missing can be removed although the node is borrowed. -/
example : ∃ s t o, Reachable s ∧ s.live 4 = true ∧ s.hasAttribute 4 (.id .Fill) = true ∧
    Guarded (oneGuard 2 .shared) (4 :: (s.oldTarget 4 (.id .Fill)).toList) ∧ s.hasAttribute 4 (.id .Stroke) = false ∧
    s.removeAttributeG (oneGuard 4 .shared) 4 (.id .Stroke) = .ok s ∧
    s.setAttributeChecked 4 ⟨.id .Fill, .none⟩ = .ok (t, none) ∧
    s.setAttributeCheckedG (oneGuard 2 .shared) 4 ⟨.id .Fill, .none⟩ = .error (.panic .borrowed) ∧
    s.setAttributeChecked 4 ⟨.id .Fill, .link 3⟩ = .ok (s, some o) ∧
    s.setAttributeCheckedG (oneGuard 4 .shared) 4 ⟨.id .Fill, .link 3⟩ = .ok (s, some o) := by
  obtain ⟨s, h, e⟩ := exists_of_holds (ops := guardHistory)
    (p := fun s => s.live 4 && s.hasAttribute 4 (.id .Fill) &&
      decide (Guarded (oneGuard 2 .shared) (4 :: (s.oldTarget 4 (.id .Fill)).toList)) && !s.hasAttribute 4 (.id .Stroke) &&
      okAnd ((s.setAttributeChecked 4 ⟨.id .Fill, .none⟩).map (·.1)) (fun _ => true) && s.isElement 4 &&
      decide (s.idOf 3 = [])) (by decide +kernel)
  simp only [Bool.and_eq_true, decide_eq_true_eq, okAnd_iff, Bool.not_eq_true'] at e
  obtain ⟨⟨⟨⟨⟨⟨h1, h2⟩, h3⟩, h4⟩, t, h5, -⟩, h6⟩, h7⟩ := e
  replace h5 := map_ok h5
  obtain ⟨⟨t', o⟩, h5, -⟩ := h5
  have ho : o = none := by
    unfold St.setAttributeChecked at h5
    rw [bind_ok] at h5
    obtain ⟨_, _, h5⟩ := h5
    dsimp only at h5
    rw [bind_ok] at h5
    obtain ⟨_, _, h5⟩ := h5
    cases h5; rfl
  subst ho
  have e3 : s.setAttributeChecked 4 ⟨.id .Fill, .link 3⟩ = .ok (s, some .elementMustHaveAnId) := by
    unfold St.setAttributeChecked St.setLinkAttribute St.debugAssert
    simp [h6, h7, bind, Except.bind, pure, Except.pure]
  refine ⟨s, t', _, h, h1, h2, h3, h4, (C83_remove_partial _ h h1 _).2.2.1 (by decide) h4, h5, (C83_set_partial _ h h1 h5).1 rfl ?_, e3,
    (C83_set_partial _ h h1 e3).2.2 (by simp) (by decide)⟩
  simpa [AttributeValue.linkNode] using h3

end Svgdom
