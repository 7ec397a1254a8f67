import Verif.Proof.UnwindNode
import Verif.Proof.UnwindExact
import Verif.Props.Guard

/-!
# C84 – C86: what is left after a panic of a call that does not move a node
-/

set_option autoImplicit false

namespace Svgdom

/-- The functions with the state at the panic do the same as the others. -/
theorem C84_same_calls (g : Guards) {s : St} (h : Reachable s) : (∀ c : DataCall, forget (c.runU g s) = c.op.runG g s) ∧
    ∀ i, s.live i = true → forget (s.copyNodeU i) = s.copyNode i ∧ forget (s.copyNodeDeepU i) = s.copyNodeDeep i :=
  ⟨dataCall_agrees g s, fun i hi => ⟨copyNodeU_agrees (h.inv.liveBelow i hi), copyNodeDeepU_agrees h.inv hi⟩⟩

/-- C84, `copy_node`: only the root and elements can cause a panic. For the root nothing has happened. For an element, the state is one
that calls without a panic could have made: one more node, alone, with the tag name and the attributes up to the first one that links to
a node without an id. -/
theorem C84_copy {s t : St} (h : Reachable s) {i : NodeId} (hi : s.live i = true) {e : Err} (he : s.copyNodeU i = .error (e, t)) :
    (s.nodeType i = .root ∧ t = s) ∨
    (s.nodeType i = .element ∧ Reachable t ∧ Grown s t [s.nextId] ∧ KeepsTree s t ∧
      t.nodeType s.nextId = .element ∧ t.tagName s.nextId = s.tagName i ∧ t.idOf s.nextId = [] ∧
      t.parent s.nextId = none ∧ t.firstChild s.nextId = none ∧
      ∃ a l, s.attributes i = t.attributes s.nextId ++ a :: l ∧ (∃ m, a.value.refersTo m = true ∧ s.idOf m = []) ∧
        ∀ b ∈ t.attributes s.nextId, ∀ m, b.value.refersTo m = true → s.idOf m ≠ []) := by
  have hln : ∀ j, s.live j = true → j ≠ s.nextId := by
    rintro j hj rfl; rw [h.inv.nextId_dead] at hj; simp at hj
  rcases copyNodeU_err h hi he with ⟨h1, h2, -⟩ | ⟨h1, -, h2, h3, h4, h5, h6, ⟨a, l, h7, ⟨m, h8, h9⟩, h10⟩, h11⟩
  · exact .inl ⟨h1, h2⟩
  · obtain ⟨F, hF⟩ := C01_forest h
    have hG := h11 F hF
    have hn : t.live s.nextId = true := (h3.live _).2 (.inr (by simp))
    refine .inr ⟨h1, h2, h3, fun F hF => ⟨_, h11 F hF, fun j hj => ?_⟩, h4, h5, h6, ?_, ?_, a, l, h7,
      ⟨m, refersTo_iff.2 h8, h9⟩, fun b hb m hm => h10 b hb m (refersTo_iff.1 hm)⟩
    · simp [Forest.add, hln j hj]
    · rw [hG.shows.parent _ hn]; simp [Forest.add]
    · rw [hG.shows.first _ hn]; simp [Forest.add]

/-- C84, `copy_node_deep`: the state is one that calls without a panic could have made, with some more nodes; the tree of the old nodes
and their data are unchanged. -/
theorem C84_deep {s t : St} (h : Reachable s) {i : NodeId} (hi : s.live i = true) {e : Err} (he : s.copyNodeDeepU i = .error (e, t)) :
    Reachable t ∧ (∃ l, Grown s t l) ∧ KeepsTree s t := copyNodeDeepU_err h hi he

/-- An error with this cause, and a state with this property. -/
def errAnd {α : Type} (r : Except (Err × St) α) (x : Err) (p : St → Bool) : Bool :=
  match r with
  | .ok _ => false
  | .error (e, t) => decide (e = x) && p t

theorem errAnd_iff {α : Type} {r : Except (Err × St) α} {x : Err} {p : St → Bool} :
    errAnd r x p = true ↔ ∃ t, r = .error (x, t) ∧ p t = true := by
  rcases r with ⟨e, u⟩ | a
  · simp only [errAnd, Bool.and_eq_true, decide_eq_true_eq, Except.error.injEq, Prod.mk.injEq]
    constructor
    · rintro ⟨rfl, h⟩; exact ⟨u, ⟨rfl, rfl⟩, h⟩
    · rintro ⟨t, ⟨rfl, rfl⟩, h⟩; exact ⟨rfl, h⟩
  · simp [errAnd]

def uPanic {α : Type} : Except Err α → Bool
  | .error (.panic .unwrap) => true
  | _ => false

theorem uPanic_iff {α : Type} {r : Except Err α} : uPanic r = true ↔ r = .error (.panic .unwrap) := by
  unfold uPanic; split <;> simp_all

/-- A rectangle (4) that is filled with one gradient (2) and stroked with another one (3), which then loses its id. The rectangle is in
a group (5). -/
def strayHistory : List Op :=
  [.createElement (.id .Svg), .append 0 1, .createElement (.id .LinearGradient), .append 1 2, .setId 2 st!"a",
   .createElement (.id .RadialGradient), .append 1 3, .setId 3 st!"b", .createElement (.id .Rect), .createElement (.id .G),
   .append 1 5, .append 5 4, .setAttribute 4 ⟨.id .Fill, .funcLink 2⟩, .setAttribute 4 ⟨.id .Stroke, .funcLink 3⟩, .setId 3 []]

/-- Both copies can panic. -/
example : ∃ s t u, Reachable s ∧ s.live 4 = true ∧ s.live 5 = true ∧ s.copyNodeU 4 = .error (.panic .unwrap, t) ∧
    s.copyNodeDeepU 5 = .error (.panic .unwrap, u) ∧ u.nextId = s.nextId + 2 := by
  obtain ⟨s, h, e⟩ := exists_of_holds (ops := strayHistory)
    (p := fun s => s.live 4 && s.live 5 && errAnd (s.copyNodeU 4) (.panic .unwrap) (fun _ => true) &&
      errAnd (s.copyNodeDeepU 5) (.panic .unwrap) (fun u => decide (u.nextId = s.nextId + 2))) (by decide +kernel)
  simp only [Bool.and_eq_true, decide_eq_true_eq, errAnd_iff] at e
  obtain ⟨⟨⟨h1, h2⟩, t, h3, -⟩, u, h4, h5⟩ := e
  exact ⟨s, t, u, h, h1, h2, h3, h4, h5⟩

/-! ## C85 -/

/-- C85 is false: `copy_node` of the rectangle panics, since the gradient of its stroke has no id. A half-made copy remains in the
storage of the document, without a parent, and the other gradient is now used twice. -/
theorem C85_refuted : ∃ s t, Reachable s ∧ s.live 4 = true ∧ s.copyNodeU 4 = .error (.panic .unwrap, t) ∧
    s.slab.nodes.length = 6 ∧ t.slab.nodes.length = 7 ∧ 6 ∈ t.slab.nodes ∧ t.parent 6 = none ∧
    s.linkedNodes 2 = [4] ∧ t.linkedNodes 2 = [4, 6] := by
  obtain ⟨s, h, e⟩ := exists_of_holds (ops := strayHistory)
    (p := fun s => s.live 4 && (errAnd (s.copyNodeU 4) (.panic .unwrap) fun t =>
      decide (s.slab.nodes.length = 6) && (decide (t.slab.nodes.length = 7) && (decide (6 ∈ t.slab.nodes) &&
      (decide (t.parent 6 = none) && (decide (s.linkedNodes 2 = [4]) && decide (t.linkedNodes 2 = [4, 6]))))))) (by decide +kernel)
  simp only [Bool.and_eq_true, decide_eq_true_eq, errAnd_iff] at e
  obtain ⟨h1, t, h2, h3⟩ := e
  exact ⟨s, t, h, h1, h2, h3⟩

/-- C85, what holds: without borrows, a panic of a call that sets or removes data has changed nothing, in any state. -/
theorem C85_data_partial {s t : St} (c : DataCall) {e : Err} (he : c.runU St.noGuards s = .error (e, t)) : t = s :=
  dataCall_err c he fun i _ => by simp [St.noGuards]

/-- C85, the copies, exactly: a panic has changed nothing only if the root was to be copied; otherwise there is at least one new node. -/
theorem C85_copy_iff {s t : St} (h : Reachable s) {i : NodeId} (hi : s.live i = true) {e : Err}
    (he : s.copyNodeU i = .error (e, t) ∨ s.copyNodeDeepU i = .error (e, t)) :
    (t = s ↔ i = s.rootId) ∧ (i ≠ s.rootId → s.nextId < t.nextId) := by
  have key : (s.nodeType i = .root ∧ t = s) ∨ s.nextId < t.nextId := by
    rcases he with he | he
    · rcases copyNodeU_err h hi he with ⟨h1, h2, _⟩ | ⟨_, _, _, h2, _⟩
      · exact .inl ⟨h1, h2⟩
      · exact .inr (by rw [h2.next]; simp)
    · exact copyNodeDeepU_next h hi he
  have hroot : i = s.rootId → t = s := by
    intro hr
    have hty := (h.nodesOk.root i hi).2 hr
    rcases he with he | he
    · rcases copyNodeU_err h hi he with ⟨_, h2, _⟩ | ⟨h1, _⟩
      · exact h2
      · rw [hty] at h1; cases h1
    · unfold St.copyNodeDeepU at he
      rw [bind_err] at he
      rcases he with he | ⟨⟨s1, n⟩, e1, he⟩
      · rcases copyNodeU_err h hi he with ⟨_, h2, _⟩ | ⟨h1, _⟩
        · exact h2
        · rw [hty] at h1; cases h1
      · unfold St.copyNodeU at e1
        rw [hty] at e1
        cases e1
  refine ⟨⟨fun hs => ?_, hroot⟩, fun hne => ?_⟩
  · rcases key with ⟨h1, _⟩ | h1
    · exact (h.nodesOk.root i hi).1 h1
    · rw [hs] at h1; exact absurd h1 (Nat.lt_irrefl _)
  · rcases key with ⟨h1, _⟩ | h1
    · exact absurd ((h.nodesOk.root i hi).1 h1) hne
    · exact h1

/-- Such panics: an empty tag name, and a link to a node without an id. -/
example : ∃ s, Reachable s ∧ s.live 2 = true ∧ s.live 4 = true ∧
    DataCall.runU St.noGuards s (.setTagName 2 (.name [])) = .error (.panic .emptyTagName, s) ∧
    DataCall.runU St.noGuards s (.setAttribute 4 ⟨.id .Fill, .funcLink 3⟩) = .error (.panic .unwrap, s) := by
  obtain ⟨s, h, e⟩ := exists_of_holds (ops := strayHistory)
    (p := fun s => s.live 2 && s.live 4 &&
      errAnd (DataCall.runU St.noGuards s (.setTagName 2 (.name []))) (.panic .emptyTagName) (fun _ => true) &&
      errAnd (DataCall.runU St.noGuards s (.setAttribute 4 ⟨.id .Fill, .funcLink 3⟩)) (.panic .unwrap) (fun _ => true))
    (by decide +kernel)
  simp only [Bool.and_eq_true, errAnd_iff] at e
  obtain ⟨⟨⟨h1, h2⟩, t, h3, -⟩, u, h4, -⟩ := e
  have e3 := C85_data_partial _ h3
  have e4 := C85_data_partial _ h4
  subst e3
  subst e4
  exact ⟨_, h, h1, h2, h3, h4⟩

/-! ## C86 -/

/-- C86 is false.
* `rect.remove_attribute(Fill)` while `rect.attributes()` is held: the panic comes after the gradient has forgotten the rectangle; the
  attribute remains. When the guard is gone, the same call panics again, now on a missing back reference.
* `rect.set_attribute((Stroke, gradient))` while `gradient.id()` is held: the panic comes after the attribute was stored; the gradient
  does not know of it, and the rectangle cannot get rid of it. -/
theorem C86_refuted : ∃ s t u, Reachable s ∧ s.live 2 = true ∧ s.live 4 = true ∧
    DataCall.runU (oneGuard 4 .shared) s (.removeAttribute 4 (.id .Fill)) = .error (.panic .borrowed, t) ∧
    t.attributes 4 = [⟨.id .Fill, .paint 2 none⟩] ∧ s.linkedNodes 2 = [4] ∧ t.linkedNodes 2 = [] ∧
    t.removeAttribute 4 (.id .Fill) = .error (.panic .unwrap) ∧
    DataCall.runU (oneGuard 2 .shared) s (.setAttribute 4 ⟨.id .Stroke, .funcLink 2⟩) = .error (.panic .borrowed, u) ∧
    u.attributes 4 = [⟨.id .Fill, .paint 2 none⟩, ⟨.id .Stroke, .paint 2 none⟩] ∧ u.linkedNodes 2 = [4] ∧
    (∃ v, u.removeAttribute 4 (.id .Fill) = .ok v ∧ v.removeAttribute 4 (.id .Stroke) = .error (.panic .unwrap) ∧
      v.removeNode 4 = .error (.panic .unwrap)) := by
  obtain ⟨s, h, e⟩ := exists_of_holds (ops := guardHistory)
    (p := fun s => s.live 2 && (s.live 4 &&
      (errAnd (DataCall.runU (oneGuard 4 .shared) s (.removeAttribute 4 (.id .Fill))) (.panic .borrowed) (fun t =>
        decide (t.attributes 4 = [⟨.id .Fill, .paint 2 none⟩]) && (decide (s.linkedNodes 2 = [4]) && (decide (t.linkedNodes 2 = []) &&
        uPanic (t.removeAttribute 4 (.id .Fill))))) &&
      errAnd (DataCall.runU (oneGuard 2 .shared) s (.setAttribute 4 ⟨.id .Stroke, .funcLink 2⟩)) (.panic .borrowed) (fun u =>
        decide (u.attributes 4 = [⟨.id .Fill, .paint 2 none⟩, ⟨.id .Stroke, .paint 2 none⟩]) && (decide (u.linkedNodes 2 = [4]) &&
        okAnd (u.removeAttribute 4 (.id .Fill)) (fun v => uPanic (v.removeAttribute 4 (.id .Stroke)) &&
          uPanic (v.removeNode 4))))))) (by decide +kernel)
  simp only [Bool.and_eq_true, decide_eq_true_eq, errAnd_iff, okAnd_iff, uPanic_iff] at e
  obtain ⟨h1, h2, ⟨t, h3, h4, h5, h6, h7⟩, u, h8, h9, h10, h11⟩ := e
  exact ⟨s, t, u, h, h1, h2, h3, h4, h5, h6, h7, h8, h9, h10, h11⟩

/-- C86, what holds in any state: if the caller has no shared borrow of the node, or of the node that a new value links to, a panic has
changed nothing. -/
theorem C86_partial {g : Guards} {s t : St} (c : DataCall) {e : Err} (he : c.runU g s = .error (e, t))
    (hg : ∀ i ∈ c.op.handles, g i ≠ .shared) : t = s := dataCall_err c he hg

/-- C86, `remove_attribute`, exactly: a panic has changed nothing, or the caller has a shared borrow of the node, and the only change is
that the node is gone from the list of the node that the attribute links to. -/
theorem C86_remove_partial {g : Guards} {s t : St} {i : NodeId} {x : AName} {e : Err} (he : s.removeAttributeU g i x = .error (e, t)) :
    t = s ∨ (g i = .shared ∧ ∃ n, s.oldTarget i x = some n ∧ g n = .free ∧ (s.linkedNodes n).Perm (i :: t.linkedNodes n) ∧
      ∃ l, t = s.setD n fun d => { d with linkedNodes := l }) := by
  rcases removeAttributeU_shared he with h | ⟨h1, n, k, h2, h3, h4, rfl⟩
  · exact .inl h
  · refine .inr ⟨h1, n, h2, h3, ?_, (s.linkedNodes n).eraseIdx k, ?_⟩
    · obtain ⟨hk, hp, -⟩ := List.findIdx?_eq_some_iff_getElem.1 h4
      have hp := of_decide_eq_true hp
      have := (List.getElem_cons_eraseIdx_perm hk).symm
      rw [hp] at this
      simpa [St.linkedNodes, St.setD] using this
    · unfold St.setD
      congr 1

/-- Panics as in the two theorems. -/
example : ∃ s t u, Reachable s ∧ DataCall.runU (oneGuard 2 .shared) s (.removeAttribute 4 (.id .Fill)) = .error (.panic .borrowed, t) ∧
    (∀ i ∈ (DataCall.removeAttribute 4 (.id .Fill)).op.handles, oneGuard 2 .shared i ≠ .shared) ∧
    s.removeAttributeU (oneGuard 4 .shared) 4 (.id .Fill) = .error (.panic .borrowed, u) := by
  obtain ⟨s, h, e⟩ := exists_of_holds (ops := guardHistory)
    (p := fun s => errAnd (DataCall.runU (oneGuard 2 .shared) s (.removeAttribute 4 (.id .Fill))) (.panic .borrowed) (fun _ => true) &&
      errAnd (s.removeAttributeU (oneGuard 4 .shared) 4 (.id .Fill)) (.panic .borrowed) (fun _ => true)) (by decide +kernel)
  simp only [Bool.and_eq_true, errAnd_iff] at e
  obtain ⟨⟨t, h3, -⟩, u, h4, -⟩ := e
  exact ⟨s, t, u, h, h3, by simp [DataCall.op, Op.handles, oneGuard], h4⟩

/-- C86, exactly: after a panic of a call that sets or removes data, references and back references of the nodes agree exactly if the call
has changed nothing at all. -/
theorem C86_iff {g : Guards} {s t : St} (h : Reachable s) (c : DataCall) (hh : ∀ i ∈ c.op.handles, s.live i = true) {e : Err}
    (he : c.runU g s = .error (e, t)) :
    (∀ i j, t.live i = true → t.live j = true → (t.linkedNodes j).count i = refCount (t.attributes i) j) ↔ t = s := by
  constructor
  · intro ha
    rcases dataCall_mismatch h.inv.link c hh he with h1 | ⟨i, j, hi, hj, hne⟩
    · exact h1
    · exact absurd ((ha i j hi hj).trans (refCount_eq _ _)) hne
  · rintro rfl i j hi hj
    exact (h.inv.link.count i j hi hj).trans (refCount_eq _ _).symm

/-- A panic that has changed something, and one that has not. -/
example : ∃ s t, Reachable s ∧ DataCall.runU (oneGuard 2 .shared) s (.removeAttribute 4 (.id .Fill)) = .error (.panic .borrowed, s) ∧
    (∀ i ∈ (DataCall.removeAttribute 4 (.id .Fill)).op.handles, s.live i = true) ∧
    DataCall.runU (oneGuard 4 .shared) s (.removeAttribute 4 (.id .Fill)) = .error (.panic .borrowed, t) ∧
    s.linkedNodes 2 = [4] ∧ t.linkedNodes 2 = [] := by
  obtain ⟨s, h, e⟩ := exists_of_holds (ops := guardHistory)
    (p := fun s => s.live 4 && (decide (s.linkedNodes 2 = [4]) &&
      (errAnd (DataCall.runU (oneGuard 2 .shared) s (.removeAttribute 4 (.id .Fill))) (.panic .borrowed) (fun _ => true) &&
      errAnd (DataCall.runU (oneGuard 4 .shared) s (.removeAttribute 4 (.id .Fill))) (.panic .borrowed)
        (fun t => decide (t.linkedNodes 2 = []))))) (by decide +kernel)
  simp only [Bool.and_eq_true, errAnd_iff, decide_eq_true_eq] at e
  obtain ⟨h1, h2, ⟨u, h3, -⟩, t, h4, h5⟩ := e
  obtain rfl := C86_partial _ h3 (by simp [DataCall.op, Op.handles, oneGuard])
  exact ⟨u, t, h, h3, by simpa [DataCall.op, Op.handles] using h1, h4, h2, h5⟩

end Svgdom
