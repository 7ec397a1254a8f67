import Verif.Proof.Drop
import Verif.Props.Remove
import Verif.Props.Copy

/-!
# C24-C26: document storage, `Drop`, `svg_element`
-/

set_option autoImplicit false

namespace Svgdom

open Relation

/-! ## C24 -/

/-- C24: `is_detached` tells exactly whether the document stores the node. -/
theorem C24_detached {s : St} (h : Reachable s) {i : NodeId} (hi : s.live i = true) :
    s.isDetached i = false ↔ i ∈ s.slab.nodes := h.inv.slab.stored_iff hi

/-- C24: no node is stored twice, and stored nodes are live. -/
theorem C24_slots {s : St} (h : Reachable s) : s.slab.nodes.Nodup ∧ ∀ n ∈ s.slab.nodes, s.live n = true := by
  refine ⟨h.inv.slab.nodes_nodup, fun n hn => ?_⟩
  rw [Slab.mem_nodes] at hn
  obtain ⟨k, hk⟩ := hn
  exact (h.inv.slab.occ k n hk).1

/-- C24: creating a node stores exactly the new node in addition; creation always has a free slot. -/
theorem C24_create {s : St} (h : Reachable s) :
    (∀ tag : TagName, tag ≠ .name [] → ∃ t n, s.createElement tag = .ok (t, n) ∧ s.live n = false ∧
      ∀ m, m ∈ t.slab.nodes ↔ m ∈ s.slab.nodes ∨ m = n) ∧
    (∀ (ty : NodeType) (text : Str), ty ≠ .element → ty ≠ .root → ∃ t n, s.createNode ty text = .ok (t, n) ∧ s.live n = false ∧
      ∀ m, m ∈ t.slab.nodes ↔ m ∈ s.slab.nodes ∨ m = n) := by
  constructor
  · intro tag htag
    obtain ⟨t, key, e, _, g, _⟩ := newNode_grown h.inv (.fresh .element tag []) rfl rfl
    exact ⟨t, s.nextId, by simp [St.createElement, htag, e], h.inv.nextId_dead, fun m => by simpa using g.stored m⟩
  · intro ty text h1 h2
    obtain ⟨t, key, e, _, g, _⟩ := newNode_grown h.inv (.fresh ty (.name []) text) rfl rfl
    refine ⟨t, s.nextId, ?_, h.inv.nextId_dead, fun m => by simpa using g.stored m⟩
    simp [St.createNode, h1, h2, e, assertOrPanic, bind, Except.bind]

theorem newNode_slab {s t : St} {d : NodeData} {n : NodeId} (e : s.newNode d = .ok (t, n)) :
    ∃ key, s.slab.insert s.nextId = .ok (t.slab, key) := by
  unfold St.newNode at e
  simp only [bind_ok, pure_ok] at e
  obtain ⟨⟨sl, key⟩, e1, e2⟩ := e
  cases e2
  exact ⟨key, e1⟩

/-- C24: slots are reused, creation adds one only if all are occupied. -/
theorem C24_reuse {s t : St} (h : Reachable s) {n : NodeId} :
    (∀ tag : TagName, s.createElement tag = .ok (t, n) → t.slab.entries.length = max s.slab.entries.length (s.slab.nodes.length + 1)) ∧
    (∀ (ty : NodeType) (text : Str), s.createNode ty text = .ok (t, n) →
      t.slab.entries.length = max s.slab.entries.length (s.slab.nodes.length + 1)) := by
  have key : ∀ d, s.newNode d = .ok (t, n) → t.slab.entries.length = max s.slab.entries.length (s.slab.nodes.length + 1) := by
    intro d e
    obtain ⟨key, e⟩ := newNode_slab e
    exact Slab.insert_length h.inv.slab.valid e
  constructor
  · intro tag e
    unfold St.createElement at e
    split at e
    · cases e
    · exact key _ e
  · intro ty text e
    simp only [St.createNode, bind_ok] at e
    obtain ⟨_, _, e⟩ := e
    exact key _ e

/-- C24: only `remove_node` and `drain` take nodes out of the storage. -/
theorem C24_kept {s t : St} (h : Reachable s) (op : Op) (hl : ∀ i ∈ op.handles, s.live i = true) (e : op.run s = .ok t)
    (h1 : ∀ i, op ≠ .removeNode i) (h2 : ∀ i f, op ≠ .drain i f) {n : NodeId} (hn : n ∈ s.slab.nodes) : n ∈ t.slab.nodes := by
  have hinv := h.inv
  have setc : ∀ {i : NodeId} {a : Attribute} {u : St} {r : Option DomError}, s.live i = true →
      s.setAttributeChecked i a = .ok (u, r) → u.slab = s.slab := by
    intro i a u r hi e
    rcases setChecked_cases hinv hi e with ⟨_, _, rfl, _⟩ | ⟨_, rfl, _⟩ <;> rfl
  cases op with
  | createElement tag =>
    obtain ⟨⟨u, m⟩, e1, rfl⟩ := map_ok e; clear e
    simp only [St.createElement] at e1
    split at e1
    · simp at e1
    · obtain ⟨t', key, e', _, g, _⟩ := newNode_grown hinv (.fresh .element tag []) rfl rfl
      rw [e1] at e'; cases e'
      exact (g.stored n).2 (.inl hn)
  | createNode ty text =>
    obtain ⟨⟨u, m⟩, e1, rfl⟩ := map_ok e; clear e
    simp only [St.createNode, bind_ok] at e1
    obtain ⟨_, _, e1⟩ := e1
    obtain ⟨t', key, e', _, g, _⟩ := newNode_grown hinv (.fresh ty (.name []) text) rfl rfl
    rw [e1] at e'; cases e'
    exact (g.stored n).2 (.inl hn)
  | append p c => rw [(hinv.append (hl _ (by simp [Op.handles])) (hl _ (by simp [Op.handles])) e).2.slab]; exact hn
  | prepend p c => rw [(hinv.prepend (hl _ (by simp [Op.handles])) (hl _ (by simp [Op.handles])) e).2.slab]; exact hn
  | insertAfter p c => rw [(hinv.insertAfter (hl _ (by simp [Op.handles])) (hl _ (by simp [Op.handles])) e).2.slab]; exact hn
  | insertBefore p c => rw [(hinv.insertBefore (hl _ (by simp [Op.handles])) (hl _ (by simp [Op.handles])) e).2.slab]; exact hn
  | detach i => have := detach_inv e; subst this; exact hn
  | setText i x =>
    simp only [Op.run, St.setText, bind_ok] at e
    obtain ⟨_, _, e⟩ := e
    simp only [pure, Except.pure, Except.ok.injEq] at e
    subst e; exact hn
  | setId i x =>
    simp only [Op.run, St.setId, bind_ok] at e
    obtain ⟨_, _, e⟩ := e
    simp only [pure, Except.pure, Except.ok.injEq] at e
    subst e; exact hn
  | setTagName i x =>
    simp only [Op.run, St.setTagName, bind_ok] at e
    obtain ⟨_, _, e⟩ := e
    split at e
    · simp [throw, throwThe, MonadExceptOf.throw, bind, Except.bind] at e
    · simp only [pure, Except.pure, Except.ok.injEq] at e
      subst e; exact hn
  | setAttribute i a =>
    rw [setc (hl i (by simp [Op.handles])) (setAttribute_checked e)]; exact hn
  | setAttributeChecked i a =>
    obtain ⟨⟨u, r⟩, e1, rfl⟩ := map_ok e
    rw [setc (hl i (by simp [Op.handles])) e1]; exact hn
  | setAttributeIfNone i a =>
    simp only [Op.run, St.setAttributeIfNone] at e
    split at e
    · rw [setc (hl i (by simp [Op.handles])) (setAttribute_checked e)]; exact hn
    · cases e; exact hn
  | removeAttribute i name =>
    have := St.removeAttribute_ok hinv.link (hl i (by simp [Op.handles])) name
    simp only [Op.run] at e
    rw [this] at e; cases e; exact hn
  | removeNode i => exact absurd rfl (h1 i)
  | drain i f => exact absurd rfl (h2 i f)
  | copyNode i =>
    obtain ⟨⟨u, m⟩, e1, rfl⟩ := map_ok e; clear e
    exact ((copyNode_grown hinv h.nodesOk (hl i (by simp [Op.handles])) e1).2.2.stored n).2 (.inl hn)
  | copyNodeDeep i =>
    obtain ⟨⟨u, m⟩, e1, rfl⟩ := map_ok e; clear e
    obtain ⟨l, _, g⟩ := copyNodeDeep_grown hinv h.nodesOk (hl i (by simp [Op.handles])) e1
    exact (g.stored n).2 (.inl hn)

/-- C24: `remove_node` takes exactly the subtree out of the storage. -/
theorem C24_remove {s t : St} (h : Reachable s) (ha : s.Acyclic) {i : NodeId} (hi : s.live i = true) (e : s.removeNode i = .ok t)
    (n : NodeId) : n ∈ t.slab.nodes ↔ n ∈ s.slab.nodes ∧ ¬ s.InSubtree i n := by
  obtain ⟨F, hF⟩ := C01_forest h
  obtain ⟨t', S, e', hS, hr, -⟩ := C20_remove h ha hF hi
  rw [e] at e'; cases e'
  rw [hr.stored, hS]
  constructor
  · rintro ⟨h1, h2⟩; exact ⟨h1, fun hs => h2 ⟨(C24_slots h).2 n h1, hs⟩⟩
  · rintro ⟨h1, h2⟩; exact ⟨h1, fun hs => h2 hs.2⟩

/-- C24: a node that once left the storage never comes back, whatever is called. -/
theorem C24_never_back {s t : St} (h : Reachable s) (op : Op) (hl : ∀ i ∈ op.handles, s.live i = true) (e : op.run s = .ok t)
    {n : NodeId} (hn : s.live n = true) (hd : s.isDetached n = true) : n ∉ t.slab.nodes := by
  intro hm
  have hno : n ∉ s.slab.nodes := fun hh => by
    rw [(C24_detached h hn).2 hh] at hd; simp at hd
  have hlt := h.inv.liveBelow n hn
  cases hmv : op.isMove with
  | false => exact hno (Inners.not_back h.inv (op_inner h.inv op hl e hmv) hlt hm)
  | true =>
    have hinv := h.inv
    have hf : Frame s t := by
      cases op with
      | append p c => exact (hinv.append (hl _ (by simp [Op.handles])) (hl _ (by simp [Op.handles])) e).2
      | prepend p c => exact (hinv.prepend (hl _ (by simp [Op.handles])) (hl _ (by simp [Op.handles])) e).2
      | insertAfter p c => exact (hinv.insertAfter (hl _ (by simp [Op.handles])) (hl _ (by simp [Op.handles])) e).2
      | insertBefore p c => exact (hinv.insertBefore (hl _ (by simp [Op.handles])) (hl _ (by simp [Op.handles])) e).2
      | _ => simp [Op.isMove] at hmv
    rw [hf.slab] at hm
    exact hno hm

/-- C24: no removal uses an invalid key, even on cyclic structures: the only possible panic is a borrow conflict. -/
theorem C24_key {s : St} (h : Reachable s) {i : NodeId} (hi : s.live i = true) {e : Err} (he : s.removeNode i = .error e) :
    e = .diverge ∨ e = .panic .borrowed := (remove_err s.fuel).1 s i e h.inv hi he

/-- Slots are reused: after the removal of node 2 the new node 7 gets a slot, everything else stays stored. -/
example : ∃ s, Reachable s ∧ s.live 7 = true ∧ s.isDetached 7 = false ∧ s.live 3 = true ∧ s.isDetached 3 = true ∧
    s.slab.entries.length = 7 ∧ s.slab.nodes.length = 4 := by
  obtain ⟨s, h, e⟩ := exists_of_holds (ops := removeHistory ++ [.removeNode 2, .createElement (.id .Path)])
    (p := fun s => s.live 7 && decide (s.isDetached 7 = false) && (s.live 3 && s.isDetached 3) &&
      (decide (s.slab.entries.length = 7) && decide (s.slab.nodes.length = 4)))
    (by decide +kernel)
  simp only [Bool.and_eq_true, decide_eq_true_eq] at e
  exact ⟨s, h, e.1.1.1, e.1.1.2, e.1.2.1, e.1.2.2, e.2.1, e.2.2⟩

/-! ## C25 -/

/-- C25: dropping the document does not panic if no node is its own parent; afterwards no stored node has attributes, back
references, a parent or siblings, and no stored node is a child of any node. -/
theorem C25_drop {s : St} (h : Reachable s) (hns : ∀ i, s.live i = true → s.parent i ≠ some i) :
    ∃ t, s.dropDocument = .ok t ∧ t.slab = s.slab ∧ t.live = s.live ∧
      (∀ n ∈ t.slab.nodes, t.attributes n = [] ∧ t.linkedNodes n = [] ∧ t.parent n = none ∧ t.nextSibling n = none ∧
        t.prevSibling n = none) ∧
      (∀ n ∈ t.slab.nodes, ∀ p, t.live p = true → t.firstChild p ≠ some n ∧ t.lastChild p ≠ some n ∧ t.nextSibling p ≠ some n) := by
  obtain ⟨F, hF⟩ := C01_forest h
  have hst := (C24_slots h).2
  have hdr : Droppable s F := ⟨h.inv.reps hF, fun i hi => by rw [← hF.shows.parent i hi]; exact hns i hi⟩
  obtain ⟨t, G, e, hG, hlv, hsl, hd, hg⟩ := dropLoop_ok hdr hst
  refine ⟨t, e, hsl, hlv, ?_, ?_⟩
  · intro n hn
    rw [hsl] at hn
    have hl := hst n hn
    have hl' : t.live n = true := by rw [hlv]; exact hl
    obtain ⟨g1, g2⟩ := (hg n hl).2.1 hn
    refine ⟨by simp [St.attributes, hd, hn], by simp [St.linkedNodes, hd, hn], ?_, ?_, ?_⟩
    · rw [hG.reps.shows.parent n hl', g1]
    · rw [hG.reps.shows.next n hl', g2]; simp [after]
    · rw [hG.reps.shows.prev n hl', g2]; simp [before]
  · intro n hn p hp
    rw [hsl] at hn
    have hl := hst n hn
    have hk : n ∉ G.kids p := by
      rw [hlv] at hp
      rw [(hg p hp).2.2]; simp [hn]
    refine ⟨?_, ?_, ?_⟩
    · rw [hG.reps.shows.first p hp]; exact fun hh => hk (List.mem_of_mem_head? hh)
    · rw [hG.reps.shows.last p hp]; exact fun hh => hk (List.mem_of_getLast? hh)
    · rw [hG.reps.shows.next p hp]
      intro hh
      have h1 := (hG.reps.wf.sib p hp n (after_mem hh)).2.1
      have h2 := hG.reps.wf.self_mem p hp
      rw [← h1, ((hg n hl).2.1 hn).2, List.mem_singleton] at h2
      subst h2
      rw [((hg p hl).2.1 hn).2] at hh
      simp [after] at hh

/-- C25, for acyclic states. -/
theorem C25_acyclic {s : St} (h : Reachable s) (ha : s.Acyclic) : ∃ t, s.dropDocument = .ok t ∧
    (∀ n ∈ s.slab.nodes, t.attributes n = [] ∧ t.linkedNodes n = [] ∧ t.parent n = none ∧ t.nextSibling n = none ∧
      t.prevSibling n = none) ∧
    (∀ p ∈ s.slab.nodes, ∀ c ∈ s.slab.nodes, t.firstChild p ≠ some c) := by
  obtain ⟨t, e, hsl, hlv, h1, h2⟩ := C25_drop h (fun i hi hp => ha i hi (.single hp))
  rw [hsl] at h1 h2
  exact ⟨t, e, h1, fun p hp c hc => (h2 c hc p (by rw [hlv]; exact (C24_slots h).2 p hp)).1⟩

/-- The condition is needed: `insert_before` can make a node its own parent, and then dropping the document panics. -/
theorem C25_needs_acyclic : ∃ s, Reachable s ∧ ¬ s.Acyclic ∧ s.dropDocument = .error (.panic .borrowed) := by
  obtain ⟨s, h, e⟩ := exists_of_holds
    (ops := [.createElement (.id .Svg), .createElement (.id .G), .append 1 2, .insertBefore 2 1])
    (p := fun s => s.live 1 && decide (s.parent 1 = some 1) && isBorrowPanic s.dropDocument) (by decide +kernel)
  simp only [Bool.and_eq_true, decide_eq_true_eq, isBorrowPanic_iff] at e
  exact ⟨s, h, fun ha => ha 1 e.1.1 (.single e.1.2), e.2⟩

/-- A document with links and several levels can be dropped. -/
example : ∃ s t, Reachable s ∧ s.Acyclic ∧ s.LinksTo 6 3 ∧ s.dropDocument = .ok t := by
  obtain ⟨s, h, ha, _, _, _, hl, _⟩ := removeHistory_state
  obtain ⟨t, e, _⟩ := C25_acyclic h ha
  exact ⟨s, t, h, ha, hl, e⟩

/-! ## C26 -/

/-- C26: `svg_element` is the first child of the root with the tag `svg`, or `None` if there is none. -/
theorem C26_svg_element {s : St} {F : Forest} (h : Reachable s) (hF : Describes s F) :
    (∃ a n b, F.kids s.rootId = a ++ n :: b ∧ s.tagName n = .id .Svg ∧ (∀ c ∈ a, s.tagName c ≠ .id .Svg) ∧
      s.svgElement = .ok (some n)) ∨
    ((∀ c ∈ F.kids s.rootId, s.tagName c ≠ .id .Svg) ∧ s.svgElement = .ok none) := by
  obtain ⟨G, hT⟩ := h.inv.tree
  have hl := childList_eq h.inv hF hT.root
  have htag : ∀ c, s.tagId c = some .Svg ↔ s.tagName c = .id .Svg := by
    intro c; unfold St.tagId; split <;> simp_all
  have he : s.svgElement = .ok ((F.kids s.rootId).find? fun n => decide (s.tagId n = some .Svg)) := by
    simp [St.svgElement, hl, bind, Except.bind, pure, Except.pure]
  cases hf : (F.kids s.rootId).find? fun n => decide (s.tagId n = some .Svg) with
  | none =>
    right
    rw [hf] at he
    refine ⟨fun c hc hh => ?_, he⟩
    rw [List.find?_eq_none] at hf
    exact hf c hc (by simpa using (htag c).2 hh)
  | some n =>
    left
    rw [hf] at he
    obtain ⟨h1, a, b, h2, h3⟩ := List.find?_eq_some_iff_append.1 hf
    refine ⟨a, n, b, h2, (htag n).1 (by simpa using h1), ?_, he⟩
    intro c hc hh
    have := h3 c hc
    simp [(htag c).2 hh] at this

/-- Both cases occur: a comment before two `svg` elements, and an empty document. -/
example : (∃ s, Reachable s ∧ s.svgElement = .ok (some 2)) ∧ (∃ s, Reachable s ∧ s.svgElement = .ok none) := by
  constructor
  · obtain ⟨s, h, e⟩ := exists_of_holds
      (ops := [.createNode .comment ['c'], .createElement (.id .Svg), .createElement (.id .Svg), .append 0 1, .append 0 2, .append 0 3])
      (p := fun s => decide (s.svgElement.toOption = some (some 2))) (by decide +kernel)
    simp only [decide_eq_true_eq] at e
    refine ⟨s, h, ?_⟩
    cases hx : s.svgElement with
    | error _ => rw [hx] at e; simp [Except.toOption] at e
    | ok v => rw [hx] at e; simp [Except.toOption] at e; rw [e]
  · refine ⟨St.init true, .init true, ?_⟩
    rfl

end Svgdom
