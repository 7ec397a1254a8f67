import Verif.Props.Iter
import Verif.Props.Attrs

/-!
# C69: edits through `text_mut`, `attributes_mut` and `linked_nodes_mut`
-/

set_option autoImplicit false

namespace Svgdom

/-- Assigning to the value that `get_value_mut` returns is assigning an attribute with the same name to what `get_mut` returns. -/
theorem attrsReplaceValue_eq (l : List Attribute) (name : AName) (v : AttributeValue) :
    attrsReplaceValue l name v = attrsReplace l name ⟨name, v⟩ := by
  induction l with
  | nil => rfl
  | cons c t ih =>
    by_cases hc : c.name = name
    · subst hc; simp [attrsReplaceValue, attrsReplace, List.findIdx?_cons]
    · simp only [attrsReplaceValue, attrsReplace, List.findIdx?_cons, hc, decide_false, Bool.false_eq_true, if_false] at ih ⊢
      cases hf : t.findIdx? (fun x => decide (x.name = name)) with
      | none => simp
      | some k => simp only [hf] at ih; simpa using ih

/-- C69: an assignment through `get_value_mut` is what `get_value` returns afterwards for this name, if the name is there; the other names,
their values and the order of the attributes stay. -/
theorem C69_value (l : List Attribute) (name : AName) (v : AttributeValue) :
    attrsGetValue (attrsReplaceValue l name v) name = (attrsGetValue l name).map (fun _ => v) ∧
    (∀ other, other ≠ name → attrsGetValue (attrsReplaceValue l name v) other = attrsGetValue l other) ∧
    (attrsReplaceValue l name v).map (·.name) = l.map (·.name) := by
  rw [attrsReplaceValue_eq]
  induction l with
  | nil => simp [attrsReplace, attrsGetValue, attrsGet]
  | cons a l ih =>
    obtain ⟨h1, h2, h3⟩ := ih
    by_cases hc : a.name = name
    · subst hc
      refine ⟨?_, fun other ho => ?_, ?_⟩
      · simp [attrsReplace, attrsGetValue, attrsGet, List.findIdx?_cons]
      · simp [attrsReplace, attrsGetValue, attrsGet, List.findIdx?_cons, Ne.symm ho]
      · simp [attrsReplace, List.findIdx?_cons]
    · have e : attrsReplace (a :: l) name ⟨name, v⟩ = a :: attrsReplace l name ⟨name, v⟩ := by
        simp only [attrsReplace, List.findIdx?_cons, hc, decide_false, Bool.false_eq_true, if_false]
        cases List.findIdx? (fun b => decide (b.name = name)) l <;> simp
      rw [e]
      refine ⟨?_, fun other ho => ?_, ?_⟩
      · simpa [attrsGetValue, attrsGet, hc] using h1
      · have := h2 other ho
        by_cases ha : a.name = other
        · simp [attrsGetValue, attrsGet, ha]
        · simpa [attrsGetValue, attrsGet, ha] using this
      · simp [h3]

example : attrsGetValue (attrsReplaceValue [⟨.id .X, .none⟩, ⟨.id .Fill, .inherit⟩] (.id .Fill) .currentColor) (.id .Fill) = some .currentColor := by
  decide

/-- C69, effect: an assignment through `attributes_mut().get_mut(name)` replaces exactly the attribute with that name, at its
place; the other attributes of the node and the data of the other nodes stay. -/
theorem C69_effect {s : St} (h : Reachable s) {i : NodeId} (hi : s.live i = true) (name : AName) (a : Attribute) :
    (s.editAttribute i name a).attributes i = (s.attributes i).map (fun b => if b.name = name then a else b) ∧
    (∀ j, j ≠ i → (s.editAttribute i name a).data j = s.data j) ∧
    SameElse s (s.editAttribute i name a) := by
  refine ⟨?_, fun j hj => by simp [St.editAttribute, hj], ?_⟩
  · have hn := h.inv.link.names i hi
    simp only [St.attributes, St.editAttribute, St.setD_data, if_true]
    cases hg : attrsGet (s.data i).attributes name with
    | none =>
      rw [attrsReplace_none hg]
      rw [attrsGet_none] at hg
      conv => lhs; rw [← List.map_id (s.data i).attributes]
      exact List.map_congr_left fun b hb => by simp [hg b hb]
    | some old =>
      obtain ⟨x, y, e1, e2, e3, e4⟩ := attrsReplace_split hg a
      have e1' : s.attributes i = x ++ old :: y := e1
      rw [e1'] at hn
      simp only [NamesNodup, List.map_append, List.map_cons] at hn
      rw [List.nodup_append, List.nodup_cons] at hn
      have hx : x.map (fun b => if b.name = name then a else b) = x := by
        conv => rhs; rw [← List.map_id x]
        exact List.map_congr_left fun b hb => by simp [e2 b hb]
      have hy : y.map (fun b => if b.name = name then a else b) = y := by
        conv => rhs; rw [← List.map_id y]
        refine List.map_congr_left fun b hb => ?_
        have : b.name ≠ name := fun e => hn.2.1.1 (by rw [e3, ← e]; exact List.mem_map_of_mem hb)
        simp [this]
      rw [e4, e1, List.map_append, List.map_cons, hx, hy, if_pos e3]
  · constructor <;> first | rfl | (intro j; simp only [St.editAttribute, St.idOf, St.tagName, St.text, St.nodeType, St.setD_data]; split <;> simp_all)

/-- Did the call panic in `unwrap`? -/
def isUnwrapPanic : Except Err St → Bool
  | .error (.panic .unwrap) => true
  | _ => false

theorem isUnwrapPanic_iff {x : Except Err St} (h : isUnwrapPanic x = true) : x = .error (.panic .unwrap) := by
  unfold isUnwrapPanic at h; split at h <;> simp_all

/-- C69 is false without restriction. Node 3 is an element with attributes `x` and `y` whose `fill` refers to node 2. An assignment through `get_mut` can give an element two
attributes with the same name; an assignment of a link, and clearing `linked_nodes`, make the removal of the attribute panic; and
`text_mut` gives an element a text, which `set_text` refuses in debug builds. -/
theorem C69_refuted : ∃ s, Reachable s ∧ s.live 3 = true ∧ s.live 2 = true ∧
    (∃ a, a.value.plain = true ∧ ¬ (((s.editAttribute 3 (.id .X) a).attributes 3).map (·.name)).Nodup) ∧
    (∃ a, a.name = .id .X ∧ a.value.refersTo 1 = true ∧
      (s.editAttribute 3 (.id .X) a).removeAttribute 3 (.id .X) = .error (.panic .unwrap)) ∧
    ((s.editLinked 2 []).removeAttribute 3 (.id .Fill) = .error (.panic .unwrap)) ∧
    ((s.editText 3 st!"t").text 3 = st!"t" ∧ s.setText 3 st!"t" = .error (.panic .debugAssert)) := by
  obtain ⟨s, h, e⟩ := exists_of_holds
    (ops := [.createElement (.id .Svg), .createElement (.id .LinearGradient), .createElement (.id .Rect), .setId 2 ['g'],
      .setAttribute 3 ⟨.id .X, .number (.fin 1)⟩, .setAttribute 3 ⟨.id .Y, .number (.fin 2)⟩,
      .setAttribute 3 ⟨.name ['l'], .none⟩, .setAttribute 3 ⟨.id .Fill, .link 2⟩])
    (p := fun s => s.live 3 && s.live 2 && decide (s.attributes 3 = [⟨.id .X, .number (.fin 1)⟩, ⟨.id .Y, .number (.fin 2)⟩,
      ⟨.name ['l'], .none⟩, ⟨.id .Fill, .paint 2 none⟩]) && s.isElement 3 && s.debug &&
      isUnwrapPanic ((s.editAttribute 3 (.id .X) ⟨.id .X, .link 1⟩).removeAttribute 3 (.id .X)) &&
      isUnwrapPanic ((s.editLinked 2 []).removeAttribute 3 (.id .Fill)))
    (by decide +kernel)
  simp only [Bool.and_eq_true, decide_eq_true_eq] at e
  obtain ⟨⟨⟨⟨⟨⟨h3, h2⟩, ha⟩, he⟩, hd⟩, hu1⟩, hu2⟩ := e
  simp only [St.attributes] at ha
  refine ⟨s, h, h3, h2, ⟨⟨.id .Y, .number (.fin 1)⟩, rfl, ?_⟩, ⟨⟨.id .X, .link 1⟩, rfl, rfl, isUnwrapPanic_iff hu1⟩, isUnwrapPanic_iff hu2, ?_, ?_⟩
  · simp [St.attributes, St.editAttribute, ha, attrsReplace, List.findIdx?_cons]
  · simp [St.text, St.editText]
  · simp [St.setText, St.debugAssert, he, hd, bind, Except.bind]

/-- C69, what holds: an edit that does not touch links (a text; the replacement of a value that is no link by another one, also
under a new name that no other attribute has; the fallback of a paint; the order of `linked_nodes`) leaves a state in which names
are unique, `linked_nodes` are right, every attribute can be removed and every plain value set without a panic, and no tree link,
node type, tag name or id has changed. All other theorems about reachable states apply to it as well, since edits are steps of the
histories. -/
theorem C69_partial {s t : St} (h : Reachable s) (he : s.Edit t) :
    Reachable t ∧ t.live = s.live ∧ t.links = s.links ∧ t.slab = s.slab ∧
    (∀ i, t.nodeType i = s.nodeType i ∧ t.tagName i = s.tagName i ∧ t.idOf i = s.idOf i) ∧
    (∀ i, s.live i = true →
      ((t.attributes i).map (·.name)).Nodup ∧
      (∀ j, t.LinksTo i j ↔ s.LinksTo i j) ∧
      (∀ j, s.live j = true → (t.linkedNodes j).count i = refCount (t.attributes i) j) ∧
      (∀ name, ∃ u, t.removeAttribute i name = .ok u) ∧
      (∀ a : Attribute, a.value.plain = true → t.isElement i = true → ∃ u, t.setAttribute i a = .ok u)) := by
  have ht : Reachable t := .edit h he
  refine ⟨ht, he.live, he.links, he.slab, fun i => ⟨he.nodeType i, he.tagName i, he.idOf i⟩, fun i hi => ?_⟩
  have hi' : t.live i = true := by rw [he.live]; exact hi
  refine ⟨C11_unique_names ht hi', ?_, ?_, (C17_no_panic ht hi').1, (C17_no_panic ht hi').2⟩
  · intro j; rw [linksTo_iff, linksTo_iff, he.refs]
  · intro j hj; exact C16_count ht hi' (by rw [he.live]; exact hj)

/-- An edit of every kind: `x` becomes `width` with another value, the fallback of `fill` changes, the linked nodes of node 2 are
reversed, an element gets a text. -/
example : ∃ s, Reachable s ∧ s.live 5 = true ∧
    s.Edit (s.editAttribute 5 (.id .X) ⟨.id .Width, .number (.fin 7)⟩) ∧
    s.Edit (s.editAttribute 5 (.id .Fill) ⟨.id .Fill, .paint 2 (some .currentColor)⟩) ∧
    s.Edit (s.editLinked 2 (s.linkedNodes 2).reverse) ∧ (s.linkedNodes 2).reverse ≠ s.linkedNodes 2 ∧
    s.Edit (s.editText 5 st!"t") := by
  obtain ⟨s, h, e⟩ := exists_of_holds (ops := linkHistory) (p := fun s => s.live 5 && s.live 2 &&
    decide (attrsGet (s.attributes 5) (.id .X) = some ⟨.id .X, .string ['1']⟩) &&
    decide (attrsGet (s.attributes 5) (.id .Fill) = some ⟨.id .Fill, .paint 2 (some .none)⟩) &&
    decide (s.hasAttribute 5 (.id .Width) = false) && decide ((s.linkedNodes 2).reverse ≠ s.linkedNodes 2)) (by decide +kernel)
  simp only [Bool.and_eq_true, decide_eq_true_eq] at e
  obtain ⟨⟨⟨⟨⟨h5, h2⟩, hx⟩, hf⟩, hw⟩, hr⟩ := e
  refine ⟨s, h, h5, .attr _ _ _ h5 ⟨?_, .inr hw⟩, .attr _ _ _ h5 ⟨?_, .inl rfl⟩, .linked _ _ h2 (List.reverse_perm _), hr,
    .text _ _ h5⟩
  · intro old ho; rw [hx] at ho; cases ho; exact .inl ⟨rfl, rfl⟩
  · intro old ho; rw [hf] at ho; cases ho; exact .inr ⟨rfl, 2, _, _, rfl, rfl⟩

/-- Every node is in the list of users of every other one as often as it refers to it. -/
def St.Agrees (s : St) : Prop :=
  ∀ j k, s.live j = true → s.live k = true → (s.linkedNodes k).count j = refCount (s.attributes j) k

/-- C69, `attributes_mut()`, exactly: if the attributes of a node are replaced by others, references and back references of all nodes
agree if and only if the node refers to every node as often as before. -/
theorem C69_attributes_iff {s : St} (h : Reachable s) {i : NodeId} (hi : s.live i = true) (l : List Attribute) :
    (s.editAttributes i l).Agrees ↔ ∀ k, s.live k = true → refCount l k = refCount (s.attributes i) k := by
  have hln : ∀ k, (s.editAttributes i l).linkedNodes k = s.linkedNodes k := fun k => by
    simp only [St.linkedNodes, St.editAttributes, St.setD_data]; split_ifs with hk
    · rw [hk]
    · rfl
  have hat : ∀ j, (s.editAttributes i l).attributes j = if j = i then l else s.attributes j := fun j => by
    simp only [St.attributes, St.editAttributes, St.setD_data]; split_ifs <;> rfl
  constructor
  · intro hc k hk
    have := hc i k hi hk
    rw [hln, hat, if_pos rfl, C16_count h hi hk] at this
    exact this.symm
  · intro hc j k hj hk
    rw [hln, hat, C16_count h hj hk]
    split_ifs with hji
    · rw [hji, hc k hk]
    · rfl

/-- C69, `attributes_mut().get_mut(name)`, exactly: the names of the attributes stay different if and only if no other attribute has the
new name; references and back references agree if and only if the new value refers to the same node as the old one, or neither refers
to a node. -/
theorem C69_attribute_iff {s : St} (h : Reachable s) {i : NodeId} (hi : s.live i = true) {name : AName} {old a : Attribute}
    (ho : attrsGet (s.attributes i) name = some old) (ha : ∀ k, a.value.refersTo k = true → s.live k = true) :
    ((((s.editAttribute i name a).attributes i).map (·.name)).Nodup ↔ ∀ b ∈ s.attributes i, b.name = a.name → b.name = name) ∧
    ((s.editAttribute i name a).Agrees ↔ ∀ k, a.value.refersTo k = true ↔ old.value.refersTo k = true) := by
  obtain ⟨x, y, e1, e2, e3, e4⟩ := attrsReplace_split ho a
  have hnd := C11_unique_names h hi
  rw [e1] at hnd
  constructor
  · have e5 : (s.editAttribute i name a).attributes i = x ++ a :: y := by
      simp only [St.attributes, St.editAttribute, St.setD_data, if_true]
      exact e4
    rw [e5, e1]
    simp only [List.map_append, List.map_cons, List.nodup_append, List.nodup_cons, List.mem_map, List.mem_cons, List.mem_append] at hnd ⊢
    obtain ⟨n1, ⟨n2, n3⟩, n4⟩ := hnd
    constructor
    · rintro ⟨_, ⟨m1, _⟩, m2⟩ b hb hba
      rcases hb with hb | rfl | hb
      · exact absurd hba (m2 _ ⟨b, hb, rfl⟩ _ (.inl rfl))
      · exact e3
      · exact absurd ⟨b, hb, hba⟩ m1
    · intro hb
      refine ⟨n1, ⟨?_, n3⟩, ?_⟩
      · rintro ⟨b, hby, hba⟩
        have := hb b (.inr (.inr hby)) hba
        exact n2 ⟨b, hby, by rw [this, e3]⟩
      · rintro _ ⟨b, hbx, rfl⟩ c (rfl | ⟨d, hd, rfl⟩)
        · intro hba
          exact e2 b hbx (hb b (.inl hbx) hba)
        · exact n4 _ ⟨b, hbx, rfl⟩ _ (.inr ⟨d, hd, rfl⟩)
  · have e5 : s.editAttribute i name a = s.editAttributes i (x ++ a :: y) := by
      simp only [St.editAttribute, St.editAttributes, St.setD]
      have e6 : attrsReplace (s.data i).attributes name a = x ++ a :: y := e4
      rw [e6]
    have hk : ∀ k, refCount (x ++ a :: y) k = refCount (s.attributes i) k ↔ (a.value.refersTo k = true ↔ old.value.refersTo k = true) := by
      intro k
      rw [e1]
      simp only [refCount, List.filter_append, List.filter_cons, List.length_append]
      cases a.value.refersTo k <;> cases old.value.refersTo k <;> simp
    rw [e5, C69_attributes_iff h hi]
    constructor
    · intro hc k
      by_cases hkl : s.live k = true
      · exact (hk k).1 (hc k hkl)
      · constructor
        · intro hr; exact absurd (ha k hr) hkl
        · intro hr
          refine absurd ((C16_alive h hi (b := k)).2 ⟨old, ?_, hr⟩) hkl
          rw [e1]; simp
    · intro hc k _
      exact (hk k).2 (hc k)

/-- C69, `linked_nodes_mut()`, exactly: only a reordering of the list keeps references and back references in agreement. -/
theorem C69_linked_iff {s : St} (h : Reachable s) {i : NodeId} (hi : s.live i = true) {l : List NodeId} (hl : ∀ j ∈ l, s.live j = true) :
    (s.editLinked i l).Agrees ↔ l.Perm (s.linkedNodes i) := by
  have hln : ∀ k, (s.editLinked i l).linkedNodes k = if k = i then l else s.linkedNodes k := fun k => by
    simp only [St.linkedNodes, St.editLinked, St.setD_data]; split_ifs <;> rfl
  have hat : ∀ j, (s.editLinked i l).attributes j = s.attributes j := fun j => by
    simp only [St.attributes, St.editLinked, St.setD_data]; split_ifs with hj
    · rw [hj]
    · rfl
  constructor
  · intro hc
    rw [List.perm_iff_count]
    intro j
    by_cases hj : s.live j = true
    · have := hc j i hj hi
      rw [hln, if_pos rfl, hat] at this
      rw [this, C16_count h hj hi]
    · rw [List.count_eq_zero.2 fun hm => hj (hl j hm), List.count_eq_zero.2 fun hm => hj ((C16_alive h hi).1 hm)]
  · intro hp j k hj hk
    rw [hln, hat, ← C16_count h hj hk]
    split_ifs with hki
    · rw [hki]; exact hp.count_eq j
    · rfl

/-- An attribute that refers to node 2, and one that does not, in a state with two users of node 2. -/
example : ∃ s, Reachable s ∧ s.live 5 = true ∧ s.live 2 = true ∧
    attrsGet (s.attributes 5) (.id .X) = some ⟨.id .X, .string ['1']⟩ ∧
    attrsGet (s.attributes 5) (.id .Fill) = some ⟨.id .Fill, .paint 2 (some .none)⟩ ∧ 1 < (s.linkedNodes 2).length := by
  obtain ⟨s, h, e⟩ := exists_of_holds (ops := linkHistory) (p := fun s => s.live 5 && s.live 2 &&
    decide (attrsGet (s.attributes 5) (.id .X) = some ⟨.id .X, .string ['1']⟩) &&
    decide (attrsGet (s.attributes 5) (.id .Fill) = some ⟨.id .Fill, .paint 2 (some .none)⟩) &&
    decide (1 < (s.linkedNodes 2).length)) (by decide +kernel)
  simp only [Bool.and_eq_true, decide_eq_true_eq] at e
  obtain ⟨⟨⟨⟨h5, h2⟩, hx⟩, hf⟩, hr⟩ := e
  exact ⟨s, h, h5, h2, hx, hf, hr⟩

end Svgdom
