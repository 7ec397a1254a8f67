import Verif.Proof.Links
import Verif.Spec.Cases

/-!
# C11-C18: attributes and links
-/

set_option autoImplicit false

namespace Svgdom

/-- Links in several attributes of several nodes, under SVG and other names; node 5 carries two links to node 2. -/
def linkHistory : List Op :=
  [.createElement (.id .Svg), .createElement (.id .LinearGradient), .createElement (.id .Rect), .createElement (.id .Use),
   .createElement (.id .Rect), .append 0 1, .append 1 2, .append 1 3, .append 1 4, .append 1 5,
   .setId 2 ['g'], .setId 3 ['r'], .setId 4 ['u'],
   .setAttribute 3 ⟨.id .Fill, .link 2⟩,
   .setAttribute 4 ⟨.id .Href, .link 3⟩,
   .setAttribute 5 ⟨.id .X, .string ['1']⟩,
   .setAttribute 5 ⟨.id .Fill, .paint 2 (some .none)⟩,
   .setAttribute 5 ⟨.name ['x'], .link 2⟩,
   .setAttribute 5 ⟨.id .Y, .number (.fin 2)⟩,
   .setAttribute 5 ⟨.id .Mask, .link 4⟩]

/-! ## C11 -/

/-- C11: after any history no node has two attributes with the same name. -/
theorem C11_unique_names {s : St} (h : Reachable s) {i : NodeId} (hi : s.live i = true) :
    ((s.attributes i).map (·.name)).Nodup := h.inv.link.names i hi

example : ∃ s, Reachable s ∧ s.live 5 = true ∧ (s.attributes 5).length = 5 := by
  obtain ⟨s, h, e⟩ := exists_of_holds (ops := linkHistory) (p := fun s => s.live 5 && decide ((s.attributes 5).length = 5))
    (by decide +kernel)
  simp only [Bool.and_eq_true, decide_eq_true_eq] at e
  exact ⟨s, h, e⟩

/-! ## C12 -/

/-- C12: an accepted `set_attribute_checked` stores the (re-tagged) value last, keeps the order of the other attributes, and
changes neither the attributes of other nodes nor anything else but back references of the old and the new target. -/
theorem C12_set {s t : St} (h : Reachable s) {i : NodeId} (hi : s.live i = true) {a : Attribute}
    (e : s.setAttributeChecked i a = .ok (t, none)) :
    t.attributes i = (s.attributes i).filter (fun b => decide (b.name ≠ a.name)) ++ [⟨a.name, retag a.name a.value⟩] ∧
    (∀ j, j ≠ i → t.attributes j = s.attributes j) ∧ SameElse s t ∧
    (∀ m, (∀ b ∈ s.attributes i, b.name = a.name → b.value.refersTo m = false) → a.value.refersTo m = false →
      t.linkedNodes m = s.linkedNodes m) := by
  rcases setChecked_cases h.inv hi e with ⟨_, h1, _⟩ | ⟨_, rfl, _⟩
  · simp at h1
  · refine ⟨?_, ?_, sameElse_put _ _ _, fun m h1 h2 => put_back h1 h2⟩
    · simp only [St.attributes, St.putAttr, if_true, stored_value]; rfl
    · intro j hj; simp [St.attributes, St.putAttr, hj]

/-- C12: last write wins, as seen through the getters. -/
theorem C12_get {s t : St} (h : Reachable s) {i : NodeId} (hi : s.live i = true) {a : Attribute}
    (e : s.setAttributeChecked i a = .ok (t, none)) :
    t.hasAttribute i a.name = true ∧ attrsGetValue (t.attributes i) a.name = some (retag a.name a.value) ∧
    (∀ name, name ≠ a.name → attrsGetValue (t.attributes i) name = attrsGetValue (s.attributes i) name) := by
  obtain ⟨e1, _⟩ := C12_set h hi e
  have hf : ∀ name, name ≠ a.name → ∀ l : List Attribute,
      (l.filter (fun b => decide (b.name ≠ a.name))).find? (fun b => decide (b.name = name)) =
        l.find? (fun b => decide (b.name = name)) := by
    intro name hne l
    induction l with
    | nil => rfl
    | cons b l ih =>
      by_cases hb : b.name = a.name
      · have hbn : b.name ≠ name := by rw [hb]; exact Ne.symm hne
        simp only [List.filter_cons, hb, ne_eq, not_true, decide_false, Bool.false_eq_true, if_false]
        rw [List.find?_cons]; simp only [hbn, decide_false]
        exact ih
      · simp only [List.filter_cons, ne_eq, hb, not_false_iff, decide_true, if_true, List.find?_cons]
        split
        · rfl
        · exact ih
  refine ⟨?_, ?_, ?_⟩
  · rw [St.hasAttribute, attrsContains_iff, e1]
    exact ⟨⟨a.name, retag a.name a.value⟩, List.mem_append_right _ (List.mem_singleton.2 rfl), rfl⟩
  · rw [e1, attrsGetValue, attrsGet, List.find?_append]
    have : (List.filter (fun b => decide (b.name ≠ a.name)) (s.attributes i)).find? (fun b => decide (b.name = a.name)) = none := by
      rw [List.find?_eq_none]; intro b hb; simp only [List.mem_filter, decide_eq_true_eq] at hb; simpa using hb.2
    rw [this]; simp
  · intro name hne
    rw [e1, attrsGetValue, attrsGet, List.find?_append, hf name hne]
    simp only [attrsGetValue, attrsGet, List.find?_cons, Ne.symm hne, decide_false, List.find?_nil, Option.or_none]

example : ∃ s t, Reachable s ∧ s.live 5 = true ∧ s.setAttributeChecked 5 ⟨.id .Fill, .funcLink 3⟩ = .ok (t, none) ∧
    (s.attributes 5).length = 5 := by
  obtain ⟨s, h, e⟩ := exists_of_holds (ops := linkHistory) (p := fun s => s.live 5 && decide ((s.attributes 5).length = 5) &&
    (match s.setAttributeChecked 5 ⟨.id .Fill, .funcLink 3⟩ with | .ok (_, none) => true | _ => false)) (by decide +kernel)
  simp only [Bool.and_eq_true, decide_eq_true_eq] at e
  obtain ⟨⟨h1, h2⟩, h3⟩ := e
  split at h3
  · next t ht => exact ⟨s, t, h, h1, ht, h2⟩
  · simp at h3

/-! ## C13, C17 -/

/-- C13 and C17: `remove_attribute` never panics and removes exactly that attribute; only back references of its target
change. -/
theorem C13_remove {s : St} (h : Reachable s) {i : NodeId} (hi : s.live i = true) (name : AName) :
    ∃ t, s.removeAttribute i name = .ok t ∧
      t.attributes i = (s.attributes i).filter (fun b => decide (b.name ≠ name)) ∧
      (∀ j, j ≠ i → t.attributes j = s.attributes j) ∧ SameElse s t ∧
      (∀ m, (∀ b ∈ s.attributes i, b.name = name → b.value.refersTo m = false) → t.linkedNodes m = s.linkedNodes m) := by
  refine ⟨_, St.removeAttribute_ok h.inv.link hi name, ?_, ?_, sameElse_del _ _ _, ?_⟩
  · simp only [St.attributes, St.delAttr, if_true]; rfl
  · intro j hj; simp [St.attributes, St.delAttr, hj]
  · intro m h1
    have h3 : s.target i name ≠ some m := by
      unfold St.target
      cases hg : attrsGet (s.attributes i) name with
      | none => simp
      | some b =>
        obtain ⟨hb, hbn⟩ := attrsGet_some hg
        have := h1 b hb hbn
        simp only [Option.bind_some]
        intro e
        rw [refersTo_iff.2 e] at this; simp at this
    simp [St.delAttr, St.linkedNodes, h3]

/-- C13: afterwards the node has no such attribute. -/
theorem C13_gone {s t : St} (h : Reachable s) {i : NodeId} (hi : s.live i = true) {name : AName}
    (e : s.removeAttribute i name = .ok t) : t.hasAttribute i name = false := by
  obtain ⟨t', e', h1, _⟩ := C13_remove h hi name
  rw [e] at e'; cases e'
  rw [Bool.eq_false_iff]
  intro hh
  rw [St.hasAttribute, attrsContains_iff, h1] at hh
  obtain ⟨a, ha, hn⟩ := hh
  simp only [List.mem_filter, decide_eq_true_eq] at ha
  exact ha.2 hn

/-- C13: removing an absent attribute changes nothing. -/
theorem C13_absent {s : St} {i : NodeId} {name : AName} (ha : ∀ b ∈ s.attributes i, b.name ≠ name) :
    s.removeAttribute i name = .ok s := by
  have : s.hasAttribute i name = false := by
    rw [Bool.eq_false_iff]
    intro hh
    obtain ⟨a, h1, h2⟩ := attrsContains_iff.1 hh
    exact ha a h1 h2
  simp [St.removeAttribute, this]

/-- C13: removing takes one back reference from the target. -/
theorem C13_unlinks {s t : St} (h : Reachable s) {i m : NodeId} (hi : s.live i = true) (hm : s.live m = true) {name : AName}
    {b : Attribute} (hb : b ∈ s.attributes i) (hbn : b.name = name) (hbm : b.value.refersTo m = true)
    (e : s.removeAttribute i name = .ok t) : (s.linkedNodes m).Perm (i :: t.linkedNodes m) := by
  rw [St.removeAttribute_ok h.inv.link hi name] at e
  cases e
  have htg : s.target i name = some m := by
    rw [St.target, ← hbn, attrsGet_mem (h.inv.link.names i hi) hb]; exact refersTo_iff.1 hbm
  have : i ∈ s.linkedNodes m := by
    rw [← List.count_pos_iff, h.inv.link.count i m hi hm]; exact refs_pos.2 ⟨b, hb, refersTo_iff.1 hbm⟩
  simp only [St.delAttr, St.linkedNodes, htg, if_true]
  exact List.perm_cons_erase this

/-- C17: neither `remove_attribute` nor setting a plain value on an element can panic. -/
theorem C17_no_panic {s : St} (h : Reachable s) {i : NodeId} (hi : s.live i = true) :
    (∀ name, ∃ t, s.removeAttribute i name = .ok t) ∧
    (∀ a : Attribute, a.value.plain = true → s.isElement i = true → ∃ t, s.setAttribute i a = .ok t) := by
  refine ⟨fun name => ⟨_, St.removeAttribute_ok h.inv.link hi name⟩, fun a ha he => ?_⟩
  refine ⟨s.putAttr i a.stored, ?_⟩
  simp only [St.setAttribute, St.setChecked_eq h.inv.link hi a (fun _ => he), plain_iff.1 ha, Option.bind_none, bind, Except.bind]
  rfl

/-- The attribute `fill` of node 5 refers to node 2, `x` holds a string. -/
example : ∃ s, Reachable s ∧ s.live 5 = true ∧ s.live 2 = true ∧ s.isElement 5 = true ∧
    ⟨.id .Fill, .paint 2 (some .none)⟩ ∈ s.attributes 5 ∧ ⟨.id .X, .string ['1']⟩ ∈ s.attributes 5 := by
  obtain ⟨s, h, e⟩ := exists_of_holds (ops := linkHistory) (p := fun s => s.live 5 && s.live 2 && s.isElement 5 &&
    decide (⟨.id .Fill, .paint 2 (some .none)⟩ ∈ s.attributes 5) && decide (⟨.id .X, .string ['1']⟩ ∈ s.attributes 5))
    (by decide +kernel)
  simp only [Bool.and_eq_true, decide_eq_true_eq] at e
  tauto

/-! ## C14 -/

/-- C14: `set_attribute_if_none` never changes the value of an attribute the node (or any other node) already has, and adds
nothing but an attribute with the given name. -/
theorem C14_keeps {s t : St} (h : Reachable s) {i : NodeId} (hi : s.live i = true) {a : Attribute}
    (e : s.setAttributeIfNone i a = .ok t) :
    t.hasAttribute i a.name = true ∧ (∀ j, ∃ extra, t.attributes j = s.attributes j ++ extra) ∧
    (s.hasAttribute i a.name = true → t = s) := by
  unfold St.setAttributeIfNone at e
  cases hh : s.hasAttribute i a.name with
  | true =>
    simp only [hh, Bool.not_true, Bool.false_eq_true, if_false] at e
    cases e
    exact ⟨hh, fun j => ⟨[], by simp⟩, fun _ => rfl⟩
  | false =>
    simp only [hh, Bool.not_false, if_true] at e
    have e' := setAttribute_checked e
    have h1 := C12_set h hi e'
    refine ⟨(C12_get h hi e').1, fun j => ?_, by simp⟩
    by_cases hj : j = i
    · subst hj
      refine ⟨[⟨a.name, retag a.name a.value⟩], h1.1.trans ?_⟩
      congr 1
      rw [List.filter_eq_self]
      intro b hb
      simp only [decide_eq_true_eq]
      intro hn
      have : attrsContains (s.attributes j) a.name = true := attrsContains_iff.2 ⟨b, hb, hn⟩
      rw [St.hasAttribute, this] at hh; simp at hh
    · exact ⟨[], by simp [h1.2.1 j hj]⟩

/-- C14: on a node that has the attribute the call returns normally without doing anything, even for a link that would be
refused; on other nodes it is `set_attribute`. -/
theorem C14_cases (s : St) (i : NodeId) (a : Attribute) :
    ((∃ b ∈ s.attributes i, b.name = a.name) → s.setAttributeIfNone i a = .ok s) ∧
    ((∀ b ∈ s.attributes i, b.name ≠ a.name) → s.setAttributeIfNone i a = s.setAttribute i a) := by
  unfold St.setAttributeIfNone
  constructor
  · intro hb
    have : s.hasAttribute i a.name = true := attrsContains_iff.2 hb
    simp [this]
  · intro hb
    have : s.hasAttribute i a.name = false := by
      rw [Bool.eq_false_iff]
      intro hh
      obtain ⟨a, h1, h2⟩ := attrsContains_iff.1 hh
      exact hb a h1 h2
    simp [this]

example : ∃ s t u, Reachable s ∧ s.live 5 = true ∧ s.setAttributeIfNone 5 ⟨.id .Fill, .link 5⟩ = .ok t ∧
    s.setAttributeIfNone 5 ⟨.id .Stroke, .link 2⟩ = .ok u ∧ u.attributes 5 ≠ s.attributes 5 := by
  obtain ⟨s, h, e⟩ := exists_of_holds (ops := linkHistory) (p := fun s => s.live 5 &&
    okAnd (s.setAttributeIfNone 5 ⟨.id .Fill, .link 5⟩) (fun _ => true) &&
    okAnd (s.setAttributeIfNone 5 ⟨.id .Stroke, .link 2⟩) (fun u => decide (u.attributes 5 ≠ s.attributes 5)))
    (by decide +kernel)
  simp only [Bool.and_eq_true, okAnd_iff, decide_eq_true_eq] at e
  obtain ⟨⟨h1, t, ht, _⟩, u, hu, hne⟩ := e
  exact ⟨s, t, u, h, h1, ht, hu, hne⟩

/-! ## C15 -/

/-- C15: a link is refused exactly for the documented reasons, and then nothing changes. -/
theorem C15_refused {s : St} (h : Reachable s) {i n : NodeId} (hi : s.live i = true) (hn : s.live n = true)
    (he : s.isElement i = true) {a : Attribute} (ha : a.value.refersTo n = true) (err : DomError) :
    (∃ t, s.setAttributeChecked i a = .ok (t, some err)) ↔ Refused s i n err := by
  rw [refused_iff h hi hn, St.setChecked_eq h.inv.link hi a (fun _ => he), refersTo_iff.1 ha, Option.bind_some]
  cases s.rejected i n <;> simp

/-- C15: any error leaves the whole state as it was. -/
theorem C15_unchanged {s t : St} (h : Reachable s) {i : NodeId} (hi : s.live i = true) {a : Attribute} {err : DomError}
    (e : s.setAttributeChecked i a = .ok (t, some err)) : t = s := by
  rcases setChecked_cases h.inv hi e with ⟨_, _, rfl, _⟩ | ⟨h1, _⟩
  · rfl
  · simp at h1

/-- C15: a link that is not refused is stored, a plain value always; the call never panics on an element. -/
theorem C15_accepted {s : St} (h : Reachable s) {i : NodeId} (hi : s.live i = true) (he : s.isElement i = true)
    {a : Attribute} (hl : ∀ n, a.value.refersTo n = true → s.live n = true ∧ ∀ err, ¬ Refused s i n err) :
    ∃ t, s.setAttributeChecked i a = .ok (t, none) := by
  refine ⟨s.putAttr i a.stored, ?_⟩
  rw [St.setChecked_eq h.inv.link hi a (fun _ => he)]
  cases hv : a.value.linkNode with
  | none => simp
  | some n =>
    obtain ⟨h1, h2⟩ := hl n (refersTo_iff.2 hv)
    rw [Option.bind_some, (not_refused_iff h hi h1).1 h2]

/-- All three reasons occur, and so does an accepted link. -/
example : ∃ s, Reachable s ∧ s.live 2 = true ∧ s.live 3 = true ∧ s.live 5 = true ∧ s.isElement 3 = true ∧
    Refused s 3 5 .elementMustHaveAnId ∧ Refused s 3 3 .elementCrosslink ∧ Refused s 3 4 .elementCrosslink ∧
    ∀ err, ¬ Refused s 3 2 err := by
  obtain ⟨s, h, e⟩ := exists_of_holds (ops := linkHistory) (p := fun s => s.live 2 && s.live 3 && s.live 4 && s.live 5 &&
    s.isElement 3 && decide (s.rejected 3 5 = some .elementMustHaveAnId) && decide (s.rejected 3 3 = some .elementCrosslink) &&
    decide (s.rejected 3 4 = some .elementCrosslink) && decide (s.rejected 3 2 = none)) (by decide +kernel)
  simp only [Bool.and_eq_true, decide_eq_true_eq] at e
  obtain ⟨⟨⟨⟨⟨⟨⟨⟨h2, h3⟩, h4⟩, h5⟩, he⟩, r1⟩, r2⟩, r3⟩, r4⟩ := e
  exact ⟨s, h, h2, h3, h5, he, (refused_iff h h3 h5).2 r1, (refused_iff h h3 h3).2 r2, (refused_iff h h3 h4).2 r3,
    (not_refused_iff h h3 h2).2 r4⟩

/-! ## C16 -/

/-- C16: `a` occurs in `b.linked_nodes()` as often as attributes of `a` refer to `b`. -/
theorem C16_count {s : St} (h : Reachable s) {a b : NodeId} (ha : s.live a = true) (hb : s.live b = true) :
    (s.linkedNodes b).count a = refCount (s.attributes a) b := by
  rw [refCount_eq]; exact h.inv.link.count a b ha hb

/-- C16: all linked nodes are alive, and so is every link target. -/
theorem C16_alive {s : St} (h : Reachable s) {a b : NodeId} (ha : s.live a = true) :
    (b ∈ s.linkedNodes a → s.live b = true) ∧ (s.LinksTo a b → s.live b = true) := by
  refine ⟨h.inv.link.back a ha b, ?_⟩
  rintro ⟨x, hx, hr⟩
  exact h.inv.link.targets a ha x hx b (refersTo_iff.1 hr)

/-- C16: `uses_count` is the number of attributes of live nodes that refer to the node. -/
theorem C16_uses_count {s : St} (h : Reachable s) {b : NodeId} (hb : s.live b = true) :
    s.usesCount b = ∑ a ∈ Finset.range s.nextId, if s.live a = true then refCount (s.attributes a) b else 0 := by
  rw [St.usesCount, length_eq_sum_count s.nextId _ fun x hx => h.inv.liveBelow x (h.inv.link.back b hb x hx)]
  refine Finset.sum_congr rfl fun a _ => ?_
  split
  · next ha => exact C16_count h ha hb
  · next ha =>
    rw [List.count_eq_zero]
    intro hm
    exact ha (h.inv.link.back b hb a hm)

/-- C16: `is_used` iff some attribute of a live node refers to the node. -/
theorem C16_is_used {s : St} (h : Reachable s) {b : NodeId} (hb : s.live b = true) :
    s.isUsed b = true ↔ ∃ a, s.live a = true ∧ s.LinksTo a b := by
  have h1 : s.isUsed b = true ↔ ∃ a, a ∈ s.linkedNodes b := by
    rw [St.isUsed, Bool.not_eq_true', List.isEmpty_eq_false_iff_exists_mem]
  rw [h1]
  constructor
  · rintro ⟨a, ha⟩
    have hl := h.inv.link.back b hb a ha
    refine ⟨a, hl, ?_⟩
    rw [linksTo_iff, ← h.inv.link.count a b hl hb, List.count_pos_iff]; exact ha
  · rintro ⟨a, hl, ha⟩
    rw [linksTo_iff, ← h.inv.link.count a b hl hb, List.count_pos_iff] at ha
    exact ⟨a, ha⟩

/-- Node 2 is used three times, twice by node 5. -/
example : ∃ s, Reachable s ∧ s.live 2 = true ∧ s.live 5 = true ∧ s.usesCount 2 = 3 ∧ (s.linkedNodes 2).count 5 = 2 := by
  obtain ⟨s, h, e⟩ := exists_of_holds (ops := linkHistory) (p := fun s => s.live 2 && s.live 5 &&
    decide (s.usesCount 2 = 3) && decide ((s.linkedNodes 2).count 5 = 2)) (by decide +kernel)
  simp only [Bool.and_eq_true, decide_eq_true_eq] at e
  tauto

/-! ## C18 -/

/-- C18: no node refers to itself, no two nodes refer to each other. -/
theorem C18_no_self_no_mutual {s : St} (h : Reachable s) {i j : NodeId} (hi : s.live i = true) (hj : s.live j = true) :
    ¬ s.LinksTo i i ∧ ¬ (s.LinksTo i j ∧ s.LinksTo j i) := by
  simp only [linksTo_iff]
  have h1 := h.inv.link.noSelf i hi
  have h2 := h.inv.link.noMutual i j hi hj
  omega

/-- Non-vacuity: there are links in both orders of creation, and chains of links. -/
example : ∃ s, Reachable s ∧ s.live 2 = true ∧ s.live 3 = true ∧ s.live 4 = true ∧ s.LinksTo 3 2 ∧ s.LinksTo 4 3 ∧
    s.LinksTo 5 4 := by
  obtain ⟨s, h, e⟩ := exists_of_holds (ops := linkHistory) (p := fun s => s.live 2 && s.live 3 && s.live 4 &&
    decide (0 < refs (s.attributes 3) 2) && decide (0 < refs (s.attributes 4) 3) && decide (0 < refs (s.attributes 5) 4))
    (by decide +kernel)
  simp only [Bool.and_eq_true, decide_eq_true_eq, ← linksTo_iff] at e
  tauto

end Svgdom
