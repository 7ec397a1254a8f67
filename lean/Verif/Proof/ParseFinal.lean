import Verif.Proof.ParseDoc
import Verif.Proof.Text
import Verif.Props.Tables

/-! The whole of `parse_svg`. -/

namespace Svgdom

open Relation

/-! ### Elements of the expected DOM with their nodes -/

/-- An element of the expected DOM and the node that stands for it. -/
structure Elem where
  node : NodeId
  eid : ElementId
  id : Str
  attrs : List Attribute
  refs : List Ref

/-- The elements in document order. -/
def Dom.elems : Dom → Trees → List Elem
  | element eid id attrs refs kids rest, .cons n K R => ⟨n, eid, id, attrs, refs⟩ :: (kids.elems K ++ rest.elems R)
  | text _ rest, .cons _ _ R => rest.elems R
  | comment _ rest, .cons _ _ R => rest.elems R
  | _, _ => []

theorem mem_plinks {l : PLink} : ∀ {D : Dom} {T : Trees}, l ∈ D.plinks T ↔ ∃ x ∈ D.elems T, ∃ r ∈ x.refs, l = ⟨r.attr, r.iri, r.fallback, x.node⟩
  | .nil, T => by simp [Dom.plinks, Dom.elems]
  | .element _ _ _ _ k r, .nil => by simp [Dom.plinks, Dom.elems]
  | .text _ _, .nil => by simp [Dom.plinks, Dom.elems]
  | .comment _ _, .nil => by simp [Dom.plinks, Dom.elems]
  | .element _ _ _ rs k r, .cons n K R => by
    have h1 := @mem_plinks l k K
    have h2 := @mem_plinks l r R
    simp only [Dom.plinks, Dom.elems, List.mem_append, List.mem_map, List.mem_cons, h1, h2]
    constructor
    · rintro ((⟨x, hx, rfl⟩ | ⟨x, hx, h⟩) | ⟨x, hx, h⟩)
      · exact ⟨_, .inl rfl, x, hx, rfl⟩
      · exact ⟨x, .inr (.inl hx), h⟩
      · exact ⟨x, .inr (.inr hx), h⟩
    · rintro ⟨x, rfl | hx | hx, r, hr, rfl⟩
      · exact .inl (.inl ⟨r, hr, rfl⟩)
      · exact .inl (.inr ⟨x, hx, r, hr, rfl⟩)
      · exact .inr ⟨x, hx, r, hr, rfl⟩
  | .text _ r, .cons n K R => by
    simp only [Dom.plinks, Dom.elems]; exact mem_plinks
  | .comment _ r, .cons n K R => by
    simp only [Dom.plinks, Dom.elems]; exact mem_plinks

theorem elems_sublist : ∀ (D : Dom) (T : Trees), ((D.elems T).map (·.node)).Sublist T.pre
  | .nil, T => by simp [Dom.elems]
  | .element _ _ _ _ k r, .nil => by simp [Dom.elems]
  | .text _ _, .nil => by simp [Dom.elems]
  | .comment _ _, .nil => by simp [Dom.elems]
  | .element _ _ _ _ k r, .cons n K R => by
    simp only [Dom.elems, Trees.pre, List.map_cons, List.map_append]
    exact ((elems_sublist k K).append (elems_sublist r R)).cons_cons n
  | .text _ r, .cons n K R => by
    simp only [Dom.elems, Trees.pre]
    exact ((elems_sublist r R).trans (List.sublist_append_right _ _)).cons n
  | .comment _ r, .cons n K R => by
    simp only [Dom.elems, Trees.pre]
    exact ((elems_sublist r R).trans (List.sublist_append_right _ _)).cons n

/-- Every node is an element or a leaf without attributes. -/
theorem Dom.Is.node {s : St} {F : Forest} : ∀ {D : Dom} {T : Trees} {l : List NodeId}, D.Is s T → T.Of F l → ∀ j ∈ T.pre,
    (s.nodeType j = .element ∧ ∃ x ∈ D.elems T, x.node = j) ∨
    ((s.nodeType j = .text ∨ s.nodeType j = .comment) ∧ s.attributes j = [] ∧ s.idOf j = [] ∧ s.tagName j = .name [] ∧ F.kids j = [])
  | .nil, T, l, h, _, j, hj => by
    cases T with
    | nil => simp [Trees.pre] at hj
    | cons _ _ _ => exact h.elim
  | .element eid _ _ _ k r, T, l, h, hT, j, hj => by
    cases T with
    | nil => exact h.elim
    | cons n K R =>
      obtain ⟨a, b, c, d, e, f, i⟩ := h
      obtain ⟨l', rfl, hK, hR⟩ := hT
      simp only [Trees.pre, List.mem_cons, List.mem_append] at hj
      simp only [Dom.elems, List.mem_cons, List.mem_append]
      rcases hj with rfl | hj | hj
      · exact .inl ⟨a, _, .inl rfl, rfl⟩
      · rcases Dom.Is.node (D := k) f hK j hj with ⟨h1, x, hx, h2⟩ | h1
        · exact .inl ⟨h1, x, .inr (.inl hx), h2⟩
        · exact .inr h1
      · rcases Dom.Is.node (D := r) i hR j hj with ⟨h1, x, hx, h2⟩ | h1
        · exact .inl ⟨h1, x, .inr (.inr hx), h2⟩
        · exact .inr h1
  | .text _ r, T, l, h, hT, j, hj => by
    cases T with
    | nil => exact h.elim
    | cons n K R =>
      obtain ⟨a, b, c, d, e, rfl, i⟩ := h
      obtain ⟨l', rfl, hK, hR⟩ := hT
      simp only [Trees.pre, List.mem_cons, List.nil_append] at hj
      rcases hj with rfl | hj
      · exact .inr ⟨.inl a, d, c, b, hK⟩
      · exact Dom.Is.node (D := r) i hR j hj
  | .comment _ r, T, l, h, hT, j, hj => by
    cases T with
    | nil => exact h.elim
    | cons n K R =>
      obtain ⟨a, b, c, d, e, rfl, i⟩ := h
      obtain ⟨l', rfl, hK, hR⟩ := hT
      simp only [Trees.pre, List.mem_cons, List.nil_append] at hj
      rcases hj with rfl | hj
      · exact .inr ⟨.inr a, d, c, b, hK⟩
      · exact Dom.Is.node (D := r) i hR j hj

/-- The node data of an element. -/
theorem Dom.Is.elem {s : St} : ∀ {D : Dom} {T : Trees}, D.Is s T → ∀ x ∈ D.elems T,
    s.nodeType x.node = .element ∧ s.tagName x.node = .id x.eid ∧ s.idOf x.node = x.id ∧ s.attributes x.node = x.attrs ∧
      s.text x.node = []
  | .nil, T, h, x, hx => by simp [Dom.elems] at hx
  | .element eid _ _ _ k r, T, h, x, hx => by
    cases T with
    | nil => exact h.elim
    | cons n K R =>
      obtain ⟨a, b, c, d, e, f, i⟩ := h
      simp only [Dom.elems, List.mem_cons, List.mem_append] at hx
      rcases hx with rfl | hx | hx
      · exact ⟨a, b, c, d, e⟩
      · exact Dom.Is.elem (D := k) f x hx
      · exact Dom.Is.elem (D := r) i x hx
  | .text _ r, T, h, x, hx => by
    cases T with
    | nil => exact h.elim
    | cons n K R => exact Dom.Is.elem (D := r) h.2.2.2.2.2.2 x hx
  | .comment _ r, T, h, x, hx => by
    cases T with
    | nil => exact h.elim
    | cons n K R => exact Dom.Is.elem (D := r) h.2.2.2.2.2.2 x hx

theorem elems_unstyled {s : St} : ∀ {D : Dom} {T : Trees}, D.Is s T → ∀ x,
    x ∈ D.unstyled.elems (T.keep fun n => s.hasTagName n (.id .Style)) →
    x ∈ D.elems T ∧ x.eid ≠ .Style
  | .nil, T, h, x, hx => by simp [Dom.unstyled, Dom.elems] at hx
  | .element eid _ _ _ k r, T, h, x, hx => by
    cases T with
    | nil => exact h.elim
    | cons n K R =>
      obtain ⟨a, b, c, d, e, f, i⟩ := h
      simp only [Dom.elems, List.mem_cons, List.mem_append]
      by_cases he : eid = .Style
      · have : s.hasTagName n (.id .Style) = true := by simp [St.hasTagName, b, he]
        simp only [Dom.unstyled, Trees.keep, if_pos he, if_pos this] at hx
        obtain ⟨h1, h2⟩ := elems_unstyled (D := r) i x hx
        exact ⟨.inr (.inr h1), h2⟩
      · have : ¬ s.hasTagName n (.id .Style) = true := by simp [St.hasTagName, b, he]
        simp only [Dom.unstyled, Trees.keep, if_neg he, if_neg this, Dom.elems, List.mem_cons, List.mem_append] at hx
        rcases hx with rfl | hx | hx
        · exact ⟨.inl rfl, he⟩
        · obtain ⟨h1, h2⟩ := elems_unstyled (D := k) f x hx
          exact ⟨.inr (.inl h1), h2⟩
        · obtain ⟨h1, h2⟩ := elems_unstyled (D := r) i x hx
          exact ⟨.inr (.inr h1), h2⟩
  | .text _ r, T, h, x, hx => by
    cases T with
    | nil => exact h.elim
    | cons n K R =>
      obtain ⟨a, b, c, d, e, rfl, i⟩ := h
      have : ¬ s.hasTagName n (.id .Style) = true := by simp [St.hasTagName, b]
      simp only [Dom.unstyled, Trees.keep, if_neg this, Dom.elems] at hx
      exact elems_unstyled (D := r) i x hx
  | .comment _ r, T, h, x, hx => by
    cases T with
    | nil => exact h.elim
    | cons n K R =>
      obtain ⟨a, b, c, d, e, rfl, i⟩ := h
      have : ¬ s.hasTagName n (.id .Style) = true := by simp [St.hasTagName, b]
      simp only [Dom.unstyled, Trees.keep, if_neg this, Dom.elems] at hx
      exact elems_unstyled (D := r) i x hx

/-! ### Where attributes and references come from -/

theorem attrsOf_mem {L : Lib} {eid : ElementId} {a : Attribute} : ∀ {gs : List Assign} {l : List Attribute},
    a ∈ gs.foldl (assign L eid) l → a ∈ l ∨ ∃ g ∈ gs, ∃ v, valueOf L eid g = some v ∧ a = ⟨.id g.1, v⟩
  | [], _, h => .inl h
  | g :: gs, l, h => by
    rcases attrsOf_mem (gs := gs) h with h | ⟨g', hg, h⟩
    · unfold assign at h
      split at h
      · next v hv =>
        rw [List.mem_append, List.mem_singleton] at h
        rcases h with h | rfl
        · exact .inl (List.mem_filter.1 h).1
        · exact .inr ⟨g, by simp, v, hv, rfl⟩
      · exact .inl h
    · exact .inr ⟨g', by simp [hg], h⟩

theorem refsOf_mem {L : Lib} {eid : ElementId} {gs : List Assign} {r : Ref} (h : r ∈ refsOf L eid gs) :
    ∃ g ∈ gs, parseValue L g.1 eid g.2 = .link r.iri r.fallback ∧ r.attr = g.1 := by
  unfold refsOf at h
  rw [List.mem_filterMap] at h
  obtain ⟨g, hg, h⟩ := h
  refine ⟨g, hg, ?_⟩
  unfold refOf at h
  split at h
  · next iri fb e => cases h; exact ⟨e, rfl⟩
  · simp at h

/-- `id`, `style` and `class`. -/
def AttributeId.special (i : AttributeId) : Prop := i = .Id ∨ i = .Style ∨ i = .Class

instance (i : AttributeId) : Decidable i.special := by unfold AttributeId.special; infer_instance

theorem inCss_not_special {i : AttributeId} (h : i.inCss = true) : ¬ i.special := by
  have : i.inCss = false ∨ ¬ i.special := by
    revert i
    intro i _
    exact AttributeId.forall_of_all (p := fun i => decide (i.inCss = false ∨ ¬ i.special)) (by decide +kernel) i |> of_decide_eq_true
  rcases this with h' | h'
  · rw [h] at h'; simp at h'
  · exact h'

theorem xmlAssigns_special {attrs : List XmlAttr} {g : Assign} (h : g ∈ xmlAssigns attrs) : ¬ g.1.special := by
  unfold xmlAssigns at h
  rw [List.mem_filterMap] at h
  obtain ⟨a, _, h⟩ := h
  split at h
  · simp at h
  · simp at h
  · simp at h
  · next i h1 h2 h3 _ =>
    cases h
    rintro (rfl | rfl | rfl)
    · exact h1 rfl
    · exact h2 rfl
    · exact h3 rfl
  · simp at h

theorem sheetAssigns_special {d : Str × Str} {g : Assign} (h : g ∈ sheetAssigns d) : g.1.inCss = true := by
  unfold sheetAssigns at h
  split at h
  · simp only [List.mem_cons, List.not_mem_nil, or_false] at h
    rcases h with rfl | rfl | rfl
    · show AttributeId.inCss .MarkerStart = true; decide +kernel
    · show AttributeId.inCss .MarkerMid = true; decide +kernel
    · show AttributeId.inCss .MarkerEnd = true; decide +kernel
  · split at h
    · next hc => rw [List.mem_singleton] at h; subst h; exact hc
    · simp at h
  · simp at h

theorem styleAssigns_special {d : Str × Str} {g : Assign} (h : g ∈ styleAssigns d) : g.1.inCss = true := by
  unfold styleAssigns at h
  split at h
  · split at h
    · next hc => rw [List.mem_singleton] at h; subst h; exact hc
    · simp at h
  · simp at h

theorem ruleAssigns_css {sheet : List Rule} {pos : XmlPos} {g : Assign} (h : g ∈ ruleAssigns sheet pos) : g.1.inCss = true := by
  unfold ruleAssigns at h
  simp only [List.mem_flatMap] at h
  obtain ⟨_, _, _, _, h⟩ := h
  exact sheetAssigns_special h

theorem styleAttrAssigns_css {L : Lib} {attrs : List XmlAttr} {g : Assign} (h : g ∈ styleAttrAssigns L attrs) : g.1.inCss = true := by
  unfold styleAttrAssigns at h
  split at h
  · rw [List.mem_flatMap] at h
    obtain ⟨_, _, h⟩ := h
    exact styleAssigns_special h
  · simp at h

theorem allAssigns_special {L : Lib} {sheet : List Rule} {pos : XmlPos} {attrs : List XmlAttr} {g : Assign}
    (h : g ∈ allAssigns L sheet pos attrs) : ¬ g.1.special := by
  unfold allAssigns at h
  rw [List.mem_append, List.mem_append] at h
  rcases h with (h | h) | h
  · exact xmlAssigns_special h
  · exact inCss_not_special (ruleAssigns_css h)
  · exact inCss_not_special (styleAttrAssigns_css h)

/-- Attributes and references of every element come from attempts. -/
theorem domOf_elems (L : Lib) (sheet : List Rule) : ∀ (x : Xml) (pos : XmlPos) (prev : List (Option XmlElem)) (tag : Option ElementId)
    (T : Trees), ∀ e ∈ (domOf L sheet pos prev tag x).elems T, ∃ gs, e.attrs = attrsOf L e.eid gs ∧ e.refs = refsOf L e.eid gs ∧
      ∀ g ∈ gs, ¬ g.1.special
  | .nil, _, _, _, T, e, h => by simp [domOf, Dom.elems] at h
  | .pi rest, pos, prev, tag, T, e, h => domOf_elems L sheet rest pos _ tag T e h
  | .comment _ rest, pos, prev, tag, T, e, h => by
    cases T with
    | nil => simp [domOf, Dom.elems] at h
    | cons n K R => exact domOf_elems L sheet rest pos _ tag R e h
  | .text t rest, pos, prev, tag, T, e, h => by
    simp only [domOf] at h
    split at h
    · exact domOf_elems L sheet rest pos _ tag T e h
    · cases T with
      | nil => simp [Dom.elems] at h
      | cons n K R => exact domOf_elems L sheet rest pos _ tag R e h
  | .element ns name attrs kids rest, pos, prev, tag, T, e, h => by
    simp only [domOf] at h
    split at h
    · exact domOf_elems L sheet rest pos _ tag T e h
    · cases T with
      | nil => simp [Dom.elems] at h
      | cons n K R =>
        simp only [Dom.elems, List.mem_cons, List.mem_append] at h
        rcases h with rfl | h | h
        · exact ⟨_, rfl, rfl, fun g hg => allAssigns_special hg⟩
        · exact domOf_elems L sheet kids _ _ _ K e h
        · exact domOf_elems L sheet rest _ _ _ R e h

/-- Every element comes from an element of the XML tree. -/
theorem domOf_places (L : Lib) (sheet : List Rule) : ∀ (x : Xml) (pos : XmlPos) (prev : List (Option XmlElem)) (tag : Option ElementId)
    (T : Trees), ∀ e ∈ (domOf L sheet pos prev tag x).elems T, ∃ q ∈ x.places pos prev, e.eid = q.2.1 ∧ e.id = idFrom q.2.2 ∧
      e.attrs = attrsOf L q.2.1 (allAssigns L sheet q.1 q.2.2) ∧ e.refs = refsOf L q.2.1 (allAssigns L sheet q.1 q.2.2)
  | .nil, _, _, _, T, e, h => by simp [domOf, Dom.elems] at h
  | .pi rest, pos, prev, tag, T, e, h => domOf_places L sheet rest pos _ tag T e h
  | .comment _ rest, pos, prev, tag, T, e, h => by
    cases T with
    | nil => simp [domOf, Dom.elems] at h
    | cons n K R => exact domOf_places L sheet rest pos _ tag R e h
  | .text t rest, pos, prev, tag, T, e, h => by
    simp only [domOf] at h
    split at h
    · exact domOf_places L sheet rest pos _ tag T e h
    · cases T with
      | nil => simp [Dom.elems] at h
      | cons n K R => exact domOf_places L sheet rest pos _ tag R e h
  | .element ns name attrs kids rest, pos, prev, tag, T, e, h => by
    simp only [domOf] at h
    simp only [Xml.places, List.mem_append]
    split at h
    · next he =>
      obtain ⟨q, hq, h⟩ := domOf_places L sheet rest pos _ tag T e h
      exact ⟨q, .inr hq, h⟩
    · next eid he =>
      cases T with
      | nil => simp [Dom.elems] at h
      | cons n K R =>
        simp only [Dom.elems, List.mem_cons, List.mem_append] at h
        simp only [List.mem_cons]
        rcases h with rfl | h | h
        · exact ⟨_, .inl (.inl rfl), rfl, rfl, rfl, rfl⟩
        · obtain ⟨q, hq, h⟩ := domOf_places L sheet kids _ _ _ K e h
          exact ⟨q, .inl (.inr hq), h⟩
        · obtain ⟨q, hq, h⟩ := domOf_places L sheet rest _ _ _ R e h
          exact ⟨q, .inr hq, h⟩

theorem attrsGet_without {l : List Attribute} {n m : AName} (h : n ≠ m) (a : Attribute) (ha : a.name = m) :
    attrsGet (l.filter (fun b => decide (b.name ≠ m)) ++ [a]) n = attrsGet l n := by
  unfold attrsGet
  rw [List.find?_append, List.find?_filter]
  have h1 : ([a].find? fun b => decide (b.name = n)) = none := by
    rw [List.find?_eq_none]; intro x hx; rw [List.mem_singleton] at hx; subst hx; simp [ha, Ne.symm h]
  have h2 : (l.find? fun b => decide (decide (b.name ≠ m) = true ∧ decide (b.name = n) = true)) = l.find? fun b => decide (b.name = n) := by
    congr 1
    funext b
    rw [decide_eq_decide]
    simp only [decide_eq_true_eq]
    constructor
    · exact fun h => h.2
    · intro hb; exact ⟨by rw [hb]; exact h, hb⟩
  rw [h1, h2]
  simp

/-- The value after all attempts is the last valid one. -/
theorem attrsOf_get (L : Lib) (eid : ElementId) (a : AttributeId) : ∀ (gs : List Assign) (l : List Attribute),
    attrsGetValue (gs.foldl (assign L eid) l) (.id a) = (lastValue L eid a gs).or (attrsGetValue l (.id a))
  | [], l => by simp [lastValue]
  | g :: gs, l => by
    rw [List.foldl_cons, attrsOf_get L eid a gs]
    have h1 : lastValue L eid a (g :: gs) = (lastValue L eid a gs).or (if g.1 = a then valueOf L eid g else none) := by
      unfold lastValue
      rw [List.filter_cons]
      by_cases hg : g.1 = a
      · rw [if_pos (by simp [hg]), if_pos hg, List.filterMap_cons]
        cases valueOf L eid g with
        | none => simp
        | some v =>
          rw [List.getLast?_cons]
          cases ((gs.filter fun g => decide (g.1 = a)).filterMap (valueOf L eid)).getLast? <;> rfl
      · rw [if_neg (by simp [hg]), if_neg hg]
        simp
    rw [h1, Option.or_assoc]
    congr 1
    unfold assign
    split
    · next v hv =>
      by_cases hg : g.1 = a
      · rw [if_pos hg, hv, hg]
        unfold attrsGetValue attrsGet
        rw [List.find?_append]
        have : (l.filter fun b => decide (b.name ≠ .id a)).find? (fun b => decide (b.name = .id a)) = none := by
          rw [List.find?_eq_none]; intro b hb; have := (List.mem_filter.1 hb).2; simpa using this
        rw [this]
        simp
      · rw [if_neg hg, Option.none_or]
        unfold attrsGetValue
        rw [attrsGet_without]
        · intro he; cases he; exact hg rfl
        · rfl
    · next hv => rw [hv]; simp

/-! ### `xml:space` values -/

theorem parseValue_space (L : Lib) (eid : ElementId) (v : Str) : parseValue L .Space eid v = .value (.string (trimStr v)) := by
  simp [parseValue]

theorem valueOf_space {L : Lib} {eid : ElementId} {x : Str} {v : AttributeValue} (h : valueOf L eid (.Space, x) = some v) :
    ∃ w, v = .string w := by
  unfold valueOf at h
  rw [parseValue_space] at h
  cases h
  exact ⟨_, rfl⟩

/-! ### Effect of resolution -/


theorem Resolves.get {s t : St} {order : List NodeId} {l : PLink} (h : Resolves s order l t) {j : NodeId} {n : AName}
    (hn : l.node = j → n ≠ .id l.attr) : attrsGet (t.attributes j) n = attrsGet (s.attributes j) n := by
  have key : ∀ a : Attribute, a.name = .id l.attr → AttrSet s t l.node a → attrsGet (t.attributes j) n = attrsGet (s.attributes j) n := by
    intro a ha hs
    by_cases hj : j = l.node
    · subst hj
      rw [hs.own, ha, attrsGet_without (hn rfl) a ha]
    · rw [hs.others j hj]
  cases h with
  | found _ _ h => exact key _ rfl h
  | refused _ _ => rfl
  | missing _ h => exact key _ rfl h

/-- Attributes without reference are not affected. -/
theorem ResolvesAll.get {order : List NodeId} {s t : St} {ls : List PLink} (h : ResolvesAll order s ls t) {j : NodeId} {n : AName}
    (hn : ∀ l ∈ ls, l.node = j → n ≠ .id l.attr) : attrsGet (t.attributes j) n = attrsGet (s.attributes j) n := by
  induction h with
  | nil s => rfl
  | cons h1 _ ih =>
    rw [ih fun l hl => hn l (by simp [hl]), h1.get (hn _ (by simp))]

/-- Nodes without reference keep their attribute list. -/
theorem ResolvesAll.attrs {order : List NodeId} {s t : St} {ls : List PLink} (h : ResolvesAll order s ls t) {j : NodeId}
    (hn : ∀ l ∈ ls, l.node ≠ j) : t.attributes j = s.attributes j := by
  induction h with
  | nil s => rfl
  | cons h1 _ ih =>
    rw [ih fun l hl => hn l (by simp [hl])]
    have := hn _ (List.mem_cons_self)
    cases h1 with
    | found _ _ h => exact h.others j (Ne.symm this)
    | refused _ _ => rfl
    | missing _ h => exact h.others j (Ne.symm this)

theorem attrSet_mem {s t : St} {i : NodeId} {a : Attribute} (h : AttrSet s t i a) {j : NodeId} {b : Attribute}
    (hb : b ∈ t.attributes j) : b ∈ s.attributes j ∨ (i = j ∧ b = a) := by
  by_cases hj : j = i
  · subst hj
    rw [h.own, List.mem_append, List.mem_singleton] at hb
    rcases hb with hb | rfl
    · exact .inl (List.mem_filter.1 hb).1
    · exact .inr ⟨rfl, rfl⟩
  · rw [h.others j hj] at hb
    exact .inl hb

/-- Where attributes come from. -/
theorem ResolvesAll.mem {order : List NodeId} {s t : St} {ls : List PLink} (h : ResolvesAll order s ls t) {j : NodeId} {b : Attribute}
    (hb : b ∈ t.attributes j) : b ∈ s.attributes j ∨ ∃ l ∈ ls, l.node = j ∧ b.name = .id l.attr ∧
      ((b.value = missingValue l.attr l.iri l.fallback ∧ ∀ n ∈ order, s.idOf n ≠ l.iri) ∨
        ∃ n ∈ order, s.idOf n = l.iri ∧ s.idOf n ≠ [] ∧ b.value = foundValue l.attr n l.fallback) := by
  induction h with
  | nil s => exact .inl hb
  | @cons s t u l ls h1 h2 ih =>
    rcases ih hb with h | ⟨l', hl', x1, x2, x3⟩
    · cases h1 with
      | @found _ n hf hr h3 =>
        rcases attrSet_mem h3 h with h | ⟨rfl, rfl⟩
        · exact .inl h
        · refine .inr ⟨l, by simp, rfl, rfl, .inr ⟨n, List.mem_of_find?_eq_some hf, ?_, ?_, rfl⟩⟩
          · simpa using List.find?_some hf
          · intro he; exact hr _ (.noId he)
      | refused _ _ => exact .inl h
      | missing hn h3 =>
        rcases attrSet_mem h3 h with h | ⟨rfl, rfl⟩
        · exact .inl h
        · exact .inr ⟨l, by simp, rfl, rfl, .inl ⟨rfl, hn⟩⟩
    · refine .inr ⟨l', by simp [hl'], x1, x2, ?_⟩
      rcases x3 with ⟨x3, x4⟩ | ⟨n, hn, y1, y2, y3⟩
      · exact .inl ⟨x3, fun n hn => by rw [← h1.same.ids]; exact x4 n hn⟩
      · have := h1.same.ids n
        exact .inr ⟨n, hn, by rw [← this]; exact y1, by rw [← this]; exact y2, y3⟩

/-! ### Everything together -/

theorem front_link {L : Lib} {debug : Bool} {x : Xml} {p : PSt} {T : Trees} {G : Forest} {s2 s3 : St} (f : Front L debug x p T G s2 s3)
    {l : PLink} (hl : l ∈ p.links) : ∃ e ∈ (svgDom L x).elems T, l.node = e.node ∧ ∃ r ∈ e.refs, l = ⟨r.attr, r.iri, r.fallback, e.node⟩ := by
  rw [f.adds.links] at hl
  obtain ⟨e, he, r, hr, rfl⟩ := mem_plinks.1 (by simpa using hl)
  exact ⟨e, he, rfl, r, hr, rfl⟩

theorem front_live {L : Lib} {debug : Bool} {x : Xml} {p : PSt} {T : Trees} {G : Forest} {s2 s3 : St} (f : Front L debug x p T G s2 s3)
    {j : NodeId} : s3.live j = true ↔ j = p.dom.rootId ∨ j ∈ T.pre := by
  rw [f.resolves.same.live, f.removed.live, f.adds.grown.live, f.root]
  simp [St.init]

theorem front_attrs2 {L : Lib} {debug : Bool} {x : Xml} {p : PSt} {T : Trees} {G : Forest} {s2 s3 : St} (f : Front L debug x p T G s2 s3)
    {j : NodeId} (hj : j ∈ T.pre) : s2.attributes j = p.dom.attributes j := by
  have hplain := f.adds.is.plain (domOf_plain L _ x _ _ _)
  rw [f.removed.attrs j ((f.adds.grown.live j).2 (.inr hj)), List.filter_eq_self]
  intro a ha
  have hpl := hplain j hj a ha
  have h5 : a.value.plain = true := plain_iff.2 hpl
  have h6 : ∀ n, a.value.refersTo n = false := by
    intro n
    rw [Bool.eq_false_iff]
    intro hh
    rw [refersTo_iff.1 hh] at hpl
    simp at hpl
  simp [survives, h5, h6]

theorem front_root_attrs {L : Lib} {debug : Bool} {x : Xml} {p : PSt} {T : Trees} {G : Forest} {s2 s3 : St}
    (f : Front L debug x p T G s2 s3) : s2.attributes p.dom.rootId = [] := by
  have h : p.dom.attributes p.dom.rootId = [] := by
    rw [f.root, f.adds.grown.attrs (St.init debug).rootId (by simp [St.init])]
    rfl
  rw [f.removed.attrs _ ((f.adds.grown.live _).2 (.inl (by rw [f.root]; simp [St.init]))), h]
  rfl

/-- References in the resolved document come from collected references and go to nodes of the document with an id. -/
theorem front_target {L : Lib} {debug : Bool} {x : Xml} {p : PSt} {T : Trees} {G : Forest} {s2 s3 : St} (f : Front L debug x p T G s2 s3)
    {i n : NodeId} (hi : s3.live i = true) {a : Attribute} (ha : a ∈ s3.attributes i) (hn : a.value.linkNode = some n) :
    ∃ l ∈ p.links, l.node = i ∧ a.name = .id l.attr ∧ n ∈ p.dom.rootId :: (T.keep p.dom.styleNode).pre ∧ s3.idOf n = l.iri ∧
      s3.idOf n ≠ [] ∧ a.value = foundValue l.attr n l.fallback := by
  rcases f.resolves.mem ha with h | ⟨l, hl, h1, h2, ⟨h3, _⟩ | ⟨m, h3, h4, h5, h6⟩⟩
  · exfalso
    have hplain := f.adds.is.plain (domOf_plain L _ x _ _ _)
    rcases (front_live f).1 hi with rfl | hi
    · rw [front_root_attrs f] at h; simp at h
    · rw [front_attrs2 f hi] at h
      rw [hplain i hi a h] at hn; simp at hn
  · rw [h3, missingValue_plain] at hn; simp at hn
  · rw [h6, foundValue_link, Option.some.injEq] at hn
    subst hn
    refine ⟨l, hl, h1, h2, h3, ?_, ?_, h6⟩
    · rw [f.resolves.same.ids]; exact h4
    · rw [f.resolves.same.ids]; exact h5

theorem front_kept {L : Lib} {debug : Bool} {x : Xml} {p : PSt} {T : Trees} {G : Forest} {s2 s3 : St} (f : Front L debug x p T G s2 s3)
    {j : NodeId} (hj : j ∈ (T.keep p.dom.styleNode).pre) : j ∈ T.pre := by
  rw [f.pre2] at hj
  exact (List.mem_filter.1 hj).1

theorem front_region {L : Lib} {debug : Bool} {x : Xml} {p : PSt} {T : Trees} {G : Forest} {s2 s3 : St} (f : Front L debug x p T G s2 s3)
    {j : NodeId} (hj : j ∈ (T.keep p.dom.styleNode).pre) : Region s3 (G.prune (T.gone p.dom.styleNode)) j := by
  have hs := f.resolves.same
  have hjl : s3.live j = true := (front_live f).2 (.inr (front_kept f hj))
  have hnode := f.is2.node f.of2 j hj
  refine ⟨hjl, ?_, ?_, ?_⟩
  · intro hk
    rw [hs.types]
    rcases hnode with h | h
    · exact h.1
    · exact absurd h.2.2.2.2 hk
  · intro a ha hname
    rcases f.resolves.mem ha with h | ⟨l, hl, h1, h2, _⟩
    · rcases hnode with ⟨_, e, he, rfl⟩ | h'
      · rw [(f.is2.elem e he).2.2.2.1] at h
        obtain ⟨gs, g1, _, _⟩ := domOf_elems L _ x _ _ _ T e (elems_unstyled f.adds.is e he).1
        rw [g1] at h
        rcases attrsOf_mem h with h | ⟨g, _, v, hv, rfl⟩
        · simp at h
        · simp only [QName.id.injEq] at hname
          obtain ⟨g1, g2⟩ := g
          simp only at hname
          subst hname
          exact valueOf_space hv
      · rw [h'.2.1] at h; simp at h
    · exfalso
      obtain ⟨e, he, _, r, hr, rfl⟩ := front_link f hl
      obtain ⟨gs, _, g2, _⟩ := domOf_elems L _ x _ _ _ T e he
      rw [g2] at hr
      obtain ⟨g, _, hp, hg⟩ := refsOf_mem hr
      rw [hname, QName.id.injEq] at h2
      simp only at h2
      rw [← h2] at hg
      rw [← hg, parseValue_space] at hp
      simp at hp
  · intro ht
    rw [hs.types] at ht
    rcases hnode with h | ⟨_, h1, h2, _, _⟩
    · rw [ht] at h; simp at h
    constructor
    · rw [f.resolves.attrs, h1]
      intro l hl he
      rw [f.adds.links] at hl
      have := (f.adds.is.plink_nodes l (by simpa using hl)).2
      rw [he, ← f.removed.types, ht] at this
      simp at this
    · rw [List.eq_nil_iff_forall_not_mem]
      intro i hi
      have hil := f.built3.inv.link.back j hjl i hi
      have hc := f.built3.inv.link.count i j hil hjl
      have : 0 < refs (s3.attributes i) j := by rw [← hc]; exact List.count_pos_iff.2 hi
      obtain ⟨a, ha, hn⟩ := refs_pos.1 this
      obtain ⟨_, _, _, _, _, _, h5, _⟩ := front_target f hil ha hn
      rw [hs.ids, h2] at h5
      exact h5 rfl

theorem Front.desc3 {L : Lib} {debug : Bool} {x : Xml} {p : PSt} {T : Trees} {G : Forest} {s2 s3 : St} (f : Front L debug x p T G s2 s3) :
    Describes s3 (G.prune (T.gone p.dom.styleNode)) := f.desc2.frame f.resolves.same.links f.resolves.same.live

theorem Front.root3 {L : Lib} {debug : Bool} {x : Xml} {p : PSt} {T : Trees} {G : Forest} {s2 s3 : St} (f : Front L debug x p T G s2 s3) :
    s3.rootId = p.dom.rootId := f.resolves.same.rootId.trans f.removed.rootId

/-- Parsing gives a document or `NoSvgElement`. -/
theorem parse_cases (L : Lib) (debug : Bool) (x : Xml) :
    ((svgDom L x).tags.head? = some .Svg ∧ ∃ p T G s2 s3 u t, Front L debug x p T G s2 s3 ∧
      Prepared s3 (G.prune (T.gone p.dom.styleNode)) (T.keep p.dom.styleNode) u t ∧ parseSvg L debug x = .ok t) ∨
    ((svgDom L x).tags.head? ≠ some .Svg ∧ parseSvg L debug x = .error .noSvgElement) := by
  obtain ⟨h1, h2⟩ := parse_front L debug x
  by_cases hs : (svgDom L x).tags.head? = some .Svg
  · obtain ⟨p, T, G, s2, s3, f, e⟩ := h1 hs
    obtain ⟨u, t, e2, hp⟩ := prepareText_ok f.built3 f.desc3 (K := T.keep p.dom.styleNode) (by rw [f.root3]; exact f.of2)
      (fun j hj => front_region f hj)
    exact .inl ⟨hs, p, T, G, s2, s3, u, t, f, hp, by rw [e, e2]; rfl⟩
  · exact .inr ⟨hs, h2 hs⟩

theorem parse_ok {L : Lib} {debug : Bool} {x : Xml} {t : St} (e : parseSvg L debug x = .ok t) :
    (svgDom L x).tags.head? = some .Svg ∧ ∃ p T G s2 s3 u, Front L debug x p T G s2 s3 ∧
      Prepared s3 (G.prune (T.gone p.dom.styleNode)) (T.keep p.dom.styleNode) u t := by
  rcases parse_cases L debug x with ⟨h, p, T, G, s2, s3, u, t', f, hp, e'⟩ | ⟨_, e'⟩
  · rw [e] at e'
    cases e'
    exact ⟨h, p, T, G, s2, s3, u, f, hp⟩
  · rw [e] at e'; cases e'

/-- The nodes of the final document. -/
theorem final_mem {L : Lib} {debug : Bool} {x : Xml} {p : PSt} {T : Trees} {G : Forest} {s2 s3 u t : St} (f : Front L debug x p T G s2 s3)
    (hp : Prepared s3 (G.prune (T.gone p.dom.styleNode)) (T.keep p.dom.styleNode) u t) {j : NodeId} (hj : t.live j = true) :
    t.Ancestor t.rootId j ↔ j ∈ (T.keep p.dom.styleNode).pre ∧ u.emptyText j = false := by
  have hr : t.rootId = s3.rootId := hp.removed.rootId.trans hp.ti.rootId
  rw [← mem_pre_kids hp.desc hp.built.rootLive (by rw [hr]; exact hp.of) hj, hp.pre, List.mem_filter,
    Bool.not_eq_true']

/-! ### The finished document -/

theorem tags_domOf (L : Lib) (sheet : List Rule) : ∀ (x : Xml) (pos : XmlPos) (prev : List (Option XmlElem)) (tag : Option ElementId),
    (domOf L sheet pos prev tag x).tags = x.topSvg
  | .nil, _, _, _ => rfl
  | .pi rest, pos, prev, tag => by simp only [domOf, Xml.topSvg]; exact tags_domOf L sheet rest pos _ tag
  | .comment _ rest, pos, prev, tag => by simp only [domOf, Xml.topSvg, Dom.tags]; exact tags_domOf L sheet rest pos _ tag
  | .text t rest, pos, prev, tag => by
    simp only [domOf, Xml.topSvg]
    split
    · exact tags_domOf L sheet rest pos _ tag
    · simp only [Dom.tags]; exact tags_domOf L sheet rest pos _ tag
  | .element ns name attrs kids rest, pos, prev, tag => by
    simp only [domOf, Xml.topSvg]
    have ih := tags_domOf L sheet rest pos (some ⟨ns, name, attrs⟩ :: prev) tag
    by_cases h : ns = some st!"http://www.w3.org/2000/svg"
    · rw [if_pos h, if_pos h]
      cases elementNamed name with
      | none => simpa using ih
      | some e => simp [Dom.tags, ih]
    · rw [if_neg h, if_neg h]
      simpa using ih

theorem unstyled_first {D : Dom} : D.tags.head? = some .Svg → D.unstyled.tags.head? = some .Svg := by
  induction D with
  | nil => simp [Dom.tags]
  | element eid id attrs refs kids rest _ ih =>
    simp only [Dom.tags, List.head?_cons, Option.some.injEq]
    rintro rfl
    simp [Dom.unstyled, Dom.tags]
  | text t rest ih => exact ih
  | comment t rest ih => exact ih

theorem final_of_is {s t : St} {g : NodeId → Bool} (h1 : ∀ j, t.nodeType j = s.nodeType j) (h2 : ∀ j, t.tagName j = s.tagName j)
    (h3 : ∀ j, t.idOf j = s.idOf j) (h4 : ∀ j, s.nodeType j ≠ .text → t.text j = s.text j)
    (hg : ∀ j, g j = true ↔ s.nodeType j = .text ∧ t.text j = []) : ∀ {D : Dom} {T : Trees}, D.Is s T →
    (∀ x ∈ D.elems T, (∀ a, (∀ r ∈ x.refs, a ≠ .id r.attr) → attrsGetValue (t.attributes x.node) a = attrsGetValue x.attrs a) ∧
      (x.refs = [] → t.attributes x.node = x.attrs)) →
    (∀ j ∈ T.pre, s.nodeType j ≠ .element → t.attributes j = s.attributes j) → D.Final t (T.keep g)
  | .nil, T, h, _, _ => by
    cases T with
    | nil => rfl
    | cons _ _ _ => exact h.elim
  | .element eid _ _ refs k r, T, h, hx, hj => by
    cases T with
    | nil => exact h.elim
    | cons n K R =>
      obtain ⟨a, b, c, d, e, f, i⟩ := h
      simp only [Dom.elems, List.mem_cons, List.mem_append] at hx
      simp only [Trees.pre, List.mem_cons, List.mem_append] at hj
      have hgn : ¬ g n = true := by rw [hg]; rw [a]; simp
      refine ⟨n, K.keep g, R.keep g, by simp [Trees.keep, hgn], by rw [h1]; exact a, by rw [h2]; exact b, by rw [h3]; exact c,
        by rw [h4 n (by rw [a]; simp)]; exact e, (hx _ (.inl rfl)).1, (hx _ (.inl rfl)).2, ?_, ?_⟩
      · exact final_of_is h1 h2 h3 h4 hg (D := k) f (fun x hx' => hx x (.inr (.inl hx'))) fun j hj' => hj j (.inr (.inl hj'))
      · exact final_of_is h1 h2 h3 h4 hg (D := r) i (fun x hx' => hx x (.inr (.inr hx'))) fun j hj' => hj j (.inr (.inr hj'))
  | .text _ r, T, h, hx, hj => by
    cases T with
    | nil => exact h.elim
    | cons n K R =>
      obtain ⟨a, b, c, d, e, rfl, i⟩ := h
      simp only [Trees.pre, List.mem_cons, List.nil_append] at hj
      have ih := final_of_is h1 h2 h3 h4 hg (D := r) i hx fun j hj' => hj j (.inr hj')
      by_cases hgn : g n = true
      · right
        simp only [Trees.keep, hgn, if_true]
        exact ih
      · left
        refine ⟨n, R.keep g, by simp [Trees.keep, hgn], by rw [h1]; exact a, ?_, ?_, by rw [h3]; exact c, by rw [h2]; exact b, ih⟩
        · intro he; exact hgn ((hg n).2 ⟨a, he⟩)
        · rw [hj n (.inl rfl) (by rw [a]; simp)]; exact d
  | .comment _ r, T, h, hx, hj => by
    cases T with
    | nil => exact h.elim
    | cons n K R =>
      obtain ⟨a, b, c, d, e, rfl, i⟩ := h
      simp only [Trees.pre, List.mem_cons, List.nil_append] at hj
      have ih := final_of_is h1 h2 h3 h4 hg (D := r) i hx fun j hj' => hj j (.inr hj')
      have hgn : ¬ g n = true := by rw [hg]; rw [a]; simp
      refine ⟨n, R.keep g, by simp [Trees.keep, hgn], by rw [h1]; exact a, by rw [h4 n (by rw [a]; simp)]; exact e, ?_,
        by rw [h3]; exact c, by rw [h2]; exact b, ih⟩
      rw [hj n (.inl rfl) (by rw [a]; simp)]; exact d

theorem elem_unique {D : Dom} {T : Trees} (hn : T.pre.Nodup) {x y : Elem} (hx : x ∈ D.elems T) (hy : y ∈ D.elems T)
    (h : x.node = y.node) : x = y := by
  have := (elems_sublist D T).nodup hn
  exact List.inj_on_of_nodup_map this hx hy h

theorem front_nodup {L : Lib} {debug : Bool} {x : Xml} {p : PSt} {T : Trees} {G : Forest} {s2 s3 : St} (f : Front L debug x p T G s2 s3) :
    T.pre.Nodup := by
  obtain ⟨K, hK, _, hn, _⟩ := kids_tree f.adds.built f.adds.desc f.adds.built.rootLive
  cases f.adds.of.unique hK
  exact hn

/-- References collected at an element. -/
theorem front_refs {L : Lib} {debug : Bool} {x : Xml} {p : PSt} {T : Trees} {G : Forest} {s2 s3 : St} (f : Front L debug x p T G s2 s3)
    {y : Elem} (hy : y ∈ (svgDom L x).elems T) {l : PLink} (hl : l ∈ p.links) (hn : l.node = y.node) :
    ∃ r ∈ y.refs, l = ⟨r.attr, r.iri, r.fallback, y.node⟩ := by
  obtain ⟨e, he, h1, r, hr, h2⟩ := front_link f hl
  cases elem_unique (front_nodup f) he hy (h1.symm.trans hn)
  exact ⟨r, hr, h2⟩

/-- The finished document is the expected DOM. -/
theorem final_dom {L : Lib} {debug : Bool} {x : Xml} {p : PSt} {T : Trees} {G : Forest} {s2 s3 u t : St} (f : Front L debug x p T G s2 s3)
    (hp : Prepared s3 (G.prune (T.gone p.dom.styleNode)) (T.keep p.dom.styleNode) u t) :
    (svgDom L x).unstyled.Final t ((T.keep p.dom.styleNode).keep u.emptyText) := by
  have hs := f.resolves.same
  have htype : ∀ j, t.nodeType j = s2.nodeType j := fun j => by rw [hp.removed.types, hp.ti.types, hs.types]
  have hlive : ∀ j ∈ (T.keep p.dom.styleNode).pre, s3.live j = true := fun j hj => (front_region f hj).live
  refine final_of_is htype (fun j => by rw [hp.removed.tags, hp.ti.tags, hs.tags]) (fun j => by rw [hp.removed.ids, hp.ti.ids, hs.ids])
    (fun j hj => ?_) (fun j => ?_) f.is2 ?_ ?_
  · rw [hp.removed.texts, hp.ti.texts j (by rw [hs.types]; exact hj), hs.texts]
  · simp only [St.emptyText, St.isText, Bool.and_eq_true, decide_eq_true_eq, List.isEmpty_iff, hp.removed.texts, hp.ti.types, hs.types]
  · intro y hy
    have hyp : y.node ∈ (T.keep p.dom.styleNode).pre := (elems_sublist _ _).subset (List.mem_map_of_mem hy)
    have hyD := (elems_unstyled f.adds.is y hy).1
    have ha := (f.is2.elem y hy).2.2.2.1
    rw [hp.attrs y.node (hlive _ hyp)]
    constructor
    · intro a hno
      rw [attrsGetValue, attrsGetValue, f.resolves.get, ha]
      intro l hl hln
      obtain ⟨r, hr, rfl⟩ := front_refs f hyD hl hln
      exact hno r hr
    · intro hno
      rw [f.resolves.attrs, ha]
      intro l hl hln
      obtain ⟨r, hr, _⟩ := front_refs f hyD hl hln
      rw [hno] at hr; simp at hr
  · intro j hj hne
    rw [hp.attrs j (hlive j hj), f.resolves.attrs]
    intro l hl hln
    rw [f.adds.links] at hl
    have := (f.adds.is.plink_nodes l (by simpa using hl)).2
    rw [hln, ← f.removed.types] at this
    exact hne this

theorem Dom.Final.first {t : St} {F : Forest} {e : ElementId} : ∀ {D : Dom} {T : Trees} {l : List NodeId}, D.Final t T → T.Of F l →
    D.tags.head? = some e →
    ∃ a n b, l = a ++ n :: b ∧ (∀ c ∈ a, t.nodeType c ≠ .element) ∧ t.nodeType n = .element ∧ t.tagName n = .id e
  | .nil, _, _, _, _, h => by simp [Dom.tags] at h
  | .element eid _ _ _ _ _, T, l, hD, hT, h => by
    obtain ⟨n, K, R, rfl, h1, h2, _⟩ := hD
    obtain ⟨l', rfl, _, _⟩ := hT
    simp only [Dom.tags, List.head?_cons, Option.some.injEq] at h
    subst h
    exact ⟨[], n, l', rfl, by simp, h1, h2⟩
  | .text _ r, T, l, hD, hT, h => by
    rcases hD with ⟨n, R, rfl, h1, _, _, _, _, hR⟩ | hR
    · obtain ⟨l', rfl, _, hO⟩ := hT
      obtain ⟨a, m, b, rfl, h2, h3⟩ := Dom.Final.first (D := r) hR hO h
      refine ⟨n :: a, m, b, rfl, ?_, h3⟩
      intro c hc
      rcases List.mem_cons.1 hc with rfl | hc
      · rw [h1]; simp
      · exact h2 c hc
    · exact Dom.Final.first (D := r) hR hT h
  | .comment _ r, T, l, hD, hT, h => by
    obtain ⟨n, R, rfl, h1, _, _, _, _, hR⟩ := hD
    obtain ⟨l', rfl, _, hO⟩ := hT
    obtain ⟨a, m, b, rfl, h2, h3⟩ := Dom.Final.first (D := r) hR hO h
    refine ⟨n :: a, m, b, rfl, ?_, h3⟩
    intro c hc
    rcases List.mem_cons.1 hc with rfl | hc
    · rw [h1]; simp
    · exact h2 c hc

theorem refInStyle_elems {s : St} : ∀ {D : Dom} {T : Trees}, D.Is s T → D.refInStyle = false → ∀ x ∈ D.elems T, x.refs ≠ [] →
    x ∈ D.unstyled.elems (T.keep fun n => s.hasTagName n (.id .Style))
  | .nil, T, h, _, x, hx, _ => by simp [Dom.elems] at hx
  | .element eid _ _ refs k r, T, h, hs, x, hx, hr => by
    cases T with
    | nil => exact h.elim
    | cons n K R =>
      obtain ⟨a, b, c, d, e, f, i⟩ := h
      simp only [Dom.elems, List.mem_cons, List.mem_append] at hx
      simp only [Dom.refInStyle, Bool.or_eq_false_iff] at hs
      by_cases he : eid = .Style
      · have hst : s.hasTagName n (.id .Style) = true := by simp [St.hasTagName, b, he]
        simp only [Dom.unstyled, Trees.keep, if_pos he, if_pos hst]
        rw [if_pos he, Bool.or_eq_false_iff, Bool.not_eq_false', List.isEmpty_iff] at hs
        rcases hx with rfl | hx | hx
        · exact absurd hs.1.1 hr
        · exfalso
          have : ∀ {D : Dom} {T : Trees}, D.anyRef = false → ∀ x ∈ D.elems T, x.refs = [] := by
            intro D
            induction D with
            | nil => intro T _ x hx; simp [Dom.elems] at hx
            | element eid id attrs refs kids rest ih1 ih2 =>
              intro T hD x hx
              simp only [Dom.anyRef, Bool.or_eq_false_iff, Bool.not_eq_false', List.isEmpty_iff] at hD
              cases T with
              | nil => simp [Dom.elems] at hx
              | cons n K R =>
                simp only [Dom.elems, List.mem_cons, List.mem_append] at hx
                rcases hx with rfl | hx | hx
                · exact hD.1.1
                · exact ih1 hD.1.2 x hx
                · exact ih2 hD.2 x hx
            | text t rest ih =>
              intro T hD x hx
              cases T with
              | nil => simp [Dom.elems] at hx
              | cons n K R => exact ih hD x hx
            | comment t rest ih =>
              intro T hD x hx
              cases T with
              | nil => simp [Dom.elems] at hx
              | cons n K R => exact ih hD x hx
          exact hr (this hs.1.2 x hx)
        · exact refInStyle_elems (D := r) i hs.2 x hx hr
      · have hst : ¬ s.hasTagName n (.id .Style) = true := by simp [St.hasTagName, b, he]
        simp only [Dom.unstyled, Trees.keep, if_neg he, if_neg hst, Dom.elems, List.mem_cons, List.mem_append]
        rw [if_neg he] at hs
        rcases hx with rfl | hx | hx
        · exact .inl rfl
        · exact .inr (.inl (refInStyle_elems (D := k) f hs.1 x hx hr))
        · exact .inr (.inr (refInStyle_elems (D := r) i hs.2 x hx hr))
  | .text _ r, T, h, hs, x, hx, hr => by
    cases T with
    | nil => exact h.elim
    | cons n K R =>
      obtain ⟨a, b, c, d, e, rfl, i⟩ := h
      have hst : ¬ s.hasTagName n (.id .Style) = true := by simp [St.hasTagName, b]
      simp only [Dom.unstyled, Trees.keep, if_neg hst, Dom.elems]
      exact refInStyle_elems (D := r) i hs x hx hr
  | .comment _ r, T, h, hs, x, hx, hr => by
    cases T with
    | nil => exact h.elim
    | cons n K R =>
      obtain ⟨a, b, c, d, e, rfl, i⟩ := h
      have hst : ¬ s.hasTagName n (.id .Style) = true := by simp [St.hasTagName, b]
      simp only [Dom.unstyled, Trees.keep, if_neg hst, Dom.elems]
      exact refInStyle_elems (D := r) i hs x hx hr

end Svgdom
