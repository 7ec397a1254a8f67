import Verif.Proof.Distinct
import Verif.Props.Read
import Verif.Props.Parse

/-!
# C87-C89: names of written attributes, names as strings, namespaces of attributes
-/

set_option autoImplicit false

namespace Svgdom

/-! ## C87 -/

/-- C87: exactly when the attributes of an element are written under different names. -/
theorem C87_exact {s : St} (h : Reachable s) (ha : s.Acyclic) (W : ValueWriter) {n : NodeId} (hn : s.live n = true) :
    ∃ es, s.writeAttributes W n = .ok es ∧ ((attrNames es).Nodup ↔ DistinctNames s n) :=
  writeAttributes_distinct h ha W hn

/-- A document in which one element is written with all kinds of attributes under different names, and one is not. -/
def namesHistory : List Op :=
  [.createElement (.id .Svg), .createElement (.id .Rect), .append 0 1, .append 1 2, .setId 1 ['a'], .setId 2 ['b'],
   .setAttribute 1 ⟨.id .Fill, .none⟩, .setAttribute 1 ⟨.name st!"z", .none⟩,
   .setAttribute 2 ⟨.id .Fill, .none⟩, .setAttribute 2 ⟨.name st!"fill", .inherit⟩]

/-- Non-vacuity: a top `svg` with an id, an SVG attribute and another one. -/
example : ∃ s es, Reachable s ∧ s.Acyclic ∧ s.live 1 = true ∧ s.TopSvg 1 ∧ s.idOf 1 ≠ [] ∧ s.writeAttributes sampleWriter 1 = .ok es ∧
    attrNames es = [st!"xmlns", st!"id", st!"fill", st!"z"] ∧ DistinctNames s 1 := by
  obtain ⟨s, h, e⟩ := exists_of_holds (ops := namesHistory) (p := fun s =>
    (s.acyclicB s.nextId && s.live 1) && decide (s.tagName 1 = .id .Svg) && decide (s.parent 1 = some 0) &&
      decide (s.nodeType 0 = .root) && decide (s.idOf 1 = ['a']) &&
      match s.writeAttributes sampleWriter 1 with
        | .ok es => decide (attrNames es = [st!"xmlns", st!"id", st!"fill", st!"z"])
        | .error _ => false) (by decide +kernel)
  simp only [Bool.and_eq_true, decide_eq_true_eq] at e
  obtain ⟨⟨⟨⟨⟨⟨h1, h2⟩, h3⟩, h4⟩, h5⟩, h6⟩, h7⟩ := e
  have ha := acyclic_of_check h.inv.liveBelow h1
  obtain ⟨es, e1, e2⟩ := C87_exact h ha sampleWriter h2
  rw [e1] at h7
  simp only [decide_eq_true_eq] at h7
  exact ⟨s, es, h, ha, h2, ⟨h3, 0, h4, h5⟩, by rw [h6]; simp, e1, h7, e2.1 (by rw [h7]; decide)⟩

/-- C87 fails: an attribute can be set by its id and by its name, and both are written. -/
theorem C87_refuted : ∃ s es, Reachable s ∧ s.Acyclic ∧ s.live 2 = true ∧ s.writeAttributes sampleWriter 2 = .ok es ∧
    es = [.attribute st!"id" st!"b", .attributeRaw st!"fill" st!"none", .attributeRaw st!"fill" st!"inherit"] ∧
    ¬ (attrNames es).Nodup := by
  obtain ⟨s, h, e⟩ := exists_of_holds (ops := namesHistory) (p := fun s =>
    (s.acyclicB s.nextId && s.live 2) && match s.writeAttributes sampleWriter 2 with
        | .ok es => decide (es = [.attribute st!"id" st!"b", .attributeRaw st!"fill" st!"none", .attributeRaw st!"fill" st!"inherit"])
        | .error _ => false) (by decide +kernel)
  simp only [Bool.and_eq_true] at e
  obtain ⟨⟨h1, h2⟩, h3⟩ := e
  split at h3
  · next es hw =>
    rw [decide_eq_true_eq] at h3
    exact ⟨s, es, h, acyclic_of_check h.inv.liveBelow h1, h2, hw, h3, by rw [h3]; decide⟩
  · simp at h3

/-- C87 fails for parsed documents too: an attribute with the local name `xmlns` in the SVG namespace is taken for the SVG attribute
`xmlns`, and the top element is written with two default namespaces. -/
theorem C87_refuted_parsed : ∃ x s es, parseSvg sampleLib true x = .ok s ∧ s.InTree 1 ∧ s.writeAttributes sampleWriter 1 = .ok es ∧
    es = [xmlnsDecl, .attributeRaw st!"xmlns" st!"q"] ∧ ¬ (attrNames es).Nodup := by
  obtain ⟨s, h, e⟩ := exists_of_parsed (x := xe st!"svg" [⟨some svgNs, st!"xmlns", st!"q"⟩] .nil .nil)
    (p := fun s => (s.live 1 && decide (s.parent 1 = some s.rootId)) && match s.writeAttributes sampleWriter 1 with
      | .ok es => decide (es = [xmlnsDecl, .attributeRaw st!"xmlns" st!"q"])
      | .error _ => false) (by decide +kernel)
  simp only [Bool.and_eq_true, decide_eq_true_eq] at e
  obtain ⟨⟨h1, h2⟩, h3⟩ := e
  split at h3
  · next es hw =>
    rw [decide_eq_true_eq] at h3
    exact ⟨_, s, es, h, ⟨h1, .single h2⟩, hw, h3, by rw [h3]; decide⟩
  · simp at h3

/-- Attributes of a parsed document come from XML attributes or style sheets; `xmlns` only from the former. -/
theorem parsed_attr_id {L : Lib} {debug : Bool} {x : Xml} {t : St} (e : parseSvg L debug x = .ok t) {j : NodeId} (hj : t.InTree j)
    {a : Attribute} (ha : a ∈ t.attributes j) : ∃ q ∈ x.places .root [], ∃ g ∈ x.attempts L q.1 q.2.2, a.name = .id g.1 := by
  obtain ⟨q, hq, _, h⟩ := final_attr e hj ha
  rcases h with ⟨g, hg, v, _, rfl⟩ | ⟨g, hg, h, _⟩
  · exact ⟨q, hq, g, hg, rfl⟩
  · exact ⟨q, hq, g, hg, h⟩

theorem attempt_xmlns {L : Lib} {x : Xml} {q : XmlPos} {attrs : List XmlAttr} {g : Assign} (hg : g ∈ x.attempts L q attrs)
    (h : g.1 = .Xmlns) : ∃ y ∈ attrs, y.aid = some .Xmlns := by
  have hf : g ∈ (x.attempts L q attrs).filter fun g => decide (g.1 = .Xmlns) := by
    rw [List.mem_filter]; exact ⟨hg, by simpa using h⟩
  unfold Xml.attempts at hf
  rw [filter_css (by decide), xmlAssigns_filter (by decide), List.mem_map] at hf
  obtain ⟨y, hy, _⟩ := hf
  rw [List.mem_filter, decide_eq_true_eq] at hy
  exact ⟨y, hy.1, hy.2⟩

/-- C87 for parsed documents: the attributes are written under different names if no attribute `xmlns` of a known namespace was on
an element of the XML document (namespace declarations are no attributes).
Not always (`C87_refuted_parsed`), and not for every document (`C87_refuted`). -/
theorem C87_partial {L : Lib} {debug : Bool} {x : Xml} {t : St} (e : parseSvg L debug x = .ok t) (W : ValueWriter)
    (hx : ∀ q ∈ x.places .root [], ∀ y ∈ q.2.2, y.aid ≠ some .Xmlns) {j : NodeId} (hj : t.InTree j) :
    ∃ es, t.writeAttributes W j = .ok es ∧ (attrNames es).Nodup := by
  obtain ⟨es, h1, h2⟩ := C87_exact (C44_reachable e).1.reachable (C44_tree e).2 W hj.1
  refine ⟨es, h1, h2.2 ?_⟩
  have hname : ∀ a ∈ t.attributes j, ∀ y, a.name ≠ .name y := by
    intro a ha y hc
    obtain ⟨q, _, g, _, h⟩ := parsed_attr_id e hj ha
    rw [h] at hc
    simp at hc
  refine ⟨fun _ a ha => ⟨(C33_attributes e hj ha).1, hname a ha _⟩, fun _ a ha => ⟨?_, hname a ha _⟩, fun _ _ a ha => hname a ha _,
    fun _ _ b hb _ y _ hy => absurd hy (hname b hb y)⟩
  intro hc
  obtain ⟨q, hq, g, hg, h⟩ := parsed_attr_id e hj ha
  rw [h] at hc
  obtain ⟨y, hy, hy'⟩ := attempt_xmlns hg (by simpa using hc)
  exact hx q hq y hy hy'

/-- The hypothesis of `C87_partial` is met by a document with an `svg` and a `rect` that have attributes. -/
example : ∃ x t, parseSvg sampleLib true x = .ok t ∧ (∀ q ∈ x.places .root [], ∀ y ∈ q.2.2, y.aid ≠ some .Xmlns) ∧
    t.InTree 1 ∧ t.InTree 2 ∧ (t.attributes 2).length = 2 := by
  obtain ⟨s, h, e⟩ := exists_of_parsed (x := xe st!"svg" [xa st!"id" st!"a", xa st!"width" st!"5"]
      (xe st!"rect" [xa st!"fill" st!"red", xa st!"x" st!"5"] .nil .nil) .nil)
    (p := fun s => (s.live 1 && decide (s.parent 1 = some s.rootId)) && (s.live 2 && decide (s.parent 2 = some 1)) &&
      decide ((s.attributes 2).length = 2)) (by decide +kernel)
  simp only [Bool.and_eq_true, decide_eq_true_eq] at e
  exact ⟨_, s, h, by decide +kernel, ⟨e.1.1.1, .single e.1.1.2⟩, ⟨e.1.2.1, .head (b := 1) e.1.2.2 (.single e.1.1.2)⟩, e.2⟩

/-! ## C88 -/

/-- A top element `svg` that was made with its name as a string, with an attribute `fill` that was set by its name. -/
def stringHistory : List Op :=
  [.createElement (.name st!"svg"), .append 0 1, .setAttribute 1 ⟨.name st!"fill", .none⟩]

/-- C88 fails: an element made by the name `svg` is written as `svg`, but is not the `svg` element of the document (and declares no
namespace); an attribute set by the name `fill` is written as `fill`, but the element has no attribute `fill`. -/
theorem C88_refuted : ∃ s, Reachable s ∧ s.Acyclic ∧ s.live 1 = true ∧ s.parent 1 = some s.rootId ∧ s.IsName 1 st!"svg" ∧
    s.svgElement = .ok none ∧ s.tagId 1 = none ∧ s.hasTagName 1 (.id .Svg) = false ∧ s.hasAttribute 1 (.id .Fill) = false ∧
    s.writeDom sampleWriter = .ok [.startElement st!"svg", .attributeRaw st!"fill" st!"none", .endElement] := by
  obtain ⟨s, h, e⟩ := exists_of_holds (ops := stringHistory) (p := fun s =>
    (s.acyclicB s.nextId && s.live 1 && decide (s.parent 1 = some s.rootId)) && decide (s.tagName 1 = .name st!"svg") &&
    (match s.svgElement with | .ok none => true | _ => false) && decide (s.tagId 1 = none) && !s.hasTagName 1 (.id .Svg) &&
    !s.hasAttribute 1 (.id .Fill) &&
    (match s.writeDom sampleWriter with
      | .ok es => decide (es = [.startElement st!"svg", .attributeRaw st!"fill" st!"none", .endElement])
      | .error _ => false)) (by decide +kernel)
  simp only [Bool.and_eq_true, decide_eq_true_eq, Bool.not_eq_true'] at e
  obtain ⟨⟨⟨⟨⟨⟨⟨⟨h1, h2⟩, h3⟩, h4⟩, h5⟩, h6⟩, h7⟩, h8⟩, h9⟩ := e
  refine ⟨s, h, acyclic_of_check h.inv.liveBelow h1, h2, h3, ?_, ?_, h6, h7, h8, ?_⟩
  · unfold St.IsName; rw [h4]
  · split at h5
    · assumption
    · simp at h5
  · split at h9
    · next es hw => rw [hw]; simpa using h9
    · simp at h9

/-- C88 for nodes on which known names are only there as ids: the node has the tag `e` exactly if it shows the name of `e`, and nodes
that show the same name have the same tag. -/
theorem C88_tag_partial {s : St} {n m : NodeId} (hn : KnownAsIds s n) (hm : KnownAsIds s m) :
    (∀ e x, e.asStr? = .ok x → (s.hasTagName n (.id e) = true ↔ s.IsName n x)) ∧
    (∀ x, s.IsName n x → s.IsName m x → s.tagName n = s.tagName m) := by
  have key : ∀ k, KnownAsIds s k → ∀ e x, e.asStr? = .ok x → (s.tagName k = .id e ↔ s.IsName k x) := by
    intro k hk e x he
    unfold St.IsName
    split
    · next e' ht =>
      constructor
      · intro h
        rw [ht] at h
        cases h
        exact he
      · intro h
        rw [ht, C28_element_injective e' e (h.trans he.symm)]
    · next y ht =>
      constructor
      · intro h; rw [ht] at h; simp at h
      · rintro rfl
        have := hk.tag x ht
        rw [elementNamed_of he] at this
        simp at this
  refine ⟨fun e x he => by rw [← key n hn e x he, St.hasTagName, decide_eq_true_eq], fun x h1 h2 => ?_⟩
  have h1' := h1
  unfold St.IsName at h1'
  split at h1'
  · next e he => rw [he]; exact ((key m hm e x h1').2 h2).symm
  · next y hy =>
    have h2' := h2
    unfold St.IsName at h2'
    split at h2'
    · next e he =>
      rw [(key n hn e x h2').2 h1] at hy
      simp at hy
    · next z hz => rw [hy, hz, ← h1', ← h2']

/-- C88 for attributes: on a node on which known names are only there as ids, the attribute `i` is there exactly if one is shown as
`i` is, and no two attributes are shown in the same way. -/
theorem C88_attribute_partial {s : St} (h : Reachable s) {n : NodeId} (hl : s.live n = true) (hn : KnownAsIds s n) :
    (∀ i x, i.IsQualified x → (s.hasAttribute n (.id i) = true ↔ ∃ a ∈ s.attributes n, a.ShowsAs x)) ∧
    (∀ a ∈ s.attributes n, ∀ b ∈ s.attributes n, ∀ x, a.ShowsAs x → b.ShowsAs x → a = b) := by
  have key : ∀ a ∈ s.attributes n, ∀ i : AttributeId, ∀ x, i.IsQualified x → a.ShowsAs x → a.name = .id i := by
    intro a ha i x hi hx
    unfold Attribute.ShowsAs at hx
    split at hx
    · next j hj => rw [hj, qualified_inj hx hi]
    · next y hy =>
      subst hx
      exact absurd hi (hn.attrs a ha x hy i)
  have hnames := h.inv.link.names n hl
  refine ⟨fun i x hi => ?_, ?_⟩
  · have : s.hasAttribute n (.id i) = true ↔ ∃ a ∈ s.attributes n, a.name = .id i := by
      simp [St.hasAttribute, attrsContains]
    rw [this]
    constructor
    · rintro ⟨a, ha, e⟩
      exact ⟨a, ha, by unfold Attribute.ShowsAs; rw [e]; exact hi⟩
    · rintro ⟨a, ha, e⟩
      exact ⟨a, ha, key a ha i x hi e⟩
  · intro a ha b hb x hax hbx
    have : a.name = b.name := by
      have h1 := hax
      unfold Attribute.ShowsAs at h1
      split at h1
      · next i hi => rw [hi, key b hb i x h1 hbx]
      · next y hy =>
        have h2 := hbx
        unfold Attribute.ShowsAs at h2
        split at h2
        · next i hi =>
          have := key a ha i x h2 hax
          rw [hy] at this
          simp at this
        · next z hz => rw [hy, hz, ← h1, ← h2]
    exact List.inj_on_of_nodup_map hnames ha hb this

/-- C88: all nodes of a parsed document are of this kind. -/
theorem C88_parsed {L : Lib} {debug : Bool} {x : Xml} {t : St} (e : parseSvg L debug x = .ok t) {j : NodeId} (hj : t.InTree j) :
    (t.nodeType j = .element → ∃ i, t.tagName j = .id i) ∧ (t.nodeType j = .element → KnownAsIds t j) := by
  have htag : t.nodeType j = .element → ∃ i, t.tagName j = .id i := by
    obtain ⟨_, p, T, G, s2, s3, u, f, hp⟩ := parse_ok e
    have hjk := ((inTree_final f hp).1 hj).1
    rw [hp.removed.tags, hp.ti.tags, f.resolves.same.tags, hp.removed.types, hp.ti.types, f.resolves.same.types]
    intro ht
    rcases f.is2.node f.of2 j hjk with ⟨h1, y, hy, rfl⟩ | ⟨h1, _, _, h2, _⟩
    · exact ⟨_, (f.is2.elem y hy).2.1⟩
    · rcases h1 with h1 | h1 <;> rw [ht] at h1 <;> simp at h1
  refine ⟨htag, fun ht => ⟨?_, ?_⟩⟩
  · intro y hy
    obtain ⟨i, hi⟩ := htag ht
    rw [hi] at hy
    simp at hy
  · intro a ha y hy
    obtain ⟨q, _, g, _, h⟩ := parsed_attr_id e hj ha
    rw [h] at hy
    simp at hy

/-- Non-vacuity: a node with an unknown tag and attribute, and one with known ones. -/
example : ∃ s, Reachable s ∧ s.live 1 = true ∧ s.live 2 = true ∧ KnownAsIds s 1 ∧ KnownAsIds s 2 ∧ s.tagName 1 = .name st!"metal" ∧
    s.tagName 2 = .id .Rect ∧ (s.attributes 1).length = 2 := by
  obtain ⟨s, h, e⟩ := exists_of_holds (ops := [.createElement (.name st!"metal"), .createElement (.id .Rect), .append 0 1, .append 1 2,
      .setAttribute 1 ⟨.name st!"gold", .none⟩, .setAttribute 1 ⟨.id .Fill, .none⟩, .setAttribute 2 ⟨.id .Fill, .none⟩])
    (p := fun s => (s.live 1 && s.live 2) && decide (s.tagName 1 = .name st!"metal") && decide (s.tagName 2 = .id .Rect) &&
      decide (s.attributes 1 = [⟨.name st!"gold", .none⟩, ⟨.id .Fill, .none⟩]) && decide (s.attributes 2 = [⟨.id .Fill, .none⟩]))
    (by decide +kernel)
  simp only [Bool.and_eq_true, decide_eq_true_eq] at e
  obtain ⟨⟨⟨⟨⟨h1, h2⟩, h3⟩, h4⟩, h5⟩, h6⟩ := e
  refine ⟨s, h, h1, h2, ⟨?_, ?_⟩, ⟨?_, ?_⟩, h3, h4, by rw [h5]; rfl⟩
  · intro x hx
    rw [h3] at hx
    cases hx
    decide +kernel
  · intro a ha x hx i hi
    rw [h5] at ha
    simp only [List.mem_cons, List.not_mem_nil, or_false] at ha
    rcases ha with rfl | rfl
    · cases hx
      unfold AttributeId.IsQualified at hi
      split at hi
      · exact absurd hi (by decide)
      · exact absurd hi (by decide)
      · have h7 := attributeNamed_of hi
        exact absurd h7 (by rw [show attributeNamed st!"gold" = none by decide +kernel]; simp)
    · cases hx
  · intro x hx
    rw [h4] at hx
    cases hx
  · intro a ha x hx
    rw [h6] at ha
    simp only [List.mem_cons, List.not_mem_nil, or_false] at ha
    subst ha
    cases hx

/-! ## C89 -/

/-- C89 fails: `space="preserve"` without namespace is taken for `xml:space`, so that white space is left alone, and `xml:lang` is
written as `lang`. -/
theorem C89_refuted :
    (∃ x s, x = xe st!"svg" [] (xe st!"text" [xa st!"space" st!"preserve"] (.text st!"a  b" .nil) .nil) .nil ∧
      parseSvg sampleLib true x = .ok s ∧ s.InTree 3 ∧ s.text 3 = st!"a  b") ∧
    (∃ x s, x = xe st!"svg" [⟨some xmlNs, st!"lang", st!"en"⟩] .nil .nil ∧
      parseSvg sampleLib true x = .ok s ∧ s.writeAttributes sampleWriter 1 = .ok [xmlnsDecl, .attributeRaw st!"lang" st!"en"]) := by
  constructor
  · obtain ⟨s, h, e⟩ := exists_of_parsed
      (x := xe st!"svg" [] (xe st!"text" [xa st!"space" st!"preserve"] (.text st!"a  b" .nil) .nil) .nil)
      (p := fun s => (s.live 3 && decide (s.parent 3 = some 2)) && decide (s.parent 2 = some 1) && decide (s.parent 1 = some s.rootId) &&
        decide (s.text 3 = st!"a  b")) (by decide +kernel)
    simp only [Bool.and_eq_true, decide_eq_true_eq] at e
    obtain ⟨⟨⟨⟨h1, h2⟩, h3⟩, h4⟩, h5⟩ := e
    exact ⟨_, s, rfl, h, ⟨h1, .head h2 (.head h3 (.single h4))⟩, h5⟩
  · obtain ⟨s, h, e⟩ := exists_of_parsed (x := xe st!"svg" [⟨some xmlNs, st!"lang", st!"en"⟩] .nil .nil)
      (p := fun s => match s.writeAttributes sampleWriter 1 with
        | .ok es => decide (es = [xmlnsDecl, .attributeRaw st!"lang" st!"en"])
        | .error _ => false) (by decide +kernel)
    refine ⟨_, s, rfl, h, ?_⟩
    split at e
    · next es hw => rw [hw]; simpa using e
    · simp at e

theorem alike_attribute {as bs : List XmlAttr} (h : List.Forall₂ XmlAttr.Alike as bs) {nm : Str} (hnm : nm = st!"style" ∨ nm = st!"type") :
    xmlAttribute as nm = xmlAttribute bs nm := by
  unfold xmlAttribute
  induction h with
  | nil => rfl
  | @cons a b as bs h1 _ ih =>
    rw [List.find?_cons, List.find?_cons]
    by_cases hc : a.name = nm
    · have hns := h1.plain (by rw [hc]; exact hnm)
      rw [← h1.name, ← hns]
      split
      · simp [h1.value]
      · exact ih
    · have hc' : b.name ≠ nm := by rw [← h1.name]; exact hc
      simp only [hc, hc', and_false, decide_false]
      exact ih

theorem alike_css : ∀ {x y : Xml}, x.Alike y → cssTexts x = cssTexts y := by
  intro x
  induction x with
  | nil => intro y h; cases y <;> first | rfl | exact h.elim
  | element ns name attrs kids rest ihk ihr =>
    intro y h
    cases y with
    | element ns' name' attrs' kids' rest' =>
      obtain ⟨rfl, rfl, h3, h4, h5⟩ := h
      have ht : xmlText kids = xmlText kids' := by
        cases kids <;> cases kids' <;> first | rfl | exact h4.elim | (obtain ⟨rfl, _⟩ := h4; rfl)
      simp only [cssTexts, alike_attribute h3 (.inr rfl), ihk h4, ihr h5, ht]
    | _ => exact h.elim
  | text t rest ih =>
    intro y h
    cases y with
    | text t' rest' => simp only [cssTexts]; exact ih h.2
    | _ => exact h.elim
  | comment t rest ih =>
    intro y h
    cases y with
    | comment t' rest' => simp only [cssTexts]; exact ih h.2
    | _ => exact h.elim
  | pi rest ih =>
    intro y h
    cases y with
    | pi rest' => simp only [cssTexts]; exact ih h
    | _ => exact h.elim

theorem alike_xmlAttributes (L : Lib) (n : NodeId) {as bs : List XmlAttr} (h : List.Forall₂ XmlAttr.Alike as bs) (p : PSt) :
    parseXmlAttributes L p n as = parseXmlAttributes L p n bs := by
  induction h generalizing p with
  | nil => rfl
  | @cons a b as bs h1 _ ih =>
    simp only [parseXmlAttributes, knownAttrNs_eq, h1.known, h1.name, h1.value, ih]

theorem alike_element (L : Lib) (p : PSt) (pos pos' : XmlPos) (eid : ElementId) {as bs : List XmlAttr}
    (h : List.Forall₂ XmlAttr.Alike as bs) : parseElement L [] p pos eid as = parseElement L [] p pos' eid bs := by
  simp only [parseElement, alike_xmlAttributes L _ h, parseRules, alike_attribute h (.inl rfl)]

theorem alike_process (L : Lib) : ∀ {x y : Xml}, x.Alike y → ∀ (pos pos' : XmlPos) (prev prev' : List (Option XmlElem)) (parent : NodeId)
    (p : PSt), processNodes L [] pos prev parent x p = processNodes L [] pos' prev' parent y p := by
  intro x
  induction x with
  | nil => intro y h; cases y <;> first | (intros; rfl) | exact h.elim
  | element ns name attrs kids rest ihk ihr =>
    intro y h pos pos' prev prev' parent p
    cases y with
    | element ns' name' attrs' kids' rest' =>
      obtain ⟨rfl, rfl, h3, h4, h5⟩ := h
      simp only [processNodes]
      rw [show (fun q => processNodes L [] pos (some ⟨ns, name, attrs⟩ :: prev) parent rest q) =
        fun q => processNodes L [] pos' (some ⟨ns, name, attrs'⟩ :: prev') parent rest' q from funext fun q => ihr h5 _ _ _ _ _ q]
      simp only [alike_element L p (.elem pos prev ⟨ns, name, attrs⟩) (.elem pos' prev' ⟨ns, name, attrs'⟩) _ h3,
        ihk h4 (.elem pos prev ⟨ns, name, attrs⟩) (.elem pos' prev' ⟨ns, name, attrs'⟩) [] []]
    | _ => exact h.elim
  | text t rest ih =>
    intro y h pos pos' prev prev' parent p
    cases y with
    | text t' rest' =>
      obtain ⟨rfl, h⟩ := h
      simp only [processNodes, ih h pos pos' (none :: prev) (none :: prev')]
    | _ => exact h.elim
  | comment t rest ih =>
    intro y h pos pos' prev prev' parent p
    cases y with
    | comment t' rest' =>
      obtain ⟨rfl, h⟩ := h
      simp only [processNodes, ih h pos pos' (none :: prev) (none :: prev')]
    | _ => exact h.elim
  | pi rest ih =>
    intro y h pos pos' prev prev' parent p
    cases y with
    | pi rest' => simp only [processNodes, ih h pos pos' (none :: prev) (none :: prev')]
    | _ => exact h.elim

/-- C89: without style sheets the result of parsing does not depend on the namespaces of attributes, as long as they are among those
that are looked at. -/
theorem C89_blind (L : Lib) (debug : Bool) {x y : Xml} (h : x.Alike y) (hs : L.sheet (cssTexts x) = []) :
    parseSvg L debug x = parseSvg L debug y := by
  simp only [parseSvg, ← alike_css h, hs, alike_process L h .root .root [] []]

theorem onlyKnown_attribute (as : List XmlAttr) (nm : Str) : xmlAttribute (as.filter XmlAttr.known) nm = xmlAttribute as nm := by
  unfold xmlAttribute
  rw [List.find?_filter]
  congr 2
  funext a
  by_cases h : a.ns = none
  · simp [XmlAttr.known, h]
  · simp [h]

theorem onlyKnown_xmlAttributes (L : Lib) (n : NodeId) (as : List XmlAttr) (p : PSt) :
    parseXmlAttributes L p n (as.filter XmlAttr.known) = parseXmlAttributes L p n as := by
  induction as generalizing p with
  | nil => rfl
  | cons a as ih =>
    rw [List.filter_cons]
    split
    · next h =>
      simp only [parseXmlAttributes, ih]
    · next h =>
      rw [ih]
      simp [parseXmlAttributes, knownAttrNs_eq, h, bind, Except.bind, pure, Except.pure]

theorem onlyKnown_css : ∀ x : Xml, cssTexts x.onlyKnown = cssTexts x
  | .nil => rfl
  | .element ns name attrs kids rest => by
    have ht : xmlText kids.onlyKnown = xmlText kids := by cases kids <;> rfl
    simp only [Xml.onlyKnown, cssTexts, onlyKnown_attribute, ht, onlyKnown_css kids, onlyKnown_css rest]
  | .text t rest => onlyKnown_css rest
  | .comment t rest => onlyKnown_css rest
  | .pi rest => onlyKnown_css rest

theorem onlyKnown_process (L : Lib) : ∀ (x : Xml) (pos pos' : XmlPos) (prev prev' : List (Option XmlElem)) (parent : NodeId)
    (p : PSt), processNodes L [] pos prev parent x.onlyKnown p = processNodes L [] pos' prev' parent x p := by
  intro x
  induction x with
  | nil => intros; rfl
  | element ns name attrs kids rest ihk ihr =>
    intro pos pos' prev prev' parent p
    have he : ∀ eid, parseElement L [] p (.elem pos prev ⟨ns, name, attrs.filter XmlAttr.known⟩) eid (attrs.filter XmlAttr.known) =
        parseElement L [] p (.elem pos' prev' ⟨ns, name, attrs⟩) eid attrs := by
      intro eid
      simp only [parseElement, onlyKnown_xmlAttributes, parseRules, onlyKnown_attribute]
    simp only [Xml.onlyKnown, processNodes]
    rw [show (fun q => processNodes L [] pos (some ⟨ns, name, attrs.filter XmlAttr.known⟩ :: prev) parent rest.onlyKnown q) =
      fun q => processNodes L [] pos' (some ⟨ns, name, attrs⟩ :: prev') parent rest q from funext fun q => ihr _ _ _ _ _ q]
    simp only [he, ihk (.elem pos prev ⟨ns, name, attrs.filter XmlAttr.known⟩) (.elem pos' prev' ⟨ns, name, attrs⟩) [] []]
  | text t rest ih =>
    intro pos pos' prev prev' parent p
    simp only [Xml.onlyKnown, processNodes, ih pos pos' (none :: prev) (none :: prev')]
  | comment t rest ih =>
    intro pos pos' prev prev' parent p
    simp only [Xml.onlyKnown, processNodes, ih pos pos' (none :: prev) (none :: prev')]
  | pi rest ih =>
    intro pos pos' prev prev' parent p
    simp only [Xml.onlyKnown, processNodes, ih pos pos' (none :: prev) (none :: prev')]

/-- C89 in part: without style sheets, attributes of other vocabularies have no effect, whatever their local names.
Not for the XLink and XML vocabularies (`C89_refuted`, `C89_blind`). -/
theorem C89_partial (L : Lib) (debug : Bool) (x : Xml) (hs : L.sheet (cssTexts x) = []) :
    parseSvg L debug x.onlyKnown = parseSvg L debug x := by
  simp only [parseSvg, onlyKnown_css, hs, onlyKnown_process L x .root .root [] []]

/-- Non-vacuity of `C89_blind`: `xlink:fill` for `fill`, and `href` without namespace; the document is parsed. -/
example : ∃ x y s, x.Alike y ∧ x ≠ y ∧ sampleLib.sheet (cssTexts x) = [] ∧ parseSvg sampleLib true x = .ok s ∧
    parseSvg sampleLib true y = .ok s ∧ (s.attributes 2).length = 2 := by
  have ha : (xe st!"svg" [] (xe st!"rect" [⟨some xlinkNs, st!"fill", st!"red"⟩, ⟨none, st!"href", st!"u"⟩] .nil .nil) .nil).Alike
      (xe st!"svg" [] (xe st!"rect" [⟨none, st!"fill", st!"red"⟩, ⟨some xlinkNs, st!"href", st!"u"⟩] .nil .nil) .nil) := by
    refine ⟨rfl, rfl, .nil, ⟨rfl, rfl, .cons ⟨rfl, rfl, by decide +kernel, ?_⟩ (.cons ⟨rfl, rfl, by decide +kernel, ?_⟩ .nil),
      trivial, trivial⟩, trivial⟩
    · intro h; exact absurd h (by decide)
    · intro h; exact absurd h (by decide)
  obtain ⟨s, h, e⟩ := exists_of_parsed (x := xe st!"svg" []
    (xe st!"rect" [⟨some xlinkNs, st!"fill", st!"red"⟩, ⟨none, st!"href", st!"u"⟩] .nil .nil) .nil)
    (p := fun s => decide ((s.attributes 2).length = 2)) (by decide +kernel)
  refine ⟨_, _, s, ha, by decide +kernel, by decide +kernel, h, ?_, by simpa using e⟩
  rw [← C89_blind sampleLib true ha (by decide +kernel), h]

/-- Non-vacuity of `C89_partial`: an attribute `fill` in a foreign namespace is left out. -/
example : ∃ x s, x.onlyKnown ≠ x ∧ sampleLib.sheet (cssTexts x) = [] ∧ parseSvg sampleLib true x = .ok s ∧
    (s.attributes 2).length = 1 := by
  obtain ⟨s, h, e⟩ := exists_of_parsed (x := xe st!"svg" []
    (xe st!"rect" [⟨some st!"urn:a", st!"fill", st!"red"⟩, ⟨none, st!"stroke", st!"red"⟩] .nil .nil) .nil)
    (p := fun s => decide ((s.attributes 2).length = 1)) (by decide +kernel)
  exact ⟨_, s, by decide +kernel, by decide +kernel, h, by simpa using e⟩

end Svgdom
