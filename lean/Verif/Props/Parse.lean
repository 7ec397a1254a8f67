import Verif.Proof.ParseFinal
import Verif.Spec.Samples
import Verif.Spec.AcyclicCheck

/-!
# Parsing: C31 - C35, C41 - C44, C50

`L` are the results of the external value parsers, the CSS parser and the selector matching, without any assumption.
-/

set_option autoImplicit false

namespace Svgdom

open Relation

/-! ## Sample document -/

/-- `svg` with style sheet, `style` attribute, references, nested groups, text, comment, unknown element, processing instruction. -/
def docXml : Xml :=
  .pi <| .comment st!"top" <|
  xe st!"svg" [xa st!"width" st!"5", xa st!"unknown" st!"1"]
    (xe st!"style" [] (.text st!"rect{fill:green}" .nil) <|
     xe st!"linearGradient" [xa st!"id" st!"a"] .nil <|
     .text st!"  " <|
     xe st!"rect" [xa st!"id" st!"r", xa st!"class" st!"c", xa st!"fill" st!"red", xa st!"opacity" st!"5",
         xa st!"style" st!"stroke:url(#a);marker:none"] .nil <|
     .element none st!"rect" [] (.comment st!"x" .nil) <|
     xe st!"foo" [] .nil <|
     xe st!"g" [xa st!"filter" st!"url(#gone)"]
       (xe st!"use" [⟨some xlinkNs, st!"href", st!"#r"⟩] .nil <| .comment st!"in" .nil) <|
     xe st!"text" [] (.text st!" a\nb " .nil) .nil) .nil

/-! ## C31 -/

/-- The nodes of the finished document. -/
theorem inTree_final {L : Lib} {debug : Bool} {x : Xml} {p : PSt} {T : Trees} {G : Forest} {s2 s3 u t : St} (f : Front L debug x p T G s2 s3)
    (hp : Prepared s3 (G.prune (T.gone p.dom.styleNode)) (T.keep p.dom.styleNode) u t) {j : NodeId} :
    t.InTree j ↔ j ∈ (T.keep p.dom.styleNode).pre ∧ u.emptyText j = false := by
  constructor
  · rintro ⟨h1, h2⟩; exact (final_mem f hp h1).1 h2
  · intro h
    have hl : t.live j = true := by
      rw [hp.removed.live, hp.ti.live]; exact (front_region f h.1).live
    exact ⟨hl, (final_mem f hp hl).2 h⟩

/-- C31: the first element of a parsed document is `svg`, and `svg_element()` returns it. -/
theorem C31_starts_with_svg {L : Lib} {debug : Bool} {x : Xml} {t : St} (e : parseSvg L debug x = .ok t) :
    ∃ F a n b, Describes t F ∧ F.kids t.rootId = a ++ n :: b ∧ (∀ c ∈ a, t.nodeType c ≠ .element) ∧ t.nodeType n = .element ∧
      t.tagName n = .id .Svg ∧ t.svgElement = .ok (some n) := by
  obtain ⟨hh, p, T, G, s2, s3, u, f, hp⟩ := parse_ok e
  have hr : t.rootId = s3.rootId := hp.removed.rootId.trans hp.ti.rootId
  obtain ⟨a, n, b, h1, h2, h3, h4⟩ := (final_dom f hp).first hp.of (unstyled_first hh)
  rw [← hr] at h1
  refine ⟨_, a, n, b, hp.desc, h1, h2, h3, h4, ?_⟩
  have hkids : ∀ c ∈ a, t.tagName c ≠ .id .Svg := by
    intro c hc ht
    have hl : t.live c = true := (hp.desc.wf.kids _ hp.built.rootLive c (by rw [h1]; simp [hc])).1
    have hpar : t.parent c = some t.rootId := by
      rw [hp.desc.shows.parent c hl]
      exact (hp.desc.wf.kids _ hp.built.rootLive c (by rw [h1]; simp [hc])).2
    rcases f.is2.node f.of2 c ((inTree_final f hp).1 ⟨hl, .single hpar⟩).1 with ⟨h5, _⟩ | ⟨_, _, _, h5, _⟩
    · rw [← f.resolves.same.types, ← hp.ti.types, ← hp.removed.types] at h5
      exact h2 c hc h5
    · rw [← f.resolves.same.tags, ← hp.ti.tags, ← hp.removed.tags, ht] at h5
      simp at h5
  rcases C26_svg_element hp.built.reachable hp.desc with ⟨a', n', b', k1, k2, k3, k4⟩ | ⟨k1, _⟩
  · rw [k4]
    have : a ++ n :: b = a' ++ n' :: b' := by rw [← h1, ← k1]
    congr 2
    rcases List.append_eq_append_iff.1 this with ⟨m, hm1, hm2⟩ | ⟨m, hm1, hm2⟩
    · cases m with
      | nil => simp at hm2; exact hm2.1.symm
      | cons y ys =>
        simp only [List.cons_append, List.cons.injEq] at hm2
        exact absurd h4 (k3 n (by rw [hm1, ← hm2.1]; simp))
    · cases m with
      | nil => simp at hm2; exact hm2.1
      | cons y ys =>
        simp only [List.cons_append, List.cons.injEq] at hm2
        exact absurd k2 (hkids n' (by rw [hm1, ← hm2.1]; simp))
  · exact absurd h4 (k1 n (by rw [h1]; simp))

/-- C31: parsing fails exactly if the first known SVG element on the top level is not `svg`. -/
theorem C31_no_svg (L : Lib) (debug : Bool) (x : Xml) :
    parseSvg L debug x = .error .noSvgElement ↔ x.topSvg.head? ≠ some .Svg := by
  have ht : (svgDom L x).tags = x.topSvg := tags_domOf _ _ _ _ _ _
  rcases parse_cases L debug x with ⟨h, p, T, G, s2, s3, u, t, f, hp, e⟩ | ⟨h, e⟩
  · rw [ht] at h
    simp [e, h]
  · rw [ht] at h
    simp [e, h]

/-- C31: otherwise it succeeds. -/
theorem C31_svg (L : Lib) (debug : Bool) (x : Xml) : (∃ t, parseSvg L debug x = .ok t) ↔ x.topSvg.head? = some .Svg := by
  have ht : (svgDom L x).tags = x.topSvg := tags_domOf _ _ _ _ _ _
  rcases parse_cases L debug x with ⟨h, p, T, G, s2, s3, u, t, f, hp, e⟩ | ⟨h, e⟩
  · rw [ht] at h
    simp [e, h]
  · rw [ht] at h
    simp [e, h]

/-- A document with a comment before `svg`; one that begins with a `g`. -/
example : (∃ t, parseSvg sampleLib true docXml = .ok t) ∧
    parseSvg sampleLib true (xe st!"g" [] .nil (xe st!"svg" [] .nil .nil)) = .error .noSvgElement ∧
    parseSvg sampleLib true .nil = .error .noSvgElement := by
  refine ⟨(C31_svg _ _ _).2 (by decide +kernel), (C31_no_svg _ _ _).2 (by decide +kernel), (C31_no_svg _ _ _).2 (by decide +kernel)⟩

/-! ## C32 -/

/-- C32: after `process_node` the tree below the root is the SVG part of the XML tree (`svgDom`), and the collected references are
those of `svgDom` in document order. -/
theorem C32_mirror {L : Lib} {debug : Bool} {x : Xml} {p : PSt}
    (e : processNodes L (L.sheet (cssTexts x)) .root [] (St.init debug).rootId x ⟨St.init debug, []⟩ = .ok p) :
    ∃ T F, Describes p.dom F ∧ T.Of F (F.kids p.dom.rootId) ∧ (svgDom L x).Is p.dom T ∧ p.links = (svgDom L x).plinks T ∧
      (∀ j, p.dom.live j = true ↔ j = p.dom.rootId ∨ j ∈ T.pre) := by
  rw [cssTexts_eq] at e
  have hb : Built (St.init debug) := Built.init debug
  have hF : Describes (St.init debug) Forest.isolated := (treeInv_init debug).reps.describes
  have hr : (St.init debug).live (St.init debug).rootId = true := hb.rootLive
  have hgood : ∀ D : Dom, Good (St.init debug) Forest.isolated (St.init debug).rootId D ↔ ∀ e, D.tags.head? = some e → e = .Svg := by
    intro D
    simp [Good, Forest.isolated]
  obtain ⟨h1, h2⟩ := processNodes_spec L (L.sheet (styleTexts x)) x .root [] (St.init debug).rootId ⟨St.init debug, []⟩
    Forest.isolated hb hF hr (by simp [Forest.isolated]) ((hgood _).2 (by simp [Dom.tags]))
  have htag : (St.init debug).tagId (St.init debug).rootId = none := rfl
  simp only [htag] at h1 h2
  rw [hgood] at h1 h2
  by_cases hs : ∀ e, (svgDom L x).tags.head? = some e → e = .Svg
  · obtain ⟨p', T, l, G, e1, ad⟩ := h1 hs
    rw [e] at e1
    cases e1
    have hroot : p.dom.rootId = (St.init debug).rootId := ad.grown.rootId
    refine ⟨T, G, ad.desc, ?_, ad.is, by rw [ad.links]; simp [svgDom], fun j => ?_⟩
    · rw [hroot, ad.kids]; exact ad.of
    · rw [ad.grown.live, hroot]; simp [St.init]
  · have := h2 hs
    rw [e] at this
    cases this

/-- C32: in the finished document `style` elements are gone, texts have been processed, and attributes given by references have been
resolved; everything else is as in `svgDom`. -/
theorem C32_final {L : Lib} {debug : Bool} {x : Xml} {t : St} (e : parseSvg L debug x = .ok t) :
    ∃ T F, Describes t F ∧ T.Of F (F.kids t.rootId) ∧ (svgDom L x).unstyled.Final t T := by
  obtain ⟨_, p, T, G, s2, s3, u, f, hp⟩ := parse_ok e
  have hr : t.rootId = s3.rootId := hp.removed.rootId.trans hp.ti.rootId
  exact ⟨_, _, hp.desc, by rw [hr]; exact hp.of, final_dom f hp⟩

/-- What is kept and what is dropped in the sample document. -/
example : (svgDom sampleLib docXml).unstyled =
    .comment st!"top" (.element .Svg [] [⟨.id .Width, .length ⟨.fin 5, .none⟩⟩] []
      (.element .LinearGradient st!"a" [] [] .nil <|
       .element .Rect st!"r" [⟨.id .Opacity, .number (.fin 1)⟩, ⟨.id .Fill, .color ⟨0, 128, 0⟩⟩, ⟨.id .Marker, .none⟩]
         [⟨.Stroke, st!"a", none⟩] .nil <|
       .element .G [] [] [⟨.Filter, st!"gone", none⟩]
         (.element .Use [] [] [⟨.Href, st!"r", none⟩] .nil (.comment st!"in" .nil)) <|
       .element .Text [] [] [] (.text st!" a\nb " .nil) .nil) .nil) := by decide +kernel

/-! ## C33 -/

theorem final_attrs {L : Lib} {debug : Bool} {x : Xml} {p : PSt} {T : Trees} {G : Forest} {s2 s3 u t : St} (f : Front L debug x p T G s2 s3)
    (hp : Prepared s3 (G.prune (T.gone p.dom.styleNode)) (T.keep p.dom.styleNode) u t) {j : NodeId} (hj : t.InTree j) :
    t.attributes j = s3.attributes j := hp.attrs j (front_region f ((inTree_final f hp).1 hj).1).live

/-- Attributes of the finished document: from an attempt, or from a reference. -/
theorem final_attr {L : Lib} {debug : Bool} {x : Xml} {t : St} (e : parseSvg L debug x = .ok t) {j : NodeId} (hj : t.InTree j)
    {a : Attribute} (ha : a ∈ t.attributes j) : ∃ q ∈ x.places .root [], t.tagName j = .id q.2.1 ∧
      ((∃ g ∈ x.attempts L q.1 q.2.2, ∃ v, valueOf L q.2.1 g = some v ∧ a = ⟨.id g.1, v⟩) ∨
       (∃ g ∈ x.attempts L q.1 q.2.2, a.name = .id g.1 ∧ ∃ iri fb, parseValue L g.1 q.2.1 g.2 = .link iri fb ∧
        ((a.value = missingValue g.1 iri fb ∧ iri ≠ [] ∧ ∀ n, t.InTree n → t.idOf n ≠ iri) ∨
          ∃ n, t.InTree n ∧ t.idOf n = iri ∧ a.value = foundValue g.1 n fb))) := by
  obtain ⟨_, p, T, G, s2, s3, u, f, hp⟩ := parse_ok e
  rw [final_attrs f hp hj] at ha
  have hjk := ((inTree_final f hp).1 hj).1
  have hids : ∀ n, t.idOf n = s2.idOf n := fun n => by rw [hp.removed.ids, hp.ti.ids, f.resolves.same.ids]
  rcases f.is2.node f.of2 j hjk with ⟨h1, y, hy, rfl⟩ | ⟨h1, h2, _⟩
  · have hyD := (elems_unstyled f.adds.is y hy).1
    obtain ⟨q, hq, h3, h4, h5, h6⟩ := domOf_places L _ x .root [] none T y hyD
    have htag : t.tagName y.node = .id q.2.1 := by
      rw [hp.removed.tags, hp.ti.tags, f.resolves.same.tags, (f.is2.elem y hy).2.1, h3]
    refine ⟨q, hq, htag, ?_⟩
    rcases f.resolves.mem ha with h | ⟨l, hl, h7, h8, h9⟩
    · left
      rw [(f.is2.elem y hy).2.2.2.1, h5] at h
      rcases attrsOf_mem h with h | h
      · simp at h
      · exact h
    · right
      obtain ⟨r, hr, rfl⟩ := front_refs f hyD hl h7
      rw [h6] at hr
      obtain ⟨g, hg, k1, k2⟩ := refsOf_mem hr
      refine ⟨g, hg, by rw [h8, k2], r.iri, r.fallback, k1, ?_⟩
      rw [k2] at h9
      have hroot : s2.idOf p.dom.rootId = [] := by
        rw [f.removed.ids, f.root, f.adds.grown.ids _ (Built.init debug).rootLive]
        rfl
      refine h9.imp ?_ ?_
      · rintro ⟨k3, k4⟩
        refine ⟨k3, fun hc => k4 _ (List.mem_cons_self ..) (hroot.trans hc.symm), fun n hn => ?_⟩
        rw [hids]
        exact k4 n (List.mem_cons_of_mem _ ((inTree_final f hp).1 hn).1)
      rintro ⟨n, k3, k4, k5, k6⟩
      refine ⟨n, ?_, by rw [hids]; exact k4, k6⟩
      rcases List.mem_cons.1 k3 with rfl | k3
      · exfalso
        exact k5 hroot
      · rw [inTree_final f hp]
        refine ⟨k3, ?_⟩
        rw [Bool.eq_false_iff]
        intro hem
        obtain ⟨k7, _⟩ : u.nodeType n = .text ∧ u.text n = [] := by simpa [St.emptyText, St.isText] using hem
        rw [hp.ti.types, f.resolves.same.types] at k7
        rcases f.is2.node f.of2 n k3 with ⟨k8, _⟩ | ⟨_, _, k8, _⟩
        · rw [k7] at k8; simp at k8
        · exact k5 k8
  · exfalso
    have : s3.attributes j = [] := by
      rw [f.resolves.attrs, h2]
      intro l hl hln
      obtain ⟨y, hy, h5, _⟩ := front_link f hl
      have := (f.adds.is.elem y hy).1
      rw [← h5, hln, ← f.removed.types] at this
      rw [this] at h1; simp at h1
    rw [this] at ha; simp at ha

/-- C33: no attribute is named `id`, `style` or `class`. -/
theorem C33_attributes {L : Lib} {debug : Bool} {x : Xml} {t : St} (e : parseSvg L debug x = .ok t) {j : NodeId} (hj : t.InTree j)
    {a : Attribute} (ha : a ∈ t.attributes j) : a.name ≠ .id .Id ∧ a.name ≠ .id .Style ∧ a.name ≠ .id .Class := by
  obtain ⟨q, _, _, h⟩ := final_attr e hj ha
  have : ∃ g ∈ x.attempts L q.1 q.2.2, a.name = .id g.1 := by
    rcases h with ⟨g, hg, v, _, rfl⟩ | ⟨g, hg, h, _⟩
    · exact ⟨g, hg, rfl⟩
    · exact ⟨g, hg, h⟩
  obtain ⟨g, hg, h1⟩ := this
  have h2 := allAssigns_special hg
  rw [h1]
  unfold AttributeId.special at h2
  simp only [ne_eq, QName.id.injEq]
  refine ⟨?_, ?_, ?_⟩ <;> intro h3 <;> rw [h3] at h2 <;> simp at h2

/-- C33: no `style` element is left. -/
theorem C33_no_style {L : Lib} {debug : Bool} {x : Xml} {t : St} (e : parseSvg L debug x = .ok t) {j : NodeId} (hj : t.InTree j) :
    t.tagName j ≠ .id .Style := by
  obtain ⟨_, p, T, G, s2, s3, u, f, hp⟩ := parse_ok e
  have hjk := ((inTree_final f hp).1 hj).1
  rw [hp.removed.tags, hp.ti.tags, f.resolves.same.tags]
  rcases f.is2.node f.of2 j hjk with ⟨h1, y, hy, rfl⟩ | ⟨h1, _, _, h2, _⟩
  · rw [(f.is2.elem y hy).2.1]
    have := (elems_unstyled f.adds.is y hy).2
    simpa using this
  · rw [h2]; simp

/-- In the sample the rectangle had `id`, `class` and `style`; the attributes left are others. -/
example : ∃ t, parseSvg sampleLib true docXml = .ok t ∧ ∃ j, t.InTree j ∧ t.tagName j = .id .Rect ∧ t.idOf j = st!"r" ∧
    (t.attributes j).map (·.name) = [.id .Opacity, .id .Fill, .id .Marker, .id .Stroke] := by
  obtain ⟨t, e, hp⟩ := exists_of_parsed (x := docXml) (p := fun t => t.live 6 && decide (t.parent 6 = some 2) &&
    decide (t.parent 2 = some t.rootId) && decide (t.tagName 6 = .id .Rect) && decide (t.idOf 6 = st!"r") &&
    decide ((t.attributes 6).map (·.name) = [.id .Opacity, .id .Fill, .id .Marker, .id .Stroke])) (by decide +kernel)
  simp only [Bool.and_eq_true, decide_eq_true_eq] at hp
  obtain ⟨⟨⟨⟨⟨p1, p2⟩, p3⟩, p4⟩, p5⟩, p6⟩ := hp
  exact ⟨t, e, 6, ⟨p1, .head (b := 2) p2 (.single p3)⟩, p4, p5, p6⟩

/-! ## C34 -/

/-- C34: one value per attribute is kept while an element is parsed: the last valid one, in the order XML attributes, rules,
`style` attribute. -/
theorem C34_element {L : Lib} {sheet : List Rule} {p p' : PSt} (h1 : SafeReachable p.dom) (h2 : RootSafeReachable p.dom) {pos : XmlPos}
    {eid : ElementId} {attrs : List XmlAttr} {n : NodeId} (e : parseElement L sheet p pos eid attrs = .ok (p', n)) (a : AttributeId) :
    attrsGetValue (p'.dom.attributes n) (.id a) =
      ((lastValue L eid a (styleAttrAssigns L attrs)).or (lastValue L eid a (ruleAssigns sheet pos))).or
        (lastValue L eid a (xmlAssigns attrs)) := by
  obtain ⟨F, hF⟩ := C01_forest (Built.reachable ⟨h1, h2⟩)
  obtain ⟨t, e1, _, _, _, _, _, _, h3, _⟩ := parseElement_eq L sheet ⟨h1, h2⟩ pos eid attrs hF
  rw [e] at e1
  cases e1
  simp only
  rw [h3, attrsOf, attrsOf_get, allAssigns]
  unfold lastValue
  rw [List.filter_append, List.filter_append, List.filterMap_append, List.filterMap_append, List.getLast?_append, List.getLast?_append]
  have : attrsGetValue [] (.id a) = none := rfl
  rw [this, Option.or_none, Option.or_assoc]

/-- C34 for the finished document, if no value for the attribute is a reference. -/
theorem C34_document_partial {L : Lib} {debug : Bool} {x : Xml} {t : St} (e : parseSvg L debug x = .ok t) {j : NodeId} (hj : t.InTree j)
    (he : t.nodeType j = .element) : ∃ q ∈ x.places .root [], t.tagName j = .id q.2.1 ∧ t.idOf j = idFrom q.2.2 ∧
      ∀ a, (∀ g ∈ x.attempts L q.1 q.2.2, g.1 = a → refOf L q.2.1 g = none) →
        attrsGetValue (t.attributes j) (.id a) = lastValue L q.2.1 a (x.attempts L q.1 q.2.2) := by
  obtain ⟨_, p, T, G, s2, s3, u, f, hp⟩ := parse_ok e
  have hjk := ((inTree_final f hp).1 hj).1
  rw [hp.removed.types, hp.ti.types, f.resolves.same.types] at he
  rcases f.is2.node f.of2 j hjk with ⟨h1, y, hy, rfl⟩ | ⟨h1, _⟩
  · have hyD := (elems_unstyled f.adds.is y hy).1
    obtain ⟨q, hq, h3, h4, h5, h6⟩ := domOf_places L _ x .root [] none T y hyD
    refine ⟨q, hq, ?_, ?_, ?_⟩
    · rw [hp.removed.tags, hp.ti.tags, f.resolves.same.tags, (f.is2.elem y hy).2.1, h3]
    · rw [hp.removed.ids, hp.ti.ids, f.resolves.same.ids, (f.is2.elem y hy).2.2.1, h4]
    · intro a ha
      rw [final_attrs f hp hj, attrsGetValue, f.resolves.get, (f.is2.elem y hy).2.2.2.1, h5]
      · have := attrsOf_get L q.2.1 a (allAssigns L (L.sheet (styleTexts x)) q.1 q.2.2) []
        have h0 : attrsGetValue [] (.id a) = none := rfl
        rw [h0, Option.or_none] at this
        exact this
      · intro l hl hln
        obtain ⟨r, hr, rfl⟩ := front_refs f hyD hl hln
        rw [h6] at hr
        obtain ⟨g, hg, k1, k2⟩ := refsOf_mem hr
        intro hc
        cases hc
        have := ha g hg k2.symm
        simp [refOf, k1] at this
  · rw [he] at h1; simp at h1

/-- `<svg><rect fill="url(#a)" style="fill:red"/></svg>` -/
def precedenceXml : Xml := xe st!"svg" [] (xe st!"rect" [xa st!"fill" st!"url(#a)", xa st!"style" st!"fill:red"] .nil .nil) .nil

/-- C34 does not hold in general: here the last valid value is red (from the `style` attribute), but the reference in the
presentation attribute is resolved later and replaces it by `none`. -/
theorem C34_refuted : ∃ x t, parseSvg sampleLib true x = .ok t ∧ ∃ j, t.InTree j ∧ t.tagName j = .id .Rect ∧
    attrsGetValue (t.attributes j) (.id .Fill) = some .none ∧
    (∃ q ∈ x.places .root [], q.2.1 = .Rect) ∧ (∀ q ∈ x.places .root [], q.2.1 = .Rect →
      styleAttrAssigns sampleLib q.2.2 = [(.Fill, st!"red")] ∧
      lastValue sampleLib .Rect .Fill (x.attempts sampleLib q.1 q.2.2) = some (.color ⟨255, 0, 0⟩)) := by
  obtain ⟨t, e, hp⟩ := exists_of_parsed (x := precedenceXml) (p := fun t => t.live 2 && decide (t.parent 2 = some 1) &&
    decide (t.parent 1 = some t.rootId) && decide (t.tagName 2 = .id .Rect) &&
    decide (attrsGetValue (t.attributes 2) (.id .Fill) = some .none)) (by decide +kernel)
  simp only [Bool.and_eq_true, decide_eq_true_eq] at hp
  obtain ⟨⟨⟨⟨p1, p2⟩, p3⟩, p4⟩, p5⟩ := hp
  exact ⟨_, t, e, 2, ⟨p1, .head (b := 1) p2 (.single p3)⟩, p4, p5, by decide +kernel, by decide +kernel⟩

/-- The hypotheses of `C34_element` with all three sources. -/
example : SafeReachable (St.init true) ∧ RootSafeReachable (St.init true) ∧
    ∃ p' n, parseElement sampleLib (sampleLib.sheet [st!"rect{fill:green}"]) ⟨St.init true, []⟩
      (.elem .root [] ⟨some svgNs, st!"rect", []⟩) .Rect [xa st!"fill" st!"red", xa st!"style" st!"stroke:red"] = .ok (p', n) ∧
      attrsGetValue (p'.dom.attributes n) (.id .Fill) = some (.color ⟨0, 128, 0⟩) ∧
      attrsGetValue (p'.dom.attributes n) (.id .Stroke) = some (.color ⟨255, 0, 0⟩) := by
  have hb := Built.init true
  obtain ⟨F, hF⟩ := C01_forest hb.reachable
  obtain ⟨t, e, _⟩ := parseElement_eq sampleLib (sampleLib.sheet [st!"rect{fill:green}"]) (p := ⟨St.init true, []⟩) hb
    (.elem .root [] ⟨some svgNs, st!"rect", []⟩) .Rect [xa st!"fill" st!"red", xa st!"style" st!"stroke:red"] hF
  refine ⟨hb.safe, hb.root, _, _, e, ?_, ?_⟩
  · rw [C34_element hb.safe hb.root e]; decide +kernel
  · rw [C34_element hb.safe hb.root e]; decide +kernel

/-- In the sample the rule (green) wins over the XML attribute (red). -/
example : ∃ q ∈ docXml.places .root [], q.2.1 = .Rect ∧
    (∀ g ∈ docXml.attempts sampleLib q.1 q.2.2, g.1 = .Fill → refOf sampleLib q.2.1 g = none) ∧
    lastValue sampleLib .Rect .Fill (xmlAssigns q.2.2) = some (.color ⟨255, 0, 0⟩) ∧
    lastValue sampleLib .Rect .Fill (docXml.attempts sampleLib q.1 q.2.2) = some (.color ⟨0, 128, 0⟩) := by decide +kernel

/-! ## C35 -/

/-- C35: after the removal of `style` elements (`s2`) all collected references are resolved one after the other against the
nodes of the document in document order, as described by `Resolves`; text processing keeps the result. -/
theorem C35_resolution {L : Lib} {debug : Bool} {x : Xml} {t : St} (e : parseSvg L debug x = .ok t) :
    ∃ (T K : Trees) (F : Forest) (s2 s3 : St), Describes s2 F ∧ K.Of F (F.kids s2.rootId) ∧ (svgDom L x).unstyled.Is s2 K ∧
      K.pre.Sublist T.pre ∧ ResolvesAll (s2.rootId :: K.pre) s2 ((svgDom L x).plinks T) s3 ∧
      (∀ j, t.idOf j = s2.idOf j) ∧ ∀ j, t.InTree j → t.attributes j = s3.attributes j := by
  obtain ⟨_, p, T, G, s2, s3, u, f, hp⟩ := parse_ok e
  have hl : p.links = (svgDom L x).plinks T := by rw [f.adds.links]; simp
  have hres := f.resolves
  rw [hl, ← f.removed.rootId] at hres
  refine ⟨T, T.keep p.dom.styleNode, _, s2, s3, f.desc2, by rw [f.removed.rootId]; exact f.of2, f.is2, ?_, hres,
    fun j => by rw [hp.removed.ids, hp.ti.ids, f.resolves.same.ids], fun j hj => final_attrs f hp hj⟩
  rw [f.pre2]
  exact List.filter_sublist

theorem ResolvesAll.split {order : List NodeId} : ∀ {ls : List PLink} {s t : St} {m : PLink} {rs : List PLink},
    ResolvesAll order s (ls ++ m :: rs) t →
    ∃ u v, ResolvesAll order s ls u ∧ Resolves u order m v ∧ ResolvesAll order v rs t
  | [], s, t, m, rs, h => by
    cases h with
    | cons h1 h2 => exact ⟨s, _, .nil s, h1, h2⟩
  | l :: ls, s, t, m, rs, h => by
    cases h with
    | cons h1 h2 =>
      obtain ⟨u, v, h3, h4, h5⟩ := ResolvesAll.split (ls := ls) h2
      exact ⟨u, v, .cons h1 h3, h4, h5⟩

theorem attrSet_get {s t : St} {i : NodeId} {a : Attribute} (h : AttrSet s t i a) : attrsGetValue (t.attributes i) a.name = some a.value := by
  rw [h.own, attrsGetValue, attrsGet, List.find?_append]
  have : ((s.attributes i).filter fun b => decide (b.name ≠ a.name)).find? (fun b => decide (b.name = a.name)) = none := by
    rw [List.find?_eq_none]; intro b hb; have := (List.mem_filter.1 hb).2; simpa using this
  rw [this]
  simp

/-- C35: the last reference for an attribute, without a target in the document, gives the fallback value. -/
theorem C35_missing {order : List NodeId} {s t : St} {ls rs : List PLink} {l : PLink} (h : ResolvesAll order s (ls ++ l :: rs) t)
    (hlast : ∀ r ∈ rs, r.node = l.node → r.attr ≠ l.attr) (hno : ∀ i ∈ order, s.idOf i ≠ l.iri) :
    attrsGetValue (t.attributes l.node) (.id l.attr) = some (missingValue l.attr l.iri l.fallback) := by
  obtain ⟨u, v, h1, h2, h3⟩ := h.split
  rw [attrsGetValue, h3.get (fun r hr hn hc => hlast r hr hn (QName.id.inj hc).symm)]
  change attrsGetValue (v.attributes l.node) (.id l.attr) = _
  have hid : ∀ i ∈ order, u.idOf i ≠ l.iri := fun i hi => by rw [h1.same.ids]; exact hno i hi
  cases h2 with
  | found hf _ _ => exact absurd (by simpa using List.find?_some hf) (hid _ (List.mem_of_find?_eq_some hf))
  | refused hf _ => exact absurd (by simpa using List.find?_some hf) (hid _ (List.mem_of_find?_eq_some hf))
  | missing _ hs => exact attrSet_get hs

/-- C35: the last reference for an attribute, to an element which has no references itself and another id than the
referring element, becomes a link to the first node with that id. -/
theorem C35_found {order : List NodeId} {s t : St} {ls rs : List PLink} {l : PLink} {n : NodeId}
    (h : ResolvesAll order s (ls ++ l :: rs) t) (hlast : ∀ r ∈ rs, r.node = l.node → r.attr ≠ l.attr)
    (hf : order.find? (fun i => decide (s.idOf i = l.iri)) = some n) (hid : l.iri ≠ []) (hne : s.idOf l.node ≠ l.iri)
    (hb : ¬ s.LinksTo n l.node) (hc : ∀ r ∈ ls, r.node ≠ n) :
    attrsGetValue (t.attributes l.node) (.id l.attr) = some (foundValue l.attr n l.fallback) := by
  obtain ⟨u, v, h1, h2, h3⟩ := h.split
  rw [attrsGetValue, h3.get (fun r hr hn hc => hlast r hr hn (QName.id.inj hc).symm)]
  change attrsGetValue (v.attributes l.node) (.id l.attr) = _
  have hids := h1.same.ids
  have hn : s.idOf n = l.iri := by simpa using List.find?_some hf
  have hfu : order.find? (fun i => decide (u.idOf i = l.iri)) = some n := by
    rw [← hf]; congr 1; funext i; rw [hids]
  have hbu : ¬ u.LinksTo n l.node := by
    unfold St.LinksTo at hb ⊢
    rw [h1.attrs hc]; exact hb
  cases h2 with
  | found hf' _ hs =>
    rw [hfu] at hf'; cases hf'
    exact attrSet_get hs
  | refused hf' hr =>
    exfalso
    rw [hfu] at hf'; cases hf'
    cases hr with
    | noId h4 => rw [hids, hn] at h4; exact hid h4
    | sameId _ h4 => rw [hids, hids, hn] at h4; exact hne h4
    | backLink _ h4 => exact hbu h4
  | missing h4 _ =>
    exact absurd (by rw [hids]; exact hn) (h4 n (List.mem_of_find?_eq_some hf))

/-- C35: a reference to an element with the id of the referring element itself changes nothing. -/
theorem C35_self {order : List NodeId} {s t : St} {l : PLink} (h : Resolves s order l t) (hself : s.idOf l.node = l.iri)
    (hex : ∃ i ∈ order, s.idOf i = l.iri) : t = s := by
  cases h with
  | @found _ n hf hr _ =>
    exfalso
    have hn : s.idOf n = l.iri := by simpa using List.find?_some hf
    by_cases h0 : s.idOf n = []
    · exact hr _ (.noId h0)
    · exact hr _ (.sameId h0 (by rw [hself, hn]))
  | refused _ _ => rfl
  | missing h4 _ =>
    obtain ⟨i, hi, h5⟩ := hex
    exact absurd h5 (h4 i hi)

/-- C35: nor does a reference to an element that links back. -/
theorem C35_mutual {order : List NodeId} {s t : St} {l : PLink} (h : Resolves s order l t) {n : NodeId}
    (hf : order.find? (fun i => decide (s.idOf i = l.iri)) = some n) (hback : s.LinksTo n l.node) : t = s := by
  cases h with
  | found hf' hr _ =>
    exfalso
    rw [hf] at hf'; cases hf'
    by_cases h0 : s.idOf n = []
    · exact hr _ (.noId h0)
    · exact hr _ (.backLink h0 hback)
  | refused _ _ => rfl
  | missing h4 _ => exact absurd (by simpa using List.find?_some hf) (h4 n (List.mem_of_find?_eq_some hf))

/-- The three references of the sample: `stroke` to the gradient, `filter` to nothing, `href` to the rectangle. -/
example : ∃ t, parseSvg sampleLib true docXml = .ok t ∧ t.tagName 5 = .id .LinearGradient ∧
    attrsGetValue (t.attributes 6) (.id .Stroke) = some (.paint 5 none) ∧
    attrsGetValue (t.attributes 7) (.id .Filter) = some (.string st!"url(#gone)") ∧
    attrsGetValue (t.attributes 8) (.id .Href) = some (.link 6) := by
  obtain ⟨t, e, hp⟩ := exists_of_parsed (x := docXml) (p := fun t => decide (t.tagName 5 = .id .LinearGradient) &&
    decide (attrsGetValue (t.attributes 6) (.id .Stroke) = some (.paint 5 none)) &&
    decide (attrsGetValue (t.attributes 7) (.id .Filter) = some (.string st!"url(#gone)")) &&
    decide (attrsGetValue (t.attributes 8) (.id .Href) = some (.link 6))) (by decide +kernel)
  simp only [Bool.and_eq_true, decide_eq_true_eq] at hp
  obtain ⟨⟨⟨p1, p2⟩, p3⟩, p4⟩ := hp
  exact ⟨t, e, p1, p2, p3, p4⟩

/-- A self-reference and two elements that refer to each other: only one of the three references is stored. -/
example : ∃ t, parseSvg sampleLib true (xe st!"svg" [] (xe st!"g" [xa st!"id" st!"s", xa st!"filter" st!"url(#s)"] .nil
      (xe st!"use" [xa st!"id" st!"a", xa st!"href" st!"#b"] .nil (xe st!"use" [xa st!"id" st!"b", xa st!"href" st!"#a"] .nil .nil))) .nil) =
      .ok t ∧ t.attributes 2 = [] ∧ t.attributes 3 = [⟨.id .Href, .link 4⟩] ∧ t.attributes 4 = [] := by
  obtain ⟨t, e, hp⟩ := exists_of_parsed (p := fun t => decide (t.attributes 2 = []) && decide (t.attributes 3 = [⟨.id .Href, .link 4⟩]) &&
    decide (t.attributes 4 = [])) (x := xe st!"svg" [] (xe st!"g" [xa st!"id" st!"s", xa st!"filter" st!"url(#s)"] .nil
      (xe st!"use" [xa st!"id" st!"a", xa st!"href" st!"#b"] .nil (xe st!"use" [xa st!"id" st!"b", xa st!"href" st!"#a"] .nil .nil))) .nil)
    (by decide +kernel)
  simp only [Bool.and_eq_true, decide_eq_true_eq] at hp
  exact ⟨t, e, hp.1.1, hp.1.2, hp.2⟩

/-! ## C41 -/

/-- Attributes with values from 0 to 1. -/
def unitAttrs : List AttributeId := [.Opacity, .FillOpacity, .FloodOpacity, .StrokeOpacity, .StopOpacity, .K1, .K2, .K3, .K4]

/-- A number from 0 to 1. -/
def F64.InUnit (n : F64) : Prop := ∃ q : Rat, n = .fin q ∧ 0 ≤ q ∧ q ≤ 1

theorem f64Bound_unit {m : F64} (h : m ≠ .nan) : (f64Bound (.fin 0) m (.fin 1)).InUnit ∧ (m.InUnit → f64Bound (.fin 0) m (.fin 1) = m) := by
  cases m with
  | nan => exact absurd rfl h
  | negInf => exact ⟨⟨0, by simp [f64Bound, F64.lt], le_refl _, by decide⟩, by rintro ⟨q, h, _⟩; simp at h⟩
  | posInf => exact ⟨⟨1, by simp [f64Bound, F64.lt], by decide, le_refl _⟩, by rintro ⟨q, h, _⟩; simp at h⟩
  | fin q =>
    simp only [f64Bound, F64.lt, decide_eq_true_eq]
    constructor
    · split
      · exact ⟨1, rfl, by decide, le_refl _⟩
      · next h1 =>
        split
        · exact ⟨0, rfl, le_refl _, by decide⟩
        · next h2 => exact ⟨q, rfl, not_lt.1 h2, not_lt.1 h1⟩
    · rintro ⟨r, h1, h2, h3⟩
      cases h1
      rw [if_neg (not_lt.2 h3), if_neg (not_lt.2 h2)]

theorem parseValue_unit (L : Lib) {a : AttributeId} (ha : a ∈ unitAttrs) (eid : ElementId) (raw : Str) :
    parseValue L a eid raw = (if a ∈ ([.Opacity, .FillOpacity, .FloodOpacity, .StrokeOpacity, .StopOpacity] : List AttributeId) ∧
        trimStr raw = st!"inherit" then .value .inherit
      else .ofOption (fun n => .number (f64Bound (.fin 0) n (.fin 1))) (parseNumber L (trimStr raw))) := by
  simp only [unitAttrs, List.mem_cons, List.not_mem_nil, or_false] at ha
  rcases ha with rfl | rfl | rfl | rfl | rfl | rfl | rfl | rfl | rfl <;> simp [parseValue]

/-- C41: a written number is stored as a number from 0 to 1, unchanged if it was in the range. -/
theorem C41_number (L : Lib) {a : AttributeId} (ha : a ∈ unitAttrs) (eid : ElementId) {raw : Str} {m : F64}
    (hm : L.number (trimStr raw) = some (m, true)) (hi : trimStr raw ≠ st!"inherit") (hn : m ≠ .nan) :
    ∃ n, parseValue L a eid raw = .value (.number n) ∧ n.InUnit ∧ (m.InUnit → n = m) := by
  rw [parseValue_unit L ha, if_neg (fun h => hi h.2)]
  refine ⟨_, by simp [parseNumber, hm, Parsed.ofOption], f64Bound_unit hn⟩

/-- C41: in a parsed document these attributes are `inherit` or a number from 0 to 1 (the number parser gives no NaN). -/
theorem C41_document {L : Lib} (hL : ∀ s b, L.number s ≠ some (.nan, b)) {debug : Bool} {x : Xml} {t : St}
    (e : parseSvg L debug x = .ok t) {j : NodeId} (hj : t.InTree j) {a : Attribute} (ha : a ∈ t.attributes j) {i : AttributeId}
    (hi : i ∈ unitAttrs) (hn : a.name = .id i) : a.value = .inherit ∨ ∃ n, a.value = .number n ∧ n.InUnit := by
  obtain ⟨q, _, _, h⟩ := final_attr e hj ha
  have key : ∀ raw, parseValue L i q.2.1 raw = .invalid ∨ parseValue L i q.2.1 raw = .value .inherit ∨
      ∃ n, parseValue L i q.2.1 raw = .value (.number n) ∧ n.InUnit := by
    intro raw
    rw [parseValue_unit L hi]
    split
    · exact .inr (.inl rfl)
    · cases hp : parseNumber L (trimStr raw) with
      | none => exact .inl rfl
      | some m =>
        right; right
        refine ⟨_, rfl, (f64Bound_unit ?_).1⟩
        rintro rfl
        unfold parseNumber at hp
        split at hp
        · next n b hnum =>
          split at hp
          · cases hp; exact hL _ _ hnum
          · simp at hp
        · simp at hp
  rcases h with ⟨g, _, v, hv, rfl⟩ | ⟨g, _, h1, iri, fb, h2, _⟩
  · simp only [QName.id.injEq] at hn
    simp only
    unfold valueOf at hv
    rw [hn] at hv
    rcases key g.2 with h | h | ⟨n, h, hu⟩
    · rw [h] at hv; simp at hv
    · rw [h] at hv; simp at hv; exact .inl hv.symm
    · rw [h] at hv; simp at hv; exact .inr ⟨n, hv.symm, hu⟩
  · exfalso
    rw [hn] at h1
    cases h1
    rcases key g.2 with h | h | ⟨n, h, _⟩ <;> rw [h2] at h <;> simp at h

/-- In the sample `opacity="5"` becomes 1; `0.5` stays. -/
example : (∃ t, parseSvg sampleLib true docXml = .ok t ∧ ⟨.id .Opacity, .number (.fin 1)⟩ ∈ t.attributes 6) ∧
    parseValue sampleLib .K2 .FeComposite st!"0.5" = .value (.number (.fin (1/2))) ∧
    (∀ s b, sampleLib.number s ≠ some (.nan, b)) := by
  refine ⟨?_, by decide +kernel, ?_⟩
  · obtain ⟨t, e, hp⟩ := exists_of_parsed (x := docXml) (p := fun t => decide (⟨.id .Opacity, .number (.fin 1)⟩ ∈ t.attributes 6))
      (by decide +kernel)
    exact ⟨t, e, by simpa using hp⟩
  · intro s b
    simp only [sampleLib]
    split
    · simp
    · split <;> simp

/-! ## C42 -/

theorem filter_css {L : Lib} {sheet : List Rule} {pos : XmlPos} {attrs : List XmlAttr} {a : AttributeId} (ha : a.inCss = false) :
    ((allAssigns L sheet pos attrs).filter fun g => decide (g.1 = a)) = (xmlAssigns attrs).filter fun g => decide (g.1 = a) := by
  unfold allAssigns
  rw [List.filter_append, List.filter_append]
  have h1 : ((ruleAssigns sheet pos).filter fun g => decide (g.1 = a)) = [] := by
    rw [List.filter_eq_nil_iff]
    intro g hg hc
    rw [decide_eq_true_eq] at hc
    rw [← hc, ruleAssigns_css hg] at ha; simp at ha
  have h2 : ((styleAttrAssigns L attrs).filter fun g => decide (g.1 = a)) = [] := by
    rw [List.filter_eq_nil_iff]
    intro g hg hc
    rw [decide_eq_true_eq] at hc
    rw [← hc, styleAttrAssigns_css hg] at ha; simp at ha
  rw [h1, h2]
  simp

/-- The XML values of an attribute. -/
theorem xmlAssigns_filter {attrs : List XmlAttr} {a : AttributeId} (ha : a ≠ .Id ∧ a ≠ .Style ∧ a ≠ .Class) :
    (xmlAssigns attrs).filter (fun g => decide (g.1 = a)) =
      (attrs.filter fun y => decide (y.aid = some a)).map fun y => (a, y.value) := by
  induction attrs with
  | nil => rfl
  | cons y ys ih =>
    have hc : xmlAssigns (y :: ys) = (xmlAssigns [y]) ++ xmlAssigns ys := by
      unfold xmlAssigns
      rw [← List.filterMap_append]; rfl
    rw [hc, List.filter_append, ih, List.filter_cons]
    by_cases hy : y.aid = some a
    · have : xmlAssigns [y] = [(a, y.value)] := by
        unfold xmlAssigns
        simp only [List.filterMap_cons, List.filterMap_nil, hy]
        split
        · next h => split at h <;> simp_all
        · next h => split at h <;> simp_all
      simp [this, hy]
    · have : (xmlAssigns [y]).filter (fun g => decide (g.1 = a)) = [] := by
        rw [List.filter_eq_nil_iff]
        intro g hg hga
        simp only [xmlAssigns, List.mem_filterMap, List.mem_singleton] at hg
        obtain ⟨z, rfl, hz⟩ := hg
        split at hz <;> simp_all
        all_goals (obtain rfl := hz; simp_all)
      simp [this, hy]

/-- C42: an attribute that is neither a presentation attribute nor `transform` gets its value only from XML attributes of the
element with that name: it is the last valid one. -/
theorem C42_values {L : Lib} {sheet : List Rule} {p p' : PSt} (h1 : SafeReachable p.dom) (h2 : RootSafeReachable p.dom) {pos : XmlPos}
    {eid : ElementId} {attrs : List XmlAttr} {n : NodeId} (e : parseElement L sheet p pos eid attrs = .ok (p', n)) {a : AttributeId}
    (ha : a.isPresentation = false ∧ a ≠ .Transform) (hs : a ≠ .Id ∧ a ≠ .Style ∧ a ≠ .Class) :
    attrsGetValue (p'.dom.attributes n) (.id a) =
      ((attrs.filter fun y => decide (y.aid = some a)).filterMap fun y => valueOf L eid (a, y.value)).getLast? := by
  have hc : a.inCss = false := by simp [AttributeId.inCss, ha]
  obtain ⟨F, hF⟩ := C01_forest (Built.reachable ⟨h1, h2⟩)
  obtain ⟨t, e1, _, _, _, _, _, _, h3, _⟩ := parseElement_eq L sheet ⟨h1, h2⟩ pos eid attrs hF
  rw [e] at e1
  cases e1
  simp only
  rw [h3, attrsOf, attrsOf_get, lastValue, filter_css hc, xmlAssigns_filter hs, List.filterMap_map]
  have h0 : attrsGetValue [] (.id a) = none := rfl
  rw [h0, Option.or_none]
  rfl

/-- C42: the same for references. -/
theorem C42_references {L : Lib} {sheet : List Rule} {p p' : PSt} (h1 : SafeReachable p.dom) (h2 : RootSafeReachable p.dom) {pos : XmlPos}
    {eid : ElementId} {attrs : List XmlAttr} {n : NodeId} (e : parseElement L sheet p pos eid attrs = .ok (p', n)) {a : AttributeId}
    (ha : a.isPresentation = false ∧ a ≠ .Transform) (hs : a ≠ .Id ∧ a ≠ .Style ∧ a ≠ .Class) :
    ∃ new, p'.links = p.links ++ new ∧ (∀ l ∈ new, l.node = n) ∧ new.filter (fun l => decide (l.attr = a)) =
      (attrs.filter fun y => decide (y.aid = some a)).filterMap fun y =>
        (refOf L eid (a, y.value)).map fun r => ⟨a, r.iri, r.fallback, n⟩ := by
  have hc : a.inCss = false := by simp [AttributeId.inCss, ha]
  obtain ⟨F, hF⟩ := C01_forest (Built.reachable ⟨h1, h2⟩)
  obtain ⟨t, e1, _⟩ := parseElement_eq L sheet ⟨h1, h2⟩ pos eid attrs hF
  rw [e] at e1
  cases e1
  refine ⟨_, rfl, ?_, ?_⟩
  · intro l hl
    rw [List.mem_map] at hl
    obtain ⟨_, _, rfl⟩ := hl
    rfl
  · have key : ∀ gs : List Assign, ((refsOf L eid gs).map fun r => (⟨r.attr, r.iri, r.fallback, p.dom.nextId⟩ : PLink)).filter
        (fun l => decide (l.attr = a)) = (gs.filter fun g => decide (g.1 = a)).filterMap fun g =>
          (refOf L eid g).map fun r => (⟨a, r.iri, r.fallback, p.dom.nextId⟩ : PLink) := by
      intro gs
      induction gs with
      | nil => rfl
      | cons g gs ih =>
        simp only [refsOf, List.filterMap_cons] at ih ⊢
        have hga : ∀ r, refOf L eid g = some r → r.attr = g.1 := by
          intro r hr
          unfold refOf at hr
          split at hr
          · cases hr; rfl
          · simp at hr
        by_cases hg : g.1 = a
        · rw [List.filter_cons_of_pos (by simp [hg]), List.filterMap_cons]
          cases hr : refOf L eid g with
          | none => simpa using ih
          | some r =>
            have := hga r hr
            rw [hg] at this
            simp [this, ih]
        · rw [List.filter_cons_of_neg (by simp [hg])]
          cases hr : refOf L eid g with
          | none => simpa using ih
          | some r =>
            have := hga r hr
            rw [List.map_cons, List.filter_cons_of_neg (by simp [this, hg])]
            exact ih
    rw [key, filter_css hc, xmlAssigns_filter hs, List.filterMap_map]
    rfl

/-- Can the declaration set something? -/
def cssSettable (d : Str × Str) : Bool :=
  match attributeNamed d.1 with
  | some a => a.isPresentation || decide (a = .Transform)
  | none => false

/-- C42: declarations with unknown names, or names that CSS cannot set, are ignored in rules ... -/
theorem C42_rule_ignored (L : Lib) (p : PSt) (n : NodeId) (ds : List (Str × Str)) :
    parseCssDecls L p n ds = parseCssDecls L p n (ds.filter cssSettable) := by
  induction ds generalizing p with
  | nil => rfl
  | cons d ds ih =>
    by_cases hd : cssSettable d = true
    · rw [List.filter_cons_of_pos hd]
      simp only [parseCssDecls]
      cases parseCssAttribute L p n d.1 d.2 with
      | error e => rfl
      | ok q => exact ih q
    · rw [List.filter_cons_of_neg hd, parseCssDecls]
      have : parseCssAttribute L p n d.1 d.2 = .ok p := by
        unfold parseCssAttribute
        rw [attributeNamed_eq]
        cases ha : attributeNamed d.1 with
        | none => rfl
        | some a =>
          simp only [cssSettable, ha, Bool.or_eq_true, decide_eq_true_eq, not_or, Bool.not_eq_true] at hd
          simp only [bind, Except.bind, hd.1, hd.2, ne_eq, not_false_eq_true, decide_true, Bool.not_false, Bool.and_self, if_true]
          rfl
      rw [this]
      exact ih p

/-- ... and in the `style` attribute. -/
theorem C42_style_ignored (L : Lib) (p : PSt) (n : NodeId) (ds : List (Str × Str)) :
    parseStyleDecls L p n ds = parseStyleDecls L p n (ds.filter cssSettable) := by
  induction ds generalizing p with
  | nil => rfl
  | cons d ds ih =>
    by_cases hd : cssSettable d = true
    · rw [List.filter_cons_of_pos hd]
      simp only [parseStyleDecls, attributeNamed_eq, bind, Except.bind]
      cases ha : attributeNamed d.1 with
      | none => simp [cssSettable, ha] at hd
      | some a =>
        simp only [cssSettable, ha] at hd
        simp only [hd, if_true]
        cases parseAttributeValue L p n a d.2 with
        | error e => rfl
        | ok q => exact ih q
    · rw [List.filter_cons_of_neg hd, parseStyleDecls, attributeNamed_eq]
      simp only [bind, Except.bind]
      cases ha : attributeNamed d.1 with
      | none => exact ih p
      | some a =>
        simp only [cssSettable, ha] at hd
        simp only [hd]
        exact ih p

/-- `width` in a rule does nothing, in the XML attribute it counts. -/
example : ∃ t, parseSvg sampleLib true (xe st!"svg" [xa st!"style" st!"width:5;foo:1"]
      (xe st!"style" [] (.text st!"rect{width:5}" .nil) <| xe st!"rect" [xa st!"height" st!"5"] .nil .nil) .nil) = .ok t ∧
    t.attributes 1 = [] ∧ t.tagName 4 = .id .Rect ∧ t.attributes 4 = [⟨.id .Height, .length ⟨.fin 5, .none⟩⟩] := by
  obtain ⟨t, e, hp⟩ := exists_of_parsed (p := fun t => decide (t.attributes 1 = []) && decide (t.tagName 4 = .id .Rect) &&
    decide (t.attributes 4 = [⟨.id .Height, .length ⟨.fin 5, .none⟩⟩])) (x := xe st!"svg" [xa st!"style" st!"width:5;foo:1"]
      (xe st!"style" [] (.text st!"rect{width:5}" .nil) <| xe st!"rect" [xa st!"height" st!"5"] .nil .nil) .nil) (by decide +kernel)
  simp only [Bool.and_eq_true, decide_eq_true_eq] at hp
  exact ⟨t, e, hp.1.1, hp.1.2, hp.2⟩

/-! ## C43 -/

/-- C43 for rules: `marker: v` is treated as `marker-start: v; marker-mid: v; marker-end: v`, at any place. -/
theorem C43_rule_partial (L : Lib) (p : PSt) (n : NodeId) (v : Str) : ∀ as bs : List (Str × Str),
    parseCssDecls L p n (as ++ (st!"marker", v) :: bs) =
      parseCssDecls L p n (as ++ (st!"marker-start", v) :: (st!"marker-mid", v) :: (st!"marker-end", v) :: bs)
  | [], bs => by
    have h0 : attributeNamed st!"marker" = some .Marker := by decide +kernel
    have h1 : attributeNamed st!"marker-start" = some .MarkerStart := by decide +kernel
    have h2 : attributeNamed st!"marker-mid" = some .MarkerMid := by decide +kernel
    have h3 : attributeNamed st!"marker-end" = some .MarkerEnd := by decide +kernel
    have c0 : (!AttributeId.Marker.isPresentation && decide (AttributeId.Marker ≠ .Transform)) = false := by decide +kernel
    have c1 : (!AttributeId.MarkerStart.isPresentation && decide (AttributeId.MarkerStart ≠ .Transform)) = false := by decide +kernel
    have c2 : (!AttributeId.MarkerMid.isPresentation && decide (AttributeId.MarkerMid ≠ .Transform)) = false := by decide +kernel
    have c3 : (!AttributeId.MarkerEnd.isPresentation && decide (AttributeId.MarkerEnd ≠ .Transform)) = false := by decide +kernel
    have n1 : ¬ AttributeId.MarkerStart = .Marker := by decide
    have n2 : ¬ AttributeId.MarkerMid = .Marker := by decide
    have n3 : ¬ AttributeId.MarkerEnd = .Marker := by decide
    simp only [List.nil_append, parseCssDecls, parseCssAttribute, attributeNamed_eq, h0, h1, h2, h3, bind, Except.bind, c0, c1, c2, c3,
      Bool.false_eq_true, if_false, if_true, n1, n2, n3]
    cases parseAttributeValue L p n .MarkerStart v with
    | error e => rfl
    | ok p1 =>
      simp only
      cases parseAttributeValue L p1 n .MarkerMid v with
      | error e => rfl
      | ok p2 => rfl
  | a :: as, bs => by
    simp only [List.cons_append, parseCssDecls]
    cases parseCssAttribute L p n a.1 a.2 with
    | error e => rfl
    | ok q => exact C43_rule_partial L q n v as bs

/-- C43 does not hold for the `style` attribute: it stores an attribute `marker` and none of the three. -/
theorem C43_style_refuted : ∃ t, parseSvg sampleLib true (xe st!"svg" [xa st!"style" st!"marker:none"] .nil .nil) = .ok t ∧
    t.InTree 1 ∧ t.attributes 1 = [⟨.id .Marker, .none⟩] := by
  obtain ⟨t, e, hp⟩ := exists_of_parsed (x := xe st!"svg" [xa st!"style" st!"marker:none"] .nil .nil) (p := fun t => t.live 1 &&
    decide (t.parent 1 = some t.rootId) && decide (t.attributes 1 = [⟨.id .Marker, .none⟩])) (by decide +kernel)
  simp only [Bool.and_eq_true, decide_eq_true_eq] at hp
  exact ⟨t, e, ⟨hp.1.1, .single hp.1.2⟩, hp.2⟩

/-- The same declaration in a rule. -/
example : ∃ t, parseSvg sampleLib true (xe st!"svg" [] (xe st!"style" [] (.text st!"svg{marker:none}" .nil) .nil) .nil) = .ok t ∧
    t.attributes 1 = [⟨.id .MarkerStart, .none⟩, ⟨.id .MarkerMid, .none⟩, ⟨.id .MarkerEnd, .none⟩] := by
  obtain ⟨t, e, hp⟩ := exists_of_parsed (x := xe st!"svg" [] (xe st!"style" [] (.text st!"svg{marker:none}" .nil) .nil) .nil)
    (p := fun t => decide (t.attributes 1 = [⟨.id .MarkerStart, .none⟩, ⟨.id .MarkerMid, .none⟩, ⟨.id .MarkerEnd, .none⟩]))
    (by decide +kernel)
  exact ⟨t, e, by simpa using hp⟩

/-! ## C44 -/

/-- C44: parsing does not panic and does not run forever. -/
theorem C44_no_panic (L : Lib) (debug : Bool) (x : Xml) (err : Err) : parseSvg L debug x ≠ .error (.fail err) := by
  rcases parse_cases L debug x with ⟨_, _, _, _, _, _, _, _, _, _, e⟩ | ⟨_, e⟩ <;> rw [e] <;> simp

/-- C44: the document could also have been made by calls of the public functions, without moving a node below itself. All
theorems on such documents apply. -/
theorem C44_reachable {L : Lib} {debug : Bool} {x : Xml} {t : St} (e : parseSvg L debug x = .ok t) :
    SafeReachable t ∧ RootSafeReachable t := by
  obtain ⟨_, p, T, G, s2, s3, u, f, hp⟩ := parse_ok e
  exact ⟨hp.built.safe, hp.built.root⟩

/-- C44: consistent acyclic tree. -/
theorem C44_tree {L : Lib} {debug : Bool} {x : Xml} {t : St} (e : parseSvg L debug x = .ok t) :
    (∃ F, Describes t F) ∧ t.Acyclic := by
  obtain ⟨_, p, T, G, s2, s3, u, f, hp⟩ := parse_ok e
  exact ⟨⟨_, hp.desc⟩, hp.built.acyclic⟩

/-- C44: exactly the root and the nodes below it belong to the document and are stored. -/
theorem C44_members {L : Lib} {debug : Bool} {x : Xml} {t : St} (e : parseSvg L debug x = .ok t) {j : NodeId} (hj : t.live j = true) :
    (j ∈ t.slab.nodes ↔ j = t.rootId ∨ t.InTree j) ∧ (t.isDetached j = false ↔ j = t.rootId ∨ t.InTree j) := by
  obtain ⟨_, p, T, G, s2, s3, u, f, hp⟩ := parse_ok e
  have key : j ∈ t.slab.nodes ↔ j = t.rootId ∨ t.InTree j := by
    have hrt : t.rootId = p.dom.rootId := by rw [hp.removed.rootId, hp.ti.rootId, f.root3]
    rw [hp.removed.stored, hp.ti.slab, f.resolves.same.slab, f.removed.stored, f.adds.grown.stored, hrt, inTree_final f hp, f.pre2]
    have h1 : j ∈ (⟨St.init debug, []⟩ : PSt).dom.slab.nodes ↔ j = p.dom.rootId := by
      rw [f.root]
      simp [St.init, Slab.nodes]
    rw [h1]
    simp only [List.mem_filter, decide_eq_true_eq, not_and, Bool.not_eq_true]
    have hnr : p.dom.rootId ∉ T.pre := by
      intro hm
      obtain ⟨K, hK, _, _, hr, _⟩ := kids_tree f.adds.built f.adds.desc f.adds.built.rootLive
      cases f.adds.of.unique hK
      exact hr hm
    constructor
    · rintro ⟨⟨h2 | h2, h3⟩, h4⟩
      · exact .inl h2
      · exact .inr ⟨⟨h2, h3⟩, h4 ⟨h2, h3⟩⟩
    · rintro (rfl | ⟨⟨h2, h3⟩, h4⟩)
      · exact ⟨⟨.inl rfl, fun h => hnr (gone_sub T _ h)⟩, fun h => absurd h.1 hnr⟩
      · exact ⟨⟨.inr h2, h3⟩, fun _ => h4⟩
  exact ⟨key, by rw [C24_detached hp.built.reachable hj, key]⟩

/-- C44: attribute names are unique, `linked_nodes` has one entry per reference, no node refers to itself, no two to each other. -/
theorem C44_links {L : Lib} {debug : Bool} {x : Xml} {t : St} (e : parseSvg L debug x = .ok t) {i j : NodeId} (hi : t.live i = true)
    (hj : t.live j = true) : ((t.attributes i).map (·.name)).Nodup ∧ (t.linkedNodes j).count i = refCount (t.attributes i) j ∧
      ¬ t.LinksTo i i ∧ ¬ (t.LinksTo i j ∧ t.LinksTo j i) := by
  have hr := (C44_reachable e).1.reachable
  refine ⟨C11_unique_names hr hi, C16_count hr hi hj, ?_, ?_⟩
  · rintro ⟨a, ha, h⟩
    have h0 := hr.inv.link.noSelf i hi
    have := refs_pos.2 ⟨a, ha, refersTo_iff.1 h⟩
    omega
  · rintro ⟨⟨a, ha, h⟩, b, hb, h'⟩
    have h1 := refs_pos.2 ⟨a, ha, refersTo_iff.1 h⟩
    have h2 := refs_pos.2 ⟨b, hb, refersTo_iff.1 h'⟩
    rcases hr.inv.link.noMutual i j hi hj with h | h <;> omega

/-- The sample has a removed `style` element, references, and nodes in the tree. -/
example : ∃ t, parseSvg sampleLib true docXml = .ok t ∧ t.live 3 = true ∧ t.isDetached 3 = true ∧ t.live 6 = true ∧ t.isDetached 6 = false ∧
    t.linkedNodes 6 = [8] := by
  obtain ⟨t, e, hp⟩ := exists_of_parsed (x := docXml) (p := fun t => t.live 3 && t.isDetached 3 && t.live 6 && decide (t.isDetached 6 = false) &&
    decide (t.linkedNodes 6 = [8])) (by decide +kernel)
  simp only [Bool.and_eq_true, decide_eq_true_eq] at hp
  obtain ⟨⟨⟨⟨p1, p2⟩, p3⟩, p4⟩, p5⟩ := hp
  exact ⟨t, e, p1, p2, p3, p4, p5⟩

/-! ## C50 -/

/-- C50, if no reference is written in a `style` element or inside one. -/
theorem C50_uses_partial {L : Lib} {debug : Bool} {x : Xml} {t : St} (e : parseSvg L debug x = .ok t)
    (hs : (svgDom L x).refInStyle = false) {i n : NodeId} (hn : t.InTree n) (hi : i ∈ t.linkedNodes n) : t.InTree i := by
  obtain ⟨_, p, T, G, s2, s3, u, f, hp⟩ := parse_ok e
  have hnl : s3.live n = true := by rw [← hp.ti.live, ← hp.removed.live]; exact hn.1
  have hi3 : i ∈ s3.linkedNodes n := by
    rw [← hp.ti.linked]
    exact (hp.removed.linked n (by rw [hp.ti.live]; exact hnl)).subset hi
  have hil : s3.live i = true := f.built3.inv.link.back n hnl i hi3
  have hc := f.built3.inv.link.count i n hil hnl
  have hpos : 0 < (s3.linkedNodes n).count i := List.count_pos_iff.2 hi3
  rw [hc] at hpos
  obtain ⟨a, ha, h1⟩ := refs_pos.1 hpos
  obtain ⟨l, hl, h2, _⟩ := front_target f hil ha h1
  obtain ⟨y, hy, h3, r, hr, _⟩ := front_link f hl
  have hy2 := refInStyle_elems f.adds.is hs y hy (by intro h; rw [h] at hr; simp at hr)
  rw [h2] at h3
  rw [inTree_final f hp, h3]
  refine ⟨(elems_sublist _ _).subset (List.mem_map_of_mem hy2), ?_⟩
  rw [Bool.eq_false_iff]
  intro hem
  obtain ⟨h4, _⟩ : u.nodeType y.node = .text ∧ u.text y.node = [] := by simpa [St.emptyText, St.isText] using hem
  rw [hp.ti.types, f.resolves.same.types, (f.is2.elem y hy2).1] at h4
  simp at h4

/-- `<svg><g id="a"/><style><use href="#a"/></style></svg>` -/
def styleRefXml : Xml := xe st!"svg" [] (xe st!"g" [xa st!"id" st!"a"] .nil (xe st!"style" [] (xe st!"use" [xa st!"href" st!"#a"] .nil .nil) .nil)) .nil

/-- C50 does not hold in general: the `use` element that was removed with the `style` element is counted. -/
theorem C50_refuted : ∃ x t, parseSvg sampleLib true x = .ok t ∧ ∃ n i, t.InTree n ∧ t.usesCount n = 1 ∧ i ∈ t.linkedNodes n ∧ ¬ t.InTree i := by
  obtain ⟨t, e, hp⟩ := exists_of_parsed (x := styleRefXml) (p := fun t => t.live 2 && decide (t.parent 2 = some 1) &&
    decide (t.parent 1 = some t.rootId) && decide (t.usesCount 2 = 1) && decide (t.linkedNodes 2 = [4]) && t.live 4 &&
    t.isDetached 4 && decide (4 ≠ t.rootId)) (by decide +kernel)
  simp only [Bool.and_eq_true, decide_eq_true_eq] at hp
  obtain ⟨⟨⟨⟨⟨⟨⟨p1, p2⟩, p3⟩, p4⟩, p5⟩, p6⟩, p7⟩, p8⟩ := hp
  refine ⟨_, t, e, 2, 4, ⟨p1, .head (b := 1) p2 (.single p3)⟩, p4, by rw [p5]; simp, ?_⟩
  intro h
  have := (C44_members e p6).2.2 (.inr h)
  rw [p7] at this; simp at this

/-- The sample has references and none in its `style` element. -/
example : (svgDom sampleLib docXml).refInStyle = false ∧ (svgDom sampleLib docXml).anyRef = true ∧
    ∃ t, parseSvg sampleLib true docXml = .ok t ∧ t.InTree 6 ∧ 8 ∈ t.linkedNodes 6 := by
  refine ⟨by decide +kernel, by decide +kernel, ?_⟩
  obtain ⟨t, e, hp⟩ := exists_of_parsed (x := docXml) (p := fun t => t.live 6 && decide (t.parent 6 = some 2) &&
    decide (t.parent 2 = some t.rootId) && decide (8 ∈ t.linkedNodes 6)) (by decide +kernel)
  simp only [Bool.and_eq_true, decide_eq_true_eq] at hp
  obtain ⟨⟨⟨p1, p2⟩, p3⟩, p4⟩ := hp
  exact ⟨t, e, ⟨p1, .head (b := 2) p2 (.single p3)⟩, p4⟩

end Svgdom
