import Verif.Proof.Read
import Verif.Proof.ParseFinal

/-! Parsing what the writer wrote. -/

namespace Svgdom

/-! ### The expected DOM of the XML document -/

/-- Attributes and references of an element of the expected DOM, compared with an element of the document. -/
structure ElemLike (s : St) (T : Trees) (n : NodeId) (attrs : List Attribute) (refs : List Ref) : Prop where
  vals : ∀ nm, (∀ r ∈ refs, nm ≠ .id r.attr) → attrsGetValue attrs nm = attrsGetValue (s.attributes n) nm ∧
    ∀ v, attrsGetValue (s.attributes n) nm = some v → v.plain = true
  links : ∀ r ∈ refs, (∃ m, attrsGetValue (s.attributes n) (.id r.attr) = some (foundValue r.attr m r.fallback) ∧ r.iri = s.idOf m ∧
    s.nodeType m = .element ∧ s.idOf m ≠ [] ∧ s.idOf n ≠ s.idOf m ∧ T.pre.find? (fun j => decide (s.idOf j = s.idOf m)) = some m) ∨
    (attrsGetValue (s.attributes n) (.id r.attr) = some (missingValue r.attr r.iri r.fallback) ∧ r.iri ≠ [] ∧
      ∀ j ∈ T.pre, s.nodeType j = .element → s.idOf j ≠ r.iri)

/-- The expected DOM, compared with the trees of the document. -/
def Dom.Like (s : St) (T0 : Trees) : Dom → Trees → Prop
  | nil, .nil => True
  | element eid id attrs refs kids rest, .cons n K R =>
    s.nodeType n = .element ∧ s.tagName n = .id eid ∧ eid ≠ .Style ∧ s.idOf n = id ∧ ElemLike s T0 n attrs refs ∧
      kids.Like s T0 K ∧ rest.Like s T0 R
  | text t rest, .cons n K R => s.nodeType n = .text ∧ s.text n = t ∧ K = .nil ∧ rest.Like s T0 R
  | comment t rest, .cons n K R => s.nodeType n = .comment ∧ s.text n = t ∧ K = .nil ∧ rest.Like s T0 R
  | _, _ => False

theorem attributeNamed_of {i : AttributeId} {x : Str} (h : i.asStr? = .ok x) : attributeNamed x = some i := by
  have h1 := attributeNamed_eq x
  have h2 := C27_attribute_roundtrip i
  obtain ⟨y, h3, h4⟩ := h2
  rw [h] at h3; cases h3
  rw [h1] at h4; exact Except.ok.inj h4

theorem elementNamed_of {i : ElementId} {x : Str} (h : i.asStr? = .ok x) : elementNamed x = some i := by
  have h1 := elementNamed_eq x
  have h2 := C27_element_roundtrip i
  obtain ⟨y, h3, h4⟩ := h2
  rw [h] at h3; cases h3
  rw [h1] at h4; exact Except.ok.inj h4

theorem aid_of {s : St} {W : ValueWriter} {q : Char} {a : Attribute} {x : XmlAttr} (h : x.For s W q a) :
    ∃ i, a.name = .id i ∧ x.aid = some i ∧ ∃ w, s.written W i a.value = some w ∧ readAttr q w = some x.value := by
  obtain ⟨⟨i, h1, h2, h3⟩, ⟨i', w, h4, h5, h6⟩⟩ := h
  rw [h1] at h4; cases h4
  refine ⟨i, h1, ?_, w, h5, h6⟩
  have hk : x.known = true := by
    unfold XmlAttr.known
    rw [h3]
    unfold AttributeId.ns
    split <;> rename_i e
    · rfl
    · split at e
      · cases e; decide
      · cases e; decide
      · simp at e
  rw [XmlAttr.aid, if_pos hk, attributeNamed_of h2]

theorem aid_id (v : Str) : XmlAttr.aid ⟨none, st!"id", v⟩ = some .Id := by
  rw [XmlAttr.aid, if_pos (by rfl)]
  exact attributeNamed_of asStr_id

theorem asStr_style : AttributeId.asStr? .Style = .ok st!"style" := by decide +kernel

theorem written_link {s : St} {W : ValueWriter} {i : AttributeId} {v : AttributeValue} {w w' : Str}
    (h : s.written W i v = some w) (h' : s.written W i v = some w') : w = w' := by
  rw [h] at h'; cases h'; rfl

theorem mem_of_getValue {l : List Attribute} {nm : AName} {v : AttributeValue} (h : attrsGetValue l nm = some v) : ⟨nm, v⟩ ∈ l := by
  unfold attrsGetValue attrsGet at h
  rw [Option.map_eq_some_iff] at h
  obtain ⟨a, ha, rfl⟩ := h
  have h1 := List.mem_of_find?_eq_some ha
  have h2 := List.find?_some ha
  rw [decide_eq_true_eq] at h2
  obtain ⟨n, v⟩ := a
  cases h2
  exact h1

theorem getValue_of_mem {l : List Attribute} (h : NamesNodup l) {nm : AName} {v : AttributeValue} (hm : ⟨nm, v⟩ ∈ l) :
    attrsGetValue l nm = some v := by
  unfold attrsGetValue
  rw [attrsGet_mem h hm]
  rfl

theorem plain_false {v : AttributeValue} (h : v.plain = false) : ∃ m, v.refersTo m = true := by
  cases v <;> simp_all [AttributeValue.plain, AttributeValue.refersTo]

theorem found_refers (i : AttributeId) (m : NodeId) (fb : Option PaintFallback) : (foundValue i m fb).refersTo m = true := by
  unfold foundValue
  split <;> simp [AttributeValue.refersTo]

theorem refers_not_plain {v : AttributeValue} {m : NodeId} (h : v.refersTo m = true) : v.plain = false := by
  cases v <;> simp_all [AttributeValue.plain, AttributeValue.refersTo]

theorem refers_unique {v : AttributeValue} {m n : NodeId} (h : v.refersTo m = true) (h' : v.refersTo n = true) : m = n := by
  cases v <;> simp_all [AttributeValue.refersTo]

/-- One element. -/
theorem elemLike {L : Lib} {s : St} (h : Reachable s) {W : ValueWriter} {q : Char} {T : Trees} {n : NodeId} (hn : s.live n = true)
    {e : ElementId} (he : s.tagName n = .id e) {attrs : List XmlAttr} (hx : XmlAttrs s W q n attrs)
    (hw : ∀ a ∈ s.attributes n, ∃ i, a.name = .id i ∧ i ≠ .Id) (hr : ∀ a ∈ s.attributes n, ReadsBack L s W q T n a) (pos : XmlPos) :
    idFrom attrs = s.idOf n ∧
    ElemLike s T n (attrsOf L e (allAssigns L [] pos attrs)) (refsOf L e (allAssigns L [] pos attrs)) := by
  have hnd := h.inv.link.names n hn
  have hid : ∀ x ∈ attrs, x.aid = some .Id → x = ⟨none, st!"id", s.idOf n⟩ := by
    intro x hxm hxa
    rcases hx.only x hxm with rfl | ⟨a, ha, hf⟩
    · rfl
    · obtain ⟨i, h1, h2, _⟩ := aid_of hf
      obtain ⟨i', h3, h4⟩ := hw a ha
      rw [h1] at h3; cases h3
      rw [h2] at hxa; cases hxa
      exact absurd rfl h4
  have hstyle : styleAttrAssigns L attrs = [] := by
    unfold styleAttrAssigns
    have : xmlAttribute attrs st!"style" = none := by
      rw [xmlAttribute, Option.map_eq_none_iff, List.find?_eq_none]
      intro x hxm hc
      rw [decide_eq_true_eq] at hc
      rcases hx.only x hxm with rfl | ⟨a, ha, hf⟩
      · exact absurd hc.2 (by simp)
      · obtain ⟨i, h1, h2, _⟩ := hf.name
        rw [hc.2, ← asStr_style] at h2
        exact ((hr a ha).special i h1).1 (C28_attribute_injective _ _ h2)
    rw [this]
  have hgs : ∀ g : Assign, g ∈ allAssigns L [] pos attrs ↔ ∃ a ∈ s.attributes n, a.name = .id g.1 ∧
      ∃ w, s.written W g.1 a.value = some w ∧ readAttr q w = some g.2 := by
    intro g
    have : allAssigns L [] pos attrs = xmlAssigns attrs := by
      rw [allAssigns, hstyle]
      simp [ruleAssigns]
    rw [this, xmlAssigns, List.mem_filterMap]
    constructor
    · rintro ⟨x, hxm, hxa⟩
      rcases hx.only x hxm with rfl | ⟨a, ha, hf⟩
      · rw [aid_id] at hxa; simp at hxa
      · obtain ⟨i, h1, h2, w, h3, h4⟩ := aid_of hf
        rw [h2] at hxa
        split at hxa
        · simp at hxa
        · simp at hxa
        · simp at hxa
        · next hh => cases hh; cases hxa; exact ⟨a, ha, h1, w, h3, h4⟩
        · simp at hxa
    · rintro ⟨a, ha, h1, w, h2, h3⟩
      obtain ⟨x, hxm, hf⟩ := hx.all a ha
      obtain ⟨i, h4, h5, w', h6, h7⟩ := aid_of hf
      rw [h1] at h4
      obtain rfl := QName.id.inj h4
      have := written_link h2 h6
      subst this
      rw [h3] at h7
      have hv : g.2 = x.value := Option.some.inj h7
      refine ⟨x, hxm, ?_⟩
      rw [h5]
      obtain ⟨j, h8, h9⟩ := hw a ha
      rw [h1] at h8; obtain rfl := QName.id.inj h8
      have hsp := (hr a ha).special _ h1
      split
      · next hh => exact absurd (Option.some.inj hh) h9
      · next hh => exact absurd (Option.some.inj hh) hsp.1
      · next hh => exact absurd (Option.some.inj hh) hsp.2
      · next hh => rw [← Option.some.inj hh, ← hv]
      · next hh => simp at hh
  -- the value of an attempt
  have hvo : ∀ g ∈ allAssigns L [] pos attrs, ∀ v, attrsGetValue (s.attributes n) (.id g.1) = some v →
      (v.plain = true → valueOf L e g = some v ∨ ReadsMissing L s T g.1 e g.2 v) ∧
      (∀ m, v.refersTo m = true → ∃ fb, parseValue L g.1 e g.2 = .link (s.idOf m) fb ∧ v = foundValue g.1 m fb) := by
    intro g hg v hv
    obtain ⟨a, ha, h1, w, h2, h3⟩ := (hgs g).1 hg
    have : a.value = v := by
      have h5 : ⟨.id g.1, a.value⟩ ∈ s.attributes n := by rw [← h1]; exact ha
      rw [getValue_of_mem hnd h5] at hv
      exact Option.some.inj hv
    subst this
    have hb := hr a ha
    exact ⟨fun hp => hb.plain hp g.1 e w g.2 h1 he h2 h3, fun m hm => hb.link m hm g.1 e w g.2 h1 he h2 h3⟩
  have hval : ∀ g ∈ allAssigns L [] pos attrs, ∀ v, attrsGetValue (s.attributes n) (.id g.1) = some v →
      (∀ r ∈ refsOf L e (allAssigns L [] pos attrs), r.attr ≠ g.1) → v.plain = true ∧ valueOf L e g = some v := by
    intro g hg v hv hno
    have hnl : ∀ iri fb, parseValue L g.1 e g.2 ≠ .link iri fb := by
      intro iri fb hl
      refine hno ⟨g.1, iri, fb⟩ ?_ rfl
      unfold refsOf
      rw [List.mem_filterMap]
      exact ⟨g, hg, by unfold refOf; rw [hl]⟩
    cases hp : v.plain with
    | false =>
      obtain ⟨m, hm⟩ := plain_false hp
      obtain ⟨fb, hl, _⟩ := (hvo g hg v hv).2 m hm
      exact absurd hl (hnl _ _)
    | true =>
      rcases (hvo g hg v hv).1 hp with h | ⟨iri, fb, hl, _⟩
      · exact ⟨rfl, h⟩
      · exact absurd hl (hnl _ _)
  have hgv : ∀ g ∈ allAssigns L [] pos attrs, ∃ v, attrsGetValue (s.attributes n) (.id g.1) = some v := by
    intro g hg
    obtain ⟨a, ha, h1, _⟩ := (hgs g).1 hg
    exact ⟨a.value, getValue_of_mem hnd (by rw [← h1]; exact ha)⟩
  have hex : ∀ i v, attrsGetValue (s.attributes n) (.id i) = some v → ∃ g ∈ allAssigns L [] pos attrs, g.1 = i := by
    intro i v hv
    have hm := mem_of_getValue hv
    obtain ⟨x, hxm, hf⟩ := hx.all _ hm
    obtain ⟨i', h1, h2, w, h3, h4⟩ := aid_of hf
    cases h1
    exact ⟨(i, x.value), (hgs _).2 ⟨_, hm, rfl, w, h3, h4⟩, rfl⟩
  constructor
  · unfold idFrom
    have hall : ∀ x ∈ attrs.filter (fun a => decide (a.aid = some .Id)), x = ⟨none, st!"id", s.idOf n⟩ := by
      intro x hxm
      rw [List.mem_filter, decide_eq_true_eq] at hxm
      exact hid x hxm.1 hxm.2
    cases hl : (attrs.filter fun a => decide (a.aid = some .Id)).getLast? with
    | none =>
      rw [List.getLast?_eq_none_iff] at hl
      by_cases hne : s.idOf n = []
      · rw [hne]; rfl
      · have := hx.id.2 hne
        have : (⟨none, st!"id", s.idOf n⟩ : XmlAttr) ∈ attrs.filter fun a => decide (a.aid = some .Id) := by
          rw [List.mem_filter]; exact ⟨this, by rw [aid_id]; rfl⟩
        rw [hl] at this; simp at this
    | some x =>
      rw [hall x (List.mem_of_getLast? hl)]
      rfl
  · refine ⟨?_, ?_⟩
    · intro nm hno
      cases nm with
      | name y =>
        have h1 : attrsGetValue (attrsOf L e (allAssigns L [] pos attrs)) (.name y) = none := by
          cases hh : attrsGetValue (attrsOf L e (allAssigns L [] pos attrs)) (.name y) with
          | none => rfl
          | some v =>
            rcases attrsOf_mem (mem_of_getValue hh) with hm | ⟨g, _, v', _, hh⟩
            · simp at hm
            · cases hh
        have h2 : attrsGetValue (s.attributes n) (.name y) = none := by
          cases hh : attrsGetValue (s.attributes n) (.name y) with
          | none => rfl
          | some v =>
            obtain ⟨i, hi, _⟩ := hw _ (mem_of_getValue hh)
            cases hi
        rw [h1, h2]; exact ⟨rfl, by simp⟩
      | id i =>
        have hno' : ∀ r ∈ refsOf L e (allAssigns L [] pos attrs), r.attr ≠ i := by
          rintro r hr rfl
          exact hno r hr rfl
        rw [attrsOf, attrsOf_get]
        have : attrsGetValue ([] : List Attribute) (.id i) = none := rfl
        rw [this, Option.or_none, lastValue]
        cases hv : attrsGetValue (s.attributes n) (.id i) with
        | none =>
          have : (allAssigns L [] pos attrs).filter (fun g => decide (g.1 = i)) = [] := by
            rw [List.filter_eq_nil_iff]
            intro g hg hc
            rw [decide_eq_true_eq] at hc
            obtain ⟨v, hv'⟩ := hgv g hg
            rw [hc, hv] at hv'; simp at hv'
          rw [this]; exact ⟨rfl, by simp⟩
        | some v =>
          obtain ⟨g0, hg0, rfl⟩ := hex i v hv
          obtain ⟨hp, hv0⟩ := hval g0 hg0 v hv hno'
          refine ⟨?_, by rintro v' hv'; cases hv'; exact hp⟩
          have hall : ∀ w ∈ ((allAssigns L [] pos attrs).filter fun g => decide (g.1 = g0.1)).filterMap (valueOf L e), w = v := by
            intro w hw'
            rw [List.mem_filterMap] at hw'
            obtain ⟨g, hg, hg2⟩ := hw'
            rw [List.mem_filter, decide_eq_true_eq] at hg
            rw [(hval g hg.1 v (by rw [hg.2]; exact hv) (by rw [hg.2]; exact hno')).2] at hg2
            exact (Option.some.inj hg2).symm
          cases hl : (((allAssigns L [] pos attrs).filter fun g => decide (g.1 = g0.1)).filterMap (valueOf L e)).getLast? with
          | none =>
            rw [List.getLast?_eq_none_iff] at hl
            have hw' : v ∈ ((allAssigns L [] pos attrs).filter fun g => decide (g.1 = g0.1)).filterMap (valueOf L e) :=
              List.mem_filterMap.2 ⟨g0, List.mem_filter.2 ⟨hg0, by simp⟩, hv0⟩
            rw [hl] at hw'; simp at hw'
          | some w => rw [hall w (List.mem_of_getLast? hl)]
    · intro r hr'
      obtain ⟨g, hg, hp, hattr⟩ := refsOf_mem hr'
      obtain ⟨v, hv⟩ := hgv g hg
      cases hpl : v.plain with
      | true =>
        right
        rcases (hvo g hg v hv).1 hpl with h1 | ⟨iri, fb, h1, h2, h3, h4⟩
        · exfalso
          unfold valueOf at h1
          rw [hp] at h1
          simp at h1
        · rw [hp] at h1
          obtain ⟨h5, h6⟩ := Parsed.link.inj h1
          refine ⟨by rw [hattr, hv, h4, h5, h6], by rw [h5]; exact h2, by rw [h5]; exact h3⟩
      | false =>
        left
        obtain ⟨m, hm⟩ := plain_false hpl
        obtain ⟨fb, h1, h2⟩ := (hvo g hg v hv).2 m hm
        rw [hp] at h1
        obtain ⟨h3, h4⟩ := Parsed.link.inj h1
        refine ⟨m, ?_, h3, (hr _ (mem_of_getValue hv)).target m hm⟩
        rw [hattr, hv, h4, ← h2]

/-! ### The expected DOM is like the document -/

theorem asStr_text : ElementId.asStr? .Text = .ok st!"text" := by decide +kernel
theorem asStr_tspan : ElementId.asStr? .Tspan = .ok st!"tspan" := by decide +kernel
theorem asStr_tref : ElementId.asStr? .Tref = .ok st!"tref" := by decide +kernel
theorem asStr_styleElem : ElementId.asStr? .Style = .ok st!"style" := by decide +kernel

theorem keeps_iff {e : ElementId} {x : Str} (h : e.asStr? = .ok x) :
    decide (x = st!"text" ∨ x = st!"tspan" ∨ x = st!"tref") = keepsBlank (some e) := by
  unfold keepsBlank
  rw [decide_eq_decide, Option.some.injEq, Option.some.injEq, Option.some.injEq]
  constructor
  · rintro (rfl | rfl | rfl)
    · exact .inl (C28_element_injective _ _ (by rw [h, asStr_text]))
    · exact .inr (.inl (C28_element_injective _ _ (by rw [h, asStr_tspan])))
    · exact .inr (.inr (C28_element_injective _ _ (by rw [h, asStr_tref])))
  · rintro (rfl | rfl | rfl)
    · rw [asStr_text] at h; exact .inl (Except.ok.inj h).symm
    · rw [asStr_tspan] at h; exact .inr (.inl (Except.ok.inj h).symm)
    · rw [asStr_tref] at h; exact .inr (.inr (Except.ok.inj h).symm)

/-- Assumptions about the attributes of the nodes of a tree. -/
def Readable (L : Lib) (s : St) (W : ValueWriter) (q : Char) (T0 : Trees) (n : NodeId) : Prop :=
  s.live n = true ∧ (s.nodeType n = .element → ∃ e, s.tagName n = .id e ∧ e ≠ .Style) ∧
    (∀ a ∈ s.attributes n, ∃ i, a.name = .id i ∧ i ≠ .Id) ∧ ∀ a ∈ s.attributes n, ReadsBack L s W q T0 n a

theorem like_of_shows {L : Lib} {s : St} (h : Reachable s) {W : ValueWriter} {q : Char} {T0 : Trees} : ∀ (x : Xml) (T : Trees)
    (pos : XmlPos) (prev : List (Option XmlElem)) (tag : Option ElementId), (x.unindent (keepsBlank tag)).Shows s W q T →
    (∀ n ∈ T.pre, Readable L s W q T0 n) → (domOf L [] pos prev tag x).Like s T0 T
  | .nil, .nil, _, _, _, _, _ => trivial
  | .nil, .cons _ _ _, _, _, _, hs, _ => hs.elim
  | .element _ _ _ _ _, .nil, _, _, _, hs, _ => hs.elim
  | .element ns name attrs kids rest, .cons n K R, pos, prev, tag, hs, hr => by
    obtain ⟨h1, h2, h3, h4, h5, h6⟩ := hs
    have hn := hr n (by simp [Trees.pre])
    obtain ⟨e, he, hst⟩ := hn.2.1 h1
    unfold St.IsName at h3
    rw [he] at h3
    have hel := elementNamed_of h3
    have hk := keeps_iff h3
    rw [hk] at h5
    have hE := elemLike h hn.1 he h4 hn.2.2.1 hn.2.2.2 (.elem pos prev ⟨ns, name, attrs⟩)
    simp only [domOf, h2, if_true, hel]
    subst h2
    exact ⟨h1, he, hst, hE.1.symm, hE.2,
      like_of_shows h kids K _ _ _ h5 fun m hm => hr m (by simp [Trees.pre, hm]),
      like_of_shows h rest R _ _ _ h6 fun m hm => hr m (by simp [Trees.pre, hm])⟩
  | .text t rest, T, pos, prev, tag, hs, hr => by
    simp only [Xml.unindent] at hs
    simp only [domOf]
    by_cases hb : (isBlank t && !keepsBlank tag) = true
    · rw [if_pos hb] at hs ⊢
      exact like_of_shows h rest T _ _ _ hs hr
    · rw [if_neg hb] at hs ⊢
      cases T with
      | nil => exact hs.elim
      | cons n K R =>
        obtain ⟨h1, h2, h3, h4⟩ := hs
        exact ⟨h1, h2.symm, h3, like_of_shows h rest R _ _ _ h4 fun m hm => hr m (by simp [Trees.pre, hm])⟩
  | .comment _ _, .nil, _, _, _, hs, _ => hs.elim
  | .comment t rest, .cons n K R, pos, prev, tag, hs, hr => by
    obtain ⟨h1, h2, h3, h4⟩ := hs
    exact ⟨h1, h2.symm, h3, like_of_shows h rest R _ _ _ h4 fun m hm => hr m (by simp [Trees.pre, hm])⟩
  | .pi _, .nil, _, _, _, hs, _ => hs.elim
  | .pi _, .cons _ _ _, _, _, _, hs, _ => hs.elim

/-- There is no style sheet. -/
theorem css_of_shows {s : St} {W : ValueWriter} {q : Char} : ∀ (x : Xml) (T : Trees) (keep : Bool), (x.unindent keep).Shows s W q T →
    (∀ n ∈ T.pre, s.nodeType n = .element → ∃ e, s.tagName n = .id e ∧ e ≠ .Style) → cssTexts x = []
  | .nil, _, _, _, _ => rfl
  | .element _ _ _ _ _, .nil, _, hs, _ => hs.elim
  | .element ns name attrs kids rest, .cons n K R, _, hs, hr => by
    obtain ⟨h1, h2, h3, h4, h5, h6⟩ := hs
    obtain ⟨e, he, hst⟩ := hr n (by simp [Trees.pre]) h1
    unfold St.IsName at h3
    rw [he] at h3
    have hne : name ≠ st!"style" := by
      rintro rfl
      exact hst (C28_element_injective _ _ (by rw [h3, asStr_styleElem]))
    simp only [cssTexts, if_neg hne, List.nil_append]
    rw [css_of_shows kids K _ h5 fun m hm => hr m (by simp [Trees.pre, hm]),
      css_of_shows rest R _ h6 fun m hm => hr m (by simp [Trees.pre, hm])]
    rfl
  | .text t rest, T, keep, hs, hr => by
    simp only [Xml.unindent] at hs
    simp only [cssTexts]
    split at hs
    · exact css_of_shows rest T _ hs hr
    · cases T with
      | nil => exact hs.elim
      | cons n K R => exact css_of_shows rest R _ hs.2.2.2 fun m hm => hr m (by simp [Trees.pre, hm])
  | .comment _ _, .nil, _, hs, _ => hs.elim
  | .comment t rest, .cons n K R, _, hs, hr =>
    css_of_shows rest R _ hs.2.2.2 fun m hm => hr m (by simp [Trees.pre, hm])
  | .pi _, .nil, _, hs, _ => hs.elim
  | .pi _, .cons _ _ _, _, hs, _ => hs.elim

theorem Dom.Like.unstyled {s : St} {T0 : Trees} : ∀ {D : Dom} {T : Trees}, D.Like s T0 T → D.unstyled = D
  | .nil, _, _ => rfl
  | .element _ _ _ _ _ _, .nil, h => h.elim
  | .element eid id as rs kids rest, .cons n K R, h => by
    obtain ⟨_, _, h1, _, _, h2, h3⟩ := h
    rw [Dom.unstyled, if_neg h1, Dom.Like.unstyled h2, Dom.Like.unstyled h3]
  | .text _ _, .nil, h => h.elim
  | .text _ rest, .cons n K R, h => by rw [Dom.unstyled, Dom.Like.unstyled h.2.2.2]
  | .comment _ _, .nil, h => h.elim
  | .comment _ rest, .cons n K R, h => by rw [Dom.unstyled, Dom.Like.unstyled h.2.2.2]

theorem Dom.Like.tags {s : St} {T0 : Trees} : ∀ {D : Dom} {T : Trees}, D.Like s T0 T →
    D.tags.map QName.id = (T.tops.filter fun m => decide (s.nodeType m = .element)).map s.tagName
  | .nil, .nil, _ => rfl
  | .nil, .cons _ _ _, h => h.elim
  | .element _ _ _ _ _ _, .nil, h => h.elim
  | .element eid id as rs kids rest, .cons n K R, h => by
    obtain ⟨h0, h1, _, _, _, h2, h3⟩ := h
    simp [Dom.tags, Trees.tops, h0, h1, Dom.Like.tags h3]
  | .text _ _, .nil, h => h.elim
  | .text _ rest, .cons n K R, h => by simp [Dom.tags, Trees.tops, h.1, Dom.Like.tags h.2.2.2]
  | .comment _ _, .nil, h => h.elim
  | .comment _ rest, .cons n K R, h => by simp [Dom.tags, Trees.tops, h.1, Dom.Like.tags h.2.2.2]

theorem Dom.Like.keep {s s2 : St} {T0 : Trees} : ∀ {D : Dom} {T U : Trees}, D.Like s T0 T → D.Is s2 U → U.keep s2.styleNode = U
  | .nil, _, .nil, _, _ => rfl
  | .nil, _, .cons _ _ _, _, h => h.elim
  | .element _ _ _ _ _ _, .nil, _, h, _ => h.elim
  | .element _ _ _ _ _ _, _, .nil, _, h => h.elim
  | .element eid id as rs kids rest, .cons n K R, .cons m K' R', h, h' => by
    obtain ⟨_, _, h1, _, _, h2, h3⟩ := h
    obtain ⟨a, b, _, _, _, c, d⟩ := h'
    have : s2.styleNode m = false := by simp [St.styleNode, St.hasTagName, b, h1]
    rw [Trees.keep, this, if_neg (by simp), Dom.Like.keep h2 c, Dom.Like.keep h3 d]
  | .text _ _, .nil, _, h, _ => h.elim
  | .text _ _, _, .nil, _, h => h.elim
  | .text _ rest, .cons n K R, .cons m K' R', h, h' => by
    obtain ⟨a, b, _, _, _, c, d⟩ := h'
    have : s2.styleNode m = false := by simp [St.styleNode, St.hasTagName, b]
    rw [Trees.keep, this, if_neg (by simp), c, Dom.Like.keep h.2.2.2 d]
    rfl
  | .comment _ _, .nil, _, h, _ => h.elim
  | .comment _ _, _, .nil, _, h => h.elim
  | .comment _ rest, .cons n K R, .cons m K' R', h, h' => by
    obtain ⟨a, b, _, _, _, c, d⟩ := h'
    have : s2.styleNode m = false := by simp [St.styleNode, St.hasTagName, b]
    rw [Trees.keep, this, if_neg (by simp), c, Dom.Like.keep h.2.2.2 d]
    rfl

/-! ### Two trees of the same shape -/

def Trees.Shape : Trees → Trees → Prop
  | nil, nil => True
  | cons _ K R, cons _ K' R' => K.Shape K' ∧ R.Shape R'
  | _, _ => False

theorem Trees.Shape.length : ∀ {T U : Trees}, T.Shape U → T.pre.length = U.pre.length
  | nil, nil, _ => rfl
  | nil, cons _ _ _, h => h.elim
  | cons _ _ _, nil, h => h.elim
  | cons _ K R, cons _ K' R', h => by
    simp [Trees.pre, Trees.Shape.length h.1, Trees.Shape.length h.2]

theorem zip_pre {n m : NodeId} {K K' R R' : Trees} (h : K.Shape K') :
    (Trees.cons n K R).pre.zip (Trees.cons m K' R').pre = (n, m) :: (K.pre.zip K'.pre ++ R.pre.zip R'.pre) := by
  simp only [Trees.pre, List.zip_cons_cons]
  rw [List.zip_append h.length]

theorem same_of_zip {s t : St} {Q : NodeId → NodeId → Prop} : ∀ {T U : Trees}, T.Shape U →
    (∀ i j, (i, j) ∈ T.pre.zip U.pre → SameNode s t Q i j) → T.Same s t Q U
  | .nil, .nil, _, _ => trivial
  | .nil, .cons _ _ _, h, _ => h.elim
  | .cons _ _ _, .nil, h, _ => h.elim
  | .cons n K R, .cons m K' R', h, hz => by
    rw [zip_pre h.1] at hz
    exact ⟨hz n m (by simp), same_of_zip h.1 fun i j hij => hz i j (by simp [hij]),
      same_of_zip h.2 fun i j hij => hz i j (by simp [hij])⟩

/-- What is known about a pair of nodes. -/
def Pair (s s2 : St) (T0 : Trees) (D : Dom) (U : Trees) (i j : NodeId) : Prop :=
  (∃ y ∈ D.elems U, y.node = j ∧ s.nodeType i = .element ∧ s.tagName i = .id y.eid ∧ s.idOf i = y.id ∧
    ElemLike s T0 i y.attrs y.refs) ∨
  (s.nodeType i ≠ .element ∧ s2.nodeType j = s.nodeType i ∧ s2.text j = s.text i ∧ s2.idOf j = [])

theorem pairs {s s2 : St} {T0 : Trees} : ∀ {D : Dom} {T U : Trees}, D.Like s T0 T → D.Is s2 U →
    T.Shape U ∧ ∀ i j, (i, j) ∈ T.pre.zip U.pre → Pair s s2 T0 D U i j
  | .nil, .nil, .nil, _, _ => ⟨trivial, by simp [Trees.pre]⟩
  | .nil, _, .cons _ _ _, _, h => h.elim
  | .nil, .cons _ _ _, _, h, _ => h.elim
  | .element _ _ _ _ _ _, .nil, _, h, _ => h.elim
  | .element _ _ _ _ _ _, _, .nil, _, h => h.elim
  | .element eid id as rs kids rest, .cons n K R, .cons m K' R', h, h' => by
    obtain ⟨a1, a2, _, a3, a4, h2, h3⟩ := h
    obtain ⟨b1, b2, b3, _, _, c, d⟩ := h'
    obtain ⟨k1, k2⟩ := pairs h2 c
    obtain ⟨r1, r2⟩ := pairs h3 d
    refine ⟨⟨k1, r1⟩, ?_⟩
    intro i j hij
    rw [zip_pre k1, List.mem_cons, List.mem_append] at hij
    rcases hij with hij | hij | hij
    · cases hij
      exact .inl ⟨⟨m, eid, id, as, rs⟩, by simp [Dom.elems], rfl, a1, a2, a3, a4⟩
    · rcases k2 i j hij with ⟨y, hy, hh⟩ | hh
      · exact .inl ⟨y, by simp [Dom.elems, hy], hh⟩
      · exact .inr hh
    · rcases r2 i j hij with ⟨y, hy, hh⟩ | hh
      · exact .inl ⟨y, by simp [Dom.elems, hy], hh⟩
      · exact .inr hh
  | .text _ _, .nil, _, h, _ => h.elim
  | .text _ _, _, .nil, _, h => h.elim
  | .text _ rest, .cons n K R, .cons m K' R', h, h' => by
    obtain ⟨a1, a2, rfl, h3⟩ := h
    obtain ⟨b1, b2, b3, _, b4, rfl, d⟩ := h'
    obtain ⟨r1, r2⟩ := pairs h3 d
    refine ⟨⟨trivial, r1⟩, ?_⟩
    intro i j hij
    rw [zip_pre (K := .nil) (K' := .nil) trivial, List.mem_cons, List.mem_append] at hij
    rcases hij with hij | hij | hij
    · cases hij
      exact .inr ⟨by simp [a1], by rw [a1, b1], by rw [a2, b4], b3⟩
    · simp [Trees.pre] at hij
    · exact r2 i j hij
  | .comment _ _, .nil, _, h, _ => h.elim
  | .comment _ _, _, .nil, _, h => h.elim
  | .comment _ rest, .cons n K R, .cons m K' R', h, h' => by
    obtain ⟨a1, a2, rfl, h3⟩ := h
    obtain ⟨b1, b2, b3, _, b4, rfl, d⟩ := h'
    obtain ⟨r1, r2⟩ := pairs h3 d
    refine ⟨⟨trivial, r1⟩, ?_⟩
    intro i j hij
    rw [zip_pre (K := .nil) (K' := .nil) trivial, List.mem_cons, List.mem_append] at hij
    rcases hij with hij | hij | hij
    · cases hij
      exact .inr ⟨by simp [a1], by rw [a1, b1], by rw [a2, b4], b3⟩
    · simp [Trees.pre] at hij
    · exact r2 i j hij

/-! ### Lists of pairs -/

theorem find_zip {p q : NodeId → Bool} {m : NodeId} : ∀ {l l' : List NodeId}, l.length = l'.length → l.find? p = some m →
    (∀ i j, (i, j) ∈ l.zip l' → q j = true → p i = true) → (∀ j, (m, j) ∈ l.zip l' → q j = true) →
    ∃ m', l'.find? q = some m' ∧ (m, m') ∈ l.zip l'
  | [], _, _, h, _, _ => by simp at h
  | _ :: _, [], h, _, _, _ => by simp at h
  | i :: l, j :: l', hl, h, h1, h2 => by
    by_cases hp : p i = true
    · rw [List.find?_cons_of_pos hp] at h
      cases h
      refine ⟨j, List.find?_cons_of_pos (h2 j (by simp)), by simp⟩
    · rw [List.find?_cons_of_neg hp] at h
      have hq : ¬ q j = true := fun hq => hp (h1 i j (by simp) hq)
      obtain ⟨m', e, hm⟩ := find_zip (q := q) (by simpa using hl) h (fun a b hab => h1 a b (by simp [hab])) fun b hb => h2 b (by simp [hb])
      exact ⟨m', by rw [List.find?_cons_of_neg hq]; exact e, by simp [hm]⟩

theorem zip_left_unique {i i' j : NodeId} : ∀ {l l' : List NodeId}, l'.Nodup → (i, j) ∈ l.zip l' → (i', j) ∈ l.zip l' → i = i'
  | [], _, _, h, _ => by simp at h
  | _ :: _, [], _, h, _ => by simp at h
  | a :: l, b :: l', hn, h, h' => by
    rw [List.nodup_cons] at hn
    rw [List.zip_cons_cons, List.mem_cons] at h h'
    rcases h with h | h <;> rcases h' with h' | h'
    · cases h; cases h'; rfl
    · cases h; exact absurd (List.of_mem_zip h').2 hn.1
    · cases h'; exact absurd (List.of_mem_zip h).2 hn.1
    · exact zip_left_unique hn.2 h h'

theorem zip_right {j : NodeId} : ∀ {l l' : List NodeId}, l.length = l'.length → j ∈ l' → ∃ i, (i, j) ∈ l.zip l'
  | [], [], _, h => by simp at h
  | [], _ :: _, h, _ => by simp at h
  | _ :: _, [], h, _ => by simp at h
  | a :: l, b :: l', hl, h => by
    rcases List.mem_cons.1 h with rfl | h
    · exact ⟨a, by simp⟩
    · obtain ⟨i, hi⟩ := zip_right (l := l) (by simpa using hl) h
      exact ⟨i, by simp [hi]⟩

/-! ### Resolution of references -/

theorem sameValue_found {Q : NodeId → NodeId → Prop} (a : AttributeId) {m m' : NodeId} (fb : Option PaintFallback) (h : Q m m') :
    SameValue Q (foundValue a m fb) (foundValue a m' fb) := by
  by_cases h1 : a = .Href
  · subst h1; exact .link h
  by_cases h2 : a = .Fill
  · subst h2; exact .paint fb h
  by_cases h3 : a = .Stroke
  · subst h3; exact .paint fb h
  have : ∀ n, foundValue a n fb = .funcLink n := by
    intro n
    unfold foundValue
    split <;> first | exact absurd rfl ‹_› | rfl
  rw [this, this]
  exact .funcLink h

theorem missing_plain (a : AttributeId) (iri : Str) (fb : Option PaintFallback) : (missingValue a iri fb).plain = true := by
  unfold missingValue
  split <;> rfl

/-- A reference from `i` to `m` at the pairs `(i, l.node)` and `(m, m')`, or one that leads nowhere. -/
def GoodLink (s : St) (Z : List (NodeId × NodeId)) (order : List NodeId) (s2 : St) (l : PLink) : Prop :=
  ∃ i, (i, l.node) ∈ Z ∧
    ((∃ m m', (m, m') ∈ Z ∧ attrsGetValue (s.attributes i) (.id l.attr) = some (foundValue l.attr m l.fallback) ∧
      order.find? (fun j => decide (s2.idOf j = l.iri)) = some m' ∧ s2.idOf m' ≠ [] ∧ s2.idOf l.node ≠ s2.idOf m') ∨
    (attrsGetValue (s.attributes i) (.id l.attr) = some (missingValue l.attr l.iri l.fallback) ∧ ∀ j ∈ order, s2.idOf j ≠ l.iri))

theorem attrsGet_set {l : List Attribute} (a : Attribute) : attrsGetValue (l.filter (fun b => decide (b.name ≠ a.name)) ++ [a]) a.name =
    some a.value := by
  unfold attrsGetValue attrsGet
  rw [List.find?_append, List.find?_filter]
  have : (l.find? fun b => decide (decide (b.name ≠ a.name) = true ∧ decide (b.name = a.name) = true)) = none := by
    rw [List.find?_eq_none]
    intro b _ hc
    simp at hc
  rw [this]
  simp

theorem resolve_good {s : St} {Z : List (NodeId × NodeId)} {order : List NodeId} {s2 : St}
    (hleft : ∀ i i' j, (i, j) ∈ Z → (i', j) ∈ Z → i = i')
    (hmut : ∀ i j m m', (i, j) ∈ Z → (m, m') ∈ Z → ¬ (s.LinksTo i m ∧ s.LinksTo m i))
    {u : St} {ls : List PLink} (h : ResolvesAll order s2 ls u) (hg : ∀ l ∈ ls, GoodLink s Z order s2 l)
    (hinv : ∀ i j, (i, j) ∈ Z → ∀ a ∈ s2.attributes j, ∀ m', a.value.refersTo m' = true → ∃ m, (m, m') ∈ Z ∧ s.LinksTo i m) :
    ∀ l ∈ ls, ∃ i v v', (i, l.node) ∈ Z ∧ attrsGetValue (s.attributes i) (.id l.attr) = some v ∧
      attrsGetValue (u.attributes l.node) (.id l.attr) = some v' ∧ SameValue (fun m m' => (m, m') ∈ Z) v v' := by
  induction h with
  | nil => simp
  | @cons s1 t u l ls h1 h2 ih =>
    obtain ⟨i, z1, hcases⟩ := hg l (by simp)
    have hset : ∃ v v', attrsGetValue (s.attributes i) (.id l.attr) = some v ∧ AttrSet s1 t l.node ⟨.id l.attr, v'⟩ ∧
        SameValue (fun m m' => (m, m') ∈ Z) v v' ∧ ∀ k, v'.refersTo k = true → ∃ m, (m, k) ∈ Z ∧ s.LinksTo i m := by
      rcases hcases with ⟨m, m', z2, hv, hf, hne, hself⟩ | ⟨hv, hno⟩
      · have hlink : s.LinksTo i m := ⟨_, mem_of_getValue hv, found_refers _ _ _⟩
        refine ⟨_, foundValue l.attr m' l.fallback, hv, ?_, sameValue_found _ _ z2, ?_⟩
        · cases h1 with
          | @found t n hf' _ ha =>
            rw [hf] at hf'; cases hf'; exact ha
          | @refused n err hf' hr =>
            exfalso
            rw [hf] at hf'; cases hf'
            cases hr with
            | noId h => exact hne h
            | sameId _ h => exact hself h
            | backLink _ h =>
              obtain ⟨a, ha, hr⟩ := h
              obtain ⟨i', z3, h3⟩ := hinv m m' z2 a ha _ hr
              cases hleft _ _ _ z1 z3
              exact hmut _ _ _ _ z1 z2 ⟨hlink, h3⟩
          | missing hf' _ =>
            exfalso
            have h3 := List.mem_of_find?_eq_some hf
            have h4 := List.find?_some hf
            rw [decide_eq_true_eq] at h4
            exact hf' _ h3 h4
        · intro k hk
          cases refers_unique hk (found_refers _ _ _)
          exact ⟨m, z2, hlink⟩
      · refine ⟨_, _, hv, ?_, .plain (missing_plain _ _ _), ?_⟩
        · have hnf : ∀ n, order.find? (fun j => decide (s1.idOf j = l.iri)) = some n → False := by
            intro n hn
            have h3 := List.mem_of_find?_eq_some hn
            have h4 := List.find?_some hn
            rw [decide_eq_true_eq] at h4
            exact hno _ h3 h4
          cases h1 with
          | found hf' _ ha => exact (hnf _ hf').elim
          | refused hf' hr => exact (hnf _ hf').elim
          | missing _ ha => exact ha
        · intro k hk
          have := refers_not_plain hk
          rw [missing_plain] at this
          simp at this
    obtain ⟨v, v', hv, hset, hsv, hrefs⟩ := hset
    have hgood : ∀ l ∈ ls, GoodLink s Z order t l := by
      intro l' hl'
      obtain ⟨i, a, hc⟩ := hg l' (by simp [hl'])
      refine ⟨i, a, ?_⟩
      rcases hc with ⟨m, m', b, c, d, e, f⟩ | ⟨b, c⟩
      · refine .inl ⟨m, m', b, c, ?_, ?_, ?_⟩
        · rw [← d]; congr 1; funext j; rw [hset.same.ids]
        · rw [hset.same.ids]; exact e
        · rw [hset.same.ids, hset.same.ids]; exact f
      · exact .inr ⟨b, fun j hj => by rw [hset.same.ids]; exact c j hj⟩
    have ih := ih hgood (by
      intro i1 j hij a ha k hk
      rcases attrSet_mem hset ha with ha | ⟨rfl, rfl⟩
      · exact hinv i1 j hij a ha k hk
      · cases hleft _ _ _ z1 hij
        exact hrefs k hk)
    intro l0 hl0
    by_cases hh : ∃ l' ∈ ls, l'.node = l0.node ∧ l'.attr = l0.attr
    · obtain ⟨l', hl', hn, ha⟩ := hh
      have := ih l' hl'
      rwa [hn, ha] at this
    · rcases List.mem_cons.1 hl0 with rfl | hl0
      · refine ⟨i, v, v', z1, hv, ?_, hsv⟩
        have := h2.get (j := l0.node) (n := .id l0.attr) (fun l' hl' hn hc => hh ⟨l', hl', hn, (QName.id.inj hc).symm⟩)
        unfold attrsGetValue
        rw [this, hset.own]
        exact attrsGet_set (l := s1.attributes l0.node) ⟨.id l0.attr, v'⟩
      · exact absurd ⟨l0, hl0, rfl, rfl⟩ hh

/-! ### The parsed document -/

theorem front_same {L : Lib} {s : St} (h : Reachable s) {W : ValueWriter} {q : Char} {T : Trees} (debug : Bool) {x : Xml}
    (hL : L.sheet [] = []) (hx : (x.unindent false).Shows s W q T) (hr : ∀ n ∈ T.pre, Readable L s W q T n)
    (htop : ∃ n, T.tops.filter (fun m => decide (s.nodeType m ≠ .comment)) = [n] ∧ s.nodeType n = .element ∧ s.tagName n = .id .Svg) :
    ∃ p U G s2 s3, Front L debug x p U G s2 s3 ∧ parseSvg L debug x = okOrFail s3.prepareText ∧ U.keep p.dom.styleNode = U ∧
      SameDoc s T s3 U := by
  have hD : svgDom L x = domOf L [] .root [] none x := by
    rw [svgDom, ← cssTexts_eq, css_of_shows x T false hx fun n hn => (hr n hn).2.1, hL]
  have hlike : (svgDom L x).Like s T T := by
    rw [hD]; exact like_of_shows h x T _ _ _ hx hr
  have htags : (svgDom L x).tags.head? = some .Svg := by
    obtain ⟨n, h1, h2, h3⟩ := htop
    have h4 := hlike.tags
    have : T.tops.filter (fun m => decide (s.nodeType m = .element)) =
        (T.tops.filter fun m => decide (s.nodeType m ≠ .comment)).filter fun m => decide (s.nodeType m = .element) := by
      rw [List.filter_filter]
      congr 1
      funext m
      by_cases hh : s.nodeType m = .element <;> simp [hh]
    rw [this, h1] at h4
    simp only [List.filter_cons, h2, decide_true, if_true, List.filter_nil, List.map_cons, List.map_nil, h3] at h4
    cases ht : (svgDom L x).tags with
    | nil => rw [ht] at h4; simp at h4
    | cons e es => rw [ht] at h4; simp at h4; simp [h4.1]
  obtain ⟨p, U, G, s2, s3, f, e⟩ := (parse_front L debug x).1 htags
  have hkeep : U.keep p.dom.styleNode = U := hlike.keep f.adds.is
  have his : (svgDom L x).Is s2 U := by
    have := f.is2
    rwa [hlike.unstyled, hkeep] at this
  obtain ⟨hshape, hpair⟩ := pairs hlike his
  have hnd := front_nodup f
  have hlen := hshape.length
  have hleft : ∀ i i' j, (i, j) ∈ T.pre.zip U.pre → (i', j) ∈ T.pre.zip U.pre → i = i' := fun i i' j => zip_left_unique hnd
  have hlive : ∀ i ∈ T.pre, s.live i = true := fun i hi => (hr i hi).1
  have hmut : ∀ i m, s.live i = true → s.live m = true → ¬ (s.LinksTo i m ∧ s.LinksTo m i) := by
    intro i m hi hm
    simp only [linksTo_iff]
    have := h.inv.link.noMutual i m hi hm
    omega
  -- ids
  have hids : ∀ i j, (i, j) ∈ T.pre.zip U.pre → s.nodeType i = .element → s2.idOf j = s.idOf i := by
    intro i j hij hel
    rcases hpair i j hij with ⟨y, hy, rfl, _, _, hid, _⟩ | ⟨hh, _⟩
    · rw [(his.elem y hy).2.2.1, hid]
    · exact absurd hel hh
  have hroot : s2.idOf p.dom.rootId = [] := by
    rw [f.removed.ids, f.root, f.adds.grown.ids (St.init debug).rootId (by simp [St.init])]
    rfl
  -- a reference leads to the partner
  have hfind : ∀ m, s.nodeType m = .element → s.idOf m ≠ [] → T.pre.find? (fun j => decide (s.idOf j = s.idOf m)) = some m →
      ∃ m', (p.dom.rootId :: (U.keep p.dom.styleNode).pre).find? (fun j => decide (s2.idOf j = s.idOf m)) = some m' ∧
        (m, m') ∈ T.pre.zip U.pre := by
    intro m h1 h2 h3
    obtain ⟨m', e1, e2⟩ := find_zip (q := fun j => decide (s2.idOf j = s.idOf m)) hlen h3 (by
        intro i j hij hq
        rw [decide_eq_true_eq] at hq ⊢
        rcases hpair i j hij with ⟨y, hy, rfl, hel, _⟩ | ⟨_, _, _, hn⟩
        · rw [← hids i _ hij hel, hq]
        · rw [hn] at hq; exact absurd hq.symm h2)
      (by
        intro j hj
        rw [decide_eq_true_eq]
        exact hids m j hj h1)
    refine ⟨m', ?_, e2⟩
    rw [hkeep, List.find?_cons_of_neg (by rw [hroot, decide_eq_true_eq]; exact fun hc => h2 hc.symm)]
    exact e1
  have hgood : ∀ l ∈ p.links, GoodLink s (T.pre.zip U.pre) (p.dom.rootId :: (U.keep p.dom.styleNode).pre) s2 l := by
    intro l hl
    obtain ⟨y, hy, _, r, hrr, rfl⟩ := front_link f hl
    obtain ⟨i, hi⟩ := zip_right hlen ((elems_sublist _ _).subset (List.mem_map_of_mem hy) : y.node ∈ U.pre)
    rcases hpair i _ hi with ⟨y', hy', hyy, hel, htag, hid, hE⟩ | ⟨hne, hty, _⟩
    · cases elem_unique hnd hy' hy hyy
      refine ⟨i, hi, ?_⟩
      rcases hE.links r hrr with ⟨m, hm, hiri, hmel, hmid, hmne, hmf⟩ | ⟨hm, hiri, hno⟩
      · obtain ⟨m', hf', hz⟩ := hfind m hmel hmid hmf
        have hm' := hids m m' hz hmel
        refine .inl ⟨m, m', hz, hm, ?_, ?_, ?_⟩
        · rw [← hf', hiri]
        · rw [hm']; exact hmid
        · show s2.idOf y.node ≠ _
          rw [hm', hids i _ hi hel]; exact hmne
      · refine .inr ⟨hm, ?_⟩
        intro j hj
        rcases List.mem_cons.1 hj with rfl | hj
        · rw [hroot]; exact fun hc => hiri hc.symm
        · rw [hkeep] at hj
          obtain ⟨k, hk⟩ := zip_right hlen hj
          rcases hpair k j hk with ⟨y', hy', rfl, hel', _⟩ | ⟨_, _, _, hn⟩
          · rw [hids k _ hk hel']; exact hno k (List.of_mem_zip hk).1 hel'
          · rw [hn]; exact fun hc => hiri hc.symm
    · rw [(his.elem y hy).1] at hty
      exact absurd hty.symm hne
  have hplain := his.plain (domOf_plain L _ x _ _ _)
  have hres := resolve_good hleft (fun i j m m' h1 h2 => hmut i m (hlive i (List.of_mem_zip h1).1) (hlive m (List.of_mem_zip h2).1)) f.resolves hgood (by
      intro i j hij a ha m' hm'
      have := plain_iff.2 (hplain j (List.of_mem_zip hij).2 a ha)
      rw [refers_not_plain hm'] at this
      simp at this)
  have hsame := f.resolves.same
  refine ⟨p, U, G, s2, s3, f, e, hkeep, same_of_zip hshape ?_⟩
  intro i j hij
  rcases hpair i j hij with ⟨y, hy, rfl, hel, htag, hid, hE⟩ | ⟨hne, hty, htx, hj⟩
  · obtain ⟨g1, g2, g3, g4, g5⟩ := his.elem y hy
    refine ⟨?_, ?_, ?_, ?_, ?_⟩
    · rw [hsame.types, g1, hel]
    · intro _; rw [hsame.tags, g2, htag]
    · intro _; rw [hsame.ids, g3, hid]
    · intro _ nm
      by_cases hh : ∃ r ∈ y.refs, nm = .id r.attr
      · obtain ⟨r, hrr, rfl⟩ := hh
        have hl : (⟨r.attr, r.iri, r.fallback, y.node⟩ : PLink) ∈ p.links := by
          rw [f.adds.links]
          exact List.mem_append_right _ (mem_plinks.2 ⟨y, hy, r, hrr, rfl⟩)
        obtain ⟨i', v, v', z1, v1, v2, v3⟩ := hres _ hl
        cases hleft _ _ _ hij z1
        dsimp only at v1 v2
        rw [v1, v2]
        exact .some v3
      · have hg : attrsGetValue (s3.attributes y.node) nm = attrsGetValue y.attrs nm := by
          rw [← g4]
          unfold attrsGetValue
          rw [f.resolves.get]
          intro l hl hln hc
          obtain ⟨r, hrr, rfl⟩ := front_refs f hy hl hln
          exact hh ⟨r, hrr, hc⟩
        obtain ⟨hv1, hv2⟩ := hE.vals nm fun r hrr hc => hh ⟨r, hrr, hc⟩
        rw [hg, hv1]
        cases hv : attrsGetValue (s.attributes i) nm with
        | none => exact .none
        | some v => exact .some (.plain (hv2 v hv))
    · intro hc; exact absurd hel hc
  · refine ⟨?_, ?_, ?_, ?_, ?_⟩
    · rw [hsame.types, hty]
    · intro hc; exact absurd hc hne
    · intro hc; exact absurd hc hne
    · intro hc; exact absurd hc hne
    · intro _; rw [hsame.texts, htx]

end Svgdom
