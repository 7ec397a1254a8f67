import Verif.Props.Whole

/-!
# C34: the value of an attribute in the finished document, exactly
-/

set_option autoImplicit false

namespace Svgdom

/-- What the last of the references for attribute `a` of node `j` that is not dropped leaves behind. -/
def lastSettled (targets : List (NodeId × Str)) (ids : NodeId → Str) (j : NodeId) (a : AttributeId) :
    (NodeId → List Attribute) → List PLink → Option AttributeValue
  | _, [] => none
  | A, l :: ls => (lastSettled targets ids j a (settle targets ids A l) ls).or
      (if l.node = j ∧ l.attr = a then (verdict targets ids A l).map Attribute.value else none)

/-- The same for an XML document. -/
def settledValue (L : Lib) (x : Xml) (j : NodeId) (a : AttributeId) : Option AttributeValue :=
  lastSettled ((0, []) :: (keptNodes L x).nodes.map fun p => (p.1, p.2.id)) (fun j => ((allNodes L x).lookAt j).id) j a
    (fun j => ((allNodes L x).lookAt j).attrs) ((svgDom L x).links 1)

theorem verdict_name {targets : List (NodeId × Str)} {ids : NodeId → Str} {A : NodeId → List Attribute} {l : PLink} {b : Attribute}
    (h : verdict targets ids A l = some b) : b.name = .id l.attr := by
  unfold verdict at h
  split at h
  · cases h; rfl
  · split at h
    · simp at h
    · cases h; rfl

theorem settle_get {targets : List (NodeId × Str)} {ids : NodeId → Str} {A : NodeId → List Attribute} {l : PLink} {j : NodeId}
    {a : AttributeId} : attrsGetValue (settle targets ids A l j) (.id a) =
      (if l.node = j ∧ l.attr = a then (verdict targets ids A l).map Attribute.value else none).or (attrsGetValue (A j) (.id a)) := by
  unfold settle
  cases hv : verdict targets ids A l with
  | none => simp
  | some b =>
    have hb := verdict_name hv
    simp only [putAttr, Option.map_some]
    by_cases hj : j = l.node
    · subst hj
      simp only [if_true, true_and]
      by_cases ha : l.attr = a
      · subst ha
        simp only [if_true, Option.some_or, attrsGetValue, attrsGet, List.find?_append]
        have : ((A l.node).filter fun c => decide (c.name ≠ b.name)).find? (fun c => decide (c.name = .id l.attr)) = none := by
          rw [List.find?_eq_none]; intro c hc; have := (List.mem_filter.1 hc).2; rw [hb] at this; simpa using this
        rw [this]
        simp [hb]
      · rw [if_neg ha, Option.none_or, attrsGetValue, attrsGetValue, hb,
          attrsGet_without (fun hc => ha (by cases hc; rfl)) b hb]
    · rw [if_neg hj, if_neg (fun hc => hj hc.1.symm), Option.none_or]

theorem settle_all_get {targets : List (NodeId × Str)} {ids : NodeId → Str} {j : NodeId} {a : AttributeId} :
    ∀ (ls : List PLink) (A : NodeId → List Attribute), attrsGetValue (ls.foldl (settle targets ids) A j) (.id a) =
      (lastSettled targets ids j a A ls).or (attrsGetValue (A j) (.id a))
  | [], A => by simp [lastSettled]
  | l :: ls, A => by
    rw [List.foldl_cons, settle_all_get ls, settle_get, lastSettled, Option.or_assoc]

/-- C34, exact: in the finished document an attribute has the value of the last of its references that was not dropped, whatever the
source of that reference; if there is none, the last valid value in the order XML attributes, rules, `style` attribute. -/
theorem C34_exact {L : Lib} {debug : Bool} {x : Xml} {t : St} (e : parseSvg L debug x = .ok t) {j : NodeId} (hj : t.InTree j)
    (he : t.nodeType j = .element) : ∃ q ∈ x.places .root [], t.tagName j = .id q.2.1 ∧ t.idOf j = idFrom q.2.2 ∧
      ∀ a, attrsGetValue (t.attributes j) (.id a) = (settledValue L x j a).or (lastValue L q.2.1 a (x.attempts L q.1 q.2.2)) := by
  have hl := (C95_machine e).look j hj.1
  obtain ⟨_, p, T, G, s2, s3, u, f, hp⟩ := parse_ok e
  have hjk := ((inTree_final f hp).1 hj).1
  rw [hp.removed.types, hp.ti.types, f.resolves.same.types] at he
  rcases f.is2.node f.of2 j hjk with ⟨h1, y, hy, rfl⟩ | ⟨h1, _⟩
  · have hyD := (elems_unstyled f.adds.is y hy).1
    obtain ⟨q, hq, h3, h4, h5, h6⟩ := domOf_places L _ x .root [] none T y hyD
    refine ⟨q, hq, ?_, ?_, fun a => ?_⟩
    · rw [hp.removed.tags, hp.ti.tags, f.resolves.same.tags, (f.is2.elem y hy).2.1, h3]
    · rw [hp.removed.ids, hp.ti.ids, f.resolves.same.ids, (f.is2.elem y hy).2.2.1, h4]
    · have hat : t.attributes y.node = parsedAttrs L x y.node := (congrArg Look.attrs hl).symm
      rw [hat, parsedAttrs, settle_all_get]
      congr 1
      have hpre : T.pre = List.range' 1 (svgDom L x).size := by rw [← f.adds.is.size]; exact f.adds.grown.order
      obtain ⟨hT, hlook, _⟩ := f.adds.is.number hpre
      have hlk : (allNodes L x).lookAt y.node = p.dom.look y.node :=
        Content.lookAt_eq hlook (by rw [hT]; exact front_kept f hjk)
      rw [hlk]
      change attrsGetValue (p.dom.attributes y.node) (.id a) = _
      rw [(f.adds.is.elem y hyD).2.2.2.1, h5]
      have := attrsOf_get L q.2.1 a (allAssigns L (L.sheet (styleTexts x)) q.1 q.2.2) []
      have h0 : attrsGetValue [] (.id a) = none := rfl
      rw [h0, Option.or_none] at this
      exact this
  · rw [he] at h1; simp at h1

/-- In the document of `C34_refuted` it is the reference that gives the value. -/
example : settledValue sampleLib precedenceXml 2 .Fill = some .none ∧ ∃ t, parseSvg sampleLib true precedenceXml = .ok t ∧ t.InTree 2 ∧
    t.nodeType 2 = .element := by
  refine ⟨by decide +kernel, ?_⟩
  obtain ⟨t, e, hp⟩ := exists_of_parsed (x := precedenceXml) (p := fun t => t.live 2 && decide (t.parent 2 = some 1) &&
    decide (t.parent 1 = some t.rootId) && decide (t.nodeType 2 = .element)) (by decide +kernel)
  simp only [Bool.and_eq_true, decide_eq_true_eq] at hp
  obtain ⟨⟨⟨p1, p2⟩, p3⟩, p4⟩ := hp
  exact ⟨t, e, ⟨p1, .head (b := 1) p2 (.single p3)⟩, p4⟩

end Svgdom
