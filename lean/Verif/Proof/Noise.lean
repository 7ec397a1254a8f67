import Verif.Proof.Build
import Verif.Spec.Noise

/-!
# Content that leaves no trace: lemmas
-/

set_option autoImplicit false

namespace Svgdom

theorem build_parse (L : Lib) (debug : Bool) (x : Xml) :
    processNodes L (L.sheet (cssTexts x)) .root [] (St.init debug).rootId x ⟨St.init debug, []⟩ =
      (svgDom L x).build (St.init debug).rootId ⟨St.init debug, []⟩ := by
  have hb : Built (St.init debug) := Built.init debug
  have hF : Describes (St.init debug) Forest.isolated := (treeInv_init debug).reps.describes
  have h := processNodes_build L (L.sheet (styleTexts x)) x .root [] (St.init debug).rootId ⟨St.init debug, []⟩
    Forest.isolated hb hF hb.rootLive (by simp [Forest.isolated]) (by simp [Good, Forest.isolated, Dom.tags])
  rw [cssTexts_eq, h]
  rfl

theorem parse_of_dom {L : Lib} (debug : Bool) {x y : Xml} (h : svgDom L x = svgDom L y) : parseSvg L debug x = parseSvg L debug y := by
  simp only [parseSvg, build_parse, h]

/-- Places with the same chain of ancestors, as far as selectors see it. -/
inductive Twin : XmlPos → XmlPos → Prop
  | root : Twin .root .root
  | elem {p q : XmlPos} {prev prev' : List (Option XmlElem)} {e e' : XmlElem} : Twin p q → e.name = e'.name →
    (∀ n, xmlAttribute e.attrs n = xmlAttribute e'.attrs n) → Twin (.elem p prev e) (.elem q prev' e')

theorem twin_alike : SeenAlike Twin where
  name := by
    rintro p q (_ | ⟨_, h, _⟩) n
    · rfl
    · simp [XmlPos.hasLocalName, h]
  attr := by
    rintro p q (_ | ⟨_, _, h⟩) n op
    · rfl
    · simp [XmlPos.attributeMatches, h]
  first := by
    rintro p q (_ | ⟨_, _, _⟩) <;> rfl
  parent := by
    rintro p q (_ | ⟨h, _, _⟩)
    · trivial
    · cases h with
      | root => trivial
      | elem h1 h2 h3 => exact .elem h1 h2 h3
  prev := by
    rintro p q (_ | ⟨h, h1, h2⟩)
    · trivial
    · exact .elem h h1 h2

theorem AttrsLess.attribute {as bs : List XmlAttr} (h : AttrsLess as bs) (n : Str) : xmlAttribute as n = xmlAttribute bs n := by
  induction h with
  | nil => rfl
  | keep a h ih =>
    simp only [xmlAttribute, List.find?_cons] at ih ⊢
    split
    · rfl
    · exact ih
  | drop ha h ih =>
    simp only [xmlAttribute, List.find?_cons] at ih ⊢
    simp only [ha.1, false_and, decide_false]
    exact ih

theorem AttrsLess.assigns {as bs : List XmlAttr} (h : AttrsLess as bs) : xmlAssigns as = xmlAssigns bs := by
  induction h with
  | nil => rfl
  | keep a h ih => simp only [xmlAssigns, List.filterMap_cons] at ih ⊢; rw [ih]
  | drop ha h ih => simp only [xmlAssigns, List.filterMap_cons, ha.2] at ih ⊢; exact ih

theorem AttrsLess.idFrom {as bs : List XmlAttr} (h : AttrsLess as bs) : idFrom as = idFrom bs := by
  have : (as.filter fun a => decide (a.aid = some .Id)) = bs.filter fun a => decide (a.aid = some .Id) := by
    induction h with
    | nil => rfl
    | keep a h ih => simp only [List.filter_cons]; rw [ih]
    | drop ha h ih => simpa [List.filter_cons, ha.2] using ih
  simp only [Svgdom.idFrom, this]

theorem ruleAssigns_twin {sheet : List Rule} (hs : ∀ r ∈ sheet, r.Asks) {p q : XmlPos} (h : Twin p q) :
    ruleAssigns sheet p = ruleAssigns sheet q := by
  have : (sheet.filter fun r => r.applies p) = sheet.filter fun r => r.applies q :=
    List.filter_congr fun r hr => hs r hr Twin twin_alike p q h
  simp only [ruleAssigns, this]

theorem less_dom (L : Lib) {sheet : List Rule} (hs : ∀ r ∈ sheet, r.Asks) {tag : Option ElementId} {x y : Xml} (h : Xml.Less tag x y) :
    ∀ {pos pos' : XmlPos} (prev prev' : List (Option XmlElem)), Twin pos pos' →
      domOf L sheet pos prev tag x = domOf L sheet pos' prev' tag y := by
  induction h with
  | nil _ => intros; rfl
  | @element tag ns name as bs kids kids' rest rest' ha hk hr ihk ihr =>
    intro pos pos' prev prev' ht
    have hr' := ihr (some ⟨ns, name, as⟩ :: prev) (some ⟨ns, name, bs⟩ :: prev') ht
    have ht' : Twin (.elem pos prev ⟨ns, name, as⟩) (.elem pos' prev' ⟨ns, name, bs⟩) := .elem ht rfl ha.attribute
    have hk' := ihk [] [] ht'
    have hg : allAssigns L sheet (.elem pos prev ⟨ns, name, as⟩) as = allAssigns L sheet (.elem pos' prev' ⟨ns, name, bs⟩) bs := by
      simp only [allAssigns, styleAttrAssigns, ha.assigns, ha.attribute, ruleAssigns_twin hs ht']
    simp only [domOf, hr']
    unfold svgTag at hk'
    generalize (if ns = some st!"http://www.w3.org/2000/svg" then elementNamed name else none) = o at hk'
    cases o with
    | none => rfl
    | some eid => simp only [hg, ha.idFrom, hk']
  | @dropElement tag ns name as kids rest rest' hn hr ih =>
    intro pos pos' prev prev' ht
    have hr' := ih (some ⟨ns, name, as⟩ :: prev) prev' ht
    unfold svgTag at hn
    simp only [domOf, hn, hr']
  | text t h ih =>
    intro pos pos' prev prev' ht
    simp only [domOf, ih (none :: prev) (none :: prev') ht]
  | dropText h1 h2 h ih =>
    intro pos pos' prev prev' ht
    simp only [domOf, h1, h2, Bool.not_false, Bool.and_self, if_true]
    exact ih (none :: prev) prev' ht
  | comment t h ih =>
    intro pos pos' prev prev' ht
    simp only [domOf, ih (none :: prev) (none :: prev') ht]
  | pi h ih =>
    intro pos pos' prev prev' ht
    exact ih (none :: prev) (none :: prev') ht
  | dropPi h ih =>
    intro pos pos' prev prev' ht
    exact ih (none :: prev) prev' ht

end Svgdom
