import Verif.Proof.Resolve
import Verif.Model.Text
import Verif.Props.Storage

/-! `parse_svg` up to text processing. -/

namespace Svgdom

open Relation

theorem Dom.Is.plink_nodes {s : St} : ∀ {D : Dom} {T : Trees}, D.Is s T → ∀ l ∈ D.plinks T, l.node ∈ T.pre ∧ s.nodeType l.node = .element
  | .nil, T, h, l, hl => by simp [Dom.plinks] at hl
  | .element _ _ _ rs k r, T, h, l, hl => by
    cases T with
    | nil => exact h.elim
    | cons n K R =>
      obtain ⟨a, _, _, _, _, f, i⟩ := h
      simp only [Dom.plinks, List.mem_append, List.mem_map] at hl
      simp only [Trees.pre, List.mem_cons, List.mem_append]
      rcases hl with (⟨x, _, rfl⟩ | hl) | hl
      · exact ⟨.inl rfl, a⟩
      · obtain ⟨h1, h2⟩ := Dom.Is.plink_nodes (D := k) f l hl
        exact ⟨.inr (.inl h1), h2⟩
      · obtain ⟨h1, h2⟩ := Dom.Is.plink_nodes (D := r) i l hl
        exact ⟨.inr (.inr h1), h2⟩
  | .text _ r, T, h, l, hl => by
    cases T with
    | nil => exact h.elim
    | cons n K R =>
      obtain ⟨_, _, _, _, _, _, i⟩ := h
      obtain ⟨h1, h2⟩ := Dom.Is.plink_nodes (D := r) i l hl
      exact ⟨by simp [Trees.pre, h1], h2⟩
  | .comment _ r, T, h, l, hl => by
    cases T with
    | nil => exact h.elim
    | cons n K R =>
      obtain ⟨_, _, _, _, _, _, i⟩ := h
      obtain ⟨h1, h2⟩ := Dom.Is.plink_nodes (D := r) i l hl
      exact ⟨by simp [Trees.pre, h1], h2⟩

/-- Is the node a `style` element? -/
abbrev St.styleNode (s : St) (n : NodeId) : Bool := s.hasTagName n (.id .Style)

theorem styleNode_looks : LooksAtNode fun s n => s.hasTagName n (.id .Style) := fun s t n _ h _ _ => by
  simp [St.hasTagName, h]

theorem cssTexts_eq : ∀ x : Xml, cssTexts x = styleTexts x
  | .nil => rfl
  | .element ns name attrs kids rest => by
    have h1 := cssTexts_eq kids
    have h2 := cssTexts_eq rest
    have h3 : ∀ l, (match xmlAttribute attrs st!"type" with
        | some ty => if ty = st!"text/css" then (xmlText kids).toList else []
        | none => (xmlText kids).toList) = l →
        (if name = st!"style" then l else []) =
          ([(name, attrs, kids)].filter fun e => decide (IsSheet e)).filterMap fun e => leadingText e.2.2 := by
      rintro l rfl
      have hx : leadingText kids = xmlText kids := by cases kids <;> rfl
      by_cases hn : name = st!"style"
      · subst hn
        rw [if_pos rfl]
        cases ha : xmlAttribute attrs st!"type" with
        | none => cases hk : xmlText kids <;> simp [IsSheet, ha, hx, hk]
        | some ty =>
          by_cases ht : ty = st!"text/css"
          · cases hk : xmlText kids <;> simp [IsSheet, ha, hx, hk, ht]
          · simp [IsSheet, ha, ht]
      · simp [IsSheet, hn]
    simp only [cssTexts, h1, h2, styleTexts, Xml.elements]
    rw [show (name, attrs, kids) :: (kids.elements ++ rest.elements) = [(name, attrs, kids)] ++ (kids.elements ++ rest.elements)
      from rfl, List.filter_append, List.filterMap_append, List.filter_append, List.filterMap_append, ← List.append_assoc,
      ← h3 _ rfl]
    rfl
  | .text _ rest => cssTexts_eq rest
  | .comment _ rest => cssTexts_eq rest
  | .pi rest => cssTexts_eq rest

/-- The steps of `parse_svg` before text processing: `p` after `process_node`, `s2` after removal of `style` elements, `s3` after
resolution of references. -/
structure Front (L : Lib) (debug : Bool) (x : Xml) (p : PSt) (T : Trees) (G : Forest) (s2 s3 : St) : Prop where
  proc : processNodes L (L.sheet (styleTexts x)) .root [] (St.init debug).rootId x ⟨St.init debug, []⟩ = .ok p
  adds : Adds ⟨St.init debug, []⟩ Forest.isolated (St.init debug).rootId (svgDom L x) p T (G.kids p.dom.rootId) G
  root : p.dom.rootId = (St.init debug).rootId
  drain : ∃ n, p.dom.drain p.dom.rootId (fun s n => s.hasTagName n (.id .Style)) = .ok (s2, n)
  built2 : Built s2
  removed : Removed p.dom s2 (T.gone p.dom.styleNode)
  desc2 : Describes s2 (G.prune (T.gone p.dom.styleNode))
  of2 : (T.keep p.dom.styleNode).Of (G.prune (T.gone p.dom.styleNode)) ((G.prune (T.gone p.dom.styleNode)).kids p.dom.rootId)
  pre2 : (T.keep p.dom.styleNode).pre = T.pre.filter fun j => decide (j ∉ T.gone p.dom.styleNode)
  is2 : (svgDom L x).unstyled.Is s2 (T.keep p.dom.styleNode)
  resolve : resolveLinks s2 p.links = .ok s3
  built3 : Built s3
  resolves : ResolvesAll (p.dom.rootId :: (T.keep p.dom.styleNode).pre) s2 p.links s3

theorem parse_front (L : Lib) (debug : Bool) (x : Xml) :
    ((svgDom L x).tags.head? = some .Svg → ∃ p T G s2 s3, Front L debug x p T G s2 s3 ∧
      parseSvg L debug x = okOrFail s3.prepareText) ∧
    ((svgDom L x).tags.head? ≠ some .Svg → parseSvg L debug x = .error .noSvgElement) := by
  have hb : Built (St.init debug) := Built.init debug
  have hF : Describes (St.init debug) Forest.isolated := (treeInv_init debug).reps.describes
  have hr : (St.init debug).live (St.init debug).rootId = true := hb.rootLive
  have hgood : ∀ D : Dom, Good (St.init debug) Forest.isolated (St.init debug).rootId D ↔ ∀ e, D.tags.head? = some e → e = .Svg := by
    intro D
    simp [Good, Forest.isolated]
  obtain ⟨h1, h2⟩ := processNodes_spec L (L.sheet (styleTexts x)) x .root [] (St.init debug).rootId ⟨St.init debug, []⟩
    Forest.isolated hb hF hr (by simp [Forest.isolated]) ((hgood _).2 (by simp [Dom.tags]))
  have htag : (St.init debug).tagId (St.init debug).rootId = none := rfl
  simp only [htag] at h1 h2
  rw [hgood] at h1 h2
  change _ → ∃ p' T l G, _ at h1
  by_cases hs : ∀ e, (svgDom L x).tags.head? = some e → e = .Svg
  · obtain ⟨p, T, l, G, e1, ad⟩ := h1 hs
    have hroot : p.dom.rootId = (St.init debug).rootId := ad.grown.rootId
    have hl : G.kids p.dom.rootId = l := by rw [hroot, ad.kids]; rfl
    have hpr : p.dom.live p.dom.rootId = true := ad.built.rootLive
    have htags : (G.kids p.dom.rootId).filterMap p.dom.tagId = (svgDom L x).tags := by rw [hl]; exact ad.is.topTags ad.of
    rcases C26_svg_element ad.built.reachable ad.desc with ⟨a, n, b, k1, k2, k3, k4⟩ | ⟨k1, k2⟩
    · refine ⟨fun _ => ?_, ?_⟩
      · have hof : T.Of G (G.kids p.dom.rootId) := by rw [hl]; exact ad.of
        obtain ⟨s2, cnt, d1, d2, d3, d4, d5, d6⟩ := drain_tree ad.built ad.desc hpr hof styleNode_looks
        have hplain := ad.is.plain (domOf_plain L _ x _ _ _)
        have hlive : ∀ j ∈ T.pre, p.dom.live j = true := fun j hj => (ad.grown.live j).2 (.inr hj)
        have hattr : ∀ j ∈ T.pre, s2.attributes j = p.dom.attributes j := by
          intro j hj
          rw [d3.attrs j (hlive j hj), List.filter_eq_self]
          intro a ha
          have hpl := hplain j hj a ha
          have h5 : a.value.plain = true := plain_iff.2 hpl
          have h6 : ∀ n, a.value.refersTo n = false := by
            intro n
            rw [Bool.eq_false_iff]
            intro hh
            rw [refersTo_iff.1 hh] at hpl
            simp at hpl
          simp [survives, h5, h6]
        have is2 := ad.is.unstyle d3.types d3.tags d3.ids d3.texts hattr
        have hlk : ∀ l ∈ p.links, s2.live l.node = true ∧ s2.nodeType l.node = .element := by
          intro l hl
          rw [ad.links] at hl
          obtain ⟨h5, h6⟩ := ad.is.plink_nodes l hl
          rw [d3.live, d3.types]
          exact ⟨hlive _ h5, h6⟩
        obtain ⟨s3, r1, r2, r3⟩ := resolveLinks_spec p.links d2 d4 (K := T.keep p.dom.styleNode)
          (by rw [d3.rootId]; exact d5) hlk
        rw [d3.rootId] at r3
        refine ⟨p, T, G, s2, s3, ⟨e1, by rw [hl]; exact ad, hroot, ⟨cnt, d1⟩, d2, d3, d4, d5, d6, is2, r1, r2, r3⟩, ?_⟩
        simp only [parseSvg, cssTexts_eq, e1, bind, Except.bind, k4, okOrFail, d1, r1]
      · intro hne
        exfalso
        cases ht : (svgDom L x).tags with
        | nil =>
          rw [ht] at htags
          have hn : p.dom.tagId n = some .Svg := by simp [St.tagId, k2]
          have : (.Svg : ElementId) ∈ (G.kids p.dom.rootId).filterMap p.dom.tagId := by
            rw [List.mem_filterMap]; exact ⟨n, by rw [k1]; simp, hn⟩
          rw [htags] at this; simp at this
        | cons e l' =>
          have := hs e (by rw [ht]; rfl)
          subst this
          exact hne (by rw [ht]; rfl)
    · have hnil : (svgDom L x).tags.head? ≠ some .Svg := by
        intro hh
        have : (.Svg : ElementId) ∈ (svgDom L x).tags := List.mem_of_mem_head? hh
        rw [← htags, List.mem_filterMap] at this
        obtain ⟨c, hc, ht⟩ := this
        refine k1 c hc ?_
        simp only [St.tagId] at ht
        split at ht
        · next e he => rw [he]; cases ht; rfl
        · simp at ht
      refine ⟨fun h => absurd h hnil, fun _ => ?_⟩
      simp only [parseSvg, cssTexts_eq, e1, bind, Except.bind, k2, okOrFail]
  · have e1 := h2 hs
    have hne : (svgDom L x).tags.head? ≠ some .Svg := by
      intro hh
      exact hs fun e he => by rw [hh] at he; cases he; rfl
    refine ⟨fun h => absurd h hne, fun _ => ?_⟩
    simp only [parseSvg, cssTexts_eq, e1, bind, Except.bind]

end Svgdom
