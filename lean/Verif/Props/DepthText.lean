import Verif.Proof.DepthText

/-!
# C91: how much stack text processing and the whole parser need
-/

set_option autoImplicit false

namespace Svgdom

theorem Dom.Is.elemHeight {s : St} : ∀ (D : Dom) (T : Trees), D.Is s T → T.elemHeight s = D.elemHeight
  | .nil, .nil, _ => rfl
  | .nil, .cons _ _ _, h => by simp [Dom.Is] at h
  | .element _ _ _ _ _ _, .nil, h => by simp [Dom.Is] at h
  | .text _ _, .nil, h => by simp [Dom.Is] at h
  | .comment _ _, .nil, h => by simp [Dom.Is] at h
  | .element _ _ _ _ kids rest, .cons n K R, h => by
    obtain ⟨h1, -, -, -, -, h2, h3⟩ := h
    simp [Trees.elemHeight, Dom.elemHeight, h1, Dom.Is.elemHeight kids K h2, Dom.Is.elemHeight rest R h3]
  | .text _ rest, .cons n K R, h => by
    obtain ⟨h1, -, -, -, -, -, h3⟩ := h
    simp [Trees.elemHeight, Dom.elemHeight, h1, Dom.Is.elemHeight rest R h3]
  | .comment _ rest, .cons n K R, h => by
    obtain ⟨h1, -, -, -, -, -, h3⟩ := h
    simp [Trees.elemHeight, Dom.elemHeight, h1, Dom.Is.elemHeight rest R h3]

/-- C91, text processing: `prepare_text` needs one call more than there are levels of elements, and at most two more. -/
theorem C91_text {s0 : St} (hb : Built s0) {F : Forest} (hF : Describes s0 F) {K : Trees} (hK : K.Of F (F.kids s0.rootId))
    (hr : ∀ j ∈ K.pre, Region s0 F j) : ∃ (need : Nat) (t : St), s0.prepareText = .ok t ∧ K.elemHeight s0 + 1 ≤ need ∧
      need ≤ K.elemHeight s0 + 2 ∧ ∀ d, s0.prepareTextS d = if need ≤ d then .ok t else .error .overflow := by
  obtain ⟨g, t, e, hg, q⟩ := prepareText_depth hb hF hK hr
  have := drainHeight_text hg K _ hK fun j hj => (hr j hj).kids
  exact ⟨_, t, e, by omega, by omega, q⟩

/-- C91, the whole parser: with room for one call more than the XML tree has levels the result is the one without bound. A document that
can be parsed needs as many calls as it has levels or one more, and in any case more than it has levels of elements (outside `style`). -/
theorem C91_svg (L : Lib) (debug : Bool) (x : Xml) :
    (∀ d, x.svgHeight + 1 ≤ d → parseSvgS L debug d x = step (parseSvg L debug x)) ∧
    (∀ t, parseSvg L debug x = .ok t → ∃ need, x.svgHeight ≤ need ∧ need ≤ x.svgHeight + 1 ∧ (svgDom L x).unstyled.elemHeight < need ∧
      ∀ d, parseSvgS L debug d x = if need ≤ d then .ok t else .error .overflow) := by
  have key : ∀ t, parseSvg L debug x = .ok t → ∃ need, x.svgHeight ≤ need ∧ need ≤ x.svgHeight + 1 ∧
      (svgDom L x).unstyled.elemHeight < need ∧ ∀ d, parseSvgS L debug d x = if need ≤ d then .ok t else .error .overflow := by
    intro t e
    obtain ⟨T, K, s, g, h, hi, h1, h2, q⟩ := parseSvg_depth e
    have a1 := drainHeight_le g T
    have a2 := drainHeight_le h K
    have a3 := elemHeight_le s K
    have a4 := Dom.Is.elemHeight _ K hi
    exact ⟨_, by omega, by omega, by omega, q⟩
  refine ⟨fun d hd => ?_, key⟩
  rcases parse_cases L debug x with ⟨-, p, T, G, s2, s3, u, t, -, -, e⟩ | ⟨-, e⟩
  · obtain ⟨need, -, h2, -, q⟩ := key t e
    rw [e, q d, if_pos (by omega), step_ok]
  · have e2 := e
    simp only [parseSvg, bind, Except.bind] at e2
    simp only [parseSvgS, processNodesS_enough L _ x d _ _ _ _ (by omega : x.svgHeight ≤ d), bind, Except.bind, e]
    cases h1 : processNodes L (L.sheet (cssTexts x)) .root [] (St.init debug).rootId x ⟨St.init debug, []⟩ with
    | error e3 => rw [h1] at e2; simp only at e2; rw [Except.error.inj e2]; rfl
    | ok p =>
      rw [h1] at e2
      simp only [step_ok] at e2 ⊢
      cases h2 : p.dom.svgElement with
      | error _ => rw [h2] at e2; simp [okOrFail] at e2
      | ok v =>
        cases v with
        | none => rfl
        | some n =>
          exfalso
          rw [h2] at e2
          simp only [okOrFail] at e2
          cases h3 : p.dom.drain p.dom.rootId (fun s n => s.hasTagName n (.id .Style)) with
          | error _ => rw [h3] at e2; simp at e2
          | ok w =>
            rw [h3] at e2
            simp only at e2
            cases h4 : resolveLinks w.1 p.links with
            | error _ => rw [h4] at e2; simp at e2
            | ok s =>
              rw [h4] at e2
              simp only at e2
              cases h5 : s.prepareText <;> (rw [h5] at e2; simp at e2)

/-- C91, no bound for the whole parser: whatever the size of the stack, there is a document that is parsed with a larger one and overflows
this one. -/
theorem C91_no_bound_svg (d : Nat) : ∃ (L : Lib) (x : Xml) (t : St), parseSvg L true x = .ok t ∧
    parseSvgS L true d x = .error .overflow ∧ parseSvgS L true (x.svgHeight + 1) x = .ok t := by
  obtain ⟨t, _, _, _, e, _⟩ := deep_parsed d
  refine ⟨sampleLib, deepXml d, t, e, ?_, ?_⟩
  · obtain ⟨need, h1, -, -, q⟩ := (C91_svg sampleLib true (deepXml d)).2 t e
    rw [q d, if_neg]
    simp [deepXml, xe, Xml.svgHeight, nest_height, svgNs, show (elementNamed st!"svg").isSome = true by decide +kernel] at h1
    omega
  · rw [(C91_svg sampleLib true (deepXml d)).1 _ (le_refl _), e, step_ok]

theorem nest_elemHeight (n : Nat) : (nestDom n).elemHeight = n := by
  induction n with
  | zero => rfl
  | succ n ih => simp [nestDom, Dom.elemHeight, ih]

/-- Both needs occur. Elements alone need one call more than there are levels (text processing calls itself for elements without
children). -/
example (n : Nat) : ∃ t, parseSvg sampleLib true (deepXml n) = .ok t ∧ (deepXml n).svgHeight = n + 1 ∧
    parseSvgS sampleLib true (n + 1) (deepXml n) = .error .overflow ∧ parseSvgS sampleLib true (n + 2) (deepXml n) = .ok t := by
  obtain ⟨t, _, _, _, e, _⟩ := deep_parsed n
  have h : (deepXml n).svgHeight = n + 1 := by
    simp [deepXml, xe, Xml.svgHeight, nest_height, svgNs, show (elementNamed st!"svg").isSome = true by decide +kernel]
  obtain ⟨need, h1, h2, h3, q⟩ := (C91_svg sampleLib true (deepXml n)).2 t e
  rw [deep_dom] at h3
  simp only [Dom.unstyled, nest_unstyled] at h3
  simp [Dom.elemHeight, nest_elemHeight] at h3
  refine ⟨t, e, h, ?_, ?_⟩
  · rw [q, if_neg (by omega)]
  · rw [q, if_pos (by omega)]

/-- With text inside the deepest element, as many as there are levels. -/
example : (xe st!"svg" [] (xe st!"text" [] (.text st!"a" .nil) .nil) .nil).svgHeight = 3 ∧
    (parseSvgS sampleLib true 3 (xe st!"svg" [] (xe st!"text" [] (.text st!"a" .nil) .nil) .nil)).isOk = true := by
  constructor <;> decide +kernel

end Svgdom
