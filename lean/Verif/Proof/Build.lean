import Verif.Proof.ParseDoc

/-!
# Parsing as building the expected DOM
-/

set_option autoImplicit false

namespace Svgdom

/-- The document that is built from an expected DOM, with the order of creation that the parser has. -/
def Dom.build (parent : NodeId) : Dom → PSt → Except ParseErr PSt
  | .nil, p => .ok p
  | .element eid id A refs kids rest, p => do
    let (u, n) ← okOrFail (p.dom.createElement (.id eid))
    let v ← okOrFail ((u.elemWith n A id).append parent n)
    let p ← kids.build n ⟨v, p.links ++ refs.map fun r => ⟨r.attr, r.iri, r.fallback, n⟩⟩
    checkFirst p.dom parent
    rest.build parent p
  | .text t rest, p => do
    let p ← okOrFail (appendNew p parent .text t)
    checkFirst p.dom parent
    rest.build parent p
  | .comment t rest, p => do
    let p ← okOrFail (appendNew p parent .comment t)
    checkFirst p.dom parent
    rest.build parent p

theorem processText_eq (p : PSt) (parent : NodeId) (t : Str) :
    processText p parent t = if isBlank t && !keepsBlank (p.dom.tagId parent) then .ok p else appendNew p parent .text t := by
  unfold processText
  rw [trim_blank]
  cases isBlank t with
  | false => simp
  | true =>
    simp only [if_true, Bool.true_and]
    cases p.dom.tagId parent with
    | none => simp [keepsBlank, pure, Except.pure]
    | some e =>
      by_cases he : e = .Text ∨ e = .Tspan ∨ e = .Tref
      · simp [keepsBlank, he]
      · simp [keepsBlank, he, pure, Except.pure]

theorem processNodes_build (L : Lib) (sheet : List Rule) : ∀ (x : Xml) (pos : XmlPos) (prev : List (Option XmlElem))
    (parent : NodeId) (p : PSt) (F : Forest), Built p.dom → Describes p.dom F → p.dom.live parent = true →
    parent ∉ F.kids parent → Good p.dom F parent .nil →
    processNodes L sheet pos prev parent x p = (domOf L sheet pos prev (p.dom.tagId parent) x).build parent p
  | .nil, pos, prev, parent, p, F, hb, hF, hp, hpp, hg => rfl
  | .pi rest, pos, prev, parent, p, F, hb, hF, hp, hpp, hg => by
    have ih := processNodes_build L sheet rest pos (none :: prev) parent p F hb hF hp hpp hg
    simp only [processNodes, domOf]
    rw [processed_check hb hF hp hg]
    exact ih
  | .comment t rest, pos, prev, parent, p, F, hb, hF, hp, hpp, hg => by
    obtain ⟨p1, T, l, F1, e, h⟩ := appendNew_adds hb hF hp hpp (ty := .comment) (.inr rfl) t
    have ht : p1.dom.tagId parent = p.dom.tagId parent := h.grown.tagId hp
    simp only [processNodes, domOf, Dom.build, e, okOrFail, bind, Except.bind]
    cases hc : checkFirst p1.dom parent with
    | error _ => rfl
    | ok _ =>
      have hg1 : Good p1.dom F1 parent .nil := by
        by_contra hn
        rw [(checkFirst_eq h.built h.desc (h.live hp)).2 hn] at hc
        simp at hc
      have := processNodes_build L sheet rest pos (none :: prev) parent p1 F1 h.built h.desc (h.live hp) (h.notSelf hb hp hpp) hg1
      rw [ht] at this
      exact this
  | .text t rest, pos, prev, parent, p, F, hb, hF, hp, hpp, hg => by
    simp only [processNodes, domOf, processText_eq]
    cases hbl : isBlank t && !keepsBlank (p.dom.tagId parent) with
    | true =>
      simp only [if_true, okOrFail, bind, Except.bind]
      have := processNodes_build L sheet rest pos (none :: prev) parent p F hb hF hp hpp hg
      rw [← this]
      exact processed_check hb hF hp hg
    | false =>
      simp only [Bool.false_eq_true, if_false]
      obtain ⟨p1, T, l, F1, e, h⟩ := appendNew_adds hb hF hp hpp (ty := .text) (.inl rfl) t
      have ht : p1.dom.tagId parent = p.dom.tagId parent := h.grown.tagId hp
      simp only [Dom.build, e, okOrFail, bind, Except.bind]
      cases hc : checkFirst p1.dom parent with
      | error _ => rfl
      | ok _ =>
        have hg1 : Good p1.dom F1 parent .nil := by
          by_contra hn
          rw [(checkFirst_eq h.built h.desc (h.live hp)).2 hn] at hc
          simp at hc
        have := processNodes_build L sheet rest pos (none :: prev) parent p1 F1 h.built h.desc (h.live hp) (h.notSelf hb hp hpp) hg1
        rw [ht] at this
        exact this
  | .element ns name attrs kids rest, pos, prev, parent, p, F, hb, hF, hp, hpp, hg => by
    have ih := processNodes_build L sheet rest pos (some ⟨ns, name, attrs⟩ :: prev) parent p F hb hF hp hpp hg
    by_cases hns : ns = some svgNs
    · subst hns
      cases hnm : elementNamed name with
      | none =>
        have hd : domOf L sheet pos prev (p.dom.tagId parent) (.element (some svgNs) name attrs kids rest) =
            domOf L sheet pos (some ⟨some svgNs, name, attrs⟩ :: prev) (p.dom.tagId parent) rest := by
          simp [domOf, svgNs, hnm]
        have he : processNodes L sheet pos prev parent (.element (some svgNs) name attrs kids rest) p =
            processNodes L sheet pos (some ⟨some svgNs, name, attrs⟩ :: prev) parent rest p := by
          simp [processNodes, elementNamed_eq, hnm, okOrFail, bind, Except.bind, pure, Except.pure]
        rw [hd, he]
        exact ih
      | some eid =>
        have hone := processNodes_spec L sheet (.element (some svgNs) name attrs kids .nil) pos prev parent p F hb hF hp hpp hg
        obtain ⟨pos', hpos⟩ : ∃ q, q = XmlPos.elem pos prev ⟨some svgNs, name, attrs⟩ := ⟨_, rfl⟩
        obtain ⟨t, e1, hbu, gu, hFu, t1, t2, t3, t4, t5, t6, u, c1, c2⟩ := parseElement_eq L sheet hb pos' eid attrs hF
        obtain ⟨v, F1, e2, hbv, hF1, f, k1, k2, k3⟩ := append_fresh hb hF hp hpp rfl hbu gu hFu
        obtain ⟨n, hn⟩ : ∃ n, n = p.dom.nextId := ⟨_, rfl⟩
        rw [← hn] at e1 gu hFu t1 t2 t3 t4 t5 t6 e2 k1 k2 c1 c2
        obtain ⟨gs, hgs⟩ : ∃ gs, gs = allAssigns L sheet pos' attrs := ⟨_, rfl⟩
        rw [← hgs] at e1 t4 c2
        obtain ⟨ls, hls⟩ : ∃ ls, ls = p.links ++ (refsOf L eid gs).map fun r => (⟨r.attr, r.iri, r.fallback, n⟩ : PLink) := ⟨_, rfl⟩
        rw [← hls] at e1
        have gv : Grown p.dom v [n] := gu.frame f
        have hnv : v.live n = true := (gv.live n).2 (.inr (by simp))
        have hvd : v.data n = t.data n := by rw [f.data]
        have hnr : n ≠ v.rootId := by
          rw [gv.rootId]; rintro rfl
          have := hb.rootLive
          rw [hn, hb.inv.nextId_dead] at this
          simp at this
        have htn : v.tagId n = some eid := by
          simp only [St.tagId, St.tagName, hvd]
          rw [show (t.data n).tagName = .id eid from t2]
        have hk := processNodes_build L sheet kids pos' [] n ⟨v, ls⟩ F1 hbv hF1 hnv (by rw [k2]; simp) (fun h => absurd h hnr)
        simp only at hk
        rw [htn] at hk
        have hd : domOf L sheet pos prev (p.dom.tagId parent) (.element (some svgNs) name attrs kids rest) =
            Dom.element eid (idFrom attrs) (attrsOf L eid gs) (refsOf L eid gs) (domOf L sheet pos' [] (some eid) kids)
              (domOf L sheet pos (some ⟨some svgNs, name, attrs⟩ :: prev) (p.dom.tagId parent) rest) := by
          subst hpos hgs
          have : (if some svgNs = some st!"http://www.w3.org/2000/svg" then elementNamed name else none) = some eid := by
            simp [svgNs, hnm]
          simp only [domOf, this]
        have he : ∀ rest, processNodes L sheet pos prev parent (.element (some svgNs) name attrs kids rest) p =
            (do let p1 ← processNodes L sheet pos' [] n kids ⟨v, ls⟩
                checkFirst p1.dom parent
                processNodes L sheet pos (some ⟨some svgNs, name, attrs⟩ :: prev) parent rest p1) := by
          intro rest
          rw [hpos] at e1 ⊢
          simp only [processNodes, elementNamed_eq, hnm, okOrFail, bind, Except.bind, ne_eq, not_true_eq_false, if_false, e1, e2]
          cases processNodes L sheet (.elem pos prev ⟨some svgNs, name, attrs⟩) [] n kids ⟨v, ls⟩ with
          | error _ => rfl
          | ok p1 =>
            simp only
            cases checkFirst p1.dom parent <;> rfl
        rw [he] at hone
        rw [hd, he]
        simp only [Dom.build, c1, okOrFail, bind, Except.bind, ← c2, e2, ← hls, ← hk]
        cases hx : processNodes L sheet pos' [] n kids ⟨v, ls⟩ with
        | error _ => rfl
        | ok p1 =>
          simp only
          cases hc : checkFirst p1.dom parent with
          | error _ => rfl
          | ok _ =>
            simp only [hx, bind, Except.bind, hc, processNodes] at hone
            have hgd : Good p.dom F parent (domOf L sheet pos prev (p.dom.tagId parent) (.element (some svgNs) name attrs kids .nil)) := by
              by_contra hn
              have := hone.2 hn
              simp at this
            obtain ⟨p2, T, l, G, e4, h⟩ := hone.1 hgd
            injection e4 with e4
            subst e4
            have hg1 : Good p1.dom G parent .nil := by
              by_contra hn
              rw [(checkFirst_eq h.built h.desc (h.live hp)).2 hn] at hc
              simp at hc
            have ht : p1.dom.tagId parent = p.dom.tagId parent := h.grown.tagId hp
            have := processNodes_build L sheet rest pos (some ⟨some svgNs, name, attrs⟩ :: prev) parent p1 G h.built h.desc
              (h.live hp) (h.notSelf hb hp hpp) hg1
            rw [ht] at this
            exact this
    · have hd : domOf L sheet pos prev (p.dom.tagId parent) (.element ns name attrs kids rest) =
          domOf L sheet pos (some ⟨ns, name, attrs⟩ :: prev) (p.dom.tagId parent) rest := by
        have : ¬ ns = some st!"http://www.w3.org/2000/svg" := hns
        simp only [domOf, if_neg this]
      have he : processNodes L sheet pos prev parent (.element ns name attrs kids rest) p =
          processNodes L sheet pos (some ⟨ns, name, attrs⟩ :: prev) parent rest p := by
        simp [processNodes, hns, bind, Except.bind, pure, Except.pure]
      rw [hd, he]
      exact ih

end Svgdom
