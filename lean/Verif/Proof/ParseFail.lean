import Verif.Model.UnwindParse
import Verif.Spec.ParseFail
import Verif.Proof.ParseDoc

/-!
# The document at the moment the parser gives up
-/

set_option autoImplicit false

namespace Svgdom

theorem seen_check {s : St} {parent : NodeId} : checkFirst s parent =
    match checkFirstU s parent with
    | .ok true => .ok ()
    | .ok false => .error .noSvgElement
    | .error e => .error (.fail e) := by
  unfold checkFirst checkFirstU
  by_cases hr : s.isRoot parent = true
  · rw [if_pos hr, if_pos hr]
    cases s.childList s.rootId with
    | error e => rfl
    | ok cs =>
      simp only [okOrFail, bind, Except.bind]
      cases cs.filterMap s.tagId with
      | nil => rfl
      | cons e l => by_cases he : e = .Svg <;> simp [he]
  · rw [if_neg hr, if_neg hr]

theorem seen_step {p : PSt} {parent : NodeId} {f : PSt → Except Err (PSt × Bool)} :
    seen (do if ← checkFirstU p.dom parent then f p else pure (p, false)) = (do checkFirst p.dom parent; seen (f p)) := by
  rw [seen_check]
  cases checkFirstU p.dom parent with
  | error e => rfl
  | ok b => cases b <;> rfl

theorem processNodesU_seen (L : Lib) (sheet : List Rule) : ∀ (x : Xml) (pos : XmlPos) (prev : List (Option XmlElem)) (parent : NodeId)
    (p : PSt), seen (processNodesU L sheet pos prev parent x p) = processNodes L sheet pos prev parent x p
  | .nil, pos, prev, parent, p => rfl
  | .pi rest, pos, prev, parent, p => by
    simp only [processNodesU, processNodes]
    rw [seen_step, processNodesU_seen L sheet rest]
  | .comment t rest, pos, prev, parent, p => by
    simp only [processNodesU, processNodes]
    cases appendNew p parent .comment t with
    | error e => rfl
    | ok p1 =>
      have := seen_step (p := p1) (parent := parent) (f := fun p => processNodesU L sheet pos (none :: prev) parent rest p)
      rw [processNodesU_seen L sheet rest] at this
      exact this
  | .text t rest, pos, prev, parent, p => by
    simp only [processNodesU, processNodes]
    cases processText p parent t with
    | error e => rfl
    | ok p1 =>
      have := seen_step (p := p1) (parent := parent) (f := fun p => processNodesU L sheet pos (none :: prev) parent rest p)
      rw [processNodesU_seen L sheet rest] at this
      exact this
  | .element ns name attrs kids rest, pos, prev, parent, p => by
    have ih := fun p => processNodesU_seen L sheet rest pos (some ⟨ns, name, attrs⟩ :: prev) parent p
    simp only [processNodesU, processNodes]
    by_cases hns : ns = some svgNs
    · simp only [hns, ne_eq, not_true_eq_false, if_false] at ih ⊢
      cases ElementId.fromStr? name with
      | error e => rfl
      | ok o =>
        cases o with
        | none => exact ih p
        | some eid =>
          simp only [okOrFail, bind, Except.bind]
          cases parseElement L sheet p (.elem pos prev ⟨some svgNs, name, attrs⟩) eid attrs with
          | error e => rfl
          | ok q =>
            simp only
            cases q.1.dom.append parent q.2 with
            | error e => rfl
            | ok s =>
              simp only
              rw [← processNodesU_seen L sheet kids]
              cases processNodesU L sheet (.elem pos prev ⟨some svgNs, name, attrs⟩) [] q.2 kids ⟨s, q.1.links⟩ with
              | error e => rfl
              | ok r =>
                obtain ⟨p1, b⟩ := r
                cases b with
                | false => rfl
                | true =>
                  simp only [seen, seen_check, if_true]
                  cases checkFirstU p1.dom parent with
                  | error e => rfl
                  | ok b =>
                    cases b with
                    | false => rfl
                    | true => exact ih p1
    · simp only [hns, ne_eq, not_false_eq_true, if_true]
      exact ih p

theorem checkFirstU_bad {s : St} (hb : Built s) {F : Forest} (hF : Describes s F) {parent : NodeId} (hp : s.live parent = true) :
    (Good s F parent .nil → checkFirstU s parent = .ok true) ∧ (¬ Good s F parent .nil → checkFirstU s parent = .ok false) := by
  obtain ⟨h1, h2⟩ := checkFirst_eq hb hF hp
  rw [seen_check] at h1 h2
  constructor
  · intro hg
    have := h1 hg
    split at this <;> simp_all
  · intro hg
    have := h2 hg
    split at this <;> simp_all

/-- The first element on the top level decides. -/
theorem Dom.upToElement_app {D E : Dom} (h : D.tags = []) : (D.app E).upToElement = D.app E.upToElement := by
  induction D with
  | nil => rfl
  | element => simp [Dom.tags] at h
  | text t r ih => simp only [Dom.app, Dom.upToElement, ih h]
  | comment t r ih => simp only [Dom.app, Dom.upToElement, ih h]

theorem Dom.upToElement_nil {D : Dom} (h : D.tags = []) : D.upToElement = D := by
  induction D with
  | nil => rfl
  | element => simp [Dom.tags] at h
  | text t r ih => simp only [Dom.upToElement, ih h]
  | comment t r ih => simp only [Dom.upToElement, ih h]

/-- Nothing tagged so far. -/
theorem bad_empty {s : St} {F : Forest} {parent : NodeId} {D : Dom} (hg : Good s F parent .nil) (hn : ¬ Good s F parent D) :
    parent = s.rootId ∧ (F.kids parent).filterMap s.tagId = [] ∧ ∃ e, D.tags.head? = some e ∧ e ≠ .Svg := by
  unfold Good at hg hn
  push Not at hn
  obtain ⟨hr, e, he, hne⟩ := hn
  have hg := hg hr
  cases ht : (F.kids parent).filterMap s.tagId with
  | nil => rw [ht] at he; exact ⟨hr, rfl, e, by simpa using he, hne⟩
  | cons x l =>
    rw [ht] at he hg
    have := hg x (by simp)
    simp only [List.cons_append, List.head?_cons, Option.some.injEq] at he
    exact absurd (he ▸ this) hne

/-- Texts and comments before the offending element. -/
theorem fails_step {p : PSt} (hb : Built p.dom) {F : Forest} (hF : Describes p.dom F) {parent : NodeId}
    (hp : p.dom.live parent = true) {D E : Dom} (hD : D.tags = []) (hg : Good p.dom F parent .nil)
    (hn : ¬ Good p.dom F parent (D.app E)) {p1 : PSt} {T : Trees} {l : List NodeId} {F1 : Forest}
    (h : Adds p F parent D p1 T l F1) {f : PSt → Except Err (PSt × Bool)}
    (hrest : Good p1.dom F1 parent .nil → ¬ Good p1.dom F1 parent E →
      ∃ p' T l G, f p1 = .ok (p', false) ∧ Adds p1 F1 parent E.upToElement p' T l G) :
    ∃ p' T l G, (do if ← checkFirstU p1.dom parent then f p1 else pure (p1, false)) = .ok (p', false) ∧
      Adds p F parent (D.app E).upToElement p' T l G := by
  have hn1 : ¬ Good p1.dom F1 parent E := fun hh => hn ((h.good hF hp E).1 hh)
  have hg1 : Good p1.dom F1 parent .nil := by
    rw [h.good hF hp]
    intro hr e he
    rw [Dom.tags_app, hD] at he
    exact hg hr e he
  obtain ⟨p', U, m, G, e, k⟩ := hrest hg1 hn1
  refine ⟨p', _, _, G, ?_, by rw [Dom.upToElement_app hD]; exact h.seq hb hp k⟩
  rw [(checkFirstU_bad h.built h.desc (h.live hp)).1 hg1]
  exact e

theorem processNodesU_fails (L : Lib) (sheet : List Rule) : ∀ (x : Xml) (pos : XmlPos) (prev : List (Option XmlElem))
    (parent : NodeId) (p : PSt) (F : Forest), Built p.dom → Describes p.dom F → p.dom.live parent = true → parent ∉ F.kids parent →
    Good p.dom F parent .nil → ¬ Good p.dom F parent (domOf L sheet pos prev (p.dom.tagId parent) x) →
    ∃ p' T l G, processNodesU L sheet pos prev parent x p = .ok (p', false) ∧
      Adds p F parent (domOf L sheet pos prev (p.dom.tagId parent) x).upToElement p' T l G
  | .nil, pos, prev, parent, p, F, hb, hF, hp, hpp, hg, hn => absurd hg hn
  | .pi rest, pos, prev, parent, p, F, hb, hF, hp, hpp, hg, hn => by
    have ih := processNodesU_fails L sheet rest pos (none :: prev) parent p F hb hF hp hpp hg hn
    simp only [processNodesU, domOf, (checkFirstU_bad hb hF hp).1 hg, bind, Except.bind, if_true]
    exact ih
  | .comment t rest, pos, prev, parent, p, F, hb, hF, hp, hpp, hg, hn => by
    obtain ⟨p1, T, l, F1, e, h⟩ := appendNew_adds hb hF hp hpp (ty := .comment) (.inr rfl) t
    have ht : p1.dom.tagId parent = p.dom.tagId parent := h.grown.tagId hp
    have hs := fails_step hb hF hp (D := .comment t .nil) (by simp [Dom.tags]) hg
      (E := domOf L sheet pos (none :: prev) (p.dom.tagId parent) rest) hn h
      (f := fun p => processNodesU L sheet pos (none :: prev) parent rest p)
      (fun hg1 hn1 => by
        have := processNodesU_fails L sheet rest pos (none :: prev) parent p1 F1 h.built h.desc (h.live hp) (h.notSelf hb hp hpp) hg1
        rw [ht] at this
        exact this hn1)
    simp only [processNodesU, e]
    exact hs
  | .text t rest, pos, prev, parent, p, F, hb, hF, hp, hpp, hg, hn => by
    obtain ⟨p1, T, l, F1, e, h⟩ := processText_adds hb hF hp hpp t
    have ht : p1.dom.tagId parent = p.dom.tagId parent := h.grown.tagId hp
    have happ : domOf L sheet pos prev (p.dom.tagId parent) (.text t rest) =
        (if isBlank t && !keepsBlank (p.dom.tagId parent) then Dom.nil else .text t .nil).app
        (domOf L sheet pos (none :: prev) (p.dom.tagId parent) rest) := by
      simp only [domOf]
      split <;> rfl
    rw [happ] at hn ⊢
    have hs := fails_step hb hF hp (by split <;> simp [Dom.tags]) hg
      (E := domOf L sheet pos (none :: prev) (p.dom.tagId parent) rest) hn h
      (f := fun p => processNodesU L sheet pos (none :: prev) parent rest p)
      (fun hg1 hn1 => by
        have := processNodesU_fails L sheet rest pos (none :: prev) parent p1 F1 h.built h.desc (h.live hp) (h.notSelf hb hp hpp) hg1
        rw [ht] at this
        exact this hn1)
    simp only [processNodesU, e]
    exact hs
  | .element ns name attrs kids rest, pos, prev, parent, p, F, hb, hF, hp, hpp, hg, hn => by
    have ih := processNodesU_fails L sheet rest pos (some ⟨ns, name, attrs⟩ :: prev) parent p F hb hF hp hpp hg
    by_cases hns : ns = some svgNs
    · subst hns
      cases hnm : elementNamed name with
      | none =>
        have hd : domOf L sheet pos prev (p.dom.tagId parent) (.element (some svgNs) name attrs kids rest) =
            domOf L sheet pos (some ⟨some svgNs, name, attrs⟩ :: prev) (p.dom.tagId parent) rest := by
          simp [domOf, svgNs, hnm]
        have he : processNodesU L sheet pos prev parent (.element (some svgNs) name attrs kids rest) p =
            processNodesU L sheet pos (some ⟨some svgNs, name, attrs⟩ :: prev) parent rest p := by
          simp [processNodesU, elementNamed_eq, hnm, bind, Except.bind, pure, Except.pure]
        rw [hd] at hn ⊢
        rw [he]
        exact ih hn
      | some eid =>
        obtain ⟨pos', hpos⟩ : ∃ q, q = XmlPos.elem pos prev ⟨some svgNs, name, attrs⟩ := ⟨_, rfl⟩
        obtain ⟨u, e1, hbu, gu, hFu, t1, t2, t3, t4, t5, t6⟩ := parseElement_eq L sheet hb pos' eid attrs hF
        obtain ⟨v, F1, e2, hbv, hF1, f, k1, k2, k3⟩ := append_fresh hb hF hp hpp rfl hbu gu hFu
        obtain ⟨n, hn'⟩ : ∃ n, n = p.dom.nextId := ⟨_, rfl⟩
        rw [← hn'] at e1 gu hFu t1 t2 t3 t4 t5 t6 e2 k1 k2
        obtain ⟨gs, hgs⟩ : ∃ gs, gs = allAssigns L sheet pos' attrs := ⟨_, rfl⟩
        rw [← hgs] at e1 t4
        obtain ⟨ls, hls⟩ : ∃ ls, ls = p.links ++ (refsOf L eid gs).map fun r => (⟨r.attr, r.iri, r.fallback, n⟩ : PLink) := ⟨_, rfl⟩
        rw [← hls] at e1
        have gv : Grown p.dom v [n] := gu.frame f
        have hnv : v.live n = true := (gv.live n).2 (.inr (by simp))
        have hvd : v.data n = u.data n := by rw [f.data]
        have hnr : n ≠ v.rootId := by
          rw [gv.rootId]; rintro rfl
          have := hb.rootLive
          rw [hn', hb.inv.nextId_dead] at this
          simp at this
        have htn : v.tagId n = some eid := by
          simp only [St.tagId, St.tagName, hvd]
          rw [show (u.data n).tagName = .id eid from t2]
        have hk := processNodes_spec L sheet kids pos' [] n ⟨v, ls⟩ F1 hbv hF1 hnv (by rw [k2]; simp) (fun h => absurd h hnr)
        simp only at hk
        rw [htn] at hk
        obtain ⟨p1, T, l, G1, e3, h3⟩ := hk.1 fun h => absurd h hnr
        have hpn : parent ≠ n := by
          rintro rfl
          rw [hn', hb.inv.nextId_dead] at hp
          simp at hp
        have hlv : ∀ j, p.dom.live j = true → v.live j = true := fun j hj => (gv.live j).2 (.inl hj)
        have hln : ∀ j, p.dom.live j = true → j ≠ n := by
          rintro j hj rfl; rw [hn', hb.inv.nextId_dead] at hj; simp at hj
        have hone : Adds p F parent (.element eid (idFrom attrs) (attrsOf L eid gs) (refsOf L eid gs)
            (domOf L sheet pos' [] (some eid) kids) .nil) p1 (.cons n T .nil) [n] G1 := by
          refine ⟨h3.built, h3.desc, ?_, ⟨[], rfl, ?_, rfl⟩, ⟨?_, ?_, ?_, ?_, ?_, h3.is, trivial⟩, ?_, ?_, ?_⟩
          · simpa [Trees.pre] using gv.trans h3.grown
          · rw [h3.kids, k2]; exact h3.of
          · rw [h3.grown.types n hnv, St.nodeType, hvd]; exact t1
          · rw [h3.grown.tags n hnv, St.tagName, hvd]; exact t2
          · rw [h3.grown.ids n hnv, St.idOf, hvd]; exact t3
          · rw [h3.grown.attrs n hnv, St.attributes, hvd]; exact t4
          · rw [h3.grown.texts n hnv, St.text, hvd]; exact t5
          · rw [(h3.frame parent (hlv parent hp)).1 hpn, k1]
          · intro j hj
            obtain ⟨a1, a2, a3⟩ := k3 j hj
            obtain ⟨b1, b2, b3⟩ := h3.frame j (hlv j hj)
            refine ⟨fun hjp => (b1 (hln j hj)).trans (a1 hjp), b2.trans a2, fun hm => ?_⟩
            rw [b3 (by rw [k2]; simp), a3 hm]
          · rw [h3.links]
            simp only [Dom.plinks, hls, List.append_assoc, List.append_nil]
        have hd : domOf L sheet pos prev (p.dom.tagId parent) (.element (some svgNs) name attrs kids rest) =
            Dom.element eid (idFrom attrs) (attrsOf L eid gs) (refsOf L eid gs) (domOf L sheet pos' [] (some eid) kids)
              (domOf L sheet pos (some ⟨some svgNs, name, attrs⟩ :: prev) (p.dom.tagId parent) rest) := by
          subst hpos hgs
          have : (if some svgNs = some st!"http://www.w3.org/2000/svg" then elementNamed name else none) = some eid := by
            simp [svgNs, hnm]
          simp only [domOf, this]
        rw [hd] at hn ⊢
        obtain ⟨hr, hem, e, he, hne⟩ := bad_empty hg hn
        simp only [Dom.tags, List.head?_cons, Option.some.injEq] at he
        subst he
        have hbad : ¬ Good p1.dom G1 parent .nil := by
          rw [hone.good hF hp]
          intro hh
          exact hne (hh hr eid (by rw [hem]; rfl))
        refine ⟨p1, _, _, _, ?_, hone⟩
        have e3' : processNodesU L sheet pos' [] n kids ⟨v, ls⟩ = .ok (p1, true) := by
          rw [← processNodesU_seen] at e3
          cases hu : processNodesU L sheet pos' [] n kids ⟨v, ls⟩ with
          | error e => rw [hu] at e3; simp [seen] at e3
          | ok r =>
            obtain ⟨q, b⟩ := r
            rw [hu] at e3
            cases b
            · simp [seen] at e3
            · simp only [seen, Except.ok.injEq] at e3
              rw [e3]
        rw [hpos] at e1 e3'
        simp only [processNodesU, elementNamed_eq, hnm, bind, Except.bind, ne_eq, not_true_eq_false, if_false, e1, e2]
        rw [e3']
        simp only [if_true, (checkFirstU_bad hone.built hone.desc (hone.live hp)).2 hbad]
        rfl
    · have hd : domOf L sheet pos prev (p.dom.tagId parent) (.element ns name attrs kids rest) =
          domOf L sheet pos (some ⟨ns, name, attrs⟩ :: prev) (p.dom.tagId parent) rest := by
        have : ¬ ns = some st!"http://www.w3.org/2000/svg" := hns
        simp only [domOf, if_neg this]
      have he : processNodesU L sheet pos prev parent (.element ns name attrs kids rest) p =
          processNodesU L sheet pos (some ⟨ns, name, attrs⟩ :: prev) parent rest p := by
        simp [processNodesU, hns, bind, Except.bind, pure, Except.pure]
      rw [hd] at hn ⊢
      rw [he]
      exact ih hn

theorem parseSvgU_seen (L : Lib) (debug : Bool) (x : Xml) : seen (parseSvgU L debug x) = parseSvg L debug x := by
  unfold parseSvgU parseSvg
  simp only [← processNodesU_seen]
  cases processNodesU L (L.sheet (cssTexts x)) .root [] (St.init debug).rootId x ⟨St.init debug, []⟩ with
  | error e => rfl
  | ok r =>
    obtain ⟨p, b⟩ := r
    cases b with
    | false => rfl
    | true =>
      simp only [bind, Except.bind, seen, if_true]
      cases p.dom.svgElement with
      | error e => rfl
      | ok o =>
        cases o with
        | none => rfl
        | some n =>
          simp only [okOrFail]
          cases p.dom.drain p.dom.rootId fun s n => s.hasTagName n (.id .Style) with
          | error e => rfl
          | ok q =>
            simp only
            cases resolveLinks q.1 p.links with
            | error e => rfl
            | ok s =>
              simp only
              cases s.prepareText <;> rfl

/-- The document at the moment the error is returned. -/
theorem parseSvgU_fails {L : Lib} {debug : Bool} {x : Xml} {s : St} (e : parseSvgU L debug x = .ok (s, false)) :
    ∃ p T l G, p.dom = s ∧ Adds ⟨St.init debug, []⟩ Forest.isolated (St.init debug).rootId (svgDom L x).upToElement p T l G := by
  have hb : Built (St.init debug) := Built.init debug
  have hF : Describes (St.init debug) Forest.isolated := (treeInv_init debug).reps.describes
  have hr : (St.init debug).live (St.init debug).rootId = true := hb.rootLive
  have hg0 : Good (St.init debug) Forest.isolated (St.init debug).rootId .nil := by simp [Good, Forest.isolated, Dom.tags]
  have hspec := processNodes_spec L (L.sheet (styleTexts x)) x .root [] (St.init debug).rootId ⟨St.init debug, []⟩
    Forest.isolated hb hF hr (by simp [Forest.isolated]) hg0
  have hfail := processNodesU_fails L (L.sheet (styleTexts x)) x .root [] (St.init debug).rootId ⟨St.init debug, []⟩
    Forest.isolated hb hF hr (by simp [Forest.isolated]) hg0
  have htag : (St.init debug).tagId (St.init debug).rootId = none := rfl
  simp only [htag] at hspec hfail
  simp only [parseSvgU, cssTexts_eq] at e
  by_cases hg : Good (St.init debug) Forest.isolated (St.init debug).rootId (svgDom L x)
  · obtain ⟨p, T, l, G, e1, ad⟩ := hspec.1 hg
    rw [← processNodesU_seen] at e1
    cases hu : processNodesU L (L.sheet (styleTexts x)) .root [] (St.init debug).rootId x ⟨St.init debug, []⟩ with
    | error e => rw [hu] at e1; simp [seen] at e1
    | ok r =>
      obtain ⟨q, b⟩ := r
      rw [hu] at e1
      cases b
      · simp [seen] at e1
      simp only [seen, Except.ok.injEq] at e1
      subst e1
      simp only [hu, bind, Except.bind, if_true] at e
      have hroot : q.dom.rootId = (St.init debug).rootId := ad.grown.rootId
      have hl : G.kids q.dom.rootId = l := by rw [hroot, ad.kids]; rfl
      have htags : (G.kids q.dom.rootId).filterMap q.dom.tagId = (svgDom L x).tags := by rw [hl]; exact ad.is.topTags ad.of
      rcases C26_svg_element ad.built.reachable ad.desc with ⟨a, n, b, k1, k2, k3, k4⟩ | ⟨k1, k2⟩
      · simp only [k4] at e
        exfalso
        revert e
        cases q.dom.drain q.dom.rootId fun s n => s.hasTagName n (.id .Style) with
        | error e => simp
        | ok q' =>
          simp only
          cases resolveLinks q'.1 q.links with
          | error e => simp
          | ok s =>
            simp only
            cases s.prepareText <;> simp [pure, Except.pure]
      · simp only [k2, pure, Except.pure, Except.ok.injEq, Prod.mk.injEq, and_true] at e
        refine ⟨q, T, l, G, e, ?_⟩
        have hnil : (svgDom L x).tags = [] := by
          cases ht : (svgDom L x).tags with
          | nil => rfl
          | cons y r =>
            have hy : y = .Svg := hg rfl y (by simp [Forest.isolated, ht])
            have : (.Svg : ElementId) ∈ (svgDom L x).tags := by rw [ht, hy]; simp
            rw [← htags, List.mem_filterMap] at this
            obtain ⟨c, hc, hct⟩ := this
            exfalso
            refine k1 c hc ?_
            simp only [St.tagId] at hct
            split at hct
            · next e he => rw [he]; cases hct; rfl
            · simp at hct
        rw [Dom.upToElement_nil hnil]
        exact ad
  · obtain ⟨p, T, l, G, e1, ad⟩ := hfail hg
    simp only [e1, bind, Except.bind, Bool.false_eq_true, if_false, pure, Except.pure, Except.ok.injEq, Prod.mk.injEq, and_true] at e
    exact ⟨p, T, l, G, e, ad⟩

end Svgdom
