import Verif.Spec.Rounds
import Verif.Props.TextExact
import Verif.Props.Text
import Verif.Props.Parse
import Verif.Props.Targets

/-!
# Parsed documents have no blank texts outside `text`, `tspan` and `tref`
-/

set_option autoImplicit false

namespace Svgdom

/-- `Trees.NoBlank` for the expected DOM. -/
def Dom.NoBlank (tag : Option ElementId) : Dom → Prop
  | nil => True
  | element eid _ _ _ kids rest => kids.NoBlank (some eid) ∧ rest.NoBlank tag
  | text t rest => (keepsBlank tag = true ∨ isBlank t = false) ∧ rest.NoBlank tag
  | comment _ rest => rest.NoBlank tag

theorem noBlank_domOf (L : Lib) (sheet : List Rule) : ∀ (x : Xml) (pos : XmlPos) (prev : List (Option XmlElem)) (tag : Option ElementId),
    (domOf L sheet pos prev tag x).NoBlank tag
  | .nil, _, _, _ => trivial
  | .element ns name attrs kids rest, pos, prev, tag => by
    rw [domOf]
    dsimp only
    split
    · exact noBlank_domOf L sheet rest _ _ _
    · exact ⟨noBlank_domOf L sheet kids _ _ _, noBlank_domOf L sheet rest _ _ _⟩
  | .text t rest, pos, prev, tag => by
    rw [domOf]
    split
    · exact noBlank_domOf L sheet rest _ _ _
    · next h =>
      refine ⟨?_, noBlank_domOf L sheet rest _ _ _⟩
      simp only [Bool.and_eq_true, Bool.not_eq_true', not_and, Bool.not_eq_false] at h
      cases hb : isBlank t with
      | false => exact .inr rfl
      | true => exact .inl (h hb)
  | .comment _ rest, _, _, _ => noBlank_domOf L sheet rest _ _ _
  | .pi rest, _, _, _ => noBlank_domOf L sheet rest _ _ _

theorem noBlank_unstyled : ∀ {D : Dom} {tag : Option ElementId}, D.NoBlank tag → D.unstyled.NoBlank tag
  | .nil, _, _ => trivial
  | .element eid id attrs refs kids rest, _, ⟨h1, h2⟩ => by
    rw [Dom.unstyled]
    split
    · exact noBlank_unstyled h2
    · exact ⟨noBlank_unstyled h1, noBlank_unstyled h2⟩
  | .text _ _, _, ⟨h1, h2⟩ => ⟨h1, noBlank_unstyled h2⟩
  | .comment _ rest, _, h => noBlank_unstyled (D := rest) h

theorem noBlank_is {s : St} : ∀ {D : Dom} {T : Trees} {tag : Option ElementId}, D.Is s T → D.NoBlank tag → T.NoBlank s tag
  | .nil, T, _, h, _ => by
    cases T with
    | nil => trivial
    | cons _ _ _ => exact h.elim
  | .element eid _ _ _ k r, T, tag, h, hn => by
    cases T with
    | nil => exact h.elim
    | cons n K R =>
      obtain ⟨a, b, _, _, _, f, i⟩ := h
      refine ⟨fun h => by rw [a] at h; simp at h, ?_, noBlank_is i hn.2⟩
      have : s.svgTag n = some eid := by unfold St.svgTag; rw [b]
      rw [this]
      exact noBlank_is f hn.1
  | .text _ r, T, tag, h, hn => by
    cases T with
    | nil => exact h.elim
    | cons n K R =>
      obtain ⟨a, b, c, d, e, rfl, i⟩ := h
      exact ⟨fun _ => by rw [e]; exact hn.1, trivial, noBlank_is i hn.2⟩
  | .comment _ r, T, tag, h, hn => by
    cases T with
    | nil => exact h.elim
    | cons n K R =>
      obtain ⟨a, b, c, d, e, rfl, i⟩ := h
      exact ⟨fun h => by rw [a] at h; simp at h, trivial, noBlank_is i hn⟩

/-- Removing leaves, and changing texts without blanking them. -/
theorem noBlank_keep {s t : St} {g : NodeId → Bool} (h1 : ∀ j, t.nodeType j = s.nodeType j) (h2 : ∀ j, t.tagName j = s.tagName j)
    (h3 : ∀ j, isBlank (s.text j) = false → isBlank (t.text j) = false) : ∀ {T : Trees} {tag : Option ElementId}, T.NoBlank s tag →
    (T.keep g).NoBlank t tag
  | .nil, _, _ => trivial
  | .cons n K R, tag, ⟨a, b, c⟩ => by
    rw [Trees.keep]
    split
    · exact noBlank_keep h1 h2 h3 c
    · refine ⟨fun h => ?_, ?_, noBlank_keep h1 h2 h3 c⟩
      · rw [h1] at h
        exact (a h).imp id (h3 n)
      · have : t.svgTag n = s.svgTag n := by unfold St.svgTag; rw [h2]
        rw [this]
        exact noBlank_keep h1 h2 h3 b

theorem white_space {c : Char} (h : isWhite c = false) : toSpace c ≠ ' ' := by
  intro hc
  unfold toSpace at hc
  split at hc
  · next hh =>
    rcases hh with rfl | rfl | rfl <;> revert h <;> decide
  · subst hc
    revert h
    decide

theorem noBlank_ink {a b : Str} (h : ink a = ink b) (hb : isBlank b = false) : isBlank a = false := by
  unfold isBlank at hb ⊢
  rw [List.all_eq_false] at hb ⊢
  obtain ⟨c, hc, hw⟩ := hb
  have hw' : isWhite c = false := by simpa using hw
  have : c ∈ ink b := List.mem_filter.2 ⟨hc, by simpa using white_space hw'⟩
  rw [← h] at this
  exact ⟨c, (List.mem_filter.1 this).1, hw⟩

/-- Parsed documents. -/
theorem noBlank_parsed {L : Lib} {debug : Bool} {x : Xml} {t : St} (e : parseSvg L debug x = .ok t) {F : Forest} (hF : Describes t F)
    {T : Trees} (hT : T.Of F (F.kids t.rootId)) : T.NoBlank t none := by
  obtain ⟨p, T0, G, s2, s3, f, e'⟩ := (parse_front L debug x).1 (parse_ok e).1
  have e3 : s3.prepareText = .ok t := by
    rw [e] at e'
    cases h : s3.prepareText with
    | error _ => rw [h] at e'; cases e'
    | ok v => rw [h] at e'; cases e'; rfl
  obtain ⟨u, t', e2, hp⟩ := prepareText_ok f.built3 f.desc3 (K := T0.keep p.dom.styleNode) (by rw [f.root3]; exact f.of2)
    (fun j hj => front_region f hj)
  rw [e3] at e2
  cases e2
  have hr : t.rootId = s3.rootId := hp.removed.rootId.trans hp.ti.rootId
  have hrl : t.live t.rootId = true := hp.built.rootLive
  have hU : ((T0.keep p.dom.styleNode).keep u.emptyText) = T := by
    have h1 := hT.transport hF hp.desc fun c hc => (hF.wf.kids _ hrl c hc).1
    rw [(C01_forest_unique hF hp.desc hrl).1, hr] at h1
    exact hp.of.unique h1
  rw [← hU]
  have h2 := noBlank_is f.is2 (noBlank_unstyled (noBlank_domOf L (L.sheet (styleTexts x)) x .root [] none))
  have hs := f.resolves.same
  refine noBlank_keep (fun j => ?_) (fun j => ?_) (fun j => ?_) h2
  · rw [hp.removed.types, hp.ti.types, hs.types]
  · rw [hp.removed.tags, hp.ti.tags, hs.tags]
  · rw [← hs.texts]
    exact noBlank_ink (C53_ink f.built3.safe f.built3.root (TextReady.parsed f) e3 j)

/-- What was read has no blank texts to drop. -/
theorem unindent_shows {s : St} {W : ValueWriter} {q : Char} : ∀ {x : Xml} {T : Trees} {tag : Option ElementId} {keep : Bool},
    x.Shows s W q T → T.NoBlank s tag → (keepsBlank tag = true → keep = true) → x.unindent keep = x
  | .nil, _, _, _, _, _, _ => rfl
  | .element ns name attrs kids rest, .cons n K R, tag, keep, ⟨_, _, h3, _, h5, h6⟩, ⟨_, g2, g3⟩, hk => by
    rw [Xml.unindent, unindent_shows h6 g3 hk, unindent_shows h5 g2 ?_]
    intro hb
    rw [decide_eq_true_eq]
    simp only [keepsBlank, decide_eq_true_eq] at hb
    unfold St.svgTag at hb
    unfold St.IsName at h3
    cases ht : s.tagName n with
    | name y => rw [ht] at hb; simp at hb
    | id e =>
      rw [ht] at hb h3
      simp only [Option.some.injEq] at hb h3
      rcases hb with rfl | rfl | rfl
      · exact .inl (Except.ok.inj (h3.symm.trans (by decide +kernel)))
      · exact .inr (.inl (Except.ok.inj (h3.symm.trans (by decide +kernel))))
      · exact .inr (.inr (Except.ok.inj (h3.symm.trans (by decide +kernel))))
  | .text t rest, .cons n K R, tag, keep, ⟨h1, h2, _, h4⟩, ⟨g1, _, g3⟩, hk => by
    rw [Xml.unindent, unindent_shows h4 g3 hk, if_neg]
    rcases g1 h1 with h | h
    · simp [hk h]
    · rw [h2, h]; simp
  | .comment t rest, .cons n K R, tag, keep, ⟨h1, h2, _, h4⟩, ⟨_, _, g3⟩, hk => by
    rw [Xml.unindent, unindent_shows h4 g3 hk]

end Svgdom
