import Verif.Proof.ParseFinal
import Verif.Spec.Samples
import Verif.Spec.AcyclicCheck

/-!
# Text processing: C36 - C40
-/

set_option autoImplicit false

namespace Svgdom

/-! ## C38 -/

theorem squeeze_head (t : Str) : (squeeze t).head? = t.head? := by
  cases t with
  | nil => rfl
  | cons c cs =>
    simp only [squeeze]
    split
    · next h => rw [h.2, h.1]; rfl
    · rfl

theorem trimLoop_default : ∀ (t : Str) (prev : Char),
    trimLoop .default prev t =
      if prev = ' ' ∧ (t.map toSpace).head? = some ' ' then (squeeze (t.map toSpace)).tail else squeeze (t.map toSpace)
  | [], prev => by simp [trimLoop, squeeze]
  | c :: cs, prev => by
    have ih := trimLoop_default cs
    have hc : (if c = '\r' ∨ c = '\n' ∨ c = '\t' then ' ' else c) = toSpace c := rfl
    have hh := squeeze_head (cs.map toSpace)
    simp only [trimLoop, hc, List.map_cons, List.head?_cons, Option.some.injEq, true_and]
    by_cases h1 : toSpace c = ' '
    · by_cases h2 : prev = ' '
      · simp only [h1, h2, and_self, if_true]
        rw [ih]
        simp only [true_and, squeeze, hh]
        split
        · rfl
        · rfl
      · simp only [h1, Ne.symm h2, and_false, if_false, h2, false_and]
        rw [ih]
        simp only [true_and, squeeze, hh]
        split
        · next h3 =>
          cases hx : squeeze (cs.map toSpace) with
          | nil => rw [hx] at hh; rw [← hh] at h3; simp at h3
          | cons a l => rw [hx, h3] at hh; simp at hh; rw [hh]; rfl
        · rfl
    · simp only [h1, false_and, if_false, and_false]
      rw [ih]
      simp only [h1, false_and, if_false, squeeze]

/-- C38: with `xml:space="default"` CR, LF and TAB become spaces and runs of spaces become one space. -/
theorem C38_default (t : Str) : trimText t .default = squeeze (t.map toSpace) := by
  rw [trimText, trimLoop_default]
  have : ¬ ('0' : Char) = ' ' := by decide
  simp [this]

theorem trimLoop_preserve : ∀ (t : Str) (prev : Char), trimLoop .preserve prev t = t.map toSpace
  | [], _ => rfl
  | c :: cs, prev => by
    simp [trimLoop, trimLoop_preserve cs, toSpace]

/-- C38: with `xml:space="preserve"` only CR, LF and TAB are replaced, one by one. -/
theorem C38_preserve (t : Str) : trimText t .preserve = t.map toSpace := trimLoop_preserve t '0'

/-- C38: with `preserve` the length stays. -/
theorem C38_preserve_length (t : Str) : (trimText t .preserve).length = t.length := by simp [C38_preserve]

/-- C38: no CR, LF or TAB is left. -/
theorem C38_clean (t : Str) (space : XmlSpace) : Clean (trimText t space) := trimText_clean t space

theorem squeeze_noDouble : ∀ t : Str, NoDouble (squeeze t)
  | [] => by intro a b; simp [squeeze]
  | c :: cs => by
    have ih := squeeze_noDouble cs
    simp only [squeeze]
    split
    · exact ih
    · next h =>
      intro a b e
      cases a with
      | nil =>
        simp only [List.nil_append, List.cons_append, List.cons.injEq] at e
        exact h ⟨e.1, by rw [e.2]; rfl⟩
      | cons x a =>
        simp only [List.cons_append, List.cons.injEq] at e
        exact ih a b (by rw [e.2])

/-- C38: with `default` there are no two adjacent spaces. -/
theorem C38_no_double (t : Str) : NoDouble (trimText t .default) := by
  rw [C38_default]; exact squeeze_noDouble _

theorem squeeze_id : ∀ {t : Str}, NoDouble t → squeeze t = t
  | [], _ => rfl
  | c :: cs, h => by
    have ih : squeeze cs = cs := squeeze_id fun a b e => h (c :: a) b (by rw [e]; rfl)
    simp only [squeeze, ih]
    split
    · next h1 =>
      exfalso
      cases cs with
      | nil => simp at h1
      | cons d ds =>
        simp only [List.head?_cons, Option.some.injEq] at h1
        exact h [] ds (by rw [h1.1, h1.2]; rfl)
    · rfl

theorem map_toSpace_clean {t : Str} (h : Clean t) : t.map toSpace = t := by
  rw [List.map_congr_left (g := id)]
  · simp
  · intro c hc
    obtain ⟨h1, h2, h3⟩ := h c hc
    simp [toSpace, h1, h2, h3]

/-- C38: trimming twice is trimming once. -/
theorem C38_idempotent (t : Str) (space : XmlSpace) : trimText (trimText t space) space = trimText t space := by
  have hc := C38_clean t space
  cases space with
  | default => rw [C38_default (trimText t .default), map_toSpace_clean hc, squeeze_id (C38_no_double t)]
  | preserve => rw [C38_preserve (trimText t .preserve), map_toSpace_clean hc]

/-- Spaces of all kinds, at the borders and inside. -/
example : trimText st!"\n  a\t\tb  \r\nc " .default = st!" a b c " ∧ trimText st!"\n a\tb" .preserve = st!"  a b" := by decide

/-! ## Documents that can be processed -/

theorem TextReady.region {s : St} (hb : Built s) (h : TextReady s) {F : Forest} (hF : Describes s F) {K : Trees}
    (hK : K.Of F (F.kids s.rootId)) : ∀ j ∈ K.pre, Region s F j := by
  intro j hj
  have hr := hb.rootLive
  have hl : s.live j = true := pre_live hF hK (fun c hc => (hF.wf.kids _ hr c hc).1) j hj
  have hin : s.InTree j := ⟨hl, (mem_pre_kids hF hr hK hl).1 hj⟩
  refine ⟨hl, fun hk => h.kids j hin ?_, h.space j hin, h.texts j hin⟩
  rw [hF.shows.first j hl]
  cases hx : F.kids j with
  | nil => exact absurd hx hk
  | cons a l => simp

/-- All about `prepare_text`. -/
theorem prepared {s : St} (h1 : SafeReachable s) (h2 : RootSafeReachable s) (h : TextReady s) :
    ∃ F K u t, Describes s F ∧ K.Of F (F.kids s.rootId) ∧ s.prepareText = .ok t ∧ Prepared s F K u t := by
  have hb : Built s := ⟨h1, h2⟩
  obtain ⟨F, hF⟩ := C01_forest hb.reachable
  obtain ⟨K, hK, _⟩ := kids_tree hb hF hb.rootLive
  obtain ⟨u, t, e, hp⟩ := prepareText_ok hb hF hK (h.region hb hF hK)
  exact ⟨F, K, u, t, hF, hK, e, hp⟩

theorem prepared_ok {s t : St} (h1 : SafeReachable s) (h2 : RootSafeReachable s) (h : TextReady s) (e : s.prepareText = .ok t) :
    ∃ F K u, Describes s F ∧ K.Of F (F.kids s.rootId) ∧ Prepared s F K u t := by
  obtain ⟨F, K, u, t', hF, hK, e', hp⟩ := prepared h1 h2 h
  rw [e] at e'; cases e'
  exact ⟨F, K, u, hF, hK, hp⟩

theorem prepared_mem {s t u : St} (hb : Built s) {F : Forest} (hF : Describes s F) {K : Trees} (hK : K.Of F (F.kids s.rootId))
    (hp : Prepared s F K u t) (j : NodeId) : (s.InTree j ↔ j ∈ K.pre) ∧ (t.InTree j ↔ j ∈ K.pre ∧ u.emptyText j = false) := by
  have hr := hb.rootLive
  have hlive : t.live = s.live := hp.removed.live.trans hp.ti.live
  have hrt : t.rootId = s.rootId := hp.removed.rootId.trans hp.ti.rootId
  have hpl := pre_live hF hK (fun c hc => (hF.wf.kids _ hr c hc).1)
  constructor
  · constructor
    · rintro ⟨h1, h2⟩; exact (mem_pre_kids hF hr hK h1).2 h2
    · intro h1; exact ⟨hpl j h1, (mem_pre_kids hF hr hK (hpl j h1)).1 h1⟩
  · have key : ∀ hj : t.live j = true, t.Ancestor t.rootId j ↔ j ∈ K.pre ∧ u.emptyText j = false := by
      intro hj
      rw [← mem_pre_kids hp.desc hp.built.rootLive (by rw [hrt]; exact hp.of) hj, hp.pre, List.mem_filter, Bool.not_eq_true']
    constructor
    · rintro ⟨h1, h2⟩; exact (key h1).1 h2
    · intro h1
      have hl : t.live j = true := by rw [hlive]; exact hpl j h1.1
      exact ⟨hl, (key hl).2 h1⟩

theorem emptyText_iff {s : St} {j : NodeId} : s.emptyText j = true ↔ s.nodeType j = .text ∧ s.text j = [] := by
  simp [St.emptyText, St.isText]

/-- The documents given to `prepare_text` by the parser are as required. -/
theorem TextReady.parsed {L : Lib} {debug : Bool} {x : Xml} {p : PSt} {T : Trees} {G : Forest} {s2 s3 : St}
    (f : Front L debug x p T G s2 s3) : TextReady s3 := by
  have hr := f.built3.rootLive
  have hin : ∀ j, s3.InTree j → Region s3 (G.prune (T.gone p.dom.styleNode)) j := by
    rintro j ⟨h1, h2⟩
    exact front_region f ((mem_pre_kids f.desc3 hr (by rw [f.root3]; exact f.of2) h1).2 h2)
  refine ⟨fun j hj hk => (hin j hj).kids ?_, fun j hj => (hin j hj).text, fun j hj => (hin j hj).space⟩
  rw [f.desc3.shows.first j hj.1] at hk
  intro he
  rw [he] at hk
  exact hk rfl

/-! ## C36 -/

/-- C36: `prepare_text` returns. -/
theorem C36_returns {s : St} (h1 : SafeReachable s) (h2 : RootSafeReachable s) (h : TextReady s) : ∃ t, s.prepareText = .ok t := by
  obtain ⟨_, _, _, t, _, _, e, _⟩ := prepared h1 h2 h
  exact ⟨t, e⟩

/-- C36: for every XML document whose elements have been put into the DOM (`process_node`), the removal of `style` elements,
the resolution of references and `prepare_text` all return. -/
theorem C36_parser (L : Lib) (debug : Bool) (x : Xml) {p : PSt}
    (e : processNodes L (L.sheet (cssTexts x)) .root [] (St.init debug).rootId x ⟨St.init debug, []⟩ = .ok p)
    (hs : p.dom.svgElement ≠ .ok none) :
    ∃ s2 n s3 t, p.dom.drain p.dom.rootId (fun s n => s.hasTagName n (.id .Style)) = .ok (s2, n) ∧ resolveLinks s2 p.links = .ok s3 ∧
      s3.prepareText = .ok t := by
  obtain ⟨h1, h2⟩ := parse_front L debug x
  by_cases hh : (svgDom L x).tags.head? = some .Svg
  · obtain ⟨p', T, G, s2, s3, f, _⟩ := h1 hh
    have := f.proc
    rw [← cssTexts_eq, e] at this
    cases this
    obtain ⟨n, hd⟩ := f.drain
    obtain ⟨t, ht⟩ := C36_returns f.built3.safe f.built3.root (.parsed f)
    exact ⟨s2, n, s3, t, hd, f.resolve, ht⟩
  · exfalso
    have := h2 hh
    simp only [parseSvg, e, bind, Except.bind] at this
    cases hx : p.dom.svgElement with
    | error e => rw [hx] at this; simp [okOrFail] at this
    | ok o =>
      cases o with
      | none => exact hs hx
      | some n =>
        rw [hx] at this
        simp only [okOrFail] at this
        cases hd : p.dom.drain p.dom.rootId (fun s n => s.hasTagName n (.id .Style)) with
        | error e => rw [hd] at this; simp at this
        | ok r =>
          rw [hd] at this
          simp only at this
          cases hr : resolveLinks r.1 p.links with
          | error e => rw [hr] at this; simp at this
          | ok s3 =>
            rw [hr] at this
            simp only at this
            cases ht : s3.prepareText with
            | error e => rw [ht] at this; simp at this
            | ok t => rw [ht] at this; simp at this

/-! ## C37 -/

/-- C37: after `prepare_text` no text node of the document is empty. -/
theorem C37_no_empty {s t : St} (h1 : SafeReachable s) (h2 : RootSafeReachable s) (h : TextReady s) (e : s.prepareText = .ok t)
    {j : NodeId} (hj : t.InTree j) (ht : t.nodeType j = .text) : t.text j ≠ [] := by
  obtain ⟨F, K, u, hF, hK, hp⟩ := prepared_ok h1 h2 h e
  obtain ⟨_, h3⟩ := ((prepared_mem ⟨h1, h2⟩ hF hK hp j).2).1 hj
  intro he
  rw [hp.removed.texts] at he
  rw [hp.removed.types] at ht
  rw [emptyText_iff.2 ⟨ht, he⟩] at h3
  simp at h3

/-- C37: only text nodes that became empty are taken out of the tree; every node keeps its place among the others. -/
theorem C37_tree {s t : St} (h1 : SafeReachable s) (h2 : RootSafeReachable s) (h : TextReady s) (e : s.prepareText = .ok t) :
    ∃ F S, Describes s F ∧ Describes t (F.prune S) ∧ (∀ j ∈ S, s.InTree j ∧ s.nodeType j = .text ∧ t.text j = []) ∧
      (∀ j, s.InTree j → s.nodeType j ≠ .text → t.InTree j) ∧ (∀ j, t.InTree j → s.InTree j) := by
  obtain ⟨F, K, u, hF, hK, hp⟩ := prepared_ok h1 h2 h e
  have hm := prepared_mem ⟨h1, h2⟩ hF hK hp
  refine ⟨F, _, hF, hp.desc, ?_, ?_, ?_⟩
  · intro j hj
    obtain ⟨h3, h4⟩ := List.mem_filter.1 hj
    obtain ⟨h5, h6⟩ := emptyText_iff.1 h4
    refine ⟨(hm j).1.2 h3, by rw [← hp.ti.types]; exact h5, by rw [hp.removed.texts]; exact h6⟩
  · intro j hj hne
    rw [(hm j).2]
    refine ⟨(hm j).1.1 hj, ?_⟩
    rw [Bool.eq_false_iff]
    intro he
    rw [← hp.ti.types] at hne
    exact hne (emptyText_iff.1 he).1
  · intro j hj
    exact (hm j).1.2 ((hm j).2.1 hj).1

/-- C37: node type, tag, id, liveness and storage of the others: nothing else changes, except texts of text nodes. -/
theorem C37_rest {s t : St} (h1 : SafeReachable s) (h2 : RootSafeReachable s) (h : TextReady s) (e : s.prepareText = .ok t) (j : NodeId) :
    t.nodeType j = s.nodeType j ∧ t.tagName j = s.tagName j ∧ t.idOf j = s.idOf j ∧ t.live j = s.live j ∧
      (s.nodeType j ≠ .text → t.text j = s.text j) := by
  obtain ⟨F, K, u, hF, hK, hp⟩ := prepared_ok h1 h2 h e
  exact ⟨(hp.removed.types j).trans (hp.ti.types j), (hp.removed.tags j).trans (hp.ti.tags j), (hp.removed.ids j).trans (hp.ti.ids j),
    by rw [hp.removed.live, hp.ti.live], fun hj => (hp.removed.texts j).trans (hp.ti.texts j hj)⟩

/-! ## C39 -/

/-- C39, partly: all text below an element whose first child is a text node is normalised. -/
theorem C39_clean_partial {s t : St} (h1 : SafeReachable s) (h2 : RootSafeReachable s) (h : TextReady s) (e : s.prepareText = .ok t)
    {a j : NodeId} (ha : s.InTree a) (hs : StartsWithText s a) (hj : s.live j = true) (haj : s.Ancestor a j)
    (ht : s.nodeType j = .text) : Clean (t.text j) := by
  obtain ⟨F, K, u, hF, hK, hp⟩ := prepared_ok h1 h2 h e
  rw [hp.removed.texts]
  exact hp.done.clean a ((prepared_mem ⟨h1, h2⟩ hF hK hp a).1.1 ha) hs j hj haj ht

/-- C39, the rest: all other texts are left as they are, whatever they contain. -/
theorem C39_untouched_partial {s t : St} (h1 : SafeReachable s) (h2 : RootSafeReachable s) (h : TextReady s) (e : s.prepareText = .ok t)
    {j : NodeId} (hno : ∀ a, s.InTree a → StartsWithText s a → ¬ s.Ancestor a j) : t.text j = s.text j := by
  obtain ⟨F, K, u, hF, hK, hp⟩ := prepared_ok h1 h2 h e
  have hm := prepared_mem ⟨h1, h2⟩ hF hK hp
  rw [hp.removed.texts]
  by_cases hj : j ∈ K.pre
  · exact hp.done.keep j hj fun a ha => hno a ((hm a).1.2 ha)
  · exact hp.done.effect j hj

/-- `<svg><text><tspan>a</tspan>⏎b</text></svg>`: the text after the `tspan` keeps its line feed. -/
def untrimmedXml : Xml := xe st!"svg" [] (xe st!"text" [] (xe st!"tspan" [] (.text st!"a" .nil) (.text st!"\nb" .nil)) .nil) .nil

/-- C39 does not hold for all texts. -/
theorem C39_refuted : ∃ x t, parseSvg sampleLib true x = .ok t ∧ ∃ j, t.InTree j ∧ t.nodeType j = .text ∧ ¬ Clean (t.text j) := by
  obtain ⟨t, e, hp⟩ := exists_of_parsed (x := untrimmedXml) (p := fun t => t.live 5 && decide (t.parent 5 = some 2) &&
    decide (t.parent 2 = some 1) && decide (t.parent 1 = some t.rootId) && decide (t.nodeType 5 = .text) &&
    decide (¬ Clean (t.text 5))) (by decide +kernel)
  simp only [Bool.and_eq_true, decide_eq_true_eq] at hp
  obtain ⟨⟨⟨⟨⟨p1, p2⟩, p3⟩, p4⟩, p5⟩, p6⟩ := hp
  exact ⟨_, t, e, 5, ⟨p1, .head (b := 2) p2 (.head (b := 1) p3 (.single p4))⟩, p5, p6⟩

/-! ## C40 -/

/-- C40: the attribute lists of all nodes are as before. -/
theorem C40_attributes {s t : St} (h1 : SafeReachable s) (h2 : RootSafeReachable s) (h : TextReady s) (e : s.prepareText = .ok t)
    {j : NodeId} (hj : s.live j = true) : t.attributes j = s.attributes j := by
  obtain ⟨F, K, u, hF, hK, hp⟩ := prepared_ok h1 h2 h e
  exact hp.attrs j hj

/-! ## The hypotheses can be met -/

/-- A text with line feeds, a nested element with its own `xml:space`, an element with only spaces, a reference. -/
def textXml : Xml := xe st!"svg" [] (xe st!"text" [xa st!"id" st!"t"]
    (.text st!"\n a\t" (xe st!"tspan" [⟨some xmlNs, st!"space", st!"preserve"⟩] (.text st!" b\n" .nil)
      (xe st!"tspan" [] (.text st!"  " .nil) .nil)))
    (xe st!"use" [⟨some xlinkNs, st!"href", st!"#t"⟩] .nil .nil)) .nil

/-- The state before text processing. -/
def beforeText (x : Xml) : Except ParseErr St := do
  let init := St.init true
  let p ← processNodes sampleLib (sampleLib.sheet (cssTexts x)) .root [] init.rootId x ⟨init, []⟩
  let (s, _) ← okOrFail (p.dom.drain p.dom.rootId fun s n => s.hasTagName n (.id .Style))
  okOrFail (resolveLinks s p.links)

theorem beforeText_ready {x : Xml} (hh : (svgDom sampleLib x).tags.head? = some .Svg) :
    ∃ s, beforeText x = .ok s ∧ SafeReachable s ∧ RootSafeReachable s ∧ TextReady s := by
  obtain ⟨p, T, G, s2, s3, f, _⟩ := (parse_front sampleLib true x).1 hh
  obtain ⟨n, hd⟩ := f.drain
  refine ⟨s3, ?_, f.built3.safe, f.built3.root, .parsed f⟩
  simp only [beforeText, cssTexts_eq, f.proc, bind, Except.bind, hd, okOrFail, f.resolve]

def beforeHolds (x : Xml) (p : St → Bool) : Bool :=
  match beforeText x with
  | .ok s => p s
  | .error _ => false

/-- C36-C40: a document that is ready, with texts to be changed, two texts below an element that starts with text, an `xml:space`
attribute that stays, a text that goes away. -/
example : ∃ s t, SafeReachable s ∧ RootSafeReachable s ∧ TextReady s ∧ s.prepareText = .ok t ∧
    s.InTree 2 ∧ StartsWithText s 2 ∧ s.live 5 = true ∧ s.Ancestor 2 5 ∧ s.nodeType 5 = .text ∧ ¬ Clean (s.text 5) ∧
    t.text 3 = st!"a " ∧ t.text 5 = st!" b" ∧ s.InTree 7 ∧ s.nodeType 7 = .text ∧ t.text 7 = [] ∧
    t.attributes 4 = [⟨.id .Space, .string st!"preserve"⟩] ∧ t.attributes 6 = [] := by
  obtain ⟨s, e, h1, h2, h3⟩ := beforeText_ready (x := textXml) (by decide +kernel)
  obtain ⟨t, et⟩ := C36_returns h1 h2 h3
  have hs : beforeHolds textXml (fun s => s.live 2 && decide (s.parent 2 = some 1) && decide (s.parent 1 = some s.rootId) &&
      decide (s.firstChild 2 = some 3) && decide (s.nodeType 3 = .text) && s.live 5 && decide (s.parent 5 = some 4) &&
      decide (s.parent 4 = some 2) && decide (s.nodeType 5 = .text) && decide (¬ Clean (s.text 5)) && s.live 7 &&
      decide (s.parent 7 = some 6) && decide (s.parent 6 = some 2) && decide (s.nodeType 7 = .text) &&
      (match s.prepareText with
        | .ok t => decide (t.text 3 = st!"a ") && decide (t.text 5 = st!" b") && decide (t.text 7 = []) &&
          decide (t.attributes 4 = [⟨.id .Space, .string st!"preserve"⟩]) && decide (t.attributes 6 = [])
        | .error _ => false)) = true := by decide +kernel
  simp only [beforeHolds, e, et, Bool.and_eq_true, decide_eq_true_eq] at hs
  obtain ⟨⟨⟨⟨⟨⟨⟨⟨⟨⟨⟨⟨⟨⟨p1, p2⟩, p3⟩, p4⟩, p5⟩, p6⟩, p7⟩, p8⟩, p9⟩, p10⟩, p11⟩, p12⟩, p13⟩, p14⟩, ⟨⟨⟨p15, p16⟩, p17⟩, p18⟩, p19⟩ := hs
  exact ⟨s, t, h1, h2, h3, et, ⟨p1, .head (b := 1) p2 (.single p3)⟩, ⟨3, p4, p5⟩, p6, .head (b := 4) p7 (.single p8), p9, p10, p15, p16,
    ⟨p11, .head (b := 6) p12 (.head (b := 2) p13 (.head (b := 1) p2 (.single p3)))⟩, p14, p17, p18, p19⟩

end Svgdom
