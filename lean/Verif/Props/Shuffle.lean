import Verif.Proof.Shuffle
import Verif.Props.Users
import Verif.Props.Noise

/-!
# C99: the order of the attributes in the file
-/

set_option autoImplicit false

namespace Svgdom

theorem SameByName.of_perm {as bs : List XmlAttr} (h : as.Perm bs) (hn : (as.map XmlAttr.name).Nodup) : SameByName as bs := by
  intro n
  have hp := h.filter fun a => decide (a.name = n)
  have hl : ∀ {l : List XmlAttr}, (l.map XmlAttr.name).Nodup → (l.filter fun a => decide (a.name = n)).length ≤ 1 := by
    intro l
    induction l with
    | nil => simp
    | cons b l ih =>
      intro hn
      rw [List.map_cons, List.nodup_cons] at hn
      rw [List.filter_cons]
      split
      · next hb =>
        have hb : b.name = n := by simpa using hb
        have : (l.filter fun a => decide (a.name = n)) = [] := by
          rw [List.filter_eq_nil_iff]
          intro c hc hcn
          exact hn.1 (List.mem_map.2 ⟨c, hc, by rw [hb]; simpa using hcn⟩)
        simp [this]
      · exact ih hn.2
  have := hl hn
  cases hf : as.filter fun a => decide (a.name = n) with
  | nil => rw [hf] at hp; rw [List.nil_perm.1 hp]
  | cons c k =>
    rw [hf] at this hp
    have hk : k = [] := by
      cases k with
      | nil => rfl
      | cons => simp at this
    subst hk
    rw [List.singleton_perm.1 hp]

/-- C99: if no element has two attributes with the same local name, any order is allowed. -/
theorem C99_permuted {x y : Xml} (h : x.Permuted y) (hx : x.OneNamespace) : x.Shuffled y := by
  unfold Xml.OneNamespace at hx
  induction h with
  | nil => exact .nil
  | element ns name hp _ _ ih1 ih2 =>
    simp only [Xml.elements, List.mem_cons, List.mem_append] at hx
    exact .element ns name (.of_perm hp (hx _ (.inl rfl))) (ih1 fun e he => hx e (.inr (.inl he))) (ih2 fun e he => hx e (.inr (.inr he)))
  | text t _ ih => exact .text t (ih hx)
  | comment t _ ih => exact .comment t (ih hx)
  | pi _ ih => exact .pi (ih hx)

/-- C99, what holds: the document that parsing gives is the same, up to the order of attributes, whatever the order of attributes with
different local names. -/
theorem C99_partial {L : Lib} {x y : Xml} (h : x.Shuffled y) (ha : ∀ r ∈ L.sheet (styleTexts x), r.Asks) :
    (parsedDoc L x).Alike (parsedDoc L y) := alike_doc (shuffled_svgDom L h ha)

/-- C99: whether parsing succeeds does not depend on the order at all. -/
theorem C99_parses (L : Lib) (debug : Bool) {x y : Xml} (h : x.Permuted y) :
    (∃ t, parseSvg L debug x = .ok t) ↔ ∃ t, parseSvg L debug y = .ok t := by
  rw [C31_svg, C31_svg]
  have : x.topSvg = y.topSvg := by
    induction h with
    | nil => rfl
    | element ns name ha hk hr ihk ihr => simp only [Xml.topSvg, ihr]
    | text t h ih => exact ih
    | comment t h ih => exact ih
    | pi h ih => exact ih
  rw [this]

/-- C99: nothing that can be asked about the parsed document depends on the order, except the order of the attributes of a node. -/
theorem C99_observe {L : Lib} {debug debug' : Bool} {x y : Xml} {s t : St} (e : parseSvg L debug x = .ok s)
    (e' : parseSvg L debug' y = .ok t) (h : x.Shuffled y) (ha : ∀ r ∈ L.sheet (styleTexts x), r.Asks) :
    s.live = t.live ∧ ∀ i, s.live i = true → (s.look i).Alike (t.look i) ∧ s.isDetached i = t.isDetached i ∧ s.parent i = t.parent i ∧
      s.firstChild i = t.firstChild i ∧ s.lastChild i = t.lastChild i ∧ s.nextSibling i = t.nextSibling i ∧
      s.prevSibling i = t.prevSibling i ∧ s.childList i = t.childList i ∧ s.descendantList i = t.descendantList i ∧
      s.root i = t.root i ∧ s.linkedNodes i = t.linkedNodes i := by
  have hd := shuffled_svgDom L h ha
  have hP := C95_machine e
  have hQ := C95_machine e'
  have hX := C96_parsed e
  have hY := C96_parsed e'
  have htr : (parsedDoc L x).trees = (parsedDoc L y).trees := (alike_doc hd).trees
  have hto : ∀ {d d' : Content}, d.Alike d' → d.tops = d'.tops := by
    intro d d' h
    induction h with
    | nil => rfl
    | node n _ _ _ _ ih => simp only [Content.tops, ih]
  have hk : ∀ {d d' : Content}, d.Alike d' → ∀ j, d.kidsOf j = d'.kidsOf j := by
    intro d d' h j
    induction h with
    | nil => rfl
    | node n _ hK _ ih1 ih2 => simp only [Content.kidsOf, hto hK, ih1, ih2]
  have hpar : ∀ {d d' : Content}, d.Alike d' → ∀ p j, d.parOf p j = d'.parOf p j := by
    intro d d' h
    induction h with
    | nil => intros; rfl
    | node n _ _ _ ih1 ih2 => intro p j; simp only [Content.parOf, ih1, ih2]
  have hf : (parsedPicture L debug' y).forest = (parsedPicture L debug x).forest := by
    simp only [parsedPicture, Content.forest, hto (alike_doc hd), hk (alike_doc hd), hpar (alike_doc hd)]
  have hst : (parsedPicture L debug' y).stored = (parsedPicture L debug x).stored := by
    funext j
    have key : ∀ d : Content, (d.nodes.any fun p => decide (p.1 = j)) = d.trees.pre.any fun i => decide (i = j) := by
      intro d; rw [← Content.nodes_fst, List.any_map]; rfl
    simp only [parsedPicture, key, htr]
  have hlive : (parsedPicture L debug' y).live = (parsedPicture L debug x).live := by
    simp only [parsedPicture, hd.size]
  have hl : s.live = t.live := by rw [← hP.live, ← hQ.live, hlive]
  have hsub : ∀ i, (parsedPicture L debug' y).subtree i = (parsedPicture L debug x).subtree i := by
    intro i
    have hn : (parsedPicture L debug' y).next = (parsedPicture L debug x).next := by simp only [parsedPicture, hd.size]
    simp only [Picture.subtree, hf, hn]
  have hU : parsedExtras L y = parsedExtras L x := by simp only [parsedExtras, alike_users hd]
  rw [hU] at hY
  have r1 := C44_reachable e
  have r2 := C44_reachable e'
  refine ⟨hl, fun i hi => ?_⟩
  have hi' : t.live i = true := by rw [← hl]; exact hi
  obtain ⟨a1, a2, a3, a4, a5, a6, a7, a8, a9, a10, a11, a12, a13, _⟩ := C93_observe r1.1.reachable (C44_tree e).2 hP hi
  obtain ⟨b1, b2, b3, b4, b5, b6, b7, b8, b9, b10, b11, b12, b13, _⟩ := C93_observe r2.1.reachable (C44_tree e').2 hQ hi'
  obtain ⟨c1, c2, _⟩ := C96_observe hP hX hi
  obtain ⟨d1, d2, _⟩ := C96_observe hQ hY hi'
  have hr : (parsedPicture L debug' y).rootOf (parsedExtras L x) i = (parsedPicture L debug x).rootOf (parsedExtras L x) i := by
    simp only [Picture.rootOf, hlive]
  rw [hf] at b7 b8 b9 b10 b11 b12
  rw [hsub] at b13
  rw [hst] at b6
  rw [hr] at d1
  refine ⟨?_, by rw [a6, b6], by rw [a7, b7], by rw [a8, b8], by rw [a9, b9], by rw [a10, b10], by rw [a11, b11], by rw [a12, b12],
    by rw [a13, b13], by rw [c1, d1], by rw [c2, d2]⟩
  rw [← hP.look i hi, ← hQ.look i hi']
  exact alike_look hd i

theorem attrsGetValue_perm {l m : List Attribute} (h : l.Perm m) (hn : (l.map (·.name)).Nodup) (a : AName) :
    attrsGetValue l a = attrsGetValue m a := by
  unfold attrsGetValue attrsGet
  rw [perm_find h hn]

theorem same_alike {s t : St} {R : NodeId → NodeId → Prop} {d e : Content} (h : d.Alike e) : d.Looks s → e.Looks t →
    (∀ n ∈ d.trees.pre, ((s.attributes n).map (·.name)).Nodup) →
    (∀ n ∈ d.trees.pre, ∀ a ∈ s.attributes n, ∀ m, a.value.refersTo m = true → R m m) → d.trees.Same s t R e.trees := by
  induction h with
  | nil => intros; trivial
  | @node n l m K K' R1 R2 hl _ _ ih1 ih2 =>
    intro h1 h2 hn h3
    obtain ⟨a1, a2, a3⟩ := Content.looks_node.1 h1
    obtain ⟨b1, b2, b3⟩ := Content.looks_node.1 h2
    rw [← a1, ← b1] at hl
    refine ⟨⟨hl.type, fun _ => hl.tag, fun _ => hl.id, fun _ a => ?_, fun _ => hl.text⟩,
      ih1 a2 b2 (fun m hm => hn m (by simp [Content.trees, Trees.pre, hm])) fun m hm => h3 m (by simp [Content.trees, Trees.pre, hm]),
      ih2 a3 b3 (fun m hm => hn m (by simp [Content.trees, Trees.pre, hm])) fun m hm => h3 m (by simp [Content.trees, Trees.pre, hm])⟩
    have hg := attrsGetValue_perm hl.attrs (hn n (by simp [Content.trees, Trees.pre])) a
    change attrsGetValue (s.attributes n) a = attrsGetValue (t.attributes n) a at hg
    rw [← hg]
    have h3n := h3 n (by simp [Content.trees, Trees.pre])
    unfold attrsGetValue
    cases hg : attrsGet (s.attributes n) a with
    | none => exact .none
    | some b =>
      refine .some ?_
      have hb := h3n b (attrsGet_some hg).1
      show SameValue R b.value b.value
      generalize b.value = v at hb ⊢
      cases v with
      | link m => exact .link (hb m (by simp [AttributeValue.refersTo]))
      | funcLink m => exact .funcLink (hb m (by simp [AttributeValue.refersTo]))
      | paint m fb => exact .paint fb (hb m (by simp [AttributeValue.refersTo]))
      | _ => exact .plain rfl

/-- C99: what is written does not depend on the order in the file. -/
theorem C99_written {L : Lib} {debug debug' : Bool} {x y : Xml} {s t : St} (e : parseSvg L debug x = .ok s)
    (e' : parseSvg L debug' y = .ok t) (h : x.Shuffled y) (ha : ∀ r ∈ L.sheet (styleTexts x), r.Asks) (W : ValueWriter) :
    s.writeDom W = t.writeDom W := by
  have hd := shuffled_svgDom L h ha
  obtain ⟨_, F, hF, hT, h1⟩ := C95_parse e
  obtain ⟨_, G, hG, hU, h2⟩ := C95_parse e'
  have hR := (C44_reachable e).1.reachable
  have hr : s.live s.rootId = true := by obtain ⟨_, hti⟩ := hR.inv.tree; exact hti.root
  have hl : ∀ i ∈ F.kids s.rootId, s.live i = true := fun i hi => (hF.wf.kids _ hr i hi).1
  have hlive := pre_live hF hT hl
  refine C92_same hR (C44_tree e).2 (C44_reachable e').1.reachable (C44_tree e').2 hF hG hT hU
    ?_ (plain_parsed e hF hT) (plain_parsed e' hG hU) ?_ ?_ W
  · unfold SameDoc
    rw [← (alike_doc hd).trees]
    have := same_alike (s := s) (t := t) (R := fun i j => (i, j) ∈ (parsedDoc L x).trees.pre.zip (parsedDoc L x).trees.pre)
      (alike_doc hd) h1 h2 ?_ ?_
    · rw [← (alike_doc hd).trees] at this
      exact this
    · intro n hn
      have := (C95_machine e).look n (hlive n hn)
      have hp := parsedAttrs_single hd n
      rw [show s.attributes n = parsedAttrs L x n from (congrArg Look.attrs this).symm]
      exact hp
    · intro n hn a ha m hm
      obtain ⟨hf, _⟩ := C63_first e hF hT hn ⟨a, ha, hm⟩
      exact zip_self (List.mem_of_find?_eq_some hf)
  · intro n hn a ha
    obtain ⟨_, i, _, h, _⟩ := C57_types e ⟨hlive n hn, (mem_pre_kids hF hr hT (hlive n hn)).1 hn⟩ ha
    exact ⟨i, h⟩
  · intro n hn a ha m hm
    exact (C63_first e hF hT hn ⟨a, ha, hm⟩).2.2.2

/-! ### Attributes of other vocabularies -/

theorem Xml.Permuted.onlyKnown {x y : Xml} (h : x.Permuted y) : x.onlyKnown.Permuted y.onlyKnown := by
  induction h with
  | nil => exact .nil
  | element ns name hp _ _ ih1 ih2 => exact .element ns name (hp.filter _) ih1 ih2
  | text t _ ih => exact .text t ih
  | comment t _ ih => exact .comment t ih
  | pi _ ih => exact .pi ih

theorem onlyKnown_sheets (x : Xml) : styleTexts x.onlyKnown = styleTexts x := by
  rw [← cssTexts_eq, ← cssTexts_eq, onlyKnown_css]

theorem Xml.Permuted.sheets {x y : Xml} (h : x.Permuted y) (hx : x.onlyKnown.OneNamespace) : styleTexts y = styleTexts x := by
  rw [← onlyKnown_sheets x, ← onlyKnown_sheets y]
  rw [← cssTexts_eq, ← cssTexts_eq]
  exact (shuffled_css (C99_permuted h.onlyKnown hx)).symm

/-- C99: any order is allowed if no element has two attributes with the same local name in the namespaces that the parser looks at. Nothing
that can be asked about the parsed document depends on it, except the order of the attributes of a node, and what is written is the same. -/
theorem C99_used_partial {L : Lib} {debug debug' : Bool} {x y : Xml} {s t : St} (e : parseSvg L debug x = .ok s)
    (e' : parseSvg L debug' y = .ok t) (h : x.Permuted y) (hx : x.onlyKnown.OneNamespace) (ha : ∀ r ∈ L.sheet (styleTexts x), r.Asks) :
    (parsedDoc L x).Alike (parsedDoc L y) ∧ (∀ W : ValueWriter, s.writeDom W = t.writeDom W) ∧
    s.live = t.live ∧ ∀ i, s.live i = true → (s.look i).Alike (t.look i) ∧ s.isDetached i = t.isDetached i ∧ s.parent i = t.parent i ∧
      s.firstChild i = t.firstChild i ∧ s.lastChild i = t.lastChild i ∧ s.nextSibling i = t.nextSibling i ∧
      s.prevSibling i = t.prevSibling i ∧ s.childList i = t.childList i ∧ s.descendantList i = t.descendantList i ∧
      s.root i = t.root i ∧ s.linkedNodes i = t.linkedNodes i := by
  have hs := C99_permuted h.onlyKnown hx
  have ha' : ∀ r ∈ L.sheet (styleTexts x.onlyKnown), r.Asks := by rw [onlyKnown_sheets]; exact ha
  have hy : ∀ r ∈ L.sheet (styleTexts y), r.Asks := by rw [h.sheets hx]; exact ha
  have key : ∀ z : Xml, (∀ r ∈ L.sheet (styleTexts z), r.Asks) → svgDom L z = svgDom L z.onlyKnown := by
    intro z hz
    rw [svgDom, svgDom, onlyKnown_sheets]
    exact less_dom L hz (less_onlyKnown z none) [] [] .root
  have kx := key x ha
  have ky := key y hy
  rw [C90_attributes L debug x ha] at e
  rw [C90_attributes L debug' y hy] at e'
  refine ⟨?_, fun W => C99_written e e' hs ha' W, C99_observe e e' hs ha'⟩
  have := C99_partial hs ha'
  simp only [parsedDoc, keptNodes, parsedLook, parsedTexts, parsedAttrs, allNodes, ← kx, ← ky] at this
  exact this

/-- Hypotheses of `C99_used_partial`: two attributes with the same local name, one of them in another vocabulary, exchanged. -/
example : ∃ x y : Xml, ∃ s t, x.Permuted y ∧ x ≠ y ∧ x.onlyKnown.OneNamespace ∧ ¬ x.OneNamespace ∧ ¬ x.Shuffled y ∧
    (∀ r ∈ sampleLib.sheet (styleTexts x), r.Asks) ∧ parseSvg sampleLib true x = .ok s ∧ parseSvg sampleLib false y = .ok t := by
  obtain ⟨s, hs⟩ := (C31_svg sampleLib true (xe st!"svg" [xa st!"x" st!"5", ⟨some st!"urn:a", st!"x", st!"6"⟩] .nil .nil)).2 (by decide +kernel)
  obtain ⟨t, ht⟩ := (C31_svg sampleLib false (xe st!"svg" [⟨some st!"urn:a", st!"x", st!"6"⟩, xa st!"x" st!"5"] .nil .nil)).2 (by decide +kernel)
  refine ⟨_, _, s, t, .element _ _ (.swap _ _ _) .nil .nil, by decide +kernel, ?_, ?_, ?_, sampleLib_asks _, hs, ht⟩
  · intro e he
    simp only [xe, Xml.onlyKnown, Xml.elements, List.append_nil, List.mem_singleton] at he
    subst he
    decide +kernel
  · intro h
    exact absurd (h _ (List.mem_cons_self ..)) (by decide +kernel)
  · intro h
    cases h with
    | element _ _ h _ _ => exact absurd (h st!"x") (by decide +kernel)

/-- A reference given twice: with and without the XLink namespace. -/
def doubleHrefXml (swap : Bool) : Xml :=
  let a : XmlAttr := xa st!"href" st!"#a"
  let b : XmlAttr := ⟨some xlinkNs, st!"href", st!"#b"⟩
  xe st!"svg" [] (xe st!"linearGradient" [xa st!"id" st!"a"] .nil <| xe st!"linearGradient" [xa st!"id" st!"b"] .nil <|
    xe st!"linearGradient" (if swap then [b, a] else [a, b]) .nil .nil) .nil

/-- C99 is false: `href` and `xlink:href` are the same attribute for the parser, and the later one wins. -/
theorem C99_refuted : ∃ (L : Lib) (x y : Xml) (s t : St), x.Permuted y ∧ (∀ l, ∀ r ∈ L.sheet l, r.Asks) ∧
    parseSvg L true x = .ok s ∧ parseSvg L true y = .ok t ∧ ∃ n a b, s.InTree n ∧ t.InTree n ∧
    attrsGetValue (s.attributes n) (.id .Href) = some (.link a) ∧ attrsGetValue (t.attributes n) (.id .Href) = some (.link b) ∧
    s.idOf a ≠ t.idOf b := by
  obtain ⟨s, hs, h⟩ := exists_of_parsed (x := doubleHrefXml false)
    (p := fun s => s.live 4 && decide (s.parent 4 = some 1 ∧ s.parent 1 = some s.rootId ∧
      attrsGetValue (s.attributes 4) (.id .Href) = some (.link 3) ∧ s.idOf 3 = st!"b")) (by decide +kernel)
  obtain ⟨t, ht, h'⟩ := exists_of_parsed (x := doubleHrefXml true)
    (p := fun s => s.live 4 && decide (s.parent 4 = some 1 ∧ s.parent 1 = some s.rootId ∧
      attrsGetValue (s.attributes 4) (.id .Href) = some (.link 2) ∧ s.idOf 2 = st!"a")) (by decide +kernel)
  simp only [Bool.and_eq_true, decide_eq_true_eq] at h h'
  obtain ⟨a1, a2, a3, a4, a5⟩ := h
  obtain ⟨b1, b2, b3, b4, b5⟩ := h'
  refine ⟨sampleLib, _, _, s, t, ?_, sampleLib_asks, hs, ht, 4, 3, 2, ⟨a1, .head a2 (.single a3)⟩, ⟨b1, .head b2 (.single b3)⟩, a4, b4,
    by rw [a5, b5]; decide⟩
  exact .element _ _ .nil (.element _ _ (.refl _) .nil (.element _ _ (.refl _) .nil (.element _ _ (.swap _ _ _) .nil .nil))) .nil

/-- Two orders of the attributes of one document: with a style sheet, references, `xml:space`, and one attribute in two namespaces. -/
def orderXml (swap : Bool) : Xml :=
  let f (l m : List XmlAttr) : List XmlAttr := if swap then m ++ l else l ++ m
  xe st!"svg" []
    (xe st!"style" [] (.text st!"rect{fill:green}" .nil) <|
     xe st!"linearGradient" (f [xa st!"id" st!"a"] [xa st!"href" st!"#r", ⟨some xlinkNs, st!"href", st!"#gone"⟩]) .nil <|
     xe st!"rect" (f [xa st!"id" st!"r", xa st!"opacity" st!"5"] [xa st!"style" st!"stroke:url(#a)", xa st!"filter" st!"url(#a)"]) .nil <|
     xe st!"text" (f [⟨some xmlNs, st!"space", st!"preserve"⟩, xa st!"mask" st!"url(#a)"] [xa st!"clip-path" st!"url(#gone)"]) (.text st!" a " .nil) .nil) .nil

theorem orderXml_shuffled : (orderXml false).Shuffled (orderXml true) := by
  have key : ∀ l m : List XmlAttr, (∀ a ∈ l, ∀ b ∈ m, a.name ≠ b.name) → SameByName (l ++ m) (m ++ l) := by
    intro l m h n
    rw [List.filter_append, List.filter_append]
    by_cases hl : (l.filter fun a => decide (a.name = n)) = []
    · rw [hl]; simp
    · have : (m.filter fun a => decide (a.name = n)) = [] := by
        rw [List.filter_eq_nil_iff]
        intro b hb hbn
        obtain ⟨a, ha⟩ := List.exists_mem_of_ne_nil _ hl
        obtain ⟨ha, han⟩ := List.mem_filter.1 ha
        refine h a ha b hb ?_
        simp only [decide_eq_true_eq] at han hbn
        rw [han, hbn]
      rw [this]; simp
  refine .element _ _ (fun _ => rfl) (.element _ _ (fun _ => rfl) (.text _ .nil) (.element _ _ (key _ _ ?_) .nil (.element _ _ (key _ _ ?_) .nil
    (.element _ _ (key _ _ ?_) (.text _ .nil) .nil)))) .nil
  all_goals decide +kernel

/-- Hypotheses of `C99_partial`, `C99_observe` and `C99_written`. The attributes are in fact in a different order, and some of them
refer to nodes. -/
example : (orderXml false).Shuffled (orderXml true) ∧ orderXml false ≠ orderXml true ∧
    (∀ r ∈ sampleLib.sheet (styleTexts (orderXml false)), r.Asks) ∧ (sampleLib.sheet (styleTexts (orderXml false))).length = 1 ∧
    (∃ s, parseSvg sampleLib true (orderXml false) = .ok s) ∧ (∃ t, parseSvg sampleLib false (orderXml true) = .ok t) ∧
    parsedAttrs sampleLib (orderXml false) 5 = [⟨.id .Opacity, .number (.fin 1)⟩, ⟨.id .Fill, .color ⟨0, 128, 0⟩⟩, ⟨.id .Filter, .funcLink 4⟩, ⟨.id .Stroke, .paint 4 none⟩] ∧
    parsedAttrs sampleLib (orderXml false) 6 ≠ parsedAttrs sampleLib (orderXml true) 6 := by
  refine ⟨orderXml_shuffled, by decide +kernel, sampleLib_asks _, by decide +kernel, (C31_svg _ _ _).2 (by decide +kernel),
    (C31_svg _ _ _).2 (by decide +kernel), by decide +kernel, by decide +kernel⟩

/-- Hypotheses of `C99_permuted`: more than one attribute, and another order. -/
example : ∃ x y : Xml, x.Permuted y ∧ x ≠ y ∧ x.OneNamespace :=
  ⟨xe st!"svg" [xa st!"x" st!"5", xa st!"y" st!"5"] .nil .nil, xe st!"svg" [xa st!"y" st!"5", xa st!"x" st!"5"] .nil .nil,
    .element _ _ (.swap _ _ _) .nil .nil, by decide +kernel, by
      intro e he
      simp only [xe, Xml.elements, List.append_nil, List.mem_singleton] at he
      subst he
      decide +kernel⟩

end Svgdom
