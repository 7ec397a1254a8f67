import Verif.Props.Parse
import Verif.Props.Read
import Verif.Props.Values

/-!
# C63: targets of references in parsed documents; C62 for parsed documents
-/

set_option autoImplicit false

namespace Svgdom

/-- A reference in the result of resolution was there before or leads to the first node with the id. -/
theorem ResolvesAll.target {order : List NodeId} {s t : St} {ls : List PLink} (h : ResolvesAll order s ls t) {j n : NodeId}
    {b : Attribute} (hb : b ∈ t.attributes j) (hn : b.value.refersTo n = true) :
    b ∈ s.attributes j ∨ (order.find? (fun i => decide (s.idOf i = s.idOf n)) = some n ∧ s.idOf n ≠ [] ∧ s.idOf j ≠ s.idOf n) := by
  induction h with
  | nil s => exact .inl hb
  | @cons s t u l ls h1 h2 ih =>
    have hids : ∀ i, t.idOf i = s.idOf i := h1.same.ids
    rcases ih hb with hm | ⟨a1, a2, a3⟩
    · cases h1 with
      | @found _ m hf hr hset =>
        rcases attrSet_mem hset hm with hm | ⟨rfl, rfl⟩
        · exact .inl hm
        · cases refers_unique hn (found_refers _ _ _)
          have hiri : s.idOf n = l.iri := by simpa using List.find?_some hf
          have h0 : s.idOf n ≠ [] := fun h0 => hr _ (.noId h0)
          exact .inr ⟨by rw [hiri]; exact hf, h0, fun hc => hr _ (.sameId h0 hc)⟩
      | refused _ _ => exact .inl hm
      | missing _ hset =>
        rcases attrSet_mem hset hm with hm | ⟨rfl, rfl⟩
        · exact .inl hm
        · have := missingValue_plain l.attr l.iri l.fallback
          have h2 := plain_iff.2 this
          rw [refers_not_plain hn] at h2
          simp at h2
    · simp only [hids] at a1 a2 a3
      exact .inr ⟨a1, a2, a3⟩

theorem Trees.Of.transport {t : St} {F G : Forest} (hF : Describes t F) (hG : Describes t G) : ∀ {T : Trees} {l : List NodeId},
    T.Of F l → (∀ c ∈ l, t.live c = true) → T.Of G l
  | .nil, _, h, _ => h
  | .cons n K R, l, ⟨l', h1, h2, h3⟩, hl => by
    subst h1
    have hn := hl n (by simp)
    refine ⟨l', rfl, ?_, h3.transport hF hG fun c hc => hl c (by simp [hc])⟩
    rw [← (C01_forest_unique hF hG hn).1]
    exact h2.transport hF hG fun c hc => (hF.wf.kids n hn c hc).1

/-- The first element of a filtered list. -/
theorem find_filter {p q : NodeId → Bool} {n : NodeId} : ∀ {l : List NodeId}, l.find? p = some n → q n = true →
    (l.filter q).find? p = some n
  | [], h, _ => by simp at h
  | a :: l, h, hq => by
    by_cases hp : p a = true
    · rw [List.find?_cons_of_pos hp] at h
      cases h
      rw [List.filter_cons_of_pos hq, List.find?_cons_of_pos hp]
    · rw [List.find?_cons_of_neg hp] at h
      have ih := find_filter h hq
      by_cases hqa : q a = true
      · rw [List.filter_cons_of_pos hqa, List.find?_cons_of_neg hp, ih]
      · rw [List.filter_cons_of_neg hqa, ih]

/-- C63: in a parsed document a reference leads to the first node of the document, in document order, that has its id; that id is not
empty and not the id of the referring node. -/
theorem C63_first {L : Lib} {debug : Bool} {x : Xml} {t : St} (e : parseSvg L debug x = .ok t) {F : Forest} (hF : Describes t F)
    {T : Trees} (hT : T.Of F (F.kids t.rootId)) {i n : NodeId} (hi : i ∈ T.pre) (hl : t.LinksTo i n) :
    T.pre.find? (fun j => decide (t.idOf j = t.idOf n)) = some n ∧ t.idOf n ≠ [] ∧ t.idOf i ≠ t.idOf n ∧ t.nodeType n = .element := by
  obtain ⟨_, p, T0, G, s2, s3, u, f, hp⟩ := parse_ok e
  have hrt : t.rootId = s3.rootId := hp.removed.rootId.trans hp.ti.rootId
  have hroot : t.live t.rootId = true := hp.built.rootLive
  have hlive : ∀ c ∈ T.pre, t.live c = true := pre_live hF hT fun c hc => (hF.wf.kids _ hroot c hc).1
  -- the trees
  have hT' := hp.of
  rw [← hrt] at hT'
  have hTT : T.pre = ((T0.keep p.dom.styleNode).keep u.emptyText).pre := by
    rw [(hT.transport hF hp.desc fun c hc => (hF.wf.kids _ hroot c hc).1).unique
      (by rw [(C01_forest_unique hF hp.desc hroot).1]; exact hT')]
  rw [hTT, hp.pre] at hi ⊢
  rw [List.mem_filter] at hi
  obtain ⟨a, ha, hr⟩ := hl
  have hids : ∀ j, t.idOf j = s2.idOf j := fun j => by rw [hp.removed.ids, hp.ti.ids, f.resolves.same.ids]
  rw [hp.attrs i (front_region f hi.1).live] at ha
  have hs2 : s2.idOf p.dom.rootId = [] := by
    rw [f.removed.ids, f.root, f.adds.grown.ids (St.init debug).rootId (by simp [St.init])]
    rfl
  rcases f.resolves.target ha hr with h | ⟨h1, h2, h3⟩
  · exfalso
    have hplain := f.adds.is.plain (domOf_plain L _ x _ _ _)
    rw [front_attrs2 f (front_kept f hi.1)] at h
    have := plain_iff.2 (hplain i (front_kept f hi.1) a h)
    rw [refers_not_plain hr] at this
    simp at this
  · rw [List.find?_cons_of_neg (by rw [hs2, decide_eq_true_eq]; exact fun hc => h2 hc.symm)] at h1
    have hel : s2.nodeType n = .element := by
      rcases f.is2.node f.of2 n (List.mem_of_find?_eq_some h1) with h | h
      · exact h.1
      · exact absurd h.2.2.1 h2
    simp only [hids]
    refine ⟨find_filter h1 ?_, h2, h3, by rw [hp.removed.types, hp.ti.types, f.resolves.same.types]; exact hel⟩
    simp only [St.emptyText, St.isText, hp.ti.types, f.resolves.same.types, hel]
    rfl

/-- Two elements have the id: the reference leads to the first one. -/
def twiceXml : Xml :=
  xe st!"svg" [] (xe st!"use" [xa st!"href" st!"#a", xa st!"fill" st!"url(#b)"] .nil
    (xe st!"g" [xa st!"id" st!"b"] (xe st!"rect" [xa st!"id" st!"a"] .nil .nil) (xe st!"circle" [xa st!"id" st!"a"] .nil .nil))) .nil

def twiceTrees : Trees := .cons 1 (.cons 2 .nil (.cons 3 (.cons 4 .nil .nil) (.cons 5 .nil .nil))) .nil

example : ∃ t F, parseSvg sampleLib true twiceXml = .ok t ∧ Describes t F ∧ twiceTrees.Of F (F.kids t.rootId) ∧ 2 ∈ twiceTrees.pre ∧
    t.LinksTo 2 4 ∧ t.LinksTo 2 3 ∧ t.idOf 5 = t.idOf 4 := by
  obtain ⟨t, e, hp⟩ := exists_of_parsed (x := twiceXml) (p := fun t =>
    decide (t.attributes 2 = [⟨.id .Href, .link 4⟩, ⟨.id .Fill, .paint 3 none⟩]) && decide (t.idOf 5 = t.idOf 4) &&
      twiceTrees.check t (t.firstChild t.rootId)) (by decide +kernel)
  simp only [Bool.and_eq_true, decide_eq_true_eq] at hp
  obtain ⟨⟨p1, p2⟩, p3⟩ := hp
  have h : Reachable t := (C44_reachable e).1.reachable
  obtain ⟨F, hF⟩ := C01_forest h
  have hr : t.live t.rootId = true := by obtain ⟨_, hti⟩ := h.inv.tree; exact hti.root
  rw [hF.shows.first _ hr] at p3
  exact ⟨t, F, e, hF, check_of hF _ _ _ hr (List.suffix_refl _) p3, by decide, ⟨⟨.id .Href, .link 4⟩, by rw [p1]; simp, by decide⟩,
    ⟨⟨.id .Fill, .paint 3 none⟩, by rw [p1]; simp, by decide⟩, p2⟩

/-! ## C62 for parsed documents -/

/-- The trees of a parsed document. -/
theorem parsed_final {L : Lib} {debug : Bool} {x : Xml} {t : St} (e : parseSvg L debug x = .ok t) {F : Forest} (hF : Describes t F)
    {T : Trees} (hT : T.Of F (F.kids t.rootId)) : (svgDom L x).unstyled.Final t T := by
  have hr : t.live t.rootId = true := by
    obtain ⟨_, p, T0, G, s2, s3, u, f, hp⟩ := parse_ok e
    exact hp.built.rootLive
  obtain ⟨T', F', hF', hT', h⟩ := C32_final e
  have := (hT.transport hF hF' fun c hc => (hF.wf.kids _ hr c hc).1).unique (by rw [(C01_forest_unique hF hF' hr).1]; exact hT')
  rw [this]; exact h

theorem final_kinds {t : St} {F : Forest} : ∀ {D : Dom} {T : Trees} {l : List NodeId}, D.Final t T → T.Of F l → ∀ n ∈ T.pre,
    (t.nodeType n = .element ∧ ∃ e, t.tagName n = .id e) ∨ (t.nodeType n = .text ∧ F.kids n = [] ∧ t.text n ≠ []) ∨
    (t.nodeType n = .comment ∧ F.kids n = [])
  | .nil, _, _, h, _, n, hn => by rw [h] at hn; simp [Trees.pre] at hn
  | .element eid id attrs refs kids rest, _, _, ⟨m, K, R, rfl, h1, h2, _, _, _, _, hk, hr⟩, hT, n, hn => by
    obtain ⟨l', rfl, k1, k2⟩ := hT
    simp only [Trees.pre, List.mem_cons, List.mem_append] at hn
    rcases hn with rfl | hn | hn
    · exact .inl ⟨h1, eid, h2⟩
    · exact final_kinds hk k1 n hn
    · exact final_kinds hr k2 n hn
  | .text _ rest, _, _, h, hT, n, hn => by
    rcases h with ⟨m, R, rfl, h1, h2, _, _, _, hr⟩ | h
    · obtain ⟨l', rfl, k1, k2⟩ := hT
      simp only [Trees.pre, List.nil_append, List.mem_cons] at hn
      rcases hn with rfl | hn
      · exact .inr (.inl ⟨h1, k1, h2⟩)
      · exact final_kinds hr k2 n hn
    · exact final_kinds h hT n hn
  | .comment _ rest, _, _, ⟨m, R, rfl, h1, _, _, _, _, hr⟩, hT, n, hn => by
    obtain ⟨l', rfl, k1, k2⟩ := hT
    simp only [Trees.pre, List.nil_append, List.mem_cons] at hn
    rcases hn with rfl | hn
    · exact .inr (.inr ⟨h1, k1⟩)
    · exact final_kinds hr k2 n hn

/-- No text among the top nodes. -/
def Dom.noText : Dom → Bool
  | nil => true
  | element _ _ _ _ _ rest => rest.noText
  | text _ _ => false
  | comment _ rest => rest.noText

theorem noText_unstyled : ∀ D : Dom, D.noText = true → D.unstyled.noText = true
  | .nil, _ => rfl
  | .element eid id attrs refs kids rest, h => by
    rw [Dom.unstyled]
    split
    · exact noText_unstyled rest h
    · exact noText_unstyled rest h
  | .text _ _, h => by simp [Dom.noText] at h
  | .comment _ rest, h => noText_unstyled rest h

theorem tags_unstyled : ∀ D : Dom, D.unstyled.tags = D.tags.filter (fun e => decide (e ≠ .Style))
  | .nil => rfl
  | .element eid id attrs refs kids rest => by
    rw [Dom.unstyled]
    by_cases h : eid = .Style
    · rw [if_pos h, tags_unstyled rest, Dom.tags, List.filter_cons_of_neg (by simp [h])]
    · rw [if_neg h, Dom.tags, Dom.tags, tags_unstyled rest, List.filter_cons_of_pos (by simp [h])]
  | .text _ rest => tags_unstyled rest
  | .comment _ rest => tags_unstyled rest

theorem domOf_top (L : Lib) (sheet : List Rule) (pos : XmlPos) : ∀ (x : Xml) (prev : List (Option XmlElem)) (tag : Option ElementId),
    (domOf L sheet pos prev tag x).tags.length ≤ x.topElements ∧ (x.topText = false → (domOf L sheet pos prev tag x).noText = true)
  | .nil, _, _ => ⟨le_refl _, fun _ => rfl⟩
  | .element ns name attrs kids rest, prev, tag => by
    have ih := domOf_top L sheet pos rest (some ⟨ns, name, attrs⟩ :: prev) tag
    rw [domOf]
    dsimp only
    split
    · exact ⟨by rw [Xml.topElements]; omega, fun h => ih.2 h⟩
    · exact ⟨by rw [Dom.tags, List.length_cons, Xml.topElements]; omega, fun h => ih.2 h⟩
  | .text s rest, prev, tag => by
    have ih := domOf_top L sheet pos rest (none :: prev) tag
    refine ⟨?_, fun h => by simp [Xml.topText] at h⟩
    rw [domOf]
    split
    · exact ih.1
    · exact ih.1
  | .comment s rest, prev, tag => domOf_top L sheet pos rest (none :: prev) tag
  | .pi rest, prev, tag => domOf_top L sheet pos rest (none :: prev) tag

theorem final_tops {t : St} : ∀ {D : Dom} {T : Trees}, D.Final t T → D.noText = true →
    ∃ ns, T.tops.filter (fun m => decide (t.nodeType m ≠ .comment)) = ns ∧ ns.map t.tagName = D.tags.map .id ∧
      ∀ n ∈ ns, t.nodeType n = .element
  | .nil, _, h, _ => by rw [h]; exact ⟨[], rfl, rfl, by simp⟩
  | .element eid id attrs refs kids rest, _, ⟨m, K, R, rfl, h1, h2, _, _, _, _, hk, hr⟩, hn => by
    obtain ⟨ns, k1, k2, k3⟩ := final_tops hr hn
    refine ⟨m :: ns, ?_, ?_, ?_⟩
    · rw [Trees.tops, List.filter_cons_of_pos (by simp [h1]), k1]
    · rw [List.map_cons, k2, h2, Dom.tags, List.map_cons]
    · simpa [h1] using k3
  | .text _ rest, _, _, hn => by simp [Dom.noText] at hn
  | .comment _ rest, _, ⟨m, R, rfl, h1, _, _, _, _, hr⟩, hn => by
    obtain ⟨ns, k1, k2, k3⟩ := final_tops hr hn
    refine ⟨ns, ?_, k2, k3⟩
    rw [Trees.tops, List.filter_cons_of_neg (by simp [h1]), k1]

/-- What is assumed about a parsed document for it to come back: no markup in ids, texts and comments, no text after a text, and
single values are read as they were written. -/
structure CanComeBack (L : Lib) (s : St) (W : ValueWriter) (q : Char) (T : Trees) : Prop where
  ids : ∀ n ∈ T.pre, s.nodeType n = .element → plainValue (s.idOf n) = true
  texts : ∀ n ∈ T.pre, s.nodeType n = .text → plainContent (s.text n) = true
  comments : ∀ n ∈ T.pre, s.nodeType n = .comment → plainComment (s.text n) = true
  sep : T.SepText s
  values : ∀ n ∈ T.pre, ∀ a ∈ s.attributes n, ∀ i e, a.name = .id i → s.tagName n = .id e → i ≠ .Xmlns ∧ ∃ w v,
    s.written W i a.value = some w ∧ readAttr q w = some v ∧
    (a.value.plain = true → valueOf L e (i, v) = some a.value ∨ ReadsMissing L s T i e v a.value) ∧
    (∀ m, a.value.refersTo m = true → ∃ fb, parseValue L i e v = .link (s.idOf m) fb ∧ a.value = foundValue i m fb)
  noSheet : L.sheet [] = []

theorem comesBack_parsed {L : Lib} {debug : Bool} {x : Xml} {t : St} (e : parseSvg L debug x = .ok t) (hx : x.topElements = 1)
    (hx2 : x.topText = false) {F : Forest} (hF : Describes t F) {T : Trees} (hT : T.Of F (F.kids t.rootId)) {W : ValueWriter} {q : Char}
    (h : CanComeBack L t W q T) : ComesBack L t W q T := by
  have hreach : Reachable t := (C44_reachable e).1.reachable
  have hr : t.live t.rootId = true := by obtain ⟨_, hti⟩ := hreach.inv.tree; exact hti.root
  have hlive : ∀ c ∈ T.pre, t.live c = true := pre_live hF hT fun c hc => (hF.wf.kids _ hr c hc).1
  have hfin := parsed_final e hF hT
  have hin : ∀ n ∈ T.pre, t.InTree n := fun n hn => ⟨hlive n hn, (mem_pre_kids hF hr hT (hlive n hn)).1 hn⟩
  have hnames : ∀ n ∈ T.pre, ∀ a ∈ t.attributes n, ∃ eid i, t.tagName n = .id eid ∧ a.name = .id i ∧ i ≠ .Id ∧ i ≠ .Style ∧ i ≠ .Class := by
    intro n hn a ha
    obtain ⟨eid, i, h1, h2, _⟩ := C57_types e (hin n hn) ha
    obtain ⟨h3, h4, h5⟩ := C33_attributes e (hin n hn) ha
    rw [h2] at h3 h4 h5
    simp only [ne_eq, QName.id.injEq] at h3 h4 h5
    exact ⟨eid, i, h1, h2, h3, h4, h5⟩
  refine ⟨⟨?_, h.sep, ?_, ?_⟩, fun n hn => C33_no_style e (hin n hn), ?_, h.noSheet⟩
  · intro n hn
    rcases final_kinds hfin hT n hn with ⟨h1, h2⟩ | ⟨h1, h2, h3⟩ | ⟨h1, h2⟩
    · exact .inl ⟨h1, h2, h.ids n hn h1⟩
    · exact .inr (.inl ⟨h1, by rw [hF.shows.first n (hlive n hn), h2]; rfl, h3, h.texts n hn h1⟩)
    · exact .inr (.inr ⟨h1, by rw [hF.shows.first n (hlive n hn), h2]; rfl, h.comments n hn h1⟩)
  · have hsvg := (parse_ok e).1
    obtain ⟨h1, h2⟩ := domOf_top L (L.sheet (styleTexts x)) .root x [] none
    obtain ⟨ns, k1, k2, k3⟩ := final_tops hfin (noText_unstyled _ (h2 hx2))
    have htags : (svgDom L x).tags = [.Svg] := by
      change (svgDom L x).tags.length ≤ _ at h1
      rw [hx] at h1
      cases hd : (svgDom L x).tags with
      | nil => rw [hd] at hsvg; simp at hsvg
      | cons a l =>
        rw [hd] at hsvg h1
        simp only [List.head?_cons, Option.some.injEq] at hsvg
        simp only [List.length_cons] at h1
        have hl : l = [] := List.length_eq_zero_iff.1 (by omega)
        rw [hsvg, hl]
    rw [tags_unstyled, htags] at k2
    have : List.map QName.id (List.filter (fun e => decide (e ≠ ElementId.Style)) [ElementId.Svg]) = [.id .Svg] := rfl
    rw [this] at k2
    obtain ⟨n, rfl⟩ : ∃ n, ns = [n] := List.length_eq_one_iff.1 (by simpa using congrArg List.length k2)
    simp only [List.map_cons, List.map_nil, List.cons.injEq, and_true] at k2
    exact ⟨n, k1, k3 n (by simp), k2⟩
  · intro n hn a ha
    obtain ⟨eid, i, h1, h2, h3, _⟩ := hnames n hn a ha
    obtain ⟨h4, w, v, h5, h6, _⟩ := h.values n hn a ha i eid h2 h1
    exact ⟨i, h2, h3, h4, w, v, h5, h6⟩
  · intro n hn a ha
    obtain ⟨eid, i, h1, h2, _, h3, h4⟩ := hnames n hn a ha
    obtain ⟨_, w, v, h5, h6, h7, h8⟩ := h.values n hn a ha i eid h2 h1
    have key : ∀ i' e' w' v', a.name = .id i' → t.tagName n = .id e' → t.written W i' a.value = some w' → readAttr q w' = some v' →
        i' = i ∧ e' = eid ∧ v' = v := by
      intro i' e' w' v' g1 g2 g3 g4
      rw [h2] at g1
      rw [h1] at g2
      cases QName.id.inj g1
      cases QName.id.inj g2
      rw [h5] at g3
      cases Option.some.inj g3
      rw [h6] at g4
      exact ⟨rfl, rfl, (Option.some.inj g4).symm⟩
    refine ⟨?_, ?_, ?_, ?_⟩
    · intro i' g1
      rw [h2] at g1
      cases QName.id.inj g1
      exact ⟨h3, h4⟩
    · intro hp i' e' w' v' g1 g2 g3 g4
      obtain ⟨rfl, rfl, rfl⟩ := key i' e' w' v' g1 g2 g3 g4
      exact h7 hp
    · intro m hm i' e' w' v' g1 g2 g3 g4
      obtain ⟨rfl, rfl, rfl⟩ := key i' e' w' v' g1 g2 g3 g4
      exact h8 m hm
    · intro m hm
      obtain ⟨g1, g2, g3, g4⟩ := C63_first e hF hT hn ⟨a, ha, hm⟩
      exact ⟨g4, g2, g3, g1⟩

/-- C62 for parsed documents: the assumptions about names and references are met by every parsed document. -/
theorem C62_parsed_partial {L : Lib} {debug : Bool} {x : Xml} {t : St} (e : parseSvg L debug x = .ok t) (hx : x.topElements = 1)
    (hx2 : x.topText = false) {F : Forest} (hF : Describes t F) {T : Trees} (hT : T.Of F (F.kids t.rootId)) (W : ValueWriter) (q : Char)
    (h : CanComeBack L t W q T) (hn : ∀ n ∈ T.pre, t.nodeType n ≠ .text) :
    ∃ evs y, t.writeDom W = .ok evs ∧ readMarkup q evs = some y ∧ ∀ y' : Xml, y'.unindent false = y →
      ∃ u G U, parseSvg L debug y' = .ok u ∧ Describes u G ∧ U.Of G (G.kids u.rootId) ∧ SameDoc t T u U :=
  C62_partial (C44_reachable e).1.reachable (C44_tree e).2 hF W q hT (comesBack_parsed e hx hx2 hF hT h) hn debug

theorem ComesBack.can {L : Lib} {s : St} {W : ValueWriter} {q : Char} {T : Trees} (h : ComesBack L s W q T) : CanComeBack L s W q T := by
  refine ⟨?_, ?_, ?_, h.wf.sep, ?_, h.noSheet⟩
  · intro n hn ht
    rcases h.wf.kinds n hn with h | h | h
    · exact h.2.2
    · rw [ht] at h; simp at h
    · rw [ht] at h; simp at h
  · intro n hn ht
    rcases h.wf.kinds n hn with h | h | h
    · rw [ht] at h; simp at h
    · exact h.2.2.2
    · rw [ht] at h; simp at h
  · intro n hn ht
    rcases h.wf.kinds n hn with h | h | h
    · rw [ht] at h; simp at h
    · rw [ht] at h; simp at h
    · exact h.2.2
  · intro n hn a ha i e h1 h2
    obtain ⟨i', g1, g2, g3, w, v, g4, g5⟩ := h.wf.attrs n hn a ha
    rw [h1] at g1
    cases QName.id.inj g1
    have hb := h.attrs n hn a ha
    exact ⟨g3, w, v, g4, g5, fun hp => hb.plain hp i e w v h1 h2 g4 g5, fun m hm => hb.link m hm i e w v h1 h2 g4 g5⟩

/-- Non-vacuity: a parsed document with references, a repeated id, a `style` element and a comment. -/
def backXml : Xml :=
  .comment st!"c" (xe st!"svg" [xa st!"width" st!"5"] (xe st!"style" [] .nil (xe st!"use" [xa st!"href" st!"#a", xa st!"fill" st!"url(#b)"] .nil
    (xe st!"g" [xa st!"id" st!"b"] (xe st!"rect" [xa st!"id" st!"a"] .nil .nil) (xe st!"circle" [xa st!"id" st!"a"] .nil .nil)))) .nil)

def backTrees : Trees := .cons 1 .nil (.cons 2 (.cons 4 .nil (.cons 5 (.cons 6 .nil .nil) (.cons 7 .nil .nil))) .nil)

example : ∃ t F, parseSvg sampleLib true backXml = .ok t ∧ backXml.topElements = 1 ∧ backXml.topText = false ∧ Describes t F ∧
    backTrees.Of F (F.kids t.rootId) ∧ CanComeBack sampleLib t sampleWriter '"' backTrees ∧ (∀ n ∈ backTrees.pre, t.nodeType n ≠ .text) ∧
    t.attributes 4 = [⟨.id .Href, .link 6⟩, ⟨.id .Fill, .paint 5 none⟩] := by
  obtain ⟨t, e, hp⟩ := exists_of_parsed (x := backXml) (p := fun t => comesBackB t 8 backTrees &&
    backTrees.pre.all (fun n => decide (t.nodeType n ≠ .text)) &&
    decide (t.attributes 4 = [⟨.id .Href, .link 6⟩, ⟨.id .Fill, .paint 5 none⟩])) (by decide +kernel)
  simp only [Bool.and_eq_true, decide_eq_true_eq, List.all_eq_true] at hp
  obtain ⟨⟨e1, e2⟩, e3⟩ := hp
  obtain ⟨F, _, h2, h3, h4⟩ := comesBack_of_check (C44_reachable e).1.reachable e1
  exact ⟨t, F, e, rfl, rfl, h2, h3, h4.can, e2, e3⟩

end Svgdom
