import Verif.Proof.Settle
import Verif.Props.Whole
import Verif.Props.Settle

/-! Documents without ids and attributes: what they are parsed to and what is written for them. -/

set_option autoImplicit false

namespace Svgdom

/-! ### XML without attributes -/

/-- The name of an element. -/
def elementName (e : ElementId) : Str := match e.asStr? with
  | .ok x => x
  | .error _ => []

theorem elementName_ok (e : ElementId) : e.asStr? = .ok (elementName e) := by
  obtain ⟨x, h, _⟩ := C27_element_roundtrip e
  simp [elementName, h]

/-- The XML tree of a DOM, without ids and attributes. -/
def Dom.toXml : Dom → Xml
  | nil => .nil
  | element e _ _ _ kids rest => .element (some st!"http://www.w3.org/2000/svg") (elementName e) [] kids.toXml rest.toXml
  | text t rest => .text t rest.toXml
  | comment t rest => .comment t rest.toXml

/-- No ids, attributes, `style` elements, empty texts, and blank texts where they are dropped. -/
def Dom.Bare (tag : Option ElementId) : Dom → Prop
  | nil => True
  | element e id attrs refs kids rest => id = [] ∧ attrs = [] ∧ refs = [] ∧ e ≠ .Style ∧ kids.Bare (some e) ∧ rest.Bare tag
  | text t rest => t ≠ [] ∧ (isBlank t = true → keepsBlank tag = true) ∧ rest.Bare tag
  | comment _ rest => rest.Bare tag

theorem bare_names : ∀ {D : Dom} {tag : Option ElementId}, D.Bare tag → ∀ e ∈ D.toXml.elements, e.1 ≠ st!"style"
  | .nil, _, _, e, he => by simp [Dom.toXml, Xml.elements] at he
  | .element eid _ _ _ kids rest, _, ⟨_, _, _, h1, h2, h3⟩, e, he => by
    simp only [Dom.toXml, Xml.elements, List.mem_cons, List.mem_append] at he
    rcases he with rfl | he | he
    · intro hs
      have e1 := elementName_ok eid
      simp only at hs
      rw [hs] at e1
      exact h1 (C28_element_injective _ _ (e1.trans (by decide +kernel)))
    · exact bare_names h2 e he
    · exact bare_names h3 e he
  | .text _ rest, _, ⟨_, _, h⟩, e, he => bare_names (D := rest) h e he
  | .comment _ rest, _, h, e, he => bare_names (D := rest) h e he

theorem bare_domOf {L : Lib} : ∀ {D : Dom} {tag : Option ElementId} {pos : XmlPos} {prev : List (Option XmlElem)}, D.Bare tag →
    domOf L [] pos prev tag D.toXml = D
  | .nil, _, _, _, _ => rfl
  | .element eid id attrs refs kids rest, _, _, _, ⟨h1, h2, h3, _, h4, h5⟩ => by
    subst h1 h2 h3
    simp only [Dom.toXml, domOf, if_true, elementNamed_of (elementName_ok eid), bare_domOf h4, bare_domOf h5]
    rfl
  | .text t rest, tag, _, _, ⟨_, h1, h2⟩ => by
    simp only [Dom.toXml, domOf, bare_domOf h2]
    cases hb : isBlank t with
    | false => rfl
    | true => simp [h1 hb]
  | .comment t rest, _, _, _, h => by
    have h : rest.Bare _ := h
    simp only [Dom.toXml, domOf, bare_domOf h]

theorem bare_svgDom {L : Lib} (hL : L.sheet [] = []) {D : Dom} (h : D.Bare none) : svgDom L D.toXml = D := by
  have : styleTexts D.toXml = [] := by
    unfold styleTexts
    rw [List.filter_eq_nil_iff.2 fun e he => ?_]
    · rfl
    · simp only [decide_eq_true_eq]
      exact fun hs => bare_names h e he hs.1
  rw [svgDom, this, hL, bare_domOf h]

theorem keepsBlank_name (e : ElementId) :
    decide (elementName e = st!"text" ∨ elementName e = st!"tspan" ∨ elementName e = st!"tref") = keepsBlank (some e) := by
  have key : ∀ (f : ElementId) (y : Str), f.asStr? = .ok y → (elementName e = y ↔ e = f) := by
    intro f y hy
    constructor
    · intro h
      exact C28_element_injective _ _ ((elementName_ok e).trans (by rw [h, hy]))
    · rintro rfl
      have := elementName_ok e
      rw [hy] at this
      exact (Except.ok.inj this).symm
  simp only [keepsBlank, Option.some.injEq, key .Text _ (by decide +kernel : ElementId.asStr? .Text = .ok st!"text"),
    key .Tspan _ (by decide +kernel : ElementId.asStr? .Tspan = .ok st!"tspan"),
    key .Tref _ (by decide +kernel : ElementId.asStr? .Tref = .ok st!"tref")]

theorem bare_unindent : ∀ {D : Dom} {tag : Option ElementId} {keep : Bool}, D.Bare tag → keepsBlank tag = keep →
    D.toXml.unindent keep = D.toXml
  | .nil, _, _, _, _ => rfl
  | .element eid _ _ _ kids rest, _, _, ⟨_, _, _, _, h1, h2⟩, hk => by
    simp only [Dom.toXml, Xml.unindent, keepsBlank_name, bare_unindent h1 rfl, bare_unindent h2 hk]
  | .text t rest, _, _, ⟨_, h1, h2⟩, hk => by
    simp only [Dom.toXml, Xml.unindent, bare_unindent h2 hk]
    cases hb : isBlank t with
    | false => rfl
    | true => rw [← hk, h1 hb]; rfl
  | .comment t rest, _, _, h, hk => by
    have h : rest.Bare _ := h
    simp only [Dom.toXml, Xml.unindent, bare_unindent h hk]

/-! ### Contents -/

/-- The content is the XML tree, which has no attributes. -/
def Content.Is : Content → Xml → Prop
  | nil, .nil => True
  | node _ l K R, .element ns name attrs kids rest => l.type = .element ∧ (∃ e, l.tag = .id e ∧ e.asStr? = .ok name) ∧
      ns = some st!"http://www.w3.org/2000/svg" ∧ attrs = [] ∧ l.id = [] ∧ l.attrs = [] ∧ K.Is kids ∧ R.Is rest
  | node _ l K R, .text t rest => l.type = .text ∧ l.attrs = [] ∧ l.text = t ∧ K = .nil ∧ R.Is rest
  | node _ l K R, .comment t rest => l.type = .comment ∧ l.attrs = [] ∧ l.text = t ∧ K = .nil ∧ R.Is rest
  | _, _ => False

theorem number_is : ∀ {D : Dom} {tag : Option ElementId} {k : NodeId}, D.Bare tag → (D.number k).Is D.toXml
  | .nil, _, _, _ => trivial
  | .element eid _ _ _ kids rest, _, _, ⟨h1, h2, _, _, h3, h4⟩ =>
    ⟨rfl, ⟨eid, rfl, elementName_ok eid⟩, rfl, rfl, h1, h2, number_is h3, number_is h4⟩
  | .text _ rest, _, _, ⟨_, _, h⟩ => ⟨rfl, rfl, rfl, rfl, number_is (D := rest) h⟩
  | .comment _ rest, _, _, h => ⟨rfl, rfl, rfl, rfl, number_is (D := rest) h⟩

theorem looks_type {t : St} {n : NodeId} {l : Look} {K R : Content} {a b : NodeType} (hl : (Content.node n l K R).Looks t)
    (h1 : t.nodeType n = a) (h2 : l.type = b) : a = b := by
  rw [← h1, ← h2, ← (Content.looks_node.1 hl).1]; rfl

theorem is_shows {t : St} {W : ValueWriter} {q : Char} : ∀ {d : Content} {x y : Xml}, d.Is y → d.Looks t → x.Shows t W q d.trees → x = y
  | .nil, x, .nil, _, _, h => by cases x <;> first | rfl | exact h.elim
  | .node n l K R, .element .., .element .., h, hl, hs => by
    obtain ⟨h1, ⟨e, h2, h3⟩, h4, h5, h6, h7, h8, h9⟩ := h
    obtain ⟨s1, s2, s3, s4, s5, s6⟩ := hs
    obtain ⟨l1, l2, l3⟩ := Content.looks_node.1 hl
    rw [is_shows h8 l2 s5, is_shows h9 l3 s6, s2, h4, h5]
    have e1 : t.tagName n = .id e := by rw [← h2, ← l1]; rfl
    have e2 : t.idOf n = [] := by rw [← h6, ← l1]; rfl
    have e3 : t.attributes n = [] := by rw [← h7, ← l1]; rfl
    unfold St.IsName at s3
    rw [e1] at s3
    simp only [h3, Except.ok.injEq] at s3
    subst s3
    congr 1
    rw [List.eq_nil_iff_forall_not_mem]
    intro a ha
    rcases s4.only a ha with rfl | ⟨b, hb, _⟩
    · exact (s4.id.1 ha) e2
    · rw [e3] at hb; simp at hb
  | .node n l K R, .text .., .text .., h, hl, hs => by
    obtain ⟨h1, h2, h3, rfl, h4⟩ := h
    obtain ⟨s1, s2, s3, s4⟩ := hs
    obtain ⟨l1, l2, l3⟩ := Content.looks_node.1 hl
    rw [is_shows h4 l3 s4, s2, ← h3, ← l1]; rfl
  | .node n l K R, .comment .., .comment .., h, hl, hs => by
    obtain ⟨h1, h2, h3, rfl, h4⟩ := h
    obtain ⟨s1, s2, s3, s4⟩ := hs
    obtain ⟨l1, l2, l3⟩ := Content.looks_node.1 hl
    rw [is_shows h4 l3 s4, s2, ← h3, ← l1]; rfl
  | .node n l K R, .element .., .text .., h, hl, hs => by
    exact absurd (looks_type hl hs.1 h.1) (by decide)
  | .node n l K R, .element .., .comment .., h, hl, hs => by
    exact absurd (looks_type hl hs.1 h.1) (by decide)
  | .node n l K R, .text .., .element .., h, hl, hs => by
    exact absurd (looks_type hl hs.1 h.1) (by decide)
  | .node n l K R, .text .., .comment .., h, hl, hs => by
    exact absurd (looks_type hl hs.1 h.1) (by decide)
  | .node n l K R, .comment .., .element .., h, hl, hs => by
    exact absurd (looks_type hl hs.1 h.1) (by decide)
  | .node n l K R, .comment .., .text .., h, hl, hs => by
    exact absurd (looks_type hl hs.1 h.1) (by decide)
  | .node .., .nil, _, _, _, hs => hs.elim
  | .node .., .pi _, _, _, _, hs => hs.elim

/-- Texts and comments that can be written as they are, and no text after a text. -/
def Xml.Fine : Xml → Prop
  | nil => True
  | element _ _ _ kids rest => kids.Fine ∧ rest.Fine
  | text t rest => plainContent t = true ∧ rest.Fine ∧ (match rest with | .text _ _ => False | _ => True)
  | comment t rest => plainComment t = true ∧ rest.Fine
  | pi _ => False

theorem is_fine {t : St} : ∀ {d : Content} {y : Xml}, d.Is y → d.Looks t → y.Fine → d.trees.SepText t ∧ ∀ n ∈ d.trees.pre,
    t.attributes n = [] ∧ (t.nodeType n = .element → t.idOf n = []) ∧ (t.nodeType n = .text → plainContent (t.text n) = true) ∧
      (t.nodeType n = .comment → plainComment (t.text n) = true)
  | .nil, .nil, _, _, _ => ⟨trivial, fun n hn => by simp [Content.trees, Trees.pre] at hn⟩
  | .node n l K R, .element .., h, hl, hf => by
    obtain ⟨h1, _, h4, h5, h6, h7, h8, h9⟩ := h
    obtain ⟨l1, l2, l3⟩ := Content.looks_node.1 hl
    obtain ⟨k1, k2⟩ := is_fine h8 l2 hf.1
    obtain ⟨r1, r2⟩ := is_fine h9 l3 hf.2
    have ety : t.nodeType n = .element := by rw [← h1, ← l1]; rfl
    have e2 : t.idOf n = [] := by rw [← h6, ← l1]; rfl
    have e3 : t.attributes n = [] := by rw [← h7, ← l1]; rfl
    refine ⟨⟨k1, r1, ?_⟩, fun m hm => ?_⟩
    · split
      · trivial
      · rw [ety]; simp
    · simp only [Content.trees, Trees.pre, List.mem_cons, List.mem_append] at hm
      rcases hm with rfl | hm | hm
      · refine ⟨e3, fun _ => e2, ?_, ?_⟩ <;> rw [ety] <;> simp
      · exact k2 m hm
      · exact r2 m hm
  | .node n l K R, .text tx rest, h, hl, hf => by
    obtain ⟨h1, h2, h3, rfl, h4⟩ := h
    obtain ⟨l1, l2, l3⟩ := Content.looks_node.1 hl
    obtain ⟨f1, f2, f3⟩ := hf
    obtain ⟨r1, r2⟩ := is_fine h4 l3 f2
    have ety : t.nodeType n = .text := by rw [← h1, ← l1]; rfl
    have e2 : t.text n = tx := by rw [← h3, ← l1]; rfl
    have e3 : t.attributes n = [] := by rw [← h2, ← l1]; rfl
    refine ⟨⟨trivial, r1, ?_⟩, fun m hm => ?_⟩
    · cases R with
      | nil => trivial
      | node m l' K' R' =>
        have hm := (Content.looks_node.1 l3).1
        rintro ⟨_, hmt⟩
        have hlt : l'.type = .text := by rw [← hm]; exact hmt
        cases rest with
        | text _ _ => exact f3
        | element _ _ _ _ _ => have := h4.1; rw [hlt] at this; simp at this
        | comment _ _ => have := h4.1; rw [hlt] at this; simp at this
        | nil => exact h4
        | pi _ => exact h4
    · simp only [Content.trees, Trees.pre, List.mem_cons, List.mem_append] at hm
      rcases hm with rfl | hm | hm
      · refine ⟨e3, ?_, fun _ => by rw [e2]; exact f1, ?_⟩ <;> rw [ety] <;> simp
      · simp at hm
      · exact r2 m hm
  | .node n l K R, .comment tx rest, h, hl, hf => by
    obtain ⟨h1, h2, h3, rfl, h4⟩ := h
    obtain ⟨l1, l2, l3⟩ := Content.looks_node.1 hl
    obtain ⟨f1, f2⟩ := hf
    obtain ⟨r1, r2⟩ := is_fine h4 l3 f2
    have ety : t.nodeType n = .comment := by rw [← h1, ← l1]; rfl
    have e2 : t.text n = tx := by rw [← h3, ← l1]; rfl
    have e3 : t.attributes n = [] := by rw [← h2, ← l1]; rfl
    refine ⟨⟨trivial, r1, ?_⟩, fun m hm => ?_⟩
    · split
      · trivial
      · rw [ety]; simp
    · simp only [Content.trees, Trees.pre, List.mem_cons, List.mem_append] at hm
      rcases hm with rfl | hm | hm
      · refine ⟨e3, ?_, ?_, fun _ => by rw [e2]; exact f1⟩ <;> rw [ety] <;> simp
      · simp at hm
      · exact r2 m hm
  | .node .., .nil, h, _, _ => h.elim
  | .node .., .pi _, h, _, _ => h.elim

/-- What is parsed is written as it is. -/
theorem bare_written {L : Lib} (hL : L.sheet [] = []) {debug : Bool} {x : Xml} {t : St} (e : parseSvg L debug x = .ok t)
    (hx : x.topElements = 1) (hx2 : x.topText = false) {y : Xml} (hy : (parsedDoc L x).Is y) (hf : y.Fine) (W : ValueWriter) (q : Char) :
    ∃ evs, t.writeDom W = .ok evs ∧ readMarkup q evs = some y := by
  obtain ⟨_, F, hF, hT, hl⟩ := C95_parse e
  obtain ⟨h1, h2⟩ := is_fine hy hl hf
  have hc : CanComeBack L t W q (parsedDoc L x).trees := by
    refine ⟨fun n hn ht => by rw [(h2 n hn).2.1 ht]; rfl, fun n hn => (h2 n hn).2.2.1, fun n hn => (h2 n hn).2.2.2, h1, ?_, hL⟩
    intro n hn a ha
    rw [(h2 n hn).1] at ha
    simp at ha
  obtain ⟨evs, x', k1, k2, k3⟩ := read_written (C44_reachable e).1.reachable (C44_tree e).2 W q hF hT (comesBack_parsed e hx hx2 hF hT hc).wf
  exact ⟨evs, k1, by rw [k2, is_shows hy hl k3]⟩

/-! ### What is parsed -/

theorem number_fst : ∀ (D : Dom) (k : NodeId), (D.number k).nodes.map (·.1) = List.range' k D.size
  | .nil, _ => rfl
  | .element _ _ _ _ kids rest, k => by
    simp only [Dom.number, Content.nodes, List.map_cons, List.map_append, number_fst kids, number_fst rest, Dom.size]
    rw [show 1 + kids.size + rest.size = kids.size + rest.size + 1 by omega, List.range'_succ, ← List.range'_append_1]
  | .text _ rest, k => by
    simp only [Dom.number, Content.nodes, List.map_cons, List.nil_append, number_fst rest, Dom.size]
    rw [Nat.add_comm 1, List.range'_succ]
  | .comment _ rest, k => by
    simp only [Dom.number, Content.nodes, List.map_cons, List.nil_append, number_fst rest, Dom.size]
    rw [Nat.add_comm 1, List.range'_succ]

theorem number_mem {D : Dom} {k : NodeId} {p : NodeId × Look} (h : p ∈ (D.number k).nodes) : k ≤ p.1 ∧ p.1 < k + D.size := by
  have : p.1 ∈ (D.number k).nodes.map (·.1) := List.mem_map_of_mem h
  rw [number_fst, List.mem_range'_1] at this
  exact this

theorem find_key : ∀ {l : List (NodeId × Look)}, (l.map (·.1)).Nodup → ∀ {p : NodeId × Look}, p ∈ l →
    l.find? (fun x => decide (x.1 = p.1)) = some p
  | [], _, p, hp => by simp at hp
  | a :: l, hn, p, hp => by
    rw [List.map_cons, List.nodup_cons] at hn
    rw [List.find?_cons]
    rcases List.mem_cons.1 hp with rfl | hp
    · simp
    · have : a.1 ≠ p.1 := fun h => hn.1 (h ▸ List.mem_map_of_mem hp)
      simp only [decide_eq_false this]
      exact find_key hn.2 hp

theorem number_lookAt {D : Dom} {k : NodeId} {p : NodeId × Look} (h : p ∈ (D.number k).nodes) : (D.number k).lookAt p.1 = p.2 := by
  unfold Content.lookAt
  rw [find_key (by rw [number_fst]; exact List.nodup_range') h]
  rfl

theorem bare_attrs : ∀ {D : Dom} {tag : Option ElementId} {k : NodeId}, D.Bare tag → ∀ p ∈ (D.number k).nodes, p.2.attrs = []
  | .nil, _, _, _, p, hp => by simp [Dom.number, Content.nodes] at hp
  | .element _ _ _ _ kids rest, _, _, ⟨_, h1, _, _, h2, h3⟩, p, hp => by
    simp only [Dom.number, Content.nodes, List.mem_cons, List.mem_append] at hp
    rcases hp with rfl | hp | hp
    · exact h1
    · exact bare_attrs h2 p hp
    · exact bare_attrs h3 p hp
  | .text _ rest, _, _, ⟨_, _, h⟩, p, hp => by
    simp only [Dom.number, Content.nodes, List.nil_append, List.mem_cons] at hp
    rcases hp with rfl | hp
    · rfl
    · exact bare_attrs h p hp
  | .comment _ rest, _, _, h, p, hp => by
    have h : rest.Bare _ := h
    simp only [Dom.number, Content.nodes, List.nil_append, List.mem_cons] at hp
    rcases hp with rfl | hp
    · rfl
    · exact bare_attrs h p hp

theorem bare_links : ∀ {D : Dom} {tag : Option ElementId} {k : NodeId}, D.Bare tag → D.links k = []
  | .nil, _, _, _ => rfl
  | .element _ _ _ _ kids rest, _, _, ⟨_, _, h1, _, h2, h3⟩ => by simp [Dom.links, h1, bare_links h2, bare_links h3]
  | .text _ rest, _, _, ⟨_, _, h⟩ => bare_links (D := rest) h
  | .comment _ rest, _, _, h => bare_links (D := rest) h

theorem bare_unstyled : ∀ {D : Dom} {tag : Option ElementId} {k : NodeId}, D.Bare tag →
    (D.number k).without (fun l => decide (l.tag = .id .Style)) = D.number k
  | .nil, _, _, _ => rfl
  | .element _ _ _ _ kids rest, _, _, ⟨_, _, _, h1, h2, h3⟩ => by
    simp [Dom.number, Content.without, h1, bare_unstyled h2, bare_unstyled h3]
  | .text _ rest, _, _, ⟨_, _, h⟩ => by simp [Dom.number, Content.without, bare_unstyled (D := rest) h]
  | .comment _ rest, _, _, h => by
    have h : rest.Bare _ := h
    simp [Dom.number, Content.without, bare_unstyled h]

theorem change_congr {f g : NodeId → Look → Look} : ∀ {d : Content}, (∀ p ∈ d.nodes, f p.1 p.2 = g p.1 p.2) → d.change f = d.change g
  | .nil, _ => rfl
  | .node n l K R, h => by
    simp only [Content.nodes, List.mem_cons, List.mem_append] at h
    simp only [Content.change, change_congr fun p hp => h p (.inr (.inl hp)), change_congr fun p hp => h p (.inr (.inr hp))]
    rw [h (n, l) (.inl rfl)]

theorem change_id : ∀ {d : Content}, d.change (fun _ l => l) = d
  | .nil => rfl
  | .node n l K R => by simp only [Content.change, change_id]

/-- A text of which nothing is left. -/
def Look.gone (l : Look) : Bool := decide (l.type = .text ∧ l.text = [])

/-- Parsing a bare document only changes the texts. -/
theorem bare_parsed {L : Lib} (hL : L.sheet [] = []) {D : Dom} (h : D.Bare none) {τ : NodeId → Str}
    (hτ : (D.number 1).tidy .default (fun j => ((D.number 1).lookAt j).text) = τ) :
    parsedDoc L D.toXml = ((D.number 1).change fun n l => { l with text := τ n }).without Look.gone := by
  have e0 := bare_svgDom hL h
  have e1 : allNodes L D.toXml = D.number 1 := by rw [allNodes, e0]
  have e2 : keptNodes L D.toXml = D.number 1 := by rw [keptNodes, e1, bare_unstyled h]
  have e3 : ∀ p ∈ (D.number 1).nodes, parsedAttrs L D.toXml p.1 = p.2.attrs := by
    intro p hp
    rw [parsedAttrs, e0, bare_links h, List.foldl_nil, e1, number_lookAt hp]
  have e4 : parsedTexts L D.toXml = τ := by
    rw [parsedTexts, e1, e2, change_congr (g := fun _ l => l) fun p hp => by rw [e3 p hp], change_id, hτ]
  unfold parsedDoc
  rw [e2, change_congr (g := fun n l => { l with text := τ n })]
  · rfl
  · intro p hp
    rw [parsedLook, e1, e3 p hp, e4, number_lookAt hp]

end Svgdom
