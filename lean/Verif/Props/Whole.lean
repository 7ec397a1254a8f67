import Verif.Proof.Whole
import Verif.Props.Rounds
import Verif.Props.Targets
import Verif.Props.Picture

/-!
# C95: parsing is a function of the XML tree
-/

set_option autoImplicit false

namespace Svgdom

/-- C95: the document below the root is `parsedDoc`: shape, order and numbers of the nodes, and what each carries. -/
theorem C95_parse {L : Lib} {debug : Bool} {x : Xml} {t : St} (e : parseSvg L debug x = .ok t) : (parsedDoc L x).Shown t := by
  obtain ⟨_, p, T, G, s2, s3, u, f, hp⟩ := parse_ok e
  exact shown f hp

theorem doc_ext {t : St} : ∀ {d e : Content}, d.trees = e.trees → d.Looks t → e.Looks t → d = e
  | .nil, .nil, _, _, _ => rfl
  | .nil, .node .., h, _, _ => by simp [Content.trees] at h
  | .node .., .nil, h, _, _ => by simp [Content.trees] at h
  | .node n l K R, .node n' l' K' R', h, hd, he => by
    simp only [Content.trees, Trees.cons.injEq] at h
    obtain ⟨rfl, hK, hR⟩ := h
    obtain ⟨a1, a2, a3⟩ := Content.looks_node.1 hd
    obtain ⟨b1, b2, b3⟩ := Content.looks_node.1 he
    rw [doc_ext hK a2 b2, doc_ext hR a3 b3, ← a1, ← b1]

/-- C95: a state shows one document only, so `parsedDoc` is all there is to say about the tree. -/
theorem C95_unique {t : St} (h : Reachable t) {d e : Content} (hd : d.Shown t) (he : e.Shown t) : d = e := by
  obtain ⟨_, F, hF, hT, h1⟩ := hd
  obtain ⟨_, G, hG, hU, h2⟩ := he
  have hr : t.live t.rootId = true := by obtain ⟨_, hti⟩ := h.inv.tree; exact hti.root
  refine doc_ext ?_ h1 h2
  have hl : ∀ i ∈ F.kids t.rootId, t.live i = true := fun i hi => (hF.wf.kids _ hr i hi).1
  have : d.trees.Of G (G.kids t.rootId) := by
    rw [← (C01_forest_unique hF hG hr).1]
    exact hT.congr fun i hi => ((C01_forest_unique hF hG (pre_live hF hT hl i hi)).1).symm
  exact this.unique hU

/-- C95: the whole of a parsed document in the sense of C93, and so the result of any further calls, is known from `parsedDoc` as far
as the nodes of the tree are concerned. -/
theorem C95_picture {L : Lib} {debug : Bool} {x : Xml} {t : St} (e : parseSvg L debug x = .ok t) {P : Picture} (hP : Abs t P) :
    P.root = 0 ∧ (parsedDoc L x).trees.Of P.forest (P.forest.kids 0) ∧ ∀ p ∈ (parsedDoc L x).nodes, P.look p.1 = p.2 := by
  obtain ⟨h0, F, hF, hT, h1⟩ := C95_parse e
  have hR := (C44_reachable e).1.reachable
  have hr : t.live t.rootId = true := by obtain ⟨_, hti⟩ := hR.inv.tree; exact hti.root
  have hl : ∀ i ∈ F.kids t.rootId, t.live i = true := fun i hi => (hF.wf.kids _ hr i hi).1
  have hlive := pre_live hF hT hl
  refine ⟨by rw [hP.root, h0], ?_, fun p hp => ?_⟩
  · rw [← h0, ← (C01_forest_unique hF hP.forest hr).1]
    exact hT.congr fun i hi => ((C01_forest_unique hF hP.forest (hlive i hi)).1).symm
  · rw [hP.look p.1 (hlive p.1 (Content.mem_nodes hp)), h1 p hp]

/-- C95: the whole state after parsing, in the sense of C93, is `parsedPicture`: the numbers given out, and for each of them the place
in the tree, type, tag name, id, attributes, text, and whether it is stored. -/
theorem C95_machine {L : Lib} {debug : Bool} {x : Xml} {t : St} (e : parseSvg L debug x = .ok t) : Abs t (parsedPicture L debug x) := by
  obtain ⟨_, p, T, G, s2, s3, u, f, hp⟩ := parse_ok e
  exact abs_parsed f hp

/-- C95: load and edit. Any calls after parsing do what the machine of C93 does from `parsedPicture` on. -/
theorem C95_calls {L : Lib} {debug : Bool} {x : Xml} {t : St} (e : parseSvg L debug x = .ok t) (cs : List Call) :
    Mirrors (t.calls cs) ((parsedPicture L debug x).run cs) :=
  C93_history (C44_reachable e).1.reachable (C44_tree e).2 (C95_machine e) cs

/-- C95: the list of users of a node is known up to order: each node as often as it refers to the node. -/
theorem C95_users {L : Lib} {debug : Bool} {x : Xml} {t : St} (e : parseSvg L debug x = .ok t) {n i : NodeId} (hn : t.live n = true)
    (hi : t.live i = true) : (t.linkedNodes n).count i = refCount (parsedAttrs L x i) n := by
  have hP := (C95_machine e).look i hi
  rw [C16_count (C44_reachable e).1.reachable hi hn]
  have : t.attributes i = (parsedPicture L debug x |>.look i).attrs := by rw [hP]; rfl
  rw [this]; rfl

/-- C50, exact: the users of all nodes of the document are in the document, except if a node that was removed on the way holds a
reference. -/
theorem C50_exact {L : Lib} {debug : Bool} {x : Xml} {t : St} (e : parseSvg L debug x = .ok t) :
    (∀ n i, t.InTree n → i ∈ t.linkedNodes n → t.InTree i) ↔
    ∀ j ∈ (allNodes L x).trees.pre, j ∉ (parsedDoc L x).trees.pre → ∀ a ∈ parsedAttrs L x j, ∀ n, a.value.refersTo n = false := by
  obtain ⟨_, p, T, G, s2, s3, u, f, hp⟩ := parse_ok e
  have w := whole f hp
  have hR := (C44_reachable e).1.reachable
  have hr0 : p.dom.rootId = 0 := f.root
  have hlive : ∀ j, t.live j = true ↔ j = 0 ∨ j ∈ T.pre := fun j => by
    rw [hp.removed.live, hp.ti.live, front_live f, hr0]
  have hall : (allNodes L x).trees = T := (f.adds.is.number w.pre).1
  have hin : ∀ j, t.InTree j ↔ j ∈ (parsedDoc L x).trees.pre := fun j => by
    rw [inTree_final f hp, w.trees, hp.pre, List.mem_filter, Bool.not_eq_true']
  have hat : ∀ j, t.live j = true → t.attributes j = parsedAttrs L x j := fun j hj => by
    have := w.look j ((hlive j).1 hj)
    exact congrArg Look.attrs this
  -- who refers to whom
  have htarget : ∀ j n, t.live j = true → ∀ a ∈ t.attributes j, a.value.refersTo n = true → t.InTree n := by
    intro j n hj a ha hn
    have hjl : s3.live j = true := by rw [front_live f, hr0]; exact (hlive j).1 hj
    rw [hp.attrs j hjl] at ha
    obtain ⟨l, _, _, _, h4, h5, h6, _⟩ := front_target f hjl ha (refersTo_iff.1 hn)
    have hid : s3.idOf n = s2.idOf n := f.resolves.same.ids n
    rcases List.mem_cons.1 h4 with rfl | h4
    · exfalso
      apply h6
      rw [hid, f.removed.ids, f.root, f.adds.grown.ids (St.init debug).rootId (by simp [St.init])]
      rfl
    · rw [inTree_final f hp]
      refine ⟨h4, ?_⟩
      rcases f.is2.node f.of2 n h4 with h | h
      · simp only [St.emptyText, St.isText, hp.ti.types, f.resolves.same.types, h.1]
        rfl
      · exact absurd (hid.trans h.2.2.1) h6
  have hroot : ∀ a ∈ t.attributes 0, ∀ n, a.value.refersTo n = true → False := by
    intro a ha n hn
    have hjl : s3.live 0 = true := by rw [front_live f, hr0]; exact .inl rfl
    rw [hp.attrs 0 hjl] at ha
    obtain ⟨l, hl, h2, _⟩ := front_target f hjl ha (refersTo_iff.1 hn)
    rw [f.adds.links] at hl
    have := (f.adds.is.plink_nodes l (by simpa using hl)).1
    rw [h2, w.pre] at this
    simp at this
  constructor
  · intro h j hj hn a ha n
    rw [Bool.eq_false_iff]
    intro hc
    rw [hall] at hj
    have hjl := (hlive j).2 (.inr hj)
    rw [← hat j hjl] at ha
    have hnt := htarget j n hjl a ha hc
    refine hn ((hin j).1 (h n j hnt ?_))
    rw [← List.count_pos_iff, C16_count hR hjl hnt.1, refCount_eq]
    exact refs_pos.2 ⟨a, ha, refersTo_iff.1 hc⟩
  · intro h n i hn hi
    have hil : t.live i = true := hR.inv.link.back n hn.1 i hi
    have hc := C16_count hR hil hn.1
    have hpos : 0 < (t.linkedNodes n).count i := List.count_pos_iff.2 hi
    rw [hc, refCount_eq] at hpos
    obtain ⟨a, ha, hr⟩ := refs_pos.1 hpos
    rw [← refersTo_iff] at hr
    rcases (hlive i).1 hil with rfl | hT
    · exact (hroot a ha n hr).elim
    · rw [hin]
      by_contra hno
      rw [hat i hil] at ha
      have := h i (by rw [hall]; exact hT) hno a ha n
      rw [this] at hr
      simp at hr

theorem zip_self {l : List NodeId} {i : NodeId} (h : i ∈ l) : (i, i) ∈ l.zip l := by
  induction l with
  | nil => simp at h
  | cons a l ih =>
    rcases List.mem_cons.1 h with rfl | h
    · simp
    · simp [ih h]

theorem same_looks {s t : St} {R : NodeId → NodeId → Prop} : ∀ {d : Content}, d.Looks s → d.Looks t →
    (∀ n ∈ d.trees.pre, ∀ a ∈ s.attributes n, ∀ m, a.value.refersTo m = true → R m m) → d.trees.Same s t R d.trees
  | .nil, _, _, _ => trivial
  | .node n l K R', h1, h2, h3 => by
    obtain ⟨a1, a2, a3⟩ := Content.looks_node.1 h1
    obtain ⟨b1, b2, b3⟩ := Content.looks_node.1 h2
    have hl : t.look n = s.look n := by rw [a1, b1]
    simp only [St.look, Look.mk.injEq] at hl
    obtain ⟨l1, l2, l3, l4, l5⟩ := hl
    refine ⟨⟨l1, fun _ => l2, fun _ => l3, fun _ a => ?_, fun _ => l5⟩, same_looks a2 b2 fun m hm => h3 m (by simp [Content.trees, Trees.pre, hm]),
      same_looks a3 b3 fun m hm => h3 m (by simp [Content.trees, Trees.pre, hm])⟩
    rw [l4]
    have h3n := h3 n (by simp [Content.trees, Trees.pre])
    unfold attrsGetValue
    cases hg : attrsGet (s.attributes n) a with
    | none => exact .none
    | some b =>
      refine .some ?_
      have hb := h3n b (attrsGet_some hg).1
      show SameValue R b.value b.value
      generalize b.value = v at hb ⊢
      cases v with
      | link m => exact .link (hb m (by simp [AttributeValue.refersTo]))
      | funcLink m => exact .funcLink (hb m (by simp [AttributeValue.refersTo]))
      | paint m fb => exact .paint fb (hb m (by simp [AttributeValue.refersTo]))
      | _ => exact .plain rfl

/-- C95: what is written for a parsed document depends on `parsedDoc` only: not on the build, and not on the libraries or the XML tree
otherwise. -/
theorem C95_written {L L' : Lib} {debug debug' : Bool} {x y : Xml} {s t : St} (e : parseSvg L debug x = .ok s)
    (e' : parseSvg L' debug' y = .ok t) (h : parsedDoc L x = parsedDoc L' y) (W : ValueWriter) : s.writeDom W = t.writeDom W := by
  obtain ⟨_, F, hF, hT, h1⟩ := C95_parse e
  obtain ⟨_, G, hG, hU, h2⟩ := C95_parse e'
  rw [← h] at hU h2
  have hR := (C44_reachable e).1.reachable
  have hr : s.live s.rootId = true := by obtain ⟨_, hti⟩ := hR.inv.tree; exact hti.root
  have hl : ∀ i ∈ F.kids s.rootId, s.live i = true := fun i hi => (hF.wf.kids _ hr i hi).1
  have hlive := pre_live hF hT hl
  refine C92_same hR (C44_tree e).2 (C44_reachable e').1.reachable (C44_tree e').2 hF hG hT hU
    (same_looks h1 h2 ?_) (plain_parsed e hF hT) (plain_parsed e' hG hU) ?_ ?_ W
  · intro n hn a ha m hm
    obtain ⟨hf, _⟩ := C63_first e hF hT hn ⟨a, ha, hm⟩
    exact zip_self (List.mem_of_find?_eq_some hf)
  · intro n hn a ha
    obtain ⟨_, i, _, h, _⟩ := C57_types e ⟨hlive n hn, (mem_pre_kids hF hr hT (hlive n hn)).1 hn⟩ ha
    exact ⟨i, h⟩
  · intro n hn a ha m hm
    exact (C63_first e hF hT hn ⟨a, ha, hm⟩).2.2.2

/-! ## Concrete documents -/

/-- Style sheets, references (also to an id that no element has), text: the result, evaluated. -/
example : (∃ t, parseSvg sampleLib true docXml = .ok t) ∧ parsedDoc sampleLib docXml =
    .node 1 ⟨.comment, .name [], [], [], st!"top"⟩ .nil
    (.node 2 ⟨.element, .id .Svg, [], [⟨.id .Width, .length ⟨.fin 5, .none⟩⟩], []⟩
      (.node 5 ⟨.element, .id .LinearGradient, st!"a", [], []⟩ .nil <|
       .node 6 ⟨.element, .id .Rect, st!"r", [⟨.id .Opacity, .number (.fin 1)⟩, ⟨.id .Fill, .color ⟨0, 128, 0⟩⟩, ⟨.id .Marker, .none⟩,
          ⟨.id .Stroke, .paint 5 none⟩], []⟩ .nil <|
       .node 7 ⟨.element, .id .G, [], [⟨.id .Filter, .string st!"url(#gone)"⟩], []⟩
         (.node 8 ⟨.element, .id .Use, [], [⟨.id .Href, .link 6⟩], []⟩ .nil <|
          .node 9 ⟨.comment, .name [], [], [], st!"in"⟩ .nil .nil) <|
       .node 10 ⟨.element, .id .Text, [], [], []⟩ (.node 11 ⟨.text, .name [], [], [], st!"a b"⟩ .nil .nil) .nil) .nil) := by
  refine ⟨(C31_svg _ _ _).2 (by decide +kernel), by decide +kernel⟩

/-- Three texts with different modes, the last of which is not kept. -/
example : (∃ t, parseSvg sampleLib true textXml = .ok t) ∧ (parsedDoc sampleLib textXml).nodes.map (fun p => (p.1, p.2.text)) =
    [(1, []), (2, []), (3, st!"a "), (4, []), (5, st!" b"), (6, []), (8, [])] := by
  refine ⟨(C31_svg _ _ _).2 (by decide +kernel), by decide +kernel⟩

/-- Load the sample, remove the gradient, rename what is left, and look. -/
example : (∃ t, parseSvg sampleLib true docXml = .ok t) ∧
    ((parsedPicture sampleLib true docXml).run [.removeNode 5, .setId 6 st!"q", .append 10 6, .createElement (.id .G), .insertBefore 6 12]).shows
      (fun Q => decide (Q.subtree 0 = [0, 1, 2, 7, 8, 9, 10, 11, 12, 6]) && decide ((Q.look 8).attrs = [⟨.id .Href, .link 6⟩]) &&
        decide ((Q.look 6).attrs.map (·.name) = [.id .Opacity, .id .Fill, .id .Marker]) && decide ((Q.look 6).id = st!"q") &&
        !Q.stored 5 && !Q.stored 3 && Q.stored 12) = true := by
  refine ⟨(C31_svg _ _ _).2 (by decide +kernel), by decide +kernel⟩

/-- Without a reference in a removed node, and with one. -/
example : (∃ t, parseSvg sampleLib true docXml = .ok t) ∧ (∃ t, parseSvg sampleLib true styleRefXml = .ok t) ∧
    (∀ j ∈ (allNodes sampleLib docXml).trees.pre, j ∉ (parsedDoc sampleLib docXml).trees.pre →
      ∀ a ∈ parsedAttrs sampleLib docXml j, ∀ n, a.value.refersTo n = false) ∧
    (4 ∈ (allNodes sampleLib styleRefXml).trees.pre ∧ 4 ∉ (parsedDoc sampleLib styleRefXml).trees.pre ∧
      parsedAttrs sampleLib styleRefXml 4 = [⟨.id .Href, .link 2⟩]) := by
  refine ⟨(C31_svg _ _ _).2 (by decide +kernel), (C31_svg _ _ _).2 (by decide +kernel), ?_, by decide +kernel⟩
  have h : ∀ j ∈ (allNodes sampleLib docXml).trees.pre, j ∉ (parsedDoc sampleLib docXml).trees.pre →
      ∀ a ∈ parsedAttrs sampleLib docXml j, a.value.names = none := by decide +kernel
  intro j hj hn a ha n
  have := h j hj hn a ha
  rw [Bool.eq_false_iff]
  intro hc
  cases hv : a.value <;> simp_all [AttributeValue.refersTo, AttributeValue.names]

end Svgdom
