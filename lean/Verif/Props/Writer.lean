import Verif.Proof.Writer
import Verif.Proof.Debug
import Verif.Props.Remove

/-!
# C45-C49: the writer
-/

set_option autoImplicit false

namespace Svgdom

open Relation

/-- A document with nested elements, a text, a comment, a reference, attributes of all kinds. -/
def writerHistory : List Op :=
  [.createElement (.id .Svg), .createElement (.id .Text), .createNode .text ['t'], .createNode .comment ['c'],
   .createElement (.id .Use), .createElement (.id .Rect),
   .append 0 1, .append 1 2, .append 2 3, .append 1 4, .append 1 5, .append 1 6, .setId 6 ['a'],
   .setAttribute 5 ⟨.name ['z'], .string ['v']⟩, .setAttribute 5 ⟨.id .X, .string ['1']⟩, .setAttribute 5 ⟨.id .Href, .link 6⟩,
   .setAttribute 5 ⟨.id .Fill, .none⟩, .setAttribute 6 ⟨.id .Unicode, .string ['é']⟩]

theorem writerHistory_state : ∃ s, Reachable s ∧ s.Acyclic ∧ s.debug = true ∧ s.live 1 = true ∧ s.parent 1 = some s.rootId ∧
    s.tagName 1 = .id .Svg ∧
    (∀ m, s.live m = true → s.InSubtree s.rootId m → s.isElement m = true → s.InSubtree 1 m) ∧
    s.live 5 = true ∧ s.InSubtree s.rootId 5 ∧ s.isElement 5 = true ∧
    s.attributes 5 = [⟨.name ['z'], .string ['v']⟩, ⟨.id .X, .string ['1']⟩, ⟨.id .Href, .link 6⟩, ⟨.id .Fill, .none⟩] ∧
    s.live 6 = true ∧ s.attributes 6 = [⟨.id .Unicode, .string ['é']⟩] ∧ s.idOf 6 = ['a'] := by
  obtain ⟨s, h, e⟩ := exists_of_holds (ops := writerHistory) (p := fun s =>
    (decide (s.nextId = 7) && s.acyclicB 7) && (s.debug && s.live 1) &&
    (decide (s.rootId = 0) && decide ([1, 2, 3, 4, 5, 6].map s.parent = [some 0, some 1, some 2, some 1, some 1, some 1])) &&
    (decide (s.tagName 1 = .id .Svg) && decide (s.nodeType 0 = .root)) &&
    (s.live 5 && s.isElement 5 && decide (s.attributes 5 = [⟨.name ['z'], .string ['v']⟩, ⟨.id .X, .string ['1']⟩, ⟨.id .Href, .link 6⟩,
      ⟨.id .Fill, .none⟩])) && (s.live 6 && decide (s.attributes 6 = [⟨.id .Unicode, .string ['é']⟩]) && decide (s.idOf 6 = ['a'])))
    (by decide +kernel)
  simp only [Bool.and_eq_true, decide_eq_true_eq, List.map_cons, List.map_nil, List.cons.injEq, and_true] at e
  obtain ⟨⟨⟨⟨⟨⟨h1, h2⟩, h3, h4⟩, h5, p1, p2, p3, p4, p5, p6⟩, h6, h7⟩, ⟨h8, h9⟩, h10⟩, ⟨h11, h12⟩, h13⟩ := e
  have hlt : ∀ i, s.live i = true → i < 7 := fun i hi => by rw [← h1]; exact h.inv.liveBelow i hi
  refine ⟨s, h, acyclic_of_check hlt h2, h3, h4, by rw [h5]; exact p1, h6, ?_, h8, ?_, h9, h10, h11, h12, h13⟩
  · intro m hm _ he
    have := hlt m hm
    have h1' : s.InSubtree 1 1 := .refl
    interval_cases m
    · simp [St.isElement, h7] at he
    · exact h1'
    · exact .head p2 h1'
    · exact .head p3 (.head p2 h1')
    · exact .head p4 h1'
    · exact .head p5 h1'
    · exact .head p6 h1'
  · rw [h5]; exact .head p5 (.head p1 .refl)

/-! ## C45 -/

/-- C45: the writer never panics on a finite tree, and its output (whitespace switches aside) is the markup of the trees below
the root: each element is its start tag, attributes, content and end tag, comments and texts are written in place. -/
theorem C45_markup {s : St} (h : Reachable s) (ha : s.Acyclic) (W : ValueWriter) {F : Forest} (hF : Describes s F) :
    ∃ T : Trees, ∃ evs, ∃ name : NodeId → Str, ∃ attrs : NodeId → List Ev,
      T.Of F (F.kids s.rootId) ∧ s.writeDom W = .ok evs ∧
      evs.filter Ev.isContent = T.markup s name attrs ∧
      ∀ i ∈ T.pre, s.IsName i (name i) ∧ s.writeAttributes W i = .ok (attrs i) ∧ ∀ e ∈ attrs i, e.isAttribute = true := by
  have hroot : s.live s.rootId = true := by
    obtain ⟨_, hT⟩ := h.inv.tree; exact hT.root
  obtain ⟨T0, hT0, _, he, _⟩ := C07_traverse h ha hF hroot
  obtain ⟨K, R, rfl, hK, hR⟩ := hT0.cons_list
  have hRn : R = .nil := by
    cases R with
    | nil => rfl
    | cons j k r => obtain ⟨l, e, _⟩ := hR; simp at e
  subst hRn
  have hkl : ∀ c ∈ F.kids s.rootId, s.live c = true := fun c hc => (hF.wf.kids _ hroot c hc).1
  have hname : ∀ i, ∃ x, s.IsName i x := by
    intro i
    unfold St.IsName
    split
    · next e _ => exact asStr_elem e
    · next y _ => exact ⟨y, rfl⟩
  choose name hname using hname
  have hattrs : ∀ i, ∃ es, s.live i = true → s.writeAttributes W i = .ok es ∧ ∀ e ∈ es, e.isAttribute = true := by
    intro i
    cases hi : s.live i with
    | false => exact ⟨[], by simp⟩
    | true =>
      obtain ⟨es, h1, h2⟩ := writeAttributes_ok h ha W hi
      exact ⟨es, fun _ => ⟨h1, h2⟩⟩
  choose attrs hattrs using hattrs
  have hlive : ∀ i ∈ (Trees.cons s.rootId K .nil).pre, s.live i = true :=
    pre_live hF hT0 (by simpa using hroot)
  obtain ⟨evs, e1, e2⟩ := writeEdges_markup (s := s) (W := W) (name := name) (attrs := attrs) (Trees.cons s.rootId K .nil)
    (fun i _ => hname i) (fun i hi => (hattrs i (hlive i hi)).1) (fun i hi => (hattrs i (hlive i hi)).2)
  refine ⟨K, evs, name, attrs, hK, ?_, ?_, ?_⟩
  · simp only [St.writeDom, he, bind, Except.bind]; exact e1
  · rw [e2]
    have : s.nodeType s.rootId = .root := (h.nodesOk.root _ hroot).2 rfl
    simp [Trees.markup, this]
  · intro i hi
    have hl := hlive i (by simp [Trees.pre, hi])
    exact ⟨hname i, hattrs i hl⟩

/-- C45: start and end tags are balanced. -/
theorem C45_balanced {s : St} (h : Reachable s) (ha : s.Acyclic) (W : ValueWriter) :
    ∃ evs, s.writeDom W = .ok evs ∧ Balanced (evs.filter Ev.isContent) := by
  obtain ⟨F, hF⟩ := C01_forest h
  obtain ⟨T, evs, name, attrs, _, e, hm, hall⟩ := C45_markup h ha W hF
  refine ⟨evs, e, ?_⟩
  rw [hm]
  exact markup_balanced T fun i hi => (hall i hi).2.2

/-- C45: one start tag per element, one event per text and comment, in document order. -/
theorem C45_order {s : St} (h : Reachable s) (ha : s.Acyclic) (W : ValueWriter) {F : Forest} (hF : Describes s F) :
    ∃ T : Trees, ∃ evs, ∃ name : NodeId → Str, T.Of F (F.kids s.rootId) ∧ s.writeDom W = .ok evs ∧
      (∀ i ∈ T.pre, s.IsName i (name i)) ∧
      startNames evs = (T.pre.filter fun i => s.isElement i).map name ∧
      evs.count .endElement = (T.pre.filter fun i => s.isElement i).length ∧
      textsOf evs = (T.pre.filter fun i => s.isText i).map s.text ∧
      commentsOf evs = (T.pre.filter fun i => s.isComment i).map s.text := by
  obtain ⟨T, evs, name, attrs, hT, e, hm, hall⟩ := C45_markup h ha W hF
  refine ⟨T, evs, name, hT, e, fun i hi => (hall i hi).1, ?_⟩
  have key : ∀ T : Trees, (∀ i ∈ T.pre, ∀ e ∈ attrs i, e.isAttribute = true) →
      startNames (T.markup s name attrs) = (T.pre.filter fun i => s.isElement i).map name ∧
      (T.markup s name attrs).count .endElement = (T.pre.filter fun i => s.isElement i).length ∧
      textsOf (T.markup s name attrs) = (T.pre.filter fun i => s.isText i).map s.text ∧
      commentsOf (T.markup s name attrs) = (T.pre.filter fun i => s.isComment i).map s.text := by
    have hA : ∀ l : List Ev, (∀ e ∈ l, e.isAttribute = true) →
        startNames l = [] ∧ l.count .endElement = 0 ∧ textsOf l = [] ∧ commentsOf l = [] := by
      intro l
      induction l with
      | nil => intro _; exact ⟨rfl, rfl, rfl, rfl⟩
      | cons e l ih =>
        intro hl
        obtain ⟨h1, h2, h3, h4⟩ := ih fun x hx => hl x (by simp [hx])
        have he := hl e (by simp)
        unfold startNames at h1
        unfold textsOf at h3
        unfold commentsOf at h4
        cases e <;> simp_all [Ev.isAttribute, startNames, textsOf, commentsOf]
    intro T
    induction T with
    | nil => intro _; exact ⟨rfl, rfl, rfl, rfl⟩
    | cons i K R ihK ihR =>
      intro hl
      obtain ⟨k1, k2, k3, k4⟩ := ihK fun j hj => hl j (by simp [Trees.pre, hj])
      obtain ⟨r1, r2, r3, r4⟩ := ihR fun j hj => hl j (by simp [Trees.pre, hj])
      obtain ⟨a1, a2, a3, a4⟩ := hA (attrs i) (hl i (by simp [Trees.pre]))
      unfold startNames at k1 r1 a1
      unfold textsOf at k3 r3 a3
      unfold commentsOf at k4 r4 a4
      cases ht : s.nodeType i <;>
        simp [Trees.markup, ht, startNames, textsOf, commentsOf, Trees.pre, List.filter_append, List.filterMap_append,
          List.filter_cons, List.count_append, St.isElement, St.isText, St.isComment, k1, k2, k3, k4, r1, r2, r3, r4, a1, a2, a3, a4] <;>
        simp_all [St.isElement, St.isText, St.isComment] <;> omega
  have hc : ∀ l : List Ev, startNames (l.filter Ev.isContent) = startNames l ∧
      (l.filter Ev.isContent).count .endElement = l.count .endElement ∧
      textsOf (l.filter Ev.isContent) = textsOf l ∧ commentsOf (l.filter Ev.isContent) = commentsOf l := by
    intro l
    induction l with
    | nil => exact ⟨rfl, rfl, rfl, rfl⟩
    | cons e l ih =>
      obtain ⟨h1, h2, h3, h4⟩ := ih
      unfold startNames at h1
      unfold textsOf at h3
      unfold commentsOf at h4
      cases e <;> simp [Ev.isContent, startNames, textsOf, commentsOf, List.filter_cons, h1, h2, h3, h4]
  obtain ⟨c1, c2, c3, c4⟩ := hc evs
  obtain ⟨k1, k2, k3, k4⟩ := key T fun i hi => (hall i hi).2.2
  rw [← c1, ← c2, ← c3, ← c4, hm]
  exact ⟨k1, k2, k3, k4⟩

/-- The hypotheses of C45 are met by a document with all node types. -/
example : ∃ s F, Reachable s ∧ s.Acyclic ∧ Describes s F ∧ s.InSubtree s.rootId 5 := by
  obtain ⟨s, h, ha, _, _, _, _, _, _, h5, _⟩ := writerHistory_state
  obtain ⟨F, hF⟩ := C01_forest h
  exact ⟨s, F, h, ha, hF, h5⟩

/-! ## C46 -/

theorem namespaceDecls {s : St} (h : Reachable s) (ha : s.Acyclic) {n : NodeId} (hn : s.live n = true) {ns : List Ev}
    (e1 : s.writeNamespaces n = .ok ns) : NamespaceDecls s n ns := by
  obtain ⟨l, hl, _, _, hmem⟩ := C07_descendants h ha hn
  have hlive : ∀ m ∈ l, s.live m = true := by
    obtain ⟨F, hF⟩ := C01_forest h
    obtain ⟨T, hT, _, _, hd⟩ := C07_traverse h ha hF hn
    rw [hl] at hd; cases hd
    exact pre_live hF hT (by simpa using hn)
  have hpar : ((s.parent n).map s.isRoot = some true) ↔ ∃ p, s.parent n = some p ∧ s.nodeType p = .root := by
    cases s.parent n <;> simp [St.isRoot]
  have htop : s.TopSvg n ↔ s.hasTagName n (.id .Svg) = true ∧ (s.parent n).map s.isRoot = some true := by
    rw [hpar, St.TopSvg, St.hasTagName, decide_eq_true_eq]
  have huse : (l.any fun m => s.hasAttribute m (.id .Href)) = true ↔ s.UsesXlink n := by
    rw [List.any_eq_true]
    constructor
    · rintro ⟨m, hm, hh⟩
      exact ⟨m, hlive m hm, (hmem m (hlive m hm)).1 hm, by simpa [St.hasAttribute, attrsContains] using hh⟩
    · rintro ⟨m, h1, h2, h3⟩
      exact ⟨m, (hmem m h1).2 h2, by simpa [St.hasAttribute, attrsContains] using h3⟩
  unfold St.writeNamespaces at e1
  by_cases ht : s.TopSvg n
  · rw [if_pos (htop.1 ht).1, if_pos (htop.1 ht).2] at e1
    simp only [hl, bind, Except.bind, pure, Except.pure, Except.ok.injEq] at e1
    subst e1
    refine ⟨fun h => absurd ht h, fun _ hu => ?_, fun _ hu => ?_⟩
    · rw [if_neg (fun hx => hu (huse.1 hx))]; rfl
    · rw [if_pos (huse.2 hu)]; rfl
  · have : ns = [] := by
      split at e1
      · split at e1
        · next h1 h2 => exact absurd (htop.2 ⟨h1, h2⟩) ht
        · cases e1; rfl
      · cases e1; rfl
    exact ⟨fun _ => this, fun h => absurd h ht, fun h => absurd h ht⟩

/-- C46: namespace declarations, then the id if there is one, then the SVG attributes sorted by id, each exactly once, then the
others in insertion order. Only a `unicode` that is not a string is left out. -/
theorem C46_attributes {s : St} (h : Reachable s) (ha : s.Acyclic) (W : ValueWriter) {n : NodeId} (hn : s.live n = true) :
    ∃ (ns : List Ev) (L : List (AttributeId × AttributeValue)) (name : AttributeId → Str),
      s.writeAttributes W n = .ok (ns ++
        (if s.idOf n = [] then [] else [.attribute st!"id" (s.idOf n)]) ++
        (L.flatMap fun p => s.svgEvents W (name p.1) p) ++
        (otherPairs (s.attributes n)).map fun p => .attributeRaw p.1 (s.writeValue W p.2)) ∧
      NamespaceDecls s n ns ∧ (∀ e ∈ ns, e = xmlnsDecl ∨ e = xlinkDecl) ∧
      L.Perm (svgPairs (s.attributes n)) ∧ (L.Pairwise fun a b => a.1.toNat < b.1.toNat) ∧
      ∀ i : AttributeId, i.IsQualified (name i) := by
  have hname : ∀ i, ∃ x, St.writtenName i = .ok x := writtenName_ok
  choose name hname using hname
  obtain ⟨ns, e1, _⟩ := writeNamespaces_ok h ha hn
  have e2 := writeSvg_events (s := s) W (n := n) hname (sortByKey (attrsSvg (s.attributes n))) (by
    intro p hp
    have := attrsSvg_mem ((sortByKey_perm _).mem_iff.1 hp)
    exact attrsGet_mem (h.inv.link.names n hn) this.1)
  refine ⟨ns, (sortByKey (attrsSvg (s.attributes n))).map fun p => (p.1, p.2.value), name, ?_, namespaceDecls h ha hn e1, ?_, ?_, ?_, ?_⟩
  · have : (if s.hasIdAttr n then [Ev.attribute st!"id" (s.idOf n)] else []) =
        if s.idOf n = [] then [] else [Ev.attribute st!"id" (s.idOf n)] := by
      unfold St.hasIdAttr
      by_cases hh : s.idOf n = [] <;> simp [hh]
    simp only [St.writeAttributes, e1, e2, bind, Except.bind, pure, Except.pure, otherPairs_eq]
    rw [this]
  · intro e he
    unfold St.writeNamespaces at e1
    obtain ⟨l, hl, _⟩ := C07_descendants h ha hn
    split at e1
    · split at e1
      · simp only [hl, bind, Except.bind, pure, Except.pure, Except.ok.injEq] at e1
        subst e1
        rcases List.mem_cons.1 he with rfl | he
        · exact Or.inl rfl
        · split at he
          · rw [List.mem_singleton] at he; exact Or.inr he
          · simp at he
      · cases e1; simp at he
    · cases e1; simp at he
  · rw [svgPairs_eq]; exact (sortByKey_perm _).map _
  · exact sorted_strict (h.inv.link.names n hn)
  · intro i; exact writtenName_qualified (hname i)

/-- C46: every SVG attribute of the element (except a `unicode` that is not a string) is written exactly once. -/
theorem C46_count {s : St} (h : Reachable s) (ha : s.Acyclic) (W : ValueWriter) {n : NodeId} (hn : s.live n = true) :
    ∃ es, s.writeAttributes W n = .ok es ∧
      ((es.filter fun e => match e with | .attributeRaw _ _ => true | _ => false).length =
        (s.attributes n).countP fun a => decide (a.name ≠ .id .Unicode) || match a.value with | .string _ => true | _ => false) := by
  obtain ⟨ns, L, name, e, _, hns, hL, _, _⟩ := C46_attributes h ha W hn
  refine ⟨_, e, ?_⟩
  simp only [List.filter_append, List.length_append]
  have h1 : ns.filter (fun e => match e with | .attributeRaw _ _ => true | _ => false) = [] := by
    rw [List.filter_eq_nil_iff]
    intro x hx
    rcases hns x hx with rfl | rfl <;> simp [xlinkDecl, xmlnsDecl]
  have h2 : (if s.idOf n = [] then [] else [Ev.attribute st!"id" (s.idOf n)]).filter
      (fun e => match e with | .attributeRaw _ _ => true | _ => false) = [] := by split <;> rfl
  rw [h1, h2]
  have h3 : ∀ L : List (AttributeId × AttributeValue),
      ((L.flatMap fun p => s.svgEvents W (name p.1) p).filter (fun e => match e with | .attributeRaw _ _ => true | _ => false)).length =
      L.countP fun p => decide (p.1 ≠ .Unicode) || match p.2 with | .string _ => true | _ => false := by
    intro L
    induction L with
    | nil => rfl
    | cons p L ih =>
      rw [List.flatMap_cons, List.filter_append, List.length_append, ih, List.countP_cons, Nat.add_comm]
      congr 1
      obtain ⟨i, v⟩ := p
      unfold St.svgEvents
      split
      · next hh => cases hh; simp
      · next hne hh =>
        obtain ⟨rfl, rfl⟩ := Prod.mk.inj hh
        cases v <;> simp_all
      · next hne hh =>
        cases hh
        have : i ≠ .Unicode := fun hu => hne hu
        simp [this]
  rw [h3, hL.countP_eq]
  simp only [List.length_nil, Nat.zero_add]
  have h4 : ∀ l : List Attribute,
      (svgPairs l).countP (fun p => decide (p.1 ≠ .Unicode) || match p.2 with | .string _ => true | _ => false) +
      (((otherPairs l).map fun p => Ev.attributeRaw p.1 (s.writeValue W p.2)).filter
        (fun e => match e with | .attributeRaw _ _ => true | _ => false)).length =
      l.countP fun a => decide (a.name ≠ .id .Unicode) || match a.value with | .string _ => true | _ => false := by
    intro l
    induction l with
    | nil => rfl
    | cons a l ih =>
      obtain ⟨nm, v⟩ := a
      cases nm with
      | id i =>
        have : otherPairs (⟨.id i, v⟩ :: l) = otherPairs l := rfl
        rw [this]
        have : svgPairs (⟨.id i, v⟩ :: l) = (i, v) :: svgPairs l := rfl
        rw [this, List.countP_cons, List.countP_cons, ← ih]
        simp
        omega
      | name x =>
        have : otherPairs (⟨.name x, v⟩ :: l) = (x, v) :: otherPairs l := rfl
        rw [this]
        have : svgPairs (⟨.name x, v⟩ :: l) = svgPairs l := rfl
        rw [this, List.countP_cons, ← ih]
        simp
        omega
  exact h4 _

/-- The hypotheses of C46 are met by an element with three SVG attributes and another one; four attributes are written. -/
example (W : ValueWriter) : ∃ s es, Reachable s ∧ s.Acyclic ∧ s.live 5 = true ∧ s.writeAttributes W 5 = .ok es ∧
    (es.filter fun e => match e with | .attributeRaw _ _ => true | _ => false).length = 4 := by
  obtain ⟨s, h, ha, _, _, _, _, _, h5, _, _, ha5, _⟩ := writerHistory_state
  obtain ⟨es, e, hc⟩ := C46_count h ha W h5
  refine ⟨s, es, h, ha, h5, e, ?_⟩
  rw [hc, ha5]
  rfl

/-! ## C47 -/

theorem mem_namespaces {s : St} (h : Reachable s) (ha : s.Acyclic) (W : ValueWriter) {n : NodeId} (hn : s.live n = true)
    {es : List Ev} (e : s.writeAttributes W n = .ok es) :
    xlinkDecl ∈ es ↔ s.tagName n = .id .Svg ∧ (∃ p, s.parent n = some p ∧ s.nodeType p = .root) ∧
      ∃ m, s.live m = true ∧ s.InSubtree n m ∧ s.hasAttribute m (.id .Href) = true := by
  obtain ⟨l, hl, _, _, hmem⟩ := C07_descendants h ha hn
  have hlive : ∀ m ∈ l, s.live m = true := by
    obtain ⟨F, hF⟩ := C01_forest h
    obtain ⟨T, hT, _, _, hd⟩ := C07_traverse h ha hF hn
    rw [hl] at hd; cases hd
    exact pre_live hF hT (by simpa using hn)
  have hns : ∀ ns, s.writeNamespaces n = .ok ns → (xlinkDecl ∈ es ↔ xlinkDecl ∈ ns) := by
    intro ns hns
    unfold St.writeAttributes at e
    simp only [hns, bind_ok, pure_ok] at e
    obtain ⟨_, hx, sv, hsv, rfl⟩ := e
    cases hx
    obtain ⟨sv', hsv', _⟩ := writeSvgAttributes_ok (s := s) W (n := n) (sortByKey (attrsSvg (s.attributes n))) (by
      intro p hp
      have := attrsSvg_mem ((sortByKey_perm _).mem_iff.1 hp)
      exact attrsGet_mem (h.inv.link.names n hn) this.1)
    have hname : ∀ i, ∃ x, St.writtenName i = .ok x := writtenName_ok
    choose name hname using hname
    have e2 := writeSvg_events (s := s) W (n := n) hname (sortByKey (attrsSvg (s.attributes n))) (by
      intro p hp
      have := attrsSvg_mem ((sortByKey_perm _).mem_iff.1 hp)
      exact attrsGet_mem (h.inv.link.names n hn) this.1)
    rw [hsv] at e2; cases e2
    constructor
    · intro hx
      simp only [List.mem_append] at hx
      rcases hx with ((hx | hx) | hx) | hx
      · exact hx
      · split at hx
        · simp [xlinkDecl] at hx
        · simp at hx
      · obtain ⟨p, _, hp⟩ := List.mem_flatMap.1 hx
        exfalso
        unfold St.svgEvents at hp
        split at hp <;> simp [xlinkDecl] at hp
      · rw [otherPairs_eq] at hx
        obtain ⟨p, _, hp⟩ := List.mem_map.1 hx
        simp [xlinkDecl] at hp
    · intro hx
      simp only [List.mem_append]
      exact Or.inl (Or.inl (Or.inl hx))
  obtain ⟨ns, e1, _⟩ := writeNamespaces_ok h ha hn
  rw [hns ns e1]
  unfold St.writeNamespaces at e1
  have hpar : ((s.parent n).map s.isRoot = some true) ↔ ∃ p, s.parent n = some p ∧ s.nodeType p = .root := by
    cases s.parent n <;> simp [St.isRoot]
  split at e1
  · next ht =>
    have ht : s.tagName n = .id .Svg := of_decide_eq_true ht
    split at e1
    · next hp =>
      simp only [hl, bind, Except.bind, pure, Except.pure, Except.ok.injEq] at e1
      subst e1
      have : (xlinkDecl ∈ (if (l.any fun m => s.hasAttribute m (.id .Href)) = true then [xlinkDecl] else [])) ↔
          ∃ m, s.live m = true ∧ s.InSubtree n m ∧ s.hasAttribute m (.id .Href) = true := by
        constructor
        · intro hx
          split at hx
          · next ha =>
            obtain ⟨m, hm, hh⟩ := List.any_eq_true.1 ha
            exact ⟨m, hlive m hm, (hmem m (hlive m hm)).1 hm, hh⟩
          · simp at hx
        · rintro ⟨m, h1, h2, h3⟩
          rw [if_pos (List.any_eq_true.2 ⟨m, (hmem m h1).2 h2, h3⟩)]
          simp
      simp only [xlinkDecl] at this
      simp only [xlinkDecl, List.mem_cons, this, hpar.1 hp, ht, true_and]
      constructor
      · rintro (hx | hx)
        · exact absurd hx (by decide)
        · exact hx
      · exact Or.inr
    · next hp => cases e1; simp [hpar.not.1 hp]
  · next ht =>
    cases e1
    have : s.tagName n ≠ .id .Svg := fun hh => ht (decide_eq_true hh)
    simp [this]

/-- C47: if `n`, an `svg`, is the only top-level element, the declaration of `xlink` is written on it iff some element of the
document has an `href` (debug builds, where only elements have attributes). -/
theorem C47_declared {s : St} (h : Reachable s) (ha : s.Acyclic) (hd : s.debug = true) (W : ValueWriter) {n : NodeId}
    (hn : s.live n = true) (hp : s.parent n = some s.rootId) (ht : s.tagName n = .id .Svg)
    (honly : ∀ m, s.live m = true → s.InSubtree s.rootId m → s.isElement m = true → s.InSubtree n m) :
    ∃ es, s.writeAttributes W n = .ok es ∧
      (xlinkDecl ∈ es ↔ ∃ m, s.live m = true ∧ s.InSubtree s.rootId m ∧ s.isElement m = true ∧
        ∃ a ∈ s.attributes m, a.name = .id .Href) := by
  obtain ⟨es, e, _⟩ := writeAttributes_ok h ha W hn
  refine ⟨es, e, ?_⟩
  have hroot : s.live s.rootId = true := by
    obtain ⟨_, hT⟩ := h.inv.tree; exact hT.root
  rw [mem_namespaces h ha W hn e]
  have hattr : ∀ m, s.hasAttribute m (.id .Href) = true ↔ ∃ a ∈ s.attributes m, a.name = .id .Href := by
    intro m; simp [St.hasAttribute, attrsContains]
  constructor
  · rintro ⟨_, _, m, h1, h2, h3⟩
    obtain ⟨a, ham, hae⟩ := (hattr m).1 h3
    refine ⟨m, h1, h2.tail hp, ?_, a, ham, hae⟩
    exact decide_eq_true (h.attrsOnElements hd m h1 (List.ne_nil_of_mem ham))
  · rintro ⟨m, h1, h2, h3, h4⟩
    exact ⟨ht, ⟨_, hp, (h.nodesOk.root _ hroot).2 rfl⟩, m, h1, honly m h1 h2 h3, (hattr m).2 h4⟩

/-- C47, any build: on the only top-level element the declaration is written whenever `xlink:href` is written for an `href`
attribute of any element of the document. -/
theorem C47_no_undeclared {s : St} (h : Reachable s) (ha : s.Acyclic) (W : ValueWriter) {n : NodeId}
    (hn : s.live n = true) (hp : s.parent n = some s.rootId) (ht : s.tagName n = .id .Svg)
    (honly : ∀ m, s.live m = true → s.InSubtree s.rootId m → s.isElement m = true → s.InSubtree n m)
    {m : NodeId} (hm : s.live m = true) (hin : s.InSubtree s.rootId m) (hel : s.isElement m = true) {es : List Ev} {v : Str}
    (e : s.writeAttributes W m = .ok es) (hv : .attributeRaw st!"xlink:href" v ∈ es)
    (hother : ∀ a ∈ s.attributes m, a.name ≠ .name st!"xlink:href") :
    ∃ es', s.writeAttributes W n = .ok es' ∧ xlinkDecl ∈ es' := by
  obtain ⟨es', e', _⟩ := writeAttributes_ok h ha W hn
  refine ⟨es', e', ?_⟩
  have hroot : s.live s.rootId = true := by
    obtain ⟨_, hT⟩ := h.inv.tree; exact hT.root
  rw [mem_namespaces h ha W hn e']
  refine ⟨ht, ⟨_, hp, (h.nodesOk.root _ hroot).2 rfl⟩, m, hm, honly m hm hin hel, ?_⟩
  obtain ⟨ns, L, name, e1, _, hns, hL, _, hq⟩ := C46_attributes h ha W hm
  rw [e] at e1; cases e1
  simp only [List.mem_append] at hv
  rcases hv with ((hv | hv) | hv) | hv
  · rcases hns _ hv with hx | hx <;> simp [xlinkDecl, xmlnsDecl] at hx
  · split at hv <;> simp at hv
  · obtain ⟨p, hpL, hpe⟩ := List.mem_flatMap.1 hv
    have hnm : name p.1 = st!"xlink:href" := by
      unfold St.svgEvents at hpe
      split at hpe <;> simp at hpe <;> exact hpe.1.symm
    have hq := hq p.1
    rw [hnm] at hq
    have hp1 : p.1 = .Href := by
      unfold AttributeId.IsQualified at hq
      split at hq
      · assumption
      · simp at hq
      · obtain ⟨nm, h1, h2⟩ := C27_attribute_roundtrip p.1
        rw [hq] at h1; cases h1
        have : AttributeId.fromStr? st!"xlink:href" = .ok none := by decide +kernel
        rw [this] at h2
        simp at h2
    have := hL.mem_iff.1 hpL
    unfold svgPairs at this
    rw [List.mem_filterMap] at this
    obtain ⟨⟨nm, val⟩, ham, hae⟩ := this
    cases nm with
    | name x => simp at hae
    | id i =>
      simp only [Option.some.injEq] at hae
      subst hae
      simp only at hp1
      subst hp1
      exact List.any_eq_true.2 ⟨_, ham, by simp⟩
  · obtain ⟨p, hpo, hpe⟩ := List.mem_map.1 hv
    exfalso
    unfold otherPairs at hpo
    rw [List.mem_filterMap] at hpo
    obtain ⟨⟨nm, val⟩, ham, hae⟩ := hpo
    cases nm with
    | id i => simp at hae
    | name x =>
      simp only [Option.some.injEq] at hae
      subst hae
      refine hother _ ham ?_
      simp at hpe
      simp [hpe.1]

/-- The hypotheses of C47 are met, and the declaration is written. -/
example (W : ValueWriter) : ∃ s es, Reachable s ∧ s.writeAttributes W 1 = .ok es ∧ xlinkDecl ∈ es := by
  obtain ⟨s, h, ha, hd, h1, hp, ht, ho, h5, hs, he, ha5, _⟩ := writerHistory_state
  obtain ⟨es, e, hx⟩ := C47_declared h ha hd W h1 hp ht ho
  exact ⟨s, es, h, e, hx.2 ⟨5, h5, hs, he, ⟨.id .Href, .link 6⟩, by rw [ha5]; simp, rfl⟩⟩

/-- C47 needs the `svg`: below another top-level element `xlink:href` is written without any declaration. -/
theorem C47_needs_svg : ∃ s, Reachable s ∧ s.Acyclic ∧ (∀ W, ∃ evs, s.writeDom W = .ok evs ∧
    .attributeRaw st!"xlink:href" st!"#a" ∈ evs ∧ ∀ v, .attribute st!"xmlns:xlink" v ∉ evs) := by
  obtain ⟨s, h, e⟩ := exists_of_holds
    (ops := [.createElement (.id .G), .createElement (.id .Use), .createElement (.id .Rect), .append 0 1, .append 1 2, .append 1 3,
      .setId 3 ['a'], .setAttribute 2 ⟨.id .Href, .link 3⟩])
    (p := fun s => decide (s.nextId = 4) && s.acyclicB 4 &&
      (match s.edgeList s.rootId with
        | .ok l => decide (l = [.start 0, .start 1, .start 2, .stop 2, .start 3, .stop 3, .stop 1, .stop 0])
        | .error _ => false) &&
      decide ([0, 1, 2, 3].map s.attributes = [[], [], [⟨.id .Href, .link 3⟩], []]) &&
      decide ([0, 1, 2, 3].map s.nodeType = [.root, .element, .element, .element]) &&
      decide ([0, 1, 2, 3].map s.tagName = [.name [], .id .G, .id .Use, .id .Rect]) &&
      decide ([1, 2, 3].map s.idOf = [[], [], ['a']])) (by decide +kernel)
  simp only [Bool.and_eq_true, decide_eq_true_eq, List.map_cons, List.map_nil, List.cons.injEq, and_true] at e
  obtain ⟨⟨⟨⟨⟨⟨h1, h2⟩, h3⟩, ⟨a0, a1, a2, a3⟩⟩, ⟨t0, t1, t2, t3⟩⟩, ⟨g0, g1, g2, g3⟩⟩, ⟨i1, i2, i3⟩⟩ := e
  split at h3
  · next l hl =>
    have h3 := of_decide_eq_true h3
    subst h3
    refine ⟨s, h, acyclic_of_check (fun i hi => by rw [← h1]; exact h.inv.liveBelow i hi) h2, fun W => ?_⟩
    have n1 : ElementId.G.asStr? = .ok st!"g" := by decide +kernel
    have n2 : ElementId.Use.asStr? = .ok st!"use" := by decide +kernel
    have n3 : ElementId.Rect.asStr? = .ok st!"rect" := by decide +kernel
    simp [St.writeDom, hl, St.writeEdges, St.writeStart, t0, t1, t2, t3, g0, g1, g2, g3, n1, n2, n3, St.writeAttributes,
      St.writeNamespaces, St.hasTagName, St.hasIdAttr, i1, i2, i3, a1, a2, a3, attrsSvg, sortByKey, insertByKey,
      St.writeSvgAttributes, St.writeSvgAttribute, attrsGet, St.writtenName, St.writeValue, St.writeOtherAttributes,
      St.writeEnd, St.isElement, bind, Except.bind, pure, Except.pure]
  · simp at h3

/-! ## C48 -/

/-- C48: decoding the references written for a string gives it back. -/
theorem C48_roundtrip (t : Str) (h : ¬ st!"&#" <+: t) : ∃ k, decodeRefs k (writeEscaped t) = some t := by
  refine ⟨t.length, ?_⟩
  have : st!"&#".isPrefixOf t = false := by
    rw [Bool.eq_false_iff]
    intro hh
    exact h (List.isPrefixOf_iff_prefix.1 hh)
  unfold writeEscaped
  rw [this]
  exact decode_escape t _ (Nat.le_refl _)

/-- C48: strings starting with `&#` are written as they are. -/
theorem C48_verbatim (t : Str) (h : st!"&#" <+: t) : writeEscaped t = t := by
  unfold writeEscaped
  rw [List.isPrefixOf_iff_prefix.2 h]
  rfl

/-- C48: the value written for a `unicode` attribute is the escaped string. -/
theorem C48_written {s : St} (h : Reachable s) (ha : s.Acyclic) (W : ValueWriter) {n : NodeId} (hn : s.live n = true) {t : Str}
    (ht : ⟨.id .Unicode, .string t⟩ ∈ s.attributes n) (hp : ¬ st!"&#" <+: t) :
    ∃ es x k, s.writeAttributes W n = .ok es ∧ .attributeRaw st!"unicode" x ∈ es ∧ decodeRefs k x = some t := by
  obtain ⟨ns, L, name, e, _, _, hL, _, hq⟩ := C46_attributes h ha W hn
  obtain ⟨k, hk⟩ := C48_roundtrip t hp
  refine ⟨_, writeEscaped t, k, e, ?_, hk⟩
  have hmem : (AttributeId.Unicode, AttributeValue.string t) ∈ L := by
    refine hL.mem_iff.2 ?_
    unfold svgPairs
    exact List.mem_filterMap.2 ⟨_, ht, rfl⟩
  have hname : name .Unicode = st!"unicode" := by
    have : AttributeId.Unicode.asStr? = .ok st!"unicode" := by decide +kernel
    have hx : AttributeId.Unicode.asStr? = .ok (name .Unicode) := hq .Unicode
    rw [this] at hx
    exact (Except.ok.inj hx).symm
  simp only [List.mem_append, List.mem_flatMap]
  refine Or.inl (Or.inr ⟨_, hmem, ?_⟩)
  simp [St.svgEvents, hname]

/-- The hypotheses of C48 are met. -/
example (W : ValueWriter) : ∃ s es x k, Reachable s ∧ s.writeAttributes W 6 = .ok es ∧ .attributeRaw st!"unicode" x ∈ es ∧
    decodeRefs k x = some ['é'] := by
  obtain ⟨s, h, ha, _, _, _, _, _, _, _, _, _, h6, ha6, _⟩ := writerHistory_state
  obtain ⟨es, x, k, h1, h2, h3⟩ := C48_written h ha W h6 (t := ['é']) (by rw [ha6]; simp) (by decide)
  exact ⟨s, es, x, k, h, h1, h2, h3⟩

example : writeEscaped st!"aé" = st!"&#x61;&#xe9;" ∧ writeEscaped st!"&#x61;" = st!"&#x61;" := by decide +kernel

/-! ## C49 -/

/-- C49: a reference is written with the current id of its target. -/
theorem C49_current (s : St) (W : ValueWriter) (n : NodeId) (fb : Option PaintFallback) :
    s.writeValue W (.link n) = st!"#" ++ s.idOf n ∧
    s.writeValue W (.funcLink n) = st!"url(#" ++ s.idOf n ++ st!")" ∧
    ∃ rest, s.writeValue W (.paint n fb) = st!"url(#" ++ s.idOf n ++ st!")" ++ rest ∧ (rest = [] ↔ fb = none) ∧
      (fb = some .none → rest = st!" none") ∧ (fb = some .currentColor → rest = st!" currentColor") ∧
      ∀ c, fb = some (.color c) → rest = st!" " ++ s.writeValue W (.color c) := by
  refine ⟨rfl, rfl, _, rfl, ?_, ?_, ?_, ?_⟩
  · cases fb <;> simp
  · rintro rfl; rfl
  · rintro rfl; rfl
  · rintro c rfl; rfl

/-- C49: after `set_id` no attribute of any node has changed, all references to the node are written with the new id, all other
values as before. -/
theorem C49_setId {s t : St} {n : NodeId} {new : Str} (e : s.setId n new = .ok t) (W : ValueWriter) :
    t.attributes = s.attributes ∧
    t.writeValue W (.link n) = st!"#" ++ new ∧ t.writeValue W (.funcLink n) = st!"url(#" ++ new ++ st!")" ∧
    (∀ fb, st!"url(#" ++ new ++ st!")" <+: t.writeValue W (.paint n fb)) ∧
    ∀ v : AttributeValue, v.refersTo n = false → t.writeValue W v = s.writeValue W v := by
  unfold St.setId at e
  simp only [bind_ok, pure_ok] at e
  obtain ⟨_, _, rfl⟩ := e
  have hid : (s.setD n fun d => { d with id := new }).idOf n = new := by simp [St.idOf, St.setD_data]
  refine ⟨?_, by simp only [St.writeValue, hid]; rfl, by simp only [St.writeValue, hid], ?_, ?_⟩
  · funext j
    simp only [St.attributes, St.setD_data]
    split
    · next hj => rw [hj]
    · rfl
  · intro fb
    simp only [St.writeValue, hid]
    exact List.prefix_append ..
  · intro v hv
    have : ∀ m, m ≠ n → (s.setD n fun d => { d with id := new }).idOf m = s.idOf m := by
      intro m hm
      simp [St.idOf, St.setD_data, hm]
    cases v with
    | link m => simp only [AttributeValue.refersTo, decide_eq_false_iff_not] at hv; simp only [St.writeValue, this m hv]
    | funcLink m => simp only [AttributeValue.refersTo, decide_eq_false_iff_not] at hv; simp only [St.writeValue, this m hv]
    | paint m fb => simp only [AttributeValue.refersTo, decide_eq_false_iff_not] at hv; simp only [St.writeValue, this m hv]
    | _ => rfl

/-- `set_id` on the target of a reference: the hypothesis of C49 is met. -/
example (W : ValueWriter) : ∃ s t, Reachable s ∧ s.setId 6 ['n', 'e', 'w'] = .ok t ∧ ⟨.id .Href, .link 6⟩ ∈ t.attributes 5 ∧
    t.writeValue W (.link 6) = st!"#new" := by
  obtain ⟨s, h, e⟩ := exists_of_holds (ops := writerHistory) (p := fun s => okAnd (s.setId 6 ['n', 'e', 'w']) fun _ =>
    decide (⟨.id .Href, .link 6⟩ ∈ s.attributes 5)) (by decide +kernel)
  rw [okAnd_iff] at e
  obtain ⟨t, e, hm⟩ := e
  have := C49_setId e W
  exact ⟨s, t, h, e, by rw [this.1]; exact of_decide_eq_true hm, this.2.1⟩

end Svgdom
