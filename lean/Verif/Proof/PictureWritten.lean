import Verif.Proof.Picture
import Verif.Model.Writer

/-! States with the same picture are written alike. -/

set_option autoImplicit false

namespace Svgdom

/-- Two states that are written alike, as far as the nodes `D` are concerned. -/
structure Alike (s t : St) (D : NodeId → Prop) : Prop where
  look : ∀ {i}, D i → t.look i = s.look i
  target : ∀ {i}, D i → ∀ a ∈ s.attributes i, ∀ n, a.value.linkNode = some n → t.idOf n = s.idOf n
  above : ∀ {i}, D i → s.nodeType i = .element → (t.parent i).map t.isRoot = (s.parent i).map s.isRoot
  root : t.rootId = s.rootId
  start : D s.rootId
  lists : ∀ {i}, D i → ∃ T : Trees, s.edgeList i = .ok T.edges ∧ t.edgeList i = .ok T.edges ∧
    s.descendantList i = .ok T.pre ∧ t.descendantList i = .ok T.pre ∧ ∀ j ∈ T.pre, D j

/-- The same picture. -/
theorem alike {s t : St} {P : Picture} (hs : Reachable s) (ha : s.Acyclic) (hP : Abs s P) (ht : Reachable t) (ha' : t.Acyclic)
    (hQ : Abs t P) : Alike s t fun i => s.live i = true := by
  have live : t.live = s.live := by rw [← hQ.live, hP.live]
  have look : ∀ {i}, s.live i = true → t.look i = s.look i := fun {i} hi => by
    rw [← hQ.look i (by rw [live]; exact hi), hP.look i hi]
  refine ⟨look, fun hi a ha n hn => congrArg Look.id (look (hs.inv.link.targets _ hi a ha n hn)), fun {i} hi _ => ?_,
    by rw [← hQ.root, hP.root], by obtain ⟨_, hti⟩ := hs.inv.tree; exact hti.root, fun {i} hi => ?_⟩
  · rw [hQ.forest.shows.parent i (by rw [live]; exact hi), ← hP.forest.shows.parent i hi]
    cases hp : s.parent i with
    | none => rfl
    | some p =>
      have : t.nodeType p = s.nodeType p := congrArg Look.type (look ((C01_neighbours hs hi).2.2.2.2 hp).1)
      simp only [Option.map_some, St.isRoot, this]
  · obtain ⟨T, hT, _, h1, h2⟩ := C07_traverse hs ha hP.forest hi
    obtain ⟨U, hU, _, h3, h4⟩ := C07_traverse ht ha' hQ.forest (i := i) (by rw [live]; exact hi)
    cases hT.unique hU
    exact ⟨T, h1, h3, h2, h4, pre_live hP.forest hT (by simpa using hi)⟩

section
variable {s t : St} {D : NodeId → Prop} (A : Alike s t D)
include A

theorem Alike.type {i : NodeId} (hi : D i) : t.nodeType i = s.nodeType i := congrArg Look.type (A.look hi)
theorem Alike.tag {i : NodeId} (hi : D i) : t.tagName i = s.tagName i := congrArg Look.tag (A.look hi)
theorem Alike.id {i : NodeId} (hi : D i) : t.idOf i = s.idOf i := congrArg Look.id (A.look hi)
theorem Alike.attrs {i : NodeId} (hi : D i) : t.attributes i = s.attributes i := congrArg Look.attrs (A.look hi)
theorem Alike.text {i : NodeId} (hi : D i) : t.text i = s.text i := congrArg Look.text (A.look hi)

theorem Alike.value (W : ValueWriter) {i : NodeId} (hi : D i) {a : Attribute} (ha : a ∈ s.attributes i) :
    t.writeValue W a.value = s.writeValue W a.value := by
  have key : ∀ n, a.value.linkNode = some n → t.idOf n = s.idOf n := fun n hn =>
    A.target hi a ha n hn
  cases hv : a.value <;> simp only [St.writeValue] <;> rw [key _ (by rw [hv]; rfl)]

theorem Alike.svgAttributes (W : ValueWriter) {i : NodeId} (hi : D i) (l : List (AttributeId × Attribute)) :
    t.writeSvgAttributes W i l = s.writeSvgAttributes W i l := by
  induction l with
  | nil => rfl
  | cons x l ih =>
    obtain ⟨aid, a⟩ := x
    have : t.writeSvgAttribute W i aid a.name = s.writeSvgAttribute W i aid a.name := by
      unfold St.writeSvgAttribute
      rw [A.attrs hi]
      cases hg : attrsGet (s.attributes i) a.name with
      | none => rfl
      | some b => simp only [A.value W hi (attrsGet_some hg).1]
    simp only [St.writeSvgAttributes, this, ih]

theorem Alike.attributes (W : ValueWriter) {i : NodeId} (hi : D i) (he : s.nodeType i = .element) :
    t.writeAttributes W i = s.writeAttributes W i := by
  have h1 : t.writeNamespaces i = s.writeNamespaces i := by
    have ha : t.hasTagName i (.id .Svg) = s.hasTagName i (.id .Svg) := by simp only [St.hasTagName, A.tag hi]
    have hb := A.above hi he
    obtain ⟨T, _, _, e1, e2, hl⟩ := A.lists hi
    have hc : (T.pre.any fun m => t.hasAttribute m (.id .Href)) = T.pre.any fun m => s.hasAttribute m (.id .Href) := by
      rw [Bool.eq_iff_iff, List.any_eq_true, List.any_eq_true]
      refine exists_congr fun m => and_congr_right fun hm => ?_
      simp only [St.hasAttribute, A.attrs (hl m hm)]
    simp only [St.writeNamespaces, ha, hb, e1, e2, bind, Except.bind, hc]
  have h2 : t.writeOtherAttributes W (s.attributes i) = s.writeOtherAttributes W (s.attributes i) := by
    unfold St.writeOtherAttributes
    refine List.filterMap_congr fun a ha => ?_
    cases a.name with
    | id k => rfl
    | name x => simp only [A.value W hi ha]
  simp only [St.writeAttributes, h1, St.hasIdAttr, A.id hi, A.attrs hi, A.svgAttributes W hi, h2]
  rfl

theorem Alike.edges (W : ValueWriter) (es : List Edge) (hl : ∀ i, (.start i ∈ es ∨ .stop i ∈ es) → D i) :
    t.writeEdges W es = s.writeEdges W es := by
  induction es with
  | nil => rfl
  | cons e es ih =>
    have ih := ih fun i hi => hl i (by rcases hi with h | h <;> simp [h])
    cases e with
    | start i =>
      have hi := hl i (by simp)
      have : t.writeStart W i = s.writeStart W i := by
        have ha : t.hasTagName i (.id .Text) = s.hasTagName i (.id .Text) := by simp only [St.hasTagName, A.tag hi]
        simp only [St.writeStart, A.type hi]
        cases he : s.nodeType i <;> simp only [A.tag hi, A.text hi, ha]
        rw [A.attributes W hi he]
      simp only [St.writeEdges, this, ih]
    | stop i =>
      have hi := hl i (by simp)
      have : t.writeEnd i = s.writeEnd i := by
        have ha : t.hasTagName i (.id .Text) = s.hasTagName i (.id .Text) := by simp only [St.hasTagName, A.tag hi]
        have hb : t.isElement i = s.isElement i := by simp only [St.isElement, A.type hi]
        simp only [St.writeEnd, ha, hb]
      simp only [St.writeEdges, this, ih]

theorem Alike.dom (W : ValueWriter) : t.writeDom W = s.writeDom W := by
  obtain ⟨T, e1, e2, _, _, hl⟩ := A.lists A.start
  simp only [St.writeDom, A.root, e1, e2, bind, Except.bind]
  refine A.edges W _ fun i hi => hl i ?_
  rcases hi with hi | hi
  · exact ((mem_edges T i).1).1 hi
  · exact ((mem_edges T i).2).1 hi

end

end Svgdom
