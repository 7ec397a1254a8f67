import Verif.Proof.Protocol
import Verif.Props.Read
import Verif.Props.Parse

/-!
# C67, C68: how the XML writer is driven
-/

set_option autoImplicit false

namespace Svgdom

/-! ## C67 -/

/-- C67: `to_string` drives the XML writer correctly, and closes all elements, exactly if no text is outside all elements. -/
theorem C67_iff {s : St} (h : Reachable s) (ha : s.Acyclic) (W : ValueWriter) {F : Forest} (hF : Describes s F) {T : Trees}
    (hT : T.Of F (F.kids s.rootId)) : ∃ evs, s.writeDom W = .ok evs ∧ (Accepted evs ↔ T.loose s = false) := by
  obtain ⟨T', evs, name, attrs, hT', e, hm, hall⟩ := C45_markup h ha W hF
  obtain rfl := hT.unique hT'
  refine ⟨evs, e, ?_⟩
  have hat : ∀ i ∈ T.pre, ∀ e ∈ attrs i, e.isAttribute = true := fun i hi => (hall i hi).2.2
  unfold Accepted
  rw [← calls_filter, hm]
  constructor
  · rintro ⟨w, hw, _⟩
    by_contra hl
    rw [calls_loose T {} hat rfl (by simpa using hl)] at hw
    cases hw
  · intro hl
    exact calls_markup T {} hat (.inr hl)

/-- C67 for the documented claim that writing works: not if a text is outside all elements. Everything else is as it should be. -/
theorem C67_partial {s : St} (h : Reachable s) (ha : s.Acyclic) (W : ValueWriter) {F : Forest} (hF : Describes s F) {T : Trees}
    (hT : T.Of F (F.kids s.rootId)) (hl : T.loose s = false) : ∃ evs, s.writeDom W = .ok evs ∧ Accepted evs := by
  obtain ⟨evs, e, hi⟩ := C67_iff h ha W hF hT
  exact ⟨evs, e, hi.2 hl⟩

/-- C67 fails: a text can be appended to the root, and then the document cannot be written. -/
theorem C67_refuted : ∃ s, Reachable s ∧ s.Acyclic ∧ ∀ W, ∃ evs, s.writeDom W = .ok evs ∧ ¬ Accepted evs := by
  obtain ⟨s, h, e⟩ := exists_of_holds (ops := [.createElement (.id .Svg), .createNode .text ['a'], .append 0 1, .append 0 2]) (p := fun s =>
    (decide (s.nextId = 3) && s.acyclicB 3) && (Trees.cons 1 .nil (.cons 2 .nil .nil)).check s (s.firstChild s.rootId) &&
      (Trees.cons 1 .nil (.cons 2 .nil .nil)).loose s) (by decide +kernel)
  simp only [Bool.and_eq_true, decide_eq_true_eq] at e
  obtain ⟨⟨⟨e1, e2⟩, e3⟩, e4⟩ := e
  have hlt : ∀ i, s.live i = true → i < 3 := fun i hi => by rw [← e1]; exact h.inv.liveBelow i hi
  have ha := acyclic_of_check hlt e2
  obtain ⟨F, hF⟩ := C01_forest h
  have hr : s.live s.rootId = true := by obtain ⟨_, hti⟩ := h.inv.tree; exact hti.root
  rw [hF.shows.first _ hr] at e3
  refine ⟨s, h, ha, fun W => ?_⟩
  obtain ⟨evs, e, hi⟩ := C67_iff h ha W hF (check_of hF _ _ _ hr (List.suffix_refl _) e3)
  refine ⟨evs, e, fun hacc => ?_⟩
  rw [hi.1 hacc] at e4
  cases e4

/-- The top level of the expected DOM has no text. -/
def Dom.noTopText : Dom → Bool
  | .nil => true
  | .element _ _ _ _ _ rest => rest.noTopText
  | .text _ _ => false
  | .comment _ rest => rest.noTopText

theorem domOf_noTopText (L : Lib) (sheet : List Rule) : ∀ (x : Xml) (pos : XmlPos) (prev : List (Option XmlElem)),
    x.noTopText = true → (domOf L sheet pos prev none x).noTopText = true
  | .nil, _, _, _ => rfl
  | .element ns name attrs kids rest, pos, prev, h => by
    have ih := domOf_noTopText L sheet rest pos (some ⟨ns, name, attrs⟩ :: prev) h
    unfold domOf
    simp only
    generalize (if ns = some st!"http://www.w3.org/2000/svg" then elementNamed name else none) = o
    cases o with
    | none => exact ih
    | some eid => simpa only [Dom.noTopText] using ih
  | .text t rest, pos, prev, h => by
    simp only [Xml.noTopText, Bool.and_eq_true] at h
    have ih := domOf_noTopText L sheet rest pos (none :: prev) h.2
    unfold domOf
    have : (isBlank t && !keepsBlank none) = true := by
      simp only [isBlank, h.1, keepsBlank]; decide
    simp only [this, if_true]
    exact ih
  | .comment t rest, pos, prev, h => by
    simpa only [domOf, Dom.noTopText] using domOf_noTopText L sheet rest pos (none :: prev) h
  | .pi rest, pos, prev, h => by
    simpa only [domOf] using domOf_noTopText L sheet rest pos (none :: prev) h

theorem unstyled_noTopText : ∀ d : Dom, d.noTopText = true → d.unstyled.noTopText = true
  | .nil, _ => rfl
  | .element eid _ _ _ _ rest, h => by
    have ih := unstyled_noTopText rest h
    unfold Dom.unstyled
    split
    · exact ih
    · exact ih
  | .text _ _, h => by cases h
  | .comment _ rest, h => unstyled_noTopText rest h

theorem final_loose {t : St} : ∀ (d : Dom) (T : Trees), d.noTopText = true → d.Final t T → T.loose t = false
  | .nil, T, _, hf => by
    rw [hf]; rfl
  | .element _ _ _ _ kids rest, T, h, hf => by
    obtain ⟨n, K, R, rfl, ht, _, _, _, _, _, _, hR⟩ := hf
    simp only [Trees.loose, ht, Bool.false_or]
    exact final_loose rest R h hR
  | .text _ _, _, h, _ => by cases h
  | .comment _ rest, T, h, hf => by
    obtain ⟨n, R, rfl, ht, _, _, _, _, hR⟩ := hf
    simp only [Trees.loose, ht, Bool.false_or]
    exact final_loose rest R h hR

/-- C67: a parsed document can always be written. -/
theorem C67_parsed {L : Lib} {debug : Bool} {x : Xml} {t : St} (e : parseSvg L debug x = .ok t) (hx : x.noTopText = true)
    (W : ValueWriter) : ∃ evs, t.writeDom W = .ok evs ∧ Accepted evs := by
  obtain ⟨T, F, hF, hT, hf⟩ := C32_final e
  exact C67_partial (C44_reachable e).1.reachable (C44_tree e).2 W hF hT
    (final_loose _ _ (unstyled_noTopText _ (domOf_noTopText L _ x .root [] hx)) hf)

/-- Non-vacuity: the sample document is parsed, and has no text on the top level. -/
example : docXml.noTopText = true ∧ ∃ t, parseSvg sampleLib true docXml = .ok t := by
  refine ⟨by decide +kernel, ?_⟩
  obtain ⟨t, e, _⟩ := exists_of_parsed (x := docXml) (p := fun _ => true) (by decide +kernel)
  exact ⟨t, e⟩

/-! ## C68 -/

/-- C68: the XML writer is told to leave white space alone exactly in the content of `text` elements.
Not if `text` elements are nested (`C68_refuted`), or if another node is called `text` (`set_tag_name` in release builds). -/
theorem C68_partial {s : St} (h : Reachable s) (ha : s.Acyclic) (W : ValueWriter) {F : Forest} (hF : Describes s F) {T : Trees}
    (hT : T.Of F (F.kids s.rootId)) (hroot : s.tagName s.rootId ≠ .id .Text) (hu : T.unnested s false = true) :
    ∃ evs name attrs, s.writeDom W = .ok evs ∧ switched false evs = T.marked s name attrs false ∧
      ∀ i ∈ T.pre, s.IsName i (name i) ∧ s.writeAttributes W i = .ok (attrs i) := by
  obtain ⟨T', _, name, attrs, hT', _, _, hall⟩ := C45_markup h ha W hF
  obtain rfl := hT.unique hT'
  have hr : s.live s.rootId = true := by obtain ⟨_, hti⟩ := h.inv.tree; exact hti.root
  have hty : s.nodeType s.rootId = .root := (h.nodesOk.root _ hr).2 rfl
  obtain ⟨T0, hT0, _, he, _⟩ := C07_traverse h ha hF hr
  obtain ⟨K, R, rfl, hK, hR⟩ := hT0.cons_list
  obtain rfl := hT.unique hK
  have hRn : R = .nil := by
    cases R with
    | nil => rfl
    | cons j k r => obtain ⟨l, e, _⟩ := hR; simp at e
  subst hRn
  obtain ⟨es, e1, e2, _⟩ := writeEdges_switched (W := W) T false (fun i hi => (hall i hi).1) (fun i hi => (hall i hi).2.1)
    (fun i hi => (hall i hi).2.2) hu
  have hend : s.writeEdges W [.stop s.rootId] = .ok [] := by
    simp [St.writeEdges, St.writeEnd, St.isElement, hty, St.hasTagName, hroot, bind, Except.bind, pure, Except.pure]
  refine ⟨es, name, attrs, ?_, e2, fun i hi => ⟨(hall i hi).1, (hall i hi).2.1⟩⟩
  have := writeEdges_append s W _ _ e1 hend
  simp only [St.writeDom, he, bind, Except.bind, Trees.edges, St.writeEdges, St.writeStart, hty, this, pure, Except.pure,
    List.append_nil, List.nil_append]

/-- Non-vacuity: a document with a `text` element. -/
example : ∃ s F, Reachable s ∧ s.Acyclic ∧ Describes s F ∧ readTrees.Of F (F.kids s.rootId) ∧ s.tagName s.rootId ≠ .id .Text ∧
    readTrees.unnested s false = true ∧ s.tagName 2 = .id .Text := by
  obtain ⟨s, h, e⟩ := exists_of_holds (ops := readHistory) (p := fun s =>
    (decide (s.nextId = 7) && s.acyclicB 7) && readTrees.check s (s.firstChild s.rootId) &&
    decide (s.tagName s.rootId ≠ .id .Text) && readTrees.unnested s false && decide (s.tagName 2 = .id .Text)) (by decide +kernel)
  simp only [Bool.and_eq_true, decide_eq_true_eq] at e
  obtain ⟨⟨⟨⟨⟨e1, e2⟩, e3⟩, e4⟩, e5⟩, e6⟩ := e
  have hlt : ∀ i, s.live i = true → i < 7 := fun i hi => by rw [← e1]; exact h.inv.liveBelow i hi
  obtain ⟨F, hF⟩ := C01_forest h
  have hr : s.live s.rootId = true := by obtain ⟨_, hti⟩ := h.inv.tree; exact hti.root
  rw [hF.shows.first _ hr] at e3
  exact ⟨s, F, h, acyclic_of_check hlt e2, hF, check_of hF _ _ _ hr (List.suffix_refl _) e3, e4, e5, e6⟩

/-- `<svg><text><text/>b</text></svg>`. -/
def nestedTextHistory : List Op :=
  [.createElement (.id .Svg), .createElement (.id .Text), .createElement (.id .Text), .createNode .text ['b'],
   .append 0 1, .append 1 2, .append 2 3, .append 2 4]

/-- C68 fails: after a `text` element inside another one, the rest of the outer text is written with the switch off, so that it is
indented. -/
theorem C68_refuted : ∃ s, Reachable s ∧ s.Acyclic ∧ s.parent 4 = some 2 ∧ s.nodeType 4 = .text ∧ s.tagName 2 = .id .Text ∧
    ∃ evs, s.writeDom sampleWriter = .ok evs ∧ (.text (s.text 4), false) ∈ switched false evs ∧
      (switched false evs).count (.text (s.text 4), true) = 0 := by
  obtain ⟨s, h, e⟩ := exists_of_holds (ops := nestedTextHistory) (p := fun s =>
    (decide (s.nextId = 5) && s.acyclicB 5) && decide (s.parent 4 = some 2) && decide (s.nodeType 4 = .text) &&
    decide (s.tagName 2 = .id .Text) && match s.writeDom sampleWriter with
      | .ok evs => decide ((.text (s.text 4), false) ∈ switched false evs) &&
        decide ((switched false evs).count (.text (s.text 4), true) = 0)
      | .error _ => false) (by decide +kernel)
  simp only [Bool.and_eq_true, decide_eq_true_eq] at e
  obtain ⟨⟨⟨⟨⟨e1, e2⟩, e3⟩, e4⟩, e5⟩, e6⟩ := e
  have hlt : ∀ i, s.live i = true → i < 5 := fun i hi => by rw [← e1]; exact h.inv.liveBelow i hi
  split at e6
  · next evs hw =>
    simp only [Bool.and_eq_true, decide_eq_true_eq] at e6
    exact ⟨s, h, acyclic_of_check hlt e2, e3, e4, e5, evs, hw, e6.1, e6.2⟩
  · cases e6

end Svgdom
