import Verif.Props.TextFix

/-!
# C62 for documents with texts
-/

set_option autoImplicit false

namespace Svgdom

theorem spaceAt_same {s t : St} {Q : NodeId → NodeId → Prop} {i j : NodeId} (h : SameNode s t Q i j) (he : s.nodeType i = .element)
    (d : XmlSpace) : t.spaceAt j d = s.spaceAt i d := by
  have := h.attrs he (.id .Space)
  unfold St.spaceAt
  cases hs : attrsGetValue (s.attributes i) (.id .Space) with
  | none =>
    rw [hs] at this
    cases ht : attrsGetValue (t.attributes j) (.id .Space) with
    | none => rfl
    | some w => rw [ht] at this; cases this
  | some v =>
    rw [hs] at this
    cases ht : attrsGetValue (t.attributes j) (.id .Space) with
    | none => rw [ht] at this; cases this
    | some w =>
      rw [ht] at this
      cases this with
      | some hv => cases hv <;> rfl

/-- Only elements have children. -/
def Trees.Leaves (s : St) : Trees → Prop
  | nil => True
  | cons n K R => (s.nodeType n ≠ .element → K = nil) ∧ K.Leaves s ∧ R.Leaves s

theorem same_items {s t : St} {Q : NodeId → NodeId → Prop} : ∀ {T U : Trees}, T.Same s t Q U → T.Leaves s → ∀ sp m : XmlSpace,
    U.items t sp m = T.items s sp m
  | .nil, .nil, _, _, _, _ => rfl
  | .nil, .cons _ _ _, h, _, _, _ => h.elim
  | .cons _ _ _, .nil, h, _, _, _ => h.elim
  | .cons n K R, .cons j K' R', ⟨h1, h2, h3⟩, ⟨l1, l2, l3⟩, sp, m => by
    simp only [Trees.items]
    rw [same_items h3 l3, h1.type]
    have hk : K'.items t sp (t.spaceAt j sp) = K.items s sp (s.spaceAt n sp) := by
      by_cases he : s.nodeType n = .element
      · rw [spaceAt_same h1 he, same_items h2 l2]
      · have := l1 he
        subst this
        cases K' with
        | nil => rfl
        | cons _ _ _ => exact h2.elim
    rw [hk]
    by_cases ht : s.nodeType n = .text
    · rw [if_pos ht, if_pos ht, h1.text (by rw [ht]; decide)]
    · rw [if_neg ht, if_neg ht]

theorem same_starts {s t : St} {Q : NodeId → NodeId → Prop} : ∀ {T U : Trees}, T.Same s t Q U → U.startsText t = T.startsText s
  | .nil, .nil, _ => rfl
  | .nil, .cons _ _ _, h => h.elim
  | .cons _ _ _, .nil, h => h.elim
  | .cons n K R, .cons j K' R', ⟨h1, _, _⟩ => by simp only [Trees.startsText, h1.type]

theorem same_groups {s t : St} {Q : NodeId → NodeId → Prop} : ∀ {T U : Trees}, T.Same s t Q U → T.Leaves s → ∀ sp : XmlSpace,
    U.groups t sp = T.groups s sp
  | .nil, .nil, _, _, _ => rfl
  | .nil, .cons _ _ _, h, _, _ => h.elim
  | .cons _ _ _, .nil, h, _, _ => h.elim
  | .cons n K R, .cons j K' R', ⟨h1, h2, h3⟩, ⟨l1, l2, l3⟩, sp => by
    simp only [Trees.groups]
    rw [same_groups h3 l3, same_starts h2]
    congr 1
    by_cases he : s.nodeType n = .element
    · rw [spaceAt_same h1 he, same_items h2 l2, same_groups h2 l2]
    · have := l1 he
      subst this
      cases K' with
      | nil => rfl
      | cons _ _ _ => exact h2.elim

theorem same_notEmpty {s t : St} {Q : NodeId → NodeId → Prop} : ∀ {T U : Trees}, T.Same s t Q U →
    (∀ n ∈ T.pre, s.nodeType n = .text → s.text n ≠ []) → ∀ n ∈ U.pre, t.nodeType n = .text → t.text n ≠ []
  | .nil, .nil, _, _, n, hn => by simp [Trees.pre] at hn
  | .nil, .cons _ _ _, h, _, _, _ => h.elim
  | .cons _ _ _, .nil, h, _, _, _ => h.elim
  | .cons n K R, .cons m K' R', ⟨h1, h2, h3⟩, hn, j, hj => by
    simp only [Trees.pre, List.mem_cons, List.mem_append] at hj
    rcases hj with rfl | hj | hj
    · intro ht
      rw [h1.type] at ht
      rw [h1.text (by rw [ht]; decide)]
      exact hn n (by simp [Trees.pre]) ht
    · exact same_notEmpty h2 (fun m hm => hn m (by simp [Trees.pre, hm])) j hj
    · exact same_notEmpty h3 (fun m hm => hn m (by simp [Trees.pre, hm])) j hj

theorem leaves_of {s : St} {F : Forest} : ∀ {T : Trees} {l : List NodeId}, T.Of F l →
    (∀ n ∈ T.pre, s.nodeType n ≠ .element → F.kids n = []) → T.Leaves s
  | .nil, _, _, _ => trivial
  | .cons n K R, l, ⟨l', h1, h2, h3⟩, h => by
    refine ⟨fun he => ?_, leaves_of h2 fun m hm => h m (by simp [Trees.pre, hm]), leaves_of h3 fun m hm => h m (by simp [Trees.pre, hm])⟩
    rw [h n (by simp [Trees.pre]) he] at h2
    exact h2.nil_list

theorem Trees.Same.trans_texts {s t t' : St} {Q : NodeId → NodeId → Prop} : ∀ {T U : Trees}, T.Same s t Q U →
    (∀ j, t'.nodeType j = t.nodeType j) → (∀ j, t'.tagName j = t.tagName j) → (∀ j, t'.idOf j = t.idOf j) →
    (∀ j, t'.text j = t.text j) → (∀ j ∈ U.pre, t'.attributes j = t.attributes j) → T.Same s t' Q U
  | nil, nil, _, _, _, _, _, _ => trivial
  | nil, cons _ _ _, h, _, _, _, _, _ => h.elim
  | cons _ _ _, nil, h, _, _, _, _, _ => h.elim
  | cons n K R, cons m K' R', ⟨h1, h2, h3⟩, a, b, c, d, e => by
    refine ⟨⟨?_, ?_, ?_, ?_, ?_⟩, h2.trans_texts a b c d fun j hj => e j (by simp [Trees.pre, hj]),
      h3.trans_texts a b c d fun j hj => e j (by simp [Trees.pre, hj])⟩
    · rw [a, h1.type]
    · rw [b]; exact h1.tag
    · rw [c]; exact h1.id
    · rw [e m (by simp [Trees.pre])]; exact h1.attrs
    · rw [d]; exact h1.text

/-- C62: a document with texts comes back, if text processing has nothing to do in it.
Not always (`C62_text_refuted`): documents that come from the parser may have texts that are changed by the next parsing. -/
theorem C62_text_partial {L : Lib} {s : St} (h : Reachable s) (ha : s.Acyclic) {F : Forest} (hF : Describes s F) (W : ValueWriter)
    (q : Char) {T : Trees} (hT : T.Of F (F.kids s.rootId)) (hc : ComesBack L s W q T) (hn : T.NormalText s)
    (debug : Bool) :
    ∃ evs x, s.writeDom W = .ok evs ∧ readMarkup q evs = some x ∧ ∀ x' : Xml, x'.unindent false = x →
      ∃ t G U, parseSvg L debug x' = .ok t ∧ Describes t G ∧ U.Of G (G.kids t.rootId) ∧ SameDoc s T t U := by
  obtain ⟨evs, x, h1, h2, h3⟩ := read_written h ha W q hF hT hc.wf
  refine ⟨evs, x, h1, h2, ?_⟩
  rintro x' rfl
  have hr : s.live s.rootId = true := by obtain ⟨_, hti⟩ := h.inv.tree; exact hti.root
  have hl : ∀ n ∈ T.pre, s.live n = true := pre_live hF hT fun c hc => (hF.wf.kids _ hr c hc).1
  obtain ⟨p, U, G, s2, s3, f, e, hk, hs⟩ := front_same h debug hc.noSheet h3 (hc.readable hl) hc.wf.top
  have hO3 := f.of2
  rw [← f.root3] at hO3
  have hready := TextReady.parsed f
  obtain ⟨u, t, e2, hp⟩ := prepareText_ok f.built3 f.desc3 hO3 (fun j hj => front_region f hj)
  rw [hk] at hp hO3
  have hd3 := f.desc3
  have hleaf : T.Leaves s := leaves_of hT fun n hn he => by
    have hf : s.firstChild n = none := by
      rcases hc.wf.kinds n hn with h | h | h
      · exact absurd h.1 he
      · exact h.2.1
      · exact h.2.1
    rw [hF.shows.first n (hl n hn)] at hf
    exact List.head?_eq_none_iff.1 hf
  have hnorm : U.NormalText s3 := ⟨same_notEmpty hs hn.notEmpty, by rw [same_groups hs hleaf]; exact hn.groups⟩
  have hsame := (sameTexts_iff f.built3.safe f.built3.root hready e2 hd3 hO3).2 hnorm
  have hno : ∀ j ∈ U.pre, u.emptyText j = false := by
    intro j hj
    rw [Bool.eq_false_iff]
    intro hc
    obtain ⟨k1, k2⟩ := emptyText_iff.1 hc
    rw [hp.ti.types] at k1
    rw [← hp.removed.texts, hsame.text] at k2
    exact hnorm.notEmpty j hj k1 k2
  have hO := hp.of
  have hrt : t.rootId = s3.rootId := hp.removed.rootId.trans hp.ti.rootId
  rw [keep_none hno, ← hrt] at hO
  refine ⟨t, _, U, by rw [e, e2]; rfl, hp.desc, hO, hs.trans_texts ?_ ?_ ?_ hsame.text ?_⟩
  · intro j; rw [hp.removed.types, hp.ti.types]
  · intro j; rw [hp.removed.tags, hp.ti.tags]
  · intro j; rw [hp.removed.ids, hp.ti.ids]
  · intro j hj
    exact hp.attrs j (front_region f (by rw [hk]; exact hj)).live

/-- C62 for parsed documents with texts. -/
theorem C62_parsed_text_partial {L : Lib} {debug : Bool} {x : Xml} {t : St} (e : parseSvg L debug x = .ok t) (hx : x.topElements = 1)
    (hx2 : x.topText = false) {F : Forest} (hF : Describes t F) {T : Trees} (hT : T.Of F (F.kids t.rootId)) (W : ValueWriter) (q : Char)
    (h : CanComeBack L t W q T) (hn : T.NormalText t) :
    ∃ evs y, t.writeDom W = .ok evs ∧ readMarkup q evs = some y ∧ ∀ y' : Xml, y'.unindent false = y →
      ∃ u G U, parseSvg L debug y' = .ok u ∧ Describes u G ∧ U.Of G (G.kids u.rootId) ∧ SameDoc t T u U :=
  C62_text_partial (C44_reachable e).1.reachable (C44_tree e).2 hF W q hT (comesBack_parsed e hx hx2 hF hT h) hn debug

/-! ## Examples -/

/-- The document of C61 meets the assumptions. -/
example : ∃ s F, Reachable s ∧ s.Acyclic ∧ Describes s F ∧ readTrees.Of F (F.kids s.rootId) ∧
    ComesBack sampleLib s sampleWriter '"' readTrees ∧ readTrees.NormalText s ∧ s.text 3 = st!"a b" := by
  obtain ⟨s, h, e⟩ := exists_of_holds (ops := readHistory) (p := fun s => comesBackB s 7 readTrees && decide (readTrees.NormalText s) &&
    decide (s.text 3 = st!"a b")) (by decide +kernel)
  simp only [Bool.and_eq_true, decide_eq_true_eq] at e
  obtain ⟨⟨e1, e2⟩, e3⟩ := e
  obtain ⟨F, h1, h2, h3, h4⟩ := comesBack_of_check h e1
  exact ⟨s, F, h, h1, h2, h3, h4, e2, e3⟩

/-- So does the document that is parsed from `normalXml`. -/
example : ∃ t F, parseSvg sampleLib true normalXml = .ok t ∧ normalXml.topElements = 1 ∧ normalXml.topText = false ∧ Describes t F ∧
    normalTrees.Of F (F.kids t.rootId) ∧ CanComeBack sampleLib t sampleWriter '"' normalTrees ∧ normalTrees.NormalText t ∧
    t.content 2 = st!"a b c" := by
  obtain ⟨t, e, hp⟩ := exists_of_parsed (x := normalXml) (p := fun t => comesBackB t 6 normalTrees && decide (normalTrees.NormalText t) &&
    decide (t.content 2 = st!"a b c")) (by decide +kernel)
  simp only [Bool.and_eq_true, decide_eq_true_eq] at hp
  obtain ⟨⟨e1, e2⟩, e3⟩ := hp
  obtain ⟨F, _, h2, h3, h4⟩ := comesBack_of_check (C44_reachable e).1.reachable e1
  exact ⟨t, F, e, rfl, rfl, h2, h3, h4.can, e2, e3⟩

/-- C62 fails for texts: parsing `<svg><text> <tspan>a </tspan>b</text></svg>` gives the text "a b"; written and parsed again it is "ab",
although everything else is as required. -/
theorem C62_text_refuted : ∃ x s F T evs x' t, parseSvg sampleLib true x = .ok s ∧ Describes s F ∧ T.Of F (F.kids s.rootId) ∧
    ComesBack sampleLib s sampleWriter '"' T ∧ s.writeDom sampleWriter = .ok evs ∧ readMarkup '"' evs = some x' ∧
    parseSvg sampleLib true x' = .ok t ∧ s.content 2 = st!"a b" ∧ t.content 2 = st!"ab" := by
  let T : Trees := .cons 1 (.cons 2 (.cons 4 (.cons 5 .nil .nil) (.cons 6 .nil .nil)) .nil) .nil
  obtain ⟨s, h, e⟩ := exists_of_parsed (x := againXml)
    (p := fun s => comesBackB s 7 T && decide (s.content 2 = st!"a b") && match s.writeDom sampleWriter with
      | .ok evs => (match readMarkup '"' evs with
        | some x' => parsed x' fun t => decide (t.content 2 = st!"ab")
        | none => false)
      | .error _ => false) (by decide +kernel)
  rw [Bool.and_eq_true, Bool.and_eq_true, decide_eq_true_eq] at e
  obtain ⟨⟨e1, e2⟩, e⟩ := e
  obtain ⟨F, _, h2, h3, h4⟩ := comesBack_of_check (C44_reachable h).1.reachable e1
  split at e
  · next evs hw =>
    split at e
    · next x' hx =>
      obtain ⟨t, ht, ht2⟩ := exists_of_parsed e
      exact ⟨_, s, F, T, evs, x', t, h, h2, h3, h4, hw, hx, ht, e2, of_decide_eq_true ht2⟩
    · simp at e
  · simp at e

end Svgdom
