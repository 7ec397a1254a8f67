import Verif.Proof.SpreadText
import Verif.Props.XmlText

/-!
# C110 for texts outside of `text` elements
-/

set_option autoImplicit false

namespace Svgdom

theorem cdataEnd_before {t : Str} (h : cdataEnd t = false) : ∀ {a : Str}, (∀ c ∈ a, xmlSpace c = true) → cdataEnd (a ++ t) = false
  | [], _ => h
  | c :: a, ha => by
    rw [List.cons_append, cdataEnd, cdataEnd_before h fun d hd => ha d (by simp [hd]), Bool.or_false, Bool.eq_false_iff]
    intro hp
    obtain ⟨r, hr⟩ := prefix_end hp
    exact (space_ne (ha c (by simp))).2.2.1 (List.cons.inj hr).1

theorem cdataEnd_after {b : Str} (hb : ∀ c ∈ b, xmlSpace c = true) : ∀ {t : Str}, cdataEnd t = false → cdataEnd (t ++ b) = false
  | [], _ => by
    have := cdataEnd_before (t := []) rfl hb
    simpa using this
  | c :: t, h => by
    have h0 := h
    simp only [cdataEnd, Bool.or_eq_false_iff] at h
    rw [List.cons_append, cdataEnd, cdataEnd_after hb h.2, Bool.or_false, Bool.eq_false_iff]
    intro hp
    obtain ⟨r, hr⟩ := prefix_end hp
    have hbc : ∀ c ∈ b, c ≠ ']' ∧ c ≠ '>' := fun c hc => ⟨(space_ne (hb c hc)).2.2.1, fun h => by
      have := hb c hc; rw [h] at this; revert this; decide⟩
    match t, hr with
    | [], hr =>
      simp only [List.nil_append, List.cons.injEq] at hr
      exact (hbc ']' (by rw [hr.2]; simp)).1 rfl
    | [x], hr =>
      simp only [List.cons_append, List.nil_append, List.cons.injEq] at hr
      exact (hbc '>' (by rw [hr.2.2]; simp)).2 rfl
    | x :: y :: t, hr =>
      simp only [List.cons_append, List.cons.injEq] at hr
      obtain ⟨rfl, rfl, rfl, _⟩ := hr
      simp [List.isPrefixOf] at h

/-- What is needed of white space. -/
theorem wtext_keeps (o : XmlOptions) {s : St} {T : Trees} {p : Bool} {d : Nat} {j : NodeId} :
    (s.text j ≠ [] → T.wtext o s p d j ≠ []) ∧ (plainContent (s.text j) = true → plainContent (T.wtext o s p d j) = true) ∧
    (cdataEnd (s.text j) = false → cdataEnd (T.wtext o s p d j) = false) ∧
    (isBlank (s.text j) = false → isBlank (T.wtext o s p d j) = false) := by
  obtain ⟨a, b, p', d', p'', d'', h, ha, hb⟩ := wtext_form o (s := s) (T := T) (p := p) (d := d) (j := j)
  have ha' : ∀ c ∈ a, xmlSpace c = true ∧ c ≠ '\r' := by
    rcases ha with rfl | rfl
    · simp
    · exact gap_space o _ _
  have hb' : ∀ c ∈ b, xmlSpace c = true ∧ c ≠ '\r' := by
    rcases hb with rfl | rfl
    · simp
    · exact gap_space o _ _
  have hpl : ∀ l : Str, (∀ c ∈ l, xmlSpace c = true ∧ c ≠ '\r') → plainContent l = true := by
    intro l hl
    simp only [plainContent, List.all_eq_true, Bool.and_eq_true, decide_eq_true_eq]
    intro c hc
    have := space_ne (hl c hc).1
    exact ⟨this.2.2.2.1, this.2.1, (hl c hc).2⟩
  rw [h]
  refine ⟨fun hn => by simp [hn], fun hc => ?_, fun hc => ?_, fun hc => ?_⟩
  · have h1 := hpl a ha'
    have h2 := hpl b hb'
    unfold plainContent at h1 h2 hc ⊢
    rw [List.all_append, List.all_append, h1, hc, h2]; rfl
  · exact cdataEnd_after (fun c h => (hb' c h).1) (cdataEnd_before hc fun c h => (ha' c h).1)
  · unfold isBlank at hc ⊢
    rw [List.all_append, List.all_append, hc]
    simp

theorem sepText_texts {s : St} (w : NodeId → Str) : ∀ {T : Trees}, T.SepText s → T.SepText (s.withTexts w)
  | .nil, _ => trivial
  | .cons _ _ .nil, ⟨h1, _, _⟩ => ⟨sepText_texts w h1, trivial, trivial⟩
  | .cons _ _ (.cons _ _ _), ⟨h1, h2, h3⟩ => ⟨sepText_texts w h1, sepText_texts w h2, h3⟩

theorem wellFormed_texts {s : St} {W : ValueWriter} {q : Char} {T : Trees} (h : WellFormed s W q T) {w : NodeId → Str}
    (ht : ∀ n ∈ T.pre, s.nodeType n = .text → w n ≠ [] ∧ plainContent (w n) = true)
    (hc : ∀ n ∈ T.pre, s.nodeType n = .comment → w n = s.text n) : WellFormed (s.withTexts w) W q T := by
  refine ⟨fun n hn => ?_, sepText_texts w h.sep, h.top, h.attrs⟩
  rcases h.kinds n hn with h1 | h1 | h1
  · exact .inl h1
  · exact .inr (.inl ⟨h1.1, h1.2.1, ht n hn h1.1⟩)
  · refine .inr (.inr ⟨h1.1, h1.2.1, ?_⟩)
    rw [withTexts_text, hc n hn h1.1]
    exact h1.2.2

theorem comesBack_texts {L : Lib} {s : St} {W : ValueWriter} {q : Char} {T : Trees} (h : ComesBack L s W q T) {w : NodeId → Str}
    (hw : WellFormed (s.withTexts w) W q T) : ComesBack L (s.withTexts w) W q T :=
  ⟨hw, h.noStyle, fun n hn a ha => by
    have := h.attrs n hn a ha
    exact ⟨this.special, this.plain, this.link, this.target⟩, h.noSheet⟩

theorem noBlank_texts {s : St} {w : NodeId → Str} : ∀ {T : Trees} {tag : Option ElementId}, T.NoBlank s tag →
    (∀ n ∈ T.pre, isBlank (s.text n) = false → isBlank (w n) = false) → T.NoBlank (s.withTexts w) tag
  | .nil, _, _, _ => trivial
  | .cons n K R, tag, ⟨h1, h2, h3⟩, hw =>
    ⟨fun ht => (h1 ht).imp id fun h => hw n (by simp [Trees.pre]) h, noBlank_texts h2 fun n hn => hw n (by simp [Trees.pre, hn]),
      noBlank_texts h3 fun n hn => hw n (by simp [Trees.pre, hn])⟩

theorem descendantsNext_texts (s : St) (w : NodeId → Str) : ∀ (k : Nat) (it : Traverse),
    (s.withTexts w).descendantsNext k it = s.descendantsNext k it
  | 0, _ => rfl
  | k + 1, it => by
    have h : (s.withTexts w).traverseNext it = s.traverseNext it := rfl
    rw [St.descendantsNext, St.descendantsNext, h]
    rcases s.traverseNext it with ⟨e, it'⟩
    cases e with
    | none => rfl
    | some e =>
      cases e with
      | start n => rfl
      | stop n => exact descendantsNext_texts s w k it'

theorem collectDescendants_texts (s : St) (w : NodeId → Str) (b : Nat) : ∀ (k : Nat) (it : Traverse),
    (s.withTexts w).collectDescendants b k it = s.collectDescendants b k it
  | 0, _ => rfl
  | k + 1, it => by
    rw [St.collectDescendants, St.collectDescendants, descendantsNext_texts]
    congr 1
    funext r
    rcases r with ⟨_ | n, it'⟩
    · rfl
    · simp only [collectDescendants_texts s w b k it']

theorem writeAttributes_texts (s : St) (w : NodeId → Str) (W : ValueWriter) (n : NodeId) :
    (s.withTexts w).writeAttributes W n = s.writeAttributes W n := by
  have h1 : ∀ l, (s.withTexts w).writeSvgAttributes W n l = s.writeSvgAttributes W n l := by
    intro l
    induction l with
    | nil => rfl
    | cons a l ih =>
      rw [St.writeSvgAttributes, St.writeSvgAttributes, ih]
      rfl
  have h2 : (s.withTexts w).descendantList n = s.descendantList n := collectDescendants_texts s w _ _ _
  have h3 : (s.withTexts w).writeNamespaces n = s.writeNamespaces n := by
    rw [St.writeNamespaces, St.writeNamespaces, h2]
    rfl
  rw [St.writeAttributes, St.writeAttributes, h3, h1]
  rfl

/-- From processed texts to the same document. -/
theorem same_paired {s u t : St} {w : NodeId → Str} {Q : NodeId → NodeId → Prop} : ∀ {T U : Trees}, T.Same (s.withTexts w) u Q U →
    (∀ j, t.nodeType j = u.nodeType j) → (∀ j, t.tagName j = u.tagName j) → (∀ j, t.idOf j = u.idOf j) →
    (∀ j ∈ U.pre, t.attributes j = u.attributes j) → T.Paired (fun i j => s.nodeType i ≠ .element → t.text j = s.text i) U → T.Same s t Q U
  | .nil, .nil, _, _, _, _, _, _ => trivial
  | .nil, .cons _ _ _, h, _, _, _, _, _ => h.elim
  | .cons _ _ _, .nil, h, _, _, _, _, _ => h.elim
  | .cons n K R, .cons m K' R', ⟨h1, h2, h3⟩, a, b, c, e, ⟨p1, p2, p3⟩ => by
    refine ⟨⟨?_, ?_, ?_, ?_, p1⟩, same_paired h2 a b c (fun j hj => e j (by simp [Trees.pre, hj])) p2,
      same_paired h3 a b c (fun j hj => e j (by simp [Trees.pre, hj])) p3⟩
    · rw [a]; exact h1.type
    · rw [b]; exact h1.tag
    · rw [c]; exact h1.id
    · rw [e m (by simp [Trees.pre])]; exact h1.attrs

theorem paired_mem {s u : St} {Q P : NodeId → NodeId → Prop} : ∀ {T U : Trees}, T.Same s u Q U → T.Paired P U → ∀ j ∈ U.pre,
    ∃ i ∈ T.pre, u.nodeType j = s.nodeType i ∧ P i j
  | .nil, .nil, _, _, j, hj => by simp [Trees.pre] at hj
  | .nil, .cons _ _ _, h, _, _, _ => h.elim
  | .cons _ _ _, .nil, h, _, _, _ => h.elim
  | .cons n K R, .cons m K' R', ⟨h1, h2, h3⟩, ⟨p1, p2, p3⟩, j, hj => by
    simp only [Trees.pre, List.mem_cons, List.mem_append] at hj
    rcases hj with rfl | hj | hj
    · exact ⟨n, by simp [Trees.pre], h1.type, p1⟩
    · obtain ⟨i, hi, h⟩ := paired_mem h2 p2 j hj
      exact ⟨i, by simp [Trees.pre, hi], h⟩
    · obtain ⟨i, hi, h⟩ := paired_mem h3 p3 j hj
      exact ⟨i, by simp [Trees.pre, hi], h⟩

/-- C110 with indentation and texts outside of `text` elements: a text that is the only child of an element, as in `title` or `desc`,
gets white space around it, and text processing removes it again.
Not always (`C110_refuted`): other texts outside of `text` elements change. -/
theorem C110_spread_partial {L : Lib} {s : St} (h : Reachable s) (ha : s.Acyclic) {F : Forest} (hF : Describes s F) (W : ValueWriter)
    (q : Char) {T : Trees} (hT : T.Of F (F.kids s.rootId)) (hb : ComesBack L s W q T) (hn : T.NormalText s) (hp : PlainNodes s T)
    (hnb : T.NoBlank s none) (hc : ∀ n ∈ T.pre, s.nodeType n = .text → cdataEnd (s.text n) = false) (o : XmlOptions)
    (hi : T.Spread s .default false) (debug : Bool) :
    ∃ txt y t G U, s.toText W o = .ok txt ∧ readText txt = some y ∧ parseSvg L debug y = .ok t ∧ Describes t G ∧
      U.Of G (G.kids t.rootId) ∧ SameDoc s T t U ∧ t.toText W o = .ok txt := by
  have hr : s.live s.rootId = true := by obtain ⟨_, hti⟩ := h.inv.tree; exact hti.root
  have hkl : ∀ c ∈ F.kids s.rootId, s.live c = true := fun c hc => (hF.wf.kids _ hr c hc).1
  have hl : ∀ n ∈ T.pre, s.live n = true := pre_live hF hT hkl
  have hnd := pre_nodup hF ha hT hkl (hF.wf.kids_nodup hr) (by
    intro a ha' j hj
    rw [hF.shows.parent a (hkl a ha'), hF.shows.parent j (hkl j hj), (hF.wf.kids _ hr a ha').2, (hF.wf.kids _ hr j hj).2])
  -- the texts with white space
  obtain ⟨w, hw⟩ : ∃ w : NodeId → Str, w = T.wtext o s false 0 := ⟨_, rfl⟩
  have hre : Reachable (s.withTexts w) := by
    have := withTexts_reachable h w (T.pre.filter fun j => decide (s.nodeType j ≠ .element)) (by
      intro i hi
      rw [List.mem_filter] at hi
      exact ⟨hl i hi.1, of_decide_eq_true hi.2⟩)
    have e : (fun i => if i ∈ T.pre.filter (fun j => decide (s.nodeType j ≠ .element)) then w i else s.text i) = w := by
      funext i
      split
      · rfl
      · next hni =>
        rw [hw]
        by_cases hm : i ∈ T.pre
        · refine (wtext_other o fun ht => hni ?_).symm
          rw [List.mem_filter]
          exact ⟨hm, by simp [ht]⟩
        · exact (wtext_outside o hm).symm
    rwa [e] at this
  have hF' := withTexts_describes w hF
  have hT' : T.Of F (F.kids (s.withTexts w).rootId) := hT
  have hwide : T.Wide o s (s.withTexts w) .default false 0 := wide_of o hnd hi fun j _ => by rw [withTexts_text, hw]
  have hwf : WellFormed (s.withTexts w) W q T := by
    refine wellFormed_texts hb.wf (fun n hn ht => ?_) fun n hn ht => ?_
    · rcases hb.wf.kinds n hn with h1 | h1 | h1
      · rw [ht] at h1; simp at h1
      · rw [hw]
        exact ⟨(wtext_keeps o).1 h1.2.2.1, (wtext_keeps o).2.1 h1.2.2.2⟩
      · rw [ht] at h1; simp at h1
    · rw [hw]
      exact wtext_other o (by rw [ht]; decide)
  obtain ⟨evs, txt, x, x', g1, g2, g3, g4, g5, g6⟩ := text_written_wide (s' := s.withTexts w) h ha hF hre ha hF' W q hT hT' hb.wf hwf
    (fun _ => rfl) (fun _ _ h => h) (writeAttributes_texts s w W) (fun n hn ht => by
      rw [withTexts_text, hw]
      exact (wtext_keeps o).2.2.1 (hc n hn ht)) o (keep := keepsSpace s F) (.inr (apart_spread hi)) (.inr (fits_wide hT hi hwide))
    fun _ _ => chars_wide o hT hwide
  rw [unindent_shows g6 (noBlank_texts hnb fun n _ hn => by rw [hw]; exact (wtext_keeps o).2.2.2 hn) (by decide)] at g5
  -- parsing
  have hc' := comesBack_texts hb hwf
  rw [← g5] at g6
  obtain ⟨p, U, G, s2, s3, f, e, hk, hs⟩ := front_same hre debug hc'.noSheet g6 (hc'.readable hl) hc'.wf.top
  have hO3 := f.of2
  rw [← f.root3] at hO3
  obtain ⟨u, t, e2, hpr⟩ := prepareText_ok f.built3 f.desc3 hO3 (fun j hj => front_region f hj)
  rw [hk] at hpr hO3
  have hd3 := f.desc3
  have hrl3 := f.built3.rootLive
  obtain ⟨U', hU', _, hnd3, _⟩ := kids_tree f.built3 hd3 hrl3
  cases hO3.unique hU'
  have hleaf : T.Leaves s := leaves_of hT fun n hn he => by
    have hf : s.firstChild n = none := by
      rcases hb.wf.kinds n hn with h | h | h
      · exact absurd h.1 he
      · exact h.2.1
      · exact h.2.1
    rw [hF.shows.first n (hl n hn)] at hf
    exact List.head?_eq_none_iff.1 hf
  have hpair := tidy_wide (o := o) (τ := s3.text) hd3 hs hO3 (fun i hi => (hd3.wf.kids _ hrl3 i hi).1) hnd3 hleaf hn.groups hn.notEmpty hwide
    fun _ _ => rfl
  have htx : ∀ j, t.text j = U.tidyT s3 .default s3.text j := fun j => by rw [hpr.removed.texts, hpr.tidy]
  have hpair' : T.Paired (fun i j => s.nodeType i ≠ .element → t.text j = s.text i) U := hpair.mono fun i j _ h hi => by rw [htx]; exact h hi
  have hno : ∀ j ∈ U.pre, u.emptyText j = false := by
    intro j hj
    rw [Bool.eq_false_iff]
    intro hc
    obtain ⟨k1, k2⟩ := emptyText_iff.1 hc
    rw [hpr.ti.types] at k1
    rw [← hpr.removed.texts] at k2
    obtain ⟨i, hi, i1, i2⟩ := paired_mem hs hpair' j hj
    have i3 : s.nodeType i = .text := i1.symm.trans k1
    rw [i2 (by rw [i3]; decide)] at k2
    exact hn.notEmpty i hi i3 k2
  have hO := hpr.of
  have hrt : t.rootId = s3.rootId := hpr.removed.rootId.trans hpr.ti.rootId
  rw [keep_none hno, ← hrt] at hO
  have hsame : SameDoc s T t U := by
    refine same_paired hs ?_ ?_ ?_ ?_ hpair'
    · intro j; rw [hpr.removed.types, hpr.ti.types]
    · intro j; rw [hpr.removed.tags, hpr.ti.tags]
    · intro j; rw [hpr.removed.ids, hpr.ti.ids]
    · intro j hj
      exact hpr.attrs j (front_region f (by rw [hk]; exact hj)).live
  have ep : parseSvg L debug x' = .ok t := by rw [e, e2]; rfl
  refine ⟨txt, x', t, _, U, g3, g4, ep, hpr.desc, hO, hsame, ?_⟩
  have hw2 := C92_same h ha (C44_reachable ep).1.reachable (C44_tree ep).2 hF hpr.desc hT hO hsame hp (plain_parsed ep hpr.desc hO)
    (fun n hn a ha => by obtain ⟨i, hi, _⟩ := hb.wf.attrs n hn a ha; exact ⟨i, hi⟩)
    (fun n hn a ha m hm => ((hb.attrs n hn a ha).target m hm).1) W
  unfold St.toText at g3 ⊢
  rw [← hw2]
  exact g3

theorem indentable_spread {s : St} : ∀ {T : Trees} {sp : XmlSpace} {p : Bool}, T.Indentable s p → T.Spread s sp p
  | .nil, _, _, _ => trivial
  | .cons _ _ _, _, _, ⟨h1, h2, h3, h4, h5⟩ => ⟨h1, h2, h3, .inl (indentable_spread h4), indentable_spread h5⟩

/-- C110 for parsed documents with texts outside of `text` elements. -/
theorem C110_faithful_spread_partial {L : Lib} {debug : Bool} {x : Xml} {t : St} (e : parseSvg L debug x = .ok t) (hx : x.topElements = 1)
    (hx2 : x.topText = false) {F : Forest} (hF : Describes t F) {T : Trees} (hT : T.Of F (F.kids t.rootId)) (W : ValueWriter)
    (hL : ReferencesReadBack L W) (hs : L.sheet [] = []) (h : FaithfulDoc L t W '<' T)
    (hc : ∀ n ∈ T.pre, t.nodeType n = .text → cdataEnd (t.text n) = false) (o : XmlOptions) (hi : T.Spread t .default false) :
    ∃ txt y u G U, t.toText W o = .ok txt ∧ readText txt = some y ∧ parseSvg L debug y = .ok u ∧ Describes u G ∧
      U.Of G (G.kids u.rootId) ∧ SameDoc t T u U ∧ u.toText W o = .ok txt := by
  refine C110_spread_partial (C44_reachable e).1.reachable (C44_tree e).2 hF W '<' hT (comesBack_parsed e hx hx2 hF hT ?_) h.normal
    (plain_parsed e hF hT) (noBlank_parsed e hF hT) hc o hi debug
  refine ⟨h.ids, h.texts, h.comments, h.sep, ?_, hs⟩
  intro n hn a ha i eid hi he
  obtain ⟨h1, h2⟩ := h.values n hn a ha i hi
  exact ⟨h1, C65_comes_back e (by decide) hL hF hT hn ha hi he h2⟩

/-! ## Examples -/

instance decSole (s : St) : ∀ K : Trees, Decidable (∃ c, K = .cons c .nil .nil ∧ s.nodeType c = .text ∧ s.tagName c ≠ .id .Text)
  | .cons c .nil .nil => decidable_of_iff (s.nodeType c = .text ∧ s.tagName c ≠ .id .Text)
    ⟨fun h => ⟨c, rfl, h⟩, fun ⟨_, h, h'⟩ => by injection h with h; rw [h]; exact h'⟩
  | .nil => isFalse (by rintro ⟨_, h, _⟩; injection h)
  | .cons _ (.cons _ _ _) _ => isFalse (by rintro ⟨_, h, _⟩; injection h with _ h; injection h)
  | .cons _ _ (.cons _ _ _) => isFalse (by rintro ⟨_, h, _⟩; injection h with _ _ h; injection h)

instance decSpread (s : St) : ∀ (sp : XmlSpace) (b : Bool) (T : Trees), Decidable (T.Spread s sp b)
  | _, _, .nil => inferInstanceAs (Decidable True)
  | sp, b, .cons i K R =>
    have := decSpread s (s.spaceAt i sp) (b || (decide (s.nodeType i = .element) && decide (s.tagName i = .id .Text))) K
    have := decSpread s sp b R
    inferInstanceAs (Decidable (_ ∧ _ ∧ _ ∧ (_ ∨ (_ ∧ _ ∧ _ ∧ _ ∧ _)) ∧ _))

/-- A title, and a text with parts. -/
def titleXml : Xml :=
  xe st!"svg" [] (xe st!"title" [] (.text st!" a\n b " .nil)
    (xe st!"text" [xa st!"opacity" st!"0.5"] (.text st!"a < " (xe st!"tspan" [] (.text st!"c" .nil) .nil)) .nil)) .nil

def titleTrees : Trees := .cons 1 (.cons 2 (.cons 3 .nil .nil) (.cons 4 (.cons 5 .nil (.cons 6 (.cons 7 .nil .nil) .nil)) .nil)) .nil

def titleText : Str :=
  st!"<svg xmlns=\"http://www.w3.org/2000/svg\">\n    <title>\n        a b\n    </title>\n" ++
    st!"    <text opacity=\"0.5\">a &lt; <tspan>c</tspan></text>\n</svg>\n"

/-- Non-vacuity: a document with a title meets the assumptions (but not those of `C110_back_partial`), and these are its characters. -/
example : ∃ t F, parseSvg sampleLib true titleXml = .ok t ∧ titleXml.topElements = 1 ∧ titleXml.topText = false ∧ Describes t F ∧
    titleTrees.Of F (F.kids t.rootId) ∧ ReferencesReadBack sampleLib sampleWriter ∧ sampleLib.sheet [] = [] ∧
    FaithfulDoc sampleLib t sampleWriter '<' titleTrees ∧
    (∀ n ∈ titleTrees.pre, t.nodeType n = .text → cdataEnd (t.text n) = false) ∧ titleTrees.Spread t .default false ∧
    ¬ titleTrees.Indentable t false ∧ t.toText sampleWriter {} = .ok titleText := by
  obtain ⟨t, e, hp⟩ := exists_of_parsed (x := titleXml) (p := fun t =>
    decide (t.nextId = 8) && t.acyclicB 8 && titleTrees.check t (t.firstChild t.rootId) && wellFormedB t sampleWriter '<' titleTrees &&
    decide (titleTrees.NormalText t) &&
    titleTrees.pre.all (fun n => (t.attributes n).all fun a =>
      match a.name with | .id i => decide (i ≠ .Xmlns) && faithfulB sampleLib t sampleWriter '<' i a.value | .name _ => true) &&
    titleTrees.pre.all (fun n => decide (t.nodeType n = .text → cdataEnd (t.text n) = false)) &&
    decide (titleTrees.Spread t .default false) && decide (¬ titleTrees.Indentable t false) && decide (t.toText sampleWriter {} = .ok titleText)) (by decide +kernel)
  simp only [Bool.and_eq_true, decide_eq_true_eq, List.all_eq_true] at hp
  obtain ⟨⟨⟨⟨⟨⟨⟨⟨⟨e1, e2⟩, e3⟩, e4⟩, e5⟩, e6⟩, e7⟩, e8⟩, e8'⟩, e9⟩ := hp
  have h := (C44_reachable e).1.reachable
  obtain ⟨F, hF⟩ := C01_forest h
  have hr : t.live t.rootId = true := by obtain ⟨_, hti⟩ := h.inv.tree; exact hti.root
  rw [hF.shows.first _ hr] at e3
  have hw := wellFormed_of_check e4
  refine ⟨t, F, e, rfl, rfl, hF, check_of hF _ _ _ hr (List.suffix_refl _) e3, sample_references, rfl,
    ⟨fun n hn ht => ?_, fun n hn ht => ?_, fun n hn ht => ?_, hw.sep, e5, fun n hn a ha i hi => ?_⟩, e7, e8, e8', e9⟩
  · rcases hw.kinds n hn with h | h | h
    · exact h.2.2
    · rw [ht] at h; simp at h
    · rw [ht] at h; simp at h
  · rcases hw.kinds n hn with h | h | h
    · rw [ht] at h; simp at h
    · exact h.2.2.2
    · rw [ht] at h; simp at h
  · rcases hw.kinds n hn with h | h | h
    · rw [ht] at h; simp at h
    · rw [ht] at h; simp at h
    · exact h.2.2
  · have h5 := e6 n hn a ha
    rw [hi] at h5
    simp only [Bool.and_eq_true, decide_eq_true_eq] at h5
    exact ⟨h5.1, faithful_of_check h5.2⟩

end Svgdom
