import Verif.Proof.XmlBack
import Verif.Props.Rounds
import Verif.Props.Switch

/-!
# C110: the characters of the output can be read back
-/

set_option autoImplicit false

namespace Svgdom

/-- The calls of `writeDom`, in terms of the trees. -/
theorem calls_written {s : St} (h : Reachable s) (ha : s.Acyclic) (W : ValueWriter) {F : Forest} (hF : Describes s F) {T : Trees}
    (hT : T.Of F (F.kids s.rootId)) {name : NodeId → Str} {attrs : NodeId → List Ev}
    (hall : ∀ i ∈ T.pre, s.IsName i (name i) ∧ s.writeAttributes W i = .ok (attrs i)) :
    ∃ l, s.writeDom W = .ok (T.allCalls s name attrs ++ l) ∧ (l = [] ∨ l = [.preserve false]) := by
  have hr : s.live s.rootId = true := by obtain ⟨_, hti⟩ := h.inv.tree; exact hti.root
  have hty : s.nodeType s.rootId = .root := (h.nodesOk.root _ hr).2 rfl
  obtain ⟨T0, hT0, _, he, _⟩ := C07_traverse h ha hF hr
  obtain ⟨K, R, rfl, hK, hR⟩ := hT0.cons_list
  obtain rfl := hT.unique hK
  have hRn : R = .nil := by
    cases R with
    | nil => rfl
    | cons j k r => obtain ⟨l, e, _⟩ := hR; simp at e
  subst hRn
  have e1 := writeEdges_allCalls (W := W) T (fun i hi => (hall i hi).1) (fun i hi => (hall i hi).2)
  have hend : s.writeEdges W [.stop s.rootId] = .ok (s.writeEnd s.rootId) := by
    simp [St.writeEdges, bind, Except.bind, pure, Except.pure]
  refine ⟨s.writeEnd s.rootId, ?_, ?_⟩
  · have := writeEdges_append s W _ _ e1 hend
    simp only [St.writeDom, he, bind, Except.bind, Trees.edges, St.writeEdges, St.writeStart, hty, this, pure, Except.pure,
      List.nil_append]
  · by_cases hx : s.hasTagName s.rootId (.id .Text) = true <;> simp [St.writeEnd, St.isElement, hty, hx]

/-- Writing `s` gives characters that are read as what shows `s'`: the same document, up to texts. -/
theorem text_written_wide {s s' : St} (h : Reachable s) (ha : s.Acyclic) {F : Forest} (hF : Describes s F) (h' : Reachable s') (ha' : s'.Acyclic)
    (hF' : Describes s' F) (W : ValueWriter) (q : Char) {T : Trees} (hT : T.Of F (F.kids s.rootId)) (hT' : T.Of F (F.kids s'.rootId))
    (hw : WellFormed s W q T) (hw' : WellFormed s' W q T) (hty : ∀ i, s'.nodeType i = s.nodeType i) (hna : ∀ i x, s'.IsName i x → s.IsName i x)
    (hat : ∀ i, s'.writeAttributes W i = s.writeAttributes W i)
    (hc : ∀ n ∈ T.pre, s'.nodeType n = .text → cdataEnd (s'.text n) = false) (o : XmlOptions) {keep : NodeId → Bool}
    (hi : o.indent = .none ∨ T.Apart s false) (hi' : o.indent = .none ∨ T.Fits s' keep false)
    (hch : ∀ name attrs, T.chars o s (startsText s) name attrs false 0 = T.chars o s' keep name attrs false 0) :
    ∃ evs txt, ∃ x x' : Xml, s'.writeDom W = .ok evs ∧ readMarkup q evs = some x ∧ s.toText W o = .ok txt ∧ readText txt = some x' ∧
      x'.unindent false = x.unindent false ∧ x.Shows s' W q T := by
  obtain ⟨_, _, _, _, _, _, _, _, _, _, hkinds, _⟩ := read_written_parts h ha W q hF hT hw
  obtain ⟨evs, x, name, attrs, ra, h1, h2, h3, h4, h5, h6, h7, h8, h9⟩ := read_written_parts h' ha' W q hF' hT' hw'
  obtain ⟨l, e, hl⟩ := calls_written h ha W hF hT (fun i hi => ⟨hna i _ (h4 i hi).1, by rw [← hat]; exact (h4 i hi).2.1⟩)
  have hp : ∀ i ∈ T.pre, Parts s' q name attrs ra i := by
    intro i hi
    have hk := hw'.kinds i hi
    refine ⟨fun ht => ?_, h5 i hi, fun ht => ?_, fun ht => ?_⟩
    · rcases hk with ⟨_, ⟨e, he⟩, _⟩ | h | h
      · have hn := (h4 i hi).1
        unfold St.IsName at hn
        rw [he] at hn
        exact (elem_name_ok e hn).1
      · rw [ht] at h; simp at h
      · rw [ht] at h; simp at h
    · rcases hk with h | h | h
      · rw [ht] at h; simp at h
      · exact ⟨h.2.2.2, hc i hi ht⟩
      · rw [ht] at h; simp at h
    · rcases hk with h | h | h
      · rw [ht] at h; simp at h
      · rw [ht] at h; simp at h
      · exact h.2.2
  have htop : ∀ i ∈ T.tops, s'.nodeType i ≠ .text := by
    intro i hi ht
    obtain ⟨n, hn, he, _⟩ := hw'.top
    have : i ∈ T.tops.filter (fun m => decide (s'.nodeType m ≠ .comment)) := by
      rw [List.mem_filter]
      exact ⟨hi, by simp [ht]⟩
    rw [hn, List.mem_singleton] at this
    rw [← this, ht] at he
    simp at he
  obtain ⟨x', r1, r2⟩ := text_read o hkinds h6 hw'.sep (fun i hi => (h4 i hi).1) (fun i hi => (h4 i hi).2.2) hp
    (fun i hi => by rw [← hty]; exact htop i hi) htop hi hi' (hch name attrs) h7 h8 h9 hl
  exact ⟨evs, _, x, x', h1, h2, by simp [St.toText, e, bind, Except.bind, pure, Except.pure], r1, r2, h3⟩

theorem text_written {s : St} (h : Reachable s) (ha : s.Acyclic) {F : Forest} (hF : Describes s F) (W : ValueWriter) (q : Char)
    {T : Trees} (hT : T.Of F (F.kids s.rootId)) (hw : WellFormed s W q T)
    (hc : ∀ n ∈ T.pre, s.nodeType n = .text → cdataEnd (s.text n) = false) (o : XmlOptions)
    (hi : o.indent = .none ∨ T.Indentable s false) :
    ∃ evs txt, ∃ x x' : Xml, s.writeDom W = .ok evs ∧ readMarkup q evs = some x ∧ s.toText W o = .ok txt ∧ readText txt = some x' ∧
      x'.unindent false = x.unindent false ∧ x.Shows s W q T :=
  text_written_wide h ha hF h ha hF W q hT hT hw hw (fun _ => rfl) (fun _ _ h => h) (fun _ => rfl) hc o (hi.imp id (·.apart))
    (hi.imp id (·.fits)) fun _ _ => rfl

/-- C110: the characters of the output are an XML document, and up to indentation it is the one that shows the document (C61). `q` is
any character: there is no condition on quotes.
Not always (`C110_refuted`, `C110_refuted_cdata`, `C110_refuted_markup`): with indentation, texts must be inside of `text` elements;
and there must be no markup in texts and values (`WellFormed`), also not `]]>`. -/
theorem C110_partial {s : St} (h : Reachable s) (ha : s.Acyclic) {F : Forest} (hF : Describes s F) (W : ValueWriter) (q : Char)
    {T : Trees} (hT : T.Of F (F.kids s.rootId)) (hw : WellFormed s W q T)
    (hc : ∀ n ∈ T.pre, s.nodeType n = .text → cdataEnd (s.text n) = false) (o : XmlOptions)
    (hi : o.indent = .none ∨ T.Indentable s false) :
    ∃ txt, ∃ x x' : Xml, s.toText W o = .ok txt ∧ readText txt = some x' ∧ x'.unindent false = x.unindent false ∧ x.Shows s W q T := by
  obtain ⟨_, txt, x, x', _, _, h3⟩ := text_written h ha hF W q hT hw hc o hi
  exact ⟨txt, x, x', h3⟩

/-- C110 with C62 and C92: characters are written, read and parsed, and the document is the same; written again it has the same
characters. -/
theorem C110_back_partial {L : Lib} {s : St} (h : Reachable s) (ha : s.Acyclic) {F : Forest} (hF : Describes s F) (W : ValueWriter)
    (q : Char) {T : Trees} (hT : T.Of F (F.kids s.rootId)) (hb : ComesBack L s W q T) (hn : T.NormalText s) (hp : PlainNodes s T)
    (hnb : T.NoBlank s none) (hc : ∀ n ∈ T.pre, s.nodeType n = .text → cdataEnd (s.text n) = false) (o : XmlOptions)
    (hi : o.indent = .none ∨ T.Indentable s false) (debug : Bool) :
    ∃ txt y t G U, s.toText W o = .ok txt ∧ readText txt = some y ∧ parseSvg L debug y = .ok t ∧ Describes t G ∧
      U.Of G (G.kids t.rootId) ∧ SameDoc s T t U ∧ t.toText W o = .ok txt := by
  obtain ⟨evs, txt, x, x', g1, g2, g3, g4, g5, g6⟩ := text_written h ha hF W q hT hb.wf hc o hi
  obtain ⟨evs', y, h1, h2, h3⟩ := C62_text_partial h ha hF W q hT hb hn debug
  rw [h1] at g1
  cases g1
  rw [h2] at g2
  cases g2
  rw [unindent_shows g6 hnb (by decide)] at g5
  obtain ⟨t, G, U, e, hG, hU, hs⟩ := h3 x' g5
  refine ⟨txt, x', t, G, U, g3, g4, e, hG, hU, hs, ?_⟩
  have hw := C92_same h ha (C44_reachable e).1.reachable (C44_tree e).2 hF hG hT hU hs hp (plain_parsed e hG hU)
    (fun n hn a ha => by obtain ⟨i, hi, _⟩ := hb.wf.attrs n hn a ha; exact ⟨i, hi⟩)
    (fun n hn a ha m hm => ((hb.attrs n hn a ha).target m hm).1) W
  unfold St.toText at g3 ⊢
  rw [← hw]
  exact g3

/-- C110 for parsed documents, with assumptions about single values only (`<` as the character `q`: no condition on quotes). -/
theorem C110_faithful_partial {L : Lib} {debug : Bool} {x : Xml} {t : St} (e : parseSvg L debug x = .ok t) (hx : x.topElements = 1)
    (hx2 : x.topText = false) {F : Forest} (hF : Describes t F) {T : Trees} (hT : T.Of F (F.kids t.rootId)) (W : ValueWriter)
    (hL : ReferencesReadBack L W) (hs : L.sheet [] = []) (h : FaithfulDoc L t W '<' T)
    (hc : ∀ n ∈ T.pre, t.nodeType n = .text → cdataEnd (t.text n) = false) (o : XmlOptions)
    (hi : o.indent = .none ∨ T.Indentable t false) :
    ∃ txt y u G U, t.toText W o = .ok txt ∧ readText txt = some y ∧ parseSvg L debug y = .ok u ∧ Describes u G ∧
      U.Of G (G.kids u.rootId) ∧ SameDoc t T u U ∧ u.toText W o = .ok txt := by
  refine C110_back_partial (C44_reachable e).1.reachable (C44_tree e).2 hF W '<' hT (comesBack_parsed e hx hx2 hF hT ?_) h.normal
    (plain_parsed e hF hT) (noBlank_parsed e hF hT) hc o hi debug
  refine ⟨h.ids, h.texts, h.comments, h.sep, ?_, hs⟩
  intro n hn a ha i eid hi he
  obtain ⟨h1, h2⟩ := h.values n hn a ha i hi
  exact ⟨h1, C65_comes_back e (by decide) hL hF hT hn ha hi he h2⟩

/-! ## Refutations -/

/-- The characters that the sample writer writes for a parsed document, and the document that is read and parsed from them. -/
def savedAndLoaded (o : XmlOptions) (s : St) (p : Str → Option Xml → Bool) : Bool :=
  match s.toText sampleWriter o with
  | .ok txt => p txt (readText txt)
  | .error _ => false

/-- Is the document of these characters. -/
def loads (txt : Str) (p : St → Bool) : Bool := match readText txt with
  | some x => parsed x p
  | none => false

/-- C110 fails, with default options: a text that is not inside of `text` gets white space around it, each time it is saved. -/
theorem C110_refuted : ∃ x s txt x' t txt' x'' u, parseSvg sampleLib true x = .ok s ∧ s.toText sampleWriter {} = .ok txt ∧
    readText txt = some x' ∧ parseSvg sampleLib true x' = .ok t ∧ t.toText sampleWriter {} = .ok txt' ∧ readText txt' = some x'' ∧
    parseSvg sampleLib true x'' = .ok u ∧ s.text 4 = st!"a" ∧ t.text 4 = st!"\n        a\n    " ∧
    u.text 4 = st!"\n        \n        a\n    \n    " := by
  obtain ⟨s, h, e⟩ := exists_of_parsed (x := xe st!"svg" [] (xe st!"g" [] (xe st!"rect" [] .nil (.text st!"a" .nil)) .nil) .nil)
    (p := fun s => decide (s.text 4 = st!"a") && savedAndLoaded {} s fun txt _ => loads txt fun t =>
      decide (t.text 4 = st!"\n        a\n    ") && savedAndLoaded {} t fun txt _ => loads txt fun u =>
      decide (u.text 4 = st!"\n        \n        a\n    \n    ")) (by decide +kernel)
  simp only [Bool.and_eq_true, decide_eq_true_eq, savedAndLoaded, loads] at e
  obtain ⟨e1, e2⟩ := e
  split at e2
  · next txt ht =>
    split at e2
    · next x' hx =>
      obtain ⟨t, h3, h4⟩ := exists_of_parsed e2
      simp only [Bool.and_eq_true, decide_eq_true_eq] at h4
      obtain ⟨h4, e3⟩ := h4
      split at e3
      · next txt' ht' =>
        split at e3
        · next x'' hx' =>
          obtain ⟨u, h5, h6⟩ := exists_of_parsed e3
          exact ⟨_, s, txt, x', t, txt', x'', u, h, ht, hx, h3, ht', hx', h5, e1, h4, by simpa using h6⟩
        · simp at e3
      · simp at e3
    · simp at e2
  · simp at e2

/-- C110 fails: a text with `]]>` is written as it is, which is not XML. -/
theorem C110_refuted_cdata : ∃ x s txt, parseSvg sampleLib true x = .ok s ∧ s.toText sampleWriter {} = .ok txt ∧ readText txt = none := by
  obtain ⟨s, h, e⟩ := exists_of_parsed (x := xe st!"svg" [] (xe st!"text" [] (.text st!"a]]>b" .nil) .nil) .nil)
    (p := fun s => savedAndLoaded {} s fun _ x => x.isNone) (by decide +kernel)
  unfold savedAndLoaded at e
  split at e
  · next txt ht => exact ⟨_, s, txt, h, ht, by simpa using e⟩
  · simp at e

/-- C110 fails: a value with `<` is written as it is, whatever the quotes are. -/
theorem C110_refuted_markup : ∃ x s txt txt', parseSvg sampleLib true x = .ok s ∧ s.toText sampleWriter {} = .ok txt ∧
    readText txt = none ∧ s.toText sampleWriter { single := true } = .ok txt' ∧ readText txt' = none := by
  obtain ⟨s, h, e⟩ := exists_of_parsed (x := xe st!"svg" [xa st!"font-family" st!"a<b"] .nil .nil)
    (p := fun s => savedAndLoaded {} s (fun _ x => x.isNone) && savedAndLoaded { single := true } s fun _ x => x.isNone)
    (by decide +kernel)
  simp only [Bool.and_eq_true] at e
  obtain ⟨e1, e2⟩ := e
  unfold savedAndLoaded at e1 e2
  split at e1
  · next txt ht =>
    split at e2
    · next txt' ht' => exact ⟨_, s, txt, txt', h, ht, by simpa using e1, ht', by simpa using e2⟩
    · simp at e2
  · simp at e1

/-! ## Examples -/

instance decIndentable (s : St) : ∀ (b : Bool) (T : Trees), Decidable (T.Indentable s b)
  | _, .nil => inferInstanceAs (Decidable True)
  | b, .cons i K R =>
    have := decIndentable s (b || (decide (s.nodeType i = .element) && decide (s.tagName i = .id .Text))) K
    have := decIndentable s b R
    inferInstanceAs (Decidable (_ ∧ _ ∧ _ ∧ _ ∧ _))

/-- Both quotes in one value, indented texts and values. -/
def quotesXml : Xml :=
  xe st!"svg" [xa st!"font-family" st!"a\"b'c"]
    (xe st!"rect" [xa st!"id" st!"r", xa st!"opacity" st!"0.5"] .nil
    (xe st!"text" [xa st!"fill" st!"url(#r)", xa st!"unicode" st!"<"] (.text st!"a 'b" .nil) .nil)) .nil

def quotesTrees : Trees := .cons 1 (.cons 2 .nil (.cons 3 (.cons 4 .nil .nil) .nil)) .nil

def quotesText : Str :=
  st!"<svg xmlns=\"http://www.w3.org/2000/svg\" font-family=\"a&quot;b'c\">\n" ++
    st!"    <rect id=\"r\" opacity=\"0.5\"/>\n    <text fill=\"url(#r)\" unicode=\"&#x3c;\">a 'b</text>\n</svg>\n"

/-- Non-vacuity: a document with both quotes in one value meets the assumptions, and these are its characters. -/
example : ∃ t F, parseSvg sampleLib true quotesXml = .ok t ∧ quotesXml.topElements = 1 ∧ quotesXml.topText = false ∧ Describes t F ∧
    quotesTrees.Of F (F.kids t.rootId) ∧ ReferencesReadBack sampleLib sampleWriter ∧ sampleLib.sheet [] = [] ∧
    FaithfulDoc sampleLib t sampleWriter '<' quotesTrees ∧
    (∀ n ∈ quotesTrees.pre, t.nodeType n = .text → cdataEnd (t.text n) = false) ∧ quotesTrees.Indentable t false ∧
    t.toText sampleWriter {} = .ok quotesText := by
  obtain ⟨t, e, hp⟩ := exists_of_parsed (x := quotesXml) (p := fun t =>
    decide (t.nextId = 5) && t.acyclicB 5 && quotesTrees.check t (t.firstChild t.rootId) && wellFormedB t sampleWriter '<' quotesTrees &&
    decide (quotesTrees.NormalText t) &&
    quotesTrees.pre.all (fun n => (t.attributes n).all fun a =>
      match a.name with | .id i => decide (i ≠ .Xmlns) && faithfulB sampleLib t sampleWriter '<' i a.value | .name _ => true) &&
    quotesTrees.pre.all (fun n => decide (t.nodeType n = .text → cdataEnd (t.text n) = false)) &&
    decide (quotesTrees.Indentable t false) && decide (t.toText sampleWriter {} = .ok quotesText)) (by decide +kernel)
  simp only [Bool.and_eq_true, decide_eq_true_eq, List.all_eq_true] at hp
  obtain ⟨⟨⟨⟨⟨⟨⟨⟨e1, e2⟩, e3⟩, e4⟩, e5⟩, e6⟩, e7⟩, e8⟩, e9⟩ := hp
  have h := (C44_reachable e).1.reachable
  obtain ⟨F, hF⟩ := C01_forest h
  have hr : t.live t.rootId = true := by obtain ⟨_, hti⟩ := h.inv.tree; exact hti.root
  rw [hF.shows.first _ hr] at e3
  have hw := wellFormed_of_check e4
  refine ⟨t, F, e, rfl, rfl, hF, check_of hF _ _ _ hr (List.suffix_refl _) e3, sample_references, rfl,
    ⟨fun n hn ht => ?_, fun n hn ht => ?_, fun n hn ht => ?_, hw.sep, e5, fun n hn a ha i hi => ?_⟩, e7, e8, e9⟩
  · rcases hw.kinds n hn with h | h | h
    · exact h.2.2
    · rw [ht] at h; simp at h
    · rw [ht] at h; simp at h
  · rcases hw.kinds n hn with h | h | h
    · rw [ht] at h; simp at h
    · exact h.2.2.2
    · rw [ht] at h; simp at h
  · rcases hw.kinds n hn with h | h | h
    · rw [ht] at h; simp at h
    · rw [ht] at h; simp at h
    · exact h.2.2
  · have h5 := e6 n hn a ha
    rw [hi] at h5
    simp only [Bool.and_eq_true, decide_eq_true_eq] at h5
    exact ⟨h5.1, faithful_of_check h5.2⟩

end Svgdom
