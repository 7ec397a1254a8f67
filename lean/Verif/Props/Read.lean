import Verif.Proof.RoundTrip
import Verif.Proof.ReadCheck
import Verif.Proof.TextExact
import Verif.Spec.Samples
import Verif.Props.Writer

/-!
# C61, C62: what is written can be read again
-/

set_option autoImplicit false

namespace Svgdom

/-- A document with nested elements, a text, a comment, references and values. -/
def readHistory : List Op :=
  [.createElement (.id .Svg), .createElement (.id .Text), .createNode .text st!"a b", .createNode .comment ['c'],
   .createElement (.id .Use), .createElement (.id .Rect),
   .append 0 1, .append 1 2, .append 2 3, .append 1 4, .append 1 5, .append 1 6, .setId 6 ['a'],
   .setAttribute 5 ⟨.id .X, .length ⟨.fin 5, .none⟩⟩, .setAttribute 5 ⟨.id .Href, .link 6⟩,
   .setAttribute 5 ⟨.id .Fill, .paint 6 none⟩, .setAttribute 6 ⟨.id .Unicode, .string ['"']⟩,
   .setAttribute 6 ⟨.id .Opacity, .number (.fin (1/2))⟩]

/-- A simple way to write values. -/
def sampleWriter : ValueWriter where
  number := fun _ => st!"0.5"
  numberList := fun _ => []
  length := fun _ => st!"5"
  lengthList := fun _ => []
  angle := fun _ => []
  transform := fun _ => []
  path := fun _ => []
  points := fun _ => []
  color := fun _ => st!"red"
  viewBox := fun _ => []
  aspectRatio := fun _ => []

def readTrees : Trees := .cons 1 (.cons 2 (.cons 3 .nil .nil) (.cons 4 .nil (.cons 5 .nil (.cons 6 .nil .nil)))) .nil

/-! ## C61 -/

/-- C61: the output is a well-formed XML document, for attribute values quoted with `q`, and it shows the document: the elements
are in the SVG namespace and have the right names, ids and attributes, comments and texts are in place.
Not always (`C61_refuted`): the names must be SVG names, texts and values must be free of markup, one `svg` at the top. -/
theorem C61_partial {s : St} (h : Reachable s) (ha : s.Acyclic) {F : Forest} (hF : Describes s F) (W : ValueWriter) (q : Char)
    {T : Trees} (hT : T.Of F (F.kids s.rootId)) (hw : WellFormed s W q T) :
    ∃ evs x, s.writeDom W = .ok evs ∧ readMarkup q evs = some x ∧ x.Shows s W q T := read_written h ha W q hF hT hw

/-- Non-vacuity: a document with a text, references, and a quote in a `unicode` attribute. -/
example : ∃ s F, Reachable s ∧ s.Acyclic ∧ Describes s F ∧ readTrees.Of F (F.kids s.rootId) ∧ WellFormed s sampleWriter '"' readTrees := by
  obtain ⟨s, h, e⟩ := exists_of_holds (ops := readHistory) (p := fun s =>
    (decide (s.nextId = 7) && s.acyclicB 7) && readTrees.check s (s.firstChild s.rootId) && wellFormedB s sampleWriter '"' readTrees)
    (by decide +kernel)
  simp only [Bool.and_eq_true, decide_eq_true_eq] at e
  obtain ⟨⟨⟨e1, e2⟩, e3⟩, e4⟩ := e
  have hlt : ∀ i, s.live i = true → i < 7 := fun i hi => by rw [← e1]; exact h.inv.liveBelow i hi
  obtain ⟨F, hF⟩ := C01_forest h
  have hr : s.live s.rootId = true := by obtain ⟨_, hti⟩ := h.inv.tree; exact hti.root
  rw [hF.shows.first _ hr] at e3
  exact ⟨s, F, h, acyclic_of_check hlt e2, hF, check_of hF _ _ _ hr (List.suffix_refl _) e3, wellFormed_of_check e4⟩

/-- C61 fails: the parser accepts a string value with `<`, and the writer writes it as it is. No choice of quotes helps. -/
theorem C61_refuted : ∃ x s evs, parseSvg sampleLib true x = .ok s ∧ s.writeDom sampleWriter = .ok evs ∧ ∀ q, readMarkup q evs = none := by
  obtain ⟨s, h, e⟩ := exists_of_parsed (x := xe st!"svg" [xa st!"font-family" st!"a<b"] .nil .nil)
    (p := fun s => decide (s.writeDom sampleWriter = .ok [.startElement st!"svg", .attribute st!"xmlns" st!"http://www.w3.org/2000/svg",
      .attributeRaw st!"font-family" st!"a<b", .endElement])) (by decide +kernel)
  simp only [decide_eq_true_eq] at e
  refine ⟨_, s, _, h, e, fun q => ?_⟩
  have hq : readAttr q st!"a<b" = none := by
    simp only [readAttr, readAttrAux, List.length_cons]
    repeat (first | rfl | split)
    all_goals simp_all
  simp [readMarkup, readRaw, readSteps, readStep, hq]

/-! ## C62 -/

/-- Everything that is assumed about the document for it to come back from its text. -/
structure ComesBack (L : Lib) (s : St) (W : ValueWriter) (q : Char) (T : Trees) : Prop where
  wf : WellFormed s W q T
  noStyle : ∀ n ∈ T.pre, s.tagName n ≠ .id .Style
  attrs : ∀ n ∈ T.pre, ∀ a ∈ s.attributes n, ReadsBack L s W q T n a
  noSheet : L.sheet [] = []

theorem ComesBack.readable {L : Lib} {s : St} {W : ValueWriter} {q : Char} {T : Trees} (h : ComesBack L s W q T)
    (hl : ∀ n ∈ T.pre, s.live n = true) : ∀ n ∈ T.pre, Readable L s W q T n := by
  intro n hn
  refine ⟨hl n hn, ?_, ?_, h.attrs n hn⟩
  · intro ht
    rcases h.wf.kinds n hn with ⟨_, ⟨e, he⟩, _⟩ | ⟨h1, _⟩ | ⟨h1, _⟩
    · refine ⟨e, he, ?_⟩
      rintro rfl
      exact h.noStyle n hn he
    · rw [ht] at h1; simp at h1
    · rw [ht] at h1; simp at h1
  · intro a ha
    obtain ⟨i, h1, h2, _⟩ := h.wf.attrs n hn a ha
    exact ⟨i, h1, h2⟩

/-- C62: parsing what was written gives the same document before texts are processed: same shape, types, tags, ids, texts and
attributes, and references to nodes at the same place. Indentation of the output does not matter. -/
theorem C62_before_text {L : Lib} {s : St} (h : Reachable s) (ha : s.Acyclic) {F : Forest} (hF : Describes s F) (W : ValueWriter)
    (q : Char) {T : Trees} (hT : T.Of F (F.kids s.rootId)) (hc : ComesBack L s W q T) (debug : Bool) :
    ∃ evs x, s.writeDom W = .ok evs ∧ readMarkup q evs = some x ∧ ∀ x' : Xml, x'.unindent false = x →
      ∃ t G U, parseSvg L debug x' = okOrFail t.prepareText ∧ Describes t G ∧ U.Of G (G.kids t.rootId) ∧ SameDoc s T t U := by
  obtain ⟨evs, x, h1, h2, h3⟩ := read_written h ha W q hF hT hc.wf
  refine ⟨evs, x, h1, h2, ?_⟩
  rintro x' rfl
  have hr : s.live s.rootId = true := by obtain ⟨_, hti⟩ := h.inv.tree; exact hti.root
  have hl : ∀ n ∈ T.pre, s.live n = true := pre_live hF hT fun c hc => (hF.wf.kids _ hr c hc).1
  obtain ⟨p, U, G, s2, s3, f, e, hk, hs⟩ := front_same h debug hc.noSheet h3 (hc.readable hl) hc.wf.top
  have hO := f.of2
  rw [hk, ← f.root3] at hO
  exact ⟨s3, _, U, e, f.desc3, hO, hs⟩

theorem keep_none {g : NodeId → Bool} : ∀ {T : Trees}, (∀ n ∈ T.pre, g n = false) → T.keep g = T
  | .nil, _ => rfl
  | .cons n K R, h => by
    rw [Trees.keep, h n (by simp [Trees.pre]), if_neg (by simp), keep_none fun m hm => h m (by simp [Trees.pre, hm]),
      keep_none fun m hm => h m (by simp [Trees.pre, hm])]

theorem Trees.Same.mono {s t t' : St} {Q : NodeId → NodeId → Prop} : ∀ {T U : Trees}, T.Same s t Q U →
    (∀ n ∈ T.pre, s.nodeType n ≠ .text) →
    (∀ j, t'.nodeType j = t.nodeType j) → (∀ j, t'.tagName j = t.tagName j) → (∀ j, t'.idOf j = t.idOf j) →
    (∀ j, t.nodeType j ≠ .text → t'.text j = t.text j) → (∀ j ∈ U.pre, t'.attributes j = t.attributes j) → T.Same s t' Q U
  | nil, nil, _, _, _, _, _, _, _ => trivial
  | nil, cons _ _ _, h, _, _, _, _, _, _ => h.elim
  | cons _ _ _, nil, h, _, _, _, _, _, _ => h.elim
  | cons n K R, cons m K' R', ⟨h1, h2, h3⟩, hn, a, b, c, d, e => by
    refine ⟨⟨?_, ?_, ?_, ?_, ?_⟩, h2.mono (fun m hm => hn m (by simp [Trees.pre, hm])) a b c d fun j hj => e j (by simp [Trees.pre, hj]),
      h3.mono (fun m hm => hn m (by simp [Trees.pre, hm])) a b c d fun j hj => e j (by simp [Trees.pre, hj])⟩
    · rw [a, h1.type]
    · rw [b]; exact h1.tag
    · rw [c]; exact h1.id
    · rw [e m (by simp [Trees.pre])]; exact h1.attrs
    · intro ht
      rw [d m (by rw [h1.type]; exact hn n (by simp [Trees.pre]))]
      exact h1.text ht

theorem same_shape {s t : St} {Q : NodeId → NodeId → Prop} : ∀ {T U : Trees}, T.Same s t Q U → (∀ n ∈ T.pre, s.nodeType n ≠ .text) →
    ∀ n ∈ U.pre, t.nodeType n ≠ .text
  | .nil, .nil, _, _, n, hn => by simp [Trees.pre] at hn
  | .nil, .cons _ _ _, h, _, _, _ => h.elim
  | .cons _ _ _, .nil, h, _, _, _ => h.elim
  | .cons n K R, .cons m K' R', ⟨h1, h2, h3⟩, hn, j, hj => by
    simp only [Trees.pre, List.mem_cons, List.mem_append] at hj
    rcases hj with rfl | hj | hj
    · rw [h1.type]; exact hn n (by simp [Trees.pre])
    · exact same_shape h2 (fun m hm => hn m (by simp [Trees.pre, hm])) j hj
    · exact same_shape h3 (fun m hm => hn m (by simp [Trees.pre, hm])) j hj

/-- C62: a document without texts comes back.
Not always (`C62_refuted`): what the parser must make of the written values is an assumption, `ReadsBack`, and texts are processed
by the parser. -/
theorem C62_partial {L : Lib} {s : St} (h : Reachable s) (ha : s.Acyclic) {F : Forest} (hF : Describes s F) (W : ValueWriter)
    (q : Char) {T : Trees} (hT : T.Of F (F.kids s.rootId)) (hc : ComesBack L s W q T) (hn : ∀ n ∈ T.pre, s.nodeType n ≠ .text)
    (debug : Bool) :
    ∃ evs x, s.writeDom W = .ok evs ∧ readMarkup q evs = some x ∧ ∀ x' : Xml, x'.unindent false = x →
      ∃ t G U, parseSvg L debug x' = .ok t ∧ Describes t G ∧ U.Of G (G.kids t.rootId) ∧ SameDoc s T t U := by
  obtain ⟨evs, x, h1, h2, h3⟩ := read_written h ha W q hF hT hc.wf
  refine ⟨evs, x, h1, h2, ?_⟩
  rintro x' rfl
  have hr : s.live s.rootId = true := by obtain ⟨_, hti⟩ := h.inv.tree; exact hti.root
  have hl : ∀ n ∈ T.pre, s.live n = true := pre_live hF hT fun c hc => (hF.wf.kids _ hr c hc).1
  obtain ⟨p, U, G, s2, s3, f, e, hk, hs⟩ := front_same h debug hc.noSheet h3 (hc.readable hl) hc.wf.top
  obtain ⟨u, t, e2, hp⟩ := prepareText_ok f.built3 f.desc3 (K := U.keep p.dom.styleNode) (by rw [f.root3]; exact f.of2)
    (fun j hj => front_region f hj)
  have hno : ∀ j ∈ U.pre, u.emptyText j = false := by
    intro j hj
    rw [Bool.eq_false_iff]
    intro hc
    have := (emptyText_iff.1 hc).1
    rw [hp.ti.types] at this
    exact same_shape hs hn j hj this
  have hO := hp.of
  have hrt : t.rootId = s3.rootId := hp.removed.rootId.trans hp.ti.rootId
  rw [hk, keep_none hno, ← hrt] at hO
  have hd := hp.desc
  rw [hk] at hd
  refine ⟨t, _, U, by rw [e, e2]; rfl, hd, hO, hs.mono hn ?_ ?_ ?_ ?_ ?_⟩
  · intro j; rw [hp.removed.types, hp.ti.types]
  · intro j; rw [hp.removed.tags, hp.ti.tags]
  · intro j; rw [hp.removed.ids, hp.ti.ids]
  · intro j hj; rw [hp.removed.texts, hp.ti.texts j hj]
  · intro j hj
    exact hp.attrs j (front_region f (by rw [hk]; exact hj)).live

/-- Non-vacuity: the document of C61, and one without texts. -/
def plainHistory : List Op :=
  [.createElement (.id .Svg), .createElement (.id .G), .createNode .comment ['c'],
   .createElement (.id .Use), .createElement (.id .Rect),
   .append 0 1, .append 1 2, .append 2 3, .append 1 4, .append 1 5, .setId 5 ['a'],
   .setAttribute 4 ⟨.id .X, .length ⟨.fin 5, .none⟩⟩, .setAttribute 4 ⟨.id .Href, .link 5⟩,
   .setAttribute 4 ⟨.id .Fill, .paint 5 none⟩, .setAttribute 5 ⟨.id .Unicode, .string ['"']⟩,
   .setAttribute 5 ⟨.id .Opacity, .number (.fin (1/2))⟩]

def plainTrees : Trees := .cons 1 (.cons 2 (.cons 3 .nil .nil) (.cons 4 .nil (.cons 5 .nil .nil))) .nil

def comesBackB (s : St) (n : Nat) (T : Trees) : Bool :=
  decide (s.nextId = n) && s.acyclicB n && T.check s (s.firstChild s.rootId) && wellFormedB s sampleWriter '"' T &&
    T.pre.all (fun n => decide (s.tagName n ≠ .id .Style)) &&
    T.pre.all fun n => (s.attributes n).all fun a => readsBackB sampleLib s sampleWriter '"' T n a

theorem comesBack_of_check {s : St} (h : Reachable s) {n : Nat} {T : Trees} (e : comesBackB s n T = true) :
    ∃ F, s.Acyclic ∧ Describes s F ∧ T.Of F (F.kids s.rootId) ∧ ComesBack sampleLib s sampleWriter '"' T := by
  simp only [comesBackB, Bool.and_eq_true, decide_eq_true_eq, List.all_eq_true] at e
  obtain ⟨⟨⟨⟨⟨e1, e2⟩, e3⟩, e4⟩, e5⟩, e6⟩ := e
  have hlt : ∀ i, s.live i = true → i < n := fun i hi => by rw [← e1]; exact h.inv.liveBelow i hi
  obtain ⟨F, hF⟩ := C01_forest h
  have hr : s.live s.rootId = true := by obtain ⟨_, hti⟩ := h.inv.tree; exact hti.root
  rw [hF.shows.first _ hr] at e3
  exact ⟨F, acyclic_of_check hlt e2, hF, check_of hF _ _ _ hr (List.suffix_refl _) e3, wellFormed_of_check e4, e5,
    fun n hn a ha => readsBack_of_check (e6 n hn a ha), rfl⟩

example : ∃ s F, Reachable s ∧ s.Acyclic ∧ Describes s F ∧ readTrees.Of F (F.kids s.rootId) ∧
    ComesBack sampleLib s sampleWriter '"' readTrees := by
  obtain ⟨s, h, e⟩ := exists_of_holds (ops := readHistory) (p := fun s => comesBackB s 7 readTrees) (by decide +kernel)
  obtain ⟨F, h1⟩ := comesBack_of_check h e
  exact ⟨s, F, h, h1⟩

example : ∃ s F, Reachable s ∧ s.Acyclic ∧ Describes s F ∧ plainTrees.Of F (F.kids s.rootId) ∧
    ComesBack sampleLib s sampleWriter '"' plainTrees ∧ (∀ n ∈ plainTrees.pre, s.nodeType n ≠ .text) ∧
    s.attributes 4 = [⟨.id .X, .length ⟨.fin 5, .none⟩⟩, ⟨.id .Href, .link 5⟩, ⟨.id .Fill, .paint 5 none⟩] := by
  obtain ⟨s, h, e⟩ := exists_of_holds (ops := plainHistory) (p := fun s => comesBackB s 6 plainTrees &&
    plainTrees.pre.all (fun n => decide (s.nodeType n ≠ .text)) &&
    decide (s.attributes 4 = [⟨.id .X, .length ⟨.fin 5, .none⟩⟩, ⟨.id .Href, .link 5⟩, ⟨.id .Fill, .paint 5 none⟩])) (by decide +kernel)
  simp only [Bool.and_eq_true, decide_eq_true_eq, List.all_eq_true] at e
  obtain ⟨⟨e1, e2⟩, e3⟩ := e
  obtain ⟨F, h1, h2, h3, h4⟩ := comesBack_of_check h e1
  exact ⟨s, F, h, h1, h2, h3, h4, e2, e3⟩

/-- C62 fails even if the output is well-formed: a string value with the text of a character reference comes back as the character. -/
theorem C62_refuted : ∃ x s evs x' t, parseSvg sampleLib true x = .ok s ∧ s.writeDom sampleWriter = .ok evs ∧
    readMarkup '"' evs = some x' ∧ parseSvg sampleLib true x' = .ok t ∧
    s.attributes 1 = [⟨.id .FontFamily, .string st!"&lt;"⟩] ∧ t.attributes 1 = [⟨.id .FontFamily, .string st!"<"⟩] := by
  obtain ⟨s, h, e⟩ := exists_of_parsed (x := xe st!"svg" [xa st!"font-family" st!"&lt;"] .nil .nil)
    (p := fun s => decide (s.attributes 1 = [⟨.id .FontFamily, .string st!"&lt;"⟩]) && match s.writeDom sampleWriter with
      | .ok evs => (match readMarkup '"' evs with
        | some x' => parsed x' fun t => decide (t.attributes 1 = [⟨.id .FontFamily, .string st!"<"⟩])
        | none => false)
      | .error _ => false) (by decide +kernel)
  rw [Bool.and_eq_true, decide_eq_true_eq] at e
  obtain ⟨e1, e⟩ := e
  split at e
  · next evs hw =>
    split at e
    · next x' hx =>
      obtain ⟨t, ht, e⟩ := exists_of_parsed e
      exact ⟨_, s, evs, x', t, h, hw, hx, ht, e1, of_decide_eq_true e⟩
    · simp at e
  · simp at e

end Svgdom
