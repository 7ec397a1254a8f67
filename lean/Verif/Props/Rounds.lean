import Verif.Proof.SameWritten
import Verif.Props.Back
import Verif.Proof.NoBlank

/-!
# C92: saving, loading and saving again
-/

set_option autoImplicit false

namespace Svgdom

/-- C92: documents that are the same, up to the order of attributes and the numbering of nodes, are written alike. -/
theorem C92_same {s t : St} (hs : Reachable s) (hsa : s.Acyclic) (ht : Reachable t) (hta : t.Acyclic) {F G : Forest} (hF : Describes s F)
    (hG : Describes t G) {T U : Trees} (hT : T.Of F (F.kids s.rootId)) (hU : U.Of G (G.kids t.rootId)) (h : SameDoc s T t U)
    (ps : PlainNodes s T) (pt : PlainNodes t U) (hn : ∀ n ∈ T.pre, ∀ a ∈ s.attributes n, ∃ k, a.name = .id k)
    (hr : ∀ n ∈ T.pre, ∀ a ∈ s.attributes n, ∀ m, a.value.refersTo m = true → s.nodeType m = .element) (W : ValueWriter) :
    s.writeDom W = t.writeDom W :=
  writeDom_same W ⟨hs, hsa, hF⟩ ⟨ht, hta, hG⟩ hT hU h ps pt fun n hn' a ha => ⟨hn n hn' a ha, hr n hn' a ha⟩

theorem final_plain {t : St} : ∀ {D : Dom} {T : Trees}, D.Final t T → ∀ n ∈ T.pre, t.nodeType n ≠ .element →
    t.attributes n = [] ∧ t.tagName n = .name []
  | .nil, _, h, n, hn, _ => by rw [h] at hn; simp [Trees.pre] at hn
  | .element eid id attrs refs kids rest, _, ⟨m, K, R, rfl, h1, h2, _, _, _, _, hk, hr⟩, n, hn, he => by
    simp only [Trees.pre, List.mem_cons, List.mem_append] at hn
    rcases hn with rfl | hn | hn
    · exact absurd h1 he
    · exact final_plain hk n hn he
    · exact final_plain hr n hn he
  | .text _ rest, _, h, n, hn, he => by
    rcases h with ⟨m, R, rfl, _, _, h1, _, h2, hr⟩ | h
    · simp only [Trees.pre, List.nil_append, List.mem_cons] at hn
      rcases hn with rfl | hn
      · exact ⟨h1, h2⟩
      · exact final_plain hr n hn he
    · exact final_plain h n hn he
  | .comment _ rest, _, ⟨m, R, rfl, _, _, h1, _, h2, hr⟩, n, hn, he => by
    simp only [Trees.pre, List.nil_append, List.mem_cons] at hn
    rcases hn with rfl | hn
    · exact ⟨h1, h2⟩
    · exact final_plain hr n hn he

/-- Parsed documents have names and attributes on elements only, in any build. -/
theorem plain_parsed {L : Lib} {debug : Bool} {x : Xml} {t : St} (e : parseSvg L debug x = .ok t) {F : Forest} (hF : Describes t F)
    {T : Trees} (hT : T.Of F (F.kids t.rootId)) : PlainNodes t T := by
  refine ⟨final_plain (parsed_final e hF hT), ?_⟩
  obtain ⟨_, p, T0, G, s2, s3, u, f, hp⟩ := parse_ok e
  have hrt : t.rootId = p.dom.rootId := by rw [hp.removed.rootId, hp.ti.rootId, f.root3]
  rw [hrt, hp.removed.tags, hp.ti.tags, f.resolves.same.tags, f.removed.tags, f.root,
    f.adds.grown.tags (St.init debug).rootId (by simp [St.init])]
  rfl

/-- C62: what is written for a parsed document has no blank texts outside `text`, `tspan` and `tref`, so the theorems on C62, which
are about texts that differ from what was written in such blanks, apply to what was written itself. -/
theorem C62_no_blank {L : Lib} {debug : Bool} {x : Xml} {t : St} (e : parseSvg L debug x = .ok t) {F : Forest} (hF : Describes t F)
    {T : Trees} (hT : T.Of F (F.kids t.rootId)) {W : ValueWriter} {q : Char} (hw : WellFormed t W q T) :
    ∃ evs y, t.writeDom W = .ok evs ∧ readMarkup q evs = some y ∧ y.unindent false = y := by
  obtain ⟨evs, y, h1, h2, h3⟩ := read_written (C44_reachable e).1.reachable (C44_tree e).2 W q hF hT hw
  exact ⟨evs, y, h1, h2, unindent_shows h3 (noBlank_parsed e hF hT) (by decide)⟩

/-- C92: if a document is one that comes back (the assumptions of C62), then however often it is written and parsed, it is written
as the first time, and can be parsed again.
Not always (`C92_refuted`): the assumptions say that names, ids, texts and values can be written without escaping. -/
theorem C92_partial {L : Lib} {s : St} (h : Reachable s) (ha : s.Acyclic) {F : Forest} (hF : Describes s F) (W : ValueWriter)
    (q : Char) {T : Trees} (hT : T.Of F (F.kids s.rootId)) (hc : ComesBack L s W q T) (hn : T.NormalText s) (hp : PlainNodes s T)
    (hb : T.NoBlank s none) (debug : Bool) :
    ∃ evs, s.writeDom W = .ok evs ∧ ∀ t, s.Rounds L debug W q t → t.writeDom W = .ok evs ∧ ∃ u, t.Round L debug W q u := by
  obtain ⟨evs, x, h1, h2, h3⟩ := C62_text_partial h ha hF W q hT hc hn debug
  have hx : x.unindent false = x := by
    obtain ⟨evs', x', g1, g2, g3⟩ := read_written h ha W q hF hT hc.wf
    rw [h1] at g1
    cases g1
    rw [h2] at g2
    cases g2
    exact unindent_shows g3 hb (by decide)
  have key : ∀ x' : Xml, x'.unindent false = x → ∃ t, parseSvg L debug x' = .ok t ∧ t.writeDom W = .ok evs := by
    intro x' hx
    obtain ⟨t, G, U, e, hG, hU, hs⟩ := h3 x' hx
    refine ⟨t, e, ?_⟩
    rw [← h1]
    refine (C92_same h ha (C44_reachable e).1.reachable (C44_tree e).2 hF hG hT hU hs hp (plain_parsed e hG hU) ?_ ?_ W).symm
    · intro n hn a ha
      obtain ⟨i, hi, _⟩ := hc.wf.attrs n hn a ha
      exact ⟨i, hi⟩
    · intro n hn a ha m hm
      exact ((hc.attrs n hn a ha).target m hm).1
  have next : ∀ t : St, t.writeDom W = .ok evs → ∀ u : St, t.Round L debug W q u → u.writeDom W = .ok evs := by
    rintro t ht u ⟨evs', y, y', e1, e2, e3, e4⟩
    rw [ht] at e1
    cases e1
    rw [h2] at e2
    cases e2
    obtain ⟨t', e5, e6⟩ := key y' e3
    rw [e4] at e5
    cases e5
    exact e6
  refine ⟨evs, h1, fun t ht => ?_⟩
  have hw : t.writeDom W = .ok evs := by
    induction ht with
    | refl => exact h1
    | tail _ h ih => exact next _ ih _ h
  obtain ⟨u, hu, _⟩ := key x hx
  exact ⟨hw, u, evs, x, x, hw, h2, hx, hu⟩

/-- C92 for parsed documents, with assumptions about single values only. -/
theorem C92_faithful_partial {L : Lib} {debug : Bool} {x : Xml} {t : St} (e : parseSvg L debug x = .ok t) (hx : x.topElements = 1)
    (hx2 : x.topText = false) {F : Forest} (hF : Describes t F) {T : Trees} (hT : T.Of F (F.kids t.rootId)) (W : ValueWriter) {q : Char}
    (hq : q ≠ '&') (hL : ReferencesReadBack L W) (hs : L.sheet [] = []) (h : FaithfulDoc L t W q T) :
    ∃ evs, t.writeDom W = .ok evs ∧ ∀ u, t.Rounds L debug W q u → u.writeDom W = .ok evs ∧ ∃ v, u.Round L debug W q v := by
  refine C92_partial (C44_reachable e).1.reachable (C44_tree e).2 hF W q hT (comesBack_parsed e hx hx2 hF hT ?_) h.normal
    (plain_parsed e hF hT) (noBlank_parsed e hF hT) debug
  refine ⟨h.ids, h.texts, h.comments, h.sep, ?_, hs⟩
  intro n hn a ha i eid hi he
  obtain ⟨h1, h2⟩ := h.values n hn a ha i hi
  exact ⟨h1, C65_comes_back e hq hL hF hT hn ha hi he h2⟩

/-! ## Refutation -/

/-- C92 fails: `font-family="&amp;lt;"` is written as `font-family="&lt;"`, and that, parsed, as `font-family="<"`, which is not XML. -/
theorem C92_refuted : ∃ x s t evs evs', parseSvg sampleLib true x = .ok s ∧ s.Round sampleLib true sampleWriter '"' t ∧
    s.writeDom sampleWriter = .ok evs ∧ t.writeDom sampleWriter = .ok evs' ∧ evs ≠ evs' ∧
    .attributeRaw st!"font-family" st!"&lt;" ∈ evs ∧ .attributeRaw st!"font-family" st!"<" ∈ evs' ∧ readMarkup '"' evs' = none := by
  let y : Xml := xe st!"svg" [xa st!"font-family" st!"<"] .nil .nil
  obtain ⟨s, h, e⟩ := exists_of_parsed (x := xe st!"svg" [xa st!"font-family" st!"&lt;"] .nil .nil)
    (p := fun s => match s.writeDom sampleWriter with
      | .ok evs => decide (readMarkup '"' evs = some y) && decide (.attributeRaw st!"font-family" st!"&lt;" ∈ evs) &&
        decide (.attributeRaw st!"font-family" st!"<" ∉ evs)
      | .error _ => false) (by decide +kernel)
  obtain ⟨t, h', e'⟩ := exists_of_parsed (x := y)
    (p := fun t => match t.writeDom sampleWriter with
      | .ok evs => decide (readMarkup '"' evs = none) && decide (.attributeRaw st!"font-family" st!"<" ∈ evs)
      | .error _ => false) (by decide +kernel)
  split at e
  · next evs hw =>
    split at e'
    · next evs' hw' =>
      simp only [Bool.and_eq_true, decide_eq_true_eq] at e e'
      refine ⟨_, s, t, evs, evs', h, ⟨evs, y, y, hw, e.1.1, rfl, h'⟩, hw, hw', ?_, e.1.2, e'.2, e'.1⟩
      rintro rfl
      exact e.2 e'.2
    · simp at e'
  · simp at e

/-! ## Examples -/

/-- Written and parsed once, the sample document of C62 is the same, but has its attributes in another order: it meets the
assumptions of `C92_same`, as those of `C92_faithful_partial` (`faith_sample`). -/
example : ∃ s t F G, ∃ T U : Trees, Reachable s ∧ s.Acyclic ∧ Reachable t ∧ t.Acyclic ∧ Describes s F ∧ Describes t G ∧
    T.Of F (F.kids s.rootId) ∧ U.Of G (G.kids t.rootId) ∧ SameDoc s T t U ∧ PlainNodes s T ∧ PlainNodes t U ∧
    (∀ n ∈ T.pre, ∀ a ∈ s.attributes n, ∃ k, a.name = .id k) ∧
    (∀ n ∈ T.pre, ∀ a ∈ s.attributes n, ∀ m, a.value.refersTo m = true → s.nodeType m = .element) ∧
    s.attributes 3 ≠ t.attributes 3 := by
  obtain ⟨s, F, e, hx, hx2, hF, hT, hL, hs, hf, _⟩ := faith_sample
  obtain ⟨s', e', hp⟩ := exists_of_parsed (x := faithXml) (p := fun s => match s.writeDom sampleWriter with
      | .ok evs => (match readMarkup '"' evs with
        | some x' => decide (x'.unindent false = x') && parsed x' fun t => decide (s.attributes 3 ≠ t.attributes 3)
        | none => false)
      | .error _ => false) (by decide +kernel)
  rw [e] at e'
  cases e'
  obtain ⟨evs, y, h1, h2, h3⟩ := C62_faithful_partial e hx hx2 hF hT sampleWriter (q := '"') (by decide) hL hs hf
  rw [h1] at hp
  simp only at hp
  rw [h2] at hp
  simp only [Bool.and_eq_true, decide_eq_true_eq] at hp
  obtain ⟨t, G, U, e3, hG, hU, hsame⟩ := h3 y hp.1
  have hd : s.attributes 3 ≠ t.attributes 3 := by
    have := hp.2
    unfold parsed at this
    rw [e3] at this
    simpa using this
  have hr : s.live s.rootId = true := by obtain ⟨_, hti⟩ := (C44_reachable e).1.reachable.inv.tree; exact hti.root
  have hlive : ∀ c ∈ faithTrees.pre, s.live c = true := pre_live hF hT fun c hc => (hF.wf.kids _ hr c hc).1
  refine ⟨s, t, F, G, faithTrees, U, (C44_reachable e).1.reachable, (C44_tree e).2, (C44_reachable e3).1.reachable, (C44_tree e3).2, hF, hG, hT,
    hU, hsame, plain_parsed e hF hT, plain_parsed e3 hG hU, ?_, ?_, hd⟩
  · intro n hn a ha
    obtain ⟨_, i, _, h, _⟩ := C57_types e ⟨hlive n hn, (mem_pre_kids hF hr hT (hlive n hn)).1 hn⟩ ha
    exact ⟨i, h⟩
  · intro n hn a ha m hm
    exact (C63_first e hF hT hn ⟨a, ha, hm⟩).2.2.2

/-- The document of C61 meets the assumptions of `C92_partial`. -/
example : ∃ s F, Reachable s ∧ s.Acyclic ∧ Describes s F ∧ readTrees.Of F (F.kids s.rootId) ∧
    ComesBack sampleLib s sampleWriter '"' readTrees ∧ readTrees.NormalText s ∧ PlainNodes s readTrees ∧ readTrees.NoBlank s none := by
  obtain ⟨s, h, e⟩ := exists_of_holds (ops := readHistory) (p := fun s => comesBackB s 7 readTrees && decide (readTrees.NormalText s) &&
    readTrees.pre.all (fun n => decide (s.nodeType n = .element ∨ (s.attributes n = [] ∧ s.tagName n = .name []))) &&
    decide (s.tagName s.rootId = .name []) &&
    readTrees.pre.all (fun n => decide (s.nodeType n = .text → isBlank (s.text n) = false))) (by decide +kernel)
  simp only [Bool.and_eq_true, decide_eq_true_eq, List.all_eq_true] at e
  obtain ⟨⟨⟨⟨e1, e2⟩, e3⟩, e4⟩, e5⟩ := e
  obtain ⟨F, h1, h2, h3, h4⟩ := comesBack_of_check h e1
  refine ⟨s, F, h, h1, h2, h3, h4, e2, ⟨fun n hn hne => (e3 n hn).resolve_left hne, e4⟩, ?_⟩
  have : ∀ (T : Trees) (tag : Option ElementId), (∀ n ∈ T.pre, s.nodeType n = .text → isBlank (s.text n) = false) → T.NoBlank s tag := by
    intro T
    induction T with
    | nil => intro _ _; trivial
    | cons n K R ihK ihR =>
      intro tag h
      exact ⟨fun ht => .inr (h n (by simp [Trees.pre]) ht), ihK _ fun m hm => h m (by simp [Trees.pre, hm]),
        ihR _ fun m hm => h m (by simp [Trees.pre, hm])⟩
  exact this _ _ e5

end Svgdom
