import Verif.Proof.Writable
import Verif.Props.Targets
import Verif.Props.Rounds

/-!
# C61: exactly when the output can be read
-/

set_option autoImplicit false

namespace Svgdom

/-- A parsed document has the shape that its text can show: SVG names, texts and comments without children, one `svg` at the top. -/
theorem wellFormed_parsed {L : Lib} {debug : Bool} {x : Xml} {t : St} (e : parseSvg L debug x = .ok t) (hx : x.topElements = 1)
    (hx2 : x.topText = false) {F : Forest} (hF : Describes t F) {T : Trees} (hT : T.Of F (F.kids t.rootId)) {W : ValueWriter} {q : Char}
    (h : Writable t W q T) : WellFormed t W q T := by
  have hreach : Reachable t := (C44_reachable e).1.reachable
  have hr : t.live t.rootId = true := by obtain ⟨_, hti⟩ := hreach.inv.tree; exact hti.root
  have hlive : ∀ c ∈ T.pre, t.live c = true := pre_live hF hT fun c hc => (hF.wf.kids _ hr c hc).1
  have hfin := parsed_final e hF hT
  have hin : ∀ n ∈ T.pre, t.InTree n := fun n hn => ⟨hlive n hn, (mem_pre_kids hF hr hT (hlive n hn)).1 hn⟩
  refine ⟨?_, h.sep, ?_, ?_⟩
  · intro n hn
    rcases final_kinds hfin hT n hn with ⟨h1, h2⟩ | ⟨h1, h2, h3⟩ | ⟨h1, h2⟩
    · exact .inl ⟨h1, h2, h.ids n hn h1⟩
    · exact .inr (.inl ⟨h1, by rw [hF.shows.first n (hlive n hn), h2]; rfl, h3, h.texts n hn h1⟩)
    · exact .inr (.inr ⟨h1, by rw [hF.shows.first n (hlive n hn), h2]; rfl, h.comments n hn h1⟩)
  · have hsvg := (parse_ok e).1
    obtain ⟨h1, h2⟩ := domOf_top L (L.sheet (styleTexts x)) .root x [] none
    obtain ⟨ns, k1, k2, k3⟩ := final_tops hfin (noText_unstyled _ (h2 hx2))
    have htags : (svgDom L x).tags = [.Svg] := by
      change (svgDom L x).tags.length ≤ _ at h1
      rw [hx] at h1
      cases hd : (svgDom L x).tags with
      | nil => rw [hd] at hsvg; simp at hsvg
      | cons a l =>
        rw [hd] at hsvg h1
        simp only [List.head?_cons, Option.some.injEq] at hsvg
        simp only [List.length_cons] at h1
        have hl : l = [] := List.length_eq_zero_iff.1 (by omega)
        rw [hsvg, hl]
    rw [tags_unstyled, htags] at k2
    have : List.map QName.id (List.filter (fun e => decide (e ≠ ElementId.Style)) [ElementId.Svg]) = [.id .Svg] := rfl
    rw [this] at k2
    obtain ⟨n, rfl⟩ : ∃ n, ns = [n] := List.length_eq_one_iff.1 (by simpa using congrArg List.length k2)
    simp only [List.map_cons, List.map_nil, List.cons.injEq, and_true] at k2
    exact ⟨n, k1, k3 n (by simp), k2⟩
  · intro n hn a ha
    obtain ⟨eid, i, h1, h2, _⟩ := C57_types e (hin n hn) ha
    obtain ⟨h3, _, _⟩ := C33_attributes e (hin n hn) ha
    rw [h2] at h3
    simp only [ne_eq, QName.id.injEq] at h3
    have ht : t.nodeType n = .element := by
      by_contra hc
      rw [((plain_parsed e hF hT).nodes n hn hc).1] at ha
      simp at ha
    obtain ⟨h4, w, v, h5, h6⟩ := h.values n hn ht a ha i h2
    exact ⟨i, h2, h3, h4, w, v, h5, h6⟩

/-- C61, what is needed: if the output is well-formed XML that shows the document, then ids, texts and comments stand for themselves,
no text follows a text, and something readable is written for every SVG attribute. -/
theorem C61_needed {s : St} (h : Reachable s) (ha : s.Acyclic) {F : Forest} (hF : Describes s F) (W : ValueWriter) (q : Char)
    {T : Trees} (hT : T.Of F (F.kids s.rootId)) {evs : List Ev} {x : Xml} (he : s.writeDom W = .ok evs) (hx : readMarkup q evs = some x)
    (hs : x.Shows s W q T) : Writable s W q T := writable_of_read h ha W q hF hT he hx hs

/-- C61 for parsed documents, exactly: the output is a well-formed XML document that shows the parsed document if and only if the
document is writable. (Every XML document has one element and no text at the top.) -/
theorem C61_parsed_iff {L : Lib} {debug : Bool} {x : Xml} {t : St} (e : parseSvg L debug x = .ok t) (hx : x.topElements = 1)
    (hx2 : x.topText = false) {F : Forest} (hF : Describes t F) {T : Trees} (hT : T.Of F (F.kids t.rootId)) (W : ValueWriter) (q : Char) :
    (∃ evs y, t.writeDom W = .ok evs ∧ readMarkup q evs = some y ∧ y.Shows t W q T) ↔ Writable t W q T := by
  have hr : Reachable t := (C44_reachable e).1.reachable
  have ha := (C44_tree e).2
  constructor
  · rintro ⟨evs, y, h1, h2, h3⟩
    exact writable_of_read hr ha W q hF hT h1 h2 h3
  · intro h
    exact read_written hr ha W q hF hT (wellFormed_parsed e hx hx2 hF hT h)

theorem WellFormed.writable {s : St} {W : ValueWriter} {q : Char} {T : Trees} (h : WellFormed s W q T) : Writable s W q T := by
  refine ⟨?_, ?_, ?_, h.sep, ?_⟩
  · intro n hn ht
    rcases h.kinds n hn with h | h | h
    · exact h.2.2
    · rw [ht] at h; simp at h
    · rw [ht] at h; simp at h
  · intro n hn ht
    rcases h.kinds n hn with h | h | h
    · rw [ht] at h; simp at h
    · exact h.2.2.2
    · rw [ht] at h; simp at h
  · intro n hn ht
    rcases h.kinds n hn with h | h | h
    · rw [ht] at h; simp at h
    · rw [ht] at h; simp at h
    · exact h.2.2
  · intro n hn _ a ha i hi
    obtain ⟨j, h1, _, h2, h3⟩ := h.attrs n hn a ha
    rw [hi] at h1
    cases QName.id.inj h1
    exact ⟨h2, h3⟩

/-- Non-vacuity: the sample document of C62 is writable. -/
example : ∃ t F, parseSvg sampleLib true backXml = .ok t ∧ backXml.topElements = 1 ∧ backXml.topText = false ∧ Describes t F ∧
    backTrees.Of F (F.kids t.rootId) ∧ Writable t sampleWriter '"' backTrees := by
  obtain ⟨t, e, hp⟩ := exists_of_parsed (x := backXml) (p := fun t => comesBackB t 8 backTrees) (by decide +kernel)
  obtain ⟨F, _, h2, h3, h4⟩ := comesBack_of_check (C44_reachable e).1.reachable hp
  exact ⟨t, F, e, rfl, rfl, h2, h3, h4.wf.writable⟩

/-- A parsed document that is not, with any quotes: a value with `<`. -/
example : ∃ t F, parseSvg sampleLib true (xe st!"svg" [xa st!"font-family" st!"a<b"] .nil .nil) = .ok t ∧ Describes t F ∧
    (Trees.cons 1 .nil .nil).Of F (F.kids t.rootId) ∧ ∀ q, ¬ Writable t sampleWriter q (.cons 1 .nil .nil) := by
  obtain ⟨t, e, hp⟩ := exists_of_parsed (x := xe st!"svg" [xa st!"font-family" st!"a<b"] .nil .nil) (p := fun t =>
    (Trees.cons 1 .nil .nil).check t (t.firstChild t.rootId) && decide (t.attributes 1 = [⟨.id .FontFamily, .string st!"a<b"⟩]) &&
      decide (t.nodeType 1 = .element)) (by decide +kernel)
  simp only [Bool.and_eq_true, decide_eq_true_eq] at hp
  obtain ⟨⟨e1, e2⟩, e3⟩ := hp
  have h : Reachable t := (C44_reachable e).1.reachable
  obtain ⟨F, hF⟩ := C01_forest h
  have hr : t.live t.rootId = true := by obtain ⟨_, hti⟩ := h.inv.tree; exact hti.root
  rw [hF.shows.first _ hr] at e1
  refine ⟨t, F, e, hF, check_of hF _ _ _ hr (List.suffix_refl _) e1, fun q hc => ?_⟩
  obtain ⟨_, w, v, hw, hv⟩ := hc.values 1 (by simp [Trees.pre]) e3 ⟨.id .FontFamily, .string st!"a<b"⟩ (by rw [e2]; simp) .FontFamily rfl
  cases hw
  have hq : readAttr q st!"a<b" = none := by
    simp only [readAttr, readAttrAux, List.length_cons]
    repeat (first | rfl | split)
    all_goals simp_all
  exact absurd (hv.symm.trans hq) (by simp)

end Svgdom
