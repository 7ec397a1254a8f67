import Verif.Spec.Writable
import Verif.Proof.Read

/-! What can be concluded from the text being read. -/

set_option autoImplicit false

namespace Svgdom

/-! ### Calls -/

/-- What a call must be like for it to be read. -/
def Ev.fine (q : Char) : Ev → Prop
  | .attribute _ v => plainValue v = true
  | .attributeRaw _ v => ∃ w, readAttr q v = some w
  | .text t => plainContent t = true
  | .comment t => plainComment t = true
  | _ => True

theorem readStep_fine {q : Char} {e : Ev} {st st' : ReadSt} (h : readStep q e st = some st') : e.fine q := by
  cases e with
  | «attribute» n v =>
    simp only [readStep] at h
    split at h
    · next hc => simp only [Bool.and_eq_true] at hc; exact hc.2
    · simp at h
  | attributeRaw n v =>
    simp only [readStep] at h
    split at h
    · rw [Option.map_eq_some_iff] at h
      obtain ⟨w, hw, _⟩ := h
      exact ⟨w, hw⟩
    · simp at h
  | text t =>
    obtain ⟨as, stack⟩ := st
    cases as <;> cases stack <;> simp only [readStep] at h
    · simp at h
    · split at h
      · assumption
      · simp at h
    · simp at h
    · simp at h
  | comment t =>
    obtain ⟨as, stack⟩ := st
    cases as <;> cases stack <;> simp only [readStep] at h
    · simp at h
    · split at h
      · assumption
      · simp at h
    · simp at h
    · simp at h
  | startElement _ => trivial
  | endElement => trivial
  | preserve _ => trivial

theorem readSteps_fine {q : Char} : ∀ {es : List Ev} {st st' : ReadSt}, readSteps q es st = some st' → ∀ e ∈ es, e.fine q
  | [], _, _, _, e, he => by simp at he
  | e :: es, st, st', h, e', he => by
    rw [readSteps, Option.bind_eq_some_iff] at h
    obtain ⟨st1, h1, h2⟩ := h
    rcases List.mem_cons.1 he with rfl | he
    · exact readStep_fine h2
    · exact readSteps_fine h1 e' he

/-! ### Texts are merged -/

def Raw.isText : Raw → Bool
  | .text _ _ => true
  | _ => false

/-- No text follows a text. -/
def Raw.Sep : Raw → Prop
  | .nil => True
  | .element _ _ kids rest => kids.Sep ∧ rest.Sep
  | .text _ rest => rest.isText = false ∧ rest.Sep
  | .comment _ rest => rest.Sep

theorem Raw.Sep.consText {r : Raw} (h : r.Sep) (t : Str) : (r.consText t).Sep := by
  cases r with
  | text u rest => exact h
  | nil =>
    simp only [Raw.consText]
    by_cases ht : t = []
    · rw [if_pos ht]; exact h
    · rw [if_neg ht]; exact ⟨rfl, h⟩
  | element _ _ _ _ =>
    simp only [Raw.consText]
    by_cases ht : t = []
    · rw [if_pos ht]; exact h
    · rw [if_neg ht]; exact ⟨rfl, h⟩
  | comment _ _ =>
    simp only [Raw.consText]
    by_cases ht : t = []
    · rw [if_pos ht]; exact h
    · rw [if_neg ht]; exact ⟨rfl, h⟩

theorem readStep_sep {q : Char} {e : Ev} {st st' : ReadSt} (h : readStep q e st = some st') (hs : ∀ r ∈ st.stack, r.Sep) :
    ∀ r ∈ st'.stack, r.Sep := by
  obtain ⟨as, stack⟩ := st
  unfold readStep at h
  split at h
  · cases h; exact hs
  · next he => 
    cases he
    split at h
    · cases h; exact hs
    · simp at h
  · next he =>
    cases he
    split at h
    · rw [Option.map_eq_some_iff] at h
      obtain ⟨w, _, rfl⟩ := h
      exact hs
    · simp at h
  · next he =>
    cases he
    split at h
    · cases h
      intro r hr
      rcases List.mem_cons.1 hr with rfl | hr
      · exact ⟨hs _ (by simp), hs _ (by simp)⟩
      · exact hs r (by simp [hr])
    · simp at h
  · next he =>
    cases he
    cases h
    intro r hr
    rcases List.mem_cons.1 hr with rfl | hr
    · trivial
    · exact hs r hr
  · next he =>
    cases he
    split at h
    · cases h
      intro r hr
      rcases List.mem_cons.1 hr with rfl | hr
      · exact (hs _ (by simp)).consText _
      · exact hs r (by simp [hr])
    · simp at h
  · next he =>
    cases he
    split at h
    · cases h
      intro r hr
      rcases List.mem_cons.1 hr with rfl | hr
      · have := hs _ List.mem_cons_self; exact this
      · exact hs r (by simp [hr])
    · simp at h
  · simp at h

theorem readSteps_sep {q : Char} : ∀ {es : List Ev} {st st' : ReadSt}, readSteps q es st = some st' → (∀ r ∈ st.stack, r.Sep) →
    ∀ r ∈ st'.stack, r.Sep
  | [], _, _, h, hs => by cases h; exact hs
  | e :: es, st, st', h, hs => by
    rw [readSteps, Option.bind_eq_some_iff] at h
    obtain ⟨st1, h1, h2⟩ := h
    exact readStep_sep h2 (readSteps_sep h1 hs)

/-! ### The same after namespaces are resolved -/

def Xml.isText : Xml → Bool
  | .text _ _ => true
  | _ => false

/-- No text follows a text, and no attribute is called `xmlns`. -/
def Xml.Tidied : Xml → Prop
  | .nil => True
  | .element _ _ attrs kids rest => (∀ a ∈ attrs, ¬ (a.ns = none ∧ a.name = st!"xmlns")) ∧ kids.Tidied ∧ rest.Tidied
  | .text _ rest => rest.isText = false ∧ rest.Tidied
  | .comment _ rest => rest.Tidied
  | .pi rest => rest.Tidied

theorem expandAttrs_mem {sc : Scope} : ∀ {l : List (Str × Str)} {as : List XmlAttr}, expandAttrs sc l = some as → ∀ x ∈ as,
    ∃ a ∈ l, declares a.1 = none ∧ expandAttr sc a = some x
  | [], _, h, x, hx => by cases h; simp at hx
  | a :: l, as, h, x, hx => by
    rw [expandAttrs] at h
    split at h
    · obtain ⟨b, hb, h1⟩ := expandAttrs_mem h x hx
      exact ⟨b, by simp [hb], h1⟩
    · next hd =>
      rw [Option.bind_eq_some_iff] at h
      obtain ⟨y, hy, h⟩ := h
      rw [Option.map_eq_some_iff] at h
      obtain ⟨as', h', rfl⟩ := h
      rcases List.mem_cons.1 hx with rfl | hx
      · exact ⟨a, by simp, hd, hy⟩
      · obtain ⟨b, hb, h1⟩ := expandAttrs_mem h' x hx
        exact ⟨b, by simp [hb], h1⟩

theorem splitName_none {x l : Str} (h : splitName x = some (none, l)) : l = x := by
  unfold splitName at h
  split at h
  · cases h; rfl
  · split at h <;> cases h

theorem expandAttrs_xmlns {sc : Scope} {l : List (Str × Str)} {as : List XmlAttr} (h : expandAttrs sc l = some as) :
    ∀ x ∈ as, ¬ (x.ns = none ∧ x.name = st!"xmlns") := by
  rintro x hx ⟨h1, h2⟩
  obtain ⟨a, _, hd, he⟩ := expandAttrs_mem h x hx
  unfold expandAttr at he
  split at he
  · next l hl =>
    cases he
    have := splitName_none hl
    simp only at h2
    rw [← this, h2] at hd
    rw [declares, if_pos rfl] at hd
    simp at hd
  · rw [Option.map_eq_some_iff] at he
    obtain ⟨ns, _, rfl⟩ := he
    simp at h1
  · simp at he

theorem expand_isText {sc : Scope} : ∀ {r : Raw} {x : Xml}, r.expand sc = some x → x.isText = r.isText
  | .nil, _, h => by cases h; rfl
  | .element name attrs kids rest, x, h => by
    simp only [Raw.expand, Option.bind_eq_some_iff] at h
    obtain ⟨n, _, as, _, h⟩ := h
    split at h
    · rw [Option.bind_eq_some_iff] at h
      obtain ⟨k, _, h⟩ := h
      rw [Option.map_eq_some_iff] at h
      obtain ⟨r, _, rfl⟩ := h
      rfl
    · simp at h
  | .text t rest, x, h => by
    rw [Raw.expand, Option.map_eq_some_iff] at h
    obtain ⟨r, _, rfl⟩ := h
    rfl
  | .comment t rest, x, h => by
    rw [Raw.expand, Option.map_eq_some_iff] at h
    obtain ⟨r, _, rfl⟩ := h
    rfl

theorem expand_tidied : ∀ {r : Raw} {sc : Scope} {x : Xml}, r.expand sc = some x → r.Sep → x.Tidied
  | .nil, _, _, h, _ => by cases h; trivial
  | .element name attrs kids rest, sc, x, h, hs => by
    simp only [Raw.expand, Option.bind_eq_some_iff] at h
    obtain ⟨n, _, as, ha, h⟩ := h
    split at h
    · rw [Option.bind_eq_some_iff] at h
      obtain ⟨k, hk, h⟩ := h
      rw [Option.map_eq_some_iff] at h
      obtain ⟨r, hr, rfl⟩ := h
      exact ⟨expandAttrs_xmlns ha, expand_tidied hk hs.1, expand_tidied hr hs.2⟩
    · simp at h
  | .text t rest, sc, x, h, hs => by
    rw [Raw.expand, Option.map_eq_some_iff] at h
    obtain ⟨r, hr, rfl⟩ := h
    exact ⟨by rw [expand_isText hr]; exact hs.1, expand_tidied hr hs.2⟩
  | .comment t rest, sc, x, h, hs => by
    rw [Raw.expand, Option.map_eq_some_iff] at h
    obtain ⟨r, hr, rfl⟩ := h
    show r.Tidied
    exact expand_tidied (r := rest) hr hs

/-! ### The document -/

theorem Xml.Shows.sep {s : St} {W : ValueWriter} {q : Char} : ∀ {x : Xml} {T : Trees}, x.Shows s W q T → x.Tidied → T.SepText s
  | .nil, .nil, _, _ => trivial
  | .nil, .cons _ _ _, h, _ => h.elim
  | .pi _, .nil, h, _ => h.elim
  | .pi _, .cons _ _ _, h, _ => h.elim
  | .element _ _ _ _ _, .nil, h, _ => h.elim
  | .text _ _, .nil, h, _ => h.elim
  | .comment _ _, .nil, h, _ => h.elim
  | .element _ _ _ k r, .cons n K R, h, ht => by
    obtain ⟨h1, _, _, _, h2, h3⟩ := h
    refine ⟨Xml.Shows.sep h2 ht.2.1, Xml.Shows.sep h3 ht.2.2, ?_⟩
    cases R with
    | nil => trivial
    | cons m _ _ => simp [h1]
  | .comment _ r, .cons n K R, h, ht => by
    obtain ⟨h1, _, rfl, h3⟩ := h
    refine ⟨trivial, Xml.Shows.sep (x := r) h3 ht, ?_⟩
    cases R with
    | nil => trivial
    | cons m _ _ => simp [h1]
  | .text _ r, .cons n K R, h, ht => by
    obtain ⟨h1, _, rfl, h3⟩ := h
    refine ⟨trivial, Xml.Shows.sep h3 ht.2, ?_⟩
    cases R with
    | nil => trivial
    | cons m K' R' =>
      rintro ⟨_, h4⟩
      have h5 := ht.1
      cases r with
      | nil => exact h3
      | pi _ => exact h3
      | text _ _ => simp [Xml.isText] at h5
      | element _ _ _ _ _ => have := h3.1; rw [h4] at this; simp at this
      | comment _ _ => have := h3.1; rw [h4] at this; simp at this

theorem asStr_xmlns : AttributeId.asStr? .Xmlns = .ok st!"xmlns" := by decide +kernel

theorem Xml.Shows.values {s : St} {W : ValueWriter} {q : Char} : ∀ {x : Xml} {T : Trees}, x.Shows s W q T → x.Tidied →
    ∀ n ∈ T.pre, s.nodeType n = .element → ∀ a ∈ s.attributes n, ∀ i, a.name = .id i → i ≠ .Xmlns ∧
      ∃ w v, s.written W i a.value = some w ∧ readAttr q w = some v
  | .nil, .nil, _, _ => by simp [Trees.pre]
  | .nil, .cons _ _ _, h, _ => h.elim
  | .pi _, .nil, h, _ => h.elim
  | .pi _, .cons _ _ _, h, _ => h.elim
  | .element _ _ _ _ _, .nil, h, _ => h.elim
  | .text _ _, .nil, h, _ => h.elim
  | .comment _ _, .nil, h, _ => h.elim
  | .element _ _ as k r, .cons n K R, h, ht => by
    obtain ⟨h1, _, _, h4, h2, h3⟩ := h
    intro m hm htm a ha i hi
    simp only [Trees.pre, List.mem_cons, List.mem_append] at hm
    rcases hm with rfl | hm | hm
    · obtain ⟨x, hx, hf⟩ := h4.all a ha
      obtain ⟨j, w, hj, hw, hv⟩ := hf.value
      rw [hi] at hj
      cases QName.id.inj hj
      refine ⟨?_, w, _, hw, hv⟩
      rintro rfl
      obtain ⟨j, hj, hn, hns⟩ := hf.name
      rw [hi] at hj
      cases QName.id.inj hj
      rw [asStr_xmlns] at hn
      exact ht.1 x hx ⟨hns, (Except.ok.inj hn).symm⟩
    · exact Xml.Shows.values h2 ht.2.1 m hm htm a ha i hi
    · exact Xml.Shows.values h3 ht.2.2 m hm htm a ha i hi
  | .comment _ r, .cons n K R, h, ht => by
    obtain ⟨h1, _, rfl, h3⟩ := h
    intro m hm htm
    simp only [Trees.pre, List.mem_cons, List.nil_append] at hm
    rcases hm with rfl | hm
    · rw [h1] at htm; simp at htm
    · exact Xml.Shows.values (x := r) h3 ht m hm htm
  | .text _ r, .cons n K R, h, ht => by
    obtain ⟨h1, _, rfl, h3⟩ := h
    intro m hm htm
    simp only [Trees.pre, List.mem_cons, List.nil_append] at hm
    rcases hm with rfl | hm
    · rw [h1] at htm; simp at htm
    · exact Xml.Shows.values (x := r) h3 ht.2 m hm htm

theorem mem_markup {s : St} {name : NodeId → Str} {evs : NodeId → List Ev} : ∀ {T : Trees} {i : NodeId}, i ∈ T.pre →
    (s.nodeType i = .element → ∀ e ∈ evs i, e ∈ T.markup s name evs) ∧
    (s.nodeType i = .text → .text (s.text i) ∈ T.markup s name evs) ∧
    (s.nodeType i = .comment → .comment (s.text i) ∈ T.markup s name evs)
  | .nil, _, h => by simp [Trees.pre] at h
  | .cons n K R, i, h => by
    simp only [Trees.pre, List.mem_cons, List.mem_append] at h
    rcases h with rfl | h | h
    · refine ⟨fun ht e he => ?_, fun ht => ?_, fun ht => ?_⟩ <;> simp only [Trees.markup, ht]
      · simp [he]
      · simp
      · simp
    · have := mem_markup (s := s) (name := name) (evs := evs) h
      have hsub : ∀ e ∈ K.markup s name evs, e ∈ (Trees.cons n K R).markup s name evs := by
        intro e he
        simp only [Trees.markup]
        split <;> simp [he]
      exact ⟨fun ht e he => hsub _ (this.1 ht e he), fun ht => hsub _ (this.2.1 ht), fun ht => hsub _ (this.2.2 ht)⟩
    · have := mem_markup (s := s) (name := name) (evs := evs) h
      have hsub : ∀ e ∈ R.markup s name evs, e ∈ (Trees.cons n K R).markup s name evs := by
        intro e he
        simp only [Trees.markup]
        split <;> simp [he]
      exact ⟨fun ht e he => hsub _ (this.1 ht e he), fun ht => hsub _ (this.2.1 ht), fun ht => hsub _ (this.2.2 ht)⟩

/-- If what was written is read as the document, the document is writable. -/
theorem writable_of_read {s : St} (h : Reachable s) (ha : s.Acyclic) (W : ValueWriter) (q : Char) {F : Forest} (hF : Describes s F)
    {T : Trees} (hT : T.Of F (F.kids s.rootId)) {evs : List Ev} {x : Xml} (he : s.writeDom W = .ok evs) (hx : readMarkup q evs = some x)
    (hs : x.Shows s W q T) : Writable s W q T := by
  have hroot : s.live s.rootId = true := by
    obtain ⟨_, hT⟩ := h.inv.tree; exact hT.root
  have hlive := pre_live hF hT fun c hc => (hF.wf.kids _ hroot c hc).1
  obtain ⟨T', evs', name, evAttrs, hT', e, hm, hall⟩ := C45_markup h ha W hF
  cases hT.unique hT'
  rw [he] at e
  cases e
  unfold readMarkup at hx
  split at hx
  · next y hy =>
    rw [Option.bind_eq_some_iff] at hy
    obtain ⟨r, hr, hy⟩ := hy
    split at hx
    · cases hx
      unfold readRaw at hr
      split at hr
      · next r' hr' =>
        cases hr
        have hsep := readSteps_sep hr' (by simp [Raw.Sep]) r (by simp)
        have htid := expand_tidied hy hsep
        rw [readSteps_content, hm] at hr'
        have hfine := readSteps_fine hr'
        refine ⟨?_, ?_, ?_, hs.sep htid, hs.values htid⟩
        · intro n hn ht
          by_cases hid : s.idOf n = []
          · rw [hid]; rfl
          · obtain ⟨ns, L, nm, e, _⟩ := C46_attributes h ha W (hlive n hn)
            rw [(hall n hn).2.1] at e
            have hmem : Ev.attribute st!"id" (s.idOf n) ∈ evAttrs n := by
              rw [Except.ok.inj e, if_neg hid]; simp
            exact hfine _ ((mem_markup hn).1 ht _ hmem)
        · intro n hn ht; exact hfine _ ((mem_markup hn).2.1 ht)
        · intro n hn ht; exact hfine _ ((mem_markup hn).2.2 ht)
      · simp at hr
    · simp at hx
  · simp at hx

end Svgdom
