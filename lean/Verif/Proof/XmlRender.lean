import Verif.Proof.XmlLex2
import Verif.Proof.Switch

/-! The characters of trees. -/

set_option autoImplicit false

namespace Svgdom

/-- White space before a node at depth `d`. -/
def gap (o : XmlOptions) (p : Bool) (d : Nat) : Str := if o.indent = .none ∨ p = true then [] else '\n' :: o.indent.str d

/-- Does `text` start here? -/
def startsText (s : St) (i : NodeId) : Bool := decide (s.nodeType i = .element) && decide (s.tagName i = .id .Text)

def Trees.isNil : Trees → Bool
  | nil => true
  | cons _ _ _ => false

theorem isNil_false {T : Trees} (h : T ≠ .nil) : T.isNil = false := by
  cases T with
  | nil => exact absurd rfl h
  | cons _ _ _ => rfl

/-- The characters of trees at depth `d`, with white space that is kept or not; `keep`: where it starts to be kept. -/
def Trees.chars (o : XmlOptions) (s : St) (keep : NodeId → Bool) (name : NodeId → Str) (attrs : NodeId → List Ev) (p : Bool) (d : Nat) : Trees → Str
  | nil => []
  | cons i K R =>
    (match s.nodeType i with
      | .element =>
        gap o p d ++ ('<' :: name i ++ (attrs i).flatMap (evText o d) ++
          if K.isNil then st!"/>"
          else '>' :: K.chars o s keep name attrs (p || keep i) (d + 1) ++ gap o (p || keep i) d ++ st!"</" ++ name i ++ st!">")
      | .comment => gap o p d ++ st!"<!--" ++ s.text i ++ st!"-->"
      | .text => gap o p d ++ escapeText (s.text i)
      | .root => []) ++ R.chars o s keep name attrs p d

/-- No `text` is inside of a `text`. -/
def Trees.Apart (s : St) (p : Bool) : Trees → Prop
  | nil => True
  | cons i K R => (s.tagName i = .id .Text → p = false) ∧ K.Apart s (p || startsText s i) ∧ R.Apart s p

/-- Texts, `text`, `tspan` and `tref` are where white space is kept. -/
def Trees.Fits (s : St) (keep : NodeId → Bool) (p : Bool) : Trees → Prop
  | nil => True
  | cons i K R =>
    (s.nodeType i = .text → p = true) ∧
      (s.nodeType i = .element → s.tagName i = .id .Text ∨ s.tagName i = .id .Tspan ∨ s.tagName i = .id .Tref → (p || keep i) = true) ∧
      K.Fits s keep (p || keep i) ∧ R.Fits s keep p

theorem Trees.Indentable.apart {s : St} : ∀ {T : Trees} {p : Bool}, T.Indentable s p → T.Apart s p
  | .nil, _, _ => trivial
  | .cons _ _ _, _, h => ⟨h.2.1, Trees.Indentable.apart h.2.2.2.1, Trees.Indentable.apart h.2.2.2.2⟩

theorem Trees.Indentable.fits {s : St} : ∀ {T : Trees} {p : Bool}, T.Indentable s p → T.Fits s (startsText s) p
  | .nil, _, _ => trivial
  | .cons i _ _, p, h => by
    refine ⟨h.1, fun h1 h2 => ?_, Trees.Indentable.fits h.2.2.2.1, Trees.Indentable.fits h.2.2.2.2⟩
    rcases h2 with h2 | h2
    · simp [startsText, h1, h2]
    · simp [h.2.2.1 h2]

theorem gap_eq (o : XmlOptions) (w : Pen) : w.newLine o ++ w.margin o = gap o w.preserve w.stack.length := by
  unfold Pen.newLine Pen.margin gap
  by_cases h1 : o.indent = .none <;> by_cases h2 : w.preserve = true <;> simp [h1, h2, Indent.str]

theorem render_attrs (o : XmlOptions) (w : Pen) : ∀ (es l : List Ev), (∀ e ∈ es, e.isAttribute = true) →
    render o w (es ++ l) = es.flatMap (evText o (w.stack.length - 1)) ++ render o w l
  | [], _, _ => by simp
  | e :: es, l, h => by
    have ih := render_attrs o w es l fun e he => h e (by simp [he])
    have h1 := h e (by simp)
    cases e <;> simp [Ev.isAttribute] at h1 <;> simp [render, ih, evText]

/-- The pen after a start tag was finished. -/
theorem render_closed (o : XmlOptions) {s : St} {name : NodeId → Str} {attrs : NodeId → List Ev} {T : Trees} (hT : T ≠ .nil) (hk : T.Kinds s)
    (p : Bool) (n : Str) (st : List (Str × Bool)) (l : List Ev) :
    render o ⟨false, true, (n, false) :: st, p⟩ (T.allCalls s name attrs ++ l) =
      '>' :: render o ⟨false, false, (n, true) :: st, p⟩ (T.allCalls s name attrs ++ l) := by
  cases T with
  | nil => exact absurd rfl hT
  | cons i K R =>
    obtain ⟨_, _, hk⟩ := hk
    rcases hk with ⟨h1, _⟩ | ⟨h1, _⟩ | ⟨h1, _⟩ <;>
      simp [Trees.allCalls, startCalls, h1, render, Pen.closed, Pen.newLine, Pen.margin]

theorem writeEnd_other {s : St} {i : NodeId} (h : s.nodeType i ≠ .element) :
    s.writeEnd i = if s.tagName i = .id .Text then [.preserve false] else [] := by
  simp [St.writeEnd, St.isElement, h, St.hasTagName]

/-- The characters of trees, after something has been written. -/
theorem render_trees (o : XmlOptions) {s : St} {name : NodeId → Str} {attrs : NodeId → List Ev} : ∀ (T : Trees) (p b : Bool), T.Kinds s →
    (∀ i ∈ T.pre, ∀ e ∈ attrs i, e.isAttribute = true) → (o.indent = .none ∨ (T.Apart s p ∧ b = p)) →
    ∃ b', (o.indent = .none ∨ b' = p) ∧ ∀ (st : List (Str × Bool)) (l : List Ev),
      render o ⟨false, false, st, b⟩ (T.allCalls s name attrs ++ l) =
        T.chars o s (startsText s) name attrs p st.length ++ render o ⟨false, false, st, b'⟩ l
  | .nil, p, b, _, _, hi => ⟨b, hi.imp id (·.2), fun st l => rfl⟩
  | .cons i K R, p, b, hk, ha, hi => by
    have hk0 := hk
    obtain ⟨kK, kR, hkind⟩ := hk
    have aK : ∀ j ∈ K.pre, ∀ e ∈ attrs j, e.isAttribute = true := fun j hj => ha j (by simp [Trees.pre, hj])
    have aR : ∀ j ∈ R.pre, ∀ e ∈ attrs j, e.isAttribute = true := fun j hj => ha j (by simp [Trees.pre, hj])
    have hgap : ∀ d, gap o b d = gap o p d := by
      intro d
      rcases hi with h | h
      · simp [gap, h]
      · rw [h.2]
    have hstep : ∀ (st : List (Str × Bool)) (c : Bool), (⟨false, false, st, c⟩ : Pen).newLine o ++ (⟨false, false, st, c⟩ : Pen).margin o =
        gap o c st.length := fun st c => gap_eq o ⟨false, false, st, c⟩
    have hend : s.nodeType i ≠ .element → ∃ b', (o.indent = .none ∨ b' = p) ∧ ∀ st l,
        render o ⟨false, false, st, b⟩ (s.writeEnd i ++ l) = render o ⟨false, false, st, b'⟩ l := by
      intro hne
      rw [writeEnd_other hne]
      by_cases ht : s.tagName i = .id .Text
      · refine ⟨false, ?_, fun st l => by simp [ht, render]⟩
        exact hi.imp id fun h => (h.1.1 ht).symm
      · exact ⟨b, hi.imp id (·.2), fun st l => by simp [ht]⟩
    rcases hkind with ⟨h1, e, he⟩ | ⟨h1, rfl, h2⟩ | ⟨h1, rfl⟩
    · -- the state inside of the element
      obtain ⟨b1, hb1⟩ : ∃ b1, b1 = if s.tagName i = .id .Text then true else b := ⟨_, rfl⟩
      have hK := render_trees o (s := s) (name := name) (attrs := attrs) K (p || startsText s i) b1 kK aK (by
        refine hi.imp id fun h => ⟨h.1.2.1, ?_⟩
        rw [hb1, h.2]
        by_cases ht : s.tagName i = .id .Text <;> simp [ht, startsText, h1])
      obtain ⟨b1', hb1', hK⟩ := hK
      obtain ⟨c1, hc1, hc2⟩ : ∃ c, (K = .nil → c = b1) ∧ (K ≠ .nil → c = b1') := by
        cases K with
        | nil => exact ⟨b1, fun _ => rfl, fun h => absurd rfl h⟩
        | cons _ _ _ => exact ⟨b1', (fun h => by injection h), fun _ => rfl⟩
      obtain ⟨b2, hb2⟩ : ∃ b2, b2 = if s.tagName i = .id .Text then false else c1 := ⟨_, rfl⟩
      have hb2p : o.indent = .none ∨ b2 = p := by
        rcases hi with h | h
        · exact .inl h
        · rcases hb1' with h' | h'
          · exact .inl h'
          · refine .inr ?_
            rw [hb2]
            by_cases ht : s.tagName i = .id .Text
            · rw [if_pos ht, h.1.1 ht]
            · rw [if_neg ht]
              by_cases hKn : K = .nil
              · rw [hc1 hKn, hb1, if_neg ht, h.2]
              · rw [hc2 hKn, h']
                simp [startsText, ht]
      have hR := render_trees o (s := s) (name := name) (attrs := attrs) R p b2 kR aR (by
        rcases hi with h | h
        · exact .inl h
        · exact hb2p.imp id fun h' => ⟨h.1.2.2, h'⟩)
      obtain ⟨b3, hb3, hR⟩ := hR
      refine ⟨b3, hb3, fun st l => ?_⟩
      have hgap' : ∀ d, K ≠ .nil → gap o b1' d = gap o (p || startsText s i) d := by
        intro d _
        rcases hb1' with h | h
        · simp [gap, h]
        · rw [h]
      -- the calls
      have e1 : (Trees.cons i K R).allCalls s name attrs ++ l = .startElement (name i) :: (attrs i ++
          ((if s.tagName i = .id .Text then [.preserve true] else []) ++ (K.allCalls s name attrs ++
            (.endElement :: ((if s.tagName i = .id .Text then [.preserve false] else []) ++ (R.allCalls s name attrs ++ l)))))) := by
        simp [Trees.allCalls, startCalls, h1, St.writeEnd, St.isElement, St.hasTagName]
      have hsw1 : ∀ (w : Pen) (l : List Ev), w.preserve = b → render o w ((if s.tagName i = .id .Text then [.preserve true] else []) ++ l) =
          render o { w with preserve := b1 } l := by
        intro w l hw
        by_cases ht : s.tagName i = .id .Text
        · simp [ht, render, hb1]
        · rw [hb1, if_neg ht, if_neg ht, ← hw]; rfl
      have hsw2 : ∀ (c : Bool) (l : List Ev), c = c1 →
          render o ⟨false, false, st, c⟩ ((if s.tagName i = .id .Text then [.preserve false] else []) ++ l) =
          render o ⟨false, false, st, b2⟩ l := by
        intro c l hc
        by_cases ht : s.tagName i = .id .Text
        · simp [ht, render, hb2]
        · rw [hb2, if_neg ht, if_neg ht, ← hc]; rfl
      rw [e1, render]
      simp only [Pen.closed, Bool.false_eq_true, if_false, List.nil_append]
      rw [hstep, hgap, render_attrs o _ _ _ (ha i (by simp [Trees.pre])), hsw1 _ _ rfl]
      simp only [List.length_cons, Nat.add_sub_cancel]
      by_cases hKn : K = .nil
      · subst hKn
        rw [Trees.allCalls, List.nil_append, render]
        simp only [Bool.false_eq_true, if_false]
        rw [hsw2 _ _ (hc1 rfl).symm, hR]
        simp [Trees.chars, h1, Trees.isNil]
      · rw [render_closed o hKn kK, hK, render]
        simp only [if_true, List.length_cons]
        have := hsw2 b1' (R.allCalls s name attrs ++ l) (hc2 hKn).symm
        rw [this, hR]
        have h5 := hstep st b1'
        have h6 : (⟨false, false, (name i, true) :: st, b1'⟩ : Pen).newLine o = (⟨false, false, st, b1'⟩ : Pen).newLine o := rfl
        rw [h6, h5, hgap' _ hKn]
        simp only [Trees.chars, h1, List.append_assoc, List.cons_append, List.nil_append, isNil_false hKn, Bool.false_eq_true, if_false]
    · obtain ⟨b', hb', he⟩ := hend (by simp [h1])
      obtain ⟨b3, hb3, hR⟩ := render_trees o (s := s) (name := name) (attrs := attrs) R p b' kR aR (by
        rcases hi with h | h
        · exact .inl h
        · exact hb'.imp id fun h' => ⟨h.1.2.2, h'⟩)
      refine ⟨b3, hb3, fun st l => ?_⟩
      simp only [Trees.allCalls, startCalls, h1, List.append_assoc, List.cons_append, List.nil_append, render, Pen.closed,
        Bool.false_eq_true, if_false]
      rw [he, hR, ← List.append_assoc, hstep, hgap]
      simp [Trees.chars, h1]
    · obtain ⟨b', hb', he⟩ := hend (by simp [h1])
      obtain ⟨b3, hb3, hR⟩ := render_trees o (s := s) (name := name) (attrs := attrs) R p b' kR aR (by
        rcases hi with h | h
        · exact .inl h
        · exact hb'.imp id fun h' => ⟨h.1.2.2, h'⟩)
      refine ⟨b3, hb3, fun st l => ?_⟩
      simp only [Trees.allCalls, startCalls, h1, List.append_assoc, List.cons_append, List.nil_append, render, Pen.closed,
        Bool.false_eq_true, if_false]
      rw [he, hR, ← List.append_assoc, hstep, hgap]
      simp [Trees.chars, h1]

end Svgdom
