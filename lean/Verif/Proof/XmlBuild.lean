import Verif.Proof.XmlRender

/-! From pieces to elements. -/

set_option autoImplicit false

namespace Svgdom

def gapTok (g : Str) : List Tok := if g = [] then [] else [.text g]

/-- The pieces of trees. -/
def Trees.toks (o : XmlOptions) (s : St) (keep : NodeId → Bool) (name : NodeId → Str) (ra : NodeId → List (Str × Str)) (p : Bool) (d : Nat) : Trees → List Tok
  | nil => []
  | cons i K R =>
    (match s.nodeType i with
      | .element =>
        gapTok (gap o p d) ++ .start (name i) (ra i) K.isNil ::
          if K.isNil then []
          else K.toks o s keep name ra (p || keep i) (d + 1) ++ gapTok (gap o (p || keep i) d) ++ [.stop (name i)]
      | .comment => gapTok (gap o p d) ++ [.comment (s.text i)]
      | .text => [.text (escapeText (s.text i))]
      | .root => []) ++ R.toks o s keep name ra p d

/-! ### White space -/

/-- No white space is added. -/
def Tight (o : XmlOptions) (p : Bool) : Prop := o.indent = .none ∨ p = true

theorem gap_tight {o : XmlOptions} {p : Bool} (h : Tight o p) (d : Nat) : gap o p d = [] := if_pos h

theorem gap_space (o : XmlOptions) (p : Bool) (d : Nat) : ∀ c ∈ gap o p d, xmlSpace c = true ∧ c ≠ '\r' := by
  intro c hc
  unfold gap at hc
  split at hc
  · simp at hc
  · rcases List.mem_cons.1 hc with rfl | hc
    · decide
    · refine ⟨indent_space _ _ c hc, ?_⟩
      cases hi : o.indent <;> simp [hi, Indent.str] at hc <;> rw [hc.2] <;> decide

theorem space_ne {c : Char} (h : xmlSpace c = true) : c ≠ '<' ∧ c ≠ '&' ∧ c ≠ ']' ∧ xmlChar c = true ∧ isWhite c = true := by
  simp only [xmlSpace, decide_eq_true_eq] at h
  rcases h with rfl | rfl | rfl | rfl <;> decide +kernel

theorem Lexes.gap {g rest : Str} {l : List Tok} (hg : ∀ c ∈ g, xmlSpace c = true) (hs : ∀ c, rest.head? = some c → c = '<')
    (hr : Lexes rest l) : Lexes (g ++ rest) (gapTok g ++ l) := by
  unfold gapTok
  split
  · next h => rw [h]; exact hr
  · next h => exact Lexes.text h (fun c hc => (space_ne (hg c hc)).1) hs hr

/-! ### Texts -/

theorem escapeText_cons (c : Char) (t : Str) : escapeText (c :: t) = (if c = '<' then st!"&lt;" else [c]) ++ escapeText t := rfl

theorem escapeText_free : ∀ (t : Str), ∀ c ∈ escapeText t, c ≠ '<'
  | [], c, h => by simp [escapeText] at h
  | d :: t, c, h => by
    rw [escapeText_cons, List.mem_append] at h
    rcases h with h | h
    · split at h
      · revert c; decide
      · next hd => rw [List.mem_singleton] at h; rw [h]; exact hd
    · exact escapeText_free t c h

theorem escapeText_ne {t : Str} (h : t ≠ []) : escapeText t ≠ [] := by
  cases t with
  | nil => exact absurd rfl h
  | cons c t => rw [escapeText_cons]; split <;> simp

theorem escapeText_head {t r : Str} {c : Char} (hc : c ≠ '&') (h : escapeText t = c :: r) : ∃ t', t = c :: t' ∧ r = escapeText t' := by
  cases t with
  | nil => simp [escapeText] at h
  | cons d t =>
    rw [escapeText_cons] at h
    split at h
    · simp only [List.cons_append, List.cons.injEq] at h
      exact absurd h.1.symm hc
    · simp only [List.cons_append, List.cons.injEq, List.nil_append] at h
      exact ⟨t, by rw [h.1], h.2.symm⟩

theorem prefix_end {l : Str} (h : st!"]]>".isPrefixOf l = true) : ∃ r, l = ']' :: ']' :: '>' :: r := by
  rw [List.isPrefixOf_iff_prefix] at h
  obtain ⟨r, h⟩ := h
  exact ⟨r, h.symm⟩

theorem cdataEnd_escape : ∀ {t : Str}, cdataEnd t = false → cdataEnd (escapeText t) = false
  | [], _ => rfl
  | c :: t, h => by
    simp only [cdataEnd, Bool.or_eq_false_iff] at h
    have ih := cdataEnd_escape h.2
    rw [escapeText_cons]
    split
    · simp only [List.cons_append, List.nil_append, cdataEnd, ih, Bool.or_false]
      rfl
    · simp only [List.cons_append, List.nil_append, cdataEnd, ih, Bool.or_false]
      rw [Bool.eq_false_iff]
      intro hp
      obtain ⟨r, hr⟩ := prefix_end hp
      simp only [List.cons.injEq] at hr
      obtain ⟨rfl, hr⟩ := hr
      obtain ⟨t1, rfl, hr1⟩ := escapeText_head (by decide) hr
      obtain ⟨t2, rfl, _⟩ := escapeText_head (by decide) hr1.symm
      simp [List.isPrefixOf] at h

theorem readContentAux_escape : ∀ (k : Nat) (t : Str), t.length ≤ k → plainContent t = true → readContentAux k (escapeText t) = some t
  | k, [], _, _ => by cases k <;> rfl
  | 0, c :: t, hl, _ => by simp at hl
  | k + 1, c :: t, hl, h => by
    simp only [plainContent, List.all_cons, Bool.and_eq_true, decide_eq_true_eq] at h
    obtain ⟨⟨h1, h2, h3⟩, h4⟩ := h
    have ih := readContentAux_escape k t (by simpa using hl) h4
    rw [escapeText_cons]
    split
    · next hc =>
      subst hc
      have : readRef (st!"lt;" ++ escapeText t) = some ('<', escapeText t) := rfl
      simp only [List.cons_append, List.nil_append] at this
      rw [List.cons_append, readContentAux, if_neg (by decide +kernel), if_pos rfl]
      simp only [List.cons_append, List.nil_append, this, Option.bind_some, ih, Option.map_some]
    · next hc =>
      rw [List.cons_append, List.nil_append, readContentAux, if_neg (by simp [hc, h1, h3]), if_neg h2, ih]
      rfl

theorem escapeText_length : ∀ t : Str, t.length ≤ (escapeText t).length
  | [] => by simp
  | c :: t => by
    have := escapeText_length t
    rw [escapeText_cons, List.length_append, List.length_cons]
    split <;> simp <;> omega

theorem readContent_escape {t : Str} (h : plainContent t = true) (h2 : cdataEnd t = false) : readContent (escapeText t) = some t := by
  rw [readContent, cdataEnd_escape h2]
  exact readContentAux_escape _ t (escapeText_length t) h

theorem readContent_space {t : Str} (h : ∀ c ∈ t, xmlSpace c = true ∧ c ≠ '\r') : readContent t = some t := by
  have e : escapeText t = t := by
    induction t with
    | nil => rfl
    | cons c t ih =>
      rw [escapeText_cons, ih fun d hd => h d (by simp [hd]), if_neg (space_ne (h c (by simp)).1).1]; rfl
  have h1 : plainContent t = true := by
    simp only [plainContent, List.all_eq_true, Bool.and_eq_true, decide_eq_true_eq]
    intro c hc
    have := space_ne (h c hc).1
    exact ⟨this.2.2.2.1, this.2.1, (h c hc).2⟩
  have h2 : cdataEnd t = false := by
    clear e h1
    induction t with
    | nil => rfl
    | cons c t ih =>
      rw [cdataEnd, ih fun d hd => h d (by simp [hd]), Bool.or_false, Bool.eq_false_iff]
      intro hp
      obtain ⟨r, hr⟩ := prefix_end hp
      exact (space_ne (h c (by simp)).1).2.2.1 (List.cons.inj hr).1
  have := readContent_escape h1 h2
  rwa [e] at this

/-! ### The pieces of trees -/

/-- What is assumed about the parts. -/
structure Parts (s : St) (q : Char) (name : NodeId → Str) (attrs : NodeId → List Ev) (ra : NodeId → List (Str × Str)) (i : NodeId) :
    Prop where
  name : s.nodeType i = .element → xmlName (name i) = true
  attrs : s.nodeType i = .element → RawAttrs q (attrs i) (ra i)
  text : s.nodeType i = .text → plainContent (s.text i) = true ∧ cdataEnd (s.text i) = false
  comment : s.nodeType i = .comment → plainComment (s.text i) = true

theorem chars_lex (o : XmlOptions) {s : St} {keep : NodeId → Bool} {q : Char} {name : NodeId → Str} {attrs : NodeId → List Ev} {ra : NodeId → List (Str × Str)} :
    ∀ (T : Trees) (p : Bool) (d : Nat) (rest : Str) (l : List Tok), T.Kinds s → T.SepText s → (∀ i ∈ T.pre, Parts s q name attrs ra i) →
    (o.indent = .none ∨ T.Fits s keep p) → (Tight o p → ∀ c, rest.head? = some c → c = '<') → Lexes rest l →
    Lexes (T.chars o s keep name attrs p d ++ rest) (T.toks o s keep name ra p d ++ l)
  | .nil, _, _, _, _, _, _, _, _, _, hr => hr
  | .cons i K R, p, d, rest, l, hk, hse, hp, hi, hh, hr => by
    obtain ⟨kK, kR, hkind⟩ := hk
    obtain ⟨sK, sR, hsep⟩ := hse
    have hpi := hp i (by simp [Trees.pre])
    have hR := chars_lex o (name := name) (attrs := attrs) (ra := ra) R p d rest l kR sR (fun j hj => hp j (by simp [Trees.pre, hj]))
      (hi.imp id (·.2.2.2)) hh hr
    have hgs : ∀ p d, ∀ c ∈ gap o p d, xmlSpace c = true := fun p d c hc => (gap_space o p d c hc).1
    rcases hkind with ⟨h1, e, he⟩ | ⟨h1, rfl, h2⟩ | ⟨h1, rfl⟩
    · cases K with
      | nil =>
        have := Lexes.gap (hgs p d) (rest := '<' :: name i ++ (attrs i).flatMap (evText o d) ++ tagEnd true ++ (R.chars o s keep name attrs p d ++ rest))
          (by simp) (Lexes.start o d (hpi.name h1) (hpi.attrs h1) true hR)
        simp only [Trees.chars, Trees.toks, h1, Trees.isNil, if_true]
        simpa [tagEnd] using this
      | cons j K' R' =>
        have hstop := Lexes.stop (hpi.name h1) hR
        have hstop := Lexes.gap (hgs (p || keep i) d) (by simp) hstop
        have hK := chars_lex o (name := name) (attrs := attrs) (ra := ra) (.cons j K' R') (p || keep i) (d + 1) _ _ kK sK
          (fun j hj => hp j (by simp [Trees.pre] at hj ⊢; tauto)) (hi.imp id (·.2.2.1)) (by
            intro ht c hc
            rw [gap_tight ht] at hc
            simp at hc
            exact hc.symm) hstop
        have := Lexes.gap (hgs p d) (by simp) (Lexes.start o d (hpi.name h1) (hpi.attrs h1) false hK)
        conv => arg 1; rw [Trees.chars]
        conv => arg 2; rw [Trees.toks]
        simp only [h1, Trees.isNil, Bool.false_eq_true, if_false]
        simpa [tagEnd] using this
    · have hti : Tight o p := hi.imp id fun h => h.1 h1
      have := Lexes.text (escapeText_ne h2) (escapeText_free _) (rest := R.chars o s keep name attrs p d ++ rest) (by
        cases R with
        | nil => exact hh hti
        | cons m K' R' =>
          have hm : s.nodeType m ≠ .text := fun h => hsep ⟨h1, h⟩
          obtain ⟨_, _, hkm⟩ := kR
          rcases hkm with ⟨h, _⟩ | ⟨h, _⟩ | ⟨h, _⟩
          · simp [Trees.chars, h, gap_tight hti]
          · exact absurd h hm
          · simp [Trees.chars, h, gap_tight hti]) hR
      simp only [Trees.chars, Trees.toks, h1, gap_tight hti]
      simpa using this
    · have := Lexes.gap (hgs p d) (by simp) (Lexes.comment (hpi.comment h1) hR)
      simp only [Trees.chars, Trees.toks, h1]
      simpa using this

/-! ### Elements -/

def rawGap (top : Bool) (g : Str) (r : Raw) : Raw := if top = true ∨ g = [] then r else .text g r

/-- The markup of trees with white space. -/
def Trees.spaced (o : XmlOptions) (s : St) (keep : NodeId → Bool) (name : NodeId → Str) (ra : NodeId → List (Str × Str)) (top p : Bool) (d : Nat) : Trees → Raw → Raw
  | nil, r => r
  | cons i K R, r =>
    match s.nodeType i with
    | .element =>
      rawGap top (gap o p d) (.element (name i) (ra i)
        (if K.isNil then .nil
          else K.spaced o s keep name ra false (p || keep i) (d + 1) (rawGap false (gap o (p || keep i) d) .nil))
        (R.spaced o s keep name ra top p d r))
    | .comment => rawGap top (gap o p d) (.comment (s.text i) (R.spaced o s keep name ra top p d r))
    | .text => .text (s.text i) (R.spaced o s keep name ra top p d r)
    | .root => R.spaced o s keep name ra top p d r

theorem build_append : ∀ (a b : List Tok) (st : List (Option Str × Raw)), build (a ++ b) st = (build b st).bind (build a)
  | [], b, st => by
    have : build [] = some := by funext x; rfl
    rw [this]; simp
  | e :: a, b, st => by
    simp only [List.cons_append, build, build_append a b st]
    cases build b st <;> rfl

theorem build_gap {g : Str} (hg : ∀ c ∈ g, xmlSpace c = true ∧ c ≠ '\r') (m : Option Str) (r : Raw) (st : List (Option Str × Raw)) :
    build (gapTok g) ((m, r) :: st) = some ((m, rawGap m.isNone g r) :: st) := by
  unfold gapTok rawGap
  split
  · next h => simp [h, build]
  · next h =>
    cases m with
    | none =>
      have : g.all xmlSpace = true := List.all_eq_true.2 fun c hc => (hg c hc).1
      simp [build, buildStep, this]
    | some n => simp [build, buildStep, readContent_space hg, h]

theorem build_toks (o : XmlOptions) {s : St} {keep : NodeId → Bool} {q : Char} {name : NodeId → Str} {attrs : NodeId → List Ev} {ra : NodeId → List (Str × Str)} :
    ∀ (T : Trees) (m : Option Str) (p : Bool) (d : Nat) (r : Raw) (st : List (Option Str × Raw)), T.Kinds s →
    (∀ i ∈ T.pre, Parts s q name attrs ra i) → (m = none → ∀ i ∈ T.tops, s.nodeType i ≠ .text) →
    build (T.toks o s keep name ra p d) ((m, r) :: st) = some ((m, T.spaced o s keep name ra m.isNone p d r) :: st)
  | .nil, _, _, _, _, _, _, _, _ => rfl
  | .cons i K R, m, p, d, r, st, hk, hp, ht => by
    obtain ⟨kK, kR, hkind⟩ := hk
    have hpi := hp i (by simp [Trees.pre])
    have hR := build_toks o (keep := keep) (name := name) (attrs := attrs) (ra := ra) R m p d r st kR (fun j hj => hp j (by simp [Trees.pre, hj]))
      (fun h j hj => ht h j (by simp [Trees.tops, hj]))
    rcases hkind with ⟨h1, e, he⟩ | ⟨h1, rfl, h2⟩ | ⟨h1, rfl⟩
    · simp only [Trees.toks, Trees.spaced, h1]
      rw [build_append, hR, Option.bind_some, build_append, build]
      cases hn : K.isNil with
      | true =>
        simp only [if_true, build, Option.bind_some, buildStep]
        rw [build_gap (gap_space o p d)]
      | false =>
        have hK := build_toks o (keep := keep) (name := name) (attrs := attrs) (ra := ra) K (some (name i)) (p || keep i) (d + 1)
          (rawGap false (gap o (p || keep i) d) .nil) ((m, R.spaced o s keep name ra m.isNone p d r) :: st) kK
          (fun j hj => hp j (by simp [Trees.pre, hj])) (fun h => by cases h)
        have hg := build_gap (gap_space o (p || keep i) d) (some (name i)) .nil ((m, R.spaced o s keep name ra m.isNone p d r) :: st)
        simp only [Option.isNone_some] at hK hg
        simp only [Bool.false_eq_true, if_false]
        rw [build_append]
        simp only [build, buildStep, Option.bind_some]
        rw [build_append, hg, Option.bind_some, hK]
        simp only [Option.bind_some, buildStep, if_true]
        rw [build_gap (gap_space o p d)]
    · simp only [Trees.toks, Trees.spaced, h1]
      rw [build_append, hR, Option.bind_some]
      cases m with
      | none => exact absurd h1 (ht rfl i (by simp [Trees.tops]))
      | some n =>
        obtain ⟨t1, t2⟩ := hpi.text h1
        simp [build, buildStep, readContent_escape t1 t2]
    · simp only [Trees.toks, Trees.spaced, h1]
      rw [build_append, hR, Option.bind_some, build_append]
      simp only [build, Option.bind_some, buildStep]
      rw [build_gap (gap_space o p d)]

end Svgdom
