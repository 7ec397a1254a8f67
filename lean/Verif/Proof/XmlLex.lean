import Verif.Spec.XmlText
import Verif.Proof.Read

/-! Reading characters: pieces. -/

set_option autoImplicit false

namespace Svgdom

/-! ### Lists -/

/-- The list does not go on with such a character. -/
def Stops (p : Char → Bool) (l : Str) : Prop := ∀ c, l.head? = some c → p c = false

theorem Stops.nil (p : Char → Bool) : Stops p [] := fun c h => by simp at h

theorem Stops.cons {p : Char → Bool} {c : Char} {l : Str} (h : p c = false) : Stops p (c :: l) := fun d e => by
  simp only [List.head?_cons, Option.some.injEq] at e
  rw [← e]; exact h

theorem takeWhile_stops {p : Char → Bool} {a l : Str} (ha : ∀ c ∈ a, p c = true) (hl : Stops p l) : (a ++ l).takeWhile p = a := by
  induction a with
  | nil =>
    cases l with
    | nil => rfl
    | cons c l => rw [List.nil_append, List.takeWhile_cons, hl c rfl]; rfl
  | cons c a ih =>
    rw [List.cons_append, List.takeWhile_cons, ha c (by simp), if_pos rfl, ih fun d hd => ha d (by simp [hd])]

theorem dropWhile_stops {p : Char → Bool} {a l : Str} (ha : ∀ c ∈ a, p c = true) (hl : Stops p l) : (a ++ l).dropWhile p = l := by
  induction a with
  | nil =>
    cases l with
    | nil => rfl
    | cons c l => rw [List.nil_append, List.dropWhile_cons, hl c rfl]; rfl
  | cons c a ih =>
    rw [List.cons_append, List.dropWhile_cons, ha c (by simp), if_pos rfl, ih fun d hd => ha d (by simp [hd])]

/-! ### Names -/

theorem nameStart_nameChar {c : Char} (h : nameStart c = true) : nameChar c = true := by
  simp only [nameStart, nameChar, Bool.or_eq_true, Char.isAlphanum, decide_eq_true_eq] at *
  tauto

theorem xmlName_cons {n : Str} (h : xmlName n = true) : ∃ c cs, n = c :: cs ∧ nameStart c = true := by
  cases n with
  | nil => simp [xmlName] at h
  | cons c cs =>
    simp only [xmlName, Bool.and_eq_true] at h
    exact ⟨c, cs, rfl, h.1⟩

theorem xmlName_chars {n : Str} (h : xmlName n = true) : ∀ c ∈ n, nameChar c = true := by
  cases n with
  | nil => simp
  | cons c cs =>
    simp only [xmlName, Bool.and_eq_true, List.all_eq_true] at h
    intro d hd
    rcases List.mem_cons.1 hd with rfl | hd
    · exact nameStart_nameChar h.1
    · exact h.2 d hd

theorem nameChar_markup : nameChar ' ' = false ∧ nameChar '\n' = false ∧ nameChar '>' = false ∧ nameChar '/' = false ∧
    nameChar '=' = false := by decide +kernel

theorem nameStart_ne {c : Char} (h : nameStart c = true) : c ≠ '/' ∧ c ≠ '!' ∧ c ≠ '>' ∧ xmlSpace c = false := by
  have h1 : nameStart '/' = false ∧ nameStart '!' = false ∧ nameStart '>' = false ∧ nameStart ' ' = false ∧ nameStart '\t' = false ∧
      nameStart '\n' = false ∧ nameStart '\r' = false := by decide +kernel
  obtain ⟨a1, a2, a3, a4, a5, a6, a7⟩ := h1
  refine ⟨?_, ?_, ?_, ?_⟩
  · rintro rfl; rw [a1] at h; cases h
  · rintro rfl; rw [a2] at h; cases h
  · rintro rfl; rw [a3] at h; cases h
  · simp only [xmlSpace, decide_eq_false_iff_not]
    rintro (rfl | rfl | rfl | rfl) <;> simp_all

/-! ### References -/

/-- Not a quote. -/
def NoQuotes (l : Str) : Prop := ∀ c ∈ l, c ≠ '"' ∧ c ≠ '\''

theorem hexVal_quotes : hexVal '"' = none ∧ hexVal '\'' = none := by decide +kernel

theorem readHex_pre : ∀ {l : Str} {acc n : Nat} {rest : Str}, readHex acc l = some (n, rest) →
    ∃ pre, l = pre ++ rest ∧ NoQuotes pre ∧ ∀ r, readHex acc (pre ++ r) = some (n, r)
  | [], _, _, _, h => by simp [readHex] at h
  | c :: cs, acc, n, rest, h => by
    simp only [readHex] at h
    split at h
    · next hc =>
      subst hc
      simp only [Option.some.injEq, Prod.mk.injEq] at h
      obtain ⟨rfl, rfl⟩ := h
      exact ⟨[';'], rfl, by simp [NoQuotes], fun r => by simp [readHex]⟩
    · next hc =>
      split at h
      · next d hd =>
        obtain ⟨pre, e1, e2, e3⟩ := readHex_pre h
        refine ⟨c :: pre, by simp [e1], ?_, fun r => ?_⟩
        · intro x hx
          rcases List.mem_cons.1 hx with rfl | hx
          · constructor
            · rintro rfl; rw [hexVal_quotes.1] at hd; cases hd
            · rintro rfl; rw [hexVal_quotes.2] at hd; cases hd
          · exact e2 x hx
        · simp only [List.cons_append, readHex, if_neg hc, hd, e3]
      · simp at h

theorem readDec_pre : ∀ {l : Str} {acc n : Nat} {rest : Str}, readDec acc l = some (n, rest) →
    ∃ pre, l = pre ++ rest ∧ NoQuotes pre ∧ pre.head? ≠ some 'x' ∧ pre ≠ [] ∧ ∀ r, readDec acc (pre ++ r) = some (n, r)
  | [], _, _, _, h => by simp [readDec] at h
  | c :: cs, acc, n, rest, h => by
    simp only [readDec] at h
    split at h
    · next hc =>
      subst hc
      simp only [Option.some.injEq, Prod.mk.injEq] at h
      obtain ⟨rfl, rfl⟩ := h
      exact ⟨[';'], rfl, by simp [NoQuotes], by simp, by simp, fun r => by simp [readDec]⟩
    · next hc =>
      split at h
      · next hd =>
        obtain ⟨pre, e1, e2, _, _, e3⟩ := readDec_pre h
        refine ⟨c :: pre, by simp [e1], ?_, ?_, by simp, fun r => ?_⟩
        · intro x hx
          rcases List.mem_cons.1 hx with rfl | hx
          · constructor
            · rintro rfl; revert hd; decide
            · rintro rfl; revert hd; decide
          · exact e2 x hx
        · simp only [List.head?_cons, ne_eq, Option.some.injEq]
          rintro rfl; revert hd; decide
        · simp only [List.cons_append, readDec, if_neg hc, if_pos hd, e3]
      · simp at h

theorem readRef_pre {l : Str} {c : Char} {rest : Str} (h : readRef l = some (c, rest)) :
    ∃ pre, l = pre ++ rest ∧ NoQuotes pre ∧ ∀ r, readRef (pre ++ r) = some (c, r) := by
  unfold readRef at h
  split at h
  · next cs =>
    simp only [Option.bind_eq_some_iff, Option.map_eq_some_iff, Prod.exists, Prod.mk.injEq] at h
    obtain ⟨n, r0, h1, d, h2, rfl, rfl⟩ := h
    obtain ⟨pre, e1, e2, e3⟩ := readHex_pre h1
    refine ⟨'#' :: 'x' :: pre, by simp [e1], ?_, fun r => ?_⟩
    · intro x hx
      simp only [List.mem_cons] at hx
      rcases hx with rfl | rfl | hx
      · decide
      · decide
      · exact e2 x hx
    · simp [readRef, e3, h2]
  · next cs hx =>
    simp only [Option.bind_eq_some_iff, Option.map_eq_some_iff, Prod.exists, Prod.mk.injEq] at h
    obtain ⟨n, r0, h1, d, h2, rfl, rfl⟩ := h
    obtain ⟨pre, e1, e2, e4, e5, e3⟩ := readDec_pre h1
    refine ⟨'#' :: pre, by simp [e1], ?_, fun r => ?_⟩
    · intro x hx
      simp only [List.mem_cons] at hx
      rcases hx with rfl | hx
      · decide
      · exact e2 x hx
    · cases pre with
      | nil => exact absurd rfl e5
      | cons y pre =>
        have hy : y ≠ 'x' := fun hh => e4 (by simp [hh])
        have := e3 r
        rw [List.cons_append] at this
        rw [List.cons_append, List.cons_append, readRef]
        · simp [this, h2]
        · intro cs' hh
          exact hy (by simpa using (List.cons.inj hh).1)
  all_goals
    first
    | (simp only [Option.some.injEq, Prod.mk.injEq] at h
       obtain ⟨rfl, rfl⟩ := h
       first
       | exact ⟨['l', 't', ';'], rfl, by simp [NoQuotes], fun r => rfl⟩
       | exact ⟨['g', 't', ';'], rfl, by simp [NoQuotes], fun r => rfl⟩
       | exact ⟨['a', 'm', 'p', ';'], rfl, by simp [NoQuotes], fun r => rfl⟩
       | exact ⟨['q', 'u', 'o', 't', ';'], rfl, by simp [NoQuotes], fun r => rfl⟩
       | exact ⟨['a', 'p', 'o', 's', ';'], rfl, by simp [NoQuotes], fun r => rfl⟩)
    | simp at h

/-! ### Values -/

theorem quoted_nil (o : XmlOptions) : quoted o [] = [] := rfl

theorem quoted_cons (o : XmlOptions) (c : Char) (t : Str) : quoted o (c :: t) =
    (if c = '\'' ∧ o.single then st!"&apos;" else if c = '"' ∧ !o.single then st!"&quot;" else [c]) ++ quoted o t := rfl

theorem quoted_append (o : XmlOptions) (a b : Str) : quoted o (a ++ b) = quoted o a ++ quoted o b := by
  simp [quoted, List.flatMap_append]

theorem quoted_noQuotes (o : XmlOptions) {l : Str} (h : NoQuotes l) : quoted o l = l := by
  induction l with
  | nil => rfl
  | cons c l ih =>
    obtain ⟨h1, h2⟩ := h c (by simp)
    rw [quoted_cons, ih fun d hd => h d (by simp [hd])]
    simp [h1, h2]

/-- Other characters are not changed. -/
theorem quoted_other (o : XmlOptions) {c : Char} (h : c ≠ o.quote) (t : Str) : quoted o (c :: t) = c :: quoted o t := by
  rw [quoted_cons]
  unfold XmlOptions.quote at h
  cases hs : o.single <;> simp [hs] at h <;> simp [h]

theorem quoted_quote (o : XmlOptions) (t : Str) : ∃ e : Str, quoted o (o.quote :: t) = '&' :: e ++ quoted o t ∧
    (∀ r, readRef (e ++ r) = some (o.quote, r)) ∧ NoQuotes ('&' :: e) := by
  rw [quoted_cons]
  unfold XmlOptions.quote
  cases hs : o.single
  · exact ⟨st!"quot;", by simp, fun r => rfl, by intro c hc; revert c; decide⟩
  · exact ⟨st!"apos;", by simp, fun r => rfl, by intro c hc; revert c; decide⟩

theorem quote_cases (o : XmlOptions) : o.quote = '"' ∨ o.quote = '\'' := by
  unfold XmlOptions.quote; cases o.single <;> simp

theorem quoted_free (o : XmlOptions) : ∀ (t : Str), ∀ c ∈ quoted o t, c ≠ o.quote
  | [], c, h => by simp [quoted_nil] at h
  | d :: t, c, h => by
    by_cases hd : d = o.quote
    · subst hd
      obtain ⟨e, e1, _, e3⟩ := quoted_quote o t
      rw [e1] at h
      rcases List.mem_append.1 h with h | h
      · have := e3 c h
        rcases quote_cases o with hq | hq <;> rw [hq] <;> tauto
      · exact quoted_free o t c h
    · rw [quoted_other o hd] at h
      rcases List.mem_cons.1 h with rfl | h
      · exact hd
      · exact quoted_free o t c h

theorem quoted_head (o : XmlOptions) (t : Str) : (quoted o t).head? = some '\n' ↔ t.head? = some '\n' := by
  cases t with
  | nil => rfl
  | cons d t =>
    by_cases hd : d = o.quote
    · subst hd
      obtain ⟨e, e1, _, e3⟩ := quoted_quote o t
      rw [e1]
      rcases quote_cases o with hq | hq <;> rw [hq] <;> simp
    · rw [quoted_other o hd]; simp

theorem quote_ne (o : XmlOptions) : o.quote ≠ '&' ∧ o.quote ≠ '<' ∧ o.quote ≠ '\r' ∧ o.quote ≠ '\n' ∧ o.quote ≠ '\t' := by
  rcases quote_cases o with hq | hq <;> rw [hq] <;> decide

/-- Quotes can be written in values. -/
theorem readAttrAux_quoted (o : XmlOptions) (q : Char) : ∀ (k : Nat) (v u : Str), readAttrAux q k v = some u →
    ∀ k', k ≤ k' → readAttrAux o.quote k' (quoted o v) = some u := by
  intro k
  induction k with
  | zero =>
    intro v u h k' _
    cases v with
    | nil => simp only [readAttrAux] at h; cases h; rw [quoted_nil]; simp [readAttrAux]
    | cons c v => simp [readAttrAux] at h
  | succ k ih =>
    intro v u h k' hk
    obtain ⟨k', rfl⟩ : ∃ j, k' = j + 1 := ⟨k' - 1, by omega⟩
    have hk : k ≤ k' := by omega
    cases v with
    | nil => simp only [readAttrAux] at h; cases h; rw [quoted_nil]; simp [readAttrAux]
    | cons c v =>
      rw [readAttrAux] at h
      split at h
      · cases h
      · next hc =>
        simp only [not_or] at hc
        obtain ⟨_, c2, c3⟩ := hc
        split at h
        · next hamp =>
          subst hamp
          simp only [Option.bind_eq_some_iff, Option.map_eq_some_iff, Prod.exists] at h
          obtain ⟨d, rest, h1, w, h2, rfl⟩ := h
          obtain ⟨pre, e1, e2, e3⟩ := readRef_pre h1
          rw [quoted_other o (fun hh => (quote_ne o).1 hh.symm), e1, quoted_append, quoted_noQuotes o e2, readAttrAux]
          rw [if_neg (by
            simp only [not_or]
            exact ⟨fun hh => (quote_ne o).1 hh.symm, by decide, by decide +kernel⟩), if_pos rfl, e3]
          simp [ih rest w h2 k' hk]
        · next hamp =>
          by_cases hq : c = o.quote
          · subst hq
            obtain ⟨e, e1, e2, _⟩ := quoted_quote o v
            obtain ⟨q1, q2, q3, q4, q5⟩ := quote_ne o
            rw [if_neg (by tauto), if_neg (by tauto), Option.map_eq_some_iff] at h
            obtain ⟨w, h1, rfl⟩ := h
            rw [e1, List.cons_append, readAttrAux, if_neg (by
              simp only [not_or]
              exact ⟨fun hh => (quote_ne o).1 hh.symm, by decide, by decide +kernel⟩), if_pos rfl, e2]
            simp [ih v w h1 k' hk]
          · rw [quoted_other o hq, readAttrAux, if_neg (by tauto), if_neg hamp]
            split at h
            · next hr => rw [if_pos ⟨hr.1, (quoted_head o v).2 hr.2⟩]; exact ih v u h k' hk
            · next hr =>
              rw [if_neg fun hh => hr ⟨hh.1, (quoted_head o v).1 hh.2⟩]
              split at h
              · next hw =>
                rw [if_pos hw]
                rw [Option.map_eq_some_iff] at h ⊢
                obtain ⟨w, h1, rfl⟩ := h
                exact ⟨w, ih v w h1 k' hk, rfl⟩
              · next hw =>
                rw [if_neg hw]
                rw [Option.map_eq_some_iff] at h ⊢
                obtain ⟨w, h1, rfl⟩ := h
                exact ⟨w, ih v w h1 k' hk, rfl⟩

theorem quoted_length (o : XmlOptions) : ∀ t : Str, t.length ≤ (quoted o t).length
  | [] => by simp
  | c :: t => by
    have := quoted_length o t
    rw [quoted_cons, List.length_append, List.length_cons]
    split
    · simp; omega
    · split
      · simp; omega
      · simp; omega

theorem readAttr_quoted (o : XmlOptions) {q : Char} {v u : Str} (h : readAttr q v = some u) : readAttr o.quote (quoted o v) = some u :=
  readAttrAux_quoted o q _ v u h _ (quoted_length o v)

/-- A plain value, with quotes that are not quotes. -/
theorem readAttr_plain : ∀ {v : Str}, plainValue v = true → readAttr '<' v = some v := by
  have key : ∀ (k : Nat) (v : Str), v.length ≤ k → plainValue v = true → readAttrAux '<' k v = some v := by
    intro k
    induction k with
    | zero => intro v hl _; cases v <;> simp at hl; simp [readAttrAux]
    | succ k ih =>
      intro v hl h
      cases v with
      | nil => simp [readAttrAux]
      | cons c v =>
        simp only [plainValue, List.all_cons, Bool.and_eq_true, decide_eq_true_eq] at h
        obtain ⟨⟨h1, h2, h3, h4, h5, h6⟩, h7⟩ := h
        have := ih v (by simpa using hl) h7
        simp [readAttrAux, h1, h2, h3, h4, h5, h6, this]
  intro v h
  exact key _ v (Nat.le_refl _) h

/-! ### Attributes -/

/-- The characters of an attribute call. -/
def evText (o : XmlOptions) (d : Nat) : Ev → Str
  | .attribute n v => attrText o d n v
  | .attributeRaw n v => attrText o d n v
  | _ => []

theorem lexValue_quoted (o : XmlOptions) {q : Char} {v u : Str} (h : readAttr q v = some u) (rest : Str) :
    lexValue (o.quote :: quoted o v ++ o.quote :: rest) = some (u, rest) := by
  have h1 : ∀ c ∈ quoted o v, (decide (c ≠ o.quote)) = true := fun c hc => by simpa using quoted_free o v c hc
  have h2 : Stops (fun c => decide (c ≠ o.quote)) (o.quote :: rest) := .cons (by simp)
  simp only [lexValue, List.cons_append]
  rw [if_pos (quote_cases o), takeWhile_stops h1 h2, dropWhile_stops h1 h2, readAttr_quoted o h]
  rfl

theorem lexAttr_one (o : XmlOptions) {q : Char} {n v u : Str} (hn : xmlName n = true) (h : readAttr q v = some u) (rest : Str) :
    lexAttr (n ++ '=' :: o.quote :: quoted o v ++ [o.quote] ++ rest) = some ((n, u), rest) := by
  have h1 := xmlName_chars hn
  have h2 : ∀ l : Str, Stops nameChar ('=' :: l) := fun l => .cons nameChar_markup.2.2.2.2
  have hs : xmlSpace '=' = false := by decide
  have hs2 : xmlSpace o.quote = false := by rcases quote_cases o with hq | hq <;> rw [hq] <;> decide
  simp only [List.append_assoc, List.cons_append, List.nil_append, lexAttr]
  rw [takeWhile_stops h1 (h2 _), dropWhile_stops h1 (h2 _), hn, if_pos rfl, List.dropWhile_cons, hs]
  simp only [Bool.false_eq_true, if_false]
  rw [List.dropWhile_cons, hs2]
  simp only [Bool.false_eq_true, if_false]
  have := lexValue_quoted o h rest
  rw [List.cons_append] at this
  rw [this]
  rfl

theorem indent_space (i : Indent) (d : Nat) : ∀ c ∈ i.str d, xmlSpace c = true := by
  cases i <;> intro c hc <;> simp [Indent.str] at hc <;> simp [hc.2, xmlSpace]

theorem attrText_eq (o : XmlOptions) (d : Nat) (n v : Str) : ∃ w : Str, w ≠ [] ∧ (∀ c ∈ w, xmlSpace c = true) ∧
    attrText o d n v = w ++ (n ++ '=' :: o.quote :: quoted o v ++ [o.quote]) := by
  unfold attrText
  split
  · exact ⟨[' '], by simp, by simp [xmlSpace], by simp⟩
  · refine ⟨'\n' :: o.indent.str d ++ o.attributes.str 1, by simp, ?_, by simp⟩
    intro c hc
    simp only [List.cons_append, List.mem_cons, List.mem_append] at hc
    rcases hc with rfl | hc | hc
    · decide
    · exact indent_space _ _ c hc
    · exact indent_space _ _ c hc

theorem rawAttr_text (o : XmlOptions) (d : Nat) {q : Char} {e : Ev} {a : Str × Str} (h : rawAttr q e = some a) :
    xmlName a.1 = true ∧ ∃ w v q', w ≠ [] ∧ (∀ c ∈ w, xmlSpace c = true) ∧ readAttr q' v = some a.2 ∧
      evText o d e = w ++ (a.1 ++ '=' :: o.quote :: quoted o v ++ [o.quote]) := by
  cases e with
  | «attribute» n v =>
    simp only [rawAttr] at h
    split at h
    · next hc =>
      cases h
      rw [Bool.and_eq_true] at hc
      obtain ⟨w, h1, h2, h3⟩ := attrText_eq o d n v
      exact ⟨hc.1, w, v, '<', h1, h2, readAttr_plain hc.2, h3⟩
    · simp at h
  | attributeRaw n v =>
    simp only [rawAttr] at h
    split at h
    · next hc =>
      rw [Option.map_eq_some_iff] at h
      obtain ⟨u, hu, rfl⟩ := h
      obtain ⟨w, h1, h2, h3⟩ := attrText_eq o d n v
      exact ⟨hc, w, v, q, h1, h2, hu, h3⟩
    · simp at h
  | _ => simp [rawAttr] at h

/-- The end of a start tag. -/
def tagEnd (empty : Bool) : Str := if empty then st!"/>" else st!">"

theorem lexAttrs_end (k : Nat) (empty : Bool) (rest : Str) : lexAttrs (k + 1) (tagEnd empty ++ rest) = some ([], empty, rest) := by
  have h1 : xmlSpace '>' = false := by decide
  have h2 : xmlSpace '/' = false := by decide
  cases empty <;> simp [tagEnd, lexAttrs, List.dropWhile_cons, h1, h2]

theorem lexAttrs_raw (o : XmlOptions) (d : Nat) {q : Char} (empty : Bool) (rest : Str) {es : List Ev} {as : List (Str × Str)}
    (h : RawAttrs q es as) : ∀ k, es.length < k → lexAttrs k (es.flatMap (evText o d) ++ tagEnd empty ++ rest) = some (as, empty, rest) := by
  induction h with
  | nil =>
    intro k hk
    obtain ⟨k, rfl⟩ : ∃ j, k = j + 1 := ⟨k - 1, by simp at hk; omega⟩
    exact lexAttrs_end k empty rest
  | @cons e es a as h1 _ ih =>
    intro k hk
    obtain ⟨k, rfl⟩ : ∃ j, k = j + 1 := ⟨k - 1, by omega⟩
    obtain ⟨hn, w, v, q', w1, w2, h3, h4⟩ := rawAttr_text o d h1
    obtain ⟨c, cs, hc, hc2⟩ := xmlName_cons hn
    obtain ⟨n1, n2, n3, n4⟩ := nameStart_ne hc2
    rw [List.flatMap_cons, h4]
    have hst : ∀ l : Str, Stops xmlSpace (a.1 ++ l) := fun l => by rw [hc]; exact .cons n4
    have e1 : w ++ (a.1 ++ '=' :: o.quote :: quoted o v ++ [o.quote]) ++ List.flatMap (evText o d) es ++ tagEnd empty ++ rest =
        w ++ (a.1 ++ '=' :: o.quote :: quoted o v ++ [o.quote] ++ (List.flatMap (evText o d) es ++ tagEnd empty ++ rest)) := by simp
    rw [e1]
    have hst' : Stops xmlSpace (a.1 ++ '=' :: o.quote :: quoted o v ++ [o.quote] ++ (List.flatMap (evText o d) es ++ tagEnd empty ++ rest)) := by
      simp only [List.append_assoc]; exact hst _
    have hla := lexAttr_one o hn h3 (List.flatMap (evText o d) es ++ tagEnd empty ++ rest)
    generalize hY : (a.1 ++ '=' :: o.quote :: quoted o v ++ [o.quote] ++ (List.flatMap (evText o d) es ++ tagEnd empty ++ rest)) = Y at *
    have hYc : ∃ Y', Y = c :: Y' := ⟨_, by rw [← hY, hc]; simp; rfl⟩
    obtain ⟨Y', rfl⟩ := hYc
    rw [lexAttrs, dropWhile_stops w2 hst', takeWhile_stops w2 hst']
    split
    · next heq => cases heq; exact absurd rfl n3
    · next heq => cases heq; exact absurd rfl n1
    · rw [if_neg w1, hla, Option.bind_some, ih k (by simp at hk; omega)]
      rfl

end Svgdom
