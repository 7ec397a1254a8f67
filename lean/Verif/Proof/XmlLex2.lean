import Verif.Proof.XmlLex

/-! Reading characters: the pieces of a text. -/

set_option autoImplicit false

namespace Svgdom

/-- The text has these pieces. -/
def Lexes (cs : Str) (l : List Tok) : Prop := ∀ k, cs.length ≤ k → lex k cs = some l

theorem Lexes.nil : Lexes [] [] := fun k _ => by cases k <;> rfl

theorem Lexes.markup {cs rest : Str} {t : Tok} {l : List Tok} (h : lexMarkup cs = some (t, rest)) (hl : rest.length ≤ cs.length)
    (hr : Lexes rest l) : Lexes ('<' :: cs) (t :: l) := by
  intro k hk
  obtain ⟨k, rfl⟩ : ∃ j, k = j + 1 := ⟨k - 1, by simp at hk; omega⟩
  rw [lex, if_pos rfl, h, Option.bind_some, hr k (by simp at hk; omega)]
  rfl

theorem Lexes.text {t rest : Str} {l : List Tok} (ht : t ≠ []) (hf : ∀ c ∈ t, c ≠ '<') (hs : ∀ c, rest.head? = some c → c = '<')
    (hr : Lexes rest l) : Lexes (t ++ rest) (.text t :: l) := by
  intro k hk
  have h1 : ∀ c ∈ t, decide (c ≠ '<') = true := fun c hc => by simpa using hf c hc
  have h2 : Stops (fun c => decide (c ≠ '<')) rest := fun c hc => by simpa using hs c hc
  have e1 := takeWhile_stops h1 h2
  have e2 := dropWhile_stops h1 h2
  cases t with
  | nil => exact absurd rfl ht
  | cons c t =>
    rw [List.cons_append] at e1 e2 ⊢
    obtain ⟨k, rfl⟩ : ∃ j, k = j + 1 := ⟨k - 1, by simp at hk; omega⟩
    rw [lex, if_neg (hf c (by simp)), e1, e2, hr k (by simp at hk; omega)]
    rfl

theorem lexComment_plain : ∀ {t : Str} (rest : Str), plainComment t = true → lexComment (t ++ st!"-->" ++ rest) = some (t, rest)
  | [], rest, _ => rfl
  | c :: t, rest, h => by
    simp only [plainComment, Bool.and_eq_true, List.all_cons, decide_eq_true_eq] at h
    obtain ⟨h1, ⟨h2, h3⟩, h4⟩ := h
    have ht : plainComment t = true := by
      simp only [plainComment, Bool.and_eq_true, List.all_eq_true, decide_eq_true_eq]
      refine ⟨?_, fun d hd => by have := List.all_eq_true.1 h4 d hd; simpa using this⟩
      unfold commentDashes at h1
      split at h1
      · next h => cases h
      · cases h1
      · cases h1
      · next h => cases h; exact h1
    have ih := lexComment_plain rest ht
    have hne : ∀ x y : Str, c :: t ++ st!"-->" ++ rest ≠ '-' :: '-' :: x := by
      intro x hx
      intro hh
      cases t with
      | nil =>
        cases hh
        simp [commentDashes] at h1
      | cons d t =>
        cases hh
        simp [commentDashes] at h1
    generalize hY : t ++ st!"-->" ++ rest = Y at ih
    have e : c :: t ++ st!"-->" ++ rest = c :: Y := by rw [← hY]; simp
    rw [e] at hne ⊢
    rw [lexComment]
    · rw [ih]
      simp [h2, h3]
    · intro x hx hh; exact hne ('>' :: x) [] (by rw [hx, hh])
    · intro x hx hh; exact hne x [] (by rw [hx, hh])

theorem Lexes.comment {t rest : Str} {l : List Tok} (h : plainComment t = true) (hr : Lexes rest l) :
    Lexes (st!"<!--" ++ t ++ st!"-->" ++ rest) (.comment t :: l) := by
  have : lexMarkup ('!' :: '-' :: '-' :: (t ++ st!"-->" ++ rest)) = some (.comment t, rest) := by
    simp only [lexMarkup, lexComment_plain rest h, Option.map_some]
  have := Lexes.markup this (by simp; omega) hr
  simpa using this

theorem Lexes.stop {n rest : Str} {l : List Tok} (h : xmlName n = true) (hr : Lexes rest l) :
    Lexes (st!"</" ++ n ++ st!">" ++ rest) (.stop n :: l) := by
  have h1 := xmlName_chars h
  have h2 : Stops nameChar ('>' :: rest) := .cons nameChar_markup.2.2.1
  have hs : xmlSpace '>' = false := by decide
  have : lexMarkup ('/' :: (n ++ '>' :: rest)) = some (.stop n, rest) := by
    simp only [lexMarkup, takeWhile_stops h1 h2, dropWhile_stops h1 h2, h, if_true, List.dropWhile_cons, hs, Bool.false_eq_true, if_false]
  have := Lexes.markup this (by simp; omega) hr
  simpa using this

theorem evText_length (o : XmlOptions) (d : Nat) {q : Char} {es : List Ev} {as : List (Str × Str)} (h : RawAttrs q es as) :
    es.length ≤ (es.flatMap (evText o d)).length := by
  induction h with
  | nil => simp
  | cons h1 _ ih =>
    obtain ⟨_, w, v, q', _, _, _, h4⟩ := rawAttr_text o d h1
    rw [List.flatMap_cons, List.length_append, List.length_cons, h4]
    simp only [List.length_append, List.length_cons]
    omega

theorem Lexes.start (o : XmlOptions) (d : Nat) {q : Char} {n rest : Str} {l : List Tok} {es : List Ev} {as : List (Str × Str)}
    (h : xmlName n = true) (ha : RawAttrs q es as) (empty : Bool) (hr : Lexes rest l) :
    Lexes ('<' :: n ++ es.flatMap (evText o d) ++ tagEnd empty ++ rest) (.start n as empty :: l) := by
  obtain ⟨c, cs, hc, hc2⟩ := xmlName_cons h
  obtain ⟨n1, n2, n3, n4⟩ := nameStart_ne hc2
  have h1 := xmlName_chars h
  have h2 : Stops nameChar (es.flatMap (evText o d) ++ tagEnd empty ++ rest) := by
    cases ha with
    | nil => cases empty <;> exact .cons (by simp [nameChar_markup])
    | cons e1 ha =>
      obtain ⟨_, w, v, q', w1, w2, _, h4⟩ := rawAttr_text o d e1
      rw [List.flatMap_cons, h4]
      cases w with
      | nil => exact absurd rfl w1
      | cons x w =>
        refine .cons ?_
        have := w2 x (by simp)
        simp only [xmlSpace, decide_eq_true_eq] at this
        rcases this with rfl | rfl | rfl | rfl <;> decide +kernel
  have h3 := lexAttrs_raw o d empty rest ha
  have hlen := evText_length o d ha
  generalize hY : es.flatMap (evText o d) ++ tagEnd empty ++ rest = Y at *
  have hYl : es.length < Y.length + 1 ∧ rest.length ≤ Y.length := by
    rw [← hY]; simp only [List.length_append]; omega
  have e : '<' :: n ++ es.flatMap (evText o d) ++ tagEnd empty ++ rest = '<' :: (n ++ Y) := by rw [← hY]; simp
  rw [e]
  refine Lexes.markup ?_ (by simp; omega) hr
  have hN : n ++ Y = c :: (cs ++ Y) := by rw [hc]; rfl
  unfold lexMarkup
  split
  · next heq => rw [hN] at heq; exact absurd (List.cons.inj heq).1 n2
  · next heq => rw [hN] at heq; exact absurd (List.cons.inj heq).1 n1
  · rw [takeWhile_stops h1 h2, dropWhile_stops h1 h2, h, if_pos rfl, h3 _ (by
      rw [List.length_append, hc, List.length_cons]; omega)]
    rfl

end Svgdom
