import Verif.Props.TextBack
import Verif.Spec.Faithful

/-!
# C65: every value of a parsed document is parsed back from what is written
-/

set_option autoImplicit false

namespace Svgdom

theorem f64Bound_again (n : F64) :
    f64Bound (.fin 0) (f64Bound (.fin 0) n (.fin 1)) (.fin 1) = f64Bound (.fin 0) n (.fin 1) := by
  by_cases h1 : F64.lt (.fin 1) n = true
  · have : f64Bound (.fin 0) n (.fin 1) = .fin 1 := by unfold f64Bound; rw [if_pos h1]
    rw [this]; decide +kernel
  · by_cases h2 : F64.lt n (.fin 0) = true
    · have : f64Bound (.fin 0) n (.fin 1) = .fin 0 := by unfold f64Bound; rw [if_neg h1, if_pos h2]
      rw [this]; decide +kernel
    · have : f64Bound (.fin 0) n (.fin 1) = n := by unfold f64Bound; rw [if_neg h1, if_neg h2]
      rw [this, this]

theorem pathTokens_map : ∀ (l : List Blob), pathTokens (l.map some) = l
  | [] => rfl
  | b :: l => by simp [pathTokens, pathTokens_map l]

theorem ite_both {α : Type} {c : Prop} [Decidable c] {x y z x' y' z' : α} (h : (if c then x else y) = z) (h' : (if c then x' else y') = z') :
    (c ∧ x = z ∧ x' = z') ∨ (¬ c ∧ y = z ∧ y' = z') := by
  by_cases hc : c
  · rw [if_pos hc] at h h'; exact .inl ⟨hc, h, h'⟩
  · rw [if_neg hc] at h h'; exact .inr ⟨hc, h, h'⟩

theorem option_again {α : Type} {L : Lib} {w : Str} {f : α → AttributeValue} {o o' : Option α} {v : AttributeValue} {u : Parsed}
    (h : Parsed.ofOption f o = .value v) (hu : Parsed.ofOption f o' = u) (hr : ReadAs L w v) (hf : ∀ x, ReadAs L w (f x) → o' = some x) :
    u = .value v := by
  obtain ⟨x, _, rfl⟩ := ofOption_value h
  rw [← hu, hf x hr]
  rfl

theorem readNumber {L : Lib} {w : Str} {x : F64} (h : ReadAs L w (.number x)) : parseNumber L w = some x := by
  simp only [ReadAs] at h
  simp [parseNumber, h]

theorem value_again {L : Lib} {w : Str} {v v' : AttributeValue} (h : Parsed.value v' = .value v) (hr : ReadAs L w v) : ReadAs L w v' := by
  rw [Parsed.value.inj h]; exact hr

theorem invalid_again {v : AttributeValue} (h : Parsed.invalid = .value v) : False := by cases h
theorem nothing_again {v : AttributeValue} (h : Parsed.nothing = .value v) : False := by cases h
theorem link_again {iri : Str} {fb : Option PaintFallback} {v : AttributeValue} (h : Parsed.link iri fb = .value v) : False := by cases h

/-- A value of one arm. -/
macro "again" h:ident g:ident r:ident : tactic => `(tactic| first
  | exact False.elim (invalid_again $h:ident)
  | exact False.elim (nothing_again $h:ident)
  | exact False.elim (link_again $h:ident)
  | exact False.elim (value_again $h:ident $r:ident)
  | exact option_again $h:ident $g:ident $r:ident (fun _ r => r)
  | exact option_again $h:ident $g:ident $r:ident (fun _ r => readNumber r))

theorem bound_again {L : Lib} {x w : Str} {v : AttributeValue} {u : Parsed}
    (h : Parsed.ofOption (fun n => .number (f64Bound (.fin 0) n (.fin 1))) (parseNumber L x) = .value v)
    (hu : Parsed.ofOption (fun n => .number (f64Bound (.fin 0) n (.fin 1))) (parseNumber L w) = u)
    (hr : ReadAs L w v) : u = .value v := by
  obtain ⟨n, _, rfl⟩ := ofOption_value h
  rw [← hu, readNumber hr, Parsed.ofOption, f64Bound_again]

theorem paint_again {L : Lib} {x w : Str} {v : AttributeValue} {u : Parsed} (h : paintValue L x = .value v) (hu : paintValue L w = u)
    (hr : ReadAs L w v) : u = .value v := by
  rcases paintValue_value h with rfl | rfl | rfl | ⟨c, rfl⟩
  · exact hr.elim
  · exact hr.elim
  · exact hr.elim
  · rw [← hu, paintValue, hr.2]

set_option maxHeartbeats 1000000 in
/-- A text that `svgtypes` reads as the value gives the value again. -/
theorem parseValue_again {L : Lib} {a : AttributeId} {e : ElementId} {raw w : Str} {v : AttributeValue}
    (h : parseValue L a e raw = .value v) (hw : trimStr w = w) (hk : w ∉ keywords) (hr : ReadAs L w v) :
    parseValue L a e w = .value v := by
  generalize hu : parseValue L a e w = u
  unfold parseValue at h hu
  extract_lets value string at h
  extract_lets value' string' at hu
  have hs : string = .value (.string value) := rfl
  have hs' : string' = .value (.string value') := rfl
  have hv' : value' = w := by simp only [value', hw, ite_self]
  clear_value string value string' value'
  subst hs hs' hv'
  simp only [keywords, List.mem_cons, List.not_mem_nil, or_false, not_or] at hk
  obtain ⟨k1, k2, k3, k4, k5, k6, k7, k8⟩ := hk
  simp only [k1, k2, k3, k4, k5, k6, k7, k8, if_false, or_false] at hu
  have hb := ite_both h hu; clear h hu; rcases hb with ⟨-, h, hu⟩ | ⟨-, h, hu⟩
  · split at h <;> again h hu hr
  have hb := ite_both h hu; clear h hu; rcases hb with ⟨-, h, hu⟩ | ⟨-, h, hu⟩
  · rcases ite_both h hu with ⟨-, h, hu⟩ | ⟨-, h, hu⟩ <;> again h hu hr
  have hb := ite_both h hu; clear h hu; rcases hb with ⟨-, h, hu⟩ | ⟨-, h, hu⟩
  · again h hu hr
  have hb := ite_both h hu; clear h hu; rcases hb with ⟨-, h, hu⟩ | ⟨-, h, hu⟩
  · split at h
    · split at h
      · next l _ hl =>
        simp only [Parsed.value.injEq] at h; subst h; simp only [ReadAs] at hr
        rw [hr] at hu; simp only [if_pos hl] at hu; exact hu.symm
      · again h hu hr
    · again h hu hr
  have hb := ite_both h hu; clear h hu; rcases hb with ⟨-, h, hu⟩ | ⟨-, h, hu⟩
  · split at h <;> again h hu hr
  have hb := ite_both h hu; clear h hu; rcases hb with ⟨-, h, hu⟩ | ⟨-, h, hu⟩
  · split at h <;> again h hu hr
  have hb := ite_both h hu; clear h hu; rcases hb with ⟨-, h, hu⟩ | ⟨-, h, hu⟩
  · split at h
    · again h hu hr
    · exact bound_again h hu hr
  have hb := ite_both h hu; clear h hu; rcases hb with ⟨-, h, hu⟩ | ⟨-, h, hu⟩
  · exact bound_again h hu hr
  have hb := ite_both h hu; clear h hu; rcases hb with ⟨-, h, hu⟩ | ⟨-, h, hu⟩
  · split at h; again h hu hr; split at h <;> again h hu hr
  have hb := ite_both h hu; clear h hu; rcases hb with ⟨-, h, hu⟩ | ⟨-, h, hu⟩
  · rcases ite_both h hu with ⟨-, h, hu⟩ | ⟨-, h, hu⟩
    · again h hu hr
    · exact paint_again h hu hr
  have hb := ite_both h hu; clear h hu; rcases hb with ⟨-, h, hu⟩ | ⟨-, h, hu⟩
  · exact paint_again h hu hr
  have hb := ite_both h hu; clear h hu; rcases hb with ⟨-, h, hu⟩ | ⟨-, h, hu⟩
  · split at h; again h hu hr; split at h; again h hu hr; split at h <;> again h hu hr
  have hb := ite_both h hu; clear h hu; rcases hb with ⟨-, h, hu⟩ | ⟨-, h, hu⟩
  · split at h; again h hu hr
    obtain ⟨_, _, rfl⟩ := ofOption_value h
    rw [hr.1] at hu; exact hu.symm
  have hb := ite_both h hu; clear h hu; rcases hb with ⟨-, h, hu⟩ | ⟨-, h, hu⟩
  · split at h; again h hu hr; split at h; again h hu hr
    obtain ⟨_, _, rfl⟩ := ofOption_value h
    rw [hr.1] at hu; exact hu.symm
  have hb := ite_both h hu; clear h hu; rcases hb with ⟨-, h, hu⟩ | ⟨-, h, hu⟩
  · again h hu hr
  have hb := ite_both h hu; clear h hu; rcases hb with ⟨-, h, hu⟩ | ⟨-, h, hu⟩
  · again h hu hr
  have hb := ite_both h hu; clear h hu; rcases hb with ⟨-, h, hu⟩ | ⟨-, h, hu⟩
  · simp only [Parsed.value.injEq] at h; subst h; simp only [ReadAs] at hr
    rw [hr, pathTokens_map] at hu; exact hu.symm
  have hb := ite_both h hu; clear h hu; rcases hb with ⟨-, h, hu⟩ | ⟨-, h, hu⟩
  · split at h
    · split at h
      · simp only [Parsed.value.injEq] at h; subst h; simp only [ReadAs] at hr
        rw [hr] at hu; exact hu.symm
      · again h hu hr
    · again h hu hr
  have hb := ite_both h hu; clear h hu; rcases hb with ⟨-, h, hu⟩ | ⟨-, h, hu⟩
  · split at h
    · simp only [Parsed.value.injEq] at h; subst h; simp only [ReadAs] at hr
      rw [hr] at hu; exact hu.symm
    · split at h <;> again h hu hr
  have hb := ite_both h hu; clear h hu; rcases hb with ⟨-, h, hu⟩ | ⟨-, h, hu⟩
  · split at h; again h hu hr; split at h <;> again h hu hr
  have hb := ite_both h hu; clear h hu; rcases hb with ⟨-, h, hu⟩ | ⟨-, h, hu⟩
  · split at h; again h hu hr; split at h <;> again h hu hr
  have hb := ite_both h hu; clear h hu; rcases hb with ⟨-, h, hu⟩ | ⟨-, h, hu⟩
  · split at h <;> again h hu hr
  have hb := ite_both h hu; clear h hu; rcases hb with ⟨-, h, hu⟩ | ⟨-, h, hu⟩
  · split at h; again h hu hr; split at h <;> again h hu hr
  have hb := ite_both h hu; clear h hu; rcases hb with ⟨-, h, hu⟩ | ⟨-, h, hu⟩
  · split at h; again h hu hr; split at h <;> again h hu hr
  have hb := ite_both h hu; clear h hu; rcases hb with ⟨-, h, hu⟩ | ⟨-, h, hu⟩
  · split at h <;> again h hu hr
  have hb := ite_both h hu; clear h hu; rcases hb with ⟨-, h, hu⟩ | ⟨-, h, hu⟩
  · split at h <;> again h hu hr
  have hb := ite_both h hu; clear h hu; rcases hb with ⟨-, h, hu⟩ | ⟨-, h, hu⟩
  · split at h; again h hu hr; split at h <;> again h hu hr
  have hb := ite_both h hu; clear h hu; rcases hb with ⟨-, h, hu⟩ | ⟨-, h, hu⟩
  · again h hu hr
  have hb := ite_both h hu; clear h hu; rcases hb with ⟨-, h, hu⟩ | ⟨-, h, hu⟩
  · again h hu hr
  again h hu hr

/-- The text that was parsed is what is written. -/
def SameText (value : Str) (v : AttributeValue) : Prop := v.isTyped = false → ∀ (s : St) (W : ValueWriter), s.writeValue W v = value

theorem option_text {α : Type} {value : Str} {f : α → AttributeValue} {o : Option α} {v : AttributeValue} (h : Parsed.ofOption f o = .value v)
    (hf : ∀ x, (f x).isTyped = true) : SameText value v := by
  obtain ⟨x, _, rfl⟩ := ofOption_value h
  intro ht
  rw [hf x] at ht
  simp at ht

theorem value_text {value : Str} {v v' : AttributeValue} (h : Parsed.value v' = .value v) (hv : ∀ (s : St) (W : ValueWriter), s.writeValue W v' = value) :
    SameText value v := by
  rw [← Parsed.value.inj h]
  exact fun _ => hv

theorem typed_text {value : Str} {v v' : AttributeValue} (h : Parsed.value v' = .value v) (hv : v'.isTyped = true) : SameText value v := by
  rw [← Parsed.value.inj h]
  intro ht
  rw [hv] at ht
  simp at ht

/-- The text of one arm. -/
macro "same_text" h:ident : tactic => `(tactic| first
  | exact False.elim (invalid_again $h:ident)
  | exact False.elim (nothing_again $h:ident)
  | exact False.elim (link_again $h:ident)
  | exact option_text $h:ident (fun _ => rfl)
  | exact value_text $h:ident (fun _ _ => rfl)
  | exact value_text $h:ident (fun _ _ => Eq.symm (by assumption))
  | exact typed_text $h:ident rfl)

set_option maxHeartbeats 1000000 in
/-- Keywords and strings are stored as they were read, or come from a paint. -/
theorem parseValue_text {L : Lib} {a : AttributeId} {e : ElementId} {raw : Str} {v : AttributeValue} (h : parseValue L a e raw = .value v) :
    SameText (if a ≠ .Unicode then trimStr raw else raw) v ∨
      ((a = .Fill ∧ isAnimation e = false ∨ a = .Stroke) ∧ (v = .none ∨ v = .inherit ∨ v = .currentColor ∨ ∃ c, v = .color c)) := by
  unfold parseValue at h
  extract_lets value string at h
  have hs : string = .value (.string value) := rfl
  have hv : (if a ≠ .Unicode then trimStr raw else raw) = value := rfl
  rw [hv]
  clear_value string value
  subst hs
  clear hv
  replace h := ite_cases h; rcases h with ⟨hm, h⟩ | ⟨-, h⟩
  · left; split at h <;> same_text h
  replace h := ite_cases h; rcases h with ⟨hm, h⟩ | ⟨-, h⟩
  · left; split at h <;> same_text h
  replace h := ite_cases h; rcases h with ⟨hm, h⟩ | ⟨-, h⟩
  · left; same_text h
  replace h := ite_cases h; rcases h with ⟨hm, h⟩ | ⟨-, h⟩
  · left; split at h; (split at h <;> same_text h); same_text h
  replace h := ite_cases h; rcases h with ⟨hm, h⟩ | ⟨-, h⟩
  · left; split at h <;> same_text h
  replace h := ite_cases h; rcases h with ⟨hm, h⟩ | ⟨-, h⟩
  · left; split at h <;> same_text h
  replace h := ite_cases h; rcases h with ⟨hm, h⟩ | ⟨-, h⟩
  · left; split at h <;> same_text h
  replace h := ite_cases h; rcases h with ⟨hm, h⟩ | ⟨-, h⟩
  · left; same_text h
  replace h := ite_cases h; rcases h with ⟨hm, h⟩ | ⟨-, h⟩
  · left; split at h; same_text h; split at h <;> same_text h
  replace h := ite_cases h; rcases h with ⟨hm, h⟩ | ⟨-, h⟩
  · split at h; (left; same_text h); rename_i hn; exact .inr ⟨.inl ⟨hm, by simpa [isAnimation] using hn⟩, paintValue_value h⟩
  replace h := ite_cases h; rcases h with ⟨hm, h⟩ | ⟨-, h⟩
  · exact .inr ⟨.inr hm, paintValue_value h⟩
  replace h := ite_cases h; rcases h with ⟨hm, h⟩ | ⟨-, h⟩
  · left; split at h; same_text h; split at h; same_text h; split at h <;> same_text h
  replace h := ite_cases h; rcases h with ⟨hm, h⟩ | ⟨-, h⟩
  · left; split at h <;> same_text h
  replace h := ite_cases h; rcases h with ⟨hm, h⟩ | ⟨-, h⟩
  · left; split at h; same_text h; split at h <;> same_text h
  replace h := ite_cases h; rcases h with ⟨hm, h⟩ | ⟨-, h⟩
  · left; same_text h
  replace h := ite_cases h; rcases h with ⟨hm, h⟩ | ⟨-, h⟩
  · left; same_text h
  replace h := ite_cases h; rcases h with ⟨hm, h⟩ | ⟨-, h⟩
  · left; same_text h
  replace h := ite_cases h; rcases h with ⟨hm, h⟩ | ⟨-, h⟩
  · left; split at h; (split at h <;> same_text h); same_text h
  replace h := ite_cases h; rcases h with ⟨hm, h⟩ | ⟨-, h⟩
  · left; split at h; same_text h; split at h <;> same_text h
  replace h := ite_cases h; rcases h with ⟨hm, h⟩ | ⟨-, h⟩
  · left; split at h; same_text h; split at h <;> same_text h
  replace h := ite_cases h; rcases h with ⟨hm, h⟩ | ⟨-, h⟩
  · left; split at h; same_text h; split at h <;> same_text h
  replace h := ite_cases h; rcases h with ⟨hm, h⟩ | ⟨-, h⟩
  · left; split at h <;> same_text h
  replace h := ite_cases h; rcases h with ⟨hm, h⟩ | ⟨-, h⟩
  · left; split at h; same_text h; split at h <;> same_text h
  replace h := ite_cases h; rcases h with ⟨hm, h⟩ | ⟨-, h⟩
  · left; split at h; same_text h; split at h <;> same_text h
  replace h := ite_cases h; rcases h with ⟨hm, h⟩ | ⟨-, h⟩
  · left; split at h <;> same_text h
  replace h := ite_cases h; rcases h with ⟨hm, h⟩ | ⟨-, h⟩
  · left; split at h <;> same_text h
  replace h := ite_cases h; rcases h with ⟨hm, h⟩ | ⟨-, h⟩
  · left; split at h; same_text h; split at h <;> same_text h
  replace h := ite_cases h; rcases h with ⟨hm, h⟩ | ⟨-, h⟩
  · left; same_text h
  replace h := ite_cases h; rcases h with ⟨hm, h⟩ | ⟨-, h⟩
  · left; same_text h
  left; same_text h

/-! ### `unicode` -/

theorem charOf_toNat {c : Char} (h : xmlChar c = true) : charOf c.toNat = some c := by
  unfold charOf
  rw [Char.ofNat_toNat, if_pos ⟨c.valid, h⟩]

theorem read_escaped {q : Char} (hq : q ≠ '&') : ∀ (t : Str) (k : Nat), t.length ≤ k → (∀ c ∈ t, xmlChar c = true) →
    readAttrAux q k (t.flatMap fun c => st!"&#x" ++ hexStr c.toNat ++ [';']) = some t
  | [], k, _, _ => by cases k <;> rfl
  | c :: t, 0, hk, _ => by simp at hk
  | c :: t, k + 1, hk, hc => by
    have e : (List.flatMap (fun c => st!"&#x" ++ hexStr c.toNat ++ [';']) (c :: t)) =
        '&' :: '#' :: 'x' :: (hexStr c.toNat ++ ';' :: List.flatMap (fun c => st!"&#x" ++ hexStr c.toNat ++ [';']) t) := by simp
    have h1 : ('&' = q ∨ '&' = '<' ∨ (!xmlChar '&') = true) ↔ False := by
      simp only [Ne.symm hq, false_or, iff_false]
      decide
    rw [e, readAttrAux]
    simp only [h1, if_false, if_true, readRef, readHex_hexStr (char_lt c), Option.bind_some, charOf_toNat (hc c (by simp)), Option.map_some,
      read_escaped hq t k (by simpa using hk) fun d hd => hc d (by simp [hd])]

theorem escaped_length (t : Str) : t.length ≤ (t.flatMap fun c => st!"&#x" ++ hexStr c.toNat ++ [';']).length := by
  induction t with
  | nil => simp
  | cons c t ih => simp only [List.flatMap_cons, List.length_append, List.length_cons, List.length_nil]; omega

theorem readAttr_escaped {q : Char} (hq : q ≠ '&') {t : Str} (h1 : ¬ st!"&#" <+: t) (h2 : ∀ c ∈ t, xmlChar c = true) :
    readAttr q (writeEscaped t) = some t := by
  have : st!"&#".isPrefixOf t = false := by
    rw [Bool.eq_false_iff]
    intro hh
    exact h1 (List.isPrefixOf_iff_prefix.1 hh)
  unfold writeEscaped readAttr
  rw [this]
  exact read_escaped hq t _ (escaped_length t) h2

/-! ### References -/

theorem written_eq {s : St} {W : ValueWriter} {i : AttributeId} (hi : i ≠ .Unicode) (v : AttributeValue) : s.written W i v = some (s.writeValue W v) := by
  unfold St.written
  split
  · exact absurd rfl hi
  · exact absurd rfl hi
  · rfl

theorem parseValue_paint {L : Lib} {a : AttributeId} {e : ElementId} (ha : a = .Fill ∧ isAnimation e = false ∨ a = .Stroke) {w : Str}
    (hw : trimStr w = w) : parseValue L a e w = paintValue L w := by
  rcases ha with ⟨rfl, he⟩ | rfl
  · have : ¬ e ∈ ([.Set, .Animate, .AnimateColor, .AnimateMotion, .AnimateTransform] : List ElementId) := by simpa [isAnimation] using he
    simp [parseValue, hw] at this ⊢
    simp [this]
  · simp [parseValue, hw]

theorem parseValue_href {L : Lib} {e : ElementId} {w iri : Str} (hw : trimStr w = w) (h : L.iri w = some iri) :
    parseValue L .Href e w = .link iri none := by
  simp [parseValue, hw, h]

theorem parseValue_func {L : Lib} {a : AttributeId} (ha : a ∈ funcAttrs) {e : ElementId} {w iri : Str} (hw : trimStr w = w)
    (hk : w ∉ keywords) (h : L.funcIri w = some iri) : parseValue L a e w = .link iri none := by
  simp only [keywords, List.mem_cons, List.not_mem_nil, or_false, not_or] at hk
  have hu : a ≠ .Unicode := by rintro rfl; simp [funcAttrs] at ha
  fin_cases ha <;> simp [parseValue, hw, hk, h]

theorem url_keyword (iri x : Str) : st!"url(#" ++ iri ++ x ∉ keywords := by
  simp [keywords]

theorem valueOf_of {L : Lib} {e : ElementId} {i : AttributeId} {y : Str} {v : AttributeValue} (h : parseValue L i e y = .value v)
    (hn : v ≠ .numberList [] ∧ v ≠ .lengthList [] ∧ v ≠ .path []) : valueOf L e (i, y) = some v := by
  unfold valueOf
  rw [h]
  split <;> simp_all

/-! ## C65 -/

/-- C65: in a parsed document every attribute is parsed back from what is written for it, if `svgtypes` reads the text of the value as
the value: plain values are equal, also those that are left of references that lead nowhere, and references have the same id and
fallback. -/
theorem C65_comes_back {L : Lib} {debug : Bool} {x : Xml} {t : St} (e : parseSvg L debug x = .ok t) {W : ValueWriter} {q : Char}
    (hq : q ≠ '&') (hL : ReferencesReadBack L W) {F : Forest} (hF : Describes t F) {T : Trees}
    (hT : T.Of F (F.kids t.rootId)) {n : NodeId} (hn : n ∈ T.pre) {a : Attribute} (ha : a ∈ t.attributes n) {i : AttributeId}
    (hi : a.name = .id i) {eid : ElementId} (he : t.tagName n = .id eid) (f : Faithful L t W q i a.value) :
    ∃ w y, t.written W i a.value = some w ∧ readAttr q w = some y ∧
      (a.value.plain = true → valueOf L eid (i, y) = some a.value ∨ ReadsMissing L t T i eid y a.value) ∧
      (∀ m, a.value.refersTo m = true → ∃ fb, parseValue L i eid y = .link (t.idOf m) fb ∧ a.value = foundValue i m fb) := by
  have hreach : Reachable t := (C44_reachable e).1.reachable
  have hr : t.live t.rootId = true := by obtain ⟨_, hti⟩ := hreach.inv.tree; exact hti.root
  have hlive : ∀ c ∈ T.pre, t.live c = true := pre_live hF hT fun c hc => (hF.wf.kids _ hr c hc).1
  have hin : ∀ n ∈ T.pre, t.InTree n := fun n hn => ⟨hlive n hn, (mem_pre_kids hF hr hT (hlive n hn)).1 hn⟩
  obtain ⟨p, _, ht, h⟩ := final_attr e (hin n hn) ha
  rw [he] at ht
  obtain rfl := QName.id.inj ht
  rcases h with ⟨g, _, v, hv, rfl⟩ | ⟨g, _, h1, iri, fb, h2, h3⟩
  · -- a value
    obtain rfl := QName.id.inj hi
    have hnl : ∀ m, v.refersTo m = true → False := by
      intro m hm
      have := refers_not_plain hm
      rw [plain_iff.2 (valueOf_plain hv)] at this
      simp at this
    obtain ⟨hp, hne⟩ := valueOf_parse hv
    by_cases hu : g.1 = .Unicode
    · have hs : v = .string g.2 := by
        rw [hu] at hp
        have : parseValue L .Unicode p.2.1 g.2 = .value (.string g.2) := by simp [parseValue]
        rw [this] at hp
        exact (Parsed.value.inj hp).symm
      subst hs
      obtain ⟨c1, c2⟩ := f.unicode hu _ rfl
      refine ⟨writeEscaped g.2, g.2, by rw [hu]; rfl, readAttr_escaped hq c1 c2, fun _ => .inl hv, fun m hm => (hnl m hm).elim⟩
    · obtain ⟨f1, f2⟩ := f.text hu
      refine ⟨_, _, written_eq hu v, f1, fun _ => .inl (valueOf_of ?_ hne), fun m hm => (hnl m hm).elim⟩
      cases htv : v.isTyped with
      | true =>
        obtain ⟨f3, f4⟩ := f.typed htv
        exact parseValue_again hp f2 f4 f3
      | false =>
        rcases parseValue_text hp with h | ⟨h, hc⟩
        · have h := h htv t W
          rw [if_pos hu] at h
          rw [h, C60_trim L hu _ (trimStr_trimStr g.2)]
          exact hp
        · rw [parseValue_paint h f2, paintValue]
          rcases hc with rfl | rfl | rfl | ⟨c, rfl⟩
          · simp only [St.writeValue]; rw [hL.none]
          · simp only [St.writeValue]; rw [hL.inherit]
          · simp only [St.writeValue]; rw [hL.currentColor]
          · simp [AttributeValue.isTyped] at htv
  · -- a reference
    rw [hi] at h1
    obtain rfl := QName.id.inj h1
    have hu : g.1 ≠ .Unicode := by
      intro hu
      rcases parseValue_link h2 with ⟨h, _⟩ | ⟨⟨h, _⟩ | h, _⟩ | ⟨h, _⟩
      · rw [hu] at h; cases h
      · rw [hu] at h; cases h
      · rw [hu] at h; cases h
      · rw [hu] at h; simp [funcAttrs] at h
    obtain ⟨f1, f2⟩ := f.text hu
    refine ⟨_, _, written_eq hu _, f1, ?_, ?_⟩
    · intro hpl
      rcases h3 with ⟨h3, h4, h5⟩ | ⟨m, _, _, h3⟩
      · have hmiss : parseValue L g.1 p.2.1 (t.writeValue W a.value) = .link iri fb →
            ReadsMissing L t T g.1 p.2.1 (t.writeValue W a.value) a.value := fun h =>
          ⟨iri, fb, h, h4, fun j hj _ => h5 j (hin j hj), h3⟩
        rcases parseValue_link h2 with ⟨k1, rfl, k2⟩ | ⟨k1, k2⟩ | ⟨k1, rfl, k2⟩
        · right
          apply hmiss
          rw [k1] at h3 ⊢
          rw [h3] at f2 ⊢
          exact parseValue_href f2 (hL.iri _ _ k2)
        · have hval : parseValue L g.1 p.2.1 (t.writeValue W a.value) = .value a.value →
              valueOf L p.2.1 (g.1, t.writeValue W a.value) = some a.value := fun h =>
            valueOf_of h (by rw [h3]; exact missing_notList _ _ _)
          rw [parseValue_paint k1 f2, paintValue] at hmiss hval
          rcases fb with _ | (_ | _ | c)
          · rcases k1 with ⟨k1, _⟩ | k1
            · left; apply hval
              have : a.value = .none := by rw [h3, k1]; rfl
              rw [this]
              simp only [St.writeValue]; rw [hL.none]
            · right; apply hmiss
              have h6 : a.value = .string (st!"url(#" ++ iri ++ [')']) := by rw [h3, k1]; rfl
              have h7 := hL.paint _ _ _ k2
              simp only [paintText, List.append_nil] at h7
              rw [h6]
              simp only [St.writeValue]; rw [h7]
          · left; apply hval
            have : a.value = .none := by rw [h3]; rfl
            rw [this]
            simp only [St.writeValue]; rw [hL.none]
          · left; apply hval
            have : a.value = .currentColor := by rw [h3]; rfl
            rw [this]
            simp only [St.writeValue]; rw [hL.currentColor]
          · left; apply hval
            have : a.value = .color c := by rw [h3]; rfl
            have h6 := (f.typed (by rw [this]; rfl)).1
            rw [this] at h6 ⊢
            rw [h6.2]
        · right
          apply hmiss
          have h6 : a.value = .string (st!"url(#" ++ iri ++ [')']) := by
            rw [h3]; exact missingValue_other (by rintro hc; rw [hc] at k1; simp [funcAttrs] at k1) (by rintro hc; rw [hc] at k1; simp [funcAttrs] at k1) _
          rw [h6] at f2 ⊢
          exact parseValue_func k1 f2 (url_keyword _ _) (hL.funcIri _ _ k2)
      · exfalso
        have := refers_not_plain (found_refers g.1 m fb)
        rw [← h3, hpl] at this
        simp at this
    · intro m hm
      rcases h3 with ⟨h3, _, _⟩ | ⟨m', _, h4, h3⟩
      · exfalso
        have := refers_not_plain hm
        rw [h3, missing_plain] at this
        simp at this
      · obtain rfl : m = m' := refers_unique hm (by rw [h3]; exact found_refers _ _ _)
        refine ⟨fb, ?_, h3⟩
        rw [h4]
        rcases parseValue_link h2 with ⟨k1, rfl, k2⟩ | ⟨k1, k2⟩ | ⟨k1, rfl, k2⟩
        · rw [k1] at h3 ⊢
          rw [h3] at f2 ⊢
          simp only [foundValue, St.writeValue, h4] at f2 ⊢
          exact parseValue_href f2 (hL.iri _ _ k2)
        · have h6 : a.value = .paint m fb := by
            rw [h3]
            rcases k1 with ⟨k1, _⟩ | k1 <;> rw [k1] <;> rfl
          have h7 := hL.paint _ _ _ k2
          rw [parseValue_paint k1 f2, paintValue, h6]
          have h8 : t.writeValue W (.paint m fb) = paintText W iri fb := by simp only [St.writeValue, paintText, h4]; rcases fb with _ | _ | _ | _ <;> rfl
          rw [h8, h7]
        · have h6 : a.value = .funcLink m := by
            rw [h3]
            exact foundValue_other (by rintro hc; rw [hc] at k1; simp [funcAttrs] at k1) (by rintro hc; rw [hc] at k1; simp [funcAttrs] at k1)
              (by rintro hc; rw [hc] at k1; simp [funcAttrs] at k1) _ _
          rw [h6] at f2 ⊢
          simp only [St.writeValue, h4] at f2 ⊢
          exact parseValue_func k1 f2 (url_keyword _ _) (hL.funcIri _ _ k2)

/-- What is assumed about a parsed document in `C62_faithful_partial`: no markup in ids, texts and comments, no text after a text,
texts as processing leaves them, no attribute `xmlns`, and every single value is read by `svgtypes` as it was written. -/
structure FaithfulDoc (L : Lib) (s : St) (W : ValueWriter) (q : Char) (T : Trees) : Prop where
  ids : ∀ n ∈ T.pre, s.nodeType n = .element → plainValue (s.idOf n) = true
  texts : ∀ n ∈ T.pre, s.nodeType n = .text → plainContent (s.text n) = true
  comments : ∀ n ∈ T.pre, s.nodeType n = .comment → plainComment (s.text n) = true
  sep : T.SepText s
  normal : T.NormalText s
  values : ∀ n ∈ T.pre, ∀ a ∈ s.attributes n, ∀ i, a.name = .id i → i ≠ .Xmlns ∧ Faithful L s W q i a.value

/-- C62 for parsed documents, with assumptions about single values only: the document comes back from its text. -/
theorem C62_faithful_partial {L : Lib} {debug : Bool} {x : Xml} {t : St} (e : parseSvg L debug x = .ok t) (hx : x.topElements = 1)
    (hx2 : x.topText = false) {F : Forest} (hF : Describes t F) {T : Trees} (hT : T.Of F (F.kids t.rootId)) (W : ValueWriter) {q : Char}
    (hq : q ≠ '&') (hL : ReferencesReadBack L W) (hs : L.sheet [] = []) (h : FaithfulDoc L t W q T) :
    ∃ evs y, t.writeDom W = .ok evs ∧ readMarkup q evs = some y ∧ ∀ y' : Xml, y'.unindent false = y →
      ∃ u G U, parseSvg L debug y' = .ok u ∧ Describes u G ∧ U.Of G (G.kids u.rootId) ∧ SameDoc t T u U := by
  refine C62_parsed_text_partial e hx hx2 hF hT W q ⟨h.ids, h.texts, h.comments, h.sep, ?_, hs⟩ h.normal
  intro n hn a ha i eid hi he
  obtain ⟨h1, h2⟩ := h.values n hn a ha i hi
  exact ⟨h1, C65_comes_back e hq hL hF hT hn ha hi he h2⟩

/-! ## Examples -/

instance (L : Lib) (w : Str) (v : AttributeValue) : Decidable (ReadAs L w v) := by
  cases v <;> simp only [ReadAs] <;> infer_instance

def faithfulB (L : Lib) (s : St) (W : ValueWriter) (q : Char) (i : AttributeId) (v : AttributeValue) : Bool :=
  (decide (i = .Unicode) || decide (readAttr q (s.writeValue W v) = some (s.writeValue W v) ∧ trimStr (s.writeValue W v) = s.writeValue W v)) &&
  (!v.isTyped || decide (ReadAs L (s.writeValue W v) v ∧ s.writeValue W v ∉ keywords)) &&
  match v with
  | .string t => !(st!"&#".isPrefixOf t) && t.all xmlChar
  | _ => true

theorem faithful_of_check {L : Lib} {s : St} {W : ValueWriter} {q : Char} {i : AttributeId} {v : AttributeValue} (h : faithfulB L s W q i v = true) :
    Faithful L s W q i v := by
  simp only [faithfulB, Bool.and_eq_true, Bool.or_eq_true, decide_eq_true_eq, Bool.not_eq_true'] at h
  obtain ⟨⟨h1, h2⟩, h3⟩ := h
  refine ⟨fun hi => h1.resolve_left hi, fun ht => h2.resolve_left (by rw [ht]; simp), ?_⟩
  rintro _ t rfl
  simp only [Bool.and_eq_true, Bool.not_eq_true', List.all_eq_true] at h3
  exact ⟨fun hp => by rw [List.isPrefixOf_iff_prefix.2 hp] at h3; simp at h3, h3.2⟩

theorem between_again {iri : Str} : between st!"url(#" st!")" (st!"url(#" ++ iri ++ [')']) = some iri := by
  unfold between
  have h1 : st!"url(#".isPrefixOf (st!"url(#" ++ iri ++ [')']) = true :=
    List.isPrefixOf_iff_prefix.2 ⟨iri ++ [')'], by simp⟩
  have h2 : st!")".isSuffixOf (st!"url(#" ++ iri ++ [')']) = true :=
    List.isSuffixOf_iff_suffix.2 ⟨st!"url(#" ++ iri, by simp⟩
  rw [h1, h2]
  simp

/-- The sample library reads references as they are written. -/
theorem sample_references : ReferencesReadBack sampleLib sampleWriter := by
  refine ⟨fun _ _ _ => rfl, fun _ _ _ => between_again, ?_, rfl, rfl, rfl⟩
  intro x iri fb h
  have hfb : fb = none := by
    simp only [sampleLib] at h
    repeat' split at h
    all_goals simp_all
  subst hfb
  have h1 : paintText sampleWriter iri none = st!"url(#" ++ iri ++ [')'] := by simp [paintText]
  rw [h1]
  have h2 := between_again (iri := iri)
  simp only [sampleLib, h2]
  simp

/-- Lengths, numbers, colours, keywords and strings, a reference, two references that lead nowhere, a quote, a text. -/
def faithXml : Xml :=
  xe st!"svg" [xa st!"width" st!" 5 "]
    (xe st!"rect" [xa st!"id" st!"r", xa st!"opacity" st!"0.5", xa st!"fill" st!"red", xa st!"stroke" st!"url(#gone)"] .nil
    (xe st!"use" [xa st!"href" st!"#gone", xa st!"fill" st!"url(#r)", xa st!"clip-path" st!"none", xa st!"stroke" st!"inherit",
      xa st!"font-family" st!"a b", xa st!"unicode" st!"\""] .nil
    (xe st!"text" [] (.text st!"a b" .nil) .nil))) .nil

def faithTrees : Trees := .cons 1 (.cons 2 .nil (.cons 3 .nil (.cons 4 (.cons 5 .nil .nil) .nil))) .nil

/-- Non-vacuity: the document meets the assumptions. -/
theorem faith_sample : ∃ t F, parseSvg sampleLib true faithXml = .ok t ∧ faithXml.topElements = 1 ∧ faithXml.topText = false ∧ Describes t F ∧
    faithTrees.Of F (F.kids t.rootId) ∧ ReferencesReadBack sampleLib sampleWriter ∧ sampleLib.sheet [] = [] ∧
    FaithfulDoc sampleLib t sampleWriter '"' faithTrees ∧
    (t.attributes 2).map (·.value) = [.number (.fin (1/2)), .color ⟨255, 0, 0⟩, .string st!"url(#gone)"] ∧
    (t.attributes 3).map (·.value) = [.none, .inherit, .string st!"a b", .string ['"'], .string st!"#gone", .paint 2 none] := by
  obtain ⟨t, e, hp⟩ := exists_of_parsed (x := faithXml) (p := fun t => comesBackB t 6 faithTrees && decide (faithTrees.NormalText t) &&
    faithTrees.pre.all (fun n => (t.attributes n).all fun a =>
      match a.name with | .id i => decide (i ≠ .Xmlns) && faithfulB sampleLib t sampleWriter '"' i a.value | .name _ => true) &&
    decide ((t.attributes 2).map (·.value) = [.number (.fin (1/2)), .color ⟨255, 0, 0⟩, .string st!"url(#gone)"]) &&
    decide ((t.attributes 3).map (·.value) = [.none, .inherit, .string st!"a b", .string ['"'], .string st!"#gone", .paint 2 none]))
    (by decide +kernel)
  simp only [Bool.and_eq_true, decide_eq_true_eq, List.all_eq_true] at hp
  obtain ⟨⟨⟨⟨e1, e2⟩, e3⟩, e4⟩, e5⟩ := hp
  obtain ⟨F, _, h2, h3, h4⟩ := comesBack_of_check (C44_reachable e).1.reachable e1
  refine ⟨t, F, e, rfl, rfl, h2, h3, sample_references, rfl, ⟨h4.can.ids, h4.can.texts, h4.can.comments, h4.can.sep, e2, ?_⟩, e4, e5⟩
  intro n hn a ha i hi
  have h5 := e3 n hn a ha
  rw [hi] at h5
  simp only [Bool.and_eq_true, decide_eq_true_eq] at h5
  exact ⟨h5.1, faithful_of_check h5.2⟩

end Svgdom
