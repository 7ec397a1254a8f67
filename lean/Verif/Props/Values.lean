import Verif.Props.Parse
import Verif.Props.Tables
import Verif.Spec.Values
import Mathlib.Tactic.FinCases
import Mathlib.Tactic.ClearExcept
import Mathlib.Data.List.DropRight

/-!
# Values of parsed attributes: C57 - C60
-/

set_option autoImplicit false

namespace Svgdom

/-! ## C57 -/

theorem ofOption_value {α : Type} {f : α → AttributeValue} {o : Option α} {v : AttributeValue} (h : Parsed.ofOption f o = .value v) :
    ∃ x, o = some x ∧ v = f x := by
  cases o with
  | none => simp [Parsed.ofOption] at h
  | some x => simp [Parsed.ofOption] at h; exact ⟨x, rfl, h.symm⟩

theorem ofOption_link {α : Type} {f : α → AttributeValue} {o : Option α} {iri : Str} {fb : Option PaintFallback}
    (h : Parsed.ofOption f o = .link iri fb) : False := by
  cases o <;> simp [Parsed.ofOption] at h

theorem paintValue_value {L : Lib} {s : Str} {v : AttributeValue} (h : paintValue L s = .value v) :
    v = .none ∨ v = .inherit ∨ v = .currentColor ∨ ∃ c, v = .color c := by
  unfold paintValue at h
  split at h <;> simp only [Parsed.value.injEq, reduceCtorEq] at h
  · exact .inl h.symm
  · exact .inr (.inl h.symm)
  · exact .inr (.inr (.inl h.symm))
  · next c _ => exact .inr (.inr (.inr ⟨c, h.symm⟩))

/-- Decide for each member of the list. -/
macro "ok_mem" h:ident : tactic => `(tactic| (fin_cases $h:ident <;> first
  | decide
  | (simp_all [Kind.OkFor, AttributeValue.kind, coordAttrs, lengthAttrs, funcAttrs, noInherit, listCoords, isAnimation]; done)
  | (simp_all [Kind.OkFor, AttributeValue.kind, coordAttrs, lengthAttrs, funcAttrs, noInherit, listCoords, isAnimation]; decide)))

/-- A value, or the outcome of a value parser. -/
macro "ok_val" h:ident m:ident : tactic => `(tactic| first
  | (obtain ⟨_, _, rfl⟩ := ofOption_value $h:ident; ok_mem $m:ident)
  | (cases $h:ident; ok_mem $m:ident))

theorem ite_cases {α : Type} {c : Prop} [Decidable c] {x y z : α} (h : (if c then x else y) = z) : (c ∧ x = z) ∨ (¬ c ∧ y = z) := by
  split at h
  · next hc => exact .inl ⟨hc, h⟩
  · next hc => exact .inr ⟨hc, h⟩

theorem mem_single {α : Type} {a b : α} (h : a = b) : a ∈ [b] := by simp [h]

set_option maxHeartbeats 1000000 in
theorem parseValue_kind {L : Lib} {a : AttributeId} {e : ElementId} {raw : Str} {v : AttributeValue} (h : parseValue L a e raw = .value v) :
    v.kind.OkFor e a := by
  unfold parseValue at h
  extract_lets value string at h
  have hs : string = .value (.string value) := rfl
  clear_value string value
  subst hs
  replace h := ite_cases h; rcases h with ⟨hm, h⟩ | ⟨n1, h⟩
  · clear * - h hm; replace hm := mem_single hm; split at h <;> first | (simp at h; done) | ok_val h hm
  replace h := ite_cases h; rcases h with ⟨hm, h⟩ | ⟨n2, h⟩
  · clear * - h hm; split at h <;> ok_val h hm
  replace h := ite_cases h; rcases h with ⟨hm, h⟩ | ⟨n3, h⟩
  · clear * - h hm; ok_val h hm
  replace h := ite_cases h; rcases h with ⟨hm, h⟩ | ⟨n4, h⟩
  · clear * - h hm; replace hm := mem_single hm
    split at h
    · split at h <;> first | (simp at h; done) | ok_val h hm
    · simp at h
  replace h := ite_cases h; rcases h with ⟨hm, h⟩ | ⟨n5, h⟩
  · clear * - h hm; split at h <;> ok_val h hm
  replace h := ite_cases h; rcases h with ⟨hm, h⟩ | ⟨n6, h⟩
  · clear * - h hm; replace hm := mem_single hm; split at h <;> ok_val h hm
  replace h := ite_cases h; rcases h with ⟨hm, h⟩ | ⟨n7, h⟩
  · clear * - h hm; split at h <;> ok_val h hm
  replace h := ite_cases h; rcases h with ⟨hm, h⟩ | ⟨n8, h⟩
  · clear * - h hm; ok_val h hm
  replace h := ite_cases h; rcases h with ⟨hm, h⟩ | ⟨n9, h⟩
  · clear * - h hm; replace hm := mem_single hm; split at h; ok_val h hm; split at h <;> ok_val h hm
  replace h := ite_cases h; rcases h with ⟨hm, h⟩ | ⟨n10, h⟩
  · clear * - h hm; replace hm := mem_single hm
    split at h
    · ok_val h hm
    · rcases paintValue_value h with rfl | rfl | rfl | ⟨c, rfl⟩ <;> ok_mem hm
  replace h := ite_cases h; rcases h with ⟨hm, h⟩ | ⟨n11, h⟩
  · clear * - h hm; replace hm := mem_single hm
    rcases paintValue_value h with rfl | rfl | rfl | ⟨c, rfl⟩ <;> ok_mem hm
  replace h := ite_cases h; rcases h with ⟨hm, h⟩ | ⟨n12, h⟩
  · clear * - h hm; split at h; ok_val h hm
    split at h; ok_val h hm
    split at h <;> simp at h
  replace h := ite_cases h; rcases h with ⟨hm, h⟩ | ⟨n13, h⟩
  · clear * - h hm; replace hm := mem_single hm; split at h <;> ok_val h hm
  replace h := ite_cases h; rcases h with ⟨hm, h⟩ | ⟨n14, h⟩
  · clear * - h hm; split at h; ok_val h hm; split at h <;> ok_val h hm
  replace h := ite_cases h; rcases h with ⟨hm, h⟩ | ⟨n15, h⟩
  · clear * - h hm; ok_val h hm
  replace h := ite_cases h; rcases h with ⟨hm, h⟩ | ⟨n16, h⟩
  · clear * - h hm; replace hm := mem_single hm; ok_val h hm
  replace h := ite_cases h; rcases h with ⟨hm, h⟩ | ⟨n17, h⟩
  · clear * - h hm; replace hm := mem_single hm; ok_val h hm
  replace h := ite_cases h; rcases h with ⟨hm, h⟩ | ⟨n18, h⟩
  · clear * - h hm; split at h
    · split at h <;> first | (simp at h; done) | ok_val h hm
    · simp at h
  replace h := ite_cases h; rcases h with ⟨hm, h⟩ | ⟨n19, h⟩
  · clear * - h hm; replace hm := mem_single hm
    split at h
    · ok_val h hm
    · split at h <;> ok_val h hm
  replace h := ite_cases h; rcases h with ⟨hm, h⟩ | ⟨n20, h⟩
  · clear * - h hm; replace hm := mem_single hm; split at h; ok_val h hm; split at h <;> ok_val h hm
  replace h := ite_cases h; rcases h with ⟨hm, h⟩ | ⟨n21, h⟩
  · clear * - h hm; split at h; ok_val h hm; split at h <;> ok_val h hm
  replace h := ite_cases h; rcases h with ⟨hm, h⟩ | ⟨n22, h⟩
  · clear * - h hm; split at h <;> ok_val h hm
  replace h := ite_cases h; rcases h with ⟨hm, h⟩ | ⟨n23, h⟩
  · clear * - h hm; split at h; ok_val h hm; split at h <;> ok_val h hm
  replace h := ite_cases h; rcases h with ⟨hm, h⟩ | ⟨n24, h⟩
  · clear * - h hm; replace hm := mem_single hm; split at h; ok_val h hm; split at h <;> ok_val h hm
  replace h := ite_cases h; rcases h with ⟨hm, h⟩ | ⟨n25, h⟩
  · clear * - h hm; replace hm := mem_single hm; split at h <;> ok_val h hm
  replace h := ite_cases h; rcases h with ⟨hm, h⟩ | ⟨n26, h⟩
  · clear * - h hm; replace hm := mem_single hm; split at h <;> ok_val h hm
  replace h := ite_cases h; rcases h with ⟨hm, h⟩ | ⟨n27, h⟩
  · clear * - h hm; replace hm := mem_single hm; split at h; ok_val h hm; split at h <;> ok_val h hm
  replace h := ite_cases h; rcases h with ⟨hm, h⟩ | ⟨n28, h⟩
  · clear * - h hm; replace hm := mem_single hm; ok_val h hm
  replace h := ite_cases h; rcases h with ⟨hm, h⟩ | ⟨n29, h⟩
  · clear * - h hm; replace hm := mem_single hm; ok_val h hm
  cases h
  simp_all [Kind.OkFor, AttributeValue.kind, coordAttrs, lengthAttrs]

/-- A value that is not a reference. -/
macro "no_link" h:ident : tactic => `(tactic| first
  | exact (ofOption_link $h:ident).elim
  | exact absurd $h:ident (by simp))

theorem paintValue_link {L : Lib} {s iri : Str} {fb : Option PaintFallback} (h : paintValue L s = .link iri fb) : L.paint s = some (.funcIRI iri fb) := by
  unfold paintValue at h
  split at h <;> simp only [reduceCtorEq, Parsed.link.injEq] at h
  next hp => rw [hp, h.1, h.2]

theorem parseValue_link {L : Lib} {a : AttributeId} {e : ElementId} {raw : Str} {iri : Str} {fb : Option PaintFallback}
    (h : parseValue L a e raw = .link iri fb) :
    (a = .Href ∧ fb = none ∧ L.iri (trimStr raw) = some iri) ∨
    ((a = .Fill ∧ isAnimation e = false ∨ a = .Stroke) ∧ L.paint (trimStr raw) = some (.funcIRI iri fb)) ∨
    (a ∈ funcAttrs ∧ fb = none ∧ L.funcIri (trimStr raw) = some iri) := by
  unfold parseValue at h
  extract_lets value string at h
  have hv : a ≠ .Unicode → value = trimStr raw := fun ha => by simp only [value, ne_eq, ha, not_false_eq_true, if_true]
  have hs : string = .value (.string value) := rfl
  clear_value string value
  subst hs
  replace h := ite_cases h; rcases h with ⟨hm, h⟩ | ⟨-, h⟩
  · left
    rw [hv (by rw [hm]; decide)] at h
    split at h
    · next hl => simp only [Parsed.link.injEq] at h; exact ⟨hm, h.2.symm, by rw [hl, h.1]⟩
    · simp at h
  replace h := ite_cases h; rcases h with ⟨-, h⟩ | ⟨-, h⟩
  · split at h <;> no_link h
  replace h := ite_cases h; rcases h with ⟨-, h⟩ | ⟨-, h⟩
  · no_link h
  replace h := ite_cases h; rcases h with ⟨-, h⟩ | ⟨-, h⟩
  · split at h
    · split at h <;> no_link h
    · no_link h
  replace h := ite_cases h; rcases h with ⟨-, h⟩ | ⟨-, h⟩
  · split at h <;> no_link h
  replace h := ite_cases h; rcases h with ⟨-, h⟩ | ⟨-, h⟩
  · split at h <;> no_link h
  replace h := ite_cases h; rcases h with ⟨-, h⟩ | ⟨-, h⟩
  · split at h <;> no_link h
  replace h := ite_cases h; rcases h with ⟨-, h⟩ | ⟨-, h⟩
  · no_link h
  replace h := ite_cases h; rcases h with ⟨-, h⟩ | ⟨-, h⟩
  · split at h; no_link h; split at h <;> no_link h
  replace h := ite_cases h; rcases h with ⟨hm, h⟩ | ⟨-, h⟩
  · split at h
    · no_link h
    · next hn =>
      rw [hv (by rw [hm]; decide)] at h
      exact .inr (.inl ⟨.inl ⟨hm, by simpa [isAnimation] using hn⟩, paintValue_link h⟩)
  replace h := ite_cases h; rcases h with ⟨hm, h⟩ | ⟨-, h⟩
  · rw [hv (by rw [hm]; decide)] at h
    exact .inr (.inl ⟨.inr hm, paintValue_link h⟩)
  replace h := ite_cases h; rcases h with ⟨hm, h⟩ | ⟨-, h⟩
  · have hu : a ≠ .Unicode := by rintro rfl; simp at hm
    rw [hv hu] at h
    split at h; no_link h
    split at h; no_link h
    split at h
    · next hl => simp only [Parsed.link.injEq] at h; exact .inr (.inr ⟨hm, h.2.symm, by rw [hl, h.1]⟩)
    · no_link h
  replace h := ite_cases h; rcases h with ⟨-, h⟩ | ⟨-, h⟩
  · split at h <;> no_link h
  replace h := ite_cases h; rcases h with ⟨-, h⟩ | ⟨-, h⟩
  · split at h; no_link h; split at h <;> no_link h
  replace h := ite_cases h; rcases h with ⟨-, h⟩ | ⟨-, h⟩
  · no_link h
  replace h := ite_cases h; rcases h with ⟨-, h⟩ | ⟨-, h⟩
  · no_link h
  replace h := ite_cases h; rcases h with ⟨-, h⟩ | ⟨-, h⟩
  · no_link h
  replace h := ite_cases h; rcases h with ⟨-, h⟩ | ⟨-, h⟩
  · split at h
    · split at h <;> no_link h
    · no_link h
  replace h := ite_cases h; rcases h with ⟨-, h⟩ | ⟨-, h⟩
  · split at h
    · no_link h
    · split at h <;> no_link h
  replace h := ite_cases h; rcases h with ⟨-, h⟩ | ⟨-, h⟩
  · split at h; no_link h; split at h <;> no_link h
  replace h := ite_cases h; rcases h with ⟨-, h⟩ | ⟨-, h⟩
  · split at h; no_link h; split at h <;> no_link h
  replace h := ite_cases h; rcases h with ⟨-, h⟩ | ⟨-, h⟩
  · split at h <;> no_link h
  replace h := ite_cases h; rcases h with ⟨-, h⟩ | ⟨-, h⟩
  · split at h; no_link h; split at h <;> no_link h
  replace h := ite_cases h; rcases h with ⟨-, h⟩ | ⟨-, h⟩
  · split at h; no_link h; split at h <;> no_link h
  replace h := ite_cases h; rcases h with ⟨-, h⟩ | ⟨-, h⟩
  · split at h <;> no_link h
  replace h := ite_cases h; rcases h with ⟨-, h⟩ | ⟨-, h⟩
  · split at h <;> no_link h
  replace h := ite_cases h; rcases h with ⟨-, h⟩ | ⟨-, h⟩
  · split at h; no_link h; split at h <;> no_link h
  replace h := ite_cases h; rcases h with ⟨-, h⟩ | ⟨-, h⟩
  · no_link h
  replace h := ite_cases h; rcases h with ⟨-, h⟩ | ⟨-, h⟩
  · no_link h
  no_link h

theorem valueOf_parse {L : Lib} {e : ElementId} {g : Assign} {v : AttributeValue} (h : valueOf L e g = some v) :
    parseValue L g.1 e g.2 = .value v ∧ v ≠ .numberList [] ∧ v ≠ .lengthList [] ∧ v ≠ .path [] := by
  unfold valueOf at h
  split at h <;> simp only [reduceCtorEq, Option.some.injEq] at h
  next w h1 h2 h3 hp => subst h; exact ⟨hp, h1, h2, h3⟩

theorem reference_kind {L : Lib} {a : AttributeId} {e : ElementId} {raw : Str} {iri : Str} {fb : Option PaintFallback}
    (h : parseValue L a e raw = .link iri fb) : (missingValue a iri fb).kind.OkFor e a ∧ ∀ n, (foundValue a n fb).kind.OkFor e a := by
  rcases parseValue_link h with ⟨rfl, rfl, _⟩ | ⟨⟨rfl, _⟩ | rfl, _⟩ | ⟨hm, rfl, _⟩
  · exact ⟨by simp [missingValue, AttributeValue.kind, Kind.OkFor, coordAttrs, lengthAttrs], fun n => rfl⟩
  · refine ⟨?_, fun n => .inl rfl⟩
    rcases fb with _ | (_ | _ | c) <;> simp [missingValue, AttributeValue.kind, Kind.OkFor]
  · refine ⟨?_, fun n => .inr rfl⟩
    rcases fb with _ | (_ | _ | c) <;> simp [missingValue, AttributeValue.kind, Kind.OkFor, coordAttrs, lengthAttrs]
  · constructor
    · fin_cases hm <;> simp [missingValue, AttributeValue.kind, Kind.OkFor, coordAttrs, lengthAttrs]
    · intro n
      fin_cases hm <;> simp [foundValue, AttributeValue.kind, Kind.OkFor, funcAttrs]

theorem missing_notList (a : AttributeId) (iri : Str) (fb : Option PaintFallback) :
    missingValue a iri fb ≠ .numberList [] ∧ missingValue a iri fb ≠ .lengthList [] ∧ missingValue a iri fb ≠ .path [] := by
  unfold missingValue
  split <;> simp

theorem found_notList (a : AttributeId) (n : NodeId) (fb : Option PaintFallback) :
    foundValue a n fb ≠ .numberList [] ∧ foundValue a n fb ≠ .lengthList [] ∧ foundValue a n fb ≠ .path [] := by
  unfold foundValue
  split <;> simp

/-- C57: in a parsed document the value of an SVG attribute has a type that belongs to the attribute; lists and paths are not
empty. -/
theorem C57_types {L : Lib} {debug : Bool} {x : Xml} {t : St} (e : parseSvg L debug x = .ok t) {j : NodeId} (hj : t.InTree j)
    {a : Attribute} (ha : a ∈ t.attributes j) : ∃ eid i, t.tagName j = .id eid ∧ a.name = .id i ∧ a.value.kind.OkFor eid i ∧
      a.value ≠ .numberList [] ∧ a.value ≠ .lengthList [] ∧ a.value ≠ .path [] := by
  obtain ⟨q, _, ht, h⟩ := final_attr e hj ha
  rcases h with ⟨g, _, v, hv, rfl⟩ | ⟨g, _, h1, iri, fb, h2, h3⟩
  · obtain ⟨k1, k2⟩ := valueOf_parse hv
    exact ⟨_, _, ht, rfl, parseValue_kind k1, k2⟩
  · refine ⟨_, _, ht, h1, ?_⟩
    rcases h3 with ⟨h3, _⟩ | ⟨n, _, _, h3⟩
    · rw [h3]; exact ⟨(reference_kind h2).1, missing_notList _ _ _⟩
    · rw [h3]; exact ⟨(reference_kind h2).2 n, found_notList _ _ _⟩

theorem parseValue_offset {L : Lib} {e : ElementId} {raw : Str} {v : AttributeValue} (h : parseValue L .Offset e raw = .value v) :
    ∃ l, v = .length l ∧ L.length (trimStr raw) = some l ∧ (l.unit = .none ∨ l.unit = .percent) := by
  have : parseValue L .Offset e raw = (match L.length (trimStr raw) with
      | some l => if l.unit = .none ∨ l.unit = .percent then .value (.length l) else .invalid
      | none => .invalid) := by
    simp only [parseValue]
    rfl
  rw [this] at h
  split at h
  · next l hl =>
    split at h
    · next hu => simp only [Parsed.value.injEq] at h; exact ⟨l, h.symm, hl, hu⟩
    · simp at h
  · simp at h

/-- C57: a parsed gradient stop `offset` is a number or a percentage. -/
theorem C57_offset {L : Lib} {debug : Bool} {x : Xml} {t : St} (e : parseSvg L debug x = .ok t) {j : NodeId} (hj : t.InTree j)
    {a : Attribute} (ha : a ∈ t.attributes j) (hn : a.name = .id .Offset) :
    ∃ l, a.value = .length l ∧ (l.unit = .none ∨ l.unit = .percent) := by
  obtain ⟨q, _, _, h⟩ := final_attr e hj ha
  rcases h with ⟨g, _, v, hv, rfl⟩ | ⟨g, _, h1, iri, fb, h2, _⟩
  · obtain ⟨k1, _⟩ := valueOf_parse hv
    rw [QName.id.inj hn] at k1
    obtain ⟨l, h1, _, h2⟩ := parseValue_offset k1
    exact ⟨l, h1, h2⟩
  · rw [hn] at h1
    rw [← QName.id.inj h1] at h2
    rcases parseValue_link h2 with ⟨h, _⟩ | ⟨⟨h, _⟩ | h, _⟩ | ⟨h, _⟩
    · cases h
    · cases h
    · cases h
    · simp [funcAttrs] at h

/-- The sample has a length, a number, a colour, a reference that became a link, one that became text. -/
example : ∃ t, parseSvg sampleLib true docXml = .ok t ∧ (t.attributes 2).map (·.value.kind) = [.length] ∧
    (t.attributes 6).map (·.value.kind) = [.number, .color, .none, .paint] ∧ (t.attributes 7).map (·.value.kind) = [.string] ∧
    (t.attributes 8).map (·.value.kind) = [.link] := by
  obtain ⟨t, e, hp⟩ := exists_of_parsed (x := docXml) (p := fun t => decide ((t.attributes 2).map (·.value.kind) = [.length]) &&
    decide ((t.attributes 6).map (·.value.kind) = [.number, .color, .none, .paint]) && decide ((t.attributes 7).map (·.value.kind) = [.string]) &&
    decide ((t.attributes 8).map (·.value.kind) = [.link])) (by decide +kernel)
  simp only [Bool.and_eq_true, decide_eq_true_eq] at hp
  exact ⟨t, e, hp.1.1.1, hp.1.1.2, hp.1.2, hp.2⟩

/-- An `offset` that is stored. -/
example : ∃ t, parseSvg sampleLib true (xe st!"svg" [] (xe st!"stop" [xa st!"offset" st!" 5 "] .nil .nil) .nil) = .ok t ∧
    t.attributes 2 = [⟨.id .Offset, .length ⟨.fin 5, .none⟩⟩] := by
  obtain ⟨t, e, hp⟩ := exists_of_parsed (x := xe st!"svg" [] (xe st!"stop" [xa st!"offset" st!" 5 "] .nil .nil) .nil)
    (p := fun t => decide (t.attributes 2 = [⟨.id .Offset, .length ⟨.fin 5, .none⟩⟩])) (by decide +kernel)
  exact ⟨t, e, by simpa using hp⟩

/-! ## C58 -/

/-- A text from which `defaultLib` makes the value. -/
def defaultText : AttributeValue → Str
  | .string s => s
  | .none => st!"none"
  | .color c => if c.red = 0 then st!"black" else st!"white"
  | .number _ => st!"1"
  | .length l => if l.num = .fin 0 then st!"0" else st!"1"
  | _ => []

/-- Value parsers that know the default values. -/
def defaultLib : Lib :=
  { sampleLib with
    length := fun s => if s = st!"0" then some ⟨.fin 0, .none⟩ else if s = st!"1" then some ⟨.fin 1, .none⟩ else none
    number := fun s => if s = st!"1" then some (.fin 1, true) else none
    paint := fun s => if s = st!"none" then some .none else if s = st!"black" then some (.color ⟨0, 0, 0⟩) else none
    color := fun s => if s = st!"black" then some ⟨0, 0, 0⟩ else if s = st!"white" then some ⟨255, 255, 255⟩ else none }

/-- Can the parser give the default value? -/
def defaultParses (a : AttributeId) : Bool :=
  match defaultValue a with
  | some v => decide (parseValue defaultLib a .Rect (defaultText v) = .value v)
  | none => true

/-- C58: except for `stroke-miterlimit` and `glyph-orientation-horizontal`, the default value of an attribute is one that the parser
can give. -/
theorem C58_default_partial {a : AttributeId} {v : AttributeValue} (hd : defaultValue a = some v) (h1 : a ≠ .StrokeMiterlimit)
    (h2 : a ≠ .GlyphOrientationHorizontal) : ∃ L e raw, parseValue L a e raw = .value v := by
  have := AttributeId.forall_of_all (p := fun a => defaultParses a || decide (a = .StrokeMiterlimit) || decide (a = .GlyphOrientationHorizontal))
    (by decide +kernel) a
  simp only [h1, h2, decide_false, Bool.or_false, defaultParses, hd, decide_eq_true_eq] at this
  exact ⟨_, _, _, this⟩

/-- C58 does not hold in general: these two default values have another type than every value given by the parser (a length instead of
a number, a text instead of an angle). -/
theorem C58_refuted : (∃ l, defaultValue .StrokeMiterlimit = some (.length l)) ∧ (∃ s, defaultValue .GlyphOrientationHorizontal = some (.string s)) ∧
    ∀ L e raw v, (parseValue L .StrokeMiterlimit e raw = .value v → v = .inherit ∨ ∃ n, v = .number n) ∧
      (parseValue L .GlyphOrientationHorizontal e raw = .value v → v = .inherit ∨ ∃ b, v = .angle b) := by
  refine ⟨⟨⟨.fin 4, .none⟩, by decide +kernel⟩, ⟨st!"0deg", by decide +kernel⟩, fun L e raw v => ⟨fun h => ?_, fun h => ?_⟩⟩
  · have := parseValue_kind h
    revert this
    cases v <;> simp [AttributeValue.kind, Kind.OkFor, coordAttrs, lengthAttrs, funcAttrs]
  · have := parseValue_kind h
    revert this
    cases v <;> simp [AttributeValue.kind, Kind.OkFor, coordAttrs, lengthAttrs, funcAttrs]

/-- There are default values of all types. -/
example : defaultValue .Kerning = some (.string st!"auto") ∧ defaultValue .Mask = some .none ∧ defaultValue .Fill = some (.color ⟨0, 0, 0⟩) ∧
    defaultValue .Opacity = some (.number (.fin 1)) ∧ defaultValue .StrokeWidth = some (.length ⟨.fin 1, .none⟩) := by decide +kernel

/-! ## C59 -/

theorem trimStr_inherit : trimStr st!"inherit" = st!"inherit" := by decide +kernel

set_option maxHeartbeats 1000000 in
/-- C59: for every presentation attribute but four the keyword `inherit` is recognised (given that the library parsers recognise it as a
paint and do not take it for a length). -/
theorem C59_inherit_partial {L : Lib} (hp : L.paint st!"inherit" = some .inherit) (hl : L.length st!"inherit" = none) {a : AttributeId}
    (ha : a.isPresentation = true) (hn : a ∉ noInherit) {e : ElementId} (he : a = .Fill → isAnimation e = false) :
    parseValue L a e st!"inherit" = .value .inherit := by
  simp only [AttributeId.isPresentation, decide_eq_true_eq] at ha
  fin_cases ha <;> first
    | (simp [noInherit] at hn; done)
    | (simp [parseValue, trimStr_inherit, hl]; done)
    | (simp [parseValue, trimStr_inherit, paintValue, hp]; done)
    | (simp [parseValue, trimStr_inherit, paintValue, hp]; simpa [isAnimation] using he)

/-- C59 does not hold for these four presentation attributes: the keyword is stored as text. -/
theorem C59_refuted (L : Lib) (e : ElementId) {a : AttributeId} (ha : a ∈ noInherit) :
    a.isPresentation = true ∧ parseValue L a e st!"inherit" = .value (.string st!"inherit") := by
  fin_cases ha <;> exact ⟨by decide +kernel, by simp [parseValue, trimStr_inherit]⟩

/-- Libraries as in `C59_inherit_partial`. -/
example : ∃ L : Lib, L.paint st!"inherit" = some .inherit ∧ L.length st!"inherit" = none ∧ AttributeId.Marker ∉ noInherit ∧
    AttributeId.Marker.isPresentation = true :=
  ⟨{ sampleLib with paint := fun _ => some .inherit }, rfl, by decide +kernel, by decide +kernel, by decide +kernel⟩

/-! ## C60 -/

theorem trimStr_eq (s : Str) : trimStr s = List.rdropWhile isWhite (s.dropWhile isWhite) := rfl

theorem dropWhile_head {p : Char → Bool} : ∀ {l m : Str}, l <+: m.dropWhile p → l.dropWhile p = l
  | [], _, _ => rfl
  | c :: l, m, h => by
    obtain ⟨k, hk⟩ := h
    have : p c = false := by
      have h0 : m.dropWhile p ≠ [] := by rw [← hk]; simp
      have h1 := List.head_dropWhile_not (p := p) h0
      simp only [← hk] at h1
      simpa using h1
    simp [this]

theorem trimStr_trimStr (s : Str) : trimStr (trimStr s) = trimStr s := by
  rw [trimStr_eq (trimStr s)]
  have h1 : (trimStr s).dropWhile isWhite = trimStr s := dropWhile_head (m := s) (List.rdropWhile_prefix _ _)
  rw [h1, trimStr_eq s]
  exact List.rdropWhile_idempotent _ _

/-- C60: white space around a value does not matter, except for `unicode`. -/
theorem C60_trim (L : Lib) {a : AttributeId} (ha : a ≠ .Unicode) (e : ElementId) {raw raw' : Str} (h : trimStr raw = trimStr raw') :
    parseValue L a e raw = parseValue L a e raw' := by
  unfold parseValue
  simp only [ne_eq, ha, not_false_eq_true, if_true, h]

/-- C60: what `trimStr` does: some white space before and after is left out, and the rest does not begin or end with white space. -/
theorem C60_trimmed (raw : Str) : ∃ u v, raw = u ++ trimStr raw ++ v ∧ (∀ c ∈ u ++ v, isWhite c = true) ∧
    (∀ c, (trimStr raw).head? = some c → isWhite c = false) ∧ (∀ c, (trimStr raw).getLast? = some c → isWhite c = false) := by
  have hw : ∀ (l : Str), ∀ c ∈ l.takeWhile isWhite, isWhite c = true := fun l c hc => List.mem_takeWhile_imp hc
  refine ⟨raw.takeWhile isWhite, ((raw.dropWhile isWhite).reverse.takeWhile isWhite).reverse, ?_, ?_, ?_, ?_⟩
  · rw [List.append_assoc, trimStr, ← List.reverse_append, List.takeWhile_append_dropWhile, List.reverse_reverse, List.takeWhile_append_dropWhile]
  · intro c hc
    rcases List.mem_append.1 hc with hc | hc
    · exact hw _ c hc
    · exact hw _ c (List.mem_reverse.1 hc)
  · intro c hc
    have h1 : (trimStr raw).dropWhile isWhite = trimStr raw := dropWhile_head (m := raw) (List.rdropWhile_prefix _ _)
    cases h : trimStr raw with
    | nil => rw [h] at hc; simp at hc
    | cons d l =>
      rw [h] at hc h1
      simp only [List.head?_cons, Option.some.injEq] at hc
      subst hc
      by_contra hd
      simp only [Bool.not_eq_false] at hd
      rw [List.dropWhile_cons_of_pos hd] at h1
      have := congrArg List.length h1
      have := (List.dropWhile_sublist isWhite (l := l)).length_le
      simp at *
      omega
  · intro c hc
    rw [trimStr, List.getLast?_reverse] at hc
    have := List.head?_dropWhile_not isWhite (raw.dropWhile isWhite).reverse
    rw [hc] at this
    simpa using this

/-- C60: the value of `unicode` is taken as it is. -/
theorem C60_unicode (L : Lib) (e : ElementId) (raw : Str) : parseValue L .Unicode e raw = .value (.string raw) := by
  simp [parseValue]

/-- A value with white space around it. -/
example : trimStr st!" \t5\n" = trimStr st!"5" ∧ st!" \t5\n" ≠ st!"5" ∧ parseValue sampleLib .Width .Rect st!" \t5\n" = .value (.length ⟨.fin 5, .none⟩) := by
  decide +kernel

end Svgdom
