import Verif.Model.Codegen
import Verif.Spec.Codegen
import Verif.Props.Names
import Mathlib.Data.List.Nodup

/-!
# C100: the name tables are what the generator makes of its lists
-/

set_option autoImplicit false

namespace Svgdom

theorem textLines_ne (t : Str) : textLines t ≠ [] := by
  cases t with
  | nil => simp [textLines]
  | cons c t =>
    unfold textLines
    split
    · simp
    · split <;> simp

theorem splitOn_eq (t : Str) : t.splitOn '\n' = textLines t := by
  unfold List.splitOn
  induction t with
  | nil => simp [textLines]
  | cons c t ih =>
    rw [List.splitOnP_cons_eq_if_modifyHead, ih]
    by_cases hc : c = '\n'
    · subst hc; simp [textLines]
    · have hb : (c == '\n') = false := by simp [hc]
      rw [hb]
      simp only [Bool.false_eq_true, if_false]
      simp only [textLines, hc, if_false]
      cases htl : textLines t with
      | nil => exact absurd htl (textLines_ne t)
      | cons l ls => rfl

theorem nameParts_ne (t : Str) : nameParts t ≠ [] := by
  cases t with
  | nil => simp [nameParts]
  | cons c t =>
    unfold nameParts
    split
    · simp
    · split <;> simp

theorem enumNameLoop_eq (up : Char → Char) : ∀ t : Str,
    enumNameLoop up false t = (nameParts t).head?.getD [] ++ (nameParts t).tail.flatMap (capital up) ∧
    enumNameLoop up true t = (nameParts t).flatMap (capital up)
  | [] => by simp [enumNameLoop, nameParts, capital]
  | c :: t => by
    obtain ⟨h1, h2⟩ := enumNameLoop_eq up t
    have hsep : c ∈ st!"-_:" ↔ c = '-' ∨ c = '_' ∨ c = ':' := by simp
    simp only [enumNameLoop, nameParts, hsep]
    by_cases hc : c = '-' ∨ c = '_' ∨ c = ':'
    · simp [hc, h2, capital]
    · simp only [hc, if_false]
      cases hp : nameParts t with
      | nil => exact absurd hp (nameParts_ne t)
      | cons p ps =>
        rw [hp] at h1 h2
        simp at h1
        simp [h1, capital]

theorem isDigit_iff (c : Char) : c.isDigit = true ↔ c ∈ st!"0123456789" := by
  simp only [Char.isDigit, Bool.and_eq_true, decide_eq_true_eq, List.mem_cons, List.not_mem_nil, or_false, Char.ext_iff,
    ge_iff_le, UInt32.le_iff_toNat_le, ← UInt32.toNat_inj]
  have h0 : ('0'.val).toNat = 48 := rfl
  have h1 : ('1'.val).toNat = 49 := rfl
  have h2 : ('2'.val).toNat = 50 := rfl
  have h3 : ('3'.val).toNat = 51 := rfl
  have h4 : ('4'.val).toNat = 52 := rfl
  have h5 : ('5'.val).toNat = 53 := rfl
  have h6 : ('6'.val).toNat = 54 := rfl
  have h7 : ('7'.val).toNat = 55 := rfl
  have h8 : ('8'.val).toNat = 56 := rfl
  have h9 : ('9'.val).toNat = 57 := rfl
  omega

/-- C100: `to_enum_name` on every string. -/
theorem C100_identifier (up : Char → Char) (t : Str) : toEnumName up t = identifierOf up t := by
  cases t with
  | nil => rfl
  | cons c t =>
    have hd := isDigit_iff c
    simp only [toEnumName, identifierOf, (enumNameLoop_eq up t).1]
    by_cases h : c.isDigit = true
    · simp [h, hd.1 h]
    · have h' := fun hh => h (hd.2 hh)
      rw [if_neg h, if_neg h', if_neg h']
      rfl

/-- Names with the same identifier: the generator would write an enum with two equal variants, which does not compile. -/
theorem C100_collision : ∃ a b : Str, a ≠ b ∧ ∀ up : Char → Char, up 'b' = 'B' → toEnumName up a = toEnumName up b :=
  ⟨st!"a-b", st!"aB", by decide, fun up h => by simp [toEnumName, enumNameLoop, h]⟩

/-- The tables as the generator makes them, over the whole lists. -/
theorem elements_generated : ElementId.all.map ElementId.asStr? = (specNames elementsTxt).map .ok ∧
    ElementId.all.map ElementId.variant = (genMap Char.toUpper elementsTxt).1 ∧ (ElementId.all.map ElementId.variant).Nodup ∧
    (specNames elementsTxt).all (fun n => n.all fun c => decide (c.toNat < 128)) = true := by
  refine ⟨?_, ?_, ?_, ?_⟩ <;> decide +kernel

theorem attributes_generated : AttributeId.all.map AttributeId.asStr? = (specNames attributesTxt).map .ok ∧
    AttributeId.all.map AttributeId.variant = (genMap Char.toUpper attributesTxt).1 ∧ (AttributeId.all.map AttributeId.variant).Nodup ∧
    (specNames attributesTxt).all (fun n => n.all fun c => decide (c.toNat < 128)) = true := by
  refine ⟨?_, ?_, ?_, ?_⟩ <;> decide +kernel

theorem elements_sorted : (specNames elementsTxt).Pairwise fun a b => alphabetical a b = true := by decide +kernel
theorem attributes_sorted : (specNames attributesTxt).Pairwise fun a b => alphabetical a b = true := by decide +kernel

theorem enumNameLoop_congr {up up' : Char → Char} : ∀ (b : Bool) (t : Str), (∀ c ∈ t, up c = up' c) →
    enumNameLoop up b t = enumNameLoop up' b t
  | _, [], _ => rfl
  | b, c :: t, h => by
    have h1 := h c (by simp)
    have h2 := fun b => enumNameLoop_congr (up := up) (up' := up') b t fun c hc => h c (by simp [hc])
    simp only [enumNameLoop, h1, h2]

theorem toEnumName_congr {up up' : Char → Char} (t : Str) (h : ∀ c ∈ t, up c = up' c) : toEnumName up t = toEnumName up' t := by
  cases t with
  | nil => rfl
  | cons c t =>
    rw [toEnumName, toEnumName, h c (by simp), enumNameLoop_congr false t fun c hc => h c (by simp [hc])]

/-- Two lists of the same length, one of ids and one of names. -/
theorem lookup_lists {α β : Type} {f : α → Except Err Str} {g : α → β} {h : Str → β} {l : List α} {m : List Str} (e1 : l.map f = m.map .ok)
    (e2 : l.map g = m.map h) (hg : (l.map g).Nodup) (hl : ∀ a, a ∈ l) (a : α) (t : Str) :
    f a = .ok t ↔ t ∈ m ∧ g a = h t := by
  obtain ⟨i, hi, rfl⟩ := List.mem_iff_getElem.1 (hl a)
  have hlen : l.length = m.length := by simpa using congrArg List.length e1
  have k1 : f l[i] = .ok (m[i]'(hlen ▸ hi)) := by
    have := List.getElem_of_eq e1 (i := i) (by simpa using hi)
    simpa using this
  have k2 : g l[i] = h (m[i]'(hlen ▸ hi)) := by
    have := List.getElem_of_eq e2 (i := i) (by simpa using hi)
    simpa using this
  constructor
  · intro e
    rw [k1] at e
    cases e
    exact ⟨List.getElem_mem _, k2⟩
  · rintro ⟨ht, e⟩
    obtain ⟨j, hj, rfl⟩ := List.mem_iff_getElem.1 ht
    have hj' : j < l.length := hlen ▸ hj
    have k3 : g l[j] = h m[j] := by
      have := List.getElem_of_eq e2 (i := j) (by simpa using hj')
      simpa using this
    have : i = j := by
      refine (List.Nodup.getElem_inj_iff hg (hi := by simpa using hi) (hj := by simpa using hj')).1 ?_
      simp only [List.getElem_map]
      rw [e, k3]
    subst this
    exact k1

/-- The capital of a character as Rust has it, on the characters that occur: the ASCII characters. -/
def CapitalizesAscii (up : Char → Char) : Prop := ∀ c : Char, c.toNat < 128 → up c = c.toUpper

/-- C100, elements: a string is accepted by `from_str` exactly if it is a line of `elements.txt` (not empty), and its id is the variant
that the generator names after it. -/
theorem C100_elements {up : Char → Char} (hup : CapitalizesAscii up) (t : Str) (e : ElementId) :
    ElementId.fromStr? t = .ok (some e) ↔ t ∈ textLines elementsTxt ∧ t ≠ [] ∧ e.variant = identifierOf up t := by
  obtain ⟨h1, h2, h3, h4⟩ := elements_generated
  rw [C28_element_sound, lookup_lists h1 h2 h3 ElementId.mem_all]
  rw [List.all_eq_true] at h4
  have hm : t ∈ specNames elementsTxt ↔ t ∈ textLines elementsTxt ∧ t ≠ [] := by
    simp [specNames, splitOn_eq, List.mem_filter]
  constructor
  · rintro ⟨a, b⟩
    have hc := h4 t a
    rw [List.all_eq_true] at hc
    refine ⟨(hm.1 a).1, (hm.1 a).2, ?_⟩
    rw [← C100_identifier, toEnumName_congr (up' := Char.toUpper) t fun c hct => hup c (by simpa using hc c hct)]
    exact b
  · rintro ⟨a, b, c⟩
    have a := hm.2 ⟨a, b⟩
    have hc := h4 t a
    rw [List.all_eq_true] at hc
    refine ⟨a, ?_⟩
    rw [c, ← C100_identifier, toEnumName_congr (up' := Char.toUpper) t fun c hct => hup c (by simpa using hc c hct)]

/-- C100, attributes: the same with `attributes.txt`. -/
theorem C100_attributes {up : Char → Char} (hup : CapitalizesAscii up) (t : Str) (a : AttributeId) :
    AttributeId.fromStr? t = .ok (some a) ↔ t ∈ textLines attributesTxt ∧ t ≠ [] ∧ a.variant = identifierOf up t := by
  obtain ⟨h1, h2, h3, h4⟩ := attributes_generated
  rw [C28_attribute_sound, lookup_lists h1 h2 h3 AttributeId.mem_all]
  rw [List.all_eq_true] at h4
  have hm : t ∈ specNames attributesTxt ↔ t ∈ textLines attributesTxt ∧ t ≠ [] := by
    simp [specNames, splitOn_eq, List.mem_filter]
  constructor
  · rintro ⟨a, b⟩
    have hc := h4 t a
    rw [List.all_eq_true] at hc
    refine ⟨(hm.1 a).1, (hm.1 a).2, ?_⟩
    rw [← C100_identifier, toEnumName_congr (up' := Char.toUpper) t fun c hct => hup c (by simpa using hc c hct)]
    exact b
  · rintro ⟨a, b, c⟩
    have a := hm.2 ⟨a, b⟩
    have hc := h4 t a
    rw [List.all_eq_true] at hc
    refine ⟨a, ?_⟩
    rw [c, ← C100_identifier, toEnumName_congr (up' := Char.toUpper) t fun c hct => hup c (by simpa using hc c hct)]

/-- C100: the variants are declared in the order of the lines, and different names in the files never get the same variant. -/
theorem C100_order : (∀ e : ElementId, ∀ t, e.asStr? = .ok t ↔ ((textLines elementsTxt).filter fun l => !l.isEmpty)[e.toNat]? = some t) ∧
    (∀ a : AttributeId, ∀ t, a.asStr? = .ok t ↔ ((textLines attributesTxt).filter fun l => !l.isEmpty)[a.toNat]? = some t) ∧
    (∀ e f : ElementId, e.variant = f.variant → e = f) ∧ (∀ a b : AttributeId, a.variant = b.variant → a = b) := by
  refine ⟨fun e t => ?_, fun a t => ?_, fun e f h => ?_, fun a b h => ?_⟩
  · rw [← splitOn_eq]
    have := congrArg (·[e.toNat]?) elements_generated.1
    simp only [List.getElem?_map, ElementId.all_get, Option.map_some] at this
    change _ ↔ (specNames elementsTxt)[e.toNat]? = some t
    cases h : (specNames elementsTxt)[e.toNat]? with
    | none => rw [h] at this; simp at this
    | some n =>
      rw [h] at this
      simp only [Option.map_some, Option.some.injEq] at this
      rw [this]; simp
  · rw [← splitOn_eq]
    have := congrArg (·[a.toNat]?) attributes_generated.1
    simp only [List.getElem?_map, AttributeId.all_get, Option.map_some] at this
    change _ ↔ (specNames attributesTxt)[a.toNat]? = some t
    cases h : (specNames attributesTxt)[a.toNat]? with
    | none => rw [h] at this; simp at this
    | some n =>
      rw [h] at this
      simp only [Option.map_some, Option.some.injEq] at this
      rw [this]; simp
  · exact List.inj_on_of_nodup_map elements_generated.2.2.1 (ElementId.mem_all e) (ElementId.mem_all f) h
  · exact List.inj_on_of_nodup_map attributes_generated.2.2.1 (AttributeId.mem_all a) (AttributeId.mem_all b) h

/-- C100: the order of the variants, in which the attributes are written (C46), is the alphabetical order of the names without regard to
case. -/
theorem C100_sorted {a b : AttributeId} {s t : Str} (ha : a.asStr? = .ok s) (hb : b.asStr? = .ok t) (h : a.toNat < b.toNat) :
    alphabetical s t = true := by
  have h1 := (C100_order.2.1 a s).1 ha
  have h2 := (C100_order.2.1 b t).1 hb
  rw [← splitOn_eq] at h1 h2
  change (specNames attributesTxt)[a.toNat]? = some s at h1
  change (specNames attributesTxt)[b.toNat]? = some t at h2
  obtain ⟨l1, rfl⟩ := List.getElem?_eq_some_iff.1 h1
  obtain ⟨l2, rfl⟩ := List.getElem?_eq_some_iff.1 h2
  exact List.pairwise_iff_getElem.1 attributes_sorted _ _ l1 l2 h

theorem C100_sorted_elements {a b : ElementId} {s t : Str} (ha : a.asStr? = .ok s) (hb : b.asStr? = .ok t) (h : a.toNat < b.toNat) :
    alphabetical s t = true := by
  have h1 := (C100_order.1 a s).1 ha
  have h2 := (C100_order.1 b t).1 hb
  rw [← splitOn_eq] at h1 h2
  change (specNames elementsTxt)[a.toNat]? = some s at h1
  change (specNames elementsTxt)[b.toNat]? = some t at h2
  obtain ⟨l1, rfl⟩ := List.getElem?_eq_some_iff.1 h1
  obtain ⟨l2, rfl⟩ := List.getElem?_eq_some_iff.1 h2
  exact List.pairwise_iff_getElem.1 elements_sorted _ _ l1 l2 h

example : CapitalizesAscii Char.toUpper := fun _ _ => rfl

/-- A name with several parts, and the order in which `-` and capitals are compared. -/
example : identifierOf Char.toUpper st!"color-interpolation-filters" = st!"ColorInterpolationFilters" ∧
    identifierOf Char.toUpper st!"2a" = st!"N2a" ∧ alphabetical st!"baseline-shift" st!"baseProfile" = true ∧
    AttributeId.fromStr? st!"baseline-shift" = .ok (some .BaselineShift) ∧ AttributeId.BaselineShift.toNat < AttributeId.BaseProfile.toNat := by
  decide +kernel

end Svgdom
