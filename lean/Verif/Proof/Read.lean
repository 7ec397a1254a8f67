import Verif.Spec.Read
import Verif.Props.Writer
import Verif.Props.Names
import Verif.Props.Tables
import Verif.Proof.Resolve
import Verif.Proof.Distinct

/-! Reading what the writer wrote. -/

namespace Svgdom

/-! ### Markup -/

theorem readSteps_append (q : Char) : ∀ (a b : List Ev) (st : ReadSt),
    readSteps q (a ++ b) st = (readSteps q b st).bind (readSteps q a)
  | [], b, st => by
    have : readSteps q [] = some := by funext x; rfl
    rw [this]; simp
  | e :: a, b, st => by
    simp only [List.cons_append, readSteps, readSteps_append q a b st]
    cases readSteps q b st <;> rfl

theorem readSteps_content (q : Char) : ∀ (l : List Ev) (st : ReadSt), readSteps q l st = readSteps q (l.filter Ev.isContent) st
  | [], _ => rfl
  | e :: l, st => by
    cases e <;> simp only [List.filter_cons, Ev.isContent, if_true, Bool.false_eq_true, if_false, readSteps, readSteps_content q l st]
    cases readSteps q (l.filter Ev.isContent) st <;> rfl

/-- Name and value of an attribute call. -/
def rawAttr (q : Char) : Ev → Option (Str × Str)
  | .attribute n v => if xmlName n && plainValue v then some (n, v) else none
  | .attributeRaw n v => if xmlName n then (readAttr q v).map fun v => (n, v) else none
  | _ => none

/-- The calls give these attributes. -/
inductive RawAttrs (q : Char) : List Ev → List (Str × Str) → Prop where
  | nil : RawAttrs q [] []
  | cons {e : Ev} {es : List Ev} {a : Str × Str} {as : List (Str × Str)} : rawAttr q e = some a → RawAttrs q es as →
      RawAttrs q (e :: es) (a :: as)

theorem RawAttrs.append {q : Char} {es fs : List Ev} {as bs : List (Str × Str)} (h : RawAttrs q es as) (h' : RawAttrs q fs bs) :
    RawAttrs q (es ++ fs) (as ++ bs) := by
  induction h with
  | nil => exact h'
  | cons h1 _ ih => exact .cons h1 ih

theorem RawAttrs.read {q : Char} {es : List Ev} {as : List (Str × Str)} (h : RawAttrs q es as) (bs : List (Str × Str))
    (stack : List Raw) : readSteps q es ⟨bs, stack⟩ = some ⟨as ++ bs, stack⟩ := by
  induction h with
  | nil => rfl
  | @cons e es a as h1 _ ih =>
    rw [readSteps, ih]
    cases e with
    | «attribute» n v =>
      simp only [rawAttr] at h1
      split at h1
      · next hc => cases h1; simp [readStep, hc]
      · simp at h1
    | attributeRaw n v =>
      simp only [rawAttr] at h1
      split at h1
      · next hc =>
        rw [Option.map_eq_some_iff] at h1
        obtain ⟨w, hw, rfl⟩ := h1
        simp [readStep, hc, hw]
      · simp at h1
    | startElement _ => simp [rawAttr] at h1
    | endElement => simp [rawAttr] at h1
    | text _ => simp [rawAttr] at h1
    | comment _ => simp [rawAttr] at h1
    | preserve _ => simp [rawAttr] at h1

/-- The markup of trees, followed by `r`. -/
def Trees.raw (s : St) (name : NodeId → Str) (attrs : NodeId → List (Str × Str)) : Trees → Raw → Raw
  | nil, r => r
  | cons i K R, r =>
    match s.nodeType i with
    | .element => .element (name i) (attrs i) (K.raw s name attrs .nil) (R.raw s name attrs r)
    | .comment => .comment (s.text i) (K.raw s name attrs (R.raw s name attrs r))
    | .text => (K.raw s name attrs (R.raw s name attrs r)).consText (s.text i)
    | .root => K.raw s name attrs (R.raw s name attrs r)

theorem readSteps_markup {q : Char} {s : St} {name : NodeId → Str} {evs : NodeId → List Ev} {attrs : NodeId → List (Str × Str)} :
    ∀ (T : Trees) (r : Raw) (stack : List Raw),
    (∀ i ∈ T.pre, s.nodeType i = .element → xmlName (name i) = true ∧ RawAttrs q (evs i) (attrs i)) →
    (∀ i ∈ T.pre, s.nodeType i = .text → plainContent (s.text i) = true) →
    (∀ i ∈ T.pre, s.nodeType i = .comment → plainComment (s.text i) = true) →
    readSteps q (T.markup s name evs) ⟨[], r :: stack⟩ = some ⟨[], T.raw s name attrs r :: stack⟩
  | .nil, r, stack, _, _, _ => rfl
  | .cons i K R, r, stack, h1, h2, h3 => by
    simp only [Trees.pre, List.mem_cons, List.mem_append] at h1 h2 h3
    have hR := fun st => readSteps_markup R r st (fun j hj => h1 j (.inr (.inr hj))) (fun j hj => h2 j (.inr (.inr hj)))
      (fun j hj => h3 j (.inr (.inr hj)))
    have hK := fun r st => readSteps_markup K r st (fun j hj => h1 j (.inr (.inl hj))) (fun j hj => h2 j (.inr (.inl hj)))
      (fun j hj => h3 j (.inr (.inl hj)))
    cases ht : s.nodeType i with
    | element =>
      obtain ⟨hn, ha⟩ := h1 i (.inl rfl) ht
      simp only [Trees.markup, ht, Trees.raw]
      rw [readSteps_append, readSteps, hR]
      simp only [Option.bind_some, readStep]
      rw [List.cons_append, readSteps, readSteps_append, hK]
      simp only [Option.bind_some]
      rw [ha.read]
      simp [readStep, hn]
    | comment =>
      have hc := h3 i (.inl rfl) ht
      simp only [Trees.markup, ht, Trees.raw]
      rw [List.cons_append, readSteps, readSteps_append, hR]
      simp only [Option.bind_some]
      rw [hK]
      simp [readStep, hc]
    | text =>
      have hc := h2 i (.inl rfl) ht
      simp only [Trees.markup, ht, Trees.raw]
      rw [List.cons_append, readSteps, readSteps_append, hR]
      simp only [Option.bind_some]
      rw [hK]
      simp [readStep, hc]
    | root =>
      simp only [Trees.markup, ht, Trees.raw]
      rw [readSteps_append, hR]
      simp only [Option.bind_some]
      rw [hK]

/-! ### Names -/

theorem elem_name_ok (e : ElementId) {x : Str} (h : e.asStr? = .ok x) : xmlName x = true ∧ splitName x = some (none, x) := by
  have := ElementId.forall_of_all (p := fun e => match e.asStr? with
    | .ok x => xmlName x && decide (splitName x = some (none, x))
    | _ => false) (by decide +kernel) e
  simp only [h, Bool.and_eq_true, decide_eq_true_eq] at this
  exact this

theorem attr_name_ok (i : AttributeId) (hi : i ≠ .Xmlns) {x : Str} (h : i.asStr? = .ok x) :
    xmlName x = true ∧ splitName x = some (none, x) ∧ declares x = none := by
  have := AttributeId.forall_of_all (p := fun e => match e.asStr? with
    | .ok x => decide (e = .Xmlns) || (xmlName x && decide (splitName x = some (none, x)) && decide (declares x = none))
    | _ => false) (by decide +kernel) i
  simp only [h, Bool.and_eq_true, Bool.or_eq_true, decide_eq_true_eq, hi, false_or] at this
  exact ⟨this.1.1, this.1.2, this.2⟩

theorem asStr_id : AttributeId.asStr? .Id = .ok st!"id" := by decide +kernel
theorem asStr_href : AttributeId.asStr? .Href = .ok st!"href" := by decide +kernel
theorem asStr_space : AttributeId.asStr? .Space = .ok st!"space" := by decide +kernel

/-- All namespaces that are needed are declared. -/
structure ScopeFor (sc : Scope) (xlink : Prop) : Prop where
  svg : sc.find none = some st!"http://www.w3.org/2000/svg"
  xml : sc.find (some st!"xml") = some st!"http://www.w3.org/XML/1998/namespace"
  xlink : xlink → sc.find (some st!"xlink") = some st!"http://www.w3.org/1999/xlink"

/-- One SVG attribute. -/
theorem expand_svg {i : AttributeId} {x y v : Str} (hi : i ≠ .Xmlns) (hx : i.IsQualified x) (hy : i.asStr? = .ok y) :
    xmlName x = true ∧ declares x = none ∧ ∀ sc : Scope, ScopeFor sc (i = .Href) → expandAttr sc (x, v) = some ⟨i.ns, y, v⟩ := by
  by_cases h1 : i = .Href
  · subst h1
    have hx : x = st!"xlink:href" := hx
    subst hx
    rw [asStr_href] at hy
    cases hy
    refine ⟨by decide +kernel, by decide +kernel, fun sc hs => ?_⟩
    have : splitName st!"xlink:href" = some (some st!"xlink", st!"href") := by decide +kernel
    simp only [expandAttr, this, hs.xlink rfl, Option.map_some]
    rfl
  · by_cases h2 : i = .Space
    · subst h2
      have hx : x = st!"xml:space" := hx
      subst hx
      rw [asStr_space] at hy
      cases hy
      refine ⟨by decide +kernel, by decide +kernel, fun sc hs => ?_⟩
      have : splitName st!"xml:space" = some (some st!"xml", st!"space") := by decide +kernel
      simp only [expandAttr, this, hs.xml, Option.map_some]
      rfl
    · have hx' : i.asStr? = .ok x := by
        unfold AttributeId.IsQualified at hx
        split at hx
        · exact absurd rfl h1
        · exact absurd rfl h2
        · exact hx
      rw [hx'] at hy
      cases hy
      obtain ⟨a, b, c⟩ := attr_name_ok i hi hx'
      refine ⟨a, c, fun sc _ => ?_⟩
      have : i.ns = none := by
        unfold AttributeId.ns
        split
        · exact absurd rfl h1
        · exact absurd rfl h2
        · rfl
      simp only [expandAttr, b, this]

theorem svgEvents_written (s : St) (W : ValueWriter) (x : Str) (i : AttributeId) (v : AttributeValue) :
    s.svgEvents W x (i, v) = (s.written W i v).toList.map fun w => .attributeRaw x w := by
  unfold St.svgEvents St.written
  by_cases hi : i = .Unicode
  · subst hi; cases v <;> rfl
  · split
    · exact absurd (by rename_i h; cases h; rfl) hi
    · exact absurd (by rename_i h; cases h; rfl) hi
    · rename_i h; cases h
      split
      · exact absurd rfl hi
      · exact absurd rfl hi
      · rfl

theorem rawAttr_plain (q : Char) {n v : Str} (h : (xmlName n && plainValue v) = true) : rawAttr q (.attribute n v) = some (n, v) := by
  simp only [rawAttr]; rw [if_pos h]

theorem rawAttr_xmlns (q : Char) : rawAttr q xmlnsDecl = some (st!"xmlns", st!"http://www.w3.org/2000/svg") :=
  rawAttr_plain q (by decide +kernel)

theorem rawAttr_xlink (q : Char) : rawAttr q xlinkDecl = some (st!"xmlns:xlink", st!"http://www.w3.org/1999/xlink") :=
  rawAttr_plain q (by decide +kernel)

theorem RawAttrs.names {q : Char} {es : List Ev} {as : List (Str × Str)} (h : RawAttrs q es as) : attrNames es = as.map (·.1) := by
  induction h with
  | nil => rfl
  | @cons e es a as h1 _ ih =>
    have : attrNames (e :: es) = a.1 :: attrNames es := by
      cases e with
      | «attribute» n v =>
        simp only [rawAttr] at h1
        split at h1
        · cases h1; rfl
        · simp at h1
      | attributeRaw n v =>
        simp only [rawAttr] at h1
        split at h1
        · rw [Option.map_eq_some_iff] at h1
          obtain ⟨_, _, rfl⟩ := h1
          rfl
        · simp at h1
      | _ => simp [rawAttr] at h1
    rw [this, ih]; rfl

/-- The attributes of one element. -/
theorem element_attrs {s : St} (h : Reachable s) (ha : s.Acyclic) (W : ValueWriter) (q : Char) {n : NodeId} (hn : s.live n = true)
    (hid : plainValue (s.idOf n) = true)
    (hw : ∀ a ∈ s.attributes n, ∃ i, a.name = .id i ∧ i ≠ .Id ∧ i ≠ .Xmlns ∧
      ∃ w v, s.written W i a.value = some w ∧ readAttr q w = some v) :
    ∃ es ns nss ra, s.writeAttributes W n = .ok es ∧ NamespaceDecls s n ns ∧ RawAttrs q ns nss ∧ RawAttrs q es (nss ++ ra) ∧
      ((nss ++ ra).map (·.1)).Nodup ∧ (∀ a ∈ ra, declares a.1 = none) ∧
      ∀ sc : Scope, ScopeFor sc (∃ a ∈ s.attributes n, a.name = .id .Href) →
        ∃ as, expandAttrs sc ra = some as ∧ uniqueNames as = true ∧ XmlAttrs s W q n as := by
  obtain ⟨ns, L, name, e, hns, hmem, hperm, hpair, hname⟩ := C46_attributes h ha W hn
  have hother : otherPairs (s.attributes n) = [] := by
    rw [otherPairs, List.filterMap_eq_nil_iff]
    intro a ha'
    obtain ⟨i, hi, _⟩ := hw a ha'
    obtain ⟨nm, v⟩ := a
    cases hi; rfl
  rw [hother, List.map_nil, List.append_nil] at e
  have hsp : ∀ p : AttributeId × AttributeValue, p ∈ L ↔ ⟨.id p.1, p.2⟩ ∈ s.attributes n := by
    intro p
    rw [hperm.mem_iff, svgPairs, List.mem_filterMap]
    constructor
    · rintro ⟨⟨nm, v⟩, h1, h2⟩
      cases nm with
      | id i => simp only [Option.some.injEq] at h2; subst h2; exact h1
      | name x => simp at h2
    · intro hp; exact ⟨_, hp, rfl⟩
  have hval : ∀ p : AttributeId × AttributeValue, ∃ w v, p ∈ L → p.1 ≠ .Id ∧ p.1 ≠ .Xmlns ∧ s.written W p.1 p.2 = some w ∧
      readAttr q w = some v := by
    intro p
    by_cases hp : p ∈ L
    · obtain ⟨i, h1, h2, h3, w, v, h4, h5⟩ := hw _ ((hsp p).1 hp)
      cases h1
      exact ⟨w, v, fun _ => ⟨h2, h3, h4, h5⟩⟩
    · exact ⟨[], [], fun h => absurd h hp⟩
  choose wr val hval using hval
  have hstr : ∀ i : AttributeId, ∃ x, i.asStr? = .ok x := asStr_attr
  choose str hstr using hstr
  -- calls to attributes
  have hnsr : ∃ nss, RawAttrs q ns nss := by
    have h1 := rawAttr_xmlns q
    have h2 := rawAttr_xlink q
    by_cases ht : s.TopSvg n
    · by_cases hu : s.UsesXlink n
      · have := hns.xlink ht hu; subst this; exact ⟨_, .cons h1 (.cons h2 .nil)⟩
      · have := hns.plain ht hu; subst this; exact ⟨_, .cons h1 .nil⟩
    · have := hns.other ht; subst this; exact ⟨_, .nil⟩
  obtain ⟨nss, hnss⟩ := hnsr
  have hL : ∀ L' : List (AttributeId × AttributeValue), (∀ p ∈ L', p ∈ L) →
      RawAttrs q (L'.flatMap fun p => s.svgEvents W (name p.1) p) (L'.map fun p => (name p.1, val p)) := by
    intro L'
    induction L' with
    | nil => intro _; exact .nil
    | cons p L' ih =>
      intro hL'
      obtain ⟨h1, h2, h3, h4⟩ := hval p (hL' p (by simp))
      rw [List.flatMap_cons, svgEvents_written, h3]
      refine .cons ?_ (ih fun p hp => hL' p (by simp [hp]))
      simp [rawAttr, (expand_svg (v := []) h2 (hname p.1) (hstr p.1)).1, h4]
  obtain ⟨ra, hra⟩ : ∃ ra, ra = (if s.idOf n = [] then [] else [(st!"id", s.idOf n)]) ++ L.map fun p => (name p.1, val p) := ⟨_, rfl⟩
  have hidr : RawAttrs q (if s.idOf n = [] then [] else [Ev.attribute st!"id" (s.idOf n)])
      (if s.idOf n = [] then [] else [(st!"id", s.idOf n)]) := by
    split
    · exact .nil
    · refine .cons ?_ .nil
      have : xmlName st!"id" = true := by decide +kernel
      simp [rawAttr, this, hid]
  have hall : RawAttrs q (ns ++ (if s.idOf n = [] then [] else [Ev.attribute st!"id" (s.idOf n)]) ++
      L.flatMap fun p => s.svgEvents W (name p.1) p) (nss ++ ra) := by
    rw [hra, List.append_assoc]
    exact hnss.append (hidr.append (hL L fun _ h => h))
  refine ⟨_, ns, nss, ra, e, hns, hnss, hall, ?_, ?_, ?_⟩
  · obtain ⟨es, e', hd⟩ := writeAttributes_distinct h ha W hn
    rw [e] at e'
    cases e'
    rw [← hall.names]
    have hno : ∀ a ∈ s.attributes n, ∀ x, a.name ≠ .name x := by
      intro a ha' x hc
      obtain ⟨i, hi, _⟩ := hw a ha'
      rw [hi] at hc
      simp at hc
    refine hd.2 ⟨fun _ a ha' => ⟨?_, hno a ha' _⟩, fun _ a ha' => ⟨?_, hno a ha' _⟩, fun _ _ a ha' => hno a ha' _,
      fun _ _ b hb _ x _ hx => absurd hx (hno b hb x)⟩
    · obtain ⟨i, hi, h1, _⟩ := hw a ha'
      rw [hi]; simpa using h1
    · obtain ⟨i, hi, _, h1, _⟩ := hw a ha'
      rw [hi]; simpa using h1
  · intro a ha'
    rw [hra, List.mem_append] at ha'
    rcases ha' with ha' | ha'
    · split at ha'
      · simp at ha'
      · rw [List.mem_singleton] at ha'; subst ha'
        show declares st!"id" = none
        decide +kernel
    · obtain ⟨p, hp, rfl⟩ := List.mem_map.1 ha'
      exact (expand_svg (v := []) (hval p hp).2.1 (hname p.1) (hstr p.1)).2.1
  · intro sc hsc
    have hEL : ∀ L' : List (AttributeId × AttributeValue), (∀ p ∈ L', p ∈ L) →
        expandAttrs sc (L'.map fun p => (name p.1, val p)) = some (L'.map fun p => ⟨p.1.ns, str p.1, val p⟩) := by
      intro L'
      induction L' with
      | nil => intro _; rfl
      | cons p L' ih =>
        intro hL'
        have hp := hL' p (by simp)
        obtain ⟨_, h2, h3⟩ := expand_svg (v := val p) (hval p hp).2.1 (hname p.1) (hstr p.1)
        have h4 := h3 sc ⟨hsc.svg, hsc.xml, fun hh => hsc.xlink ⟨_, (hsp p).1 hp, by rw [hh]⟩⟩
        simp [expandAttrs, h2, h4, ih fun p hp => hL' p (by simp [hp])]
    have hE : expandAttrs sc ra = some ((if s.idOf n = [] then [] else [⟨none, st!"id", s.idOf n⟩]) ++
        L.map fun p => ⟨p.1.ns, str p.1, val p⟩) := by
      rw [hra]
      split
      · exact hEL L fun _ h => h
      · have h1 : declares st!"id" = none := by decide +kernel
        have h2 : splitName st!"id" = some (none, st!"id") := by decide +kernel
        simp [expandAttrs, h1, expandAttr, h2, hEL L fun _ h => h]
    have hne : ∀ p ∈ L, str p.1 ≠ st!"id" := by
      intro p hp hh
      have := hstr p.1
      rw [hh, ← asStr_id] at this
      exact (hval p hp).1 (C28_attribute_injective _ _ this)
    have hfor : ∀ p ∈ L, XmlAttr.For s W q ⟨.id p.1, p.2⟩ ⟨p.1.ns, str p.1, val p⟩ := fun p hp =>
      ⟨⟨p.1, rfl, hstr p.1, rfl⟩, ⟨p.1, wr p, rfl, (hval p hp).2.2.1, (hval p hp).2.2.2⟩⟩
    refine ⟨_, hE, ?_, ?_⟩
    · have hnd : (L.map fun p : AttributeId × AttributeValue => ((p.1.ns, str p.1) : Option Str × Str)).Nodup := by
        rw [List.Nodup, List.pairwise_map]
        refine hpair.imp ?_
        intro a b hab he
        have h1 := (Prod.mk.inj he).2
        have h2 : a.1.asStr? = b.1.asStr? := by rw [hstr, hstr, h1]
        rw [C28_attribute_injective _ _ h2] at hab
        omega
      rw [uniqueNames, decide_eq_true_eq, List.map_append, List.map_map]
      split
      · simpa [Function.comp_def] using hnd
      · simp only [List.map_cons, List.map_nil, List.cons_append, List.nil_append, List.nodup_cons]
        refine ⟨?_, by simpa [Function.comp_def] using hnd⟩
        intro hm
        obtain ⟨p, hp, he⟩ := List.mem_map.1 hm
        exact hne p hp (Prod.mk.inj he).2
    · refine ⟨?_, ?_, ?_⟩
      · constructor
        · intro hm hh
          rw [if_pos hh, List.nil_append] at hm
          obtain ⟨p, hp, he⟩ := List.mem_map.1 hm
          exact hne p hp (by have := congrArg XmlAttr.name he; exact this)
        · intro hh
          rw [if_neg hh]; simp
      · intro a ha'
        obtain ⟨nm, v⟩ := a
        obtain ⟨i, hi, _⟩ := hw _ ha'
        cases hi
        have hp := (hsp (i, v)).2 ha'
        exact ⟨_, List.mem_append_right _ (List.mem_map.2 ⟨(i, v), hp, rfl⟩), hfor _ hp⟩
      · intro x hx
        rw [List.mem_append] at hx
        rcases hx with hx | hx
        · split at hx
          · simp at hx
          · rw [List.mem_singleton] at hx; exact .inl hx
        · obtain ⟨p, hp, rfl⟩ := List.mem_map.1 hx
          exact .inr ⟨_, (hsp p).1 hp, hfor p hp⟩

/-! ### Namespaces -/

theorem scopeOf_none {ra : List (Str × Str)} (h : ∀ a ∈ ra, declares a.1 = none) : scopeOf ra = [] := by
  rw [scopeOf, List.filterMap_eq_nil_iff]
  intro a ha
  rw [h a ha]; rfl

/-- What is known of the attributes of a node. -/
structure NodeAttrs (s : St) (W : ValueWriter) (q : Char) (n : NodeId) (rattrs : List (Str × Str)) : Prop where
  nodup : (rattrs.map (·.1)).Nodup
  ex : ∃ ns nss ra, rattrs = nss ++ ra ∧ NamespaceDecls s n ns ∧ RawAttrs q ns nss ∧ (∀ a ∈ ra, declares a.1 = none) ∧
      ∀ sc : Scope, ScopeFor sc (∃ a ∈ s.attributes n, a.name = .id .Href) →
        ∃ as, expandAttrs sc ra = some as ∧ uniqueNames as = true ∧ XmlAttrs s W q n as

theorem NodeAttrs.inner {s : St} {W : ValueWriter} {q : Char} {n : NodeId} {ra : List (Str × Str)} (h : NodeAttrs s W q n ra)
    (ht : ¬ s.TopSvg n) (sc : Scope) (hs : ScopeFor sc (∃ a ∈ s.attributes n, a.name = .id .Href)) :
    scopeOf ra = [] ∧ ∃ as, expandAttrs sc ra = some as ∧ uniqueNames as = true ∧ XmlAttrs s W q n as := by
  obtain ⟨ns, nss, ra', rfl, h1, h2, h3, h4⟩ := h.ex
  have := h1.other ht
  subst this
  cases h2
  exact ⟨scopeOf_none h3, h4 sc hs⟩

theorem NodeAttrs.top {s : St} {W : ValueWriter} {q : Char} {n : NodeId} {ra : List (Str × Str)} (h : NodeAttrs s W q n ra)
    (ht : s.TopSvg n) (hu : (∃ a ∈ s.attributes n, a.name = .id .Href) → s.UsesXlink n) :
    ScopeFor (scopeOf ra ++ xmlScope) (s.UsesXlink n) ∧
    ∃ as, expandAttrs (scopeOf ra ++ xmlScope) ra = some as ∧ uniqueNames as = true ∧ XmlAttrs s W q n as := by
  obtain ⟨ns, nss, ra', rfl, h1, h2, h3, h4⟩ := h.ex
  have hd1 : declares st!"xmlns" = some none := by decide +kernel
  have hd2 : declares st!"xmlns:xlink" = some (some st!"xlink") := by decide +kernel
  by_cases hx : s.UsesXlink n
  · have := h1.xlink ht hx
    subst this
    cases h2 with
    | cons e1 h2 =>
    cases h2 with
    | cons e2 h2 =>
    cases h2
    rw [rawAttr_xmlns] at e1
    rw [rawAttr_xlink] at e2
    cases e1; cases e2
    have hsc : scopeOf ([(st!"xmlns", st!"http://www.w3.org/2000/svg"), (st!"xmlns:xlink", st!"http://www.w3.org/1999/xlink")] ++ ra') =
        [(none, st!"http://www.w3.org/2000/svg"), (some st!"xlink", st!"http://www.w3.org/1999/xlink")] := by
      have := scopeOf_none h3
      rw [scopeOf] at this
      simp only [scopeOf, List.cons_append, List.nil_append, List.filterMap_cons, hd1, hd2, Option.map_some, this]
    have hS : ScopeFor ([(none, st!"http://www.w3.org/2000/svg"), (some st!"xlink", st!"http://www.w3.org/1999/xlink")] ++ xmlScope)
        (s.UsesXlink n) := ⟨by decide +kernel, by decide +kernel, fun _ => by decide +kernel⟩
    rw [hsc]
    refine ⟨hS, ?_⟩
    obtain ⟨as, a1, a2, a3⟩ := h4 _ ⟨hS.svg, hS.xml, fun h => hS.xlink (hu h)⟩
    refine ⟨as, ?_, a2, a3⟩
    simp only [List.cons_append, List.nil_append, expandAttrs, hd1, hd2]
    exact a1
  · have := h1.plain ht hx
    subst this
    cases h2 with
    | cons e1 h2 =>
    cases h2
    rw [rawAttr_xmlns] at e1
    cases e1
    have hsc : scopeOf ([(st!"xmlns", st!"http://www.w3.org/2000/svg")] ++ ra') = [(none, st!"http://www.w3.org/2000/svg")] := by
      have := scopeOf_none h3
      rw [scopeOf] at this
      simp only [scopeOf, List.cons_append, List.nil_append, List.filterMap_cons, hd1, Option.map_some, this]
    have hS : ScopeFor ([(none, st!"http://www.w3.org/2000/svg")] ++ xmlScope)
        (s.UsesXlink n) := ⟨by decide +kernel, by decide +kernel, fun h => absurd h hx⟩
    rw [hsc]
    refine ⟨hS, ?_⟩
    obtain ⟨as, a1, a2, a3⟩ := h4 _ ⟨hS.svg, hS.xml, fun h => hS.xlink (hu h)⟩
    refine ⟨as, ?_, a2, a3⟩
    simp only [List.cons_append, List.nil_append, expandAttrs, hd1]
    exact a1

/-- The kinds of nodes, without children where there must be none. -/
def Trees.Kinds (s : St) : Trees → Prop
  | nil => True
  | cons n K R => K.Kinds s ∧ R.Kinds s ∧
    ((s.nodeType n = .element ∧ ∃ e, s.tagName n = .id e) ∨ (s.nodeType n = .text ∧ K = .nil ∧ s.text n ≠ []) ∨
      (s.nodeType n = .comment ∧ K = .nil))

theorem raw_text {s : St} {name : NodeId → Str} {ra : NodeId → List (Str × Str)} {n : NodeId} {K R : Trees} (ht : s.nodeType n = .text)
    (hk : (Trees.cons n K R).Kinds s) (hs : (Trees.cons n K R).SepText s) :
    (Trees.cons n K R).raw s name ra .nil = .text (s.text n) (R.raw s name ra .nil) := by
  obtain ⟨_, hR, h | ⟨_, rfl, hne⟩ | h⟩ := hk
  · rw [ht] at h; simp at h
  · simp only [Trees.raw, ht]
    cases R with
    | nil => simp [Trees.raw, Raw.consText, hne]
    | cons m K' R' =>
      have h2 : s.nodeType m ≠ .text := fun h => hs.2.2 ⟨ht, h⟩
      obtain ⟨_, _, h | h | h⟩ := hR
      · simp only [Trees.raw, h.1, Raw.consText, if_neg hne]
      · exact absurd h.1 h2
      · simp only [Trees.raw, h.1, Raw.consText, if_neg hne]
  · rw [ht] at h; simp at h

theorem raw_comment {s : St} {name : NodeId → Str} {ra : NodeId → List (Str × Str)} {n : NodeId} {K R : Trees}
    (ht : s.nodeType n = .comment) (hk : (Trees.cons n K R).Kinds s) :
    (Trees.cons n K R).raw s name ra .nil = .comment (s.text n) (R.raw s name ra .nil) := by
  obtain ⟨_, hR, h | h | ⟨_, rfl⟩⟩ := hk
  · rw [ht] at h; simp at h
  · rw [ht] at h; simp at h
  · simp only [Trees.raw, ht]

/-- Below the top. -/
theorem expand_inner {s : St} {W : ValueWriter} {q : Char} {name : NodeId → Str} {ra : NodeId → List (Str × Str)} {xl : Prop} {sc : Scope}
    (hsc : ScopeFor sc xl) : ∀ T : Trees, T.Kinds s → T.SepText s → (∀ i ∈ T.pre, ¬ s.TopSvg i) → (∀ i ∈ T.pre, s.IsName i (name i)) →
    (∀ i ∈ T.pre, s.nodeType i = .element → NodeAttrs s W q i (ra i)) →
    (∀ i ∈ T.pre, (∃ a ∈ s.attributes i, a.name = .id .Href) → xl) →
    ∃ x, (T.raw s name ra .nil).expand sc = some x ∧ x.Shows s W q T
  | .nil, _, _, _, _, _, _ => ⟨.nil, rfl, trivial⟩
  | .cons n K R, hk, hse, ht, hn, ha, hx => by
    have hk' := hk
    have hse' := hse
    obtain ⟨kK, kR, hkind⟩ := hk
    obtain ⟨sK, sR, _⟩ := hse
    simp only [Trees.pre, List.mem_cons, List.mem_append] at ht hn ha hx
    obtain ⟨xr, r1, r2⟩ := expand_inner hsc R kR sR (fun i h => ht i (.inr (.inr h))) (fun i h => hn i (.inr (.inr h)))
      (fun i h => ha i (.inr (.inr h))) (fun i h => hx i (.inr (.inr h)))
    rcases hkind with ⟨h1, e, he⟩ | ⟨h1, rfl, h2⟩ | ⟨h1, rfl⟩
    · obtain ⟨xk, k1, k2⟩ := expand_inner hsc K kK sK (fun i h => ht i (.inr (.inl h))) (fun i h => hn i (.inr (.inl h)))
        (fun i h => ha i (.inr (.inl h))) (fun i h => hx i (.inr (.inl h)))
      obtain ⟨hs0, as, a1, a2, a3⟩ := (ha n (.inl rfl) h1).inner (ht n (.inl rfl)) sc
        ⟨hsc.svg, hsc.xml, fun h => hsc.xlink (hx n (.inl rfl) h)⟩
      have hname := hn n (.inl rfl)
      have hspl : splitName (name n) = some (none, name n) := by
        unfold St.IsName at hname
        rw [he] at hname
        exact (elem_name_ok e hname).2
      refine ⟨.element (some st!"http://www.w3.org/2000/svg") (name n) as xk xr, ?_, ?_⟩
      · simp only [Trees.raw, h1, Raw.expand, hs0, List.nil_append, expandName, hspl, hsc.svg, a1, Option.bind_some, a2,
          decide_eq_true (ha n (.inl rfl) h1).nodup, Bool.and_self, if_true, k1, r1,
          Option.map_some]
      · exact ⟨h1, rfl, hname, a3, k2, r2⟩
    · exact ⟨.text (s.text n) xr, by rw [raw_text h1 hk' hse']; simp [Raw.expand, r1], h1, rfl, rfl, r2⟩
    · exact ⟨.comment (s.text n) xr, by rw [raw_comment h1 hk']; simp [Raw.expand, r1], h1, rfl, rfl, r2⟩

/-- At the top. -/
theorem expand_top {s : St} {W : ValueWriter} {q : Char} {name : NodeId → Str} {ra : NodeId → List (Str × Str)} {F : Forest} :
    ∀ (T : Trees) (l : List NodeId), T.Of F l → T.pre.Nodup → T.Kinds s → T.SepText s → (∀ i ∈ T.pre, s.TopSvg i → i ∈ l) →
    (∀ i ∈ l, s.nodeType i = .element → s.TopSvg i) → (∀ i ∈ T.pre, s.IsName i (name i)) →
    (∀ i ∈ T.pre, s.nodeType i = .element → NodeAttrs s W q i (ra i)) →
    (∀ n ∈ l, ∀ K : Trees, K.Of F (F.kids n) → ∀ i ∈ n :: K.pre, (∃ a ∈ s.attributes i, a.name = .id .Href) → s.UsesXlink n) →
    ∃ x, (T.raw s name ra .nil).expand xmlScope = some x ∧ x.Shows s W q T
  | .nil, _, _, _, _, _, _, _, _, _, _ => ⟨.nil, rfl, trivial⟩
  | .cons n K R, l, hT, hnd, hk, hse, ht, ht2, hn, ha, hx => by
    have hk' := hk
    have hse' := hse
    obtain ⟨l', rfl, hoK, hoR⟩ := hT
    obtain ⟨kK, kR, hkind⟩ := hk
    obtain ⟨sK, sR, _⟩ := hse
    simp only [Trees.pre, List.mem_cons, List.mem_append] at ht hn ha
    simp only [Trees.pre, List.nodup_cons, List.mem_append, not_or, List.nodup_append] at hnd
    obtain ⟨⟨n1, n2⟩, n3, n4, n5⟩ := hnd
    obtain ⟨xr, r1, r2⟩ := expand_top R l' hoR n4 kR sR (fun i h hi => by
        rcases ht i (.inr (.inr h)) hi with rfl | h'
        · exact absurd h n2
        · exact h')
      (fun i h => ht2 i (by simp [h])) (fun i h => hn i (.inr (.inr h)))
      (fun i h => ha i (.inr (.inr h))) (fun m hm => hx m (by simp [hm]))
    rcases hkind with ⟨h1, e, he⟩ | ⟨h1, rfl, h2⟩ | ⟨h1, rfl⟩
    · have htop := ht2 n (by simp) h1
      obtain ⟨hS, as, a1, a2, a3⟩ := (ha n (.inl rfl) h1).top htop (hx n (by simp) K hoK n (by simp))
      obtain ⟨xk, k1, k2⟩ := expand_inner hS K kK sK (fun i h hi => by
          rcases ht i (.inr (.inl h)) hi with rfl | h'
          · exact n1 h
          · exact n5 i h i (hoR.top_mem i h') rfl)
        (fun i h => hn i (.inr (.inl h)))
        (fun i h => ha i (.inr (.inl h))) (fun i h => hx n (by simp) K hoK i (by simp [h]))
      have hname := hn n (.inl rfl)
      have hspl : splitName (name n) = some (none, name n) := by
        unfold St.IsName at hname
        rw [he] at hname
        exact (elem_name_ok e hname).2
      refine ⟨.element (some st!"http://www.w3.org/2000/svg") (name n) as xk xr, ?_, ?_⟩
      · simp only [Trees.raw, h1, Raw.expand, expandName, hspl, hS.svg, a1, Option.bind_some, a2,
          decide_eq_true (ha n (.inl rfl) h1).nodup, Bool.and_self, if_true, k1, r1, Option.map_some]
      · exact ⟨h1, rfl, hname, a3, k2, r2⟩
    · exact ⟨.text (s.text n) xr, by rw [raw_text h1 hk' hse']; simp [Raw.expand, r1], h1, rfl, rfl, r2⟩
    · exact ⟨.comment (s.text n) xr, by rw [raw_comment h1 hk']; simp [Raw.expand, r1], h1, rfl, rfl, r2⟩

theorem tops_of {F : Forest} : ∀ {T : Trees} {l : List NodeId}, T.Of F l → T.tops = l
  | .nil, _, h => by cases h; rfl
  | .cons n K R, _, h => by
    obtain ⟨l', rfl, _, hR⟩ := h
    rw [Trees.tops, tops_of hR]

theorem shows_tops {s : St} {W : ValueWriter} {q : Char} : ∀ {x : Xml} {T : Trees}, x.Shows s W q T →
    x.topElements = (T.tops.filter fun m => decide (s.nodeType m = .element)).length ∧
    x.topText = T.tops.any fun m => decide (s.nodeType m = .text)
  | .nil, .nil, _ => ⟨rfl, rfl⟩
  | .nil, .cons _ _ _, h => h.elim
  | .pi _, .nil, h => h.elim
  | .pi _, .cons _ _ _, h => h.elim
  | .element _ _ _ _ _, .nil, h => h.elim
  | .text _ _, .nil, h => h.elim
  | .comment _ _, .nil, h => h.elim
  | .element _ _ _ k r, .cons n K R, h => by
    obtain ⟨h1, _, _, _, _, h2⟩ := h
    obtain ⟨e1, e2⟩ := shows_tops (x := r) h2
    simp [Xml.topElements, Xml.topText, Trees.tops, h1, e1, e2]
  | .text _ r, .cons n K R, h => by
    obtain ⟨h1, _, _, h2⟩ := h
    obtain ⟨e1, e2⟩ := shows_tops (x := r) h2
    simp [Xml.topElements, Xml.topText, Trees.tops, h1, e1]
  | .comment _ r, .cons n K R, h => by
    obtain ⟨h1, _, _, h2⟩ := h
    obtain ⟨e1, e2⟩ := shows_tops (x := r) h2
    simp [Xml.topElements, Xml.topText, Trees.tops, h1, e1, e2]

theorem kinds_of {s : St} {F : Forest} (hF : Describes s F) : ∀ {T : Trees} {l : List NodeId}, T.Of F l →
    (∀ i ∈ T.pre, s.live i = true) →
    (∀ n ∈ T.pre, (s.nodeType n = .element ∧ ∃ e, s.tagName n = .id e) ∨
      (s.nodeType n = .text ∧ s.firstChild n = none ∧ s.text n ≠ []) ∨ (s.nodeType n = .comment ∧ s.firstChild n = none)) → T.Kinds s
  | .nil, _, _, _, _ => trivial
  | .cons n K R, _, h, hl, hk => by
    obtain ⟨l', rfl, hK, hR⟩ := h
    simp only [Trees.pre, List.mem_cons, List.mem_append] at hl hk
    have hnil : s.firstChild n = none → K = .nil := by
      intro hf
      rw [hF.shows.first n (hl n (.inl rfl)), List.head?_eq_none_iff] at hf
      rw [hf] at hK
      exact hK.nil_list
    refine ⟨kinds_of hF hK (fun i h => hl i (.inr (.inl h))) (fun i h => hk i (.inr (.inl h))),
      kinds_of hF hR (fun i h => hl i (.inr (.inr h))) (fun i h => hk i (.inr (.inr h))), ?_⟩
    rcases hk n (.inl rfl) with h | ⟨h1, h2, h3⟩ | ⟨h1, h2⟩
    · exact .inl h
    · exact .inr (.inl ⟨h1, hnil h2, h3⟩)
    · exact .inr (.inr ⟨h1, hnil h2⟩)

/-- What was written can be read, and shows the document, with the parts of the output. -/
theorem read_written_parts {s : St} (h : Reachable s) (ha : s.Acyclic) (W : ValueWriter) (q : Char) {F : Forest} (hF : Describes s F)
    {T : Trees} (hT : T.Of F (F.kids s.rootId)) (hw : WellFormed s W q T) :
    ∃ evs x, ∃ name : NodeId → Str, ∃ evAttrs : NodeId → List Ev, ∃ ra : NodeId → List (Str × Str), s.writeDom W = .ok evs ∧ readMarkup q evs = some x ∧ x.Shows s W q T ∧
      (∀ i ∈ T.pre, s.IsName i (name i) ∧ s.writeAttributes W i = .ok (evAttrs i) ∧ ∀ e ∈ evAttrs i, e.isAttribute = true) ∧
      (∀ i ∈ T.pre, s.nodeType i = .element → RawAttrs q (evAttrs i) (ra i)) ∧ T.Kinds s ∧
      (T.raw s name ra .nil).expand xmlScope = some x ∧ x.topElements = 1 ∧ x.topText = false := by
  have hroot : s.live s.rootId = true := by
    obtain ⟨_, hT⟩ := h.inv.tree; exact hT.root
  have hkl : ∀ c ∈ F.kids s.rootId, s.live c = true := fun c hc => (hF.wf.kids _ hroot c hc).1
  have hkp : ∀ a ∈ F.kids s.rootId, ∀ j ∈ F.kids s.rootId, s.parent a = s.parent j := by
    intro a ha' j hj
    rw [hF.shows.parent a (hkl a ha'), hF.shows.parent j (hkl j hj), (hF.wf.kids _ hroot a ha').2, (hF.wf.kids _ hroot j hj).2]
  have hnd := pre_nodup hF ha hT hkl (hF.wf.kids_nodup hroot) hkp
  have hlive := pre_live hF hT hkl
  obtain ⟨T', evs, name, evAttrs, hT', e, hm, hall⟩ := C45_markup h ha W hF
  cases hT.unique hT'
  have hra : ∀ i, ∃ ra, i ∈ T.pre → s.nodeType i = .element → RawAttrs q (evAttrs i) ra ∧ NodeAttrs s W q i ra := by
    intro i
    by_cases hi : i ∈ T.pre ∧ s.nodeType i = .element
    · obtain ⟨hi, ht⟩ := hi
      have hid : plainValue (s.idOf i) = true := by
        rcases hw.kinds i hi with h | h | h
        · exact h.2.2
        · rw [ht] at h; simp at h
        · rw [ht] at h; simp at h
      obtain ⟨es, ns, nss, ra, e1, e2, e3, e4, e7, e5, e6⟩ := element_attrs h ha W q (hlive i hi) hid (hw.attrs i hi)
      rw [(hall i hi).2.1] at e1
      cases e1
      exact ⟨_, fun _ _ => ⟨e4, ⟨e7, ns, nss, ra, rfl, e2, e3, e5, e6⟩⟩⟩
    · exact ⟨[], fun h1 h2 => absurd ⟨h1, h2⟩ hi⟩
  choose ra hra using hra
  have hsteps := readSteps_markup (q := q) (s := s) (name := name) (evs := evAttrs) (attrs := ra) T .nil [] (by
      intro i hi ht
      refine ⟨?_, (hra i hi ht).1⟩
      have hn := (hall i hi).1
      rcases hw.kinds i hi with h | h | h
      · obtain ⟨_, ⟨e, he⟩, _⟩ := h
        unfold St.IsName at hn
        rw [he] at hn
        exact (elem_name_ok e hn).1
      · rw [ht] at h; simp at h
      · rw [ht] at h; simp at h)
    (by
      intro i hi ht
      rcases hw.kinds i hi with h | h | h
      · rw [ht] at h; simp at h
      · exact h.2.2.2
      · rw [ht] at h; simp at h)
    (by
      intro i hi ht
      rcases hw.kinds i hi with h | h | h
      · rw [ht] at h; simp at h
      · rw [ht] at h; simp at h
      · exact h.2.2)
  have hkinds : T.Kinds s := kinds_of hF hT hlive (by
    intro n hn
    rcases hw.kinds n hn with h | h | h
    · exact .inl ⟨h.1, h.2.1⟩
    · exact .inr (.inl ⟨h.1, h.2.1, h.2.2.1⟩)
    · exact .inr (.inr ⟨h.1, h.2.1⟩))
  obtain ⟨top, htop, htype, htag⟩ := hw.top
  rw [tops_of hT] at htop
  obtain ⟨x, x1, x2⟩ := expand_top (W := W) (q := q) (name := name) (ra := ra) T (F.kids s.rootId) hT hnd hkinds hw.sep (by
      intro i hi ⟨_, p, hp, hpr⟩
      rw [hF.shows.parent i (hlive i hi)] at hp
      obtain ⟨h1, h2⟩ := hF.wf.par i (hlive i hi) p hp
      rw [(h.nodesOk.root p h1).1 hpr] at h2
      rw [h2]
      exact hF.wf.self_mem i (hlive i hi))
    (by
      intro i hi ht
      have : i ∈ (F.kids s.rootId).filter fun m => decide (s.nodeType m ≠ .comment) := by
        rw [List.mem_filter]; exact ⟨hi, by simp [ht]⟩
      rw [htop, List.mem_singleton] at this
      subst this
      refine ⟨htag, s.rootId, ?_, (h.nodesOk.root _ hroot).2 rfl⟩
      rw [hF.shows.parent i (hkl i hi)]
      exact (hF.wf.kids _ hroot i hi).2)
    (fun i hi => (hall i hi).1) (fun i hi ht => (hra i hi ht).2)
    (by
      intro n hn K hK i hi hh
      rcases List.mem_cons.1 hi with rfl | hi
      · exact ⟨i, hkl i hn, .refl, hh⟩
      · have hil : s.live i = true := pre_live hF hK (fun c hc => (hF.wf.kids n (hkl n hn) c hc).1) i hi
        exact ⟨i, hil, ((mem_pre_kids hF (hkl n hn) hK hil).1 hi).to_reflTransGen, hh⟩)
  have hraw : readRaw q evs = some (T.raw s name ra .nil) := by
    rw [readRaw, readSteps_content, hm, hsteps]
  have htops := shows_tops x2
  rw [tops_of hT] at htops
  have hone : x.topElements = 1 ∧ x.topText = false := by
    constructor
    · rw [htops.1]
      have : (F.kids s.rootId).filter (fun m => decide (s.nodeType m = .element)) =
          ((F.kids s.rootId).filter fun m => decide (s.nodeType m ≠ .comment)).filter fun m => decide (s.nodeType m = .element) := by
        rw [List.filter_filter]
        congr 1
        funext m
        by_cases hh : s.nodeType m = .element <;> simp [hh]
      rw [this, htop]
      simp [htype]
    · rw [htops.2, List.any_eq_false]
      intro m hm ht
      rw [decide_eq_true_eq] at ht
      have : m ∈ (F.kids s.rootId).filter fun m => decide (s.nodeType m ≠ .comment) := by
        rw [List.mem_filter]; exact ⟨hm, by simp [ht]⟩
      rw [htop, List.mem_singleton] at this
      subst this
      rw [htype] at ht; simp at ht
  refine ⟨evs, x, name, evAttrs, ra, e, ?_, x2, hall, fun i hi ht => (hra i hi ht).1, hkinds, x1, hone⟩
  simp [readMarkup, hraw, x1, hone.1, hone.2]

/-- What was written can be read, and shows the document. -/
theorem read_written {s : St} (h : Reachable s) (ha : s.Acyclic) (W : ValueWriter) (q : Char) {F : Forest} (hF : Describes s F)
    {T : Trees} (hT : T.Of F (F.kids s.rootId)) (hw : WellFormed s W q T) :
    ∃ evs x, s.writeDom W = .ok evs ∧ readMarkup q evs = some x ∧ x.Shows s W q T := by
  obtain ⟨evs, x, _, _, _, h1, h2, h3, _⟩ := read_written_parts h ha W q hF hT hw
  exact ⟨evs, x, h1, h2, h3⟩

end Svgdom
