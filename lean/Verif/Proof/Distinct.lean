import Verif.Spec.Distinct
import Verif.Props.Writer
import Verif.Props.Names

/-! Helper lemmas about the names of written attributes. -/

set_option autoImplicit false

namespace Svgdom

theorem qualified_unique {i : AttributeId} {x y : Str} (h : i.IsQualified x) (h' : i.IsQualified y) : x = y := by
  unfold AttributeId.IsQualified at h h'
  split at h
  · exact h.trans h'.symm
  · exact h.trans h'.symm
  · next h1 h2 =>
    split at h'
    · exact absurd rfl h1
    · exact absurd rfl h2
    · rw [h] at h'
      exact Except.ok.inj h'

theorem no_colon (i : AttributeId) {x : Str} (h : i.asStr? = .ok x) : ':' ∉ x := by
  have key : ∀ i ∈ AttributeId.all, (match i.asStr? with | .ok x => decide (':' ∉ x) | .error _ => true) = true := by decide +kernel
  have := key i (List.mem_of_getElem? (AttributeId.all_get i))
  rw [h] at this
  simpa using this

theorem qualified_inj {i j : AttributeId} {x : Str} (h : i.IsQualified x) (h' : j.IsQualified x) : i = j := by
  have href : ∀ k : AttributeId, k.asStr? ≠ .ok st!"xlink:href" := fun k e => no_colon k e (by decide)
  have space : ∀ k : AttributeId, k.asStr? ≠ .ok st!"xml:space" := fun k e => no_colon k e (by decide)
  unfold AttributeId.IsQualified at h h'
  split at h <;> split at h'
  · rfl
  · rw [h] at h'; exact absurd h' (by decide)
  · rw [h] at h'; exact absurd h' (href _)
  · rw [h] at h'; exact absurd h' (by decide)
  · rfl
  · rw [h] at h'; exact absurd h' (space _)
  · rw [h'] at h; exact absurd h (href _)
  · rw [h'] at h; exact absurd h (space _)
  · exact C28_attribute_injective i j (h.trans h'.symm)

theorem qualified_id {i : AttributeId} : i.IsQualified st!"id" ↔ i = .Id := by
  refine ⟨fun h => qualified_inj h (j := .Id) ?_, ?_⟩
  · show AttributeId.Id.asStr? = _; decide +kernel
  · rintro rfl; show AttributeId.Id.asStr? = _; decide +kernel

theorem qualified_xmlns {i : AttributeId} : i.IsQualified st!"xmlns" ↔ i = .Xmlns := by
  refine ⟨fun h => qualified_inj h (j := .Xmlns) ?_, ?_⟩
  · show AttributeId.Xmlns.asStr? = _; decide +kernel
  · rintro rfl; show AttributeId.Xmlns.asStr? = _; decide +kernel

theorem qualified_xlink {i : AttributeId} : ¬ i.IsQualified st!"xmlns:xlink" := by
  intro h
  unfold AttributeId.IsQualified at h
  split at h
  · exact absurd h (by decide)
  · exact absurd h (by decide)
  · exact no_colon _ h (by decide)

theorem attrNames_append (a b : List Ev) : attrNames (a ++ b) = attrNames a ++ attrNames b := List.filterMap_append

/-- Is anything written for the pair? -/
def pairWritten (p : AttributeId × AttributeValue) : Bool := (Attribute.mk (.id p.1) p.2).isWritten

theorem attrNames_svg (s : St) (W : ValueWriter) (name : AttributeId → Str) (L : List (AttributeId × AttributeValue)) :
    attrNames (L.flatMap fun p => s.svgEvents W (name p.1) p) = (L.filter pairWritten).map fun p => name p.1 := by
  induction L with
  | nil => rfl
  | cons p L ih =>
    rw [List.flatMap_cons, attrNames_append, ih, List.filter_cons]
    obtain ⟨i, v⟩ := p
    unfold St.svgEvents
    split
    · next hh => cases hh; simp [attrNames, pairWritten, Attribute.isWritten]
    · next hne hh =>
      obtain ⟨rfl, rfl⟩ := Prod.mk.inj hh
      have : pairWritten (.Unicode, v) = false := by
        unfold pairWritten Attribute.isWritten
        cases v <;> first | rfl | exact absurd rfl (hne _)
      simp [attrNames, this]
    · next h1 h2 hh =>
      obtain ⟨rfl, rfl⟩ := Prod.mk.inj hh
      have : pairWritten (i, v) = true := by
        unfold pairWritten Attribute.isWritten
        split
        · rfl
        · next h _ => exact (h2 (by simpa using h)).elim
        · rfl
      simp [attrNames, this]

theorem attrNames_other (s : St) (W : ValueWriter) (L : List (Str × AttributeValue)) :
    attrNames (L.map fun p => .attributeRaw p.1 (s.writeValue W p.2)) = L.map (·.1) := by
  induction L with
  | nil => rfl
  | cons p L ih =>
    show p.1 :: attrNames _ = _
    rw [ih]; rfl

theorem mem_svgPairs {l : List Attribute} {p : AttributeId × AttributeValue} : p ∈ svgPairs l ↔ ⟨.id p.1, p.2⟩ ∈ l := by
  unfold svgPairs
  rw [List.mem_filterMap]
  constructor
  · rintro ⟨⟨n, v⟩, hm, e⟩
    cases n with
    | id i => simp only [Option.some.injEq] at e; subst e; exact hm
    | name x => simp at e
  · intro h
    exact ⟨_, h, rfl⟩

theorem mem_otherPairs {l : List Attribute} {p : Str × AttributeValue} : p ∈ otherPairs l ↔ ⟨.name p.1, p.2⟩ ∈ l := by
  unfold otherPairs
  rw [List.mem_filterMap]
  constructor
  · rintro ⟨⟨n, v⟩, hm, e⟩
    cases n with
    | id i => simp at e
    | name x => simp only [Option.some.injEq] at e; subst e; exact hm
  · intro h
    exact ⟨_, h, rfl⟩

theorem otherPairs_nodup {l : List Attribute} (h : NamesNodup l) : ((otherPairs l).map (·.1)).Nodup := by
  unfold NamesNodup at h
  induction l with
  | nil => exact List.nodup_nil
  | cons a l ih =>
    rw [List.map_cons, List.nodup_cons] at h
    have ih := ih h.2
    obtain ⟨n, v⟩ := a
    cases n with
    | id x => exact ih
    | name x =>
      show (x :: (otherPairs l).map (·.1)).Nodup
      rw [List.nodup_cons]
      refine ⟨?_, ih⟩
      intro hi
      obtain ⟨p, hp, e⟩ := List.mem_map.1 hi
      refine h.1 (List.mem_map.2 ⟨_, mem_otherPairs.1 hp, ?_⟩)
      rw [← e]

/-- The attributes of an element are written under different names exactly if `DistinctNames`. -/
theorem writeAttributes_distinct {s : St} (h : Reachable s) (ha : s.Acyclic) (W : ValueWriter) {n : NodeId} (hn : s.live n = true) :
    ∃ es, s.writeAttributes W n = .ok es ∧ ((attrNames es).Nodup ↔ DistinctNames s n) := by
  obtain ⟨ns, L, name, e, hN, _, hL, hs, hq⟩ := C46_attributes h ha W hn
  refine ⟨_, e, ?_⟩
  have hnames := h.inv.link.names n hn
  rw [attrNames_append, attrNames_append, attrNames_append, attrNames_svg, attrNames_other]
  have hsvg : ((L.filter pairWritten).map fun p => name p.1).Nodup := by
    rw [List.Nodup, List.pairwise_map]
    refine (hs.filter _).imp ?_
    intro a b hab hc
    have := qualified_inj (hq a.1) (hc ▸ hq b.1)
    rw [this] at hab
    exact Nat.lt_irrefl _ hab
  have hoth := otherPairs_nodup hnames
  have msvg : ∀ x, x ∈ ((L.filter pairWritten).map fun p => name p.1) ↔
      ∃ a ∈ s.attributes n, ∃ i, a.name = .id i ∧ a.isWritten = true ∧ i.IsQualified x := by
    intro x
    rw [List.mem_map]
    constructor
    · rintro ⟨p, hp, rfl⟩
      rw [List.mem_filter, hL.mem_iff, mem_svgPairs] at hp
      exact ⟨_, hp.1, p.1, rfl, hp.2, hq _⟩
    · rintro ⟨⟨nm, v⟩, hm, i, rfl, hw, hx⟩
      refine ⟨(i, v), ?_, qualified_unique (hq i) hx⟩
      rw [List.mem_filter, hL.mem_iff, mem_svgPairs]
      exact ⟨hm, hw⟩
  have moth : ∀ x, x ∈ (otherPairs (s.attributes n)).map (·.1) ↔ ∃ a ∈ s.attributes n, a.name = .name x := by
    intro x
    rw [List.mem_map]
    constructor
    · rintro ⟨p, hp, rfl⟩
      exact ⟨_, mem_otherPairs.1 hp, rfl⟩
    · rintro ⟨⟨nm, v⟩, hm, rfl⟩
      exact ⟨(x, v), mem_otherPairs.2 hm, rfl⟩
  have mid : ∀ x, x ∈ attrNames (if s.idOf n = [] then [] else [Ev.attribute st!"id" (s.idOf n)]) ↔ s.idOf n ≠ [] ∧ x = st!"id" := by
    intro x
    split
    · next hh => simp [hh, attrNames]
    · next hh => simp [hh, attrNames]
  have hid : (attrNames (if s.idOf n = [] then [] else [Ev.attribute st!"id" (s.idOf n)])).Nodup := by
    split <;> simp [attrNames]
  have mns : ∀ x, x ∈ attrNames ns ↔ s.TopSvg n ∧ (x = st!"xmlns" ∨ s.UsesXlink n ∧ x = st!"xmlns:xlink") := by
    intro x
    by_cases ht : s.TopSvg n
    · by_cases hu : s.UsesXlink n
      · rw [hN.xlink ht hu]; simp [ht, hu, attrNames, xmlnsDecl, xlinkDecl]
      · rw [hN.plain ht hu]; simp [ht, hu, attrNames, xmlnsDecl]
    · rw [hN.other ht]; simp [ht, attrNames]
  have hns : (attrNames ns).Nodup := by
    by_cases ht : s.TopSvg n
    · by_cases hu : s.UsesXlink n
      · rw [hN.xlink ht hu]; decide
      · rw [hN.plain ht hu]; decide
    · rw [hN.other ht]; decide
  generalize hA : attrNames (if s.idOf n = [] then [] else [Ev.attribute st!"id" (s.idOf n)]) = A at mid hid
  generalize attrNames ns = B at mns hns
  generalize ((L.filter pairWritten).map fun p => name p.1) = C at msvg hsvg
  generalize (otherPairs (s.attributes n)).map (·.1) = D at moth hoth
  rw [List.nodup_append, List.nodup_append, List.nodup_append]
  constructor
  · rintro ⟨⟨⟨_, _, h1⟩, _, h2⟩, _, h3⟩
    refine ⟨fun hi a ham => ⟨fun hc => ?_, fun hc => ?_⟩, fun ht a ham => ⟨fun hc => ?_, fun hc => ?_⟩, fun ht hu a ham hc => ?_, ?_⟩
    · exact h2 _ (List.mem_append_right _ ((mid _).2 ⟨hi, rfl⟩)) _
        ((msvg _).2 ⟨a, ham, _, hc, by unfold Attribute.isWritten; rw [hc], qualified_id.2 rfl⟩) rfl
    · exact h3 _ (List.mem_append_left _ (List.mem_append_right _ ((mid _).2 ⟨hi, rfl⟩))) _ ((moth _).2 ⟨a, ham, hc⟩) rfl
    · exact h2 _ (List.mem_append_left _ ((mns _).2 ⟨ht, .inl rfl⟩)) _
        ((msvg _).2 ⟨a, ham, _, hc, by unfold Attribute.isWritten; rw [hc], qualified_xmlns.2 rfl⟩) rfl
    · exact h3 _ (List.mem_append_left _ (List.mem_append_left _ ((mns _).2 ⟨ht, .inl rfl⟩))) _ ((moth _).2 ⟨a, ham, hc⟩) rfl
    · exact h3 _ (List.mem_append_left _ (List.mem_append_left _ ((mns _).2 ⟨ht, .inr ⟨hu, rfl⟩⟩))) _ ((moth _).2 ⟨a, ham, hc⟩) rfl
    · intro a ham b hbm i x hi hx hw hc
      exact h3 _ (List.mem_append_right _ ((msvg _).2 ⟨a, ham, i, hi, hw, hc⟩)) _ ((moth _).2 ⟨b, hbm, hx⟩) rfl
  · intro hd
    refine ⟨⟨⟨hns, hid, ?_⟩, hsvg, ?_⟩, hoth, ?_⟩
    · rintro x hx y hy rfl
      rw [mid] at hy
      rw [mns, hy.2] at hx
      rcases hx.2 with hx | ⟨_, hx⟩ <;> exact absurd hx (by decide)
    · rintro x hx y hy rfl
      obtain ⟨a, ham, i, hi, hw, hxi⟩ := (msvg _).1 hy
      rcases List.mem_append.1 hx with hx | hx
      · rw [mns] at hx
        rcases hx with ⟨ht, rfl | ⟨hu, rfl⟩⟩
        · exact (hd.xmlns ht a ham).1 (by rw [hi, qualified_xmlns.1 hxi])
        · exact qualified_xlink hxi
      · obtain ⟨h1, rfl⟩ := (mid _).1 hx
        exact (hd.id h1 a ham).1 (by rw [hi, qualified_id.1 hxi])
    · rintro x hx y hy rfl
      obtain ⟨b, hbm, hb⟩ := (moth _).1 hy
      rcases List.mem_append.1 hx with hx | hx
      · rcases List.mem_append.1 hx with hx | hx
        · rw [mns] at hx
          rcases hx with ⟨ht, rfl | ⟨hu, rfl⟩⟩
          · exact (hd.xmlns ht b hbm).2 hb
          · exact hd.xlink ht hu b hbm hb
        · obtain ⟨h1, rfl⟩ := (mid _).1 hx
          exact (hd.id h1 b hbm).2 hb
      · obtain ⟨a, ham, i, hi, hw, hxi⟩ := (msvg _).1 hx
        exact hd.names a ham b hbm i x hi hb hw hxi

end Svgdom
