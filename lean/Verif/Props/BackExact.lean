import Verif.Proof.SpreadText

/-!
# C62: exactly which texts come back
-/

set_option autoImplicit false

namespace Svgdom

theorem same_length {s t : St} {Q : NodeId → NodeId → Prop} : ∀ {T U : Trees}, T.Same s t Q U → U.pre.length = T.pre.length
  | .nil, .nil, _ => rfl
  | .nil, .cons _ _ _, h => h.elim
  | .cons _ _ _, .nil, h => h.elim
  | .cons _ _ _, .cons _ _ _, ⟨_, h2, h3⟩ => by simp [Trees.pre, same_length h2, same_length h3]

theorem same_both {s t t' : St} {Q Q' : NodeId → NodeId → Prop} : ∀ {T U : Trees}, T.Same s t Q U → T.Same s t' Q' U → ∀ j ∈ U.pre,
    t.nodeType j ≠ .element → t'.text j = t.text j
  | .nil, .nil, _, _, j, hj => by simp [Trees.pre] at hj
  | .nil, .cons _ _ _, h, _, _, _ => h.elim
  | .cons _ _ _, .nil, h, _, _, _ => h.elim
  | .cons n K R, .cons m K' R', ⟨h1, h2, h3⟩, ⟨g1, g2, g3⟩, j, hj => by
    simp only [Trees.pre, List.mem_cons, List.mem_append] at hj
    rcases hj with rfl | hj | hj
    · intro ht
      rw [h1.type] at ht
      rw [h1.text ht, g1.text ht]
    · exact same_both h2 g2 j hj
    · exact same_both h3 g3 j hj

theorem tidyT_other {s : St} {j : NodeId} (hj : s.nodeType j ≠ .text) : ∀ {T : Trees} {sp : XmlSpace} {τ : Texts}, T.tidyT s sp τ j = τ j
  | .nil, _, _ => rfl
  | .cons n K R, sp, τ => by
    rw [Trees.tidyT, tidyT_other hj]
    split
    · exact elementT_outside fun hc => hj hc.2
    · exact tidyT_other hj

/-- C62: if everything but the texts comes back, then the document comes back exactly if its texts are normal (C64). -/
theorem C62_text_exact {L : Lib} {s : St} (h : Reachable s) (ha : s.Acyclic) {F : Forest} (hF : Describes s F) (W : ValueWriter)
    (q : Char) {T : Trees} (hT : T.Of F (F.kids s.rootId)) (hc : ComesBack L s W q T) (debug : Bool) :
    ∃ evs x, s.writeDom W = .ok evs ∧ readMarkup q evs = some x ∧ ∀ x' : Xml, x'.unindent false = x →
      ∃ t G U, parseSvg L debug x' = .ok t ∧ Describes t G ∧ U.Of G (G.kids t.rootId) ∧ (SameDoc s T t U ↔ T.NormalText s) := by
  obtain ⟨evs, x, h1, h2, h3⟩ := read_written h ha W q hF hT hc.wf
  refine ⟨evs, x, h1, h2, ?_⟩
  rintro x' rfl
  have hr : s.live s.rootId = true := by obtain ⟨_, hti⟩ := h.inv.tree; exact hti.root
  have hl : ∀ n ∈ T.pre, s.live n = true := pre_live hF hT fun c hc => (hF.wf.kids _ hr c hc).1
  obtain ⟨p, U, G, s2, s3, f, e, hk, hs⟩ := front_same h debug hc.noSheet h3 (hc.readable hl) hc.wf.top
  have hO3 := f.of2
  rw [← f.root3] at hO3
  have hready := TextReady.parsed f
  obtain ⟨u, t, e2, hp⟩ := prepareText_ok f.built3 f.desc3 hO3 (fun j hj => front_region f hj)
  rw [hk] at hp hO3
  have hd3 := f.desc3
  have hleaf : T.Leaves s := leaves_of hT fun n hn he => by
    have hf : s.firstChild n = none := by
      rcases hc.wf.kinds n hn with h | h | h
      · exact absurd h.1 he
      · exact h.2.1
      · exact h.2.1
    rw [hF.shows.first n (hl n hn)] at hf
    exact List.head?_eq_none_iff.1 hf
  have hO := hp.of
  have hrt : t.rootId = s3.rootId := hp.removed.rootId.trans hp.ti.rootId
  rw [← hrt] at hO
  refine ⟨t, _, _, by rw [e, e2]; rfl, hp.desc, hO, fun hst => ?_, fun hn => ?_⟩
  · -- nothing was removed
    have hlen := (same_length hst).trans (same_length hs).symm
    rw [hp.pre] at hlen
    have hno : ∀ j ∈ U.pre, u.emptyText j = false := by
      intro j hj
      have hk := List.length_filter_eq_length_iff.1 hlen j hj
      cases hb : u.emptyText j with
      | false => rfl
      | true => rw [hb] at hk; cases hk
    rw [keep_none hno] at hst
    have htx : ∀ j, t.text j = s3.text j := by
      intro j
      by_cases hjt : s3.nodeType j = .text
      · by_cases hj : j ∈ U.pre
        · exact same_both hs hst j hj (by rw [hjt]; decide)
        · rw [hp.removed.texts, hp.tidy, tidyT_outside hj]
      · rw [hp.removed.texts, hp.tidy, tidyT_other hjt]
    have hmem := prepared_mem f.built3 hd3 hO3 hp
    have hnorm := (sameTexts_iff f.built3.safe f.built3.root hready e2 hd3 hO3).1 ⟨fun j => by
      rw [(hmem j).2, (hmem j).1]
      exact ⟨fun h => h.1, fun hj => ⟨hj, hno j hj⟩⟩, htx⟩
    refine ⟨fun n hn ht => ?_, by rw [← same_groups hs hleaf]; exact hnorm.groups⟩
    rcases hc.wf.kinds n hn with h | h | h
    · rw [ht] at h; simp at h
    · exact h.2.2.1
    · rw [ht] at h; simp at h
  · have hnorm : U.NormalText s3 := ⟨same_notEmpty hs hn.notEmpty, by rw [same_groups hs hleaf]; exact hn.groups⟩
    have hsame := (sameTexts_iff f.built3.safe f.built3.root hready e2 hd3 hO3).2 hnorm
    have hno : ∀ j ∈ U.pre, u.emptyText j = false := by
      intro j hj
      rw [Bool.eq_false_iff]
      intro hc
      obtain ⟨k1, k2⟩ := emptyText_iff.1 hc
      rw [hp.ti.types] at k1
      rw [← hp.removed.texts, hsame.text] at k2
      exact hnorm.notEmpty j hj k1 k2
    rw [keep_none hno]
    refine hs.trans_texts ?_ ?_ ?_ hsame.text ?_
    · intro j; rw [hp.removed.types, hp.ti.types]
    · intro j; rw [hp.removed.tags, hp.ti.tags]
    · intro j; rw [hp.removed.ids, hp.ti.ids]
    · intro j hj
      exact hp.attrs j (front_region f (by rw [hk]; exact hj)).live

/-- C62 for parsed documents. -/
theorem C62_parsed_text_exact {L : Lib} {debug : Bool} {x : Xml} {t : St} (e : parseSvg L debug x = .ok t) (hx : x.topElements = 1)
    (hx2 : x.topText = false) {F : Forest} (hF : Describes t F) {T : Trees} (hT : T.Of F (F.kids t.rootId)) (W : ValueWriter) (q : Char)
    (h : CanComeBack L t W q T) :
    ∃ evs y, t.writeDom W = .ok evs ∧ readMarkup q evs = some y ∧ ∀ y' : Xml, y'.unindent false = y →
      ∃ u G U, parseSvg L debug y' = .ok u ∧ Describes u G ∧ U.Of G (G.kids u.rootId) ∧ (SameDoc t T u U ↔ T.NormalText t) :=
  C62_text_exact (C44_reachable e).1.reachable (C44_tree e).2 hF W q hT (comesBack_parsed e hx hx2 hF hT h) debug

/-! ## Examples -/

/-- A parsed document that meets the assumptions and does not come back: `<svg><text> <tspan>a </tspan>b</text></svg>`.
For documents that come back see the examples beside `C62_text_partial`. -/
example : ∃ t F T, parseSvg sampleLib true againXml = .ok t ∧ againXml.topElements = 1 ∧ againXml.topText = false ∧ Describes t F ∧
    T.Of F (F.kids t.rootId) ∧ CanComeBack sampleLib t sampleWriter '"' T ∧ ¬ T.NormalText t := by
  let T : Trees := .cons 1 (.cons 2 (.cons 4 (.cons 5 .nil .nil) (.cons 6 .nil .nil)) .nil) .nil
  obtain ⟨t, e, hp⟩ := exists_of_parsed (x := againXml) (p := fun t => comesBackB t 7 T && !decide (T.NormalText t)) (by decide +kernel)
  simp only [Bool.and_eq_true, Bool.not_eq_true', decide_eq_false_iff_not] at hp
  obtain ⟨e1, e2⟩ := hp
  obtain ⟨F, _, h2, h3, h4⟩ := comesBack_of_check (C44_reachable e).1.reachable e1
  exact ⟨t, F, T, e, rfl, rfl, h2, h3, h4.can, e2⟩

end Svgdom
