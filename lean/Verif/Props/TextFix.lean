import Verif.Proof.TextFix
import Verif.Props.Targets
import Verif.Props.TextExact

/-!
# C64: text that needs no processing
-/

set_option autoImplicit false

namespace Svgdom

open Relation

/-- C64: text processing changes nothing exactly if the texts are normal. -/
theorem C64_normal {s t : St} (h1 : SafeReachable s) (h2 : RootSafeReachable s) (h : TextReady s) (e : s.prepareText = .ok t)
    {F : Forest} (hF : Describes s F) {T : Trees} (hT : T.Of F (F.kids s.rootId)) : SameTexts s t ↔ T.NormalText s :=
  sameTexts_iff h1 h2 h e hF hT

/-- A processed document can be processed again. -/
theorem TextReady.again {s t : St} (h1 : SafeReachable s) (h2 : RootSafeReachable s) (h : TextReady s) (e : s.prepareText = .ok t) :
    SafeReachable t ∧ RootSafeReachable t ∧ TextReady t := by
  have hb : Built s := ⟨h1, h2⟩
  obtain ⟨F, T, u, hF, hT, hp⟩ := prepared_ok h1 h2 h e
  have hm := prepared_mem hb hF hT hp
  have hs : ∀ j, t.InTree j → s.InTree j := fun j hj => (hm j).1.2 ((hm j).2.1 hj).1
  refine ⟨hp.built.safe, hp.built.root, ?_, ?_, ?_⟩
  · intro j hj hk
    rw [hp.removed.types, hp.ti.types]
    refine h.kids j (hs j hj) ?_
    rw [hF.shows.first j (hs j hj).1]
    rw [hp.desc.shows.first j hj.1] at hk
    intro hc
    apply hk
    rw [List.head?_eq_none_iff] at hc ⊢
    simp only [Forest.prune, hc]
    split <;> rfl
  · intro j hj ht
    rw [hp.removed.types, hp.ti.types] at ht
    obtain ⟨k1, k2⟩ := h.texts j (hs j hj) ht
    refine ⟨by rw [hp.attrs j (hs j hj).1, k1], ?_⟩
    have := hp.removed.linked j (by rw [hp.ti.live]; exact (hs j hj).1)
    rw [hp.ti.linked, k2] at this
    exact List.sublist_nil.1 this
  · intro j hj a ha
    rw [hp.attrs j (hs j hj).1] at ha
    exact h.space j (hs j hj) a ha

theorem normal_of_content {τ : NodeId → Str} : ∀ {l : List NodeId}, (∀ j ∈ l, τ j ≠ [] ∧ Clean (τ j)) → NoDouble (l.flatMap τ) →
    startsSp (l.flatMap τ) = false → endsSp (l.flatMap τ) = false → NormalTexts (l.map fun j => (.default, τ j)) := by
  intro l hne hnd hs he
  have hnds : ∀ {l : List NodeId}, NoDouble (l.flatMap τ) → ∀ j ∈ l, NoDouble (τ j) := by
    intro l
    induction l with
    | nil => simp
    | cons a l ih =>
      intro h j hj
      rw [List.flatMap_cons, noDouble_append] at h
      rcases List.mem_cons.1 hj with rfl | hj
      · exact h.1
      · exact ih h.2.1 j hj
  have hch : ∀ {l : List NodeId}, (∀ j ∈ l, τ j ≠ []) → NoDouble (l.flatMap τ) →
      l.IsChain fun a b => ¬ (XmlSpace.default = XmlSpace.default ∧ (τ a).getLast? = some ' ' ∧ (τ b).head? = some ' ') := by
    intro l
    induction l with
    | nil => intros; exact .nil
    | cons a l ih =>
      intro h0 h
      rw [List.flatMap_cons, noDouble_append] at h
      cases l with
      | nil => exact .singleton _
      | cons b l =>
        refine List.isChain_cons_cons.2 ⟨?_, ih (fun j hj => h0 j (by simp [hj])) h.2.1⟩
        rintro ⟨_, k1, k2⟩
        refine h.2.2 ⟨decide_eq_true k1, ?_⟩
        rw [List.flatMap_cons, startsSp_append _ (h0 b (by simp))]
        exact decide_eq_true k2
  refine ⟨?_, ?_, ?_, ?_⟩
  · intro p hp
    obtain ⟨j, hj, rfl⟩ := List.mem_map.1 hp
    refine ⟨(hne j hj).1, ?_⟩
    simp only [spaced]
    rw [map_toSpace_clean (hne j hj).2, squeeze_of_noDouble (hnds hnd j hj)]
  · rw [List.isChain_map]
    exact hch (fun j hj => (hne j hj).1) hnd
  · intro p hp _
    rw [List.head?_map, Option.mem_def, Option.map_eq_some_iff] at hp
    obtain ⟨x, hx, rfl⟩ := hp
    cases l with
    | nil => simp at hx
    | cons a l =>
      cases hx
      rw [List.flatMap_cons, startsSp_append _ (hne x (by simp)).1] at hs
      exact of_decide_eq_false hs
  · intro p hp _
    rw [List.getLast?_map, Option.mem_def, Option.map_eq_some_iff] at hp
    obtain ⟨x, hx, rfl⟩ := hp
    obtain ⟨l', rfl⟩ := List.getLast?_eq_some_iff.1 hx
    rw [List.flatMap_append, List.flatMap_cons, List.flatMap_nil, List.append_nil, endsSp_append _ (hne x (by simp)).1] at he
    exact of_decide_eq_false he

theorem startsSp_stripStart (t : Str) : startsSp (t.dropWhile (· == ' ')) = false := by
  induction t with
  | nil => rfl
  | cons c t ih =>
    rw [List.dropWhile_cons]
    split
    · exact ih
    · next hc => simpa [startsSp] using hc

theorem strip_sides (t : Str) : startsSp (strip t) = false ∧ endsSp (strip t) = false := by
  have key : ∀ u : Str, startsSp u = false → startsSp ((u.reverse.dropWhile (· == ' ')).reverse) = false := by
    intro u hu
    cases u with
    | nil => rfl
    | cons c u =>
      have hc : c ≠ ' ' := by simpa [startsSp] using hu
      rw [List.reverse_cons, List.dropWhile_append]
      split
      · simp [List.dropWhile_cons, hc, startsSp]
      · simp [hc, startsSp]
  refine ⟨key _ (startsSp_stripStart t), ?_⟩
  rw [strip, ← startsSp_reverse, List.reverse_reverse]
  exact startsSp_stripStart _

theorem noDouble_strip {t : Str} (h : NoDouble t) : NoDouble (strip t) := by
  intro a b hab
  obtain ⟨x, hx⟩ : ∃ x, t = x ++ t.dropWhile (· == ' ') := ⟨_, List.takeWhile_append_dropWhile.symm⟩
  obtain ⟨y, hy⟩ : ∃ y, t.dropWhile (· == ' ') = strip t ++ y := by
    refine ⟨((t.dropWhile (· == ' ')).reverse.takeWhile (· == ' ')).reverse, ?_⟩
    rw [strip, ← List.reverse_append, List.takeWhile_append_dropWhile, List.reverse_reverse]
  refine h (x ++ a) (b ++ y) ?_
  rw [hx, hy, hab]
  simp

theorem ink_visible {t : Str} (h : Visible t) : ink t ≠ [] := by
  obtain ⟨c, hc, hw⟩ := h
  refine List.ne_nil_of_mem (a := c) (List.mem_filter.2 ⟨hc, decide_eq_true fun hs => ?_⟩)
  rw [toSpace] at hs
  split at hs
  · next h' => revert hw; rcases h' with rfl | rfl | rfl <;> decide
  · subst hs; revert hw; decide

/-- What is assumed about a text root: no `xml:space="preserve"`, no two texts in a row without visible characters, a visible
character in the first text; if there are two texts, no space at both ends. -/
structure Tidy (s : St) (n : NodeId) : Prop where
  mode : NoPreserve s n
  white : ∀ j ∈ s.textsBelow n, Spaces (s.text j) ∨ Visible (s.text j)
  apart : (s.textsBelow n).IsChain fun a b => Visible (s.text a) ∨ Visible (s.text b)
  first : ∀ a ∈ (s.textsBelow n).head?, Visible (s.text a)
  ends : ∀ a b, s.textsBelow n = [a, b] → ¬ ((∃ c ∈ (s.text a).head?, toSpace c = ' ') ∧ ∃ c ∈ (s.text b).getLast?, toSpace c = ' ')

/-- C64: a processed document is not changed by processing it again.
Not always (`C64_refuted`); the texts of each text root must be `Tidy`. -/
theorem C64_idempotent_partial {s t : St} (h1 : SafeReachable s) (h2 : RootSafeReachable s) (h : TextReady s) (e : s.prepareText = .ok t)
    (ht : ∀ n, TextRoot s n → Tidy s n) : ∃ t', t.prepareText = .ok t' ∧ SameTexts t t' := by
  have hb : Built s := ⟨h1, h2⟩
  obtain ⟨F, T, u, hF, hT, hp⟩ := prepared_ok h1 h2 h e
  obtain ⟨r1, r2, r3⟩ := h.again h1 h2 e
  obtain ⟨t', e'⟩ := C36_returns r1 r2 r3
  refine ⟨t', e', ?_⟩
  have hbt : Built t := ⟨r1, r2⟩
  have hm := prepared_mem hb hF hT hp
  have hrt : t.rootId = s.rootId := hp.removed.rootId.trans hp.ti.rootId
  have hlive : t.live = s.live := hp.removed.live.trans hp.ti.live
  have hof := hp.of
  rw [← hrt] at hof
  rw [sameTexts_iff r1 r2 r3 e' hp.desc hof]
  have hne : ∀ j ∈ (T.keep u.emptyText).pre, t.nodeType j = .text → t.text j ≠ [] := by
    intro j hj hjt
    rw [hp.pre, List.mem_filter, Bool.not_eq_true', ← Bool.not_eq_true, emptyText_iff] at hj
    rw [hp.removed.types] at hjt
    rw [hp.removed.texts]
    exact fun hc => hj.2 ⟨hjt, hc⟩
  refine ⟨hne, ?_⟩
  have hrl := hbt.rootLive
  obtain ⟨K', hK', _, hnd, _⟩ := kids_tree hbt hp.desc hrl
  cases hof.unique hK'
  have hkl : ∀ i ∈ (F.prune (T.pre.filter u.emptyText)).kids t.rootId, t.live i = true := fun i hi => (hp.desc.wf.kids _ hrl i hi).1
  obtain ⟨g1, _⟩ := groups_root (sp := .default) hp.desc hbt.acyclic hof hkl hnd fun i hi =>
    ⟨t.rootId, by rw [hp.desc.shows.parent i (hkl i hi)]; exact (hp.desc.wf.kids _ hrl i hi).2, .root⟩
  intro g hg
  obtain ⟨n, hn, hst, hout, m, K, hmo, hK, rfl⟩ := g1 g hg
  -- the document before
  have hin : ∀ j, t.InTree j ↔ j ∈ (T.keep u.emptyText).pre := by
    intro j
    rw [(hm j).2, hp.pre, List.mem_filter, Bool.not_eq_true']
  have hins : ∀ j, t.InTree j → s.InTree j := fun j hj => (hm j).1.2 ((hm j).2.1 hj).1
  have hpar : ∀ j, t.InTree j → t.parent j = s.parent j := by
    intro j hj
    rw [hp.desc.shows.parent j hj.1, hF.shows.parent j (hins j hj).1]
    simp only [Forest.prune]
    rw [if_neg]
    intro hc
    rw [List.mem_filter] at hc
    rw [((hm j).2.1 hj).2] at hc
    simp at hc
  have hparS : ∀ {j p}, t.live j = true → t.parent j = some p → s.parent j = some p := by
    intro j p hj hjp
    have hjs : s.live j = true := by rw [← hlive]; exact hj
    rw [hp.desc.shows.parent j hj] at hjp
    rw [hF.shows.parent j hjs]
    simp only [Forest.prune] at hjp
    split at hjp
    · cases hjp
    · exact hjp
  have hup : ∀ {i a : NodeId}, t.Ancestor a i → t.live i = true → t.live a = true ∧ s.Ancestor a i := by
    intro i a hia
    induction hia using TransGen.head_induction_on with
    | single hx =>
      intro hi
      exact ⟨(hp.desc.wf.par _ hi _ (by rw [← hp.desc.shows.parent _ hi]; exact hx)).1, .single (hparS hi hx)⟩
    | head hx _ ih =>
      intro hi
      obtain ⟨k1, k2⟩ := ih (hp.desc.wf.par _ hi _ (by rw [← hp.desc.shows.parent _ hi]; exact hx)).1
      exact ⟨k1, .head (hparS hi hx) k2⟩
  have hkeep : ∀ {j}, s.InTree j → s.nodeType j ≠ .text → t.InTree j := by
    intro j hj hjt
    refine (hm j).2.2 ⟨(hm j).1.1 hj, ?_⟩
    rw [← Bool.not_eq_true, emptyText_iff, hp.ti.types]
    exact fun hc => hjt hc.1
  have hfirst : ∀ {j c}, t.InTree j → s.firstChild j = some c → u.emptyText c = false → t.firstChild j = some c := by
    intro j c hj hc hce
    have hjs := hins j hj
    rw [hF.shows.first j hjs.1] at hc
    rw [hp.desc.shows.first j hj.1]
    simp only [Forest.prune]
    rw [if_neg]
    · cases hx : F.kids j with
      | nil => rw [hx] at hc; cases hc
      | cons d l =>
        rw [hx] at hc
        cases hc
        rw [List.filter_cons_of_pos]
        · rfl
        · simp [hce]
    · rw [List.mem_filter, ((hm j).2.1 hj).2]
      simp
  have hdown : ∀ {a i : NodeId}, s.Ancestor a i → t.InTree i → s.InTree a → t.Ancestor a i := by
    intro a i hia
    induction hia using TransGen.head_induction_on with
    | single hx => intro hi _; exact .single ((hpar _ hi).trans hx)
    | @head i b hx hba ih =>
      intro hi ha
      have hx : s.parent i = some b := hx
      have hil := (hins i hi).1
      have hbl := (hF.wf.par _ hil _ (by rw [← hF.shows.parent _ hil]; exact hx))
      have hbT : s.InTree b := ⟨hbl.1, hba.trans ha.2⟩
      refine .head (b := b) ((hpar _ hi).trans hx) (ih (hkeep hbT ?_) ha)
      have := h.kids b hbT (by
        rw [hF.shows.first b hbl.1]
        have := hbl.2
        intro hc
        rw [List.head?_eq_none_iff] at hc
        rw [hc] at this
        have hself := hF.wf.self_mem i hil
        rw [← this] at hself
        cases hself)
      rw [this]; decide
  have hnT := (hin n).2 hn
  have hns := hins n hnT
  -- the same text root before
  have hnr : TextRoot s n := by
    refine ⟨hns, ?_, ?_⟩
    · obtain ⟨c', hc', hct⟩ := hst
      cases hc : s.firstChild n with
      | none =>
        rw [hF.shows.first n hns.1, List.head?_eq_none_iff] at hc
        rw [hp.desc.shows.first n hnT.1] at hc'
        simp only [Forest.prune, hc] at hc'
        split at hc' <;> cases hc'
      | some c =>
        refine ⟨c, hc, ?_⟩
        by_contra hne'
        have hce : u.emptyText c = false := by
          rw [← Bool.not_eq_true, emptyText_iff, hp.ti.types]
          exact fun hx => hne' hx.1
        rw [hfirst hnT hc hce] at hc'
        cases hc'
        rw [hp.removed.types, hp.ti.types] at hct
        exact hne' hct
    · intro a ha hsa han
      obtain ⟨o, ho, hoa⟩ := exists_textRoot hb ha hsa
      have hon : s.Ancestor o n := by
        rcases hoa with rfl | hoa
        · exact han
        · exact han.trans hoa
      obtain ⟨sp, F', K', hr⟩ := processed h1 h2 h e ho
      obtain ⟨c, L, hL, hc, hcp⟩ := hr.first ho.starts
      have hfst := hr.fst
      rw [hL] at hfst
      have hv := (ht o ho).first c (by rw [← hfst]; simp)
      have hoel : s.nodeType o ≠ .text := by
        rw [h.kids o ho.tree (by rw [hc]; simp)]; decide
      have hoT := hkeep ho.tree hoel
      refine hout o ((hin o).1 hoT) ⟨c, hfirst hoT hc ?_, ?_⟩ (hdown hon hnT ho.tree)
      · rw [← Bool.not_eq_true, emptyText_iff]
        rintro ⟨-, hx⟩
        refine ink_visible hv ?_
        rw [← C53_ink h1 h2 h e, hp.removed.texts, hx]; rfl
      · rw [hp.removed.types, hp.ti.types]
        obtain ⟨c', hc', hct⟩ := ho.starts
        rw [hc] at hc'; cases hc'
        exact hct
  have hnt : TextRoot t n := ⟨hnT, hst, fun a ha => hout a ((hin a).1 ha)⟩
  have hty := ht n hnr
  -- modes
  have hspace : ∀ a, t.live a = true → (a = n ∨ t.Ancestor a n ∨ t.Ancestor n a) → t.spaceAt a .default = .default := by
    intro a ha hx
    have hal : s.live a = true := by rw [← hlive]; exact ha
    have := hty.mode a hal (by
      rcases hx with hx | hx | hx
      · exact .inl hx
      · exact .inr (.inl (hup hx hnT.1).2)
      · exact .inr (.inr (hup hx ha).2))
    unfold St.spaceAt at this ⊢
    rw [hp.attrs a hal]; exact this
  have hmd : m = .default := Mode.default hmo fun a hx => hspace a (by
    rcases hx with rfl | hx
    · exact hnT.1
    · exact (hup hx hnT.1).1) (by
    rcases hx with hx | hx
    · exact .inl hx
    · exact .inr (.inl hx))
  subst hmd
  have hkn := hp.desc.wf.kids n hnT.1
  have hpl := pre_live hp.desc hK fun i hi => (hkn i hi).1
  have hanc : ∀ j ∈ K.pre, t.Ancestor n j := fun j hj => (mem_pre_kids hp.desc hnT.1 hK (hpl j hj)).1 hj
  have hmod : ∀ j, t.live j = true → t.Ancestor n j → t.modeOf j .default = .default := by
    intro j hj hnj
    unfold St.modeOf
    split
    · next p hjp =>
      refine hspace p (hp.desc.wf.par _ hj _ (by rw [← hp.desc.shows.parent _ hj]; exact hjp)).1 ?_
      obtain ⟨b, hb', hbe⟩ := TransGen.head'_iff.1 hnj
      have hb' : t.parent j = some b := hb'
      rw [hjp] at hb'; cases hb'
      rcases reflTransGen_iff_eq_or_transGen.1 hbe with h | h
      · exact .inl h.symm
      · exact .inr (.inr h)
    · rfl
  rw [items_eq hp.desc .default hK (fun i hi => (hkn i hi).1) fun i hi => hmod i (hkn i hi).1 (hanc i (hK.top_mem i hi))]
  obtain ⟨sp', F', K', hr⟩ := processed r1 r2 r3 e' hnt
  have hKK : K' = K := by
    have := hK.transport hp.desc hr.desc fun i hi => (hkn i hi).1
    rw [(C01_forest_unique hp.desc hr.desc hnT.1).1] at this
    exact hr.of.unique this
  subst hKK
  have hcont := C51_content_partial h1 h2 h e hnr hty.mode hty.white hty.apart (fun a b l hx => .inl (hty.first a (by rw [hx]; simp))) hty.ends
  rw [St.content, hr.below] at hcont
  rw [List.map_congr_left (g := fun j => (XmlSpace.default, t.text j)) fun j hj => by
    have hj' := (List.mem_filter.1 hj).1
    rw [hmod j (hpl j hj') (hanc j hj')]]
  refine normal_of_content ?_ ?_ ?_ ?_
  · intro j hj
    obtain ⟨hjK, hjt⟩ := List.mem_filter.1 hj
    have hjt : t.nodeType j = .text := of_decide_eq_true hjt
    have hjp := sub_pre hof n hn hK j hjK
    refine ⟨hne j hjp hjt, ?_⟩
    rw [hp.removed.types, hp.ti.types] at hjt
    exact C39_clean_partial h1 h2 h e hns hnr.starts (hins j ((hin j).2 hjp)).1 (hup (hanc j hjK) (hpl j hjK)).2 hjt
  · rw [hcont]; exact noDouble_strip (noDouble_squeeze _)
  · rw [hcont]; exact (strip_sides _).1
  · rw [hcont]; exact (strip_sides _).2

/-! ## Examples -/

/-- `<svg><text> <tspan>a </tspan>b</text></svg>`. -/
def againXml : Xml := xe st!"svg" [] (xe st!"text" [] (.text st!" " (xe st!"tspan" [] (.text st!"a " .nil) (.text st!"b" .nil))) .nil) .nil

/-- C64 does not hold for all documents: the text is "a b" after the first processing and "ab" after the second one. -/
theorem C64_refuted : ∃ s t t' n, SafeReachable s ∧ RootSafeReachable s ∧ TextReady s ∧ s.prepareText = .ok t ∧ t.prepareText = .ok t' ∧
    NoPreserve s n ∧ t.content n = st!"a b" ∧ t'.content n = st!"ab" ∧ ¬ SameTexts t t' := by
  obtain ⟨s, t, e, h1, h2, h3, et, hp⟩ := exists_text (x := againXml) (p := fun s t => s.noSpaceAttr &&
    decide (t.content 2 = st!"a b") && (match t.prepareText with
      | .ok t' => decide (t'.content 2 = st!"ab") && decide (t.text 5 = st!"a ") && decide (t'.text 5 = st!"a")
      | .error _ => false)) (by decide +kernel) (by decide +kernel)
  obtain ⟨r1, r2, r3⟩ := h3.again h1 h2 et
  obtain ⟨t', e'⟩ := C36_returns r1 r2 r3
  rw [e'] at hp
  simp only [Bool.and_eq_true, decide_eq_true_eq] at hp
  obtain ⟨⟨q1, q2⟩, ⟨q3, q4⟩, q5⟩ := hp
  refine ⟨s, t, t', 2, h1, h2, h3, et, e', noPreserve_of h1.reachable _ q1, q2, q3, fun hc => ?_⟩
  have := hc.text 5
  rw [q4, q5] at this
  revert this; decide

/-- C64: five texts in one text root (`contentXml` of C51); the second processing changes nothing. -/
example : ∃ s t, SafeReachable s ∧ RootSafeReachable s ∧ TextReady s ∧ s.prepareText = .ok t ∧ (∃ n, TextRoot s n ∧ t.content n = st!"a b c d") ∧
    ∀ n, TextRoot s n → Tidy s n := by
  obtain ⟨s, t, e, h1, h2, h3, et, hp⟩ := exists_text (x := contentXml) (p := fun s t => s.secondIsText 3 && s.noSpaceAttr &&
    decide (s.textsBelow 2 = [3, 5, 6, 8, 9]) && decide (s.text 3 = st!"\n a  b ") && decide (s.text 5 = st!" c ") &&
    decide (s.text 6 = st!" ") && decide (s.text 8 = st!"\td") && decide (s.text 9 = st!"\n") &&
    decide (t.content 2 = st!"a b c d") && (List.range s.nextId).all (fun a => match s.firstChild a with
      | some c => decide (s.nodeType c ≠ .text ∨ a = 2 ∨ s.parent a = some 2)
      | none => true)) (by decide +kernel) (by decide +kernel)
  simp only [Bool.and_eq_true, decide_eq_true_eq, List.all_eq_true, List.mem_range] at hp
  obtain ⟨⟨⟨⟨⟨⟨⟨⟨⟨q1, q2⟩, q3⟩, q4⟩, q5⟩, q6⟩, q7⟩, q8⟩, q9⟩, q10⟩ := hp
  have hr := textRoot_check h2 q1
  refine ⟨s, t, h1, h2, h3, et, ⟨2, hr, q9⟩, ?_⟩
  intro n hn
  have : n = 2 := by
    obtain ⟨c, hc, hct⟩ := hn.starts
    have := q10 n (h1.reachable.inv.liveBelow n hn.tree.1)
    rw [hc] at this
    rcases of_decide_eq_true this with h | h | h
    · exact absurd hct h
    · exact h
    · exact absurd (.single h) (hn.outer 2 hr.tree hr.starts)
  subst this
  refine ⟨noPreserve_of h1.reachable _ q2, ?_, ?_, ?_, ?_⟩
  · rw [q3]
    simp only [List.forall_mem_cons, q4, q5, q6, q7, q8]
    refine ⟨?_, ?_, ?_, ?_, ?_, by simp⟩ <;> decide
  · rw [q3]
    simp only [List.isChain_cons_cons, q4, q5, q6, q7, q8]
    refine ⟨?_, ?_, ?_, ?_, .singleton _⟩ <;> decide
  · rw [q3]
    simp only [List.head?_cons, Option.mem_def, Option.some.injEq, forall_eq', q4]
    decide
  · intro a b hl
    rw [q3] at hl; cases hl

/-- C64: a normal document, with text before and in a `tspan`. -/
def normalXml : Xml := xe st!"svg" [] (xe st!"text" [] (.text st!"a " (xe st!"tspan" [] (.text st!"b c" .nil) .nil)) .nil) .nil

def normalTrees : Trees := .cons 1 (.cons 2 (.cons 3 .nil (.cons 4 (.cons 5 .nil .nil) .nil)) .nil) .nil

example : ∃ s t F, SafeReachable s ∧ RootSafeReachable s ∧ TextReady s ∧ s.prepareText = .ok t ∧ Describes s F ∧
    normalTrees.Of F (F.kids s.rootId) ∧ normalTrees.NormalText s ∧ t.content 2 = st!"a b c" := by
  obtain ⟨s, t, e, h1, h2, h3, et, hp⟩ := exists_text (x := normalXml) (p := fun s t =>
    normalTrees.check s (s.firstChild s.rootId) && decide (normalTrees.NormalText s) && decide (t.content 2 = st!"a b c"))
    (by decide +kernel) (by decide +kernel)
  simp only [Bool.and_eq_true, decide_eq_true_eq] at hp
  obtain ⟨⟨q1, q2⟩, q3⟩ := hp
  obtain ⟨F, hF⟩ := C01_forest h1.reachable
  have hb : Built s := ⟨h1, h2⟩
  rw [hF.shows.first _ hb.rootLive] at q1
  exact ⟨s, t, F, h1, h2, h3, et, hF, check_of hF _ _ _ hb.rootLive (List.suffix_refl _) q1, q2, q3⟩

end Svgdom
