import Verif.Proof.TextExact

/-!
# Properties C51-C55: which text is left after text processing

`s` is the document before and `t` the document after `prepare_text`.
-/

set_option autoImplicit false

namespace Svgdom

open Relation

/-! ## The parts below a text root -/

theorem TextResult.text {s t : St} {e : NodeId} {sp : XmlSpace} {F : Forest} {K : Trees} (h : TextResult s t e sp F K) {j : NodeId}
    (hj : j ∈ s.textsBelow e) : t.text j =
      groupT (fun j => s.modeOf j sp) sp (trimT (fun j => s.modeOf j sp) s.text (s.textsBelow e)) (s.textDepths K) j := by
  rw [h.below] at hj ⊢
  exact h.texts j (List.mem_filter.1 hj).1

theorem TextResult.live_below {s t : St} {e : NodeId} {sp : XmlSpace} {F : Forest} {K : Trees} (h : TextResult s t e sp F K) {j : NodeId}
    (hj : j ∈ s.textsBelow e) : s.live j = true ∧ s.Ancestor e j ∧ s.nodeType j = .text := by
  have hj' := hj
  rw [h.below] at hj'
  have hl := pre_live h.desc h.of (fun c hc => (h.desc.wf.kids e h.live c hc).1) j (List.mem_filter.1 hj').1
  exact ⟨hl, (h.mem hl).1 hj⟩

theorem TextResult.shrunk {s t : St} {e : NodeId} {sp : XmlSpace} {F : Forest} {K : Trees} (h : TextResult s t e sp F K) {j : NodeId}
    (hj : j ∈ s.textsBelow e) : Shrunk (t.text j) (spaced (s.modeOf j sp) (s.text j)) := by
  rw [h.text hj]
  refine (groupT_shrunk _ _ _ _ j).trans ?_
  rw [trimT, if_pos hj, trimText_spaced]
  exact .refl _

/-- The first text is the first child. -/
theorem TextResult.first {s t : St} {e : NodeId} {sp : XmlSpace} {F : Forest} {K : Trees} (h : TextResult s t e sp F K)
    (hs : StartsWithText s e) : ∃ c L, s.textDepths K = (c, 0) :: L ∧ s.firstChild e = some c ∧ s.parent c = some e := by
  obtain ⟨c, hc, hct⟩ := hs
  have hk := hc
  rw [h.desc.shows.first e h.live] at hk
  obtain ⟨l, hl⟩ : ∃ l, F.kids e = c :: l := by
    cases hx : F.kids e with
    | nil => rw [hx] at hk; simp at hk
    | cons a l => rw [hx] at hk; simp at hk; exact ⟨l, by rw [hk]⟩
  have hof := h.of
  rw [hl] at hof
  cases K with
  | nil => cases hof
  | cons i k r =>
    obtain ⟨l', e1, _, _⟩ := hof
    cases e1
    have ht : s.isText c = true := decide_eq_true hct
    have hcl := h.desc.wf.kids e h.live c (by rw [hl]; simp)
    refine ⟨c, _, by simp [St.textDepths, Trees.depths, ht]; rfl, hc, ?_⟩
    rw [h.desc.shows.parent c hcl.1]; exact hcl.2

theorem TextResult.fst {s t : St} {e : NodeId} {sp : XmlSpace} {F : Forest} {K : Trees} (h : TextResult s t e sp F K) :
    (s.textDepths K).map Prod.fst = s.textsBelow e := by
  rw [h.below, St.textDepths_fst]

theorem TextResult.nodupBelow {s t : St} {e : NodeId} {sp : XmlSpace} {F : Forest} {K : Trees} (h : TextResult s t e sp F K) :
    (s.textsBelow e).Nodup := by
  rw [h.below]; exact h.nodup.filter _

/-! ## C51 -/

/-- C51 without `xml:space="preserve"`: the text below an element is the text as written with its spaces collapsed and without spaces
at its ends. Missing: texts that have only other white space than spaces, tabs and line ends; two blank texts in a row; a blank first
text that is empty or whose next text is also a child of the element; two texts of which the first starts with and the second ends
with a space. -/
theorem C51_content_partial {s t : St} (h1 : SafeReachable s) (h2 : RootSafeReachable s) (h : TextReady s) (e : s.prepareText = .ok t)
    {n : NodeId} (hn : TextRoot s n) (hd : NoPreserve s n)
    (hw : ∀ j ∈ s.textsBelow n, Spaces (s.text j) ∨ Visible (s.text j))
    (ha : (s.textsBelow n).IsChain fun a b => Visible (s.text a) ∨ Visible (s.text b))
    (hf : ∀ a b l, s.textsBelow n = a :: b :: l → Visible (s.text a) ∨ (s.text a ≠ [] ∧ s.parent b ≠ some n))
    (hb : ∀ a b, s.textsBelow n = [a, b] → ¬ ((∃ c ∈ (s.text a).head?, toSpace c = ' ') ∧ ∃ c ∈ (s.text b).getLast?, toSpace c = ' ')) :
    t.content n = strip (squeeze ((s.content n).map toSpace)) := by
  obtain ⟨sp, F, K, hr⟩ := processed h1 h2 h e hn
  have hbt : Built s := ⟨h1, h2⟩
  have hup : ∀ {i a : NodeId}, s.Ancestor a i → s.live i = true → s.live a = true := by
    intro i a hia
    induction hia using TransGen.head_induction_on with
    | single hp => intro hi; exact (hr.desc.wf.par _ hi _ (by rw [← hr.desc.shows.parent _ hi]; exact hp)).1
    | head hp _ ih => intro hi; exact ih (hr.desc.wf.par _ hi _ (by rw [← hr.desc.shows.parent _ hi]; exact hp)).1
  have hsp : sp = .default := Mode.default hr.mode fun a hx => hd a (by
    rcases hx with rfl | hx
    · exact hr.live
    · exact hup hx hr.live) (by
    rcases hx with hx | hx
    · exact .inl hx
    · exact .inr (.inl hx))
  subst hsp
  have hμ : ∀ j ∈ s.textsBelow n, s.modeOf j .default = .default := by
    intro j hj
    obtain ⟨hl, hanc, _⟩ := hr.live_below hj
    unfold St.modeOf
    split
    · next p hp =>
      have hpl := (hr.desc.wf.par _ hl _ (by rw [← hr.desc.shows.parent _ hl]; exact hp)).1
      refine hd p hpl ?_
      obtain ⟨b, hb', hbe⟩ := TransGen.head'_iff.1 hanc
      have hb' : s.parent j = some b := hb'
      rw [hp] at hb'; cases hb'
      rcases reflTransGen_iff_eq_or_transGen.1 hbe with h | h
      · exact .inl h.symm
      · exact .inr (.inr h)
    · rfl
  have htrim : ∀ j ∈ s.textsBelow n, trimT (fun j => s.modeOf j .default) s.text (s.textsBelow n) j = spaced .default (s.text j) := by
    intro j hj
    rw [trimT, if_pos hj, hμ j hj, trimText_spaced]
  have hgoal : strip (squeeze ((s.content n).map toSpace)) =
      strip (squeeze ((s.textsBelow n).flatMap (trimT (fun j => s.modeOf j .default) s.text (s.textsBelow n)))) := by
    rw [flatMap_congr' htrim, St.content, List.map_flatMap]
    exact congrArg strip (squeeze_flatMap (fun j => (s.text j).map toSpace) _).symm
  rw [hr.content, hgoal, flatMap_congr' fun j hj => hr.text hj]
  have hfst := hr.fst
  obtain ⟨c, L, hL, hc, hcp⟩ := hr.first hn.starts
  generalize hτ : trimT (fun j => s.modeOf j .default) s.text (s.textsBelow n) = τ at htrim
  match L, hL with
  | [], hL =>
    rw [hL] at hfst
    simp only [List.map_cons, List.map_nil] at hfst
    rw [hL, ← hfst]
    have hcm : c ∈ s.textsBelow n := by rw [← hfst]; simp
    simp only [groupT, List.flatMap_cons, List.flatMap_nil, List.append_nil, if_true, put_self]
    refine singleP_strip ?_
    rw [htrim c hcm]; exact noDouble_squeeze _
  | (b, d) :: L, hL =>
    rw [hL] at hfst
    simp only [List.map_cons] at hfst
    have hnd := hr.nodupBelow
    have hτt : ∀ r ∈ s.textsBelow n, Trimmed (τ r) := fun r hx => by rw [htrim r hx]; exact trimmed_spaced (hw r hx)
    have hbl : ∀ r ∈ s.textsBelow n, isBlank (τ r) = isBlank (s.text r) := fun r hx => by rw [htrim r hx]; exact isBlank_spaced _ _
    have hcm : c ∈ s.textsBelow n := by rw [← hfst]; simp
    have hbm : b ∈ s.textsBelow n := by rw [← hfst]; simp
    have hap : Apart τ (s.textsBelow n) := Apart.congr (τ := s.text) (ha.imp fun x y hx => hx.imp visible_blank.1 visible_blank.1) hbl
    rw [hL, ← hfst]
    rw [← hfst] at hnd hμ hτt hap
    refine pairs_all _ c b 0 d L τ hnd hμ hτt hap ?_ ?_
    · rcases hf c b _ hfst.symm with h | ⟨h3, h4⟩
      · left; rw [hbl c hcm]; exact visible_blank.1 h
      · right
        constructor
        · rw [htrim c hcm]
          intro h0
          exact h3 (List.map_eq_nil_iff.1 (squeeze_nil.1 h0))
        · have hmem : (b, d) ∈ K.depths 0 := by
            have : (b, d) ∈ s.textDepths K := by rw [hL]; simp
            exact (List.mem_filter.1 this).1
          have := (depths_pos hr.of hr.nodup (b, d) hmem).2
          rcases Nat.eq_zero_or_pos d with h0 | h0
          · exfalso
            have hk := hr.desc.wf.kids n hr.live b (this.1 h0)
            exact h4 (by rw [hr.desc.shows.parent b hk.1]; exact hk.2)
          · exact h0
    · rintro rfl ⟨h3, h4⟩
      refine hb c b hfst.symm ⟨?_, ?_⟩
      · rw [htrim c hcm] at h3
        have h3 : startsSp ((s.text c).map toSpace) = true := by rw [← squeeze_starts]; exact h3
        obtain ⟨u, hu⟩ := startsSp_iff.1 h3
        cases hx : s.text c with
        | nil => rw [hx] at hu; simp at hu
        | cons x y => rw [hx] at hu; simp at hu; exact ⟨x, by simp, hu.1⟩
      · rw [htrim b hbm] at h4
        have h4 : endsSp ((s.text b).map toSpace) = true := by rw [← squeeze_ends]; exact h4
        have h5 : ((s.text b).map toSpace).getLast? = some ' ' := of_decide_eq_true h4
        rw [List.getLast?_map] at h5
        cases hx : (s.text b).getLast? with
        | none => rw [hx] at h5; simp at h5
        | some x => rw [hx] at h5; exact ⟨x, rfl, Option.some.inj h5⟩

/-! ## C52, C54 -/

/-- The mode that is used for a text. -/
theorem mode_used {s : St} (h2 : RootSafeReachable s) {e p j : NodeId} {sp m : XmlSpace} (hi : s.InTree e) (he : s.Mode e sp) (hj : s.parent j = some p)
    (hp : s.Mode p m) (hep : e = p ∨ s.Ancestor e p) (ho : OwnSpace s e p) : s.modeOf j sp = m := by
  have ht := root_top h2
  have hroot : ∀ x, ¬ s.Ancestor x s.rootId := by
    intro x hx
    obtain ⟨b, hb, -⟩ := TransGen.head'_iff.1 hx
    have hb : s.parent s.rootId = some b := hb
    rw [ht] at hb; simp at hb
  have hr : p ≠ s.rootId := by
    rintro rfl
    rcases hep with rfl | h
    · exact hroot _ hi.2
    · exact hroot _ h
  have hmo : s.modeOf j sp = s.spaceAt p sp := by simp only [St.modeOf, hj]
  rw [hmo]
  rcases ho with ho | ho
  · cases hp with
    | root => exact absurd rfl hr
    | child hq hm => exact spaceAt_own ho _ _
  · have hm := Mode.inherit ht he hp hep ho
    subst hm
    rcases hep with rfl | h
    · cases he with
      | root => exact absurd rfl hr
      | child hq hm => exact spaceAt_self _ _ _
    · exact spaceAt_none (ho p h (.inl rfl)) _

theorem parent_below {s : St} {e j p : NodeId} (h : s.Ancestor e j) (hj : s.parent j = some p) : e = p ∨ s.Ancestor e p := by
  obtain ⟨b, hb, hbe⟩ := TransGen.head'_iff.1 h
  have hb : s.parent j = some b := hb
  rw [hj] at hb; cases hb
  rcases reflTransGen_iff_eq_or_transGen.1 hbe with h | h
  · exact .inl h
  · exact .inr h

/-- C54: a text below a text root is collapsed in the mode of its parent, then it may lose spaces at its ends. Missing: the mode
comes from an element between the text root and the parent. -/
theorem C54_mode_partial {s t : St} (h1 : SafeReachable s) (h2 : RootSafeReachable s) (h : TextReady s) (e : s.prepareText = .ok t)
    {n j p : NodeId} {m : XmlSpace} (hn : TextRoot s n) (hl : s.live j = true) (hj : s.Ancestor n j) (hjt : s.nodeType j = .text)
    (hp : s.parent j = some p) (hm : s.Mode p m) (ho : OwnSpace s n p) : Shrunk (t.text j) (spaced m (s.text j)) := by
  obtain ⟨sp, F, K, hr⟩ := processed h1 h2 h e hn
  rw [← mode_used h2 hn.tree hr.mode hp hm (parent_below hj hp) ho]
  exact hr.shrunk ((hr.mem hl).2 ⟨hj, hjt⟩)

/-- C52: where `xml:space="preserve"` applies no character is lost. Missing: a last space may be lost if the last text below the text
root turns out empty; and the mode of C54. -/
theorem C52_preserve_partial {s t : St} (h1 : SafeReachable s) (h2 : RootSafeReachable s) (h : TextReady s) (e : s.prepareText = .ok t)
    {n j p : NodeId} (hn : TextRoot s n) (hl : s.live j = true) (hj : s.Ancestor n j) (hjt : s.nodeType j = .text)
    (hp : s.parent j = some p) (hm : s.Mode p .preserve) (ho : OwnSpace s n p) :
    t.text j = (s.text j).map toSpace ∨
      ((s.text j).map toSpace = t.text j ++ [' '] ∧ ∃ z, (s.textsBelow n).getLast? = some z ∧ z ≠ j ∧ t.text z = []) := by
  obtain ⟨sp, F, K, hr⟩ := processed h1 h2 h e hn
  have hμ := mode_used h2 hn.tree hr.mode hp hm (parent_below hj hp) ho
  have hjm := (hr.mem hl).2 ⟨hj, hjt⟩
  have htrim : trimT (fun j => s.modeOf j sp) s.text (s.textsBelow n) j = (s.text j).map toSpace := by
    rw [trimT, if_pos hjm, hμ, trimText_spaced]; rfl
  have hfst := hr.fst
  have hz : ∀ z, (s.textsBelow n).getLast? = some z → z ∈ s.textsBelow n := fun z hz => List.mem_of_getLast? hz
  rw [hr.text hjm, ← htrim]
  generalize hτ : trimT (fun j => s.modeOf j sp) s.text (s.textsBelow n) = τ
  obtain ⟨c, L, hL, hc, hcp⟩ := hr.first hn.starts
  match L, hL with
  | [], hL =>
    rw [hL] at hfst ⊢
    have : j = c := by rw [← hfst] at hjm; simpa using hjm
    subst this
    rw [hcp] at hp; cases hp
    have : sp = .preserve := Mode.unique (root_top h2) hr.mode hm
    subst this
    left; rfl
  | (b, d) :: L, hL =>
    have hx := pairsT_preserve (fun j => s.modeOf j sp) hμ (s.textDepths K) τ true none (by rw [hfst]; exact hr.nodupBelow)
    have hg : groupT (fun j => s.modeOf j sp) sp τ (s.textDepths K) = pairsT (fun j => s.modeOf j sp) τ true none (s.textDepths K) := by
      rw [hL]; rfl
    rw [hg]
    rcases hx with hx | ⟨a, z, b, c, d⟩
    · exact .inl hx
    · refine .inr ⟨a, z, by rw [← hfst]; exact b, c, ?_⟩
      rw [hr.text (hz z (by rw [← hfst]; exact b)), hτ, hg]; exact d

/-! ## C53 -/

theorem text_outside {s t : St} (h1 : SafeReachable s) (h2 : RootSafeReachable s) (h : TextReady s) (e : s.prepareText = .ok t)
    {j : NodeId} (hj : ¬ s.InTree j) : t.text j = s.text j := by
  obtain ⟨F, K, u, hF, hK, hp⟩ := prepared_ok h1 h2 h e
  rw [hp.removed.texts]
  exact hp.done.effect j fun hx => hj ((prepared_mem ⟨h1, h2⟩ hF hK hp j).1.2 hx)

/-- C53: no character other than spaces, tabs and line ends is lost, added or moved. -/
theorem C53_ink {s t : St} (h1 : SafeReachable s) (h2 : RootSafeReachable s) (h : TextReady s) (e : s.prepareText = .ok t)
    (j : NodeId) : ink (t.text j) = ink (s.text j) := by
  by_cases hin : s.InTree j
  · by_cases hno : ∀ a, s.InTree a → StartsWithText s a → ¬ s.Ancestor a j
    · rw [C39_untouched_partial h1 h2 h e hno]
    · simp only [not_forall, not_not] at hno
      obtain ⟨a, ha, hs, haj⟩ := hno
      obtain ⟨o, ho, hoa⟩ := exists_textRoot ⟨h1, h2⟩ ha hs
      obtain ⟨sp, F, K, hr⟩ := processed h1 h2 h e ho
      by_cases hjt : s.nodeType j = .text
      · have hoj : s.Ancestor o j := by
          rcases hoa with rfl | hoa
          · exact haj
          · exact haj.trans hoa
        rw [ink_shrunk (hr.shrunk ((hr.mem hin.1).2 ⟨hoj, hjt⟩)), ink_spaced]
      · rw [(C37_rest h1 h2 h e j).2.2.2.2 hjt]
  · rw [text_outside h1 h2 h e hin]

/-- C53: the nodes that are removed are texts of spaces, tabs and line ends. -/
theorem C53_removed {s t : St} (h1 : SafeReachable s) (h2 : RootSafeReachable s) (h : TextReady s) (e : s.prepareText = .ok t)
    {j : NodeId} (hj : s.InTree j) (hg : ¬ t.InTree j) : s.nodeType j = .text ∧ Spaces (s.text j) := by
  obtain ⟨F, K, u, hF, hK, hp⟩ := prepared_ok h1 h2 h e
  have hm := prepared_mem ⟨h1, h2⟩ hF hK hp j
  have he : u.emptyText j = true := by
    by_contra hne
    exact hg (hm.2.2 ⟨hm.1.1 hj, by simpa using hne⟩)
  obtain ⟨a, b⟩ := emptyText_iff.1 he
  refine ⟨by rw [← hp.ti.types]; exact a, fun c hc => ?_⟩
  by_contra hne
  have : c ∈ ink (s.text j) := List.mem_filter.2 ⟨hc, by simpa using hne⟩
  rw [← C53_ink h1 h2 h e, hp.removed.texts, b] at this
  simp [ink] at this

/-! ## C55 -/

theorem ownSpace_self {s : St} (hb : Built s) {n : NodeId} (hn : s.live n = true) : OwnSpace s n n :=
  .inr fun q hq hqn => by
    exfalso
    rcases hqn with rfl | h
    · exact hb.acyclic _ hn hq
    · exact hb.acyclic _ hn (h.trans hq)

/-- C55: a single text in default mode. -/
theorem C55_default {s t : St} (h1 : SafeReachable s) (h2 : RootSafeReachable s) (h : TextReady s) (e : s.prepareText = .ok t)
    {n j : NodeId} (hn : TextRoot s n) (hj : s.textsBelow n = [j]) (hm : s.Mode n .default) :
    t.text j = strip (squeeze ((s.text j).map toSpace)) := by
  obtain ⟨sp, F, K, hr⟩ := processed h1 h2 h e hn
  cases Mode.unique (root_top h2) hr.mode hm
  obtain ⟨c, L, hL, hc, hcp⟩ := hr.first hn.starts
  have hfst := hr.fst
  rw [hL, hj] at hfst
  simp only [List.map_cons, List.cons.injEq, List.map_eq_nil_iff] at hfst
  obtain ⟨rfl, rfl⟩ := hfst
  have hjm : c ∈ s.textsBelow n := by rw [hj]; simp
  have hmo : s.modeOf c .default = .default := mode_used h2 hn.tree hm hcp hm (.inl rfl) (ownSpace_self ⟨h1, h2⟩ hr.live)
  rw [hr.text hjm, hL]
  simp only [groupT, if_true, put_self]
  rw [trimT, if_pos hjm, hmo, trimText_spaced]
  have hnd : NoDouble (spaced .default (s.text c)) := noDouble_squeeze _
  rw [singleP_strip hnd, squeeze_of_noDouble hnd]; rfl

/-- C55: a single text in preserve mode. -/
theorem C55_preserve {s t : St} (h1 : SafeReachable s) (h2 : RootSafeReachable s) (h : TextReady s) (e : s.prepareText = .ok t)
    {n j : NodeId} (hn : TextRoot s n) (hj : s.textsBelow n = [j]) (hm : s.Mode n .preserve) :
    t.text j = (s.text j).map toSpace := by
  obtain ⟨sp, F, K, hr⟩ := processed h1 h2 h e hn
  have hjm : j ∈ s.textsBelow n := by rw [hj]; simp
  obtain ⟨hl, hnj, hjt⟩ := hr.live_below hjm
  obtain ⟨c, L, hL, hc, hcp⟩ := hr.first hn.starts
  have hfst := hr.fst
  rw [hL, hj] at hfst
  simp only [List.map_cons, List.cons.injEq, List.map_eq_nil_iff] at hfst
  obtain ⟨rfl, rfl⟩ := hfst
  rcases C52_preserve_partial h1 h2 h e hn hl hnj hjt hcp hm (ownSpace_self ⟨h1, h2⟩ hr.live) with h | ⟨_, z, hz, hne, _⟩
  · exact h
  · rw [hj] at hz; simp at hz; exact absurd hz.symm hne

/-! ## Counterexamples, and documents that meet the hypotheses -/

theorem root_above {s : St} (h2 : RootSafeReachable s) (x : NodeId) : ¬ s.Ancestor x s.rootId := by
  intro hx
  obtain ⟨b, hb, -⟩ := TransGen.head'_iff.1 hx
  have hb : s.parent s.rootId = some b := hb
  rw [root_top h2] at hb; simp at hb

/-- `<svg><text>...</text></svg>` with node 1 and node 2. -/
theorem textRoot_second {s : St} (h2 : RootSafeReachable s) {c : NodeId} (hl : s.live 2 = true) (p2 : s.parent 2 = some 1)
    (p1 : s.parent 1 = some s.rootId) (f1 : s.firstChild 1 = some 2) (k : s.nodeType 2 = .element) (f2 : s.firstChild 2 = some c)
    (tc : s.nodeType c = .text) : TextRoot s 2 := by
  refine ⟨⟨hl, .head (b := 1) p2 (.single p1)⟩, ⟨c, f2, tc⟩, fun a ha hs han => ?_⟩
  rcases parent_below han p2 with rfl | h
  · obtain ⟨x, hx, hxt⟩ := hs
    rw [f1] at hx; cases hx
    rw [k] at hxt; simp at hxt
  · rcases parent_below h p1 with rfl | h
    · exact root_above h2 _ ha.2
    · exact root_above h2 _ h

theorem noPreserve_of {s : St} (h : Reachable s) (n : NodeId)
    (hall : ((List.range s.nextId).all fun a => decide (s.spaceAt a .default = .default)) = true) : NoPreserve s n := by
  intro a ha _
  obtain ⟨F, hT⟩ := h.inv.tree
  exact of_decide_eq_true (List.all_eq_true.1 hall a (List.mem_range.2 (hT.liveBelow a ha)))

/-- The checks on the document before. -/
def St.secondIsText (s : St) (c : NodeId) : Bool :=
  s.live 2 && decide (s.parent 2 = some 1) && decide (s.parent 1 = some s.rootId) && decide (s.firstChild 1 = some 2) &&
    decide (s.nodeType 2 = .element) && decide (s.firstChild 2 = some c) && decide (s.nodeType c = .text)

theorem textRoot_check {s : St} (h2 : RootSafeReachable s) {c : NodeId} (h : s.secondIsText c = true) : TextRoot s 2 := by
  simp only [St.secondIsText, Bool.and_eq_true, decide_eq_true_eq] at h
  obtain ⟨⟨⟨⟨⟨⟨q1, q2⟩, q3⟩, q4⟩, q5⟩, q6⟩, q7⟩ := h
  exact textRoot_second h2 q1 q2 q3 q4 q5 q6 q7

def St.noSpaceAttr (s : St) : Bool := (List.range s.nextId).all fun a => decide (s.spaceAt a .default = .default)

/-- The document before and after. -/
theorem exists_text {x : Xml} {p : St → St → Bool} (hh : (svgDom sampleLib x).tags.head? = some .Svg)
    (hp : beforeHolds x (fun s => match s.prepareText with | .ok t => p s t | .error _ => false) = true) :
    ∃ s t, beforeText x = .ok s ∧ SafeReachable s ∧ RootSafeReachable s ∧ TextReady s ∧ s.prepareText = .ok t ∧ p s t = true := by
  obtain ⟨s, e, h1, h2, h3⟩ := beforeText_ready (x := x) hh
  obtain ⟨t, et⟩ := C36_returns h1 h2 h3
  simp only [beforeHolds, e, et] at hp
  exact ⟨s, t, e, h1, h2, h3, et, hp⟩

/-- `<svg><text> a<tspan>b </tspan></text></svg>`: the last space stays. -/
def bothEndsXml : Xml := xe st!"svg" [] (xe st!"text" [] (.text st!" a" (xe st!"tspan" [] (.text st!"b " .nil) .nil)) .nil) .nil

/-- C51 does not hold for all texts. -/
theorem C51_refuted : ∃ x s t n, beforeText x = .ok s ∧ SafeReachable s ∧ RootSafeReachable s ∧ TextReady s ∧ s.prepareText = .ok t ∧
    TextRoot s n ∧ NoPreserve s n ∧ t.content n = st!"ab " ∧ t.content n ≠ strip (squeeze ((s.content n).map toSpace)) := by
  obtain ⟨s, t, e, h1, h2, h3, et, hp⟩ := exists_text (x := bothEndsXml) (p := fun s t => s.secondIsText 3 && s.noSpaceAttr &&
    decide (t.content 2 = st!"ab ") && decide (t.content 2 ≠ strip (squeeze ((s.content 2).map toSpace))))
    (by decide +kernel) (by decide +kernel)
  simp only [Bool.and_eq_true, decide_eq_true_eq] at hp
  obtain ⟨⟨⟨q1, q2⟩, q3⟩, q4⟩ := hp
  exact ⟨_, s, t, 2, e, h1, h2, h3, et, textRoot_check h2 q1, noPreserve_of h1.reachable _ q2, q3, q4⟩

/-- `<svg><text>⏎ a  b <tspan> c </tspan> <tspan>⇥d</tspan> </text></svg>`. -/
def contentXml : Xml := xe st!"svg" [] (xe st!"text" [] (.text st!"\n a  b " (xe st!"tspan" [] (.text st!" c " .nil)
    (.text st!" " (xe st!"tspan" [] (.text st!"\td" .nil) (.text st!"\n" .nil))))) .nil) .nil

/-- C51: five texts, blank ones between and at the end. -/
example : ∃ s t n, SafeReachable s ∧ RootSafeReachable s ∧ TextReady s ∧ s.prepareText = .ok t ∧ TextRoot s n ∧ NoPreserve s n ∧
    (∀ j ∈ s.textsBelow n, Spaces (s.text j) ∨ Visible (s.text j)) ∧
    ((s.textsBelow n).IsChain fun a b => Visible (s.text a) ∨ Visible (s.text b)) ∧
    (∀ a b l, s.textsBelow n = a :: b :: l → Visible (s.text a) ∨ (s.text a ≠ [] ∧ s.parent b ≠ some n)) ∧
    (∀ a b, s.textsBelow n = [a, b] → ¬ ((∃ c ∈ (s.text a).head?, toSpace c = ' ') ∧ ∃ c ∈ (s.text b).getLast?, toSpace c = ' ')) ∧
    t.content n = st!"a b c d" := by
  obtain ⟨s, t, e, h1, h2, h3, et, hp⟩ := exists_text (x := contentXml) (p := fun s t => s.secondIsText 3 && s.noSpaceAttr &&
    decide (s.textsBelow 2 = [3, 5, 6, 8, 9]) && decide (s.text 3 = st!"\n a  b ") && decide (s.text 5 = st!" c ") &&
    decide (s.text 6 = st!" ") && decide (s.text 8 = st!"\td") && decide (s.text 9 = st!"\n") &&
    decide (t.content 2 = st!"a b c d")) (by decide +kernel) (by decide +kernel)
  simp only [Bool.and_eq_true, decide_eq_true_eq] at hp
  obtain ⟨⟨⟨⟨⟨⟨⟨⟨q1, q2⟩, q3⟩, q4⟩, q5⟩, q6⟩, q7⟩, q8⟩, q9⟩ := hp
  refine ⟨s, t, 2, h1, h2, h3, et, textRoot_check h2 q1, noPreserve_of h1.reachable _ q2, ?_, ?_, ?_, ?_, q9⟩
  · rw [q3]
    simp only [List.forall_mem_cons, q4, q5, q6, q7, q8]
    refine ⟨?_, ?_, ?_, ?_, ?_, by simp⟩ <;> decide
  · rw [q3]
    simp only [List.isChain_cons_cons, q4, q5, q6, q7, q8]
    refine ⟨?_, ?_, ?_, ?_, .singleton _⟩ <;> decide
  · intro a b l hl
    rw [q3] at hl; cases hl
    left; rw [q4]; decide
  · intro a b hl
    rw [q3] at hl; simp at hl

/-- `<svg><text>a<tspan xml:space="preserve">b </tspan> </text></svg>`: the preserved space goes away. -/
def lostXml : Xml := xe st!"svg" [] (xe st!"text" [] (.text st!"a" (xe st!"tspan" [⟨some xmlNs, st!"space", st!"preserve"⟩]
    (.text st!"b " .nil) (.text st!" " .nil))) .nil) .nil

/-- C52 does not hold for all texts. -/
theorem C52_refuted : ∃ x s t n j p, beforeText x = .ok s ∧ SafeReachable s ∧ RootSafeReachable s ∧ TextReady s ∧
    s.prepareText = .ok t ∧ TextRoot s n ∧ s.live j = true ∧ s.Ancestor n j ∧ s.nodeType j = .text ∧ s.parent j = some p ∧
    s.Mode p .preserve ∧ OwnSpace s n p ∧ s.text j = st!"b " ∧ t.text j = st!"b" := by
  obtain ⟨s, t, e, h1, h2, h3, et, hp⟩ := exists_text (x := lostXml) (p := fun s t => s.secondIsText 3 && s.live 5 &&
    decide (s.parent 5 = some 4) && decide (s.parent 4 = some 2) && decide (s.nodeType 5 = .text) &&
    decide (attrsGetValue (s.attributes 4) (.id .Space) = some (.string st!"preserve")) &&
    decide (s.text 5 = st!"b ") && decide (t.text 5 = st!"b") && decide (s.parent 2 = some 1) && decide (s.parent 1 = some s.rootId))
    (by decide +kernel) (by decide +kernel)
  simp only [Bool.and_eq_true, decide_eq_true_eq] at hp
  obtain ⟨⟨⟨⟨⟨⟨⟨⟨⟨q1, q2⟩, q3⟩, q4⟩, q5⟩, q6⟩, q7⟩, q8⟩, q9⟩, q10⟩ := hp
  have hm : s.Mode 4 .preserve := by
    have : s.spaceAt 4 (s.spaceAt 2 (s.spaceAt 1 .default)) = .preserve := by rw [St.spaceAt, q6]; rfl
    rw [← this]
    exact .child q4 (.child q9 (.child q10 .root))
  exact ⟨_, s, t, 2, 5, 4, e, h1, h2, h3, et, textRoot_check h2 q1, q2, .head (b := 4) q3 (.single q4), q5, q3, hm, .inl ⟨_, q6⟩, q7, q8⟩

/-- `<svg><text>a<tspan xml:space="preserve"><tspan> b  c</tspan></tspan></text></svg>`: the inner element is in preserve mode but its
text is collapsed. -/
def inheritXml : Xml := xe st!"svg" [] (xe st!"text" [] (.text st!"a" (xe st!"tspan" [⟨some xmlNs, st!"space", st!"preserve"⟩]
    (xe st!"tspan" [] (.text st!" b  c" .nil) .nil) .nil)) .nil) .nil

/-- C54 does not hold for all texts. -/
theorem C54_refuted : ∃ x s t n j p, beforeText x = .ok s ∧ SafeReachable s ∧ RootSafeReachable s ∧ TextReady s ∧
    s.prepareText = .ok t ∧ TextRoot s n ∧ s.live j = true ∧ s.Ancestor n j ∧ s.nodeType j = .text ∧ s.parent j = some p ∧
    s.Mode p .preserve ∧ ¬ Shrunk (t.text j) (spaced .preserve (s.text j)) := by
  obtain ⟨s, t, e, h1, h2, h3, et, hp⟩ := exists_text (x := inheritXml) (p := fun s t => s.secondIsText 3 && s.live 6 &&
    decide (s.parent 6 = some 5) && decide (s.parent 5 = some 4) && decide (s.parent 4 = some 2) && decide (s.nodeType 6 = .text) &&
    decide (attrsGetValue (s.attributes 4) (.id .Space) = some (.string st!"preserve")) &&
    decide (attrsGetValue (s.attributes 5) (.id .Space) = none) &&
    decide (s.text 6 = st!" b  c") && decide (t.text 6 = st!" b c") && decide (s.parent 2 = some 1) && decide (s.parent 1 = some s.rootId))
    (by decide +kernel) (by decide +kernel)
  simp only [Bool.and_eq_true, decide_eq_true_eq] at hp
  obtain ⟨⟨⟨⟨⟨⟨⟨⟨⟨⟨⟨q1, q2⟩, q3⟩, q4⟩, q5⟩, q6⟩, q7⟩, q8⟩, q9⟩, q10⟩, q11⟩, q12⟩ := hp
  have hm : s.Mode 5 .preserve := by
    have : s.spaceAt 5 (s.spaceAt 4 (s.spaceAt 2 (s.spaceAt 1 .default))) = .preserve := by
      rw [St.spaceAt, q8]; simp only [St.spaceAt, q7]; rfl
    rw [← this]
    exact .child q4 (.child q5 (.child q11 (.child q12 .root)))
  refine ⟨_, s, t, 2, 6, 5, e, h1, h2, h3, et, textRoot_check h2 q1, q2, .head (b := 5) q3 (.head (b := 4) q4 (.single q5)), q6, q3, hm, ?_⟩
  rw [q9, q10]
  rintro ⟨a, b, hab, ha, hb⟩
  have hs : spaced .preserve st!" b  c" = st!" b  c" := by decide
  rw [hs] at hab
  have hb0 : b = [] := by
    rcases List.eq_nil_or_concat b with h | ⟨b', c, rfl⟩
    · exact h
    · exfalso
      have := congrArg List.getLast? hab
      rw [List.concat_eq_append, ← List.append_assoc, List.getLast?_concat] at this
      have hc := hb c (by simp)
      rw [hc] at this
      exact absurd this (by decide)
  subst hb0
  match a, ha, hab with
  | [], _, hab => exact absurd hab (by decide)
  | [c], _, hab => simp at hab
  | c :: d :: a, _, hab => have := congrArg List.length hab; simp at this

/-- C53: a text that goes away; C55: an element with a single text. -/
def singleXml : Xml := xe st!"svg" [] (xe st!"text" [] (.text st!"\n a \t b " .nil)
    (xe st!"text" [⟨some xmlNs, st!"space", st!"preserve"⟩] (.text st!" c\n d " .nil)
      (xe st!"text" [] (.text st!"e" (xe st!"tspan" [] (.text st!"\n" .nil) .nil)) .nil))) .nil

example : ∃ s t n j, SafeReachable s ∧ RootSafeReachable s ∧ TextReady s ∧ s.prepareText = .ok t ∧ TextRoot s n ∧
    s.textsBelow n = [j] ∧ s.Mode n .default ∧ t.text j = st!"a b" ∧
    (∃ j, s.InTree j ∧ ¬ t.InTree j) := by
  obtain ⟨s, t, e, h1, h2, h3, et, hp⟩ := exists_text (x := singleXml) (p := fun s t => s.secondIsText 3 &&
    decide (s.textsBelow 2 = [3]) && decide (attrsGetValue (s.attributes 2) (.id .Space) = none) &&
    decide (attrsGetValue (s.attributes 1) (.id .Space) = none) && decide (t.text 3 = st!"a b") && decide (s.parent 2 = some 1) &&
    decide (s.parent 1 = some s.rootId) && s.live 9 && decide (s.parent 9 = some 8) && decide (s.parent 8 = some 6) &&
    decide (s.parent 6 = some 1) && decide (s.nodeType 9 = .text) && decide (t.text 9 = []))
    (by decide +kernel) (by decide +kernel)
  simp only [Bool.and_eq_true, decide_eq_true_eq] at hp
  obtain ⟨⟨⟨⟨⟨⟨⟨⟨⟨⟨⟨⟨q1, q2⟩, q3⟩, q4⟩, q5⟩, q6⟩, q7⟩, q8⟩, q9⟩, q10⟩, q11⟩, q12⟩, q13⟩ := hp
  have hm : s.Mode 2 .default := by
    have : s.spaceAt 2 (s.spaceAt 1 .default) = .default := by
      rw [St.spaceAt, q3]; simp only [St.spaceAt, q4]
    rw [← this]
    exact .child q6 (.child q7 .root)
  refine ⟨s, t, 2, 3, h1, h2, h3, et, textRoot_check h2 q1, q2, hm, q5, 9,
    ⟨q8, .head (b := 8) q9 (.head (b := 6) q10 (.head (b := 1) q11 (.single q7)))⟩, fun hx => ?_⟩
  refine C37_no_empty h1 h2 h3 et hx ?_ q13
  rw [(C37_rest h1 h2 h3 et 9).1]; exact q12

/-- C55 in preserve mode, C52, C54. -/
def preservedXml : Xml := xe st!"svg" [⟨some xmlNs, st!"space", st!"preserve"⟩] (xe st!"text" [] (.text st!" c\n d " .nil) .nil) .nil

example : ∃ s t n j, SafeReachable s ∧ RootSafeReachable s ∧ TextReady s ∧ s.prepareText = .ok t ∧ TextRoot s n ∧ s.live j = true ∧
    s.Ancestor n j ∧ s.nodeType j = .text ∧ s.parent j = some n ∧ s.Mode n .preserve ∧ OwnSpace s n n ∧ s.textsBelow n = [j] ∧
    t.text j = st!" c  d " := by
  obtain ⟨s, t, e, h1, h2, h3, et, hp⟩ := exists_text (x := preservedXml) (p := fun s t => s.secondIsText 3 &&
    decide (s.textsBelow 2 = [3]) && decide (attrsGetValue (s.attributes 2) (.id .Space) = none) &&
    decide (attrsGetValue (s.attributes 1) (.id .Space) = some (.string st!"preserve")) && decide (t.text 3 = st!" c  d ") &&
    decide (s.parent 2 = some 1) && decide (s.parent 1 = some s.rootId) && s.live 3 && decide (s.parent 3 = some 2) &&
    decide (s.nodeType 3 = .text) && s.live 2) (by decide +kernel) (by decide +kernel)
  simp only [Bool.and_eq_true, decide_eq_true_eq] at hp
  obtain ⟨⟨⟨⟨⟨⟨⟨⟨⟨⟨q1, q2⟩, q3⟩, q4⟩, q5⟩, q6⟩, q7⟩, q8⟩, q9⟩, q10⟩, q11⟩ := hp
  have hm : s.Mode 2 .preserve := by
    have : s.spaceAt 2 (s.spaceAt 1 .default) = .preserve := by
      rw [St.spaceAt, q3]; simp only [St.spaceAt, q4]; rfl
    rw [← this]
    exact .child q6 (.child q7 .root)
  exact ⟨s, t, 2, 3, h1, h2, h3, et, textRoot_check h2 q1, q8, .single q9, q10, q9, hm, ownSpace_self ⟨h1, h2⟩ q11, q2, q5⟩

end Svgdom
