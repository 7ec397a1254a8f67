import Verif.Props.TextExact
import Verif.Props.Writer

/-!
# C39, C52 and C54 without conditions, C47 in all builds

`s` is the document before and `t` the document after `prepare_text`.
-/

set_option autoImplicit false

namespace Svgdom

/-! ## C39 -/

/-- C39, exactly: no text of the result has CR, LF or TAB if and only if those texts have none that lie below no element with a
text as first child. -/
theorem C39_iff {s t : St} (h1 : SafeReachable s) (h2 : RootSafeReachable s) (h : TextReady s) (e : s.prepareText = .ok t) :
    (∀ j, t.InTree j → t.nodeType j = .text → Clean (t.text j)) ↔
    ∀ j, s.InTree j → s.nodeType j = .text → (∀ a, s.InTree a → StartsWithText s a → ¬ s.Ancestor a j) → Clean (s.text j) := by
  obtain ⟨F, K, u, hF, hK, hp⟩ := prepared_ok h1 h2 h e
  have hm := prepared_mem ⟨h1, h2⟩ hF hK hp
  have hty : ∀ j, t.nodeType j = s.nodeType j := fun j => (C37_rest h1 h2 h e j).1
  constructor
  · intro hc j hj hjt hno
    rw [← C39_untouched_partial h1 h2 h e hno]
    by_cases hin : t.InTree j
    · exact hc j hin (by rw [hty]; exact hjt)
    · have he : u.emptyText j = true := by
        by_contra hne
        exact hin ((hm j).2.2 ⟨(hm j).1.1 hj, by simpa using hne⟩)
      rw [hp.removed.texts, (emptyText_iff.1 he).2]
      intro c hc; simp at hc
  · intro hc j hj hjt
    rw [hty] at hjt
    obtain ⟨_, _, _, _, _, _, hback⟩ := C37_tree h1 h2 h e
    have hjs := hback j hj
    by_cases hno : ∀ a, s.InTree a → StartsWithText s a → ¬ s.Ancestor a j
    · rw [C39_untouched_partial h1 h2 h e hno]; exact hc j hjs hjt hno
    · simp only [not_forall, not_not] at hno
      obtain ⟨a, ha, hs, haj⟩ := hno
      exact C39_clean_partial h1 h2 h e ha hs hjs.1 haj hjt

/-! ## C52 and C54 -/

/-- C54, exactly: a text below a text root is collapsed in the mode that its parent has by its own attribute, or else in the mode of
the text root; elements in between play no part. -/
theorem C54_used {s t : St} (h1 : SafeReachable s) (h2 : RootSafeReachable s) (h : TextReady s) (e : s.prepareText = .ok t)
    {n j p : NodeId} {m : XmlSpace} (hn : TextRoot s n) (hl : s.live j = true) (hj : s.Ancestor n j) (hjt : s.nodeType j = .text)
    (hp : s.parent j = some p) (hm : s.Mode n m) : Shrunk (t.text j) (spaced (s.spaceAt p m) (s.text j)) := by
  obtain ⟨sp, F, K, hr⟩ := processed h1 h2 h e hn
  have hsm := Mode.unique (root_top h2) hr.mode hm
  subst hsm
  have : s.modeOf j sp = s.spaceAt p sp := by simp only [St.modeOf, hp]
  rw [← this]
  exact hr.shrunk ((hr.mem hl).2 ⟨hj, hjt⟩)

/-- C52, for all texts that are processed in preserve mode, wherever this mode comes from. -/
theorem C52_used_partial {s t : St} (h1 : SafeReachable s) (h2 : RootSafeReachable s) (h : TextReady s) (e : s.prepareText = .ok t)
    {n j p : NodeId} {m : XmlSpace} (hn : TextRoot s n) (hl : s.live j = true) (hj : s.Ancestor n j) (hjt : s.nodeType j = .text)
    (hp : s.parent j = some p) (hm : s.Mode n m) (hsp : s.spaceAt p m = .preserve) :
    t.text j = (s.text j).map toSpace ∨
      ((s.text j).map toSpace = t.text j ++ [' '] ∧ ∃ z, (s.textsBelow n).getLast? = some z ∧ z ≠ j ∧ t.text z = []) := by
  obtain ⟨sp, F, K, hr⟩ := processed h1 h2 h e hn
  have hsm := Mode.unique (root_top h2) hr.mode hm
  subst hsm
  have hμ : s.modeOf j sp = .preserve := by simp only [St.modeOf, hp]; exact hsp
  have hjm := (hr.mem hl).2 ⟨hj, hjt⟩
  have htrim : trimT (fun j => s.modeOf j sp) s.text (s.textsBelow n) j = (s.text j).map toSpace := by
    rw [trimT, if_pos hjm, hμ, trimText_spaced]; rfl
  have hfst := hr.fst
  have hz : ∀ z, (s.textsBelow n).getLast? = some z → z ∈ s.textsBelow n := fun z hz => List.mem_of_getLast? hz
  rw [hr.text hjm, ← htrim]
  generalize hτ : trimT (fun j => s.modeOf j sp) s.text (s.textsBelow n) = τ
  obtain ⟨c, L, hL, hc, hcp⟩ := hr.first hn.starts
  match L, hL with
  | [], hL =>
    rw [hL] at hfst ⊢
    have : j = c := by rw [← hfst] at hjm; simpa using hjm
    subst this
    rw [hcp] at hp; cases hp
    have : sp = .preserve := by
      rw [← hsp]
      cases hr.mode with
      | root =>
        exfalso
        have := hn.tree.2
        obtain ⟨b, hb, -⟩ := Relation.TransGen.head'_iff.1 this
        have hb : s.parent s.rootId = some b := hb
        rw [root_top h2] at hb; simp at hb
      | child hq hm => exact (spaceAt_self _ _ _).symm
    subst this
    left; rfl
  | (b, d) :: L, hL =>
    have hx := pairsT_preserve (fun j => s.modeOf j sp) hμ (s.textDepths K) τ true none (by rw [hfst]; exact hr.nodupBelow)
    have hg : groupT (fun j => s.modeOf j sp) sp τ (s.textDepths K) = pairsT (fun j => s.modeOf j sp) τ true none (s.textDepths K) := by
      rw [hL]; rfl
    rw [hg]
    rcases hx with hx | ⟨a, z, b, c, d⟩
    · exact .inl hx
    · refine .inr ⟨a, z, by rw [← hfst]; exact b, c, ?_⟩
      rw [hr.text (hz z (by rw [← hfst]; exact b)), hτ, hg]; exact d

/-- The hypotheses are met by a text in preserve mode, and by one whose mode is not the inherited one. -/
example : ∃ s t n j p m, SafeReachable s ∧ RootSafeReachable s ∧ TextReady s ∧ s.prepareText = .ok t ∧ TextRoot s n ∧ s.live j = true ∧
    s.Ancestor n j ∧ s.nodeType j = .text ∧ s.parent j = some p ∧ s.Mode n m ∧ s.spaceAt p m = .preserve ∧ p ≠ n ∧ t.text j = st!"b" := by
  obtain ⟨s, t, e, h1, h2, h3, et, hp⟩ := exists_text (x := lostXml) (p := fun s t => s.secondIsText 3 && s.live 5 &&
    decide (s.parent 5 = some 4) && decide (s.parent 4 = some 2) && decide (s.nodeType 5 = .text) &&
    decide (attrsGetValue (s.attributes 4) (.id .Space) = some (.string st!"preserve")) &&
    decide (t.text 5 = st!"b") && decide (s.parent 2 = some 1) && decide (s.parent 1 = some s.rootId))
    (by decide +kernel) (by decide +kernel)
  simp only [Bool.and_eq_true, decide_eq_true_eq] at hp
  obtain ⟨⟨⟨⟨⟨⟨⟨⟨q1, q2⟩, q3⟩, q4⟩, q5⟩, q6⟩, q8⟩, q9⟩, q10⟩ := hp
  exact ⟨s, t, 2, 5, 4, _, h1, h2, h3, et, textRoot_check h2 q1, q2, .head (b := 4) q3 (.single q4), q5, q3,
    .child q9 (.child q10 .root), by rw [St.spaceAt, q6]; rfl, by decide, q8⟩

example : ∃ s t n j p m, SafeReachable s ∧ RootSafeReachable s ∧ TextReady s ∧ s.prepareText = .ok t ∧ TextRoot s n ∧ s.live j = true ∧
    s.Ancestor n j ∧ s.nodeType j = .text ∧ s.parent j = some p ∧ s.Mode n m ∧ ¬ s.Mode p (s.spaceAt p m) ∧ t.text j = st!" b c" := by
  obtain ⟨s, t, e, h1, h2, h3, et, hp⟩ := exists_text (x := inheritXml) (p := fun s t => s.secondIsText 3 && s.live 6 &&
    decide (s.parent 6 = some 5) && decide (s.parent 5 = some 4) && decide (s.parent 4 = some 2) && decide (s.nodeType 6 = .text) &&
    decide (attrsGetValue (s.attributes 4) (.id .Space) = some (.string st!"preserve")) &&
    decide (attrsGetValue (s.attributes 5) (.id .Space) = none) && decide (attrsGetValue (s.attributes 2) (.id .Space) = none) &&
    decide (attrsGetValue (s.attributes 1) (.id .Space) = none) &&
    decide (t.text 6 = st!" b c") && decide (s.parent 2 = some 1) && decide (s.parent 1 = some s.rootId))
    (by decide +kernel) (by decide +kernel)
  simp only [Bool.and_eq_true, decide_eq_true_eq] at hp
  obtain ⟨⟨⟨⟨⟨⟨⟨⟨⟨⟨⟨⟨q1, q2⟩, q3⟩, q4⟩, q5⟩, q6⟩, q7⟩, q8⟩, q13⟩, q14⟩, q10⟩, q11⟩, q12⟩ := hp
  have hm : s.Mode 5 .preserve := by
    have : s.spaceAt 5 (s.spaceAt 4 (s.spaceAt 2 (s.spaceAt 1 .default))) = .preserve := by
      rw [St.spaceAt, q8]; simp only [St.spaceAt, q7]; rfl
    rw [← this]
    exact .child q4 (.child q5 (.child q11 (.child q12 .root)))
  have hd : s.spaceAt 5 (s.spaceAt 2 (s.spaceAt 1 .default)) = .default := by simp only [St.spaceAt, q8, q13, q14]
  refine ⟨s, t, 2, 6, 5, _, h1, h2, h3, et, textRoot_check h2 q1, q2, .head (b := 5) q3 (.head (b := 4) q4 (.single q5)), q6, q3,
    .child q11 (.child q12 .root), fun hx => ?_, q10⟩
  rw [hd] at hx
  exact absurd (Mode.unique (root_top h2) hm hx) (by decide)

/-! ## C47 -/

/-- C47 in all builds: `xmlns:xlink` is declared on exactly those nodes called `svg` right below the root that have an `href` on
themselves or below. -/
theorem C47_exact {s : St} (h : Reachable s) (ha : s.Acyclic) (W : ValueWriter) {n : NodeId} (hn : s.live n = true) :
    ∃ es, s.writeAttributes W n = .ok es ∧
      (xlinkDecl ∈ es ↔ s.tagName n = .id .Svg ∧ s.parent n = some s.rootId ∧
        ∃ m, s.live m = true ∧ s.InSubtree n m ∧ ∃ a ∈ s.attributes m, a.name = .id .Href) := by
  obtain ⟨es, e, _⟩ := writeAttributes_ok h ha W hn
  refine ⟨es, e, ?_⟩
  have hroot : s.live s.rootId = true := by
    obtain ⟨_, hT⟩ := h.inv.tree; exact hT.root
  have hattr : ∀ m, s.hasAttribute m (.id .Href) = true ↔ ∃ a ∈ s.attributes m, a.name = .id .Href := by
    intro m; simp [St.hasAttribute, attrsContains]
  rw [mem_namespaces h ha W hn e]
  constructor
  · rintro ⟨h1, ⟨p, hp, hpt⟩, m, h2, h3, h4⟩
    have := (h.nodesOk.root _ (upgrade_live hp).1).1 hpt
    subst this
    exact ⟨h1, hp, m, h2, h3, (hattr m).1 h4⟩
  · rintro ⟨h1, hp, m, h2, h3, h4⟩
    exact ⟨h1, ⟨_, hp, (h.nodesOk.root _ hroot).2 rfl⟩, m, h2, h3, (hattr m).2 h4⟩

/-- A node that meets the hypothesis and declares `xlink`. -/
example (W : ValueWriter) : ∃ s es, Reachable s ∧ s.Acyclic ∧ s.live 1 = true ∧ s.writeAttributes W 1 = .ok es ∧ xlinkDecl ∈ es := by
  obtain ⟨s, h, ha, hd, h1, hp, ht, ho, h5, hs, he, ha5, _⟩ := writerHistory_state
  obtain ⟨es, e, hx⟩ := C47_exact h ha W h1
  exact ⟨s, es, h, ha, h1, e, hx.2 ⟨ht, hp, 5, h5, ho 5 h5 hs he, ⟨.id .Href, .link 6⟩, by rw [ha5]; simp, rfl⟩⟩

end Svgdom
