import Verif.Proof.Settle
import Verif.Props.XmlText

/-!
# C112: saving and loading again and again comes to rest
-/

set_option autoImplicit false

namespace Svgdom

/-- One round: the result can go through the next one; its texts have less white space, unless the document came back as it was. -/
theorem round_step {L : Lib} {s : St} (h : Reachable s) (ha : s.Acyclic) {F : Forest} (hF : Describes s F) (W : ValueWriter)
    (q : Char) {T : Trees} (hT : T.Of F (F.kids s.rootId)) (hc : ComesBack L s W q T) (debug : Bool) :
    ∃ evs x, s.writeDom W = .ok evs ∧ readMarkup q evs = some x ∧ ∀ x' : Xml, x'.unindent false = x →
      ∃ t G U, parseSvg L debug x' = .ok t ∧ Describes t G ∧ U.Of G (G.kids t.rootId) ∧ ComesBack L t W q U ∧
        U.blanks t ≤ T.blanks s ∧ (U.blanks t = T.blanks s → T.NormalText s) ∧
        ((∀ n ∈ T.pre, s.nodeType n = .text → cdataEnd (s.text n) = false) → ∀ n ∈ U.pre, t.nodeType n = .text → cdataEnd (t.text n) = false) ∧
        (T.Indentable s false → U.Indentable t false) := by
  obtain ⟨evs, x, h1, h2, h3⟩ := read_written h ha W q hF hT hc.wf
  refine ⟨evs, x, h1, h2, ?_⟩
  rintro x' rfl
  have hr : s.live s.rootId = true := by obtain ⟨_, hti⟩ := h.inv.tree; exact hti.root
  have hl : ∀ n ∈ T.pre, s.live n = true := pre_live hF hT fun c hc => (hF.wf.kids _ hr c hc).1
  obtain ⟨p, U, G, s2, s3, f, e, hk, hs⟩ := front_same h debug hc.noSheet h3 (hc.readable hl) hc.wf.top
  have hO3 := f.of2
  rw [← f.root3] at hO3
  have hready := TextReady.parsed f
  obtain ⟨u, t, e2, hp⟩ := prepareText_ok f.built3 f.desc3 hO3 (fun j hj => front_region f hj)
  rw [hk] at hp hO3
  have hd3 := f.desc3
  have hO := hp.of
  have hrt : t.rootId = s3.rootId := hp.removed.rootId.trans hp.ti.rootId
  rw [← hrt] at hO
  have ep : parseSvg L debug x' = .ok t := by rw [e, e2]; rfl
  have hty : ∀ j, t.nodeType j = s3.nodeType j := fun j => by rw [hp.removed.types, hp.ti.types]
  have htg : ∀ j, t.tagName j = s3.tagName j := fun j => by rw [hp.removed.tags, hp.ti.tags]
  have hid : ∀ j, t.idOf j = s3.idOf j := fun j => by rw [hp.removed.ids, hp.ti.ids]
  have hth : ∀ j, Thinner (t.text j) (s3.text j) := text_thinner f.built3.safe f.built3.root hready e2
  have hgone : ∀ n ∈ U.pre, u.emptyText n = true → s3.nodeType n = .text ∧ t.text n = [] := by
    intro n _ hg
    obtain ⟨k1, k2⟩ := emptyText_iff.1 hg
    rw [hp.ti.types] at k1
    exact ⟨k1, by rw [hp.removed.texts, k2]⟩
  have hsne : ∀ n ∈ T.pre, s.nodeType n = .text → s.text n ≠ [] := by
    intro n hn ht
    rcases hc.wf.kinds n hn with h | h | h
    · rw [ht] at h; simp at h
    · exact h.2.2.1
    · rw [ht] at h; simp at h
  have hne := same_notEmpty hs hsne
  obtain ⟨b1, b2⟩ := keep_blanks (fun n _ => hty n) (fun n hn ht => ⟨hth n, hne n hn ht⟩) hgone
  rw [same_blanks hs] at b1 b2
  have hsub : ∀ j ∈ (U.keep u.emptyText).pre, j ∈ U.pre := keep_pre_sub _ _
  refine ⟨t, _, _, ep, hp.desc, hO, ?_, b1, fun hb => ?_, fun hcd n hn ht => ?_, ?_⟩
  · -- everything but the texts is as before
    have hroot : t.live t.rootId = true := hp.built.rootLive
    have hlive : ∀ c ∈ (U.keep u.emptyText).pre, t.live c = true := pre_live hp.desc hO fun c hc => (hp.desc.wf.kids _ hroot c hc).1
    have hin : ∀ n ∈ (U.keep u.emptyText).pre, t.InTree n := fun n hn =>
      ⟨hlive n hn, (mem_pre_kids hp.desc hroot hO (hlive n hn)).1 hn⟩
    have hfin := parsed_final ep hp.desc hO
    have pair : ∀ i j, (i, j) ∈ T.pre.zip U.pre → s.nodeType i = .element → t.idOf j = s.idOf i := by
      intro i j hij ht
      rw [hid, (hs.zip i j hij).id ht]
    -- attributes
    have attr : ∀ n ∈ (U.keep u.emptyText).pre, ∀ a ∈ t.attributes n, ∃ i ∈ T.pre, s.nodeType i = .element ∧ t.tagName n = s.tagName i ∧
        ∃ b ∈ s.attributes i, b.name = a.name ∧ SameValue (fun i j => (i, j) ∈ T.pre.zip U.pre) b.value a.value := by
      intro n hn a ha
      obtain ⟨i, hi, hsn⟩ := same_from hs n (hsub n hn)
      have hel : s.nodeType i = .element := by
        rw [← hsn.type, ← hty]
        by_contra hne
        rw [(final_plain hfin n hn hne).1] at ha
        simp at ha
      refine ⟨i, hi, hel, by rw [htg, hsn.tag hel], ?_⟩
      have hl3 : s3.live n = true := (front_region f (by rw [hk]; exact hsub n hn)).live
      rw [hp.attrs n hl3] at ha
      have hg := attrsGet_mem (f.built3.reachable.inv.link.names n hl3) ha
      have hrel := hsn.attrs hel a.name
      simp only [attrsGetValue, hg, Option.map_some] at hrel
      cases hb : attrsGet (s.attributes i) a.name with
      | none => rw [hb] at hrel; cases hrel
      | some b =>
        rw [hb] at hrel
        obtain ⟨k1, k2⟩ := attrsGet_some hb
        cases hrel with
        | some hv => exact ⟨b, k1, k2, hv⟩
    have same : ∀ {i : NodeId}, i ∈ T.pre → ∀ {b : Attribute}, b ∈ s.attributes i → ∀ {w : AttributeValue} (k : AttributeId),
        SameValue (fun i j => (i, j) ∈ T.pre.zip U.pre) b.value w → t.written W k w = s.written W k b.value := by
      intro i hi b hb w k hv
      exact written_same W k hv fun m n hmn hm => pair m n hmn ((hc.attrs i hi b hb).target m hm).1
    refine ⟨⟨?_, ?_, ?_, ?_⟩, fun n hn => C33_no_style ep (hin n hn), ?_, hc.noSheet⟩
    · intro n hn
      obtain ⟨i, hi, hsn⟩ := same_from hs n (hsub n hn)
      rcases final_kinds hfin hO n hn with ⟨k1, k2⟩ | ⟨k1, k2, k3⟩ | ⟨k1, k2⟩
      · refine .inl ⟨k1, k2, ?_⟩
        rw [hty, hsn.type] at k1
        rw [hid, hsn.id k1]
        rcases hc.wf.kinds i hi with h | h | h
        · exact h.2.2
        · rw [k1] at h; simp at h
        · rw [k1] at h; simp at h
      · refine .inr (.inl ⟨k1, by rw [hp.desc.shows.first n (hlive n hn), k2]; rfl, k3, ?_⟩)
        rw [hty, hsn.type] at k1
        have hpl : plainContent (s3.text n) = true := by
          rw [hsn.text (by rw [k1]; decide)]
          rcases hc.wf.kinds i hi with h | h | h
          · rw [k1] at h; simp at h
          · exact h.2.2.2
          · rw [k1] at h; simp at h
        rw [plainContent, List.all_eq_true] at hpl ⊢
        intro c hcm
        rcases (hth n).chars c hcm with h | rfl
        · exact hpl c h
        · decide
      · refine .inr (.inr ⟨k1, by rw [hp.desc.shows.first n (hlive n hn), k2]; rfl, ?_⟩)
        rw [hp.removed.texts, hp.tidy, tidyT_other (by rw [← hty, k1]; decide)]
        rw [hty, hsn.type] at k1
        rw [hsn.text (by rw [k1]; decide)]
        rcases hc.wf.kinds i hi with h | h | h
        · rw [k1] at h; simp at h
        · rw [k1] at h; simp at h
        · exact h.2.2
    · exact keep_sep (fun n _ => hty n) (fun n hn hg => (hgone n hn hg).1) (same_sep hs hc.wf.sep)
    · obtain ⟨n, k1, k2, k3⟩ := hc.wf.top
      have key : ∀ {l m : List NodeId}, List.Forall₂ (SameNode s s3 fun i j => (i, j) ∈ T.pre.zip U.pre) l m → (∀ j ∈ m, j ∈ U.pre) →
          List.Forall₂ (SameNode s s3 fun i j => (i, j) ∈ T.pre.zip U.pre) (l.filter fun m => decide (s.nodeType m ≠ .comment))
            (m.filter fun m => decide (s3.nodeType m ≠ .comment)) := by
        intro l m hlm
        induction hlm with
        | nil => intro _; exact .nil
        | cons h1 _ ih =>
          intro hm
          have ih := ih fun j hj => hm j (by simp [hj])
          simp only [List.filter_cons, h1.type]
          split
          · exact .cons h1 ih
          · exact ih
      have htu : ∀ {U : Trees}, ∀ j ∈ U.tops, j ∈ U.pre := by
        intro U
        induction U with
        | nil => intro j hj; simp [Trees.tops] at hj
        | cons n K R _ ih =>
          intro j hj
          simp only [Trees.tops, List.mem_cons] at hj
          simp only [Trees.pre, List.mem_cons, List.mem_append]
          rcases hj with rfl | hj
          · exact .inl rfl
          · exact .inr (.inr (ih j hj))
      have hf := key (same_tops hs) htu
      rw [k1] at hf
      obtain ⟨m, hm⟩ : ∃ m, U.tops.filter (fun m => decide (s3.nodeType m ≠ .comment)) = [m] :=
        List.length_eq_one_iff.1 (by rw [← hf.length_eq]; rfl)
      rw [hm] at hf
      have hnm : SameNode s s3 _ n m := (List.forall₂_cons.1 hf).1
      refine ⟨m, ?_, by rw [hty, hnm.type, k2], by rw [htg, hnm.tag k2, k3]⟩
      rw [keep_tops, List.filter_filter]
      have : ∀ j, j ∈ U.tops → (decide (t.nodeType j ≠ .comment) && !u.emptyText j) = decide (s3.nodeType j ≠ .comment) := by
        intro j hj
        rw [hty]
        cases hg : u.emptyText j with
        | false => simp
        | true =>
          have hjt := (hgone j (htu j hj) hg).1
          have hjm : j ∈ U.tops.filter (fun m => decide (s3.nodeType m ≠ .comment)) := by simp [hj, hjt]
          rw [hm, List.mem_singleton] at hjm
          subst hjm
          rw [hnm.type, k2] at hjt
          simp at hjt
      rw [List.filter_congr this, hm]
    · intro n hn a ha
      obtain ⟨i, hi, hel, _, b, hb, hbn, hv⟩ := attr n hn a ha
      obtain ⟨k, k1, k2, k3, w, v, k4, k5⟩ := hc.wf.attrs i hi b hb
      exact ⟨k, by rw [← hbn, k1], k2, k3, w, v, by rw [same hi hb k hv, k4], k5⟩
    · intro n hn a ha
      obtain ⟨i, hi, hel, htag, b, hb, hbn, hv⟩ := attr n hn a ha
      have hR := hc.attrs i hi b hb
      refine ⟨fun k hk => hR.special k (by rw [hbn, hk]), ?_, ?_, ?_⟩
      · intro hpl k el w v g1 g2 g3 g4
        have hbv : b.value = a.value := by
          generalize a.value = y at hv hpl
          generalize b.value = x at hv
          cases hv with
          | plain _ => rfl
          | link _ => simp [AttributeValue.plain] at hpl
          | funcLink _ => simp [AttributeValue.plain] at hpl
          | paint _ _ => simp [AttributeValue.plain] at hpl
        rw [same hi hb k hv] at g3
        rcases hR.plain (by rw [hbv]; exact hpl) k el w v (by rw [hbn, g1]) (by rw [← htag, g2]) g3 g4 with k1 | ⟨iri, fb, k1, k2, k3, k4⟩
        · exact .inl (by rw [k1, hbv])
        · refine .inr ⟨iri, fb, k1, k2, ?_, by rw [← hbv, k4]⟩
          intro j hj hje
          obtain ⟨i', hi', hsn⟩ := same_from hs j (hsub j hj)
          rw [hty, hsn.type] at hje
          rw [hid, hsn.id hje]
          exact k3 i' hi' hje
      · intro m' hm' k el w v g1 g2 g3 g4
        rw [same hi hb k hv] at g3
        obtain ⟨m, hm, hmm⟩ : ∃ m, b.value.refersTo m = true ∧ (m, m') ∈ T.pre.zip U.pre := by
          generalize a.value = y at hv hm'
          generalize b.value = x at hv ⊢
          cases hv with
          | plain hpl => cases y <;> simp [AttributeValue.plain, AttributeValue.refersTo] at hpl hm'
          | link hq => simp only [AttributeValue.refersTo, decide_eq_true_eq] at hm' ⊢; subst hm'; exact ⟨_, rfl, hq⟩
          | funcLink hq => simp only [AttributeValue.refersTo, decide_eq_true_eq] at hm' ⊢; subst hm'; exact ⟨_, rfl, hq⟩
          | paint _ hq => simp only [AttributeValue.refersTo, decide_eq_true_eq] at hm' ⊢; subst hm'; exact ⟨_, rfl, hq⟩
        obtain ⟨fb, k1, k2⟩ := hR.link m hm k el w v (by rw [hbn, g1]) (by rw [← htag, g2]) g3 g4
        refine ⟨fb, by rw [k1, pair m m' hmm (hR.target m hm).1], ?_⟩
        rw [k2] at hv
        exact found_related hv (refersTo_iff.1 hm')
      · intro m hm
        obtain ⟨g1, g2, g3, g4⟩ := C63_first ep hp.desc hO hn ⟨a, ha, hm⟩
        exact ⟨g4, g2, g3, g1⟩
  · -- nothing has changed
    have hall := b2 hb
    have hleaf : T.Leaves s := leaves_of hT fun n hn he => by
      have hf : s.firstChild n = none := by
        rcases hc.wf.kinds n hn with h | h | h
        · exact absurd h.1 he
        · exact h.2.1
        · exact h.2.1
      rw [hF.shows.first n (hl n hn)] at hf
      exact List.head?_eq_none_iff.1 hf
    have htx : ∀ j, t.text j = s3.text j := by
      intro j
      by_cases hjt : s3.nodeType j = .text
      · by_cases hj : j ∈ U.pre
        · exact (hall j hj).2 hjt
        · rw [hp.removed.texts, hp.tidy, tidyT_outside hj]
      · rw [hp.removed.texts, hp.tidy, tidyT_other hjt]
    have hmem := prepared_mem f.built3 hd3 hO3 hp
    have hnorm := (sameTexts_iff f.built3.safe f.built3.root hready e2 hd3 hO3).1 ⟨fun j => by
      rw [(hmem j).2, (hmem j).1]
      exact ⟨fun h => h.1, fun hj => ⟨hj, (hall j hj).1⟩⟩, htx⟩
    exact ⟨hsne, by rw [← same_groups hs hleaf]; exact hnorm.groups⟩
  · obtain ⟨i, hi, hsn⟩ := same_from hs n (hsub n hn)
    rw [hty, hsn.type] at ht
    refine text_cdata f.built3.safe f.built3.root hready e2 n ?_
    rw [hsn.text (by rw [ht]; decide)]
    exact hcd i hi ht
  · exact keep_indentable hs (fun n _ => ⟨hty n, htg n⟩) fun n hn hne => (final_plain (parsed_final ep hp.desc hO) n hn hne).2

/-- C112: a document that comes back but for its texts (the assumptions of C62 and C92 without that on texts) can be written and
parsed again as often as wanted, and from some round on it is written the same. At most as many rounds are needed as its texts have
spaces, tabs and line ends counted twice.
Not always (`C112_refuted`): the assumptions say that names, ids, texts and values can be written without escaping. -/
theorem C112_partial {L : Lib} {s : St} (h : Reachable s) (ha : s.Acyclic) {F : Forest} (hF : Describes s F) (W : ValueWriter)
    (q : Char) {T : Trees} (hT : T.Of F (F.kids s.rootId)) (hc : ComesBack L s W q T) (hp : PlainNodes s T)
    (hb : T.NoBlank s none) (debug : Bool) :
    (∀ t, s.Rounds L debug W q t → ∃ v, t.Round L debug W q v) ∧
    ∀ u : Nat → St, u 0 = s → (∀ k, (u k).Round L debug W q (u (k + 1))) →
      ∃ N ≤ T.blanks s, ∃ evs, ∀ m, N ≤ m → (u m).writeDom W = .ok evs := by
  induction hk : T.blanks s using Nat.strong_induction_on generalizing s F T with
  | _ k ih =>
  by_cases hn : T.NormalText s
  · obtain ⟨evs, h1, h2⟩ := C92_partial h ha hF W q hT hc hn hp hb debug
    refine ⟨fun t ht => (h2 t ht).2, fun u h0 hu => ⟨0, Nat.zero_le _, evs, fun m _ => ?_⟩⟩
    have : ∀ m, s.Rounds L debug W q (u m) := by
      intro m
      induction m with
      | zero => rw [h0]; exact .refl
      | succ m ih => exact ih.tail (hu m)
    exact (h2 _ (this m)).1
  · obtain ⟨evs, x, h1, h2, h3⟩ := round_step h ha hF W q hT hc debug
    have hx : x.unindent false = x := by
      obtain ⟨evs', x', g1, g2, g3⟩ := read_written h ha W q hF hT hc.wf
      rw [h1] at g1
      cases g1
      rw [h2] at g2
      cases g2
      exact unindent_shows g3 hb (by decide)
    have step : ∀ t, s.Round L debug W q t → (∀ v, t.Rounds L debug W q v → ∃ w, v.Round L debug W q w) ∧
        ∀ u : Nat → St, u 0 = t → (∀ k, (u k).Round L debug W q (u (k + 1))) →
          ∃ N < k, ∃ evs, ∀ m, N ≤ m → (u m).writeDom W = .ok evs := by
      rintro t ⟨evs', y, y', e1, e2, e3, e4⟩
      rw [h1] at e1
      cases e1
      rw [h2] at e2
      cases e2
      obtain ⟨t', G, U, g1, g2, g3, g4, g5, g6, _⟩ := h3 y' e3
      rw [e4] at g1
      cases g1
      have hlt : U.blanks t < k := by
        rw [← hk]
        exact lt_of_le_of_ne g5 fun hb => hn (g6 hb)
      obtain ⟨i1, i2⟩ := ih _ hlt (C44_reachable e4).1.reachable (C44_tree e4).2 g2 g3 g4 (plain_parsed e4 g2 g3)
        (noBlank_parsed e4 g2 g3) rfl
      refine ⟨i1, fun u h0 hu => ?_⟩
      obtain ⟨N, hN, hrest⟩ := i2 u h0 hu
      exact ⟨N, Nat.lt_of_le_of_lt hN hlt, hrest⟩
    refine ⟨fun t ht => ?_, fun u h0 hu => ?_⟩
    · have : t = s ∨ ∃ v, s.Round L debug W q v ∧ v.Rounds L debug W q t := by
        induction ht with
        | refl => exact .inl rfl
        | tail _ hr ih =>
          rcases ih with rfl | ⟨v, hv, hvt⟩
          · exact .inr ⟨_, hr, .refl⟩
          · exact .inr ⟨v, hv, hvt.tail hr⟩
      rcases this with rfl | ⟨v, hv, hvt⟩
      · obtain ⟨t', _, _, g1, _⟩ := h3 x hx
        exact ⟨t', evs, x, x, h1, h2, hx, g1⟩
      · exact (step v hv).1 t hvt
    · obtain ⟨N, hN, evs', hm⟩ := (step (u 1) (by rw [← h0]; exact hu 0)).2 (fun k => u (k + 1)) rfl fun k => hu (k + 1)
      refine ⟨N + 1, by omega, evs', fun m hNm => ?_⟩
      obtain ⟨m, rfl⟩ : ∃ m', m = m' + 1 := ⟨m - 1, by omega⟩
      exact hm m (by omega)

/-- C112 for parsed documents. -/
theorem C112_parsed_partial {L : Lib} {debug : Bool} {x : Xml} {t : St} (e : parseSvg L debug x = .ok t) (hx : x.topElements = 1)
    (hx2 : x.topText = false) {F : Forest} (hF : Describes t F) {T : Trees} (hT : T.Of F (F.kids t.rootId)) (W : ValueWriter) (q : Char)
    (h : CanComeBack L t W q T) :
    (∀ u, t.Rounds L debug W q u → ∃ v, u.Round L debug W q v) ∧
    ∀ u : Nat → St, u 0 = t → (∀ k, (u k).Round L debug W q (u (k + 1))) →
      ∃ N ≤ T.blanks t, ∃ evs, ∀ m, N ≤ m → (u m).writeDom W = .ok evs :=
  C112_partial (C44_reachable e).1.reachable (C44_tree e).2 hF W q hT (comesBack_parsed e hx hx2 hF hT h) (plain_parsed e hF hT)
    (noBlank_parsed e hF hT) debug

/-- The white space in the texts of the trees is that of the texts of the document that shows them. -/
theorem shows_blanks {s t : St} {W : ValueWriter} {q : Char} : ∀ {x : Xml} {T U : Trees}, x.Shows s W q T → x.Shows t W q U →
    T.blanks s = U.blanks t
  | .nil, .nil, .nil, _, _ => rfl
  | .element _ _ _ kids rest, .cons _ K R, .cons _ K' R', h, h' => by
    obtain ⟨h1, _, _, _, h2, h3⟩ := h
    obtain ⟨g1, _, _, _, g2, g3⟩ := h'
    simp only [Trees.blanks, h1, g1]
    rw [shows_blanks h2 g2, shows_blanks h3 g3]
    simp
  | .text _ rest, .cons _ K R, .cons _ K' R', h, h' => by
    obtain ⟨h1, h2, rfl, h3⟩ := h
    obtain ⟨g1, g2, rfl, g3⟩ := h'
    simp only [Trees.blanks, h1, g1, ← h2, ← g2]
    rw [shows_blanks h3 g3]
  | .comment _ rest, .cons _ K R, .cons _ K' R', h, h' => by
    obtain ⟨h1, h2, rfl, h3⟩ := h
    obtain ⟨g1, g2, rfl, g3⟩ := h'
    simp only [Trees.blanks, h1, g1]
    rw [shows_blanks h3 g3]
    simp

/-- C112: such a document is written the same after one round if and only if its texts are as they should be, and then after any
number of rounds. -/
theorem C112_settled_iff {L : Lib} {s : St} (h : Reachable s) (ha : s.Acyclic) {F : Forest} (hF : Describes s F) (W : ValueWriter)
    (q : Char) {T : Trees} (hT : T.Of F (F.kids s.rootId)) (hc : ComesBack L s W q T) (hp : PlainNodes s T)
    (hb : T.NoBlank s none) (debug : Bool) :
    ((∃ t, s.Round L debug W q t ∧ t.writeDom W = s.writeDom W) ↔ T.NormalText s) ∧
    (T.NormalText s ↔ ∀ t, s.Rounds L debug W q t → t.writeDom W = s.writeDom W) := by
  have h1 : (∃ t, s.Round L debug W q t ∧ t.writeDom W = s.writeDom W) → T.NormalText s := by
    rintro ⟨t, ⟨evs', y, y', e1, e2, e3, e4⟩, hw⟩
    obtain ⟨evs, x, k1, k2, k3⟩ := round_step h ha hF W q hT hc debug
    rw [k1] at e1
    cases e1
    rw [k2] at e2
    cases e2
    obtain ⟨t', G, U, g1, g2, g3, g4, g5, g6, _⟩ := k3 y' e3
    rw [e4] at g1
    cases g1
    obtain ⟨_, x1, i1, i2, i3⟩ := read_written h ha W q hF hT hc.wf
    obtain ⟨_, x2, j1, j2, j3⟩ := read_written (C44_reachable e4).1.reachable (C44_tree e4).2 W q g2 g3 g4.wf
    rw [hw, i1] at j1
    cases j1
    rw [i2] at j2
    cases j2
    exact g6 (shows_blanks j3 i3)
  have h2 : T.NormalText s → ∀ t, s.Rounds L debug W q t → t.writeDom W = s.writeDom W := by
    intro hn t ht
    obtain ⟨evs, k1, k2⟩ := C92_partial h ha hF W q hT hc hn hp hb debug
    rw [k1, (k2 t ht).1]
  have h3 : (∀ t, s.Rounds L debug W q t → t.writeDom W = s.writeDom W) → ∃ t, s.Round L debug W q t ∧ t.writeDom W = s.writeDom W := by
    intro hall
    obtain ⟨t, ht⟩ := (C112_partial h ha hF W q hT hc hp hb debug).1 s .refl
    exact ⟨t, ht, hall t (.tail .refl ht)⟩
  exact ⟨⟨h1, fun hn => h3 (h2 hn)⟩, h2, fun hall => h1 (h3 hall)⟩

/-- What is needed to save the characters of a document with the given options and load them. -/
structure CanSave (L : Lib) (s : St) (W : ValueWriter) (q : Char) (o : XmlOptions) (F : Forest) (T : Trees) : Prop where
  reachable : Reachable s
  acyclic : s.Acyclic
  shown : Describes s F
  trees : T.Of F (F.kids s.rootId)
  back : ComesBack L s W q T
  plain : PlainNodes s T
  noBlank : T.NoBlank s none
  cdata : ∀ n ∈ T.pre, s.nodeType n = .text → cdataEnd (s.text n) = false
  indent : o.indent = .none ∨ T.Indentable s false

theorem CanSave.next {L : Lib} {s : St} {W : ValueWriter} {q : Char} {o : XmlOptions} {F : Forest} {T : Trees} (h : CanSave L s W q o F T)
    (debug : Bool) : ∃ t G U, s.Saved L debug W o t ∧ s.Round L debug W q t ∧ CanSave L t W q o G U := by
  obtain ⟨evs, txt, x, x', g1, g2, g3, g4, g5, g6⟩ := text_written h.reachable h.acyclic h.shown W q h.trees h.back.wf h.cdata o h.indent
  rw [unindent_shows g6 h.noBlank (by decide)] at g5
  obtain ⟨evs', y, k1, k2, k3⟩ := round_step h.reachable h.acyclic h.shown W q h.trees h.back debug
  rw [g1] at k1
  cases k1
  rw [g2] at k2
  cases k2
  obtain ⟨t, G, U, e, e1, e2, e3, _, _, e4, e5⟩ := k3 x' g5
  exact ⟨t, G, U, ⟨txt, x', g3, g4, e⟩, ⟨evs, x, x', g1, g2, g5, e⟩, (C44_reachable e).1.reachable, (C44_tree e).2, e1, e2, e3,
    plain_parsed e e1 e2, noBlank_parsed e e1 e2, e4 h.cdata, h.indent.imp id e5⟩

theorem St.Saved.unique {L : Lib} {debug : Bool} {W : ValueWriter} {o : XmlOptions} {s t u : St} (h : s.Saved L debug W o t)
    (g : s.Saved L debug W o u) : t = u := by
  obtain ⟨txt, y, h1, h2, h3⟩ := h
  obtain ⟨txt', y', g1, g2, g3⟩ := g
  rw [h1] at g1
  cases g1
  rw [h2] at g2
  cases g2
  rw [h3] at g3
  cases g3
  rfl

/-- C112 for the characters that are written, with any options: the document can be saved and loaded as often as wanted, and after at
most as many rounds as its texts have white space the characters are the same for ever.
With indentation texts must be inside of `text` elements; and as in C110 there is no `]]>`. -/
theorem C112_text_partial {L : Lib} {s : St} {W : ValueWriter} {q : Char} {o : XmlOptions} {F : Forest} {T : Trees}
    (h : CanSave L s W q o F T) (debug : Bool) :
    ∃ u : Nat → St, u 0 = s ∧ (∀ k, (u k).Saved L debug W o (u (k + 1))) ∧
      ∃ N ≤ T.blanks s, ∃ txt, ∀ m, N ≤ m → (u m).toText W o = .ok txt := by
  have key : ∀ a : { s : St // ∃ F T, CanSave L s W q o F T }, ∃ b : { s : St // ∃ F T, CanSave L s W q o F T },
      a.1.Saved L debug W o b.1 ∧ a.1.Round L debug W q b.1 := by
    rintro ⟨a, F, T, ha⟩
    obtain ⟨t, G, U, h1, h2, h3⟩ := ha.next debug
    exact ⟨⟨t, G, U, h3⟩, h1, h2⟩
  choose f hf using key
  let v : Nat → { s : St // ∃ F T, CanSave L s W q o F T } := fun k => f^[k] ⟨s, F, T, h⟩
  have hv : ∀ k, v (k + 1) = f (v k) := fun k => Function.iterate_succ_apply' f k _
  refine ⟨fun k => (v k).1, rfl, fun k => ?_, ?_⟩
  · simp only [hv]
    exact (hf _).1
  · obtain ⟨N, hN, evs, hm⟩ := (C112_partial h.reachable h.acyclic h.shown W q h.trees h.back h.plain h.noBlank debug).2
      (fun k => (v k).1) rfl (fun k => by simp only [hv]; exact (hf _).2)
    refine ⟨N, hN, render o {} evs, fun m hNm => ?_⟩
    unfold St.toText
    rw [hm m hNm]
    rfl

/-- C112 for the characters of parsed documents. -/
theorem C112_text_parsed_partial {L : Lib} {debug : Bool} {x : Xml} {t : St} (e : parseSvg L debug x = .ok t) (hx : x.topElements = 1)
    (hx2 : x.topText = false) {F : Forest} (hF : Describes t F) {T : Trees} (hT : T.Of F (F.kids t.rootId)) (W : ValueWriter) (q : Char)
    (h : CanComeBack L t W q T) (hc : ∀ n ∈ T.pre, t.nodeType n = .text → cdataEnd (t.text n) = false) (o : XmlOptions)
    (hi : o.indent = .none ∨ T.Indentable t false) :
    ∃ u : Nat → St, u 0 = t ∧ (∀ k, (u k).Saved L debug W o (u (k + 1))) ∧
      ∃ N ≤ T.blanks t, ∃ txt, ∀ m, N ≤ m → (u m).toText W o = .ok txt :=
  C112_text_partial ⟨(C44_reachable e).1.reachable, (C44_tree e).2, hF, hT, comesBack_parsed e hx hx2 hF hT h, plain_parsed e hF hT,
    noBlank_parsed e hF hT, hc, hi⟩ debug

/-- C112 fails: there is a parsed document that, written and parsed, is written as something that is not XML. -/
theorem C112_refuted : ∃ x s t, parseSvg sampleLib true x = .ok s ∧ s.Round sampleLib true sampleWriter '"' t ∧
    ¬ ∃ v, t.Round sampleLib true sampleWriter '"' v := by
  obtain ⟨x, s, t, evs, evs', h1, h2, _, h4, _, _, _, h8⟩ := C92_refuted
  refine ⟨x, s, t, h1, h2, ?_⟩
  rintro ⟨v, evs2, y, _, e1, e2, _⟩
  rw [h4] at e1
  cases e1
  rw [h8] at e2
  cases e2

/-- A document that meets the assumptions of `C112_parsed_partial` and is not written the same after one round. -/
example : ∃ t u F T, parseSvg sampleLib true againXml = .ok t ∧ againXml.topElements = 1 ∧ againXml.topText = false ∧ Describes t F ∧
    T.Of F (F.kids t.rootId) ∧ CanComeBack sampleLib t sampleWriter '"' T ∧ t.Round sampleLib true sampleWriter '"' u ∧
    t.writeDom sampleWriter ≠ u.writeDom sampleWriter := by
  let T : Trees := .cons 1 (.cons 2 (.cons 4 (.cons 5 .nil .nil) (.cons 6 .nil .nil)) .nil) .nil
  obtain ⟨t, e, hp⟩ := exists_of_parsed (x := againXml) (p := fun t => comesBackB t 7 T && match t.writeDom sampleWriter with
      | .ok evs => (match readMarkup '"' evs with
        | some x' => decide (x'.unindent false = x') && parsed x' fun u => decide (t.writeDom sampleWriter ≠ u.writeDom sampleWriter)
        | none => false)
      | .error _ => false) (by decide +kernel)
  simp only [Bool.and_eq_true] at hp
  obtain ⟨e1, e2⟩ := hp
  obtain ⟨F, _, h2, h3, h4⟩ := comesBack_of_check (C44_reachable e).1.reachable e1
  split at e2
  · next evs hw =>
    split at e2
    · next x' hx' =>
      simp only [Bool.and_eq_true, decide_eq_true_eq] at e2
      obtain ⟨k1, k2⟩ := e2
      unfold parsed at k2
      split at k2
      · next u hu =>
        exact ⟨t, u, F, T, e, rfl, rfl, h2, h3, h4.can, ⟨evs, x', x', hw, hx', k1, hu⟩, of_decide_eq_true k2⟩
      · simp at k2
    · simp at e2
  · simp at e2

/-- The same document meets the assumptions of `C112_text_partial` with default options; its characters change once. -/
example : ∃ t u F T, CanSave sampleLib t sampleWriter '"' {} F T ∧ t.Saved sampleLib true sampleWriter {} u ∧
    t.toText sampleWriter {} ≠ u.toText sampleWriter {} := by
  let T : Trees := .cons 1 (.cons 2 (.cons 4 (.cons 5 .nil .nil) (.cons 6 .nil .nil)) .nil) .nil
  obtain ⟨t, e, hp⟩ := exists_of_parsed (x := againXml) (p := fun t => comesBackB t 7 T &&
    T.pre.all (fun n => decide (t.nodeType n = .text → cdataEnd (t.text n) = false)) && decide (T.Indentable t false) &&
    match t.toText sampleWriter {} with
    | .ok txt => loads txt fun u => decide (t.toText sampleWriter {} ≠ u.toText sampleWriter {})
    | .error _ => false) (by decide +kernel)
  simp only [Bool.and_eq_true, List.all_eq_true, decide_eq_true_eq] at hp
  obtain ⟨⟨⟨e1, e2⟩, e3⟩, e4⟩ := hp
  obtain ⟨F, h1, h2, h3, h4⟩ := comesBack_of_check (C44_reachable e).1.reachable e1
  split at e4
  · next txt ht =>
    unfold loads at e4
    split at e4
    · next y hy =>
      obtain ⟨u, hu, hne⟩ := exists_of_parsed e4
      exact ⟨t, u, F, T, ⟨(C44_reachable e).1.reachable, h1, h2, h3, h4, plain_parsed e h2 h3, noBlank_parsed e h2 h3, e2, .inr e3⟩,
        ⟨txt, y, ht, hy, hu⟩, of_decide_eq_true hne⟩
    · simp at e4
  · simp at e4

end Svgdom
