import Verif.Props.Text
import Mathlib.Order.WellFounded
import Mathlib.Data.Fintype.EquivFin
import Mathlib.Data.Set.Finite.List

/-! The texts of a document after text processing, exactly. -/

set_option autoImplicit false

namespace Svgdom

open Relation

theorem trim_default (t : Str) : trimText t .default = squeeze (t.map toSpace) := C38_default t
theorem trim_preserve (t : Str) : trimText t .preserve = t.map toSpace := C38_preserve t

/-! ### Modes -/

theorem root_top {s : St} (h2 : RootSafeReachable s) : s.parent s.rootId = none := by
  obtain ⟨F, hT⟩ := h2.reachable.inv.tree
  exact (C09_root_partial h2 (i := s.rootId) hT.root .refl).2

theorem Mode.unique {s : St} (ht : s.parent s.rootId = none) {e : NodeId} {a b : XmlSpace} (ha : s.Mode e a) (hb : s.Mode e b) : a = b := by
  induction ha generalizing b with
  | root =>
    generalize he : s.rootId = r at hb
    cases hb with
    | root => rfl
    | child hp _ => rw [← he, ht] at hp; simp at hp
  | @child p e d hp hm ih =>
    generalize he : e = r at hb
    cases hb with
    | root => rw [he, ht] at hp; simp at hp
    | child hp' hm' =>
      subst he
      rw [hp] at hp'
      cases hp'
      rw [ih hm']

/-- No `preserve` on the element and its ancestors. -/
theorem Mode.default {s : St} {e : NodeId} {m : XmlSpace} (h : s.Mode e m)
    (hd : ∀ a, (a = e ∨ s.Ancestor a e) → s.spaceAt a .default = .default) : m = .default := by
  induction h with
  | root => rfl
  | @child p e d hp hm ih =>
    have := ih fun a ha => hd a (.inr (by
      rcases ha with rfl | ha
      · exact .single hp
      · exact .head (b := p) hp ha))
    rw [this]
    exact hd e (.inl rfl)

theorem spaceAt_own {s : St} {e : NodeId} (h : s.HasSpace e) (a b : XmlSpace) : s.spaceAt e a = s.spaceAt e b := by
  obtain ⟨v, hv⟩ := h
  simp only [St.spaceAt, hv]

theorem spaceAt_none {s : St} {e : NodeId} (h : ¬ s.HasSpace e) (a : XmlSpace) : s.spaceAt e a = a := by
  unfold St.spaceAt
  split
  · next v hv => exact absurd ⟨v, hv⟩ h
  · rfl

/-- The mode is handed down. -/
theorem Mode.inherit {s : St} (ht : s.parent s.rootId = none) {e p : NodeId} {m sp : XmlSpace} (he : s.Mode e sp) (h : s.Mode p m)
    (hep : e = p ∨ s.Ancestor e p) (hno : ∀ q, s.Ancestor e q → (q = p ∨ s.Ancestor q p) → ¬ s.HasSpace q) : m = sp := by
  induction h with
  | root =>
    rcases hep with rfl | h
    · exact Mode.unique ht .root he
    · exfalso
      obtain ⟨b, hb, -⟩ := TransGen.head'_iff.1 h
      have hb : s.parent s.rootId = some b := hb
      rw [ht] at hb; simp at hb
  | @child q p d hp hm ih =>
    by_cases hpe : e = p
    · subst hpe; exact Mode.unique ht (.child hp hm) he
    · have hanc : s.Ancestor e p := hep.resolve_left hpe
      have hq : e = q ∨ s.Ancestor e q := by
        obtain ⟨b, hb, hbe⟩ := TransGen.head'_iff.1 hanc
        have hb : s.parent p = some b := hb
        rw [hp] at hb; cases hb
        rcases Relation.reflTransGen_iff_eq_or_transGen.1 hbe with h | h
        · exact .inl h
        · exact .inr h
      have := ih hq fun x hx hxq => hno x hx (.inr (by
        rcases hxq with rfl | h
        · exact .single hp
        · exact .head (b := q) hp h))
      rw [this, spaceAt_none (hno p hanc (.inl rfl))]

/-! ### One element -/

theorem filter_text_below {F : Forest} {s : St} {e : NodeId} (hb : Built s) (hF : Describes s F) (hl : s.live e = true) {K : Trees}
    (hK : K.Of F (F.kids e)) (hel : s.nodeType e ≠ .text) : s.textsBelow e = K.pre.filter fun j => s.isText j := by
  obtain ⟨T, hT, _, _, hd⟩ := C07_traverse hb.reachable hb.acyclic hF hl
  cases (show (Trees.cons e K .nil).Of F [e] from ⟨[], rfl, hK, rfl⟩).unique hT
  have : s.isText e = false := decide_eq_false hel
  simp [St.textsBelow, hd, Trees.pre, this]

/-- Text processing below a text root. -/
structure TextResult (s t : St) (e : NodeId) (sp : XmlSpace) (F : Forest) (K : Trees) : Prop where
  desc : Describes s F
  of : K.Of F (F.kids e)
  live : s.live e = true
  mode : s.Mode e sp
  below : s.textsBelow e = K.pre.filter fun j => s.isText j
  texts : ∀ j ∈ K.pre, t.text j = s.elementT K sp s.text j
  left : t.textsBelow e = (s.textsBelow e).filter fun j => decide (t.text j ≠ [])
  nodup : K.pre.Nodup

theorem processed {s t : St} (h1 : SafeReachable s) (h2 : RootSafeReachable s) (h : TextReady s) (e : s.prepareText = .ok t)
    {n : NodeId} (hn : TextRoot s n) : ∃ sp F K, TextResult s t n sp F K := by
  have hb : Built s := ⟨h1, h2⟩
  obtain ⟨F, T, u, hF, hT, hp⟩ := prepared_ok h1 h2 h e
  have hm := prepared_mem hb hF hT hp
  have hnl := hn.tree.1
  have hnT : n ∈ T.pre := (hm n).1.1 hn.tree
  obtain ⟨sp, K, hmo, hK, hx⟩ := hp.done.exact n hnT hn.starts fun a ha hs => hn.outer a ((hm a).1.2 ha) hs
  have hel : s.nodeType n = .element := by
    refine h.kids n hn.tree ?_
    obtain ⟨c, hc, _⟩ := hn.starts
    rw [hc]; simp
  obtain ⟨K', hK', hKl, hnd, hnK, _⟩ := kids_tree hb hF hnl
  cases hK.unique hK'
  have hbelow := filter_text_below hb hF hnl hK (by rw [hel]; simp)
  have hty : ∀ j, t.nodeType j = s.nodeType j := fun j => (hp.removed.types j).trans (hp.ti.types j)
  have hreg := h.region hb hF hT
  have hsub := sub_pre hT n hnT hK
  refine ⟨sp, F, K, hF, hK, hnl, hmo, hbelow, ?_, ?_, hnd⟩
  · intro j hj
    rw [hp.removed.texts]; exact hx j hj
  · -- the tree below `n` without empty texts
    have hgone : K.gone u.emptyText = K.pre.filter u.emptyText := by
      refine gone_leaf hK fun j hj hjt => ?_
      by_contra hne
      have := (hreg j (hsub j hj)).kids hne
      rw [emptyText_iff, hp.ti.types, this] at hjt
      simp at hjt
    have hS : ∀ j ∈ K.pre, j ∈ T.pre.filter u.emptyText ↔ j ∈ K.gone u.emptyText := by
      intro j hj
      rw [hgone, List.mem_filter, List.mem_filter]
      exact ⟨fun hx => ⟨hj, hx.2⟩, fun hx => ⟨hsub j hj, hx.2⟩⟩
    have hof := keep_of hK hnd hS
    have hpre := keep_pre hnd hS
    have hnS : n ∉ T.pre.filter u.emptyText := by
      intro hx
      have := (emptyText_iff.1 (List.mem_filter.1 hx).2).1
      rw [hp.ti.types, hel] at this; simp at this
    have hkids : (F.prune (T.pre.filter u.emptyText)).kids n = (F.kids n).filter fun j => decide (j ∉ T.pre.filter u.emptyText) := by
      simp only [Forest.prune, if_neg hnS]
    rw [← hkids] at hof
    have hbt := filter_text_below hp.built hp.desc (by rw [hp.removed.live, hp.ti.live]; exact hnl) hof (by rw [hty, hel]; simp)
    rw [hbt, hpre, hbelow, List.filter_filter, List.filter_filter]
    refine List.filter_congr fun j hj => ?_
    have h1 : t.isText j = s.isText j := by rw [St.isText, St.isText, hty]
    rw [h1]
    by_cases hjt : s.isText j = true
    · have h2 : (j ∈ T.pre.filter u.emptyText) ↔ t.text j = [] := by
        rw [List.mem_filter, emptyText_iff, hp.ti.types, hp.removed.texts]
        exact ⟨fun hx => hx.2.2, fun hx => ⟨hsub j hj, of_decide_eq_true hjt, hx⟩⟩
      rw [hjt]
      simp [h2]
    · simp [hjt]

/-- The content after processing is the concatenation of all texts, the removed ones being empty. -/
theorem TextResult.content {s t : St} {e : NodeId} {sp : XmlSpace} {F : Forest} {K : Trees} (h : TextResult s t e sp F K) :
    t.content e = (s.textsBelow e).flatMap t.text := by
  rw [St.content, h.left]
  have : ∀ l : List NodeId, (l.filter fun j => decide (t.text j ≠ [])).flatMap t.text = l.flatMap t.text := by
    intro l
    induction l with
    | nil => rfl
    | cons a l ih =>
      by_cases ha : t.text a = []
      · rw [List.filter_cons_of_neg (by simp [ha]), ih, List.flatMap_cons, ha, List.nil_append]
      · rw [List.filter_cons_of_pos (by simp [ha]), List.flatMap_cons, ih, List.flatMap_cons]
  exact this _

/-- The text nodes are those below the element. -/
theorem TextResult.mem {s t : St} {e : NodeId} {sp : XmlSpace} {F : Forest} {K : Trees} (h : TextResult s t e sp F K) {j : NodeId}
    (hj : s.live j = true) : j ∈ s.textsBelow e ↔ s.Ancestor e j ∧ s.nodeType j = .text := by
  rw [h.below, List.mem_filter, St.isText, decide_eq_true_eq, mem_pre_kids h.desc h.live h.of hj]

theorem depths_pos : ∀ {F : Forest} {T : Trees} {l : List NodeId} {d : Nat}, T.Of F l → T.pre.Nodup → ∀ x ∈ T.depths d,
    d ≤ x.2 ∧ (x.2 = d ↔ x.1 ∈ l)
  | _, .nil, _, _, _, _, x, hx => by simp [Trees.depths] at hx
  | F, .cons i K R, l, d, hT, hn, x, hx => by
    obtain ⟨l', rfl, hK, hR⟩ := hT
    simp only [Trees.pre, List.nodup_cons, List.nodup_append, List.mem_append, not_or] at hn
    obtain ⟨⟨h1, h2⟩, h3, h4, h5⟩ := hn
    have hlR : ∀ j ∈ l', j ∈ R.pre := fun j hj => hR.top_mem j hj
    simp only [Trees.depths, List.mem_cons, List.mem_append] at hx ⊢
    rcases hx with rfl | hx | hx
    · simp
    · obtain ⟨a, b⟩ := depths_pos (d := d + 1) hK h3 x hx
      have hxK : x.1 ∈ K.pre := by rw [← Trees.depths_fst (d + 1)]; exact List.mem_map_of_mem hx
      refine ⟨by omega, ⟨fun h => by omega, ?_⟩⟩
      rintro (h | h)
      · rw [h] at hxK; exact absurd hxK h1
      · exact absurd rfl (h5 x.1 hxK x.1 (hlR _ h))
    · obtain ⟨a, b⟩ := depths_pos (d := d) hR h4 x hx
      have hxR : x.1 ∈ R.pre := by rw [← Trees.depths_fst d]; exact List.mem_map_of_mem hx
      refine ⟨a, b.trans ⟨.inr, ?_⟩⟩
      rintro (h | h)
      · rw [h] at hxR; exact absurd hxR h2
      · exact h

/-! ### Outermost elements -/

/-- Above every element that starts with text there is a text root. -/
theorem exists_textRoot {s : St} (hb : Built s) {e : NodeId} (he : s.InTree e) (hs : StartsWithText s e) :
    ∃ o, TextRoot s o ∧ (o = e ∨ s.Ancestor o e) := by
  obtain ⟨F, hF⟩ := C01_forest hb.reachable
  obtain ⟨T, hT, hTl, _⟩ := kids_tree hb hF hb.rootLive
  have hmem : ∀ j, s.InTree j ↔ j ∈ T.pre := fun j =>
    ⟨fun h => (mem_pre_kids hF hb.rootLive hT h.1).2 h.2, fun h => ⟨hTl j h, (mem_pre_kids hF hb.rootLive hT (hTl j h)).1 h⟩⟩
  let X := {a : NodeId // a ∈ T.pre}
  have : Finite X := T.pre.finite_toSet
  let r : X → X → Prop := fun a b => s.Ancestor a.1 b.1
  have : IsTrans X r := ⟨fun a b c h1 h2 => h2.trans h1⟩
  have : Std.Irrefl r := ⟨fun a => hb.acyclic a.1 (hTl a.1 a.2)⟩
  have wf : WellFounded r := Finite.wellFounded_of_trans_of_irrefl r
  obtain ⟨o, ⟨ho1, ho2⟩, ho3⟩ := wf.has_min {a : X | StartsWithText s a.1 ∧ (a.1 = e ∨ s.Ancestor a.1 e)}
    ⟨⟨e, (hmem e).1 he⟩, hs, .inl rfl⟩
  refine ⟨o.1, ⟨(hmem o.1).2 o.2, ho1, fun a ha hsa hao => ?_⟩, ho2⟩
  refine ho3 ⟨a, (hmem a).1 ha⟩ ⟨hsa, .inr ?_⟩ hao
  rcases ho2 with h | h
  · rw [← h]; exact hao
  · exact h.trans hao

/-! ### Pure part -/

theorem trimText_spaced (t : Str) (m : XmlSpace) : trimText t m = spaced m t := by
  cases m with
  | default => exact C38_default t
  | preserve => exact C38_preserve t

theorem mem_squeeze {c : Char} : ∀ {t : Str}, c ∈ squeeze t ↔ c ∈ t
  | [] => Iff.rfl
  | d :: t => by
    have ih := mem_squeeze (c := c) (t := t)
    rw [squeeze]
    split
    · next h =>
      rw [List.mem_cons, ih]
      refine ⟨.inr, ?_⟩
      rintro (rfl | h')
      · rw [← ih, h.1]; exact List.mem_of_mem_head? h.2
      · exact h'
    · rw [List.mem_cons, List.mem_cons, ih]

theorem squeeze_append_left : ∀ a b : Str, squeeze (squeeze a ++ b) = squeeze (a ++ b)
  | [], _ => rfl
  | c :: a, b => by
    have ih := squeeze_append_left a b
    rw [squeeze]
    split
    · next h =>
      have hs : startsSp a = true := by rw [← squeeze_starts]; exact decide_eq_true h.2
      obtain ⟨a', rfl⟩ := startsSp_iff.1 hs
      rw [ih, h.1]
      exact (squeeze_cons_space (a' ++ b)).symm
    · exact squeeze_append_congr [c] ih

theorem squeeze_flatMap (τ : Texts) : ∀ l : List NodeId, squeeze (l.flatMap fun j => squeeze (τ j)) = squeeze (l.flatMap τ)
  | [] => rfl
  | a :: l => by
    rw [List.flatMap_cons, List.flatMap_cons, squeeze_append_left]
    exact squeeze_append_congr _ (squeeze_flatMap τ l)

theorem toSpace_white (c : Char) : isWhite (toSpace c) = isWhite c := by
  unfold toSpace
  split
  · next h => rcases h with rfl | rfl | rfl <;> decide
  · rfl

theorem isBlank_spaced (t : Str) (m : XmlSpace) : isBlank (spaced m t) = isBlank t := by
  have h : ∀ u : Str, (∀ c, c ∈ u ↔ c ∈ t.map toSpace) → isBlank u = isBlank t := by
    intro u hu
    rw [Bool.eq_iff_iff]
    simp only [isBlank, List.all_eq_true]
    refine ⟨fun h c hc => ?_, fun h c hc => ?_⟩
    · rw [← toSpace_white]; exact h _ ((hu _).2 (List.mem_map_of_mem hc))
    · obtain ⟨d, hd, rfl⟩ := List.mem_map.1 ((hu c).1 hc)
      rw [toSpace_white]; exact h d hd
  cases m with
  | default => exact h _ fun c => mem_squeeze
  | preserve => exact h _ fun c => Iff.rfl

theorem visible_blank {t : Str} : Visible t ↔ isBlank t = false := by
  simp [Visible, isBlank]

theorem trimmed_spaced {t : Str} (h : Spaces t ∨ Visible t) : Trimmed (spaced .default t) := by
  refine ⟨noDouble_squeeze _, ?_⟩
  rcases h with h | h
  · right
    have hall : ∀ c ∈ spaced .default t, c = ' ' := by
      intro c hc
      obtain ⟨d, hd, rfl⟩ := List.mem_map.1 (mem_squeeze.1 hc)
      exact h d hd
    have hn : NoDouble (spaced .default t) := noDouble_squeeze _
    generalize spaced .default t = u at hall hn
    match u, hall, hn with
    | [], _, _ => exact .inl rfl
    | [c], hall, _ => right; rw [hall c (by simp)]
    | c :: d :: u, hall, hn =>
      exact absurd (show c :: d :: u = [] ++ [' ', ' '] ++ u by rw [hall c (by simp), hall d (by simp)]; rfl) (hn [] u)
  · left; rw [isBlank_spaced]; exact visible_blank.1 h

theorem ink_cons (c : Char) (t : Str) : ink (c :: t) = if toSpace c = ' ' then ink t else c :: ink t := by
  unfold ink
  by_cases h : toSpace c = ' ' <;> simp [h]

theorem ink_append (a b : Str) : ink (a ++ b) = ink a ++ ink b := List.filter_append ..

theorem ink_spaces {a : Str} (h : ∀ c ∈ a, c = ' ') : ink a = [] := by
  rw [ink, List.filter_eq_nil_iff]
  intro c hc
  rw [h c hc]; decide

theorem ink_map : ∀ t : Str, ink (t.map toSpace) = ink t
  | [] => rfl
  | c :: t => by
    rw [List.map_cons, ink_cons, ink_cons, ink_map t]
    by_cases h : c = '\r' ∨ c = '\n' ∨ c = '\t'
    · have e : toSpace c = ' ' := if_pos h
      have e2 : toSpace ' ' = ' ' := by decide
      simp [e, e2]
    · have e : toSpace c = c := if_neg h
      simp only [e]

theorem ink_squeeze : ∀ t : Str, ink (squeeze t) = ink t
  | [] => rfl
  | c :: t => by
    rw [squeeze, ink_cons]
    split
    · next h =>
      have e2 : toSpace ' ' = ' ' := by decide
      rw [ink_squeeze t, h.1, if_pos e2]
    · rw [ink_cons, ink_squeeze t]

theorem ink_spaced (m : XmlSpace) (t : Str) : ink (spaced m t) = ink t := by
  cases m with
  | default => exact (ink_squeeze _).trans (ink_map t)
  | preserve => exact ink_map t

theorem ink_shrunk {u t : Str} (h : Shrunk u t) : ink u = ink t := by
  obtain ⟨a, b, rfl, ha, hb⟩ := h
  rw [ink_append, ink_append, ink_spaces ha, ink_spaces hb]
  simp

end Svgdom
