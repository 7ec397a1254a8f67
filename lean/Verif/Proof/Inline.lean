import Verif.Spec.Inline
import Verif.Proof.Shuffle
import Verif.Proof.SettleLong
import Verif.Props.Names

/-! Resolving the CSS of a document by hand. -/

set_option autoImplicit false

namespace Svgdom

theorem attributeName_ok (i : AttributeId) : i.asStr? = .ok (attributeName i) := by
  obtain ⟨x, h, _⟩ := C27_attribute_roundtrip i
  simp [attributeName, h]

theorem attributeNamed_name (i : AttributeId) : attributeNamed (attributeName i) = some i := by
  obtain ⟨x, h, h'⟩ := C27_attribute_roundtrip i
  have := attributeNamed_eq x
  rw [h'] at this
  have e : attributeName i = x := by simp [attributeName, h]
  rw [e]
  injection this with this
  exact this.symm

theorem inCss_ne {i : AttributeId} (h : i.inCss = true) : i ≠ .Id ∧ i ≠ .Style ∧ i ≠ .Class := by
  refine ⟨?_, ?_, ?_⟩ <;> rintro rfl <;> exact absurd h (by decide +kernel)

theorem asAttr_aid (g : Assign) : g.asAttr.aid = some g.1 := by
  simp [Assign.asAttr, XmlAttr.aid, XmlAttr.known, attributeNamed_name]

theorem asAttr_name {g : Assign} (h : g.1.inCss = true) : g.asAttr.name ≠ st!"style" := by
  intro e
  have h1 := attributeNamed_name g.1
  rw [show attributeName g.1 = st!"style" from e] at h1
  have h2 : attributeNamed st!"style" = some .Style := by decide +kernel
  rw [h2] at h1
  injection h1 with h1
  exact (inCss_ne h).2.1 h1.symm

theorem sheetAssigns_css (d : Str × Str) : ∀ g ∈ sheetAssigns d, g.1.inCss = true := by
  intro g hg
  unfold sheetAssigns at hg
  split at hg
  · simp only [List.mem_cons, List.not_mem_nil, or_false] at hg
    rcases hg with rfl | rfl | rfl
    · exact (by decide +kernel : AttributeId.inCss .MarkerStart = true)
    · exact (by decide +kernel : AttributeId.inCss .MarkerMid = true)
    · exact (by decide +kernel : AttributeId.inCss .MarkerEnd = true)
  · split at hg
    · next h => simp only [List.mem_singleton] at hg; subst hg; exact h
    · simp at hg
  · simp at hg

theorem styleAssigns_css (d : Str × Str) : ∀ g ∈ styleAssigns d, g.1.inCss = true := by
  intro g hg
  unfold styleAssigns at hg
  split at hg
  · split at hg
    · next h => simp only [List.mem_singleton] at hg; subst hg; exact h
    · simp at hg
  · simp at hg

theorem cssAssigns_css (L : Lib) (sheet : List Rule) (pos : XmlPos) (attrs : List XmlAttr) :
    ∀ g ∈ ruleAssigns sheet pos ++ styleAttrAssigns L attrs, g.1.inCss = true := by
  intro g hg
  rcases List.mem_append.1 hg with hg | hg
  · simp only [ruleAssigns, List.mem_flatMap] at hg
    obtain ⟨_, _, d, _, hg⟩ := hg
    exact sheetAssigns_css d g hg
  · unfold styleAttrAssigns at hg
    split at hg
    · obtain ⟨d, _, hg⟩ := List.mem_flatMap.1 hg
      exact styleAssigns_css d g hg
    · simp at hg

/-- What is done with a single XML attribute. -/
theorem xmlAssigns_append (as bs : List XmlAttr) : xmlAssigns (as ++ bs) = xmlAssigns as ++ xmlAssigns bs := List.filterMap_append ..

theorem xmlAssigns_asAttr {gs : List Assign} (h : ∀ g ∈ gs, g.1.inCss = true) : xmlAssigns (gs.map Assign.asAttr) = gs := by
  induction gs with
  | nil => rfl
  | cons g gs ih =>
    have hg := inCss_ne (h g (List.mem_cons_self ..))
    have ih := ih fun g hg => h g (List.mem_cons_of_mem _ hg)
    rw [List.map_cons, ← List.singleton_append, xmlAssigns_append, ih]
    have : xmlAssigns [g.asAttr] = [g] := by
      obtain ⟨i, v⟩ := g
      have : (match some i with
        | some .Id => none
        | some .Style => none
        | some .Class => none
        | some i => some (i, v)
        | none => none) = some (i, v) := by
        split
        · next h => simp at h; exact absurd h hg.1
        · next h => simp at h; exact absurd h hg.2.1
        · next h => simp at h; exact absurd h hg.2.2
        · next h => simp at h; subst h; rfl
        · next h => simp at h
      unfold xmlAssigns
      rw [List.filterMap_cons_some (b := (i, v)) (by rw [asAttr_aid]; exact this)]
      rfl
    rw [this]
    rfl

theorem style_aid {a : XmlAttr} (h : a.name = st!"style") : a.aid = some .Style ∨ a.aid = none := by
  unfold XmlAttr.aid
  split
  · rw [h]; left; decide +kernel
  · exact .inr rfl

theorem xmlAssigns_noStyle (as : List XmlAttr) : xmlAssigns (as.filter fun a => decide (a.name ≠ st!"style")) = xmlAssigns as := by
  induction as with
  | nil => rfl
  | cons a as ih =>
    rw [List.filter_cons]
    split
    · rw [← List.singleton_append, xmlAssigns_append, ih, ← xmlAssigns_append, List.singleton_append]
    · next h =>
      have h : a.name = st!"style" := by simpa using h
      rw [ih, ← List.singleton_append (l := as), xmlAssigns_append]
      have : xmlAssigns [a] = [] := by
        rcases style_aid h with h | h <;> simp [xmlAssigns, h]
      rw [this]; rfl

theorem inlined_style {gs : List Assign} (h : ∀ g ∈ gs, g.1.inCss = true) (as : List XmlAttr) :
    xmlAttribute ((as.filter fun a => decide (a.name ≠ st!"style")) ++ gs.map Assign.asAttr) st!"style" = none := by
  unfold xmlAttribute
  rw [List.find?_eq_none.2, Option.map_none]
  intro a ha hn
  simp only [decide_eq_true_eq] at hn
  rcases List.mem_append.1 ha with ha | ha
  · have := (List.mem_filter.1 ha).2
    simp [hn.2] at this
  · obtain ⟨g, hg, rfl⟩ := List.mem_map.1 ha
    exact asAttr_name (h g hg) hn.2

theorem inlined_id {gs : List Assign} (h : ∀ g ∈ gs, g.1.inCss = true) (as : List XmlAttr) :
    idFrom ((as.filter fun a => decide (a.name ≠ st!"style")) ++ gs.map Assign.asAttr) = idFrom as := by
  unfold idFrom
  have h1 : ((gs.map Assign.asAttr).filter fun a => decide (a.aid = some .Id)) = [] := by
    rw [List.filter_eq_nil_iff]
    intro a ha
    obtain ⟨g, hg, rfl⟩ := List.mem_map.1 ha
    rw [asAttr_aid]
    simpa using (inCss_ne (h g hg)).1
  rw [List.filter_append, h1, List.append_nil, List.filter_filter]
  congr 3
  refine List.filter_congr fun a _ => ?_
  by_cases ha : a.name = st!"style"
  · rcases style_aid ha with h | h <;> simp [ha, h]
  · simp [ha]

theorem inlined_assigns (L : Lib) (sheet : List Rule) (pos pos' : XmlPos) (as : List XmlAttr) :
    allAssigns L [] pos' ((as.filter fun a => decide (a.name ≠ st!"style")) ++ (ruleAssigns sheet pos ++ styleAttrAssigns L as).map Assign.asAttr) =
      allAssigns L sheet pos as := by
  have hc := cssAssigns_css L sheet pos as
  unfold allAssigns
  have h1 := inlined_style hc as
  rw [xmlAssigns_append, xmlAssigns_noStyle, xmlAssigns_asAttr hc]
  have h2 : styleAttrAssigns L ((as.filter fun a => decide (a.name ≠ st!"style")) ++
      (ruleAssigns sheet pos ++ styleAttrAssigns L as).map Assign.asAttr) = [] := by
    generalize (as.filter fun a => decide (a.name ≠ st!"style")) ++ (ruleAssigns sheet pos ++ styleAttrAssigns L as).map Assign.asAttr = l at h1
    unfold styleAttrAssigns
    rw [h1]
  rw [h2]
  simp [ruleAssigns]

/-! ### Expected DOMs that differ in the texts of `style` elements -/

/-- The same but for the texts (and comments) in `style` elements; `inside` says whether we are in one. -/
inductive Dom.Close : Bool → Dom → Dom → Prop
  | nil (inside : Bool) : Close inside .nil .nil
  | element {inside : Bool} (e : ElementId) (id : Str) (attrs : List Attribute) (refs : List Ref) {kids kids' rest rest' : Dom} :
    Close (inside || decide (e = .Style)) kids kids' → Close inside rest rest' →
    Close inside (.element e id attrs refs kids rest) (.element e id attrs refs kids' rest')
  | text {inside : Bool} (t : Str) {rest rest' : Dom} : Close inside rest rest' → Close inside (.text t rest) (.text t rest')
  | comment {inside : Bool} (t : Str) {rest rest' : Dom} : Close inside rest rest' → Close inside (.comment t rest) (.comment t rest')
  | hidden (t u : Str) {rest rest' : Dom} : Close true rest rest' → Close true (.text t rest) (.comment u rest')

theorem elementNamed_style : elementNamed st!"style" = some .Style := by decide +kernel

theorem close_hide {L : Lib} {pos : XmlPos} {prev : List (Option XmlElem)} {x : Xml} {D : Dom}
    (h : Dom.Close true D (domOf L [] pos prev (some .Style) x)) : Dom.Close true D (domOf L [] pos prev (some .Style) x.hideText) := by
  cases x with
  | text t rest =>
    unfold Xml.hideText
    cases hb : isBlank t with
    | true => simpa [domOf, hb, keepsBlank] using h
    | false =>
      simp only [domOf, hb, Bool.false_and, if_neg Bool.false_ne_true] at h ⊢
      cases h with
      | text _ h => exact .hidden _ _ h
  | _ => exact h

theorem inlined_close (L : Lib) (sheet : List Rule) : ∀ (x : Xml) (pos pos' : XmlPos) (prev prev' : List (Option XmlElem)) (tag : Option ElementId)
    (inside : Bool), Dom.Close inside (domOf L sheet pos prev tag x) (domOf L [] pos' prev' tag (x.inlined L sheet pos prev))
  | .nil, _, _, _, _, _, _ => .nil _
  | .element ns name attrs kids rest, pos, pos', prev, prev', tag, inside => by
    simp only [Xml.inlined, domOf]
    cases he : (if ns = some st!"http://www.w3.org/2000/svg" then elementNamed name else none) with
    | none => exact inlined_close L sheet rest ..
    | some eid =>
      simp only [inlined_assigns, inlined_id (cssAssigns_css L sheet _ attrs)]
      refine .element _ _ _ _ ?_ (inlined_close L sheet rest ..)
      split
      · next hn =>
        have : eid = .Style := by
          split at he
          · rw [hn, elementNamed_style] at he
            injection he with he
            exact he.symm
          · simp at he
        subst this
        have := inlined_close L sheet kids (.elem pos prev ⟨ns, name, attrs⟩)
          (.elem pos' prev' ⟨ns, name, (attrs.filter fun a => decide (a.name ≠ st!"style")) ++
            (ruleAssigns sheet (.elem pos prev ⟨ns, name, attrs⟩) ++ styleAttrAssigns L attrs).map Assign.asAttr⟩) [] [] (some .Style) true
        rw [show (inside || decide (ElementId.Style = ElementId.Style)) = true by simp]
        exact close_hide this
      · exact inlined_close L sheet kids ..
  | .text t rest, pos, pos', prev, prev', tag, inside => by
    simp only [Xml.inlined, domOf]
    split
    · exact inlined_close L sheet rest ..
    · exact .text _ (inlined_close L sheet rest ..)
  | .comment t rest, pos, pos', prev, prev', tag, inside => by
    simp only [Xml.inlined, domOf]
    exact .comment _ (inlined_close L sheet rest ..)
  | .pi rest, pos, pos', prev, prev', tag, inside => by
    simp only [Xml.inlined, domOf]
    exact inlined_close L sheet rest ..

/-- No style sheet is left. -/
theorem inlined_sheets (L : Lib) (sheet : List Rule) : ∀ (x : Xml) (pos : XmlPos) (prev : List (Option XmlElem)),
    ∀ e ∈ (x.inlined L sheet pos prev).elements, e.1 = st!"style" → leadingText e.2.2 = none := by
  have hide : ∀ x : Xml, leadingText x.hideText = none ∧ ∀ e ∈ x.hideText.elements, e ∈ x.elements := by
    intro x
    cases x with
    | text t rest =>
      by_cases hb : isBlank t = true
      · rw [Xml.hideText, if_pos hb]; exact ⟨rfl, fun e he => he⟩
      · rw [Xml.hideText, if_neg hb]; exact ⟨rfl, fun e he => he⟩
    | _ => exact ⟨rfl, fun e he => he⟩
  intro x
  induction x with
  | nil => intro _ _ e he; simp [Xml.inlined, Xml.elements] at he
  | element ns name attrs kids rest ih1 ih2 =>
    intro pos prev e he hn
    simp only [Xml.inlined, Xml.elements, List.mem_cons, List.mem_append] at he
    rcases he with rfl | he | he
    · simp only at hn
      simp only [hn, if_true]
      exact (hide _).1
    · split at he
      · exact ih1 _ _ e ((hide _).2 e he) hn
      · exact ih1 _ _ e he hn
    · exact ih2 _ _ e he hn
  | text t rest ih => intro pos prev e he; exact ih _ _ e he
  | comment t rest ih => intro pos prev e he; exact ih _ _ e he
  | pi rest ih => intro pos prev e he; exact ih _ _ e he

theorem withoutCss_sheets (L : Lib) (x : Xml) : styleTexts (x.withoutCss L) = [] := by
  unfold styleTexts
  rw [List.filterMap_eq_nil_iff]
  intro e he
  obtain ⟨he, hs⟩ := List.mem_filter.1 he
  exact inlined_sheets L _ x _ _ e he (by simpa using (of_decide_eq_true hs).1)

theorem withoutCss_close {L : Lib} (hL : L.sheet [] = []) (x : Xml) : Dom.Close false (svgDom L x) (svgDom L (x.withoutCss L)) := by
  unfold svgDom
  rw [withoutCss_sheets, hL]
  exact inlined_close L _ x ..

/-! ### The parsed documents -/

theorem Dom.Close.size {b : Bool} {D E : Dom} (h : Dom.Close b D E) : D.size = E.size := by
  induction h <;> simp only [Dom.size, *]

theorem Dom.Close.links {b : Bool} {D E : Dom} (h : Dom.Close b D E) : ∀ k, D.links k = E.links k := by
  induction h with
  | nil => intro k; rfl
  | element _ _ _ _ hk _ ih1 ih2 => intro k; simp only [Dom.links, hk.size, ih1, ih2]
  | text _ _ ih => intro k; exact ih _
  | comment _ _ ih => intro k; exact ih _
  | hidden _ _ _ ih => intro k; exact ih _

theorem Dom.Close.nodes {b : Bool} {D E : Dom} (h : Dom.Close b D E) : ∀ k,
    List.Forall₂ (fun p q : NodeId × Look => p.1 = q.1 ∧ p.2.id = q.2.id ∧ p.2.attrs = q.2.attrs) (D.number k).nodes (E.number k).nodes := by
  induction h with
  | nil => intro k; exact .nil
  | element _ _ _ _ hk _ ih1 ih2 =>
    intro k
    simp only [Dom.number, Content.nodes, hk.size]
    exact .cons ⟨rfl, rfl, rfl⟩ (List.rel_append (ih1 _) (ih2 _))
  | text _ _ ih => intro k; exact .cons ⟨rfl, rfl, rfl⟩ (ih _)
  | comment _ _ ih => intro k; exact .cons ⟨rfl, rfl, rfl⟩ (ih _)
  | hidden _ _ _ ih => intro k; exact .cons ⟨rfl, rfl, rfl⟩ (ih _)

theorem find_close {n : NodeId} {l m : List (NodeId × Look)}
    (h : List.Forall₂ (fun p q : NodeId × Look => p.1 = q.1 ∧ p.2.id = q.2.id ∧ p.2.attrs = q.2.attrs) l m) (d : Look) :
    (((l.find? fun p => decide (p.1 = n)).map (·.2)).getD d).id = (((m.find? fun p => decide (p.1 = n)).map (·.2)).getD d).id ∧
    (((l.find? fun p => decide (p.1 = n)).map (·.2)).getD d).attrs = (((m.find? fun p => decide (p.1 = n)).map (·.2)).getD d).attrs := by
  induction h with
  | nil => exact ⟨rfl, rfl⟩
  | @cons p q _ _ h _ ih =>
    simp only [List.find?_cons, h.1]
    by_cases e : q.1 = n
    · simpa [e] using h.2
    · simpa [e] using ih

theorem Dom.Close.lookAt {b : Bool} {D E : Dom} (h : Dom.Close b D E) (k j : NodeId) :
    ((D.number k).lookAt j).id = ((E.number k).lookAt j).id ∧ ((D.number k).lookAt j).attrs = ((E.number k).lookAt j).attrs :=
  find_close (h.nodes k) _

theorem Dom.Close.kept {b : Bool} {D E : Dom} (h : Dom.Close b D E) (hb : b = false) : ∀ k,
    (D.number k).without (fun l => decide (l.tag = .id .Style)) = (E.number k).without fun l => decide (l.tag = .id .Style) := by
  induction h with
  | nil => intro k; rfl
  | element e _ _ _ hk _ ih1 ih2 =>
    intro k
    simp only [Dom.number, Content.without, hk.size, ih2 hb]
    by_cases he : e = .Style
    · simp [he]
    · simp [he, ih1 (by simp [hb, he])]
  | text _ _ ih => intro k; simp only [Dom.number, Content.without, ih hb]
  | comment _ _ ih => intro k; simp only [Dom.number, Content.without, ih hb]
  | hidden => simp at hb

theorem nodes_change_fst (f : NodeId → Look → Look) : ∀ d : Content, (d.change f).nodes.map (·.1) = d.nodes.map (·.1)
  | .nil => rfl
  | .node n l K R => by simp only [Content.change, Content.nodes, List.map_cons, List.map_append, nodes_change_fst f]

/-! ### Texts elsewhere do not matter -/

section
variable {S : NodeId → Prop}

theorem putText_agree {τ σ : NodeId → Str} (h : ∀ j, S j → τ j = σ j) (i : NodeId) (t : Str) : ∀ j, S j → putText τ i t j = putText σ i t j := by
  intro j hj
  unfold putText
  split
  · rfl
  · exact h j hj

theorem tidyPairs_agree : ∀ (l : List Item) {τ σ : NodeId → Str} (first : Bool) (last : Option Item), (∀ i ∈ l, S i.node) →
    (∀ a, last = some a → S a.node) → (∀ j, S j → τ j = σ j) → ∀ j, S j → tidyPairs τ first last l j = tidyPairs σ first last l j
  | [], _, _, _, _, _, _, h, j, hj => h j hj
  | [_], _, _, _, _, _, _, h, j, hj => h j hj
  | a :: b :: rest, τ, σ, first, last, hl, hlast, h, j, hj => by
    have ha : S a.node := hl a (List.mem_cons_self ..)
    have hb : S b.node := hl b (List.mem_cons_of_mem _ (List.mem_cons_self ..))
    simp only [tidyPairs]
    rw [h _ ha, h _ hb]
    have hm : S (if σ a.node = [] then last.getD a else a).node := by
      split
      · cases hla : last with
        | none => exact ha
        | some c => exact hlast c hla
      · exact ha
    generalize (if σ a.node = [] then last.getD a else a) = m at hm
    rw [h _ hm]
    have hp := putText_agree (putText_agree h m.node
      (tidyTwo first rest.isEmpty (decide (a.depth < b.depth)) m.mode b.mode (σ m.node) (σ b.node)).1) b.node
      (tidyTwo first rest.isEmpty (decide (a.depth < b.depth)) m.mode b.mode (σ m.node) (σ b.node)).2
    rw [hp _ hm]
    refine tidyPairs_agree (b :: rest) _ _ (fun i hi => hl i (List.mem_cons_of_mem _ hi)) ?_ hp j hj
    intro c hc
    split at hc
    · exact hlast c hc
    · injection hc with hc; rw [← hc]; exact hm

theorem spaceTexts_agree (l : List Item) {τ σ : NodeId → Str} (h : ∀ j, S j → τ j = σ j) : ∀ j, S j → spaceTexts l τ j = spaceTexts l σ j := by
  intro j hj
  unfold spaceTexts
  split
  · rw [h j hj]
  · exact h j hj

theorem tidyGroup_agree (sp : XmlSpace) (l : List Item) (hl : ∀ i ∈ l, S i.node) {τ σ : NodeId → Str} (h : ∀ j, S j → τ j = σ j) :
    ∀ j, S j → tidyGroup sp l τ j = tidyGroup sp l σ j := by
  have hs := spaceTexts_agree l h
  match l, hl, hs with
  | [], _, _ => exact h
  | [i], hl, hs =>
    intro j hj
    simp only [tidyGroup]
    split
    · rw [hs i.node (hl i (List.mem_cons_self ..))]
      exact putText_agree hs _ _ j hj
    · exact hs j hj
  | a :: b :: rest, hl, hs =>
    exact tidyPairs_agree (a :: b :: rest) true none hl (by simp) hs

theorem items_mem (sp : XmlSpace) : ∀ (d : Content) (m : XmlSpace) (k : Nat), ∀ i ∈ d.items sp m k, i.node ∈ d.nodes.map (·.1)
  | .nil, _, _, i, hi => by simp [Content.items] at hi
  | .node n l K R, m, k, i, hi => by
    simp only [Content.items, List.mem_append] at hi
    simp only [Content.nodes, List.map_cons, List.map_append, List.mem_cons, List.mem_append]
    rcases hi with (hi | hi) | hi
    · split at hi
      · simp only [List.mem_singleton] at hi; subst hi; exact .inl rfl
      · simp at hi
    · exact .inr (.inl (items_mem sp K _ _ i hi))
    · exact .inr (.inr (items_mem sp R _ _ i hi))

theorem tidy_agree : ∀ (d : Content) (sp : XmlSpace) {τ σ : NodeId → Str}, (∀ i ∈ d.nodes.map (·.1), S i) → (∀ j, S j → τ j = σ j) →
    ∀ j, S j → d.tidy sp τ j = d.tidy sp σ j
  | .nil, _, _, _, _, h => h
  | .node n l K R, sp, τ, σ, hd, h => by
    simp only [Content.nodes, List.map_cons, List.map_append, List.mem_cons, List.mem_append] at hd
    simp only [Content.tidy]
    refine tidy_agree R sp (fun i hi => hd i (.inr (.inr hi))) ?_
    split
    · exact tidyGroup_agree _ _ (fun i hi => hd _ (.inr (.inl (items_mem _ _ _ _ i hi)))) h
    · exact tidy_agree K _ (fun i hi => hd i (.inr (.inl hi))) h

end

/-- The documents are the same. -/
theorem close_parsed {L : Lib} {x y : Xml} (h : Dom.Close false (svgDom L x) (svgDom L y)) : parsedDoc L x = parsedDoc L y := by
  have h1 : keptNodes L x = keptNodes L y := h.kept rfl 1
  have h2 : parsedAttrs L x = parsedAttrs L y := by
    have e1 : (fun j => ((allNodes L x).lookAt j).id) = fun j => ((allNodes L y).lookAt j).id := funext fun j => (h.lookAt 1 j).1
    have e2 : (fun j => ((allNodes L x).lookAt j).attrs) = fun j => ((allNodes L y).lookAt j).attrs := funext fun j => (h.lookAt 1 j).2
    simp only [parsedAttrs, h1, h.links 1, e1, e2]
  have h3 : ∀ p ∈ (keptNodes L x).nodes, (allNodes L x).lookAt p.1 = p.2 := fun p hp => number_lookAt (Content.nodes_without _ _ p hp)
  have h4 : ∀ p ∈ (keptNodes L x).nodes, (allNodes L y).lookAt p.1 = p.2 := fun p hp => number_lookAt (Content.nodes_without _ _ p (by rw [h1] at hp; exact hp))
  have h5 : ∀ p ∈ (keptNodes L x).nodes, parsedTexts L x p.1 = parsedTexts L y p.1 := by
    intro p hp
    unfold parsedTexts
    rw [h2, ← h1]
    refine tidy_agree (S := fun i => i ∈ (keptNodes L x).nodes.map (·.1)) _ _ ?_ ?_ _ (List.mem_map_of_mem hp)
    · intro i hi; rw [nodes_change_fst] at hi; exact hi
    · intro j hj
      obtain ⟨p, hp, rfl⟩ := List.mem_map.1 hj
      rw [h3 p hp, h4 p hp]
  unfold parsedDoc
  rw [← h1]
  congr 1
  refine change_congr fun p hp => ?_
  simp only [parsedLook, h2, h5 p hp, h3 p hp, h4 p hp]

end Svgdom
