import Verif.Spec.Shuffle
import Verif.Proof.Noise
import Verif.Proof.Whole
import Mathlib.Data.List.Perm.Basic

/-!
# The order of attributes: lemmas
-/

set_option autoImplicit false

namespace Svgdom

/-! ### Exchanging neighbours -/

/-- From one list to the other by exchanging neighbours that are related by `R`. -/
inductive Swaps {α : Type} (R : α → α → Prop) : List α → List α → Prop
  | refl (l : List α) : Swaps R l l
  | swap (p : List α) {a b : α} (q : List α) : R a b → Swaps R (p ++ a :: b :: q) (p ++ b :: a :: q)
  | trans {l m k : List α} : Swaps R l m → Swaps R m k → Swaps R l k

namespace Swaps

variable {α β : Type} {R : α → α → Prop}

theorem append_left {l m : List α} (h : Swaps R l m) (p : List α) : Swaps R (p ++ l) (p ++ m) := by
  induction h with
  | refl l => exact .refl _
  | swap p' q h => rw [← List.append_assoc, ← List.append_assoc]; exact .swap _ _ h
  | trans _ _ ih1 ih2 => exact ih1.trans ih2

theorem append_right {l m : List α} (h : Swaps R l m) (q : List α) : Swaps R (l ++ q) (m ++ q) := by
  induction h with
  | refl l => exact .refl _
  | swap p' q' h => simp only [List.append_assoc, List.cons_append]; exact .swap _ _ h
  | trans _ _ ih1 ih2 => exact ih1.trans ih2

theorem append {l m l' m' : List α} (h : Swaps R l m) (h' : Swaps R l' m') : Swaps R (l ++ l') (m ++ m') :=
  (h.append_right l').trans (h'.append_left m)

theorem filterMap {S : β → β → Prop} (f : α → Option β) (hf : ∀ a b, R a b → ∀ x y, f a = some x → f b = some y → S x y) {l m : List α}
    (h : Swaps R l m) : Swaps S (l.filterMap f) (m.filterMap f) := by
  induction h with
  | refl l => exact .refl _
  | @swap p a b q h =>
    simp only [List.filterMap_append, List.filterMap_cons]
    cases ha : f a with
    | none => exact .refl _
    | some x =>
      cases hb : f b with
      | none => exact .refl _
      | some y => exact .swap _ _ (hf a b h x y ha hb)
  | trans _ _ ih1 ih2 => exact ih1.trans ih2

theorem map {S : β → β → Prop} (f : α → β) (hf : ∀ a b, R a b → S (f a) (f b)) {l m : List α} (h : Swaps R l m) :
    Swaps S (l.map f) (m.map f) := by
  rw [← List.filterMap_eq_map]
  exact h.filterMap _ fun a b hab x y hx hy => by
    simp only [Function.comp_apply, Option.some.injEq] at hx hy; subst hx; subst hy; exact hf a b hab

/-- An element can move to the front if it may be exchanged with all before it. -/
theorem front {a : α} : ∀ {p : List α} (q : List α), (∀ b ∈ p, R a b) → Swaps R (a :: (p ++ q)) (p ++ a :: q)
  | [], q, _ => .refl _
  | b :: p, q, h => by
    have h1 : Swaps R (a :: b :: (p ++ q)) (b :: a :: (p ++ q)) := .swap [] _ (h b (by simp))
    exact h1.trans ((front q fun c hc => h c (by simp [hc])).append_left [b])

end Swaps

/-- Lists in which the elements with the same key are the same, in the same order. -/
theorem swaps_of_key {α κ : Type} [DecidableEq κ] (key : α → κ) : ∀ {l m : List α},
    (∀ k, (l.filter fun a => decide (key a = k)) = m.filter fun a => decide (key a = k)) → Swaps (fun a b => key a ≠ key b) l m
  | [], m, h => by
    cases m with
    | nil => exact .refl _
    | cons b m => have := h (key b); simp at this
  | a :: l, m, h => by
    have ha := h (key a)
    rw [List.filter_cons_of_pos (by simp)] at ha
    obtain ⟨p, q, rfl, hp, hc⟩ := List.filter_eq_cons_iff.1 ha.symm
    obtain ⟨_, hq⟩ := hc
    have hp' : ∀ b ∈ p, key a ≠ key b := fun b hb he => hp b hb (by simp [he])
    have ih : Swaps (fun a b => key a ≠ key b) l (p ++ q) := by
      refine swaps_of_key key fun k => ?_
      have hk := h k
      simp only [List.filter_append, List.filter_cons] at hk ⊢
      by_cases e : key a = k
      · simp only [e, decide_true, if_true] at hk
        have h0 : (p.filter fun b => decide (key b = k)) = [] := by
          rw [List.filter_eq_nil_iff]; intro b hb; simpa [e] using fun h => hp' b hb (by rw [e, h])
        rw [h0, List.nil_append] at hk ⊢
        exact (List.cons.inj hk).2
      · simpa [e] using hk
    exact (ih.append_left [a]).trans (Swaps.front q hp')

/-! ### The attempts -/

theorem attributeNamed_inj {x y : Str} {i : AttributeId} (hx : attributeNamed x = some i) (hy : attributeNamed y = some i) : x = y := by
  unfold attributeNamed at hx hy
  have h1 := List.find?_some hx
  have h2 := List.find?_some hy
  simp only [decide_eq_true_eq] at h1 h2
  rw [h1] at h2
  injection h2

theorem aid_inj {a b : XmlAttr} {i : AttributeId} (ha : a.aid = some i) (hb : b.aid = some i) : a.name = b.name := by
  unfold XmlAttr.aid at ha hb
  split at ha
  · split at hb
    · exact attributeNamed_inj ha hb
    · simp at hb
  · simp at ha

theorem SameByName.swaps {as bs : List XmlAttr} (h : SameByName as bs) : Swaps (fun a b => a.name ≠ b.name) as bs := swaps_of_key _ h

theorem SameByName.filter {as bs : List XmlAttr} (h : SameByName as bs) {p : XmlAttr → Bool} {n : Str} (hp : ∀ a, p a = true → a.name = n) :
    as.filter p = bs.filter p := by
  have key : ∀ l : List XmlAttr, l.filter p = (l.filter fun a => decide (a.name = n)).filter p := by
    intro l
    rw [List.filter_filter]
    refine List.filter_congr fun a _ => ?_
    cases hpa : p a with
    | false => simp
    | true => simp [hp a hpa]
  rw [key as, key bs, h n]

theorem SameByName.attribute {as bs : List XmlAttr} (h : SameByName as bs) (n : Str) : xmlAttribute as n = xmlAttribute bs n := by
  have key : ∀ l : List XmlAttr, xmlAttribute l n = ((l.filter fun a => decide (a.ns = none ∧ a.name = n)).head?).map (·.value) := by
    intro l; rw [xmlAttribute, List.head?_filter]
  rw [key, key, h.filter (n := n)]
  intro a ha
  exact (of_decide_eq_true ha).2

theorem SameByName.idFrom {as bs : List XmlAttr} (h : SameByName as bs) : idFrom as = idFrom bs := by
  unfold Svgdom.idFrom
  by_cases he : ∃ a : XmlAttr, a.aid = some .Id
  · obtain ⟨a0, h0⟩ := he
    rw [h.filter (n := a0.name)]
    intro a ha
    exact aid_inj (of_decide_eq_true ha) h0
  · rw [h.filter (n := [])]
    intro a ha
    exact absurd ⟨a, of_decide_eq_true ha⟩ he

theorem SameByName.assigns {as bs : List XmlAttr} (h : SameByName as bs) :
    Swaps (fun g g' : Assign => g.1 ≠ g'.1) (xmlAssigns as) (xmlAssigns bs) := by
  refine h.swaps.filterMap _ fun a b hab x y hx hy he => hab ?_
  have key : ∀ {c : XmlAttr} {g : Assign}, (match c.aid with
      | some .Id => none
      | some .Style => none
      | some .Class => none
      | some i => some (i, c.value)
      | none => none) = some g → c.aid = some g.1 := by
    intro c g hg
    split at hg
    · simp at hg
    · simp at hg
    · simp at hg
    · next h => injection hg with hg; subst hg; exact h
    · simp at hg
  exact aid_inj (key hx) (he ▸ key hy)

theorem SameByName.all {as bs : List XmlAttr} (h : SameByName as bs) (L : Lib) {sheet : List Rule} (hs : ∀ r ∈ sheet, r.Asks)
    {p q : XmlPos} (ht : Twin p q) : Swaps (fun g g' : Assign => g.1 ≠ g'.1) (allAssigns L sheet p as) (allAssigns L sheet q bs) := by
  unfold allAssigns styleAttrAssigns
  rw [ruleAssigns_twin hs ht, h.attribute]
  exact (h.assigns.append_right _).append_right _

/-! ### The expected DOM -/

theorem putLast_perm {l m : List Attribute} (h : l.Perm m) (a : Attribute) :
    (l.filter (fun b => decide (b.name ≠ a.name)) ++ [a]).Perm (m.filter (fun b => decide (b.name ≠ a.name)) ++ [a]) :=
  (h.filter _).append_right _

theorem putLast_swap (l : List Attribute) {a b : Attribute} (h : a.name ≠ b.name) :
    ((l.filter (fun c => decide (c.name ≠ a.name)) ++ [a]).filter (fun c => decide (c.name ≠ b.name)) ++ [b]).Perm
      ((l.filter (fun c => decide (c.name ≠ b.name)) ++ [b]).filter (fun c => decide (c.name ≠ a.name)) ++ [a]) := by
  have h' : b.name ≠ a.name := fun e => h e.symm
  simp only [List.filter_append, List.filter_cons, List.filter_nil, h, h', ne_eq, not_false_eq_true, decide_true, if_true, List.append_assoc,
    List.filter_filter]
  have e : (l.filter fun c => decide (¬c.name = b.name) && decide (¬c.name = a.name)) =
      l.filter fun c => decide (¬c.name = a.name) && decide (¬c.name = b.name) := List.filter_congr fun c _ => Bool.and_comm _ _
  rw [e]
  exact List.Perm.append_left _ (List.Perm.swap _ _ _)

theorem putLast_nodup {l : List Attribute} (h : (l.map (·.name)).Nodup) (a : Attribute) :
    ((l.filter (fun b => decide (b.name ≠ a.name)) ++ [a]).map (·.name)).Nodup := by
  rw [List.map_append, List.nodup_append]
  refine ⟨h.sublist (List.filter_sublist.map _), by simp, ?_⟩
  intro x hx y hy
  obtain ⟨b, hb, rfl⟩ := List.mem_map.1 hx
  simp only [List.map_cons, List.map_nil, List.mem_singleton] at hy
  subst hy
  simpa using (List.mem_filter.1 hb).2

theorem assign_perm (L : Lib) (eid : ElementId) {l m : List Attribute} (h : l.Perm m) (g : Assign) : (assign L eid l g).Perm (assign L eid m g) := by
  unfold assign
  cases valueOf L eid g with
  | none => exact h
  | some v => exact putLast_perm h ⟨.id g.1, v⟩

theorem assigns_perm (L : Lib) (eid : ElementId) : ∀ (gs : List Assign) {l m : List Attribute}, l.Perm m →
    (gs.foldl (assign L eid) l).Perm (gs.foldl (assign L eid) m)
  | [], _, _, h => h
  | g :: gs, _, _, h => assigns_perm L eid gs (assign_perm L eid h g)

theorem assign_swap (L : Lib) (eid : ElementId) (l : List Attribute) {g g' : Assign} (h : g.1 ≠ g'.1) :
    (assign L eid (assign L eid l g) g').Perm (assign L eid (assign L eid l g') g) := by
  unfold assign
  cases valueOf L eid g with
  | none => exact .refl _
  | some v =>
    cases valueOf L eid g' with
    | none => exact .refl _
    | some v' => exact putLast_swap l (a := ⟨.id g.1, v⟩) (b := ⟨.id g'.1, v'⟩) (by simpa using h)

theorem attrsOf_swaps (L : Lib) (eid : ElementId) {gs gs' : List Assign} (h : Swaps (fun g g' : Assign => g.1 ≠ g'.1) gs gs') :
    (attrsOf L eid gs).Perm (attrsOf L eid gs') := by
  unfold attrsOf
  induction h with
  | refl l => exact .refl _
  | swap p q h =>
    simp only [List.foldl_append, List.foldl_cons]
    exact assigns_perm L eid q (assign_swap L eid _ h)
  | trans _ _ ih1 ih2 => exact ih1.trans ih2

theorem attrsOf_nodup (L : Lib) (eid : ElementId) : ∀ (gs : List Assign) {l : List Attribute}, (l.map (·.name)).Nodup →
    ((gs.foldl (assign L eid) l).map (·.name)).Nodup
  | [], _, h => h
  | g :: gs, l, h => by
    refine attrsOf_nodup L eid gs ?_
    unfold assign
    cases valueOf L eid g with
    | none => exact h
    | some v => exact putLast_nodup h ⟨.id g.1, v⟩

theorem refOf_attr {L : Lib} {eid : ElementId} {g : Assign} {r : Ref} (h : refOf L eid g = some r) : r.attr = g.1 := by
  unfold refOf at h
  split at h
  · injection h with h; subst h; rfl
  · simp at h

theorem refsOf_swaps (L : Lib) (eid : ElementId) {gs gs' : List Assign} (h : Swaps (fun g g' : Assign => g.1 ≠ g'.1) gs gs') :
    Swaps (fun r r' : Ref => r.attr ≠ r'.attr) (refsOf L eid gs) (refsOf L eid gs') :=
  h.filterMap _ fun a b hab x y hx hy => by rw [refOf_attr hx, refOf_attr hy]; exact hab

/-- Expected DOMs that are the same up to the order of attributes. -/
inductive Dom.Alike : Dom → Dom → Prop
  | nil : Alike .nil .nil
  | element (eid : ElementId) (id : Str) {as bs : List Attribute} {rs rs' : List Ref} {K K' R R' : Dom} : as.Perm bs →
    (as.map (·.name)).Nodup → Swaps (fun r r' : Ref => r.attr ≠ r'.attr) rs rs' → Alike K K' → Alike R R' →
    Alike (.element eid id as rs K R) (.element eid id bs rs' K' R')
  | text (t : Str) {R R' : Dom} : Alike R R' → Alike (.text t R) (.text t R')
  | comment (t : Str) {R R' : Dom} : Alike R R' → Alike (.comment t R) (.comment t R')

theorem shuffled_dom (L : Lib) {sheet : List Rule} (hs : ∀ r ∈ sheet, r.Asks) {x y : Xml} (h : x.Shuffled y) :
    ∀ {tag : Option ElementId} {pos pos' : XmlPos} (prev prev' : List (Option XmlElem)), Twin pos pos' →
      (domOf L sheet pos prev tag x).Alike (domOf L sheet pos' prev' tag y) := by
  induction h with
  | nil => intros; exact .nil
  | @element ns name as bs kids kids' rest rest' ha hk hr ihk ihr =>
    intro tag pos pos' prev prev' ht
    have ht' : Twin (.elem pos prev ⟨ns, name, as⟩) (.elem pos' prev' ⟨ns, name, bs⟩) := .elem ht rfl ha.attribute
    have hr' := ihr (tag := tag) (some ⟨ns, name, as⟩ :: prev) (some ⟨ns, name, bs⟩ :: prev') ht
    simp only [domOf]
    cases (if ns = some st!"http://www.w3.org/2000/svg" then elementNamed name else none) with
    | none => exact hr'
    | some eid =>
      have hg := ha.all L hs ht'
      simp only [ha.idFrom]
      exact .element _ _ (attrsOf_swaps L eid hg) (attrsOf_nodup L eid _ (by simp)) (refsOf_swaps L eid hg) (ihk [] [] ht') hr'
  | text t h ih =>
    intro tag pos pos' prev prev' ht
    have := ih (tag := tag) (none :: prev) (none :: prev') ht
    simp only [domOf]
    split
    · exact this
    · exact .text t this
  | comment t h ih =>
    intro tag pos pos' prev prev' ht
    exact .comment t (ih (none :: prev) (none :: prev') ht)
  | pi h ih =>
    intro tag pos pos' prev prev' ht
    exact ih (none :: prev) (none :: prev') ht

theorem shuffled_css {x y : Xml} (h : x.Shuffled y) : cssTexts x = cssTexts y := by
  induction h with
  | nil => rfl
  | element ns name ha hk hr ihk ihr =>
    simp only [cssTexts, ha.attribute, ihk, ihr]
    cases hk <;> rfl
  | text t h ih => exact ih
  | comment t h ih => exact ih
  | pi h ih => exact ih

theorem shuffled_svgDom (L : Lib) {x y : Xml} (h : x.Shuffled y) (hs : ∀ r ∈ L.sheet (styleTexts x), r.Asks) :
    (svgDom L x).Alike (svgDom L y) := by
  unfold svgDom
  rw [← cssTexts_eq y, ← shuffled_css h, cssTexts_eq]
  exact shuffled_dom L hs h [] [] .root

theorem shuffled_top {x y : Xml} (h : x.Shuffled y) : x.topSvg = y.topSvg := by
  induction h with
  | nil => rfl
  | element ns name ha hk hr ihk ihr => simp only [Xml.topSvg, ihr]
  | text t h ih => exact ih
  | comment t h ih => exact ih
  | pi h ih => exact ih

/-! ### Documents -/

theorem Look.Alike.refl (l : Look) : l.Alike l := ⟨rfl, rfl, rfl, .refl _, rfl⟩

theorem Content.Alike.trees {d e : Content} (h : d.Alike e) : d.trees = e.trees := by
  induction h with
  | nil => rfl
  | node n _ _ _ ih1 ih2 => simp only [Content.trees, ih1, ih2]

theorem Content.Alike.nodes {d e : Content} (h : d.Alike e) : List.Forall₂ (fun p q : NodeId × Look => p.1 = q.1 ∧ p.2.Alike q.2) d.nodes e.nodes := by
  induction h with
  | nil => exact .nil
  | node n hl _ _ ih1 ih2 => exact .cons ⟨rfl, hl⟩ (List.rel_append ih1 ih2)

theorem Content.Alike.without {d e : Content} (h : d.Alike e) {g : Look → Bool} (hg : ∀ l m, l.Alike m → g l = g m) :
    (d.without g).Alike (e.without g) := by
  induction h with
  | nil => exact .nil
  | node n hl _ _ ih1 ih2 =>
    simp only [Content.without, hg _ _ hl]
    split
    · exact ih2
    · exact .node n hl ih1 ih2

theorem Content.Alike.change {d e : Content} (h : d.Alike e) {f g : NodeId → Look → Look} (hf : ∀ n l m, l.Alike m → (f n l).Alike (g n m)) :
    (d.change f).Alike (e.change g) := by
  induction h with
  | nil => exact .nil
  | node n hl _ _ ih1 ih2 => exact .node n (hf n _ _ hl) ih1 ih2

theorem find_alike {n : NodeId} {l m : List (NodeId × Look)} (h : List.Forall₂ (fun p q : NodeId × Look => p.1 = q.1 ∧ p.2.Alike q.2) l m) :
    Look.Alike (((l.find? fun p => decide (p.1 = n)).map (·.2)).getD ⟨.root, .name [], [], [], []⟩)
      (((m.find? fun p => decide (p.1 = n)).map (·.2)).getD ⟨.root, .name [], [], [], []⟩) := by
  induction h with
  | nil => exact .refl _
  | @cons p q _ _ h _ ih =>
    simp only [List.find?_cons, h.1]
    by_cases e : q.1 = n
    · simpa [e] using h.2
    · simpa [e] using ih

theorem Content.Alike.lookAt {d e : Content} (h : d.Alike e) (n : NodeId) : (d.lookAt n).Alike (e.lookAt n) := find_alike h.nodes

theorem Dom.Alike.size {D E : Dom} (h : D.Alike E) : D.size = E.size := by
  induction h with
  | nil => rfl
  | element _ _ _ _ _ _ _ ih1 ih2 => simp only [Dom.size, ih1, ih2]
  | text _ _ ih => simp only [Dom.size, ih]
  | comment _ _ ih => simp only [Dom.size, ih]

theorem Dom.Alike.number {D E : Dom} (h : D.Alike E) : ∀ k, (D.number k).Alike (E.number k) := by
  induction h with
  | nil => intro k; exact .nil
  | element eid id hp _ _ hk _ ih1 ih2 =>
    intro k
    simp only [Dom.number, hk.size]
    exact .node k ⟨rfl, rfl, rfl, hp, rfl⟩ (ih1 _) (ih2 _)
  | text _ _ ih => intro k; exact .node k (Look.Alike.refl _) .nil (ih _)
  | comment _ _ ih => intro k; exact .node k (Look.Alike.refl _) .nil (ih _)

/-- No two attributes with the same name. -/
def Look.Single (l : Look) : Prop := (l.attrs.map (·.name)).Nodup

theorem Dom.Alike.single {D E : Dom} (h : D.Alike E) : ∀ k, ∀ p ∈ (D.number k).nodes, p.2.Single := by
  induction h with
  | nil => intro k p hp; simp [Dom.number, Content.nodes] at hp
  | element eid id _ hn _ _ _ ih1 ih2 =>
    intro k p hp
    simp only [Dom.number, Content.nodes, List.mem_cons, List.mem_append] at hp
    rcases hp with rfl | hp | hp
    · exact hn
    · exact ih1 _ p hp
    · exact ih2 _ p hp
  | text _ _ ih =>
    intro k p hp
    simp only [Dom.number, Content.nodes, List.mem_cons, List.nil_append] at hp
    rcases hp with rfl | hp
    · simp [Look.Single]
    · exact ih _ p hp
  | comment _ _ ih =>
    intro k p hp
    simp only [Dom.number, Content.nodes, List.mem_cons, List.nil_append] at hp
    rcases hp with rfl | hp
    · simp [Look.Single]
    · exact ih _ p hp

theorem lookAt_single {d : Content} (h : ∀ p ∈ d.nodes, p.2.Single) (n : NodeId) : (d.lookAt n).Single := by
  unfold Content.lookAt
  cases hf : d.nodes.find? fun p => decide (p.1 = n) with
  | none => simp [Look.Single]
  | some p => exact h p (List.mem_of_find?_eq_some hf)

/-! ### References -/

/-- References of the same node by different attributes. -/
def Beside (l m : PLink) : Prop := l.node = m.node ∧ l.attr ≠ m.attr

theorem Dom.Alike.links {D E : Dom} (h : D.Alike E) : ∀ k, Swaps Beside (D.links k) (E.links k) := by
  induction h with
  | nil => intro k; exact .refl _
  | element eid id _ _ hr hk _ ih1 ih2 =>
    intro k
    simp only [Dom.links, hk.size]
    exact ((hr.map _ fun a b hab => ⟨rfl, hab⟩).append (ih1 _)).append (ih2 _)
  | text _ _ ih => intro k; exact ih _
  | comment _ _ ih => intro k; exact ih _

section
variable {targets : List (NodeId × Str)} {ids : NodeId → Str}

theorem any_perm {l m : List Attribute} (h : l.Perm m) (f : Attribute → Bool) : l.any f = m.any f := by
  rw [Bool.eq_iff_iff, List.any_eq_true, List.any_eq_true]
  simp only [h.mem_iff]

theorem verdict_perm {A B : NodeId → List Attribute} (h : ∀ j, (A j).Perm (B j)) (l : PLink) :
    verdict targets ids A l = verdict targets ids B l := by
  unfold verdict
  split
  · rfl
  · next n id _ => rw [any_perm (h n)]

theorem putAttr_perm {A B : NodeId → List Attribute} (h : ∀ j, (A j).Perm (B j)) (i : NodeId) (a : Attribute) (j : NodeId) :
    (putAttr A i a j).Perm (putAttr B i a j) := by
  unfold putAttr
  split
  · exact putLast_perm (h i) a
  · exact h j

theorem settle_perm {A B : NodeId → List Attribute} (h : ∀ j, (A j).Perm (B j)) (l : PLink) (j : NodeId) :
    (settle targets ids A l j).Perm (settle targets ids B l j) := by
  unfold settle
  rw [verdict_perm h l]
  cases verdict targets ids B l with
  | none => exact h j
  | some a => exact putAttr_perm h _ _ j

theorem settles_perm : ∀ (ls : List PLink) {A B : NodeId → List Attribute}, (∀ j, (A j).Perm (B j)) → ∀ j,
    (ls.foldl (settle targets ids) A j).Perm (ls.foldl (settle targets ids) B j)
  | [], _, _, h, j => h j
  | l :: ls, _, _, h, j => settles_perm ls (settle_perm h l) j

theorem verdict_attr {A : NodeId → List Attribute} {l : PLink} {a : Attribute} (h : verdict targets ids A l = some a) :
    a.name = .id l.attr := by
  unfold verdict at h
  split at h
  · injection h with h; rw [← h]
  · split at h
    · simp at h
    · injection h with h; rw [← h]

/-- What happens to a reference does not depend on other attributes of the same node. -/
theorem verdict_beside (hid : ∀ t ∈ targets, t.2 = [] ∨ ids t.1 = t.2) (A : NodeId → List Attribute) {l m : PLink} (h : l.node = m.node) :
    verdict targets ids (settle targets ids A l) m = verdict targets ids A m := by
  unfold verdict
  split
  · rfl
  · next n id hf =>
    have hm := List.mem_of_find?_eq_some hf
    by_cases e : n = m.node
    · have := hid _ hm
      simp only at this
      subst e
      rcases this with h1 | h1
      · simp [h1]
      · simp [h1]
    · have : settle targets ids A l n = A n := by
        unfold settle
        cases verdict targets ids A l with
        | none => rfl
        | some a => show putAttr A l.node a n = _; rw [putAttr, if_neg (by rw [h]; exact e)]
      rw [this]

theorem settle_swap (hid : ∀ t ∈ targets, t.2 = [] ∨ ids t.1 = t.2) (A : NodeId → List Attribute) {l m : PLink} (h : Beside l m) (j : NodeId) :
    (settle targets ids (settle targets ids A l) m j).Perm (settle targets ids (settle targets ids A m) l j) := by
  have h1 := verdict_beside hid A h.1
  have h2 := verdict_beside hid A h.1.symm
  have e1 : settle targets ids (settle targets ids A l) m j = match verdict targets ids A m with
    | none => settle targets ids A l j
    | some a => putAttr (settle targets ids A l) m.node a j := by
    conv_lhs => rw [settle, h1]
    cases verdict targets ids A m <;> rfl
  have e2 : settle targets ids (settle targets ids A m) l j = match verdict targets ids A l with
    | none => settle targets ids A m j
    | some a => putAttr (settle targets ids A m) l.node a j := by
    conv_lhs => rw [settle, h2]
    cases verdict targets ids A l <;> rfl
  rw [e1, e2]
  simp only [settle]
  cases hl : verdict targets ids A l with
  | none => cases verdict targets ids A m <;> exact .refl _
  | some a =>
    cases hm : verdict targets ids A m with
    | none => exact .refl _
    | some b =>
      simp only [h.1]
      unfold putAttr
      by_cases e : j = m.node
      · simp only [e, if_true]
        refine putLast_swap _ ?_
        rw [verdict_attr hl, verdict_attr hm]
        simpa using h.2
      · simp only [e, if_false]
        exact .refl _

theorem settles_swaps (hid : ∀ t ∈ targets, t.2 = [] ∨ ids t.1 = t.2) {ls ms : List PLink} (h : Swaps Beside ls ms) :
    ∀ {A B : NodeId → List Attribute}, (∀ j, (A j).Perm (B j)) → ∀ j,
      (ls.foldl (settle targets ids) A j).Perm (ms.foldl (settle targets ids) B j) := by
  induction h with
  | refl l => exact settles_perm l
  | swap p q h =>
    intro A B hAB j
    refine (settles_perm _ hAB j).trans ?_
    simp only [List.foldl_append, List.foldl_cons]
    exact settles_perm q (settle_swap hid _ h) j
  | trans _ _ ih1 ih2 => exact fun hAB j => (ih1 hAB j).trans (ih2 (fun _ => .refl _) j)

theorem settles_single : ∀ (ls : List PLink) {A : NodeId → List Attribute}, (∀ j, ((A j).map (·.name)).Nodup) → ∀ j,
    ((ls.foldl (settle targets ids) A j).map (·.name)).Nodup
  | [], _, h, j => h j
  | l :: ls, A, h, j => by
    refine settles_single ls (fun i => ?_) j
    unfold settle
    cases verdict targets ids A l with
    | none => exact h i
    | some a =>
      show ((putAttr A l.node a i).map (·.name)).Nodup
      unfold putAttr
      split
      · exact putLast_nodup (h _) _
      · exact h i

end

/-! ### Texts -/

theorem perm_find {l m : List Attribute} (h : l.Perm m) (hn : (l.map (·.name)).Nodup) (a : AName) :
    (l.find? fun b => decide (b.name = a)) = m.find? fun b => decide (b.name = a) := by
  have key : ∀ k : List Attribute, (k.find? fun b => decide (b.name = a)) = ((k.filter fun b => decide (b.name = a)).head?) :=
    fun k => by rw [List.head?_filter]
  rw [key, key]
  have hp := h.filter fun b => decide (b.name = a)
  have hl : (l.filter fun b => decide (b.name = a)).length ≤ 1 := by
    clear hp h
    induction l with
    | nil => simp
    | cons b l ih =>
      rw [List.map_cons, List.nodup_cons] at hn
      rw [List.filter_cons]
      split
      · next hb =>
        have hb : b.name = a := by simpa using hb
        have : (l.filter fun b => decide (b.name = a)) = [] := by
          rw [List.filter_eq_nil_iff]
          intro c hc hca
          exact hn.1 (List.mem_map.2 ⟨c, hc, by rw [hb]; simpa using hca⟩)
        simp [this]
      · exact ih hn.2
  cases hf : l.filter fun b => decide (b.name = a) with
  | nil => rw [hf] at hp; rw [List.nil_perm.1 hp]
  | cons c k =>
    rw [hf] at hl hp
    have : k = [] := by
      cases k with
      | nil => rfl
      | cons => simp at hl
    subst this
    rw [List.singleton_perm.1 hp]

theorem Look.Alike.space {l m : Look} (h : l.Alike m) (hl : l.Single) (sp : XmlSpace) : l.space sp = m.space sp := by
  unfold Look.space
  rw [perm_find h.attrs hl]

theorem single_node {n : NodeId} {l : Look} {K R : Content} (h : ∀ p ∈ (Content.node n l K R).nodes, p.2.Single) :
    l.Single ∧ (∀ p ∈ K.nodes, p.2.Single) ∧ ∀ p ∈ R.nodes, p.2.Single :=
  ⟨h (n, l) (by simp [Content.nodes]), fun p hp => h p (by simp [Content.nodes, hp]), fun p hp => h p (by simp [Content.nodes, hp])⟩

theorem Content.Alike.items {d e : Content} (h : d.Alike e) (sp : XmlSpace) : (∀ p ∈ d.nodes, p.2.Single) → ∀ m k,
    d.items sp m k = e.items sp m k := by
  induction h with
  | nil => intros; rfl
  | node n hl _ _ ih1 ih2 =>
    intro hs m k
    obtain ⟨h1, h2, h3⟩ := single_node hs
    simp only [Content.items, hl.type, hl.space h1, ih1 h2, ih2 h3]

theorem Content.Alike.startsText {d e : Content} (h : d.Alike e) : d.startsText = e.startsText := by
  cases h with
  | nil => rfl
  | node n hl _ _ => simp only [Content.startsText, hl.type]

theorem Content.Alike.tidy {d e : Content} (h : d.Alike e) : (∀ p ∈ d.nodes, p.2.Single) → ∀ sp τ, d.tidy sp τ = e.tidy sp τ := by
  induction h with
  | nil => intros; rfl
  | node n hl hK _ ih1 ih2 =>
    intro hs sp τ
    obtain ⟨h1, h2, h3⟩ := single_node hs
    simp only [Content.tidy, hl.space h1, hK.startsText, hK.items _ h2, ih1 h2, ih2 h3]

/-! ### The parsed document -/

section
variable {L : Lib} {x y : Xml}

theorem alike_all (h : (svgDom L x).Alike (svgDom L y)) : (allNodes L x).Alike (allNodes L y) := h.number 1

theorem alike_kept (h : (svgDom L x).Alike (svgDom L y)) : (keptNodes L x).Alike (keptNodes L y) :=
  (alike_all h).without fun l m hl => by rw [hl.tag]

/-- The numbers are different. -/
theorem number_nodup : ∀ (D : Dom) (k : Nat), (D.number k).trees.pre = List.range' k D.size
  | .nil, k => rfl
  | .element _ _ _ _ K R, k => by
    simp only [Dom.number, Content.trees, Trees.pre, Dom.size, number_nodup K, number_nodup R]
    have e : 1 + K.size + R.size = K.size + R.size + 1 := by omega
    rw [e, List.range'_succ, ← List.range'_append_1]
  | .text _ R, k => by
    simp only [Dom.number, Content.trees, Trees.pre, Dom.size, number_nodup R, List.nil_append]
    rw [Nat.add_comm 1, List.range'_succ]
  | .comment _ R, k => by
    simp only [Dom.number, Content.trees, Trees.pre, Dom.size, number_nodup R, List.nil_append]
    rw [Nat.add_comm 1, List.range'_succ]

theorem lookAt_mem {d : Content} (hd : d.trees.pre.Nodup) {p : NodeId × Look} (hp : p ∈ d.nodes) : d.lookAt p.1 = p.2 := by
  unfold Content.lookAt
  rw [← Content.nodes_fst] at hd
  generalize d.nodes = l at *
  induction l with
  | nil => simp at hp
  | cons q l ih =>
    rw [List.map_cons, List.nodup_cons] at hd
    rw [List.find?_cons]
    rcases List.mem_cons.1 hp with rfl | hp
    · simp
    · have : q.1 ≠ p.1 := fun e => hd.1 (List.mem_map.2 ⟨p, hp, e.symm⟩)
      simp only [this, decide_false]
      exact ih hd.2 hp

theorem kept_ids : ∀ t ∈ ((0, []) :: (keptNodes L x).nodes.map fun p => (p.1, p.2.id) : List (NodeId × Str)),
    t.2 = [] ∨ ((allNodes L x).lookAt t.1).id = t.2 := by
  intro t ht
  rcases List.mem_cons.1 ht with rfl | ht
  · exact .inl rfl
  · obtain ⟨p, hp, rfl⟩ := List.mem_map.1 ht
    have hn : (allNodes L x).trees.pre.Nodup := by rw [allNodes, number_nodup]; exact List.nodup_range'
    exact .inr (by rw [lookAt_mem hn (Content.nodes_without _ _ p hp)])

theorem alike_targets (h : (svgDom L x).Alike (svgDom L y)) : ((0, []) :: (keptNodes L y).nodes.map fun p => (p.1, p.2.id) : List (NodeId × Str)) =
      (0, []) :: (keptNodes L x).nodes.map fun p => (p.1, p.2.id) := by
  congr 1
  have := (alike_kept h).nodes
  generalize (keptNodes L x).nodes = l at *
  generalize (keptNodes L y).nodes = m at *
  induction this with
  | nil => rfl
  | cons hp _ ih => simp only [List.map_cons, ih, hp.1, hp.2.id]

theorem alike_attrs (h : (svgDom L x).Alike (svgDom L y)) (j : NodeId) : (parsedAttrs L x j).Perm (parsedAttrs L y j) := by
  have e2 : (fun j => ((allNodes L y).lookAt j).id) = fun j => ((allNodes L x).lookAt j).id :=
    funext fun j => ((alike_all h).lookAt j).id
  unfold parsedAttrs
  rw [alike_targets h, e2]
  exact settles_swaps kept_ids (h.links 1) (fun j => ((alike_all h).lookAt j).attrs) j

theorem parsedAttrs_single (h : (svgDom L x).Alike (svgDom L y)) (j : NodeId) : ((parsedAttrs L x j).map (·.name)).Nodup :=
  settles_single _ (fun i => lookAt_single (h.single 1) i) j

theorem alike_texts (h : (svgDom L x).Alike (svgDom L y)) : parsedTexts L x = parsedTexts L y := by
  have e : (fun j => ((allNodes L x).lookAt j).text) = fun j => ((allNodes L y).lookAt j).text :=
    funext fun j => ((alike_all h).lookAt j).text.symm
  unfold parsedTexts
  rw [e]
  refine Content.Alike.tidy ?_ ?_ _ _
  · exact (alike_kept h).change fun n l m hl => ⟨hl.type, hl.tag, hl.id, alike_attrs h n, hl.text⟩
  · intro p hp
    rw [Content.nodes_change, List.mem_map] at hp
    obtain ⟨q, _, rfl⟩ := hp
    exact parsedAttrs_single h q.1

theorem alike_look (h : (svgDom L x).Alike (svgDom L y)) (n : NodeId) : (parsedLook L x n).Alike (parsedLook L y n) := by
  have hl := (alike_all h).lookAt n
  exact ⟨hl.type, hl.tag, hl.id, alike_attrs h n, by show parsedTexts L y n = parsedTexts L x n; rw [alike_texts h]⟩

theorem alike_doc (h : (svgDom L x).Alike (svgDom L y)) : (parsedDoc L x).Alike (parsedDoc L y) := by
  unfold parsedDoc
  refine Content.Alike.without ((alike_kept h).change fun n _ _ _ => alike_look h n) fun l m hl => ?_
  rw [hl.type, hl.text]

end

/-! ### Users -/

/-- Does the attribute `n` refer to `j`? -/
def hasRef (l : List Attribute) (n : AName) (j : NodeId) : Bool := l.any fun b => decide (b.name = n) && decide (b.value.names = some j)

theorem refCount_append (l m : List Attribute) (j : NodeId) : refCount (l ++ m) j = refCount l j + refCount m j := by
  simp [refCount, List.filter_append]

theorem refCount_perm {l m : List Attribute} (h : l.Perm m) (j : NodeId) : refCount l j = refCount m j := (h.filter _).length_eq

theorem hasRef_out {l : List Attribute} {n : AName} (h : n ∉ l.map (·.name)) (j : NodeId) : hasRef l n j = false := by
  unfold hasRef
  rw [List.any_eq_false]
  intro b hb hc
  simp only [Bool.and_eq_true, decide_eq_true_eq] at hc
  exact h (List.mem_map.2 ⟨b, hb, hc.1⟩)

theorem refCount_single (a : Attribute) (j : NodeId) : refCount [a] j = if a.value.names = some j then 1 else 0 := by
  unfold refCount
  rw [List.filter_cons]
  by_cases h : a.value.names = some j
  · simp [h, names_refers.1 h]
  · have : a.value.refersTo j = false := by
      cases hr : a.value.refersTo j with
      | false => rfl
      | true => exact absurd (names_refers.2 hr) h
    simp [h, this]

theorem refCount_split : ∀ {l : List Attribute}, (l.map (·.name)).Nodup → ∀ (n : AName) (j : NodeId),
    refCount l j = refCount (l.filter fun b => decide (b.name ≠ n)) j + if hasRef l n j then 1 else 0
  | [], _, n, j => by simp [refCount, hasRef]
  | a :: l, h, n, j => by
    rw [List.map_cons, List.nodup_cons] at h
    have ih := refCount_split h.2 n j
    have e : refCount (a :: l) j = refCount [a] j + refCount l j := refCount_append [a] l j
    have ea : hasRef (a :: l) n j = ((decide (a.name = n) && decide (a.value.names = some j)) || hasRef l n j) := by
      simp [hasRef]
    rw [e, ih, ea, List.filter_cons]
    by_cases hn : a.name = n
    · subst hn
      rw [hasRef_out h.1]
      simp only [ne_eq, not_true_eq_false, decide_false, Bool.false_eq_true, if_false, decide_true, Bool.true_and, Bool.or_false,
        refCount_single, Nat.add_zero, decide_eq_true_eq]
      omega
    · have e2 : refCount (a :: l.filter fun b => decide (b.name ≠ n)) j = refCount [a] j + refCount (l.filter fun b => decide (b.name ≠ n)) j :=
        refCount_append [a] _ j
      simp only [ne_eq, hn, not_false_eq_true, decide_true, if_true, decide_false, Bool.false_and, Bool.false_or]
      simp only [ne_eq] at e2
      omega

theorem hasRef_put {l : List Attribute} {a : Attribute} {n : AName} (h : a.name ≠ n) (j : NodeId) :
    hasRef (l.filter (fun b => decide (b.name ≠ a.name)) ++ [a]) n j = hasRef l n j := by
  unfold hasRef
  rw [List.any_append, List.any_filter]
  simp only [List.any_cons, List.any_nil, h, decide_false, Bool.false_and, Bool.or_false]
  congr 1
  funext b
  by_cases hb : b.name = n
  · have : b.name ≠ a.name := fun e => h (by rw [← e, hb])
    have h' : ¬n = a.name := fun e => h e.symm
    simp [hb, h']
  · simp [hb]

theorem erase_swap {i : NodeId} {U : List NodeId} {c1 c2 d1 d2 : Bool}
    (h : (if c1 then 1 else 0) + (if c2 then 1 else 0) ≤ U.count i) :
    (if c2 then ((if c1 then U.erase i else U) ++ if d1 then [i] else []).erase i else (if c1 then U.erase i else U) ++ if d1 then [i] else [])
      ++ (if d2 then [i] else []) =
    (if c1 then ((if c2 then U.erase i else U) ++ if d2 then [i] else []).erase i else (if c2 then U.erase i else U) ++ if d2 then [i] else [])
      ++ if d1 then [i] else [] := by
  have hc : (if d1 then [i] else []) ++ (if d2 then [i] else []) = (if d2 then [i] else []) ++ if d1 then [i] else [] := by
    cases d1 <;> cases d2 <;> rfl
  have h1 : (c1 = true ∨ c2 = true) → i ∈ U := by
    intro hc
    rw [← List.count_pos_iff]
    rcases hc with hc | hc <;> simp [hc] at h <;> omega
  have h2 : c1 = true → c2 = true → i ∈ U.erase i := by
    intro hc1 hc2
    rw [← List.count_pos_iff, List.count_erase_self]
    simp [hc1, hc2] at h
    omega
  have key : ∀ (V D : List NodeId), i ∈ V → (V ++ D).erase i = V.erase i ++ D := fun V D hV => List.erase_append_left D hV
  cases c1 <;> cases c2 <;> simp only [Bool.false_eq_true, if_false, if_true, List.append_assoc]
  · rw [hc]
  · rw [key _ _ (h1 (.inr rfl)), List.append_assoc, hc]
  · rw [key _ _ (h1 (.inl rfl)), List.append_assoc, hc]
  · rw [key _ _ (h2 rfl rfl), key _ _ (h2 rfl rfl), List.append_assoc, List.append_assoc, hc]

section
variable (targets : List (NodeId × Str)) (ids : NodeId → Str)

/-- One reference: attributes and users. -/
def settleBoth (S : (NodeId → List Attribute) × (NodeId → List NodeId)) (l : PLink) : (NodeId → List Attribute) × (NodeId → List NodeId) :=
  (settle targets ids S.1 l,
    match verdict targets ids S.1 l with
    | none => S.2
    | some a => putUser S.2 (S.1 l.node) l.node a)

/-- The users of a node are those that refer to it. -/
structure Counted (S : (NodeId → List Attribute) × (NodeId → List NodeId)) : Prop where
  single : ∀ j, ((S.1 j).map (·.name)).Nodup
  count : ∀ i j, (S.2 j).count i = refCount (S.1 i) j

end

section
variable {targets : List (NodeId × Str)} {ids : NodeId → Str}

theorem Counted.settle {S : (NodeId → List Attribute) × (NodeId → List NodeId)} (h : Counted S) (l : PLink) :
    Counted (settleBoth targets ids S l) := by
  constructor
  · exact fun j => settles_single [l] h.single j
  · intro i j
    simp only [settleBoth, Svgdom.settle]
    cases hv : verdict targets ids S.1 l with
    | none => exact h.count i j
    | some a =>
      simp only [putUser, putAttr]
      have hs := refCount_split (h.single l.node) a.name j
      have hcnt := h.count l.node j
      rw [List.count_append]
      by_cases hi : i = l.node
      · subst hi
        rw [if_pos rfl, refCount_append, refCount_single]
        change ((if hasRef (S.1 l.node) a.name j then _ else _) : List NodeId).count _ + _ = _
        have e : (if a.value.names = some j then [l.node] else []).count l.node = if a.value.names = some j then 1 else 0 := by
          split <;> simp
        rw [e]
        cases hr : hasRef (S.1 l.node) a.name j with
        | false => rw [hr] at hs; simp only [Bool.false_eq_true, if_false] at hs ⊢; rw [hcnt, hs, Nat.add_zero]
        | true => rw [hr] at hs; simp only [if_true] at hs ⊢; rw [List.count_erase_self, hcnt, hs, Nat.add_sub_cancel]
      · rw [if_neg hi]
        have e : (if a.value.names = some j then [l.node] else []).count i = 0 := by
          have hi' : ¬l.node = i := fun e => hi e.symm
          split
          · simp [hi']
          · simp
        rw [e, Nat.add_zero, ← h.count i j]
        split
        · rw [List.count_erase_of_ne hi]
        · rfl

theorem both_perm {S S' : (NodeId → List Attribute) × (NodeId → List NodeId)} (h : ∀ j, (S.1 j).Perm (S'.1 j)) (hu : S.2 = S'.2) (l : PLink) :
    (∀ j, ((settleBoth targets ids S l).1 j).Perm ((settleBoth targets ids S' l).1 j)) ∧
    (settleBoth targets ids S l).2 = (settleBoth targets ids S' l).2 := by
  refine ⟨settle_perm h l, ?_⟩
  simp only [settleBoth]
  rw [verdict_perm h l]
  cases verdict targets ids S'.1 l with
  | none => exact hu
  | some a =>
    funext j
    simp only [putUser]
    rw [any_perm (h l.node), hu]

theorem boths_perm : ∀ (ls : List PLink) {S S' : (NodeId → List Attribute) × (NodeId → List NodeId)}, (∀ j, (S.1 j).Perm (S'.1 j)) →
    S.2 = S'.2 → (∀ j, ((ls.foldl (settleBoth targets ids) S).1 j).Perm ((ls.foldl (settleBoth targets ids) S').1 j)) ∧
    (ls.foldl (settleBoth targets ids) S).2 = (ls.foldl (settleBoth targets ids) S').2
  | [], _, _, h, hu => ⟨h, hu⟩
  | l :: ls, _, _, h, hu => boths_perm ls (both_perm h hu l).1 (both_perm h hu l).2

theorem boths_counted : ∀ (ls : List PLink) {S : (NodeId → List Attribute) × (NodeId → List NodeId)}, Counted S →
    Counted (ls.foldl (settleBoth targets ids) S)
  | [], _, h => h
  | l :: ls, _, h => boths_counted ls (h.settle l)

theorem both_swap (hid : ∀ t ∈ targets, t.2 = [] ∨ ids t.1 = t.2) {S : (NodeId → List Attribute) × (NodeId → List NodeId)} (h : Counted S)
    {l m : PLink} (hb : Beside l m) :
    (settleBoth targets ids (settleBoth targets ids S l) m).2 = (settleBoth targets ids (settleBoth targets ids S m) l).2 := by
  have h1 := verdict_beside hid S.1 hb.1
  have h2 := verdict_beside hid S.1 hb.1.symm
  simp only [settleBoth, h1, h2]
  cases hl : verdict targets ids S.1 l with
  | none => cases hm : verdict targets ids S.1 m <;> simp only [settle, hl, hm]
  | some a =>
    cases hm : verdict targets ids S.1 m with
    | none => simp only [settle, hm]
    | some b =>
      simp only [settle, hl, hm]
      funext j
      have hab : a.name ≠ b.name := by rw [verdict_attr hl, verdict_attr hm]; simpa using hb.2
      have hba : b.name ≠ a.name := fun e => hab e.symm
      simp only [putUser, putAttr, hb.1, if_true]
      change (if hasRef _ b.name j then
          ((if hasRef (S.1 m.node) a.name j then _ else _) ++ _ : List NodeId).erase m.node else _) ++ _ =
        (if hasRef _ a.name j then ((if hasRef (S.1 m.node) b.name j then _ else _) ++ _ : List NodeId).erase m.node else _) ++ _
      rw [hasRef_put hab, hasRef_put hba]
      have hle : (if hasRef (S.1 m.node) a.name j then 1 else 0) + (if hasRef (S.1 m.node) b.name j then 1 else 0) ≤
          (S.2 j).count m.node := by
        have s1 := refCount_split (h.single m.node) a.name j
        have s2 := refCount_split (l := (S.1 m.node).filter fun c => decide (c.name ≠ a.name))
          ((h.single m.node).sublist (List.filter_sublist.map _)) b.name j
        have e : hasRef ((S.1 m.node).filter fun c => decide (c.name ≠ a.name)) b.name j = hasRef (S.1 m.node) b.name j := by
          have := hasRef_put (l := S.1 m.node) hab j
          rw [← this]
          simp [hasRef, List.any_append, hab]
        rw [e] at s2
        rw [h.count]
        omega
      have := erase_swap (i := m.node) (d1 := decide (a.value.names = some j)) (d2 := decide (b.value.names = some j)) hle
      simp only [decide_eq_true_eq, hasRef] at this ⊢
      exact this

theorem boths_swaps (hid : ∀ t ∈ targets, t.2 = [] ∨ ids t.1 = t.2) {ls ms : List PLink} (h : Swaps Beside ls ms) :
    ∀ {S S' : (NodeId → List Attribute) × (NodeId → List NodeId)}, Counted S → Counted S' → (∀ j, (S.1 j).Perm (S'.1 j)) → S.2 = S'.2 →
    (∀ j, ((ls.foldl (settleBoth targets ids) S).1 j).Perm ((ms.foldl (settleBoth targets ids) S').1 j)) ∧
    (ls.foldl (settleBoth targets ids) S).2 = (ms.foldl (settleBoth targets ids) S').2 := by
  induction h with
  | refl l => exact fun _ _ h1 h2 => boths_perm l h1 h2
  | @swap p l m q h =>
    intro S S' c c' h1 h2
    have k := boths_perm (targets := targets) (ids := ids) (p ++ l :: m :: q) h1 h2
    have cp := boths_counted (targets := targets) (ids := ids) p c'
    have k' : (∀ j, (((p ++ l :: m :: q).foldl (settleBoth targets ids) S').1 j).Perm (((p ++ m :: l :: q).foldl (settleBoth targets ids) S').1 j)) ∧
        ((p ++ l :: m :: q).foldl (settleBoth targets ids) S').2 = ((p ++ m :: l :: q).foldl (settleBoth targets ids) S').2 := by
      simp only [List.foldl_append, List.foldl_cons]
      exact boths_perm q (settle_swap hid _ h) (both_swap hid cp h)
    exact ⟨fun j => (k.1 j).trans (k'.1 j), k.2.trans k'.2⟩
  | trans _ _ ih1 ih2 =>
    intro S S' c c' h1 h2
    have k := ih1 c c' h1 h2
    have k' := ih2 c' c' (fun _ => .refl _) rfl
    exact ⟨fun j => (k.1 j).trans (k'.1 j), k.2.trans k'.2⟩

end

section
variable {L : Lib} {x y : Xml}

theorem number_attrs {P : List Attribute → Prop} (h0 : P []) : ∀ {D : Dom}, D.Attrs P → ∀ (k : Nat), ∀ p ∈ (D.number k).nodes, P p.2.attrs
  | .nil, _, k, p, hp => by simp [Dom.number, Content.nodes] at hp
  | .element .., h, k, p, hp => by
    simp only [Dom.number, Content.nodes, List.mem_cons, List.mem_append] at hp
    rcases hp with rfl | hp | hp
    · exact h.1
    · exact number_attrs h0 h.2.1 _ p hp
    · exact number_attrs h0 h.2.2 _ p hp
  | .text _ _, h, k, p, hp => by
    simp only [Dom.number, Content.nodes, List.mem_cons, List.nil_append] at hp
    rcases hp with rfl | hp
    · exact h0
    · exact number_attrs h0 (by exact h) _ p hp
  | .comment _ _, h, k, p, hp => by
    simp only [Dom.number, Content.nodes, List.mem_cons, List.nil_append] at hp
    rcases hp with rfl | hp
    · exact h0
    · exact number_attrs h0 (by exact h) _ p hp

theorem lookAt_plain (n : NodeId) : ∀ a ∈ ((allNodes L x).lookAt n).attrs, a.value.linkNode = none := by
  unfold Content.lookAt
  cases hf : (allNodes L x).nodes.find? fun p => decide (p.1 = n) with
  | none => simp
  | some p =>
    exact number_attrs (P := fun l => ∀ a ∈ l, a.value.linkNode = none) (by simp) (domOf_plain L _ x _ _ _) 1 p (List.mem_of_find?_eq_some hf)

theorem alike_users (h : (svgDom L x).Alike (svgDom L y)) : parsedUsers L x = parsedUsers L y := by
  have e2 : (fun j => ((allNodes L y).lookAt j).id) = fun j => ((allNodes L x).lookAt j).id :=
    funext fun j => ((alike_all h).lookAt j).id
  unfold parsedUsers
  rw [alike_targets h, e2]
  have hc : Counted ((fun j => ((allNodes L x).lookAt j).attrs), fun _ => []) := by
    refine ⟨fun i => lookAt_single (h.single 1) i, fun i j => ?_⟩
    simp only [List.count_nil, refCount]
    symm
    rw [List.length_eq_zero_iff, List.filter_eq_nil_iff]
    intro a ha hr
    have := lookAt_plain (L := L) (x := x) i a ha
    cases hv : a.value <;> simp [hv, AttributeValue.refersTo, AttributeValue.linkNode] at this hr
  have hc' : Counted ((fun j => ((allNodes L y).lookAt j).attrs), fun _ => []) := by
    refine ⟨fun i => ?_, fun i j => ?_⟩
    · exact (((alike_all h).lookAt i).attrs.map _).nodup_iff.1 (hc.single i)
    · rw [← refCount_perm ((alike_all h).lookAt i).attrs]
      exact hc.count i j
  exact (boths_swaps kept_ids (h.links 1) hc hc' (fun j => ((alike_all h).lookAt j).attrs) rfl).2

end

end Svgdom
