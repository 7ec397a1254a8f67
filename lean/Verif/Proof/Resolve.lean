import Verif.Proof.Parse
import Verif.Proof.Drain
import Verif.Props.Attrs
import Verif.Props.Iter
import Verif.Props.Remove

/-! Removal of `style` elements and resolution of references. -/

namespace Svgdom

open Relation

/-! ### drain, on trees -/

/-- The trees without the nodes with `g` and their subtrees. -/
def Trees.keep (g : NodeId → Bool) : Trees → Trees
  | nil => .nil
  | cons i K R => if g i then R.keep g else .cons i (K.keep g) (R.keep g)

theorem keep_pre {g : NodeId → Bool} : ∀ {T : Trees} {S : List NodeId}, T.pre.Nodup → (∀ j ∈ T.pre, j ∈ S ↔ j ∈ T.gone g) →
    (T.keep g).pre = T.pre.filter fun j => decide (j ∉ S)
  | .nil, S, _, _ => rfl
  | .cons i K R, S, hn, hS => by
    simp only [Trees.pre, List.nodup_cons, List.mem_append, not_or, List.nodup_append] at hn
    obtain ⟨⟨h1, h2⟩, h3, h4, h5⟩ := hn
    simp only [Trees.pre, List.mem_cons, List.mem_append, Trees.gone] at hS
    by_cases hg : g i = true
    · simp only [hg, if_true, List.cons_append, List.mem_cons, List.mem_append] at hS
      have hR : ∀ j ∈ R.pre, j ∈ S ↔ j ∈ R.gone g := by
        intro j hj
        rw [hS j (.inr (.inr hj))]
        constructor
        · rintro (rfl | h | h)
          · exact absurd hj h2
          · exact absurd rfl (h5 j h j hj)
          · exact h
        · exact fun h => .inr (.inr h)
      have hi : i ∈ S := (hS i (.inl rfl)).2 (.inl rfl)
      have hK : K.pre.filter (fun j => decide (j ∉ S)) = [] := by
        rw [List.filter_eq_nil_iff]
        intro j hj
        simp [(hS j (.inr (.inl hj))).2 (.inr (.inl hj))]
      simp only [Trees.keep, hg, if_true, Trees.pre, List.filter_cons, hi, not_true_eq_false, decide_false, Bool.false_eq_true,
        if_false, List.filter_append, hK, List.nil_append]
      exact keep_pre h4 hR
    · simp only [hg, Bool.false_eq_true, if_false, List.mem_append] at hS
      have hR : ∀ j ∈ R.pre, j ∈ S ↔ j ∈ R.gone g := by
        intro j hj
        rw [hS j (.inr (.inr hj))]
        constructor
        · rintro (h | h)
          · exact absurd rfl (h5 j (gone_sub K j h) j hj)
          · exact h
        · exact .inr
      have hK : ∀ j ∈ K.pre, j ∈ S ↔ j ∈ K.gone g := by
        intro j hj
        rw [hS j (.inr (.inl hj))]
        constructor
        · rintro (h | h)
          · exact h
          · exact absurd rfl (h5 j hj j (gone_sub R j h))
        · exact .inl
      have hi : i ∉ S := by
        intro hi
        rcases (hS i (.inl rfl)).1 hi with h | h
        · exact h1 (gone_sub K i h)
        · exact h2 (gone_sub R i h)
      simp only [Trees.keep, hg, Bool.false_eq_true, if_false, Trees.pre, List.filter_cons, hi, not_false_eq_true, decide_true,
        if_true, List.filter_append, keep_pre h3 hK, keep_pre h4 hR]

theorem keep_of {F : Forest} {g : NodeId → Bool} : ∀ {T : Trees} {S l : List NodeId}, T.Of F l → T.pre.Nodup →
    (∀ j ∈ T.pre, j ∈ S ↔ j ∈ T.gone g) → (T.keep g).Of (F.prune S) (l.filter fun j => decide (j ∉ S))
  | .nil, S, l, h, _, _ => by cases h; rfl
  | .cons i K R, S, l, h, hn, hS => by
    obtain ⟨l', rfl, hoK, hoR⟩ := h
    simp only [Trees.pre, List.nodup_cons, List.mem_append, not_or, List.nodup_append] at hn
    obtain ⟨⟨h1, h2⟩, h3, h4, h5⟩ := hn
    simp only [Trees.pre, List.mem_cons, List.mem_append, Trees.gone] at hS
    by_cases hg : g i = true
    · simp only [hg, if_true, List.cons_append, List.mem_cons, List.mem_append] at hS
      have hR : ∀ j ∈ R.pre, j ∈ S ↔ j ∈ R.gone g := by
        intro j hj
        rw [hS j (.inr (.inr hj))]
        constructor
        · rintro (rfl | h | h)
          · exact absurd hj h2
          · exact absurd rfl (h5 j h j hj)
          · exact h
        · exact fun h => .inr (.inr h)
      have hi : i ∈ S := (hS i (.inl rfl)).2 (.inl rfl)
      simp only [Trees.keep, hg, if_true, List.filter_cons, hi, not_true_eq_false, decide_false, Bool.false_eq_true, if_false]
      exact keep_of hoR h4 hR
    · simp only [hg, Bool.false_eq_true, if_false, List.mem_append] at hS
      have hR : ∀ j ∈ R.pre, j ∈ S ↔ j ∈ R.gone g := by
        intro j hj
        rw [hS j (.inr (.inr hj))]
        constructor
        · rintro (h | h)
          · exact absurd rfl (h5 j (gone_sub K j h) j hj)
          · exact h
        · exact .inr
      have hK : ∀ j ∈ K.pre, j ∈ S ↔ j ∈ K.gone g := by
        intro j hj
        rw [hS j (.inr (.inl hj))]
        constructor
        · rintro (h | h)
          · exact h
          · exact absurd rfl (h5 j hj j (gone_sub R j h))
        · exact .inl
      have hi : i ∉ S := by
        intro hi
        rcases (hS i (.inl rfl)).1 hi with h | h
        · exact h1 (gone_sub K i h)
        · exact h2 (gone_sub R i h)
      simp only [Trees.keep, hg, Bool.false_eq_true, if_false, List.filter_cons, hi, not_false_eq_true, decide_true, if_true]
      refine ⟨_, rfl, ?_, keep_of hoR h4 hR⟩
      have : (F.prune S).kids i = (F.kids i).filter fun j => decide (j ∉ S) := by simp [Forest.prune, hi]
      rw [this]
      exact keep_of hoK h3 hK

theorem kids_tree {s : St} (hb : Built s) {F : Forest} (hF : Describes s F) {i : NodeId} (hi : s.live i = true) :
    ∃ K : Trees, K.Of F (F.kids i) ∧ (∀ j ∈ K.pre, s.live j = true) ∧ K.pre.Nodup ∧ i ∉ K.pre ∧ K.pre.length + 1 ≤ s.nextId := by
  have hkl : ∀ c ∈ F.kids i, s.live c = true := fun c hc => (hF.wf.kids i hi c hc).1
  obtain ⟨K, hK⟩ := trees_exist hb.inv hF hb.acyclic (F.kids i) hkl
  have hkp : ∀ a ∈ F.kids i, ∀ j ∈ F.kids i, s.parent a = s.parent j := by
    intro a ha j hj
    rw [hF.shows.parent a (hkl a ha), hF.shows.parent j (hkl j hj), (hF.wf.kids i hi a ha).2, (hF.wf.kids i hi j hj).2]
  have hnd := pre_nodup hF hb.acyclic hK hkl (hF.wf.kids_nodup hi) hkp
  have hrk : i ∉ K.pre := fun hm => hb.acyclic i hi ((mem_pre_kids hF hi hK hi).1 hm)
  refine ⟨K, hK, pre_live hF hK hkl, hnd, hrk, ?_⟩
  have := length_le_of_below (l := i :: K.pre) (n := s.nextId) (List.nodup_cons.2 ⟨hrk, hnd⟩) (by
    intro j hj
    rcases List.mem_cons.1 hj with rfl | hj
    · exact hb.inv.liveBelow _ hi
    · exact hb.inv.liveBelow _ (pre_live hF hK hkl j hj))
  simpa using this

/-- `drain` on the whole tree. -/
theorem drain_tree {s : St} (hb : Built s) {F : Forest} (hF : Describes s F) {root : NodeId} (hr : s.live root = true)
    {K : Trees} (hK : K.Of F (F.kids root)) {f : St → NodeId → Bool} (hf : LooksAtNode f) :
    ∃ t n, s.drain root f = .ok (t, n) ∧ Built t ∧ Removed s t (K.gone (f s)) ∧ Describes t (F.prune (K.gone (f s))) ∧
      (K.keep (f s)).Of (F.prune (K.gone (f s))) ((F.prune (K.gone (f s))).kids root) ∧
      (K.keep (f s)).pre = K.pre.filter fun j => decide (j ∉ K.gone (f s)) := by
  obtain ⟨K', hK', _, hnd, hrk, hlen⟩ := kids_tree hb hF hr
  cases hK.unique hK'
  have hag : Agrees f (f s) s := fun t h1 h2 h3 h4 n => hf s t n (h1 n) (h2 n) (h3 n) (h4 n)
  obtain ⟨t, e, _, _, hrm, hd⟩ := drain_spec K s.fuel s F root [] (F.kids root) 0 hb.inv hb.acyclic hF hr (by simp) hK
    (List.nodup_cons.2 ⟨hrk, hnd⟩) hag (by unfold St.fuel; omega)
  have he : s.drain root f = .ok (t, 0 + (K.hit (f s)).length) := by rw [St.drain, hF.shows.first root hr, e]
  refine ⟨t, _, he, ?_, hrm, hd, ?_, keep_pre hnd fun j _ => Iff.rfl⟩
  · exact hb.call (.drain root f) (by simp [Op.handles, hr]) trivial trivial (by simp [Op.run, he, Except.map])
  · have : (F.prune (K.gone (f s))).kids root = (F.kids root).filter fun j => decide (j ∉ K.gone (f s)) := by
      have : root ∉ K.gone (f s) := fun hm => hrk (gone_sub K _ hm)
      simp [Forest.prune, this]
    rw [this]
    exact keep_of hK hnd fun j _ => Iff.rfl

/-! ### All parsed attributes are plain -/

/-- A property of all attribute lists. -/
def Dom.Attrs (P : List Attribute → Prop) : Dom → Prop
  | nil => True
  | element _ _ attrs _ kids rest => P attrs ∧ kids.Attrs P ∧ rest.Attrs P
  | text _ rest => rest.Attrs P
  | comment _ rest => rest.Attrs P

theorem attrsOf_plain (L : Lib) (eid : ElementId) : ∀ (gs : List Assign) (l : List Attribute), (∀ a ∈ l, a.value.linkNode = none) →
    ∀ a ∈ gs.foldl (assign L eid) l, a.value.linkNode = none
  | [], _, h => h
  | _ :: gs, _, h => attrsOf_plain L eid gs _ (assign_plain h)

theorem domOf_plain (L : Lib) (sheet : List Rule) : ∀ (x : Xml) (pos : XmlPos) (prev : List (Option XmlElem)) (tag : Option ElementId),
    (domOf L sheet pos prev tag x).Attrs fun l => ∀ a ∈ l, a.value.linkNode = none
  | .nil, _, _, _ => trivial
  | .pi rest, pos, prev, tag => domOf_plain L sheet rest pos _ tag
  | .comment _ rest, pos, prev, tag => domOf_plain L sheet rest pos _ tag
  | .text t rest, pos, prev, tag => by
    simp only [domOf]
    split
    · exact domOf_plain L sheet rest pos _ tag
    · exact domOf_plain L sheet rest pos _ tag
  | .element ns name attrs kids rest, pos, prev, tag => by
    simp only [domOf]
    split
    · exact domOf_plain L sheet rest pos _ tag
    · exact ⟨attrsOf_plain L _ _ [] (by simp), domOf_plain L sheet kids _ _ _, domOf_plain L sheet rest pos _ tag⟩

theorem Dom.Is.plain {s : St} : ∀ {D : Dom} {T : Trees}, D.Is s T → (D.Attrs fun l => ∀ a ∈ l, a.value.linkNode = none) →
    ∀ n ∈ T.pre, ∀ a ∈ s.attributes n, a.value.linkNode = none
  | .nil, T, h, _ => by
    cases T with
    | nil => simp [Trees.pre]
    | cons _ _ _ => exact h.elim
  | .element _ _ _ _ k r, T, h, hp => by
    cases T with
    | nil => exact h.elim
    | cons n K R =>
      obtain ⟨_, _, _, hd, _, f, i⟩ := h
      obtain ⟨p1, p2, p3⟩ := hp
      intro m hm
      simp only [Trees.pre, List.mem_cons, List.mem_append] at hm
      rcases hm with rfl | hm | hm
      · rw [hd]; exact p1
      · exact Dom.Is.plain (D := k) f p2 m hm
      · exact Dom.Is.plain (D := r) i p3 m hm
  | .text _ r, T, h, hp => by
    cases T with
    | nil => exact h.elim
    | cons n K R =>
      obtain ⟨_, _, _, hd, _, rfl, i⟩ := h
      intro m hm
      simp only [Trees.pre, List.mem_cons, List.mem_append, List.not_mem_nil, false_or] at hm
      rcases hm with rfl | hm
      · rw [hd]; simp
      · exact Dom.Is.plain (D := r) i hp m hm
  | .comment _ r, T, h, hp => by
    cases T with
    | nil => exact h.elim
    | cons n K R =>
      obtain ⟨_, _, _, hd, _, rfl, i⟩ := h
      intro m hm
      simp only [Trees.pre, List.mem_cons, List.mem_append, List.not_mem_nil, false_or] at hm
      rcases hm with rfl | hm
      · rw [hd]; simp
      · exact Dom.Is.plain (D := r) i hp m hm

/-- Removing the `style` elements. -/
theorem Dom.Is.unstyle {s t : St} (h1 : ∀ j, t.nodeType j = s.nodeType j) (h2 : ∀ j, t.tagName j = s.tagName j)
    (h3 : ∀ j, t.idOf j = s.idOf j) (h4 : ∀ j, t.text j = s.text j) : ∀ {D : Dom} {T : Trees}, D.Is s T →
    (∀ j ∈ T.pre, t.attributes j = s.attributes j) → D.unstyled.Is t (T.keep fun n => s.hasTagName n (.id .Style))
  | .nil, T, h, _ => by
    cases T with
    | nil => trivial
    | cons _ _ _ => exact h.elim
  | .element eid _ _ _ k r, T, h, hp => by
    cases T with
    | nil => exact h.elim
    | cons n K R =>
      obtain ⟨a, b, c, d, e, f, i⟩ := h
      simp only [Trees.pre, List.mem_cons, List.mem_append] at hp
      have hr := Dom.Is.unstyle h1 h2 h3 h4 (D := r) i fun j hj => hp j (.inr (.inr hj))
      have hk := Dom.Is.unstyle h1 h2 h3 h4 (D := k) f fun j hj => hp j (.inr (.inl hj))
      by_cases he : eid = .Style
      · have : s.hasTagName n (.id .Style) = true := by simp [St.hasTagName, b, he]
        simp only [Dom.unstyled, Trees.keep, if_pos he, if_pos this]
        exact hr
      · have : ¬ s.hasTagName n (.id .Style) = true := by simp [St.hasTagName, b, he]
        simp only [Dom.unstyled, Trees.keep, if_neg he, if_neg this]
        exact ⟨by rw [h1]; exact a, by rw [h2]; exact b, by rw [h3]; exact c, by rw [hp n (.inl rfl)]; exact d, by rw [h4]; exact e,
          hk, hr⟩
  | .text _ r, T, h, hp => by
    cases T with
    | nil => exact h.elim
    | cons n K R =>
      obtain ⟨a, b, c, d, e, rfl, i⟩ := h
      simp only [Trees.pre, List.mem_cons, List.mem_append] at hp
      have : ¬ s.hasTagName n (.id .Style) = true := by simp [St.hasTagName, b]
      simp only [Dom.unstyled, Trees.keep, if_neg this]
      exact ⟨by rw [h1]; exact a, by rw [h2]; exact b, by rw [h3]; exact c, by rw [hp n (.inl rfl)]; exact d, by rw [h4]; exact e,
        rfl, Dom.Is.unstyle h1 h2 h3 h4 (D := r) i fun j hj => hp j (.inr (.inr hj))⟩
  | .comment _ r, T, h, hp => by
    cases T with
    | nil => exact h.elim
    | cons n K R =>
      obtain ⟨a, b, c, d, e, rfl, i⟩ := h
      simp only [Trees.pre, List.mem_cons, List.mem_append] at hp
      have : ¬ s.hasTagName n (.id .Style) = true := by simp [St.hasTagName, b]
      simp only [Dom.unstyled, Trees.keep, if_neg this]
      exact ⟨by rw [h1]; exact a, by rw [h2]; exact b, by rw [h3]; exact c, by rw [hp n (.inl rfl)]; exact d, by rw [h4]; exact e,
        rfl, Dom.Is.unstyle h1 h2 h3 h4 (D := r) i fun j hj => hp j (.inr (.inr hj))⟩

/-! ### resolve_links -/

theorem foundValue_other {a : AttributeId} (h1 : a ≠ .Fill) (h2 : a ≠ .Stroke) (h3 : a ≠ .Href) (n : NodeId)
    (fb : Option PaintFallback) : foundValue a n fb = .funcLink n := by
  unfold foundValue
  split
  · exact absurd rfl h3
  · exact absurd rfl h1
  · exact absurd rfl h2
  · rfl

theorem missingValue_other {a : AttributeId} (h1 : a ≠ .Fill) (h3 : a ≠ .Href) (iri : Str) :
    missingValue a iri none = .string (st!"url(#" ++ iri ++ st!")") := by
  unfold missingValue
  split
  · simp_all
  · simp_all
  · simp_all
  · exact absurd rfl h1
  · exact absurd rfl h3
  · rfl

theorem unresolvedValue_eq (l : PLink) : unresolvedValue l = missingValue l.attr l.iri l.fallback := by
  unfold unresolvedValue
  cases hf : l.fallback with
  | some f => cases f <;> rfl
  | none =>
    by_cases h1 : l.attr = .Fill
    · simp [h1, missingValue]
    · by_cases h2 : l.attr = .Href
      · simp [h2, missingValue]
      · rw [missingValue_other h1 h2]
        simp only [if_neg h1, if_neg h2]

theorem foundAttr_eq (l : PLink) (n : NodeId) :
    (if l.attr = .Fill ∨ l.attr = .Stroke then attrOfPaint (.id l.attr) n l.fallback else attrOfNode (.id l.attr) n) =
      ⟨.id l.attr, foundValue l.attr n l.fallback⟩ := by
  unfold attrOfPaint attrOfNode
  by_cases h1 : l.attr = .Fill
  · simp [h1, foundValue]
  · by_cases h2 : l.attr = .Stroke
    · simp [h2, foundValue]
    · by_cases h3 : l.attr = .Href
      · simp [h3, foundValue, QName.hasId]
      · rw [foundValue_other h1 h2 h3]
        simp [h1, h2, Ne.symm h1, Ne.symm h2, Ne.symm h3, QName.hasId]

theorem foundValue_stored (a : AttributeId) (n : NodeId) (fb : Option PaintFallback) :
    Attribute.stored ⟨.id a, foundValue a n fb⟩ = ⟨.id a, foundValue a n fb⟩ := by
  by_cases h1 : a = .Fill
  · subst h1; simp [Attribute.stored, foundValue, AttributeValue.linkNode, AttributeValue.fallback, St.linkValue, QName.hasId]
  · by_cases h2 : a = .Stroke
    · subst h2; simp [Attribute.stored, foundValue, AttributeValue.linkNode, AttributeValue.fallback, St.linkValue, QName.hasId]
    · by_cases h3 : a = .Href
      · subst h3; simp [Attribute.stored, foundValue, AttributeValue.linkNode, St.linkValue, QName.hasId]
      · rw [foundValue_other h1 h2 h3]
        simp [Attribute.stored, AttributeValue.linkNode, St.linkValue, QName.hasId, Ne.symm h1, Ne.symm h2, Ne.symm h3]

theorem missingValue_plain (a : AttributeId) (iri : Str) (fb : Option PaintFallback) : (missingValue a iri fb).linkNode = none := by
  unfold missingValue
  split <;> rfl

theorem foundValue_link (a : AttributeId) (n : NodeId) (fb : Option PaintFallback) : (foundValue a n fb).linkNode = some n := by
  unfold foundValue
  split <;> rfl

theorem target_some {s : St} {i : NodeId} (hn : NamesNodup (s.attributes i)) (name : AName) (j : NodeId) :
    s.target i name = some j ↔ (s.attributes i).any (fun b => decide (b.name = name) && b.value.refersTo j) = true := by
  simp only [St.target, Option.bind_eq_some_iff, List.any_eq_true, Bool.and_eq_true, decide_eq_true_eq, refersTo_iff]
  constructor
  · rintro ⟨b, hb, hj⟩
    obtain ⟨h1, h2⟩ := attrsGet_some hb
    exact ⟨b, h1, h2, hj⟩
  · rintro ⟨b, hb, rfl, hj⟩
    exact ⟨b, attrsGet_mem hn hb, hj⟩

theorem putAttr_set (s : St) (i : NodeId) (a : Attribute) (hn : NamesNodup (s.attributes i)) : AttrSet s (s.putAttr i a) i a where
  users := fun j => by
    simp only [St.putAttr, St.linkedNodes, ← target_some hn, ← refersTo_iff]
  own := by simp only [St.putAttr, St.attributes, if_true]; rfl
  others := fun j hj => by simp [St.putAttr, St.attributes, hj]
  same := sameElse_put s i a

/-- One reference. -/
theorem resolveLink_spec {s : St} (hb : Built s) {F : Forest} (hF : Describes s F) {K : Trees} (hK : K.Of F (F.kids s.rootId))
    {l : PLink} (hl : s.live l.node = true) (ht : s.nodeType l.node = .element) :
    ∃ t, resolveLink s l = .ok t ∧ Built t ∧ Resolves s (s.rootId :: K.pre) l t := by
  have hr := hb.rootLive
  obtain ⟨T, hT, _, _, hd⟩ := C07_traverse hb.reachable hb.acyclic hF hr
  obtain ⟨K', R, rfl, hK', hR⟩ := hT.cons_list
  cases hR.nil_list
  cases hK.unique hK'
  have hpre : (Trees.cons s.rootId K .nil).pre = s.rootId :: K.pre := by simp [Trees.pre]
  rw [hpre] at hd
  have hel : s.isElement l.node = true := decide_eq_true ht
  have hpl : ∀ j ∈ s.rootId :: K.pre, s.live j = true := by
    intro j hj
    rcases List.mem_cons.1 hj with rfl | hj
    · exact hr
    · exact pre_live hF hK (fun c hc => (hF.wf.kids _ hr c hc).1) j hj
  unfold resolveLink
  rw [hd]
  simp only [bind, Except.bind]
  cases hf : (s.rootId :: K.pre).find? fun n => decide (s.idOf n = l.iri) with
  | none =>
    have hn : ∀ i ∈ s.rootId :: K.pre, s.idOf i ≠ l.iri := by
      intro i hi; simpa using List.find?_eq_none.1 hf i hi
    have hp : (unresolvedValue l).linkNode = none := by rw [unresolvedValue_eq]; exact missingValue_plain _ _ _
    have he := St.setChecked_eq hb.inv.link hl ⟨.id l.attr, unresolvedValue l⟩ (fun _ => hel)
    rw [hp] at he
    simp only [Option.bind_none, stored_plain (a := ⟨.id l.attr, unresolvedValue l⟩) hp] at he
    have hset : s.setAttribute l.node ⟨.id l.attr, unresolvedValue l⟩ = .ok (s.putAttr l.node ⟨.id l.attr, unresolvedValue l⟩) := by
      simp [St.setAttribute, he, bind, Except.bind, pure, Except.pure]
    refine ⟨_, hset, hb.call (.setAttribute l.node ⟨.id l.attr, unresolvedValue l⟩) ?_ trivial trivial hset, ?_⟩
    · simp [Op.handles, hp, hl]
    · rw [unresolvedValue_eq]; exact .missing hn (putAttr_set _ _ _ (hb.inv.link.names _ hl))
  | some n =>
    simp only
    have hnl := hpl n (List.mem_of_find?_eq_some hf)
    have ha := foundAttr_eq l n
    obtain ⟨a, hae⟩ : ∃ a : Attribute, a = ⟨.id l.attr, foundValue l.attr n l.fallback⟩ := ⟨_, rfl⟩
    rw [← hae] at ha
    rw [ha]
    have hal : a.value.linkNode = some n := by rw [hae]; exact foundValue_link _ _ _
    have has : a.stored = a := by rw [hae]; exact foundValue_stored _ _ _
    have he := St.setChecked_eq hb.inv.link hl a (fun _ => hel)
    rw [hal, Option.bind_some, has] at he
    have hop : ∀ t r, s.setAttributeChecked l.node a = .ok (t, r) → Built t := by
      intro t r e
      refine hb.call (.setAttributeChecked l.node a) ?_ trivial trivial (by simp [Op.run, e, Except.map])
      simp [Op.handles, hal, hl, hnl]
    cases hj : s.rejected l.node n with
    | none =>
      rw [hj] at he
      simp only at he
      refine ⟨_, by rw [he]; rfl, hop _ _ he, .found hf ((not_refused_iff hb.reachable hl hnl).2 hj) ?_⟩
      rw [← hae]; exact putAttr_set _ _ _ (hb.inv.link.names _ hl)
    | some err =>
      rw [hj] at he
      simp only at he
      exact ⟨_, by rw [he]; rfl, hop _ _ he, .refused hf ((refused_iff hb.reachable hl hnl).2 hj)⟩

theorem Resolves.same {s t : St} {order : List NodeId} {l : PLink} (h : Resolves s order l t) : SameElse s t := by
  cases h with
  | found _ _ h => exact h.same
  | refused _ _ => exact ⟨rfl, rfl, rfl, rfl, rfl, rfl, fun _ => rfl, fun _ => rfl, fun _ => rfl, fun _ => rfl, fun _ => rfl⟩
  | missing _ h => exact h.same

theorem ResolvesAll.same {order : List NodeId} {s t : St} {ls : List PLink} (h : ResolvesAll order s ls t) : SameElse s t := by
  induction h with
  | nil s => exact SameElse.refl s
  | cons h1 _ ih => exact h1.same.trans ih

theorem resolveLinks_spec : ∀ (ls : List PLink) {s : St}, Built s → ∀ {F : Forest}, Describes s F → ∀ {K : Trees},
    K.Of F (F.kids s.rootId) → (∀ l ∈ ls, s.live l.node = true ∧ s.nodeType l.node = .element) →
    ∃ t, resolveLinks s ls = .ok t ∧ Built t ∧ ResolvesAll (s.rootId :: K.pre) s ls t
  | [], s, hb, _, _, _, _, _ => ⟨s, rfl, hb, .nil s⟩
  | l :: ls, s, hb, F, hF, K, hK, hl => by
    obtain ⟨h1, h2⟩ := hl l (by simp)
    obtain ⟨t, e, hbt, hres⟩ := resolveLink_spec hb hF hK h1 h2
    have hs := hres.same
    obtain ⟨u, e2, hbu, hall⟩ := resolveLinks_spec ls hbt (hF.frame hs.links hs.live) (K := K) (by rw [hs.rootId]; exact hK)
      (fun m hm => by rw [hs.live, hs.types]; exact hl m (by simp [hm]))
    rw [hs.rootId] at hall
    exact ⟨u, by simp [resolveLinks, e, e2, bind, Except.bind], hbu, .cons hres hall⟩

end Svgdom
