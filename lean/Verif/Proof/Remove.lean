import Verif.Proof.Links
import Verif.Proof.Trees
import Verif.Spec.Remove
import Verif.Spec.Depth
import Verif.Model.Stack

/-! `remove_node` in closed form. -/

namespace Svgdom

/-! ### Removing attributes -/

/-- Attributes of live nodes are filtered, back references only disappear, nothing else changes. -/
structure Filtered (s t : St) (keep : NodeId → Attribute → Bool) : Prop where
  inv : Inv t
  else_ : SameElse s t
  attrs : ∀ j, s.live j = true → t.attributes j = (s.attributes j).filter (keep j)
  linked : ∀ j, s.live j = true → (t.linkedNodes j).Sublist (s.linkedNodes j)

theorem SameElse.refl (s : St) : SameElse s s :=
  ⟨rfl, rfl, rfl, rfl, rfl, rfl, fun _ => rfl, fun _ => rfl, fun _ => rfl, fun _ => rfl, fun _ => rfl⟩

theorem SameElse.trans {s t u : St} (h : SameElse s t) (k : SameElse t u) : SameElse s u :=
  ⟨k.links.trans h.links, k.live.trans h.live, k.nextId.trans h.nextId, k.rootId.trans h.rootId, k.slab.trans h.slab,
    k.debug.trans h.debug, fun j => (k.ids j).trans (h.ids j), fun j => (k.tags j).trans (h.tags j),
    fun j => (k.texts j).trans (h.texts j), fun j => (k.types j).trans (h.types j), fun j => (k.keys j).trans (h.keys j)⟩

theorem Filtered.refl {s : St} (h : Inv s) : Filtered s s fun _ _ => true where
  inv := h
  else_ := .refl s
  attrs := fun j _ => by simp
  linked := fun j _ => List.Sublist.refl _

theorem Filtered.trans {s t u : St} {p q : NodeId → Attribute → Bool} (h : Filtered s t p) (k : Filtered t u q) :
    Filtered s u fun j a => p j a && q j a where
  inv := k.inv
  else_ := h.else_.trans k.else_
  attrs := fun j hj => by
    rw [k.attrs j (by rw [h.else_.live]; exact hj), h.attrs j hj, List.filter_filter]
    congr 1
    funext a
    exact Bool.and_comm _ _
  linked := fun j hj => (k.linked j (by rw [h.else_.live]; exact hj)).trans (h.linked j hj)

theorem Filtered.congr {s t : St} {p q : NodeId → Attribute → Bool} (h : Filtered s t p)
    (e : ∀ j, s.live j = true → ∀ a ∈ s.attributes j, p j a = q j a) : Filtered s t q where
  inv := h.inv
  else_ := h.else_
  attrs := fun j hj => by rw [h.attrs j hj]; exact List.filter_congr fun a ha => e j hj a ha
  linked := h.linked

theorem delAttr_filtered {s : St} (h : Inv s) {i : NodeId} (hi : s.live i = true) (name : AName) :
    Filtered s (s.delAttr i name) fun j a => !(decide (j = i) && decide (a.name = name)) where
  inv := h.delAttr hi name
  else_ := sameElse_del s i name
  attrs := fun j _ => by
    simp only [St.attributes, St.delAttr]
    by_cases hj : j = i
    · simp only [hj, if_true, without, decide_true, Bool.true_and]
      refine List.filter_congr fun a _ => by simp
    · simp [hj]
  linked := fun j _ => by
    simp only [St.linkedNodes, St.delAttr]
    split
    · exact List.erase_sublist
    · exact List.Sublist.refl _

theorem removeAttributes_filtered {i : NodeId} : ∀ (names : List AName) {s : St}, Inv s → s.live i = true →
    ∃ t, s.removeAttributes i names = .ok t ∧
      Filtered s t fun j a => !(decide (j = i) && decide (a.name ∈ names))
  | [], s, h, _ => ⟨s, rfl, (Filtered.refl h).congr (by simp)⟩
  | n :: ns, s, h, hi => by
    have h1 := delAttr_filtered h hi n
    obtain ⟨t, e, h2⟩ := removeAttributes_filtered ns h1.inv (by rw [h1.else_.live]; exact hi)
    refine ⟨t, ?_, (h1.trans h2).congr ?_⟩
    · simp only [St.removeAttributes, St.removeAttribute_ok h.link hi, bind, Except.bind]; exact e
    · intro j _ a _
      by_cases hj : j = i <;> by_cases ha : a.name = n <;> simp [hj, ha]

theorem mem_filterSvg {l : List Attribute} {p : Attribute → Bool} {n : AName} :
    n ∈ (attrsSvg l).filterMap (fun (_, a) => if p a then some a.name else none) ↔
      ∃ a ∈ l, a.isSvg = true ∧ p a = true ∧ a.name = n := by
  simp only [attrsSvg, List.mem_filterMap]
  constructor
  · rintro ⟨⟨i, a⟩, ⟨b, hb, e⟩, hn⟩
    split at e
    · next j hj =>
      simp only [Option.some.injEq, Prod.mk.injEq] at e
      obtain ⟨rfl, rfl⟩ := e
      split at hn
      · next hp => exact ⟨b, hb, by simp [Attribute.isSvg, hj], hp, Option.some.inj hn⟩
      · simp at hn
    · simp at e
  · rintro ⟨a, ha, hs, hp, rfl⟩
    unfold Attribute.isSvg at hs
    split at hs
    · next j hj => exact ⟨(j, a), ⟨a, ha, by simp [hj]⟩, by simp [hp]⟩
    · simp at hs

theorem eq_of_names {l : List Attribute} (h : NamesNodup l) {a b : Attribute} (ha : a ∈ l) (hb : b ∈ l)
    (e : a.name = b.name) : a = b := by
  have h1 := attrsGet_mem h ha
  rw [e, attrsGet_mem h hb] at h1
  exact (Option.some.inj h1).symm

/-- Membership in a name list collected from the SVG attributes by a predicate. -/
theorem name_mem_iff {l : List Attribute} (h : NamesNodup l) {p : Attribute → Bool} {a : Attribute} (ha : a ∈ l) :
    a.name ∈ (attrsSvg l).filterMap (fun (_, a) => if p a then some a.name else none) ↔ a.isSvg = true ∧ p a = true := by
  rw [mem_filterSvg]
  constructor
  · rintro ⟨b, hb, hs, hp, e⟩
    have := eq_of_names h hb ha e
    subst this; exact ⟨hs, hp⟩
  · rintro ⟨hs, hp⟩; exact ⟨a, ha, hs, hp, rfl⟩

theorem ownLinks_filtered {s : St} (h : Inv s) {i : NodeId} (hi : s.live i = true) :
    ∃ t, s.removeAttributes i (s.ownLinkNames i) = .ok t ∧
      Filtered s t fun j a => !(decide (j = i) && (a.isSvg && !a.value.plain)) := by
  obtain ⟨t, e, hf⟩ := removeAttributes_filtered (s.ownLinkNames i) h hi
  refine ⟨t, e, hf.congr ?_⟩
  intro j hj a ha
  by_cases hji : j = i
  · subst hji
    have := name_mem_iff (h.link.names j hj) (p := fun a => a.value.isLinkContainer) ha
    simp only [decide_true, Bool.true_and]
    congr 1
    rw [Bool.eq_iff_iff, decide_eq_true_eq]
    refine this.trans ?_
    have h2 : a.value.isLinkContainer = !a.value.plain := by cases a.value <;> rfl
    simp only [h2, Bool.and_eq_true]
  · simp [hji]

theorem linkNamesTo_filtered {s : St} (h : Inv s) {l : NodeId} (i : NodeId) (hl : s.live l = true) :
    ∃ t, s.removeAttributes l (s.linkNamesTo l i) = .ok t ∧
      Filtered s t fun j a => !(decide (j = l) && (a.isSvg && a.value.refersTo i)) := by
  obtain ⟨t, e, hf⟩ := removeAttributes_filtered (s.linkNamesTo l i) h hl
  refine ⟨t, e, hf.congr ?_⟩
  intro j hj a ha
  by_cases hji : j = l
  · subst hji
    have h3 : s.linkNamesTo j i =
        (attrsSvg (s.attributes j)).filterMap (fun (_, a) => if a.value.refersTo i then some a.name else none) := by
      unfold St.linkNamesTo
      congr 1
      funext x
      simp only [refersTo_iff]
    have := name_mem_iff (h.link.names j hj) (p := fun a => a.value.refersTo i) ha
    simp only [decide_true, Bool.true_and]
    congr 1
    rw [Bool.eq_iff_iff, decide_eq_true_eq, h3]
    refine this.trans ?_
    simp only [Bool.and_eq_true]
  · simp [hji]

theorem unlinkIncoming_filtered {i : NodeId} : ∀ (ls : List NodeId) {s : St}, Inv s → (∀ l ∈ ls, s.live l = true) →
    ∃ t, s.unlinkIncoming i ls = .ok t ∧
      Filtered s t fun j a => !(decide (j ∈ ls) && (a.isSvg && a.value.refersTo i))
  | [], s, h, _ => ⟨s, rfl, (Filtered.refl h).congr (by simp)⟩
  | l :: ls, s, h, hl => by
    obtain ⟨s1, e1, h1⟩ := linkNamesTo_filtered h i (hl l (by simp))
    obtain ⟨t, e, h2⟩ := unlinkIncoming_filtered (i := i) ls h1.inv
      (fun m hm => by rw [h1.else_.live]; exact hl m (by simp [hm]))
    refine ⟨t, ?_, (h1.trans h2).congr ?_⟩
    · simp only [St.unlinkIncoming, e1, bind, Except.bind]; exact e
    · intro j _ a _
      by_cases hj : j = l <;> by_cases hm : j ∈ ls <;> simp [hj, hm] <;>
        cases a.isSvg <;> cases a.value.refersTo i <;> simp

/-- document.rs:243-279: both loops together. -/
theorem unlink_filtered {s : St} (h : Inv s) {i : NodeId} (hi : s.live i = true) :
    ∃ t u, s.removeAttributes i (s.ownLinkNames i) = .ok t ∧ t.unlinkIncoming i (t.linkedNodes i) = .ok u ∧
      Filtered s u (survives [i]) := by
  obtain ⟨t, e1, h1⟩ := ownLinks_filtered h hi
  have hi1 : t.live i = true := by rw [h1.else_.live]; exact hi
  obtain ⟨u, e2, h2⟩ := unlinkIncoming_filtered (i := i) (t.linkedNodes i) h1.inv (h1.inv.link.back i hi1)
  refine ⟨t, u, e1, e2, (h1.trans h2).congr ?_⟩
  intro j hj a ha
  have hj1 : t.live j = true := by rw [h1.else_.live]; exact hj
  have key : a.value.refersTo i = true → a.isSvg = true → j ∉ t.linkedNodes i →
      (decide (j = i) && (a.isSvg && !a.value.plain)) = true := by
    intro hr hs hn
    have hz : refs (t.attributes j) i = 0 := by
      rw [← h1.inv.link.count j i hj1 hi1, List.count_eq_zero]; exact hn
    by_contra hc
    have hm : a ∈ t.attributes j := by
      rw [h1.attrs j hj, List.mem_filter]
      exact ⟨ha, by rw [Bool.eq_false_of_not_eq_true hc]; rfl⟩
    have := refs_pos.2 ⟨a, hm, refersTo_iff.1 hr⟩
    omega
  simp only [survives, List.mem_singleton, List.any_cons, List.any_nil, Bool.or_false]
  by_cases hs : a.isSvg = true
  · by_cases hr : a.value.refersTo i = true
    · by_cases hn : j ∈ t.linkedNodes i
      · simp [hs, hr, hn]
      · rw [key hr hs hn]
        simp [hs, hr]
    · simp [hs, hr]
  · simp [hs]

/-! ### Removed -/

theorem isDetached_eq {s t : St} {j : NodeId} (h : (t.data j).storageKey = (s.data j).storageKey) :
    t.isDetached j = s.isDetached j := by simp [St.isDetached, h]

theorem Removed.trans {s t u : St} {S S' : List NodeId} (h : Removed s t S) (k : Removed t u S') :
    Removed s u (S ++ S') where
  live := k.live.trans h.live
  nextId := k.nextId.trans h.nextId
  rootId := k.rootId.trans h.rootId
  debug := k.debug.trans h.debug
  ids := fun j => (k.ids j).trans (h.ids j)
  tags := fun j => (k.tags j).trans (h.tags j)
  texts := fun j => (k.texts j).trans (h.texts j)
  types := fun j => (k.types j).trans (h.types j)
  detached := fun j => by
    rw [k.detached, h.detached, Bool.or_assoc]
    congr 1
    by_cases h1 : j ∈ S <;> by_cases h2 : j ∈ S' <;> simp [h1, h2]
  stored := fun n => by rw [k.stored, h.stored, List.mem_append]; tauto
  attrs := fun j hj => by
    rw [k.attrs j (by rw [h.live]; exact hj), h.attrs j hj, List.filter_filter]
    refine List.filter_congr fun a _ => ?_
    unfold survives
    by_cases h1 : j ∈ S <;> by_cases h2 : j ∈ S' <;> cases a.isSvg <;> simp [h1, h2] <;>
      cases a.value.plain <;> simp [Bool.and_comm]
  linked := fun j hj => (k.linked j (by rw [h.live]; exact hj)).trans (h.linked j hj)

theorem Removed.congr {s t : St} {S S' : List NodeId} (h : Removed s t S) (e : ∀ j, j ∈ S ↔ j ∈ S') : Removed s t S' where
  live := h.live
  nextId := h.nextId
  rootId := h.rootId
  debug := h.debug
  ids := h.ids
  tags := h.tags
  texts := h.texts
  types := h.types
  detached := fun j => by rw [h.detached, decide_eq_decide.2 (e j)]
  stored := fun j => by rw [h.stored, e]
  attrs := fun j hj => by
    rw [h.attrs j hj]
    refine List.filter_congr fun a _ => ?_
    have : (S.any fun n => a.value.refersTo n) = S'.any fun n => a.value.refersTo n := by
      rw [Bool.eq_iff_iff]; simp [e]
    simp only [survives, decide_eq_decide.2 (e j), this]
  linked := h.linked

theorem Removed.nil (s : St) : Removed s s [] where
  live := rfl
  nextId := rfl
  rootId := rfl
  debug := rfl
  ids := fun _ => rfl
  tags := fun _ => rfl
  texts := fun _ => rfl
  types := fun _ => rfl
  detached := fun j => by simp
  stored := fun n => by simp
  attrs := fun j _ => by rw [List.filter_eq_self.2 (fun a _ => by simp [survives])]
  linked := fun j _ => List.Sublist.refl _

/-! ### Pruned forests -/

theorem Describes.congr {s : St} {F G : Forest} (h : Describes s F)
    (e : ∀ i, s.live i = true → G.kids i = F.kids i ∧ G.sibs i = F.sibs i ∧ G.par i = F.par i) : Describes s G where
  wf := by
    constructor
    · intro i hi; rw [(e i hi).2.1]; exact h.wf.self_mem i hi
    · intro i hi; rw [(e i hi).2.1]; exact h.wf.nodup i hi
    · intro i hi j hj
      rw [(e i hi).2.1] at hj
      obtain ⟨h1, h2, h3⟩ := h.wf.sib i hi j hj
      refine ⟨h1, ?_, ?_⟩
      · rw [(e i hi).2.1, (e j h1).2.1, h2]
      · rw [(e i hi).2.2, (e j h1).2.2, h3]
    · intro i hi p hp
      rw [(e i hi).2.2] at hp
      obtain ⟨h1, h2⟩ := h.wf.par i hi p hp
      exact ⟨h1, by rw [(e p h1).1, (e i hi).2.1, h2]⟩
    · intro p hp c hc
      rw [(e p hp).1] at hc
      obtain ⟨h1, h2⟩ := h.wf.kids p hp c hc
      exact ⟨h1, by rw [(e c h1).2.2, h2]⟩
  shows := by
    constructor
    · intro i hi; rw [(e i hi).2.2]; exact h.shows.parent i hi
    · intro i hi; rw [(e i hi).2.1]; exact h.shows.next i hi
    · intro i hi; rw [(e i hi).2.1]; exact h.shows.prev i hi
    · intro i hi; rw [(e i hi).1]; exact h.shows.first i hi
    · intro i hi; rw [(e i hi).1]; exact h.shows.last i hi

theorem Describes.frame {s t : St} {F : Forest} (h : Describes s F) (hl : t.links = s.links) (hv : t.live = s.live) :
    Describes t F := by
  have hup : ∀ w, t.upgrade w = s.upgrade w := fun w => by simp [St.upgrade, hv]
  constructor
  · rw [hv]; exact h.wf
  · constructor <;> intro i hi <;> rw [hv] at hi
    · simp only [St.parent, hl, hup]; exact h.shows.parent i hi
    · simp only [St.nextSibling, hl]; exact h.shows.next i hi
    · simp only [St.prevSibling, hl, hup]; exact h.shows.prev i hi
    · simp only [St.firstChild, hl]; exact h.shows.first i hi
    · simp only [St.lastChild, hl, hup]; exact h.shows.last i hi

theorem prune_nil (F : Forest) : F.prune [] = F := by
  simp [Forest.prune]

theorem prune_prune (F : Forest) (S S' : List NodeId) : (F.prune S).prune S' = F.prune (S ++ S') := by
  unfold Forest.prune
  congr 1
  · funext j
    by_cases h1 : j ∈ S <;> by_cases h2 : j ∈ S' <;> simp [h1, h2, List.filter_filter, Bool.and_comm]
  · funext j
    by_cases h1 : j ∈ S <;> by_cases h2 : j ∈ S' <;> simp [h1, h2, List.filter_filter, Bool.and_comm]
  · funext j
    by_cases h1 : j ∈ S <;> by_cases h2 : j ∈ S' <;> simp [h1, h2]

theorem prune_congr (F : Forest) {S S' : List NodeId} (e : ∀ j, j ∈ S ↔ j ∈ S') : F.prune S = F.prune S' := by
  simp [Forest.prune, e]

/-- Isolating a childless node is pruning it. -/
theorem Describes.prune_one {s : St} {F : Forest} (h : Describes s F) {i : NodeId} (hk : F.kids i = [])
    (hd : Describes (s.detached i) (F.detach i)) : Describes (s.detached i) (F.prune [i]) := by
  refine hd.congr fun j hj => ⟨?_, ?_, ?_⟩
  · simp only [Forest.prune, Forest.detach, List.mem_singleton]
    split
    · next e => subst e; simp [hk]
    · rw [(h.wf.kids_nodup hj).erase_eq_filter]
      exact List.filter_congr fun a _ => by by_cases h : a = i <;> simp [h]
  · simp only [Forest.prune, Forest.detach, List.mem_singleton]
    split
    · next e => subst e; rfl
    · rw [(h.wf.nodup j hj).erase_eq_filter]
      exact List.filter_congr fun a _ => by by_cases h : a = i <;> simp [h]
  · simp only [Forest.prune, Forest.detach, List.mem_singleton]

theorem Trees.Of.mem_pre {F : Forest} : ∀ {T : Trees} {l : List NodeId}, T.Of F l → ∀ c ∈ l, c ∈ T.pre
  | .nil, l, h, c, hc => by simp only [Trees.Of] at h; subst h; simp at hc
  | .cons i k r, l, h, c, hc => by
    obtain ⟨l', rfl, hk, hr⟩ := h
    rcases List.mem_cons.1 hc with rfl | hc
    · simp [Trees.pre]
    · simp [Trees.pre, hr.mem_pre c hc]

theorem Trees.Of.kids_pre {F : Forest} : ∀ {T : Trees} {l : List NodeId}, T.Of F l → ∀ j ∈ T.pre, ∀ c ∈ F.kids j, c ∈ T.pre
  | .nil, l, h, j, hj => by simp [Trees.pre] at hj
  | .cons i k r, l, h, j, hj => by
    obtain ⟨l', rfl, hk, hr⟩ := h
    intro c hc
    simp only [Trees.pre, List.mem_cons, List.mem_append] at hj ⊢
    rcases hj with rfl | hj | hj
    · right; left; exact hk.mem_pre c hc
    · right; left; exact hk.kids_pre j hj c hc
    · right; right; exact hr.kids_pre j hj c hc

/-- Subtrees do not change if the children of their nodes do not. -/
theorem Trees.Of.congr {F G : Forest} : ∀ {T : Trees} {l : List NodeId}, T.Of F l → (∀ j ∈ T.pre, G.kids j = F.kids j) → T.Of G l
  | .nil, l, h, _ => h
  | .cons i k r, l, h, e => by
    obtain ⟨l', rfl, hk, hr⟩ := h
    refine ⟨l', rfl, ?_, hr.congr fun j hj => e j (by simp [Trees.pre, hj])⟩
    rw [e i (by simp [Trees.pre])]
    exact hk.congr fun j hj => e j (by simp [Trees.pre, hj])

theorem filter_all {l : List NodeId} {S : List NodeId} (h : ∀ x ∈ l, x ∉ S) : l.filter (fun c => decide (c ∉ S)) = l := by
  rw [List.filter_eq_self]; intro x hx; simp [h x hx]

theorem filter_none {l : List NodeId} {S : List NodeId} (h : ∀ x ∈ l, x ∈ S) : l.filter (fun c => decide (c ∉ S)) = [] := by
  rw [List.filter_eq_nil_iff]; intro x hx; simp [h x hx]

/-- Subtrees disjoint from the removed nodes stay. -/
theorem Trees.Of.prune {F : Forest} {T : Trees} {l S : List NodeId} (h : T.Of F l) (hd : ∀ j ∈ T.pre, j ∉ S) :
    T.Of (F.prune S) l := by
  refine h.congr fun j hj => ?_
  simp only [Forest.prune, hd j hj, if_false]
  exact filter_all fun x hx => hd x (h.kids_pre j hj x hx)

/-! ### remove_node -/

/-- The iterator of a loop that removes the children it visits: `l` is what is left. -/
def ItOk (s : St) (l : List NodeId) (it : Children) : Prop :=
  if l = [] then s.childrenFinished it = true else it = ⟨l.head?, l.getLast?⟩

theorem itOk_children {s : St} {F : Forest} (h : Describes s F) {p : NodeId} (hp : s.live p = true) :
    ItOk s (F.kids p) (s.children p) := by
  unfold ItOk
  have h1 := h.shows.first p hp
  have h2 := h.shows.last p hp
  split
  · next e =>
    rw [e] at h1 h2
    simp only [List.head?_nil, List.getLast?_nil] at h1 h2
    simp [St.childrenFinished, St.children, h2]
  · simp [St.children, h1, h2]

def KidsSpec (K : Trees) : Prop :=
  ∀ (k : Nat) (s : St) (F : Forest) (p : NodeId) (it : Children), Inv s → Describes s F → s.live p = true →
    K.Of F (F.kids p) → (p :: K.pre).Nodup → ItOk s (F.kids p) it → 2 * K.pre.length + 1 ≤ k →
    ∃ t, St.removeKids k s it = .ok t ∧ Inv t ∧ Removed s t K.pre ∧ Describes t (F.prune K.pre) ∧
      ∀ d, St.removeKidsS d k s it = if K.height ≤ d then .ok t else .error .overflow

theorem removeAux_of_kids {K : Trees} (hK : KidsSpec K) {k : Nat} {s : St} {F : Forest} {c : NodeId} (h : Inv s)
    (hF : Describes s F) (hc : s.live c = true) (ho : K.Of F (F.kids c)) (hn : (c :: K.pre).Nodup)
    (hk : 2 * K.pre.length + 2 ≤ k) :
    ∃ t, St.removeAux k s c = .ok t ∧ Inv t ∧ Removed s t (c :: K.pre) ∧ Describes t (F.prune (c :: K.pre)) ∧
      ∀ d, St.removeAuxS d k s c = if K.height + 1 ≤ d then .ok t else .error .overflow := by
  obtain ⟨k, rfl⟩ : ∃ m, k = m + 1 := ⟨k - 1, by omega⟩
  obtain ⟨s1, s2, e1, e2, hf⟩ := unlink_filtered h hc
  have hF2 := hF.frame hf.else_.links hf.else_.live
  have hc2 : s2.live c = true := by rw [hf.else_.live]; exact hc
  obtain ⟨s3, e3, h3, r3, d3, q3⟩ := hK k s2 F c (s2.children c) hf.inv hF2 hc2 ho hn (itOk_children hF2 hc2) (by omega)
  have hc3 : s3.live c = true := by rw [r3.live]; exact hc2
  rw [List.nodup_cons] at hn
  have hk0 : (F.prune K.pre).kids c = [] := by
    simp only [Forest.prune, hn.1, if_false]
    exact filter_none fun x hx => ho.mem_pre x hx
  have hp0 : (F.prune K.pre).par c ≠ some c := by
    simp only [Forest.prune, hn.1, if_false]
    intro e
    exact hn.1 (ho.mem_pre c ((hF.wf.kids_iff hc hc).2 e))
  have hds := detach_spec (h3.reps d3) hc3
  rw [if_neg hp0] at hds
  have d4 : Describes (s3.detached c) ((F.prune K.pre).prune [c]) :=
    d3.prune_one hk0 ((h3.reps d3).detached hc3).describes
  have h4 := h3.detached hc3
  obtain ⟨s5, e5, h5, hl5, hv5, hn5, hr5, hd5, hdata5, hs5⟩ := finishRemove_ok h4 (i := c) hc3
  refine ⟨s5, ?_, h5, ?_, ?_, ?_⟩
  · simp only [St.removeAux, e1, bind, Except.bind]
    simp only [e2, e3, hds]
    exact e5
  · have hx : ∀ j, (s5.data j).nodeType = (s3.data j).nodeType ∧ (s5.data j).tagName = (s3.data j).tagName ∧
        (s5.data j).id = (s3.data j).id ∧ (s5.data j).text = (s3.data j).text ∧
        (s5.data j).attributes = (s3.data j).attributes ∧ (s5.data j).linkedNodes = (s3.data j).linkedNodes := by
      intro j
      rw [hdata5 j]
      split <;> exact ⟨rfl, rfl, rfl, rfl, rfl, rfl⟩
    have ra : Removed s s5 ([c] ++ K.pre) := by
      constructor
      · rw [hv5]; show s3.live = _; rw [r3.live, hf.else_.live]
      · rw [hn5]; show s3.nextId = _; rw [r3.nextId, hf.else_.nextId]
      · rw [hr5]; show s3.rootId = _; rw [r3.rootId, hf.else_.rootId]
      · rw [hd5]; show s3.debug = _; rw [r3.debug, hf.else_.debug]
      · intro j; rw [← hf.else_.ids, ← r3.ids]; exact (hx j).2.2.1
      · intro j; rw [← hf.else_.tags, ← r3.tags]; exact (hx j).2.1
      · intro j; rw [← hf.else_.texts, ← r3.texts]; exact (hx j).2.2.2.1
      · intro j; rw [← hf.else_.types, ← r3.types]; exact (hx j).1
      · intro j
        have h1 := r3.detached j
        rw [isDetached_eq (hf.else_.keys j)] at h1
        simp only [St.isDetached, hdata5 j]
        by_cases hj : j = c
        · subst hj; simp
        · simp only [hj, if_false]
          have : (s3.detached c).data j = s3.data j := rfl
          rw [this]
          simp only [St.isDetached] at h1
          rw [h1]; simp [hj]
      · intro n
        rw [hs5]
        show n ∈ s3.slab.nodes ∧ n ≠ c ↔ _
        rw [r3.stored, hf.else_.slab]
        simp; tauto
      · intro j hj
        have hj2 : s2.live j = true := by rw [hf.else_.live]; exact hj
        have : s5.attributes j = s3.attributes j := (hx j).2.2.2.2.1
        rw [this, r3.attrs j hj2, hf.attrs j hj, List.filter_filter]
        refine List.filter_congr fun a _ => ?_
        unfold survives
        by_cases h1 : j = c <;> by_cases h2 : j ∈ K.pre <;> cases a.isSvg <;> simp [h1, h2] <;>
          cases a.value.plain <;> simp [Bool.and_comm]
      · intro j hj
        have hj2 : s2.live j = true := by rw [hf.else_.live]; exact hj
        have : s5.linkedNodes j = s3.linkedNodes j := (hx j).2.2.2.2.2
        rw [this]
        exact (r3.linked j hj2).trans (hf.linked j hj)
    exact ra
  · have := d4.frame hl5 hv5
    rw [prune_prune] at this
    rwa [prune_congr F (S' := c :: K.pre) (by simp; tauto)] at this
  · intro d
    cases d with
    | zero => simp [St.removeAuxS]
    | succ d =>
      simp only [St.removeAuxS, step, e1, e2, q3 d, bind, Except.bind, Except.mapError, Nat.add_le_add_iff_right]
      by_cases hd : K.height ≤ d
      · simp only [hd, if_true, hds, e5]
      · simp only [hd, if_false]

theorem kidsSpec : ∀ K : Trees, KidsSpec K
  | .nil => by
    intro k s F p it h hF hp ho hn hit hk
    simp only [Trees.Of] at ho
    obtain ⟨k, rfl⟩ : ∃ m, k = m + 1 := ⟨k - 1, by omega⟩
    rw [ItOk, if_pos ho] at hit
    refine ⟨s, ?_, h, .nil s, ?_, ?_⟩
    · simp [St.removeKids, St.childrenNext, hit]
    · rw [Trees.pre, prune_nil]; exact hF
    · intro d; simp [St.removeKidsS, St.childrenNext, hit, Trees.height]
  | .cons c K R => by
    intro k s F p it h hF hp ho hn hit hk
    obtain ⟨l', hl', hoK, hoR⟩ := ho
    simp only [Trees.pre, List.length_cons, List.length_append] at hk
    obtain ⟨k, rfl⟩ : ∃ m, k = m + 1 := ⟨k - 1, by omega⟩
    have hck : c ∈ F.kids p := by rw [hl']; simp
    obtain ⟨hc, hcp⟩ := hF.wf.kids p hp c hck
    simp only [Trees.pre, List.nodup_cons, List.mem_cons, List.mem_append, not_or, List.nodup_append] at hn
    obtain ⟨⟨hpc, hpK, hpR⟩, ⟨hcK, hcR⟩, hnK, hnR, hKR⟩ := hn
    obtain ⟨s1, e1, h1, r1, d1, q1⟩ := removeAux_of_kids (kidsSpec K) (k := k) h hF hc hoK (by simp [hcK, hnK]) (by omega)
    have hp1 : s1.live p = true := by rw [r1.live]; exact hp
    have hdR : ∀ j ∈ R.pre, j ∉ c :: K.pre := by
      intro j hj hm
      rcases List.mem_cons.1 hm with rfl | hm
      · exact hcR hj
      · exact hKR j hm j hj rfl
    have hkp : (F.prune (c :: K.pre)).kids p = l' := by
      have : p ∉ c :: K.pre := by simp [hpc, hpK]
      simp only [Forest.prune, this, if_false, hl']
      rw [List.filter_cons]
      simp only [List.mem_cons, true_or, not_true, decide_false, Bool.false_eq_true, if_false]
      have := filter_all (l := l') (S := c :: K.pre) fun x hx => hdR x (hoR.mem_pre x hx)
      simpa using this
    have hnx : s.nextSibling c = l'.head? := by
      rw [hF.shows.next c hc, ← hF.wf.kids_sibs hp hck, hl']; simp [after]
    rw [ItOk, if_neg (by rw [hl']; simp), hl'] at hit
    have hfin : s.childrenFinished it = false := by
      rw [hit]
      simp only [St.childrenFinished, List.head?_cons]
      cases hg : (c :: l').getLast? with
      | none => simp at hg
      | some nb =>
        have hnbm : nb ∈ F.kids p := by rw [hl']; exact List.mem_of_getLast? hg
        have hnb := (hF.wf.kids p hp nb hnbm).1
        have : s.nextSibling nb = none := by
          rw [hF.shows.next nb hnb, ← hF.wf.kids_sibs hp hnbm]
          exact after_last_none (hF.wf.kids_nodup hp) (by rw [hl']; exact hg)
        simp [this]
    have hstep : s.childrenNext it = (some c, ⟨l'.head?, (c :: l').getLast?⟩) := by
      simp only [St.childrenNext, hfin, Bool.false_eq_true, if_false]
      rw [hit]
      simp [hnx]
    have hit1 : ItOk s1 ((F.prune (c :: K.pre)).kids p) ⟨l'.head?, (c :: l').getLast?⟩ := by
      rw [hkp, ItOk]
      split
      · next e =>
        subst e
        have hc1 : s1.live c = true := by rw [r1.live]; exact hc
        have : s1.nextSibling c = none := by
          rw [d1.shows.next c hc1]; simp [Forest.prune, after]
        simp [St.childrenFinished, this]
      · next e =>
        cases l' with
        | nil => exact absurd rfl e
        | cons x l => simp
    have hoR1 : R.Of (F.prune (c :: K.pre)) ((F.prune (c :: K.pre)).kids p) := by rw [hkp]; exact hoR.prune hdR
    obtain ⟨t, e2, h2, r2, d2, q2⟩ := kidsSpec R k s1 _ p _ h1 d1 hp1 hoR1 (by simp [hpR, hnR]) hit1 (by omega)
    refine ⟨t, ?_, h2, ?_, ?_, ?_⟩
    · simp only [St.removeKids, hstep, bind, Except.bind, e1]
      exact e2
    · exact r1.trans r2
    · rw [prune_prune] at d2; exact d2
    · intro d
      simp only [St.removeKidsS, hstep, bind, Except.bind, q1 d, Trees.height]
      by_cases hd : K.height + 1 ≤ d
      · by_cases hr : R.height ≤ d
        · simp [hd, hr, q2 d]
        · simp [hd, hr, q2 d]
      · simp [hd]

/-- `remove_node` in an acyclic state, with the room on the stack that it needs. -/
theorem removeNode_depth {s : St} (h : Inv s) (ha : s.Acyclic) {F : Forest} (hF : Describes s F) {i : NodeId}
    (hi : s.live i = true) {K : Trees} (hK : K.Of F (F.kids i)) :
    ∃ t, s.removeNode i = .ok t ∧ Inv t ∧ Removed s t (i :: K.pre) ∧ Describes t (F.prune (i :: K.pre)) ∧
      ∀ d, s.removeNodeS d i = if K.height + 1 ≤ d then .ok t else .error .overflow := by
  have hT : (Trees.cons i K .nil).Of F [i] := ⟨[], rfl, hK, rfl⟩
  have h1 := pre_nodup hF ha hT (by simpa using hi) (by simp) (by simp)
  simp only [Trees.pre, List.append_nil] at h1
  have h2 := length_le_of_below h1 (n := s.nextId) fun j hj =>
    h.liveBelow j (pre_live hF hT (by simpa using hi) j (by simpa [Trees.pre] using hj))
  refine removeAux_of_kids (kidsSpec K) h hF hi hK h1 ?_
  simp only [St.fuel, List.length_cons] at h2 ⊢
  omega

/-- `remove_node` in an acyclic state. -/
theorem removeNode_spec {s : St} (h : Inv s) (ha : s.Acyclic) {F : Forest} (hF : Describes s F) {i : NodeId}
    (hi : s.live i = true) {K : Trees} (hK : K.Of F (F.kids i)) :
    ∃ t, s.removeNode i = .ok t ∧ Inv t ∧ Removed s t (i :: K.pre) ∧ Describes t (F.prune (i :: K.pre)) := by
  obtain ⟨t, e, h1, h2, h3, _⟩ := removeNode_depth h ha hF hi hK
  exact ⟨t, e, h1, h2, h3⟩

end Svgdom
