import Verif.Proof.Heap

/-! Attribute lists, `remove_attribute` / `set_attribute` in closed form. -/

namespace Svgdom

theorem findIdx_eraseIdx {l : List NodeId} {i : NodeId} :
    (∀ k, l.findIdx? (fun n => decide (n = i)) = some k → l.eraseIdx k = l.erase i) ∧
    (l.findIdx? (fun n => decide (n = i)) = none ↔ i ∉ l) := by
  induction l with
  | nil => simp
  | cons c t ih =>
    by_cases hc : c = i
    · subst hc; simp [List.findIdx?_cons]
    · constructor
      · intro k hk
        simp only [List.findIdx?_cons, hc, decide_false, Bool.false_eq_true, if_false, Option.map_eq_some_iff] at hk
        obtain ⟨m, hm, rfl⟩ := hk
        rw [List.eraseIdx_cons_succ, ih.1 m hm, List.erase_cons_tail (by simp [hc])]
      · simp only [List.findIdx?_cons, hc, decide_false, Bool.false_eq_true, if_false, Option.map_eq_none_iff, ih.2,
          List.mem_cons, Ne.symm hc, false_or]

/-- Attribute list with unique names. -/
def NamesNodup (l : List Attribute) : Prop := (l.map (·.name)).Nodup

/-- The list without the attribute `name`. -/
def without (l : List Attribute) (name : AName) : List Attribute := l.filter fun a => decide (a.name ≠ name)

theorem without_cons_ne {l : List Attribute} {a : Attribute} {name : AName} (h : a.name ≠ name) :
    without (a :: l) name = a :: without l name := by simp [without, h]

theorem without_absent {l : List Attribute} {name : AName} (h : ∀ a ∈ l, a.name ≠ name) : without l name = l := by
  simp only [without, List.filter_eq_self, decide_eq_true_eq]; exact h

theorem without_nodup {l : List Attribute} {name : AName} (h : NamesNodup l) : NamesNodup (without l name) := by
  unfold NamesNodup without at *
  exact h.sublist (List.filter_sublist.map _)

theorem mem_without {l : List Attribute} {name : AName} {a : Attribute} :
    a ∈ without l name ↔ a ∈ l ∧ a.name ≠ name := by simp [without]

theorem attrsRemove_eq {l : List Attribute} {name : AName} (h : NamesNodup l) : attrsRemove l name = without l name := by
  induction l with
  | nil => rfl
  | cons c t ih =>
    simp only [NamesNodup, List.map_cons, List.nodup_cons] at h
    by_cases hc : c.name = name
    · have : ∀ a ∈ t, a.name ≠ name := by
        intro a ha e
        exact h.1 (by rw [hc, ← e]; exact List.mem_map_of_mem ha)
      simp only [attrsRemove, List.findIdx?_cons, hc, decide_true, if_true, List.eraseIdx_zero, List.tail_cons]
      have h2 : without (c :: t) name = without t name := by simp [without, hc]
      rw [h2, without_absent this]
    · rw [without_cons_ne hc, ← ih h.2]
      simp only [attrsRemove, List.findIdx?_cons, hc, decide_false, Bool.false_eq_true, if_false]
      cases t.findIdx? (fun x => decide (x.name = name)) <;> simp

theorem attrsInsert_absent {l : List Attribute} {a : Attribute} (h : ∀ x ∈ l, x.name ≠ a.name) :
    attrsInsert l a = l ++ [a] := by
  have : l.findIdx? (fun x => decide (x.name = a.name)) = none := by
    rw [List.findIdx?_eq_none_iff]; intro x hx; simp [h x hx]
  simp [attrsInsert, this]

theorem attrsInsert_without {l : List Attribute} {a : Attribute} :
    attrsInsert (without l a.name) a = without l a.name ++ [a] :=
  attrsInsert_absent fun _ hb => (mem_without.1 hb).2

theorem attrsContains_iff {l : List Attribute} {name : AName} : attrsContains l name = true ↔ ∃ a ∈ l, a.name = name := by
  simp [attrsContains]

theorem attrsGet_some {l : List Attribute} {name : AName} {a : Attribute} (h : attrsGet l name = some a) :
    a ∈ l ∧ a.name = name := by
  refine ⟨List.mem_of_find?_eq_some h, ?_⟩
  have := List.find?_some h
  simpa using this

theorem attrsGet_none {l : List Attribute} {name : AName} : attrsGet l name = none ↔ ∀ a ∈ l, a.name ≠ name := by
  simp [attrsGet]

theorem attrsGet_mem {l : List Attribute} (h : NamesNodup l) {a : Attribute} (ha : a ∈ l) :
    attrsGet l a.name = some a := by
  induction l with
  | nil => simp at ha
  | cons c t ih =>
    simp only [NamesNodup, List.map_cons, List.nodup_cons] at h
    rcases List.mem_cons.1 ha with rfl | ha
    · simp [attrsGet]
    · have : c.name ≠ a.name := fun e => h.1 (by rw [e]; exact List.mem_map_of_mem ha)
      simp only [attrsGet, List.find?_cons, this, decide_false]
      exact ih h.2 ha

/-- How many attributes of the list refer to `t`. -/
def refs (l : List Attribute) (t : NodeId) : Nat := l.countP fun a => decide (a.value.linkNode = some t)

theorem refs_without {l : List Attribute} {name : AName} (h : NamesNodup l) (t : NodeId) :
    refs l t = refs (without l name) t + (if ((attrsGet l name).bind (·.value.linkNode)) = some t then 1 else 0) := by
  induction l with
  | nil => simp [refs, without, attrsGet]
  | cons c l ih =>
    have h' := h
    simp only [NamesNodup, List.map_cons, List.nodup_cons] at h
    by_cases hc : c.name = name
    · have : ∀ a ∈ l, a.name ≠ name := by
        intro a ha e
        exact h.1 (by rw [hc, ← e]; exact List.mem_map_of_mem ha)
      have h2 : without (c :: l) name = without l name := by simp [without, hc]
      rw [h2, without_absent this]
      simp [refs, attrsGet, List.countP_cons, hc]
    · rw [without_cons_ne hc]
      have := ih h.2
      have hg : attrsGet (c :: l) name = attrsGet l name := by simp [attrsGet, hc]
      rw [hg]
      simp only [refs, List.countP_cons] at this ⊢
      omega

theorem refs_append (l m : List Attribute) (t : NodeId) : refs (l ++ m) t = refs l t + refs m t := by
  simp [refs]

theorem refs_pos {l : List Attribute} {t : NodeId} : 0 < refs l t ↔ ∃ a ∈ l, a.value.linkNode = some t := by
  simp [refs, List.countP_pos_iff]

/-- Link bookkeeping. -/
structure LinkInv (s : St) : Prop where
  names : ∀ i, s.live i = true → NamesNodup (s.attributes i)
  count : ∀ i t, s.live i = true → s.live t = true → (s.linkedNodes t).count i = refs (s.attributes i) t
  targets : ∀ i, s.live i = true → ∀ a ∈ s.attributes i, ∀ t, a.value.linkNode = some t → s.live t = true
  back : ∀ t, s.live t = true → ∀ i ∈ s.linkedNodes t, s.live i = true
  noSelf : ∀ i, s.live i = true → refs (s.attributes i) i = 0
  noMutual : ∀ i j, s.live i = true → s.live j = true → refs (s.attributes i) j = 0 ∨ refs (s.attributes j) i = 0

namespace St

@[simp] theorem setD_data (s : St) (i j : NodeId) (f : NodeData → NodeData) :
    (s.setD i f).data j = if j = i then f (s.data i) else s.data j := rfl

@[simp] theorem setD_live (s : St) (i : NodeId) (f : NodeData → NodeData) : (s.setD i f).live = s.live := rfl

/-- The node the attribute `name` of `i` refers to. -/
def target (s : St) (i : NodeId) (name : AName) : Option NodeId :=
  (attrsGet (s.attributes i) name).bind (·.value.linkNode)

/-- Closed form of `remove_attribute`. -/
def delAttr (s : St) (i : NodeId) (name : AName) : St :=
  { s with data := fun j =>
      { s.data j with
        attributes := if j = i then without (s.data j).attributes name else (s.data j).attributes
        linkedNodes := if s.target i name = some j then (s.data j).linkedNodes.erase i else (s.data j).linkedNodes } }

/-- Closed form of a successful `set_attribute`. -/
def putAttr (s : St) (i : NodeId) (a : Attribute) : St :=
  { s with data := fun j =>
      { s.data j with
        attributes := if j = i then without (s.data j).attributes a.name ++ [a] else (s.data j).attributes
        linkedNodes := (if s.target i a.name = some j then (s.data j).linkedNodes.erase i else (s.data j).linkedNodes) ++
          (if a.value.linkNode = some j then [i] else []) } }

theorem eq_of_data {s t : St} (g : NodeId → NodeData) (hd : ∀ j, t.data j = g j) (hl : t.links = s.links)
    (hv : t.live = s.live) (hn : t.nextId = s.nextId) (hr : t.rootId = s.rootId) (hs : t.slab = s.slab)
    (hb : t.debug = s.debug) : t = { s with data := g } := by
  have := funext hd
  cases t; cases s; simp_all

theorem hasAttribute_false {s : St} {i : NodeId} {name : AName} (h : s.hasAttribute i name = false) :
    s.delAttr i name = s := by
  have h1 : ∀ a ∈ s.attributes i, a.name ≠ name := by
    intro a ha e
    have : attrsContains (s.attributes i) name = true := attrsContains_iff.2 ⟨a, ha, e⟩
    rw [hasAttribute, this] at h; simp at h
  have h2 : s.target i name = none := by simp [target, attrsGet_none.2 h1]
  refine (eq_of_data _ ?_ rfl rfl rfl rfl rfl rfl).symm
  intro j
  simp only [h2, reduceCtorEq, if_false]
  by_cases hj : j = i
  · subst hj
    simp only [if_true]
    have := without_absent h1
    simp only [St.attributes] at this
    rw [this]
  · simp [hj]

theorem removeAttribute_ok {s : St} (h : LinkInv s) {i : NodeId} (hi : s.live i = true) (name : AName) :
    s.removeAttribute i name = .ok (s.delAttr i name) := by
  cases hh : s.hasAttribute i name with
  | false => simp [removeAttribute, hh, hasAttribute_false hh]
  | true =>
    simp only [removeAttribute, hh, Bool.not_true, Bool.false_eq_true, if_false]
    obtain ⟨a, ha, hn⟩ := attrsContains_iff.1 hh
    have hg : attrsGet (s.attributes i) name = some a := by rw [← hn]; exact attrsGet_mem (h.names i hi) ha
    simp only [attrsGetValue, hg, Option.map_some]
    have htg : s.target i name = a.value.linkNode := by simp [target, hg]
    cases hl : a.value.linkNode with
    | none =>
      rw [hl] at htg
      simp only [unlinkValue, hl, bind, Except.bind, pure, Except.pure]
      congr 1
      refine eq_of_data _ ?_ rfl rfl rfl rfl rfl rfl
      intro j
      simp only [setD_data, htg, reduceCtorEq, if_false]
      by_cases hj : j = i
      · subst hj
        simp only [if_true]
        have := attrsRemove_eq (name := name) (h.names j hi)
        simp only [St.attributes] at this
        rw [this]
      · simp [hj]
    | some t =>
      rw [hl] at htg
      have htl := h.targets i hi a ha t hl
      have hti : t ≠ i := by
        rintro rfl
        have := h.noSelf t hi
        have h2 := refs_pos.2 ⟨a, ha, hl⟩
        omega
      have hm : i ∈ s.linkedNodes t := by
        rw [← List.count_pos_iff, h.count i t hi htl]
        exact refs_pos.2 ⟨a, ha, hl⟩
      simp only [unlinkValue, hl]
      cases hf : (s.linkedNodes t).findIdx? (fun n => decide (n = i)) with
      | none => exact absurd hm (findIdx_eraseIdx.2.1 hf)
      | some k =>
        simp only [borrowMut, List.mem_singleton, hti, if_false, bind, Except.bind, pure, Except.pure]
        congr 1
        refine eq_of_data _ ?_ rfl rfl rfl rfl rfl rfl
        intro j
        simp only [setD_data, htg, Option.some.injEq, Ne.symm hti, if_false]
        by_cases hj : j = i
        · subst hj
          simp only [if_true, hti, if_false]
          have := attrsRemove_eq (name := name) (h.names j hi)
          simp only [St.attributes] at this
          rw [this]
        · by_cases hjt : j = t
          · subst hjt
            simp only [hj, if_false, if_true]
            have := findIdx_eraseIdx.1 k hf
            simp only [linkedNodes] at this
            rw [this]
          · simp [hj, hjt, Ne.symm hjt]

theorem delAttr_live (s : St) (i : NodeId) (name : AName) : (s.delAttr i name).live = s.live := rfl

end St

theorem LinkInv.delAttr {s : St} (h : LinkInv s) {i : NodeId} (hi : s.live i = true) (name : AName) :
    LinkInv (s.delAttr i name) := by
  have ha : ∀ j, (s.delAttr i name).attributes j = if j = i then without (s.attributes j) name else s.attributes j := fun _ => rfl
  have hl : ∀ j, (s.delAttr i name).linkedNodes j =
    if s.target i name = some j then (s.linkedNodes j).erase i else s.linkedNodes j := fun _ => rfl
  have hle : ∀ j t, s.live j = true → refs ((s.delAttr i name).attributes j) t ≤ refs (s.attributes j) t := by
    intro j t hj
    rw [ha]
    split
    · have := refs_without (name := name) (h.names j hj) t
      omega
    · exact Nat.le_refl _
  have hsub : ∀ j, ∀ a ∈ (s.delAttr i name).attributes j, a ∈ s.attributes j := by
    intro j a
    rw [ha]
    split
    · intro hm; exact (mem_without.1 hm).1
    · exact id
  constructor
  · intro j hj
    rw [ha]
    split
    · exact without_nodup (h.names j hj)
    · exact h.names j hj
  · intro j t hj ht
    have hc := h.count j t hj ht
    rw [ha, hl]
    by_cases hji : j = i
    · subst hji
      simp only [if_true]
      have hr := refs_without (name := name) (h.names j hj) t
      simp only [St.target]
      split at hr
      · next hh => simp only [hh, if_true, List.count_erase_self]; omega
      · next hh => simp only [hh, if_false]; omega
    · simp only [hji, if_false]
      split
      · rw [List.count_erase_of_ne hji]; exact hc
      · exact hc
  · intro j hj a haj t ht
    exact h.targets j hj a (hsub j a haj) t ht
  · intro t ht j hj
    rw [hl] at hj
    split at hj
    · exact h.back t ht j (List.mem_of_mem_erase hj)
    · exact h.back t ht j hj
  · intro j hj
    have := hle j j hj
    have := h.noSelf j hj
    omega
  · intro j k hj hk
    have h1 := hle j k hj
    have h2 := hle k j hk
    rcases h.noMutual j k hj hk with h3 | h3
    · left; omega
    · right; omega

/-- The fallback inside a paint value. -/
def AttributeValue.fallback : AttributeValue → Option PaintFallback
  | .paint _ fb => fb
  | _ => Option.none

/-- The attribute as `set_attribute` stores it: a link is re-tagged by the attribute name. -/
def Attribute.stored (a : Attribute) : Attribute :=
  match a.value.linkNode with
  | some n => ⟨a.name, St.linkValue a.name n a.value.fallback⟩
  | none => a

theorem linkValue_linkNode (name : AName) (n : NodeId) (fb : Option PaintFallback) :
    (St.linkValue name n fb).linkNode = some n := by
  unfold St.linkValue; split_ifs <;> rfl

@[simp] theorem stored_name (a : Attribute) : a.stored.name = a.name := by
  unfold Attribute.stored; split <;> rfl

@[simp] theorem stored_linkNode (a : Attribute) : a.stored.value.linkNode = a.value.linkNode := by
  unfold Attribute.stored; split
  · next n h => rw [h]; exact linkValue_linkNode _ _ _
  · rfl

theorem linkNode_none {v : AttributeValue} : v.linkNode = none ↔ v.isLinkContainer = false := by
  cases v <;> simp [AttributeValue.linkNode, AttributeValue.isLinkContainer]

namespace St

theorem setSimple_ok {s : St} (h : LinkInv s) {i : NodeId} (hi : s.live i = true) {a : Attribute}
    (ha : a.value.linkNode = none) : s.setSimpleAttribute i a = .ok (s.putAttr i a) := by
  simp only [setSimpleAttribute, debugAssert, linkNode_none.1 ha, Bool.not_false, Bool.not_true, Bool.and_false,
    Bool.false_eq_true, if_false, removeAttribute_ok h hi, bind, Except.bind, pure, Except.pure]
  congr 1
  refine eq_of_data _ ?_ rfl rfl rfl rfl rfl rfl
  intro j
  simp only [setD_data, delAttr, ha, reduceCtorEq, if_false, List.append_nil]
  by_cases hj : j = i
  · subst hj; simp only [if_true, attrsInsert_without]
  · simp [hj]

/-- Why a link from `i` to `n` is rejected. -/
def rejected (s : St) (i n : NodeId) : Option DomError :=
  if s.idOf n = [] then some .elementMustHaveAnId
  else if s.idOf i = s.idOf n ∨ n ∈ s.linkedNodes i then some .elementCrosslink
  else none

theorem rejected_self (s : St) (i : NodeId) : s.rejected i i ≠ none := by
  unfold rejected; split_ifs <;> simp_all

theorem setLink_eq {s : St} (h : LinkInv s) {i n : NodeId} (hi : s.live i = true) (name : AName) (fb : Option PaintFallback) :
    s.setLinkAttribute i name n fb =
      match s.rejected i n with
      | some e => .ok (s, some e)
      | none => .ok (s.putAttr i ⟨name, linkValue name n fb⟩, none) := by
  unfold setLinkAttribute rejected
  by_cases h1 : s.idOf n = []
  · simp [h1]
  · have h1' : (s.idOf n).isEmpty = false := by simp [h1]
    simp only [h1, h1', if_false, Bool.false_eq_true]
    by_cases h2 : s.idOf i = s.idOf n
    · simp [h2]
    · by_cases h3 : n ∈ s.linkedNodes i
      · simp [h2, h3]
      · have hni : n ≠ i := by rintro rfl; exact h2 rfl
        simp only [h2, h3, if_false, or_self, List.any_eq_true, decide_eq_true_eq, exists_eq_right, removeAttribute_ok h hi,
          bind, Except.bind, pure, Except.pure]
        congr 2
        refine eq_of_data _ ?_ rfl rfl rfl rfl rfl rfl
        intro j
        simp only [setD_data, delAttr, linkValue_linkNode, Option.some.injEq]
        by_cases hj : j = i
        · subst hj
          simp only [if_true, hni, if_false, Ne.symm hni, List.append_nil]
          have := attrsInsert_without (l := (s.data j).attributes) (a := ⟨name, linkValue name n fb⟩)
          simp only [this]
        · by_cases hjn : j = n
          · subst hjn; simp [hj]
          · simp [hj, hjn, Ne.symm hjn]

/-- `set_attribute_checked` in closed form. -/
theorem setChecked_eq {s : St} (h : LinkInv s) {i : NodeId} (hi : s.live i = true) (a : Attribute)
    (hel : s.debug = true → s.isElement i = true) :
    s.setAttributeChecked i a =
      match a.value.linkNode.bind (s.rejected i) with
      | some e => .ok (s, some e)
      | none => .ok (s.putAttr i a.stored, none) := by
  have hd : s.debugAssert (s.isElement i) = .ok () := by
    unfold debugAssert
    cases hh : s.debug
    · simp
    · simp [hel hh]
  simp only [setAttributeChecked, hd, bind, Except.bind]
  cases hv : a.value <;>
    simp only [Attribute.stored, hv, AttributeValue.linkNode, Option.bind_some, Option.bind_none, setLink_eq h hi,
      AttributeValue.fallback] <;>
    (try (rw [setSimple_ok h hi (by rw [hv]; rfl)]; simp only [pure, Except.pure]))

theorem setChecked_debug {s : St} {i : NodeId} {a : Attribute} (hd : s.debug = true) (he : s.isElement i = false) :
    s.setAttributeChecked i a = .error (.panic .debugAssert) := by
  simp [setAttributeChecked, debugAssert, hd, he, bind, Except.bind]

end St

theorem LinkInv.putAttr {s : St} (h : LinkInv s) {i : NodeId} (hi : s.live i = true) (a : Attribute)
    (hok : ∀ n, a.value.linkNode = some n → s.live n = true ∧ s.rejected i n = none) :
    LinkInv (s.putAttr i a) := by
  have hd := h.delAttr hi a.name
  have ha : ∀ j, (s.putAttr i a).attributes j =
      (s.delAttr i a.name).attributes j ++ (if j = i then [a] else []) := by
    intro j
    simp only [St.attributes, St.putAttr, St.delAttr]
    split <;> simp
  have hl : ∀ j, (s.putAttr i a).linkedNodes j =
      (s.delAttr i a.name).linkedNodes j ++ (if a.value.linkNode = some j then [i] else []) := fun _ => rfl
  have hnr : ∀ n, a.value.linkNode = some n → n ≠ i ∧ refs (s.attributes n) i = 0 := by
    intro n hn
    obtain ⟨h1, h2⟩ := hok n hn
    refine ⟨?_, ?_⟩
    · rintro rfl; exact St.rejected_self s n h2
    · rw [← h.count n i h1 hi]
      unfold St.rejected at h2
      split_ifs at h2 with h3 h4
      rw [not_or] at h4
      exact List.count_eq_zero.2 h4.2
  have hr : ∀ j t, refs ((s.putAttr i a).attributes j) t =
      refs ((s.delAttr i a.name).attributes j) t + (if j = i ∧ a.value.linkNode = some t then 1 else 0) := by
    intro j t
    rw [ha, refs_append]
    congr 1
    by_cases hj : j = i <;> by_cases hn : a.value.linkNode = some t <;> simp [refs, hj, hn]
  have hle : ∀ j t, s.live j = true → refs ((s.delAttr i a.name).attributes j) t ≤ refs (s.attributes j) t := by
    intro j t hj
    show refs (if j = i then without (s.attributes j) a.name else s.attributes j) t ≤ _
    split
    · have := refs_without (name := a.name) (h.names j hj) t
      omega
    · exact Nat.le_refl _
  constructor
  · intro j hj
    rw [ha]
    by_cases hji : j = i
    · subst hji
      simp only [if_true]
      have h1 := hd.names j hj
      show NamesNodup ((if j = j then without (s.attributes j) a.name else s.attributes j) ++ [a])
      simp only [if_true, NamesNodup, List.map_append, List.map_cons, List.map_nil]
      rw [List.nodup_append]
      refine ⟨without_nodup (h.names j hj), by simp, ?_⟩
      intro x hx y hy
      simp only [List.mem_singleton] at hy
      subst hy
      simp only [List.mem_map] at hx
      obtain ⟨b, hb, rfl⟩ := hx
      exact (mem_without.1 hb).2
    · simp only [hji, if_false, List.append_nil]
      exact hd.names j hj
  · intro j t hj ht
    have hc := hd.count j t hj ht
    rw [hr, hl, List.count_append, hc]
    congr 1
    by_cases hji : j = i <;> by_cases hn : a.value.linkNode = some t <;> simp [hji, hn]
    rw [List.count_eq_zero]; simp [hji]
  · intro j hj b hb t ht
    rw [ha, List.mem_append] at hb
    rcases hb with hb | hb
    · exact hd.targets j hj b hb t ht
    · split at hb
      · simp only [List.mem_singleton] at hb
        subst hb
        exact (hok t ht).1
      · simp at hb
  · intro t ht j hj
    rw [hl, List.mem_append] at hj
    rcases hj with hj | hj
    · exact hd.back t ht j hj
    · split at hj
      · simp only [List.mem_singleton] at hj
        subst hj; exact hi
      · simp at hj
  · intro j hj
    rw [hr]
    have := hd.noSelf j hj
    split
    · next hh => exact absurd hh.1 (hnr j hh.2).1
    · omega
  · intro j k hj hk
    rw [hr, hr]
    have hm := hd.noMutual j k hj hk
    split
    · next hh =>
      right
      obtain ⟨rfl, hn⟩ := hh
      obtain ⟨hne, hz⟩ := hnr k hn
      have := hle k j hk
      simp [hne]; omega
    · split
      · next hh =>
        left
        obtain ⟨rfl, hn⟩ := hh
        obtain ⟨hne, hz⟩ := hnr j hn
        have := hle j k hj
        omega
      · simpa using hm

end Svgdom
