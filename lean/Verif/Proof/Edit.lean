import Verif.Proof.Inv
import Verif.Model.Edit

/-! Edits through the `*_mut` methods keep the invariants. -/

namespace Svgdom

/-- What `get_mut` finds, and what an assignment to it does. -/
theorem attrsReplace_split {l : List Attribute} {name : AName} {old : Attribute} (h : attrsGet l name = some old)
    (a : Attribute) : ∃ x y, l = x ++ old :: y ∧ (∀ b ∈ x, b.name ≠ name) ∧ old.name = name ∧
      attrsReplace l name a = x ++ a :: y := by
  induction l with
  | nil => simp [attrsGet] at h
  | cons c t ih =>
    by_cases hc : c.name = name
    · have : c = old := by simpa [attrsGet, hc] using h
      subst this
      exact ⟨[], t, rfl, by simp, hc, by simp [attrsReplace, List.findIdx?_cons, hc]⟩
    · have h' : attrsGet t name = some old := by simpa [attrsGet, hc] using h
      obtain ⟨x, y, e1, e2, e3, e4⟩ := ih h'
      refine ⟨c :: x, y, by rw [e1]; rfl, ?_, e3, ?_⟩
      · intro b hb
        rcases List.mem_cons.1 hb with rfl | hb
        · exact hc
        · exact e2 b hb
      · simp only [attrsReplace, List.findIdx?_cons, hc, decide_false, Bool.false_eq_true, if_false, List.cons_append,
          ← e4]
        cases t.findIdx? (fun x => decide (x.name = name)) <;> simp

theorem attrsReplace_none {l : List Attribute} {name : AName} (h : attrsGet l name = none) (a : Attribute) :
    attrsReplace l name a = l := by
  rw [attrsGet_none] at h
  have : l.findIdx? (fun x => decide (x.name = name)) = none := by
    rw [List.findIdx?_eq_none_iff]; intro x hx; simp [h x hx]
  simp [attrsReplace, this]

namespace St.PlainEdit

variable {s : St} {i : NodeId} {name : AName} {a : Attribute}

theorem refs (h : s.PlainEdit i name a) (t : NodeId) :
    refs (attrsReplace (s.attributes i) name a) t = Svgdom.refs (s.attributes i) t := by
  cases hg : attrsGet (s.attributes i) name with
  | none => rw [attrsReplace_none hg]
  | some old =>
    obtain ⟨x, y, e1, _, _, e4⟩ := attrsReplace_split hg a
    rw [e4, e1, refs_append, refs_append]
    have : a.value.linkNode = old.value.linkNode := by
      rcases h.value old hg with ⟨h1, h2⟩ | ⟨_, n, fb, fb', h1, h2⟩
      · rw [h1, h2]
      · rw [h1, h2]; rfl
    simp [Svgdom.refs, List.countP_cons, this]

theorem names (h : s.PlainEdit i name a) (hn : NamesNodup (s.attributes i)) :
    NamesNodup (attrsReplace (s.attributes i) name a) := by
  cases hg : attrsGet (s.attributes i) name with
  | none => rw [attrsReplace_none hg]; exact hn
  | some old =>
    obtain ⟨x, y, e1, _, e3, e4⟩ := attrsReplace_split hg a
    rw [e4]
    rcases h.name with e | e
    · rw [e1] at hn
      simpa [NamesNodup, e, e3] using hn
    · have hno : ∀ b ∈ s.attributes i, b.name ≠ a.name := by
        intro b hb hc
        have : s.hasAttribute i a.name = true := attrsContains_iff.2 ⟨b, hb, hc⟩
        rw [e] at this; exact absurd this (by simp)
      rw [e1] at hn hno
      simp only [NamesNodup, List.map_append, List.map_cons] at hn ⊢
      rw [List.nodup_append] at hn ⊢
      obtain ⟨h1, h2, h3⟩ := hn
      rw [List.nodup_cons] at h2 ⊢
      refine ⟨h1, ⟨?_, h2.2⟩, ?_⟩
      · intro hm
        obtain ⟨b, hb, hc⟩ := List.mem_map.1 hm
        exact hno b (by simp [hb]) hc
      · intro p hp q hq
        rcases List.mem_cons.1 hq with rfl | hq
        · obtain ⟨b, hb, rfl⟩ := List.mem_map.1 hp
          exact hno b (by simp [hb])
        · exact h3 p hp q (List.mem_cons_of_mem _ hq)

theorem stored (h : s.PlainEdit i name a) (hs : ∀ b ∈ s.attributes i, b.stored = b) :
    ∀ b ∈ attrsReplace (s.attributes i) name a, b.stored = b := by
  cases hg : attrsGet (s.attributes i) name with
  | none => rw [attrsReplace_none hg]; exact hs
  | some old =>
    obtain ⟨x, y, e1, _, e3, e4⟩ := attrsReplace_split hg a
    rw [e4]
    rw [e1] at hs
    intro b hb
    rcases List.mem_append.1 hb with hb | hb
    · exact hs b (by simp [hb])
    · rcases List.mem_cons.1 hb with rfl | hb
      · rcases h.value old hg with ⟨_, h2⟩ | ⟨hn, n, fb, fb', h1, h2⟩
        · simp [Attribute.stored, h2]
        · have := hs old (by simp)
          obtain ⟨on, ov⟩ := old
          obtain ⟨bn, bv⟩ := b
          simp only at h1 h2 hn e3
          subst h1; subst h2; subst hn; subst e3
          simp only [Attribute.stored, AttributeValue.linkNode, AttributeValue.fallback, St.linkValue, Attribute.mk.injEq,
            true_and] at this ⊢
          split_ifs at this ⊢ <;> simp_all
      · exact hs b (by simp [hb])

theorem empty (name : AName) (a : Attribute) (l : List Attribute) : attrsReplace l name a = [] ↔ l = [] := by
  cases hg : attrsGet l name with
  | none => rw [attrsReplace_none hg]
  | some old =>
    obtain ⟨x, y, e1, _, _, e4⟩ := attrsReplace_split hg a
    rw [e4, e1]; simp

end St.PlainEdit

theorem LinkInv.similar {s t : St} (h : LinkInv s) (hl : t.live = s.live)
    (hnames : ∀ i, s.live i = true → NamesNodup (t.attributes i)) (hr : ∀ i j, refs (t.attributes i) j = refs (s.attributes i) j)
    (hp : ∀ i, (t.linkedNodes i).Perm (s.linkedNodes i)) : LinkInv t := by
  constructor
  · intro i hi; rw [hl] at hi; exact hnames i hi
  · intro i j hi hj; rw [hl] at hi hj; rw [hr, (hp j).count_eq]; exact h.count i j hi hj
  · intro i hi a ha j hj
    rw [hl] at hi ⊢
    have : 0 < refs (t.attributes i) j := refs_pos.2 ⟨a, ha, hj⟩
    rw [hr] at this
    obtain ⟨b, hb, hbj⟩ := refs_pos.1 this
    exact h.targets i hi b hb j hbj
  · intro i hi j hj; rw [hl] at hi ⊢; exact h.back i hi j ((hp i).mem_iff.1 hj)
  · intro i hi; rw [hl] at hi; rw [hr]; exact h.noSelf i hi
  · intro i j hi hj; rw [hl] at hi hj; rw [hr, hr]; exact h.noMutual i j hi hj

theorem refs_eq_count (l : List Attribute) (k : NodeId) : refs l k = (l.filterMap (·.value.linkNode)).count k := by
  induction l with
  | nil => rfl
  | cons a l ih =>
    unfold refs at ih ⊢
    rw [List.countP_cons, ih]
    cases ha : a.value.linkNode with
    | none => simp [ha]
    | some m => simp [ha, List.count_cons]

theorem refs_perm {l m : List Attribute} (h : l.Perm m) (k : NodeId) : refs l k = refs m k := h.countP_eq _

theorem sameLinks_iff {l m : List Attribute} : St.SameLinks l m ↔ ∀ k, refs l k = refs m k := by
  unfold St.SameLinks
  rw [List.perm_iff_count]
  simp only [refs_eq_count]

theorem swapAttributes_ok {s t : St} {i j : NodeId} (e : s.swapAttributes i j = .ok t) :
    i ≠ j ∧ t = (s.editAttributes i (s.attributes j)).editAttributes j (s.attributes i) := by
  unfold St.swapAttributes at e
  split at e
  · cases e
  · next h => cases e; exact ⟨h, rfl⟩

theorem swapAttributes_data {s t : St} {i j : NodeId} (e : s.swapAttributes i j = .ok t) (k : NodeId) :
    t.data k = { s.data k with attributes := s.attributes (if k = i then j else if k = j then i else k) } := by
  obtain ⟨hij, rfl⟩ := swapAttributes_ok e
  simp only [St.editAttributes, St.setD_data]
  by_cases hi : k = i
  · subst hi; simp [hij]
  · by_cases hj : k = j
    · subst hj; simp [hi]
    · simp [hi, hj, St.attributes]

namespace St.Edit

variable {s t : St}

theorem live (h : s.Edit t) : t.live = s.live := by
  cases h <;> first | rfl | (next e => obtain ⟨_, rfl⟩ := swapAttributes_ok e; rfl)
theorem links (h : s.Edit t) : t.links = s.links := by
  cases h <;> first | rfl | (next e => obtain ⟨_, rfl⟩ := swapAttributes_ok e; rfl)
theorem rootId (h : s.Edit t) : t.rootId = s.rootId := by
  cases h <;> first | rfl | (next e => obtain ⟨_, rfl⟩ := swapAttributes_ok e; rfl)
theorem nextId (h : s.Edit t) : t.nextId = s.nextId := by
  cases h <;> first | rfl | (next e => obtain ⟨_, rfl⟩ := swapAttributes_ok e; rfl)
theorem slab (h : s.Edit t) : t.slab = s.slab := by
  cases h <;> first | rfl | (next e => obtain ⟨_, rfl⟩ := swapAttributes_ok e; rfl)
theorem debug (h : s.Edit t) : t.debug = s.debug := by
  cases h <;> first | rfl | (next e => obtain ⟨_, rfl⟩ := swapAttributes_ok e; rfl)

/-- What no edit changes. -/
theorem kept (h : s.Edit t) (i : NodeId) : (t.data i).storageKey = (s.data i).storageKey ∧ (t.data i).nodeType = (s.data i).nodeType ∧
    (t.data i).tagName = (s.data i).tagName ∧ (t.data i).id = (s.data i).id := by
  cases h with
  | swap a b _ _ _ _ e => rw [swapAttributes_data e]; exact ⟨rfl, rfl, rfl, rfl⟩
  | text | attr | order | linked =>
    simp only [editText, editAttribute, editAttributes, editLinked, setD_data]
    split
    · next e => subst e; exact ⟨rfl, rfl, rfl, rfl⟩
    · exact ⟨rfl, rfl, rfl, rfl⟩

theorem storageKey (h : s.Edit t) (i : NodeId) : (t.data i).storageKey = (s.data i).storageKey := (h.kept i).1
theorem nodeType (h : s.Edit t) (i : NodeId) : t.nodeType i = s.nodeType i := (h.kept i).2.1
theorem tagName (h : s.Edit t) (i : NodeId) : (t.data i).tagName = (s.data i).tagName := (h.kept i).2.2.1
theorem idOf (h : s.Edit t) (i : NodeId) : (t.data i).id = (s.data i).id := (h.kept i).2.2.2

/-- What becomes of the attributes of a node. -/
theorem attributes (h : s.Edit t) {i : NodeId} (hi : s.live i = true) :
    (∃ j, s.live j = true ∧ (s.data i).nodeType = (s.data j).nodeType ∧ SameLinks (s.attributes i) (s.attributes j) ∧
      (t.attributes i).Perm (s.attributes j)) ∨
    ∃ name a, s.PlainEdit i name a ∧ t.attributes i = attrsReplace (s.attributes i) name a := by
  have same : t.attributes i = s.attributes i → ∃ j, s.live j = true ∧ (s.data i).nodeType = (s.data j).nodeType ∧
      SameLinks (s.attributes i) (s.attributes j) ∧ (t.attributes i).Perm (s.attributes j) :=
    fun e => ⟨i, hi, rfl, .refl _, by rw [e]⟩
  cases h with
  | attr k name a hk hp =>
    by_cases e : i = k
    · subst e; exact .inr ⟨name, a, hp, by simp [St.attributes, editAttribute]⟩
    · exact .inl (same (by simp [St.attributes, editAttribute, e]))
  | order k l hk hp =>
    by_cases e : i = k
    · subst e; exact .inl ⟨i, hi, rfl, .refl _, by simpa [St.attributes, editAttributes] using hp⟩
    · exact .inl (same (by simp [St.attributes, editAttributes, e]))
  | swap a b ha hb ht hl e =>
    have hd : t.attributes i = s.attributes (if i = a then b else if i = b then a else i) := by
      simp only [St.attributes, swapAttributes_data e]
    by_cases e1 : i = a
    · subst e1
      rw [if_pos rfl] at hd
      exact .inl ⟨b, hb, ht, hl, by rw [hd]⟩
    · by_cases e2 : i = b
      · subst e2
        rw [if_neg e1, if_pos rfl] at hd
        exact .inl ⟨a, ha, ht.symm, hl.symm, by rw [hd]⟩
      · rw [if_neg e1, if_neg e2] at hd
        exact .inl (same hd)
  | text | linked =>
    refine .inl (same ?_)
    simp only [St.attributes, editText, editLinked, setD_data]
    split
    · next e => subst e; rfl
    · rfl

/-- Nodes that do not exist keep theirs. -/
theorem attributes_dead (h : s.Edit t) {i : NodeId} (hi : s.live i = false) : t.attributes i = s.attributes i := by
  have ne : ∀ {k}, s.live k = true → i ≠ k := fun hk e => by subst e; rw [hi] at hk; cases hk
  cases h with
  | swap a b ha hb ht hl e =>
    simp only [St.attributes, swapAttributes_data e, if_neg (ne ha), if_neg (ne hb)]
  | text k | attr k | order k | linked k =>
    have : i ≠ k := ne ‹_›
    simp [St.attributes, editText, editAttribute, editAttributes, editLinked, this]

theorem names (h : s.Edit t) (hn : ∀ i, s.live i = true → NamesNodup (s.attributes i)) {i : NodeId} (hi : s.live i = true) :
    NamesNodup (t.attributes i) := by
  rcases h.attributes hi with ⟨j, hj, _, _, hp⟩ | ⟨name, a, hp, e⟩
  · exact ((hp.map _).nodup_iff).2 (hn j hj)
  · rw [e]; exact hp.names (hn i hi)

theorem refs (h : s.Edit t) (i j : NodeId) : Svgdom.refs (t.attributes i) j = Svgdom.refs (s.attributes i) j := by
  cases hi : s.live i with
  | false => rw [h.attributes_dead hi]
  | true =>
    rcases h.attributes hi with ⟨k, _, _, hl, hp⟩ | ⟨name, a, hp, e⟩
    · rw [refs_perm hp, sameLinks_iff.1 hl]
    · rw [e]; exact hp.refs j

theorem perm (h : s.Edit t) (i : NodeId) : (t.linkedNodes i).Perm (s.linkedNodes i) := by
  cases h with
  | linked k l hj hp =>
    simp only [St.linkedNodes, editLinked, setD_data]
    split
    · next e => subst e; exact hp
    · exact .refl _
  | swap a b ha hb ht hl e => simp only [St.linkedNodes, swapAttributes_data e]; exact .refl _
  | text | attr | order =>
    simp only [St.linkedNodes, editText, editAttribute, editAttributes, setD_data]
    split
    · next e => subst e; exact .refl _
    · exact .refl _

theorem stored (h : s.Edit t) (hs : ∀ i, s.live i = true → ∀ b ∈ s.attributes i, b.stored = b) {i : NodeId} (hi : s.live i = true) :
    ∀ b ∈ t.attributes i, b.stored = b := by
  rcases h.attributes hi with ⟨j, hj, _, _, hp⟩ | ⟨name, a, hp, e⟩
  · exact fun b hb => hs j hj b (hp.mem_iff.1 hb)
  · rw [e]; exact hp.stored (hs i hi)

/-- Attributes come from a node of the same type. -/
theorem from_type (h : s.Edit t) {i : NodeId} (hi : s.live i = true) (hne : t.attributes i ≠ []) :
    ∃ j, s.live j = true ∧ (s.data i).nodeType = (s.data j).nodeType ∧ s.attributes j ≠ [] := by
  rcases h.attributes hi with ⟨j, hj, ht, _, hp⟩ | ⟨name, a, hp, e⟩
  · exact ⟨j, hj, ht, fun e => hne (by rw [e] at hp; exact hp.eq_nil)⟩
  · exact ⟨i, hi, rfl, fun e' => hne (by rw [e]; exact (St.PlainEdit.empty _ _ _).2 e')⟩

theorem inv (h : s.Edit t) (hi : Inv s) : Inv t :=
  hi.ofData h.links h.live h.nextId h.rootId
    (hi.link.similar h.live (fun _ hl => h.names hi.link.names hl) h.refs h.perm)
    (hi.slab.same h.live h.slab h.storageKey)

end St.Edit

end Svgdom
