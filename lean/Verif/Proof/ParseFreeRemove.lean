import Verif.Proof.ParseFreeText

/-! Helper lemmas: `remove_node` when nodes are freed inside its recursion. -/

set_option autoImplicit false

namespace Svgdom

theorem remove_mono : ∀ k, (∀ (s t : St) (i : NodeId), St.removeAux k s i = .ok t → St.removeAux (k + 1) s i = .ok t) ∧
    ∀ (s t : St) (it : Children), St.removeKids k s it = .ok t → St.removeKids (k + 1) s it = .ok t
  | 0 => ⟨fun s t i e => by simp [St.removeAux] at e, fun s t it e => by simp [St.removeKids] at e⟩
  | k + 1 => by
    obtain ⟨h1, h2⟩ := remove_mono k
    refine ⟨fun s t i e => ?_, fun s t it e => ?_⟩
    · rw [St.removeAux] at e ⊢
      obtain ⟨a, e1, e⟩ := bind_ok' e
      obtain ⟨b, e2, e⟩ := bind_ok' e
      obtain ⟨c, e3, e⟩ := bind_ok' e
      have e3 := h2 _ _ _ e3
      simp only [e1, e2, e3, bind, Except.bind] at e ⊢
      exact e
    · rw [St.removeKids] at e ⊢
      split at e
      · exact e
      · next c it' hx =>
        obtain ⟨a, e1, e⟩ := bind_ok' e
        simp only [h1 _ _ _ e1, bind, Except.bind]
        exact h2 _ _ _ e

theorem removeKids_le {k m : Nat} (hkm : k ≤ m) {s t : St} {it : Children} (e : St.removeKids k s it = .ok t) :
    St.removeKids m s it = .ok t := by
  induction hkm with
  | refl => exact e
  | step _ ih => exact (remove_mono _).2 _ _ _ ih

/-- Nothing is left to be done for `i` but to detach it and to take it out of the storage. -/
structure Bare (s : St) (i : NodeId) : Prop where
  own : s.ownLinkNames i = []
  incoming : ∀ l ∈ s.linkedNodes i, s.linkNamesTo l i = []
  first : s.firstChild i = none
  last : s.lastChild i = none

theorem unlinkIncoming_nil {s : St} {i : NodeId} : ∀ {l : List NodeId}, (∀ x ∈ l, s.linkNamesTo x i = []) → s.unlinkIncoming i l = .ok s
  | [], _ => rfl
  | x :: l, h => by
    simp only [St.unlinkIncoming, h x List.mem_cons_self, St.removeAttributes, bind, Except.bind]
    exact unlinkIncoming_nil fun y hy => h y (List.mem_cons_of_mem _ hy)

theorem Bare.remove {s : St} {i : NodeId} (h : Bare s i) : s.removeNode i = (s.detach i).bind fun u => u.finishRemove i := by
  have hk : s.removeKids (2 * s.nextId + 1) (s.children i) = .ok s := by
    simp [St.removeKids, St.childrenNext, St.childrenFinished, St.children, h.last]
  rw [St.removeNode, St.fuel, St.removeAux, h.own]
  simp only [St.removeAttributes, bind, Except.bind, unlinkIncoming_nil h.incoming, hk]

theorem no_own {s : St} {i : NodeId} (h : ∀ a ∈ s.attributes i, a.isSvg = true → a.value.plain = true) : s.ownLinkNames i = [] := by
  rw [St.ownLinkNames, attrsSvg, List.filterMap_filterMap, List.filterMap_eq_nil_iff]
  intro a ha
  have := h a ha
  cases hn : a.name with
  | name _ => simp
  | id x =>
    have h2 : a.value.isLinkContainer = !a.value.plain := by cases a.value <;> rfl
    simp [h2, this (by simp [Attribute.isSvg, hn])]

theorem no_incoming {s : St} {i l : NodeId} (h : ∀ a ∈ s.attributes l, a.isSvg = true → a.value.refersTo i = false) :
    s.linkNamesTo l i = [] := by
  rw [St.linkNamesTo, attrsSvg, List.filterMap_filterMap, List.filterMap_eq_nil_iff]
  intro a ha
  have := h a ha
  cases hn : a.name with
  | name _ => simp
  | id x => simp [← refersTo_iff, this (by simp [Attribute.isSvg, hn])]

/-- The node after its links and its children are removed. -/
theorem bare_of {t a b c : St} {i : NodeId} {k : Nat} (h : Inv t) (ha : t.Acyclic) {F : Forest} (hF : Describes t F) (hi : t.live i = true)
    (e1 : t.removeAttributes i (t.ownLinkNames i) = .ok a) (e2 : a.unlinkIncoming i (a.linkedNodes i) = .ok b)
    (e3 : St.removeKids k b (b.children i) = .ok c) : Bare c i := by
  have hkl : ∀ c ∈ F.kids i, t.live c = true := fun c hc => (hF.wf.kids i hi c hc).1
  obtain ⟨K, hK⟩ := trees_exist h hF ha (F.kids i) hkl
  have hkp : ∀ a ∈ F.kids i, ∀ j ∈ F.kids i, t.parent a = t.parent j := by
    intro a ha j hj
    rw [hF.shows.parent a (hkl a ha), hF.shows.parent j (hkl j hj), (hF.wf.kids i hi a ha).2, (hF.wf.kids i hi j hj).2]
  have hKn := pre_nodup hF ha hK hkl (hF.wf.kids_nodup hi) hkp
  have hiK : i ∉ K.pre := fun hm => ha i hi ((mem_pre_kids hF hi hK hi).1 hm)
  obtain ⟨s1, s2, f1, f2, hf⟩ := unlink_filtered h hi
  rw [e1] at f1; cases f1
  rw [e2] at f2; cases f2
  have hF2 := hF.frame hf.else_.links hf.else_.live
  have hc2 : b.live i = true := by rw [hf.else_.live]; exact hi
  obtain ⟨s3, e3', h3, r3, d3, q3⟩ := kidsSpec K (max k (2 * K.pre.length + 1)) b F i (b.children i) hf.inv hF2 hc2 hK
    (List.nodup_cons.2 ⟨hiK, hKn⟩) (itOk_children hF2 hc2) (by omega)
  rw [removeKids_le (Nat.le_max_left _ _) e3] at e3'
  cases e3'
  have hc3 : c.live i = true := by rw [r3.live]; exact hc2
  have hk0 : (F.prune K.pre).kids i = [] := by
    simp only [Forest.prune, hiK, if_false]
    exact filter_none fun x hx => hK.mem_pre x hx
  have key : ∀ j, t.live j = true → ∀ x ∈ c.attributes j, survives [i] j x = true := by
    intro j hj x hx
    rw [r3.attrs j (by rw [hf.else_.live]; exact hj), hf.attrs j hj] at hx
    exact (List.mem_filter.1 (List.mem_filter.1 hx).1).2
  refine ⟨no_own fun x hx hs => ?_, fun l hl => no_incoming fun x hx hs => ?_, ?_, ?_⟩
  · have := key i hi x hx
    simp only [survives, hs] at this
    simp at this
    exact this.1
  · have := key l (by
      have := h3.link.back i hc3 l hl
      rwa [r3.live, hf.else_.live] at this) x hx
    simp only [survives, hs] at this
    simp at this
    exact this.2
  · rw [d3.shows.first i hc3, hk0]; rfl
  · rw [d3.shows.last i hc3, hk0]; rfl

section steps

variable {g : St → List NodeId} {s t t' : St} {held : List NodeId}

theorem Thinned.removeAttributes {i : NodeId} : ∀ {ns : List AName} {s t : St}, Thinned s t → i ∈ held → (∀ j ∈ held, s.live j = true) →
    t.removeAttributes i ns = .ok t' →
    ∃ s', s.removeAttributesF g held i ns = .ok s' ∧ Thinned s' t' ∧ ∀ j ∈ held, s'.live j = true
  | [], s, t, h, hi, hh, e => by cases e; exact ⟨s, rfl, h, hh⟩
  | n :: ns, s, t, h, hi, hh, e => by
    obtain ⟨u, e1, e2⟩ := bind_ok' e
    obtain ⟨v, f1, h1, l1, _⟩ := h.call (c := .removeAttribute i n) rfl (by simpa [Call.mentions] using hh i hi) e1
    have f1 : s.removeAttribute i n = .ok v := f1
    obtain ⟨h2, _, h4⟩ := h1.collect held (g v)
    obtain ⟨w, f2, h3, h5⟩ := Thinned.removeAttributes h2 hi (fun j hj => h4 j hj (by rw [l1]; exact hh j hj)) e2
    exact ⟨w, by simp only [St.removeAttributesF, f1, bind, Except.bind, f2], h3, h5⟩

theorem Thinned.unlinkIncoming {i : NodeId} : ∀ {ls : List NodeId} {s t : St}, Thinned s t → (∀ j ∈ ls ++ held, s.live j = true) →
    t.unlinkIncoming i ls = .ok t' →
    ∃ s', s.unlinkIncomingF g held i ls = .ok s' ∧ Thinned s' t' ∧ ∀ j ∈ held, s'.live j = true
  | [], s, t, h, hh, e => by cases e; exact ⟨s, rfl, h, hh⟩
  | l :: ls, s, t, h, hh, e => by
    obtain ⟨u, e1, e2⟩ := bind_ok' e
    have hl : t.linkNamesTo l i = s.linkNamesTo l i := by
      simp only [St.linkNamesTo, h.attrs (hh l List.mem_cons_self)]
    rw [hl] at e1
    obtain ⟨v, f1, h1, l1⟩ := h.removeAttributes (g := g) (held := l :: (ls ++ held)) List.mem_cons_self hh e1
    obtain ⟨h2, _, h4⟩ := h1.collect (ls ++ held) (g v)
    obtain ⟨w, f2, h3, h5⟩ := Thinned.unlinkIncoming h2 (fun j hj => h4 j hj (l1 j (List.mem_cons_of_mem _ hj))) e2
    exact ⟨w, by simp only [St.unlinkIncomingF, f1, bind, Except.bind, f2], h3, h5⟩

theorem Thinned.bare {i : NodeId} (h : Thinned s t) (hi : s.live i = true) (hb : Bare t i) : Bare s i := by
  obtain ⟨P, R, X, Y, ho⟩ := h
  obtain ⟨_, hl, _, hf, hla, _, _, _, hk, _⟩ := C97_observe ho hi
  have hat : ∀ j, s.live j = true → t.attributes j = s.attributes j := fun j hj => (Thinned.attrs ⟨P, R, X, Y, ho⟩ hj)
  refine ⟨?_, fun l hm => ?_, by rw [← hf]; exact hb.first, by rw [← hla]; exact hb.last⟩
  · have := hb.own
    rwa [St.ownLinkNames, hat i hi] at this
  · have := hb.incoming l (by rw [hk]; exact hm)
    rwa [St.linkNamesTo, hat l (ho.reach.inv.link.back i hi l hm)] at this

theorem Thinned.childrenNext {it : Children} (h : Thinned s t) (hi : ∀ j ∈ it.handles, s.live j = true) :
    t.childrenNext it = s.childrenNext it := by
  have h1 : t.childrenFinished it = s.childrenFinished it := by
    unfold St.childrenFinished
    cases hb : it.nextBack with
    | none => rfl
    | some nb => simp only [h.nextSibling (hi nb (by simp [Children.handles, hb]))]
  simp only [St.childrenNext, h1]
  cases hn : it.next with
  | none => rfl
  | some n => simp only [h.nextSibling (hi n (by simp [Children.handles, hn]))]

mutual
theorem Thinned.removeAux : ∀ {k : Nat} {held : List NodeId} {s t t' : St} {i : NodeId}, Thinned s t → s.live i = true →
    (∀ j ∈ held, s.live j = true) → St.removeAux k t i = .ok t' →
    ∃ s', St.removeAuxF g held k s i = .ok s' ∧ Thinned s' t' ∧ ∀ j ∈ i :: held, s'.live j = true
  | 0, held, s, t, t', i, h, hi, hh, e => by simp [St.removeAux] at e
  | k + 1, held, s, t, t', i, h, hi, hh, e => by
    rw [St.removeAux] at e
    obtain ⟨a, e1, e⟩ := bind_ok' e
    obtain ⟨b, e2, e⟩ := bind_ok' e
    obtain ⟨c, e3, e⟩ := bind_ok' e
    have hb : Bare c i := by
      obtain ⟨P, R, X, Y, ho⟩ := h
      exact bare_of ho.reach'.inv ho.acyclic' ho.shows'.forest (C97_observe ho hi).1 e1 e2 e3
    have hcr : c.removeNode i = .ok t' := by rw [hb.remove]; exact e
    have hh1 : ∀ j ∈ i :: held, s.live j = true := by
      intro j hj
      rcases List.mem_cons.1 hj with hj | hj
      · rw [hj]; exact hi
      · exact hh j hj
    have hown : t.ownLinkNames i = s.ownLinkNames i := by simp only [St.ownLinkNames, h.attrs hi]
    rw [hown] at e1
    obtain ⟨a', f1, h1, l1⟩ := h.removeAttributes (g := g) (held := i :: held) List.mem_cons_self hh1 e1
    have hlk : a.linkedNodes i = a'.linkedNodes i := by
      obtain ⟨P, R, X, Y, ho⟩ := h1
      exact (C97_observe ho (l1 i List.mem_cons_self)).2.2.2.2.2.2.2.2.1
    rw [hlk] at e2
    obtain ⟨b', f2, h2, l2⟩ := h1.unlinkIncoming (g := g) (held := i :: held) (fun j hj => by
      rcases List.mem_append.1 hj with hj | hj
      · exact h1.reach.inv.link.back i (l1 i List.mem_cons_self) j hj
      · exact l1 j hj) e2
    have hib := l2 i List.mem_cons_self
    have hch : b.children i = b'.children i := by
      obtain ⟨P, R, X, Y, ho⟩ := h2
      obtain ⟨_, _, _, hf, hl, _⟩ := C97_observe ho hib
      simp only [St.children, hf, hl]
    rw [hch] at e3
    obtain ⟨c', f3, h3, l3⟩ := Thinned.removeKids h2 (it := b'.children i) (held := i :: held) (fun j hj => by
      simp only [Children.handles, St.children, List.mem_append, Option.mem_toList] at hj
      rcases hj with hj | hj
      · exact ((C01_neighbours h2.reach hib).2.2.1 hj).1
      · exact ((C01_neighbours h2.reach hib).2.2.2.1 hj).1) l2 e3
    obtain ⟨h4, _, l4⟩ := h3.collect (i :: held) (g c')
    have hic := l4 i List.mem_cons_self (l3 i List.mem_cons_self)
    obtain ⟨d, f5, h5, l5, _⟩ := h4.call (c := .removeNode i) rfl (by simpa [Call.mentions] using hic) hcr
    have f5 : (c'.collect (i :: held) (g c')).removeNode i = .ok d := f5
    rw [(h4.bare hic hb).remove] at f5
    refine ⟨d, ?_, h5, fun j hj => by rw [l5]; exact l4 j hj (l3 j hj)⟩
    rw [St.removeAuxF]
    simp only [f1, f2, f3, bind, Except.bind]
    exact f5
theorem Thinned.removeKids : ∀ {k : Nat} {held : List NodeId} {s t t' : St} {it : Children}, Thinned s t →
    (∀ j ∈ it.handles, s.live j = true) → (∀ j ∈ held, s.live j = true) → St.removeKids k t it = .ok t' →
    ∃ s', St.removeKidsF g held k s it = .ok s' ∧ Thinned s' t' ∧ ∀ j ∈ held, s'.live j = true
  | 0, held, s, t, t', it, h, hi, hh, e => by simp [St.removeKids] at e
  | k + 1, held, s, t, t', it, h, hi, hh, e => by
    rw [St.removeKids, h.childrenNext hi] at e
    rw [St.removeKidsF]
    split at e
    · next x hx => rw [hx]; cases e; exact ⟨s, rfl, h, hh⟩
    · next c it' hx =>
      rw [hx]
      obtain ⟨u, e1, e2⟩ := bind_ok' e
      have hc : it.next = some c ∧ it' = { it with next := s.nextSibling c } := by
        simp only [St.childrenNext] at hx
        split at hx
        · simp at hx
        · split at hx
          · next n hn => cases hx; exact ⟨hn, rfl⟩
          · simp at hx
      have hcl := hi c (by simp [Children.handles, hc.1])
      have hh' : ∀ j ∈ it'.handles ++ held, s.live j = true := by
        intro j hj
        rcases List.mem_append.1 hj with hj | hj
        · rw [hc.2] at hj
          simp only [Children.handles, List.mem_append, Option.mem_toList] at hj
          rcases hj with hj | hj
          · exact ((C01_neighbours h.reach hcl).1 hj).1
          · exact hi j (by simp [Children.handles, hj])
        · exact hh j hj
      obtain ⟨v, f1, h1, l1⟩ := Thinned.removeAux h (held := it'.handles ++ held) hcl hh' e1
      obtain ⟨h2, _, l2⟩ := h1.collect (it'.handles ++ held) (g v)
      have l2' : ∀ j ∈ it'.handles ++ held, (v.collect (it'.handles ++ held) (g v)).live j = true :=
        fun j hj => l2 j hj (l1 j (List.mem_cons_of_mem _ hj))
      obtain ⟨w, f2, h3, l3⟩ := Thinned.removeKids h2 (held := held) (fun j hj => l2' j (List.mem_append_left _ hj))
        (fun j hj => l2' j (List.mem_append_right _ hj)) e2
      exact ⟨w, by simp only [f1, bind, Except.bind, f2], h3, l3⟩
end

theorem Thinned.removeNode {i : NodeId} (h : Thinned s t) (hi : s.live i = true) (hh : ∀ j ∈ held, s.live j = true)
    (e : t.removeNode i = .ok t') :
    ∃ s', s.removeNodeF g held i = .ok s' ∧ Thinned s' t' ∧ ∀ j ∈ i :: held, s'.live j = true := by
  rw [St.removeNode, h.fuel] at e
  exact h.removeAux hi hh e

end steps

end Svgdom
