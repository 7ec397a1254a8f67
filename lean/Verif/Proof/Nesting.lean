import Verif.Spec.Nesting
import Verif.Props.Release

/-! # Tidy histories -/

set_option autoImplicit false

namespace Svgdom

variable {P : Picture} {s : St}

/-- The forest changes, and nodes that are not stored stay alone. -/
theorem Picture.Tidy.forest (h : P.Tidy) {G : Forest} (hG : ∀ i, P.live i = true → P.stored i = false →
    G.kids i = [] ∧ G.sibs i = [i] ∧ G.par i = none) : Picture.Tidy { P with forest := G } where
  kids := fun i hi hs => (hG i hi hs).1
  sibs := fun i hi hs => (hG i hi hs).2.1
  par := fun i hi hs => (hG i hi hs).2.2
  links := h.links

theorem Picture.Tidy.edit (h : P.Tidy) {i : NodeId} {f : Look → Look}
    (hf : P.live i = true → ∀ a ∈ (f (P.look i)).attrs, ∀ n, a.value.names = some n → a.isSvg = true ∧ P.stored n = true) :
    (P.edit i f).Tidy where
  kids := h.kids
  sibs := h.sibs
  par := h.par
  links := fun j hj a ha n hn => by
    simp only [Picture.edit] at ha
    split at ha
    · next e => subst e; exact hf hj a ha n hn
    · exact h.links j hj a ha n hn

theorem Picture.Tidy.detached (h : P.Tidy) (c : NodeId) {i : NodeId} (hi : P.live i = true) (hs : P.stored i = false) :
    (P.forest.detach c).kids i = [] ∧ (P.forest.detach c).sibs i = [i] ∧ (P.forest.detach c).par i = none := by
  simp only [Forest.detach, h.kids i hi hs, h.sibs i hi hs, h.par i hi hs, List.erase_nil, ite_self, true_and, and_true]
  split
  · next e => rw [e]
  · next e => simp [List.erase_cons, Ne.symm e, e]

theorem attach_alone {F : Forest} {p : Option NodeId} {L : List NodeId} {c i : NodeId} (h : F.kids i = [] ∧ F.sibs i = [i] ∧ F.par i = none)
    (hp : p ≠ some i) (hL : i ∉ L) (hc : i ≠ c) :
    (F.attach p L c).kids i = [] ∧ (F.attach p L c).sibs i = [i] ∧ (F.attach p L c).par i = none := by
  simp only [Forest.attach, hp, hL, hc, if_false]
  exact h

theorem Picture.Tidy.append (h : P.Tidy) (hw : P.forest.WF P.live) {p c : NodeId} (hpl : P.live p = true) (hp : P.stored p = true)
    (hc : P.stored c = true) :
    Picture.Tidy { P with forest := P.forest.append p c } ∧ Picture.Tidy { P with forest := P.forest.prepend p c } := by
  have key : ∀ i, P.live i = true → P.stored i = false → i ≠ p ∧ i ≠ c ∧ i ∉ (P.forest.detach c).kids p := fun i hi hs => by
    refine ⟨fun e => by rw [e, hp] at hs; simp at hs, fun e => by rw [e, hc] at hs; simp at hs, fun hm => ?_⟩
    have := (hw.kids p hpl i (List.mem_of_mem_erase hm)).2
    rw [h.par i hi hs] at this
    simp at this
  constructor
  all_goals
    refine h.forest fun i hi hs => ?_
    obtain ⟨k1, k2, k3⟩ := key i hi hs
    refine attach_alone (h.detached c hi hs) (fun e => k1 (Option.some.inj e).symm) ?_ k2
    simp [k2, k3]

theorem Picture.Tidy.insert (h : P.Tidy) (hw : P.forest.WF P.live) {x y : NodeId} (hxl : P.live x = true) (hne : x ≠ y)
    (hx : P.stored x = true) (hy : P.stored y = true) :
    Picture.Tidy { P with forest := P.forest.insertAfter x y } ∧ Picture.Tidy { P with forest := P.forest.insertBefore x y } := by
  have key : ∀ i, P.live i = true → P.stored i = false → i ≠ x ∧ i ≠ y ∧ i ∉ (P.forest.detach y).sibs x ∧
      (P.forest.detach y).par x ≠ some i := fun i hi hs => by
    refine ⟨fun e => by rw [e, hx] at hs; simp at hs, fun e => by rw [e, hy] at hs; simp at hs, fun hm => ?_, fun e => ?_⟩
    · simp only [Forest.detach, hne, if_false] at hm
      have := (hw.sib x hxl i (List.mem_of_mem_erase hm)).2.1
      rw [h.sibs i hi hs] at this
      have hm := hw.self_mem x hxl
      rw [← this, List.mem_singleton] at hm
      rw [hm, hs] at hx
      simp at hx
    · simp only [Forest.detach, hne, if_false] at e
      have := (hw.par x hxl i e).2
      rw [h.kids i hi hs] at this
      have hm := hw.self_mem x hxl
      rw [← this] at hm
      simp at hm
  constructor
  all_goals
    refine h.forest fun i hi hs => ?_
    obtain ⟨k1, k2, k3, k4⟩ := key i hi hs
    refine attach_alone (h.detached y hi hs) k4 ?_ k2
    have hmx : x ∈ (P.forest.detach y).sibs x := by
      simp only [Forest.detach, hne, if_false]
      exact (List.mem_erase_of_ne hne).2 (hw.self_mem x hxl)
    simp [mem_insAfter hmx, mem_insBefore hmx, k2, k3]

theorem retag_names (name : AName) (v : AttributeValue) : (retag name v).linkNode = v.linkNode := by
  have := stored_linkNode ⟨name, v⟩
  rwa [stored_value] at this

theorem Picture.Tidy.put (h : P.Tidy) {i : NodeId} {a : Attribute} (ha : (a.value.names.all fun n => a.isSvg && P.stored n) = true) :
    (P.put i a).Tidy := by
  refine h.edit fun hi b hb n hn => ?_
  simp only [List.mem_append, List.mem_singleton, List.mem_filter] at hb
  rcases hb with hb | hb
  · exact h.links i hi b hb.1 n hn
  · subst hb
    have : a.value.names = some n := by
      rw [names_eq] at hn ⊢
      rw [← hn]
      exact (retag_names _ _).symm
    rw [this] at ha
    simpa [Attribute.isSvg] using ha

theorem Picture.Tidy.set (h : P.Tidy) {i : NodeId} {a : Attribute} (ha : (a.value.names.all fun n => a.isSvg && P.stored n) = true)
    {Q : Picture} (e : P.set i a = .state Q) : Q.Tidy := by
  unfold Picture.set at e
  split at e
  · simp at e
  · cases e; exact h.put ha

theorem Picture.Tidy.remove (h : P.Tidy) (S : List NodeId) : (P.remove S).Tidy where
  kids := fun i hi hs => by
    simp only [Picture.remove, Bool.and_eq_false_iff, decide_eq_false_iff_not, not_not] at hs
    simp only [Picture.remove, Forest.prune]
    split
    · rfl
    · next hn => rw [h.kids i hi (hs.resolve_right hn)]; rfl
  sibs := fun i hi hs => by
    simp only [Picture.remove, Bool.and_eq_false_iff, decide_eq_false_iff_not, not_not] at hs
    simp only [Picture.remove, Forest.prune]
    split
    · rfl
    · next hn => rw [h.sibs i hi (hs.resolve_right hn)]; simp [hn]
  par := fun i hi hs => by
    simp only [Picture.remove, Bool.and_eq_false_iff, decide_eq_false_iff_not, not_not] at hs
    simp only [Picture.remove, Forest.prune]
    split
    · rfl
    · next hn => exact h.par i hi (hs.resolve_right hn)
  links := fun i hi a ha n hn => by
    simp only [Picture.remove, List.mem_filter] at ha
    obtain ⟨h1, h2⟩ := h.links i hi a ha.1 n hn
    refine ⟨h1, ?_⟩
    simp only [Picture.remove, h2, Bool.true_and, decide_eq_true_eq]
    intro hm
    have := ha.2
    rw [names_eq] at hn
    simp only [survives, h1, Bool.true_and, Bool.not_eq_true', Bool.or_eq_false_iff, List.any_eq_false] at this
    exact this.2 n hm (refersTo_iff.2 hn)

theorem Picture.Tidy.add (h : P.Tidy) {d : Look} (hd : ∀ a ∈ d.attrs, ∀ n, a.value.names = some n → a.isSvg = true ∧ P.stored n = true) :
    (P.add d).Tidy := by
  have key : ∀ i, (P.add d).live i = true → (P.add d).stored i = false → i ≠ P.next ∧ P.live i = true ∧ P.stored i = false :=
    fun i hi hs => by
      simp only [Picture.add, Bool.or_eq_true, decide_eq_true_eq, Bool.or_eq_false_iff, decide_eq_false_iff_not] at hi hs
      exact ⟨hs.1, hi.resolve_left hs.1, hs.2⟩
  refine ⟨fun i hi hs => ?_, fun i hi hs => ?_, fun i hi hs => ?_, fun i hi a ha n hn => ?_⟩
  · obtain ⟨k1, k2, k3⟩ := key i hi hs
    simp only [Picture.add, Forest.add, k1, if_false]; exact h.kids i k2 k3
  · obtain ⟨k1, k2, k3⟩ := key i hi hs
    simp only [Picture.add, Forest.add, k1, if_false]; exact h.sibs i k2 k3
  · obtain ⟨k1, k2, k3⟩ := key i hi hs
    simp only [Picture.add, Forest.add, k1, if_false]; exact h.par i k2 k3
  · simp only [Picture.add] at ha hi ⊢
    split at ha
    · have := hd a ha n hn
      simp [this.1, this.2]
    · next hne =>
      simp only [hne, decide_false, Bool.false_or] at hi
      have := h.links i hi a ha n hn
      simp [this.1, this.2]

theorem Picture.Tidy.copyOf (h : P.Tidy) {i : NodeId} (hi : P.live i = true) :
    ∀ a ∈ (Picture.copyOf (P.look i)).attrs, ∀ n, a.value.names = some n → a.isSvg = true ∧ P.stored n = true := by
  intro a ha n hn
  unfold Picture.copyOf at ha
  split at ha
  · exact h.links i hi a ha n hn
  · simp at ha

theorem Picture.Tidy.copyDeep (h : P.Tidy) {i : NodeId} (hb : ∀ j, P.live j = true → j < P.next) (hl : ∀ j ∈ P.subtree i, P.live j = true) :
    (P.copyDeep i).Tidy := by
  have key : ∀ j, (P.copyDeep i).live j = true → (P.copyDeep i).stored j = false → ¬ P.next ≤ j ∧ P.live j = true ∧ P.stored j = false :=
    fun j hj hs => by
      simp only [Picture.copyDeep, Bool.or_eq_true, Bool.or_eq_false_iff] at hj hs
      have := hj.resolve_left (by rw [hs.1]; simp)
      exact ⟨Nat.not_le.2 (hb j this), this, hs.2⟩
  refine ⟨fun j hj hs => ?_, fun j hj hs => ?_, fun j hj hs => ?_, fun j hj a ha n hn => ?_⟩
  · obtain ⟨k1, k2, k3⟩ := key j hj hs
    simp only [Picture.copyDeep, k1, if_false]
    split <;> exact h.kids j k2 k3
  · obtain ⟨k1, k2, k3⟩ := key j hj hs
    simp only [Picture.copyDeep, k1, if_false]
    split <;> exact h.sibs j k2 k3
  · obtain ⟨k1, k2, k3⟩ := key j hj hs
    simp only [Picture.copyDeep, k1, if_false]
    split <;> exact h.par j k2 k3
  · have : a.isSvg = true ∧ P.stored n = true := by
      simp only [Picture.copyDeep, Bool.or_eq_true, Bool.and_eq_true, decide_eq_true_eq] at hj
      simp only [Picture.copyDeep] at ha
      split at ha
      · next o ho =>
        split at ha
        · exact h.copyOf (hl o (List.mem_of_getElem? ho)) a ha n hn
        · next hlt => exact h.links j (hj.resolve_left fun hh => hlt hh.1) a ha n hn
      · next ho =>
        refine h.links j (hj.resolve_left fun hh => ?_) a ha n hn
        rw [List.getElem?_eq_none_iff] at ho
        have key : ∀ a n l : Nat, n ≤ a → a < n + l → l ≤ a - n → False := by omega
        exact key j _ _ hh.1 hh.2 ho
    refine ⟨this.1, ?_⟩
    simp [Picture.copyDeep, this.2]

theorem Picture.Tidy.release (h : P.Tidy) (i : NodeId) : (P.release i).Tidy := by
  unfold Picture.release
  split
  · exact h
  · refine ⟨fun j hj hs => ?_, fun j hj hs => ?_, fun j hj hs => ?_, fun j hj a ha n hn => ?_⟩
    all_goals simp only [Bool.and_eq_true, decide_eq_true_eq] at hj
    · exact h.kids j hj.1 hs
    · simp only [Forest.drop, h.sibs j hj.1 hs]
      simp [hj.2]
    · simp only [Forest.drop, h.par j hj.1 hs]
      simp
    · exact h.links j hj.1 a ha n hn

theorem tidy_move {x y : NodeId} {G : Forest} {Q : Picture}
    (hG : x ≠ y → Picture.Tidy { P with forest := G }) (e : P.move x y G = .state Q) : Q.Tidy := by
  unfold Picture.move at e
  split at e
  · simp at e
  · next hne =>
    split at e
    · simp at e
    · split at e
      · simp at e
      · cases e; exact hG hne

/-- Tidy calls keep the document tidy. -/
theorem Picture.Tidy.step (h : P.Tidy) (hr : Reachable s) (ha : s.Acyclic) (hP : Abs s P) {c : Call} (hc : c.tidy P = true) {Q : Picture}
    (e : P.step c = .state Q) : Q.Tidy := by
  have hw : P.forest.WF P.live := by rw [hP.live]; exact hP.forest.wf
  unfold Picture.step at e
  split at e
  case isFalse => simp at e
  next hm =>
  rw [List.all_eq_true] at hm
  cases c with
  | createElement tag =>
    simp only [Picture.act] at e
    split at e
    · simp at e
    · cases e; exact h.add (by simp)
  | createNode ty text =>
    simp only [Picture.act] at e
    split at e
    · simp at e
    · cases e; exact h.add (by simp)
  | append p c =>
    simp only [Call.tidy, Bool.and_eq_true] at hc
    exact tidy_move (fun _ => (h.append hw (hm p (by simp [Call.mentions])) hc.1 hc.2).1) e
  | prepend p c =>
    simp only [Call.tidy, Bool.and_eq_true] at hc
    exact tidy_move (fun _ => (h.append hw (hm p (by simp [Call.mentions])) hc.1 hc.2).2) e
  | insertAfter x y =>
    simp only [Call.tidy, Bool.and_eq_true] at hc
    exact tidy_move (fun hne => (h.insert hw (hm x (by simp [Call.mentions])) hne hc.1 hc.2).1) e
  | insertBefore x y =>
    simp only [Call.tidy, Bool.and_eq_true] at hc
    exact tidy_move (fun hne => (h.insert hw (hm x (by simp [Call.mentions])) hne hc.1 hc.2).2) e
  | detach i =>
    cases e
    exact h.forest fun j hj hs => h.detached i hj hs
  | setText i t =>
    simp only [Picture.act] at e
    split at e
    · simp at e
    · cases e; exact h.edit fun hi => h.links i hi
  | setId i id =>
    simp only [Picture.act] at e
    split at e
    · simp at e
    · cases e; exact h.edit fun hi => h.links i hi
  | setTagName i t =>
    simp only [Picture.act] at e
    split at e
    · simp at e
    · cases e; exact h.edit fun hi => h.links i hi
  | setAttribute i a => exact h.set hc e
  | setAttributeChecked i a =>
    simp only [Picture.act] at e
    split at e
    · simp at e
    · split at e
      · cases e; exact h
      · cases e; exact h.put hc
  | setAttributeIfNone i a =>
    simp only [Picture.act] at e
    split at e
    · cases e; exact h
    · exact h.set hc e
  | removeAttribute i name =>
    cases e
    exact h.edit fun hi a ha => h.links i hi a (List.mem_of_mem_filter ha)
  | removeNode i => cases e; exact h.remove _
  | drain i f => cases e; exact h.remove _
  | copyNode i =>
    simp only [Picture.act] at e
    split at e
    · cases e; exact h.add (h.copyOf (hm i (by simp [Call.mentions])))
    · simp at e
  | copyNodeDeep i =>
    simp only [Picture.act] at e
    split at e
    · cases e
      have hi := hm i (by simp [Call.mentions])
      refine h.copyDeep (fun j hj => ?_) fun j hj => ?_
      · rw [hP.live] at hj; rw [hP.next]; exact hr.inv.liveBelow j hj
      · rw [hP.live] at hi ⊢; exact ((hP.mem_subtree hr ha hi j).1 hj).1
    · simp at e
  | editText i t => cases e; exact h.edit fun hi => h.links i hi
  | editAttribute i name a =>
    simp only [Picture.act] at e
    split at e
    · next hrep =>
      cases e
      refine h.edit fun hi b hb n hn => ?_
      simp only [List.mem_map] at hb
      obtain ⟨b', hb', hb⟩ := hb
      split at hb
      · next hname =>
        subst hb
        simp only [Picture.replaces, Bool.and_eq_true, List.all_eq_true, Bool.or_eq_true, decide_eq_true_eq] at hrep
        rcases hrep.1 b' hb' with (h1 | h1) | h1
        · exact absurd hname h1
        · rw [h1.2] at hn; simp at hn
        · obtain ⟨h1, h2⟩ := h1
          have hsame : b'.value.names = a.value.names := by
            revert h2
            cases b'.value <;> cases a.value <;> simp [AttributeValue.names]
          have := h.links i hi b' hb' n (by rw [hsame]; exact hn)
          refine ⟨?_, this.2⟩
          simpa [Attribute.isSvg, hname, h1] using this.1
      · subst hb; exact h.links i hi b' hb' n hn
    · simp at e
  | release i => cases e; exact h.release i

/-- A node to which nothing refers holds nothing. -/
theorem Picture.Tidy.holds (h : P.Tidy) (hr : Reachable s) (hP : Abs s P) {i j : NodeId} (hn : ¬ s.strongRef i) : ¬ s.Holds i j := by
  rintro ⟨hi, hh⟩
  have hi' : P.live i = true := by rw [hP.live]; exact hi
  have hst : P.stored i = false := by
    rw [hP.stored i hi]
    by_contra hc
    exact hn (.inr (.inl ((C24_detached hr hi).1 (by simpa using hc))))
  rcases hh with hh | hh | hh | ⟨a, ha, hh⟩
  · rw [hP.forest.shows.first i hi, h.kids i hi' hst] at hh; simp at hh
  · rw [hP.forest.shows.next i hi, h.sibs i hi' hst] at hh; simp [after] at hh
  · have hj := hr.inv.link.back i hi j hh
    have hl : s.LinksTo j i := by
      rw [linksTo_iff, ← hr.inv.link.count j i hj hi]
      exact List.count_pos_iff.2 hh
    obtain ⟨a, ha, hl⟩ := hl
    have := (h.links j (by rw [hP.live]; exact hj) a (by rw [hP.look j hj]; exact ha) i (by rw [names_eq]; exact refersTo_iff.1 hl)).2
    rw [hst] at this
    simp at this
  · have hj := hr.inv.link.targets i hi a ha j hh
    refine hn (.inr (.inr ⟨j, hj, .inr (.inr (.inl ?_))⟩))
    rw [← List.count_pos_iff, hr.inv.link.count i j hi hj, refs_pos]
    exact ⟨a, ha, hh⟩

end Svgdom
