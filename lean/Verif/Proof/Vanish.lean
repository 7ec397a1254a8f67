import Verif.Spec.Vanish
import Verif.Proof.PictureWritten
import Verif.Props.Users

/-!
# Helper lemmas for C116
-/

set_option autoImplicit false

namespace Svgdom

/-- The nodes of `s` have in `u` the same data, the same place and the same remembered root. -/
theorem oldSame_of {s u : St} {F G : Forest} (h : Reachable s) (ha : s.Acyclic) (hu : Reachable u) (hau : u.Acyclic)
    (hF : Describes s F) (hG : Describes u G) (hr : u.rootId = s.rootId) (live : ∀ j, s.live j = true → u.live j = true)
    (look : ∀ j, s.live j = true → u.look j = s.look j) (detached : ∀ j, s.live j = true → u.isDetached j = s.isDetached j)
    (place : ∀ j, s.live j = true → G.kids j = F.kids j ∧ G.par j = F.par j ∧ G.sibs j = F.sibs j)
    (tops : ∀ j, s.live j = true → (u.links j).root = (s.links j).root) (stored : ∀ j, j ∈ u.slab.nodes ↔ j ∈ s.slab.nodes) :
    OldSame s u := by
  have par : ∀ j, s.live j = true → u.parent j = s.parent j := fun j hj => by
    rw [hG.shows.parent j (live j hj), hF.shows.parent j hj, (place j hj).2.1]
  have lists : ∀ {j}, s.live j = true → ∃ T : Trees, s.edgeList j = .ok T.edges ∧ u.edgeList j = .ok T.edges ∧
      s.descendantList j = .ok T.pre ∧ u.descendantList j = .ok T.pre ∧ ∀ k ∈ T.pre, s.live k = true := fun {j} hj => by
    obtain ⟨T, hT, _, h1, h2⟩ := C07_traverse h ha hF hj
    obtain ⟨U, hU, _, h3, h4⟩ := C07_traverse hu hau hG (live j hj)
    have hl := pre_live hF hT (by simpa using hj)
    cases (hT.congr (G := G) fun k hk => (place k (hl k hk)).1).unique hU
    exact ⟨T, h1, h3, h2, h4, hl⟩
  have A : Alike s u fun j => s.live j = true := by
    refine ⟨fun hi => look _ hi, fun hi a ha n hn => congrArg Look.id (look n (h.inv.link.targets _ hi a ha n hn)), fun {i} hi _ => ?_, hr,
      by obtain ⟨_, hti⟩ := h.inv.tree; exact hti.root, lists⟩
    rw [par i hi]
    cases hp : s.parent i with
    | none => rfl
    | some p =>
      have : u.nodeType p = s.nodeType p := congrArg Look.type (look p ((C01_neighbours h hi).2.2.2.2 hp).1)
      simp only [Option.map_some, St.isRoot, this]
  refine ⟨live, A.dom, look, detached, par, ?_, ?_, ?_, ?_, ?_, ?_, ?_, stored⟩
  · intro j hj; rw [hG.shows.first j (live j hj), hF.shows.first j hj, (place j hj).1]
  · intro j hj; rw [hG.shows.last j (live j hj), hF.shows.last j hj, (place j hj).1]
  · intro j hj; rw [hG.shows.next j (live j hj), hF.shows.next j hj, (place j hj).2.2]
  · intro j hj; rw [hG.shows.prev j (live j hj), hF.shows.prev j hj, (place j hj).2.2]
  · intro j hj
    rw [C06_loop hu hG (live j hj), C06_loop h hF hj, (place j hj).1]
  · intro j hj
    obtain ⟨T, _, _, h1, h2, _⟩ := lists hj
    rw [h1, h2]
  · intro j hj r e
    simp only [St.root] at e ⊢
    rw [tops j hj]
    cases hc : (s.links j).root with
    | none => rw [hc] at e; exact e
    | some q =>
      rw [hc] at e
      simp only [St.upgrade] at e ⊢
      cases hq : s.live q with
      | false => rw [hq] at e; simp at e
      | true => rw [hq] at e; rw [live q hq]; exact e

/-- A part of a list that has every value as often as the list is the list. -/
theorem sublist_eq_of_counts {l m : List NodeId} (h : l.Sublist m) (hc : ∀ i ∈ m, l.count i = m.count i) : l = m := by
  refine h.eq_of_length (List.Perm.length_eq (List.perm_iff_count.2 fun i => ?_))
  by_cases hi : i ∈ m
  · exact hc i hi
  · rw [List.count_eq_zero.2 hi, List.count_eq_zero.2 fun hl => hi (h.subset hl)]

theorem refersTo_plain {v : AttributeValue} : v.plain = false ↔ ∃ k, v.refersTo k = true := by
  cases v <;> simp [AttributeValue.plain, AttributeValue.refersTo]

/-- `remove_node` does not change the remembered roots. -/
theorem removeNode_tops {t u : St} (h : Reachable t) (ha : t.Acyclic) {n : NodeId} (hn : t.live n = true) (e : t.removeNode n = .ok u)
    {j : NodeId} (hj : t.live j = true) (hju : u.live j = true) : (u.links j).root = (t.links j).root := by
  obtain ⟨P, hP⟩ := (C93_picture h).1
  have hm := C93_step h ha hP (.removeNode n)
  cases hs : P.step (.removeNode n) with
  | misuse =>
    unfold Picture.step at hs
    rw [if_pos (by simp [Call.mentions, hP.live, hn])] at hs
    simp [Picture.act] at hs
  | panics => rw [hs] at hm; obtain ⟨p, hp⟩ := hm; change t.removeNode n = _ at hp; rw [e] at hp; cases hp
  | state Q =>
    obtain ⟨u', e', _, _, _, hX⟩ := C96_step (X := ⟨fun i => (t.links i).root, t.linkedNodes⟩) h ha hP ⟨fun _ _ => rfl, fun _ _ => rfl⟩ _ hs
    change t.removeNode n = .ok u' at e'
    rw [e] at e'
    cases e'
    exact (hX.top j hju).symm

section
variable {s t : St} {new : List NodeId} {n : NodeId} {F G : Forest}

/-- New nodes that nobody refers to and that are a subtree are removed. -/
theorem vanish (h : Reachable s) (ha : s.Acyclic) (ht : Reachable t) (hat : t.Acyclic) (hF : Describes s F) (hG : Describes t G)
    (g : Grown s t new) (hn : n ∈ new) (hsub : ∀ j, t.live j = true → (t.InSubtree n j ↔ j ∈ new))
    (place : ∀ j, s.live j = true → G.kids j = F.kids j ∧ G.par j = F.par j ∧ G.sibs j = F.sibs j)
    (tops : ∀ j, s.live j = true → (t.links j).root = (s.links j).root)
    (htg : ∀ m ∈ new, ∀ a ∈ t.attributes m, ∀ k, a.value.refersTo k = true → s.live k = true) :
    ∃ u, t.removeNode n = .ok u ∧ OldSame s u ∧
      (SameUsers s u ↔ ∀ m ∈ new, ∀ a ∈ t.attributes m, a.value.plain = false → a.isSvg = true) := by
  have hnl : t.live n = true := (g.live n).2 (.inr hn)
  obtain ⟨u, S, e, hS, r, hd⟩ := C20_remove ht hat hG hnl
  have hu : Reachable u := .call (.removeNode n) ht (by simpa [Op.handles] using hnl) e
  have hau : u.Acyclic := C05_step_partial ht hat (.removeNode n) (by simpa [Op.handles] using hnl) (by simp [Op.Safe]) e
  have hSn : ∀ j, j ∈ S ↔ j ∈ new := fun j => by
    rw [hS]
    constructor
    · rintro ⟨h1, h2⟩; exact (hsub j h1).1 h2
    · intro hj
      have hl := (g.live j).2 (.inr hj)
      exact ⟨hl, (hsub j hl).2 hj⟩
  have hold : ∀ j, s.live j = true → t.live j = true := fun j hj => (g.live j).2 (.inl hj)
  have hnew : ∀ j ∈ new, s.live j ≠ true := fun j hj hl => by
    have h1 := h.inv.liveBelow j hl
    rw [g.order, List.mem_range'_1] at hj
    exact absurd h1 (Nat.not_lt.2 hj.1)
  have hnS : ∀ j, s.live j = true → j ∉ S := fun j hj hm => hnew j ((hSn j).1 hm) hj
  have hrefs : ∀ j, s.live j = true → ∀ a ∈ s.attributes j, ∀ k, a.value.refersTo k = true → s.live k = true := fun j hj a ha k hk =>
    h.inv.link.targets j hj a ha k (by rwa [refersTo_iff] at hk)
  have hattrs : ∀ j, s.live j = true → u.attributes j = s.attributes j := fun j hj => by
    rw [r.attrs j (hold j hj), g.attrs j hj, List.filter_eq_self]
    intro a ham
    have h1 : (S.any fun n => a.value.refersTo n) = false := by
      rw [List.any_eq_false]
      intro k hk hr
      exact hnS k (hrefs j hj a ham k hr) hk
    simp [survives, hnS j hj, h1]
  have filt : ∀ l : List NodeId, (∀ c ∈ l, s.live c = true) → l.filter (fun c => decide (c ∉ S)) = l := fun l hl => by
    rw [List.filter_eq_self]
    intro c hc
    simpa using hnS c (hl c hc)
  refine ⟨u, e, oldSame_of h ha hu hau hF hd (r.rootId.trans g.rootId) (fun j hj => by rw [r.live]; exact hold j hj) ?_ ?_ ?_ ?_ ?_, ?_⟩
  · intro j hj
    simp only [St.look, r.types, r.tags, r.ids, r.texts, g.types j hj, g.tags j hj, g.ids j hj, g.texts j hj, hattrs j hj]
  · intro j hj
    rw [r.detached, g.detached j hj]
    simp [hnS j hj]
  · intro j hj
    obtain ⟨h1, h2, h3⟩ := place j hj
    refine ⟨?_, ?_, ?_⟩
    · simp only [Forest.prune, hnS j hj, if_false, h1]
      exact filt _ fun c hc => (hF.wf.kids j hj c hc).1
    · simp only [Forest.prune, hnS j hj, if_false, h2]
    · simp only [Forest.prune, hnS j hj, if_false, h3]
      exact filt _ fun c hc => (hF.wf.sib j hj c hc).1
  · intro j hj
    rw [removeNode_tops ht hat hnl e (hold j hj) (by rw [r.live]; exact hold j hj), tops j hj]
  · intro j
    rw [r.stored, g.stored, hSn]
    constructor
    · rintro ⟨h1 | h1, h2⟩
      · exact h1
      · exact absurd h1 h2
    · intro hj
      exact ⟨.inl hj, fun hm => hnew j hm ((C24_slots h).2 j hj)⟩
  -- the users
  have users : ∀ j, s.live j = true → ∃ l, u.linkedNodes j = s.linkedNodes j ++ l ∧ (∀ m ∈ l, m ∈ new) ∧
      ∀ m ∈ new, l.count m = refCount (u.attributes m) j := by
    intro j hj
    have hsl := r.linked j (hold j hj)
    rw [g.linked j hj, List.sublist_append_iff] at hsl
    obtain ⟨l1, l2, e1, s1, s2⟩ := hsl
    have hju : u.live j = true := by rw [r.live]; exact hold j hj
    have hl2 : ∀ i ∈ l2, i ∈ new := fun i hi => by
      have := s2.subset hi
      rw [List.mem_flatMap] at this
      obtain ⟨k, hk, hm⟩ := this
      rw [List.eq_of_mem_replicate hm]
      exact hk
    have hA : ∀ i ∈ s.linkedNodes j, s.live i = true := fun i hi => (C16_alive h hj).1 hi
    have he : l1 = s.linkedNodes j := by
      refine sublist_eq_of_counts s1 fun i hi => ?_
      have hil := hA i hi
      have c1 := C16_count hu (a := i) (b := j) (by rw [r.live]; exact hold i hil) hju
      rw [e1, List.count_append, List.count_eq_zero.2 (fun hm => hnew i (hl2 i hm) hil), hattrs i hil, Nat.add_zero] at c1
      rw [c1, C16_count h hil hj]
    refine ⟨l2, by rw [e1, he], hl2, fun m hm => ?_⟩
    have c1 := C16_count hu (a := m) (b := j) (by rw [r.live]; exact (g.live m).2 (.inr hm)) hju
    rw [e1, List.count_append, List.count_eq_zero.2 (fun hm' => hnew m hm (hA m (s1.subset hm'))), Nat.zero_add] at c1
    exact c1
  have hmem : ∀ m ∈ new, ∀ a, a ∈ u.attributes m ∧ a.value.plain = false ↔ a ∈ t.attributes m ∧ a.value.plain = false ∧ a.isSvg = false := by
    intro m hm a
    rw [r.attrs m ((g.live m).2 (.inr hm)), List.mem_filter]
    simp only [survives, (hSn m).2 hm, decide_true, Bool.true_and]
    constructor
    · rintro ⟨⟨h1, h2⟩, h3⟩
      refine ⟨h1, h3, ?_⟩
      rw [h3] at h2
      simpa using h2
    · rintro ⟨h1, h2, h3⟩
      exact ⟨⟨h1, by simp [h3]⟩, h2⟩
  constructor
  · intro hsame m hm a ham hpl
    by_contra hsv
    obtain ⟨k, hk⟩ := refersTo_plain.1 hpl
    have hkl := htg m hm a ham k hk
    obtain ⟨l, e1, -, e2⟩ := users k hkl
    rw [hsame k hkl] at e1
    have : l = [] := by simpa using e1.symm
    have h0 := e2 m hm
    rw [this, List.count_nil] at h0
    have h1 := ((hmem m hm a).2 ⟨ham, hpl, by simpa using hsv⟩).1
    have h2 := List.length_eq_zero_iff.1 h0.symm
    rw [List.filter_eq_nil_iff] at h2
    exact h2 a h1 hk
  · intro hsvg j hj
    obtain ⟨l, e1, e3, e2⟩ := users j hj
    rw [e1]
    have : l = [] := by
      rw [List.eq_nil_iff_forall_not_mem]
      intro m hml
      have hm := e3 m hml
      have h0 := e2 m hm
      have h1 := List.count_pos_iff.2 hml
      rw [h0] at h1
      obtain ⟨a, haf⟩ := List.exists_mem_of_length_pos h1
      rw [List.mem_filter] at haf
      obtain ⟨h3, h4, h5⟩ := (hmem m hm a).1 ⟨haf.1, refersTo_plain.2 ⟨j, haf.2⟩⟩
      rw [hsvg m hm a h3 h4] at h5
      cases h5
    rw [this, List.append_nil]

end

theorem copyOf_sources {s t : St} : ∀ {T U : Trees}, T.CopyOf s t U → ∀ j ∈ T.pre, ∃ m ∈ U.pre, Copied s t j m
  | .nil, .nil, _, j, hj => by simp [Trees.pre] at hj
  | .cons i K R, .cons n K' R', h, j, hj => by
    obtain ⟨h1, h2, h3⟩ := h
    simp only [Trees.pre, List.mem_cons, List.mem_append] at hj
    rcases hj with rfl | hj | hj
    · exact ⟨n, by simp [Trees.pre], h1⟩
    · obtain ⟨m, hm, c⟩ := copyOf_sources h2 j hj
      exact ⟨m, by simp [Trees.pre, hm], c⟩
    · obtain ⟨m, hm, c⟩ := copyOf_sources h3 j hj
      exact ⟨m, by simp [Trees.pre, hm], c⟩

/-- Copying does not change the remembered roots. -/
theorem grow_tops {s t : St} (h : Reachable s) (ha : s.Acyclic) {c : Call} (hc : ∃ i, c = .copyNode i ∨ c = .copyNodeDeep i)
    (hl : ∀ i ∈ c.mentions, s.live i = true) (e : c.run s = .ok t) {j : NodeId} (hj : s.live j = true) (hjt : t.live j = true) :
    (t.links j).root = (s.links j).root := by
  obtain ⟨P, hP⟩ := (C93_picture h).1
  have hm := C93_step h ha hP c
  cases hs : P.step c with
  | misuse =>
    unfold Picture.step at hs
    rw [if_pos (by rw [List.all_eq_true, hP.live]; exact hl)] at hs
    obtain ⟨i, rfl | rfl⟩ := hc <;> simp only [Picture.act] at hs <;> split at hs <;> cases hs
  | panics => rw [hs] at hm; obtain ⟨p, hp⟩ := hm; rw [e] at hp; cases hp
  | state Q =>
    obtain ⟨u', e', _, _, _, hX⟩ := C96_step (X := ⟨fun i => (s.links i).root, s.linkedNodes⟩) h ha hP ⟨fun _ _ => rfl, fun _ _ => rfl⟩ _ hs
    rw [e] at e'
    cases e'
    have hlt : ¬ P.next ≤ j := by rw [hP.next]; exact Nat.not_le.2 (h.inv.liveBelow j hj)
    have := hX.top j hjt
    obtain ⟨i, rfl | rfl⟩ := hc <;> simp only [Extras.step, Extras.grow, hlt, false_and, if_false] at this <;> exact this.symm

/-- References of a copy are those of the original. -/
theorem copied_refs {s t : St} (h : Reachable s) {new : List NodeId} {P : NodeId → Prop}
    (h1 : ∀ m ∈ new, ∃ j, P j ∧ s.live j = true ∧ Copied s t j m) (h2 : ∀ j, s.live j = true → P j → ∃ m ∈ new, Copied s t j m) :
    (∀ m ∈ new, ∀ a ∈ t.attributes m, ∀ k, a.value.refersTo k = true → s.live k = true) ∧
    ((∀ m ∈ new, ∀ a ∈ t.attributes m, a.value.plain = false → a.isSvg = true) ↔
      ∀ j, s.live j = true → P j → s.nodeType j = .element → ∀ a ∈ s.attributes j, a.value.plain = false → a.isSvg = true) := by
  have hat : ∀ {j m}, Copied s t j m → ∀ a ∈ t.attributes m, s.nodeType j = .element ∧ a ∈ s.attributes j := fun {j m} c a ha => by
    by_cases hty : s.nodeType j = .element
    · exact ⟨hty, by rw [(c.element hty).2.1] at ha; exact ha⟩
    · rw [(c.other hty).2.1] at ha; simp at ha
  refine ⟨fun m hm a ha k hk => ?_, fun hsvg j hj hp hty a ha hpl => ?_, fun hsvg m hm a ha hpl => ?_⟩
  · obtain ⟨j, _, hj, c⟩ := h1 m hm
    exact h.inv.link.targets j hj a (hat c a ha).2 k (by rwa [refersTo_iff] at hk)
  · obtain ⟨m, hm, c⟩ := h2 j hj hp
    exact hsvg m hm a (by rw [(c.element hty).2.1]; exact ha) hpl
  · obtain ⟨j, hp, hj, c⟩ := h1 m hm
    exact hsvg j hj hp (hat c a ha).1 a (hat c a ha).2 hpl

end Svgdom
