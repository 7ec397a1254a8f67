import Verif.Proof.Memory
import Verif.Proof.World
import Verif.Props.Parse

/-!
# C72, C73: memory is given back
-/

set_option autoImplicit false

namespace Svgdom

/-! ## C72 -/

/-- C72 is false without restriction: a removed node can keep a link under a name that is not an SVG name. The node and its
target then hold each other, and neither is ever freed. -/
theorem C72_refuted : ∃ s t, Reachable s ∧ s.Acyclic ∧ s.dropDocument = .ok t ∧ t.live 2 = true ∧ t.live 3 = true ∧
    ∀ u, Freed t u → u.live 2 = true ∧ u.live 3 = true := by
  obtain ⟨s, h, e⟩ := exists_of_holds
    (ops := [.createElement (.id .Svg), .createElement (.id .Rect), .createElement (.id .LinearGradient), .append 0 1,
      .append 1 2, .append 1 3, .setId 3 ['g'], .setAttribute 2 ⟨.name ['x'], .link 3⟩, .removeNode 1])
    (p := fun s => s.acyclicB s.nextId && okAnd s.dropDocument (fun t => t.live 2 && t.live 3 &&
      ((t.attributes 2).any fun a => decide (a.value.linkNode = some 3)) && decide (2 ∈ t.linkedNodes 3))) (by decide +kernel)
  simp only [Bool.and_eq_true, decide_eq_true_eq, List.any_eq_true, okAnd_iff] at e
  obtain ⟨h1, t, ht, ⟨⟨h2, h3⟩, h4⟩, h5⟩ := e
  refine ⟨s, t, h, acyclic_of_check h.inv.liveBelow h1, ht, h2, h3, ?_⟩
  intro u hu
  have key : u.live 2 = true ∧ u.live 3 = true ∧ u.data = t.data := by
    induction hu with
    | refl => exact ⟨h2, h3, rfl⟩
    | @step v i _ hi hr ih =>
      obtain ⟨i2, i3, id⟩ := ih
      have hat : v.attributes 2 = t.attributes 2 := by simp [St.attributes, id]
      have hln : v.linkedNodes 3 = t.linkedNodes 3 := by simp [St.linkedNodes, id]
      have n2 : 2 ≠ i := by
        rintro rfl
        exact hr ⟨3, i3, Or.inr (Or.inr (Or.inl (by rw [hln]; exact h5)))⟩
      have n3 : 3 ≠ i := by
        rintro rfl
        exact hr ⟨2, i2, Or.inr (Or.inr (Or.inr (by rw [hat]; exact h4)))⟩
      exact ⟨by simp [St.free, n2, i2], by simp [St.free, n3, i3], id⟩
  exact ⟨key.1, key.2.1⟩

/-- C72: if links are only between nodes that the document stores, then after the document and all handles are dropped every node
is freed, whatever was removed, moved or detached before. -/
theorem C72_partial {s : St} (h : Reachable s) (ha : s.Acyclic)
    (hl : ∀ i j, s.live i = true → s.LinksTo i j → s.isDetached i = false ∧ s.isDetached j = false) :
    ∃ t u, s.dropDocument = .ok t ∧ Freed t u ∧ ∀ j, u.live j = false := by
  obtain ⟨F, hF⟩ := C01_forest h
  have hst := (C24_slots h).2
  have hdr : Droppable s F := ⟨h.inv.reps hF, fun i hi hp => ha i hi (.single (by rw [St.Up, hF.shows.parent i hi]; exact hp))⟩
  obtain ⟨t, G, e, hG, hlv, hsl, hd, hg⟩ := dropLoop_ok hdr hst
  obtain ⟨F0, hT⟩ := h.inv.tree
  obtain ⟨⟨G0, hG0⟩, _, _, _⟩ := dropLoop_heap hT.heap hst e
  have hac : t.Acyclic := by
    refine acyclic_sub ha (fun i hi => by rw [hlv] at hi; exact hi) (fun j p hj hp => ?_)
    rw [hlv] at hj
    have hjt : t.live j = true := by rw [hlv]; exact hj
    have hpl : s.live p = true := by rw [← hlv]; exact up_live hp
    rw [hG.reps.shows.parent j hjt] at hp
    have hk := (hG.reps.wf.par j hjt p hp).2
    have hm := hG.reps.wf.self_mem j hjt
    rw [← hk, (hg p hpl).2.2, List.mem_filter] at hm
    rw [hF.shows.parent j hj]
    exact (hF.wf.kids p hpl j hm.1).2
  have hu : t.Unlinked := by
    intro i hi
    rw [hlv] at hi
    by_cases hs : i ∈ s.slab.nodes
    · constructor
      · simp [St.linkedNodes, hd, hs]
      · simp [St.attributes, hd, hs]
    · have hno : ¬ s.isDetached i = false := fun hh => hs ((C24_detached h hi).1 hh)
      constructor
      · simp only [St.linkedNodes, hd, hs, if_false]
        rw [List.eq_nil_iff_forall_not_mem]
        intro j hj
        have hjl := h.inv.link.back i hi j hj
        refine hno (hl j i hjl ?_).2
        rw [linksTo_iff, ← h.inv.link.count j i hjl hi, List.count_pos_iff]
        exact hj
      · intro a ham
        simp only [St.attributes, hd, hs, if_false] at ham
        cases hlk : a.value.linkNode with
        | none => rfl
        | some j => exact absurd (hl i j hi ⟨a, ham, refersTo_iff.2 hlk⟩).1 hno
  obtain ⟨u, hu1, hu2⟩ := all_freed _ hG0 hac hu (Nat.le_refl _)
  exact ⟨t, u, e, hu1, hu2⟩

/-- A removed node, a node never put into the tree, and a link between document nodes. -/
example : ∃ s, Reachable s ∧ s.Acyclic ∧ s.live 4 = true ∧ s.isDetached 4 = true ∧ s.live 5 = true ∧ s.parent 5 = none ∧ s.LinksTo 2 3 ∧
    ∀ i j, s.live i = true → s.LinksTo i j → s.isDetached i = false ∧ s.isDetached j = false := by
  obtain ⟨s, h, e⟩ := exists_of_holds
    (ops := [.createElement (.id .Svg), .createElement (.id .Rect), .createElement (.id .LinearGradient), .createElement (.id .G),
      .createElement (.id .G), .append 0 1, .append 1 2, .append 1 3, .append 2 4, .setId 3 ['g'],
      .setAttribute 2 ⟨.name ['x'], .link 3⟩, .removeNode 4])
    (p := fun s => s.acyclicB s.nextId && s.live 4 && s.isDetached 4 && s.live 5 && decide (s.parent 5 = none) &&
      ((s.attributes 2).any fun a => a.value.refersTo 3) && decide (s.nextId = 6) &&
      (List.range 6).all fun i => (s.attributes i).all fun a => match a.value.linkNode with
        | none => true
        | some j => decide (s.isDetached i = false) && decide (s.isDetached j = false)) (by decide +kernel)
  simp only [Bool.and_eq_true, decide_eq_true_eq, List.any_eq_true, List.all_eq_true] at e
  obtain ⟨⟨⟨⟨⟨⟨⟨h1, h2⟩, h3⟩, h4⟩, h5⟩, h6⟩, h7⟩, h8⟩ := e
  refine ⟨s, h, acyclic_of_check h.inv.liveBelow h1, h2, h3, h4, h5, h6, ?_⟩
  rintro i j hi ⟨a, ha, hr⟩
  have := h8 i (by rw [List.mem_range, ← h7]; exact h.inv.liveBelow i hi) a ha
  rw [refersTo_iff.1 hr] at this
  simpa using this

/-- C72 exactly: after any calls and the drop of the document and of all handles, every node is freed if and only if the references
between nodes have no cycle. -/
theorem C72_cycle {t : St} (hb : ∀ i, t.live i = true → i < t.nextId) :
    (∃ u, Freed t u ∧ ∀ j, u.live j = false) ↔ ¬ ∃ i, Relation.TransGen t.Holds i i := by
  constructor
  · rintro ⟨u, hu, hd⟩ ⟨i, hi⟩
    have := cycle_stays hi hu i hi hi
    rw [hd] at this
    simp at this
  · intro hc
    exact all_freed_acyclic _ hb (fun i _ h => hc ⟨i, h⟩) (Nat.le_refl _)

/-- Nodes removed during parsing are alone; all references of a parsed document are made by attributes with SVG names and point to nodes
of the document. -/
theorem parsed_tidy {L : Lib} {debug : Bool} {x : Xml} {s : St} (e : parseSvg L debug x = .ok s) :
    ∃ F, Describes s F ∧ (∀ n, s.live n = true → n ∉ s.slab.nodes → F.par n = none ∧ F.sibs n = [n] ∧ F.kids n = []) ∧
      ∀ i, s.live i = true → ∀ a ∈ s.attributes i, ∀ n, a.value.linkNode = some n → a.isSvg = true ∧ n ∈ s.slab.nodes := by
  have h : Reachable s := (C44_reachable e).1.reachable
  obtain ⟨_, p, T, G, s2, s3, w, f, hp⟩ := parse_ok e
  have halone : ∀ n, s.live n = true → n ∉ s.slab.nodes →
      n ∈ T.gone p.dom.styleNode ∨ n ∈ (T.keep p.dom.styleNode).pre.filter w.emptyText := by
    intro n hn hs
    rw [hp.removed.stored, hp.ti.slab, f.resolves.same.slab, f.removed.stored, f.adds.grown.stored] at hs
    have hn' : s3.live n = true := by rw [← hp.ti.live, ← hp.removed.live]; exact hn
    by_cases h1 : n ∈ (T.keep p.dom.styleNode).pre.filter w.emptyText
    · exact .inr h1
    by_cases h2 : n ∈ T.gone p.dom.styleNode
    · exact .inl h2
    exfalso
    refine hs ⟨⟨?_, h2⟩, h1⟩
    rcases (front_live f).1 hn' with rfl | hm
    · left; rw [f.root]; simp [St.init, Slab.nodes]
    · right; exact hm
  refine ⟨_, hp.desc, fun n hn hs => ?_, fun i hi a ham n hr => ?_⟩
  · by_cases h1 : n ∈ (T.keep p.dom.styleNode).pre.filter w.emptyText
    · simp only [Forest.prune, h1, if_true, true_and]
    · rcases halone n hn hs with h2 | h2
      · simp only [Forest.prune, h1, h2, if_true, if_false, true_and, List.filter_nil, and_true]
        rw [List.filter_cons_of_pos (by simp only [decide_eq_true_eq]; exact h1)]; rfl
      · exact absurd h2 h1
  · have hnl := h.inv.link.targets i hi a ham n hr
    have hi3 : s3.live i = true := by rw [← hp.ti.live, ← hp.removed.live]; exact hi
    rw [hp.attrs i hi3] at ham
    obtain ⟨l, _, _, h0, h1, _, h2, _⟩ := front_target f hi3 ham hr
    refine ⟨by simp [Attribute.isSvg, h0], ?_⟩
    by_contra hs
    rcases List.mem_cons.1 h1 with rfl | h1
    · refine hs ((C44_members e hnl).1.2 (.inl ?_))
      rw [hp.removed.rootId, hp.ti.rootId, f.root3]
    · rcases halone n hnl hs with h3 | h3
      · rw [f.pre2] at h1
        simp [h3] at h1
      · rcases f.is2.node f.of2 n h1 with h4 | h4
        · have h5 := (List.mem_filter.1 h3).2
          simp only [St.emptyText, St.isText, hp.ti.types, f.resolves.same.types, h4.1] at h5
          simp at h5
        · rw [f.resolves.same.ids, h4.2.2.1] at h2
          exact h2 rfl

/-- If nodes outside of the document are alone and only refer to nodes of the document, then after the drop of the document only such nodes
hold references, and only to nodes of the document. -/
theorem drop_holds {s : St} {F : Forest} (h : Reachable s) (ha : s.Acyclic) (hF : Describes s F)
    (hpar : ∀ n, s.live n = true → n ∉ s.slab.nodes → F.par n = none ∧ F.sibs n = [n] ∧ F.kids n = [])
    (hlinks : ∀ i, s.live i = true → ∀ a ∈ s.attributes i, ∀ n, a.value.linkNode = some n → n ∈ s.slab.nodes) :
    ∃ t, s.dropDocument = .ok t ∧ (∀ i, t.live i = true → i < t.nextId) ∧ (∀ i, t.live i = s.live i) ∧
      ∀ j n, t.Holds j n → j ∉ s.slab.nodes ∧ n ∈ s.slab.nodes := by
  have hst := (C24_slots h).2
  have hdr : Droppable s _ := ⟨h.inv.reps hF, fun i hi hh => ha i hi (.single (by rw [St.Up, hF.shows.parent i hi]; exact hh))⟩
  obtain ⟨t, F', e', hG, hlv, hsl, hd, hg⟩ := dropLoop_ok hdr hst
  obtain ⟨F0, hT⟩ := h.inv.tree
  obtain ⟨⟨G0, hG0⟩, _, _, _⟩ := dropLoop_heap hT.heap hst e'
  refine ⟨t, e', hG0.liveBelow, fun i => by rw [hlv], ?_⟩
  have hsib : ∀ n, s.live n = true → F'.sibs n = [n] := by
    intro n hn
    by_cases hs : n ∈ s.slab.nodes
    · exact ((hg n hn).2.1 hs).2
    · obtain ⟨h1, h2, _⟩ := hpar n hn hs
      exact ((hg n hn).1 h1 h2).2
  have hkids : ∀ n, s.live n = true → F'.kids n = [] := by
    intro n hn
    rw [(hg n hn).2.2, List.filter_eq_nil_iff]
    intro c hc
    simp only [decide_eq_true_eq, not_not]
    by_contra hs
    obtain ⟨k1, k2⟩ := hF.wf.kids n hn c hc
    rw [(hpar c k1 hs).1] at k2
    simp at k2
  rintro j n ⟨hj, hh⟩
  have hjs : s.live j = true := by rw [← hlv]; exact hj
  rcases hh with hh | hh | hh | ⟨a, ham, hh⟩
  · rw [hG.reps.shows.first j hj, hkids j hjs] at hh; simp at hh
  · rw [hG.reps.shows.next j hj, hsib j hjs] at hh; simp [after] at hh
  · simp only [St.linkedNodes, hd] at hh
    split at hh
    · simp at hh
    · next hs =>
      have hnl := h.inv.link.back j hjs n hh
      have hl : s.LinksTo n j := by
        rw [linksTo_iff, ← h.inv.link.count n j hnl hjs]
        exact List.count_pos_iff.2 hh
      obtain ⟨a, ham, hl⟩ := hl
      exact absurd (hlinks n hnl a ham j (refersTo_iff.1 hl)) hs
  · simp only [St.attributes, hd] at ham
    split at ham
    · simp at ham
    · next hs => exact ⟨hs, hlinks j hjs a ham n hh⟩

/-- C72 for parsed documents, without restriction: dropping a parsed document frees every node that was made, those removed during
parsing included. -/
theorem C72_parsed {L : Lib} {debug : Bool} {x : Xml} {s : St} (e : parseSvg L debug x = .ok s) :
    ∃ t u, s.dropDocument = .ok t ∧ Freed t u ∧ ∀ j, u.live j = false := by
  obtain ⟨F, hF, h1, h2⟩ := parsed_tidy e
  obtain ⟨t, e', hb, _, hh⟩ := drop_holds (C44_reachable e).1.reachable (C44_tree e).2 hF h1 fun i hi a ha n hn => (h2 i hi a ha n hn).2
  obtain ⟨u, hu1, hu2⟩ := (C72_cycle hb).2 (by
    rintro ⟨i, hi⟩
    obtain ⟨c, h1, _⟩ := Relation.TransGen.head'_iff.1 hi
    obtain ⟨d, _, h2⟩ := Relation.TransGen.tail'_iff.1 hi
    exact (hh i c h1).1 (hh d i h2).2)
  exact ⟨t, u, e', hu1, hu2⟩

/-- The document of C50: a node removed during parsing holds a reference to a node of the document. -/
example : ∃ s, parseSvg sampleLib true styleRefXml = .ok s ∧ s.live 4 = true ∧ s.isDetached 4 = true ∧ s.LinksTo 4 2 := by
  obtain ⟨t, e, hp⟩ := exists_of_parsed (x := styleRefXml) (p := fun t => t.live 4 && t.isDetached 4 &&
    ((t.attributes 4).any fun a => a.value.refersTo 2)) (by decide +kernel)
  simp only [Bool.and_eq_true, List.any_eq_true] at hp
  exact ⟨t, e, hp.1.1, hp.1.2, hp.2⟩

/-! ## C73 -/

/-- C73 is false without restriction, for the same reason as C72: the removed nodes 2 and 3 refer to each other. -/
theorem C73_refuted : ∃ s t, Reachable s ∧ s.Acyclic ∧ s.live 1 = true ∧ s.removeNode 1 = .ok t ∧ s.InSubtree 1 2 ∧ s.InSubtree 1 3 ∧
    t.strongRef 2 ∧ t.strongRef 3 := by
  obtain ⟨s, h, e⟩ := exists_of_holds
    (ops := [.createElement (.id .Svg), .createElement (.id .Rect), .createElement (.id .LinearGradient), .append 0 1,
      .append 1 2, .append 1 3, .setId 3 ['g'], .setAttribute 2 ⟨.name ['x'], .link 3⟩])
    (p := fun s => s.acyclicB s.nextId && s.live 1 && decide (s.parent 2 = some 1) && decide (s.parent 3 = some 1) &&
      okAnd (s.removeNode 1) (fun t => t.live 2 && t.live 3 &&
      ((t.attributes 2).any fun a => decide (a.value.linkNode = some 3)) && decide (2 ∈ t.linkedNodes 3))) (by decide +kernel)
  simp only [Bool.and_eq_true, decide_eq_true_eq, List.any_eq_true, okAnd_iff] at e
  obtain ⟨⟨⟨⟨h1, hl⟩, p2⟩, p3⟩, t, ht, ⟨⟨h2, h3⟩, h4⟩, h5⟩ := e
  exact ⟨s, t, h, acyclic_of_check h.inv.liveBelow h1, hl, ht, .single p2, .single p3,
    .inr (.inr ⟨3, h3, .inr (.inr (.inl h5))⟩), .inr (.inr ⟨2, h2, .inr (.inr (.inr h4))⟩)⟩

/-- C73: if all link attributes have SVG names, nothing refers to the nodes that `remove_node` removed: each is freed when the
program drops its handles, and nothing else keeps it alive. -/
theorem C73_partial {s t : St} (h : Reachable s) (ha : s.Acyclic) {i : NodeId} (hi : s.live i = true)
    (hr : ¬ s.InSubtree i s.rootId)
    (hsvg : ∀ j, s.live j = true → ∀ a ∈ s.attributes j, a.value.plain = false → a.isSvg = true)
    (e : s.removeNode i = .ok t) {n : NodeId} (hn : s.live n = true) (hin : s.InSubtree i n) : ¬ t.strongRef n := by
  obtain ⟨F, hF⟩ := C01_forest h
  obtain ⟨t', S, e', hS, hrm, hd⟩ := C20_remove h ha hF hi
  rw [e] at e'; cases e'
  obtain ⟨q1, _, _, q4⟩ := C19_remove_partial h ha hi hsvg e hn hin
  have hnS : n ∈ S := (hS n).2 ⟨hn, hin⟩
  have hlv : ∀ j, t.live j = s.live j := fun j => by rw [hrm.live]
  rintro (hh | hh | ⟨j, hj, hh⟩)
  · rw [hh, hrm.rootId] at hin; exact hr hin
  · exact ((hrm.stored n).1 hh).2 hnS
  · have hjs : s.live j = true := by rw [← hlv]; exact hj
    have hnt : t.live n = true := by rw [hlv]; exact hn
    rcases hh with hh | hh | hh | ⟨a, ham, hh⟩
    · rw [hd.shows.first j hj] at hh
      have := (hd.wf.kids j hj n (List.mem_of_mem_head? hh)).2
      simp [Forest.prune, hnS] at this
    · rw [hd.shows.next j hj] at hh
      have hs := (hd.wf.sib j hj n (after_mem hh)).2.1
      have hm := hd.wf.self_mem j hj
      rw [← hs] at hm hh
      simp only [Forest.prune, hnS, if_true, List.mem_singleton] at hm hh
      subst hm
      simp [after] at hh
    · exact q4 j hjs hh
    · exact q1 j hjs ⟨a, ham, refersTo_iff.2 hh⟩

/-- A subtree with references inside, into and out of it. -/
example : ∃ s t, Reachable s ∧ s.Acyclic ∧ s.live 2 = true ∧ ¬ s.InSubtree 2 s.rootId ∧
    (∀ j, s.live j = true → ∀ a ∈ s.attributes j, a.value.plain = false → a.isSvg = true) ∧ s.removeNode 2 = .ok t ∧
    s.LinksTo 6 3 ∧ s.LinksTo 5 6 ∧ s.InSubtree 2 5 ∧ ¬ t.strongRef 5 := by
  obtain ⟨s, h, e⟩ := exists_of_holds (ops := removeHistory) (p := fun s => s.live 2 && s.live 5 && s.acyclicB s.nextId &&
    (decide (s.nextId = 7) && ((List.range 7).all fun j => (s.attributes j).all fun a => a.value.plain || a.isSvg)) &&
    ((s.attributes 6).any fun a => a.value.refersTo 3) && ((s.attributes 5).any fun a => a.value.refersTo 6) &&
    (decide (s.parent 5 = some 2) && decide (s.parent s.rootId = none) && decide (s.rootId ≠ 2))) (by decide +kernel)
  simp only [Bool.and_eq_true, decide_eq_true_eq, List.any_eq_true, List.all_eq_true, Bool.or_eq_true, List.mem_range] at e
  obtain ⟨⟨⟨⟨⟨⟨h2, h5⟩, h3⟩, h7, h8⟩, hl⟩, hl2⟩, ⟨hp5, hr0⟩, hr2⟩ := e
  have ha := acyclic_of_check h.inv.liveBelow h3
  have hsvg : ∀ j, s.live j = true → ∀ a ∈ s.attributes j, a.value.plain = false → a.isSvg = true := by
    intro j hj a ham hpl
    rcases h8 j (by rw [← h7]; exact h.inv.liveBelow j hj) a ham with h | h
    · rw [h] at hpl; simp at hpl
    · exact h
  have hr : ¬ s.InSubtree 2 s.rootId := by
    intro hin
    rcases Relation.ReflTransGen.cases_head hin with hh | ⟨c, hh, _⟩
    · exact hr2 hh
    · rw [St.Up, hr0] at hh; simp at hh
  obtain ⟨F, hF⟩ := C01_forest h
  obtain ⟨t, S, e, _⟩ := C20_remove h ha hF h2
  have hs5 : s.InSubtree 2 5 := .single hp5
  exact ⟨s, t, h, ha, h2, hr, hsvg, e, hl, hl2, hs5, C73_partial h ha h2 hr hsvg e h5 hs5⟩

end Svgdom
