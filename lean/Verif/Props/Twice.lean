import Verif.Proof.Twice
import Verif.Props.Vanish
import Verif.Props.Read
import Verif.Proof.Debug

/-!
# C117: a copy is written like the original, without ids
-/

set_option autoImplicit false

namespace Svgdom

/-- C117: a node of the document is copied with `copy_node_deep`, and the copy is inserted behind it. This succeeds, and then writing gives what
it gave before, with what was written for the node repeated once, without its ids. This holds if the text nodes and comments below the node
have no tag name `text` and no `href`, which only elements should have. -/
theorem C117_written_partial {s t : St} (h : Reachable s) (ha : s.Acyclic) {i n : NodeId} (hi : s.live i = true)
    (hd : s.InSubtree s.rootId i) (hp : s.Proper i) (e : s.copyNodeDeep i = .ok (t, n)) (W : ValueWriter) {evs : List Ev}
    (hw : s.writeDom W = .ok evs) :
    ∃ u before part behind edges, t.insertAfter i n = .ok u ∧ s.edgeList i = .ok edges ∧ s.writeEdges W edges = .ok part ∧
      evs = before ++ part ++ behind ∧ u.writeDom W = .ok (before ++ part ++ part.filter Ev.notId ++ behind) := by
  obtain ⟨F, hF⟩ := C01_forest h
  have hc : ∀ j, s.live j = true → s.InSubtree i j → Copyable s j := by
    by_contra hc
    push Not at hc
    obtain ⟨p, hp⟩ := (C23_panics h ha hi).2 hc
    rw [e] at hp; cases hp
  have hroot : s.live s.rootId = true := by
    obtain ⟨_, hT⟩ := h.inv.tree; exact hT.root
  have hir : i ≠ s.rootId := fun hh => (hc i hi .refl).1 ((h.nodesOk.root i hi).2 hh)
  obtain ⟨t', n', T, U, G, e', hG, hT, hU, cp, g, hnd, gp, gs, _, place⟩ := C23_deep h ha hF hi hc
  rw [e] at e'
  cases e'
  have er : Op.run s (.copyNodeDeep i) = .ok t := by simp [Op.run, e, Except.map]
  have hl : ∀ j ∈ (Op.copyNodeDeep i).handles, s.live j = true := by simpa [Op.handles] using hi
  have ht : Reachable t := .call (.copyNodeDeep i) h hl er
  have hat : t.Acyclic := C05_step_partial h ha (.copyNodeDeep i) hl (by simp [Op.Safe]) er
  have hnU : n ∈ U.pre := hU.mem_pre n (by simp)
  have hnl : t.live n = true := (g.live n).2 (.inr hnU)
  have hil : t.live i = true := (g.live i).2 (.inl hi)
  have new : ∀ j, s.live j = true → j ∉ U.pre := fun j hj hju => by
    have := g.fresh j hju
    have := h.inv.liveBelow j hj
    exact absurd this (Nat.not_lt.2 ‹_›)
  have hin : i ≠ n := fun hh => new i hi (hh ▸ hnU)
  have np : t.parent n = none := by rw [hG.shows.parent n hnl, gp]
  have nn : t.nextSibling n = none := by rw [hG.shows.next n hnl, gs]; simp [after]
  have nq : t.prevSibling n = none := by rw [hG.shows.prev n hnl, gs]; simp [before]
  have ip : t.parent i = s.parent i := by rw [hG.shows.parent i hil, (place i hi).2.1, hF.shows.parent i hi]
  obtain ⟨p, hpi⟩ : ∃ p, s.parent i = some p := by
    rcases Relation.ReflTransGen.cases_head hd with hh | ⟨p, hh, _⟩
    · exact absurd hh hir
    · exact ⟨p, hh⟩
  have hpl : s.live p = true := ((C01_neighbours h hi).2.2.2.2 hpi).1
  have hFp : F.par i = some p := by rw [← hF.shows.parent i hi]; exact hpi
  obtain ⟨u, eu⟩ := (C78_insertAfter ht hil hnl).2.2 hin (by
    rintro (hh | hh | ⟨_, hh | hh⟩)
    · simp [Touching, np, nn, nq] at hh
    · simp [Touching, np, nn, nq] at hh
    · exact hat i hil (.single hh)
    · rw [ip, hpi] at hh
      cases hh
      exact new n hpl hnU)
  have hspec := insertAfter_spec (ht.inv.reps hG) hil hnl
  have fr : Frame t u := by
    rw [if_neg hin] at hspec
    split_ifs at hspec with h2
    · rw [hspec] at eu; simp at eu
    · obtain ⟨u', e1, _, f, _⟩ := hspec
      rw [eu] at e1; cases e1; exact f
  obtain ⟨H, hH, _, _, k1, k2, hpn, hpj, _⟩ := C02_insertAfter ht hil hnl eu hG
  have eru : Op.run t (.insertAfter i n) = .ok u := eu
  have hl2 : ∀ j ∈ (Op.insertAfter i n).handles, t.live j = true := by simp [Op.handles, hil, hnl]
  have hru : Reachable u := .call (.insertAfter i n) ht hl2 eru
  have hau : u.Acyclic := C05_step_partial ht hat (.insertAfter i n) hl2
    (fun hx => new i hi ((mem_pre hG hU (by simpa using hnl) i hil).2 ⟨n, by simp, hx.to_reflTransGen⟩)) eru
  have gu : Grown s u U.pre := g.frame fr
  have cu : T.CopyOf s u U := cp.frame fr
  have root : u.rootId = s.rootId := gu.rootId
  have notKid : ∀ j, t.live j = true → n ∉ G.kids j := fun j hj hx => by
    have := (hG.wf.kids j hj n hx).2
    rw [gp] at this; cases this
  have hGp : G.par i = some p := by rw [(place i hi).2.1]; exact hFp
  have hk : ∀ j, s.live j = true → H.kids j = twiceL i n (F.kids j) := by
    intro j hj
    have hjt : t.live j = true := (g.live j).2 (.inl hj)
    by_cases hpj : p = j
    · subst hpj
      rw [k1 p hGp, List.erase_of_not_mem (notKid p hjt), (place p hj).1, twiceL_insAfter (hF.wf.kids_nodup hj)]
    · have hx : i ∉ F.kids j := fun hx => by
        have := (hF.wf.kids j hj i hx).2
        rw [hFp] at this
        exact hpj (Option.some.inj this)
      rw [k2 j (by rw [hGp]; exact fun hh => hpj (Option.some.inj hh)), List.erase_of_not_mem (notKid j hjt), (place j hj).1, twiceL_none hx]
  have hkU : ∀ j ∈ U.pre, H.kids j = G.kids j := by
    intro j hj
    rw [k2 j (by rw [hGp]; exact fun hh => new p hpl (Option.some.inj hh ▸ hj)), List.erase_of_not_mem (notKid j ((g.live j).2 (.inr hj)))]
  have hUH : U.Of H [n] := hU.congr hkU
  have hTl := pre_live hF hT (by simpa using hi)
  have hTs : ∀ j ∈ T.pre, s.InSubtree i j := fun j hj => by
    simpa using (mem_pre hF hT (by simpa using hi) j (hTl j hj)).1 hj
  have hprop : ∀ j ∈ T.pre, s.nodeType j ≠ .element → s.tagName j ≠ .id .Text ∧ s.hasAttribute j (.id .Href) = false :=
    fun j hj => hp j (hTl j hj) (hTs j hj)
  have htarget : ∀ j, s.live j = true → ∀ a ∈ s.attributes j, ∀ m, a.value.linkNode = some m → u.idOf m = s.idOf m :=
    fun j hj a haj m hm => gu.ids m (h.inv.link.targets j hj a haj m hm)
  have hul : ∀ j, s.live j = true → u.live j = true := fun j hj => (gu.live j).2 (.inl hj)
  have echo : ∀ j, s.live j = true → Echo s u j j := fun j hj =>
    { type := gu.types j hj
      tag := fun _ => gu.tags j hj
      attrs := fun _ => gu.attrs j hj
      text := fun _ => gu.texts j hj
      target := htarget j hj
      textTag := fun _ => by simp only [St.hasTagName, gu.tags j hj] }
  obtain ⟨K, R, rfl, hK, hR⟩ := hT.cons_list
  obtain ⟨Y, R', rfl, hY, hR'⟩ := hUH.cons_list
  simp only [hR.nil_list, hR'.nil_list] at *
  have above : ∀ j, s.live j = true → (u.parent j).map u.isRoot = (s.parent j).map s.isRoot := by
    intro j hj
    have hjn : j ≠ n := fun hh => new j hj (hh ▸ hnU)
    rw [hH.shows.parent j (hul j hj), hpj j hjn, (place j hj).2.1, ← hF.shows.parent j hj]
    cases hq : s.parent j with
    | none => rfl
    | some q => simp only [Option.map_some, St.isRoot, gu.types q ((C01_neighbours h hj).2.2.2.2 hq).1]
  have starts : ∀ j, s.live j = true → ∀ es, s.writeStart W j = .ok es → u.writeStart W j = .ok es := by
    intro j hj es hes
    refine ((echo j hj).start W (fun he => ?_) hes).1 (gu.ids j hj)
    obtain ⟨L, hL⟩ := trees_exist h.inv hF ha (F.kids j) (fun c hc => (hF.wf.kids j hj c hc).1)
    have hLl := pre_live hF hL (fun c hc => (hF.wf.kids j hj c hc).1)
    have hL2 := Trees.twice_of hY hL fun m hm => hk m (hLl m hm)
    rw [← hk j hj] at hL2
    refine (echo j hj).namespaces he (above j hj) (descendants_tree h ha hF hj hL) (descendants_tree hru hau hH (hul j hj) hL2) ?_
    have old : ∀ m, s.live m = true → u.hasAttribute m (.id .Href) = s.hasAttribute m (.id .Href) := fun m hm => by
      simp only [St.hasAttribute, gu.attrs m hm]
    have hmem : ∀ m ∈ j :: L.pre, s.live m = true := by
      intro m hm
      rcases List.mem_cons.1 hm with rfl | hm
      · exact hj
      · exact hLl m hm
    rw [Bool.eq_iff_iff, List.any_eq_true, List.any_eq_true]
    constructor
    · rintro ⟨m, hm, hx⟩
      rw [List.mem_cons, Trees.mem_twice, ← or_assoc, ← List.mem_cons] at hm
      rcases hm with hm | ⟨hm1, hm2⟩
      · exact ⟨m, hm, by rw [← old m (hmem m hm)]; exact hx⟩
      · obtain ⟨k, hk1, hk2⟩ := copyOf_nodes cu m (by simp only [Trees.pre, List.append_nil, List.mem_cons]; exact hm2)
        refine ⟨k, .tail _ ((mem_pre_kids hF hj hL (hTl k hk1)).2 ?_), by rw [← hk2.href (hprop k hk1)]; exact hx⟩
        exact ((mem_pre_kids hF hj hL hi).1 hm1).trans_right (hTs k hk1)
    · rintro ⟨m, hm, hx⟩
      refine ⟨m, ?_, by rw [old m (hmem m hm)]; exact hx⟩
      rw [List.mem_cons, Trees.mem_twice, ← or_assoc, ← List.mem_cons]
      exact .inl hm
  have stops : ∀ j, s.live j = true → u.writeEnd j = s.writeEnd j := fun j hj => (echo j hj).stop
  obtain ⟨D, hD, _, hDe, _⟩ := C07_traverse h ha hF hroot
  obtain ⟨D2, hD2, _, hD2e, _⟩ := C07_traverse hru hau hH (hul _ hroot)
  have hDl := pre_live hF hD (by simpa using hroot)
  have hD3 := Trees.twice_of hY hD fun m hm => hk m (hDl m hm)
  rw [twiceL_none (by simpa using hir)] at hD3
  cases hD2.unique hD3
  obtain ⟨A, B, K', hK', ee, ee2⟩ := Trees.twice_edges (n := n) (Y := Y) hD
    (pre_nodup hF ha hD (by simpa using hroot) (by simp) (by simp))
    ((mem_pre hF hD (by simpa using hroot) i hi).2 ⟨s.rootId, by simp, hd⟩)
  cases hK'.unique hK
  have hw' : s.writeEdges W D.edges = .ok evs := by simpa [St.writeDom, hDe, bind, Except.bind] using hw
  rw [ee] at hw'
  obtain ⟨ab, behind, w1, w2, rfl⟩ := edges_split hw'
  obtain ⟨before, part, w3, w4, rfl⟩ := edges_split w1
  have hlist : ∀ (es : List Edge), (∀ x ∈ es, x ∈ D.edges) → ∀ out, s.writeEdges W es = .ok out → u.writeEdges W es = .ok out := by
    intro es hes out ho
    refine edges_echo (fun j hj => starts j (hDl j ?_)) (fun j hj => stops j (hDl j ?_)) ho
    · exact ((mem_edges D j).1).1 (hes _ hj)
    · exact ((mem_edges D j).2).1 (hes _ hj)
  have v1 := hlist _ (fun x hx => by rw [ee]; simp [hx]) _ w3
  have v2 := hlist _ (fun x hx => by rw [ee]; exact List.mem_append_left _ (List.mem_append_right _ hx)) _ w4
  have v3 := hlist _ (fun x hx => by rw [ee]; simp [hx]) _ w2
  have v4 := copy_edges W ⟨h, ha, hF⟩ ⟨hru, hau, hH⟩ cu (r := some (s.isRoot p)) hT hUH
    (by simp [hi, hpi]) (by
      have hnu : u.live n = true := (gu.live n).2 (.inr hnU)
      have : u.parent n = some p := by rw [hH.shows.parent n hnu, hpn, hGp]
      simp [hnu, this, St.isRoot, gu.types p hpl]) hprop (fun j hj => htarget j (hTl j hj)) w4
  have v := writeEdges_append u W _ _ (writeEdges_append u W _ _ (writeEdges_append u W _ _ v1 v2) v4) v3
  obtain ⟨T', hT', _, hTe, _⟩ := C07_traverse h ha hF hi
  cases hT'.unique hT
  refine ⟨u, before, part, behind, _, eu, hTe, w4, rfl, ?_⟩
  simp only [St.writeDom, root, hD2e, bind, Except.bind, ee2]
  exact v

/-- C117: in debug builds there is no condition, since there only elements can have a tag name and attributes. -/
theorem C117_debug {s t : St} (h : Reachable s) (hdb : s.debug = true) (ha : s.Acyclic) {i n : NodeId} (hi : s.live i = true)
    (hd : s.InSubtree s.rootId i) (e : s.copyNodeDeep i = .ok (t, n)) (W : ValueWriter) {evs : List Ev}
    (hw : s.writeDom W = .ok evs) :
    ∃ u before part behind edges, t.insertAfter i n = .ok u ∧ s.edgeList i = .ok edges ∧ s.writeEdges W edges = .ok part ∧
      evs = before ++ part ++ behind ∧ u.writeDom W = .ok (before ++ part ++ part.filter Ev.notId ++ behind) := by
  refine C117_written_partial h ha hi hd (fun j hj _ hne => ⟨?_, ?_⟩) e W hw
  · rw [show s.tagName j = .name [] from (h.named hdb j hj hne).1]
    simp
  · have : s.attributes j = [] := by
      by_contra hc
      exact hne (h.attrsOnElements hdb j hj hc)
    simp [St.hasAttribute, this, attrsContains]

/-- A group with an id in front of a rectangle; below the group a rectangle that has an id and uses a gradient, and a comment. -/
def twiceHistory : List Op :=
  [.createElement (.id .Svg), .createElement (.id .LinearGradient), .createElement (.id .G), .createElement (.id .Rect),
   .createNode .comment ['c'], .createElement (.id .Rect), .append 0 1, .append 1 2, .append 1 3, .append 3 4, .append 3 5, .append 1 6,
   .setId 2 ['g'], .setId 3 ['a'], .setId 4 ['b'], .setAttribute 4 ⟨.id .Fill, .link 2⟩]

/-- The result of writing is `es`. -/
def writes (x : Except Err (List Ev)) (es : List Ev) : Bool :=
  match x with
  | .ok l => l == es
  | .error _ => false

theorem writes_iff {x : Except Err (List Ev)} {es : List Ev} : writes x es = true ↔ x = .ok es := by
  rcases x with _ | l <;> simp [writes]

/-- The group is copied: the conditions are met, and this is written before and after it. -/
example : ∃ s t u, Reachable s ∧ s.Acyclic ∧ s.live 3 = true ∧ s.InSubtree s.rootId 3 ∧ s.Proper 3 ∧ s.copyNodeDeep 3 = .ok (t, 7) ∧
    t.insertAfter 3 7 = .ok u ∧
    s.writeDom sampleWriter = .ok ([.startElement st!"svg", .attribute st!"xmlns" st!"http://www.w3.org/2000/svg",
      .startElement st!"linearGradient", .attribute st!"id" ['g'], .endElement] ++
      [.startElement ['g'], .attribute st!"id" ['a'], .startElement st!"rect", .attribute st!"id" ['b'],
        .attributeRaw st!"fill" st!"url(#g)", .endElement, .comment ['c'], .endElement] ++
      [.startElement st!"rect", .endElement, .endElement]) ∧
    u.writeDom sampleWriter = .ok ([.startElement st!"svg", .attribute st!"xmlns" st!"http://www.w3.org/2000/svg",
      .startElement st!"linearGradient", .attribute st!"id" ['g'], .endElement] ++
      [.startElement ['g'], .attribute st!"id" ['a'], .startElement st!"rect", .attribute st!"id" ['b'],
        .attributeRaw st!"fill" st!"url(#g)", .endElement, .comment ['c'], .endElement] ++
      [.startElement ['g'], .startElement st!"rect", .attributeRaw st!"fill" st!"url(#g)", .endElement, .comment ['c'], .endElement] ++
      [.startElement st!"rect", .endElement, .endElement]) := by
  obtain ⟨s, h, e⟩ := exists_of_holds (ops := twiceHistory)
    (p := fun s => decide (s.nextId = 7) && s.acyclicB 7 && s.live 3 && decide (s.parent 3 = some 1 ∧ s.parent 1 = some s.rootId) &&
      (List.range 7).all (fun j => decide (s.nodeType j = .element) ||
        (decide (s.tagName j ≠ .id .Text) && decide (s.hasAttribute j (.id .Href) = false))) &&
      writes (s.writeDom sampleWriter) ([.startElement st!"svg", .attribute st!"xmlns" st!"http://www.w3.org/2000/svg",
        .startElement st!"linearGradient", .attribute st!"id" ['g'], .endElement] ++
        [.startElement ['g'], .attribute st!"id" ['a'], .startElement st!"rect", .attribute st!"id" ['b'],
          .attributeRaw st!"fill" st!"url(#g)", .endElement, .comment ['c'], .endElement] ++
        [.startElement st!"rect", .endElement, .endElement]) &&
      copyAnd (s.copyNodeDeep 3) (fun t n => decide (n = 7) && okAnd (t.insertAfter 3 7) (fun u =>
        writes (u.writeDom sampleWriter) ([.startElement st!"svg", .attribute st!"xmlns" st!"http://www.w3.org/2000/svg",
          .startElement st!"linearGradient", .attribute st!"id" ['g'], .endElement] ++
          [.startElement ['g'], .attribute st!"id" ['a'], .startElement st!"rect", .attribute st!"id" ['b'],
            .attributeRaw st!"fill" st!"url(#g)", .endElement, .comment ['c'], .endElement] ++
          [.startElement ['g'], .startElement st!"rect", .attributeRaw st!"fill" st!"url(#g)", .endElement, .comment ['c'], .endElement] ++
          [.startElement st!"rect", .endElement, .endElement])))) (by decide +kernel)
  simp only [Bool.and_eq_true, decide_eq_true_eq, okAnd_iff, copyAnd_iff, writes_iff] at e
  obtain ⟨⟨⟨⟨⟨⟨h1, h2⟩, h3⟩, h4, h5⟩, h6⟩, h7⟩, t, n, h8, h9, u, h10, h11⟩ := e
  subst h9
  have hb : ∀ j, s.live j = true → j < 7 := fun j hj => by rw [← h1]; exact h.inv.liveBelow j hj
  refine ⟨s, t, u, h, acyclic_of_check hb h2, h3, .head h4 (.single h5), fun j hj _ hne => ?_, h8, h10, h7, h11⟩
  have := List.all_eq_true.1 h6 j (List.mem_range.2 (hb j hj))
  simpa [hne] using this

/-- C117 is false without the condition: in release builds a comment can be given the tag name `text`, and then more is written for it than
for its copy. -/
theorem C117_refuted : ∃ s t u, Reachable s ∧ s.Acyclic ∧ s.live 2 = true ∧ s.InSubtree s.rootId 2 ∧ s.copyNodeDeep 2 = .ok (t, 3) ∧
    t.insertAfter 2 3 = .ok u ∧
    s.writeDom sampleWriter = .ok [.startElement ['g'], .comment ['c'], .preserve false, .endElement] ∧
    u.writeDom sampleWriter = .ok [.startElement ['g'], .comment ['c'], .preserve false, .comment ['c'], .endElement] := by
  have key : okAnd (runAll (St.init false) [.createElement (.id .G), .createNode .comment ['c'], .append 0 1, .append 1 2,
      .setTagName 2 (.id .Text)])
    (fun s => decide (s.nextId = 3) && s.acyclicB 3 && s.live 2 && decide (s.parent 2 = some 1 ∧ s.parent 1 = some s.rootId) &&
      writes (s.writeDom sampleWriter) [.startElement ['g'], .comment ['c'], .preserve false, .endElement] &&
      copyAnd (s.copyNodeDeep 2) (fun t n => decide (n = 3) && okAnd (t.insertAfter 2 3) (fun u =>
        writes (u.writeDom sampleWriter) [.startElement ['g'], .comment ['c'], .preserve false, .comment ['c'], .endElement]))) = true := by
    decide +kernel
  obtain ⟨s, e0, e⟩ := okAnd_iff.1 key
  have h := runAll_reachable (.init false) e0
  simp only [Bool.and_eq_true, decide_eq_true_eq, okAnd_iff, copyAnd_iff, writes_iff] at e
  obtain ⟨⟨⟨⟨⟨h1, h2⟩, h3⟩, h4, h5⟩, h7⟩, t, n, h8, h9, u, h10, h11⟩ := e
  subst h9
  have hb : ∀ j, s.live j = true → j < 3 := fun j hj => by rw [← h1]; exact h.inv.liveBelow j hj
  exact ⟨s, t, u, h, acyclic_of_check hb h2, h3, .head h4 (.single h5), h8, h10, h7, h11⟩

end Svgdom
