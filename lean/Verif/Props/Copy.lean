import Verif.Proof.DeepCopy
import Verif.Proof.Drain
import Verif.Spec.AcyclicCheck
import Verif.Props.Tree

/-!
# C22, C23: copying nodes
-/

set_option autoImplicit false

namespace Svgdom

open Relation

/-- New nodes that refer only to old nodes are not referred to. -/
theorem new_unlinked {s t : St} {l : List NodeId} (h : Inv s) (ht : Inv t) (g : Grown s t l)
    (htg : ∀ n ∈ l, ∀ a ∈ t.attributes n, ∀ m, a.value.refersTo m = true → s.live m = true) :
    ∀ n ∈ l, t.linkedNodes n = [] := by
  intro n hn
  have hnl : t.live n = true := (g.live n).2 (.inr hn)
  have hdead : s.live n ≠ true := fun hh => absurd (h.liveBelow n hh) (Nat.not_lt.2 (g.fresh n hn))
  rw [List.eq_nil_iff_forall_not_mem]
  intro j hj
  have hjl := ht.link.back n hnl j hj
  have : 0 < refs (t.attributes j) n := by rw [← ht.link.count j n hjl hnl, List.count_pos_iff]; exact hj
  obtain ⟨a, ha, hm⟩ := refs_pos.1 this
  rcases (g.live j).1 hjl with hs | hs
  · rw [g.attrs j hs] at ha
    exact hdead (h.link.targets j hs a ha n hm)
  · exact hdead (htg j hs a ha n (refersTo_iff.2 hm))

/-- Copied attributes refer to old nodes. -/
theorem Copied.targets {s t : St} {i n : NodeId} (h : Inv s) (hi : s.live i = true) (c : Copied s t i n) :
    ∀ a ∈ t.attributes n, ∀ m, a.value.refersTo m = true → s.live m = true := by
  intro a ha m hm
  by_cases hty : s.nodeType i = .element
  · rw [(c.element hty).2.1] at ha
    exact h.link.targets i hi a ha m (refersTo_iff.1 hm)
  · rw [(c.other hty).2.1] at ha; simp at ha

/-! ## C22 -/

/-- C22: `copy_node` of a copyable node makes one new isolated node with the same data but no id; all other nodes are as before,
except that link targets gain one use per copied link (`Grown`). -/
theorem C22_copy {s : St} (h : Reachable s) {i : NodeId} (hi : s.live i = true) (hc : Copyable s i) :
    ∃ t n, s.copyNode i = .ok (t, n) ∧ s.live n = false ∧ t.live n = true ∧ Copied s t i n ∧ Grown s t [n] ∧
      t.linkedNodes n = [] ∧ (∀ F, Describes s F → Describes t (F.add n)) ∧
      t.parent n = none ∧ t.nextSibling n = none ∧ t.prevSibling n = none ∧ t.firstChild n = none := by
  obtain ⟨t, e, ht, _, g, c, hF⟩ := (copyNode_spec h.inv h.nodesOk hi).1 hc
  have hn : t.live s.nextId = true := (g.live _).2 (.inr (by simp))
  obtain ⟨F, hF'⟩ := C01_forest h
  have hd := hF F hF'
  refine ⟨t, s.nextId, e, h.inv.nextId_dead, hn, c, g, ?_, hF, ?_, ?_, ?_, ?_⟩
  · refine new_unlinked h.inv ht g ?_ _ (by simp)
    intro n hn
    rw [List.mem_singleton] at hn
    subst hn
    exact c.targets h.inv hi
  · rw [hd.shows.parent _ hn]; simp [Forest.add]
  · rw [hd.shows.next _ hn]; simp [Forest.add, after]
  · rw [hd.shows.prev _ hn]; simp [Forest.add, before]
  · rw [hd.shows.first _ hn]; simp [Forest.add]

/-- C22: it panics exactly otherwise. -/
theorem C22_panics {s : St} (h : Reachable s) {i : NodeId} (hi : s.live i = true) :
    (∃ p, s.copyNode i = .error (.panic p)) ↔ ¬ Copyable s i := by
  constructor
  · rintro ⟨p, e⟩ hc
    obtain ⟨t, n, e', _⟩ := C22_copy h hi hc
    rw [e'] at e; simp at e
  · exact (copyNode_spec h.inv h.nodesOk hi).2

/-- C22: only the root of the document is of type `Root`, so "not a document root" means "not the root node". -/
theorem C22_root {s : St} (h : Reachable s) {i : NodeId} (hi : s.live i = true) : s.nodeType i = .root ↔ i = s.rootId :=
  h.nodesOk.root i hi

/-- Two linked subtrees with text and comments. -/
def copyHistory : List Op :=
  [.createElement (.id .Svg), .createElement (.id .G), .createElement (.id .Rect), .createNode .text ['t'],
   .createNode .comment ['c'], .createElement (.id .LinearGradient), .createElement (.name ['z']),
   .append 0 1, .append 1 2, .append 2 3, .append 2 4, .append 3 5, .append 1 6, .append 2 7,
   .setId 6 ['g'], .setId 3 ['r'], .setId 7 ['z'],
   .setAttribute 3 ⟨.id .Fill, .link 6⟩, .setAttribute 3 ⟨.id .X, .string ['1']⟩, .setAttribute 3 ⟨.name ['q'], .link 6⟩,
   .setAttribute 2 ⟨.id .Mask, .link 3⟩, .setAttribute 7 ⟨.id .Href, .link 3⟩]

instance (s : St) (i : NodeId) : Decidable (Copyable s i) := by
  have : Copyable s i ↔ (s.nodeType i ≠ .root ∧ (s.nodeType i = .element → ∀ a ∈ s.attributes i,
      ∀ m ∈ a.value.linkNode.toList, s.idOf m ≠ [])) := by
    unfold Copyable
    simp only [refersTo_iff, Option.mem_toList]
  exact decidable_of_iff _ this.symm

theorem copyHistory_state : ∃ s, Reachable s ∧ s.Acyclic ∧ s.live 2 = true ∧ s.live 3 = true ∧ s.nodeType 3 = .element ∧
    (∀ j, s.live j = true → s.nodeType j ≠ .root → Copyable s j) ∧ (s.attributes 3).length = 3 ∧ s.LinksTo 3 6 ∧
    s.parent 3 = some 2 ∧ s.parent 5 = some 3 ∧ s.live 5 = true ∧ ∀ j, s.live j = true → s.InSubtree 2 j → j ≠ s.rootId := by
  obtain ⟨s, h, e⟩ := exists_of_holds (ops := copyHistory) (p := fun s => s.live 2 && (s.live 3 && decide (s.nodeType 3 = .element)) &&
    (decide (s.nextId = 8) && s.acyclicB 8 &&
    ((List.range 8).all fun j => decide (s.nodeType j = .root) || decide (Copyable s j))) &&
    (decide ((s.attributes 3).length = 3) && ((s.attributes 3).any fun a => a.value.refersTo 6)) &&
    (decide (s.parent 3 = some 2) && decide (s.parent 5 = some 3) && s.live 5 && decide (s.parent s.rootId = none) &&
      decide (s.rootId ≠ 2)))
    (by decide +kernel)
  simp only [Bool.and_eq_true, decide_eq_true_eq, List.any_eq_true, List.all_eq_true, Bool.or_eq_true, List.mem_range] at e
  obtain ⟨⟨⟨⟨h1, h2, h2'⟩, ⟨h3, h4⟩, h5⟩, h6, h7⟩, ⟨⟨⟨h8, h9⟩, h10⟩, h11⟩, h12⟩ := e
  have hlt : ∀ i, s.live i = true → i < 8 := fun i hi => by rw [← h3]; exact h.inv.liveBelow i hi
  refine ⟨s, h, acyclic_of_check hlt h4, h1, h2, h2', ?_, h6, h7, h8, h9, h10, ?_⟩
  · intro j hj hr
    rcases h5 j (hlt j hj) with e | e
    · exact absurd e hr
    · exact e
  · rintro j hj hs rfl
    rcases hs.cases_head with e | ⟨b, hb, _⟩
    · exact h12 e
    · have hb : s.parent s.rootId = some b := hb
      rw [h11] at hb; simp at hb

/-- The rectangle with three attributes, two of them links, can be copied. -/
example : ∃ s t n, Reachable s ∧ s.live 3 = true ∧ Copyable s 3 ∧ s.copyNode 3 = .ok (t, n) ∧ (t.attributes n).length = 3 ∧
    t.LinksTo n 6 := by
  obtain ⟨s, h, _, _, h3, hty, hc, hlen, ⟨a, ha, hl⟩, _⟩ := copyHistory_state
  have hc3 : Copyable s 3 := hc 3 h3 (by rw [hty]; simp)
  obtain ⟨t, n, e, _, _, c, _⟩ := C22_copy h h3 hc3
  have hat := (c.element hty).2.1
  exact ⟨s, t, n, h, h3, hc3, e, by rw [hat]; exact hlen, a, by rw [hat]; exact ha, hl⟩

/-- Both reasons for a panic occur: a link target that lost its id, and the document root. -/
example : ∃ s, Reachable s ∧ s.live 1 = true ∧ ¬ Copyable s 1 ∧ s.live 0 = true ∧ ¬ Copyable s 0 := by
  obtain ⟨s, h, e⟩ := exists_of_holds
    (ops := [.createElement (.id .Rect), .createElement (.id .LinearGradient), .setId 2 ['g'],
      .setAttribute 1 ⟨.id .Fill, .link 2⟩, .setId 2 []])
    (p := fun s => s.live 1 && decide (¬ Copyable s 1) && s.live 0 && decide (¬ Copyable s 0)) (by decide +kernel)
  simp only [Bool.and_eq_true, decide_eq_true_eq] at e
  exact ⟨s, h, e.1.1.1, e.1.1.2, e.1.2, e.2⟩

/-! ## C23 -/

theorem copyOf_nodes {s t : St} : ∀ {T U : Trees}, T.CopyOf s t U → ∀ n ∈ U.pre, ∃ i ∈ T.pre, Copied s t i n
  | .nil, .nil, _, n, hn => by simp [Trees.pre] at hn
  | .nil, .cons _ _ _, h, _, _ => h.elim
  | .cons _ _ _, .nil, h, _, _ => h.elim
  | .cons i K R, .cons m K' R', h, n, hn => by
    simp only [Trees.pre, List.mem_cons, List.mem_append] at hn ⊢
    rcases hn with rfl | hn | hn
    · exact ⟨i, .inl rfl, h.1⟩
    · obtain ⟨j, hj, hc⟩ := copyOf_nodes h.2.1 n hn
      exact ⟨j, .inr (.inl hj), hc⟩
    · obtain ⟨j, hj, hc⟩ := copyOf_nodes h.2.2 n hn
      exact ⟨j, .inr (.inr hj), hc⟩

/-- C23: `copy_node_deep` copies the tree `T` of the node to a new tree `U` of the same shape, made of new nodes in document order,
node by node; the place of every old node stays, and old nodes change only in that link targets gain uses. -/
theorem C23_deep {s : St} {F : Forest} (h : Reachable s) (ha : s.Acyclic) (hF : Describes s F) {i : NodeId}
    (hi : s.live i = true) (hc : ∀ j, s.live j = true → s.InSubtree i j → Copyable s j) :
    ∃ t n T U G, s.copyNodeDeep i = .ok (t, n) ∧ Describes t G ∧ Trees.Of F T [i] ∧ Trees.Of G U [n] ∧ T.CopyOf s t U ∧
      Grown s t U.pre ∧ U.pre.Nodup ∧ G.par n = none ∧ G.sibs n = [n] ∧ (∀ j ∈ U.pre, t.linkedNodes j = []) ∧
      (∀ j, s.live j = true → G.kids j = F.kids j ∧ G.par j = F.par j ∧ G.sibs j = F.sibs j) := by
  have hkl : ∀ c ∈ F.kids i, s.live c = true := fun c hc => (hF.wf.kids i hi c hc).1
  obtain ⟨K, hK⟩ := trees_exist h.inv hF ha (F.kids i) hkl
  have hKl := pre_live hF hK hkl
  have hT : (Trees.cons i K .nil).Of F [i] := ⟨[], rfl, hK, rfl⟩
  have hnd := pre_nodup hF ha hT (by simpa using hi) (by simp) (by simp)
  have hlen := length_le_of_below hnd (n := s.nextId) (by
    intro j hj
    exact h.inv.liveBelow j (pre_live hF hT (by simpa using hi) j hj))
  simp only [Trees.pre, List.length_cons, List.append_nil] at hlen
  have hcK : ∀ j ∈ K.pre, Copyable s j := by
    intro j hj
    exact hc j (hKl j hj) ((mem_pre_kids hF hi hK (hKl j hj)).1 hj).to_reflTransGen
  obtain ⟨s1, e1, h1, ok1, g1, c1, hF1⟩ := (copyNode_spec h.inv h.nodesOk hi).1 (hc i hi .refl)
  have hF1 := hF1 F hF
  obtain ⟨n, hn⟩ : ∃ n, n = s.nextId := ⟨_, rfl⟩
  rw [← hn] at e1 g1 c1 hF1
  have hndead : s.live n = false := by rw [hn]; exact h.inv.nextId_dead
  have hln : ∀ j, s.live j = true → j ≠ n := by
    rintro j hj rfl; rw [hndead] at hj; simp at hj
  have hn1 : s1.live n = true := (g1.live n).2 (.inr (by simp))
  have hl1 : ∀ j, s.live j = true → s1.live j = true := fun j hj => (g1.live j).2 (.inl hj)
  have ak : ∀ j, j ≠ n → (F.add n).kids j = F.kids j := fun j hj => by simp [Forest.add, hj]
  have hki : (F.add n).kids i = F.kids i := ak i (hln i hi)
  obtain ⟨t, U1, l', G, e2, h2, _, hG, g2, hU1, cp, gk, gfr⟩ := deepCopy_spec K s1.fuel s1 (F.add n) i n [] (F.kids i) (s1.children i)
    h1 ok1 hF1 (hl1 i hi) hn1 (by simp [hki])
    (hK.congr fun j hj => ak j (hln j (hKl j hj)))
    (by rw [St.children, hF1.shows.first i (hl1 i hi), hF1.shows.last i (hl1 i hi), hki])
    (Ne.symm (hln i hi)) (fun hm => hln n (hKl n hm) rfl) (by simp [Forest.add])
    (fun j hj => (hcK j hj).grown h.inv g1 (hKl j hj))
    (by
      have := g1.next
      simp only [List.length_singleton] at this
      unfold St.fuel
      rw [this]
      omega)
  have g : Grown s t (n :: U1.pre) := g1.trans g2
  have hU1l : ∀ j ∈ U1.pre, t.live j = true := fun j hj => (g2.live j).2 (.inr hj)
  have hcp : (Trees.cons i K .nil).CopyOf s t (.cons n U1 .nil) :=
    ⟨c1.grown g2 hn1, CopyOf.mono g1 (Grown.nil t) hKl hU1l cp, trivial⟩
  have hUo : (Trees.cons n U1 .nil).Of G [n] := by
    refine ⟨[], rfl, ?_, rfl⟩
    rw [gk]; simpa [Forest.add] using hU1
  refine ⟨t, n, _, _, G, ?_, hG, hT, hUo, hcp, by simpa [Trees.pre] using g, ?_, ?_, ?_, ?_, ?_⟩
  · simp [St.copyNodeDeep, e1, e2, bind, Except.bind, pure, Except.pure]
  · have hta : t.Acyclic := by
      refine (op_inner h.inv (.copyNodeDeep i) (by simpa [Op.handles] using hi) ?_ rfl).acyclic h.inv ha
      simp [Op.run, St.copyNodeDeep, e1, e2, bind, Except.bind, pure, Except.pure, Except.map]
    exact pre_nodup hG hta hUo (by simpa using (g2.live n).2 (.inl hn1)) (by simp) (by simp)
  · rw [(gfr n hn1).2.1]; simp [Forest.add]
  · rw [(gfr n hn1).2.2 (by simp [Forest.add])]; simp [Forest.add]
  · refine new_unlinked h.inv h2 (by simpa [Trees.pre] using g) ?_
    intro m hm
    obtain ⟨j, hj, c⟩ := copyOf_nodes hcp m hm
    exact c.targets h.inv (pre_live hF hT (by simpa using hi) j hj)
  · intro j hj
    obtain ⟨r1, r2, r3⟩ := gfr j (hl1 j hj)
    refine ⟨?_, ?_, ?_⟩
    · rw [r1 (hln j hj)]; exact ak j (hln j hj)
    · rw [r2]; simp [Forest.add, hln j hj]
    · rw [r3 (by simp [Forest.add])]; simp [Forest.add, hln j hj]

/-- C23: it panics exactly if a node of the subtree cannot be copied. -/
theorem C23_panics {s : St} (h : Reachable s) (ha : s.Acyclic) {i : NodeId} (hi : s.live i = true) :
    (∃ p, s.copyNodeDeep i = .error (.panic p)) ↔ ∃ j, s.live j = true ∧ s.InSubtree i j ∧ ¬ Copyable s j := by
  obtain ⟨F, hF⟩ := C01_forest h
  constructor
  · rintro ⟨p, e⟩
    by_contra hc
    push Not at hc
    obtain ⟨t, n, T, U, G, e', _⟩ := C23_deep h ha hF hi hc
    rw [e'] at e; simp at e
  · rintro ⟨j, hj, hij, hjc⟩
    by_cases hic : Copyable s i
    case neg =>
      obtain ⟨p, e⟩ := (copyNode_spec h.inv h.nodesOk hi).2 hic
      exact ⟨p, by simp only [St.copyNodeDeep, e, bind, Except.bind]⟩
    have hkl : ∀ c ∈ F.kids i, s.live c = true := fun c hc => (hF.wf.kids i hi c hc).1
    obtain ⟨K, hK⟩ := trees_exist h.inv hF ha (F.kids i) hkl
    have hKl := pre_live hF hK hkl
    have hT : (Trees.cons i K .nil).Of F [i] := ⟨[], rfl, hK, rfl⟩
    have hnd := pre_nodup hF ha hT (by simpa using hi) (by simp) (by simp)
    have hlen := length_le_of_below hnd (n := s.nextId) (by
      intro j hj
      exact h.inv.liveBelow j (pre_live hF hT (by simpa using hi) j hj))
    simp only [Trees.pre, List.length_cons, List.append_nil] at hlen
    have hjK : j ∈ K.pre := by
      refine (mem_pre_kids hF hi hK hj).2 ?_
      rcases Relation.reflTransGen_iff_eq_or_transGen.1 hij with e | e
      · subst e; exact absurd hic hjc
      · exact e
    obtain ⟨s1, e1, h1, ok1, g1, c1, hF1⟩ := (copyNode_spec h.inv h.nodesOk hi).1 hic
    have hF1 := hF1 F hF
    obtain ⟨n, hn⟩ : ∃ n, n = s.nextId := ⟨_, rfl⟩
    rw [← hn] at e1 g1 c1 hF1
    have hndead : s.live n = false := by rw [hn]; exact h.inv.nextId_dead
    have hln : ∀ j, s.live j = true → j ≠ n := by
      rintro j hj rfl; rw [hndead] at hj; simp at hj
    have hn1 : s1.live n = true := (g1.live n).2 (.inr (by simp))
    have hl1 : ∀ j, s.live j = true → s1.live j = true := fun j hj => (g1.live j).2 (.inl hj)
    have ak : ∀ j, j ≠ n → (F.add n).kids j = F.kids j := fun j hj => by simp [Forest.add, hj]
    have hki : (F.add n).kids i = F.kids i := ak i (hln i hi)
    obtain ⟨p, e2⟩ := deepCopy_panics K s1.fuel s1 (F.add n) i n [] (F.kids i) (s1.children i)
      h1 ok1 hF1 (hl1 i hi) hn1 (by simp [hki])
      (hK.congr fun j hj => ak j (hln j (hKl j hj)))
      (by rw [St.children, hF1.shows.first i (hl1 i hi), hF1.shows.last i (hl1 i hi), hki])
      (Ne.symm (hln i hi)) (fun hm => hln n (hKl n hm) rfl) (by simp [Forest.add])
      ⟨j, hjK, fun hc => hjc (hc.back h.inv g1 hj)⟩
      (by
        have := g1.next
        simp only [List.length_singleton] at this
        unfold St.fuel
        rw [this]
        omega)
    exact ⟨p, by simp only [St.copyNodeDeep, e1, e2, bind, Except.bind]⟩

/-- The group with a rectangle (that contains a comment), a text and an unknown element can be copied. -/
example : ∃ s t n, Reachable s ∧ s.Acyclic ∧ s.live 2 = true ∧ (∀ j, s.live j = true → s.InSubtree 2 j → Copyable s j) ∧
    s.copyNodeDeep 2 = .ok (t, n) ∧ s.live 5 = true ∧ s.InSubtree 2 5 := by
  obtain ⟨s, h, ha, h2, h3, _, hc, _, _, hp3, hp5, h5, hr⟩ := copyHistory_state
  have hcc : ∀ j, s.live j = true → s.InSubtree 2 j → Copyable s j := fun j hj hs =>
    hc j hj (fun hh => hr j hj hs ((C22_root h hj).1 hh))
  obtain ⟨F, hF⟩ := C01_forest h
  obtain ⟨t, n, T, U, G, e, _⟩ := C23_deep h ha hF h2 hcc
  exact ⟨s, t, n, h, ha, h2, hcc, e, h5, .tail (.single hp5) hp3⟩

/-- A rectangle below a group refers to an element whose id is taken away later; the group cannot be copied then. -/
example : ∃ s, Reachable s ∧ s.Acyclic ∧ s.live 2 = true ∧ (∃ j, s.live j = true ∧ s.InSubtree 2 j ∧ ¬ Copyable s j) ∧
    ∃ p, s.copyNodeDeep 2 = .error (.panic p) := by
  obtain ⟨s, h, e⟩ := exists_of_holds (ops := [.createElement (.id .LinearGradient), .append 0 1, .setId 1 st!"a",
      .createElement (.id .G), .append 0 2, .createElement (.id .Rect), .append 2 3, .setAttribute 3 ⟨.id .Fill, .funcLink 1⟩,
      .setId 1 []])
    (p := fun s => s.acyclicB s.nextId && s.live 2 && s.live 3 && decide (s.parent 3 = some 2) && decide (s.nodeType 3 = .element) &&
      decide (⟨.id .Fill, .paint 1 none⟩ ∈ s.attributes 3) && decide (s.idOf 1 = [])) (by decide +kernel)
  simp only [Bool.and_eq_true, decide_eq_true_eq] at e
  obtain ⟨⟨⟨⟨⟨⟨h1, h2⟩, h3⟩, h4⟩, h5⟩, h6⟩, h7⟩ := e
  have ha := acyclic_of_check h.inv.liveBelow h1
  have hc : ∃ j, s.live j = true ∧ s.InSubtree 2 j ∧ ¬ Copyable s j :=
    ⟨3, h3, .single h4, fun hc => hc.2 h5 _ h6 1 rfl h7⟩
  exact ⟨s, h, ha, h2, hc, (C23_panics h ha h2).2 hc⟩

end Svgdom
