import Verif.Proof.Drain
import Verif.Spec.AcyclicCheck
import Verif.Props.Attrs
import Verif.Props.Tree

/-!
# C19-C21: removing nodes
-/

set_option autoImplicit false

namespace Svgdom

open Relation

/-! ## C20 -/

/-- C20: `remove_node` does not panic; exactly the subtree becomes detached and isolated, the rest of the forest stays. -/
theorem C20_remove {s : St} {F : Forest} (h : Reachable s) (ha : s.Acyclic) (hF : Describes s F) {i : NodeId}
    (hi : s.live i = true) :
    ∃ t S, s.removeNode i = .ok t ∧ (∀ j, j ∈ S ↔ s.live j = true ∧ s.InSubtree i j) ∧ Removed s t S ∧
      Describes t (F.prune S) := by
  have hkl : ∀ c ∈ F.kids i, s.live c = true := fun c hc => (hF.wf.kids i hi c hc).1
  obtain ⟨K, hK⟩ := trees_exist h.inv hF ha (F.kids i) hkl
  obtain ⟨t, e, _, hr, hd⟩ := removeNode_spec h.inv ha hF hi hK
  refine ⟨t, _, e, fun j => ?_, hr, hd⟩
  constructor
  · intro hj
    rcases List.mem_cons.1 hj with rfl | hj
    · exact ⟨hi, .refl⟩
    · have hlj := pre_live hF hK hkl j hj
      exact ⟨hlj, ((mem_pre_kids hF hi hK hlj).1 hj).to_reflTransGen⟩
  · rintro ⟨hj, hs⟩
    rcases reflTransGen_iff_eq_or_transGen.1 hs with e | hs
    · exact List.mem_cons.2 (.inl e.symm)
    · exact List.mem_cons.2 (.inr ((mem_pre_kids hF hi hK hj).2 hs))

/-- C20, seen through the getters: nodes of the subtree are detached and have no relatives; the others keep parent and
document membership, and their children are the old ones without the removed nodes. -/
theorem C20_getters {s t : St} (h : Reachable s) (ha : s.Acyclic) {i : NodeId} (hi : s.live i = true)
    (e : s.removeNode i = .ok t) :
    (∀ j, s.live j = true → s.InSubtree i j → t.isDetached j = true ∧ t.parent j = none ∧ t.nextSibling j = none ∧
      t.prevSibling j = none ∧ t.firstChild j = none ∧ t.lastChild j = none) ∧
    (∀ j, s.live j = true → ¬ s.InSubtree i j → t.isDetached j = s.isDetached j ∧ t.parent j = s.parent j ∧
      ∃ l, s.childList j = .ok l ∧ t.childList j = .ok (l.filter fun c => decide (c ≠ i))) := by
  have ht : Reachable t := .call (.removeNode i) h (by simpa [Op.handles] using hi) e
  obtain ⟨F, hF⟩ := C01_forest h
  obtain ⟨t', S, e', hS, hr, hd⟩ := C20_remove h ha hF hi
  rw [e] at e'; cases e'
  have hl : ∀ j, s.live j = true → t.live j = true := fun j hj => by rw [hr.live]; exact hj
  constructor
  · intro j hj hs
    have hm := (hS j).2 ⟨hj, hs⟩
    refine ⟨by rw [hr.detached]; simp [hm], ?_, ?_, ?_, ?_, ?_⟩
    · rw [hd.shows.parent j (hl j hj)]; simp [Forest.prune, hm]
    · rw [hd.shows.next j (hl j hj)]; simp [Forest.prune, hm, after]
    · rw [hd.shows.prev j (hl j hj)]; simp [Forest.prune, hm, before]
    · rw [hd.shows.first j (hl j hj)]; simp [Forest.prune, hm]
    · rw [hd.shows.last j (hl j hj)]; simp [Forest.prune, hm]
  · intro j hj hs
    have hm : j ∉ S := fun hm => hs ((hS j).1 hm).2
    refine ⟨by rw [hr.detached]; simp [hm], ?_, _, childList_eq h.inv hF hj, ?_⟩
    · rw [hd.shows.parent j (hl j hj), hF.shows.parent j hj]; simp [Forest.prune, hm]
    · rw [childList_eq ht.inv hd (hl j hj)]
      simp only [Forest.prune, hm, if_false]
      congr 1
      refine List.filter_congr fun c hc => ?_
      obtain ⟨hcl, hcp⟩ := hF.wf.kids j hj c hc
      rw [← hF.shows.parent c hcl] at hcp
      rw [decide_eq_decide, not_iff_not, hS]
      constructor
      · rintro ⟨_, hs'⟩
        rcases hs'.cases_head with e | ⟨b, hb, hs'⟩
        · exact e
        · have hb' : s.parent c = some b := hb
          rw [hcp] at hb'; cases hb'
          exact absurd hs' hs
      · rintro rfl; exact ⟨hi, .refl⟩

/-- A subtree of four nodes with links from outside, inside and to the outside. -/
def removeHistory : List Op :=
  [.createElement (.id .Svg), .createElement (.id .G), .createElement (.id .LinearGradient), .createElement (.id .Stop),
   .createElement (.id .G), .createElement (.id .Rect),
   .append 0 1, .append 1 2, .append 2 3, .append 3 4, .append 2 5, .append 1 6,
   .setId 3 ['g'], .setId 6 ['r'], .setId 2 ['p'],
   .setAttribute 6 ⟨.id .Fill, .link 3⟩, .setAttribute 5 ⟨.id .Href, .link 6⟩, .setAttribute 4 ⟨.id .Stroke, .link 3⟩,
   .setAttribute 6 ⟨.id .X, .string ['1']⟩]

theorem removeHistory_state : ∃ s, Reachable s ∧ s.Acyclic ∧ s.live 2 = true ∧ s.firstChild 2 = some 3 ∧
    (∀ j, s.live j = true → ∀ a ∈ s.attributes j, a.value.plain = false → a.isSvg = true) ∧
    s.LinksTo 6 3 ∧ s.LinksTo 5 6 ∧ s.InSubtree 2 5 ∧ s.live 4 = true ∧ s.live 6 = true ∧ s.InSubtree 2 4 ∧
    s.parent 6 = some 1 ∧ s.live 5 = true := by
  obtain ⟨s, h, e⟩ := exists_of_holds (ops := removeHistory) (p := fun s => s.live 2 && decide (s.firstChild 2 = some 3) &&
    (decide (s.nextId = 7) && s.acyclicB 7 &&
    ((List.range 7).all fun j => (s.attributes j).all fun a => a.value.plain || a.isSvg)) &&
    ((s.attributes 6).any fun a => a.value.refersTo 3) && ((s.attributes 5).any fun a => a.value.refersTo 6) &&
    (decide (s.parent 5 = some 2) && s.live 4 && s.live 6 && decide (s.parent 4 = some 3) && decide (s.parent 3 = some 2) &&
    decide (s.parent 6 = some 1) && s.live 5))
    (by decide +kernel)
  simp only [Bool.and_eq_true, decide_eq_true_eq, List.any_eq_true, List.all_eq_true, Bool.or_eq_true, List.mem_range] at e
  obtain ⟨⟨⟨⟨⟨h1, h2⟩, ⟨h3, h4⟩, h5⟩, h6⟩, h7⟩, ⟨⟨⟨⟨⟨h8, h9⟩, h10⟩, h11⟩, h12⟩, h13⟩, h14⟩ := e
  have hlt : ∀ i, s.live i = true → i < 7 := fun i hi => by rw [← h3]; exact h.inv.liveBelow i hi
  refine ⟨s, h, acyclic_of_check hlt h4, h1, h2, ?_, h6, h7, .single h8, h9, h10, .tail (.single h11) h12, h13, h14⟩
  intro j hj a ha hp
  rcases h5 j (hlt j hj) a ha with h | h
  · rw [h] at hp; simp at hp
  · exact h

/-- The hypotheses of C20 are met by a subtree of depth three. -/
example : ∃ s t, Reachable s ∧ s.Acyclic ∧ s.live 2 = true ∧ s.removeNode 2 = .ok t ∧ s.InSubtree 2 4 ∧ s.live 4 = true ∧
    t.isDetached 4 = true := by
  obtain ⟨s, h, ha, h2, _, _, _, _, _, h4, _, hs, _⟩ := removeHistory_state
  obtain ⟨F, hF⟩ := C01_forest h
  obtain ⟨t, S, e, _⟩ := C20_remove h ha hF h2
  exact ⟨s, t, h, ha, h2, e, hs, h4, ((C20_getters h ha h2 e).1 4 h4 hs).1⟩

/-- Acyclicity is needed: `remove_node` on a node below itself never returns, whatever recursion depth is allowed. -/
theorem C20_needs_acyclic : ∃ s i, Reachable s ∧ s.live i = true ∧ ∀ k, St.removeAux k s i = .error .diverge := by
  obtain ⟨s, h, e⟩ := exists_of_holds
    (ops := [.createElement (.id .Svg), .createElement (.id .G), .append 1 2, .append 2 1])
    (p := fun s => s.live 1 && [1, 2].all fun i => decide (s.attributes i = []) && decide (s.linkedNodes i = []) &&
      decide ((s.childrenNext (s.children i)).1 = some (3 - i))) (by decide +kernel)
  simp only [Bool.and_eq_true, decide_eq_true_eq, List.all_cons, List.all_nil, and_true] at e
  obtain ⟨h0, ⟨⟨h1, h2⟩, h3⟩, ⟨h4, h5⟩, h6⟩ := e
  have step : ∀ k i, s.attributes i = [] → s.linkedNodes i = [] → (s.childrenNext (s.children i)).1 = some (3 - i) →
      St.removeAux k s (3 - i) = .error .diverge → St.removeAux (k + 2) s i = .error .diverge := by
    intro k i e1 e2 e3 e4
    obtain ⟨it, e5⟩ : ∃ it, s.childrenNext (s.children i) = (some (3 - i), it) := ⟨_, Prod.ext e3 rfl⟩
    simp [St.removeAux, St.ownLinkNames, attrsSvg, e1, e2, St.removeAttributes, St.unlinkIncoming, bind, Except.bind,
      St.removeKids, e5, e4]
  have key : ∀ k, (St.removeAux k s 1 = .error .diverge ∧ St.removeAux k s 2 = .error .diverge) ∧
      St.removeAux (k + 1) s 1 = .error .diverge ∧ St.removeAux (k + 1) s 2 = .error .diverge := by
    intro k
    induction k with
    | zero =>
      refine ⟨⟨rfl, rfl⟩, ?_, ?_⟩
      · simp [St.removeAux, St.ownLinkNames, attrsSvg, h1, h2, St.removeAttributes, St.unlinkIncoming, bind, Except.bind,
          St.removeKids]
      · simp [St.removeAux, St.ownLinkNames, attrsSvg, h4, h5, St.removeAttributes, St.unlinkIncoming, bind, Except.bind,
          St.removeKids]
    | succ k ih => exact ⟨ih.2, step k 1 h1 h2 h3 ih.1.2, step k 2 h4 h5 h6 ih.1.1⟩
  exact ⟨s, 1, h, h0, fun k => (key k).1.1⟩

/-! ## C19 -/

/-- C19 is false: a link stored under a non-SVG name survives the removal of its target. -/
theorem C19_refuted : ∃ s t, Reachable s ∧ s.Acyclic ∧ s.live 3 = true ∧ s.removeNode 3 = .ok t ∧ t.LinksTo 2 3 ∧
    t.isDetached 2 = false ∧ t.isDetached 3 = true ∧ t.linkedNodes 3 ≠ [] := by
  obtain ⟨s, h, e⟩ := exists_of_holds
    (ops := [.createElement (.id .Svg), .createElement (.id .Rect), .createElement (.id .LinearGradient), .append 0 1,
      .append 1 2, .append 1 3, .setId 3 ['g'], .setAttribute 2 ⟨.name ['x'], .link 3⟩])
    (p := fun s => s.live 3 && (decide (s.nextId = 4) && s.acyclicB 4) && okAnd (s.removeNode 3) (fun t =>
      ((t.attributes 2).any fun a => a.value.refersTo 3) && decide (t.isDetached 2 = false) && decide (t.isDetached 3 = true)
      && decide (t.linkedNodes 3 ≠ []))) (by decide +kernel)
  simp only [Bool.and_eq_true, decide_eq_true_eq, List.any_eq_true, okAnd_iff] at e
  obtain ⟨⟨h1, h2, h3⟩, t, ht, ⟨⟨h4, h5⟩, h6⟩, h7⟩ := e
  exact ⟨s, t, h, acyclic_of_check (fun i hi => by rw [← h2]; exact h.inv.liveBelow i hi) h3, h1, ht, h4, h5, h6, h7⟩

/-- C19, what holds in general: all references with an SVG name to or from a removed node are gone, everything else stays. -/
theorem C19_svg_partial {s t : St} (h : Reachable s) (ha : s.Acyclic) {i : NodeId} (hi : s.live i = true)
    (e : s.removeNode i = .ok t) :
    (∀ j, s.live j = true → ∀ a ∈ t.attributes j, a.isSvg = true → ∀ n, s.live n = true → s.InSubtree i n →
      a.value.refersTo n = false) ∧
    (∀ n, s.live n = true → s.InSubtree i n → ∀ a ∈ t.attributes n, a.isSvg = true → a.value.plain = true) ∧
    (∀ j, s.live j = true → (t.attributes j).Sublist (s.attributes j)) ∧
    (∀ j, s.live j = true → ¬ s.InSubtree i j → ∀ a ∈ s.attributes j,
      (∀ n, s.live n = true → s.InSubtree i n → a.value.refersTo n = false) → a ∈ t.attributes j) := by
  obtain ⟨F, hF⟩ := C01_forest h
  obtain ⟨t', S, e', hS, hr, -⟩ := C20_remove h ha hF hi
  rw [e] at e'; cases e'
  refine ⟨?_, ?_, ?_, ?_⟩
  · intro j hj a haj hsvg n hn hs
    rw [hr.attrs j hj, List.mem_filter] at haj
    have h1 := haj.2
    simp only [survives, hsvg, Bool.true_and, Bool.not_eq_true', Bool.or_eq_false_iff, List.any_eq_false] at h1
    simpa using h1.2 n ((hS n).2 ⟨hn, hs⟩)
  · intro n hn hs a han hsvg
    rw [hr.attrs n hn, List.mem_filter] at han
    have h1 := han.2
    simp only [survives, hsvg, Bool.true_and, Bool.not_eq_true', Bool.or_eq_false_iff, (hS n).2 ⟨hn, hs⟩, decide_true] at h1
    simpa using h1.1
  · intro j hj; rw [hr.attrs j hj]; exact List.filter_sublist
  · intro j hj hs a haj hn
    rw [hr.attrs j hj, List.mem_filter]
    refine ⟨haj, ?_⟩
    have h1 : j ∉ S := fun hm => hs ((hS j).1 hm).2
    have h2 : (S.any fun n => a.value.refersTo n) = false := by
      rw [List.any_eq_false]; intro n hm; simp [hn n ((hS n).1 hm).1 ((hS n).1 hm).2]
    simp [survives, h1, h2]

/-- C19, under the hypothesis that all link attributes have SVG names: no reference to or from a removed node is left, in
attributes or in `linked_nodes`. -/
theorem C19_remove_partial {s t : St} (h : Reachable s) (ha : s.Acyclic) {i : NodeId} (hi : s.live i = true)
    (hsvg : ∀ j, s.live j = true → ∀ a ∈ s.attributes j, a.value.plain = false → a.isSvg = true)
    (e : s.removeNode i = .ok t) {n : NodeId} (hn : s.live n = true) (hin : s.InSubtree i n) :
    (∀ j, s.live j = true → ¬ t.LinksTo j n) ∧ (∀ a ∈ t.attributes n, a.value.plain = true) ∧ t.linkedNodes n = [] ∧
    (∀ j, s.live j = true → n ∉ t.linkedNodes j) := by
  have ht : Reachable t := .call (.removeNode i) h (by simpa [Op.handles] using hi) e
  obtain ⟨F, hF⟩ := C01_forest h
  obtain ⟨t', S, e', hS, hr, -⟩ := C20_remove h ha hF hi
  rw [e] at e'; cases e'
  obtain ⟨p1, p2, p3, -⟩ := C19_svg_partial h ha hi e
  have hl : ∀ j, t.live j = s.live j := fun j => by rw [hr.live]
  have q1 : ∀ j, s.live j = true → ¬ t.LinksTo j n := by
    rintro j hj ⟨a, haj, hra⟩
    have hp : a.value.plain = false := by
      rw [Bool.eq_false_iff]; intro hp
      rw [plain_iff] at hp; rw [refersTo_iff, hp] at hra; simp at hra
    rw [p1 j hj a haj (hsvg j hj a ((p3 j hj).subset haj) hp) n hn hin] at hra
    simp at hra
  have q2 : ∀ a ∈ t.attributes n, a.value.plain = true := by
    intro a han
    by_contra hp
    have hp' : a.value.plain = false := by simpa using hp
    exact hp (p2 n hn hin a han (hsvg n hn a ((p3 n hn).subset han) hp'))
  refine ⟨q1, q2, ?_, ?_⟩
  · rw [List.eq_nil_iff_forall_not_mem]
    intro j hj
    have hjl := ht.inv.link.back n (by rw [hl]; exact hn) j hj
    refine q1 j (by rw [← hl]; exact hjl) ?_
    rw [linksTo_iff, ← ht.inv.link.count j n hjl (by rw [hl]; exact hn), List.count_pos_iff]
    exact hj
  · intro j hj hm
    have h1 : t.LinksTo n j := by
      rw [linksTo_iff, ← ht.inv.link.count n j (by rw [hl]; exact hn) (by rw [hl]; exact hj), List.count_pos_iff]
      exact hm
    obtain ⟨a, han, hra⟩ := h1
    have := q2 a han
    rw [plain_iff] at this; rw [refersTo_iff, this] at hra; simp at hra

/-- Removing node 2 (with the gradient 3 inside) unlinks the rectangle 6 outside and the reference of 5 inside. -/
example : ∃ s t, Reachable s ∧ s.Acyclic ∧ s.live 2 = true ∧ s.removeNode 2 = .ok t ∧ s.LinksTo 6 3 ∧ ¬ t.LinksTo 6 3 ∧
    s.LinksTo 5 6 ∧ 5 ∉ t.linkedNodes 6 := by
  obtain ⟨s, h, ha, h2, hf, hsvg, hl, hl2, hs5, h4, h6, hs4, _, h5⟩ := removeHistory_state
  obtain ⟨F, hF⟩ := C01_forest h
  obtain ⟨t, S, e, _⟩ := C20_remove h ha hF h2
  have h3 : s.live 3 = true := (hF.wf.kids 2 h2 3 (by
    have := hF.shows.first 2 h2
    rw [hf] at this; exact List.mem_of_mem_head? this.symm)).1
  have hs3 : s.InSubtree 2 3 := by
    have h0 := hF
    have := (h0.wf.kids 2 h2 3 (by
      have := h0.shows.first 2 h2
      rw [hf] at this; exact List.mem_of_mem_head? this.symm)).2
    rw [← h0.shows.parent 3 h3] at this
    exact .single this
  exact ⟨s, t, h, ha, h2, e, hl, (C19_remove_partial h ha h2 hsvg e h3 hs3).1 6 h6, hl2,
    (C19_remove_partial h ha h2 hsvg e h5 hs5).2.2.2 6 h6⟩

/-! ## C21 -/

/-- C21: `drain` removes exactly the nodes at or below a match, and returns the number of topmost matches (listed by `M`). -/
theorem C21_drain {s : St} {F : Forest} (h : Reachable s) (ha : s.Acyclic) (hF : Describes s F) {f : St → NodeId → Bool}
    (hf : LooksAtNode f) {root : NodeId} (hr : s.live root = true) :
    ∃ (t : St) (S M : List NodeId), s.drain root f = .ok (t, M.length) ∧ M.Nodup ∧ (∀ a, a ∈ M ↔ TopMatch s f root a) ∧
      (∀ j, j ∈ S ↔ s.live j = true ∧ ∃ a, Match s f root a ∧ s.InSubtree a j) ∧ Removed s t S ∧ Describes t (F.prune S) ∧
      root ∉ S := by
  have hkl : ∀ c ∈ F.kids root, s.live c = true := fun c hc => (hF.wf.kids root hr c hc).1
  obtain ⟨K, hK⟩ := trees_exist h.inv hF ha (F.kids root) hkl
  have hkp : ∀ i ∈ F.kids root, ∀ j ∈ F.kids root, s.parent i = s.parent j := by
    intro i hi j hj
    rw [hF.shows.parent i (hkl i hi), hF.shows.parent j (hkl j hj), (hF.wf.kids root hr i hi).2, (hF.wf.kids root hr j hj).2]
  have hkn := hF.wf.kids_nodup hr
  have hnd := pre_nodup hF ha hK hkl hkn hkp
  have hrk : root ∉ K.pre := fun hm => ha root hr ((mem_pre_kids hF hr hK hr).1 hm)
  have hfuel : K.pre.length + 1 ≤ s.fuel := by
    have := length_le_of_below (l := root :: K.pre) (n := s.nextId) (List.nodup_cons.2 ⟨hrk, hnd⟩) (by
      intro j hj
      rcases List.mem_cons.1 hj with rfl | hj
      · exact h.inv.liveBelow _ hr
      · exact h.inv.liveBelow _ (pre_live hF hK hkl j hj))
    simp only [List.length_cons] at this
    unfold St.fuel
    omega
  have hag : Agrees f (f s) s := fun t h1 h2 h3 h4 n => hf s t n (h1 n) (h2 n) (h3 n) (h4 n)
  obtain ⟨t, e, _, _, hrm, hd⟩ := drain_spec K s.fuel s F root [] (F.kids root) 0 h.inv ha hF hr (by simp) hK
    (List.nodup_cons.2 ⟨hrk, hnd⟩) hag hfuel
  have hmatch : ∀ a, Match s f root a ↔ a ∈ K.pre ∧ f s a = true := by
    intro a
    constructor
    · rintro ⟨h1, h2, h3⟩; exact ⟨(mem_pre_kids hF hr hK h1).2 h2, h3⟩
    · rintro ⟨h1, h2⟩
      have hl := pre_live hF hK hkl a h1
      exact ⟨hl, (mem_pre_kids hF hr hK hl).1 h1, h2⟩
  have htop : ∀ a, a ∈ K.hit (f s) ↔ TopMatch s f root a := by
    intro a
    constructor
    · intro hm
      refine ⟨(hmatch a).2 (hit_sub K a hm), fun b hb => ?_⟩
      exact hit_top hF ha hK hkl hkn hkp a hm b ((hmatch b).1 hb).1 ((hmatch b).1 hb).2
    · rintro ⟨hm, hno⟩
      obtain ⟨b, hb, hs⟩ := hit_above hF hK hkl a ((hmatch a).1 hm).1 ((hmatch a).1 hm).2
      rcases reflTransGen_iff_eq_or_transGen.1 hs with e | hs
      · rw [e] at hb; exact hb
      · exact absurd hs (hno b ((hmatch b).2 (hit_sub K b hb)))
  refine ⟨t, K.gone (f s), K.hit (f s), ?_, hit_nodup hnd, htop, ?_, hrm, hd, fun hm => hrk (gone_sub K _ hm)⟩
  · rw [St.drain, hF.shows.first root hr, e, Nat.zero_add]
  · intro j
    constructor
    · intro hj
      have hl := pre_live hF hK hkl j (gone_sub K j hj)
      obtain ⟨a, ha', hs⟩ := (mem_gone hF hK hkl j hl).1 hj
      exact ⟨hl, a, (hmatch a).2 (hit_sub K a ha'), hs⟩
    · rintro ⟨hj, a, hm, hs⟩
      obtain ⟨b, hb, hs'⟩ := hit_above hF hK hkl a ((hmatch a).1 hm).1 ((hmatch a).1 hm).2
      exact (mem_gone hF hK hkl j hj).2 ⟨b, hb, hs.trans hs'⟩

/-- A predicate on tag names. -/
def isG (s : St) (n : NodeId) : Bool := decide (s.tagName n = .id .G)

theorem isG_looks : LooksAtNode isG := fun s t n _ h _ _ => by simp [isG, h]

/-- Drain removes the group 2 (with the matching group 5 inside, counted once), not the outer element. -/
example : ∃ s t, Reachable s ∧ s.Acyclic ∧ s.live 1 = true ∧ LooksAtNode isG ∧ s.drain 1 isG = .ok (t, 1) ∧
    t.isDetached 5 = true ∧ t.isDetached 6 = false := by
  obtain ⟨s, h, e⟩ := exists_of_holds (ops := removeHistory) (p := fun s => s.live 1 && (decide (s.nextId = 7) && s.acyclicB 7) &&
    (match s.drain 1 isG with | .ok (t, n) => decide (n = 1) && t.isDetached 5 && !t.isDetached 6 | _ => false))
    (by decide +kernel)
  simp only [Bool.and_eq_true, decide_eq_true_eq] at e
  obtain ⟨⟨h1, h2, h3⟩, h4⟩ := e
  split at h4
  · next t n hd =>
    simp only [Bool.and_eq_true, decide_eq_true_eq, Bool.not_eq_true'] at h4
    rw [h4.1.1] at hd
    exact ⟨s, t, h, acyclic_of_check (fun i hi => by rw [← h2]; exact h.inv.liveBelow i hi) h3, h1, isG_looks, hd,
      h4.1.2, h4.2⟩
  · simp at h4

end Svgdom
