import Verif.Proof.Depth
import Verif.Props.Parse
import Verif.Props.Remove
import Verif.Props.Copy

/-!
# C91: how much stack the recursive functions need
-/

set_option autoImplicit false

namespace Svgdom

/-- C91, `remove_node`: it needs as many nested calls as the subtree has levels. With less room the stack overflows, with that much the
result is the one without bound. -/
theorem C91_remove {s : St} {F : Forest} (h : Reachable s) (ha : s.Acyclic) (hF : Describes s F) {i : NodeId} (hi : s.live i = true)
    {T : Trees} (hT : T.Of F [i]) (d : Nat) :
    s.removeNodeS d i = if T.height ≤ d then step (s.removeNode i) else .error .overflow := by
  cases T with
  | nil => simp [Trees.Of] at hT
  | cons j K R =>
    obtain ⟨l, hl, hK, hR⟩ := hT
    obtain ⟨rfl, rfl⟩ : j = i ∧ l = [] := by simpa [eq_comm] using hl
    have := hR.nil_list
    subst this
    obtain ⟨t, e, _, _, _, q⟩ := removeNode_depth h.inv ha hF hi hK
    rw [q d, e, step_ok]
    simp [Trees.height]

/-- C91, `copy_node_deep`: it needs one nested call for each level below the node, and at least one. -/
theorem C91_copy {s : St} {F : Forest} (h : Reachable s) (ha : s.Acyclic) (hF : Describes s F) {i : NodeId}
    (hi : s.live i = true) (hc : ∀ j, s.live j = true → s.InSubtree i j → Copyable s j) {K : Trees} (hK : K.Of F (F.kids i)) (d : Nat) :
    s.copyNodeDeepS d i = if max 1 K.height ≤ d then step (s.copyNodeDeep i) else .error .overflow := by
  have hkl : ∀ c ∈ F.kids i, s.live c = true := fun c hc => (hF.wf.kids i hi c hc).1
  have hKl := pre_live hF hK hkl
  have hT : (Trees.cons i K .nil).Of F [i] := ⟨[], rfl, hK, rfl⟩
  have hnd := pre_nodup hF ha hT (by simpa using hi) (by simp) (by simp)
  have hlen := length_le_of_below hnd (n := s.nextId) (by
    intro j hj
    exact h.inv.liveBelow j (pre_live hF hT (by simpa using hi) j hj))
  simp only [Trees.pre, List.length_cons, List.append_nil] at hlen
  have hcK : ∀ j ∈ K.pre, Copyable s j := by
    intro j hj
    exact hc j (hKl j hj) ((mem_pre_kids hF hi hK (hKl j hj)).1 hj).to_reflTransGen
  obtain ⟨s1, e1, h1, ok1, g1, c1, hF1⟩ := (copyNode_spec h.inv h.nodesOk hi).1 (hc i hi .refl)
  have hF1 := hF1 F hF
  obtain ⟨n, hn⟩ : ∃ n, n = s.nextId := ⟨_, rfl⟩
  rw [← hn] at e1 g1 c1 hF1
  have hndead : s.live n = false := by rw [hn]; exact h.inv.nextId_dead
  have hln : ∀ j, s.live j = true → j ≠ n := by
    rintro j hj rfl; rw [hndead] at hj; simp at hj
  have hn1 : s1.live n = true := (g1.live n).2 (.inr (by simp))
  have hl1 : ∀ j, s.live j = true → s1.live j = true := fun j hj => (g1.live j).2 (.inl hj)
  have ak : ∀ j, j ≠ n → (F.add n).kids j = F.kids j := fun j hj => by simp [Forest.add, hj]
  have hki : (F.add n).kids i = F.kids i := ak i (hln i hi)
  obtain ⟨t, U1, l', G, e2, _, _, _, _, _, _, _, _, q⟩ := deepCopy_depth K s1.fuel s1 (F.add n) i n [] (F.kids i) (s1.children i)
    h1 ok1 hF1 (hl1 i hi) hn1 (by simp [hki])
    (hK.congr fun j hj => ak j (hln j (hKl j hj)))
    (by rw [St.children, hF1.shows.first i (hl1 i hi), hF1.shows.last i (hl1 i hi), hki])
    (Ne.symm (hln i hi)) (fun hm => hln n (hKl n hm) rfl) (by simp [Forest.add])
    (fun j hj => (hcK j hj).grown h.inv g1 (hKl j hj))
    (by
      have := g1.next
      simp only [List.length_singleton] at this
      unfold St.fuel
      rw [this]
      omega)
  cases d with
  | zero =>
    have : ¬ max 1 K.height ≤ 0 := by omega
    simp only [this, if_false]
    simp [St.copyNodeDeepS, e1, step, Except.mapError, nested, bind, Except.bind]
  | succ d =>
    have hm : max 1 K.height ≤ d + 1 ↔ K.height ≤ d + 1 := by omega
    simp only [hm]
    simp only [St.copyNodeDeepS, St.copyNodeDeep, e1, step, Except.mapError, nested, bind, Except.bind, q d, e2]
    by_cases hd : K.height ≤ d + 1 <;> simp only [hd, if_true, if_false] <;> rfl

/-- C91, `drain`: it needs one nested call for itself, and then `drainHeight` many. -/
theorem C91_drain {s : St} {F : Forest} (h : Reachable s) (ha : s.Acyclic) (hF : Describes s F) {f : St → NodeId → Bool}
    (hf : LooksAtNode f) {root : NodeId} (hr : s.live root = true) {K : Trees} (hK : K.Of F (F.kids root)) (d : Nat) :
    s.drainS d root f = if K.drainHeight (f s) + 1 ≤ d then step (s.drain root f) else .error .overflow := by
  have hkl : ∀ c ∈ F.kids root, s.live c = true := fun c hc => (hF.wf.kids root hr c hc).1
  have hkp : ∀ i ∈ F.kids root, ∀ j ∈ F.kids root, s.parent i = s.parent j := by
    intro i hi j hj
    rw [hF.shows.parent i (hkl i hi), hF.shows.parent j (hkl j hj), (hF.wf.kids root hr i hi).2, (hF.wf.kids root hr j hj).2]
  have hkn := hF.wf.kids_nodup hr
  have hnd := pre_nodup hF ha hK hkl hkn hkp
  have hrk : root ∉ K.pre := fun hm => ha root hr ((mem_pre_kids hF hr hK hr).1 hm)
  have hfuel : K.pre.length + 1 ≤ s.fuel := by
    have := length_le_of_below (l := root :: K.pre) (n := s.nextId) (List.nodup_cons.2 ⟨hrk, hnd⟩) (by
      intro j hj
      rcases List.mem_cons.1 hj with rfl | hj
      · exact h.inv.liveBelow _ hr
      · exact h.inv.liveBelow _ (pre_live hF hK hkl j hj))
    simp only [List.length_cons] at this
    unfold St.fuel
    omega
  have hag : Agrees f (f s) s := fun t h1 h2 h3 h4 n => hf s t n (h1 n) (h2 n) (h3 n) (h4 n)
  obtain ⟨t, e, _, _, _, _, q⟩ := drain_depth K s.fuel s F root [] (F.kids root) 0 h.inv ha hF hr (by simp) hK
    (List.nodup_cons.2 ⟨hrk, hnd⟩) hag hfuel
  cases d with
  | zero => simp [St.drainS, nested]
  | succ d =>
    simp only [St.drainS, nested, St.drain, hF.shows.first root hr, q d, e, step, Except.mapError, Nat.add_le_add_iff_right]

/-- C91, `process_node`: it needs as many nested calls as the XML tree has levels, not counting what is inside elements that are not
SVG. With that much room the result is the one without bound; with less, a document that could be read makes the stack overflow. -/
theorem C91_parse (L : Lib) (sheet : List Rule) (d : Nat) (pos : XmlPos) (prev : List (Option XmlElem)) (parent : NodeId) (x : Xml)
    (p : PSt) :
    (x.svgHeight ≤ d → processNodesS L sheet d pos prev parent x p = step (processNodes L sheet pos prev parent x p)) ∧
    (d < x.svgHeight → ∀ q, processNodes L sheet pos prev parent x p = .ok q →
      processNodesS L sheet d pos prev parent x p = .error .overflow) :=
  ⟨processNodesS_enough L sheet x d pos prev parent p, fun h q e => processNodesS_short L sheet x d pos prev parent p q e h⟩

/-- `n` elements `g` inside each other. -/
def nestXml : Nat → Xml
  | 0 => .nil
  | n + 1 => xe st!"g" [] (nestXml n) .nil

def deepXml (n : Nat) : Xml := xe st!"svg" [] (nestXml n) .nil

def nestDom : Nat → Dom
  | 0 => .nil
  | n + 1 => .element .G [] [] [] (nestDom n) .nil

theorem nest_height (n : Nat) : (nestXml n).svgHeight = n := by
  induction n with
  | zero => rfl
  | succ n ih =>
    simp [nestXml, xe, Xml.svgHeight, ih, svgNs, show (elementNamed st!"g").isSome = true by decide +kernel]

theorem nest_styles (n : Nat) : cssTexts (nestXml n) = [] := by
  induction n with
  | zero => rfl
  | succ n ih => simp [nestXml, xe, cssTexts, ih]

theorem nest_dom (n : Nat) (pos : XmlPos) (prev : List (Option XmlElem)) (tag : Option ElementId) :
    domOf sampleLib [] pos prev tag (nestXml n) = nestDom n := by
  induction n generalizing pos prev tag with
  | zero => rfl
  | succ n ih =>
    simp [nestXml, xe, domOf, nestDom, ih, svgNs, show elementNamed st!"g" = some .G by decide +kernel, idFrom, allAssigns, xmlAssigns,
      ruleAssigns, styleAttrAssigns, xmlAttribute, attrsOf, refsOf]

theorem deep_dom (n : Nat) : svgDom sampleLib (deepXml n) = .element .Svg [] [] [] (nestDom n) .nil := by
  have hs : sampleLib.sheet (styleTexts (deepXml n)) = [] := by
    rw [← cssTexts_eq]
    simp [deepXml, xe, cssTexts, nest_styles, sampleLib]
  rw [svgDom, hs]
  simp [deepXml, xe, domOf, nest_dom, svgNs, show elementNamed st!"svg" = some .Svg by decide +kernel, idFrom, allAssigns, xmlAssigns,
    ruleAssigns, styleAttrAssigns, xmlAttribute, attrsOf, refsOf]

theorem nest_unstyled (n : Nat) : (nestDom n).unstyled = nestDom n := by
  induction n with
  | zero => rfl
  | succ n ih => simp [nestDom, Dom.unstyled, ih]

theorem nest_final {t : St} : ∀ (n : Nat) (T : Trees), (nestDom n).Final t T →
    T.height = n ∧ ∀ j ∈ T.pre, t.nodeType j = .element ∧ t.attributes j = []
  | 0, T, h => by
    simp only [nestDom, Dom.Final] at h
    subst h
    simp [Trees.height, Trees.pre]
  | n + 1, T, h => by
    obtain ⟨m, K, R, rfl, h1, _, _, _, _, h2, h3, h4⟩ := h
    simp only [Dom.Final] at h4
    subst h4
    obtain ⟨k1, k2⟩ := nest_final n K h3
    refine ⟨by simp [Trees.height, k1], ?_⟩
    intro j hj
    simp only [Trees.pre, List.append_nil, List.mem_cons] at hj
    rcases hj with rfl | hj
    · exact ⟨h1, h2 rfl⟩
    · exact k2 j hj

/-- A document of any depth is parsed; the tree has that depth. -/
theorem deep_parsed (n : Nat) : ∃ (t : St) (F : Forest) (i : NodeId) (T : Trees), parseSvg sampleLib true (deepXml n) = .ok t ∧ Reachable t ∧ t.Acyclic ∧ Describes t F ∧
    F.kids t.rootId = [i] ∧ t.live i = true ∧ T.Of F [i] ∧ T.height = n + 1 ∧ ∀ j ∈ T.pre, t.nodeType j = .element ∧ t.attributes j = [] := by
  have htop : (deepXml n).topSvg.head? = some .Svg := by
    rw [← tags_domOf sampleLib (sampleLib.sheet (styleTexts (deepXml n))) (deepXml n) .root [] none]
    change (svgDom sampleLib (deepXml n)).tags.head? = _
    rw [deep_dom]; rfl
  obtain ⟨t, e⟩ := (C31_svg sampleLib true (deepXml n)).2 htop
  obtain ⟨T, F, hF, hT, hf⟩ := C32_final e
  have hr := (C44_reachable e).1.reachable
  rw [deep_dom] at hf
  have hu : (Dom.element .Svg [] [] [] (nestDom n) .nil).unstyled = .element .Svg [] [] [] (nestDom n) .nil := by
    simp [Dom.unstyled, nest_unstyled]
  rw [hu] at hf
  obtain ⟨i, K, R, rfl, h1, _, _, _, _, h2, h3, h4⟩ := hf
  simp only [Dom.Final] at h4
  subst h4
  obtain ⟨k1, k2⟩ := nest_final n K h3
  obtain ⟨l, hl, hK, hR⟩ := hT
  simp only [Trees.Of] at hR
  subst hR
  have hrl : t.live t.rootId = true := by
    obtain ⟨_, hti⟩ := hr.inv.tree; exact hti.root
  refine ⟨t, F, i, .cons i K .nil, e, hr, (C44_tree e).2, hF, hl, (hF.wf.kids _ hrl i (by rw [hl]; simp)).1, ⟨[], rfl, hK, rfl⟩,
    by simp [Trees.height, k1], ?_⟩
  intro j hj
  simp only [Trees.pre, List.append_nil, List.mem_cons] at hj
  rcases hj with rfl | hj
  · exact ⟨h1, h2 rfl⟩
  · exact k2 j hj

/-- C91, no bound for the parser: whatever the size of the stack, there is a document that `process_node` cannot read, although it is read
with a larger stack. -/
theorem C91_no_bound_parse (d : Nat) : ∃ (L : Lib) (x : Xml) (t : St), parseSvg L true x = .ok t ∧
    processNodesS L (L.sheet (cssTexts x)) d .root [] (St.init true).rootId x ⟨St.init true, []⟩ = .error .overflow := by
  obtain ⟨t, _, _, _, e, _⟩ := deep_parsed d
  refine ⟨sampleLib, deepXml d, t, e, ?_⟩
  obtain ⟨_, p, T, G, s2, s3, u, f, hp⟩ := parse_ok e
  refine (C91_parse _ _ d _ _ _ _ _).2 ?_ p (by rw [cssTexts_eq]; exact f.proc)
  simp [deepXml, xe, Xml.svgHeight, nest_height, svgNs, show (elementNamed st!"svg").isSome = true by decide +kernel]

/-- C91, no bound for `remove_node`, `copy_node_deep` and `drain`: whatever the size of the stack, there is a parsed document on which
they overflow it, although they return with a larger one. -/
theorem C91_no_bound (d : Nat) : ∃ (t : St) (i : NodeId), Reachable t ∧ t.Acyclic ∧ t.live i = true ∧
    (∃ u, t.removeNode i = .ok u) ∧ t.removeNodeS d i = .error .overflow ∧
    (∃ u, t.copyNodeDeep i = .ok u) ∧ t.copyNodeDeepS d i = .error .overflow ∧
    (∃ u, t.drain i (fun _ _ => false) = .ok u) ∧ t.drainS d i (fun _ _ => false) = .error .overflow := by
  obtain ⟨t, F, i, T, e, hr, ha, hF, hk, hi, hT, hh, hel⟩ := deep_parsed (d + 2)
  cases T with
  | nil => simp [Trees.Of] at hT
  | cons j K R =>
    obtain ⟨l, hl, hK, hR⟩ := hT
    obtain ⟨rfl, rfl⟩ : j = i ∧ l = [] := by simpa [eq_comm] using hl
    have := hR.nil_list
    subst this
    have hT : (Trees.cons j K .nil).Of F [j] := ⟨[], rfl, hK, rfl⟩
    have hKh : K.height = d + 2 := by simpa [Trees.height] using hh
    have hkl : ∀ c ∈ F.kids j, t.live c = true := fun c hc => (hF.wf.kids j hi c hc).1
    have hcop : ∀ m, t.live m = true → t.InSubtree j m → Copyable t m := by
      intro m hm hs
      have hmem : m ∈ (Trees.cons j K .nil).pre := by
        simp only [Trees.pre, List.append_nil, List.mem_cons]
        rcases Relation.reflTransGen_iff_eq_or_transGen.1 hs with e | hs
        · exact .inl e.symm
        · exact .inr ((mem_pre_kids hF hi hK hm).2 hs)
      obtain ⟨a1, a2⟩ := hel m hmem
      refine ⟨by rw [a1]; simp, ?_⟩
      intro _ a hm
      rw [a2] at hm
      simp at hm
    have hlook : LooksAtNode fun _ _ => false := fun _ _ _ _ _ _ _ => rfl
    have hdh : ∀ T : Trees, T.drainHeight (fun _ => false) + 1 = max 1 T.height := by
      intro T
      induction T with
      | nil => rfl
      | cons i K R h1 h2 =>
        simp only [Trees.drainHeight, Bool.false_eq_true, if_false, Trees.height]
        split <;> omega
    obtain ⟨u1, _, r1, _⟩ := C20_remove hr ha hF hi
    obtain ⟨u2, n2, _, _, _, r2, _⟩ := C23_deep hr ha hF hi hcop
    obtain ⟨u3, _, _, r3, _⟩ := C21_drain hr ha hF hlook hi
    refine ⟨t, j, hr, ha, hi, ⟨u1, r1⟩, ?_, ⟨_, r2⟩, ?_, ⟨_, r3⟩, ?_⟩
    · rw [C91_remove hr ha hF hi hT, if_neg]
      omega
    · rw [C91_copy hr ha hF hi hcop hK, if_neg]
      omega
    · rw [C91_drain hr ha hF hlook hi hK, if_neg]
      rw [hdh]
      omega

/-- The other side, on the same documents: with enough room for the depth, all of them return. -/
example (n : Nat) : ∃ (t : St) (i : NodeId) (u : St), Reachable t ∧ t.Acyclic ∧ t.live i = true ∧ t.removeNodeS (n + 1) i = .ok u ∧
    processNodesS sampleLib [] (n + 1) .root [] (St.init true).rootId (deepXml n) ⟨St.init true, []⟩ ≠ .error .overflow := by
  obtain ⟨t, F, i, T, e, hr, ha, hF, hk, hi, hT, hh, hel⟩ := deep_parsed n
  obtain ⟨u, _, r, _⟩ := C20_remove hr ha hF hi
  refine ⟨t, i, u, hr, ha, hi, ?_, ?_⟩
  · rw [C91_remove hr ha hF hi hT, if_pos (by omega), r]; rfl
  · rw [(C91_parse _ _ (n + 1) _ _ _ _ _).1]
    · cases processNodes sampleLib [] .root [] (St.init true).rootId (deepXml n) ⟨St.init true, []⟩ <;> simp [step, Except.mapError]
    · simp only [deepXml, xe, Xml.svgHeight, nest_height]
      split <;> omega

end Svgdom
