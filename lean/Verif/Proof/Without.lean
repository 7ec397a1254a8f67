import Verif.Spec.Without
import Verif.Proof.Twice
import Verif.Proof.Picture

/-! A document without one of its subtrees is written as before, without the part for the subtree. -/

set_option autoImplicit false

namespace Svgdom

open Relation

/-! ### One node -/

/-- If the namespaces are written differently, only that differs. -/
theorem Echo.start_split {s u : St} {i n : NodeId} (A : Echo s u i n) (W : ValueWriter) (hid : u.idOf n = s.idOf i) {ns ns' : List Ev}
    (h1 : s.writeNamespaces i = .ok ns) (h2 : u.writeNamespaces n = .ok ns') {es : List Ev} (ht : s.nodeType i = .element)
    (h : s.writeStart W i = .ok es) :
    ∃ p q, es = p ++ ns ++ q ∧ u.writeStart W n = .ok (p ++ ns' ++ q) := by
  unfold St.writeStart at h ⊢
  rw [A.type]
  rw [ht] at h ⊢
  simp only [A.tag ht]
  obtain ⟨name, attrs, hn, h2', h3⟩ : ∃ name attrs, (∀ f : Str → Except Err (List Ev), (match s.tagName i with
      | .id e => e.asStr? >>= f
      | .name x => f x) = f name) ∧ s.writeAttributes W i = .ok attrs ∧
      (.startElement name :: attrs ++ if s.hasTagName i (.id .Text) then [.preserve true] else []) = es := by
    cases hg : s.tagName i with
    | id e =>
      rw [hg] at h
      simp only [bind_ok] at h
      obtain ⟨name, h1, attrs, h2, h3⟩ := h
      cases h3
      exact ⟨name, attrs, fun f => by simp [h1, bind, Except.bind], h2, rfl⟩
    | name x =>
      rw [hg] at h
      simp only [bind_ok] at h
      obtain ⟨name, h1, attrs, h2, h3⟩ := h
      cases h1
      cases h3
      exact ⟨x, attrs, fun f => rfl, h2, rfl⟩
  subst h3
  simp only [St.writeAttributes, bind_ok] at h2'
  obtain ⟨ns0, h4, svg, h5, h6⟩ := h2'
  rw [h1] at h4
  cases h4
  cases h6
  have hhas : u.hasTagName n (.id .Text) = s.hasTagName i (.id .Text) := by simp only [St.hasTagName, A.tag ht]
  have hsvg := (A.svgAttributes ht W (sortByKey (attrsSvg (s.attributes i)))).trans h5
  refine ⟨[.startElement name], (if s.hasIdAttr i then [Ev.attribute st!"id" (s.idOf i)] else []) ++ svg ++
    s.writeOtherAttributes W (s.attributes i) ++ (if s.hasTagName i (.id .Text) then [.preserve true] else []), by simp, ?_⟩
  refine (hn _).trans ?_
  simp only [St.writeAttributes, h2, A.attrs ht, hsvg, St.hasIdAttr, hid, A.otherAttributes W, bind, Except.bind,
    pure, Except.pure, hhas]
  simp

/-- Outputs of lists of edges, if something is left out at one of the starts. -/
theorem edges_one {s u : St} {W : ValueWriter} {a : NodeId} {x : List Ev}
    (hx : ∀ es, s.writeStart W a = .ok es → ∃ p q, es = p ++ x ++ q ∧ u.writeStart W a = .ok (p ++ q)) : ∀ {l : List Edge} {es : List Ev},
    (∀ j, j ≠ a → .start j ∈ l → ∀ es, s.writeStart W j = .ok es → u.writeStart W j = .ok es) →
    (∀ j, .stop j ∈ l → u.writeEnd j = s.writeEnd j) → l.Nodup → .start a ∈ l → s.writeEdges W l = .ok es →
    ∃ b1 b2, es = b1 ++ x ++ b2 ∧ u.writeEdges W l = .ok (b1 ++ b2)
  | [], es, _, _, _, ha, _ => by simp at ha
  | .start n :: l, es, h1, h2, hn, ha, h => by
    simp only [St.writeEdges, bind_ok] at h
    obtain ⟨e, he, r, hr, h3⟩ := h
    cases h3
    rw [List.nodup_cons] at hn
    by_cases hna : n = a
    · subst hna
      obtain ⟨p, q, rfl, hu⟩ := hx e he
      have := edges_echo (u := u) (fun j hj => h1 j (fun hh => hn.1 (hh ▸ hj)) (by simp [hj])) (fun j hj => h2 j (by simp [hj])) hr
      exact ⟨p, q ++ r, by simp, by simp [St.writeEdges, hu, this, bind, Except.bind, pure, Except.pure]⟩
    · obtain ⟨b1, b2, rfl, hu⟩ := edges_one hx (fun j hj hm => h1 j hj (by simp [hm])) (fun j hj => h2 j (by simp [hj])) hn.2
        (by
          rcases List.mem_cons.1 ha with hh | hh
          · cases hh; exact absurd rfl hna
          · exact hh) hr
      exact ⟨e ++ b1, b2, by simp, by simp [St.writeEdges, h1 n hna (by simp) e he, hu, bind, Except.bind, pure, Except.pure]⟩
  | .stop n :: l, es, h1, h2, hn, ha, h => by
    simp only [St.writeEdges, bind_ok] at h
    obtain ⟨r, hr, h3⟩ := h
    cases h3
    rw [List.nodup_cons] at hn
    obtain ⟨b1, b2, rfl, hu⟩ := edges_one hx (fun j hj hm => h1 j hj (by simp [hm])) (fun j hj => h2 j (by simp [hj])) hn.2 (by simpa using ha) hr
    exact ⟨s.writeEnd n ++ b1, b2, by simp, by simp [St.writeEdges, h2 n (by simp), hu, bind, Except.bind, pure, Except.pure]⟩

/-! ### Trees -/

/-- Without the trees with root `i`. -/
def Trees.without (i : NodeId) : Trees → Trees
  | nil => nil
  | cons j K R => if j = i then R.without i else cons j (K.without i) (R.without i)

section
variable {i : NodeId}

theorem Trees.without_none : ∀ {T : Trees}, i ∉ T.pre → T.without i = T
  | .nil, _ => rfl
  | .cons j K R, h => by
    simp only [Trees.pre, List.mem_cons, List.mem_append, not_or] at h
    rw [Trees.without, if_neg (Ne.symm h.1), without_none h.2.1, without_none h.2.2]

theorem Trees.without_of {F G : Forest} : ∀ {T : Trees} {l : List NodeId}, T.Of F l →
    (∀ j ∈ (T.without i).pre, G.kids j = (F.kids j).filter (· ≠ i)) → (T.without i).Of G (l.filter (· ≠ i))
  | .nil, l, h, _ => by simp only [Trees.Of] at h; subst h; rfl
  | .cons j K R, l, ⟨l', e, hK, hR⟩, hk => by
    subst e
    by_cases hj : j = i
    · simp only [Trees.without, if_pos hj] at hk ⊢
      rw [List.filter_cons_of_neg (by simp [hj])]
      exact without_of hR hk
    · simp only [Trees.without, if_neg hj] at hk ⊢
      have h1 := without_of hK fun m hm => hk m (by simp [Trees.pre, hm])
      have h2 := without_of hR fun m hm => hk m (by simp [Trees.pre, hm])
      rw [← hk j (by simp [Trees.pre])] at h1
      exact ⟨l'.filter (· ≠ i), by simp [hj], h1, h2⟩

/-- A tree that contains a node contains what is below it. -/
theorem below_pre {F : Forest} {Ki : Trees} (hKi : Ki.Of F (F.kids i)) : ∀ {T : Trees} {l : List NodeId}, T.Of F l → i ∈ T.pre →
    ∀ m ∈ i :: Ki.pre, m ∈ T.pre
  | .nil, _, _, h, _, _ => by simp [Trees.pre] at h
  | .cons j K R, l, ⟨l', e, hK, hR⟩, h, m, hm => by
    simp only [Trees.pre, List.mem_cons, List.mem_append] at h ⊢
    rcases h with h | h | h
    · subst h
      cases hK.unique hKi
      rcases List.mem_cons.1 hm with hm | hm
      · exact .inl hm
      · exact .inr (.inl hm)
    · exact .inr (.inl (below_pre hKi hK h m hm))
    · exact .inr (.inr (below_pre hKi hR h m hm))

/-- The nodes that are left. -/
theorem Trees.mem_without {F : Forest} {Ki : Trees} (hKi : Ki.Of F (F.kids i)) : ∀ {T : Trees} {l : List NodeId}, T.Of F l → T.pre.Nodup →
    ∀ {m : NodeId}, m ∈ (T.without i).pre ↔ m ∈ T.pre ∧ ¬ (i ∈ T.pre ∧ (m = i ∨ m ∈ Ki.pre))
  | .nil, _, _, _, m => by simp [Trees.without, Trees.pre]
  | .cons j K R, l, ⟨l', e, hK, hR⟩, hn, m => by
    simp only [Trees.pre, List.nodup_cons, List.nodup_append, List.mem_append, not_or] at hn
    obtain ⟨⟨n1, n2⟩, n3, n4, n5⟩ := hn
    have h1 := mem_without hKi hK n3 (m := m)
    have h2 := mem_without hKi hR n4 (m := m)
    by_cases hj : j = i
    · subst hj
      cases hK.unique hKi
      simp only [Trees.without, if_true, Trees.pre, List.mem_cons, List.mem_append, h2, true_or, true_and]
      constructor
      · rintro ⟨a, b⟩
        exact ⟨.inr (.inr a), fun hx => hx.elim (fun hx => n2 (hx ▸ a)) (fun hx => n5 m hx m a rfl)⟩
      · rintro ⟨a, b⟩
        rcases a with a | a | a
        · exact absurd (.inl a) b
        · exact absurd (.inr a) b
        · exact ⟨a, fun hx => b hx.2⟩
    · simp only [Trees.without, if_neg hj, Trees.pre, List.mem_cons, List.mem_append, h1, h2, Ne.symm hj, false_or]
      have sub : ∀ {T : Trees} {l : List NodeId}, T.Of F l → i ∈ T.pre → ∀ m ∈ i :: Ki.pre, m ∈ T.pre := by
        intro T l hT hi m hm
        exact below_pre hKi hT hi m hm
      constructor
      · rintro (a | ⟨a, b⟩ | ⟨a, b⟩)
        · subst a
          refine ⟨.inl rfl, fun ⟨hx, hy⟩ => ?_⟩
          rcases hx with hx | hx
          · exact n1 (sub hK hx m (List.mem_cons.2 hy))
          · exact n2 (sub hR hx m (List.mem_cons.2 hy))
        · refine ⟨.inr (.inl a), fun ⟨hx, hy⟩ => ?_⟩
          rcases hx with hx | hx
          · exact b ⟨hx, hy⟩
          · exact n5 m a m (sub hR hx m (List.mem_cons.2 hy)) rfl
        · refine ⟨.inr (.inr a), fun ⟨hx, hy⟩ => ?_⟩
          rcases hx with hx | hx
          · exact n5 m (sub hK hx m (List.mem_cons.2 hy)) m a rfl
          · exact b ⟨hx, hy⟩
      · rintro ⟨a | a | a, b⟩
        · exact .inl a
        · exact .inr (.inl ⟨a, fun hx => b ⟨.inl hx.1, hx.2⟩⟩)
        · exact .inr (.inr ⟨a, fun hx => b ⟨.inr hx.1, hx.2⟩⟩)

theorem Trees.without_edges {F : Forest} : ∀ {T : Trees} {l : List NodeId}, T.Of F l → T.pre.Nodup → i ∈ T.pre →
    ∃ A B K, K.Of F (F.kids i) ∧ T.edges = A ++ (cons i K nil).edges ++ B ∧ (T.without i).edges = A ++ B
  | .nil, _, _, _, h => by simp [Trees.pre] at h
  | .cons j K R, l, ⟨l', e, hK, hR⟩, hn, hi => by
    simp only [Trees.pre, List.nodup_cons, List.nodup_append, List.mem_append, not_or] at hn
    obtain ⟨⟨n1, n2⟩, n3, n4, n5⟩ := hn
    simp only [Trees.pre, List.mem_cons, List.mem_append] at hi
    by_cases hj : j = i
    · subst hj
      exact ⟨[], R.edges, K, hK, by simp [Trees.edges], by simp [Trees.without, without_none n2]⟩
    · rcases hi with hi | hi | hi
      · exact absurd hi.symm hj
      · obtain ⟨A, B, K', h1, h2, h3⟩ := without_edges hK n3 hi
        have : i ∉ R.pre := fun hx => n5 i hi i hx rfl
        exact ⟨.start j :: A, B ++ .stop j :: R.edges, K', h1, by simp [Trees.edges, h2],
          by simp only [Trees.without, if_neg hj, without_none this, Trees.edges, h3]; simp⟩
      · obtain ⟨A, B, K', h1, h2, h3⟩ := without_edges hR n4 hi
        have : i ∉ K.pre := fun hx => n5 i hx i hi rfl
        exact ⟨.start j :: (K.edges ++ .stop j :: A), B, K', h1, by simp [Trees.edges, h2],
          by simp only [Trees.without, if_neg hj, without_none this, Trees.edges, h3]; simp⟩

end

/-! ### Documents -/

/-- What is written for the namespaces. -/
def nsEvents (top any : Bool) : List Ev :=
  if top then .attribute st!"xmlns" st!"http://www.w3.org/2000/svg" ::
    (if any then [.attribute st!"xmlns:xlink" st!"http://www.w3.org/1999/xlink"] else []) else []

theorem namespaces_events {s : St} {j : NodeId} {l : List NodeId} (h : s.descendantList j = .ok l) :
    s.writeNamespaces j = .ok (nsEvents (s.hasTagName j (.id .Svg) && decide ((s.parent j).map s.isRoot = some true))
      (l.any fun m => s.hasAttribute m (.id .Href))) := by
  unfold St.writeNamespaces nsEvents
  by_cases h1 : s.hasTagName j (.id .Svg) = true
  · by_cases h2 : (s.parent j).map s.isRoot = some true
    · simp [h1, h2, h, bind, Except.bind, pure, Except.pure]
    · simp [h1, h2, pure, Except.pure]
  · simp [h1, pure, Except.pure]

theorem without_written {s u : St} {F G : Forest} (hs : Side s F) (hu : Side u G) {i : NodeId} (hi : s.live i = true)
    (hd : s.InSubtree s.rootId i) (hir : i ≠ s.rootId) (W : ValueWriter) {evs : List Ev}
    (out : ∀ j, s.live j = true → s.Rest i j → u.live j = true ∧ u.look j = s.look j ∧ u.parent j = s.parent j ∧
      G.kids j = (F.kids j).filter (· ≠ i))
    (ids : ∀ j, s.live j = true → u.idOf j = s.idOf j) (types : ∀ j, s.live j = true → u.nodeType j = s.nodeType j) (root : u.rootId = s.rootId) (hw : s.writeDom W = .ok evs) :
    ∃ before part behind edges, s.edgeList i = .ok edges ∧ s.writeEdges W edges = .ok part ∧ evs = before ++ part ++ behind ∧
      (s.KeepsXlink i → u.writeDom W = .ok (before ++ behind)) ∧
      (¬ s.KeepsXlink i → ∃ b1 b2, before ++ behind = b1 ++ [xlinkDecl] ++ b2 ∧ u.writeDom W = .ok (b1 ++ b2)) := by
  obtain ⟨h, ha, hF⟩ := hs
  have hroot : s.live s.rootId = true := by
    obtain ⟨_, hT⟩ := h.inv.tree; exact hT.root
  obtain ⟨Ki, hKi⟩ := trees_exist h.inv hF ha (F.kids i) (fun c hc => (hF.wf.kids i hi c hc).1)
  have hin : ∀ m, s.live m = true → (s.InSubtree i m ↔ m = i ∨ m ∈ Ki.pre) := fun m hm => by
    rw [mem_pre_kids hF hi hKi hm]
    exact ⟨fun hx => (reflTransGen_iff_eq_or_transGen.1 hx).elim (fun e => .inl e.symm) .inr,
      fun hx => hx.elim (fun e => e ▸ .refl) fun e => e.to_reflTransGen⟩
  have chain : ∀ {a b m : NodeId}, s.InSubtree a m → s.InSubtree b m → s.InSubtree a b ∨ s.InSubtree b a := by
    intro a b m h1 h2
    exact (ReflTransGen.total_of_right_unique (fun x y z hy hz => Option.some.inj (hy.symm.trans hz)) h1 h2).symm
  have kidsl : ∀ j, s.live j = true → ∀ c ∈ F.kids j, s.live c = true := fun j hj c hc => (hF.wf.kids j hj c hc).1
  -- the trees of a node outside of the subtree
  have trees : ∀ j, s.live j = true → s.Rest i j → ∃ L L' : Trees, s.descendantList j = .ok (j :: L.pre) ∧
      u.descendantList j = .ok (j :: L'.pre) ∧ (∀ m, s.live m = true → (m ∈ j :: L.pre ↔ s.InSubtree j m)) ∧
      (∀ m ∈ j :: L.pre, s.live m = true) ∧ ∀ m, m ∈ j :: L'.pre ↔ m ∈ j :: L.pre ∧ ¬ s.InSubtree i m := by
    intro j hj hjr
    obtain ⟨hjd, hij⟩ := hjr
    have hjr : s.Rest i j := ⟨hjd, hij⟩
    obtain ⟨L, hL⟩ := trees_exist h.inv hF ha (F.kids j) (kidsl j hj)
    have hLl := pre_live hF hL (kidsl j hj)
    have hfull : (Trees.cons j L .nil).Of F [j] := ⟨[], rfl, hL, rfl⟩
    have hnd := pre_nodup hF ha hfull (by simpa using hj) (by simp) (by simp)
    simp only [Trees.pre, List.append_nil, List.nodup_cons] at hnd
    have hmem : ∀ m, m ∈ (L.without i).pre ↔ m ∈ L.pre ∧ ¬ s.InSubtree i m := by
      intro m
      rw [Trees.mem_without hKi hL hnd.2]
      refine and_congr_right fun hm => not_congr ?_
      rw [hin m (hLl m hm)]
      refine ⟨fun hx => hx.2, fun hx => ⟨?_, hx⟩⟩
      have h1 := (mem_pre_kids hF hj hL (hLl m hm)).1 hm
      rcases chain h1.to_reflTransGen ((hin m (hLl m hm)).2 hx) with h2 | h2
      · rcases reflTransGen_iff_eq_or_transGen.1 h2 with h3 | h3
        · exact absurd (h3 ▸ .refl) hij
        · exact (mem_pre_kids hF hj hL hi).2 h3
      · exact absurd h2 hij
    have hL' : (L.without i).Of G (G.kids j) := by
      rw [(out j hj hjr).2.2.2]
      exact Trees.without_of hL fun m hm => by
        obtain ⟨h1, h2⟩ := (hmem m).1 hm
        exact (out m (hLl m h1) ⟨((mem_pre_kids hF hj hL (hLl m h1)).1 h1).to_reflTransGen.trans hjd, h2⟩).2.2.2
    refine ⟨L, L.without i, descendants_tree h ha hF hj hL,
      descendants_tree hu.reach hu.acyclic hu.desc (out j hj hjr).1 hL', fun m hm => ?_, fun m hm => ?_, fun m => ?_⟩
    · rw [List.mem_cons, mem_pre_kids hF hj hL hm]
      exact ⟨fun hx => hx.elim (fun e => e ▸ .refl) fun e => e.to_reflTransGen,
        fun hx => (reflTransGen_iff_eq_or_transGen.1 hx).elim (fun e => .inl e.symm) .inr⟩
    · rcases List.mem_cons.1 hm with rfl | hm
      · exact hj
      · exact hLl m hm
    · rw [List.mem_cons, hmem, List.mem_cons]
      constructor
      · rintro (rfl | ⟨h1, h2⟩)
        · exact ⟨.inl rfl, hij⟩
        · exact ⟨.inr h1, h2⟩
      · rintro ⟨h1 | h1, h2⟩
        · exact .inl h1
        · exact .inr ⟨h1, h2⟩
  have href : ∀ m, s.live m = true → s.Rest i m → u.hasAttribute m (.id .Href) = s.hasAttribute m (.id .Href) :=
    fun m hm hx => by simp only [St.hasAttribute, show u.attributes m = s.attributes m from congrArg Look.attrs (out m hm hx).2.1]
  have echo : ∀ j, s.live j = true → s.Rest i j → Echo s u j j := fun j hj hij => by
    have lk := (out j hj hij).2.1
    exact
      { type := congrArg Look.type lk
        tag := fun _ => congrArg Look.tag lk
        attrs := fun _ => congrArg Look.attrs lk
        text := fun _ => congrArg Look.text lk
        target := fun a haj m hm => ids m (h.inv.link.targets j hj a haj m hm)
        textTag := fun _ => by simp only [St.hasTagName, show u.tagName j = s.tagName j from congrArg Look.tag lk] }
  have above : ∀ j, s.live j = true → s.Rest i j → (u.parent j).map u.isRoot = (s.parent j).map s.isRoot := by
    intro j hj hij
    rw [(out j hj hij).2.2.1]
    cases hq : s.parent j with
    | none => rfl
    | some q =>
      have hql := ((C01_neighbours h hj).2.2.2.2 hq).1
      simp only [Option.map_some, St.isRoot, types q hql]
  -- the namespaces of a node outside of the subtree
  have names : ∀ j, s.live j = true → s.Rest i j → ∃ top x y, s.writeNamespaces j = .ok (nsEvents top x) ∧
      u.writeNamespaces j = .ok (nsEvents top y) ∧ (top = true ↔ s.tagName j = .id .Svg ∧ s.parent j = some s.rootId) ∧
      (x = true ↔ ∃ m, s.live m = true ∧ s.InSubtree j m ∧ s.hasAttribute m (.id .Href) = true) ∧
      (y = true ↔ ∃ m, s.live m = true ∧ s.InSubtree j m ∧ ¬ s.InSubtree i m ∧ s.hasAttribute m (.id .Href) = true) := by
    intro j hj hij
    obtain ⟨L, L', e1, e2, m1, m2, m3⟩ := trees j hj hij
    have eu := namespaces_events e2
    have tg : u.hasTagName j (.id .Svg) = s.hasTagName j (.id .Svg) := by
      simp only [St.hasTagName, show u.tagName j = s.tagName j from congrArg Look.tag (out j hj hij).2.1]
    rw [tg, above j hj hij] at eu
    refine ⟨_, _, _, namespaces_events e1, eu, ?_, ?_, ?_⟩
    · rw [Bool.and_eq_true, decide_eq_true_eq, St.hasTagName, decide_eq_true_eq]
      refine and_congr_right fun _ => ?_
      cases hq : s.parent j with
      | none => simp
      | some q =>
        have hql := ((C01_neighbours h hj).2.2.2.2 hq).1
        simp [St.isRoot, h.nodesOk.root q hql]
    · rw [List.any_eq_true]
      constructor
      · rintro ⟨m, hm, hx⟩
        exact ⟨m, m2 m hm, (m1 m (m2 m hm)).1 hm, hx⟩
      · rintro ⟨m, hm, hx, hy⟩
        exact ⟨m, (m1 m hm).2 hx, hy⟩
    · rw [List.any_eq_true]
      constructor
      · rintro ⟨m, hm, hx⟩
        obtain ⟨h1, h2⟩ := (m3 m).1 hm
        exact ⟨m, m2 m h1, (m1 m (m2 m h1)).1 h1, h2, by rw [← href m (m2 m h1) ⟨((m1 m (m2 m h1)).1 h1).trans hij.1, h2⟩]; exact hx⟩
      · rintro ⟨m, hm, hx, hy, hz⟩
        exact ⟨m, (m3 m).2 ⟨(m1 m hm).2 hx, hy⟩, by rw [href m hm ⟨hx.trans hij.1, hy⟩]; exact hz⟩
  -- the document
  obtain ⟨D, hD, _, hDe, _⟩ := C07_traverse h ha hF hroot
  have hDl := pre_live hF hD (by simpa using hroot)
  have hDn := pre_nodup hF ha hD (by simpa using hroot) (by simp) (by simp)
  have hiD : i ∈ D.pre := (mem_pre hF hD (by simpa using hroot) i hi).2 ⟨s.rootId, by simp, hd⟩
  have hout : ∀ j ∈ (D.without i).pre, s.live j = true ∧ s.Rest i j := by
    intro j hj
    obtain ⟨h1, h2⟩ := (Trees.mem_without hKi hD hDn).1 hj
    exact ⟨hDl j h1, by simpa using (mem_pre hF hD (by simpa using hroot) j (hDl j h1)).1 h1, fun hx => h2 ⟨hiD, (hin j (hDl j h1)).1 hx⟩⟩
  have hD' : (D.without i).Of G [s.rootId] := by
    have := Trees.without_of (i := i) (G := G) hD fun j hj => (out j (hout j hj).1 (hout j hj).2).2.2.2
    rwa [List.filter_cons_of_pos (by simpa using Ne.symm hir), List.filter_nil] at this
  have hri : ¬ s.InSubtree i s.rootId := fun hx => by
    rcases reflTransGen_iff_eq_or_transGen.1 (hx.trans hd) with h3 | h3
    · rcases reflTransGen_iff_eq_or_transGen.1 hx with h4 | h4
      · exact hir h4
      · exact ha _ hroot (h4.trans_left hd)
    · exact ha _ hroot h3
  obtain ⟨D2, hD2, _, hD2e, _⟩ := C07_traverse hu.reach hu.acyclic hu.desc (i := s.rootId) (out _ hroot ⟨.refl, hri⟩).1
  cases hD2.unique hD'
  obtain ⟨A, B, K', hK', ee, ee2⟩ := Trees.without_edges hD hDn hiD
  cases hK'.unique hKi
  have hw' : s.writeEdges W D.edges = .ok evs := by simpa [St.writeDom, hDe, bind, Except.bind] using hw
  rw [ee] at hw'
  obtain ⟨ab, behind, w1, w2, rfl⟩ := edges_split hw'
  obtain ⟨before, part, w3, w4, rfl⟩ := edges_split w1
  have w := writeEdges_append s W _ _ w3 w2
  rw [← ee2] at w
  have hst : ∀ j, (.start j ∈ (D.without i).edges ∨ .stop j ∈ (D.without i).edges) → s.live j = true ∧ s.Rest i j := by
    intro j hj
    rcases hj with hj | hj
    · exact hout j (((mem_edges _ j).1).1 hj)
    · exact hout j (((mem_edges _ j).2).1 hj)
  have stops : ∀ j, .stop j ∈ (D.without i).edges → u.writeEnd j = s.writeEnd j := fun j hj => by
    obtain ⟨h1, h2⟩ := hst j (.inr hj)
    exact (echo j h1 h2).stop
  have hdom : u.writeDom W = u.writeEdges W (D.without i).edges := by
    simp only [St.writeDom, root, hD2e, bind, Except.bind]
  obtain ⟨T', hT', _, hTe, _⟩ := C07_traverse h ha hF hi
  have hTi : (Trees.cons i Ki .nil).Of F [i] := ⟨[], rfl, hKi, rfl⟩
  cases hT'.unique hTi
  refine ⟨before, part, behind, _, hTe, w4, rfl, ?_⟩
  rw [hdom]
  have starts : ∀ j, .start j ∈ (D.without i).edges → (s.nodeType j = .element → s.Ancestor j i → s.parent j = some s.rootId →
      s.tagName j = .id .Svg → (∃ m, s.live m = true ∧ s.InSubtree i m ∧ s.hasAttribute m (.id .Href) = true) →
      ∃ m, s.live m = true ∧ s.InSubtree j m ∧ ¬ s.InSubtree i m ∧ s.hasAttribute m (.id .Href) = true) →
      ∀ es, s.writeStart W j = .ok es → u.writeStart W j = .ok es := by
    intro j hj hkeep es hes
    obtain ⟨h1, h2⟩ := hst j (.inl hj)
    refine ((echo j h1 h2).start W (fun he => ?_) hes).1 (ids j h1)
    obtain ⟨top, x, y, e1, e2, e3, e4, e5⟩ := names j h1 h2
    rw [e1, e2]
    cases top with
    | false => rfl
    | true =>
      obtain ⟨t1, t2⟩ := e3.1 rfl
      have : x = y := by
        rw [Bool.eq_iff_iff, e4, e5]
        constructor
        · rintro ⟨m, m1, m2, m3⟩
          by_cases hx : s.InSubtree i m
          · rcases chain m2 hx with hy | hy
            · rcases reflTransGen_iff_eq_or_transGen.1 hy with h3 | h3
              · exact absurd (h3 ▸ .refl) h2.2
              · exact hkeep he h3 t2 t1 ⟨m, m1, hx, m3⟩
            · exact absurd hy h2.2
          · exact ⟨m, m1, m2, hx, m3⟩
        · rintro ⟨m, m1, m2, _, m3⟩
          exact ⟨m, m1, m2, m3⟩
      rw [this]
  constructor
  · intro hkeep
    exact edges_echo (fun j hj => starts j hj fun h1 h2 h3 h4 => hkeep j h2 h3 h1 h4) stops w
  · intro hno
    unfold St.KeepsXlink at hno
    push Not at hno
    obtain ⟨a, hai, hap, hel, htag, hhref, hno⟩ := hno
    obtain ⟨x, _, hx⟩ := TransGen.tail'_iff.1 hai
    have hal : s.live a = true := up_live hx
    have hia : ¬ s.InSubtree i a := fun hx => ha i hi (hai.trans_left hx)
    have har : s.Rest i a := ⟨.single hap, hia⟩
    have haD : a ∈ (D.without i).pre := (Trees.mem_without hKi hD hDn).2
      ⟨(mem_pre hF hD (by simpa using hroot) a hal).2 ⟨s.rootId, by simp, .single hap⟩, fun hx => hia ((hin a hal).2 hx.2)⟩
    refine edges_one (a := a) ?_ (fun j hja hj => starts j hj fun h1 h2 h3 h4 h5 => ?_) stops ?_ (((mem_edges _ a).1).2 haD) w
    · intro es hes
      obtain ⟨top, x, y, n1, n2, n3, n4, n5⟩ := names a hal har
      obtain ⟨p, q, rfl, q1⟩ := (echo a hal har).start_split W (ids a hal) n1 n2 hel hes
      have hy : y = false := by
        cases hy : y with
        | false => rfl
        | true =>
          obtain ⟨m, m1, m2, m3, m4⟩ := n5.1 hy
          exact absurd m4 (hno m m1 m2 m3)
      obtain ⟨m, m1, m2, m3⟩ := hhref
      rw [hy, n3.2 ⟨htag, hap⟩] at q1
      rw [n4.2 ⟨m, m1, m2.trans hai.to_reflTransGen, m3⟩, n3.2 ⟨htag, hap⟩]
      exact ⟨p ++ [.attribute st!"xmlns" st!"http://www.w3.org/2000/svg"], q, by simp [nsEvents, xlinkDecl], by
        rw [q1]; simp [nsEvents]⟩
    · exfalso
      have cyc : ∀ {b c : NodeId}, b ≠ c → s.parent b = some s.rootId → s.parent c = some s.rootId → ¬ s.InSubtree c b := by
        intro b c hbc hb hc hx
        rcases ReflTransGen.cases_head hx with hh | ⟨q, hq, hh⟩
        · exact hbc hh
        · have hq : s.parent b = some q := hq
          rw [hb] at hq
          cases hq
          exact ha _ hroot (TransGen.tail' hh hc)
      rcases chain hai.to_reflTransGen h2.to_reflTransGen with hh | hh
      · exact cyc hja h3 hap hh
      · exact cyc (Ne.symm hja) hap h3 hh
    · rw [ee2]
      have := edges_nodup hDn
      rw [ee, List.append_assoc] at this
      exact this.sublist (List.Sublist.append_left (List.sublist_append_right _ _) _)

end Svgdom
