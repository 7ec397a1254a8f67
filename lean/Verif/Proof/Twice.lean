import Verif.Spec.Twice
import Verif.Proof.SameWritten
import Verif.Props.Exact
import Verif.Props.Copy

/-! A copy that is placed behind the original is written like the original, without ids. -/

set_option autoImplicit false

namespace Svgdom

open Relation

/-! ### One node -/

/-- Node `n` of `u` has the content of node `i` of `s`, maybe apart from the id. -/
structure Echo (s u : St) (i n : NodeId) : Prop where
  type : u.nodeType n = s.nodeType i
  tag : s.nodeType i = .element → u.tagName n = s.tagName i
  attrs : s.nodeType i = .element → u.attributes n = s.attributes i
  text : s.nodeType i ≠ .element → u.text n = s.text i
  target : ∀ a ∈ s.attributes i, ∀ m, a.value.linkNode = some m → u.idOf m = s.idOf m
  textTag : s.nodeType i ≠ .element → u.hasTagName n (.id .Text) = s.hasTagName i (.id .Text)

section
variable {s u : St} {i n : NodeId}

theorem Echo.value (A : Echo s u i n) (W : ValueWriter) {a : Attribute} (ha : a ∈ s.attributes i) :
    u.writeValue W a.value = s.writeValue W a.value := by
  have key : ∀ n, a.value.linkNode = some n → u.idOf n = s.idOf n := fun n hn => A.target a ha n hn
  cases hv : a.value <;> simp only [St.writeValue] <;> rw [key _ (by rw [hv]; rfl)]

theorem Echo.svgAttributes (A : Echo s u i n) (he : s.nodeType i = .element) (W : ValueWriter) (l : List (AttributeId × Attribute)) :
    u.writeSvgAttributes W n l = s.writeSvgAttributes W i l := by
  induction l with
  | nil => rfl
  | cons x l ih =>
    obtain ⟨aid, a⟩ := x
    have : u.writeSvgAttribute W n aid a.name = s.writeSvgAttribute W i aid a.name := by
      unfold St.writeSvgAttribute
      rw [A.attrs he]
      cases hg : attrsGet (s.attributes i) a.name with
      | none => rfl
      | some b => simp only [A.value W (attrsGet_some hg).1]
    simp only [St.writeSvgAttributes, this, ih]

theorem Echo.otherAttributes (A : Echo s u i n) (W : ValueWriter) :
    u.writeOtherAttributes W (s.attributes i) = s.writeOtherAttributes W (s.attributes i) := by
  unfold St.writeOtherAttributes
  refine List.filterMap_congr fun a ha => ?_
  cases a.name with
  | id k => rfl
  | name x => simp only [A.value W ha]

theorem svgAttributes_raw {W : ValueWriter} : ∀ {l : List (AttributeId × Attribute)} {es : List Ev},
    s.writeSvgAttributes W i l = .ok es → ∀ e ∈ es, e.notId = true
  | [], es, h, e, he => by cases h; simp at he
  | (aid, a) :: l, es, h, e, he => by
    simp only [St.writeSvgAttributes, bind_ok] at h
    obtain ⟨e1, h1, e2, h2, h3⟩ := h
    cases h3
    rcases List.mem_append.1 he with he | he
    · unfold St.writeSvgAttribute at h1
      cases hg : attrsGet (s.attributes i) a.name with
      | none => rw [hg] at h1; cases h1
      | some b =>
        rw [hg] at h1
        simp only [bind_ok] at h1
        obtain ⟨nm, _, h1⟩ := h1
        split at h1
        · split at h1 <;> cases h1
          · rw [List.mem_singleton.1 he]; rfl
          · simp at he
        · cases h1
          rw [List.mem_singleton.1 he]; rfl
    · exact svgAttributes_raw h2 e he

theorem otherAttributes_raw {W : ValueWriter} {l : List Attribute} : ∀ e ∈ s.writeOtherAttributes W l, e.notId = true := by
  intro e he
  unfold St.writeOtherAttributes at he
  obtain ⟨a, _, h⟩ := List.mem_filterMap.1 he
  cases hn : a.name with
  | id k => rw [hn] at h; cases h
  | name x => rw [hn] at h; cases h; rfl

theorem namespaces_noId {es : List Ev} (h : s.writeNamespaces i = .ok es) : ∀ e ∈ es, e.notId = true := by
  intro e he
  unfold St.writeNamespaces at h
  split at h
  · split at h
    · simp only [bind_ok] at h
      obtain ⟨ds, _, h⟩ := h
      cases h
      rcases List.mem_cons.1 he with rfl | he
      · decide
      · split at he
        · rw [List.mem_singleton.1 he]; decide
        · simp at he
    · cases h; simp at he
  · cases h; simp at he

/-- What is written at the start of the node. -/
theorem Echo.start (A : Echo s u i n) (W : ValueWriter) (hns : s.nodeType i = .element → u.writeNamespaces n = s.writeNamespaces i)
    {es : List Ev} (h : s.writeStart W i = .ok es) :
    (u.idOf n = s.idOf i → u.writeStart W n = .ok es) ∧ (u.idOf n = [] → u.writeStart W n = .ok (es.filter Ev.notId)) := by
  unfold St.writeStart at h ⊢
  rw [A.type]
  cases ht : s.nodeType i with
  | root => rw [ht] at h; cases h; exact ⟨fun _ => rfl, fun _ => rfl⟩
  | comment => rw [ht] at h; cases h; rw [A.text (by rw [ht]; simp)]; exact ⟨fun _ => rfl, fun _ => rfl⟩
  | text => rw [ht] at h; cases h; rw [A.text (by rw [ht]; simp)]; exact ⟨fun _ => rfl, fun _ => rfl⟩
  | element =>
    rw [ht] at h
    rw [A.tag ht]
    obtain ⟨name, attrs, hn, h2, h3⟩ : ∃ name attrs, (∀ f : Str → Except Err (List Ev), (match s.tagName i with
        | .id e => e.asStr? >>= f
        | .name x => f x) = f name) ∧ s.writeAttributes W i = .ok attrs ∧
        (.startElement name :: attrs ++ if s.hasTagName i (.id .Text) then [.preserve true] else []) = es := by
      cases hg : s.tagName i with
      | id e =>
        rw [hg] at h
        simp only [bind_ok] at h
        obtain ⟨name, h1, attrs, h2, h3⟩ := h
        cases h3
        exact ⟨name, attrs, fun f => by simp [h1, bind, Except.bind], h2, rfl⟩
      | name x =>
        rw [hg] at h
        simp only [bind_ok] at h
        obtain ⟨name, h1, attrs, h2, h3⟩ := h
        cases h1
        cases h3
        exact ⟨x, attrs, fun f => rfl, h2, rfl⟩
    subst h3
    simp only [St.writeAttributes, bind_ok] at h2
    obtain ⟨ns, h4, svg, h5, h6⟩ := h2
    cases h6
    have hhas : u.hasTagName n (.id .Text) = s.hasTagName i (.id .Text) := by simp only [St.hasTagName, A.tag ht]
    have hsvg := (A.svgAttributes ht W (sortByKey (attrsSvg (s.attributes i)))).trans h5
    constructor
    · intro hid
      refine (hn _).trans ?_
      simp only [St.writeAttributes, hns ht, h4, A.attrs ht, hsvg, St.hasIdAttr, hid, A.otherAttributes W, bind, Except.bind,
        pure, Except.pure, hhas]
      rfl
    · intro hid
      have f1 : ns.filter Ev.notId = ns := List.filter_eq_self.2 (namespaces_noId h4)
      have f2 : svg.filter Ev.notId = svg := List.filter_eq_self.2 (svgAttributes_raw h5)
      have f3 : (s.writeOtherAttributes W (s.attributes i)).filter Ev.notId = s.writeOtherAttributes W (s.attributes i) :=
        List.filter_eq_self.2 otherAttributes_raw
      have f4 : (if s.hasIdAttr i then [Ev.attribute st!"id" (s.idOf i)] else []).filter Ev.notId = [] := by
        split <;> simp [Ev.notId]
      have f5 : (if s.hasTagName i (.id .Text) then [Ev.preserve true] else []).filter Ev.notId =
          if s.hasTagName i (.id .Text) then [Ev.preserve true] else [] := by
        split <;> simp [Ev.notId]
      have hno : u.hasIdAttr n = false := by simp [St.hasIdAttr, hid]
      refine (hn _).trans ?_
      simp only [St.writeAttributes, hns ht, h4, A.attrs ht, hsvg, hno, A.otherAttributes W, bind, Except.bind,
        pure, Except.pure, hhas, List.filter_append, f1, f2, f3, f4, f5, List.cons_append, Bool.false_eq_true, if_false]
      rw [List.filter_cons_of_pos (by rfl)]
      simp only [List.filter_append, f1, f2, f3, f4, f5]

/-- What is written at the end of the node. -/
theorem Echo.stop (A : Echo s u i n) : u.writeEnd n = s.writeEnd i := by
  have hhas : u.hasTagName n (.id .Text) = s.hasTagName i (.id .Text) := by
    by_cases ht : s.nodeType i = .element
    · simp only [St.hasTagName, A.tag ht]
    · exact A.textTag ht
  have hb : u.isElement n = s.isElement i := by simp only [St.isElement, A.type]
  simp only [St.writeEnd, hb, hhas]

theorem writeEnd_noId : (s.writeEnd i).filter Ev.notId = s.writeEnd i := by
  unfold St.writeEnd
  split <;> split <;> simp [Ev.notId]

/-- The namespaces declared on a node. -/
theorem Echo.namespaces (A : Echo s u i n) (he : s.nodeType i = .element) {l m : List NodeId}
    (hp : (u.parent n).map u.isRoot = (s.parent i).map s.isRoot) (h1 : s.descendantList i = .ok l) (h2 : u.descendantList n = .ok m)
    (hx : (m.any fun j => u.hasAttribute j (.id .Href)) = l.any fun j => s.hasAttribute j (.id .Href)) :
    u.writeNamespaces n = s.writeNamespaces i := by
  have hhas : u.hasTagName n (.id .Svg) = s.hasTagName i (.id .Svg) := by simp only [St.hasTagName, A.tag he]
  simp only [St.writeNamespaces, hhas, hp, h1, h2, bind, Except.bind, hx]

end

/-! ### Edges -/

theorem edges_split {s : St} {W : ValueWriter} : ∀ {l m : List Edge} {es : List Ev}, s.writeEdges W (l ++ m) = .ok es →
    ∃ a b, s.writeEdges W l = .ok a ∧ s.writeEdges W m = .ok b ∧ es = a ++ b
  | [], m, es, h => ⟨[], es, rfl, h, rfl⟩
  | .start n :: l, m, es, h => by
    simp only [List.cons_append, St.writeEdges, bind_ok] at h
    obtain ⟨e, he, r, hr, h1⟩ := h
    cases h1
    obtain ⟨a, b, h2, h3, rfl⟩ := edges_split hr
    exact ⟨e ++ a, b, by simp [St.writeEdges, he, h2, bind, Except.bind, pure, Except.pure], h3, by simp⟩
  | .stop n :: l, m, es, h => by
    simp only [List.cons_append, St.writeEdges, bind_ok] at h
    obtain ⟨r, hr, h1⟩ := h
    cases h1
    obtain ⟨a, b, h2, h3, rfl⟩ := edges_split hr
    exact ⟨s.writeEnd n ++ a, b, by simp [St.writeEdges, h2, bind, Except.bind, pure, Except.pure], h3, by simp⟩

theorem edges_echo {s u : St} {W : ValueWriter} : ∀ {l : List Edge} {es : List Ev},
    (∀ j, .start j ∈ l → ∀ es, s.writeStart W j = .ok es → u.writeStart W j = .ok es) →
    (∀ j, .stop j ∈ l → u.writeEnd j = s.writeEnd j) → s.writeEdges W l = .ok es → u.writeEdges W l = .ok es
  | [], es, _, _, h => h
  | .start n :: l, es, h1, h2, h => by
    simp only [St.writeEdges, bind_ok] at h
    obtain ⟨e, he, r, hr, h3⟩ := h
    cases h3
    simp [St.writeEdges, h1 n (by simp) e he, edges_echo (fun j hj => h1 j (by simp [hj])) (fun j hj => h2 j (by simp [hj])) hr,
      bind, Except.bind, pure, Except.pure]
  | .stop n :: l, es, h1, h2, h => by
    simp only [St.writeEdges, bind_ok] at h
    obtain ⟨r, hr, h3⟩ := h
    cases h3
    simp [St.writeEdges, h2 n (by simp), edges_echo (fun j hj => h1 j (by simp [hj])) (fun j hj => h2 j (by simp [hj])) hr,
      bind, Except.bind, pure, Except.pure]

/-! ### The copy -/

theorem Copied.echo {s u : St} {i n : NodeId} (c : Copied s u i n)
    (hp : s.nodeType i ≠ .element → s.tagName i ≠ .id .Text ∧ s.hasAttribute i (.id .Href) = false)
    (ht : ∀ a ∈ s.attributes i, ∀ m, a.value.linkNode = some m → u.idOf m = s.idOf m) : Echo s u i n where
  type := c.type
  tag := fun h => (c.element h).1
  attrs := fun h => (c.element h).2.1
  text := fun h => (c.other h).1
  target := ht
  textTag := fun h => by
    have h1 := (c.other h).2.2
    have h2 := (hp h).1
    simp [St.hasTagName, h1, h2]

theorem Trees.CopyOf.frame {s t u : St} (f : Frame t u) : ∀ {T U : Trees}, T.CopyOf s t U → T.CopyOf s u U
  | .nil, .nil, _ => trivial
  | .nil, .cons _ _ _, h => h.elim
  | .cons _ _ _, .nil, h => h.elim
  | .cons _ _ _, .cons _ _ _, ⟨c, h1, h2⟩ => by
    refine ⟨⟨?_, ?_, ?_, ?_⟩, Trees.CopyOf.frame f h1, Trees.CopyOf.frame f h2⟩
    · simpa only [St.nodeType, f.data] using c.type
    · simpa only [St.tagName, St.attributes, St.text, f.data] using c.element
    · simpa only [St.tagName, St.attributes, St.text, f.data] using c.other
    · simpa only [St.idOf, f.data] using c.id

theorem Copied.href {s u : St} {i n : NodeId} (c : Copied s u i n)
    (hp : s.nodeType i ≠ .element → s.tagName i ≠ .id .Text ∧ s.hasAttribute i (.id .Href) = false) :
    u.hasAttribute n (.id .Href) = s.hasAttribute i (.id .Href) := by
  by_cases h : s.nodeType i = .element
  · simp only [St.hasAttribute, (c.element h).2.1]
  · rw [(hp h).2, St.hasAttribute, (c.other h).2.1]; rfl

theorem copyOf_any {s u : St} : ∀ {T U : Trees}, T.CopyOf s u U →
    (∀ j ∈ T.pre, s.nodeType j ≠ .element → s.tagName j ≠ .id .Text ∧ s.hasAttribute j (.id .Href) = false) →
    (U.pre.any fun j => u.hasAttribute j (.id .Href)) = T.pre.any fun j => s.hasAttribute j (.id .Href)
  | .nil, .nil, _, _ => rfl
  | .nil, .cons _ _ _, h, _ => h.elim
  | .cons _ _ _, .nil, h, _ => h.elim
  | .cons i K R, .cons m K' R', h, hp => by
    simp only [Trees.pre, List.any_cons, List.any_append, h.1.href (hp i (by simp [Trees.pre])),
      copyOf_any h.2.1 (fun j hj => hp j (by simp [Trees.pre, hj])), copyOf_any h.2.2 (fun j hj => hp j (by simp [Trees.pre, hj]))]

theorem kids_parent {s : St} {F : Forest} (hF : Describes s F) {i : NodeId} (hi : s.live i = true) :
    ∀ c ∈ F.kids i, s.live c = true ∧ (s.parent c).map s.isRoot = some (s.isRoot i) := by
  intro c hc
  obtain ⟨a, b⟩ := hF.wf.kids i hi c hc
  exact ⟨a, by rw [hF.shows.parent c a, b]; rfl⟩

theorem copy_edges {s u : St} (W : ValueWriter) {F H : Forest} (hs : Side s F) (hu : Side u H) :
    ∀ {T U : Trees}, T.CopyOf s u U → ∀ {l l' : List NodeId} {r : Option Bool}, T.Of F l → U.Of H l' →
      (∀ c ∈ l, s.live c = true ∧ (s.parent c).map s.isRoot = r) → (∀ c ∈ l', u.live c = true ∧ (u.parent c).map u.isRoot = r) →
      (∀ j ∈ T.pre, s.nodeType j ≠ .element → s.tagName j ≠ .id .Text ∧ s.hasAttribute j (.id .Href) = false) →
      (∀ j ∈ T.pre, ∀ a ∈ s.attributes j, ∀ m, a.value.linkNode = some m → u.idOf m = s.idOf m) →
      ∀ {E : List Ev}, s.writeEdges W T.edges = .ok E → u.writeEdges W U.edges = .ok (E.filter Ev.notId)
  | .nil, .nil, _, _, _, _, _, _, _, _, _, _, E, h => by cases h; rfl
  | .nil, .cons _ _ _, h, _, _, _, _, _, _, _, _, _, _, _ => h.elim
  | .cons _ _ _, .nil, h, _, _, _, _, _, _, _, _, _, _, _ => h.elim
  | .cons i K R, .cons n K' R', ⟨c, cK, cR⟩, _, _, r, ⟨l, rfl, hK, hR⟩, ⟨l', rfl, hK', hR'⟩, hl, hl', hp, ht, E, h => by
    obtain ⟨hi, hip⟩ := hl i (by simp)
    obtain ⟨hn, hnp⟩ := hl' n (by simp)
    have A := c.echo (hp i (by simp [Trees.pre])) (ht i (by simp [Trees.pre]))
    have hpK : ∀ j ∈ K.pre, s.nodeType j ≠ .element → s.tagName j ≠ .id .Text ∧ s.hasAttribute j (.id .Href) = false :=
      fun j hj => hp j (by simp [Trees.pre, hj])
    simp only [Trees.edges, St.writeEdges, bind_ok] at h
    obtain ⟨e1, h1, e2, h2, h3⟩ := h
    cases h3
    obtain ⟨a, b, h4, h5, rfl⟩ := edges_split h2
    simp only [St.writeEdges, bind_ok] at h5
    obtain ⟨b', h5, h6⟩ := h5
    cases h6
    have eK := copy_edges W hs hu cK hK hK' (kids_parent hs.desc hi)
      (fun x hx => by
        obtain ⟨y, z⟩ := kids_parent hu.desc hn x hx
        exact ⟨y, by rw [z]; simp only [St.isRoot, c.type]⟩) hpK (fun j hj => ht j (by simp [Trees.pre, hj])) h4
    have eR := copy_edges W hs hu cR hR hR' (fun x hx => hl x (by simp [hx])) (fun x hx => hl' x (by simp [hx]))
      (fun j hj => hp j (by simp [Trees.pre, hj])) (fun j hj => ht j (by simp [Trees.pre, hj])) h5
    have eS := (A.start W (fun he => A.namespaces he (hnp.trans hip.symm) (descendants_tree hs.reach hs.acyclic hs.desc hi hK)
      (descendants_tree hu.reach hu.acyclic hu.desc hn hK') (by
        simp only [List.any_cons, c.href (hp i (by simp [Trees.pre])), copyOf_any cK hpK])) h1).2 c.id
    have eT : u.writeEdges W (.stop n :: R'.edges) = .ok (s.writeEnd i ++ b'.filter Ev.notId) := by
      simp [St.writeEdges, eR, A.stop, bind, Except.bind, pure, Except.pure]
    have := writeEdges_append u W _ _ eK eT
    simp only [Trees.edges, St.writeEdges, eS, this, bind, Except.bind, pure, Except.pure, List.filter_append, writeEnd_noId]

/-! ### The tree with the copy -/

/-- The tree with root `n` and subtrees `Y` behind each tree with root `i`. -/
def Trees.twice (i n : NodeId) (Y : Trees) : Trees → Trees
  | nil => nil
  | cons j K R => cons j (Trees.twice i n Y K) (if j = i then cons n Y (Trees.twice i n Y R) else Trees.twice i n Y R)

/-- `n` behind each `i`. -/
def twiceL (i n : NodeId) (l : List NodeId) : List NodeId := l.flatMap fun j => if j = i then [i, n] else [j]

section
variable {i n : NodeId} {Y : Trees}

theorem twiceL_none {l : List NodeId} (h : i ∉ l) : twiceL i n l = l := by
  induction l with
  | nil => rfl
  | cons j l ih =>
    simp only [List.mem_cons, not_or] at h
    have := ih h.2
    unfold twiceL at this ⊢
    rw [List.flatMap_cons, this, if_neg (Ne.symm h.1)]
    rfl

theorem twiceL_insAfter {l : List NodeId} (hn : l.Nodup) : insAfter l i n = twiceL i n l := by
  induction l with
  | nil => rfl
  | cons j l ih =>
    rw [List.nodup_cons] at hn
    have h1 := ih hn.2
    by_cases hj : j = i
    · subst hj
      have h2 := twiceL_none (i := j) (n := n) hn.1
      unfold twiceL at h2
      simp [insAfter, twiceL, h2]
    · unfold twiceL at h1
      simp [insAfter, twiceL, hj, h1]

theorem Trees.twice_of {F H : Forest} (hY : Y.Of H (H.kids n)) : ∀ {T : Trees} {l : List NodeId}, T.Of F l →
    (∀ j ∈ T.pre, H.kids j = twiceL i n (F.kids j)) → (Trees.twice i n Y T).Of H (twiceL i n l)
  | .nil, l, h, _ => by simp only [Trees.Of] at h; subst h; rfl
  | .cons j K R, l, ⟨l', e, hK, hR⟩, hk => by
    subst e
    have h1 := twice_of hY hK fun m hm => hk m (by simp [Trees.pre, hm])
    have h2 := twice_of hY hR fun m hm => hk m (by simp [Trees.pre, hm])
    rw [← hk j (by simp [Trees.pre])] at h1
    by_cases hj : j = i
    · subst hj
      simp only [Trees.twice, if_true]
      exact ⟨n :: twiceL j n l', by simp [twiceL], h1, twiceL j n l', rfl, hY, h2⟩
    · simp only [Trees.twice, if_neg hj]
      exact ⟨twiceL i n l', by simp [twiceL, hj], h1, h2⟩

theorem Trees.twice_none : ∀ {T : Trees}, i ∉ T.pre → Trees.twice i n Y T = T
  | .nil, _ => rfl
  | .cons j K R, h => by
    simp only [Trees.pre, List.mem_cons, List.mem_append, not_or] at h
    rw [Trees.twice, if_neg (Ne.symm h.1), twice_none h.2.1, twice_none h.2.2]

theorem Trees.mem_twice : ∀ {T : Trees} {m : NodeId}, m ∈ (Trees.twice i n Y T).pre ↔ m ∈ T.pre ∨ (i ∈ T.pre ∧ (m = n ∨ m ∈ Y.pre))
  | .nil, m => by simp [Trees.twice, Trees.pre]
  | .cons j K R, m => by
    have h1 := mem_twice (T := K) (m := m)
    have h2 := mem_twice (T := R) (m := m)
    by_cases hj : j = i
    · subst hj
      simp only [Trees.twice, if_true, Trees.pre, List.mem_cons, List.mem_append, h1, h2, true_or, true_and]
      clear h1 h2
      grind
    · simp only [Trees.twice, if_neg hj, Trees.pre, List.mem_cons, List.mem_append, h1, h2, Ne.symm hj, false_or]
      clear h1 h2
      grind

/-- The edges of the tree with the copy. -/
theorem Trees.twice_edges {F : Forest} : ∀ {T : Trees} {l : List NodeId}, T.Of F l → T.pre.Nodup → i ∈ T.pre →
    ∃ A B K, K.Of F (F.kids i) ∧ T.edges = A ++ (cons i K nil).edges ++ B ∧
      (Trees.twice i n Y T).edges = A ++ (cons i K nil).edges ++ (cons n Y nil).edges ++ B
  | .nil, _, _, _, h => by simp [Trees.pre] at h
  | .cons j K R, l, ⟨l', e, hK, hR⟩, hn, hi => by
    simp only [Trees.pre, List.nodup_cons, List.nodup_append, List.mem_append, not_or] at hn
    obtain ⟨⟨n1, n2⟩, n3, n4, n5⟩ := hn
    simp only [Trees.pre, List.mem_cons, List.mem_append] at hi
    by_cases hj : j = i
    · subst hj
      exact ⟨[], R.edges, K, hK, by simp [Trees.edges], by simp [Trees.twice, Trees.edges, twice_none n1, twice_none n2]⟩
    · rcases hi with hi | hi | hi
      · exact absurd hi.symm hj
      · obtain ⟨A, B, K', h1, h2, h3⟩ := twice_edges hK n3 hi
        have : i ∉ R.pre := fun hx => n5 i hi i hx rfl
        exact ⟨.start j :: A, B ++ .stop j :: R.edges, K', h1, by simp [Trees.edges, h2],
          by simp only [Trees.twice, if_neg hj, twice_none this, Trees.edges, h3]; simp⟩
      · obtain ⟨A, B, K', h1, h2, h3⟩ := twice_edges hR n4 hi
        have : i ∉ K.pre := fun hx => n5 i hx i hi rfl
        exact ⟨.start j :: (K.edges ++ .stop j :: A), B, K', h1, by simp [Trees.edges, h2],
          by simp only [Trees.twice, if_neg hj, twice_none this, Trees.edges, h3]; simp⟩

end

end Svgdom
