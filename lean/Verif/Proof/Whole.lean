import Verif.Spec.Users
import Verif.Props.Text
import Verif.Proof.TextExact

/-!
# Parsing as a function
-/

set_option autoImplicit false

namespace Svgdom

/-! ### Documents and states -/

/-- The nodes of `s` carry what the document says. -/
def Content.Looks (s : St) (d : Content) : Prop := ∀ p ∈ d.nodes, s.look p.1 = p.2

theorem Content.looks_node {s : St} {n : NodeId} {l : Look} {K R : Content} :
    (Content.node n l K R).Looks s ↔ s.look n = l ∧ K.Looks s ∧ R.Looks s := by
  constructor
  · intro h
    exact ⟨h (n, l) (by simp [Content.nodes]), fun p hp => h p (by simp [Content.nodes, hp]), fun p hp => h p (by simp [Content.nodes, hp])⟩
  · rintro ⟨h1, h2, h3⟩ p hp
    simp only [Content.nodes, List.mem_cons, List.mem_append] at hp
    rcases hp with rfl | hp | hp
    · exact h1
    · exact h2 p hp
    · exact h3 p hp

theorem Content.nodes_fst : ∀ d : Content, d.nodes.map Prod.fst = d.trees.pre
  | .nil => rfl
  | .node n l K R => by simp [Content.nodes, Content.trees, Trees.pre, Content.nodes_fst K, Content.nodes_fst R]

theorem Content.trees_change (f : NodeId → Look → Look) : ∀ d : Content, (d.change f).trees = d.trees
  | .nil => rfl
  | .node n l K R => by simp [Content.change, Content.trees, Content.trees_change f K, Content.trees_change f R]

theorem Content.nodes_change (f : NodeId → Look → Look) : ∀ d : Content, (d.change f).nodes = d.nodes.map fun p => (p.1, f p.1 p.2)
  | .nil => rfl
  | .node n l K R => by simp [Content.change, Content.nodes, Content.nodes_change f K, Content.nodes_change f R]

theorem Content.nodes_without (g : Look → Bool) : ∀ (d : Content), ∀ p ∈ (d.without g).nodes, p ∈ d.nodes
  | .nil, p, h => h
  | .node n l K R, p, h => by
    rw [Content.without] at h
    split at h
    · simp [Content.nodes, Content.nodes_without g R p h]
    · simp only [Content.nodes, List.mem_cons, List.mem_append] at h ⊢
      rcases h with h | h | h
      · exact .inl h
      · exact .inr (.inl (Content.nodes_without g K p h))
      · exact .inr (.inr (Content.nodes_without g R p h))

theorem Content.trees_without {s : St} {g : Look → Bool} {f : NodeId → Bool} : ∀ (d : Content), d.Looks s → (∀ j ∈ d.trees.pre, f j = g (s.look j)) →
    (d.without g).trees = d.trees.keep f
  | .nil, _, _ => rfl
  | .node n l K R, h, hf => by
    obtain ⟨h1, h2, h3⟩ := Content.looks_node.1 h
    have hK := Content.trees_without K h2 fun j hj => hf j (by simp [Content.trees, Trees.pre, hj])
    have hR := Content.trees_without R h3 fun j hj => hf j (by simp [Content.trees, Trees.pre, hj])
    have hn : f n = g l := by rw [hf n (by simp [Content.trees, Trees.pre]), h1]
    rw [Content.without, Content.trees, Trees.keep, hn]
    split
    · exact hR
    · rw [Content.trees, hK, hR]

theorem Content.lookAt_eq {s : St} {d : Content} (h : d.Looks s) {j : NodeId} (hj : j ∈ d.trees.pre) : d.lookAt j = s.look j := by
  unfold Content.lookAt
  cases hf : d.nodes.find? fun p => decide (p.1 = j) with
  | none =>
    rw [← Content.nodes_fst, List.mem_map] at hj
    obtain ⟨p, hp, rfl⟩ := hj
    have := List.find?_eq_none.1 hf p hp
    simp at this
  | some p =>
    have h1 := List.mem_of_find?_eq_some hf
    have h2 : p.1 = j := by simpa using List.find?_some hf
    simp only [Option.map_some, Option.getD_some]
    rw [← h2, h p h1]

theorem Content.lookAt_out {d : Content} {j : NodeId} (hj : j ∉ d.trees.pre) : d.lookAt j = ⟨.root, .name [], [], [], []⟩ := by
  unfold Content.lookAt
  cases hf : d.nodes.find? fun p => decide (p.1 = j) with
  | none => rfl
  | some p =>
    exfalso
    have h1 := List.mem_of_find?_eq_some hf
    have h2 : p.1 = j := by simpa using List.find?_some hf
    exact hj (by rw [← Content.nodes_fst, ← h2]; exact List.mem_map_of_mem h1)

/-! ### Numbering -/

theorem Dom.Is.size {s : St} : ∀ {D : Dom} {T : Trees}, D.Is s T → T.pre.length = D.size
  | .nil, .nil, _ => rfl
  | .element _ _ _ _ k r, .cons n K R, h => by
    obtain ⟨_, _, _, _, _, f, i⟩ := h
    simp [Trees.pre, Dom.size, f.size, i.size]; omega
  | .text _ r, .cons n K R, h => by
    obtain ⟨_, _, _, _, _, rfl, i⟩ := h
    simp [Trees.pre, Dom.size, i.size]; omega
  | .comment _ r, .cons n K R, h => by
    obtain ⟨_, _, _, _, _, rfl, i⟩ := h
    simp [Trees.pre, Dom.size, i.size]; omega

theorem Dom.Is.number {s : St} : ∀ {D : Dom} {T : Trees} {k : Nat}, D.Is s T → T.pre = List.range' k D.size →
    (D.number k).trees = T ∧ (D.number k).Looks s ∧ D.plinks T = D.links k
  | .nil, .nil, _, _, _ => ⟨rfl, by simp [Content.Looks, Dom.number, Content.nodes], rfl⟩
  | .element eid id attrs refs kd rt, .cons n K R, k, h, hp => by
    obtain ⟨a, b, c, d, e, f, i⟩ := h
    simp only [Trees.pre, Dom.size] at hp
    rw [Nat.add_assoc, Nat.add_comm 1, List.range'_succ, List.cons.injEq] at hp
    obtain ⟨rfl, hp⟩ := hp
    rw [← List.range'_append_1] at hp
    obtain ⟨hK, hR⟩ := List.append_inj hp (by simp [f.size])
    obtain ⟨x1, x2, x3⟩ := f.number hK
    obtain ⟨y1, y2, y3⟩ := i.number hR
    refine ⟨by simp [Dom.number, Content.trees, x1, y1], Content.looks_node.2 ⟨?_, x2, y2⟩, by simp [Dom.plinks, Dom.links, x3, y3]⟩
    simp [St.look, a, b, c, d, e]
  | .text t rt, .cons n K R, k, h, hp => by
    obtain ⟨a, b, c, d, e, rfl, i⟩ := h
    simp only [Trees.pre, Dom.size, List.nil_append] at hp
    rw [Nat.add_comm 1, List.range'_succ, List.cons.injEq] at hp
    obtain ⟨rfl, hR⟩ := hp
    obtain ⟨y1, y2, y3⟩ := i.number hR
    refine ⟨by simp [Dom.number, Content.trees, y1], Content.looks_node.2 ⟨?_, by simp [Content.Looks, Content.nodes], y2⟩,
      by simp [Dom.plinks, Dom.links, y3]⟩
    simp [St.look, a, b, c, d, e]
  | .comment t rt, .cons n K R, k, h, hp => by
    obtain ⟨a, b, c, d, e, rfl, i⟩ := h
    simp only [Trees.pre, Dom.size, List.nil_append] at hp
    rw [Nat.add_comm 1, List.range'_succ, List.cons.injEq] at hp
    obtain ⟨rfl, hR⟩ := hp
    obtain ⟨y1, y2, y3⟩ := i.number hR
    refine ⟨by simp [Dom.number, Content.trees, y1], Content.looks_node.2 ⟨?_, by simp [Content.Looks, Content.nodes], y2⟩,
      by simp [Dom.plinks, Dom.links, y3]⟩
    simp [St.look, a, b, c, d, e]

/-! ### References -/

theorem names_refers {v : AttributeValue} {n : NodeId} : v.names = some n ↔ v.refersTo n = true := by
  cases v <;> simp [AttributeValue.names, AttributeValue.refersTo]

theorem verdict_eq {s t : St} {order : List NodeId} {l : PLink} (h : Resolves s order l t) {targets : List (NodeId × Str)}
    (ht : targets = order.map fun i => (i, s.idOf i)) {ids : NodeId → Str} {A : NodeId → List Attribute} {S : NodeId → Prop}
    (ho : ∀ i ∈ order, S i) (hi : ids l.node = s.idOf l.node) (hA : ∀ j, S j → A j = s.attributes j) :
    match verdict targets ids A l with
    | none => t = s
    | some a => AttrSet s t l.node a := by
  have hfind : targets.find? (fun t => decide (t.2 = l.iri)) = (order.find? fun i => decide (s.idOf i = l.iri)).map fun i => (i, s.idOf i) := by
    rw [ht, List.find?_map]; rfl
  have href : ∀ {n : NodeId}, S n → ((s.idOf n = [] ∨ ids l.node = s.idOf n ∨
      (A n).any (fun a => decide (a.value.names = some l.node)) = true) ↔ ∃ err, Refused s l.node n err) := by
    intro n hn
    rw [hi, hA n hn]
    have hlink : (s.attributes n).any (fun a => decide (a.value.names = some l.node)) = true ↔ s.LinksTo n l.node := by
      simp [St.LinksTo, names_refers]
    rw [hlink]
    constructor
    · intro h
      by_cases h0 : s.idOf n = []
      · exact ⟨_, .noId h0⟩
      · rcases h with h | h | h
        · exact absurd h h0
        · exact ⟨_, .sameId h0 h⟩
        · exact ⟨_, .backLink h0 h⟩
    · rintro ⟨err, h⟩
      cases h with
      | noId h => exact .inl h
      | sameId _ h => exact .inr (.inl h)
      | backLink _ h => exact .inr (.inr h)
  have hv : verdict targets ids A l = (match (order.find? fun i => decide (s.idOf i = l.iri)).map fun i => (i, s.idOf i) with
      | none => some ⟨.id l.attr, missingValue l.attr l.iri l.fallback⟩
      | some (n, id) =>
        if id = [] ∨ ids l.node = id ∨ (A n).any (fun a => decide (a.value.names = some l.node)) = true then none
        else some ⟨.id l.attr, foundValue l.attr n l.fallback⟩) := by rw [← hfind]; rfl
  rw [hv]
  cases h with
  | @found _ n h1 h2 h3 =>
    rw [h1]
    simp only [Option.map_some]
    rw [if_neg]
    · exact h3
    · rw [href (ho n (List.mem_of_find?_eq_some h1))]
      rintro ⟨err, he⟩
      exact h2 err he
  | @refused n err h1 h2 =>
    rw [h1]
    simp only [Option.map_some]
    rw [if_pos]
    · trivial
    · rw [href (ho n (List.mem_of_find?_eq_some h1))]
      exact ⟨err, h2⟩
  | missing h1 h2 =>
    have : order.find? (fun i => decide (s.idOf i = l.iri)) = none := by
      rw [List.find?_eq_none]; simpa using h1
    rw [this]
    exact h2

theorem settle_eq {s t : St} {order : List NodeId} {l : PLink} (h : Resolves s order l t) {targets : List (NodeId × Str)}
    (ht : targets = order.map fun i => (i, s.idOf i)) {ids : NodeId → Str} {A : NodeId → List Attribute} {S : NodeId → Prop}
    (ho : ∀ i ∈ order, S i) (hi : ids l.node = s.idOf l.node) (hA : ∀ j, S j → A j = s.attributes j) :
    ∀ j, S j → settle targets ids A l j = t.attributes j := by
  intro j hj
  have hv := verdict_eq h ht ho hi hA
  unfold settle
  cases hc : verdict targets ids A l with
  | none =>
    rw [hc] at hv
    have hv : t = s := hv
    rw [hv]
    exact hA j hj
  | some a =>
    rw [hc] at hv
    have hv : AttrSet s t l.node a := hv
    show putAttr A l.node a j = _
    unfold putAttr
    split
    · next e => subst e; rw [hv.own, hA _ hj]
    · next e => rw [hv.others j e, hA j hj]

theorem settle_all {order : List NodeId} {s t : St} {ls : List PLink} (h : ResolvesAll order s ls t) {targets : List (NodeId × Str)}
    (ht : targets = order.map fun i => (i, s.idOf i)) {ids : NodeId → Str} {S : NodeId → Prop}
    (ho : ∀ i ∈ order, S i) (hl : ∀ l ∈ ls, S l.node) (hi : ∀ j, S j → ids j = s.idOf j) : ∀ {A : NodeId → List Attribute},
    (∀ j, S j → A j = s.attributes j) → ∀ j, S j → ls.foldl (settle targets ids) A j = t.attributes j := by
  induction h with
  | nil s => intro A hA; exact hA
  | @cons s u t l ls h1 h2 ih =>
    intro A hA
    have hid := h1.same.ids
    refine ih (by rw [ht]; exact List.map_congr_left fun i _ => by rw [hid]) (fun l hm => hl l (by simp [hm]))
      (fun j hj => by rw [hid]; exact hi j hj) ?_
    exact settle_eq h1 ht ho (hi _ (hl l (by simp))) hA

theorem settleUsers_all {order : List NodeId} {s t : St} {ls : List PLink} (h : ResolvesAll order s ls t) {targets : List (NodeId × Str)}
    (ht : targets = order.map fun i => (i, s.idOf i)) {ids : NodeId → Str} {S : NodeId → Prop}
    (ho : ∀ i ∈ order, S i) (hl : ∀ l ∈ ls, S l.node) (hi : ∀ j, S j → ids j = s.idOf j) :
    ∀ {A : NodeId → List Attribute} {U : NodeId → List NodeId}, (∀ j, S j → A j = s.attributes j) → (∀ j, S j → U j = s.linkedNodes j) →
    ∀ j, S j → (ls.foldl (fun (A, U) l => (settle targets ids A l,
      match verdict targets ids A l with
      | none => U
      | some a => putUser U (A l.node) l.node a)) (A, U)).2 j = t.linkedNodes j := by
  induction h with
  | nil s => intro A U _ hU; exact hU
  | @cons s u t l ls h1 h2 ih =>
    intro A U hA hU
    have hid := h1.same.ids
    have hln := hl l (by simp)
    rw [List.foldl_cons]
    refine ih (by rw [ht]; exact List.map_congr_left fun i _ => by rw [hid]) (fun l hm => hl l (by simp [hm]))
      (fun j hj => by rw [hid]; exact hi j hj) (settle_eq h1 ht ho (hi _ hln) hA) ?_
    intro j hj
    have hv := verdict_eq h1 ht ho (hi _ hln) hA
    cases hc : verdict targets ids A l with
    | none =>
      rw [hc] at hv
      have hv : u = s := hv
      rw [hv]
      exact hU j hj
    | some a =>
      rw [hc] at hv
      have hv : AttrSet s u l.node a := hv
      rw [hv.users j]
      show putUser U (A l.node) l.node a j = _
      simp only [putUser, hA _ hln, hU j hj, names_refers, Bool.decide_eq_true]

/-! ### Texts -/

theorem tidyTwo_eq (first last deeper : Bool) (m1 m2 : XmlSpace) (u w : Str) :
    tidyTwo first last deeper m1 m2 u w = pairP first last deeper m1 m2 u w := by
  have h1 : ∀ t, beginsSpace t = startsSp t := fun _ => rfl
  have h2 : ∀ t, finishesSpace t = endsSp t := fun _ => rfl
  have hb : (if endsSp u = true ∧ startsSp w = true ∧ m2 = .default then
      if deeper = true ∨ m1 = .preserve then (u, w.tail) else (u.dropLast, w) else (u, w)) = borderP deeper m1 m2 u w := by
    unfold borderP
    cases endsSp u <;> cases startsSp w <;> cases deeper <;> cases m1 <;> cases m2 <;> simp
  unfold tidyTwo pairP
  simp only [h1, h2]
  rw [hb]
  have hq : ∀ p : Str × Str, (if first = true ∧ startsSp u = true ∧ m1 = .default ∧ p.1 ≠ [] then (p.1.tail, p.2)
      else if last = true ∧ endsSp w = true ∧ m2 = .default ∧ p.2 ≠ [] then (p.1, p.2.dropLast) else p) =
      endsP first last m1 m2 (startsSp u) (endsSp w) p.1 p.2 := by
    rintro ⟨a, b⟩
    unfold endsP
    cases first <;> cases last <;> cases startsSp u <;> cases endsSp w <;> cases m1 <;> cases m2 <;> cases a <;> cases b <;> simp
  rw [hq]
  generalize endsP first last m1 m2 (startsSp u) (endsSp w) (borderP deeper m1 m2 u w).1 (borderP deeper m1 m2 u w).2 = q
  obtain ⟨a, b⟩ := q
  unfold tailP
  have h3 : endsSp a = true → a ≠ [] := by rintro h rfl; simp [endsSp] at h
  cases a with
  | nil =>
    have : endsSp [] = false := rfl
    simp [this]
  | cons c a => cases last <;> cases endsSp u <;> cases endsSp (c :: a) <;> cases b <;> simp

theorem dropWhile_all {p : Char → Bool} {t : Str} : t.dropWhile p = [] ↔ t.all p = true := by
  induction t with
  | nil => simp
  | cons c t ih => by_cases h : p c <;> simp_all [List.dropWhile]

theorem trimStr_blank (t : Str) : (trimStr t).isEmpty = isBlank t := by
  have h : trimStr t = [] ↔ isBlank t = true := by
    unfold trimStr isBlank
    rw [List.reverse_eq_nil_iff, dropWhile_all, List.all_reverse]
    constructor
    · intro h
      rw [← List.takeWhile_append_dropWhile (p := isWhite) (l := t), List.all_append, h, Bool.and_true, List.all_eq_true]
      intro c hc
      exact List.all_eq_true.1 List.all_takeWhile c hc
    · intro h
      rw [dropWhile_all.2 h]; rfl
  cases hb : isBlank t with
  | true => simp [h.2 hb]
  | false =>
    cases ht : trimStr t with
    | nil => rw [h.1 ht] at hb; simp at hb
    | cons => rfl

def Item.pos (i : Item) : NodeId × Nat := (i.node, i.depth)

theorem tidyPairs_eq (μ : NodeId → XmlSpace) : ∀ (l : List Item) (τ : Texts) (first : Bool) (last : Option Item),
    (∀ i ∈ l, μ i.node = i.mode) → (∀ i ∈ last, μ i.node = i.mode) →
    tidyPairs τ first last l = pairsT μ τ first (last.map Item.node) (l.map Item.pos)
  | [], τ, first, last, _, _ => by simp [tidyPairs, pairsT]
  | [a], τ, first, last, _, _ => by simp [tidyPairs, pairsT]
  | a :: b :: rest, τ, first, last, hl, hla => by
    have hm : ∀ m, (if τ a.node = [] then last.getD a else a) = m → pairNode τ (last.map Item.node) a.node = m.node ∧ μ m.node = m.mode := by
      rintro m rfl
      unfold pairNode
      by_cases h : τ a.node = []
      · cases last with
        | none => simp [h, hl a (by simp)]
        | some i => simp [h, hla i (by simp)]
      · simp [h, hl a (by simp)]
    rw [tidyPairs, List.map_cons, List.map_cons]
    simp only [Item.pos]
    rw [pairsT]
    generalize hmm : (if τ a.node = [] then last.getD a else a) = m
    obtain ⟨h1, h2⟩ := hm m hmm
    simp only [h1]
    have hstep : putText (putText τ m.node (tidyTwo first rest.isEmpty (decide (a.depth < b.depth)) m.mode b.mode (τ m.node) (τ b.node)).1) b.node
        (tidyTwo first rest.isEmpty (decide (a.depth < b.depth)) m.mode b.mode (τ m.node) (τ b.node)).2 =
        pairStep μ τ first rest.isEmpty (decide (a.depth < b.depth)) m.node b.node := by
      rw [tidyTwo_eq, pairStep, h2, hl b (by simp)]; rfl
    rw [hstep, List.isEmpty_map, trimStr_blank]
    have ih := tidyPairs_eq μ (b :: rest) (pairStep μ τ first rest.isEmpty (decide (a.depth < b.depth)) m.node b.node) false
      (if isBlank (pairStep μ τ first rest.isEmpty (decide (a.depth < b.depth)) m.node b.node m.node) = true then last else some m)
      (fun i hi => hl i (by simp [hi])) (by
        intro i hi
        split at hi
        · exact hla i hi
        · cases hi; exact h2)
    rw [ih, List.map_cons]
    congr 1
    split <;> rfl

theorem tidyGroup_eq (μ : NodeId → XmlSpace) (sp : XmlSpace) (l : List Item) (τ : Texts) (hl : ∀ i ∈ l, μ i.node = i.mode) :
    tidyGroup sp l τ = groupT μ sp (trimT μ τ (l.map Item.node)) (l.map Item.pos) := by
  have ht : spaceTexts l τ = trimT μ τ (l.map Item.node) := by
    funext j
    unfold trimT spaceTexts
    cases hf : l.find? fun i => decide (i.node = j) with
    | none =>
      rw [List.find?_eq_none] at hf
      rw [if_neg]
      rw [List.mem_map]
      rintro ⟨i, hi, rfl⟩
      simpa using hf i hi
    | some i =>
      have h1 := List.mem_of_find?_eq_some hf
      have h2 : i.node = j := by simpa using List.find?_some hf
      rw [if_pos (by rw [← h2]; exact List.mem_map_of_mem h1), trimText_spaced]
      simp only
      rw [← h2, hl i h1]
  match l, hl, ht with
  | [], _, ht => rw [← ht]; rfl
  | [i], _, ht => rw [← ht]; rfl
  | a :: b :: rest, hl, ht =>
    rw [← ht]
    exact tidyPairs_eq μ (a :: b :: rest) _ true none hl (by simp)

theorem space_eq (s : St) (n : NodeId) (sp : XmlSpace) : (s.look n).space sp = s.spaceAt n sp := by
  unfold Look.space St.spaceAt attrsGetValue attrsGet St.look
  cases (s.attributes n).find? fun a => decide (a.name = .id .Space) with
  | none => rfl
  | some a =>
    obtain ⟨n, v⟩ := a
    cases v <;> rfl

theorem items_pos {s : St} (sp : XmlSpace) : ∀ (d : Content) (m : XmlSpace) (k : Nat), d.Looks s →
    (d.items sp m k).map Item.pos = (d.trees.depths k).filter fun x => s.isText x.1
  | .nil, _, _, _ => rfl
  | .node n l K R, m, k, h => by
    obtain ⟨h1, h2, h3⟩ := Content.looks_node.1 h
    have ht : l.type = s.nodeType n := by rw [← h1]; rfl
    rw [Content.items, Content.trees, Trees.depths, List.map_append, List.map_append, items_pos sp K _ _ h2, items_pos sp R _ _ h3,
      List.filter_cons, List.filter_append, ht]
    by_cases hx : s.nodeType n = .text
    · simp [hx, St.isText, Item.pos]
    · simp [hx, St.isText]

theorem items_mode {s : St} {F : Forest} (hF : Describes s F) (sp : XmlSpace) : ∀ (d : Content) {m : XmlSpace} {k : Nat} {l : List NodeId}, d.Looks s →
    d.trees.Of F l → (∀ i ∈ l, s.live i = true) → (∀ i ∈ l, s.modeOf i sp = m) →
    ∀ i ∈ d.items sp m k, s.modeOf i.node sp = i.mode
  | .nil, _, _, _, _, _, _, _ => by simp [Content.items]
  | .node n l K R, m, k, w, h, hT, hl, hm => by
    obtain ⟨h1, h2, h3⟩ := Content.looks_node.1 h
    obtain ⟨l', rfl, hK, hR⟩ := hT
    have hn := hl n (by simp)
    have hk := hF.wf.kids n hn
    have ih1 := items_mode hF sp K (m := l.space sp) (k := k + 1) h2 hK (fun i hi => (hk i hi).1) (by
      intro i hi
      simp only [St.modeOf]
      rw [hF.shows.parent i (hk i hi).1, (hk i hi).2]
      rw [← h1, space_eq])
    have ih2 := items_mode hF sp R (k := k) h3 hR (fun i hi => hl i (by simp [hi])) (fun i hi => hm i (by simp [hi]))
    intro i hi
    rw [Content.items, List.mem_append, List.mem_append] at hi
    rcases hi with (hi | hi) | hi
    · split at hi
      · simp only [List.mem_singleton] at hi
        subst hi
        exact hm n (by simp)
      · simp at hi
    · exact ih1 i hi
    · exact ih2 i hi

theorem startsText_doc {s : St} : ∀ {d : Content}, d.Looks s → d.startsText = d.trees.textFirst s
  | .nil, _ => rfl
  | .node n l K R, h => by
    obtain ⟨h1, _, _⟩ := Content.looks_node.1 h
    simp [Content.startsText, Content.trees, Trees.textFirst, St.isText, ← h1, St.look]

theorem tidy_eq {s : St} {F : Forest} (hF : Describes s F) : ∀ (d : Content) {sp : XmlSpace} {l : List NodeId} (τ : Texts), d.Looks s →
    d.trees.Of F l → (∀ i ∈ l, s.live i = true) → d.tidy sp τ = d.trees.tidyT s sp τ
  | .nil, _, _, _, _, _, _ => rfl
  | .node n l K R, sp, w, τ, h, hT, hl => by
    obtain ⟨h1, h2, h3⟩ := Content.looks_node.1 h
    obtain ⟨l', rfl, hK, hR⟩ := hT
    have hn := hl n (by simp)
    have hk := hF.wf.kids n hn
    have hsp : l.space sp = s.spaceAt n sp := by rw [← h1, space_eq]
    have hmode : ∀ i ∈ F.kids n, s.modeOf i (s.spaceAt n sp) = s.spaceAt n sp := by
      intro i hi
      simp only [St.modeOf]
      rw [hF.shows.parent i (hk i hi).1, (hk i hi).2]
      exact spaceAt_self s n sp
    rw [Content.tidy, Content.trees, Trees.tidyT, tidy_eq hF R _ h3 hR (fun i hi => hl i (by simp [hi])), startsText_doc h2, hsp,
      tidyGroup_eq (fun j => s.modeOf j (s.spaceAt n sp)) _ _ _
        (items_mode hF _ K h2 hK (fun i hi => (hk i hi).1) hmode),
      items_pos _ K _ _ h2, tidy_eq hF K _ h2 hK (fun i hi => (hk i hi).1)]
    have hnodes : (K.items (s.spaceAt n sp) (s.spaceAt n sp) 0).map Item.node = K.trees.pre.filter fun j => s.isText j := by
      rw [← St.textDepths_fst, St.textDepths, ← items_pos (s.spaceAt n sp) K (s.spaceAt n sp) 0 h2, List.map_map]
      rfl
    rw [hnodes]
    rfl

theorem tidyT_congr {s : St} {S : NodeId → Prop} : ∀ {T : Trees} {sp : XmlSpace} {τ σ : Texts}, (∀ j ∈ T.pre, S j) → (∀ j, S j → τ j = σ j) →
    ∀ j, S j → T.tidyT s sp τ j = T.tidyT s sp σ j
  | .nil, _, _, _, _, h => h
  | .cons n K R, sp, τ, σ, hS, h => by
    refine tidyT_congr (T := R) (fun j hj => hS j (by simp [Trees.pre, hj])) ?_
    intro j hj
    have hK : ∀ j ∈ K.pre, S j := fun j hj => hS j (by simp [Trees.pre, hj])
    split
    · by_cases hjk : j ∈ K.pre
      · exact elementT_congr (fun i hi => h i (hK i hi)) j hjk
      · rw [elementT_outside fun e => hjk e.1, elementT_outside fun e => hjk e.1, h j hj]
    · exact tidyT_congr (T := K) hK h j hj

/-! ### The document -/

theorem Content.looks_without {s : St} {d : Content} {g : Look → Bool} (h : d.Looks s) : (d.without g).Looks s :=
  fun p hp => h p (d.nodes_without g p hp)

theorem Content.mem_nodes {d : Content} {p : NodeId × Look} (h : p ∈ d.nodes) : p.1 ∈ d.trees.pre := by
  rw [← Content.nodes_fst]; exact List.mem_map_of_mem h

theorem Content.looks_change {s t : St} {d : Content} {f : NodeId → Look → Look} (h : d.Looks s) (hf : ∀ j ∈ d.trees.pre, t.look j = f j (s.look j)) :
    (d.change f).Looks t := by
  intro p hp
  rw [Content.nodes_change, List.mem_map] at hp
  obtain ⟨q, hq, rfl⟩ := hp
  simp only
  rw [hf q.1 (Content.mem_nodes hq), h q hq]

/-- The nodes that parsing creates, and what they carry in the end. -/
structure Whole (L : Lib) (x : Xml) (T K : Trees) (s3 t : St) : Prop where
  pre : T.pre = List.range' 1 (svgDom L x).size
  look : ∀ j, j = 0 ∨ j ∈ T.pre → t.look j = parsedLook L x j
  trees : (parsedDoc L x).trees = K
  users : ∀ j, j = 0 ∨ j ∈ T.pre → parsedUsers L x j = s3.linkedNodes j

theorem whole {L : Lib} {debug : Bool} {x : Xml} {p : PSt} {T : Trees} {G : Forest} {s2 s3 u t : St} (f : Front L debug x p T G s2 s3)
    (hp : Prepared s3 (G.prune (T.gone p.dom.styleNode)) (T.keep p.dom.styleNode) u t) :
    Whole L x T ((T.keep p.dom.styleNode).keep u.emptyText) s3 t := by
  have hs := f.resolves.same
  have hr0 : p.dom.rootId = 0 := f.root
  -- the nodes
  have hpre : T.pre = List.range' 1 (svgDom L x).size := by rw [← f.adds.is.size]; exact f.adds.grown.order
  obtain ⟨hT, hlook, hlinks⟩ := f.adds.is.number hpre
  change (allNodes L x).trees = T at hT
  change (allNodes L x).Looks p.dom at hlook
  have hrl : p.dom.live p.dom.rootId = true := f.adds.built.rootLive
  have h0 : (0 : NodeId) ∉ T.pre := by rw [hpre]; simp
  have hattr2 : ∀ j, j = 0 ∨ j ∈ T.pre → s2.attributes j = p.dom.attributes j := by
    rintro j (rfl | hj)
    · have : p.dom.attributes 0 = [] := f.adds.grown.attrs 0 rfl
      rw [f.removed.attrs 0 (by rw [← hr0]; exact hrl), this]; rfl
    · exact front_attrs2 f hj
  have hlook2 : ∀ j, j = 0 ∨ j ∈ T.pre → s2.look j = p.dom.look j := by
    intro j hj
    simp only [St.look, f.removed.types, f.removed.tags, f.removed.ids, f.removed.texts, hattr2 j hj]
  have hat : ∀ j, j = 0 ∨ j ∈ T.pre → (allNodes L x).lookAt j = s2.look j := by
    intro j hj
    rw [hlook2 j hj]
    rcases hj with rfl | hj
    · rw [Content.lookAt_out (by rw [hT]; exact h0)]
      have h1 : p.dom.attributes 0 = [] := f.adds.grown.attrs 0 rfl
      have h2 : p.dom.nodeType 0 = .root := f.adds.grown.types 0 rfl
      have h3 : p.dom.tagName 0 = .name [] := f.adds.grown.tags 0 rfl
      have h4 : p.dom.idOf 0 = [] := f.adds.grown.ids 0 rfl
      have h5 : p.dom.text 0 = [] := f.adds.grown.texts 0 rfl
      simp only [St.look, h1, h2, h3, h4, h5]
    · exact Content.lookAt_eq hlook (by rw [hT]; exact hj)
  have hlk2 : (allNodes L x).Looks s2 := fun q hq => by
    rw [hlook2 q.1 (.inr (by rw [← hT]; exact Content.mem_nodes hq))]; exact hlook q hq
  -- without styles
  have hkept : (keptNodes L x).trees = T.keep p.dom.styleNode := by
    rw [keptNodes, Content.trees_without (f := p.dom.styleNode) _ hlook, hT]
    intro j hj
    rfl
  have hlkept : (keptNodes L x).Looks s2 := Content.looks_without hlk2
  -- references
  have hid0 : p.dom.idOf 0 = [] := f.adds.grown.ids 0 rfl
  have htargets : ((0, []) :: (keptNodes L x).nodes.map fun p => (p.1, p.2.id) : List (NodeId × Str)) =
      (p.dom.rootId :: (T.keep p.dom.styleNode).pre).map fun i => (i, s2.idOf i) := by
    rw [List.map_cons, hr0, f.removed.ids, hid0, ← hkept, ← Content.nodes_fst, List.map_map]
    congr 1
    refine List.map_congr_left fun q hq => ?_
    simp only [Function.comp_apply]
    rw [← hlkept q hq]; rfl
  have horder : ∀ i ∈ p.dom.rootId :: (T.keep p.dom.styleNode).pre, i = 0 ∨ i ∈ T.pre := by
    intro i hi
    rcases List.mem_cons.1 hi with rfl | hi
    · exact .inl hr0
    · exact .inr (front_kept f hi)
  have hnode : ∀ l ∈ p.links, l.node = 0 ∨ l.node ∈ T.pre := by
    intro l hl
    rw [f.adds.links] at hl
    exact .inr (f.adds.is.plink_nodes l (by simpa using hl)).1
  have hset := settle_all f.resolves htargets (ids := fun j => ((allNodes L x).lookAt j).id) horder hnode
    (fun j hj => by rw [hat j hj]; rfl) (A := fun j => ((allNodes L x).lookAt j).attrs) (fun j hj => by rw [hat j hj]; rfl)
  have hlive2 : ∀ j, s2.live j = true ↔ j = 0 ∨ j ∈ T.pre := fun j => by rw [← hr0, ← front_live f, hs.live]
  have hnone : ∀ j, j = 0 ∨ j ∈ T.pre → [] = s2.linkedNodes j := by
    intro j hj
    symm
    rw [List.eq_nil_iff_forall_not_mem]
    intro i hi
    have hi' := f.built2.inv.link.back j ((hlive2 j).2 hj) i hi
    rw [← List.count_pos_iff, f.built2.inv.link.count i j hi' ((hlive2 j).2 hj), refs_pos] at hi
    obtain ⟨a, ha, hv⟩ := hi
    rcases (hlive2 i).1 hi' with rfl | hm
    · rw [← hr0, front_root_attrs f] at ha
      simp at ha
    · rw [front_attrs2 f hm] at ha
      rw [f.adds.is.plain (domOf_plain L _ x _ _ _) i hm a ha] at hv
      simp at hv
  have huse := settleUsers_all f.resolves htargets (ids := fun j => ((allNodes L x).lookAt j).id) horder hnode
    (fun j hj => by rw [hat j hj]; rfl) (A := fun j => ((allNodes L x).lookAt j).attrs) (U := fun _ => [])
    (fun j hj => by rw [hat j hj]; rfl) hnone
  have hpl : p.links = (svgDom L x).links 1 := by rw [f.adds.links, hlinks]; rfl
  rw [hpl] at hset huse
  change ∀ j, j = 0 ∨ j ∈ T.pre → parsedAttrs L x j = s3.attributes j at hset
  have hlinked : ((keptNodes L x).change fun n l => { l with attrs := parsedAttrs L x n }).Looks s3 := by
    refine Content.looks_change hlkept fun j hj => ?_
    rw [hkept] at hj
    rw [hset j (.inr (front_kept f hj))]
    simp only [St.look, hs.types, hs.tags, hs.ids, hs.texts]
  -- texts
  have hlk : ∀ i ∈ (G.prune (T.gone p.dom.styleNode)).kids s3.rootId, s3.live i = true := fun i hi =>
    (f.desc3.wf.kids _ f.built3.rootLive i hi).1
  have hof3 : (T.keep p.dom.styleNode).Of (G.prune (T.gone p.dom.styleNode)) ((G.prune (T.gone p.dom.styleNode)).kids s3.rootId) := by
    rw [f.root3]; exact f.of2
  have htx : ∀ j, j = 0 ∨ j ∈ T.pre → parsedTexts L x j = u.text j := by
    intro j hj
    unfold parsedTexts
    rw [tidy_eq f.desc3 _ _ hlinked (by rw [Content.trees_change, hkept]; exact hof3) hlk, Content.trees_change, hkept, hp.tidy]
    refine tidyT_congr (S := fun j => j = 0 ∨ j ∈ T.pre) (fun j hj => .inr (front_kept f hj)) ?_ j hj
    intro j hj
    rw [hat j hj, hs.texts]
    rfl
  have hfinal : ∀ j, j = 0 ∨ j ∈ T.pre → t.look j = parsedLook L x j := by
    intro j hj
    have hjl : s3.live j = true := by rw [front_live f, hr0]; exact hj
    unfold parsedLook
    rw [hat j hj, hset j hj, htx j hj]
    simp only [St.look, hp.removed.types, hp.removed.tags, hp.removed.ids, hp.removed.texts, hp.ti.types, hp.ti.tags, hp.ti.ids,
      hp.attrs j hjl, hs.types, hs.tags, hs.ids]
  have hfin : ((keptNodes L x).change fun n _ => parsedLook L x n).Looks t := by
    refine Content.looks_change hlkept fun j hj => ?_
    rw [hkept] at hj
    exact hfinal j (.inr (front_kept f hj))
  refine ⟨hpre, hfinal, ?_, huse⟩
  rw [parsedDoc, Content.trees_without (f := u.emptyText) _ hfin, Content.trees_change, hkept]
  intro j _
  simp [St.emptyText, St.isText, St.look, hp.removed.types, hp.removed.texts]
  cases u.text j <;> simp

theorem parsedDoc_looks {L : Lib} {x : Xml} : ∀ p ∈ (parsedDoc L x).nodes, p.2 = parsedLook L x p.1 := by
  intro p hp
  have := Content.nodes_without _ _ p hp
  rw [Content.nodes_change, List.mem_map] at this
  obtain ⟨q, _, rfl⟩ := this
  rfl

theorem keep_pre_sub (g : NodeId → Bool) : ∀ (T : Trees), ∀ j ∈ (T.keep g).pre, j ∈ T.pre
  | .nil, _, h => h
  | .cons n K R, j, h => by
    rw [Trees.keep] at h
    split at h
    · simp [Trees.pre, keep_pre_sub g R j h]
    · simp only [Trees.pre, List.mem_cons, List.mem_append] at h ⊢
      rcases h with h | h | h
      · exact .inl h
      · exact .inr (.inl (keep_pre_sub g K j h))
      · exact .inr (.inr (keep_pre_sub g R j h))

theorem shown {L : Lib} {debug : Bool} {x : Xml} {p : PSt} {T : Trees} {G : Forest} {s2 s3 u t : St} (f : Front L debug x p T G s2 s3)
    (hp : Prepared s3 (G.prune (T.gone p.dom.styleNode)) (T.keep p.dom.styleNode) u t) : (parsedDoc L x).Shown t := by
  have w := whole f hp
  have hr0 : t.rootId = 0 := by rw [hp.removed.rootId, hp.ti.rootId, f.root3]; exact f.root
  refine ⟨hr0, _, hp.desc, ?_, fun q hq => ?_⟩
  · rw [w.trees, hp.removed.rootId, hp.ti.rootId]; exact hp.of
  · rw [parsedDoc_looks q hq]
    refine w.look q.1 (.inr ?_)
    have := Content.mem_nodes hq
    rw [w.trees] at this
    exact keep_pre_sub _ _ _ (keep_pre_sub _ _ _ this)

/-! ### The picture -/

theorem content_tops {F : Forest} : ∀ {d : Content} {l : List NodeId}, d.trees.Of F l → d.tops = l
  | .nil, l, h => by rw [show l = [] from h]; rfl
  | .node n _ K R, l, h => by
    obtain ⟨l', rfl, _, hR⟩ := h
    rw [Content.tops, content_tops hR]

theorem kidsOf_out : ∀ {d : Content} {j : NodeId}, j ∉ d.trees.pre → d.kidsOf j = []
  | .nil, _, _ => rfl
  | .node n l K R, j, h => by
    simp only [Content.trees, Trees.pre, List.mem_cons, List.mem_append, not_or] at h
    rw [Content.kidsOf, if_neg fun e => h.1 e.symm, kidsOf_out h.2.1, kidsOf_out h.2.2]; rfl

theorem kidsOf_eq {F : Forest} : ∀ {d : Content} {l : List NodeId} {j : NodeId}, d.trees.Of F l → d.trees.pre.Nodup → j ∈ d.trees.pre →
    d.kidsOf j = F.kids j
  | .nil, _, _, _, _, h => by simp [Content.trees, Trees.pre] at h
  | .node n _ K R, l, j, hT, hnd, hj => by
    obtain ⟨l', rfl, hK, hR⟩ := hT
    simp only [Content.trees, Trees.pre, List.nodup_cons, List.nodup_append, List.mem_cons, List.mem_append, not_or] at hnd hj
    rw [Content.kidsOf]
    split
    · next e => subst e; exact content_tops hK
    · next e =>
      rcases hj with hj | hj | hj
      · exact absurd hj.symm e
      · rw [kidsOf_eq hK hnd.2.1 hj, kidsOf_out fun h => hnd.2.2.2 j hj j h rfl, List.append_nil]
      · rw [kidsOf_eq hR hnd.2.2.1 hj, kidsOf_out fun h => hnd.2.2.2 j h j hj rfl, List.nil_append]

theorem parOf_out : ∀ {d : Content} {p j : NodeId}, j ∉ d.trees.pre → d.parOf p j = none
  | .nil, _, _, _ => rfl
  | .node n l K R, p, j, h => by
    simp only [Content.trees, Trees.pre, List.mem_cons, List.mem_append, not_or] at h
    rw [Content.parOf, if_neg fun e => h.1 e.symm, parOf_out h.2.1, parOf_out h.2.2]; rfl

theorem parOf_eq {s : St} {F : Forest} (hF : Describes s F) : ∀ {d : Content} {l : List NodeId} {p j : NodeId}, d.trees.Of F l →
    (∀ i ∈ l, s.live i = true ∧ F.par i = some p) → d.trees.pre.Nodup → j ∈ d.trees.pre → d.parOf p j = F.par j
  | .nil, _, _, _, _, _, _, h => by simp [Content.trees, Trees.pre] at h
  | .node n _ K R, l, p, j, hT, hl, hnd, hj => by
    obtain ⟨l', rfl, hK, hR⟩ := hT
    simp only [Content.trees, Trees.pre, List.nodup_cons, List.nodup_append, List.mem_cons, List.mem_append, not_or] at hnd hj
    rw [Content.parOf]
    split
    · next e => subst e; exact (hl n (by simp)).2.symm
    · next e =>
      rcases hj with hj | hj | hj
      · exact absurd hj.symm e
      · rw [parOf_eq hF hK (hF.wf.kids n (hl n (by simp)).1) hnd.2.1 hj, parOf_out (d := R) fun h => hnd.2.2.2 j hj j h rfl, Option.or_none]
      · rw [parOf_eq hF hR (fun i hi => hl i (by simp [hi])) hnd.2.2.1 hj, parOf_out (d := K) fun h => hnd.2.2.2 j h j hj rfl, Option.none_or]

theorem parOf_some : ∀ {d : Content} {p j : NodeId}, j ∈ d.trees.pre → ∃ q, d.parOf p j = some q
  | .nil, _, _, h => by simp [Content.trees, Trees.pre] at h
  | .node n _ K R, p, j, h => by
    simp only [Content.trees, Trees.pre, List.mem_cons, List.mem_append] at h
    rw [Content.parOf]
    split
    · exact ⟨p, rfl⟩
    · next e =>
      rcases h with h | h | h
      · exact absurd h.symm e
      · obtain ⟨q, hq⟩ := parOf_some (p := n) h
        exact ⟨q, by rw [hq]; rfl⟩
      · obtain ⟨q, hq⟩ := parOf_some (p := p) h
        rw [hq]
        cases K.parOf n j <;> simp

/-- A forest that agrees on the live nodes describes the same. -/
theorem Describes.agree {s : St} {F G : Forest} (h : Describes s F)
    (hg : ∀ j, s.live j = true → G.kids j = F.kids j ∧ G.sibs j = F.sibs j ∧ G.par j = F.par j) : Describes s G where
  wf := {
    self_mem := fun i hi => by rw [(hg i hi).2.1]; exact h.wf.self_mem i hi
    nodup := fun i hi => by rw [(hg i hi).2.1]; exact h.wf.nodup i hi
    sib := fun i hi j hj => by
      rw [(hg i hi).2.1] at hj
      obtain ⟨a, b, c⟩ := h.wf.sib i hi j hj
      exact ⟨a, by rw [(hg i hi).2.1, (hg j a).2.1, b], by rw [(hg i hi).2.2, (hg j a).2.2, c]⟩
    par := fun i hi p hp => by
      rw [(hg i hi).2.2] at hp
      obtain ⟨a, b⟩ := h.wf.par i hi p hp
      exact ⟨a, by rw [(hg p a).1, (hg i hi).2.1, b]⟩
    kids := fun p hp c hc => by
      rw [(hg p hp).1] at hc
      obtain ⟨a, b⟩ := h.wf.kids p hp c hc
      exact ⟨a, by rw [(hg c a).2.2, b]⟩ }
  shows := {
    parent := fun i hi => by rw [(hg i hi).2.2]; exact h.shows.parent i hi
    next := fun i hi => by rw [(hg i hi).2.1]; exact h.shows.next i hi
    prev := fun i hi => by rw [(hg i hi).2.1]; exact h.shows.prev i hi
    first := fun i hi => by rw [(hg i hi).1]; exact h.shows.first i hi
    last := fun i hi => by rw [(hg i hi).1]; exact h.shows.last i hi }

theorem prune_gone {F : Forest} {S : List NodeId} {j : NodeId} (h : j ∈ S) :
    (F.prune S).kids j = [] ∧ (F.prune S).sibs j = [j] ∧ (F.prune S).par j = none := by
  simp [Forest.prune, h]

theorem prune_alone {F : Forest} {S : List NodeId} {j : NodeId} (h1 : F.sibs j = [j]) (h2 : F.par j = none) :
    (F.prune S).sibs j = [j] ∧ (F.prune S).par j = none := by
  by_cases h : j ∈ S <;> simp [Forest.prune, h, h1, h2]

/-- The forest of the document, given one that describes the state. -/
theorem forest_agree {t : St} {F : Forest} {d : Content} (hF : Describes t F) (hr : t.live 0 = true) (hd : d.trees.Of F (F.kids 0))
    (hnd : d.trees.pre.Nodup) (h0 : (0 : NodeId) ∉ d.trees.pre) (ha : F.sibs 0 = [0]) (hb : F.par 0 = none)
    (ho : ∀ j, t.live j = true → j ≠ 0 → j ∉ d.trees.pre → F.kids j = [] ∧ F.sibs j = [j] ∧ F.par j = none) :
    Describes t d.forest := by
  have hk : ∀ j, t.live j = true → d.forest.kids j = F.kids j := by
    intro j hj
    show (if j = 0 then d.tops else d.kidsOf j) = _
    split
    · next e => rw [e]; exact content_tops hd
    · next e =>
      by_cases hm : j ∈ d.trees.pre
      · exact kidsOf_eq hd hnd hm
      · rw [kidsOf_out hm, (ho j hj e hm).1]
  have hp : ∀ j, t.live j = true → d.forest.par j = F.par j := by
    intro j hj
    show d.parOf 0 j = _
    by_cases hm : j ∈ d.trees.pre
    · exact parOf_eq hF hd (hF.wf.kids 0 hr) hnd hm
    · rw [parOf_out hm]
      by_cases e : j = 0
      · rw [e, hb]
      · rw [(ho j hj e hm).2.2]
  refine hF.agree fun j hj => ⟨hk j hj, ?_, hp j hj⟩
  show (match d.forest.par j with | some p => d.forest.kids p | none => [j]) = _
  rw [hp j hj]
  cases hq : F.par j with
  | some q =>
    obtain ⟨h1, h2⟩ := hF.wf.par j hj q hq
    show d.forest.kids q = _
    rw [hk q h1, h2]
  | none =>
    show [j] = _
    by_cases e : j = 0
    · rw [e, ha]
    · by_cases hm : j ∈ d.trees.pre
      · exfalso
        have : d.parOf 0 j = none := by rw [← hq]; exact hp j hj
        obtain ⟨q, h⟩ := parOf_some (p := 0) hm
        rw [h] at this
        cases this
      · rw [(ho j hj e hm).2.1]

theorem abs_parsed {L : Lib} {debug : Bool} {x : Xml} {p : PSt} {T : Trees} {G : Forest} {s2 s3 u t : St} (f : Front L debug x p T G s2 s3)
    (hp : Prepared s3 (G.prune (T.gone p.dom.styleNode)) (T.keep p.dom.styleNode) u t) : Abs t (parsedPicture L debug x) := by
  have w := whole f hp
  have hs := f.resolves.same
  have hr0 : p.dom.rootId = 0 := f.root
  have hrt : t.rootId = 0 := by rw [hp.removed.rootId, hp.ti.rootId, f.root3]; exact hr0
  have hlive : ∀ j, t.live j = true ↔ j = 0 ∨ j ∈ T.pre := fun j => by
    rw [hp.removed.live, hp.ti.live, front_live f, hr0]
  have hnT : T.pre.Nodup := by rw [w.pre]; exact List.nodup_range'
  have h0T : (0 : NodeId) ∉ T.pre := by rw [w.pre]; simp
  have hpre : ∀ j, j ∈ (parsedDoc L x).trees.pre ↔ j ∈ T.pre ∧ j ∉ T.gone p.dom.styleNode ∧ u.emptyText j = false := by
    intro j
    rw [w.trees, hp.pre, f.pre2]
    simp only [List.mem_filter, decide_eq_true_eq, Bool.not_eq_true', and_assoc]
  have hgone : ∀ j ∈ T.gone p.dom.styleNode, j ∈ T.pre := fun j hj => gone_sub _ _ hj
  have hnd : (parsedDoc L x).trees.pre.Nodup := by
    rw [w.trees, hp.pre, f.pre2]; exact (hnT.filter _).filter _
  have hG := f.adds.frame 0 rfl
  have hemp : ∀ j, j ∈ (T.keep p.dom.styleNode).pre.filter u.emptyText ↔ j ∈ T.pre ∧ j ∉ T.gone p.dom.styleNode ∧ u.emptyText j = true := by
    intro j
    rw [f.pre2]
    simp only [List.mem_filter, decide_eq_true_eq, and_assoc]
  refine ⟨?_, ?_, hrt.symm, ?_, ?_, fun j hj => (w.look j ((hlive j).1 hj)).symm, fun j hj => ?_⟩
  · funext j
    rw [Bool.eq_iff_iff, hlive j, w.pre]
    simp only [parsedPicture, decide_eq_true_eq, List.mem_range'_1]
    have key : ∀ a n : Nat, a < 1 + n ↔ a = 0 ∨ 1 ≤ a ∧ a < 1 + n := by omega
    exact key j _
  · rw [hp.removed.nextId, hp.ti.nextId, hs.nextId, f.removed.nextId, f.adds.grown.next]
    rw [w.pre, List.length_range']; rfl
  · rw [hp.removed.debug, hp.ti.debug, hs.debug, f.removed.debug, f.adds.grown.debug]; rfl
  · have hroot : (t.live 0) = true := (hlive 0).2 (.inl rfl)
    have hG0 : G.sibs 0 = [0] ∧ G.par 0 = none := ⟨hG.2.2 (by simp [Forest.isolated]), hG.2.1⟩
    have h1 := prune_alone (S := T.gone p.dom.styleNode) hG0.1 hG0.2
    have h2 := prune_alone (S := (T.keep p.dom.styleNode).pre.filter u.emptyText) h1.1 h1.2
    refine forest_agree hp.desc hroot ?_ hnd (fun h => h0T ((hpre 0).1 h).1) h2.1 h2.2 ?_
    · rw [w.trees]
      have := hp.of
      rw [f.root3, hr0] at this
      exact this
    · intro j hj h0 hm
      rw [hpre] at hm
      have hT := ((hlive j).1 hj).resolve_left h0
      by_cases hg : j ∈ T.gone p.dom.styleNode
      · obtain ⟨a, b, c⟩ := prune_gone (F := G) hg
        obtain ⟨b', c'⟩ := prune_alone (S := (T.keep p.dom.styleNode).pre.filter u.emptyText) b c
        refine ⟨?_, b', c'⟩
        show (if _ then _ else _) = _
        rw [a]; simp
      · refine prune_gone ((hemp j).2 ⟨hT, hg, ?_⟩)
        cases he : u.emptyText j with
        | true => rfl
        | false => exact absurd ⟨hT, hg, he⟩ hm
  · have hd : t.isDetached j = ((p.dom.isDetached j || decide (j ∈ T.gone p.dom.styleNode)) ||
        decide (j ∈ (T.keep p.dom.styleNode).pre.filter u.emptyText)) := by
      rw [hp.removed.detached, ← f.removed.detached]
      simp only [St.isDetached, hp.ti.keys, hs.keys]
    have hpd : p.dom.isDetached j = false := by
      rcases (hlive j).1 hj with rfl | h
      · rw [f.adds.grown.detached 0 rfl]; rfl
      · exact f.adds.grown.newDetached j h
    have hmem : ((parsedDoc L x).nodes.any fun q => decide (q.1 = j)) = decide (j ∈ (parsedDoc L x).trees.pre) := by
      rw [Bool.eq_iff_iff, ← Content.nodes_fst]
      simp
    rw [hd, hpd]
    simp only [parsedPicture]
    rw [hmem, Bool.eq_iff_iff]
    simp only [Bool.or_eq_true, decide_eq_true_eq, hpre, Bool.false_or, Bool.not_eq_true', Bool.or_eq_false_iff, decide_eq_false_iff_not, hemp]
    rcases (hlive j).1 hj with rfl | h
    · have : (0 : NodeId) ∉ T.gone p.dom.styleNode := fun h => h0T (hgone 0 h)
      simp [h0T, this]
    · have : j ≠ 0 := fun e => h0T (e ▸ h)
      cases u.emptyText j <;> simp [h, this]

end Svgdom
