import Verif.Proof.ParseAttrs

/-! `process_node` builds the expected DOM. -/

namespace Svgdom

open Relation

theorem Built.rootLive {s : St} (h : Built s) : s.live s.rootId = true := by
  obtain ⟨F, hT⟩ := h.inv.tree
  exact hT.root

/-! ### Concatenation -/

def Dom.app : Dom → Dom → Dom
  | nil, e => e
  | element eid id attrs refs kids rest, e => .element eid id attrs refs kids (rest.app e)
  | text t rest, e => .text t (rest.app e)
  | comment t rest, e => .comment t (rest.app e)

def Trees.app : Trees → Trees → Trees
  | nil, u => u
  | cons i k r, u => .cons i k (r.app u)

theorem Trees.app_pre : ∀ (T U : Trees), (T.app U).pre = T.pre ++ U.pre
  | .nil, U => rfl
  | .cons i k r, U => by simp [Trees.app, Trees.pre, Trees.app_pre r U]

theorem Trees.Of.app {F : Forest} : ∀ {T U : Trees} {l m : List NodeId}, T.Of F l → U.Of F m → (T.app U).Of F (l ++ m)
  | .nil, U, l, m, h, h' => by cases h; exact h'
  | .cons i k r, U, l, m, h, h' => by
    obtain ⟨l', rfl, hk, hr⟩ := h
    exact ⟨l' ++ m, rfl, hk, hr.app h'⟩

theorem Dom.tags_app : ∀ (D E : Dom), (D.app E).tags = D.tags ++ E.tags
  | .nil, E => rfl
  | .element _ _ _ _ _ r, E => by simp [Dom.app, Dom.tags, Dom.tags_app r E]
  | .text _ r, E => by simp [Dom.app, Dom.tags, Dom.tags_app r E]
  | .comment _ r, E => by simp [Dom.app, Dom.tags, Dom.tags_app r E]

theorem Dom.Is.app {s : St} : ∀ {D E : Dom} {T U : Trees}, D.Is s T → E.Is s U → (D.app E).Is s (T.app U)
  | .nil, E, T, U, h, h' => by
    cases T with
    | nil => exact h'
    | cons _ _ _ => exact h.elim
  | .element _ _ _ _ _ r, E, T, U, h, h' => by
    cases T with
    | nil => exact h.elim
    | cons n K R =>
      obtain ⟨a, b, c, d, e, f, g⟩ := h
      exact ⟨a, b, c, d, e, f, Dom.Is.app (D := r) g h'⟩
  | .text _ r, E, T, U, h, h' => by
    cases T with
    | nil => exact h.elim
    | cons n K R =>
      obtain ⟨a, b, c, d, e, f, g⟩ := h
      exact ⟨a, b, c, d, e, f, Dom.Is.app (D := r) g h'⟩
  | .comment _ r, E, T, U, h, h' => by
    cases T with
    | nil => exact h.elim
    | cons n K R =>
      obtain ⟨a, b, c, d, e, f, g⟩ := h
      exact ⟨a, b, c, d, e, f, Dom.Is.app (D := r) g h'⟩

theorem Dom.plinks_app {s : St} : ∀ {D E : Dom} {T U : Trees}, D.Is s T → (D.app E).plinks (T.app U) = D.plinks T ++ E.plinks U
  | .nil, E, T, U, h => by
    cases T with
    | nil => simp [Dom.app, Trees.app, Dom.plinks]
    | cons _ _ _ => exact h.elim
  | .element _ _ _ _ _ r, E, T, U, h => by
    cases T with
    | nil => exact h.elim
    | cons n K R =>
      obtain ⟨_, _, _, _, _, _, g⟩ := h
      simp [Dom.app, Trees.app, Dom.plinks, Dom.plinks_app (D := r) (E := E) (U := U) g]
  | .text _ r, E, T, U, h => by
    cases T with
    | nil => exact h.elim
    | cons n K R =>
      obtain ⟨_, _, _, _, _, _, g⟩ := h
      simp [Dom.app, Trees.app, Dom.plinks, Dom.plinks_app (D := r) (E := E) (U := U) g]
  | .comment _ r, E, T, U, h => by
    cases T with
    | nil => exact h.elim
    | cons n K R =>
      obtain ⟨_, _, _, _, _, _, g⟩ := h
      simp [Dom.app, Trees.app, Dom.plinks, Dom.plinks_app (D := r) (E := E) (U := U) g]

theorem Grown.tagId {s t : St} {l : List NodeId} (g : Grown s t l) {j : NodeId} (hj : s.live j = true) : t.tagId j = s.tagId j := by
  simp only [St.tagId, g.tags j hj]

theorem Dom.Is.grown {s t : St} {l : List NodeId} (g : Grown s t l) : ∀ {D : Dom} {T : Trees}, (∀ j ∈ T.pre, s.live j = true) →
    D.Is s T → D.Is t T
  | .nil, T, hl, h => by
    cases T with
    | nil => trivial
    | cons _ _ _ => exact h.elim
  | .element _ _ _ _ k r, T, hl, h => by
    cases T with
    | nil => exact h.elim
    | cons n K R =>
      simp only [Trees.pre, List.mem_cons, List.mem_append] at hl
      have hn := hl n (.inl rfl)
      obtain ⟨a, b, c, d, e, f, i⟩ := h
      exact ⟨by rw [g.types n hn]; exact a, by rw [g.tags n hn]; exact b, by rw [g.ids n hn]; exact c,
        by rw [g.attrs n hn]; exact d, by rw [g.texts n hn]; exact e,
        Dom.Is.grown g (D := k) (fun j hj => hl j (.inr (.inl hj))) f,
        Dom.Is.grown g (D := r) (fun j hj => hl j (.inr (.inr hj))) i⟩
  | .text _ r, T, hl, h => by
    cases T with
    | nil => exact h.elim
    | cons n K R =>
      simp only [Trees.pre, List.mem_cons, List.mem_append] at hl
      have hn := hl n (.inl rfl)
      obtain ⟨a, b, c, d, e, f, i⟩ := h
      exact ⟨by rw [g.types n hn]; exact a, by rw [g.tags n hn]; exact b, by rw [g.ids n hn]; exact c,
        by rw [g.attrs n hn]; exact d, by rw [g.texts n hn]; exact e, f,
        Dom.Is.grown g (D := r) (fun j hj => hl j (.inr (.inr hj))) i⟩
  | .comment _ r, T, hl, h => by
    cases T with
    | nil => exact h.elim
    | cons n K R =>
      simp only [Trees.pre, List.mem_cons, List.mem_append] at hl
      have hn := hl n (.inl rfl)
      obtain ⟨a, b, c, d, e, f, i⟩ := h
      exact ⟨by rw [g.types n hn]; exact a, by rw [g.tags n hn]; exact b, by rw [g.ids n hn]; exact c,
        by rw [g.attrs n hn]; exact d, by rw [g.texts n hn]; exact e, f,
        Dom.Is.grown g (D := r) (fun j hj => hl j (.inr (.inr hj))) i⟩

theorem Dom.Is.topTags {s : St} {F : Forest} : ∀ {D : Dom} {T : Trees} {l : List NodeId}, D.Is s T → T.Of F l →
    l.filterMap s.tagId = D.tags
  | .nil, T, l, h, hT => by
    cases T with
    | nil => cases hT; rfl
    | cons _ _ _ => exact h.elim
  | .element eid _ _ _ k r, T, l, h, hT => by
    cases T with
    | nil => exact h.elim
    | cons n K R =>
      obtain ⟨l', rfl, _, hR⟩ := hT
      obtain ⟨_, b, _, _, _, _, i⟩ := h
      have : s.tagId n = some eid := by simp [St.tagId, b]
      simp [List.filterMap_cons, this, Dom.tags, Dom.Is.topTags (D := r) i hR]
  | .text _ r, T, l, h, hT => by
    cases T with
    | nil => exact h.elim
    | cons n K R =>
      obtain ⟨l', rfl, _, hR⟩ := hT
      obtain ⟨_, b, _, _, _, _, i⟩ := h
      have : s.tagId n = none := by simp [St.tagId, b]
      simp [List.filterMap_cons, this, Dom.tags, Dom.Is.topTags (D := r) i hR]
  | .comment _ r, T, l, h, hT => by
    cases T with
    | nil => exact h.elim
    | cons n K R =>
      obtain ⟨l', rfl, _, hR⟩ := hT
      obtain ⟨_, b, _, _, _, _, i⟩ := h
      have : s.tagId n = none := by simp [St.tagId, b]
      simp [List.filterMap_cons, this, Dom.tags, Dom.Is.topTags (D := r) i hR]

/-! ### Steps -/

/-- `p'` is `p` with the nodes of `D` as further children of `parent`. -/
structure Adds (p : PSt) (F : Forest) (parent : NodeId) (D : Dom) (p' : PSt) (T : Trees) (l : List NodeId) (G : Forest) : Prop where
  built : Built p'.dom
  desc : Describes p'.dom G
  grown : Grown p.dom p'.dom T.pre
  of : T.Of G l
  is : D.Is p'.dom T
  kids : G.kids parent = F.kids parent ++ l
  frame : ∀ j, p.dom.live j = true → (j ≠ parent → G.kids j = F.kids j) ∧ G.par j = F.par j ∧
    (j ∉ F.kids parent → G.sibs j = F.sibs j)
  links : p'.links = p.links ++ D.plinks T

theorem Adds.nil {p : PSt} {F : Forest} (hb : Built p.dom) (hF : Describes p.dom F) (parent : NodeId) :
    Adds p F parent .nil p .nil [] F where
  built := hb
  desc := hF
  grown := Grown.nil _
  of := rfl
  is := trivial
  kids := by simp
  frame := fun j _ => ⟨fun _ => rfl, rfl, fun _ => rfl⟩
  links := by simp [Dom.plinks]

theorem Adds.live {p p' : PSt} {F G : Forest} {parent : NodeId} {D : Dom} {T : Trees} {l : List NodeId}
    (h : Adds p F parent D p' T l G) {j : NodeId} (hj : p.dom.live j = true) : p'.dom.live j = true := (h.grown.live j).2 (.inl hj)

theorem Adds.tags {p p' : PSt} {F G : Forest} {parent : NodeId} {D : Dom} {T : Trees} {l : List NodeId}
    (h : Adds p F parent D p' T l G) (hF : Describes p.dom F) (hp : p.dom.live parent = true) :
    (G.kids parent).filterMap p'.dom.tagId = (F.kids parent).filterMap p.dom.tagId ++ D.tags := by
  rw [h.kids, List.filterMap_append, h.is.topTags h.of]
  congr 1
  apply List.filterMap_congr
  intro j hj
  exact h.grown.tagId (hF.wf.kids parent hp j hj).1

theorem Trees.Of.top_mem {F : Forest} : ∀ {T : Trees} {l : List NodeId}, T.Of F l → ∀ j ∈ l, j ∈ T.pre
  | .nil, l, h, j, hj => by cases h; simp at hj
  | .cons i k r, l, h, j, hj => by
    obtain ⟨l', rfl, hk, hr⟩ := h
    rcases List.mem_cons.1 hj with rfl | hj
    · simp [Trees.pre]
    · simp [Trees.pre, hr.top_mem j hj]

theorem Adds.fresh {p p' : PSt} {F G : Forest} {parent : NodeId} {D : Dom} {T : Trees} {l : List NodeId}
    (h : Adds p F parent D p' T l G) (hb : Built p.dom) {j : NodeId} (hj : p.dom.live j = true) : j ∉ T.pre := by
  intro hm
  have h1 := h.grown.fresh j hm
  have h2 := hb.inv.liveBelow j hj
  exact absurd h2 (Nat.not_lt.2 h1)

theorem Adds.seq {p p1 p2 : PSt} {F F1 F2 : Forest} {parent : NodeId} {D E : Dom} {T U : Trees} {l m : List NodeId}
    (hb : Built p.dom) (hp : p.dom.live parent = true) (h : Adds p F parent D p1 T l F1) (k : Adds p1 F1 parent E p2 U m F2) :
    Adds p F parent (D.app E) p2 (T.app U) (l ++ m) F2 where
  built := k.built
  desc := k.desc
  grown := by rw [Trees.app_pre]; exact h.grown.trans k.grown
  of := by
    refine (h.of.congr fun j hj => (k.frame j ((h.grown.live j).2 (.inr hj))).1 ?_).app k.of
    rintro rfl
    exact h.fresh hb hp hj
  is := (h.is.grown k.grown fun j hj => (h.grown.live j).2 (.inr hj)).app k.is
  kids := by rw [k.kids, h.kids, List.append_assoc]
  frame := by
    intro j hj
    obtain ⟨a1, a2, a3⟩ := h.frame j hj
    obtain ⟨b1, b2, b3⟩ := k.frame j (h.live hj)
    refine ⟨fun hne => (b1 hne).trans (a1 hne), b2.trans a2, fun hm => ?_⟩
    rw [b3, a3 hm]
    rw [h.kids, List.mem_append, not_or]
    exact ⟨hm, fun hl => h.fresh hb hj (h.of.top_mem j hl)⟩
  links := by rw [k.links, h.links, List.append_assoc, Dom.plinks_app h.is]

/-- A fresh node without children is appended. -/
theorem append_fresh {s u : St} (hb : Built s) {F : Forest} (hF : Describes s F) {parent n : NodeId} (hp : s.live parent = true)
    (hpp : parent ∉ F.kids parent) (hn : n = s.nextId) (hbu : Built u) (g : Grown s u [n]) (hFu : Describes u (F.add n)) :
    ∃ t G, u.append parent n = .ok t ∧ Built t ∧ Describes t G ∧ Frame u t ∧ G.kids parent = F.kids parent ++ [n] ∧
      G.kids n = [] ∧
      (∀ j, s.live j = true → (j ≠ parent → G.kids j = F.kids j) ∧ G.par j = F.par j ∧
        (j ∉ F.kids parent → G.sibs j = F.sibs j)) := by
  have hndead : s.live n = false := by rw [hn]; exact hb.inv.nextId_dead
  have hln : ∀ j, s.live j = true → j ≠ n := by
    rintro j hj rfl; rw [hndead] at hj; simp at hj
  have hl1 : ∀ j, s.live j = true → u.live j = true := fun j hj => (g.live j).2 (.inl hj)
  have hn1 : u.live n = true := (g.live n).2 (.inr (by simp))
  have hparn : parent ≠ n := hln parent hp
  have ak : ∀ j, j ≠ n → (F.add n).kids j = F.kids j := fun j hj => by simp [Forest.add, hj]
  have as : ∀ j, j ≠ n → (F.add n).sibs j = F.sibs j := fun j hj => by simp [Forest.add, hj]
  have ap : ∀ j, j ≠ n → (F.add n).par j = F.par j := fun j hj => by simp [Forest.add, hj]
  obtain ⟨t, e2, h2, f2, hF2, bk, bp, bs⟩ := append_isolated hbu.inv hFu (hl1 parent hp) hn1 hparn (by simp [Forest.add])
    (by simp [Forest.add]) (by rw [ak parent hparn]; exact hpp)
  have hnk : u.firstChild n = none := by
    rw [hFu.shows.first n hn1]; simp [Forest.add]
  refine ⟨t, _, e2, ?_, hF2, f2, ?_, ?_, ?_⟩
  · refine hbu.call (.append parent n) ?_ ?_ ?_ e2
    · simp only [Op.handles, List.mem_cons, List.not_mem_nil, or_false]
      rintro i (rfl | rfl)
      · exact hl1 _ hp
      · exact hn1
    · intro hs
      exact hparn (no_descendants hbu.inv hn1 hnk (hl1 _ hp) hs)
    · refine ⟨?_, fun _ => .inl hnk⟩
      rw [g.rootId]
      exact (hln _ hb.rootLive).symm
  · rw [bk parent (hl1 parent hp), if_pos rfl, ak parent hparn]
  · rw [bk n hn1, if_neg (Ne.symm hparn)]; simp [Forest.add]
  · intro j hj
    refine ⟨fun hjp => ?_, ?_, fun hjk => ?_⟩
    · rw [bk j (hl1 j hj), if_neg hjp, ak j (hln j hj)]
    · rw [bp, if_neg (hln j hj), ap j (hln j hj)]
    · rw [bs j (hl1 j hj) (hln j hj) (by rw [ak parent hparn]; exact hjk), as j (hln j hj)]

/-- Texts and comments. -/
theorem appendNew_adds {p : PSt} (hb : Built p.dom) {F : Forest} (hF : Describes p.dom F) {parent : NodeId}
    (hp : p.dom.live parent = true) (hpp : parent ∉ F.kids parent) {ty : NodeType} (hty : ty = .text ∨ ty = .comment) (t : Str) :
    ∃ p' T l G, appendNew p parent ty t = .ok p' ∧
      Adds p F parent (if ty = .text then .text t .nil else .comment t .nil) p' T l G := by
  obtain ⟨u, key, e1, hu, hgr, hd1, hd2, hFu⟩ := newNode_grown hb.inv (.fresh ty (.name []) t) rfl rfl
  have hcr : p.dom.createNode ty t = .ok (u, p.dom.nextId) := by
    have : decide (ty ≠ .element ∧ ty ≠ .root) = true := by rcases hty with rfl | rfl <;> rfl
    simp [St.createNode, assertOrPanic, this, e1, bind, Except.bind]
  have hbu : Built u := hb.call (.createNode ty t) (by simp [Op.handles]) trivial trivial (by simp [Op.run, hcr, Except.map])
  obtain ⟨v, G, e2, hbv, hG, f, k1, k2, k3⟩ := append_fresh hb hF hp hpp rfl hbu hgr (hFu F hF)
  obtain ⟨n, hn⟩ : ∃ n, n = p.dom.nextId := ⟨_, rfl⟩
  rw [← hn] at e1 hgr hd1 hd2 hcr e2 k1 k2
  refine ⟨⟨v, p.links⟩, .cons n .nil .nil, [n], G, ?_, ?_⟩
  · simp [appendNew, hcr, e2, bind, Except.bind, pure, Except.pure]
  · refine ⟨hbv, hG, by simpa [Trees.pre] using hgr.frame f, ⟨[], rfl, k2, rfl⟩, ?_, k1, k3, ?_⟩
    · have hv : v.data n = u.data n := by rw [f.data]
      rcases hty with rfl | rfl <;>
        simp [Dom.Is, St.nodeType, St.tagName, St.idOf, St.attributes, St.text, hv, hd1, NodeData.fresh]
    · rcases hty with rfl | rfl <;> simp [Dom.plinks]

theorem dropWhile_nil {p : Char → Bool} : ∀ {l : Str}, l.dropWhile p = [] ↔ l.all p = true
  | [] => by simp
  | c :: l => by
    rw [List.dropWhile_cons, List.all_cons]
    cases h : p c with
    | true => simpa using dropWhile_nil
    | false => simp

theorem trim_blank (t : Str) : (trimStr t).isEmpty = isBlank t := by
  rw [Bool.eq_iff_iff, List.isEmpty_iff, trimStr, List.reverse_eq_nil_iff, dropWhile_nil, List.all_reverse, isBlank]
  constructor
  · intro h
    have : t.dropWhile isWhite = [] := by
      cases hx : t.dropWhile isWhite with
      | nil => rfl
      | cons c l =>
        have h1 : isWhite c = true := by rw [hx] at h; simp at h; exact h.1
        have h2 := List.head?_dropWhile_not isWhite t
        rw [hx] at h2
        simp [h1] at h2
    exact dropWhile_nil.1 this
  · intro h
    rw [dropWhile_nil.2 h]; rfl

theorem processText_adds {p : PSt} (hb : Built p.dom) {F : Forest} (hF : Describes p.dom F) {parent : NodeId}
    (hp : p.dom.live parent = true) (hpp : parent ∉ F.kids parent) (t : Str) :
    ∃ p' T l G, processText p parent t = .ok p' ∧
      Adds p F parent (if isBlank t && !keepsBlank (p.dom.tagId parent) then .nil else .text t .nil) p' T l G := by
  have hdo : ∃ p' T l G, appendNew p parent .text t = .ok p' ∧ Adds p F parent (.text t .nil) p' T l G := by
    simpa using appendNew_adds hb hF hp hpp (ty := .text) (.inl rfl) t
  have hno : ∃ p' T l G, (Except.ok p : Except Err PSt) = .ok p' ∧ Adds p F parent .nil p' T l G :=
    ⟨p, _, _, _, rfl, Adds.nil hb hF parent⟩
  unfold processText
  rw [trim_blank]
  cases hbl : isBlank t with
  | false => simpa using hdo
  | true =>
    simp only [if_true, Bool.true_and]
    cases htg : p.dom.tagId parent with
    | none =>
      have : keepsBlank none = false := by decide
      simp only [this, Bool.not_false, if_true]
      exact hno
    | some e =>
      by_cases he : e = .Text ∨ e = .Tspan ∨ e = .Tref
      · have : keepsBlank (some e) = true := by simp [keepsBlank, he]
        simp only [if_pos he, this, Bool.not_true, Bool.false_eq_true, if_false]
        exact hdo
      · have : keepsBlank (some e) = false := by simp [keepsBlank, he]
        simp only [if_neg he, this, Bool.not_false, if_true]
        exact hno

/-- No element other than `svg` comes first in the document. -/
def Good (s : St) (F : Forest) (parent : NodeId) (D : Dom) : Prop :=
  parent = s.rootId → ∀ e, ((F.kids parent).filterMap s.tagId ++ D.tags).head? = some e → e = .Svg

theorem checkFirst_eq {s : St} (hb : Built s) {F : Forest} (hF : Describes s F) {parent : NodeId} (hp : s.live parent = true) :
    (Good s F parent .nil → checkFirst s parent = .ok ()) ∧ (¬ Good s F parent .nil → checkFirst s parent = .error .noSvgElement) := by
  have hroot := hb.nodesOk.root parent hp
  unfold checkFirst St.isRoot Good
  by_cases hr : parent = s.rootId
  · subst hr
    have h1 := hroot.2 rfl
    simp only [h1, decide_true, if_true, childList_eq hb.inv hF hp, okOrFail, bind, Except.bind, Dom.tags, List.append_nil,
      true_implies]
    cases (F.kids s.rootId).filterMap s.tagId with
    | nil => simp
    | cons e l =>
      by_cases he : e = .Svg
      · simp [he]
      · simp [he]
  · have h1 : ¬ s.nodeType parent = .root := fun h => hr (hroot.1 h)
    simp [h1, hr]

theorem Adds.good {p p' : PSt} {F G : Forest} {parent : NodeId} {D : Dom} {T : Trees} {l : List NodeId}
    (h : Adds p F parent D p' T l G) (hF : Describes p.dom F) (hp : p.dom.live parent = true) (E : Dom) :
    Good p'.dom G parent E ↔ Good p.dom F parent (D.app E) := by
  unfold Good
  rw [h.tags hF hp, h.grown.rootId, Dom.tags_app, List.append_assoc]

theorem Adds.notSelf {p p' : PSt} {F G : Forest} {parent : NodeId} {D : Dom} {T : Trees} {l : List NodeId}
    (h : Adds p F parent D p' T l G) (hb : Built p.dom) (hp : p.dom.live parent = true) (hpp : parent ∉ F.kids parent) :
    parent ∉ G.kids parent := by
  rw [h.kids, List.mem_append, not_or]
  exact ⟨hpp, fun hm => h.fresh hb hp (h.of.top_mem _ hm)⟩

/-- What `process_node` and the following siblings should do. -/
def Processed (p : PSt) (F : Forest) (parent : NodeId) (D : Dom) (r : Except ParseErr PSt) : Prop :=
  (Good p.dom F parent D → ∃ p' T l G, r = .ok p' ∧ Adds p F parent D p' T l G) ∧
  (¬ Good p.dom F parent D → r = .error .noSvgElement)

theorem Good.head {s : St} {F : Forest} {parent : NodeId} {D E : Dom} (h : Good s F parent (D.app E)) : Good s F parent D := by
  intro hr e he
  refine h hr e ?_
  rw [Dom.tags_app, ← List.append_assoc]
  cases hx : (F.kids parent).filterMap s.tagId ++ D.tags with
  | nil => rw [hx] at he; simp at he
  | cons x l => rw [hx] at he; simpa using he

/-- A node, the check, and the following siblings. -/
theorem processed_seq {p : PSt} (hb : Built p.dom) {F : Forest} (hF : Describes p.dom F) {parent : NodeId}
    (hp : p.dom.live parent = true) {D E : Dom} {p1 : PSt} {T : Trees} {l : List NodeId} {F1 : Forest}
    (h : Adds p F parent D p1 T l F1) {rest : PSt → Except ParseErr PSt} (hrest : Good p1.dom F1 parent .nil → Processed p1 F1 parent E (rest p1)) :
    Processed p F parent (D.app E) (do checkFirst p1.dom parent; rest p1) := by
  obtain ⟨c1, c2⟩ := checkFirst_eq h.built h.desc (h.live hp)
  constructor
  · intro hg
    have hg1 : Good p1.dom F1 parent E := (h.good hF hp E).2 hg
    have hg0 : Good p1.dom F1 parent .nil := by
      refine Good.head (E := E) ?_
      exact hg1
    obtain ⟨p2, U, m, G, e, k⟩ := (hrest hg0).1 hg1
    refine ⟨p2, _, _, _, ?_, h.seq hb hp k⟩
    rw [c1 hg0]
    exact e
  · intro hg
    by_cases hg0 : Good p1.dom F1 parent .nil
    · rw [c1 hg0]
      exact (hrest hg0).2 fun h1 => hg ((h.good hF hp E).1 h1)
    · rw [c2 hg0]; rfl

/-- Nothing is added. -/
theorem processed_check {p : PSt} (hb : Built p.dom) {F : Forest} (hF : Describes p.dom F) {parent : NodeId}
    (hp : p.dom.live parent = true) (hg : Good p.dom F parent .nil) {r : Except ParseErr PSt} :
    (do checkFirst p.dom parent; r) = r := by
  rw [(checkFirst_eq hb hF hp).1 hg]; rfl

theorem processNodes_spec (L : Lib) (sheet : List Rule) : ∀ (x : Xml) (pos : XmlPos) (prev : List (Option XmlElem)) (parent : NodeId)
    (p : PSt) (F : Forest), Built p.dom → Describes p.dom F → p.dom.live parent = true → parent ∉ F.kids parent →
    Good p.dom F parent .nil →
    Processed p F parent (domOf L sheet pos prev (p.dom.tagId parent) x) (processNodes L sheet pos prev parent x p)
  | .nil, pos, prev, parent, p, F, hb, hF, hp, hpp, hg => by
    refine ⟨fun _ => ⟨p, _, _, _, rfl, Adds.nil hb hF parent⟩, fun h => absurd hg h⟩
  | .pi rest, pos, prev, parent, p, F, hb, hF, hp, hpp, hg => by
    have ih := processNodes_spec L sheet rest pos (none :: prev) parent p F hb hF hp hpp hg
    simp only [processNodes, domOf]
    rw [processed_check hb hF hp hg]
    exact ih
  | .comment t rest, pos, prev, parent, p, F, hb, hF, hp, hpp, hg => by
    obtain ⟨p1, T, l, F1, e, h⟩ := appendNew_adds hb hF hp hpp (ty := .comment) (.inr rfl) t
    have ht : p1.dom.tagId parent = p.dom.tagId parent := h.grown.tagId hp
    have hs := processed_seq hb hF hp h (rest := fun p => processNodes L sheet pos (none :: prev) parent rest p)
      (E := domOf L sheet pos (none :: prev) (p.dom.tagId parent) rest)
      (fun hg1 => by
        have := processNodes_spec L sheet rest pos (none :: prev) parent p1 F1 h.built h.desc (h.live hp) (h.notSelf hb hp hpp) hg1
        rwa [ht] at this)
    simp only [processNodes, domOf, e, okOrFail, bind, Except.bind]
    exact hs
  | .text t rest, pos, prev, parent, p, F, hb, hF, hp, hpp, hg => by
    obtain ⟨p1, T, l, F1, e, h⟩ := processText_adds hb hF hp hpp t
    have ht : p1.dom.tagId parent = p.dom.tagId parent := h.grown.tagId hp
    have hs := processed_seq hb hF hp h (rest := fun p => processNodes L sheet pos (none :: prev) parent rest p)
      (E := domOf L sheet pos (none :: prev) (p.dom.tagId parent) rest)
      (fun hg1 => by
        have := processNodes_spec L sheet rest pos (none :: prev) parent p1 F1 h.built h.desc (h.live hp) (h.notSelf hb hp hpp) hg1
        rwa [ht] at this)
    simp only [processNodes, domOf, e, okOrFail, bind, Except.bind]
    have : (if isBlank t && !keepsBlank (p.dom.tagId parent) then Dom.nil else .text t .nil).app
        (domOf L sheet pos (none :: prev) (p.dom.tagId parent) rest) =
        if isBlank t && !keepsBlank (p.dom.tagId parent) then domOf L sheet pos (none :: prev) (p.dom.tagId parent) rest
        else .text t (domOf L sheet pos (none :: prev) (p.dom.tagId parent) rest) := by
      split <;> rfl
    rw [← this]
    exact hs
  | .element ns name attrs kids rest, pos, prev, parent, p, F, hb, hF, hp, hpp, hg => by
    have ih := processNodes_spec L sheet rest pos (some ⟨ns, name, attrs⟩ :: prev) parent p F hb hF hp hpp hg
    by_cases hns : ns = some svgNs
    · subst hns
      cases hnm : elementNamed name with
      | none =>
        have hd : domOf L sheet pos prev (p.dom.tagId parent) (.element (some svgNs) name attrs kids rest) =
            domOf L sheet pos (some ⟨some svgNs, name, attrs⟩ :: prev) (p.dom.tagId parent) rest := by
          simp [domOf, svgNs, hnm]
        have he : processNodes L sheet pos prev parent (.element (some svgNs) name attrs kids rest) p =
            processNodes L sheet pos (some ⟨some svgNs, name, attrs⟩ :: prev) parent rest p := by
          simp [processNodes, elementNamed_eq, hnm, okOrFail, bind, Except.bind, pure, Except.pure]
        rw [hd, he]
        exact ih
      | some eid =>
        obtain ⟨pos', hpos⟩ : ∃ q, q = XmlPos.elem pos prev ⟨some svgNs, name, attrs⟩ := ⟨_, rfl⟩
        obtain ⟨u, e1, hbu, gu, hFu, t1, t2, t3, t4, t5, t6⟩ := parseElement_eq L sheet hb pos' eid attrs hF
        obtain ⟨v, F1, e2, hbv, hF1, f, k1, k2, k3⟩ := append_fresh hb hF hp hpp rfl hbu gu hFu
        obtain ⟨n, hn⟩ : ∃ n, n = p.dom.nextId := ⟨_, rfl⟩
        rw [← hn] at e1 gu hFu t1 t2 t3 t4 t5 t6 e2 k1 k2
        obtain ⟨gs, hgs⟩ : ∃ gs, gs = allAssigns L sheet pos' attrs := ⟨_, rfl⟩
        rw [← hgs] at e1 t4
        obtain ⟨ls, hls⟩ : ∃ ls, ls = p.links ++ (refsOf L eid gs).map fun r => (⟨r.attr, r.iri, r.fallback, n⟩ : PLink) := ⟨_, rfl⟩
        rw [← hls] at e1
        have gv : Grown p.dom v [n] := gu.frame f
        have hnv : v.live n = true := (gv.live n).2 (.inr (by simp))
        have hvd : v.data n = u.data n := by rw [f.data]
        have hnr : n ≠ v.rootId := by
          rw [gv.rootId]; rintro rfl
          have := hb.rootLive
          rw [hn, hb.inv.nextId_dead] at this
          simp at this
        have htn : v.tagId n = some eid := by
          simp only [St.tagId, St.tagName, hvd]
          rw [show (u.data n).tagName = .id eid from t2]
        have hk := processNodes_spec L sheet kids pos' [] n ⟨v, ls⟩ F1 hbv hF1 hnv (by rw [k2]; simp) (fun h => absurd h hnr)
        simp only at hk
        rw [htn] at hk
        obtain ⟨p1, T, l, G1, e3, h3⟩ := hk.1 fun h => absurd h hnr
        have hpn : parent ≠ n := by
          rintro rfl
          rw [hn, hb.inv.nextId_dead] at hp
          simp at hp
        have hlv : ∀ j, p.dom.live j = true → v.live j = true := fun j hj => (gv.live j).2 (.inl hj)
        have hln : ∀ j, p.dom.live j = true → j ≠ n := by
          rintro j hj rfl; rw [hn, hb.inv.nextId_dead] at hj; simp at hj
        have hone : Adds p F parent (.element eid (idFrom attrs) (attrsOf L eid gs) (refsOf L eid gs)
            (domOf L sheet pos' [] (some eid) kids) .nil) p1 (.cons n T .nil) [n] G1 := by
          refine ⟨h3.built, h3.desc, ?_, ⟨[], rfl, ?_, rfl⟩, ⟨?_, ?_, ?_, ?_, ?_, h3.is, trivial⟩, ?_, ?_, ?_⟩
          · simpa [Trees.pre] using gv.trans h3.grown
          · rw [h3.kids, k2]; exact h3.of
          · rw [h3.grown.types n hnv, St.nodeType, hvd]; exact t1
          · rw [h3.grown.tags n hnv, St.tagName, hvd]; exact t2
          · rw [h3.grown.ids n hnv, St.idOf, hvd]; exact t3
          · rw [h3.grown.attrs n hnv, St.attributes, hvd]; exact t4
          · rw [h3.grown.texts n hnv, St.text, hvd]; exact t5
          · rw [(h3.frame parent (hlv parent hp)).1 hpn, k1]
          · intro j hj
            obtain ⟨a1, a2, a3⟩ := k3 j hj
            obtain ⟨b1, b2, b3⟩ := h3.frame j (hlv j hj)
            refine ⟨fun hjp => (b1 (hln j hj)).trans (a1 hjp), b2.trans a2, fun hm => ?_⟩
            rw [b3 (by rw [k2]; simp), a3 hm]
          · rw [h3.links]
            simp only [Dom.plinks, hls, List.append_assoc, List.append_nil]
        have ht : p1.dom.tagId parent = p.dom.tagId parent := hone.grown.tagId hp
        have hs := processed_seq hb hF hp hone
          (rest := fun p => processNodes L sheet pos (some ⟨some svgNs, name, attrs⟩ :: prev) parent rest p)
          (E := domOf L sheet pos (some ⟨some svgNs, name, attrs⟩ :: prev) (p.dom.tagId parent) rest)
          (fun hg1 => by
            have := processNodes_spec L sheet rest pos (some ⟨some svgNs, name, attrs⟩ :: prev) parent p1 G1 hone.built hone.desc
              (hone.live hp) (hone.notSelf hb hp hpp) hg1
            rwa [ht] at this)
        have hd : domOf L sheet pos prev (p.dom.tagId parent) (.element (some svgNs) name attrs kids rest) =
            (Dom.element eid (idFrom attrs) (attrsOf L eid gs) (refsOf L eid gs) (domOf L sheet pos' [] (some eid) kids) .nil).app
              (domOf L sheet pos (some ⟨some svgNs, name, attrs⟩ :: prev) (p.dom.tagId parent) rest) := by
          subst hpos hgs
          have : (if some svgNs = some st!"http://www.w3.org/2000/svg" then elementNamed name else none) = some eid := by
            simp [svgNs, hnm]
          simp only [domOf, this, Dom.app]
        have he : processNodes L sheet pos prev parent (.element (some svgNs) name attrs kids rest) p =
            (do checkFirst p1.dom parent; processNodes L sheet pos (some ⟨some svgNs, name, attrs⟩ :: prev) parent rest p1) := by
          rw [hpos] at e1 e3
          simp only [processNodes, elementNamed_eq, hnm, okOrFail, bind, Except.bind, ne_eq, not_true_eq_false, if_false, e1, e2]
          rw [e3]
          simp only
          cases checkFirst p1.dom parent <;> rfl
        rw [hd, he]
        exact hs
    · have hd : domOf L sheet pos prev (p.dom.tagId parent) (.element ns name attrs kids rest) =
          domOf L sheet pos (some ⟨ns, name, attrs⟩ :: prev) (p.dom.tagId parent) rest := by
        have : ¬ ns = some st!"http://www.w3.org/2000/svg" := hns
        simp only [domOf, if_neg this]
      have he : processNodes L sheet pos prev parent (.element ns name attrs kids rest) p =
          processNodes L sheet pos (some ⟨ns, name, attrs⟩ :: prev) parent rest p := by
        simp [processNodes, hns, bind, Except.bind, pure, Except.pure]
      rw [hd, he]
      exact ih

end Svgdom
