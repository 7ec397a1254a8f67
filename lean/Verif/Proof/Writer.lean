import Verif.Props.Names
import Verif.Props.Iter
import Verif.Proof.Tags
import Verif.Spec.Writer
import Mathlib.Data.List.Perm.Basic

/-! The writer in closed form. -/

namespace Svgdom

theorem asStr_elem (e : ElementId) : ∃ x, e.asStr? = .ok x := by
  obtain ⟨x, h, _⟩ := C27_element_roundtrip e
  exact ⟨x, h⟩

theorem asStr_attr (e : AttributeId) : ∃ x, e.asStr? = .ok x := by
  obtain ⟨x, h, _⟩ := C27_attribute_roundtrip e
  exact ⟨x, h⟩

theorem writtenName_ok (a : AttributeId) : ∃ x, St.writtenName a = .ok x := by
  unfold St.writtenName
  split
  · exact ⟨_, rfl⟩
  · split
    · exact ⟨_, rfl⟩
    · exact asStr_attr a

/-! ### Sorting -/

theorem insertByKey_perm (a : AttributeId × Attribute) : ∀ l, (insertByKey a l).Perm (a :: l)
  | [] => .refl _
  | b :: l => by
    unfold insertByKey
    split
    · exact .refl _
    · exact ((insertByKey_perm a l).cons b).trans (.swap a b l)

theorem sortByKey_perm : ∀ l, (sortByKey l).Perm l
  | [] => .refl _
  | a :: l => (insertByKey_perm a _).trans ((sortByKey_perm l).cons a)

theorem insertByKey_sorted (a : AttributeId × Attribute) : ∀ l : List (AttributeId × Attribute),
    l.Pairwise (fun x y => x.1.toNat ≤ y.1.toNat) → (insertByKey a l).Pairwise (fun x y => x.1.toNat ≤ y.1.toNat)
  | [], _ => by simp [insertByKey]
  | b :: l, h => by
    unfold insertByKey
    have hb := List.pairwise_cons.1 h
    split
    · next hle =>
      refine List.pairwise_cons.2 ⟨?_, h⟩
      intro x hx
      rcases List.mem_cons.1 hx with rfl | hx
      · exact hle
      · exact Nat.le_trans hle (hb.1 x hx)
    · next hle =>
      refine List.pairwise_cons.2 ⟨?_, insertByKey_sorted a l hb.2⟩
      intro x hx
      rcases List.mem_cons.1 ((insertByKey_perm a l).mem_iff.1 hx) with rfl | hx
      · exact Nat.le_of_lt (Nat.lt_of_not_le hle)
      · exact hb.1 x hx

theorem sortByKey_sorted : ∀ l, (sortByKey l).Pairwise (fun x y => x.1.toNat ≤ y.1.toNat)
  | [] => .nil
  | a :: l => insertByKey_sorted a _ (sortByKey_sorted l)

/-! ### Attributes -/

theorem attrsSvg_mem {l : List Attribute} {p : AttributeId × Attribute} (h : p ∈ attrsSvg l) : p.2 ∈ l ∧ p.2.name = .id p.1 := by
  unfold attrsSvg at h
  rw [List.mem_filterMap] at h
  obtain ⟨a, ha, e⟩ := h
  split at e
  · next i hi => cases e; exact ⟨ha, hi⟩
  · cases e

theorem writeSvgAttributes_ok {s : St} (W : ValueWriter) {n : NodeId} : ∀ l : List (AttributeId × Attribute),
    (∀ p ∈ l, attrsGet (s.attributes n) p.2.name = some p.2) →
    ∃ es, s.writeSvgAttributes W n l = .ok es ∧ ∀ e ∈ es, e.isAttribute = true := by
  intro l
  induction l with
  | nil => intro _; exact ⟨[], rfl, by simp⟩
  | cons p l ih =>
    intro h
    obtain ⟨es, e, he⟩ := ih (fun q hq => h q (List.mem_cons_of_mem _ hq))
    obtain ⟨x, hx⟩ := writtenName_ok p.1
    have hp := h p (List.mem_cons_self ..)
    obtain ⟨aid, a⟩ := p
    have : ∃ e1, s.writeSvgAttribute W n aid a.name = .ok e1 ∧ ∀ e ∈ e1, e.isAttribute = true := by
      simp only at hp hx
      simp only [St.writeSvgAttribute, hp, hx, bind, Except.bind]
      split
      · split
        · exact ⟨_, rfl, by simp [Ev.isAttribute]⟩
        · exact ⟨_, rfl, by simp⟩
      · exact ⟨_, rfl, by simp [Ev.isAttribute]⟩
    obtain ⟨e1, h1, h2⟩ := this
    refine ⟨e1 ++ es, by simp [St.writeSvgAttributes, h1, e, bind, Except.bind, pure, Except.pure], ?_⟩
    intro x hx
    rcases List.mem_append.1 hx with hx | hx
    · exact h2 x hx
    · exact he x hx

theorem writeNamespaces_ok {s : St} (h : Reachable s) (ha : s.Acyclic) {n : NodeId} (hn : s.live n = true) :
    ∃ es, s.writeNamespaces n = .ok es ∧ ∀ e ∈ es, e.isAttribute = true := by
  obtain ⟨l, hl, _⟩ := C07_descendants h ha hn
  unfold St.writeNamespaces
  split
  · split
    · refine ⟨_, by simp only [hl, bind, Except.bind, pure, Except.pure]; rfl, ?_⟩
      intro e he
      rcases List.mem_cons.1 he with rfl | he
      · rfl
      · split at he
        · rw [List.mem_singleton] at he; subst he; rfl
        · simp at he
    · exact ⟨[], rfl, by simp⟩
  · exact ⟨[], rfl, by simp⟩

theorem writeOther_attr {s : St} (W : ValueWriter) (l : List Attribute) : ∀ e ∈ s.writeOtherAttributes W l, e.isAttribute = true := by
  intro e he
  unfold St.writeOtherAttributes at he
  rw [List.mem_filterMap] at he
  obtain ⟨a, _, e'⟩ := he
  split at e' <;> cases e'
  rfl

theorem writeAttributes_ok {s : St} (h : Reachable s) (ha : s.Acyclic) (W : ValueWriter) {n : NodeId} (hn : s.live n = true) :
    ∃ es, s.writeAttributes W n = .ok es ∧ ∀ e ∈ es, e.isAttribute = true := by
  obtain ⟨ns, e1, h1⟩ := writeNamespaces_ok h ha hn
  obtain ⟨sv, e2, h2⟩ := writeSvgAttributes_ok (s := s) W (n := n) (sortByKey (attrsSvg (s.attributes n))) (by
    intro p hp
    have := attrsSvg_mem ((sortByKey_perm _).mem_iff.1 hp)
    exact attrsGet_mem (h.inv.link.names n hn) this.1)
  refine ⟨_, by simp only [St.writeAttributes, e1, e2, bind, Except.bind, pure, Except.pure]; rfl, ?_⟩
  intro e he
  rcases List.mem_append.1 he with he | he
  · rcases List.mem_append.1 he with he | he
    · rcases List.mem_append.1 he with he | he
      · exact h1 e he
      · split at he
        · rw [List.mem_singleton] at he; subst he; rfl
        · simp at he
    · exact h2 e he
  · exact writeOther_attr W _ e he

theorem attr_toNat_inj {a b : AttributeId} (h : a.toNat = b.toNat) : a = b := by
  have h1 := AttributeId.all_get a
  have h2 := AttributeId.all_get b
  rw [h, h2] at h1
  exact (Option.some.inj h1).symm

theorem svgPairs_eq (l : List Attribute) : svgPairs l = (attrsSvg l).map fun p => (p.1, p.2.value) := by
  unfold svgPairs attrsSvg
  rw [List.map_filterMap]
  refine List.filterMap_congr fun a _ => ?_
  obtain ⟨n, v⟩ := a
  cases n <;> rfl

theorem otherPairs_eq {s : St} (W : ValueWriter) (l : List Attribute) :
    s.writeOtherAttributes W l = (otherPairs l).map fun p => .attributeRaw p.1 (s.writeValue W p.2) := by
  unfold St.writeOtherAttributes otherPairs
  rw [List.map_filterMap]
  refine List.filterMap_congr fun a _ => ?_
  obtain ⟨n, v⟩ := a
  cases n <;> rfl

theorem writtenName_qualified {i : AttributeId} {x : Str} (h : St.writtenName i = .ok x) : i.IsQualified x := by
  unfold St.writtenName at h
  split at h
  · next e => subst e; simpa [AttributeId.IsQualified, eq_comm] using h
  · next e1 =>
    split at h
    · next e => subst e; simpa [AttributeId.IsQualified, eq_comm] using h
    · next e2 =>
      unfold AttributeId.IsQualified
      split
      · exact absurd rfl e1
      · exact absurd rfl e2
      · exact h

theorem writeSvg_events {s : St} (W : ValueWriter) {n : NodeId} {name : AttributeId → Str}
    (hname : ∀ i, St.writtenName i = .ok (name i)) : ∀ l : List (AttributeId × Attribute),
    (∀ p ∈ l, attrsGet (s.attributes n) p.2.name = some p.2) →
    s.writeSvgAttributes W n l = .ok ((l.map fun p => (p.1, p.2.value)).flatMap fun p => s.svgEvents W (name p.1) p) := by
  intro l
  induction l with
  | nil => intro _; rfl
  | cons p l ih =>
    intro h
    have e := ih (fun q hq => h q (List.mem_cons_of_mem _ hq))
    have hp := h p (List.mem_cons_self ..)
    obtain ⟨aid, a⟩ := p
    have : s.writeSvgAttribute W n aid a.name = .ok (s.svgEvents W (name aid) (aid, a.value)) := by
      simp only at hp
      simp only [St.writeSvgAttribute, hp, hname, bind, Except.bind]
      split
      · next hu =>
        subst hu
        cases a.value <;> rfl
      · next hu =>
        unfold St.svgEvents
        split
        · next hh => exact absurd (Prod.mk.inj hh).1 hu
        · next hh => exact absurd (Prod.mk.inj hh).1 hu
        · next hh => cases hh; rfl
    simp [St.writeSvgAttributes, this, e, bind, Except.bind, pure, Except.pure]

theorem svg_ids_nodup {l : List Attribute} (h : NamesNodup l) : ((attrsSvg l).map (·.1)).Nodup := by
  unfold NamesNodup at h
  induction l with
  | nil => exact List.nodup_nil
  | cons a l ih =>
    rw [List.map_cons, List.nodup_cons] at h
    have ih := ih h.2
    obtain ⟨n, v⟩ := a
    cases n with
    | name x => exact ih
    | id i =>
      show (i :: (attrsSvg l).map (·.1)).Nodup
      rw [List.nodup_cons]
      refine ⟨?_, ih⟩
      intro hi
      obtain ⟨p, hp, e⟩ := List.mem_map.1 hi
      have := attrsSvg_mem hp
      refine h.1 (List.mem_map.2 ⟨p.2, this.1, ?_⟩)
      rw [this.2, e]

theorem sorted_strict {l : List Attribute} (h : NamesNodup l) :
    ((sortByKey (attrsSvg l)).map fun p => (p.1, p.2.value)).Pairwise fun x y => x.1.toNat < y.1.toNat := by
  rw [List.pairwise_map]
  have h1 := sortByKey_sorted (attrsSvg l)
  have h2 : ((sortByKey (attrsSvg l)).map (·.1)).Nodup := ((sortByKey_perm _).map _).nodup_iff.2 (svg_ids_nodup h)
  rw [List.Nodup, List.pairwise_map] at h2
  refine (h1.and h2).imp ?_
  intro a b hab
  exact Nat.lt_of_le_of_ne hab.1 fun e => hab.2 (attr_toNat_inj e)

/-! ### The tree -/

theorem writeEdges_append (s : St) (W : ValueWriter) : ∀ (l m : List Edge) {a b : List Ev}, s.writeEdges W l = .ok a →
    s.writeEdges W m = .ok b → s.writeEdges W (l ++ m) = .ok (a ++ b)
  | [], m, a, b, h1, h2 => by simp [St.writeEdges] at h1; subst h1; exact h2
  | .start n :: l, m, a, b, h1, h2 => by
    simp only [St.writeEdges, bind_ok] at h1
    obtain ⟨e, he, r, hr, h1⟩ := h1
    simp only [pure, Except.pure, Except.ok.injEq] at h1
    subst h1
    have := writeEdges_append s W l m hr h2
    simp [St.writeEdges, he, this, bind, Except.bind, pure, Except.pure]
  | .stop n :: l, m, a, b, h1, h2 => by
    simp only [St.writeEdges, bind_ok] at h1
    obtain ⟨r, hr, h1⟩ := h1
    simp only [pure, Except.pure, Except.ok.injEq] at h1
    subst h1
    have := writeEdges_append s W l m hr h2
    simp [St.writeEdges, this, bind, Except.bind, pure, Except.pure]

theorem filter_attrs {l : List Ev} (h : ∀ e ∈ l, e.isAttribute = true) : l.filter Ev.isContent = l := by
  rw [List.filter_eq_self]
  intro e he
  have := h e he
  cases e <;> simp_all [Ev.isAttribute, Ev.isContent]

theorem writeEnd_content (s : St) (n : NodeId) :
    (s.writeEnd n).filter Ev.isContent = if s.isElement n then [.endElement] else [] := by
  unfold St.writeEnd
  rw [List.filter_append]
  have : (if s.hasTagName n (.id .Text) then [Ev.preserve false] else []).filter Ev.isContent = [] := by split <;> rfl
  rw [this, List.append_nil]
  split <;> rfl

/-- The events of the start of a node, without whitespace switches. -/
def startEvents (s : St) (name : NodeId → Str) (attrs : NodeId → List Ev) (i : NodeId) : List Ev :=
  match s.nodeType i with
  | .element => .startElement (name i) :: attrs i
  | .comment => [.comment (s.text i)]
  | .text => [.text (s.text i)]
  | .root => []

theorem writeStart_content {s : St} {W : ValueWriter} {name : NodeId → Str} {attrs : NodeId → List Ev} {i : NodeId}
    (hn : s.IsName i (name i)) (h2 : s.writeAttributes W i = .ok (attrs i)) (h3 : ∀ e ∈ attrs i, e.isAttribute = true) :
    ∃ st, s.writeStart W i = .ok st ∧ st.filter Ev.isContent = startEvents s name attrs i := by
  unfold St.writeStart startEvents
  cases ht : s.nodeType i with
  | root => exact ⟨[], rfl, rfl⟩
  | comment => exact ⟨_, rfl, rfl⟩
  | text => exact ⟨_, rfl, rfl⟩
  | element =>
    refine ⟨.startElement (name i) :: attrs i ++ if s.hasTagName i (.id .Text) then [.preserve true] else [], ?_, ?_⟩
    · unfold St.IsName at hn
      cases hq : s.tagName i with
      | id e => rw [hq] at hn; simp only at hn; simp only [hn, h2, bind, Except.bind, pure, Except.pure]
      | name y => rw [hq] at hn; simp only at hn; subst hn; simp only [h2, bind, Except.bind, pure, Except.pure]
    · have : (if s.hasTagName i (.id .Text) then [Ev.preserve true] else []).filter Ev.isContent = [] := by split <;> rfl
      rw [List.filter_append, this, List.append_nil, List.filter_cons_of_pos (by rfl), filter_attrs h3]

theorem markup_cons (s : St) (name : NodeId → Str) (attrs : NodeId → List Ev) (i : NodeId) (K R : Trees) :
    (Trees.cons i K R).markup s name attrs = startEvents s name attrs i ++ K.markup s name attrs ++
      (if s.isElement i then [.endElement] else []) ++ R.markup s name attrs := by
  unfold startEvents St.isElement
  cases ht : s.nodeType i <;> simp [Trees.markup, ht]

theorem writeEdges_markup {s : St} {W : ValueWriter} {name : NodeId → Str} {attrs : NodeId → List Ev} : ∀ T : Trees,
    (∀ i ∈ T.pre, s.IsName i (name i)) → (∀ i ∈ T.pre, s.writeAttributes W i = .ok (attrs i)) →
    (∀ i ∈ T.pre, ∀ e ∈ attrs i, e.isAttribute = true) →
    ∃ es, s.writeEdges W T.edges = .ok es ∧ es.filter Ev.isContent = T.markup s name attrs
  | .nil, _, _, _ => ⟨[], rfl, rfl⟩
  | .cons i K R, h1, h2, h3 => by
    obtain ⟨a, ea, fa⟩ := writeEdges_markup K (fun j hj => h1 j (by simp [Trees.pre, hj])) (fun j hj => h2 j (by simp [Trees.pre, hj]))
      (fun j hj => h3 j (by simp [Trees.pre, hj]))
    obtain ⟨b, eb, fb⟩ := writeEdges_markup R (fun j hj => h1 j (by simp [Trees.pre, hj])) (fun j hj => h2 j (by simp [Trees.pre, hj]))
      (fun j hj => h3 j (by simp [Trees.pre, hj]))
    have hi : i ∈ (Trees.cons i K R).pre := by simp [Trees.pre]
    have eab : s.writeEdges W (K.edges ++ .stop i :: R.edges) = .ok (a ++ (s.writeEnd i ++ b)) := by
      refine writeEdges_append s W _ _ ea ?_
      simp [St.writeEdges, eb, bind, Except.bind, pure, Except.pure]
    obtain ⟨st, es, fs⟩ := writeStart_content (h1 i hi) (h2 i hi) (h3 i hi)
    refine ⟨st ++ (a ++ (s.writeEnd i ++ b)), by simp [Trees.edges, St.writeEdges, es, eab, bind, Except.bind, pure, Except.pure], ?_⟩
    simp only [List.filter_append, fs, fa, fb, writeEnd_content, markup_cons, List.append_assoc]

theorem markup_balanced {s : St} {name : NodeId → Str} {attrs : NodeId → List Ev} : ∀ T : Trees,
    (∀ i ∈ T.pre, ∀ e ∈ attrs i, e.isAttribute = true) → Balanced (T.markup s name attrs)
  | .nil, _ => .nil
  | .cons i K R, h => by
    have hK := markup_balanced (s := s) (name := name) K (fun j hj => h j (by simp [Trees.pre, hj]))
    have hR := markup_balanced (s := s) (name := name) R (fun j hj => h j (by simp [Trees.pre, hj]))
    have hA : ∀ l : List Ev, (∀ e ∈ l, e.isAttribute = true) → Balanced l := by
      intro l
      induction l with
      | nil => intro _; exact .nil
      | cons e l ih =>
        intro hl
        refine .append (l := [e]) (.one e ?_ ?_) (ih fun x hx => hl x (by simp [hx]))
        · intro n hn; have := hl e (by simp); subst hn; simp [Ev.isAttribute] at this
        · intro hn; have := hl e (by simp); subst hn; simp [Ev.isAttribute] at this
    unfold Trees.markup
    split
    · have := Balanced.append (.element (name i) (.append (hA _ (h i (by simp [Trees.pre]))) hK)) hR
      simpa using this
    · exact .append (.append (l := [_]) (.one _ (by simp) (by simp)) hK) hR
    · exact .append (.append (l := [_]) (.one _ (by simp) (by simp)) hK) hR
    · exact .append hK hR

/-! ### Escaping -/

theorem hexVal_digit {d : Nat} (h : d < 16) : hexVal (hexDigit d) = some d ∧ hexDigit d ≠ ';' := by
  have : ∀ d : Fin 16, hexVal (hexDigit d) = some d.1 ∧ hexDigit d ≠ ';' := by decide +kernel
  exact this ⟨d, h⟩

theorem readHex_aux (rest : Str) : ∀ (k n a : Nat) (acc : Str), n < 16 ^ (k + 1) →
    ∃ m, readHex a (hexAux k n acc ++ rest) = readHex (a * 16 ^ m + n) (acc ++ rest)
  | 0, n, a, acc, h => by
    have hn : n < 16 := by simpa using h
    obtain ⟨h1, h2⟩ := hexVal_digit hn
    refine ⟨1, ?_⟩
    rw [hexAux, Nat.mod_eq_of_lt hn]
    simp only [List.cons_append, readHex, h2, if_false, h1, Nat.pow_one]
  | k + 1, n, a, acc, h => by
    unfold hexAux
    split
    · next hn =>
      obtain ⟨h1, h2⟩ := hexVal_digit hn
      refine ⟨1, ?_⟩
      simp only [List.cons_append, readHex, h2, if_false, h1, Nat.pow_one]
    · obtain ⟨m, e⟩ := readHex_aux rest k (n / 16) a (hexDigit (n % 16) :: acc)
        (by rw [Nat.div_lt_iff_lt_mul (by omega)]; rw [Nat.pow_succ] at h; exact h)
      obtain ⟨h1, h2⟩ := hexVal_digit (Nat.mod_lt n (by omega : 16 > 0))
      refine ⟨m + 1, ?_⟩
      rw [e]
      simp only [List.cons_append, readHex, h2, if_false, h1]
      congr 1
      have := Nat.div_add_mod n 16
      rw [Nat.pow_succ, ← Nat.mul_assoc]
      generalize a * 16 ^ m = z
      omega

theorem readHex_hexStr {n : Nat} (h : n < 16 ^ 8) (rest : Str) : readHex 0 (hexStr n ++ ';' :: rest) = some (n, rest) := by
  obtain ⟨m, e⟩ := readHex_aux (';' :: rest) 7 n 0 [] h
  rw [hexStr, e]
  simp [readHex]

theorem char_lt (c : Char) : c.toNat < 16 ^ 8 := by
  have := c.val.toNat_lt
  simp only [Char.toNat]
  omega

theorem decode_escape : ∀ (t : Str) (k : Nat), t.length ≤ k →
    decodeRefs k (t.flatMap fun c => st!"&#x" ++ hexStr c.toNat ++ [';']) = some t
  | [], k, _ => by cases k <;> rfl
  | c :: t, 0, h => by simp at h
  | c :: t, k + 1, h => by
    have e : (c :: t).flatMap (fun c => st!"&#x" ++ hexStr c.toNat ++ [';']) =
        '&' :: '#' :: 'x' :: (hexStr c.toNat ++ ';' :: t.flatMap fun c => st!"&#x" ++ hexStr c.toNat ++ [';']) := by
      simp [List.flatMap_cons]
    rw [e, decodeRefs, readHex_hexStr (char_lt c)]
    simp only [decode_escape t k (by simpa using h), Option.map_some]
    simp

end Svgdom
