import Verif.Proof.Display
import Verif.Props.Writer
import Verif.Props.Tables
import Verif.Props.Read

/-!
# C66: `Display` and `Debug` of nodes
-/

set_option autoImplicit false

namespace Svgdom

theorem displayAName_ok (i : AttributeId) : ∃ x, displayAName (.id i) = .ok x ∧ i.IsQualified x ∧ '=' ∉ x := by
  have h1 := AttributeId.forall_of_all (p := fun i => match displayAName (.id i) with
    | .ok x => !x.contains '='
    | .error _ => false) (by decide +kernel) i
  split at h1
  · next x hx =>
    refine ⟨x, hx, ?_, by simpa using h1⟩
    unfold displayAName at hx
    unfold AttributeId.IsQualified
    simp only at hx
    split at hx
    · next hh => subst hh; simpa using hx.symm
    · split at hx
      · next hh => subst hh; simpa using hx.symm
      · next a b => split
                    · exact absurd rfl a
                    · exact absurd rfl b
                    · exact hx
  · cases h1

theorem displayTagName_ok (s : St) (n : NodeId) : ∃ x, displayTagName (s.tagName n) = .ok x ∧ s.IsName n x ∧
    ((∀ y, s.tagName n = .name y → ' ' ∉ y ∧ '>' ∉ y ∧ ';' ∉ y ∧ ')' ∉ y) → ' ' ∉ x ∧ '>' ∉ x ∧ ';' ∉ x ∧ ')' ∉ x) := by
  unfold St.IsName
  cases ht : s.tagName n with
  | id e =>
    have h1 := ElementId.forall_of_all (p := fun e => match e.asStr? with
      | .ok x => !x.contains ' ' && !x.contains '>' && !x.contains ';' && !x.contains ')'
      | .error _ => false) (by decide +kernel) e
    split at h1
    · next x hx =>
      refine ⟨x, hx, hx, fun _ => ?_⟩
      simpa [and_assoc] using h1
    · cases h1
  | name y => exact ⟨y, rfl, rfl, fun h => h y rfl⟩

theorem elementContent_eq (s : St) (W : ValueWriter) (n : NodeId) {name : AttributeId → Str}
    (hname : ∀ i, displayAName (.id i) = .ok (name i)) (b : Bool) : s.elementContent W n true b =
      .ok (pairsText (s.shownPairs W name n) ++
        if b && !(s.linkedNodes n).isEmpty then st!"; linked-nodes:" ++ idsText ((s.linkedNodes n).map s.idOf) else []) := by
  obtain ⟨t, e1, e2⟩ := displayAttributes_eq s W hname (s.attributes n)
  have e3 : pairsText (s.shownPairs W name n) = (if (s.idOf n).isEmpty then [] else st!" id='" ++ s.idOf n ++ ['\'']) ++
      (if s.attributes n = [] then [] else ' ' :: t) := by
    rw [e2]
    unfold St.shownPairs
    by_cases h : s.idOf n = [] <;> simp [h, pairsText]
  have e4 : (s.linkedNodes n).flatMap (fun m => st!" '" ++ s.idOf m ++ ['\'']) = idsText ((s.linkedNodes n).map s.idOf) := by
    simp [idsText, List.flatMap_map]
  unfold St.elementContent
  rw [e3, e1]
  by_cases h : s.attributes n = []
  · simp only [h, List.isEmpty_nil, if_true, e4, bind, Except.bind, pure, Except.pure, List.append_nil]
  · have h' : (s.attributes n).isEmpty = false := by simp [h]
    simp only [h, h', if_true, if_false, Bool.false_eq_true, e4, bind, Except.bind, pure, Except.pure, List.singleton_append]

/-- C66: printing a node never panics. -/
theorem C66_returns (s : St) (W : ValueWriter) (n : NodeId) :
    (∃ t, s.displayNode W n = .ok t) ∧ ∃ t, s.debugNode W n = .ok t := by
  choose name hname using displayAName_ok
  obtain ⟨x, hx, _⟩ := displayTagName_ok s n
  unfold St.displayNode St.debugNode
  simp only [hx, elementContent_eq s W n (fun i => (hname i).1), bind, Except.bind, pure, Except.pure]
  cases s.nodeType n <;> exact ⟨⟨_, rfl⟩, ⟨_, rfl⟩⟩

/-- C66: printing a list of attributes never panics, and the debug text is the other text between `Attributes(` and `)`. -/
theorem C66_attributes (s : St) (W : ValueWriter) (l : List Attribute) :
    ∃ t u, s.displayAttributes W l = .ok t ∧ s.debugAttributes W l = .ok u ∧ stripPre st!"Attributes(" u = some (t ++ [')']) := by
  choose name hname using displayAName_ok
  obtain ⟨t, e, _⟩ := displayAttributes_eq s W (fun i => (hname i).1) l
  refine ⟨t, st!"Attributes(" ++ t ++ [')'], e, ?_, by rw [List.append_assoc, stripPre_append]⟩
  simp only [St.debugAttributes, e, bind, Except.bind, pure, Except.pure]

/-- C66, the other nodes: a comment is shown as a comment that a reader gets back exactly if its text has no `-->` in it; a text is
shown as it is, with its name in the debug text; the root shows nothing. -/
theorem C66_other_partial (s : St) (W : ValueWriter) (n : NodeId) :
    (s.nodeType n = .comment → ∃ t u, s.displayNode W n = .ok t ∧ s.debugNode W n = .ok u ∧
      (readComment t = some (s.text n) ↔ ¬ st!"-->" <:+: s.text n) ∧
      stripPre st!"Comment(" u = some (s.text n ++ [')'])) ∧
    (s.nodeType n = .text → ∃ u, s.displayNode W n = .ok (s.text n) ∧ s.debugNode W n = .ok u ∧
      stripPre st!"Text(" u = some (s.text n ++ [')'])) ∧
    (s.nodeType n = .root → s.displayNode W n = .ok [] ∧ s.debugNode W n = .ok st!"Root()") := by
  unfold St.displayNode St.debugNode
  refine ⟨fun h => ?_, fun h => ?_, fun h => ?_⟩ <;> simp only [h]
  · refine ⟨_, _, rfl, rfl, ?_, ?_⟩
    · rw [readComment, List.append_assoc, stripPre_append]
      exact (untilArrow_append (s.text n)).1
    · rw [List.append_assoc, stripPre_append]
  · exact ⟨_, trivial, rfl, by rw [List.append_assoc, stripPre_append]⟩
  · exact ⟨trivial, trivial⟩

/-- A comment that reads back, and one that does not. -/
example : ∃ s, Reachable s ∧ s.nodeType 1 = .comment ∧ s.nodeType 2 = .comment ∧ s.nodeType 3 = .text ∧ s.nodeType 0 = .root ∧
    ¬ st!"-->" <:+: s.text 1 ∧ st!"-->" <:+: s.text 2 := by
  obtain ⟨s, h, e⟩ := exists_of_holds (ops := [.createNode .comment st!"a--", .createNode .comment st!"a-->b", .createNode .text ['t']])
    (p := fun s => decide (s.nodeType 1 = .comment ∧ s.nodeType 2 = .comment ∧ s.nodeType 3 = .text ∧ s.nodeType 0 = .root ∧
      s.text 1 = st!"a--" ∧ s.text 2 = st!"a-->b")) (by decide +kernel)
  simp only [decide_eq_true_eq] at e
  obtain ⟨h1, h2, h3, h4, h5, h6⟩ := e
  exact ⟨s, h, h1, h2, h3, h4, by rw [h5]; decide, by rw [h6]; decide⟩

/-- C66: the text of an element is its start tag: a reader finds the tag name, the id and all attributes with their values, in
order. Not always (`C66_refuted`): nothing is escaped. -/
theorem C66_tag_partial {s : St} {W : ValueWriter} {n : NodeId} (he : s.nodeType n = .element) (hp : s.NoPunctuation W n) :
    ∃ t x name, s.displayNode W n = .ok t ∧ readTag t = some (x, s.shownPairs W name n) ∧ s.IsName n x ∧
      ∀ i : AttributeId, i.IsQualified (name i) := by
  choose name hname using displayAName_ok
  obtain ⟨x, hx, hxn, hxp⟩ := displayTagName_ok s n
  obtain ⟨p1, p2, p3, p4⟩ := hxp hp.tag
  refine ⟨?_, x, name, ?_, ?_, hxn, fun i => (hname i).2.1⟩
  rotate_left
  · simp only [St.displayNode, he, hx, elementContent_eq s W n (fun i => (hname i).1), bind, Except.bind, pure, Except.pure]
    rfl
  simp only [Bool.false_and, Bool.false_eq_true, if_false, List.append_nil]
  have hps : ∀ p ∈ s.shownPairs W name n, '=' ∉ p.1 ∧ '\'' ∉ p.2 := by
    intro p h
    unfold St.shownPairs at h
    rcases List.mem_append.1 h with h | h
    · split at h
      · cases h
      · obtain rfl := List.mem_singleton.1 h
        exact ⟨by simp, hp.id⟩
    · obtain ⟨a, ha, rfl⟩ := List.mem_map.1 h
      refine ⟨?_, hp.values a ha⟩
      cases hn : a.name with
      | id i => exact (hname i).2.2
      | name y => exact hp.names a ha y hn
  have h1 : upTo [' ', '>'] (x ++ (pairsText (s.shownPairs W name n) ++ ['>'])) = (x, pairsText (s.shownPairs W name n) ++ ['>']) := by
    have hd : ∀ d ∈ x, d ∉ [' ', '>'] := by
      intro d hd h
      simp only [List.mem_cons, List.not_mem_nil, or_false] at h
      rcases h with rfl | rfl
      · exact p1 hd
      · exact p2 hd
    cases hps : s.shownPairs W name n with
    | nil => exact upTo_append (by simp) _ hd
    | cons p ps =>
      have : pairsText (p :: ps) ++ ['>'] = ' ' :: ((p.1 ++ st!"='" ++ p.2 ++ ['\'']) ++ pairsText ps ++ ['>']) := by simp [pairsText]
      rw [this]
      exact upTo_append (by simp) _ hd
  have h2 := readPairs_append (rest := ['>']) (by intro t h; cases h) (k := (pairsText (s.shownPairs W name n) ++ ['>']).length)
    (by have := pairsText_length (s.shownPairs W name n); rw [List.length_append]; omega) hps
  simp only [readTag, List.cons_append, List.append_assoc, h1, h2]

/-- C66: the debug text shows the same, and the ids of the nodes that link to the element, in order. -/
theorem C66_debug_partial {s : St} {W : ValueWriter} {n : NodeId} (he : s.nodeType n = .element) (hp : s.NoPunctuation W n) :
    ∃ t x name, s.debugNode W n = .ok t ∧ readDebug t = some (x, s.shownPairs W name n, (s.linkedNodes n).map s.idOf) ∧
      s.IsName n x ∧ ∀ i : AttributeId, i.IsQualified (name i) := by
  choose name hname using displayAName_ok
  obtain ⟨x, hx, hxn, hxp⟩ := displayTagName_ok s n
  obtain ⟨p1, p2, p3, p4⟩ := hxp hp.tag
  refine ⟨?_, x, name, ?_, ?_, hxn, fun i => (hname i).2.1⟩
  rotate_left
  · simp only [St.debugNode, he, hx, elementContent_eq s W n (fun i => (hname i).1), bind, Except.bind, pure, Except.pure]
    rfl
  have hps : ∀ p ∈ s.shownPairs W name n, '=' ∉ p.1 ∧ '\'' ∉ p.2 := by
    intro p h
    unfold St.shownPairs at h
    rcases List.mem_append.1 h with h | h
    · split at h
      · cases h
      · obtain rfl := List.mem_singleton.1 h
        exact ⟨by simp, hp.id⟩
    · obtain ⟨a, ha, rfl⟩ := List.mem_map.1 h
      refine ⟨?_, hp.values a ha⟩
      cases hn : a.name with
      | id i => exact (hname i).2.2
      | name y => exact hp.names a ha y hn
  have hd : ∀ d ∈ x, d ∉ [' ', ';', ')'] := by
    intro d hd h
    simp only [List.mem_cons, List.not_mem_nil, or_false] at h
    rcases h with rfl | rfl | rfl
    · exact p1 hd
    · exact p3 hd
    · exact p4 hd
  have h1 : ∀ c t, (c = ';' ∨ c = ')') → upTo [' ', ';', ')'] (x ++ (pairsText (s.shownPairs W name n) ++ c :: t)) =
      (x, pairsText (s.shownPairs W name n) ++ c :: t) := by
    intro c t hc
    cases hps : s.shownPairs W name n with
    | nil => exact upTo_append (by rcases hc with rfl | rfl <;> simp) _ hd
    | cons p ps =>
      have : pairsText (p :: ps) ++ c :: t = ' ' :: ((p.1 ++ st!"='" ++ p.2 ++ ['\'']) ++ pairsText ps ++ c :: t) := by simp [pairsText]
      rw [this]
      exact upTo_append (by simp) _ hd
  have h2 : ∀ c t, (c = ';' ∨ c = ')') → readPairs (pairsText (s.shownPairs W name n) ++ c :: t).length
      (pairsText (s.shownPairs W name n) ++ c :: t) = some (s.shownPairs W name n, c :: t) := by
    intro c t hc
    refine readPairs_append (by rintro t' h; injection h with h _; subst h; rcases hc with h | h <;> cases h)
      (by have := pairsText_length (s.shownPairs W name n); rw [List.length_append]; omega) hps
  by_cases hl : s.linkedNodes n = []
  · simp only [hl, List.isEmpty_nil, Bool.not_true, Bool.and_false, Bool.false_eq_true, if_false, List.append_nil, List.append_assoc,
      readDebug, stripPre_append, h1 ')' [] (.inr rfl), h2 ')' [] (.inr rfl), if_true, List.map_nil]
  · have e : (true && !(s.linkedNodes n).isEmpty) = true := by simp [hl]
    have h3 := readIds_append (rest := [')']) (by intro t h; cases h) (l := (s.linkedNodes n).map s.idOf)
      (k := (idsText ((s.linkedNodes n).map s.idOf) ++ [')']).length)
      (by have := idsText_length ((s.linkedNodes n).map s.idOf); rw [List.length_append]; omega)
      (by intro y hy; obtain ⟨m, hm, rfl⟩ := List.mem_map.1 hy; exact hp.linked m hm)
    have e2 : st!"; linked-nodes:" ++ idsText ((s.linkedNodes n).map s.idOf) ++ [')'] =
      ';' :: (st!" linked-nodes:" ++ idsText ((s.linkedNodes n).map s.idOf) ++ [')']) := rfl
    simp only [e, if_true, List.append_assoc, readDebug, stripPre_append]
    simp only [List.append_assoc] at e2
    rw [e2, h1 ';' _ (.inl rfl)]
    simp only [h2 ';' _ (.inl rfl)]
    rw [← e2, if_neg (by simp), stripPre_append]
    simp only [h3]

theorem pairs_perm (f : Attribute → Str × Str) : ∀ l : List Attribute,
    ((svgPairs l).map (fun p => f ⟨.id p.1, p.2⟩) ++ (otherPairs l).map fun p => f ⟨.name p.1, p.2⟩).Perm (l.map f)
  | [] => .refl _
  | ⟨.id i, v⟩ :: l => by
    have := pairs_perm f l
    simp only [svgPairs, otherPairs, List.filterMap_cons, List.map_cons, List.cons_append] at this ⊢
    exact this.cons _
  | ⟨.name x, v⟩ :: l => by
    have := pairs_perm f l
    simp only [svgPairs, otherPairs, List.filterMap_cons, List.map_cons] at this ⊢
    exact List.perm_middle.trans (this.cons _)

/-- The name and the value of a written attribute. -/
def Ev.pair? : Ev → Option (Str × Str)
  | .attribute x v => some (x, v)
  | .attributeRaw x v => some (x, v)
  | _ => none

/-- C66: the start tag shown is the start tag written: after the namespace declarations, `to_string` writes exactly the names and
values shown by `Display`, in another order. A `unicode` attribute is written with references instead. -/
theorem C66_writer_partial {s : St} (h : Reachable s) (ha : s.Acyclic) {W : ValueWriter} {n : NodeId} (hn : s.live n = true)
    (he : s.nodeType n = .element) (hp : s.NoPunctuation W n) (hu : s.hasAttribute n (.id .Unicode) = false) :
    ∃ t x ps ns evs, s.displayNode W n = .ok t ∧ readTag t = some (x, ps) ∧ s.writeAttributes W n = .ok (ns ++ evs) ∧
      NamespaceDecls s n ns ∧ (evs.filterMap Ev.pair?).Perm ps ∧ ∀ e ∈ evs, e.pair?.isSome := by
  obtain ⟨t, x, name, e1, e2, _, hq⟩ := C66_tag_partial he hp
  obtain ⟨ns, L, name', e3, hns, _, hL, _, hq'⟩ := C46_attributes h ha W hn
  have hnn : name' = name := by
    funext i
    have h1 := hq i; have h2 := hq' i
    unfold AttributeId.IsQualified at h1 h2
    by_cases c1 : i = .Href
    · subst c1; exact h2.trans h1.symm
    · by_cases c2 : i = .Space
      · subst c2; exact h2.trans h1.symm
      · split at h1
        · exact absurd rfl c1
        · exact absurd rfl c2
        · split at h2
          · exact absurd rfl c1
          · exact absurd rfl c2
          · exact Except.ok.inj (h2.symm.trans h1)
  subst hnn
  have hU : ∀ p ∈ L, p.1 ≠ .Unicode := by
    intro p hpL hpu
    have := hL.mem_iff.1 hpL
    unfold svgPairs at this
    obtain ⟨a, haa, e⟩ := List.mem_filterMap.1 this
    have : s.hasAttribute n (.id .Unicode) = true := by
      unfold St.hasAttribute attrsContains
      rw [List.any_eq_true]
      refine ⟨a, haa, ?_⟩
      rcases a with ⟨_ | _, v⟩
      · simp only [Option.some.injEq] at e
        subst e
        simp only at hpu
        simp [hpu]
      · cases e
    rw [hu] at this; cases this
  have hf : (L.flatMap fun p => s.svgEvents W (name' p.1) p) = L.map fun p => Ev.attributeRaw (name' p.1) (s.writeValue W p.2) := by
    rw [List.flatMap_def]
    have : L.map (fun p => s.svgEvents W (name' p.1) p) = L.map fun p => [Ev.attributeRaw (name' p.1) (s.writeValue W p.2)] := by
      refine List.map_congr_left fun p hpL => ?_
      have := hU p hpL
      rcases p with ⟨i, v⟩
      cases i <;> first | rfl | exact absurd rfl this
    rw [this, ← List.flatMap_def]
    clear * -
    induction L with
    | nil => rfl
    | cons a l ih => simp only [List.flatMap_cons, List.map_cons, List.singleton_append, ih]
  refine ⟨t, x, _, ns, _, e1, e2, by rw [e3, List.append_assoc, List.append_assoc], hns, ?_, ?_⟩
  · rw [hf, List.filterMap_append, List.filterMap_append, List.filterMap_map, List.filterMap_map]
    have a1 : (L.filterMap (Ev.pair? ∘ fun p => Ev.attributeRaw (name' p.1) (s.writeValue W p.2))) =
        L.map fun p => (name' p.1, s.writeValue W p.2) := by
      rw [← List.filterMap_eq_map]; rfl
    have a2 : ((otherPairs (s.attributes n)).filterMap (Ev.pair? ∘ fun p => Ev.attributeRaw p.1 (s.writeValue W p.2))) =
        (otherPairs (s.attributes n)).map fun p => (p.1, s.writeValue W p.2) := by
      rw [← List.filterMap_eq_map]; rfl
    have a3 : (if s.idOf n = [] then [] else [Ev.attribute st!"id" (s.idOf n)]).filterMap Ev.pair? =
        if s.idOf n = [] then [] else [(st!"id", s.idOf n)] := by split <;> rfl
    rw [a1, a2, a3]
    unfold St.shownPairs
    refine List.Perm.append_left _ ?_
    refine (List.Perm.append_right _ (hL.map _)).trans ?_
    exact pairs_perm (fun a => (AName.shown name' a.name, s.writeValue W a.value)) (s.attributes n)
  · intro e hee
    rw [hf] at hee
    rcases List.mem_append.1 hee with hee | hee
    · split at hee
      · cases hee
      · rw [List.mem_singleton.1 hee]; rfl
    · rcases List.mem_append.1 hee with hee | hee
      · obtain ⟨p, _, rfl⟩ := List.mem_map.1 hee; rfl
      · obtain ⟨p, _, rfl⟩ := List.mem_map.1 hee; rfl

/-- Decides `NoPunctuation`. -/
def noPunctuationB (s : St) (W : ValueWriter) (n : NodeId) : Bool :=
  (match s.tagName n with
    | .id _ => true
    | .name x => !x.contains ' ' && !x.contains '>' && !x.contains ';' && !x.contains ')') &&
  (s.attributes n).all (fun a => !(s.writeValue W a.value).contains '\'' && match a.name with
    | .id _ => true
    | .name x => !x.contains '=') &&
  !(s.idOf n).contains '\'' && (s.linkedNodes n).all fun m => !(s.idOf m).contains '\''

theorem noPunctuation_of {s : St} {W : ValueWriter} {n : NodeId} (h : noPunctuationB s W n = true) : s.NoPunctuation W n := by
  simp only [noPunctuationB, Bool.and_eq_true, List.all_eq_true] at h
  obtain ⟨⟨⟨h1, h2⟩, h3⟩, h4⟩ := h
  refine ⟨?_, ?_, ?_, by simpa using h3, fun m hm => by simpa using h4 m hm⟩
  · intro x hx
    rw [hx] at h1
    simpa [and_assoc] using h1
  · intro a ha x hx
    have := (h2 a ha).2
    rw [hx] at this
    simpa using this
  · intro a ha
    simpa using (h2 a ha).1

/-- Non-vacuity: an element with a value, references and a further attribute, linked to by another one. -/
example : ∃ s, Reachable s ∧ s.Acyclic ∧ s.live 5 = true ∧ s.nodeType 5 = .element ∧ s.NoPunctuation sampleWriter 5 ∧
    s.hasAttribute 5 (.id .Unicode) = false ∧ (s.attributes 5).length = 4 ∧ s.NoPunctuation sampleWriter 6 ∧
    s.linkedNodes 6 = [5, 5] ∧ s.displayNode sampleWriter 5 = .ok st!"<use id='b' x='5' xlink:href='#a' fill='url(#a)' k='v'>" ∧
    s.debugNode sampleWriter 6 = .ok st!"Element(rect id='a' unicode='\"' opacity='0.5'; linked-nodes: 'b' 'b')" := by
  obtain ⟨s, h, e⟩ := exists_of_holds (ops := readHistory ++ [.setId 5 ['b'], .setAttribute 5 ⟨.name ['k'], .string ['v']⟩]) (p := fun s =>
    (decide (s.nextId = 7) && s.acyclicB 7) && s.live 5 && decide (s.nodeType 5 = .element) && noPunctuationB s sampleWriter 5 &&
    decide (s.hasAttribute 5 (.id .Unicode) = false) && decide ((s.attributes 5).length = 4) && noPunctuationB s sampleWriter 6 &&
    decide (s.linkedNodes 6 = [5, 5]) &&
    decide (s.displayNode sampleWriter 5 = .ok st!"<use id='b' x='5' xlink:href='#a' fill='url(#a)' k='v'>") &&
    decide (s.debugNode sampleWriter 6 = .ok st!"Element(rect id='a' unicode='\"' opacity='0.5'; linked-nodes: 'b' 'b')"))
    (by decide +kernel)
  simp only [Bool.and_eq_true, decide_eq_true_eq] at e
  obtain ⟨⟨⟨⟨⟨⟨⟨⟨⟨⟨e1, e2⟩, e3⟩, e4⟩, e5⟩, e6⟩, e7⟩, e8⟩, e9⟩, e10⟩, e11⟩ := e
  have hlt : ∀ i, s.live i = true → i < 7 := fun i hi => by rw [← e1]; exact h.inv.liveBelow i hi
  exact ⟨s, h, acyclic_of_check hlt e2, e3, e4, noPunctuation_of e5, e6, e7, noPunctuation_of e8, e9, e10, e11⟩

/-- C66 fails: two elements with different attributes are shown as the same start tag, since quotes are not escaped. -/
theorem C66_refuted : ∃ s, Reachable s ∧ s.live 1 = true ∧ s.live 2 = true ∧ s.nodeType 1 = .element ∧ s.nodeType 2 = .element ∧
    (s.attributes 1).length = 1 ∧ (s.attributes 2).length = 2 ∧
    ∀ W, s.displayNode W 1 = .ok st!"<g a='1' b='2'>" ∧ s.displayNode W 2 = .ok st!"<g a='1' b='2'>" := by
  obtain ⟨s, h, e⟩ := exists_of_holds (ops := [.createElement (.id .G), .createElement (.id .G),
      .setAttribute 1 ⟨.name ['a'], .string st!"1' b='2"⟩, .setAttribute 2 ⟨.name ['a'], .string ['1']⟩,
      .setAttribute 2 ⟨.name ['b'], .string ['2']⟩]) (p := fun s =>
    s.live 1 && s.live 2 && decide (s.nodeType 1 = .element) && decide (s.nodeType 2 = .element) &&
    decide (s.attributes 1 = [⟨.name ['a'], .string st!"1' b='2"⟩]) &&
    decide (s.attributes 2 = [⟨.name ['a'], .string ['1']⟩, ⟨.name ['b'], .string ['2']⟩]) &&
    decide (s.tagName 1 = .id .G) && decide (s.tagName 2 = .id .G) && decide (s.idOf 1 = []) && decide (s.idOf 2 = []))
    (by decide +kernel)
  simp only [Bool.and_eq_true, decide_eq_true_eq] at e
  obtain ⟨⟨⟨⟨⟨⟨⟨⟨⟨e1, e2⟩, e3⟩, e4⟩, e5⟩, e6⟩, e7⟩, e8⟩, e9⟩, e10⟩ := e
  have hG : ElementId.asStr? .G = .ok ['g'] := by decide +kernel
  refine ⟨s, h, e1, e2, e3, e4, by simp [e5], by simp [e6], fun W => ⟨?_, ?_⟩⟩
  · simp only [St.displayNode, e3, e7, displayTagName, hG, St.elementContent, e9, e5, St.displayAttributes, St.displayLoop,
      St.displayAttribute, displayAName, St.writeValue, bind, Except.bind, pure, Except.pure]
    rfl
  · simp only [St.displayNode, e4, e8, displayTagName, hG, St.elementContent, e10, e6, St.displayAttributes, St.displayLoop,
      St.displayAttribute, displayAName, St.writeValue, bind, Except.bind, pure, Except.pure]
    rfl

end Svgdom
