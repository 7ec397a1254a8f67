import Verif.Proof.Protocol
import Verif.Spec.Switch

/-!
# The white space switch, without assumptions on the tree
-/

set_option autoImplicit false

namespace Svgdom

/-- The calls for trees, one tree after the other. -/
def Trees.allCalls (s : St) (name : NodeId → Str) (attrs : NodeId → List Ev) : Trees → List Ev
  | nil => []
  | cons i kids rest => startCalls s name attrs i ++ (kids.allCalls s name attrs ++ (s.writeEnd i ++ rest.allCalls s name attrs))

theorem writeEdges_allCalls {s : St} {W : ValueWriter} {name : NodeId → Str} {attrs : NodeId → List Ev} : ∀ (T : Trees),
    (∀ i ∈ T.pre, s.IsName i (name i)) → (∀ i ∈ T.pre, s.writeAttributes W i = .ok (attrs i)) →
    s.writeEdges W T.edges = .ok (T.allCalls s name attrs)
  | .nil, _, _ => rfl
  | .cons i K R, h1, h2 => by
    have ea := writeEdges_allCalls (W := W) K (fun j hj => h1 j (by simp [Trees.pre, hj]))
      (fun j hj => h2 j (by simp [Trees.pre, hj]))
    have eb := writeEdges_allCalls (W := W) R (fun j hj => h1 j (by simp [Trees.pre, hj]))
      (fun j hj => h2 j (by simp [Trees.pre, hj]))
    have hi : i ∈ (Trees.cons i K R).pre := by simp [Trees.pre]
    have eab : s.writeEdges W (K.edges ++ .stop i :: R.edges) =
        .ok (K.allCalls s name attrs ++ (s.writeEnd i ++ R.allCalls s name attrs)) := by
      refine writeEdges_append s W _ _ ea ?_
      simp [St.writeEdges, eb, bind, Except.bind, pure, Except.pure]
    have es := writeStart_calls (h1 i hi) (h2 i hi)
    simp [Trees.edges, St.writeEdges, es, eab, bind, Except.bind, pure, Except.pure, Trees.allCalls]

/-- The switch is only turned on after something has been written. -/
theorem off_or_written {s : St} {name : NodeId → Str} {attrs : NodeId → List Ev} : ∀ (T : Trees),
    (∃ e, (e, false) ∈ switched false (T.allCalls s name attrs)) ∨ switchAfter false (T.allCalls s name attrs) = false
  | .nil => .inr rfl
  | .cons i K R => by
    have hK := off_or_written (s := s) (name := name) (attrs := attrs) K
    have hR := off_or_written (s := s) (name := name) (attrs := attrs) R
    cases ht : s.nodeType i with
    | element => exact .inl ⟨_, by simp [Trees.allCalls, startCalls, ht, switched]; exact .inl rfl⟩
    | comment => exact .inl ⟨_, by simp [Trees.allCalls, startCalls, ht, switched]; exact .inl rfl⟩
    | text => exact .inl ⟨_, by simp [Trees.allCalls, startCalls, ht, switched]; exact .inl rfl⟩
    | root =>
      simp only [Trees.allCalls, startCalls, ht, List.nil_append, switched_append, switchAfter_append, List.mem_append]
      rcases hK with ⟨e, he⟩ | hk
      · exact .inl ⟨e, .inl he⟩
      · have hend : switchAfter false (s.writeEnd i) = false := by
          simp only [St.writeEnd, St.isElement, ht]
          by_cases hx : s.hasTagName i (.id .Text) = true <;> simp [hx, switchAfter]
        rw [hk, hend]
        rcases hR with ⟨e, he⟩ | hr
        · exact .inl ⟨e, .inr (.inr he)⟩
        · exact .inr hr

theorem marked_true {s : St} {name : NodeId → Str} {attrs : NodeId → List Ev} : ∀ (T : Trees),
    ∀ p ∈ T.marked s name attrs true, p.2 = true
  | .nil, p, hp => by simp [Trees.marked] at hp
  | .cons i K R, p, hp => by
    have hK := marked_true (s := s) (name := name) (attrs := attrs) K p
    have hR := marked_true (s := s) (name := name) (attrs := attrs) R p
    cases ht : s.nodeType i <;> simp only [Trees.marked, ht, Bool.true_or] at hp <;>
      simp only [List.mem_cons, List.mem_append, List.mem_map, List.cons_append] at hp <;> aesop

/-- What is written, apart from the marks. -/
theorem switched_fst (b c : Bool) : ∀ l, (switched b l).map Prod.fst = (switched c l).map Prod.fst := by
  have key : ∀ l b, (switched b l).map Prod.fst = (switched false l).map Prod.fst := by
    intro l
    induction l with
    | nil => intro b; rfl
    | cons e l ih => intro b; cases e <;> simp [switched, ih b, ih]
  intro l; rw [key l b, key l c]

theorem marked_fst {s : St} {name : NodeId → Str} {attrs : NodeId → List Ev} : ∀ (T : Trees) (b c : Bool),
    (∀ i ∈ T.pre, ∀ e ∈ attrs i, e.isAttribute = true) →
    (switched b (T.allCalls s name attrs)).map Prod.fst = (T.marked s name attrs c).map Prod.fst
  | .nil, _, _, _ => rfl
  | .cons i K R, b, c, h3 => by
    have hK := fun b c => marked_fst (s := s) (name := name) K b c (fun j hj => h3 j (by simp [Trees.pre, hj]))
    have hR := fun b c => marked_fst (s := s) (name := name) R b c (fun j hj => h3 j (by simp [Trees.pre, hj]))
    have hend : ∀ b, (switched b (s.writeEnd i)).map Prod.fst = if s.isElement i then [.endElement] else [] := by
      intro b
      simp only [St.writeEnd]
      by_cases hx : s.hasTagName i (.id .Text) = true <;> by_cases he : s.isElement i = true <;> simp [hx, he, switched]
    have hat := fun b => switched_attrs (attrs i) b (h3 i (by simp [Trees.pre]))
    simp only [Trees.allCalls, switched_append, List.map_append, hend, hR _ c]
    cases ht : s.nodeType i with
    | element =>
      have he : s.isElement i = true := by simp [St.isElement, ht]
      rw [hK _ (c || decide (s.tagName i = .id .Text))]
      have hst : (switched b (startCalls s name attrs i)).map Prod.fst = .startElement (name i) :: attrs i := by
        simp only [startCalls, ht, List.cons_append, switched, switched_append, (hat b).1, (hat b).2]
        by_cases hx : s.hasTagName i (.id .Text) = true <;> simp [hx, switched, Function.comp_def]
      rw [hst]
      simp [Trees.marked, ht, he, Function.comp_def]
    | comment =>
      have he : s.isElement i = false := by simp [St.isElement, ht]
      rw [hK _ c]
      simp [Trees.marked, ht, he, startCalls, switched]
    | text =>
      have he : s.isElement i = false := by simp [St.isElement, ht]
      rw [hK _ c]
      simp [Trees.marked, ht, he, startCalls, switched]
    | root =>
      have he : s.isElement i = false := by simp [St.isElement, ht]
      rw [hK _ c]
      simp [Trees.marked, ht, he, startCalls, switched]

theorem marked_length {s : St} {name : NodeId → Str} {attrs : NodeId → List Ev} (T : Trees) (b c : Bool)
    (h : ∀ i ∈ T.pre, ∀ e ∈ attrs i, e.isAttribute = true) :
    (switched b (T.allCalls s name attrs)).length = (T.marked s name attrs c).length := by
  have := congrArg List.length (marked_fst (s := s) (name := name) T b c h)
  simpa using this

/-- Inside of a `text` element, a switch that is off stays off or is seen to be off. -/
theorem off_inside {s : St} {name : NodeId → Str} {attrs : NodeId → List Ev} (T : Trees)
    (h : switched false (T.allCalls s name attrs) = T.marked s name attrs true) :
    switchAfter false (T.allCalls s name attrs) = false := by
  rcases off_or_written (s := s) (name := name) (attrs := attrs) T with ⟨e, he⟩ | h2
  · rw [h] at he
    have := marked_true T _ he
    simp at this
  · exact h2

/-- The switch follows the `text` elements exactly if no node called `text` is inside of another. -/
theorem switched_iff {s : St} {name : NodeId → Str} {attrs : NodeId → List Ev} : ∀ (T : Trees),
    (∀ i ∈ T.pre, ∀ e ∈ attrs i, e.isAttribute = true) →
    ((switched false (T.allCalls s name attrs) = T.marked s name attrs false ↔ T.textInText s false = false) ∧
      (T.textInText s false = false → switchAfter false (T.allCalls s name attrs) = false)) ∧
    ((switched true (T.allCalls s name attrs) = T.marked s name attrs true ∧
        switchAfter true (T.allCalls s name attrs) = true) ↔ T.textInText s true = false)
  | .nil, _ => ⟨⟨⟨fun _ => rfl, fun _ => rfl⟩, fun _ => rfl⟩, ⟨fun _ => rfl, fun _ => ⟨rfl, rfl⟩⟩⟩
  | .cons i K R, h3 => by
    have aK : ∀ j ∈ K.pre, ∀ e ∈ attrs j, e.isAttribute = true := fun j hj => h3 j (by simp [Trees.pre, hj])
    have aR : ∀ j ∈ R.pre, ∀ e ∈ attrs j, e.isAttribute = true := fun j hj => h3 j (by simp [Trees.pre, hj])
    obtain ⟨⟨kf, kf2⟩, kt⟩ := switched_iff (s := s) (name := name) K aK
    obtain ⟨⟨rf, rf2⟩, rt⟩ := switched_iff (s := s) (name := name) R aR
    have off := off_inside (s := s) (name := name) (attrs := attrs) R
    have offK := off_inside (s := s) (name := name) (attrs := attrs) K
    have lK := fun b c => marked_length (s := s) (name := name) K b c aK
    have hat := fun b => switched_attrs (attrs i) b (h3 i (by simp [Trees.pre]))
    by_cases hx : s.tagName i = .id .Text
    · cases ht : s.nodeType i with
      | element =>
        have he : s.isElement i = true := by simp [St.isElement, ht]
        have e1 : ∀ b, switched b ((Trees.cons i K R).allCalls s name attrs) =
            (.startElement (name i), b) :: (attrs i).map (·, b) ++ (switched true (K.allCalls s name attrs) ++
              (.endElement, switchAfter true (K.allCalls s name attrs)) :: switched false (R.allCalls s name attrs)) := by
          intro b
          simp only [Trees.allCalls, startCalls, ht, St.hasTagName, hx, decide_true, if_true, St.writeEnd, he,
            switched_append, switchAfter_append, List.cons_append, List.append_assoc, switched, switchAfter, (hat b).1, (hat b).2,
            List.nil_append]
        have e2 : ∀ b, switchAfter b ((Trees.cons i K R).allCalls s name attrs) = switchAfter false (R.allCalls s name attrs) := by
          intro b
          simp only [Trees.allCalls, startCalls, ht, St.hasTagName, hx, decide_true, if_true, St.writeEnd, he,
            switchAfter_append, List.cons_append, List.append_assoc, switchAfter, List.nil_append]
        have e3 : ∀ b, (Trees.cons i K R).marked s name attrs b = (.startElement (name i), b) :: (attrs i).map (·, b) ++
            (K.marked s name attrs true ++ (.endElement, true) :: R.marked s name attrs b) := by
          intro b
          simp [Trees.marked, ht, hx]
        have split : ∀ b, switched b ((Trees.cons i K R).allCalls s name attrs) = (Trees.cons i K R).marked s name attrs b ↔
            K.textInText s true = false ∧ switched false (R.allCalls s name attrs) = R.marked s name attrs b := by
          intro b
          rw [e1, e3, List.append_cancel_left_eq, ← kt]
          constructor
          · intro h
            obtain ⟨h1, h2⟩ := List.append_inj h (lK _ _)
            simp only [List.cons.injEq, Prod.mk.injEq, true_and] at h2
            exact ⟨⟨h1, h2.1⟩, h2.2⟩
          · rintro ⟨⟨h1, h2⟩, h4⟩
            rw [h1, h2, h4]
        refine ⟨⟨?_, ?_⟩, ?_⟩
        · rw [split, rf]; simp [Trees.textInText, ht, hx]
        · intro h
          rw [e2]
          exact rf2 (by simp [Trees.textInText, ht, hx] at h; exact h.2)
        · rw [split, e2]
          constructor
          · rintro ⟨⟨_, h2⟩, h4⟩
            rw [off h2] at h4
            cases h4
          · intro h; simp [Trees.textInText, hx] at h
      | _ =>
        have he : s.isElement i = false := by simp [St.isElement, ht]
        have split : ∀ b, switched b ((Trees.cons i K R).allCalls s name attrs) = (Trees.cons i K R).marked s name attrs b ↔
            switched b (K.allCalls s name attrs) = K.marked s name attrs b ∧
              switched false (R.allCalls s name attrs) = R.marked s name attrs b := by
          intro b
          simp only [Trees.allCalls, startCalls, ht, St.hasTagName, hx, decide_true, if_true, St.writeEnd, he, Trees.marked,
            switched_append, switchAfter_append, List.cons_append, List.append_assoc, switched, switchAfter, List.nil_append,
            Bool.false_eq_true, if_false, List.cons.injEq, true_and]
          exact ⟨fun h => List.append_inj h (lK _ _), fun h => by rw [h.1, h.2]⟩
        have e2 : ∀ b, switchAfter b ((Trees.cons i K R).allCalls s name attrs) = switchAfter false (R.allCalls s name attrs) := by
          intro b
          simp only [Trees.allCalls, startCalls, ht, St.hasTagName, hx, decide_true, if_true, St.writeEnd, he,
            switchAfter_append, List.cons_append, List.append_assoc, switchAfter, List.nil_append, Bool.false_eq_true, if_false]
        refine ⟨⟨?_, ?_⟩, ?_⟩
        · rw [split, rf, kf]; simp [Trees.textInText, ht]
        · intro h
          rw [e2]
          exact rf2 (by simp [Trees.textInText, ht] at h; exact h.2)
        · rw [split, e2]
          constructor
          · rintro ⟨⟨_, h2⟩, h4⟩
            rw [off h2] at h4
            cases h4
          · intro h; simp [Trees.textInText, hx] at h
    · cases ht : s.nodeType i with
      | element =>
        have he : s.isElement i = true := by simp [St.isElement, ht]
        have split : ∀ b, switched b ((Trees.cons i K R).allCalls s name attrs) = (Trees.cons i K R).marked s name attrs b ↔
            (switched b (K.allCalls s name attrs) = K.marked s name attrs b ∧ switchAfter b (K.allCalls s name attrs) = b) ∧
              switched b (R.allCalls s name attrs) = R.marked s name attrs b := by
          intro b
          have e1 : switched b ((Trees.cons i K R).allCalls s name attrs) =
              (.startElement (name i), b) :: (attrs i).map (·, b) ++ (switched b (K.allCalls s name attrs) ++
                (.endElement, switchAfter b (K.allCalls s name attrs)) ::
                  switched (switchAfter b (K.allCalls s name attrs)) (R.allCalls s name attrs)) := by
            simp only [Trees.allCalls, startCalls, ht, St.hasTagName, hx, decide_false, Bool.false_eq_true, if_false, if_true,
              St.writeEnd, he, switched_append, switchAfter_append, List.cons_append, List.append_assoc, switched, switchAfter,
              (hat b).1, (hat b).2, List.nil_append, List.append_nil]
          have e3 : (Trees.cons i K R).marked s name attrs b = (.startElement (name i), b) :: (attrs i).map (·, b) ++
              (K.marked s name attrs b ++ (.endElement, b) :: R.marked s name attrs b) := by
            simp [Trees.marked, ht, hx]
          rw [e1, e3, List.append_cancel_left_eq]
          constructor
          · intro h
            obtain ⟨h1, h2⟩ := List.append_inj h (lK _ _)
            simp only [List.cons.injEq, Prod.mk.injEq, true_and] at h2
            exact ⟨⟨h1, h2.1⟩, by rw [← h2.2, h2.1]⟩
          · rintro ⟨⟨h1, h2⟩, h4⟩
            rw [h1, h2, h4]
        have e2 : ∀ b, switchAfter b ((Trees.cons i K R).allCalls s name attrs) =
            switchAfter (switchAfter b (K.allCalls s name attrs)) (R.allCalls s name attrs) := by
          intro b
          simp only [Trees.allCalls, startCalls, ht, St.hasTagName, hx, decide_false, Bool.false_eq_true, if_false, if_true,
            St.writeEnd, he, switchAfter_append, List.cons_append, List.append_assoc, switchAfter,
            (hat b).2, List.nil_append, List.append_nil]
        refine ⟨⟨?_, ?_⟩, ?_⟩
        · rw [split, rf, kf]
          constructor
          · rintro ⟨⟨h1, _⟩, h2⟩; simp [Trees.textInText, hx, h1, h2]
          · intro h
            simp [Trees.textInText, hx] at h
            exact ⟨⟨h.1, kf2 h.1⟩, h.2⟩
        · intro h
          simp [Trees.textInText, hx] at h
          rw [e2, kf2 h.1, rf2 h.2]
        · rw [split, e2, kt]
          constructor
          · rintro ⟨⟨h1, h2⟩, h4⟩
            rw [(kt.2 h1).2] at h4
            simp [Trees.textInText, hx, h1, rt.1 ⟨h2, h4⟩]
          · intro h
            simp [Trees.textInText, hx] at h
            rw [(kt.2 h.1).2]
            exact ⟨⟨h.1, (rt.2 h.2).1⟩, (rt.2 h.2).2⟩
      | _ =>
        have he : s.isElement i = false := by simp [St.isElement, ht]
        have split : ∀ b, switched b ((Trees.cons i K R).allCalls s name attrs) = (Trees.cons i K R).marked s name attrs b ↔
            switched b (K.allCalls s name attrs) = K.marked s name attrs b ∧
              switched (switchAfter b (K.allCalls s name attrs)) (R.allCalls s name attrs) = R.marked s name attrs b := by
          intro b
          simp only [Trees.allCalls, startCalls, ht, St.hasTagName, hx, decide_false, St.writeEnd, he, Trees.marked,
            switched_append, switchAfter_append, List.cons_append, List.append_assoc, switched, switchAfter, List.nil_append,
            Bool.false_eq_true, if_false, List.cons.injEq, true_and]
          exact ⟨fun h => List.append_inj h (lK _ _), fun h => by rw [h.1, h.2]⟩
        have e2 : ∀ b, switchAfter b ((Trees.cons i K R).allCalls s name attrs) =
            switchAfter (switchAfter b (K.allCalls s name attrs)) (R.allCalls s name attrs) := by
          intro b
          simp only [Trees.allCalls, startCalls, ht, St.hasTagName, hx, decide_false, St.writeEnd, he,
            switchAfter_append, List.cons_append, List.append_assoc, switchAfter, List.nil_append, Bool.false_eq_true, if_false]
        refine ⟨⟨?_, ?_⟩, ?_⟩
        · rw [split, kf]
          constructor
          · rintro ⟨h1, h2⟩
            rw [kf2 h1, rf] at h2
            simp [Trees.textInText, hx, h1, h2]
          · intro h
            simp [Trees.textInText, hx] at h
            rw [kf2 h.1, rf]
            exact h
        · intro h
          simp [Trees.textInText, hx] at h
          rw [e2, kf2 h.1, rf2 h.2]
        · rw [split, e2]
          constructor
          · rintro ⟨⟨h1, h2⟩, h4⟩
            cases hk : switchAfter true (K.allCalls s name attrs) with
            | false =>
              rw [hk] at h2 h4
              rw [off h2] at h4
              cases h4
            | true =>
              rw [hk] at h2 h4
              simp [Trees.textInText, hx, kt.1 ⟨h1, hk⟩, rt.1 ⟨h2, h4⟩]
          · intro h
            simp [Trees.textInText, hx] at h
            obtain ⟨k1, k2⟩ := kt.2 h.1
            obtain ⟨r1, r2⟩ := rt.2 h.2
            rw [k2]
            exact ⟨⟨k1, r1⟩, r2⟩

end Svgdom
