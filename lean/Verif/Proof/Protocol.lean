import Verif.Spec.Protocol
import Verif.Proof.Writer

set_option autoImplicit false

/-!
# The writer follows the protocol of `XmlWriter`
-/

namespace Svgdom

theorem calls_append (a b : List Ev) : ∀ w : XmlState, w.calls (a ++ b) = (w.calls a).bind fun w => w.calls b := by
  induction a with
  | nil => intro w; rfl
  | cons e a ih =>
    intro w
    simp only [List.cons_append, XmlState.calls]
    cases w.call e with
    | none => rfl
    | some w => exact ih w

theorem calls_filter (l : List Ev) : ∀ w : XmlState, w.calls (l.filter Ev.isContent) = w.calls l := by
  induction l with
  | nil => intro w; rfl
  | cons e l ih =>
    intro w
    cases e <;> simp only [List.filter_cons, Ev.isContent, if_true, XmlState.calls, ih, Bool.false_eq_true, if_false, XmlState.call,
      Option.bind_some]

theorem calls_attrs : ∀ (l : List Ev) (w : XmlState), (∀ e ∈ l, e.isAttribute = true) → w.inTag = true → w.calls l = some w
  | [], w, _, _ => rfl
  | e :: l, w, h, hw => by
    have ih := calls_attrs l w (fun x hx => h x (by simp [hx])) hw
    have he := h e (by simp)
    cases e <;> simp_all [Ev.isAttribute, XmlState.calls, XmlState.call]

/-- With an open element, or without loose text, all calls are allowed. -/
theorem calls_markup {s : St} {name : NodeId → Str} {attrs : NodeId → List Ev} : ∀ (T : Trees) (w : XmlState),
    (∀ i ∈ T.pre, ∀ e ∈ attrs i, e.isAttribute = true) → (w.depth ≠ 0 ∨ T.loose s = false) →
    ∃ w', w.calls (T.markup s name attrs) = some w' ∧ w'.depth = w.depth
  | .nil, w, _, _ => ⟨w, rfl, rfl⟩
  | .cons i K R, w, h, hl => by
    have hK := fun w => calls_markup (s := s) (name := name) K w (fun j hj => h j (by simp [Trees.pre, hj]))
    have hR := fun w => calls_markup (s := s) (name := name) R w (fun j hj => h j (by simp [Trees.pre, hj]))
    have hRl : ∀ v : XmlState, v.depth = w.depth → v.depth ≠ 0 ∨ R.loose s = false := by
      intro v hv
      rw [hv]
      refine hl.imp_right fun h => ?_
      unfold Trees.loose at h
      simp only [Bool.or_eq_false_iff] at h
      exact h.2
    rw [markup_cons]
    simp only [calls_append]
    cases ht : s.nodeType i with
    | element =>
      have h1 : w.calls (startEvents s name attrs i) = some ⟨w.depth + 1, true⟩ := by
        simp only [startEvents, ht, XmlState.calls, XmlState.call, Option.bind_some]
        exact calls_attrs _ _ (h i (by simp [Trees.pre])) rfl
      obtain ⟨w2, h2, d2⟩ := hK ⟨w.depth + 1, true⟩ (.inl (by simp))
      obtain ⟨w3, h3, d3⟩ := hR ⟨w2.depth - 1, false⟩ (hRl _ (by simp [d2]))
      have he : s.isElement i = true := by simp [St.isElement, ht]
      refine ⟨w3, ?_, by rw [d3, d2]; simp⟩
      have hd : w2.depth ≠ 0 := by rw [d2]; simp
      simp only [h1, Option.bind_some, h2, he, if_true, XmlState.calls, XmlState.call, if_neg hd, h3]
    | comment =>
      have he : s.isElement i = false := by simp [St.isElement, ht]
      obtain ⟨w2, h2, d2⟩ := hK ⟨w.depth, false⟩ (hl.imp_right fun h => by
        unfold Trees.loose at h; simp only [ht, Bool.or_eq_false_iff] at h; exact h.1)
      obtain ⟨w3, h3, d3⟩ := hR w2 (hRl _ d2)
      refine ⟨w3, ?_, by rw [d3, d2]⟩
      simp only [startEvents, ht, XmlState.calls, XmlState.call, Option.bind_some, h2, he, Bool.false_eq_true, if_false, h3]
    | text =>
      have he : s.isElement i = false := by simp [St.isElement, ht]
      have hd : w.depth ≠ 0 := by
        rcases hl with h | h
        · exact h
        · simp [Trees.loose, ht] at h
      obtain ⟨w2, h2, d2⟩ := hK ⟨w.depth, false⟩ (.inl hd)
      obtain ⟨w3, h3, d3⟩ := hR w2 (hRl _ d2)
      refine ⟨w3, ?_, by rw [d3, d2]⟩
      simp only [startEvents, ht, XmlState.calls, XmlState.call, if_neg hd, Option.bind_some, h2, he, Bool.false_eq_true, if_false, h3]
    | root =>
      have he : s.isElement i = false := by simp [St.isElement, ht]
      obtain ⟨w2, h2, d2⟩ := hK w (hl.imp_right fun h => by
        unfold Trees.loose at h; simp only [ht, Bool.or_eq_false_iff] at h; exact h.1)
      obtain ⟨w3, h3, d3⟩ := hR w2 (hRl _ d2)
      refine ⟨w3, ?_, by rw [d3, d2]⟩
      simp only [startEvents, ht, XmlState.calls, Option.bind_some, h2, he, Bool.false_eq_true, if_false, h3]

/-- Loose text is refused. -/
theorem calls_loose {s : St} {name : NodeId → Str} {attrs : NodeId → List Ev} : ∀ (T : Trees) (w : XmlState),
    (∀ i ∈ T.pre, ∀ e ∈ attrs i, e.isAttribute = true) → w.depth = 0 → T.loose s = true →
    w.calls (T.markup s name attrs) = none
  | .nil, w, _, _, hl => by simp [Trees.loose] at hl
  | .cons i K R, w, h, hw, hl => by
    have aK : ∀ j ∈ K.pre, ∀ e ∈ attrs j, e.isAttribute = true := fun j hj => h j (by simp [Trees.pre, hj])
    have aR : ∀ j ∈ R.pre, ∀ e ∈ attrs j, e.isAttribute = true := fun j hj => h j (by simp [Trees.pre, hj])
    have hK := fun w => calls_loose (s := s) (name := name) K w aK
    have hR := fun w => calls_loose (s := s) (name := name) R w aR
    rw [markup_cons]
    simp only [calls_append]
    unfold Trees.loose at hl
    cases ht : s.nodeType i with
    | element =>
      simp only [ht, Bool.false_or] at hl
      have h1 : w.calls (startEvents s name attrs i) = some ⟨w.depth + 1, true⟩ := by
        simp only [startEvents, ht, XmlState.calls, XmlState.call, Option.bind_some]
        exact calls_attrs _ _ (h i (by simp [Trees.pre])) rfl
      obtain ⟨w2, h2, d2⟩ := calls_markup (s := s) (name := name) K ⟨w.depth + 1, true⟩ aK (.inl (by simp))
      have he : s.isElement i = true := by simp [St.isElement, ht]
      have hd : w2.depth ≠ 0 := by rw [d2]; simp
      simp only [h1, Option.bind_some, h2, he, if_true, XmlState.calls, XmlState.call, if_neg hd]
      exact hR _ (by simp [d2, hw]) hl
    | text =>
      simp only [startEvents, ht, XmlState.calls, XmlState.call, if_pos hw, Option.bind_none]
    | comment =>
      have he : s.isElement i = false := by simp [St.isElement, ht]
      simp only [ht, Bool.or_eq_true] at hl
      simp only [startEvents, ht, XmlState.calls, XmlState.call, Option.bind_some, he, Bool.false_eq_true, if_false]
      by_cases hk : K.loose s = true
      · rw [hK ⟨w.depth, false⟩ hw hk]; rfl
      · obtain ⟨w2, h2, d2⟩ := calls_markup (s := s) (name := name) K ⟨w.depth, false⟩ aK (.inr (by simpa using hk))
        simp only [h2, Option.bind_some]
        exact hR _ (by rw [d2]; exact hw) (hl.resolve_left hk)
    | root =>
      have he : s.isElement i = false := by simp [St.isElement, ht]
      simp only [ht, Bool.or_eq_true] at hl
      simp only [startEvents, ht, XmlState.calls, Option.bind_some, he, Bool.false_eq_true, if_false]
      by_cases hk : K.loose s = true
      · rw [hK _ hw hk]; rfl
      · obtain ⟨w2, h2, d2⟩ := calls_markup (s := s) (name := name) K w aK (.inr (by simpa using hk))
        simp only [h2, Option.bind_some]
        exact hR _ (by rw [d2]; exact hw) (hl.resolve_left hk)

/-! ### The white space switch -/

/-- The setting after the calls. -/
def switchAfter : Bool → List Ev → Bool
  | b, [] => b
  | _, .preserve b :: l => switchAfter b l
  | b, .startElement _ :: l => switchAfter b l
  | b, .attribute _ _ :: l => switchAfter b l
  | b, .attributeRaw _ _ :: l => switchAfter b l
  | b, .endElement :: l => switchAfter b l
  | b, .comment _ :: l => switchAfter b l
  | b, .text _ :: l => switchAfter b l

theorem switched_append (a l : List Ev) : ∀ b, switched b (a ++ l) = switched b a ++ switched (switchAfter b a) l := by
  induction a with
  | nil => intro b; rfl
  | cons e a ih => intro b; cases e <;> simp [switched, switchAfter, ih]

theorem switchAfter_append (a l : List Ev) : ∀ b, switchAfter b (a ++ l) = switchAfter (switchAfter b a) l := by
  induction a with
  | nil => intro b; rfl
  | cons e a ih => intro b; cases e <;> simp [switchAfter, ih]

theorem switched_attrs : ∀ (l : List Ev) (b : Bool), (∀ e ∈ l, e.isAttribute = true) →
    switched b l = l.map (·, b) ∧ switchAfter b l = b
  | [], b, _ => ⟨rfl, rfl⟩
  | e :: l, b, h => by
    have ih := switched_attrs l b (fun x hx => h x (by simp [hx]))
    have he := h e (by simp)
    cases e <;> simp_all [Ev.isAttribute, switched, switchAfter]

/-- The calls for the start of a node. -/
def startCalls (s : St) (name : NodeId → Str) (attrs : NodeId → List Ev) (i : NodeId) : List Ev :=
  match s.nodeType i with
  | .element => .startElement (name i) :: attrs i ++ if s.hasTagName i (.id .Text) then [.preserve true] else []
  | .comment => [.comment (s.text i)]
  | .text => [.text (s.text i)]
  | .root => []

theorem writeStart_calls {s : St} {W : ValueWriter} {name : NodeId → Str} {attrs : NodeId → List Ev} {i : NodeId}
    (hn : s.IsName i (name i)) (h2 : s.writeAttributes W i = .ok (attrs i)) :
    s.writeStart W i = .ok (startCalls s name attrs i) := by
  unfold St.writeStart startCalls
  cases ht : s.nodeType i with
  | root => rfl
  | comment => rfl
  | text => rfl
  | element =>
    unfold St.IsName at hn
    cases hq : s.tagName i with
    | id e => rw [hq] at hn; simp only at hn; simp only [hn, h2, bind, Except.bind, pure, Except.pure]
    | name y => rw [hq] at hn; simp only at hn; subst hn; simp only [h2, bind, Except.bind, pure, Except.pure]

/-- The switch follows the `text` elements if they are not nested. -/
theorem writeEdges_switched {s : St} {W : ValueWriter} {name : NodeId → Str} {attrs : NodeId → List Ev} : ∀ (T : Trees) (b : Bool),
    (∀ i ∈ T.pre, s.IsName i (name i)) → (∀ i ∈ T.pre, s.writeAttributes W i = .ok (attrs i)) →
    (∀ i ∈ T.pre, ∀ e ∈ attrs i, e.isAttribute = true) → T.unnested s b = true →
    ∃ es, s.writeEdges W T.edges = .ok es ∧ switched b es = T.marked s name attrs b ∧ switchAfter b es = b
  | .nil, b, _, _, _, _ => ⟨[], rfl, rfl, rfl⟩
  | .cons i K R, b, h1, h2, h3, hu => by
    simp only [Trees.unnested, Bool.and_eq_true] at hu
    obtain ⟨⟨u1, u2⟩, u3⟩ := hu
    obtain ⟨ka, ea, fa, ga⟩ := writeEdges_switched (W := W) K _ (fun j hj => h1 j (by simp [Trees.pre, hj]))
      (fun j hj => h2 j (by simp [Trees.pre, hj])) (fun j hj => h3 j (by simp [Trees.pre, hj])) u2
    obtain ⟨rb, eb, fb, gb⟩ := writeEdges_switched (W := W) R _ (fun j hj => h1 j (by simp [Trees.pre, hj]))
      (fun j hj => h2 j (by simp [Trees.pre, hj])) (fun j hj => h3 j (by simp [Trees.pre, hj])) u3
    have hi : i ∈ (Trees.cons i K R).pre := by simp [Trees.pre]
    have eab : s.writeEdges W (K.edges ++ .stop i :: R.edges) = .ok (ka ++ (s.writeEnd i ++ rb)) := by
      refine writeEdges_append s W _ _ ea ?_
      simp [St.writeEdges, eb, bind, Except.bind, pure, Except.pure]
    have es := writeStart_calls (h1 i hi) (h2 i hi)
    refine ⟨startCalls s name attrs i ++ (ka ++ (s.writeEnd i ++ rb)),
      by simp [Trees.edges, St.writeEdges, es, eab, bind, Except.bind, pure, Except.pure], ?_⟩
    cases ht : s.nodeType i with
    | element =>
      obtain ⟨a1, a2⟩ := switched_attrs (attrs i) b (h3 i hi)
      have he : s.isElement i = true := by simp [St.isElement, ht]
      by_cases hx : s.tagName i = .id .Text
      · have hb : b = false := by
          cases b with
          | false => rfl
          | true => simp [hx] at u1
        subst hb
        simp only [hx, decide_true, Bool.or_true, Bool.false_or] at fa ga
        simp only [startCalls, ht, St.hasTagName, hx, decide_true, if_true, St.writeEnd, he, Trees.marked, Bool.or_true]
        simp only [switched_append, switchAfter_append, List.cons_append, List.append_assoc, switched, switchAfter, a1, a2,
          fa, ga, fb, gb, List.nil_append, and_true]
      · simp only [hx, decide_false, Bool.or_false] at fa ga
        simp only [startCalls, ht, St.hasTagName, hx, decide_false, Bool.false_eq_true, if_false, if_true, St.writeEnd, he,
          Trees.marked, Bool.or_false]
        simp only [switched_append, switchAfter_append, List.cons_append, List.append_assoc, switched, switchAfter, a1, a2,
          fa, ga, fb, gb, List.nil_append, and_true]
    | comment =>
      have he : s.isElement i = false := by simp [St.isElement, ht]
      have hx : s.tagName i ≠ .id .Text := by
        intro hx
        simp [hx, ht] at u1
      simp only [hx, decide_false, Bool.or_false] at fa ga
      simp only [startCalls, ht, St.hasTagName, hx, decide_false, Bool.false_eq_true, if_false, St.writeEnd, he, Trees.marked]
      simp only [switched_append, switchAfter_append, List.cons_append, List.append_assoc, switched, switchAfter, fa, ga, fb, gb,
        List.nil_append, and_true]
    | text =>
      have he : s.isElement i = false := by simp [St.isElement, ht]
      have hx : s.tagName i ≠ .id .Text := by
        intro hx
        simp [hx, ht] at u1
      simp only [hx, decide_false, Bool.or_false] at fa ga
      simp only [startCalls, ht, St.hasTagName, hx, decide_false, Bool.false_eq_true, if_false, St.writeEnd, he, Trees.marked]
      simp only [switched_append, switchAfter_append, List.cons_append, List.append_assoc, switched, switchAfter, fa, ga, fb, gb,
        List.nil_append, and_true]
    | root =>
      have he : s.isElement i = false := by simp [St.isElement, ht]
      have hx : s.tagName i ≠ .id .Text := by
        intro hx
        simp [hx, ht] at u1
      simp only [hx, decide_false, Bool.or_false] at fa ga
      simp only [startCalls, ht, St.hasTagName, hx, decide_false, Bool.false_eq_true, if_false, St.writeEnd, he, Trees.marked]
      simp only [switched_append, switchAfter_append, List.append_assoc, fa, ga, fb, gb, List.nil_append, and_true]

end Svgdom
