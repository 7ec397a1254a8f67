import Verif.Proof.SettleLong

/-!
Documents that need many rounds of saving.
-/

set_option autoImplicit false

namespace Svgdom

/-! ## The documents -/

/-- `a`, or a space, a comment, `a` and a `tspan` with the same again. -/
def deepDom : Nat → Dom
  | 0 => .text st!"a" .nil
  | m + 1 => .text st!" " (.comment st!"c" (.text st!"a" (.element .Tspan [] [] [] (deepDom m) .nil)))

/-- Inside of `j` levels without a space. -/
def insideDom (d : Dom) : Nat → Dom
  | 0 => d
  | j + 1 => .comment st!"c" (.text st!"a" (.element .Tspan [] [] [] (insideDom d j) .nil))

/-- `j` levels without a space, and then `m` levels with one, in a `text` element. -/
def longDom (j m : Nat) : Dom := .element .Svg [] [] [] (.element .Text [] [] [] (insideDom (deepDom m) j) .nil) .nil

/-- The same as XML. -/
def longXml (j m : Nat) : Xml := (longDom j m).toXml

theorem deep_bare : ∀ (m : Nat) (e : ElementId), e = .Text ∨ e = .Tspan → (deepDom m).Bare (some e)
  | 0, _, _ => ⟨by decide, fun h => absurd h (by decide), trivial⟩
  | m + 1, e, he => ⟨by decide, fun _ => by rcases he with rfl | rfl <;> rfl, by decide, fun h => absurd h (by decide), rfl, rfl, rfl, by decide,
      deep_bare m _ (.inr rfl), trivial⟩

theorem inside_bare (m : Nat) : ∀ (j : Nat) (e : ElementId), e = .Text ∨ e = .Tspan → (insideDom (deepDom m) j).Bare (some e)
  | 0, e, he => deep_bare m e he
  | j + 1, _, _ => ⟨by decide, fun h => absurd h (by decide), rfl, rfl, rfl, by decide, inside_bare m j _ (.inr rfl), trivial⟩

theorem long_bare (j m : Nat) : (longDom j m).Bare none :=
  ⟨rfl, rfl, rfl, by decide, ⟨rfl, rfl, rfl, by decide, inside_bare m j _ (.inl rfl), trivial⟩, trivial⟩

theorem deep_fine : ∀ m : Nat, (deepDom m).toXml.Fine
  | 0 => ⟨by decide, trivial, trivial⟩
  | m + 1 => ⟨by decide, ⟨by decide, by decide, ⟨deep_fine m, trivial⟩, trivial⟩, trivial⟩

theorem inside_fine (m : Nat) : ∀ j : Nat, (insideDom (deepDom m) j).toXml.Fine
  | 0 => deep_fine m
  | j + 1 => ⟨by decide, by decide, ⟨inside_fine m j, trivial⟩, trivial⟩

/-- How many texts are a single space. -/
def Xml.spaces : Xml → Nat
  | nil => 0
  | element _ _ _ kids rest => kids.spaces + rest.spaces
  | text t rest => (if t = [' '] then 1 else 0) + rest.spaces
  | comment _ rest => rest.spaces
  | pi rest => rest.spaces

theorem deep_spaces : ∀ m : Nat, (deepDom m).toXml.spaces = m
  | 0 => rfl
  | m + 1 => by simp [deepDom, Dom.toXml, Xml.spaces, deep_spaces m, Nat.add_comm]

theorem long_spaces (j m : Nat) : (longXml j m).spaces = m := by
  have : ∀ j, (insideDom (deepDom m) j).toXml.spaces = m := by
    intro j
    induction j with
    | zero => exact deep_spaces m
    | succ j ih => simp [insideDom, Dom.toXml, Xml.spaces, ih]
  simp [longXml, longDom, Dom.toXml, Xml.spaces, this]

/-! ## The texts -/

/-- The texts of `deepDom m`, numbered from `k`. -/
def DeepTexts (τ : NodeId → Str) : Nat → NodeId → Prop
  | 0, k => τ k = st!"a"
  | m + 1, k => τ k = st!" " ∧ τ (k + 2) = st!"a" ∧ DeepTexts τ m (k + 4)

theorem deepTexts_congr {τ σ : NodeId → Str} : ∀ {m : Nat} {k : NodeId}, (∀ j, k ≤ j → τ j = σ j) → DeepTexts τ m k → DeepTexts σ m k
  | 0, k, h, ht => (h k (Nat.le_refl k)).symm.trans ht
  | m + 1, k, h, ⟨a, b, c⟩ => ⟨(h k (Nat.le_refl k)).symm.trans a, (h (k + 2) (Nat.le_add_right k 2)).symm.trans b,
      deepTexts_congr (fun j hj => h j (Nat.le_trans (Nat.le_add_right k 4) hj)) c⟩

/-- The items of `deepDom m`. -/
def deepItems : Nat → NodeId → Nat → List Item
  | 0, k, d => [⟨k, d, .default⟩]
  | m + 1, k, d => ⟨k, d, .default⟩ :: ⟨k + 2, d, .default⟩ :: deepItems m (k + 4) (d + 1)

theorem deep_items : ∀ (m : Nat) (k : NodeId) (d : Nat), ((deepDom m).number k).items .default .default d = deepItems m k d
  | 0, _, _ => rfl
  | m + 1, k, d => by
    have := deep_items m (k + 4) (d + 1)
    simp [deepDom, Dom.number, Content.items, Look.space, deepItems, Nat.add_assoc, this]

theorem deepItems_ne (m : Nat) (k : NodeId) (d : Nat) : (deepItems m k d).isEmpty = false := by cases m <;> rfl

theorem deepItems_text {τ : NodeId → Str} : ∀ {m : Nat} {k : NodeId} {d : Nat}, DeepTexts τ m k → ∀ i ∈ deepItems m k d,
    i.mode = .default ∧ (τ i.node = st!"a" ∨ τ i.node = st!" ")
  | 0, _, _, h, i, hi => by
    simp only [deepItems, List.mem_singleton] at hi
    subst hi
    exact ⟨rfl, .inl h⟩
  | m + 1, _, _, ⟨a, b, c⟩, i, hi => by
    simp only [deepItems, List.mem_cons] at hi
    rcases hi with rfl | rfl | hi
    · exact ⟨rfl, .inr a⟩
    · exact ⟨rfl, .inl b⟩
    · exact deepItems_text c i hi

theorem putText_self {τ : NodeId → Str} {i : NodeId} {t : Str} (h : τ i = t) : putText τ i t = τ := by
  funext j
  unfold putText
  split
  · next e => rw [e, h]
  · rfl

/-- Nothing happens after an `a`. -/
theorem deep_pairs : ∀ (m : Nat) {k : NodeId} {d : Nat} {τ : NodeId → Str} {b : Item} {o : Option Item}, DeepTexts τ m k →
    τ b.node = st!"a" → b.mode = .default → tidyPairs τ false o (b :: deepItems m k d) = τ
  | 0, k, d, τ, b, o, h, hb, hm => by
    have h : τ k = st!"a" := h
    have e : tidyTwo false true (decide (b.depth < d)) .default .default st!"a" st!"a" = (st!"a", st!"a") := by
      cases decide (b.depth < d) <;> decide
    simp only [deepItems, tidyPairs, hb, h, hm, List.isEmpty_nil, e, if_neg (show st!"a" ≠ [] by decide), putText_self hb,
      putText_self h]
  | m + 1, k, d, τ, b, o, ⟨h1, h2, h3⟩, hb, hm => by
    have e : tidyTwo false false (decide (b.depth < d)) .default .default st!"a" st!" " = (st!"a", st!" ") := by
      cases decide (b.depth < d) <;> decide
    have e' : tidyTwo false false (decide (d < d)) .default .default st!" " st!"a" = (st!" ", st!"a") := by
      cases decide (d < d) <;> decide
    simp only [deepItems, tidyPairs, hb, h1, h2, hm, List.isEmpty_cons, e, if_neg (show st!"a" ≠ [] by decide), putText_self hb,
      putText_self h1, if_neg (show st!" " ≠ [] by decide), deepItems_ne, e', putText_self h2]
    exact deep_pairs m h3 h2 rfl

/-- The first space goes. -/
theorem deep_group {m : Nat} {k : NodeId} {τ : NodeId → Str} (h : DeepTexts τ (m + 1) k) :
    tidyGroup .default (deepItems (m + 1) k 0) τ = putText τ k [] := by
  have hs : spaceTexts (deepItems (m + 1) k 0) τ = τ := by
    funext j
    unfold spaceTexts
    split
    · next i hi =>
      obtain ⟨h1, h2⟩ := deepItems_text h i (List.mem_of_find?_eq_some hi)
      have hj : i.node = j := by simpa using List.find?_some hi
      rw [← hj, h1]
      rcases h2 with h2 | h2 <;> rw [h2] <;> decide
    · rfl
  obtain ⟨h1, h2, h3⟩ := h
  have e' : tidyTwo true false (decide ((0 : Nat) < 0)) .default .default st!" " st!"a" = ([], st!"a") := by decide
  have hp : putText τ k [] (k + 2) = st!"a" := by
    rw [putText, if_neg (show k + 2 ≠ k from Nat.ne_of_gt (Nat.lt_add_of_pos_right (by decide))), h2]
  rw [show tidyGroup .default (deepItems (m + 1) k 0) τ = tidyPairs (spaceTexts (deepItems (m + 1) k 0) τ) true none (deepItems (m + 1) k 0) from rfl, hs]
  simp only [deepItems, tidyPairs, h1, h2, if_neg (show st!" " ≠ [] by decide), deepItems_ne, e', putText_self hp]
  refine deep_pairs m (deepTexts_congr (fun j hj => ?_) h3) hp rfl
  rw [putText, if_neg]
  exact Nat.ne_of_gt (Nat.lt_of_lt_of_le (Nat.lt_add_of_pos_right (by decide)) hj)

/-- The texts of `insideDom (deepDom m) j`, numbered from `k`. -/
def InsideTexts (τ : NodeId → Str) (m : Nat) : Nat → NodeId → Prop
  | 0, k => DeepTexts τ m k
  | j + 1, k => InsideTexts τ m j (k + 3)

theorem inside_tidy {m : Nat} {τ : NodeId → Str} : ∀ {j : Nat} {k : NodeId}, InsideTexts τ (m + 1) j k →
    (if ((insideDom (deepDom (m + 1)) j).number k).startsText then
      tidyGroup .default (((insideDom (deepDom (m + 1)) j).number k).items .default .default 0) τ
    else ((insideDom (deepDom (m + 1)) j).number k).tidy .default τ) = putText τ (k + 3 * j) []
  | 0, k, h => by
    show tidyGroup .default (((deepDom (m + 1)).number k).items .default .default 0) τ = _
    rw [deep_items]
    exact deep_group h
  | j + 1, k, h => by
    have ih := inside_tidy (j := j) (k := k + 3) h
    rw [show k + 3 * (j + 1) = k + 3 + 3 * j by rw [Nat.mul_add, Nat.add_assoc, Nat.add_comm (3 * j)], ← ih]
    rfl

/-! ## One round -/

theorem deepTexts_of {τ : NodeId → Str} : ∀ {m : Nat} {k : NodeId}, (∀ p ∈ ((deepDom m).number k).nodes, τ p.1 = p.2.text) → DeepTexts τ m k
  | 0, k, h => h (k, _) (List.mem_cons_self ..)
  | m + 1, k, h => by
    simp only [deepDom, Dom.number, Content.nodes, List.nil_append, List.append_nil, List.mem_cons, forall_eq_or_imp] at h
    exact ⟨h.1, h.2.2.1, deepTexts_of h.2.2.2.2⟩

theorem insideTexts_of {τ : NodeId → Str} {m : Nat} : ∀ {j : Nat} {k : NodeId},
    (∀ p ∈ ((insideDom (deepDom m) j).number k).nodes, τ p.1 = p.2.text) → InsideTexts τ m j k
  | 0, _, h => deepTexts_of h
  | j + 1, k, h => by
    simp only [insideDom, Dom.number, Content.nodes, List.nil_append, List.append_nil, List.mem_cons, forall_eq_or_imp] at h
    exact insideTexts_of (j := j) (k := k + 3) h.2.2.2

/-- Nothing to leave out. -/
theorem bare_stays {h : NodeId} : ∀ {D : Dom} {tag : Option ElementId} {k : NodeId}, D.Bare tag → h < k →
    ((D.number k).change fun n l => if n = h then { l with text := [] } else l).without Look.gone = D.number k
  | .nil, _, _, _, _ => rfl
  | .element e _ _ _ kids rest, _, k, ⟨_, _, _, _, h2, h3⟩, hk => by
    have h1 : h < k + 1 := Nat.lt_succ_of_lt hk
    have h4 : h < k + 1 + kids.size := Nat.lt_of_lt_of_le h1 (Nat.le_add_right _ _)
    simp [Dom.number, Content.change, Content.without, Look.gone, Nat.ne_of_gt hk, bare_stays h2 h1, bare_stays h3 h4]
  | .text t rest, _, k, ⟨h0, _, h2⟩, hk => by
    simp [Dom.number, Content.change, Content.without, Look.gone, Nat.ne_of_gt hk, bare_stays h2 (Nat.lt_succ_of_lt hk), h0]
  | .comment t rest, _, k, h2, hk => by
    have h2 : rest.Bare _ := h2
    simp [Dom.number, Content.change, Content.without, Look.gone, Nat.ne_of_gt hk, bare_stays h2 (Nat.lt_succ_of_lt hk)]

theorem inside_round {m : Nat} {h : NodeId} : ∀ {j : Nat} {k : NodeId}, h = k + 3 * j →
    ((((insideDom (deepDom (m + 1)) j).number k).change fun n l => if n = h then { l with text := [] } else l).without Look.gone).Is
      (insideDom (deepDom m) (j + 1)).toXml
  | 0, k, hk => by
    have hk : h = k := hk
    subst hk
    have h1 : (insideDom (deepDom m) 1).Bare (some .Text) := inside_bare m 1 _ (.inl rfl)
    have h2 := bare_stays (h := h) (k := h + 1) h1 (Nat.lt_succ_self h)
    have h3 := number_is (k := h + 1) h1
    rw [← h2] at h3
    have e : (((insideDom (deepDom (m + 1)) 0).number h).change fun n l => if n = h then { l with text := [] } else l).without Look.gone =
        (((insideDom (deepDom m) 1).number (h + 1)).change fun n l => if n = h then { l with text := [] } else l).without Look.gone := by
      rw [show insideDom (deepDom (m + 1)) 0 = .text st!" " (insideDom (deepDom m) 1) from rfl, Dom.number]
      simp [Content.change, Content.without, Look.gone]
    rw [e]
    exact h3
  | j + 1, k, hk => by
    have ih := inside_round (m := m) (h := h) (j := j) (k := k + 3) (by rw [hk, Nat.mul_add, Nat.add_assoc, Nat.add_comm (3 * j)])
    have hlt : k + 3 ≤ h := by
      rw [hk, Nat.mul_add, Nat.add_comm (3 * j), ← Nat.add_assoc]
      exact Nat.le_add_right _ _
    have n0 : k ≠ h := Nat.ne_of_lt (Nat.lt_of_lt_of_le (Nat.lt_add_of_pos_right (by decide)) hlt)
    have n1 : k + 1 ≠ h := Nat.ne_of_lt (Nat.lt_of_lt_of_le (Nat.add_lt_add_left (by decide) k) hlt)
    have n2 : k + 1 + 1 ≠ h := Nat.ne_of_lt (Nat.lt_of_lt_of_le (Nat.add_lt_add_left (by decide : 2 < 3) k) hlt)
    have e : insideDom (deepDom (m + 1)) (j + 1) = .comment st!"c" (.text st!"a" (.element .Tspan [] [] [] (insideDom (deepDom (m + 1)) j) .nil)) := rfl
    rw [e, show (insideDom (deepDom m) (j + 1 + 1)).toXml = .comment st!"c" (.text st!"a" (.element (some st!"http://www.w3.org/2000/svg")
      (elementName .Tspan) [] (insideDom (deepDom m) (j + 1)).toXml .nil)) from rfl]
    simp only [Dom.number, Content.change, Content.without, Look.gone, if_neg n0, if_neg n1, if_neg n2]
    exact ⟨rfl, rfl, rfl, rfl, rfl, rfl, rfl, rfl, rfl, ⟨_, rfl, elementName_ok _⟩, rfl, rfl, rfl, rfl, ih, trivial⟩

theorem long_round {L : Lib} (hL : L.sheet [] = []) (j m : Nat) : (parsedDoc L (longXml j (m + 1))).Is (longXml (j + 1) m) := by
  have hb := long_bare j (m + 1)
  have ht : ((longDom j (m + 1)).number 1).tidy .default (fun i => (((longDom j (m + 1)).number 1).lookAt i).text) =
      putText (fun i => (((longDom j (m + 1)).number 1).lookAt i).text) (3 + 3 * j) [] := by
    have h1 : InsideTexts (fun i => (((longDom j (m + 1)).number 1).lookAt i).text) (m + 1) j 3 := by
      refine insideTexts_of fun p hp => ?_
      rw [number_lookAt]
      simp only [longDom, Dom.number, Content.nodes, List.mem_cons, List.mem_append]
      exact .inr (.inl (.inr (.inl hp)))
    have h2 := inside_tidy h1
    rw [← h2]
    rfl
  have h := bare_parsed hL hb ht
  have e : ((longDom j (m + 1)).number 1).change (fun n l => { l with text := putText (fun i => (((longDom j (m + 1)).number 1).lookAt i).text) (3 + 3 * j) [] n }) =
      ((longDom j (m + 1)).number 1).change (fun n l => if n = 3 + 3 * j then { l with text := [] } else l) := by
    refine change_congr fun p hp => ?_
    simp only [putText]
    split
    · rfl
    · rw [number_lookAt hp]
  rw [longXml, h, e]
  have n1 : (1 : NodeId) ≠ 3 + 3 * j := Nat.ne_of_lt (Nat.lt_of_lt_of_le (by decide : 1 < 3) (Nat.le_add_right _ _))
  have n2 : (2 : NodeId) ≠ 3 + 3 * j := Nat.ne_of_lt (Nat.lt_of_lt_of_le (by decide : 2 < 3) (Nat.le_add_right _ _))
  have ih := inside_round (m := m) (j := j) (k := 3) (h := 3 + 3 * j) rfl
  rw [show (longDom j (m + 1)) = .element .Svg [] [] [] (.element .Text [] [] [] (insideDom (deepDom (m + 1)) j) .nil) .nil from rfl]
  have n2' : (1 + 1 : NodeId) ≠ 3 + 3 * j := n2
  simp only [Dom.number, Content.change, Content.without, Look.gone, if_neg n1, if_neg n2']
  exact ⟨rfl, ⟨_, rfl, elementName_ok _⟩, rfl, rfl, rfl, rfl, ⟨rfl, ⟨_, rfl, elementName_ok _⟩, rfl, rfl, rfl, rfl, ih, trivial⟩, trivial⟩

theorem long_parsed {L : Lib} (hL : L.sheet [] = []) (debug : Bool) (j m : Nat) : ∃ t, parseSvg L debug (longXml j m) = .ok t := by
  rcases parse_cases L debug (longXml j m) with ⟨_, _, _, _, _, _, _, t, _, _, h⟩ | ⟨h, _⟩
  · exact ⟨t, h⟩
  · rw [longXml, bare_svgDom hL (long_bare j m)] at h
    exact absurd rfl h

/-- Saving `longXml j (m + 1)` gives `longXml (j + 1) m`. -/
theorem long_saved {L : Lib} (hL : L.sheet [] = []) {debug : Bool} {j m : Nat} {t : St} (e : parseSvg L debug (longXml j (m + 1)) = .ok t)
    (W : ValueWriter) (q : Char) : ∃ evs, t.writeDom W = .ok evs ∧ readMarkup q evs = some (longXml (j + 1) m) :=
  bare_written hL e rfl rfl (long_round hL j m) ⟨⟨inside_fine m (j + 1), trivial⟩, trivial⟩ W q

end Svgdom
