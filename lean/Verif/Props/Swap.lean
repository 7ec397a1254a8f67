import Verif.Props.Edit

/-!
# C111: exchanging the attributes of two nodes
-/

set_option autoImplicit false

namespace Svgdom

/-- C111, effect: the two nodes have exchanged their lists, nothing else has changed, and a second exchange takes it back. A node cannot
exchange its attributes with itself. -/
theorem C111_effect (s : St) (i j : NodeId) :
    (i = j → s.swapAttributes i j = .error (.panic .borrowed)) ∧
    (i ≠ j → ∃ t, s.swapAttributes i j = .ok t ∧ t.attributes i = s.attributes j ∧ t.attributes j = s.attributes i ∧
      (∀ k, k ≠ i → k ≠ j → t.data k = s.data k) ∧ (∀ k, t.linkedNodes k = s.linkedNodes k) ∧ SameElse s t ∧
      t.swapAttributes i j = .ok s) := by
  refine ⟨fun h => by simp [St.swapAttributes, h], fun h => ?_⟩
  have e : s.swapAttributes i j = .ok ((s.editAttributes i (s.attributes j)).editAttributes j (s.attributes i)) := by
    simp [St.swapAttributes, h]
  generalize ht : (s.editAttributes i (s.attributes j)).editAttributes j (s.attributes i) = t at e
  have hd := swapAttributes_data e
  have hi : t.attributes i = s.attributes j := by simp only [St.attributes, hd, if_true]
  have hj : t.attributes j = s.attributes i := by simp only [St.attributes, hd, if_true, if_neg (Ne.symm h)]
  refine ⟨t, e, hi, hj, fun k h1 h2 => ?_, fun k => ?_, ?_, ?_⟩
  · rw [hd, if_neg h1, if_neg h2]; rfl
  · simp only [St.linkedNodes, hd]
  · subst ht
    constructor <;> first | rfl | (intro k; simp only [St.idOf, St.tagName, St.text, St.nodeType, hd])
  · rw [St.swapAttributes, if_neg h, hi, hj]
    subst ht
    congr 1
    refine St.eq_of_data _ (fun k => ?_) rfl rfl rfl rfl rfl rfl
    simp only [St.editAttributes, St.setD_data]
    by_cases h1 : k = i
    · subst h1; simp [h, St.attributes]
    · by_cases h2 : k = j
      · subst h2; simp [h1, St.attributes]
      · simp [h1, h2]

theorem removeAttributes_ok {n : NodeId} : ∀ {l : List AName} {s : St}, LinkInv s → s.live n = true → ∃ u, s.removeAttributes n l = .ok u
  | [], s, _, _ => ⟨s, rfl⟩
  | a :: l, s, h, hn => by
    rw [St.removeAttributes, St.removeAttribute_ok h hn]
    simp only [bind, Except.bind]
    exact removeAttributes_ok (h.delAttr hn a) hn

/-- If a node refers to another one more often than that one knows, then removing these attributes panics. -/
theorem removal_panics {n k : NodeId} : ∀ (d : Nat) {s : St}, (s.linkedNodes k).count n = d → NamesNodup (s.attributes n) →
    d < refs (s.attributes n) k → ∃ l e, (∀ a ∈ l, ∃ b ∈ s.attributes n, b.name = a) ∧ s.removeAttributes n l = .error e := by
  intro d
  induction d with
  | zero =>
    intro s hc hn hr
    obtain ⟨a, ha, hk⟩ := refs_pos.1 hr
    have hg := attrsGet_mem hn ha
    have hh : s.hasAttribute n a.name = true := attrsContains_iff.2 ⟨a, ha, rfl⟩
    have hf : (s.linkedNodes k).findIdx? (fun m => decide (m = n)) = none := findIdx_eraseIdx.2.2 (List.count_eq_zero.1 hc)
    refine ⟨[a.name], .panic .unwrap, fun b hb => ⟨a, ha, (List.mem_singleton.1 hb).symm⟩, ?_⟩
    have : s.removeAttribute n a.name = .error (.panic .unwrap) := by
      simp [St.removeAttribute, hh, attrsGetValue, hg, St.unlinkValue, hk, hf, bind, Except.bind]
    simp [St.removeAttributes, this, bind, Except.bind]
  | succ d ih =>
    intro s hc hn hr
    obtain ⟨a, ha, hk⟩ := refs_pos.1 (Nat.zero_lt_of_lt hr)
    have hg := attrsGet_mem hn ha
    have hh : s.hasAttribute n a.name = true := attrsContains_iff.2 ⟨a, ha, rfl⟩
    cases e : s.removeAttribute n a.name with
    | error err => exact ⟨[a.name], err, fun b hb => ⟨a, ha, (List.mem_singleton.1 hb).symm⟩, by simp [St.removeAttributes, e, bind, Except.bind]⟩
    | ok t =>
      have hm : n ∈ s.linkedNodes k := List.count_pos_iff.1 (by omega)
      obtain ⟨x, hx⟩ : ∃ x, (s.linkedNodes k).findIdx? (fun m => decide (m = n)) = some x := by
        cases hf : (s.linkedNodes k).findIdx? (fun m => decide (m = n)) with
        | none => exact absurd hm (findIdx_eraseIdx.2.1 hf)
        | some x => exact ⟨x, rfl⟩
      have hkn : k ≠ n := by
        rintro rfl
        simp [St.removeAttribute, hh, attrsGetValue, hg, St.unlinkValue, hk, hx, bind, Except.bind, borrowMut] at e
      simp only [St.removeAttribute, hh, Bool.not_true, Bool.false_eq_true, if_false, attrsGetValue, hg, Option.map_some, St.unlinkValue, hk,
        hx, borrowMut, List.mem_singleton, hkn, bind, Except.bind, pure, Except.pure, Except.ok.injEq] at e
      have h1 : t.attributes n = without (s.attributes n) a.name := by
        rw [← attrsRemove_eq hn, ← e]
        simp [St.attributes, Ne.symm hkn]
      have h2 : t.linkedNodes k = (s.linkedNodes k).erase n := by
        rw [← findIdx_eraseIdx.1 x hx, ← e]
        simp [St.linkedNodes, hkn]
      have hw := refs_without (name := a.name) hn k
      rw [hg, Option.bind_some, if_pos hk, ← h1] at hw
      obtain ⟨l, err, hl, he⟩ := ih (s := t) (by rw [h2, List.count_erase_self, hc]; rfl) (by rw [h1]; exact without_nodup hn) (by omega)
      refine ⟨a.name :: l, err, fun b hb => ?_, ?_⟩
      · rcases List.mem_cons.1 hb with rfl | hb
        · exact ⟨a, ha, rfl⟩
        · obtain ⟨c, hc, hcb⟩ := hl b hb
          rw [h1] at hc
          exact ⟨c, (mem_without.1 hc).1, hcb⟩
      · have : s.removeAttribute n a.name = .ok t := by
          simp [St.removeAttribute, hh, attrsGetValue, hg, St.unlinkValue, hk, hx, bind, Except.bind, borrowMut, hkn, e, pure, Except.pure]
        simp only [St.removeAttributes, this, bind, Except.bind]
        exact he

/-- C111: after the exchange attributes of the two nodes can be removed without a panic, in any order, exactly if both had the same
references, each as often. -/
theorem C111_iff {s t : St} (h : Reachable s) {i j : NodeId} (hi : s.live i = true) (hj : s.live j = true)
    (e : s.swapAttributes i j = .ok t) :
    (∀ n, n = i ∨ n = j → ∀ names, ∃ u, t.removeAttributes n names = .ok u) ↔
      ∀ k, refCount (s.attributes i) k = refCount (s.attributes j) k := by
  have hk := h.inv.link
  obtain ⟨hij, ht⟩ := swapAttributes_ok e
  obtain ⟨_, e', hai, haj, _, hln, hse, _⟩ := (C111_effect s i j).2 hij
  rw [e] at e'
  cases e'
  simp only [refCount_eq]
  constructor
  · intro hp k
    have bad : ∀ {n m}, (n = i ∨ n = j) → s.live n = true → s.live m = true → t.attributes n = s.attributes m →
        ¬ refs (s.attributes n) k < refs (s.attributes m) k := by
      intro n m hn hln' hlm ha hlt
      obtain ⟨b, hb, hbk⟩ := refs_pos.1 (Nat.zero_lt_of_lt hlt)
      have hc : (t.linkedNodes k).count n = refs (s.attributes n) k := by
        rw [hln]; exact hk.count n k hln' (hk.targets m hlm b hb k hbk)
      obtain ⟨l, err, _, hx⟩ := removal_panics _ hc (by rw [ha]; exact hk.names m hlm) (by rw [ha]; exact hlt)
      obtain ⟨u, hu⟩ := hp n hn l
      rw [hx] at hu
      cases hu
    have h1 := bad (.inl rfl) hi hj hai
    have h2 := bad (.inr rfl) hj hi haj
    omega
  · intro hs n hn names
    have hr : ∀ a b, refs (t.attributes a) b = refs (s.attributes a) b := by
      intro a b
      have : t.attributes a = s.attributes (if a = i then j else if a = j then i else a) := by
        simp only [St.attributes, swapAttributes_data e]
      rw [this]
      by_cases h1 : a = i
      · subst h1; rw [if_pos rfl, hs]
      · by_cases h2 : a = j
        · subst h2; rw [if_neg h1, if_pos rfl, hs]
        · rw [if_neg h1, if_neg h2]
    have hL : LinkInv t := by
      refine hk.similar hse.live (fun a ha => ?_) hr (fun a => by rw [hln])
      have : t.attributes a = s.attributes (if a = i then j else if a = j then i else a) := by
        simp only [St.attributes, swapAttributes_data e]
      rw [this]
      refine hk.names _ ?_
      split
      · exact hj
      · split
        · exact hi
        · exact ha
    refine removeAttributes_ok hL ?_
    rw [hse.live]
    rcases hn with rfl | rfl
    · exact hi
    · exact hj

/-- C111 for nodes of the same type with the same references, and for attributes that are only brought into another order: the result is
a state that all theorems about reachable states apply to; in particular names are unique, `linked_nodes` are right, and no attribute is
missed by a removal. -/
theorem C111_partial {s : St} (h : Reachable s) {i : NodeId} (hi : s.live i = true) :
    (∀ j t, s.live j = true → s.nodeType i = s.nodeType j → (∀ k, refCount (s.attributes i) k = refCount (s.attributes j) k) →
      s.swapAttributes i j = .ok t → Reachable t) ∧
    ∀ l : List Attribute, l.Perm (s.attributes i) → Reachable (s.editAttributes i l) := by
  refine ⟨fun j t hj ht hr e => .edit h (.swap i j hi hj ht (sameLinks_iff.2 fun k => ?_) e), fun l hl => .edit h (.order i l hi hl)⟩
  rw [← refCount_eq, ← refCount_eq]
  exact hr k

/-- C111 is false in general. Node 3 is a rectangle whose `fill` refers to the gradient 2; node 4 has no attributes. After the exchange
removing `fill` from node 4 panics; and after the removal of the gradient node 4 still refers to it. -/
theorem C111_refuted : ∃ s t u, Reachable s ∧ s.live 3 = true ∧ s.live 4 = true ∧ s.nodeType 3 = s.nodeType 4 ∧
    s.swapAttributes 3 4 = .ok t ∧ t.removeAttributes 4 [.id .Fill] = .error (.panic .unwrap) ∧
    t.removeNode 2 = .ok u ∧ u.attributes 4 = [⟨.id .Fill, .paint 2 none⟩] := by
  obtain ⟨s, h, e⟩ := exists_of_holds
    (ops := [.createElement (.id .Svg), .createElement (.id .LinearGradient), .createElement (.id .Rect), .createElement (.id .Rect),
      .setId 2 ['g'], .append 0 1, .append 1 2, .append 1 3, .append 1 4, .setAttribute 3 ⟨.id .Fill, .link 2⟩])
    (p := fun s => s.live 3 && s.live 4 && decide (s.nodeType 3 = s.nodeType 4) && (match s.swapAttributes 3 4 with
      | .ok t => isUnwrapPanic (t.removeAttributes 4 [.id .Fill]) && (match t.removeNode 2 with
        | .ok u => decide (u.attributes 4 = [⟨.id .Fill, .paint 2 none⟩])
        | .error _ => false)
      | .error _ => false)) (by decide +kernel)
  simp only [Bool.and_eq_true, decide_eq_true_eq] at e
  obtain ⟨⟨⟨h3, h4⟩, ht⟩, e⟩ := e
  split at e
  · next t hs =>
    rw [Bool.and_eq_true] at e
    obtain ⟨e1, e2⟩ := e
    split at e2
    · next u hu => exact ⟨s, t, u, h, h3, h4, ht, hs, isUnwrapPanic_iff e1, hu, of_decide_eq_true e2⟩
    · cases e2
  · cases e

/-! ## Examples -/

/-- Two rectangles that both refer to the gradient 2, one of them with `x`: the assumptions of `C111_partial` and the right side of
`C111_iff` hold, and the exchange changes something. -/
example : ∃ s t, Reachable s ∧ s.live 3 = true ∧ s.live 4 = true ∧ s.nodeType 3 = s.nodeType 4 ∧
    (∀ k, refCount (s.attributes 3) k = refCount (s.attributes 4) k) ∧ s.swapAttributes 3 4 = .ok t ∧ Reachable t ∧
    s.attributes 3 ≠ s.attributes 4 ∧ refCount (s.attributes 3) 2 = 1 ∧
    (s.attributes 4).reverse ≠ s.attributes 4 ∧ Reachable (s.editAttributes 4 (s.attributes 4).reverse) := by
  obtain ⟨s, h, e⟩ := exists_of_holds
    (ops := [.createElement (.id .Svg), .createElement (.id .LinearGradient), .createElement (.id .Rect), .createElement (.id .Rect),
      .setId 2 ['g'], .setAttribute 3 ⟨.id .Fill, .link 2⟩, .setAttribute 4 ⟨.id .X, .number (.fin 1)⟩,
      .setAttribute 4 ⟨.id .Stroke, .link 2⟩])
    (p := fun s => s.live 3 && s.live 4 && decide (s.nodeType 3 = s.nodeType 4) && decide (s.attributes 3 = [⟨.id .Fill, .paint 2 none⟩]) &&
      decide (s.attributes 4 = [⟨.id .X, .number (.fin 1)⟩, ⟨.id .Stroke, .paint 2 none⟩])) (by decide +kernel)
  simp only [Bool.and_eq_true, decide_eq_true_eq] at e
  obtain ⟨⟨⟨⟨h3, h4⟩, ht⟩, a3⟩, a4⟩ := e
  obtain ⟨t, et, _⟩ := (C111_effect s 3 4).2 (by decide)
  have hr : ∀ k, refCount (s.attributes 3) k = refCount (s.attributes 4) k := by
    intro k
    rw [a3, a4]
    simp [refCount_eq, refs, List.countP_cons, AttributeValue.linkNode]
  refine ⟨s, t, h, h3, h4, ht, hr, et, (C111_partial h h3).1 4 t h4 ht hr et, ?_, ?_, ?_, (C111_partial h h4).2 _ (List.reverse_perm _)⟩
  · rw [a3, a4]; simp
  · rw [a3, refCount_eq]; simp [refs, List.countP_cons, AttributeValue.linkNode]
  · rw [a4]; simp

end Svgdom
