import Verif.Proof.Nesting
import Verif.Props.Memory

/-!
# C98: drops inside of drops
-/

set_option autoImplicit false

namespace Svgdom

/-! ## The claim is false in general -/

/-- The nodes `k + 1`, …, `n` are removed nodes; each is the only child of the one before. -/
structure IsChain (P : Picture) (k n : Nat) : Prop where
  live : ∀ j, P.live j = true ↔ j = 0 ∨ (k < j ∧ j ≤ n)
  next : P.next = n + 1
  root : P.root = 0
  stored : ∀ j, P.live j = true → (P.stored j = true ↔ j = 0)
  attrs : ∀ j, P.live j = true → (P.look j).attrs = []
  sibs : ∀ j, P.live j = true → P.forest.sibs j = [j]
  kids : ∀ j, P.live j = true → P.forest.kids j = if 1 ≤ j ∧ j < n then [j + 1] else []

/-- A removed element. -/
theorem IsChain.first (debug : Bool) : ∃ Q, (Picture.init debug).run [.createElement (.id .G), .removeNode 1] = .state Q ∧ IsChain Q 0 1 := by
  have key : ∀ j : Nat, j = 1 ∨ j = 0 ↔ j = 0 ∨ (0 < j ∧ j ≤ 1) := by omega
  have hl : ∀ j, (((Picture.init debug).add ⟨.element, .id .G, [], [], []⟩).remove [1]).live j = true ↔ j = 1 ∨ j = 0 := fun j => by
    simp only [Picture.remove, Picture.add, Bool.or_eq_true]
    exact or_congr ⟨of_decide_eq_true, decide_eq_true⟩ ⟨of_decide_eq_true, decide_eq_true⟩
  refine ⟨((Picture.init debug).add ⟨.element, .id .G, [], [], []⟩).remove [1], rfl, fun j => (hl j).trans (key j), rfl, rfl, ?_, ?_, ?_, ?_⟩
  all_goals
    intro j hj
    rcases (hl j).1 hj with rfl | rfl <;> cases debug <;> decide

/-- One more element is made, removed, and appended to the end of the chain. -/
theorem IsChain.longer {P : Picture} {n : Nat} (h : IsChain P 0 (n + 1)) :
    ∃ Q, P.run [.createElement (.id .G), .removeNode (n + 2), .append (n + 1) (n + 2)] = .state Q ∧ IsChain Q 0 (n + 2) := by
  have e1 : P.step (.createElement (.id .G)) = .state (P.add ⟨.element, .id .G, [], [], []⟩) := rfl
  have hn : P.next = n + 2 := h.next
  generalize hP1 : P.add ⟨.element, .id .G, [], [], []⟩ = P1 at e1
  have l1 : ∀ j, P1.live j = true ↔ j = n + 2 ∨ P.live j = true := fun j => by
    rw [← hP1]; simp [Picture.add, hn]
  have f1 : P1.forest = P.forest.add (n + 2) := by rw [← hP1]; simp [Picture.add, hn]
  have hsub : P1.subtree (n + 2) = [n + 2] := by
    have : P1.next = n + 2 + 1 := by rw [← hP1]; simp [Picture.add, hn]
    simp [Picture.subtree, this, Forest.subtree, f1, Forest.add]
  have e2 : P1.step (.removeNode (n + 2)) = .state (P1.remove [n + 2]) := by
    have : P1.live (n + 2) = true := (l1 _).2 (.inl rfl)
    simp [Picture.step, Call.mentions, this, Picture.act, hsub]
  generalize hP2 : P1.remove [n + 2] = P2 at e2
  have l2 : ∀ j, P2.live j = true ↔ j = n + 2 ∨ P.live j = true := fun j => by rw [← hP2]; exact l1 j
  have hlt : ∀ j, P.live j = true → j ≠ n + 2 := fun j hj e => by
    have key : ∀ n : Nat, ¬ (n + 2 = 0 ∨ (0 < n + 2 ∧ n + 2 ≤ n + 1)) := by omega
    subst e
    exact key n ((h.live _).1 hj)
  have s2 : ∀ j, P2.live j = true → P2.forest.sibs j = [j] := fun j hj => by
    rw [← hP2]
    simp only [Picture.remove, Forest.prune, f1, Forest.add, List.mem_singleton]
    rcases (l2 j).1 hj with rfl | hj'
    · simp
    · simp [hlt j hj', h.sibs j hj']
  have k2 : ∀ j, P2.live j = true → P2.forest.kids j = if 1 ≤ j ∧ j < n + 1 then [j + 1] else [] := fun j hj => by
    rw [← hP2]
    simp only [Picture.remove, Forest.prune, f1, Forest.add, List.mem_singleton]
    rcases (l2 j).1 hj with rfl | hj'
    · simp
    · simp only [hlt j hj', if_false, h.kids j hj']
      split
      · next hjn =>
        have key : ∀ j n : Nat, j < n + 1 → ¬ j = n + 1 := by omega
        simpa using key j n hjn.2
      · rfl
  have p2 : P2.forest.par (n + 2) = none := by rw [← hP2]; simp [Picture.remove, Forest.prune]
  have hl1 : P2.live (n + 1) = true := (l2 _).2 (.inr ((h.live _).2 (.inr ⟨Nat.succ_pos n, Nat.le_refl _⟩)))
  have hl2 : P2.live (n + 2) = true := (l2 _).2 (.inl rfl)
  have hne : (n + 1 : NodeId) ≠ n + 2 := by
    have key : ∀ n : Nat, n + 1 ≠ n + 2 := by omega
    exact key n
  have hk1 : P2.forest.kids (n + 1) = [] := by rw [k2 _ hl1]; simp
  have hk2 : P2.forest.kids (n + 2) = [] := by rw [k2 _ hl2]; simp
  have nx2 : P2.next = n + 3 := by rw [← hP2, ← hP1]; simp [Picture.remove, Picture.add, hn]
  have e3 : P2.step (.append (n + 1) (n + 2)) = .state { P2 with forest := P2.forest.append (n + 1) (n + 2) } := by
    have h1 : ¬ (n + 1 : NodeId) ∈ P2.subtree (n + 2) := by
      have : P2.subtree (n + 2) = [n + 2] := by simp [Picture.subtree, nx2, Forest.subtree, hk2]
      rw [this, List.mem_singleton]; exact hne
    have h2 : P2.touches (n + 2) (n + 1) = false := by
      simp [Picture.touches, s2 _ hl2, after, before, p2]
    simp only [Picture.step, Call.mentions, List.all_cons, hl1, hl2, List.all_nil, Bool.and_self, if_true, Picture.act, Picture.move, if_neg hne,
      if_neg h1, h2]
    rfl
  refine ⟨{ P2 with forest := P2.forest.append (n + 1) (n + 2) }, by simp only [Picture.run, e1, e2, e3], ?_⟩
  refine ⟨fun j => ?_, nx2, ?_, fun j hj => ?_, fun j hj => ?_, fun j hj => ?_, fun j hj => ?_⟩
  · have key : ∀ j n : Nat, j = n + 2 ∨ (j = 0 ∨ (0 < j ∧ j ≤ n + 1)) ↔ j = 0 ∨ (0 < j ∧ j ≤ n + 2) := by omega
    rw [← key j n, ← h.live j]
    exact l2 j
  · rw [← hP2, ← hP1]; exact h.root
  · rw [← hP2, ← hP1]
    rcases (l2 j).1 hj with rfl | hj'
    · simp [Picture.remove]
    · have := h.stored j hj'
      simp [Picture.remove, Picture.add, hn, hlt j hj', this]
  · rw [← hP2, ← hP1]
    rcases (l2 j).1 hj with rfl | hj'
    · simp [Picture.remove, Picture.add, hn]
    · simp [Picture.remove, Picture.add, hn, hlt j hj', h.attrs j hj']
  · simp only [Forest.append, Forest.attach, Forest.detach, hk1, List.erase_nil, List.nil_append, List.mem_singleton]
    split
    · next e => rw [e]
    · next e => rw [s2 j hj]; simp [e]
  · simp only [Forest.append, Forest.attach, Forest.detach, hk1, List.erase_nil, List.nil_append, Option.some.injEq]
    have key : ∀ j n : Nat, n + 1 ≠ j → (1 ≤ j ∧ j < n + 1 ↔ 1 ≤ j ∧ j < n + 2) := by omega
    have key2 : ∀ j n : Nat, j < n + 1 → ¬ j = n + 1 := by omega
    split
    · next e => subst e; simp
    · next e =>
      rw [k2 j hj]
      simp only [key j n e]
      split
      · next hh =>
        have := key2 j n (((key j n e).2 hh).2)
        rw [List.erase_of_not_mem (by simpa using Ne.symm this)]
      · rfl

theorem chain_exists (debug : Bool) (n : Nat) : ∃ s P, Reachable s ∧ s.Acyclic ∧ Abs s P ∧ IsChain P 0 (n + 1) := by
  induction n with
  | zero =>
    obtain ⟨Q, e, hQ⟩ := IsChain.first debug
    have := C93_run debug [.createElement (.id .G), .removeNode 1]
    rw [e] at this
    obtain ⟨t, _, h1, h2, h3⟩ := this
    exact ⟨t, Q, h1, h2, h3, hQ⟩
  | succ n ih =>
    obtain ⟨s, P, h1, h2, h3, h4⟩ := ih
    obtain ⟨Q, e, hQ⟩ := h4.longer
    have := C93_history h1 h2 h3 [.createElement (.id .G), .removeNode (n + 2), .append (n + 1) (n + 2)]
    rw [e] at this
    obtain ⟨t, _, h1, h2, h3⟩ := this
    exact ⟨t, Q, h1, h2, h3, hQ⟩

/-- Nothing refers to the first node of a chain. -/
theorem IsChain.head {s : St} {P : Picture} {k n : Nat} (hr : Reachable s) (hP : Abs s P) (h : IsChain P k n) (hk : k < n) :
    s.live (k + 1) = true ∧ ¬ s.strongRef (k + 1) := by
  have hl : P.live (k + 1) = true := (h.live _).2 (.inr ⟨Nat.lt_succ_self k, hk⟩)
  have hl' : s.live (k + 1) = true := by rw [← hP.live]; exact hl
  refine ⟨hl', ?_⟩
  rw [← hP.held_iff hr hl']
  have h0 : ¬ (k + 1 : NodeId) = 0 := Nat.succ_ne_zero k
  simp only [Picture.held, h.root, h0, decide_false, Bool.false_or, Bool.or_eq_true, (h.stored _ hl), List.any_eq_true, Bool.and_eq_true,
    decide_eq_true_eq, false_or, not_exists, not_and, not_or]
  intro j _ hj
  refine ⟨⟨⟨?_, ?_⟩, ?_⟩, ?_⟩
  · rw [h.kids j hj]
    split
    · next hh =>
      simp only [List.head?_cons, Option.some.injEq]
      have key : ∀ j k n : Nat, (j = 0 ∨ (k < j ∧ j ≤ n)) → 1 ≤ j → ¬ j + 1 = k + 1 := by omega
      exact key j k n ((h.live j).1 hj) hh.1
    · simp
  · rw [h.sibs j hj]; simp [after]
  · rw [h.attrs _ hl]; simp
  · rw [h.attrs j hj]; simp

/-- Dropping the first node of a chain drops all others, one inside of the other. -/
theorem IsChain.nested {n : Nat} : ∀ {d k : Nat} {s : St} {P : Picture}, Reachable s → Abs s P → IsChain P k n → k + d + 1 = n →
    Nested St.strongRef s (k + 1) (d + 1) := by
  intro d
  induction d with
  | zero =>
    intro k s P hr hP h e
    obtain ⟨h1, h2⟩ := h.head hr hP (by omega)
    exact .last h1 h2
  | succ d ih =>
    intro k s P hr hP h e
    obtain ⟨h1, h2⟩ := h.head hr hP (by omega)
    refine .more (j := k + 1 + 1) h1 h2 ⟨h1, .inl ?_⟩ ?_
    · have hl : P.live (k + 1) = true := by rw [hP.live]; exact h1
      have hc : 1 ≤ k + 1 ∧ k + 1 < n := by omega
      rw [hP.forest.shows.first _ h1, h.kids _ hl, if_pos hc]; rfl
    · refine ih (hr.free _ h1 h2) (hP.free hr h1 h2) ?_ (by omega)
      have hsub : ∀ j, (P.live j && decide (j ≠ k + 1)) = true → P.live j = true ∧ j ≠ k + 1 := fun j hj => by
        simpa using hj
      refine ⟨fun j => ?_, h.next, h.root, fun j hj => h.stored j (hsub j hj).1, fun j hj => h.attrs j (hsub j hj).1, fun j hj => ?_,
        fun j hj => h.kids j (hsub j hj).1⟩
      · simp only [Bool.and_eq_true, h.live j, decide_eq_true_eq]
        have key : ∀ j k n : Nat, (j = 0 ∨ (k < j ∧ j ≤ n)) ∧ j ≠ k + 1 ↔ j = 0 ∨ (k + 1 < j ∧ j ≤ n) := by omega
        exact key j k n
      · simp only [Forest.drop, h.sibs j (hsub j hj).1]
        simp [(hsub j hj).2]

/-- C98 is false in general: for every bound there is a history of calls after which the drop of one handle leads to more drops inside of
each other. Removed nodes were put together again. -/
theorem C98_refuted (debug : Bool) (n : Nat) : ∃ s, Reachable s ∧ s.Acyclic ∧ Nested St.strongRef s 1 (n + 1) := by
  obtain ⟨s, P, h1, h2, h3, h4⟩ := chain_exists debug n
  exact ⟨s, h1, h2, IsChain.nested (k := 0) h1 h3 h4 (by omega)⟩

/-! ## Tidy histories -/

/-- C98: calls that only move stored nodes, and only make references to stored nodes by attributes with SVG names, keep the document tidy. -/
theorem C98_history {s : St} {P : Picture} (h : Reachable s) (ha : s.Acyclic) (hP : Abs s P) (hT : P.Tidy) (cs : List Call)
    (ht : P.tidyRun cs = true) {Q : Picture} (e : P.run cs = .state Q) :
    ∃ t, s.calls cs = .ok t ∧ Reachable t ∧ t.Acyclic ∧ Abs t Q ∧ Q.Tidy := by
  induction cs generalizing s P with
  | nil => cases e; exact ⟨s, rfl, h, ha, hP, hT⟩
  | cons c cs ih =>
    simp only [Picture.run] at e
    simp only [Picture.tidyRun, Bool.and_eq_true] at ht
    have hm := C93_step h ha hP c
    cases hc : P.step c with
    | panics => rw [hc] at e; simp at e
    | misuse => rw [hc] at e; simp at e
    | state P' =>
      rw [hc] at e hm
      obtain ⟨t, e1, h1, h2, h3⟩ := hm
      simp only [St.calls, e1, bind, Except.bind]
      have := ht.2
      rw [hc] at this
      exact ih h1 h2 h3 (hT.step h ha hP ht.1 hc) this e

/-- C98 after tidy histories: the drop of a node never leads to another drop. The node holds nothing at that moment. What is missing for
the full claim: histories in which removed nodes are put together or referred to again (`C98_refuted`). -/
theorem C98_partial {s : St} {P : Picture} (h : Reachable s) (hP : Abs s P) (hT : P.Tidy) {i : NodeId} (hn : ¬ s.strongRef i) :
    (∀ j, ¬ s.Holds i j) ∧ ∀ n, Nested St.strongRef s i n → n = 1 := by
  refine ⟨fun j => hT.holds h hP hn, fun n hN => ?_⟩
  cases hN with
  | last => rfl
  | more _ _ hh _ => exact absurd hh (hT.holds h hP hn)

/-- C98: a new document, and a parsed one, are tidy. -/
theorem C98_new (debug : Bool) : (Picture.init debug).Tidy where
  kids := fun _ _ _ => rfl
  sibs := fun _ _ _ => rfl
  par := fun _ _ _ => rfl
  links := fun i _ a ha => by simp [Picture.init] at ha

theorem C98_parsed {L : Lib} {debug : Bool} {x : Xml} {s : St} (e : parseSvg L debug x = .ok s) {P : Picture} (hP : Abs s P) : P.Tidy := by
  have h : Reachable s := (C44_reachable e).1.reachable
  obtain ⟨F, hF, h1, h2⟩ := parsed_tidy e
  have key : ∀ i, P.live i = true → P.stored i = false → P.forest.par i = none ∧ P.forest.sibs i = [i] ∧ P.forest.kids i = [] := by
    intro i hi hs
    rw [hP.live] at hi
    have hs' : i ∉ s.slab.nodes := fun hm => by
      rw [hP.stored i hi, (C24_detached h hi).2 hm] at hs
      simp at hs
    obtain ⟨k1, k2, k3⟩ := h1 i hi hs'
    obtain ⟨u1, u2, u3⟩ := C01_forest_unique hF hP.forest hi
    rw [← u1, ← u2, ← u3]
    exact ⟨k1, k2, k3⟩
  refine ⟨fun i hi hs => (key i hi hs).2.2, fun i hi hs => (key i hi hs).2.1, fun i hi hs => (key i hi hs).1, fun i hi a ha n hn => ?_⟩
  rw [hP.live] at hi
  rw [hP.look i hi] at ha
  rw [names_eq] at hn
  obtain ⟨k1, k2⟩ := h2 i hi a ha n hn
  refine ⟨k1, ?_⟩
  have hnl := h.inv.link.targets i hi a ha n hn
  rw [hP.stored n hnl, (C24_detached h hnl).2 k2]
  rfl

/-- C98: when the document is dropped, in a tidy state, there are at most two drops inside of each other: a node outside of the document
may be the last one that refers to a node of the document. Nothing stays behind. -/
theorem C98_drop {s : St} {P : Picture} (h : Reachable s) (ha : s.Acyclic) (hP : Abs s P) (hT : P.Tidy) :
    ∃ t, s.dropDocument = .ok t ∧ (∀ i n, Nested St.nodeRef t i n → n ≤ 2) ∧ ∃ u, Freed t u ∧ ∀ j, u.live j = false := by
  have hst : ∀ i, s.live i = true → i ∉ s.slab.nodes → P.stored i = false := fun i hi hs => by
    rw [hP.stored i hi]
    by_contra hc
    exact hs ((C24_detached h hi).1 (by simpa using hc))
  obtain ⟨t, e, hb, hlv, hh⟩ := drop_holds h ha hP.forest
    (fun n hn hs => by
      have hn' : P.live n = true := by rw [hP.live]; exact hn
      exact ⟨hT.par n hn' (hst n hn hs), hT.sibs n hn' (hst n hn hs), hT.kids n hn' (hst n hn hs)⟩)
    (fun i hi a ham n hn => by
      have hnl := h.inv.link.targets i hi a ham n hn
      have := (hT.links i (by rw [hP.live]; exact hi) a (by rw [hP.look i hi]; exact ham) n (by rw [names_eq]; exact hn)).2
      rw [hP.stored n hnl] at this
      exact (C24_detached h hnl).1 (by simpa using this))
  refine ⟨t, e, fun i n hN => ?_, ?_⟩
  · cases hN with
    | last => omega
    | more _ _ h1 hN =>
      cases hN with
      | last => omega
      | more _ _ h2 _ =>
        have : t.Holds _ _ := ⟨?_, h2.2⟩
        · exact absurd (hh _ _ h1).2 (hh _ _ this).1
        · have := h2.1
          simp only [St.free] at this
          split at this
          · simp at this
          · exact this
  · exact (C72_cycle hb).2 (by
      rintro ⟨i, hi⟩
      obtain ⟨c, h1, _⟩ := Relation.TransGen.head'_iff.1 hi
      obtain ⟨d, _, h2⟩ := Relation.TransGen.tail'_iff.1 hi
      exact (hh i c h1).1 (hh d i h2).2)

/-! ## Concrete cases -/

/-- A gradient is used by a rectangle, the rectangle is removed with its group, the gradient is copied; handles of removed nodes are
dropped. -/
def tidyHistory : List Call :=
  [.createElement (.id .Svg), .append 0 1, .createElement (.id .LinearGradient), .append 1 2, .setId 2 st!"g", .createElement (.id .G),
   .createElement (.id .Rect), .append 1 3, .append 3 4, .setAttribute 4 ⟨.id .Fill, .paint 2 none⟩, .removeNode 3, .release 4,
   .setAttribute 3 ⟨.id .Stroke, .paint 2 none⟩, .copyNode 3]

example : (Picture.init true).tidyRun tidyHistory = true ∧ ((Picture.init true).run tidyHistory).shows (fun Q => !Q.live 4 && Q.live 3 &&
    !Q.stored 3 && Q.stored 2 && (Q.look 3).attrs.any (fun a => decide (a.value.names = some 2)) && Q.stored 5) = true := by
  constructor <;> decide +kernel

/-- The history of `C97` is not tidy: removed nodes get children again. -/
example : (Picture.init true).tidyRun releaseHistory = false := by decide +kernel

/-- Two drops inside of each other do happen: a `use` inside of the removed `style` refers to a `g` of the document. -/
example : ∃ s t, parseSvg sampleLib true styleRefXml = .ok s ∧ s.dropDocument = .ok t ∧ Nested St.nodeRef t 4 2 := by
  obtain ⟨s, e, hp⟩ := exists_of_parsed (x := styleRefXml) (p := fun s => okAnd s.dropDocument fun t => t.live 4 && t.live 2 &&
    ((t.attributes 4).any fun a => decide (a.value.linkNode = some 2)) && decide (t.nextId = 5) && (List.range 5).all fun i =>
      decide (t.firstChild i = none) && decide (t.nextSibling i = none) && decide (t.linkedNodes i = []) &&
      (decide (i = 4) || decide (t.attributes i = [])) && (t.attributes 4).all fun a => decide (a.value.linkNode ≠ some 4)) (by decide +kernel)
  obtain ⟨t, ht, hp⟩ := okAnd_iff.1 hp
  simp only [Bool.and_eq_true, decide_eq_true_eq, List.any_eq_true, List.all_eq_true, List.mem_range, Bool.or_eq_true] at hp
  obtain ⟨⟨⟨⟨h1, h2⟩, a, ha, hl⟩, hn⟩, hall⟩ := hp
  have hb : ∀ i, t.live i = true → i < 5 := by
    obtain ⟨F, hF, k1, k2⟩ := parsed_tidy e
    obtain ⟨t', e', hb, _⟩ := drop_holds (C44_reachable e).1.reachable (C44_tree e).2 hF k1 fun i hi a ha n hn => (k2 i hi a ha n hn).2
    rw [ht] at e'
    cases e'
    rw [hn] at hb
    exact hb
  have hno : ∀ j i, t.Holds j i → j = 4 ∧ i ≠ 4 := by
    rintro j i ⟨hj, hh⟩
    obtain ⟨⟨⟨⟨k1, k2⟩, k3⟩, k4⟩, k5⟩ := hall j (hb j hj)
    rcases hh with hh | hh | hh | ⟨b, hb', hh⟩
    · rw [k1] at hh; simp at hh
    · rw [k2] at hh; simp at hh
    · rw [k3] at hh; simp at hh
    · rcases k4 with rfl | k4
      · refine ⟨rfl, ?_⟩
        rintro rfl
        exact k5 b hb' hh
      · rw [k4] at hb'; simp at hb'
  refine ⟨s, t, e, ht, .more (j := 2) h1 (fun ⟨j, hj⟩ => (hno j 4 hj).2 rfl) ⟨h1, .inr (.inr (.inr ⟨a, ha, hl⟩))⟩ (.last ?_ ?_)⟩
  · simp [St.free, h2]
  · rintro ⟨j, hj⟩
    have : t.live j = true ∧ j ≠ 4 := by
      have := hj.1
      simp only [St.free] at this
      split at this
      · simp at this
      · next hne => exact ⟨this, hne⟩
    exact this.2 (hno j 2 ⟨this.1, hj.2⟩).1

end Svgdom
