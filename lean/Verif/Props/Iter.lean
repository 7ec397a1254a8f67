import Mathlib.Tactic.IntervalCases
import Verif.Proof.Roots
import Verif.Props.Tree

/-!
# C05-C09: acyclicity, iterators, root
-/

set_option autoImplicit false

namespace Svgdom

open Relation

/-! ## C05 -/

/-- C05 is false: appending a node to its own child makes it its own ancestor, without any panic. -/
theorem C05_refuted : ∃ s, Reachable s ∧ ¬ s.Acyclic := by
  obtain ⟨s, h, e⟩ := exists_of_holds
    (ops := [.createElement (.id .Svg), .createElement (.id .G), .append 1 2, .append 2 1])
    (p := fun s => s.live 1 && decide (s.parent 1 = some 2) && decide (s.parent 2 = some 1)) (by decide +kernel)
  simp only [Bool.and_eq_true, decide_eq_true_eq] at e
  exact ⟨s, h, fun ha => ha 1 e.1.1 (.tail (.single e.1.2) e.2)⟩

/-- C05, consequence of the defect: then `ancestors()` never ends, whatever number of steps is allowed. -/
theorem C05_endless_refuted : ∃ s i, Reachable s ∧ s.live i = true ∧
    ∀ k, St.collectBy s.parent k (some i) = .error .diverge := by
  obtain ⟨s, h, e⟩ := exists_of_holds
    (ops := [.createElement (.id .Svg), .createElement (.id .G), .append 1 2, .append 2 1])
    (p := fun s => s.live 1 && decide (s.parent 1 = some 2) && decide (s.parent 2 = some 1)) (by decide +kernel)
  simp only [Bool.and_eq_true, decide_eq_true_eq] at e
  have key : ∀ k, St.collectBy s.parent k (some 1) = .error .diverge ∧ St.collectBy s.parent k (some 2) = .error .diverge := by
    intro k
    induction k with
    | zero => exact ⟨rfl, rfl⟩
    | succ k ih => simp [St.collectBy, e.1.2, e.2, ih, bind, Except.bind]
  exact ⟨s, 1, h, e.1.1, fun k => (key k).1⟩

/-- C05, what holds: a history that never moves a node below itself leaves no node its own ancestor. -/
theorem C05_acyclic_partial {s : St} (h : SafeReachable s) : s.Acyclic := h.acyclic

/-- C05: from an acyclic reachable state, every call that is not a move keeps acyclicity, and so does every move whose target is
not in the subtree of the moved node. -/
theorem C05_step_partial {s t : St} (h : Reachable s) (ha : s.Acyclic) (op : Op) (hl : ∀ i ∈ op.handles, s.live i = true)
    (hs : op.Safe s) (e : op.run s = .ok t) : t.Acyclic := by
  have hinv := h.inv
  cases hm : op.isMove with
  | false => exact (op_inner hinv op hl e hm).acyclic hinv ha
  | true =>
    cases op with
    | append p c =>
      have hp := hl p (by simp [Op.handles])
      have hc := hl c (by simp [Op.handles])
      refine acyclic_move hinv.liveBelow ha (c := c) (p := some p) (hinv.append hp hc e).2.live ?_ (append_parent hinv hp hc e)
      rintro q hq; obtain rfl := Option.some.inj hq; exact hs
    | prepend p c =>
      have hp := hl p (by simp [Op.handles])
      have hc := hl c (by simp [Op.handles])
      refine acyclic_move hinv.liveBelow ha (c := c) (p := some p) (hinv.prepend hp hc e).2.live ?_ (prepend_parent hinv hp hc e)
      rintro q hq; obtain rfl := Option.some.inj hq; exact hs
    | insertAfter x y =>
      have hx := hl x (by simp [Op.handles])
      have hy := hl y (by simp [Op.handles])
      refine acyclic_move hinv.liveBelow ha (c := y) (p := s.parent x) (hinv.insertAfter hx hy e).2.live ?_
        (insertAfter_parent hinv hx hy e)
      intro q hq hsub
      exact hs (TransGen.head' hq hsub)
    | insertBefore x y =>
      have hx := hl x (by simp [Op.handles])
      have hy := hl y (by simp [Op.handles])
      refine acyclic_move hinv.liveBelow ha (c := y) (p := s.parent x) (hinv.insertBefore hx hy e).2.live ?_
        (insertBefore_parent hinv hx hy e)
      intro q hq hsub
      exact hs (TransGen.head' hq hsub)
    | _ => simp [Op.isMove] at hm

/-- C05, sharpness: an `append` that violates the condition does create a cycle, so the condition cannot be weakened. -/
theorem C05_sharp_partial {s t : St} (h : Reachable s) {p c : NodeId} (hp : s.live p = true) (hc : s.live c = true)
    (e : s.append p c = .ok t) (hs : s.InSubtree c p) : ¬ t.Acyclic := by
  intro ha
  have hpar := append_parent h.inv hp hc e
  have hlv : t.live = s.live := (h.inv.append hp hc e).2.live
  have key : ∀ j, s.live j = true → s.InSubtree c j → t.InSubtree c j := by
    intro j hj hsub
    induction hsub using ReflTransGen.head_induction_on with
    | refl => exact .refl
    | @head a b hu hrest ih =>
      by_cases hac : a = c
      · subst hac; exact .refl
      · refine ReflTransGen.head (?_ : t.Up a b) (ih (up_live hu))
        show t.parent a = some b
        rw [hpar a hj, if_neg hac]; exact hu
  have h1 := key p hp hs
  refine ha c (by rw [hlv]; exact hc) ?_
  refine TransGen.head' (?_ : t.Up c p) h1
  show t.parent c = some p
  rw [hpar c hc, if_pos rfl]

/-- A new element can be appended safely to any other node. -/
example : ∃ s, SafeReachable s ∧ s.live 2 = true ∧ s.parent 2 = some 1 ∧ s.parent 1 = some 0 := by
  have h0 : SafeReachable (St.init true) := .init true
  have noUp : ∀ {s : St} {c p : NodeId}, s.parent p = none → p ≠ c → ¬ s.InSubtree c p := by
    intro s c p hp hne hs
    rcases hs.cases_head with e | ⟨q, hq, _⟩
    · exact hne e
    · have : s.parent p = some q := hq
      rw [hp] at this; simp at this
  obtain ⟨s1, e1⟩ : ∃ t, (Op.createElement (.id .Svg)).run (St.init true) = .ok t := ⟨_, rfl⟩
  have h1 := SafeReachable.call (.createElement (.id .Svg)) h0 (by simp [Op.handles]) trivial e1
  cases e1
  have h2 := SafeReachable.call (.createElement (.id .G)) h1 (by simp [Op.handles]) trivial rfl
  have h3 := SafeReachable.call (.append 1 2) h2 (by decide) (noUp (by decide) (by decide)) rfl
  have h4 := SafeReachable.call (.append 0 1) h3 (by decide) (noUp (by decide) (by decide)) rfl
  exact ⟨_, h4, by decide, by decide, by decide⟩

/-! ## C06 -/

/-- C06: `children()` answers every interleaving of `next` and `next_back` like a double-ended queue of the children. -/
theorem C06_children {s : St} {F : Forest} (hF : Describes s F) {i : NodeId} (hi : s.live i = true)
    (pulls : List Pull) : s.childrenPulls pulls (s.children i) = deque pulls (F.kids i) := by
  refine children_pulls (children_walk hF hi) pulls _ _ ?_
  have := seg_init (F.kids i)
  simpa [St.children, hF.shows.first i hi, hF.shows.last i hi] using this

/-- C06: a `for` loop over `children()` ends and sees exactly the children, in order. -/
theorem C06_loop {s : St} (h : Reachable s) {F : Forest} (hF : Describes s F) {i : NodeId} (hi : s.live i = true) :
    s.childList i = .ok (F.kids i) := childList_eq h.inv hF hi

/-- The queue model: pulling `n` times from the front or from the back of an `n`-element queue gives all elements once. -/
theorem deque_front {α : Type} (l : List α) : deque (List.replicate l.length Pull.front) l = l.map some := by
  induction l with
  | nil => rfl
  | cons x l ih => simp [List.replicate_succ, deque, ih]

/-- The sample state has a node with four children. -/
example : ∃ s F, Reachable s ∧ Describes s F ∧ s.live 1 = true ∧ (F.kids 1).length = 4 ∧
    s.childrenPulls [.front, .back, .back, .front, .front, .back] (s.children 1) =
      [some 2, some 5, some 3, some 6, none, none] := by
  obtain ⟨s, h, e⟩ := exists_of_holds (ops := sampleHistory)
    (p := fun s => s.live 1 && decide (s.childrenPulls [.front, .back, .back, .front, .front, .back] (s.children 1) =
      [some 2, some 5, some 3, some 6, none, none]) && (match s.childList 1 with | .ok l => l.length == 4 | _ => false))
    (by decide +kernel)
  obtain ⟨F, hF⟩ := C01_forest h
  simp only [Bool.and_eq_true, decide_eq_true_eq] at e
  have := C06_loop h hF e.1.1
  rw [this] at e
  exact ⟨s, F, h, hF, e.1.1, by simpa using e.2, e.1.2⟩

/-! ## C07 -/

/-- C07: in an acyclic state the subtree of every node is a finite tree `T`; `traverse()` answers every interleaving of `next` and
`next_back` like a queue of the edges of `T`, and `descendants()` yields the nodes of `T` in pre-order; both end. -/
theorem C07_traverse {s : St} (h : Reachable s) (ha : s.Acyclic) {F : Forest} (hF : Describes s F) {i : NodeId}
    (hi : s.live i = true) : ∃ T : Trees, T.Of F [i] ∧
      (∀ pulls, s.traversePulls pulls (s.traverse i) = deque pulls T.edges) ∧
      s.edgeList i = .ok T.edges ∧ s.descendantList i = .ok T.pre := by
  obtain ⟨K, hK⟩ := trees_exist h.inv hF ha (F.kids i) (fun c hc => (hF.wf.kids i hi c hc).1)
  have hT : (Trees.cons i K .nil).Of F [i] := ⟨[], rfl, hK, rfl⟩
  have hw := traverse_walk hF ha hi hK
  have hs : Seg (Trees.cons i K .nil).edges (s.traverse i).next (s.traverse i).nextBack (Trees.cons i K .nil).edges := by
    have := seg_init (Trees.cons i K .nil).edges
    rw [(edges_ends hT).1, (edges_ends hT).2] at this
    simpa [St.traverse] using this
  have hlen : (Trees.cons i K .nil).edges.length < s.fuel := by
    rw [edges_length]
    have h1 := pre_nodup hF ha hT (by simpa using hi) (by simp) (by simp)
    have h2 := length_le_of_below h1 (n := s.nextId) fun j hj => h.inv.liveBelow j (pre_live hF hT (by simpa using hi) j hj)
    simp only [St.fuel]
    omega
  refine ⟨_, hT, fun ps => traverse_pulls hw ps _ _ rfl hs, collectEdges_walk hw _ _ _ rfl hs hlen, ?_⟩
  rw [← starts_edges]
  exact collectDescendants_walk hw _ _ _ _ rfl hs hlen hlen

/-- C07: `descendants()` yields every node of the subtree exactly once, starting with the node itself. -/
theorem C07_descendants {s : St} (h : Reachable s) (ha : s.Acyclic) {i : NodeId} (hi : s.live i = true) :
    ∃ l, s.descendantList i = .ok l ∧ l.head? = some i ∧ l.Nodup ∧
      ∀ j, s.live j = true → (j ∈ l ↔ s.InSubtree i j) := by
  obtain ⟨F, hF⟩ := C01_forest h
  obtain ⟨T, hT, _, _, hd⟩ := C07_traverse h ha hF hi
  refine ⟨T.pre, hd, ?_, pre_nodup hF ha hT (by simpa using hi) (by simp) (by simp), fun j hj => ?_⟩
  · obtain ⟨k, r, rfl, _, _⟩ := hT.cons_list
    rfl
  · rw [mem_pre hF hT (by simpa using hi) j hj]; simp

/-- C07: every node has one `Start` and one `End` edge (their nesting is `Trees.edges`). -/
theorem C07_edges_balanced (T : Trees) (h : T.pre.Nodup) : T.edges.Nodup ∧ starts T.edges = T.pre ∧
    ∀ n, (.start n ∈ T.edges ↔ n ∈ T.pre) ∧ (.stop n ∈ T.edges ↔ n ∈ T.pre) :=
  ⟨edges_nodup h, starts_edges T, mem_edges T⟩

/-! ## C08 -/

/-- C08: `following_siblings()` yields the node and the siblings after it; `preceding_siblings()` the node and the siblings
before it, nearest first. -/
theorem C08_siblings {s : St} (h : Reachable s) {F : Forest} (hF : Describes s F) {i : NodeId} (hi : s.live i = true)
    {a b : List NodeId} (e : F.sibs i = a ++ i :: b) :
    s.followingList i = .ok (i :: b) ∧ s.precedingList i = .ok (i :: a.reverse) := by
  have hn := hF.wf.nodup i hi
  have hsib : ∀ x ∈ F.sibs i, s.live x = true ∧ F.sibs x = F.sibs i := fun x hx =>
    ⟨(hF.wf.sib i hi x hx).1, (hF.wf.sib i hi x hx).2.1⟩
  have hlen : (F.sibs i).length ≤ s.nextId := length_le_of_below hn fun x hx => h.inv.liveBelow x (hsib x hx).1
  have hsucc : ∀ u x v, F.sibs i = u ++ x :: v → s.nextSibling x = v.head? ∧ s.prevSibling x = u.getLast? := by
    intro u x v e'
    have hx : x ∈ F.sibs i := by simp [e']
    have hxu : x ∉ u := by
      rw [e'] at hn
      intro hm
      exact (List.nodup_append.1 hn).2.2 x hm x (by simp) rfl
    rw [hF.shows.next x (hsib x hx).1, hF.shows.prev x (hsib x hx).1, (hsib x hx).2, e', after_split hxu, before_split hxu]
    exact ⟨rfl, rfl⟩
  rw [e] at hlen
  simp only [List.length_append, List.length_cons] at hlen
  constructor
  · refine collectBy_list (i :: b) s.fuel ?_ (by simp only [St.fuel, List.length_cons]; omega)
    intro u x v e'
    exact (hsucc (a ++ u) x v (by rw [e, e']; simp)).1
  · refine collectBy_list (i :: a.reverse) s.fuel ?_ (by simp only [St.fuel, List.length_cons, List.length_reverse]; omega)
    intro u x v e'
    have e2 : a ++ [i] = v.reverse ++ x :: u.reverse := by
      have := congrArg List.reverse e'
      simpa using this
    have := (hsucc v.reverse x (u.reverse ++ b) (by
      rw [e, show a ++ i :: b = (a ++ [i]) ++ b by simp, e2]; simp)).2
    rw [this]; simp

/-- C08: in an acyclic state `ancestors()` yields the node, its parent, and so on up to a parentless node, and ends. -/
theorem C08_ancestors {s : St} (h : Reachable s) (ha : s.Acyclic) {i : NodeId} (hi : s.live i = true) :
    ∃ l, s.ancestorList i = .ok l ∧ l.head? = some i ∧ List.IsChain s.Up l ∧
      (∀ x, l.getLast? = some x → s.parent x = none) ∧ ∀ a, a ∈ l ↔ s.InSubtree a i := by
  obtain ⟨r, hr, hle⟩ := ranked_of_acyclic ha h.inv.liveBelow
  have key : ∀ k i, s.live i = true → r i ≤ k → ∃ l, (∀ m, k < m → St.collectBy s.parent m (some i) = .ok l) ∧
      l.head? = some i ∧ List.IsChain s.Up l ∧
      (∀ x, l.getLast? = some x → s.parent x = none) ∧ ∀ a, a ∈ l ↔ s.InSubtree a i := by
    intro k
    induction k with
    | zero =>
      intro i hi hk
      have hp : s.parent i = none := by
        cases hh : s.parent i with
        | none => rfl
        | some p => exact absurd (hr i hi p hh) (by omega)
      refine ⟨[i], ?_, rfl, List.isChain_singleton _, by simp [hp], ?_⟩
      · intro m hm
        obtain ⟨m', rfl⟩ : ∃ m', m = m' + 1 := ⟨m - 1, by omega⟩
        simp only [St.collectBy, hp]
        cases m' <;> rfl
      · intro a
        simp only [List.mem_singleton]
        constructor
        · rintro rfl; exact .refl
        · intro hs
          rcases hs.cases_head with e | ⟨q, hq, _⟩
          · exact e.symm
          · have : s.parent i = some q := hq
            rw [hp] at this; simp at this
    | succ k ih =>
      intro i hi hk
      cases hp : s.parent i with
      | none =>
        refine ⟨[i], ?_, rfl, List.isChain_singleton _, by simp [hp], ?_⟩
        · intro m hm
          obtain ⟨m', rfl⟩ : ∃ m', m = m' + 1 := ⟨m - 1, by omega⟩
          simp only [St.collectBy, hp]
          cases m' <;> rfl
        · intro a
          simp only [List.mem_singleton]
          constructor
          · rintro rfl; exact .refl
          · intro hs
            rcases hs.cases_head with e | ⟨q, hq, _⟩
            · exact e.symm
            · have : s.parent i = some q := hq
              rw [hp] at this; simp at this
      | some p =>
        have := hr i hi p hp
        obtain ⟨l, h1, h2, h3, h4, h5⟩ := ih p (up_live hp) (by omega)
        refine ⟨i :: l, ?_, rfl, ?_, ?_, ?_⟩
        · intro m hm
          obtain ⟨m', rfl⟩ : ∃ m', m = m' + 1 := ⟨m - 1, by omega⟩
          simp only [St.collectBy, hp, h1 m' (by omega)]
          rfl
        · rw [List.isChain_cons]
          refine ⟨?_, h3⟩
          intro y hy
          rw [h2] at hy
          obtain rfl := Option.some.inj hy
          exact hp
        · intro x hx
          cases l with
          | nil => simp at h2
          | cons b l' => rw [List.getLast?_cons_cons] at hx; exact h4 x hx
        · intro a
          simp only [List.mem_cons, h5]
          constructor
          · rintro (rfl | h)
            · exact .refl
            · exact .head hp h
          · intro hs
            rcases hs.cases_head with e | ⟨q, hq, hs⟩
            · left; exact e.symm
            · right
              have : s.parent i = some q := hq
              rw [hp] at this
              exact Option.some.inj this ▸ hs
  obtain ⟨l, h1, h2⟩ := key (r i) i hi (Nat.le_refl _)
  refine ⟨l, h1 s.fuel ?_, h2⟩
  have := hle i
  simp only [St.fuel]
  omega

/-- The hypotheses of C07 and C08 can be met: the sample state is acyclic. -/
example : ∃ s, Reachable s ∧ s.Acyclic ∧ s.live 4 = true ∧ s.ancestorList 4 = .ok [4, 3, 1, 0] ∧
    s.descendantList 0 = .ok [0, 1, 2, 6, 3, 4, 5] := by
  obtain ⟨s, h, e⟩ := exists_of_holds (ops := sampleHistory)
    (p := fun s => s.live 4 && decide (s.nextId = 8) &&
      (List.range 8).all (fun i => decide (s.parent i = [none, some 0, some 1, some 1, some 3, some 1, some 1, none].getD i none)) &&
      (match s.ancestorList 4 with | .ok l => l == [4, 3, 1, 0] | _ => false) &&
      (match s.descendantList 0 with | .ok l => l == [0, 1, 2, 6, 3, 4, 5] | _ => false))
    (by decide +kernel)
  simp only [Bool.and_eq_true, decide_eq_true_eq, List.all_eq_true, List.mem_range] at e
  obtain ⟨⟨⟨⟨h1, h2⟩, h3⟩, h4⟩, h5⟩ := e
  refine ⟨s, h, ?_, h1, ?_, ?_⟩
  · refine acyclic_of_ranked (r := fun i => [0, 1, 2, 2, 3, 2, 2, 0].getD i 0) ?_
    intro i hi p hp
    have hlt := h.inv.liveBelow i hi
    rw [h2] at hlt
    rw [h3 i hlt] at hp
    have : ∀ i < 8, ∀ p, [none, some 0, some 1, some 1, some 3, some 1, some 1, none].getD i none = some p →
        ([0, 1, 2, 2, 3, 2, 2, 0] : List Nat).getD p 0 < ([0, 1, 2, 2, 3, 2, 2, 0] : List Nat).getD i 0 := by
      intro i hi
      interval_cases i <;> simp
    exact this i hlt p hp
  · split at h4 <;> simp_all
  · split at h5 <;> simp_all

/-! ## C09 -/

/-- C09 is false: after `detach` the node still reports its old root. -/
theorem C09_refuted : ∃ s i r, Reachable s ∧ s.live i = true ∧ s.parent i = none ∧ s.root i = .ok r ∧ r ≠ i := by
  obtain ⟨s, h, e⟩ := exists_of_holds
    (ops := [.createElement (.id .Svg), .createElement (.id .G), .append 1 2, .detach 2])
    (p := fun s => s.live 2 && decide (s.parent 2 = none) && (match s.root 2 with | .ok r => r == 1 | _ => false))
    (by decide +kernel)
  simp only [Bool.and_eq_true, decide_eq_true_eq] at e
  obtain ⟨⟨h1, h2⟩, h3⟩ := e
  refine ⟨s, 2, 1, h, h1, h2, ?_, by decide⟩
  split at h3 <;> simp_all

/-- C09 is false also without `detach`: when a node with a child is appended, the child keeps the old root. -/
theorem C09_stale_refuted : ∃ s i r, Reachable s ∧ s.live i = true ∧ s.root i = .ok r ∧ (s.parent r).isSome := by
  obtain ⟨s, h, e⟩ := exists_of_holds
    (ops := [.createElement (.id .Svg), .createElement (.id .G), .append 1 2, .append 0 1])
    (p := fun s => s.live 2 && (match s.root 2 with | .ok r => r == 1 | _ => false) && (s.parent 1).isSome)
    (by decide +kernel)
  simp only [Bool.and_eq_true] at e
  obtain ⟨⟨h1, h2⟩, h3⟩ := e
  refine ⟨s, 2, 1, h, h1, ?_, h3⟩
  split at h2 <;> simp_all

/-- C09, "never panics" is false as well: if the old root was dropped, `root()` unwraps a dead weak reference. -/
theorem C09_panic_refuted : ∃ s i, Reachable s ∧ s.live i = true ∧ s.root i = .error (.panic .unwrap) := by
  obtain ⟨s, h, e⟩ := exists_of_holds
    (ops := [.createElement (.id .Svg), .createElement (.id .G), .append 1 2, .detach 2, .removeNode 1])
    (p := fun s => decide (s.nextId = 3) && s.live 1 && s.live 2 && decide (s.rootId = 0) && decide (s.slab.nodes = [0, 2]) &&
      decide ((s.links 2).root = some 1) &&
      (List.range 3).all fun j => decide (s.firstChild j = none ∧ s.nextSibling j = none ∧ s.linkedNodes j = [] ∧
        s.attributes j = []))
    (by decide +kernel)
  simp only [Bool.and_eq_true, decide_eq_true_eq, List.all_eq_true, List.mem_range] at e
  obtain ⟨⟨⟨⟨⟨⟨hn, h1⟩, h2⟩, h3⟩, h4⟩, h5⟩, h6⟩ := e
  have hfree : ¬ s.strongRef 1 := by
    rintro (hr | hr | ⟨j, hj, hr⟩)
    · rw [h3] at hr; simp at hr
    · rw [h4] at hr; simp at hr
    · have hlt := h.inv.liveBelow j hj
      rw [hn] at hlt
      obtain ⟨k1, k2, k3, k4⟩ := h6 j hlt
      simp [k1, k2, k3, k4] at hr
  refine ⟨s.free 1, 2, .free 1 h h1 hfree, by simp [St.free, h2], ?_⟩
  simp [St.root, St.free, h5, St.upgrade]

/-- C09, what holds: in all histories where the document root is not moved and every node that comes into the document tree has
no children or was there before (detach, removal and copying are unrestricted), `root()` of every node of the document tree
returns the topmost ancestor. -/
theorem C09_root_partial {s : St} (h : RootSafeReachable s) {i : NodeId} (hi : s.live i = true) (hd : s.InDoc i) :
    s.root i = .ok s.rootId ∧ s.parent s.rootId = none := by
  have key : RootInv s := by
    clear hi hd
    induction h with
    | init d => exact rootInv_init d
    | call op hs hl hsafe e ih => exact ih.call hs.reachable.inv op hl hsafe e
    | free i hs hi hr ih => exact ih.free hs.reachable.inv hr
    | edit hs he ih => exact rootInv_same ih he.rootId (by obtain ⟨_, hT⟩ := hs.reachable.inv.tree; exact hT.root) he.live he.links
  obtain ⟨F, hT⟩ := h.reachable.inv.tree
  refine ⟨?_, key.top⟩
  by_cases hir : i = s.rootId
  · subst hir; simp [St.root, key.own]
  · simp [St.root, key.cached i hi hd hir, St.upgrade, hT.root]

/-- A history to which the theorem applies: two nested elements in the document, one removed again. -/
example : ∃ s, RootSafeReachable s ∧ s.live 2 = true ∧ s.InDoc 2 ∧ s.parent 2 = some 1 := by
  have h1 := RootSafeReachable.call (.createElement (.id .Svg)) (.init true) (by simp [Op.handles]) trivial rfl
  have h2 := RootSafeReachable.call (.createElement (.id .G)) h1 (by simp [Op.handles]) trivial rfl
  have h3 := RootSafeReachable.call (.append 0 1) h2 (by decide) ⟨by decide, fun _ => .inl (by decide)⟩ rfl
  have h4 := RootSafeReachable.call (.append 1 2) h3 (by decide) ⟨by decide, fun _ => .inl (by decide)⟩ rfl
  have h5 := RootSafeReachable.call (.createElement (.id .Rect)) h4 (by simp [Op.handles]) trivial rfl
  have h6 := RootSafeReachable.call (.insertAfter 2 3) h5 (by decide)
    ⟨by decide, by decide, fun _ => .inl (by decide)⟩ rfl
  have h7 := RootSafeReachable.call (.removeNode 3) h6 (by decide) trivial (by rfl)
  have : ∃ s, RootSafeReachable s ∧ s.live 2 = true ∧ s.parent 2 = some 1 ∧ s.parent 1 = some s.rootId :=
    ⟨_, h7, by decide +kernel, by decide +kernel, by decide +kernel⟩
  clear h1 h2 h3 h4 h5 h6 h7
  obtain ⟨s, h, hl, e1, e2⟩ := this
  exact ⟨s, h, hl, .head (show s.Up 2 1 from e1) (.head (show s.Up 1 s.rootId from e2) .refl), e1⟩

end Svgdom
