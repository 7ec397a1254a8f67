import Verif.Proof.Unique
import Verif.Spec.Cases

/-!
# C01-C04, C10: the tree

`Describes s F`: the getters of the live nodes of `s` show the ordered forest `F` (Spec/Forest.lean).
-/

set_option autoImplicit false

namespace Svgdom

/-! ## C01 -/

/-- C01: after any history the getters show one ordered forest. -/
theorem C01_forest {s : St} (h : Reachable s) : ∃ F, Describes s F := by
  obtain ⟨F, hT⟩ := h.inv.tree
  exact ⟨F, hT.reps.describes⟩

/-- C01: that forest is unique. -/
theorem C01_forest_unique {s : St} {F G : Forest} (hF : Describes s F) (hG : Describes s G) {i : NodeId}
    (hi : s.live i = true) : F.kids i = G.kids i ∧ F.sibs i = G.sibs i ∧ F.par i = G.par i :=
  ⟨hF.kids_eq hG hi, hF.sibs_eq hG hi, hF.par_eq hG hi⟩

/-- C01, in terms of the getters only: next and previous sibling are inverse to each other. -/
theorem C01_next_prev {s : St} (h : Reachable s) {i j : NodeId} (hi : s.live i = true) (hj : s.live j = true) :
    s.nextSibling i = some j ↔ s.prevSibling j = some i := by
  obtain ⟨F, hF⟩ := C01_forest h
  rw [hF.shows.next i hi, hF.shows.prev j hj]
  constructor
  · intro e
    have hm := after_mem e
    obtain ⟨_, hs, _⟩ := hF.wf.sib i hi j hm
    rw [hs]
    obtain ⟨a, b, hab, h1, h2, _⟩ := nodup_split (hF.wf.nodup i hi) (hF.wf.self_mem i hi)
    have hn := hF.wf.nodup i hi
    rw [hab, after_split h1] at e
    rw [hab] at hn ⊢
    have : (a ++ [i] ++ b).Nodup := by simpa using hn
    have := before_head this e
    simpa using this
  · intro e
    have hm := before_mem e
    obtain ⟨_, hs, _⟩ := hF.wf.sib j hj i hm
    rw [hs]
    obtain ⟨a, b, hab, h1, h2, _⟩ := nodup_split (hF.wf.nodup j hj) (hF.wf.self_mem j hj)
    have hn := hF.wf.nodup j hj
    rw [hab, before_split h1] at e
    rw [hab] at hn ⊢
    have := after_getLast hn e
    simpa using this

/-- C01: all pointers of a live node lead to live nodes, siblings share their parent, and a first (last) child is a child
without previous (next) sibling. -/
theorem C01_neighbours {s : St} (h : Reachable s) {i j : NodeId} (hi : s.live i = true) :
    (s.nextSibling i = some j → s.live j = true ∧ s.parent j = s.parent i ∧ j ≠ i) ∧
    (s.prevSibling i = some j → s.live j = true ∧ s.parent j = s.parent i ∧ j ≠ i) ∧
    (s.firstChild i = some j → s.live j = true ∧ s.parent j = some i ∧ s.prevSibling j = none) ∧
    (s.lastChild i = some j → s.live j = true ∧ s.parent j = some i ∧ s.nextSibling j = none) ∧
    (s.parent i = some j → s.live j = true ∧
      (s.prevSibling i = none → s.firstChild j = some i) ∧ (s.nextSibling i = none → s.lastChild j = some i)) := by
  obtain ⟨F, hF⟩ := C01_forest h
  obtain ⟨a, b, hab, h1, h2, _⟩ := nodup_split (hF.wf.nodup i hi) (hF.wf.self_mem i hi)
  refine ⟨?_, ?_, ?_, ?_, ?_⟩
  · intro e
    rw [hF.shows.next i hi] at e
    obtain ⟨hl, _, hp⟩ := hF.wf.sib i hi j (after_mem e)
    refine ⟨hl, by rw [hF.shows.parent i hi, hF.shows.parent j hl, hp], ?_⟩
    rintro rfl
    rw [hab, after_split h1] at e
    exact h2 (List.mem_of_mem_head? e)
  · intro e
    rw [hF.shows.prev i hi] at e
    obtain ⟨hl, _, hp⟩ := hF.wf.sib i hi j (before_mem e)
    refine ⟨hl, by rw [hF.shows.parent i hi, hF.shows.parent j hl, hp], ?_⟩
    rintro rfl
    rw [hab, before_split h1] at e
    exact h1 (List.mem_of_mem_getLast? e)
  · intro e
    rw [hF.shows.first i hi] at e
    have hm := List.mem_of_mem_head? e
    obtain ⟨hl, hp⟩ := hF.wf.kids i hi j hm
    refine ⟨hl, by rw [hF.shows.parent j hl, hp], ?_⟩
    rw [hF.shows.prev j hl, ← hF.wf.kids_sibs hi hm]
    exact before_head_none e
  · intro e
    rw [hF.shows.last i hi] at e
    have hm := List.mem_of_mem_getLast? e
    obtain ⟨hl, hp⟩ := hF.wf.kids i hi j hm
    refine ⟨hl, by rw [hF.shows.parent j hl, hp], ?_⟩
    rw [hF.shows.next j hl, ← hF.wf.kids_sibs hi hm]
    exact after_last_none (hF.wf.kids_nodup hi) e
  · intro e
    rw [hF.shows.parent i hi] at e
    obtain ⟨hl, hk⟩ := hF.wf.par i hi j e
    refine ⟨hl, ?_, ?_⟩
    · intro e'
      rw [hF.shows.prev i hi, hab, before_split h1] at e'
      have : a = [] := by simpa using e'
      rw [hF.shows.first j hl, hk, hab, this]; rfl
    · intro e'
      rw [hF.shows.next i hi, hab, after_split h1] at e'
      have : b = [] := by simpa using e'
      rw [hF.shows.last j hl, hk, hab, this]; simp

/-- A history that builds two levels, moves nodes around, detaches one and removes one. -/
def sampleHistory : List Op :=
  [.createElement (.id .Svg), .append 0 1, .createElement (.id .G), .append 1 2, .createElement (.id .Rect), .append 1 3,
   .createNode .text ['A'], .prepend 2 4, .createNode .comment ['B'], .insertAfter 3 5, .createElement (.id .Path),
   .insertBefore 3 6, .detach 4, .append 3 4, .createElement (.id .Circle), .append 2 7, .removeNode 7]

/-- The theorems of this file apply to the state after `sampleHistory`. -/
example : ∃ s, Reachable s ∧ s.live 6 = true ∧ s.nextSibling 2 = some 6 ∧ s.nextSibling 6 = some 3 ∧ s.parent 4 = some 3 ∧
    s.prevSibling 5 = some 3 := by
  obtain ⟨s, h, e⟩ := exists_of_holds (ops := sampleHistory)
    (p := fun s => decide (s.live 6 = true ∧ s.nextSibling 2 = some 6 ∧ s.nextSibling 6 = some 3 ∧ s.parent 4 = some 3 ∧
      s.prevSibling 5 = some 3)) (by decide +kernel)
  exact ⟨s, h, by simpa using e⟩

/-! ## C02 -/

/-- C02: if `append` returns, `c` is the last child of `p`; every other child sequence is the old one without `c`; other nodes
keep their parent; siblings of parentless nodes only lose `c`. -/
theorem C02_append {s t : St} (h : Reachable s) {p c : NodeId} (hp : s.live p = true) (hc : s.live c = true)
    (e : s.append p c = .ok t) {F : Forest} (hF : Describes s F) :
    ∃ G, Describes t G ∧ G.kids p = (F.kids p).erase c ++ [c] ∧ (∀ q, q ≠ p → G.kids q = (F.kids q).erase c) ∧
      G.par c = some p ∧ (∀ j, j ≠ c → G.par j = F.par j) ∧
      ∀ j, s.live j = true → j ≠ c → F.par j = none → G.sibs j = (F.sibs j).erase c := by
  have hR := h.inv.reps hF
  have hs := append_spec hR hp hc
  split_ifs at hs
  · rw [hs] at e; simp at e
  · rw [hs] at e; simp at e
  · obtain ⟨t', e', hr, _⟩ := hs
    rw [e] at e'; cases e'
    refine ⟨_, hr.describes, by simp [Forest.append, Forest.attach, Forest.detach], ?_, ?_, ?_, ?_⟩
    · intro q hq; simp [Forest.append, Forest.attach, Forest.detach, Ne.symm hq]
    · simp [Forest.append, Forest.attach]
    · intro j hj; simp [Forest.append, Forest.attach, Forest.detach, hj]
    · intro j hj hjc hpj
      have : j ∉ (F.kids p).erase c := by
        intro hm
        have := (hF.wf.kids p hp j (List.mem_of_mem_erase hm)).2
        rw [hpj] at this; simp at this
      simp [Forest.append, Forest.attach, Forest.detach, hjc, this]

/-- C02: if `prepend` returns, `c` is the first child of `p`; nothing else changes. -/
theorem C02_prepend {s t : St} (h : Reachable s) {p c : NodeId} (hp : s.live p = true) (hc : s.live c = true)
    (e : s.prepend p c = .ok t) {F : Forest} (hF : Describes s F) :
    ∃ G, Describes t G ∧ G.kids p = c :: (F.kids p).erase c ∧ (∀ q, q ≠ p → G.kids q = (F.kids q).erase c) ∧
      G.par c = some p ∧ (∀ j, j ≠ c → G.par j = F.par j) ∧
      ∀ j, s.live j = true → j ≠ c → F.par j = none → G.sibs j = (F.sibs j).erase c := by
  have hR := h.inv.reps hF
  have hs := prepend_spec hR hp hc
  split_ifs at hs
  · rw [hs] at e; simp at e
  · rw [hs] at e; simp at e
  · obtain ⟨t', e', hr, _⟩ := hs
    rw [e] at e'; cases e'
    refine ⟨_, hr.describes, by simp [Forest.prepend, Forest.attach, Forest.detach], ?_, ?_, ?_, ?_⟩
    · intro q hq; simp [Forest.prepend, Forest.attach, Forest.detach, Ne.symm hq]
    · simp [Forest.prepend, Forest.attach]
    · intro j hj; simp [Forest.prepend, Forest.attach, Forest.detach, hj]
    · intro j hj hjc hpj
      have : j ∉ (F.kids p).erase c := by
        intro hm
        have := (hF.wf.kids p hp j (List.mem_of_mem_erase hm)).2
        rw [hpj] at this; simp at this
      simp [Forest.prepend, Forest.attach, Forest.detach, hjc, this]

/-- C02: if `x.insert_after(y)` returns, `y` directly follows `x` in the sibling sequence of `x` (hence in the child sequence
of the parent of `x`), has the parent of `x`, and nothing else changes. -/
theorem C02_insertAfter {s t : St} (h : Reachable s) {x y : NodeId} (hx : s.live x = true) (hy : s.live y = true)
    (e : s.insertAfter x y = .ok t) {F : Forest} (hF : Describes s F) :
    ∃ G, Describes t G ∧ G.sibs x = insAfter ((F.sibs x).erase y) x y ∧ G.sibs y = G.sibs x ∧
      (∀ q, F.par x = some q → G.kids q = insAfter ((F.kids q).erase y) x y) ∧
      (∀ q, F.par x ≠ some q → G.kids q = (F.kids q).erase y) ∧
      G.par y = F.par x ∧ (∀ j, j ≠ y → G.par j = F.par j) ∧
      ∀ j, s.live j = true → j ≠ y → j ∉ F.sibs x → F.par j = none → G.sibs j = (F.sibs j).erase y := by
  have hR := h.inv.reps hF
  have hs := insertAfter_spec hR hx hy
  split_ifs at hs with h1 h2
  · rw [hs] at e; simp at e
  · rw [hs] at e; simp at e
  · obtain ⟨t', e', hr, _⟩ := hs
    rw [e] at e'; cases e'
    have hxm : x ∈ (F.sibs x).erase y := (List.mem_erase_of_ne h1).2 (hF.wf.self_mem x hx)
    refine ⟨_, hr.describes, ?_, ?_, ?_, ?_, ?_, ?_, ?_⟩
    · simp [Forest.insertAfter, Forest.attach, Forest.detach, h1, mem_insAfter hxm, hxm]
    · simp [Forest.insertAfter, Forest.attach, Forest.detach, h1, mem_insAfter hxm, hxm]
    · intro q hq
      simp [Forest.insertAfter, Forest.attach, Forest.detach, h1, hq, (hF.wf.par x hx q hq).2]
    · intro q hq; simp [Forest.insertAfter, Forest.attach, Forest.detach, h1, hq]
    · simp [Forest.insertAfter, Forest.attach, Forest.detach, h1]
    · intro j hj; simp [Forest.insertAfter, Forest.attach, Forest.detach, hj]
    · intro j hj hjy hjx hpj
      have : j ∉ (F.sibs x).erase y := fun hm => hjx (List.mem_of_mem_erase hm)
      simp [Forest.insertAfter, Forest.attach, Forest.detach, h1, mem_insAfter hxm, this, hjy]

/-- C02: if `x.insert_before(y)` returns, `y` directly precedes `x` in the sibling sequence of `x` (hence in the child sequence
of the parent of `x`), has the parent of `x`, and nothing else changes. -/
theorem C02_insertBefore {s t : St} (h : Reachable s) {x y : NodeId} (hx : s.live x = true) (hy : s.live y = true)
    (e : s.insertBefore x y = .ok t) {F : Forest} (hF : Describes s F) :
    ∃ G, Describes t G ∧ G.sibs x = insBefore ((F.sibs x).erase y) x y ∧ G.sibs y = G.sibs x ∧
      (∀ q, F.par x = some q → G.kids q = insBefore ((F.kids q).erase y) x y) ∧
      (∀ q, F.par x ≠ some q → G.kids q = (F.kids q).erase y) ∧
      G.par y = F.par x ∧ (∀ j, j ≠ y → G.par j = F.par j) ∧
      ∀ j, s.live j = true → j ≠ y → j ∉ F.sibs x → F.par j = none → G.sibs j = (F.sibs j).erase y := by
  have hR := h.inv.reps hF
  have hs := insertBefore_spec hR hx hy
  split_ifs at hs with h1 h2
  · rw [hs] at e; simp at e
  · rw [hs] at e; simp at e
  · obtain ⟨t', e', hr, _⟩ := hs
    rw [e] at e'; cases e'
    have hxm : x ∈ (F.sibs x).erase y := (List.mem_erase_of_ne h1).2 (hF.wf.self_mem x hx)
    refine ⟨_, hr.describes, ?_, ?_, ?_, ?_, ?_, ?_, ?_⟩
    · simp [Forest.insertBefore, Forest.attach, Forest.detach, h1, mem_insBefore hxm, hxm]
    · simp [Forest.insertBefore, Forest.attach, Forest.detach, h1, mem_insBefore hxm, hxm]
    · intro q hq
      simp [Forest.insertBefore, Forest.attach, Forest.detach, h1, hq, (hF.wf.par x hx q hq).2]
    · intro q hq; simp [Forest.insertBefore, Forest.attach, Forest.detach, h1, hq]
    · simp [Forest.insertBefore, Forest.attach, Forest.detach, h1]
    · intro j hj; simp [Forest.insertBefore, Forest.attach, Forest.detach, hj]
    · intro j hj hjy hjx hpj
      have : j ∉ (F.sibs x).erase y := fun hm => hjx (List.mem_of_mem_erase hm)
      simp [Forest.insertBefore, Forest.attach, Forest.detach, h1, mem_insBefore hxm, this, hjy]

/-- All four moves return on nodes 2 and 4 of the sample state, where they really move something. -/
example : ∃ s, Reachable s ∧ s.live 2 = true ∧ s.live 4 = true ∧ s.parent 4 = some 3 ∧
    (∃ t, s.append 2 4 = .ok t ∧ t.parent 4 = some 2) ∧ (∃ t, s.prepend 2 4 = .ok t ∧ t.parent 4 = some 2) ∧
    (∃ t, s.insertAfter 2 4 = .ok t ∧ t.nextSibling 2 = some 4) ∧
    (∃ t, s.insertBefore 2 4 = .ok t ∧ t.firstChild 1 = some 4) := by
  obtain ⟨s, h, e⟩ := exists_of_holds (ops := sampleHistory)
    (p := fun s => s.live 2 && s.live 4 && decide (s.parent 4 = some 3) &&
      okAnd (s.append 2 4) (fun t => decide (t.parent 4 = some 2)) &&
      okAnd (s.prepend 2 4) (fun t => decide (t.parent 4 = some 2)) &&
      okAnd (s.insertAfter 2 4) (fun t => decide (t.nextSibling 2 = some 4)) &&
      okAnd (s.insertBefore 2 4) (fun t => decide (t.firstChild 1 = some 4))) (by decide +kernel)
  simp only [Bool.and_eq_true, okAnd_iff, decide_eq_true_eq] at e
  obtain ⟨⟨⟨⟨⟨⟨h1, h2⟩, h3⟩, h4⟩, h5⟩, h6⟩, h7⟩ := e
  exact ⟨s, h, h1, h2, h3, h4, h5, h6, h7⟩

/-! ## C03 -/

/-- C03: after `detach` the node has no parent and no siblings, all other sequences are the old ones without the node. -/
theorem C03_detach {s t : St} (h : Reachable s) {i : NodeId} (hi : s.live i = true) (e : s.detach i = .ok t)
    {F : Forest} (hF : Describes s F) :
    ∃ G, Describes t G ∧ G.par i = none ∧ G.sibs i = [i] ∧ (∀ j, G.kids j = (F.kids j).erase i) ∧
      (∀ j, j ≠ i → G.par j = F.par j) ∧ ∀ j, j ≠ i → G.sibs j = (F.sibs j).erase i := by
  have := detach_inv e
  subst this
  refine ⟨_, ((h.inv.reps hF).detached hi).describes, ?_, ?_, ?_, ?_, ?_⟩
  · simp [Forest.detach]
  · simp [Forest.detach]
  · simp [Forest.detach]
  · intro j hj; simp [Forest.detach, hj]
  · intro j hj; simp [Forest.detach, hj]

/-- C03: in getter terms. -/
theorem C03_isolated {s t : St} (h : Reachable s) {i : NodeId} (hi : s.live i = true) (e : s.detach i = .ok t) :
    t.parent i = none ∧ t.nextSibling i = none ∧ t.prevSibling i = none ∧
      (s.parent i ≠ some i → t.firstChild i = s.firstChild i ∧ t.lastChild i = s.lastChild i) := by
  obtain ⟨F, hF⟩ := C01_forest h
  obtain ⟨G, hG, h1, h2, h3, -⟩ := C03_detach h hi e hF
  have hl : t.live i = true := by have := detach_inv e; subst this; exact hi
  refine ⟨by rw [hG.shows.parent i hl, h1], by rw [hG.shows.next i hl, h2]; simp [after],
    by rw [hG.shows.prev i hl, h2]; simp [before], ?_⟩
  intro hne
  have : i ∉ F.kids i := by
    intro hm
    have := (hF.wf.kids i hi i hm).2
    rw [← hF.shows.parent i hi] at this
    exact hne this
  rw [hG.shows.first i hl, hG.shows.last i hl, hF.shows.first i hi, hF.shows.last i hi, h3, List.erase_of_not_mem this]
  exact ⟨rfl, rfl⟩

/-- C03: `detach` returns for every node that is not its own parent. -/
theorem C03_no_panic {s : St} (h : Reachable s) {i : NodeId} (hi : s.live i = true) (hne : s.parent i ≠ some i) :
    ∃ t, s.detach i = .ok t := by
  obtain ⟨F, hF⟩ := C01_forest h
  have := detach_spec (h.inv.reps hF) hi
  rw [if_neg (by rw [← hF.shows.parent i hi]; exact hne)] at this
  exact ⟨_, this⟩

/-- C03: a second `detach` changes nothing. -/
theorem C03_idempotent {s t : St} (h : Reachable s) {i : NodeId} (hi : s.live i = true) (e : s.detach i = .ok t) :
    t.detach i = .ok t := by
  have hq : Reachable t := .call (.detach i) h (by simpa [Op.handles] using hi) e
  obtain ⟨h1, h2, h3, -⟩ := C03_isolated h hi e
  have hl : t.live i = true := by have := detach_inv e; subst this; exact hi
  obtain ⟨u, hu⟩ := C03_no_panic hq hl (by rw [h1]; simp)
  rw [hu]
  have h4 := detach_inv hu
  subst h4
  have h5 := detach_inv e
  have hns : s.nextSibling i ≠ some i := fun hh => ((C01_neighbours h hi).1 hh).2.2 rfl
  have hps : s.prevSibling i ≠ some i := fun hh => ((C01_neighbours h hi).2.1 hh).2.2 rfl
  have hk1 : (t.links i).parent = none := by rw [h5]; simp [St.detached, St.detachedLinks]
  have hk2 : (t.links i).prevSib = none := by rw [h5]; simp [St.detached, St.detachedLinks, hns]
  have hk3 : (t.links i).nextSib = none := by rw [h5]; simp [St.detached, St.detachedLinks, hps]
  congr 1
  refine (St.eq_of_links (s := t) t.links (fun j => ?_) rfl rfl rfl rfl rfl rfl)
  simp only [St.detached]
  ext1 <;> simp only [St.detachedLinks, h1, h2, h3] <;> split_ifs <;> simp_all

/-- Node 3 of the sample state has siblings, a parent and a child; detaching it returns. -/
example : ∃ s, Reachable s ∧ s.live 3 = true ∧ s.parent 3 = some 1 ∧ s.firstChild 3 = some 4 ∧
    ∃ t, s.detach 3 = .ok t ∧ t.nextSibling 6 = some 5 := by
  obtain ⟨s, h, e⟩ := exists_of_holds (ops := sampleHistory)
    (p := fun s => s.live 3 && decide (s.parent 3 = some 1) && decide (s.firstChild 3 = some 4) &&
      okAnd (s.detach 3) (fun t => decide (t.nextSibling 6 = some 5))) (by decide +kernel)
  simp only [Bool.and_eq_true, okAnd_iff, decide_eq_true_eq] at e
  obtain ⟨⟨⟨h1, h2⟩, h3⟩, h4⟩ := e
  exact ⟨s, h, h1, h2, h3, h4⟩

/-! ## C04 -/

/-- C04 is false: appending the only child of a node to that node again panics on a `RefCell`. -/
theorem C04_refuted : ∃ s p c, Reachable s ∧ s.live p = true ∧ s.live c = true ∧ p ≠ c ∧
    s.append p c = .error (.panic .borrowed) := by
  obtain ⟨s, h, e⟩ := exists_of_holds (ops := [.createElement (.id .Svg), .createElement (.id .G), .append 1 2])
    (p := fun s => s.live 1 && s.live 2 && isBorrowPanic (s.append 1 2)) (by decide +kernel)
  simp only [Bool.and_eq_true, isBorrowPanic_iff] at e
  exact ⟨s, 1, 2, h, e.1.1, e.1.2, by simp, e.2⟩

/-- The two nodes whose pointers a detach of `c` rewrites: next sibling or else parent, previous sibling or else parent.
`p` is one of them, i.e. `p` is an adjacent sibling of `c`, or `c` is the first or last child of `p`. -/
def Touching (s : St) (c p : NodeId) : Prop :=
  s.nextSibling c = some p ∨ s.prevSibling c = some p ∨
  (s.parent c = some p ∧ (s.nextSibling c = none ∨ s.prevSibling c = none))

/-- `Touching` in the terms of the proofs. -/
theorem touching_iff {s : St} {F : Forest} (hF : Describes s F) {c p : NodeId} (hc : s.live c = true)
    (_hne : p ≠ c) (hself : s.parent c ≠ some c) : (∃ n ∈ F.patched c, n ∈ [p, c]) ↔ Touching s c p := by
  have hn := hF.shows.next c hc
  have hp := hF.shows.prev c hc
  have hu := hF.shows.parent c hc
  have hmn : s.nextSibling c ≠ some c := by
    rw [hn]
    obtain ⟨a, b, hab, h1, h2, _⟩ := nodup_split (hF.wf.nodup c hc) (hF.wf.self_mem c hc)
    rw [hab, after_split h1]
    intro hh; exact h2 (List.mem_of_mem_head? hh)
  have hmp : s.prevSibling c ≠ some c := by
    rw [hp]
    obtain ⟨a, b, hab, h1, h2, _⟩ := nodup_split (hF.wf.nodup c hc) (hF.wf.self_mem c hc)
    rw [hab, before_split h1]
    intro hh; exact h1 (List.mem_of_mem_getLast? hh)
  simp only [Forest.patched, ← hn, ← hp, ← hu, Touching]
  clear hn hp hu hF
  generalize s.nextSibling c = n at *
  generalize s.prevSibling c = q at *
  generalize s.parent c = r at *
  cases n <;> cases q <;> cases r <;>
    simp only [Option.or, Option.toList, List.cons_append, List.nil_append, List.mem_cons, List.not_mem_nil, or_false,
      exists_eq_or_imp, exists_eq_left, Option.some.injEq, ne_eq, reduceCtorEq, false_and, exists_false, false_or,
      and_true, and_false, or_true, not_false_eq_true, or_self] at * <;> tauto

/-- C04, what holds: if no node involved is its own parent (see C05), `append` panics exactly if the nodes are the same, or the
target is an adjacent sibling of the moved node, or the moved node is already the first or last child of the target. The
claim "only if the nodes are the same" is false, see `C04_refuted`. -/
theorem C04_append_partial {s : St} (h : Reachable s) {p c : NodeId} (hp : s.live p = true) (hc : s.live c = true)
    (hsp : s.parent p ≠ some p) (hsc : s.parent c ≠ some c) :
    (p = c → s.append p c = .error (.panic .assertFailed)) ∧
    (p ≠ c → Touching s c p → s.append p c = .error (.panic .borrowed)) ∧
    (p ≠ c → ¬ Touching s c p → ∃ t, s.append p c = .ok t) := by
  obtain ⟨F, hF⟩ := C01_forest h
  have hs := append_spec (h.inv.reps hF) hp hc
  refine ⟨fun e => by simpa [e] using hs, fun hne ht => ?_, fun hne ht => ?_⟩
  · rw [← touching_iff hF hc hne hsc] at ht
    rw [if_neg hne, if_pos (Or.inl ht)] at hs
    exact hs
  · rw [← touching_iff hF hc hne hsc] at ht
    rw [if_neg hne, if_neg] at hs
    · obtain ⟨t, e, _⟩ := hs; exact ⟨t, e⟩
    · rintro (h1 | h1)
      · exact ht h1
      · have := List.mem_of_mem_getLast? h1
        have := (hF.wf.kids p hp p (List.mem_of_mem_erase this)).2
        rw [← hF.shows.parent p hp] at this
        exact hsp this

/-- C04 for `prepend`: same condition as `append`. -/
theorem C04_prepend_partial {s : St} (h : Reachable s) {p c : NodeId} (hp : s.live p = true) (hc : s.live c = true)
    (hsp : s.parent p ≠ some p) (hsc : s.parent c ≠ some c) :
    (p = c → s.prepend p c = .error (.panic .assertFailed)) ∧
    (p ≠ c → Touching s c p → s.prepend p c = .error (.panic .borrowed)) ∧
    (p ≠ c → ¬ Touching s c p → ∃ t, s.prepend p c = .ok t) := by
  obtain ⟨F, hF⟩ := C01_forest h
  have hs := prepend_spec (h.inv.reps hF) hp hc
  refine ⟨fun e => by simpa [e] using hs, fun hne ht => ?_, fun hne ht => ?_⟩
  · rw [← touching_iff hF hc hne hsc] at ht
    rw [if_neg hne, if_pos (Or.inl ht)] at hs
    exact hs
  · rw [← touching_iff hF hc hne hsc] at ht
    rw [if_neg hne, if_neg] at hs
    · obtain ⟨t, e, _⟩ := hs; exact ⟨t, e⟩
    · rintro (h1 | h1)
      · exact ht h1
      · have := List.mem_of_mem_head? h1
        have := (hF.wf.kids p hp p (List.mem_of_mem_erase this)).2
        rw [← hF.shows.parent p hp] at this
        exact hsp this

/-- C04 for `x.insert_after(y)`: it also panics if `x` is the last child of `y`. -/
theorem C04_insertAfter_partial {s : St} (h : Reachable s) {x y : NodeId} (hx : s.live x = true) (hy : s.live y = true)
    (hsx : s.parent x ≠ some x) (hsy : s.parent y ≠ some y) :
    (x = y → s.insertAfter x y = .error (.panic .assertFailed)) ∧
    (x ≠ y → (Touching s y x ∨ s.lastChild y = some x) → s.insertAfter x y = .error (.panic .borrowed)) ∧
    (x ≠ y → ¬ Touching s y x → s.lastChild y ≠ some x → ∃ t, s.insertAfter x y = .ok t) := by
  obtain ⟨F, hF⟩ := C01_forest h
  have hs := insertAfter_spec (h.inv.reps hF) hx hy
  have key : x ≠ y → ((after ((F.detach y).sibs x) x = none ∧ ∃ p, (F.detach y).par x = some p ∧ p ∈ [x, y]) ↔
      s.lastChild y = some x) := by
    intro hne
    have e1 : (F.detach y).sibs x = (F.sibs x).erase y := by simp [Forest.detach, hne]
    have e2 : (F.detach y).par x = F.par x := by simp [Forest.detach, hne]
    rw [e1, e2, hF.shows.last y hy]
    constructor
    · rintro ⟨h1, p, h2, h3⟩
      simp only [List.mem_cons, List.not_mem_nil, or_false] at h3
      rcases h3 with rfl | rfl
      · rw [hF.shows.parent p hx] at hsx; exact absurd h2 hsx
      · have hk := (hF.wf.par x hx p h2).2
        have hpn : p ∉ F.sibs x := by
          intro hm
          have := (hF.wf.sib x hx p hm).2.2
          rw [h2, ← hF.shows.parent p hy] at this
          exact hsy this
        rw [List.erase_of_not_mem hpn] at h1
        rw [hk]
        obtain ⟨a, b, hab, ha, hb, _⟩ := nodup_split (hF.wf.nodup x hx) (hF.wf.self_mem x hx)
        rw [hab, after_split ha] at h1
        have : b = [] := by simpa using h1
        rw [hab, this]; simp
    · intro h1
      have hm := List.mem_of_mem_getLast? h1
      have hpx := (hF.wf.kids y hy x hm).2
      have hk := (hF.wf.par x hx y hpx).2
      have hyn : y ∉ F.sibs x := by
        intro hm
        have := (hF.wf.sib x hx y hm).2.2
        rw [hpx, ← hF.shows.parent y hy] at this
        exact hsy this
      refine ⟨?_, y, hpx, by simp⟩
      rw [List.erase_of_not_mem hyn, ← hk]
      exact after_last_none (hF.wf.kids_nodup hy) h1
  refine ⟨fun e => by simpa [e] using hs, fun hne ht => ?_, fun hne ht hl => ?_⟩
  · rw [← touching_iff hF hy hne hsy, ← key hne] at ht
    rw [if_neg hne, if_pos ht] at hs
    exact hs
  · rw [← touching_iff hF hy hne hsy] at ht
    rw [if_neg hne, if_neg] at hs
    · obtain ⟨t, e, _⟩ := hs; exact ⟨t, e⟩
    · rintro (h1 | h1)
      · exact ht h1
      · exact hl ((key hne).1 h1)

/-- C04 for `x.insert_before(y)`: same condition as `append`. -/
theorem C04_insertBefore_partial {s : St} (h : Reachable s) {x y : NodeId} (hx : s.live x = true) (hy : s.live y = true)
    (hsx : s.parent x ≠ some x) (hsy : s.parent y ≠ some y) :
    (x = y → s.insertBefore x y = .error (.panic .assertFailed)) ∧
    (x ≠ y → Touching s y x → s.insertBefore x y = .error (.panic .borrowed)) ∧
    (x ≠ y → ¬ Touching s y x → ∃ t, s.insertBefore x y = .ok t) := by
  obtain ⟨F, hF⟩ := C01_forest h
  have hs := insertBefore_spec (h.inv.reps hF) hx hy
  refine ⟨fun e => by simpa [e] using hs, fun hne ht => ?_, fun hne ht => ?_⟩
  · rw [← touching_iff hF hy hne hsy] at ht
    rw [if_neg hne, if_pos (Or.inl ht)] at hs
    exact hs
  · rw [← touching_iff hF hy hne hsy] at ht
    rw [if_neg hne, if_neg] at hs
    · obtain ⟨t, e, _⟩ := hs; exact ⟨t, e⟩
    · rintro (h1 | h1)
      · exact ht h1
      · have : (F.detach y).par x = F.par x := by simp [Forest.detach, hne]
        rw [this, ← hF.shows.parent x hx] at h1
        exact hsx h1.2

/-- C04, a consequence: a node without parent and siblings can be moved to any other place. -/
theorem C04_fresh_partial {s : St} (h : Reachable s) {x y : NodeId} (hx : s.live x = true) (hy : s.live y = true)
    (hne : x ≠ y) (hsx : s.parent x ≠ some x) (hy1 : s.parent y = none) (hy2 : s.nextSibling y = none)
    (hy3 : s.prevSibling y = none) :
    (∃ t, s.append x y = .ok t) ∧ (∃ t, s.prepend x y = .ok t) ∧ (∃ t, s.insertBefore x y = .ok t) ∧
    (s.lastChild y ≠ some x → ∃ t, s.insertAfter x y = .ok t) := by
  have ht : ¬ Touching s y x := by simp [Touching, hy1, hy2, hy3]
  have hsy : s.parent y ≠ some y := by simp [hy1]
  exact ⟨(C04_append_partial h hx hy hsx hsy).2.2 hne ht, (C04_prepend_partial h hx hy hsx hsy).2.2 hne ht,
    (C04_insertBefore_partial h hx hy hsx hsy).2.2 hne ht,
    fun hl => (C04_insertAfter_partial h hx hy hsx hsy).2.2 hne ht hl⟩

/-- The sample state has nodes in and out of the `Touching` relation; node 7 was removed and has no relatives. -/
example : ∃ s, Reachable s ∧ s.live 2 = true ∧ s.live 5 = true ∧ s.live 7 = true ∧ Touching s 2 6 ∧ ¬ Touching s 2 5 ∧
    s.parent 2 = some 1 ∧ s.parent 5 = some 1 ∧ s.parent 7 = none ∧ s.nextSibling 7 = none ∧ s.prevSibling 7 = none := by
  obtain ⟨s, h, e⟩ := exists_of_holds (ops := sampleHistory)
    (p := fun s => s.live 2 && s.live 5 && s.live 7 && decide (s.parent 2 = some 1) && decide (s.parent 5 = some 1) &&
      decide (s.nextSibling 2 = some 6) && decide (s.prevSibling 2 = none) && decide (s.parent 7 = none) &&
      decide (s.nextSibling 7 = none) && decide (s.prevSibling 7 = none)) (by decide +kernel)
  simp only [Bool.and_eq_true, decide_eq_true_eq] at e
  exact ⟨s, h, by simp [Touching, e]⟩

/-! ## C10 -/

/-- C10: moves and `detach` leave the data of all nodes and the storage unchanged. -/
theorem C10_moves_keep_data {s t : St} (h : Reachable s) (op : Op)
    (hop : op.isMove = true ∨ ∃ i, op = .detach i) (hl : ∀ i ∈ op.handles, s.live i = true) (e : op.run s = .ok t) :
    (∀ i, t.data i = s.data i) ∧ t.live = s.live ∧ t.slab = s.slab ∧ t.rootId = s.rootId := by
  have key : Frame s t := by
    rcases hop with hm | ⟨i, rfl⟩
    · cases op <;> simp [Op.isMove] at hm
      · exact (h.inv.append (hl _ (by simp [Op.handles])) (hl _ (by simp [Op.handles])) e).2
      · exact (h.inv.prepend (hl _ (by simp [Op.handles])) (hl _ (by simp [Op.handles])) e).2
      · exact (h.inv.insertAfter (hl _ (by simp [Op.handles])) (hl _ (by simp [Op.handles])) e).2
      · exact (h.inv.insertBefore (hl _ (by simp [Op.handles])) (hl _ (by simp [Op.handles])) e).2
    · have := detach_inv e
      subst this
      exact Frame.detached s i
  exact ⟨fun i => by rw [key.data], key.live, key.slab, key.rootId⟩

/-- The calls that edit the data of a node. -/
def Op.isEdit : Op → Bool
  | .setText _ _ => true
  | .setId _ _ => true
  | .setTagName _ _ => true
  | .setAttribute _ _ => true
  | .setAttributeChecked _ _ => true
  | .setAttributeIfNone _ _ => true
  | .removeAttribute _ _ => true
  | _ => false

/-- C10: edits of data leave the tree and the storage unchanged. -/
theorem C10_edits_keep_tree {s t : St} (h : Reachable s) (op : Op) (hop : op.isEdit = true)
    (hl : ∀ i ∈ op.handles, s.live i = true) (e : op.run s = .ok t) :
    (∀ i, t.parent i = s.parent i ∧ t.firstChild i = s.firstChild i ∧ t.lastChild i = s.lastChild i ∧
      t.nextSibling i = s.nextSibling i ∧ t.prevSibling i = s.prevSibling i ∧ t.root i = s.root i ∧
      t.isDetached i = s.isDetached i ∧ t.nodeType i = s.nodeType i) ∧ t.live = s.live ∧ t.slab = s.slab := by
  have key : t.links = s.links ∧ t.live = s.live ∧ t.slab = s.slab ∧
      (∀ i, t.isDetached i = s.isDetached i) ∧ ∀ i, t.nodeType i = s.nodeType i := by
    have hset : ∀ i a r, s.live i = true → s.setAttributeChecked i a = .ok (t, r) →
        t.links = s.links ∧ t.live = s.live ∧ t.slab = s.slab ∧
        (∀ i, t.isDetached i = s.isDetached i) ∧ ∀ i, t.nodeType i = s.nodeType i := by
      intro i a r hi e
      rcases setChecked_cases h.inv hi e with ⟨_, _, rfl, _⟩ | ⟨_, rfl, _⟩
      · exact ⟨rfl, rfl, rfl, fun _ => rfl, fun _ => rfl⟩
      · exact ⟨rfl, rfl, rfl, fun _ => rfl, fun _ => rfl⟩
    have hdat : ∀ i f, (∀ d : NodeData, (f d).storageKey = d.storageKey) → (∀ d, (f d).nodeType = d.nodeType) → t = s.setD i f →
        t.links = s.links ∧ t.live = s.live ∧ t.slab = s.slab ∧
        (∀ i, t.isDetached i = s.isDetached i) ∧ ∀ i, t.nodeType i = s.nodeType i := by
      rintro i f hk hy rfl
      refine ⟨rfl, rfl, rfl, fun j => ?_, fun j => ?_⟩
      · simp only [St.isDetached, St.setD_data]; split
        · next e => rw [hk, e]
        · rfl
      · simp only [St.nodeType, St.setD_data]; split
        · next e => rw [hy, e]
        · rfl
    cases op <;> simp [Op.isEdit] at hop
    · simp only [Op.run, St.setText, bind_ok, pure_ok] at e
      obtain ⟨_, _, rfl⟩ := e
      refine hdat _ _ ?_ ?_ rfl <;> intro _ <;> rfl
    · simp only [Op.run, St.setId, bind_ok, pure_ok] at e
      obtain ⟨_, _, rfl⟩ := e
      refine hdat _ _ ?_ ?_ rfl <;> intro _ <;> rfl
    · simp only [Op.run, St.setTagName, bind_ok] at e
      obtain ⟨_, _, e⟩ := e
      split at e
      · rw [bind_ok] at e; obtain ⟨_, e, _⟩ := e; simp [throw, throwThe, MonadExceptOf.throw] at e
      · simp only [pure_ok] at e
        obtain ⟨_, _, rfl⟩ := e
        refine hdat _ _ ?_ ?_ rfl <;> intro _ <;> rfl
    · exact hset _ _ _ (hl _ (by simp [Op.handles])) (setAttribute_checked e)
    · obtain ⟨⟨t', r⟩, e', rfl⟩ := map_ok e
      exact hset _ _ _ (hl _ (by simp [Op.handles])) e'
    · simp only [Op.run, St.setAttributeIfNone] at e
      split at e
      · exact hset _ _ _ (hl _ (by simp [Op.handles])) (setAttribute_checked e)
      · cases e; exact ⟨rfl, rfl, rfl, fun _ => rfl, fun _ => rfl⟩
    · next i name =>
      simp only [Op.run, St.removeAttribute_ok h.inv.link (hl i (by simp [Op.handles])), Except.ok.injEq] at e
      subst e
      exact ⟨rfl, rfl, rfl, fun _ => rfl, fun _ => rfl⟩
  obtain ⟨k1, k2, k3, k4, k5⟩ := key
  refine ⟨fun i => ?_, k2, k3⟩
  simp [St.parent, St.firstChild, St.lastChild, St.nextSibling, St.prevSibling, St.root, St.upgrade, k1, k2, k4 i, k5 i]

/-- Both theorems apply: there are edits and moves that return in the sample state. -/
example : ∃ s, Reachable s ∧ (∃ t, (Op.setId 2 ['x']).run s = .ok t) ∧ (∃ t, (Op.append 2 3).run s = .ok t) ∧
    s.live 2 = true ∧ s.live 3 = true := by
  obtain ⟨s, h, e⟩ := exists_of_holds (ops := sampleHistory)
    (p := fun s => okAnd ((Op.setId 2 ['x']).run s) (fun _ => true) && okAnd ((Op.append 2 3).run s) (fun _ => true) &&
      s.live 2 && s.live 3) (by decide +kernel)
  simp only [Bool.and_eq_true, okAnd_iff, and_true] at e
  exact ⟨s, h, e.1.1.1, e.1.1.2, e.1.2, e.2⟩

end Svgdom
