import Verif.Proof.Below
import Verif.Model.History

/-! Allocation, dropping and the initial state. -/

namespace Svgdom

/-- Ids of live nodes were handed out by the allocator. -/
def LiveBelow (s : St) : Prop := ∀ i, s.live i = true → i < s.nextId

/-- The tree part of the invariant. -/
structure TreeInv (s : St) (F : Forest) : Prop where
  reps : Reps s F
  liveBelow : LiveBelow s
  below : AllBelow s s.nextId
  root : s.live s.rootId = true

/-- The tree part of the invariant without the root of a document. -/
structure HeapInv (s : St) (F : Forest) : Prop where
  reps : Reps s F
  liveBelow : LiveBelow s
  below : AllBelow s s.nextId

theorem TreeInv.heap {s : St} {F : Forest} (h : TreeInv s F) : HeapInv s F := ⟨h.reps, h.liveBelow, h.below⟩

/-- There is a strong reference to `i` from a live node. -/
def St.heapRef (s : St) (i : NodeId) : Prop :=
  ∃ j, s.live j = true ∧
    (s.firstChild j = some i ∨ s.nextSibling j = some i ∨ i ∈ s.linkedNodes j ∨
      ∃ a ∈ s.attributes j, a.value.linkNode = some i)

/-- The forest of isolated nodes. -/
def Forest.isolated : Forest := ⟨fun _ => [], fun i => [i], fun _ => none⟩

theorem treeInv_init (debug : Bool) : TreeInv (St.init debug) Forest.isolated where
  reps := {
    wf := by constructor <;> simp [Forest.isolated]
    shows := by
      constructor <;> intro i _ <;>
        simp [St.init, St.parent, St.nextSibling, St.prevSibling, St.firstChild, St.lastChild, Forest.isolated, after, before]
    clean := by intro i _ h; simp [St.init, St.parent] at h }
  liveBelow := by intro i hi; simp [St.init] at hi ⊢; omega
  below := by intro i; constructor <;> simp [St.init]
  root := by simp [St.init]

theorem Links.Below.mono {l : Links} {n m : NodeId} (h : l.Below n) (hnm : n ≤ m) : l.Below m where
  root := fun k hk => Nat.lt_of_lt_of_le (h.root k hk) hnm
  parent := fun k hk => Nat.lt_of_lt_of_le (h.parent k hk) hnm
  firstChild := fun k hk => Nat.lt_of_lt_of_le (h.firstChild k hk) hnm
  lastChild := fun k hk => Nat.lt_of_lt_of_le (h.lastChild k hk) hnm
  prevSib := fun k hk => Nat.lt_of_lt_of_le (h.prevSib k hk) hnm
  nextSib := fun k hk => Nat.lt_of_lt_of_le (h.nextSib k hk) hnm

theorem alloc_upgrade {s : St} {d : NodeData} {w : Option NodeId} (h : ∀ k, w = some k → k < s.nextId) :
    (s.alloc d).upgrade w = s.upgrade w := by
  cases w with
  | none => rfl
  | some k =>
    have := h k rfl
    have hk : k ≠ s.nextId := Nat.ne_of_lt this
    simp [St.upgrade, St.alloc, hk]

theorem Forest.WF.add {F : Forest} {live : NodeId → Bool} (h : F.WF live) {n : NodeId} (hn : live n = false) :
    (F.add n).WF (fun j => if j = n then true else live j) := by
  have hne : ∀ {j}, live j = true → j ≠ n := by rintro j hj rfl; simp [hn] at hj
  constructor
  · intro j hj
    simp only [Forest.add]
    split
    · simp_all
    · next hjn => simp only [hjn, if_false] at hj; exact h.self_mem j hj
  · intro j hj
    simp only [Forest.add]
    split
    · simp
    · next hjn => simp only [hjn, if_false] at hj; exact h.nodup j hj
  · intro j hj k hk
    by_cases hjn : j = n
    · simp only [Forest.add, hjn, if_true, List.mem_singleton] at hk ⊢
      simp [hk]
    · simp only [Forest.add, hjn, if_false] at hj hk ⊢
      obtain ⟨h1, h2, h3⟩ := h.sib j hj k hk
      simp [hne h1, h1, h2, h3]
  · intro j hj p hp
    by_cases hjn : j = n
    · simp [Forest.add, hjn] at hp
    · simp only [Forest.add, hjn, if_false] at hj hp ⊢
      obtain ⟨h1, h2⟩ := h.par j hj p hp
      simp [hne h1, h1, h2]
  · intro p hp c hc
    by_cases hpn : p = n
    · simp [Forest.add, hpn] at hc
    · simp only [Forest.add, hpn, if_false] at hp hc ⊢
      obtain ⟨h1, h2⟩ := h.kids p hp c hc
      simp [hne h1, h1, h2]

theorem HeapInv.alloc {s : St} {F : Forest} (h : HeapInv s F) (d : NodeData) :
    HeapInv (s.alloc d) (F.add s.nextId) := by
  have hn : s.live s.nextId = false := by
    cases hh : s.live s.nextId with
    | false => rfl
    | true => exact absurd (h.liveBelow _ hh) (Nat.lt_irrefl _)
  have hlv : ∀ j, (s.alloc d).live j = if j = s.nextId then true else s.live j := fun _ => rfl
  have hlk : ∀ j, (s.alloc d).links j = if j = s.nextId then {} else s.links j := fun _ => rfl
  constructor
  · constructor
    · exact h.reps.wf.add hn
    · constructor
      · intro j hj
        rw [hlv] at hj
        by_cases hjn : j = s.nextId
        · simp [St.parent, hlk, hjn, Forest.add]
        · simp only [hjn, if_false] at hj
          simp only [St.parent, hlk, hjn, if_false, Forest.add]
          rw [alloc_upgrade (h.below j).parent]; exact h.reps.shows.parent j hj
      · intro j hj
        rw [hlv] at hj
        by_cases hjn : j = s.nextId
        · simp [St.nextSibling, hlk, hjn, Forest.add, after]
        · simp only [hjn, if_false] at hj
          simp only [St.nextSibling, hlk, hjn, if_false, Forest.add]
          exact h.reps.shows.next j hj
      · intro j hj
        rw [hlv] at hj
        by_cases hjn : j = s.nextId
        · simp [St.prevSibling, hlk, hjn, Forest.add, before]
        · simp only [hjn, if_false] at hj
          simp only [St.prevSibling, hlk, hjn, if_false, Forest.add]
          rw [alloc_upgrade (h.below j).prevSib]; exact h.reps.shows.prev j hj
      · intro j hj
        rw [hlv] at hj
        by_cases hjn : j = s.nextId
        · simp [St.firstChild, hlk, hjn, Forest.add]
        · simp only [hjn, if_false] at hj
          simp only [St.firstChild, hlk, hjn, if_false, Forest.add]
          exact h.reps.shows.first j hj
      · intro j hj
        rw [hlv] at hj
        by_cases hjn : j = s.nextId
        · simp [St.lastChild, hlk, hjn, Forest.add]
        · simp only [hjn, if_false] at hj
          simp only [St.lastChild, hlk, hjn, if_false, Forest.add]
          rw [alloc_upgrade (h.below j).lastChild]; exact h.reps.shows.last j hj
    · intro j hj hp hq
      rw [hlv] at hj
      by_cases hjn : j = s.nextId
      · simp [hlk, hjn]
      · simp only [hjn, if_false] at hj
        simp only [St.parent, St.prevSibling, hlk, hjn, if_false] at hp hq ⊢
        rw [alloc_upgrade (h.below j).parent] at hp
        rw [alloc_upgrade (h.below j).prevSib] at hq
        exact h.reps.clean j hj hp hq
  · intro j hj
    rw [hlv] at hj
    show j < s.nextId + 1
    by_cases hjn : j = s.nextId
    · rw [hjn]; exact Nat.lt_succ_self _
    · simp only [hjn, if_false] at hj
      exact Nat.lt_succ_of_lt (h.liveBelow j hj)
  · intro j
    rw [hlk]
    show Links.Below _ (s.nextId + 1)
    split
    · constructor <;> simp
    · exact (h.below j).mono (Nat.le_succ _)

theorem TreeInv.alloc {s : St} {F : Forest} (h : TreeInv s F) (d : NodeData) :
    TreeInv (s.alloc d) (F.add s.nextId) := by
  have h' := h.heap.alloc d
  refine ⟨h'.reps, h'.liveBelow, h'.below, ?_⟩
  show (if s.rootId = s.nextId then true else s.live s.rootId) = true
  simp [h.root]

theorem free_upgrade {s : St} {i : NodeId} {w : Option NodeId} :
    (s.free i).upgrade w = if s.upgrade w = some i then none else s.upgrade w := by
  cases w with
  | none => rfl
  | some k =>
    simp only [St.upgrade, St.free]
    by_cases hk : k = i
    · subst hk; by_cases hl : s.live k = true <;> simp [hl]
    · by_cases hl : s.live k = true <;> simp [hl, hk]

/-- A node without strong references from live nodes has no parent and is the first of its siblings. -/
theorem unreferenced {s : St} {F : Forest} (h : Reps s F) {i : NodeId} (hi : s.live i = true) (hr : ¬ s.heapRef i) :
    F.par i = none ∧ ∃ b, F.sibs i = i :: b ∧ i ∉ b := by
  obtain ⟨a, b, e, h1, h2, _⟩ := nodup_split (h.wf.nodup i hi) (h.wf.self_mem i hi)
  have hpv := h.shows.prev i hi
  rw [e, before_split h1] at hpv
  have ha : a = [] := by
    cases hq : a.getLast? with
    | none => simpa using hq
    | some q =>
      exfalso
      have hm : q ∈ F.sibs i := by rw [e]; simp [List.mem_of_getLast? hq]
      obtain ⟨hql, hqs, _⟩ := h.wf.sib i hi q hm
      have hn := h.shows.next q hql
      have hnd := h.wf.nodup i hi
      rw [e] at hnd
      rw [hqs, e, after_getLast hnd hq] at hn
      exact hr ⟨q, hql, Or.inr (Or.inl (by simpa using hn))⟩
  subst ha
  refine ⟨?_, b, by simpa using e, h2⟩
  cases hp : F.par i with
  | none => rfl
  | some p =>
    exfalso
    obtain ⟨hpl, hk⟩ := h.wf.par i hi p hp
    have hf := h.shows.first p hpl
    rw [hk, e] at hf
    exact hr ⟨p, hpl, Or.inl (by simpa using hf)⟩

theorem after_tail {l : List NodeId} {i j : NodeId} (h : j ≠ i) : after (i :: l) j = after l j := by
  simp [after, Ne.symm h]

theorem before_tail {l : List NodeId} {i j : NodeId} (h : j ≠ i) (hm : i ∉ l) :
    before l j = if before (i :: l) j = some i then none else before (i :: l) j := by
  cases l with
  | nil => simp [before]
  | cons c t =>
    simp only [List.mem_cons, not_or] at hm
    simp only [before, Ne.symm h, if_false]
    by_cases hc : c = j
    · subst hc
      simp only [if_true]
      exact before_split (a := []) (by simp)
    · simp only [hc, if_false]
      have : before (c :: t) j ≠ some i := fun e => by
        have := before_mem e
        simp [hm.1, hm.2] at this
      simp [this]

theorem HeapInv.free {s : St} {F : Forest} (h : HeapInv s F) {i : NodeId} (hi : s.live i = true) (hr : ¬ s.heapRef i) :
    HeapInv (s.free i) (F.drop i) := by
  obtain ⟨hpar, b, e, hib⟩ := unreferenced h.reps hi hr
  have wf := h.reps.wf
  have hlv : ∀ j, (s.free i).live j = true ↔ j ≠ i ∧ s.live j = true := by
    intro j; simp [St.free]
  have hlk : ∀ j, (s.free i).links j = s.links j := fun _ => rfl
  have hkids : ∀ p, s.live p = true → i ∉ F.kids p := by
    intro p hp hm
    have := (wf.kids p hp i hm).2
    simp [hpar] at this
  have hsib : ∀ j, s.live j = true → i ∈ F.sibs j → F.sibs j = i :: b := by
    intro j hj hm; rw [← e]; exact (wf.mem_sibs hj hm).symm
  constructor
  · constructor
    · constructor
      · intro j hj
        rw [hlv] at hj
        simp only [Forest.drop]
        rw [List.mem_erase_of_ne hj.1]; exact wf.self_mem j hj.2
      · intro j hj
        rw [hlv] at hj
        exact (wf.nodup j hj.2).erase i
      · intro j hj k hk
        rw [hlv] at hj ⊢
        simp only [Forest.drop] at hk ⊢
        rw [(wf.nodup j hj.2).mem_erase_iff] at hk
        obtain ⟨h1, h2, h3⟩ := wf.sib j hj.2 k hk.2
        exact ⟨⟨hk.1, h1⟩, by rw [h2], by rw [h3]⟩
      · intro j hj p hp
        rw [hlv] at hj ⊢
        simp only [Forest.drop] at hp ⊢
        split at hp
        · simp at hp
        · next hne =>
          obtain ⟨h1, h2⟩ := wf.par j hj.2 p hp
          refine ⟨⟨fun e => hne (e ▸ hp), h1⟩, ?_⟩
          rw [h2, List.erase_of_not_mem]
          rw [← h2]; exact hkids p h1
      · intro p hp c hc
        rw [hlv] at hp ⊢
        simp only [Forest.drop] at hc ⊢
        obtain ⟨h1, h2⟩ := wf.kids p hp.2 c hc
        refine ⟨⟨?_, h1⟩, by simp [h2, hp.1]⟩
        rintro rfl; exact hkids p hp.2 hc
    · constructor
      · intro j hj
        rw [hlv] at hj
        simp only [St.parent, hlk, free_upgrade, Forest.drop]
        have := h.reps.shows.parent j hj.2
        simp only [St.parent] at this
        rw [this]
      · intro j hj
        rw [hlv] at hj
        simp only [St.nextSibling, hlk, Forest.drop]
        have := h.reps.shows.next j hj.2
        simp only [St.nextSibling] at this
        rw [this]
        by_cases hm : i ∈ F.sibs j
        · rw [hsib j hj.2 hm]; simp [after_tail hj.1]
        · rw [List.erase_of_not_mem hm]
      · intro j hj
        rw [hlv] at hj
        simp only [St.prevSibling, hlk, free_upgrade, Forest.drop]
        have := h.reps.shows.prev j hj.2
        simp only [St.prevSibling] at this
        rw [this]
        by_cases hm : i ∈ F.sibs j
        · rw [hsib j hj.2 hm]; simp [before_tail hj.1 hib]
        · rw [List.erase_of_not_mem hm]
          have : before (F.sibs j) j ≠ some i := fun e => hm (before_mem e)
          simp [this]
      · intro j hj
        rw [hlv] at hj
        exact h.reps.shows.first j hj.2
      · intro j hj
        rw [hlv] at hj
        simp only [St.lastChild, hlk, free_upgrade, Forest.drop]
        have := h.reps.shows.last j hj.2
        simp only [St.lastChild] at this
        rw [this]
        have : (F.kids j).getLast? ≠ some i := fun e => hkids j hj.2 (List.mem_of_getLast? e)
        simp [this]
    · intro j hj hp hq
      rw [hlv] at hj
      simp only [St.parent, St.prevSibling, hlk, free_upgrade] at hp hq ⊢
      have hp' : (s.parent j).isSome := by
        split at hp
        · simp at hp
        · exact hp
      apply h.reps.clean j hj.2 hp'
      split at hq
      · next hu =>
        exfalso
        have h1 := h.reps.shows.prev j hj.2
        simp only [St.prevSibling, hu] at h1
        have h2 := wf.mem_symm hj.2 (before_mem h1.symm)
        have h3 := (wf.sib i hi j h2).2.2
        rw [h.reps.shows.parent j hj.2, h3, hpar] at hp'
        simp at hp'
      · exact hq
  · intro j hj
    rw [hlv] at hj
    exact h.liveBelow j hj.2
  · exact h.below

theorem TreeInv.free {s : St} {F : Forest} (h : TreeInv s F) {i : NodeId} (hi : s.live i = true) (hr : ¬ s.strongRef i) :
    TreeInv (s.free i) (F.drop i) := by
  have h' := h.heap.free hi (fun hh => hr (Or.inr (Or.inr hh)))
  refine ⟨h'.reps, h'.liveBelow, h'.below, ?_⟩
  have : s.rootId ≠ i := fun e => hr (Or.inl e.symm)
  simp [St.free, h.root, this]

end Svgdom
