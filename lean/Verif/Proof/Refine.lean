import Verif.Proof.Detach

/-! The pointer operations refine the forest operations. -/

namespace Svgdom

/-- A node with a parent and no previous sibling has no dangling weak `previous_sibling` either
(needed by the `debug_assert!` in `prepend`). -/
def PrevClean (s : St) : Prop :=
  ∀ i, s.live i = true → (s.parent i).isSome → s.prevSibling i = none → (s.links i).prevSib = none

/-- Heap `s` represents forest `F`. -/
structure Reps (s : St) (F : Forest) : Prop where
  wf : F.WF s.live
  shows : Shows s F
  clean : PrevClean s

theorem upgrade_live {s : St} {w : Option NodeId} {j : NodeId} (h : s.upgrade w = some j) :
    s.live j = true ∧ w = some j := by
  unfold St.upgrade at h
  split at h
  · split at h
    · next hl => simp at h; subst h; exact ⟨hl, rfl⟩
    · simp at h
  · simp at h

theorem upgrade_some {s : St} {j : NodeId} (h : s.live j = true) : s.upgrade (some j) = some j := by
  simp [St.upgrade, h]

@[simp] theorem upgrade_none {s : St} : s.upgrade none = none := rfl

namespace Forest.WF
variable {F : Forest} {live : NodeId → Bool}

theorem kids_iff (h : F.WF live) {p c : NodeId} (hp : live p = true) (hc : live c = true) :
    c ∈ F.kids p ↔ F.par c = some p := by
  constructor
  · intro hm; exact (h.kids p hp c hm).2
  · intro hm; rw [(h.par c hc p hm).2]; exact h.self_mem c hc

theorem kids_sibs (h : F.WF live) {p c : NodeId} (hp : live p = true) (hm : c ∈ F.kids p) :
    F.kids p = F.sibs c := by
  obtain ⟨h1, h2⟩ := h.kids p hp c hm
  exact (h.par c h1 p h2).2

theorem kids_nodup (h : F.WF live) {p : NodeId} (hp : live p = true) : (F.kids p).Nodup := by
  cases hk : F.kids p with
  | nil => simp
  | cons c t =>
    rw [← hk]
    have hm : c ∈ F.kids p := by simp [hk]
    rw [h.kids_sibs hp hm]
    exact h.nodup c (h.kids p hp c hm).1

theorem mem_sibs (h : F.WF live) {i j : NodeId} (hi : live i = true) (hm : j ∈ F.sibs i) : F.sibs j = F.sibs i :=
  (h.sib i hi j hm).2.1

theorem mem_symm (h : F.WF live) {i j : NodeId} (hi : live i = true) (hm : j ∈ F.sibs i) : i ∈ F.sibs j := by
  rw [h.mem_sibs hi hm]; exact h.self_mem i hi

end Forest.WF

theorem Forest.WF.detach {F : Forest} {live : NodeId → Bool} (h : F.WF live) (i : NodeId) :
    (F.detach i).WF live where
  self_mem := by
    intro j hj
    simp only [Forest.detach]
    split
    · simp_all
    · next hne => rw [List.mem_erase_of_ne hne]; exact h.self_mem j hj
  nodup := by
    intro j hj
    simp only [Forest.detach]
    split
    · simp
    · exact (h.nodup j hj).erase i
  sib := by
    intro j hj k hk
    simp only [Forest.detach] at hk ⊢
    by_cases hji : j = i
    · subst hji; simp at hk; subst hk; simp [hj]
    · simp only [hji, if_false] at hk ⊢
      rw [(h.nodup j hj).mem_erase_iff] at hk
      obtain ⟨h1, h2, h3⟩ := h.sib j hj k hk.2
      simp [hk.1, h1, h2, h3]
  par := by
    intro j hj p hp
    simp only [Forest.detach] at hp ⊢
    by_cases hji : j = i
    · simp [hji] at hp
    · simp only [hji, if_false] at hp ⊢
      obtain ⟨h1, h2⟩ := h.par j hj p hp
      exact ⟨h1, by rw [h2]⟩
  kids := by
    intro p hp c hc
    simp only [Forest.detach] at hc ⊢
    rw [(h.kids_nodup hp).mem_erase_iff] at hc
    obtain ⟨h1, h2⟩ := h.kids p hp c hc.2
    exact ⟨h1, by simp [hc.1, h2]⟩

theorem Reps.detached {s : St} {F : Forest} (h : Reps s F) {i : NodeId} (hi : s.live i = true) :
    Reps (s.detached i) (F.detach i) where
  wf := h.wf.detach i
  shows := by
    have hup : ∀ w, (s.detached i).upgrade w = s.upgrade w := fun _ => rfl
    have hl : ∀ j, (s.detached i).links j = s.detachedLinks i j := fun _ => rfl
    have hnx := h.shows.next i hi
    have hpv := h.shows.prev i hi
    have hpa := h.shows.parent i hi
    constructor
    · intro j hj
      have := h.shows.parent j hj
      simp only [St.parent, hup, hl, St.detachedLinks, Forest.detach] at this ⊢
      split <;> simp_all
    · intro j hj
      have := h.shows.next j hj
      simp only [St.nextSibling, hl, St.detachedLinks, Forest.detach] at this hnx ⊢
      rw [this, hpv, hnx]
      by_cases hji : j = i
      · subst hji
        have : before (F.sibs j) j ≠ some j := by
          obtain ⟨a, b, e, h1, _⟩ := nodup_split (h.wf.nodup j hj) (h.wf.self_mem j hj)
          rw [e, before_split h1]
          intro hh; exact h1 (List.mem_of_getLast? hh)
        simp [this, after]
      · simp only [hji, if_false]
        by_cases hm : i ∈ F.sibs j
        · rw [h.wf.mem_sibs hj hm, after_erase (h.wf.nodup j hj) hji]
        · have : before (F.sibs i) i ≠ some j := fun hh => hm (h.wf.mem_symm hi (before_mem hh))
          simp [this, List.erase_of_not_mem hm]
    · intro j hj
      have := h.shows.prev j hj
      have hpv' := hpv
      simp only [St.prevSibling, hup, hl, St.detachedLinks, Forest.detach] at this hpv' ⊢
      rw [hnx]
      by_cases hji : j = i
      · subst hji
        have : after (F.sibs j) j ≠ some j := by
          obtain ⟨a, b, e, h1, h2, _⟩ := nodup_split (h.wf.nodup j hj) (h.wf.self_mem j hj)
          rw [e, after_split h1]
          intro hh; exact h2 (List.mem_of_mem_head? hh)
        simp [this, before]
      · simp only [hji, if_false]
        by_cases hm : i ∈ F.sibs j
        · rw [before_erase (h.wf.nodup j hj) hji, ← h.wf.mem_sibs hj hm]
          have hs := h.wf.mem_sibs hj hm
          split <;> simp_all
        · have : after (F.sibs i) i ≠ some j := fun hh => hm (h.wf.mem_symm hi (after_mem hh))
          simp_all [List.erase_of_not_mem hm]
    · intro j hj
      have := h.shows.first j hj
      simp only [St.firstChild, hl, St.detachedLinks, Forest.detach] at this ⊢
      rw [hpv, hpa, hnx, this]
      by_cases hm : i ∈ F.kids j
      · rw [head_erase hm, h.wf.kids_sibs hj hm, (h.wf.kids j hj i hm).2]; simp
      · have : F.par i ≠ some j := fun hh => hm ((h.wf.kids_iff hj hi).2 hh)
        simp [this, List.erase_of_not_mem hm]
    · intro j hj
      have := h.shows.last j hj
      have hpv' := hpv
      simp only [St.prevSibling] at hpv'
      simp only [St.lastChild, hup, hl, St.detachedLinks, Forest.detach] at this ⊢
      rw [hnx, hpa]
      by_cases hm : i ∈ F.kids j
      · rw [getLast_erase hm, (h.wf.kids j hj i hm).2, ← this]
        rw [h.wf.kids_sibs hj hm]
        split <;> simp_all
      · have : F.par i ≠ some j := fun hh => hm ((h.wf.kids_iff hj hi).2 hh)
        simp_all [List.erase_of_not_mem hm]
  clean := by
    intro j hj hp hq
    have hup : ∀ w, (s.detached i).upgrade w = s.upgrade w := fun _ => rfl
    have hl : ∀ j, (s.detached i).links j = s.detachedLinks i j := fun _ => rfl
    simp only [St.parent, St.prevSibling, hup, hl, St.detachedLinks] at hp hq ⊢
    by_cases hji : j = i
    · simp [hji] at hp
    · simp only [hji, if_false] at hp hq ⊢
      split
      · next hn =>
        simp only [hn, if_true] at hq
        apply h.clean i hi _ hq
        have hm : j ∈ F.sibs i := by rw [h.shows.next i hi] at hn; exact after_mem hn
        rw [h.shows.parent i hi, ← (h.wf.sib i hi j hm).2.2, ← h.shows.parent j hj]
        exact hp
      · next hn =>
        simp only [hn, if_false] at hq
        exact h.clean j hj hp hq

/-- The place `a | b` (below `p`) is where an isolated node may be put: `a ++ b` is a whole sibling sequence below `p`. -/
structure Place (F : Forest) (live : NodeId → Bool) (p : Option NodeId) (a b : List NodeId) : Prop where
  grp : ∀ x ∈ a ++ b, live x = true ∧ F.sibs x = a ++ b ∧ F.par x = p
  nodup : (a ++ b).Nodup
  kids : ∀ q, p = some q → live q = true ∧ F.kids q = a ++ b

/-- `c` has no parent and no siblings. -/
structure Alone (F : Forest) (c : NodeId) : Prop where
  sibs : F.sibs c = [c]
  par : F.par c = none

theorem Place.not_mem {F : Forest} {live : NodeId → Bool} {p : Option NodeId} {a b : List NodeId} {c : NodeId}
    (h : Place F live p a b) (hc : Alone F c) (hne : a ++ b ≠ [c]) : c ∉ a ++ b := by
  intro hm
  have := (h.grp c hm).2.1
  rw [hc.sibs] at this
  exact hne this.symm

theorem Forest.WF.attach {F : Forest} {live : NodeId → Bool} (h : F.WF live) {p : Option NodeId} {a b : List NodeId}
    {c : NodeId} (hc : live c = true) (hal : Alone F c) (hpl : Place F live p a b) (hne : c ∉ a ++ b) :
    (F.attach p (a ++ c :: b) c).WF live := by
  have hnd : (a ++ c :: b).Nodup := by
    rw [List.nodup_middle, List.nodup_cons]; exact ⟨hne, hpl.nodup⟩
  have hmem : ∀ j, j ∈ a ++ c :: b ↔ j = c ∨ j ∈ a ++ b := by
    intro j; simp only [List.mem_append, List.mem_cons]; tauto
  have hsame : ∀ j, live j = true → j ∉ a ++ c :: b → ∀ k ∈ F.sibs j, k ∉ a ++ c :: b := by
    intro j hj hnj k hk hmk
    rcases (hmem k).1 hmk with rfl | hk'
    · have := h.mem_symm hj hk
      rw [hal.sibs] at this; simp at this
      exact hnj (by simp [this])
    · have := h.mem_symm hj hk
      rw [(hpl.grp k hk').2.1] at this
      exact hnj ((hmem j).2 (Or.inr this))
  constructor
  · intro j hj
    simp only [Forest.attach]
    split
    · assumption
    · exact h.self_mem j hj
  · intro j hj
    simp only [Forest.attach]
    split
    · exact hnd
    · exact h.nodup j hj
  · intro j hj k hk
    simp only [Forest.attach] at hk ⊢
    by_cases hm : j ∈ a ++ c :: b
    · simp only [hm, if_true] at hk ⊢
      simp only [hk, if_true]
      have hpj : ∀ j, j ∈ a ++ c :: b → (if j = c then p else F.par j) = p := by
        intro j hm
        split
        · rfl
        · next hne =>
          rcases (hmem j).1 hm with h1 | h1
          · exact absurd h1 hne
          · exact (hpl.grp j h1).2.2
      rw [hpj j hm, hpj k hk]
      refine ⟨?_, trivial, rfl⟩
      rcases (hmem k).1 hk with rfl | h1
      · exact hc
      · exact (hpl.grp k h1).1
    · simp only [hm, if_false] at hk ⊢
      have hk2 := hsame j hj hm k hk
      simp only [hk2, if_false]
      have hjc : j ≠ c := fun e => hm (by simp [e])
      have hkc : k ≠ c := fun e => hk2 (by simp [e])
      simp only [hjc, hkc, if_false]
      exact h.sib j hj k hk
  · intro j hj q hq
    simp only [Forest.attach] at hq ⊢
    by_cases hjc : j = c
    · subst hjc
      simp only [if_true] at hq
      obtain ⟨h1, h2⟩ := hpl.kids q hq
      simp [h1, hq]
    · simp only [hjc, if_false] at hq ⊢
      obtain ⟨h1, h2⟩ := h.par j hj q hq
      refine ⟨h1, ?_⟩
      by_cases hpq : p = some q
      · simp only [hpq, if_true]
        have : j ∈ a ++ b := by rw [← (hpl.kids q hpq).2, h2]; exact h.self_mem j hj
        simp only [(hmem j).2 (Or.inr this), if_true]
      · simp only [hpq, if_false, h2]
        have : j ∉ a ++ c :: b := by
          intro hm
          rcases (hmem j).1 hm with h1 | h1
          · exact hjc h1
          · rw [(hpl.grp j h1).2.2] at hq; exact hpq hq
        simp only [this, if_false]
  · intro q hq k hk
    simp only [Forest.attach] at hk ⊢
    by_cases hpq : p = some q
    · simp only [hpq, if_true] at hk ⊢
      rcases (hmem k).1 hk with rfl | h1
      · simp [hc]
      · have := hpl.grp k h1
        have hkc : k ≠ c := fun e => hne (e ▸ h1)
        simp [this.1, hkc, this.2.2, hpq]
    · simp only [hpq, if_false] at hk
      obtain ⟨h1, h2⟩ := h.kids q hq k hk
      refine ⟨h1, ?_⟩
      have : k ≠ c := by
        rintro rfl; rw [hal.par] at h2; simp at h2
      simp [this, h2]

/-- Getter-level description of putting `c` at the place `a | b` below `p`. -/
structure Put (s t : St) (p : Option NodeId) (a b : List NodeId) (c : NodeId) : Prop where
  live : t.live = s.live
  parent : ∀ j, t.parent j = if j = c then p else s.parent j
  next : ∀ j, t.nextSibling j =
    if j = c then b.head? else if a.getLast? = some j then some c else s.nextSibling j
  prev : ∀ j, t.prevSibling j =
    if j = c then a.getLast? else if b.head? = some j then some c else s.prevSibling j
  first : ∀ j, t.firstChild j = if p = some j ∧ a = [] then some c else s.firstChild j
  last : ∀ j, t.lastChild j = if p = some j ∧ b = [] then some c else s.lastChild j
  /-- raw `previous_sibling` pointers -/
  raw : ∀ j, (j ≠ c ∧ (t.links j).prevSib = (s.links j).prevSib) ∨ t.prevSibling j = (t.links j).prevSib

theorem Reps.put {s t : St} {F : Forest} (h : Reps s F) {p : Option NodeId} {a b : List NodeId} {c : NodeId}
    (hc : s.live c = true) (hal : Alone F c) (hpl : Place F s.live p a b) (hne : c ∉ a ++ b)
    (hp : Put s t p a b c) : Reps t (F.attach p (a ++ c :: b) c) := by
  have hmem : ∀ j, j ∈ a ++ c :: b ↔ j = c ∨ j ∈ a ++ b := by
    intro j; simp only [List.mem_append, List.mem_cons]; tauto
  constructor
  · rw [hp.live]; exact h.wf.attach hc hal hpl hne
  · constructor
    · intro j hj; rw [hp.live] at hj
      rw [hp.parent, h.shows.parent j hj]; rfl
    · intro j hj; rw [hp.live] at hj
      rw [hp.next, h.shows.next j hj]
      simp only [Forest.attach]
      by_cases hm : j ∈ a ++ c :: b
      · simp only [hm, if_true]
        rw [after_mid hpl.nodup hne]
        rcases (hmem j).1 hm with h1 | h1
        · simp [h1]
        · rw [(hpl.grp j h1).2.1]
      · have h1 : j ≠ c := fun e => hm (by simp [e])
        have h2 : a.getLast? ≠ some j := fun e => hm (by simp [List.mem_of_getLast? e])
        simp [hm, h1, h2]
    · intro j hj; rw [hp.live] at hj
      rw [hp.prev, h.shows.prev j hj]
      simp only [Forest.attach]
      by_cases hm : j ∈ a ++ c :: b
      · simp only [hm, if_true]
        rw [before_mid hpl.nodup hne]
        rcases (hmem j).1 hm with h1 | h1
        · simp [h1]
        · rw [(hpl.grp j h1).2.1]
      · have h1 : j ≠ c := fun e => hm (by simp [e])
        have h2 : b.head? ≠ some j := fun e => hm (by simp [List.mem_of_mem_head? e])
        simp [hm, h1, h2]
    · intro j hj; rw [hp.live] at hj
      rw [hp.first, h.shows.first j hj]
      simp only [Forest.attach]
      by_cases hpj : p = some j
      · rw [(hpl.kids j hpj).2]
        cases a <;> simp [hpj]
      · simp [hpj]
    · intro j hj; rw [hp.live] at hj
      rw [hp.last, h.shows.last j hj]
      simp only [Forest.attach]
      by_cases hpj : p = some j
      · rw [(hpl.kids j hpj).2]
        cases b <;> simp [hpj, List.getLast?_append, List.getLast?_cons]
      · simp [hpj]
  · intro j hj hpar hpv
    have hj' := hj
    rw [hp.live] at hj
    rcases hp.raw j with ⟨hjc, hr⟩ | hr
    · rw [hr]
      rw [hp.prev] at hpv
      simp only [hjc, if_false] at hpv
      split at hpv
      · simp at hpv
      · rw [hp.parent] at hpar
        simp only [hjc, if_false] at hpar
        exact h.clean j hj hpar hpv
    · rw [← hr]; exact hpv

end Svgdom
