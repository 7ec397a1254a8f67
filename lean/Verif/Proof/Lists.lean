import Verif.Spec.Forest
import Mathlib.Data.List.Basic
import Mathlib.Data.List.Nodup

/-! List lemmas about `after`, `before`, `insAfter`, `insBefore`, `erase`. -/

namespace Svgdom

theorem after_split {a b : List NodeId} {x : NodeId} (h : x ∉ a) : after (a ++ x :: b) x = b.head? := by
  induction a with
  | nil => simp [after]
  | cons c t ih =>
    simp only [List.mem_cons, not_or] at h
    simp [after, Ne.symm h.1, ih h.2]

theorem before_split {a b : List NodeId} {x : NodeId} (h : x ∉ a) : before (a ++ x :: b) x = a.getLast? := by
  induction a with
  | nil => 
    cases b with
    | nil => rfl
    | cons d t => simp [before]
  | cons c t ih =>
    simp only [List.mem_cons, not_or] at h
    cases t with
    | nil => simp [before, Ne.symm h.1]
    | cons d t =>
      simp only [List.mem_cons, not_or] at h ih
      have := ih h.2
      simp only [List.cons_append, before, Ne.symm h.1, if_false, Ne.symm h.2.1] at this ⊢
      rw [this]; simp [List.getLast?_cons_cons]

theorem exists_split {l : List NodeId} {x : NodeId} (h : x ∈ l) : ∃ a b, l = a ++ x :: b ∧ x ∉ a := by
  induction l with
  | nil => simp at h
  | cons c t ih =>
    by_cases hc : c = x
    · exact ⟨[], t, by simp [hc], by simp⟩
    · have : x ∈ t := by
        rcases List.mem_cons.1 h with h | h
        · exact absurd h.symm hc
        · exact h
      obtain ⟨a, b, e, hn⟩ := ih this
      exact ⟨c :: a, b, by simp [e], by simp [hn, Ne.symm hc]⟩

theorem nodup_split {l : List NodeId} {x : NodeId} (hn : l.Nodup) (h : x ∈ l) :
    ∃ a b, l = a ++ x :: b ∧ x ∉ a ∧ x ∉ b ∧ a.Nodup ∧ b.Nodup ∧ (∀ y ∈ a, y ∉ b) := by
  obtain ⟨a, b, e, hx⟩ := exists_split h
  subst e
  rw [List.nodup_append] at hn
  obtain ⟨h1, h2, h3⟩ := hn
  rw [List.nodup_cons] at h2
  exact ⟨a, b, rfl, hx, h2.1, h1, h2.2, fun y hy hyb => h3 y hy y (List.mem_cons_of_mem _ hyb) rfl⟩

theorem insAfter_split {a b : List NodeId} {x y : NodeId} (h : x ∉ a) :
    insAfter (a ++ x :: b) x y = a ++ x :: y :: b := by
  induction a with
  | nil => simp [insAfter]
  | cons c t ih =>
    simp only [List.mem_cons, not_or] at h
    simp [insAfter, Ne.symm h.1, ih h.2]

theorem insBefore_split {a b : List NodeId} {x y : NodeId} (h : x ∉ a) :
    insBefore (a ++ x :: b) x y = a ++ y :: x :: b := by
  induction a with
  | nil => simp [insBefore]
  | cons c t ih =>
    simp only [List.mem_cons, not_or] at h
    simp [insBefore, Ne.symm h.1, ih h.2]

theorem erase_split {a b : List NodeId} {x : NodeId} (h : x ∉ a) : (a ++ x :: b).erase x = a ++ b := by
  induction a with
  | nil => simp
  | cons c t ih =>
    simp only [List.mem_cons, not_or] at h
    rw [List.cons_append, List.erase_cons_tail (by simp [Ne.symm h.1]), ih h.2, List.cons_append]

theorem mem_insAfter {l : List NodeId} {x y z : NodeId} (hx : x ∈ l) : z ∈ insAfter l x y ↔ z = y ∨ z ∈ l := by
  obtain ⟨a, b, e, hn⟩ := exists_split hx
  subst e; rw [insAfter_split hn]; simp only [List.mem_append, List.mem_cons]; tauto

theorem mem_insBefore {l : List NodeId} {x y z : NodeId} (hx : x ∈ l) : z ∈ insBefore l x y ↔ z = y ∨ z ∈ l := by
  obtain ⟨a, b, e, hn⟩ := exists_split hx
  subst e; rw [insBefore_split hn]; simp only [List.mem_append, List.mem_cons]; tauto

/-- In a duplicate-free list, the element after the last element of a prefix is the head of the rest. -/
theorem after_getLast {a b : List NodeId} {q : NodeId} (hn : (a ++ b).Nodup) (h : a.getLast? = some q) :
    after (a ++ b) q = b.head? := by
  obtain ⟨a', rfl⟩ : ∃ a', a = a' ++ [q] := by
    rw [List.getLast?_eq_some_iff] at h; exact h
  have : q ∉ a' := by
    intro hm
    rw [List.append_assoc, List.nodup_append] at hn
    exact hn.2.2 q hm q (by simp) rfl
  rw [List.append_assoc, List.singleton_append, after_split this]

theorem before_head {a b : List NodeId} {q : NodeId} (hn : (a ++ b).Nodup) (h : b.head? = some q) :
    before (a ++ b) q = a.getLast? := by
  obtain ⟨b', rfl⟩ : ∃ b', b = q :: b' := by
    cases b with
    | nil => simp at h
    | cons c t => simp at h; exact ⟨t, by rw [h]⟩
  have : q ∉ a := by
    intro hm
    rw [List.nodup_append] at hn
    exact hn.2.2 q hm q (by simp) rfl
  exact before_split this

theorem after_mem {l : List NodeId} {x y : NodeId} (h : after l x = some y) : y ∈ l := by
  induction l with
  | nil => simp [after] at h
  | cons c t ih =>
    simp only [after] at h
    split at h
    · exact List.mem_cons_of_mem _ (List.mem_of_mem_head? h)
    · exact List.mem_cons_of_mem _ (ih h)

theorem before_mem {l : List NodeId} {x y : NodeId} (h : before l x = some y) : y ∈ l := by
  induction l with
  | nil => simp [before] at h
  | cons c t ih =>
    cases t with
    | nil => simp [before] at h
    | cons d t =>
      simp only [before] at h
      split at h
      · simp at h
      · split at h
        · simp at h; simp [h]
        · exact List.mem_cons_of_mem _ (ih h)

theorem after_not_mem {l : List NodeId} {x : NodeId} (h : x ∉ l) : after l x = none := by
  induction l with
  | nil => rfl
  | cons c t ih =>
    simp only [List.mem_cons, not_or] at h
    simp [after, Ne.symm h.1, ih h.2]

theorem before_not_mem {l : List NodeId} {x : NodeId} (h : x ∉ l) : before l x = none := by
  induction l with
  | nil => rfl
  | cons c t ih =>
    simp only [List.mem_cons, not_or] at h
    cases t with
    | nil => rfl
    | cons d t =>
      simp only [List.mem_cons, not_or] at h
      simp only [before, Ne.symm h.1, if_false, Ne.symm h.2.1]
      exact ih (by simp [h.2])

theorem after_append_right {a b : List NodeId} {x : NodeId} (h : x ∉ a) : after (a ++ b) x = after b x := by
  induction a with
  | nil => rfl
  | cons c t ih =>
    simp only [List.mem_cons, not_or] at h
    simp [after, Ne.symm h.1, ih h.2]

/-- Inserting `c` between `a` and `b`. -/
theorem after_mid {a b : List NodeId} {c j : NodeId} (hn : (a ++ b).Nodup) (hc : c ∉ a ++ b) :
    after (a ++ c :: b) j =
      if j = c then b.head? else if a.getLast? = some j then some c else after (a ++ b) j := by
  simp only [List.mem_append, not_or] at hc
  split
  · next h => subst h; exact after_split hc.1
  · next hj =>
    have hn' : (a ++ c :: b).Nodup := by
      rw [List.nodup_middle, List.nodup_cons]; exact ⟨by simp [hc], hn⟩
    split
    · next h => rw [after_getLast hn' h]; rfl
    · next h =>
      by_cases hm : j ∈ a
      · obtain ⟨a1, a2, e, h1⟩ := exists_split hm
        subst e
        simp only [List.append_assoc, List.cons_append]
        rw [after_split h1, after_split h1]
        cases a2 with
        | nil => simp at h
        | cons d t => simp
      · rw [after_append_right hm, after_append_right hm]
        simp [after, Ne.symm hj]

theorem before_mid {a b : List NodeId} {c j : NodeId} (hn : (a ++ b).Nodup) (hc : c ∉ a ++ b) :
    before (a ++ c :: b) j =
      if j = c then a.getLast? else if b.head? = some j then some c else before (a ++ b) j := by
  simp only [List.mem_append, not_or] at hc
  have hn' : (a ++ c :: b).Nodup := by
    rw [List.nodup_middle, List.nodup_cons]; exact ⟨by simp [hc], hn⟩
  split
  · next h => subst h; exact before_split hc.1
  · next hj =>
    split
    · next h =>
      have : a ++ c :: b = (a ++ [c]) ++ b := by simp
      rw [this] at hn' ⊢
      rw [before_head hn' h]; simp
    · next h =>
      by_cases hm : j ∈ a ++ b
      · obtain ⟨l1, l2, e, h1⟩ := exists_split hm
        rw [e, before_split h1]
        rw [List.append_eq_append_iff] at e
        rcases e with ⟨u, rfl, e2⟩ | ⟨u, rfl, e2⟩
        · cases u with
          | nil =>
            simp only [List.nil_append] at e2
            subst e2; simp at h
          | cons d u =>
            have : a ++ c :: b = (a ++ c :: d :: u) ++ j :: l2 := by rw [e2]; simp
            rw [this, before_split]
            · simp
            · simp only [List.mem_append, List.mem_cons, not_or] at h1 ⊢
              exact ⟨h1.1, hj, h1.2⟩
        · cases u with
          | nil =>
            simp only [List.nil_append] at e2
            subst e2; simp at h
          | cons d u =>
            simp only [List.cons_append, List.cons.injEq] at e2
            obtain ⟨rfl, rfl⟩ := e2
            simp only [List.append_assoc, List.cons_append]
            rw [before_split h1]
      · rw [before_not_mem hm, before_not_mem]
        simp only [List.mem_append, List.mem_cons, not_or] at hm ⊢
        exact ⟨hm.1, hj, hm.2⟩

theorem after_erase {l : List NodeId} {i j : NodeId} (hn : l.Nodup) (hj : j ≠ i) :
    after (l.erase i) j = if before l i = some j then after l i else after l j := by
  by_cases hm : i ∈ l
  · obtain ⟨a, b, rfl, h1, h2, h3, h4, h5⟩ := nodup_split hn hm
    have hab : (a ++ b).Nodup := by
      rw [List.nodup_middle, List.nodup_cons] at hn; exact hn.2
    rw [erase_split h1, before_split h1, after_split h1]
    rw [after_mid hab (by simp [h1, h2])]
    simp only [hj, if_false]
    split
    · next h => exact after_getLast hab h
    · rfl
  · rw [List.erase_of_not_mem hm, before_not_mem hm]; simp

theorem before_erase {l : List NodeId} {i j : NodeId} (hn : l.Nodup) (hj : j ≠ i) :
    before (l.erase i) j = if after l i = some j then before l i else before l j := by
  by_cases hm : i ∈ l
  · obtain ⟨a, b, rfl, h1, h2, h3, h4, h5⟩ := nodup_split hn hm
    have hab : (a ++ b).Nodup := by
      rw [List.nodup_middle, List.nodup_cons] at hn; exact hn.2
    rw [erase_split h1, before_split h1, after_split h1]
    rw [before_mid hab (by simp [h1, h2])]
    simp only [hj, if_false]
    split
    · next h => exact before_head hab h
    · rfl
  · rw [List.erase_of_not_mem hm, after_not_mem hm]; simp

theorem head_erase {l : List NodeId} {i : NodeId} (hm : i ∈ l) :
    (l.erase i).head? = if before l i = none then after l i else l.head? := by
  obtain ⟨a, b, rfl, h1⟩ := exists_split hm
  rw [erase_split h1, before_split h1, after_split h1]
  cases a with
  | nil => simp
  | cons c t => simp

theorem getLast_erase {l : List NodeId} {i : NodeId} (hm : i ∈ l) :
    (l.erase i).getLast? = if after l i = none then before l i else l.getLast? := by
  obtain ⟨a, b, rfl, h1⟩ := exists_split hm
  rw [erase_split h1, before_split h1, after_split h1]
  cases b with
  | nil => simp
  | cons c t => simp [List.getLast?_append, List.getLast?_cons]

theorem before_head_none {l : List NodeId} {x : NodeId} (h : l.head? = some x) : before l x = none := by
  cases l with
  | nil => rfl
  | cons c t =>
    simp only [List.head?_cons, Option.some.injEq] at h
    subst h
    exact before_split (a := []) (by simp)

theorem after_last_none {l : List NodeId} {x : NodeId} (hn : l.Nodup) (h : l.getLast? = some x) : after l x = none := by
  have := after_getLast (a := l) (b := []) (by simpa using hn) h
  simpa using this

end Svgdom
