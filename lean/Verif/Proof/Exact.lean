import Verif.Proof.Lists

/-!
# Lists with one element erased, for C78
-/

set_option autoImplicit false

namespace Svgdom

section
variable {l : List NodeId} {c p x y : NodeId}

theorem erase_last_x (hn : l.Nodup) : (l.erase c).getLast? = some p →
    l.getLast? = some p ∨ (l.getLast? = some c ∧ before l c = some p) := by
  by_cases hc : c ∈ l
  · obtain ⟨a, b, rfl, h1, h2, _⟩ := nodup_split hn hc
    rw [List.erase_append_right _ h1, List.erase_cons_head, before_split h1]
    cases b with
    | nil => intro h; exact .inr ⟨by simp, by simpa using h⟩
    | cons z b => intro h; exact .inl (by simpa [List.getLast?_append, List.getLast?_cons_cons] using h)
  · rw [List.erase_of_not_mem hc]; exact .inl

theorem last_erase_x (hn : l.Nodup) (hne : p ≠ c) (h : l.getLast? = some p) : (l.erase c).getLast? = some p := by
  by_cases hc : c ∈ l
  · obtain ⟨a, b, rfl, h1, h2, _⟩ := nodup_split hn hc
    rw [List.erase_append_right _ h1, List.erase_cons_head]
    cases b with
    | nil => simp at h; exact absurd h.symm hne
    | cons z b => simpa [List.getLast?_append, List.getLast?_cons_cons] using h
  · rw [List.erase_of_not_mem hc]; exact h

theorem erase_head_x (hn : l.Nodup) : (l.erase c).head? = some p → l.head? = some p ∨ (l.head? = some c ∧ after l c = some p) := by
  by_cases hc : c ∈ l
  · obtain ⟨a, b, rfl, h1, h2, _⟩ := nodup_split hn hc
    rw [List.erase_append_right _ h1, List.erase_cons_head, after_split h1]
    cases a with
    | nil => intro h; exact .inr ⟨by simp, by simpa using h⟩
    | cons z a => intro h; exact .inl (by simpa using h)
  · rw [List.erase_of_not_mem hc]; exact .inl

theorem head_erase_x (hn : l.Nodup) (hne : p ≠ c) (h : l.head? = some p) : (l.erase c).head? = some p := by
  cases l with
  | nil => simp at h
  | cons z l =>
    simp only [List.head?_cons, Option.some.injEq] at h
    subst h
    rw [List.erase_cons_tail (by simpa using hne)]
    rfl

theorem erase_after_x (hn : l.Nodup) (hne : x ≠ y) (h : after (l.erase y) x = none) :
    after l x = none ∨ after l x = some y := by
  by_cases hy : y ∈ l
  · obtain ⟨a, b, rfl, h1, h2, h3, h4, h5⟩ := nodup_split hn hy
    rw [List.erase_append_right _ h1, List.erase_cons_head] at h
    rw [after_mid (List.nodup_append.2 ⟨h3, h4, fun u hu v hv e => h5 u hu (e ▸ hv)⟩) (by simp [h1, h2]), if_neg hne]
    split
    · exact .inr rfl
    · exact .inl h
  · rw [List.erase_of_not_mem hy] at h; exact .inl h

theorem after_erase_x (hn : l.Nodup) (hne : x ≠ y) (h : after l x = none) : after (l.erase y) x = none := by
  by_cases hy : y ∈ l
  · obtain ⟨a, b, rfl, h1, h2, h3, h4, h5⟩ := nodup_split hn hy
    rw [List.erase_append_right _ h1, List.erase_cons_head]
    rw [after_mid (List.nodup_append.2 ⟨h3, h4, fun u hu v hv e => h5 u hu (e ▸ hv)⟩) (by simp [h1, h2]), if_neg hne] at h
    split at h
    · simp at h
    · exact h
  · rw [List.erase_of_not_mem hy]; exact h

theorem erase_before_x (hn : l.Nodup) (hne : x ≠ y) (h : before (l.erase y) x = none) :
    before l x = none ∨ before l x = some y := by
  by_cases hy : y ∈ l
  · obtain ⟨a, b, rfl, h1, h2, h3, h4, h5⟩ := nodup_split hn hy
    rw [List.erase_append_right _ h1, List.erase_cons_head] at h
    rw [before_mid (List.nodup_append.2 ⟨h3, h4, fun u hu v hv e => h5 u hu (e ▸ hv)⟩) (by simp [h1, h2]), if_neg hne]
    split
    · exact .inr rfl
    · exact .inl h
  · rw [List.erase_of_not_mem hy] at h; exact .inl h

theorem before_erase_x (hn : l.Nodup) (hne : x ≠ y) (h : before l x = none) : before (l.erase y) x = none := by
  by_cases hy : y ∈ l
  · obtain ⟨a, b, rfl, h1, h2, h3, h4, h5⟩ := nodup_split hn hy
    rw [List.erase_append_right _ h1, List.erase_cons_head]
    rw [before_mid (List.nodup_append.2 ⟨h3, h4, fun u hu v hv e => h5 u hu (e ▸ hv)⟩) (by simp [h1, h2]), if_neg hne] at h
    split at h
    · simp at h
    · exact h
  · rw [List.erase_of_not_mem hy]; exact h

end

end Svgdom
