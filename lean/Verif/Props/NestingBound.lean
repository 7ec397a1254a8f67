import Verif.Props.Nesting

/-!
# C98: how deep drops nest after any history
-/

set_option autoImplicit false

namespace Svgdom

/-- The nodes that still exist and are not stored in the document. -/
def St.outside (s : St) : List NodeId := (List.range s.nextId).filter fun j => s.live j && decide (j ∉ s.slab.nodes)

/-- C98 after any history: the drops nest at most as deep as there are nodes outside of the document. -/
theorem C98_bound {s : St} (h : Reachable s) {i : NodeId} {n : Nat} (hN : Nested St.strongRef s i n) : n ≤ s.outside.length := by
  have key : ∀ {s : St} {i : NodeId}, (∀ j, s.live j = true → j < s.nextId) → s.live i = true → ¬ s.strongRef i →
      (s.free i).outside = s.outside.erase i ∧ i ∈ s.outside := by
    intro s i hb hl hn
    have hm : i ∈ s.outside := by
      simp only [St.outside, List.mem_filter, List.mem_range, Bool.and_eq_true, decide_eq_true_eq]
      exact ⟨hb i hl, hl, fun hc => hn (.inr (.inl hc))⟩
    refine ⟨?_, hm⟩
    have hd : s.outside.Nodup := List.Nodup.filter _ List.nodup_range
    rw [List.Nodup.erase_eq_filter hd]
    simp only [St.outside, List.filter_filter, St.free]
    refine List.filter_congr fun j _ => ?_
    by_cases hj : j = i
    · subst hj
      simp
    · have : (j != i) = true := bne_iff_ne.2 hj
      rw [this, if_neg hj, Bool.true_and]
      exact congrArg (s.live j && ·) (decide_eq_decide.2 Iff.rfl)
  have hb : ∀ j, s.live j = true → j < s.nextId := h.inv.liveBelow
  clear h
  induction hN with
  | last hl hn => exact List.length_pos_of_mem (key hb hl hn).2
  | @more s i j n hl hn _ _ ih =>
    obtain ⟨k1, k2⟩ := key hb hl hn
    have := ih (fun m hm => hb m (by
      simp only [St.free] at hm
      split at hm
      · simp at hm
      · exact hm))
    rw [k1, List.length_erase_of_mem k2] at this
    have := List.length_pos_of_mem k2
    omega

/-- C98: this bound is reached, for every number of nodes. -/
theorem C98_sharp (debug : Bool) (n : Nat) : ∃ s, Reachable s ∧ s.Acyclic ∧ s.outside.length = n + 1 ∧ Nested St.strongRef s 1 (n + 1) := by
  obtain ⟨s, P, h1, h2, h3, h4⟩ := chain_exists debug n
  refine ⟨s, h1, h2, ?_, IsChain.nested (k := 0) h1 h3 h4 (by omega)⟩
  have key : ∀ m : Nat, m < n + 1 → m + 1 ≤ n + 1 := by omega
  have hn : s.nextId = n + 2 := by rw [← h3.next, h4.next]
  have : s.outside = (List.range (n + 1)).map (· + 1) := by
    rw [St.outside, hn, List.range_succ_eq_map, List.filter_cons]
    have h0 : s.live 0 = true := by rw [← h3.live]; exact (h4.live 0).2 (.inl rfl)
    have h0s : 0 ∈ s.slab.nodes := by
      rw [← C24_detached h1 h0]
      have := h3.stored 0 h0
      rw [(h4.stored 0 (by rw [h3.live]; exact h0)).2 rfl] at this
      simpa using this.symm
    simp only [h0, h0s, not_true, decide_false, Bool.and_false, Bool.false_eq_true, if_false]
    rw [List.filter_eq_self.2]
    · intro j hj
      obtain ⟨m, hm, rfl⟩ := List.mem_map.1 hj
      rw [List.mem_range] at hm
      have hl : P.live (m + 1) = true := (h4.live _).2 (.inr ⟨Nat.succ_pos m, key m hm⟩)
      have hl' : s.live (m + 1) = true := by rw [← h3.live]; exact hl
      have hs : (m + 1) ∉ s.slab.nodes := by
        intro hc
        rw [← C24_detached h1 hl'] at hc
        have := h3.stored (m + 1) hl'
        rw [hc] at this
        exact absurd ((h4.stored _ hl).1 (by simpa using this)) (Nat.succ_ne_zero m)
      simp [hl', hs]
  rw [this, List.length_map, List.length_range]

end Svgdom
