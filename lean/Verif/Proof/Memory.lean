import Verif.Proof.Drop
import Verif.Proof.Links
import Verif.Proof.Acyclic
import Verif.Spec.Memory
import Mathlib.Order.WellFounded
import Mathlib.Data.Fintype.EquivFin

/-! Freeing of trees. -/

set_option autoImplicit false

namespace Svgdom

theorem Freed.head {s t : St} {i : NodeId} (hi : s.live i = true) (hr : ¬ s.nodeRef i) (h : Freed (s.free i) t) : Freed s t := by
  induction h with
  | refl => exact .step i .refl hi hr
  | step j _ h1 h2 ih => exact .step j ih h1 h2

/-- No live node has links or back references. -/
def St.Unlinked (s : St) : Prop :=
  ∀ i, s.live i = true → s.linkedNodes i = [] ∧ ∀ a ∈ s.attributes i, a.value.linkNode = none

/-- An ascending chain in an acyclic state ends. -/
theorem exists_top {s : St} (ha : s.Acyclic) (hb : LiveBelow s) {i : NodeId} (hi : s.live i = true) :
    ∃ r, s.live r = true ∧ s.parent r = none := by
  obtain ⟨f, hf, _⟩ := ranked_of_acyclic ha hb
  have key : ∀ (k : Nat) (i : NodeId), f i ≤ k → s.live i = true → ∃ r, s.live r = true ∧ s.parent r = none := by
    intro k
    induction k with
    | zero =>
      intro i hk hi
      refine ⟨i, hi, ?_⟩
      cases hp : s.parent i with
      | none => rfl
      | some p => exact absurd (hf i hi p hp) (by omega)
    | succ k ih =>
      intro i hk hi
      cases hp : s.parent i with
      | none => exact ⟨i, hi, hp⟩
      | some p =>
        have := hf i hi p hp
        exact ih p (by omega) (up_live hp)
  exact key _ i (Nat.le_refl _) hi

theorem exists_free {s : St} {F : Forest} (h : HeapInv s F) (ha : s.Acyclic) (hu : s.Unlinked) {i : NodeId} (hi : s.live i = true) :
    ∃ r, s.live r = true ∧ ¬ s.nodeRef r := by
  obtain ⟨r, hr, hp⟩ := exists_top ha h.liveBelow hi
  have hFr : F.par r = none := by rw [← h.reps.shows.parent r hr]; exact hp
  have hself := h.reps.wf.self_mem r hr
  cases hsib : F.sibs r with
  | nil => rw [hsib] at hself; simp at hself
  | cons q b =>
    obtain ⟨hq, hqs, hqp⟩ := h.reps.wf.sib r hr q (by rw [hsib]; simp)
    refine ⟨q, hq, ?_⟩
    rintro ⟨j, hj, hc⟩
    rcases hc with hc | hc | hc | ⟨a, hc, hl⟩
    · rw [h.reps.shows.first j hj] at hc
      have := (h.reps.wf.kids j hj q (List.mem_of_mem_head? hc)).2
      rw [hqp, hFr] at this
      simp at this
    · rw [h.reps.shows.next j hj] at hc
      have hm := after_mem hc
      obtain ⟨_, hs, _⟩ := h.reps.wf.sib j hj q hm
      rw [hqs, hsib] at hs
      have hnd := h.reps.wf.nodup j hj
      rw [← hs] at hc hnd
      rw [List.nodup_cons] at hnd
      by_cases hjq : j = q
      · subst hjq
        rw [show j :: b = [] ++ j :: b from rfl, after_split (by simp)] at hc
        exact hnd.1 (List.mem_of_mem_head? hc)
      · rw [after_tail hjq] at hc
        exact hnd.1 (after_mem hc)
    · rw [(hu j hj).1] at hc; simp at hc
    · rw [(hu j hj).2 a hc] at hl; simp at hl

theorem all_freed (k : Nat) : ∀ {s : St} {F : Forest}, HeapInv s F → s.Acyclic → s.Unlinked →
    ((List.range s.nextId).filter s.live).length ≤ k → ∃ u, Freed s u ∧ ∀ j, u.live j = false := by
  induction k with
  | zero =>
    intro s F h ha hu hk
    refine ⟨s, .refl, fun j => ?_⟩
    cases hj : s.live j with
    | false => rfl
    | true =>
      have : j ∈ (List.range s.nextId).filter s.live := by simp [hj, h.liveBelow j hj]
      rw [List.length_eq_zero_iff.1 (Nat.le_zero.1 hk)] at this
      simp at this
  | succ k ih =>
    intro s F h ha hu hk
    by_cases he : ∃ i, s.live i = true
    · obtain ⟨i, hi⟩ := he
      obtain ⟨r, hr, hn⟩ := exists_free h ha hu hi
      have hlv : ∀ j, (s.free r).live j = true ↔ j ≠ r ∧ s.live j = true := by
        intro j; simp [St.free]
      have h' : HeapInv (s.free r) (F.drop r) := h.free hr hn
      have ha' : (s.free r).Acyclic := by
        refine acyclic_sub ha (fun i hi => ((hlv i).1 hi).2) (fun j p _ hp => ?_)
        simp only [St.parent, free_upgrade] at hp ⊢
        split at hp
        · simp at hp
        · exact hp
      have hu' : (s.free r).Unlinked := fun j hj => hu j ((hlv j).1 hj).2
      obtain ⟨u, hu1, hu2⟩ := ih h' ha' hu' (by
        have hsub : ((List.range s.nextId).filter (s.free r).live).length < ((List.range s.nextId).filter s.live).length := by
          have : (List.range s.nextId).filter (s.free r).live = ((List.range s.nextId).filter s.live).erase r := by
            rw [List.Nodup.erase_eq_filter (List.nodup_range.filter _), List.filter_filter]
            apply List.filter_congr
            intro x _
            simp only [St.free]
            by_cases hx : x = r <;> simp [hx]
          rw [this]
          have hm : r ∈ (List.range s.nextId).filter s.live := by simp [hr, h.liveBelow r hr]
          rw [List.length_erase_of_mem hm]
          have := List.length_pos_of_mem hm
          omega
        have : (s.free r).nextId = s.nextId := rfl
        rw [this]; omega)
      exact ⟨u, hu1.head hr hn, hu2⟩
    · refine ⟨s, .refl, fun j => ?_⟩
      cases hj : s.live j with
      | false => rfl
      | true => exact absurd ⟨j, hj⟩ he

/-! ## Cycles of references -/

theorem Freed.data {s t : St} (h : Freed s t) : t.data = s.data ∧ t.links = s.links := by
  induction h with
  | refl => exact ⟨rfl, rfl⟩
  | step j _ _ _ ih => exact ih

theorem holds_free {s : St} {r a b : NodeId} (h : (s.free r).Holds a b) : s.Holds a b := by
  obtain ⟨h1, h2⟩ := h
  simp [St.free] at h1
  exact ⟨h1.2, h2⟩

/-- In a finite heap without cycles of references some node is not referred to. -/
theorem exists_source {s : St} (hb : LiveBelow s) (hc : ∀ i, s.live i = true → ¬ Relation.TransGen s.Holds i i) {i : NodeId}
    (hi : s.live i = true) : ∃ r, s.live r = true ∧ ¬ s.nodeRef r := by
  let A := {j : NodeId // s.live j = true}
  have : Finite A := Finite.of_injective (fun a : A => (⟨a.1, hb a.1 a.2⟩ : Fin s.nextId)) (by
    intro a b hab
    simp only [Fin.mk.injEq] at hab
    exact Subtype.ext hab)
  let R : A → A → Prop := fun a b => Relation.TransGen s.Holds a.1 b.1
  have : IsTrans A R := ⟨fun a b c => Relation.TransGen.trans⟩
  have : Std.Irrefl R := ⟨fun a h => hc a.1 a.2 h⟩
  obtain ⟨m, _, hm⟩ := (Finite.wellFounded_of_trans_of_irrefl R).has_min Set.univ ⟨⟨i, hi⟩, trivial⟩
  refine ⟨m.1, m.2, ?_⟩
  rintro ⟨j, hj⟩
  exact hm ⟨j, hj.1⟩ trivial (.single hj)

theorem all_freed_acyclic (k : Nat) : ∀ {s : St}, LiveBelow s → (∀ i, s.live i = true → ¬ Relation.TransGen s.Holds i i) →
    ((List.range s.nextId).filter s.live).length ≤ k → ∃ u, Freed s u ∧ ∀ j, u.live j = false := by
  induction k with
  | zero =>
    intro s hb hc hk
    refine ⟨s, .refl, fun j => ?_⟩
    cases hj : s.live j with
    | false => rfl
    | true =>
      have : j ∈ (List.range s.nextId).filter s.live := by simp [hj, hb j hj]
      rw [List.length_eq_zero_iff.1 (Nat.le_zero.1 hk)] at this
      simp at this
  | succ k ih =>
    intro s hb hc hk
    by_cases he : ∃ i, s.live i = true
    · obtain ⟨i, hi⟩ := he
      obtain ⟨r, hr, hn⟩ := exists_source hb hc hi
      have hlv : ∀ j, (s.free r).live j = true → s.live j = true := by
        intro j hj; simp [St.free] at hj; exact hj.2
      obtain ⟨u, hu1, hu2⟩ := ih (s := s.free r) (fun j hj => hb j (hlv j hj))
        (fun j hj hh => hc j (hlv j hj) (Relation.TransGen.mono (fun a b (hab : (s.free r).Holds a b) => holds_free hab) _ _ hh)) (by
        have hsub : ((List.range s.nextId).filter (s.free r).live).length < ((List.range s.nextId).filter s.live).length := by
          have : (List.range s.nextId).filter (s.free r).live = ((List.range s.nextId).filter s.live).erase r := by
            rw [List.Nodup.erase_eq_filter (List.nodup_range.filter _), List.filter_filter]
            apply List.filter_congr
            intro x _
            simp only [St.free]
            by_cases hx : x = r <;> simp [hx]
          rw [this]
          have hm : r ∈ (List.range s.nextId).filter s.live := by simp [hr, hb r hr]
          rw [List.length_erase_of_mem hm]
          have := List.length_pos_of_mem hm
          omega
        have : (s.free r).nextId = s.nextId := rfl
        rw [this]; omega)
      exact ⟨u, hu1.head hr hn, hu2⟩
    · refine ⟨s, .refl, fun j => ?_⟩
      cases hj : s.live j with
      | false => rfl
      | true => exact absurd ⟨j, hj⟩ he

/-- The nodes on a cycle of references stay. -/
theorem cycle_stays {s u : St} {i : NodeId} (hc : Relation.TransGen s.Holds i i) (h : Freed s u) :
    ∀ k, Relation.TransGen s.Holds i k → Relation.TransGen s.Holds k i → u.live k = true := by
  induction h with
  | refl =>
    intro k _ hk
    cases (Relation.TransGen.head'_iff.1 hk) with
    | intro c hh => exact hh.1.1
  | @step t j hf _ hr ih =>
    intro k h1 h2
    have hk := ih k h1 h2
    have hne : k ≠ j := by
      rintro rfl
      obtain ⟨p, hp1, hp2⟩ := Relation.TransGen.tail'_iff.1 h1
      have hpc : Relation.TransGen s.Holds p i := .head hp2 h2
      have hip : Relation.TransGen s.Holds i p := by
        rcases Relation.reflTransGen_iff_eq_or_transGen.1 hp1 with rfl | h
        · exact hc
        · exact h
      refine hr ⟨p, ih p hip hpc, ?_⟩
      have := hp2.2
      simpa only [St.firstChild, St.nextSibling, St.linkedNodes, St.attributes, hf.data.1, hf.data.2] using this
    simp [St.free, hne, hk]

end Svgdom
