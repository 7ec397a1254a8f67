import Verif.Spec.Removals
import Verif.Props.Users

/-!
# Lemmas for C114
-/

set_option autoImplicit false

namespace Svgdom

/-! ### Lists of users -/

theorem count_keepLast (c : NodeId → Nat) (i : NodeId) : ∀ l : List NodeId, (keepLast c l).count i = min (l.count i) (c i)
  | [] => by simp [keepLast]
  | j :: l => by
    have ih := count_keepLast c i l
    rw [keepLast]
    by_cases e : j = i
    · subst e
      split
      · rw [List.count_cons_self, List.count_cons_self, ih]; omega
      · rw [List.count_cons_self, ih]; omega
    · split
      · rw [List.count_cons_of_ne e, List.count_cons_of_ne e, ih]
      · rw [List.count_cons_of_ne e, ih]

theorem keepLast_keepLast {c d : NodeId → Nat} (h : ∀ i, d i ≤ c i) : ∀ l : List NodeId, keepLast d (keepLast c l) = keepLast d l
  | [] => rfl
  | j :: l => by
    have ih := keepLast_keepLast h l
    have := h j
    rw [keepLast]
    split
    · rw [keepLast, keepLast, count_keepLast, ih]
      have : (min (l.count j) (c j) < d j) ↔ (l.count j < d j) := by omega
      simp only [this]
    · rw [keepLast, if_neg (by omega), ih]

/-! ### Pictures -/

theorem survives_congr {S S' : List NodeId} (e : ∀ j, j ∈ S ↔ j ∈ S') (j : NodeId) : survives S j = survives S' j := by
  funext a
  have h1 : S'.any (fun n => a.value.refersTo n) = S.any fun n => a.value.refersTo n := by
    rw [Bool.eq_iff_iff]; simp only [List.any_eq_true, e]
  simp only [survives, h1, e]

theorem survives_append (S S' : List NodeId) (j : NodeId) (a : Attribute) :
    survives (S ++ S') j a = (survives S' j a && survives S j a) := by
  unfold survives
  by_cases h1 : j ∈ S <;> by_cases h2 : j ∈ S' <;> cases a.isSvg <;> simp [h1, h2] <;>
    cases a.value.plain <;> simp [Bool.and_comm]

theorem Picture.remove_congr (P : Picture) {S S' : List NodeId} (e : ∀ j, j ∈ S ↔ j ∈ S') : P.remove S = P.remove S' := by
  simp only [Picture.remove, prune_congr _ e, survives_congr e, e]

theorem Picture.remove_remove (P : Picture) (S S' : List NodeId) : (P.remove S).remove S' = P.remove (S ++ S') := by
  simp only [Picture.remove, prune_prune, List.filter_filter]
  congr 1
  · funext j
    congr 1
    exact List.filter_congr fun a _ => (survives_append S S' j a).symm
  · funext j
    by_cases h1 : j ∈ S <;> by_cases h2 : j ∈ S' <;> simp [h1, h2]

theorem Picture.remove_nil (P : Picture) : P.remove [] = P := by
  have : ∀ j a, survives [] j a = true := fun j a => by simp [survives]
  simp only [Picture.remove, prune_nil]
  cases P
  simp only [Picture.mk.injEq, true_and]
  refine ⟨?_, ?_⟩
  · funext j
    rw [List.filter_eq_self.2 fun a _ => this j a]
  · simp

theorem refCount_filter (l : List Attribute) (p : Attribute → Bool) (n : NodeId) : refCount (l.filter p) n ≤ refCount l n := by
  unfold refCount
  rw [List.filter_comm]
  exact List.length_filter_le _ _

theorem Extras.unlink_unlink (X : Extras) (P Q : Picture) (h : ∀ i j, refCount (Q.look i).attrs j ≤ refCount (P.look i).attrs j) :
    (X.unlink P).unlink Q = X.unlink Q := by
  simp only [Extras.unlink]
  congr 1
  funext j
  exact keepLast_keepLast (fun i => h i j) _

/-! ### Subtrees after a removal -/

/-- Nothing is lost or added by removing a part first. -/
theorem inSubtree_removed {s t : St} {F : Forest} {S : List NodeId} (hF : Describes s F) (hl : t.live = s.live)
    (hG : Describes t (F.prune S)) (hS : ∀ i p, s.live i = true → s.Up i p → p ∈ S → i ∈ S) {a j : NodeId} (hj : s.live j = true) :
    (t.InSubtree a j → s.InSubtree a j) ∧ (s.InSubtree a j → j ∉ S → t.InSubtree a j) := by
  have up : ∀ i p, s.live i = true → (t.Up i p ↔ i ∉ S ∧ s.Up i p) := by
    intro i p hi
    unfold St.Up
    rw [hG.shows.parent i (hl ▸ hi), hF.shows.parent i hi]
    simp only [Forest.prune]
    by_cases e : i ∈ S <;> simp [e]
  constructor
  · intro h
    unfold St.InSubtree at h ⊢
    induction h using Relation.ReflTransGen.head_induction_on with
    | refl => exact .refl
    | @head i p h1 _ ih =>
      have := ((up i p hj).1 h1).2
      exact .head this (ih (up_live this))
  · intro h hn
    unfold St.InSubtree at h ⊢
    induction h using Relation.ReflTransGen.head_induction_on with
    | refl => exact .refl
    | @head i p h1 _ ih =>
      exact .head ((up i p hj).2 ⟨hn, h1⟩) (ih (up_live h1) fun hp => hn (hS i p hj h1 hp))

end Svgdom
