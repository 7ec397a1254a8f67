import Verif.Spec.Guard
import Verif.Props.Storage

/-!
# Proofs about `Model/Guard.lean`
-/

set_option autoImplicit false

namespace Svgdom

theorem bind_ok_left {α β : Type} (a : α) (f : α → Except Err β) : ((Except.ok a : Except Err α) >>= f) = f a := rfl

section
variable {g : Guards} {s : St}

theorem wr_free {held : List NodeId} {i : NodeId} (h : g i = .free) : wr g held i = borrowMut held i := by
  simp [wr, borrowMut, h]

theorem wr_guarded {held : List NodeId} {i : NodeId} (h : g i ≠ .free) : wr g held i = .error (.panic .borrowed) := by
  simp [wr, h]

theorem wr_nil {i : NodeId} (h : g i = .free) : wr g [] i = .ok () := by
  simp [wr, h]

theorem rd_free {i : NodeId} (h : g i = .free) : rd g i = .ok () := by
  simp [rd, h]

theorem rd_ok {i : NodeId} (h : g i ≠ .excl) : rd g i = .ok () := by
  simp [rd, h]

theorem rd_excl {i : NodeId} (h : g i = .excl) : rd g i = .error (.panic .borrowed) := by
  simp [rd, h]

theorem wr_ok_iff {held : List NodeId} {i : NodeId} : wr g held i = .ok () ↔ i ∉ held ∧ g i = .free := by
  unfold wr
  split
  · next h => simp only [reduceCtorEq, false_iff, not_and]; tauto
  · next h => simp only [true_iff]; tauto

theorem rd_ok_iff {i : NodeId} : rd g i = .ok () ↔ g i ≠ .excl := by
  unfold rd
  split <;> simp_all

theorem free_of {l : List NodeId} (h : ¬ Guarded g l) {n : NodeId} (hn : n ∈ l) : g n = .free := by
  by_contra hc
  exact h ⟨n, hn, hc⟩

theorem guarded_append {a b : List NodeId} : Guarded g (a ++ b) ↔ Guarded g a ∨ Guarded g b := by
  simp only [Guarded, List.mem_append]
  constructor
  · rintro ⟨n, hn | hn, h⟩
    · exact .inl ⟨n, hn, h⟩
    · exact .inr ⟨n, hn, h⟩
  · rintro (⟨n, hn, h⟩ | ⟨n, hn, h⟩)
    · exact ⟨n, .inl hn, h⟩
    · exact ⟨n, .inr hn, h⟩

theorem guarded_cons {a : NodeId} {b : List NodeId} : Guarded g (a :: b) ↔ g a ≠ .free ∨ Guarded g b := by
  simp [Guarded]

theorem guarded_toList {o : Option NodeId} : Guarded g o.toList ↔ ∃ n, o = some n ∧ g n ≠ .free := by
  cases o <;> simp [Guarded]

/-- The outcome of `detachCore` with guards. -/
theorem detachCoreG_eq (held : List NodeId) (i : NodeId) :
    s.detachCoreG g held i = if Guarded g (s.around i) then .error (.panic .borrowed) else s.detachCore held i := by
  unfold St.detachCoreG St.detachCore St.around
  have hu : ∀ w f, (s.setL i f).upgrade w = s.upgrade w := fun w f => rfl
  simp only [guarded_append, guarded_toList, St.nextSibling, St.parent, St.prevSibling]
  unfold St.detachNextG St.detachNext St.detachPrevG St.detachPrev
  simp only [hu]
  generalize (s.links i).nextSib = nx
  generalize hq : s.upgrade (s.links i).prevSib = pv
  generalize (s.links i).prevSib = pw
  have hb : ∀ n, (g n ≠ .free ∧ wr g held n = .error (.panic .borrowed)) ∨ (g n = .free ∧ wr g held n = borrowMut held n) := by
    intro n
    by_cases h : g n = .free
    · exact .inr ⟨h, wr_free h⟩
    · exact .inl ⟨h, wr_guarded h⟩
  have hm : ∀ n, borrowMut held n = .ok () ∨ borrowMut held n = .error (.panic .borrowed) := by
    intro n
    unfold borrowMut
    split <;> simp
  have hl : ∀ (w : Option NodeId) (t : St) (n : NodeId) (f : Links → Links), (t.setL n f).upgrade w = t.upgrade w := fun _ _ _ _ => rfl
  cases nx with
  | some n =>
    rcases hb n with ⟨h1, h2⟩ | ⟨h1, h2⟩
    · simp [h1, h2, bind, Except.bind]
    · rcases hm n with h3 | h3
      · simp only [h2, h3]
        cases pv with
        | some q =>
          rcases hb q with ⟨h4, h5⟩ | ⟨h4, h5⟩ <;> simp [h1, h4, h5, bind, Except.bind, pure, Except.pure]
        | none =>
          simp only [bind, Except.bind, pure, Except.pure, hl]
          generalize s.upgrade (s.links i).parent = pr
          cases pr with
          | some p => rcases hb p with ⟨h4, h5⟩ | ⟨h4, h5⟩ <;> simp [h1, h4, h5]
          | none => simp [h1]
      · simp only [h2, h3, bind, Except.bind, ite_self]
  | none =>
    generalize hpr : s.upgrade (s.links i).parent = pr
    cases pr with
    | some p =>
      rcases hb p with ⟨h1, h2⟩ | ⟨h1, h2⟩
      · simp [h1, h2, bind, Except.bind]
      · rcases hm p with h3 | h3
        · simp only [h2, h3]
          cases pv with
          | some q =>
            rcases hb q with ⟨h4, h5⟩ | ⟨h4, h5⟩ <;> simp [h1, h4, h5, bind, Except.bind, pure, Except.pure]
          | none =>
            simp [bind, Except.bind, pure, Except.pure, hl, hpr, h1, h2, h3]
        · simp [h2, h3, bind, Except.bind]
    | none =>
      cases pv with
      | some q =>
        rcases hb q with ⟨h4, h5⟩ | ⟨h4, h5⟩ <;> simp [h4, h5, bind, Except.bind, pure, Except.pure]
      | none => simp [bind, Except.bind, pure, Except.pure, hpr]

theorem detachG_eq (i : NodeId) :
    s.detachG g i = if Guarded g (i :: s.around i) then .error (.panic .borrowed) else s.detach i := by
  unfold St.detachG St.detach
  rw [detachCoreG_eq]
  by_cases h : g i = .free
  · rw [wr_nil h]
    simp only [guarded_cons, h, ne_eq, not_true_eq_false, false_or]
    rfl
  · rw [wr_guarded h, if_pos (guarded_cons.2 (.inl h))]
    rfl

open scoped Classical

/-- The start of a move: both nodes and the neighbours of the moved node are free, and the node is taken out. -/
theorem start_eq {α : Type} (p c : NodeId) (f : St → Except Err α) :
    (wr g [] p >>= fun _ => wr g [p] c >>= fun _ => s.detachCoreG g [p, c] c >>= f) =
      if p = c ∨ Guarded g (p :: c :: s.around c) ∨ s.blocked [p, c] c then .error (.panic .borrowed) else f (s.detached c) := by
  by_cases hp : g p = .free
  · rw [wr_nil hp]
    by_cases hc : g c = .free
    · rw [wr_free hc]
      by_cases hne : p = c
      · subst hne
        rw [if_pos (.inl rfl)]
        simp [borrowMut, bind, Except.bind]
      · have hb : borrowMut [p] c = .ok () := by simp [borrowMut, Ne.symm hne]
        rw [hb, detachCoreG_eq]
        have hg : Guarded g (p :: c :: s.around c) ↔ Guarded g (s.around c) := by simp [guarded_cons, hp, hc]
        by_cases ha : Guarded g (s.around c)
        · rw [if_pos ha, if_pos (.inr (.inl (hg.2 ha)))]
          rfl
        · rw [if_neg ha]
          by_cases hbl : s.blocked [p, c] c
          · rw [St.detachCore_blocked _ _ _ hbl, if_pos (.inr (.inr hbl))]
            rfl
          · rw [St.detachCore_ok _ _ _ hbl, if_neg (by tauto)]
            rfl
    · rw [wr_guarded hc, if_pos (.inr (.inl (by simp [guarded_cons, hc])))]
      rfl
  · rw [wr_guarded hp, if_pos (.inr (.inl (by simp [guarded_cons, hp])))]
    rfl

theorem start_plain {α : Type} (p c : NodeId) (f : St → Except Err α) :
    (s.detachCore [p, c] c >>= f) = if s.blocked [p, c] c then .error (.panic .borrowed) else f (s.detached c) := by
  by_cases hbl : s.blocked [p, c] c
  · rw [St.detachCore_blocked _ _ _ hbl, if_pos hbl]; rfl
  · rw [St.detachCore_ok _ _ _ hbl, if_neg hbl]; rfl

theorem appendG_eq {p c : NodeId} (hne : p ≠ c) : s.appendG g p c =
    if Guarded g (p :: c :: s.around c) ∨ (¬ s.blocked [p, c] c ∧ Guarded g ((s.detached c).lastChild p).toList) then
      .error (.panic .borrowed) else s.append p c := by
  unfold St.appendG St.append
  have ha : assertOrPanic (p != c) = .ok () := by simp [assertOrPanic, hne]
  rw [ha]
  simp only [bind_ok_left, start_eq, start_plain, hne, false_or]
  by_cases h1 : Guarded g (p :: c :: s.around c)
  · simp [h1]
  by_cases h2 : s.blocked [p, c] c
  · simp [h1, h2]
  simp only [h1, h2, or_self, if_false, not_false_eq_true, true_and, false_or, guarded_toList]
  simp only [St.setL_links, hne, if_false, St.setL_upgrade, St.lastChild]
  generalize (s.detached c).upgrade ((s.detached c).links p).lastChild = o
  cases o with
  | none => simp
  | some l =>
    by_cases hl : g l = .free
    · simp [hl, wr_free hl]
    · simp only [wr_guarded hl, Option.some.injEq, exists_eq_left', ne_eq, hl, not_false_eq_true, if_true]
      rfl

theorem prependG_eq {p c : NodeId} (hne : p ≠ c) : s.prependG g p c =
    if Guarded g (p :: c :: s.around c) ∨ (¬ s.blocked [p, c] c ∧ Guarded g ((s.detached c).firstChild p).toList) then
      .error (.panic .borrowed) else s.prepend p c := by
  unfold St.prependG St.prepend
  have ha : assertOrPanic (p != c) = .ok () := by simp [assertOrPanic, hne]
  rw [ha]
  simp only [bind_ok_left, start_eq, start_plain, hne, false_or]
  by_cases h1 : Guarded g (p :: c :: s.around c)
  · simp [h1]
  by_cases h2 : s.blocked [p, c] c
  · simp [h1, h2]
  simp only [h1, h2, or_self, if_false, not_false_eq_true, true_and, false_or, guarded_toList]
  simp only [St.setL_links, hne, if_false, St.setL_upgrade, St.firstChild]
  generalize ((s.detached c).links p).firstChild = o
  cases o with
  | none => simp
  | some l =>
    by_cases hl : g l = .free
    · simp [hl, wr_free hl]
    · simp only [wr_guarded hl, Option.some.injEq, exists_eq_left', ne_eq, hl, not_false_eq_true, if_true]
      rfl

theorem insertAfterG_eq {x y : NodeId} (hne : x ≠ y) : s.insertAfterG g x y =
    if Guarded g (x :: y :: s.around y) ∨
        (¬ s.blocked [x, y] y ∧ Guarded g (((s.detached y).nextSibling x).or (s.parent x)).toList) then
      .error (.panic .borrowed) else s.insertAfter x y := by
  unfold St.insertAfterG St.insertAfter
  have ha : assertOrPanic (x != y) = .ok () := by simp [assertOrPanic, hne]
  rw [ha]
  simp only [bind_ok_left, start_eq, start_plain, hne, false_or]
  by_cases h1 : Guarded g (x :: y :: s.around y)
  · simp [h1]
  by_cases h2 : s.blocked [x, y] y
  · simp [h1, h2]
  simp only [h1, h2, or_self, if_false, not_false_eq_true, true_and, false_or, guarded_toList]
  simp only [St.setL_links, hne, if_false, St.setL_upgrade, St.nextSibling, if_true]
  have hp : (s.detached y).upgrade ((s.detached y).links x).parent = s.parent x := by
    simp only [St.detached, St.detachedLinks, hne, if_false, St.parent, St.upgrade]
    rfl
  rw [hp]
  generalize ((s.detached y).links x).nextSib = o
  cases o with
  | none =>
    generalize s.parent x = q
    cases q with
    | none => simp
    | some l =>
      by_cases hl : g l = .free
      · simp [hl, wr_free hl]
      · simp only [wr_guarded hl, Option.or, Option.some.injEq, exists_eq_left', ne_eq, hl, not_false_eq_true, if_true]
        rfl
  | some l =>
    by_cases hl : g l = .free
    · simp [hl, wr_free hl]
    · simp only [wr_guarded hl, Option.or, Option.some.injEq, exists_eq_left', ne_eq, hl, not_false_eq_true, if_true]
      rfl

theorem insertBeforeG_eq {x y : NodeId} (hne : x ≠ y) : s.insertBeforeG g x y =
    if Guarded g (x :: y :: s.around y) ∨
        (¬ s.blocked [x, y] y ∧ Guarded g (((s.detached y).prevSibling x).or (s.parent x)).toList) then
      .error (.panic .borrowed) else s.insertBefore x y := by
  unfold St.insertBeforeG St.insertBefore
  have ha : assertOrPanic (x != y) = .ok () := by simp [assertOrPanic, hne]
  rw [ha]
  simp only [bind_ok_left, start_eq, start_plain, hne, false_or]
  by_cases h1 : Guarded g (x :: y :: s.around y)
  · simp [h1]
  by_cases h2 : s.blocked [x, y] y
  · simp [h1, h2]
  simp only [h1, h2, or_self, if_false, not_false_eq_true, true_and, false_or, guarded_toList]
  simp only [St.setL_links, hne, if_false, St.setL_upgrade, St.prevSibling, if_true]
  have hp : (s.detached y).upgrade ((s.detached y).links x).parent = s.parent x := by
    simp only [St.detached, St.detachedLinks, hne, if_false, St.parent, St.upgrade]
    rfl
  generalize (s.detached y).upgrade ((s.detached y).links x).prevSib = o
  cases o with
  | none =>
    simp only [St.setL_links, hne, if_false, St.setL_upgrade, if_true, hp]
    generalize s.parent x = q
    cases q with
    | none => simp
    | some l =>
      by_cases hl : g l = .free
      · simp [hl, wr_free hl]
      · simp only [wr_guarded hl, Option.or, Option.some.injEq, exists_eq_left', ne_eq, hl, not_false_eq_true, if_true]
        rfl
  | some l =>
    by_cases hl : g l = .free
    · simp [hl, wr_free hl]
    · simp only [wr_guarded hl, Option.or, Option.some.injEq, exists_eq_left', ne_eq, hl, not_false_eq_true, if_true]
      rfl

end

end Svgdom
