import Verif.Spec.Unwind
import Verif.Props.Storage

/-!
# Proofs about `Model/Unwind.lean`
-/

set_option autoImplicit false

namespace Svgdom

/-- Forget the state at the panic. -/
def forget {α : Type} (r : Except (Err × St) α) : Except Err α := r.mapError Prod.fst

theorem forget_fails (s : St) (r : Except Err Unit) : forget (s.fails r) = r := by
  cases r <;> rfl

theorem forget_bind {α β : Type} (r : Except (Err × St) α) (f : α → Except (Err × St) β) :
    forget (r >>= f) = forget r >>= fun a => forget (f a) := by
  cases r <;> rfl

theorem forget_pure {α : Type} (a : α) : forget (pure a) = pure a := rfl

theorem detachCoreU_agrees (s : St) (held : List NodeId) (i : NodeId) :
    forget (s.detachCoreU held i) = s.detachCore held i := by
  unfold St.detachCoreU St.detachCore
  simp only [forget_bind]
  congr 1
  · unfold St.detachNextU St.detachNext
    split
    · simp only [*, forget_bind, forget_fails, forget_pure]
    · split <;> simp only [*, forget_bind, forget_fails, forget_pure]
  · funext t
    unfold St.detachPrevU St.detachPrev
    split
    · simp only [*, forget_bind, forget_fails, forget_pure]
    · split <;> simp only [*, forget_bind, forget_fails, forget_pure]

theorem appendU_agrees (s : St) (p c : NodeId) : forget (s.appendU p c) = s.append p c := by
  unfold St.appendU St.append
  simp only [forget_bind, forget_fails, detachCoreU_agrees]
  congr 1; funext _; congr 1; funext t
  split <;> simp only [*, forget_bind, forget_fails, forget_pure]

theorem prependU_agrees (s : St) (p c : NodeId) : forget (s.prependU p c) = s.prepend p c := by
  unfold St.prependU St.prepend
  simp only [forget_bind, forget_fails, detachCoreU_agrees, forget_pure]
  congr 1; funext _; congr 1; funext t
  congr 1
  split <;> simp only [*, forget_bind, forget_fails, forget_pure]

theorem insertAfterU_agrees (s : St) (x y : NodeId) : forget (s.insertAfterU x y) = s.insertAfter x y := by
  unfold St.insertAfterU St.insertAfter
  simp only [forget_bind, forget_fails, detachCoreU_agrees, forget_pure]
  congr 1; funext _; congr 1; funext t
  congr 1
  split
  · simp only [*, forget_bind, forget_fails, forget_pure]
  · split <;> simp only [*, forget_bind, forget_fails, forget_pure]

theorem insertBeforeU_agrees (s : St) (x y : NodeId) : forget (s.insertBeforeU x y) = s.insertBefore x y := by
  unfold St.insertBeforeU St.insertBefore
  simp only [forget_bind, forget_fails, detachCoreU_agrees, forget_pure]
  congr 1; funext _; congr 1; funext t
  split
  · simp only [*, forget_bind, forget_fails, forget_pure]
  · split <;> simp only [*, forget_bind, forget_fails, forget_pure]

/-! ## Links that may be incomplete but have an order -/

/-- The sibling pointers of live nodes point in the direction of a linear order; no live node except `ex` is its own parent. -/
structure Loose (s : St) (ord : NodeId → Nat) (ex : Option NodeId) : Prop where
  next : ∀ i n, s.live i = true → s.nextSibling i = some n → ord i < ord n
  prev : ∀ i q, s.live i = true → s.prevSibling i = some q → ord q < ord i
  par : ∀ i, s.live i = true → ex ≠ some i → s.parent i ≠ some i

theorem OnlyLinks.refl (s : St) : OnlyLinks s s := ⟨rfl, rfl, rfl, rfl, rfl, rfl⟩

theorem OnlyLinks.trans {s t u : St} (h1 : OnlyLinks s t) (h2 : OnlyLinks t u) : OnlyLinks s u :=
  ⟨h2.live.trans h1.live, h2.data.trans h1.data, h2.slab.trans h1.slab, h2.rootId.trans h1.rootId, h2.nextId.trans h1.nextId,
    h2.debug.trans h1.debug⟩

theorem OnlyLinks.setL (s : St) (i : NodeId) (f : Links → Links) : OnlyLinks s (s.setL i f) := ⟨rfl, rfl, rfl, rfl, rfl, rfl⟩

theorem after_lt {l : List NodeId} {x y : NodeId} (hn : l.Nodup) (hx : x ∈ l) (h : after l x = some y) : l.idxOf x < l.idxOf y := by
  obtain ⟨a, b, e, h1, h2, _⟩ := nodup_split hn hx
  rw [e, after_split h1] at h
  obtain ⟨b', rfl⟩ : ∃ b', b = y :: b' := by cases b <;> simp_all
  rw [e] at hn ⊢
  have hya : y ∉ a := fun hm => (List.nodup_append.1 hn).2.2 y hm y (by simp) rfl
  have hyx : y ≠ x := by rintro rfl; exact h2 (by simp)
  rw [List.idxOf_append_of_notMem h1, List.idxOf_append_of_notMem hya]
  simp [List.idxOf_cons, Ne.symm hyx]

theorem before_lt {l : List NodeId} {x y : NodeId} (hn : l.Nodup) (hx : x ∈ l) (h : before l x = some y) : l.idxOf y < l.idxOf x := by
  obtain ⟨a, b, e, h1, h2, _⟩ := nodup_split hn hx
  rw [e, before_split h1] at h
  rw [e, List.idxOf_append_of_notMem h1]
  have hm := List.mem_of_mem_getLast? h
  rw [List.idxOf_append_of_mem hm]
  have := List.idxOf_lt_length_of_mem hm
  omega

theorem loose_of_describes {s : St} {F : Forest} (hF : Describes s F) (hp : ∀ i, s.live i = true → s.parent i ≠ some i) :
    Loose s (fun i => (F.sibs i).idxOf i) none where
  next := by
    intro i n hi h
    rw [hF.shows.next i hi] at h
    have hm := after_mem h
    have hs := (hF.wf.sib i hi n hm).2.1
    simp only [hs]
    exact after_lt (hF.wf.nodup i hi) (hF.wf.self_mem i hi) h
  prev := by
    intro i n hi h
    rw [hF.shows.prev i hi] at h
    have hm := before_mem h
    have hs := (hF.wf.sib i hi n hm).2.1
    simp only [hs]
    exact before_lt (hF.wf.nodup i hi) (hF.wf.self_mem i hi) h
  par := fun i hi _ => hp i hi

section
variable {s : St} {ord : NodeId → Nat} {ex : Option NodeId}

theorem Loose.setL (h : Loose s ord ex) (n : NodeId) (f : Links → Links)
    (h1 : ∀ m, (f (s.links n)).nextSib = some m → (s.links n).nextSib = some m ∨ ord n < ord m)
    (h2 : ∀ q, s.upgrade (f (s.links n)).prevSib = some q → s.upgrade (s.links n).prevSib = some q ∨ ord q < ord n)
    (h3 : (f (s.links n)).parent = (s.links n).parent ∨ (f (s.links n)).parent = none) : Loose (s.setL n f) ord ex where
  next := by
    intro i m hi e
    simp only [St.nextSibling, St.setL_links] at e
    split at e
    · next hin =>
      subst hin
      rcases h1 m e with h' | h'
      · exact h.next i m hi h'
      · exact h'
    · exact h.next i m hi e
  prev := by
    intro i q hi e
    simp only [St.prevSibling, St.setL_links, St.setL_upgrade] at e
    split at e
    · next hin =>
      subst hin
      rcases h2 q e with h' | h'
      · exact h.prev i q hi h'
      · exact h'
    · exact h.prev i q hi e
  par := by
    intro i hi hx e
    simp only [St.parent, St.setL_links, St.setL_upgrade] at e
    split at e
    · next hin =>
      subst hin
      rcases h3 with h' | h'
      · rw [h'] at e; exact h.par i hi hx e
      · rw [h'] at e; simp [St.upgrade] at e
    · exact h.par i hi hx e

theorem borrowMut_err {held : List NodeId} {i : NodeId} {e : Err} (h : borrowMut held i = .error e) :
    e = .panic .borrowed ∧ i ∈ held := by
  unfold borrowMut at h
  split at h
  · simp only [Except.error.injEq] at h; exact ⟨h.symm, by assumption⟩
  · simp at h

/-- A step of `detach`: succeeds or panics, keeps the order, changes at most the links of `n`. -/
def Step (s : St) (ord : NodeId → Nat) (ex : Option NodeId) (held : List NodeId) (r : Except (Err × St) St) : Prop :=
  match r with
  | .ok t => Loose t ord ex ∧ OnlyLinks s t ∧ ∃ n, ∀ j, j ≠ n → t.links j = s.links j
  | .error (e, t) => e = .panic .borrowed ∧ t = s

theorem setL_step (h : Loose s ord ex) (held : List NodeId) (n : NodeId) (f : Links → Links)
    (h1 : ∀ m, (f (s.links n)).nextSib = some m → (s.links n).nextSib = some m ∨ ord n < ord m)
    (h2 : ∀ q, s.upgrade (f (s.links n)).prevSib = some q → s.upgrade (s.links n).prevSib = some q ∨ ord q < ord n)
    (h3 : (f (s.links n)).parent = (s.links n).parent ∨ (f (s.links n)).parent = none) :
    Step s ord ex held (do s.fails (borrowMut held n); pure (s.setL n f)) := by
  cases hb : borrowMut held n with
  | error e => exact ⟨(borrowMut_err hb).1, rfl⟩
  | ok u => exact ⟨h.setL n f h1 h2 h3, .setL s n f, n, fun j hj => by simp [hj]⟩

theorem detachNextU_step (h : Loose s ord ex) (held : List NodeId) {parentW prevW nextS : Option NodeId} {i : NodeId}
    (hn : ∀ n, nextS = some n → ord i < ord n) (hq : ∀ q, s.upgrade prevW = some q → ord q < ord i) :
    Step s ord ex held (s.detachNextU held parentW prevW nextS) := by
  unfold St.detachNextU
  split
  · next n => exact setL_step h held n _ (fun m hm => .inl hm) (fun q hh => .inr (Nat.lt_trans (hq q hh) (hn n rfl))) (.inl rfl)
  · split
    · exact setL_step h held _ _ (fun m hm => .inl hm) (fun q hh => .inl hh) (.inl rfl)
    · exact ⟨h, .refl s, 0, fun _ _ => rfl⟩

theorem detachPrevU_step (h : Loose s ord ex) (held : List NodeId) {parentW prevO nextS : Option NodeId} {i : NodeId}
    (hn : ∀ n, nextS = some n → ord i < ord n) (hq : ∀ q, prevO = some q → ord q < ord i) :
    Step s ord ex held (s.detachPrevU held parentW prevO nextS) := by
  unfold St.detachPrevU
  split
  · next q => exact setL_step h held q _ (fun m hm => .inr (Nat.lt_trans (hq q rfl) (hn m hm))) (fun q hh => .inl hh) (.inl rfl)
  · split
    · exact setL_step h held _ _ (fun m hm => .inl hm) (fun q hh => .inl hh) (.inl rfl)
    · exact ⟨h, .refl s, 0, fun _ _ => rfl⟩

/-- A whole `detach`. -/
theorem detachCoreU_loose (h : Loose s ord ex) (held : List NodeId) {i : NodeId} (hi : s.live i = true) :
    (∃ t, s.detachCoreU held i = .ok t ∧ Loose t ord ex ∧ OnlyLinks s t) ∨
    (∃ t, s.detachCoreU held i = .error (.panic .borrowed, t) ∧ Loose t ord ex ∧ OnlyLinks s t ∧
      ∃ n, ∀ j, j ≠ i → j ≠ n → t.links j = s.links j) := by
  have hn : ∀ n, (s.links i).nextSib = some n → ord i < ord n := fun n e => h.next i n hi e
  have hq : ∀ q, s.upgrade (s.links i).prevSib = some q → ord q < ord i := fun q e => h.prev i q hi e
  obtain ⟨u, hu⟩ : ∃ u, u = s.setL i fun l => { l with parent := none, prevSib := none, nextSib := none } := ⟨_, rfl⟩
  have h1 : Loose u ord ex := by
    rw [hu]
    exact h.setL i _ (by simp) (by simp [St.upgrade]) (.inr rfl)
  have o1 : OnlyLinks s u := by rw [hu]; exact .setL s i _
  have l1 : ∀ j, j ≠ i → u.links j = s.links j := fun j hj => by rw [hu]; simp [hj]
  have hup : ∀ w, u.upgrade w = s.upgrade w := fun w => by rw [hu]; rfl
  have e : s.detachCoreU held i = (u.detachNextU held (s.links i).parent (s.links i).prevSib (s.links i).nextSib >>= fun v =>
      v.detachPrevU held (s.links i).parent (u.upgrade (s.links i).prevSib) (s.links i).nextSib) := by rw [hu]; rfl
  rw [e]
  have s1 := detachNextU_step h1 held (parentW := (s.links i).parent) hn (fun q hh => hq q (by rw [← hup]; exact hh))
  cases e1 : u.detachNextU held (s.links i).parent (s.links i).prevSib (s.links i).nextSib with
  | error x =>
    rw [e1] at s1
    obtain ⟨x, t⟩ := x
    obtain ⟨rfl, rfl⟩ := s1
    exact .inr ⟨t, rfl, h1, o1, i, fun j hj _ => l1 j hj⟩
  | ok v =>
    rw [e1] at s1
    obtain ⟨h2, o2, n, l2⟩ := s1
    have s2 := detachPrevU_step h2 held (parentW := (s.links i).parent) hn (prevO := u.upgrade (s.links i).prevSib)
      (fun q hh => hq q (by rw [← hup]; exact hh))
    cases e2 : v.detachPrevU held (s.links i).parent (u.upgrade (s.links i).prevSib) (s.links i).nextSib with
    | error x =>
      rw [e2] at s2
      obtain ⟨x, t⟩ := x
      obtain ⟨rfl, rfl⟩ := s2
      refine .inr ⟨t, by simp [bind, Except.bind, e2], h2, o1.trans o2, n, fun j hj hjn => ?_⟩
      rw [l2 j hjn, l1 j hj]
    | ok t =>
      rw [e2] at s2
      exact .inl ⟨t, by simp [bind, Except.bind, e2], s2.1, (o1.trans o2).trans s2.2.1⟩

/-- Nothing blocks a plain `detach`. -/
theorem Loose.not_blocked (h : Loose s ord ex) {i : NodeId} (hi : s.live i = true) (hx : ex ≠ some i) : ¬ s.blocked [i] i := by
  have h1 : s.nextSibling i ≠ some i := fun e => Nat.lt_irrefl _ (h.next i i hi e)
  have h2 : s.prevSibling i ≠ some i := fun e => Nat.lt_irrefl _ (h.prev i i hi e)
  have h3 := h.par i hi hx
  rintro (⟨n, hn, hm⟩ | ⟨n, hn, hm⟩) <;> simp only [List.mem_singleton] at hm <;> subst hm
  · simp only [St.touch1] at hn
    split at hn <;> simp_all
  · simp only [St.touch2] at hn
    split at hn <;> simp_all

theorem forget_ok {α : Type} {r : Except (Err × St) α} {a : α} (h : forget r = .ok a) : r = .ok a := by
  cases r <;> simp_all [forget, Except.mapError]

theorem Loose.detach (h : Loose s ord ex) {i : NodeId} (hi : s.live i = true) (hx : ex ≠ some i) :
    ∃ t, s.detach i = .ok t ∧ Loose t ord ex ∧ OnlyLinks s t := by
  have e := St.detachCore_ok s [i] i (h.not_blocked hi hx)
  have e2 := e
  rw [← detachCoreU_agrees] at e2
  have e3 := forget_ok e2
  rcases detachCoreU_loose h [i] hi with ⟨t, e4, h1, h2⟩ | ⟨t, e4, _⟩
  · rw [e3] at e4
    simp only [Except.ok.injEq] at e4
    exact ⟨t, by rw [← e4]; exact e, h1, h2⟩
  · rw [e3] at e4; simp at e4

/-- `Drop` does not panic. -/
theorem Loose.drop : ∀ (l : List NodeId) {s : St}, Loose s ord ex → (∀ n ∈ l, s.live n = true) → (∀ n ∈ l, ex ≠ some n) → ∃ t, s.dropLoop l = .ok t
  | [], s, _, _, _ => ⟨s, rfl⟩
  | n :: l, s, h, hl, hx => by
    obtain ⟨v, hv⟩ : ∃ v, v = (s.setD n fun d => { d with attributes := [] }).setD n fun d => { d with linkedNodes := [] } := ⟨_, rfl⟩
    have hvl : v.live = s.live := by rw [hv]; rfl
    have h1 : Loose v ord ex := by rw [hv]; exact ⟨h.next, h.prev, h.par⟩
    obtain ⟨u, e, h2, h3⟩ := h1.detach (i := n) (by rw [hvl]; exact hl n (by simp)) (hx n (by simp))
    obtain ⟨t, e2⟩ := Loose.drop l h2 (fun m hm => by rw [h3.live, hvl]; exact hl m (by simp [hm])) fun m hm => hx m (by simp [hm])
    rw [hv] at e
    exact ⟨t, by simp [St.dropLoop, St.dropOne, e, bind, Except.bind, e2]⟩

end

end Svgdom
