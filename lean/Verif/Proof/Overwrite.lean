import Verif.Spec.Overwrite
import Verif.Props.Picture

/-!
# Lemmas for C115
-/

set_option autoImplicit false

namespace Svgdom

/-- The pictures are the same but for part `k` of node `i`. -/
structure SameBut (i : NodeId) (k : Part) (P Q : Picture) : Prop where
  live : Q.live = P.live
  next : Q.next = P.next
  root : Q.root = P.root
  debug : Q.debug = P.debug
  forest : Q.forest = P.forest
  stored : Q.stored = P.stored
  look : ∀ j, j ≠ i → Q.look j = P.look j
  part : (Q.look i).without k = (P.look i).without k

theorem without_type {d e : Look} {k : Part} (h : d.without k = e.without k) : d.type = e.type := by
  cases k <;> simp [Look.without] at h <;> tauto

/-- The look of a node, set part by part. -/
theorem SameBut.edit {i : NodeId} {k : Part} {P Q : Picture} (h : SameBut i k P Q) {m : NodeId} {f : Look → Look}
    (hf : ∀ d e : Look, d.without k = e.without k → (f d).without k = (f e).without k) : SameBut i k (P.edit m f) (Q.edit m f) where
  live := h.live
  next := h.next
  root := h.root
  debug := h.debug
  forest := h.forest
  stored := h.stored
  look := fun j hj => by simp only [Picture.edit, h.look j hj]
  part := by
    simp only [Picture.edit]
    split
    · exact hf _ _ h.part
    · exact h.part

theorem SameBut.eq {i : NodeId} {k : Part} {P Q : Picture} (h : SameBut i k P Q) {f : Look → Look}
    (hf : ∀ d e : Look, d.without k = e.without k → f d = f e) : Q.edit i f = P.edit i f := by
  have : (fun j => if j = i then f (Q.look j) else Q.look j) = fun j => if j = i then f (P.look j) else P.look j := by
    funext j
    by_cases e : j = i
    · subst e; simp only [if_true]; exact hf _ _ h.part
    · simp only [e, if_false]; exact h.look j e
  obtain ⟨h1, h2, h3, h4, h5, h6, _, _⟩ := h
  simp only [Picture.edit, this]
  cases P; cases Q
  simp_all

theorem filter_other {n m : AName} (l : List Attribute) :
    (l.filter fun b => decide (b.name ≠ m)).filter (fun b => decide (b.name ≠ n)) =
      (l.filter fun b => decide (b.name ≠ n)).filter fun b => decide (b.name ≠ m) := List.filter_comm ..

/-- Setting a part gives the same result for looks that differ in that part; and keeps differences elsewhere. -/
theorem set_text (k : Part) (t : Str) (d e : Look) (h : d.without k = e.without k) :
    ({ d with text := t } : Look).without k = ({ e with text := t } : Look).without k ∧
    (k = .text → ({ d with text := t } : Look) = { e with text := t }) := by
  cases d; cases e
  cases k <;> simp_all [Look.without]

theorem set_id (k : Part) (t : Str) (d e : Look) (h : d.without k = e.without k) :
    ({ d with id := t } : Look).without k = ({ e with id := t } : Look).without k ∧
    (k = .id → ({ d with id := t } : Look) = { e with id := t }) := by
  cases d; cases e
  cases k <;> simp_all [Look.without]

theorem set_tag (k : Part) (t : TagName) (d e : Look) (h : d.without k = e.without k) :
    ({ d with tag := t } : Look).without k = ({ e with tag := t } : Look).without k ∧
    (k = .tag → ({ d with tag := t } : Look) = { e with tag := t }) := by
  cases d; cases e
  cases k <;> simp_all [Look.without]

theorem set_attr (k : Part) (m : AName) (x : List Attribute) (d e : Look) (h : d.without k = e.without k) :
    ({ d with attrs := (d.attrs.filter fun b => decide (b.name ≠ m)) ++ x } : Look).without k =
      ({ e with attrs := (e.attrs.filter fun b => decide (b.name ≠ m)) ++ x } : Look).without k ∧
    (k = .attr m → ({ d with attrs := (d.attrs.filter fun b => decide (b.name ≠ m)) ++ x } : Look) =
      { e with attrs := (e.attrs.filter fun b => decide (b.name ≠ m)) ++ x }) := by
  obtain ⟨d1, d2, d3, d4, d5⟩ := d
  obtain ⟨e1, e2, e3, e4, e5⟩ := e
  cases k with
  | attr n =>
    simp only [Look.without, Look.mk.injEq] at h ⊢
    obtain ⟨rfl, rfl, rfl, h4, rfl⟩ := h
    refine ⟨⟨rfl, rfl, rfl, ?_, rfl⟩, fun e => ?_⟩
    · rw [List.filter_append, List.filter_append, filter_other d4, filter_other e4, h4]
    · cases e
      rw [h4]
      exact ⟨rfl, rfl, rfl, rfl, rfl⟩
  | _ => simp_all [Look.without]

theorem SameBut.symm {i : NodeId} {k : Part} {P Q : Picture} (h : SameBut i k P Q) : SameBut i k Q P :=
  ⟨h.live.symm, h.next.symm, h.root.symm, h.debug.symm, h.forest.symm, h.stored.symm, fun j hj => (h.look j hj).symm, h.part.symm⟩

theorem SameBut.refl (i : NodeId) (k : Part) (P : Picture) : SameBut i k P P :=
  ⟨rfl, rfl, rfl, rfl, rfl, rfl, fun _ _ => rfl, rfl⟩

theorem SameBut.type {i : NodeId} {k : Part} {P Q : Picture} (h : SameBut i k P Q) (m : NodeId) : (Q.look m).type = (P.look m).type := by
  by_cases e : m = i
  · subst e; exact without_type h.part
  · rw [h.look m e]

theorem SameBut.add {i : NodeId} {k : Part} {P Q : Picture} (h : SameBut i k P Q) (d : Look) : SameBut i k (P.add d) (Q.add d) where
  live := by simp only [Picture.add, h.live, h.next]
  next := by simp only [Picture.add, h.next]
  root := h.root
  debug := h.debug
  forest := by simp only [Picture.add, h.forest, h.next]
  stored := by simp only [Picture.add, h.stored, h.next]
  look := fun j hj => by simp only [Picture.add, h.next, h.look j hj]
  part := by
    simp only [Picture.add, h.next]
    split
    · rfl
    · exact h.part

theorem SameBut.withForest {i : NodeId} {k : Part} {P Q : Picture} (h : SameBut i k P Q) (G : Forest) :
    SameBut i k { P with forest := G } { Q with forest := G } :=
  ⟨h.live, h.next, h.root, h.debug, rfl, h.stored, h.look, h.part⟩

theorem SameBut.move {i : NodeId} {k : Part} {P Q P' : Picture} (h : SameBut i k P Q) {x y : NodeId} {G : Forest}
    (e : P.move x y G = .state P') : ∃ Q', Q.move x y G = .state Q' ∧ SameBut i k P' Q' := by
  have e1 : Q.subtree y = P.subtree y := by simp only [Picture.subtree, h.forest, h.next]
  have e2 : Q.touches y x = P.touches y x := by simp only [Picture.touches, h.forest]
  simp only [Picture.move, e1, e2] at e ⊢
  split at e
  · simp at e
  · next h1 =>
    rw [if_neg h1]
    split at e
    · simp at e
    · next h2 =>
      rw [if_neg h2]
      split at e
      · simp at e
      · next h3 =>
        rw [if_neg h3]
        cases e
        exact ⟨_, rfl, h.withForest G⟩

/-- A call that does not look at contents keeps the difference, and a call that overwrites the part ends it. -/
theorem SameBut.step {i : NodeId} {k : Part} {P Q P' : Picture} (h : SameBut i k P Q) {d : Call} (hd : d.blind = true)
    (e : P.step d = .state P') : ∃ Q', Q.step d = .state Q' ∧ SameBut i k P' Q' ∧ (d.overwrites = some (i, k) → Q' = P') := by
  have hno : ∀ m, Q.noElement m = P.noElement m := fun m => by simp only [Picture.noElement, h.debug, h.type]
  -- a call that sets a part
  have sets : ∀ {m : NodeId} {f : Look → Look} {k' : Part},
      (∀ d e : Look, d.without k = e.without k → (f d).without k = (f e).without k ∧ (k = k' → f d = f e)) →
      SameBut i k (P.edit m f) (Q.edit m f) ∧ (some (m, k') = some (i, k) → Q.edit m f = P.edit m f) := by
    intro m f k' hf
    refine ⟨h.edit fun d e w => (hf d e w).1, fun hk => ?_⟩
    cases hk
    exact h.eq fun d e w => (hf d e w).2 rfl
  unfold Picture.step at e ⊢
  split at e
  case isFalse => simp at e
  next hl =>
  rw [if_pos (by rw [h.live]; exact hl)]
  cases d <;> simp only [Call.blind, Bool.false_eq_true] at hd <;> simp only [Picture.act] at e ⊢
  case createElement tag =>
    split at e
    · simp at e
    · next hn =>
      rw [if_neg hn]
      cases e
      exact ⟨_, rfl, h.add _, by simp [Call.overwrites]⟩
  case createNode ty text =>
    split at e
    · simp at e
    · next hn =>
      rw [if_neg hn]
      cases e
      exact ⟨_, rfl, h.add _, by simp [Call.overwrites]⟩
  case append x y =>
    rw [h.forest]
    obtain ⟨Q', e1, e2⟩ := h.move e
    exact ⟨Q', e1, e2, by simp [Call.overwrites]⟩
  case prepend x y =>
    rw [h.forest]
    obtain ⟨Q', e1, e2⟩ := h.move e
    exact ⟨Q', e1, e2, by simp [Call.overwrites]⟩
  case insertAfter x y =>
    rw [h.forest]
    obtain ⟨Q', e1, e2⟩ := h.move e
    exact ⟨Q', e1, e2, by simp [Call.overwrites]⟩
  case insertBefore x y =>
    rw [h.forest]
    obtain ⟨Q', e1, e2⟩ := h.move e
    exact ⟨Q', e1, e2, by simp [Call.overwrites]⟩
  case detach y =>
    rw [h.forest]
    cases e
    exact ⟨_, rfl, h.withForest _, by simp [Call.overwrites]⟩
  case setText m t =>
    rw [h.debug, h.type]
    split at e
    · simp at e
    · next hn =>
      rw [if_neg hn]
      cases e
      exact ⟨_, rfl, sets (k' := .text) fun d e w => set_text k t d e w⟩
  case setId m t =>
    rw [hno]
    split at e
    · simp at e
    · next hn =>
      rw [if_neg hn]
      cases e
      exact ⟨_, rfl, sets (k' := .id) fun d e w => set_id k t d e w⟩
  case setTagName m t =>
    rw [hno]
    split at e
    · simp at e
    · next hn =>
      rw [if_neg hn]
      cases e
      exact ⟨_, rfl, sets (k' := .tag) fun d e w => set_tag k t d e w⟩
  case setAttribute m a =>
    have hn : a.value.names = none := by simpa using hd
    simp only [Picture.set, Picture.refuses, hn, Bool.or_false, hno] at e ⊢
    split at e
    · simp at e
    · next hne =>
      rw [if_neg hne]
      cases e
      exact ⟨_, rfl, sets (k' := .attr a.name) fun d e w => set_attr k a.name _ d e w⟩
  case removeAttribute m n =>
    cases e
    have := sets (m := m) (f := fun d => { d with attrs := d.attrs.filter fun b => decide (b.name ≠ n) }) (k' := .attr n)
      fun d e w => by simpa only [List.append_nil] using set_attr k n [] d e w
    exact ⟨_, rfl, this⟩
  case editText m t =>
    cases e
    exact ⟨_, rfl, sets (k' := .text) fun d e w => set_text k t d e w⟩

theorem without_text (d : Look) (t : Str) : ({ d with text := t } : Look).without .text = d.without .text := rfl

/-- A call changes only the part that it writes. -/
theorem sameBut_writes {P P' : Picture} {c : Call} {i : NodeId} {k : Part} (hc : c.writes = some (i, k)) (e : P.step c = .state P') :
    SameBut i k P P' := by
  have sets : ∀ {f : Look → Look}, (∀ d : Look, (f d).without k = d.without k) → SameBut i k P (P.edit i f) := by
    intro f hf
    refine ⟨rfl, rfl, rfl, rfl, rfl, rfl, fun j hj => by simp only [Picture.edit, if_neg hj], ?_⟩
    simp only [Picture.edit, if_true]
    exact hf _
  have put : ∀ {a : Attribute}, k = .attr a.name → SameBut i k P (P.put i a) := by
    rintro a rfl
    refine sets fun d => ?_
    simp only [Look.without, List.filter_append, List.filter_filter, Bool.and_self]
    simp
  unfold Picture.step at e
  split at e
  case isFalse => simp at e
  cases c <;> simp only [Call.writes, reduceCtorEq, Option.some.injEq, Prod.mk.injEq] at hc <;> obtain ⟨rfl, rfl⟩ := hc <;>
    simp only [Picture.act, Picture.set] at e
  case setText t => split at e <;> cases e; exact sets fun d => rfl
  case editText t => cases e; exact sets fun d => rfl
  case setId t => split at e <;> cases e; exact sets fun d => rfl
  case setTagName t => split at e <;> cases e; exact sets fun d => rfl
  case setAttribute a => split at e <;> cases e; exact put rfl
  case setAttributeChecked a =>
    split at e
    · simp at e
    · split at e
      · cases e; exact .refl _ _ _
      · cases e; exact put rfl
  case setAttributeIfNone a =>
    split at e
    · cases e; exact .refl _ _ _
    · split at e <;> cases e
      exact put rfl
  case removeAttribute n =>
    cases e
    refine sets fun d => ?_
    simp only [Look.without, List.filter_filter, Bool.and_self]

/-- The rest of the history after a call that is overwritten later. -/
theorem SameBut.run {i : NodeId} {k : Part} {P Q R : Picture} (h : SameBut i k P Q) {cs : List Call} (hb : ∀ d ∈ cs, d.blind = true)
    (ho : ∃ d ∈ cs, d.overwrites = some (i, k)) (e : P.run cs = .state R) : Q.run cs = .state R := by
  induction cs generalizing P Q with
  | nil => simp at ho
  | cons d cs ih =>
    simp only [Picture.run] at e ⊢
    cases hd : P.step d with
    | panics => rw [hd] at e; simp at e
    | misuse => rw [hd] at e; simp at e
    | state P' =>
      rw [hd] at e
      obtain ⟨Q', e1, e2, e3⟩ := h.step (hb d (by simp)) hd
      rw [e1]
      by_cases hk : d.overwrites = some (i, k)
      · rw [e3 hk]; exact e
      · refine ih e2 (fun d hd => hb d (by simp [hd])) ?_ e
        obtain ⟨d', h1, h2⟩ := ho
        rcases List.mem_cons.1 h1 with rfl | h1
        · exact absurd h2 hk
        · exact ⟨d', h1, h2⟩

end Svgdom
