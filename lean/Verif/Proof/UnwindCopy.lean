import Verif.Spec.UnwindCopy
import Verif.Proof.UnwindRemove

/-!
# The copies with guards: agreement, and what they leave alone
-/

set_option autoImplicit false

namespace Svgdom

section
variable {g : Guards}

/-! ### Agreement -/

theorem appendGU_agrees (s : St) (p c : NodeId) : forget (s.appendGU g p c) = s.appendG g p c := by
  have hn : ∀ (s : St) held a b c, forget (s.detachNextGU g held a b c) = s.detachNextG g held a b c := by
    intro s held a b c
    unfold St.detachNextGU St.detachNextG
    cases c with
    | some n => simp only [forget_bind, forget_fails, forget_pure]
    | none =>
      cases s.upgrade a with
      | some p => simp only [forget_bind, forget_fails, forget_pure]
      | none => rfl
  have hp : ∀ (s : St) held a b c, forget (s.detachPrevGU g held a b c) = s.detachPrevG g held a b c := by
    intro s held a b c
    unfold St.detachPrevGU St.detachPrevG
    cases b with
    | some n => simp only [forget_bind, forget_fails, forget_pure]
    | none =>
      cases s.upgrade a with
      | some p => simp only [forget_bind, forget_fails, forget_pure]
      | none => rfl
  have hc : ∀ (s : St) held i, forget (s.detachCoreGU g held i) = s.detachCoreG g held i := by
    intro s held i
    simp only [St.detachCoreGU, St.detachCoreG, forget_bind, hn, hp]
  unfold St.appendGU St.appendG
  simp only [forget_bind, forget_fails, hc]
  congr 1; funext _; congr 1; funext _; congr 1; funext _; congr 1; funext u
  split <;> rename_i hx <;> simp only [hx, forget_bind, forget_fails, forget_pure]

theorem copyAttributesGU_agrees (elem : NodeId) : ∀ (l : List Attribute) (s : St),
    forget (s.copyAttributesGU g elem l) = s.copyAttributesG g elem l
  | [], s => rfl
  | a :: l, s => by
    simp only [St.copyAttributesGU, St.copyAttributesG, forget_bind, setAttributeU_agrees, copyAttributesGU_agrees elem l]

theorem copyNodeGU_agrees (s : St) (i : NodeId) : forget (s.copyNodeGU g i) = s.copyNodeG g i := by
  unfold St.copyNodeGU St.copyNodeG
  simp only [forget_bind, forget_fails]
  congr 1; funext _
  cases s.nodeType i <;>
    simp only [forget_bind, forget_fails, forget_mapError, forget_pure, copyAttributesGU_agrees]

theorem deepCopyAuxGU_agrees : ∀ (k : Nat) (s : St) (par : NodeId) (it : Children),
    forget (St.deepCopyAuxGU g k s par it) = St.deepCopyAuxG g k s par it
  | 0, s, par, it => rfl
  | k + 1, s, par, it => by
    unfold St.deepCopyAuxGU St.deepCopyAuxG
    rw [forget_bind, forget_mapError]
    congr 1; funext x
    obtain ⟨o, it'⟩ := x
    cases o with
    | none => rfl
    | some c =>
      simp only [forget_bind, forget_fails, copyNodeGU_agrees, appendGU_agrees, forget_mapError]
      congr 1; funext y; congr 1; funext u; congr 1; funext _
      split
      · simp only [forget_bind, forget_mapError, deepCopyAuxGU_agrees k]
      · simp only [forget_bind, forget_pure, deepCopyAuxGU_agrees k]

theorem copyNodeDeepGU_agrees (s : St) (i : NodeId) : forget (s.copyNodeDeepGU g i) = s.copyNodeDeepG g i := by
  simp only [St.copyNodeDeepGU, St.copyNodeDeepG, forget_bind, copyNodeGU_agrees, forget_mapError, deepCopyAuxGU_agrees, forget_pure]

/-! ### What is left alone -/

/-- A new node. -/
def New (n b j : Nat) : Prop := n ≤ j ∧ j < b

/-- `SameBefore`, and the links of the new nodes lead to new nodes. -/
structure Off (n b : Nat) (s t : St) : Prop extends SameBefore n s t where
  least : n ≤ t.nextId
  next : b ≤ t.nextId
  closed : ∀ j : Nat, New n t.nextId j → ∀ m : Nat, (t.links j).root = some m ∨ (t.links j).parent = some m ∨ (t.links j).firstChild = some m ∨
    (t.links j).lastChild = some m ∨ (t.links j).prevSib = some m ∨ (t.links j).nextSib = some m → New n t.nextId m

variable {n b : Nat} {s₀ s t : St}

theorem Off.rebase (h : Off n b s₀ s) : Off n s.nextId s₀ s := { h with next := Nat.le_refl _ }

theorem Off.lower {b' : Nat} (h : Off n b' s₀ s) (hb : b ≤ b') : Off n b s₀ s := { h with next := Nat.le_trans hb h.next }

theorem Off.new (h : Off n b s₀ s) {j : Nat} (hj : New n b j) : New n s.nextId j := ⟨hj.1, Nat.lt_of_lt_of_le hj.2 h.next⟩

theorem endOf_bind {α β : Type} {P : St → Prop} {π : α → St} {ρ : β → St} {r : Except (Err × St) α} {f : α → Except (Err × St) β}
    (hr : P (endOf π r)) (hf : ∀ a, r = .ok a → P (π a) → P (endOf ρ (f a))) : P (endOf ρ (r >>= f)) := by
  cases r with
  | error e => exact hr
  | ok a => exact hf a rfl hr

theorem endOf_pure {α : Type} (π : α → St) (a : α) : endOf π (pure a : Except (Err × St) α) = π a := rfl

theorem endOf_fails {β : Type} {P : St → Prop} {ρ : β → St} {r : Except Err Unit} {f : Unit → Except (Err × St) β} (hs : P s)
    (hf : P (endOf ρ (f ()))) : P (endOf ρ (s.fails r >>= f)) := by
  cases r with
  | error e => exact hs
  | ok a => exact hf

theorem endOf_mapError {α β : Type} {P : St → Prop} {ρ : β → St} {r : Except Err α} {f : α → Except (Err × St) β} (hs : P s)
    (hf : ∀ a, r = .ok a → P (endOf ρ (f a))) : P (endOf ρ (r.mapError (·, s) >>= f)) := by
  cases r with
  | error e => exact hs
  | ok a => exact hf a rfl

theorem Off.setL (h : Off n b s₀ s) {j : NodeId} (hj : New n b j) {f : Links → Links}
    (hf : ∀ l : Links, l = s.links j → ∀ m : Nat, (f l).root = some m ∨ (f l).parent = some m ∨ (f l).firstChild = some m ∨
      (f l).lastChild = some m ∨ (f l).prevSib = some m ∨ (f l).nextSib = some m → New n s.nextId m) : Off n b s₀ (s.setL j f) where
  links i hi := by
    have : i ≠ j := by rintro rfl; exact absurd hi (by exact Nat.not_lt.2 hj.1)
    simp only [St.setL, upd_ne _ _ this]; exact h.links i hi
  live := h.live
  data := h.data
  back := h.back
  stored := h.stored
  rootId := h.rootId
  debug := h.debug
  least := h.least
  next := h.next
  closed i hi := by
    by_cases e : i = j
    · subst e; simp only [St.setL, upd_same]; exact hf _ rfl
    · simp only [St.setL, upd_ne _ _ e]; exact h.closed i hi

theorem Off.setD (h : Off n b s₀ s) {j : NodeId} (hj : New n b j) (f : NodeData → NodeData) : Off n b s₀ (s.setD j f) where
  links := h.links
  live := h.live
  data i hi := by
    have : i ≠ j := by rintro rfl; exact absurd hi (by exact Nat.not_lt.2 hj.1)
    simp only [St.setD, St.linkedNodes, upd_ne _ _ this]; exact h.data i hi
  back i hi := by
    have : i ≠ j := by rintro rfl; exact absurd hi (by exact Nat.not_lt.2 hj.1)
    simp only [St.setD, St.linkedNodes, upd_ne _ _ this]; exact h.back i hi
  stored := h.stored
  rootId := h.rootId
  debug := h.debug
  least := h.least
  next := h.next
  closed := h.closed

theorem Off.setLinked (h : Off n b s₀ s) {j : NodeId} {f : List NodeId → List NodeId}
    (hf : (f (s.linkedNodes j)).filter (fun m : Nat => m < n) = (s.linkedNodes j).filter (fun m : Nat => m < n)) :
    Off n b s₀ (s.setD j fun d => { d with linkedNodes := f d.linkedNodes }) where
  links := h.links
  live := h.live
  data i hi := by
    by_cases e : i = j
    · subst e
      simp only [St.setD, St.linkedNodes, upd_same]
      rw [h.data i hi]
    · simp only [St.setD, St.linkedNodes, upd_ne _ _ e]; exact h.data i hi
  back i hi := by
    by_cases e : i = j
    · subst e
      rw [← h.back i hi]
      simp only [St.setD, St.linkedNodes, upd_same] at hf ⊢
      exact hf
    · simp only [St.setD, St.linkedNodes, upd_ne _ _ e]; exact h.back i hi
  stored := h.stored
  rootId := h.rootId
  debug := h.debug
  least := h.least
  next := h.next
  closed := h.closed

theorem filter_eraseIdx {l : List NodeId} {i : NodeId} {k : Nat} (h : l.findIdx? (fun m => decide (m = i)) = some k)
    {q : NodeId → Bool} (hq : q i = false) : (l.eraseIdx k).filter q = l.filter q := by
  induction l generalizing k with
  | nil => simp at h
  | cons x l ih =>
    rw [List.findIdx?_cons] at h
    by_cases e : x = i
    · subst e
      simp at h
      subst h
      simp [List.filter_cons, hq]
    · simp only [e, decide_false, Bool.false_eq_true, if_false, Option.map_eq_some_iff] at h
      obtain ⟨k', h1, rfl⟩ := h
      simp only [List.eraseIdx_cons_succ, List.filter_cons, ih h1]

theorem Off.removeAttribute (h : Off n b s₀ s) {i : NodeId} (hi : New n b i) (x : AName) :
    Off n b s₀ (endOf id (s.removeAttributeU g i x)) := by
  unfold St.removeAttributeU
  refine endOf_fails h ?_
  split
  · exact h
  · refine endOf_fails h ?_
    have hlast : ∀ u : St, Off n b s₀ u → Off n b s₀ (endOf id (u.fails (wr g [] i) >>= fun _ =>
        pure (u.setD i fun d => { d with attributes := attrsRemove d.attributes x }))) := fun u hu => by
      refine endOf_fails hu ?_
      rw [endOf_pure]
      show Off n b s₀ (u.setD i _)
      exact hu.setD hi _
    dsimp only
    split
    · rename_i v _
      refine endOf_bind (π := id) ?_ fun a _ ha => hlast a ha
      unfold St.unlinkValueU
      split
      · rename_i m _
        refine endOf_fails h ?_
        split
        · rename_i k hk
          refine endOf_fails h ?_
          exact h.setLinked (f := fun l => l.eraseIdx k) (filter_eraseIdx hk (decide_eq_false (Nat.not_lt.2 hi.1)))
        · exact h
      · exact h
    · exact hlast s h

theorem Off.setAttribute (h : Off n b s₀ s) {i : NodeId} (hi : New n b i) (a : Attribute) :
    Off n b s₀ (endOf id (s.setAttributeU g i a)) := by
  have hlink : ∀ (x : AName) (m : NodeId) fb, Off n b s₀ (endOf (·.1) (s.setLinkAttributeU g i x m fb)) := by
    intro x m fb
    unfold St.setLinkAttributeU
    refine endOf_fails h ?_
    split
    · exact h
    · refine endOf_fails h (endOf_fails h ?_)
      split
      · exact h
      · refine endOf_fails h ?_
        split
        · exact h
        · refine endOf_bind (π := id) (h.removeAttribute hi x) fun u _ hu => endOf_fails hu ?_
          have h1 := hu.setD hi fun d => { d with attributes := attrsInsert d.attributes ⟨x, St.linkValue x m fb⟩ }
          refine endOf_fails h1 ?_
          refine h1.setLinked (f := fun l => l ++ [i]) ?_
          rw [List.filter_append]
          have : decide ((i : Nat) < n) = false := decide_eq_false (Nat.not_lt.2 hi.1)
          simp [List.filter_cons, this]
  unfold St.setAttributeU
  refine endOf_bind (π := (·.1)) ?_ fun u _ hu => ?_
  · unfold St.setAttributeCheckedU
    refine endOf_fails h ?_
    split
    · exact hlink _ _ _
    · exact hlink _ _ _
    · exact hlink _ _ _
    · refine endOf_bind (π := id) ?_ fun u _ hu => hu
      unfold St.setSimpleAttributeU
      refine endOf_fails h (endOf_bind (π := id) (h.removeAttribute hi _) fun u _ hu => endOf_fails hu ?_)
      rw [endOf_pure]
      show Off n b s₀ (u.setD i _)
      exact Off.setD hu hi _
  · obtain ⟨u, o⟩ := u
    cases o <;> exact hu

theorem Off.copyAttributes {i : NodeId} (hi : New n b i) : ∀ (l : List Attribute) {s : St}, Off n b s₀ s →
    Off n b s₀ (endOf id (s.copyAttributesGU g i l))
  | [], _, h => h
  | a :: l, _, h => endOf_bind (π := id) (h.setAttribute hi a) fun _ _ hu => Off.copyAttributes hi l hu

theorem Off.newNode (h : Off n b s₀ s) {d : NodeData} {t : St} {m : NodeId} (e : s.newNode d = .ok (t, m)) :
    Off n b s₀ t ∧ New n t.nextId m := by
  unfold St.newNode at e
  dsimp only at e
  cases hs : (s.alloc d).slab.insert s.nextId with
  | error x => rw [hs] at e; cases e
  | ok r =>
    obtain ⟨sl, key⟩ := r
    rw [hs] at e
    simp only [bind, Except.bind, pure, Except.pure, Except.ok.injEq, Prod.mk.injEq] at e
    obtain ⟨rfl, rfl⟩ := e
    suffices hs : Off n (s.nextId + 1) s₀ { s.alloc d with slab := sl } from
      ⟨(Off.setD (j := s.nextId) hs ⟨h.least, Nat.lt_succ_self _⟩ _).lower (Nat.le_succ_of_le h.next), h.least, Nat.lt_succ_self _⟩
    have ne : ∀ j : Nat, j < n → j ≠ s.nextId := by
      rintro j hj rfl; exact absurd hj (Nat.not_lt.2 h.least)
    refine ⟨⟨fun j hj => ?_, fun j hj => ?_, fun j hj => ?_, fun j hj => ?_, fun k m hk => ?_, h.rootId, h.debug⟩, Nat.le_succ_of_le h.least,
      Nat.le_refl _, fun j hj m hm => ?_⟩
    · simp only [St.alloc, upd_ne _ _ (ne j hj)]; exact h.links j hj
    · simp only [St.alloc, if_neg (ne j hj)]; exact h.live j hj
    · simp only [St.alloc, St.linkedNodes, upd_ne _ _ (ne j hj)]; exact h.data j hj
    · simp only [St.alloc, St.linkedNodes, upd_ne _ _ (ne j hj)]; exact h.back j hj
    · have hk := h.stored k m hk
      simp only [St.alloc] at hs
      unfold Slab.insert at hs
      dsimp only at hs
      show sl.get k = some m
      unfold Slab.get at hk ⊢
      split at hs
      · simp only [Except.ok.injEq, Prod.mk.injEq] at hs
        obtain ⟨rfl, -⟩ := hs
        have hlt : k < s.slab.entries.length := by
          by_contra hge
          rw [List.getElem?_eq_none (by omega)] at hk
          simp at hk
        rw [List.getElem?_append_left hlt]
        exact hk
      · split at hs
        · rename_i nx hv
          simp only [Except.ok.injEq, Prod.mk.injEq] at hs
          obtain ⟨rfl, -⟩ := hs
          have : s.slab.next ≠ k := by
            rintro rfl
            rw [hv] at hk
            simp at hk
          rw [List.getElem?_set_ne this]
          exact hk
        · cases hs
        · cases hs
    · by_cases e : j = s.nextId
      · subst e; simp [St.alloc] at hm
      · simp only [St.alloc, upd_ne _ _ e] at hm; 
        have := h.closed j ⟨hj.1, lt_of_le_of_ne (Nat.le_of_lt_succ hj.2) e⟩ m hm
        exact ⟨this.1, Nat.lt_succ_of_lt this.2⟩

theorem Off.copyNode (h : Off n b s₀ s) (i : NodeId) : Off n b s₀ (endOf (·.1) (s.copyNodeGU g i)) ∧
    ∀ t m, s.copyNodeGU g i = .ok (t, m) → New n t.nextId m := by
  have hel : ∀ tag t m, s.createElement tag = .ok (t, m) → Off n b s₀ t ∧ New n t.nextId m := by
    intro tag t m e
    unfold St.createElement at e
    split at e
    · cases e
    · exact h.newNode e
  have hno : ∀ ty x t m, s.createNode ty x = .ok (t, m) → Off n b s₀ t ∧ New n t.nextId m := by
    intro ty x t m e
    unfold St.createNode at e
    rw [bind_ok] at e
    obtain ⟨_, _, e⟩ := e
    exact h.newNode e
  have hgen : ∀ ty x, Off n b s₀ (endOf (·.1) (s.fails (rd g i) >>= fun _ => s.fails (rd g i) >>= fun _ =>
      (s.createNode ty x).mapError (·, s))) ∧ ∀ t m, (s.fails (rd g i) >>= fun _ => s.fails (rd g i) >>= fun _ =>
      (s.createNode ty x).mapError (·, s)) = .ok (t, m) → New n t.nextId m := by
    intro ty x
    constructor
    · refine endOf_fails h (endOf_fails h ?_)
      cases e : s.createNode ty x with
      | error _ => exact h
      | ok r => exact (hno ty x r.1 r.2 e).1
    · intro t m e
      obtain ⟨_, _, e⟩ := bind_ok.1 e
      obtain ⟨_, _, e⟩ := bind_ok.1 e
      cases e' : s.createNode ty x with
      | error _ => rw [e'] at e; cases e
      | ok r => rw [e'] at e; cases e; exact (hno ty x _ _ e').2
  unfold St.copyNodeGU
  constructor
  · refine endOf_fails h ?_
    cases hty : s.nodeType i with
    | element =>
      refine endOf_fails h (endOf_mapError h fun r hr => ?_)
      obtain ⟨t, m⟩ := r
      obtain ⟨h1, hm⟩ := hel _ _ _ hr
      exact endOf_fails h1 (endOf_bind (π := id) ((Off.copyAttributes hm _ h1.rebase).lower h1.next) fun u _ hu => hu)
    | root => exact (hgen _ _).1
    | text => exact (hgen _ _).1
    | comment => exact (hgen _ _).1
  · intro t m e
    obtain ⟨_, _, e⟩ := bind_ok.1 e
    cases hty : s.nodeType i with
    | element =>
      rw [hty] at e
      obtain ⟨_, _, e⟩ := bind_ok.1 e
      cases e' : s.createElement (s.tagName i) with
      | error _ => rw [e'] at e; cases e
      | ok r =>
        rw [e'] at e
        obtain ⟨_, hr, e⟩ := bind_ok.1 e
        cases hr
        obtain ⟨_, _, e⟩ := bind_ok.1 e
        obtain ⟨v, hv, e⟩ := bind_ok.1 e
        cases e
        obtain ⟨h1, hm⟩ := hel _ _ _ e'
        have := Off.copyAttributes (g := g.share i) hm (r.1.attributes i) h1.rebase
        rw [hv] at this
        exact Off.new this hm
    | root => rw [hty] at e; exact (hgen _ _).2 t m e
    | text => rw [hty] at e; exact (hgen _ _).2 t m e
    | comment => rw [hty] at e; exact (hgen _ _).2 t m e

theorem Off.detachCore (h : Off n b s₀ s) {i : NodeId} (hi : New n b i) (held : List NodeId) :
    Off n b s₀ (endOf id (s.detachCoreGU g held i)) := by
  refine Off.lower (b' := s.nextId) ?_ h.next
  replace hi := h.new hi
  replace h := h.rebase
  have hpar : ∀ m : NodeId, (s.links i).parent = some m → New n s.nextId m := fun m hm => h.closed i hi m (.inr (.inl hm))
  have hprev : ∀ m : NodeId, (s.links i).prevSib = some m → New n s.nextId m := fun m hm =>
    h.closed i hi m (.inr (.inr (.inr (.inr (.inl hm)))))
  have hnext : ∀ m : NodeId, (s.links i).nextSib = some m → New n s.nextId m := fun m hm =>
    h.closed i hi m (.inr (.inr (.inr (.inr (.inr hm)))))
  have h1 : Off n s.nextId s₀ (s.setL i fun l => { l with parent := none, prevSib := none, nextSib := none }) := by
    refine h.setL hi ?_
    rintro l rfl m hm
    have := h.closed i hi m
    simp at hm
    tauto
  have up : ∀ {u : St} {w : Option NodeId} {m : NodeId}, u.upgrade w = some m → w = some m := by
    intro u w m e
    cases w with
    | none => simp [St.upgrade] at e
    | some x =>
      simp only [St.upgrade] at e
      split at e
      · exact e
      · cases e
  unfold St.detachCoreGU
  refine endOf_bind (π := id) ?_ fun u _ hu => ?_
  · unfold St.detachNextGU
    split
    · rename_i m hm
      refine endOf_fails h1 ?_
      rw [endOf_pure]
      show Off n s.nextId s₀ (St.setL _ m _)
      refine h1.setL (hnext m hm) ?_
      rintro l rfl k hk
      have := h1.closed m (h1.new (hnext m hm)) k
      simp only at hk
      rcases hk with hk | hk | hk | hk | hk | hk
      · exact this (by tauto)
      · exact this (by tauto)
      · exact this (by tauto)
      · exact this (by tauto)
      · exact h1.new (hprev k hk)
      · exact this (by tauto)
    · split
      · rename_i m hm
        refine endOf_fails h1 ?_
        rw [endOf_pure]
        show Off n s.nextId s₀ (St.setL _ m _)
        refine h1.setL (hpar m (up hm)) ?_
        rintro l rfl k hk
        have := h1.closed m (h1.new (hpar m (up hm))) k
        simp only at hk
        rcases hk with hk | hk | hk | hk | hk | hk
        · exact this (by tauto)
        · exact this (by tauto)
        · exact this (by tauto)
        · exact h1.new (hprev k hk)
        · exact this (by tauto)
        · exact this (by tauto)
      · exact h1
  · have hu : Off n s.nextId s₀ u := hu
    unfold St.detachPrevGU
    split
    · rename_i m hm
      refine endOf_fails hu ?_
      rw [endOf_pure]
      show Off n s.nextId s₀ (St.setL _ m _)
      refine hu.setL (hprev m (up hm)) ?_
      rintro l rfl k hk
      have := hu.closed m (hu.new (hprev m (up hm))) k
      simp only at hk
      rcases hk with hk | hk | hk | hk | hk | hk
      · exact this (by tauto)
      · exact this (by tauto)
      · exact this (by tauto)
      · exact this (by tauto)
      · exact this (by tauto)
      · exact hu.new (hnext k hk)
    · split
      · rename_i m hm
        refine endOf_fails hu ?_
        rw [endOf_pure]
        show Off n s.nextId s₀ (St.setL _ m _)
        refine hu.setL (hpar m (up hm)) ?_
        rintro l rfl k hk
        have := hu.closed m (hu.new (hpar m (up hm))) k
        simp only at hk
        rcases hk with hk | hk | hk | hk | hk | hk
        · exact this (by tauto)
        · exact this (by tauto)
        · exact hu.new (hnext k hk)
        · exact this (by tauto)
        · exact this (by tauto)
        · exact this (by tauto)
      · exact hu

theorem Off.append (h : Off n b s₀ s) {p c : NodeId} (hp : New n b p) (hc : New n b c) :
    Off n b s₀ (endOf id (s.appendGU g p c)) := by
  unfold St.appendGU
  refine endOf_fails h (endOf_fails h (endOf_fails h (endOf_bind (π := id) (h.detachCore hc _) fun u _ hu => ?_)))
  have hu : Off n b s₀ u := hu
  refine Off.lower (b' := u.nextId) ?_ hu.next
  replace hp := hu.new hp
  replace hc := hu.new hc
  replace hu := hu.rebase
  have hc' : ∀ k : NodeId, some c = some k → New n u.nextId k := fun k hk => by cases hk; exact hc
  have hroot : ∀ k : NodeId, some ((u.links p).root.getD p) = some k → New n u.nextId k := by
    intro k hk
    cases hr : (u.links p).root with
    | none => rw [hr] at hk; cases hk; exact hp
    | some m => rw [hr] at hk; cases hk; exact hu.closed p hp m (.inl hr)
  have h1 : Off n u.nextId s₀ (u.setL c fun l => { l with root := some ((u.links p).root.getD p), parent := some p }) := by
    refine hu.setL hc ?_
    rintro l rfl k hk
    have := hu.closed c hc k
    simp only at hk
    rcases hk with hk | hk | hk | hk | hk | hk
    · exact hroot k hk
    · cases hk; exact hp
    · exact this (by tauto)
    · exact this (by tauto)
    · exact this (by tauto)
    · exact this (by tauto)
  generalize hv : (u.setL c fun l => { l with root := some ((u.links p).root.getD p), parent := some p }) = v at h1
  have h2 : Off n u.nextId s₀ (v.setL p fun l => { l with lastChild := none }) := by
    refine h1.setL hp ?_
    rintro l rfl k hk
    have := h1.closed p (h1.new hp) k
    simp at hk
    tauto
  have hlast : ∀ m : NodeId, (v.links p).lastChild = some m → New n u.nextId m := by
    intro m hm
    have := h1.closed p (h1.new hp) m (by tauto)
    rwa [← hv] at this
  dsimp only
  generalize hw : (v.setL p fun l => { l with lastChild := none }) = w at h2
  have h3 : ∀ x : St, Off n u.nextId s₀ x → Off n u.nextId s₀ (x.setL p fun l => { l with lastChild := some c }) := by
    intro x hx
    refine hx.setL hp ?_
    rintro l rfl k hk
    have := hx.closed p (hx.new hp) k
    simp only at hk
    rcases hk with hk | hk | hk | hk | hk | hk
    · exact this (by tauto)
    · exact this (by tauto)
    · exact this (by tauto)
    · exact hx.new (hc' k hk)
    · exact this (by tauto)
    · exact this (by tauto)
  cases ho : w.upgrade (v.links p).lastChild with
  | some m =>
    have hm : New n u.nextId m := by
      refine hlast m ?_
      cases hl : (v.links p).lastChild with
      | none => rw [hl] at ho; cases ho
      | some y =>
        rw [hl] at ho
        simp only [St.upgrade] at ho
        split at ho
        · exact ho
        · cases ho
    have h4 : Off n u.nextId s₀ (w.setL c fun l => { l with prevSib := (v.links p).lastChild }) := by
      refine h2.setL hc ?_
      rintro l rfl k hk
      have := h2.closed c (h2.new hc) k
      simp only at hk
      rcases hk with hk | hk | hk | hk | hk | hk
      · exact this (by tauto)
      · exact this (by tauto)
      · exact this (by tauto)
      · exact this (by tauto)
      · exact h2.new (hlast k hk)
      · exact this (by tauto)
    have h5 := h3 _ h4
    refine endOf_fails h5 (endOf_fails h5 ?_)
    rw [endOf_pure]
    show Off n u.nextId s₀ (St.setL _ m _)
    refine h5.setL hm ?_
    rintro l rfl k hk
    have := h5.closed m (h5.new hm) k
    simp only at hk
    rcases hk with hk | hk | hk | hk | hk | hk
    · exact this (by tauto)
    · exact this (by tauto)
    · exact this (by tauto)
    · exact this (by tauto)
    · exact this (by tauto)
    · exact h5.new (hc' k hk)
  | none =>
    have h5 := h3 _ h2
    refine endOf_fails h5 ?_
    rw [endOf_pure]
    show Off n u.nextId s₀ (St.setL _ p _)
    refine h5.setL hp ?_
    rintro l rfl k hk
    have := h5.closed p (h5.new hp) k
    simp only at hk
    rcases hk with hk | hk | hk | hk | hk | hk
    · exact this (by tauto)
    · exact this (by tauto)
    · exact h5.new (hc' k hk)
    · exact this (by tauto)
    · exact this (by tauto)
    · exact this (by tauto)

theorem Off.deepCopy : ∀ (k : Nat) {b : Nat} {s : St} {par : NodeId} (it : Children), Off n b s₀ s → New n b par →
    Off n b s₀ (endOf id (St.deepCopyAuxGU g k s par it))
  | 0, _, _, _, _, h, _ => h
  | k + 1, b, s, par, it, h, hp => by
    unfold St.deepCopyAuxGU
    refine endOf_mapError h fun x _ => ?_
    obtain ⟨o, it'⟩ := x
    cases o with
    | none => exact h
    | some c =>
      refine endOf_bind (π := (·.1)) (h.copyNode c).1 fun y hy h1 => ?_
      obtain ⟨u, m⟩ := y
      have hm := (h.copyNode c).2 u m hy
      refine endOf_bind (π := id) ((Off.append h1.rebase (h1.new hp) hm).lower h1.next) fun v hv h2 => endOf_fails h2 ?_
      have h2 : Off n b s₀ v := h2
      have hm2 : New n v.nextId m := by
        have := Off.append (g := g) h1.rebase (h1.new hp) hm
        rw [hv] at this
        exact Off.new this hm
      dsimp only
      split
      · refine endOf_mapError h2 fun it2 _ => endOf_bind (π := id) ((Off.deepCopy k it2 h2.rebase hm2).lower h2.next) fun w _ h3 => ?_
        exact Off.deepCopy k it' h3 hp
      · exact Off.deepCopy k it' h2 hp

theorem Off.copyNodeDeep (h : Off n b s₀ s) (i : NodeId) : Off n b s₀ (endOf (·.1) (s.copyNodeDeepGU g i)) := by
  unfold St.copyNodeDeepGU
  refine endOf_bind (π := (·.1)) (h.copyNode i).1 fun y hy h1 => ?_
  obtain ⟨u, m⟩ := y
  refine endOf_mapError h1 fun it _ => endOf_bind (π := id) ((Off.deepCopy _ it (Off.rebase h1) ((h.copyNode i).2 u m hy)).lower (Off.next h1)) fun w _ h2 => h2

theorem Off.refl (s : St) : Off s.nextId s.nextId s s where
  links _ _ := rfl
  live _ _ := rfl
  data _ _ := rfl
  back _ _ := rfl
  stored _ _ h := h
  rootId := rfl
  debug := rfl
  least := Nat.le_refl _
  next := Nat.le_refl _
  closed j hj := absurd hj.2 (Nat.not_lt.2 hj.1)

end

end Svgdom
