import Verif.Proof.Unique
import Verif.Spec.Acyclic
import Mathlib.Data.Finset.Card
import Mathlib.Data.Finset.Range

/-! Acyclicity is kept by safe calls. -/

namespace Svgdom

open Relation

/-- Parents have smaller rank. -/
def Ranked (live : NodeId → Bool) (par : NodeId → Option NodeId) (r : NodeId → Nat) : Prop :=
  ∀ i, live i = true → ∀ p, par i = some p → r p < r i

theorem up_live {s : St} {i p : NodeId} (h : s.Up i p) : s.live p = true := (upgrade_live h).1

theorem acyclic_of_ranked {s : St} {r : NodeId → Nat} (h : Ranked s.live s.parent r) : s.Acyclic := by
  have key : ∀ i a, s.live i = true → s.Ancestor a i → r a < r i := by
    intro i a hi hanc
    induction hanc with
    | single hu => exact h i hi _ hu
    | @tail b c h1 hu ih =>
      have hl : s.live b = true := by
        cases h1 with
        | single h => exact up_live h
        | tail _ h => exact up_live h
      exact Nat.lt_trans (h _ hl _ hu) ih
  intro i hi hanc
  exact Nat.lt_irrefl _ (key i i hi hanc)

theorem ranked_of_acyclic {s : St} (h : s.Acyclic) (hb : LiveBelow s) :
    ∃ r, Ranked s.live s.parent r ∧ ∀ i, r i ≤ s.nextId := by
  classical
  refine ⟨fun i => ((Finset.range s.nextId).filter fun a => s.Ancestor a i).card, ?_, ?_⟩
  · intro i hi p hp
    have hpl : s.live p = true := up_live hp
    apply Finset.card_lt_card
    rw [Finset.ssubset_iff_of_subset]
    · refine ⟨p, ?_, ?_⟩
      · simp only [Finset.mem_filter, Finset.mem_range]
        exact ⟨hb p hpl, .single hp⟩
      · simp only [Finset.mem_filter, Finset.mem_range, not_and]
        intro _; exact h p hpl
    · intro a ha
      simp only [Finset.mem_filter, Finset.mem_range] at ha ⊢
      exact ⟨ha.1, .head hp ha.2⟩
  · intro i
    exact (Finset.card_filter_le _ _).trans (by simp)

theorem Inv.liveBelow {s : St} (h : Inv s) : LiveBelow s := by
  obtain ⟨_, hT⟩ := h.tree
  exact hT.liveBelow

/-- Re-ranking after a move of `c` below `p`. -/
theorem acyclic_move {s t : St} (hb : LiveBelow s) (ha : s.Acyclic) {c : NodeId} {p : Option NodeId} (hlive : t.live = s.live)
    (hns : ∀ q, p = some q → ¬ s.InSubtree c q)
    (hpar : ∀ j, s.live j = true → t.parent j = if j = c then p else s.parent j) : t.Acyclic := by
  classical
  obtain ⟨r, hr, _⟩ := ranked_of_acyclic ha hb
  apply acyclic_of_ranked (r := fun j => if s.InSubtree c j then r j + (p.map fun q => r q + 1).getD 0 else r j)
  intro j hj q hq
  show (if s.InSubtree c q then r q + (p.map fun q => r q + 1).getD 0 else r q) <
    (if s.InSubtree c j then r j + (p.map fun q => r q + 1).getD 0 else r j)
  rw [hlive] at hj
  rw [hpar j hj] at hq
  by_cases hjc : j = c
  · subst hjc
    simp only [if_true] at hq
    have h1 : s.InSubtree j j := .refl
    rw [if_neg (hns q hq), if_pos h1, hq]
    simp only [Option.map_some, Option.getD_some]
    exact Nat.lt_of_lt_of_le (Nat.lt_succ_self _) (Nat.le_add_left _ _)
  · simp only [hjc, if_false] at hq
    have hlt := hr j hj q hq
    have hiff : s.InSubtree c j ↔ s.InSubtree c q := by
      constructor
      · intro h
        cases h.cases_head with
        | inl h => exact absurd h hjc
        | inr h =>
          obtain ⟨q', hq', h⟩ := h
          have : q' = q := by
            have h1 : s.parent j = some q' := hq'
            rw [hq] at h1; exact (Option.some.inj h1).symm
          exact this ▸ h
      · intro h; exact .head hq h
    by_cases hs : s.InSubtree c j
    · rw [if_pos hs, if_pos (hiff.1 hs)]; exact Nat.add_lt_add_right hlt _
    · rw [if_neg hs, if_neg (fun h => hs (hiff.2 h))]; exact hlt

theorem acyclic_sub {s t : St} (ha : s.Acyclic) (hlive : ∀ i, t.live i = true → s.live i = true)
    (hpar : ∀ j p, t.live j = true → t.parent j = some p → s.parent j = some p) : t.Acyclic := by
  intro i hi hanc
  refine ha i (hlive i hi) ?_
  have key : ∀ {i a : NodeId}, t.live i = true → t.Ancestor a i → s.Ancestor a i ∧ t.live a = true := by
    intro i a hi hanc
    induction hanc with
    | single hu => exact ⟨.single (hpar i _ hi hu), up_live hu⟩
    | tail h1 hu ih => exact ⟨.tail ih.1 (hpar _ _ ih.2 hu), up_live hu⟩
  exact (key hi hanc).1

theorem acyclic_same {s t : St} (ha : s.Acyclic) (hl : t.live = s.live) (hk : t.links = s.links) : t.Acyclic :=
  acyclic_sub ha (fun i hi => by rw [hl] at hi; exact hi) (fun j p _ hp => by
    simpa [St.parent, St.upgrade, hl, hk] using hp)

theorem append_parent {s t : St} (h : Inv s) {p c : NodeId} (hp : s.live p = true) (hc : s.live c = true)
    (e : s.append p c = .ok t) : ∀ j, s.live j = true → t.parent j = if j = c then some p else s.parent j := by
  obtain ⟨F, hT⟩ := h.tree
  have := append_spec hT.reps hp hc
  split_ifs at this
  · rw [this] at e; simp at e
  · rw [this] at e; simp at e
  · obtain ⟨t', e', hr, hf, _⟩ := this
    rw [e] at e'; cases e'
    intro j hj
    rw [hr.shows.parent j (by rw [hf.live]; exact hj), hT.reps.shows.parent j hj]
    simp only [Forest.append, Forest.attach, Forest.detach]
    split_ifs <;> rfl

theorem prepend_parent {s t : St} (h : Inv s) {p c : NodeId} (hp : s.live p = true) (hc : s.live c = true)
    (e : s.prepend p c = .ok t) : ∀ j, s.live j = true → t.parent j = if j = c then some p else s.parent j := by
  obtain ⟨F, hT⟩ := h.tree
  have := prepend_spec hT.reps hp hc
  split_ifs at this
  · rw [this] at e; simp at e
  · rw [this] at e; simp at e
  · obtain ⟨t', e', hr, hf, _⟩ := this
    rw [e] at e'; cases e'
    intro j hj
    rw [hr.shows.parent j (by rw [hf.live]; exact hj), hT.reps.shows.parent j hj]
    simp only [Forest.prepend, Forest.attach, Forest.detach]
    split_ifs <;> rfl

theorem insertAfter_parent {s t : St} (h : Inv s) {x y : NodeId} (hx : s.live x = true) (hy : s.live y = true)
    (e : s.insertAfter x y = .ok t) : ∀ j, s.live j = true → t.parent j = if j = y then s.parent x else s.parent j := by
  obtain ⟨F, hT⟩ := h.tree
  have := insertAfter_spec hT.reps hx hy
  split_ifs at this with h1 h2
  · rw [this] at e; simp at e
  · rw [this] at e; simp at e
  · obtain ⟨t', e', hr, hf, _⟩ := this
    rw [e] at e'; cases e'
    intro j hj
    rw [hr.shows.parent j (by rw [hf.live]; exact hj), hT.reps.shows.parent j hj, hT.reps.shows.parent x hx]
    simp only [Forest.insertAfter, Forest.attach, Forest.detach]
    split_ifs <;> rfl

theorem insertBefore_parent {s t : St} (h : Inv s) {x y : NodeId} (hx : s.live x = true) (hy : s.live y = true)
    (e : s.insertBefore x y = .ok t) : ∀ j, s.live j = true → t.parent j = if j = y then s.parent x else s.parent j := by
  obtain ⟨F, hT⟩ := h.tree
  have := insertBefore_spec hT.reps hx hy
  split_ifs at this with h1 h2
  · rw [this] at e; simp at e
  · rw [this] at e; simp at e
  · obtain ⟨t', e', hr, hf, _⟩ := this
    rw [e] at e'; cases e'
    intro j hj
    rw [hr.shows.parent j (by rw [hf.live]; exact hj), hT.reps.shows.parent j hj, hT.reps.shows.parent x hx]
    simp only [Forest.insertBefore, Forest.attach, Forest.detach]
    split_ifs <;> rfl

/-- A childless node is no ancestor. -/
theorem no_descendants {s : St} (h : Inv s) {c i : NodeId} (hc : s.live c = true) (hf : s.firstChild c = none)
    (hi : s.live i = true) (hs : s.InSubtree c i) : i = c := by
  obtain ⟨F, hT⟩ := h.tree
  induction hs using ReflTransGen.head_induction_on with
  | refl => rfl
  | head hu hrest ih =>
    next a b =>
    have := ih (up_live hu)
    subst this
    have hpa : s.parent a = some b := hu
    rw [hT.reps.shows.parent a hi] at hpa
    have hm := (hT.reps.wf.kids_iff hc hi).2 hpa
    rw [hT.reps.shows.first b hc] at hf
    cases hk : F.kids b with
    | nil => rw [hk] at hm; simp at hm
    | cons => rw [hk] at hf; simp at hf

theorem newNode_parent {s t : St} (h : Inv s) {d : NodeData} {n : NodeId} (e : s.newNode d = .ok (t, n)) :
    ∀ j, t.parent j = if j = s.nextId then none else s.parent j := by
  obtain ⟨F, hT⟩ := h.tree
  obtain ⟨sl, key, _, e3⟩ := newNode_ok h d
  rw [e3] at e
  cases e
  intro j
  by_cases hj : j = s.nextId
  · simp [hj, St.parent, St.alloc, St.upgrade]
  · rw [if_neg hj]
    have h1 := alloc_upgrade (d := d) (w := (s.links j).parent) (hT.below j).parent
    simp only [St.parent, St.alloc, upd, hj, if_false] at h1 ⊢
    exact h1

theorem Inner.acyclic {s t : St} (h : Inv s) (ha : s.Acyclic) (st : Inner s t) : t.Acyclic := by
  cases st with
  | new d hat hn _ e =>
    have hp := newNode_parent h e
    obtain ⟨_, hid, _, hlv⟩ := h.newNode hat hn e
    obtain ⟨r, hr, _⟩ := ranked_of_acyclic ha h.liveBelow
    apply acyclic_of_ranked (r := r)
    intro i hi p hpi
    rw [hp i] at hpi
    split at hpi
    · simp at hpi
    · next hne =>
      rw [hlv] at hi
      simp only [hne, if_false] at hi
      exact hr i hi p hpi
  | leaf p c hp hc hf _ e =>
    refine acyclic_move h.liveBelow ha (c := c) (p := some p) (h.append hp hc e).2.live ?_ (append_parent h hp hc e)
    rintro q hq hs
    obtain rfl := Option.some.inj hq
    have := no_descendants h hc hf hp hs
    subst this
    obtain ⟨F, hT⟩ := h.tree
    have := append_spec hT.reps hp hc
    rw [if_pos rfl] at this
    rw [this] at e; simp at e
  | detach i hi =>
    refine acyclic_sub ha (fun _ h => h) ?_
    intro j p hj hp
    obtain ⟨F, hT⟩ := h.tree
    rw [(hT.reps.detached hi).shows.parent j hj] at hp
    rw [hT.reps.shows.parent j hj]
    simp only [Forest.detach] at hp
    split at hp
    · simp at hp
    · exact hp
  | data i f _ _ _ _ _ _ _ => exact acyclic_same ha rfl rfl
  | set i a hi ht e =>
    rcases setChecked_cases h hi e with ⟨_, _, rfl, _⟩ | ⟨_, rfl, hr⟩
    · exact ha
    · exact acyclic_same ha rfl rfl
  | unset i name hi => exact acyclic_same ha rfl rfl
  | finish i hi e =>
    obtain ⟨t', e', h', hk, hl, _⟩ := finishRemove_ok h hi
    rw [e] at e'; cases e'
    exact acyclic_same ha hl hk

theorem Inners.acyclic {s t : St} (h : Inv s) (ha : s.Acyclic) (st : Inners s t) : t.Acyclic := by
  induction st with
  | refl => exact ha
  | tail st1 st ih => exact st.acyclic (Inners.inv h st1) ih

theorem SafeReachable.acyclic {s : St} (h : SafeReachable s) : s.Acyclic := by
  induction h with
  | init d =>
    intro i _ hanc
    cases hanc with
    | single h => simp [St.Up, St.parent, St.init] at h
    | tail _ h => simp [St.Up, St.parent, St.init] at h
  | @call s t op hs hl hsafe e ih =>
    have hinv := hs.reachable.inv
    cases hm : op.isMove with
    | false => exact (op_inner hinv op hl e hm).acyclic hinv ih
    | true =>
      cases op with
      | append p c =>
        have hp := hl p (by simp [Op.handles])
        have hc := hl c (by simp [Op.handles])
        refine acyclic_move hinv.liveBelow ih (c := c) (p := some p) (hinv.append hp hc e).2.live ?_ (append_parent hinv hp hc e)
        rintro q hq; obtain rfl := Option.some.inj hq; exact hsafe
      | prepend p c =>
        have hp := hl p (by simp [Op.handles])
        have hc := hl c (by simp [Op.handles])
        refine acyclic_move hinv.liveBelow ih (c := c) (p := some p) (hinv.prepend hp hc e).2.live ?_ (prepend_parent hinv hp hc e)
        rintro q hq; obtain rfl := Option.some.inj hq; exact hsafe
      | insertAfter x y =>
        have hx := hl x (by simp [Op.handles])
        have hy := hl y (by simp [Op.handles])
        refine acyclic_move hinv.liveBelow ih (c := y) (p := s.parent x) (hinv.insertAfter hx hy e).2.live ?_
          (insertAfter_parent hinv hx hy e)
        intro q hq hsub
        exact hsafe (TransGen.head' hq hsub)
      | insertBefore x y =>
        have hx := hl x (by simp [Op.handles])
        have hy := hl y (by simp [Op.handles])
        refine acyclic_move hinv.liveBelow ih (c := y) (p := s.parent x) (hinv.insertBefore hx hy e).2.live ?_
          (insertBefore_parent hinv hx hy e)
        intro q hq hsub
        exact hsafe (TransGen.head' hq hsub)
      | _ => simp [Op.isMove] at hm
  | @free s i hs hi hr ih =>
    refine acyclic_sub ih (fun j hj => ?_) (fun j p hj hp => ?_)
    · simp only [St.free] at hj
      split at hj
      · simp at hj
      · exact hj
    · simp only [St.parent, St.upgrade, St.free] at hp ⊢
      cases hpp : (s.links j).parent with
      | none => rw [hpp] at hp; simp at hp
      | some q =>
        rw [hpp] at hp
        simp only at hp ⊢
        by_cases hqi : q = i
        · simp [hqi] at hp
        · simpa [hqi] using hp
  | edit _ he ih => exact acyclic_same ih he.live he.links

end Svgdom
