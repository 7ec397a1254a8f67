import Verif.Proof.Unwind
import Verif.Proof.Exact

/-!
# Helper lemmas for C77: the panic of `insert_after` with the parent of a last child
-/

set_option autoImplicit false

namespace Svgdom

/-- The parent of a last child is not next to it. -/
theorem last_not_blocked {s : St} {F : Forest} (hF : Describes s F) (ha : s.Acyclic) {x y : NodeId} (hy : s.live y = true)
    (hl : s.lastChild y = some x) : x ≠ y ∧ s.live x = true ∧ s.parent x = some y ∧ ¬ s.blocked [x, y] y := by
  have hm : x ∈ F.kids y := List.mem_of_getLast? (by rw [← hF.shows.last y hy]; exact hl)
  obtain ⟨hx, hp⟩ := hF.wf.kids y hy x hm
  have hpx : s.parent x = some y := by rw [hF.shows.parent x hx, hp]
  have hxy : x ≠ y := by rintro rfl; exact ha x hx (.single hpx)
  have hyy : s.parent y ≠ some y := fun h => ha y hy (.single h)
  have hyx : s.parent y ≠ some x := fun h => ha y hy (.trans (.single h) (.single hpx))
  have hsib : ∀ n, n ∈ F.sibs y → n ≠ x := by
    rintro n hn rfl
    have := (hF.wf.sib y hy n hn).2.2
    rw [hp, ← hF.shows.parent y hy] at this
    exact hyy this.symm
  have hn : ∀ n, s.nextSibling y = some n → n ∉ [x, y] := by
    intro n e
    rw [hF.shows.next y hy] at e
    have h1 := hsib n (after_mem e)
    have h2 : n ≠ y := by
      rintro rfl
      exact Nat.lt_irrefl _ (after_lt (hF.wf.nodup n hy) (hF.wf.self_mem n hy) e)
    simp [h1, h2]
  have hq : ∀ n, s.prevSibling y = some n → n ∉ [x, y] := by
    intro n e
    rw [hF.shows.prev y hy] at e
    have h1 := hsib n (before_mem e)
    have h2 : n ≠ y := by
      rintro rfl
      exact Nat.lt_irrefl _ (before_lt (hF.wf.nodup n hy) (hF.wf.self_mem n hy) e)
    simp [h1, h2]
  have hpar : ∀ n, s.parent y = some n → n ∉ [x, y] := by
    rintro n e hm
    simp only [List.mem_cons, List.not_mem_nil, or_false] at hm
    rcases hm with rfl | rfl
    · exact hyx e
    · exact hyy e
  refine ⟨hxy, hx, hpx, ?_⟩
  rintro (⟨n, e, hm⟩ | ⟨n, e, hm⟩)
  · unfold St.touch1 at e
    split at e
    · next k hk => cases e; exact hn _ hk hm
    · exact hpar n e hm
  · unfold St.touch2 at e
    split at e
    · next k hk => cases e; exact hq _ hk hm
    · exact hpar n e hm

theorem upgrade_raw {s : St} {w : Option NodeId} {i : NodeId} (h : s.upgrade w = some i) : w = some i := by
  unfold St.upgrade at h
  split at h
  · split at h <;> simp_all
  · simp at h

/-- The state that the panic leaves: `y` is its own parent. -/
theorem abort_state {s t : St} {F : Forest} (hr : Reps s F) (ha : s.Acyclic) {x y : NodeId} (hy : s.live y = true)
    (hl : s.lastChild y = some x) {e : Err} (er : s.insertAfterU x y = .error (e, t)) :
    ∃ r, t = ((s.detached y).setL y fun l => { l with root := r, parent := some y, prevSib := some x }).setL x
      fun l => { l with nextSib := none } := by
  have hF := hr.describes
  obtain ⟨hxy, hx, hpx, hb⟩ := last_not_blocked hF ha hy hl
  have hd : s.detachCoreU [x, y] y = .ok (s.detached y) :=
    forget_ok (by rw [detachCoreU_agrees]; exact St.detachCore_ok s _ _ hb)
  have hr' := hr.detached hy
  have hG := hr'.describes
  have hlx : (s.detached y).live x = true := hx
  have hp1 : ((s.detached y).links x).parent = some y := by
    apply upgrade_raw
    have := hG.shows.parent x hlx
    simp only [St.parent] at this
    rw [this]
    simp only [Forest.detach, hxy, if_false]
    rw [← hF.shows.parent x hx, hpx]
  have hn1 : ((s.detached y).links x).nextSib = none := by
    have := hG.shows.next x hlx
    simp only [St.nextSibling] at this
    rw [this]
    simp only [Forest.detach, hxy, if_false]
    have hsk : F.kids y = F.sibs x := (hF.wf.par x hx y (by rw [← hF.shows.parent x hx, hpx])).2
    have hlast : (F.sibs x).getLast? = some x := by rw [← hsk, ← hF.shows.last y hy]; exact hl
    exact after_erase_x (hF.wf.nodup x hx) hxy (after_last_none (hF.wf.nodup x hx) hlast)
  unfold St.insertAfterU at er
  have hne : (x != y) = true := by simp [hxy]
  simp only [hne, assertOrPanic, if_true, St.fails, Except.mapError, bind, Except.bind, hd, hp1, St.setL_links, hxy, if_false, hn1,
    St.setL_upgrade] at er
  have hup : (s.detached y).upgrade (some y) = some y := by simp [St.upgrade, St.detached, hy]
  simp only [hup, borrowMut, List.mem_cons, List.not_mem_nil, or_false, or_true, if_true] at er
  simp only [Except.error.injEq, Prod.mk.injEq] at er
  exact ⟨_, er.2.symm⟩

/-! ## `Drop` reaches the node -/

/-- Node `y` is its own parent and has no sibling behind it; no other node has it as a sibling. -/
structure Stuck (s : St) (y : NodeId) : Prop where
  live : s.live y = true
  parent : (s.links y).parent = some y
  next : (s.links y).nextSib = none
  apart : ∀ z, z ≠ y → s.live z = true → s.nextSibling z ≠ some y ∧ s.prevSibling z ≠ some y

theorem Stuck.blocked {s : St} {y : NodeId} (h : Stuck s y) : s.blocked [y] y := by
  refine .inl ⟨y, ?_, by simp⟩
  simp [St.touch1, St.nextSibling, h.next, St.parent, h.parent, St.upgrade, h.live]

theorem Stuck.detached {s : St} {y z : NodeId} (h : Stuck s y) (hz : s.live z = true) (hne : z ≠ y) : Stuck (s.detached z) y where
  live := h.live
  parent := by simp [St.detached, St.detachedLinks, hne.symm, h.parent]
  next := by simp [St.detached, St.detachedLinks, hne.symm, h.next, (h.apart z hne hz).2]
  apart := by
    intro w hw hl
    have hw' : s.live w = true := hl
    obtain ⟨z1, z2⟩ := h.apart z hne hz
    obtain ⟨w1, w2⟩ := h.apart w hw hw'
    constructor
    · simp only [St.nextSibling, St.detached, St.detachedLinks] at *
      split_ifs <;> simp_all
    · simp only [St.prevSibling, St.detached, St.detachedLinks] at *
      have : ∀ q, ({ s with links := s.detachedLinks z } : St).upgrade q = s.upgrade q := fun _ => rfl
      rw [this]
      split_ifs
      · exact z2
      · simp [St.upgrade]
      · exact w2

theorem Stuck.data {s : St} {y n : NodeId} (h : Stuck s y) (f : NodeData → NodeData) : Stuck (s.setD n f) y :=
  ⟨h.live, h.parent, h.next, h.apart⟩

/-- `Drop` panics. -/
theorem Stuck.drop {y : NodeId} : ∀ (l : List NodeId) {s : St}, Stuck s y → (∀ n ∈ l, s.live n = true) → y ∈ l →
    s.dropLoop l = .error (.panic .borrowed)
  | [], _, _, _, hm => by simp at hm
  | n :: l, s, h, hl, hm => by
    obtain ⟨v, hv⟩ : ∃ v, v = (s.setD n fun d => { d with attributes := [] }).setD n fun d => { d with linkedNodes := [] } := ⟨_, rfl⟩
    have hvl : v.live = s.live := by rw [hv]; rfl
    have h1 : Stuck v y := by rw [hv]; exact (h.data _).data _
    have hone : s.dropOne n = v.detach n := by rw [hv]; rfl
    by_cases hb : v.blocked [n] n
    · have : s.dropOne n = .error (.panic .borrowed) := by rw [hone]; exact St.detachCore_blocked v _ _ hb
      simp [St.dropLoop, this, bind, Except.bind]
    · have hne : n ≠ y := by rintro rfl; exact hb h1.blocked
      have : s.dropOne n = .ok (v.detached n) := by rw [hone]; exact St.detachCore_ok v _ _ hb
      simp only [St.dropLoop, this, bind, Except.bind]
      refine Stuck.drop l (h1.detached (by rw [hvl]; exact hl n (by simp)) hne) (fun m hm2 => ?_) ((List.mem_cons.1 hm).resolve_left hne.symm)
      change v.live m = true
      rw [hvl]; exact hl m (by simp [hm2])

/-! ## `Drop` does not reach the node -/

/-- The state that the panic leaves, seen from the outside. -/
structure AbortState (s t : St) (x y : NodeId) : Prop where
  live : t.live = s.live
  slab : t.slab = s.slab
  stuck : Stuck t y
  loose : ∃ ord, Loose t ord (some y)
  child : s.live x = true ∧ t.prevSibling y = some x ∧ t.nextSibling x = none

theorem abort_state' {s t : St} {F : Forest} (hr : Reps s F) (ha : s.Acyclic) {x y : NodeId} (hy : s.live y = true)
    (hl : s.lastChild y = some x) {e : Err} (er : s.insertAfterU x y = .error (e, t)) : AbortState s t x y := by
  obtain ⟨r, rfl⟩ := abort_state hr ha hy hl er
  have hF := hr.describes
  obtain ⟨hxy, hx, hpx, hb⟩ := last_not_blocked hF ha hy hl
  have hr' := hr.detached hy
  have hG := hr'.describes
  obtain ⟨u, hu⟩ : ∃ u, u = s.detached y := ⟨_, rfl⟩
  rw [← hu] at hr' hG ⊢
  have hul : u.live = s.live := by rw [hu]; rfl
  have hyu : u.live y = true := by rw [hul]; exact hy
  have hns : ∀ z, z ≠ y → u.live z = true → u.nextSibling z ≠ some y ∧ u.prevSibling z ≠ some y := by
    intro z hz hlz
    have hny : y ∉ (F.detach y).sibs z := by
      simp only [Forest.detach, hz, if_false]
      exact fun hm => (((hF.wf.nodup z (by rw [hul] at hlz; exact hlz)).mem_erase_iff).1 hm).1 rfl
    constructor
    · rw [hG.shows.next z hlz]; exact fun e => hny (after_mem e)
    · rw [hG.shows.prev z hlz]; exact fun e => hny (before_mem e)
  have hyn : (u.links y).nextSib = none := by
    have := hG.shows.next y hyu
    simp only [St.nextSibling] at this
    rw [this]
    simp [Forest.detach, after]
  have hpar : ∀ z, z ≠ y → u.live z = true → u.parent z ≠ some z := by
    intro z hz hlz e
    rw [hG.shows.parent z hlz] at e
    simp only [Forest.detach, hz, if_false] at e
    rw [hul] at hlz
    rw [← hF.shows.parent z hlz] at e
    exact ha z hlz (.single e)
  obtain ⟨t, ht⟩ : ∃ t, t = (u.setL y fun l => { l with root := r, parent := some y, prevSib := some x }).setL x
      fun l => { l with nextSib := none } := ⟨_, rfl⟩
  rw [← ht]
  have htl : t.live = u.live := by rw [ht]; rfl
  have hup : ∀ w, t.upgrade w = u.upgrade w := fun w => by rw [ht]; rfl
  have lk : ∀ z, t.links z = if z = x then { u.links x with nextSib := none } else
      if z = y then { u.links y with root := r, parent := some y, prevSib := some x } else u.links z := by
    intro z
    rw [ht]
    simp only [St.setL_links, hxy, if_false]
  have hstuck : Stuck t y := by
    refine ⟨by rw [htl]; exact hyu, ?_, ?_, ?_⟩
    · rw [lk]; simp [hxy.symm]
    · rw [lk]; simp [hxy.symm, hyn]
    · intro z hz hlz
      rw [htl] at hlz
      obtain ⟨h1, h2⟩ := hns z hz hlz
      simp only [St.nextSibling, St.prevSibling, lk, hz, if_false, hup] at *
      split_ifs with hzx
      · subst hzx; simp [h2]
      · exact ⟨h1, h2⟩
  refine ⟨by rw [htl, hul], by rw [ht, hu]; rfl, hstuck, ?_, hx, ?_, by simp [St.nextSibling, lk]⟩
  rotate_left
  · simp only [St.prevSibling, lk, hxy.symm, if_false, if_true]
    simp [St.upgrade, htl, hul, hx]
  refine ⟨fun i => if i = y then ((F.detach y).sibs x).idxOf x + 1 else ((F.detach y).sibs i).idxOf i, ?_⟩
  have base := fun (hp : ∀ i, u.live i = true → u.parent i ≠ some i) => loose_of_describes hG hp
  have hy0 : u.parent y ≠ some y := by
    rw [hG.shows.parent y hyu]; simp [Forest.detach]
  have base := base fun i hi => by
    by_cases h : i = y
    · subst h; exact hy0
    · exact hpar i h hi
  constructor
  · intro i n hi e
    by_cases hiy : i = y
    · subst hiy
      simp only [St.nextSibling] at e
      rw [hstuck.next] at e; simp at e
    · have hny : n ≠ y := by rintro rfl; exact (hstuck.apart i hiy hi).1 e
      simp only [hiy, hny, if_false]
      apply base.next i n (by rw [← htl]; exact hi)
      simp only [St.nextSibling, lk, hiy, if_false] at e ⊢
      split_ifs at e; exact e
  · intro i q hi e
    by_cases hiy : i = y
    · subst hiy
      have hqx : q = x := by
        simp only [St.prevSibling, lk, hxy.symm, if_false, if_true] at e
        have := upgrade_raw e
        simpa using this.symm
      subst hqx
      simp [hxy]
    · have hqy : q ≠ y := by rintro rfl; exact (hstuck.apart i hiy hi).2 e
      simp only [hiy, hqy, if_false]
      apply base.prev i q (by rw [← htl]; exact hi)
      simp only [St.prevSibling, lk, hiy, if_false, hup] at e ⊢
      split_ifs at e with hix
      · subst hix; exact e
      · exact e
  · intro i hi hne e
    have hiy : i ≠ y := fun h => hne (by rw [h])
    apply hpar i hiy (by rw [← htl]; exact hi)
    simp only [St.parent, lk, hiy, if_false, hup] at e ⊢
    split_ifs at e with hix
    · subst hix; exact e
    · exact e

/-! ## The tree after half of a `detach` -/

theorem Describes.next_prev {s : St} {F : Forest} (hF : Describes s F) {i j : NodeId} (hi : s.live i = true) (hj : s.live j = true) :
    s.nextSibling i = some j ↔ s.prevSibling j = some i := by
  rw [hF.shows.next i hi, hF.shows.prev j hj]
  constructor
  · intro e
    have hm := after_mem e
    obtain ⟨_, hs, _⟩ := hF.wf.sib i hi j hm
    rw [hs]
    obtain ⟨a, b, hab, h1, h2, _⟩ := nodup_split (hF.wf.nodup i hi) (hF.wf.self_mem i hi)
    have hn := hF.wf.nodup i hi
    rw [hab, after_split h1] at e
    rw [hab] at hn ⊢
    have : (a ++ [i] ++ b).Nodup := by simpa using hn
    have := before_head this e
    simpa using this
  · intro e
    have hm := before_mem e
    obtain ⟨_, hs, _⟩ := hF.wf.sib j hj i hm
    rw [hs]
    obtain ⟨a, b, hab, h1, h2, _⟩ := nodup_split (hF.wf.nodup j hj) (hF.wf.self_mem j hj)
    have hn := hF.wf.nodup j hj
    rw [hab, before_split h1] at e
    rw [hab] at hn ⊢
    have := after_getLast hn e
    simpa using this

theorem Describes.child_parent {s : St} {F : Forest} (hF : Describes s F) {p c : NodeId} (hp : s.live p = true)
    (h : s.firstChild p = some c ∨ s.lastChild p = some c) : s.parent c = some p := by
  have hm : c ∈ F.kids p := by
    rcases h with h | h
    · rw [hF.shows.first p hp] at h; exact List.mem_of_mem_head? h
    · rw [hF.shows.last p hp] at h; exact List.mem_of_getLast? h
  obtain ⟨hl, hpar⟩ := hF.wf.kids p hp c hm
  rw [hF.shows.parent c hl, hpar]

/-- Another node still has `y` as a neighbour or child, but `y` has no neighbours and no parent. -/
theorem not_describes_of_alone {t : St} {y : NodeId} (hy : t.live y = true) (h0 : t.parent y = none) (h1 : t.nextSibling y = none)
    (h2 : t.prevSibling y = none) {n : NodeId} (hn : t.live n = true)
    (h : t.nextSibling n = some y ∨ t.prevSibling n = some y ∨ t.firstChild n = some y ∨ t.lastChild n = some y) :
    ¬ ∃ F, Describes t F := by
  rintro ⟨F, hF⟩
  rcases h with h | h | h
  · rw [(hF.next_prev hn hy).1 h] at h2; simp at h2
  · rw [(hF.next_prev hy hn).2 h] at h1; simp at h1
  · rw [hF.child_parent hn h] at h0; simp at h0

theorem fails_error {s t : St} {r : Except Err Unit} {α : Type} {f : Unit → α} {e : Err}
    (h : (do s.fails r; pure (f ())) = (.error (e, t) : Except (Err × St) α)) : t = s := by
  cases r with
  | ok a => simp [St.fails, Except.mapError, bind, Except.bind, pure, Except.pure] at h
  | error x =>
    simp only [St.fails, Except.mapError, bind, Except.bind, Except.error.injEq, Prod.mk.injEq] at h
    exact h.2.symm

/-- A `detach` that panics leaves no forest. -/
theorem half_detached {s t : St} (h : Reachable s) {held : List NodeId} {y : NodeId} (hy : s.live y = true)
    (hself : s.parent y ≠ some y) {e : Err} (er : s.detachCoreU held y = .error (e, t)) : ¬ ∃ F, Describes t F := by
  have hnb := fun (j : NodeId) => C01_neighbours h (i := y) (j := j) hy
  unfold St.detachCoreU at er
  simp only at er
  obtain ⟨u, hu⟩ : ∃ u, u = s.setL y fun l => { l with parent := none, prevSib := none, nextSib := none } := ⟨_, rfl⟩
  have hup : ∀ w, u.upgrade w = s.upgrade w := fun w => by rw [hu]; rfl
  have hul : u.live = s.live := by rw [hu]; rfl
  have ul : ∀ j, u.links j = if j = y then { s.links y with parent := none, prevSib := none, nextSib := none } else s.links j := by
    intro j; rw [hu]; simp only [St.setL_links]
  rw [← hu] at er
  cases e1 : u.detachNextU held (s.links y).parent (s.links y).prevSib (s.links y).nextSib with
  | error z =>
    rw [e1] at er
    simp only [bind, Except.bind, Except.error.injEq] at er
    subst er
    unfold St.detachNextU at e1
    split at e1
    · next n hn =>
      have := fails_error (f := fun _ => u.setL n fun l => { l with prevSib := (s.links y).prevSib }) e1
      subst this
      obtain ⟨hl, _, hne⟩ := (hnb n).1 hn
      have hpv := (C01_next_prev h hy hl).1 hn
      refine not_describes_of_alone (y := y) (n := n) (by rw [hul]; exact hy) (by simp [St.parent, ul, St.upgrade])
        (by simp [St.nextSibling, ul]) (by simp [St.prevSibling, ul, St.upgrade]) (by rw [hul]; exact hl) (.inr (.inl ?_))
      simp only [St.prevSibling, ul, hne, if_false, hup] at hpv ⊢
      exact hpv
    · next hn =>
      split at e1
      · next p hp =>
        have := fails_error (f := fun _ => u.setL p fun l => { l with lastChild := (s.links y).prevSib }) e1
        subst this
        rw [hup] at hp
        obtain ⟨hl, _, hlast⟩ := (hnb p).2.2.2.2 hp
        have hne : p ≠ y := by rintro rfl; exact hself hp
        have hpv := hlast hn
        refine not_describes_of_alone (y := y) (n := p) (by rw [hul]; exact hy) (by simp [St.parent, ul, St.upgrade])
          (by simp [St.nextSibling, ul]) (by simp [St.prevSibling, ul, St.upgrade]) (by rw [hul]; exact hl) (.inr (.inr (.inr ?_)))
        simp only [St.lastChild, ul, hne, if_false, hup] at hpv ⊢
        exact hpv
      · simp [pure, Except.pure] at e1
  | ok v =>
    rw [e1] at er
    simp only [bind, Except.bind] at er
    -- `v` differs from `u` in a back pointer of another node
    have hv : v.live = s.live ∧ (∀ j, (v.links j).nextSib = (u.links j).nextSib ∧ (v.links j).parent = (u.links j).parent ∧
        (v.links j).firstChild = (u.links j).firstChild) ∧ (v.links y).prevSib = none := by
      unfold St.detachNextU at e1
      split at e1
      · next n hn =>
        obtain ⟨_, _, hne⟩ := (hnb n).1 hn
        cases hb : borrowMut held n with
        | error x => simp [hb, St.fails, Except.mapError, bind, Except.bind] at e1
        | ok x =>
          simp only [hb, St.fails, Except.mapError, bind, Except.bind, pure, Except.pure, Except.ok.injEq] at e1
          subst e1
          refine ⟨hul, fun j => ?_, ?_⟩
          · simp only [St.setL_links]; split_ifs with hj <;> simp [hj]
          · simp [St.setL_links, hne.symm, ul]
      · split at e1
        · next p hp =>
          cases hb : borrowMut held p with
          | error x => simp [hb, St.fails, Except.mapError, bind, Except.bind] at e1
          | ok x =>
            simp only [hb, St.fails, Except.mapError, bind, Except.bind, pure, Except.pure, Except.ok.injEq] at e1
            subst e1
            refine ⟨hul, fun j => ?_, ?_⟩
            · simp only [St.setL_links]; split_ifs with hj <;> simp [hj]
            · rw [hup] at hp
              have hne : y ≠ p := by rintro rfl; exact hself hp
              simp [St.setL_links, hne, ul]
        · simp only [pure, Except.pure, Except.ok.injEq] at e1
          subst e1
          exact ⟨hul, fun j => ⟨rfl, rfl, rfl⟩, by simp [ul]⟩
    obtain ⟨hvl, hvk, hvp⟩ := hv
    have hvup : ∀ w, v.upgrade w = s.upgrade w := fun w => by unfold St.upgrade; rw [hvl]
    have a1 : v.parent y = none := by simp [St.parent, (hvk y).2.1, ul, St.upgrade]
    have a2 : v.nextSibling y = none := by simp [St.nextSibling, (hvk y).1, ul]
    have a3 : v.prevSibling y = none := by simp [St.prevSibling, hvp, St.upgrade]
    unfold St.detachPrevU at er
    split at er
    · next q hq =>
      have := fails_error (f := fun _ => v.setL q fun l => { l with nextSib := (s.links y).nextSib }) er
      subst this
      rw [hup] at hq
      obtain ⟨hl, _, hne⟩ := (hnb q).2.1 hq
      have hnx := (C01_next_prev h hl hy).2 hq
      refine not_describes_of_alone (y := y) (n := q) (by rw [hvl]; exact hy) a1 a2 a3 (by rw [hvl]; exact hl) (.inl ?_)
      simp only [St.nextSibling, (hvk q).1, ul, hne, if_false] at hnx ⊢
      exact hnx
    · next hq =>
      rw [hup] at hq
      split at er
      · next p hp =>
        have := fails_error (f := fun _ => v.setL p fun l => { l with firstChild := (s.links y).nextSib }) er
        subst this
        rw [hvup] at hp
        obtain ⟨hl, hfirst, _⟩ := (hnb p).2.2.2.2 hp
        have hne : p ≠ y := by rintro rfl; exact hself hp
        have hf := hfirst hq
        refine not_describes_of_alone (y := y) (n := p) (by rw [hvl]; exact hy) a1 a2 a3 (by rw [hvl]; exact hl)
          (.inr (.inr (.inl ?_)))
        simp only [St.firstChild, (hvk p).2.2, ul, hne, if_false] at hf ⊢
        exact hf
      · simp [pure, Except.pure] at er

/-- A node that is its own parent leaves no forest if it is not among its children. -/
theorem Stuck.not_describes {t : St} {x y : NodeId} (h : Stuck t y) (hx : t.live x = true) (hp : t.prevSibling y = some x)
    (hn : t.nextSibling x ≠ some y) : ¬ ∃ F, Describes t F := by
  rintro ⟨F, hF⟩
  exact hn ((hF.next_prev hx h.live).2 hp)

end Svgdom
