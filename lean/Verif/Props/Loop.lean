import Verif.Model.Loop
import Verif.Props.Remove
import Verif.Props.Iter

/-!
# C74, C75: changing the tree while iterating
-/

set_option autoImplicit false

namespace Svgdom

/-! ## C74 -/

/-- `P b` describes the states in which the loop over the children of `p` has still to visit `b`: these are the last children of `p`.
`body` leads from one such state to the next, whatever else it changes. -/
structure KeepsRest (p : NodeId) (body : St → NodeId → Except Err St) (P : List NodeId → St → Forest → Prop) : Prop where
  shows : ∀ b s F, P b s F → Describes s F ∧ s.live p = true ∧ ∃ a, F.kids p = a ++ b
  step : ∀ c b s F, P (c :: b) s F → ∃ t G, body s c = .ok t ∧ P b t G

theorem forChildren_rest {p : NodeId} {body : St → NodeId → Except Err St} {P : List NodeId → St → Forest → Prop}
    (hb : KeepsRest p body P) :
    ∀ (b : List NodeId) (k : Nat) (s : St) (F : Forest) (it : Children), P b s F → it.next = b.head? →
      (b ≠ [] → it.nextBack = b.getLast?) → b.length < k →
      ∃ t G, s.forChildren body k it = .ok (b, t) ∧ P [] t G := by
  intro b
  induction b with
  | nil =>
    intro k s F it h hn _ hlt
    obtain ⟨k, rfl⟩ : ∃ m, k = m + 1 := ⟨k - 1, by simp at hlt; omega⟩
    have : (s.childrenNext it).1 = none := by
      unfold St.childrenNext
      split
      · rfl
      · rw [hn]; rfl
    refine ⟨s, F, ?_, h⟩
    unfold St.forChildren
    split
    · rfl
    · next c it' e => rw [e] at this; simp at this
  | cons c b ih =>
    intro k s F it h hn hnb hlt
    obtain ⟨k, rfl⟩ : ∃ m, k = m + 1 := ⟨k - 1, by simp at hlt; omega⟩
    obtain ⟨hF, hp, a, hk⟩ := hb.shows _ s F h
    have hmem : ∀ x ∈ c :: b, x ∈ F.kids p := fun x hx => by rw [hk]; exact List.mem_append_right _ hx
    have hc := hF.wf.kids p hp c (hmem c (by simp))
    have hsib : F.sibs c = F.kids p := ((hF.wf.par c hc.1 p hc.2).2).symm
    have hnd : (F.kids p).Nodup := by rw [← hsib]; exact hF.wf.nodup c hc.1
    -- not finished
    have hfin : s.childrenFinished it = false := by
      unfold St.childrenFinished
      rw [hnb (by simp), hn]
      obtain ⟨b', l, hl⟩ : ∃ b' l, c :: b = b' ++ [l] := ⟨(c :: b).dropLast, (c :: b).getLast (by simp), by simp [List.dropLast_append_getLast]⟩
      have hlast : (c :: b).getLast? = some l := by rw [hl]; simp
      rw [hlast]
      have hll := hF.wf.kids p hp l (hmem l (by rw [hl]; simp))
      have hsl : F.sibs l = F.kids p := ((hF.wf.par l hll.1 p hll.2).2).symm
      have hh : (c :: b).head? ≠ none := by simp
      rw [decide_eq_false_iff_not, hF.shows.next l hll.1, hsl, hk]
      rw [show after (a ++ c :: b) l = after ((a ++ b') ++ l :: []) l by rw [hl]; simp]
      rw [hk, hl, ← List.append_assoc] at hnd
      rw [after_split (a := a ++ b') (b := []) (fun hm => (List.nodup_append.1 hnd).2.2 l hm l (by simp) rfl)]
      exact fun hx => hh hx.symm
    have hnext : s.nextSibling c = b.head? := by
      rw [hF.shows.next c hc.1, hsib, hk]
      rw [hk] at hnd
      exact after_split (fun hm => (List.nodup_append.1 hnd).2.2 c hm c (by simp) rfl)
    have hstep : s.childrenNext it = (some c, { it with next := b.head? }) := by
      unfold St.childrenNext
      rw [hfin, hn]
      simp [hnext]
    obtain ⟨t, G, e, hG⟩ := hb.step c b s F h
    obtain ⟨u, H, e2, hH⟩ := ih k t G { it with next := b.head? } hG rfl
      (fun hne => by
        have := hnb (by simp)
        simp only [this]
        cases b with
        | nil => exact absurd rfl hne
        | cons x y => simp [List.getLast?_cons_cons]) (by simpa using hlt)
    refine ⟨u, H, ?_, hH⟩
    unfold St.forChildren
    rw [hstep]
    simp only [e, bind, Except.bind, e2, pure, Except.pure]

/-- C74: a loop over `children()` whose body does anything to the tree but keeps the children not yet visited in place visits
exactly the children the node had at the start, in order, and then ends. -/
theorem C74_children {s : St} {F : Forest} {p : NodeId} {body : St → NodeId → Except Err St} {P : List NodeId → St → Forest → Prop}
    (hb : KeepsRest p body P) (h : P (F.kids p) s F) {k : Nat} (hk : (F.kids p).length < k) :
    ∃ t G, s.forChildren body k (s.children p) = .ok (F.kids p, t) ∧ P [] t G := by
  obtain ⟨hF, hp, _⟩ := hb.shows _ s F h
  exact forChildren_rest hb (F.kids p) k s F (s.children p) h
    (by simp [St.children, hF.shows.first p hp]) (fun _ => by simp [St.children, hF.shows.last p hp]) hk

/-- C74: `for c in p.children() { c.detach() }` detaches all children. -/
theorem C74_detach {s : St} (h : Reachable s) {F : Forest} (hF : Describes s F) {p : NodeId} (hp : s.live p = true)
    (hns : s.parent p ≠ some p) {k : Nat} (hk : (F.kids p).length < k) :
    ∃ t G, s.forChildren St.detach k (s.children p) = .ok (F.kids p, t) ∧ Reachable t ∧ Describes t G ∧ G.kids p = [] ∧
      (∀ q, s.live q = true → q ≠ p → G.kids q = F.kids q) ∧ ∀ c ∈ F.kids p, t.parent c = none := by
  let P : List NodeId → St → Forest → Prop := fun b u G => Reachable u ∧ Describes u G ∧ u.live = s.live ∧ G.kids p = b ∧
    (∀ q, s.live q = true → q ≠ p → G.kids q = F.kids q) ∧ (∀ c ∈ F.kids p, c ∉ b → G.par c = none) ∧ ∀ c ∈ b, c ∈ F.kids p
  have hnk : p ∉ F.kids p := fun hm => hns (by rw [hF.shows.parent p hp]; exact (hF.wf.kids p hp p hm).2)
  have hkn : (F.kids p).Nodup := hF.wf.kids_nodup hp
  have hb : KeepsRest p St.detach P := by
    constructor
    · rintro b u G ⟨h1, h2, h3, h4, _⟩
      exact ⟨h2, by rw [h3]; exact hp, [], by simp [h4]⟩
    · rintro c b u G ⟨h1, h2, h3, h4, h5, h6, h7⟩
      have hpu : u.live p = true := by rw [h3]; exact hp
      obtain ⟨hc, hcp⟩ := h2.wf.kids p hpu c (by rw [h4]; simp)
      have hcne : c ≠ p := fun hh => hnk (hh ▸ h7 c (by simp))
      obtain ⟨t, e⟩ := C03_no_panic h1 hc (by rw [h2.shows.parent c hc, hcp]; simp [hcne.symm])
      obtain ⟨H, hH, g1, g2, g3, g4, g5⟩ := C03_detach h1 hc e h2
      have hnd : (c :: b).Nodup := by rw [← h4]; exact h2.wf.kids_nodup hpu
      have hlt : t.live = u.live := by have := detach_inv e; subst this; rfl
      refine ⟨t, H, e, .call (.detach c) h1 (by simpa [Op.handles] using hc) e, hH, by rw [hlt, h3], ?_, ?_, ?_, ?_⟩
      · rw [g3, h4]; simp
      · intro q hql hq
        rw [g3, ← h5 q hql hq, List.erase_of_not_mem]
        intro hm
        have := (h2.wf.kids q (by rw [h3]; exact hql) c hm).2
        rw [hcp] at this
        exact hq (Option.some.inj this).symm
      · intro d hd hdb
        by_cases hdc : d = c
        · rw [hdc]; exact g1
        · rw [g4 d hdc]; exact h6 d hd (by simp [hdc, hdb])
      · exact fun d hd => h7 d (by simp [hd])
  obtain ⟨t, G, e, h1, h2, h3, h4, h5, h6, _⟩ := C74_children hb (s := s) (F := F)
    ⟨h, hF, rfl, rfl, fun _ _ _ => rfl, fun c hc hn => absurd hc hn, fun c hc => hc⟩ hk
  refine ⟨t, G, e, h1, h2, h4, h5, fun c hc => ?_⟩
  have hcl : t.live c = true := by rw [h3]; exact (hF.wf.kids p hp c hc).1
  rw [h2.shows.parent c hcl]
  exact h6 c hc (by simp)

/-- C74: `for c in p.children() { q.append(c) }` moves all children of `p`, in order, behind those of `q`. -/
theorem C74_move {s : St} (h : Reachable s) {F : Forest} (hF : Describes s F) {p q : NodeId} (hp : s.live p = true) (hq : s.live q = true)
    (hne : q ≠ p) (hqk : q ∉ F.kids p) (hnp : s.parent p ≠ some p) (hnq : s.parent q ≠ some q) {k : Nat} (hk : (F.kids p).length < k) :
    ∃ t G, s.forChildren (fun s c => s.append q c) k (s.children p) = .ok (F.kids p, t) ∧ Reachable t ∧ Describes t G ∧
      G.kids p = [] ∧ G.kids q = F.kids q ++ F.kids p ∧
      (∀ r, s.live r = true → r ≠ p → r ≠ q → G.kids r = F.kids r) ∧ ∀ c ∈ F.kids p, t.parent c = some q := by
  let P : List NodeId → St → Forest → Prop := fun b u G => Reachable u ∧ Describes u G ∧ u.live = s.live ∧ G.kids p = b ∧
    (∃ a, F.kids p = a ++ b ∧ G.kids q = F.kids q ++ a ∧ ∀ c ∈ a, G.par c = some q) ∧ G.par q = F.par q ∧
    ∀ r, s.live r = true → r ≠ p → r ≠ q → G.kids r = F.kids r
  have hnk : p ∉ F.kids p := fun hm => hnp (by rw [hF.shows.parent p hp]; exact (hF.wf.kids p hp p hm).2)
  have hkn : (F.kids p).Nodup := hF.wf.kids_nodup hp
  have hb : KeepsRest p (fun s c => s.append q c) P := by
    constructor
    · rintro b u G ⟨h1, h2, h3, h4, _⟩
      exact ⟨h2, by rw [h3]; exact hp, [], by simp [h4]⟩
    · rintro c b u G ⟨h1, h2, h3, h4, ⟨a, h5, h6, h7⟩, h8, h9⟩
      have hpu : u.live p = true := by rw [h3]; exact hp
      have hqu : u.live q = true := by rw [h3]; exact hq
      obtain ⟨hc, hcp⟩ := h2.wf.kids p hpu c (by rw [h4]; simp)
      have hcF : c ∈ F.kids p := by rw [h5]; simp
      have hcne : c ≠ p := fun hh => hnk (hh ▸ hcF)
      have hqc : q ≠ c := fun hh => hqk (hh ▸ hcF)
      have hpar : u.parent c = some p := by rw [h2.shows.parent c hc, hcp]
      have hsib : G.sibs c = c :: b := by rw [← h4]; exact ((h2.wf.par c hc p hcp).2).symm
      have hnd : (c :: b).Nodup := by rw [← h4]; exact h2.wf.kids_nodup hpu
      have hqb : q ∉ c :: b := fun hm => hqk (by rw [h5]; exact List.mem_append_right _ hm)
      have hnt : ¬ Touching u c q := by
        rintro (ht | ht | ⟨ht, _⟩)
        · rw [h2.shows.next c hc, hsib] at ht
          exact hqb (after_mem ht)
        · rw [h2.shows.prev c hc, hsib] at ht
          exact hqb (before_mem ht)
        · rw [hpar] at ht; exact hne (Option.some.inj ht).symm
      obtain ⟨t, e⟩ := (C04_append_partial h1 hqu hc (by rw [h2.shows.parent q hqu, h8, ← hF.shows.parent q hq]; exact hnq)
        (by rw [hpar]; simp [hcne.symm])).2.2 hqc hnt
      obtain ⟨H, hH, g1, g2, g3, g4, _⟩ := C02_append h1 hqu hc e h2
      have hlt : t.live = u.live := (h1.inv.append hqu hc e).2.live
      have hother : ∀ r, s.live r = true → r ≠ p → (G.kids r).erase c = G.kids r := by
        intro r hr hrp
        refine List.erase_of_not_mem fun hm => ?_
        have := (h2.wf.kids r (by rw [h3]; exact hr) c hm).2
        rw [hcp] at this
        exact hrp (Option.some.inj this).symm
      refine ⟨t, H, e, .call (.append q c) h1 (by simpa [Op.handles] using ⟨hqu, hc⟩) e, hH, by rw [hlt, h3], ?_,
        ⟨a ++ [c], by simp [h5], ?_, ?_⟩, ?_, ?_⟩
      · rw [g2 p hne.symm, h4]; simp
      · rw [g1, hother q hq hne, h6]; simp
      · intro d hd
        by_cases hdc : d = c
        · rw [hdc]; exact g3
        · rw [g4 d hdc]; exact h7 d (by simpa [hdc] using hd)
      · rw [g4 q hqc]; exact h8
      · intro r hr hrp hrq
        rw [g2 r hrq, hother r hr hrp]; exact h9 r hr hrp hrq
  obtain ⟨t, G, e, h1, h2, h3, h4, ⟨a, h5, h6, h7⟩, h8, h9⟩ := C74_children hb (s := s) (F := F)
    ⟨h, hF, rfl, rfl, ⟨[], by simp⟩, rfl, fun _ _ _ _ => rfl⟩ hk
  rw [List.append_nil] at h5
  refine ⟨t, G, e, h1, h2, h4, by rw [h6, h5], h9, fun c hc => ?_⟩
  rw [h2.shows.parent c (by rw [h3]; exact (hF.wf.kids p hp c hc).1)]
  exact h7 c (by rw [← h5]; exact hc)

/-- C74: `for c in p.children() { doc.remove_node(c) }` removes everything below `p`. -/
theorem C74_remove {s : St} (h : Reachable s) (ha : s.Acyclic) {F : Forest} (hF : Describes s F) {p : NodeId} (hp : s.live p = true)
    {k : Nat} (hk : (F.kids p).length < k) :
    ∃ t G, s.forChildren St.removeNode k (s.children p) = .ok (F.kids p, t) ∧ Reachable t ∧ Describes t G ∧ G.kids p = [] ∧
      (∀ j, s.live j = true → s.Ancestor p j → t.isDetached j = true) ∧
      ∀ j, s.live j = true → ¬ s.Ancestor p j → t.isDetached j = s.isDetached j ∧ t.parent j = s.parent j := by
  let Gone : List NodeId → NodeId → Prop := fun b j => ∃ c ∈ F.kids p, c ∉ b ∧ s.InSubtree c j
  let P : List NodeId → St → Forest → Prop := fun b u G => Reachable u ∧ u.Acyclic ∧ Describes u G ∧ u.live = s.live ∧ G.kids p = b ∧
    (∃ a, F.kids p = a ++ b) ∧ (∀ j, s.live j = true → Gone b j → u.isDetached j = true ∧ G.par j = none) ∧
    ∀ j, s.live j = true → ¬ Gone b j → u.isDetached j = s.isDetached j ∧ G.par j = F.par j
  have hkn : (F.kids p).Nodup := hF.wf.kids_nodup hp
  have hpar : ∀ c ∈ F.kids p, s.parent c = some p := fun c hc => by
    rw [hF.shows.parent c (hF.wf.kids p hp c hc).1]; exact (hF.wf.kids p hp c hc).2
  have hpos : ∀ c ∈ F.kids p, ¬ s.InSubtree c p := fun c hc hh =>
    ha p hp ((Relation.TransGen.tail' hh (hpar c hc)))
  have hinc : ∀ c ∈ F.kids p, ∀ d ∈ F.kids p, ∀ j, s.InSubtree c j → s.InSubtree d j → c = d := by
    intro c hc d hd j h1 h2
    by_contra hne
    rcases comparable h1 h2 with h3 | h3
    · exact siblings_incomparable ha (by rw [hpar c hc, hpar d hd]) hne h3
    · exact siblings_incomparable ha (by rw [hpar c hc, hpar d hd]) (Ne.symm hne) h3
  have hb : KeepsRest p St.removeNode P := by
    constructor
    · rintro b u G ⟨h1, _, h2, h3, h4, _⟩
      exact ⟨h2, by rw [h3]; exact hp, [], by simp [h4]⟩
    · rintro c b u G ⟨h1, ha1, h2, h3, h4, ⟨a, h5⟩, h6, h7⟩
      have hpu : u.live p = true := by rw [h3]; exact hp
      have hcF : c ∈ F.kids p := by rw [h5]; simp
      have hnd := hkn
      rw [h5] at hnd
      have hcb : c ∉ b := (List.nodup_cons.1 (List.nodup_append.1 hnd).2.1).1
      have hc : s.live c = true := (hF.wf.kids p hp c hcF).1
      obtain ⟨t, S, e, hS, hrm, hd⟩ := C20_remove h1 ha1 h2 (by rw [h3]; exact hc)
      -- the subtree of `c` is still the one at the start
      have hsub : ∀ j, s.live j = true → (u.InSubtree c j ↔ s.InSubtree c j) := by
        intro j hj
        constructor
        · intro hh
          induction hh using Relation.ReflTransGen.head_induction_on with
          | refl => exact .refl
          | @head x y hu _ ih =>
            have hx : G.par x = some y := by rw [← h2.shows.parent x (by rw [h3]; exact hj)]; exact hu
            have hng : ¬ Gone (c :: b) x := fun hg => by rw [(h6 x hj hg).2] at hx; simp at hx
            rw [(h7 x hj hng).2] at hx
            exact .head (show s.parent x = some y by rw [hF.shows.parent x hj, hx]) (ih (hF.wf.par x hj y hx).1)
        · intro hh
          induction hh using Relation.ReflTransGen.head_induction_on with
          | refl => exact .refl
          | @head x y hu hrest ih =>
            have hx : F.par x = some y := by rw [← hF.shows.parent x hj]; exact hu
            have hng : ¬ Gone (c :: b) x := by
              rintro ⟨d, hd, hdn, hdx⟩
              have := hinc d hd c hcF x hdx (.head hu hrest)
              exact hdn (by rw [this]; simp)
            refine .head (show u.parent x = some y by rw [h2.shows.parent x (by rw [h3]; exact hj), (h7 x hj hng).2, hx])
              (ih (hF.wf.par x hj y hx).1)
      have hmem : ∀ j, s.live j = true → (j ∈ S ↔ s.InSubtree c j) := fun j hj => by
        rw [hS j, h3, hsub j hj]; exact ⟨fun hh => hh.2, fun hh => ⟨hj, hh⟩⟩
      have hgone : ∀ j, Gone b j ↔ Gone (c :: b) j ∨ s.InSubtree c j := by
        intro j
        constructor
        · rintro ⟨d, hd, hdn, hdj⟩
          by_cases hdc : d = c
          · exact .inr (hdc ▸ hdj)
          · exact .inl ⟨d, hd, by simp [hdc, hdn], hdj⟩
        · rintro (⟨d, hd, hdn, hdj⟩ | hj)
          · exact ⟨d, hd, fun hm => hdn (by simp [hm]), hdj⟩
          · exact ⟨c, hcF, hcb, hj⟩
      refine ⟨t, _, e, .call (.removeNode c) h1 (by simpa [Op.handles, h3] using hc) e,
        C05_step_partial h1 ha1 (.removeNode c) (by simpa [Op.handles, h3] using hc) (by simp [Op.Safe]) e, hd, by rw [hrm.live, h3],
        ?_, ⟨a ++ [c], by simp [h5]⟩, ?_, ?_⟩
      · have hps : p ∉ S := fun hm => hpos c hcF ((hmem p hp).1 hm)
        simp only [Forest.prune, if_neg hps, h4]
        rw [List.filter_cons_of_neg (by simpa using (hmem c hc).2 .refl)]
        refine List.filter_eq_self.2 fun d hd => ?_
        have hdF : d ∈ F.kids p := by rw [h5]; simp [hd]
        simp only [decide_eq_true_eq]
        intro hm
        have := hinc c hcF d hdF d ((hmem d (hF.wf.kids p hp d hdF).1).1 hm) .refl
        exact hcb (this ▸ hd)
      · intro j hj hg
        rw [hrm.detached]
        simp only [Forest.prune]
        by_cases hjs : j ∈ S
        · simp [hjs]
        · rcases (hgone j).1 hg with hg | hg
          · simp [hjs, h6 j hj hg]
          · exact absurd ((hmem j hj).2 hg) hjs
      · intro j hj hg
        rw [hgone j, not_or] at hg
        have hjs : j ∉ S := fun hm => hg.2 ((hmem j hj).1 hm)
        rw [hrm.detached]
        simp only [Forest.prune, if_neg hjs]
        simpa [hjs] using h7 j hj hg.1
  have hgone : ∀ j, s.live j = true → (Gone [] j ↔ s.Ancestor p j) := by
    intro j hj
    constructor
    · rintro ⟨c, hc, _, hcj⟩
      exact Relation.TransGen.tail' hcj (hpar c hc)
    · intro hh
      obtain ⟨c, hcj, hcp⟩ := Relation.TransGen.tail'_iff.1 hh
      have hcl : s.live c = true := by
        have : ∀ x, s.live x = true → s.InSubtree c x → s.live c = true := by
          intro x hx hs
          induction hs using Relation.ReflTransGen.head_induction_on with
          | refl => exact hx
          | @head x y hu _ ih =>
            exact ih (hF.wf.par x hx y (by rw [← hF.shows.parent x hx]; exact hu)).1
        exact this j hj hcj
      have hcp' : F.par c = some p := by rw [← hF.shows.parent c hcl]; exact hcp
      have hck : c ∈ F.kids p := by rw [(hF.wf.par c hcl p hcp').2]; exact hF.wf.self_mem c hcl
      exact ⟨c, hck, by simp, hcj⟩
  obtain ⟨t, G, e, h1, ha1, h2, h3, h4, _, h6, h7⟩ := C74_children hb (s := s) (F := F)
    ⟨h, ha, hF, rfl, rfl, ⟨[], rfl⟩, fun j _ ⟨c, hc, hn, _⟩ => absurd hc hn, fun _ _ _ => ⟨rfl, rfl⟩⟩ hk
  refine ⟨t, G, e, h1, h2, h4, fun j hj hh => (h6 j hj ((hgone j hj).2 hh)).1, fun j hj hh => ?_⟩
  have := h7 j hj fun hg => hh ((hgone j hj).1 hg)
  refine ⟨this.1, ?_⟩
  rw [h2.shows.parent j (by rw [h3]; exact hj), this.2, hF.shows.parent j hj]

/-! ## C75 -/

/-- The iterator looks at its rear end only to see whether it has been reached. -/
theorem collectDescendants_back (s : St) (r : NodeId) (a b : Edge) (hab : s.nextItem r a = s.nextItem r b) (bound : Nat) :
    ∀ (k : Nat) (e : Option Edge), s.collectDescendants bound k ⟨r, e, some a⟩ = s.collectDescendants bound k ⟨r, e, some b⟩ := by
  have h1 : ∀ e, s.traverseFinished ⟨r, e, some a⟩ = s.traverseFinished ⟨r, e, some b⟩ := by
    intro e; simp [St.traverseFinished, hab]
  have h2 : ∀ e, (s.traverseNext ⟨r, e, some a⟩).1 = (s.traverseNext ⟨r, e, some b⟩).1 ∧
      ∃ e', (s.traverseNext ⟨r, e, some a⟩).2 = ⟨r, e', some a⟩ ∧ (s.traverseNext ⟨r, e, some b⟩).2 = ⟨r, e', some b⟩ := by
    intro e
    unfold St.traverseNext
    rw [h1 e]
    split
    · exact ⟨rfl, e, rfl, rfl⟩
    · cases e <;> exact ⟨rfl, _, rfl, rfl⟩
  have h3 : ∀ (n : Nat) e, ∃ x e', (s.descendantsNext n ⟨r, e, some a⟩ = .ok (x, ⟨r, e', some a⟩) ∧
      s.descendantsNext n ⟨r, e, some b⟩ = .ok (x, ⟨r, e', some b⟩)) ∨
      (s.descendantsNext n ⟨r, e, some a⟩ = .error .diverge ∧ s.descendantsNext n ⟨r, e, some b⟩ = .error .diverge) := by
    intro n
    induction n with
    | zero => intro e; exact ⟨none, none, .inr ⟨rfl, rfl⟩⟩
    | succ n ih =>
      intro e
      obtain ⟨g1, e', g2, g3⟩ := h2 e
      obtain ⟨x, ga, gb⟩ : ∃ x, s.traverseNext ⟨r, e, some a⟩ = (x, ⟨r, e', some a⟩) ∧
          s.traverseNext ⟨r, e, some b⟩ = (x, ⟨r, e', some b⟩) := ⟨_, Prod.ext rfl g2, Prod.ext g1.symm g3⟩
      cases x with
      | none => exact ⟨none, e', .inl ⟨by simp [St.descendantsNext, ga], by simp [St.descendantsNext, gb]⟩⟩
      | some x =>
        cases x with
        | start m => exact ⟨some m, e', .inl ⟨by simp [St.descendantsNext, ga], by simp [St.descendantsNext, gb]⟩⟩
        | stop m =>
          simp only [St.descendantsNext, ga, gb]
          exact ih e'
  intro k
  induction k with
  | zero => intro e; rfl
  | succ k ih =>
    intro e
    obtain ⟨x, e', hx⟩ := h3 bound e
    rcases hx with ⟨g1, g2⟩ | ⟨g1, g2⟩
    · cases x with
      | none => simp [St.collectDescendants, g1, g2, bind, Except.bind]
      | some x => simp [St.collectDescendants, g1, g2, bind, Except.bind, ih e']
    · simp [St.collectDescendants, g1, g2, bind, Except.bind]

/-- The edges of a parentless node without siblings, walked with another root that is not in its subtree. -/
theorem traverse_walk_from {s : St} {F : Forest} (hF : Describes s F) (ha : s.Acyclic) {r i : NodeId} (hi : s.live i = true)
    {K : Trees} (hK : K.Of F (F.kids i)) (hrk : r ∉ K.pre) (hne : i ≠ r) (h1 : s.parent i = none) (h2 : s.nextSibling i = none)
    (h3 : s.prevSibling i = none) : Walk (Trees.cons i K .nil).edges (s.nextItem r) (s.prevItem r) := by
  have hkl : ∀ c ∈ F.kids i, s.live c = true := fun c hc => (hF.wf.kids i hi c hc).1
  have hT : (Trees.cons i K .nil).Of F [i] := ⟨[], rfl, hK, rfl⟩
  have hpre := pre_nodup hF ha hT (by simpa using hi) (by simp) (by simp)
  have hrki : r ∉ F.kids i := fun hm => hrk ((mem_pre hF hK hkl r (hkl r hm)).2 ⟨r, hm, .refl⟩)
  have c1 := chain_edges hF hK hrk hkl (by
      intro a x y b e
      have hx : x ∈ F.kids i := by simp [e]
      have hy : y ∈ F.kids i := by simp [e]
      have hn := hF.wf.kids_nodup hi
      rw [hF.shows.next x (hkl x hx), hF.shows.prev y (hkl y hy), ← hF.wf.kids_sibs hi hx, ← hF.wf.kids_sibs hi hy, e]
      rw [e] at hn
      constructor
      · rw [after_split]; · rfl
        intro hm
        exact (List.nodup_append.1 hn).2.2 x hm x (by simp) rfl
      · rw [show a ++ x :: y :: b = (a ++ [x]) ++ y :: b by simp, before_split]; · simp
        intro hm
        rw [show a ++ x :: y :: b = (a ++ [x]) ++ y :: b by simp] at hn
        exact (List.nodup_append.1 hn).2.2 y hm y (by simp) rfl)
  refine walk_of_chain (edges_nodup hpre) (chain_node hF hi hK hrki c1) ?_ ?_
  · intro x hx
    rw [(edges_ends hT).2] at hx
    simp only [List.getLast?_singleton, Option.map_some, Option.some.injEq] at hx
    subst hx; simp [St.nextItem, hne, h1, h2]
  · intro x hx
    rw [(edges_ends hT).1] at hx
    simp only [List.head?_cons, Option.map_some, Option.some.injEq] at hx
    subst hx; simp [St.prevItem, hne, h1, h3]

/-- C75: if the node `n` that `descendants()` has just given is detached, the iterator goes on with the nodes below `n` and then
ends; all nodes after them are silently left out. -/
theorem C75_detach {s t : St} (h : Reachable s) (ha : s.Acyclic) {r n : NodeId} (hr : s.live r = true) (hn : s.live n = true)
    (hin : s.Ancestor r n) (e : s.detach n = .ok t) {k : Nat} (hk : t.fuel ≤ k) :
    ∃ l, t.descendantList n = .ok (n :: l) ∧
      t.collectDescendants k k { root := r, next := s.nextItem r (.start n), nextBack := some (.stop r) } = .ok l := by
  have ht : Reachable t := .call (.detach n) h (by simpa [Op.handles] using hn) e
  have hat : t.Acyclic := C05_step_partial h ha (.detach n) (by simpa [Op.handles] using hn) (by simp [Op.Safe]) e
  have hlt : t.live = s.live := by have := detach_inv e; subst this; rfl
  have hnt : t.live n = true := by rw [hlt]; exact hn
  have hrt : t.live r = true := by rw [hlt]; exact hr
  obtain ⟨i1, i2, i3, i4⟩ := C03_isolated h hn e
  have hself : s.parent n ≠ some n := fun hh => ha n hn (.single hh)
  obtain ⟨F, hF⟩ := C01_forest h
  obtain ⟨F', hF', g1, g2, g3, g4, _⟩ := C03_detach h hn e hF
  have hne : n ≠ r := fun hh => ha r hr (by rw [hh] at hin; exact hin)
  obtain ⟨K, hK⟩ := trees_exist ht.inv hF' hat (F'.kids n) (fun c hc => (hF'.wf.kids n hnt c hc).1)
  have hT : (Trees.cons n K .nil).Of F' [n] := ⟨[], rfl, hK, rfl⟩
  have hkl : ∀ c ∈ F'.kids n, t.live c = true := fun c hc => (hF'.wf.kids n hnt c hc).1
  -- `r` is not below `n`
  have hup : ∀ j k, t.live j = true → t.parent j = some k → s.parent j = some k := by
    intro j k hj hjk
    by_cases hjn : j = n
    · rw [hjn, i1] at hjk; simp at hjk
    · rw [hF'.shows.parent j hj, g4 j hjn] at hjk
      rw [hF.shows.parent j (by rw [← hlt]; exact hj)]; exact hjk
  have hrk : r ∉ K.pre := by
    intro hm
    have hh := (mem_pre_kids hF' hnt hK hrt).1 hm
    have : ∀ x, t.live x = true → t.InSubtree n x → s.InSubtree n x := by
      intro x hx hs
      induction hs using Relation.ReflTransGen.head_induction_on with
      | refl => exact .refl
      | @head x y hu _ ih =>
        exact .head (hup x y hx hu) (ih (hF'.wf.par x hx y (by rw [← hF'.shows.parent x hx]; exact hu)).1)
    exact ha r hr (Relation.TransGen.trans_right (this r hrt hh.to_reflTransGen) hin)
  have hrn : r ∉ F'.kids n := fun hm => hrk ((mem_pre hF' hK hkl r hrt).2 ⟨r, hm, .refl⟩)
  have hw := traverse_walk_from hF' hat hnt hK hrk hne i1 i2 i3
  have hwn := traverse_walk hF' hat hnt hK
  have hlen : (Trees.cons n K .nil).edges.length < t.fuel := by
    rw [edges_length]
    have h1 := pre_nodup hF' hat hT (by simpa using hnt) (by simp) (by simp)
    have h2 := length_le_of_below h1 (n := t.nextId) fun j hj => ht.inv.liveBelow j (pre_live hF' hT (by simpa using hnt) j hj)
    simp only [St.fuel]
    omega
  have hs0 : Seg (Trees.cons n K .nil).edges (some (.start n)) (some (.stop n)) (Trees.cons n K .nil).edges := by
    have := seg_init (Trees.cons n K .nil).edges
    rw [(edges_ends hT).1, (edges_ends hT).2] at this
    simpa using this
  refine ⟨K.pre, ?_, ?_⟩
  · have := collectDescendants_walk hwn t.fuel t.fuel _ (t.traverse n) rfl hs0 hlen hlen
    rw [starts_edges] at this
    simpa [Trees.pre, St.descendantList] using this
  · have hfirst : s.nextItem r (.start n) = t.nextItem r (.start n) := by
      simp only [St.nextItem, (i4 hself).1]
    have hstop : t.nextItem r (.stop r) = t.nextItem r (.stop n) := by
      simp [St.nextItem, hne, i2, i1]
    rw [hfirst, collectDescendants_back t r _ _ hstop]
    have hed : (Trees.cons n K .nil).edges = .start n :: (K.edges ++ [.stop n]) := rfl
    rw [hed] at hs0 hlen
    have hs1 := (hw.front hs0).2
    simp only [List.length_cons] at hlen
    have := collectDescendants_walk hw k k _ ⟨r, t.nextItem r (.start n), some (.stop n)⟩ rfl hs1 (by omega) (by omega)
    rw [this, ← starts_edges]
    simp [starts]

/-- C75: "a loop over `descendants()` that detaches visited nodes still visits all others" is false: with the children 2 and 3 of
node 1, detaching 2 when it is visited hides 3. -/
theorem C75_refuted : ∃ s, Reachable s ∧ s.Acyclic ∧ s.live 1 = true ∧ s.descendantList 1 = .ok [1, 2, 3] ∧
    ∃ t, s.forDescendants (fun u n => if n = 2 then u.detach n else .ok u) s.fuel s.fuel (s.traverse 1) = .ok ([1, 2], t) ∧
      t.descendantList 1 = .ok [1, 3] := by
  obtain ⟨s, h, e⟩ := exists_of_holds
    (ops := [.createElement (.id .Svg), .createElement (.id .G), .createElement (.id .Rect), .append 1 2, .append 1 3])
    (p := fun s => s.live 1 && s.acyclicB s.nextId && decide (s.descendantList 1 = .ok [1, 2, 3]) &&
      (match s.forDescendants (fun u n => if n = 2 then u.detach n else .ok u) s.fuel s.fuel (s.traverse 1) with
        | .ok x => decide (x.1 = [1, 2]) && decide (x.2.descendantList 1 = .ok [1, 3])
        | .error _ => false)) (by decide +kernel)
  simp only [Bool.and_eq_true, decide_eq_true_eq] at e
  obtain ⟨⟨⟨h1, h2⟩, h3⟩, h4⟩ := e
  split at h4
  · next x hx =>
    obtain ⟨l, t⟩ := x
    simp only [Bool.and_eq_true, decide_eq_true_eq] at h4
    obtain ⟨h5, h6⟩ := h4
    subst h5
    exact ⟨s, h, acyclic_of_check h.inv.liveBelow h2, h1, h3, t, hx, h6⟩
  · simp at h4

/-- All pointers between nodes read the same. -/
def SameShape (s u : St) : Prop := ∀ i, u.parent i = s.parent i ∧ u.firstChild i = s.firstChild i ∧ u.lastChild i = s.lastChild i ∧
  u.nextSibling i = s.nextSibling i ∧ u.prevSibling i = s.prevSibling i

theorem descendantsNext_links {s u : St} (hl : SameShape s u) : ∀ (k : Nat) (it : Traverse),
    u.descendantsNext k it = s.descendantsNext k it := by
  have hi : ∀ r x, u.nextItem r x = s.nextItem r x := by
    intro r x
    cases x <;> simp only [St.nextItem, (hl _).1, (hl _).2.1, (hl _).2.2.2.1]
  intro k
  induction k with
  | zero => intro it; rfl
  | succ k ih =>
    intro it
    have hn : u.traverseNext it = s.traverseNext it := by
      have hf : u.traverseFinished it = s.traverseFinished it := by
        unfold St.traverseFinished
        split <;> simp [hi]
      unfold St.traverseNext
      rw [hf]
      simp only [hi]
    unfold St.descendantsNext
    rw [hn]
    split <;> first | rfl | exact ih _

/-- C75, what holds: a loop over `descendants()` whose body leaves the tree as it is, whatever else it changes, visits every node of
the subtree. -/
theorem C75_partial {s : St} {r : NodeId} {l : List NodeId} (e : s.descendantList r = .ok l)
    {body : St → NodeId → Except Err St}
    (hb : ∀ u n, n ∈ l → SameShape s u → ∃ t, body u n = .ok t ∧ SameShape s t) :
    ∃ t, s.forDescendants body s.fuel s.fuel (s.traverse r) = .ok (l, t) ∧ SameShape s t := by
  have key : ∀ (k : Nat) (it : Traverse) (l' : List NodeId) (u : St), s.collectDescendants s.fuel k it = .ok l' →
      (∀ n ∈ l', n ∈ l) → SameShape s u →
      ∃ t, u.forDescendants body s.fuel k it = .ok (l', t) ∧ SameShape s t := by
    intro k
    induction k with
    | zero => intro it l' u e; simp [St.collectDescendants] at e
    | succ k ih =>
      intro it l' u e hm hu
      unfold St.collectDescendants at e
      obtain ⟨⟨x, it'⟩, e1, e⟩ := bind_ok.1 e
      unfold St.forDescendants
      rw [descendantsNext_links hu, e1]
      cases x with
      | none =>
        simp only [Except.ok.injEq] at e
        subst e
        exact ⟨u, rfl, hu⟩
      | some n =>
        obtain ⟨rest, e2, e⟩ := bind_ok.1 e
        simp only [pure_ok] at e
        subst e
        obtain ⟨v, hv, hvl⟩ := hb u n (hm n (by simp)) hu
        obtain ⟨t, ht, htl⟩ := ih it' rest v e2 (fun m hm' => hm m (by simp [hm'])) hvl
        exact ⟨t, by simp [bind, Except.bind, hv, ht, pure, Except.pure], htl⟩
  exact key s.fuel _ l s e (fun _ h => h) fun _ => ⟨rfl, rfl, rfl, rfl, rfl⟩

/-! ## The hypotheses can be met -/

/-- Node 1 has the children 2, 3 and 4; 3 has the child 5; 6 is another child of the root. -/
def loopHistory : List Op :=
  [.createElement (.id .Svg), .createElement (.id .G), .createElement (.id .Rect), .createElement (.id .Circle),
    .createElement (.id .Path), .createElement (.id .Defs), .append 0 1, .append 1 2, .append 1 3, .append 1 4, .append 3 5, .append 0 6]

theorem loopHistory_state : ∃ s F, Reachable s ∧ s.Acyclic ∧ Describes s F ∧ s.live 1 = true ∧ s.live 6 = true ∧ s.live 3 = true ∧
    F.kids 1 = [2, 3, 4] ∧ s.parent 1 = some 0 ∧ s.parent 6 = some 0 ∧ s.Ancestor 1 3 ∧ s.live 0 = true ∧ s.Ancestor 0 3 ∧
    s.descendantList 0 = .ok [0, 1, 2, 3, 5, 4, 6] ∧ ∃ t, s.detach 3 = .ok t := by
  obtain ⟨s, h, e⟩ := exists_of_holds (ops := loopHistory)
    (p := fun s => s.live 1 && s.live 6 && s.live 3 && s.live 0 && s.acyclicB s.nextId && decide (s.childList 1 = .ok [2, 3, 4]) &&
      decide (s.parent 1 = some 0) && decide (s.parent 6 = some 0) && decide (s.parent 3 = some 1) &&
      decide (s.descendantList 0 = .ok [0, 1, 2, 3, 5, 4, 6]) && okAnd (s.detach 3) (fun _ => true)) (by decide +kernel)
  simp only [Bool.and_eq_true, decide_eq_true_eq, okAnd_iff] at e
  obtain ⟨⟨⟨⟨⟨⟨⟨⟨⟨⟨h1, h2⟩, h3⟩, h4⟩, h5⟩, h6⟩, h7⟩, h8⟩, h9⟩, h10⟩, t, h11, _⟩ := e
  obtain ⟨F, hF⟩ := C01_forest h
  have hk := C06_loop h hF h1
  rw [h6] at hk
  exact ⟨s, F, h, acyclic_of_check h.inv.liveBelow h5, hF, h1, h2, h3, (Except.ok.inj hk).symm, h7, h8, .single h9, h4,
    .tail (.single h9) h7, h10, t, h11⟩

/-- The hypotheses of `C74_detach`, `C74_move` and `C74_remove`. -/
example : ∃ s F, Reachable s ∧ s.Acyclic ∧ Describes s F ∧ s.live 1 = true ∧ s.live 6 = true ∧ (6 : NodeId) ≠ 1 ∧ 6 ∉ F.kids 1 ∧
    s.parent 1 ≠ some 1 ∧ s.parent 6 ≠ some 6 ∧ (F.kids 1).length < 4 ∧ F.kids 1 ≠ [] := by
  obtain ⟨s, F, h, ha, hF, h1, h2, _, h4, h5, h6, _⟩ := loopHistory_state
  exact ⟨s, F, h, ha, hF, h1, h2, by decide, by rw [h4]; decide, by rw [h5]; decide, by rw [h6]; decide, by rw [h4]; decide,
    by rw [h4]; decide⟩

/-- What `C74_detach` (an instance of `C74_children`) gives here. -/
example : ∃ s t, Reachable s ∧ s.forChildren St.detach 4 (s.children 1) = .ok ([2, 3, 4], t) := by
  obtain ⟨s, F, h, ha, hF, h1, h2, _, h4, h5, h6, _⟩ := loopHistory_state
  obtain ⟨t, G, e, _⟩ := C74_detach h hF h1 (by rw [h5]; decide) (k := 4) (by rw [h4]; decide)
  exact ⟨s, t, h, by rw [e, h4]⟩

/-- The hypotheses of `C75_detach`; the nodes 4 and 6 are left out. -/
example : ∃ s t k, Reachable s ∧ s.Acyclic ∧ s.live 0 = true ∧ s.live 3 = true ∧ s.Ancestor 0 3 ∧ s.detach 3 = .ok t ∧ t.fuel ≤ k ∧
    s.descendantList 0 = .ok [0, 1, 2, 3, 5, 4, 6] := by
  obtain ⟨s, F, h, ha, hF, h1, h2, h3, h4, h5, h6, h7, h8, h9, h10, t, h11⟩ := loopHistory_state
  exact ⟨s, t, t.fuel, h, ha, h8, h3, h9, h11, Nat.le_refl _, h10⟩

/-- `C75_partial`: the loop `for n in root.descendants() { n.attributes_mut().clear() }`. -/
example : ∃ s t, Reachable s ∧ s.forDescendants (fun u n => .ok (u.setD n fun d => { d with attributes := [] })) s.fuel s.fuel (s.traverse 0) =
    .ok ([0, 1, 2, 3, 5, 4, 6], t) := by
  obtain ⟨s, F, h, ha, hF, h1, h2, h3, h4, h5, h6, h7, h8, h9, h10, _⟩ := loopHistory_state
  obtain ⟨t, e, _⟩ := C75_partial h10 (body := fun u n => .ok (u.setD n fun d => { d with attributes := [] })) (fun u n _ hu => ⟨_, rfl, fun i => hu i⟩)
  exact ⟨s, t, h, e⟩

end Svgdom
