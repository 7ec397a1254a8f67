import Verif.Proof.Removals

/-!
# C114: removals in any order
-/

set_option autoImplicit false

namespace Svgdom

/-- C114: the same picture and the same extras: no difference, now or later. -/
theorem C114_forever {s t : St} {P : Picture} {X : Extras} (h : Reachable s) (ha : s.Acyclic) (hP : Abs s P) (hX : X.Of s)
    (h' : Reachable t) (ha' : t.Acyclic) (hP' : Abs t P) (hX' : X.Of t) : Forever s t := by
  have key : ∀ cs Q, P.run cs = .state Q → ∃ u v, s.calls cs = .ok u ∧ t.calls cs = .ok v ∧ Agreeing u v := by
    intro cs Q e
    obtain ⟨u, v, eu, ev, hl, hw, _, hr⟩ := C96_same h ha hP hX h' ha' hP' hX' cs e
    refine ⟨u, v, eu, ev, hl, hw, ?_, ?_, ?_, ?_, ?_, ?_, ?_, ?_, ?_, ?_, ?_⟩ <;> intro i hi <;>
      obtain ⟨a1, a2, a3, a4, a5, a6, a7, a8, a9, a10, a11⟩ := hr i hi <;> assumption
  refine ⟨?_, P, hP, hP', fun cs => ⟨key cs, fun e => ?_⟩⟩
  · obtain ⟨u, v, eu, ev, al⟩ := key [] P rfl
    simp only [St.calls, Except.ok.injEq] at eu ev
    subst eu ev
    exact al
  · have h1 := C93_history h ha hP cs
    have h2 := C93_history h' ha' hP' cs
    rw [e] at h1 h2
    obtain ⟨p, e1⟩ := h1
    obtain ⟨q, e2⟩ := h2
    exact ⟨p, q, e1, e2⟩

/-- C114: a list of nodes is removed, one after the other; the list may have nodes inside others, nodes that were removed earlier, and
the same node several times. Nothing panics, and the result is that of removing all their subtrees at once. -/
theorem C114_list {s : St} {P : Picture} {X : Extras} (h : Reachable s) (ha : s.Acyclic) (hP : Abs s P) (hX : X.Of s)
    (l : List NodeId) (hl : ∀ a ∈ l, s.live a = true) :
    ∃ t, s.calls (l.map .removeNode) = .ok t ∧ Reachable t ∧ t.Acyclic ∧ Abs t (P.remove (l.flatMap P.subtree)) ∧
      (X.unlink (P.remove (l.flatMap P.subtree))).Of t := by
  induction l generalizing s P X with
  | nil =>
    refine ⟨s, rfl, h, ha, by rw [List.flatMap_nil, P.remove_nil]; exact hP, ?_⟩
    rw [List.flatMap_nil, P.remove_nil]
    refine ⟨fun i hi => hX.top i hi, fun i hi => ?_⟩
    obtain ⟨_, _, _, _, _, _, _, _, _, _, _, _, _, hc, hu⟩ := C93_observe h ha hP hi
    simp only [Extras.unlink, hX.users i hi]
    rw [keepLast_congr (d := fun j => (s.linkedNodes i).count j) fun j hj => (hc j (by rw [← hP.live]; exact hu j hj)).symm,
      keepLast_count]
  | cons a l ih =>
    have hal : s.live a = true := hl a (by simp)
    have hs : P.step (.removeNode a) = .state (P.remove (P.subtree a)) := by
      simp [Picture.step, Picture.act, Call.mentions, hP.live, hal]
    obtain ⟨t, e, ht, hat, hQ, hY⟩ := C96_step h ha hP hX (.removeNode a) hs
    have hlt : t.live = s.live := by rw [← hQ.live, ← hP.live]; rfl
    obtain ⟨u, eu, hu, hau, hR, hZ⟩ := ih ht hat hQ hY fun b hb => by rw [hlt]; exact hl b (by simp [hb])
    have same : (P.remove (P.subtree a)).remove (l.flatMap (P.remove (P.subtree a)).subtree) =
        P.remove ((a :: l).flatMap P.subtree) := by
      rw [Picture.remove_remove]
      refine Picture.remove_congr _ fun j => ?_
      simp only [List.mem_append, List.flatMap_cons, List.mem_flatMap]
      by_cases hj : j ∈ P.subtree a
      · simp [hj]
      simp only [hj, false_or]
      have closed : ∀ i p, s.live i = true → s.Up i p → p ∈ P.subtree a → i ∈ P.subtree a := by
        intro i p hi hup hp
        exact (hP.mem_subtree h ha hal i).2 ⟨hi, .head hup ((hP.mem_subtree h ha hal p).1 hp).2⟩
      refine exists_congr fun b => and_congr_right fun hb => ?_
      have hbl := hl b (by simp [hb])
      rw [hQ.mem_subtree ht hat (hlt ▸ hbl), hP.mem_subtree h ha hbl, hlt]
      refine and_congr_right fun hjl => ?_
      have := inSubtree_removed hP.forest hlt hQ.forest closed (a := b) hjl
      exact ⟨this.1, fun k => this.2 k hj⟩
    rw [same] at hR hZ
    refine ⟨u, by rw [List.map_cons, St.calls, e]; exact eu, hu, hau, hR, ?_⟩
    have hX2 : ((X.step P (P.remove (P.subtree a)) (.removeNode a)).unlink (P.remove ((a :: l).flatMap P.subtree))) =
        X.unlink (P.remove ((a :: l).flatMap P.subtree)) := by
      refine Extras.unlink_unlink _ _ _ fun i j => ?_
      rw [← same]
      exact refCount_filter _ _ _
    rw [hX2] at hZ
    exact hZ

/-- What a state has besides its picture. -/
theorem extras_exist (s : St) : ∃ X : Extras, X.Of s :=
  ⟨⟨fun i => (s.links i).root, s.linkedNodes⟩, fun _ _ => rfl, fun _ _ => rfl⟩

/-- C114: only the set of nodes that goes matters: two lists of nodes that cover the same nodes, removed one after the other, lead to
states that nothing tells apart, now or later. -/
theorem C114_order {s : St} (h : Reachable s) (ha : s.Acyclic) {l m : List NodeId} (hl : ∀ a ∈ l, s.live a = true)
    (hm : ∀ a ∈ m, s.live a = true) (e : ∀ j, s.live j = true → (s.Covered l j ↔ s.Covered m j)) :
    ∃ t u, s.calls (l.map .removeNode) = .ok t ∧ s.calls (m.map .removeNode) = .ok u ∧ Forever t u := by
  obtain ⟨P, hP⟩ := (C93_picture h).1
  obtain ⟨X, hX⟩ := extras_exist s
  obtain ⟨t, et, ht, hat, hPt, hXt⟩ := C114_list h ha hP hX l hl
  obtain ⟨u, eu, hu, hau, hPu, hXu⟩ := C114_list h ha hP hX m hm
  have : P.remove (l.flatMap P.subtree) = P.remove (m.flatMap P.subtree) := by
    refine Picture.remove_congr _ fun j => ?_
    have cov : ∀ k : List NodeId, (∀ a ∈ k, s.live a = true) → (j ∈ k.flatMap P.subtree ↔ s.live j = true ∧ s.Covered k j) := by
      intro k hk
      rw [List.mem_flatMap]
      constructor
      · rintro ⟨a, h1, h2⟩
        have := (hP.mem_subtree h ha (hk a h1) j).1 h2
        exact ⟨this.1, a, h1, this.2⟩
      · rintro ⟨h0, a, h1, h2⟩
        exact ⟨a, h1, (hP.mem_subtree h ha (hk a h1) j).2 ⟨h0, h2⟩⟩
    rw [cov l hl, cov m hm]
    exact and_congr_right (e j)
  rw [← this] at hPu hXu
  exact ⟨t, u, et, eu, C114_forever ht hat hPt hXt hu hau hPu hXu⟩

/-- C114: the order of the calls does not matter. -/
theorem C114_perm {s : St} (h : Reachable s) (ha : s.Acyclic) {l m : List NodeId} (hl : ∀ a ∈ l, s.live a = true) (e : l.Perm m) :
    ∃ t u, s.calls (l.map .removeNode) = .ok t ∧ s.calls (m.map .removeNode) = .ok u ∧ Forever t u :=
  C114_order h ha hl (fun a h => hl a (e.mem_iff.2 h)) fun j _ =>
    ⟨fun ⟨a, h1, h2⟩ => ⟨a, e.mem_iff.1 h1, h2⟩, fun ⟨a, h1, h2⟩ => ⟨a, e.mem_iff.2 h1, h2⟩⟩

/-- C114: removing a node that went with another one, or that was removed already, changes nothing. -/
theorem C114_again {s t : St} (h : Reachable s) (ha : s.Acyclic) {a b : NodeId} (hal : s.live a = true) (hbl : s.live b = true)
    (hb : s.InSubtree a b) (e : s.removeNode a = .ok t) : ∃ u, t.removeNode b = .ok u ∧ Forever t u := by
  obtain ⟨t', u, et, eu, al⟩ := C114_order h ha (l := [a]) (m := [a, b]) (by simpa using hal) (by simpa using ⟨hal, hbl⟩) fun j _ =>
    ⟨fun ⟨c, h1, h2⟩ => ⟨c, by simp at h1; simp [h1], h2⟩, fun ⟨c, h1, h2⟩ => by
      simp only [List.mem_cons, List.not_mem_nil, or_false] at h1
      rcases h1 with rfl | rfl
      · exact ⟨c, by simp, h2⟩
      · exact ⟨a, by simp, Relation.ReflTransGen.trans h2 hb⟩⟩
  have e1 : (Call.removeNode a).run s = .ok t := by simpa [Call.run, Op.run] using e
  have e2 : t' = t := by
    simp only [List.map_cons, List.map_nil, St.calls] at et
    rw [e1] at et
    exact (Except.ok.inj et).symm
  subst e2
  refine ⟨u, ?_, al⟩
  simp only [List.map_cons, List.map_nil, St.calls] at eu
  rw [e1] at eu
  change (t'.removeNode b).bind (fun s => Except.ok s) = .ok u at eu
  cases hb : t'.removeNode b with
  | error x => rw [hb] at eu; exact absurd eu (by simp [Except.bind])
  | ok v => rw [hb] at eu; simpa [Except.bind] using eu

/-- C114: `drain` is removing the matches one by one, in any order and with any repetitions. -/
theorem C114_drain {s : St} (h : Reachable s) (ha : s.Acyclic) {root : NodeId} (hr : s.live root = true)
    (f : NodeType → TagName → Str → Str → Bool) {l : List NodeId}
    (hl : ∀ a, a ∈ l ↔ Match s (fun s n => f (s.nodeType n) (s.tagName n) (s.idOf n) (s.text n)) root a) :
    ∃ t u n, s.drain root (fun s n => f (s.nodeType n) (s.tagName n) (s.idOf n) (s.text n)) = .ok (t, n) ∧
      s.calls (l.map .removeNode) = .ok u ∧ Forever t u := by
  obtain ⟨P, hP⟩ := (C93_picture h).1
  obtain ⟨X, hX⟩ := extras_exist s
  obtain ⟨u, eu, hu, hau, hPu, hXu⟩ := C114_list h ha hP hX l fun a m => ((hl a).1 m).1
  have hs : P.step (.drain root f) = .state (P.remove (P.drained root f)) := by
    simp [Picture.step, Picture.act, Call.mentions, hP.live, hr]
  obtain ⟨t, et, ht, hat, hPt, hXt⟩ := C96_step h ha hP hX (.drain root f) hs
  have same : P.remove (P.drained root f) = P.remove (l.flatMap P.subtree) := by
    refine Picture.remove_congr _ fun j => ?_
    simp only [Picture.drained, List.mem_flatMap, List.mem_filter, hP.tail_subtree h ha hr, hl, Match]
    constructor
    · rintro ⟨a, ⟨⟨h1, h2⟩, h3⟩, h4⟩
      exact ⟨a, ⟨h1, h2, by simpa only [hP.look a h1, St.look] using h3⟩, h4⟩
    · rintro ⟨a, ⟨h1, h2, h3⟩, h4⟩
      exact ⟨a, ⟨⟨h1, h2⟩, by simpa only [hP.look a h1, St.look] using h3⟩, h4⟩
  rw [same] at hPt hXt
  simp only [Call.run, Op.run] at et
  cases hd : s.drain root (fun s n => f (s.nodeType n) (s.tagName n) (s.idOf n) (s.text n)) with
  | error x => rw [hd] at et; simp [Except.map] at et
  | ok r =>
    rw [hd] at et
    obtain ⟨v, n⟩ := r
    have : v = t := by simpa [Except.map] using et
    subst this
    exact ⟨v, u, n, rfl, eu, C114_forever ht hat hPt hXt hu hau hPu hXu⟩

/-! ## Concrete documents -/

/-- The document of `usersHistory`: the rectangles 5 and 6 in the group 4 refer to the gradient 2. -/
theorem removals_start : ∃ s P, Reachable s ∧ s.Acyclic ∧ Abs s P ∧ P.subtree 4 = [4, 5, 6] ∧ s.linkedNodes 2 = [5, 6, 5] ∧
    ((P.subtree 1).tail.filter fun j => decide ((P.look j).tag = .id .Rect)) = [5, 6] ∧ ∀ i ∈ [1, 2, 4, 5, 6], s.live i = true := by
  obtain ⟨Q, e, hQ⟩ := Result.shows_iff.1 (show ((Picture.init true).run usersHistory).shows (fun Q =>
    decide (((Q.subtree 1).tail.filter fun j => decide ((Q.look j).tag = .id .Rect)) = [5, 6]) &&
    decide (Q.subtree 4 = [4, 5, 6]) && [1, 2, 4, 5, 6].all Q.live &&
    decide ((Extras.init.run (Picture.init true) usersHistory).users 2 = [5, 6, 5])) = true by decide +kernel)
  simp only [Bool.and_eq_true, decide_eq_true_eq, List.all_eq_true] at hQ
  obtain ⟨s, _, h, ha, hP, hX⟩ := C96_run e
  have hl : ∀ i ∈ [1, 2, 4, 5, 6], s.live i = true := fun i hi => by rw [← hP.live]; exact hQ.1.2 i hi
  exact ⟨s, Q, h, ha, hP, hQ.1.1.2, (C96_observe hP hX (hl 2 (by simp))).2.1.trans hQ.2, hQ.1.1.1, hl⟩

/-- Removing 4, then 5 that went with it: the second call finds a node without parent and changes nothing. -/
example : ∃ s t u, Reachable s ∧ s.linkedNodes 2 = [5, 6, 5] ∧ s.removeNode 4 = .ok t ∧ t.removeNode 5 = .ok u ∧
    t.isDetached 5 = true ∧ Forever t u := by
  obtain ⟨s, P, h, ha, hP, h4, hu, _, hl⟩ := removals_start
  have h45 := ((hP.mem_subtree h ha (hl 4 (by simp)) 5).1 (by rw [h4]; simp)).2
  obtain ⟨t, S, e, hS, r, _⟩ := C20_remove h ha hP.forest (hl 4 (by simp))
  obtain ⟨u, eu, al⟩ := C114_again h ha (hl 4 (by simp)) (hl 5 (by simp)) h45 e
  refine ⟨s, t, u, h, hu, e, eu, ?_, al⟩
  rw [r.detached]
  simp [(hS 5).2 ⟨hl 5 (by simp), h45⟩]

/-- The same three nodes in three ways: the group, its rectangles first, everything twice. -/
example : ∃ s t u, Reachable s ∧ s.calls [.removeNode 4, .removeNode 2] = .ok t ∧
    s.calls [.removeNode 5, .removeNode 2, .removeNode 6, .removeNode 4, .removeNode 5, .removeNode 2] = .ok u ∧ Forever t u := by
  obtain ⟨s, P, h, ha, hP, h4, _, _, hl⟩ := removals_start
  have hin : ∀ j ∈ [4, 5, 6], s.InSubtree 4 j := fun j hj => ((hP.mem_subtree h ha (hl 4 (by simp)) j).1 (by rw [h4]; exact hj)).2
  obtain ⟨t, u, et, eu, al⟩ := C114_order h ha (l := [4, 2]) (m := [5, 2, 6, 4, 5, 2])
    (fun a m => hl a (by simp only [List.mem_cons, List.not_mem_nil, or_false] at m ⊢; tauto))
    (fun a m => hl a (by simp only [List.mem_cons, List.not_mem_nil, or_false] at m ⊢; tauto)) fun j _ => by
      constructor
      · rintro ⟨a, m, k⟩
        exact ⟨a, by simp only [List.mem_cons, List.not_mem_nil, or_false] at m ⊢; tauto, k⟩
      · rintro ⟨a, m, k⟩
        by_cases e : a = 2
        · exact ⟨a, by simp [e], k⟩
        · refine ⟨4, by simp, Relation.ReflTransGen.trans k (hin a ?_)⟩
          simp only [List.mem_cons, List.not_mem_nil, or_false] at m ⊢
          tauto
  exact ⟨s, t, u, h, et, eu, al⟩

/-- `drain` of the rectangles below 1, and their removal from the last one to the first one. -/
example : ∃ s t u n, Reachable s ∧ s.drain 1 (fun s n => decide (s.tagName n = .id .Rect)) = .ok (t, n) ∧
    s.calls [.removeNode 6, .removeNode 5] = .ok u ∧ Forever t u := by
  obtain ⟨s, P, h, ha, hP, _, _, hf, hl⟩ := removals_start
  obtain ⟨t, u, n, e, eu, al⟩ := C114_drain h ha (hl 1 (by simp)) (fun _ tag _ _ => decide (tag = .id .Rect)) (l := [6, 5]) fun a => by
    have : a ∈ [6, 5] ↔ a ∈ [5, 6] := by simp [or_comm]
    rw [this, ← hf, List.mem_filter, hP.tail_subtree h ha (hl 1 (by simp))]
    unfold Match
    constructor
    · rintro ⟨⟨h1, h2⟩, h3⟩
      exact ⟨h1, h2, by simpa only [hP.look a h1, St.look] using h3⟩
    · rintro ⟨h1, h2, h3⟩
      exact ⟨⟨h1, h2⟩, by simpa only [hP.look a h1, St.look] using h3⟩
  exact ⟨s, t, u, n, h, e, eu, al⟩

end Svgdom
