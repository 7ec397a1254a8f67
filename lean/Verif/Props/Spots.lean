import Verif.Proof.Spots
import Verif.Props.Commute
import Verif.Props.Undo

/-!
# C107: moves of different nodes commute
-/

set_option autoImplicit false

namespace Svgdom

/-- What a move leads to. -/
theorem step_spot {P Q : Picture} {c : Call} {sp : Spot} {y : NodeId} (hm : c.move = some (sp, y)) (hs : P.step c = .state Q) :
    Q = { P with forest := P.forest.put sp y } ∧ (∀ x, sp.anchor = some x → P.live x = true) ∧ sp.anchor ≠ some y := by
  unfold Picture.step at hs
  split at hs
  case isFalse => simp at hs
  next hl =>
  rw [List.all_eq_true] at hl
  have move : ∀ {x y : NodeId} {G : Forest}, P.move x y G = .state Q → Q = { P with forest := G } ∧ x ≠ y := by
    intro x y G hs
    unfold Picture.move at hs
    split at hs
    · simp at hs
    · next hne =>
      split at hs
      · simp at hs
      · split at hs
        · simp at hs
        · exact ⟨by simp only [Result.state.injEq] at hs; exact hs.symm, hne⟩
  cases c <;> simp only [Call.move, Option.some.injEq, Prod.mk.injEq, reduceCtorEq] at hm
  case detach i =>
    obtain ⟨rfl, rfl⟩ := hm
    simp only [Picture.act, Result.state.injEq] at hs
    exact ⟨by rw [put_alone]; exact hs.symm, fun x hx => by simp [Spot.anchor] at hx, by simp [Spot.anchor]⟩
  all_goals
    obtain ⟨rfl, rfl⟩ := hm
    obtain ⟨h1, h2⟩ := move hs
    refine ⟨h1, fun x hx => ?_, by simpa [Spot.anchor] using h2⟩
    simp only [Spot.anchor, Option.some.injEq] at hx
    subst hx
    exact hl _ (by simp [Call.mentions])

/-- The node that a moved node remembers as its root. -/
def Extras.there (X : Extras) (y : NodeId) : Spot → Option NodeId
  | .last p => some ((X.top p).getD p)
  | .first p => some ((X.top p).getD p)
  | .after x => X.top x
  | .before x => X.top x
  | .alone => X.top y

theorem top_spot {P Q : Picture} {X : Extras} {c : Call} {sp : Spot} {y : NodeId} (hm : c.move = some (sp, y)) :
    (X.step P Q c).users = X.users ∧ ∀ j, (X.step P Q c).top j = if j = y then X.there y sp else X.top j := by
  cases c <;> simp only [Call.move, Option.some.injEq, Prod.mk.injEq, reduceCtorEq] at hm
  case detach i =>
    obtain ⟨rfl, rfl⟩ := hm
    refine ⟨rfl, fun j => ?_⟩
    by_cases h : j = i
    · simp [h, Extras.step, Extras.there]
    · simp [h, Extras.step]
  all_goals
    obtain ⟨rfl, rfl⟩ := hm
    exact ⟨rfl, fun j => rfl⟩

theorem tops_spot {P Q P' Q' R R' S S' : Picture} {X : Extras} {c d : Call} (h : c.Apart d) :
    ((X.step P Q c).step P' Q' d).top = ((X.step R S d).step R' S' c).top ∧
      ((X.step P Q c).step P' Q' d).users = ((X.step R S d).step R' S' c).users := by
  obtain ⟨sp, y, sp', y', hc, hd, hy, _, ha, ha'⟩ := h
  refine ⟨?_, by rw [(top_spot hd).1, (top_spot hc).1, (top_spot hc).1, (top_spot hd).1]⟩
  have there : ∀ {P Q : Picture} {c : Call} {sp sp' : Spot} {y y' : NodeId}, c.move = some (sp, y) → y ≠ y' → sp'.anchor ≠ some y →
      (X.step P Q c).there y' sp' = X.there y' sp' := by
    intro P Q c sp sp' y y' hc hy ha
    cases sp' <;> simp only [Spot.anchor, ne_eq, Option.some.injEq] at ha <;> simp [Extras.there, (top_spot hc).2, ha, hy.symm]
  funext j
  rw [(top_spot hd).2, there hc hy ha', (top_spot hc).2, (top_spot hc).2, there hd hy.symm ha, (top_spot hd).2]
  by_cases e : j = y
  · subst e; simp [hy]
  · simp [e]

/-- C107: two moves of different nodes, to different places that are not given by these nodes, may be exchanged if both orders run. -/
theorem C107_moves {s : St} {P Q R : Picture} (h : Reachable s) (ha : s.Acyclic) (hP : Abs s P) {c d : Call} (hcd : c.Apart d)
    (hq : P.run [c, d] = .state Q) (hr : P.run [d, c] = .state R) :
    ∃ t u, s.calls [c, d] = .ok t ∧ s.calls [d, c] = .ok u ∧ Twins t u ∧ ∀ i, t.live i = true → t.linkedNodes i = u.linkedNodes i := by
  have hX : (⟨fun i => (s.links i).root, s.linkedNodes⟩ : Extras).Of s := ⟨fun _ _ => rfl, fun _ _ => rfl⟩
  obtain ⟨t, t1, t2, t3, t4, t5⟩ := C96_history h ha hP hX _ hq
  obtain ⟨u, u1, u2, u3, u4, u5⟩ := C96_history h ha hP hX _ hr
  obtain ⟨Q1, Q2, q1, q2, q3⟩ := run_two hq
  obtain ⟨R1, R2, r1, r2, r3⟩ := run_two hr
  simp only [Picture.run, Result.state.injEq] at q3 r3
  subst q3 r3
  obtain ⟨a, _, _, _, a4⟩ := (show Mirrors (s.calls [c]) (.state Q1) by
    have := C93_history h ha hP [c]; simpa only [Picture.run, q1] using this)
  obtain ⟨b, _, _, _, b4⟩ := (show Mirrors (s.calls [d]) (.state R1) by
    have := C93_history h ha hP [d]; simpa only [Picture.run, r1] using this)
  have hcd' := hcd
  obtain ⟨sp, y, sp', y', hc, hd, hy, hsp, hb, hb'⟩ := hcd'
  obtain ⟨rfl, k1, k2⟩ := step_spot hc q1
  obtain ⟨rfl, k3, k4⟩ := step_spot hd r1
  obtain ⟨rfl, _, _⟩ := step_spot hd q2
  obtain ⟨rfl, _, _⟩ := step_spot hc r2
  have w := hP.forest.wf
  have w1 := a4.forest.wf
  have w2 := b4.forest.wf
  have w3 := t4.forest.wf
  have w4 := u4.forest.wf
  rw [← hP.live] at w
  rw [← a4.live] at w1
  rw [← b4.live] at w2
  rw [← t4.live] at w3
  have hl : P.live = u.live := u4.live
  rw [← u4.live] at w4
  have ag := put_put w hy hsp k1 k3 k2 hb k4 hb' w1 w2 w3 w4
  have u6 : Abs u { P with forest := (P.forest.put sp y).put sp' y' } := u4.agree (G := (P.forest.put sp y).put sp' y')
    (by rw [← hl]; exact ag.symm)
  obtain ⟨e1, e2⟩ := tops_spot (P := P) (Q := { P with forest := P.forest.put sp y })
    (P' := { P with forest := P.forest.put sp y }) (Q' := { P with forest := (P.forest.put sp y).put sp' y' }) (R := P)
    (S := { P with forest := P.forest.put sp' y' }) (R' := { P with forest := P.forest.put sp' y' })
    (S' := { P with forest := (P.forest.put sp' y').put sp y })
    (X := ⟨fun i => (s.links i).root, s.linkedNodes⟩) hcd
  simp only [Extras.run, q1, q2] at t5
  simp only [Extras.run, r1, r2] at u5
  have tw := twins_of t2 t3 t4 t5 u2 u3 u6 u5 e1
  refine ⟨t, u, t1, u1, tw, fun i hi => ?_⟩
  rw [(C96_observe t4 t5 hi).2.1, (C96_observe u6 u5 (tw.live ▸ hi)).2.1, e2]

/-- Five elements below the root, in the order 1, 4, 2, 3, 5. -/
def spotsHistory : List Call :=
  [.createElement (.id .G), .createElement (.id .G), .createElement (.id .G), .createElement (.id .G), .createElement (.id .G),
    .append 0 1, .append 0 4, .append 0 2, .append 0 3, .append 0 5]

/-- C107: it is not enough that one order runs. `append` of 2 to 1 runs, but not after 4, which is between them, was moved away. -/
theorem C107_runs : ∃ s t : St, Reachable s ∧ s.Acyclic ∧ (Call.append 1 2).Apart (.append 5 4) ∧
    s.calls [.append 1 2, .append 5 4] = .ok t ∧ ∃ e, s.calls [.append 5 4, .append 1 2] = .error (.panic e) := by
  obtain ⟨Q, e, hQ⟩ := Result.shows_iff.1 (show ((Picture.init true).run spotsHistory).shows (fun Q =>
    ((Q.run [.append 1 2, .append 5 4]).shows fun _ => true) &&
    (match Q.run [.append 5 4, .append 1 2] with | .panics => true | _ => false)) = true by decide +kernel)
  obtain ⟨s, _, h, ha, hP, hX⟩ := C96_run e
  rw [Bool.and_eq_true] at hQ
  obtain ⟨R, r1, _⟩ := Result.shows_iff.1 hQ.1
  obtain ⟨t, e1, _⟩ := C96_history h ha hP hX _ r1
  have hm := C93_history h ha hP [.append 5 4, .append 1 2]
  have h2 := hQ.2
  refine ⟨s, t, h, ha, ⟨.last 1, 2, .last 5, 4, rfl, rfl, by decide, .inl (by decide), by decide, by decide⟩, e1, ?_⟩
  split at h2
  · next hp => rw [hp] at hm; exact hm
  · simp at h2

/-- C107: two nodes that go to the same place are in the order of the calls. -/
theorem C107_same_place : ∃ s t u : St, Reachable s ∧ s.calls [.append 1 2, .append 1 5] = .ok t ∧ s.calls [.append 1 5, .append 1 2] = .ok u ∧
    t.childList 1 = .ok [2, 5] ∧ u.childList 1 = .ok [5, 2] := by
  obtain ⟨Q, e, hQ⟩ := Result.shows_iff.1 (show ((Picture.init true).run spotsHistory).shows (fun Q =>
    ((Q.run [.append 1 2, .append 1 5]).shows fun R => R.live 1 && decide (R.forest.kids 1 = [2, 5])) &&
    ((Q.run [.append 1 5, .append 1 2]).shows fun R => R.live 1 && decide (R.forest.kids 1 = [5, 2]))) = true by decide +kernel)
  obtain ⟨s, _, h, ha, hP, hX⟩ := C96_run e
  rw [Bool.and_eq_true] at hQ
  obtain ⟨R, r1, r2⟩ := Result.shows_iff.1 hQ.1
  obtain ⟨T, t1, t2⟩ := Result.shows_iff.1 hQ.2
  obtain ⟨t, e1, a1, a2, a3, _⟩ := C96_history h ha hP hX _ r1
  obtain ⟨u, e2, b1, b2, b3, _⟩ := C96_history h ha hP hX _ t1
  simp only [Bool.and_eq_true, decide_eq_true_eq] at r2 t2
  obtain ⟨_, _, _, _, _, _, _, _, _, _, _, k1, _⟩ := C93_observe a1 a2 a3 (by rw [← a3.live]; exact r2.1)
  obtain ⟨_, _, _, _, _, _, _, _, _, _, _, k2, _⟩ := C93_observe b1 b2 b3 (by rw [← b3.live]; exact t2.1)
  exact ⟨s, t, u, h, e1, e2, by rw [k1, r2.2], by rw [k2, t2.2]⟩

/-- The conditions of `C107_moves` are met: neighbours that go to places next to each other. -/
example : ∃ P Q R, (Picture.init true).run spotsHistory = .state P ∧ (Call.insertAfter 1 3).Apart (.insertBefore 4 5) ∧
    P.run [.insertAfter 1 3, .insertBefore 4 5] = .state Q ∧ P.run [.insertBefore 4 5, .insertAfter 1 3] = .state R ∧
    Q.forest.kids 0 = [1, 3, 5, 4, 2] := by
  obtain ⟨P, e, hQ⟩ := Result.shows_iff.1 (show ((Picture.init true).run spotsHistory).shows (fun P =>
    ((P.run [.insertAfter 1 3, .insertBefore 4 5]).shows fun Q => decide (Q.forest.kids 0 = [1, 3, 5, 4, 2])) &&
    ((P.run [.insertBefore 4 5, .insertAfter 1 3]).shows fun _ => true)) = true by decide +kernel)
  rw [Bool.and_eq_true] at hQ
  obtain ⟨Q, q1, q2⟩ := Result.shows_iff.1 hQ.1
  obtain ⟨R, r1, _⟩ := Result.shows_iff.1 hQ.2
  exact ⟨P, Q, R, e, ⟨.after 1, 3, .before 4, 5, rfl, rfl, by decide, .inl (by decide), by decide, by decide⟩, q1, r1, of_decide_eq_true q2⟩

end Svgdom
