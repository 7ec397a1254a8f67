import Verif.Proof.Overwrite
import Verif.Props.Removals
import Verif.Props.Commute
import Verif.Props.Undo

/-!
# C115: only the last of several calls counts
-/

set_option autoImplicit false

namespace Svgdom

/-- What `root()` remembers does not depend on the contents of nodes. -/
theorem SameBut.tops {i : NodeId} {k : Part} {P Q R : Picture} {X Y : Extras} (h : SameBut i k P Q) {cs : List Call}
    (hb : ∀ d ∈ cs, d.blind = true) (e : P.run cs = .state R) (ht : X.top = Y.top) : (X.run P cs).top = (Y.run Q cs).top := by
  induction cs generalizing P Q X Y with
  | nil => exact ht
  | cons d cs ih =>
    simp only [Picture.run, Extras.run] at e ⊢
    cases hd : P.step d with
    | panics => rw [hd] at e; simp at e
    | misuse => rw [hd] at e; simp at e
    | state P' =>
      rw [hd] at e
      obtain ⟨Q', e1, e2, _⟩ := h.step (hb d (by simp)) hd
      rw [e1]
      refine ih e2 (fun d hd => hb d (by simp [hd])) e ?_
      have := hb d (by simp)
      cases d <;> simp only [Call.blind, Bool.false_eq_true] at this <;>
        simp only [Extras.step, Extras.grow, Extras.join, Extras.put, Extras.unlink, ht, h.next, e2.next]

/-- C115: a part of a node that is set again later. The earlier call may be left out; between the two there may be any calls that make
or move nodes or set parts of nodes to something that is no reference. -/
theorem C115_write {s : St} {P Q : Picture} (h : Reachable s) (ha : s.Acyclic) (hP : Abs s P) {as cs : List Call} {c d : Call}
    {i : NodeId} {k : Part} (hc : c.writes = some (i, k)) (hd : d ∈ cs) (hk : d.overwrites = some (i, k))
    (hb : ∀ d ∈ cs, d.blind = true) (hq : P.run (as ++ c :: cs) = .state Q) :
    ∃ t u, s.calls (as ++ c :: cs) = .ok t ∧ s.calls (as ++ cs) = .ok u ∧ Abs t Q ∧ Abs u Q ∧ Twins t u := by
  obtain ⟨X, hX⟩ := extras_exist s
  obtain ⟨R, r1, r2⟩ := run_split hq
  simp only [Picture.run] at r2
  cases hs : R.step c with
  | panics => rw [hs] at r2; simp at r2
  | misuse => rw [hs] at r2; simp at r2
  | state R' =>
    rw [hs] at r2
    have e := (sameBut_writes hc hs).symm.run hb ⟨d, hd, hk⟩ r2
    have hq' : P.run (as ++ cs) = .state Q := by rw [run_append, r1]; exact e
    obtain ⟨t, t1, t2, t3, t4, t5⟩ := C96_history h ha hP hX _ hq
    obtain ⟨u, u1, u2, u3, u4, u5⟩ := C96_history h ha hP hX _ hq'
    refine ⟨t, u, t1, u1, t4, u4, twins_of t2 t3 t4 t5 u2 u3 u4 u5 ?_⟩
    have run_app : ∀ ds, (X.run P (as ++ ds)).top = ((X.run P as).run R ds).top := fun ds => by rw [extras_append r1]
    rw [run_app, run_app]
    simp only [Extras.run, hs]
    refine (sameBut_writes hc hs).symm.tops hb r2 ?_
    cases c <;> simp only [Call.writes, reduceCtorEq] at hc <;> simp only [Extras.step] <;> (try split) <;> rfl

/-- C115: a node that is moved twice. Whatever the first call was, the second one decides: the same tree, the same content, the same
answers of all getters, now and later. (One of the calls alone may panic where the other order of things does not: see the example.) -/
theorem C115_move {s : St} {P Q Q' : Picture} (h : Reachable s) (ha : s.Acyclic) (hP : Abs s P) {c d : Call} {y : NodeId}
    (hc : c.moved = some y) (hd : d.moved = some y) (hnd : d ≠ .detach y) (hq : P.run [c, d] = .state Q)
    (hq' : P.run [d] = .state Q') : ∃ t u, s.calls [c, d] = .ok t ∧ s.calls [d] = .ok u ∧ Forever t u := by
  obtain ⟨X, hX⟩ := extras_exist s
  obtain ⟨t, t1, t2, t3, t4, t5⟩ := C96_history h ha hP hX _ hq
  obtain ⟨u, u1, u2, u3, u4, u5⟩ := C96_history h ha hP hX _ hq'
  obtain ⟨R, S, r1, r2, r3⟩ := run_two hq
  simp only [Picture.run, Result.state.injEq] at r3
  subst r3
  have hw : P.forest.WF P.live := by rw [hP.live]; exact hP.forest.wf
  obtain ⟨hy, G, rfl, hG⟩ := step_moved hw hc r1
  have r2' : P.step d = .state Q' := by
    simp only [Picture.run] at hq'
    cases hs : P.step d with
    | panics => rw [hs] at hq'; simp at hq'
    | misuse => rw [hs] at hq'; simp at hq'
    | state T => rw [hs] at hq'; exact hq'
  have hx1 := X.step_moved P { P with forest := G } hc
  have same : ∃ H H', S = { P with forest := H } ∧ Q' = { P with forest := H' } ∧ H'.Agree H P.live ∧
      (X.step P { P with forest := G } c).step { P with forest := G } S d = X.step P Q' d := by
    have move : ∀ {T T' : Picture} {x : NodeId} {K : Forest}, T.move x y K = .state T' → T' = { T with forest := K } ∧ x ≠ y := by
      intro T T' x K hs
      unfold Picture.move at hs
      split at hs
      · simp at hs
      · next hne =>
        split at hs
        · simp at hs
        · split at hs
          · simp at hs
          · exact ⟨(Result.state.inj hs).symm, hne⟩
    have joins : ∀ {x : NodeId} (r : Option NodeId → Option NodeId), x ≠ y →
        (X.step P { P with forest := G } c).join y (r ((X.step P { P with forest := G } c).top x)) = X.join y (r (X.top x)) := by
      intro x r hne
      unfold Extras.join
      rw [hx1.1, hx1.2 x hne]
      congr 1
      funext j
      by_cases e : j = y
      · simp [e]
      · simp only [e, if_false]; exact hx1.2 j e
    unfold Picture.step at r2 r2'
    split at r2
    case isFalse => simp at r2
    next hl =>
    rw [if_pos hl] at r2'
    cases d <;> simp only [Call.moved, Option.some.injEq, reduceCtorEq] at hd <;> subst hd <;>
      simp only [Call.mentions, List.all_cons, List.all_nil, Bool.and_true, Bool.and_eq_true] at hl <;> simp only [Picture.act] at r2 r2'
    case append x y =>
      obtain ⟨e1, hne⟩ := move r2
      obtain ⟨e2, _⟩ := move r2'
      refine ⟨_, _, e1, e2, ?_, joins (fun o => some (o.getD x)) hne⟩
      rw [Forest.append, Forest.append, ← hG.kids x hl.1]
      exact hG.symm.attach _ _ _
    case prepend x y =>
      obtain ⟨e1, hne⟩ := move r2
      obtain ⟨e2, _⟩ := move r2'
      refine ⟨_, _, e1, e2, ?_, joins (fun o => some (o.getD x)) hne⟩
      rw [Forest.prepend, Forest.prepend, ← hG.kids x hl.1]
      exact hG.symm.attach _ _ _
    case insertAfter x y =>
      obtain ⟨e1, hne⟩ := move r2
      obtain ⟨e2, _⟩ := move r2'
      refine ⟨_, _, e1, e2, ?_, joins (fun o => o) hne⟩
      rw [Forest.insertAfter, Forest.insertAfter, ← hG.sibs x hl.1, ← hG.par x hl.1]
      exact hG.symm.attach _ _ _
    case insertBefore x y =>
      obtain ⟨e1, hne⟩ := move r2
      obtain ⟨e2, _⟩ := move r2'
      refine ⟨_, _, e1, e2, ?_, joins (fun o => o) hne⟩
      rw [Forest.insertBefore, Forest.insertBefore, ← hG.sibs x hl.1, ← hG.par x hl.1]
      exact hG.symm.attach _ _ _
    case detach y => exact absurd rfl hnd
  obtain ⟨H, H', rfl, rfl, hA, hE⟩ := same
  have k4 : Abs u { P with forest := H } := u4.agree (by rw [← u4.live]; exact hA)
  refine ⟨t, u, t1, u1, C114_forever t2 t3 t4 t5 u2 u3 k4 ?_⟩
  simp only [Extras.run, r1, r2, r2'] at u5 ⊢
  rw [hE]
  exact u5

/-- C115: a node that is detached first can be moved to every place that is not in it; the panics of tree.rs for neighbours (C04) do not
occur. -/
theorem C115_detach {s : St} {P : Picture} (h : Reachable s) (ha : s.Acyclic) (hP : Abs s P) {d : Call} {x y : NodeId}
    (hd : d ∈ [Call.append x y, .prepend x y, .insertAfter x y, .insertBefore x y]) (hx : s.live x = true) (hy : s.live y = true)
    (hn : ¬ s.InSubtree y x) : ∃ Q t, P.run [.detach y, d] = .state Q ∧ s.calls [.detach y, d] = .ok t ∧ Reachable t ∧ t.Acyclic ∧ Abs t Q := by
  have e1 : P.step (.detach y) = .state { P with forest := P.forest.detach y } := by
    simp [Picture.step, Call.mentions, hP.live, hy, Picture.act]
  have hm := C93_step h ha hP (.detach y)
  rw [e1] at hm
  obtain ⟨t, et, ht, hat, hQ⟩ := hm
  have hlt : t.live = s.live := by rw [← hQ.live, ← hP.live]
  have hne : x ≠ y := by rintro rfl; exact hn .refl
  have hsub : x ∉ ({ P with forest := P.forest.detach y } : Picture).subtree y := by
    intro hm
    have hin := ((hQ.mem_subtree ht hat (hlt ▸ hy) x).1 hm).2
    refine hn ?_
    have up : ∀ i p, s.live i = true → t.Up i p → s.Up i p := by
      intro i p hi
      unfold St.Up
      rw [hQ.forest.shows.parent i (hlt ▸ hi), hP.forest.shows.parent i hi]
      simp only [Forest.detach]
      split
      · simp
      · exact id
    unfold St.InSubtree at hin ⊢
    clear hm hne hn hd
    induction hin using Relation.ReflTransGen.head_induction_on with
    | refl => exact .refl
    | @head i p h1 _ ih =>
      have := up i p hx h1
      exact .head this (ih (up_live this))
  have htou : ({ P with forest := P.forest.detach y } : Picture).touches y x = false := by
    simp [Picture.touches, Forest.detach, after, before]
  have step : ∀ G : Forest, ({ P with forest := P.forest.detach y } : Picture).move x y G = .state { P with forest := G } := by
    intro G
    unfold Picture.move
    rw [if_neg hne, if_neg hsub, htou]
    rfl
  have hxP : P.live x = true := by rw [hP.live]; exact hx
  have hyP : P.live y = true := by rw [hP.live]; exact hy
  have e2 : ∃ Q, ({ P with forest := P.forest.detach y } : Picture).step d = .state Q := by
    simp only [List.mem_cons, List.not_mem_nil, or_false] at hd
    rcases hd with rfl | rfl | rfl | rfl <;>
      exact ⟨_, by
        simp only [Picture.step, Call.mentions, List.all_cons, List.all_nil, Bool.and_true, hxP, hyP, Bool.and_self, if_true, Picture.act]
        exact step _⟩
  obtain ⟨Q, e2⟩ := e2
  have e3 : P.run [.detach y, d] = .state Q := by simp only [Picture.run, e1, e2]
  have := C93_history h ha hP [.detach y, d]
  rw [e3] at this
  obtain ⟨u, k1, k2, k3, k4⟩ := this
  exact ⟨Q, u, e3, k1, k2, k3, k4⟩

/-! ## Concrete histories -/

/-- The id of node 5 is set, an element is made and put in, the fill of node 5 is set; then the id is set again: the first call may go. -/
example : ∃ s t u, Reachable s ∧
    s.calls [.setId 5 st!"a", .createElement (.id .G), .append 1 7, .setAttribute 5 ⟨.id .Fill, .none⟩, .setId 5 st!"b"] = .ok t ∧
    s.calls [.createElement (.id .G), .append 1 7, .setAttribute 5 ⟨.id .Fill, .none⟩, .setId 5 st!"b"] = .ok u ∧ Twins t u ∧
    t.idOf 5 = st!"b" := by
  obtain ⟨P, e, hP⟩ := Result.shows_iff.1 (show ((Picture.init true).run usersHistory).shows (fun P =>
    (P.run [.setId 5 st!"a", .createElement (.id .G), .append 1 7, .setAttribute 5 ⟨.id .Fill, .none⟩, .setId 5 st!"b"]).shows fun Q =>
      Q.live 5 && decide ((Q.look 5).id = st!"b")) = true by decide +kernel)
  obtain ⟨Q, eQ, hQ⟩ := Result.shows_iff.1 hP
  simp only [Bool.and_eq_true, decide_eq_true_eq] at hQ
  obtain ⟨s, _, h, ha, hA, _⟩ := C96_run e
  obtain ⟨t, u, h1, h2, h3, h4, h5⟩ := C115_write h ha hA (as := []) (c := .setId 5 st!"a") (d := .setId 5 st!"b") (i := 5) (k := .id)
    (cs := [.createElement (.id .G), .append 1 7, .setAttribute 5 ⟨.id .Fill, .none⟩, .setId 5 st!"b"]) rfl (by simp) rfl
    (by decide) eQ
  refine ⟨s, t, u, h, h1, h2, h5, ?_⟩
  have hl : t.live 5 = true := by rw [← h3.live]; exact hQ.1
  rw [← hQ.2, h3.look 5 hl]
  rfl

/-- The order of `linked_nodes()` may tell: node 5 refers to node 2 first and last; with one more reference, removed again, it is
not the first one any more. -/
example : ((Picture.init true).run usersHistory).shows (fun Q =>
    let X := Extras.init.run (Picture.init true) usersHistory
    let cs := [Call.setAttribute 5 ⟨.id .Mask, .funcLink 2⟩, .removeAttribute 5 (.id .Mask)]
    decide ((X.run Q [.removeAttribute 5 (.id .Mask)]).users 2 = [5, 6, 5]) && decide ((X.run Q cs).users 2 = [6, 5, 5])) = true := by
  decide +kernel

/-- The gradient 3 is moved into the rectangle 6 and then behind the rectangle 5; that is what the second call does alone. The rectangle 6, which is
the last child of 4 already, can be moved there only if it is detached first. -/
example : ∃ s t u v, Reachable s ∧ s.calls [.append 6 3, .insertAfter 5 3] = .ok t ∧ s.calls [.insertAfter 5 3] = .ok u ∧ Forever t u ∧
    s.calls [.detach 6, .append 4 6] = .ok v ∧ ∃ p, s.calls [.append 4 6] = .error (.panic p) := by
  obtain ⟨P, e, hP⟩ := Result.shows_iff.1 (show ((Picture.init true).run usersHistory).shows (fun P =>
    (P.run [.append 6 3, .insertAfter 5 3]).shows (fun _ => true) && (P.run [.insertAfter 5 3]).shows (fun _ => true) &&
    P.live 4 && P.live 6 && decide (4 ∉ P.subtree 6) &&
    (match P.run [.append 4 6] with | .panics => true | _ => false)) = true by decide +kernel)
  simp only [Bool.and_eq_true, decide_eq_true_eq] at hP
  obtain ⟨⟨⟨⟨⟨h1, h2⟩, h3⟩, h4⟩, h5⟩, h6⟩ := hP
  obtain ⟨Q, e1, _⟩ := Result.shows_iff.1 h1
  obtain ⟨Q', e2, _⟩ := Result.shows_iff.1 h2
  obtain ⟨s, _, h, ha, hA, _⟩ := C96_run e
  rw [hA.live] at h3 h4
  obtain ⟨t, u, k1, k2, k3⟩ := C115_move h ha hA (y := 3) rfl rfl (by simp) e1 e2
  obtain ⟨_, v, _, k4, _⟩ := C115_detach h ha hA (d := .append 4 6) (x := 4) (y := 6) (by simp) h3 h4
    fun hn => h5 ((hA.mem_subtree h ha h4 4).2 ⟨h3, hn⟩)
  have := C93_history h ha hA [.append 4 6]
  split at h6
  · next hp =>
    rw [hp] at this
    exact ⟨s, t, u, v, h, k1, k2, k3, k4, this⟩
  · simp at h6

end Svgdom
