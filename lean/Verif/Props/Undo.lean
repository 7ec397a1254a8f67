import Verif.Proof.Undo
import Verif.Props.Users

/-!
# C104: moves can be taken back
-/

set_option autoImplicit false

namespace Svgdom

/-- The node that a call of tree.rs moves. -/
def Call.moved : Call → Option NodeId
  | .append _ y => some y
  | .prepend _ y => some y
  | .insertAfter _ y => some y
  | .insertBefore _ y => some y
  | .detach y => some y
  | _ => none

/-- Calls that put `y` back to the place that it has in `s`. -/
def St.back (s : St) (y : NodeId) : List Call :=
  .detach y :: match s.nextSibling y, s.prevSibling y, s.parent y with
    | some n, _, _ => [.insertBefore n y]
    | none, some n, _ => [.insertAfter n y]
    | none, none, some p => [.append p y]
    | none, none, none => []

/-- Calls that take back the moves `cs`, the last one first. -/
noncomputable def St.undo (s : St) : List Call → List Call
  | [] => []
  | c :: cs => (match c.run s with
    | .ok t => t.undo cs
    | .error _ => []) ++ (c.moved.map s.back).getD []

/-- Pictures that differ only in forests that agree. -/
theorem Abs.agree {s : St} {P : Picture} (hP : Abs s P) {G : Forest} (h : P.forest.Agree G s.live) : Abs s { P with forest := G } :=
  { hP with forest := h.describes hP.forest }

theorem calls_then {s t : St} {cs ds : List Call} (h : s.calls cs = .ok t) : s.calls (cs ++ ds) = t.calls ds := by
  induction cs generalizing s with
  | nil => simp only [St.calls, Except.ok.injEq] at h; rw [h]; rfl
  | cons c cs ih =>
    simp only [St.calls, List.cons_append] at h ⊢
    cases hc : c.run s with
    | ok u => rw [hc] at h; exact ih h
    | error e => rw [hc] at h; simp [bind, Except.bind] at h

/-- What a move leads to. -/
theorem step_moved {P Q : Picture} {c : Call} {y : NodeId} (hw : P.forest.WF P.live) (hm : c.moved = some y) (hs : P.step c = .state Q) :
    P.live y = true ∧ ∃ G, Q = { P with forest := G } ∧ (G.detach y).Agree (P.forest.detach y) P.live := by
  have move : ∀ {x y : NodeId} {G : Forest}, P.live x = true → P.move x y G = .state Q → Q = { P with forest := G } ∧ x ≠ y := by
    intro x y G _ hs
    unfold Picture.move at hs
    split at hs
    · simp at hs
    · next hne =>
      split at hs
      · simp at hs
      · split at hs
        · simp at hs
        · exact ⟨(Result.state.inj hs).symm, hne⟩
  unfold Picture.step at hs
  split at hs
  · next hl =>
    cases c <;> simp only [Call.moved, Option.some.injEq, reduceCtorEq] at hm <;> subst hm <;>
      simp only [Call.mentions, List.all_cons, List.all_nil, Bool.and_true, Bool.and_eq_true] at hl <;> simp only [Picture.act] at hs
    case append x y =>
      obtain ⟨e, hne⟩ := move hl.1 hs
      exact ⟨hl.2, _, e, (hw.detach_moves hl.1 hne).1⟩
    case prepend x y =>
      obtain ⟨e, hne⟩ := move hl.1 hs
      exact ⟨hl.2, _, e, (hw.detach_moves hl.1 hne).2.1⟩
    case insertAfter x y =>
      obtain ⟨e, hne⟩ := move hl.1 hs
      exact ⟨hl.2, _, e, (hw.detach_moves hl.1 hne).2.2.1⟩
    case insertBefore x y =>
      obtain ⟨e, hne⟩ := move hl.1 hs
      exact ⟨hl.2, _, e, (hw.detach_moves hl.1 hne).2.2.2⟩
    case detach y =>
      exact ⟨hl, _, (Result.state.inj hs).symm, (hw.detach y).detach_alone (P.forest.alone_detach y)⟩
  · simp at hs

/-- A sibling of `y` and its parent are not below it. -/
theorem not_below {s t : St} (hup : ∀ i q, t.live i = true → t.parent i = some q → t.live q = true ∧ s.parent i = some q) (ha : s.Acyclic)
    {x y : NodeId} (hy : s.live y = true) (hxl : t.live x = true)
    (hx : (x ≠ y ∧ s.parent x = s.parent y) ∨ s.parent y = some x) : ¬ t.InSubtree y x := by
  intro h
  have h1 : s.InSubtree y x := by
    have : ∀ z, Relation.ReflTransGen t.Up x z → t.live z = true ∧ Relation.ReflTransGen s.Up x z := by
      intro z hz
      induction hz with
      | refl => exact ⟨hxl, .refl⟩
      | tail _ e ih =>
        obtain ⟨h1, h2⟩ := hup _ _ ih.1 e
        exact ⟨h1, .tail ih.2 h2⟩
    exact (this y h).2
  have cyc : ∀ {q}, s.parent y = some q → ¬ s.InSubtree y q := fun e h => ha y hy (Relation.TransGen.head' e h)
  rcases hx with ⟨hne, hx⟩ | hx
  · rcases Relation.ReflTransGen.cases_head h1 with e | ⟨p, e1, e2⟩
    · exact hne e
    · have : s.parent y = some p := hx ▸ e1
      exact cyc this e2
  · exact cyc hx h1

/-- Only the moved node can get another root. -/
theorem Extras.step_moved (X : Extras) (P Q : Picture) {c : Call} {y : NodeId} (hm : c.moved = some y) :
    (X.step P Q c).users = X.users ∧ ∀ i, i ≠ y → (X.step P Q c).top i = X.top i := by
  cases c <;> simp only [Call.moved, Option.some.injEq, reduceCtorEq] at hm <;> subst hm <;>
    refine ⟨rfl, fun i hi => ?_⟩ <;> simp [Extras.step, Extras.join, hi]

/-- One node is put back. -/
theorem back_step {s t : St} {P : Picture} {X Y : Extras} (h : Reachable s) (ha : s.Acyclic) (hP : Abs s P) (ht : Reachable t) (hta : t.Acyclic)
    {G : Forest} {y : NodeId} {B : NodeId → Prop} (hy : P.live y = true) (hQ : Abs t { P with forest := G }) (hY : Y.Of t)
    (hG : (G.detach y).Agree (P.forest.detach y) P.live) (hu : Y.users = X.users) (hr : ∀ i, i ≠ y → B i → Y.top i = X.top i) :
    ∃ u Z, t.calls (s.back y) = .ok u ∧ Reachable u ∧ u.Acyclic ∧ Abs u P ∧ Extras.Of Z u ∧ Z.users = X.users ∧
      ∀ i, i ≠ y → B i → Z.top i = X.top i := by
  have hsy : s.live y = true := by rw [← hP.live]; exact hy
  have hst : s.live = t.live := hP.live.symm.trans hQ.live
  have e1 : ({ P with forest := G } : Picture).step (.detach y) = .state { P with forest := G.detach y } := by
    simp [Picture.step, Call.mentions, hy, Picture.act]
  obtain ⟨t1, f1, r1, a1, A1, Y1⟩ := C96_step ht hta hQ hY _ e1
  have B1 : Abs t1 { P with forest := P.forest.detach y } := A1.agree (by rw [← A1.live]; exact hG)
  obtain ⟨u1, v1⟩ := Y.step_moved { P with forest := G } { P with forest := G.detach y } (c := .detach y) (y := y) rfl
  have hlt : s.live = t1.live := hP.live.symm.trans A1.live
  have hup : ∀ i q, t1.live i = true → t1.parent i = some q → t1.live q = true ∧ s.parent i = some q := by
    intro i q hi e
    rw [B1.forest.shows.parent i hi] at e
    refine ⟨(B1.forest.wf.par i hi q e).1, ?_⟩
    rw [hP.forest.shows.parent i (by rw [hlt]; exact hi)]
    simp only [Forest.detach] at e
    split at e
    · simp at e
    · exact e
  have w : P.forest.WF P.live := by rw [hP.live]; exact hP.forest.wf
  have u1' : (Y.step { P with forest := G } { P with forest := G.detach y } (.detach y)).users = X.users := u1.trans hu
  have v1' : ∀ i, i ≠ y → B i → (Y.step { P with forest := G } { P with forest := G.detach y } (.detach y)).top i = X.top i :=
    fun i hi hb => (v1 i hi).trans (hr i hi hb)
  generalize Y.step { P with forest := G } { P with forest := G.detach y } (.detach y) = Y' at Y1 u1' v1'
  -- the second call
  have second : ∀ {x : NodeId} {c : Call} {H : Forest}, s.live x = true → x ≠ y → c.moved = some y → c.mentions = [x, y] →
      ((x ≠ y ∧ s.parent x = s.parent y) ∨ s.parent y = some x) →
      ({ P with forest := P.forest.detach y } : Picture).act c = ({ P with forest := P.forest.detach y } : Picture).move x y H →
      H.Agree P.forest P.live →
      ∃ u Z, t1.calls [c] = .ok u ∧ Reachable u ∧ u.Acyclic ∧ Abs u P ∧ Extras.Of Z u ∧ Z.users = X.users ∧
      ∀ i, i ≠ y → B i → Z.top i = X.top i := by
    intro x c H hx hne hm hc hrel hact hH
    have hxl : t1.live x = true := by rw [← hlt]; exact hx
    have hyl : t1.live y = true := by rw [← hlt]; exact hsy
    have hn : ¬ x ∈ ({ P with forest := P.forest.detach y } : Picture).subtree y := fun hm =>
      not_below hup ha hsy hxl hrel ((B1.mem_subtree r1 a1 hyl x).1 hm).2
    have ht : ({ P with forest := P.forest.detach y } : Picture).touches y x = false := by
      simp [Picture.touches, Forest.detach, after, before]
    have e2 : ({ P with forest := P.forest.detach y } : Picture).step c = .state { P with forest := H } := by
      have : c.mentions.all P.live = true := by rw [hc, hP.live]; simp [hx, hsy]
      simp only [Picture.step, this, if_true, hact, Picture.move, if_neg hne, if_neg hn, ht]
      rfl
    obtain ⟨u, f2, r2, a2, A2, Y2⟩ := C96_step r1 a1 B1 Y1 c e2
    obtain ⟨u2, v2⟩ := Y'.step_moved { P with forest := P.forest.detach y } { P with forest := H } hm
    exact ⟨u, _, by simp only [St.calls, f2]; rfl, r2, a2, A2.agree (G := P.forest) (by rw [← A2.live]; exact hH), Y2, u2.trans u1',
      fun i hi hb => (v2 i hi).trans (v1' i hi hb)⟩
  have g1 := hP.forest.shows.next y hsy
  have g2 := hP.forest.shows.prev y hsy
  have g3 := hP.forest.shows.parent y hsy
  have first : ∀ {cs : List Call}, t.calls (.detach y :: cs) = t1.calls cs := fun {cs} => by simp only [St.calls, f1]; rfl
  have par : ∀ {x}, P.live x = true → P.forest.par x = P.forest.par y → s.parent x = s.parent y := fun {x} hx e => by
    rw [g3, hP.forest.shows.parent x (by rw [← hP.live]; exact hx), e]
  unfold St.back
  rw [first]
  cases hn : s.nextSibling y with
  | some n =>
    obtain ⟨k1, k2, k3, k4⟩ := w.back_before hy (g1.symm.trans hn)
    exact second (by rw [← hP.live]; exact k1) k2 rfl rfl (.inl ⟨k2, par k1 k3⟩) rfl k4
  | none =>
    cases hb : s.prevSibling y with
    | some n =>
      obtain ⟨k1, k2, k3, k4⟩ := w.back_after hy (g2.symm.trans hb)
      exact second (by rw [← hP.live]; exact k1) k2 rfl rfl (.inl ⟨k2, par k1 k3⟩) rfl k4
    | none =>
      cases hp : s.parent y with
      | some p =>
        obtain ⟨k1, k2⟩ := w.back_append hy (g1.symm.trans hn) (g2.symm.trans hb) (g3.symm.trans hp)
        refine second (by rw [← hP.live]; exact k1) ?_ rfl rfl (.inr hp) rfl k2
        rintro rfl
        exact ha p hsy (.single hp)
      | none =>
        have k := w.back_alone hy (g1.symm.trans hn) (g2.symm.trans hb) (g3.symm.trans hp)
        exact ⟨t1, Y', rfl, r1, a1, B1.agree (G := P.forest) (by rw [← B1.live]; exact k), Y1, u1', v1'⟩

/-- C104: moves are taken back. Whatever nodes were moved, by however many calls, putting them back in the opposite order leads to the
same tree, the same content and the same references; only `root()` of moved nodes may be another one. -/
theorem C104_undo {s : St} {P Q : Picture} {X : Extras} (h : Reachable s) (ha : s.Acyclic) (hP : Abs s P) (hX : X.Of s) {cs : List Call}
    (hm : ∀ c ∈ cs, c.moved ≠ none) (hs : P.run cs = .state Q) :
    ∃ t u Y, s.calls cs = .ok t ∧ t.calls (s.undo cs) = .ok u ∧ Reachable u ∧ u.Acyclic ∧ Abs u P ∧ Extras.Of Y u ∧
      Y.users = X.users ∧ ∀ i, (∀ c ∈ cs, c.moved ≠ some i) → Y.top i = X.top i := by
  induction cs generalizing s P X with
  | nil => exact ⟨s, s, X, rfl, rfl, h, ha, hP, hX, rfl, fun _ _ => rfl⟩
  | cons c cs ih =>
    obtain ⟨y, hy⟩ := Option.ne_none_iff_exists'.1 (hm c (by simp))
    simp only [Picture.run] at hs
    cases hc : P.step c with
    | panics => rw [hc] at hs; simp at hs
    | misuse => rw [hc] at hs; simp at hs
    | state R =>
      rw [hc] at hs
      obtain ⟨s1, f1, r1, a1, A1, X1⟩ := C96_step h ha hP hX c hc
      obtain ⟨t, u, Y, k1, k2, k3, k4, k5, k6, k7, k8⟩ := ih r1 a1 A1 X1 (fun d hd => hm d (List.mem_cons_of_mem _ hd)) hs
      obtain ⟨hyl, G, rfl, hG⟩ := step_moved (by rw [hP.live]; exact hP.forest.wf) hy hc
      obtain ⟨v1, v2⟩ := X.step_moved P { P with forest := G } hy
      obtain ⟨w, Z, l1, l2, l3, l4, l5, l6, l7⟩ := back_step (G := G) (B := fun i => ∀ d ∈ cs, d.moved ≠ some i) h ha hP k3 k4 hyl k5 k6 hG
        (k7.trans v1) (fun i hi hb => (k8 i hb).trans (v2 i hi))
      refine ⟨t, w, Z, by simp only [St.calls, f1]; exact k1, ?_, l2, l3, l4, l5, l6, fun i hi => ?_⟩
      · simp only [St.undo, f1, hy, Option.map_some, Option.getD_some]
        rw [calls_then k2]
        exact l1
      · exact l7 i (fun e => hi c (by simp) (by rw [hy, e])) fun d hd => hi d (List.mem_cons_of_mem _ hd)

/-- C104, the part that holds: all that can be observed is as before: content, tree, membership, written output, users; and `root()` of all nodes that were not
moved. -/
theorem C104_partial {s : St} {P Q : Picture} (h : Reachable s) (ha : s.Acyclic) (hP : Abs s P) {cs : List Call}
    (hm : ∀ c ∈ cs, c.moved ≠ none) (hs : P.run cs = .state Q) :
    ∃ t u, s.calls cs = .ok t ∧ t.calls (s.undo cs) = .ok u ∧ Reachable u ∧ u.Acyclic ∧ u.live = s.live ∧
      (∀ W, u.writeDom W = s.writeDom W) ∧ ∀ i, s.live i = true →
        u.look i = s.look i ∧ u.isDetached i = s.isDetached i ∧ u.parent i = s.parent i ∧
        u.firstChild i = s.firstChild i ∧ u.lastChild i = s.lastChild i ∧ u.nextSibling i = s.nextSibling i ∧
        u.prevSibling i = s.prevSibling i ∧ u.childList i = s.childList i ∧ u.descendantList i = s.descendantList i ∧
        u.linkedNodes i = s.linkedNodes i ∧ ((∀ c ∈ cs, c.moved ≠ some i) → u.root i = s.root i) := by
  have hX : (⟨fun i => (s.links i).root, s.linkedNodes⟩ : Extras).Of s := ⟨fun _ _ => rfl, fun _ _ => rfl⟩
  obtain ⟨t, u, Y, k1, k2, k3, k4, k5, k6, k7, k8⟩ := C104_undo h ha hP hX hm hs
  have hl : u.live = s.live := k5.live.symm.trans hP.live
  refine ⟨t, u, k1, k2, k3, k4, hl, fun W => ?_, fun i hi => ?_⟩
  · exact C93_written k3 k4 k5 h ha hP W
  · have hi' : u.live i = true := by rw [hl]; exact hi
    obtain ⟨_, _, _, _, _, a6, a7, a8, a9, a10, a11, a12, a13, _⟩ := C93_observe h ha hP hi
    obtain ⟨_, _, _, _, _, b6, b7, b8, b9, b10, b11, b12, b13, _⟩ := C93_observe k3 k4 k5 hi'
    refine ⟨by rw [← hP.look i hi, ← k5.look i hi'], by rw [a6, b6], by rw [a7, b7], by rw [a8, b8], by rw [a9, b9],
      by rw [a10, b10], by rw [a11, b11], by rw [a12, b12], by rw [a13, b13], ?_, fun hn => ?_⟩
    · rw [← k6.users i hi', k7]
    · rw [(C96_observe k5 k6 hi').1, (C96_observe hP hX hi).1]
      simp only [Picture.rootOf, k8 i hn]

/-- C104 does not hold for `root()` of the moved node: a node without parent that was appended to another node and detached again has
the root of that node. -/
theorem C104_refuted : ∃ s t u, Reachable s ∧ s.Acyclic ∧ s.live 1 = true ∧ s.live 2 = true ∧ s.calls [.append 2 1] = .ok t ∧
    t.calls (s.undo [.append 2 1]) = .ok u ∧ s.root 1 = .ok 1 ∧ u.root 1 = .ok 2 := by
  obtain ⟨s, hr, hp⟩ := exists_of_holds (ops := [.createElement (.id .G), .createElement (.id .G)]) (p := fun s =>
    (s.acyclicB 3 && decide (s.nextId = 3)) && s.live 1 && s.live 2 && decide (s.nextSibling 1 = none) && decide (s.prevSibling 1 = none) && decide (s.parent 1 = none) &&
    decide (s.root 1 = .ok 1) && okAnd (Op.run s (.append 2 1)) fun t => okAnd (Op.run t (.detach 1)) fun u => decide (u.root 1 = .ok 2))
    (by decide +kernel)
  simp only [Bool.and_eq_true, decide_eq_true_eq, okAnd_iff] at hp
  obtain ⟨⟨⟨⟨⟨⟨⟨⟨h0, hn⟩, h1⟩, h2⟩, h3⟩, h4⟩, h5⟩, h6⟩, t, e1, u, e2, h7⟩ := hp
  refine ⟨s, t, u, hr, ?_, h1, h2, ?_, ?_, h6, h7⟩
  · exact acyclic_of_check (fun i hi => hn ▸ hr.inv.liveBelow i hi) h0
  · simp only [St.calls, Call.run, e1]; rfl
  · simp only [St.undo, Call.run, e1, Call.moved, Option.map_some, Option.getD_some, St.back, h3, h4, h5, List.nil_append, St.calls, e2]; rfl

/-- The conditions of `C104_partial` are met: parent and child change places, with three moves. -/
example : ∃ Q R, (Picture.init true).run [.createElement (.id .G), .createElement (.id .G), .append 0 1, .append 1 2] = .state Q ∧
    Q.run [.append 0 2, .detach 1, .append 2 1] = .state R ∧ Q.forest.kids 1 = [2] ∧ R.forest.kids 2 = [1] ∧ R.forest.kids 0 = [2] := by
  have key : (match (Picture.init true).run [.createElement (.id .G), .createElement (.id .G), .append 0 1, .append 1 2] with
    | .state Q => (match Q.run [.append 0 2, .detach 1, .append 2 1] with
      | .state R => decide (Q.forest.kids 1 = [2] ∧ R.forest.kids 2 = [1] ∧ R.forest.kids 0 = [2])
      | _ => false)
    | _ => false) = true := by decide +kernel
  split at key
  · next Q hQ =>
    split at key
    · next R hR => exact ⟨Q, R, hQ, hR, of_decide_eq_true key⟩
    · simp at key
  · simp at key

end Svgdom
