import Verif.Proof.Release

/-!
# C97: when nodes are freed makes no difference
-/

set_option autoImplicit false

namespace Svgdom

/-- Both programs after the same calls: in the first one handles were dropped, in the second one all are kept. -/
structure Outlived (s t : St) (P R : Picture) (X Y : Extras) : Prop where
  reach : Reachable s
  acyclic : s.Acyclic
  shows : Abs s P
  extras : X.Of s
  reach' : Reachable t
  acyclic' : t.Acyclic
  shows' : Abs t R
  extras' : Y.Of t
  rest : P.Rest R
  same : X.Rest Y P.live

/-- C97: a history of calls with drops of handles, and the same history in which all handles are kept. If the first one returns, so does
the second one, and for all nodes that are left nothing differs but that a parent, previous siblings and remembered roots may be gone. -/
theorem C97_history {s t : St} {P R : Picture} {X Y : Extras} (h : Outlived s t P R X Y) (cs : List Call) {Q : Picture}
    (e : P.run cs = .state Q) :
    ∃ u v S, s.calls cs = .ok u ∧ t.calls (keepHandles cs) = .ok v ∧ R.run (keepHandles cs) = .state S ∧
      Outlived u v Q S (X.run P cs) (Y.run R (keepHandles cs)) := by
  induction cs generalizing s t P R X Y with
  | nil =>
    cases e
    exact ⟨s, t, R, rfl, rfl, rfl, h⟩
  | cons c cs ih =>
    simp only [Picture.run] at e
    cases hc : P.step c with
    | panics => rw [hc] at e; simp at e
    | misuse => rw [hc] at e; simp at e
    | state P' =>
    rw [hc] at e
    obtain ⟨s', es, hs', ha', hP', hX'⟩ := C96_step h.reach h.acyclic h.shows h.extras c hc
    have hX : X.run P (c :: cs) = (X.step P P' c).run P' cs := by simp only [Extras.run, hc]
    rw [hX]
    simp only [St.calls, es, bind, Except.bind]
    cases hd : c.drops with
    | true =>
      have hk : keepHandles (c :: cs) = keepHandles cs := by simp [keepHandles, hd]
      rw [hk]
      cases c with
      | release i =>
        have hi : P.live i = true := by
          unfold Picture.step at hc
          split at hc
          · next hm => simpa [Call.mentions] using hm
          · simp at hc
        have hq : P' = P.release i := by
          unfold Picture.step at hc
          split at hc
          · exact (Result.state.inj hc).symm
          · simp at hc
        have hl : ∀ j, P'.live j = true → P.live j = true := fun j hj => by
          rw [hq, Picture.release] at hj
          split at hj
          · exact hj
          · simp only [Bool.and_eq_true] at hj; exact hj.1
        refine ih ⟨hs', ha', hP', hX', h.reach', h.acyclic', h.shows', h.extras', ?_, ?_⟩ e
        · rw [hq]; exact h.rest.release h.reach h.shows hi
        · exact ⟨fun j hj => h.same.top j (hl j hj), fun j hj => h.same.users j (hl j hj)⟩
      | _ => simp [Call.drops] at hd
    | false =>
      have hk : keepHandles (c :: cs) = c :: keepHandles cs := by simp [keepHandles, hd]
      rw [hk]
      have hr := h.rest.step h.reach h.acyclic h.shows h.reach' h.shows' hd
      rw [hc] at hr
      cases hc' : R.step c with
      | panics => rw [hc'] at hr; exact hr.elim
      | misuse => rw [hc'] at hr; exact hr.elim
      | state R' =>
      rw [hc'] at hr
      obtain ⟨t', et, ht', hat', hR', hY'⟩ := C96_step h.reach' h.acyclic' h.shows' h.extras' c hc'
      have hY : Y.run R (c :: keepHandles cs) = (Y.step R R' c).run R' (keepHandles cs) := by simp only [Extras.run, hc']
      rw [hY]
      simp only [St.calls, et, bind, Except.bind, Picture.run, hc']
      exact ih ⟨hs', ha', hP', hX', ht', hat', hR', hY', hr, h.same.step h.rest h.reach h.shows h.extras hd hc hr⟩ e

/-- C97: if the history panics, so does the one in which all handles are kept. -/
theorem C97_panics {s t : St} {P R : Picture} {X Y : Extras} (h : Outlived s t P R X Y) (cs : List Call) (e : P.run cs = .panics) :
    ∃ p q, s.calls cs = .error (.panic p) ∧ t.calls (keepHandles cs) = .error (.panic q) := by
  have h1 := C93_history h.reach h.acyclic h.shows cs
  have h2 := C93_history h.reach' h.acyclic' h.shows' (keepHandles cs)
  have hp : R.run (keepHandles cs) = .panics := by
    clear h1 h2
    induction cs generalizing s t P R X Y with
    | nil => simp [Picture.run] at e
    | cons c cs ih =>
      simp only [Picture.run] at e
      cases hd : c.drops with
      | true =>
        have hk : keepHandles (c :: cs) = keepHandles cs := by simp [keepHandles, hd]
        rw [hk]
        cases hc : P.step c with
        | misuse => rw [hc] at e; simp at e
        | panics =>
          cases c with
          | release i =>
            unfold Picture.step at hc
            split at hc <;> simp [Picture.act] at hc
          | _ => simp [Call.drops] at hd
        | state P' =>
          rw [hc] at e
          obtain ⟨u, v, S, _, _, e3, hf⟩ := C97_history h [c] (Q := P') (by simp [Picture.run, hc])
          have hk : keepHandles [c] = [] := by simp [keepHandles, hd]
          rw [hk] at e3 hf
          cases e3
          exact ih hf e
      | false =>
        have hk : keepHandles (c :: cs) = c :: keepHandles cs := by simp [keepHandles, hd]
        rw [hk]
        have hr := h.rest.step h.reach h.acyclic h.shows h.reach' h.shows' hd
        cases hc : P.step c with
        | misuse => rw [hc] at e; simp at e
        | panics =>
          rw [hc] at hr
          cases hc' : R.step c with
          | panics => simp [Picture.run, hc']
          | misuse => rw [hc'] at hr; exact hr.elim
          | state R' => rw [hc'] at hr; exact hr.elim
        | state P' =>
          rw [hc] at e
          obtain ⟨u, v, S, _, _, e3, hf⟩ := C97_history h [c] (Q := P') (by simp [Picture.run, hc])
          have hk : keepHandles [c] = [c] := by simp [keepHandles, hd]
          rw [hk] at e3 hf
          have hS : R.step c = .state S := by
            simp only [Picture.run] at e3
            cases hc' : R.step c with
            | state R' => rw [hc'] at e3; simp only [Picture.run] at e3; rw [Result.state.inj e3]
            | panics => rw [hc'] at e3; simp at e3
            | misuse => rw [hc'] at e3; simp at e3
          simp only [Picture.run, hS]
          exact ih hf e
  rw [e] at h1
  rw [hp] at h2
  obtain ⟨p, h1⟩ := h1
  obtain ⟨q, h2⟩ := h2
  exact ⟨p, q, h1, h2⟩

/-- C97: what can be observed. -/
theorem C97_observe {s t : St} {P R : Picture} {X Y : Extras} (h : Outlived s t P R X Y) {i : NodeId} (hi : s.live i = true) :
    t.live i = true ∧ t.look i = s.look i ∧ t.isDetached i = s.isDetached i ∧ t.firstChild i = s.firstChild i ∧
    t.lastChild i = s.lastChild i ∧ t.nextSibling i = s.nextSibling i ∧ t.childList i = s.childList i ∧
    t.descendantList i = s.descendantList i ∧ t.linkedNodes i = s.linkedNodes i ∧
    s.parent i = (t.parent i).filter s.live ∧ s.prevSibling i = (t.prevSibling i).filter s.live ∧
    ∀ r, s.root i = .ok r → t.root i = .ok r := by
  have hi1 : P.live i = true := by rw [h.shows.live]; exact hi
  have hi2 : t.live i = true := by rw [← h.shows'.live]; exact h.rest.live i hi1
  obtain ⟨a1, a2, a3, a4, a5, a6, a7, a8, a9, a10, a11, a12, a13, _⟩ := C93_observe h.reach h.acyclic h.shows hi
  obtain ⟨b1, b2, b3, b4, b5, b6, b7, b8, b9, b10, b11, b12, b13, _⟩ := C93_observe h.reach' h.acyclic' h.shows' hi2
  obtain ⟨c1, c2, _⟩ := C96_observe h.shows h.extras hi
  obtain ⟨d1, d2, _⟩ := C96_observe h.shows' h.extras' hi2
  obtain ⟨d, e, hd⟩ := h.rest.forest.sibs i hi1
  have hid : i ∉ d := fun hm => by rw [hd i hm] at hi1; simp at hi1
  have hm := h.shows.forest.wf.self_mem i hi
  have hn : (d ++ P.forest.sibs i).Nodup := by rw [← e]; exact h.shows'.forest.wf.nodup i hi2
  refine ⟨hi2, ?_, ?_, ?_, ?_, ?_, ?_, ?_, ?_, ?_, ?_, ?_⟩
  · rw [← h.shows.look i hi, ← h.shows'.look i hi2, h.rest.look i hi1]
  · rw [a6, b6, h.rest.stored i hi1]
  · rw [a8, b8, h.rest.forest.kids i hi1]
  · rw [a9, b9, h.rest.forest.kids i hi1]
  · rw [a10, b10, e, after_append_right hid]
  · rw [a12, b12, h.rest.forest.kids i hi1]
  · rw [a13, b13, (h.rest.subtree h.shows hi1).1]
  · rw [c2, d2, h.same.users i hi1]
  · rw [a7, b7, ← h.shows.live]; exact h.rest.forest.par i hi1
  · rw [a11, b11, ← h.shows.live]
    cases hq : before (R.forest.sibs i) i with
    | none =>
      cases hp : before (P.forest.sibs i) i with
      | none => rfl
      | some x =>
        have hx : x ∉ d := fun hx => by
          have := (h.shows.forest.wf.sib i hi x (before_mem hp)).1
          rw [← h.shows.live, hd x hx] at this
          simp at this
        rw [e, (before_suffix hn hm hx).2 hp] at hq
        simp at hq
    | some x =>
      by_cases hx : x ∈ d
      · have hx0 := hd x hx
        simp only [Option.filter, hx0]
        cases hp : before (P.forest.sibs i) i with
        | none => rfl
        | some y =>
          exfalso
          have hy : P.live y = true := by rw [h.shows.live]; exact (h.shows.forest.wf.sib i hi y (before_mem hp)).1
          have hyd : y ∉ d := fun hm => by rw [hd y hm] at hy; simp at hy
          have := (before_suffix hn hm hyd).2 hp
          rw [← e, hq] at this
          cases this
          exact hyd hx
      · have := (before_suffix hn hm hx).1 (by rw [← e]; exact hq)
        rw [this]
        have hl : P.live x = true := by rw [h.shows.live]; exact (h.shows.forest.wf.sib i hi x (before_mem this)).1
        simp [Option.filter, hl]
  · intro r
    rw [c1, d1]
    simp only [Picture.rootOf, h.same.top i hi1]
    cases X.top i with
    | none => exact id
    | some q =>
      simp only
      intro hr
      split at hr
      · next hl => rw [if_pos (h.rest.live q hl)]; exact hr
      · simp at hr

/-- C97: the answers of all further calls are the same. -/
theorem C97_answer {s t : St} {P R : Picture} {X Y : Extras} (h : Outlived s t P R X Y) {c : Call} {Q : Picture} (e : P.step c = .state Q) :
    c.ask s = c.ask t := by
  cases hd : c.drops with
  | true => cases c with
    | release i => rfl
    | _ => simp [Call.drops] at hd
  | false =>
  have hr := h.rest.step h.reach h.acyclic h.shows h.reach' h.shows' hd
  rw [e] at hr
  cases e' : R.step c with
  | panics => rw [e'] at hr; exact hr.elim
  | misuse => rw [e'] at hr; exact hr.elim
  | state Q' =>
  rw [C93_answer h.reach h.acyclic h.shows c e, C93_answer h.reach' h.acyclic' h.shows' c e']
  unfold Picture.step at e
  split at e
  case isFalse => simp at e
  next hm =>
  rw [List.all_eq_true] at hm
  cases c with
  | createElement => simp [Picture.answer, h.rest.next]
  | createNode => simp [Picture.answer, h.rest.next]
  | copyNode => simp [Picture.answer, h.rest.next]
  | copyNodeDeep => simp [Picture.answer, h.rest.next]
  | drain i f => simp only [Picture.answer, h.rest.topmost h.shows (hm i (by simp [Call.mentions]))]
  | setAttributeChecked i a =>
    simp only [Picture.answer, h.rest.refusal (hm i (by simp [Call.mentions])) (v := a.value) fun n hn => hm n (by simp [Call.mentions, hn])]
  | _ => rfl

/-- C97: the written text is the same. -/
theorem C97_written {s t : St} {P R : Picture} {X Y : Extras} (h : Outlived s t P R X Y) (W : ValueWriter) : s.writeDom W = t.writeDom W := by
  have hr : s.live s.rootId = true := by obtain ⟨_, hti⟩ := h.reach.inv.tree; exact hti.root
  have A : Alike s t fun i => s.live i = true ∧ s.InSubtree s.rootId i := by
    have hl := fun {i} (hi : s.live i = true) => (C97_observe h hi)
    refine ⟨fun hi => (hl hi.1).2.1, fun hi a ha n hn => congrArg Look.id (hl (h.reach.inv.link.targets _ hi.1 a ha n hn)).2.1,
      fun {i} hi he => ?_, by rw [← h.shows.root, ← h.shows'.root, h.rest.root], ⟨hr, .refl⟩, fun {i} hi => ?_⟩
    · have hne : i ≠ s.rootId := fun hc => by
        have := (h.reach.nodesOk.root i hi.1).2 hc
        rw [this] at he
        simp at he
      obtain ⟨p, hp⟩ : ∃ p, s.parent i = some p := by
        rcases Relation.ReflTransGen.cases_head hi.2 with hc | ⟨p, hp, _⟩
        · exact absurd hc hne
        · exact ⟨p, hp⟩
      have hpl := ((C01_neighbours h.reach hi.1).2.2.2.2 hp).1
      have hpt : t.parent i = some p := by
        have := (hl hi.1).2.2.2.2.2.2.2.2.2.1
        rw [hp, eq_comm, Option.filter_eq_some_iff] at this
        exact this.1
      have hty : t.nodeType p = s.nodeType p := congrArg Look.type (hl hpl).2.1
      simp only [hp, hpt, Option.map_some, St.isRoot, hty]
    · obtain ⟨T, hT, _, h1, h2⟩ := C07_traverse h.reach h.acyclic h.shows.forest hi.1
      obtain ⟨U, hU, _, h3, h4⟩ := C07_traverse h.reach' h.acyclic' h.shows'.forest (hl hi.1).1
      have hlive := pre_live h.shows.forest hT (by simpa using hi.1)
      have := hT.congr (G := R.forest) fun j hj => h.rest.forest.kids j (by rw [h.shows.live]; exact hlive j hj)
      cases this.unique hU
      refine ⟨T, h1, h3, h2, h4, fun j hj => ⟨hlive j hj, ?_⟩⟩
      have hin : s.InSubtree i j := by
        simpa using (mem_pre h.shows.forest hT (by simpa using hi.1) j (hlive j hj)).1 hj
      exact Relation.ReflTransGen.trans hin hi.2
  exact (A.dom W).symm

/-- At the start nothing was freed. -/
theorem Outlived.refl {s : St} {P : Picture} {X : Extras} (h : Reachable s) (ha : s.Acyclic) (hP : Abs s P) (hX : X.Of s) :
    Outlived s s P P X X where
  reach := h
  acyclic := ha
  shows := hP
  extras := hX
  reach' := h
  acyclic' := ha
  shows' := hP
  extras' := hX
  rest := ⟨rfl, rfl, rfl, fun _ h => h, fun _ _ => rfl, fun _ _ => rfl, ⟨fun _ _ => rfl, fun i _ => ⟨[], rfl, by simp⟩, fun i hi => by
    cases hp : P.forest.par i with
    | none => rfl
    | some p =>
      have := (hP.forest.wf.par i (by rw [← hP.live]; exact hi) p hp).1
      rw [← hP.live] at this
      simp [Option.filter, this]⟩⟩
  same := ⟨fun _ _ => rfl, fun _ _ => rfl⟩

/-- C97: every history of calls on a new document. -/
theorem C97_run {debug : Bool} (cs : List Call) {Q : Picture} (e : (Picture.init debug).run cs = .state Q) :
    ∃ u v S X Y, (St.init debug).calls cs = .ok u ∧ (St.init debug).calls (keepHandles cs) = .ok v ∧ Outlived u v Q S X Y := by
  obtain ⟨u, v, S, h1, h2, _, h3⟩ := C97_history (Outlived.refl (.init debug) (SafeReachable.init debug).acyclic (abs_init debug)
    (X := Extras.init) ⟨fun _ _ => rfl, fun _ _ => rfl⟩) cs e
  exact ⟨u, v, S, _, _, h1, h2, h3⟩

/-- C97: calls on a parsed document. -/
theorem C97_parsed {L : Lib} {debug : Bool} {x : Xml} {t : St} (e : parseSvg L debug x = .ok t) (cs : List Call) {Q : Picture}
    (hs : (parsedPicture L debug x).run cs = .state Q) :
    ∃ u v S X Y, t.calls cs = .ok u ∧ t.calls (keepHandles cs) = .ok v ∧ Outlived u v Q S X Y := by
  obtain ⟨u, v, S, h1, h2, _, h3⟩ := C97_history (Outlived.refl (C44_reachable e).1.reachable (C44_tree e).2 (C95_machine e) (C96_parsed e)) cs hs
  exact ⟨u, v, S, _, _, h1, h2, h3⟩

/-- C97: two histories with the same calls, in which handles are dropped at different moments. Nodes that are left in both look the same,
have the same children, next siblings, users and descendants, and the same text is written. -/
theorem C97_any {debug : Bool} (cs ds : List Call) {Q Q' : Picture} (hk : keepHandles cs = keepHandles ds)
    (e : (Picture.init debug).run cs = .state Q) (e' : (Picture.init debug).run ds = .state Q') :
    ∃ u v, (St.init debug).calls cs = .ok u ∧ (St.init debug).calls ds = .ok v ∧ (∀ W, u.writeDom W = v.writeDom W) ∧
      ∀ i, u.live i = true → v.live i = true → u.look i = v.look i ∧ u.isDetached i = v.isDetached i ∧
        u.firstChild i = v.firstChild i ∧ u.lastChild i = v.lastChild i ∧ u.nextSibling i = v.nextSibling i ∧
        u.childList i = v.childList i ∧ u.descendantList i = v.descendantList i ∧ u.linkedNodes i = v.linkedNodes i := by
  obtain ⟨u, w, S, X, Y, h1, h2, h3⟩ := C97_run cs e
  obtain ⟨v, w', S', X', Y', h1', h2', h3'⟩ := C97_run ds e'
  rw [hk, h2'] at h2
  cases h2
  refine ⟨u, v, h1, h1', fun W => by rw [C97_written h3, C97_written h3'], fun i hu hv => ?_⟩
  obtain ⟨_, a1, a2, a3, a4, a5, a6, a7, a8, _⟩ := C97_observe h3 hu
  obtain ⟨_, b1, b2, b3, b4, b5, b6, b7, b8, _⟩ := C97_observe h3' hv
  exact ⟨by rw [← a1, b1], by rw [← a2, b2], by rw [← a3, b3], by rw [← a4, b4], by rw [← a5, b5], by rw [← a6, b6], by rw [← a7, b7],
    by rw [← a8, b8]⟩

/-! ## A concrete history -/

/-- Two groups with children are made beside the document. A handle of a child is kept while the group is dropped (the child loses its
parent and its previous sibling); then the child is moved, copied and written. -/
def releaseHistory : List Call :=
  [.createElement (.id .Svg), .append 0 1, .createElement (.id .G), .createElement (.id .Rect), .createElement (.id .Path),
   .createElement (.id .Line), .append 2 3, .append 2 4, .append 2 5, .removeNode 2, .append 2 3, .append 2 4, .append 2 5, .setId 4 st!"a",
   .release 2, .release 3, .append 1 5, .copyNodeDeep 4]

example : ((Picture.init true).run releaseHistory).shows (fun Q => !Q.live 2 && !Q.live 3 && Q.live 4 && Q.live 5 && Q.live 6 &&
      decide (Q.forest.par 4 = none) && decide (Q.forest.sibs 4 = [4]) && decide (Q.subtree 1 = [1, 5])) = true ∧
    ((Picture.init true).run (keepHandles releaseHistory)).shows (fun Q => Q.live 2 && Q.live 3 && Q.live 4 && Q.live 5 && Q.live 6 &&
      decide (Q.forest.par 4 = some 2) && decide (Q.forest.sibs 4 = [3, 4]) && decide (Q.subtree 1 = [1, 5])) = true := by
  constructor <;> decide +kernel

/-- Both programs: the parent and the previous sibling differ, and `root()` panics in the first one only. -/
example : ∃ u v, (St.init true).calls releaseHistory = .ok u ∧ (St.init true).calls (keepHandles releaseHistory) = .ok v ∧
    u.live 4 = true ∧ u.parent 4 = none ∧ v.parent 4 = some 2 ∧ u.prevSibling 4 = none ∧ v.prevSibling 4 = some 3 ∧
    u.root 4 = .error (.panic .unwrap) ∧ v.root 4 = .ok 2 ∧ ∀ W, u.writeDom W = v.writeDom W := by
  obtain ⟨Q, e, hQ⟩ := Result.shows_iff.1 (show ((Picture.init true).run releaseHistory).shows (fun Q => Q.live 4 && !Q.live 2 &&
    decide (Q.forest.par 4 = none) && decide (before (Q.forest.sibs 4) 4 = none) &&
    decide ((Extras.init.run (Picture.init true) releaseHistory).top 4 = some 2)) = true by decide +kernel)
  obtain ⟨R, e', hR⟩ := Result.shows_iff.1 (show ((Picture.init true).run (keepHandles releaseHistory)).shows (fun Q => Q.live 4 && Q.live 2 &&
    decide (Q.forest.par 4 = some 2) && decide (before (Q.forest.sibs 4) 4 = some 3) &&
    decide ((Extras.init.run (Picture.init true) (keepHandles releaseHistory)).top 4 = some 2)) = true by decide +kernel)
  simp only [Bool.and_eq_true, Bool.not_eq_true', decide_eq_true_eq] at hQ hR
  obtain ⟨⟨⟨⟨q1, q2⟩, q3⟩, q4⟩, q5⟩ := hQ
  obtain ⟨⟨⟨⟨r1, r2⟩, r3⟩, r4⟩, r5⟩ := hR
  obtain ⟨u, v, S, h1, h2, h3, h4⟩ := C97_history (Outlived.refl (.init true) (SafeReachable.init true).acyclic (abs_init true)
    (X := Extras.init) ⟨fun _ _ => rfl, fun _ _ => rfl⟩) releaseHistory e
  rw [e'] at h3
  cases h3
  have hu : u.live 4 = true := by rw [← h4.shows.live]; exact q1
  have hv : v.live 4 = true := by rw [← h4.shows'.live]; exact r1
  refine ⟨u, v, h1, h2, hu, ?_, ?_, ?_, ?_, ?_, ?_, C97_written h4⟩
  · rw [h4.shows.forest.shows.parent 4 hu, q3]
  · rw [h4.shows'.forest.shows.parent 4 hv, r3]
  · rw [h4.shows.forest.shows.prev 4 hu, q4]
  · rw [h4.shows'.forest.shows.prev 4 hv, r4]
  · rw [(C96_observe h4.shows h4.extras hu).1, Picture.rootOf, q5]; simp [q2]
  · rw [(C96_observe h4.shows' h4.extras' hv).1, Picture.rootOf, r5]; simp [r2]

end Svgdom
