import Verif.Props.Whole
import Verif.Proof.Users

/-!
# C96: with `root()` and the order of `linked_nodes()`, the machine is complete
-/

set_option autoImplicit false

namespace Svgdom

/-- C96: one call. The program follows the machine in everything: also in what `root()` remembers and in the order of
`linked_nodes()`. -/
theorem C96_step {s : St} {P Q : Picture} {X : Extras} (h : Reachable s) (ha : s.Acyclic) (hP : Abs s P) (hX : X.Of s) (c : Call)
    (hs : P.step c = .state Q) :
    ∃ t, c.run s = .ok t ∧ Reachable t ∧ t.Acyclic ∧ Abs t Q ∧ (X.step P Q c).Of t := by
  have hm := C93_step h ha hP c
  rw [hs] at hm
  obtain ⟨t, e, ht, hat, hQ⟩ := hm
  refine ⟨t, e, ht, hat, hQ, ?_⟩
  unfold Picture.step at hs
  split at hs
  case isFalse => simp at hs
  next hl =>
  rw [List.all_eq_true, hP.live] at hl
  have moved : ∀ {y r}, RootSet s t y r → Frame s t → (X.join y r).Of t := fun {y r} hr f =>
    ⟨fun j hj => by
      rw [f.live] at hj
      rw [hr j]
      simp only [Extras.join]
      split
      · rfl
      · exact hX.top j hj,
    fun j hj => by
      rw [f.live] at hj
      simp only [St.linkedNodes, f.data]
      exact hX.users j hj⟩
  have put : ∀ {i a}, s.live i = true → s.setAttributeChecked i a = .ok (t, none) → (X.put P i a).Of t := fun {i a} hi e => by
    rcases setChecked_cases h.inv hi e with ⟨_, hn, _⟩ | ⟨_, rfl, _⟩
    · simp at hn
    · exact hX.put h ha hP hi a
  have edited : t.links = s.links → t.live = s.live → (∀ j, t.linkedNodes j = s.linkedNodes j) → X.Of t := fun h1 h2 h3 =>
    ⟨fun j hj => by rw [h1]; exact hX.top j (by rwa [h2] at hj), fun j hj => by rw [h3]; exact hX.users j (by rwa [h2] at hj)⟩
  cases c with
  | createElement tag =>
    simp only [Call.run, Op.run] at e
    replace e := map_ok e
    obtain ⟨⟨t', n⟩, e, rfl⟩ := e
    unfold St.createElement at e
    split at e
    · simp at e
    obtain ⟨t2, key, e2, _, g, hd, _⟩ := newNode_grown h.inv (.fresh .element tag []) rfl rfl
    rw [e] at e2
    cases e2
    obtain ⟨w, _, hn⟩ := newNode_tops h.inv e
    refine hX.grow h ht hP hQ g (fun i hi a ha => ?_) (w.roots hn)
    rw [List.mem_singleton] at hi
    subst hi
    rw [St.attributes, hd] at ha
    simp [NodeData.fresh] at ha
  | createNode ty text =>
    simp only [Call.run, Op.run] at e
    replace e := map_ok e
    obtain ⟨⟨t', n⟩, e, rfl⟩ := e
    simp only [St.createNode, bind_ok] at e
    obtain ⟨_, _, e⟩ := e
    obtain ⟨t2, key, e2, _, g, hd, _⟩ := newNode_grown h.inv (.fresh ty (.name []) text) rfl rfl
    rw [e] at e2
    cases e2
    obtain ⟨w, _, hn⟩ := newNode_tops h.inv e
    refine hX.grow h ht hP hQ g (fun i hi a ha => ?_) (w.roots hn)
    rw [List.mem_singleton] at hi
    subst hi
    rw [St.attributes, hd] at ha
    simp [NodeData.fresh] at ha
  | copyNode i =>
    have hi := hl i (by simp [Call.mentions])
    simp only [Call.run, Op.run] at e
    replace e := map_ok e
    obtain ⟨⟨t', n⟩, e, rfl⟩ := e
    obtain ⟨w, hnn, hn⟩ := copyNode_tops h.inv h.nodesOk hi e
    have g := (copyNode_grown h.inv h.nodesOk hi e).2.2
    have hc : Q = P.add (Picture.copyOf (P.look i)) := by
      simp only [Picture.act] at hs
      split at hs
      · cases hs; rfl
      · simp at hs
    refine hX.grow h ht hP hQ g (fun j hj a ha m hm => ?_) (w.roots hn)
    have hjl : t'.live j = true := (g.live j).2 (.inr hj)
    rw [List.mem_singleton, hnn] at hj
    subst hj
    have hlook := hQ.look _ hjl
    rw [hc] at hlook
    simp only [Picture.add, hP.next, if_pos] at hlook
    have : a ∈ (P.look i).attrs := by
      have : a ∈ (t'.look s.nextId).attrs := ha
      rw [← hlook, Picture.copyOf] at this
      split at this
      · exact this
      · simp at this
    rw [hP.look i hi] at this
    exact h.inv.link.targets i hi a this m hm
  | copyNodeDeep i =>
    have hi := hl i (by simp [Call.mentions])
    simp only [Call.run, Op.run] at e
    replace e := map_ok e
    obtain ⟨⟨t', n⟩, e, rfl⟩ := e
    have w := copyNodeDeep_tops h.inv h.nodesOk hi e
    obtain ⟨l, _, g⟩ := copyNodeDeep_grown h.inv h.nodesOk hi e
    have hc : Q = P.copyDeep i := by
      simp only [Picture.act] at hs
      split at hs
      · cases hs; rfl
      · simp at hs
    refine hX.grow h ht hP hQ g (fun j hj a hat' m hm => ?_) w
    have hjl : t'.live j = true := (g.live j).2 (.inr hj)
    have hb := g.order ▸ hj
    rw [List.mem_range'_1] at hb
    have hlen : l.length = (P.subtree i).length := by
      have h1 := hQ.next
      rw [hc, g.next] at h1
      have : P.next + (P.subtree i).length = s.nextId + l.length := h1
      rw [hP.next] at this
      exact (Nat.add_left_cancel this).symm
    have hlt : j - P.next < (P.subtree i).length := by
      rw [hP.next, ← hlen]
      have key : ∀ a b c : Nat, a ≤ b → b < a + c → b - a < c := by intro a b c; omega
      exact key _ _ _ hb.1 hb.2
    have hlook := hQ.look _ hjl
    rw [hc] at hlook
    simp only [Picture.copyDeep, List.getElem?_eq_getElem hlt] at hlook
    rw [if_pos (by rw [hP.next]; exact hb.1)] at hlook
    obtain ⟨hol, _⟩ := (hP.mem_subtree h ha hi _).1 (List.getElem_mem hlt)
    have : a ∈ (P.look (P.subtree i)[j - P.next]).attrs := by
      have : a ∈ (t'.look j).attrs := hat'
      rw [← hlook, Picture.copyOf] at this
      split at this
      · exact this
      · simp at this
    rw [hP.look _ hol] at this
    exact h.inv.link.targets _ hol a this m hm
  | append p c =>
    have hp := hl p (by simp [Call.mentions])
    have hc := hl c (by simp [Call.mentions])
    have := moved (append_roots h.inv hp hc e).2 (h.inv.append hp hc e).2
    rw [← hX.top p hp] at this
    exact this
  | prepend p c =>
    have hp := hl p (by simp [Call.mentions])
    have hc := hl c (by simp [Call.mentions])
    have := moved (prepend_roots h.inv hp hc e).2 (h.inv.prepend hp hc e).2
    rw [← hX.top p hp] at this
    exact this
  | insertAfter x y =>
    have hx := hl x (by simp [Call.mentions])
    have hy := hl y (by simp [Call.mentions])
    have := moved (insertAfter_roots h.inv hx hy e).2 (h.inv.insertAfter hx hy e).2
    rw [← hX.top x hx] at this
    exact this
  | insertBefore x y =>
    have hx := hl x (by simp [Call.mentions])
    have hy := hl y (by simp [Call.mentions])
    have := moved (insertBefore_roots h.inv hx hy e).2 (h.inv.insertBefore hx hy e).2
    rw [← hX.top x hx] at this
    exact this
  | detach i =>
    have := detach_inv e
    subst this
    exact ⟨fun j hj => hX.top j hj, fun j hj => hX.users j hj⟩
  | setText i x =>
    simp only [Call.run, Op.run, St.setText, bind_ok, pure_ok] at e
    obtain ⟨_, _, rfl⟩ := e
    refine edited rfl rfl fun j => ?_
    simp only [St.linkedNodes, St.setD, upd]
    split <;> simp_all
  | setId i x =>
    simp only [Call.run, Op.run, St.setId, bind_ok, pure_ok] at e
    obtain ⟨_, _, rfl⟩ := e
    refine edited rfl rfl fun j => ?_
    simp only [St.linkedNodes, St.setD, upd]
    split <;> simp_all
  | setTagName i x =>
    simp only [Call.run, Op.run, St.setTagName, bind_ok] at e
    obtain ⟨_, _, e⟩ := e
    split at e
    · simp [throw, throwThe, MonadExceptOf.throw, bind, Except.bind] at e
    simp only [pure, Except.pure, Except.ok.injEq] at e
    subst e
    refine edited rfl rfl fun j => ?_
    simp only [St.linkedNodes, St.setD, upd]
    split <;> simp_all
  | setAttribute i a =>
    exact put (hl i (by simp [Call.mentions])) (setAttribute_checked e)
  | setAttributeChecked i a =>
    have hi := hl i (by simp [Call.mentions])
    simp only [Call.run, Op.run] at e
    replace e := map_ok e
    obtain ⟨⟨t', r⟩, e, rfl⟩ := e
    obtain ⟨h1, h2, h3⟩ := checked_cases hP h hi fun n hn => hl n (List.mem_cons_of_mem _ hn)
    simp only [Extras.step]
    cases hn : P.noElement i with
    | true => rw [h1 hn] at e; simp at e
    | false =>
      cases hr : P.refuses i a.value with
      | true =>
        obtain ⟨er, he⟩ := h2 hn hr
        rw [he] at e
        cases e
        rw [if_pos rfl]
        exact hX
      | false =>
        obtain ⟨t2, he, _⟩ := h3 hn hr
        rw [he] at e
        cases e
        rw [if_neg (by simp)]
        exact put hi he
  | setAttributeIfNone i a =>
    have hi := hl i (by simp [Call.mentions])
    obtain ⟨h1, h2⟩ := C14_cases s i a
    simp only [Extras.step]
    rw [hP.look i hi]
    by_cases hc : ((s.look i).attrs.any fun b => decide (b.name = a.name)) = true
    · rw [if_pos hc]
      simp only [St.look, List.any_eq_true, decide_eq_true_eq] at hc
      have e' : s.setAttributeIfNone i a = .ok t := e
      rw [h1 hc] at e'
      cases e'
      exact hX
    · rw [if_neg hc]
      simp only [St.look, List.any_eq_true, decide_eq_true_eq, not_exists, not_and] at hc
      have e' : s.setAttributeIfNone i a = .ok t := e
      rw [h2 hc] at e'
      exact put hi (setAttribute_checked e')
  | removeAttribute i name =>
    have hi := hl i (by simp [Call.mentions])
    have e' : s.removeAttribute i name = .ok t := e
    rw [St.removeAttribute_ok h.inv.link hi] at e'
    cases e'
    exact hX.less h ht hQ rfl less_delAttr
  | removeNode i =>
    have hi := hl i (by simp [Call.mentions])
    simp only [Picture.act, Result.state.injEq] at hs
    refine hX.less h ht hQ ?_ (less_removeNode h.inv hi e)
    rw [← hQ.live, ← hP.live, ← hs]
    rfl
  | drain i f =>
    have hi := hl i (by simp [Call.mentions])
    simp only [Call.run, Op.run] at e
    replace e := map_ok e
    obtain ⟨⟨t', k⟩, e, rfl⟩ := e
    simp only [Picture.act, Result.state.injEq] at hs
    refine hX.less h ht hQ ?_ (less_drain _ _ _ _ _ _ h.inv ?_ e)
    · rw [← hQ.live, ← hP.live, ← hs]
      rfl
    · intro n hn
      exact h.inv.firstChild_live hi hn
  | editText i x =>
    cases e
    refine edited rfl rfl fun j => ?_
    simp only [St.linkedNodes, St.editText, St.setD, upd]
    split <;> simp_all
  | editAttribute i name a =>
    cases e
    refine edited rfl rfl fun j => ?_
    simp only [St.linkedNodes, St.editAttribute, St.setD, upd]
    split <;> simp_all
  | release i =>
    simp only [Call.run, Except.ok.injEq] at e
    split at e
    · subst e; exact hX
    · subst e
      have : ∀ j, (s.free i).live j = true → s.live j = true := fun j hj => by
        simp only [St.free] at hj; split at hj <;> simp_all
      exact ⟨fun j hj => hX.top j (this j hj), fun j hj => hX.users j (this j hj)⟩

/-- C96: a whole history of calls, from any state. -/
theorem C96_history {s : St} {P Q : Picture} {X : Extras} (h : Reachable s) (ha : s.Acyclic) (hP : Abs s P) (hX : X.Of s)
    (cs : List Call) (hs : P.run cs = .state Q) :
    ∃ t, s.calls cs = .ok t ∧ Reachable t ∧ t.Acyclic ∧ Abs t Q ∧ (X.run P cs).Of t := by
  induction cs generalizing s P X with
  | nil =>
    simp only [Picture.run, Result.state.injEq] at hs
    subst hs
    exact ⟨s, rfl, h, ha, hP, hX⟩
  | cons c cs ih =>
    simp only [Picture.run] at hs
    cases hc : P.step c with
    | state R =>
      rw [hc] at hs
      obtain ⟨t, e, h', ha', hR, hY⟩ := C96_step h ha hP hX c hc
      obtain ⟨u, eu, hu⟩ := ih h' ha' hR hY hs
      refine ⟨u, by rw [St.calls, e]; exact eu, ?_⟩
      rw [Extras.run, hc]
      exact hu
    | panics => rw [hc] at hs; simp at hs
    | misuse => rw [hc] at hs; simp at hs

/-- C96: every history of calls on a new document. -/
theorem C96_run {debug : Bool} {cs : List Call} {Q : Picture} (hs : (Picture.init debug).run cs = .state Q) :
    ∃ t, (St.init debug).calls cs = .ok t ∧ Reachable t ∧ t.Acyclic ∧ Abs t Q ∧ (Extras.init.run (Picture.init debug) cs).Of t :=
  C96_history (.init debug) (SafeReachable.init debug).acyclic (abs_init debug) ⟨fun _ _ => rfl, fun _ _ => rfl⟩ cs hs

/-- C96: what `root()`, `linked_nodes()`, `uses_count()` and `is_used()` return; the first one may panic. -/
theorem C96_observe {s : St} {P : Picture} {X : Extras} (hP : Abs s P) (hX : X.Of s) {i : NodeId} (hi : s.live i = true) :
    s.root i = P.rootOf X i ∧ s.linkedNodes i = X.users i ∧ s.usesCount i = (X.users i).length ∧
    (s.isUsed i = true ↔ X.users i ≠ []) := by
  refine ⟨?_, (hX.users i hi).symm, ?_, ?_⟩
  · simp only [St.root, Picture.rootOf, hX.top i hi, hP.live]
    cases (s.links i).root with
    | none => rfl
    | some r =>
      simp only [St.upgrade]
      cases s.live r <;> simp
  · rw [hX.users i hi]; rfl
  · rw [hX.users i hi, St.isUsed]
    cases s.linkedNodes i <;> simp

/-- C96: two states with the same picture and the same extras cannot be told apart, whatever is called. -/
theorem C96_same {s t : St} {P : Picture} {X : Extras} (h : Reachable s) (ha : s.Acyclic) (hP : Abs s P) (hX : X.Of s)
    (h' : Reachable t) (ha' : t.Acyclic) (hP' : Abs t P) (hX' : X.Of t) (cs : List Call) {Q : Picture} (hs : P.run cs = .state Q) :
    ∃ u v, s.calls cs = .ok u ∧ t.calls cs = .ok v ∧ u.live = v.live ∧ (∀ W, u.writeDom W = v.writeDom W) ∧
      (∀ c R, Q.step c = .state R → c.ask u = c.ask v) ∧
      ∀ i, u.live i = true → u.look i = v.look i ∧ u.isDetached i = v.isDetached i ∧ u.parent i = v.parent i ∧
        u.firstChild i = v.firstChild i ∧ u.lastChild i = v.lastChild i ∧ u.nextSibling i = v.nextSibling i ∧
        u.prevSibling i = v.prevSibling i ∧ u.childList i = v.childList i ∧ u.descendantList i = v.descendantList i ∧
        u.root i = v.root i ∧ u.linkedNodes i = v.linkedNodes i := by
  obtain ⟨u, eu, hu, hau, hQ, hY⟩ := C96_history h ha hP hX cs hs
  obtain ⟨v, ev, hv, hav, hQ', hY'⟩ := C96_history h' ha' hP' hX' cs hs
  refine ⟨u, v, eu, ev, by rw [← hQ.live, ← hQ'.live], C93_written hu hau hQ hv hav hQ', fun c R hc => ?_, fun i hi => ?_⟩
  · rw [C93_answer hu hau hQ c hc, C93_answer hv hav hQ' c hc]
  · have hi' : v.live i = true := by rw [← hQ'.live, hQ.live]; exact hi
    obtain ⟨a1, a2, a3, a4, a5, a6, a7, a8, a9, a10, a11, a12, a13, _⟩ := C93_observe hu hau hQ hi
    obtain ⟨b1, b2, b3, b4, b5, b6, b7, b8, b9, b10, b11, b12, b13, _⟩ := C93_observe hv hav hQ' hi'
    obtain ⟨c1, c2, _⟩ := C96_observe hQ hY hi
    obtain ⟨d1, d2, _⟩ := C96_observe hQ' hY' hi'
    exact ⟨by rw [← hQ.look i hi, ← hQ'.look i hi'], by rw [a6, b6], by rw [a7, b7], by rw [a8, b8], by rw [a9, b9],
      by rw [a10, b10], by rw [a11, b11], by rw [a12, b12], by rw [a13, b13], by rw [c1, d1], by rw [c2, d2]⟩

/-- C96: a parsed document. The references are settled in document order, and each one makes its node the last user of its target. -/
theorem C96_parsed {L : Lib} {debug : Bool} {x : Xml} {t : St} (e : parseSvg L debug x = .ok t) : (parsedExtras L x).Of t := by
  obtain ⟨_, p, T, G, s2, s3, u, f, hp⟩ := parse_ok e
  exact parsed_of f hp

/-- C96: load and edit. After parsing and any calls, all that can be observed is known from the XML tree and the calls. -/
theorem C96_calls {L : Lib} {debug : Bool} {x : Xml} {t : St} (e : parseSvg L debug x = .ok t) {cs : List Call} {Q : Picture}
    (hs : (parsedPicture L debug x).run cs = .state Q) :
    ∃ u, t.calls cs = .ok u ∧ Reachable u ∧ u.Acyclic ∧ Abs u Q ∧ ((parsedExtras L x).run (parsedPicture L debug x) cs).Of u :=
  C96_history (C44_reachable e).1.reachable (C44_tree e).2 (C95_machine e) (C96_parsed e) cs hs

/-! ## Concrete histories -/

/-- Two gradients; the rectangles 5 and 6 refer to the first one, 5 twice. -/
def usersHistory : List Call :=
  [.createElement (.id .Svg), .append 0 1, .createElement (.id .LinearGradient), .append 1 2, .setId 2 st!"a",
   .createElement (.id .LinearGradient), .append 1 3, .setId 3 st!"b", .createElement (.id .G), .append 1 4,
   .createElement (.id .Rect), .append 4 5, .createElement (.id .Rect), .append 4 6,
   .setAttribute 5 ⟨.id .Fill, .funcLink 2⟩, .setAttribute 6 ⟨.id .Fill, .funcLink 2⟩, .setAttribute 5 ⟨.id .Stroke, .funcLink 2⟩]

/-- The order of the users. A value that is set again moves to the end, but it is the first place of the node that goes; a copy comes
last, and a removed subtree goes. -/
example : ((Picture.init true).run usersHistory).shows (fun Q =>
    let X := Extras.init.run (Picture.init true) usersHistory
    decide (X.users 2 = [5, 6, 5]) &&
    decide ((X.run Q [.setAttribute 5 ⟨.id .Stroke, .funcLink 2⟩]).users 2 = [6, 5, 5]) &&
    decide ((X.run Q [.removeAttribute 5 (.id .Stroke)]).users 2 = [6, 5]) &&
    decide ((X.run Q [.setAttribute 6 ⟨.id .Fill, .funcLink 3⟩]).users 2 = [5, 5]) &&
    decide ((X.run Q [.setAttribute 6 ⟨.id .Fill, .funcLink 3⟩]).users 3 = [6]) &&
    decide ((X.run Q [.copyNodeDeep 4]).users 2 = [5, 6, 5, 8, 8, 9]) &&
    decide ((X.run Q [.copyNodeDeep 4, .removeNode 5]).users 2 = [6, 8, 8, 9]) &&
    decide ((X.run Q [.copyNodeDeep 4, .drain 1 fun _ tag _ _ => decide (tag = .id .G)]).users 2 = [8, 8, 9])) = true := by
  decide +kernel

/-- The remembered roots. Nodes that were put together before they came into the document remember the wrong one; after the removal of
that node `root()` panics as soon as the last handle is gone. -/
example : ((Picture.init true).run (usersHistory ++ [.createElement (.id .G), .createElement (.id .Rect), .append 7 8])).shows (fun Q =>
    let X := Extras.init.run (Picture.init true) (usersHistory ++ [.createElement (.id .G), .createElement (.id .Rect), .append 7 8])
    let cs := [Call.append 1 7, .copyNodeDeep 4, .detach 8, .removeNode 7, .release 7]
    decide (X.top 5 = some 0) && decide (X.top 8 = some 7) && decide (X.top 7 = none) &&
    (Q.run cs).shows fun R =>
      let Y := X.run Q cs
      decide (Y.top 7 = some 0) && decide (Y.top 8 = some 7) && decide (Y.top 9 = none) && decide (Y.top 11 = some 9) &&
      !R.live 7 && R.live 8 &&
      (match R.rootOf Y 8 with | .error (.panic .unwrap) => true | _ => false) &&
      (match R.rootOf Y 6 with | .ok r => r == 0 | _ => false)) = true := by
  decide +kernel

/-- The program after the first history. -/
example : ∃ s, (St.init true).calls usersHistory = .ok s ∧ Reachable s ∧ s.live 2 = true ∧ s.linkedNodes 2 = [5, 6, 5] ∧
    s.root 5 = .ok 0 := by
  obtain ⟨Q, e, hQ⟩ := Result.shows_iff.1 (show ((Picture.init true).run usersHistory).shows (fun Q =>
    Q.live 2 && Q.live 5 && (match Q.rootOf (Extras.init.run (Picture.init true) usersHistory) 5 with | .ok r => r == 0 | _ => false) &&
    decide ((Extras.init.run (Picture.init true) usersHistory).users 2 = [5, 6, 5])) = true by decide +kernel)
  simp only [Bool.and_eq_true, decide_eq_true_eq] at hQ
  obtain ⟨⟨⟨h1, h2⟩, h3⟩, h4⟩ := hQ
  obtain ⟨s, es, h, ha, hP, hX⟩ := C96_run e
  rw [hP.live] at h1 h2
  refine ⟨s, es, h, h1, (C96_observe hP hX h1).2.1.trans h4, (C96_observe hP hX h2).1.trans ?_⟩
  split at h3
  · next r hr => rw [hr, beq_iff_eq.1 h3]
  · simp at h3

/-- Parsed documents, and a parsed document that is edited. -/
example : (parsedExtras sampleLib docXml).users 5 = [6] ∧ (parsedExtras sampleLib docXml).users 6 = [8] ∧
    (parsedExtras sampleLib docXml).top 8 = some 0 ∧ (parsedExtras sampleLib styleRefXml).users 2 = [4] := by decide +kernel

example : ∃ t u, parseSvg sampleLib true docXml = .ok t ∧
    t.calls [.createElement (.id .G), .append 2 12, .setAttribute 12 ⟨.id .Fill, .funcLink 5⟩, .removeNode 8] = .ok u ∧
    u.linkedNodes 5 = [6, 12] ∧ u.linkedNodes 6 = [] ∧ u.root 12 = .ok 0 := by
  obtain ⟨t, e⟩ := (C31_svg sampleLib true docXml).2 (by decide +kernel)
  obtain ⟨Q, eQ, hQ⟩ := Result.shows_iff.1 (show ((parsedPicture sampleLib true docXml).run
      [.createElement (.id .G), .append 2 12, .setAttribute 12 ⟨.id .Fill, .funcLink 5⟩, .removeNode 8]).shows (fun Q =>
    let X := (parsedExtras sampleLib docXml).run (parsedPicture sampleLib true docXml)
      [.createElement (.id .G), .append 2 12, .setAttribute 12 ⟨.id .Fill, .funcLink 5⟩, .removeNode 8]
    Q.live 5 && Q.live 6 && Q.live 12 && (match Q.rootOf X 12 with | .ok r => r == 0 | _ => false) &&
    decide (X.users 5 = [6, 12]) && decide (X.users 6 = [])) = true by decide +kernel)
  simp only [Bool.and_eq_true, decide_eq_true_eq] at hQ
  obtain ⟨⟨⟨⟨⟨h1, h2⟩, h3⟩, h4⟩, h5⟩, h6⟩ := hQ
  obtain ⟨u, eu, _, _, hP, hX⟩ := C96_calls e eQ
  rw [hP.live] at h1 h2 h3
  refine ⟨t, u, e, eu, (C96_observe hP hX h1).2.1.trans h5, (C96_observe hP hX h2).2.1.trans h6, (C96_observe hP hX h3).1.trans ?_⟩
  split at h4
  · next r hr => rw [hr, beq_iff_eq.1 h4]
  · simp at h4

end Svgdom
