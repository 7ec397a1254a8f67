import Verif.Proof.PictureWritten
import Verif.Spec.Cases

/-!
# C93: the program behaves like a plain machine on ordered forests
-/

set_option autoImplicit false

namespace Svgdom

/-- C93: one call. Whatever the machine of `Spec/Picture.lean` does with the picture of a state, the program does with the state:
it returns a state that shows the new picture, or it panics. It never loops forever. -/
theorem C93_step {s : St} {P : Picture} (h : Reachable s) (ha : s.Acyclic) (hP : Abs s P) (c : Call) :
    Mirrors (c.run s) (P.step c) := by
  unfold Picture.step
  by_cases hm : c.mentions.all P.live = true
  case neg => rw [if_neg hm]; trivial
  rw [if_pos hm]
  rw [List.all_eq_true, hP.live] at hm
  cases c with
  | createElement tag => exact mirrors_createElement h ha hP tag
  | createNode ty text => exact mirrors_createNode h ha hP ty text
  | append p c => exact mirrors_append h ha hP (hm p (by simp [Call.mentions])) (hm c (by simp [Call.mentions]))
  | prepend p c => exact mirrors_prepend h ha hP (hm p (by simp [Call.mentions])) (hm c (by simp [Call.mentions]))
  | insertAfter x y => exact mirrors_insertAfter h ha hP (hm x (by simp [Call.mentions])) (hm y (by simp [Call.mentions]))
  | insertBefore x y => exact mirrors_insertBefore h ha hP (hm x (by simp [Call.mentions])) (hm y (by simp [Call.mentions]))
  | detach i => exact mirrors_detach h ha hP (hm i (by simp [Call.mentions]))
  | setText i t => exact mirrors_setText h ha hP (hm i (by simp [Call.mentions])) t
  | setId i id => exact mirrors_setId h ha hP (hm i (by simp [Call.mentions])) id
  | setTagName i t => exact mirrors_setTagName h ha hP (hm i (by simp [Call.mentions])) t
  | setAttribute i a =>
    exact mirrors_set h ha hP (hm i (by simp [Call.mentions])) fun n hn => hm n (List.mem_cons_of_mem _ hn)
  | setAttributeChecked i a =>
    exact mirrors_checked h ha hP (hm i (by simp [Call.mentions])) fun n hn => hm n (List.mem_cons_of_mem _ hn)
  | setAttributeIfNone i a =>
    exact mirrors_ifNone h ha hP (hm i (by simp [Call.mentions])) fun n hn => hm n (List.mem_cons_of_mem _ hn)
  | removeAttribute i name => exact mirrors_removeAttribute h ha hP (hm i (by simp [Call.mentions])) name
  | removeNode i => exact mirrors_removeNode h ha hP (hm i (by simp [Call.mentions]))
  | drain i f => exact mirrors_drain h ha hP (hm i (by simp [Call.mentions])) f
  | copyNode i => exact mirrors_copyNode h ha hP (hm i (by simp [Call.mentions]))
  | copyNodeDeep i => exact mirrors_copyDeep h ha hP (hm i (by simp [Call.mentions]))
  | editText i t => exact mirrors_editText h ha hP (hm i (by simp [Call.mentions])) t
  | editAttribute i name a => exact mirrors_editAttribute h ha hP (hm i (by simp [Call.mentions])) name a
  | release i =>
    have hi := hm i (by simp [Call.mentions])
    refine ⟨_, rfl, ?_⟩
    simp only [Picture.release]
    by_cases hr : s.strongRef i
    · rw [if_pos hr, if_pos ((hP.held_iff h hi).2 hr)]
      exact ⟨h, ha, hP⟩
    · rw [if_neg hr, if_neg fun hh => hr ((hP.held_iff h hi).1 hh)]
      refine ⟨.free i h hi hr, ?_, hP.free h hi hr⟩
      refine acyclic_sub ha ?_ ?_
      · intro j hj
        simp only [St.free] at hj
        split at hj <;> simp_all
      · intro j p _ hp
        simp only [St.parent, St.upgrade, St.free] at hp ⊢
        cases hl : (s.links j).parent with
        | none => rw [hl] at hp; simp at hp
        | some q =>
          rw [hl] at hp
          by_cases e : q = i
          · simp [e] at hp
          · simpa [e] using hp

/-- C93: what a call that returns gives back: the new node, how many nodes it removed, or why it refused. -/
theorem C93_answer {s : St} {P Q : Picture} (h : Reachable s) (ha : s.Acyclic) (hP : Abs s P) (c : Call) (hs : P.step c = .state Q) :
    c.ask s = .ok (P.answer c) := by
  unfold Picture.step at hs
  split at hs
  case isFalse => simp at hs
  next hm =>
  rw [List.all_eq_true, hP.live] at hm
  cases c with
  | createElement tag =>
    simp only [Picture.act] at hs
    split at hs
    · simp at hs
    · next e =>
      obtain ⟨t, key, e1, _⟩ := newNode_grown h.inv (.fresh .element tag []) rfl rfl
      simp [Call.ask, Picture.answer, St.createElement, e, e1, Except.map, hP.next]
  | createNode ty text =>
    simp only [Picture.act] at hs
    split at hs
    · simp at hs
    · next e =>
      obtain ⟨t, key, e1, _⟩ := newNode_grown h.inv (.fresh ty (.name []) text) rfl rfl
      push Not at e
      simp [Call.ask, Picture.answer, St.createNode, e, e1, Except.map, hP.next, assertOrPanic, bind, Except.bind]
  | copyNode i =>
    have hi := hm i (by simp [Call.mentions])
    simp only [Picture.act] at hs
    split at hs
    · next hc =>
      obtain ⟨t, e, _⟩ := (copyNode_spec h.inv h.nodesOk hi).1 ((hP.copyable_iff h hi).1 hc)
      simp [Call.ask, Picture.answer, e, Except.map, hP.next]
    · simp at hs
  | copyNodeDeep i =>
    simp only [Picture.act] at hs
    split at hs
    · next hc => exact ask_deep h ha hP (hm i (by simp [Call.mentions])) hc
    · simp at hs
  | drain i f => exact ask_drain h ha hP (hm i (by simp [Call.mentions])) f
  | setAttributeChecked i a =>
    simp only [Picture.act] at hs
    split at hs
    · simp at hs
    · next hn => exact ask_checked h hP (hm i (by simp [Call.mentions])) (fun n hn => hm n (List.mem_cons_of_mem _ hn)) hn
  | _ => rfl

/-- C93: a whole history of calls, from any state. -/
theorem C93_history {s : St} {P : Picture} (h : Reachable s) (ha : s.Acyclic) (hP : Abs s P) (cs : List Call) :
    Mirrors (s.calls cs) (P.run cs) := by
  induction cs generalizing s P with
  | nil => exact ⟨s, rfl, h, ha, hP⟩
  | cons c cs ih =>
    have hs := C93_step h ha hP c
    simp only [St.calls, Picture.run]
    cases hc : P.step c with
    | state Q =>
      rw [hc] at hs
      obtain ⟨t, e, h', ha', hQ⟩ := hs
      rw [e]
      exact ih h' ha' hQ
    | panics =>
      rw [hc] at hs
      obtain ⟨p, e⟩ := hs
      exact ⟨p, by rw [e]; rfl⟩
    | misuse => trivial

theorem abs_init (debug : Bool) : Abs (St.init debug) (Picture.init debug) where
  live := rfl
  next := rfl
  root := rfl
  debug := rfl
  forest := by
    constructor
    · constructor <;> simp [Picture.init]
    · constructor <;> simp [Picture.init, St.init, St.parent, St.nextSibling, St.prevSibling, St.firstChild, St.lastChild,
        St.upgrade, after, before]
  look := fun i hi => rfl
  stored := fun i hi => by
    have : i = 0 := by simpa [St.init] using hi
    subst this
    rfl

/-- C93: every history of calls on a new document, in release and in debug builds. -/
theorem C93_run (debug : Bool) (cs : List Call) : Mirrors ((St.init debug).calls cs) ((Picture.init debug).run cs) :=
  C93_history (.init debug) (SafeReachable.init debug).acyclic (abs_init debug) cs

/-- C93: what the getters and iterators return is read off the picture. -/
theorem C93_observe {s : St} {P : Picture} (h : Reachable s) (ha : s.Acyclic) (hP : Abs s P) {i : NodeId} (hi : s.live i = true) :
    s.nodeType i = (P.look i).type ∧ s.tagName i = (P.look i).tag ∧ s.idOf i = (P.look i).id ∧
    s.attributes i = (P.look i).attrs ∧ s.text i = (P.look i).text ∧ s.isDetached i = !P.stored i ∧
    s.parent i = P.forest.par i ∧ s.firstChild i = (P.forest.kids i).head? ∧ s.lastChild i = (P.forest.kids i).getLast? ∧
    s.nextSibling i = after (P.forest.sibs i) i ∧ s.prevSibling i = before (P.forest.sibs i) i ∧
    s.childList i = .ok (P.forest.kids i) ∧ s.descendantList i = .ok (P.subtree i) ∧
    (∀ j, s.live j = true → (s.linkedNodes i).count j = refCount (P.look j).attrs i) ∧
    ∀ j ∈ s.linkedNodes i, P.live j = true := by
  have hl := hP.look i hi
  obtain ⟨T, hT, _, _, hd⟩ := C07_traverse h ha hP.forest hi
  obtain ⟨T', hT', hs, _⟩ := hP.tree h ha hi
  have := hT.unique hT'
  subst this
  refine ⟨by rw [hl]; rfl, by rw [hl]; rfl, by rw [hl]; rfl, by rw [hl]; rfl, by rw [hl]; rfl, ?_, hP.forest.shows.parent i hi,
    hP.forest.shows.first i hi, hP.forest.shows.last i hi, hP.forest.shows.next i hi, hP.forest.shows.prev i hi,
    C06_loop h hP.forest hi, by rw [hs]; exact hd, fun j hj => ?_, fun j hj => ?_⟩
  · rw [hP.stored i hi, Bool.not_not]
  · rw [C16_count h hj hi, hP.look j hj]; rfl
  · rw [hP.live]; exact h.inv.link.back i hi j hj

/-- C93: every reachable state shows a picture, and only one. -/
theorem C93_picture {s : St} (h : Reachable s) : (∃ P, Abs s P) ∧ ∀ P Q, Abs s P → Abs s Q →
    P.live = Q.live ∧ P.next = Q.next ∧ P.root = Q.root ∧ P.debug = Q.debug ∧ ∀ i, P.live i = true →
      P.look i = Q.look i ∧ P.stored i = Q.stored i ∧ P.forest.kids i = Q.forest.kids i ∧
      P.forest.sibs i = Q.forest.sibs i ∧ P.forest.par i = Q.forest.par i := by
  constructor
  · obtain ⟨F, hF⟩ := C01_forest h
    exact ⟨⟨s.live, s.nextId, s.rootId, s.debug, F, s.look, fun i => !s.isDetached i⟩,
      ⟨rfl, rfl, rfl, rfl, hF, fun _ _ => rfl, fun _ _ => rfl⟩⟩
  · intro P Q hP hQ
    refine ⟨by rw [hP.live, hQ.live], by rw [hP.next, hQ.next], by rw [hP.root, hQ.root], by rw [hP.debug, hQ.debug], ?_⟩
    intro i hi
    rw [hP.live] at hi
    obtain ⟨h1, h2, h3⟩ := C01_forest_unique hP.forest hQ.forest hi
    exact ⟨by rw [hP.look i hi, hQ.look i hi], by rw [hP.stored i hi, hQ.stored i hi], h1, h2, h3⟩

/-- C93: what is written depends on the picture only. -/
theorem C93_written {s t : St} {P : Picture} (h : Reachable s) (ha : s.Acyclic) (hP : Abs s P)
    (h' : Reachable t) (ha' : t.Acyclic) (hP' : Abs t P) (W : ValueWriter) : s.writeDom W = t.writeDom W :=
  ((alike h ha hP h' ha' hP').dom W).symm

/-! ## Concrete histories -/

/-- The machine's last picture satisfies `p`. -/
def Result.shows (r : Result) (p : Picture → Bool) : Bool :=
  match r with
  | .state Q => p Q
  | _ => false

theorem Result.shows_iff {r : Result} {p : Picture → Bool} : r.shows p = true ↔ ∃ Q, r = .state Q ∧ p Q = true := by
  unfold Result.shows
  split <;> simp_all

/-- An `svg` with a gradient that has an id, a `g` with a text, a rectangle filled with the gradient; the `g` with all of it is
copied, the copy is appended, a comment is added in front and the gradient is moved to the end. -/
def pictureHistory : List Call :=
  [.createElement (.id .Svg), .append 0 1, .createElement (.id .LinearGradient), .append 1 2, .setId 2 st!"lg",
   .createElement (.id .G), .append 1 3, .createNode .text st!"hi", .append 3 4, .createElement (.id .Rect), .prepend 3 5,
   .setAttribute 5 ⟨.id .Fill, .funcLink 2⟩, .setAttribute 5 ⟨.id .X, .string st!"1"⟩, .copyNodeDeep 3, .append 1 6,
   .createNode .comment st!"c", .insertBefore 1 9, .insertAfter 6 2]

example : ((Picture.init true).run pictureHistory).shows (fun Q =>
    decide (Q.subtree 0 = [0, 9, 1, 3, 5, 4, 6, 7, 8, 2]) && decide ((Q.look 7).attrs = (Q.look 5).attrs) &&
    decide ((Q.look 5).attrs.map (·.value) = [.paint 2 none, .string st!"1"]) && decide ((Q.look 8).text = st!"hi") &&
    decide (Q.forest.par 7 = some 6)) = true := by
  decide +kernel

/-- Removing the gradient removes the references from both rectangles; the removed node goes away with its last handle. -/
example : ((Picture.init true).run (pictureHistory ++ [.removeNode 2, .release 2])).shows (fun Q =>
    decide (Q.subtree 0 = [0, 9, 1, 3, 5, 4, 6, 7, 8]) && decide (((Q.look 7).attrs.map (·.value)) = [.string st!"1"]) &&
    decide (((Q.look 5).attrs.map (·.value)) = [.string st!"1"]) && !Q.live 2 && Q.live 7) = true := by
  decide +kernel

/-- Draining the texts; a stored node stays when its handles are dropped. -/
example : ((Picture.init true).run (pictureHistory ++ [.drain 0 (fun ty _ _ _ => decide (ty = .text)), .release 4, .release 5])).shows
    (fun Q => decide (Q.subtree 0 = [0, 9, 1, 3, 5, 6, 7, 2]) && !Q.live 4 && Q.live 5) = true := by
  decide +kernel

/-- What the calls return: the drain of groups removes the outer two of three groups with a rectangle each; a reference that would
close a circle is refused. -/
example : ((Picture.init true).run (pictureHistory ++ [.createElement (.id .G), .append 3 10, .setId 5 st!"r"])).shows (fun Q =>
    decide (Q.answer (.drain 0 fun _ tag _ _ => decide (tag = .id .G)) = .count 2) &&
    decide (Q.answer (.copyNodeDeep 3) = .node 11) &&
    decide (Q.answer (.setAttributeChecked 2 ⟨.id .Href, .link 5⟩) = .error .elementCrosslink) &&
    decide (Q.answer (.setAttributeChecked 2 ⟨.id .Href, .link 7⟩) = .error .elementMustHaveAnId)) = true := by
  decide +kernel

/-- Assignments: the fallback of a paint, another value under another name. A new reference is not among them. -/
example : ((Picture.init true).run (pictureHistory ++ [.editAttribute 5 (.id .Fill) ⟨.id .Fill, .paint 2 (some .none)⟩,
    .editAttribute 5 (.id .X) ⟨.id .Y, .string st!"2"⟩, .editText 4 st!"ho"])).shows (fun Q =>
    decide ((Q.look 5).attrs = [⟨.id .Fill, .paint 2 (some .none)⟩, ⟨.id .Y, .string st!"2"⟩]) && decide ((Q.look 4).text = st!"ho") &&
    !Q.replaces 5 (.id .Y) ⟨.id .Y, .link 2⟩ && !Q.replaces 5 (.id .Y) ⟨.id .Fill, .string st!"2"⟩) = true := by
  decide +kernel

/-- Histories that end with a panic: moving a node next to its own neighbour, a reference to a node without an id, and a copy of a
node whose target has lost its id. -/
example : (∃ p, (St.init true).calls (pictureHistory ++ [.insertAfter 3 5, .insertAfter 3 6]) = .error (.panic p)) ∧
    (∃ p, (St.init true).calls (pictureHistory ++ [.setAttribute 7 ⟨.id .Href, .link 5⟩]) = .error (.panic p)) ∧
    (∃ p, (St.init true).calls (pictureHistory ++ [.setId 2 [], .copyNodeDeep 3]) = .error (.panic p)) := by
  have key : ∀ cs, (match (Picture.init true).run cs with | .panics => true | _ => false) = true →
      ∃ p, (St.init true).calls cs = .error (.panic p) := by
    intro cs hc
    have := C93_run true cs
    cases hr : (Picture.init true).run cs with
    | panics => rw [hr] at this; exact this
    | state Q => rw [hr] at hc; simp at hc
    | misuse => rw [hr] at hc; simp at hc
  exact ⟨key _ (by decide +kernel), key _ (by decide +kernel), key _ (by decide +kernel)⟩

/-- The program after the same history. -/
example : ∃ s Q, (St.init true).calls pictureHistory = .ok s ∧ Reachable s ∧ s.Acyclic ∧ Abs s Q ∧ s.live 0 = true ∧
    s.descendantList 0 = .ok [0, 9, 1, 3, 5, 4, 6, 7, 8, 2] := by
  obtain ⟨Q, e, hQ⟩ := Result.shows_iff.1 (show ((Picture.init true).run pictureHistory).shows (fun Q =>
    decide (Q.subtree 0 = [0, 9, 1, 3, 5, 4, 6, 7, 8, 2]) && Q.live 0) = true by decide +kernel)
  simp only [Bool.and_eq_true, decide_eq_true_eq] at hQ
  have hm := C93_run true pictureHistory
  rw [e] at hm
  obtain ⟨s, es, h, ha, hP⟩ := hm
  have hl : s.live 0 = true := by rw [← hP.live]; exact hQ.2
  refine ⟨s, Q, es, h, ha, hP, hl, ?_⟩
  rw [← hQ.1]
  exact (C93_observe h ha hP hl).2.2.2.2.2.2.2.2.2.2.2.2.1

/-- Two ways to the same picture: dropping the handles of a stored node changes nothing. -/
example : ∃ s t P, (∃ cs ds, cs ≠ ds ∧ (St.init true).calls cs = .ok s ∧ (St.init true).calls ds = .ok t) ∧ Reachable s ∧ s.Acyclic ∧
    Abs s P ∧ Reachable t ∧ t.Acyclic ∧ Abs t P := by
  obtain ⟨Q, e, _⟩ := Result.shows_iff.1 (show ((Picture.init true).run pictureHistory).shows (fun _ => true) = true by decide +kernel)
  have hm := C93_run true pictureHistory
  rw [e] at hm
  obtain ⟨s, es, h, ha, hP⟩ := hm
  have ed : (Picture.init true).run (pictureHistory ++ [.release 5]) = .state Q := by
    have : ∀ (P : Picture) (cs ds : List Call) Q, P.run cs = .state Q → P.run (cs ++ ds) = Q.run ds := by
      intro P cs
      induction cs generalizing P with
      | nil => intro ds Q hQ; simp only [Picture.run, Result.state.injEq] at hQ; subst hQ; rfl
      | cons c cs ih =>
        intro ds Q hQ
        simp only [Picture.run, List.cons_append] at hQ ⊢
        cases hc : P.step c with
        | state R => rw [hc] at hQ; exact ih R ds Q hQ
        | panics => rw [hc] at hQ; simp at hQ
        | misuse => rw [hc] at hQ; simp at hQ
    rw [this _ _ _ _ e]
    obtain ⟨Q', e', h1⟩ := Result.shows_iff.1 (show ((Picture.init true).run pictureHistory).shows
      (fun Q => Q.live 5 && Q.held 5) = true by decide +kernel)
    rw [e] at e'
    cases e'
    simp only [Bool.and_eq_true] at h1
    simp [Picture.run, Picture.step, Call.mentions, h1.1, Picture.act, Picture.release, h1.2]
  have hm := C93_run true (pictureHistory ++ [.release 5])
  rw [ed] at hm
  obtain ⟨t, et, h', ha', hP'⟩ := hm
  exact ⟨s, t, Q, ⟨_, _, by simp, es, et⟩, h, ha, hP, h', ha', hP'⟩

end Svgdom
