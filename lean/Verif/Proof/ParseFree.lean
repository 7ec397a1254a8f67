import Verif.Props.Release
import Verif.Model.ParseFree

/-! Helper lemmas: each step of the parser on a document from which nodes were freed. -/

set_option autoImplicit false

namespace Svgdom

/-- `s` is what is left of `t` after some nodes were freed. -/
def Thinned (s t : St) : Prop := ∃ P R X Y, Outlived s t P R X Y

/-- The calls of the parser after all nodes were made. -/
def Call.late : Call → Bool
  | .setText .. => true
  | .setAttribute .. => true
  | .setAttributeChecked .. => true
  | .removeAttribute .. => true
  | .editText .. => true
  | .removeNode .. => true
  | _ => false

/-- The late calls that leave the tree as it is. -/
def Call.tame : Call → Bool
  | .removeNode .. => false
  | c => c.late

/-- Same live nodes and same parents. -/
structure Still (s s' : St) : Prop where
  live : s'.live = s.live
  parent : ∀ i, s.live i = true → s'.parent i = s.parent i
  type : ∀ i, s.live i = true → s'.nodeType i = s.nodeType i

theorem Still.refl (s : St) : Still s s := ⟨rfl, fun _ _ => rfl, fun _ _ => rfl⟩

theorem Still.trans {s t u : St} (h : Still s t) (h' : Still t u) : Still s u :=
  ⟨h'.live.trans h.live, fun i hi => (h'.parent i (by rw [h.live]; exact hi)).trans (h.parent i hi),
    fun i hi => (h'.type i (by rw [h.live]; exact hi)).trans (h.type i hi)⟩

theorem act_late {P Q : Picture} {c : Call} (hc : c.late = true) (e : P.act c = .state Q) :
    Q.live = P.live ∧ (c.tame = true → Q.forest = P.forest) ∧ ∀ i, (Q.look i).type = (P.look i).type := by
  cases c <;> simp only [Call.late, Bool.false_eq_true] at hc <;> simp only [Picture.act, Picture.set] at e
  all_goals (repeat' split at e)
  all_goals first
    | (cases e; exact ⟨rfl, fun _ => rfl, fun _ => rfl⟩)
    | (cases e; exact ⟨rfl, fun h => by simp [Call.tame] at h, fun _ => rfl⟩)
    | (cases e; refine ⟨rfl, fun _ => rfl, fun i => ?_⟩; simp only [Picture.put, Picture.edit]; split <;> rfl)
    | simp at e

theorem act_late_ne {P : Picture} {c : Call} (hc : c.late = true) : P.act c ≠ .misuse := by
  cases c <;> simp only [Call.late, Bool.false_eq_true] at hc <;> simp only [Picture.act, Picture.set]
  all_goals (repeat' split)
  all_goals simp

theorem Thinned.call {s t t' : St} {c : Call} (h : Thinned s t) (hc : c.late = true) (hm : ∀ i ∈ c.mentions, s.live i = true)
    (et : c.run t = .ok t') :
    ∃ s', c.run s = .ok s' ∧ Thinned s' t' ∧ s'.live = s.live ∧ (c.tame = true → Still s s') := by
  obtain ⟨P, R, X, Y, h⟩ := h
  have hd : c.drops = false := by cases c <;> simp [Call.late] at hc <;> rfl
  have hmP : c.mentions.all P.live = true := by
    rw [List.all_eq_true]; intro i hi; rw [h.shows.live]; exact hm i hi
  have hr := h.rest.step h.reach h.acyclic h.shows h.reach' h.shows' hd
  have hmir := C93_step h.reach' h.acyclic' h.shows' c
  cases hP : P.step c with
  | misuse =>
    rw [Picture.step, if_pos hmP] at hP
    exact absurd hP (act_late_ne hc)
  | panics =>
    rw [hP] at hr
    cases hR : R.step c with
    | misuse => rw [hR] at hr; exact hr.elim
    | state S => rw [hR] at hr; exact hr.elim
    | panics =>
      rw [hR] at hmir
      obtain ⟨p, hp⟩ := hmir
      rw [et] at hp; simp at hp
  | state Q =>
    obtain ⟨u, v, S, e1, e2, _, ho⟩ := C97_history h [c] (Q := Q) (by simp [Picture.run, hP])
    have hk : keepHandles [c] = [c] := by simp [keepHandles, hd]
    rw [hk] at e2 ho
    simp only [St.calls, bind, Except.bind, et] at e2
    cases e2
    have e1' : c.run s = .ok u := by
      simp only [St.calls, bind, Except.bind] at e1
      cases hs : c.run s with
      | error e => rw [hs] at e1; simp at e1
      | ok w => rw [hs] at e1; simpa using e1
    have hP' := hP
    rw [Picture.step, if_pos hmP] at hP'
    obtain ⟨hl, hf, hy⟩ := act_late hc hP'
    have hlive : u.live = s.live := by rw [← ho.shows.live, hl, h.shows.live]
    refine ⟨u, e1', ⟨_, _, _, _, ho⟩, hlive, fun ht => ⟨hlive, fun i hi => ?_, fun i hi => ?_⟩⟩
    case refine_2 =>
      rw [(C93_observe ho.reach ho.acyclic ho.shows (by rw [hlive]; exact hi)).1, (C93_observe h.reach h.acyclic h.shows hi).1, hy]
    rw [(C93_observe ho.reach ho.acyclic ho.shows (by rw [hlive]; exact hi)).2.2.2.2.2.2.1,
      (C93_observe h.reach h.acyclic h.shows hi).2.2.2.2.2.2.1, hf ht]

/-- The drop of a handle. -/
theorem Thinned.release {s t : St} (h : Thinned s t) {i : NodeId} (hi : s.live i = true) (hn : ¬ s.strongRef i) : Thinned (s.free i) t := by
  obtain ⟨P, R, X, Y, h⟩ := h
  obtain ⟨u, v, S, e1, e2, _, ho⟩ := C97_history h [.release i] (Q := P.release i) (by
    simp [Picture.run, Picture.step, Call.mentions, h.shows.live, hi, Picture.act])
  simp only [St.calls, bind, Except.bind, Call.run, if_neg hn] at e1
  cases e1
  have hk : keepHandles [Call.release i] = [] := rfl
  rw [hk] at e2 ho
  cases e2
  exact ⟨_, _, _, _, ho⟩

theorem Thinned.collect {s t : St} (h : Thinned s t) (held l : List NodeId) :
    Thinned (s.collect held l) t ∧ (∀ i, (s.collect held l).live i = true → s.live i = true) ∧
      ∀ i ∈ held, s.live i = true → (s.collect held l).live i = true := by
  induction l generalizing s with
  | nil => exact ⟨h, fun _ h => h, fun _ _ h => h⟩
  | cons i l ih =>
    simp only [St.collect]
    split
    · exact ih h
    · next hn =>
      simp only [not_or, Bool.not_eq_false] at hn
      obtain ⟨h1, h2, h3⟩ := ih (h.release hn.2.1 hn.2.2)
      refine ⟨h1, fun j hj => ?_, fun j hj hl => h3 j hj ?_⟩
      · have := h2 j hj
        simp only [St.free] at this
        split at this
        · simp at this
        · exact this
      · simp only [St.free]
        rw [if_neg (fun hc : j = i => hn.1 (hc ▸ hj))]
        exact hl

section observe

variable {s t : St}

theorem Thinned.nextId (h : Thinned s t) : t.nextId = s.nextId := by
  obtain ⟨P, R, X, Y, h⟩ := h
  rw [← h.shows.next, ← h.shows'.next, h.rest.next]

theorem Thinned.fuel (h : Thinned s t) : t.fuel = s.fuel := by rw [St.fuel, St.fuel, h.nextId]

theorem Thinned.rootId (h : Thinned s t) : t.rootId = s.rootId := by
  obtain ⟨P, R, X, Y, h⟩ := h
  rw [← h.shows.root, ← h.shows'.root, h.rest.root]

theorem Thinned.reach (h : Thinned s t) : Reachable s := by
  obtain ⟨P, R, X, Y, h⟩ := h
  exact h.reach

theorem Thinned.root (h : Thinned s t) : s.live s.rootId = true := by
  obtain ⟨_, hti⟩ := h.reach.inv.tree; exact hti.root

theorem Thinned.look (h : Thinned s t) {i : NodeId} (hi : s.live i = true) : t.look i = s.look i := by
  obtain ⟨P, R, X, Y, h⟩ := h
  exact (C97_observe h hi).2.1

theorem Thinned.text (h : Thinned s t) {i : NodeId} (hi : s.live i = true) : t.text i = s.text i := congrArg Look.text (h.look hi)
theorem Thinned.type (h : Thinned s t) {i : NodeId} (hi : s.live i = true) : t.nodeType i = s.nodeType i := congrArg Look.type (h.look hi)
theorem Thinned.attrs (h : Thinned s t) {i : NodeId} (hi : s.live i = true) : t.attributes i = s.attributes i := congrArg Look.attrs (h.look hi)
theorem Thinned.isText (h : Thinned s t) {i : NodeId} (hi : s.live i = true) : t.isText i = s.isText i := by simp only [St.isText, h.type hi]
theorem Thinned.isElement (h : Thinned s t) {i : NodeId} (hi : s.live i = true) : t.isElement i = s.isElement i := by
  simp only [St.isElement, h.type hi]

theorem Thinned.firstChild (h : Thinned s t) {i : NodeId} (hi : s.live i = true) : t.firstChild i = s.firstChild i := by
  obtain ⟨P, R, X, Y, h⟩ := h
  exact (C97_observe h hi).2.2.2.1

theorem Thinned.nextSibling (h : Thinned s t) {i : NodeId} (hi : s.live i = true) : t.nextSibling i = s.nextSibling i := by
  obtain ⟨P, R, X, Y, h⟩ := h
  exact (C97_observe h hi).2.2.2.2.2.1

theorem Thinned.parent (h : Thinned s t) {i p : NodeId} (hi : s.live i = true) (hp : s.parent i = some p) : t.parent i = some p := by
  obtain ⟨P, R, X, Y, h⟩ := h
  have := (C97_observe h hi).2.2.2.2.2.2.2.2.2.1
  rw [hp, eq_comm, Option.filter_eq_some_iff] at this
  exact this.1

/-- The child list, and its nodes are live children. -/
theorem Thinned.children (h : Thinned s t) {i : NodeId} (hi : s.live i = true) :
    ∃ l, t.childList i = .ok l ∧ s.childList i = .ok l ∧ ∀ c ∈ l, s.live c = true ∧ s.parent c = some i := by
  obtain ⟨P, R, X, Y, h⟩ := h
  have h1 := (C97_observe h hi).2.2.2.2.2.2.1
  have h2 := (C93_observe h.reach h.acyclic h.shows hi).2.2.2.2.2.2.2.2.2.2.2.1
  refine ⟨P.forest.kids i, h1.trans h2, h2, fun c hc => ?_⟩
  have := h.shows.forest.wf.kids i hi c hc
  refine ⟨this.1, ?_⟩
  rw [(C93_observe h.reach h.acyclic h.shows this.1).2.2.2.2.2.2.1]
  exact this.2

theorem mem_subtree_par {F : Forest} : ∀ {k : Nat} {i j : NodeId}, j ∈ F.subtree k i → j = i ∨ ∃ q, j ∈ F.kids q ∧ q ∈ F.subtree k i
  | 0, _, _, h => by simp [Forest.subtree] at h
  | k + 1, i, j, h => by
    simp only [Forest.subtree, List.mem_cons, List.mem_flatMap] at h ⊢
    rcases h with h | ⟨c, hc, h⟩
    · exact .inl h
    · rcases mem_subtree_par h with h' | ⟨q, hq, hq'⟩
      · subst h'; exact .inr ⟨i, hc, .inl rfl⟩
      · exact .inr ⟨q, hq, .inr ⟨c, hc, hq'⟩⟩

theorem mem_subtree_live {F : Forest} {live : NodeId → Bool} (hF : F.WF live) :
    ∀ {k : Nat} {i j : NodeId}, live i = true → j ∈ F.subtree k i → live j = true
  | 0, _, _, _, h => by simp [Forest.subtree] at h
  | k + 1, i, j, hi, h => by
    simp only [Forest.subtree, List.mem_cons, List.mem_flatMap] at h
    rcases h with h | ⟨c, hc, h⟩
    · rw [h]; exact hi
    · exact mem_subtree_live hF (hF.kids i hi c hc).1 h

/-- The list of descendants; its nodes are live and, but for the first, have a parent. -/
theorem Thinned.descendants (h : Thinned s t) {i : NodeId} (hi : s.live i = true) :
    ∃ l, t.descendantList i = .ok l ∧ s.descendantList i = .ok l ∧
      ∀ c ∈ l, s.live c = true ∧ (c ≠ i → ∃ q, s.parent c = some q) := by
  obtain ⟨P, R, X, Y, h⟩ := h
  have h1 := (C97_observe h hi).2.2.2.2.2.2.2.1
  have h2 := (C93_observe h.reach h.acyclic h.shows hi).2.2.2.2.2.2.2.2.2.2.2.2.1
  refine ⟨P.subtree i, h1.trans h2, h2, fun c hc => ?_⟩
  have hl := mem_subtree_live h.shows.forest.wf hi hc
  refine ⟨hl, fun hne => ?_⟩
  rcases mem_subtree_par hc with h' | ⟨q, hq, hq'⟩
  · exact absurd h' hne
  · have := h.shows.forest.wf.kids q (mem_subtree_live h.shows.forest.wf hi hq') c hq
    exact ⟨q, by rw [(C93_observe h.reach h.acyclic h.shows hl).2.2.2.2.2.2.1]; exact this.2⟩

end observe

end Svgdom
