import Verif.Spec.Release
import Verif.Props.Users

/-! # Freeing nodes early or late -/

set_option autoImplicit false

namespace Svgdom

/-! ## Forests -/

section
variable {F G : Forest} {live : NodeId → Bool}

theorem Forest.Rest.detach (h : F.Rest G live) {c : NodeId} (hc : live c = true) : (F.detach c).Rest (G.detach c) live where
  kids := fun i hi => by simp only [Forest.detach, h.kids i hi]
  sibs := fun i hi => by
    obtain ⟨d, e, hd⟩ := h.sibs i hi
    simp only [Forest.detach]
    split
    · exact ⟨[], rfl, by simp⟩
    · refine ⟨d, ?_, hd⟩
      rw [e, List.erase_append_right]
      intro hm
      rw [hd c hm] at hc
      simp at hc
  par := fun i hi => by
    simp only [Forest.detach]
    split
    · rfl
    · exact h.par i hi

theorem Forest.Rest.attach (h : F.Rest G live) {c : NodeId} {p q : Option NodeId} {L M : List NodeId} {d : List NodeId}
    (hp : p = q.filter live) (e : M = d ++ L) (hd : ∀ x ∈ d, live x = false)
    (hq : ∀ x, p = some x → d = []) : (F.attach p L c).Rest (G.attach q M c) live where
  kids := fun i hi => by
    have hk : q = some i ↔ p = some i := by
      rw [hp, Option.filter_eq_some_iff]
      simp [hi]
    simp only [Forest.attach, hk]
    split
    · next hpi => rw [e, hq i hpi]; rfl
    · exact h.kids i hi
  sibs := fun i hi => by
    have hm : i ∈ M ↔ i ∈ L := by
      rw [e, List.mem_append]
      constructor
      · rintro (hx | hx)
        · rw [hd i hx] at hi; simp at hi
        · exact hx
      · exact .inr
    simp only [Forest.attach, hm]
    split
    · exact ⟨d, e, hd⟩
    · exact h.sibs i hi
  par := fun i hi => by
    simp only [Forest.attach]
    split
    · exact hp
    · exact h.par i hi

theorem Forest.Rest.append (h : F.Rest G live) {p c : NodeId} (hp : live p = true) (hc : live c = true) :
    (F.append p c).Rest (G.append p c) live := by
  have h' := h.detach hc
  refine h'.attach (d := []) ?_ ?_ (by simp) (fun _ _ => rfl)
  · simp [Option.filter, hp]
  · rw [h'.kids p hp]; rfl

theorem Forest.Rest.prepend (h : F.Rest G live) {p c : NodeId} (hp : live p = true) (hc : live c = true) :
    (F.prepend p c).Rest (G.prepend p c) live := by
  have h' := h.detach hc
  refine h'.attach (d := []) ?_ ?_ (by simp) (fun _ _ => rfl)
  · simp [Option.filter, hp]
  · rw [h'.kids p hp]; rfl

/-- Below a node that is left, nothing is gone. -/
theorem Forest.Rest.whole (h : F.Rest G live) {all : NodeId → Bool} (hF : F.WF live) (hG : G.WF all) (ha : ∀ i, live i = true → all i = true)
    {i p : NodeId} (hi : live i = true) (e : F.par i = some p) : G.par i = some p ∧ G.sibs i = F.sibs i := by
  have hp := h.par i hi
  rw [e, eq_comm, Option.filter_eq_some_iff] at hp
  refine ⟨hp.1, ?_⟩
  rw [← (hG.par i (ha i hi) p hp.1).2, h.kids p hp.2, (hF.par i hi p e).2]

theorem insAfter_append {d l : List NodeId} {x y : NodeId} (hx : x ∉ d) : insAfter (d ++ l) x y = d ++ insAfter l x y := by
  induction d with
  | nil => rfl
  | cons a d ih =>
    simp only [List.mem_cons, not_or] at hx
    simp [insAfter, Ne.symm hx.1, ih hx.2]

theorem insBefore_append {d l : List NodeId} {x y : NodeId} (hx : x ∉ d) : insBefore (d ++ l) x y = d ++ insBefore l x y := by
  induction d with
  | nil => rfl
  | cons a d ih =>
    simp only [List.mem_cons, not_or] at hx
    simp [insBefore, Ne.symm hx.1, ih hx.2]

theorem Forest.Rest.insert (h : F.Rest G live) {all : NodeId → Bool} (hF : F.WF live) (hG : G.WF all) (ha : ∀ i, live i = true → all i = true)
    {x y : NodeId} (hx : live x = true) (hy : live y = true) (hne : x ≠ y) :
    (F.insertAfter x y).Rest (G.insertAfter x y) live ∧ (F.insertBefore x y).Rest (G.insertBefore x y) live := by
  have h' := h.detach hy
  obtain ⟨d, e, hd⟩ := h'.sibs x hx
  have hxd : x ∉ d := fun hm => by rw [hd x hm] at hx; simp at hx
  have hq : ∀ z, (F.detach y).par x = some z → d = [] := fun z hz => by
    have hz' : F.par x = some z := by simpa [Forest.detach, hne] using hz
    have := (h.whole hF hG ha hx hz').2
    simp only [Forest.detach, hne, if_false, this] at e
    have : d.length = 0 := by
      have := congrArg List.length e
      rw [List.length_append] at this
      omega
    exact List.length_eq_zero_iff.1 this
  constructor
  · exact h'.attach (h'.par x hx) (by rw [e, insAfter_append hxd]) hd hq
  · exact h'.attach (h'.par x hx) (by rw [e, insBefore_append hxd]) hd hq

theorem Forest.Rest.prune (h : F.Rest G live) (S : List NodeId) : (F.prune S).Rest (G.prune S) live where
  kids := fun i hi => by simp only [Forest.prune, h.kids i hi]
  sibs := fun i hi => by
    obtain ⟨d, e, hd⟩ := h.sibs i hi
    simp only [Forest.prune]
    split
    · exact ⟨[], rfl, by simp⟩
    · refine ⟨d.filter fun c => decide (c ∉ S), ?_, fun x hx => hd x (List.mem_of_mem_filter hx)⟩
      rw [e, List.filter_append]
  par := fun i hi => by
    simp only [Forest.prune]
    split
    · rfl
    · exact h.par i hi

theorem Forest.Rest.subtree (h : F.Rest G live) (hk : ∀ i, live i = true → ∀ c ∈ F.kids i, live c = true) (k : Nat) :
    ∀ i, live i = true → G.subtree k i = F.subtree k i ∧ ∀ j ∈ F.subtree k i, live j = true := by
  induction k with
  | zero => intro i _; exact ⟨rfl, by simp [Forest.subtree]⟩
  | succ k ih =>
    intro i hi
    simp only [Forest.subtree, h.kids i hi]
    constructor
    · congr 1
      exact List.flatMap_congr fun c hc => (ih c (hk i hi c hc)).1
    · intro j hj
      rw [List.mem_cons, List.mem_flatMap] at hj
      rcases hj with rfl | ⟨c, hc, hj⟩
      · exact hi
      · exact (ih c (hk i hi c hc)).2 j hj

/-- A node that nothing holds is freed. -/
theorem Forest.Rest.drop (h : F.Rest G live) (hF : F.WF live) {i : NodeId} (hi : live i = true)
    (hfirst : ∀ j, live j = true → after (F.sibs j) j ≠ some i) :
    (F.drop i).Rest G (fun j => live j && decide (j ≠ i)) where
  kids := fun j hj => by
    simp only [Bool.and_eq_true, decide_eq_true_eq] at hj
    exact h.kids j hj.1
  sibs := fun j hj => by
    simp only [Bool.and_eq_true, decide_eq_true_eq] at hj
    obtain ⟨d, e, hd⟩ := h.sibs j hj.1
    simp only [Forest.drop]
    by_cases hm : i ∈ F.sibs j
    · obtain ⟨a, b, hab⟩ := List.append_of_mem hm
      have hnd := hF.nodup j hj.1
      have ha : a = [] := by
        rcases List.eq_nil_or_concat a with rfl | ⟨a', q, rfl⟩
        · rfl
        · exfalso
          have hq : q ∈ F.sibs j := by rw [hab]; simp
          obtain ⟨hql, hqs, _⟩ := hF.sib j hj.1 q hq
          refine hfirst q hql ?_
          rw [hqs, hab]
          have : a'.concat q ++ i :: b = a' ++ q :: (i :: b) := by simp
          rw [this] at hab ⊢
          rw [after_split]
          · rfl
          · intro hqa
            rw [hab, List.nodup_append] at hnd
            exact hnd.2.2 q hqa q (by simp) rfl
      subst ha
      refine ⟨d ++ [i], ?_, fun x hx => ?_⟩
      · rw [e, hab]; simp
      · rw [List.mem_append, List.mem_singleton] at hx
        rcases hx with hx | rfl
        · simp [hd x hx]
        · simp
    · refine ⟨d, by rw [e, List.erase_of_not_mem hm], fun x hx => by simp [hd x hx]⟩
  par := fun j hj => by
    simp only [Bool.and_eq_true, decide_eq_true_eq] at hj
    have := h.par j hj.1
    simp only [Forest.drop, this]
    cases hg : G.par j with
    | none => simp
    | some p =>
      by_cases hpi : p = i
      · subst hpi; simp [Option.filter, hi]
      · cases hl : live p <;> simp [Option.filter, hl, hpi]

end

/-! ## Pictures -/

/-- What the machine does with a picture and with what is left of it. -/
def Result.Rest : Result → Result → Prop
  | .state Q, .state R => Q.Rest R
  | .panics, .panics => True
  | .misuse, _ => True
  | _, _ => False

section
variable {s t : St} {P R : Picture}

theorem Picture.Rest.subtree (r : P.Rest R) (hP : Abs s P) {i : NodeId} (hi : P.live i = true) :
    R.subtree i = P.subtree i ∧ ∀ j ∈ P.subtree i, P.live j = true := by
  unfold Picture.subtree
  rw [r.next]
  refine r.forest.subtree (fun i hi c hc => ?_) P.next i hi
  rw [hP.live] at hi ⊢
  exact (hP.forest.wf.kids i hi c hc).1

theorem Picture.Rest.wfs (r : P.Rest R) (hP : Abs s P) (hR : Abs t R) {i p : NodeId} (hi : P.live i = true) (e : P.forest.par i = some p) :
    R.forest.par i = some p ∧ R.forest.sibs i = P.forest.sibs i :=
  r.forest.whole (hP.live ▸ hP.forest.wf) (hR.live ▸ hR.forest.wf) r.live hi e

theorem before_suffix {d l : List NodeId} {c x : NodeId} (hn : (d ++ l).Nodup) (hc : c ∈ l) (hx : x ∉ d) :
    before (d ++ l) c = some x ↔ before l c = some x := by
  obtain ⟨a, b, rfl⟩ := List.append_of_mem hc
  rw [List.nodup_append] at hn
  have ha : c ∉ a := fun h => (List.nodup_append.1 hn.2.1).2.2 c h c (by simp) rfl
  have hd : c ∉ d := fun h => hn.2.2 c h c (by simp) rfl
  rw [before_split ha, ← List.append_assoc, before_split (by simp [ha, hd]), List.getLast?_append]
  cases h : a.getLast? with
  | some q => simp
  | none =>
    simp only [Option.none_or, reduceCtorEq, iff_false]
    intro h'
    exact hx (List.mem_of_getLast? h')

theorem Picture.Rest.touches (r : P.Rest R) (hP : Abs s P) (hR : Abs t R) {c x : NodeId} (hc : P.live c = true) (hx : P.live x = true) :
    R.touches c x = P.touches c x := by
  obtain ⟨d, e, hd⟩ := r.forest.sibs c hc
  have hcd : c ∉ d := fun h => by rw [hd c h] at hc; simp at hc
  have hxd : x ∉ d := fun h => by rw [hd x h] at hx; simp at hx
  have hm : c ∈ P.forest.sibs c := hP.forest.wf.self_mem c (by rwa [← hP.live])
  have hn : (d ++ P.forest.sibs c).Nodup := by
    rw [← e]; exact hR.forest.wf.nodup c (by rw [← hR.live]; exact r.live c hc)
  have h1 : after (R.forest.sibs c) c = after (P.forest.sibs c) c := by rw [e, after_append_right hcd]
  have h2 : decide (before (R.forest.sibs c) c = some x) = decide (before (P.forest.sibs c) c = some x) := by
    rw [e, decide_eq_decide]; exact before_suffix hn hm hxd
  unfold Picture.touches
  simp only [h1, h2]
  congr 1
  by_cases hp : P.forest.par c = some x
  · obtain ⟨g1, g2⟩ := r.wfs hP hR hc hp
    rw [g1, g2, hp]
  · have : R.forest.par c ≠ some x := fun h => hp (by rw [r.forest.par c hc, h]; simp [Option.filter, hx])
    simp [hp, this]

theorem Picture.Rest.move (r : P.Rest R) (hP : Abs s P) (hR : Abs t R) {x y : NodeId} (hx : P.live x = true) (hy : P.live y = true)
    {F G : Forest} (h : x ≠ y → F.Rest G P.live) : Result.Rest (P.move x y F) (R.move x y G) := by
  unfold Picture.move
  rw [r.touches hP hR hy hx, (r.subtree hP hy).1]
  by_cases h1 : x = y
  · simp [h1, Result.Rest]
  · rw [if_neg h1, if_neg h1]
    by_cases h2 : x ∈ P.subtree y
    · simp [h2, Result.Rest]
    · rw [if_neg h2, if_neg h2]
      split
      · trivial
      · exact ⟨r.next, r.root, r.debug, r.live, r.look, r.stored, h h1⟩

theorem Picture.Rest.edit (r : P.Rest R) (i : NodeId) (f : Look → Look) : (P.edit i f).Rest (R.edit i f) :=
  ⟨r.next, r.root, r.debug, r.live, fun j hj => by simp only [Picture.edit, r.look j hj], r.stored, r.forest⟩

theorem Picture.Rest.noElement (r : P.Rest R) {i : NodeId} (hi : P.live i = true) : R.noElement i = P.noElement i := by
  simp only [Picture.noElement, r.debug, r.look i hi]

theorem Picture.Rest.refuses (r : P.Rest R) {i : NodeId} {v : AttributeValue} (hi : P.live i = true)
    (hv : ∀ n, v.names = some n → P.live n = true) : R.refuses i v = P.refuses i v := by
  unfold Picture.refuses
  cases h : v.names with
  | none => rfl
  | some n => simp only [r.look i hi, r.look n (hv n h)]

theorem Picture.Rest.refusal (r : P.Rest R) {i : NodeId} {v : AttributeValue} (hi : P.live i = true)
    (hv : ∀ n, v.names = some n → P.live n = true) : R.refusal i v = P.refusal i v := by
  unfold Picture.refusal
  rw [r.refuses hi hv]
  cases h : v.names with
  | none => rfl
  | some n => simp only [r.look n (hv n h)]

theorem Picture.Rest.set (r : P.Rest R) {i : NodeId} {a : Attribute} (hi : P.live i = true)
    (hv : ∀ n, a.value.names = some n → P.live n = true) : Result.Rest (P.set i a) (R.set i a) := by
  unfold Picture.set
  rw [r.noElement hi, r.refuses hi hv]
  split
  · trivial
  · exact r.edit i _

theorem Picture.Rest.remove (r : P.Rest R) (S : List NodeId) : (P.remove S).Rest (R.remove S) where
  next := r.next
  root := r.root
  debug := r.debug
  live := r.live
  look := fun j hj => by simp only [Picture.remove, r.look j hj]
  stored := fun j hj => by simp only [Picture.remove, r.stored j hj]
  forest := r.forest.prune S

theorem Picture.Rest.drained (r : P.Rest R) (hP : Abs s P) {i : NodeId} (hi : P.live i = true) (f : NodeType → TagName → Str → Str → Bool) :
    R.drained i f = P.drained i f := by
  obtain ⟨e, hl⟩ := r.subtree hP hi
  unfold Picture.drained
  rw [e]
  have : (P.subtree i).tail.filter (fun j => f (R.look j).type (R.look j).tag (R.look j).id (R.look j).text) =
      (P.subtree i).tail.filter (fun j => f (P.look j).type (P.look j).tag (P.look j).id (P.look j).text) :=
    List.filter_congr fun j hj => by rw [r.look j (hl j (List.mem_of_mem_tail hj))]
  rw [this]
  exact List.flatMap_congr fun j hj => (r.subtree hP (hl j (List.mem_of_mem_tail (List.mem_of_mem_filter hj)))).1

theorem Picture.Rest.topmost (r : P.Rest R) (hP : Abs s P) {i : NodeId} (hi : P.live i = true) (f : NodeType → TagName → Str → Str → Bool) :
    R.topmost i f = P.topmost i f := by
  obtain ⟨e, hl⟩ := r.subtree hP hi
  unfold Picture.topmost
  rw [e]
  have : (P.subtree i).tail.filter (fun j => f (R.look j).type (R.look j).tag (R.look j).id (R.look j).text) =
      (P.subtree i).tail.filter (fun j => f (P.look j).type (P.look j).tag (P.look j).id (P.look j).text) :=
    List.filter_congr fun j hj => by rw [r.look j (hl j (List.mem_of_mem_tail hj))]
  simp only [this]
  congr 1
  refine List.filter_congr fun j _ => ?_
  rw [Bool.eq_iff_iff, List.all_eq_true, List.all_eq_true]
  refine forall₂_congr fun m hm => ?_
  rw [(r.subtree hP (hl m (List.mem_of_mem_tail (List.mem_of_mem_filter hm)))).1]

theorem Picture.Rest.copyable (r : P.Rest R) (h : Reachable s) (hP : Abs s P) {i : NodeId} (hi : P.live i = true) :
    R.copyable i = P.copyable i := by
  unfold Picture.copyable
  rw [r.look i hi]
  congr 2
  rw [Bool.eq_iff_iff, List.all_eq_true, List.all_eq_true]
  refine forall₂_congr fun a ha => ?_
  cases hv : a.value.names with
  | none => rfl
  | some n =>
    have hi' : s.live i = true := by rwa [← hP.live]
    rw [hP.look i hi'] at ha
    have : P.live n = true := by
      rw [hP.live]
      rw [names_eq] at hv
      exact h.inv.link.targets i hi' a ha n hv
    simp only [r.look n this]

/-- Nodes of the other picture are not new. -/
theorem Picture.Rest.old (h : Reachable t) (hR : Abs t R) {j : NodeId} (hj : R.live j = true) : j < R.next := by
  rw [hR.next]
  exact h.inv.liveBelow j (by rwa [← hR.live])

theorem Picture.Rest.add (r : P.Rest R) (h : Reachable t) (hR : Abs t R) (d : Look) : (P.add d).Rest (R.add d) where
  next := by simp only [Picture.add, r.next]
  root := r.root
  debug := r.debug
  live := fun j hj => by
    simp only [Picture.add, r.next, Bool.or_eq_true] at hj ⊢
    exact hj.imp id (r.live j)
  look := fun j hj => by
    simp only [Picture.add, r.next, Bool.or_eq_true, decide_eq_true_eq] at hj ⊢
    split
    · rfl
    · next hn => exact r.look j (hj.resolve_left hn)
  stored := fun j hj => by
    simp only [Picture.add, r.next, Bool.or_eq_true, decide_eq_true_eq] at hj ⊢
    by_cases hn : j = P.next
    · simp [hn]
    · simp [hn, r.stored j (hj.resolve_left hn)]
  forest := by
    constructor
    · intro j hj
      simp only [Picture.add, Forest.add, r.next, Bool.or_eq_true, decide_eq_true_eq] at hj ⊢
      split
      · rfl
      · next hn => exact r.forest.kids j (hj.resolve_left hn)
    · intro j hj
      simp only [Picture.add, Forest.add, r.next, Bool.or_eq_true, decide_eq_true_eq] at hj ⊢
      split
      · exact ⟨[], rfl, by simp⟩
      · next hn =>
        have hl := hj.resolve_left hn
        obtain ⟨d, e, hd⟩ := r.forest.sibs j hl
        refine ⟨d, e, fun x hx => ?_⟩
        have hx' := (hR.forest.wf.sib j (by rw [← hR.live]; exact r.live j hl) x (by rw [e]; simp [hx])).1
        have := Picture.Rest.old h hR (j := x) (by rw [hR.live]; exact hx')
        rw [r.next] at this
        simp [hd x hx, Nat.ne_of_lt this]
    · intro j hj
      simp only [Picture.add, Forest.add, r.next, Bool.or_eq_true, decide_eq_true_eq] at hj ⊢
      split
      · rfl
      · next hn =>
        have hl := hj.resolve_left hn
        rw [r.forest.par j hl]
        cases hp : R.forest.par j with
        | none => rfl
        | some p =>
          have hp' := (hR.forest.wf.par j (by rw [← hR.live]; exact r.live j hl) p hp).1
          have := Picture.Rest.old h hR (j := p) (by rw [hR.live]; exact hp')
          rw [r.next] at this
          simp [Option.filter, Nat.ne_of_lt this]

theorem Picture.Rest.copyDeep (r : P.Rest R) (h : Reachable t) (ha : s.Acyclic) (hs : Reachable s) (hP : Abs s P) (hR : Abs t R)
    {i : NodeId} (hi : P.live i = true) {u : St} (hQ : Abs u (P.copyDeep i)) : (P.copyDeep i).Rest (R.copyDeep i) := by
  obtain ⟨e, hl⟩ := r.subtree hP hi
  have hi' : s.live i = true := by rwa [← hP.live]
  have hlive : ∀ j, (P.copyDeep i).live j = true → (P.next ≤ j ∧ ∃ o, (P.subtree i)[j - P.next]? = some o) ∨
      (j < P.next ∧ P.live j = true) := by
    intro j hj
    simp only [Picture.copyDeep, Bool.or_eq_true, Bool.and_eq_true, decide_eq_true_eq] at hj
    rcases hj with ⟨h1, h2⟩ | hj
    · left
      refine ⟨h1, _, List.getElem?_eq_getElem ?_⟩
      have key : ∀ a b c : Nat, a ≤ b → b < a + c → b - a < c := by intro a b c; omega
      exact key _ _ _ h1 h2
    · right
      refine ⟨?_, hj⟩
      rw [hP.next]
      exact hs.inv.liveBelow j (by rwa [← hP.live])
  have hrel : ∀ o ∈ P.subtree i, o ≠ i → ∃ p, P.forest.par o = some p := by
    intro o ho hne
    have : o ∈ (P.subtree i).tail := by
      obtain ⟨T, hT, e', _⟩ := hP.tree hs ha hi'
      have hhead : (P.subtree i).head? = some i := by
        cases hk : P.next with
        | zero =>
          have := hs.inv.liveBelow i hi'
          rw [← hP.next, hk] at this
          exact absurd this (Nat.not_lt_zero _)
        | succ k => simp [Picture.subtree, hk, Forest.subtree]
      cases hsub : P.subtree i with
      | nil => rw [hsub] at ho; simp at ho
      | cons a l =>
        rw [hsub] at ho hhead
        simp only [List.head?_cons, Option.some.injEq] at hhead
        rw [List.mem_cons] at ho
        exact ho.resolve_left (by rw [hhead]; exact hne)
    obtain ⟨ho', hanc⟩ := (hP.tail_subtree hs ha hi' o).1 this
    obtain ⟨p, hp, _⟩ := Relation.TransGen.head'_iff.1 hanc
    replace hp : s.parent o = some p := hp
    exact ⟨p, by rw [← hP.forest.shows.parent o ho', hp]⟩
  have hidx : ∀ {j}, j < P.next → ¬ P.next ≤ j := fun hj => Nat.not_le.2 hj
  constructor
  · simp only [Picture.copyDeep, r.next, e]
  · exact r.root
  · exact r.debug
  · intro j hj
    simp only [Picture.copyDeep, r.next, e, Bool.or_eq_true] at hj ⊢
    exact hj.imp id (r.live j)
  · intro j hj
    rcases hlive j hj with ⟨h1, o, h2⟩ | ⟨h1, h2⟩
    · simp only [Picture.copyDeep, r.next, e, h2, if_pos h1]
      rw [r.look o (hl o (List.mem_of_getElem? h2))]
    · simp only [Picture.copyDeep, r.next, e, if_neg (hidx h1), r.look j h2]
  · intro j hj
    rcases hlive j hj with ⟨h1, o, h2⟩ | ⟨h1, h2⟩
    · have : j < P.next + (P.subtree i).length := by
        have := (List.getElem?_eq_some_iff.1 h2).1
        have key : ∀ a b c : Nat, a ≤ b → b - a < c → b < a + c := by intro a b c; omega
        exact key _ _ _ h1 this
      simp [Picture.copyDeep, r.next, e, h1, this]
    · simp only [Picture.copyDeep, r.next, e, r.stored j h2]
  · constructor
    · intro j hj
      rcases hlive j hj with ⟨h1, o, h2⟩ | ⟨h1, h2⟩
      · simp only [Picture.copyDeep, r.next, e, h2, if_pos h1]
        rw [r.forest.kids o (hl o (List.mem_of_getElem? h2))]
      · simp only [Picture.copyDeep, r.next, e, if_neg (hidx h1), r.forest.kids j h2]
    · intro j hj
      rcases hlive j hj with ⟨h1, o, h2⟩ | ⟨h1, h2⟩
      · refine ⟨[], ?_, by simp⟩
        simp only [Picture.copyDeep, r.next, e, h2, if_pos h1, List.nil_append]
        split
        · rfl
        · next hne =>
          have ho := List.mem_of_getElem? h2
          obtain ⟨p, hp⟩ := hrel o ho hne
          rw [(r.wfs hP hR (hl o ho) hp).2]
      · obtain ⟨d, e1, hd⟩ := r.forest.sibs j h2
        refine ⟨d, ?_, fun x hx => ?_⟩
        · simp only [Picture.copyDeep, r.next, e, if_neg (hidx h1), e1]
          split <;> rfl
        · have hx' := (hR.forest.wf.sib j (by rw [← hR.live]; exact r.live j h2) x (by rw [e1]; simp [hx])).1
          have := Picture.Rest.old h hR (j := x) (by rw [hR.live]; exact hx')
          rw [r.next] at this
          simp [Picture.copyDeep, hd x hx, hidx this]
    · intro j hj
      rcases hlive j hj with ⟨h1, o, h2⟩ | ⟨h1, h2⟩
      · have hq : (P.copyDeep i).forest.par j = (R.copyDeep i).forest.par j := by
          simp only [Picture.copyDeep, r.next, e, h2, if_pos h1]
          split
          · rfl
          · next hne =>
            have ho := List.mem_of_getElem? h2
            obtain ⟨p, hp⟩ := hrel o ho hne
            rw [(r.wfs hP hR (hl o ho) hp).1, hp]
        rw [← hq]
        cases hp : (P.copyDeep i).forest.par j with
        | none => rfl
        | some p =>
          have := (hQ.forest.wf.par j (by rw [← hQ.live]; exact hj) p hp).1
          rw [← hQ.live] at this
          simp [Option.filter, this]
      · have h3 : (P.copyDeep i).forest.par j = P.forest.par j := by
          simp only [Picture.copyDeep, if_neg (hidx h1)]; split <;> rfl
        have h4 : (R.copyDeep i).forest.par j = R.forest.par j := by
          simp only [Picture.copyDeep, r.next, e, if_neg (hidx h1)]; split <;> rfl
        rw [h3, h4, r.forest.par j h2]
        cases hp : R.forest.par j with
        | none => rfl
        | some p =>
          have hp' := (hR.forest.wf.par j (by rw [← hR.live]; exact r.live j h2) p hp).1
          have := Picture.Rest.old h hR (j := p) (by rw [hR.live]; exact hp')
          rw [r.next] at this
          simp [Option.filter, Picture.copyDeep, hidx this]

/-- One call that drops no handle. -/
theorem Picture.Rest.step (r : P.Rest R) (hs : Reachable s) (ha : s.Acyclic) (hP : Abs s P) (ht : Reachable t) (hR : Abs t R) {c : Call}
    (hc : c.drops = false) : Result.Rest (P.step c) (R.step c) := by
  have hmir := C93_step hs ha hP c
  unfold Picture.step at hmir ⊢
  by_cases hm : c.mentions.all P.live = true
  case neg => rw [if_neg hm]; trivial
  have hm' : c.mentions.all R.live = true := by
    rw [List.all_eq_true] at hm ⊢
    exact fun x hx => r.live x (hm x hx)
  rw [if_pos hm, if_pos hm']
  rw [if_pos hm] at hmir
  rw [List.all_eq_true] at hm
  have wfP := hP.live ▸ hP.forest.wf
  have wfR := hR.live ▸ hR.forest.wf
  cases c with
  | createElement tag =>
    simp only [Picture.act]
    split
    · trivial
    · exact r.add ht hR _
  | createNode ty text =>
    simp only [Picture.act]
    split
    · trivial
    · exact r.add ht hR _
  | append p c =>
    exact r.move hP hR (hm p (by simp [Call.mentions])) (hm c (by simp [Call.mentions])) fun _ =>
      r.forest.append (hm p (by simp [Call.mentions])) (hm c (by simp [Call.mentions]))
  | prepend p c =>
    exact r.move hP hR (hm p (by simp [Call.mentions])) (hm c (by simp [Call.mentions])) fun _ =>
      r.forest.prepend (hm p (by simp [Call.mentions])) (hm c (by simp [Call.mentions]))
  | insertAfter x y =>
    exact r.move hP hR (hm x (by simp [Call.mentions])) (hm y (by simp [Call.mentions])) fun hne =>
      (r.forest.insert wfP wfR r.live (hm x (by simp [Call.mentions])) (hm y (by simp [Call.mentions])) hne).1
  | insertBefore x y =>
    exact r.move hP hR (hm x (by simp [Call.mentions])) (hm y (by simp [Call.mentions])) fun hne =>
      (r.forest.insert wfP wfR r.live (hm x (by simp [Call.mentions])) (hm y (by simp [Call.mentions])) hne).2
  | detach i =>
    exact ⟨r.next, r.root, r.debug, r.live, r.look, r.stored, r.forest.detach (hm i (by simp [Call.mentions]))⟩
  | setText i x =>
    have hi := hm i (by simp [Call.mentions])
    simp only [Picture.act, r.look i hi, r.debug]
    split
    · trivial
    · exact r.edit i _
  | setId i x =>
    have hi := hm i (by simp [Call.mentions])
    simp only [Picture.act, r.noElement hi]
    split
    · trivial
    · exact r.edit i _
  | setTagName i x =>
    have hi := hm i (by simp [Call.mentions])
    simp only [Picture.act, r.noElement hi]
    split
    · trivial
    · exact r.edit i _
  | setAttribute i a =>
    exact r.set (hm i (by simp [Call.mentions])) fun n hn => hm n (by simp [Call.mentions, hn])
  | setAttributeChecked i a =>
    have hi := hm i (by simp [Call.mentions])
    simp only [Picture.act, r.noElement hi, r.refuses hi (v := a.value) fun n hn => hm n (by simp [Call.mentions, hn])]
    split
    · trivial
    · split
      · exact r
      · exact r.edit i _
  | setAttributeIfNone i a =>
    have hi := hm i (by simp [Call.mentions])
    simp only [Picture.act, r.look i hi]
    split
    · exact r
    · exact r.set hi fun n hn => hm n (by simp [Call.mentions, hn])
  | removeAttribute i name => exact r.edit i _
  | removeNode i =>
    simp only [Picture.act, (r.subtree hP (hm i (by simp [Call.mentions]))).1]
    exact r.remove _
  | drain i f =>
    simp only [Picture.act, r.drained hP (hm i (by simp [Call.mentions]))]
    exact r.remove _
  | copyNode i =>
    have hi := hm i (by simp [Call.mentions])
    simp only [Picture.act, r.copyable hs hP hi, r.look i hi]
    split
    · exact r.add ht hR _
    · trivial
  | copyNodeDeep i =>
    have hi := hm i (by simp [Call.mentions])
    obtain ⟨e, hl⟩ := r.subtree hP hi
    have hall : (P.subtree i).all R.copyable = (P.subtree i).all P.copyable := by
      rw [Bool.eq_iff_iff, List.all_eq_true, List.all_eq_true]
      exact forall₂_congr fun j hj => by rw [r.copyable hs hP (hl j hj)]
    simp only [Picture.act, e, hall] at hmir ⊢
    split
    · next hcp =>
      rw [if_pos hcp] at hmir
      obtain ⟨u, _, _, _, hQ⟩ := hmir
      exact r.copyDeep ht ha hs hP hR hi hQ
    · trivial
  | editText i x => exact r.edit i _
  | editAttribute i name a =>
    have hi := hm i (by simp [Call.mentions])
    have : R.replaces i name a = P.replaces i name a := by simp only [Picture.replaces, r.look i hi]
    simp only [Picture.act, this]
    split
    · exact r.edit i _
    · trivial
  | release i => simp [Call.drops] at hc

/-- The drop of a handle. -/
theorem Picture.Rest.release (r : P.Rest R) (hs : Reachable s) (hP : Abs s P) {i : NodeId} (hi : P.live i = true) : (P.release i).Rest R := by
  unfold Picture.release
  split
  · exact r
  next hh =>
  have wf := hP.live ▸ hP.forest.wf
  have hlt : ∀ j, P.live j = true → j ∈ List.range P.next := fun j hj => by
    rw [List.mem_range, hP.next]; exact hs.inv.liveBelow j (by rwa [← hP.live])
  have hf : ∀ j, P.live j = true → after (P.forest.sibs j) j ≠ some i := by
    intro j hj hc
    refine hh ?_
    unfold Picture.held
    simp only [Bool.or_eq_true]
    right
    rw [List.any_eq_true]
    exact ⟨j, hlt j hj, by simp [hj, hc]⟩
  have hsub : ∀ j, (P.live j && decide (j ≠ i)) = true → P.live j = true := fun j hj => by
    simp only [Bool.and_eq_true] at hj; exact hj.1
  exact ⟨r.next, r.root, r.debug, fun j hj => r.live j (hsub j hj), fun j hj => r.look j (hsub j hj),
    fun j hj => r.stored j (hsub j hj), r.forest.drop wf hi hf⟩

variable {X Y : Extras}

theorem Extras.Rest.unlink (x : X.Rest Y P.live) (hu : ∀ j, P.live j = true → ∀ i ∈ X.users j, P.live i = true) {Q Q' : Picture}
    (h : ∀ i, P.live i = true → Q'.look i = Q.look i) : (X.unlink Q).Rest (Y.unlink Q') P.live where
  top := x.top
  users := fun j hj => by
    simp only [Extras.unlink, x.users j hj]
    exact keepLast_congr fun i hi => by rw [h i (hu j hj i hi)]

theorem Extras.Rest.put (x : X.Rest Y P.live) (r : P.Rest R) (hu : ∀ j, P.live j = true → ∀ i ∈ X.users j, P.live i = true) (i : NodeId)
    (a : Attribute) : (X.put P i a).Rest (Y.put R i a) P.live where
  top := x.top
  users := fun j hj => by
    simp only [Extras.put]
    rw [(x.unlink hu fun k hk => (r.edit i _).look k hk).users j hj]

theorem Extras.Rest.grow (x : X.Rest Y P.live) (r : P.Rest R) {Q Q' : Picture} (q : Q.Rest Q')
    (hold : ∀ j, Q.live j = true → ¬ (P.next ≤ j ∧ j < Q.next) → P.live j = true)
    (hnew : ∀ j, P.next ≤ j → j < Q.next → Q.live j = true) : (X.grow P Q).Rest (Y.grow R Q') Q.live where
  top := fun j hj => by
    simp only [Extras.grow, r.next, q.next]
    split
    · rfl
    · next hn => exact x.top j (hold j hj hn)
  users := fun j hj => by
    simp only [Extras.grow, r.next, q.next]
    split
    · rfl
    · next hn =>
      rw [x.users j (hold j hj hn)]
      congr 1
      refine List.flatMap_congr fun n hm => ?_
      rw [List.mem_range'_1] at hm
      have key : ∀ a b c : Nat, a ≤ b ∧ b < a + (c - a) → b < c := by intro a b c; omega
      rw [q.look n (hnew n hm.1 (key _ _ _ hm))]

theorem Extras.Rest.step (x : X.Rest Y P.live) (r : P.Rest R) (hs : Reachable s) (hP : Abs s P) (hX : X.Of s) {c : Call}
    (hc : c.drops = false) {Q Q' : Picture} (e : P.step c = .state Q) (q : Q.Rest Q') :
    (X.step P Q c).Rest (Y.step R Q' c) Q.live := by
  have hu : ∀ j, P.live j = true → ∀ i ∈ X.users j, P.live i = true := fun j hj i hi => by
    rw [hP.live] at hj ⊢
    rw [hX.users j hj] at hi
    exact hs.inv.link.back j hj i hi
  unfold Picture.step at e
  split at e
  case isFalse => simp at e
  next hm =>
  rw [List.all_eq_true] at hm
  have added : ∀ {d}, Q = P.add d → (X.grow P Q).Rest (Y.grow R Q') Q.live := fun {d} hq => by
    refine x.grow r q (fun j hj hn => ?_) (fun j h1 h2 => ?_)
    · subst hq
      simp only [Picture.add, Bool.or_eq_true, decide_eq_true_eq] at hj hn
      refine hj.resolve_left fun h => hn ?_
      subst h
      exact ⟨Nat.le_refl _, Nat.lt_succ_self _⟩
    · subst hq
      have key : ∀ a b : Nat, a ≤ b → b < a + 1 → b = a := by intro a b; omega
      simp [Picture.add, key _ _ h1 h2]
  have moved : ∀ {a b F}, P.move a b F = .state Q → Q.live = P.live := fun {a b F} h => by
    unfold Picture.move at h
    split at h
    · simp at h
    split at h
    · simp at h
    split at h
    · simp at h
    cases h; rfl
  have wasSet : ∀ {i a}, P.set i a = .state Q → Q.live = P.live := fun {i a} h => by
    unfold Picture.set at h
    split at h
    · simp at h
    · cases h; rfl
  have joined : ∀ (y : NodeId) (o o' : Option NodeId), o' = o → (X.join y o).Rest (Y.join y o') P.live := fun y o o' h =>
    ⟨fun j hj => by simp only [Extras.join, h, x.top j hj], x.users⟩
  cases c with
  | createElement tag =>
    simp only [Picture.act] at e
    split at e
    · simp at e
    · exact added (Result.state.inj e).symm
  | createNode ty text =>
    simp only [Picture.act] at e
    split at e
    · simp at e
    · exact added (Result.state.inj e).symm
  | append p c =>
    rw [moved e]
    exact joined c _ _ (by rw [x.top p (hm p (by simp [Call.mentions]))])
  | prepend p c =>
    rw [moved e]
    exact joined c _ _ (by rw [x.top p (hm p (by simp [Call.mentions]))])
  | insertAfter a b =>
    rw [moved e]
    exact joined b _ _ (x.top a (hm a (by simp [Call.mentions])))
  | insertBefore a b =>
    rw [moved e]
    exact joined b _ _ (x.top a (hm a (by simp [Call.mentions])))
  | detach i => cases e; exact x
  | setText i t =>
    simp only [Picture.act] at e
    split at e
    · simp at e
    · cases e; exact x
  | setId i t =>
    simp only [Picture.act] at e
    split at e
    · simp at e
    · cases e; exact x
  | setTagName i t =>
    simp only [Picture.act] at e
    split at e
    · simp at e
    · cases e; exact x
  | setAttribute i a =>
    rw [wasSet e]
    exact x.put r hu i a
  | setAttributeChecked i a =>
    have hi := hm i (by simp [Call.mentions])
    simp only [Extras.step, r.refuses hi (v := a.value) fun n hn => hm n (by simp [Call.mentions, hn])]
    simp only [Picture.act] at e
    split at e
    · simp at e
    split at e
    · next h => cases e; rw [if_pos h]; rw [if_pos h]; exact x
    · next h => cases e; rw [if_neg h]; rw [if_neg h]; exact x.put r hu i a
  | setAttributeIfNone i a =>
    have hi := hm i (by simp [Call.mentions])
    simp only [Extras.step, r.look i hi]
    simp only [Picture.act] at e
    split at e
    · next h => cases e; rw [if_pos h]; rw [if_pos h]; exact x
    · next h => rw [wasSet e, if_neg h]; rw [if_neg h]; exact x.put r hu i a
  | removeAttribute i name =>
    cases e
    exact x.unlink hu q.look
  | removeNode i =>
    cases e
    exact x.unlink hu q.look
  | drain i f =>
    cases e
    exact x.unlink hu q.look
  | copyNode i =>
    simp only [Picture.act] at e
    split at e
    · exact added (Result.state.inj e).symm
    · simp at e
  | copyNodeDeep i =>
    simp only [Picture.act] at e
    split at e
    case isFalse => simp at e
    cases e
    refine x.grow r q (fun j hj hn => ?_) (fun j h1 h2 => ?_)
    · simp only [Picture.copyDeep, Bool.or_eq_true, Bool.and_eq_true, decide_eq_true_eq] at hj hn
      exact hj.resolve_left hn
    · simp only [Picture.copyDeep] at h1 h2
      simp [Picture.copyDeep, h1, h2]
  | editText i t => cases e; exact x
  | editAttribute i name a =>
    simp only [Picture.act] at e
    split at e
    · cases e; exact x
    · simp at e
  | release i => simp [Call.drops] at hc

end

end Svgdom
