import Verif.Spec.Users
import Verif.Proof.Picture
import Verif.Proof.Roots
import Verif.Proof.Whole

/-! The order of `linked_nodes` and the remembered roots. -/

set_option autoImplicit false

namespace Svgdom

/-! ### Lists -/

theorem keepLast_count (l : List NodeId) : keepLast (fun i => l.count i) l = l := by
  have : ∀ (c : NodeId → Nat) (l : List NodeId), (∀ i, l.count i ≤ c i) → keepLast c l = l := by
    intro c l
    induction l with
    | nil => intro _; rfl
    | cons i l ih =>
      intro h
      have h1 := h i
      rw [List.count_cons_self] at h1
      rw [keepLast, if_pos (by omega), ih fun j => by have := h j; rw [List.count_cons] at this; omega]
  exact this _ l fun _ => Nat.le_refl _

theorem keepLast_congr {c d : NodeId → Nat} : ∀ {l : List NodeId}, (∀ i ∈ l, c i = d i) → keepLast c l = keepLast d l
  | [], _ => rfl
  | i :: l, h => by
    rw [keepLast, keepLast, h i (by simp), keepLast_congr fun j hj => h j (by simp [hj])]

/-- Erasing a first occurrence that is not kept. -/
theorem keepLast_erase {c : NodeId → Nat} {a : NodeId} : ∀ {l : List NodeId}, c a < l.count a → keepLast c (l.erase a) = keepLast c l
  | [], h => by simp at h
  | i :: l, h => by
    by_cases e : i = a
    · subst e
      rw [List.count_cons_self] at h
      rw [List.erase_cons_head, keepLast, if_neg (by omega)]
    · rw [List.count_cons_of_ne e] at h
      rw [List.erase_cons_tail (by simpa using e), keepLast, keepLast, keepLast_erase h, List.count_erase_of_ne e]

/-- `l'` arises from `l` by erasing first occurrences. -/
inductive Erased : List NodeId → List NodeId → Prop where
  | refl (l : List NodeId) : Erased l l
  | step {l l' : List NodeId} (a : NodeId) : Erased (l.erase a) l' → Erased l l'

theorem Erased.trans {l m n : List NodeId} (h : Erased l m) (k : Erased m n) : Erased l n := by
  induction h with
  | refl => exact k
  | step a _ ih => exact .step a (ih k)

theorem Erased.count {l m : List NodeId} (h : Erased l m) (i : NodeId) : m.count i ≤ l.count i := by
  induction h with
  | refl => exact Nat.le_refl _
  | step a _ ih => exact Nat.le_trans ih (List.erase_sublist.count_le i)

theorem Erased.eq {l m : List NodeId} (h : Erased l m) : m = keepLast (fun i => m.count i) l := by
  induction h with
  | refl l => exact (keepLast_count l).symm
  | @step l m a h ih =>
    by_cases ha : a ∈ l
    · rw [← keepLast_erase (a := a)]
      · exact ih
      · have := h.count a
        rw [List.count_erase_self] at this
        have := List.count_pos_iff.2 ha
        omega
    · rwa [List.erase_of_not_mem ha] at ih

/-! ### Removals -/

/-- References are removed and roots are left alone. -/
structure Less (s t : St) : Prop where
  users : ∀ j, Erased (s.linkedNodes j) (t.linkedNodes j)
  root : ∀ j, (t.links j).root = (s.links j).root

theorem Less.refl (s : St) : Less s s := ⟨fun _ => .refl _, fun _ => rfl⟩

theorem Less.trans {s t u : St} (h : Less s t) (k : Less t u) : Less s u :=
  ⟨fun j => (h.users j).trans (k.users j), fun j => (k.root j).trans (h.root j)⟩

theorem less_setD {s : St} {i : NodeId} {f : NodeData → NodeData} (h : ∀ d, (f d).linkedNodes = d.linkedNodes) : Less s (s.setD i f) := by
  refine ⟨fun j => ?_, fun j => rfl⟩
  have : (s.setD i f).linkedNodes j = s.linkedNodes j := by
    simp only [St.linkedNodes, St.setD, upd]
    split
    · next e => rw [h, e]
    · rfl
  rw [this]; exact .refl _

theorem less_delAttr {s : St} {i : NodeId} {name : AName} : Less s (s.delAttr i name) := by
  refine ⟨fun j => ?_, fun j => rfl⟩
  show Erased _ (if s.target i name = some j then (s.linkedNodes j).erase i else s.linkedNodes j)
  split
  · exact .step i (.refl _)
  · exact .refl _

theorem detached_root (s : St) (i j : NodeId) : ((s.detached i).links j).root = (s.links j).root := rfl

theorem less_detached {s : St} {i : NodeId} : Less s (s.detached i) := ⟨fun _ => .refl _, fun j => detached_root s i j⟩

theorem less_finish {s t : St} {i : NodeId} (e : s.finishRemove i = .ok t) : Less s t := by
  unfold St.finishRemove at e
  split at e
  · simp only [bind_ok, pure_ok] at e
    obtain ⟨sl, _, rfl⟩ := e
    exact ⟨(less_setD (s := s) (i := i) (f := fun d => { d with storageKey := none }) fun _ => rfl).users, fun _ => rfl⟩
  · cases e; exact .refl _

theorem less_removeAttributes {s t : St} (h : Inv s) {i : NodeId} (hi : s.live i = true) {l : List AName}
    (e : s.removeAttributes i l = .ok t) : Less s t := by
  induction l generalizing s with
  | nil => simp only [St.removeAttributes, Except.ok.injEq] at e; subst e; exact .refl _
  | cons n ns ih =>
    simp only [St.removeAttributes, bind_ok, St.removeAttribute_ok h.link hi, Except.ok.injEq, exists_eq_left'] at e
    exact less_delAttr.trans (ih (h.delAttr hi n) hi e)

theorem less_unlinkIncoming {s t : St} (h : Inv s) {i : NodeId} {l : List NodeId}
    (hl : ∀ j ∈ l, s.live j = true) (e : s.unlinkIncoming i l = .ok t) : Less s t := by
  induction l generalizing s with
  | nil => simp only [St.unlinkIncoming, Except.ok.injEq] at e; subst e; exact .refl _
  | cons n ns ih =>
    simp only [St.unlinkIncoming, bind_ok] at e
    obtain ⟨s1, e1, e2⟩ := e
    have st := removeAttributes_inner h (hl n (by simp)) e1
    exact (less_removeAttributes h (hl n (by simp)) e1).trans (ih (st.inv h) (fun j hj => st.live h (hl j (by simp [hj]))) e2)

theorem less_remove (k : Nat) :
    (∀ (s t : St) (i : NodeId), Inv s → s.live i = true → St.removeAux k s i = .ok t → Less s t) ∧
    (∀ (s t : St) (it : Children), Inv s → it.Live s → St.removeKids k s it = .ok t → Less s t) := by
  induction k with
  | zero => exact ⟨fun _ _ _ _ _ e => by simp [St.removeAux] at e, fun _ _ _ _ _ e => by simp [St.removeKids] at e⟩
  | succ k ih =>
    constructor
    · intro s t i h hi e
      simp only [St.removeAux, bind_ok] at e
      obtain ⟨s1, e1, s2, e2, s3, e3, s4, e4, e5⟩ := e
      have t1 := removeAttributes_inner h hi e1
      have h1 := t1.inv h
      have l1 := t1.live h hi
      have t2 := unlinkIncoming_inner h1 (h1.link.back i l1) e2
      have h2 := t2.inv h1
      have l2 := t2.live h1 l1
      have := detach_inv e4
      subst this
      exact (less_removeAttributes h hi e1).trans ((less_unlinkIncoming h1 (h1.link.back i l1) e2).trans
        ((ih.2 _ _ _ h2 (h2.children_live l2) e3).trans (less_detached.trans (less_finish e5))))
    · intro s t it h hl e
      simp only [St.removeKids] at e
      split at e
      · cases e; exact .refl _
      · next c it' hn =>
        simp only [bind_ok] at e
        obtain ⟨s1, e1, e2⟩ := e
        obtain ⟨hc, hl'⟩ := h.childrenNext_live hl hn
        have t1 := (remove_inner k).1 _ _ _ h hc e1
        exact (ih.1 _ _ _ h hc e1).trans (ih.2 _ _ _ (t1.inv h) (hl'.mono h t1) e2)

theorem less_removeNode {s t : St} (h : Inv s) {i : NodeId} (hi : s.live i = true) (e : s.removeNode i = .ok t) : Less s t :=
  (less_remove s.fuel).1 s t i h hi e

theorem less_drain {f : St → NodeId → Bool} (k : Nat) : ∀ (s t : St) (o : Option NodeId) (c c' : Nat), Inv s →
    (∀ n, o = some n → s.live n = true) → St.drainAux f k s o c = .ok (t, c') → Less s t := by
  induction k with
  | zero => intro s t o c c' h hl e; simp [St.drainAux] at e
  | succ k ih =>
    intro s t o c c' h hl e
    cases o with
    | none => simp [St.drainAux] at e; rw [e.1]; exact .refl _
    | some n =>
      have hn := hl n rfl
      simp only [St.drainAux] at e
      split at e
      · rw [bind_ok] at e
        obtain ⟨s1, e1, e2⟩ := e
        have t1 := removeNode_inner h hn e1
        exact (less_removeNode h hn e1).trans (ih _ _ _ _ _ (t1.inv h) (fun m hm => t1.live h (h.nextSibling_live hn hm)) e2)
      · have hx : ∃ s1 c1, Inners s s1 ∧ Less s s1 ∧ St.drainAux f k s1 (s1.nextSibling n) c1 = .ok (t, c') := by
          split at e
          · rw [bind_ok] at e
            obtain ⟨⟨s1, c1⟩, e1, e2⟩ := e
            exact ⟨s1, c1, drain_inner k _ _ _ _ _ h (fun m hm => h.firstChild_live hn hm) e1,
              ih _ _ _ _ _ h (fun m hm => h.firstChild_live hn hm) e1, e2⟩
          · exact ⟨s, c, .refl, .refl _, e⟩
        obtain ⟨s1, c1, t1, l1, e2⟩ := hx
        exact l1.trans (ih _ _ _ _ _ (t1.inv h) (fun m hm => (t1.inv h).nextSibling_live (t1.live h hn) hm) e2)

/-! ### Copies -/

/-- Nodes are made; their roots are `r`. -/
def Tops (s t : St) (r : Option NodeId) : Prop :=
  s.nextId ≤ t.nextId ∧ (∀ j, j < s.nextId → (t.links j).root = (s.links j).root) ∧
    ∀ j, s.nextId ≤ j → j < t.nextId → (t.links j).root = r

theorem Tops.trans {s t u : St} {r : Option NodeId} (h : Tops s t r) (k : Tops t u r) : Tops s u r := by
  refine ⟨Nat.le_trans h.1 k.1, fun j hj => ?_, fun j h1 h2 => ?_⟩
  · rw [k.2.1 j (Nat.lt_of_lt_of_le hj h.1), h.2.1 j hj]
  · by_cases hj : j < t.nextId
    · rw [k.2.1 j hj, h.2.2 j h1 hj]
    · exact k.2.2 j (Nat.le_of_not_lt hj) h2

theorem newNode_tops {s t : St} (h : Inv s) {d : NodeData} {n : NodeId} (e : s.newNode d = .ok (t, n)) : Tops s t none ∧ n = s.nextId ∧
    t.nextId = s.nextId + 1 := by
  obtain ⟨sl, key, _, e3⟩ := newNode_ok h d
  rw [e3] at e
  cases e
  refine ⟨⟨Nat.le_succ _, fun j hj => ?_, fun j h1 h2 => ?_⟩, rfl, rfl⟩
  · have : j ≠ s.nextId := Nat.ne_of_lt hj
    simp [St.alloc, upd, this]
  · have : j = s.nextId := Nat.le_antisymm (Nat.lt_succ_iff.1 h2) h1
    simp [St.alloc, upd, this]

theorem copyNode_tops {s t : St} (h : Inv s) (ok : NodesOk s) {i n : NodeId} (hi : s.live i = true) (e : s.copyNode i = .ok (t, n)) :
    Tops s t none ∧ n = s.nextId ∧ t.nextId = s.nextId + 1 := by
  have g := (copyNode_grown h ok hi e).2.2
  have hnx : t.nextId = s.nextId + 1 := g.next
  unfold St.copyNode at e
  split at e
  · rw [bind_ok] at e
    obtain ⟨⟨s1, el⟩, e1, e2⟩ := e
    rw [bind_ok] at e2
    obtain ⟨s2, e2, e3⟩ := e2
    simp only [pure, Except.pure, Except.ok.injEq, Prod.mk.injEq] at e3
    obtain ⟨rfl, rfl⟩ := e3
    have st := createElement_inner e1
    unfold St.createElement at e1
    split at e1
    · simp at e1
    · obtain ⟨h1, h2, h3⟩ := newNode_tops h e1
      have hnew := inner_new h rfl rfl e1
      have hi1 := st.live h hi
      obtain ⟨t2, hk⟩ := copyAttributes_inner (st.inv h) hi1 hnew.1 ((st.inv h).link.targets i hi1) e2
      have hn : s2.nextId = s1.nextId := by rw [hnx, h3]
      exact ⟨⟨by rw [hn]; exact h1.1, fun j hj => by rw [hk]; exact h1.2.1 j hj, fun j a b => by
        rw [hk]; exact h1.2.2 j a (by rw [← hn]; exact b)⟩, h2, hnx⟩
  · simp only [St.createNode, bind_ok] at e
    obtain ⟨_, _, e⟩ := e
    exact newNode_tops h e

theorem deepCopy_tops (k : Nat) : ∀ (s t : St) (par : NodeId) (it : Children), Inv s → NodesOk s → s.live par = true → it.Live s →
    St.deepCopyAux k s par it = .ok t → Tops s t (some ((s.links par).root.getD par)) := by
  induction k with
  | zero => intro s t par it h ok hp hl e; simp [St.deepCopyAux] at e
  | succ k ih =>
    intro s t par it h ok hp hl e
    simp only [St.deepCopyAux] at e
    split at e
    · cases e
      exact ⟨Nat.le_refl _, fun _ _ => rfl, fun j h1 h2 => absurd h2 (Nat.not_lt.2 h1)⟩
    · next c it' hn =>
      rw [bind_ok] at e
      obtain ⟨⟨s1, n⟩, e1, e⟩ := e
      rw [bind_ok] at e
      obtain ⟨s2, e2, e⟩ := e
      obtain ⟨hc, hl'⟩ := h.childrenNext_live hl hn
      obtain ⟨h1, ok1, g1⟩ := copyNode_grown h ok hc e1
      obtain ⟨w1, hnn, hnx⟩ := copyNode_tops h ok hc e1
      have hnl : s1.live n = true := (g1.live n).2 (.inr (by simp))
      have hpl : s1.live par = true := (g1.live par).2 (.inl hp)
      obtain ⟨h2, f2⟩ := h1.append hpl hnl e2
      have ok2 := ok1.frame f2.data f2.live f2.rootId
      have g2 := g1.frame f2
      have hpar := h.liveBelow par hp
      obtain ⟨hne, hrs⟩ := append_roots h1 hpl hnl e2
      have hr1 := (hrs n).trans (if_pos rfl)
      have hr2 : ∀ j, j ≠ n → (s2.links j).root = (s1.links j).root := fun j hj => (hrs j).trans (if_neg hj)
      have hroot : (s1.links par).root = (s.links par).root := w1.2.1 par hpar
      have w2 : Tops s s2 (some ((s.links par).root.getD par)) := by
        refine ⟨by rw [f2.nextId]; exact w1.1, fun j hj => ?_, fun j a b => ?_⟩
        · rw [hr2 j (by rw [hnn]; exact Nat.ne_of_lt hj)]; exact w1.2.1 j hj
        · rw [f2.nextId, hnx] at b
          have : j = n := by rw [hnn]; exact Nat.le_antisymm (Nat.lt_succ_iff.1 b) a
          rw [this, hr1, hroot]
      have hn2 : s2.live n = true := (g2.live n).2 (.inr (by simp))
      have hx : ∃ s3, Tops s2 s3 (some ((s.links par).root.getD par)) ∧ Inv s3 ∧ NodesOk s3 ∧ Inners s2 s3 ∧
          St.deepCopyAux k s3 par it' = .ok t := by
        split at e
        · rw [bind_ok] at e
          obtain ⟨s3, e3, e⟩ := e
          have hl2 : (s2.children c).Live s2 := h2.children_live ((g2.live c).2 (.inl hc))
          have w := ih _ _ _ _ h2 ok2 hn2 hl2 e3
          have st := deepCopy_inner k _ _ _ _ h2 hn2 hl2 e3
          rw [hr1, hroot] at w
          exact ⟨s3, w, st.inv h2, Inners.nodesOk h2 ok2 st, st, e⟩
        · exact ⟨s2, ⟨Nat.le_refl _, fun _ _ => rfl, fun j h1 h2 => absurd h2 (Nat.not_lt.2 h1)⟩, h2, ok2, .refl, e⟩
      obtain ⟨s3, w3, h3, ok3, st3, e⟩ := hx
      have w03 := w2.trans w3
      have live2 : ∀ {j}, s.live j = true → s3.live j = true := fun hj => st3.live h2 ((g2.live _).2 (.inl hj))
      have w4 := ih _ _ _ _ h3 ok3 (live2 hp) (fun c hc => live2 (hl' c hc)) e
      rw [w03.2.1 par hpar] at w4
      exact w03.trans w4

theorem copyNodeDeep_tops {s t : St} (h : Inv s) (ok : NodesOk s) {i n : NodeId} (hi : s.live i = true)
    (e : s.copyNodeDeep i = .ok (t, n)) : (∀ j, j < s.nextId → (t.links j).root = (s.links j).root) ∧
      (t.links s.nextId).root = none ∧ ∀ j, s.nextId < j → j < t.nextId → (t.links j).root = some s.nextId := by
  simp only [St.copyNodeDeep, bind_ok] at e
  obtain ⟨⟨s1, r⟩, e1, s2, e2, e3⟩ := e
  simp only [pure, Except.pure, Except.ok.injEq, Prod.mk.injEq] at e3
  obtain ⟨rfl, rfl⟩ := e3
  obtain ⟨h1, ok1, g1⟩ := copyNode_grown h ok hi e1
  obtain ⟨w1, hrr, hnx⟩ := copyNode_tops h ok hi e1
  have w2 := deepCopy_tops _ _ _ _ _ h1 ok1 ((g1.live _).2 (.inr (by simp))) (h1.children_live ((g1.live i).2 (.inl hi))) e2
  have hlt : s.nextId < s1.nextId := by rw [hnx]; exact Nat.lt_succ_self _
  have hroot : (s1.links s.nextId).root = none := w1.2.2 _ (Nat.le_refl _) hlt
  rw [hrr, hroot] at w2
  refine ⟨fun j hj => ?_, ?_, fun j a b => w2.2.2 j (by rw [hnx]; exact a) b⟩
  · rw [w2.2.1 j (Nat.lt_trans hj hlt), w1.2.1 j hj]
  · rw [w2.2.1 _ hlt, hroot]

/-! ### The calls -/

section
variable {s t : St} {P Q : Picture} {X : Extras}

theorem Extras.Of.less (hX : X.Of s) (h : Reachable s) (ht : Reachable t) (hQ : Abs t Q) (hl : t.live = s.live) (w : Less s t) :
    (X.unlink Q).Of t where
  top := fun i hi => by
    rw [w.root]
    exact hX.top i (by rwa [hl] at hi)
  users := fun j hj => by
    have hj' : s.live j = true := by rwa [hl] at hj
    rw [(w.users j).eq]
    show keepLast _ (X.users j) = _
    rw [hX.users j hj']
    refine keepLast_congr fun i hi => ?_
    have hi' : t.live i = true := by rw [hl]; exact h.inv.link.back j hj' i hi
    rw [C16_count ht hi' hj, hQ.look i hi']
    rfl

theorem Extras.Of.put (hX : X.Of s) (h : Reachable s) (ha : s.Acyclic) (hP : Abs s P) {i : NodeId} (hi : s.live i = true)
    (a : Attribute) : (X.put P i a).Of (s.putAttr i a.stored) := by
  obtain ⟨u, e, hu, _, hQ⟩ := mirrors_removeAttribute h ha hP hi a.name
  have e' : s.removeAttribute i a.name = .ok u := e
  rw [St.removeAttribute_ok h.inv.link hi] at e'
  cases e'
  have hY := hX.less h hu hQ rfl less_delAttr
  refine ⟨fun j hj => hY.top j hj, fun j hj => ?_⟩
  have := hY.users j hj
  have hname : a.stored.name = a.name := by
    unfold Attribute.stored; split <;> rfl
  have hlink : a.stored.value.linkNode = a.value.linkNode := by
    unfold Attribute.stored
    split
    · next n e => rw [linkValue_linkNode, e]
    · rfl
  simp only [Extras.put]
  rw [this]
  simp only [St.linkedNodes, St.delAttr, St.putAttr, hname, hlink, names_eq]

theorem Extras.Of.grow (hX : X.Of s) (h : Reachable s) (ht : Reachable t) (hP : Abs s P) (hQ : Abs t Q) {l : List NodeId}
    (g : Grown s t l)
    (hnew : ∀ i ∈ l, ∀ a ∈ t.attributes i, ∀ n, a.value.linkNode = some n → s.live n = true)
    (hr : (∀ j, j < s.nextId → (t.links j).root = (s.links j).root) ∧
      (t.links s.nextId).root = none ∧ ∀ j, s.nextId < j → j < t.nextId → (t.links j).root = some s.nextId) :
    (X.grow P Q).Of t := by
  have hlen : t.nextId - s.nextId = l.length := by rw [g.next]; exact Nat.add_sub_cancel_left _ _
  have hmem : ∀ j, j ∈ l ↔ s.nextId ≤ j ∧ j < t.nextId := fun j => by
    rw [g.order, List.mem_range'_1, g.next]
  have hold : ∀ j, t.live j = true → ¬ (s.nextId ≤ j ∧ j < t.nextId) → s.live j = true := fun j hj hn =>
    ((g.live j).1 hj).resolve_right fun hl => hn ((hmem j).1 hl)
  refine ⟨fun j hj => ?_, fun j hj => ?_⟩
  · simp only [Extras.grow, hP.next, hQ.next]
    split
    · next hn =>
      split
      · next e => rw [e]; exact hr.2.1.symm
      · next e => exact (hr.2.2 j (Nat.lt_of_le_of_ne hn.1 (Ne.symm e)) hn.2).symm
    · next hn =>
      have hj' := hold j hj hn
      rw [hr.1 j (h.inv.liveBelow j hj'), hX.top j hj']
  · simp only [Extras.grow, hP.next, hQ.next]
    split
    · next hn =>
      symm
      rw [List.eq_nil_iff_forall_not_mem]
      intro i hi
      have hi' := ht.inv.link.back j hj i hi
      rw [← List.count_pos_iff, ht.inv.link.count i j hi' hj, refs_pos] at hi
      obtain ⟨a, ha, hv⟩ := hi
      have : s.live j = true := by
        rcases (g.live i).1 hi' with ho | ho
        · rw [g.attrs i ho] at ha
          exact h.inv.link.targets i ho a ha j hv
        · exact hnew i ho a ha j hv
      exact absurd (h.inv.liveBelow j this) (Nat.not_lt.2 hn.1)
    · next hn =>
      have hj' := hold j hj hn
      rw [g.linked j hj', hX.users j hj', hlen, ← g.order]
      congr 1
      refine List.flatMap_congr fun n hn => ?_
      rw [hQ.look n ((g.live n).2 (.inr hn))]
      rfl

theorem Tops.roots (w : Tops s t none) (e : t.nextId = s.nextId + 1) :
    (∀ j, j < s.nextId → (t.links j).root = (s.links j).root) ∧
      (t.links s.nextId).root = none ∧ ∀ j, s.nextId < j → j < t.nextId → (t.links j).root = some s.nextId := by
  refine ⟨w.2.1, w.2.2 _ (Nat.le_refl _) (by rw [e]; exact Nat.lt_succ_self _), fun j a b => ?_⟩
  rw [e] at b
  exact absurd a (Nat.not_lt.2 (Nat.lt_succ_iff.1 b))

end

/-! ### Parsed documents -/

theorem RootSafeReachable.rootInv {s : St} (h : RootSafeReachable s) : RootInv s := by
  induction h with
  | init d => exact rootInv_init d
  | call op hs hl hsafe e ih => exact ih.call hs.reachable.inv op hl hsafe e
  | free i hs hi hr ih => exact ih.free hs.reachable.inv hr
  | edit hs he ih => exact rootInv_same ih he.rootId (by obtain ⟨_, hT⟩ := hs.reachable.inv.tree; exact hT.root) he.live he.links

theorem parsed_of {L : Lib} {debug : Bool} {x : Xml} {p : PSt} {T : Trees} {G : Forest} {s2 s3 u t : St} (f : Front L debug x p T G s2 s3)
    (hp : Prepared s3 (G.prune (T.gone p.dom.styleNode)) (T.keep p.dom.styleNode) u t) : (parsedExtras L x).Of t := by
  have w := whole f hp
  have hs := f.resolves.same
  have hr0 : p.dom.rootId = 0 := f.root
  have hlive : ∀ j, t.live j = true ↔ j = 0 ∨ j ∈ T.pre := fun j => by
    rw [hp.removed.live, hp.ti.live, front_live f, hr0]
  have hl1 : ∀ j, p.dom.live j = true ↔ j = 0 ∨ j ∈ T.pre := fun j => by
    rw [← hr0, ← front_live f, hs.live, f.removed.live]
  constructor
  · intro j hj
    have hrl : p.dom.live p.dom.rootId = true := f.adds.built.rootLive
    obtain ⟨n, e1⟩ := f.drain
    obtain ⟨m, e2⟩ := hp.drain
    have k1 := (less_drain _ _ _ _ _ _ f.adds.built.inv (fun n hn => f.adds.built.inv.firstChild_live hrl hn) e1).root j
    have k2 := (less_drain _ _ _ _ _ _ hp.ti.built.inv (fun n hn => hp.ti.built.inv.firstChild_live hp.ti.built.rootLive hn) e2).root j
    rw [k2, hp.ti.links, hs.links, k1]
    have hroot : ∀ {i}, p.dom.live i = true → p.dom.InDoc i → (if i = 0 then none else some 0) = (p.dom.links i).root := by
      intro i hi hd
      have hR : RootInv p.dom := f.adds.built.root.rootInv
      by_cases h0 : i = 0
      · rw [if_pos h0, h0, ← hr0, hR.own]
      · rw [if_neg h0, hR.cached i hi hd (by rw [hr0]; exact h0), hr0]
    refine hroot ((hl1 j).2 ((hlive j).1 hj)) ?_
    rcases (hlive j).1 hj with rfl | hj
    · rw [← hr0]; exact .refl
    · exact (mem_pre_kids f.adds.desc hrl f.adds.of ((hl1 j).2 (.inr hj))).1 hj |>.to_reflTransGen
  · intro j hj
    have hj3 : s3.live j = true := by rw [front_live f, hr0]; exact (hlive j).1 hj
    have hju : u.live j = true := by rw [hp.ti.live]; exact hj3
    show parsedUsers L x j = _
    rw [w.users j ((hlive j).1 hj), ← hp.ti.linked j]
    refine ((hp.removed.linked j hju).eq_of_length (List.Perm.length_eq (List.perm_iff_count.2 fun i => ?_))).symm
    by_cases hi : t.live i = true
    · have hiu : u.live i = true := by rw [← hp.removed.live]; exact hi
      rw [C16_count hp.built.reachable hi hj, C16_count hp.ti.built.reachable hiu hju, hp.attrs i (by rw [← hp.ti.live]; exact hiu),
        hp.ti.unmarked i (by simp)]
    · rw [List.count_eq_zero_of_not_mem fun hm => hi (hp.built.inv.link.back j hj i hm),
        List.count_eq_zero_of_not_mem fun hm => hi (by rw [hp.removed.live]; exact hp.ti.built.inv.link.back j hju i hm)]

end Svgdom
