import Verif.Proof.Edit

/-! Every call is a tree move or a sequence of elementary steps. -/

namespace Svgdom

open Relation

/-- Elements have a non-empty name. -/
def NodeData.tagOk (d : NodeData) : Prop := d.nodeType = .element → d.tagName ≠ .name []

/-- Only elements have tag names and ids. -/
def NodeData.named (d : NodeData) : Prop := d.nodeType ≠ .element → d.tagName = .name [] ∧ d.id = []

/-- Elements have no text. -/
def NodeData.silent (d : NodeData) : Prop := d.nodeType = .element → d.text = []

/-- Data of a node made by `create_element` or `create_node`. -/
def NodeData.newOk (d : NodeData) : Prop := d.tagOk ∧ d.nodeType ≠ .root ∧ d.named ∧ d.silent

/-- Elementary steps of the composite calls. -/
inductive Inner : St → St → Prop where
  | new {s t : St} {n : NodeId} (d : NodeData) : d.attributes = [] → d.linkedNodes = [] → d.newOk → s.newNode d = .ok (t, n) →
      Inner s t
  | leaf {s t : St} (p c : NodeId) : s.live p = true → s.live c = true → s.firstChild c = none → c ≠ s.rootId →
      s.append p c = .ok t → Inner s t
  | detach {s : St} (i : NodeId) : s.live i = true → Inner s (s.detached i)
  | data {s : St} (i : NodeId) (f : NodeData → NodeData) : s.live i = true → (∀ d, (f d).attributes = d.attributes) →
      (∀ d, (f d).linkedNodes = d.linkedNodes) → (∀ d, (f d).storageKey = d.storageKey) →
      (∀ d, (f d).nodeType = d.nodeType) → (∀ d, d.tagOk → (f d).tagOk) →
      (s.debug = true → ((s.data i).named → (f (s.data i)).named) ∧ ((s.data i).silent → (f (s.data i)).silent)) → Inner s (s.setD i f)
  | set {s t : St} {r : Option DomError} (i : NodeId) (a : Attribute) : s.live i = true →
      (∀ n, a.value.linkNode = some n → s.live n = true) → s.setAttributeChecked i a = .ok (t, r) → Inner s t
  | unset {s : St} (i : NodeId) (name : AName) : s.live i = true → Inner s (s.delAttr i name)
  | finish {s t : St} (i : NodeId) : s.live i = true → s.finishRemove i = .ok t → Inner s t

abbrev Inners := ReflTransGen Inner

theorem Inner.inv {s t : St} (h : Inv s) (st : Inner s t) : Inv t := by
  cases st with
  | new d ha hn _ e => exact (h.newNode ha hn e).1
  | leaf p c hp hc _ _ e => exact (h.append hp hc e).1
  | detach i hi => exact h.detached hi
  | data i f _ ha hn hk _ _ _ => exact h.setD i f ha hn hk
  | set i a hi ht e => exact h.setChecked hi ht e
  | unset i name hi => exact h.delAttr hi name
  | finish i hi e =>
    obtain ⟨t', e', h', _⟩ := finishRemove_ok h hi
    rw [e] at e'; cases e'; exact h'

theorem Inner.live {s t : St} (h : Inv s) (st : Inner s t) {j : NodeId} (hj : s.live j = true) : t.live j = true := by
  cases st with
  | new d ha hn _ e => rw [(h.newNode ha hn e).2.2.2]; simp [hj]
  | leaf p c hp hc _ _ e => rw [(h.append hp hc e).2.live]; exact hj
  | detach i hi => exact hj
  | data i f _ ha hn hk _ _ _ => exact hj
  | set i a hi ht e =>
    rcases setChecked_cases h hi e with ⟨_, _, rfl, _⟩ | ⟨_, rfl, hr⟩ <;> exact hj
  | unset i name hi => exact hj
  | finish i hi e =>
    obtain ⟨t', e', h', _, hl, _⟩ := finishRemove_ok h hi
    rw [e] at e'; cases e'; rw [hl]; exact hj

theorem Inner.rootId {s t : St} (h : Inv s) (st : Inner s t) : t.rootId = s.rootId := by
  cases st with
  | new d ha hn _ e =>
    obtain ⟨sl, key, _, e3⟩ := newNode_ok h d
    rw [e3] at e
    cases e
    rfl
  | leaf p c hp hc _ _ e => exact (h.append hp hc e).2.rootId
  | detach i hi => rfl
  | data i f _ ha hn hk _ _ _ => rfl
  | set i a hi ht e =>
    rcases setChecked_cases h hi e with ⟨_, _, rfl, _⟩ | ⟨_, rfl, hr⟩ <;> rfl
  | unset i name hi => rfl
  | finish i hi e =>
    obtain ⟨t', e', h', _, _, _, hr, _⟩ := finishRemove_ok h hi
    rw [e] at e'; cases e'; exact hr

theorem Inners.inv {s t : St} (h : Inv s) (st : Inners s t) : Inv t := by
  induction st with
  | refl => exact h
  | tail _ st ih => exact st.inv ih

theorem Inners.rootId {s t : St} (h : Inv s) (st : Inners s t) : t.rootId = s.rootId := by
  induction st with
  | refl => rfl
  | tail st1 st ih => rw [st.rootId (Inners.inv h st1), ih]

theorem Inners.live {s t : St} (h : Inv s) (st : Inners s t) {j : NodeId} (hj : s.live j = true) : t.live j = true := by
  induction st with
  | refl => exact hj
  | tail st1 st ih => exact st.live (Inners.inv h st1) ih

/-! ### Neighbours of live nodes are live -/

theorem Inv.firstChild_live {s : St} (h : Inv s) {i c : NodeId} (hi : s.live i = true) (e : s.firstChild i = some c) :
    s.live c = true := by
  obtain ⟨F, hT⟩ := h.tree
  rw [hT.reps.shows.first i hi] at e
  exact (hT.reps.wf.kids i hi c (List.mem_of_mem_head? e)).1

theorem Inv.nextSibling_live {s : St} (h : Inv s) {i c : NodeId} (hi : s.live i = true) (e : s.nextSibling i = some c) :
    s.live c = true := by
  obtain ⟨F, hT⟩ := h.tree
  rw [hT.reps.shows.next i hi] at e
  exact (hT.reps.wf.sib i hi c (after_mem e)).1

/-- Both ends of an iterator are live. -/
def Children.Live (s : St) (it : Children) : Prop := ∀ c, it.next = some c → s.live c = true

theorem Inv.children_live {s : St} (h : Inv s) {i : NodeId} (hi : s.live i = true) : (s.children i).Live s :=
  fun _ e => h.firstChild_live hi e

theorem Inv.childrenNext_live {s : St} (h : Inv s) {it it' : Children} {c : NodeId} (hl : it.Live s)
    (e : s.childrenNext it = (some c, it')) : s.live c = true ∧ it'.Live s := by
  unfold St.childrenNext at e
  split at e
  · simp at e
  · split at e
    · next n hn =>
      simp only [Prod.mk.injEq, Option.some.injEq] at e
      obtain ⟨rfl, rfl⟩ := e
      refine ⟨hl _ hn, ?_⟩
      intro c hc
      exact h.nextSibling_live (hl _ hn) hc
    · simp at e

theorem Children.Live.mono {s t : St} {it : Children} (h : Inv s) (st : Inners s t) (hl : it.Live s) : it.Live t :=
  fun c hc => st.live h (hl c hc)

/-! ### remove_node -/

theorem removeAttributes_inner {s t : St} (h : Inv s) {i : NodeId} (hi : s.live i = true) {l : List AName}
    (e : s.removeAttributes i l = .ok t) : Inners s t := by
  induction l generalizing s with
  | nil => simp only [St.removeAttributes, Except.ok.injEq] at e; subst e; exact .refl
  | cons n ns ih =>
    simp only [St.removeAttributes, bind_ok, St.removeAttribute_ok h.link hi, Except.ok.injEq, exists_eq_left'] at e
    exact .head (.unset i n hi) (ih (h.delAttr hi n) hi e)

theorem unlinkIncoming_inner {s t : St} (h : Inv s) {i : NodeId} {l : List NodeId}
    (hl : ∀ j ∈ l, s.live j = true) (e : s.unlinkIncoming i l = .ok t) : Inners s t := by
  induction l generalizing s with
  | nil => simp only [St.unlinkIncoming, Except.ok.injEq] at e; subst e; exact .refl
  | cons n ns ih =>
    simp only [St.unlinkIncoming, bind_ok] at e
    obtain ⟨s1, e1, e2⟩ := e
    have st := removeAttributes_inner h (hl n (by simp)) e1
    exact st.trans (ih (st.inv h) (fun j hj => st.live h (hl j (by simp [hj]))) e2)

theorem remove_inner (k : Nat) :
    (∀ (s t : St) (i : NodeId), Inv s → s.live i = true → St.removeAux k s i = .ok t → Inners s t) ∧
    (∀ (s t : St) (it : Children), Inv s → it.Live s → St.removeKids k s it = .ok t → Inners s t) := by
  induction k with
  | zero => exact ⟨fun _ _ _ _ _ e => by simp [St.removeAux] at e, fun _ _ _ _ _ e => by simp [St.removeKids] at e⟩
  | succ k ih =>
    constructor
    · intro s t i h hi e
      simp only [St.removeAux, bind_ok] at e
      obtain ⟨s1, e1, s2, e2, s3, e3, s4, e4, e5⟩ := e
      have t1 := removeAttributes_inner h hi e1
      have h1 := t1.inv h
      have l1 := t1.live h hi
      have t2 := unlinkIncoming_inner h1 (h1.link.back i l1) e2
      have h2 := t2.inv h1
      have l2 := t2.live h1 l1
      have t3 := ih.2 _ _ _ h2 (h2.children_live l2) e3
      have h3 := t3.inv h2
      have l3 := t3.live h2 l2
      have := detach_inv e4
      subst this
      exact t1.trans (t2.trans (t3.trans (.head (.detach i l3) (.single (.finish i l3 e5)))))
    · intro s t it h hl e
      simp only [St.removeKids] at e
      split at e
      · cases e; exact .refl
      · next c it' hn =>
        simp only [bind_ok] at e
        obtain ⟨s1, e1, e2⟩ := e
        obtain ⟨hc, hl'⟩ := h.childrenNext_live hl hn
        have t1 := ih.1 _ _ _ h hc e1
        exact t1.trans (ih.2 _ _ _ (t1.inv h) (hl'.mono h t1) e2)

theorem removeNode_inner {s t : St} (h : Inv s) {i : NodeId} (hi : s.live i = true) (e : s.removeNode i = .ok t) :
    Inners s t := (remove_inner s.fuel).1 s t i h hi e

theorem drain_inner {f : St → NodeId → Bool} (k : Nat) : ∀ (s t : St) (o : Option NodeId) (c c' : Nat), Inv s →
    (∀ n, o = some n → s.live n = true) → St.drainAux f k s o c = .ok (t, c') → Inners s t := by
  induction k with
  | zero => intro s t o c c' h hl e; simp [St.drainAux] at e
  | succ k ih =>
    intro s t o c c' h hl e
    cases o with
    | none => simp [St.drainAux] at e; rw [e.1]
    | some n =>
      have hn := hl n rfl
      simp only [St.drainAux] at e
      split at e
      · rw [bind_ok] at e
        obtain ⟨s1, e1, e2⟩ := e
        have t1 := removeNode_inner h hn e1
        exact t1.trans (ih _ _ _ _ _ (t1.inv h) (fun m hm => t1.live h (h.nextSibling_live hn hm)) e2)
      · have hx : ∃ s1 c1, Inners s s1 ∧ St.drainAux f k s1 (s1.nextSibling n) c1 = .ok (t, c') := by
          split at e
          · rw [bind_ok] at e
            obtain ⟨⟨s1, c1⟩, e1, e2⟩ := e
            exact ⟨s1, c1, ih _ _ _ _ _ h (fun m hm => h.firstChild_live hn hm) e1, e2⟩
          · exact ⟨s, c, .refl, e⟩
        obtain ⟨s1, c1, t1, e2⟩ := hx
        exact t1.trans (ih _ _ _ _ _ (t1.inv h) (fun m hm => (t1.inv h).nextSibling_live (t1.live h hn) hm) e2)

/-! ### Creation and copies -/

theorem createElement_inner {s t : St} {tag : TagName} {n : NodeId} (e : s.createElement tag = .ok (t, n)) : Inner s t := by
  unfold St.createElement at e
  split at e
  · simp at e
  · next ht => exact .new _ rfl rfl ⟨fun _ => ht, by simp [NodeData.fresh], fun hh => absurd rfl hh, fun _ => rfl⟩ e

theorem createNode_inner {s t : St} {ty : NodeType} {x : Str} {n : NodeId} (e : s.createNode ty x = .ok (t, n)) : Inner s t := by
  simp only [St.createNode, bind_ok] at e
  obtain ⟨_, h, e⟩ := e
  refine .new _ rfl rfl ⟨fun hh => ?_, fun hh => ?_, fun _ => ⟨rfl, rfl⟩, fun hh => ?_⟩ e
  · have hh : ty = .element := hh
    subst hh
    simp [assertOrPanic] at h
  · have hh : ty = .root := hh
    subst hh
    simp [assertOrPanic] at h
  · have hh : ty = .element := hh
    subst hh
    simp [assertOrPanic] at h

theorem inner_new {s t : St} {n : NodeId} (h : Inv s) {d : NodeData} (ha : d.attributes = []) (hn : d.linkedNodes = [])
    (e : s.newNode d = .ok (t, n)) : t.live n = true ∧ t.firstChild n = none ∧ n ≠ t.rootId := by
  obtain ⟨_, hn', _, hlv⟩ := h.newNode ha hn e
  refine ⟨by rw [hlv]; simp [hn'], ?_⟩
  obtain ⟨sl, key, _, e3⟩ := newNode_ok h d
  rw [e3] at e
  cases e
  refine ⟨by simp [St.firstChild, St.alloc], ?_⟩
  obtain ⟨F, hT⟩ := h.tree
  exact (Nat.ne_of_lt (hT.liveBelow _ hT.root)).symm

theorem setAttribute_checked {s t : St} {i : NodeId} {a : Attribute} (e : s.setAttribute i a = .ok t) :
    s.setAttributeChecked i a = .ok (t, none) := by
  simp only [St.setAttribute, bind_ok] at e
  obtain ⟨⟨s1, r⟩, e1, e2⟩ := e
  cases r with
  | none => simp [pure, Except.pure] at e2; rw [e1, e2]
  | some err => simp [throw, throwThe, MonadExceptOf.throw] at e2

theorem setChecked_links {s t : St} (h : Inv s) {i : NodeId} (hi : s.live i = true) {a : Attribute} {r : Option DomError}
    (e : s.setAttributeChecked i a = .ok (t, r)) : t.links = s.links := by
  rcases setChecked_cases h hi e with ⟨_, _, rfl, _⟩ | ⟨_, rfl, _⟩ <;> rfl

theorem copyAttributes_inner {s t : St} (h : Inv s) {src elem : NodeId} (hs : s.live src = true) (hi : s.live elem = true)
    {l : List Attribute}
    (ht : ∀ a ∈ l, ∀ n, a.value.linkNode = some n → s.live n = true) (e : s.copyAttributes src elem l = .ok t) :
    Inners s t ∧ t.links = s.links := by
  induction l generalizing s with
  | nil => simp only [St.copyAttributes, Except.ok.injEq] at e; subst e; exact ⟨.refl, rfl⟩
  | cons a as ih =>
    simp only [St.copyAttributes, bind_ok] at e
    obtain ⟨s1, e1, e2⟩ := e
    have e1' := setAttribute_checked e1
    have st : Inner s s1 := .set elem a hi (ht a (by simp)) e1'
    have e3 : s1.copyAttributes src elem as = .ok t := by
      split at e2
      · rw [bind_ok] at e2
        obtain ⟨_, _, e2⟩ := e2
        exact e2
      · exact e2
    obtain ⟨h1, h2⟩ := ih (st.inv h) (st.live h hs) (st.live h hi)
      (fun b hb n hn => st.live h (ht b (by simp [hb]) n hn)) e3
    exact ⟨.head st h1, h2.trans (setChecked_links h hi e1')⟩

theorem copyNode_inner {s t : St} (h : Inv s) {i n : NodeId} (hi : s.live i = true) (e : s.copyNode i = .ok (t, n)) :
    Inners s t ∧ t.live n = true ∧ t.firstChild n = none ∧ n ≠ t.rootId := by
  unfold St.copyNode at e
  split at e
  · rw [bind_ok] at e
    obtain ⟨⟨s1, el⟩, e1, e2⟩ := e
    rw [bind_ok] at e2
    obtain ⟨s2, e2, e3⟩ := e2
    simp only [pure, Except.pure, Except.ok.injEq, Prod.mk.injEq] at e3
    obtain ⟨rfl, rfl⟩ := e3
    have st := createElement_inner e1
    have hnew : s1.live el = true ∧ s1.firstChild el = none ∧ el ≠ s1.rootId := by
      unfold St.createElement at e1
      split at e1
      · simp at e1
      · exact inner_new h rfl rfl e1
    have hi1 := st.live h hi
    obtain ⟨t2, hk⟩ := copyAttributes_inner (st.inv h) hi1 hnew.1 ((st.inv h).link.targets i hi1) e2
    refine ⟨.head st t2, t2.live (st.inv h) hnew.1, ?_, ?_⟩
    · rw [St.firstChild, hk]; exact hnew.2.1
    · rw [Inners.rootId (st.inv h) t2]; exact hnew.2.2
  · have st := createNode_inner e
    simp only [St.createNode, bind_ok] at e
    obtain ⟨_, _, e⟩ := e
    exact ⟨.single st, inner_new h rfl rfl e⟩

theorem deepCopy_inner (k : Nat) : ∀ (s t : St) (par : NodeId) (it : Children), Inv s → s.live par = true → it.Live s →
    St.deepCopyAux k s par it = .ok t → Inners s t := by
  induction k with
  | zero => intro s t par it h hp hl e; simp [St.deepCopyAux] at e
  | succ k ih =>
    intro s t par it h hp hl e
    simp only [St.deepCopyAux] at e
    split at e
    · cases e; exact .refl
    · next c it' hn =>
      rw [bind_ok] at e
      obtain ⟨⟨s1, n⟩, e1, e⟩ := e
      rw [bind_ok] at e
      obtain ⟨s2, e2, e⟩ := e
      obtain ⟨hc, hl'⟩ := h.childrenNext_live hl hn
      obtain ⟨t1, hnl, hnf, hnr⟩ := copyNode_inner h hc e1
      have h1 := t1.inv h
      have st2 : Inner s1 s2 := .leaf par n (t1.live h hp) hnl hnf hnr e2
      have t2 : Inners s s2 := t1.tail st2
      have h2 := t2.inv h
      have hx : ∃ s3, Inners s2 s3 ∧ St.deepCopyAux k s3 par it' = .ok t := by
        split at e
        · rw [bind_ok] at e
          obtain ⟨s3, e3, e⟩ := e
          exact ⟨s3, ih _ _ _ _ h2 (st2.live h1 hnl) (h2.children_live (t2.live h hc)) e3, e⟩
        · exact ⟨s2, .refl, e⟩
      obtain ⟨s3, t3, e⟩ := hx
      have t13 : Inners s s3 := t2.trans t3
      exact t13.trans (ih _ _ _ _ (t13.inv h) (t13.live h hp) (hl'.mono h t13) e)

theorem copyNodeDeep_inner {s t : St} (h : Inv s) {i n : NodeId} (hi : s.live i = true) (e : s.copyNodeDeep i = .ok (t, n)) :
    Inners s t := by
  simp only [St.copyNodeDeep, bind_ok] at e
  obtain ⟨⟨s1, r⟩, e1, s2, e2, e3⟩ := e
  simp only [pure, Except.pure, Except.ok.injEq, Prod.mk.injEq] at e3
  obtain ⟨rfl, rfl⟩ := e3
  obtain ⟨t1, hr, _⟩ := copyNode_inner h hi e1
  exact t1.trans (deepCopy_inner _ _ _ _ _ (t1.inv h) hr ((t1.inv h).children_live (t1.live h hi)) e2)

/-! ### All calls -/

/-- The four calls that move a node to another place. -/
def Op.isMove : Op → Bool
  | .append _ _ => true
  | .prepend _ _ => true
  | .insertAfter _ _ => true
  | .insertBefore _ _ => true
  | _ => false

theorem map_ok {ε α β : Type} {x : Except ε α} {f : α → β} {b : β} (h : x.map f = .ok b) : ∃ a, x = .ok a ∧ f a = b := by
  cases x with
  | error _ => simp [Except.map] at h
  | ok a => simp [Except.map] at h; exact ⟨a, rfl, h⟩

theorem op_inner {s t : St} (h : Inv s) (op : Op) (hl : ∀ i ∈ op.handles, s.live i = true) (e : op.run s = .ok t)
    (hm : op.isMove = false) : Inners s t := by
  cases op with
  | append _ _ => simp [Op.isMove] at hm
  | prepend _ _ => simp [Op.isMove] at hm
  | insertAfter _ _ => simp [Op.isMove] at hm
  | insertBefore _ _ => simp [Op.isMove] at hm
  | createElement tag =>
    obtain ⟨⟨t', n⟩, e', rfl⟩ := map_ok e
    clear e
    have e := e'
    exact .single (createElement_inner e)
  | createNode ty x =>
    obtain ⟨⟨t', n⟩, e', rfl⟩ := map_ok e
    clear e
    have e := e'
    exact .single (createNode_inner e)
  | detach i =>
    have := detach_inv e
    subst this
    exact .single (.detach i (hl i (by simp [Op.handles])))
  | setText i x =>
    simp only [Op.run, St.setText, bind_ok, pure_ok] at e
    obtain ⟨_, hdb, rfl⟩ := e
    exact .single (.data i _ (hl i (by simp [Op.handles])) (fun _ => rfl) (fun _ => rfl) (fun _ => rfl) (fun _ => rfl)
      (fun _ h => h) (fun hd => ⟨id, fun _ he => by
        have he : s.nodeType i = .element := he
        simp [St.debugAssert, hd, St.isElement, he] at hdb⟩))
  | setId i x =>
    simp only [Op.run, St.setId, bind_ok, pure_ok] at e
    obtain ⟨_, hdb, rfl⟩ := e
    exact .single (.data i _ (hl i (by simp [Op.handles])) (fun _ => rfl) (fun _ => rfl) (fun _ => rfl) (fun _ => rfl)
      (fun _ h => h) (fun hd => ⟨fun _ hne => by
        have hne : s.nodeType i ≠ .element := hne
        simp [St.debugAssert, hd, St.isElement, hne] at hdb, id⟩))
  | setTagName i x =>
    simp only [Op.run, St.setTagName, bind_ok] at e
    obtain ⟨_, hdb, e⟩ := e
    split at e
    · rw [bind_ok] at e; obtain ⟨_, e, _⟩ := e; simp [throw, throwThe, MonadExceptOf.throw] at e
    · next hne =>
      simp only [pure_ok] at e
      obtain ⟨_, _, rfl⟩ := e
      exact .single (.data i _ (hl i (by simp [Op.handles])) (fun _ => rfl) (fun _ => rfl) (fun _ => rfl) (fun _ => rfl)
        (fun _ _ _ => hne) (fun hd => ⟨fun _ hne => by
          have hne : s.nodeType i ≠ .element := hne
          simp [St.debugAssert, hd, St.isElement, hne] at hdb, id⟩))
  | setAttribute i a =>
    exact .single (.set i a (hl i (by simp [Op.handles])) (fun n hn => hl n (by simp [Op.handles, hn]))
      (setAttribute_checked e))
  | setAttributeChecked i a =>
    obtain ⟨⟨t', r⟩, e', rfl⟩ := map_ok e
    clear e
    have e := e'
    exact .single (.set i a (hl i (by simp [Op.handles])) (fun n hn => hl n (by simp [Op.handles, hn])) e)
  | setAttributeIfNone i a =>
    simp only [Op.run, St.setAttributeIfNone] at e
    split at e
    · exact .single (.set i a (hl i (by simp [Op.handles])) (fun n hn => hl n (by simp [Op.handles, hn]))
        (setAttribute_checked e))
    · cases e; exact .refl
  | removeAttribute i name =>
    have hi := hl i (by simp [Op.handles])
    simp only [Op.run, St.removeAttribute_ok h.link hi, Except.ok.injEq] at e
    subst e
    exact .single (.unset i name hi)
  | removeNode i => exact removeNode_inner h (hl i (by simp [Op.handles])) e
  | drain i f =>
    obtain ⟨⟨t', n⟩, e', rfl⟩ := map_ok e
    clear e
    have e := e'
    exact drain_inner _ _ _ _ _ _ h (fun m hm => h.firstChild_live (hl i (by simp [Op.handles])) hm) e
  | copyNode i =>
    obtain ⟨⟨t', n⟩, e', rfl⟩ := map_ok e
    clear e
    have e := e'
    exact (copyNode_inner h (hl i (by simp [Op.handles])) e).1
  | copyNodeDeep i =>
    obtain ⟨⟨t', n⟩, e', rfl⟩ := map_ok e
    clear e
    have e := e'
    exact copyNodeDeep_inner h (hl i (by simp [Op.handles])) e

theorem Inv.call {s t : St} (h : Inv s) (op : Op) (hl : ∀ i ∈ op.handles, s.live i = true) (e : op.run s = .ok t) :
    Inv t := by
  cases hm : op.isMove with
  | false => exact (op_inner h op hl e hm).inv h
  | true =>
    cases op <;> simp [Op.isMove] at hm
    · exact (h.append (hl _ (by simp [Op.handles])) (hl _ (by simp [Op.handles])) e).1
    · exact (h.prepend (hl _ (by simp [Op.handles])) (hl _ (by simp [Op.handles])) e).1
    · exact (h.insertAfter (hl _ (by simp [Op.handles])) (hl _ (by simp [Op.handles])) e).1
    · exact (h.insertBefore (hl _ (by simp [Op.handles])) (hl _ (by simp [Op.handles])) e).1

/-- The invariant holds in every reachable state. -/
theorem Reachable.inv {s : St} (h : Reachable s) : Inv s := by
  induction h with
  | init d => exact inv_init d
  | call op _ hl e ih => exact ih.call op hl e
  | free i _ hi hr ih => exact ih.free hi hr
  | edit _ he ih => exact he.inv ih

end Svgdom
