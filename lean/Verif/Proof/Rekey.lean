import Verif.Proof.Drop

/-!
The calls look at the storage keys only where nodes are removed: replacing the keys of other nodes commutes with every call.
-/

set_option autoImplicit false

namespace Svgdom

/-- Other storage keys for the nodes outside `O`. -/
def St.rekey (O : NodeId → Bool) (K : NodeId → Option Nat) (s : St) : St :=
  { s with data := fun j => if O j then s.data j else { s.data j with storageKey := K j } }

variable {O : NodeId → Bool} {K : NodeId → Option Nat}

section
variable (s : St)

theorem rekey_links : (s.rekey O K).links = s.links := rfl
theorem rekey_live : (s.rekey O K).live = s.live := rfl
theorem rekey_nextId : (s.rekey O K).nextId = s.nextId := rfl
theorem rekey_rootId : (s.rekey O K).rootId = s.rootId := rfl
theorem rekey_slab : (s.rekey O K).slab = s.slab := rfl
theorem rekey_debug : (s.rekey O K).debug = s.debug := rfl
theorem rekey_upgrade (w : Option NodeId) : (s.rekey O K).upgrade w = s.upgrade w := rfl
theorem rekey_debugAssert (c : Bool) : (s.rekey O K).debugAssert c = s.debugAssert c := rfl
theorem rekey_setL (i : NodeId) (f : Links → Links) : (s.rekey O K).setL i f = (s.setL i f).rekey O K := rfl
theorem rekey_children (i : NodeId) : (s.rekey O K).children i = s.children i := rfl
theorem rekey_childrenNext (it : Children) : (s.rekey O K).childrenNext it = s.childrenNext it := rfl
theorem rekey_hasChildren (i : NodeId) : (s.rekey O K).hasChildren i = s.hasChildren i := rfl
theorem rekey_firstChild (i : NodeId) : (s.rekey O K).firstChild i = s.firstChild i := rfl
theorem rekey_nextSibling (i : NodeId) : (s.rekey O K).nextSibling i = s.nextSibling i := rfl
theorem rekey_fuel : (s.rekey O K).fuel = s.fuel := rfl

theorem rekey_attributes (i : NodeId) : (s.rekey O K).attributes i = s.attributes i := by
  simp only [St.attributes, St.rekey]; split <;> rfl
theorem rekey_linkedNodes (i : NodeId) : (s.rekey O K).linkedNodes i = s.linkedNodes i := by
  simp only [St.linkedNodes, St.rekey]; split <;> rfl
theorem rekey_idOf (i : NodeId) : (s.rekey O K).idOf i = s.idOf i := by
  simp only [St.idOf, St.rekey]; split <;> rfl
theorem rekey_nodeType (i : NodeId) : (s.rekey O K).nodeType i = s.nodeType i := by
  simp only [St.nodeType, St.rekey]; split <;> rfl
theorem rekey_tagName (i : NodeId) : (s.rekey O K).tagName i = s.tagName i := by
  simp only [St.tagName, St.rekey]; split <;> rfl
theorem rekey_text (i : NodeId) : (s.rekey O K).text i = s.text i := by
  simp only [St.text, St.rekey]; split <;> rfl
theorem rekey_isElement (i : NodeId) : (s.rekey O K).isElement i = s.isElement i := by
  simp only [St.isElement, rekey_nodeType]
theorem rekey_hasAttribute (i : NodeId) (n : AName) : (s.rekey O K).hasAttribute i n = s.hasAttribute i n := by
  simp only [St.hasAttribute, rekey_attributes]
theorem rekey_ownLinkNames (i : NodeId) : (s.rekey O K).ownLinkNames i = s.ownLinkNames i := by
  simp only [St.ownLinkNames, rekey_attributes]
theorem rekey_linkNamesTo (l i : NodeId) : (s.rekey O K).linkNamesTo l i = s.linkNamesTo l i := by
  simp only [St.linkNamesTo, rekey_attributes]

theorem rekey_setD (i : NodeId) (f : NodeData → NodeData) (hf : ∀ d k, f { d with storageKey := k } = { f d with storageKey := k }) :
    (s.rekey O K).setD i f = (s.setD i f).rekey O K := by
  simp only [St.setD, St.rekey, St.mk.injEq, true_and, and_true]
  funext j
  simp only [upd]
  by_cases h : j = i
  · subst h
    by_cases h2 : O j = true
    · simp only [if_true, h2]
    · simp only [if_true, h2, if_false]; exact hf _ _
  · simp only [h, if_false]

end

theorem rekey_rekey (K' : NodeId → Option Nat) (s : St) : (s.rekey O K).rekey O K' = s.rekey O K' := by
  simp only [St.rekey, St.mk.injEq, true_and, and_true]
  funext j
  by_cases h : O j = true <;> simp [h]

/-- `x` with `f` applied to the result. -/
theorem map_bind' {ε α β γ : Type} (x : Except ε α) (f : α → Except ε β) (g : β → γ) :
    (x >>= f).map g = x >>= fun a => (f a).map g := by
  cases x <;> rfl

theorem bind_map' {ε α β γ : Type} (x : Except ε α) (g : α → β) (f : β → Except ε γ) :
    (x.map g >>= f) = x >>= fun a => f (g a) := by
  cases x <;> rfl

theorem ok_bind' {ε α β : Type} (a : α) (f : α → Except ε β) : ((Except.ok a : Except ε α) >>= f) = f a := rfl
theorem map_pure' {ε α β : Type} (a : α) (g : α → β) : (pure a : Except ε α).map g = pure (g a) := rfl
theorem map_ok' {ε α β : Type} (a : α) (g : α → β) : (Except.ok a : Except ε α).map g = .ok (g a) := rfl
theorem map_error' {ε α β : Type} (e : ε) (g : α → β) : (Except.error e : Except ε α).map g = .error e := rfl

/-! ### Tree -/

theorem rekey_detachCore (s : St) (held : List NodeId) (i : NodeId) :
    (s.rekey O K).detachCore held i = (s.detachCore held i).map (St.rekey O K) := by
  by_cases h : s.blocked held i
  · have h' : (s.rekey O K).blocked held i := h
    rw [St.detachCore_blocked _ _ _ h, St.detachCore_blocked _ _ _ h']; rfl
  · have h' : ¬ (s.rekey O K).blocked held i := h
    rw [St.detachCore_ok _ _ _ h, St.detachCore_ok _ _ _ h']; rfl

theorem rekey_detach (s : St) (i : NodeId) : (s.rekey O K).detach i = (s.detach i).map (St.rekey O K) :=
  rekey_detachCore s _ i

/-- Pull `rekey` out of everything that does not look at storage keys. -/
macro "rk" : tactic => `(tactic| simp only [rekey_setL, rekey_links, rekey_upgrade, rekey_debugAssert, rekey_detachCore, rekey_detach,
  rekey_attributes, rekey_linkedNodes, rekey_idOf, rekey_nodeType, rekey_tagName, rekey_text, rekey_isElement, rekey_hasAttribute,
  rekey_ownLinkNames, rekey_linkNamesTo, map_bind', bind_map', map_pure', map_ok', map_error', pure_bind])

theorem rekey_append (s : St) (p c : NodeId) : (s.rekey O K).append p c = (s.append p c).map (St.rekey O K) := by
  simp only [St.append]
  rk
  congr 1; funext _; congr 1; funext t
  generalize (((t.setL c _).setL p _).upgrade _) = o
  cases o <;> (simp only []; rk)

theorem rekey_prepend (s : St) (p c : NodeId) : (s.rekey O K).prepend p c = (s.prepend p c).map (St.rekey O K) := by
  simp only [St.prepend]
  rk
  congr 1; funext _; congr 1; funext t
  generalize ((t.setL c _).links p).firstChild = o
  cases o <;> (simp only [bind_assoc]; rk)

theorem rekey_insertAfter (s : St) (x y : NodeId) : (s.rekey O K).insertAfter x y = (s.insertAfter x y).map (St.rekey O K) := by
  simp only [St.insertAfter]
  rk
  congr 1; funext _; congr 1; funext t
  generalize ((t.setL y _).links x).nextSib = o
  cases o with
  | none =>
    simp only
    generalize ((t.setL y _).setL x _).upgrade _ = q
    cases q <;> (simp only [bind_assoc]; rk)
  | some n => simp only [bind_assoc]; rk; rfl

theorem rekey_insertBefore (s : St) (x y : NodeId) : (s.rekey O K).insertBefore x y = (s.insertBefore x y).map (St.rekey O K) := by
  simp only [St.insertBefore]
  rk
  congr 1; funext _; congr 1; funext t
  rcases Option.eq_none_or_eq_some (((t.setL y fun l =>
      { l with root := (t.links x).root, parent := (t.links x).parent, nextSib := some x }).setL x
        fun l => { l with prevSib := none }).upgrade
      ((t.setL y fun l =>
        { l with root := (t.links x).root, parent := (t.links x).parent, nextSib := some x }).links x).prevSib) with ho | ⟨n, ho⟩
  · simp only [ho]
    rk
    generalize (((t.setL y _).setL x _).setL x _).upgrade _ = q
    cases q <;> (simp only []; rk)
  · simp only [ho]; rk; rfl

/-! ### Attributes -/

theorem rekey_removeAttribute (s : St) (i : NodeId) (n : AName) :
    (s.rekey O K).removeAttribute i n = (s.removeAttribute i n).map (St.rekey O K) := by
  have hu : ∀ (s : St) v, (s.rekey O K).unlinkValue i v = (s.unlinkValue i v).map (St.rekey O K) := by
    intro s v
    simp only [St.unlinkValue]
    cases v.linkNode with
    | none => rfl
    | some t =>
      simp only []
      rk
      cases (s.linkedNodes t).findIdx? _ with
      | none => rfl
      | some k => simp only []; rk; rw [rekey_setD _ _ _ (fun _ _ => rfl)]
  have hfin : ∀ s : St, (s.rekey O K).setD i (fun d => { d with attributes := attrsRemove d.attributes n }) =
      (s.setD i fun d => { d with attributes := attrsRemove d.attributes n }).rekey O K :=
    fun s => rekey_setD _ _ _ (fun _ _ => rfl)
  simp only [St.removeAttribute]
  rk
  split
  · rfl
  · cases attrsGetValue (s.attributes i) n with
    | none => simp only []; rk; simp only [bind, Except.bind, hfin]
    | some v => simp only [hu]; rk; simp only [hfin]

theorem rekey_setAttributeChecked (s : St) (i : NodeId) (a : Attribute) :
    (s.rekey O K).setAttributeChecked i a = (s.setAttributeChecked i a).map (fun x => (x.1.rekey O K, x.2)) := by
  have h1 : ∀ (s : St) (a : Attribute), (s.rekey O K).setD i (fun d => { d with attributes := attrsInsert d.attributes a }) =
      (s.setD i fun d => { d with attributes := attrsInsert d.attributes a }).rekey O K :=
    fun s a => rekey_setD _ _ _ (fun _ _ => rfl)
  have h2 : ∀ (s : St) n, (s.rekey O K).setD n (fun d => { d with linkedNodes := d.linkedNodes ++ [i] }) =
      (s.setD n fun d => { d with linkedNodes := d.linkedNodes ++ [i] }).rekey O K :=
    fun s a => rekey_setD _ _ _ (fun _ _ => rfl)
  have hl : ∀ n fb, (s.rekey O K).setLinkAttribute i a.name n fb =
      (s.setLinkAttribute i a.name n fb).map (fun x => (x.1.rekey O K, x.2)) := by
    intro n fb
    simp only [St.setLinkAttribute]
    rk
    split
    · rfl
    · split
      · rfl
      · split
        · rfl
        · rw [rekey_removeAttribute]; rk; simp only [h1, h2]
  have hs : (s.rekey O K).setSimpleAttribute i a = (s.setSimpleAttribute i a).map (St.rekey O K) := by
    simp only [St.setSimpleAttribute]
    rw [rekey_removeAttribute]; rk; simp only [h1]
  simp only [St.setAttributeChecked]
  rk
  congr 1; funext _
  split <;> first | exact hl _ _ | (rw [hs]; rk)

theorem rekey_setAttribute (s : St) (i : NodeId) (a : Attribute) :
    (s.rekey O K).setAttribute i a = (s.setAttribute i a).map (St.rekey O K) := by
  simp only [St.setAttribute, rekey_setAttributeChecked]
  rk
  congr 1; funext x
  obtain ⟨t, r⟩ := x
  cases r <;> rfl

theorem rekey_removeAttributes {i : NodeId} : ∀ (l : List AName) (s : St),
    (s.rekey O K).removeAttributes i l = (s.removeAttributes i l).map (St.rekey O K)
  | [], s => rfl
  | n :: ns, s => by
    simp only [St.removeAttributes, rekey_removeAttribute]
    rk
    congr 1; funext t; exact rekey_removeAttributes ns t

theorem rekey_unlinkIncoming {i : NodeId} : ∀ (l : List NodeId) (s : St),
    (s.rekey O K).unlinkIncoming i l = (s.unlinkIncoming i l).map (St.rekey O K)
  | [], s => rfl
  | n :: ns, s => by
    simp only [St.unlinkIncoming, rekey_linkNamesTo, rekey_removeAttributes]
    rk
    congr 1; funext t; exact rekey_unlinkIncoming ns t

/-! ### Creation and copies -/

theorem rekey_newNode (s : St) (d : NodeData) (hn : O s.nextId = true) :
    (s.rekey O K).newNode d = (s.newNode d).map (fun x => (x.1.rekey O K, x.2)) := by
  have h1 : (s.rekey O K).alloc d = (s.alloc d).rekey O K := by
    simp only [St.alloc, St.rekey, St.mk.injEq, true_and, and_true]
    funext j
    simp only [upd]
    by_cases h : j = s.nextId
    · subst h; simp only [if_true, hn]
    · simp only [h, if_false]
  simp only [St.newNode, rekey_nextId, h1, rekey_slab]
  rk
  congr 1; funext x
  congr 2
  simp only [St.setD, St.rekey, St.mk.injEq, true_and, and_true]
  funext j
  simp only [upd]
  by_cases h : j = s.nextId
  · subst h; simp only [if_true, hn]
  · simp only [h, if_false]

theorem rekey_createElement (s : St) (tag : TagName) (hn : O s.nextId = true) :
    (s.rekey O K).createElement tag = (s.createElement tag).map (fun x => (x.1.rekey O K, x.2)) := by
  unfold St.createElement
  split
  · rfl
  · exact rekey_newNode s _ hn

theorem rekey_createNode (s : St) (ty : NodeType) (text : Str) (hn : O s.nextId = true) :
    (s.rekey O K).createNode ty text = (s.createNode ty text).map (fun x => (x.1.rekey O K, x.2)) := by
  simp only [St.createNode]
  rk
  rw [rekey_newNode s _ hn]

theorem rekey_copyAttributes {src elem : NodeId} : ∀ (l : List Attribute) (s : St),
    (s.rekey O K).copyAttributes src elem l = (s.copyAttributes src elem l).map (St.rekey O K)
  | [], s => rfl
  | a :: as, s => by
    simp only [St.copyAttributes, rekey_setAttribute]
    rk
    congr 1; funext t
    cases a.value.linkNode with
    | none => exact rekey_copyAttributes as t
    | some n => simp only []; rk; congr 1; funext _; exact rekey_copyAttributes as t

theorem rekey_copyNode (s : St) (i : NodeId) (hn : O s.nextId = true) :
    (s.rekey O K).copyNode i = (s.copyNode i).map (fun x => (x.1.rekey O K, x.2)) := by
  simp only [St.copyNode]
  rk
  cases s.nodeType i with
  | element =>
    simp only [rekey_createElement s _ hn]
    rk
    congr 1; funext x
    rw [rekey_copyAttributes]
    rk
  | _ => exact rekey_createNode s _ _ hn

/-- The keys of all nodes outside `O` are hidden. -/
abbrev St.mask (O : NodeId → Bool) (s : St) : St := s.rekey O (fun _ => none)

theorem Inners.nextId_le {a b : St} (ha : Inv a) (st : Inners a b) : a.nextId ≤ b.nextId := by
  induction st with
  | refl => exact Nat.le_refl _
  | tail st1 st ih => exact Nat.le_trans ih (st.nextId_le (Inners.inv ha st1))

theorem rekey_deepCopy {n0 : NodeId} (hO : ∀ j, n0 ≤ j → O j = true) (k : Nat) : ∀ (K : NodeId → Option Nat) (s : St)
    (par : NodeId) (it : Children),
    Inv (s.mask O) → n0 ≤ s.nextId → s.live par = true → it.Live s →
    St.deepCopyAux k (s.rekey O K) par it = (St.deepCopyAux k s par it).map (St.rekey O K) := by
  induction k with
  | zero => intros; rfl
  | succ k ih =>
    intro K s par it h hs hp hl
    simp only [St.deepCopyAux, rekey_childrenNext]
    cases hc : s.childrenNext it with
    | mk c it' =>
      cases c with
      | none => rfl
      | some c =>
        simp only [rekey_copyNode s c (hO _ hs)]
        rk
        cases e1 : s.copyNode c with
        | error e => rfl
        | ok x =>
          obtain ⟨s1, n⟩ := x
          have e1' : (s.mask O).copyNode c = .ok (s1.mask O, n) := by rw [rekey_copyNode s c (hO _ hs), e1]; rfl
          obtain ⟨hcl, hl'⟩ := h.childrenNext_live (s := s.mask O) hl hc
          obtain ⟨t1, hnl, hnf, hnr⟩ := copyNode_inner h hcl e1'
          have h1 := t1.inv h
          have hs1 : s.nextId ≤ s1.nextId := Inners.nextId_le (a := s.mask O) (b := s1.mask O) h t1
          show (s1.rekey O K).append par n >>= _ = s1.append par n >>= _
          rw [rekey_append]
          rk
          cases e2 : s1.append par n with
          | error e => rfl
          | ok s2 =>
            have e2' : (s1.mask O).append par n = .ok (s2.mask O) := by rw [rekey_append, e2]; rfl
            have hp1 : s1.live par = true := t1.live h hp
            obtain ⟨h2, f2⟩ := h1.append (t1.live h hp) hnl e2'
            have hs2 : n0 ≤ s2.nextId := by
              have : s2.nextId = s1.nextId := f2.nextId
              rw [this]; exact Nat.le_trans hs hs1
            have lv2 : ∀ j, s.live j = true → s2.live j = true := fun j hj => by
              have : s2.live = s1.live := f2.live
              rw [this]; exact t1.live h hj
            have hn2 : s2.live n = true := by
              have : s2.live = s1.live := f2.live
              rw [this]; exact hnl
            rw [ok_bind', ok_bind', rekey_hasChildren, rekey_children]
            by_cases hch : s2.hasChildren c = true
            · simp only [hch, if_true]
              have hl2 : (s2.children c).Live s2 := h2.children_live (lv2 c hcl)
              rw [ih K s2 n (s2.children c) h2 hs2 hn2 hl2]
              rk
              cases e3 : St.deepCopyAux k s2 n (s2.children c) with
              | error e => rfl
              | ok s3 =>
                have e3' : St.deepCopyAux k (s2.mask O) n (s2.children c) = .ok (s3.mask O) := by
                  rw [ih _ s2 n (s2.children c) h2 hs2 hn2 hl2, e3]; rfl
                have t3 := deepCopy_inner k _ _ _ _ h2 hn2 hl2 e3'
                exact ih K s3 par it' (t3.inv h2) (Nat.le_trans hs2 (Inners.nextId_le (a := s2.mask O) (b := s3.mask O) h2 t3)) (t3.live h2 (lv2 par hp))
                  (fun c hc => t3.live h2 (lv2 c (hl' c hc)))
            · simp only [hch, Bool.false_eq_true, if_false]
              exact ih K s2 par it' h2 hs2 (lv2 par hp) (fun c hc => lv2 c (hl' c hc))

theorem rekey_copyNodeDeep {s : St} (hO : ∀ j, s.nextId ≤ j → O j = true) (h : Inv (s.mask O)) {i : NodeId} (hi : s.live i = true) :
    (s.rekey O K).copyNodeDeep i = (s.copyNodeDeep i).map (fun x => (x.1.rekey O K, x.2)) := by
  have hn := hO _ (Nat.le_refl s.nextId)
  simp only [St.copyNodeDeep, rekey_copyNode s i hn]
  rk
  cases e1 : s.copyNode i with
  | error e => rfl
  | ok x =>
    obtain ⟨s1, n⟩ := x
    have e1' : (s.mask O).copyNode i = .ok (s1.mask O, n) := by rw [rekey_copyNode s i hn, e1]; rfl
    obtain ⟨t1, hnl, _⟩ := copyNode_inner h hi e1'
    have h1 := t1.inv h
    have := rekey_deepCopy hO s1.fuel K s1 n (s1.children i) h1 (Inners.nextId_le (a := s.mask O) (b := s1.mask O) h t1) hnl (h1.children_live (t1.live h hi))
    show (St.deepCopyAux s1.fuel (s1.rekey O K) n (s1.children i) >>= _) = _
    rw [this]
    rk
    rfl

/-! ### Removal -/

theorem rekey_finishRemove (s : St) {i : NodeId} (hi : O i = true) :
    (s.rekey O K).finishRemove i = (s.finishRemove i).map (St.rekey O K) := by
  have hk : ((s.rekey O K).data i) = s.data i := by simp [St.rekey, hi]
  have hd : (s.rekey O K).setD i (fun d => { d with storageKey := none }) =
      (s.setD i fun d => { d with storageKey := none }).rekey O K := by
    simp only [St.setD, St.rekey, St.mk.injEq, true_and, and_true]
    funext j
    simp only [upd]
    by_cases h : j = i
    · subst h; simp only [if_true, hi]
    · simp only [h, if_false]
  unfold St.finishRemove
  rw [hk]
  cases (s.data i).storageKey with
  | none => rfl
  | some key =>
    simp only [hd, rekey_slab]
    rk
    rfl

/-- `G` came from `F` by taking nodes out of their sibling sequences. -/
def Forest.Sub (G F : Forest) (live : NodeId → Bool) : Prop :=
  ∀ j, live j = true → (∀ c ∈ G.kids j, c ∈ F.kids j) ∧ (∀ c ∈ G.sibs j, c ∈ F.sibs j)

/-- The children of members are members. -/
def Forest.Closed (F : Forest) (live : NodeId → Bool) (Z : NodeId → Prop) : Prop :=
  ∀ i, live i = true → Z i → ∀ c ∈ F.kids i, Z c

theorem Forest.Sub.refl (F : Forest) (live : NodeId → Bool) : F.Sub F live := fun _ _ => ⟨fun _ h => h, fun _ h => h⟩

theorem Forest.Sub.trans {F G H : Forest} {live : NodeId → Bool} (h : H.Sub G live) (k : G.Sub F live) : H.Sub F live :=
  fun j hj => ⟨fun c hc => (k j hj).1 c ((h j hj).1 c hc), fun c hc => (k j hj).2 c ((h j hj).2 c hc)⟩

theorem Forest.WF.detach_sub {F : Forest} {live : NodeId → Bool} (h : F.WF live) (i : NodeId) : (F.detach i).Sub F live := by
  intro j hj
  refine ⟨fun c hc => List.mem_of_mem_erase hc, fun c hc => ?_⟩
  simp only [Forest.detach] at hc
  split at hc
  · next e => subst e; rw [List.mem_singleton.1 hc]; exact h.self_mem j hj
  · exact List.mem_of_mem_erase hc

theorem Forest.Closed.sub {F G : Forest} {live : NodeId → Bool} {Z : NodeId → Prop} (h : F.Closed live Z) (k : G.Sub F live) :
    G.Closed live Z := fun i hi hz c hc => h i hi hz c ((k i hi).1 c hc)

/-- What one removal needs and gives. -/
def RemoveOk (O : NodeId → Bool) (s : St) (F : Forest) (run : St → Except Err St) : Prop :=
  (∀ K, run (s.rekey O K) = (run s).map (St.rekey O K)) ∧
  ∀ t, run s = .ok t → Inv (t.mask O) ∧ t.live = s.live ∧ ∃ G, Describes (t.mask O) G ∧ G.Sub F s.live

theorem rekey_remove {Z : NodeId → Prop} (hZ : ∀ j, Z j → O j = true) (k : Nat) :
    (∀ (s : St) (i : NodeId) (F : Forest), Inv (s.mask O) → Describes (s.mask O) F → s.live i = true → Z i → F.Closed s.live Z →
      RemoveOk O s F (fun s => St.removeAux k s i)) ∧
    (∀ (s : St) (it : Children) (F : Forest), Inv (s.mask O) → Describes (s.mask O) F → F.Closed s.live Z →
      (∀ c, it.next = some c → s.live c = true ∧ ∀ y ∈ F.sibs c, Z y) → RemoveOk O s F (fun s => St.removeKids k s it)) := by
  induction k with
  | zero => exact ⟨fun _ _ _ _ _ _ _ _ => ⟨fun _ => rfl, fun t e => by simp [St.removeAux] at e⟩,
      fun _ _ _ _ _ _ _ => ⟨fun _ => rfl, fun t e => by simp [St.removeKids] at e⟩⟩
  | succ k ih =>
    constructor
    · intro s i F h hF hi hz hc
      -- the loops over the links
      obtain ⟨m1, m2, d1, d2, hf⟩ := unlink_filtered h (i := i) hi
      rw [rekey_ownLinkNames, rekey_removeAttributes] at d1
      obtain ⟨s1, e1, rfl⟩ := map_ok d1
      rw [rekey_linkedNodes, rekey_unlinkIncoming] at d2
      obtain ⟨s2, e2, rfl⟩ := map_ok d2
      have h2 := hf.inv
      have lv2 : s2.live = s.live := hf.else_.live
      have lk2 : s2.links = s.links := hf.else_.links
      have hF2 : Describes (s2.mask O) F := hF.frame lk2 lv2
      have hi2 : s2.live i = true := by rw [lv2]; exact hi
      -- the children
      have hit : ∀ c, (s2.children i).next = some c → s2.live c = true ∧ ∀ y ∈ F.sibs c, Z y := by
        intro c hcc
        have hcc : (s2.mask O).firstChild i = some c := hcc
        rw [hF2.shows.first i hi2] at hcc
        have hk := List.mem_of_mem_head? hcc
        obtain ⟨l1, l2⟩ := hF2.wf.kids i hi2 c hk
        refine ⟨l1, fun y hy => ?_⟩
        rw [← (hF2.wf.par c l1 i l2).2] at hy
        exact hc i hi hz y hy
      have hk := ih.2 s2 (s2.children i) F h2 hF2 (by rw [lv2]; exact hc) hit
      constructor
      · intro K
        simp only [St.removeAux, map_bind', rekey_ownLinkNames, rekey_removeAttributes, e1, map_ok', ok_bind',
          rekey_linkedNodes, rekey_unlinkIncoming, e2, rekey_children, hk.1 K, bind_map', rekey_detach]
        congr 1; funext s3; congr 1; funext s4
        exact rekey_finishRemove s4 (hZ i hz)
      · intro t e
        simp only [St.removeAux, e1, e2, bind_ok, Except.ok.injEq, exists_eq_left'] at e
        obtain ⟨s3, e3, s4, e4, e5⟩ := e
        obtain ⟨h3, lv3, G, hG, hs⟩ := hk.2 s3 e3
        have hi3 : s3.live i = true := by rw [lv3]; exact hi2
        have := detach_inv e4
        subst this
        have h4 : Inv ((s3.detached i).mask O) := h3.detached hi3
        have d5 : ((s3.detached i).mask O).finishRemove i = .ok (t.mask O) := by
          rw [rekey_finishRemove _ (hZ i hz), e5]; rfl
        obtain ⟨t', e6, h6, lk6, lv6, _⟩ := finishRemove_ok h4 (i := i) hi3
        rw [d5] at e6; cases e6
        have lv6 : t.live = s3.live := lv6
        refine ⟨h6, by rw [lv6, lv3, lv2], G.detach i, ?_, ?_⟩
        · exact (((h3.reps hG).detached hi3).describes).frame lk6 lv6
        · refine Forest.Sub.trans (G := G) ?_ (by rw [← lv2]; exact hs)
          have := hG.wf.detach_sub i
          have hlv : s.live = (s3.mask O).live := by
            show s.live = s3.live
            rw [lv3, lv2]
          rw [hlv]; exact this
    · intro s it F h hF hc hit
      cases hn : s.childrenNext it with
      | mk c it' =>
        cases c with
        | none =>
          refine ⟨fun K => by simp only [St.removeKids, rekey_childrenNext, hn]; rfl, fun t e => ?_⟩
          simp only [St.removeKids, hn, Except.ok.injEq] at e
          subst e
          exact ⟨h, rfl, F, hF, .refl _ _⟩
        | some c =>
          obtain ⟨hcn, hit'⟩ : it.next = some c ∧ it'.next = s.nextSibling c := by
            unfold St.childrenNext at hn
            split at hn
            · simp at hn
            · split at hn
              · next n hh =>
                simp only [Prod.mk.injEq, Option.some.injEq] at hn
                obtain ⟨rfl, rfl⟩ := hn
                exact ⟨hh, rfl⟩
              · simp at hn
          obtain ⟨hcl, hcz⟩ := hit c hcn
          have h1 := ih.1 s c F h hF hcl (hcz c (hF.wf.self_mem c hcl)) hc
          have rest : ∀ s1, St.removeAux k s c = .ok s1 → ∃ G, Inv (s1.mask O) ∧ s1.live = s.live ∧ G.Sub F s.live ∧
              RemoveOk O s1 G (fun s => St.removeKids k s it') := by
            intro s1 e1
            obtain ⟨i1, lv1, G, hG, hs⟩ := h1.2 s1 e1
            refine ⟨G, i1, lv1, hs, ih.2 s1 it' G i1 hG (by rw [lv1]; exact hc.sub hs) ?_⟩
            intro d hd
            rw [hit'] at hd
            have hd' : (s.mask O).nextSibling c = some d := hd
            rw [hF.shows.next c hcl] at hd'
            obtain ⟨q1, q2, _⟩ := hF.wf.sib c hcl d (after_mem hd')
            refine ⟨by rw [lv1]; exact q1, fun y hy => hcz y ?_⟩
            rw [← q2]
            exact (hs d q1).2 y hy
          refine ⟨fun K => ?_, fun t e => ?_⟩
          · simp only [St.removeKids, rekey_childrenNext, hn, h1.1 K, map_bind', bind_map']
            cases e1 : St.removeAux k s c with
            | error e => rfl
            | ok s1 =>
              obtain ⟨G, _, _, _, hr⟩ := rest s1 e1
              exact hr.1 K
          · simp only [St.removeKids, hn, bind_ok] at e
            obtain ⟨s1, e1, e2⟩ := e
            obtain ⟨G, i1, lv1, hs, hr⟩ := rest s1 e1
            obtain ⟨i2, lv2, H, hH, hs2⟩ := hr.2 t e2
            exact ⟨i2, by rw [lv2, lv1], H, hH, Forest.Sub.trans (by rw [← lv1]; exact hs2) hs⟩

theorem rekey_self (s : St) : s.rekey O (fun j => (s.data j).storageKey) = s := by
  have : (fun j => if O j = true then s.data j else { s.data j with storageKey := (s.data j).storageKey }) = s.data := by
    funext j; split <;> rfl
  simp only [St.rekey, this]

theorem rekey_removeNode {Z : NodeId → Prop} (hZ : ∀ j, Z j → O j = true) {s : St} {i : NodeId} {F : Forest} (h : Inv (s.mask O))
    (hF : Describes (s.mask O) F) (hi : s.live i = true) (hz : Z i) (hc : F.Closed s.live Z) :
    RemoveOk O s F (fun s => s.removeNode i) := by
  have := (rekey_remove hZ s.fuel).1 s i F h hF hi hz hc
  refine ⟨fun K => this.1 K, fun t e => this.2 t e⟩

/-- Members in the place where a walk over siblings goes on. -/
def WalkOk (s : St) (F : Forest) (Z : NodeId → Prop) (o : Option NodeId) : Prop :=
  ∀ n, o = some n → s.live n = true ∧ ∀ y ∈ F.sibs n, Z y

theorem WalkOk.next {s : St} {F : Forest} {Z : NodeId → Prop} (hF : Describes s F) {n : NodeId} (hn : s.live n = true)
    (hz : ∀ y ∈ F.sibs n, Z y) : WalkOk s F Z (s.nextSibling n) := by
  intro d hd
  rw [hF.shows.next n hn] at hd
  obtain ⟨q1, q2, _⟩ := hF.wf.sib n hn d (after_mem hd)
  exact ⟨q1, fun y hy => hz y (by rw [← q2]; exact hy)⟩

theorem WalkOk.sub {s t : St} {F G : Forest} {Z : NodeId → Prop} {o : Option NodeId} (h : WalkOk s F Z o) (lv : t.live = s.live)
    (hs : G.Sub F s.live) : WalkOk t G Z o := fun n hn =>
  ⟨by rw [lv]; exact (h n hn).1, fun y hy => (h n hn).2 y ((hs n (h n hn).1).2 y hy)⟩

theorem WalkOk.first {s : St} {F : Forest} {Z : NodeId → Prop} (hF : Describes s F) {i : NodeId} (hi : s.live i = true)
    (hz : ∀ y ∈ F.kids i, Z y) : WalkOk s F Z (s.firstChild i) := by
  intro d hd
  rw [hF.shows.first i hi] at hd
  obtain ⟨q1, q2⟩ := hF.wf.kids i hi d (List.mem_of_mem_head? hd)
  exact ⟨q1, fun y hy => hz y (by rw [(hF.wf.par d q1 i q2).2]; exact hy)⟩

theorem drainAux_keep {f : St → NodeId → Bool} {k : Nat} {s : St} {n : NodeId} {c : Nat} (h : f s n = false) :
    St.drainAux f (k + 1) s (some n) c =
      ((if s.hasChildren n = true then St.drainAux f k s (s.firstChild n) c else pure (s, c)) >>= fun x =>
        St.drainAux f k x.1 (x.1.nextSibling n) x.2) := by
  simp only [St.drainAux, h, Bool.false_eq_true, if_false]
  split <;> rfl

theorem rekey_drain {Z : NodeId → Prop} (hZ : ∀ j, Z j → O j = true) {K0 : NodeId → Option Nat} {f : St → NodeId → Bool} (k : Nat) :
    ∀ (s : St) (o : Option NodeId) (c : Nat) (F : Forest), Inv (s.mask O) → Describes (s.mask O) F → F.Closed s.live Z →
    s.rekey O K0 = s → WalkOk (s.mask O) F Z o →
    (∀ K, St.drainAux (fun s => f (s.rekey O K0)) k (s.rekey O K) o c =
      (St.drainAux f k s o c).map (fun x => (x.1.rekey O K, x.2))) ∧
    ∀ t c', St.drainAux f k s o c = .ok (t, c') → Inv (t.mask O) ∧ t.live = s.live ∧ t.rekey O K0 = t ∧
      ∃ G, Describes (t.mask O) G ∧ G.Sub F s.live := by
  induction k with
  | zero => exact fun _ _ _ _ _ _ _ _ _ => ⟨fun _ => rfl, fun t c' e => by simp [St.drainAux] at e⟩
  | succ k ih =>
    intro s o c F h hF hc h0 hw
    cases o with
    | none =>
      refine ⟨fun K => rfl, fun t c' e => ?_⟩
      simp only [St.drainAux, Except.ok.injEq, Prod.mk.injEq] at e
      obtain ⟨rfl, _⟩ := e
      exact ⟨h, rfl, h0, F, hF, .refl _ _⟩
    | some n =>
      obtain ⟨hn, hz⟩ := hw n rfl
      have hn : s.live n = true := hn
      have hnz : Z n := hz n (hF.wf.self_mem n hn)
      have hf : ∀ K, f ((s.rekey O K).rekey O K0) n = f s n := fun K => by rw [rekey_rekey, h0]
      have hnext := WalkOk.next hF hn hz
      by_cases hfn : f s n = true
      · have h1 := rekey_removeNode hZ h hF hn hnz hc
        have rest : ∀ s1, s.removeNode n = .ok s1 → s1.live = s.live ∧ ∃ G, G.Sub F s.live ∧
            Inv (s1.mask O) ∧ Describes (s1.mask O) G ∧ G.Closed s1.live Z ∧ s1.rekey O K0 = s1 ∧
              WalkOk (s1.mask O) G Z (s.nextSibling n) := by
          intro s1 e1
          obtain ⟨i1, lv1, G, hG, hs⟩ := h1.2 s1 e1
          refine ⟨lv1, G, hs, i1, hG, by rw [lv1]; exact hc.sub hs, ?_, hnext.sub lv1 hs⟩
          have := h1.1 K0
          simp only [h0, e1, map_ok', Except.ok.injEq] at this
          exact this.symm
        refine ⟨fun K => ?_, fun t c' e => ?_⟩
        · simp only [St.drainAux, hf, hfn, if_true, rekey_nextSibling, map_bind']
          rw [show (s.rekey O K).removeNode n = (s.removeNode n).map (St.rekey O K) from h1.1 K, bind_map']
          cases e1 : s.removeNode n with
          | error e => rfl
          | ok s1 =>
            obtain ⟨_, G, _, i1, hG, hcl, h01, hw1⟩ := rest s1 e1
            exact (ih s1 _ _ G i1 hG hcl h01 hw1).1 K
        · simp only [St.drainAux, hfn, if_true, bind_ok] at e
          obtain ⟨s1, e1, e2⟩ := e
          obtain ⟨lv1, G, hs, i1, hG, hcl, h01, hw1⟩ := rest s1 e1
          obtain ⟨i2, lv2, h02, H, hH, hs2⟩ := (ih s1 _ _ G i1 hG hcl h01 hw1).2 t c' e2
          exact ⟨i2, by rw [lv2, lv1], h02, H, hH, Forest.Sub.trans (by rw [← lv1]; exact hs2) hs⟩
      · have hw1 := WalkOk.first hF hn (hc n hn hnz)
        have kids : (∀ K, (if (s.rekey O K).hasChildren n = true then
              St.drainAux (fun s => f (s.rekey O K0)) k (s.rekey O K) ((s.rekey O K).firstChild n) c else pure (s.rekey O K, c)) =
              (if s.hasChildren n = true then St.drainAux f k s (s.firstChild n) c else pure (s, c)).map
                (fun x => (x.1.rekey O K, x.2))) ∧
            ∀ t c', (if s.hasChildren n = true then St.drainAux f k s (s.firstChild n) c else pure (s, c)) = .ok (t, c') →
              Inv (t.mask O) ∧ t.live = s.live ∧ t.rekey O K0 = t ∧ ∃ G, Describes (t.mask O) G ∧ G.Sub F s.live := by
          by_cases hch : s.hasChildren n = true
          · simp only [rekey_hasChildren, hch, if_true]
            exact ih s _ c F h hF hc h0 hw1
          · simp only [rekey_hasChildren, hch, if_false, Bool.false_eq_true]
            refine ⟨fun K => rfl, fun t c' e => ?_⟩
            simp only [pure, Except.pure, Except.ok.injEq, Prod.mk.injEq] at e
            obtain ⟨rfl, _⟩ := e
            exact ⟨h, rfl, h0, F, hF, .refl _ _⟩
        have rest : ∀ s1 c1, (if s.hasChildren n = true then St.drainAux f k s (s.firstChild n) c else pure (s, c)) = .ok (s1, c1) →
            s1.live = s.live ∧ ∃ G, G.Sub F s.live ∧ Inv (s1.mask O) ∧ Describes (s1.mask O) G ∧ G.Closed s1.live Z ∧
              s1.rekey O K0 = s1 ∧ WalkOk (s1.mask O) G Z (s1.nextSibling n) := by
          intro s1 c1 e1
          obtain ⟨i1, lv1, h01, G, hG, hs⟩ := kids.2 s1 c1 e1
          refine ⟨lv1, G, hs, i1, hG, by rw [lv1]; exact hc.sub hs, h01, ?_⟩
          exact WalkOk.next hG (n := n) (by show s1.live n = true; rw [lv1]; exact hn) (fun y hy => hz y ((hs n hn).2 y hy))
        refine ⟨fun K => ?_, fun t c' e => ?_⟩
        · rw [drainAux_keep (s := s) (Bool.eq_false_of_not_eq_true hfn), drainAux_keep (s := s.rekey O K)
            (by simp only [hf]; exact Bool.eq_false_of_not_eq_true hfn), kids.1 K, bind_map', map_bind']
          cases e1 : (if s.hasChildren n = true then St.drainAux f k s (s.firstChild n) c else pure (s, c)) with
          | error e => rfl
          | ok x =>
            obtain ⟨s1, c1⟩ := x
            obtain ⟨_, G, _, i1, hG, hcl, h01, hw1⟩ := rest s1 c1 e1
            exact (ih s1 _ _ G i1 hG hcl h01 hw1).1 K
        · rw [drainAux_keep (Bool.eq_false_of_not_eq_true hfn), bind_ok] at e
          obtain ⟨⟨s1, c1⟩, e1, e2⟩ := e
          obtain ⟨lv1, G, hs, i1, hG, hcl, h01, hw1⟩ := rest s1 c1 e1
          obtain ⟨i2, lv2, h02, H, hH, hs2⟩ := (ih s1 _ _ G i1 hG hcl h01 hw1).2 t c' e2
          exact ⟨i2, by rw [lv2, lv1], h02, H, hH, Forest.Sub.trans (by rw [← lv1]; exact hs2) hs⟩

end Svgdom
