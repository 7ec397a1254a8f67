import Verif.Spec.Builds
import Verif.Proof.Rekey

/-!
Without `debug_assert!`s every function does the same, unless an assertion fails.
-/

set_option autoImplicit false

namespace Svgdom

/-- The first result is the failure `b`, or the second is the first with `π` applied. -/
def Mild {ε α β : Type} (b : ε) (π : α → β) (r : Except ε α) (r' : Except ε β) : Prop := r = .error b ∨ r' = r.map π

/-- The failure of an assertion. -/
abbrev asserted : Err := .panic .debugAssert

section
variable {ε α β γ δ : Type} {b : ε}

theorem Mild.bind {π : α → β} {ρ : γ → δ} {r : Except ε α} {r' : Except ε β} {f : α → Except ε γ} {f' : β → Except ε δ}
    (h : Mild b π r r') (hf : ∀ x, Mild b ρ (f x) (f' (π x))) : Mild b ρ (r >>= f) (r' >>= f') := by
  rcases h with rfl | rfl
  · exact .inl rfl
  · cases r with
    | error e => exact .inr rfl
    | ok x => exact hf x

theorem Mild.same (r : Except ε α) : Mild b id r r := .inr (by cases r <;> rfl)

theorem Mild.pure {π : α → β} (x : α) : Mild b π (Pure.pure x : Except ε α) (Pure.pure (π x)) := .inr rfl

theorem Mild.ok {π : α → β} (x : α) : Mild b π (.ok x : Except ε α) (.ok (π x)) := .inr rfl

theorem Mild.error {π : α → β} (e : ε) : Mild b π (.error e : Except ε α) (.error e) := .inr rfl

theorem Mild.map {π : α → β} {r : Except ε α} {r' : Except ε β} {f : α → γ} {f' : β → δ} {ρ : γ → δ} (h : Mild b π r r')
    (hf : ∀ x, f' (π x) = ρ (f x)) : Mild b ρ (r.map f) (r'.map f') := by
  rcases h with rfl | rfl
  · exact .inl rfl
  · cases r with
    | error e => exact .inr rfl
    | ok x => exact .inr (by simp [Except.map, hf])

end

/-- A result with a state. -/
def withRelease {α : Type} (x : St × α) : St × α := (x.1.release, x.2)

section
variable (s : St)

theorem calm_links : s.release.links = s.links := rfl
theorem calm_data : s.release.data = s.data := rfl
theorem calm_rootId : s.release.rootId = s.rootId := rfl
theorem calm_slab : s.release.slab = s.slab := rfl
theorem calm_nextId : s.release.nextId = s.nextId := rfl
theorem calm_fuel : s.release.fuel = s.fuel := rfl
theorem calm_upgrade (w : Option NodeId) : s.release.upgrade w = s.upgrade w := rfl
theorem calm_setL (i : NodeId) (f : Links → Links) : s.release.setL i f = (s.setL i f).release := rfl
theorem calm_setD (i : NodeId) (f : NodeData → NodeData) : s.release.setD i f = (s.setD i f).release := rfl

/-- Pull `release` out. -/
macro "cm" : tactic => `(tactic| simp only [calm_links, calm_data, calm_upgrade, calm_setL, calm_setD])

theorem calm_assert (c : Bool) : Mild asserted id (s.debugAssert c) (s.release.debugAssert c) := by
  simp only [St.debugAssert, St.release, Bool.false_and]
  split
  · exact .inl rfl
  · exact .inr rfl

theorem calm_detachNext (held : List NodeId) (a b c : Option NodeId) :
    Mild asserted St.release (s.detachNext held a b c) (s.release.detachNext held a b c) := by
  unfold St.detachNext
  cases c with
  | some n => exact (Mild.same _).bind fun _ => Mild.pure _
  | none =>
    show Mild asserted St.release (match s.upgrade a with | some p => _ | none => _) (match s.upgrade a with | some p => _ | none => _)
    cases s.upgrade a with
    | some p => exact (Mild.same _).bind fun _ => Mild.pure _
    | none => exact Mild.pure _

theorem calm_detachPrev (held : List NodeId) (a b c : Option NodeId) :
    Mild asserted St.release (s.detachPrev held a b c) (s.release.detachPrev held a b c) := by
  unfold St.detachPrev
  cases b with
  | some n => exact (Mild.same _).bind fun _ => Mild.pure _
  | none =>
    show Mild asserted St.release (match s.upgrade a with | some p => _ | none => _) (match s.upgrade a with | some p => _ | none => _)
    cases s.upgrade a with
    | some p => exact (Mild.same _).bind fun _ => Mild.pure _
    | none => exact Mild.pure _

theorem calm_detachCore (held : List NodeId) (i : NodeId) :
    Mild asserted St.release (s.detachCore held i) (s.release.detachCore held i) := by
  unfold St.detachCore
  exact (calm_detachNext (s.setL i _) held _ _ _).bind fun t => calm_detachPrev t held _ _ _

theorem calm_detach (i : NodeId) : Mild asserted St.release (s.detach i) (s.release.detach i) := calm_detachCore s _ i

theorem calm_append (p c : NodeId) : Mild asserted St.release (s.append p c) (s.release.append p c) := by
  unfold St.append
  refine (Mild.same _).bind fun _ => (calm_detachCore s _ _).bind fun t => ?_
  cm
  generalize (((t.setL c _).setL p _).upgrade _) = o
  cases o with
  | some l => exact (Mild.same _).bind fun _ => (calm_assert _ _).bind fun _ => Mild.pure _
  | none => exact (calm_assert _ _).bind fun _ => Mild.pure _

theorem calm_prepend (p c : NodeId) : Mild asserted St.release (s.prepend p c) (s.release.prepend p c) := by
  unfold St.prepend
  refine (Mild.same _).bind fun _ => (calm_detachCore s _ _).bind fun t => ?_
  cm
  generalize ((t.setL c _).links p).firstChild = o
  cases o with
  | some l => exact (Mild.same _).bind fun _ => (calm_assert _ _).bind fun _ => (Mild.pure (π := St.release) _).bind fun _ => Mild.pure _
  | none => exact (calm_assert _ _).bind fun _ => (Mild.pure (π := St.release) _).bind fun _ => Mild.pure _

theorem calm_insertAfter (x y : NodeId) : Mild asserted St.release (s.insertAfter x y) (s.release.insertAfter x y) := by
  unfold St.insertAfter
  refine (Mild.same _).bind fun _ => (calm_detachCore s _ _).bind fun t => ?_
  cm
  generalize ((t.setL y _).links x).nextSib = o
  cases o with
  | some l => exact (Mild.same _).bind fun _ => (calm_assert _ _).bind fun _ => (Mild.pure (π := St.release) _).bind fun _ => Mild.pure _
  | none =>
    simp only
    generalize ((t.setL y _).setL x _).upgrade _ = q
    cases q with
    | some p => exact (Mild.same _).bind fun _ => (Mild.pure (π := St.release) _).bind fun _ => Mild.pure _
    | none => exact (Mild.pure (π := St.release) _).bind fun _ => Mild.pure _

theorem calm_insertBefore (x y : NodeId) : Mild asserted St.release (s.insertBefore x y) (s.release.insertBefore x y) := by
  unfold St.insertBefore
  refine (Mild.same _).bind fun _ => (calm_detachCore s _ _).bind fun t => ?_
  cm
  rcases Option.eq_none_or_eq_some (((t.setL y fun l =>
      { l with root := (t.links x).root, parent := (t.links x).parent, nextSib := some x }).setL x
        fun l => { l with prevSib := none }).upgrade
      ((t.setL y fun l =>
        { l with root := (t.links x).root, parent := (t.links x).parent, nextSib := some x }).links x).prevSib) with ho | ⟨n, ho⟩
  · simp only [ho]
    cm
    generalize (((t.setL y _).setL x _).setL x _).upgrade _ = q
    cases q with
    | some p => exact (Mild.same _).bind fun _ => Mild.pure _
    | none => exact Mild.pure _
  · simp only [ho]
    cm
    exact (Mild.same _).bind fun _ => (calm_assert _ _).bind fun _ => Mild.pure _

/-! ### Nodes -/

theorem calm_setText (i : NodeId) (x : Str) : Mild asserted St.release (s.setText i x) (s.release.setText i x) :=
  (calm_assert s _).bind fun _ => Mild.pure _

theorem calm_setId (i : NodeId) (x : Str) : Mild asserted St.release (s.setId i x) (s.release.setId i x) :=
  (calm_assert s _).bind fun _ => Mild.pure _

theorem calm_setTagName (i : NodeId) (x : TagName) : Mild asserted St.release (s.setTagName i x) (s.release.setTagName i x) := by
  unfold St.setTagName
  refine (calm_assert s _).bind fun _ => ?_
  split
  · exact Mild.error _
  · exact Mild.pure _

theorem calm_unlinkValue (i : NodeId) (v : AttributeValue) : Mild asserted St.release (s.unlinkValue i v) (s.release.unlinkValue i v) := by
  unfold St.unlinkValue
  cases v.linkNode with
  | none => exact Mild.ok _
  | some t =>
    show Mild asserted St.release (match (s.linkedNodes t).findIdx? _ with | some k => _ | none => _)
      (match (s.linkedNodes t).findIdx? _ with | some k => _ | none => _)
    cases (s.linkedNodes t).findIdx? _ with
    | some k => exact (Mild.same _).bind fun _ => Mild.pure _
    | none => exact Mild.error _

theorem calm_removeAttribute (i : NodeId) (n : AName) :
    Mild asserted St.release (s.removeAttribute i n) (s.release.removeAttribute i n) := by
  unfold St.removeAttribute
  show Mild asserted St.release (if (!s.hasAttribute i n) = true then _ else _) (if (!s.hasAttribute i n) = true then _ else _)
  split
  · exact Mild.ok _
  · have key : ∀ u : St, Mild asserted St.release (Pure.pure (u.setD i fun d => { d with attributes := attrsRemove d.attributes n }))
        (Pure.pure (u.release.setD i fun d => { d with attributes := attrsRemove d.attributes n })) := fun u => Mild.pure _
    show Mild asserted St.release (match attrsGetValue (s.attributes i) n with | some v => _ | none => _)
      (match attrsGetValue (s.attributes i) n with | some v => _ | none => _)
    cases attrsGetValue (s.attributes i) n with
    | some v => exact (calm_unlinkValue s i v).bind key
    | none => exact key s

theorem calm_setSimple (i : NodeId) (a : Attribute) :
    Mild asserted St.release (s.setSimpleAttribute i a) (s.release.setSimpleAttribute i a) :=
  (calm_assert s _).bind fun _ => (calm_removeAttribute s i _).bind fun _ => Mild.pure _

theorem calm_setLink (i : NodeId) (name : AName) (n : NodeId) (fb : Option PaintFallback) :
    Mild asserted withRelease (s.setLinkAttribute i name n fb) (s.release.setLinkAttribute i name n fb) := by
  unfold St.setLinkAttribute
  show Mild asserted withRelease (if (s.idOf n).isEmpty = true then _ else if s.idOf i = s.idOf n then _ else
      if ((s.linkedNodes i).any fun m => decide (m = n)) = true then _ else _)
    (if (s.idOf n).isEmpty = true then _ else if s.idOf i = s.idOf n then _ else
      if ((s.linkedNodes i).any fun m => decide (m = n)) = true then _ else _)
  split_ifs
  · exact Mild.ok (π := withRelease) _
  · exact Mild.ok (π := withRelease) _
  · exact Mild.ok (π := withRelease) _
  · exact (calm_removeAttribute s i _).bind fun _ => Mild.pure (π := withRelease) _

theorem calm_setChecked (i : NodeId) (a : Attribute) :
    Mild asserted withRelease (s.setAttributeChecked i a) (s.release.setAttributeChecked i a) := by
  unfold St.setAttributeChecked
  refine (calm_assert s _).bind fun _ => ?_
  split
  · exact calm_setLink s _ _ _ _
  · exact calm_setLink s _ _ _ _
  · exact calm_setLink s _ _ _ _
  · exact (calm_setSimple s i a).bind fun _ => Mild.pure (π := withRelease) _

theorem calm_setAttribute (i : NodeId) (a : Attribute) :
    Mild asserted St.release (s.setAttribute i a) (s.release.setAttribute i a) := by
  unfold St.setAttribute
  refine (calm_setChecked s i a).bind fun x => ?_
  obtain ⟨t, _ | e⟩ := x
  · exact Mild.pure _
  · exact Mild.error _

theorem calm_setAttributeIfNone (i : NodeId) (a : Attribute) :
    Mild asserted St.release (s.setAttributeIfNone i a) (s.release.setAttributeIfNone i a) := by
  unfold St.setAttributeIfNone
  show Mild asserted St.release (if (!s.hasAttribute i a.name) = true then _ else _) (if (!s.hasAttribute i a.name) = true then _ else _)
  split
  · exact calm_setAttribute s i a
  · exact Mild.ok _

/-! ### The document -/

theorem calm_newNode (d : NodeData) : Mild asserted withRelease (s.newNode d) (s.release.newNode d) := by
  unfold St.newNode
  exact (Mild.same (s.slab.insert s.nextId)).bind fun _ => Mild.pure (π := withRelease) _

theorem calm_createElement (tag : TagName) : Mild asserted withRelease (s.createElement tag) (s.release.createElement tag) := by
  unfold St.createElement
  split
  · exact Mild.error _
  · exact calm_newNode s _

theorem calm_createNode (ty : NodeType) (x : Str) : Mild asserted withRelease (s.createNode ty x) (s.release.createNode ty x) :=
  (Mild.same _).bind fun _ => calm_newNode s _

end

theorem calm_removeAttributes (i : NodeId) : ∀ (l : List AName) (s : St),
    Mild asserted St.release (s.removeAttributes i l) (s.release.removeAttributes i l)
  | [], s => Mild.ok _
  | n :: ns, s => (calm_removeAttribute s i n).bind fun t => calm_removeAttributes i ns t

theorem calm_unlinkIncoming (i : NodeId) : ∀ (l : List NodeId) (s : St),
    Mild asserted St.release (s.unlinkIncoming i l) (s.release.unlinkIncoming i l)
  | [], s => Mild.ok _
  | n :: ns, s => (calm_removeAttributes n _ s).bind fun t => calm_unlinkIncoming i ns t

theorem calm_finishRemove (s : St) (i : NodeId) : Mild asserted St.release (s.finishRemove i) (s.release.finishRemove i) := by
  unfold St.finishRemove
  show Mild asserted St.release (match (s.data i).storageKey with | some k => _ | none => _)
    (match (s.data i).storageKey with | some k => _ | none => _)
  cases (s.data i).storageKey with
  | some k => exact (Mild.same (s.slab.remove k)).bind fun _ => Mild.pure _
  | none => exact Mild.ok _

theorem calm_remove (k : Nat) :
    (∀ s i, Mild asserted St.release (St.removeAux k s i) (St.removeAux k s.release i)) ∧
    (∀ s it, Mild asserted St.release (St.removeKids k s it) (St.removeKids k s.release it)) := by
  induction k with
  | zero => exact ⟨fun _ _ => Mild.error _, fun _ _ => Mild.error _⟩
  | succ k ih =>
    constructor
    · intro s i
      simp only [St.removeAux]
      exact (calm_removeAttributes i _ s).bind fun s1 => (calm_unlinkIncoming i _ s1).bind fun s2 => (ih.2 s2 _).bind fun s3 =>
        (calm_detach s3 i).bind fun s4 => calm_finishRemove s4 i
    · intro s it
      simp only [St.removeKids]
      show Mild asserted St.release (match s.childrenNext it with | (none, _) => _ | (some c, it') => _)
        (match s.childrenNext it with | (none, _) => _ | (some c, it') => _)
      rcases s.childrenNext it with ⟨_ | c, it'⟩
      · exact Mild.ok _
      · exact (ih.1 s c).bind fun t => ih.2 t it'

theorem calm_removeNode (s : St) (i : NodeId) : Mild asserted St.release (s.removeNode i) (s.release.removeNode i) :=
  (calm_remove _).1 s i

theorem calm_drainAux {f : St → NodeId → Bool} (hf : ∀ s i, f s.release i = f s i) (k : Nat) : ∀ (s : St) (o : Option NodeId) (n : Nat),
    Mild asserted withRelease (St.drainAux f k s o n) (St.drainAux f k s.release o n) := by
  induction k with
  | zero => intro s o n; exact Mild.error _
  | succ k ih =>
    intro s o n
    cases o with
    | none => exact Mild.ok (π := withRelease) _
    | some m =>
      simp only [St.drainAux, hf]
      split
      · exact (calm_removeNode s m).bind fun t => ih t _ _
      · show Mild asserted withRelease (if s.hasChildren m = true then _ else _) (if s.hasChildren m = true then _ else _)
        split
        · exact (ih s _ _).bind fun x => ih x.1 _ _
        · exact ih s _ _

theorem calm_drain (s : St) (i : NodeId) {f : St → NodeId → Bool} (hf : ∀ s i, f s.release i = f s i) :
    Mild asserted withRelease (s.drain i f) (s.release.drain i f) := calm_drainAux hf _ s _ _

theorem calm_copyAttributes (src elem : NodeId) : ∀ (l : List Attribute) (s : St),
    Mild asserted St.release (s.copyAttributes src elem l) (s.release.copyAttributes src elem l)
  | [], s => Mild.ok _
  | a :: as, s => by
    unfold St.copyAttributes
    refine (calm_setAttribute s elem a).bind fun t => ?_
    cases a.value.linkNode with
    | some x => exact (Mild.same _).bind fun _ => calm_copyAttributes src elem as t
    | none => exact calm_copyAttributes src elem as t

theorem calm_copyNode (s : St) (i : NodeId) : Mild asserted withRelease (s.copyNode i) (s.release.copyNode i) := by
  unfold St.copyNode
  show Mild asserted withRelease (match s.nodeType i with | .element => _ | ty => _) (match s.nodeType i with | .element => _ | ty => _)
  split
  · exact (calm_createElement s _).bind fun x => (calm_copyAttributes i _ _ x.1).bind fun t => Mild.pure (π := withRelease) _
  · exact calm_createNode s _ _

theorem calm_deepCopy (k : Nat) : ∀ (s : St) (par : NodeId) (it : Children),
    Mild asserted St.release (St.deepCopyAux k s par it) (St.deepCopyAux k s.release par it) := by
  induction k with
  | zero => intro s par it; exact Mild.error _
  | succ k ih =>
    intro s par it
    simp only [St.deepCopyAux]
    show Mild asserted St.release (match s.childrenNext it with | (none, _) => _ | (some c, it') => _)
      (match s.childrenNext it with | (none, _) => _ | (some c, it') => _)
    rcases s.childrenNext it with ⟨_ | c, it'⟩
    · exact Mild.ok _
    · refine (calm_copyNode s c).bind fun x => (calm_append x.1 par x.2).bind fun t => ?_
      show Mild asserted St.release (if t.hasChildren c = true then _ else _) (if t.hasChildren c = true then _ else _)
      split
      · exact (ih t _ _).bind fun u => ih u par it'
      · exact ih t par it'

theorem calm_copyNodeDeep (s : St) (i : NodeId) : Mild asserted withRelease (s.copyNodeDeep i) (s.release.copyNodeDeep i) :=
  (calm_copyNode s i).bind fun x => (calm_deepCopy _ x.1 x.2 _).bind fun _ => Mild.pure (π := withRelease) _

theorem calm_call (op : Op) (hf : ∀ i f, op = .drain i f → ∀ s j, f s.release j = f s j) (s : St) :
    Mild asserted St.release (op.run s) (op.run s.release) := by
  cases op with
  | createElement tag => exact (calm_createElement s tag).map fun _ => rfl
  | createNode ty x => exact (calm_createNode s ty x).map fun _ => rfl
  | append p c => exact calm_append s p c
  | prepend p c => exact calm_prepend s p c
  | insertAfter p c => exact calm_insertAfter s p c
  | insertBefore p c => exact calm_insertBefore s p c
  | detach i => exact calm_detach s i
  | setText i x => exact calm_setText s i x
  | setId i x => exact calm_setId s i x
  | setTagName i x => exact calm_setTagName s i x
  | setAttribute i a => exact calm_setAttribute s i a
  | setAttributeChecked i a => exact (calm_setChecked s i a).map fun _ => rfl
  | setAttributeIfNone i a => exact calm_setAttributeIfNone s i a
  | removeAttribute i n => exact calm_removeAttribute s i n
  | removeNode i => exact calm_removeNode s i
  | drain i f => exact (calm_drain s i (hf i f rfl)).map fun _ => rfl
  | copyNode i => exact (calm_copyNode s i).map fun _ => rfl
  | copyNodeDeep i => exact (calm_copyNodeDeep s i).map fun _ => rfl

/-! ### Lists of nodes -/

theorem calm_collectChildren (s : St) : ∀ (k : Nat) (it : Children), s.release.collectChildren k it = s.collectChildren k it
  | 0, _ => rfl
  | k + 1, it => by
    simp only [St.collectChildren]
    show (match s.childrenNext it with | (none, _) => _ | (some c, it') => _) = (match s.childrenNext it with | (none, _) => _ | (some c, it') => _)
    rcases s.childrenNext it with ⟨_ | c, it'⟩
    · rfl
    · simp only [calm_collectChildren s k]

theorem calm_childList (s : St) (i : NodeId) : s.release.childList i = s.childList i := calm_collectChildren s _ _

theorem calm_descendantsNext (s : St) : ∀ (k : Nat) (it : Traverse), s.release.descendantsNext k it = s.descendantsNext k it
  | 0, _ => rfl
  | k + 1, it => by
    simp only [St.descendantsNext]
    show (match s.traverseNext it with | (some (.start n), it') => _ | (some (.stop _), it') => _ | (none, it') => _) =
      (match s.traverseNext it with | (some (.start n), it') => _ | (some (.stop _), it') => _ | (none, it') => _)
    rcases s.traverseNext it with ⟨_ | (_ | _), it'⟩
    · rfl
    · rfl
    · exact calm_descendantsNext s k it'

theorem calm_collectDescendants (s : St) (b : Nat) : ∀ (k : Nat) (it : Traverse),
    s.release.collectDescendants b k it = s.collectDescendants b k it
  | 0, _ => rfl
  | k + 1, it => by
    simp only [St.collectDescendants, calm_descendantsNext, calm_collectDescendants s b k]

theorem calm_descendantList (s : St) (i : NodeId) : s.release.descendantList i = s.descendantList i := calm_collectDescendants s _ _ _

theorem calm_collectEdges (s : St) : ∀ (k : Nat) (it : Traverse), s.release.collectEdges k it = s.collectEdges k it
  | 0, _ => rfl
  | k + 1, it => by
    simp only [St.collectEdges]
    show (match s.traverseNext it with | (none, _) => _ | (some c, it') => _) = (match s.traverseNext it with | (none, _) => _ | (some c, it') => _)
    rcases s.traverseNext it with ⟨_ | c, it'⟩
    · rfl
    · simp only [calm_collectEdges s k]

theorem calm_edgeList (s : St) (i : NodeId) : s.release.edgeList i = s.edgeList i := calm_collectEdges s _ _

/-! ### The parser -/

/-- The state of the parser. -/
def PSt.release (p : PSt) : PSt := { p with dom := p.dom.release }

section
variable {L : Lib}

theorem calm_attributeValue (p : PSt) (n : NodeId) (aid : AttributeId) (v : Str) :
    Mild asserted PSt.release (parseAttributeValue L p n aid v) (parseAttributeValue L p.release n aid v) := by
  unfold parseAttributeValue
  show Mild asserted PSt.release (match p.dom.tagId n with | none => _ | some e => _) (match p.dom.tagId n with | none => _ | some e => _)
  cases p.dom.tagId n with
  | none => exact Mild.error _
  | some e =>
    simp only
    cases parseValue L aid e v with
    | invalid => exact Mild.ok _
    | nothing => exact Mild.ok _
    | link iri fb => exact Mild.ok (π := PSt.release) _
    | value v =>
      simp only
      split
      · exact Mild.ok _
      · exact (calm_setAttribute p.dom n _).bind fun _ => Mild.pure (π := PSt.release) _

theorem calm_svgAttribute (p : PSt) (n : NodeId) (aid : AttributeId) (v : Str) :
    Mild asserted PSt.release (parseSvgAttribute L p n aid v) (parseSvgAttribute L p.release n aid v) := by
  unfold parseSvgAttribute
  split
  · exact (calm_setId p.dom n v).bind fun _ => Mild.pure (π := PSt.release) _
  · split
    · exact Mild.ok _
    · exact calm_attributeValue p n aid v

theorem calm_xmlAttributes (n : NodeId) : ∀ (l : List XmlAttr) (p : PSt),
    Mild asserted PSt.release (parseXmlAttributes L p n l) (parseXmlAttributes L p.release n l)
  | [], p => Mild.ok _
  | a :: as, p => by
    simp only [parseXmlAttributes]
    split
    · refine (Mild.same _).bind fun o => ?_
      cases o with
      | some aid => exact (calm_svgAttribute p n aid _).bind fun q => calm_xmlAttributes n as q
      | none => exact calm_xmlAttributes n as p
    · exact calm_xmlAttributes n as p

theorem calm_cssAttribute (p : PSt) (n : NodeId) (x v : Str) :
    Mild asserted PSt.release (parseCssAttribute L p n x v) (parseCssAttribute L p.release n x v) := by
  unfold parseCssAttribute
  refine (Mild.same _).bind fun o => ?_
  cases o with
  | none => exact Mild.pure _
  | some aid =>
    simp only [id]
    split
    · exact Mild.pure _
    · split
      · exact (calm_attributeValue p n _ v).bind fun q => (calm_attributeValue q n _ v).bind fun r => calm_attributeValue r n _ v
      · exact calm_attributeValue p n _ v

theorem calm_cssDecls (n : NodeId) : ∀ (l : List (Str × Str)) (p : PSt),
    Mild asserted PSt.release (parseCssDecls L p n l) (parseCssDecls L p.release n l)
  | [], p => Mild.ok _
  | d :: ds, p => (calm_cssAttribute p n _ _).bind fun q => calm_cssDecls n ds q

theorem calm_rules (n : NodeId) (pos : XmlPos) : ∀ (l : List Rule) (p : PSt),
    Mild asserted PSt.release (parseRules L p n pos l) (parseRules L p.release n pos l)
  | [], p => Mild.ok _
  | r :: rs, p => by
    simp only [parseRules]
    split
    · exact (calm_cssDecls n _ p).bind fun q => calm_rules n pos rs q
    · exact calm_rules n pos rs p

theorem calm_styleDecls (n : NodeId) : ∀ (l : List (Str × Str)) (p : PSt),
    Mild asserted PSt.release (parseStyleDecls L p n l) (parseStyleDecls L p.release n l)
  | [], p => Mild.ok _
  | d :: ds, p => by
    simp only [parseStyleDecls]
    refine (Mild.same _).bind fun o => ?_
    cases o with
    | none => exact calm_styleDecls n ds p
    | some aid =>
      simp only [id]
      split
      · exact (calm_attributeValue p n _ _).bind fun q => calm_styleDecls n ds q
      · exact calm_styleDecls n ds p

/-- A result of the parser with a node. -/
def pRelease {α : Type} (x : PSt × α) : PSt × α := (x.1.release, x.2)

theorem calm_element (sheet : List Rule) (p : PSt) (pos : XmlPos) (eid : ElementId) (attrs : List XmlAttr) :
    Mild asserted pRelease (parseElement L sheet p pos eid attrs) (parseElement L sheet p.release pos eid attrs) := by
  unfold parseElement
  refine (calm_createElement p.dom _).bind fun x => (calm_xmlAttributes x.2 attrs ⟨x.1, p.links⟩).bind fun q =>
    (calm_rules x.2 pos sheet q).bind fun r => ?_
  simp only [withRelease]
  cases xmlAttribute attrs st!"style" with
  | none => exact Mild.pure (π := pRelease) _
  | some v => exact (calm_styleDecls x.2 _ r).bind fun _ => Mild.pure (π := pRelease) _

theorem calm_appendNew (p : PSt) (parent : NodeId) (ty : NodeType) (x : Str) :
    Mild asserted PSt.release (appendNew p parent ty x) (appendNew p.release parent ty x) :=
  (calm_createNode p.dom ty x).bind fun y => (calm_append y.1 parent y.2).bind fun _ => Mild.pure (π := PSt.release) _

theorem calm_text (p : PSt) (parent : NodeId) (t : Str) :
    Mild asserted PSt.release (processText p parent t) (processText p.release parent t) := by
  unfold processText
  split
  · show Mild asserted PSt.release (match p.dom.tagId parent with | some e => _ | none => _)
      (match p.dom.tagId parent with | some e => _ | none => _)
    cases p.dom.tagId parent with
    | none => exact Mild.ok _
    | some e =>
      simp only
      split
      · exact calm_appendNew p parent _ _
      · exact Mild.ok _
  · exact calm_appendNew p parent _ _

theorem Mild.fail {α β : Type} {π : α → β} {b : Err} {r : Except Err α} {r' : Except Err β} (h : Mild b π r r') :
    Mild (ParseErr.fail b) π (okOrFail r) (okOrFail r') := by
  rcases h with rfl | rfl
  · exact .inl rfl
  · refine .inr ?_
    cases r <;> rfl

theorem calm_checkFirst (s : St) (parent : NodeId) : checkFirst s.release parent = checkFirst s parent := by
  unfold checkFirst
  show (if s.isRoot parent = true then _ else _) = (if s.isRoot parent = true then _ else _)
  split
  · rw [calm_childList]; rfl
  · rfl

theorem calm_processNodes (sheet : List Rule) : ∀ (x : Xml) (pos : XmlPos) (prev : List (Option XmlElem)) (parent : NodeId) (p : PSt),
    Mild (ParseErr.fail asserted) PSt.release (processNodes L sheet pos prev parent x p) (processNodes L sheet pos prev parent x p.release)
  | .nil, _, _, _, p => Mild.ok _
  | .element ns name attrs kids rest, pos, prev, parent, p => by
    simp only [processNodes]
    split
    · exact calm_processNodes sheet rest _ _ _ p
    · refine (Mild.same _).bind fun o => ?_
      cases o with
      | none => exact calm_processNodes sheet rest _ _ _ p
      | some eid =>
        refine (calm_element sheet p _ eid attrs).fail.bind fun y => (calm_append y.1.dom parent y.2).fail.bind fun s => ?_
        refine (calm_processNodes sheet kids _ _ y.2 { y.1 with dom := s }).bind fun q => ?_
        show Mild _ _ _ (checkFirst q.dom.release parent >>= _)
        rw [calm_checkFirst]
        exact (Mild.same _).bind fun _ => calm_processNodes sheet rest _ _ _ q
  | .text t rest, pos, prev, parent, p => by
    simp only [processNodes]
    refine (calm_text p parent t).fail.bind fun q => ?_
    show Mild _ _ _ (checkFirst q.dom.release parent >>= _)
    rw [calm_checkFirst]
    exact (Mild.same _).bind fun _ => calm_processNodes sheet rest _ _ _ q
  | .comment t rest, pos, prev, parent, p => by
    simp only [processNodes]
    refine (calm_appendNew p parent _ t).fail.bind fun q => ?_
    show Mild _ _ _ (checkFirst q.dom.release parent >>= _)
    rw [calm_checkFirst]
    exact (Mild.same _).bind fun _ => calm_processNodes sheet rest _ _ _ q
  | .pi rest, pos, prev, parent, p => by
    simp only [processNodes]
    show Mild _ _ _ (checkFirst p.dom.release parent >>= _)
    rw [calm_checkFirst]
    exact (Mild.same _).bind fun _ => calm_processNodes sheet rest _ _ _ p

end

theorem calm_svgElement (s : St) : s.release.svgElement = s.svgElement := by
  unfold St.svgElement
  show (s.release.childList s.rootId >>= _) = _
  rw [calm_childList]
  rfl

theorem calm_resolveLink (s : St) (l : PLink) : Mild asserted St.release (resolveLink s l) (resolveLink s.release l) := by
  unfold resolveLink
  show Mild _ _ _ (s.release.descendantList s.rootId >>= _)
  rw [calm_descendantList]
  refine (Mild.same _).bind fun ds => ?_
  show Mild asserted St.release (match ds.find? fun n => decide (s.idOf n = l.iri) with | some n => _ | none => _)
    (match ds.find? fun n => decide (s.idOf n = l.iri) with | some n => _ | none => _)
  cases ds.find? fun n => decide (s.idOf n = l.iri) with
  | some n => exact (calm_setChecked s l.node _).bind fun _ => Mild.pure (π := St.release) _
  | none => exact calm_setAttribute s l.node _

theorem calm_resolveLinks : ∀ (l : List PLink) (s : St), Mild asserted St.release (resolveLinks s l) (resolveLinks s.release l)
  | [], s => Mild.ok _
  | l :: ls, s => (calm_resolveLink s l).bind fun t => calm_resolveLinks ls t

/-! ### Text -/

theorem calm_setXmlspace (s : St) (marked : List NodeId) (n : NodeId) (sp : XmlSpace) :
    Mild asserted withRelease (s.setXmlspace marked n sp) (s.release.setXmlspace marked n sp) := by
  unfold St.setXmlspace
  exact (calm_setAttribute s n _).bind fun _ => Mild.pure (π := withRelease) _

theorem calm_getXmlspace (s : St) (marked : List NodeId) (n : NodeId) (sp : XmlSpace) :
    Mild asserted withRelease (s.getXmlspace marked n sp) (s.release.getXmlspace marked n sp) := by
  unfold St.getXmlspace
  show Mild asserted withRelease (match attrsGetValue (s.attributes n) (.id .Space) with | some (.string v) => _ | _ => _)
    (match attrsGetValue (s.attributes n) (.id .Space) with | some (.string v) => _ | _ => _)
  split
  · exact Mild.ok (π := withRelease) _
  · exact (calm_setXmlspace s marked n sp).bind fun _ => Mild.pure (π := withRelease) _

theorem calm_parentXmlspace (s : St) (marked : List NodeId) (n : NodeId) (sp : XmlSpace) :
    Mild asserted withRelease (s.parentXmlspace marked n sp) (s.release.parentXmlspace marked n sp) := by
  unfold St.parentXmlspace
  show Mild asserted withRelease (match s.parent n with | some p => _ | none => _) (match s.parent n with | some p => _ | none => _)
  cases s.parent n with
  | some p => exact calm_getXmlspace s marked p sp
  | none => exact Mild.error _

theorem calm_trimNodes (sp : XmlSpace) : ∀ (l : List NodeId) (s : St) (marked : List NodeId),
    Mild asserted withRelease (s.trimNodes marked sp l) (s.release.trimNodes marked sp l)
  | [], s, marked => Mild.ok (π := withRelease) _
  | n :: ns, s, marked => by
    unfold St.trimNodes
    show Mild asserted withRelease (if s.isText n = true then _ else _) (if s.isText n = true then _ else _)
    split
    · exact (calm_parentXmlspace s marked n sp).bind fun x => (calm_setText x.1 n _).bind fun t => calm_trimNodes sp ns t _
    · exact calm_trimNodes sp ns s marked

theorem calm_collectText (s : St) : ∀ (k d : Nat) (l : List NodeId), s.release.collectText k d l = s.collectText k d l
  | k, d, [] => by cases k <;> rfl
  | 0, _, _ :: _ => rfl
  | k + 1, d, c :: cs => by
    simp only [St.collectText, calm_childList, calm_collectText s k]
    rfl

theorem calm_modText (s : St) (i : NodeId) (t : Str) : s.release.modText i t = (s.modText i t).release := rfl

theorem calm_processSingle (s : St) (n : NodeId) : Mild asserted St.release (s.processSingle n) (s.release.processSingle n) := by
  have ht : s.release.text n = s.text n := rfl
  simp only [St.processSingle, ht, calm_modText]
  split
  · exact Mild.ok _
  · split
    · split
      · exact Mild.ok _
      · exact Mild.ok _
    · split
      · exact (Mild.same _).bind fun _ => Mild.pure _
      · exact Mild.pure _

theorem calm_processBorder (s : St) (a b : NodeId) (d e : Nat) (x y : XmlSpace) (c2 c3 : Option Nat) :
    Mild asserted St.release (s.processBorder a b d e x y c2 c3) (s.release.processBorder a b d e x y c2 c3) := by
  unfold St.processBorder
  split
  · split
    · split
      · exact (Mild.same (removeFirst (s.text b))).bind fun _ => Mild.pure _
      · exact Mild.pure _
    · split
      · exact Mild.pure _
      · split
        · exact (Mild.same (removeFirst (s.text b))).bind fun _ => Mild.pure _
        · exact Mild.pure _
  · exact Mild.pure _

theorem calm_processEnds (s : St) (a b : NodeId) (x y : XmlSpace) (f l : Bool) (c1 c4 : Option Nat) :
    Mild asserted St.release (s.processEnds a b x y f l c1 c4) (s.release.processEnds a b x y f l c1 c4) := by
  have ht : ∀ n, s.release.text n = s.text n := fun _ => rfl
  simp only [St.processEnds, ht, calm_modText]
  split
  · exact (Mild.same (removeFirst (s.text a))).bind fun _ => Mild.pure _
  · split
    · exact Mild.pure _
    · exact Mild.pure _

theorem calm_processTail (s : St) (a b : NodeId) (l : Bool) (c2 : Option Nat) :
    s.release.processTail a b l c2 = (s.processTail a b l c2).release := by
  have ht : ∀ n, s.release.text n = s.text n := fun _ => rfl
  simp only [St.processTail, ht, calm_modText]
  split <;> rfl

theorem calm_processPairs (sp : XmlSpace) : ∀ (l : List (NodeId × Nat)) (s : St) (marked : List NodeId) (f : Bool) (last : Option NodeId),
    Mild asserted withRelease (St.processPairs sp s marked f last l) (St.processPairs sp s.release marked f last l)
  | [], s, marked, f, last => by simp only [St.processPairs]; exact Mild.ok (π := withRelease) _
  | [_], s, marked, f, last => by simp only [St.processPairs]; exact Mild.ok (π := withRelease) _
  | (n1, d1) :: (n2, d2) :: rest, s, marked, f, last => by
    simp only [St.processPairs]
    refine (calm_parentXmlspace s marked _ sp).bind fun x => (calm_parentXmlspace x.1 x.2.1 n2 sp).bind fun y => ?_
    refine (calm_processBorder y.1 _ _ _ _ _ _ _ _).bind fun t => (calm_processEnds t _ _ _ _ _ _ _ _).bind fun u => ?_
    rw [calm_processTail]
    exact calm_processPairs sp ((n2, d2) :: rest) _ _ _ _

theorem calm_prepareTextChildren (s : St) (marked : List NodeId) (n : NodeId) (sp : XmlSpace) :
    Mild asserted withRelease (s.prepareTextChildren marked n sp) (s.release.prepareTextChildren marked n sp) := by
  unfold St.prepareTextChildren
  rw [calm_descendantList]
  refine (Mild.same _).bind fun ds => (calm_trimNodes sp ds s marked).bind fun x => ?_
  show Mild _ _ _ (x.1.release.childList n >>= _)
  rw [calm_childList]
  refine (Mild.same _).bind fun kids => ?_
  show Mild _ _ _ (x.1.release.collectText x.1.fuel 0 kids >>= _)
  rw [calm_collectText]
  refine (Mild.same _).bind fun nodes => ?_
  match nodes with
  | [] => exact Mild.pure (π := withRelease) _
  | [(t, _)] =>
    simp only [id]
    split
    · exact (calm_processSingle x.1 t).bind fun _ => Mild.pure (π := withRelease) _
    · exact Mild.pure (π := withRelease) _
  | a :: b :: l => exact calm_processPairs sp _ x.1 _ _ _

theorem calm_prepareTextAux : ∀ (k : Nat) (l : List NodeId) (s : St) (marked : List NodeId) (sp : XmlSpace),
    Mild asserted withRelease (St.prepareTextAux k s marked sp l) (St.prepareTextAux k s.release marked sp l)
  | k, [], s, marked, sp => by cases k <;> exact Mild.ok (π := withRelease) _
  | 0, _ :: _, s, marked, sp => Mild.error _
  | k + 1, n :: ns, s, marked, sp => by
    simp only [St.prepareTextAux]
    show Mild asserted withRelease (if s.isElement n = true then _ else _) (if s.isElement n = true then _ else _)
    split
    · refine (calm_getXmlspace s marked n sp).bind fun x => ?_
      show Mild asserted withRelease (if (x.1.firstChild n).any x.1.isText = true then _ else _)
        (if (x.1.firstChild n).any x.1.isText = true then _ else _)
      split
      · exact (calm_prepareTextChildren x.1 _ n _).bind fun y => calm_prepareTextAux k ns y.1 _ sp
      · show Mild _ _ _ (x.1.release.childList n >>= _)
        rw [calm_childList]
        exact (Mild.same _).bind fun kids => (calm_prepareTextAux k kids x.1 _ _).bind fun y => calm_prepareTextAux k ns y.1 _ sp
    · exact calm_prepareTextAux k ns s marked sp

theorem calm_removeSpaces : ∀ (l : List NodeId) (s : St), Mild asserted St.release (s.removeSpaces l) (s.release.removeSpaces l)
  | [], s => Mild.ok _
  | n :: ns, s => (calm_removeAttribute s n _).bind fun t => calm_removeSpaces ns t

theorem calm_prepareText (s : St) : Mild asserted St.release s.prepareText s.release.prepareText := by
  unfold St.prepareText
  show Mild _ _ _ (s.release.childList s.rootId >>= _)
  rw [calm_childList]
  exact (Mild.same _).bind fun kids => (calm_prepareTextAux _ kids s [] _).bind fun x => (calm_removeSpaces _ x.1).bind fun t =>
    (calm_drain t _ fun _ _ => rfl).bind fun _ => Mild.pure (π := St.release) _

theorem calm_parse (L : Lib) (x : Xml) : Mild (ParseErr.fail asserted) St.release (parseSvg L true x) (parseSvg L false x) := by
  unfold parseSvg
  refine (calm_processNodes _ x _ _ _ ⟨St.init true, []⟩).bind fun p => ?_
  show Mild _ _ _ (okOrFail p.dom.release.svgElement >>= _)
  rw [calm_svgElement]
  refine (Mild.same _).bind fun o => ?_
  cases o with
  | none => exact Mild.error _
  | some m =>
    exact (calm_drain p.dom _ fun _ _ => rfl).fail.bind fun y => (calm_resolveLinks _ y.1).fail.bind fun t => (calm_prepareText t).fail

end Svgdom
