import Verif.Props.Names
import Verif.Spec.Parse
import Verif.Spec.Attrs
import Verif.Proof.DeepCopy
import Verif.Proof.Roots

/-! Parsing of one element in closed form. -/

namespace Svgdom

open Relation

theorem elementNamed_eq (x : Str) : ElementId.fromStr? x = .ok (elementNamed x) := by
  obtain ⟨r, hr⟩ := C28_element_total x
  rw [hr]
  congr 1
  cases hf : elementNamed x with
  | none =>
    cases r with
    | none => rfl
    | some e =>
      have h1 := (C28_element_sound x e).1 hr
      have h2 := List.find?_eq_none.1 (by unfold elementNamed at hf; exact hf) e (List.mem_of_getElem? (ElementId.all_get e))
      simp [h1] at h2
  | some e =>
    unfold elementNamed at hf
    have h1 := List.find?_some hf
    simp only [decide_eq_true_eq] at h1
    have h2 := (C28_element_sound x e).2 h1
    rw [hr] at h2
    exact Except.ok.inj h2

theorem attributeNamed_eq (x : Str) : AttributeId.fromStr? x = .ok (attributeNamed x) := by
  obtain ⟨r, hr⟩ := C28_attribute_total x
  rw [hr]
  congr 1
  cases hf : attributeNamed x with
  | none =>
    cases r with
    | none => rfl
    | some e =>
      have h1 := (C28_attribute_sound x e).1 hr
      have h2 := List.find?_eq_none.1 (by unfold attributeNamed at hf; exact hf) e (List.mem_of_getElem? (AttributeId.all_get e))
      simp [h1] at h2
  | some e =>
    unfold attributeNamed at hf
    have h1 := List.find?_some hf
    simp only [decide_eq_true_eq] at h1
    have h2 := (C28_attribute_sound x e).2 h1
    rw [hr] at h2
    exact Except.ok.inj h2

/-! ### Values are plain -/

theorem ofOption_plain {α : Type} {f : α → AttributeValue} (hf : ∀ x, (f x).linkNode = none) {o : Option α} {v : AttributeValue}
    (h : Parsed.ofOption f o = .value v) : v.linkNode = none := by
  cases o with
  | none => simp [Parsed.ofOption] at h
  | some x => simp only [Parsed.ofOption, Parsed.value.injEq] at h; rw [← h]; exact hf x

theorem paintValue_plain {L : Lib} {x : Str} {v : AttributeValue} (h : paintValue L x = .value v) : v.linkNode = none := by
  unfold paintValue at h
  split at h <;> simp at h <;> subst h <;> rfl

/-- All values in the outcome are plain. -/
def Parsed.Plain (p : Parsed) : Prop := ∀ v, p = .value v → v.linkNode = none

theorem plain_ite {c : Prop} [Decidable c] {p q : Parsed} (hp : p.Plain) (hq : q.Plain) : (if c then p else q).Plain := by
  split <;> assumption

theorem plain_value {v : AttributeValue} (h : v.linkNode = none) : (Parsed.value v).Plain := by
  intro w hw; cases hw; exact h

theorem parseValue_plain (L : Lib) (aid : AttributeId) (eid : ElementId) (raw : Str) : (parseValue L aid eid raw).Plain := by
  have ho : ∀ {α : Type} {f : α → AttributeValue} (o : Option α), (∀ x, (f x).linkNode = none) → (Parsed.ofOption f o).Plain :=
    fun o hf v hv => ofOption_plain hf hv
  unfold parseValue
  simp only
  repeat' first
    | exact plain_value rfl
    | exact ho _ (fun _ => rfl)
    | exact fun v hv => paintValue_plain hv
    | (apply plain_ite)
    | (split)
    | (intro v hv; cases hv)

theorem valueOf_eq (L : Lib) (eid : ElementId) (g : Assign) : valueOf L eid g =
    match parseValue L g.1 eid g.2 with
    | .value v => if v.isEmptyList then none else some v
    | _ => none := by
  unfold valueOf
  cases parseValue L g.1 eid g.2 with
  | value v =>
    cases v with
    | numberList l => cases l <;> rfl
    | lengthList l => cases l <;> rfl
    | path l => cases l <;> rfl
    | _ => rfl
  | _ => rfl

theorem valueOf_plain {L : Lib} {eid : ElementId} {g : Assign} {v : AttributeValue} (h : valueOf L eid g = some v) :
    v.linkNode = none := by
  rw [valueOf_eq] at h
  cases hp : parseValue L g.1 eid g.2 with
  | value w =>
    rw [hp] at h
    simp only at h
    split at h
    · simp at h
    · cases h; exact parseValue_plain L g.1 eid g.2 _ hp
  | _ => rw [hp] at h; simp at h

/-! ### States built without moving anything below itself -/

structure Built (s : St) : Prop where
  safe : SafeReachable s
  root : RootSafeReachable s

theorem Built.init (debug : Bool) : Built (St.init debug) := ⟨.init debug, .init debug⟩

theorem Built.call {s t : St} (h : Built s) (op : Op) (hl : ∀ i ∈ op.handles, s.live i = true) (h1 : op.Safe s)
    (h2 : op.RootSafe s) (e : op.run s = .ok t) : Built t :=
  ⟨.call op h.safe hl h1 e, .call op h.root hl h2 e⟩

theorem Built.reachable {s : St} (h : Built s) : Reachable s := h.safe.reachable
theorem Built.inv {s : St} (h : Built s) : Inv s := h.reachable.inv
theorem Built.acyclic {s : St} (h : Built s) : s.Acyclic := h.safe.acyclic
theorem Built.nodesOk {s : St} (h : Built s) : NodesOk s := h.reachable.nodesOk

/-! ### Attributes of the element being parsed -/

/-- The node `n` gets the attributes `A` and the id `I`. -/
def St.elemWith (s : St) (n : NodeId) (A : List Attribute) (I : Str) : St :=
  s.setD n fun d => { d with attributes := A, id := I }

theorem elemWith_same (s : St) (n : NodeId) : s.elemWith n (s.attributes n) (s.idOf n) = s := by
  unfold St.elemWith St.setD
  have : upd s.data n { s.data n with attributes := s.attributes n, id := s.idOf n } = s.data := by
    funext j
    unfold upd
    split
    · next e => subst e; rfl
    · rfl
  rw [this]

theorem elemWith_twice (s : St) (n : NodeId) (A B : List Attribute) (I J : Str) :
    (s.elemWith n A I).elemWith n B J = s.elemWith n B J := by
  unfold St.elemWith St.setD
  simp only
  congr 1
  funext j
  unfold upd
  split
  · next e => simp [e]
  · next e => simp [e]

@[simp] theorem elemWith_attributes (s : St) (n : NodeId) (A : List Attribute) (I : Str) : (s.elemWith n A I).attributes n = A := by
  simp [St.elemWith, St.attributes]

@[simp] theorem elemWith_idOf (s : St) (n : NodeId) (A : List Attribute) (I : Str) : (s.elemWith n A I).idOf n = I := by
  simp [St.elemWith, St.idOf]

@[simp] theorem elemWith_nodeType (s : St) (n j : NodeId) (A : List Attribute) (I : Str) :
    (s.elemWith n A I).nodeType j = s.nodeType j := by
  simp only [St.elemWith, St.nodeType, St.setD_data]
  split
  · next e => rw [e]
  · rfl

@[simp] theorem elemWith_tagName (s : St) (n j : NodeId) (A : List Attribute) (I : Str) :
    (s.elemWith n A I).tagName j = s.tagName j := by
  simp only [St.elemWith, St.tagName, St.setD_data]
  split
  · next e => rw [e]
  · rfl

/-- The node is an element with plain attributes. -/
structure Cur (p : PSt) (n : NodeId) (eid : ElementId) : Prop where
  built : Built p.dom
  live : p.dom.live n = true
  type : p.dom.nodeType n = .element
  tag : p.dom.tagName n = .id eid
  plain : ∀ a ∈ p.dom.attributes n, a.value.linkNode = none

/-- The effect of attempts on element and references. -/
def PSt.after (L : Lib) (eid : ElementId) (n : NodeId) (p : PSt) (gs : List Assign) (I : Str) : PSt :=
  ⟨p.dom.elemWith n (gs.foldl (assign L eid) (p.dom.attributes n)) I,
    p.links ++ (gs.filterMap (refOf L eid)).map fun r => ⟨r.attr, r.iri, r.fallback, n⟩⟩

theorem after_after (L : Lib) (eid : ElementId) (n : NodeId) (p : PSt) (gs hs : List Assign) (I J : Str) :
    (p.after L eid n gs I).after L eid n hs J = p.after L eid n (gs ++ hs) J := by
  simp only [PSt.after, elemWith_attributes, elemWith_twice, List.foldl_append, List.filterMap_append, List.map_append,
    List.append_assoc]

theorem after_nil (L : Lib) (eid : ElementId) (n : NodeId) (p : PSt) : p.after L eid n [] (p.dom.idOf n) = p := by
  simp [PSt.after, elemWith_same]

@[simp] theorem after_idOf (L : Lib) (eid : ElementId) (n : NodeId) (p : PSt) (gs : List Assign) (I : Str) :
    (p.after L eid n gs I).dom.idOf n = I := by simp [PSt.after]

theorem putPlain {s : St} (n : NodeId) {a : Attribute} (hp : ∀ b ∈ s.attributes n, b.value.linkNode = none)
    (ha : a.value.linkNode = none) :
    s.putAttr n a = s.elemWith n (without (s.attributes n) a.name ++ [a]) (s.idOf n) := by
  have ht : s.target n a.name = none := by
    unfold St.target
    cases hg : attrsGet (s.attributes n) a.name with
    | none => rfl
    | some b => exact hp b (attrsGet_some hg).1
  unfold St.putAttr St.elemWith St.setD
  congr 1
  funext j
  unfold upd
  rw [ht, ha]
  by_cases hj : j = n
  · subst hj; simp [St.attributes, St.idOf]
  · simp [hj]

theorem stored_plain {a : Attribute} (ha : a.value.linkNode = none) : a.stored = a := by
  obtain ⟨nm, v⟩ := a
  simp only at ha
  simp [Attribute.stored, ha]

theorem setPlain_eq {s : St} (hb : Built s) {n : NodeId} (hn : s.live n = true) (ht : s.nodeType n = .element)
    (hp : ∀ b ∈ s.attributes n, b.value.linkNode = none) {a : Attribute} (ha : a.value.linkNode = none) :
    s.setAttribute n a = .ok (s.elemWith n (without (s.attributes n) a.name ++ [a]) (s.idOf n)) ∧
    Built (s.elemWith n (without (s.attributes n) a.name ++ [a]) (s.idOf n)) := by
  have heq := St.setChecked_eq hb.inv.link hn a (fun _ => decide_eq_true ht)
  rw [ha] at heq
  simp only [Option.bind_none, stored_plain ha, putPlain n hp ha] at heq
  have hset : s.setAttribute n a = .ok (s.elemWith n (without (s.attributes n) a.name ++ [a]) (s.idOf n)) := by
    simp [St.setAttribute, heq, bind, Except.bind, pure, Except.pure]
  refine ⟨hset, hb.call (.setAttribute n a) ?_ trivial trivial hset⟩
  simp [Op.handles, ha, hn]

theorem Cur.elemWith {p : PSt} {n : NodeId} {eid : ElementId} (h : Cur p n eid) {A : List Attribute} {I : Str} {ls : List PLink}
    (hb : Built (p.dom.elemWith n A I)) (hp : ∀ a ∈ A, a.value.linkNode = none) : Cur ⟨p.dom.elemWith n A I, ls⟩ n eid where
  built := hb
  live := h.live
  type := by simpa using h.type
  tag := by simpa using h.tag
  plain := by simpa using hp

theorem assign_plain {L : Lib} {eid : ElementId} {l : List Attribute} {g : Assign} (h : ∀ a ∈ l, a.value.linkNode = none) :
    ∀ a ∈ assign L eid l g, a.value.linkNode = none := by
  intro a ha
  unfold assign at ha
  split at ha
  · next v hv =>
    rcases List.mem_append.1 ha with ha | ha
    · exact h a (List.mem_of_mem_filter ha)
    · rw [List.mem_singleton] at ha; subst ha; exact valueOf_plain hv
  · exact h a ha

theorem parseAttributeValue_eq {L : Lib} {p : PSt} {n : NodeId} {eid : ElementId} (h : Cur p n eid) (aid : AttributeId) (raw : Str) :
    parseAttributeValue L p n aid raw = .ok (p.after L eid n [(aid, raw)] (p.dom.idOf n)) ∧
    Cur (p.after L eid n [(aid, raw)] (p.dom.idOf n)) n eid := by
  have htag : p.dom.tagId n = some eid := by simp [St.tagId, h.tag]
  unfold parseAttributeValue
  rw [htag]
  simp only
  have hv := valueOf_eq L eid (aid, raw)
  have same : ∀ q : Parsed, parseValue L aid eid raw = q → valueOf L eid (aid, raw) = none → (∀ i f, q ≠ .link i f) →
      p.after L eid n [(aid, raw)] (p.dom.idOf n) = p := by
    intro q hq hn hl
    have hr : refOf L eid (aid, raw) = none := by
      cases q with
      | link i f => exact absurd rfl (hl i f)
      | _ => simp [refOf, hq]
    simp [PSt.after, assign, hn, hr, elemWith_same]
  cases hp : parseValue L aid eid raw with
  | invalid =>
    simp only [hp] at hv
    rw [same _ hp hv (by simp)]
    exact ⟨rfl, h⟩
  | nothing =>
    simp only [hp] at hv
    rw [same _ hp hv (by simp)]
    exact ⟨rfl, h⟩
  | link iri fb =>
    simp only [hp] at hv
    have hr : refOf L eid (aid, raw) = some ⟨aid, iri, fb⟩ := by unfold refOf; simp [hp]
    have e : p.after L eid n [(aid, raw)] (p.dom.idOf n) = { p with links := p.links ++ [⟨aid, iri, fb, n⟩] } := by
      simp [PSt.after, assign, hv, hr, elemWith_same]
    rw [e]
    exact ⟨rfl, h.built, h.live, h.type, h.tag, h.plain⟩
  | value v =>
    simp only [hp] at hv
    simp only
    by_cases hem : v.isEmptyList = true
    · rw [if_pos hem] at hv ⊢
      rw [same _ hp hv (by simp)]
      exact ⟨rfl, h⟩
    · rw [if_neg hem] at hv ⊢
      have hvp := valueOf_plain hv
      obtain ⟨e1, hb⟩ := setPlain_eq h.built h.live h.type h.plain (a := ⟨.id aid, v⟩) hvp
      have hr : refOf L eid (aid, raw) = none := by unfold refOf; simp [hp]
      have e : p.after L eid n [(aid, raw)] (p.dom.idOf n) =
          { p with dom := p.dom.elemWith n (without (p.dom.attributes n) (.id aid) ++ [⟨.id aid, v⟩]) (p.dom.idOf n) } := by
        simp only [PSt.after, List.foldl_cons, List.foldl_nil, assign, hv, List.filterMap_cons, hr, List.filterMap_nil,
          List.map_nil, List.append_nil]
        rfl
      rw [e]
      refine ⟨by simp [e1, bind, Except.bind, pure, Except.pure], h.elemWith hb ?_⟩
      intro a ha
      rcases List.mem_append.1 ha with ha | ha
      · exact h.plain a (List.mem_of_mem_filter ha)
      · rw [List.mem_singleton] at ha; subst ha; exact hvp

theorem knownAttrNs_eq (a : XmlAttr) : knownAttrNs a.ns = a.known := by
  unfold knownAttrNs XmlAttr.known svgNs xlinkNs xmlNs
  cases a.ns with
  | none => simp
  | some n => simp only [Option.some.injEq, reduceCtorEq, false_or, Bool.decide_or, Bool.or_assoc]

/-- The id after some attributes, `d` before. -/
def idAfter (attrs : List XmlAttr) (d : Str) : Str :=
  (((attrs.filter fun a => decide (a.aid = some .Id)).getLast?).map (·.value)).getD d

theorem idAfter_cons (a : XmlAttr) (as : List XmlAttr) (d : Str) :
    idAfter (a :: as) d = idAfter as (if a.aid = some .Id then a.value else d) := by
  unfold idAfter
  by_cases h : a.aid = some .Id
  · simp only [h, List.filter_cons, decide_true, if_true]
    cases hl : as.filter fun a => decide (a.aid = some .Id) with
    | nil => simp
    | cons b bs => rw [List.getLast?_cons_cons]; cases hx : (b :: bs).getLast? <;> simp at hx ⊢
  · simp only [h, List.filter_cons, decide_false, if_false, Bool.false_eq_true]

theorem setId_eq {p : PSt} {n : NodeId} {eid : ElementId} (L : Lib) (h : Cur p n eid) (I : Str) :
    p.dom.setId n I = .ok (p.after L eid n [] I).dom ∧ Cur (p.after L eid n [] I) n eid ∧
      (p.after L eid n [] I).links = p.links := by
  have e : p.dom.setId n I = .ok (p.dom.elemWith n (p.dom.attributes n) I) := by
    have : (p.dom.setD n fun d => { d with id := I }) = p.dom.elemWith n (p.dom.attributes n) I := by
      unfold St.elemWith St.setD St.attributes; rfl
    unfold St.setId St.debugAssert
    have ht : p.dom.isElement n = true := decide_eq_true h.type
    simp [ht, this, bind, Except.bind, pure, Except.pure]
  refine ⟨e, h.elemWith ?_ h.plain, by simp [PSt.after]⟩
  exact h.built.call (.setId n I) (by simp [Op.handles, h.live]) trivial trivial e

theorem parseXmlAttributes_eq {L : Lib} {n : NodeId} {eid : ElementId} : ∀ (attrs : List XmlAttr) {p : PSt}, Cur p n eid →
    parseXmlAttributes L p n attrs = .ok (p.after L eid n (xmlAssigns attrs) (idAfter attrs (p.dom.idOf n))) ∧
    Cur (p.after L eid n (xmlAssigns attrs) (idAfter attrs (p.dom.idOf n))) n eid
  | [], p, h => by
    have : p.after L eid n (xmlAssigns []) (idAfter [] (p.dom.idOf n)) = p := after_nil L eid n p
    rw [this]; exact ⟨rfl, h⟩
  | a :: as, p, h => by
    have step : ∃ q gs I, (if knownAttrNs a.ns then do
        match ← AttributeId.fromStr? a.name with
        | some aid => parseSvgAttribute L p n aid a.value
        | none => pure p
      else pure p) = .ok q ∧ Cur q n eid ∧ q = p.after L eid n gs I ∧
        gs ++ xmlAssigns as = xmlAssigns (a :: as) ∧ I = (if a.aid = some .Id then a.value else p.dom.idOf n) := by
      rw [knownAttrNs_eq, attributeNamed_eq]
      by_cases hk : a.known = true
      · rw [if_pos hk]
        have haid : a.aid = attributeNamed a.name := by simp [XmlAttr.aid, hk]
        simp only [bind, Except.bind, haid]
        cases hnm : attributeNamed a.name with
        | none =>
          refine ⟨p, [], _, rfl, h, (after_nil L eid n p).symm, ?_, by simp⟩
          simp [xmlAssigns, haid, hnm]
        | some i =>
          simp only [parseSvgAttribute]
          by_cases h1 : i = .Id
          · subst h1
            obtain ⟨e1, e2, e3⟩ := setId_eq L h a.value
            refine ⟨p.after L eid n [] a.value, [], a.value, ?_, e2, rfl, by simp [xmlAssigns, haid, hnm], by simp⟩
            simp only [if_true, e1, bind, Except.bind, pure, Except.pure]
            congr 1
            cases hh : p.after L eid n [] a.value with
            | mk d l => rw [hh] at e3; simp only at e3; simp [e3]
          · rw [if_neg h1]
            have hsome : ¬ (some i = some AttributeId.Id) := by simpa using h1
            by_cases h2 : i = .Style ∨ i = .Class
            · rw [if_pos h2]
              refine ⟨p, [], _, rfl, h, (after_nil L eid n p).symm, ?_, by simp [h1]⟩
              rcases h2 with rfl | rfl <;> simp [xmlAssigns, haid, hnm]
            · rw [if_neg h2]
              obtain ⟨e1, e2⟩ := parseAttributeValue_eq (L := L) h i a.value
              refine ⟨_, [(i, a.value)], _, e1, e2, rfl, ?_, by simp [h1]⟩
              rw [not_or] at h2
              have : xmlAssigns (a :: as) = (i, a.value) :: xmlAssigns as := by
                unfold xmlAssigns
                rw [List.filterMap_cons, haid, hnm]
                split
                · next hx =>
                  split at hx
                  · next hh => exact absurd (Option.some.inj hh) h1
                  · next hh => exact absurd (Option.some.inj hh) h2.1
                  · next hh => exact absurd (Option.some.inj hh) h2.2
                  · simp at hx
                  · next hh => simp at hh
                · next hx =>
                  split at hx
                  · simp at hx
                  · simp at hx
                  · simp at hx
                  · next hh => cases hh; cases hx; rfl
                  · simp at hx
              rw [this]; rfl
      · rw [if_neg hk]
        have haid : a.aid = none := by simp [XmlAttr.aid, hk]
        refine ⟨p, [], _, rfl, h, (after_nil L eid n p).symm, by simp [xmlAssigns, haid], by simp [haid]⟩
    obtain ⟨q, gs, I, e, hq, rfl, hgs, hI⟩ := step
    obtain ⟨e2, h2⟩ := parseXmlAttributes_eq as hq
    rw [after_after, hgs, after_idOf, hI, ← idAfter_cons] at e2 h2
    refine ⟨?_, h2⟩
    have : parseXmlAttributes L p n (a :: as) = (if knownAttrNs a.ns then do
        match ← AttributeId.fromStr? a.name with
        | some aid => parseSvgAttribute L p n aid a.value
        | none => pure p
      else pure p) >>= fun p => parseXmlAttributes L p n as := by
      simp only [parseXmlAttributes]
      split
      · rw [attributeNamed_eq]
        simp only [bind, Except.bind]
        cases attributeNamed a.name <;> rfl
      · rfl
    rw [this, e]
    simp only [bind, Except.bind, hI]
    exact e2

/-- A step that only makes attempts. -/
def Attempts (L : Lib) (n : NodeId) (eid : ElementId) (f : PSt → Except Err PSt) (gs : List Assign) : Prop :=
  ∀ p, Cur p n eid → f p = .ok (p.after L eid n gs (p.dom.idOf n)) ∧ Cur (p.after L eid n gs (p.dom.idOf n)) n eid

theorem Attempts.nil {L : Lib} {n : NodeId} {eid : ElementId} : Attempts L n eid (fun p => .ok p) [] := by
  intro p h
  rw [after_nil]; exact ⟨rfl, h⟩

theorem Attempts.bind {L : Lib} {n : NodeId} {eid : ElementId} {f g : PSt → Except Err PSt} {as bs : List Assign}
    (hf : Attempts L n eid f as) (hg : Attempts L n eid g bs) : Attempts L n eid (fun p => f p >>= g) (as ++ bs) := by
  intro p h
  obtain ⟨e1, h1⟩ := hf p h
  obtain ⟨e2, h2⟩ := hg _ h1
  rw [after_after, after_idOf] at e2 h2
  exact ⟨by simp only [e1, Bind.bind, Except.bind]; exact e2, h2⟩

theorem Attempts.congr {L : Lib} {n : NodeId} {eid : ElementId} {f g : PSt → Except Err PSt} {as : List Assign}
    (hf : Attempts L n eid f as) (e : ∀ p, g p = f p) : Attempts L n eid g as := by
  intro p h; rw [e]; exact hf p h

theorem value_attempts (L : Lib) (n : NodeId) (eid : ElementId) (aid : AttributeId) (raw : Str) :
    Attempts L n eid (fun p => parseAttributeValue L p n aid raw) [(aid, raw)] :=
  fun _ h => parseAttributeValue_eq h aid raw

theorem sheetAssigns_some {d : Str × Str} {i : AttributeId} (h : attributeNamed d.1 = some i) (hm : i ≠ .Marker) :
    sheetAssigns d = if i.inCss then [(i, d.2)] else [] := by
  unfold sheetAssigns
  rw [h]
  split
  · next hh => exact absurd (Option.some.inj hh) hm
  · next hh => cases hh; rfl
  · next hh => simp at hh

theorem css_attempts (L : Lib) (n : NodeId) (eid : ElementId) (d : Str × Str) :
    Attempts L n eid (fun p => parseCssAttribute L p n d.1 d.2) (sheetAssigns d) := by
  unfold parseCssAttribute
  rw [attributeNamed_eq]
  cases hnm : attributeNamed d.1 with
  | none =>
    have : sheetAssigns d = [] := by simp [sheetAssigns, hnm]
    rw [this]
    exact Attempts.nil.congr fun _ => rfl
  | some i =>
    simp only [bind, Except.bind]
    by_cases hm : i = .Marker
    · subst hm
      have : sheetAssigns d = [(.MarkerStart, d.2)] ++ [(.MarkerMid, d.2)] ++ [(.MarkerEnd, d.2)] := by simp [sheetAssigns, hnm]
      rw [this]
      refine (((value_attempts L n eid .MarkerStart d.2).bind (value_attempts L n eid .MarkerMid d.2)).bind
        (value_attempts L n eid .MarkerEnd d.2)).congr fun p => ?_
      have : (!AttributeId.Marker.isPresentation && decide (AttributeId.Marker ≠ .Transform)) = false := by decide
      simp only [this, Bool.false_eq_true, if_false, if_true, bind, Except.bind]
      cases parseAttributeValue L p n AttributeId.MarkerStart d.2 <;> rfl
    · rw [sheetAssigns_some hnm hm]
      by_cases hc : i.inCss = true
      · rw [if_pos hc]
        refine (value_attempts L n eid i d.2).congr fun p => ?_
        have : (!i.isPresentation && decide (i ≠ .Transform)) = false := by
          unfold AttributeId.inCss at hc
          cases hp : i.isPresentation <;> simp_all
        simp only [this, Bool.false_eq_true, if_false, if_neg hm]
      · rw [if_neg hc]
        refine Attempts.nil.congr fun p => ?_
        have : (!i.isPresentation && decide (i ≠ .Transform)) = true := by
          unfold AttributeId.inCss at hc
          cases hp : i.isPresentation <;> simp_all
        simp only [this, if_true]
        rfl

theorem cssDecls_attempts (L : Lib) (n : NodeId) (eid : ElementId) : ∀ ds : List (Str × Str),
    Attempts L n eid (fun p => parseCssDecls L p n ds) (ds.flatMap sheetAssigns)
  | [] => Attempts.nil
  | d :: ds => ((css_attempts L n eid d).bind (cssDecls_attempts L n eid ds)).congr fun _ => rfl

theorem rules_attempts (L : Lib) (n : NodeId) (eid : ElementId) (pos : XmlPos) : ∀ rs : List Rule,
    Attempts L n eid (fun p => parseRules L p n pos rs) (ruleAssigns rs pos)
  | [] => Attempts.nil
  | r :: rs => by
    by_cases ha : r.applies pos = true
    · have : ruleAssigns (r :: rs) pos = r.decls.flatMap sheetAssigns ++ ruleAssigns rs pos := by
        simp [ruleAssigns, ha]
      rw [this]
      refine ((cssDecls_attempts L n eid r.decls).bind (rules_attempts L n eid pos rs)).congr fun p => ?_
      simp only [parseRules, ha, if_true]
    · have : ruleAssigns (r :: rs) pos = [] ++ ruleAssigns rs pos := by
        simp [ruleAssigns, ha]
      rw [this]
      refine (Attempts.nil.bind (rules_attempts L n eid pos rs)).congr fun p => ?_
      simp only [parseRules, ha, if_false, Bool.false_eq_true]
      rfl

theorem style_attempts (L : Lib) (n : NodeId) (eid : ElementId) : ∀ ds : List (Str × Str),
    Attempts L n eid (fun p => parseStyleDecls L p n ds) (ds.flatMap styleAssigns)
  | [] => Attempts.nil
  | d :: ds => by
    rw [List.flatMap_cons]
    have h1 : Attempts L n eid (fun p => do
        match ← AttributeId.fromStr? d.1 with
          | some aid =>
            if aid.isPresentation || decide (aid = .Transform) then parseAttributeValue L p n aid d.2 else pure p
          | none => pure p) (styleAssigns d) := by
      unfold styleAssigns
      rw [attributeNamed_eq]
      cases hnm : attributeNamed d.1 with
      | none => exact Attempts.nil.congr fun _ => rfl
      | some i =>
        simp only [bind, Except.bind]
        by_cases hc : i.inCss = true
        · rw [if_pos hc]
          refine (value_attempts L n eid i d.2).congr fun p => ?_
          unfold AttributeId.inCss at hc
          rw [if_pos hc]
        · rw [if_neg hc]
          refine Attempts.nil.congr fun p => ?_
          unfold AttributeId.inCss at hc
          rw [if_neg hc]
          rfl
    refine (h1.bind (style_attempts L n eid ds)).congr fun p => ?_
    simp only [parseStyleDecls]
    rw [attributeNamed_eq]
    simp only [bind, Except.bind]
    cases attributeNamed d.1 with
    | none => rfl
    | some i => simp only; split <;> rfl

/-- A new element with its attributes: everything else is as before. -/
theorem parseElement_eq (L : Lib) (sheet : List Rule) {p : PSt} (hb : Built p.dom) (pos : XmlPos) (eid : ElementId)
    (attrs : List XmlAttr) {F : Forest} (hF : Describes p.dom F) :
    ∃ t, parseElement L sheet p pos eid attrs = .ok (⟨t, p.links ++
        (refsOf L eid (allAssigns L sheet pos attrs)).map fun r => ⟨r.attr, r.iri, r.fallback, p.dom.nextId⟩⟩, p.dom.nextId) ∧
      Built t ∧ Grown p.dom t [p.dom.nextId] ∧ Describes t (F.add p.dom.nextId) ∧
      t.nodeType p.dom.nextId = .element ∧ t.tagName p.dom.nextId = .id eid ∧ t.idOf p.dom.nextId = idFrom attrs ∧
      t.attributes p.dom.nextId = attrsOf L eid (allAssigns L sheet pos attrs) ∧ t.text p.dom.nextId = [] ∧
      t.linkedNodes p.dom.nextId = [] ∧ ∃ u, p.dom.createElement (.id eid) = .ok (u, p.dom.nextId) ∧
        t = u.elemWith p.dom.nextId (attrsOf L eid (allAssigns L sheet pos attrs)) (idFrom attrs) := by
  obtain ⟨u, key, e1, hu, hgr, hd1, hd2, hFu⟩ := newNode_grown hb.inv (.fresh .element (.id eid) []) rfl rfl
  have hcr : p.dom.createElement (.id eid) = .ok (u, p.dom.nextId) := by simp [St.createElement, e1]
  obtain ⟨n, hn⟩ : ∃ n, n = p.dom.nextId := ⟨_, rfl⟩
  rw [← hn] at e1 hgr hd1 hd2 hFu hcr ⊢
  have hbu : Built u := hb.call (.createElement (.id eid)) (by simp [Op.handles]) trivial trivial (by simp [Op.run, hcr, Except.map])
  have hcur : Cur ⟨u, p.links⟩ n eid := by
    refine ⟨hbu, (hgr.live n).2 (.inr (by simp)), ?_, ?_, ?_⟩
    · simp [St.nodeType, hd1, NodeData.fresh]
    · simp [St.tagName, hd1, NodeData.fresh]
    · simp [St.attributes, hd1, NodeData.fresh]
  have hid : u.idOf n = [] := by simp [St.idOf, hd1, NodeData.fresh]
  have hat : u.attributes n = [] := by simp [St.attributes, hd1, NodeData.fresh]
  obtain ⟨x1, c1⟩ := parseXmlAttributes_eq (L := L) attrs hcur
  obtain ⟨x2, c2⟩ := rules_attempts L n eid pos sheet _ c1
  rw [after_after, after_idOf] at x2 c2
  simp only at x2
  have h3 : Attempts L n eid (fun p => match xmlAttribute attrs st!"style" with
      | some v => parseStyleDecls L p n (L.declarations v)
      | none => pure p) (styleAttrAssigns L attrs) := by
    unfold styleAttrAssigns
    cases xmlAttribute attrs st!"style" with
    | none => exact Attempts.nil
    | some v => exact style_attempts L n eid _
  obtain ⟨x3, c3⟩ := h3 _ c2
  rw [after_after, after_idOf] at x3 c3
  have hall : xmlAssigns attrs ++ ruleAssigns sheet pos ++ styleAttrAssigns L attrs = allAssigns L sheet pos attrs := rfl
  rw [hall] at x3 c3
  have hidA : idAfter attrs (PSt.dom ⟨u, p.links⟩ |>.idOf n) = idFrom attrs := by simp only [hid]; rfl
  rw [hidA] at x1 x2 x3 c3
  have hafter : (PSt.mk u p.links).after L eid n (allAssigns L sheet pos attrs) (idFrom attrs) =
      ⟨u.elemWith n (attrsOf L eid (allAssigns L sheet pos attrs)) (idFrom attrs), p.links ++
        (refsOf L eid (allAssigns L sheet pos attrs)).map fun r => ⟨r.attr, r.iri, r.fallback, n⟩⟩ := by
    simp only [PSt.after, hat, attrsOf, refsOf]
  rw [hafter] at x3 c3
  refine ⟨_, ?_, c3.built, ?_, (hFu F hF).frame rfl rfl, ?_, ?_, ?_, ?_, ?_, ?_, u, hcr, rfl⟩
  · simp only [parseElement, hcr, bind, Except.bind]
    rw [x1]
    simp only
    rw [x2]
    simp only at x3 ⊢
    cases hx : xmlAttribute attrs st!"style" with
    | none => rw [hx] at x3; simp only at x3 ⊢; rw [x3]; rfl
    | some v => rw [hx] at x3; simp only at x3 ⊢; rw [x3]; rfl
  · have hlne : ∀ j, p.dom.live j = true → j ≠ n := by
      rintro j hj rfl; rw [hn, hb.inv.nextId_dead] at hj; simp at hj
    have hd : ∀ j, p.dom.live j = true → (u.elemWith n (attrsOf L eid (allAssigns L sheet pos attrs)) (idFrom attrs)).data j = u.data j := by
      intro j hj; simp [St.elemWith, hlne j hj]
    constructor
    · exact hgr.live
    · exact hgr.order
    · exact hgr.next
    · exact hgr.rootId
    · exact hgr.debug
    · intro j hj; simp only [St.idOf, hd j hj]; exact hgr.ids j hj
    · intro j hj; simp only [St.tagName, hd j hj]; exact hgr.tags j hj
    · intro j hj; simp only [St.text, hd j hj]; exact hgr.texts j hj
    · intro j hj; simp only [St.nodeType, hd j hj]; exact hgr.types j hj
    · intro j hj; simp only [St.attributes, hd j hj]; exact hgr.attrs j hj
    · intro j hj; simp only [St.isDetached, hd j hj]; exact hgr.detached j hj
    · intro j hj
      rw [List.mem_singleton] at hj
      simp [St.isDetached, St.elemWith, hj, hd1]
    · exact hgr.stored
    · intro j hj
      simp only [St.linkedNodes, hd j hj, List.flatMap_cons, List.flatMap_nil, List.append_nil]
      rw [hd2 j (hlne j hj)]
      have : refCount ((u.elemWith n (attrsOf L eid (allAssigns L sheet pos attrs)) (idFrom attrs)).attributes n) j = 0 := by
        rw [refCount_eq, refs, List.countP_eq_zero]
        intro a ha
        have := c3.plain a ha
        simp [this]
      rw [this]
      simp
  · simpa using hcur.type
  · simpa using hcur.tag
  · simp
  · simp
  · simp [St.text, St.elemWith, hd1, NodeData.fresh]
  · simp [St.linkedNodes, St.elemWith, hd1, NodeData.fresh]

end Svgdom
