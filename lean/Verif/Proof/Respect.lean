import Verif.Proof.Guard
import Verif.Proof.Inner

/-!
# Calls respect the guards of the caller
-/

set_option autoImplicit false

namespace Svgdom

theorem Untouched.refl (g : Guards) (s : St) : Untouched g s s := fun _ _ => ⟨rfl, rfl⟩

theorem Untouched.trans {g : Guards} {s t u : St} (h1 : Untouched g s t) (h2 : Untouched g t u) : Untouched g s u :=
  fun j hj => ⟨(h2 j hj).1.trans (h1 j hj).1, (h2 j hj).2.trans (h1 j hj).2⟩

theorem Untouched.setL {g : Guards} (s : St) {i : NodeId} (hi : g i = .free) (f : Links → Links) : Untouched g s (s.setL i f) := by
  intro j hj
  have : j ≠ i := by rintro rfl; exact hj hi
  simp [St.setL, upd_ne _ _ this]

theorem Untouched.setD {g : Guards} (s : St) {i : NodeId} (hi : g i = .free) (f : NodeData → NodeData) : Untouched g s (s.setD i f) := by
  intro j hj
  have : j ≠ i := by rintro rfl; exact hj hi
  simp [St.setD, upd_ne _ _ this]

section
variable {g : Guards} {α β : Type}

theorem Respects.ok {π : α → St} {s : St} {a : α} (h : Untouched g s (π a)) : Respects g π s (.ok a) (.ok a) :=
  ⟨.inr rfl, fun b e => by cases e; exact h⟩

theorem Respects.ret {π : α → St} {s : St} {a : α} (h : Untouched g s (π a)) : Respects g π s (pure a) (pure a) := .ok h

theorem Respects.err {π : α → St} {s : St} (e : Err) : Respects g π s (.error e) (.error e) :=
  ⟨.inr rfl, fun b h => by cases h⟩

theorem Respects.panic {π : α → St} {s : St} {r : Except Err α} {i : NodeId} (h : g i ≠ .free) :
    Respects g π s (.error (.panic .borrowed)) r :=
  ⟨.inl ⟨rfl, i, h⟩, fun b h => by cases h⟩

theorem Respects.bind {π : α → St} {ρ : β → St} {s : St} {rG r : Except Err α} {fG f : α → Except Err β}
    (h : Respects g π s rG r) (hf : ∀ a, rG = .ok a → Respects g ρ (π a) (fG a) (f a)) : Respects g ρ s (rG >>= fG) (r >>= f) := by
  obtain ⟨h1, h2⟩ := h
  rcases h1 with ⟨h1, hi⟩ | h1
  · rw [h1]
    exact ⟨.inl ⟨rfl, hi⟩, fun b h => by cases h⟩
  · rw [← h1]
    cases rG with
    | error e => exact .err e
    | ok a =>
      obtain ⟨h3, h4⟩ := hf a rfl
      exact ⟨h3, fun b e => (h2 a rfl).trans (h4 b e)⟩

/-- A read before the rest of the call. -/
theorem Respects.reads {π : α → St} {s : St} {i : NodeId} {fG : Unit → Except Err α} {r : Except Err α}
    (h : g i ≠ .excl → Respects g π s (fG ()) r) : Respects g π s (rd g i >>= fG) r := by
  by_cases hi : g i = .excl
  · rw [rd_excl hi]
    exact .panic (i := i) (by rw [hi]; simp)
  · rw [rd_ok hi]
    exact h hi

/-- A `borrow_mut` before the rest of the call. -/
theorem Respects.writes {π : α → St} {s : St} {held : List NodeId} {i : NodeId} {fG f : Unit → Except Err α}
    (h : g i = .free → i ∉ held → Respects g π s (fG ()) (f ())) : Respects g π s (wr g held i >>= fG) (borrowMut held i >>= f) := by
  by_cases hi : g i = .free
  · rw [wr_free hi]
    by_cases hh : i ∈ held
    · simp only [borrowMut, hh, if_true]
      exact .err _
    · simp only [borrowMut, hh, if_false]
      exact h hi hh
  · rw [wr_guarded hi]
    exact .panic hi

/-- A `borrow_mut` that cannot meet a guard of the call itself. -/
theorem Respects.writes0 {π : α → St} {s : St} {held : List NodeId} {i : NodeId} {fG : Unit → Except Err α} {r : Except Err α}
    (h : g i = .free → Respects g π s (fG ()) r) (hh : i ∉ held := by simp) : Respects g π s (wr g held i >>= fG) r := by
  by_cases hi : g i = .free
  · rw [wr_free hi]
    simp only [borrowMut, hh, if_false]
    exact h hi
  · rw [wr_guarded hi]
    exact .panic hi

theorem Respects.check {π : α → St} {s : St} {u : Except Err Unit} {fG f : Unit → Except Err α}
    (h : Respects g π s (fG ()) (f ())) : Respects g π s (u >>= fG) (u >>= f) := by
  cases u with
  | error e => exact .err e
  | ok a => exact h

/-- A part of the call that only reads, with the result `a`. -/
theorem Respects.eq_ok {π : α → St} {s : St} {rG r : Except Err α} (h : Respects g π s rG r) {a : α} (e : rG = .ok a) : r = .ok a := by
  rcases h.1 with ⟨h, _⟩ | h
  · rw [h] at e; cases e
  · rw [← h]; exact e

theorem Respects.bind' {π : α → St} {ρ : β → St} {s : St} {rG r : Except Err α} {fG f : α → Except Err β}
    (h : Respects g π s rG r) (hf : ∀ a, r = .ok a → Respects g ρ (π a) (fG a) (f a)) : Respects g ρ s (rG >>= fG) (r >>= f) :=
  h.bind fun a e => hf a (h.eq_ok e)

theorem Respects.step {π : α → St} {s : St} {rG : Except Err β} {a : β} {fG : β → Except Err α} {r : Except Err α}
    (h : Respects g (fun _ => s) s rG (.ok a)) (hf : Respects g π s (fG a) r) : Respects g π s (rG >>= fG) r := by
  rcases h.1 with ⟨h, i, hi⟩ | h <;> rw [h]
  · exact .panic hi
  · exact hf

/-- Something was done to the state before the rest of the call. -/
theorem Respects.after {π : α → St} {s t : St} {rG r : Except Err α} (h : Untouched g s t) (h2 : Respects g π t rG r) :
    Respects g π s rG r := ⟨h2.1, fun a e => h.trans (h2.2 a e)⟩

/-! ## tree.rs -/

theorem detached_untouched {s : St} {i : NodeId} (hi : g i = .free) (h : ¬ Guarded g (s.around i)) : Untouched g s (s.detached i) := by
  intro j hj
  refine ⟨?_, rfl⟩
  have hji : j ≠ i := by rintro rfl; exact hj hi
  have h1 : (s.nextSibling i).or (s.parent i) ≠ some j := fun e => h ⟨j, by simp [St.around, e], hj⟩
  have h2 : (s.prevSibling i).or (s.parent i) ≠ some j := fun e => h ⟨j, by simp [St.around, e], hj⟩
  have hl : (s.detached i).links j = s.detachedLinks i j := rfl
  rw [hl]
  cases hn : s.nextSibling i <;> cases hp : s.prevSibling i <;> simp only [hn, hp, Option.or] at h1 h2 <;>
    ext1 <;> simp_all [St.detachedLinks]

theorem Respects.detachCore {s : St} {held : List NodeId} {i : NodeId} (hi : g i = .free) :
    Respects g id s (s.detachCoreG g held i) (s.detachCore held i) := by
  rw [detachCoreG_eq]
  by_cases h : Guarded g (s.around i)
  · rw [if_pos h]
    obtain ⟨n, _, hn⟩ := h
    exact .panic hn
  · rw [if_neg h]
    by_cases hb : s.blocked held i
    · rw [St.detachCore_blocked _ _ _ hb]
      exact .err _
    · rw [St.detachCore_ok _ _ _ hb]
      exact .ok (detached_untouched hi h)

theorem Respects.detach (s : St) (i : NodeId) : Respects g id s (s.detachG g i) (s.detach i) :=
  .writes0 fun hi => .detachCore hi

theorem Respects.assert {π : α → St} {s : St} {c : Bool} {fG f : Unit → Except Err α}
    (h : c = true → Respects g π s (fG ()) (f ())) : Respects g π s (assertOrPanic c >>= fG) (assertOrPanic c >>= f) := by
  cases c with
  | false => exact .err _
  | true => exact h rfl

theorem Respects.append (s : St) (p c : NodeId) : Respects g id s (s.appendG g p c) (s.append p c) := by
  unfold St.appendG St.append
  refine .assert fun hne => .writes0 fun hp => .writes0 (fun hc => .bind (.detachCore hc) fun t _ => ?_)
    (by rintro h; simp only [List.mem_singleton] at h; simp [h] at hne)
  have hne' : p ≠ c := by simpa using hne
  simp only [id, St.setL_links, hne', if_false, if_true, St.setL_upgrade]
  generalize t.upgrade (t.links p).lastChild = o
  cases o with
  | some l =>
    refine .writes fun hl _ => ?_
    refine .check ?_
    refine .ret ?_
    exact (((((Untouched.setL _ hc _).trans (.setL _ hp _)).trans (.setL _ hc _)).trans (.setL _ hp _)).trans (.setL _ hl _))
  | none =>
    refine .check ?_
    refine .ret ?_
    exact ((((Untouched.setL _ hc _).trans (.setL _ hp _)).trans (.setL _ hp _)).trans (.setL _ hp _))

theorem Respects.prepend (s : St) (p c : NodeId) : Respects g id s (s.prependG g p c) (s.prepend p c) := by
  unfold St.prependG St.prepend
  refine .assert fun hne => .writes0 fun hp => .writes0 (fun hc => .bind (.detachCore hc) fun t _ => ?_)
    (by rintro h; simp only [List.mem_singleton] at h; simp [h] at hne)
  have hne' : p ≠ c := by simpa using hne
  simp only [id, St.setL_links, hne', if_false, if_true, St.setL_upgrade]
  generalize (t.links p).firstChild = o
  cases o with
  | some l =>
    refine .writes fun hl _ => ?_
    refine .check ?_
    refine .ret ?_
    exact (((((Untouched.setL _ hc _).trans (.setL _ hp _)).trans (.setL _ hl _)).trans (.setL _ hc _)).trans (.setL _ hp _))
  | none =>
    refine .check ?_
    refine .ret ?_
    exact ((((Untouched.setL _ hc _).trans (.setL _ hp _)).trans (.setL _ hp _)).trans (.setL _ hp _))

theorem Respects.insertAfter (s : St) (x y : NodeId) : Respects g id s (s.insertAfterG g x y) (s.insertAfter x y) := by
  unfold St.insertAfterG St.insertAfter
  refine .assert fun hne => .writes0 fun hp => .writes0 (fun hc => .bind (.detachCore hc) fun t _ => ?_)
    (by rintro h; simp only [List.mem_singleton] at h; simp [h] at hne)
  have hne' : x ≠ y := by simpa using hne
  simp only [id, St.setL_links, hne', if_false, if_true, St.setL_upgrade]
  generalize (t.links x).nextSib = o
  cases o with
  | some l =>
    refine .writes fun hl _ => ?_
    refine .check ?_
    refine .ret ?_
    exact (((((Untouched.setL _ hc _).trans (.setL _ hp _)).trans (.setL _ hl _)).trans (.setL _ hc _)).trans (.setL _ hp _))
  | none =>
    dsimp only
    generalize t.upgrade (t.links x).parent = q
    cases q with
    | some l =>
      refine .writes fun hl _ => ?_
      refine .ret ?_
      exact ((((Untouched.setL _ hc _).trans (.setL _ hp _)).trans (.setL _ hl _)).trans (.setL _ hp _))
    | none =>
      refine .ret ?_
      exact (((Untouched.setL _ hc _).trans (.setL _ hp _)).trans (.setL _ hp _))

theorem Respects.insertBefore (s : St) (x y : NodeId) : Respects g id s (s.insertBeforeG g x y) (s.insertBefore x y) := by
  unfold St.insertBeforeG St.insertBefore
  refine .assert fun hne => .writes0 fun hp => .writes0 (fun hc => .bind (.detachCore hc) fun t _ => ?_)
    (by rintro h; simp only [List.mem_singleton] at h; simp [h] at hne)
  have hne' : x ≠ y := by simpa using hne
  simp only [id, St.setL_links, hne', if_false, if_true, St.setL_upgrade]
  generalize t.upgrade (t.links x).prevSib = o
  cases o with
  | some l =>
    refine .writes fun hl _ => ?_
    refine .check ?_
    refine .ret ?_
    exact (((((Untouched.setL _ hc _).trans (.setL _ hp _)).trans (.setL _ hc _)).trans (.setL _ hp _)).trans (.setL _ hl _))
  | none =>
    simp only [St.setL_links, hne', if_false, if_true, St.setL_upgrade]
    generalize t.upgrade (t.links x).parent = q
    cases q with
    | some l =>
      refine .writes fun hl _ => ?_
      refine .ret ?_
      exact ((((Untouched.setL _ hc _).trans (.setL _ hp _)).trans (.setL _ hp _)).trans (.setL _ hl _))
    | none =>
      refine .ret ?_
      exact (((Untouched.setL _ hc _).trans (.setL _ hp _)).trans (.setL _ hp _))

/-! ## node.rs -/

theorem Respects.debug {π : α → St} {s : St} {i : NodeId} {c : Bool} {fG f : Unit → Except Err α}
    (h : Respects g π s (fG ()) (f ())) : Respects g π s (s.debugReads g i c >>= fG) (s.debugAssert c >>= f) := by
  unfold St.debugReads
  cases hd : s.debug with
  | true =>
    simp only [if_true, bind_assoc]
    exact .reads fun _ => .check h
  | false =>
    have : s.debugAssert c = .ok () := by simp [St.debugAssert, hd]
    rw [this]
    exact h

theorem Respects.textMut (s : St) (i : NodeId) (t : Str) :
    Respects g id s (s.textMutG g i t) (.ok (s.setD i fun d => { d with text := t })) :=
  .writes0 fun hi => .ret (.setD _ hi _)

theorem Respects.setText (s : St) (i : NodeId) (t : Str) : Respects g id s (s.setTextG g i t) (s.setText i t) :=
  .debug (.writes0 fun hi => .ret (.setD _ hi _))

theorem Respects.setId (s : St) (i : NodeId) (t : Str) : Respects g id s (s.setIdG g i t) (s.setId i t) :=
  .debug (.writes0 fun hi => .ret (.setD _ hi _))

theorem Respects.setTagName (s : St) (i : NodeId) (t : TagName) : Respects g id s (s.setTagNameG g i t) (s.setTagName i t) := by
  refine .debug ?_
  by_cases h : t = .name []
  · simp only [h, if_true]
    exact .err _
  · simp only [h, if_false]
    exact .writes0 fun hi => .ret (.setD _ hi _)

theorem Respects.unlinkValue (s : St) (i : NodeId) (v : AttributeValue) :
    Respects g id s (s.unlinkValueG g i v) (s.unlinkValue i v) := by
  unfold St.unlinkValueG St.unlinkValue
  cases v.linkNode with
  | none => exact .ok (.refl _ _)
  | some t =>
    dsimp only
    refine .reads fun _ => ?_
    cases (s.linkedNodes t).findIdx? (fun n => decide (n = i)) with
    | none => exact .err _
    | some k =>
      refine .writes fun ht _ => ?_
      exact .ret (.setD _ ht _)

theorem Respects.removeAttribute (s : St) (i : NodeId) (x : AName) :
    Respects g id s (s.removeAttributeG g i x) (s.removeAttribute i x) := by
  unfold St.removeAttributeG St.removeAttribute
  refine .reads fun _ => ?_
  by_cases h : (!s.hasAttribute i x) = true
  · rw [if_pos h, if_pos h]
    exact .ret (.refl _ _)
  · rw [if_neg h, if_neg h]
    refine .reads fun _ => ?_
    cases attrsGetValue (s.attributes i) x with
    | none => exact .writes0 fun hi => .ret (.setD _ hi _)
    | some v => exact .bind (.unlinkValue s i v) fun t _ => .writes0 fun hi => .ret (.setD _ hi _)

theorem Respects.setSimpleAttribute (s : St) (i : NodeId) (a : Attribute) :
    Respects g id s (s.setSimpleAttributeG g i a) (s.setSimpleAttribute i a) :=
  .check (.bind (.removeAttribute s i a.name) fun t _ => .writes0 fun hi => .ret (.setD _ hi _))

theorem Respects.setLinkAttribute (s : St) (i : NodeId) (x : AName) (n : NodeId) (fb : Option PaintFallback) :
    Respects g Prod.fst s (s.setLinkAttributeG g i x n fb) (s.setLinkAttribute i x n fb) := by
  unfold St.setLinkAttributeG St.setLinkAttribute
  refine .reads fun _ => ?_
  by_cases h1 : (s.idOf n).isEmpty = true
  · rw [if_pos h1, if_pos h1]; exact .ret (.refl _ _)
  rw [if_neg h1, if_neg h1]
  refine .reads fun _ => .reads fun _ => ?_
  by_cases h2 : s.idOf i = s.idOf n
  · rw [if_pos h2, if_pos h2]; exact .ret (.refl _ _)
  rw [if_neg h2, if_neg h2]
  refine .reads fun _ => ?_
  by_cases h3 : (s.linkedNodes i).any (fun m => decide (m = n)) = true
  · rw [if_pos h3, if_pos h3]; exact .ret (.refl _ _)
  rw [if_neg h3, if_neg h3]
  refine .bind (.removeAttribute s i x) fun t _ => .writes0 fun hi => .writes0 fun hn => ?_
  refine .ret ?_
  dsimp only
  exact (Untouched.setD t hi _).trans (.setD _ hn _)

theorem Respects.setAttributeChecked (s : St) (i : NodeId) (a : Attribute) :
    Respects g Prod.fst s (s.setAttributeCheckedG g i a) (s.setAttributeChecked i a) := by
  refine .debug ?_
  cases a.value <;> first
    | exact .setLinkAttribute _ _ _ _ _
    | exact .bind (.setSimpleAttribute s i a) fun t _ => .ret (.refl _ _)

theorem Respects.setAttribute (s : St) (i : NodeId) (a : Attribute) :
    Respects g id s (s.setAttributeG g i a) (s.setAttribute i a) := by
  refine .bind (.setAttributeChecked s i a) fun r _ => ?_
  rcases r with ⟨t, _ | e⟩
  · exact .ret (.refl _ _)
  · exact .err _

theorem Respects.setAttributeIfNone (s : St) (i : NodeId) (a : Attribute) :
    Respects g id s (s.setAttributeIfNoneG g i a) (s.setAttributeIfNone i a) := by
  refine .reads fun _ => ?_
  unfold St.setAttributeIfNone
  by_cases h : (!s.hasAttribute i a.name) = true
  · rw [if_pos h, if_pos h]; exact .setAttribute _ _ _
  · rw [if_neg h, if_neg h]; exact .ret (.refl _ _)

/-! ## document.rs -/

theorem Respects.children {s : St} {i : NodeId} : Respects g (fun _ => s) s (s.childrenG g i) (.ok (s.children i)) := by
  unfold St.childrenG St.firstChildG St.lastChildG
  simp only [bind_assoc, pure_bind]
  exact .reads fun _ => .reads fun _ => .ret (.refl _ _)

theorem Respects.childrenNext {s : St} {it : Children} :
    Respects g (fun _ => s) s (s.childrenNextG g it) (.ok (s.childrenNext it)) := by
  unfold St.childrenNextG St.childrenNext St.childrenFinishedG St.childrenFinished St.nextSiblingG
  cases it.nextBack with
  | none => exact .ret (.refl _ _)
  | some nb =>
    simp only [bind_assoc, pure_bind]
    refine .reads fun _ => ?_
    by_cases h : decide (s.nextSibling nb = it.next) = true
    · simp only [h, if_true]; exact .ret (.refl _ _)
    · simp only [h, if_false]
      cases it.next with
      | none => exact .ret (.refl _ _)
      | some n => exact .reads fun _ => .ret (.refl _ _)

theorem Respects.removeAttributes : ∀ (l : List AName) (s : St) (i : NodeId),
    Respects g id s (s.removeAttributesG g i l) (s.removeAttributes i l)
  | [], s, _ => .ok (.refl _ _)
  | x :: l, s, i => .bind (.removeAttribute s i x) fun t _ => Respects.removeAttributes l t i

theorem Respects.unlinkIncoming : ∀ (l : List NodeId) (s : St) (i : NodeId),
    Respects g id s (s.unlinkIncomingG g i l) (s.unlinkIncoming i l)
  | [], s, _ => .ok (.refl _ _)
  | m :: l, s, i => .reads fun _ => .bind (.removeAttributes _ s m) fun t _ => Respects.unlinkIncoming l t i

theorem Respects.finishRemove (s : St) (i : NodeId) : Respects g id s (s.finishRemoveG g i) (s.finishRemove i) := by
  refine .writes0 fun hi => ?_
  unfold St.finishRemove
  cases (s.data i).storageKey with
  | none => exact .ok (.refl _ _)
  | some k =>
    dsimp only
    cases (s.setD i fun d => { d with storageKey := none }).slab.remove k with
    | error e => exact .err e
    | ok sl =>
      refine .ret ?_
      exact fun j hj => Untouched.setD s hi (fun d => { d with storageKey := none }) j hj

theorem Respects.removeAux : ∀ k, (∀ (s : St) (i : NodeId), Respects g id s (St.removeAuxG g k s i) (St.removeAux k s i)) ∧
    ∀ (s : St) (it : Children), Respects g id s (St.removeKidsG g k s it) (St.removeKids k s it)
  | 0 => ⟨fun _ _ => by rw [St.removeAuxG, St.removeAux]; exact .err _,
      fun _ _ => by rw [St.removeKidsG, St.removeKids]; exact .err _⟩
  | k + 1 => by
    obtain ⟨ih1, ih2⟩ := Respects.removeAux k
    refine ⟨fun s i => ?_, fun s it => ?_⟩
    · rw [St.removeAuxG, St.removeAux]
      refine .reads fun _ => .bind (.removeAttributes _ s i) fun t _ => .reads fun _ => .bind (.unlinkIncoming _ t i) fun u _ => ?_
      refine .step .children ?_
      exact .bind (ih2 u _) fun v _ => .bind (.detach v i) fun w _ => .finishRemove w i
    · rw [St.removeKidsG, St.removeKids]
      refine .step .childrenNext ?_
      rcases s.childrenNext it with ⟨_ | c, it'⟩
      · exact .ok (.refl _ _)
      · exact .bind (ih1 s c) fun t _ => ih2 t it'

theorem Respects.removeNode (s : St) (i : NodeId) : Respects g id s (s.removeNodeG g i) (s.removeNode i) :=
  (Respects.removeAux s.fuel).1 s i

theorem Respects.dropOne (s : St) (n : NodeId) : Respects g id s (s.dropOneG g n) (s.dropOne n) :=
  .writes0 fun hn => .writes0 fun _ => .after ((Untouched.setD _ hn _).trans (.setD _ hn _)) (.detach _ n)

theorem Respects.dropLoop : ∀ (l : List NodeId) (s : St), Respects g id s (s.dropLoopG g l) (s.dropLoop l)
  | [], _ => .ok (.refl _ _)
  | n :: l, s => .bind (.dropOne s n) fun t _ => Respects.dropLoop l t

theorem Respects.drainAux (f : St → NodeId → Bool) : ∀ k (s : St) (o : Option NodeId) (n : Nat),
    Respects g Prod.fst s (St.drainAuxG g f k s o n) (St.drainAux f k s o n)
  | 0, _, _, _ => by rw [St.drainAuxG, St.drainAux]; exact .err _
  | _ + 1, _, none, _ => by rw [St.drainAuxG, St.drainAux]; exact .ok (.refl _ _)
  | k + 1, s, some m, n => by
    have hnx : ∀ t : St, Respects g (fun _ => t) t (t.nextSiblingG g m) (.ok (t.nextSibling m)) :=
      fun t => .reads fun _ => .ret (.refl _ _)
    have hfc : Respects g (fun _ => s) s (s.firstChildG g m) (.ok (s.firstChild m)) := .reads fun _ => .ret (.refl _ _)
    rw [St.drainAuxG, St.drainAux]
    by_cases hf : f s m = true
    · rw [if_pos hf, if_pos hf]
      exact .step (hnx s) (.bind (.removeNode s m) fun t _ => Respects.drainAux f k t _ _)
    · rw [if_neg hf, if_neg hf]
      refine .reads fun _ => ?_
      by_cases hc : s.hasChildren m = true
      · rw [if_pos hc, if_pos hc]
        simp only [bind_assoc]
        exact .step hfc (.bind (Respects.drainAux f k s _ n) fun r _ => .step (hnx r.1) (Respects.drainAux f k r.1 _ _))
      · rw [if_neg hc, if_neg hc]
        simp only [pure_bind]
        exact .step (hnx s) (Respects.drainAux f k s _ _)

theorem Respects.drain (s : St) (r : NodeId) (f : St → NodeId → Bool) : Respects g Prod.fst s (s.drainG g r f) (s.drain r f) :=
  .step (a := s.firstChild r) (.reads fun _ => .ret (.refl _ _)) (.drainAux f _ s _ 0)

end

/-! ## Exact results with guards on other nodes -/

section
variable {g : Guards} {s : St}

theorem unlinkValueG_free {i : NodeId} {v : AttributeValue} (h : ∀ t, v.linkNode = some t → g t = .free) :
    s.unlinkValueG g i v = s.unlinkValue i v := by
  unfold St.unlinkValueG St.unlinkValue
  cases hv : v.linkNode with
  | none => rfl
  | some t =>
    simp only [rd_free (h t hv), wr_free (h t hv), bind_ok_left]
    rfl

theorem attrsGetValue_mem {l : List Attribute} {x : AName} {v : AttributeValue} (h : attrsGetValue l x = some v) :
    ∃ a ∈ l, a.value = v := by
  unfold attrsGetValue attrsGet at h
  obtain ⟨a, ha, rfl⟩ := Option.map_eq_some_iff.1 h
  exact ⟨a, List.mem_of_find?_eq_some ha, rfl⟩

theorem removeAttributeG_free {i : NodeId} (hi : g i = .free)
    (h : ∀ b ∈ s.attributes i, ∀ t, b.value.linkNode = some t → g t = .free) (x : AName) :
    s.removeAttributeG g i x = s.removeAttribute i x := by
  unfold St.removeAttributeG St.removeAttribute
  simp only [rd_free hi, bind_ok_left, wr_nil hi]
  cases hv : attrsGetValue (s.attributes i) x with
  | none => rfl
  | some v =>
    obtain ⟨b, hb, rfl⟩ := attrsGetValue_mem hv
    simp only [unlinkValueG_free (h b hb)]
    rfl

/-- With guards on other nodes, setting an attribute differs at most in the last step, which writes to the target of a link. -/
theorem setAttributeCheckedG_eq {i : NodeId} (a : Attribute) (hr : ∀ j, g j ≠ .excl) (hi : g i = .free)
    (h : ∀ b ∈ s.attributes i, ∀ t, b.value.linkNode = some t → g t = .free) :
    s.setAttributeCheckedG g i a = s.setAttributeChecked i a >>= fun r =>
      if r.2 = none ∧ Guarded g a.value.linkNode.toList then .error (.panic .borrowed) else .ok r := by
  have hlink : ∀ n fb, s.setLinkAttributeG g i a.name n fb = s.setLinkAttribute i a.name n fb >>= fun r =>
      if r.2 = none ∧ g n ≠ .free then .error (.panic .borrowed) else .ok r := by
    intro n fb
    unfold St.setLinkAttributeG St.setLinkAttribute
    simp only [rd_ok (hr _), bind_ok_left, removeAttributeG_free hi h, wr_nil hi]
    by_cases h1 : (s.idOf n).isEmpty = true
    · rw [if_pos h1, if_pos h1]; simp [bind, Except.bind, pure, Except.pure]
    rw [if_neg h1, if_neg h1]
    by_cases h2 : s.idOf i = s.idOf n
    · rw [if_pos h2, if_pos h2]; simp [bind, Except.bind, pure, Except.pure]
    rw [if_neg h2, if_neg h2]
    by_cases h3 : (s.linkedNodes i).any (fun m => decide (m = n)) = true
    · rw [if_pos h3, if_pos h3]; simp [bind, Except.bind, pure, Except.pure]
    rw [if_neg h3, if_neg h3]
    cases s.removeAttribute i a.name with
    | error e => rfl
    | ok t =>
      by_cases hn : g n = .free
      · simp [wr_nil hn, hn, bind, Except.bind, pure, Except.pure]
      · simp [wr_guarded hn, hn, bind, Except.bind, pure, Except.pure]
  have hsimple : s.setSimpleAttributeG g i a = s.setSimpleAttribute i a := by
    unfold St.setSimpleAttributeG St.setSimpleAttribute
    simp only [removeAttributeG_free hi h, wr_nil hi, bind_ok_left]
  have hd : s.debugReads g i (s.isElement i) = s.debugAssert (s.isElement i) := by
    unfold St.debugReads St.debugAssert
    cases s.debug <;> simp [rd_free hi, bind_ok_left, pure, Except.pure]
  unfold St.setAttributeCheckedG St.setAttributeChecked
  rw [hd]
  cases s.debugAssert (s.isElement i) with
  | error e => rfl
  | ok u =>
    simp only [bind_ok_left]
    cases hv : a.value <;> simp only [hlink, hsimple, AttributeValue.linkNode, Option.toList, guarded_cons] <;>
      first
      | simp [Guarded]; done
      | (cases s.setSimpleAttribute i a <;> simp [Guarded, bind, Except.bind, pure, Except.pure])

theorem attrsInsert_mem {l : List Attribute} {a b : Attribute} (h : b ∈ attrsInsert l a) : b ∈ l ∨ b = a := by
  unfold attrsInsert at h
  split at h
  · rcases List.mem_or_eq_of_mem_set h with h | h
    · exact .inl h
    · exact .inr h
  · simpa using h

theorem attrsRemove_mem {l : List Attribute} {x : AName} {b : Attribute} (h : b ∈ attrsRemove l x) : b ∈ l := by
  unfold attrsRemove at h
  split at h
  · exact List.mem_of_mem_eraseIdx h
  · exact h

theorem unlinkValue_attributes {t : St} {i : NodeId} {v : AttributeValue} (e : s.unlinkValue i v = .ok t) (j : NodeId) :
    t.attributes j = s.attributes j := by
  unfold St.unlinkValue at e
  split at e
  · split at e
    · rw [bind_ok] at e
      obtain ⟨_, _, e⟩ := e
      rw [pure_ok] at e
      subst e
      unfold St.attributes St.setD upd
      dsimp only
      split <;> simp_all
    · cases e
  · cases e; rfl

theorem removeAttribute_mem {t : St} {i : NodeId} {x : AName} (e : s.removeAttribute i x = .ok t) {b : Attribute}
    (h : b ∈ t.attributes i) : b ∈ s.attributes i := by
  unfold St.removeAttribute at e
  split at e
  · cases e; exact h
  · dsimp only at e
    split at e <;> rw [bind_ok] at e <;> obtain ⟨u, e1, e2⟩ := e <;> rw [pure_ok] at e2 <;> subst e2 <;>
      have h' : b ∈ attrsRemove (u.attributes i) x := by simpa [St.attributes, St.setD] using h
    · have h2 := attrsRemove_mem h'
      rw [unlinkValue_attributes e1] at h2; exact h2
    · have h2 := attrsRemove_mem h'
      cases e1; exact h2

theorem setAttributeChecked_mem {t : St} {i : NodeId} {a : Attribute} {r : Option DomError}
    (e : s.setAttributeChecked i a = .ok (t, r)) {b : Attribute} (h : b ∈ t.attributes i) :
    b ∈ s.attributes i ∨ b.value.linkNode = a.value.linkNode := by
  have hlink : ∀ n fb, s.setLinkAttribute i a.name n fb = .ok (t, r) → b ∈ s.attributes i ∨ b.value.linkNode = some n := by
    intro n fb e
    unfold St.setLinkAttribute at e
    split at e
    · cases e; exact .inl h
    split at e
    · cases e; exact .inl h
    split at e
    · cases e; exact .inl h
    rw [bind_ok] at e
    obtain ⟨u, e1, e2⟩ := e
    rw [pure_ok] at e2
    cases e2
    have h' : b ∈ attrsInsert (u.attributes i) ⟨a.name, St.linkValue a.name n fb⟩ := by
      by_cases hin : i = n
      · subst hin; simpa [St.attributes, St.setD] using h
      · simpa [St.attributes, St.setD, upd_ne _ _ hin] using h
    rcases attrsInsert_mem h' with h' | h'
    · exact .inl (removeAttribute_mem e1 h')
    · right; rw [h']; unfold St.linkValue; dsimp only; split
      · rfl
      · split <;> rfl
  unfold St.setAttributeChecked at e
  rw [bind_ok] at e
  obtain ⟨_, _, e⟩ := e
  have hs : s.setSimpleAttribute i a = .ok t → b ∈ s.attributes i ∨ b.value.linkNode = a.value.linkNode := by
    intro e
    unfold St.setSimpleAttribute at e
    rw [bind_ok] at e
    obtain ⟨_, _, e⟩ := e
    rw [bind_ok] at e
    obtain ⟨u, e1, e2⟩ := e
    rw [pure_ok] at e2
    subst e2
    have h' : b ∈ attrsInsert (u.attributes i) a := by simpa [St.attributes, St.setD] using h
    rcases attrsInsert_mem h' with h' | h'
    · exact .inl (removeAttribute_mem e1 h')
    · right; rw [h']
  cases hv : a.value <;> rw [hv] at e hs <;> dsimp only at e <;>
    first
    | exact hlink _ _ e
    | (rw [bind_ok] at e
       obtain ⟨u, e1, e2⟩ := e
       rw [pure_ok] at e2
       cases e2
       exact hs e1)

/-! ## Copies -/

theorem newNode_untouched (h : ∀ j, g j ≠ .free → j < s.nextId) {d : NodeData} {r : St × NodeId} (e : s.newNode d = .ok r) : Untouched g s r.1 := by
  unfold St.newNode at e
  dsimp only at e
  rw [bind_ok] at e
  obtain ⟨⟨sl, k⟩, _, e2⟩ := e
  rw [pure_ok] at e2
  subst e2
  intro j hj
  have := Nat.ne_of_lt (h j hj)
  simp [St.setD, St.alloc, upd_ne _ _ this]

theorem Respects.create {r : Except Err (St × NodeId)} (h : ∀ a, r = .ok a → Untouched g s a.1) : Respects g Prod.fst s r r :=
  ⟨.inr rfl, h⟩

theorem createElement_untouched (h : ∀ j, g j ≠ .free → j < s.nextId) {x : TagName} {r : St × NodeId} (e : s.createElement x = .ok r) : Untouched g s r.1 := by
  unfold St.createElement at e
  split at e
  · cases e
  · exact newNode_untouched h e

theorem createNode_untouched (h : ∀ j, g j ≠ .free → j < s.nextId) {ty : NodeType} {x : Str} {r : St × NodeId} (e : s.createNode ty x = .ok r) :
    Untouched g s r.1 := by
  unfold St.createNode at e
  rw [bind_ok] at e
  obtain ⟨_, _, e⟩ := e
  exact newNode_untouched h e

theorem setAttributeG_target {i : NodeId} {a : Attribute} {t : St} (e : s.setAttributeG g i a = .ok t) {n : NodeId}
    (hn : a.value.linkNode = some n) : g n = .free := by
  unfold St.setAttributeG at e
  rw [bind_ok] at e
  obtain ⟨⟨u, o⟩, e, e'⟩ := e
  have ho : o = none := by
    cases o with
    | none => rfl
    | some x => cases e'
  subst ho
  have hlink : ∀ fb, s.setLinkAttributeG g i a.name n fb = .ok (u, none) → g n = .free := by
    intro fb e
    unfold St.setLinkAttributeG at e
    by_contra hg
    simp only [wr_guarded hg, bind_ok] at e
    obtain ⟨_, _, e⟩ := e
    split at e
    · cases e
    rw [bind_ok] at e
    obtain ⟨_, _, e⟩ := e
    rw [bind_ok] at e
    obtain ⟨_, _, e⟩ := e
    split at e
    · cases e
    rw [bind_ok] at e
    obtain ⟨_, _, e⟩ := e
    split at e
    · cases e
    rw [bind_ok] at e
    obtain ⟨_, _, e⟩ := e
    rw [bind_ok] at e
    obtain ⟨_, _, e⟩ := e
    rw [bind_ok] at e
    obtain ⟨_, e, _⟩ := e
    cases e
  unfold St.setAttributeCheckedG at e
  rw [bind_ok] at e
  obtain ⟨_, _, e⟩ := e
  cases hv : a.value <;> rw [hv] at e hn <;> simp only [AttributeValue.linkNode, Option.some.injEq, reduceCtorEq] at hn <;>
    subst hn <;> exact hlink _ e

theorem share_ne {i j : NodeId} (h : g j ≠ .free) : g.share i j ≠ .free := by
  unfold Guards.share
  split
  · simp
  · exact h

theorem share_free {i j : NodeId} (h : g.share i j = .free) : g j = .free := by
  by_contra h'
  exact share_ne h' h

theorem share_self {i : NodeId} : g.share i i ≠ .free := by
  unfold Guards.share
  by_cases h : g i = .free
  · rw [if_pos ⟨rfl, h⟩]; simp
  · rw [if_neg (fun h' => h h'.2)]; exact h

theorem Untouched.mono {g' : Guards} {t : St} (hm : ∀ j, g j ≠ .free → g' j ≠ .free) (h : Untouched g' s t) : Untouched g s t :=
  fun j hj => h j (hm j hj)

theorem Respects.copyAttributes_some (hg : ∃ i, g i ≠ .free) (src elem : NodeId) : ∀ (l : List Attribute) (s : St),
    Respects g id s (s.copyAttributesG (g.share src) elem l) (s.copyAttributes src elem l)
  | [], s => .ok (.refl _ _)
  | a :: as, s => by
    unfold St.copyAttributesG St.copyAttributes
    obtain ⟨h1, h2⟩ := Respects.setAttribute (g := g.share src) s elem a
    rcases h1 with ⟨h1, -⟩ | h1
    · rw [h1]
      exact ⟨.inl ⟨rfl, hg⟩, fun a ha => by cases ha⟩
    · cases e : s.setAttributeG (g.share src) elem a with
      | error x => rw [e] at h1; rw [← h1]; exact .err _
      | ok t =>
        rw [e] at h1
        rw [← h1]
        refine .after ((h2 t e).mono fun _ => share_ne) ?_
        show Respects g id t (t.copyAttributesG (g.share src) elem as) _
        have ih := Respects.copyAttributes_some hg src elem as t
        cases hn : a.value.linkNode with
        | none => simpa [hn, bind_ok_left] using ih
        | some n =>
          have hf := setAttributeG_target e hn
          have hne : n ≠ src := fun h => share_self (h ▸ hf)
          have hb : borrowMut [src] n = .ok () := by simp [borrowMut, hne]
          simpa [hn, hb, bind_ok_left] using ih

theorem copyAttributesG_none (hg : ∀ i, g i = .free) {src elem : NodeId} (hne : elem ≠ src) : ∀ (l : List Attribute) (s : St),
    (∀ b ∈ s.attributes elem, b.value.linkNode ≠ some src) →
    s.copyAttributesG (g.share src) elem l = s.copyAttributes src elem l
  | [], s, _ => rfl
  | a :: as, s, h => by
    have hsh : ∀ j, g.share src j = if j = src then .shared else .free := by
      intro j; unfold Guards.share; simp [hg]
    unfold St.copyAttributesG St.copyAttributes St.setAttributeG St.setAttribute
    rw [setAttributeCheckedG_eq a (fun j => by rw [hsh]; split <;> simp) (by rw [hsh, if_neg hne])
      (fun b hb t ht => by rw [hsh, if_neg]; rintro rfl; exact h b hb ht)]
    cases e : s.setAttributeChecked elem a with
    | error x => rfl
    | ok r =>
      obtain ⟨t, o⟩ := r
      simp only [bind_ok_left]
      cases o with
      | some x => simp [bind, Except.bind, throw, throwThe, MonadExceptOf.throw]
      | none =>
        have ih := copyAttributesG_none hg hne as t
        cases hn : a.value.linkNode with
        | none =>
          have := ih fun b hb => by
            rcases setAttributeChecked_mem e hb with h' | h'
            · exact h b h'
            · rw [h', hn]; simp
          simpa [Guarded, bind, Except.bind, pure, Except.pure] using this
        | some n =>
          by_cases hs : n = src
          · subst hs
            simp [Guarded, hsh, borrowMut, bind, Except.bind, pure, Except.pure]
          · have := ih fun b hb => by
              rcases setAttributeChecked_mem e hb with h' | h'
              · exact h b h'
              · rw [h', hn]; simpa using hs
            simpa [Guarded, hsh, hs, borrowMut, bind, Except.bind, pure, Except.pure] using this

theorem createElement_new {x : TagName} {r : St × NodeId} (e : s.createElement x = .ok r) :
    r.2 = s.nextId ∧ r.1.attributes r.2 = [] := by
  unfold St.createElement at e
  split at e
  · cases e
  unfold St.newNode at e
  dsimp only at e
  rw [bind_ok] at e
  obtain ⟨⟨sl, k⟩, _, e2⟩ := e
  rw [pure_ok] at e2
  subst e2
  simp [St.attributes, St.setD, St.alloc, NodeData.fresh]

theorem Respects.copyNode (h : ∀ j, g j ≠ .free → j < s.nextId) {i : NodeId} (hi : i < s.nextId) :
    Respects g Prod.fst s (s.copyNodeG g i) (s.copyNode i) := by
  unfold St.copyNodeG St.copyNode
  refine .reads fun _ => ?_
  have hel : ∀ x, Respects g Prod.fst s
      (do
        rd g i
        let (s, elem) ← s.createElement x
        rd g i
        let s ← s.copyAttributesG (Guards.share g i) elem (s.attributes i)
        pure (s, elem))
      (do
        let (s, elem) ← s.createElement x
        let s ← s.copyAttributes i elem (s.attributes i)
        pure (s, elem)) := by
    intro x
    refine .reads fun _ => ?_
    refine .bind (π := Prod.fst) (.create fun r e => createElement_untouched h e) fun r e => ?_
    obtain ⟨t, elem⟩ := r
    refine .reads fun _ => ?_
    refine .bind (π := id) ?_ fun u _ => .ret (.refl _ _)
    by_cases hg : ∃ i, g i ≠ .free
    · exact .copyAttributes_some hg i elem _ _
    · obtain ⟨h1, h2⟩ := createElement_new e
      dsimp only at h1 h2
      subst h1
      rw [copyAttributesG_none (fun j => by_contra fun hj => hg ⟨j, hj⟩) (Nat.ne_of_gt hi) _ _ (by rw [h2]; simp)]
      exact ⟨.inr rfl, fun _ _ j hj => absurd ⟨j, hj⟩ hg⟩
  cases s.nodeType i with
  | element => exact hel _
  | _ =>
    refine .reads fun _ => .reads fun _ => ?_
    exact .create fun r e => createNode_untouched h e

theorem Respects.deepCopyAux (k : Nat) : ∀ (s : St) (par : NodeId) (it : Children), Inv s →
    (∀ j, g j ≠ .free → s.live j = true) → s.live par = true → it.Live s →
    Respects g id s (St.deepCopyAuxG g k s par it) (St.deepCopyAux k s par it) := by
  induction k with
  | zero => intro s par it h hg hp hl; exact .err _
  | succ k ih =>
    intro s par it h hg hp hl
    unfold St.deepCopyAuxG St.deepCopyAux
    refine .step .childrenNext ?_
    cases hn : s.childrenNext it with
    | mk o it' =>
    cases o with
    | none => exact .ok (.refl _ _)
    | some c =>
      obtain ⟨hc, hl'⟩ := h.childrenNext_live hl hn
      refine .bind' (.copyNode (fun j hj => h.liveBelow j (hg j hj)) (h.liveBelow c hc)) ?_
      rintro ⟨s1, n⟩ e1
      obtain ⟨t1, hnl, hnf, hnr⟩ := copyNode_inner h hc e1
      have h1 := t1.inv h
      refine .bind' (.append _ _ _) ?_
      intro s2 e2
      have st2 : Inner s1 s2 := .leaf par n (t1.live h hp) hnl hnf hnr e2
      have t2 : Inners s s2 := t1.tail st2
      have h2 := t2.inv h
      refine .reads fun _ => ?_
      have hlast : ∀ s3, Inners s2 s3 → Respects g id s3 (St.deepCopyAuxG g k s3 par it') (St.deepCopyAux k s3 par it') := by
        intro s3 t3
        have t13 : Inners s s3 := t2.trans t3
        exact ih _ _ _ (t13.inv h) (fun j hj => t13.live h (hg j hj)) (t13.live h hp) (hl'.mono h t13)
      by_cases hch : s2.hasChildren c = true
      · simp only [hch, if_true, bind_assoc]
        refine .step .children ?_
        have hl2 := h2.children_live (t2.live h hc)
        exact .bind' (π := id) (ih _ _ _ h2 (fun j hj => t2.live h (hg j hj)) (st2.live h1 hnl) hl2) fun s3 e3 =>
          hlast s3 (deepCopy_inner k _ _ _ _ h2 (st2.live h1 hnl) hl2 e3)
      · simp only [hch, if_false, pure_bind]
        exact hlast s2 .refl

theorem Respects.copyNodeDeep (h : Inv s) (hg : ∀ j, g j ≠ .free → s.live j = true) {i : NodeId} (hi : s.live i = true) :
    Respects g Prod.fst s (s.copyNodeDeepG g i) (s.copyNodeDeep i) := by
  unfold St.copyNodeDeepG St.copyNodeDeep
  refine .bind' (.copyNode (fun j hj => h.liveBelow j (hg j hj)) (h.liveBelow i hi)) ?_
  rintro ⟨s1, n⟩ e1
  obtain ⟨t1, hnl, hnf, hnr⟩ := copyNode_inner h hi e1
  have h1 := t1.inv h
  refine .step .children ?_
  exact .bind' (π := id) (.deepCopyAux _ _ _ _ h1 (fun j hj => t1.live h (hg j hj)) hnl (h1.children_live (t1.live h hi)))
    fun s3 _ => .ret (.refl _ _)

theorem Respects.map {α : Type} {π : α → St} {rG r : Except Err α} (h : Respects g π s rG r) : Respects g id s (rG.map π) (r.map π) := by
  obtain ⟨h1, h2⟩ := h
  rcases h1 with ⟨h1, hi⟩ | h1
  · rw [h1]
    exact ⟨.inl ⟨rfl, hi⟩, fun b h => by cases h⟩
  · rw [← h1]
    refine ⟨.inr rfl, fun b e => ?_⟩
    obtain ⟨a, e', rfl⟩ := map_ok e
    exact h2 a e'

theorem Respects.run (h : Inv s) (hg : ∀ j, g j ≠ .free → s.live j = true) (op : Op) (hl : ∀ i ∈ op.handles, s.live i = true) :
    Respects g id s (op.runG g s) (op.run s) := by
  have hb : ∀ j, g j ≠ .free → j < s.nextId := fun j hj => h.liveBelow j (hg j hj)
  cases op with
  | createElement tag => exact (Respects.create fun r e => createElement_untouched hb e).map
  | createNode ty text => exact (Respects.create fun r e => createNode_untouched hb e).map
  | append p c => exact .append _ _ _
  | prepend p c => exact .prepend _ _ _
  | insertAfter p c => exact .insertAfter _ _ _
  | insertBefore p c => exact .insertBefore _ _ _
  | detach i => exact .detach _ _
  | setText i t => exact .setText _ _ _
  | setId i t => exact .setId _ _ _
  | setTagName i t => exact .setTagName _ _ _
  | setAttribute i a => exact .setAttribute _ _ _
  | setAttributeChecked i a => exact (Respects.setAttributeChecked _ _ _).map
  | setAttributeIfNone i a => exact .setAttributeIfNone _ _ _
  | removeAttribute i x => exact .removeAttribute _ _ _
  | removeNode i => exact .removeNode _ _
  | drain i f => exact (Respects.drain _ _ _).map
  | copyNode i => exact (Respects.copyNode hb (h.liveBelow i (hl i (by simp [Op.handles])))).map
  | copyNodeDeep i => exact (Respects.copyNodeDeep h hg (hl i (by simp [Op.handles]))).map

/-! ## Exact results of the attribute calls -/

theorem removeAttributeG_eq {i : NodeId} {x : AName} {t : St} (e : s.removeAttribute i x = .ok t) :
    s.removeAttributeG g i x =
      if g i = .excl ∨ (s.hasAttribute i x = true ∧ Guarded g (i :: (s.oldTarget i x).toList)) then .error (.panic .borrowed)
      else .ok t := by
  unfold St.removeAttribute at e
  unfold St.removeAttributeG
  by_cases hx : g i = .excl
  · simp [rd, hx, bind, Except.bind]
  simp only [rd_ok hx, bind_ok_left, hx, false_or]
  by_cases hh : s.hasAttribute i x = true
  · simp only [hh, Bool.not_true, Bool.false_eq_true, if_false, true_and] at e ⊢
    unfold St.oldTarget
    cases hv : attrsGetValue (s.attributes i) x with
    | none =>
      rw [hv] at e
      simp only [Option.bind_none, Option.toList, bind_ok_left] at e ⊢
      by_cases hi : g i = .free
      · simp [wr_nil hi, Guarded, hi, bind_ok_left, e]
      · simp [wr_guarded hi, Guarded, hi, bind, Except.bind]
    | some v =>
      rw [hv] at e
      simp only [Option.bind_some] at e ⊢
      unfold St.unlinkValue at e
      unfold St.unlinkValueG
      obtain hn | ⟨n, hn⟩ : v.linkNode = none ∨ ∃ n, v.linkNode = some n := by cases v.linkNode <;> simp
      · simp only [hn, Option.toList, bind_ok_left] at e ⊢
        by_cases hi : g i = .free
        · simp [wr_nil hi, Guarded, hi, bind_ok_left, e]
        · simp [wr_guarded hi, Guarded, hi, bind, Except.bind]
      · simp only [hn] at e ⊢
        cases hf : (s.linkedNodes n).findIdx? (fun m => decide (m = i)) with
        | none => rw [hf] at e; cases e
        | some k =>
          rw [hf] at e
          by_cases hgn : g n = .free
          · have hni : n ≠ i := by
              rintro rfl
              simp [borrowMut, bind, Except.bind] at e
            have hw : wr g [i] n = .ok () := by simp [wr, hni, hgn]
            have hb : borrowMut [i] n = .ok () := by simp [borrowMut, hni]
            rw [hb] at e
            simp only [rd_free hgn, bind_ok_left, hw, pure_bind] at e ⊢
            by_cases hi : g i = .free
            · simp [wr_nil hi, Guarded, hi, hgn, bind_ok_left, e]
            · simp [wr_guarded hi, Guarded, hi, bind, Except.bind]
          · have hw : wr g [i] n = .error (.panic .borrowed) := by simp [wr, hgn]
            have hG : Guarded g (i :: [n]) := ⟨n, by simp, hgn⟩
            simp only [Option.toList, hG, if_true]
            by_cases he : g n = .excl
            · simp [rd, he, bind, Except.bind]
            · simp [rd_ok he, hw, bind, Except.bind]
  · simp only [hh, Bool.not_false, if_true, Bool.false_eq_true, false_and, if_false] at e ⊢
    simpa [pure, Except.pure] using e

theorem oldTarget_none {i : NodeId} {x : AName} (h : ¬ s.hasAttribute i x = true) : s.oldTarget i x = none := by
  have : attrsGetValue (s.attributes i) x = none := by
    unfold St.hasAttribute attrsContains at h
    unfold attrsGetValue attrsGet
    simp only [Option.map_eq_none_iff, List.find?_eq_none]
    simpa using h
  simp [St.oldTarget, this]

theorem removeThenWrite {α : Type} {i : NodeId} {x : AName} {t : St} (e : s.removeAttribute i x = .ok t) (f : St → Except Err α) :
    (do
      let s ← s.removeAttributeG g i x
      wr g [] i
      f s) = if Guarded g (i :: (s.oldTarget i x).toList) then .error (.panic .borrowed) else f t := by
  rw [removeAttributeG_eq e]
  by_cases hx : g i = .excl
  · simp [hx, Guarded, bind, Except.bind]
  by_cases hh : s.hasAttribute i x = true
  · simp only [hx, hh, false_or, true_and]
    split
    · rfl
    · next h =>
      have : g i = .free := by
        by_contra h'; exact h ⟨i, by simp, h'⟩
      simp [wr_nil this, bind_ok_left]
  · simp only [hx, hh, false_or, false_and, if_false, oldTarget_none hh, Option.toList, bind_ok_left]
    by_cases hi : g i = .free
    · simp [wr_nil hi, Guarded, hi, bind_ok_left]
    · simp [wr_guarded hi, Guarded, hi, bind, Except.bind]

theorem debugReads_eq {i : NodeId} {c : Bool} (hx : g i ≠ .excl) : s.debugReads g i c = s.debugAssert c := by
  unfold St.debugReads St.debugAssert
  cases s.debug <;> simp [rd_ok hx, bind_ok_left, pure, Except.pure]

theorem debugReads_excl {α : Type} {i : NodeId} {c : Bool} (hx : g i = .excl) {f : Unit → Except Err α}
    (hf : f () = .error (.panic .borrowed)) : (s.debugReads g i c >>= f) = .error (.panic .borrowed) := by
  unfold St.debugReads
  cases s.debug
  · simpa [bind, Except.bind, pure, Except.pure] using hf
  · simp [rd, hx, bind, Except.bind]

theorem setSimpleAttributeG_eq (h : LinkInv s) {i : NodeId} (hi : s.live i = true) {a : Attribute} {t : St}
    (e : s.setSimpleAttribute i a = .ok t) : s.setSimpleAttributeG g i a =
      if Guarded g (i :: (s.oldTarget i a.name).toList) then .error (.panic .borrowed) else .ok t := by
  have e0 := St.removeAttribute_ok h hi a.name
  unfold St.setSimpleAttribute at e
  unfold St.setSimpleAttributeG
  rw [bind_ok] at e
  obtain ⟨u, e1, e⟩ := e
  rw [e0, bind_ok_left] at e
  rw [e1, bind_ok_left, removeThenWrite e0]
  rw [e]

theorem setLinkAttributeG_eq (h : LinkInv s) {i : NodeId} (hi : s.live i = true) {x : AName} {n : NodeId} {fb : Option PaintFallback}
    {t : St} (e : s.setLinkAttribute i x n fb = .ok (t, none)) : s.setLinkAttributeG g i x n fb =
      if Guarded g (i :: n :: (s.oldTarget i x).toList) then .error (.panic .borrowed) else .ok (t, none) := by
  have e0 := St.removeAttribute_ok h hi x
  unfold St.setLinkAttribute at e
  unfold St.setLinkAttributeG
  split at e
  · cases e
  next h1 =>
  split at e
  · cases e
  next h2 =>
  split at e
  · cases e
  next h3 =>
  rw [e0, bind_ok_left] at e
  by_cases hn : g n = .excl
  · have hG : Guarded g (i :: n :: (s.oldTarget i x).toList) := ⟨n, by simp, by simp [hn]⟩
    rw [if_pos hG]
    simp [rd, hn, bind, Except.bind]
  by_cases hx : g i = .excl
  · have hG : Guarded g (i :: n :: (s.oldTarget i x).toList) := ⟨i, by simp, by simp [hx]⟩
    rw [if_pos hG]
    simp only [rd_ok hn, bind_ok_left, if_neg h1]
    simp [rd, hx, bind, Except.bind]
  simp only [rd_ok hn, rd_ok hx, bind_ok_left, if_neg h1, if_neg h2, if_neg h3]
  rw [removeThenWrite e0]
  by_cases hg : Guarded g (i :: (s.oldTarget i x).toList)
  · have : Guarded g (i :: n :: (s.oldTarget i x).toList) := by
      obtain ⟨m, hm, hgm⟩ := hg
      refine ⟨m, ?_, hgm⟩
      simp only [List.mem_cons] at hm ⊢
      tauto
    rw [if_pos hg, if_pos this]
  · rw [if_neg hg]
    by_cases hgn : g n = .free
    · have : ¬ Guarded g (i :: n :: (s.oldTarget i x).toList) := by
        rintro ⟨m, hm, hgm⟩
        simp only [List.mem_cons] at hm
        rcases hm with rfl | rfl | hm
        · exact hg ⟨_, by simp, hgm⟩
        · exact hgm hgn
        · exact hg ⟨m, by simp [hm], hgm⟩
      rw [if_neg this, wr_nil hgn, bind_ok_left]
      exact e
    · rw [if_pos ⟨n, by simp, hgn⟩, wr_guarded hgn]
      rfl

theorem setLinkAttributeG_err {i : NodeId} {x : AName} {n : NodeId} {fb : Option PaintFallback}
    {t : St} {o : DomError} (e : s.setLinkAttribute i x n fb = .ok (t, some o)) (hx : g i ≠ .excl) (hn : g n ≠ .excl) :
    s.setLinkAttributeG g i x n fb = .ok (t, some o) := by
  unfold St.setLinkAttribute at e
  unfold St.setLinkAttributeG
  simp only [rd_ok hn, rd_ok hx, bind_ok_left]
  split at e
  · next h1 => rw [if_pos h1]; exact e
  next h1 =>
  rw [if_neg h1]
  split at e
  · next h2 => rw [if_pos h2]; exact e
  next h2 =>
  rw [if_neg h2]
  split at e
  · next h3 => rw [if_pos h3]; exact e
  rw [bind_ok] at e
  obtain ⟨_, _, e⟩ := e
  rw [pure_ok] at e
  cases e

theorem setAttributeCheckedG_exact (h : LinkInv s) {i : NodeId} (hi : s.live i = true) {a : Attribute} {t : St}
    (e : s.setAttributeChecked i a = .ok (t, none)) : s.setAttributeCheckedG g i a =
      if Guarded g (i :: a.value.linkNode.toList ++ (s.oldTarget i a.name).toList) then .error (.panic .borrowed)
      else .ok (t, none) := by
  unfold St.setAttributeChecked at e
  unfold St.setAttributeCheckedG
  rw [bind_ok] at e
  obtain ⟨u, e1, e⟩ := e
  have key : ∀ {r : Except Err (St × Option DomError)} {l : List NodeId},
      r = (if Guarded g (i :: l) then .error (.panic .borrowed) else .ok (t, none)) →
      (s.debugReads g i (s.isElement i) >>= fun _ => r) =
        (if Guarded g (i :: l) then .error (.panic .borrowed) else .ok (t, none)) := by
    intro r l hr
    by_cases hx : g i = .excl
    · have : Guarded g (i :: l) := ⟨i, by simp, by simp [hx]⟩
      rw [if_pos this] at hr ⊢
      exact debugReads_excl hx hr
    · rw [debugReads_eq hx, e1, bind_ok_left, hr]
  have hs : ∀ {s'}, s.setSimpleAttribute i a = .ok s' → s' = t → (do
      let s ← s.setSimpleAttributeG g i a
      pure (s, none) : Except Err (St × Option DomError)) =
      (if Guarded g (i :: (s.oldTarget i a.name).toList) then .error (.panic .borrowed) else .ok (t, none)) := by
    rintro s' e' rfl
    rw [setSimpleAttributeG_eq h hi e']
    split <;> rfl
  cases hv : a.value <;> rw [hv] at e <;> dsimp only at e <;>
    simp only [AttributeValue.linkNode, Option.toList, List.nil_append, List.cons_append] <;> apply key <;>
    first
    | exact setLinkAttributeG_eq h hi e
    | (rw [bind_ok] at e
       obtain ⟨s', e2, e3⟩ := e
       rw [pure_ok] at e3
       cases e3
       exact hs e2 rfl)

theorem setAttributeCheckedG_err {i : NodeId} {a : Attribute} {t : St} {o : DomError}
    (e : s.setAttributeChecked i a = .ok (t, some o)) (hx : g i ≠ .excl) (hn : ∀ n, a.value.linkNode = some n → g n ≠ .excl) :
    s.setAttributeCheckedG g i a = .ok (t, some o) := by
  unfold St.setAttributeChecked at e
  unfold St.setAttributeCheckedG
  rw [bind_ok] at e
  obtain ⟨u, e1, e⟩ := e
  rw [debugReads_eq hx, e1, bind_ok_left]
  cases hv : a.value <;> rw [hv] at e hn <;> dsimp only at e ⊢ <;>
    first
    | exact setLinkAttributeG_err e hx (hn _ rfl)
    | (rw [bind_ok] at e
       obtain ⟨s', e2, e3⟩ := e
       rw [pure_ok] at e3
       cases e3)

end

end Svgdom
