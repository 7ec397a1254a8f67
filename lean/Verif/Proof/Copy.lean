import Verif.Proof.Tags
import Verif.Proof.Remove
import Verif.Spec.Copy

/-! `copy_node` in closed form. -/

namespace Svgdom

open Relation

theorem Grown.fresh {s t : St} {l : List NodeId} (h : Grown s t l) : ∀ j ∈ l, s.nextId ≤ j := by
  intro j hj
  rw [h.order, List.mem_range'_1] at hj
  exact hj.1

theorem Grown.trans {s t u : St} {l m : List NodeId} (h : Grown s t l) (k : Grown t u m) : Grown s u (l ++ m) where
  live := fun j => by rw [k.live, h.live, List.mem_append]; tauto
  order := by
    have h1 := h.order
    have h2 := k.order
    rw [h.next] at h2
    rw [List.length_append, ← List.range'_append_1, ← h1, ← h2]
  next := by rw [k.next, h.next, List.length_append]; exact Nat.add_assoc _ _ _
  rootId := k.rootId.trans h.rootId
  debug := k.debug.trans h.debug
  ids := fun j hj => (k.ids j ((h.live j).2 (.inl hj))).trans (h.ids j hj)
  tags := fun j hj => (k.tags j ((h.live j).2 (.inl hj))).trans (h.tags j hj)
  texts := fun j hj => (k.texts j ((h.live j).2 (.inl hj))).trans (h.texts j hj)
  types := fun j hj => (k.types j ((h.live j).2 (.inl hj))).trans (h.types j hj)
  attrs := fun j hj => (k.attrs j ((h.live j).2 (.inl hj))).trans (h.attrs j hj)
  detached := fun j hj => (k.detached j ((h.live j).2 (.inl hj))).trans (h.detached j hj)
  newDetached := fun j hj => by
    rcases List.mem_append.1 hj with hj | hj
    · rw [k.detached j ((h.live j).2 (.inr hj))]; exact h.newDetached j hj
    · exact k.newDetached j hj
  stored := fun n => by rw [k.stored, h.stored, List.mem_append]; tauto
  linked := fun j hj => by
    rw [k.linked j ((h.live j).2 (.inl hj)), h.linked j hj, List.flatMap_append, List.append_assoc]
    congr 2
    refine List.flatMap_congr ?_
    intro n hn
    rw [k.attrs n ((h.live n).2 (.inr hn))]

theorem Grown.nil (s : St) : Grown s s [] where
  live := fun j => by simp
  order := rfl
  next := rfl
  rootId := rfl
  debug := rfl
  ids := fun _ _ => rfl
  tags := fun _ _ => rfl
  texts := fun _ _ => rfl
  types := fun _ _ => rfl
  attrs := fun _ _ => rfl
  detached := fun _ _ => rfl
  newDetached := fun j hj => by simp at hj
  stored := fun n => by simp
  linked := fun j _ => by simp

theorem Grown.frame {s t u : St} {l : List NodeId} (h : Grown s t l) (f : Frame t u) : Grown s u l where
  live := fun j => by rw [f.live]; exact h.live j
  order := h.order
  next := by rw [f.nextId]; exact h.next
  rootId := f.rootId.trans h.rootId
  debug := f.debug.trans h.debug
  ids := fun j hj => by simp only [St.idOf, f.data]; exact h.ids j hj
  tags := fun j hj => by simp only [St.tagName, f.data]; exact h.tags j hj
  texts := fun j hj => by simp only [St.text, f.data]; exact h.texts j hj
  types := fun j hj => by simp only [St.nodeType, f.data]; exact h.types j hj
  attrs := fun j hj => by simp only [St.attributes, f.data]; exact h.attrs j hj
  detached := fun j hj => by simp only [St.isDetached, f.data]; exact h.detached j hj
  newDetached := fun j hj => by simp only [St.isDetached, f.data]; exact h.newDetached j hj
  stored := fun n => by rw [f.slab]; exact h.stored n
  linked := fun j hj => by simp only [St.linkedNodes, St.attributes, f.data]; exact h.linked j hj

/-- The attribute can be copied to the new node `n`. -/
def CanCopy (s : St) (src n : NodeId) (a : Attribute) : Prop :=
  a.stored = a ∧ ∀ m, a.value.linkNode = some m → s.live m = true ∧ m ≠ n ∧ m ≠ src

/-- Result of copying the attributes `l` to the node `n`, which is not linked. -/
def St.withAttrs (s : St) (n : NodeId) (l : List Attribute) : St :=
  { s with data := fun j =>
      { s.data j with
        attributes := if j = n then (s.data j).attributes ++ l else (s.data j).attributes
        linkedNodes := (s.data j).linkedNodes ++ List.replicate (refs l j) n } }

theorem withAttrs_nil (s : St) (n : NodeId) : s.withAttrs n [] = s := by
  unfold St.withAttrs
  have : (fun j => ({ s.data j with
        attributes := if j = n then (s.data j).attributes ++ [] else (s.data j).attributes
        linkedNodes := (s.data j).linkedNodes ++ List.replicate (refs [] j) n } : NodeData)) = s.data := by
    funext j; cases s.data j; simp [refs]
  rw [this]

theorem copyAttributes_spec {src n : NodeId} : ∀ {l : List Attribute} {s : St}, Inv s → s.live n = true →
    s.isElement n = true → s.idOf n = [] → s.linkedNodes n = [] →
    NamesNodup (s.attributes n ++ l) → (∀ a ∈ l, CanCopy s src n a) →
    if ∀ a ∈ l, ∀ m, a.value.linkNode = some m → s.idOf m ≠ [] then
      s.copyAttributes src n l = .ok (s.withAttrs n l)
    else s.copyAttributes src n l = .error (.panic .unwrap)
  | [], s, h, hn, hel, hid, hlk, hnd, hc => by
    simp [St.copyAttributes, withAttrs_nil]
  | a :: l, s, h, hn, hel, hid, hlk, hnd, hc => by
    obtain ⟨hst, htg⟩ := hc a (by simp)
    have heq := St.setChecked_eq h.link hn a (fun _ => hel)
    by_cases hbad : ∃ m, a.value.linkNode = some m ∧ s.idOf m = []
    · obtain ⟨m, hm, hmid⟩ := hbad
      rw [if_neg (fun hh => hh a (by simp) m hm hmid)]
      have : s.rejected n m = some .elementMustHaveAnId := by simp [St.rejected, hmid]
      simp only [hm, Option.bind_some, this] at heq
      simp [St.copyAttributes, St.setAttribute, heq, bind, Except.bind, throw, throwThe, MonadExceptOf.throw]
    · have hrej : a.value.linkNode.bind (s.rejected n) = none := by
        cases hm : a.value.linkNode with
        | none => rfl
        | some m =>
          have h1 : s.idOf m ≠ [] := fun hh => hbad ⟨m, hm, hh⟩
          simp [St.rejected, h1, hid, hlk, Ne.symm h1]
      rw [hrej] at heq
      simp only [hst] at heq
      have hput : s.setAttributeChecked n a = .ok (s.putAttr n a, none) := heq
      have hnames : ∀ b ∈ s.attributes n, b.name ≠ a.name := by
        intro b hb hba
        simp only [NamesNodup, List.map_append, List.map_cons] at hnd
        have := (List.nodup_append.1 hnd).2.2 b.name (List.mem_map_of_mem hb) a.name (by simp)
        exact this hba
      have hwo : without (s.attributes n) a.name = s.attributes n := by
        unfold without
        rw [List.filter_eq_self]
        intro b hb
        simp [hnames b hb]
      have htgt : s.target n a.name = none := by
        unfold St.target
        cases hg : attrsGet (s.attributes n) a.name with
        | none => rfl
        | some b =>
          obtain ⟨h1, h2⟩ := attrsGet_some hg
          exact absurd h2 (hnames b h1)
      have hput1 : s.putAttr n a = s.withAttrs n [a] := by
        unfold St.putAttr St.withAttrs
        congr 1
        funext j
        have hwo' : without (s.data n).attributes a.name = (s.data n).attributes := hwo
        by_cases hj : j = n
        · subst hj
          simp only [if_true, hwo', htgt, refs, List.countP_cons, List.countP_nil]
          by_cases hl : a.value.linkNode = some j <;> simp [hl]
        · simp only [hj, if_false, htgt, refs, List.countP_cons, List.countP_nil]
          by_cases hl : a.value.linkNode = some j <;> simp [hl]
      rw [hput1] at hput
      have hinv : Inv (s.withAttrs n [a]) := by
        refine h.setChecked hn ?_ hput
        intro m hm; exact (htg m hm).1
      have hself : refs [a] n = 0 := by
        rw [refs, List.countP_eq_zero]
        intro b hb
        rw [List.mem_singleton] at hb; subst hb
        simp only [decide_eq_true_eq]
        intro hh; exact (htg n hh).2.1 rfl
      have ih := copyAttributes_spec (src := src) (n := n) (l := l) (s := s.withAttrs n [a]) hinv hn hel hid
        (by
          have : (s.data n).linkedNodes = [] := hlk
          simp [St.linkedNodes, St.withAttrs, this, hself])
        (by simpa [St.attributes, St.withAttrs] using hnd)
        (fun b hb => hc b (by simp [hb]))
      have hcopy : s.copyAttributes src n (a :: l) = (s.withAttrs n [a]).copyAttributes src n l := by
        simp only [St.copyAttributes, St.setAttribute, hput, bind, Except.bind, pure, Except.pure]
        cases hm : a.value.linkNode with
        | none => rfl
        | some m => simp [borrowMut, (htg m hm).2.2]
      have hid' : ∀ m, (s.withAttrs n [a]).idOf m = s.idOf m := fun _ => rfl
      simp only [hid'] at ih
      have hww : (s.withAttrs n [a]).withAttrs n l = s.withAttrs n (a :: l) := by
        unfold St.withAttrs
        congr 1
        funext j
        have : refs (a :: l) j = refs [a] j + refs l j := by
          simp [refs, List.countP_cons, Nat.add_comm]
        rw [this]
        by_cases hj : j = n
        · simp only [hj, if_true, List.replicate_add, List.append_assoc, List.singleton_append]
        · simp only [hj, if_false, List.replicate_add, List.append_assoc]
      rw [hww] at ih
      rw [hcopy]
      have hiff : (∀ b ∈ a :: l, ∀ m, b.value.linkNode = some m → s.idOf m ≠ []) ↔
          ∀ b ∈ l, ∀ m, b.value.linkNode = some m → s.idOf m ≠ [] := by
        constructor
        · intro hh b hb; exact hh b (by simp [hb])
        · intro hh b hb
          rcases List.mem_cons.1 hb with rfl | hb
          · intro m hm hi; exact hbad ⟨m, hm, hi⟩
          · exact hh b hb
      simp only [hiff]
      exact ih

theorem Inv.nextId_dead {s : St} (h : Inv s) : s.live s.nextId = false := by
  cases hh : s.live s.nextId with
  | false => rfl
  | true => exact absurd (h.liveBelow _ hh) (Nat.lt_irrefl _)

theorem newNode_grown {s : St} (h : Inv s) (d : NodeData) (ha : d.attributes = []) (hn : d.linkedNodes = []) :
    ∃ t key, s.newNode d = .ok (t, s.nextId) ∧ Inv t ∧ Grown s t [s.nextId] ∧
      t.data s.nextId = { d with storageKey := some key } ∧ (∀ j, j ≠ s.nextId → t.data j = s.data j) ∧
      (∀ F, Describes s F → Describes t (F.add s.nextId)) := by
  obtain ⟨sl, key, e1, hv, hg, hget⟩ := Slab.insert_ok h.slab.valid s.nextId
  obtain ⟨sl', key', e2, e3⟩ := newNode_ok h d
  rw [e1] at e2; cases e2
  have hdead := h.nextId_dead
  obtain ⟨hi, _, hnx, hlv⟩ := h.newNode ha hn e3
  obtain ⟨t, ht⟩ : ∃ t : St, t = { s.alloc d with slab := sl, data := upd (s.alloc d).data s.nextId { d with storageKey := some key } } :=
    ⟨_, rfl⟩
  rw [← ht] at e3 hi hnx hlv
  have hd1 : t.data s.nextId = { d with storageKey := some key } := by rw [ht]; simp [upd]
  have hd2 : ∀ j, j ≠ s.nextId → t.data j = s.data j := by
    intro j hj; rw [ht]; simp [upd, hj, St.alloc]
  have hne : ∀ j, s.live j = true → j ≠ s.nextId := by
    rintro j hj rfl; rw [hdead] at hj; simp at hj
  have hd3 : ∀ j, s.live j = true → t.data j = s.data j := fun j hj => hd2 j (hne j hj)
  refine ⟨t, key, e3, hi, ?_, hd1, hd2, ?_⟩
  · constructor
    · intro j; rw [hlv]; by_cases hj : j = s.nextId <;> simp [hj]
    · rfl
    · rw [hnx]; rfl
    · rw [ht]; rfl
    · rw [ht]; rfl
    · intro j hj; simp only [St.idOf, hd3 j hj]
    · intro j hj; simp only [St.tagName, hd3 j hj]
    · intro j hj; simp only [St.text, hd3 j hj]
    · intro j hj; simp only [St.nodeType, hd3 j hj]
    · intro j hj; simp only [St.attributes, hd3 j hj]
    · intro j hj; simp only [St.isDetached, hd3 j hj]
    · intro j hj; rw [List.mem_singleton] at hj; rw [hj]; simp [St.isDetached, hd1]
    · intro n
      have hs : t.slab = sl := by rw [ht]
      rw [hs, Slab.mem_nodes, Slab.mem_nodes, List.mem_singleton]
      constructor
      · rintro ⟨k, hk⟩
        rw [hget] at hk
        split at hk
        · exact .inr (Option.some.inj hk).symm
        · exact .inl ⟨k, hk⟩
      · rintro (⟨k, hk⟩ | rfl)
        · refine ⟨k, ?_⟩
          rw [hget]
          split
          · next e => rw [e, hg] at hk; simp at hk
          · exact hk
        · exact ⟨key, by rw [hget]; simp⟩
    · intro j hj
      have : t.attributes s.nextId = [] := by simp [St.attributes, hd1, ha]
      simp only [St.linkedNodes, hd3 j hj, List.flatMap_cons, List.flatMap_nil, this]
      simp [refCount]
  · intro F hF
    obtain ⟨G, hT⟩ := h.tree
    have hT' : TreeInv s F := ⟨h.reps hF, hT.liveBelow, hT.below, hT.root⟩
    refine (hT'.alloc d).reps.describes.frame ?_ ?_
    · rw [ht]
    · rw [ht]

theorem copyNode_spec {s : St} (h : Inv s) (ok : NodesOk s) {i : NodeId} (hi : s.live i = true) :
    (Copyable s i → ∃ t, s.copyNode i = .ok (t, s.nextId) ∧ Inv t ∧ NodesOk t ∧ Grown s t [s.nextId] ∧
      Copied s t i s.nextId ∧ ∀ F, Describes s F → Describes t (F.add s.nextId)) ∧
    (¬ Copyable s i → ∃ p, s.copyNode i = .error (.panic p)) := by
  have hne : i ≠ s.nextId := by
    rintro rfl; rw [h.nextId_dead] at hi; simp at hi
  have fin : ∀ t, s.copyNode i = .ok (t, s.nextId) → Inv t ∧ NodesOk t := by
    intro t e
    have := (copyNode_inner h hi e).1
    exact ⟨this.inv h, this.nodesOk h ok⟩
  have other : ∀ ty, ty ≠ .element → ty ≠ .root → s.nodeType i = ty →
      (Copyable s i → ∃ t, s.copyNode i = .ok (t, s.nextId) ∧ Inv t ∧ NodesOk t ∧ Grown s t [s.nextId] ∧
        Copied s t i s.nextId ∧ ∀ F, Describes s F → Describes t (F.add s.nextId)) ∧
      (¬ Copyable s i → ∃ p, s.copyNode i = .error (.panic p)) := by
    intro ty h1 h2 hty
    obtain ⟨u, key, e1, hu, hgr, hd1, hd2, hF⟩ := newNode_grown h (.fresh ty (.name []) (s.text i)) rfl rfl
    have hcopy : s.copyNode i = .ok (u, s.nextId) := by
      unfold St.copyNode
      split
      · next hh => rw [hty] at hh; exact absurd hh h1
      · rw [hty]
        simp [St.createNode, assertOrPanic, bind, Except.bind, h1, h2, e1]
    constructor
    · intro _
      refine ⟨u, hcopy, (fin u hcopy).1, (fin u hcopy).2, hgr, ?_, hF⟩
      constructor
      · simp [St.nodeType, hd1, NodeData.fresh]; exact hty.symm
      · intro hh; rw [hty] at hh; exact absurd hh h1
      · intro _
        refine ⟨?_, ?_, ?_⟩ <;> simp [St.tagName, St.attributes, St.text, hd1, NodeData.fresh]
      · simp [St.idOf, hd1, NodeData.fresh]
    · intro hc
      exact absurd ⟨by rw [hty]; exact h2, fun hh => by rw [hty] at hh; exact absurd hh h1⟩ hc
  cases hty : s.nodeType i with
  | element =>
    have htag : s.tagName i ≠ .name [] := ok.tag i hi hty
    obtain ⟨u, key, e1, hu, hgr, hd1, hd2, hF⟩ := newNode_grown h (.fresh .element (s.tagName i) []) rfl rfl
    have hcr : s.createElement (s.tagName i) = .ok (u, s.nextId) := by simp [St.createElement, htag, e1]
    have hat : u.attributes i = s.attributes i := hgr.attrs i hi
    have hspec := copyAttributes_spec (src := i) (n := s.nextId) (l := s.attributes i) hu
      ((hgr.live _).2 (.inr (by simp))) (by simp [St.isElement, St.nodeType, hd1, NodeData.fresh])
      (by simp [St.idOf, hd1, NodeData.fresh]) (by simp [St.linkedNodes, hd1, NodeData.fresh])
      (by
        have : u.attributes s.nextId = [] := by simp [St.attributes, hd1, NodeData.fresh]
        rw [this, List.nil_append]; exact h.link.names i hi)
      (by
        intro a ha
        refine ⟨ok.stored i hi a ha, fun m hm => ?_⟩
        have hml := h.link.targets i hi a ha m hm
        refine ⟨(hgr.live _).2 (.inl hml), ?_, ?_⟩
        · rintro rfl; rw [h.nextId_dead] at hml; simp at hml
        · rintro rfl
          have := h.link.noSelf m hi
          have := refs_pos.2 ⟨a, ha, hm⟩
          omega)
    have hcopy : s.copyNode i = (u.copyAttributes i s.nextId (s.attributes i)).map fun t => (t, s.nextId) := by
      simp only [St.copyNode, hty, hcr, bind, Except.bind, hat]
      cases u.copyAttributes i s.nextId (s.attributes i) <;> rfl
    have hiff : Copyable s i ↔ ∀ a ∈ s.attributes i, ∀ m, a.value.linkNode = some m → u.idOf m ≠ [] := by
      constructor
      · intro hc a ha m hm
        have hml := h.link.targets i hi a ha m hm
        rw [hgr.ids m hml]
        exact hc.2 hty a ha m (refersTo_iff.2 hm)
      · intro hh
        refine ⟨by rw [hty]; simp, fun _ a ha m hm => ?_⟩
        have hm := refersTo_iff.1 hm
        have hml := h.link.targets i hi a ha m hm
        rw [← hgr.ids m hml]
        exact hh a ha m hm
    constructor
    · intro hc
      rw [if_pos (hiff.1 hc)] at hspec
      rw [hspec] at hcopy
      have hdn : ∀ l j, ((u.withAttrs s.nextId l).data j) = { u.data j with
        attributes := if j = s.nextId then (u.data j).attributes ++ l else (u.data j).attributes
        linkedNodes := (u.data j).linkedNodes ++ List.replicate (refs l j) s.nextId } := fun _ _ => rfl
      refine ⟨_, hcopy, (fin _ hcopy).1, (fin _ hcopy).2, ?_, ?_, ?_⟩
      · have hnat : (u.withAttrs s.nextId (s.attributes i)).attributes s.nextId = s.attributes i := by
          simp [St.attributes, hdn, hd1, NodeData.fresh]
        have hlne : ∀ j, s.live j = true → j ≠ s.nextId := by
          rintro j hj rfl; rw [h.nextId_dead] at hj; simp at hj
        constructor
        · exact hgr.live
        · exact hgr.order
        · exact hgr.next
        · exact hgr.rootId
        · exact hgr.debug
        · exact hgr.ids
        · exact hgr.tags
        · exact hgr.texts
        · exact hgr.types
        · intro j hj
          simp only [St.attributes, hdn, hlne j hj, if_false]
          exact hgr.attrs j hj
        · exact hgr.detached
        · exact hgr.newDetached
        · exact hgr.stored
        · intro j hj
          simp only [List.flatMap_cons, List.flatMap_nil, List.append_nil, hnat, refCount_eq]
          simp only [St.linkedNodes, hdn]
          congr 1
          rw [hd2 j (hlne j hj)]
      · constructor
        · simp [St.nodeType, hdn, hd1, NodeData.fresh]; exact hty.symm
        · intro _
          refine ⟨?_, ?_, ?_⟩ <;> simp [St.tagName, St.attributes, St.text, hdn, hd1, NodeData.fresh]
        · intro hh; rw [hty] at hh; simp at hh
        · simp [St.idOf, hdn, hd1, NodeData.fresh]
      · intro F hF'
        exact (hF F hF').frame rfl rfl
    · intro hc
      rw [if_neg (fun hh => hc (hiff.2 hh))] at hspec
      rw [hspec] at hcopy
      exact ⟨_, hcopy⟩
  | root =>
    constructor
    · intro hc; exact absurd hty hc.1
    · intro _
      simp [St.copyNode, hty, St.createNode, assertOrPanic, bind, Except.bind]
  | comment => exact other .comment (by simp) (by simp) hty
  | text => exact other .text (by simp) (by simp) hty

end Svgdom
