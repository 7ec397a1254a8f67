import Verif.Proof.Links

/-! Stored attribute values are re-tagged, elements have names, only the document root has type `Root`. -/

namespace Svgdom

open Relation

structure NodesOk (s : St) : Prop where
  stored : ∀ i, s.live i = true → ∀ a ∈ s.attributes i, a.stored = a
  tag : ∀ i, s.live i = true → (s.data i).tagOk
  root : ∀ i, s.live i = true → (s.nodeType i = .root ↔ i = s.rootId)

theorem stored_stored (a : Attribute) : a.stored.stored = a.stored := by
  obtain ⟨n, v⟩ := a
  cases v <;> simp only [Attribute.stored, AttributeValue.linkNode, AttributeValue.fallback, St.linkValue] <;>
    split_ifs <;> simp_all [AttributeValue.linkNode, AttributeValue.fallback]

theorem NodesOk.frame {s t : St} (h : NodesOk s) (hd : t.data = s.data) (hl : t.live = s.live) (hr : t.rootId = s.rootId) :
    NodesOk t := by
  constructor
  · intro i hi; simp only [St.attributes, hd]; rw [hl] at hi; exact h.stored i hi
  · intro i hi; rw [hd]; rw [hl] at hi; exact h.tag i hi
  · intro i hi; simp only [St.nodeType, hd]; rw [hl] at hi; rw [hr]; exact h.root i hi

theorem Inner.nodesOk {s t : St} (hi : Inv s) (h : NodesOk s) (st : Inner s t) : NodesOk t := by
  cases st with
  | new d ha hn hok e =>
    obtain ⟨hi', rfl, hnx, hlv⟩ := hi.newNode ha hn e
    obtain ⟨sl, key, _, e3⟩ := newNode_ok hi d
    have hroot : s.nextId ≠ s.rootId := by
      obtain ⟨F, hT⟩ := hi.tree
      intro hh
      have := hT.liveBelow _ hT.root
      rw [← hh] at this
      exact Nat.lt_irrefl _ this
    rw [e3] at e
    cases e
    constructor
    · intro i hl
      rw [hlv] at hl
      simp only [St.attributes, St.alloc, upd]
      split
      · simp [ha]
      · next hne =>
        rw [if_neg hne] at hl
        exact h.stored i hl
    · intro i hl
      rw [hlv] at hl
      simp only [St.alloc, upd]
      split
      · exact hok.1
      · next hne =>
        rw [if_neg hne] at hl
        exact h.tag i hl
    · intro i hl
      rw [hlv] at hl
      simp only [St.nodeType, St.alloc, upd]
      split
      · next he => subst he; simp [hok.2.1, hroot]
      · next hne =>
        rw [if_neg hne] at hl
        exact h.root i hl
  | leaf p c hp hc _ _ e =>
    have := (hi.append hp hc e).2
    exact h.frame this.data this.live this.rootId
  | detach i _ => exact h.frame rfl rfl rfl
  | data i f hl ha hn hk ht htag _ =>
    constructor
    · intro j hj
      simp only [St.attributes, St.setD_data]
      split
      · next e => subst e; rw [ha]; exact h.stored j hj
      · exact h.stored j hj
    · intro j hj
      simp only [St.setD_data]
      split
      · next e => subst e; exact htag _ (h.tag j hj)
      · exact h.tag j hj
    · intro j hj
      simp only [St.nodeType, St.setD_data]
      split
      · next e => subst e; rw [ht]; exact h.root j hj
      · exact h.root j hj
  | set i a hl ht e =>
    rcases setChecked_cases hi hl e with ⟨_, _, rfl, _⟩ | ⟨_, rfl, hr⟩
    · exact h
    · constructor
      · intro j hj b hb
        simp only [St.attributes, St.putAttr] at hb
        split at hb
        · rw [List.mem_append, List.mem_singleton] at hb
          rcases hb with hb | rfl
          · exact h.stored j hj b (List.mem_of_mem_filter hb)
          · exact stored_stored a
        · exact h.stored j hj b hb
      · intro j hj; exact h.tag j hj
      · intro j hj; exact h.root j hj
  | unset i name hl =>
    constructor
    · intro j hj b hb
      simp only [St.attributes, St.delAttr] at hb
      split at hb
      · exact h.stored j hj b (List.mem_of_mem_filter hb)
      · exact h.stored j hj b hb
    · intro j hj; exact h.tag j hj
    · intro j hj; exact h.root j hj
  | finish i hl e =>
    obtain ⟨t', e', _, _, hlv, _, hr, _, hd, _⟩ := finishRemove_ok hi hl
    rw [e] at e'; cases e'
    constructor
    · intro j hj b hb
      rw [hlv] at hj
      refine h.stored j hj b ?_
      simp only [St.attributes, hd] at hb
      split at hb <;> exact hb
    · intro j hj
      rw [hlv] at hj
      rw [hd]
      split
      · exact h.tag j hj
      · exact h.tag j hj
    · intro j hj
      rw [hlv] at hj
      have : t.nodeType j = s.nodeType j := by
        simp only [St.nodeType, hd]; split <;> rfl
      rw [this, hr]; exact h.root j hj

theorem Inners.nodesOk {s t : St} (hi : Inv s) (h : NodesOk s) (st : Inners s t) : NodesOk t := by
  induction st with
  | refl => exact h
  | tail st1 st ih => exact st.nodesOk (Inners.inv hi st1) ih

theorem Reachable.nodesOk {s : St} (h : Reachable s) : NodesOk s := by
  induction h with
  | init d =>
    constructor <;> intro i hi <;> simp [St.init, St.attributes, St.nodeType, NodeData.fresh, NodeData.tagOk] at hi ⊢
    exact hi
  | @call s t op hs hl e ih =>
    cases hm : op.isMove with
    | false => exact Inners.nodesOk hs.inv ih (op_inner hs.inv op hl e hm)
    | true =>
      have hinv := hs.inv
      have hf : Frame s t := by
        cases op with
        | append p c => exact (hinv.append (hl _ (by simp [Op.handles])) (hl _ (by simp [Op.handles])) e).2
        | prepend p c => exact (hinv.prepend (hl _ (by simp [Op.handles])) (hl _ (by simp [Op.handles])) e).2
        | insertAfter p c => exact (hinv.insertAfter (hl _ (by simp [Op.handles])) (hl _ (by simp [Op.handles])) e).2
        | insertBefore p c => exact (hinv.insertBefore (hl _ (by simp [Op.handles])) (hl _ (by simp [Op.handles])) e).2
        | _ => simp [Op.isMove] at hm
      exact ih.frame hf.data hf.live hf.rootId
  | free i _ hi hr ih =>
    have hl : ∀ (s : St) (j : NodeId), (s.free i).live j = true → s.live j = true := by
      intro s j hj; simp only [St.free] at hj; split at hj <;> simp_all
    constructor
    · intro j hj; exact ih.stored j (hl _ j hj)
    · intro j hj; exact ih.tag j (hl _ j hj)
    · intro j hj; exact ih.root j (hl _ j hj)
  | @edit s t _ he ih =>
    constructor
    · intro j hj
      rw [he.live] at hj
      exact he.stored ih.stored hj
    · intro j hj
      rw [he.live] at hj
      have := ih.tag j hj
      simp only [NodeData.tagOk] at this ⊢
      rw [he.tagName j]
      intro e
      exact this ((he.nodeType j).symm.trans e)
    · intro j hj
      rw [he.live] at hj
      rw [he.nodeType, he.rootId]
      exact ih.root j hj

end Svgdom
