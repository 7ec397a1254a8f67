import Verif.Proof.Tags

/-! In debug builds only elements have attributes and tag names. -/

namespace Svgdom

open Relation

def AttrsOnElements (s : St) : Prop := s.debug = true → ∀ i, s.live i = true → s.attributes i ≠ [] → s.nodeType i = .element

theorem AttrsOnElements.frame {s t : St} (h : AttrsOnElements s) (hd : t.data = s.data) (hl : t.live = s.live)
    (hg : t.debug = s.debug) : AttrsOnElements t := by
  intro hd' i hi hne
  simp only [St.attributes, St.nodeType, hd] at hne ⊢
  exact h (hg ▸ hd') i (hl ▸ hi) hne

theorem Inner.attrsOnElements {s t : St} (hi : Inv s) (h : AttrsOnElements s) (st : Inner s t) : AttrsOnElements t := by
  cases st with
  | new d ha hn hok e =>
    obtain ⟨_, rfl, hnx, hlv⟩ := hi.newNode ha hn e
    obtain ⟨sl, key, _, e3⟩ := newNode_ok hi d
    rw [e3] at e
    cases e
    intro hd i hl hne
    rw [hlv] at hl
    simp only [St.attributes, St.nodeType, St.alloc, upd] at hne ⊢
    split at hne
    · simp [ha] at hne
    · next hx => rw [if_neg hx] at hl; simp only [if_neg hx] at hne ⊢; exact h hd i hl hne
  | leaf p c hp hc _ _ e =>
    have := (hi.append hp hc e).2
    exact h.frame this.data this.live this.debug
  | detach i _ => exact h.frame rfl rfl rfl
  | data i f hl ha hn hk ht htag _ =>
    intro hd j hj hne
    simp only [St.attributes, St.nodeType, St.setD_data] at hne ⊢
    split at hne
    · next e => subst e; rw [if_pos rfl, ht]; rw [ha] at hne; exact h hd j hj hne
    · next e => rw [if_neg e]; exact h hd j hj hne
  | set i a hl ht e =>
    rcases setChecked_cases hi hl e with ⟨_, _, rfl, _⟩ | ⟨_, rfl, hr⟩
    · exact h
    · intro hd j hj hne
      by_cases hji : j = i
      · subst hji
        cases hh : s.isElement j with
        | true => exact of_decide_eq_true hh
        | false => rw [St.setChecked_debug (s := s) hd hh] at e; simp at e
      · simp only [St.attributes, St.putAttr, if_neg hji] at hne
        exact h hd j hj hne
  | unset i name hl =>
    intro hd j hj hne
    simp only [St.attributes, St.delAttr] at hne
    refine h hd j hj ?_
    split at hne
    · intro e
      simp only [St.attributes] at e
      rw [e] at hne
      exact hne rfl
    · exact hne
  | finish i hl e =>
    obtain ⟨t', e', _, _, hlv, _, hr, hg, hd, _⟩ := finishRemove_ok hi hl
    rw [e] at e'; cases e'
    intro hd' j hj hne
    rw [hlv] at hj
    rw [hg] at hd'
    have h1 : t.attributes j = s.attributes j := by simp only [St.attributes, hd]; split <;> rfl
    have h2 : t.nodeType j = s.nodeType j := by simp only [St.nodeType, hd]; split <;> rfl
    rw [h2]; rw [h1] at hne
    exact h hd' j hj hne

theorem Inners.attrsOnElements {s t : St} (hi : Inv s) (h : AttrsOnElements s) (st : Inners s t) : AttrsOnElements t := by
  induction st with
  | refl => exact h
  | tail st1 st ih => exact st.attrsOnElements (Inners.inv hi st1) ih

theorem op_frame {s t : St} (hinv : Inv s) (op : Op) (hl : ∀ i ∈ op.handles, s.live i = true) (e : op.run s = .ok t)
    (hm : op.isMove = true) : Frame s t := by
  cases op with
  | append p c => exact (hinv.append (hl _ (by simp [Op.handles])) (hl _ (by simp [Op.handles])) e).2
  | prepend p c => exact (hinv.prepend (hl _ (by simp [Op.handles])) (hl _ (by simp [Op.handles])) e).2
  | insertAfter p c => exact (hinv.insertAfter (hl _ (by simp [Op.handles])) (hl _ (by simp [Op.handles])) e).2
  | insertBefore p c => exact (hinv.insertBefore (hl _ (by simp [Op.handles])) (hl _ (by simp [Op.handles])) e).2
  | _ => simp [Op.isMove] at hm

theorem Reachable.attrsOnElements {s : St} (h : Reachable s) : AttrsOnElements s := by
  induction h with
  | init d => intro _ i hi hne; simp [St.init, St.attributes, NodeData.fresh] at hne
  | @call s t op hs hl e ih =>
    cases hm : op.isMove with
    | false => exact Inners.attrsOnElements hs.inv ih (op_inner hs.inv op hl e hm)
    | true =>
      have hf := op_frame hs.inv op hl e hm
      exact ih.frame hf.data hf.live hf.debug
  | free i _ hi hr ih =>
    intro hd j hj hne
    have : ∀ (s : St), (s.free i).live j = true → s.live j = true := by
      intro s hj; simp only [St.free] at hj; split at hj <;> simp_all
    exact ih hd j (this _ hj) hne
  | edit _ he ih =>
    intro hd j hj hne
    rw [he.live] at hj
    rw [he.debug] at hd
    rw [he.nodeType]
    obtain ⟨k, hk, ht, hne⟩ := he.from_type hj hne
    exact ht.trans (ih hd k hk hne)

/-- A property of the data of all nodes in debug builds. -/
def OfNodes (P : NodeData → Prop) (s : St) : Prop := s.debug = true → ∀ i, s.live i = true → P (s.data i)

/-- The property does not depend on the attributes, the links and the slot of the node. -/
def OfContent (P : NodeData → Prop) : Prop :=
  ∀ d e : NodeData, d.nodeType = e.nodeType → d.tagName = e.tagName → d.id = e.id → d.text = e.text → P d → P e

theorem ofContent_named : OfContent NodeData.named := by
  intro d e h1 h2 h3 _ h
  simpa only [NodeData.named, h1, h2, h3] using h

theorem ofContent_silent : OfContent NodeData.silent := by
  intro d e h1 _ _ h4 h
  simpa only [NodeData.silent, h1, h4] using h

theorem OfNodes.frame {P : NodeData → Prop} {s t : St} (h : OfNodes P s) (hd : t.data = s.data) (hl : t.live = s.live)
    (hg : t.debug = s.debug) : OfNodes P t := by
  intro hd' i hi
  rw [hd]
  exact h (hg ▸ hd') i (hl ▸ hi)

theorem Inner.ofNodes {P : NodeData → Prop} (hP : OfContent P) (hnew : ∀ d : NodeData, d.newOk → P d)
    (hdata : ∀ d e : NodeData, (d.named → e.named) ∧ (d.silent → e.silent) → P d → P e) {s t : St} (hi : Inv s) (h : OfNodes P s)
    (st : Inner s t) : OfNodes P t := by
  cases st with
  | new d ha hn hok e =>
    obtain ⟨_, rfl, hnx, hlv⟩ := hi.newNode ha hn e
    obtain ⟨sl, key, _, e3⟩ := newNode_ok hi d
    rw [e3] at e
    cases e
    intro hd i hl
    rw [hlv] at hl
    simp only [St.alloc, upd]
    split
    · exact hP d _ rfl rfl rfl rfl (hnew d hok)
    · next hx => rw [if_neg hx] at hl; exact h hd i hl
  | leaf p c hp hc _ _ e =>
    have := (hi.append hp hc e).2
    exact h.frame this.data this.live this.debug
  | detach i _ => exact h.frame rfl rfl rfl
  | data i f hl ha hn hk ht htag hf =>
    intro hd j hj
    simp only [St.setD_data]
    split
    · next e => exact hdata _ _ (hf hd) (h hd i hl)
    · exact h hd j hj
  | set i a hl ht e =>
    rcases setChecked_cases hi hl e with ⟨_, _, rfl, _⟩ | ⟨_, rfl, hr⟩
    · exact h
    · intro hd j hj
      exact hP (s.data j) _ rfl rfl rfl rfl (h hd j hj)
  | unset i name hl =>
    intro hd j hj
    exact hP (s.data j) _ rfl rfl rfl rfl (h hd j hj)
  | finish i hl e =>
    obtain ⟨t', e', _, _, hlv, _, hr, hg, hd, _⟩ := finishRemove_ok hi hl
    rw [e] at e'; cases e'
    intro hd' j hj
    rw [hlv] at hj
    rw [hg] at hd'
    have := h hd' j hj
    rw [hd]
    split
    · exact hP (s.data j) _ rfl rfl rfl rfl this
    · exact this

theorem Inners.named {s t : St} (hi : Inv s) (h : OfNodes NodeData.named s) (st : Inners s t) : OfNodes NodeData.named t := by
  induction st with
  | refl => exact h
  | tail st1 st ih => exact st.ofNodes ofContent_named (fun _ h => h.2.2.1) (fun _ _ h => h.1) (Inners.inv hi st1) ih

theorem Inners.silent {s t : St} (hi : Inv s) (h : OfNodes NodeData.silent s) (st : Inners s t) : OfNodes NodeData.silent t := by
  induction st with
  | refl => exact h
  | tail st1 st ih => exact st.ofNodes ofContent_silent (fun _ h => h.2.2.2) (fun _ _ h => h.2) (Inners.inv hi st1) ih

theorem op_named {s t : St} (hinv : Inv s) (h : OfNodes NodeData.named s) (op : Op) (hl : ∀ i ∈ op.handles, s.live i = true)
    (e : op.run s = .ok t) : OfNodes NodeData.named t := by
  cases hm : op.isMove with
  | false => exact Inners.named hinv h (op_inner hinv op hl e hm)
  | true =>
    have hf := op_frame hinv op hl e hm
    exact h.frame hf.data hf.live hf.debug

theorem op_silent {s t : St} (hinv : Inv s) (h : OfNodes NodeData.silent s) (op : Op) (hl : ∀ i ∈ op.handles, s.live i = true)
    (e : op.run s = .ok t) : OfNodes NodeData.silent t := by
  cases hm : op.isMove with
  | false => exact Inners.silent hinv h (op_inner hinv op hl e hm)
  | true =>
    have hf := op_frame hinv op hl e hm
    exact h.frame hf.data hf.live hf.debug

theorem ofNodes_free {P : NodeData → Prop} {s : St} (h : OfNodes P s) (i : NodeId) : OfNodes P (s.free i) := by
  intro hd j hj
  have : s.live j = true := by simp only [St.free] at hj; split at hj <;> simp_all
  exact h hd j this

theorem Reachable.named {s : St} (h : Reachable s) : OfNodes NodeData.named s := by
  induction h with
  | init d => intro _ i hi hne; simp [St.init, NodeData.fresh]
  | call op hs hl e ih => exact op_named hs.inv ih op hl e
  | free i _ hi hr ih => exact ofNodes_free ih i
  | edit _ he ih =>
    intro hd j hj hne
    rw [he.live] at hj
    rw [he.debug] at hd
    rw [show (_ : NodeData).nodeType = _ from he.nodeType j] at hne
    rw [he.tagName, he.idOf]
    exact ih hd j hj hne

def LinkedElements (s : St) : Prop := s.debug = true → ∀ i, s.live i = true → s.linkedNodes i ≠ [] → s.nodeType i = .element

theorem LinkedElements.frame {s t : St} (h : LinkedElements s) (hd : t.data = s.data) (hl : t.live = s.live)
    (hg : t.debug = s.debug) : LinkedElements t := by
  intro hd' i hi hne
  simp only [St.linkedNodes, St.nodeType, hd] at hne ⊢
  exact h (hg ▸ hd') i (hl ▸ hi) hne

theorem Inner.linkedElements {s t : St} (hi : Inv s) (hn : OfNodes NodeData.named s) (h : LinkedElements s) (st : Inner s t) :
    LinkedElements t := by
  cases st with
  | new d ha hl' hok e =>
    obtain ⟨_, rfl, hnx, hlv⟩ := hi.newNode ha hl' e
    obtain ⟨sl, key, _, e3⟩ := newNode_ok hi d
    rw [e3] at e
    cases e
    intro hd i hl hne
    rw [hlv] at hl
    simp only [St.linkedNodes, St.nodeType, St.alloc, upd] at hne ⊢
    split at hne
    · simp [hl'] at hne
    · next hx => rw [if_neg hx] at hl; simp only [if_neg hx] at hne ⊢; exact h hd i hl hne
  | leaf p c hp hc _ _ e =>
    have := (hi.append hp hc e).2
    exact h.frame this.data this.live this.debug
  | detach i _ => exact h.frame rfl rfl rfl
  | data i f hl ha hk _ ht htag _ =>
    intro hd j hj hne
    simp only [St.linkedNodes, St.nodeType, St.setD_data] at hne ⊢
    split at hne
    · next e => subst e; rw [if_pos rfl, ht]; rw [hk] at hne; exact h hd j hj hne
    · next e => rw [if_neg e]; exact h hd j hj hne
  | set i a hl ht e =>
    rcases setChecked_cases hi hl e with ⟨_, _, rfl, _⟩ | ⟨_, rfl, hr⟩
    · exact h
    · intro hd j hj hne
      by_cases hj' : a.value.linkNode = some j
      · by_contra hc
        have := (hn hd j hj hc).2
        rw [hj'] at hr
        simp [St.rejected, St.idOf, this] at hr
      · refine h hd j hj fun he => hne ?_
        have he : (s.data j).linkedNodes = [] := he
        have hx : ¬ a.stored.value.linkNode = some j := by rw [stored_linkNode]; exact hj'
        simp only [St.linkedNodes, St.putAttr, if_neg hx, he]
        split <;> rfl
  | unset i name hl =>
    intro hd j hj hne
    refine h hd j hj fun he => hne ?_
    have he : (s.data j).linkedNodes = [] := he
    simp only [St.linkedNodes, St.delAttr, he]
    split <;> rfl
  | finish i hl e =>
    obtain ⟨t', e', _, _, hlv, _, hr, hg, hd, _⟩ := finishRemove_ok hi hl
    rw [e] at e'; cases e'
    intro hd' j hj hne
    rw [hlv] at hj
    rw [hg] at hd'
    have h1 : t.linkedNodes j = s.linkedNodes j := by simp only [St.linkedNodes, hd]; split <;> rfl
    have h2 : t.nodeType j = s.nodeType j := by simp only [St.nodeType, hd]; split <;> rfl
    rw [h2]; rw [h1] at hne
    exact h hd' j hj hne

theorem Inners.linkedElements {s t : St} (hi : Inv s) (hn : OfNodes NodeData.named s) (h : LinkedElements s) (st : Inners s t) :
    LinkedElements t := by
  induction st with
  | refl => exact h
  | tail st1 st ih => exact st.linkedElements (Inners.inv hi st1) (Inners.named hi hn st1) ih

theorem Reachable.linkedElements {s : St} (h : Reachable s) : LinkedElements s := by
  induction h with
  | init d => intro _ i hi hne; simp [St.init, St.linkedNodes, NodeData.fresh] at hne
  | @call s t op hs hl e ih =>
    cases hm : op.isMove with
    | false => exact Inners.linkedElements hs.inv hs.named ih (op_inner hs.inv op hl e hm)
    | true =>
      have hf := op_frame hs.inv op hl e hm
      exact ih.frame hf.data hf.live hf.debug
  | free i _ hi hr ih =>
    intro hd j hj hne
    have : ∀ (s : St), (s.free i).live j = true → s.live j = true := by
      intro s hj; simp only [St.free] at hj; split at hj <;> simp_all
    exact ih hd j (this _ hj) hne
  | edit _ he ih =>
    intro hd j hj hne
    rw [he.live] at hj
    rw [he.debug] at hd
    rw [he.nodeType]
    exact ih hd j hj fun e => hne (by have := he.perm j; rw [e] at this; exact this.eq_nil)

theorem Inner.debug {s t : St} (hi : Inv s) (st : Inner s t) : t.debug = s.debug := by
  cases st with
  | new d ha hn hok e =>
    obtain ⟨sl, key, _, e3⟩ := newNode_ok hi d
    rw [e3] at e
    cases e
    rfl
  | leaf p c hp hc _ _ e => exact (hi.append hp hc e).2.debug
  | detach i _ => rfl
  | data => rfl
  | set i a hl ht e =>
    rcases setChecked_cases hi hl e with ⟨_, _, rfl, _⟩ | ⟨_, rfl, hr⟩ <;> rfl
  | unset i name hl => rfl
  | finish i hl e =>
    obtain ⟨t', e', _, _, _, _, _, hg, _, _⟩ := finishRemove_ok hi hl
    rw [e] at e'; cases e'
    exact hg

/-- No call changes how the program was built. -/
theorem op_debug {s t : St} (hinv : Inv s) (op : Op) (hl : ∀ i ∈ op.handles, s.live i = true) (e : op.run s = .ok t) :
    t.debug = s.debug := by
  cases hm : op.isMove with
  | true => exact (op_frame hinv op hl e hm).debug
  | false =>
    have st := op_inner hinv op hl e hm
    clear hm e
    induction st with
    | refl => rfl
    | tail st1 st ih => exact (st.debug (Inners.inv hinv st1)).trans ih

end Svgdom
