import Verif.Proof.UnwindNode

/-!
# Helper lemmas for C86: a panic changes nothing, or leaves a wrong back reference
-/

set_option autoImplicit false

namespace Svgdom

/-- Somewhere references and back references do not agree. -/
def Mismatch (t : St) : Prop :=
  ∃ i j, t.live i = true ∧ t.live j = true ∧ (t.linkedNodes j).count i ≠ refs (t.attributes i) j

theorem LinkInv.no_mismatch {t : St} (h : LinkInv t) : ¬ Mismatch t := by
  rintro ⟨i, j, hi, hj, hne⟩
  exact hne (h.count i j hi hj)

section
variable {g : Guards} {s : St}

theorem removeU_err (hl : LinkInv s) {i : NodeId} (hi : s.live i = true) {x : AName} {e : Err} {t : St}
    (h : s.removeAttributeU g i x = .error (e, t)) : t = s ∨ Mismatch t := by
  rcases removeAttributeU_shared h with h | ⟨-, n, k, h2, -, h4, rfl⟩
  · exact .inl h
  · have hg : ∃ a ∈ s.attributes i, a.value.linkNode = some n := by
      simp only [St.oldTarget, attrsGetValue] at h2
      cases ha : attrsGet (s.attributes i) x with
      | none => rw [ha] at h2; simp at h2
      | some a => rw [ha] at h2; exact ⟨a, (attrsGet_some ha).1, by simpa using h2⟩
    obtain ⟨a, ha, hn⟩ := hg
    have hln := hl.targets i hi a ha n hn
    have hc := hl.count i n hi hln
    refine .inr ⟨i, n, hi, hln, ?_⟩
    obtain ⟨hk, hp, -⟩ := List.findIdx?_eq_some_iff_getElem.1 h4
    have hp := of_decide_eq_true hp
    have hperm := (List.getElem_cons_eraseIdx_perm hk).symm
    rw [hp] at hperm
    have hcp := hperm.count_eq i
    rw [List.count_cons_self] at hcp
    have e1 : (s.setD n fun d => { d with linkedNodes := d.linkedNodes.eraseIdx k }).linkedNodes n = (s.linkedNodes n).eraseIdx k := by
      simp [St.linkedNodes]
    have e2 : (s.setD n fun d => { d with linkedNodes := d.linkedNodes.eraseIdx k }).attributes i = s.attributes i := by
      simp only [St.attributes, St.setD_data]; split_ifs with hin
      · rw [hin]
      · rfl
    rw [e1, e2, ← hc]
    omega

theorem removeU_ok (hl : LinkInv s) {i : NodeId} (hi : s.live i = true) {x : AName} {u : St}
    (h : s.removeAttributeU g i x = .ok u) : u = s.delAttr i x ∧ (u = s ∨ g i = .free) := by
  constructor
  · have h1 : s.removeAttributeG g i x = .ok u := by rw [← removeAttributeU_agrees, h]; rfl
    have h2 := (Respects.removeAttribute (g := g) s i x).1
    rw [h1, St.removeAttribute_ok hl hi] at h2
    simpa using h2
  · unfold St.removeAttributeU at h
    rw [bind_ok] at h
    obtain ⟨_, _, h⟩ := h
    split at h
    · cases h; exact .inl rfl
    rw [bind_ok] at h
    obtain ⟨_, _, h⟩ := h
    dsimp only at h
    split at h <;>
    · rw [bind_ok] at h
      obtain ⟨v, _, h⟩ := h
      rw [bind_ok] at h
      obtain ⟨_, hw, h⟩ := h
      exact .inr (wr_ok (fails_ok hw))

theorem wr_free_ok {i : NodeId} {t : St} {e : Err} {w : St} (hf : g i = .free) (h : w.fails (wr g [] i) = .error (e, t)) : False := by
  rw [wr_nil hf] at h; cases h

theorem setSimpleU_err (hl : LinkInv s) {i : NodeId} (hi : s.live i = true) {a : Attribute} {e : Err} {t : St}
    (h : s.setSimpleAttributeU g i a = .error (e, t)) : t = s ∨ Mismatch t := by
  unfold St.setSimpleAttributeU at h
  rw [bind_err] at h
  rcases h with h | ⟨_, _, h⟩
  · exact .inl (fails_err h).2
  rw [bind_err] at h
  rcases h with h | ⟨u, h1, h⟩
  · exact removeU_err hl hi h
  rw [bind_err] at h
  rcases h with h | ⟨_, _, h⟩
  · rcases (removeU_ok hl hi h1).2 with rfl | hf
    · exact .inl (fails_err h).2
    · exact (wr_free_ok hf h).elim
  · cases h

theorem linkValue_target (name : AName) (n : NodeId) (fb : Option PaintFallback) : (St.linkValue name n fb).linkNode = some n := by
  unfold St.linkValue; split_ifs <;> rfl

theorem setLinkU_err (hl : LinkInv s) {i : NodeId} (hi : s.live i = true) {x : AName} {n : NodeId} (hn : s.live n = true)
    {fb : Option PaintFallback} {e : Err} {t : St} (h : s.setLinkAttributeU g i x n fb = .error (e, t)) : t = s ∨ Mismatch t := by
  unfold St.setLinkAttributeU at h
  rw [bind_err] at h
  rcases h with h | ⟨_, _, h⟩
  · exact .inl (fails_err h).2
  split at h
  · cases h
  rw [bind_err] at h
  rcases h with h | ⟨_, _, h⟩
  · exact .inl (fails_err h).2
  rw [bind_err] at h
  rcases h with h | ⟨_, _, h⟩
  · exact .inl (fails_err h).2
  split at h
  · cases h
  next hid =>
  rw [bind_err] at h
  rcases h with h | ⟨_, _, h⟩
  · exact .inl (fails_err h).2
  split at h
  · cases h
  rw [bind_err] at h
  rcases h with h | ⟨u, h1, h⟩
  · exact removeU_err hl hi h
  obtain ⟨hu, hf⟩ := removeU_ok hl hi h1
  rw [bind_err] at h
  rcases h with h | ⟨_, _, h⟩
  · rcases hf with rfl | hf
    · exact .inl (fails_err h).2
    · exact (wr_free_ok hf h).elim
  rw [bind_err] at h
  rcases h with h | ⟨_, _, h⟩
  swap
  · cases h
  obtain ⟨_, rfl⟩ := fails_err h
  have hne : n ≠ i := by rintro rfl; exact hid rfl
  have hlu : LinkInv u := by rw [hu]; exact hl.delAttr hi x
  have hlv : u.live = s.live := by rw [hu]; rfl
  have hc := hlu.count i n (by rw [hlv]; exact hi) (by rw [hlv]; exact hn)
  refine .inr ⟨i, n, ?_, ?_, ?_⟩
  · change u.live i = true; rw [hlv]; exact hi
  · change u.live n = true; rw [hlv]; exact hn
  have e1 : (u.setD i fun d => { d with attributes := attrsInsert d.attributes ⟨x, St.linkValue x n fb⟩ }).linkedNodes n =
      u.linkedNodes n := by simp [St.linkedNodes, hne]
  have e2 : (u.setD i fun d => { d with attributes := attrsInsert d.attributes ⟨x, St.linkValue x n fb⟩ }).attributes i =
      u.attributes i ++ [⟨x, St.linkValue x n fb⟩] := by
    simp only [St.attributes, St.setD_data, if_true]
    have hua : (u.data i).attributes = without (s.data i).attributes x := by rw [hu]; simp [St.delAttr]
    rw [hua]
    exact attrsInsert_without (a := ⟨x, St.linkValue x n fb⟩)
  rw [e1, e2, hc]
  simp [refs, List.countP_append, linkValue_target]

theorem setCheckedU_err (hl : LinkInv s) {i : NodeId} (hi : s.live i = true) {a : Attribute}
    (hn : ∀ n, a.value.linkNode = some n → s.live n = true) {e : Err} {t : St}
    (h : s.setAttributeCheckedU g i a = .error (e, t)) : t = s ∨ Mismatch t := by
  unfold St.setAttributeCheckedU at h
  rw [bind_err] at h
  rcases h with h | ⟨_, _, h⟩
  · exact .inl (fails_err h).2
  cases hv : a.value <;> rw [hv] at h hn <;> dsimp only at h <;>
    first
    | exact setLinkU_err hl hi (hn _ rfl) h
    | (rw [bind_err] at h
       rcases h with h | ⟨_, _, h⟩
       · exact setSimpleU_err hl hi h
       · cases h)

theorem setU_err (hl : LinkInv s) {i : NodeId} (hi : s.live i = true) {a : Attribute}
    (hn : ∀ n, a.value.linkNode = some n → s.live n = true) {e : Err} {t : St}
    (h : s.setAttributeU g i a = .error (e, t)) : t = s ∨ Mismatch t := by
  unfold St.setAttributeU at h
  rw [bind_err] at h
  rcases h with h | ⟨⟨u, o⟩, h1, h⟩
  · exact setCheckedU_err hl hi hn h
  · cases o with
    | none => cases h
    | some o => cases h; exact .inl (setAttributeCheckedU_rejects h1)

theorem dataCall_mismatch (hl : LinkInv s) (c : DataCall) (hh : ∀ i ∈ c.op.handles, s.live i = true) {e : Err} {t : St}
    (h : c.runU g s = .error (e, t)) : t = s ∨ Mismatch t := by
  cases c with
  | setText i x => exact .inl (by
      simp only [DataCall.runU, St.setTextU] at h
      rw [bind_err] at h
      rcases h with h | ⟨_, _, h⟩
      · exact (fails_err h).2
      rw [bind_err] at h
      rcases h with h | ⟨_, _, h⟩
      · exact (fails_err h).2
      · cases h)
  | setId i x => exact .inl (by
      simp only [DataCall.runU, St.setIdU] at h
      rw [bind_err] at h
      rcases h with h | ⟨_, _, h⟩
      · exact (fails_err h).2
      rw [bind_err] at h
      rcases h with h | ⟨_, _, h⟩
      · exact (fails_err h).2
      · cases h)
  | setTagName i x => exact .inl (by
      simp only [DataCall.runU, St.setTagNameU] at h
      rw [bind_err] at h
      rcases h with h | ⟨_, _, h⟩
      · exact (fails_err h).2
      split at h
      · cases h; rfl
      rw [bind_err] at h
      rcases h with h | ⟨_, _, h⟩
      · exact (fails_err h).2
      · cases h)
  | setAttribute i a =>
    exact setU_err hl (hh i (by simp [DataCall.op, Op.handles])) (fun n hn => hh n (by simp [DataCall.op, Op.handles, hn])) h
  | setAttributeChecked i a =>
    simp only [DataCall.runU] at h
    cases hr : s.setAttributeCheckedU g i a with
    | ok z => rw [hr] at h; cases h
    | error z =>
      rw [hr] at h
      obtain ⟨e', t'⟩ := z
      cases h
      exact setCheckedU_err hl (hh i (by simp [DataCall.op, Op.handles])) (fun n hn => hh n (by simp [DataCall.op, Op.handles, hn])) hr
  | setAttributeIfNone i a =>
    simp only [DataCall.runU, St.setAttributeIfNoneU] at h
    rw [bind_err] at h
    rcases h with h | ⟨_, _, h⟩
    · exact .inl (fails_err h).2
    split at h
    · exact setU_err hl (hh i (by simp [DataCall.op, Op.handles])) (fun n hn => hh n (by simp [DataCall.op, Op.handles, hn])) h
    · cases h
  | removeAttribute i x => exact removeU_err hl (hh i (by simp [DataCall.op, Op.handles])) h

end

/-- A panic of `copy_node_deep` comes after a node was made, unless the root was to be copied. -/
theorem copyNodeDeepU_next {s t : St} (h : Reachable s) {i : NodeId} (hi : s.live i = true) {e : Err}
    (he : s.copyNodeDeepU i = .error (e, t)) : (s.nodeType i = .root ∧ t = s) ∨ s.nextId < t.nextId := by
  unfold St.copyNodeDeepU at he
  rw [bind_err] at he
  rcases he with he | ⟨⟨s1, n⟩, e1, he⟩
  · rcases copyNodeU_err h hi he with ⟨h1, h2, _⟩ | ⟨_, _, _, h2, _⟩
    · exact .inl ⟨h1, h2⟩
    · exact .inr (by rw [h2.next]; simp)
  · have e1' : s.copyNode i = .ok (s1, n) := by
      rw [← copyNodeU_agrees (h.inv.liveBelow i hi), e1]; rfl
    have hr1 : Reachable s1 := .call (.copyNode i) h (by simp [Op.handles, hi]) (by simp [Op.run, e1', Except.map])
    have hcc : Copyable s i := by
      by_contra hcc
      obtain ⟨p, hp⟩ := (copyNode_spec h.inv h.nodesOk hi).2 hcc
      rw [e1'] at hp; cases hp
    obtain ⟨u, a1, a2, a3, a4, a5, a6⟩ := (copyNode_spec h.inv h.nodesOk hi).1 hcc
    rw [e1'] at a1
    cases a1
    dsimp only at he
    rw [bind_err] at he
    rcases he with he | ⟨_, _, he⟩
    swap
    · cases he
    obtain ⟨F, hT⟩ := h.inv.tree
    have hF := hT.reps.describes
    have := deepCopyAuxU_ends s1.fuel s1 (F.add s.nextId) s.nextId (s1.children i) hr1 (a6 F hF) ((a4.live _).2 (.inr (by simp)))
      (by simp [Forest.add]) (a2.children_live ((a4.live _).2 (.inl hi)))
    rw [he] at this
    obtain ⟨_, ⟨l, m2⟩, _⟩ := this
    refine .inr ?_
    have g : t.nextId = s.nextId + ([s.nextId] ++ l).length := (a4.trans m2).next
    rw [g]
    simp

end Svgdom
