import Verif.Proof.Respect
import Verif.Proof.Unwind
import Verif.Proof.DeepCopy
import Verif.Spec.UnwindNode

/-!
# Proofs about `Model/UnwindNode.lean`
-/

set_option autoImplicit false

namespace Svgdom

section
variable {g : Guards} {s : St}

/-! ## Agreement with the functions without the state at the panic -/

theorem forget_ite {α : Type} (c : Prop) [Decidable c] (a b : Except (Err × St) α) :
    forget (if c then a else b) = if c then forget a else forget b := by split <;> rfl

theorem unlinkValueU_agrees (g : Guards) (s : St) (i : NodeId) (v : AttributeValue) :
    forget (s.unlinkValueU g i v) = s.unlinkValueG g i v := by
  unfold St.unlinkValueU St.unlinkValueG
  cases v.linkNode with
  | none => rfl
  | some t =>
    simp only [forget_bind, forget_fails]
    congr 1; funext _
    cases (s.linkedNodes t).findIdx? (fun n => decide (n = i)) with
    | none => rfl
    | some k => simp only [forget_bind, forget_fails, forget_pure]

theorem removeAttributeU_agrees (g : Guards) (s : St) (i : NodeId) (x : AName) :
    forget (s.removeAttributeU g i x) = s.removeAttributeG g i x := by
  unfold St.removeAttributeU St.removeAttributeG
  simp only [forget_bind, forget_fails, forget_ite, forget_pure]
  congr 1; funext _
  congr 1
  congr 1; funext _
  cases attrsGetValue (s.attributes i) x with
  | none => simp only [forget_bind, forget_fails, forget_pure]; rfl
  | some v => simp only [forget_bind, forget_fails, forget_pure, unlinkValueU_agrees]

theorem setSimpleAttributeU_agrees (g : Guards) (s : St) (i : NodeId) (a : Attribute) :
    forget (s.setSimpleAttributeU g i a) = s.setSimpleAttributeG g i a := by
  unfold St.setSimpleAttributeU St.setSimpleAttributeG
  simp only [forget_bind, forget_fails, forget_pure, removeAttributeU_agrees]

theorem setLinkAttributeU_agrees (g : Guards) (s : St) (i : NodeId) (x : AName) (n : NodeId) (fb : Option PaintFallback) :
    forget (s.setLinkAttributeU g i x n fb) = s.setLinkAttributeG g i x n fb := by
  unfold St.setLinkAttributeU St.setLinkAttributeG
  simp only [forget_bind, forget_fails, forget_pure, forget_ite, removeAttributeU_agrees]

theorem setAttributeCheckedU_agrees (g : Guards) (s : St) (i : NodeId) (a : Attribute) :
    forget (s.setAttributeCheckedU g i a) = s.setAttributeCheckedG g i a := by
  unfold St.setAttributeCheckedU St.setAttributeCheckedG
  simp only [forget_bind, forget_fails]
  congr 1; funext _
  cases a.value <;> simp only [setLinkAttributeU_agrees, forget_bind, setSimpleAttributeU_agrees, forget_pure]

theorem setAttributeU_agrees (g : Guards) (s : St) (i : NodeId) (a : Attribute) :
    forget (s.setAttributeU g i a) = s.setAttributeG g i a := by
  unfold St.setAttributeU St.setAttributeG
  simp only [forget_bind, setAttributeCheckedU_agrees]
  congr 1; funext r
  obtain ⟨t, o⟩ := r
  cases o <;> rfl

theorem forget_map {α β : Type} (r : Except (Err × St) α) (f : α → β) : forget (r.map f) = (forget r).map f := by cases r <;> rfl

theorem dataCall_agrees (g : Guards) (s : St) (c : DataCall) : forget (c.runU g s) = c.op.runG g s := by
  cases c with
  | setText i t => simp only [DataCall.runU, DataCall.op, Op.runG, St.setTextU, St.setTextG, forget_bind, forget_fails, forget_pure]
  | setId i t => simp only [DataCall.runU, DataCall.op, Op.runG, St.setIdU, St.setIdG, forget_bind, forget_fails, forget_pure]
  | setTagName i t =>
    simp only [DataCall.runU, DataCall.op, Op.runG, St.setTagNameU, St.setTagNameG, forget_bind, forget_fails]
    congr 1; funext _
    by_cases h : t = .name []
    · simp only [h, if_true]; rfl
    · simp only [h, if_false, forget_bind, forget_fails, forget_pure]
  | setAttribute i a => exact setAttributeU_agrees _ _ _ _
  | setAttributeChecked i a => simp only [DataCall.runU, DataCall.op, Op.runG, forget_map, setAttributeCheckedU_agrees]
  | setAttributeIfNone i a =>
    simp only [DataCall.runU, DataCall.op, Op.runG, St.setAttributeIfNoneU, St.setAttributeIfNoneG, forget_bind, forget_fails,
      forget_ite, setAttributeU_agrees, forget_pure]
  | removeAttribute i x => exact removeAttributeU_agrees _ _ _ _

/-! ## The state at the panic -/

theorem fails_err {r : Except Err Unit} {e : Err} {t : St} (h : s.fails r = .error (e, t)) : r = .error e ∧ t = s := by
  cases r with
  | ok u => cases h
  | error x => cases h; exact ⟨rfl, rfl⟩

theorem fails_ok {r : Except Err Unit} {u : Unit} (h : s.fails r = .ok u) : r = .ok () := by
  cases r with
  | ok u => rfl
  | error x => cases h

theorem rd_err {i : NodeId} {e : Err} (h : rd g i = .error e) : g i = .excl := by
  unfold rd at h; split at h
  · assumption
  · cases h

theorem wr_ok {held : List NodeId} {i : NodeId} {u : Unit} (h : wr g held i = .ok u) : g i = .free := by
  unfold wr at h; split at h
  · cases h
  · next h' => by_contra hg; exact h' (.inr hg)

theorem unlinkValueU_err {i : NodeId} {v : AttributeValue} {e : Err} {t : St} (h : s.unlinkValueU g i v = .error (e, t)) : t = s := by
  unfold St.unlinkValueU at h
  split at h
  · rw [bind_err] at h
    rcases h with h | ⟨_, _, h⟩
    · exact (fails_err h).2
    split at h
    · rw [bind_err] at h
      rcases h with h | ⟨_, _, h⟩
      · exact (fails_err h).2
      · cases h
    · cases h; rfl
  · cases h

/-- `remove_attribute` changes nothing before a panic, unless the caller has a shared borrow of the node. -/
theorem removeAttributeU_err {i : NodeId} {x : AName} {e : Err} {t : St} (h : s.removeAttributeU g i x = .error (e, t))
    (hi : g i ≠ .shared) : t = s := by
  unfold St.removeAttributeU at h
  rw [bind_err] at h
  rcases h with h | ⟨_, h1, h⟩
  · exact (fails_err h).2
  have hx : g i ≠ .excl := by
    intro hx
    have := fails_ok h1
    simp [rd, hx] at this
  have hf : g i = .free := by
    cases hg : g i
    · rfl
    · exact absurd hg hi
    · exact absurd hg hx
  split at h
  · cases h
  rw [bind_err] at h
  rcases h with h | ⟨_, _, h⟩
  · exact (fails_err h).2
  have hw : ∀ u : St, u.fails (wr g [] i) = .ok () := fun u => by rw [wr_nil hf]; rfl
  simp only [hw] at h
  split at h
  · rw [bind_err] at h
    rcases h with h | ⟨u, _, h⟩
    · exact unlinkValueU_err h
    · cases h
  · cases h

theorem setSimpleAttributeU_err {i : NodeId} {a : Attribute} {e : Err} {t : St} (h : s.setSimpleAttributeU g i a = .error (e, t))
    (hi : g i ≠ .shared) : t = s := by
  unfold St.setSimpleAttributeU at h
  rw [bind_err] at h
  rcases h with h | ⟨_, _, h⟩
  · exact (fails_err h).2
  rw [bind_err] at h
  rcases h with h | ⟨u, h1, h⟩
  · exact removeAttributeU_err h hi
  have hf : g i = .free := by
    cases hg : g i
    · rfl
    · exact absurd hg hi
    · unfold St.removeAttributeU at h1
      simp [rd, hg, St.fails, bind, Except.bind, Except.mapError] at h1
  rw [wr_nil hf] at h
  cases h

theorem setLinkAttributeU_err {i : NodeId} {x : AName} {n : NodeId} {fb : Option PaintFallback} {e : Err} {t : St}
    (h : s.setLinkAttributeU g i x n fb = .error (e, t)) (hi : g i ≠ .shared) (hn : g n ≠ .shared) : t = s := by
  unfold St.setLinkAttributeU at h
  rw [bind_err] at h
  rcases h with h | ⟨_, h1, h⟩
  · exact (fails_err h).2
  have hnf : g n = .free := by
    cases hg : g n
    · rfl
    · exact absurd hg hn
    · have := fails_ok h1
      simp [rd, hg] at this
  split at h
  · cases h
  rw [bind_err] at h
  rcases h with h | ⟨_, h1, h⟩
  · exact (fails_err h).2
  have hif : g i = .free := by
    cases hg : g i
    · rfl
    · exact absurd hg hi
    · have := fails_ok h1
      simp [rd, hg] at this
  rw [bind_err] at h
  rcases h with h | ⟨_, _, h⟩
  · exact (fails_err h).2
  split at h
  · cases h
  rw [bind_err] at h
  rcases h with h | ⟨_, _, h⟩
  · exact (fails_err h).2
  split at h
  · cases h
  rw [bind_err] at h
  rcases h with h | ⟨_, _, h⟩
  · exact removeAttributeU_err h hi
  rw [wr_nil hif] at h
  simp only [wr_nil hnf] at h
  cases h

theorem setAttributeCheckedU_err {i : NodeId} {a : Attribute} {e : Err} {t : St} (h : s.setAttributeCheckedU g i a = .error (e, t))
    (hi : g i ≠ .shared) (hn : ∀ n, a.value.linkNode = some n → g n ≠ .shared) : t = s := by
  unfold St.setAttributeCheckedU at h
  rw [bind_err] at h
  rcases h with h | ⟨_, _, h⟩
  · exact (fails_err h).2
  cases hv : a.value <;> rw [hv] at h hn <;> dsimp only at h <;>
    first
    | exact setLinkAttributeU_err h hi (hn _ rfl)
    | (rw [bind_err] at h
       rcases h with h | ⟨_, _, h⟩
       · exact setSimpleAttributeU_err h hi
       · cases h)

theorem setLinkAttributeU_rejects {i : NodeId} {x : AName} {n : NodeId} {fb : Option PaintFallback} {t : St} {o : DomError}
    (h : s.setLinkAttributeU g i x n fb = .ok (t, some o)) : t = s := by
  unfold St.setLinkAttributeU at h
  rw [bind_ok] at h
  obtain ⟨_, _, h⟩ := h
  split at h
  · cases h; rfl
  rw [bind_ok] at h
  obtain ⟨_, _, h⟩ := h
  rw [bind_ok] at h
  obtain ⟨_, _, h⟩ := h
  split at h
  · cases h; rfl
  rw [bind_ok] at h
  obtain ⟨_, _, h⟩ := h
  split at h
  · cases h; rfl
  rw [bind_ok] at h
  obtain ⟨_, _, h⟩ := h
  rw [bind_ok] at h
  obtain ⟨_, _, h⟩ := h
  rw [bind_ok] at h
  obtain ⟨_, _, h⟩ := h
  cases h

theorem setAttributeCheckedU_rejects {i : NodeId} {a : Attribute} {t : St} {o : DomError}
    (h : s.setAttributeCheckedU g i a = .ok (t, some o)) : t = s := by
  unfold St.setAttributeCheckedU at h
  rw [bind_ok] at h
  obtain ⟨_, _, h⟩ := h
  cases hv : a.value <;> rw [hv] at h <;> dsimp only at h <;>
    first
    | exact setLinkAttributeU_rejects h
    | (rw [bind_ok] at h
       obtain ⟨_, _, h⟩ := h
       cases h)

theorem setAttributeU_err {i : NodeId} {a : Attribute} {e : Err} {t : St} (h : s.setAttributeU g i a = .error (e, t))
    (hi : g i ≠ .shared) (hn : ∀ n, a.value.linkNode = some n → g n ≠ .shared) : t = s := by
  unfold St.setAttributeU at h
  rw [bind_err] at h
  rcases h with h | ⟨⟨u, o⟩, h1, h⟩
  · exact setAttributeCheckedU_err h hi hn
  · cases o with
    | none => cases h
    | some o => cases h; exact setAttributeCheckedU_rejects h1

theorem dataCall_err (c : DataCall) {e : Err} {t : St} (h : c.runU g s = .error (e, t))
    (hh : ∀ i ∈ c.op.handles, g i ≠ .shared) : t = s := by
  cases c with
  | setText i x =>
    simp only [DataCall.runU, St.setTextU] at h
    rw [bind_err] at h
    rcases h with h | ⟨_, _, h⟩
    · exact (fails_err h).2
    rw [bind_err] at h
    rcases h with h | ⟨_, _, h⟩
    · exact (fails_err h).2
    · cases h
  | setId i x =>
    simp only [DataCall.runU, St.setIdU] at h
    rw [bind_err] at h
    rcases h with h | ⟨_, _, h⟩
    · exact (fails_err h).2
    rw [bind_err] at h
    rcases h with h | ⟨_, _, h⟩
    · exact (fails_err h).2
    · cases h
  | setTagName i x =>
    simp only [DataCall.runU, St.setTagNameU] at h
    rw [bind_err] at h
    rcases h with h | ⟨_, _, h⟩
    · exact (fails_err h).2
    split at h
    · cases h; rfl
    rw [bind_err] at h
    rcases h with h | ⟨_, _, h⟩
    · exact (fails_err h).2
    · cases h
  | setAttribute i a => exact setAttributeU_err h (hh i (by simp [DataCall.op, Op.handles])) fun n hn => hh n (by simp [DataCall.op, Op.handles, hn])
  | setAttributeChecked i a =>
    simp only [DataCall.runU] at h
    cases h1 : s.setAttributeCheckedU g i a with
    | ok r => rw [h1] at h; cases h
    | error r =>
      rw [h1] at h
      cases h
      exact setAttributeCheckedU_err h1 (hh i (by simp [DataCall.op, Op.handles])) fun n hn => hh n (by simp [DataCall.op, Op.handles, hn])
  | setAttributeIfNone i a =>
    simp only [DataCall.runU, St.setAttributeIfNoneU] at h
    rw [bind_err] at h
    rcases h with h | ⟨_, _, h⟩
    · exact (fails_err h).2
    split at h
    · exact setAttributeU_err h (hh i (by simp [DataCall.op, Op.handles])) fun n hn => hh n (by simp [DataCall.op, Op.handles, hn])
    · cases h
  | removeAttribute i x => exact removeAttributeU_err h (hh i (by simp [DataCall.op, Op.handles]))

end

/-! ## The copies -/

theorem forget_mapError {α : Type} (r : Except Err α) (s : St) : forget (r.mapError (·, s)) = r := by cases r <;> rfl

theorem copyAttributesU_agrees (src elem : NodeId) : ∀ (l : List Attribute) (s : St),
    forget (s.copyAttributesU src elem l) = s.copyAttributesG (St.noGuards.share src) elem l
  | [], s => rfl
  | a :: as, s => by
    unfold St.copyAttributesU St.copyAttributesG
    simp only [forget_bind, setAttributeU_agrees, copyAttributesU_agrees src elem as]

theorem copyNodeU_agrees {s : St} {i : NodeId} (hi : i < s.nextId) : forget (s.copyNodeU i) = s.copyNode i := by
  unfold St.copyNodeU St.copyNode
  cases s.nodeType i with
  | element =>
    simp only [forget_bind, forget_mapError]
    cases e : s.createElement (s.tagName i) with
    | error x => rfl
    | ok r =>
      obtain ⟨h1, h2⟩ := createElement_new e
      obtain ⟨t, elem⟩ := r
      dsimp only at h1 h2
      subst h1
      simp only [bind_ok_left, forget_pure, copyAttributesU_agrees]
      rw [copyAttributesG_none (g := St.noGuards) (fun _ => rfl) (Nat.ne_of_gt hi) _ _ (by rw [h2]; simp)]
  | _ => exact forget_mapError _ _

theorem ok_of_forget {α : Type} {r : Except (Err × St) α} {a : α} (h : forget r = .ok a) : r = .ok a := by
  cases r with
  | ok b => cases h; rfl
  | error e => cases h

theorem err_of_forget {α : Type} {r : Except (Err × St) α} {e : Err} (h : forget r = .error e) : ∃ t, r = .error (e, t) := by
  cases r with
  | ok b => cases h
  | error e' => obtain ⟨a, t⟩ := e'; cases h; exact ⟨t, rfl⟩

theorem withAttrs_append (s : St) (n : NodeId) (l m : List Attribute) :
    (s.withAttrs n l).withAttrs n m = s.withAttrs n (l ++ m) := by
  unfold St.withAttrs
  congr 1
  funext j
  have : refs (l ++ m) j = refs l j + refs m j := by simp [refs, List.countP_append]
  rw [this]
  by_cases hj : j = n
  · simp only [hj, if_true, List.replicate_add, List.append_assoc]
  · simp only [hj, if_false, List.replicate_add, List.append_assoc]

/-- Where copying the attributes stops. -/
theorem copyAttributesU_err {src n : NodeId} (hne : n ≠ src) : ∀ {l : List Attribute} {s t : St} {e : Err}, Reachable s → s.live n = true →
    s.isElement n = true → s.idOf n = [] → s.linkedNodes n = [] →
    NamesNodup (s.attributes n ++ l) → (∀ b ∈ s.attributes n, b.value.linkNode ≠ some src) → (∀ a ∈ l, CanCopy s src n a) →
    s.copyAttributesU src n l = .error (e, t) →
    ∃ l1 a l2, l = l1 ++ a :: l2 ∧ (∃ m, a.value.linkNode = some m ∧ s.idOf m = []) ∧
      (∀ b ∈ l1, ∀ m, b.value.linkNode = some m → s.idOf m ≠ []) ∧ t = s.withAttrs n l1 ∧ Reachable t ∧ e = .panic .unwrap
  | [], s, t, e, h, hn, hel, hid, hlk, hnd, hns, hc, he => by cases he
  | a :: l, s, t, e, h, hn, hel, hid, hlk, hnd, hns, hc, he => by
    have hca := hc a (by simp)
    have hnd1 : NamesNodup (s.attributes n ++ [a]) := by
      refine List.Nodup.sublist ?_ hnd
      simp
    have hspec := copyAttributes_spec (src := src) (l := [a]) h.inv hn hel hid hlk hnd1 (fun b hb => by
      rw [List.mem_singleton] at hb; rw [hb]; exact hca)
    have hgs : (St.noGuards.share src) n ≠ .shared := by simp [Guards.share, St.noGuards, hne]
    have hgl : ∀ m, a.value.linkNode = some m → (St.noGuards.share src) m ≠ .shared := by
      intro m hm; simp [Guards.share, St.noGuards, (hca.2 m hm).2.2]
    have hset : forget (s.setAttributeU (St.noGuards.share src) n a) = s.copyAttributes src n [a] := by
      rw [setAttributeU_agrees, ← copyAttributesG_none (g := St.noGuards) (fun _ => rfl) hne [a] s hns]
      unfold St.copyAttributesG St.copyAttributesG
      cases s.setAttributeG (St.noGuards.share src) n a <;> rfl
    unfold St.copyAttributesU at he
    by_cases hgood : ∀ m, a.value.linkNode = some m → s.idOf m ≠ []
    · rw [if_pos (by simpa using hgood)] at hspec
      have hok := ok_of_forget (hset.trans hspec)
      rw [hok] at he
      replace he : (s.withAttrs n [a]).copyAttributesU src n l = .error (e, t) := he
      have hrun : (Op.setAttribute n a).run s = .ok (s.withAttrs n [a]) := by
        unfold St.copyAttributes at hspec
        rw [bind_ok] at hspec
        obtain ⟨u, hu, hspec⟩ := hspec
        have : u = s.withAttrs n [a] := by
          split at hspec
          · rw [bind_ok] at hspec
            obtain ⟨_, _, hspec⟩ := hspec
            cases hspec; rfl
          · cases hspec; rfl
        rw [← this]; exact hu
      have hr1 : Reachable (s.withAttrs n [a]) := .call (.setAttribute n a) h (by
        intro j hj
        simp only [Op.handles, List.mem_cons, Option.mem_toList] at hj
        rcases hj with rfl | hj
        · exact hn
        · exact (hca.2 j hj).1) hrun
      have hself : refs [a] n = 0 := by
        rw [refs, List.countP_eq_zero]
        intro b hb
        rw [List.mem_singleton] at hb; subst hb
        simp only [decide_eq_true_eq]
        intro hh; exact (hca.2 n hh).2.1 rfl
      obtain ⟨l1, b, l2, h1, h2, h3, h4, h5, h6⟩ := copyAttributesU_err hne hr1 hn hel hid
        (by
          have : (s.data n).linkedNodes = [] := hlk
          simp [St.linkedNodes, St.withAttrs, this, hself])
        (by simpa [St.attributes, St.withAttrs] using hnd)
        (by
          intro b hb
          simp only [St.attributes, St.withAttrs, if_true, List.mem_append, List.mem_singleton] at hb
          rcases hb with hb | rfl
          · exact hns b hb
          · intro hh; exact (hca.2 src hh).2.2 rfl)
        (fun b hb => hc b (by simp [hb])) he
      refine ⟨a :: l1, b, l2, by rw [h1]; rfl, h2, ?_, ?_, h5, h6⟩
      · intro c hc
        rcases List.mem_cons.1 hc with rfl | hc
        · exact hgood
        · exact h3 c hc
      · rw [h4, withAttrs_append]; rfl
    · rw [if_neg (by simpa using hgood)] at hspec
      obtain ⟨u, hu⟩ := err_of_forget (hset.trans hspec)
      rw [hu] at he
      cases he
      have hts := setAttributeU_err hu hgs hgl
      subst hts
      simp only [not_forall, not_not] at hgood
      obtain ⟨m, hm, hmi⟩ := hgood
      exact ⟨[], a, l, rfl, ⟨m, hm, hmi⟩, by simp, (withAttrs_nil _ _).symm, h, rfl⟩

theorem Grown.withAttrs {s u : St} {n : NodeId} (hgr : Grown s u [n]) (hd : s.live n = false) (ha : u.attributes n = [])
    (hl : ∀ j, s.live j = true → u.linkedNodes j = s.linkedNodes j) (l : List Attribute) : Grown s (u.withAttrs n l) [n] := by
  have hdn : ∀ j, ((u.withAttrs n l).data j) = { u.data j with
    attributes := if j = n then (u.data j).attributes ++ l else (u.data j).attributes
    linkedNodes := (u.data j).linkedNodes ++ List.replicate (refs l j) n } := fun _ => rfl
  have hnat : (u.withAttrs n l).attributes n = l := by
    have ha : (u.data n).attributes = [] := ha
    simp [St.attributes, hdn, ha]
  have hlne : ∀ j, s.live j = true → j ≠ n := by
    rintro j hj rfl; rw [hd] at hj; simp at hj
  constructor
  · exact hgr.live
  · exact hgr.order
  · exact hgr.next
  · exact hgr.rootId
  · exact hgr.debug
  · exact hgr.ids
  · exact hgr.tags
  · exact hgr.texts
  · exact hgr.types
  · intro j hj
    simp only [St.attributes, hdn, hlne j hj, if_false]
    exact hgr.attrs j hj
  · exact hgr.detached
  · exact hgr.newDetached
  · exact hgr.stored
  · intro j hj
    simp only [List.flatMap_cons, List.flatMap_nil, List.append_nil, hnat, refCount_eq]
    have := hl j hj
    simp only [St.linkedNodes, hdn] at this ⊢
    rw [this]

/-- What a panic of `copy_node` leaves behind. -/
theorem copyNodeU_err {s t : St} (h : Reachable s) {i : NodeId} (hi : s.live i = true) {e : Err} (he : s.copyNodeU i = .error (e, t)) :
    (s.nodeType i = .root ∧ t = s ∧ e = .panic .assertFailed) ∨
    (s.nodeType i = .element ∧ e = .panic .unwrap ∧ Reachable t ∧ Grown s t [s.nextId] ∧ t.nodeType s.nextId = .element ∧
      t.tagName s.nextId = s.tagName i ∧ t.idOf s.nextId = [] ∧
      (∃ a l, s.attributes i = t.attributes s.nextId ++ a :: l ∧ (∃ m, a.value.linkNode = some m ∧ s.idOf m = []) ∧
        ∀ b ∈ t.attributes s.nextId, ∀ m, b.value.linkNode = some m → s.idOf m ≠ []) ∧
      ∀ F, Describes s F → Describes t (F.add s.nextId)) := by
  have ok := h.nodesOk
  have hne : i ≠ s.nextId := by
    rintro rfl; rw [h.inv.nextId_dead] at hi; simp at hi
  have other : ∀ ty, ty ≠ .element → ty ≠ .root → s.nodeType i = ty → False := by
    intro ty h1 h2 hty
    obtain ⟨u, key, e1, _⟩ := newNode_grown h.inv (.fresh ty (.name []) (s.text i)) rfl rfl
    have hcopy : s.copyNode i = .ok (u, s.nextId) := by
      unfold St.copyNode
      split
      · next hh => rw [hty] at hh; exact absurd hh h1
      · rw [hty]
        simp [St.createNode, assertOrPanic, bind, Except.bind, h1, h2, e1]
    rw [← copyNodeU_agrees (h.inv.liveBelow i hi)] at hcopy
    rw [ok_of_forget hcopy] at he
    cases he
  cases hty : s.nodeType i with
  | root =>
    refine .inl ⟨rfl, ?_⟩
    simp [St.copyNodeU, hty, St.createNode, assertOrPanic, bind, Except.bind, Except.mapError] at he
    exact ⟨he.2.symm, he.1.symm⟩
  | comment => exact (other .comment (by simp) (by simp) hty).elim
  | text => exact (other .text (by simp) (by simp) hty).elim
  | element =>
    refine .inr ⟨rfl, ?_⟩
    have htag : s.tagName i ≠ .name [] := ok.tag i hi hty
    obtain ⟨u, key, e1, hu, hgr, hd1, hd2, hF⟩ := newNode_grown h.inv (.fresh .element (s.tagName i) []) rfl rfl
    have hcr : s.createElement (s.tagName i) = .ok (u, s.nextId) := by simp [St.createElement, htag, e1]
    have hru : Reachable u := .call (.createElement (s.tagName i)) h (by simp [Op.handles]) (by simp [Op.run, hcr, Except.map])
    have hat : u.attributes i = s.attributes i := hgr.attrs i hi
    have hau : u.attributes s.nextId = [] := by simp [St.attributes, hd1, NodeData.fresh]
    simp only [St.copyNodeU, hty, hcr, hat] at he
    have he : u.copyAttributesU i s.nextId (s.attributes i) = .error (e, t) := by
      change (u.copyAttributesU i s.nextId (u.attributes i) >>= fun s_1 => pure (s_1, s.nextId)) = _ at he
      rw [hat, bind_err] at he
      rcases he with he | ⟨_, _, he⟩
      · exact he
      · cases he
    obtain ⟨l1, a, l2, h1, ⟨m, hm, hmi⟩, h3, h4, h5, h6⟩ := copyAttributesU_err (Ne.symm hne) hru
      ((hgr.live _).2 (.inr (by simp))) (by simp [St.isElement, St.nodeType, hd1, NodeData.fresh])
      (by simp [St.idOf, hd1, NodeData.fresh]) (by simp [St.linkedNodes, hd1, NodeData.fresh])
      (by rw [hau, List.nil_append]; exact h.inv.link.names i hi) (by rw [hau]; simp)
      (by
        intro a ha
        refine ⟨ok.stored i hi a ha, fun m hm => ?_⟩
        have hml := h.inv.link.targets i hi a ha m hm
        refine ⟨(hgr.live _).2 (.inl hml), ?_, ?_⟩
        · rintro rfl; rw [h.inv.nextId_dead] at hml; simp at hml
        · rintro rfl
          have := h.inv.link.noSelf m hi
          have := refs_pos.2 ⟨a, ha, hm⟩
          omega) he
    have hdn : ∀ l j, ((u.withAttrs s.nextId l).data j) = { u.data j with
      attributes := if j = s.nextId then (u.data j).attributes ++ l else (u.data j).attributes
      linkedNodes := (u.data j).linkedNodes ++ List.replicate (refs l j) s.nextId } := fun _ _ => rfl
    have hlne : ∀ j, s.live j = true → j ≠ s.nextId := by
      rintro j hj rfl; rw [h.inv.nextId_dead] at hj; simp at hj
    have hta : t.attributes s.nextId = l1 := by
      rw [h4]; simp [St.attributes, hdn, hd1, NodeData.fresh]
    have hids : ∀ a ∈ s.attributes i, ∀ m, a.value.linkNode = some m → u.idOf m = s.idOf m := fun a ha m hm =>
      hgr.ids m (h.inv.link.targets i hi a ha m hm)
    refine ⟨h6, h5, ?_, ?_, ?_, ?_, ⟨a, l2, by rw [hta]; exact h1, ⟨m, hm, ?_⟩, ?_⟩, ?_⟩
    · rw [h4]
      exact hgr.withAttrs h.inv.nextId_dead hau (fun j hj => by simp only [St.linkedNodes, hd2 j (hlne j hj)]) l1
    · rw [h4]; simp [St.nodeType, hdn, hd1, NodeData.fresh]
    · rw [h4]; simp [St.tagName, hdn, hd1, NodeData.fresh]
    · rw [h4]; simp [St.idOf, hdn, hd1, NodeData.fresh]
    · rw [← hids a (by rw [h1]; simp) m hm]; exact hmi
    · intro b hb m hm
      rw [hta] at hb
      rw [← hids b (by rw [h1]; simp [hb]) m hm]; exact h3 b hb m hm
    · intro F hF'
      rw [h4]
      exact (hF F hF').frame rfl rfl

/-- The state in which a run stops, normally or not. -/
def endOf {α : Type} (f : α → St) : Except (Err × St) α → St
  | .ok a => f a
  | .error (_, t) => t

/-- Between `s` and `t`, new nodes were made, and only the children of `par` have changed. -/
def Extends (s t : St) (F : Forest) (par : NodeId) : Prop :=
  Reachable t ∧ (∃ l, Grown s t l) ∧ ∃ G, Describes t G ∧ (∃ l, G.kids par = F.kids par ++ l ∧ ∀ x ∈ l, s.live x = false) ∧
    ∀ j, s.live j = true → (j ≠ par → G.kids j = F.kids j) ∧ G.par j = F.par j ∧ (j ∉ F.kids par → G.sibs j = F.sibs j)

theorem deepCopyAuxU_ends (k : Nat) : ∀ (s : St) (F : Forest) (par : NodeId) (it : Children), Reachable s → Describes s F →
    s.live par = true → par ∉ F.kids par → it.Live s → Extends s (endOf id (St.deepCopyAuxU k s par it)) F par := by
  have refl : ∀ (s : St) (F : Forest) (par : NodeId), Reachable s → Describes s F → Extends s s F par := fun s F par h hF =>
    ⟨h, ⟨[], Grown.nil s⟩, F, hF, ⟨[], by simp, by simp⟩, fun j _ => ⟨fun _ => rfl, rfl, fun _ => rfl⟩⟩
  induction k with
  | zero => intro s F par it h hF hp hpp hl; exact refl s F par h hF
  | succ k ih =>
    intro s F par it h hF hp hpp hl
    unfold St.deepCopyAuxU
    cases hn : s.childrenNext it with
    | mk o it' =>
    cases o with
    | none => exact refl s F par h hF
    | some c =>
      obtain ⟨hc, hl'⟩ := h.inv.childrenNext_live hl hn
      dsimp only
      have hnd : s.live s.nextId = false := h.inv.nextId_dead
      have hln : ∀ j, s.live j = true → j ≠ s.nextId := by
        rintro j hj rfl; rw [hnd] at hj; simp at hj
      have ak : ∀ j, j ≠ s.nextId → (F.add s.nextId).kids j = F.kids j := fun j hj => by simp [Forest.add, hj]
      have as : ∀ j, j ≠ s.nextId → (F.add s.nextId).sibs j = F.sibs j := fun j hj => by simp [Forest.add, hj]
      have ap : ∀ j, j ≠ s.nextId → (F.add s.nextId).par j = F.par j := fun j hj => by simp [Forest.add, hj]
      have hparn := hln par hp
      cases e1 : s.copyNodeU c with
      | error r =>
        obtain ⟨e, t⟩ := r
        change Extends s t F par
        rcases copyNodeU_err h hc e1 with ⟨_, rfl, _⟩ | ⟨_, _, h1, h2, _, _, _, _, h3⟩
        · exact refl t F par h hF
        · refine ⟨h1, ⟨_, h2⟩, _, h3 F hF, ⟨[], ?_, by simp⟩, fun j hj => ?_⟩
          · rw [ak par hparn]; simp
          · rw [ak j (hln j hj), as j (hln j hj), ap j (hln j hj)]
            exact ⟨fun _ => rfl, rfl, fun _ => rfl⟩
      | ok r =>
        obtain ⟨s1, n⟩ := r
        have e1' : s.copyNode c = .ok (s1, n) := by
          rw [← copyNodeU_agrees (h.inv.liveBelow c hc), e1]; rfl
        have hr1 : Reachable s1 := .call (.copyNode c) h (by simp [Op.handles, hc]) (by simp [Op.run, e1', Except.map])
        obtain ⟨s1', n', e1'', h1, ok1, g1, cp1, hF1⟩ : ∃ t n, s.copyNode c = .ok (t, n) ∧ Inv t ∧ NodesOk t ∧ Grown s t [n] ∧
            n = s.nextId ∧ ∀ F, Describes s F → Describes t (F.add n) := by
          by_cases hcc : Copyable s c
          · obtain ⟨t, a1, a2, a3, a4, a5, a6⟩ := (copyNode_spec h.inv h.nodesOk hc).1 hcc
            exact ⟨t, _, a1, a2, a3, a4, rfl, a6⟩
          · obtain ⟨p, hp⟩ := (copyNode_spec h.inv h.nodesOk hc).2 hcc
            rw [e1'] at hp; cases hp
        rw [e1'] at e1''
        cases e1''
        subst cp1
        have hF1 := hF1 F hF
        have hl1 : ∀ j, s.live j = true → s1.live j = true := fun j hj => (g1.live j).2 (.inl hj)
        have hn1 : s1.live s.nextId = true := (g1.live _).2 (.inr (by simp))
        obtain ⟨s2, e2, h2, f2, hF2, bk, bp, bs⟩ := append_isolated h1 hF1 (hl1 par hp) hn1 hparn (by simp [Forest.add])
          (by simp [Forest.add]) (by rw [ak par hparn]; exact hpp)
        have hr2 : Reachable s2 := .call (.append par s.nextId) hr1
          (by simp [Op.handles, hl1 par hp, hn1]) (by simp [Op.run, e2])
        have g2 : Grown s s2 [s.nextId] := g1.frame f2
        have hl2 : ∀ j, s.live j = true → s2.live j = true := fun j hj => (g2.live j).2 (.inl hj)
        have hn2 : s2.live s.nextId = true := (g2.live _).2 (.inr (by simp))
        obtain ⟨F2, hF2e⟩ : ∃ F2, F2 = (F.add s.nextId).append par s.nextId := ⟨_, rfl⟩
        rw [← hF2e] at hF2 bk bp bs
        have ck : ∀ j, s.live j = true → j ≠ par → F2.kids j = F.kids j := by
          intro j hj hjp; rw [bk j (hl1 j hj), if_neg hjp, ak j (hln j hj)]
        have ckp : F2.kids par = F.kids par ++ [s.nextId] := by
          rw [bk par (hl1 par hp), if_pos rfl, ak par hparn]
        have ckn : F2.kids s.nextId = [] := by
          rw [bk _ hn1, if_neg (Ne.symm hparn)]; simp [Forest.add]
        have cp : ∀ j, s.live j = true → F2.par j = F.par j := by
          intro j hj; rw [bp, if_neg (hln j hj), ap j (hln j hj)]
        have cs : ∀ j, s.live j = true → j ∉ F.kids par → F2.sibs j = F.sibs j := by
          intro j hj hjk
          rw [bs j (hl1 j hj) (hln j hj) (by rw [ak par hparn]; exact hjk), as j (hln j hj)]
        have e2' : s1.appendU par s.nextId = .ok s2 := ok_of_forget ((appendU_agrees _ _ _).trans e2)
        change Extends s (endOf id (s1.appendU par s.nextId >>= fun s_1 =>
          if s_1.hasChildren c then St.deepCopyAuxU k s_1 s.nextId (s_1.children c) >>= fun s_2 => St.deepCopyAuxU k s_2 par it'
          else pure s_1 >>= fun s_2 => St.deepCopyAuxU k s_2 par it')) F par
        rw [e2']
        change Extends s (endOf id (
          if s2.hasChildren c then St.deepCopyAuxU k s2 s.nextId (s2.children c) >>= fun s_2 => St.deepCopyAuxU k s_2 par it'
          else pure s2 >>= fun s_2 => St.deepCopyAuxU k s_2 par it')) F par
        have hif : (if s2.hasChildren c then St.deepCopyAuxU k s2 s.nextId (s2.children c) >>= fun s_2 => St.deepCopyAuxU k s_2 par it'
            else pure s2 >>= fun s_2 => St.deepCopyAuxU k s_2 par it') =
            (if s2.hasChildren c then St.deepCopyAuxU k s2 s.nextId (s2.children c) else pure s2) >>= fun s_2 =>
              St.deepCopyAuxU k s_2 par it' := by split <;> rfl
        rw [hif]
        obtain ⟨r3, hr3⟩ : ∃ r, r = (if s2.hasChildren c then St.deepCopyAuxU k s2 s.nextId (s2.children c) else pure s2) := ⟨_, rfl⟩
        rw [← hr3]
        have hx : Extends s2 (endOf id r3) F2 s.nextId := by
          rw [hr3]
          split
          · exact ih s2 F2 s.nextId _ hr2 hF2 hn2 (by rw [ckn]; simp) (h2.children_live (hl2 c hc))
          · exact refl s2 F2 s.nextId hr2 hF2
        obtain ⟨q1, ⟨l3, q2⟩, G3, q3, ⟨l4, q4, q5⟩, q6⟩ := hx
        -- from the state after the children of `c` to the end
        have fin : ∀ s3, endOf id r3 = s3 → ∀ t, Extends s3 t G3 par → Extends s t F par := by
          rintro s3 rfl t ⟨p1, ⟨l5, p2⟩, G, p3, ⟨l6, p4, p5⟩, p6⟩
          have g03 := g2.trans q2
          have hl3 : ∀ j, s.live j = true → (endOf id r3).live j = true := fun j hj => (g03.live j).2 (.inl hj)
          have kpar : G3.kids par = F.kids par ++ [s.nextId] := by
            rw [(q6 par (hl2 par hp)).1 hparn, ckp]
          refine ⟨p1, ⟨_, g03.trans p2⟩, G, p3, ⟨s.nextId :: l6, ?_, ?_⟩, ?_⟩
          · rw [p4, kpar]; simp
          · intro x hx
            rcases List.mem_cons.1 hx with rfl | hx
            · exact hnd
            · cases hh : s.live x with
              | false => rfl
              | true => rw [← p5 x hx, hl3 x hh]
          · intro j hj
            obtain ⟨z1, z2, z3⟩ := p6 j (hl3 j hj)
            obtain ⟨y1, y2, y3⟩ := q6 j (hl2 j hj)
            refine ⟨fun hjp => ?_, ?_, fun hjk => ?_⟩
            · rw [z1 hjp, y1 (hln j hj), ck j hj hjp]
            · rw [z2, y2, cp j hj]
            · rw [z3 (by rw [kpar, List.mem_append, List.mem_singleton, not_or]; exact ⟨hjk, hln j hj⟩),
                y3 (by rw [ckn]; simp), cs j hj hjk]
        cases hrr : r3 with
        | error w =>
          obtain ⟨e, t⟩ := w
          rw [hrr] at fin q1 q3
          exact fin t rfl t (refl t G3 par q1 q3)
        | ok s3 =>
          rw [hrr] at fin q1 q3 q2
          refine fin s3 rfl _ ?_
          refine ih s3 G3 par it' q1 q3 ((q2.live par).2 (.inl (hl2 par hp))) ?_ ?_
          · rw [(q6 par (hl2 par hp)).1 hparn, ckp, List.mem_append, List.mem_singleton, not_or]
            exact ⟨hpp, hparn⟩
          · exact fun x hx => (q2.live x).2 (.inl (hl2 x (hl' x hx)))

/-- What a panic of `copy_node_deep` leaves behind. -/
theorem copyNodeDeepU_err {s t : St} (h : Reachable s) {i : NodeId} (hi : s.live i = true) {e : Err}
    (he : s.copyNodeDeepU i = .error (e, t)) : Reachable t ∧ (∃ l, Grown s t l) ∧ KeepsTree s t := by
  have hnd : s.live s.nextId = false := h.inv.nextId_dead
  have hln : ∀ j, s.live j = true → j ≠ s.nextId := by
    rintro j hj rfl; rw [hnd] at hj; simp at hj
  have ak : ∀ (F : Forest) j, j ≠ s.nextId → (F.add s.nextId).kids j = F.kids j := fun F j hj => by simp [Forest.add, hj]
  have as : ∀ (F : Forest) j, j ≠ s.nextId → (F.add s.nextId).sibs j = F.sibs j := fun F j hj => by simp [Forest.add, hj]
  have ap : ∀ (F : Forest) j, j ≠ s.nextId → (F.add s.nextId).par j = F.par j := fun F j hj => by simp [Forest.add, hj]
  unfold St.copyNodeDeepU at he
  rw [bind_err] at he
  rcases he with he | ⟨⟨s1, n⟩, e1, he⟩
  · rcases copyNodeU_err h hi he with ⟨_, rfl, _⟩ | ⟨_, _, h1, h2, _, _, _, _, h3⟩
    · exact ⟨h, ⟨[], Grown.nil _⟩, fun F hF => ⟨F, hF, fun _ _ => ⟨rfl, rfl, rfl⟩⟩⟩
    · exact ⟨h1, ⟨_, h2⟩, fun F hF => ⟨_, h3 F hF, fun j hj => ⟨ak F j (hln j hj), ap F j (hln j hj), as F j (hln j hj)⟩⟩⟩
  · have e1' : s.copyNode i = .ok (s1, n) := by
      rw [← copyNodeU_agrees (h.inv.liveBelow i hi), e1]; rfl
    have hr1 : Reachable s1 := .call (.copyNode i) h (by simp [Op.handles, hi]) (by simp [Op.run, e1', Except.map])
    have hcc : Copyable s i := by
      by_contra hcc
      obtain ⟨p, hp⟩ := (copyNode_spec h.inv h.nodesOk hi).2 hcc
      rw [e1'] at hp; cases hp
    obtain ⟨u, a1, a2, a3, a4, a5, a6⟩ := (copyNode_spec h.inv h.nodesOk hi).1 hcc
    rw [e1'] at a1
    cases a1
    dsimp only at he
    rw [bind_err] at he
    rcases he with he | ⟨_, _, he⟩
    swap
    · cases he
    have main : ∀ F, Describes s F → Extends s1 t (F.add s.nextId) s.nextId := by
      intro F hF
      have := deepCopyAuxU_ends s1.fuel s1 (F.add s.nextId) s.nextId (s1.children i) hr1 (a6 F hF) ((a4.live _).2 (.inr (by simp)))
        (by simp [Forest.add]) (a2.children_live ((a4.live _).2 (.inl hi)))
      rw [he] at this
      exact this
    obtain ⟨F0, hT0⟩ := h.inv.tree
    have hF0 := hT0.reps.describes
    obtain ⟨m1, ⟨l, m2⟩, _⟩ := main F0 hF0
    refine ⟨m1, ⟨_, a4.trans m2⟩, fun F hF => ?_⟩
    obtain ⟨_, _, G, m3, _, m4⟩ := main F hF
    refine ⟨G, m3, fun j hj => ?_⟩
    obtain ⟨z1, z2, z3⟩ := m4 j ((a4.live j).2 (.inl hj))
    refine ⟨?_, ?_, ?_⟩
    · rw [z1 (hln j hj), ak F j (hln j hj)]
    · rw [z2, ap F j (hln j hj)]
    · rw [z3 (by simp [Forest.add]), as F j (hln j hj)]

theorem deepCopyAuxU_agrees (k : Nat) : ∀ (s : St) (par : NodeId) (it : Children), Inv s → s.live par = true → it.Live s →
    forget (St.deepCopyAuxU k s par it) = St.deepCopyAux k s par it := by
  induction k with
  | zero => intro s par it _ _ _; rfl
  | succ k ih =>
    intro s par it h hp hl
    unfold St.deepCopyAuxU St.deepCopyAux
    cases hn : s.childrenNext it with
    | mk o it' =>
    cases o with
    | none => rfl
    | some c =>
      obtain ⟨hc, hl'⟩ := h.childrenNext_live hl hn
      simp only [forget_bind, copyNodeU_agrees (h.liveBelow c hc)]
      cases e1 : s.copyNode c with
      | error e => rfl
      | ok r =>
        obtain ⟨s1, n⟩ := r
        obtain ⟨t1, hnl, hnf, hnr⟩ := copyNode_inner h hc e1
        simp only [bind_ok_left, appendU_agrees]
        cases e2 : s1.append par n with
        | error e => rfl
        | ok s2 =>
          have st2 : Inner s1 s2 := .leaf par n (t1.live h hp) hnl hnf hnr e2
          have t2 : Inners s s2 := t1.tail st2
          have h2 := t2.inv h
          have hlast : ∀ s3, Inners s2 s3 → forget (St.deepCopyAuxU k s3 par it') = St.deepCopyAux k s3 par it' := fun s3 t3 => by
            have t13 : Inners s s3 := t2.trans t3
            exact ih _ _ _ (t13.inv h) (t13.live h hp) (hl'.mono h t13)
          simp only [bind_ok_left, forget_ite, forget_bind]
          have hl2 := h2.children_live (t2.live h hc)
          have hnl2 := st2.live (t1.inv h) hnl
          split
          · rw [ih _ _ _ h2 hnl2 hl2]
            cases e3 : St.deepCopyAux k s2 n (s2.children c) with
            | error e => rfl
            | ok s3 => exact hlast s3 (deepCopy_inner k _ _ _ _ h2 hnl2 hl2 e3)
          · exact hlast s2 .refl

theorem copyNodeDeepU_agrees {s : St} (h : Inv s) {i : NodeId} (hi : s.live i = true) : forget (s.copyNodeDeepU i) = s.copyNodeDeep i := by
  unfold St.copyNodeDeepU St.copyNodeDeep
  simp only [forget_bind, copyNodeU_agrees (h.liveBelow i hi)]
  cases e1 : s.copyNode i with
  | error e => rfl
  | ok r =>
    obtain ⟨s1, n⟩ := r
    obtain ⟨t1, hnl, hnf, hnr⟩ := copyNode_inner h hi e1
    simp only [bind_ok_left, forget_pure]
    rw [deepCopyAuxU_agrees _ _ _ _ (t1.inv h) hnl ((t1.inv h).children_live (t1.live h hi))]

/-- `remove_attribute` with a shared borrow of the node. -/
theorem removeAttributeU_shared {g : Guards} {s : St} {i : NodeId} {x : AName} {e : Err} {t : St}
    (h : s.removeAttributeU g i x = .error (e, t)) :
    t = s ∨ (g i = .shared ∧ ∃ n k, s.oldTarget i x = some n ∧ g n = .free ∧
      (s.linkedNodes n).findIdx? (fun m => decide (m = i)) = some k ∧
      t = s.setD n fun d => { d with linkedNodes := d.linkedNodes.eraseIdx k }) := by
  by_cases hi : g i = .shared
  swap
  · exact .inl (removeAttributeU_err h hi)
  unfold St.removeAttributeU at h
  rw [bind_err] at h
  rcases h with h | ⟨_, _, h⟩
  · exact .inl (fails_err h).2
  split at h
  · cases h
  rw [bind_err] at h
  rcases h with h | ⟨_, _, h⟩
  · exact .inl (fails_err h).2
  split at h
  · next v hv =>
    rw [bind_err] at h
    rcases h with h | ⟨u, hu, h⟩
    · exact .inl (unlinkValueU_err h)
    rw [bind_err] at h
    rcases h with h | ⟨_, _, h⟩
    swap
    · cases h
    obtain ⟨_, rfl⟩ := fails_err h
    unfold St.unlinkValueU at hu
    split at hu
    · next n hn =>
      rw [bind_ok] at hu
      obtain ⟨_, _, hu⟩ := hu
      split at hu
      · next k hk =>
        rw [bind_ok] at hu
        obtain ⟨_, hw, hu⟩ := hu
        cases hu
        exact .inr ⟨hi, n, k, by simp [St.oldTarget, hv, hn], wr_ok (fails_ok hw), hk, rfl⟩
      · cases hu
    · cases hu; exact .inl rfl
  · rw [bind_err] at h
    rcases h with h | ⟨u, hu, h⟩
    · cases h
    cases hu
    rw [bind_err] at h
    rcases h with h | ⟨_, _, h⟩
    · exact .inl (fails_err h).2
    · cases h

end Svgdom
