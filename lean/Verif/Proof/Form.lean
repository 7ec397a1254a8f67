import Verif.Proof.Debug
import Verif.Proof.Links
import Verif.Spec.Form

/-!
# All references in a document have the form of their name
-/

set_option autoImplicit false

namespace Svgdom

theorem form_retag (name : AName) (v : AttributeValue) : FormOf name (retag name v) := by
  by_cases h1 : name = .id .Href
  · subst h1; cases v <;> simp [retag, FormOf]
  · by_cases h2 : name = .id .Fill
    · subst h2; cases v <;> simp [retag, FormOf]
    · by_cases h3 : name = .id .Stroke
      · subst h3; cases v <;> simp [retag, FormOf]
      · cases v <;> simp [retag, FormOf, h1, h2, h3]

theorem retag_of_form {name : AName} {v : AttributeValue} (h : FormOf name v) : retag name v = v := by
  cases v <;> simp only [retag, FormOf] at h ⊢
  all_goals (try (subst h; rfl))
  all_goals (try (rcases h with rfl | rfl <;> rfl))
  all_goals (split <;> simp_all)

theorem form_iff (name : AName) (v : AttributeValue) : FormOf name v ↔ retag name v = v :=
  ⟨retag_of_form, fun e => e ▸ form_retag name v⟩

theorem form_plain {name : AName} {v : AttributeValue} (h : v.linkNode = none) : FormOf name v := by
  cases v <;> simp_all [AttributeValue.linkNode, FormOf]

/-- All references have the form of their name. -/
def Formed (s : St) : Prop := ∀ i, s.live i = true → ∀ a ∈ s.attributes i, FormOf a.name a.value

theorem Formed.frame {s t : St} (h : Formed s) (hd : ∀ i, t.attributes i = s.attributes i) (hl : t.live = s.live) : Formed t := by
  intro i hi a ha
  rw [hd] at ha
  exact h i (hl ▸ hi) a ha

theorem Inner.formed {s t : St} (hi : Inv s) (h : Formed s) (st : Inner s t) : Formed t := by
  cases st with
  | new d ha hn hok e =>
    obtain ⟨_, rfl, hnx, hlv⟩ := hi.newNode ha hn e
    obtain ⟨sl, key, _, e3⟩ := newNode_ok hi d
    rw [e3] at e
    cases e
    intro i hl a hm
    rw [hlv] at hl
    simp only [St.attributes, St.alloc, upd] at hm
    split at hm
    · simp [ha] at hm
    · next hx => rw [if_neg hx] at hl; exact h i hl a hm
  | leaf p c hp hc _ _ e =>
    have := (hi.append hp hc e).2
    exact h.frame (fun i => by simp only [St.attributes, this.data]) this.live
  | detach i _ => exact h.frame (fun _ => rfl) rfl
  | data i f hl ha hn hk ht htag _ =>
    refine h.frame (fun j => ?_) rfl
    simp only [St.attributes, St.setD_data]
    split
    · next e => subst e; exact ha _
    · rfl
  | set i a hl ht e =>
    rcases setChecked_cases hi hl e with ⟨_, _, rfl, _⟩ | ⟨_, rfl, hr⟩
    · exact h
    · intro j hj b hb
      simp only [St.attributes, St.putAttr] at hb
      split at hb
      · rw [List.mem_append] at hb
        rcases hb with hb | hb
        · exact h j hj b (List.mem_of_mem_filter hb)
        · simp only [List.mem_singleton] at hb
          subst hb
          rw [stored_value]
          exact form_retag _ _
      · exact h j hj b hb
  | unset i name hl =>
    intro j hj b hb
    simp only [St.attributes, St.delAttr] at hb
    split at hb
    · exact h j hj b (List.mem_of_mem_filter hb)
    · exact h j hj b hb
  | finish i hl e =>
    obtain ⟨t', e', _, _, hlv, _, hr, hg, hd, _⟩ := finishRemove_ok hi hl
    rw [e] at e'; cases e'
    refine h.frame (fun j => ?_) hlv
    simp only [St.attributes, hd]; split <;> rfl

theorem Inners.formed {s t : St} (hi : Inv s) (h : Formed s) (st : Inners s t) : Formed t := by
  induction st with
  | refl => exact h
  | tail st1 st ih => exact st.formed (Inners.inv hi st1) ih

theorem attrsReplace_mem {l : List Attribute} {name : AName} {a b : Attribute} (h : b ∈ attrsReplace l name a) :
    b ∈ l ∨ (b = a ∧ ∃ old ∈ l, attrsGet l name = some old) := by
  unfold attrsReplace at h
  split at h
  · next k hk =>
    rcases List.mem_or_eq_of_mem_set h with h | h
    · exact .inl h
    · refine .inr ⟨h, ?_⟩
      obtain ⟨hk1, hk2, hk3⟩ := List.findIdx?_eq_some_iff_getElem.1 hk
      cases hf : attrsGet l name with
      | none =>
        have := List.find?_eq_none.1 (show l.find? (fun x => decide (x.name = name)) = none from hf) l[k] (List.getElem_mem _)
        exact absurd hk2 this
      | some old => exact ⟨old, List.mem_of_find?_eq_some hf, rfl⟩
  · exact .inl h

theorem Reachable.formed {s : St} (h : Reachable s) : Formed s := by
  induction h with
  | init d => intro i hi a ha; simp [St.init, St.attributes, NodeData.fresh] at ha
  | @call s t op hs hl e ih =>
    cases hm : op.isMove with
    | false => exact Inners.formed hs.inv ih (op_inner hs.inv op hl e hm)
    | true =>
      have hf := op_frame hs.inv op hl e hm
      exact ih.frame (fun i => by simp only [St.attributes, hf.data]) hf.live
  | free i _ hi hr ih =>
    intro j hj a ha
    have : ∀ (s : St), (s.free i).live j = true → s.live j = true := by
      intro s hj; simp only [St.free] at hj; split at hj <;> simp_all
    exact ih j (this _ hj) a ha
  | @edit s t _ he ih =>
    cases he with
    | text i x hi =>
      refine ih.frame (fun j => ?_) rfl
      simp only [St.attributes, St.editText, St.setD_data]
      split
      · next e => subst e; rfl
      · rfl
    | linked i l hi _ =>
      refine ih.frame (fun j => ?_) rfl
      simp only [St.attributes, St.editLinked, St.setD_data]
      split
      · next e => subst e; rfl
      · rfl
    | order i l hi hl =>
      intro j hj b hb
      simp only [St.attributes, St.editAttributes, St.setD_data] at hb
      split at hb
      · next e => subst e; exact ih j hj b (hl.subset hb)
      · exact ih j hj b hb
    | swap i j hi hj ht hs e =>
      intro k hk b hb
      simp only [St.attributes, swapAttributes_data e] at hb
      split at hb
      · exact ih j hj b hb
      · split at hb
        · exact ih i hi b hb
        · refine ih k ?_ b hb
          obtain ⟨_, rfl⟩ := swapAttributes_ok e
          exact hk
    | attr i name a hi hp =>
      intro j hj b hb
      simp only [St.attributes, St.editAttribute, St.setD_data] at hb
      split at hb
      · next e =>
        subst e
        rcases attrsReplace_mem hb with hb | ⟨rfl, old, ho, hg⟩
        · exact ih j hj b hb
        · rcases hp.value old hg with ⟨_, h2⟩ | ⟨h1, n, fb, fb', h2, h3⟩
          · exact form_plain h2
          · have := ih j hj old ho
            have hn : old.name = name := by
              have := List.find?_some hg
              simpa using this
            rw [hn, h2] at this
            rw [h1, h3]
            exact this
      · exact ih j hj b hb

end Svgdom
