import Verif.Proof.UnwindRemove
import Verif.Proof.Drain
import Verif.Spec.Picture

/-!
# A removal that was begun can be finished
-/

set_option autoImplicit false

namespace Svgdom

open Relation

/-- An attribute of `j` that must go if the nodes `S` are removed. -/
def Doomed (S : NodeId → Prop) (j : NodeId) (a : Attribute) : Prop :=
  a.isSvg = true ∧ (S j ∧ a.value.plain = false ∨ ∃ m, S m ∧ a.value.refersTo m = true)

theorem survives_iff {S : List NodeId} {j : NodeId} {a : Attribute} : survives S j a = true ↔ ¬ Doomed (· ∈ S) j a := by
  unfold survives Doomed
  simp only [Bool.not_eq_true', Bool.and_eq_false_iff, Bool.or_eq_false_iff, not_and, not_or, not_exists,
    List.any_eq_false, decide_eq_false_iff_not]
  cases a.isSvg <;> simp <;> cases a.value.plain <;> simp

/-- `t` is `s` with the nodes `R` removed and some of the references that must go with `S` taken out. -/
structure Partway (F : Forest) (s t : St) (R : List NodeId) (S T : NodeId → Prop) : Prop where
  inv : Inv t
  acyclic : t.Acyclic
  desc : Describes t (F.prune R)
  within : ∀ m ∈ R, s.live m = true ∧ T m
  closed : ∀ m ∈ R, ∀ j, s.live j = true → s.InSubtree m j → j ∈ R
  live : t.live = s.live
  nextId : t.nextId = s.nextId
  rootId : t.rootId = s.rootId
  debug : t.debug = s.debug
  ids : ∀ j, t.idOf j = s.idOf j
  tags : ∀ j, t.tagName j = s.tagName j
  texts : ∀ j, t.text j = s.text j
  types : ∀ j, t.nodeType j = s.nodeType j
  detached : ∀ j, t.isDetached j = (s.isDetached j || decide (j ∈ R))
  attrs : ∃ keep : NodeId → Attribute → Bool, ∀ j, s.live j = true → t.attributes j = (s.attributes j).filter (keep j) ∧
    ∀ a ∈ s.attributes j, (keep j a = true → ¬ Doomed (· ∈ R) j a) ∧ (¬ Doomed S j a → keep j a = true)

section
variable {F : Forest} {s t : St} {R : List NodeId} {S T : NodeId → Prop}

theorem Partway.parent (hF : Describes s F) (p : Partway F s t R S T) {j : NodeId} (hj : s.live j = true) (hR : j ∉ R) :
    t.parent j = s.parent j := by
  have hj' : t.live j = true := by rw [p.live]; exact hj
  rw [p.desc.shows.parent j hj', hF.shows.parent j hj]
  simp [Forest.prune, hR]

theorem Partway.parent_some (hF : Describes s F) (p : Partway F s t R S T) {j q : NodeId} (hj : s.live j = true)
    (e : t.parent j = some q) : j ∉ R ∧ s.parent j = some q := by
  have hj' : t.live j = true := by rw [p.live]; exact hj
  by_cases hR : j ∈ R
  · rw [p.desc.shows.parent j hj'] at e
    simp [Forest.prune, hR] at e
  · rw [p.parent hF hj hR] at e
    exact ⟨hR, e⟩

theorem Partway.up_live (hF : Describes s F) {j q : NodeId} (hj : s.live j = true) (e : s.parent j = some q) : s.live q = true := by
  rw [hF.shows.parent j hj] at e
  exact (hF.wf.par j hj q e).1

theorem Partway.back (hF : Describes s F) (p : Partway F s t R S T) {j m : NodeId} (hj : s.live j = true) (h : t.InSubtree m j) :
    s.InSubtree m j := by
  unfold St.InSubtree at h
  revert hj
  induction h using ReflTransGen.head_induction_on with
  | refl => exact fun _ => .refl
  | head e _ ih =>
    intro hj
    obtain ⟨-, e'⟩ := p.parent_some hF hj e
    exact ReflTransGen.head e' (ih (Partway.up_live hF hj e'))

theorem Partway.forth (hF : Describes s F) (p : Partway F s t R S T) {j m : NodeId} (hj : s.live j = true) (h : s.InSubtree m j) :
    j ∈ R ∨ t.InSubtree m j := by
  unfold St.InSubtree at h
  revert hj
  induction h using ReflTransGen.head_induction_on with
  | refl => exact fun _ => .inr .refl
  | @head j q e _ ih =>
    intro hj
    by_cases hR : j ∈ R
    · exact .inl hR
    · rcases ih (Partway.up_live hF hj e) with h1 | h1
      · exact .inl (p.closed q h1 j hj (.single e))
      · exact .inr (ReflTransGen.head (show t.Up j q by unfold St.Up; rw [p.parent hF hj hR]; exact e) h1)

theorem Partway.refl (h : Inv s) (ha : s.Acyclic) (hF : Describes s F) : Partway F s s [] S T where
  inv := h
  acyclic := ha
  desc := by rw [prune_nil]; exact hF
  within := by simp
  closed := by simp
  live := rfl
  nextId := rfl
  rootId := rfl
  debug := rfl
  ids := fun _ => rfl
  tags := fun _ => rfl
  texts := fun _ => rfl
  types := fun _ => rfl
  detached := by simp
  attrs := ⟨fun _ _ => true, fun j _ => ⟨by simp, fun a _ => ⟨fun _ hd => by
    rcases hd.2 with ⟨h, -⟩ | ⟨m, h, -⟩ <;> simp at h, fun _ => rfl⟩⟩⟩

theorem toward_partway (hS : ∀ m, s.live m = true → T m → S m)
    (hTc : ∀ m j, s.live m = true → s.live j = true → T m → s.InSubtree m j → T j) (hF : Describes s F)
    (h : Inv s) (ha : s.Acyclic) (ht : Toward S T s t) : ∃ R, Partway F s t R S T := by
  induction ht with
  | refl => exact ⟨[], .refl h ha hF⟩
  | @reference t u j a ht hj hm hs hd e ih =>
    obtain ⟨R, p⟩ := ih
    have e2 := St.removeAttribute_ok p.inv.link hj a.name
    rw [e2] at e
    cases e
    have hf := delAttr_filtered p.inv hj a.name
    have hnd := p.inv.link.names j hj
    obtain ⟨keep, hk⟩ := p.attrs
    refine ⟨R, ⟨hf.inv, ?_, p.desc.frame hf.else_.links hf.else_.live, p.within, p.closed, hf.else_.live.trans p.live,
      hf.else_.nextId.trans p.nextId, hf.else_.rootId.trans p.rootId, hf.else_.debug.trans p.debug,
      fun j => (hf.else_.ids j).trans (p.ids j), fun j => (hf.else_.tags j).trans (p.tags j),
      fun j => (hf.else_.texts j).trans (p.texts j), fun j => (hf.else_.types j).trans (p.types j),
      fun j => (isDetached_eq (hf.else_.keys j)).trans (p.detached j),
      fun i b => keep i b && !(decide (i = j) && decide (b.name = a.name)), fun i hi => ⟨?_, fun b hb => ⟨fun hkb => ?_, fun hnb => ?_⟩⟩⟩⟩
    · refine acyclic_sub p.acyclic (fun i hi => by rw [hf.else_.live] at hi; exact hi) ?_
      intro i q hi e
      unfold St.parent St.upgrade at e ⊢
      rwa [hf.else_.links, hf.else_.live] at e
    · rw [hf.attrs i (by rw [p.live]; exact hi), (hk i hi).1, List.filter_filter]
      exact List.filter_congr fun b _ => by rw [Bool.and_comm]
    · rw [Bool.and_eq_true] at hkb
      exact ((hk i hi).2 b hb).1 hkb.1
    · have h1 := ((hk i hi).2 b hb).2 hnb
      rw [Bool.and_eq_true]
      refine ⟨h1, ?_⟩
      by_contra hne
      simp only [Bool.not_eq_true', Bool.not_eq_false, Bool.and_eq_true, decide_eq_true_eq] at hne
      obtain ⟨rfl, hn⟩ := hne
      have hbt : b ∈ t.attributes i := by rw [(hk i hi).1, List.mem_filter]; exact ⟨hb, h1⟩
      have := eq_of_names hnd hbt hm hn
      subst this
      exact hnb ⟨hs, hd⟩
  | @node t u c ht hc hcT e ih =>
    obtain ⟨R, p⟩ := ih
    have hcs : s.live c = true := by rw [← p.live]; exact hc
    obtain ⟨K, hK⟩ := trees_exist p.inv p.desc p.acyclic ((F.prune R).kids c) fun x hx => (p.desc.wf.kids c hc x hx).1
    obtain ⟨u', e', h1, r1, d1⟩ := removeNode_spec p.inv p.acyclic p.desc hc hK
    rw [e] at e'
    cases e'
    have hKl : ∀ m ∈ K.pre, t.live m = true := pre_live p.desc hK fun x hx => (p.desc.wf.kids c hc x hx).1
    have hin : ∀ m, s.live m = true → (m ∈ c :: K.pre ↔ t.InSubtree c m) := by
      intro m hm
      have hm' : t.live m = true := by rw [p.live]; exact hm
      rw [List.mem_cons, mem_pre_kids p.desc hc hK hm']
      unfold St.InSubtree St.Ancestor
      rw [reflTransGen_iff_eq_or_transGen, eq_comm]
    have hl : ∀ m ∈ c :: K.pre, s.live m = true := by
      intro m hm
      rcases List.mem_cons.1 hm with rfl | hm
      · exact hcs
      · rw [← p.live]; exact hKl m hm
    have hT : ∀ m ∈ c :: K.pre, T m := fun m hm =>
      hTc c m hcs (hl m hm) hcT (p.back hF (hl m hm) ((hin m (hl m hm)).1 hm))
    obtain ⟨keep, hk⟩ := p.attrs
    refine ⟨R ++ (c :: K.pre), ⟨h1, p.desc.prune_acyclic p.acyclic r1.live d1, by rw [← prune_prune]; exact d1, ?_, ?_,
      r1.live.trans p.live, r1.nextId.trans p.nextId, r1.rootId.trans p.rootId, r1.debug.trans p.debug,
      fun j => (r1.ids j).trans (p.ids j), fun j => (r1.tags j).trans (p.tags j),
      fun j => (r1.texts j).trans (p.texts j), fun j => (r1.types j).trans (p.types j), ?_,
      fun i b => keep i b && survives (c :: K.pre) i b, fun i hi => ⟨?_, fun b hb => ⟨fun hkb => ?_, fun hnb => ?_⟩⟩⟩⟩
    · intro m hm
      rcases List.mem_append.1 hm with hm | hm
      · exact p.within m hm
      · exact ⟨hl m hm, hT m hm⟩
    · intro m hm j hj hs
      rcases List.mem_append.1 hm with hm | hm
      · exact List.mem_append_left _ (p.closed m hm j hj hs)
      · rcases p.forth hF hj hs with h2 | h2
        · exact List.mem_append_left _ h2
        · exact List.mem_append_right _ ((hin j hj).2 (ReflTransGen.trans h2 ((hin m (hl m hm)).1 hm)))
    · intro j
      rw [r1.detached, p.detached]
      by_cases h2 : j ∈ R <;> by_cases h3 : j ∈ c :: K.pre <;> simp [h2, h3]
    · rw [r1.attrs i (by rw [p.live]; exact hi), (hk i hi).1, List.filter_filter]
      exact List.filter_congr fun b _ => by rw [Bool.and_comm]
    · rw [Bool.and_eq_true, survives_iff] at hkb
      have h2 := ((hk i hi).2 b hb).1 hkb.1
      rintro ⟨h3, h4⟩
      rcases h4 with ⟨h4, h5⟩ | ⟨m, h4, h5⟩
      · rcases List.mem_append.1 h4 with h4 | h4
        · exact h2 ⟨h3, .inl ⟨h4, h5⟩⟩
        · exact hkb.2 ⟨h3, .inl ⟨h4, h5⟩⟩
      · rcases List.mem_append.1 h4 with h4 | h4
        · exact h2 ⟨h3, .inr ⟨m, h4, h5⟩⟩
        · exact hkb.2 ⟨h3, .inr ⟨m, h4, h5⟩⟩
    · rw [Bool.and_eq_true, survives_iff]
      refine ⟨((hk i hi).2 b hb).2 hnb, fun hd => hnb ⟨hd.1, ?_⟩⟩
      rcases hd.2 with ⟨h4, h5⟩ | ⟨m, h4, h5⟩
      · exact .inl ⟨hS i hi (hT i h4), h5⟩
      · exact .inr ⟨m, hS m (hl m h4) (hT m h4), h5⟩

/-- Removing the rest leads to the same picture as removing everything. -/
theorem Partway.finish (p : Partway F s t R S T) {u v : St} {S2 S0 : List NodeId} (ru : Removed t u S2)
    (du : Describes u ((F.prune R).prune S2)) (rv : Removed s v S0) (dv : Describes v (F.prune S0))
    (hS : ∀ m, m ∈ R ∨ m ∈ S2 ↔ m ∈ S0) (hd : ∀ m, S m → s.live m = true → m ∈ S0) (hl : ∀ j, s.live j = true → ∀ a ∈ s.attributes j, ∀ m,
      a.value.refersTo m = true → s.live m = true) :
    ∃ Q, Abs u Q ∧ Abs v Q := by
  obtain ⟨keep, hk⟩ := p.attrs
  have hat : ∀ j, s.live j = true → u.attributes j = v.attributes j := by
    intro j hj
    rw [ru.attrs j (by rw [p.live]; exact hj), (hk j hj).1, rv.attrs j hj, List.filter_filter]
    refine List.filter_congr fun a ham => ?_
    obtain ⟨h1, h2⟩ := (hk j hj).2 a ham
    rw [Bool.eq_iff_iff, Bool.and_eq_true, survives_iff, survives_iff]
    constructor
    · rintro ⟨h3, h4⟩ ⟨h5, h6⟩
      rcases h6 with ⟨h6, h7⟩ | ⟨m, h6, h7⟩
      · rcases (hS j).2 h6 with h8 | h8
        · exact h1 h4 ⟨h5, .inl ⟨h8, h7⟩⟩
        · exact h3 ⟨h5, .inl ⟨h8, h7⟩⟩
      · rcases (hS m).2 h6 with h8 | h8
        · exact h1 h4 ⟨h5, .inr ⟨m, h8, h7⟩⟩
        · exact h3 ⟨h5, .inr ⟨m, h8, h7⟩⟩
    · intro h3
      constructor
      · rintro ⟨h5, h6⟩
        refine h3 ⟨h5, ?_⟩
        rcases h6 with ⟨h6, h7⟩ | ⟨m, h6, h7⟩
        · exact .inl ⟨(hS j).1 (.inr h6), h7⟩
        · exact .inr ⟨m, (hS m).1 (.inr h6), h7⟩
      · refine h2 ?_
        rintro ⟨h5, h6⟩
        refine h3 ⟨h5, ?_⟩
        rcases h6 with ⟨h6, h7⟩ | ⟨m, h6, h7⟩
        · exact .inl ⟨hd j h6 hj, h7⟩
        · exact .inr ⟨m, hd m h6 (hl j hj a ham m h7), h7⟩
  have hlv : u.live = v.live := (ru.live.trans p.live).trans rv.live.symm
  refine ⟨⟨v.live, v.nextId, v.rootId, v.debug, F.prune S0, v.look, fun i => !v.isDetached i⟩, ⟨hlv.symm, ?_, ?_, ?_, ?_, ?_, ?_⟩,
    ⟨rfl, rfl, rfl, rfl, dv, fun _ _ => rfl, fun _ _ => rfl⟩⟩
  · exact rv.nextId.trans (ru.nextId.trans p.nextId).symm
  · exact rv.rootId.trans (ru.rootId.trans p.rootId).symm
  · exact rv.debug.trans (ru.debug.trans p.debug).symm
  · rw [prune_prune, prune_congr F (S' := S0) (fun m => by rw [List.mem_append]; exact hS m)] at du
    exact du
  · intro i hi
    have hi' : s.live i = true := by rw [← p.live, ← ru.live]; exact hi
    simp only [St.look, Look.mk.injEq]
    exact ⟨(rv.types i).trans ((ru.types i).trans (p.types i)).symm, (rv.tags i).trans ((ru.tags i).trans (p.tags i)).symm,
      (rv.ids i).trans ((ru.ids i).trans (p.ids i)).symm, (hat i hi').symm, (rv.texts i).trans ((ru.texts i).trans (p.texts i)).symm⟩
  · intro i hi
    show (!v.isDetached i) = !u.isDetached i
    rw [rv.detached, ru.detached, p.detached]
    have := hS i
    by_cases h1 : i ∈ R <;> by_cases h2 : i ∈ S2 <;> by_cases h3 : i ∈ S0 <;> simp [h1, h2, h3] at this ⊢

end

end Svgdom
