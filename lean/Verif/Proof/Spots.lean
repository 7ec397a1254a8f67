import Verif.Proof.Undo
import Verif.Spec.Spots

/-! Two moves of different nodes, in both orders (C107). -/

set_option autoImplicit false

namespace Svgdom

namespace Spot

/-- The parent there. -/
def par (F : Forest) : Spot → Option NodeId
  | last p => some p
  | first p => some p
  | after x => F.par x
  | before x => F.par x
  | alone => none

/-- The siblings there. -/
def group (F : Forest) : Spot → List NodeId
  | last p => F.kids p
  | first p => F.kids p
  | after x => F.sibs x
  | before x => F.sibs x
  | alone => []

/-- `y` put among the siblings. -/
def rule (y : NodeId) (l : List NodeId) : Spot → List NodeId
  | last _ => l ++ [y]
  | first _ => y :: l
  | after x => insAfter l x y
  | before x => insBefore l x y
  | alone => [y]

/-- The place `sp'` is among the siblings of `sp`. -/
def meets (F : Forest) (sp : Spot) : Spot → Prop
  | last p => sp.par F = some p
  | first p => sp.par F = some p
  | after x => x ∈ sp.group F
  | before x => x ∈ sp.group F
  | alone => False

end Spot

/-- `y` moves to the place. -/
def Forest.put (F : Forest) (sp : Spot) (y : NodeId) : Forest :=
  (F.detach y).attach (sp.par (F.detach y)) (sp.rule y (sp.group (F.detach y))) y

theorem insAfter_erase {x y z : NodeId} (hz : z ≠ y) (hx : x ≠ z) (l : List NodeId) : (insAfter l x y).erase z = insAfter (l.erase z) x y := by
  induction l with
  | nil => rfl
  | cons a t ih =>
    by_cases h : a = x
    · subst h
      simp only [insAfter, if_true]
      rw [List.erase_cons_tail (by simpa using hx), List.erase_cons_tail (by simpa using hz.symm), List.erase_cons_tail (by simpa using hx)]
      simp only [insAfter, if_true]
    · simp only [insAfter, h, if_false]
      by_cases h2 : a = z
      · subst h2; simp
      · rw [List.erase_cons_tail (by simpa using h2), List.erase_cons_tail (by simpa using h2)]
        simp only [insAfter, h, if_false, ih]

theorem insBefore_erase {x y z : NodeId} (hz : z ≠ y) (hx : x ≠ z) (l : List NodeId) :
    (insBefore l x y).erase z = insBefore (l.erase z) x y := by
  induction l with
  | nil => rfl
  | cons a t ih =>
    by_cases h : a = x
    · subst h
      simp only [insBefore, if_true]
      rw [List.erase_cons_tail (by simpa using hz.symm), List.erase_cons_tail (by simpa using hx)]
      simp only [insBefore, if_true]
    · simp only [insBefore, h, if_false]
      by_cases h2 : a = z
      · subst h2; simp
      · rw [List.erase_cons_tail (by simpa using h2), List.erase_cons_tail (by simpa using h2)]
        simp only [insBefore, h, if_false, ih]

theorem rule_erase {sp : Spot} {y z : NodeId} (hz : z ≠ y) (hx : sp.anchor ≠ some z)
    (l : List NodeId) : (sp.rule y l).erase z = sp.rule y (l.erase z) := by
  cases sp with
  | last p =>
    simp only [Spot.rule]
    by_cases hm : z ∈ l
    · rw [List.erase_append_left _ hm]
    · rw [List.erase_append_right _ hm, List.erase_of_not_mem hm, List.erase_of_not_mem (by simpa using hz)]
  | first p => simp only [Spot.rule]; rw [List.erase_cons_tail (by simpa using hz.symm)]
  | after x => exact insAfter_erase hz (by simpa [Spot.anchor] using hx) l
  | before x => exact insBefore_erase hz (by simpa [Spot.anchor] using hx) l
  | alone => simp only [Spot.rule]; rw [List.erase_of_not_mem (by simpa using hz)]

theorem insAfter_snoc {l : List NodeId} {x y z : NodeId} (h : x ≠ z) : insAfter (l ++ [z]) x y = insAfter l x y ++ [z] := by
  induction l with
  | nil => simp [insAfter, h.symm]
  | cons a t ih => by_cases e : a = x <;> simp [insAfter, e, ih]

theorem insBefore_snoc {l : List NodeId} {x y z : NodeId} (h : x ≠ z) : insBefore (l ++ [z]) x y = insBefore l x y ++ [z] := by
  induction l with
  | nil => simp [insBefore, h.symm]
  | cons a t ih => by_cases e : a = x <;> simp [insBefore, e, ih]

theorem insAfter_insAfter {l : List NodeId} {x y x' y' : NodeId} (h : x ≠ x') (h1 : x ≠ y') (h2 : x' ≠ y) :
    insAfter (insAfter l x y) x' y' = insAfter (insAfter l x' y') x y := by
  induction l with
  | nil => rfl
  | cons a t ih =>
    by_cases e : a = x
    · subst e; simp [insAfter, h, h2.symm]
    · by_cases e' : a = x'
      · subst e'; simp [insAfter, e, h1.symm]
      · simp [insAfter, e, e', ih]

theorem insBefore_insBefore {l : List NodeId} {x y x' y' : NodeId} (h : x ≠ x') (h1 : x ≠ y') (h2 : x' ≠ y) :
    insBefore (insBefore l x y) x' y' = insBefore (insBefore l x' y') x y := by
  induction l with
  | nil => rfl
  | cons a t ih =>
    by_cases e : a = x
    · subst e; simp [insBefore, h, h2.symm]
    · by_cases e' : a = x'
      · subst e'; simp [insBefore, e, h1.symm]
      · simp [insBefore, e, e', ih]

theorem insAfter_insBefore {l : List NodeId} {x y x' y' : NodeId} (h1 : x ≠ y') (h2 : x' ≠ y) :
    insBefore (insAfter l x y) x' y' = insAfter (insBefore l x' y') x y := by
  induction l with
  | nil => rfl
  | cons a t ih =>
    by_cases e : a = x
    · subst e
      by_cases e' : a = x'
      · subst e'; simp [insAfter, insBefore, h1.symm]
      · simp [insAfter, insBefore, e', h2.symm]
    · by_cases e' : a = x'
      · subst e'; simp [insAfter, insBefore, e, h1.symm]
      · simp [insAfter, insBefore, e, e', ih]

/-- Two different places among the same siblings. -/
theorem rule_comm {F : Forest} {sp sp' : Spot} {y y' : NodeId} (hsp : sp ≠ sp') (ha : sp.anchor ≠ some y') (ha' : sp'.anchor ≠ some y)
    (hj : sp.meets F sp') (hj' : sp'.meets F sp) (l : List NodeId) : sp'.rule y' (sp.rule y l) = sp.rule y (sp'.rule y' l) := by
  cases sp <;> cases sp' <;> simp only [Spot.meets, Spot.par, Spot.anchor, ne_eq, Option.some.injEq, Spot.last.injEq, Spot.first.injEq,
    Spot.after.injEq, Spot.before.injEq] at hj hj' hsp ha ha' <;> simp only [Spot.rule]
  case last.last => exact absurd hj hsp
  case first.first => exact absurd hj hsp
  case last.first => rfl
  case first.last => rfl
  case last.after => exact insAfter_snoc ha'
  case last.before => exact insBefore_snoc ha'
  case after.last => exact (insAfter_snoc ha).symm
  case before.last => exact (insBefore_snoc ha).symm
  case first.after => simp [insAfter, Ne.symm ha']
  case first.before => simp [insBefore, Ne.symm ha']
  case after.first => simp [insAfter, Ne.symm ha]
  case before.first => simp [insBefore, Ne.symm ha]
  case after.after => exact insAfter_insAfter hsp ha ha'
  case before.before => exact insBefore_insBefore hsp ha ha'
  case after.before => exact insAfter_insBefore ha ha'
  case before.after => exact (insAfter_insBefore ha' ha).symm

section
variable {F : Forest} {live : NodeId → Bool}

/-- The siblings at a place are a whole sibling sequence. -/
theorem group_spec (h : F.WF live) {sp : Spot} (hl : ∀ x, sp.anchor = some x → live x = true) :
    (sp.group F).Nodup ∧ ∀ j ∈ sp.group F, live j = true ∧ F.sibs j = sp.group F ∧ F.par j = sp.par F := by
  cases sp with
  | last p =>
    have hp := hl p rfl
    exact ⟨h.kids_nodup hp, fun j hj => ⟨(h.kids p hp j hj).1, (h.kids_sibs hp hj).symm, (h.kids p hp j hj).2⟩⟩
  | first p =>
    have hp := hl p rfl
    exact ⟨h.kids_nodup hp, fun j hj => ⟨(h.kids p hp j hj).1, (h.kids_sibs hp hj).symm, (h.kids p hp j hj).2⟩⟩
  | after x => exact ⟨h.nodup x (hl x rfl), fun j hj => h.sib x (hl x rfl) j hj⟩
  | before x => exact ⟨h.nodup x (hl x rfl), fun j hj => h.sib x (hl x rfl) j hj⟩
  | alone => exact ⟨List.nodup_nil, fun j hj => by simp [Spot.group] at hj⟩

theorem group_of_par (h : F.WF live) {sp : Spot} (hl : ∀ x, sp.anchor = some x → live x = true) {p : NodeId} (hp : sp.par F = some p) :
    F.kids p = sp.group F := by
  cases sp with
  | last q => simp only [Spot.par, Option.some.injEq] at hp; subst hp; rfl
  | first q => simp only [Spot.par, Option.some.injEq] at hp; subst hp; rfl
  | after x => exact (h.par x (hl x rfl) p hp).2
  | before x => exact (h.par x (hl x rfl) p hp).2
  | alone => simp [Spot.par] at hp

theorem meets_group (h : F.WF live) {sp sp' : Spot} (hl : ∀ x, sp.anchor = some x → live x = true)
    (hj : sp.meets F sp') : sp'.group F = sp.group F := by
  cases sp' with
  | last p => exact group_of_par h hl hj
  | first p => exact group_of_par h hl hj
  | after x => exact ((group_spec h hl).2 x hj).2.1
  | before x => exact ((group_spec h hl).2 x hj).2.1
  | alone => exact hj.elim

theorem meets_of_mem (h : F.WF live) {sp sp' : Spot} (hl : ∀ x, sp.anchor = some x → live x = true)
    (hl' : ∀ x, sp'.anchor = some x → live x = true) {j : NodeId} (hj : j ∈ sp.group F) (hj' : j ∈ sp'.group F) : sp.meets F sp' := by
  have h1 := (group_spec h hl).2 j hj
  have h2 := (group_spec h hl').2 j hj'
  cases sp' with
  | last p => rw [Spot.meets, ← h1.2.2, h2.2.2]; rfl
  | first p => rw [Spot.meets, ← h1.2.2, h2.2.2]; rfl
  | after x => rw [Spot.meets, ← h1.2.1, h2.2.1]; exact h.self_mem x (hl' x rfl)
  | before x => rw [Spot.meets, ← h1.2.1, h2.2.1]; exact h.self_mem x (hl' x rfl)
  | alone => simp [Spot.group] at hj'

theorem meets_symm (h : F.WF live) {sp sp' : Spot} (hl : ∀ x, sp.anchor = some x → live x = true)
    (hl' : ∀ x, sp'.anchor = some x → live x = true) (hj : sp.meets F sp') : sp'.meets F sp := by
  have hg := meets_group h hl hj
  have hpar : sp.par F = sp'.par F := by
    cases sp' with
    | last p => exact hj
    | first p => exact hj
    | after x => exact ((group_spec h hl).2 x hj).2.2.symm
    | before x => exact ((group_spec h hl).2 x hj).2.2.symm
    | alone => exact hj.elim
  cases sp with
  | last p => exact hpar.symm
  | first p => exact hpar.symm
  | after x => rw [Spot.meets, hg]; exact h.self_mem x (hl x rfl)
  | before x => rw [Spot.meets, hg]; exact h.self_mem x (hl x rfl)
  | alone =>
    cases sp' <;> simp [Spot.meets, Spot.par, Spot.group] at hj

theorem group_detach {sp : Spot} {y : NodeId} (ha : sp.anchor ≠ some y) : sp.group (F.detach y) = (sp.group F).erase y := by
  cases sp <;> simp only [Spot.anchor, ne_eq, Option.some.injEq] at ha <;> simp [Spot.group, Forest.detach, ha]

theorem par_detach {sp : Spot} {y : NodeId} (ha : sp.anchor ≠ some y) : sp.par (F.detach y) = sp.par F := by
  cases sp <;> simp only [Spot.anchor, ne_eq, Option.some.injEq] at ha <;> simp [Spot.par, Forest.detach, ha]

theorem mem_rule {sp : Spot} {l : List NodeId} {y j : NodeId} (ha : ∀ x, sp = .after x ∨ sp = .before x → x ∈ l)
    (hn : sp = .alone → l = []) : j ∈ sp.rule y l ↔ j = y ∨ j ∈ l := by
  cases sp with
  | last p => simp [Spot.rule, or_comm]
  | first p => simp [Spot.rule]
  | after x => exact mem_insAfter (ha x (.inl rfl))
  | before x => exact mem_insBefore (ha x (.inr rfl))
  | alone => simp [Spot.rule, hn rfl]

theorem put_par {sp : Spot} {y : NodeId} (ha : sp.anchor ≠ some y) (j : NodeId) :
    (F.put sp y).par j = if j = y then sp.par F else F.par j := by
  simp only [Forest.put, Forest.attach, par_detach ha]
  split
  · rfl
  · next h => simp [Forest.detach, h]

theorem anchored (h : F.WF live) {sp : Spot} (hl : ∀ x, sp.anchor = some x → live x = true) :
    (∀ x, sp = .after x ∨ sp = .before x → x ∈ sp.group F) ∧ (sp = .alone → sp.group F = []) := by
  refine ⟨?_, ?_⟩
  · rintro x (rfl | rfl)
    · exact h.self_mem x (hl x rfl)
    · exact h.self_mem x (hl x rfl)
  · rintro rfl; rfl

theorem mem_put (h : F.WF live) {sp : Spot} (hl : ∀ x, sp.anchor = some x → live x = true) {y : NodeId} (ha : sp.anchor ≠ some y)
    (j : NodeId) : j ∈ sp.rule y ((sp.group F).erase y) ↔ j = y ∨ j ∈ sp.group F := by
  obtain ⟨h1, h2⟩ := anchored h hl
  rw [mem_rule]
  · rw [(group_spec h hl).1.mem_erase_iff]; tauto
  · intro x hx
    have : x ≠ y := by rintro rfl; rcases hx with rfl | rfl <;> exact ha rfl
    exact (List.mem_erase_of_ne this).2 (h1 x hx)
  · intro hs; rw [h2 hs]; rfl

theorem put_sibs (h : F.WF live) {sp : Spot} (hl : ∀ x, sp.anchor = some x → live x = true) {y : NodeId} (ha : sp.anchor ≠ some y)
    (j : NodeId) : (F.put sp y).sibs j = if j = y ∨ j ∈ sp.group F then sp.rule y ((sp.group F).erase y) else (F.sibs j).erase y := by
  simp only [Forest.put, Forest.attach, group_detach ha, mem_put h hl ha]
  split
  · rfl
  · next hn => simp only [not_or] at hn; simp [Forest.detach, hn.1]

theorem put_kids {sp : Spot} {y : NodeId} (ha : sp.anchor ≠ some y)
    (p : NodeId) : (F.put sp y).kids p = if sp.par F = some p then sp.rule y ((sp.group F).erase y) else (F.kids p).erase y := by
  simp only [Forest.put, Forest.attach, group_detach ha, par_detach ha]
  rfl

open Classical in
theorem put_group (h : F.WF live) {sp sp' : Spot} (hl : ∀ x, sp.anchor = some x → live x = true) {y : NodeId} (ha : sp.anchor ≠ some y)
    (ha' : sp'.anchor ≠ some y) :
    sp'.group (F.put sp y) = if sp.meets F sp' then sp.rule y ((sp.group F).erase y) else (sp'.group F).erase y := by
  cases sp' with
  | last p =>
    show (F.put sp y).kids p = _
    rw [put_kids ha]
    exact if_congr Iff.rfl rfl rfl
  | first p =>
    show (F.put sp y).kids p = _
    rw [put_kids ha]
    exact if_congr Iff.rfl rfl rfl
  | after x =>
    have : x ≠ y := by simpa [Spot.anchor] using ha'
    show (F.put sp y).sibs x = _
    rw [put_sibs h hl ha]
    exact if_congr (by simp [this, Spot.meets]) rfl rfl
  | before x =>
    have : x ≠ y := by simpa [Spot.anchor] using ha'
    show (F.put sp y).sibs x = _
    rw [put_sibs h hl ha]
    exact if_congr (by simp [this, Spot.meets]) rfl rfl
  | alone => simp [Spot.group, Spot.meets]

theorem put_spot_par {sp sp' : Spot} {y : NodeId} (ha : sp.anchor ≠ some y) (ha' : sp'.anchor ≠ some y) :
    sp'.par (F.put sp y) = sp'.par F := by
  cases sp' <;> simp only [Spot.anchor, ne_eq, Option.some.injEq] at ha' <;> simp [Spot.par, put_par ha, ha']

/-- Who is a sibling of whom after two moves. -/
theorem put_put_sibs (h : F.WF live) {sp sp' : Spot} {y y' : NodeId} (hy : y ≠ y')
    (hl : ∀ x, sp.anchor = some x → live x = true) (hl' : ∀ x, sp'.anchor = some x → live x = true)
    (ha : sp.anchor ≠ some y) (hb : sp.anchor ≠ some y') (ha' : sp'.anchor ≠ some y') (hb' : sp'.anchor ≠ some y)
    (h1 : (F.put sp y).WF live) (j : NodeId) (hjl : live j = true) :
    (sp.meets F sp' → ((F.put sp y).put sp' y').sibs j =
      if j = y ∨ j = y' ∨ j ∈ sp.group F then sp'.rule y' (sp.rule y (((sp.group F).erase y).erase y')) else ((F.sibs j).erase y).erase y') ∧
    (¬ sp.meets F sp' → ((F.put sp y).put sp' y').sibs j =
      if j = y' ∨ (j ≠ y ∧ j ∈ sp'.group F) then sp'.rule y' (((sp'.group F).erase y).erase y')
      else if j = y ∨ j ∈ sp.group F then sp.rule y (((sp.group F).erase y).erase y') else ((F.sibs j).erase y).erase y') := by
  have he : (sp.rule y ((sp.group F).erase y)).erase y' = sp.rule y (((sp.group F).erase y).erase y') :=
    rule_erase (Ne.symm hy) hb _
  constructor
  · intro hj
    rw [put_sibs h1 hl' ha', put_sibs h hl ha, put_group h hl ha hb', if_pos hj, he]
    by_cases hm : j = y' ∨ j ∈ sp.rule y ((sp.group F).erase y)
    · rw [if_pos hm, if_pos]
      rw [mem_put h hl ha] at hm
      tauto
    · rw [if_neg hm, if_neg, if_neg]
      · rw [mem_put h hl ha] at hm; tauto
      · rw [mem_put h hl ha] at hm; tauto
  · intro hj
    rw [put_sibs h1 hl' ha', put_sibs h hl ha, put_group h hl ha hb', if_neg hj]
    have hm : (j = y' ∨ j ∈ (sp'.group F).erase y) ↔ (j = y' ∨ (j ≠ y ∧ j ∈ sp'.group F)) := by
      rw [(group_spec h hl').1.mem_erase_iff]
    simp only [hm]
    split
    · rfl
    · split
      · exact he
      · rfl

theorem put_put (h : F.WF live) {sp sp' : Spot} {y y' : NodeId} (hy : y ≠ y') (hsp : sp ≠ sp' ∨ sp = .alone)
    (hl : ∀ x, sp.anchor = some x → live x = true) (hl' : ∀ x, sp'.anchor = some x → live x = true)
    (ha : sp.anchor ≠ some y) (hb : sp.anchor ≠ some y') (ha' : sp'.anchor ≠ some y') (hb' : sp'.anchor ≠ some y)
    (h1 : (F.put sp y).WF live) (h2 : (F.put sp' y').WF live) (h3 : ((F.put sp y).put sp' y').WF live)
    (h4 : ((F.put sp' y').put sp y).WF live) : ((F.put sp y).put sp' y').Agree ((F.put sp' y').put sp y) live := by
  have par : ∀ j, ((F.put sp y).put sp' y').par j = ((F.put sp' y').put sp y).par j := by
    intro j
    rw [put_par ha', put_par ha, put_par ha, put_par ha', put_spot_par ha hb', put_spot_par ha' hb]
    by_cases e : j = y
    · subst e; simp [hy]
    · simp [e]
  have sibs : ∀ j, live j = true → ((F.put sp y).put sp' y').sibs j = ((F.put sp' y').put sp y).sibs j := by
    intro j hjl
    obtain ⟨p1, p2⟩ := put_put_sibs h hy hl hl' ha hb ha' hb' h1 j hjl
    obtain ⟨q1, q2⟩ := put_put_sibs h hy.symm hl' hl ha' hb' ha hb h2 j hjl
    by_cases hj : sp.meets F sp'
    · have hj' := meets_symm h hl hl' hj
      have hne : sp ≠ sp' := by
        rcases hsp with e | rfl
        · exact e
        · cases sp' <;> simp [Spot.meets, Spot.par, Spot.group] at hj
      rw [p1 hj, q1 hj', meets_group h hl hj, rule_comm hne hb hb' hj hj', List.erase_comm (a := y) (b := y') (l := sp.group F),
        List.erase_comm (a := y) (b := y') (l := F.sibs j)]
      have : (j = y ∨ j = y' ∨ j ∈ sp.group F) ↔ (j = y' ∨ j = y ∨ j ∈ sp.group F) := by tauto
      simp only [this]
    · have hj' : ¬ sp'.meets F sp := fun k => hj (meets_symm h hl' hl k)
      rw [p2 hj, q2 hj', List.erase_comm (a := y) (b := y') (l := sp.group F),
        List.erase_comm (a := y) (b := y') (l := F.sibs j), List.erase_comm (a := y) (b := y') (l := sp'.group F)]
      have disj : j ∈ sp.group F → j ∈ sp'.group F → False := fun a b => hj (meets_of_mem h hl hl' a b)
      by_cases e : j = y
      · subst e; simp [hy]
      · by_cases e' : j = y'
        · subst e'; simp [e]
        · by_cases m : j ∈ sp.group F
          · have m' : j ∉ sp'.group F := fun k => disj m k
            simp [e, e', m, m']
          · simp [e, e', m]
  refine ⟨fun p hp => ?_, sibs, fun j _ => par j⟩
  cases hk : ((F.put sp y).put sp' y').kids p with
  | nil =>
    cases hk' : ((F.put sp' y').put sp y).kids p with
    | nil => rfl
    | cons c t =>
      have hm : c ∈ ((F.put sp' y').put sp y).kids p := by simp [hk']
      obtain ⟨hc, hc'⟩ := h4.kids p hp c hm
      have := (h3.kids_iff hp hc).2 (by rw [par, hc'])
      simp [hk] at this
  | cons c t =>
    have hm : c ∈ ((F.put sp y).put sp' y').kids p := by simp [hk]
    obtain ⟨hc, hc'⟩ := h3.kids p hp c hm
    rw [← hk, h3.kids_sibs hp hm, sibs c hc]
    exact ((h4.par c hc p (by rw [← par, hc'])).2).symm

end

/-- A new place that is none. -/
theorem put_alone (F : Forest) (y : NodeId) : F.put .alone y = F.detach y := by
  unfold Forest.put Forest.attach Spot.par Spot.rule Spot.group Forest.detach
  simp only [reduceCtorEq, if_false, Forest.mk.injEq, true_and]
  refine ⟨?_, ?_⟩
  · funext j; by_cases h : j = y <;> simp [h]
  · funext j; by_cases h : j = y <;> simp [h]

end Svgdom
