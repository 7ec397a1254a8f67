import Verif.Props.Picture

/-! Forests that agree on the live nodes; taking a node out and putting it back. -/

set_option autoImplicit false

namespace Svgdom

/-- The two forests are the same on the live nodes. -/
structure Forest.Agree (F G : Forest) (live : NodeId → Bool) : Prop where
  kids : ∀ i, live i = true → F.kids i = G.kids i
  sibs : ∀ i, live i = true → F.sibs i = G.sibs i
  par : ∀ i, live i = true → F.par i = G.par i

namespace Forest.Agree
variable {F G H : Forest} {live : NodeId → Bool}

theorem refl : F.Agree F live := ⟨fun _ _ => rfl, fun _ _ => rfl, fun _ _ => rfl⟩

theorem trans (h : F.Agree G live) (k : G.Agree H live) : F.Agree H live :=
  ⟨fun i hi => (h.kids i hi).trans (k.kids i hi), fun i hi => (h.sibs i hi).trans (k.sibs i hi), fun i hi => (h.par i hi).trans (k.par i hi)⟩

theorem symm (h : F.Agree G live) : G.Agree F live :=
  ⟨fun i hi => (h.kids i hi).symm, fun i hi => (h.sibs i hi).symm, fun i hi => (h.par i hi).symm⟩

theorem wf (h : F.Agree G live) (w : F.WF live) : G.WF live where
  self_mem i hi := by rw [← h.sibs i hi]; exact w.self_mem i hi
  nodup i hi := by rw [← h.sibs i hi]; exact w.nodup i hi
  sib i hi j hj := by
    rw [← h.sibs i hi] at hj ⊢
    obtain ⟨h1, h2, h3⟩ := w.sib i hi j hj
    exact ⟨h1, by rw [← h.sibs j h1, h2], by rw [← h.par j h1, ← h.par i hi, h3]⟩
  par i hi p hp := by
    rw [← h.par i hi] at hp
    obtain ⟨h1, h2⟩ := w.par i hi p hp
    exact ⟨h1, by rw [← h.kids p h1, ← h.sibs i hi, h2]⟩
  kids p hp c hc := by
    rw [← h.kids p hp] at hc
    obtain ⟨h1, h2⟩ := w.kids p hp c hc
    exact ⟨h1, by rw [← h.par c h1, h2]⟩

theorem attach (h : F.Agree G live) (p : Option NodeId) (L : List NodeId) (c : NodeId) : (F.attach p L c).Agree (G.attach p L c) live where
  kids i hi := by simp only [Forest.attach, h.kids i hi]
  sibs i hi := by simp only [Forest.attach, h.sibs i hi]
  par i hi := by simp only [Forest.attach, h.par i hi]

theorem detach (h : F.Agree G live) (c : NodeId) : (F.detach c).Agree (G.detach c) live where
  kids i hi := by simp only [Forest.detach, h.kids i hi]
  sibs i hi := by simp only [Forest.detach, h.sibs i hi]
  par i hi := by simp only [Forest.detach, h.par i hi]

theorem describes {s : St} (h : F.Agree G s.live) (d : Describes s F) : Describes s G where
  wf := h.wf d.wf
  shows :=
    { parent := fun i hi => by rw [d.shows.parent i hi, h.par i hi]
      next := fun i hi => by rw [d.shows.next i hi, h.sibs i hi]
      prev := fun i hi => by rw [d.shows.prev i hi, h.sibs i hi]
      first := fun i hi => by rw [d.shows.first i hi, h.kids i hi]
      last := fun i hi => by rw [d.shows.last i hi, h.kids i hi] }

end Forest.Agree

variable {F : Forest} {live : NodeId → Bool}

/-- Detaching a node that is alone changes nothing. -/
theorem Forest.WF.detach_alone (h : F.WF live) {y : NodeId} (hal : Alone F y) : (F.detach y).Agree F live where
  kids i hi := List.erase_of_not_mem (hal.not_kid h hi)
  sibs i hi := by
    simp only [Forest.detach]
    split
    · next e => rw [e, hal.sibs]
    · next e => exact List.erase_of_not_mem (hal.not_sib h hi e)
  par i hi := by
    simp only [Forest.detach]
    split
    · next e => rw [e, hal.par]
    · rfl

/-- Detaching a node right after it was attached. -/
theorem Forest.WF.detach_attach (h : F.WF live) {y : NodeId} (hal : Alone F y) {p : Option NodeId} {a b : List NodeId}
    (hpl : Place F live p a b) (hne : y ∉ a ++ b) : ((F.attach p (a ++ y :: b) y).detach y).Agree F live where
  kids i hi := by
    simp only [Forest.detach, Forest.attach]
    split
    · next e =>
      rw [erase_split fun hm => hne (List.mem_append_left _ hm)]
      exact (hpl.kids i e).2.symm
    · exact List.erase_of_not_mem (hal.not_kid h hi)
  sibs i hi := by
    simp only [Forest.detach, Forest.attach]
    split
    · next e => rw [e, hal.sibs]
    · next e =>
      split
      · next hm =>
        rw [erase_split fun hm => hne (List.mem_append_left _ hm)]
        have : i ∈ a ++ b := by
          simp only [List.mem_append, List.mem_cons, e, false_or] at hm ⊢
          exact hm
        exact (hpl.grp i this).2.1.symm
      · exact List.erase_of_not_mem (hal.not_sib h hi e)
  par i hi := by
    simp only [Forest.detach, Forest.attach]
    split
    · next e => rw [e, hal.par]
    · rfl

/-- Attaching a detached node where it was. -/
theorem Forest.WF.attach_detach (h : F.WF live) {y : NodeId} (hy : live y = true) :
    ((F.detach y).attach (F.par y) (F.sibs y) y).Agree F live where
  kids i hi := by
    simp only [Forest.detach, Forest.attach]
    split
    · next e => exact (h.par y hy i e).2.symm
    · next e => exact List.erase_of_not_mem fun hm => e ((h.kids_iff hi hy).1 hm)
  sibs i hi := by
    simp only [Forest.detach, Forest.attach]
    split
    · next hm => exact (h.mem_sibs hy hm).symm
    · next hm =>
      split
      · next e => exact absurd (e ▸ h.self_mem y hy) hm
      · exact List.erase_of_not_mem fun hc => hm (h.mem_symm hi hc)
  par i hi := by
    simp only [Forest.detach, Forest.attach]
    split
    · next e => rw [e]
    · rfl

/-- The place of `x` in the forest, for the node `y` which is alone. -/
theorem insBefore_place (h : F.WF live) {x y : NodeId} (hx : live x = true) (hne : x ≠ y) (hal : Alone F y) :
    ∃ a b, insBefore (F.sibs x) x y = a ++ y :: b ∧ Place F live (F.par x) a b ∧ y ∉ a ++ b := by
  obtain ⟨a, b, e, hn⟩ := exists_split (h.self_mem x hx)
  exact ⟨a, x :: b, by rw [e, insBefore_split hn], h.place_sibs hx e, by rw [← e]; exact hal.not_sib h hx hne⟩

theorem insAfter_place (h : F.WF live) {x y : NodeId} (hx : live x = true) (hne : x ≠ y) (hal : Alone F y) :
    ∃ a b, insAfter (F.sibs x) x y = a ++ y :: b ∧ Place F live (F.par x) a b ∧ y ∉ a ++ b := by
  obtain ⟨a, b, e, hn⟩ := exists_split (h.self_mem x hx)
  have e' : F.sibs x = (a ++ [x]) ++ b := by rw [e]; simp
  exact ⟨a ++ [x], b, by rw [e, insAfter_split hn]; simp, h.place_sibs hx e', by rw [← e']; exact hal.not_sib h hx hne⟩

/-- Whatever move took `y` away, detaching it gives the forest without it. -/
theorem Forest.WF.detach_moves (h : F.WF live) {x y : NodeId} (hx : live x = true) (hne : x ≠ y) :
    ((F.append x y).detach y).Agree (F.detach y) live ∧ ((F.prepend x y).detach y).Agree (F.detach y) live ∧
    ((F.insertAfter x y).detach y).Agree (F.detach y) live ∧ ((F.insertBefore x y).detach y).Agree (F.detach y) live := by
  have hw := h.detach y
  have hal := F.alone_detach y
  refine ⟨?_, ?_, ?_, ?_⟩
  · exact hw.detach_attach hal (a := (F.detach y).kids x) (b := []) (hw.place_kids hx (by simp)) (by simpa using hal.not_kid hw hx)
  · exact hw.detach_attach hal (a := []) (b := (F.detach y).kids x) (hw.place_kids hx (by simp)) (by simpa using hal.not_kid hw hx)
  · obtain ⟨a, b, e, hp, hn⟩ := insAfter_place hw hx hne hal
    unfold Forest.insertAfter
    rw [e]
    exact hw.detach_attach hal hp hn
  · obtain ⟨a, b, e, hp, hn⟩ := insBefore_place hw hx hne hal
    unfold Forest.insertBefore
    rw [e]
    exact hw.detach_attach hal hp hn

/-- The forest without `y`, and `y` put before the node that followed it. -/
theorem Forest.WF.back_before (h : F.WF live) {n y : NodeId} (hy : live y = true) (hn : after (F.sibs y) y = some n) :
    live n = true ∧ n ≠ y ∧ F.par n = F.par y ∧ ((F.detach y).insertBefore n y).Agree F live := by
  obtain ⟨a, b, e, ha, hb, h1, h2, h3⟩ := nodup_split (h.nodup y hy) (h.self_mem y hy)
  rw [e, after_split ha] at hn
  obtain ⟨b', rfl⟩ : ∃ b', b = n :: b' := by
    cases b with
    | nil => simp at hn
    | cons c t => simp at hn; exact ⟨t, by rw [hn]⟩
  have hm : n ∈ F.sibs y := by rw [e]; simp
  obtain ⟨hln, hsn, hpn⟩ := h.sib y hy n hm
  have hne : n ≠ y := fun e => hb (by simp [e])
  refine ⟨hln, hne, hpn, ?_⟩
  have hw := h.detach y
  have hal := F.alone_detach y
  have hd := hw.detach_alone hal
  have e1 : (F.detach y).sibs n = a ++ n :: b' := by
    simp only [Forest.detach, hne, if_false, hsn, e]
    exact erase_split ha
  have e2 : (F.detach y).par n = F.par y := by simp only [Forest.detach, hne, if_false, hpn]
  unfold Forest.insertBefore
  rw [hd.sibs n hln, hd.par n hln, e1, e2, insBefore_split fun hc => h3 n hc (by simp), ← e]
  exact (hd.attach _ _ _).trans (h.attach_detach hy)

theorem Forest.WF.back_after (h : F.WF live) {n y : NodeId} (hy : live y = true) (hn : before (F.sibs y) y = some n) :
    live n = true ∧ n ≠ y ∧ F.par n = F.par y ∧ ((F.detach y).insertAfter n y).Agree F live := by
  obtain ⟨a, b, e, ha, hb, h1, h2, h3⟩ := nodup_split (h.nodup y hy) (h.self_mem y hy)
  rw [e, before_split ha] at hn
  obtain ⟨a', rfl⟩ : ∃ a', a = a' ++ [n] := by
    rw [List.getLast?_eq_some_iff] at hn; exact hn
  have hm : n ∈ F.sibs y := by rw [e]; simp
  obtain ⟨hln, hsn, hpn⟩ := h.sib y hy n hm
  have hne : n ≠ y := fun e => ha (by simp [e])
  refine ⟨hln, hne, hpn, ?_⟩
  have hw := h.detach y
  have hal := F.alone_detach y
  have hd := hw.detach_alone hal
  have hna : n ∉ a' := by
    rw [List.nodup_append] at h1
    exact fun hc => h1.2.2 n hc n (by simp) rfl
  have e1 : (F.detach y).sibs n = a' ++ n :: b := by
    simp only [Forest.detach, hne, if_false, hsn, e]
    rw [erase_split ha]; simp
  have e2 : (F.detach y).par n = F.par y := by simp only [Forest.detach, hne, if_false, hpn]
  have e3 : a' ++ n :: y :: b = F.sibs y := by rw [e]; simp
  unfold Forest.insertAfter
  rw [hd.sibs n hln, hd.par n hln, e1, e2, insAfter_split hna, e3]
  exact (hd.attach _ _ _).trans (h.attach_detach hy)

theorem Forest.WF.back_append (h : F.WF live) {p y : NodeId} (hy : live y = true) (hn : after (F.sibs y) y = none)
    (hb : before (F.sibs y) y = none) (hp : F.par y = some p) : live p = true ∧ ((F.detach y).append p y).Agree F live := by
  obtain ⟨a, b, e, ha, _⟩ := nodup_split (h.nodup y hy) (h.self_mem y hy)
  rw [e, after_split ha] at hn
  rw [e, before_split ha] at hb
  have h1 : b = [] := by simpa using hn
  have h2 : a = [] := by simpa using hb
  subst h1 h2
  obtain ⟨hl, hk⟩ := h.par y hy p hp
  refine ⟨hl, ?_⟩
  have hd := (h.detach y).detach_alone (F.alone_detach y)
  have e1 : (F.detach y).kids p = [] := by simp [Forest.detach, hk, e]
  unfold Forest.append
  rw [hd.kids p hl, e1, ← hp]
  have : ([] : List NodeId) ++ [y] = F.sibs y := by rw [e]
  rw [this]
  exact (hd.attach _ _ _).trans (h.attach_detach hy)

theorem Forest.WF.back_alone (h : F.WF live) {y : NodeId} (hy : live y = true) (hn : after (F.sibs y) y = none)
    (hb : before (F.sibs y) y = none) (hp : F.par y = none) : (F.detach y).Agree F live := by
  obtain ⟨a, b, e, ha, _⟩ := nodup_split (h.nodup y hy) (h.self_mem y hy)
  rw [e, after_split ha] at hn
  rw [e, before_split ha] at hb
  have h1 : b = [] := by simpa using hn
  have h2 : a = [] := by simpa using hb
  subst h1 h2
  exact h.detach_alone ⟨e, hp⟩

end Svgdom
