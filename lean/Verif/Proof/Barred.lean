import Verif.Spec.Barred
import Verif.Proof.Respect

/-!
# Exactly when `remove_node` returns although the caller has borrowed nodes
-/

set_option autoImplicit false

namespace Svgdom

section
variable {g : Guards}

theorem not_barred {s : St} {S : List NodeId} : ¬ Barred g s S ↔
    (∀ m ∈ S, g m = .free) ∧ (∀ m ∈ S, ∀ j, s.live j = true → (s.Cites m j ∨ s.Cites j m) → g j = .free) ∧
    (∀ m ∈ S, ∀ j, s.live j = true → s.LinksTo j m → g j ≠ .excl) := by
  unfold Barred
  push Not
  rfl

theorem not_barred_append {s : St} {S S' : List NodeId} : ¬ Barred g s (S ++ S') ↔ ¬ Barred g s S ∧ ¬ Barred g s S' := by
  simp only [not_barred, List.mem_append]
  constructor
  · rintro ⟨h1, h2, h3⟩
    exact ⟨⟨fun m h => h1 m (.inl h), fun m h => h2 m (.inl h), fun m h => h3 m (.inl h)⟩,
      fun m h => h1 m (.inr h), fun m h => h2 m (.inr h), fun m h => h3 m (.inr h)⟩
  · rintro ⟨⟨h1, h2, h3⟩, h4, h5, h6⟩
    exact ⟨fun m h => h.elim (h1 m) (h4 m), fun m h => h.elim (h2 m) (h5 m), fun m h => h.elim (h3 m) (h6 m)⟩

/-- Removing `S` takes away only references with `S`, whose ends are not borrowed. -/
theorem barred_filtered {s t : St} {S S' : List NodeId} (hl : t.live = s.live)
    (ha : ∀ j, s.live j = true → t.attributes j = (s.attributes j).filter (survives S j)) (h : ¬ Barred g s S)
    (hS : ∀ m ∈ S', s.live m = true) (hd : ∀ m ∈ S', m ∉ S) : ¬ Barred g t S' ↔ ¬ Barred g s S' := by
  have hS1 := (not_barred.1 h).1
  have key : ∀ i j, s.live i = true → ∀ a : Attribute, a ∈ s.attributes i → a.value.refersTo j = true → i ∉ S → j ∉ S →
      a ∈ t.attributes i := by
    intro i j hi a hm hr h1 h2
    rw [ha i hi, List.mem_filter]
    refine ⟨hm, ?_⟩
    simp only [survives, h1, decide_false, Bool.false_and, Bool.false_or, Bool.not_eq_true', Bool.and_eq_false_iff]
    right
    rw [List.any_eq_false]
    intro n hn hrn
    rw [refersTo_iff] at hr hrn
    rw [hr] at hrn
    cases hrn
    exact h2 hn
  have sub : ∀ i, s.live i = true → ∀ a ∈ t.attributes i, a ∈ s.attributes i := fun i hi a hm => by
    rw [ha i hi] at hm; exact (List.mem_filter.1 hm).1
  simp only [not_barred, hl]
  refine and_congr_right fun _ => and_congr ?_ ?_
  · refine forall_congr' fun m => forall_congr' fun hm => forall_congr' fun j => forall_congr' fun hj => ?_
    constructor
    · intro h1 h2
      by_cases hjS : j ∈ S
      · exact hS1 j hjS
      · refine h1 ?_
        rcases h2 with ⟨a, h3, h4, h5⟩ | ⟨a, h3, h4, h5⟩
        · exact .inl ⟨a, key m j (hS m hm) a h3 h5 (hd m hm) hjS, h4, h5⟩
        · exact .inr ⟨a, key j m hj a h3 h5 hjS (hd m hm), h4, h5⟩
    · intro h1 h2
      refine h1 ?_
      rcases h2 with ⟨a, h3, h4, h5⟩ | ⟨a, h3, h4, h5⟩
      · exact .inl ⟨a, sub m (hS m hm) a h3, h4, h5⟩
      · exact .inr ⟨a, sub j hj a h3, h4, h5⟩
  · refine forall_congr' fun m => forall_congr' fun hm => forall_congr' fun j => forall_congr' fun hj => ?_
    constructor
    · rintro h1 ⟨a, h3, h5⟩
      by_cases hjS : j ∈ S
      · rw [hS1 j hjS]; simp
      · exact h1 ⟨a, key j m hj a h3 h5 hjS (hd m hm), h5⟩
    · rintro h1 ⟨a, h3, h5⟩
      exact h1 ⟨a, sub j hj a h3, h5⟩

theorem hasAttribute_iff {s : St} {i : NodeId} {x : AName} : s.hasAttribute i x = true ↔ ∃ a ∈ s.attributes i, a.name = x := by
  unfold St.hasAttribute
  exact attrsContains_iff

theorem oldTarget_of {s : St} {i : NodeId} (hn : NamesNodup (s.attributes i)) {a : Attribute} (ha : a ∈ s.attributes i) :
    s.oldTarget i a.name = a.value.linkNode := by
  simp [St.oldTarget, attrsGetValue, attrsGet_mem hn ha]

theorem removeAttributesG_ok {i : NodeId} : ∀ (names : List AName) {s t : St}, Inv s → s.live i = true →
    s.removeAttributes i names = .ok t →
    (s.removeAttributesG g i names = .ok t ↔ (names = [] ∨ g i ≠ .excl) ∧
      ∀ a ∈ s.attributes i, a.name ∈ names → g i = .free ∧ ∀ n, a.value.linkNode = some n → g n = .free)
  | [], s, t, _, _, e => by
    simp only [St.removeAttributes] at e
    simp [St.removeAttributesG, e]
  | x :: names, s, t, h, hi, e => by
    have e0 := St.removeAttribute_ok h.link hi x
    have h1 := delAttr_filtered h hi x
    have hi1 : (s.delAttr i x).live i = true := by rw [h1.else_.live]; exact hi
    simp only [St.removeAttributes, e0, bind_ok_left] at e
    have ih := removeAttributesG_ok (i := i) names h1.inv hi1 e
    have hnd := h.link.names i hi
    have hm : ∀ a, a ∈ (s.delAttr i x).attributes i ↔ a ∈ s.attributes i ∧ a.name ≠ x := by
      intro a
      rw [h1.attrs i hi, List.mem_filter]
      simp
    simp only [St.removeAttributesG]
    rw [removeAttributeG_eq e0]
    by_cases hc : g i = .excl ∨ (s.hasAttribute i x = true ∧ Guarded g (i :: (s.oldTarget i x).toList))
    · rw [if_pos hc]
      simp only [bind, Except.bind, reduceCtorEq, false_iff]
      rintro ⟨h2, h3⟩
      rcases hc with hc | ⟨hh, hg⟩
      · simp [hc] at h2
      · obtain ⟨a, ha, rfl⟩ := hasAttribute_iff.1 hh
        obtain ⟨h4, h5⟩ := h3 a ha (by simp)
        rw [oldTarget_of hnd ha, guarded_cons, guarded_toList] at hg
        rcases hg with hg | ⟨n, hn, hg⟩
        · exact hg h4
        · exact hg (h5 n hn)
    · rw [if_neg hc, bind_ok_left, ih]
      push Not at hc
      obtain ⟨hx, hc⟩ := hc
      have hfirst : ∀ a ∈ s.attributes i, a.name = x → g i = .free ∧ ∀ n, a.value.linkNode = some n → g n = .free := by
        rintro a ha rfl
        have := hc (hasAttribute_iff.2 ⟨a, ha, rfl⟩)
        rw [oldTarget_of hnd ha, guarded_cons, guarded_toList] at this
        push Not at this
        exact this
      constructor
      · rintro ⟨_, h3⟩
        refine ⟨.inr hx, fun a ha hm' => ?_⟩
        by_cases hax : a.name = x
        · exact hfirst a ha hax
        · exact h3 a ((hm a).2 ⟨ha, hax⟩) ((List.mem_cons.1 hm').resolve_left hax)
      · rintro ⟨_, h3⟩
        exact ⟨.inr hx, fun a ha hm' => h3 a ((hm a).1 ha).1 (by simp [hm'])⟩

theorem mem_linkNamesTo {s : St} {l c : NodeId} {x : AName} :
    x ∈ s.linkNamesTo l c ↔ ∃ a ∈ s.attributes l, a.isSvg = true ∧ a.value.linkNode = some c ∧ a.name = x := by
  have := mem_filterSvg (l := s.attributes l) (p := fun a => decide (a.value.linkNode = some c)) (n := x)
  simp only [decide_eq_true_eq] at this
  exact this

theorem mem_ownLinkNames {s : St} {c : NodeId} {x : AName} :
    x ∈ s.ownLinkNames c ↔ ∃ a ∈ s.attributes c, a.isSvg = true ∧ a.value.isLinkContainer = true ∧ a.name = x :=
  mem_filterSvg (l := s.attributes c) (p := fun a => a.value.isLinkContainer) (n := x)

theorem unlinkIncomingG_ok {c : NodeId} (hc : g c = .free) : ∀ (ls : List NodeId) {s t : St}, Inv s → (∀ l ∈ ls, s.live l = true) →
    s.unlinkIncoming c ls = .ok t →
    (s.unlinkIncomingG g c ls = .ok t ↔ ∀ l ∈ ls, g l ≠ .excl ∧ (s.Cites l c → g l = .free))
  | [], s, t, _, _, e => by
    simp only [St.unlinkIncoming] at e
    simp [St.unlinkIncomingG, e]
  | l :: ls, s, t, h, hl, e => by
    have hll := hl l (by simp)
    obtain ⟨s1, e1, h1⟩ := linkNamesTo_filtered h c hll
    simp only [St.unlinkIncoming, e1, bind_ok_left] at e
    have ih := unlinkIncomingG_ok hc ls h1.inv (fun m hm => by rw [h1.else_.live]; exact hl m (by simp [hm])) e
    have hA := removeAttributesG_ok (g := g) _ h hll e1
    have hnd := h.link.names l hll
    have hcit : (∀ a ∈ s.attributes l, a.name ∈ s.linkNamesTo l c → g l = .free ∧ ∀ n, a.value.linkNode = some n → g n = .free) ↔
        (s.Cites l c → g l = .free) := by
      constructor
      · rintro h2 ⟨a, ha, hs, hr⟩
        exact (h2 a ha (mem_linkNamesTo.2 ⟨a, ha, hs, refersTo_iff.1 hr, rfl⟩)).1
      · intro h2 a ha hm
        obtain ⟨b, hb, hs, hr, hn⟩ := mem_linkNamesTo.1 hm
        have := eq_of_names hnd hb ha hn
        subst this
        refine ⟨h2 ⟨b, hb, hs, refersTo_iff.2 hr⟩, fun n hn => ?_⟩
        rw [hr] at hn; cases hn; exact hc
    rw [hcit] at hA
    have hcit1 : ∀ m, s.live m = true → (s1.Cites m c ↔ m ≠ l ∧ s.Cites m c) := by
      intro m hm
      constructor
      · rintro ⟨a, ha, hs, hr⟩
        rw [h1.attrs m hm, List.mem_filter] at ha
        refine ⟨fun e => ?_, a, ha.1, hs, hr⟩
        have := ha.2
        simp [e, hs, hr] at this
      · rintro ⟨hne, a, ha, hs, hr⟩
        refine ⟨a, ?_, hs, hr⟩
        rw [h1.attrs m hm, List.mem_filter]
        exact ⟨ha, by simp [hne]⟩
    simp only [St.unlinkIncomingG]
    by_cases hx : g l = .excl
    · rw [rd_excl hx]
      simp only [bind, Except.bind, reduceCtorEq, false_iff]
      intro h2
      exact (h2 l (by simp)).1 hx
    rw [rd_ok hx, bind_ok_left]
    constructor
    · intro e2
      rw [bind_ok] at e2
      obtain ⟨u, e3, e4⟩ := e2
      have e3' := (Respects.removeAttributes _ s l).eq_ok e3
      rw [e1] at e3'; cases e3'
      have h2 := (hA.1 e3).2
      have h3 := ih.1 e4
      intro m hm
      by_cases hml : m = l
      · subst hml; exact ⟨hx, h2⟩
      · have hm' := (List.mem_cons.1 hm).resolve_left hml
        exact ⟨(h3 m hm').1, fun h4 => (h3 m hm').2 ((hcit1 m (hl m hm)).2 ⟨hml, h4⟩)⟩
    · intro h2
      rw [hA.2 ⟨.inr hx, (h2 l (by simp)).2⟩, bind_ok_left]
      refine ih.2 fun m hm => ?_
      have hm' := h2 m (by simp [hm])
      exact ⟨hm'.1, fun h4 => hm'.2 ((hcit1 m (hl m (by simp [hm]))).1 h4).2⟩

/-- document.rs:243-279: both loops together. -/
theorem unlinkG_ok {s t u : St} (h : Inv s) {c : NodeId} (hc : s.live c = true) (hg : g c = .free)
    (e1 : s.removeAttributes c (s.ownLinkNames c) = .ok t) (e2 : t.unlinkIncoming c (t.linkedNodes c) = .ok u) :
    (s.removeAttributesG g c (s.ownLinkNames c) = .ok t ∧ t.unlinkIncomingG g c (t.linkedNodes c) = .ok u) ↔
      ¬ Barred g s [c] := by
  obtain ⟨t', e1', h1⟩ := ownLinks_filtered h hc
  rw [e1] at e1'; cases e1'
  have hc1 : t.live c = true := by rw [h1.else_.live]; exact hc
  rw [removeAttributesG_ok _ h hc e1, unlinkIncomingG_ok hg _ h1.inv (h1.inv.link.back c hc1) e2, not_barred]
  have hnd := h.link.names c hc
  have hself : ¬ s.LinksTo c c := by
    rw [linksTo_iff, h.link.noSelf c hc]; simp
  have hat : ∀ j, s.live j = true → j ≠ c → t.attributes j = s.attributes j := by
    intro j hj hne
    rw [h1.attrs j hj]
    exact List.filter_eq_self.2 fun a _ => by simp [hne]
  have hback : ∀ j, s.live j = true → (j ∈ t.linkedNodes c ↔ s.LinksTo j c) := by
    intro j hj
    have hj1 : t.live j = true := by rw [h1.else_.live]; exact hj
    rw [← List.count_pos_iff, h1.inv.link.count j c hj1 hc1]
    by_cases hne : j = c
    · subst hne
      rw [h1.inv.link.noSelf j hc1]
      simp [hself]
    · rw [hat j hj hne, linksTo_iff]
  have cites_links : ∀ i j, s.Cites i j → s.LinksTo i j := fun i j ⟨a, h2, _, h3⟩ => ⟨a, h2, h3⟩
  constructor
  · rintro ⟨⟨_, h2⟩, h3⟩
    refine ⟨by simpa using hg, ?_, ?_⟩
    · intro m hm j hj h4
      rw [List.mem_singleton] at hm; subst hm
      rcases h4 with ⟨a, ha, hs, hr⟩ | h4
      · rw [refersTo_iff] at hr
        refine (h2 a ha (mem_ownLinkNames.2 ⟨a, ha, hs, ?_, rfl⟩)).2 j hr
        revert hr
        cases a.value <;> simp [AttributeValue.linkNode, AttributeValue.isLinkContainer]
      · have hne : j ≠ m := by rintro rfl; exact hself (cites_links _ _ h4)
        refine (h3 j ((hback j hj).2 (cites_links _ _ h4))).2 ?_
        unfold St.Cites
        rw [hat j hj hne]
        exact h4
    · intro m hm j hj h4
      rw [List.mem_singleton] at hm; subst hm
      exact (h3 j ((hback j hj).2 h4)).1
  · rintro ⟨_, h2, h3⟩
    refine ⟨⟨.inr (by simp [hg]), fun a ha hm => ⟨hg, fun n hn => ?_⟩⟩, fun l hl => ?_⟩
    · obtain ⟨b, hb, hs, _, e⟩ := mem_ownLinkNames.1 hm
      have := eq_of_names hnd hb ha e
      subst this
      exact h2 c (by simp) n (h.link.targets c hc b hb n hn) (.inl ⟨b, hb, hs, refersTo_iff.2 hn⟩)
    · have hlive : s.live l = true := by
        have := h1.inv.link.back c hc1 l hl
        rwa [h1.else_.live] at this
      have h4 := (hback l hlive).1 hl
      refine ⟨h3 c (by simp) l hlive h4, fun h5 => h2 c (by simp) l hlive (.inr ?_)⟩
      have hne : l ≠ c := by rintro rfl; exact hself h4
      unfold St.Cites at h5
      rwa [hat l hlive hne] at h5

theorem childrenG_ok {s : St} {i : NodeId} (h : g i ≠ .excl) : s.childrenG g i = .ok (s.children i) := by
  unfold St.childrenG St.firstChildG St.lastChildG
  simp [rd_ok h, bind, Except.bind, pure, Except.pure, St.children]

theorem childrenNextG_ok {s : St} {it : Children} (h1 : ∀ n, it.nextBack = some n → g n ≠ .excl)
    (h2 : s.childrenFinished it = false → ∀ n, it.next = some n → g n ≠ .excl) :
    s.childrenNextG g it = .ok (s.childrenNext it) := by
  unfold St.childrenNextG St.childrenNext St.childrenFinishedG St.nextSiblingG
  unfold St.childrenFinished at h2 ⊢
  cases hb : it.nextBack with
  | none => rfl
  | some nb =>
    simp only [rd_ok (h1 nb hb), bind_ok_left, hb] at h2 ⊢
    by_cases h : decide (s.nextSibling nb = it.next) = true
    · simp only [h, if_true, pure_bind]
      rfl
    · simp only [h, Bool.false_eq_true, if_false, pure_bind]
      cases hn : it.next with
      | none => rfl
      | some n =>
        have := h2 (Bool.eq_false_of_not_eq_true h) n hn
        simp only [rd_ok this, bind_ok_left]
        rfl

theorem pre_or_parent {F : Forest} : ∀ {T : Trees} {l : List NodeId}, T.Of F l → ∀ x ∈ T.pre, x ∈ l ∨ ∃ q ∈ T.pre, x ∈ F.kids q
  | .nil, _, _, x, hx => by simp [Trees.pre] at hx
  | .cons c K R, l, h, x, hx => by
    obtain ⟨l', rfl, hK, hR⟩ := h
    simp only [Trees.pre, List.mem_cons, List.mem_append] at hx ⊢
    rcases hx with rfl | hx | hx
    · exact .inl (.inl rfl)
    · right
      rcases pre_or_parent hK x hx with h1 | ⟨q, h1, h2⟩
      · exact ⟨c, .inl rfl, h1⟩
      · exact ⟨q, .inr (.inl h1), h2⟩
    · rcases pre_or_parent hR x hx with h1 | ⟨q, h1, h2⟩
      · exact .inl (.inr h1)
      · exact .inr ⟨q, .inr (.inr h1), h2⟩

theorem around_prune {s t : St} {F : Forest} (hF : Describes s F) {c : NodeId} (hc : s.live c = true) {K : Trees}
    (hK : K.Of F (F.kids c)) (hn : c ∉ K.pre) (hp : F.par c ≠ some c) (hl : t.live = s.live) (hd : Describes t (F.prune K.pre)) :
    t.around c = s.around c := by
  have hlive : ∀ m ∈ K.pre, s.live m = true := pre_live hF hK fun x hx => (hF.wf.kids c hc x hx).1
  have hct : t.live c = true := by rw [hl]; exact hc
  have hpar : (F.prune K.pre).par c = F.par c := by simp [Forest.prune, hn]
  have hsib : (F.prune K.pre).sibs c = F.sibs c := by
    simp only [Forest.prune, hn, if_false]
    refine filter_all fun x hx hm => ?_
    obtain ⟨hxl, -, hxp⟩ := hF.wf.sib c hc x hx
    rcases pre_or_parent hK x hm with hq | ⟨q, hqm, hq⟩
    · rw [(hF.wf.kids c hc x hq).2] at hxp
      exact hp hxp.symm
    · rw [(hF.wf.kids q (hlive q hqm) x hq).2] at hxp
      obtain ⟨hql, hqk⟩ := hF.wf.par c hc q hxp.symm
      exact hn (hK.kids_pre q hqm c (by rw [hqk]; exact hF.wf.self_mem c hc))
  unfold St.around
  rw [hd.shows.next c hct, hd.shows.prev c hct, hd.shows.parent c hct, hpar, hsib, hF.shows.next c hc, hF.shows.prev c hc,
    hF.shows.parent c hc]

/-- The loop over the children, whose parent is not borrowed. -/
def KidsBarred (g : Guards) (K : Trees) : Prop :=
  ∀ (k : Nat) (s t : St) (F : Forest) (p : NodeId) (it : Children), Inv s → Describes s F → s.live p = true →
    K.Of F (F.kids p) → (p :: K.pre).Nodup → ItOk s (F.kids p) it → 2 * K.pre.length + 1 ≤ k → g p = .free →
    (∀ n, it.nextBack = some n → g n = .free ∨ n ∈ K.pre) → St.removeKids k s it = .ok t →
    (St.removeKidsG g k s it = .ok t ↔ ¬ Barred g s K.pre)

theorem removeAuxG_of_kids {K : Trees} (hK : KidsBarred g K) {k : Nat} {s t : St} {F : Forest} {c : NodeId} (h : Inv s)
    (hF : Describes s F) (hc : s.live c = true) (ho : K.Of F (F.kids c)) (hn : (c :: K.pre).Nodup)
    (hk : 2 * K.pre.length + 2 ≤ k) (e : St.removeAux k s c = .ok t) :
    St.removeAuxG g k s c = .ok t ↔ ¬ Barred g s (c :: K.pre) ∧ ¬ Guarded g (s.around c) := by
  obtain ⟨k, rfl⟩ : ∃ m, k = m + 1 := ⟨k - 1, by omega⟩
  obtain ⟨s1, s2, e1, e2, hf⟩ := unlink_filtered h hc
  have hF2 := hF.frame hf.else_.links hf.else_.live
  have hc2 : s2.live c = true := by rw [hf.else_.live]; exact hc
  obtain ⟨s3, e3, h3, r3, d3, -⟩ := kidsSpec K k s2 F c (s2.children c) hf.inv hF2 hc2 ho hn (itOk_children hF2 hc2) (by omega)
  have hn' := List.nodup_cons.1 hn
  have hp0 : F.par c ≠ some c := fun e => hn'.1 (ho.mem_pre c ((hF.wf.kids_iff hc hc).2 e))
  have har : s3.around c = s.around c := by
    rw [around_prune hF2 hc2 ho hn'.1 hp0 r3.live d3]
    unfold St.around St.nextSibling St.prevSibling St.parent St.upgrade
    rw [hf.else_.links, hf.else_.live]
  have hkl : ∀ m ∈ K.pre, s.live m = true := pre_live hF ho fun x hx => (hF.wf.kids c hc x hx).1
  have hkids : g c = .free → ¬ Barred g s [c] → (St.removeKidsG g k s2 (s2.children c) = .ok s3 ↔ ¬ Barred g s K.pre) := by
    intro hg hb
    rw [hK k s2 s3 F c _ hf.inv hF2 hc2 ho hn (itOk_children hF2 hc2) (by omega) hg ?_ e3]
    · exact barred_filtered hf.else_.live hf.attrs hb hkl fun m hm hmc => hn'.1 (List.mem_singleton.1 hmc ▸ hm)
    · intro n hnb
      right
      have : s2.lastChild c = some n := hnb
      rw [hF2.shows.last c hc2] at this
      exact ho.mem_pre n (List.mem_of_getLast? this)
  have e' := e
  simp only [St.removeAux, e1, bind_ok_left, e2, e3] at e'
  have happ : c :: K.pre = [c] ++ K.pre := rfl
  rw [happ, not_barred_append]
  constructor
  · intro eG
    simp only [St.removeAuxG, bind_ok] at eG
    obtain ⟨_, _, u1, f1, _, _, u2, f2, it, f3, u3, f4, u4, f5, f6⟩ := eG
    have g1 := (Respects.removeAttributes _ s c).eq_ok f1
    rw [e1] at g1; cases g1
    have g2 := (Respects.unlinkIncoming _ s1 c).eq_ok f2
    rw [e2] at g2; cases g2
    have g3 := (Respects.children (s := s2) (i := c)).eq_ok f3
    cases g3
    have g4 := ((Respects.removeAux k).2 s2 _).eq_ok f4
    rw [e3] at g4; cases g4
    rw [detachG_eq] at f5
    have hg : ¬ Guarded g (c :: s3.around c) := by
      intro hg; rw [if_pos hg] at f5; cases f5
    rw [guarded_cons, har] at hg
    push Not at hg
    have hb := (unlinkG_ok h hc hg.1 e1 e2).1 ⟨f1, f2⟩
    exact ⟨⟨hb, (hkids hg.1 hb).1 f4⟩, hg.2⟩
  · rintro ⟨⟨hb, hbK⟩, ha⟩
    have hg : g c = .free := (not_barred.1 hb).1 c (by simp)
    obtain ⟨f1, f2⟩ := (unlinkG_ok h hc hg e1 e2).2 hb
    simp only [St.removeAuxG, rd_free hg, bind_ok_left, f1, f2, childrenG_ok (show g c ≠ .excl by simp [hg]), (hkids hg hb).2 hbK]
    rw [detachG_eq, if_neg (by rw [guarded_cons, har]; push Not; exact ⟨hg, ha⟩)]
    rw [bind_ok] at e' ⊢
    obtain ⟨u, e5, e6⟩ := e'
    refine ⟨u, e5, ?_⟩
    unfold St.finishRemoveG
    rw [wr_nil hg, bind_ok_left]
    exact e6

theorem kidsBarred : ∀ K : Trees, KidsBarred g K
  | .nil => by
    intro k s t F p it h hF hp ho hn hit hk hg hb e
    simp only [Trees.Of] at ho
    obtain ⟨k, rfl⟩ : ∃ m, k = m + 1 := ⟨k - 1, by omega⟩
    rw [ItOk, if_pos ho] at hit
    have : ¬ Barred g s Trees.nil.pre := by simp [not_barred, Trees.pre]
    simp only [this, not_false_eq_true, iff_true]
    simp only [St.removeKids] at e
    simp only [St.removeKidsG]
    rw [childrenNextG_ok (fun n hn' => by
        rcases hb n hn' with h1 | h1
        · simp [h1]
        · simp [Trees.pre] at h1) (by simp [hit]), bind_ok_left]
    have hx : s.childrenNext it = (none, it) := by simp [St.childrenNext, hit]
    simp only [hx] at e ⊢
    exact e
  | .cons c K R => by
    intro k s t F p it h hF hp ho hn hit hk hg hb e
    obtain ⟨l', hl', hoK, hoR⟩ := ho
    simp only [Trees.pre, List.length_cons, List.length_append] at hk
    obtain ⟨k, rfl⟩ : ∃ m, k = m + 1 := ⟨k - 1, by omega⟩
    have hck : c ∈ F.kids p := by rw [hl']; simp
    obtain ⟨hc, hcp⟩ := hF.wf.kids p hp c hck
    simp only [Trees.pre, List.nodup_cons, List.mem_cons, List.mem_append, not_or, List.nodup_append] at hn
    obtain ⟨⟨hpc, hpK, hpR⟩, ⟨hcK, hcR⟩, hnK, hnR, hKR⟩ := hn
    obtain ⟨s1, e1, h1, r1, d1, -⟩ := removeAux_of_kids (kidsSpec K) (k := k) h hF hc hoK (by simp [hcK, hnK]) (by omega)
    have hp1 : s1.live p = true := by rw [r1.live]; exact hp
    have hdR : ∀ j ∈ R.pre, j ∉ c :: K.pre := by
      intro j hj hm
      rcases List.mem_cons.1 hm with rfl | hm
      · exact hcR hj
      · exact hKR j hm j hj rfl
    have hkp : (F.prune (c :: K.pre)).kids p = l' := by
      have : p ∉ c :: K.pre := by simp [hpc, hpK]
      simp only [Forest.prune, this, if_false, hl']
      rw [List.filter_cons]
      simp only [List.mem_cons, true_or, not_true, decide_false, Bool.false_eq_true, if_false]
      have := filter_all (l := l') (S := c :: K.pre) fun x hx => hdR x (hoR.mem_pre x hx)
      simpa using this
    have hnx : s.nextSibling c = l'.head? := by
      rw [hF.shows.next c hc, ← hF.wf.kids_sibs hp hck, hl']; simp [after]
    have hpv : s.prevSibling c = none := by
      rw [hF.shows.prev c hc, ← hF.wf.kids_sibs hp hck, hl']
      cases l' <;> simp [before]
    rw [ItOk, if_neg (by rw [hl']; simp), hl'] at hit
    have hfin : s.childrenFinished it = false := by
      rw [hit]
      simp only [St.childrenFinished, List.head?_cons]
      cases hg : (c :: l').getLast? with
      | none => simp at hg
      | some nb =>
        have hnbm : nb ∈ F.kids p := by rw [hl']; exact List.mem_of_getLast? hg
        have hnb := (hF.wf.kids p hp nb hnbm).1
        have : s.nextSibling nb = none := by
          rw [hF.shows.next nb hnb, ← hF.wf.kids_sibs hp hnbm]
          exact after_last_none (hF.wf.kids_nodup hp) (by rw [hl']; exact hg)
        simp [this]
    have hstep : s.childrenNext it = (some c, ⟨l'.head?, (c :: l').getLast?⟩) := by
      simp only [St.childrenNext, hfin, Bool.false_eq_true, if_false]
      rw [hit]
      simp [hnx]
    have hit1 : ItOk s1 ((F.prune (c :: K.pre)).kids p) ⟨l'.head?, (c :: l').getLast?⟩ := by
      rw [hkp, ItOk]
      split
      · next e =>
        subst e
        have hc1 : s1.live c = true := by rw [r1.live]; exact hc
        have : s1.nextSibling c = none := by
          rw [d1.shows.next c hc1]; simp [Forest.prune, after]
        simp [St.childrenFinished, this]
      · next e =>
        cases l' with
        | nil => exact absurd rfl e
        | cons x l => simp
    have hoR1 : R.Of (F.prune (c :: K.pre)) ((F.prune (c :: K.pre)).kids p) := by rw [hkp]; exact hoR.prune hdR
    have hrl : ∀ m ∈ R.pre, s.live m = true :=
      pre_live hF hoR fun x hx => (hF.wf.kids p hp x (by rw [hl']; simp [hx])).1
    simp only [St.removeKids, hstep, e1, bind_ok_left] at e
    have hA := removeAuxG_of_kids (kidsBarred K) h hF hc hoK (by simp [hcK, hnK]) (by omega) e1
    have hB : ¬ Barred g s (c :: K.pre) → (St.removeKidsG g k s1 ⟨l'.head?, (c :: l').getLast?⟩ = .ok t ↔ ¬ Barred g s R.pre) := by
      intro hnb
      rw [kidsBarred R k s1 t _ p _ h1 d1 hp1 hoR1 (by simp [hpR, hnR]) hit1 (by omega) hg ?_ e]
      · exact barred_filtered r1.live r1.attrs hnb hrl hdR
      · intro n hn
        have hm := List.mem_of_getLast? (l := c :: l') hn
        rcases List.mem_cons.1 hm with rfl | hm
        · exact .inl ((not_barred.1 hnb).1 n (by simp))
        · exact .inr (hoR.mem_pre n hm)
    have happ : (Trees.cons c K R).pre = (c :: K.pre) ++ R.pre := rfl
    rw [happ, not_barred_append]
    simp only [St.removeKidsG]
    constructor
    · intro eG
      rw [bind_ok] at eG
      obtain ⟨x, f1, f2⟩ := eG
      have g1 := (Respects.childrenNext (s := s) (it := it)).eq_ok f1
      cases g1
      rw [hstep] at f2
      simp only [bind_ok] at f2
      obtain ⟨u, f2, f3⟩ := f2
      have g2 := ((Respects.removeAux k).1 s c).eq_ok f2
      rw [e1] at g2; cases g2
      have hnb := (hA.1 f2).1
      exact ⟨hnb, (hB hnb).1 f3⟩
    · rintro ⟨hnb, hnR'⟩
      have hfree : ∀ m ∈ c :: l', g m = .free := by
        intro m hm
        rcases List.mem_cons.1 hm with rfl | hm
        · exact (not_barred.1 hnb).1 m (by simp)
        · exact (not_barred.1 hnR').1 m (hoR.mem_pre m hm)
      rw [childrenNextG_ok, bind_ok_left, hstep]
      · have hgd : ¬ Guarded g (s.around c) := by
          unfold St.around
          rw [hnx, hpv, hF.shows.parent c hc, hcp, guarded_append, guarded_toList, guarded_toList]
          push Not
          constructor
          · intro n hn
            cases l' with
            | nil => simp at hn; rw [← hn]; exact hg
            | cons x l => simp at hn; rw [← hn]; exact hfree x (by simp)
          · intro n hn; simp at hn; rw [← hn]; exact hg
        simp only [hA.2 ⟨hnb, hgd⟩, bind_ok_left]
        exact (hB hnb).2 hnR'
      · intro n hn
        rw [hit] at hn
        rw [hfree n (List.mem_of_getLast? hn)]; simp
      · intro _ n hn
        rw [hit] at hn
        simp at hn
        rw [← hn, hfree c (by simp)]; simp

end

end Svgdom
