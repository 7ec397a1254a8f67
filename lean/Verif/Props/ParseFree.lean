import Verif.Proof.ParseFreeAll
import Verif.Props.Memory

/-!
# C102: freeing nodes while parsing

`g` says which of the unreferenced nodes are freed at each point; the theorems hold for all `g`.
-/

set_option autoImplicit false

namespace Svgdom

/-- The run of the parser that frees nodes beside the one that does not, up to the last drop. -/
theorem parse_beside {L : Lib} {debug : Bool} {x : Xml} {t : St} (g : St → List NodeId) (e : parseSvg L debug x = .ok t) :
    ∃ p T G s2 s3 u s, Front L debug x p T G s2 s3 ∧ Prepared s3 (G.prune (T.gone p.dom.styleNode)) (T.keep p.dom.styleNode) u t ∧
      parseSvgF g L debug x = .ok (s.collect [] (g s)) ∧ Thinned s t ∧ ∀ l ∈ p.links, s.live l.node = true := by
  obtain ⟨_, p, T, G, s2, s3, u, f, hp⟩ := parse_ok e
  obtain ⟨c, hd⟩ := f.drain
  have e' := e
  simp only [parseSvg, cssTexts_eq, f.proc, bind, Except.bind] at e'
  cases hsv : p.dom.svgElement with
  | error y => rw [hsv] at e'; simp [okOrFail] at e'
  | ok o =>
  cases o with
  | none => rw [hsv] at e'; simp [okOrFail] at e'
  | some m =>
  have ht : s3.prepareText = .ok t := by
    rw [hsv, hd] at e'
    simp only [okOrFail, f.resolve] at e'
    cases hq : s3.prepareText with
    | error y => rw [hq] at e'; simp at e'
    | ok t1 => rw [hq] at e'; simpa using e'
  have hlk : ∀ i ∈ p.links.map PLink.node, p.dom.live i = true := by
    intro i hi
    obtain ⟨l, hl, rfl⟩ := List.mem_map.1 hi
    have hl3 : l ∈ (svgDom L x).plinks T := by rw [f.adds.links] at hl; simpa using hl
    exact (f.adds.grown.live _).2 (.inr (f.adds.is.plink_nodes l hl3).1)
  obtain ⟨v1, g1, h1, l1⟩ := Thinned.drain (g := g) (held := p.links.map PLink.node)
    (f := fun s n => s.hasTagName n (.id .Style))
    (fun h hn => by
      have := congrArg Look.tag (h.look hn)
      simp only [St.look] at this
      simp only [St.hasTagName, this]) (Thinned.refl f.adds.built.reachable f.adds.built.acyclic) f.adds.built.rootLive hlk hd
  obtain ⟨v2, g2, h2, l2⟩ := Thinned.resolveLinks (g := g) h1 (fun l hl => List.mem_map_of_mem hl) l1 f.resolve
  obtain ⟨v3, g3, h3, l3⟩ := Thinned.prepareText (g := g) h2 l2 ht
  refine ⟨p, T, G, s2, s3, u, v3, f, hp, ?_, h3, fun l hl => l3 _ (List.mem_map_of_mem hl)⟩
  simp only [parseSvgF, cssTexts_eq, f.proc, bind, Except.bind, hsv, okOrFail, g1, g2, g3, pure, Except.pure]

/-- C102: whatever is freed on the way, the parser returns a document exactly if it does so without freeing, and this document is what is
left of the other one in the sense of C97. -/
theorem C102_parse {L : Lib} {debug : Bool} {x : Xml} {t : St} (g : St → List NodeId) (e : parseSvg L debug x = .ok t) :
    ∃ s P R X Y, parseSvgF g L debug x = .ok s ∧ Outlived s t P R X Y := by
  obtain ⟨_, _, _, _, _, _, s, _, _, h, hs, _⟩ := parse_beside g e
  obtain ⟨P, R, X, Y, ho⟩ := (hs.collect [] (g s)).1
  exact ⟨_, P, R, X, Y, h, ho⟩

/-- C102: the same for `remove_node` alone, with nodes freed inside its recursion; the nodes of which the caller has a handle stay. -/
theorem C102_remove {s : St} (h : Reachable s) (ha : s.Acyclic) {i : NodeId} (hi : s.live i = true) {held : List NodeId}
    (hh : ∀ j ∈ held, s.live j = true) (g : St → List NodeId) :
    ∃ t u P R X Y, s.removeNode i = .ok t ∧ s.removeNodeF g held i = .ok u ∧ Outlived u t P R X Y ∧
      ∀ j ∈ i :: held, u.live j = true := by
  obtain ⟨F, hti⟩ := h.inv.tree
  have hF := hti.reps.describes
  obtain ⟨K, hK⟩ := trees_exist h.inv hF ha (F.kids i) fun c hc => (hF.wf.kids i hi c hc).1
  obtain ⟨t, e, _⟩ := removeNode_spec h.inv ha hF hi hK
  obtain ⟨u, f, ⟨P, R, X, Y, ho⟩, l⟩ := (Thinned.refl h ha).removeNode (g := g) hi hh e
  exact ⟨t, u, P, R, X, Y, e, f, ho, l⟩

/-- In the document of C50 the `svg` element with three nodes below it can be removed by a caller who has a handle of one of them. -/
example : ∃ s i held, Reachable s ∧ s.Acyclic ∧ s.live i = true ∧ (∀ j ∈ held, s.live j = true) ∧ s.hasChildren i = true ∧
    held = [2] ∧ s.parent 2 = some i := by
  obtain ⟨t, e, hp⟩ := exists_of_parsed (x := styleRefXml) (p := fun t => t.live 1 && t.live 2 && t.hasChildren 1 &&
    decide (t.parent 2 = some 1)) (by decide +kernel)
  simp only [Bool.and_eq_true, decide_eq_true_eq] at hp
  obtain ⟨_, _, _, _, _, _, ho⟩ := C102_parse (fun _ => []) e
  exact ⟨t, 1, [2], ho.reach', ho.acyclic', hp.1.1.1, by simpa using hp.1.1.2, hp.1.2, rfl, hp.2⟩

/-- C102: and for `drain`. -/
theorem C102_drain {s : St} (h : Reachable s) (ha : s.Acyclic) {i : NodeId} (hi : s.live i = true) {held : List NodeId}
    (hh : ∀ j ∈ held, s.live j = true) (g : St → List NodeId) {f : St → NodeId → Bool} (hf : LooksAtNode f) :
    ∃ t u n P R X Y, s.drain i f = .ok (t, n) ∧ s.drainF g held i f = .ok (u, n) ∧ Outlived u t P R X Y ∧
      ∀ j ∈ held, u.live j = true := by
  obtain ⟨F, hti⟩ := h.inv.tree
  obtain ⟨t, _, M, e, _⟩ := C21_drain h ha hti.reps.describes hf hi
  obtain ⟨u, f', ⟨P, R, X, Y, ho⟩, l⟩ := (Thinned.refl h ha).drain (g := g) (f := f) (fun {s t n} hT hn => by
    have := hT.look hn
    simp only [St.look, Look.mk.injEq] at this
    exact hf s t n this.1 this.2.1 this.2.2.1 this.2.2.2.2) hi hh e
  exact ⟨t, u, _, P, R, X, Y, e, f', ho, l⟩

/-- C102: it returns the same error, and never panics. -/
theorem C102_error (g : St → List NodeId) (L : Lib) (debug : Bool) (x : Xml) (er : ParseErr) :
    (parseSvgF g L debug x = .error er ↔ parseSvg L debug x = .error er) ∧ parseSvgF g L debug x ≠ .error (.fail .diverge) ∧
    ∀ p, parseSvgF g L debug x ≠ .error (.fail (.panic p)) := by
  have key : ∀ er, parseSvg L debug x = .error er → parseSvgF g L debug x = .error er := by
    intro er e
    have her : er = .noSvgElement := by
      rcases parse_cases L debug x with ⟨_, _, _, _, _, _, _, _, _, _, e'⟩ | ⟨_, e'⟩ <;> rw [e] at e'
      · cases e'
      · cases e'; rfl
    subst her
    have hx : ∀ {α : Type} (r : Except Err α), okOrFail r ≠ .error .noSvgElement := by
      intro α r; cases r <;> simp [okOrFail]
    simp only [parseSvg, parseSvgF, bind, Except.bind] at e ⊢
    cases hp : processNodes L (L.sheet (cssTexts x)) .root [] (St.init debug).rootId x ⟨St.init debug, []⟩ with
    | error y => rw [hp] at e; simpa using e
    | ok p =>
    rw [hp] at e
    simp only at e ⊢
    cases hsv : p.dom.svgElement with
    | error y => rw [hsv] at e; simp [okOrFail] at e
    | ok o =>
    rw [hsv] at e
    cases o with
    | none => rfl
    | some m =>
    exfalso
    simp only [okOrFail] at e
    cases h1 : p.dom.drain p.dom.rootId (fun s n => s.hasTagName n (.id .Style)) with
    | error y => rw [h1] at e; simp at e
    | ok r =>
    rw [h1] at e
    simp only at e
    cases h2 : resolveLinks r.1 p.links with
    | error y => rw [h2] at e; simp at e
    | ok s3 =>
    rw [h2] at e
    simp only at e
    cases h3 : s3.prepareText with
    | error y => rw [h3] at e; simp at e
    | ok y => rw [h3] at e; simp at e
  have key2 : parseSvgF g L debug x = .error er ↔ parseSvg L debug x = .error er := by
    refine ⟨fun h => ?_, key er⟩
    cases hr : parseSvg L debug x with
    | error er' => rw [key er' hr] at h; exact h
    | ok t =>
      obtain ⟨s, _, _, _, _, h', _⟩ := C102_parse g hr
      rw [h'] at h; cases h
  refine ⟨key2, fun h => ?_, fun p h => ?_⟩ <;>
  · cases hr : parseSvg L debug x with
    | error er' =>
      have h1 := key er' hr
      rw [h] at h1
      cases h1
      exact C44_no_panic L debug x _ hr
    | ok t =>
      obtain ⟨s, _, _, _, _, h', _⟩ := C102_parse g hr
      rw [h'] at h; cases h

/-- C102: the document itself is the same: the same nodes are in the tree, with the same parents, neighbours, children, users and contents,
and the same text is written. -/
theorem C102_document {L : Lib} {debug : Bool} {x : Xml} {s t : St} {g : St → List NodeId} (e : parseSvg L debug x = .ok t)
    (e' : parseSvgF g L debug x = .ok s) :
    s.rootId = t.rootId ∧ (∀ W, s.writeDom W = t.writeDom W) ∧ (∀ j, s.InTree j ↔ t.InTree j) ∧
    ∀ j, j = t.rootId ∨ t.InTree j → s.look j = t.look j ∧ s.parent j = t.parent j ∧ s.firstChild j = t.firstChild j ∧
      s.lastChild j = t.lastChild j ∧ s.nextSibling j = t.nextSibling j ∧ s.prevSibling j = t.prevSibling j ∧
      s.childList j = t.childList j ∧ s.descendantList j = t.descendantList j ∧ s.linkedNodes j = t.linkedNodes j := by
  obtain ⟨s', P, R, X, Y, h1, ho⟩ := C102_parse g e
  rw [e'] at h1
  cases h1
  have hT : Thinned s t := ⟨P, R, X, Y, ho⟩
  have hroot := hT.rootId
  have hsl : ∀ j, j = t.rootId ∨ t.InTree j → s.live j = true := by
    rintro j (rfl | hj)
    · rw [hroot]; exact hT.root
    · exact hT.below (i := s.rootId) hT.root hj.1 (by rw [← hroot]; exact hj.2.to_reflTransGen)
  have hup : ∀ j, j = t.rootId ∨ t.InTree j → ∀ p, t.parent j = some p → p = t.rootId ∨ t.InTree p := by
    rintro j (rfl | hj) p hp
    · rw [root_top (C44_reachable e).2] at hp; simp at hp
    · obtain ⟨b, hb, hr⟩ := Relation.TransGen.head'_iff.1 hj.2
      have hb : t.parent j = some b := hb
      rw [hb] at hp; cases hp
      rcases Relation.ReflTransGen.cases_head hr with h | ⟨c, hc, hr⟩
      · exact .inl h
      · exact .inr ⟨((C01_neighbours ho.reach' hj.1).2.2.2.2 hb).1, .head' hc hr⟩
  have hpar : ∀ j, j = t.rootId ∨ t.InTree j → s.parent j = t.parent j := by
    intro j hj
    have h2 := (C97_observe ho (hsl j hj)).2.2.2.2.2.2.2.2.2.1
    rw [h2]
    cases hp : t.parent j with
    | none => rfl
    | some p => simp [Option.filter, hsl p (hup j hj p hp)]
  have hpre : ∀ j, j = t.rootId ∨ t.InTree j → s.prevSibling j = t.prevSibling j := by
    intro j hj
    have h2 := (C97_observe ho (hsl j hj)).2.2.2.2.2.2.2.2.2.2.1
    have hjt := (C97_observe ho (hsl j hj)).1
    rw [h2]
    cases hp : t.prevSibling j with
    | none => rfl
    | some q =>
      obtain ⟨q1, _, q3⟩ := (C01_neighbours ho.reach' hjt).2.1 hp
      have : s.live q = true := by
        obtain ⟨F, hF, hlone, _⟩ := parsed_tidy e
        refine hsl q ((C44_members e q1).1.1 ?_)
        by_contra hq
        have hqs := (hlone q q1 hq).2.1
        have hm : q ∈ F.sibs j := before_mem (by rw [← hF.shows.prev j hjt]; exact hp)
        have hself := hF.wf.self_mem j hjt
        rw [← (hF.wf.sib j hjt q hm).2.1, hqs] at hself
        exact q3 (List.mem_singleton.1 hself).symm
      simp [Option.filter, this]
  refine ⟨hroot.symm, C97_written ho, fun j => ⟨fun hj => ?_, fun hj => ?_⟩, fun j hj => ?_⟩
  · have hch : ∀ i b, s.live i = true → Relation.ReflTransGen s.Up i b → Relation.ReflTransGen t.Up i b := by
      intro i b hi hr
      induction hr using Relation.ReflTransGen.head_induction_on with
      | refl => exact .refl
      | head h1 _ ih =>
        have h1 : s.parent _ = some _ := h1
        exact .head (hT.parent hi h1) (ih (upgrade_live h1).1)
    obtain ⟨b, hb, hr⟩ := Relation.TransGen.head'_iff.1 hj.2
    have hb : s.parent j = some b := hb
    refine ⟨(C97_observe ho hj.1).1, .head' (show t.Up j b from hT.parent hj.1 hb) ?_⟩
    rw [hroot]
    exact hch _ _ (upgrade_live hb).1 hr
  · have hch : ∀ i b, (i = t.rootId ∨ t.InTree i) → Relation.ReflTransGen t.Up i b → Relation.ReflTransGen s.Up i b := by
      intro i b hi hr
      induction hr using Relation.ReflTransGen.head_induction_on with
      | refl => exact .refl
      | head h1 _ ih =>
        have h1 : t.parent _ = some _ := h1
        refine .head (show s.parent _ = some _ from ?_) (ih (hup _ hi _ h1))
        rw [hpar _ hi]; exact h1
    obtain ⟨b, hb, hr⟩ := Relation.TransGen.head'_iff.1 hj.2
    have hb : t.parent j = some b := hb
    refine ⟨hsl j (.inr hj), .head' (show s.parent j = some b by rw [hpar j (.inr hj)]; exact hb) ?_⟩
    rw [← hroot]
    exact hch _ _ (hup j (.inr hj) b hb) hr
  · obtain ⟨_, a1, _, a3, a4, a5, a6, a7, a8, _⟩ := C97_observe ho (hsl j hj)
    exact ⟨a1.symm, hpar j hj, a3.symm, a4.symm, a5.symm, hpre j hj, a6.symm, a7.symm, a8.symm⟩

/-- All unreferenced nodes are freed whenever references are dropped, as reference counting does. -/
def Prompt (g : St → List NodeId) : Prop :=
  ∀ (s : St) (held : List NodeId) (i : NodeId), Reachable s → (s.collect held (g s)).live i = true → i ∈ held ∨ (s.collect held (g s)).strongRef i

theorem collect_fields (held : List NodeId) (l : List NodeId) (s : St) :
    (s.collect held l).slab = s.slab ∧ (s.collect held l).linkedNodes = s.linkedNodes ∧ (s.collect held l).rootId = s.rootId ∧
      ∀ i, (s.collect held l).live i = true → s.live i = true := by
  induction l generalizing s with
  | nil => exact ⟨rfl, rfl, rfl, fun _ h => h⟩
  | cons i l ih =>
    simp only [St.collect]
    split
    · exact ih s
    · obtain ⟨h1, h2, h3, h4⟩ := ih (s.free i)
      refine ⟨h1, h2, h3, fun j hj => ?_⟩
      have := h4 j hj
      simp only [St.free] at this
      split at this
      · simp at this
      · exact this

/-- A node that a stored node uses stays. -/
theorem collect_user (held : List NodeId) (l : List NodeId) {s : St} {n j : NodeId} (hn : s.live n = true) (hs : n ∈ s.slab.nodes)
    (hj : j ∈ s.linkedNodes n) (hl : s.live j = true) : (s.collect held l).live j = true := by
  induction l generalizing s with
  | nil => exact hl
  | cons i l ih =>
    simp only [St.collect]
    split
    · exact ih hn hs hj hl
    · next hc =>
      simp only [not_or] at hc
      have h1 : i ≠ n := fun h => hc.2.2 (by rw [h]; exact .inr (.inl hs))
      have h2 : i ≠ j := fun h => hc.2.2 (by rw [h]; exact .inr (.inr ⟨n, hn, .inr (.inr (.inl hj))⟩))
      refine ih (s := s.free i) ?_ hs hj ?_
      · simp only [St.free, if_neg (Ne.symm h1)]; exact hn
      · simp only [St.free, if_neg (Ne.symm h2)]; exact hl

/-- C102: what is left in memory when `parse_svg` has returned: the nodes of the document, and those of the removed nodes that refer to a
node of the document. -/
theorem C102_memory {L : Lib} {debug : Bool} {x : Xml} {s t : St} {g : St → List NodeId} (hg : Prompt g) (e : parseSvg L debug x = .ok t)
    (e' : parseSvgF g L debug x = .ok s) (j : NodeId) :
    s.live j = true ↔ j = t.rootId ∨ t.InTree j ∨ (t.live j = true ∧ ∃ a ∈ t.attributes j, ∃ n, a.value.linkNode = some n) := by
  obtain ⟨p, T, G, s2, s3, u, v, f, hp, h1, hv, hlk⟩ := parse_beside g e
  rw [e'] at h1
  cases h1
  have hT := (hv.collect [] (g v)).1
  obtain ⟨F, hF, hlone, hlinks⟩ := parsed_tidy e
  have hR : Reachable t := (C44_reachable e).1.reachable
  obtain ⟨P, R, X, Y, ho⟩ := id hT
  have hroot := hT.rootId
  have hdoc : ∀ k, t.live k = true → k ∈ t.slab.nodes → k = t.rootId ∨ t.InTree k := fun k hk hs => (C44_members e hk).1.1 hs
  constructor
  · intro hj
    have hjt := (C97_observe ho hj).1
    by_cases hs : j ∈ t.slab.nodes
    · rcases hdoc j hjt hs with h | h
      · exact .inl h
      · exact .inr (.inl h)
    obtain ⟨l1, l2, l3⟩ := hlone j hjt hs
    rcases hg v [] j hv.reach hj with h | h | h | ⟨k, hk, h | h | h | ⟨a, ha, h⟩⟩
    · simp at h
    · exact .inl (by rw [hroot]; exact h)
    · exfalso
      have : (v.collect [] (g v)).isDetached j = false := (C24_detached hT.reach hj).2 h
      rw [← (C97_observe ho hj).2.2.1] at this
      exact hs ((C44_members e hjt).1.2 ((C44_members e hjt).2.1 this))
    · exfalso
      have := hT.parent hj ((C01_neighbours hT.reach hk).2.2.1 h).2.1
      rw [hF.shows.parent j hjt, l1] at this
      simp at this
    · exfalso
      have hkt := (C97_observe ho hk).1
      rw [← hT.nextSibling hk, hF.shows.next k hkt] at h
      have hm := after_mem h
      have := (hF.wf.sib k hkt j hm).2.1
      rw [l2] at this
      have hkm := hF.wf.self_mem k hkt
      rw [← this] at hkm
      cases List.mem_singleton.1 hkm
      rw [l2] at h
      simp [after] at h
    · have hkt := (C97_observe ho hk).1
      have hu := (C97_observe ho hk).2.2.2.2.2.2.2.2.1
      rw [← hu, ← List.count_pos_iff, C16_count hR hjt hkt, refCount_eq] at h
      obtain ⟨a, ha, hr⟩ := refs_pos.1 h
      exact .inr (.inr ⟨hjt, a, ha, k, hr⟩)
    · exfalso
      have hkt := (C97_observe ho hk).1
      rw [← hT.attrs hk] at ha
      exact hs (hlinks k hkt a ha j h).2
  · have hin : ∀ k, k = t.rootId ∨ t.InTree k → v.live k = true := by
      rintro k (rfl | hk)
      · rw [hv.rootId]; exact hv.root
      · exact hv.below (i := v.rootId) hv.root hk.1 (by rw [← hv.rootId]; exact hk.2.to_reflTransGen)
    rintro (rfl | hj | ⟨hj, a, ha, n, hn⟩)
    · rw [hroot]; exact hT.root
    · exact hT.below (i := (v.collect [] (g v)).rootId) hT.root hj.1 (by rw [← hroot]; exact hj.2.to_reflTransGen)
    · have hnt := hlinks j hj a ha n hn
      have hnl : t.live n = true := hR.inv.link.targets j hj a ha n hn
      have hnv := hin n (hdoc n hnl hnt.2)
      have hj3 : s3.live j = true := by rw [← hp.ti.live, ← hp.removed.live]; exact hj
      have ha3 := ha
      rw [hp.attrs j hj3] at ha3
      obtain ⟨l, hl, h2, _⟩ := front_target f hj3 ha3 hn
      obtain ⟨P', R', X', Y', hov⟩ := id hv
      refine collect_user [] (g v) hnv ?_ ?_ (by rw [← h2]; exact hlk l hl)
      · rw [← C24_detached hv.reach hnv, ← (C97_observe hov hnv).2.2.1, C24_detached hR hnl]
        exact hnt.2
      · rw [← (C97_observe hov hnv).2.2.2.2.2.2.2.2.1, ← List.count_pos_iff, C16_count hR hj hnl, refCount_eq]
        exact refs_pos.2 ⟨a, ha, hn⟩

/-- C102: the nodes of the document and the removed ones that are left are all freed when the document is dropped. -/
theorem C102_drop {L : Lib} {debug : Bool} {x : Xml} {s : St} {g : St → List NodeId} (e : parseSvgF g L debug x = .ok s) :
    ∃ t u, s.dropDocument = .ok t ∧ Freed t u ∧ ∀ j, u.live j = false := by
  cases hr : parseSvg L debug x with
  | error er =>
    have := ((C102_error g L debug x er).1).2 hr
    rw [e] at this; cases this
  | ok w =>
  obtain ⟨s', P, R, X, Y, h1, ho⟩ := C102_parse g hr
  rw [e] at h1
  cases h1
  obtain ⟨F, hF, hlone, hlinks⟩ := parsed_tidy hr
  have hstore : ∀ n, s.live n = true → (n ∈ s.slab.nodes ↔ n ∈ w.slab.nodes) := fun n hn => by
    rw [← C24_detached ho.reach hn, ← (C97_observe ho hn).2.2.1, C24_detached ho.reach' (C97_observe ho hn).1]
  obtain ⟨t, e', hb, _, hh⟩ := drop_holds ho.reach ho.acyclic ho.shows.forest
    (fun n hn hs => by
      have hnw := (C97_observe ho hn).1
      obtain ⟨l1, l2, l3⟩ := hlone n hnw (fun h => hs ((hstore n hn).2 h))
      obtain ⟨q1, q2, q3⟩ := C01_forest_unique hF ho.shows'.forest hnw
      have hP : P.live n = true := by rw [ho.shows.live]; exact hn
      refine ⟨?_, ?_, ?_⟩
      · rw [ho.rest.forest.par n hP, ← q3, l1]; rfl
      · obtain ⟨d, hd, _⟩ := ho.rest.forest.sibs n hP
        have hm := ho.shows.forest.wf.self_mem n hn
        rw [← q2, l2] at hd
        cases d with
        | nil => simpa using hd.symm
        | cons y d =>
          simp only [List.cons_append, List.cons.injEq] at hd
          have := congrArg List.length hd.2
          simp only [List.length_nil, List.length_append] at this
          have h0 : P.forest.sibs n = [] := List.eq_nil_of_length_eq_zero (by omega)
          rw [h0] at hm; simp at hm
      · rw [← ho.rest.forest.kids n hP, ← q1, l3])
    (fun i hi a ha n hn => by
      have hiw := (C97_observe ho hi).1
      have hnl := ho.reach.inv.link.targets i hi a ha n hn
      have ha' : a ∈ w.attributes i := by
        have := congrArg Look.attrs (C97_observe ho hi).2.1
        simp only [St.look] at this
        rw [this]; exact ha
      exact (hstore n hnl).2 (hlinks i hiw a ha' n hn).2)
  obtain ⟨u, hu1, hu2⟩ := (C72_cycle hb).2 (by
    rintro ⟨i, hi⟩
    obtain ⟨c, h1, _⟩ := Relation.TransGen.head'_iff.1 hi
    obtain ⟨d, _, h2⟩ := Relation.TransGen.tail'_iff.1 hi
    exact (hh i c h1).1 (hh d i h2).2)
  exact ⟨t, u, e', hu1, hu2⟩

/-! ## Freeing at once is possible -/

theorem collect_append (held l l' : List NodeId) (s : St) : s.collect held (l ++ l') = (s.collect held l).collect held l' := by
  induction l generalizing s with
  | nil => rfl
  | cons i l ih => simp only [List.cons_append, St.collect]; exact ih _

/-- One pass over the nodes: it frees one of them, or there was none to free. -/
theorem collect_pass (held l : List NodeId) (s : St) :
    (s.collect held l = s ∧ ∀ i ∈ l, i ∈ held ∨ s.live i = false ∨ s.strongRef i) ∨
      ∃ i, s.live i = true ∧ (s.collect held l).live i = false := by
  induction l generalizing s with
  | nil => exact .inl ⟨rfl, by simp⟩
  | cons i l ih =>
    simp only [St.collect]
    split
    · next hc =>
      rcases ih s with ⟨h1, h2⟩ | h
      · refine .inl ⟨h1, fun j hj => ?_⟩
        rcases List.mem_cons.1 hj with rfl | hj
        · exact hc
        · exact h2 j hj
      · exact .inr h
    · next hc =>
      simp only [not_or, Bool.not_eq_false] at hc
      refine .inr ⟨i, hc.2.1, ?_⟩
      rw [Bool.eq_false_iff]
      intro h
      have := (collect_fields held l (s.free i)).2.2.2 i h
      simp [St.free] at this

/-- Reference counting is a choice of `g`. -/
theorem prompt_exists : ∃ g, Prompt g := by
  refine ⟨fun s => (List.replicate (s.nextId + 1) (List.range s.nextId)).flatten, fun s held i hr => ?_⟩
  have hb : ∀ i, s.live i = true → i < s.nextId := hr.inv.liveBelow
  simp only []
  generalize s.nextId = N at hb ⊢
  have key : ∀ (k : Nat) (s : St), (∀ i, s.live i = true → i < N) → ((Finset.range N).filter fun i => s.live i = true).card ≤ k →
      ∀ i, (s.collect held (List.replicate (k + 1) (List.range N)).flatten).live i = true →
        i ∈ held ∨ (s.collect held (List.replicate (k + 1) (List.range N)).flatten).strongRef i := by
    intro k
    induction k with
    | zero =>
      intro s hs hc i hi
      exfalso
      have h0 := (collect_fields held _ s).2.2.2 i hi
      have : i ∈ ((Finset.range N).filter fun i => s.live i = true) := by
        simp only [Finset.mem_filter, Finset.mem_range]; exact ⟨hs i h0, h0⟩
      have := Finset.card_pos.2 ⟨i, this⟩
      omega
    | succ k ih =>
      intro s hs hc i hi
      rw [List.replicate_succ, List.flatten_cons, collect_append] at hi ⊢
      rcases collect_pass held (List.range N) s with ⟨h1, h2⟩ | ⟨j, h1, h2⟩
      · have hst : ∀ m, s.collect held (List.replicate m (List.range N)).flatten = s := by
          intro m
          induction m with
          | zero => rfl
          | succ m ih => rw [List.replicate_succ, List.flatten_cons, collect_append, h1, ih]
        rw [h1, hst] at hi ⊢
        rcases h2 i (List.mem_range.2 (hs i hi)) with h | h | h
        · exact .inl h
        · rw [hi] at h; simp at h
        · exact .inr h
      · refine ih (s.collect held (List.range N)) (fun m hm => hs m ((collect_fields held _ s).2.2.2 m hm)) ?_ i hi
        have : ((Finset.range N).filter fun i => (s.collect held (List.range N)).live i = true).card <
            ((Finset.range N).filter fun i => s.live i = true).card := by
          refine Finset.card_lt_card ⟨fun m hm => ?_, fun hsub => ?_⟩
          · simp only [Finset.mem_filter, Finset.mem_range] at hm ⊢
            exact ⟨hm.1, (collect_fields held _ s).2.2.2 m hm.2⟩
          · have hj : j ∈ ((Finset.range N).filter fun i => s.live i = true) := by
              simp only [Finset.mem_filter, Finset.mem_range]; exact ⟨hs j h1, h1⟩
            have := hsub hj
            simp only [Finset.mem_filter, h2] at this
            simp at this
        omega
  refine key N s hb ?_ i
  calc _ ≤ (Finset.range N).card := Finset.card_filter_le _ _
    _ = N := Finset.card_range N

/-- In the document of C50 the `style` element is freed and its child, which refers to node 2, is not. -/
example : ∃ g t s, Prompt g ∧ parseSvg sampleLib true styleRefXml = .ok t ∧ parseSvgF g sampleLib true styleRefXml = .ok s ∧
    t.live 3 = true ∧ s.live 3 = false ∧ s.live 4 = true ∧ s.isDetached 4 = true := by
  obtain ⟨g, hg⟩ := prompt_exists
  obtain ⟨t, e, hp⟩ := exists_of_parsed (x := styleRefXml) (p := fun t => t.live 3 && t.isDetached 3 && decide (3 ≠ t.rootId) &&
    decide (t.attributes 3 = []) && t.live 4 && t.isDetached 4 &&
    ((t.attributes 4).any fun a => decide (a.value.linkNode = some 2))) (by decide +kernel)
  simp only [Bool.and_eq_true, List.any_eq_true, decide_eq_true_eq] at hp
  obtain ⟨⟨⟨⟨⟨⟨p1, p2⟩, p3⟩, p4⟩, p5⟩, p6⟩, a, ha, p7⟩ := hp
  obtain ⟨s, P, R, X, Y, e', ho⟩ := C102_parse g e
  have hm := C102_memory hg e e'
  have h4 : s.live 4 = true := (hm 4).2 (.inr (.inr ⟨p5, a, ha, 2, p7⟩))
  refine ⟨g, t, s, hg, e, e', p1, ?_, h4, ?_⟩
  · rw [Bool.eq_false_iff]
    intro h
    rcases (hm 3).1 h with h | h | ⟨_, a, ha, _⟩
    · exact p3 h
    · have := (C44_members e p1).2.2 (.inr h)
      rw [p2] at this; simp at this
    · rw [p4] at ha; simp at ha
  · rw [← (C97_observe ho h4).2.2.1]; exact p6

end Svgdom
