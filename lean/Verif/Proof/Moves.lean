import Verif.Proof.Refine

/-! The four moves: exact panic condition and refinement. -/

namespace Svgdom

/-- Everything but the tree links is the same. -/
structure Frame (s t : St) : Prop where
  data : t.data = s.data
  live : t.live = s.live
  nextId : t.nextId = s.nextId
  rootId : t.rootId = s.rootId
  slab : t.slab = s.slab
  debug : t.debug = s.debug

theorem Frame.refl (s : St) : Frame s s := ⟨rfl, rfl, rfl, rfl, rfl, rfl⟩

theorem Frame.trans {s t u : St} (h : Frame s t) (k : Frame t u) : Frame s u :=
  ⟨k.data.trans h.data, k.live.trans h.live, k.nextId.trans h.nextId, k.rootId.trans h.rootId,
    k.slab.trans h.slab, k.debug.trans h.debug⟩

theorem Frame.setL (s : St) (i : NodeId) (f : Links → Links) : Frame s (s.setL i f) := ⟨rfl, rfl, rfl, rfl, rfl, rfl⟩

theorem Frame.detached (s : St) (i : NodeId) : Frame s (s.detached i) := ⟨rfl, rfl, rfl, rfl, rfl, rfl⟩

/-- The neighbours of `c` whose links have to be patched when `c` is taken out:
next sibling (or else parent), previous sibling (or else parent). -/
def Forest.patched (F : Forest) (c : NodeId) : List NodeId :=
  ((after (F.sibs c) c).or (F.par c)).toList ++ ((before (F.sibs c) c).or (F.par c)).toList

theorem Reps.blocked_iff {s : St} {F : Forest} (h : Reps s F) {c : NodeId} (hc : s.live c = true) (held : List NodeId) :
    s.blocked held c ↔ ∃ n ∈ F.patched c, n ∈ held := by
  have h1 : s.touch1 c = (after (F.sibs c) c).or (F.par c) := by
    simp only [St.touch1, h.shows.next c hc, h.shows.parent c hc]
    cases after (F.sibs c) c <;> rfl
  have h2 : s.touch2 c = (before (F.sibs c) c).or (F.par c) := by
    simp only [St.touch2, h.shows.prev c hc, h.shows.parent c hc]
    cases before (F.sibs c) c <;> rfl
  simp only [St.blocked, h1, h2, Forest.patched, List.mem_append, Option.mem_toList, or_and_right, exists_or]

theorem Forest.alone_detach (F : Forest) (c : NodeId) : Alone (F.detach c) c := ⟨by simp [Forest.detach], by simp [Forest.detach]⟩

theorem Forest.WF.place_kids {F : Forest} {live : NodeId → Bool} (h : F.WF live) {p : NodeId} (hp : live p = true)
    {a b : List NodeId} (e : F.kids p = a ++ b) : Place F live (some p) a b where
  grp := by
    intro x hx
    rw [← e] at hx ⊢
    exact ⟨(h.kids p hp x hx).1, (h.kids_sibs hp hx).symm, (h.kids p hp x hx).2⟩
  nodup := by rw [← e]; exact h.kids_nodup hp
  kids := by intro q hq; cases hq; exact ⟨hp, e⟩

theorem Forest.WF.place_sibs {F : Forest} {live : NodeId → Bool} (h : F.WF live) {x : NodeId} (hx : live x = true)
    {a b : List NodeId} (e : F.sibs x = a ++ b) : Place F live (F.par x) a b where
  grp := by
    intro y hy
    rw [← e] at hy ⊢
    exact h.sib x hx y hy
  nodup := by rw [← e]; exact h.nodup x hx
  kids := by intro q hq; rw [← e]; exact h.par x hx q hq

theorem Alone.not_kid {F : Forest} {live : NodeId → Bool} (h : F.WF live) {c p : NodeId} (hc : Alone F c)
    (hp : live p = true) : c ∉ F.kids p := by
  intro hm
  have := (h.kids p hp c hm).2
  rw [hc.par] at this; simp at this

theorem Alone.not_sib {F : Forest} {live : NodeId → Bool} (h : F.WF live) {c x : NodeId} (hc : Alone F c)
    (hx : live x = true) (hne : x ≠ c) : c ∉ F.sibs x := by
  intro hm
  have := h.mem_symm hx hm
  rw [hc.sibs] at this; simp at this; exact hne this

/-- The cached root pointers: only that of `c` changes, to the cached root of `x` (or to `d` if `x` has none). -/
def RootSet (s t : St) (c : NodeId) (r : Option NodeId) : Prop :=
  ∀ j, (t.links j).root = if j = c then r else (s.links j).root

open St in
theorem append_aux {s : St} {F : Forest} (h : Reps s F) {p c : NodeId} (hp : s.live p = true) (hc : s.live c = true)
    (hne : p ≠ c) (hal : Alone F c) (hraw : (s.links c).prevSib = none) :
    ∀ r, r = (do
      let s := s.setL c fun l => { l with root := some ((s.links p).root.getD p), parent := some p }
      let lastW := (s.links p).lastChild
      let s := s.setL p fun l => { l with lastChild := none }
      let lastO := s.upgrade lastW
      let s := match lastO with
        | some _ => s.setL c fun l => { l with prevSib := lastW }
        | none => s
      let s := s.setL p fun l => { l with lastChild := some c }
      match lastO with
      | some l => do
        borrowMut [p] l
        s.debugAssert (s.links l).nextSib.isNone
        pure (s.setL l fun k => { k with nextSib := some c })
      | none => do
        s.debugAssert (s.links p).firstChild.isNone
        pure (s.setL p fun k => { k with firstChild := some c }) : Except Err St) →
    if (F.kids p).getLast? = some p then r = .error (.panic .borrowed)
    else ∃ t, r = .ok t ∧ Put s t (some p) (F.kids p) [] c ∧ Frame s t ∧
      RootSet s t c (some ((s.links p).root.getD p)) := by
  intro r hr
  have hcn : s.nextSibling c = none := by rw [h.shows.next c hc, hal.sibs]; simp [after]
  have hcp : s.prevSibling c = none := by rw [h.shows.prev c hc, hal.sibs]; simp [before]
  have hlast := h.shows.last p hp
  have hfirst := h.shows.first p hp
  have hnk := hal.not_kid h.wf hp
  simp only [setL_links, hne, if_false, setL_upgrade, if_true] at hr
  simp only [lastChild] at hlast
  rw [hlast] at hr
  cases hk : (F.kids p).getLast? with
  | none =>
    have hk' : F.kids p = [] := by simpa using hk
    rw [hk'] at hfirst
    simp only [firstChild, List.head?_nil] at hfirst
    simp only [hk, setL_links, if_true, hne, if_false, hfirst, debugAssert, Option.isNone_none, Bool.not_true, Bool.and_false,
      Bool.false_eq_true, bind, Except.bind, pure, Except.pure] at hr
    simp only [reduceCtorEq, if_false]
    refine ⟨_, hr, ?_, ⟨rfl, rfl, rfl, rfl, rfl, rfl⟩, ?_⟩
    · constructor
      · rfl
      · intro j
        simp only [parent, setL_links, setL_upgrade]
        split_ifs <;> simp_all [upgrade_some]
      · intro j
        simp only [nextSibling, setL_links, hk']
        simp only [nextSibling] at hcn
        split_ifs <;> simp_all
      · intro j
        simp only [prevSibling, setL_links, setL_upgrade, hk']
        split_ifs <;> simp_all
      · intro j
        by_cases hjp : j = p
        · subst hjp; simp [firstChild, hk']
        · simp [firstChild, hjp, Ne.symm hjp]; split <;> simp_all
      · intro j
        by_cases hjp : j = p
        · subst hjp; simp [lastChild, hc, upgrade_some]
        · simp [lastChild, hjp, Ne.symm hjp]; split <;> simp_all
      · intro j
        simp only [prevSibling, setL_links, setL_upgrade]
        split_ifs <;> simp_all
    · intro j; simp only [setL_links]; split_ifs <;> simp_all
  | some l =>
    have hlm : l ∈ F.kids p := List.mem_of_getLast? hk
    have hlc : l ≠ c := fun e => hnk (e ▸ hlm)
    have hll := (h.wf.kids p hp l hlm).1
    have hln : s.nextSibling l = none := by
      rw [h.shows.next l hll, ← h.wf.kids_sibs hp hlm]
      exact after_last_none (h.wf.kids_nodup hp) hk
    simp only [nextSibling] at hln hcn
    have hlw : (s.links p).lastChild = some l := by rw [hk] at hlast; exact (upgrade_live hlast).2
    have hkn : F.kids p ≠ [] := by intro e; simp [e] at hk
    simp only [hk, hlw, setL_links, if_true, hne, if_false, borrowMut, List.mem_singleton, debugAssert,
      bind, Except.bind, pure, Except.pure] at hr
    simp only [Option.some.injEq]
    by_cases hlp : l = p
    · subst hlp; simp [hr]
    · simp only [hlp, if_false, hlc, hln, Option.isNone_none, Bool.not_true, Bool.and_false, Bool.false_eq_true] at hr ⊢
      refine ⟨_, hr, ?_, ⟨rfl, rfl, rfl, rfl, rfl, rfl⟩, ?_⟩
      · constructor
        · rfl
        · intro j
          simp only [parent, setL_links, setL_upgrade]
          split_ifs <;> simp_all [upgrade_some]
        · intro j
          simp only [nextSibling, setL_links, hk]
          split_ifs <;> simp_all
        · intro j
          simp only [prevSibling, setL_links, setL_upgrade, hk]
          split_ifs <;> simp_all [upgrade_some]
        · intro j
          simp only [firstChild, setL_links, hkn, and_false, if_false]
          split_ifs <;> simp_all only
        · intro j
          by_cases hjp : j = p
          · subst hjp; simp [lastChild, hc, upgrade_some, Ne.symm hlp]
          · simp only [lastChild, hjp, Ne.symm hjp, setL_links, setL_upgrade, if_false, Option.some.injEq, false_and]
            split_ifs <;> simp_all only
        · intro j
          simp only [prevSibling, setL_links, setL_upgrade]
          split_ifs <;> simp_all [upgrade_some]
      · intro j; simp only [setL_links]; split_ifs <;> simp_all

theorem Reps.detached_raw {s : St} {F : Forest} (h : Reps s F) {c : NodeId} (hc : s.live c = true) :
    ((s.detached c).links c).prevSib = none := by
  have : s.nextSibling c ≠ some c := by
    rw [h.shows.next c hc]
    obtain ⟨a, b, e, h1, h2, _⟩ := nodup_split (h.wf.nodup c hc) (h.wf.self_mem c hc)
    rw [e, after_split h1]
    intro hh; exact h2 (List.mem_of_mem_head? hh)
  simp [St.detached, St.detachedLinks, this]

/-- Exact description of `p.append(c)`. -/
theorem append_spec {s : St} {F : Forest} (h : Reps s F) {p c : NodeId} (hp : s.live p = true) (hc : s.live c = true) :
    if p = c then s.append p c = .error (.panic .assertFailed)
    else if (∃ n ∈ F.patched c, n ∈ [p, c]) ∨ ((F.detach c).kids p).getLast? = some p then
      s.append p c = .error (.panic .borrowed)
    else ∃ t, s.append p c = .ok t ∧ Reps t (F.append p c) ∧ Frame s t ∧
      RootSet s t c (some ((s.links p).root.getD p)) := by
  by_cases hpc : p = c
  · simp [hpc, St.append, assertOrPanic, bind, Except.bind]
  · simp only [hpc, if_false]
    have hne : (p != c) = true := by simp [hpc]
    by_cases hb : s.blocked [p, c] c
    · have := (h.blocked_iff hc _).1 hb
      simp only [this, true_or, if_true]
      simp [St.append, assertOrPanic, hpc, bind, Except.bind, St.detachCore_blocked s _ _ hb]
    · have hb' : ¬ ∃ n ∈ F.patched c, n ∈ [p, c] := fun hh => hb ((h.blocked_iff hc _).2 hh)
      simp only [hb', false_or]
      have h1 := h.detached hc
      have hal := F.alone_detach c
      have key := append_aux h1 (p := p) (c := c) hp hc hpc hal (h.detached_raw hc) (s.append p c)
        (by simp only [St.append, assertOrPanic, hne, if_true, bind, Except.bind, St.detachCore_ok s _ _ hb]
            rfl)
      by_cases hl : ((F.detach c).kids p).getLast? = some p
      · simp only [hl, if_true] at key ⊢; exact key
      · simp only [hl, if_false] at key ⊢
        obtain ⟨t, e, hput, hfr, hrt⟩ := key
        refine ⟨t, e, ?_, (Frame.detached s c).trans hfr, hrt⟩
        exact h1.put hc hal (h1.wf.place_kids hp (by simp)) (by simpa using hal.not_kid h1.wf hp) hput

open St in
theorem prepend_aux {s : St} {F : Forest} (h : Reps s F) {p c : NodeId} (hp : s.live p = true) (hc : s.live c = true)
    (hne : p ≠ c) (hal : Alone F c) (hraw : (s.links c).prevSib = none) :
    ∀ r, r = (do
      let s := s.setL c fun l => { l with root := some ((s.links p).root.getD p), parent := some p }
      let first := (s.links p).firstChild
      let s := s.setL p fun l => { l with firstChild := none }
      let s ← match first with
        | some f => do
          borrowMut [p, c] f
          s.debugAssert (s.links f).prevSib.isNone
          let s := s.setL f fun l => { l with prevSib := some c }
          pure (s.setL c fun l => { l with nextSib := some f })
        | none => do
          s.debugAssert (s.links p).firstChild.isNone
          pure (s.setL p fun l => { l with lastChild := some c })
      pure (s.setL p fun l => { l with firstChild := some c }) : Except Err St) →
    if (F.kids p).head? = some p then r = .error (.panic .borrowed)
    else ∃ t, r = .ok t ∧ Put s t (some p) [] (F.kids p) c ∧ Frame s t ∧
      RootSet s t c (some ((s.links p).root.getD p)) := by
  intro r hr
  have hcn : s.nextSibling c = none := by rw [h.shows.next c hc, hal.sibs]; simp [after]
  have hfirst := h.shows.first p hp
  have hnk := hal.not_kid h.wf hp
  simp only [setL_links, hne, if_false] at hr
  simp only [firstChild] at hfirst
  rw [hfirst] at hr
  cases hk : (F.kids p).head? with
  | none =>
    have hk' : F.kids p = [] := by simpa using hk
    rw [hk'] at hfirst
    simp only [List.head?_nil] at hfirst
    simp only [nextSibling] at hcn
    simp only [hk, if_true, debugAssert, Option.isNone_none, Bool.not_true, Bool.and_false,
      Bool.false_eq_true, if_false, bind, Except.bind, pure, Except.pure] at hr
    simp only [reduceCtorEq, if_false]
    refine ⟨_, hr, ?_, ⟨rfl, rfl, rfl, rfl, rfl, rfl⟩, ?_⟩
    · constructor
      · rfl
      · intro j
        simp only [parent, setL_links, setL_upgrade]
        split_ifs <;> simp_all [upgrade_some]
      · intro j
        simp only [nextSibling, setL_links, hk']
        split_ifs <;> simp_all
      · intro j
        simp only [prevSibling, setL_links, setL_upgrade, hk']
        split_ifs <;> simp_all
      · intro j
        by_cases hjp : j = p
        · subst hjp; simp [firstChild]
        · simp [firstChild, hjp, Ne.symm hjp]; split <;> simp_all
      · intro j
        by_cases hjp : j = p
        · subst hjp; simp [lastChild, hk', hc, upgrade_some]
        · simp [lastChild, hjp, Ne.symm hjp]; split <;> simp_all
      · intro j
        simp only [prevSibling, setL_links, setL_upgrade]
        split_ifs <;> simp_all
    · intro j; simp only [setL_links]; split_ifs <;> simp_all
  | some f =>
    have hfm : f ∈ F.kids p := List.mem_of_mem_head? hk
    have hfc : f ≠ c := fun e => hnk (e ▸ hfm)
    have hfl := (h.wf.kids p hp f hfm).1
    have hfp : (s.links f).prevSib = none := by
      apply h.clean f hfl
      · rw [h.shows.parent f hfl, (h.wf.kids p hp f hfm).2]; rfl
      · rw [h.shows.prev f hfl, ← h.wf.kids_sibs hp hfm]
        exact before_head_none hk
    have hkn : F.kids p ≠ [] := by intro e; simp [e] at hk
    simp only [nextSibling] at hcn
    simp only [hk, borrowMut, List.mem_cons, List.not_mem_nil, or_false, hfc, debugAssert,
      bind, Except.bind, pure, Except.pure] at hr
    simp only [Option.some.injEq]
    by_cases hlp : f = p
    · subst hlp; simp [hr]
    · simp only [hlp, if_false, hfp, Option.isNone_none, Bool.not_true, Bool.and_false, Bool.false_eq_true] at hr ⊢
      refine ⟨_, hr, ?_, ⟨rfl, rfl, rfl, rfl, rfl, rfl⟩, ?_⟩
      · constructor
        · rfl
        · intro j
          simp only [parent, setL_links, setL_upgrade]
          split_ifs <;> simp_all [upgrade_some]
        · intro j
          simp only [nextSibling, setL_links, hk]
          split_ifs <;> simp_all
        · intro j
          simp only [prevSibling, setL_links, setL_upgrade, hk]
          split_ifs <;> simp_all [upgrade_some]
        · intro j
          by_cases hjp : j = p
          · subst hjp; simp [firstChild]
          · simp only [firstChild, hjp, Ne.symm hjp, setL_links, if_false, Option.some.injEq, false_and]
            split_ifs <;> simp_all only
        · intro j
          simp only [lastChild, setL_links, setL_upgrade, hkn, and_false, if_false]
          split_ifs <;> simp_all only
        · intro j
          simp only [prevSibling, setL_links, setL_upgrade]
          split_ifs <;> simp_all [upgrade_some]
      · intro j; simp only [setL_links]; split_ifs <;> simp_all

/-- Exact description of `p.prepend(c)`. -/
theorem prepend_spec {s : St} {F : Forest} (h : Reps s F) {p c : NodeId} (hp : s.live p = true) (hc : s.live c = true) :
    if p = c then s.prepend p c = .error (.panic .assertFailed)
    else if (∃ n ∈ F.patched c, n ∈ [p, c]) ∨ ((F.detach c).kids p).head? = some p then
      s.prepend p c = .error (.panic .borrowed)
    else ∃ t, s.prepend p c = .ok t ∧ Reps t (F.prepend p c) ∧ Frame s t ∧
      RootSet s t c (some ((s.links p).root.getD p)) := by
  by_cases hpc : p = c
  · simp [hpc, St.prepend, assertOrPanic, bind, Except.bind]
  · simp only [hpc, if_false]
    have hne : (p != c) = true := by simp [hpc]
    by_cases hb : s.blocked [p, c] c
    · have := (h.blocked_iff hc _).1 hb
      simp only [this, true_or, if_true]
      simp [St.prepend, assertOrPanic, hpc, bind, Except.bind, St.detachCore_blocked s _ _ hb]
    · have hb' : ¬ ∃ n ∈ F.patched c, n ∈ [p, c] := fun hh => hb ((h.blocked_iff hc _).2 hh)
      simp only [hb', false_or]
      have h1 := h.detached hc
      have hal := F.alone_detach c
      have key := prepend_aux h1 (p := p) (c := c) hp hc hpc hal (h.detached_raw hc) (s.prepend p c)
        (by simp only [St.prepend, assertOrPanic, hne, if_true, bind, Except.bind, St.detachCore_ok s _ _ hb]
            rfl)
      by_cases hl : ((F.detach c).kids p).head? = some p
      · simp only [hl, if_true] at key ⊢; exact key
      · simp only [hl, if_false] at key ⊢
        obtain ⟨t, e, hput, hfr, hrt⟩ := key
        refine ⟨t, e, ?_, (Frame.detached s c).trans hfr, hrt⟩
        exact h1.put hc hal (h1.wf.place_kids hp (by simp)) (by simpa using hal.not_kid h1.wf hp) hput

end Svgdom
