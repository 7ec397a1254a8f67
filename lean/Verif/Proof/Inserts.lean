import Verif.Proof.Moves

/-! `insert_after` and `insert_before`: exact panic condition and refinement. -/

namespace Svgdom

open St in
theorem insertAfter_aux {s : St} {F : Forest} (h : Reps s F) {x y : NodeId} (hx : s.live x = true) (hy : s.live y = true)
    (hne : x ≠ y) (hal : Alone F y) {a b : List NodeId} (e : F.sibs x = a ++ x :: b) (hxa : x ∉ a) (hxb : x ∉ b) :
    ∀ r, r = (do
      let s := s.setL y fun l =>
        { l with root := (s.links x).root, parent := (s.links x).parent, prevSib := some x }
      let nextS := (s.links x).nextSib
      let s := s.setL x fun l => { l with nextSib := none }
      let s ← match nextS with
        | some n => do
          borrowMut [x, y] n
          s.debugAssert (decide (s.upgrade (s.links n).prevSib = some x))
          let s := s.setL n fun l => { l with prevSib := some y }
          pure (s.setL y fun l => { l with nextSib := some n })
        | none =>
          match s.upgrade (s.links x).parent with
          | some p => do
            borrowMut [x, y] p
            pure (s.setL p fun l => { l with lastChild := some y })
          | none => pure s
      pure (s.setL x fun l => { l with nextSib := some y }) : Except Err St) →
    if b = [] ∧ (∃ p, F.par x = some p ∧ p ∈ [x, y]) then r = .error (.panic .borrowed)
    else ∃ t, r = .ok t ∧ Put s t (F.par x) (a ++ [x]) b y ∧ Frame s t ∧ RootSet s t y (s.links x).root := by
  intro r hr
  have hyn : s.nextSibling y = none := by rw [h.shows.next y hy, hal.sibs]; simp [after]
  have hnx := h.shows.next x hx
  rw [e, after_split hxa] at hnx
  have hpx := h.shows.parent x hx
  have hys := hal.not_sib h.wf hx hne
  simp only [nextSibling] at hnx hyn
  simp only [parent] at hpx
  simp only [setL_links, hne, if_false, hnx, if_true, setL_upgrade, hpx] at hr
  cases b with
  | cons n b =>
    have hnm : n ∈ F.sibs x := by rw [e]; simp
    have hny : n ≠ y := fun e => hys (e ▸ hnm)
    have hnx' : n ≠ x := by intro e; simp [e] at hxb
    have hnl := (h.wf.sib x hx n hnm).1
    have hnp : s.upgrade (s.links n).prevSib = some x := by
      have := h.shows.prev n hnl
      rw [(h.wf.sib x hx n hnm).2.1, e] at this
      have h2 : a ++ x :: n :: b = (a ++ [x]) ++ n :: b := by simp
      have hnd := h.wf.nodup x hx
      rw [e, h2] at hnd
      rw [h2, before_head hnd rfl] at this
      simpa [prevSibling] using this
    simp only [List.head?_cons, borrowMut, List.mem_cons, List.not_mem_nil, or_false, hny, hnx', if_false,
      debugAssert, hnp, decide_true, Bool.not_true, Bool.and_false, Bool.false_eq_true,
      bind, Except.bind, pure, Except.pure] at hr
    simp only [reduceCtorEq, false_and, if_false]
    refine ⟨_, hr, ?_, ⟨rfl, rfl, rfl, rfl, rfl, rfl⟩, ?_⟩
    · clear hr
      constructor
      · rfl
      · intro j
        simp only [parent, setL_links, setL_upgrade]
        split_ifs <;> simp_all
      · intro j
        simp only [nextSibling, setL_links, List.getLast?_append, List.getLast?_singleton, Option.some_or, List.head?_cons]
        split_ifs <;> simp_all
      · intro j
        simp only [prevSibling, setL_links, setL_upgrade, List.getLast?_append, List.getLast?_singleton, Option.some_or, List.head?_cons]
        split_ifs <;> simp_all [upgrade_some]
      · intro j
        simp only [firstChild, setL_links, List.append_eq_nil_iff, List.cons_ne_nil, and_false, if_false]
        split_ifs <;> simp_all only
      · intro j
        simp only [lastChild, setL_links, setL_upgrade, List.cons_ne_nil, and_false, if_false]
        split_ifs <;> simp_all only
      · intro j
        simp only [prevSibling, setL_links, setL_upgrade]
        split_ifs <;> simp_all [upgrade_some]
    · clear hr; intro j; simp only [setL_links]; split_ifs <;> simp_all
  | nil =>
    cases hpar : F.par x with
    | none =>
      rw [hpar] at hpx
      simp only [List.head?_nil, hpar, pure, Except.pure, bind, Except.bind] at hr
      simp only [reduceCtorEq, false_and, exists_false, and_false, if_false]
      refine ⟨_, hr, ?_, ⟨rfl, rfl, rfl, rfl, rfl, rfl⟩, ?_⟩
      · clear hr
        constructor
        · rfl
        · intro j
          simp only [parent, setL_links, setL_upgrade]
          split_ifs <;> simp_all
        · intro j
          simp only [nextSibling, setL_links, List.getLast?_append, List.getLast?_singleton, Option.some_or, List.head?_nil]
          split_ifs <;> simp_all
        · intro j
          simp only [prevSibling, setL_links, setL_upgrade, List.getLast?_append, List.getLast?_singleton, Option.some_or, List.head?_nil]
          split_ifs <;> simp_all [upgrade_some]
        · intro j
          simp only [firstChild, setL_links, reduceCtorEq, false_and, if_false]
          split_ifs <;> simp_all only
        · intro j
          simp only [lastChild, setL_links, setL_upgrade, reduceCtorEq, false_and, if_false]
          split_ifs <;> simp_all only
        · intro j
          simp only [prevSibling, setL_links, setL_upgrade]
          split_ifs <;> simp_all [upgrade_some]
      · clear hr; intro j; simp only [setL_links]; split_ifs <;> simp_all
    | some p =>
      rw [hpar] at hpx
      simp only [Option.some.injEq, exists_eq_left', true_and]
      simp only [List.head?_nil, hpar, borrowMut, pure, Except.pure, bind, Except.bind] at hr
      by_cases hm : p ∈ [x, y]
      · simp only [hm, if_true] at hr ⊢; exact hr
      · simp only [hm, if_false] at hr ⊢
        simp only [List.mem_cons, List.not_mem_nil, or_false, not_or] at hm
        obtain ⟨hm, hm2⟩ := hm
        have hm' := Ne.symm hm
        have hm2' := Ne.symm hm2
        refine ⟨_, hr, ?_, ⟨rfl, rfl, rfl, rfl, rfl, rfl⟩, ?_⟩
        · clear hr
          constructor
          · rfl
          · intro j
            simp only [parent, setL_links, setL_upgrade]
            split_ifs <;> simp_all
          · intro j
            simp only [nextSibling, setL_links, List.getLast?_append, List.getLast?_singleton, Option.some_or, List.head?_nil]
            split_ifs <;> simp_all
          · intro j
            simp only [prevSibling, setL_links, setL_upgrade, List.getLast?_append, List.getLast?_singleton, Option.some_or, List.head?_nil]
            split_ifs <;> simp_all [upgrade_some]
          · intro j
            simp only [firstChild, setL_links, List.append_eq_nil_iff, List.cons_ne_nil, and_false, if_false]
            split_ifs <;> simp_all only
          · intro j
            by_cases hjp : j = p
            · subst hjp; simp [lastChild, hy, upgrade_some, hm]
            · simp only [lastChild, hjp, Ne.symm hjp, setL_links, setL_upgrade, if_false, Option.some.injEq, false_and]
              split_ifs <;> simp_all only
          · intro j
            simp only [prevSibling, setL_links, setL_upgrade]
            split_ifs <;> simp_all [upgrade_some]
        · clear hr; intro j; simp only [setL_links]; split_ifs <;> simp_all

/-- Exact description of `x.insert_after(y)`. -/
theorem insertAfter_spec {s : St} {F : Forest} (h : Reps s F) {x y : NodeId} (hx : s.live x = true) (hy : s.live y = true) :
    if x = y then s.insertAfter x y = .error (.panic .assertFailed)
    else if (∃ n ∈ F.patched y, n ∈ [x, y]) ∨
        (after ((F.detach y).sibs x) x = none ∧ ∃ p, (F.detach y).par x = some p ∧ p ∈ [x, y]) then
      s.insertAfter x y = .error (.panic .borrowed)
    else ∃ t, s.insertAfter x y = .ok t ∧ Reps t (F.insertAfter x y) ∧ Frame s t ∧
      RootSet s t y (s.links x).root := by
  by_cases hpc : x = y
  · simp [hpc, St.insertAfter, assertOrPanic, bind, Except.bind]
  · simp only [hpc, if_false]
    have hne : (x != y) = true := by simp [hpc]
    by_cases hb : s.blocked [x, y] y
    · have := (h.blocked_iff hy _).1 hb
      simp only [this, true_or, if_true]
      simp [St.insertAfter, assertOrPanic, hpc, bind, Except.bind, St.detachCore_blocked s _ _ hb]
    · have hb' : ¬ ∃ n ∈ F.patched y, n ∈ [x, y] := fun hh => hb ((h.blocked_iff hy _).2 hh)
      simp only [hb', false_or]
      have h1 := h.detached hy
      have hal := F.alone_detach y
      obtain ⟨a, b, e, hxa, hxb, _⟩ := nodup_split (h1.wf.nodup x hx) (h1.wf.self_mem x hx)
      have key := insertAfter_aux h1 (x := x) (y := y) hx hy hpc hal e hxa hxb (s.insertAfter x y)
        (by simp only [St.insertAfter, assertOrPanic, hne, if_true, bind, Except.bind, St.detachCore_ok s _ _ hb]
            rfl)
      rw [e, after_split hxa]
      have hbe : b.head? = none ↔ b = [] := by simp
      simp only [hbe]
      split at key
      · next hl => simp only [hl]; exact key
      · next hl =>
        simp only [hl, if_false]
        obtain ⟨t, e', hput, hfr, hrt⟩ := key
        refine ⟨t, e', ?_, (Frame.detached s y).trans hfr, hrt⟩
        have hpl := h1.wf.place_sibs hx (a := a ++ [x]) (b := b) (by simp [e])
        have := h1.put hy hal hpl (by simpa [e] using hal.not_sib h1.wf hx hpc) hput
        have e2 : insAfter ((F.detach y).sibs x) x y = (a ++ [x]) ++ y :: b := by
          rw [e, insAfter_split hxa]; simp
        rw [Forest.insertAfter, e2]
        exact this

open St in
theorem insertBefore_aux {s : St} {F : Forest} (h : Reps s F) {x y : NodeId} (hx : s.live x = true) (hy : s.live y = true)
    (hne : x ≠ y) (hal : Alone F y) (hraw : (s.links y).prevSib = none)
    {a b : List NodeId} (e : F.sibs x = a ++ x :: b) (hxa : x ∉ a) :
    ∀ r, r = (do
      let s := s.setL y fun l =>
        { l with root := (s.links x).root, parent := (s.links x).parent, nextSib := some x }
      let prevW := (s.links x).prevSib
      let s := s.setL x fun l => { l with prevSib := none }
      let prevO := s.upgrade prevW
      let s := match prevO with
        | some _ => s.setL y fun l => { l with prevSib := prevW }
        | none => s
      let s := s.setL x fun l => { l with prevSib := some y }
      match prevO with
      | some q => do
        borrowMut [x] q
        s.debugAssert (decide ((s.links q).nextSib = some x))
        pure (s.setL q fun l => { l with nextSib := some y })
      | none =>
        match s.upgrade (s.links x).parent with
        | some p => do
          borrowMut [x] p
          pure (s.setL p fun l => { l with firstChild := some y })
        | none => pure s : Except Err St) →
    if a = [] ∧ F.par x = some x then r = .error (.panic .borrowed)
    else ∃ t, r = .ok t ∧ Put s t (F.par x) a (x :: b) y ∧ Frame s t ∧ RootSet s t y (s.links x).root := by
  intro r hr
  have hpv := h.shows.prev x hx
  rw [e, before_split hxa] at hpv
  have hpx := h.shows.parent x hx
  have hys := hal.not_sib h.wf hx hne
  simp only [prevSibling] at hpv
  simp only [parent] at hpx
  simp only [setL_links, hne, if_false, if_true, setL_upgrade, hpv] at hr
  cases ha : a.getLast? with
  | some q =>
    have hqa : q ∈ a := List.mem_of_getLast? ha
    have hqm : q ∈ F.sibs x := by rw [e]; simp [hqa]
    have hqy : q ≠ y := fun e => hys (e ▸ hqm)
    have hqx : q ≠ x := by rintro rfl; exact hxa hqa
    have hql := (h.wf.sib x hx q hqm).1
    have hqn : (s.links q).nextSib = some x := by
      have := h.shows.next q hql
      have hnd := h.wf.nodup x hx
      rw [(h.wf.sib x hx q hqm).2.1, e] at this
      rw [e] at hnd
      rw [after_getLast hnd ha] at this
      simpa [nextSibling] using this
    have hxw : (s.links x).prevSib = some q := by rw [ha] at hpv; exact (upgrade_live hpv).2
    have han : a ≠ [] := by rintro rfl; simp at ha
    simp only [ha, borrowMut, List.mem_singleton, hqx, hqy, if_false, setL_links, hqn, decide_true, debugAssert, Bool.not_true,
      Bool.and_false, Bool.false_eq_true, bind, Except.bind, pure, Except.pure, hxw] at hr
    simp only [han, false_and, if_false]
    refine ⟨_, hr, ?_, ⟨rfl, rfl, rfl, rfl, rfl, rfl⟩, ?_⟩
    · clear hr
      constructor
      · rfl
      · intro j
        simp only [parent, setL_links, setL_upgrade]
        split_ifs <;> simp_all
      · intro j
        simp only [nextSibling, setL_links, List.head?_cons]
        split_ifs <;> simp_all
      · intro j
        simp only [prevSibling, setL_links, setL_upgrade, List.head?_cons]
        split_ifs <;> simp_all [upgrade_some]
      · intro j
        simp only [firstChild, setL_links, han, and_false, if_false]
        split_ifs <;> simp_all only
      · intro j
        simp only [lastChild, setL_links, setL_upgrade, List.cons_ne_nil, and_false, if_false]
        split_ifs <;> simp_all only
      · intro j
        simp only [prevSibling, setL_links, setL_upgrade]
        split_ifs <;> simp_all [upgrade_some]
    · clear hr; intro j; simp only [setL_links]; split_ifs <;> simp_all
  | none =>
    have han : a = [] := by simpa using ha
    subst han
    simp only [ha, setL_links, if_true, hne, if_false, setL_upgrade, hpx] at hr
    cases hpar : F.par x with
    | none =>
      rw [hpar] at hpx
      simp only [hpar, pure, Except.pure] at hr
      simp only [reduceCtorEq, and_false, if_false]
      refine ⟨_, hr, ?_, ⟨rfl, rfl, rfl, rfl, rfl, rfl⟩, ?_⟩
      · clear hr
        constructor
        · rfl
        · intro j
          simp only [parent, setL_links, setL_upgrade]
          split_ifs <;> simp_all
        · intro j
          simp only [nextSibling, setL_links, List.head?_cons, List.getLast?_nil]
          split_ifs <;> simp_all
        · intro j
          simp only [prevSibling, setL_links, setL_upgrade, List.head?_cons, List.getLast?_nil]
          split_ifs <;> simp_all [upgrade_some]
        · intro j
          simp only [firstChild, setL_links, reduceCtorEq, false_and, if_false]
          split_ifs <;> simp_all only
        · intro j
          simp only [lastChild, setL_links, setL_upgrade, reduceCtorEq, false_and, if_false]
          split_ifs <;> simp_all only
        · intro j
          simp only [prevSibling, setL_links, setL_upgrade]
          split_ifs <;> simp_all [upgrade_some]
      · clear hr; intro j; simp only [setL_links]; split_ifs <;> simp_all
    | some p =>
      rw [hpar] at hpx
      simp only [hpar, borrowMut, List.mem_singleton, pure, Except.pure, bind, Except.bind] at hr
      by_cases hm : p = x
      · simp only [hm, if_true] at hr ⊢; simp [hr]
      · simp only [hm, if_false] at hr
        simp only [Option.some.injEq, hm, and_false, if_false]
        refine ⟨_, hr, ?_, ⟨rfl, rfl, rfl, rfl, rfl, rfl⟩, ?_⟩
        · clear hr
          constructor
          · rfl
          · intro j
            simp only [parent, setL_links, setL_upgrade]
            split_ifs <;> simp_all
          · intro j
            simp only [nextSibling, setL_links, List.head?_cons, List.getLast?_nil]
            split_ifs <;> simp_all
          · intro j
            simp only [prevSibling, setL_links, setL_upgrade, List.head?_cons, List.getLast?_nil]
            split_ifs <;> simp_all [upgrade_some]
          · intro j
            by_cases hjp : j = p
            · subst hjp; simp [firstChild]
            · simp only [firstChild, hjp, Ne.symm hjp, setL_links, if_false, Option.some.injEq, false_and]
              split_ifs <;> simp_all only
          · intro j
            simp only [lastChild, setL_links, setL_upgrade, List.cons_ne_nil, and_false, if_false]
            split_ifs <;> simp_all only
          · intro j
            simp only [prevSibling, setL_links, setL_upgrade]
            split_ifs <;> simp_all [upgrade_some]
        · clear hr; intro j; simp only [setL_links]; split_ifs <;> simp_all

/-- Exact description of `x.insert_before(y)`. -/
theorem insertBefore_spec {s : St} {F : Forest} (h : Reps s F) {x y : NodeId} (hx : s.live x = true) (hy : s.live y = true) :
    if x = y then s.insertBefore x y = .error (.panic .assertFailed)
    else if (∃ n ∈ F.patched y, n ∈ [x, y]) ∨
        (before ((F.detach y).sibs x) x = none ∧ (F.detach y).par x = some x) then
      s.insertBefore x y = .error (.panic .borrowed)
    else ∃ t, s.insertBefore x y = .ok t ∧ Reps t (F.insertBefore x y) ∧ Frame s t ∧
      RootSet s t y (s.links x).root := by
  by_cases hpc : x = y
  · simp [hpc, St.insertBefore, assertOrPanic, bind, Except.bind]
  · simp only [hpc, if_false]
    have hne : (x != y) = true := by simp [hpc]
    by_cases hb : s.blocked [x, y] y
    · have := (h.blocked_iff hy _).1 hb
      simp only [this, true_or, if_true]
      simp [St.insertBefore, assertOrPanic, hpc, bind, Except.bind, St.detachCore_blocked s _ _ hb]
    · have hb' : ¬ ∃ n ∈ F.patched y, n ∈ [x, y] := fun hh => hb ((h.blocked_iff hy _).2 hh)
      simp only [hb', false_or]
      have h1 := h.detached hy
      have hal := F.alone_detach y
      obtain ⟨a, b, e, hxa, hxb, _⟩ := nodup_split (h1.wf.nodup x hx) (h1.wf.self_mem x hx)
      have key := insertBefore_aux h1 (x := x) (y := y) hx hy hpc hal (h.detached_raw hy) e hxa (s.insertBefore x y)
        (by simp only [St.insertBefore, assertOrPanic, hne, if_true, bind, Except.bind, St.detachCore_ok s _ _ hb]
            rfl)
      rw [e, before_split hxa]
      have hbe : a.getLast? = none ↔ a = [] := by simp
      simp only [hbe]
      split at key
      · next hl => simp only [hl, true_and, if_true]; exact key
      · next hl =>
        simp only [hl, if_false]
        obtain ⟨t, e', hput, hfr, hrt⟩ := key
        refine ⟨t, e', ?_, (Frame.detached s y).trans hfr, hrt⟩
        have hpl := h1.wf.place_sibs hx (a := a) (b := x :: b) e
        have := h1.put hy hal hpl (by simpa [e] using hal.not_sib h1.wf hx hpc) hput
        have e2 : insBefore ((F.detach y).sibs x) x y = a ++ y :: x :: b := by
          rw [e, insBefore_split hxa]
        rw [Forest.insertBefore, e2]
        exact this

end Svgdom
