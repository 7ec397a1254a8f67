import Verif.Proof.UnwindRemove
import Verif.Proof.Drain
import Verif.Proof.BarredDrain

/-!
# `drain`, stopped by a borrow
-/

set_option autoImplicit false

namespace Svgdom

section
variable {g : Guards}

theorem drain_toward {f : St → NodeId → Bool} {q : NodeId → Bool} : ∀ (T : Trees) (k : Nat) (s : St) (F : Forest) (p : NodeId)
    (a l : List NodeId) (n : Nat), Inv s → s.Acyclic → Describes s F → s.live p = true → F.kids p = a ++ l → T.Of F l →
    (p :: T.pre).Nodup → Agrees f q s → T.pre.length + 1 ≤ k →
    ∀ t m, St.drainAux f k s l.head? n = .ok (t, m) → Toward (· ∈ T.gone q) (· ∈ T.gone q) s t
  | .nil, k, s, F, p, a, l, n, h, hac, hF, hp, hl, ho, hn, hf, hk, t, m, he => by
    simp only [Trees.Of] at ho
    subst ho
    obtain ⟨k, rfl⟩ : ∃ m, k = m + 1 := ⟨k - 1, by omega⟩
    simp only [List.head?_nil, St.drainAux, Except.ok.injEq, Prod.mk.injEq] at he
    rw [he.1]
    exact .refl t
  | .cons c K R, k, s, F, p, a, l, n, h, hac, hF, hp, hl, ho, hn, hf, hk, t, m, he => by
    obtain ⟨l', rfl, hoK, hoR⟩ := ho
    simp only [Trees.pre, List.length_cons, List.length_append] at hk
    obtain ⟨k, rfl⟩ : ∃ m, k = m + 1 := ⟨k - 1, by omega⟩
    have hck : c ∈ F.kids p := by rw [hl]; simp
    obtain ⟨hc, hcp⟩ := hF.wf.kids p hp c hck
    have hkn := hF.wf.kids_nodup hp
    simp only [Trees.pre, List.nodup_cons, List.mem_cons, List.mem_append, not_or, List.nodup_append] at hn
    obtain ⟨⟨hpc, hpK, hpR⟩, ⟨hcK, hcR⟩, hnK, hnR, hKR⟩ := hn
    have hdR : ∀ S : List NodeId, (∀ j ∈ S, j = c ∨ j ∈ K.pre) → ∀ j ∈ R.pre, j ∉ S := by
      intro S hS j hj hm
      rcases hS j hm with rfl | hm
      · exact hcR hj
      · exact hKR j hm j hj rfl
    have hca : c ∉ a := by
      rw [hl] at hkn
      intro hm
      exact (List.nodup_append.1 hkn).2.2 c hm c (by simp) rfl
    by_cases hg : q c = true
    · have hfc : f s c = true := by rw [hf s (fun _ => rfl) (fun _ => rfl) (fun _ => rfl) (fun _ => rfl)]; exact hg
      have hnx : s.nextSibling c = l'.head? := by
        rw [hF.shows.next c hc, ← hF.wf.kids_sibs hp hck, hl, after_split hca]
      obtain ⟨s1, e1, h1, r1, d1⟩ := removeNode_spec h hac hF hc hoK
      have hac1 := hF.prune_acyclic hac r1.live d1
      have hp1 : s1.live p = true := by rw [r1.live]; exact hp
      have hR := hdR (c :: K.pre) (fun j hj => List.mem_cons.1 hj)
      have hk1 : (F.prune (c :: K.pre)).kids p = a.filter (fun x => decide (x ∉ c :: K.pre)) ++ l' := by
        have : p ∉ c :: K.pre := by simp [hpc, hpK]
        simp only [Forest.prune, this, if_false, hl]
        rw [List.filter_append, List.filter_cons]
        simp only [List.mem_cons, true_or, not_true, decide_false, Bool.false_eq_true, if_false]
        have := filter_all (l := l') (S := c :: K.pre) fun x hx => hR x (hoR.mem_pre x hx)
        simp only [List.mem_cons] at this
        rw [this]
      have hgone : ∀ m, m ∈ (Trees.cons c K R).gone q ↔ m ∈ c :: K.pre ∨ m ∈ R.gone q := by
        intro m; simp [Trees.gone, hg, or_assoc]
      simp only [List.head?_cons, St.drainAux, hfc, if_true, e1, bind_ok_left, hnx] at he
      have ih := drain_toward R k s1 _ p _ l' (n + 1) h1 hac1 d1 hp1 hk1 (hoR.prune hR)
        (by simp [hpR, hnR]) (hf.removed r1) (by omega) t m he
      exact Toward.trans (.node (.refl s) hc ((hgone c).2 (.inl (by simp))) e1)
        (ih.mono (fun m hm => (hgone m).2 (.inr hm)) fun m hm => (hgone m).2 (.inr hm))
    · have hg' : q c = false := by simpa using hg
      have hfc : f s c = false := by rw [hf s (fun _ => rfl) (fun _ => rfl) (fun _ => rfl) (fun _ => rfl)]; exact hg'
      have hfirst := hF.shows.first c hc
      obtain ⟨s1, e1, h1, hac1, r1, d1⟩ := drain_spec K k s F c [] (F.kids c) n h hac hF hc rfl hoK (by simp [hcK, hnK]) hf
        (by omega)
      have hgone : ∀ m, m ∈ (Trees.cons c K R).gone q ↔ m ∈ K.gone q ∨ m ∈ R.gone q := by
        intro m; simp [Trees.gone, hg']
      have tK := drain_toward (q := q) K k s F c [] (F.kids c) n h hac hF hc rfl hoK (by simp [hcK, hnK]) hf (by omega) s1 _ e1
      have hx : (if s.hasChildren c = true then St.drainAux f k s (s.firstChild c) n else pure (s, n)) =
          .ok (s1, n + (K.hit q).length) := by
        rw [St.hasChildren, hfirst]
        cases hkc : F.kids c with
        | nil =>
          rw [hkc] at e1 hoK
          have := hoK.nil_list
          subst this
          simp only [List.head?_nil, Option.isSome_none, Bool.false_eq_true, if_false]
          obtain ⟨m, rfl⟩ : ∃ m, k = m + 1 := ⟨k - 1, by omega⟩
          exact e1
        | cons x y => rw [← hkc]; simpa [hkc] using e1
      have hcS : c ∉ K.gone q := fun hm => hcK (gone_sub K c hm)
      have hpS : p ∉ K.gone q := fun hm => hpK (gone_sub K p hm)
      have hR := hdR (K.gone q) (fun j hj => .inr (gone_sub K j hj))
      have hc1 : s1.live c = true := by rw [r1.live]; exact hc
      have hp1 : s1.live p = true := by rw [r1.live]; exact hp
      have hk1 : (F.prune (K.gone q)).kids p = a.filter (fun x => decide (x ∉ K.gone q)) ++ c :: l' := by
        simp only [Forest.prune, hpS, if_false, hl]
        rw [List.filter_append, List.filter_cons]
        simp only [hcS, not_false_iff, decide_true, if_true]
        have := filter_all (l := l') (S := K.gone q) fun x hx => hR x (hoR.mem_pre x hx)
        rw [this]
      have hnx : s1.nextSibling c = l'.head? := by
        have hm : c ∈ (F.prune (K.gone q)).kids p := by rw [hk1]; simp
        rw [d1.shows.next c hc1, ← d1.wf.kids_sibs hp1 hm, hk1, after_split]
        intro hm; exact hca (List.mem_filter.1 hm).1
      have he2 : St.drainAux f k s1 l'.head? (n + (K.hit q).length) = .ok (t, m) := by
        have : St.drainAux f (k + 1) s (some c) n =
            (if s.hasChildren c = true then St.drainAux f k s (s.firstChild c) n else pure (s, n)).bind
              fun x => St.drainAux f k x.1 (x.1.nextSibling c) x.2 := by
          simp only [St.drainAux, hfc, Bool.false_eq_true, if_false, bind]
          split <;> rfl
        rw [List.head?_cons, this, hx] at he
        simpa [Except.bind, hnx] using he
      have ihR := drain_toward R k s1 _ p (a.filter (fun x => decide (x ∉ K.gone q)) ++ [c]) l'
        (n + (K.hit q).length) h1 hac1 d1 hp1 (by rw [hk1]; simp) (hoR.prune hR) (by simp [hpR, hnR]) (hf.removed r1) (by omega)
        t m he2
      exact (tK.mono (fun m hm => (hgone m).2 (.inl hm)) fun m hm => (hgone m).2 (.inl hm)).trans
        (ihR.mono (fun m hm => (hgone m).2 (.inr hm)) fun m hm => (hgone m).2 (.inr hm))

theorem drainAuxU_err {f : St → NodeId → Bool} {q : NodeId → Bool} : ∀ (T : Trees) (k : Nat) (s : St) (F : Forest) (p : NodeId)
    (a l : List NodeId) (n : Nat), Inv s → s.Acyclic → Describes s F → s.live p = true → F.kids p = a ++ l → T.Of F l →
    (p :: T.pre).Nodup → Agrees f q s → T.pre.length + 1 ≤ k → g p = .free → (∀ m ∈ a, g m = .free) → (∀ m ∈ T.pre, g m = .free) →
    (∀ j, s.live j = true → ∀ m ∈ T.gone q, s.Cites j m → g j ≠ .shared) →
    ∀ e t, St.drainAuxU g f k s l.head? n = .error (e, t) → Toward (· ∈ T.gone q) (· ∈ T.gone q) s t
  | .nil, k, s, F, p, a, l, n, h, hac, hF, hp, hl, ho, hn, hf, hk, gp, ga, gT, hci, e, t, he => by
    simp only [Trees.Of] at ho
    subst ho
    obtain ⟨k, rfl⟩ : ∃ m, k = m + 1 := ⟨k - 1, by omega⟩
    simp only [List.head?_nil, St.drainAuxU] at he
    cases he
  | .cons c K R, k, s, F, p, a, l, n, h, hac, hF, hp, hl, ho, hn, hf, hk, gp, ga, gT, hci, e, t, he => by
    obtain ⟨l', rfl, hoK, hoR⟩ := ho
    simp only [Trees.pre, List.length_cons, List.length_append] at hk
    obtain ⟨k, rfl⟩ : ∃ m, k = m + 1 := ⟨k - 1, by omega⟩
    have hck : c ∈ F.kids p := by rw [hl]; simp
    obtain ⟨hc, hcp⟩ := hF.wf.kids p hp c hck
    have hkn := hF.wf.kids_nodup hp
    simp only [Trees.pre, List.nodup_cons, List.mem_cons, List.mem_append, not_or, List.nodup_append] at hn
    obtain ⟨⟨hpc, hpK, hpR⟩, ⟨hcK, hcR⟩, hnK, hnR, hKR⟩ := hn
    have hkl : ∀ x ∈ F.kids p, s.live x = true := fun x hx => (hF.wf.kids p hp x hx).1
    have hKl : ∀ j ∈ K.pre, s.live j = true := pre_live hF hoK fun x hx => (hF.wf.kids c hc x hx).1
    have hRl : ∀ j ∈ R.pre, s.live j = true := pre_live hF hoR fun x hx => hkl x (by rw [hl]; simp [hx])
    have hdR : ∀ S : List NodeId, (∀ j ∈ S, j = c ∨ j ∈ K.pre) → ∀ j ∈ R.pre, j ∉ S := by
      intro S hS j hj hm
      rcases hS j hm with rfl | hm
      · exact hcR hj
      · exact hKR j hm j hj rfl
    have hca : c ∉ a := by
      rw [hl] at hkn
      intro hm
      exact (List.nodup_append.1 hkn).2.2 c hm c (by simp) rfl
    have gc : g c = .free := gT c (by simp [Trees.pre])
    have gK : ∀ m ∈ K.pre, g m = .free := fun m hm => gT m (by simp [Trees.pre, hm])
    have gR : ∀ m ∈ R.pre, g m = .free := fun m hm => gT m (by simp [Trees.pre, hm])
    have hcx : g c ≠ .excl := by simp [gc]
    by_cases hg : q c = true
    · have hfc : f s c = true := by rw [hf s (fun _ => rfl) (fun _ => rfl) (fun _ => rfl) (fun _ => rfl)]; exact hg
      have hnx : s.nextSibling c = l'.head? := by
        rw [hF.shows.next c hc, ← hF.wf.kids_sibs hp hck, hl, after_split hca]
      have hpv : s.prevSibling c = a.getLast? := by
        rw [hF.shows.prev c hc, ← hF.wf.kids_sibs hp hck, hl, before_split hca]
      obtain ⟨s1, e1, h1, r1, d1⟩ := removeNode_spec h hac hF hc hoK
      have hac1 := hF.prune_acyclic hac r1.live d1
      have hp1 : s1.live p = true := by rw [r1.live]; exact hp
      have hR := hdR (c :: K.pre) (fun j hj => List.mem_cons.1 hj)
      have hk1 : (F.prune (c :: K.pre)).kids p = a.filter (fun x => decide (x ∉ c :: K.pre)) ++ l' := by
        have : p ∉ c :: K.pre := by simp [hpc, hpK]
        simp only [Forest.prune, this, if_false, hl]
        rw [List.filter_append, List.filter_cons]
        simp only [List.mem_cons, true_or, not_true, decide_false, Bool.false_eq_true, if_false]
        have := filter_all (l := l') (S := c :: K.pre) fun x hx => hR x (hoR.mem_pre x hx)
        simp only [List.mem_cons] at this
        rw [this]
      have hgone : ∀ m, m ∈ (Trees.cons c K R).gone q ↔ m ∈ c :: K.pre ∨ m ∈ R.gone q := by
        intro m; simp [Trees.gone, hg, or_assoc]
      simp only [List.head?_cons, St.drainAuxU, hfc, if_true, nextSiblingG_ok hcx, Except.mapError, ok_bind, hnx] at he
      rw [bind_err] at he
      rcases he with he | ⟨u, f1, he⟩
      · refine (removeAuxU_err (kidsToward K) (k := s.fuel) h hF hc hoK (by simp [hcK, hnK]) ?_
          (fun m hm => by
            rcases List.mem_cons.1 hm with rfl | hm
            · exact gc
            · exact gK m hm) ?_
          (fun j hj m hm hcm => hci j hj m ((hgone m).2 (.inl hm)) hcm) he).mono (fun m hm => (hgone m).2 (.inl hm))
          fun m hm => (hgone m).2 (.inl (List.mem_cons_of_mem _ hm))
        · have := length_le_of_below (l := c :: K.pre) (n := s.nextId) (by simp [hcK, hnK]) (by
            intro j hj
            rcases List.mem_cons.1 hj with rfl | hj
            · exact h.liveBelow _ hc
            · exact h.liveBelow _ (hKl j hj))
          simp only [List.length_cons] at this
          unfold St.fuel
          omega
        · unfold St.around
          rw [hnx, hpv, hF.shows.parent c hc, hcp, guarded_append, guarded_toList, guarded_toList]
          push Not
          constructor
          · intro m hm
            cases hl' : l' with
            | nil => rw [hl'] at hm; simp at hm; rw [← hm]; exact gp
            | cons x l2 =>
              rw [hl'] at hm; simp at hm; rw [← hm]
              exact gR x (hoR.mem_pre x (by simp [hl']))
          · intro m hm
            cases hl' : a.getLast? with
            | none => rw [hl'] at hm; simp at hm; rw [← hm]; exact gp
            | some x =>
              rw [hl'] at hm; simp at hm; rw [← hm]
              exact ga x (List.mem_of_getLast? hl')
      · have g1 := Respects.of_forget (Respects.removeNode (g := g) s c) ((removeU_agrees s.fuel).1 s c) f1
        rw [e1] at g1; cases g1
        have ih := drainAuxU_err R k s1 _ p _ l' (n + 1) h1 hac1 d1 hp1 hk1 (hoR.prune hR)
          (by simp [hpR, hnR]) (hf.removed r1) (by omega) gp (fun m hm => ga m (List.mem_filter.1 hm).1) gR
          (fun j hj m hm hcm => by
            have hj' : s.live j = true := by rw [← r1.live]; exact hj
            obtain ⟨b, hb, hs, hr⟩ := hcm
            rw [r1.attrs j hj', List.mem_filter] at hb
            exact hci j hj' m ((hgone m).2 (.inr hm)) ⟨b, hb.1, hs, hr⟩) e t he
        exact Toward.trans (.node (.refl s) hc ((hgone c).2 (.inl (by simp))) e1)
          (ih.mono (fun m hm => (hgone m).2 (.inr hm)) fun m hm => (hgone m).2 (.inr hm))
    · have hg' : q c = false := by simpa using hg
      have hfc : f s c = false := by rw [hf s (fun _ => rfl) (fun _ => rfl) (fun _ => rfl) (fun _ => rfl)]; exact hg'
      have hfirst := hF.shows.first c hc
      obtain ⟨s1, e1, h1, hac1, r1, d1⟩ := drain_spec K k s F c [] (F.kids c) n h hac hF hc rfl hoK (by simp [hcK, hnK]) hf
        (by omega)
      have hgone : ∀ m, m ∈ (Trees.cons c K R).gone q ↔ m ∈ K.gone q ∨ m ∈ R.gone q := by
        intro m; simp [Trees.gone, hg']
      have ihK := drainAuxU_err (q := q) K k s F c [] (F.kids c) n h hac hF hc rfl hoK (by simp [hcK, hnK]) hf (by omega) gc (by simp) gK
        (fun j hj m hm hcm => hci j hj m ((hgone m).2 (.inl hm)) hcm)
      have tK : Toward (· ∈ K.gone q) (· ∈ K.gone q) s s1 := drain_toward K k s F c [] (F.kids c) n h hac hF hc rfl hoK
        (by simp [hcK, hnK]) hf (by omega) s1 _ e1
      have hxU : ∀ r, ((if s.hasChildren c = true then (s.firstChildG g c).mapError (·, s) >>= fun x => St.drainAuxU g f k s x n
          else pure (s, n)) = r ↔ St.drainAuxU g f k s (F.kids c).head? n = r) := by
        intro r
        rw [St.hasChildren, firstChildG_ok hcx, hfirst]
        cases hkc : F.kids c with
        | nil =>
          simp only [List.head?_nil, Option.isSome_none, Bool.false_eq_true, if_false]
          obtain ⟨m, rfl⟩ : ∃ m, k = m + 1 := ⟨k - 1, by omega⟩
          rfl
        | cons x y => simp only [List.head?_cons, Option.isSome_some, if_true, Except.mapError, ok_bind]
      have hcS : c ∉ K.gone q := fun hm => hcK (gone_sub K c hm)
      have hpS : p ∉ K.gone q := fun hm => hpK (gone_sub K p hm)
      have hR := hdR (K.gone q) (fun j hj => .inr (gone_sub K j hj))
      have hc1 : s1.live c = true := by rw [r1.live]; exact hc
      have hp1 : s1.live p = true := by rw [r1.live]; exact hp
      have hk1 : (F.prune (K.gone q)).kids p = a.filter (fun x => decide (x ∉ K.gone q)) ++ c :: l' := by
        simp only [Forest.prune, hpS, if_false, hl]
        rw [List.filter_append, List.filter_cons]
        simp only [hcS, not_false_iff, decide_true, if_true]
        have := filter_all (l := l') (S := K.gone q) fun x hx => hR x (hoR.mem_pre x hx)
        rw [this]
      have hnx : s1.nextSibling c = l'.head? := by
        have hm : c ∈ (F.prune (K.gone q)).kids p := by rw [hk1]; simp
        rw [d1.shows.next c hc1, ← d1.wf.kids_sibs hp1 hm, hk1, after_split]
        intro hm; exact hca (List.mem_filter.1 hm).1
      have hstart : St.drainAuxU g f (k + 1) s (some c) n = s.fails (rd g c) >>= fun _ =>
          (if s.hasChildren c = true then (s.firstChildG g c).mapError (·, s) >>= fun x => St.drainAuxU g f k s x n
            else pure (s, n)) >>= fun x =>
          (x.1.nextSiblingG g c).mapError (·, x.1) >>= fun next => St.drainAuxU g f k x.1 next x.2 := by
        simp only [St.drainAuxU, hfc, Bool.false_eq_true, if_false]
        congr 1
        funext _
        split
        · simp only [bind_assoc]
        · rfl
      have hrd : s.fails (rd g c) = .ok () := by rw [rd_free gc]; rfl
      rw [List.head?_cons, hstart, hrd, ok_bind, bind_err] at he
      rcases he with he | ⟨x, f1, he⟩
      · rw [hxU] at he
        exact (ihK e t he).mono (fun m hm => (hgone m).2 (.inl hm)) fun m hm => (hgone m).2 (.inl hm)
      · rw [hxU] at f1
        have g1 := Respects.of_forget (Respects.drainAux (g := g) f k s _ n) (drainAuxU_agrees f k s _ n) f1
        rw [e1] at g1; cases g1
        simp only [nextSiblingG_ok hcx, Except.mapError, ok_bind, hnx] at he
        have ihR := drainAuxU_err R k s1 _ p (a.filter (fun x => decide (x ∉ K.gone q)) ++ [c]) l'
          (n + (K.hit q).length) h1 hac1 d1 hp1 (by rw [hk1]; simp) (hoR.prune hR) (by simp [hpR, hnR]) (hf.removed r1) (by omega) gp
          (fun m hm => by
            rcases List.mem_append.1 hm with hm | hm
            · exact ga m (List.mem_filter.1 hm).1
            · rw [List.mem_singleton.1 hm]; exact gc) gR
          (fun j hj m hm hcm => by
            have hj' : s.live j = true := by rw [← r1.live]; exact hj
            obtain ⟨b, hb, hs, hr⟩ := hcm
            rw [r1.attrs j hj', List.mem_filter] at hb
            exact hci j hj' m ((hgone m).2 (.inr hm)) ⟨b, hb.1, hs, hr⟩) e t he
        exact (tK.mono (fun m hm => (hgone m).2 (.inl hm)) fun m hm => (hgone m).2 (.inl hm)).trans
          (ihR.mono (fun m hm => (hgone m).2 (.inr hm)) fun m hm => (hgone m).2 (.inr hm))

end

end Svgdom
