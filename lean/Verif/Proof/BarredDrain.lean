import Verif.Spec.BarredDrain
import Verif.Proof.Barred
import Verif.Proof.Drain

/-!
# Exactly when `drain` returns although the caller has borrowed nodes
-/

set_option autoImplicit false

namespace Svgdom

/-- The root of the first of these trees. -/
def Trees.firstRoot : Trees → Option NodeId
  | nil => none
  | cons c _ _ => some c

theorem Trees.Of.firstRoot {F : Forest} {T : Trees} {l : List NodeId} (h : T.Of F l) : T.firstRoot = l.head? := by
  cases T with
  | nil => simp only [Trees.Of] at h; subst h; rfl
  | cons c K R => obtain ⟨l', rfl, _⟩ := h; rfl

/-- The nodes that get new pointers in the loop over the children of `p`, of which `o` is the last before `T` that stays. -/
def Trees.drainEdges (q : NodeId → Bool) (p : NodeId) (o : Option NodeId) : Trees → List NodeId
  | nil => []
  | cons c K R => if q c then R.firstRoot.getD p :: o.getD p :: R.drainEdges q p o else K.drainEdges q c none ++ R.drainEdges q p (some c)

section
variable {g : Guards}

theorem barred_iff {s : St} {S : List NodeId} : Barred g s S ↔ ∃ m ∈ S, NodeBarred g s m := by
  unfold Barred NodeBarred
  constructor
  · rintro (⟨m, h1, h2⟩ | ⟨m, h1, j, h2⟩ | ⟨m, h1, j, h2, h3⟩)
    · exact ⟨m, h1, .inl h2⟩
    · exact ⟨m, h1, .inr ⟨j, h2.1, .inl h2.2⟩⟩
    · exact ⟨m, h1, .inr ⟨j, h2, .inr h3⟩⟩
  · rintro ⟨m, h1, h2 | ⟨j, h2, h3 | h3⟩⟩
    · exact .inl ⟨m, h1, h2⟩
    · exact .inr (.inl ⟨m, h1, j, h2, h3⟩)
    · exact .inr (.inr ⟨m, h1, j, h2, h3⟩)

theorem nextSiblingG_ok {s : St} {i : NodeId} (h : g i ≠ .excl) : s.nextSiblingG g i = .ok (s.nextSibling i) := by
  unfold St.nextSiblingG; rw [rd_ok h]; rfl

theorem firstChildG_ok {s : St} {i : NodeId} (h : g i ≠ .excl) : s.firstChildG g i = .ok (s.firstChild i) := by
  unfold St.firstChildG; rw [rd_ok h]; rfl

theorem drainG_ok {f : St → NodeId → Bool} {q : NodeId → Bool} : ∀ (T : Trees) (k : Nat) (s t : St) (F : Forest) (p : NodeId)
    (a l : List NodeId) (n m : Nat), Inv s → s.Acyclic → Describes s F → s.live p = true → F.kids p = a ++ l → T.Of F l →
    (p :: T.pre).Nodup → Agrees f q s → T.pre.length + 1 ≤ k → St.drainAux f k s l.head? n = .ok (t, m) →
    (St.drainAuxG g f k s l.head? n = .ok (t, m) ↔
      (∀ j ∈ T.pre, g j ≠ .excl) ∧ ¬ Barred g s (T.gone q) ∧ ¬ Guarded g (T.drainEdges q p a.getLast?))
  | .nil, k, s, t, F, p, a, l, n, m, h, hac, hF, hp, hl, ho, hn, hf, hk, e => by
    simp only [Trees.Of] at ho
    subst ho
    obtain ⟨k, rfl⟩ : ∃ m, k = m + 1 := ⟨k - 1, by omega⟩
    simp only [List.head?_nil, St.drainAux] at e
    simp [St.drainAuxG, e, Trees.pre, Trees.gone, Trees.drainEdges, not_barred, Guarded]
  | .cons c K R, k, s, t, F, p, a, l, n, m, h, hac, hF, hp, hl, ho, hn, hf, hk, e => by
    obtain ⟨l', rfl, hoK, hoR⟩ := ho
    simp only [Trees.pre, List.length_cons, List.length_append] at hk
    obtain ⟨k, rfl⟩ : ∃ m, k = m + 1 := ⟨k - 1, by omega⟩
    have hck : c ∈ F.kids p := by rw [hl]; simp
    obtain ⟨hc, hcp⟩ := hF.wf.kids p hp c hck
    have hkn := hF.wf.kids_nodup hp
    simp only [Trees.pre, List.nodup_cons, List.mem_cons, List.mem_append, not_or, List.nodup_append] at hn
    obtain ⟨⟨hpc, hpK, hpR⟩, ⟨hcK, hcR⟩, hnK, hnR, hKR⟩ := hn
    have hkl : ∀ x ∈ F.kids p, s.live x = true := fun x hx => (hF.wf.kids p hp x hx).1
    have hKl : ∀ j ∈ K.pre, s.live j = true := pre_live hF hoK fun x hx => (hF.wf.kids c hc x hx).1
    have hRl : ∀ j ∈ R.pre, s.live j = true := pre_live hF hoR fun x hx => hkl x (by rw [hl]; simp [hx])
    have hdR : ∀ S : List NodeId, (∀ j ∈ S, j = c ∨ j ∈ K.pre) → ∀ j ∈ R.pre, j ∉ S := by
      intro S hS j hj hm
      rcases hS j hm with rfl | hm
      · exact hcR hj
      · exact hKR j hm j hj rfl
    have hca : c ∉ a := by
      rw [hl] at hkn
      intro hm
      exact (List.nodup_append.1 hkn).2.2 c hm c (by simp) rfl
    have haK : ∀ x ∈ a, x ∉ K.pre := by
      intro x hx hm
      have hxp := (hF.wf.kids p hp x (by rw [hl]; simp [hx])).2
      rcases pre_or_parent hoK x hm with hq | ⟨y, hy, hq⟩
      · rw [(hF.wf.kids c hc x hq).2] at hxp; exact hpc (Option.some.inj hxp).symm
      · rw [(hF.wf.kids y (hKl y hy) x hq).2] at hxp; exact hpK (Option.some.inj hxp ▸ hy)
    have hroots : R.firstRoot = l'.head? := hoR.firstRoot
    by_cases hg : q c = true
    · have hfc : f s c = true := by rw [hf s (fun _ => rfl) (fun _ => rfl) (fun _ => rfl) (fun _ => rfl)]; exact hg
      have hnx : s.nextSibling c = l'.head? := by
        rw [hF.shows.next c hc, ← hF.wf.kids_sibs hp hck, hl, after_split hca]
      have hpv : s.prevSibling c = a.getLast? := by
        rw [hF.shows.prev c hc, ← hF.wf.kids_sibs hp hck, hl, before_split hca]
      obtain ⟨s1, e1, h1, r1, d1⟩ := removeNode_spec h hac hF hc hoK
      have hac1 := hF.prune_acyclic hac r1.live d1
      have hp1 : s1.live p = true := by rw [r1.live]; exact hp
      have hR := hdR (c :: K.pre) (fun j hj => List.mem_cons.1 hj)
      have hafil : a.filter (fun x => decide (x ∉ c :: K.pre)) = a :=
        filter_all fun x hx hm => by
          rcases List.mem_cons.1 hm with rfl | hm
          · exact hca hx
          · exact haK x hx hm
      have hk1 : (F.prune (c :: K.pre)).kids p = a ++ l' := by
        have : p ∉ c :: K.pre := by simp [hpc, hpK]
        simp only [Forest.prune, this, if_false, hl]
        rw [List.filter_append, List.filter_cons, hafil]
        simp only [List.mem_cons, true_or, not_true, decide_false, Bool.false_eq_true, if_false]
        have := filter_all (l := l') (S := c :: K.pre) fun x hx => hR x (hoR.mem_pre x hx)
        simp only [List.mem_cons] at this
        rw [this]
      simp only [List.head?_cons, St.drainAux, hfc, if_true, e1, bind_ok_left, hnx] at e
      have ih := drainG_ok R k s1 t _ p _ l' (n + 1) m h1 hac1 d1 hp1 hk1 (hoR.prune hR)
        (by simp [hpR, hnR]) (hf.removed r1) (by omega) e
      have hA := removeAuxG_of_kids (g := g) (kidsBarred K) (k := s.fuel) h hF hc hoK (by simp [hcK, hnK])
        (by
          have := length_le_of_below (l := c :: K.pre) (n := s.nextId) (by simp [hcK, hnK]) (by
            intro j hj
            rcases List.mem_cons.1 hj with rfl | hj
            · exact h.liveBelow _ hc
            · exact h.liveBelow _ (hKl j hj))
          simp only [List.length_cons] at this
          unfold St.fuel
          omega) e1
      have hA : s.removeNodeG g c = .ok s1 ↔ _ := hA
      have hB : ¬ Barred g s (c :: K.pre) → (¬ Barred g s1 (R.gone q) ↔ ¬ Barred g s (R.gone q)) := fun hb =>
        barred_filtered r1.live r1.attrs hb (fun j hj => hRl j (gone_sub R j hj)) fun j hj => hR j (gone_sub R j hj)
      have har : Guarded g (s.around c) ↔ g (l'.head?.getD p) ≠ .free ∨ g (a.getLast?.getD p) ≠ .free := by
        unfold St.around
        rw [hnx, hpv, hF.shows.parent c hc, hcp, guarded_append, guarded_toList, guarded_toList]
        cases l'.head? <;> cases a.getLast? <;> simp
      have hstart : St.drainAuxG g f (k + 1) s (some c) n = (do
          let next ← s.nextSiblingG g c
          let s ← s.removeNodeG g c
          St.drainAuxG g f k s next (n + 1)) := by
        simp only [St.drainAuxG, hfc, if_true]
      simp only [List.head?_cons, hstart, Trees.gone, Trees.drainEdges, hg, if_true, hroots, guarded_cons, Trees.pre]
      rw [not_barred_append]
      constructor
      · intro eG
        simp only [bind_ok] at eG
        obtain ⟨x, f1, u, f2, f3⟩ := eG
        have hx : g c ≠ .excl := by
          intro hx
          simp [St.nextSiblingG, rd, hx, bind, Except.bind] at f1
        rw [nextSiblingG_ok hx] at f1
        cases f1
        have g2 := (Respects.removeNode s c).eq_ok f2
        rw [e1] at g2; cases g2
        obtain ⟨hb, hb2⟩ := hA.1 f2
        rw [hnx] at f3
        obtain ⟨i1, i2, i3⟩ := ih.1 f3
        rw [har] at hb2
        refine ⟨fun j hj => ?_, ⟨hb, (hB hb).1 i2⟩, ?_⟩
        · rcases List.mem_cons.1 hj with rfl | hj
          · exact hx
          · rcases List.mem_append.1 hj with hj | hj
            · rw [(not_barred.1 hb).1 j (by simp [hj])]; simp
            · exact i1 j hj
        · push Not at hb2 ⊢
          exact ⟨hb2.1, hb2.2, i3⟩
      · rintro ⟨i1, ⟨hb, i2⟩, i3⟩
        push Not at i3
        have hx : g c ≠ .excl := i1 c (by simp)
        rw [nextSiblingG_ok hx, bind_ok_left, hA.2 ⟨hb, by rw [har]; push Not; exact ⟨i3.1, i3.2.1⟩⟩, bind_ok_left, hnx]
        exact ih.2 ⟨fun j hj => i1 j (by simp [hj]), (hB hb).2 i2, i3.2.2⟩
    · have hg' : q c = false := by simpa using hg
      have hfc : f s c = false := by rw [hf s (fun _ => rfl) (fun _ => rfl) (fun _ => rfl) (fun _ => rfl)]; exact hg'
      have hfirst := hF.shows.first c hc
      obtain ⟨s1, e1, h1, hac1, r1, d1⟩ := drain_spec K k s F c [] (F.kids c) n h hac hF hc rfl hoK (by simp [hcK, hnK]) hf
        (by omega)
      have ihK := drainG_ok K k s s1 F c [] (F.kids c) n _ h hac hF hc rfl hoK (by simp [hcK, hnK]) hf (by omega) e1
      have hx : (if s.hasChildren c = true then St.drainAux f k s (s.firstChild c) n else pure (s, n)) =
          .ok (s1, n + (K.hit q).length) := by
        rw [St.hasChildren, hfirst]
        cases hkc : F.kids c with
        | nil =>
          rw [hkc] at e1 hoK
          have := hoK.nil_list
          subst this
          simp only [List.head?_nil, Option.isSome_none, Bool.false_eq_true, if_false]
          obtain ⟨m, rfl⟩ : ∃ m, k = m + 1 := ⟨k - 1, by omega⟩
          exact e1
        | cons x y => rw [← hkc]; simpa [hkc] using e1
      have hxG : g c ≠ .excl → ∀ r, ((if s.hasChildren c = true then s.firstChildG g c >>= fun x => St.drainAuxG g f k s x n else pure (s, n)) = .ok r ↔
          St.drainAuxG g f k s (F.kids c).head? n = .ok r) := by
        intro hcx r
        rw [St.hasChildren, firstChildG_ok hcx, hfirst]
        cases hkc : F.kids c with
        | nil =>
          simp only [List.head?_nil, Option.isSome_none, Bool.false_eq_true, if_false]
          obtain ⟨m, rfl⟩ : ∃ m, k = m + 1 := ⟨k - 1, by omega⟩
          rfl
        | cons x y => simp only [List.head?_cons, Option.isSome_some, if_true, bind_ok_left]
      have hcS : c ∉ K.gone q := fun hm => hcK (gone_sub K c hm)
      have hpS : p ∉ K.gone q := fun hm => hpK (gone_sub K p hm)
      have hR := hdR (K.gone q) (fun j hj => .inr (gone_sub K j hj))
      have hc1 : s1.live c = true := by rw [r1.live]; exact hc
      have hp1 : s1.live p = true := by rw [r1.live]; exact hp
      have hk1 : (F.prune (K.gone q)).kids p = a.filter (fun x => decide (x ∉ K.gone q)) ++ c :: l' := by
        simp only [Forest.prune, hpS, if_false, hl]
        rw [List.filter_append, List.filter_cons]
        simp only [hcS, not_false_iff, decide_true, if_true]
        have := filter_all (l := l') (S := K.gone q) fun x hx => hR x (hoR.mem_pre x hx)
        rw [this]
      have hnx : s1.nextSibling c = l'.head? := by
        have hm : c ∈ (F.prune (K.gone q)).kids p := by rw [hk1]; simp
        rw [d1.shows.next c hc1, ← d1.wf.kids_sibs hp1 hm, hk1, after_split]
        intro hm; exact hca (List.mem_filter.1 hm).1
      have hplain : ∀ r, St.drainAux f (k + 1) s (some c) n = .ok r → St.drainAux f k s1 l'.head? (n + (K.hit q).length) = .ok r := by
        intro r er
        have : St.drainAux f (k + 1) s (some c) n =
            (if s.hasChildren c = true then St.drainAux f k s (s.firstChild c) n else pure (s, n)).bind
              fun x => St.drainAux f k x.1 (x.1.nextSibling c) x.2 := by
          simp only [St.drainAux, hfc, Bool.false_eq_true, if_false, bind]
          split <;> rfl
        rw [this, hx] at er
        simpa [Except.bind, hnx] using er
      have e2 := hplain _ e
      have ihR := drainG_ok R k s1 t _ p (a.filter (fun x => decide (x ∉ K.gone q)) ++ [c]) l'
        (n + (K.hit q).length) m h1 hac1 d1 hp1 (by rw [hk1]; simp) (hoR.prune hR) (by simp [hpR, hnR]) (hf.removed r1) (by omega) e2
      rw [List.getLast?_append_of_ne_nil _ (by simp), List.getLast?_singleton] at ihR
      have hB : ¬ Barred g s (K.gone q) → (¬ Barred g s1 (R.gone q) ↔ ¬ Barred g s (R.gone q)) := fun hb =>
        barred_filtered r1.live r1.attrs hb (fun j hj => hRl j (gone_sub R j hj)) fun j hj => hR j (gone_sub R j hj)
      have hstart : St.drainAuxG g f (k + 1) s (some c) n = rd g c >>= fun _ =>
          (if s.hasChildren c = true then s.firstChildG g c >>= fun x => St.drainAuxG g f k s x n else pure (s, n)) >>= fun x =>
          x.1.nextSiblingG g c >>= fun next => St.drainAuxG g f k x.1 next x.2 := by
        simp only [St.drainAuxG, hfc, Bool.false_eq_true, if_false]
        congr 1
        funext _
        split
        · simp only [bind_assoc]
        · rfl
      simp only [List.head?_cons, hstart, Trees.gone, Trees.drainEdges, hg', Bool.false_eq_true, if_false, Trees.pre]
      rw [not_barred_append, guarded_append]
      simp only [List.getLast?_nil] at ihK
      constructor
      · intro eG
        rw [bind_ok] at eG
        obtain ⟨_, f0, eG⟩ := eG
        have hcx : g c ≠ .excl := by
          intro hcx
          simp [rd, hcx] at f0
        rw [bind_ok] at eG
        obtain ⟨x, f1, eG⟩ := eG
        rw [hxG hcx] at f1
        have g1 := (Respects.drainAux f k s _ n).eq_ok f1
        rw [e1] at g1; cases g1
        simp only [nextSiblingG_ok hcx, bind_ok_left, hnx] at eG
        obtain ⟨i1, i2, i3⟩ := ihK.1 f1
        obtain ⟨j1, j2, j3⟩ := ihR.1 eG
        refine ⟨fun j hj => ?_, ⟨i2, (hB i2).1 j2⟩, ?_⟩
        · rcases List.mem_cons.1 hj with rfl | hj
          · exact hcx
          · rcases List.mem_append.1 hj with hj | hj
            · exact i1 j hj
            · exact j1 j hj
        · rintro (hh | hh)
          · exact i3 hh
          · exact j3 hh
      · rintro ⟨i1, ⟨i2, i3⟩, i4⟩
        have hcx : g c ≠ .excl := i1 c (by simp)
        rw [rd_ok hcx, bind_ok_left, (hxG hcx _).2 (ihK.2 ⟨fun j hj => i1 j (by simp [hj]), i2, fun hh => i4 (.inl hh)⟩), bind_ok_left]
        simp only [nextSiblingG_ok hcx, bind_ok_left, hnx]
        exact ihR.2 ⟨fun j hj => i1 j (by simp [hj]), (hB i2).2 i3, fun hh => i4 (.inr hh)⟩

end

theorem kids_split_unique {x : NodeId} : ∀ {a a' b b' : List NodeId}, (a ++ x :: b).Nodup → a ++ x :: b = a' ++ x :: b' → a = a' ∧ b = b'
  | [], [], _, _, _, e => by simpa using e
  | [], y :: a', b, b', hn, e => by
    exfalso
    simp only [List.nil_append, List.cons_append, List.cons.injEq] at e
    rw [List.nil_append, List.nodup_cons] at hn
    exact hn.1 (by rw [e.2]; simp)
  | y :: a, [], b, b', hn, e => by
    exfalso
    simp only [List.nil_append, List.cons_append, List.cons.injEq] at e
    rw [List.cons_append, List.nodup_cons] at hn
    exact hn.1 (by rw [e.1]; simp)
  | y :: a, z :: a', b, b', hn, e => by
    simp only [List.cons_append, List.cons.injEq] at e
    rw [List.cons_append, List.nodup_cons] at hn
    obtain ⟨h1, h2⟩ := kids_split_unique hn.2 e.2
    exact ⟨by rw [e.1, h1], h2⟩

theorem mem_drainEdges {s : St} {F : Forest} (hF : Describes s F) {q : NodeId → Bool} {x : NodeId} : ∀ (T : Trees) (p : NodeId)
    (a l : List NodeId), s.live p = true → F.kids p = a ++ l → T.Of F l →
    (x ∈ T.drainEdges q p (a.filter fun y => !q y).getLast? ↔ ∃ c ∈ T.hit q, DrainEdge F q c x)
  | .nil, p, a, l, hp, hl, ho => by simp [Trees.drainEdges, Trees.hit]
  | .cons c K R, p, a, l, hp, hl, ho => by
    obtain ⟨l', rfl, hoK, hoR⟩ := ho
    obtain ⟨hc, hcp⟩ := hF.wf.kids p hp c (by rw [hl]; simp)
    have hkn := hF.wf.kids_nodup hp
    rw [hl] at hkn
    have ihR := mem_drainEdges hF (q := q) (x := x) R p (a ++ [c]) l' hp (by rw [hl]; simp) hoR
    by_cases hg : q c = true
    · have hfil : (a ++ [c]).filter (fun y => !q y) = a.filter fun y => !q y := by simp [hg]
      rw [hfil] at ihR
      have hE : DrainEdge F q c x ↔ x = l'.head?.getD p ∨ x = (a.filter fun y => !q y).getLast?.getD p := by
        constructor
        · rintro ⟨p', a', b', h1, h2, h3⟩
          rw [hcp] at h1
          cases h1
          rw [hl] at h2
          obtain ⟨rfl, rfl⟩ := kids_split_unique hkn h2
          exact h3
        · intro h3
          exact ⟨p, a, l', hcp, hl, h3⟩
      simp only [Trees.drainEdges, Trees.hit, hg, if_true, List.mem_cons, exists_eq_or_imp, hE, ihR, hoR.firstRoot, or_assoc]
    · have hg' : q c = false := by simpa using hg
      have hfil : ((a ++ [c]).filter fun y => !q y).getLast? = some c := by simp [hg']
      rw [hfil] at ihR
      have ihK := mem_drainEdges hF (q := q) (x := x) K c [] (F.kids c) hc rfl hoK
      simp only [List.filter_nil, List.getLast?_nil] at ihK
      simp only [Trees.drainEdges, Trees.hit, hg', Bool.false_eq_true, if_false, List.mem_append, ihK, ihR, or_and_right, exists_or]

end Svgdom
