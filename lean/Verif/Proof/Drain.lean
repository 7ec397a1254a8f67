import Verif.Proof.Remove

/-! `drain` in closed form. -/

namespace Svgdom

open Relation

/-- Topmost nodes with `g`, in document order. -/
def Trees.hit (g : NodeId → Bool) : Trees → List NodeId
  | nil => []
  | cons i K R => if g i then i :: R.hit g else K.hit g ++ R.hit g

/-- All nodes of the subtrees of the topmost nodes with `g`. -/
def Trees.gone (g : NodeId → Bool) : Trees → List NodeId
  | nil => []
  | cons i K R => if g i then (i :: K.pre) ++ R.gone g else K.gone g ++ R.gone g

theorem gone_sub {g : NodeId → Bool} : ∀ (T : Trees), ∀ j ∈ T.gone g, j ∈ T.pre
  | .nil, j, h => by simp [Trees.gone] at h
  | .cons i K R, j, h => by
    simp only [Trees.gone] at h
    simp only [Trees.pre, List.mem_cons, List.mem_append]
    split at h
    · simp only [List.cons_append, List.mem_cons, List.mem_append] at h
      rcases h with h | h | h
      · exact .inl h
      · exact .inr (.inl h)
      · exact .inr (.inr (gone_sub R j h))
    · simp only [List.mem_append] at h
      rcases h with h | h
      · exact .inr (.inl (gone_sub K j h))
      · exact .inr (.inr (gone_sub R j h))

theorem Describes.prune_acyclic {s t : St} {F : Forest} {S : List NodeId} (ha : s.Acyclic) (hF : Describes s F)
    (hl : t.live = s.live) (hd : Describes t (F.prune S)) : t.Acyclic := by
  refine acyclic_sub ha (fun i hi => by rw [hl] at hi; exact hi) ?_
  intro j p hj hp
  rw [hd.shows.parent j hj] at hp
  rw [hl] at hj
  rw [hF.shows.parent j hj]
  simp only [Forest.prune] at hp
  split at hp
  · simp at hp
  · exact hp

/-- `f` behaves like `g` in every state with the same node data. -/
def Agrees (f : St → NodeId → Bool) (g : NodeId → Bool) (s : St) : Prop :=
  ∀ t : St, (∀ n, t.nodeType n = s.nodeType n) → (∀ n, t.tagName n = s.tagName n) → (∀ n, t.idOf n = s.idOf n) →
    (∀ n, t.text n = s.text n) → ∀ n, f t n = g n

theorem Agrees.removed {f : St → NodeId → Bool} {g : NodeId → Bool} {s t : St} {S : List NodeId} (h : Agrees f g s)
    (r : Removed s t S) : Agrees f g t := fun u h1 h2 h3 h4 =>
  h u (fun n => (h1 n).trans (r.types n)) (fun n => (h2 n).trans (r.tags n)) (fun n => (h3 n).trans (r.ids n))
    (fun n => (h4 n).trans (r.texts n))

theorem drain_depth {f : St → NodeId → Bool} {g : NodeId → Bool} : ∀ (T : Trees) (k : Nat) (s : St) (F : Forest) (p : NodeId)
    (a l : List NodeId) (n : Nat), Inv s → s.Acyclic → Describes s F → s.live p = true → F.kids p = a ++ l → T.Of F l →
    (p :: T.pre).Nodup → Agrees f g s → T.pre.length + 1 ≤ k →
    ∃ t, St.drainAux f k s l.head? n = .ok (t, n + (T.hit g).length) ∧ Inv t ∧ t.Acyclic ∧ Removed s t (T.gone g) ∧
      Describes t (F.prune (T.gone g)) ∧
      ∀ d, St.drainAuxS f d k s l.head? n = if T.drainHeight g ≤ d then .ok (t, n + (T.hit g).length) else .error .overflow
  | .nil, k, s, F, p, a, l, n, h, hac, hF, hp, hl, ho, hn, hf, hk => by
    simp only [Trees.Of] at ho
    subst ho
    obtain ⟨k, rfl⟩ : ∃ m, k = m + 1 := ⟨k - 1, by omega⟩
    refine ⟨s, rfl, h, hac, .nil s, ?_, fun d => ?_⟩
    · rw [Trees.gone, prune_nil]; exact hF
    · simp [St.drainAuxS, Trees.drainHeight, Trees.hit]
  | .cons c K R, k, s, F, p, a, l, n, h, hac, hF, hp, hl, ho, hn, hf, hk => by
    obtain ⟨l', rfl, hoK, hoR⟩ := ho
    simp only [Trees.pre, List.length_cons, List.length_append] at hk
    obtain ⟨k, rfl⟩ : ∃ m, k = m + 1 := ⟨k - 1, by omega⟩
    have hck : c ∈ F.kids p := by rw [hl]; simp
    obtain ⟨hc, hcp⟩ := hF.wf.kids p hp c hck
    have hkn := hF.wf.kids_nodup hp
    simp only [Trees.pre, List.nodup_cons, List.mem_cons, List.mem_append, not_or, List.nodup_append] at hn
    obtain ⟨⟨hpc, hpK, hpR⟩, ⟨hcK, hcR⟩, hnK, hnR, hKR⟩ := hn
    have hdR : ∀ S : List NodeId, (∀ j ∈ S, j = c ∨ j ∈ K.pre) → ∀ j ∈ R.pre, j ∉ S := by
      intro S hS j hj hm
      rcases hS j hm with rfl | hm
      · exact hcR hj
      · exact hKR j hm j hj rfl
    have hca : c ∉ a := by
      rw [hl] at hkn
      intro hm
      exact (List.nodup_append.1 hkn).2.2 c hm c (by simp) rfl
    by_cases hg : g c = true
    · have hnx : s.nextSibling c = l'.head? := by
        rw [hF.shows.next c hc, ← hF.wf.kids_sibs hp hck, hl, after_split hca]
      obtain ⟨s1, e1, h1, r1, d1, q1⟩ := removeNode_depth h hac hF hc hoK
      have hac1 := hF.prune_acyclic hac r1.live d1
      have hp1 : s1.live p = true := by rw [r1.live]; exact hp
      have hR := hdR (c :: K.pre) (fun j hj => List.mem_cons.1 hj)
      have hk1 : (F.prune (c :: K.pre)).kids p = a.filter (fun x => decide (x ∉ c :: K.pre)) ++ l' := by
        have : p ∉ c :: K.pre := by simp [hpc, hpK]
        simp only [Forest.prune, this, if_false, hl]
        rw [List.filter_append, List.filter_cons]
        simp only [List.mem_cons, true_or, not_true, decide_false, Bool.false_eq_true, if_false]
        have := filter_all (l := l') (S := c :: K.pre) fun x hx => hR x (hoR.mem_pre x hx)
        simp only [List.mem_cons] at this
        rw [this]
      obtain ⟨t, e2, h2, ac2, r2, d2, q2⟩ := drain_depth R k s1 _ p _ l' (n + 1) h1 hac1 d1 hp1 hk1 (hoR.prune hR)
        (by simp [hpR, hnR]) (hf.removed r1) (by omega)
      refine ⟨t, ?_, h2, ac2, ?_, ?_, fun d => ?_⟩
      · have hfc : f s c = true := by rw [hf s (fun _ => rfl) (fun _ => rfl) (fun _ => rfl) (fun _ => rfl)]; exact hg
        simp only [List.head?_cons, St.drainAux, hfc, if_true, e1, bind, Except.bind, hnx, e2, Trees.hit, hg,
          List.length_cons]
        congr 2
        omega
      · simp only [Trees.gone, hg, if_true]; exact r1.trans r2
      · simp only [Trees.gone, hg, if_true]
        rw [prune_prune] at d2; exact d2
      · have hfc : f s c = true := by rw [hf s (fun _ => rfl) (fun _ => rfl) (fun _ => rfl) (fun _ => rfl)]; exact hg
        have hh : (Trees.cons c K R).drainHeight g = max (K.height + 1) (R.drainHeight g) := by
          simp [Trees.drainHeight, hg]
        simp only [List.head?_cons, St.drainAuxS, hfc, if_true, q1 d, bind, Except.bind, hnx, Trees.hit, hg, List.length_cons, hh,
          Nat.add_assoc, Nat.add_comm 1]
        by_cases h1 : K.height + 1 ≤ d
        · by_cases h3 : R.drainHeight g ≤ d
          · simp only [h1, h3, if_true, q2 d, max_le_iff, and_self, Nat.add_assoc, Nat.add_comm 1]
          · simp only [h1, h3, if_true, if_false, q2 d, max_le_iff, and_false]
        · simp only [h1, if_false, max_le_iff, false_and]
    · have hg' : g c = false := by simpa using hg
      have hfc : f s c = false := by rw [hf s (fun _ => rfl) (fun _ => rfl) (fun _ => rfl) (fun _ => rfl)]; exact hg'
      have hfirst := hF.shows.first c hc
      obtain ⟨s1, e1, h1, hac1, r1, d1, q1⟩ := drain_depth K k s F c [] (F.kids c) n h hac hF hc rfl hoK (by simp [hcK, hnK]) hf
        (by omega)
      have hx : (if s.hasChildren c = true then St.drainAux f k s (s.firstChild c) n else pure (s, n)) =
          .ok (s1, n + (K.hit g).length) := by
        rw [St.hasChildren, hfirst]
        cases hkc : F.kids c with
        | nil =>
          rw [hkc] at e1 hoK
          have := hoK.nil_list
          subst this
          simp only [List.head?_nil, Option.isSome_none, Bool.false_eq_true, if_false]
          obtain ⟨m, rfl⟩ : ∃ m, k = m + 1 := ⟨k - 1, by omega⟩
          exact e1
        | cons x y => rw [← hkc]; simpa [hkc] using e1
      have hcS : c ∉ K.gone g := fun hm => hcK (gone_sub K c hm)
      have hpS : p ∉ K.gone g := fun hm => hpK (gone_sub K p hm)
      have hR := hdR (K.gone g) (fun j hj => .inr (gone_sub K j hj))
      have hc1 : s1.live c = true := by rw [r1.live]; exact hc
      have hp1 : s1.live p = true := by rw [r1.live]; exact hp
      have hk1 : (F.prune (K.gone g)).kids p = a.filter (fun x => decide (x ∉ K.gone g)) ++ c :: l' := by
        simp only [Forest.prune, hpS, if_false, hl]
        rw [List.filter_append, List.filter_cons]
        simp only [hcS, not_false_iff, decide_true, if_true]
        have := filter_all (l := l') (S := K.gone g) fun x hx => hR x (hoR.mem_pre x hx)
        rw [this]
      have hnx : s1.nextSibling c = l'.head? := by
        have hm : c ∈ (F.prune (K.gone g)).kids p := by rw [hk1]; simp
        rw [d1.shows.next c hc1, ← d1.wf.kids_sibs hp1 hm, hk1, after_split]
        intro hm; exact hca (List.mem_filter.1 hm).1
      obtain ⟨t, e2, h2, ac2, r2, d2, q2⟩ := drain_depth R k s1 _ p (a.filter (fun x => decide (x ∉ K.gone g)) ++ [c]) l'
        (n + (K.hit g).length) h1 hac1 d1 hp1 (by rw [hk1]; simp) (hoR.prune hR) (by simp [hpR, hnR]) (hf.removed r1) (by omega)
      refine ⟨t, ?_, h2, ac2, ?_, ?_, fun d => ?_⟩
      · have : St.drainAux f (k + 1) s (some c) n =
            (if s.hasChildren c = true then St.drainAux f k s (s.firstChild c) n else pure (s, n)).bind
              fun x => St.drainAux f k x.1 (x.1.nextSibling c) x.2 := by
          simp only [St.drainAux, hfc, Bool.false_eq_true, if_false, bind]
          split <;> rfl
        rw [List.head?_cons, this, hx]
        simp only [Except.bind, hnx, e2, Trees.hit, hg', Bool.false_eq_true, if_false, List.length_append]
        congr 2
        omega
      · simp only [Trees.gone, hg', Bool.false_eq_true, if_false]; exact r1.trans r2
      · simp only [Trees.gone, hg', Bool.false_eq_true, if_false]
        rw [prune_prune] at d2; exact d2
      · have hx' : (if s.hasChildren c = true then nested d fun d => St.drainAuxS f d k s (s.firstChild c) n else pure (s, n)) =
            if (if K.height = 0 then 0 else K.drainHeight g + 1) ≤ d then .ok (s1, n + (K.hit g).length) else .error .overflow := by
          simp only [St.hasChildren, hfirst]
          cases hkc : F.kids c with
          | nil =>
            rw [hkc] at e1 hoK
            have := hoK.nil_list
            subst this
            obtain ⟨m, rfl⟩ : ∃ m, k = m + 1 := ⟨k - 1, by omega⟩
            simp only [List.head?_nil, St.drainAux, Except.ok.injEq] at e1
            simp [← e1, pure, Except.pure, Trees.height]
          | cons x y =>
            rw [hkc] at hoK q1
            cases K with
            | nil => simp [Trees.Of] at hoK
            | cons j k' r =>
              have h0 : (Trees.cons j k' r).height ≠ 0 := by simp [Trees.height]
              simp only [List.head?_cons, Option.isSome_some, if_true, h0, if_false]
              cases d with
              | zero => simp [nested]
              | succ d =>
                simp only [nested, Nat.add_le_add_iff_right]
                exact q1 d
        have : St.drainAuxS f d (k + 1) s (some c) n =
            (if s.hasChildren c = true then nested d fun d => St.drainAuxS f d k s (s.firstChild c) n else pure (s, n)).bind
              fun x => St.drainAuxS f d k x.1 (x.1.nextSibling c) x.2 := by
          simp only [St.drainAuxS, hfc, Bool.false_eq_true, if_false, bind]
          split <;> rfl
        rw [List.head?_cons, this, hx']
        have hh : (Trees.cons c K R).drainHeight g = max (if K.height = 0 then 0 else K.drainHeight g + 1) (R.drainHeight g) := by
          simp [Trees.drainHeight, hg']
        rw [hh]
        generalize (if K.height = 0 then 0 else K.drainHeight g + 1) = w
        by_cases h1 : w ≤ d
        · by_cases h3 : R.drainHeight g ≤ d
          · simp only [h1, h3, if_true, max_le_iff, and_self, Except.bind, hnx, q2 d, Trees.hit, hg', Bool.false_eq_true, if_false,
              List.length_append, Nat.add_assoc]
          · simp only [h1, h3, if_true, if_false, max_le_iff, and_false, Except.bind, hnx, q2 d]
        · simp only [h1, if_false, max_le_iff, false_and, Except.bind]

theorem drain_spec {f : St → NodeId → Bool} {g : NodeId → Bool} : ∀ (T : Trees) (k : Nat) (s : St) (F : Forest) (p : NodeId)
    (a l : List NodeId) (n : Nat), Inv s → s.Acyclic → Describes s F → s.live p = true → F.kids p = a ++ l → T.Of F l →
    (p :: T.pre).Nodup → Agrees f g s → T.pre.length + 1 ≤ k →
    ∃ t, St.drainAux f k s l.head? n = .ok (t, n + (T.hit g).length) ∧ Inv t ∧ t.Acyclic ∧ Removed s t (T.gone g) ∧
      Describes t (F.prune (T.gone g)) := by
  intro T k s F p a l n a1 a2 a3 a4 a5 a6 a7 a8 a9
  obtain ⟨t, b1, b2, b3, b4, b5, _⟩ := drain_depth T k s F p a l n a1 a2 a3 a4 a5 a6 a7 a8 a9
  exact ⟨t, b1, b2, b3, b4, b5⟩

/-! ### Which nodes -/

theorem hit_sub {g : NodeId → Bool} : ∀ (T : Trees), ∀ j ∈ T.hit g, j ∈ T.pre ∧ g j = true
  | .nil, j, h => by simp [Trees.hit] at h
  | .cons i K R, j, h => by
    simp only [Trees.hit] at h
    simp only [Trees.pre, List.mem_cons, List.mem_append]
    split at h
    · next hg =>
      rcases List.mem_cons.1 h with rfl | h
      · exact ⟨.inl rfl, hg⟩
      · exact ⟨.inr (.inr (hit_sub R j h).1), (hit_sub R j h).2⟩
    · rcases List.mem_append.1 h with h | h
      · exact ⟨.inr (.inl (hit_sub K j h).1), (hit_sub K j h).2⟩
      · exact ⟨.inr (.inr (hit_sub R j h).1), (hit_sub R j h).2⟩

theorem hit_nodup {g : NodeId → Bool} : ∀ {T : Trees}, T.pre.Nodup → (T.hit g).Nodup
  | .nil, _ => by simp [Trees.hit]
  | .cons i K R, h => by
    simp only [Trees.pre, List.nodup_cons, List.mem_append, not_or, List.nodup_append] at h
    obtain ⟨⟨h1, h2⟩, h3, h4, h5⟩ := h
    simp only [Trees.hit]
    split
    · exact List.nodup_cons.2 ⟨fun hm => h2 (hit_sub R _ hm).1, hit_nodup h4⟩
    · rw [List.nodup_append]
      exact ⟨hit_nodup h3, hit_nodup h4, fun a ha b hb => h5 a (hit_sub K a ha).1 b (hit_sub R b hb).1⟩

/-- Every match of the trees is at or below a topmost one. -/
theorem hit_above {s : St} {F : Forest} (hF : Describes s F) {g : NodeId → Bool} : ∀ {T : Trees} {l : List NodeId}, T.Of F l →
    (∀ i ∈ l, s.live i = true) → ∀ j ∈ T.pre, g j = true → ∃ a ∈ T.hit g, s.InSubtree a j
  | .nil, l, h, _, j, hj, _ => by simp [Trees.pre] at hj
  | .cons i K R, l, h, hl, j, hj, hg => by
    have hT := h
    obtain ⟨l', rfl, hk, hr⟩ := h
    have hi := hl i (by simp)
    have hkl : ∀ c ∈ F.kids i, s.live c = true := fun c hc => (hF.wf.kids i hi c hc).1
    have hrl : ∀ c ∈ l', s.live c = true := fun c hc => hl c (by simp [hc])
    have hjl := pre_live hF hT hl j hj
    simp only [Trees.pre, List.mem_cons, List.mem_append] at hj
    simp only [Trees.hit]
    rcases hj with rfl | hj | hj
    · simp only [hg, if_true]; exact ⟨j, by simp, .refl⟩
    · split
      · refine ⟨i, by simp, ?_⟩
        obtain ⟨c, hc, hs⟩ := (mem_pre hF hk hkl j hjl).1 hj
        refine hs.tail (?_ : s.Up c i)
        show s.parent c = some i
        rw [hF.shows.parent c (hkl c hc)]; exact (hF.wf.kids i hi c hc).2
      · obtain ⟨a, ha, hs⟩ := hit_above hF hk hkl j hj hg
        exact ⟨a, by simp [ha], hs⟩
    · obtain ⟨a, ha, hs⟩ := hit_above hF hr hrl j hj hg
      split
      · exact ⟨a, by simp [ha], hs⟩
      · exact ⟨a, by simp [ha], hs⟩

/-- The removed nodes are those at or below a topmost match. -/
theorem mem_gone {s : St} {F : Forest} (hF : Describes s F) {g : NodeId → Bool} : ∀ {T : Trees} {l : List NodeId}, T.Of F l →
    (∀ i ∈ l, s.live i = true) → ∀ j, s.live j = true → (j ∈ T.gone g ↔ ∃ a ∈ T.hit g, s.InSubtree a j)
  | .nil, l, h, _, j, _ => by simp [Trees.gone, Trees.hit]
  | .cons i K R, l, h, hl, j, hj => by
    obtain ⟨l', rfl, hk, hr⟩ := h
    have hi := hl i (by simp)
    have hkl : ∀ c ∈ F.kids i, s.live c = true := fun c hc => (hF.wf.kids i hi c hc).1
    have hrl : ∀ c ∈ l', s.live c = true := fun c hc => hl c (by simp [hc])
    have h1 := mem_gone hF (g := g) hk hkl j hj
    have h2 := mem_gone hF (g := g) hr hrl j hj
    have h3 : j ∈ i :: K.pre ↔ s.InSubtree i j := by
      have hT : (Trees.cons i K .nil).Of F [i] := ⟨[], rfl, hk, rfl⟩
      have := mem_pre hF hT (by simpa using hi) j hj
      simpa [Trees.pre] using this
    simp only [Trees.gone, Trees.hit]
    split
    · rw [List.mem_append, h2, h3]
      simp
    · rw [List.mem_append, h1, h2]
      simp only [List.mem_append, or_and_right, exists_or]

theorem mem_pre_kids {s : St} {F : Forest} (hF : Describes s F) {i : NodeId} (hi : s.live i = true) {K : Trees}
    (hK : K.Of F (F.kids i)) {j : NodeId} (hj : s.live j = true) : j ∈ K.pre ↔ s.Ancestor i j := by
  have hkl : ∀ c ∈ F.kids i, s.live c = true := fun c hc => (hF.wf.kids i hi c hc).1
  rw [mem_pre hF hK hkl j hj]
  constructor
  · rintro ⟨c, hc, hs⟩
    refine TransGen.tail' hs (?_ : s.Up c i)
    show s.parent c = some i
    rw [hF.shows.parent c (hkl c hc)]; exact (hF.wf.kids i hi c hc).2
  · intro h
    obtain ⟨c, hs, hu⟩ := TransGen.tail'_iff.1 h
    have hcl : s.live c = true := by
      rcases hs.cases_tail with e | ⟨_, _, hu⟩
      · exact e ▸ hj
      · exact up_live hu
    have hp : s.parent c = some i := hu
    rw [hF.shows.parent c hcl] at hp
    exact ⟨c, (hF.wf.kids_iff hi hcl).2 hp, hs⟩

/-- No topmost match is below a match. -/
theorem hit_top {s : St} {F : Forest} (hF : Describes s F) (hac : s.Acyclic) {g : NodeId → Bool} :
    ∀ {T : Trees} {l : List NodeId}, T.Of F l →
    (∀ i ∈ l, s.live i = true) → l.Nodup → (∀ i ∈ l, ∀ j ∈ l, s.parent i = s.parent j) →
    ∀ a ∈ T.hit g, ∀ b ∈ T.pre, g b = true → ¬ s.Ancestor b a
  | .nil, l, h, _, _, _, a, ha => by simp [Trees.hit] at ha
  | .cons i K R, l, h, hl, hn, hpar, a, ha => by
    intro b hb hg hba
    have hT := h
    obtain ⟨l', rfl, hk, hr⟩ := h
    have hi := hl i (by simp)
    have hkl : ∀ c ∈ F.kids i, s.live c = true := fun c hc => (hF.wf.kids i hi c hc).1
    have hrl : ∀ c ∈ l', s.live c = true := fun c hc => hl c (by simp [hc])
    rw [List.nodup_cons] at hn
    have hbl := pre_live hF hT hl b hb
    have ha' := hit_sub _ a ha
    have hal := pre_live hF hT hl a ha'.1
    -- a strict ancestor inside the same pre list lies in the same tree
    have hR : ∀ a ∈ R.pre, ∀ b, b ∈ i :: K.pre → s.live b = true → ¬ s.Ancestor b a := by
      intro a haR b hbK hbl hba
      have hib : s.InSubtree i b := by
        rcases List.mem_cons.1 hbK with rfl | hbK
        · exact .refl
        · exact ((mem_pre_kids hF hi hk hbl).1 hbK).to_reflTransGen
      have hia : s.InSubtree i a := hba.to_reflTransGen.trans hib
      obtain ⟨m, hm, hsm⟩ := (mem_pre hF hr hrl a (pre_live hF hr hrl a haR)).1 haR
      have hmi : m ≠ i := by rintro rfl; exact hn.1 hm
      have hpp := hpar i (by simp) m (by simp [hm])
      rcases comparable hia hsm with h | h
      · exact siblings_incomparable hac hpp (Ne.symm hmi) h
      · exact siblings_incomparable hac hpp.symm hmi h
    have hL : ∀ a, a ∈ i :: K.pre → s.live a = true → ∀ b ∈ R.pre, ¬ s.Ancestor b a := by
      intro a haK hal b hbR hba
      have hia : s.InSubtree i a := by
        rcases List.mem_cons.1 haK with rfl | haK
        · exact .refl
        · exact ((mem_pre_kids hF hi hk hal).1 haK).to_reflTransGen
      obtain ⟨m, hm, hsm⟩ := (mem_pre hF hr hrl b (pre_live hF hr hrl b hbR)).1 hbR
      have hma : s.InSubtree m a := hba.to_reflTransGen.trans hsm
      have hmi : m ≠ i := by rintro rfl; exact hn.1 hm
      have hpp := hpar i (by simp) m (by simp [hm])
      rcases comparable hia hma with h | h
      · exact siblings_incomparable hac hpp (Ne.symm hmi) h
      · exact siblings_incomparable hac hpp.symm hmi h
    simp only [Trees.hit] at ha
    simp only [Trees.pre, List.mem_cons, List.mem_append] at hb
    split at ha
    · rcases List.mem_cons.1 ha with rfl | hx
      · rcases hb with rfl | hb | hb
        · exact hac b hbl hba
        · exact hac a hi (hba.trans ((mem_pre_kids hF hi hk hbl).1 hb))
        · exact hL a (by simp) hi b hb hba
      · rcases hb with rfl | hb | hb
        · exact hR a (hit_sub R a hx).1 b (by simp) hbl hba
        · exact hR a (hit_sub R a hx).1 b (by simp [hb]) hbl hba
        · exact hit_top hF hac hr hrl hn.2 (fun x hx y hy => hpar x (by simp [hx]) y (by simp [hy])) a hx b hb hg hba
    · next hgi =>
      rcases List.mem_append.1 ha with ha | ha
      · rcases hb with rfl | hb | hb
        · exact hgi hg
        · exact hit_top hF hac hk hkl (hF.wf.kids_nodup hi) (fun x hx y hy => by
            rw [hF.shows.parent x (hkl x hx), hF.shows.parent y (hkl y hy), (hF.wf.kids i hi x hx).2,
              (hF.wf.kids i hi y hy).2]) a ha b hb hg hba
        · exact hL a (by simp [(hit_sub K a ha).1]) hal b hb hba
      · rcases hb with rfl | hb | hb
        · exact hgi hg
        · exact hR a (hit_sub R a ha).1 b (by simp [hb]) hbl hba
        · exact hit_top hF hac hr hrl hn.2 (fun x hx y hy => hpar x (by simp [hx]) y (by simp [hy])) a ha b hb hg hba

end Svgdom
