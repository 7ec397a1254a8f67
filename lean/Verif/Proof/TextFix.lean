import Verif.Proof.TextExact
import Verif.Spec.NormalText

/-!
# When text processing changes nothing
-/

set_option autoImplicit false

namespace Svgdom

open Relation

theorem Shrunk.length {u t : Str} (h : Shrunk u t) : u.length ≤ t.length := by
  obtain ⟨a, b, rfl, _, _⟩ := h
  simp only [List.length_append]; omega

theorem Shrunk.eq {u t : Str} (h : Shrunk u t) (hl : t.length ≤ u.length) : u = t := by
  obtain ⟨a, b, rfl, _, _⟩ := h
  simp only [List.length_append] at hl
  have ha : a = [] := List.length_eq_zero_iff.1 (by omega)
  have hb : b = [] := List.length_eq_zero_iff.1 (by omega)
  simp [ha, hb]

theorem Shrunk.antisymm {u t : Str} (h : Shrunk u t) (k : Shrunk t u) : u = t := h.eq k.length

theorem squeeze_length : ∀ t : Str, (squeeze t).length ≤ t.length
  | [] => le_refl _
  | c :: t => by
    have := squeeze_length t
    rw [squeeze]
    split <;> simp only [List.length_cons] <;> omega

theorem spaced_length (m : XmlSpace) (t : Str) : (spaced m t).length ≤ t.length := by
  cases m with
  | default => exact (squeeze_length _).trans (by simp)
  | preserve => simp [spaced]

/-- What the loop leaves alone. -/
def PairFix (first last : Bool) (sp1 sp2 : XmlSpace) (u w : Str) : Prop :=
  ¬ (sp2 = .default ∧ endsSp u = true ∧ startsSp w = true) ∧ (first = true → sp1 = .default → startsSp u = false) ∧
    (last = true → sp2 = .default → endsSp w = false)

theorem tail_ne {w : Str} (h : startsSp w = true) : w.tail ≠ w := by
  obtain ⟨b, rfl⟩ := startsSp_iff.1 h
  intro hc
  have := congrArg List.length hc
  simp at this

theorem dropLast_ne {w : Str} (h : w ≠ []) : w.dropLast ≠ w := by
  intro hc
  have := congrArg List.length hc
  rw [List.length_dropLast] at this
  have := List.length_pos_iff.2 h
  omega

theorem ne_of_starts {w : Str} (h : startsSp w = true) : w ≠ [] := by rintro rfl; simp [startsSp] at h
theorem ne_of_ends {w : Str} (h : endsSp w = true) : w ≠ [] := by rintro rfl; simp [endsSp] at h

theorem borderP_fix (lt : Bool) (sp1 sp2 : XmlSpace) (u w : Str) :
    borderP lt sp1 sp2 u w = (u, w) ↔ ¬ (sp2 = .default ∧ endsSp u = true ∧ startsSp w = true) := by
  unfold borderP
  by_cases h : endsSp u = true ∧ startsSp w = true
  · have h1 := tail_ne h.2
    have h2 := dropLast_ne (ne_of_ends h.1)
    rw [if_pos (by simp [h])]
    cases lt <;> cases sp1 <;> cases sp2 <;> simp [h, h1, h2]
  · rw [if_neg (by simpa using h)]
    simp only [true_iff]
    exact fun hc => h hc.2

theorem endsP_length (first last : Bool) (sp1 sp2 : XmlSpace) (c1 c4 : Bool) (u w : Str) :
    (endsP first last sp1 sp2 c1 c4 u w).1.length ≤ u.length ∧ (endsP first last sp1 sp2 c1 c4 u w).2.length ≤ w.length := by
  unfold endsP
  split
  · simp
  · split <;> simp

theorem tailP_length (last c2 : Bool) (u w : Str) :
    (tailP last c2 u w).1.length ≤ u.length ∧ (tailP last c2 u w).2.length ≤ w.length := by
  unfold tailP
  split <;> simp

theorem pairP_fix {first last lt : Bool} {sp1 sp2 : XmlSpace} {u w : Str} (hu : u ≠ []) (hw : w ≠ []) :
    pairP first last lt sp1 sp2 u w = (u, w) ↔ PairFix first last sp1 sp2 u w := by
  have hiu : u.isEmpty = false := by simpa using hu
  have hiw : w.isEmpty = false := by simpa using hw
  have hsh := borderP_shrunk lt sp1 sp2 u w
  constructor
  · intro h
    have hq := endsP_length first last sp1 sp2 (startsSp u) (endsSp w) (borderP lt sp1 sp2 u w).1 (borderP lt sp1 sp2 u w).2
    have hr := tailP_length last (endsSp u)
      (endsP first last sp1 sp2 (startsSp u) (endsSp w) (borderP lt sp1 sp2 u w).1 (borderP lt sp1 sp2 u w).2).1
      (endsP first last sp1 sp2 (startsSp u) (endsSp w) (borderP lt sp1 sp2 u w).1 (borderP lt sp1 sp2 u w).2).2
    have h' := h
    simp only [pairP] at h'
    rw [h'] at hr
    have hb : borderP lt sp1 sp2 u w = (u, w) := by
      refine Prod.ext ?_ ?_
      · rcases hsh.1 with e | ⟨e, h1, _⟩
        · exact e
        · have := List.length_pos_iff.2 hu
          have := congrArg List.length e
          rw [List.length_dropLast] at this
          have := hr.1.trans hq.1
          simp only at this
          omega
      · rcases hsh.2 with e | ⟨e, h1, _⟩
        · exact e
        · have := List.length_pos_iff.2 hw
          have := congrArg List.length e
          rw [List.length_tail] at this
          have := hr.2.trans hq.2
          simp only at this
          omega
    rw [hb] at hr
    simp only at hr
    refine ⟨(borderP_fix ..).1 hb, ?_, ?_⟩
    · intro hf hs
      by_contra hc
      simp only [Bool.not_eq_false] at hc
      have : endsP first last sp1 sp2 (startsSp u) (endsSp w) u w = (u.tail, w) := by simp [endsP, hf, hc, hs, hu]
      rw [this] at hr
      have h1 := hr.1
      have := List.length_pos_iff.2 hu
      simp only [List.length_tail] at h1
      omega
    · intro hf hs
      by_contra hc
      simp only [Bool.not_eq_false] at hc
      by_cases h0 : first = true ∧ startsSp u = true ∧ sp1 = .default
      · have : endsP first last sp1 sp2 (startsSp u) (endsSp w) u w = (u.tail, w) := by simp [endsP, h0, hu]
        rw [this] at hr
        have h1 := hr.1
        have := List.length_pos_iff.2 hu
        simp only [List.length_tail] at h1
        omega
      · have : endsP first last sp1 sp2 (startsSp u) (endsSp w) u w = (u, w.dropLast) := by
          unfold endsP
          rw [if_neg, if_pos]
          · simp [hf, hc, hs, hw]
          · simp only [Bool.and_eq_true, decide_eq_true_eq]
            exact fun hx => h0 ⟨hx.1.1.1, hx.1.1.2, hx.1.2⟩
        rw [this] at hr
        have h1 := hr.2
        have := List.length_pos_iff.2 hw
        simp only [List.length_dropLast] at h1
        omega
  · rintro ⟨h1, h2, h3⟩
    have hb := (borderP_fix lt sp1 sp2 u w).2 h1
    have he : endsP first last sp1 sp2 (startsSp u) (endsSp w) u w = (u, w) := by
      unfold endsP
      rw [if_neg, if_neg]
      · intro hc
        simp only [Bool.and_eq_true, decide_eq_true_eq] at hc
        rw [h3 hc.1.1.1 hc.2] at hc
        simp at hc
      · intro hc
        simp only [Bool.and_eq_true, decide_eq_true_eq] at hc
        rw [h2 hc.1.1.1 hc.1.2] at hc
        simp at hc
    simp only [pairP, hb, he, tailP, hiw, Bool.and_false, Bool.false_and]
    simp


theorem put_same {τ : Texts} {n : NodeId} {t : Str} (h : t = τ n) : τ.put n t = τ := by
  funext j
  unfold Texts.put
  split
  · next hj => rw [h, hj]
  · rfl

/-- Conditions on the rest of the texts, in the loop. -/
structure LoopFix (μ : NodeId → XmlSpace) (τ : Texts) (first : Bool) (l : List NodeId) : Prop where
  notEmpty : ∀ j ∈ l, τ j ≠ []
  borders : l.IsChain fun a b => ¬ (μ b = .default ∧ endsSp (τ a) = true ∧ startsSp (τ b) = true)
  first : first = true → ∀ a ∈ l.head?, μ a = .default → startsSp (τ a) = false
  last : ∀ a ∈ l.getLast?, μ a = .default → endsSp (τ a) = false

theorem stepFix {μ : NodeId → XmlSpace} {τ : Texts} {first f lt : Bool} {n1 n2 : NodeId} (h12 : n1 ≠ n2) (h1 : τ n1 ≠ []) (h2 : τ n2 ≠ []) :
    pairStep μ τ first f lt n1 n2 = τ ↔ PairFix first f (μ n1) (μ n2) (τ n1) (τ n2) := by
  rw [← pairP_fix (lt := lt) h1 h2]
  constructor
  · intro h
    have k1 := congrFun h n1
    have k2 := congrFun h n2
    simp only [pairStep, put_self, put_other h12] at k1 k2
    exact Prod.ext k1 k2
  · intro h
    simp only [pairStep, h]
    rw [put_same (τ := τ) rfl, put_same rfl]

theorem loopFix_cons {μ : NodeId → XmlSpace} {τ : Texts} {first : Bool} {n1 n2 : NodeId} {l : List NodeId} :
    LoopFix μ τ first (n1 :: n2 :: l) ↔ τ n1 ≠ [] ∧ PairFix first l.isEmpty (μ n1) (μ n2) (τ n1) (τ n2) ∧ LoopFix μ τ false (n2 :: l) := by
  constructor
  · rintro ⟨a, b, c, d⟩
    rw [List.isChain_cons_cons] at b
    refine ⟨a n1 (by simp), ⟨b.1, fun h => c h n1 (by simp), fun h => ?_⟩, fun j hj => a j (by simp [hj]), b.2, by simp, ?_⟩
    · have : l = [] := by simpa using h
      subst this
      exact d n2 (by simp)
    · intro x hx
      exact d x (by simpa using hx)
  · rintro ⟨a, ⟨b1, b2, b3⟩, c⟩
    refine ⟨?_, List.isChain_cons_cons.2 ⟨b1, c.borders⟩, ?_, ?_⟩
    · intro j hj
      rcases List.mem_cons.1 hj with rfl | hj
      · exact a
      · exact c.notEmpty j hj
    · intro h x hx
      simp only [List.head?_cons, Option.mem_def, Option.some.injEq] at hx
      subst hx
      exact b2 h
    · intro x hx
      exact c.last x (by simpa using hx)

theorem pairsT_fix (μ : NodeId → XmlSpace) : ∀ (l : List (NodeId × Nat)) (τ : Texts) (first : Bool) (last : Option NodeId),
    2 ≤ l.length → (l.map Prod.fst).Nodup → LoopFix μ τ first (l.map Prod.fst) → pairsT μ τ first last l = τ
  | [], _, _, _, h, _, _ => by simp at h
  | [_], _, _, _, h, _, _ => by simp at h
  | (n1, d1) :: (n2, d2) :: rest, τ, first, last, _, hnd, hf => by
    have h2 : τ n2 ≠ [] := hf.notEmpty n2 (by simp)
    obtain ⟨h1, hp, hr⟩ := loopFix_cons.1 hf
    have hm : pairNode τ last n1 = n1 := by simp [pairNode, h1]
    simp only [List.map_cons, List.nodup_cons, List.mem_cons, not_or] at hnd
    rw [pairsT]
    rw [hm, (stepFix hnd.1.1 h1 h2).2 (by simpa using hp)]
    cases rest with
    | nil => exact pairsT_one ..
    | cons x rest => exact pairsT_fix μ _ _ _ _ (by simp) (by simpa using hnd.2) hr

theorem fix_pairsT (μ : NodeId → XmlSpace) : ∀ (l : List (NodeId × Nat)) (τ : Texts) (first : Bool) (last : Option NodeId),
    2 ≤ l.length → (l.map Prod.fst).Nodup → (∀ j ∈ l.map Prod.fst, τ j ≠ []) →
    (∀ j ∈ l.map Prod.fst, pairsT μ τ first last l j = τ j) → LoopFix μ τ first (l.map Prod.fst)
  | [], _, _, _, h, _, _, _ => by simp at h
  | [_], _, _, _, h, _, _, _ => by simp at h
  | (n1, d1) :: (n2, d2) :: rest, τ, first, last, _, hnd, hne, hs => by
    have h1 : τ n1 ≠ [] := hne n1 (by simp)
    have h2 : τ n2 ≠ [] := hne n2 (by simp)
    have hm : pairNode τ last n1 = n1 := by simp [pairNode, h1]
    simp only [List.map_cons, List.nodup_cons, List.mem_cons, not_or] at hnd
    rw [pairsT] at hs
    rw [hm] at hs
    have hst : pairStep μ τ first rest.isEmpty (decide (d1 < d2)) n1 n2 = τ := by
      funext j
      by_cases hj : j = n1 ∨ j = n2
      · refine (pairStep_shrunk ..).antisymm ?_
        have := hs j (by rcases hj with rfl | rfl <;> simp)
        have h := pairsT_shrunk μ ((n2, d2) :: rest) (pairStep μ τ first rest.isEmpty (decide (d1 < d2)) n1 n2) false
          (if (trimStr (pairStep μ τ first rest.isEmpty (decide (d1 < d2)) n1 n2 n1)).isEmpty then last else some n1) j
        rw [this] at h
        exact h
      · rw [not_or] at hj
        simp only [pairStep]
        rw [put_other hj.2, put_other hj.1]
    rw [hst] at hs
    have hp := (stepFix hnd.1.1 h1 h2).1 hst
    refine loopFix_cons.2 ⟨h1, by simpa using hp, ?_⟩
    cases rest with
    | nil =>
      refine ⟨by simpa using h2, .singleton _, by simp, ?_⟩
      intro a ha hd
      simp only [List.map_nil, List.getLast?_singleton, Option.mem_def, Option.some.injEq] at ha
      subst ha
      exact hp.2.2 rfl hd
    | cons x rest =>
      exact fix_pairsT μ (_ :: _ :: _) _ _ _ (by simp) (by simpa using hnd.2) (fun j hj => hne j (by simp only [List.map_cons] at hj ⊢; simp [hj]))
        (fun j hj => hs j (by simp only [List.map_cons] at hj ⊢; simp [hj]))

theorem normal_loop {μ : NodeId → XmlSpace} {τ : Texts} {l : List NodeId} :
    NormalTexts (l.map fun j => (μ j, τ j)) ↔ (∀ j ∈ l, spaced (μ j) (τ j) = τ j) ∧ LoopFix μ τ true l := by
  constructor
  · rintro ⟨a, b, c, d⟩
    refine ⟨fun j hj => (a _ (List.mem_map_of_mem hj)).2, fun j hj => (a _ (List.mem_map_of_mem hj)).1, ?_, ?_, ?_⟩
    · rw [List.isChain_map] at b
      refine b.imp fun x y h hc => h ⟨hc.1, of_decide_eq_true hc.2.1, of_decide_eq_true hc.2.2⟩
    · intro _ x hx hm
      exact decide_eq_false (c (μ x, τ x) (by rw [List.head?_map, Option.mem_def.1 hx]; rfl) hm)
    · intro x hx hm
      exact decide_eq_false (d (μ x, τ x) (by rw [List.getLast?_map, Option.mem_def.1 hx]; rfl) hm)
  · rintro ⟨a, b⟩
    refine ⟨?_, ?_, ?_, ?_⟩
    · intro p hp
      obtain ⟨j, hj, rfl⟩ := List.mem_map.1 hp
      exact ⟨b.notEmpty j hj, a j hj⟩
    · rw [List.isChain_map]
      exact b.borders.imp fun x y h hc => h ⟨hc.1, decide_eq_true hc.2.1, decide_eq_true hc.2.2⟩
    · intro p hp hm
      rw [List.head?_map, Option.mem_def, Option.map_eq_some_iff] at hp
      obtain ⟨x, hx, rfl⟩ := hp
      exact of_decide_eq_false (b.first rfl x hx hm)
    · intro p hp hm
      rw [List.getLast?_map, Option.mem_def, Option.map_eq_some_iff] at hp
      obtain ⟨x, hx, rfl⟩ := hp
      exact of_decide_eq_false (b.last x hx hm)

theorem singleP_fix {t : Str} (ht : t ≠ []) : singleP t = t ↔ startsSp t = false ∧ endsSp t = false := by
  unfold singleP
  split
  · next h => subst h; simp [startsSp]
  · by_cases h1 : startsSp t = true
    · have h2 := List.length_pos_iff.2 ht
      simp only [h1, if_true, Bool.true_eq_false, false_and, iff_false]
      intro hc
      have := congrArg List.length hc
      split at this
      · simp only [List.length_dropLast, List.length_tail] at this; omega
      · simp only [List.length_tail] at this; omega
    · simp only [Bool.not_eq_true] at h1
      simp only [h1, Bool.false_eq_true, if_false, true_and]
      by_cases h2 : endsSp t = true
      · simp [h2, dropLast_ne ht]
      · simp [h2]

/-- One text root: nothing changes iff the texts are normal. -/
theorem groupT_fix {μ : NodeId → XmlSpace} {sp : XmlSpace} {τ : Texts} {L : List (NodeId × Nat)} (hnd : (L.map Prod.fst).Nodup)
    (hs : ∀ c d, L = [(c, d)] → μ c = sp) (hne : ∀ j ∈ L.map Prod.fst, τ j ≠ []) :
    (∀ j ∈ L.map Prod.fst, groupT μ sp (trimT μ τ (L.map Prod.fst)) L j = τ j) ↔ NormalTexts ((L.map Prod.fst).map fun j => (μ j, τ j)) := by
  have htr : (∀ j ∈ L.map Prod.fst, spaced (μ j) (τ j) = τ j) → trimT μ τ (L.map Prod.fst) = τ := by
    intro h
    funext j
    unfold trimT
    split
    · next hj => rw [trimText_spaced, h j hj]
    · rfl
  have hgr : (∀ j ∈ L.map Prod.fst, groupT μ sp τ L j = τ j) ↔ LoopFix μ τ true (L.map Prod.fst) := by
    match L, hs, hnd, hne with
    | [], _, _, _ => exact ⟨fun _ => ⟨by simp, .nil, by simp, by simp⟩, fun _ => by simp⟩
    | [(c, d)], hs, _, hne =>
      have hc := hs c d rfl
      have h0 : τ c ≠ [] := hne c (by simp)
      simp only [groupT, List.map_cons, List.map_nil, List.mem_singleton, forall_eq]
      by_cases hd : sp = .default
      · rw [if_pos hd, put_self, singleP_fix h0]
        constructor
        · rintro ⟨a, b⟩
          exact ⟨by simpa using h0, .singleton _, by simpa using fun _ => a, by simpa using fun _ => b⟩
        · intro h
          exact ⟨h.first rfl c (by simp) (hc.trans hd), h.last c (by simp) (hc.trans hd)⟩
      · rw [if_neg hd]
        refine ⟨fun _ => ⟨by simpa using h0, .singleton _, ?_, ?_⟩, fun _ => rfl⟩
        · intro _ a ha hm
          simp only [List.head?_cons, Option.mem_def, Option.some.injEq] at ha
          subst ha
          exact absurd (hc.symm.trans hm) hd
        · intro a ha hm
          simp only [List.getLast?_singleton, Option.mem_def, Option.some.injEq] at ha
          subst ha
          exact absurd (hc.symm.trans hm) hd
    | x :: y :: L, _, hnd, hne =>
      constructor
      · exact fix_pairsT μ _ _ _ _ (by simp) hnd hne
      · intro h j _
        exact congrFun (pairsT_fix μ _ _ _ none (by simp) hnd h) j
  rw [normal_loop]
  constructor
  · intro h
    have hsp : ∀ j ∈ L.map Prod.fst, spaced (μ j) (τ j) = τ j := by
      intro j hj
      have h1 := groupT_shrunk μ sp (trimT μ τ (L.map Prod.fst)) L j
      rw [h j hj, trimT, if_pos hj, trimText_spaced] at h1
      exact (h1.eq (spaced_length _ _)).symm
    refine ⟨hsp, ?_⟩
    rw [htr hsp] at h
    exact hgr.1 h
  · rintro ⟨h1, h2⟩
    rw [htr h1]
    exact hgr.2 h2

/-! ### Trees -/

theorem items_eq {s : St} {F : Forest} (hF : Describes s F) (sp : XmlSpace) : ∀ {T : Trees} {l : List NodeId} {m : XmlSpace}, T.Of F l →
    (∀ i ∈ l, s.live i = true) → (∀ i ∈ l, s.modeOf i sp = m) →
    T.items s sp m = (T.pre.filter fun j => s.isText j).map fun j => (s.modeOf j sp, s.text j)
  | .nil, _, _, _, _, _ => rfl
  | .cons n K R, l, m, hT, hl, hm => by
    obtain ⟨l', rfl, hK, hR⟩ := hT
    have hn := hl n (by simp)
    have hk := hF.wf.kids n hn
    have ih1 := items_eq hF sp (m := s.spaceAt n sp) hK (fun i hi => (hk i hi).1) (by
      intro i hi
      simp only [St.modeOf]
      rw [hF.shows.parent i (hk i hi).1, (hk i hi).2])
    have ih2 := items_eq hF sp hR (fun i hi => hl i (by simp [hi])) (fun i hi => hm i (by simp [hi]))
    rw [Trees.items, ih1, ih2, Trees.pre]
    by_cases ht : s.nodeType n = .text
    · have : s.isText n = true := decide_eq_true ht
      rw [if_pos ht, List.filter_cons_of_pos this]
      simp [hm n (by simp)]
    · have : ¬ s.isText n = true := by simpa [St.isText] using ht
      rw [if_neg ht, List.filter_cons_of_neg this]
      simp

theorem startsText_iff {s : St} {F : Forest} (hF : Describes s F) {n : NodeId} (hn : s.live n = true) {K : Trees} (hK : K.Of F (F.kids n)) :
    K.startsText s = true ↔ StartsWithText s n := by
  unfold StartsWithText
  rw [hF.shows.first n hn]
  cases K with
  | nil => rw [show F.kids n = [] from hK]; simp [Trees.startsText]
  | cons c A B =>
    obtain ⟨l', h, _⟩ := hK
    rw [h]
    simp [Trees.startsText]

theorem pre_closed {s : St} {F : Forest} (hF : Describes s F) {T : Trees} {l : List NodeId} (hT : T.Of F l) (hl : ∀ i ∈ l, s.live i = true)
    {a j : NodeId} (ha : a ∈ T.pre) (hj : s.live j = true) (h : s.Ancestor a j) : j ∈ T.pre := by
  obtain ⟨i, hi, hs⟩ := (mem_pre hF hT hl a (pre_live hF hT hl a ha)).1 ha
  exact (mem_pre hF hT hl j hj).2 ⟨i, hi, h.to_reflTransGen.trans hs⟩

/-- The groups are those of the text roots. -/
theorem groups_root {s : St} {F : Forest} (hF : Describes s F) (hac : s.Acyclic) : ∀ {T : Trees} {l : List NodeId} {sp : XmlSpace}, T.Of F l →
    (∀ i ∈ l, s.live i = true) → T.pre.Nodup → (∀ i ∈ l, ∃ p, s.parent i = some p ∧ s.Mode p sp) →
    (∀ g ∈ T.groups s sp, ∃ e ∈ T.pre, StartsWithText s e ∧ (∀ a ∈ T.pre, StartsWithText s a → ¬ s.Ancestor a e) ∧
      ∃ (m : XmlSpace) (K : Trees), s.Mode e m ∧ K.Of F (F.kids e) ∧ g = K.items s m m) ∧
    (∀ e ∈ T.pre, StartsWithText s e → (∀ a ∈ T.pre, StartsWithText s a → ¬ s.Ancestor a e) →
      ∃ (m : XmlSpace) (K : Trees), s.Mode e m ∧ K.Of F (F.kids e) ∧ K.items s m m ∈ T.groups s sp)
  | .nil, _, _, _, _, _, _ => by simp [Trees.groups, Trees.pre]
  | .cons n K R, l, sp, hT, hl, hnd, hmo => by
    obtain ⟨l', rfl, hK, hR⟩ := hT
    simp only [Trees.pre, List.nodup_cons, List.nodup_append, List.mem_append, not_or] at hnd
    obtain ⟨⟨nK, nR⟩, dK, dR, dKR⟩ := hnd
    have hn := hl n (by simp)
    have hk := hF.wf.kids n hn
    have hlR : ∀ i ∈ l', s.live i = true := fun i hi => hl i (by simp [hi])
    have hKl := pre_live hF hK fun i hi => (hk i hi).1
    have hRl := pre_live hF hR hlR
    have hmn : s.Mode n (s.spaceAt n sp) := by
      obtain ⟨p, hp, hpm⟩ := hmo n (by simp)
      exact .child hp hpm
    have hanc : ∀ j, s.live j = true → (j ∈ K.pre ↔ s.Ancestor n j) := fun j hj => mem_pre_kids hF hn hK hj
    obtain ⟨a1, a2⟩ := groups_root hF hac (sp := s.spaceAt n sp) hK (fun i hi => (hk i hi).1) dK (fun i hi =>
      ⟨n, by rw [hF.shows.parent i (hk i hi).1]; exact (hk i hi).2, hmn⟩)
    obtain ⟨b1, b2⟩ := groups_root hF hac (sp := sp) hR hlR dR (fun i hi => hmo i (by simp [hi]))
    have hst := startsText_iff hF hn hK
    -- ancestors across the trees
    have hnR : ∀ a ∈ R.pre, ∀ j, (j = n ∨ j ∈ K.pre) → ¬ s.Ancestor a j := by
      intro a ha j hj h
      rcases hj with rfl | hj
      · exact nR (pre_closed hF hR hlR ha hn h)
      · exact dKR j hj j (pre_closed hF hR hlR ha (hKl j hj) h) rfl
    have hnK : ∀ a, (a = n ∨ a ∈ K.pre) → ∀ j ∈ R.pre, ¬ s.Ancestor a j := by
      intro a ha j hj h
      refine dKR j ?_ j hj rfl
      rcases ha with rfl | ha
      · exact (hanc j (hRl j hj)).2 h
      · exact pre_closed hF hK (fun i hi => (hk i hi).1) ha (hRl j hj) h
    have hnn : ∀ a, (a = n ∨ a ∈ K.pre) → ¬ s.Ancestor a n := by
      rintro a (rfl | ha) h
      · exact hac _ hn h
      · exact hac _ hn (h.trans ((hanc a (hKl a ha)).1 ha))
    simp only [Trees.groups, Trees.pre, List.mem_cons, List.mem_append]
    constructor
    · rintro g (hg | hg)
      · split at hg
        · next hs =>
          simp only [List.mem_singleton] at hg
          exact ⟨n, .inl rfl, hst.1 hs, fun a ha _ => by
            rcases ha with ha | ha | ha
            · exact hnn a (.inl ha)
            · exact hnn a (.inr ha)
            · exact hnR a ha n (.inl rfl), _, K, hmn, hK, hg⟩
        · next hs =>
          obtain ⟨e, he, h1, h2, h3⟩ := a1 g hg
          refine ⟨e, .inr (.inl he), h1, fun a ha h4 => ?_, h3⟩
          rcases ha with rfl | ha | ha
          · exact absurd (hst.2 h4) hs
          · exact h2 a ha h4
          · exact hnR a ha e (.inr he)
      · obtain ⟨e, he, h1, h2, h3⟩ := b1 g hg
        refine ⟨e, .inr (.inr he), h1, fun a ha h4 => ?_, h3⟩
        rcases ha with ha | ha | ha
        · exact hnK a (.inl ha) e he
        · exact hnK a (.inr ha) e he
        · exact h2 a ha h4
    · rintro e (rfl | he | he) h1 h2
      · exact ⟨_, K, hmn, hK, .inl (by rw [if_pos (hst.2 h1)]; simp)⟩
      · have hs : ¬ K.startsText s = true := fun hc => h2 n (.inl rfl) (hst.1 hc) ((hanc e (hKl e he)).1 he)
        obtain ⟨m, A, k1, k2, k3⟩ := a2 e he h1 fun a ha => h2 a (.inr (.inl ha))
        exact ⟨m, A, k1, k2, .inl (by rw [if_neg hs]; exact k3)⟩
      · obtain ⟨m, A, k1, k2, k3⟩ := b2 e he h1 fun a ha => h2 a (.inr (.inr ha))
        exact ⟨m, A, k1, k2, .inr k3⟩

/-- Text processing changes nothing iff the texts are normal. -/
theorem sameTexts_iff {s t : St} (h1 : SafeReachable s) (h2 : RootSafeReachable s) (h : TextReady s) (e : s.prepareText = .ok t)
    {F : Forest} (hF : Describes s F) {T : Trees} (hT : T.Of F (F.kids s.rootId)) : SameTexts s t ↔ T.NormalText s := by
  have hb : Built s := ⟨h1, h2⟩
  obtain ⟨u, t', e', hp⟩ := prepareText_ok hb hF hT (h.region hb hF hT)
  rw [e] at e'
  cases e'
  have hmem := prepared_mem hb hF hT hp
  have hrl := hb.rootLive
  obtain ⟨K', hK', _, hnd, _⟩ := kids_tree hb hF hrl
  cases hT.unique hK'
  have hkl : ∀ i ∈ F.kids s.rootId, s.live i = true := fun i hi => (hF.wf.kids _ hrl i hi).1
  have hkm : ∀ i ∈ F.kids s.rootId, ∃ p, s.parent i = some p ∧ s.Mode p .default := fun i hi =>
    ⟨s.rootId, by rw [hF.shows.parent i (hkl i hi)]; exact (hF.wf.kids _ hrl i hi).2, .root⟩
  obtain ⟨g1, g2⟩ := groups_root hF hb.acyclic hT hkl hnd hkm
  have hut : ∀ j, t.text j = u.text j := hp.removed.texts
  have htop := root_top h2
  -- one text root
  have key : ∀ e ∈ T.pre, StartsWithText s e → (∀ a ∈ T.pre, StartsWithText s a → ¬ s.Ancestor a e) → ∀ (m : XmlSpace) (K : Trees), s.Mode e m → K.Of F (F.kids e) →
      (∀ j ∈ K.pre, s.nodeType j = .text → s.text j ≠ []) → ((∀ j ∈ K.pre, u.text j = s.text j) ↔ NormalTexts (K.items s m m)) := by
    intro e he hs hout m K hm hK hne
    obtain ⟨m', K', hm', hK', hx⟩ := hp.done.exact e he hs hout
    cases Mode.unique htop hm hm'
    cases hK.unique hK'
    have hel := pre_live hF hT hkl e he
    have hkids := hF.wf.kids e hel
    have hself : s.spaceAt e m = m := by
      cases hm with
      | root => exact absurd (show s.rootId ∈ T.pre from he) fun hc => hb.acyclic _ hrl ((mem_pre_kids hF hrl hT hrl).1 hc)
      | child hq hm => exact spaceAt_self _ _ _
    have hmo : ∀ i ∈ F.kids e, s.modeOf i m = m := by
      intro i hi
      simp only [St.modeOf]
      rw [hF.shows.parent i (hkids i hi).1, (hkids i hi).2]
      exact hself
    have hKnd : K.pre.Nodup := (kids_tree hb hF hel).elim fun A hA => by
      obtain ⟨x, _, y, _⟩ := hA
      rw [hK.unique x]; exact y
    rw [items_eq hF m hK (fun i hi => (hkids i hi).1) hmo]
    have hfst := St.textDepths_fst s K
    have := groupT_fix (μ := fun j => s.modeOf j m) (sp := m) (τ := s.text) (L := s.textDepths K) (by rw [hfst]; exact hKnd.filter _) (by
        intro c d hc
        obtain ⟨c', hc', hct⟩ := hs
        rw [hF.shows.first e hel] at hc'
        have hck : c' ∈ F.kids e := List.mem_of_head? hc'
        have : c' ∈ (s.textDepths K).map Prod.fst := by
          rw [hfst, List.mem_filter]
          exact ⟨hK.top_mem c' hck, decide_eq_true hct⟩
        rw [hc] at this
        simp only [List.map_cons, List.map_nil, List.mem_singleton] at this
        rw [← this]; exact hmo c' hck) (by
        rw [hfst]
        intro j hj
        rw [List.mem_filter] at hj
        exact hne j hj.1 (of_decide_eq_true hj.2))
    rw [hfst] at this
    rw [← this]
    constructor
    · intro hu j hj
      rw [List.mem_filter] at hj
      rw [← hu j hj.1, hx j hj.1]; rfl
    · intro hu j hj
      by_cases hj' : j ∈ K.pre.filter fun j => s.isText j
      · rw [hx j hj]; exact hu j hj'
      · rw [hx j hj]
        exact elementT_outside fun hc => hj' (List.mem_filter.2 ⟨hc.1, decide_eq_true hc.2⟩)
  have hempty : ∀ j, s.nodeType j = .text → u.text j = s.text j → (u.emptyText j = false ↔ s.text j ≠ []) := by
    intro j hj hx
    rw [← Bool.not_eq_true, emptyText_iff, hp.ti.types, hx]
    simp [hj]
  constructor
  · rintro ⟨k1, k2⟩
    have hne : ∀ j ∈ T.pre, s.nodeType j = .text → s.text j ≠ [] := by
      intro j hj hjt
      exact (hempty j hjt (by rw [← hut, k2])).1 ((hmem j).2.1 ((k1 j).2 ((hmem j).1.2 hj))).2
    refine ⟨hne, fun g hg => ?_⟩
    obtain ⟨e, he, hs, hout, m, K, hm, hK, rfl⟩ := g1 g hg
    exact (key e he hs hout m K hm hK fun j hj => hne j (sub_pre hT e he hK j hj)).1 fun j _ => by rw [← hut, k2]
  · rintro ⟨k1, k2⟩
    have hsame : ∀ j, u.text j = s.text j := by
      intro j
      by_cases hj : j ∈ T.pre
      · by_cases hno : ∀ e ∈ T.pre, StartsWithText s e → ¬ s.Ancestor e j
        · exact hp.done.keep j hj hno
        · simp only [not_forall, not_not] at hno
          obtain ⟨a, ha, hs, haj⟩ := hno
          obtain ⟨o, ho, hoa⟩ := exists_textRoot hb ((hmem a).1.2 ha) hs
          have hoT := (hmem o).1.1 ho.tree
          have hout : ∀ a ∈ T.pre, StartsWithText s a → ¬ s.Ancestor a o := fun a ha hs => ho.outer a ((hmem a).1.2 ha) hs
          obtain ⟨m, K, hm, hK, hg⟩ := g2 o hoT ho.starts hout
          refine (key o hoT ho.starts hout m K hm hK fun j hj => k1 j (sub_pre hT o hoT hK j hj)).2 (k2 _ hg) j ?_
          rw [mem_pre_kids hF ho.tree.1 hK ((hmem j).1.2 hj).1]
          rcases hoa with rfl | hoa
          · exact haj
          · exact haj.trans hoa
      · exact hp.done.effect j hj
    refine ⟨fun j => ?_, fun j => by rw [hut, hsame]⟩
    rw [(hmem j).2, (hmem j).1]
    refine ⟨fun h => h.1, fun hj => ⟨hj, ?_⟩⟩
    by_cases hjt : s.nodeType j = .text
    · exact (hempty j hjt (hsame j)).2 (k1 j hj hjt)
    · rw [← Bool.not_eq_true, emptyText_iff, hp.ti.types]
      exact fun hc => hjt hc.1

end Svgdom
