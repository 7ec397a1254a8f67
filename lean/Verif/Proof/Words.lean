import Verif.Spec.Words
import Verif.Proof.TextExact
import Verif.Proof.NoBlank
import Mathlib.Data.List.Basic

/-!
# Words under text processing

A space may go without joining two words if white space or nothing is next to it.
-/

set_option autoImplicit false
set_option linter.unusedSectionVars false

namespace Svgdom

theorem pieces_ne (p : Char → Bool) (t : Str) : pieces p t ≠ [] := by
  cases t with
  | nil => simp [pieces]
  | cons c cs =>
    unfold pieces
    split
    · simp
    · split <;> simp

theorem pieces_cut {p : Char → Bool} {c : Char} (hc : p c = true) (x y : Str) : pieces p (x ++ c :: y) = pieces p x ++ pieces p y := by
  induction x with
  | nil => simp [pieces, hc]
  | cons a x ih =>
    rw [List.cons_append, pieces, ih, pieces]
    split
    · simp
    · cases h : pieces p x with
      | nil => exact absurd h (pieces_ne p x)
      | cons w ws => simp

/-- Spaces, tabs and line ends separate words. -/
class Sep (p : Char → Bool) : Prop where
  white : ∀ c, toSpace c = ' ' → p c = true

theorem Sep.sp {p : Char → Bool} [Sep p] : p ' ' = true := Sep.white ' ' (by decide)

variable {p : Char → Bool} [Sep p]

theorem words_cut {c : Char} (hc : p c = true) (x y : Str) : wordsAt p (x ++ c :: y) = wordsAt p x ++ wordsAt p y := by
  rw [wordsAt, pieces_cut hc, List.filter_append]; rfl

theorem words_cons {c : Char} (hc : p c = true) (y : Str) : wordsAt p (c :: y) = wordsAt p y := by
  have := words_cut hc [] y
  simpa [wordsAt, pieces] using this

theorem words_snoc {c : Char} (hc : p c = true) (x : Str) : wordsAt p (x ++ [c]) = wordsAt p x := by
  rw [words_cut hc]; simp [wordsAt, pieces]

def headWhite (p : Char → Bool) (t : Str) : Prop := ∀ c, t.head? = some c → p c = true
def lastWhite (p : Char → Bool) (t : Str) : Prop := ∀ c, t.getLast? = some c → p c = true

theorem words_drop_right {x y : Str} (h : headWhite p y) : wordsAt p (x ++ ' ' :: y) = wordsAt p (x ++ y) := by
  rw [words_cut Sep.sp]
  cases y with
  | nil => simp [wordsAt, pieces]
  | cons c y =>
    have hc := h c rfl
    rw [words_cut hc, words_cons hc]

theorem words_drop_left {x y : Str} (h : lastWhite p x) : wordsAt p (x ++ ' ' :: y) = wordsAt p (x ++ y) := by
  rw [words_cut Sep.sp]
  rcases List.eq_nil_or_concat x with rfl | ⟨x, c, rfl⟩
  · simp [wordsAt, pieces]
  · have hc := h c (by simp)
    simp only [List.concat_eq_append, List.append_assoc, List.singleton_append]
    rw [words_cut hc, words_cut hc]
    simp [wordsAt, pieces]

theorem headWhite_prefix {a b : Str} (h : headWhite p (a ++ b)) : headWhite p a := by
  intro c hc
  cases a with
  | nil => cases hc
  | cons d a => exact h c hc

theorem lastWhite_suffix {a b : Str} (h : lastWhite p (a ++ b)) : lastWhite p b := by
  intro c hc
  refine h c ?_
  rw [List.getLast?_append, hc]; rfl

theorem headWhite_blank {a b : Str} (ha : a.all p = true) (hb : headWhite p b) : headWhite p (a ++ b) := by
  cases a with
  | nil => exact hb
  | cons d a =>
    intro c hc
    simp at hc; subst hc
    simp [isBlank] at ha; exact ha.1

theorem lastWhite_blank {a b : Str} (ha : lastWhite p a) (hb : b.all p = true) : lastWhite p (a ++ b) := by
  intro c hc
  rw [List.getLast?_append] at hc
  cases h : b.getLast? with
  | none => rw [h] at hc; exact ha c (by simpa using hc)
  | some d =>
    rw [h] at hc
    simp at hc; subst hc
    obtain ⟨u, rfl⟩ := List.getLast?_eq_some_iff.1 h
    simp [isBlank] at hb; exact hb.2

/-! ### All runs of texts -/

/-- Every run of texts has the same words in both. -/
def SameRuns (p : Char → Bool) (full : List NodeId) (σ τ : Texts) : Prop := ∀ A S B, full = A ++ S ++ B → wordsAt p (S.flatMap σ) = wordsAt p (S.flatMap τ)

theorem SameRuns.refl (full : List NodeId) (τ : Texts) : SameRuns p full τ τ := fun _ _ _ _ => rfl

theorem SameRuns.trans {full : List NodeId} {a b c : Texts} (h : SameRuns p full a b) (k : SameRuns p full b c) : SameRuns p full a c :=
  fun A S B e => (h A S B e).trans (k A S B e)

theorem split_unique {l A1 A2 B1 B2 : List NodeId} {m : NodeId} (hd : l.Nodup) (h : l = A1 ++ m :: A2) (k : l = B1 ++ m :: B2) :
    A1 = B1 ∧ A2 = B2 := by
  have h' := hd
  rw [h] at h'
  have n1 : m ∉ A1 := by
    intro hm
    exact (List.nodup_append.1 h').2.2 m hm m (by simp) rfl
  have n2 : m ∉ A2 := (List.nodup_cons.1 (List.nodup_append.1 h').2.1).1
  have e := (h.symm.trans k)
  have := (List.append_cons_inj_of_notMem (x₁ := A1) (z₁ := A2) (a₁ := m) n1 n2).1 e
  exact ⟨this.1, this.2.2⟩

/-- One text changes; enough to look at the runs with it. -/
theorem runs_change {full A1 A2 : List NodeId} {m : NodeId} (hd : full.Nodup) (hf : full = A1 ++ m :: A2) {σ : Texts} {t : Str}
    (h : ∀ P Q R S, A1 = P ++ Q → A2 = R ++ S → wordsAt p (Q.flatMap σ ++ (t ++ R.flatMap σ)) = wordsAt p (Q.flatMap σ ++ (σ m ++ R.flatMap σ))) :
    SameRuns p full (σ.put m t) σ := by
  intro A S B e
  by_cases hm : m ∈ S
  · obtain ⟨S1, S2, rfl⟩ := List.append_of_mem hm
    have e' : full = (A ++ S1) ++ m :: (S2 ++ B) := by rw [e]; simp
    obtain ⟨e1, e2⟩ := split_unique hd hf e'
    have hd' := hd
    rw [e'] at hd'
    have n1 : m ∉ A ++ S1 := fun h => (List.nodup_append.1 hd').2.2 m h m (by simp) rfl
    have n2 : m ∉ S2 ++ B := (List.nodup_cons.1 (List.nodup_append.1 hd').2.1).1
    have c1 : S1.flatMap (σ.put m t) = S1.flatMap σ := flatMap_congr' fun j hj =>
      put_other fun hh => n1 (by rw [← hh]; simp [hj])
    have c2 : S2.flatMap (σ.put m t) = S2.flatMap σ := flatMap_congr' fun j hj =>
      put_other fun hh => n2 (by rw [← hh]; simp [hj])
    rw [List.flatMap_append, List.flatMap_cons, c1, c2, put_self, List.flatMap_append, List.flatMap_cons]
    exact h A S1 S2 B e1 e2
  · rw [flatMap_congr' fun j hj => put_other fun hh => hm (by rw [← hh]; exact hj)]

theorem runs_dropLast {full A1 A2 : List NodeId} {m : NodeId} (hd : full.Nodup) (hf : full = A1 ++ m :: A2) {σ : Texts}
    (he : endsSp (σ m) = true) (hw : headWhite p (A2.flatMap σ)) : SameRuns p full (σ.put m (σ m).dropLast) σ := by
  refine runs_change hd hf ?_
  rintro P Q R S rfl rfl
  obtain ⟨b, hb⟩ := endsSp_iff.1 he
  rw [List.flatMap_append] at hw
  have := words_drop_right (x := Q.flatMap σ ++ b) (headWhite_prefix hw)
  rw [hb]
  simpa using this.symm

theorem runs_tail {full A1 A2 : List NodeId} {m : NodeId} (hd : full.Nodup) (hf : full = A1 ++ m :: A2) {σ : Texts}
    (he : startsSp (σ m) = true) (hw : lastWhite p (A1.flatMap σ)) : SameRuns p full (σ.put m (σ m).tail) σ := by
  refine runs_change hd hf ?_
  rintro P Q R S rfl rfl
  obtain ⟨b, hb⟩ := startsSp_iff.1 he
  rw [List.flatMap_append] at hw
  have := words_drop_left (y := b ++ R.flatMap σ) (lastWhite_suffix hw)
  rw [hb]
  simpa using this.symm

/-! ### One step of the loop -/

/-- The texts of a pair. -/
def pairF (τ : Texts) (m n : NodeId) (p : Str × Str) : Texts := (τ.put m p.1).put n p.2

section
variable {full A1 G R : List NodeId} {m n : NodeId} {τ : Texts} (hd : full.Nodup) (hf : full = A1 ++ m :: (G ++ n :: R))
  (hG : (G.flatMap τ).all p = true)
include hd hf

theorem pair_ne : m ≠ n := by
  rintro rfl
  rw [hf] at hd
  exact (List.nodup_cons.1 (List.nodup_append.1 hd).2.1).1 (by simp)

theorem pairF_fst (p : Str × Str) : pairF τ m n p m = p.1 := by rw [pairF, put_other (pair_ne hd hf), put_self]

theorem pairF_gap (p : Str × Str) : G.flatMap (pairF τ m n p) = G.flatMap τ := by
  rw [hf] at hd
  obtain ⟨h1, h2⟩ := List.nodup_cons.1 (List.nodup_append.1 hd).2.1
  refine flatMap_congr' fun j hj => ?_
  rw [pairF, put_other, put_other]
  · rintro rfl; exact h1 (by simp [hj])
  · rintro rfl; exact (List.nodup_append.1 h2).2.2 j hj j (by simp) rfl

theorem pairF_left (u u' w : Str) : pairF τ m n (u', w) = (pairF τ m n (u, w)).put m u' := by
  have := pair_ne hd hf
  funext j
  simp only [pairF, Texts.put]
  by_cases h1 : j = m
  · subst h1; simp [this]
  · simp [h1]

omit hd hf in
theorem pairF_right (u w w' : Str) : pairF τ m n (u, w') = (pairF τ m n (u, w)).put n w' := by
  funext j
  simp only [pairF, Texts.put]
  split <;> simp_all

omit hd in
theorem pair_right : full = (A1 ++ m :: G) ++ n :: R := by rw [hf]; simp

theorem border_left (hG : (G.flatMap τ).all p = true) {u w : Str} (hu : endsSp u = true) (hw : startsSp w = true) :
    SameRuns p full (pairF τ m n (u.dropLast, w)) (pairF τ m n (u, w)) := by
  have h := runs_dropLast (p := p) hd hf (σ := pairF τ m n (u, w)) (by rw [pairF_fst hd hf]; exact hu) ?_
  · rw [pairF_fst hd hf] at h
    rw [pairF_left hd hf u]; exact h
  · rw [List.flatMap_append, pairF_gap hd hf, List.flatMap_cons]
    refine headWhite_blank hG ?_
    obtain ⟨b, rfl⟩ := startsSp_iff.1 hw
    intro c hc
    simp [pairF, put_self] at hc
    rw [← hc]; exact Sep.sp

theorem border_right (hG : (G.flatMap τ).all p = true) {u w : Str} (hu : endsSp u = true) (hw : startsSp w = true) :
    SameRuns p full (pairF τ m n (u, w.tail)) (pairF τ m n (u, w)) := by
  have hs : pairF τ m n (u, w) n = w := put_self _ _ _
  have h := runs_tail (p := p) hd (pair_right hf) (σ := pairF τ m n (u, w)) (by rw [hs]; exact hw) ?_
  · rw [hs] at h
    rw [pairF_right u w]; exact h
  · rw [List.flatMap_append, List.flatMap_cons, pairF_gap hd hf, pairF_fst hd hf, ← List.append_assoc]
    refine lastWhite_blank ?_ hG
    obtain ⟨b, rfl⟩ := endsSp_iff.1 hu
    intro c hc
    simp at hc
    rw [← hc]; exact Sep.sp

theorem end_left (hA : A1 = []) {u w : Str} (hu : startsSp u = true) : SameRuns p full (pairF τ m n (u.tail, w)) (pairF τ m n (u, w)) := by
  have h := runs_tail (p := p) hd hf (σ := pairF τ m n (u, w)) (by rw [pairF_fst hd hf]; exact hu) (by subst hA; intro c hc; simp at hc)
  rw [pairF_fst hd hf] at h
  rw [pairF_left hd hf u]; exact h

theorem end_right (hR : R = []) {u w : Str} (hw : endsSp w = true) : SameRuns p full (pairF τ m n (u, w.dropLast)) (pairF τ m n (u, w)) := by
  have hs : pairF τ m n (u, w) n = w := put_self _ _ _
  have h := runs_dropLast (p := p) hd (pair_right hf) (σ := pairF τ m n (u, w)) (by rw [hs]; exact hw) (by subst hR; intro c hc; simp at hc)
  rw [hs] at h
  rw [pairF_right u w]; exact h

theorem end_tail (hG : (G.flatMap τ).all p = true) (hR : R = []) {u : Str} (hu : endsSp u = true) :
    SameRuns p full (pairF τ m n (u.dropLast, [])) (pairF τ m n (u, [])) := by
  have h := runs_dropLast (p := p) hd hf (σ := pairF τ m n (u, [])) (by rw [pairF_fst hd hf]; exact hu) ?_
  · rw [pairF_fst hd hf] at h
    rw [pairF_left hd hf u]; exact h
  · rw [List.flatMap_append, pairF_gap hd hf, List.flatMap_cons]
    refine headWhite_blank hG ?_
    subst hR
    intro c hc
    simp [pairF, put_self] at hc

theorem step_runs (hG : (G.flatMap τ).all p = true) {first last lt : Bool} {sp1 sp2 : XmlSpace} (h1 : first = true → A1 = [])
    (h2 : last = true → R = []) (u w : Str) : SameRuns p full (pairF τ m n (pairP first last lt sp1 sp2 u w)) (pairF τ m n (u, w)) := by
  unfold pairP
  simp only
  have hB : SameRuns p full (pairF τ m n (borderP lt sp1 sp2 u w)) (pairF τ m n (u, w)) ∧
      ((borderP lt sp1 sp2 u w).1 = u ∨ (borderP lt sp1 sp2 u w).1 = u.dropLast) ∧
      ((borderP lt sp1 sp2 u w).2 = w ∨ (borderP lt sp1 sp2 u w).2 = w.tail) := by
    unfold borderP
    split
    · next h =>
      rw [Bool.and_eq_true] at h
      have l := border_left hd hf hG h.1 h.2
      have r := border_right hd hf hG h.1 h.2
      split
      · split
        · exact ⟨r, .inl rfl, .inr rfl⟩
        · exact ⟨.refl _ _, .inl rfl, .inl rfl⟩
      · split
        · exact ⟨l, .inr rfl, .inl rfl⟩
        · split
          · exact ⟨r, .inl rfl, .inr rfl⟩
          · exact ⟨.refl _ _, .inl rfl, .inl rfl⟩
    · exact ⟨.refl _ _, .inl rfl, .inl rfl⟩
  obtain ⟨hB, hb1, hb2⟩ := hB
  generalize hp : borderP lt sp1 sp2 u w = p at hB hb1 hb2
  obtain ⟨p1, p2⟩ := p
  simp only at hb1 hb2 ⊢
  have hE : SameRuns p full (pairF τ m n (endsP first last sp1 sp2 (startsSp u) (endsSp w) p1 p2)) (pairF τ m n (p1, p2)) := by
    unfold endsP
    split
    · next h =>
      simp only [Bool.and_eq_true, decide_eq_true_eq, Bool.not_eq_true', List.isEmpty_eq_false_iff] at h
      refine end_left hd hf (h1 h.1.1.1) ?_
      rcases hb1 with rfl | rfl
      · exact h.1.1.2
      · obtain ⟨b, rfl⟩ := startsSp_iff.1 h.1.1.2
        have := h.2
        cases b with
        | nil => simp at this
        | cons c b => exact startsSp_iff.2 ⟨_, rfl⟩
    · split
      · next h =>
        simp only [Bool.and_eq_true, decide_eq_true_eq, Bool.not_eq_true', List.isEmpty_eq_false_iff] at h
        refine end_right hd hf (h2 h.1.1.1) ?_
        rcases hb2 with rfl | rfl
        · exact h.1.1.2
        · obtain ⟨b, rfl⟩ := endsSp_iff.1 h.1.1.2
          have := h.1.2
          cases b with
          | nil => simp at this
          | cons c b => exact endsSp_iff.2 ⟨b, rfl⟩
      · exact .refl _ _
  generalize hq : endsP first last sp1 sp2 (startsSp u) (endsSp w) p1 p2 = q at hE
  obtain ⟨q1, q2⟩ := q
  refine SameRuns.trans ?_ (hE.trans hB)
  unfold tailP
  simp only
  split
  · next h =>
    simp only [Bool.and_eq_true, List.isEmpty_iff] at h
    obtain ⟨⟨⟨⟨a, _⟩, _⟩, rfl⟩, e⟩ := h
    exact end_tail hd hf hG (h2 a) e
  · exact .refl _ _

end

/-! ### The loop -/

theorem pairF_same (τ : Texts) (m n : NodeId) : pairF τ m n (τ m, τ n) = τ := by
  funext j
  simp only [pairF, Texts.put]
  split
  · next h => rw [h]
  · split
    · next h => rw [h]
    · rfl

theorem pairs_runs (μ : NodeId → XmlSpace) (full : List NodeId) (hd : full.Nodup) : ∀ (l : List (NodeId × Nat)) (τ : Texts) (first : Bool)
    (last : Option NodeId) (P : List NodeId), full = P ++ l.map Prod.fst → (first = true → P = [] ) →
    (∀ k, last = some k → ∃ P1 P2, P = P1 ++ k :: P2 ∧ (P2.flatMap τ).all p = true) →
    (∀ j, isBlank (τ j) = true → (τ j).all p = true) → SameRuns p full (pairsT μ τ first last l) τ
  | [], τ, _, _, _, _, _, _, _ => .refl _ _
  | [x], τ, f, la, _, _, _, _, _ => by rw [pairsT_one]; exact .refl _ _
  | (n1, d1) :: (n2, d2) :: rest, τ, first, last, P, hf, h1, h2, h3 => by
    rw [pairsT]
    set m := pairNode τ last n1 with hm
    set τ' := pairStep μ τ first rest.isEmpty (decide (d1 < d2)) m n2 with hτ'
    -- where the first of the pair is
    have hpl : ∃ A1 G, full = A1 ++ m :: (G ++ n2 :: rest.map Prod.fst) ∧ (G.flatMap τ).all p = true ∧ (first = true → A1 = []) ∧
        P ++ [n1] = A1 ++ m :: G ∧ (m = n1 → G = []) ∧ (m ≠ n1 → τ n1 = [] ∧ last = some m) := by
      have base : full = P ++ n1 :: ([] ++ n2 :: rest.map Prod.fst) := by rw [hf]; simp
      rw [pairNode] at hm
      split at hm
      · next he =>
        cases hl : last with
        | none =>
          rw [hl] at hm
          simp at hm
          rw [hm]
          exact ⟨P, [], base, rfl, h1, rfl, fun _ => rfl, fun h => absurd rfl h⟩
        | some k =>
          rw [hl] at hm
          simp at hm
          rw [hm]
          obtain ⟨P1, P2, hP, hb⟩ := h2 k hl
          have he' : τ n1 = [] := by simpa using he
          have hne : k ≠ n1 := by
            rintro rfl
            rw [hf, hP] at hd
            exact (List.nodup_append.1 hd).2.2 k (by simp) k (by simp) rfl
          refine ⟨P1, P2 ++ [n1], by rw [base, hP]; simp, ?_, ?_, by rw [hP]; simp, fun h => absurd h hne, fun _ => ⟨he', rfl⟩⟩
          · rw [List.flatMap_append]
            simpa [he'] using hb
          · intro hfi
            have := h1 hfi
            rw [hP] at this
            simp at this
      · rw [hm]
        exact ⟨P, [], base, rfl, h1, rfl, fun _ => rfl, fun h => absurd rfl h⟩
    obtain ⟨A1, G, hA, hG, hA1, hPG, hm1, hm2⟩ := hpl
    have hstep : SameRuns p full τ' τ := by
      have := step_runs hd hA hG (first := first) (last := rest.isEmpty) (lt := decide (d1 < d2)) (sp1 := μ m) (sp2 := μ n2) hA1
        (fun h => by simpa using h) (τ m) (τ n2)
      rw [pairF_same] at this
      exact this
    have hgap : ∀ p, G.flatMap (pairF τ m n2 p) = G.flatMap τ := pairF_gap hd hA
    have hG' : (G.flatMap τ').all p = true := by
      have : G.flatMap τ' = G.flatMap τ := hgap _
      rw [this]; exact hG
    have h3' : ∀ j, isBlank (τ' j) = true → (τ' j).all p = true := by
      intro j hj
      obtain ⟨a, b, e, ha, hb⟩ := pairStep_shrunk μ τ first rest.isEmpty (decide (d1 < d2)) m n2 j
      have hw : ∀ l : Str, (∀ c ∈ l, c = ' ') → l.all isWhite = true := by
        intro l hl
        rw [List.all_eq_true]
        intro c hc
        rw [hl c hc]; decide
      have := h3 j (by rw [e, isBlank, List.all_append, List.all_append, hw a ha, hw b hb]; simpa [isBlank] using hj)
      rw [e, List.all_append, List.all_append, Bool.and_eq_true, Bool.and_eq_true] at this
      exact this.1.2
    refine SameRuns.trans (pairs_runs μ full hd ((n2, d2) :: rest) τ' false _ (P ++ [n1]) (by rw [hf]; simp) (by simp) ?_ h3') hstep
    intro k hk
    split at hk
    · next hb =>
      rw [trim_blank] at hb
      by_cases hmn : m = n1
      · -- the node itself is blank
        obtain ⟨P1, P2, hP, hb2⟩ := h2 k hk
        refine ⟨P1, P2 ++ [n1], by rw [hP]; simp, ?_⟩
        rw [List.flatMap_append]
        have hP2 : P2.flatMap τ' = P2.flatMap τ := by
          have hd2 := hd
          rw [hf, hP] at hd2
          have hdj := (List.nodup_append.1 hd2).2.2
          refine flatMap_congr' fun j hj => ?_
          show pairF τ m n2 _ j = τ j
          rw [pairF, put_other, put_other]
          · exact hdj j (by simp [hj]) m (by simp [hmn])
          · exact hdj j (by simp [hj]) n2 (by simp)
        rw [hP2]
        rw [hmn] at hb
        rw [List.all_append, hb2, Bool.true_and]
        simpa using h3' n1 hb
      · have := (hm2 hmn).2
        rw [this] at hk
        cases hk
        exact ⟨A1, G, hPG, hG'⟩
    · cases hk
      exact ⟨A1, G, hPG, hG'⟩

theorem single_runs {j : NodeId} (τ : Texts) : SameRuns p [j] (τ.put j (singleP (τ j))) τ := by
  have key : ∀ t, wordsAt p (singleP t) = wordsAt p t := by
    intro t
    unfold singleP
    split
    · next h => rw [h, words_cons Sep.sp]
    · next hne =>
      simp only
      have tl : ∀ t, startsSp t = true → wordsAt p t.tail = wordsAt p t := by
        intro t h
        obtain ⟨b, rfl⟩ := startsSp_iff.1 h
        exact (words_cons Sep.sp b).symm
      have dl : ∀ t, endsSp t = true → wordsAt p t.dropLast = wordsAt p t := by
        intro t h
        obtain ⟨b, rfl⟩ := endsSp_iff.1 h
        rw [List.dropLast_concat, words_snoc Sep.sp]
      by_cases h1 : startsSp t = true
      · by_cases h2 : endsSp t = true
        · rw [if_pos h1, if_pos h2, dl _ (by
            obtain ⟨b, rfl⟩ := startsSp_iff.1 h1
            obtain ⟨a, ha⟩ := endsSp_iff.1 h2
            cases a with
            | nil => exact absurd ha hne
            | cons c a =>
              simp at ha
              exact endsSp_iff.2 ⟨a, by simpa using ha.2⟩), tl _ h1]
        · rw [if_pos h1, if_neg h2]; exact tl _ h1
      · by_cases h2 : endsSp t = true
        · rw [if_neg h1, if_pos h2]; exact dl _ h2
        · rw [if_neg h1, if_neg h2]
  refine runs_change (A1 := []) (A2 := []) (by simp) rfl ?_
  intro P Q R S h1 h2
  obtain ⟨rfl, rfl⟩ := List.append_eq_nil_iff.1 h1.symm
  obtain ⟨rfl, rfl⟩ := List.append_eq_nil_iff.1 h2.symm
  simpa using key (τ j)

theorem group_runs (μ : NodeId → XmlSpace) (sp : XmlSpace) (τ : Texts) (l : List (NodeId × Nat)) (hd : (l.map Prod.fst).Nodup)
    (hw : ∀ j, isBlank (τ j) = true → (τ j).all p = true) : SameRuns p (l.map Prod.fst) (groupT μ sp τ l) τ := by
  unfold groupT
  split
  · exact .refl _ _
  · split
    · exact single_runs τ
    · exact .refl _ _
  · exact pairs_runs μ _ hd l τ true none [] rfl (fun _ => rfl) (by simp) hw

/-! ### Tabs, line ends and spaces in a row -/

/-- The same words whatever is around. -/
def SameAround (p : Char → Bool) (x y : Str) : Prop := ∀ a b, wordsAt p (a ++ (x ++ b)) = wordsAt p (a ++ (y ++ b))

theorem SameAround.refl (x : Str) : SameAround p x x := fun _ _ => rfl
theorem SameAround.trans {x y z : Str} (h : SameAround p x y) (k : SameAround p y z) : SameAround p x z := fun a b => (h a b).trans (k a b)
theorem SameAround.append {x y u v : Str} (h : SameAround p x y) (k : SameAround p u v) : SameAround p (x ++ u) (y ++ v) := by
  intro a b
  have h1 := h a (u ++ b)
  have h2 := k (a ++ y) b
  simp only [List.append_assoc] at h1 h2 ⊢
  rw [h1, h2]
theorem SameAround.cons {x y : Str} (c : Char) (h : SameAround p x y) : SameAround p (c :: x) (c :: y) := SameAround.append (.refl [c]) h

theorem around_toSpace (t : Str) : SameAround p (t.map toSpace) t := by
  induction t with
  | nil => exact .refl _
  | cons c t ih =>
    rw [List.map_cons]
    refine SameAround.append (x := [toSpace c]) (y := [c]) ?_ ih
    intro a b
    by_cases h : toSpace c = c
    · rw [h]
    · have hs : toSpace c = ' ' := by
        by_contra hs
        unfold toSpace at h hs
        split at hs
        · exact hs rfl
        · next h' => rw [if_neg h'] at h; exact h rfl
      rw [List.singleton_append, List.singleton_append, words_cut (Sep.white c hs), hs, words_cut Sep.sp]

theorem around_squeeze (t : Str) : SameAround p (squeeze t) t := by
  induction t with
  | nil => exact .refl _
  | cons c t ih =>
    rw [squeeze]
    split
    · next h =>
      refine SameAround.trans ?_ (ih.cons c)
      obtain ⟨rfl, h2⟩ := h
      cases hq : squeeze t with
      | nil => rw [hq] at h2; cases h2
      | cons d q =>
        rw [hq] at h2
        simp at h2
        subst h2
        intro a b
        simp only [List.cons_append]
        rw [words_cut Sep.sp, words_cut Sep.sp, words_cons Sep.sp]
    · exact ih.cons c

theorem around_trim (t : Str) (m : XmlSpace) : SameAround p (trimText t m) t := by
  rw [trimText_spaced]
  cases m with
  | default => exact (around_squeeze _).trans (around_toSpace t)
  | preserve => exact around_toSpace t

theorem trim_runs (μ : NodeId → XmlSpace) (τ : Texts) (l full : List NodeId) : SameRuns p full (trimT μ τ l) τ := by
  have key : ∀ S : List NodeId, SameAround p (S.flatMap (trimT μ τ l)) (S.flatMap τ) := by
    intro S
    induction S with
    | nil => exact .refl _
    | cons j S ih =>
      rw [List.flatMap_cons, List.flatMap_cons]
      refine SameAround.append ?_ ih
      unfold trimT
      split
      · exact around_trim _ _
      · exact .refl _
  intro A S B _
  have := key S [] []
  simpa using this

end Svgdom
