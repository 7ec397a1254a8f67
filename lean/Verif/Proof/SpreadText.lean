import Verif.Proof.Spread

/-! Text processing takes the white space away again. -/

set_option autoImplicit false

namespace Svgdom

/-- Related nodes at the same places. -/
def Trees.Paired (Q : NodeId → NodeId → Prop) : Trees → Trees → Prop
  | nil, nil => True
  | cons i K L, cons j K' L' => Q i j ∧ K.Paired Q K' ∧ L.Paired Q L'
  | _, _ => False

theorem Trees.Paired.mono {Q Q' : NodeId → NodeId → Prop} : ∀ {T U : Trees}, T.Paired Q U → (∀ i, ∀ j ∈ U.pre, Q i j → Q' i j) → T.Paired Q' U
  | .nil, .nil, _, _ => trivial
  | .nil, .cons _ _ _, h, _ => h.elim
  | .cons _ _ _, .nil, h, _ => h.elim
  | .cons _ _ _, .cons _ _ _, ⟨h1, h2, h3⟩, hq =>
    ⟨hq _ _ (by simp [Trees.pre]) h1, h2.mono fun i j hj => hq i j (by simp [Trees.pre, hj]), h3.mono fun i j hj => hq i j (by simp [Trees.pre, hj])⟩

theorem tidyT_outside {s : St} : ∀ {T : Trees} {sp : XmlSpace} {τ : Texts} {j : NodeId}, j ∉ T.pre → T.tidyT s sp τ j = τ j
  | .nil, _, _, _, _ => rfl
  | .cons n K R, sp, τ, j, h => by
    simp only [Trees.pre, List.mem_cons, List.mem_append, not_or] at h
    rw [Trees.tidyT, tidyT_outside h.2.2]
    split
    · exact elementT_outside fun hc => h.2.1 hc.1
    · exact tidyT_outside h.2.1

/-- White space around a normal text goes away. -/
theorem collapse_gaps {t : Str} (h : squeeze (t.map toSpace) = t) (h1 : startsSp t = false) (h2 : endsSp t = false) :
    ∀ (a b : Str), (∀ c ∈ a, toSpace c = ' ') → (∀ c ∈ b, toSpace c = ' ') → strip (squeeze ((a ++ t ++ b).map toSpace)) = t := by
  have hb : ∀ (k : Nat) (x : Str), strip (squeeze (x ++ List.replicate k ' ')) = strip (squeeze x) := by
    intro k
    induction k with
    | zero => intro x; simp
    | succ k ih =>
      intro x
      rw [List.replicate_succ', ← List.append_assoc, collapse_snoc, ih]
  have ha : ∀ (k : Nat) (x : Str), strip (squeeze (List.replicate k ' ' ++ x)) = strip (squeeze x) := by
    intro k
    induction k with
    | zero => intro x; simp
    | succ k ih =>
      intro x
      rw [List.replicate_succ, List.cons_append, collapse_cons, ih]
  have hr : ∀ l : Str, (∀ c ∈ l, toSpace c = ' ') → l.map toSpace = List.replicate l.length ' ' := fun l hl => by
    rw [List.eq_replicate_iff]
    exact ⟨by simp, by simpa using hl⟩
  intro a b h3 h4
  rw [List.map_append, List.map_append, hr a h3, hr b h4, hb, ha, h, strip_none h1 h2]

theorem toSpace_gap (o : XmlOptions) (p : Bool) (d : Nat) : ∀ c ∈ gap o p d, toSpace c = ' ' := by
  intro c hc
  have := (gap_space o p d c hc).1
  simp only [xmlSpace, decide_eq_true_eq] at this
  rcases this with rfl | rfl | rfl | rfl <;> decide

/-- One text root with normal texts. -/
theorem normal_element {u : St} {G : Forest} (hG : Describes u G) {m : NodeId} (hm : u.live m = true) {K : Trees} (hK : K.Of G (G.kids m))
    (hnd : K.pre.Nodup) (hs : K.startsText u = true) (d : XmlSpace) (hne : ∀ j ∈ K.pre, u.nodeType j = .text → u.text j ≠ [])
    (hn : NormalTexts (K.items u (u.spaceAt m d) (u.spaceAt m d))) :
    ∀ j ∈ K.pre, u.elementT K (u.spaceAt m d) u.text j = u.text j := by
  have hkids := hG.wf.kids m hm
  have hmo : ∀ i ∈ G.kids m, u.modeOf i (u.spaceAt m d) = u.spaceAt m d := by
    intro i hi
    simp only [St.modeOf]
    rw [hG.shows.parent i (hkids i hi).1, (hkids i hi).2]
    exact spaceAt_self _ _ _
  rw [items_eq hG _ hK (fun i hi => (hkids i hi).1) hmo] at hn
  have hfst := St.textDepths_fst u K
  have := groupT_fix (μ := fun j => u.modeOf j (u.spaceAt m d)) (sp := u.spaceAt m d) (τ := u.text) (L := u.textDepths K)
    (by rw [hfst]; exact hnd.filter _) (by
      intro c k hc
      obtain ⟨c', hc', hct⟩ := (startsText_iff hG hm hK).1 hs
      rw [hG.shows.first m hm] at hc'
      have hck : c' ∈ G.kids m := List.mem_of_head? hc'
      have : c' ∈ (u.textDepths K).map Prod.fst := by
        rw [hfst, List.mem_filter]
        exact ⟨hK.top_mem c' hck, decide_eq_true hct⟩
      rw [hc] at this
      simp only [List.map_cons, List.map_nil, List.mem_singleton] at this
      rw [← this]; exact hmo c' hck) (by
      rw [hfst]
      intro j hj
      rw [List.mem_filter] at hj
      exact hne j hj.1 (of_decide_eq_true hj.2))
  rw [hfst] at this
  have := this.2 hn
  intro j hj
  by_cases hj' : j ∈ K.pre.filter fun j => u.isText j
  · exact this j hj'
  · exact elementT_outside fun hc => hj' (List.mem_filter.2 ⟨hc.1, decide_eq_true hc.2⟩)

/-- A text on its own, in default mode. -/
theorem sole_element {u : St} {G : Forest} (hG : Describes u G) {m c : NodeId} (hm : u.live m = true)
    (hK : (Trees.cons c .nil .nil).Of G (G.kids m)) (hc : u.nodeType c = .text) {d : XmlSpace} (hd : u.spaceAt m d = .default) (τ : Texts) :
    u.elementT (.cons c .nil .nil) .default τ c = strip (squeeze ((τ c).map toSpace)) := by
  have hk : G.kids m = [c] := by
    obtain ⟨l', h, _, h'⟩ := hK
    cases h'
    exact h
  have hci := hG.wf.kids m hm c (by rw [hk]; simp)
  have hmo : u.modeOf c .default = .default := by
    simp only [St.modeOf]
    rw [hG.shows.parent c hci.1, hci.2]
    have := spaceAt_self u m d
    rw [hd] at this
    exact this
  have hd : u.textDepths (.cons c .nil .nil) = [(c, 0)] := by
    simp [St.textDepths, Trees.depths, St.isText, hc]
  have hf : (Trees.cons c .nil .nil).pre.filter (fun j => u.isText j) = [c] := by
    simp [Trees.pre, St.isText, hc]
  rw [St.elementT, hd, hf]
  simp only [groupT, if_true, put_self]
  rw [trimT, if_pos (by simp), hmo, trimText_spaced]
  have hnd : NoDouble (spaced .default (τ c)) := noDouble_squeeze _
  rw [singleP_strip hnd, squeeze_of_noDouble hnd]; rfl

theorem items_texts {s : St} {w : NodeId → Str} : ∀ {T : Trees} {sp m : XmlSpace}, (∀ j ∈ T.pre, w j = s.text j) →
    T.items (s.withTexts w) sp m = T.items s sp m
  | .nil, _, _, _ => rfl
  | .cons n K R, sp, m, h => by
    have h1 : (s.withTexts w).text n = s.text n := h n (by simp [Trees.pre])
    have h2 := items_texts (s := s) (w := w) (T := K) (sp := sp) (m := s.spaceAt n sp) fun j hj => h j (by simp [Trees.pre, hj])
    have h3 := items_texts (s := s) (w := w) (T := R) (sp := sp) (m := m) fun j hj => h j (by simp [Trees.pre, hj])
    have h4 : (s.withTexts w).spaceAt n sp = s.spaceAt n sp := rfl
    have h5 : (s.withTexts w).nodeType n = s.nodeType n := rfl
    rw [Trees.items, Trees.items, h1, h4, h5, h2, h3]

theorem leaves_texts {s : St} (w : NodeId → Str) : ∀ {T : Trees}, T.Leaves s → T.Leaves (s.withTexts w)
  | .nil, _ => trivial
  | .cons _ _ _, ⟨h1, h2, h3⟩ => ⟨h1, leaves_texts w h2, leaves_texts w h3⟩

/-- After text processing the texts are those without the white space. -/
theorem tidy_wide {o : XmlOptions} {s u : St} {w : NodeId → Str} {G : Forest} {Q : NodeId → NodeId → Prop} (hG : Describes u G) :
    ∀ {T U : Trees} {sp : XmlSpace} {p : Bool} {d : Nat} {l : List NodeId} {τ : Texts}, T.Same (s.withTexts w) u Q U → U.Of G l →
    (∀ i ∈ l, u.live i = true) → U.pre.Nodup → T.Leaves s → (∀ g ∈ T.groups s sp, NormalTexts g) →
    (∀ n ∈ T.pre, s.nodeType n = .text → s.text n ≠ []) → T.Wide o s (s.withTexts w) sp p d → (∀ j ∈ U.pre, τ j = u.text j) →
    T.Paired (fun i j => s.nodeType i ≠ .element → U.tidyT u sp τ j = s.text i) U
  | .nil, .nil, _, _, _, _, _, _, _, _, _, _, _, _, _, _ => trivial
  | .nil, .cons _ _ _, _, _, _, _, _, h, _, _, _, _, _, _, _, _ => h.elim
  | .cons _ _ _, .nil, _, _, _, _, _, h, _, _, _, _, _, _, _, _ => h.elim
  | .cons n K R, .cons m K' R', sp, p, d, l, τ, ⟨h1, h2, h3⟩, hU, hl, hnd, hleaf, hn, hne, hw, hτ => by
    obtain ⟨l', rfl, hK, hR⟩ := hU
    simp only [Trees.pre, List.nodup_cons, List.nodup_append, List.mem_append, not_or] at hnd
    obtain ⟨⟨nK, nR⟩, dK, dR, dKR⟩ := hnd
    obtain ⟨l1, l2, l3⟩ := hleaf
    obtain ⟨w1, w2, w3, w4⟩ := hw
    have hm := hl m (by simp)
    have hkl : ∀ i ∈ G.kids m, u.live i = true := fun i hi => (hG.wf.kids m hm i hi).1
    have hty : u.nodeType m = s.nodeType n := h1.type
    simp only [Trees.groups, List.mem_append] at hn
    -- the texts below the node
    have hstep : ∀ j, j ∉ K'.pre →
        (if K'.textFirst u then u.elementT K' (u.spaceAt m sp) τ else K'.tidyT u (u.spaceAt m sp) τ) j = τ j := by
      intro j hj
      split
      · exact elementT_outside fun hc => hj hc.1
      · exact tidyT_outside hj
    have hkids : K.Paired (fun i j => s.nodeType i ≠ .element →
        (if K'.textFirst u then u.elementT K' (u.spaceAt m sp) τ else K'.tidyT u (u.spaceAt m sp) τ) j = s.text i) K' := by
      by_cases he : s.nodeType n = .element
      · have hsp : u.spaceAt m sp = s.spaceAt n sp := spaceAt_same h1 he sp
        have hst : K'.textFirst u = K.startsText s := by
          have := same_starts h2
          rw [show K'.textFirst u = K'.startsText u by cases K' <;> rfl, this]
          cases K <;> rfl
        have hneK : ∀ n ∈ K.pre, s.nodeType n = .text → s.text n ≠ [] := fun n hn => hne n (by simp [Trees.pre, hn])
        rcases w3 with ⟨g1, _, g2, g3, c, rfl, g4, g5⟩ | w3
        · -- alone
          cases K' with
          | nil => exact h2.elim
          | cons c' A B =>
            obtain ⟨a1, a2, a3⟩ := h2
            cases A with
            | cons _ _ _ => exact a2.elim
            | nil =>
              cases B with
              | cons _ _ _ => exact a3.elim
              | nil =>
                refine ⟨fun _ => ?_, trivial, trivial⟩
                have hct : u.nodeType c' = .text := a1.type.trans g4
                have hs1 : (Trees.cons c .nil .nil).startsText s = true := by simpa [Trees.startsText] using g4
                rw [hst, if_pos hs1, hsp, g3, sole_element hG hm hK hct (hsp.trans g3), hτ c' (by simp [Trees.pre]),
                  a1.text (by rw [show (s.withTexts w).nodeType c = .text from g4]; decide), g5]
                have := hn _ (.inl (by rw [if_pos hs1]; exact List.mem_singleton.2 rfl))
                rw [g3] at this
                simp only [Trees.items, g4, if_true, List.append_nil] at this
                have t1 := this.trimmed (.default, s.text c) (by simp)
                have t2 := this.first (.default, s.text c) (by simp) rfl
                have t3 := this.last (.default, s.text c) (by simp) rfl
                exact collapse_gaps t1.2 (by simpa [startsSp] using t2) (by simpa [endsSp] using t3) _ _
                  (toSpace_gap o _ _) (toSpace_gap o _ _)
        · cases hs1 : K.startsText s with
          | true =>
            -- in `text`
            have hp : (p || startsText s n) = true := by
              cases K with
              | nil => cases hs1
              | cons c A B => exact w3.1 (by simpa [Trees.startsText] using hs1)
            rw [hp] at w3
            have hsame := wide_inside o w3
            have hit : K'.items u (u.spaceAt m sp) (u.spaceAt m sp) = K.items s (s.spaceAt n sp) (s.spaceAt n sp) := by
              rw [same_items h2 (leaves_texts w l2), hsp]
              exact items_texts hsame
            have hnorm := hn _ (.inl (by rw [if_pos hs1]; exact List.mem_singleton.2 rfl))
            rw [← hit] at hnorm
            have hnw : ∀ n ∈ K.pre, (s.withTexts w).nodeType n = .text → (s.withTexts w).text n ≠ [] := fun n hn ht => by
              rw [hsame n hn]; exact hneK n hn ht
            have hfix := normal_element hG hm hK dK (by rw [same_starts h2]; cases K <;> exact hs1) sp (same_notEmpty h2 hnw) hnorm
            rw [hst, hs1]
            simp only [if_true]
            have hpair : ∀ {A B : Trees}, A.Same (s.withTexts w) u Q B → (∀ j ∈ A.pre, (s.withTexts w).text j = s.text j) →
                (∀ j ∈ B.pre, u.elementT K' (u.spaceAt m sp) τ j = u.text j) →
                A.Paired (fun i j => s.nodeType i ≠ .element → u.elementT K' (u.spaceAt m sp) τ j = s.text i) B := by
              intro A
              induction A with
              | nil => intro B h _ _; cases B <;> first | trivial | exact h.elim
              | cons i A1 A2 ih1 ih2 =>
                intro B h ha hb
                cases B with
                | nil => exact h.elim
                | cons j B1 B2 =>
                  obtain ⟨e1, e2, e3⟩ := h
                  refine ⟨fun hi => ?_, ih1 e2 (fun x hx => ha x (by simp [Trees.pre, hx])) fun x hx => hb x (by simp [Trees.pre, hx]),
                    ih2 e3 (fun x hx => ha x (by simp [Trees.pre, hx])) fun x hx => hb x (by simp [Trees.pre, hx])⟩
                  rw [hb j (by simp [Trees.pre]), e1.text hi, ha i (by simp [Trees.pre])]
            refine hpair h2 hsame fun j hj => ?_
            rw [← hfix j hj]
            exact elementT_congr (fun i hi => hτ i (by simp [Trees.pre, hi])) j hj
          | false =>
            rw [hst, hs1, hsp]
            simp only [Bool.false_eq_true, if_false]
            exact tidy_wide hG h2 hK hkl dK l2 (fun g hg => hn g (.inl (by rw [hs1]; exact hg))) hneK w3
              fun j hj => hτ j (by simp [Trees.pre, hj])
      · have := l1 he
        subst this
        cases K' with
        | nil => trivial
        | cons _ _ _ => exact h2.elim
    have hrest := tidy_wide (o := o) (τ := if K'.textFirst u then u.elementT K' (u.spaceAt m sp) τ else K'.tidyT u (u.spaceAt m sp) τ) hG h3 hR
      (fun i hi => hl i (by simp [hi])) dR l3 (fun g hg => hn g (.inr hg)) (fun n hn => hne n (by simp [Trees.pre, hn])) w4
      (fun j hj => by rw [hstep j fun hjK => dKR j hjK j hj rfl]; exact hτ j (by simp [Trees.pre, hj]))
    refine ⟨fun hi => ?_, hkids.mono fun i j hj h hi => ?_, hrest⟩
    · rw [Trees.tidyT, tidyT_outside nR, hstep m nK, hτ m (by simp [Trees.pre]), h1.text hi, w2]
    · rw [Trees.tidyT, tidyT_outside fun hjR => dKR j hj j hjR rfl]
      exact h hi

end Svgdom
