import Verif.Props.BackExact
import Verif.Props.Rounds
import Verif.Spec.Settle
import Verif.Spec.XmlText

/-! One round of writing and parsing: everything but the texts comes back, and the texts only lose white space. -/

set_option autoImplicit false

namespace Svgdom

/-! ### Texts -/

/-- `a` is `b`, or what is left of it after some white space was taken away or replaced by spaces. -/
structure Thinner (a b : Str) : Prop where
  less : a = b ∨ blanks a < blanks b
  chars : ∀ c ∈ a, c ∈ b ∨ c = ' '

theorem Thinner.refl (a : Str) : Thinner a a := ⟨.inl rfl, fun _ h => .inl h⟩

theorem Thinner.trans {a b c : Str} (h : Thinner a b) (g : Thinner b c) : Thinner a c := by
  refine ⟨?_, fun x hx => ?_⟩
  · rcases h.less with rfl | h
    · exact g.less
    · rcases g.less with rfl | g
      · exact .inr h
      · exact .inr (by omega)
  · rcases h.chars x hx with h | h
    · exact g.chars x h
    · exact .inr h

theorem Thinner.le {a b : Str} (h : Thinner a b) : blanks a ≤ blanks b := by
  rcases h.less with rfl | h <;> omega

theorem Thinner.eq {a b : Str} (h : Thinner a b) (e : blanks a = blanks b) : a = b := by
  rcases h.less with h | h
  · exact h
  · omega

theorem Thinner.cons {a b : Str} (c : Char) (h : Thinner a b) : Thinner (c :: a) (c :: b) := by
  refine ⟨?_, fun x hx => ?_⟩
  · rcases h.less with rfl | h
    · exact .inl rfl
    · exact .inr (by simp only [blanks]; omega)
  · rcases List.mem_cons.1 hx with rfl | hx
    · exact .inl (by simp)
    · rcases h.chars x hx with h | h
      · exact .inl (by simp [h])
      · exact .inr h

theorem thinner_toSpace : ∀ t : Str, Thinner (t.map toSpace) t
  | [] => .refl _
  | c :: t => by
    have ih := thinner_toSpace t
    by_cases h : c = '\r' ∨ c = '\n' ∨ c = '\t'
    · have hc : c ≠ ' ' := by rcases h with rfl | rfl | rfl <;> decide
      have e : toSpace c = ' ' := by simp [toSpace, h]
      have := ih.le
      refine ⟨.inr ?_, fun x hx => ?_⟩
      · rw [List.map_cons, e]
        simp only [blanks, if_true, if_neg hc, if_pos h]
        omega
      · rw [List.map_cons, e] at hx
        rcases List.mem_cons.1 hx with rfl | hx
        · exact .inr rfl
        · rcases ih.chars x hx with h | h
          · exact .inl (by simp [h])
          · exact .inr h
    · have e : toSpace c = c := by simp [toSpace, h]
      rw [List.map_cons, e]
      exact ih.cons c

theorem thinner_drop (t : Str) : Thinner t (' ' :: t) := ⟨.inr (by simp [blanks]), fun c h => .inl (by simp [h])⟩

theorem thinner_squeeze : ∀ t : Str, Thinner (squeeze t) t
  | [] => .refl _
  | c :: t => by
    have ih := thinner_squeeze t
    rw [squeeze]
    split
    · next h => obtain ⟨rfl, _⟩ := h; exact ih.trans (thinner_drop t)
    · exact ih.cons c

theorem blanks_append (a b : Str) : blanks (a ++ b) = blanks a + blanks b := by
  induction a with
  | nil => simp [blanks]
  | cons c a ih => simp only [List.cons_append, blanks, ih]; omega

theorem thinner_shrunk {u t : Str} (h : Shrunk u t) : Thinner u t := by
  obtain ⟨a, b, rfl, ha, hb⟩ := h
  refine ⟨?_, fun c hc => .inl (by simp [hc])⟩
  have pos : ∀ x : Str, (∀ c ∈ x, c = ' ') → x ≠ [] → 0 < blanks x := by
    intro x hx hne
    cases x with
    | nil => exact absurd rfl hne
    | cons c x => simp only [blanks, hx c (by simp), if_true]; omega
  by_cases h1 : a = []
  · by_cases h2 : b = []
    · left; simp [h1, h2]
    · right
      have := pos b hb h2
      simp only [blanks_append]; omega
  · right
    have := pos a ha h1
    simp only [blanks_append]; omega

theorem thinner_spaced (m : XmlSpace) (t : Str) : Thinner (spaced m t) t := by
  cases m with
  | default => exact (thinner_squeeze _).trans (thinner_toSpace t)
  | preserve => exact thinner_toSpace t

/-- Text processing only takes white space away. -/
theorem text_thinner {s t : St} (h1 : SafeReachable s) (h2 : RootSafeReachable s) (h : TextReady s) (e : s.prepareText = .ok t)
    (j : NodeId) : Thinner (t.text j) (s.text j) := by
  by_cases hin : s.InTree j
  · by_cases hno : ∀ a, s.InTree a → StartsWithText s a → ¬ s.Ancestor a j
    · rw [C39_untouched_partial h1 h2 h e hno]; exact .refl _
    · simp only [not_forall, not_not] at hno
      obtain ⟨a, ha, hs, haj⟩ := hno
      obtain ⟨o, ho, hoa⟩ := exists_textRoot ⟨h1, h2⟩ ha hs
      obtain ⟨sp, F, K, hr⟩ := processed h1 h2 h e ho
      by_cases hjt : s.nodeType j = .text
      · have hoj : s.Ancestor o j := by
          rcases hoa with rfl | hoa
          · exact haj
          · exact haj.trans hoa
        exact (thinner_shrunk (hr.shrunk ((hr.mem hin.1).2 ⟨hoj, hjt⟩))).trans (thinner_spaced _ _)
      · rw [(C37_rest h1 h2 h e j).2.2.2.2 hjt]; exact .refl _
  · rw [text_outside h1 h2 h e hin]; exact .refl _

/-! ### `]]>` -/

theorem cdataEnd_cons {c : Char} {t : Str} : cdataEnd (c :: t) = true ↔ (∃ r, c :: t = ']' :: ']' :: '>' :: r) ∨ cdataEnd t = true := by
  rw [cdataEnd, Bool.or_eq_true, List.isPrefixOf_iff_prefix]
  refine or_congr ⟨fun ⟨r, h⟩ => ⟨r, h.symm⟩, fun ⟨r, h⟩ => ⟨r, h.symm⟩⟩ Iff.rfl

theorem cdataEnd_infix : ∀ {a u b : Str}, cdataEnd u = true → cdataEnd (a ++ u ++ b) = true
  | [], [], _, h => by simp [cdataEnd] at h
  | [], c :: u, b, h => by
    rw [List.nil_append, List.cons_append, cdataEnd_cons]
    rcases cdataEnd_cons.1 h with ⟨r, h⟩ | h
    · exact .inl ⟨r ++ b, by rw [← List.cons_append, h]; rfl⟩
    · exact .inr (cdataEnd_infix (a := []) h)
  | c :: a, u, b, h => by
    rw [List.cons_append, List.cons_append, cdataEnd_cons]
    exact .inr (cdataEnd_infix h)

theorem toSpace_eq {c d : Char} (h : toSpace c = d) (hd : d ≠ ' ') : c = d := by
  unfold toSpace at h
  split at h
  · exact absurd h.symm hd
  · exact h

theorem cdataEnd_toSpace : ∀ {t : Str}, cdataEnd (t.map toSpace) = true → cdataEnd t = true
  | [], h => h
  | c :: t, h => by
    rw [List.map_cons, cdataEnd_cons] at h
    rw [cdataEnd_cons]
    rcases h with ⟨r, h⟩ | h
    · left
      obtain ⟨h1, h2⟩ := List.cons.inj h
      obtain ⟨d, t, rfl, h3, h4⟩ := List.map_eq_cons_iff.1 h2
      obtain ⟨f, t, rfl, h5, h6⟩ := List.map_eq_cons_iff.1 h4
      exact ⟨t, by rw [toSpace_eq h1 (by decide), toSpace_eq h3 (by decide), toSpace_eq h5 (by decide)]⟩
    · exact .inr (cdataEnd_toSpace h)

theorem squeeze_cons {c : Char} {r : Str} (hc : c ≠ ' ') : ∀ {t : Str}, squeeze t = c :: r → ∃ t', t = c :: t' ∧ squeeze t' = r
  | [], h => by simp [squeeze] at h
  | d :: t, h => by
    rw [squeeze] at h
    split at h
    · next k => rw [h] at k; simp only [List.head?_cons, Option.some.injEq] at k; exact absurd k.2 hc
    · obtain ⟨rfl, h2⟩ := List.cons.inj h
      exact ⟨t, rfl, h2⟩

theorem cdataEnd_squeeze : ∀ {t : Str}, cdataEnd (squeeze t) = true → cdataEnd t = true
  | [], h => h
  | c :: t, h => by
    rw [cdataEnd_cons]
    rw [squeeze] at h
    split at h
    · exact .inr (cdataEnd_squeeze h)
    · rcases cdataEnd_cons.1 h with ⟨r, h⟩ | h
      · left
        obtain ⟨rfl, h2⟩ := List.cons.inj h
        obtain ⟨t, rfl, h3⟩ := squeeze_cons (by decide) h2
        obtain ⟨t, rfl, _⟩ := squeeze_cons (by decide) h3
        exact ⟨t, rfl⟩
      · exact .inr (cdataEnd_squeeze h)

/-- Text processing makes no `]]>`. -/
theorem text_cdata {s t : St} (h1 : SafeReachable s) (h2 : RootSafeReachable s) (h : TextReady s) (e : s.prepareText = .ok t)
    (j : NodeId) (hj : cdataEnd (s.text j) = false) : cdataEnd (t.text j) = false := by
  by_cases hin : s.InTree j
  · by_cases hno : ∀ a, s.InTree a → StartsWithText s a → ¬ s.Ancestor a j
    · rw [C39_untouched_partial h1 h2 h e hno]; exact hj
    · simp only [not_forall, not_not] at hno
      obtain ⟨a, ha, hs, haj⟩ := hno
      obtain ⟨o, ho, hoa⟩ := exists_textRoot ⟨h1, h2⟩ ha hs
      obtain ⟨sp, F, K, hr⟩ := processed h1 h2 h e ho
      by_cases hjt : s.nodeType j = .text
      · have hoj : s.Ancestor o j := by
          rcases hoa with rfl | hoa
          · exact haj
          · exact haj.trans hoa
        obtain ⟨x, y, hxy, _⟩ := hr.shrunk ((hr.mem hin.1).2 ⟨hoj, hjt⟩)
        rw [Bool.eq_false_iff] at hj ⊢
        intro hc
        have hc := cdataEnd_infix (a := x) (b := y) hc
        rw [← hxy] at hc
        refine hj ?_
        revert hc
        generalize s.modeOf j sp = m
        cases m with
        | default => exact fun hc => cdataEnd_toSpace (cdataEnd_squeeze hc)
        | preserve => exact fun hc => cdataEnd_toSpace hc
      · rw [(C37_rest h1 h2 h e j).2.2.2.2 hjt]; exact hj
  · rw [text_outside h1 h2 h e hin]; exact hj

/-! ### Counting -/

theorem same_blanks {s t : St} {Q : NodeId → NodeId → Prop} : ∀ {T U : Trees}, T.Same s t Q U → U.blanks t = T.blanks s
  | .nil, .nil, _ => rfl
  | .nil, .cons _ _ _, h => h.elim
  | .cons _ _ _, .nil, h => h.elim
  | .cons n K R, .cons m K' R', ⟨h1, h2, h3⟩ => by
    simp only [Trees.blanks, same_blanks h2, same_blanks h3, h1.type]
    by_cases ht : s.nodeType n = .text
    · rw [h1.text (by rw [ht]; decide)]
    · rw [if_neg ht, if_neg ht]

theorem keep_blanks {s t : St} {g : NodeId → Bool} : ∀ {U : Trees}, (∀ n ∈ U.pre, t.nodeType n = s.nodeType n) →
    (∀ n ∈ U.pre, s.nodeType n = .text → Thinner (t.text n) (s.text n) ∧ s.text n ≠ []) →
    (∀ n ∈ U.pre, g n = true → s.nodeType n = .text ∧ t.text n = []) →
    (U.keep g).blanks t ≤ U.blanks s ∧ ((U.keep g).blanks t = U.blanks s →
      ∀ n ∈ U.pre, g n = false ∧ (s.nodeType n = .text → t.text n = s.text n))
  | .nil, _, _, _ => ⟨Nat.le_refl _, fun _ n hn => by simp [Trees.pre] at hn⟩
  | .cons m K R, h1, h2, h3 => by
    simp only [Trees.pre, List.mem_cons, List.mem_append] at h1 h2 h3
    obtain ⟨k1, k2⟩ := keep_blanks (U := K) (fun n hn => h1 n (.inr (.inl hn))) (fun n hn => h2 n (.inr (.inl hn)))
      (fun n hn => h3 n (.inr (.inl hn)))
    obtain ⟨r1, r2⟩ := keep_blanks (U := R) (fun n hn => h1 n (.inr (.inr hn))) (fun n hn => h2 n (.inr (.inr hn)))
      (fun n hn => h3 n (.inr (.inr hn)))
    cases hg : g m with
    | true =>
      obtain ⟨a, b⟩ := h3 m (.inl rfl) hg
      obtain ⟨c, d⟩ := h2 m (.inl rfl) a
      have hlt : 0 < blanks (s.text m) := by
        rcases c.less with c | c
        · rw [b] at c; exact absurd c.symm d
        · omega
      simp only [Trees.keep, hg, if_true, Trees.blanks, a]
      exact ⟨by omega, fun e => by omega⟩
    | false =>
      simp only [Trees.keep, hg, Bool.false_eq_true, if_false, Trees.blanks, h1 m (.inl rfl)]
      by_cases ht : s.nodeType m = .text
      · have c := (h2 m (.inl rfl) ht).1
        have := c.le
        simp only [ht, if_true]
        refine ⟨by omega, fun e n hn => ?_⟩
        simp only [Trees.pre, List.mem_cons, List.mem_append] at hn
        rcases hn with rfl | hn | hn
        · exact ⟨hg, fun _ => c.eq (by omega)⟩
        · exact k2 (by omega) n hn
        · exact r2 (by omega) n hn
      · simp only [if_neg ht]
        refine ⟨by omega, fun e n hn => ?_⟩
        simp only [Trees.pre, List.mem_cons, List.mem_append] at hn
        rcases hn with rfl | hn | hn
        · exact ⟨hg, fun h => absurd h ht⟩
        · exact k2 (by omega) n hn
        · exact r2 (by omega) n hn

/-! ### The rest -/

theorem written_same {s t : St} {R : NodeId → NodeId → Prop} (W : ValueWriter) (i : AttributeId) {v w : AttributeValue}
    (h : SameValue R v w) (hid : ∀ m n, R m n → v.refersTo m = true → t.idOf n = s.idOf m) : t.written W i w = s.written W i v := by
  have hw : t.writeValue W w = s.writeValue W v := by
    cases h with
    | plain h => cases v <;> first | rfl | simp [AttributeValue.plain] at h
    | link h => simp only [St.writeValue, hid _ _ h (by simp [AttributeValue.refersTo])]
    | funcLink h => simp only [St.writeValue, hid _ _ h (by simp [AttributeValue.refersTo])]
    | paint fb h => simp only [St.writeValue, hid _ _ h (by simp [AttributeValue.refersTo])]
  by_cases hi : i = .Unicode
  · subst hi
    cases h with
    | plain h => cases v <;> rfl
    | link h => rfl
    | funcLink h => rfl
    | paint fb h => rfl
  · unfold St.written
    split
    · exact absurd rfl hi
    · exact absurd rfl hi
    · split
      · exact absurd rfl hi
      · exact absurd rfl hi
      · rw [hw]

theorem same_sep {s t : St} {Q : NodeId → NodeId → Prop} : ∀ {T U : Trees}, T.Same s t Q U → T.SepText s → U.SepText t
  | .nil, .nil, _, _ => trivial
  | .nil, .cons _ _ _, h, _ => h.elim
  | .cons _ _ _, .nil, h, _ => h.elim
  | .cons n K R, .cons m K' R', ⟨h1, h2, h3⟩, ⟨a, b, c⟩ => by
    refine ⟨same_sep h2 a, same_sep h3 b, ?_⟩
    cases R with
    | nil => cases R' with
      | nil => trivial
      | cons _ _ _ => exact h3.elim
    | cons r _ _ => cases R' with
      | nil => exact h3.elim
      | cons r' _ _ => simp only [h1.type, h3.1.type]; exact c

theorem keep_sep {s t : St} {g : NodeId → Bool} : ∀ {U : Trees}, (∀ n ∈ U.pre, t.nodeType n = s.nodeType n) →
    (∀ n ∈ U.pre, g n = true → s.nodeType n = .text) → U.SepText s →
    (U.keep g).SepText t
  | .nil, _, _, _ => trivial
  | .cons n K R, h1, h2, ⟨a, b, c⟩ => by
    simp only [Trees.pre, List.mem_cons, List.mem_append] at h1 h2
    have k1 := keep_sep (U := K) (fun n hn => h1 n (.inr (.inl hn))) (fun n hn => h2 n (.inr (.inl hn))) a
    have r1 := keep_sep (U := R) (fun n hn => h1 n (.inr (.inr hn))) (fun n hn => h2 n (.inr (.inr hn))) b
    rw [Trees.keep]
    split
    · exact r1
    · refine ⟨k1, r1, ?_⟩
      split
      · trivial
      · next m K' R' hm =>
        rintro ⟨hn, hmt⟩
        rw [h1 n (.inl rfl)] at hn
        have hmR : m ∈ R.pre := keep_pre_sub g R m (by rw [hm]; simp [Trees.pre])
        rw [h1 m (.inr (.inr hmR))] at hmt
        cases R with
        | nil => simp [Trees.keep] at hm
        | cons r RK RR =>
          have hr : s.nodeType r ≠ .text := fun hr => c ⟨hn, hr⟩
          have hgr : g r = false := by
            cases hg : g r with
            | false => rfl
            | true => exact absurd (h2 r (.inr (.inr (by simp [Trees.pre]))) hg) hr
          simp only [Trees.keep, hgr, Bool.false_eq_true, if_false, Trees.cons.injEq] at hm
          exact hr (hm.1 ▸ hmt)

theorem same_tops {s t : St} {Q : NodeId → NodeId → Prop} : ∀ {T U : Trees}, T.Same s t Q U →
    List.Forall₂ (SameNode s t Q) T.tops U.tops
  | .nil, .nil, _ => .nil
  | .nil, .cons _ _ _, h => h.elim
  | .cons _ _ _, .nil, h => h.elim
  | .cons _ _ _, .cons _ _ _, ⟨h1, _, h3⟩ => .cons h1 (same_tops h3)

theorem keep_tops (g : NodeId → Bool) : ∀ U : Trees, (U.keep g).tops = U.tops.filter fun j => !g j
  | .nil => rfl
  | .cons n K R => by
    rw [Trees.keep]
    cases hg : g n <;> simp [Trees.tops, hg, keep_tops g R]

theorem same_from {s t : St} {Q : NodeId → NodeId → Prop} : ∀ {T U : Trees}, T.Same s t Q U → ∀ j ∈ U.pre, ∃ i ∈ T.pre, SameNode s t Q i j
  | .nil, .nil, _, _, hj => by simp [Trees.pre] at hj
  | .nil, .cons _ _ _, h, _, _ => h.elim
  | .cons _ _ _, .nil, h, _, _ => h.elim
  | .cons n K R, .cons m K' R', ⟨h1, h2, h3⟩, j, hj => by
    simp only [Trees.pre, List.mem_cons, List.mem_append] at hj ⊢
    rcases hj with rfl | hj | hj
    · exact ⟨n, .inl rfl, h1⟩
    · obtain ⟨i, hi, h⟩ := same_from h2 j hj
      exact ⟨i, .inr (.inl hi), h⟩
    · obtain ⟨i, hi, h⟩ := same_from h3 j hj
      exact ⟨i, .inr (.inr hi), h⟩

theorem found_related {Q : NodeId → NodeId → Prop} {i : AttributeId} {m m' : NodeId} {fb : Option PaintFallback} {w : AttributeValue}
    (h : SameValue Q (foundValue i m fb) w) (hm : w.linkNode = some m') : w = foundValue i m' fb := by
  by_cases h1 : i = .Href
  · subst h1; cases h with
    | plain h => simp [foundValue, AttributeValue.plain] at h
    | link h => simp only [AttributeValue.linkNode, Option.some.injEq] at hm; rw [hm]; rfl
  by_cases h2 : i = .Fill
  · subst h2; cases h with
    | plain h => simp [foundValue, AttributeValue.plain] at h
    | paint _ h => simp only [AttributeValue.linkNode, Option.some.injEq] at hm; rw [hm]; rfl
  by_cases h3 : i = .Stroke
  · subst h3; cases h with
    | plain h => simp [foundValue, AttributeValue.plain] at h
    | paint _ h => simp only [AttributeValue.linkNode, Option.some.injEq] at hm; rw [hm]; rfl
  have e : ∀ m, foundValue i m fb = .funcLink m := by
    intro m
    unfold foundValue
    split <;> first | rfl | exact absurd rfl ‹_›
  rw [e] at h ⊢
  cases h with
  | plain h => simp [AttributeValue.plain] at h
  | funcLink h => simp only [AttributeValue.linkNode, Option.some.injEq] at hm; rw [hm]

theorem keep_indentable {s s' t : St} {Q : NodeId → NodeId → Prop} {g : NodeId → Bool} : ∀ {T U : Trees} {b : Bool}, T.Same s s' Q U →
    (∀ n ∈ (U.keep g).pre, t.nodeType n = s'.nodeType n ∧ t.tagName n = s'.tagName n) →
    (∀ n ∈ (U.keep g).pre, t.nodeType n ≠ .element → t.tagName n = .name []) →
    T.Indentable s b → (U.keep g).Indentable t b
  | .nil, .nil, _, _, _, _, _ => trivial
  | .nil, .cons _ _ _, _, h, _, _, _ => h.elim
  | .cons _ _ _, .nil, _, h, _, _, _ => h.elim
  | .cons n K R, .cons m K' R', b, ⟨h1, h2, h3⟩, hx, hy, ⟨i1, i2, i3, i4, i5⟩ => by
    cases hg : g m with
    | true =>
      simp only [Trees.keep, hg, if_true] at hx hy ⊢
      exact keep_indentable h3 hx hy i5
    | false =>
      simp only [Trees.keep, hg, Bool.false_eq_true, if_false, Trees.pre, List.mem_cons, List.mem_append] at hx hy ⊢
      have hK := fun b => keep_indentable (b := b) h2 (fun j hj => hx j (.inr (.inl hj))) (fun j hj => hy j (.inr (.inl hj)))
      have hR := keep_indentable h3 (fun j hj => hx j (.inr (.inr hj))) (fun j hj => hy j (.inr (.inr hj))) i5
      obtain ⟨e1, e2⟩ := hx m (.inl rfl)
      rw [h1.type] at e1
      by_cases he : s.nodeType n = .element
      · rw [h1.tag he] at e2
        refine ⟨by rw [e1]; exact i1, by rw [e2]; exact i2, by rw [e2]; exact i3, ?_, hR⟩
        rw [e1, e2]
        exact hK _ i4
      · have := hy m (.inl rfl) (by rw [e1]; exact he)
        refine ⟨by rw [e1]; exact i1, fun h => (by rw [this] at h; cases h), fun h => (by rw [this] at h; simp at h), ?_, hR⟩
        rw [e1]
        simp only [decide_eq_false he, Bool.false_and] at i4 ⊢
        exact hK _ i4

end Svgdom
