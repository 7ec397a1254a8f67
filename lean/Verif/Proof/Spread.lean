import Verif.Spec.Spread
import Verif.Proof.XmlBack
import Verif.Proof.Whole
import Verif.Props.TextBack

/-! Texts with the white space that is written around them. -/

set_option autoImplicit false

namespace Svgdom

/-! ### Other texts -/

/-- The same document with other texts. -/
def St.withTexts (s : St) (w : NodeId → Str) : St := { s with data := fun i => { s.data i with text := w i } }

theorem withTexts_text (s : St) (w : NodeId → Str) (i : NodeId) : (s.withTexts w).text i = w i := rfl

theorem withTexts_describes {s : St} {F : Forest} (w : NodeId → Str) (hF : Describes s F) : Describes (s.withTexts w) F :=
  ⟨hF.wf, ⟨hF.shows.parent, hF.shows.next, hF.shows.prev, hF.shows.first, hF.shows.last⟩⟩

theorem withTexts_acyclic {s : St} (w : NodeId → Str) (ha : s.Acyclic) : (s.withTexts w).Acyclic := ha

theorem withTexts_reachable {s : St} (h : Reachable s) (w : NodeId → Str) : ∀ l : List NodeId, (∀ i ∈ l, s.live i = true ∧ s.nodeType i ≠ .element) →
    Reachable (s.withTexts fun i => if i ∈ l then w i else s.text i)
  | [], _ => by
    have : (s.withTexts fun i => if i ∈ ([] : List NodeId) then w i else s.text i) = s := by
      simp only [St.withTexts, List.not_mem_nil, if_false]
      rfl
    rw [this]; exact h
  | a :: l, hl => by
    have ih := withTexts_reachable h w l fun i hi => hl i (by simp [hi])
    obtain ⟨h1, h2⟩ := hl a (by simp)
    refine .call (.setText a (w a)) ih (fun i hi => by
      simp only [Op.handles, List.mem_singleton] at hi
      rw [hi]; exact h1) ?_
    have hne : (s.withTexts fun i => if i ∈ l then w i else s.text i).isElement a = false := by
      show decide (s.nodeType a = .element) = false
      simpa using h2
    have : ((s.withTexts fun i => if i ∈ l then w i else s.text i).setD a fun d => { d with text := w a }) =
        s.withTexts fun i => if i ∈ a :: l then w i else s.text i := by
      simp only [St.withTexts, St.setD]
      congr 1
      funext i
      by_cases hi : i = a
      · subst hi; simp
      · simp [hi, upd_ne]
    simp only [Op.run, St.setText, hne, St.debugAssert, Bool.not_false, Bool.not_true, Bool.and_false, this]
    rfl

/-! ### White space around texts -/

/-- A text on its own. -/
def Trees.soleText (s : St) : Trees → Bool
  | cons c nil nil => decide (s.nodeType c = .text)
  | _ => false

theorem soleText_iff {s : St} {K : Trees} : K.soleText s = true ↔ ∃ c, K = .cons c .nil .nil ∧ s.nodeType c = .text := by
  constructor
  · intro h
    unfold Trees.soleText at h
    split at h
    · next c => exact ⟨c, rfl, of_decide_eq_true h⟩
    · cases h
  · rintro ⟨c, rfl, h⟩
    simpa [Trees.soleText] using h

/-- The texts with white space around them. -/
def Trees.wtext (o : XmlOptions) (s : St) (p : Bool) (d : Nat) : Trees → NodeId → Str
  | nil, j => s.text j
  | cons i K R, j =>
    if j ∈ K.pre then
      if p = false ∧ Svgdom.startsText s i = false ∧ K.soleText s = true then gap o false (d + 1) ++ s.text j ++ gap o false d
      else K.wtext o s (p || Svgdom.startsText s i) (d + 1) j
    else R.wtext o s p d j

theorem wtext_outside (o : XmlOptions) {s : St} : ∀ {T : Trees} {p : Bool} {d : Nat} {j : NodeId}, j ∉ T.pre → T.wtext o s p d j = s.text j
  | .nil, _, _, _, _ => rfl
  | .cons i K R, p, d, j, h => by
    simp only [Trees.pre, List.mem_cons, List.mem_append, not_or] at h
    rw [Trees.wtext, if_neg h.2.1, wtext_outside o h.2.2]

theorem wtext_other (o : XmlOptions) {s : St} : ∀ {T : Trees} {p : Bool} {d : Nat} {j : NodeId}, s.nodeType j ≠ .text → T.wtext o s p d j = s.text j
  | .nil, _, _, _, _ => rfl
  | .cons i K R, p, d, j, h => by
    rw [Trees.wtext]
    split
    · next hj =>
      split
      · next hc =>
        obtain ⟨c, rfl, hct⟩ := soleText_iff.1 hc.2.2
        simp only [Trees.pre, List.append_nil, List.mem_singleton] at hj
        subst hj
        exact absurd hct h
      · exact wtext_other o h
    · exact wtext_other o h

/-- The shape of the texts. -/
theorem wtext_form (o : XmlOptions) {s : St} : ∀ {T : Trees} {p : Bool} {d : Nat} {j : NodeId}, ∃ a b p' d' p'' d'', T.wtext o s p d j = a ++ s.text j ++ b ∧
      (a = [] ∨ a = gap o p' d') ∧ (b = [] ∨ b = gap o p'' d'')
  | .nil, _, _, _ => ⟨[], [], true, 0, true, 0, by simp [Trees.wtext], .inl rfl, .inl rfl⟩
  | .cons i K R, p, d, j => by
    rw [Trees.wtext]
    split
    · split
      · exact ⟨_, _, _, _, _, _, rfl, .inr rfl, .inr rfl⟩
      · exact wtext_form o
    · exact wtext_form o

/-- `s'` has the texts of `s`, with white space around those that are alone. -/
def Trees.Wide (o : XmlOptions) (s s' : St) (sp : XmlSpace) (p : Bool) (d : Nat) : Trees → Prop
  | nil => True
  | cons i K R =>
    (s.nodeType i = .text → p = true) ∧ s'.text i = s.text i ∧
      ((p = false ∧ s.nodeType i = .element ∧ Svgdom.startsText s i = false ∧ s.spaceAt i sp = .default ∧
        ∃ c, K = .cons c .nil .nil ∧ s.nodeType c = .text ∧ s'.text c = gap o false (d + 1) ++ s.text c ++ gap o false d) ∨
        K.Wide o s s' (s.spaceAt i sp) (p || Svgdom.startsText s i) (d + 1)) ∧
      R.Wide o s s' sp p d

theorem wide_of (o : XmlOptions) {s s' : St} : ∀ {T : Trees} {sp : XmlSpace} {p : Bool} {d : Nat}, T.pre.Nodup → T.Spread s sp p →
    (∀ j ∈ T.pre, s'.text j = T.wtext o s p d j) → T.Wide o s s' sp p d
  | .nil, _, _, _, _, _, _ => trivial
  | .cons i K R, sp, p, d, hnd, h, hw => by
    simp only [Trees.pre, List.nodup_cons, List.nodup_append, List.mem_append, not_or] at hnd
    obtain ⟨⟨nK, nR⟩, dK, dR, dKR⟩ := hnd
    obtain ⟨h1, h2, h3, h4, h5⟩ := h
    refine ⟨h1, ?_, ?_, ?_⟩
    · rw [hw i (by simp [Trees.pre]), Trees.wtext, if_neg nK, wtext_outside o nR]
    · by_cases hs : p = false ∧ startsText s i = false ∧ K.soleText s = true
      · rcases h4 with h4 | h4
        · obtain ⟨c, rfl, hc⟩ := soleText_iff.1 hs.2.2
          have := h4.1 hc
          rw [show (p || (decide (s.nodeType i = .element) && decide (s.tagName i = .id .Text))) = (p || startsText s i) from rfl, hs.1, hs.2.1] at this
          cases this
        · obtain ⟨g1, g2, g3, g4, c, rfl, g5, g6⟩ := h4
          refine .inl ⟨hs.1, g1, hs.2.1, g4, c, rfl, g5, ?_⟩
          rw [hw c (by simp [Trees.pre]), Trees.wtext, if_pos (by simp [Trees.pre]), if_pos hs]
      · rcases h4 with h4 | h4
        · refine .inr (wide_of o dK h4 fun j hj => ?_)
          rw [hw j (by simp [Trees.pre, hj]), Trees.wtext, if_pos hj, if_neg hs]
        · obtain ⟨g1, g2, g3, g4, c, rfl, g5, g6⟩ := h4
          exact absurd ⟨g3, by simp [startsText, g2], soleText_iff.2 ⟨c, rfl, g5⟩⟩ hs
    · refine wide_of o dR h5 fun j hj => ?_
      rw [hw j (by simp [Trees.pre, hj]), Trees.wtext, if_neg fun hjK => dKR j hjK j hj rfl]

/-- Inside of `text` nothing is added. -/
theorem wide_inside (o : XmlOptions) {s s' : St} : ∀ {T : Trees} {sp : XmlSpace} {d : Nat}, T.Wide o s s' sp true d →
    ∀ j ∈ T.pre, s'.text j = s.text j
  | .nil, _, _, _, j, hj => by simp [Trees.pre] at hj
  | .cons i K R, sp, d, h, j, hj => by
    obtain ⟨h1, h2, h3, h4⟩ := h
    simp only [Trees.pre, List.mem_cons, List.mem_append] at hj
    rcases hj with rfl | hj | hj
    · exact h2
    · rcases h3 with h3 | h3
      · cases h3.1
      · exact wide_inside o h3 j hj
    · exact wide_inside o h4 j hj

/-! ### Characters -/

/-- White space is kept below these nodes. -/
def keepsSpace (s : St) (F : Forest) (i : NodeId) : Bool := startsText s i || (F.kids i).any fun c => decide (s.nodeType c = .text)

theorem escapeText_append : ∀ a b : Str, escapeText (a ++ b) = escapeText a ++ escapeText b
  | [], b => rfl
  | c :: a, b => by rw [List.cons_append, escapeText_cons, escapeText_cons, escapeText_append a b, List.append_assoc]

theorem escapeText_space {t : Str} (h : ∀ c ∈ t, xmlSpace c = true) : escapeText t = t := by
  induction t with
  | nil => rfl
  | cons c t ih => rw [escapeText_cons, ih fun d hd => h d (by simp [hd]), if_neg (space_ne (h c (by simp))).1]; rfl

theorem escapeText_gap (o : XmlOptions) (p : Bool) (d : Nat) : escapeText (gap o p d) = gap o p d :=
  escapeText_space fun c hc => (gap_space o p d c hc).1

theorem wide_tops {o : XmlOptions} {s s' : St} : ∀ {T : Trees} {sp : XmlSpace} {d : Nat}, T.Wide o s s' sp false d → ∀ c ∈ T.tops, s.nodeType c ≠ .text
  | .nil, _, _, _, c, hc => by simp [Trees.tops] at hc
  | .cons i K R, sp, d, h, c, hc => by
    simp only [Trees.tops, List.mem_cons] at hc
    rcases hc with rfl | hc
    · intro ht; cases h.1 ht
    · exact wide_tops h.2.2.2 c hc

/-- Where the white space is kept is as in `text`, or nothing is there. -/
theorem keepsSpace_wide {o : XmlOptions} {s s' : St} {F : Forest} {i : NodeId} {K : Trees} {sp : XmlSpace} {p : Bool} {d : Nat} (hK : K.Of F (F.kids i))
    (h : K.Wide o s s' sp (p || startsText s i) d) : (p || keepsSpace s F i) = (p || startsText s i) := by
  unfold keepsSpace
  cases hp : (p || startsText s i) with
  | true => rw [← Bool.or_assoc, hp]; rfl
  | false =>
    rw [← Bool.or_assoc, hp, Bool.false_or, List.any_eq_false]
    rw [hp] at h
    intro c hc
    rw [← tops_of hK] at hc
    simpa using wide_tops h c hc

theorem chars_wide (o : XmlOptions) {s : St} {w : NodeId → Str} {F : Forest} {name : NodeId → Str} {attrs : NodeId → List Ev} :
    ∀ {T : Trees} {l : List NodeId} {sp : XmlSpace} {p : Bool} {d : Nat}, T.Of F l → T.Wide o s (s.withTexts w) sp p d →
    T.chars o s (startsText s) name attrs p d = T.chars o (s.withTexts w) (keepsSpace s F) name attrs p d
  | .nil, _, _, _, _, _, _ => rfl
  | .cons i K R, l, sp, p, d, hT, h => by
    obtain ⟨l', rfl, hK, hR⟩ := hT
    obtain ⟨h1, h2, h3, h4⟩ := h
    have ihR := chars_wide o (name := name) (attrs := attrs) hR h4
    have hty : (s.withTexts w).nodeType i = s.nodeType i := rfl
    simp only [Trees.chars, ihR, hty, h2]
    congr 1
    cases ht : s.nodeType i with
    | root => rfl
    | comment => rfl
    | text => rfl
    | element =>
      simp only
      rcases h3 with ⟨g1, _, g2, g3, c, rfl, g4, g5⟩ | h3
      · have hk : keepsSpace s F i = true := by
          rw [keepsSpace, ← tops_of hK]
          simp [Trees.tops, g4]
        have hcy : (s.withTexts w).nodeType c = .text := g4
        simp only [Trees.isNil, Trees.chars, g1, g2, hk, g4, hcy, g5, Bool.or_self, Bool.or_true, gap_tight (o := o) (p := true) (.inr rfl),
          escapeText_append, escapeText_gap]
        simp
      · rw [keepsSpace_wide hK h3, chars_wide o hK h3]

theorem fits_wide {o : XmlOptions} {s : St} {w : NodeId → Str} {F : Forest} : ∀ {T : Trees} {l : List NodeId} {sp : XmlSpace} {p : Bool} {d : Nat},
    T.Of F l → T.Spread s sp p → T.Wide o s (s.withTexts w) sp p d → T.Fits (s.withTexts w) (keepsSpace s F) p
  | .nil, _, _, _, _, _, _, _ => trivial
  | .cons i K R, l, sp, p, d, hT, hs, h => by
    obtain ⟨l', rfl, hK, hR⟩ := hT
    obtain ⟨h1, h2, h3, h4⟩ := h
    obtain ⟨_, t1, t2, t3, t4⟩ := hs
    refine ⟨h1, fun he ht => ?_, ?_, fits_wide hR t4 h4⟩
    · rcases ht with ht | ht
      · have : startsText s i = true := by simpa [startsText] using ⟨he, ht⟩
        simp [keepsSpace, this]
      · simp [t2 ht]
    · rcases h3 with ⟨g1, _, g2, g3, c, rfl, g4, g5⟩ | h3
      · have hk : keepsSpace s F i = true := by
          rw [keepsSpace, ← tops_of hK]
          simp [Trees.tops, g4]
        rw [hk, Bool.or_true]
        refine ⟨fun _ => rfl, fun _ _ => rfl, trivial, trivial⟩
      · rw [keepsSpace_wide hK h3]
        rcases t3 with t3 | t3
        · exact fits_wide hK t3 h3
        · obtain ⟨a1, a2, a3, a4, c, rfl, a5, a6⟩ := t3
          have := h3.1 a5
          rw [this]
          exact ⟨fun _ => rfl, fun _ _ => rfl, trivial, trivial⟩

theorem apart_spread {s : St} : ∀ {T : Trees} {sp : XmlSpace} {p : Bool}, T.Spread s sp p → T.Apart s p
  | .nil, _, _, _ => trivial
  | .cons i K R, sp, p, h => by
    obtain ⟨_, h2, _, h4, h5⟩ := h
    refine ⟨h2, ?_, apart_spread h5⟩
    rcases h4 with h4 | ⟨_, _, _, _, c, rfl, _, hc⟩
    · exact apart_spread h4
    · exact ⟨fun h => absurd h hc, trivial, trivial⟩

end Svgdom
