import Verif.Model.Text
import Verif.Proof.Parse
import Verif.Spec.Text

/-! Pairs of texts, without the document: what `processPairs` does to the texts. -/

set_option autoImplicit false

namespace Svgdom

/-! ### Spaces in strings -/

def endsSp (t : Str) : Bool := decide (t.getLast? = some ' ')
def startsSp (t : Str) : Bool := decide (t.head? = some ' ')

theorem endsSp_iff {t : Str} : endsSp t = true ↔ ∃ a, t = a ++ [' '] := by
  simp only [endsSp, decide_eq_true_eq]
  constructor
  · intro h
    obtain ⟨a, rfl⟩ := List.getLast?_eq_some_iff.1 h
    exact ⟨a, rfl⟩
  · rintro ⟨a, rfl⟩; simp

theorem startsSp_iff {t : Str} : startsSp t = true ↔ ∃ b, t = ' ' :: b := by
  simp only [startsSp, decide_eq_true_eq]
  cases t with
  | nil => simp
  | cons c cs => simp

theorem NoDouble.nil : NoDouble [] := by intro a b; simp

theorem NoDouble.left {a b : Str} (h : NoDouble (a ++ b)) : NoDouble a := by
  rintro x y rfl
  exact h x (y ++ b) (by simp)

theorem NoDouble.right {a b : Str} (h : NoDouble (a ++ b)) : NoDouble b := by
  rintro x y rfl
  exact h (a ++ x) y (by simp)

theorem noDouble_cons {c : Char} {t : Str} : NoDouble (c :: t) ↔ ¬ (c = ' ' ∧ startsSp t = true) ∧ NoDouble t := by
  constructor
  · intro h
    refine ⟨?_, NoDouble.right (a := [c]) h⟩
    rintro ⟨rfl, hs⟩
    obtain ⟨b, rfl⟩ := startsSp_iff.1 hs
    exact h [] b rfl
  · rintro ⟨h1, h2⟩ a b e
    cases a with
    | nil =>
      simp only [List.nil_append, List.cons_append, List.cons.injEq] at e
      exact h1 ⟨e.1, startsSp_iff.2 ⟨b, e.2⟩⟩
    | cons x a =>
      simp only [List.cons_append, List.cons.injEq] at e
      exact h2 a b (by rw [e.2])

/-- Two strings can be joined unless both have a space at the border. -/
theorem noDouble_append : ∀ {a b : Str}, NoDouble (a ++ b) ↔ NoDouble a ∧ NoDouble b ∧ ¬ (endsSp a = true ∧ startsSp b = true)
  | [], b => by simp [NoDouble.nil, endsSp]
  | c :: a, b => by
    rw [List.cons_append, noDouble_cons, noDouble_cons, noDouble_append]
    cases a with
    | nil => simp [startsSp, endsSp, NoDouble.nil]; exact and_comm
    | cons d a =>
      have h1 : endsSp (c :: d :: a) = endsSp (d :: a) := by simp [endsSp]
      have h2 : startsSp (d :: a ++ b) = startsSp (d :: a) := by simp [startsSp]
      rw [h1, h2]; exact and_assoc.symm

/-! ### Squeezing -/

theorem squeeze_cons_space (t : Str) : squeeze (' ' :: ' ' :: t) = squeeze (' ' :: t) := by
  have : (squeeze (' ' :: t)).head? = some ' ' := by
    simp only [squeeze]
    split
    · next h => exact h.2
    · rfl
  rw [squeeze, if_pos ⟨rfl, this⟩]

theorem squeeze_append_congr (a : Str) {b c : Str} (h : squeeze b = squeeze c) : squeeze (a ++ b) = squeeze (a ++ c) := by
  induction a with
  | nil => exact h
  | cons x a ih => simp only [List.cons_append, squeeze, ih]

/-- Of two spaces in a row one can be left out. -/
theorem squeeze_pair (a b : Str) : squeeze (a ++ ' ' :: ' ' :: b) = squeeze (a ++ ' ' :: b) :=
  squeeze_append_congr a (squeeze_cons_space b)

theorem squeeze_of_noDouble : ∀ {t : Str}, NoDouble t → squeeze t = t
  | [], _ => rfl
  | c :: cs, h => by
    obtain ⟨h1, h2⟩ := noDouble_cons.1 h
    have ih := squeeze_of_noDouble h2
    simp only [squeeze, ih]
    rw [if_neg]
    intro hx
    exact h1 ⟨hx.1, by simp [startsSp, hx.2]⟩

theorem noDouble_squeeze : ∀ t : Str, NoDouble (squeeze t)
  | [] => NoDouble.nil
  | c :: cs => by
    have ih := noDouble_squeeze cs
    simp only [squeeze]
    split
    · exact ih
    · next h => exact noDouble_cons.2 ⟨fun hx => h ⟨hx.1, of_decide_eq_true hx.2⟩, ih⟩

theorem squeeze_nil {t : Str} : squeeze t = [] ↔ t = [] := by
  constructor
  · intro h
    induction t with
    | nil => rfl
    | cons c cs ih =>
      simp only [squeeze] at h
      split at h
      · next hx => rw [h] at hx; simp at hx
      · simp at h
  · rintro rfl; rfl

theorem squeeze_starts (t : Str) : startsSp (squeeze t) = startsSp t := by
  cases t with
  | nil => rfl
  | cons c cs =>
    simp only [squeeze]
    split
    · next h => simp [startsSp, h.1, h.2]
    · rfl

theorem squeeze_ends : ∀ t : Str, endsSp (squeeze t) = endsSp t
  | [] => rfl
  | [c] => by simp [squeeze]
  | c :: d :: cs => by
    have ih := squeeze_ends (d :: cs)
    have h1 : endsSp (c :: d :: cs) = endsSp (d :: cs) := by simp [endsSp]
    rw [h1, ← ih]
    have hne : squeeze (d :: cs) ≠ [] := by rw [Ne, squeeze_nil]; simp
    rw [squeeze]
    split
    · rfl
    · cases hx : squeeze (d :: cs) with
      | nil => exact absurd hx hne
      | cons a l => simp [endsSp]

/-- Adding a space at the end of a string before squeezing. -/
theorem squeeze_snoc (t : Str) : squeeze (t ++ [' ']) = if endsSp t then squeeze t else squeeze t ++ [' '] := by
  by_cases h : endsSp t = true
  · rw [if_pos h]
    obtain ⟨a, rfl⟩ := endsSp_iff.1 h
    have := squeeze_pair a []
    simpa using this
  · rw [if_neg h]
    have hn : NoDouble (squeeze t ++ [' ']) := by
      rw [noDouble_append]
      exact ⟨noDouble_squeeze t, by rw [noDouble_cons]; exact ⟨by simp [startsSp], NoDouble.nil⟩, fun hx => h (by rw [← squeeze_ends]; exact hx.1)⟩
    induction t with
    | nil => rfl
    | cons c cs ih =>
      cases cs with
      | nil =>
        have : ¬ c = ' ' := by simpa [endsSp] using h
        simp [squeeze, this]
      | cons d cs =>
        have h1 : endsSp (c :: d :: cs) = endsSp (d :: cs) := by simp [endsSp]
        rw [h1] at h
        have hs := squeeze_starts (d :: cs)
        have ih' := ih h (by
          rw [noDouble_append]
          exact ⟨noDouble_squeeze _, by rw [noDouble_cons]; exact ⟨by simp [startsSp], NoDouble.nil⟩, fun hx => h (by rw [← squeeze_ends]; exact hx.1)⟩)
        rw [List.cons_append, squeeze, ih', squeeze.eq_2 c]
        have hne : squeeze (d :: cs) ≠ [] := by rw [Ne, squeeze_nil]; simp
        have hh : (squeeze (d :: cs) ++ [' ']).head? = (squeeze (d :: cs)).head? := by
          cases hx : squeeze (d :: cs) with
          | nil => exact absurd hx hne
          | cons a l => rfl
        rw [hh]
        split <;> rfl

/-! ### Stripping -/

def stripStart (t : Str) : Str := t.dropWhile (· == ' ')

theorem stripStart_space (t : Str) : stripStart (' ' :: t) = stripStart t := by simp [stripStart]

theorem stripStart_none {t : Str} (h : startsSp t = false) : stripStart t = t := by
  cases t with
  | nil => rfl
  | cons c cs =>
    have : ¬ c = ' ' := by simpa [startsSp] using h
    simp [stripStart, this]

theorem strip_eq (t : Str) : strip t = (stripStart (stripStart t).reverse).reverse := rfl

theorem strip_cons (t : Str) : strip (' ' :: t) = strip t := by rw [strip_eq, strip_eq, stripStart_space]

theorem stripStart_snoc (t : Str) : stripStart (t ++ [' ']) = [] ∧ stripStart t = [] ∨ stripStart (t ++ [' ']) = stripStart t ++ [' '] := by
  induction t with
  | nil => left; exact ⟨rfl, rfl⟩
  | cons c cs ih =>
    by_cases hc : c = ' '
    · subst hc
      rw [List.cons_append, stripStart_space, stripStart_space]; exact ih
    · right; simp [stripStart, hc]

theorem strip_snoc (t : Str) : strip (t ++ [' ']) = strip t := by
  rw [strip_eq, strip_eq]
  rcases stripStart_snoc t with ⟨h1, h2⟩ | h
  · rw [h1, h2]
  · rw [h, List.reverse_append]
    exact congrArg List.reverse (stripStart_space _)

theorem startsSp_reverse (t : Str) : startsSp t.reverse = endsSp t := by simp [startsSp, endsSp]

theorem strip_none {t : Str} (h1 : startsSp t = false) (h2 : endsSp t = false) : strip t = t := by
  rw [strip_eq, stripStart_none h1, stripStart_none (by rw [startsSp_reverse]; exact h2), List.reverse_reverse]

theorem collapse_cons (t : Str) : strip (squeeze (' ' :: t)) = strip (squeeze t) := by
  simp only [squeeze]
  split
  · rfl
  · exact strip_cons _

theorem collapse_snoc (t : Str) : strip (squeeze (t ++ [' '])) = strip (squeeze t) := by
  rw [squeeze_snoc]
  split
  · rfl
  · exact strip_snoc _

theorem collapse_normal {t : Str} (hn : NoDouble t) (h1 : startsSp t = false) (h2 : endsSp t = false) : strip (squeeze t) = t := by
  rw [squeeze_of_noDouble hn, strip_none h1 h2]

/-! ### One pair -/

/-- What the border of two texts `u` and `w` loses. -/
def borderP (lt : Bool) (sp1 sp2 : XmlSpace) (u w : Str) : Str × Str :=
  if endsSp u && startsSp w then
    if lt then (if sp2 = .default then (u, w.tail) else (u, w))
    else if sp1 = .default ∧ sp2 = .default then (u.dropLast, w)
    else if sp1 = .preserve ∧ sp2 = .default then (u, w.tail)
    else (u, w)
  else (u, w)

/-- What the ends lose. -/
def endsP (first last : Bool) (sp1 sp2 : XmlSpace) (c1 c4 : Bool) (u w : Str) : Str × Str :=
  if first && c1 && decide (sp1 = .default) && !u.isEmpty then (u.tail, w)
  else if last && c4 && !w.isEmpty && decide (sp2 = .default) then (u, w.dropLast)
  else (u, w)

/-- What the last text but one loses if the last is empty. -/
def tailP (last c2 : Bool) (u w : Str) : Str × Str :=
  if last && c2 && !u.isEmpty && w.isEmpty && endsSp u then (u.dropLast, w) else (u, w)

/-- One step of the loop. -/
def pairP (first last lt : Bool) (sp1 sp2 : XmlSpace) (u w : Str) : Str × Str :=
  let p := borderP lt sp1 sp2 u w
  let q := endsP first last sp1 sp2 (startsSp u) (endsSp w) p.1 p.2
  tailP last (endsSp u) q.1 q.2

theorem startsSp_append {a : Str} (b : Str) (h : a ≠ []) : startsSp (a ++ b) = startsSp a := by
  cases a with
  | nil => exact absurd rfl h
  | cons c a => rfl

theorem endsSp_append (a : Str) {b : Str} (h : b ≠ []) : endsSp (a ++ b) = endsSp b := by
  simp only [endsSp, List.getLast?_append]
  cases hb : b.getLast? with
  | none => exact absurd (List.getLast?_eq_none_iff.1 hb) h
  | some c => simp

theorem noDouble_snoc {a : Str} (h : NoDouble (a ++ [' '])) : endsSp a = false := by
  cases hx : endsSp a with
  | false => rfl
  | true => exact absurd ⟨hx, rfl⟩ (noDouble_append.1 h).2.2

theorem noDouble_space {b : Str} (h : NoDouble (' ' :: b)) : startsSp b = false := by
  cases hx : startsSp b with
  | false => rfl
  | true => exact absurd ⟨rfl, hx⟩ (noDouble_cons.1 h).1

/-- The border, both texts in default mode. -/
theorem border_ok {A u w : Str} (lt : Bool) (h1 : NoDouble (A ++ u)) (h2 : NoDouble w) (hu : u ≠ []) :
    ∃ u1 w1, borderP lt .default .default u w = (u1, w1) ∧ NoDouble (A ++ u1 ++ w1) ∧
      (∀ X, squeeze (A ++ u1 ++ w1 ++ X) = squeeze (A ++ u ++ w ++ X)) ∧
      (u1 = u ∨ (u = u1 ++ [' '] ∧ lt = false ∧ startsSp w = true)) ∧
      (w1 = w ∨ (w = ' ' :: w1 ∧ lt = true)) := by
  by_cases hb : (endsSp u && startsSp w) = true
  · rw [Bool.and_eq_true] at hb
    obtain ⟨v, rfl⟩ := endsSp_iff.1 hb.1
    obtain ⟨x, rfl⟩ := startsSp_iff.1 hb.2
    cases lt with
    | true =>
      refine ⟨v ++ [' '], x, by simp [borderP, hb.1, hb.2], ?_, ?_, .inl rfl, .inr ⟨rfl, rfl⟩⟩
      · rw [noDouble_append]
        refine ⟨h1, (noDouble_cons.1 h2).2, fun hx => ?_⟩
        rw [noDouble_space h2] at hx; simp at hx
      · intro X
        have := squeeze_pair (A ++ v) (x ++ X)
        simp only [List.append_assoc, List.cons_append, List.nil_append] at this ⊢
        exact this.symm
    | false =>
      refine ⟨v, ' ' :: x, by simp [borderP, hb.1, hb.2], ?_, ?_, .inr ⟨rfl, rfl, hb.2⟩, .inl rfl⟩
      · rw [noDouble_append]
        rw [← List.append_assoc] at h1
        refine ⟨h1.left, h2, fun hx => ?_⟩
        rw [noDouble_snoc h1] at hx; simp at hx
      · intro X
        have := squeeze_pair (A ++ v) (x ++ X)
        simp only [List.append_assoc, List.cons_append, List.nil_append] at this ⊢
        exact this.symm
  · refine ⟨u, w, by simp only [borderP, if_neg hb], ?_, fun _ => rfl, .inl rfl, .inl rfl⟩
    rw [noDouble_append]
    refine ⟨h1, h2, fun hx => hb ?_⟩
    rw [endsSp_append A hu] at hx
    rw [hx.1, hx.2]; rfl

/-- A pair in the middle of the list. -/
theorem pair_middle {A u w : Str} (lt : Bool) (h1 : NoDouble (A ++ u)) (h2 : NoDouble w) (hu : u ≠ [])
    (hs : startsSp (A ++ u) = false) :
    ∃ u1 w1, pairP false false lt .default .default u w = (u1, w1) ∧ NoDouble (A ++ u1 ++ w1) ∧
      startsSp (A ++ u1 ++ w1) = false ∧
      (∀ X, squeeze (A ++ u1 ++ w1 ++ X) = squeeze (A ++ u ++ w ++ X)) ∧
      (u1 = u ∨ u = u1 ++ [' ']) ∧ (w1 = w ∨ w = ' ' :: w1) := by
  obtain ⟨u1, w1, e, hn, hq, hu1, hw1⟩ := border_ok lt h1 h2 hu
  refine ⟨u1, w1, by simp [pairP, e, endsP, tailP], hn, ?_, hq, hu1.imp_right And.left, hw1.imp_right And.left⟩
  rcases hu1 with rfl | ⟨rfl, -⟩
  · rw [startsSp_append _ (by simp [hu])]; exact hs
  · rw [← List.append_assoc] at hs
    by_cases hx : A ++ u1 = []
    · rw [hx] at hs; simp [startsSp] at hs
    · rw [startsSp_append _ hx]
      rw [startsSp_append _ hx] at hs; exact hs

/-- The last pair. -/
theorem pair_last {A u w : Str} (first lt : Bool) (h1 : NoDouble (A ++ u)) (h2 : NoDouble w) (hu : u ≠ [])
    (hf : (first && startsSp u) = false) (hs : startsSp (A ++ u) = false) :
    ∃ u1 w1, pairP first true lt .default .default u w = (u1, w1) ∧
      A ++ u1 ++ w1 = strip (squeeze (A ++ u ++ w)) := by
  obtain ⟨u1, w1, e, hn, hq, hu1, hw1⟩ := border_ok lt h1 h2 hu
  have hstart : startsSp (A ++ u1 ++ w1) = false := by
    rcases hu1 with rfl | ⟨rfl, -⟩
    · rw [startsSp_append _ (by simp [hu])]; exact hs
    · rw [← List.append_assoc] at hs
      by_cases hx : A ++ u1 = []
      · rw [hx] at hs; simp [startsSp] at hs
      · rw [startsSp_append _ hx]
        rw [startsSp_append _ hx] at hs; exact hs
  have hq' : squeeze (A ++ u1 ++ w1) = squeeze (A ++ u ++ w) := by simpa using hq []
  -- dropping a space from the end of a normal string
  have drop : ∀ E : Str, NoDouble (E ++ [' ']) → startsSp (E ++ [' ']) = false → squeeze (E ++ [' ']) = squeeze (A ++ u ++ w) →
      E = strip (squeeze (A ++ u ++ w)) := by
    intro E a b c
    rw [← c, collapse_snoc, collapse_normal a.left ?_ (noDouble_snoc a)]
    cases E with
    | nil => rfl
    | cons x E => exact b
  simp only [pairP, e, endsP, hf, Bool.false_and, if_false, Bool.true_and, Bool.false_eq_true, decide_true, Bool.and_true]
  by_cases hc : (endsSp w && !w1.isEmpty) = true
  · rw [if_pos hc]
    simp only [Bool.and_eq_true, Bool.not_eq_true', List.isEmpty_eq_false_iff] at hc
    have hw : endsSp w1 = true := by
      rcases hw1 with rfl | ⟨rfl, -⟩
      · exact hc.1
      · rw [← hc.1, ← endsSp_append [' '] hc.2]; rfl
    obtain ⟨v, rfl⟩ := endsSp_iff.1 hw
    rw [← List.append_assoc] at hn hq' hstart
    refine ⟨u1, v, ?_, drop _ hn hstart hq'⟩
    have h3 := noDouble_snoc hn
    simp only [tailP, List.dropLast_concat]
    rw [if_neg]
    intro hx
    simp only [Bool.and_eq_true, List.isEmpty_iff] at hx
    rw [hx.1.2, List.append_nil, endsSp_append A (by
      intro h0; rw [h0] at hx; simp [endsSp] at hx)] at h3
    rw [h3] at hx; simp at hx
  · rw [if_neg hc]
    by_cases hw0 : w1 = []
    · subst hw0
      simp only [List.append_nil] at hn hq' hstart
      by_cases hu2 : endsSp u1 = true
      · obtain ⟨v, rfl⟩ := endsSp_iff.1 hu2
        have huu : endsSp u = true := by
          rcases hu1 with rfl | ⟨rfl, -⟩
          · exact hu2
          · exact endsSp_iff.2 ⟨_, rfl⟩
        refine ⟨v, [], by simp [tailP, huu, hu2], ?_⟩
        rw [← List.append_assoc] at hn hq' hstart
        rw [List.append_nil]
        exact drop _ hn hstart hq'
      · refine ⟨u1, [], by simp [tailP, hu2], ?_⟩
        rw [List.append_nil, ← hq', collapse_normal hn hstart]
        by_cases hu0 : u1 = []
        · subst hu0
          rcases hu1 with rfl | ⟨rfl, -⟩
          · exact absurd rfl hu
          · rw [List.append_nil]; exact noDouble_snoc h1
        · rw [endsSp_append A hu0]; simpa using hu2
    · refine ⟨u1, w1, by simp [tailP, hw0], ?_⟩
      rw [← hq', collapse_normal hn hstart]
      rw [endsSp_append _ hw0]
      have : endsSp w = false := by simpa [hw0] using hc
      rcases hw1 with rfl | ⟨rfl, -⟩
      · exact this
      · rw [← this]; exact (endsSp_append [' '] hw0).symm

theorem isBlank_space {t : Str} : isBlank (' ' :: t) = isBlank t := by
  have : isWhite ' ' = true := by decide
  simp [isBlank, this]
theorem isBlank_snoc {t : Str} : isBlank (t ++ [' ']) = isBlank t := by
  simp only [isBlank, List.all_append]
  have : [' '].all isWhite = true := by decide
  rw [this, Bool.and_true]

/-- The first pair, with more to follow. -/
theorem pair_first {u w : Str} (lt : Bool) (h1 : NoDouble u) (h2 : NoDouble w) (hu : u ≠ [])
    (hsolid : isBlank u = false ∨ (lt = true ∧ isBlank w = false)) :
    ∃ u1 w1, pairP true false lt .default .default u w = (u1, w1) ∧ NoDouble (u1 ++ w1) ∧ u1 ++ w1 ≠ [] ∧
      startsSp (u1 ++ w1) = false ∧
      (∀ X, strip (squeeze (u1 ++ w1 ++ X)) = strip (squeeze (u ++ w ++ X))) ∧
      isBlank u1 = isBlank u ∧ (w1 = w ∨ w = ' ' :: w1) := by
  obtain ⟨v, w1, e, hn, hq, hu1, hw1⟩ := border_ok (A := []) lt (by simpa using h1) h2 hu
  simp only [List.nil_append] at hn hq
  have hb : isBlank v = isBlank u := by
    rcases hu1 with rfl | ⟨rfl, -⟩
    · rfl
    · exact isBlank_snoc.symm
  have hbw : isBlank w1 = isBlank w := by
    rcases hw1 with rfl | ⟨rfl, -⟩
    · rfl
    · exact isBlank_space.symm
  have hv : v ≠ [] := by
    rcases hu1 with rfl | ⟨rfl, hlt, -⟩
    · exact hu
    · rintro rfl
      rcases hsolid with h | h
      · rw [← hb] at h; simp [isBlank] at h
      · rw [hlt] at h; simp at h
  have hvs : startsSp v = startsSp u := by
    rcases hu1 with rfl | ⟨rfl, -⟩
    · rfl
    · exact (startsSp_append _ hv).symm
  simp only [pairP, e, endsP, tailP, Bool.true_and, Bool.false_and, if_false, Bool.false_eq_true, decide_true, Bool.and_true]
  by_cases hs : startsSp u = true
  · rw [hs] at hvs
    obtain ⟨x, rfl⟩ := startsSp_iff.1 hvs
    refine ⟨x, w1, by simp [hs], (noDouble_cons.1 hn).2, ?_, noDouble_space hn, ?_, ?_, hw1.imp_right And.left⟩
    · intro h0
      have h0 := List.append_eq_nil_iff.1 h0
      rcases hsolid with h | h
      · rw [← hb, isBlank_space, h0.1] at h; simp [isBlank] at h
      · have h := h.2
        rw [← hbw, h0.2] at h; simp [isBlank] at h
    · intro X
      rw [← hq X]
      exact (collapse_cons _).symm
    · rw [← hb, isBlank_space]
  · refine ⟨v, w1, by simp [hs], hn, by simp [hv], ?_, fun X => by rw [hq X], hb, hw1.imp_right And.left⟩
    rw [startsSp_append _ hv, hvs]; simpa using hs

/-- Two texts only. -/
theorem pair_only {u w : Str} (lt : Bool) (h1 : NoDouble u) (h2 : NoDouble w) (hu : u ≠ [])
    (hsolid : isBlank u = false ∨ (lt = true ∧ isBlank w = false))
    (hw : isBlank w = false ∨ w = [] ∨ w = [' ']) (hboth : ¬ (startsSp u = true ∧ endsSp w = true)) :
    ∃ u1 w1, pairP true true lt .default .default u w = (u1, w1) ∧ u1 ++ w1 = strip (squeeze (u ++ w)) := by
  by_cases hs : startsSp u = true
  · have hew : endsSp w = false := by
      cases hx : endsSp w with
      | false => rfl
      | true => exact absurd ⟨hs, hx⟩ hboth
    obtain ⟨v, w1, e, hn, hq, hu1, hw1⟩ := border_ok (A := []) lt (by simpa using h1) h2 hu
    simp only [List.nil_append] at hn hq
    have hb : isBlank v = isBlank u := by
      rcases hu1 with rfl | ⟨rfl, -⟩
      · rfl
      · exact isBlank_snoc.symm
    have hv : v ≠ [] := by
      rcases hu1 with rfl | ⟨rfl, hlt, -⟩
      · exact hu
      · rintro rfl
        rcases hsolid with h | h
        · rw [← hb] at h; simp [isBlank] at h
        · rw [hlt] at h; simp at h
    have hvs : startsSp v = true := by
      rcases hu1 with rfl | ⟨rfl, -⟩
      · exact hs
      · rw [← startsSp_append [' '] hv]; exact hs
    obtain ⟨x, rfl⟩ := startsSp_iff.1 hvs
    have hq' : squeeze (' ' :: (x ++ w1)) = squeeze (u ++ w) := by simpa using hq []
    have hc : strip (squeeze (x ++ w1)) = strip (squeeze (u ++ w)) := by rw [← hq', collapse_cons]
    have hst : startsSp (x ++ w1) = false := noDouble_space hn
    have hn' : NoDouble (x ++ w1) := (noDouble_cons.1 hn).2
    have hep : endsP true true .default .default (startsSp u) (endsSp w) (' ' :: x) w1 = (x, w1) := by simp [endsP, hs]
    simp only [pairP, e, hep]
    by_cases hw0 : w1 = []
    · subst hw0
      have hwnil : w = [] := by
        rcases hw1 with h | ⟨h, -⟩
        · exact h.symm
        · rw [h] at hew; simp [endsSp] at hew
      have huv : ' ' :: x = u := by
        rcases hu1 with h | ⟨-, -, h⟩
        · exact h
        · rw [hwnil] at h; simp [startsSp] at h
      simp only [List.append_nil] at hc hst hn'
      by_cases hx : endsSp x = true
      · obtain ⟨y, rfl⟩ := endsSp_iff.1 hx
        have : endsSp u = true := by
          rw [← huv, ← hx]; exact endsSp_append [' '] (by simp)
        refine ⟨y, [], by simp [tailP, this, hx], ?_⟩
        rw [← hc, List.append_nil, collapse_snoc, collapse_normal hn'.left ?_ (noDouble_snoc hn')]
        cases y with
        | nil => rfl
        | cons _ _ => exact hst
      · refine ⟨x, [], by simp [tailP, hx], ?_⟩
        rw [List.append_nil, ← hc, collapse_normal hn' hst (by simpa using hx)]
    · refine ⟨x, w1, by simp [tailP, hw0], ?_⟩
      rw [← hc, collapse_normal hn' hst]
      rw [endsSp_append _ hw0]
      rcases hw1 with rfl | ⟨rfl, -⟩
      · exact hew
      · rw [← hew]; exact (endsSp_append [' '] hw0).symm
  · have hs : startsSp u = false := by simpa using hs
    obtain ⟨u1, w1, e, h⟩ := pair_last (A := []) true lt (by simpa using h1) h2 hu (by rw [hs]; rfl) (by simpa using hs)
    exact ⟨u1, w1, e, by simpa using h⟩

/-! ### All pairs -/

/-- The text of each node. -/
abbrev Texts := NodeId → Str

def Texts.put (τ : Texts) (n : NodeId) (t : Str) : Texts := fun j => if j = n then t else τ j

/-- The first text of a pair: the last text that is not blank if the node itself is empty. -/
def pairNode (τ : Texts) (last : Option NodeId) (n1 : NodeId) : NodeId := if (τ n1).isEmpty then last.getD n1 else n1

/-- The texts after one step. -/
def pairStep (μ : NodeId → XmlSpace) (τ : Texts) (first last lt : Bool) (m n2 : NodeId) : Texts :=
  let p := pairP first last lt (μ m) (μ n2) (τ m) (τ n2)
  (τ.put m p.1).put n2 p.2

/-- The texts after the loop; `μ` is the mode of each node. -/
def pairsT (μ : NodeId → XmlSpace) : Texts → Bool → Option NodeId → List (NodeId × Nat) → Texts
  | τ, first, last, (n1, d1) :: (n2, d2) :: rest =>
    let m := pairNode τ last n1
    let τ' := pairStep μ τ first rest.isEmpty (decide (d1 < d2)) m n2
    pairsT μ τ' false (if (trimStr (τ' m)).isEmpty then last else some m) ((n2, d2) :: rest)
  | τ, _, _, _ => τ

theorem pairsT_one (μ : NodeId → XmlSpace) (τ : Texts) (f : Bool) (l : Option NodeId) (x : NodeId × Nat) :
    pairsT μ τ f l [x] = τ := by rw [pairsT]; intro _ _ _ _ _ h; simp at h

theorem flatMap_congr' {l : List NodeId} {τ σ : Texts} (h : ∀ j ∈ l, τ j = σ j) : l.flatMap τ = l.flatMap σ := by
  induction l with
  | nil => rfl
  | cons a l ih =>
    rw [List.flatMap_cons, List.flatMap_cons, h a (by simp), ih (fun j hj => h j (by simp [hj]))]

theorem flatMap_empty {l : List NodeId} {τ : Texts} (h : ∀ j ∈ l, τ j = []) : l.flatMap τ = [] := by
  induction l with
  | nil => rfl
  | cons a l ih => rw [List.flatMap_cons, h a (by simp), ih (fun j hj => h j (by simp [hj]))]; rfl

theorem put_self (τ : Texts) (n : NodeId) (t : Str) : (τ.put n t) n = t := if_pos rfl
theorem put_other {τ : Texts} {n j : NodeId} {t : Str} (h : j ≠ n) : (τ.put n t) j = τ j := if_neg h

/-- Blank texts are single and there is nothing between a single space and an empty text. -/
def Trimmed (t : Str) : Prop := NoDouble t ∧ (isBlank t = false ∨ t = [] ∨ t = [' '])

theorem Trimmed.tail {t : Str} (h : Trimmed (' ' :: t)) : Trimmed t := by
  refine ⟨(noDouble_cons.1 h.1).2, ?_⟩
  rcases h.2 with h | h | h
  · left; rwa [isBlank_space] at h
  · simp at h
  · right; left; simpa using h

/-- The texts do not have two blank ones in a row. -/
abbrev Apart (τ : Texts) (l : List NodeId) : Prop := l.IsChain fun a b => isBlank (τ a) = false ∨ isBlank (τ b) = false

theorem Apart.congr {τ σ : Texts} {l : List NodeId} (h : Apart τ l) (e : ∀ j ∈ l, isBlank (σ j) = isBlank (τ j)) : Apart σ l := by
  induction l with
  | nil => exact .nil
  | cons a l ih =>
    cases l with
    | nil => exact .singleton _
    | cons b l =>
      have h' := List.isChain_cons_cons.1 h
      rw [Apart, List.isChain_cons_cons]
      refine ⟨?_, ih h'.2 (fun j hj => e j (by simp [hj]))⟩
      rw [e a (by simp), e b (by simp)]
      exact h'.1

theorem pairs_rest (μ : NodeId → XmlSpace) : ∀ (rest : List (NodeId × Nat)) (n1 : NodeId) (d1 : Nat) (done : List NodeId)
    (τ : Texts) (last : Option NodeId), (done ++ n1 :: rest.map Prod.fst).Nodup → rest ≠ [] →
    (∀ j ∈ done ++ n1 :: rest.map Prod.fst, μ j = .default) →
    (∀ r ∈ rest.map Prod.fst, Trimmed (τ r)) → Apart τ (n1 :: rest.map Prod.fst) →
    NoDouble ((done ++ [n1]).flatMap τ) → startsSp ((done ++ [n1]).flatMap τ) = false →
    (τ n1 ≠ [] ∨ ∃ P l Q, last = some l ∧ done = P ++ l :: Q ∧ (∀ q ∈ Q, τ q = []) ∧ isBlank (τ l) = false) →
    (done ++ n1 :: rest.map Prod.fst).flatMap (pairsT μ τ false last ((n1, d1) :: rest)) =
      strip (squeeze ((done ++ n1 :: rest.map Prod.fst).flatMap τ))
  | [], _, _, _, _, _ => by intro _ h; exact absurd rfl h
  | (n2, d2) :: rest, n1, d1, done, τ, last => by
    intro nd _ hμ ht ha hn hs hcur
    -- the node that is compared
    obtain ⟨P, m, Q, em, hsplit, hQ, hm⟩ : ∃ P m Q, pairNode τ last n1 = m ∧ done ++ [n1] = P ++ m :: Q ∧ (∀ q ∈ Q, τ q = []) ∧
        τ m ≠ [] := by
      by_cases h0 : τ n1 = []
      · rcases hcur with h | ⟨P, l, Q, rfl, rfl, hQ, hl⟩
        · exact absurd h0 h
        · refine ⟨P, l, Q ++ [n1], by simp [pairNode, h0], by simp, ?_, ?_⟩
          · intro q hq
            rcases List.mem_append.1 hq with h | h
            · exact hQ q h
            · rw [List.mem_singleton.1 h]; exact h0
          · rintro h; rw [h] at hl; simp [isBlank] at hl
      · exact ⟨done, n1, [], by simp [pairNode, h0], rfl, by simp, h0⟩
    simp only [List.map_cons] at nd hμ ht ha ⊢
    have hall : done ++ n1 :: n2 :: rest.map Prod.fst = P ++ m :: Q ++ n2 :: rest.map Prod.fst := by
      rw [← hsplit]; simp
    have hD : (done ++ [n1]).flatMap τ = P.flatMap τ ++ τ m := by
      rw [hsplit, List.flatMap_append, List.flatMap_cons, flatMap_empty hQ, List.append_nil]
    rw [hD] at hn hs
    have nd' := nd
    rw [hall] at nd'
    have hmP : ∀ j ∈ P, j ≠ m := by
      rintro j hj rfl
      have := (List.nodup_append.1 (List.nodup_append.1 nd').1).2.2 j hj j (by simp)
      exact this rfl
    have hmQ : ∀ j ∈ Q, j ≠ m := by
      rintro j hj rfl
      have := (List.nodup_append.1 (List.nodup_append.1 nd').1).2.1
      exact (List.nodup_cons.1 this).1 hj
    have hsep : ∀ j ∈ P ++ m :: Q, ∀ k ∈ n2 :: rest.map Prod.fst, j ≠ k := (List.nodup_append.1 nd').2.2
    have hmem : m ∈ P ++ m :: Q := by simp
    have hn2 : n2 ∉ rest.map Prod.fst := (List.nodup_cons.1 (List.nodup_append.1 nd').2.1).1
    have hm2 : m ≠ n2 := hsep m hmem n2 (by simp)
    have hμm : μ m = .default := hμ m (by rw [hall]; simp)
    have hμ2 : μ n2 = .default := hμ n2 (by simp)
    have htn : Trimmed (τ n2) := ht n2 (by simp)
    -- the effect of one step
    have hstep : ∀ (lst : Bool) (u1 w1 : Str), pairP false lst (decide (d1 < d2)) .default .default (τ m) (τ n2) = (u1, w1) →
        let τ' := pairStep μ τ false lst (decide (d1 < d2)) m n2
        τ' m = u1 ∧ τ' n2 = w1 ∧ (∀ j, j ≠ m → j ≠ n2 → τ' j = τ j) := by
      intro lst u1 w1 e
      refine ⟨?_, ?_, fun j h1 h2 => ?_⟩
      · simp only [pairStep, hμm, hμ2, e]; rw [put_other hm2, put_self]
      · simp only [pairStep, hμm, hμ2, e]; rw [put_self]
      · simp only [pairStep]; rw [put_other h2, put_other h1]
    rw [pairsT]
    simp only [em]
    cases hrest : rest with
    | nil =>
      subst hrest
      obtain ⟨u1, w1, e, hr⟩ := pair_last (A := P.flatMap τ) false (decide (d1 < d2)) hn htn.1 hm (by simp) hs
      obtain ⟨e1, e2, e3⟩ := hstep true u1 w1 e
      rw [List.isEmpty_nil]
      generalize pairStep μ τ false true (decide (d1 < d2)) m n2 = τ' at e1 e2 e3
      rw [pairsT_one]
      have hl : ∀ σ : Texts, (∀ q ∈ Q, σ q = []) → (done ++ n1 :: n2 :: List.map Prod.fst ([] : List (NodeId × Nat))).flatMap σ =
          P.flatMap σ ++ σ m ++ σ n2 := by
        intro σ hσ
        rw [hall]
        simp [flatMap_empty hσ]
      rw [hl τ hQ, hl τ' (fun q hq => by rw [e3 q (hmQ q hq) (hsep q (by simp [hq]) n2 (by simp))]; exact hQ q hq), e1, e2]
      rw [flatMap_congr' (σ := τ) (fun j hj => e3 j (hmP j hj) (hsep j (by simp [hj]) n2 (by simp)))]
      exact hr
    | cons r rs =>
      rw [← hrest]
      have hre : rest.isEmpty = false := by rw [hrest]; rfl
      rw [hre]
      obtain ⟨u1, w1, e, hn', hs', hq, hu1, hw1⟩ := pair_middle (A := P.flatMap τ) (decide (d1 < d2)) hn htn.1 hm hs
      obtain ⟨e1, e2, e3⟩ := hstep false u1 w1 e
      generalize pairStep μ τ false false (decide (d1 < d2)) m n2 = τ' at e1 e2 e3
      have eP : P.flatMap τ' = P.flatMap τ := flatMap_congr' (fun j hj => e3 j (hmP j hj) (hsep j (by simp [hj]) n2 (by simp)))
      have hQ' : ∀ q ∈ Q, τ' q = [] := fun q hq => by
        rw [e3 q (hmQ q hq) (hsep q (by simp [hq]) n2 (by simp))]; exact hQ q hq
      have er : ∀ j ∈ rest.map Prod.fst, τ' j = τ j := fun j hj =>
        e3 j (fun h => hsep m hmem j (by simp [hj]) h.symm) (fun h => hn2 (h ▸ hj))
      have hD' : (done ++ [n1] ++ [n2]).flatMap τ' = P.flatMap τ ++ u1 ++ w1 := by
        rw [hsplit]
        simp [eP, e1, e2, flatMap_empty hQ']
      have hb1 : isBlank u1 = isBlank (τ m) := by
        rcases hu1 with rfl | h
        · rfl
        · rw [h]; exact isBlank_snoc.symm
      have hb2 : isBlank w1 = isBlank (τ n2) := by
        rcases hw1 with rfl | h
        · rfl
        · rw [h]; exact isBlank_space.symm
      have ha' := (List.isChain_cons_cons.1 ha)
      have key := pairs_rest μ rest n2 d2 (done ++ [n1]) τ' (if (trimStr (τ' m)).isEmpty then last else some m)
        (by simpa using nd) (by rw [hrest]; simp) (by simpa using hμ)
        (fun r hr => by rw [er r hr]; exact ht r (by simp [hr]))
        (Apart.congr ha'.2 (fun j hj => by
          rcases List.mem_cons.1 hj with rfl | h
          · rw [e2]; exact hb2
          · rw [er j h]))
        (by rw [hD']; exact hn') (by rw [hD']; exact hs')
        (by
          by_cases h0 : τ' n2 = []
          · right
            have hbl : isBlank (τ n2) = true := by rw [← hb2, ← e2, h0]; rfl
            have hsol : isBlank (τ n1) = false := by
              rcases ha'.1 with h | h
              · exact h
              · rw [hbl] at h; simp at h
            have hmn : m = n1 := by
              rw [← em, pairNode, if_neg]
              intro h
              rw [List.isEmpty_iff.1 h] at hsol; simp [isBlank] at hsol
            rw [hmn] at e1 hb1
            refine ⟨done, n1, [], ?_, rfl, by simp, ?_⟩
            · rw [hmn, trim_blank, e1, hb1, hsol]; simp
            · rw [e1, hb1]; exact hsol
          · exact .inl h0)
      have hl : ∀ σ : Texts, (done ++ n1 :: n2 :: rest.map Prod.fst).flatMap σ =
          (done ++ [n1] ++ [n2]).flatMap σ ++ (rest.map Prod.fst).flatMap σ := by intro σ; simp
      have hl2 : done ++ n1 :: n2 :: rest.map Prod.fst = done ++ [n1] ++ n2 :: rest.map Prod.fst := by simp
      rw [hl2, key, ← hl2, hl τ', hl τ, hD', flatMap_congr' er, hq]
      congr 2
      rw [hsplit]
      simp [flatMap_empty hQ]

/-- **What the loop does to two or more texts in default mode.** -/
theorem pairs_all (μ : NodeId → XmlSpace) (n1 n2 : NodeId) (d1 d2 : Nat) (rest : List (NodeId × Nat)) (τ : Texts)
    (nd : (n1 :: n2 :: rest.map Prod.fst).Nodup) (hμ : ∀ j ∈ n1 :: n2 :: rest.map Prod.fst, μ j = .default)
    (ht : ∀ r ∈ n1 :: n2 :: rest.map Prod.fst, Trimmed (τ r)) (ha : Apart τ (n1 :: n2 :: rest.map Prod.fst))
    (hfirst : isBlank (τ n1) = false ∨ (τ n1 ≠ [] ∧ d1 < d2))
    (hboth : rest = [] → ¬ (startsSp (τ n1) = true ∧ endsSp (τ n2) = true)) :
    (n1 :: n2 :: rest.map Prod.fst).flatMap (pairsT μ τ true none ((n1, d1) :: (n2, d2) :: rest)) =
      strip (squeeze ((n1 :: n2 :: rest.map Prod.fst).flatMap τ)) := by
  have hne : τ n1 ≠ [] := by
    rcases hfirst with h | h
    · intro h0; rw [h0] at h; simp [isBlank] at h
    · exact h.1
  have em : pairNode τ none n1 = n1 := by simp [pairNode, hne]
  have h12 : n1 ≠ n2 := fun h => (List.nodup_cons.1 nd).1 (by simp [h])
  have hn2 : n2 ∉ rest.map Prod.fst := (List.nodup_cons.1 (List.nodup_cons.1 nd).2).1
  have hn1 : n1 ∉ rest.map Prod.fst := fun h => (List.nodup_cons.1 nd).1 (by simp only [List.mem_cons]; exact .inr h)
  have hμ1 := hμ n1 (by simp)
  have hμ2 := hμ n2 (by simp)
  have t1 := ht n1 (by simp)
  have t2 := ht n2 (by simp)
  have ha' := List.isChain_cons_cons.1 ha
  have hsolid : isBlank (τ n1) = false ∨ (decide (d1 < d2) = true ∧ isBlank (τ n2) = false) := by
    rcases hfirst with h | h
    · exact .inl h
    · rcases ha'.1 with h' | h'
      · exact .inl h'
      · exact .inr ⟨decide_eq_true h.2, h'⟩
  have hstep : ∀ (lst : Bool) (u1 w1 : Str), pairP true lst (decide (d1 < d2)) .default .default (τ n1) (τ n2) = (u1, w1) →
      let τ' := pairStep μ τ true lst (decide (d1 < d2)) n1 n2
      τ' n1 = u1 ∧ τ' n2 = w1 ∧ (∀ j, j ≠ n1 → j ≠ n2 → τ' j = τ j) := by
    intro lst u1 w1 e
    refine ⟨?_, ?_, fun j h1 h2 => ?_⟩
    · simp only [pairStep, hμ1, hμ2, e]; rw [put_other h12, put_self]
    · simp only [pairStep, hμ1, hμ2, e]; rw [put_self]
    · simp only [pairStep]; rw [put_other h2, put_other h1]
  rw [pairsT]
  simp only [em]
  cases hrest : rest with
  | nil =>
    obtain ⟨u1, w1, e, hr⟩ := pair_only (decide (d1 < d2)) t1.1 t2.1 hne hsolid t2.2 (hboth hrest)
    obtain ⟨e1, e2, e3⟩ := hstep true u1 w1 e
    rw [List.isEmpty_nil]
    generalize pairStep μ τ true true (decide (d1 < d2)) n1 n2 = τ' at e1 e2 e3
    rw [pairsT_one]
    simpa [e1, e2] using hr
  | cons r rs =>
    rw [← hrest]
    have hre : rest.isEmpty = false := by rw [hrest]; rfl
    rw [hre]
    obtain ⟨u1, w1, e, hn', hne', hs', hq, hb1, hw1⟩ := pair_first (decide (d1 < d2)) t1.1 t2.1 hne hsolid
    obtain ⟨e1, e2, e3⟩ := hstep false u1 w1 e
    generalize pairStep μ τ true false (decide (d1 < d2)) n1 n2 = τ' at e1 e2 e3
    have er : ∀ j ∈ rest.map Prod.fst, τ' j = τ j := fun j hj => e3 j (fun h => hn1 (h ▸ hj)) (fun h => hn2 (h ▸ hj))
    have hb2 : isBlank w1 = isBlank (τ n2) := by
      rcases hw1 with rfl | h
      · rfl
      · rw [h]; exact isBlank_space.symm
    have key := pairs_rest μ rest n2 d2 [n1] τ' (if (trimStr (τ' n1)).isEmpty then none else some n1)
      (by simpa using nd) (by rw [hrest]; simp) (by simpa using hμ)
      (fun r hr => by rw [er r hr]; exact ht r (by simp only [List.mem_cons]; exact .inr (.inr hr)))
      (Apart.congr ha'.2 (fun j hj => by
        rcases List.mem_cons.1 hj with rfl | h
        · rw [e2]; exact hb2
        · rw [er j h]))
      (by simpa [e1, e2] using hn') (by simpa [e1, e2] using hs')
      (by
        by_cases h0 : τ' n2 = []
        · right
          have hbl : isBlank (τ n2) = true := by rw [← hb2, ← e2, h0]; rfl
          have hsol : isBlank (τ n1) = false := by
            rcases ha'.1 with h | h
            · exact h
            · rw [hbl] at h; simp at h
          refine ⟨[], n1, [], ?_, rfl, by simp, ?_⟩
          · rw [trim_blank, e1, hb1, hsol]; simp
          · rw [e1, hb1]; exact hsol
        · exact .inl h0)
    have hl : ∀ σ : Texts, (n1 :: n2 :: rest.map Prod.fst).flatMap σ =
        σ n1 ++ σ n2 ++ (rest.map Prod.fst).flatMap σ := by intro σ; simp
    have hl2 : n1 :: n2 :: rest.map Prod.fst = [n1] ++ n2 :: rest.map Prod.fst := by simp
    rw [hl2, key, ← hl2, hl τ', hl τ, flatMap_congr' er, e1, e2, hq]

/-! ### Only spaces are lost -/

theorem Shrunk.refl (t : Str) : Shrunk t t := ⟨[], [], by simp, by simp, by simp⟩

theorem Shrunk.trans {t u v : Str} (h : Shrunk v u) (k : Shrunk u t) : Shrunk v t := by
  obtain ⟨a, b, rfl, ha, hb⟩ := h
  obtain ⟨c, d, rfl, hc, hd⟩ := k
  refine ⟨c ++ a, b ++ d, by simp, ?_, ?_⟩
  · intro x hx
    rcases List.mem_append.1 hx with h | h
    · exact hc x h
    · exact ha x h
  · intro x hx
    rcases List.mem_append.1 hx with h | h
    · exact hb x h
    · exact hd x h

theorem Shrunk.tail {t : Str} (h : startsSp t = true ∨ t = []) : Shrunk t.tail t := by
  rcases h with h | rfl
  · obtain ⟨b, rfl⟩ := startsSp_iff.1 h
    exact ⟨[' '], [], by simp, by simp, by simp⟩
  · exact .refl _

theorem Shrunk.dropLast {t : Str} (h : endsSp t = true ∨ t = []) : Shrunk t.dropLast t := by
  rcases h with h | rfl
  · obtain ⟨b, rfl⟩ := endsSp_iff.1 h
    exact ⟨[], [' '], by simp, by simp, by simp⟩
  · exact .refl _

theorem Shrunk.mem {u t : Str} (h : Shrunk u t) {c : Char} (hc : c ∈ u) : c ∈ t := by
  obtain ⟨a, b, rfl, -, -⟩ := h
  simp [hc]

theorem borderP_shrunk (lt : Bool) (sp1 sp2 : XmlSpace) (u w : Str) :
    ((borderP lt sp1 sp2 u w).1 = u ∨ ((borderP lt sp1 sp2 u w).1 = u.dropLast ∧ endsSp u = true ∧ sp1 = .default)) ∧
    ((borderP lt sp1 sp2 u w).2 = w ∨ ((borderP lt sp1 sp2 u w).2 = w.tail ∧ startsSp w = true ∧ sp2 = .default)) := by
  unfold borderP
  split
  · next h =>
    rw [Bool.and_eq_true] at h
    split
    · split
      · next h2 => exact ⟨.inl rfl, .inr ⟨rfl, h.2, h2⟩⟩
      · exact ⟨.inl rfl, .inl rfl⟩
    · split
      · next h2 => exact ⟨.inr ⟨rfl, h.1, h2.1⟩, .inl rfl⟩
      · split
        · next h2 => exact ⟨.inl rfl, .inr ⟨rfl, h.2, h2.2⟩⟩
        · exact ⟨.inl rfl, .inl rfl⟩
  · exact ⟨.inl rfl, .inl rfl⟩

theorem borderP_first {lt : Bool} {sp1 sp2 : XmlSpace} {u w : Str} (h : startsSp u = true) :
    startsSp (borderP lt sp1 sp2 u w).1 = true ∨ (borderP lt sp1 sp2 u w).1 = [] := by
  rcases (borderP_shrunk lt sp1 sp2 u w).1 with e | ⟨e, -⟩
  · rw [e]; exact .inl h
  · rw [e]
    obtain ⟨b, rfl⟩ := startsSp_iff.1 h
    cases b with
    | nil => right; rfl
    | cons c b => left; rfl

theorem borderP_last {lt : Bool} {sp1 sp2 : XmlSpace} {u w : Str} (h : endsSp w = true) :
    endsSp (borderP lt sp1 sp2 u w).2 = true ∨ (borderP lt sp1 sp2 u w).2 = [] := by
  rcases (borderP_shrunk lt sp1 sp2 u w).2 with e | ⟨e, -⟩
  · rw [e]; exact .inl h
  · rw [e]
    cases w with
    | nil => right; rfl
    | cons c w =>
      by_cases hw : w = []
      · right; exact hw
      · left; rw [List.tail_cons, ← h]; exact (endsSp_append [c] hw).symm

theorem pairP_shrunk (first last lt : Bool) (sp1 sp2 : XmlSpace) (u w : Str) :
    Shrunk (pairP first last lt sp1 sp2 u w).1 u ∧ Shrunk (pairP first last lt sp1 sp2 u w).2 w := by
  have hb := borderP_shrunk lt sp1 sp2 u w
  have b1 : Shrunk (borderP lt sp1 sp2 u w).1 u := by
    rcases hb.1 with e | ⟨e, h, -⟩
    · rw [e]; exact .refl _
    · rw [e]; exact .dropLast (.inl h)
  have b2 : Shrunk (borderP lt sp1 sp2 u w).2 w := by
    rcases hb.2 with e | ⟨e, h, -⟩
    · rw [e]; exact .refl _
    · rw [e]; exact .tail (.inl h)
  have f1 := borderP_first (lt := lt) (sp1 := sp1) (sp2 := sp2) (u := u) (w := w)
  have f2 := borderP_last (lt := lt) (sp1 := sp1) (sp2 := sp2) (u := u) (w := w)
  simp only [pairP]
  generalize borderP lt sp1 sp2 u w = p at b1 b2 f1 f2
  have q12 : Shrunk (endsP first last sp1 sp2 (startsSp u) (endsSp w) p.1 p.2).1 u ∧
      Shrunk (endsP first last sp1 sp2 (startsSp u) (endsSp w) p.1 p.2).2 w := by
    unfold endsP
    split
    · next h =>
      simp only [Bool.and_eq_true] at h
      exact ⟨(Shrunk.tail (f1 h.1.1.2)).trans b1, b2⟩
    · split
      · next h =>
        simp only [Bool.and_eq_true] at h
        exact ⟨b1, (Shrunk.dropLast (f2 h.1.1.2)).trans b2⟩
      · exact ⟨b1, b2⟩
  generalize endsP first last sp1 sp2 (startsSp u) (endsSp w) p.1 p.2 = q at q12
  unfold tailP
  split
  · next h =>
    simp only [Bool.and_eq_true] at h
    exact ⟨(Shrunk.dropLast (.inl h.2)).trans q12.1, q12.2⟩
  · exact q12

theorem pairStep_shrunk (μ : NodeId → XmlSpace) (τ : Texts) (first last lt : Bool) (m n2 j : NodeId) :
    Shrunk (pairStep μ τ first last lt m n2 j) (τ j) := by
  have := pairP_shrunk first last lt (μ m) (μ n2) (τ m) (τ n2)
  simp only [pairStep, Texts.put]
  split
  · next h => subst h; exact this.2
  · split
    · next h => subst h; exact this.1
    · exact .refl _

theorem pairsT_shrunk (μ : NodeId → XmlSpace) : ∀ (l : List (NodeId × Nat)) (τ : Texts) (first : Bool) (last : Option NodeId)
    (j : NodeId), Shrunk (pairsT μ τ first last l j) (τ j)
  | [], _, _, _, _ => .refl _
  | [x], τ, f, la, j => by rw [pairsT_one]; exact .refl _
  | (n1, d1) :: (n2, d2) :: rest, τ, f, la, j => by
    rw [pairsT]
    exact (pairsT_shrunk μ ((n2, d2) :: rest) _ _ _ j).trans (pairStep_shrunk μ τ f _ _ _ n2 j)

theorem pairNode_mem {τ : Texts} {last : Option NodeId} {n1 : NodeId} {S : List NodeId} (h1 : n1 ∈ S) (h : ∀ x, last = some x → x ∈ S) :
    pairNode τ last n1 ∈ S := by
  unfold pairNode
  split
  · cases last with
    | none => exact h1
    | some x => exact h x rfl
  · exact h1

/-- Only the given texts change. -/
theorem pairsT_outside (μ : NodeId → XmlSpace) (S : List NodeId) : ∀ (l : List (NodeId × Nat)) (τ : Texts) (first : Bool)
    (last : Option NodeId) (j : NodeId), (∀ x ∈ l, x.1 ∈ S) → (∀ x, last = some x → x ∈ S) → j ∉ S → pairsT μ τ first last l j = τ j
  | [], _, _, _, _, _, _, _ => rfl
  | [x], τ, f, la, j, _, _, _ => by rw [pairsT_one]
  | (n1, d1) :: (n2, d2) :: rest, τ, f, la, j, hl, hla, hj => by
    rw [pairsT]
    have hm := pairNode_mem (τ := τ) (hl (n1, d1) (by simp)) hla
    have h2 := hl (n2, d2) (by simp)
    simp only at h2
    rw [pairsT_outside μ S ((n2, d2) :: rest) _ _ _ j (fun x hx => hl x (by simp at hx ⊢; rcases hx with h | h <;> simp [h])) ?_ hj]
    · simp only [pairStep]
      rw [put_other (by rintro rfl; exact hj h2), put_other (by rintro rfl; exact hj hm)]
    · intro x hx
      split at hx
      · exact hla x hx
      · cases hx; exact hm

/-- Only the given texts and modes matter. -/
theorem pairsT_congr {μ ν : NodeId → XmlSpace} {S : List NodeId} (hμ : ∀ j ∈ S, μ j = ν j) : ∀ (l : List (NodeId × Nat)) (τ σ : Texts)
    (first : Bool) (last : Option NodeId), (∀ x ∈ l, x.1 ∈ S) → (∀ x, last = some x → x ∈ S) → (∀ j ∈ S, τ j = σ j) →
    ∀ j ∈ S, pairsT μ τ first last l j = pairsT ν σ first last l j
  | [], _, _, _, _, _, _, h, j, hj => h j hj
  | [x], τ, σ, f, la, _, _, h, j, hj => by rw [pairsT_one, pairsT_one]; exact h j hj
  | (n1, d1) :: (n2, d2) :: rest, τ, σ, f, la, hl, hla, h, j, hj => by
    have h1 := hl (n1, d1) (by simp)
    have hm := pairNode_mem (τ := τ) h1 hla
    have h2 := hl (n2, d2) (by simp)
    simp only at h1 h2
    have e1 : pairNode σ la n1 = pairNode τ la n1 := by simp only [pairNode, h n1 h1]
    have e2 : ∀ k ∈ S, pairStep μ τ f rest.isEmpty (decide (d1 < d2)) (pairNode τ la n1) n2 k =
        pairStep ν σ f rest.isEmpty (decide (d1 < d2)) (pairNode τ la n1) n2 k := by
      intro k hk
      simp only [pairStep, Texts.put, h _ hm, h n2 h2, h k hk, hμ _ hm, hμ n2 h2]
    rw [pairsT, pairsT]
    simp only [e1]
    rw [← e2 _ hm]
    refine pairsT_congr hμ ((n2, d2) :: rest) _ _ _ _ (fun x hx => hl x (by simp at hx ⊢; rcases hx with h | h <;> simp [h])) ?_ e2 j hj
    intro x hx
    split at hx
    · exact hla x hx
    · cases hx; exact hm

/-! ### Texts in preserve mode -/

theorem pairP_preserve (first last lt : Bool) (sp1 sp2 : XmlSpace) (u w : Str) :
    (sp1 = .preserve → (pairP first last lt sp1 sp2 u w).1 = u ∨
      (u = (pairP first last lt sp1 sp2 u w).1 ++ [' '] ∧ last = true ∧ (pairP first last lt sp1 sp2 u w).2 = [])) ∧
    (sp2 = .preserve → (pairP first last lt sp1 sp2 u w).2 = w) := by
  have hb := borderP_shrunk lt sp1 sp2 u w
  constructor
  · rintro rfl
    have e : (borderP lt .preserve sp2 u w).1 = u := by
      rcases hb.1 with e | ⟨-, -, h⟩
      · exact e
      · simp at h
    simp only [pairP]
    generalize borderP lt .preserve sp2 u w = p at e
    have e2 : (endsP first last .preserve sp2 (startsSp u) (endsSp w) p.1 p.2).1 = u := by
      unfold endsP
      rw [if_neg (by simp)]
      split <;> exact e
    generalize endsP first last .preserve sp2 (startsSp u) (endsSp w) p.1 p.2 = q at e2
    unfold tailP
    split
    · next h =>
      simp only [Bool.and_eq_true, List.isEmpty_iff] at h
      right
      obtain ⟨b, hbq⟩ := endsSp_iff.1 h.2
      simp only
      refine ⟨?_, h.1.1.1.1, h.1.2⟩
      rw [← e2, hbq]; simp
    · exact .inl e2
  · rintro rfl
    have e : (borderP lt sp1 .preserve u w).2 = w := by
      rcases hb.2 with e | ⟨-, -, h⟩
      · exact e
      · simp at h
    simp only [pairP]
    generalize borderP lt sp1 .preserve u w = p at e
    have e2 : (endsP first last sp1 .preserve (startsSp u) (endsSp w) p.1 p.2).2 = w := by
      unfold endsP
      split
      · exact e
      · rw [if_neg (by simp)]; exact e
    generalize endsP first last sp1 .preserve (startsSp u) (endsSp w) p.1 p.2 = q at e2
    unfold tailP
    split <;> exact e2

/-- A text in preserve mode stays as it is, except that it may lose its last space if the last text is empty in the end. -/
theorem pairsT_preserve (μ : NodeId → XmlSpace) {j : NodeId} (hj : μ j = .preserve) : ∀ (l : List (NodeId × Nat)) (τ : Texts)
    (first : Bool) (last : Option NodeId), (l.map Prod.fst).Nodup →
    pairsT μ τ first last l j = τ j ∨ (τ j = pairsT μ τ first last l j ++ [' '] ∧
      ∃ z, (l.map Prod.fst).getLast? = some z ∧ z ≠ j ∧ pairsT μ τ first last l z = [])
  | [], _, _, _, _ => .inl rfl
  | [x], τ, f, la, _ => by rw [pairsT_one]; exact .inl rfl
  | (n1, d1) :: (n2, d2) :: rest, τ, f, la, hn => by
    rw [pairsT]
    obtain ⟨m, em⟩ : ∃ m, m = pairNode τ la n1 := ⟨_, rfl⟩
    rw [← em]
    have hp := pairP_preserve f rest.isEmpty (decide (d1 < d2)) (μ m) (μ n2) (τ m) (τ n2)
    have hstep : pairStep μ τ f rest.isEmpty (decide (d1 < d2)) m n2 j = τ j ∨
        (τ j = pairStep μ τ f rest.isEmpty (decide (d1 < d2)) m n2 j ++ [' '] ∧ rest = [] ∧ n2 ≠ j ∧
          pairStep μ τ f rest.isEmpty (decide (d1 < d2)) m n2 n2 = []) := by
      simp only [pairStep]
      rw [put_self]
      by_cases h2 : j = n2
      · subst h2
        rw [put_self]
        exact .inl (hp.2 hj)
      · rw [put_other h2]
        by_cases h1 : j = m
        · subst h1
          rw [put_self]
          rcases hp.1 hj with h | ⟨a, b, c⟩
          · exact .inl h
          · exact .inr ⟨a, List.isEmpty_iff.1 b, fun h => h2 h.symm, c⟩
        · rw [put_other h1]; exact .inl rfl
    generalize pairStep μ τ f rest.isEmpty (decide (d1 < d2)) m n2 = τ' at hstep
    rcases hstep with h | ⟨h1, rfl, h3, h4⟩
    · have ih := pairsT_preserve μ hj ((n2, d2) :: rest) τ' false (if (trimStr (τ' m)).isEmpty then la else some m)
        (by simp only [List.map_cons, List.nodup_cons] at hn ⊢; exact hn.2)
      rw [h] at ih
      rcases ih with ih | ⟨a, z, b, c⟩
      · exact .inl ih
      · exact .inr ⟨a, z, by simpa using b, c⟩
    · rw [pairsT_one]
      exact .inr ⟨h1, n2, by simp, h3, h4⟩

/-! ### A single text -/

def singleP (t : Str) : Str :=
  if t = [' '] then []
  else
    let u := if startsSp t then t.tail else t
    if endsSp t then u.dropLast else u

theorem singleP_shrunk (t : Str) : Shrunk (singleP t) t := by
  unfold singleP
  split
  · next h => rw [h]; exact ⟨[' '], [], rfl, by simp, by simp⟩
  · next hne =>
    simp only
    by_cases h1 : startsSp t = true
    · rw [if_pos h1]
      split
      · next h2 =>
        obtain ⟨b, rfl⟩ := startsSp_iff.1 h1
        have hb : b ≠ [] := by rintro rfl; exact hne rfl
        have : endsSp b = true := by rw [← h2]; exact (endsSp_append [' '] hb).symm
        exact (Shrunk.dropLast (.inl this)).trans (.tail (.inl h1))
      · exact .tail (.inl h1)
    · rw [if_neg h1]
      split
      · next h2 => exact .dropLast (.inl h2)
      · exact .refl _

/-- A single text without doubled spaces is stripped. -/
theorem singleP_strip {t : Str} (hn : NoDouble t) : singleP t = strip (squeeze t) := by
  rw [squeeze_of_noDouble hn]
  unfold singleP
  split
  · next h => rw [h]; rfl
  · next hne =>
    simp only
    by_cases h1 : startsSp t = true
    · rw [if_pos h1]
      obtain ⟨b, rfl⟩ := startsSp_iff.1 h1
      have hs := noDouble_space hn
      have hnb := (noDouble_cons.1 hn).2
      rw [strip_cons, List.tail_cons]
      split
      · next h2 =>
        have hb : b ≠ [] := by rintro rfl; exact hne rfl
        have : endsSp b = true := by rw [← h2]; exact (endsSp_append [' '] hb).symm
        obtain ⟨c, rfl⟩ := endsSp_iff.1 this
        rw [strip_snoc, List.dropLast_concat, strip_none]
        · cases c with
          | nil => rfl
          | cons _ _ => exact hs
        · exact noDouble_snoc hnb
      · next h2 =>
        rw [strip_none hs]
        by_cases hb : b = []
        · rw [hb]; rfl
        · rw [← endsSp_append [' '] hb]; simpa using h2
    · rw [if_neg h1]
      have hs : startsSp t = false := by simpa using h1
      split
      · next h2 =>
        obtain ⟨c, rfl⟩ := endsSp_iff.1 h2
        rw [strip_snoc, List.dropLast_concat, strip_none]
        · cases c with
          | nil => rfl
          | cons _ _ => exact hs
        · exact noDouble_snoc hn
      · next h2 => rw [strip_none hs (by simpa using h2)]

/-! ### A whole element -/

def trimT (μ : NodeId → XmlSpace) (τ : Texts) (l : List NodeId) : Texts := fun j => if j ∈ l then trimText (τ j) (μ j) else τ j

/-- The texts of an element after processing; `l` are its text nodes with their depths. -/
def groupT (μ : NodeId → XmlSpace) (sp : XmlSpace) (τ : Texts) : List (NodeId × Nat) → Texts
  | [] => τ
  | [(t, _)] => if sp = .default then τ.put t (singleP (τ t)) else τ
  | l => pairsT μ τ true none l

theorem groupT_shrunk (μ : NodeId → XmlSpace) (sp : XmlSpace) (τ : Texts) (l : List (NodeId × Nat)) (j : NodeId) :
    Shrunk (groupT μ sp τ l j) (τ j) := by
  unfold groupT
  split
  · exact .refl _
  · split
    · simp only [Texts.put]
      split
      · next h => subst h; exact singleP_shrunk _
      · exact .refl _
    · exact .refl _
  · exact pairsT_shrunk _ _ _ _ _ _

theorem groupT_outside {μ : NodeId → XmlSpace} {sp : XmlSpace} {τ : Texts} {l : List (NodeId × Nat)} {j : NodeId}
    (hj : j ∉ l.map Prod.fst) : groupT μ sp τ l j = τ j := by
  unfold groupT
  split
  · rfl
  · split
    · exact put_other (by simpa using hj)
    · rfl
  · exact pairsT_outside μ (l.map Prod.fst) l τ true none j (fun x hx => List.mem_map_of_mem hx) (by simp) hj

theorem groupT_congr {μ ν : NodeId → XmlSpace} {S : List NodeId} (hμ : ∀ j ∈ S, μ j = ν j) (sp : XmlSpace) (l : List (NodeId × Nat))
    (τ σ : Texts) (hl : ∀ x ∈ l, x.1 ∈ S) (h : ∀ j ∈ S, τ j = σ j) : ∀ j ∈ S, groupT μ sp τ l j = groupT ν sp σ l j := by
  intro j hj
  match l, hl with
  | [], _ => exact h j hj
  | [(t, d)], hl =>
    simp only [groupT]
    split
    · simp only [Texts.put, h j hj, h t (hl (t, d) (by simp))]
    · exact h j hj
  | x :: y :: r, hl => exact pairsT_congr hμ (x :: y :: r) τ σ true none hl (by simp) h j hj

end Svgdom
