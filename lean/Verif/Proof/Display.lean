import Verif.Spec.Display
import Verif.Proof.Writer

set_option autoImplicit false

/-!
# The reader inverts `Display` and `Debug`
-/

namespace Svgdom

theorem upTo_append {stop : List Char} {c : Char} (hc : c ∈ stop) (rest : Str) :
    ∀ {x : Str}, (∀ d ∈ x, d ∉ stop) → upTo stop (x ++ c :: rest) = (x, c :: rest)
  | [], _ => by simp [upTo, hc]
  | d :: x, h => by
    have hd : d ∉ stop := h d (by simp)
    have := upTo_append hc rest (x := x) (fun e he => h e (by simp [he]))
    simp [upTo, hd, this]

theorem readQuoted_append {v : Str} (h : '\'' ∉ v) (rest : Str) : readQuoted ('\'' :: v ++ '\'' :: rest) = some (v, rest) := by
  have := upTo_append (stop := ['\'']) (c := '\'') (by simp) rest (x := v) (fun d hd => by
    simp only [List.mem_singleton]; rintro rfl; exact h hd)
  simp only [readQuoted, List.cons_append, this]

/-- ` name='value'` for every pair. -/
def pairsText (ps : List (Str × Str)) : Str := ps.flatMap fun p => ' ' :: p.1 ++ st!"='" ++ p.2 ++ ['\'']

theorem readPairs_append {rest : Str} (hr : ∀ t, rest ≠ ' ' :: t) :
    ∀ {ps : List (Str × Str)} {k : Nat}, ps.length ≤ k → (∀ p ∈ ps, '=' ∉ p.1 ∧ '\'' ∉ p.2) →
      readPairs k (pairsText ps ++ rest) = some (ps, rest)
  | [], k, _, _ => by
    simp only [pairsText, List.flatMap_nil, List.nil_append]
    unfold readPairs
    split
    · next h => exact absurd rfl (hr _)
    · rfl
  | p :: ps, 0, hk, _ => absurd hk (by simp)
  | p :: ps, k + 1, hk, h => by
    have ih := readPairs_append hr (ps := ps) (k := k) (by simpa using hk) (fun q hq => h q (by simp [hq]))
    have hp := h p (by simp)
    have e : pairsText (p :: ps) ++ rest = ' ' :: (p.1 ++ '=' :: ('\'' :: p.2 ++ '\'' :: (pairsText ps ++ rest))) := by
      simp [pairsText]
    have e1 := upTo_append (stop := ['=']) (c := '=') (by simp) ('\'' :: p.2 ++ '\'' :: (pairsText ps ++ rest)) (x := p.1)
      (fun d hd => by simp only [List.mem_singleton]; rintro rfl; exact hp.1 hd)
    rw [e]
    simp only [readPairs, e1, readQuoted_append hp.2, ih, Option.map_some]

/-- ` 'text'` for every text. -/
def idsText (l : List Str) : Str := l.flatMap fun x => st!" '" ++ x ++ ['\'']

theorem readIds_append {rest : Str} (hr : ∀ t, rest ≠ ' ' :: t) :
    ∀ {l : List Str} {k : Nat}, l.length ≤ k → (∀ x ∈ l, '\'' ∉ x) → readIds k (idsText l ++ rest) = some (l, rest)
  | [], k, _, _ => by
    simp only [idsText, List.flatMap_nil, List.nil_append]
    unfold readIds
    split
    · next h => exact absurd rfl (hr _)
    · rfl
  | x :: l, 0, hk, _ => absurd hk (by simp)
  | x :: l, k + 1, hk, h => by
    have ih := readIds_append hr (l := l) (k := k) (by simpa using hk) (fun q hq => h q (by simp [hq]))
    have e : idsText (x :: l) ++ rest = ' ' :: ('\'' :: x ++ '\'' :: (idsText l ++ rest)) := by simp [idsText]
    rw [e]
    simp only [readIds, readQuoted_append (h x (by simp)), ih, Option.map_some]

theorem pairsText_length (ps : List (Str × Str)) : ps.length ≤ (pairsText ps).length := by
  induction ps with
  | nil => simp [pairsText]
  | cons p ps ih =>
    have : pairsText (p :: ps) = (' ' :: p.1 ++ st!"='" ++ p.2 ++ ['\'']) ++ pairsText ps := by simp [pairsText]
    rw [this, List.length_append]
    simp only [List.length_cons, List.length_append, List.cons_append]
    omega

theorem idsText_length (l : List Str) : l.length ≤ (idsText l).length := by
  induction l with
  | nil => simp [idsText]
  | cons p ps ih =>
    have : idsText (p :: ps) = (st!" '" ++ p ++ ['\'']) ++ idsText ps := by simp [idsText]
    rw [this, List.length_append]
    simp only [List.length_cons, List.length_append]
    omega

theorem stripPre_append (p t : Str) : stripPre p (p ++ t) = some t := by
  induction p with
  | nil => rfl
  | cons c p ih => simp [stripPre, ih]

theorem stripPre_some {p t r : Str} (h : stripPre p t = some r) : t = p ++ r := by
  induction p generalizing t with
  | nil => simpa [stripPre] using h
  | cons c p ih =>
    cases t with
    | nil => cases h
    | cons d t =>
      simp only [stripPre] at h
      split at h
      · next hc => rw [ih h, hc]; rfl
      · cases h

theorem untilArrow_append : ∀ x : Str, (untilArrow (x ++ st!"-->") = some x ↔ ¬ st!"-->" <:+: x) ∧
    (st!"-->" <:+: x → untilArrow (x ++ st!"-->") = none)
  | [] => by refine ⟨by decide, fun h => absurd h (by decide)⟩
  | c :: x => by
    obtain ⟨ih1, ih2⟩ := untilArrow_append x
    cases e : stripPre st!"-->" (c :: x ++ st!"-->") with
    | none =>
      have hni : ¬ st!"-->" <+: c :: x := by
        rintro ⟨r, hr⟩
        rw [← hr, List.append_assoc, stripPre_append] at e
        cases e
      have hi : st!"-->" <:+: c :: x ↔ st!"-->" <:+: x := by
        rw [List.infix_cons_iff]
        exact ⟨fun h => h.resolve_left hni, .inr⟩
      have hu : untilArrow (c :: x ++ st!"-->") = (untilArrow (x ++ st!"-->")).map (c :: ·) := by
        show untilArrow (c :: (x ++ st!"-->")) = _
        rw [untilArrow]
        rw [List.cons_append] at e
        rw [e]
        simp
      rw [hi, hu]
      refine ⟨?_, fun h => by rw [ih2 h]; rfl⟩
      rw [← ih1]
      cases untilArrow (x ++ st!"-->") <;> simp
    | some r =>
      have h1 := stripPre_some e
      have hr : r ≠ [] := by
        rintro rfl
        have := congrArg List.length h1
        simp at this
      have hpre : st!"-->" <+: c :: x := by
        match x, h1 with
        | [], h1 => simp at h1
        | [_], h1 => simp at h1
        | a :: b :: y, h1 =>
          simp only [List.cons_append, List.cons.injEq, List.nil_append] at h1
          obtain ⟨rfl, rfl, rfl, _⟩ := h1
          exact ⟨y, rfl⟩
      have hu : untilArrow (c :: x ++ st!"-->") = none := by
        show untilArrow (c :: (x ++ st!"-->")) = _
        rw [untilArrow]
        rw [List.cons_append] at e
        rw [e]
        simp [hr]
      refine ⟨?_, fun _ => hu⟩
      rw [hu]
      simp only [reduceCtorEq, false_iff, not_not]
      exact hpre.isInfix

theorem displayLoop_eq (s : St) (W : ValueWriter) {name : AttributeId → Str} (hname : ∀ i, displayAName (.id i) = .ok (name i)) :
    ∀ (l : List Attribute) (out : Str), s.displayLoop W l out =
      .ok (out ++ l.flatMap fun a => AName.shown name a.name ++ st!"='" ++ s.writeValue W a.value ++ ['\'', ' '])
  | [], out => by simp [St.displayLoop]
  | a :: l, out => by
    have hn : displayAName a.name = .ok (AName.shown name a.name) := by
      cases h : a.name with
      | id i => exact hname i
      | name x => rfl
    simp only [St.displayLoop, St.displayAttribute, hn, bind, Except.bind, pure, Except.pure, displayLoop_eq s W hname l]
    simp

/-- With a space in front, the text of a list of attributes is the text of the pairs. -/
theorem displayAttributes_eq (s : St) (W : ValueWriter) {name : AttributeId → Str}
    (hname : ∀ i, displayAName (.id i) = .ok (name i)) (l : List Attribute) : ∃ t, s.displayAttributes W l = .ok t ∧
      (if l = [] then [] else ' ' :: t) = pairsText (l.map fun a => (AName.shown name a.name, s.writeValue W a.value)) := by
  by_cases hl : l = []
  · subst hl; exact ⟨[], rfl, by simp [pairsText]⟩
  · have hl' : l.isEmpty = false := by simp [hl]
    refine ⟨_, by simp only [St.displayAttributes, hl', displayLoop_eq s W hname, bind, Except.bind, pure, Except.pure,
      List.nil_append]; rfl, ?_⟩
    rw [if_neg hl]
    clear hl'
    have key : ∀ l : List Attribute, l ≠ [] →
        ' ' :: (l.flatMap fun a => AName.shown name a.name ++ st!"='" ++ s.writeValue W a.value ++ ['\'', ' ']) =
          pairsText (l.map fun a => (AName.shown name a.name, s.writeValue W a.value)) ++ [' '] := by
      intro l
      induction l with
      | nil => intro h; exact absurd rfl h
      | cons a l ih =>
        intro _
        by_cases hl : l = []
        · subst hl; simp [pairsText]
        · have := ih hl
          have e : pairsText ((a :: l).map fun a => (AName.shown name a.name, s.writeValue W a.value)) =
            (' ' :: AName.shown name a.name ++ st!"='" ++ s.writeValue W a.value ++ ['\'']) ++
              pairsText (l.map fun a => (AName.shown name a.name, s.writeValue W a.value)) := by simp [pairsText]
          rw [e, List.append_assoc, ← this]
          simp
    have := key l hl
    cases hx : (l.flatMap fun a => AName.shown name a.name ++ st!"='" ++ s.writeValue W a.value ++ ['\'', ' ']) with
    | nil =>
      cases l with
      | nil => exact absurd rfl hl
      | cons a l => simp at hx
    | cons c cs =>
      rw [hx] at this
      have h2 := congrArg List.dropLast this
      simpa using h2

end Svgdom
