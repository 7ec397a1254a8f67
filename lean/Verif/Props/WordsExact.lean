import Verif.Props.Words
import Verif.Props.TextFix

/-!
# Property C51, exactly: the text below an element is right up to superfluous spaces

`s` is the document before and `t` the document after `prepare_text`.
-/

set_option autoImplicit false

namespace Svgdom

instance : Sep xmlWhite := ⟨fun _ h => decide_eq_true h⟩

/-! ## Texts and their words -/

theorem intercalate_pieces {p : Char → Bool} : ∀ {x : Str}, (∀ c ∈ x, p c = true → c = ' ') → [' '].intercalate (pieces p x) = x
  | [], _ => by simp [pieces, List.intercalate]
  | c :: x, h => by
    have ih := intercalate_pieces (p := p) (x := x) fun d hd => h d (by simp [hd])
    rw [pieces]
    cases hx : pieces p x with
    | nil => exact absurd hx (pieces_ne p x)
    | cons w ws =>
      rw [hx] at ih
      split
      · next hc =>
        rw [h c (by simp) hc, ← ih]
        simp [List.intercalate, List.intersperse]
      · rw [← ih]
        cases ws <;> simp [List.intercalate, List.intersperse]

theorem pieces_head {p : Char → Bool} {x : Str} (h : (pieces p x).head? = some []) : x = [] ∨ ∃ c b, x = c :: b ∧ p c = true := by
  cases x with
  | nil => exact .inl rfl
  | cons c x =>
    rw [pieces] at h
    split at h
    · next hc => exact .inr ⟨c, x, rfl, hc⟩
    · split at h <;> simp at h

theorem pieces_tail {p : Char → Bool} : ∀ {x : Str}, [] ∈ (pieces p x).tail →
    (∃ a c, x = a ++ [c] ∧ p c = true) ∨ ∃ a c d b, x = a ++ [c, d] ++ b ∧ p c = true ∧ p d = true
  | [], h => by simp [pieces] at h
  | c :: x, h => by
    rw [pieces] at h
    have up : ((∃ a c, x = a ++ [c] ∧ p c = true) ∨ ∃ a c d b, x = a ++ [c, d] ++ b ∧ p c = true ∧ p d = true) →
        (∃ a e, c :: x = a ++ [e] ∧ p e = true) ∨ ∃ a e d b, c :: x = a ++ [e, d] ++ b ∧ p e = true ∧ p d = true := by
      rintro (⟨a, e, rfl, he⟩ | ⟨a, e, d, b, rfl, he, hd⟩)
      · exact .inl ⟨c :: a, e, rfl, he⟩
      · exact .inr ⟨c :: a, e, d, b, by simp, he, hd⟩
    split at h
    · next hc =>
      rw [List.tail_cons] at h
      cases hx : pieces p x with
      | nil => exact absurd hx (pieces_ne p x)
      | cons w ws =>
        rw [hx] at h
        rcases List.mem_cons.1 h with h | h
        · rcases pieces_head (p := p) (x := x) (by rw [hx, ← h]; rfl) with rfl | ⟨d, b, rfl, hd⟩
          · exact .inl ⟨[], c, rfl, hc⟩
          · exact .inr ⟨[], c, d, b, rfl, hc, hd⟩
        · exact up (pieces_tail (by rw [hx]; exact h))
    · cases hx : pieces p x with
      | nil => exact absurd hx (pieces_ne p x)
      | cons w ws =>
        rw [hx] at h
        exact up (pieces_tail (by rw [hx]; exact h))

theorem neat_iff {t : Str} : Neat t ↔ startsSp t = false ∧ endsSp t = false ∧ NoDouble t := by
  simp [Neat, startsSp, endsSp]

/-- A neat text is its words with a space between any two. -/
theorem neat_words {x : Str} (hn : Neat x) (hc : ∀ c ∈ x, xmlWhite c = true → c = ' ') : x = [' '].intercalate (wordsAt xmlWhite x) := by
  by_cases hx : x = []
  · subst hx; rfl
  · have : wordsAt xmlWhite x = pieces xmlWhite x := by
      rw [wordsAt, List.filter_eq_self]
      intro w hw
      rw [Bool.not_eq_true', List.isEmpty_eq_false_iff]
      rintro rfl
      cases hp : pieces xmlWhite x with
      | nil => exact pieces_ne _ _ hp
      | cons v vs =>
        rw [hp] at hw
        rcases List.mem_cons.1 hw with h | h
        · rcases pieces_head (p := xmlWhite) (x := x) (by rw [hp, ← h]; rfl) with h | ⟨c, b, rfl, h⟩
          · exact hx h
          · have := hc c (by simp) h
            exact hn.1 (by rw [this]; rfl)
        · rcases pieces_tail (p := xmlWhite) (x := x) (by rw [hp]; exact h) with ⟨a, c, rfl, h⟩ | ⟨a, c, d, b, rfl, h, h'⟩
          · have := hc c (by simp) h
            exact hn.2.1 (by rw [this]; simp)
          · have e1 := hc c (by simp) h
            have e2 := hc d (by simp) h'
            exact hn.2.2 a b (by rw [e1, e2])
    rw [this, intercalate_pieces hc]

theorem words_strip (t : Str) : wordsAt xmlWhite (strip t) = wordsAt xmlWhite t := by
  have key : ∀ t : Str, wordsAt xmlWhite (t.dropWhile (· == ' ')) = wordsAt xmlWhite t := by
    intro t
    induction t with
    | nil => rfl
    | cons c t ih =>
      rw [List.dropWhile_cons]
      split
      · next h =>
        have : c = ' ' := by simpa using h
        rw [ih, this, words_cons Sep.sp]
      · rfl
  have key' : ∀ t : Str, wordsAt xmlWhite (t.reverse.dropWhile (· == ' ')).reverse = wordsAt xmlWhite t := by
    intro t
    induction t using List.reverseRecOn with
    | nil => rfl
    | append_singleton t c ih =>
      rw [List.reverse_append, List.reverse_singleton, List.singleton_append, List.dropWhile_cons]
      split
      · next h =>
        have : c = ' ' := by simpa using h
        rw [ih, this, words_snoc Sep.sp]
      · simp
  rw [strip, key', key]

theorem words_map (t : Str) : wordsAt xmlWhite (t.map toSpace) = wordsAt xmlWhite t := by
  have := around_toSpace (p := xmlWhite) t [] []
  simpa using this

theorem words_squeeze (t : Str) : wordsAt xmlWhite (squeeze t) = wordsAt xmlWhite t := by
  have := around_squeeze (p := xmlWhite) t [] []
  simpa using this

theorem mem_strip {c : Char} {t : Str} (h : c ∈ strip t) : c ∈ t := by
  have h := List.mem_reverse.1 h
  have h := List.mem_reverse.1 ((List.dropWhile_suffix _).mem h)
  exact (List.dropWhile_suffix _).mem h

/-- Collapsing the spaces leaves the words with a space between any two. -/
theorem collapse_words (t : Str) : strip (squeeze (t.map toSpace)) = [' '].intercalate (wordsAt xmlWhite t) := by
  have hs := strip_sides (squeeze (t.map toSpace))
  have hn : Neat (strip (squeeze (t.map toSpace))) := neat_iff.2 ⟨hs.1, hs.2, noDouble_strip (noDouble_squeeze _)⟩
  have := neat_words hn ?_
  · rw [this, words_strip, words_squeeze, words_map]
  · intro c hc hw
    obtain ⟨d, _, rfl⟩ := List.mem_map.1 (mem_squeeze.1 (mem_strip hc))
    rw [xmlWhite, decide_eq_true_eq] at hw
    unfold toSpace at hw ⊢
    split
    · rfl
    · next h => rw [if_neg h, if_neg h] at hw; exact hw

/-! ## The theorems -/

/-- If no text consists of other white space than spaces, tabs and line ends, also the words at these are kept. -/
theorem words_xml {s t : St} (h1 : SafeReachable s) (h2 : RootSafeReachable s) (h : TextReady s) (e : s.prepareText = .ok t)
    {n : NodeId} (hn : TextRoot s n) (hw : ∀ j ∈ s.textsBelow n, Spaces (s.text j) ∨ Visible (s.text j)) :
    wordsAt xmlWhite (t.content n) = wordsAt xmlWhite (s.content n) := by
  obtain ⟨sp, F, K, hr⟩ := processed h1 h2 h e hn
  have hfst := hr.fst
  -- texts of other nodes do not matter
  set τ : Texts := fun j => if j ∈ s.textsBelow n then trimT (fun j => s.modeOf j sp) s.text (s.textsBelow n) j else [] with hτ
  have hg := group_runs (p := xmlWhite) (fun j => s.modeOf j sp) sp τ (s.textDepths K) (by rw [hfst]; exact hr.nodupBelow) ?_
  · rw [hfst] at hg
    have hcong := groupT_congr (μ := fun j => s.modeOf j sp) (ν := fun j => s.modeOf j sp) (S := s.textsBelow n) (fun _ _ => rfl) sp
      (s.textDepths K) τ (trimT (fun j => s.modeOf j sp) s.text (s.textsBelow n))
      (fun x hx => by rw [← hfst]; exact List.mem_map_of_mem hx) (fun j hj => by rw [hτ]; simp [hj])
    have h3 := hg [] (s.textsBelow n) [] (by simp)
    have h4 := trim_runs (p := xmlWhite) (fun j => s.modeOf j sp) s.text (s.textsBelow n) (s.textsBelow n) [] (s.textsBelow n) [] (by simp)
    rw [hr.content, St.content, ← h4]
    have e1 : (s.textsBelow n).flatMap t.text = (s.textsBelow n).flatMap (groupT (fun j => s.modeOf j sp) sp τ (s.textDepths K)) :=
      flatMap_congr' fun j hj => by rw [hr.text hj, hcong j hj]
    have e2 : (s.textsBelow n).flatMap τ = (s.textsBelow n).flatMap (trimT (fun j => s.modeOf j sp) s.text (s.textsBelow n)) :=
      flatMap_congr' fun j hj => by rw [hτ]; simp [hj]
    rw [e1, h3, e2]
  · intro j hj
    by_cases hjm : j ∈ s.textsBelow n
    · have e1 : τ j = spaced (s.modeOf j sp) (s.text j) := by rw [hτ]; simp [hjm, trimT, trimText_spaced]
      have hsub : ∀ c ∈ τ j, ∃ d ∈ s.text j, toSpace d = c := by
        intro c hc
        rw [e1] at hc
        cases hm : s.modeOf j sp with
        | default =>
          rw [hm] at hc
          obtain ⟨d, hd, hdc⟩ := List.mem_map.1 (mem_squeeze.1 hc)
          exact ⟨d, hd, hdc⟩
        | preserve =>
          rw [hm] at hc
          obtain ⟨d, hd, hdc⟩ := List.mem_map.1 hc
          exact ⟨d, hd, hdc⟩
      have hsup : ∀ d ∈ s.text j, toSpace d ∈ τ j := by
        intro d hd
        rw [e1]
        cases hm : s.modeOf j sp with
        | default => exact mem_squeeze.2 (List.mem_map_of_mem hd)
        | preserve => exact List.mem_map_of_mem hd
      rcases hw j hjm with hsp | ⟨c, hc, hcw⟩
      · rw [List.all_eq_true]
        intro c hc
        obtain ⟨d, hd, rfl⟩ := hsub c hc
        rw [hsp d hd]; decide
      · rw [isBlank, List.all_eq_true] at hj
        have := hj _ (hsup c hc)
        rw [toSpace_white, hcw] at this
        cases this
    · rw [hτ]; simp [hjm]

/-- C51, what always holds: collapsing the spaces of the result gives the collapsed text as written. So the result is right up to
superfluous spaces, in every mode, if no text consists of other white space than spaces, tabs and line ends. -/
theorem C51_collapsed {s t : St} (h1 : SafeReachable s) (h2 : RootSafeReachable s) (h : TextReady s) (e : s.prepareText = .ok t)
    {n : NodeId} (hn : TextRoot s n) (hw : ∀ j ∈ s.textsBelow n, Spaces (s.text j) ∨ Visible (s.text j)) :
    strip (squeeze (t.content n)) = strip (squeeze ((s.content n).map toSpace)) := by
  have hclean : (t.content n).map toSpace = t.content n := by
    obtain ⟨sp, F, K, hr⟩ := processed h1 h2 h e hn
    rw [hr.content]
    conv_rhs => rw [← List.map_id ((s.textsBelow n).flatMap t.text)]
    refine List.map_congr_left fun c hc => ?_
    obtain ⟨j, hj, hcj⟩ := List.mem_flatMap.1 hc
    obtain ⟨hl, hnj, hjt⟩ := hr.live_below hj
    have := C39_clean_partial h1 h2 h e hn.tree hn.starts hl hnj hjt c hcj
    unfold toSpace
    rw [if_neg]
    · rfl
    · simpa [not_or] using this
  rw [← hclean, collapse_words, collapse_words, words_xml h1 h2 h e hn hw]

/-- C51, exactly: the result is the collapsed text if and only if it has no superfluous space. -/
theorem C51_iff {s t : St} (h1 : SafeReachable s) (h2 : RootSafeReachable s) (h : TextReady s) (e : s.prepareText = .ok t)
    {n : NodeId} (hn : TextRoot s n) (hw : ∀ j ∈ s.textsBelow n, Spaces (s.text j) ∨ Visible (s.text j)) :
    t.content n = strip (squeeze ((s.content n).map toSpace)) ↔ Neat (t.content n) := by
  constructor
  · intro he
    rw [he]
    have hs := strip_sides (squeeze ((s.content n).map toSpace))
    exact neat_iff.2 ⟨hs.1, hs.2, noDouble_strip (noDouble_squeeze _)⟩
  · intro hN
    obtain ⟨a, b, c⟩ := neat_iff.1 hN
    rw [← C51_collapsed h1 h2 h e hn hw, collapse_normal c a b]

/-- Both sides of C51_iff occur: `<text> a<tspan>b </tspan></text>` keeps its last space. -/
example : ∃ s t n, SafeReachable s ∧ RootSafeReachable s ∧ TextReady s ∧ s.prepareText = .ok t ∧ TextRoot s n ∧
    (∀ j ∈ s.textsBelow n, Spaces (s.text j) ∨ Visible (s.text j)) ∧ t.content n = st!"ab " ∧ ¬ Neat (t.content n) := by
  obtain ⟨s, t, e, h1, h2, h3, et, hp⟩ := exists_text (x := bothEndsXml) (p := fun s t => s.secondIsText 3 &&
    decide (∀ j ∈ s.textsBelow 2, Spaces (s.text j) ∨ Visible (s.text j)) && decide (t.content 2 = st!"ab "))
    (by decide +kernel) (by decide +kernel)
  simp only [Bool.and_eq_true, decide_eq_true_eq] at hp
  obtain ⟨⟨q1, q2⟩, q3⟩ := hp
  refine ⟨s, t, 2, h1, h2, h3, et, textRoot_check h2 q1, q2, q3, ?_⟩
  rw [q3]
  exact fun h => h.2.1 rfl

/-- Of `⏎ a  b <tspan> c </tspan> <tspan>⇥d</tspan> ` the result is neat. -/
example : ∃ s t n, SafeReachable s ∧ RootSafeReachable s ∧ TextReady s ∧ s.prepareText = .ok t ∧ TextRoot s n ∧
    (∀ j ∈ s.textsBelow n, Spaces (s.text j) ∨ Visible (s.text j)) ∧ t.content n = st!"a b c d" ∧ Neat (t.content n) := by
  obtain ⟨s, t, e, h1, h2, h3, et, hp⟩ := exists_text (x := contentXml) (p := fun s t => s.secondIsText 3 &&
    decide (∀ j ∈ s.textsBelow 2, Spaces (s.text j) ∨ Visible (s.text j)) && decide (t.content 2 = st!"a b c d") &&
    decide (t.content 2 = strip (squeeze ((s.content 2).map toSpace)))) (by decide +kernel) (by decide +kernel)
  simp only [Bool.and_eq_true, decide_eq_true_eq] at hp
  obtain ⟨⟨⟨q1, q2⟩, q3⟩, q4⟩ := hp
  exact ⟨s, t, 2, h1, h2, h3, et, textRoot_check h2 q1, q2, q3, (C51_iff h1 h2 h3 et (textRoot_check h2 q1) q2).1 q4⟩

end Svgdom
