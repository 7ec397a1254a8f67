import Verif.Proof.Words
import Verif.Props.TextExact

/-!
# Property C105: text processing neither joins nor splits words

`s` is the document before and `t` the document after `prepare_text`. Words are separated by what `str::trim` takes for white space.
-/

set_option autoImplicit false

namespace Svgdom

/-! ## The texts below any element -/

/-- The texts that are left below an element. -/
theorem left_below {s t : St} (h1 : SafeReachable s) (h2 : RootSafeReachable s) (h : TextReady s) (e : s.prepareText = .ok t)
    {n : NodeId} (hn : s.InTree n) (hel : s.nodeType n ≠ .text) :
    t.textsBelow n = (s.textsBelow n).filter fun j => decide (t.text j ≠ []) := by
  have hb : Built s := ⟨h1, h2⟩
  obtain ⟨F, T, u, hF, hT, hp⟩ := prepared_ok h1 h2 h e
  have hm := prepared_mem hb hF hT hp
  have hnl := hn.1
  have hnT : n ∈ T.pre := (hm n).1.1 hn
  obtain ⟨K, hK, hKl, hnd, hnK, _⟩ := kids_tree hb hF hnl
  have hbelow := filter_text_below hb hF hnl hK hel
  have hty : ∀ j, t.nodeType j = s.nodeType j := fun j => (hp.removed.types j).trans (hp.ti.types j)
  have hreg := h.region hb hF hT
  have hsub := sub_pre hT n hnT hK
  have hgone : K.gone u.emptyText = K.pre.filter u.emptyText := by
    refine gone_leaf hK fun j hj hjt => ?_
    by_contra hne
    have := (hreg j (hsub j hj)).kids hne
    rw [emptyText_iff, hp.ti.types, this] at hjt
    simp at hjt
  have hS : ∀ j ∈ K.pre, j ∈ T.pre.filter u.emptyText ↔ j ∈ K.gone u.emptyText := by
    intro j hj
    rw [hgone, List.mem_filter, List.mem_filter]
    exact ⟨fun hx => ⟨hj, hx.2⟩, fun hx => ⟨hsub j hj, hx.2⟩⟩
  have hof := keep_of hK hnd hS
  have hpre := keep_pre hnd hS
  have hnS : n ∉ T.pre.filter u.emptyText := by
    intro hx
    have := (emptyText_iff.1 (List.mem_filter.1 hx).2).1
    rw [hp.ti.types] at this; exact hel this
  have hkids : (F.prune (T.pre.filter u.emptyText)).kids n = (F.kids n).filter fun j => decide (j ∉ T.pre.filter u.emptyText) := by
    simp only [Forest.prune, if_neg hnS]
  rw [← hkids] at hof
  have hbt := filter_text_below hp.built hp.desc (by rw [hp.removed.live, hp.ti.live]; exact hnl) hof (by rw [hty]; exact hel)
  rw [hbt, hpre, hbelow, List.filter_filter, List.filter_filter]
  refine List.filter_congr fun j hj => ?_
  have h1 : t.isText j = s.isText j := by rw [St.isText, St.isText, hty]
  rw [h1]
  by_cases hjt : s.isText j = true
  · have h2 : (j ∈ T.pre.filter u.emptyText) ↔ t.text j = [] := by
      rw [List.mem_filter, emptyText_iff, hp.ti.types, hp.removed.texts]
      exact ⟨fun hx => hx.2.2, fun hx => ⟨hsub j hj, of_decide_eq_true hjt, hx⟩⟩
    rw [hjt]
    simp [h2]
  · simp [hjt]

theorem content_left {s t : St} (h1 : SafeReachable s) (h2 : RootSafeReachable s) (h : TextReady s) (e : s.prepareText = .ok t)
    {n : NodeId} (hn : s.InTree n) (hel : s.nodeType n ≠ .text) : t.content n = (s.textsBelow n).flatMap t.text := by
  rw [St.content, left_below h1 h2 h e hn hel]
  have : ∀ l : List NodeId, (l.filter fun j => decide (t.text j ≠ [])).flatMap t.text = l.flatMap t.text := by
    intro l
    induction l with
    | nil => rfl
    | cons a l ih =>
      by_cases ha : t.text a = []
      · rw [List.filter_cons_of_neg (by simp [ha]), ih, List.flatMap_cons, ha, List.nil_append]
      · rw [List.filter_cons_of_pos (by simp [ha]), List.flatMap_cons, ih, List.flatMap_cons]
  exact this _

/-- The nodes below a node are a run of the nodes. -/
theorem run_pre {F : Forest} : ∀ {T : Trees} {l : List NodeId}, T.Of F l → ∀ e ∈ T.pre, ∀ {K : Trees}, K.Of F (F.kids e) →
    ∃ A B, T.pre = A ++ K.pre ++ B
  | .nil, _, _, e, he => by simp [Trees.pre] at he
  | .cons i A R, l, hT, e, he => by
    intro hK
    obtain ⟨l', rfl, hA, hR⟩ := hT
    simp only [Trees.pre, List.mem_cons, List.mem_append] at he ⊢
    rcases he with rfl | he | he
    · cases hA.unique hK
      exact ⟨[e], R.pre, by simp⟩
    · obtain ⟨P, Q, h⟩ := run_pre hA e he hK
      exact ⟨i :: P, Q ++ R.pre, by rw [h]; simp⟩
    · obtain ⟨P, Q, h⟩ := run_pre hR e he hK
      exact ⟨i :: (A.pre ++ P), Q, by rw [h]; simp⟩

/-! ## C105 -/

instance : Sep isWhite := ⟨fun c h => by rw [← toSpace_white, h]; decide⟩

/-- C105: every run of texts below a text root has the words it had. -/
theorem C105_run {s t : St} (h1 : SafeReachable s) (h2 : RootSafeReachable s) (h : TextReady s) (e : s.prepareText = .ok t)
    {n : NodeId} (hn : TextRoot s n) {A S B : List NodeId} (hS : s.textsBelow n = A ++ S ++ B) :
    words (S.flatMap t.text) = words (S.flatMap s.text) := by
  obtain ⟨sp, F, K, hr⟩ := processed h1 h2 h e hn
  have hg := group_runs (p := isWhite) (fun j => s.modeOf j sp) sp (trimT (fun j => s.modeOf j sp) s.text (s.textsBelow n)) (s.textDepths K)
    (by rw [hr.fst]; exact hr.nodupBelow) (fun j h => h)
  rw [hr.fst] at hg
  have := hg.trans (trim_runs (fun j => s.modeOf j sp) s.text (s.textsBelow n) (s.textsBelow n)) A S B hS
  rw [words, words, ← this]
  congr 1
  exact flatMap_congr' fun j hj => hr.text (by rw [hS]; simp [hj])

/-- C105: an element at which text processing starts and every element below it has the words it had. -/
theorem C105_element {s t : St} (h1 : SafeReachable s) (h2 : RootSafeReachable s) (h : TextReady s) (e : s.prepareText = .ok t)
    {n i : NodeId} (hn : TextRoot s n) (hi : i = n ∨ (s.live i = true ∧ s.Ancestor n i)) (hel : s.nodeType i ≠ .text) :
    words (t.content i) = words (s.content i) := by
  have hb : Built s := ⟨h1, h2⟩
  have hin : s.InTree i := by
    rcases hi with rfl | ⟨hl, ha⟩
    · exact hn.tree
    · exact ⟨hl, ha.trans hn.tree.2⟩
  have hrun : ∃ A B, s.textsBelow n = A ++ s.textsBelow i ++ B := by
    rcases hi with rfl | ⟨hl, ha⟩
    · exact ⟨[], [], by simp⟩
    · obtain ⟨sp, G, K, hr⟩ := processed h1 h2 h e hn
      have hiK : i ∈ K.pre := (mem_pre_kids hr.desc hr.live hr.of hl).2 ha
      obtain ⟨Ki, hKi, _⟩ := kids_tree hb hr.desc hl
      obtain ⟨A, B, hAB⟩ := run_pre hr.of i hiK hKi
      refine ⟨A.filter fun j => s.isText j, B.filter fun j => s.isText j, ?_⟩
      rw [hr.below, hAB, filter_text_below hb hr.desc hl hKi hel]
      simp
  obtain ⟨A, B, hAB⟩ := hrun
  rw [content_left h1 h2 h e hin hel]
  exact C105_run h1 h2 h e hn hAB

/-- C105: every text node has the words it had. -/
theorem C105_text {s t : St} (h1 : SafeReachable s) (h2 : RootSafeReachable s) (h : TextReady s) (e : s.prepareText = .ok t)
    (j : NodeId) : words (t.text j) = words (s.text j) := by
  by_cases hin : s.InTree j
  · by_cases hno : ∀ a, s.InTree a → StartsWithText s a → ¬ s.Ancestor a j
    · rw [C39_untouched_partial h1 h2 h e hno]
    · simp only [not_forall, not_not] at hno
      obtain ⟨a, ha, hs, haj⟩ := hno
      obtain ⟨o, ho, hoa⟩ := exists_textRoot ⟨h1, h2⟩ ha hs
      obtain ⟨sp, F, K, hr⟩ := processed h1 h2 h e ho
      by_cases hjt : s.nodeType j = .text
      · have hoj : s.Ancestor o j := by
          rcases hoa with rfl | hoa
          · exact haj
          · exact haj.trans hoa
        obtain ⟨A, B, hAB⟩ := List.append_of_mem ((hr.mem hin.1).2 ⟨hoj, hjt⟩)
        have := C105_run h1 h2 h e ho (A := A) (S := [j]) (B := B) (by rw [hAB]; simp)
        simpa using this
      · rw [(C37_rest h1 h2 h e j).2.2.2.2 hjt]
  · rw [text_outside h1 h2 h e hin]

/-! ## What does not hold -/

/-- `<svg><text>a <tspan>&#160; <tspan> </tspan></tspan> b</text></svg>`. -/
def nbspXml : Xml := xe st!"svg" [] (xe st!"text" [] (.text st!"a " (xe st!"tspan" [] (.text [Char.ofNat 160, ' ']
  (xe st!"tspan" [] (.text st!" " .nil) .nil)) (.text st!" b" .nil))) .nil) .nil

/-- C105 is about all white space: if a no-break space counts as a letter, two words are joined. -/
theorem C105_nbsp : ∃ x s t n, beforeText x = .ok s ∧ SafeReachable s ∧ RootSafeReachable s ∧ TextReady s ∧ s.prepareText = .ok t ∧
    TextRoot s n ∧ wordsAt xmlWhite (s.content n) = [st!"a", [Char.ofNat 160], st!"b"] ∧
    wordsAt xmlWhite (t.content n) = [['a', Char.ofNat 160], st!"b"] := by
  obtain ⟨s, t, e, h1, h2, h3, et, hp⟩ := exists_text (x := nbspXml) (p := fun s t => s.secondIsText 3 &&
    decide (wordsAt xmlWhite (s.content 2) = [st!"a", [Char.ofNat 160], st!"b"]) &&
    decide (wordsAt xmlWhite (t.content 2) = [['a', Char.ofNat 160], st!"b"])) (by decide +kernel) (by decide +kernel)
  simp only [Bool.and_eq_true, decide_eq_true_eq] at hp
  obtain ⟨⟨q1, q2⟩, q3⟩ := hp
  exact ⟨_, s, t, 2, e, h1, h2, h3, et, textRoot_check h2 q1, q2, q3⟩

/-- `<svg><text>a </text><text>b</text></svg>`. -/
def neighboursXml : Xml := xe st!"svg" [] (xe st!"text" [] (.text st!"a " .nil) (xe st!"text" [] (.text st!"b" .nil) .nil)) .nil

/-- C105 is about one text element at a time: between two of them no space is kept. -/
theorem C105_neighbours : ∃ x s t, beforeText x = .ok s ∧ SafeReachable s ∧ RootSafeReachable s ∧ TextReady s ∧ s.prepareText = .ok t ∧
    s.InTree 1 ∧ words (s.content 1) = [st!"a", st!"b"] ∧ words (t.content 1) = [st!"ab"] := by
  obtain ⟨s, t, e, h1, h2, h3, et, hp⟩ := exists_text (x := neighboursXml) (p := fun s t => s.live 1 && decide (s.parent 1 = some s.rootId) &&
    decide (words (s.content 1) = [st!"a", st!"b"]) &&
    decide (words (t.content 1) = [st!"ab"])) (by decide +kernel) (by decide +kernel)
  simp only [Bool.and_eq_true, decide_eq_true_eq] at hp
  obtain ⟨⟨⟨q1, q2⟩, q3⟩, q4⟩ := hp
  exact ⟨_, s, t, e, h1, h2, h3, et, ⟨q1, .single q2⟩, q3, q4⟩

/-- `<svg><text>⏎ a <tspan> b</tspan><tspan>c </tspan>  </text></svg>`. -/
def wordsXml : Xml := xe st!"svg" [] (xe st!"text" [] (.text st!"\n a " (xe st!"tspan" [] (.text st!" b" .nil)
  (xe st!"tspan" [] (.text st!"c " .nil) (.text st!"  " .nil)))) .nil) .nil

/-- C105: spaces go at both ends and inside, `b` and `c` stay one word. -/
example : ∃ s t n i, SafeReachable s ∧ RootSafeReachable s ∧ TextReady s ∧ s.prepareText = .ok t ∧ TextRoot s n ∧
    s.live i = true ∧ s.Ancestor n i ∧ s.nodeType i ≠ .text ∧ s.textsBelow n = [3] ++ [5, 7] ++ [8] ∧
    s.content n = st!"\n a  bc   " ∧ t.content n = st!"a bc" ∧ words (t.content n) = [st!"a", st!"bc"] ∧ words (t.content i) = [st!"c"] := by
  obtain ⟨s, t, e, h1, h2, h3, et, hp⟩ := exists_text (x := wordsXml) (p := fun s t => s.secondIsText 3 && s.live 6 &&
    decide (s.parent 6 = some 2) && decide (s.nodeType 6 ≠ .text) && decide (s.textsBelow 2 = [3] ++ [5, 7] ++ [8]) &&
    decide (s.content 2 = st!"\n a  bc   ") && decide (t.content 2 = st!"a bc") &&
    decide (words (t.content 2) = [st!"a", st!"bc"]) && decide (words (t.content 6) = [st!"c"])) (by decide +kernel) (by decide +kernel)
  simp only [Bool.and_eq_true, decide_eq_true_eq] at hp
  obtain ⟨⟨⟨⟨⟨⟨⟨⟨q1, q2⟩, q3⟩, q4⟩, q5⟩, q6⟩, q7⟩, q8⟩, q9⟩ := hp
  exact ⟨s, t, 2, 6, h1, h2, h3, et, textRoot_check h2 q1, q2, .single q3, q4, q5, q6, q7, q8, q9⟩

end Svgdom
