import Verif.Proof.XmlBuild

/-! The characters that were written, read as XML. -/

set_option autoImplicit false

namespace Svgdom

theorem gap_blank (o : XmlOptions) (p : Bool) (d : Nat) : isBlank (gap o p d) = true := by
  rw [isBlank, List.all_eq_true]
  intro c hc
  exact (space_ne (gap_space o p d c hc).1).2.2.2.2

/-- Names of the elements that keep white space. -/
theorem keeps_name {s : St} {i : NodeId} {e : ElementId} {x : Str} (he : s.tagName i = .id e) (hn : s.IsName i x)
    (hx : x = st!"text" ∨ x = st!"tspan" ∨ x = st!"tref") : e = .Text ∨ e = .Tspan ∨ e = .Tref := by
  unfold St.IsName at hn
  rw [he] at hn
  simp only at hn
  have h1 : ElementId.asStr? .Text = .ok st!"text" := by decide +kernel
  have h2 : ElementId.asStr? .Tspan = .ok st!"tspan" := by decide +kernel
  have h3 : ElementId.asStr? .Tref = .ok st!"tref" := by decide +kernel
  rcases hx with rfl | rfl | rfl
  · exact .inl (C28_element_injective _ _ (hn.trans h1.symm))
  · exact .inr (.inl (C28_element_injective _ _ (hn.trans h2.symm)))
  · exact .inr (.inr (C28_element_injective _ _ (hn.trans h3.symm)))

/-- White space in front. -/
theorem expand_gap {sc : Scope} {r : Raw} {y : Xml} (top : Bool) (g : Str) (hg : isBlank g = true) (keep : Bool) (hk : g = [] ∨ keep = false)
    (h : r.expand sc = some y) : ∃ y', (rawGap top g r).expand sc = some y' ∧ y'.unindent keep = y.unindent keep ∧
      y'.topElements = y.topElements ∧ (top = true → y'.topText = y.topText) := by
  unfold rawGap
  split
  · exact ⟨y, h, rfl, rfl, fun _ => rfl⟩
  · next hn =>
    rw [not_or] at hn
    rcases hk with hk | hk
    · exact absurd hk hn.2
    · refine ⟨.text g y, by simp [Raw.expand, h], ?_, rfl, fun ht => absurd ht hn.1⟩
      simp [Xml.unindent, hg, hk]

/-- Elements whose white space is kept. -/
def keepName (x : Str) : Bool := decide (x = st!"text" ∨ x = st!"tspan" ∨ x = st!"tref")

theorem unindent_element (ns : Option Str) (x : Str) (as : List XmlAttr) (k r : Xml) (keep : Bool) :
    (Xml.element ns x as k r).unindent keep = .element ns x as (k.unindent (keepName x)) (r.unindent keep) := rfl

theorem expand_element {sc : Scope} {x : Str} {attrs : List (Str × Str)} {kids rest : Raw} {y : Xml}
    (h : (Raw.element x attrs kids rest).expand sc = some y) :
    ∃ n as k r, expandName (scopeOf attrs ++ sc) x = some n ∧ kids.expand (scopeOf attrs ++ sc) = some k ∧ rest.expand sc = some r ∧
      y = .element n.1 n.2 as k r ∧ ∀ kids' rest' k' r', kids'.expand (scopeOf attrs ++ sc) = some k' → rest'.expand sc = some r' →
        (Raw.element x attrs kids' rest').expand sc = some (.element n.1 n.2 as k' r') := by
  simp only [Raw.expand, Option.bind_eq_some_iff] at h
  obtain ⟨n, e1, as, e2, h⟩ := h
  split at h
  · next hc =>
    simp only [Option.bind_eq_some_iff, Option.map_eq_some_iff] at h
    obtain ⟨k, e3, r, e4, rfl⟩ := h
    refine ⟨n, as, k, r, e1, e3, e4, rfl, fun kids' rest' k' r' g1 g2 => ?_⟩
    simp only [Raw.expand, e1, e2, Option.bind_some, hc, if_true, g1, g2, Option.map_some]
  · cases h

theorem expand_spaced (o : XmlOptions) {s : St} {kp : NodeId → Bool} {name : NodeId → Str} {ra : NodeId → List (Str × Str)} :
    ∀ (T : Trees) (top p keep : Bool) (d : Nat) (ge : Str) (sc : Scope) (y : Xml), T.Kinds s → T.SepText s → (∀ i ∈ T.pre, s.IsName i (name i)) →
    (o.indent = .none ∨ T.Fits s kp p) → (Tight o p ∨ keep = false) → isBlank ge = true → (ge = [] ∨ keep = false) →
    (T.raw s name ra .nil).expand sc = some y →
    ∃ y', (T.spaced o s kp name ra top p d (rawGap top ge .nil)).expand sc = some y' ∧ y'.unindent keep = y.unindent keep ∧
      y'.topElements = y.topElements ∧ (top = true → y'.topText = y.topText)
  | .nil, top, p, keep, d, ge, sc, y, _, _, _, _, _, hb, hge, h => expand_gap top ge hb keep hge h
  | .cons i K R, top, p, keep, d, ge, sc, y, hk, hse, hn, hi, ht, hb, hge, h => by
    have hk0 := hk
    have hse0 := hse
    obtain ⟨kK, kR, hkind⟩ := hk
    obtain ⟨sK, sR, hsep⟩ := hse
    have hR := fun y' => expand_spaced o (name := name) (ra := ra) R top p keep d ge sc y' kR sR
      (fun j hj => hn j (by simp [Trees.pre, hj])) (hi.imp id (·.2.2.2)) ht hb hge
    have hgk : gap o p d = [] ∨ keep = false := ht.imp (fun h => gap_tight h d) id
    have hgb := gap_blank o p d
    rcases hkind with ⟨h1, e, he⟩ | ⟨h1, rfl, h2⟩ | ⟨h1, rfl⟩
    · have hraw : (Trees.cons i K R).raw s name ra .nil = .element (name i) (ra i) (K.raw s name ra .nil) (R.raw s name ra .nil) := by
        simp only [Trees.raw, h1]
      rw [hraw] at h
      obtain ⟨nm, as, k, r, e1, e3, e4, rfl, hel⟩ := expand_element h
      obtain ⟨r', f1, f2, f3, f4⟩ := hR r e4
      have hin := hn i (by simp [Trees.pre])
      have hspl : splitName (name i) = some (none, name i) := by
        have := hin
        unfold St.IsName at this
        rw [he] at this
        exact (elem_name_ok e this).2
      have hnm : nm.2 = name i := by
        simp only [expandName, hspl, Option.some.injEq] at e1
        rw [← e1]
      have hpk : Tight o (p || kp i) ∨ keepName nm.2 = false := by
        cases hx : keepName nm.2 with
        | false => exact .inr rfl
        | true =>
          left
          rw [hnm, keepName, decide_eq_true_eq] at hx
          refine hi.imp id fun h => h.2.1 h1 ?_
          rw [he]
          rcases keeps_name he hin hx with rfl | rfl | rfl
          · exact .inl rfl
          · exact .inr (.inl rfl)
          · exact .inr (.inr rfl)
      have hkids : ∃ k', (if K.isNil then Raw.nil
          else K.spaced o s kp name ra false (p || kp i) (d + 1) (rawGap false (gap o (p || kp i) d) .nil)).expand
            (scopeOf (ra i) ++ sc) = some k' ∧ k'.unindent (keepName nm.2) = k.unindent (keepName nm.2) := by
        cases hnil : K.isNil with
        | true =>
          cases K with
          | nil => exact ⟨k, e3, rfl⟩
          | cons _ _ _ => cases hnil
        | false =>
          obtain ⟨k', g1, g2, _⟩ := expand_spaced o (name := name) (ra := ra) K false (p || kp i) (keepName nm.2) (d + 1)
            (gap o (p || kp i) d) _ k kK sK (fun j hj => hn j (by simp [Trees.pre, hj]))
            (hi.imp id (·.2.2.1)) hpk (gap_blank o _ d) (hpk.imp (fun h => gap_tight h d) id) e3
          exact ⟨k', g1, g2⟩
      obtain ⟨k', g1, g2⟩ := hkids
      obtain ⟨y', y1, y2, y3, y4⟩ := expand_gap top (gap o p d) hgb keep hgk (hel _ _ _ _ g1 f1)
      refine ⟨y', ?_, ?_, ?_, ?_⟩
      · simp only [Trees.spaced, h1]; exact y1
      · rw [y2, unindent_element, unindent_element, f2, g2]
      · rw [y3]; simp only [Xml.topElements, f3]
      · intro htop
        rw [y4 htop]; simp only [Xml.topText, f4 htop]
    · rw [raw_text h1 hk0 hse0] at h
      simp only [Raw.expand, Option.map_eq_some_iff] at h
      obtain ⟨r, e4, rfl⟩ := h
      obtain ⟨r', f1, f2, f3, f4⟩ := hR r e4
      refine ⟨.text (s.text i) r', by simp only [Trees.spaced, h1, Raw.expand, f1, Option.map_some], by simp only [Xml.unindent, f2], ?_,
        fun _ => rfl⟩
      simp only [Xml.topElements, f3]
    · rw [raw_comment h1 hk0] at h
      simp only [Raw.expand, Option.map_eq_some_iff] at h
      obtain ⟨r, e4, rfl⟩ := h
      obtain ⟨r', f1, f2, f3, f4⟩ := hR r e4
      obtain ⟨y', y1, y2, y3, y4⟩ := expand_gap (r := .comment (s.text i) (R.spaced o s kp name ra top p d (rawGap top ge .nil))) (sc := sc)
        (y := .comment (s.text i) r') top (gap o p d) hgb keep hgk (by simp only [Raw.expand, f1, Option.map_some])
      refine ⟨y', ?_, ?_, ?_, ?_⟩
      · simp only [Trees.spaced, h1]; exact y1
      · rw [y2]; simp only [Xml.unindent, f2]
      · rw [y3]; simp only [Xml.topElements, f3]
      · intro htop
        rw [y4 htop]; simp only [Xml.topText, f4 htop]

/-! ### The start of the document -/

/-- Without the white space before the first node. -/
theorem chars_first (o : XmlOptions) {s : St} {keep : NodeId → Bool} {q : Char} {name : NodeId → Str} {attrs : NodeId → List Ev} {ra : NodeId → List (Str × Str)}
    {i : NodeId} {K R : Trees} {p : Bool} {d : Nat} {rest : Str} {l : List Tok} (hk : (Trees.cons i K R).Kinds s)
    (hse : (Trees.cons i K R).SepText s) (hp : ∀ j ∈ (Trees.cons i K R).pre, Parts s q name attrs ra j)
    (hi : o.indent = .none ∨ (Trees.cons i K R).Fits s keep p) (hh : Tight o p → ∀ c, rest.head? = some c → c = '<') (hr : Lexes rest l)
    (hty : s.nodeType i ≠ .text) :
    ∃ cs ts, (Trees.cons i K R).chars o s keep name attrs p d = gap o p d ++ cs ∧ (Trees.cons i K R).toks o s keep name ra p d = gapTok (gap o p d) ++ ts ∧
      Lexes (cs ++ rest) (ts ++ l) := by
  obtain ⟨kK, kR, hkind⟩ := hk
  obtain ⟨sK, sR, hsep⟩ := hse
  have hpi := hp i (by simp [Trees.pre])
  have hR := chars_lex o (name := name) (attrs := attrs) (ra := ra) R p d rest l kR sR (fun j hj => hp j (by simp [Trees.pre, hj]))
    (hi.imp id (·.2.2.2)) hh hr
  have hgs : ∀ p d, ∀ c ∈ gap o p d, xmlSpace c = true := fun p d c hc => (gap_space o p d c hc).1
  rcases hkind with ⟨h1, e, he⟩ | ⟨h1, rfl, h2⟩ | ⟨h1, rfl⟩
  · cases hnil : K.isNil with
    | true =>
      have := Lexes.start o d (hpi.name h1) (hpi.attrs h1) true hR
      refine ⟨'<' :: name i ++ (attrs i).flatMap (evText o d) ++ st!"/>" ++ R.chars o s keep name attrs p d,
        .start (name i) (ra i) true :: R.toks o s keep name ra p d, ?_, ?_, ?_⟩
      · simp [Trees.chars, h1, hnil]
      · simp [Trees.toks, h1, hnil]
      · simpa [tagEnd] using this
    | false =>
      have hstop := Lexes.stop (hpi.name h1) hR
      have hstop := Lexes.gap (hgs (p || keep i) d) (by simp) hstop
      have hK := chars_lex o (name := name) (attrs := attrs) (ra := ra) K (p || keep i) (d + 1) _ _ kK sK
        (fun j hj => hp j (by simp [Trees.pre, hj])) (hi.imp id (·.2.2.1)) (by
          intro ht c hc
          rw [gap_tight ht] at hc
          simp at hc
          exact hc.symm) hstop
      have := Lexes.start o d (hpi.name h1) (hpi.attrs h1) false hK
      refine ⟨'<' :: name i ++ (attrs i).flatMap (evText o d) ++ '>' :: K.chars o s keep name attrs (p || keep i) (d + 1) ++
          gap o (p || keep i) d ++ st!"</" ++ name i ++ st!">" ++ R.chars o s keep name attrs p d,
        .start (name i) (ra i) false :: (K.toks o s keep name ra (p || keep i) (d + 1) ++ gapTok (gap o (p || keep i) d) ++
          [.stop (name i)]) ++ R.toks o s keep name ra p d, ?_, ?_, ?_⟩
      · simp [Trees.chars, h1, hnil]
      · simp [Trees.toks, h1, hnil]
      · simpa [tagEnd] using this
  · exact absurd h1 hty
  · have := Lexes.comment (hpi.comment h1) hR
    refine ⟨st!"<!--" ++ s.text i ++ st!"-->" ++ R.chars o s keep name attrs p d, .comment (s.text i) :: R.toks o s keep name ra p d, ?_, ?_, ?_⟩
    · simp [Trees.chars, h1]
    · simp [Trees.toks, h1]
    · simpa using this

theorem build_ungap {g : Str} (hg : ∀ c ∈ g, xmlSpace c = true ∧ c ≠ '\r') {l : List Tok} {st : List (Option Str × Raw)} {r : Raw}
    (h : build (gapTok g ++ l) st = some [(none, r)]) : build l st = some [(none, r)] := by
  rw [build_append, Option.bind_eq_some_iff] at h
  obtain ⟨st', h1, h2⟩ := h
  rw [h1]
  cases st' with
  | nil =>
    unfold gapTok at h2
    split at h2
    · cases h2
    · simp [build, buildStep] at h2
  | cons a st' =>
    obtain ⟨m, r'⟩ := a
    rw [build_gap hg] at h2
    cases m with
    | none => simpa [rawGap] using h2
    | some n => simp at h2

/-- Nothing written yet: no white space before the first node. -/
theorem render_first (o : XmlOptions) {s : St} {name : NodeId → Str} {attrs : NodeId → List Ev} {i : NodeId} {K R : Trees}
    (hk : (Trees.cons i K R).Kinds s) (hty : s.nodeType i ≠ .text) (l : List Ev) :
    render o ⟨false, false, [], false⟩ ((Trees.cons i K R).allCalls s name attrs ++ l) =
      gap o false 0 ++ render o ⟨true, false, [], false⟩ ((Trees.cons i K R).allCalls s name attrs ++ l) := by
  obtain ⟨_, _, hk⟩ := hk
  have hg : gap o false 0 = (⟨false, false, [], false⟩ : Pen).newLine o := by
    unfold gap Pen.newLine
    cases hi : o.indent <;> simp [Indent.str]
  have hm : ∀ b, (⟨b, false, [], false⟩ : Pen).margin o = [] := by
    intro b
    unfold Pen.margin
    cases hi : o.indent <;> simp [Indent.str]
  rcases hk with ⟨h1, _⟩ | ⟨h1, _⟩ | ⟨h1, _⟩
  · simp [Trees.allCalls, startCalls, h1, render, Pen.closed, hg, hm]
  · exact absurd h1 hty
  · simp [Trees.allCalls, startCalls, h1, render, Pen.closed, hg, hm]

/-- The characters that are written for trees can be read; up to white space they are the elements of the calls. `s'`: texts with the
white space that is written around them. -/
theorem text_read (o : XmlOptions) {s s' : St} {keep : NodeId → Bool} {q : Char} {name : NodeId → Str} {attrs : NodeId → List Ev}
    {ra : NodeId → List (Str × Str)} {T : Trees} {x : Xml} (hk : T.Kinds s) (hk' : T.Kinds s') (hse : T.SepText s')
    (hn : ∀ i ∈ T.pre, s'.IsName i (name i))
    (ha : ∀ i ∈ T.pre, ∀ e ∈ attrs i, e.isAttribute = true) (hp : ∀ i ∈ T.pre, Parts s' q name attrs ra i)
    (ht : ∀ i ∈ T.tops, s.nodeType i ≠ .text) (ht' : ∀ i ∈ T.tops, s'.nodeType i ≠ .text) (hi : o.indent = .none ∨ T.Apart s false)
    (hi' : o.indent = .none ∨ T.Fits s' keep false)
    (hc : T.chars o s (startsText s) name attrs false 0 = T.chars o s' keep name attrs false 0)
    (hx : (T.raw s' name ra .nil).expand xmlScope = some x) (h1 : x.topElements = 1) (h2 : x.topText = false) {l : List Ev}
    (hl : l = [] ∨ l = [.preserve false]) :
    ∃ x', readText (render o {} (T.allCalls s name attrs ++ l)) = some x' ∧ x'.unindent false = x.unindent false := by
  cases T with
  | nil =>
    simp only [Trees.raw, Raw.expand, Option.some.injEq] at hx
    rw [← hx] at h1
    simp [Xml.topElements] at h1
  | cons i K R =>
    have hty := ht i (by simp [Trees.tops])
    have hty' := ht' i (by simp [Trees.tops])
    -- the characters
    obtain ⟨b', hb', hr⟩ := render_trees o (s := s) (name := name) (attrs := attrs) (.cons i K R) false false hk ha (hi.imp id fun h => ⟨h, rfl⟩)
    have hr := hr [] l
    have hrest : render o ⟨false, false, [], b'⟩ l = gap o false 0 := by
      have hg : gap o false 0 = (⟨false, false, [], b'⟩ : Pen).newLine o := by
        unfold gap Pen.newLine
        rcases hb' with h | h
        · simp [h]
        · cases hi : o.indent <;> simp [Indent.str, h]
      have hg2 : gap o false 0 = (⟨false, false, [], false⟩ : Pen).newLine o := by
        unfold gap Pen.newLine
        cases hi : o.indent <;> simp [Indent.str]
      rcases hl with rfl | rfl
      · rw [render, hg]
      · simp only [render, hg2]
    rw [render_first o hk hty, hrest] at hr
    have hgl : Lexes (gap o false 0) (gapTok (gap o false 0)) := by
      have := Lexes.gap (fun c hc => (gap_space o false 0 c hc).1) (rest := []) (by simp) Lexes.nil
      simpa using this
    obtain ⟨cs, ts, c1, c2, c3⟩ := chars_first o (d := 0) hk' hse hp hi' (rest := gap o false 0) (by
      intro h; rw [gap_tight h]; simp) hgl hty'
    rw [List.length_nil, hc, c1, List.append_assoc, List.append_cancel_left_eq] at hr
    -- the pieces
    have hb := build_toks o (keep := keep) (name := name) (attrs := attrs) (ra := ra) (.cons i K R) none false 0 .nil [] hk' hp (fun _ => ht')
    rw [c2] at hb
    have hb := build_ungap (gap_space o false 0) hb
    have hb2 : build (ts ++ gapTok (gap o false 0)) [(none, .nil)] =
        some [(none, (Trees.cons i K R).spaced o s' keep name ra true false 0 .nil)] := by
      rw [build_append, build_gap (gap_space o false 0), Option.bind_some]
      exact hb
    obtain ⟨x', x1, x2, x3, x4⟩ := expand_spaced o (ra := ra) (.cons i K R) true false false 0 [] xmlScope x hk' hse hn hi' (.inr rfl) rfl
      (.inl rfl) hx
    refine ⟨x', ?_, x2⟩
    have hrr : render o {} ((Trees.cons i K R).allCalls s name attrs ++ l) = cs ++ gap o false 0 := hr
    have hx1 : ((Trees.cons i K R).spaced o s' keep name ra true false 0 .nil).expand xmlScope = some x' := x1
    rw [hrr, readText, c3 _ (Nat.le_refl _), Option.bind_some, hb2]
    simp only [hx1, x3, h1, x4 rfl, h2]
    rfl

end Svgdom
