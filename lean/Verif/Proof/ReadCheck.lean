import Verif.Spec.Read
import Verif.Spec.AcyclicCheck

/-! Checkers for concrete documents. -/

set_option autoImplicit false

namespace Svgdom

/-- The trees can be read off the links. -/
def Trees.check (s : St) : Trees → Option NodeId → Bool
  | nil, o => o.isNone
  | cons n K R, o => decide (o = some n) && K.check s (s.firstChild n) && R.check s (s.nextSibling n)

theorem after_suffix {x : NodeId} {l' : List NodeId} : ∀ {l : List NodeId}, l.Nodup → (x :: l') <:+ l → after l x = l'.head?
  | [], _, h => by simp at h
  | a :: l, hn, h => by
    rw [List.suffix_cons_iff] at h
    rw [List.nodup_cons] at hn
    rcases h with h | h
    · cases h; simp [after]
    · have hx : x ∈ l := h.subset (by simp)
      have : a ≠ x := by rintro rfl; exact hn.1 hx
      rw [after, if_neg this]
      exact after_suffix hn.2 h

theorem check_of {s : St} {F : Forest} (hF : Describes s F) : ∀ (T : Trees) (l : List NodeId) (p : NodeId), s.live p = true →
    l <:+ F.kids p → T.check s l.head? = true → T.Of F l
  | .nil, l, _, _, _, h => by
    simp only [Trees.check, Option.isNone_iff_eq_none, List.head?_eq_none_iff] at h
    exact h
  | .cons n K R, l, p, hp, hl, h => by
    simp only [Trees.check, Bool.and_eq_true, decide_eq_true_eq] at h
    obtain ⟨⟨h1, h2⟩, h3⟩ := h
    cases l with
    | nil => simp at h1
    | cons m l' =>
      cases h1
      have hn := hF.wf.kids p hp n (hl.subset (by simp))
      rw [hF.shows.first n hn.1] at h2
      have hs := (hF.wf.par n hn.1 p hn.2).2
      rw [hF.shows.next n hn.1, after_suffix (hF.wf.nodup n hn.1) (by rw [← hs]; exact hl)] at h3
      exact ⟨l', rfl, check_of hF K _ n hn.1 (List.suffix_refl _) h2, check_of hF R l' p hp ((List.suffix_cons n l').trans hl) h3⟩

def Trees.sepB (s : St) : Trees → Bool
  | nil => true
  | cons n K R => K.sepB s && R.sepB s &&
    match R with
    | nil => true
    | cons m _ _ => !(decide (s.nodeType n = .text) && decide (s.nodeType m = .text))

theorem sep_of_check {s : St} : ∀ {T : Trees}, T.sepB s = true → T.SepText s
  | .nil, _ => trivial
  | .cons n K .nil, h => by
    simp only [Trees.sepB, Bool.and_eq_true] at h
    exact ⟨sep_of_check h.1.1, trivial, trivial⟩
  | .cons n K (.cons m K' R'), h => by
    simp only [Trees.sepB, Bool.and_eq_true, Bool.not_eq_true', Bool.and_eq_false_iff, decide_eq_false_iff_not] at h
    refine ⟨sep_of_check h.1.1, sep_of_check (T := .cons m K' R') (by simp only [Trees.sepB, Bool.and_eq_true]; simpa using h.1.2), ?_⟩
    rintro ⟨a, b⟩
    rcases h.2 with h | h
    · exact h a
    · exact h b

def kindB (s : St) (n : NodeId) : Bool :=
  match s.nodeType n with
  | .element => (match s.tagName n with | .id _ => true | .name _ => false) && plainValue (s.idOf n)
  | .text => decide (s.firstChild n = none) && decide (s.text n ≠ []) && plainContent (s.text n)
  | .comment => decide (s.firstChild n = none) && plainComment (s.text n)
  | .root => false

def attrB (s : St) (W : ValueWriter) (q : Char) (a : Attribute) : Bool :=
  match a.name with
  | .id i => decide (i ≠ .Id) && decide (i ≠ .Xmlns) && ((s.written W i a.value).bind (readAttr q)).isSome
  | .name _ => false

def wellFormedB (s : St) (W : ValueWriter) (q : Char) (T : Trees) : Bool :=
  T.pre.all (kindB s) && T.sepB s &&
  (match T.tops.filter (fun m => decide (s.nodeType m ≠ .comment)) with
    | [n] => decide (s.nodeType n = .element) && decide (s.tagName n = .id .Svg)
    | _ => false) &&
  T.pre.all fun n => (s.attributes n).all (attrB s W q)

theorem wellFormed_of_check {s : St} {W : ValueWriter} {q : Char} {T : Trees} (h : wellFormedB s W q T = true) : WellFormed s W q T := by
  simp only [wellFormedB, Bool.and_eq_true, List.all_eq_true] at h
  obtain ⟨⟨⟨h1, h2⟩, h3⟩, h4⟩ := h
  refine ⟨?_, sep_of_check h2, ?_, ?_⟩
  · intro n hn
    have := h1 n hn
    unfold kindB at this
    split at this
    · next ht =>
      rw [Bool.and_eq_true] at this
      split at this
      · next e he => exact .inl ⟨ht, ⟨e, he⟩, this.2⟩
      · simp at this
    · next ht =>
      simp only [Bool.and_eq_true, decide_eq_true_eq] at this
      exact .inr (.inl ⟨ht, this.1.1, this.1.2, this.2⟩)
    · next ht =>
      simp only [Bool.and_eq_true, decide_eq_true_eq] at this
      exact .inr (.inr ⟨ht, this.1, this.2⟩)
    · simp at this
  · split at h3
    · next n hn =>
      simp only [Bool.and_eq_true, decide_eq_true_eq] at h3
      exact ⟨n, hn, h3.1, h3.2⟩
    · simp at h3
  · intro n hn a ha
    have := h4 n hn a ha
    unfold attrB at this
    split at this
    · next i hi =>
      simp only [Bool.and_eq_true, decide_eq_true_eq] at this
      refine ⟨i, hi, this.1.1, this.1.2, ?_⟩
      have h5 := this.2
      cases hw : s.written W i a.value with
      | none => rw [hw] at h5; simp at h5
      | some w =>
        cases hv : readAttr q w with
        | none => rw [hw] at h5; simp [hv] at h5
        | some v => exact ⟨w, v, rfl, hv⟩
    · simp at this

def AttributeValue.target : AttributeValue → Option NodeId
  | .link m => some m
  | .funcLink m => some m
  | .paint m _ => some m
  | _ => Option.none

theorem target_iff {v : AttributeValue} {m : NodeId} : v.refersTo m = true → v.target = some m := by
  cases v <;> simp [AttributeValue.target, AttributeValue.refersTo]

theorem target_plain {v : AttributeValue} (h : v.plain = true) : v.target = Option.none := by
  cases v <;> first | rfl | simp [AttributeValue.plain] at h

def readsBackB (L : Lib) (s : St) (W : ValueWriter) (q : Char) (T : Trees) (n : NodeId) (a : Attribute) : Bool :=
  match a.name, s.tagName n with
  | .id i, .id e => decide (i ≠ .Style) && decide (i ≠ .Class) &&
    match (s.written W i a.value).bind (readAttr q) with
    | none => false
    | some v =>
      match a.value.target with
      | none => decide (valueOf L e (i, v) = some a.value) || (match parseValue L i e v with
          | .link iri fb => decide (iri ≠ []) && T.pre.all (fun j => decide (s.idOf j ≠ iri)) && decide (a.value = missingValue i iri fb)
          | _ => false)
      | some m => (match parseValue L i e v with
          | .link iri fb => decide (iri = s.idOf m) && decide (a.value = foundValue i m fb)
          | _ => false) &&
        decide (s.nodeType m = .element) && decide (s.idOf m ≠ []) && decide (s.idOf n ≠ s.idOf m) &&
        decide (T.pre.find? (fun j => decide (s.idOf j = s.idOf m)) = some m)
  | _, _ => false

theorem readsBack_of_check {L : Lib} {s : St} {W : ValueWriter} {q : Char} {T : Trees} {n : NodeId} {a : Attribute}
    (h : readsBackB L s W q T n a = true) : ReadsBack L s W q T n a := by
  unfold readsBackB at h
  split at h
  · next i e hi he =>
    simp only [Bool.and_eq_true, decide_eq_true_eq] at h
    obtain ⟨⟨h1, h2⟩, h3⟩ := h
    split at h3
    · simp at h3
    · next v hv =>
      have hval : ∀ i' e' w v', a.name = .id i' → s.tagName n = .id e' → s.written W i' a.value = some w → readAttr q w = some v' →
          i' = i ∧ e' = e ∧ v' = v := by
        intro i' e' w v' a1 a2 a3 a4
        rw [hi] at a1; rw [he] at a2
        cases a1; cases a2
        rw [a3, Option.bind_some, a4] at hv
        exact ⟨rfl, rfl, Option.some.inj hv⟩
      refine ⟨?_, ?_, ?_, ?_⟩
      · intro i' hi'
        rw [hi] at hi'; cases hi'
        exact ⟨h1, h2⟩
      · intro hp i' e' w v' a1 a2 a3 a4
        obtain ⟨rfl, rfl, rfl⟩ := hval i' e' w v' a1 a2 a3 a4
        rw [target_plain hp] at h3
        simp only [Bool.or_eq_true, decide_eq_true_eq] at h3
        refine h3.imp id fun h3 => ?_
        split at h3
        · next iri fb hl =>
          simp only [Bool.and_eq_true, decide_eq_true_eq, List.all_eq_true] at h3
          exact ⟨iri, fb, hl, h3.1.1, fun j hj _ => h3.1.2 j hj, h3.2⟩
        · simp at h3
      · intro m hm i' e' w v' a1 a2 a3 a4
        obtain ⟨rfl, rfl, rfl⟩ := hval i' e' w v' a1 a2 a3 a4
        rw [target_iff hm] at h3
        simp only [Bool.and_eq_true, decide_eq_true_eq] at h3
        have h4 := h3.1.1.1.1
        split at h4
        · next iri fb hl =>
          simp only [Bool.and_eq_true, decide_eq_true_eq] at h4
          exact ⟨fb, by rw [hl, h4.1], h4.2⟩
        · simp at h4
      · intro m hm
        rw [target_iff hm] at h3
        simp only [Bool.and_eq_true, decide_eq_true_eq] at h3
        exact ⟨h3.1.1.1.2, h3.1.1.2, h3.1.2, h3.2⟩
  · simp at h

end Svgdom
