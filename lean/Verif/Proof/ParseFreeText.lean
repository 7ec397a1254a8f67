import Verif.Proof.ParseFree

/-! Helper lemmas: text processing on a document from which nodes were freed. -/

set_option autoImplicit false

namespace Svgdom

variable {s t t' : St}

theorem bind_ok' {ε α β : Type} {x : Except ε α} {f : α → Except ε β} {b : β} (h : (x >>= f) = .ok b) :
    ∃ a, x = .ok a ∧ f a = .ok b := by
  cases x with
  | error e => simp [bind, Except.bind] at h
  | ok a => exact ⟨a, rfl, h⟩

theorem Thinned.modText (h : Thinned s t) {n : NodeId} (hn : s.live n = true) (x : Str) :
    Thinned (s.modText n x) (t.modText n x) ∧ Still s (s.modText n x) := by
  obtain ⟨s', e, h1, _, h2⟩ := h.call (c := .editText n x) rfl (by simpa [Call.mentions] using hn) (t' := t.editText n x) rfl
  have : s' = s.modText n x := by
    simp only [Call.run] at e
    cases e; rfl
  subst this
  exact ⟨h1, h2 rfl⟩

theorem Thinned.getXmlspace (h : Thinned s t) {m m' : List NodeId} {n : NodeId} {d sp : XmlSpace} (hn : s.live n = true)
    (hm : ∀ i ∈ m, s.live i = true) (e : t.getXmlspace m n d = .ok (t', m', sp)) :
    ∃ s', s.getXmlspace m n d = .ok (s', m', sp) ∧ Thinned s' t' ∧ Still s s' ∧ ∀ i ∈ m', s.live i = true := by
  unfold St.getXmlspace at e ⊢
  rw [h.attrs hn] at e
  split at e
  · next v hv =>
    cases e
    exact ⟨s, rfl, h, .refl s, hm⟩
  · next hv =>
    obtain ⟨⟨u, mu⟩, e1, e2⟩ := bind_ok' e
    cases e2
    unfold St.setXmlspace at e1
    obtain ⟨v, e3, e4⟩ := bind_ok' e1
    cases e4
    obtain ⟨s', f1, f2, _, f3⟩ := h.call (c := .setAttribute n _) rfl (by simpa [Call.mentions, AttributeValue.names] using hn) e3
    refine ⟨s', ?_, f2, f3 rfl, ?_⟩
    · have f1 : s.setAttribute n _ = .ok s' := f1
      simp only [St.setXmlspace, f1, bind, Except.bind, pure, Except.pure]
    · intro i hi
      rw [List.mem_append] at hi
      rcases hi with hi | hi
      · exact hm i hi
      · rw [List.mem_singleton.1 hi]; exact hn

theorem Thinned.parentXmlspace (h : Thinned s t) {m m' : List NodeId} {n : NodeId} {d sp : XmlSpace} (hn : s.live n = true)
    (hp : ∃ q, s.parent n = some q) (hm : ∀ i ∈ m, s.live i = true) (e : t.parentXmlspace m n d = .ok (t', m', sp)) :
    ∃ s', s.parentXmlspace m n d = .ok (s', m', sp) ∧ Thinned s' t' ∧ Still s s' ∧ ∀ i ∈ m', s.live i = true := by
  obtain ⟨q, hq⟩ := hp
  simp only [St.parentXmlspace, h.parent hn hq, hq] at e ⊢
  exact h.getXmlspace (upgrade_live hq).1 hm e

/-- The nodes of a list are live and have parents. -/
def Placed (s : St) (l : List NodeId) : Prop := ∀ n ∈ l, s.live n = true ∧ ∃ q, s.parent n = some q

theorem Placed.still {s s' : St} {l : List NodeId} (h : Placed s l) (k : Still s s') : Placed s' l := fun n hn => by
  rw [k.live, k.parent n (h n hn).1]; exact h n hn

theorem Thinned.trimNodes {sp : XmlSpace} : ∀ {l : List NodeId} {s t t' : St} {m m' : List NodeId}, Thinned s t →
    (∀ n ∈ l, s.live n = true ∧ (s.isText n = true → ∃ q, s.parent n = some q)) → (∀ i ∈ m, s.live i = true) →
    t.trimNodes m sp l = .ok (t', m') →
    ∃ s', s.trimNodes m sp l = .ok (s', m') ∧ Thinned s' t' ∧ Still s s' ∧ ∀ i ∈ m', s.live i = true
  | [], s, t, t', m, m', h, hl, hm, e => by cases e; exact ⟨s, rfl, h, .refl s, hm⟩
  | n :: l, s, t, t', m, m', h, hl, hm, e => by
    obtain ⟨hn, hp⟩ := hl n List.mem_cons_self
    simp only [St.trimNodes, h.isText hn] at e ⊢
    split at e
    · next ht =>
      rw [if_pos ht]
      obtain ⟨⟨u, m1, sp1⟩, e1, e2⟩ := bind_ok' e
      obtain ⟨v, e3, e4⟩ := bind_ok' e2
      obtain ⟨s1, f1, h1, k1, hm1⟩ := h.parentXmlspace hn (hp ht) hm e1
      have hn1 : s1.live n = true := by rw [k1.live]; exact hn
      obtain ⟨s2, f2, h2, _, k2⟩ := h1.call (c := .setText n _) rfl (by simpa [Call.mentions] using hn1) e3
      have k2 := k2 rfl
      have f2 : s1.setText n _ = .ok s2 := f2
      have k := k1.trans k2
      have hl2 : ∀ n ∈ l, s2.live n = true ∧ (s2.isText n = true → ∃ q, s2.parent n = some q) := fun j hj => by
        have := hl j (List.mem_cons_of_mem _ hj)
        refine ⟨by rw [k.live]; exact this.1, fun hx => ?_⟩
        rw [k.parent j this.1]
        refine this.2 ?_
        rw [St.isText, k.type j this.1] at hx
        exact hx
      obtain ⟨s3, f3, h3, k3, hm3⟩ := Thinned.trimNodes h2 hl2 (fun i hi => by rw [k.live]; exact hm1 i hi) e4
      refine ⟨s3, ?_, h3, k.trans k3, fun i hi => by rw [← k.live]; exact hm3 i hi⟩
      rw [h1.text hn1] at f2
      simp only [f1, bind, Except.bind, f2, f3]
    · next ht =>
      rw [if_neg ht]
      exact Thinned.trimNodes h (fun j hj => hl j (List.mem_cons_of_mem _ hj)) hm e

theorem Thinned.collectText (h : Thinned s t) : ∀ {k d : Nat} {l : List NodeId} {r : List (NodeId × Nat)}, Placed s l →
    t.collectText k d l = .ok r → s.collectText k d l = .ok r ∧ Placed s (r.map Prod.fst)
  | k, d, [], r, hl, e => by
    have : r = [] := by cases k <;> (simp only [St.collectText] at e; cases e; rfl)
    subst this
    exact ⟨by cases k <;> rfl, fun n hn => by simp at hn⟩
  | 0, d, c :: l, r, hl, e => by simp [St.collectText] at e
  | k + 1, d, c :: l, r, hl, e => by
    obtain ⟨hc, hp⟩ := hl c List.mem_cons_self
    have hrest : ∀ {own : List (NodeId × Nat)} {r}, Placed s (own.map Prod.fst) →
        (do let rest ← t.collectText k d l; pure (own ++ rest) : Except Err _) = .ok r →
        (do let rest ← s.collectText k d l; pure (own ++ rest) : Except Err _) = .ok r ∧ Placed s (r.map Prod.fst) := by
      intro own r ho e
      obtain ⟨rest, e3, e4⟩ := bind_ok' e
      cases e4
      obtain ⟨f3, p3⟩ := Thinned.collectText h (fun n hn => hl n (List.mem_cons_of_mem _ hn)) e3
      refine ⟨by rw [f3]; rfl, fun n hn => ?_⟩
      rw [List.map_append, List.mem_append] at hn
      exact hn.elim (ho n) (p3 n)
    simp only [St.collectText, h.isText hc, h.isElement hc] at e ⊢
    split at e
    · next ht =>
      rw [if_pos ht]
      exact hrest (fun n hn => by simp at hn; subst hn; exact ⟨hc, hp⟩) e
    · next ht =>
      rw [if_neg ht]
      split at e
      · next he =>
        rw [if_pos he]
        obtain ⟨K, hK, hK', hk⟩ := h.children hc
        rw [hK] at e
        rw [hK']
        obtain ⟨own, e1, e2⟩ := bind_ok' (x := t.collectText k (d + 1) K) e
        obtain ⟨f1, p1⟩ := Thinned.collectText h (k := k) (fun n hn => ⟨(hk n hn).1, _, (hk n hn).2⟩) e1
        have := hrest p1 e2
        refine ⟨?_, this.2⟩
        rw [← this.1]
        simp only [bind, Except.bind, f1]
      · next he =>
        rw [if_neg he]
        exact hrest (fun n hn => by simp at hn) e

theorem Thinned.processSingle (h : Thinned s t) {n : NodeId} (hn : s.live n = true) (e : t.processSingle n = .ok t') :
    ∃ s', s.processSingle n = .ok s' ∧ Thinned s' t' ∧ Still s s' := by
  have hm := fun x => h.modText hn x
  simp only [St.processSingle, h.text hn] at e ⊢
  split at e
  · next hc => rw [if_pos hc]; cases e; exact ⟨s, rfl, h, .refl s⟩
  · next hc =>
    rw [if_neg hc]
    split at e
    · next hc2 =>
      rw [if_pos hc2]
      split at e
      · next hc3 => rw [if_pos hc3]; cases e; exact ⟨_, rfl, hm _⟩
      · next hc3 => rw [if_neg hc3]; cases e; exact ⟨s, rfl, h, .refl s⟩
    · next hc2 =>
      rw [if_neg hc2]
      split at e
      · next hc3 =>
        rw [if_pos hc3]
        obtain ⟨x, e1, e2⟩ := bind_ok' e
        cases e2
        rw [e1]
        exact ⟨_, rfl, hm _⟩
      · next hc3 => rw [if_neg hc3]; cases e; exact ⟨_, rfl, hm _⟩

/-- The step `r` on the whole document and `r'` on the thinned one. -/
def Follows (s : St) (r r' : Except Err St) : Prop := ∀ t', r = .ok t' → ∃ s', r' = .ok s' ∧ Thinned s' t' ∧ Still s s'

theorem Follows.ite {c : Prop} [Decidable c] {A B A' B' : Except Err St} (h1 : Follows s A A') (h2 : Follows s B B') :
    Follows s (if c then A else B) (if c then A' else B') := by
  split
  · exact h1
  · exact h2

theorem Follows.id (h : Thinned s t) : Follows s (pure t) (pure s) := fun t' e => by
  cases e; exact ⟨s, rfl, h, .refl s⟩

theorem Follows.mod (h : Thinned s t) {n : NodeId} (hn : s.live n = true) (x : Str) :
    Follows s (pure (t.modText n x)) (pure (s.modText n x)) := fun t' e => by
  cases e; exact ⟨_, rfl, h.modText hn x⟩

theorem Follows.first (h : Thinned s t) {n : NodeId} (hn : s.live n = true) (x : Str) :
    Follows s (do let y ← removeFirst x; pure (t.modText n y)) (do let y ← removeFirst x; pure (s.modText n y)) := fun t' e => by
  obtain ⟨y, e1, e2⟩ := bind_ok' e
  cases e2
  rw [e1]
  exact ⟨_, rfl, h.modText hn y⟩

theorem Thinned.processBorder (h : Thinned s t) {a b : NodeId} (ha : s.live a = true) (hb : s.live b = true) (d1 d2 : Nat)
    (s1 s2 : XmlSpace) (c2 c3 : Option Nat) :
    Follows s (t.processBorder a b d1 d2 s1 s2 c2 c3) (s.processBorder a b d1 d2 s1 s2 c2 c3) := by
  simp only [St.processBorder, h.text ha, h.text hb]
  exact .ite (.ite (.ite (.first h hb _) (.id h)) (.ite (.mod h ha _) (.ite (.first h hb _) (.id h)))) (.id h)

theorem Thinned.processEnds (h : Thinned s t) {a b : NodeId} (ha : s.live a = true) (hb : s.live b = true) (s1 s2 : XmlSpace)
    (f l : Bool) (c1 c4 : Option Nat) : Follows s (t.processEnds a b s1 s2 f l c1 c4) (s.processEnds a b s1 s2 f l c1 c4) := by
  simp only [St.processEnds, h.text ha, h.text hb]
  exact .ite (.first h ha _) (.ite (.mod h hb _) (.id h))

theorem Thinned.processTail (h : Thinned s t) {a b : NodeId} (ha : s.live a = true) (hb : s.live b = true) {l : Bool} {c2 : Option Nat} :
    Thinned (s.processTail a b l c2) (t.processTail a b l c2) ∧ Still s (s.processTail a b l c2) := by
  simp only [St.processTail, h.text ha, h.text hb]
  split
  · exact h.modText ha _
  · exact ⟨h, .refl s⟩

theorem Thinned.processPairs {sp : XmlSpace} : ∀ {l : List (NodeId × Nat)} {s t t' : St} {m m' : List NodeId} {b : Bool}
    {last : Option NodeId}, Thinned s t → Placed s (l.map Prod.fst) → Placed s last.toList → (∀ i ∈ m, s.live i = true) →
    St.processPairs sp t m b last l = .ok (t', m') →
    ∃ s', St.processPairs sp s m b last l = .ok (s', m') ∧ Thinned s' t' ∧ Still s s' ∧ ∀ i ∈ m', s.live i = true
  | [], s, t, t', m, m', b, last, h, hl, ha, hm, e => by
    simp only [St.processPairs] at e ⊢
    cases e; exact ⟨s, rfl, h, .refl s, hm⟩
  | [(n, d)], s, t, t', m, m', b, last, h, hl, ha, hm, e => by
    simp only [St.processPairs] at e ⊢
    cases e; exact ⟨s, rfl, h, .refl s, hm⟩
  | (n1, d1) :: (n2, d2) :: rest, s, t, t', m, m', b, last, h, hl, ha, hm, e => by
    have p1 := hl n1 (by simp)
    have p2 := hl n2 (by simp)
    simp only [St.processPairs, h.text p1.1] at e ⊢
    generalize hx : (if (s.text n1).isEmpty = true then last.getD n1 else n1) = x at e ⊢
    have px : s.live x = true ∧ ∃ q, s.parent x = some q := by
      rw [← hx]
      split
      · cases last with
        | none => exact p1
        | some y => exact ha y (by simp)
      · exact p1
    obtain ⟨⟨u1, m1, sp1⟩, e1, e⟩ := bind_ok' e
    obtain ⟨v1, f1, h1, k1, hm1⟩ := h.parentXmlspace px.1 px.2 hm e1
    obtain ⟨⟨u2, m2, sp2⟩, e2, e⟩ := bind_ok' e
    have l1 : ∀ {i}, s.live i = true → v1.live i = true := fun hi => by rw [k1.live]; exact hi
    obtain ⟨v2, f2, h2, k2, hm2⟩ := h1.parentXmlspace (l1 p2.1) (by rw [k1.parent _ p2.1]; exact p2.2) (fun i hi => l1 (hm1 i hi)) e2
    have k12 := k1.trans k2
    have l2 : ∀ {i}, s.live i = true → v2.live i = true := fun hi => by rw [k12.live]; exact hi
    obtain ⟨u3, e3, e⟩ := bind_ok' e
    simp only [h2.text (l2 px.1), h2.text (l2 p2.1)] at e3 e
    obtain ⟨v3, f3, h3, k3⟩ := h2.processBorder (l2 px.1) (l2 p2.1) _ _ _ _ _ _ _ e3
    have k13 := k12.trans k3
    have l3 : ∀ {i}, s.live i = true → v3.live i = true := fun hi => by rw [k13.live]; exact hi
    obtain ⟨u4, e4, e⟩ := bind_ok' e
    obtain ⟨v4, f4, h4, k4⟩ := h3.processEnds (l3 px.1) (l3 p2.1) _ _ _ _ _ _ _ e4
    have k14 := k13.trans k4
    have l4 : ∀ {i}, s.live i = true → v4.live i = true := fun hi => by rw [k14.live]; exact hi
    obtain ⟨h5, k5⟩ := h4.processTail (l4 px.1) (l4 p2.1) (l := rest.isEmpty) (c2 := (utf8 (v2.text x)).getLast?)
    have k15 := k14.trans k5
    rw [h5.text (by rw [k15.live]; exact px.1)] at e
    obtain ⟨v6, f6, h6, k6, hm6⟩ := Thinned.processPairs h5
      (fun n hn => (hl n (List.mem_cons_of_mem _ hn) : _) |> fun q => by rw [k15.live, k15.parent n q.1]; exact q)
      (by
        split
        · exact ha.still k15
        · exact Placed.still (s := s) (fun n hn => by simp at hn; subst hn; exact px) k15)
      (fun i hi => by rw [k15.live, ← k1.live]; exact hm2 i hi) e
    refine ⟨v6, ?_, h6, k15.trans k6, fun i hi => by rw [← k15.live]; exact hm6 i hi⟩
    simp only [f1, bind, Except.bind, f2, f3, f4, f6]

theorem Thinned.prepareTextChildren (h : Thinned s t) {m m' : List NodeId} {n : NodeId} {sp : XmlSpace} (hn : s.live n = true)
    (he : s.isElement n = true) (hm : ∀ i ∈ m, s.live i = true) (e : t.prepareTextChildren m n sp = .ok (t', m')) :
    ∃ s', s.prepareTextChildren m n sp = .ok (s', m') ∧ Thinned s' t' ∧ Still s s' ∧ ∀ i ∈ m', s.live i = true := by
  obtain ⟨ds, d1, d2, d3⟩ := h.descendants hn
  unfold St.prepareTextChildren at e ⊢
  rw [d1] at e
  rw [d2]
  simp only [bind, Except.bind] at e ⊢
  cases e1 : t.trimNodes m sp ds with
  | error x => rw [e1] at e; simp at e
  | ok r =>
  obtain ⟨u, m1⟩ := r
  rw [e1] at e
  obtain ⟨v, f1, h1, k1, hm1⟩ := h.trimNodes (fun c hc => ⟨(d3 c hc).1, fun ht => (d3 c hc).2 fun hcn => by
    rw [hcn] at ht
    simp only [St.isText, St.isElement, decide_eq_true_eq] at ht he
    rw [ht] at he; simp at he⟩) hm e1
  rw [f1]
  simp only at e ⊢
  obtain ⟨K, c1, c2, c3⟩ := h1.children (i := n) (by rw [k1.live]; exact hn)
  rw [c1] at e
  rw [c2]
  simp only at e ⊢
  cases e2 : u.collectText u.fuel 0 K with
  | error x => rw [e2] at e; simp at e
  | ok N =>
  rw [e2] at e
  obtain ⟨f2, p2⟩ := h1.collectText (fun c hc => ⟨(c3 c hc).1, _, (c3 c hc).2⟩) e2
  rw [h1.fuel] at f2
  rw [f2]
  simp only at e ⊢
  match N, e, p2 with
  | [], e, p2 => cases e; exact ⟨v, rfl, h1, k1, hm1⟩
  | [(x, d)], e, p2 =>
    simp only at e ⊢
    split at e
    · next hs =>
      rw [if_pos hs]
      cases e3 : u.processSingle x with
      | error y => rw [e3] at e; simp at e
      | ok w =>
      rw [e3] at e
      cases e
      obtain ⟨v2, f3, h3, k3⟩ := h1.processSingle (p2 x (by simp)).1 e3
      rw [f3]
      exact ⟨v2, rfl, h3, k1.trans k3, hm1⟩
    · next hs =>
      rw [if_neg hs]
      cases e
      exact ⟨v, rfl, h1, k1, hm1⟩
  | (x, d) :: (y, d') :: N, e, p2 =>
    obtain ⟨v2, f3, h3, k3, hm3⟩ := Thinned.processPairs h1 p2 (fun n hn => by simp at hn) (fun i hi => by rw [k1.live]; exact hm1 i hi) e
    exact ⟨v2, f3, h3, k1.trans k3, fun i hi => by rw [← k1.live]; exact hm3 i hi⟩

theorem Thinned.prepareTextAux : ∀ {k : Nat} {l : List NodeId} {s t t' : St} {m m' : List NodeId} {sp : XmlSpace}, Thinned s t →
    (∀ n ∈ l, s.live n = true) → (∀ i ∈ m, s.live i = true) → St.prepareTextAux k t m sp l = .ok (t', m') →
    ∃ s', St.prepareTextAux k s m sp l = .ok (s', m') ∧ Thinned s' t' ∧ Still s s' ∧ ∀ i ∈ m', s.live i = true
  | k, [], s, t, t', m, m', sp, h, hl, hm, e => by
    have : t' = t ∧ m' = m := by cases k <;> (simp only [St.prepareTextAux] at e; cases e; exact ⟨rfl, rfl⟩)
    obtain ⟨rfl, rfl⟩ := this
    exact ⟨s, by cases k <;> rfl, h, .refl s, hm⟩
  | 0, n :: l, s, t, t', m, m', sp, h, hl, hm, e => by simp [St.prepareTextAux] at e
  | k + 1, n :: l, s, t, t', m, m', sp, h, hl, hm, e => by
    have hn := hl n List.mem_cons_self
    have hl' : ∀ j ∈ l, s.live j = true := fun j hj => hl j (List.mem_cons_of_mem _ hj)
    simp only [St.prepareTextAux, h.isElement hn] at e ⊢
    split at e
    case isFalse he =>
      rw [if_neg he]
      obtain ⟨v, f, h1, k1, hm1⟩ := Thinned.prepareTextAux h hl' hm (sp := sp) (k := k) (t' := t') (m' := m') e
      exact ⟨v, f, h1, k1, hm1⟩
    case isTrue he =>
      rw [if_pos he]
      obtain ⟨⟨u1, m1, sp1⟩, e1, e⟩ := bind_ok' e
      obtain ⟨v1, f1, h1, k1, hm1⟩ := h.getXmlspace hn hm e1
      have l1 : ∀ {i}, s.live i = true → v1.live i = true := fun hi => by rw [k1.live]; exact hi
      have hrest : ∀ {u2 v2 : St} {m2 : List NodeId}, Thinned v2 u2 → Still v1 v2 → (∀ i ∈ m2, v1.live i = true) →
          St.prepareTextAux k u2 m2 sp l = .ok (t', m') → ∃ s', St.prepareTextAux k v2 m2 sp l = .ok (s', m') ∧ Thinned s' t' ∧ Still s s' ∧
            ∀ i ∈ m', s.live i = true := by
        intro u2 v2 m2 h2 k2 hm2 e3
        have k12 := k1.trans k2
        obtain ⟨v3, f3, h3, k3, hm3⟩ := Thinned.prepareTextAux h2 (fun j hj => by rw [k12.live]; exact hl' j hj)
          (fun i hi => by rw [k2.live]; exact hm2 i hi) e3
        exact ⟨v3, f3, h3, k12.trans k3, fun i hi => by rw [← k12.live]; exact hm3 i hi⟩
      have hfc : (u1.firstChild n).any u1.isText = (v1.firstChild n).any v1.isText := by
        rw [h1.firstChild (l1 hn)]
        cases hf : v1.firstChild n with
        | none => rfl
        | some c =>
          simp only [Option.any_some]
          exact h1.isText ((C01_neighbours h1.reach (l1 hn)).2.2.1 hf).1
      simp only [hfc] at e
      simp only [f1, bind, Except.bind]
      split at e
      · next ht =>
        rw [if_pos ht]
        obtain ⟨⟨u2, m2⟩, e2, e3⟩ := bind_ok' e
        obtain ⟨v2, f2, h2, k2, hm2⟩ := h1.prepareTextChildren (l1 hn) (by
          rw [St.isElement, k1.type n hn]; exact he) (fun i hi => l1 (hm1 i hi)) e2
        rw [f2]
        exact hrest h2 k2 hm2 e3
      · next ht =>
        rw [if_neg ht]
        obtain ⟨K, c1, c2, c3⟩ := h1.children (l1 hn)
        rw [c1] at e
        rw [c2]
        obtain ⟨⟨u2, m2⟩, e2, e3⟩ := bind_ok' (x := St.prepareTextAux k u1 m1 sp1 K) e
        obtain ⟨v2, f2, h2, k2, hm2⟩ := Thinned.prepareTextAux h1 (fun c hc => (c3 c hc).1) (fun i hi => l1 (hm1 i hi)) e2
        simp only [f2]
        exact hrest h2 k2 hm2 e3

theorem Thinned.removeSpaces : ∀ {l : List NodeId} {s t t' : St}, Thinned s t → (∀ n ∈ l, s.live n = true) → t.removeSpaces l = .ok t' →
    ∃ s', s.removeSpaces l = .ok s' ∧ Thinned s' t' ∧ Still s s'
  | [], s, t, t', h, _, e => by cases e; exact ⟨s, rfl, h, .refl s⟩
  | n :: l, s, t, t', h, hl, e => by
    simp only [St.removeSpaces] at e ⊢
    obtain ⟨u, e1, e2⟩ := bind_ok' e
    obtain ⟨v, f1, h1, _, k1⟩ := h.call (c := .removeAttribute n (.id .Space)) rfl (by simpa [Call.mentions] using hl n List.mem_cons_self) e1
    have k1 := k1 rfl
    have f1 : s.removeAttribute n (.id .Space) = .ok v := f1
    obtain ⟨w, f2, h2, k2⟩ := Thinned.removeSpaces h1 (fun j hj => by rw [k1.live]; exact hl j (List.mem_cons_of_mem _ hj)) e2
    exact ⟨w, by simp only [f1, bind, Except.bind, f2], h2, k1.trans k2⟩

end Svgdom
