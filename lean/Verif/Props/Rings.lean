import Verif.Props.Nesting

/-!
# C103: rings of references
-/

set_option autoImplicit false

namespace Svgdom

/-- `n` references in a row lead from `i` to `k`. -/
inductive St.Leads (s : St) : NodeId → NodeId → Nat → Prop
  | one {i k : NodeId} : s.LinksTo i k → St.Leads s i k 1
  | more {i j k : NodeId} {n : Nat} : s.LinksTo i j → St.Leads s j k n → St.Leads s i k (n + 1)

/-- C103, the part that holds: a ring of references has at least three of them. -/
theorem C103_partial {s : St} (h : Reachable s) {i : NodeId} (hi : s.live i = true) {n : Nat} (hr : s.Leads i i n) : 3 ≤ n := by
  have h1 : ∀ {a b : NodeId} {n : Nat}, s.Leads a b n → 1 ≤ n := fun h => by cases h <;> omega
  have hs := C18_no_self_no_mutual h hi hi
  cases hr with
  | one hl => exact absurd hl hs.1
  | @more _ j _ n hl hr =>
    obtain ⟨a, ha, hra⟩ := hl
    have hj := h.inv.link.targets i hi a ha j (refersTo_iff.1 hra)
    cases hr with
    | one hl2 => exact absurd ⟨⟨a, ha, hra⟩, hl2⟩ (C18_no_self_no_mutual h hi hj).2
    | more _ hr => have := h1 hr; omega

/-- Elements `1` to `n` with different ids, each but the first referring to the one before it. -/
structure IsRow (P : Picture) (n : Nat) : Prop where
  live : ∀ j, P.live j = true ↔ j ≤ n
  next : P.next = n + 1
  type : ∀ j, 1 ≤ j → j ≤ n → (P.look j).type = .element
  id : ∀ j, 1 ≤ j → j ≤ n → (P.look j).id = List.replicate j 'a'
  attrs : ∀ j, 1 ≤ j → j ≤ n → (P.look j).attrs = if j = 1 then [] else [⟨.id .Href, .link (j - 1)⟩]

theorem IsRow.first (debug : Bool) : ∃ Q, (Picture.init debug).run [.createElement (.id .G), .setId 1 ['a']] = .state Q ∧ IsRow Q 1 := by
  have key : ∀ j : Nat, j = 1 ∨ j = 0 ↔ j ≤ 1 := by omega
  have key2 : ∀ j : Nat, 1 ≤ j → j ≤ 1 → j = 1 := by omega
  cases debug <;> refine ⟨_, rfl, fun j => ?_, rfl, fun j h1 h2 => ?_, fun j h1 h2 => ?_, fun j h1 h2 => ?_⟩
  all_goals first
    | (rw [key2 j h1 h2]; rfl)
    | (rw [← key j]
       simp only [Picture.edit, Picture.add, Picture.init, Bool.or_eq_true]
       exact or_congr ⟨of_decide_eq_true, decide_eq_true⟩ ⟨of_decide_eq_true, decide_eq_true⟩)

/-- The reference from `i` to `n` is made. -/
theorem put_ok {P : Picture} {i n : NodeId} (hi : P.live i = true) (hn : P.live n = true) (ht : (P.look i).type = .element)
    (h1 : (P.look n).id ≠ []) (h2 : (P.look i).id ≠ (P.look n).id) (h3 : ∀ b ∈ (P.look n).attrs, b.value.names ≠ some i) :
    P.step (.setAttribute i ⟨.id .Href, .link n⟩) = .state (P.put i ⟨.id .Href, .link n⟩) := by
  have : P.refuses i (.link n) = false := by
    have : P.refuses i (.link n) = (decide ((P.look n).id = []) || decide ((P.look i).id = (P.look n).id) ||
      (P.look n).attrs.any fun b => decide (b.value.names = some i)) := rfl
    rw [this, decide_eq_false h1, decide_eq_false h2, Bool.false_or, Bool.false_or, List.any_eq_false]
    exact fun b hb => by rw [decide_eq_true_eq]; exact h3 b hb
  simp [Picture.step, Call.mentions, AttributeValue.names, hi, hn, Picture.act, Picture.set, Picture.noElement, ht, this]

theorem IsRow.longer {P : Picture} {n : Nat} (hn : 1 ≤ n) (h : IsRow P n) :
    ∃ Q, P.run [.createElement (.id .G), .setId (n + 1) (List.replicate (n + 1) 'a'), .setAttribute (n + 1) ⟨.id .Href, .link n⟩] = .state Q ∧
      IsRow Q (n + 1) := by
  have k1 : ∀ j : Nat, j = n + 1 ∨ j ≤ n ↔ j ≤ n + 1 := by omega
  have k2 : ∀ j : Nat, j ≤ n + 1 → j ≠ n + 1 → j ≤ n := by omega
  have k3 : ¬ n = n + 1 := by omega
  have e1 : P.step (.createElement (.id .G)) = .state (P.add ⟨.element, .id .G, [], [], []⟩) := rfl
  generalize hP1 : P.add ⟨.element, .id .G, [], [], []⟩ = P1 at e1
  have l1 : ∀ j, P1.live j = true ↔ j ≤ n + 1 := fun j => by
    rw [← k1 j, ← h.live j, ← hP1]; simp [Picture.add, h.next]
  have o1 : P1.look (n + 1) = ⟨.element, .id .G, [], [], []⟩ := by rw [← hP1]; simp [Picture.add, h.next]
  have o2 : ∀ j, j ≠ n + 1 → P1.look j = P.look j := fun j hj => by rw [← hP1]; simp [Picture.add, h.next, hj]
  have e2 : P1.step (.setId (n + 1) (List.replicate (n + 1) 'a')) =
      .state (P1.edit (n + 1) fun d => { d with id := List.replicate (n + 1) 'a' }) := by
    have : P1.live (n + 1) = true := (l1 _).2 (Nat.le_refl _)
    simp [Picture.step, Call.mentions, this, Picture.act, Picture.noElement, o1]
  generalize hP2 : P1.edit (n + 1) (fun d => { d with id := List.replicate (n + 1) 'a' }) = P2 at e2
  have l2 : ∀ j, P2.live j = true ↔ j ≤ n + 1 := fun j => by rw [← hP2]; exact l1 j
  have q1 : P2.look (n + 1) = ⟨.element, .id .G, List.replicate (n + 1) 'a', [], []⟩ := by rw [← hP2]; simp [Picture.edit, o1]
  have q2 : ∀ j, j ≠ n + 1 → P2.look j = P.look j := fun j hj => by rw [← hP2]; simp [Picture.edit, hj, o2 j hj]
  have x2 : P2.next = n + 2 := by rw [← hP2, ← hP1]; simp [Picture.edit, Picture.add, h.next]
  have hid := h.id n hn (Nat.le_refl _)
  have e3 : P2.step (.setAttribute (n + 1) ⟨.id .Href, .link n⟩) = .state (P2.put (n + 1) ⟨.id .Href, .link n⟩) := by
    refine put_ok ((l2 _).2 (Nat.le_refl _)) ((l2 _).2 (Nat.le_succ n)) (by rw [q1]) ?_ ?_ ?_
    · rw [q2 n k3, hid]; intro e; have := congrArg List.length e; simp at this; omega
    · rw [q2 n k3, hid, q1]; intro e; have := congrArg List.length e; simp at this
    · rw [q2 n k3, h.attrs n hn (Nat.le_refl _)]
      intro b hb e
      split at hb
      · simp at hb
      · rw [List.mem_singleton] at hb
        subst hb
        have : n - 1 = n + 1 := Option.some.inj e
        omega
  refine ⟨P2.put (n + 1) ⟨.id .Href, .link n⟩, by simp only [Picture.run, e1, e2, e3], ?_⟩
  have r1 : (P2.put (n + 1) ⟨.id .Href, .link n⟩).look (n + 1) =
      ⟨.element, .id .G, List.replicate (n + 1) 'a', [⟨.id .Href, .link n⟩], []⟩ := by
    simp [Picture.put, Picture.edit, q1, retag]
  have r2 : ∀ j, j ≠ n + 1 → (P2.put (n + 1) ⟨.id .Href, .link n⟩).look j = P.look j := fun j hj => by
    simp [Picture.put, Picture.edit, hj, q2 j hj]
  refine ⟨l2, x2, fun j h1 h2 => ?_, fun j h1 h2 => ?_, fun j h1 h2 => ?_⟩ <;> by_cases hj : j = n + 1
  · rw [hj, r1]
  · rw [r2 j hj]; exact h.type j h1 (k2 j h2 hj)
  · rw [hj, r1]
  · rw [r2 j hj]; exact h.id j h1 (k2 j h2 hj)
  · rw [hj, r1]
    have : ¬ (n + 1 : NodeId) = 1 := by
      have key : ¬ n + 1 = 1 := by omega
      exact key
    rw [if_neg this]
    rfl
  · rw [r2 j hj]; exact h.attrs j h1 (k2 j h2 hj)

theorem row_exists (debug : Bool) (n : Nat) : ∃ s P, Reachable s ∧ s.Acyclic ∧ Abs s P ∧ IsRow P (n + 1) := by
  induction n with
  | zero =>
    obtain ⟨Q, e, hQ⟩ := IsRow.first debug
    have := C93_run debug [.createElement (.id .G), .setId 1 ['a']]
    rw [e] at this
    obtain ⟨t, _, h1, h2, h3⟩ := this
    exact ⟨t, Q, h1, h2, h3, hQ⟩
  | succ n ih =>
    obtain ⟨s, P, h1, h2, h3, h4⟩ := ih
    obtain ⟨Q, e, hQ⟩ := h4.longer (Nat.succ_pos n)
    have := C93_history h1 h2 h3 [.createElement (.id .G), .setId (n + 1 + 1) (List.replicate (n + 1 + 1) 'a'),
      .setAttribute (n + 1 + 1) ⟨.id .Href, .link (n + 1)⟩]
    rw [e] at this
    obtain ⟨t, _, h1, h2, h3⟩ := this
    exact ⟨t, Q, h1, h2, h3, hQ⟩

/-- C103, the part that does not hold: for every `n ≥ 3` there is a document with a ring of `n` references, and no shorter one
through the same element. -/
theorem C103_refuted (debug : Bool) (n : Nat) (hn : 3 ≤ n) :
    ∃ s, Reachable s ∧ s.Acyclic ∧ s.live 1 = true ∧ s.Leads 1 1 n ∧ ∀ m, s.Leads 1 1 m → n ≤ m := by
  obtain ⟨m, rfl⟩ : ∃ m, n = m + 1 := ⟨n - 1, by omega⟩
  obtain ⟨s, P, h1, h2, h3, h4⟩ := row_exists debug m
  have l1 : P.live 1 = true := (h4.live _).2 (Nat.succ_pos m)
  have ln : P.live (m + 1) = true := (h4.live _).2 (Nat.le_refl _)
  have k0 : ¬ m + 1 = 1 := by omega
  have hid := h4.id (m + 1) (Nat.succ_pos m) (Nat.le_refl _)
  have e := put_ok l1 ln (h4.type 1 (Nat.le_refl _) (Nat.succ_pos m)) (by rw [hid]; simp)
    (by
      rw [hid, h4.id 1 (Nat.le_refl _) (Nat.succ_pos m)]
      intro e; have := congrArg List.length e; simp at this; omega)
    (by
      rw [h4.attrs (m + 1) (Nat.succ_pos m) (Nat.le_refl _)]
      intro b hb e
      simp only [k0, if_false, List.mem_singleton] at hb
      subst hb
      have : m + 1 - 1 = 1 := Option.some.inj e
      omega)
  generalize hQ : P.put 1 ⟨.id .Href, .link (m + 1)⟩ = Q at e
  have := C93_history h1 h2 h3 [.setAttribute 1 ⟨.id .Href, .link (m + 1)⟩]
  simp only [Picture.run, e] at this
  obtain ⟨t, _, g1, g2, g3⟩ := this
  have hl : ∀ j, t.live j = true ↔ j ≤ m + 1 := fun j => by rw [← g3.live, ← hQ]; exact h4.live j
  have ha : ∀ j, 1 ≤ j → j ≤ m + 1 → t.attributes j = [⟨.id .Href, .link (if j = 1 then m + 1 else j - 1)⟩] := by
    intro j hj1 hj2
    have : t.attributes j = (Q.look j).attrs := by rw [g3.look j ((hl j).2 hj2)]; rfl
    rw [this, ← hQ]
    by_cases hj : j = 1
    · subst hj
      simp [Picture.put, Picture.edit, h4.attrs 1 (Nat.le_refl _) (Nat.succ_pos m), retag]
    · simp [Picture.put, Picture.edit, hj, h4.attrs j hj1 hj2]
  have hto : ∀ j k, 1 ≤ j → j ≤ m + 1 → (t.LinksTo j k ↔ k = if j = 1 then m + 1 else j - 1) := by
    intro j k hj1 hj2
    simp only [St.LinksTo, ha j hj1 hj2, List.mem_singleton, exists_eq_left, refersTo_iff]
    exact ⟨fun e => (Option.some.inj e).symm, fun e => by rw [e]; rfl⟩
  have hk : ∀ k : Nat, k ≤ m → t.Leads (k + 1) 1 (if k = 0 then m + 1 else k) := by
    have step : ∀ k : Nat, k + 1 ≤ m → t.Leads (k + 1 + 1) 1 (k + 1) := by
      intro k hk
      have kk : ∀ a : Nat, ¬ a + 1 + 1 = 1 := by omega
      induction k with
      | zero => exact .one ((hto _ _ (Nat.succ_pos _) (Nat.succ_le_succ hk)).2 (by rw [if_neg (kk 0)]))
      | succ k ih => exact .more ((hto _ _ (Nat.succ_pos _) (Nat.succ_le_succ hk)).2 (by rw [if_neg (kk (k + 1))]; rfl)) (ih (by omega))
    intro k hk
    match k with
    | 0 =>
      obtain ⟨m', rfl⟩ : ∃ m', m = m' + 1 := ⟨m - 1, by omega⟩
      exact .more ((hto _ _ (Nat.succ_pos _) (Nat.succ_pos _)).2 rfl) (step m' (Nat.le_refl _))
    | k + 1 => exact step k hk
  refine ⟨t, g1, g2, (hl 1).2 (Nat.succ_pos m), ?_, ?_⟩
  · have := hk 0 (Nat.zero_le _)
    simpa using this
  · have low : ∀ {j k : NodeId} {n : Nat}, t.Leads j k n → k = 1 → 1 ≤ j → j ≤ m + 1 → (if j = 1 then m + 1 else j - 1) ≤ n := by
      intro j k n hL
      induction hL with
      | @one j k hl =>
        intro e h1 h2
        rw [hto _ _ h1 h2] at hl
        rw [← hl, e]
      | @more j j' k n hl _ ih =>
        intro e h1 h2
        rw [hto _ _ h1 h2] at hl
        have key : ∀ j j' : Nat, 1 ≤ j → j ≤ m + 1 → (j' = if j = 1 then m + 1 else j - 1) → 1 ≤ j' ∧ j' ≤ m + 1 ∧
            ((if j' = 1 then m + 1 else j' - 1) ≤ n → (if j = 1 then m + 1 else j - 1) ≤ n + 1) := by
          intro j j' h1 h2 h3
          split at h3 <;> simp_all <;> split <;> omega
        obtain ⟨k1, k2, k3⟩ := key j j' h1 h2 hl
        exact k3 (ih e k1 k2)
    intro n hL
    simpa using low hL rfl (Nat.le_refl _) (Nat.succ_pos m)

/-- A file with a ring of three references. -/
def ringXml : Xml := xe st!"svg" [] (xe st!"use" [xa st!"id" st!"a", xa st!"href" st!"#b"] .nil
  (xe st!"use" [xa st!"id" st!"b", xa st!"href" st!"#c"] .nil
  (xe st!"use" [xa st!"id" st!"c", xa st!"href" st!"#a"] .nil .nil))) .nil

/-- C103 does not hold for parsed documents either: rings of three references in a file are kept. -/
theorem C103_refuted_parsed : ∃ x t, parseSvg sampleLib true x = .ok t ∧ ∃ i, t.InTree i ∧ t.Leads i i 3 := by
  obtain ⟨t, e, hp⟩ := exists_of_parsed (x := ringXml) (p := fun t => t.live 2 && decide (t.parent 2 = some 1) &&
    decide (t.parent 1 = some t.rootId) && (t.attributes 2).any (fun a => a.value.refersTo 3) &&
    (t.attributes 3).any (fun a => a.value.refersTo 4) && (t.attributes 4).any (fun a => a.value.refersTo 2)) (by decide +kernel)
  simp only [Bool.and_eq_true, decide_eq_true_eq, List.any_eq_true] at hp
  obtain ⟨⟨⟨⟨⟨p1, p2⟩, p3⟩, p4⟩, p5⟩, p6⟩ := hp
  exact ⟨_, t, e, 2, ⟨p1, .head (b := 1) p2 (.single p3)⟩, .more p4 (.more p5 (.one p6))⟩

/-- `C103_partial` applies to the ring of `C103_refuted` with three references. -/
example : ∃ s, Reachable s ∧ s.live 1 = true ∧ s.Leads 1 1 3 := by
  obtain ⟨s, h1, _, h2, h3, _⟩ := C103_refuted true 3 (Nat.le_refl _)
  exact ⟨s, h1, h2, h3⟩

end Svgdom
