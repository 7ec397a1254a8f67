import Verif.Proof.Inner

/-! The forest of a state is determined by its getters. -/

namespace Svgdom

theorem suffix_unique : ∀ {b b' : List NodeId}, b.Nodup → b'.Nodup → b.head? = b'.head? →
    (∀ x ∈ b, x ∈ b' → after b x = after b' x) → b = b'
  | [], b', _, _, hh, _ => by cases b' <;> simp_all
  | x :: t, [], _, _, hh, _ => by simp at hh
  | x :: t, y :: t', hn, hn', hh, ha => by
    simp only [List.head?_cons, Option.some.injEq] at hh
    subst hh
    rw [List.nodup_cons] at hn hn'
    have h1 := ha x (by simp) (by simp)
    simp only [after, if_true] at h1
    congr 1
    refine suffix_unique hn.2 hn'.2 h1 fun z hz hz' => ?_
    have hzx : x ≠ z := by rintro rfl; exact hn.1 hz
    have := ha z (by simp [hz]) (by simp [hz'])
    simpa [after, hzx] using this

theorem Describes.kids_eq {s : St} {F G : Forest} (hF : Describes s F) (hG : Describes s G) {i : NodeId}
    (hi : s.live i = true) : F.kids i = G.kids i := by
  refine suffix_unique (hF.wf.kids_nodup hi) (hG.wf.kids_nodup hi) ?_ ?_
  · rw [← hF.shows.first i hi, ← hG.shows.first i hi]
  · intro x hx hx'
    have hl := (hF.wf.kids i hi x hx).1
    rw [hF.wf.kids_sibs hi hx, hG.wf.kids_sibs hi hx', ← hF.shows.next x hl, ← hG.shows.next x hl]

theorem Describes.par_eq {s : St} {F G : Forest} (hF : Describes s F) (hG : Describes s G) {i : NodeId}
    (hi : s.live i = true) : F.par i = G.par i := by
  rw [← hF.shows.parent i hi, ← hG.shows.parent i hi]

theorem sibs_eq_aux {s : St} {F G : Forest} (hF : Describes s F) (hG : Describes s G) : ∀ (a b : List NodeId) (i : NodeId),
    s.live i = true → F.sibs i = a ++ i :: b → F.sibs i = G.sibs i := by
  intro a
  generalize hlen : a.length = n
  induction n generalizing a with
  | zero =>
    intro b i hi e
    have : a = [] := by simpa using hlen
    subst this
    refine suffix_unique (hF.wf.nodup i hi) (hG.wf.nodup i hi) ?_ ?_
    · rw [e]
      have h1 : before (G.sibs i) i = none := by
        rw [← hG.shows.prev i hi, hF.shows.prev i hi, e]; exact before_head_none rfl
      obtain ⟨a', b', e', h', _⟩ := nodup_split (hG.wf.nodup i hi) (hG.wf.self_mem i hi)
      rw [e', before_split h'] at h1
      have : a' = [] := by simpa using h1
      rw [e', this]; rfl
    · intro x hx hx'
      obtain ⟨hl, hs, _⟩ := hF.wf.sib i hi x hx
      obtain ⟨_, hs', _⟩ := hG.wf.sib i hi x hx'
      rw [← hs, ← hs', ← hF.shows.next x hl, ← hG.shows.next x hl]
  | succ n ih =>
    intro b i hi e
    obtain ⟨a', q, rfl⟩ : ∃ a' q, a = a' ++ [q] := by
      rcases List.eq_nil_or_concat a with rfl | ⟨L, q, rfl⟩
      · simp at hlen
      · exact ⟨L, q, by simp⟩
    have hq : q ∈ F.sibs i := by rw [e]; simp
    obtain ⟨hl, hs, _⟩ := hF.wf.sib i hi q hq
    have h1 := ih a' (by simpa using hlen) (i :: b) q hl (by rw [hs, e]; simp)
    have hia : i ∉ a' ++ [q] := by
      have := hF.wf.nodup i hi
      rw [e] at this
      have := (List.nodup_append.1 this).2.2
      intro hm; exact this i hm i (by simp) rfl
    have hb : before (G.sibs i) i = some q := by
      rw [← hG.shows.prev i hi, hF.shows.prev i hi, e, before_split hia]; simp
    obtain ⟨_, hs', _⟩ := hG.wf.sib i hi q (before_mem hb)
    rw [← hs, h1, hs']

theorem Describes.sibs_eq {s : St} {F G : Forest} (hF : Describes s F) (hG : Describes s G) {i : NodeId}
    (hi : s.live i = true) : F.sibs i = G.sibs i := by
  obtain ⟨a, b, e, _⟩ := exists_split (hF.wf.self_mem i hi)
  exact sibs_eq_aux hF hG a b i hi e

/-- A forest that describes a reachable state is represented by it. -/
theorem Inv.reps {s : St} (h : Inv s) {F : Forest} (hF : Describes s F) : Reps s F := by
  obtain ⟨G, hT⟩ := h.tree
  exact ⟨hF.wf, hF.shows, hT.reps.clean⟩

theorem Reps.describes {s : St} {F : Forest} (h : Reps s F) : Describes s F := ⟨h.wf, h.shows⟩

end Svgdom
