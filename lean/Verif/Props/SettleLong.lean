import Verif.Proof.SettleFamily

/-!
# C112: no fixed number of rounds is enough
-/

set_option autoImplicit false

namespace Svgdom

/-- No number of rounds is enough for all documents: for each number there is a document whose output changes in each of so many
rounds. -/
theorem C112_no_bound (L : Lib) (hL : L.sheet [] = []) (debug : Bool) (W : ValueWriter) (q : Char) (N : Nat) :
    ∃ x : Xml, x.topElements = 1 ∧ x.topText = false ∧ ∃ u : Nat → St, parseSvg L debug x = .ok (u 0) ∧
      ∀ k < N, (u k).Round L debug W q (u (k + 1)) ∧ (u (k + 1)).writeDom W ≠ (u k).writeDom W := by
  have hp : ∀ k, ∃ t, parseSvg L debug (longXml k (N + 1 - k)) = .ok t := fun k => long_parsed hL debug _ _
  choose u hu using hp
  refine ⟨longXml 0 (N + 1), rfl, rfl, u, hu 0, fun k hk => ?_⟩
  obtain ⟨m, hm⟩ : ∃ m, N - k = m + 1 := ⟨N - k - 1, by omega⟩
  have e1 : N + 1 - k = m + 2 := by omega
  have e2 : N + 1 - (k + 1) = m + 1 := by omega
  have h0 := hu k
  have h1 := hu (k + 1)
  rw [e1] at h0
  rw [e2] at h1
  obtain ⟨evs, a1, a2⟩ := long_saved hL h0 W q
  obtain ⟨evs', b1, b2⟩ := long_saved hL h1 W q
  refine ⟨⟨evs, _, _, a1, a2, bare_unindent (long_bare _ _) rfl, h1⟩, fun h => ?_⟩
  rw [a1, b1] at h
  cases h
  rw [a2] at b2
  have := congrArg (Option.map Xml.spaces) b2
  simp [long_spaces] at this

/-- The hypothesis is met, and a hundred rounds are not enough. -/
example : sampleLib.sheet [] = [] ∧ ∃ x : Xml, ∃ u : Nat → St, parseSvg sampleLib true x = .ok (u 0) ∧
    ∀ k < 100, (u k).Round sampleLib true sampleWriter '"' (u (k + 1)) ∧ (u (k + 1)).writeDom sampleWriter ≠ (u k).writeDom sampleWriter := by
  obtain ⟨x, _, _, u, h⟩ := C112_no_bound sampleLib rfl true sampleWriter '"' 100
  exact ⟨rfl, x, u, h⟩

/-- The document for two rounds. -/
example : longXml 0 1 = .element (some st!"http://www.w3.org/2000/svg") st!"svg" [] (.element (some st!"http://www.w3.org/2000/svg") st!"text" []
    (.text st!" " (.comment st!"c" (.text st!"a" (.element (some st!"http://www.w3.org/2000/svg") st!"tspan" [] (.text st!"a" .nil) .nil)))) .nil) .nil :=
  rfl

end Svgdom
