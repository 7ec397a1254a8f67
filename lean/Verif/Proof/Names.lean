import Verif.Model.SipHash

/-! Helper lemmas for the name tables. -/

namespace Svgdom

/-- Lookup of every key of the table gives its value (evaluated by the kernel over the whole table). -/
def PhfMap.checkGet {V : Type} [DecidableEq V] (m : PhfMap V) : Bool :=
  m.entries.all fun e => match m.get e.1 with
    | .ok (some v) => decide (v = e.2)
    | _ => false

/-- Size bounds that exclude `u32` overflow. -/
def PhfMap.checkBounds {V : Type} (m : PhfMap V) : Bool :=
  (m.disps.length != 0) && (m.entries.length != 0) &&
  m.disps.all fun d => decide (d.1 ≤ 1000 ∧ d.2 ≤ 1000)

theorem elements_checkGet : elementsMap.checkGet = true := by decide +kernel
theorem attributes_checkGet : attributesMap.checkGet = true := by decide +kernel
theorem elements_checkBounds : elementsMap.checkBounds = true := by decide +kernel
theorem attributes_checkBounds : attributesMap.checkBounds = true := by decide +kernel

theorem elements_values_complete : ElementId.all.all (fun v => elementsMap.entries.any (fun e => e.2 = v)) = true := by
  decide +kernel
theorem attributes_values_complete :
    AttributeId.all.all (fun v => attributesMap.entries.any (fun e => e.2 = v)) = true := by
  decide +kernel

variable {V : Type}

theorem PhfMap.get_total (m : PhfMap V) (hb : m.checkBounds = true) (k : Str) :
    ∃ (i : Nat) (b : Str) (v : V), m.entries[i]? = some (b, v) ∧ m.get k = .ok (if b = k then some v else none) := by
  simp only [PhfMap.checkBounds, Bool.and_eq_true, bne_iff_ne, ne_eq, List.all_eq_true, decide_eq_true_eq] at hb
  obtain ⟨⟨hd, he⟩, hall⟩ := hb
  obtain ⟨g, f1, f2, hs, h1, h2⟩ : ∃ g f1 f2, split (hashStr k m.key) = (g, f1, f2) ∧ f1 < 2097152 ∧ f2 < 2097152 :=
    ⟨_, _, _, rfl, Nat.mod_lt _ (by decide), Nat.mod_lt _ (by decide)⟩
  have hgi : g % m.disps.length < m.disps.length := Nat.mod_lt _ (Nat.pos_of_ne_zero hd)
  obtain ⟨d1, d2, hdd⟩ : ∃ d1 d2, m.disps[g % m.disps.length] = (d1, d2) := ⟨_, _, rfl⟩
  have hdm : (d1, d2) ∈ m.disps := hdd ▸ List.getElem_mem hgi
  have hbd := hall _ hdm
  simp only at hbd
  have hmul : f1 * d1 ≤ 2097151 * 1000 := Nat.mul_le_mul (by omega) hbd.1
  have hdisp : displace f1 f2 d1 d2 = .ok (d2 + f1 * d1 + f2) := by
    have e1 : f1 * d1 < 4294967296 := by omega
    have e2 : d2 + f1 * d1 < 4294967296 := by omega
    have e3 : d2 + f1 * d1 + f2 < 4294967296 := by omega
    simp [displace, chkU32, e1, e2, e3, bind, Except.bind]
  let idx := (d2 + f1 * d1 + f2) % m.entries.length
  have hidx : idx < m.entries.length := Nat.mod_lt _ (Nat.pos_of_ne_zero he)
  have hgetidx : getIndex (hashStr k m.key) m.disps m.entries.length = .ok idx := by
    simp [getIndex, hs, chkRem, hd, he, bind, Except.bind, List.getElem?_eq_getElem hgi, hdd, hdisp, idx]
  obtain ⟨b, v, hbv⟩ : ∃ b v, m.entries[idx] = (b, v) := ⟨_, _, rfl⟩
  refine ⟨idx, b, v, by rw [List.getElem?_eq_getElem hidx, hbv], ?_⟩
  simp only [PhfMap.get, hgetidx, bind, Except.bind, List.getElem?_eq_getElem hidx, hbv]
  split <;> rfl

theorem PhfMap.keyOf_of_complete [DecidableEq V] (m : PhfMap V) (v : V) (h : ∃ k, (k, v) ∈ m.entries) :
    ∃ k, m.keyOf v = .ok k ∧ (k, v) ∈ m.entries := by
  obtain ⟨k, hk⟩ := h
  unfold PhfMap.keyOf
  cases hf : m.entries.find? (fun kv => kv.2 = v) with
  | none =>
    rw [List.find?_eq_none] at hf
    exact absurd (hf _ hk) (by simp)
  | some kv =>
    have h1 := List.find?_some hf
    have h2 := List.mem_of_find?_eq_some hf
    simp only [decide_eq_true_eq] at h1
    exact ⟨kv.1, rfl, by rw [← h1]; exact h2⟩

theorem PhfMap.get_of_mem [DecidableEq V] (m : PhfMap V) (hc : m.checkGet = true) {k : Str} {v : V}
    (h : (k, v) ∈ m.entries) : m.get k = .ok (some v) := by
  simp only [PhfMap.checkGet, List.all_eq_true] at hc
  have := hc _ h
  split at this
  · rename_i w hw
    simp only [decide_eq_true_eq] at this
    rw [hw, this]
  · simp at this

theorem PhfMap.mem_of_get (m : PhfMap V) (hb : m.checkBounds = true) {k : Str} {v : V}
    (h : m.get k = .ok (some v)) : (k, v) ∈ m.entries := by
  obtain ⟨i, b, w, hi, hg⟩ := m.get_total hb k
  rw [hg] at h
  split at h
  · rename_i hbk
    simp only [Except.ok.injEq, Option.some.injEq] at h
    subst hbk h
    exact List.mem_of_getElem? hi
  · simp at h

theorem element_complete (e : ElementId) : ∃ k, (k, e) ∈ elementsMap.entries := by
  have h := elements_values_complete
  simp only [List.all_eq_true, List.any_eq_true, decide_eq_true_eq] at h
  obtain ⟨⟨k, v⟩, hm, hv⟩ := h e (ElementId.mem_all e)
  exact ⟨k, hv ▸ hm⟩

theorem attribute_complete (e : AttributeId) : ∃ k, (k, e) ∈ attributesMap.entries := by
  have h := attributes_values_complete
  simp only [List.all_eq_true, List.any_eq_true, decide_eq_true_eq] at h
  obtain ⟨⟨k, v⟩, hm, hv⟩ := h e (AttributeId.mem_all e)
  exact ⟨k, hv ▸ hm⟩

end Svgdom
