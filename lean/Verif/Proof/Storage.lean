import Verif.Proof.Attrs

/-! The slab and document membership. -/

namespace Svgdom

/-- The free list of a slab: following `next` through vacant slots visits exactly the keys `l` and ends at the end. -/
inductive FreeChain (es : List Slot) : Nat → List Nat → Prop where
  | done : FreeChain es es.length []
  | step {k nx : Nat} {l : List Nat} : es[k]? = some (.vacant nx) → FreeChain es nx l → FreeChain es k (k :: l)

/-- The free list is well formed and has all vacant slots. -/
def Slab.Valid (sl : Slab) : Prop :=
  ∃ l, FreeChain sl.entries sl.next l ∧ l.Nodup ∧ ∀ k nx, sl.entries[k]? = some (.vacant nx) → k ∈ l

theorem FreeChain.vacant {es : List Slot} {k : Nat} {l : List Nat} (h : FreeChain es k l) :
    ∀ j ∈ l, ∃ nx, es[j]? = some (.vacant nx) := by
  induction h with
  | done => simp
  | step h1 _ ih =>
    intro j hj
    rcases List.mem_cons.1 hj with rfl | hj
    · exact ⟨_, h1⟩
    · exact ih j hj

theorem FreeChain.set {es : List Slot} {k : Nat} {l : List Nat} (h : FreeChain es k l) {i : Nat} {v : Slot} (hi : i ∉ l) :
    FreeChain (es.set i v) k l := by
  induction h with
  | done =>
    have := FreeChain.done (es := es.set i v)
    rw [List.length_set] at this; exact this
  | step h1 h2 ih =>
    simp only [List.mem_cons, not_or] at hi
    refine .step ?_ (ih hi.2)
    rw [List.getElem?_set_ne hi.1]; exact h1

theorem Slab.get_some {sl : Slab} {k : Nat} {n : NodeId} : sl.get k = some n ↔ sl.entries[k]? = some (.occupied n) := by
  unfold Slab.get
  split
  · next m h => simp [h]
  · next h =>
    constructor
    · simp
    · intro e; exact absurd e (h n)

theorem Slab.mem_nodes {sl : Slab} {n : NodeId} : n ∈ sl.nodes ↔ ∃ k, sl.get k = some n := by
  simp only [Slab.get_some]
  unfold Slab.nodes
  simp only [List.mem_filterMap]
  constructor
  · rintro ⟨e, he, hn⟩
    obtain ⟨k, hk⟩ := List.getElem?_of_mem he
    refine ⟨k, ?_⟩
    cases e with
    | occupied m => simp at hn; subst hn; exact hk
    | vacant _ => simp at hn
  · rintro ⟨k, hk⟩
    exact ⟨_, List.mem_of_getElem? hk, rfl⟩

/-- `insert` on a valid slab: succeeds, the key was not in use, no other slot changes. -/
theorem Slab.insert_ok {sl : Slab} (h : sl.Valid) (n : NodeId) :
    ∃ sl' key, sl.insert n = .ok (sl', key) ∧ sl'.Valid ∧ sl.get key = none ∧
      ∀ k, sl'.get k = if k = key then some n else sl.get k := by
  obtain ⟨l, hc, hn, hv⟩ := h
  by_cases he : sl.next = sl.entries.length
  · refine ⟨⟨sl.entries ++ [.occupied n], sl.next + 1⟩, sl.next, by simp [Slab.insert, he], ?_, ?_, ?_⟩
    · have hl : l = [] := by
        rw [he] at hc
        cases hc with
        | done => rfl
        | step h1 _ => simp at h1
      subst hl
      refine ⟨[], ?_, by simp, ?_⟩
      rotate_left
      · intro k nx hk
        rcases Nat.lt_or_ge k sl.entries.length with h1 | h1
        · rw [List.getElem?_append_left h1] at hk; exact hv k nx hk
        · rw [List.getElem?_append_right h1] at hk
          cases hx : k - sl.entries.length with
          | zero => rw [hx] at hk; simp at hk
          | succ _ => rw [hx] at hk; simp at hk
      have : sl.next + 1 = (sl.entries ++ [Slot.occupied n]).length := by simp [he]
      rw [this]; exact .done
    · unfold Slab.get; rw [he]; simp
    · intro k
      simp only [Slab.get, he]
      rcases Nat.lt_trichotomy k sl.entries.length with h1 | h1 | h1
      · rw [List.getElem?_append_left h1]
        have : k ≠ sl.entries.length := by omega
        simp [this]
      · subst h1; simp
      · have h2 : sl.entries[k]? = none := by rw [List.getElem?_eq_none]; omega
        have h3 : (sl.entries ++ [Slot.occupied n])[k]? = none := by rw [List.getElem?_eq_none]; simp; omega
        have : k ≠ sl.entries.length := by omega
        rw [h2, h3]; simp [this]
  · generalize hnx : sl.next = nx0 at hc
    cases hc with
    | done => exact absurd hnx he
    | @step _ nx l h1 h2 =>
      rw [List.nodup_cons] at hn
      refine ⟨⟨sl.entries.set nx0 (.occupied n), nx⟩, nx0, ?_, ?_, ?_, ?_⟩
      · rw [hnx] at he; simp [Slab.insert, hnx, he, h1]
      · refine ⟨l, h2.set hn.1, hn.2, fun k nx' hk => ?_⟩
        by_cases hkk : k = nx0
        · subst hkk
          have : k < sl.entries.length := by
            rw [List.getElem?_eq_some_iff] at h1; exact h1.1
          rw [List.getElem?_set_self this] at hk; simp at hk
        · rw [List.getElem?_set_ne (Ne.symm hkk)] at hk
          exact (List.mem_cons.1 (hv k nx' hk)).resolve_left hkk
      · unfold Slab.get; rw [h1]
      · intro k
        simp only [Slab.get]
        by_cases hk : k = nx0
        · subst hk
          have : k < sl.entries.length := by
            rw [List.getElem?_eq_some_iff] at h1; exact h1.1
          simp [List.getElem?_set_self this]
        · rw [List.getElem?_set_ne (Ne.symm hk)]; simp [hk]

theorem Slab.nodes_length_le (sl : Slab) : sl.nodes.length ≤ sl.entries.length := List.length_filterMap_le ..

/-- If not all slots are occupied, one is vacant. -/
theorem Slab.exists_vacant {sl : Slab} (h : sl.nodes.length < sl.entries.length) : ∃ k nx : Nat, sl.entries[k]? = some (Slot.vacant nx) := by
  by_contra hno
  have hall : ∀ e ∈ sl.entries, ∃ n, e = .occupied n := by
    intro e he
    obtain ⟨k, hk⟩ := List.getElem?_of_mem he
    cases e with
    | occupied n => exact ⟨n, rfl⟩
    | vacant nx => exact absurd ⟨k, nx, hk⟩ hno
  have : ∀ es : List Slot, (∀ e ∈ es, ∃ n, e = Slot.occupied n) → (Slab.nodes ⟨es, sl.next⟩).length = es.length := by
    intro es
    induction es with
    | nil => intro _; rfl
    | cons e es ih =>
      intro hx
      obtain ⟨n, rfl⟩ := hx e (by simp)
      have := ih fun e he => hx e (by simp [he])
      simp only [Slab.nodes, List.filterMap_cons, List.length_cons] at this ⊢
      rw [this]
  have h2 : sl.nodes.length = sl.entries.length := this sl.entries hall
  omega

/-- `insert` adds a slot only if all slots are occupied. -/
theorem Slab.insert_length {sl sl' : Slab} (h : sl.Valid) {n : NodeId} {key : Nat} (e : sl.insert n = .ok (sl', key)) :
    sl'.entries.length = max sl.entries.length (sl.nodes.length + 1) := by
  obtain ⟨l, hc, hn, hv⟩ := h
  have hle := sl.nodes_length_le
  unfold Slab.insert at e
  simp only at e
  split at e
  · next he =>
    cases e
    have hl : l = [] := by
      rw [he] at hc
      cases hc with
      | done => rfl
      | step h1 _ => simp at h1
    have : ¬ sl.nodes.length < sl.entries.length := fun hx => by
      obtain ⟨k, nx, hk⟩ := Slab.exists_vacant hx
      have := hv k nx hk
      rw [hl] at this; simp at this
    rw [List.length_append, List.length_singleton]; omega
  · next he =>
    split at e
    · next nx hx =>
      cases e
      rw [List.length_set]
      have : sl.nodes.length < sl.entries.length := by
        obtain ⟨hlt, heq⟩ := List.getElem?_eq_some_iff.1 hx
        have h1 : ∀ es : List Slot, (∃ nx, Slot.vacant nx ∈ es) → (Slab.nodes ⟨es, sl.next⟩).length < es.length := by
          intro es
          induction es with
          | nil => rintro ⟨_, h⟩; simp at h
          | cons e es ih =>
            rintro ⟨nx, h⟩
            have hle := Slab.nodes_length_le ⟨es, sl.next⟩
            cases e with
            | vacant _ => simp only [Slab.nodes, List.filterMap_cons, List.length_cons] at hle ⊢; omega
            | occupied _ =>
              have := ih ⟨nx, by simpa using h⟩
              simp only [Slab.nodes, List.filterMap_cons, List.length_cons] at this ⊢; omega
        exact h1 sl.entries ⟨nx, by rw [← heq]; exact List.getElem_mem hlt⟩
      omega
    · cases e
    · cases e

/-- `remove` of an occupied key: succeeds and frees exactly that slot. -/
theorem Slab.remove_ok {sl : Slab} (h : sl.Valid) {key : Nat} {n : NodeId} (hk : sl.get key = some n) :
    ∃ sl', sl.remove key = .ok sl' ∧ sl'.Valid ∧ ∀ k, sl'.get k = if k = key then none else sl.get k := by
  obtain ⟨l, hc, hn, hv⟩ := h
  rw [Slab.get_some] at hk
  have hlt : key < sl.entries.length := by
    rw [List.getElem?_eq_some_iff] at hk; exact hk.1
  have hnl : key ∉ l := by
    intro hm
    obtain ⟨nx, hv⟩ := hc.vacant key hm
    rw [hk] at hv; simp at hv
  refine ⟨⟨sl.entries.set key (.vacant sl.next), key⟩, by simp [Slab.remove, hk], ?_, ?_⟩
  · refine ⟨key :: l, .step (nx := sl.next) ?_ (hc.set hnl), by simp [hnl, hn], fun k nx h => ?_⟩
    · rw [List.getElem?_set_self hlt]
    · by_cases hkk : k = key
      · simp [hkk]
      · rw [List.getElem?_set_ne (Ne.symm hkk)] at h
        exact List.mem_cons_of_mem _ (hv k nx h)
  · intro k
    simp only [Slab.get]
    by_cases hkk : k = key
    · subst hkk; simp [List.getElem?_set_self hlt]
    · rw [List.getElem?_set_ne (Ne.symm hkk)]; simp [hkk]

/-- Storage keys and slots correspond one to one. -/
structure SlabInv (s : St) : Prop where
  valid : s.slab.Valid
  key : ∀ i, s.live i = true → ∀ k, (s.data i).storageKey = some k → s.slab.get k = some i
  occ : ∀ k n, s.slab.get k = some n → s.live n = true ∧ (s.data n).storageKey = some k

theorem slabInv_init (debug : Bool) : SlabInv (St.init debug) where
  valid := ⟨[], FreeChain.done, by simp, by
    intro k nx h
    simp only [St.init] at h
    cases k <;> simp at h⟩
  key := by
    intro i hi k hk
    simp [St.init] at hi hk
    subst hi; subst hk; rfl
  occ := by
    intro k n h
    rw [Slab.get_some] at h
    simp only [St.init] at h ⊢
    cases k with
    | zero => simp at h; subst h; simp
    | succ k => simp at h

end Svgdom
