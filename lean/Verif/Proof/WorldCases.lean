import Verif.Proof.World

/-!
# Concrete histories with several documents

Used to show that hypotheses of theorems can be met and for counterexamples.
-/

set_option autoImplicit false

namespace Svgdom

/-- One step of a program with several documents. The list of a call names the nodes it may remove. -/
inductive WOp where
  | newDoc
  | call (d : Nat) (op : Op) (l : List NodeId := [])
  | drop (d : Nat)

/-- Do the nodes of `l` have owner `d`, and is `l` closed under children? -/
def closedList (w : World) (d : Nat) (l : List NodeId) : Bool :=
  l.all (fun j => decide (w.owner j = d)) &&
  (List.range w.nextId).all fun j => !(w.live j) || match (w.links j).parent with
    | some p => !(l.contains p) || l.contains j
    | none => true

/-- A check of `Op.Within`. -/
def withinCheck (w : World) (d : Nat) (l : List NodeId) : Op → Bool
  | .removeNode i => l.contains i && closedList w d l
  | .drain i _ => closedList w d l && (List.range w.nextId).all fun j => !(w.live j) || match (w.links j).parent with
    | some p => decide (p ≠ i) || l.contains j
    | none => true
  | _ => true

/-- A check of `World.Apart`. -/
def apartCheck (w : World) (x : Doc) : Bool :=
  (List.range w.nextId).all fun i => !(w.live i) || (w.data i).attributes.all fun a => match a.value.linkNode with
    | some j => decide (i ∈ x.slab.nodes ↔ j ∈ x.slab.nodes)
    | none => true

theorem up_link {s : St} {j p : NodeId} (h : s.Up j p) : (s.links j).parent = some p := by
  simp only [St.Up, St.parent] at h
  cases hq : (s.links j).parent with
  | none => rw [hq] at h; simp [St.upgrade] at h
  | some q =>
    rw [hq] at h
    simp only [St.upgrade] at h
    split at h
    · exact h
    · simp at h

theorem closed_up {w : World} {d : Nat} {l : List NodeId} (h : closedList w d l = true) (hb : ∀ j, w.live j = true → j < w.nextId)
    {x : Doc} {j p : NodeId} (hj : w.live j = true) (hu : (w.view x).Up j p) (hp : p ∈ l) : j ∈ l := by
  simp only [closedList, Bool.and_eq_true, List.all_eq_true] at h
  have := h.2 j (by simp [hb j hj])
  have hq : (w.links j).parent = some p := up_link hu
  simpa [hj, hq, hp] using this

theorem within_of_check {w : World} {d : Nat} {l : List NodeId} {x : Doc} {op : Op} (hb : ∀ j, w.live j = true → j < w.nextId)
    (h : withinCheck w d l op = true) : op.Within (fun j => w.owner j = d) (w.view x) := by
  have own : ∀ {l : List NodeId}, closedList w d l = true → ∀ j ∈ l, w.owner j = d := by
    intro l h j hj
    simp only [closedList, Bool.and_eq_true, List.all_eq_true, decide_eq_true_eq] at h
    exact h.1 j hj
  cases op with
  | removeNode i =>
    simp only [withinCheck, Bool.and_eq_true, List.contains_iff_mem] at h
    intro j hj hs
    refine own h.2 j ?_
    induction hs using Relation.ReflTransGen.head_induction_on with
    | refl => exact h.1
    | head hu _ ih => exact closed_up h.2 hb hj hu (ih (up_live hu))
  | drain i f =>
    simp only [withinCheck, Bool.and_eq_true] at h
    intro j hj hs
    refine own h.1 j ?_
    induction hs using Relation.TransGen.head_induction_on with
    | @single j hu =>
      have h2 := h.2
      rw [List.all_eq_true] at h2
      have := h2 j (by simp [hb j hj])
      have hq : (w.links j).parent = some i := up_link hu
      have hj : w.live j = true := hj
      simpa [hj, hq] using this
    | head hu _ ih => exact closed_up h.1 hb hj hu (ih (up_live hu))
  | _ => exact trivial

theorem apart_of_check {w : World} {x : Doc} (hb : ∀ j, w.live j = true → j < w.nextId) (h : apartCheck w x = true) : w.Apart x := by
  intro i j hi ⟨a, ha, hr⟩
  simp only [apartCheck, List.all_eq_true] at h
  have := h i (by simp [hb i hi])
  simp only [hi, Bool.not_true, Bool.false_or, List.all_eq_true] at this
  have := this a ha
  rw [refersTo_iff] at hr
  simpa [hr] using this

/-- Run the steps and check that they only remove what they may remove. -/
def runOwn (w : World) : List WOp → Option World
  | [] => some w
  | .newDoc :: os => runOwn w.newDoc os
  | .call d op l :: os =>
    match w.docs d with
    | none => none
    | some x =>
      if op.handles.all w.live && withinCheck w d l op then
        match op.run (w.view x) with
        | .ok t => runOwn (w.put d t) os
        | .error _ => none
      else none
  | .drop d :: os =>
    match w.docs d with
    | none => none
    | some x =>
      if apartCheck w x then
        match (w.view x).dropDocument with
        | .ok t => runOwn (w.dropped d t) os
        | .error _ => none
      else none

theorem runOwn_worlds {os : List WOp} : ∀ {w v : World}, Worlds w → runOwn w os = some v → Worlds v := by
  induction os with
  | nil => intro w v h e; simp [runOwn] at e; exact e ▸ h
  | cons o os ih =>
    intro w v h e
    have hb : ∀ j, w.live j = true → j < w.nextId := by
      obtain ⟨F, hF⟩ := h.inv.heap
      exact hF.liveBelow
    cases o with
    | newDoc => exact ih h.newDoc e
    | call d op l =>
      simp only [runOwn] at e
      split at e
      · simp at e
      · next x hx =>
        split at e
        · next hl =>
          rw [Bool.and_eq_true] at hl
          split at e
          · next t ht => exact ih (.call op h hx (fun i hi => List.all_eq_true.1 hl.1 i hi) (within_of_check hb hl.2) ht) e
          · simp at e
        · simp at e
    | drop d =>
      simp only [runOwn] at e
      split at e
      · simp at e
      · next x hx =>
        split at e
        · next ha =>
          split at e
          · next t ht => exact ih (.drop h hx (apart_of_check hb ha) ht) e
          · simp at e
        · simp at e

theorem exists_own {os : List WOp} {p : World → Bool} (h : (runOwn (World.start true) os).any p = true) :
    ∃ w, Worlds w ∧ p w = true := by
  rw [Option.any_eq_true] at h
  obtain ⟨w, e, hp⟩ := h
  exact ⟨w, runOwn_worlds (.start true) e, hp⟩

/-- A property of a document that exists. -/
def docAnd (w : World) (d : Nat) (p : Doc → Bool) : Bool := (w.docs d).any p

theorem docAnd_iff {w : World} {d : Nat} {p : Doc → Bool} : docAnd w d p = true ↔ ∃ x, w.docs d = some x ∧ p x = true := by
  simp [docAnd, Option.any_eq_true]

end Svgdom
