import Verif.Proof.Inserts

/-! All pointers, also dangling ones, refer to node ids handed out before. -/

namespace Svgdom

theorem bind_ok {ε α β : Type} {x : Except ε α} {f : α → Except ε β} {b : β} :
    (x >>= f) = .ok b ↔ ∃ a, x = .ok a ∧ f a = .ok b := by
  cases x <;> simp [bind, Except.bind]

theorem pure_ok {ε α : Type} {a b : α} : (pure a : Except ε α) = .ok b ↔ a = b := by
  simp [pure, Except.pure]

structure Links.Below (l : Links) (n : NodeId) : Prop where
  root : ∀ k, l.root = some k → k < n
  parent : ∀ k, l.parent = some k → k < n
  firstChild : ∀ k, l.firstChild = some k → k < n
  lastChild : ∀ k, l.lastChild = some k → k < n
  prevSib : ∀ k, l.prevSib = some k → k < n
  nextSib : ∀ k, l.nextSib = some k → k < n

def AllBelow (s : St) (n : NodeId) : Prop := ∀ i, (s.links i).Below n

theorem setL_below {s : St} {n i : NodeId} {f : Links → Links} (h : AllBelow s n)
    (hf : ∀ l : Links, l.Below n → (f l).Below n) : AllBelow (s.setL i f) n := by
  intro j
  simp only [St.setL_links]
  split
  · exact hf _ (h i)
  · exact h j

theorem upgrade_below {s : St} {n : NodeId} {w : Option NodeId} {k : NodeId} (hw : ∀ k, w = some k → k < n)
    (h : s.upgrade w = some k) : k < n := hw k (upgrade_live h).2

theorem some_below {n k : NodeId} (h : k < n) : ∀ m, some k = some m → m < n := by
  intro m e; cases e; exact h

theorem none_below {n : NodeId} : ∀ m, (none : Option NodeId) = some m → m < n := by
  intro m e; cases e

theorem detached_below {s : St} {n i : NodeId} (h : AllBelow s n) : AllBelow (s.detached i) n := by
  intro j
  have hj := h j
  have hi := h i
  constructor <;> intro k <;> simp only [St.detached, St.detachedLinks] <;>
    (first
      | exact hj.root k
      | (split_ifs <;> simp_all [hj.parent k, hj.firstChild k, hj.lastChild k, hj.prevSib k, hj.nextSib k, hi.nextSib k, hi.prevSib k, St.nextSibling]))

theorem detachCore_below {s t : St} {held : List NodeId} {n i : NodeId} (h : AllBelow s n)
    (e : s.detachCore held i = .ok t) : AllBelow t n := by
  by_cases hb : s.blocked held i
  · rw [St.detachCore_blocked s held i hb] at e; simp at e
  · rw [St.detachCore_ok s held i hb] at e; cases e; exact detached_below h

theorem append_below {s t : St} {n p c : NodeId} (h : AllBelow s n) (hp : p < n) (hc : c < n)
    (e : s.append p c = .ok t) : AllBelow t n := by
  simp only [St.append, bind_ok] at e
  obtain ⟨_, _, s1, e1, e⟩ := e
  have h1 := detachCore_below h e1
  have hr : (s1.links p).root.getD p < n := by
    cases hh : (s1.links p).root with
    | none => exact hp
    | some r => exact (h1 p).root r hh
  have hlp : ∀ k, (s1.links p).lastChild = some k → k < n := (h1 p).lastChild
  generalize hs2 : (s1.setL c fun l => { l with root := some ((s1.links p).root.getD p), parent := some p }) = s2 at e
  have h2 : AllBelow s2 n := by
    rw [← hs2]
    exact setL_below h1 fun l hl => { hl with root := some_below hr, parent := some_below hp }
  have h3 : AllBelow (s2.setL p fun l => { l with lastChild := none }) n :=
    setL_below h2 fun l hl => { hl with lastChild := none_below }
  have h2p := (h2 p).lastChild
  split at e
  · simp only [bind_ok, pure_ok] at e
    obtain ⟨_, _, _, _, rfl⟩ := e
    refine setL_below (setL_below ?_ fun l hl => { hl with lastChild := some_below hc }) fun l hl => { hl with nextSib := some_below hc }
    exact setL_below h3 fun l hl => { hl with prevSib := h2p }
  · simp only [bind_ok, pure_ok] at e
    obtain ⟨_, _, rfl⟩ := e
    exact setL_below (setL_below h3 fun l hl => { hl with lastChild := some_below hc }) fun l hl => { hl with firstChild := some_below hc }

theorem prepend_below {s t : St} {n p c : NodeId} (h : AllBelow s n) (hp : p < n) (hc : c < n)
    (e : s.prepend p c = .ok t) : AllBelow t n := by
  simp only [St.prepend, bind_ok] at e
  obtain ⟨_, _, s1, e1, e⟩ := e
  have h1 := detachCore_below h e1
  have hr : (s1.links p).root.getD p < n := by
    cases hh : (s1.links p).root with
    | none => exact hp
    | some r => exact (h1 p).root r hh
  generalize hs2 : (s1.setL c fun l => { l with root := some ((s1.links p).root.getD p), parent := some p }) = s2 at e
  have h2 : AllBelow s2 n := by
    rw [← hs2]
    exact setL_below h1 fun l hl => { hl with root := some_below hr, parent := some_below hp }
  have h3 : AllBelow (s2.setL p fun l => { l with firstChild := none }) n :=
    setL_below h2 fun l hl => { hl with firstChild := none_below }
  have h2p := (h2 p).firstChild
  have hq : ∀ {u : St}, AllBelow u n → AllBelow (u.setL p fun l => { l with firstChild := some c }) n :=
    fun hu => setL_below hu fun l hl => { hl with firstChild := some_below hc }
  split at e
  · next f hf =>
    simp only [bind_ok, pure_ok] at e
    obtain ⟨_, _, _, _, _, rfl, rfl⟩ := e
    refine hq ?_
    exact setL_below (setL_below h3 fun l hl => { hl with prevSib := some_below hc }) fun l hl =>
      { hl with nextSib := some_below (h2p f hf) }
  · simp only [bind_ok, pure_ok] at e
    obtain ⟨_, _, _, rfl, rfl⟩ := e
    exact hq (setL_below h3 fun l hl => { hl with lastChild := some_below hc })

theorem insertAfter_below {s t : St} {n x y : NodeId} (h : AllBelow s n) (hx : x < n) (hy : y < n)
    (e : s.insertAfter x y = .ok t) : AllBelow t n := by
  simp only [St.insertAfter, bind_ok] at e
  obtain ⟨_, _, s1, e1, e⟩ := e
  have h1 := detachCore_below h e1
  generalize hs2 : (s1.setL y fun l => { l with root := (s1.links x).root, parent := (s1.links x).parent, prevSib := some x }) = s2 at e
  have h2 : AllBelow s2 n := by
    rw [← hs2]
    exact setL_below h1 fun l hl => { hl with root := (h1 x).root, parent := (h1 x).parent, prevSib := some_below hx }
  have h3 : AllBelow (s2.setL x fun l => { l with nextSib := none }) n :=
    setL_below h2 fun l hl => { hl with nextSib := none_below }
  have h2p := (h2 x).nextSib
  have hq : ∀ {u : St}, AllBelow u n → AllBelow (u.setL x fun l => { l with nextSib := some y }) n :=
    fun hu => setL_below hu fun l hl => { hl with nextSib := some_below hy }
  split at e
  · next f hf =>
    simp only [bind_ok, pure_ok] at e
    obtain ⟨_, _, _, _, _, rfl, rfl⟩ := e
    refine hq ?_
    exact setL_below (setL_below h3 fun l hl => { hl with prevSib := some_below hy }) fun l hl =>
      { hl with nextSib := some_below (h2p f hf) }
  · split at e
    · simp only [bind_ok, pure_ok] at e
      obtain ⟨_, _, _, rfl, rfl⟩ := e
      exact hq (setL_below h3 fun l hl => { hl with lastChild := some_below hy })
    · simp only [bind_ok, pure_ok] at e
      obtain ⟨_, rfl, rfl⟩ := e
      exact hq h3

theorem insertBefore_below {s t : St} {n x y : NodeId} (h : AllBelow s n) (hx : x < n) (hy : y < n)
    (e : s.insertBefore x y = .ok t) : AllBelow t n := by
  simp only [St.insertBefore, bind_ok] at e
  obtain ⟨_, _, s1, e1, e⟩ := e
  have h1 := detachCore_below h e1
  generalize hs2 : (s1.setL y fun l => { l with root := (s1.links x).root, parent := (s1.links x).parent, nextSib := some x }) = s2 at e
  have h2 : AllBelow s2 n := by
    rw [← hs2]
    exact setL_below h1 fun l hl => { hl with root := (h1 x).root, parent := (h1 x).parent, nextSib := some_below hx }
  have h3 : AllBelow (s2.setL x fun l => { l with prevSib := none }) n :=
    setL_below h2 fun l hl => { hl with prevSib := none_below }
  have h2p := (h2 x).prevSib
  have hq : ∀ {u : St}, AllBelow u n → AllBelow (u.setL x fun l => { l with prevSib := some y }) n :=
    fun hu => setL_below hu fun l hl => { hl with prevSib := some_below hy }
  split at e
  · simp only [bind_ok, pure_ok] at e
    obtain ⟨_, _, _, _, rfl⟩ := e
    refine setL_below (hq ?_) fun l hl => { hl with nextSib := some_below hy }
    exact setL_below h3 fun l hl => { hl with prevSib := h2p }
  · split at e
    · simp only [bind_ok, pure_ok] at e
      obtain ⟨_, _, rfl⟩ := e
      exact setL_below (hq h3) fun l hl => { hl with firstChild := some_below hy }
    · rw [pure_ok] at e; subst e; exact hq h3

end Svgdom
