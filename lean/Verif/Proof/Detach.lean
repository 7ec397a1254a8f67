import Verif.Proof.Lists

/-! `detachCore` in closed form and its refinement. -/

namespace Svgdom
namespace St

/-- First node patched by a detach of `i`: the next sibling or else the parent. -/
def touch1 (s : St) (i : NodeId) : Option NodeId :=
  match s.nextSibling i with
  | some n => some n
  | none => s.parent i

/-- Second node patched by a detach of `i`: the previous sibling or else the parent. -/
def touch2 (s : St) (i : NodeId) : Option NodeId :=
  match s.prevSibling i with
  | some n => some n
  | none => s.parent i

/-- A detach of `i` while `held` are borrowed runs into a held node. -/
def blocked (s : St) (held : List NodeId) (i : NodeId) : Prop :=
  (∃ n, s.touch1 i = some n ∧ n ∈ held) ∨ (∃ n, s.touch2 i = some n ∧ n ∈ held)

/-- Links after a detach of `i`. -/
def detachedLinks (s : St) (i j : NodeId) : Links where
  root := (s.links j).root
  parent := if j = i then none else (s.links j).parent
  firstChild := if s.prevSibling i = none ∧ s.parent i = some j then s.nextSibling i else (s.links j).firstChild
  lastChild := if s.nextSibling i = none ∧ s.parent i = some j then (s.links i).prevSib else (s.links j).lastChild
  prevSib := if s.nextSibling i = some j then (s.links i).prevSib else if j = i then none else (s.links j).prevSib
  nextSib := if s.prevSibling i = some j then s.nextSibling i else if j = i then none else (s.links j).nextSib

/-- State after a detach of `i`. -/
def detached (s : St) (i : NodeId) : St := { s with links := s.detachedLinks i }

theorem ext_links {s : St} {f g : NodeId → Links} (h : ∀ j, f j = g j) :
    ({ s with links := f } : St) = { s with links := g } := by
  rw [funext h]


@[simp] theorem setL_links (s : St) (i j : NodeId) (f : Links → Links) :
    (s.setL i f).links j = if j = i then f (s.links i) else s.links j := rfl

@[simp] theorem setL_upgrade (s : St) (i : NodeId) (f : Links → Links) (w : Option NodeId) :
    (s.setL i f).upgrade w = s.upgrade w := rfl

theorem setL_eq (s : St) (i : NodeId) (f : Links → Links) :
    s.setL i f = { s with links := (s.setL i f).links } := rfl

theorem eq_of_links {s t : St} (g : NodeId → Links) (hl : ∀ j, t.links j = g j) (hd : t.data = s.data)
    (hv : t.live = s.live) (hn : t.nextId = s.nextId) (hr : t.rootId = s.rootId) (hs : t.slab = s.slab)
    (hb : t.debug = s.debug) : t = { s with links := g } := by
  have := funext hl
  cases t; cases s; simp_all

theorem detachCore_ok (s : St) (held : List NodeId) (i : NodeId) (h : ¬ s.blocked held i) :
    s.detachCore held i = .ok (s.detached i) := by
  simp only [blocked, not_or, not_exists, not_and, touch1, touch2] at h
  obtain ⟨h1, h2⟩ := h
  simp only [detachCore, detachNext, detachPrev, detached, setL_upgrade]
  cases hn : s.nextSibling i <;> cases hp : s.prevSibling i <;> cases hu : s.parent i <;>
  ( simp only [hn, hp, hu, Option.some.injEq, forall_eq', reduceCtorEq] at h1 h2
    have hn' := hn
    have hp' := hp
    have hu' := hu
    simp only [nextSibling] at hn'
    simp only [prevSibling] at hp'
    simp only [parent] at hu'
    simp only [hn', hp', hu', borrowMut, h1, h2, if_false, bind, Except.bind, pure, Except.pure, setL_upgrade]
    congr 1
    refine eq_of_links _ ?_ rfl rfl rfl rfl rfl rfl
    intro j
    simp only [detachedLinks, hn, hp, hu, setL_links]
    ext1 <;> simp only [] <;> split_ifs <;> simp_all )

theorem detachCore_blocked (s : St) (held : List NodeId) (i : NodeId) (h : s.blocked held i) :
    s.detachCore held i = .error (.panic .borrowed) := by
  simp only [blocked, touch1, touch2] at h
  simp only [detachCore, detachNext, detachPrev, setL_upgrade]
  cases hn : s.nextSibling i <;> cases hp : s.prevSibling i <;> cases hu : s.parent i <;>
  simp only [hn, hp, hu, Option.some.injEq, exists_eq_left', reduceCtorEq, false_and, exists_false, or_self] at h <;>
  ( have hn' := hn
    have hp' := hp
    have hu' := hu
    simp only [nextSibling] at hn'
    simp only [prevSibling] at hp'
    simp only [parent] at hu'
    simp only [hn', hp', hu', borrowMut, bind, Except.bind, pure, Except.pure]
    try (split_ifs <;> simp_all) )

end St
end Svgdom
