import Mathlib.Algebra.BigOperators.Group.Finset.Piecewise
import Verif.Proof.Acyclic
import Verif.Spec.Attrs

/-! From the attribute invariants to the words of Spec/Attrs.lean. -/

namespace Svgdom

theorem refersTo_iff {v : AttributeValue} {n : NodeId} : v.refersTo n = true ↔ v.linkNode = some n := by
  cases v <;> simp [AttributeValue.refersTo, AttributeValue.linkNode]

theorem plain_iff {v : AttributeValue} : v.plain = true ↔ v.linkNode = none := by
  cases v <;> simp [AttributeValue.plain, AttributeValue.linkNode]

theorem refCount_eq (l : List Attribute) (n : NodeId) : refCount l n = refs l n := by
  simp only [refCount, refs, List.countP_eq_length_filter]
  congr 2
  funext a
  rw [Bool.eq_iff_iff, refersTo_iff]; simp

theorem linksTo_iff {s : St} {i j : NodeId} : s.LinksTo i j ↔ 0 < refs (s.attributes i) j := by
  simp [St.LinksTo, refs_pos, refersTo_iff]

theorem linkValue_eq (name : AName) (n : NodeId) (fb : Option PaintFallback) :
    St.linkValue name n fb = retag name (.paint n fb) := by
  unfold St.linkValue retag
  cases name with
  | name s => simp [QName.hasId]
  | id t =>
    simp only [QName.hasId, decide_eq_true_eq, Bool.or_eq_true]
    by_cases h1 : t = .Href
    · subst h1; rfl
    · by_cases h2 : t = .Fill
      · subst h2; rfl
      · by_cases h3 : t = .Stroke
        · subst h3; rfl
        · simp only [Ne.symm h1, Ne.symm h2, Ne.symm h3, or_self, if_false]
          split <;> simp_all

theorem stored_value (a : Attribute) : a.stored = ⟨a.name, retag a.name a.value⟩ := by
  obtain ⟨name, v⟩ := a
  cases v <;> simp [Attribute.stored, AttributeValue.linkNode, AttributeValue.fallback, linkValue_eq, retag]

theorem refused_iff {s : St} (h : Reachable s) {i n : NodeId} (hi : s.live i = true) (hn : s.live n = true) {e : DomError} :
    Refused s i n e ↔ s.rejected i n = some e := by
  have hm : n ∈ s.linkedNodes i ↔ s.LinksTo n i := by
    rw [linksTo_iff, ← h.inv.link.count n i hn hi, List.count_pos_iff]
  unfold St.rejected
  constructor
  · rintro (h1 | ⟨h1, h2⟩ | ⟨h1, h2⟩)
    · simp [h1]
    · simp [h1, h2]
    · simp [h1, hm.2 h2]
  · intro hh
    split_ifs at hh with h1 h2
    · cases hh; exact .noId h1
    · cases hh
      rcases h2 with h2 | h2
      · exact .sameId h1 h2
      · exact .backLink h1 (hm.1 h2)

theorem not_refused_iff {s : St} (h : Reachable s) {i n : NodeId} (hi : s.live i = true) (hn : s.live n = true) :
    (∀ e, ¬ Refused s i n e) ↔ s.rejected i n = none := by
  constructor
  · intro hh
    cases hr : s.rejected i n with
    | none => rfl
    | some e => exact absurd ((refused_iff h hi hn).2 hr) (hh e)
  · intro hr e he
    have := (refused_iff h hi hn).1 he
    rw [hr] at this; simp at this

theorem sameElse_put (s : St) (i : NodeId) (a : Attribute) : SameElse s (s.putAttr i a) :=
  ⟨rfl, rfl, rfl, rfl, rfl, rfl, fun _ => rfl, fun _ => rfl, fun _ => rfl, fun _ => rfl, fun _ => rfl⟩

theorem sameElse_del (s : St) (i : NodeId) (n : AName) : SameElse s (s.delAttr i n) :=
  ⟨rfl, rfl, rfl, rfl, rfl, rfl, fun _ => rfl, fun _ => rfl, fun _ => rfl, fun _ => rfl, fun _ => rfl⟩

theorem put_back {s : St} {i : NodeId} {a : Attribute} {m : NodeId}
    (h1 : ∀ b ∈ s.attributes i, b.name = a.name → b.value.refersTo m = false)
    (h2 : a.value.refersTo m = false) : (s.putAttr i a.stored).linkedNodes m = s.linkedNodes m := by
  have h3 : s.target i a.name ≠ some m := by
    unfold St.target
    cases hg : attrsGet (s.attributes i) a.name with
    | none => simp
    | some b =>
      obtain ⟨hb, hbn⟩ := attrsGet_some hg
      have := h1 b hb hbn
      simp only [Option.bind_some]
      intro e
      rw [refersTo_iff.2 e] at this; simp at this
  have h4 : a.value.linkNode ≠ some m := by
    intro e; rw [refersTo_iff.2 e] at h2; simp at h2
  simp [St.putAttr, St.linkedNodes, h3, h4]

theorem length_eq_sum_count (n : Nat) : ∀ l : List NodeId, (∀ x ∈ l, x < n) → l.length = ∑ i ∈ Finset.range n, l.count i := by
  intro l
  induction l with
  | nil => simp
  | cons x l ih =>
    intro h
    have hx : x < n := h x (by simp)
    rw [List.length_cons, ih fun y hy => h y (by simp [hy])]
    simp only [List.count_cons, Finset.sum_add_distrib]
    congr 1
    simp [Finset.sum_ite_eq, hx]

end Svgdom
