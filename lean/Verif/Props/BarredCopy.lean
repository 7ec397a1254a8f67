import Verif.Proof.BarredCopy
import Verif.Props.Copy
import Verif.Props.Guard

/-!
# C83 for the copies
-/

set_option autoImplicit false

namespace Svgdom

open Relation

/-- From "returns exactly if" to "panics exactly if". -/
theorem Respects.exact {α : Type} {g : Guards} {π : α → St} {s : St} {rG r : Except Err α} (hr : Respects g π s rG r) {a : α}
    (e : r = .ok a) {P : Prop} (h : rG = .ok a ↔ ¬ P) :
    (rG = .error (.panic .borrowed) ↔ P) ∧ (¬ P → rG = .ok a) := by
  refine ⟨⟨fun h1 => ?_, fun h1 => ?_⟩, h.2⟩
  · by_contra h2
    rw [h.2 h2] at h1
    cases h1
  · rcases hr.1 with ⟨h2, -⟩ | h2
    · exact h2
    · exact absurd h1 (h.1 (h2.trans e))

/-- C83, `copy_node`: where it returns for a caller without borrows, it panics because of a borrow exactly if the node is mutably borrowed
or, for an element, a node it refers to is borrowed in any way; otherwise it does the same. -/
theorem C83_copy {g : Guards} {s : St} (h : Reachable s) (hg : ∀ j, g j ≠ .free → s.live j = true) {i : NodeId}
    (hi : s.live i = true) {r : St × NodeId} (e : s.copyNode i = .ok r) :
    (s.copyNodeG g i = .error (.panic .borrowed) ↔ CopyBarred g s i) ∧ (¬ CopyBarred g s i → s.copyNodeG g i = .ok r) := by
  have hn : g s.nextId = .free := by
    by_contra hh
    have := hg _ hh
    rw [h.inv.nextId_dead] at this
    cases this
  exact (Respects.copyNode (fun j hj => h.inv.liveBelow j (hg j hj)) (h.inv.liveBelow i hi)).exact e
    (copyNodeG_ok h.inv h.nodesOk hi hn e)

/-- C83, `copy_node_deep`: the same for some node of the subtree. -/
theorem C83_copy_deep {g : Guards} {s : St} (h : Reachable s) (ha : s.Acyclic) (hg : ∀ j, g j ≠ .free → s.live j = true) {i : NodeId}
    (hi : s.live i = true) {r : St × NodeId} (e : s.copyNodeDeep i = .ok r) :
    (s.copyNodeDeepG g i = .error (.panic .borrowed) ↔ ∃ m, s.live m = true ∧ s.InSubtree i m ∧ CopyBarred g s m) ∧
    ((∀ m, s.live m = true → s.InSubtree i m → ¬ CopyBarred g s m) → s.copyNodeDeepG g i = .ok r) := by
  have hc : ∀ j, s.live j = true → s.InSubtree i j → Copyable s j := by
    intro j hj hs
    by_contra hc
    obtain ⟨p, hp⟩ := (C23_panics h ha hi).2 ⟨j, hj, hs, hc⟩
    rw [hp] at e
    cases e
  obtain ⟨F, hF⟩ := C01_forest h
  have hkl : ∀ c ∈ F.kids i, s.live c = true := fun c hc => (hF.wf.kids i hi c hc).1
  obtain ⟨K, hK⟩ := trees_exist h.inv hF ha (F.kids i) hkl
  have hKl := pre_live hF hK hkl
  have hT : (Trees.cons i K .nil).Of F [i] := ⟨[], rfl, hK, rfl⟩
  have hnd := pre_nodup hF ha hT (by simpa using hi) (by simp) (by simp)
  have hlen := length_le_of_below hnd (n := s.nextId) (by
    intro j hj
    exact h.inv.liveBelow j (pre_live hF hT (by simpa using hi) j hj))
  simp only [Trees.pre, List.length_cons, List.append_nil] at hlen
  have hcK : ∀ j ∈ K.pre, Copyable s j := by
    intro j hj
    exact hc j (hKl j hj) ((mem_pre_kids hF hi hK (hKl j hj)).1 hj).to_reflTransGen
  obtain ⟨s1, e1, h1, ok1, g1, c1, hF1⟩ := (copyNode_spec h.inv h.nodesOk hi).1 (hc i hi .refl)
  have hn0 : g s.nextId = .free := by
    by_contra hh
    have := hg _ hh
    rw [h.inv.nextId_dead] at this
    cases this
  have q1 := C83_copy h hg hi e1
  have hF1 := hF1 F hF
  obtain ⟨n, hn⟩ : ∃ n, n = s.nextId := ⟨_, rfl⟩
  rw [← hn] at e1 g1 c1 hF1 q1 hn0
  have hndead : s.live n = false := by rw [hn]; exact h.inv.nextId_dead
  have hln : ∀ j, s.live j = true → j ≠ n := by
    rintro j hj rfl; rw [hndead] at hj; simp at hj
  have hn1 : s1.live n = true := (g1.live n).2 (.inr (by simp))
  have hl1 : ∀ j, s.live j = true → s1.live j = true := fun j hj => (g1.live j).2 (.inl hj)
  have ak : ∀ j, j ≠ n → (F.add n).kids j = F.kids j := fun j hj => by simp [Forest.add, hj]
  have hki : (F.add n).kids i = F.kids i := ak i (hln i hi)
  obtain ⟨t, e2, rfl⟩ : ∃ t, St.deepCopyAux s1.fuel s1 n (s1.children i) = .ok t ∧ r = (t, n) := by
    simp only [St.copyNodeDeep, e1, bind, Except.bind, pure, Except.pure] at e
    cases et : St.deepCopyAux s1.fuel s1 n (s1.children i) with
    | error x => rw [et] at e; cases e
    | ok t => rw [et] at e; exact ⟨t, rfl, (Except.ok.inj e).symm⟩
  have key := deepCopyG_ok (g := g) K s1.fuel s1 (F.add n) i n [] (F.kids i) (s1.children i) t
    h1 ok1 hF1 (hl1 i hi) hn1 (by simp [hki])
    (hK.congr fun j hj => ak j (hln j (hKl j hj)))
    (by rw [St.children, hF1.shows.first i (hl1 i hi), hF1.shows.last i (hl1 i hi), hki])
    (Ne.symm (hln i hi)) (fun hm => hln n (hKl n hm) rfl) (by simp [Forest.add])
    (fun j hj => (hcK j hj).grown h.inv g1 (hKl j hj))
    (by
      have := g1.next
      simp only [List.length_singleton] at this
      unfold St.fuel
      rw [this]
      omega)
    (fun j hj => hl1 j (hg j hj)) hn0 (by simp [Forest.add]) e2
  rw [hki] at key
  have hall : (∀ m, s.live m = true → s.InSubtree i m → ¬ CopyBarred g s m) ↔
      ¬ CopyBarred g s i ∧ (∀ x, (F.kids i).getLast? = some x → g x ≠ .excl) ∧ ∀ j ∈ K.pre, ¬ CopyBarred g s1 j := by
    constructor
    · intro hb
      have hb2 : ∀ j ∈ K.pre, ¬ CopyBarred g s j := fun j hj =>
        hb j (hKl j hj) ((mem_pre_kids hF hi hK (hKl j hj)).1 hj).to_reflTransGen
      exact ⟨hb i hi .refl, fun x hx hxx => hb2 x (hK.mem_pre x (List.mem_of_getLast? hx)) (.inl hxx),
        fun j hj => fun hj' => hb2 j hj ((CopyBarred.grown g1 (hKl j hj)).1 hj')⟩
    · rintro ⟨b1, -, b2⟩ m hm hs
      rcases reflTransGen_iff_eq_or_transGen.1 hs with rfl | hs
      · exact b1
      · have hmK := (mem_pre_kids hF hi hK hm).2 hs
        exact fun hb => b2 m hmK ((CopyBarred.grown g1 hm).2 hb)
  have hok : s.copyNodeDeepG g i = .ok (t, n) ↔ ¬ ∃ m, s.live m = true ∧ s.InSubtree i m ∧ CopyBarred g s m := by
    push Not
    rw [hall]
    simp only [St.copyNodeDeepG]
    by_cases hb : CopyBarred g s i
    · rw [q1.1.2 hb]
      exact iff_of_false (fun hh => nomatch hh) fun hh => hh.1 hb
    · have hx : g i ≠ .excl := fun hx => hb (.inl hx)
      rw [q1.2 hb, bind_ok_left]
      simp only [childrenG_ok hx, bind_ok_left]
      rw [← key]
      cases St.deepCopyAuxG g s1.fuel s1 n (s1.children i) with
      | error x => simp [bind, Except.bind]
      | ok v => simp [bind, Except.bind, pure, Except.pure, hb]
  have := (Respects.copyNodeDeep h.inv hg hi).exact e hok
  refine ⟨this.1, fun hb => this.2 ?_⟩
  push Not
  exact hb

/-- The call returns. -/
def returnsB {α : Type} : Except Err α → Bool
  | .ok _ => true
  | .error _ => false

theorem returnsB_iff {α : Type} {r : Except Err α} : returnsB r = true ↔ ∃ a, r = .ok a := by
  cases r <;> simp [returnsB]

/-- Copying the group that contains the rectangle: shared borrows of the group and of the rectangle are no obstacle, and neither is any
borrow of its neighbours; a mutable borrow of the rectangle is, and so is a shared one of the gradient, which is not copied. -/
example : ∃ s r, Reachable s ∧ s.Acyclic ∧ s.live 3 = true ∧ s.InSubtree 3 4 ∧ s.copyNodeDeep 3 = .ok r ∧
    s.copyNodeDeepG (oneGuard 3 .shared) 3 = .ok r ∧ s.copyNodeDeepG (oneGuard 4 .shared) 3 = .ok r ∧
    s.copyNodeDeepG (oneGuard 1 .excl) 3 = .ok r ∧ CopyBarred (oneGuard 4 .excl) s 4 ∧ CopyBarred (oneGuard 2 .shared) s 4 ∧
    s.copyNodeDeepG (oneGuard 2 .shared) 3 = .error (.panic .borrowed) := by
  obtain ⟨s, h, e⟩ := exists_of_holds (ops := guardHistory ++ [.detach 4, .append 3 4])
    (p := fun s => (decide (s.nextId = 6) && s.acyclicB 6) && (s.live 1 && (s.live 2 && (s.live 3 && (s.live 4 &&
      (decide (s.parent 4 = some 3) && (returnsB (s.copyNodeDeep 3) &&
      (returnsB (s.copyNodeDeepG (oneGuard 3 .shared) 3) && (returnsB (s.copyNodeDeepG (oneGuard 4 .shared) 3) &&
      (returnsB (s.copyNodeDeepG (oneGuard 1 .excl) 3) &&
      (decide (s.nodeType 4 = .element) && decide (s.attributes 4 = [⟨.id .Fill, .paint 2 none⟩]))))))))))))
    (by decide +kernel)
  simp only [Bool.and_eq_true, decide_eq_true_eq, returnsB_iff] at e
  obtain ⟨⟨h0, h0'⟩, h1, h2, h3, h4, h5, ⟨r, h6⟩, ⟨a, ha⟩, ⟨b, hb⟩, ⟨c, hc⟩, h7, h8⟩ := e
  have hac : s.Acyclic := acyclic_of_check (h0 ▸ h.inv.liveBelow) h0'
  have hin : s.InSubtree 3 4 := .single h5
  have one : ∀ {n : NodeId} {x : Guard}, s.live n = true → ∀ j, oneGuard n x j ≠ .free → s.live j = true := by
    intro n x hn j hj
    unfold oneGuard at hj
    split at hj
    · next hj' => subst hj'; exact hn
    · exact absurd rfl hj
  have same : ∀ {g : Guards} {a : St × NodeId}, (∀ j, g j ≠ .free → s.live j = true) → s.copyNodeDeepG g 3 = .ok a → a = r := by
    intro g a hg e
    have := (Respects.copyNodeDeep h.inv hg h3).eq_ok e
    rw [h6] at this
    exact (Except.ok.inj this).symm
  have hb2 : CopyBarred (oneGuard 2 .shared) s 4 := by
    refine .inr ⟨h7, 2, ⟨⟨.id .Fill, .paint 2 none⟩, by simp [h8], ?_⟩, by simp [oneGuard]⟩
    simp [AttributeValue.refersTo]
  refine ⟨s, r, h, hac, h3, hin, h6, ?_, ?_, ?_, .inl (by simp [oneGuard]), hb2,
    (C83_copy_deep h hac (one h2) h3 h6).1.2 ⟨4, h4, hin, hb2⟩⟩
  · rw [ha, same (one h3) ha]
  · rw [hb, same (one h4) hb]
  · rw [hc, same (one h1) hc]

end Svgdom
