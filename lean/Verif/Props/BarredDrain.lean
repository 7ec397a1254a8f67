import Verif.Proof.BarredDrain
import Verif.Props.BarredCopy
import Verif.Props.Remove

/-!
# C83 for `drain`
-/

set_option autoImplicit false

namespace Svgdom

open Relation

/-- C83, `drain`: for a predicate that looks at the node only, it panics because of a borrow exactly under the condition `DrainBarred` on the
state before the call; otherwise it does what it does for a caller without borrows. -/
theorem C83_drain {g : Guards} {s : St} {F : Forest} (h : Reachable s) (ha : s.Acyclic) (hF : Describes s F)
    {f : St → NodeId → Bool} (hf : LooksAtNode f) {root : NodeId} (hr : s.live root = true) :
    (s.drainG g root f = .error (.panic .borrowed) ↔ DrainBarred g s F f root) ∧
    (¬ DrainBarred g s F f root → ∃ r, s.drain root f = .ok r ∧ s.drainG g root f = .ok r) := by
  have hkl : ∀ c ∈ F.kids root, s.live c = true := fun c hc => (hF.wf.kids root hr c hc).1
  obtain ⟨K, hK⟩ := trees_exist h.inv hF ha (F.kids root) hkl
  have hkp : ∀ i ∈ F.kids root, ∀ j ∈ F.kids root, s.parent i = s.parent j := by
    intro i hi j hj
    rw [hF.shows.parent i (hkl i hi), hF.shows.parent j (hkl j hj), (hF.wf.kids root hr i hi).2, (hF.wf.kids root hr j hj).2]
  have hkn := hF.wf.kids_nodup hr
  have hKl := pre_live hF hK hkl
  have hnd := pre_nodup hF ha hK hkl hkn hkp
  have hrk : root ∉ K.pre := fun hm => ha root hr ((mem_pre_kids hF hr hK hr).1 hm)
  have hfuel : K.pre.length + 1 ≤ s.fuel := by
    have := length_le_of_below (l := root :: K.pre) (n := s.nextId) (List.nodup_cons.2 ⟨hrk, hnd⟩) (by
      intro j hj
      rcases List.mem_cons.1 hj with rfl | hj
      · exact h.inv.liveBelow _ hr
      · exact h.inv.liveBelow _ (hKl j hj))
    simp only [List.length_cons] at this
    unfold St.fuel
    omega
  have hag : Agrees f (f s) s := fun t h1 h2 h3 h4 n => hf s t n (h1 n) (h2 n) (h3 n) (h4 n)
  obtain ⟨t, e, _, _, hrm, hd⟩ := drain_spec K s.fuel s F root [] (F.kids root) 0 h.inv ha hF hr (by simp) hK
    (List.nodup_cons.2 ⟨hrk, hnd⟩) hag hfuel
  have hmatch : ∀ a, Match s f root a ↔ a ∈ K.pre ∧ f s a = true := by
    intro a
    constructor
    · rintro ⟨h1, h2, h3⟩; exact ⟨(mem_pre_kids hF hr hK h1).2 h2, h3⟩
    · rintro ⟨h1, h2⟩
      have hl := hKl a h1
      exact ⟨hl, (mem_pre_kids hF hr hK hl).1 h1, h2⟩
  have htop : ∀ a, a ∈ K.hit (f s) ↔ TopMatch s f root a := by
    intro a
    constructor
    · intro hm
      refine ⟨(hmatch a).2 (hit_sub K a hm), fun b hb => ?_⟩
      exact hit_top hF ha hK hkl hkn hkp a hm b ((hmatch b).1 hb).1 ((hmatch b).1 hb).2
    · rintro ⟨hm, hno⟩
      obtain ⟨b, hb, hs⟩ := hit_above hF hK hkl a ((hmatch a).1 hm).1 ((hmatch a).1 hm).2
      rcases reflTransGen_iff_eq_or_transGen.1 hs with e | hs
      · rw [e] at hb; exact hb
      · exact absurd hs (hno b ((hmatch b).2 (hit_sub K b hb)))
  have key := drainG_ok (g := g) K s.fuel s t F root [] (F.kids root) 0 _ h.inv ha hF hr (by simp) hK
    (List.nodup_cons.2 ⟨hrk, hnd⟩) hag hfuel e
  have hE : Guarded g (K.drainEdges (f s) root none) ↔ ∃ c, TopMatch s f root c ∧ ∃ x, DrainEdge F (f s) c x ∧ g x ≠ .free := by
    have := fun x => mem_drainEdges (q := f s) (x := x) hF K root [] (F.kids root) hr (by simp) hK
    simp only [List.filter_nil, List.getLast?_nil, htop] at this
    unfold Guarded
    constructor
    · rintro ⟨x, h1, h2⟩
      obtain ⟨c, h3, h4⟩ := (this x).1 h1
      exact ⟨c, h3, x, h4, h2⟩
    · rintro ⟨c, h3, x, h4, h2⟩
      exact ⟨x, (this x).2 ⟨c, h3, h4⟩, h2⟩
  have hB : Barred g s (K.gone (f s)) ↔
      ∃ c, TopMatch s f root c ∧ ∃ m, s.live m = true ∧ s.InSubtree c m ∧ NodeBarred g s m := by
    rw [barred_iff]
    constructor
    · rintro ⟨m, h1, h2⟩
      have hl := hKl m (gone_sub K m h1)
      obtain ⟨c, h3, h4⟩ := (mem_gone hF hK hkl m hl).1 h1
      exact ⟨c, (htop c).1 h3, m, hl, h4, h2⟩
    · rintro ⟨c, h3, m, hl, h4, h2⟩
      exact ⟨m, (mem_gone hF hK hkl m hl).2 ⟨c, (htop c).2 h3, h4⟩, h2⟩
  have hX : (∃ m, s.live m = true ∧ s.InSubtree root m ∧ g m = .excl) ↔ g root = .excl ∨ ∃ j ∈ K.pre, g j = .excl := by
    constructor
    · rintro ⟨m, h1, h2, h3⟩
      rcases reflTransGen_iff_eq_or_transGen.1 h2 with rfl | h2
      · exact .inl h3
      · exact .inr ⟨m, (mem_pre_kids hF hr hK h1).2 h2, h3⟩
    · rintro (h1 | ⟨j, h1, h2⟩)
      · exact ⟨root, hr, .refl, h1⟩
      · exact ⟨j, hKl j h1, ((mem_pre_kids hF hr hK (hKl j h1)).1 h1).to_reflTransGen, h2⟩
  have hD : DrainBarred g s F f root ↔ (g root = .excl ∨ ∃ j ∈ K.pre, g j = .excl) ∨
      Guarded g (K.drainEdges (f s) root none) ∨ Barred g s (K.gone (f s)) := by
    rw [hE, hB, ← hX, ← exists_or]
    simp only [DrainBarred, and_or_left]
  simp only [List.getLast?_nil] at key
  by_cases hx : g root = .excl
  · have hpan : s.drainG g root f = .error (.panic .borrowed) := by
      simp [St.drainG, St.firstChildG, rd, hx, bind, Except.bind]
    have hb : DrainBarred g s F f root := hD.2 (.inl (.inl hx))
    exact ⟨iff_of_true hpan hb, fun hh => absurd hb hh⟩
  · have hG : s.drainG g root f = St.drainAuxG g f s.fuel s (F.kids root).head? 0 := by
      rw [St.drainG, firstChildG_ok hx, bind_ok_left, hF.shows.first root hr]
    have hok : St.drainAuxG g f s.fuel s (F.kids root).head? 0 = .ok (t, 0 + (K.hit (f s)).length) ↔ ¬ DrainBarred g s F f root := by
      rw [key, hD]
      simp only [hx, false_or, not_or, not_exists, not_and]
      tauto
    have := (Respects.drainAux (g := g) f s.fuel s (F.kids root).head? 0).exact e hok
    rw [hG]
    refine ⟨this.1, fun hb => ⟨_, ?_, this.2 hb⟩⟩
    rw [St.drain, hF.shows.first root hr, e]

/-- Draining groups below the outer element 1 takes out the group 2, whose next sibling 6 then comes first: any borrow of the document node
above is no obstacle; a shared one of the outer element, or of the sibling, or of the gradient's child 4, is. -/
example : ∃ s F r, Reachable s ∧ s.Acyclic ∧ Describes s F ∧ s.live 1 = true ∧ LooksAtNode isG ∧ s.drain 1 isG = .ok r ∧
    ¬ DrainBarred (oneGuard 0 .excl) s F isG 1 ∧ DrainBarred (oneGuard 1 .shared) s F isG 1 ∧
    DrainBarred (oneGuard 6 .shared) s F isG 1 ∧ DrainBarred (oneGuard 4 .shared) s F isG 1 := by
  obtain ⟨s, h, e⟩ := exists_of_holds (ops := removeHistory) (p := fun s => s.live 1 && ((decide (s.nextId = 7) && s.acyclicB 7) &&
    (returnsB (s.drain 1 isG) && (returnsB (s.drainG (oneGuard 0 .excl) 1 isG) && (!returnsB (s.drainG (oneGuard 1 .shared) 1 isG) &&
    (!returnsB (s.drainG (oneGuard 6 .shared) 1 isG) && !returnsB (s.drainG (oneGuard 4 .shared) 1 isG)))))))
    (by decide +kernel)
  simp only [Bool.and_eq_true, decide_eq_true_eq, returnsB_iff, Bool.not_eq_true'] at e
  obtain ⟨h1, ⟨h2, h3⟩, ⟨r, h4⟩, ⟨r', h5⟩, h6, h7, h8⟩ := e
  have hac : s.Acyclic := acyclic_of_check (fun i hi => by rw [← h2]; exact h.inv.liveBelow i hi) h3
  obtain ⟨F, hF⟩ := C01_forest h
  have no : ∀ {g : Guards}, returnsB (s.drainG g 1 isG) = false → DrainBarred g s F isG 1 := by
    intro g hg
    by_contra hb
    obtain ⟨r, -, e⟩ := (C83_drain h hac hF isG_looks h1).2 hb
    rw [e] at hg
    cases hg
  refine ⟨s, F, r, h, hac, hF, h1, isG_looks, h4, fun hb => ?_, no h6, no h7, no h8⟩
  rw [(C83_drain h hac hF isG_looks h1).1.2 hb] at h5
  cases h5

end Svgdom
