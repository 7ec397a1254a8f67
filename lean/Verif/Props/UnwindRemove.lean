import Verif.Proof.UnwindDrain
import Verif.Proof.Partway
import Verif.Props.BarredDrain
import Verif.Props.UnwindNode

/-!
# C108: `remove_node` and `drain`, stopped by a borrow
-/

set_option autoImplicit false

namespace Svgdom

open Relation

/-- The functions that also give the state at a panic are those of the claims about borrows. -/
theorem C108_same_calls (g : Guards) (s : St) (i : NodeId) (f : St → NodeId → Bool) :
    forget (s.removeNodeU g i) = s.removeNodeG g i ∧ forget (s.drainU g i f) = s.drainG g i f := by
  refine ⟨(removeU_agrees s.fuel).1 s i, ?_⟩
  unfold St.drainU St.drainG
  rw [forget_bind, forget_mapError]
  congr 1
  funext c
  exact drainAuxU_agrees f s.fuel s c 0

theorem Toward.reachable {S T : NodeId → Prop} {s t : St} (ht : Toward S T s t) (h : Reachable s) : Reachable t := by
  induction ht with
  | refl => exact h
  | @reference t u j a ht hj hm hs hd e ih =>
    exact .call (.removeAttribute j a.name) ih (by simpa [Op.handles] using hj) (by simpa [Op.run] using e)
  | @node t u c ht hc hcT e ih =>
    exact .call (.removeNode c) ih (by simpa [Op.handles] using hc) (by simpa [Op.run] using e)

theorem Respects.borrowed {α : Type} {g : Guards} {π : α → St} {s : St} {rU : Except (Err × St) α} {rG r : Except Err α}
    (hr : Respects g π s rG r) (hf : forget rU = rG) {e : Err} {t : St} (he : rU = .error (e, t)) {a : α} (hok : r = .ok a) :
    e = .panic .borrowed := by
  subst hf
  subst he
  rcases hr.1 with ⟨h, _⟩ | h
  · simp only [forget, Except.mapError, Except.error.injEq] at h
    exact h
  · rw [hok] at h
    cases h

/-- C108, `remove_node`: a borrow that can stop it only between two steps leaves a document that complete calls also lead to, each of
them on the subtree; and the call, repeated without the borrow, ends with the picture that a call without any borrow would have given. -/
theorem C108_remove_partial {g : Guards} {s t : St} (h : Reachable s) (ha : s.Acyclic) {i : NodeId} (hi : s.live i = true)
    (hg : Gentle g s i) {e : Err} (he : s.removeNodeU g i = .error (e, t)) :
    e = .panic .borrowed ∧ Reachable t ∧ t.Acyclic ∧ Toward (s.InSubtree i) (s.Ancestor i) s t ∧
      ∃ u v Q, t.removeNode i = .ok u ∧ s.removeNode i = .ok v ∧ Abs u Q ∧ Abs v Q := by
  obtain ⟨F, hF⟩ := C01_forest h
  have hT := removeNodeU_err h.inv ha hF hi hg he
  obtain ⟨R, p⟩ := toward_partway (F := F) (fun m _ hm => hm.to_reflTransGen) (fun m j _ _ hm hj => TransGen.trans_right hj hm) hF h.inv ha hT
  have hti : t.live i = true := by rw [p.live]; exact hi
  have hiR : i ∉ R := fun hm => ha i hi (p.within i hm).2
  obtain ⟨K0, hK0⟩ := trees_exist h.inv hF ha (F.kids i) fun x hx => (hF.wf.kids i hi x hx).1
  obtain ⟨v, ev, hv, rv, dv⟩ := removeNode_spec h.inv ha hF hi hK0
  obtain ⟨K, hK⟩ := trees_exist p.inv p.desc p.acyclic ((F.prune R).kids i) fun x hx => (p.desc.wf.kids i hti x hx).1
  obtain ⟨u, eu, hu, ru, du⟩ := removeNode_spec p.inv p.acyclic p.desc hti hK
  have in0 : ∀ m, s.live m = true → (m ∈ i :: K0.pre ↔ s.InSubtree i m) := by
    intro m hm
    rw [List.mem_cons, mem_pre_kids hF hi hK0 hm]
    unfold St.InSubtree St.Ancestor
    rw [reflTransGen_iff_eq_or_transGen, eq_comm]
  have in2 : ∀ m, s.live m = true → (m ∈ i :: K.pre ↔ t.InSubtree i m) := by
    intro m hm
    rw [List.mem_cons, mem_pre_kids p.desc hti hK (by rw [p.live]; exact hm)]
    unfold St.InSubtree St.Ancestor
    rw [reflTransGen_iff_eq_or_transGen, eq_comm]
  have l0 : ∀ m ∈ i :: K0.pre, s.live m = true := by
    intro m hm
    rcases List.mem_cons.1 hm with rfl | hm
    · exact hi
    · exact pre_live hF hK0 (fun x hx => (hF.wf.kids i hi x hx).1) m hm
  have l2 : ∀ m ∈ i :: K.pre, s.live m = true := by
    intro m hm
    rcases List.mem_cons.1 hm with rfl | hm
    · exact hi
    · rw [← p.live]; exact pre_live p.desc hK (fun x hx => (p.desc.wf.kids i hti x hx).1) m hm
  obtain ⟨Q, qu, qv⟩ := p.finish ru du rv dv (fun m => by
      constructor
      · rintro (hm | hm)
        · exact (in0 m (p.within m hm).1).2 (p.within m hm).2.to_reflTransGen
        · exact (in0 m (l2 m hm)).2 (p.back hF (l2 m hm) ((in2 m (l2 m hm)).1 hm))
      · intro hm
        rcases p.forth hF (l0 m hm) ((in0 m (l0 m hm)).1 hm) with h1 | h1
        · exact .inl h1
        · exact .inr ((in2 m (l0 m hm)).2 h1))
    (fun m hm hl => (in0 m hl).2 hm) (fun j hj a hja m hm => h.inv.link.targets j hj a hja m (refersTo_iff.1 hm))
  exact ⟨Respects.borrowed (Respects.removeNode s i) ((removeU_agrees s.fuel).1 s i) he ev, hT.reachable h, p.acyclic, hT, u, v, Q, eu, ev, qu, qv⟩

/-- C108, `drain`: likewise, for a predicate that looks at the node only. -/
theorem C108_drain_partial {g : Guards} {s t : St} (h : Reachable s) (ha : s.Acyclic) {f : St → NodeId → Bool} (hf : LooksAtNode f)
    {root : NodeId} (hr : s.live root = true) (hg : GentleDrain g s f root) {e : Err} (he : s.drainU g root f = .error (e, t)) :
    e = .panic .borrowed ∧ Reachable t ∧ t.Acyclic ∧ Toward (Drained s f root) (Drained s f root) s t ∧
      ∃ u v n k Q, t.drain root f = .ok (u, n) ∧ s.drain root f = .ok (v, k) ∧ Abs u Q ∧ Abs v Q := by
  obtain ⟨F, hF⟩ := C01_forest h
  have hkl : ∀ c ∈ F.kids root, s.live c = true := fun c hc => (hF.wf.kids root hr c hc).1
  obtain ⟨K, hK⟩ := trees_exist h.inv hF ha (F.kids root) hkl
  have hkp : ∀ i ∈ F.kids root, ∀ j ∈ F.kids root, s.parent i = s.parent j := by
    intro i hi j hj
    rw [hF.shows.parent i (hkl i hi), hF.shows.parent j (hkl j hj), (hF.wf.kids root hr i hi).2, (hF.wf.kids root hr j hj).2]
  have hkn := hF.wf.kids_nodup hr
  have hKl := pre_live hF hK hkl
  have hnd := pre_nodup hF ha hK hkl hkn hkp
  have hrk : root ∉ K.pre := fun hm => ha root hr ((mem_pre_kids hF hr hK hr).1 hm)
  have hfuel : K.pre.length + 1 ≤ s.fuel := by
    have := length_le_of_below (l := root :: K.pre) (n := s.nextId) (List.nodup_cons.2 ⟨hrk, hnd⟩) (by
      intro j hj
      rcases List.mem_cons.1 hj with rfl | hj
      · exact h.inv.liveBelow _ hr
      · exact h.inv.liveBelow _ (hKl j hj))
    simp only [List.length_cons] at this
    unfold St.fuel
    omega
  have hag : Agrees f (f s) s := fun t h1 h2 h3 h4 n => hf s t n (h1 n) (h2 n) (h3 n) (h4 n)
  have hgone : ∀ m ∈ K.gone (f s), Drained s f root m := by
    intro m hm
    have hl := hKl m (gone_sub K m hm)
    obtain ⟨c, h3, h4⟩ := (mem_gone hF hK hkl m hl).1 hm
    have hc := hit_sub K c h3
    exact ⟨hl, c, ⟨hKl c hc.1, (mem_pre_kids hF hr hK (hKl c hc.1)).1 hc.1, hc.2⟩, h4⟩
  have free : ∀ m ∈ K.pre, g m = .free := fun m hm =>
    hg.below m (hKl m hm) ((mem_pre_kids hF hr hK (hKl m hm)).1 hm).to_reflTransGen
  have hroot : g root = .free := hg.below root hr .refl
  have hG : s.drainU g root f = St.drainAuxU g f s.fuel s (F.kids root).head? 0 := by
    rw [St.drainU, firstChildG_ok (by simp [hroot]), hF.shows.first root hr]
    rfl
  have hT : Toward (Drained s f root) (Drained s f root) s t :=
    (drainAuxU_err (g := g) K s.fuel s F root [] (F.kids root) 0 h.inv ha hF hr (by simp) hK
      (List.nodup_cons.2 ⟨hrk, hnd⟩) hag hfuel hroot (by simp) free
      (fun j hj m hm hc => hg.citing j m hj (hgone m hm) hc) e t (by rw [← hG]; exact he)).mono hgone hgone
  obtain ⟨R, p⟩ := toward_partway (F := F) (fun _ _ hm => hm)
    (fun m j _ hj hm hs => by
      obtain ⟨-, a, hma, hs'⟩ := hm
      exact ⟨hj, a, hma, ReflTransGen.trans hs hs'⟩) hF h.inv ha hT
  have hrt : t.live root = true := by rw [p.live]; exact hr
  obtain ⟨v, S0, M0, ev, -, -, in0, rv, dv, -⟩ := C21_drain h ha hF hf hr
  obtain ⟨u, S2, M2, eu, -, -, in2, ru, du, -⟩ := C21_drain (hT.reachable h) p.acyclic p.desc hf hrt
  have hft : ∀ a, f t a = f s a := fun a => hf s t a (p.types a) (p.tags a) (p.ids a) (p.texts a)
  obtain ⟨Q, qu, qv⟩ := p.finish ru du rv dv (fun m => by
      rw [in0 m, in2 m]
      constructor
      · rintro (hm | ⟨hl, a, ⟨h1, h2, h3⟩, h4⟩)
        · exact (p.within m hm).2
        · rw [p.live] at hl h1
          rw [hft] at h3
          have h5 := p.back hF h1 h2.to_reflTransGen
          rcases reflTransGen_iff_eq_or_transGen.1 h5 with rfl | h5
          · exact absurd h2 (p.acyclic _ hrt)
          · exact ⟨hl, a, ⟨h1, h5, h3⟩, p.back hF hl h4⟩
      · rintro ⟨hl, a, ⟨h1, h2, h3⟩, h4⟩
        rcases p.forth hF hl h4 with h5 | h5
        · exact .inl h5
        · rcases p.forth hF h1 h2.to_reflTransGen with h6 | h6
          · exact .inl (p.closed a h6 m hl h4)
          · rcases reflTransGen_iff_eq_or_transGen.1 h6 with rfl | h6
            · exact absurd h2 (ha _ hr)
            · exact .inr ⟨by rw [p.live]; exact hl, a, ⟨by rw [p.live]; exact h1, h6, by rw [hft]; exact h3⟩, h5⟩)
    (fun m hm hl => (in0 m).2 hm) (fun j hj a hja m hm => h.inv.link.targets j hj a hja m (refersTo_iff.1 hm))
  exact ⟨Respects.borrowed (Respects.drain s root f) (C108_same_calls g s root f).2 he ev, hT.reachable h, p.acyclic, hT,
    u, v, _, _, Q, eu, ev, qu, qv⟩

/-- Below a group (2) a gradient (3) with a stop (4) that refers to it, and a rectangle (5); in another group (6) a node (7) that refers to
the rectangle. -/
def partHistory : List Op :=
  [.createElement (.id .Svg), .createElement (.id .G), .createElement (.id .LinearGradient), .createElement (.id .Stop),
   .createElement (.id .Rect), .createElement (.id .A), .createElement (.id .Use),
   .append 0 1, .append 1 2, .append 2 3, .append 3 4, .append 2 5, .append 1 6, .append 6 7,
   .setId 3 ['g'], .setId 5 ['r'], .setAttribute 4 ⟨.id .Fill, .link 3⟩, .setAttribute 7 ⟨.id .Href, .link 5⟩]

theorem oneGuard_free {n j : NodeId} {x : Guard} (h : j ≠ n) : oneGuard n x j = .free := by simp [oneGuard, h]

/-- Every node at or below `i` is one of `l`, which is closed under children. -/
theorem subtree_sub {s : St} {l : List NodeId} {N : Nat} (h : Reachable s) (hn : s.nextId = N)
    (hl : ∀ j, j < N → ∀ q, s.parent j = some q → q ∈ l → j ∈ l) {i : NodeId} (hi : i ∈ l) {m : NodeId} (hm : s.live m = true)
    (hs : s.InSubtree i m) : m ∈ l := by
  obtain ⟨F, hF⟩ := C01_forest h
  unfold St.InSubtree at hs
  revert hm
  induction hs using ReflTransGen.head_induction_on with
  | refl => exact fun _ => hi
  | @head a b e _ ih =>
    intro hm
    have he : s.parent a = some b := e
    have hb : s.live b = true := by
      rw [hF.shows.parent a hm] at he
      exact (hF.wf.par a hm b he).1
    exact hl a (by rw [← hn]; exact h.inv.liveBelow a hm) b he (ih hb)

/-- A mutable borrow of the referring node stops the removal of the group when the gradient has already gone. The same borrow stops
`drain`. -/
example : ∃ s t u e e' f, Reachable s ∧ s.Acyclic ∧ s.live 1 = true ∧ s.live 2 = true ∧ LooksAtNode f ∧
    Gentle (oneGuard 7 .excl) s 2 ∧ s.removeNodeU (oneGuard 7 .excl) 2 = .error (e, t) ∧ t.parent 2 = some 1 ∧
    s.firstChild 2 = some 3 ∧ t.firstChild 2 = some 5 ∧ t.attributes 4 = [] ∧ t.attributes 7 = s.attributes 7 ∧
    GentleDrain (oneGuard 7 .excl) s f 2 ∧ s.drainU (oneGuard 7 .excl) 2 f = .error (e', u) ∧ u.firstChild 2 = some 5 := by
  obtain ⟨s, h, x⟩ := exists_of_holds (ops := partHistory) (p := fun s => s.live 1 && (s.live 2 && (decide (s.nextId = 8) &&
    (s.acyclicB 8 &&
    ((List.range 8).all (fun j => (List.range 8).all fun q =>
      !decide (s.parent j = some q) || (!decide (q ∈ [2, 3, 4, 5]) || decide (j ∈ [2, 3, 4, 5]))) &&
    (decide (s.around 2 = [6, 1]) &&
    (decide (s.firstChild 2 = some 3) &&
    (errAnd (s.removeNodeU (oneGuard 7 .excl) 2) (.panic .borrowed) (fun t => decide (t.parent 2 = some 1) &&
      (decide (t.firstChild 2 = some 5) && (decide (t.attributes 4 = []) && decide (t.attributes 7 = s.attributes 7)))) &&
    (errAnd (s.drainU (oneGuard 7 .excl) 2 (fun _ _ => true)) (.panic .borrowed) fun u => decide (u.firstChild 2 = some 5))))))))))
    (by decide +kernel)
  simp only [Bool.and_eq_true, decide_eq_true_eq, errAnd_iff] at x
  obtain ⟨h1, h2, hn, hac, hcl, har, hf, ⟨t, h3, h4, h5, h6, h7⟩, u, h8, h9⟩ := x
  have ha : s.Acyclic := acyclic_of_check (fun i hi => by rw [← hn]; exact h.inv.liveBelow i hi) hac
  have hsub : ∀ m, s.live m = true → s.InSubtree 2 m → m ∈ [2, 3, 4, 5] := by
    intro m hm hs
    refine subtree_sub (N := 8) h hn (fun j hj q hq hql => ?_) (by simp) hm hs
    have := List.all_eq_true.1 (List.all_eq_true.1 hcl j (List.mem_range.2 hj)) q (List.mem_range.2 (by
      simp at hql; rcases hql with rfl | rfl | rfl | rfl <;> decide))
    simpa [hq, hql] using this
  have free : ∀ m, s.live m = true → s.InSubtree 2 m → oneGuard 7 .excl m = .free := by
    intro m hm hs
    have := hsub m hm hs
    simp at this
    rcases this with rfl | rfl | rfl | rfl <;> rfl
  have notShared : ∀ j, oneGuard 7 .excl j ≠ .shared := by
    intro j
    unfold oneGuard
    split <;> simp
  refine ⟨s, t, u, _, _, fun _ _ => true, h, ha, h1, h2, fun _ _ _ _ _ _ _ => rfl, ⟨free, ?_, fun j _ _ _ _ _ => notShared j⟩, h3, h4, hf, h5,
    h6, h7, ⟨free, fun j _ _ _ _ => notShared j⟩, h8, h9⟩
  rw [har]
  rintro ⟨m, hm, hg⟩
  simp at hm
  rcases hm with rfl | rfl <;> exact hg rfl

/-- C108 is false for other borrows.
* `remove_node(gradient)` while `rect.attributes()` is held: the gradient has already forgotten the rectangle when the removal of the
  attribute panics. The call, repeated, removes the gradient, but the rectangle keeps the reference to the removed node.
* `remove_node(group)` while its next sibling is borrowed: the group has lost its own links when the sibling is asked for. The call,
  repeated, finds no neighbour to inform: the list of children still has the group, and ends there. `drain` does the same. -/
theorem C108_refuted : ∃ s t u v w x y, Reachable s ∧ s.live 1 = true ∧ s.live 2 = true ∧ s.live 3 = true ∧
    s.removeNodeU (oneGuard 4 .shared) 2 = .error (.panic .borrowed, t) ∧ t.removeNode 2 = .ok u ∧ u.isDetached 2 = true ∧
    s.attributes 4 = [⟨.id .Fill, .paint 2 none⟩] ∧ u.attributes 4 = s.attributes 4 ∧
    (∃ r, s.removeNode 2 = .ok r ∧ r.attributes 4 = []) ∧
    s.removeNodeU (oneGuard 4 .shared) 3 = .error (.panic .borrowed, v) ∧ v.removeNode 3 = .ok w ∧ w.isDetached 3 = true ∧
    w.parent 3 = none ∧ w.nextSibling 2 = some 3 ∧ w.nextSibling 3 = none ∧ w.prevSibling 4 = some 3 ∧
    (∃ r, s.removeNode 3 = .ok r ∧ r.nextSibling 2 = some 4) ∧
    s.drainU (oneGuard 4 .shared) 1 isG = .error (.panic .borrowed, x) ∧ Op.run x (.drain 1 isG) = .ok y ∧
    y.isDetached 3 = true ∧ y.parent 3 = none ∧ y.nextSibling 2 = some 3 ∧ y.nextSibling 3 = none := by
  obtain ⟨s, h, x⟩ := exists_of_holds (ops := guardHistory) (p := fun s => s.live 1 && (s.live 2 && (s.live 3 &&
    (errAnd (s.removeNodeU (oneGuard 4 .shared) 2) (.panic .borrowed) (fun t => okAnd (t.removeNode 2) fun u => u.isDetached 2 &&
      (decide (s.attributes 4 = [⟨.id .Fill, .paint 2 none⟩]) && (decide (u.attributes 4 = s.attributes 4) &&
      okAnd (s.removeNode 2) fun r => decide (r.attributes 4 = [])))) &&
    errAnd (s.removeNodeU (oneGuard 4 .shared) 3) (.panic .borrowed) (fun v => okAnd (v.removeNode 3) fun w => w.isDetached 3 &&
      (decide (w.parent 3 = none) && (decide (w.nextSibling 2 = some 3) && (decide (w.nextSibling 3 = none) &&
      (decide (w.prevSibling 4 = some 3) &&
      okAnd (s.removeNode 3) fun r => decide (r.nextSibling 2 = some 4)))))) &&
    errAnd (s.drainU (oneGuard 4 .shared) 1 isG) (.panic .borrowed) (fun x => okAnd (Op.run x (.drain 1 isG)) fun y =>
      y.isDetached 3 && (decide (y.parent 3 = none) && (decide (y.nextSibling 2 = some 3) && decide (y.nextSibling 3 = none))))))))
    (by decide +kernel)
  simp only [Bool.and_eq_true, decide_eq_true_eq, errAnd_iff, okAnd_iff] at x
  obtain ⟨h1, h2, h3, ⟨⟨t, a1, u, a2, a3, a4, a5, a6⟩, v, b1, w, b2, b3, b4, b5, b6, b7, b8⟩, x, c1, y, c2, c3, c4, c5, c6⟩ := x
  exact ⟨s, t, u, v, w, x, y, h, h1, h2, h3, a1, a2, a3, a4, a5, a6, b1, b2, b3, b4, b5, b6, b7, b8, c1, c2, c3, c4, c5, c6⟩

end Svgdom
