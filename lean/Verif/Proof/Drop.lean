import Verif.Proof.DeepCopy
import Verif.Proof.Drain

/-! Storage over all calls, and `Drop for Document`. -/

namespace Svgdom

open Relation

theorem SlabInv.stored_iff {s : St} (h : SlabInv s) {i : NodeId} (hi : s.live i = true) :
    s.isDetached i = false ↔ i ∈ s.slab.nodes := by
  rw [Slab.mem_nodes, St.isDetached]
  constructor
  · intro e
    cases hk : (s.data i).storageKey with
    | none => rw [hk] at e; simp at e
    | some k => exact ⟨k, h.key i hi k hk⟩
  · rintro ⟨k, hk⟩
    rw [(h.occ k i hk).2]; rfl

theorem SlabInv.nodes_nodup {s : St} (h : SlabInv s) : s.slab.nodes.Nodup := by
  have key : ∀ k1 k2 n, s.slab.get k1 = some n → s.slab.get k2 = some n → k1 = k2 := by
    intro k1 k2 n h1 h2
    have e1 := (h.occ k1 n h1).2
    have e2 := (h.occ k2 n h2).2
    rw [e1] at e2; exact Option.some.inj e2
  simp only [Slab.get_some] at key
  unfold Slab.nodes
  generalize s.slab.entries = es at key
  induction es with
  | nil => simp
  | cons e es ih =>
    have ih := ih (fun k1 k2 n h1 h2 => by
      have := key (k1 + 1) (k2 + 1) n (by simpa using h1) (by simpa using h2)
      omega)
    cases e with
    | vacant k => simpa [List.filterMap_cons] using ih
    | occupied n =>
      simp only [List.filterMap_cons, List.nodup_cons]
      refine ⟨?_, ih⟩
      intro hm
      rw [List.mem_filterMap] at hm
      obtain ⟨e, he, hen⟩ := hm
      cases e with
      | vacant k => simp at hen
      | occupied m =>
        simp only [Option.some.injEq] at hen
        subst hen
        obtain ⟨k, hk⟩ := List.getElem?_of_mem he
        have := key 0 (k + 1) m (by simp) (by simpa using hk)
        omega

/-! ### Which calls change the storage -/

theorem Inner.nextId_le {s t : St} (h : Inv s) (st : Inner s t) : s.nextId ≤ t.nextId := by
  cases st with
  | new d ha hn _ e => rw [(h.newNode ha hn e).2.2.1]; exact Nat.le_succ _
  | leaf p c hp hc _ _ e => rw [(h.append hp hc e).2.nextId]
  | detach i hi => exact Nat.le_refl _
  | data i f _ ha hn hk _ _ _ => exact Nat.le_refl _
  | set i a hi ht e =>
    rcases setChecked_cases h hi e with ⟨_, _, rfl, _⟩ | ⟨_, rfl, hr⟩ <;> exact Nat.le_refl _
  | unset i name hi => exact Nat.le_refl _
  | finish i hi e =>
    obtain ⟨t', e', h', _, _, hn, _⟩ := finishRemove_ok h hi
    rw [e] at e'; cases e'; rw [hn]

/-- A node that is not stored is never stored again. -/
theorem Inner.not_back {s t : St} (h : Inv s) (st : Inner s t) {n : NodeId} (hn : n < s.nextId) (hs : n ∈ t.slab.nodes) :
    n ∈ s.slab.nodes := by
  cases st with
  | new d ha hl _ e =>
    obtain ⟨t', key, e', _, g, _⟩ := newNode_grown h d ha hl
    rw [e] at e'; cases e'
    rcases (g.stored n).1 hs with h1 | h1
    · exact h1
    · rw [List.mem_singleton] at h1; subst h1; exact absurd hn (Nat.lt_irrefl _)
  | leaf p c hp hc _ _ e => rw [(h.append hp hc e).2.slab] at hs; exact hs
  | detach i hi => exact hs
  | data i f _ ha hl hk _ _ _ => exact hs
  | set i a hi ht e =>
    rcases setChecked_cases h hi e with ⟨_, _, rfl, _⟩ | ⟨_, rfl, hr⟩ <;> exact hs
  | unset i name hi => exact hs
  | finish i hi e =>
    obtain ⟨t', e', h', _, _, _, _, _, _, hst⟩ := finishRemove_ok h hi
    rw [e] at e'; cases e'
    exact ((hst n).1 hs).1

theorem Inners.not_back {s t : St} (h : Inv s) (st : Inners s t) {n : NodeId} (hn : n < s.nextId) (hs : n ∈ t.slab.nodes) :
    n ∈ s.slab.nodes := by
  have key : ∀ {t}, Inners s t → (s.nextId ≤ t.nextId ∧ (n ∈ t.slab.nodes → n ∈ s.slab.nodes)) := by
    intro t st
    induction st with
    | refl => exact ⟨Nat.le_refl _, id⟩
    | tail st1 st ih =>
      have hb := Inners.inv h st1
      exact ⟨Nat.le_trans ih.1 (st.nextId_le hb), fun hs => ih.2 (st.not_back hb (Nat.lt_of_lt_of_le hn ih.1) hs)⟩
  exact (key st).2 hs

theorem copyNode_grown {s t : St} (h : Inv s) (ok : NodesOk s) {i n : NodeId} (hi : s.live i = true)
    (e : s.copyNode i = .ok (t, n)) : Inv t ∧ NodesOk t ∧ Grown s t [n] := by
  by_cases hc : Copyable s i
  · obtain ⟨t', e', h1, h2, g, _⟩ := (copyNode_spec h ok hi).1 hc
    rw [e] at e'; cases e'
    exact ⟨h1, h2, g⟩
  · obtain ⟨p, e'⟩ := (copyNode_spec h ok hi).2 hc
    rw [e] at e'; simp at e'

theorem deepCopy_grown (k : Nat) : ∀ (s t : St) (par : NodeId) (it : Children), Inv s → NodesOk s → s.live par = true → it.Live s →
    St.deepCopyAux k s par it = .ok t → ∃ l, Grown s t l := by
  induction k with
  | zero => intro s t par it h ok hp hl e; simp [St.deepCopyAux] at e
  | succ k ih =>
    intro s t par it h ok hp hl e
    simp only [St.deepCopyAux] at e
    split at e
    · cases e; exact ⟨[], Grown.nil _⟩
    · next c it' hn =>
      rw [bind_ok] at e
      obtain ⟨⟨s1, n⟩, e1, e⟩ := e
      rw [bind_ok] at e
      obtain ⟨s2, e2, e⟩ := e
      obtain ⟨hc, hl'⟩ := h.childrenNext_live hl hn
      obtain ⟨h1, ok1, g1⟩ := copyNode_grown h ok hc e1
      have hnl : s1.live n = true := (g1.live n).2 (.inr (by simp))
      have hpl : s1.live par = true := (g1.live par).2 (.inl hp)
      obtain ⟨h2, f2⟩ := h1.append hpl hnl e2
      have ok2 := ok1.frame f2.data f2.live f2.rootId
      have g2 := g1.frame f2
      have hx : ∃ s3 l, Grown s2 s3 l ∧ Inv s3 ∧ NodesOk s3 ∧ Inners s2 s3 ∧ St.deepCopyAux k s3 par it' = .ok t := by
        split at e
        · rw [bind_ok] at e
          obtain ⟨s3, e3, e⟩ := e
          have hl2 : (s2.children c).Live s2 := h2.children_live ((g2.live c).2 (.inl hc))
          have hn2 : s2.live n = true := (g2.live n).2 (.inr (by simp))
          obtain ⟨l, g⟩ := ih _ _ _ _ h2 ok2 hn2 hl2 e3
          have st := deepCopy_inner k _ _ _ _ h2 hn2 hl2 e3
          exact ⟨s3, l, g, st.inv h2, Inners.nodesOk h2 ok2 st, st, e⟩
        · exact ⟨s2, [], Grown.nil _, h2, ok2, .refl, e⟩
      obtain ⟨s3, l, g3, h3, ok3, st3, e⟩ := hx
      have g03 := g2.trans g3
      obtain ⟨l', g4⟩ := ih _ _ _ _ h3 ok3 ((g03.live par).2 (.inl hp))
        (fun c hc => (g03.live c).2 (.inl (hl' c hc))) e
      exact ⟨_, g03.trans g4⟩

theorem copyNodeDeep_grown {s t : St} (h : Inv s) (ok : NodesOk s) {i n : NodeId} (hi : s.live i = true)
    (e : s.copyNodeDeep i = .ok (t, n)) : ∃ l, n ∈ l ∧ Grown s t l := by
  simp only [St.copyNodeDeep, bind_ok] at e
  obtain ⟨⟨s1, r⟩, e1, s2, e2, e3⟩ := e
  simp only [pure, Except.pure, Except.ok.injEq, Prod.mk.injEq] at e3
  obtain ⟨rfl, rfl⟩ := e3
  obtain ⟨h1, ok1, g1⟩ := copyNode_grown h ok hi e1
  obtain ⟨l, g⟩ := deepCopy_grown _ _ _ _ _ h1 ok1 ((g1.live _).2 (.inr (by simp))) (h1.children_live ((g1.live i).2 (.inl hi))) e2
  exact ⟨_, by simp, g1.trans g⟩

/-! ### No invalid key -/

theorem bind_err {ε α β : Type} {x : Except ε α} {f : α → Except ε β} {e : ε} :
    (x >>= f) = .error e ↔ x = .error e ∨ ∃ a, x = .ok a ∧ f a = .error e := by
  cases x <;> simp [bind, Except.bind]

theorem detach_err {s : St} (h : Inv s) {i : NodeId} (hi : s.live i = true) {e : Err} (he : s.detach i = .error e) :
    e = .panic .borrowed := by
  obtain ⟨F, hT⟩ := h.tree
  have := detach_spec hT.reps hi
  split at this
  · rcases this with h1 | h1 <;> rw [he] at h1 <;> simp at h1; exact h1
  · rw [he] at this; simp at this

theorem remove_err (k : Nat) :
    (∀ (s : St) (i : NodeId) (e : Err), Inv s → s.live i = true → St.removeAux k s i = .error e →
      e = .diverge ∨ e = .panic .borrowed) ∧
    (∀ (s : St) (it : Children) (e : Err), Inv s → it.Live s → St.removeKids k s it = .error e →
      e = .diverge ∨ e = .panic .borrowed) := by
  induction k with
  | zero =>
    refine ⟨fun _ _ e _ _ h => ?_, fun _ _ e _ _ h => ?_⟩
    · simp only [St.removeAux, Except.error.injEq] at h; exact .inl h.symm
    · simp only [St.removeKids, Except.error.injEq] at h; exact .inl h.symm
  | succ k ih =>
    constructor
    · intro s i e h hi he
      obtain ⟨s1, s2, e1, e2, hf⟩ := unlink_filtered h hi
      have h2 := hf.inv
      have l2 : s2.live i = true := by rw [hf.else_.live]; exact hi
      rw [St.removeAux, bind_err] at he
      rcases he with he | ⟨s1', e1', he⟩
      · rw [e1] at he; simp at he
      rw [e1] at e1'; cases e1'
      rw [bind_err] at he
      rcases he with he | ⟨s2', e2', he⟩
      · rw [e2] at he; simp at he
      rw [e2] at e2'; cases e2'
      rw [bind_err] at he
      rcases he with he | ⟨s3, e3, he⟩
      · exact ih.2 _ _ _ h2 (h2.children_live l2) he
      have t3 := (remove_inner k).2 _ _ _ h2 (h2.children_live l2) e3
      have h3 := t3.inv h2
      have l3 := t3.live h2 l2
      rw [bind_err] at he
      rcases he with he | ⟨s4, e4, he⟩
      · exact .inr (detach_err h3 l3 he)
      have := detach_inv e4
      subst this
      obtain ⟨t', e', _⟩ := finishRemove_ok (h3.detached l3) (i := i) l3
      rw [he] at e'; simp at e'
    · intro s it e h hl he
      simp only [St.removeKids] at he
      split at he
      · simp at he
      · next c it' hn =>
        obtain ⟨hc, hl'⟩ := h.childrenNext_live hl hn
        rw [bind_err] at he
        rcases he with he | ⟨s1, e1, he⟩
        · exact ih.1 _ _ _ h hc he
        · have t1 := (remove_inner k).1 _ _ _ h hc e1
          exact ih.2 _ _ _ (t1.inv h) (hl'.mono h t1) he

/-! ### Drop -/

/-- What is needed of the state to go on dropping. -/
structure Droppable (s : St) (F : Forest) : Prop where
  reps : Reps s F
  noSelf : ∀ i, s.live i = true → F.par i ≠ some i

theorem dropOne_ok {s : St} {F : Forest} (h : Droppable s F) {n : NodeId} (hn : s.live n = true) :
    ∃ t, s.dropOne n = .ok t ∧ Droppable t (F.detach n) ∧ t.live = s.live ∧ t.slab = s.slab ∧
      (∀ j, t.data j = if j = n then { s.data j with attributes := [], linkedNodes := [] } else s.data j) := by
  obtain ⟨u, hu⟩ : ∃ u, u = (s.setD n fun d => { d with attributes := [] }).setD n fun d => { d with linkedNodes := [] } := ⟨_, rfl⟩
  have hd : Describes u F := h.reps.describes.frame (by rw [hu]; rfl) (by rw [hu]; rfl)
  have hlv : u.live = s.live := by rw [hu]; rfl
  have hlk : u.links = s.links := by rw [hu]; rfl
  have hreps : Reps u F := by
    refine ⟨hd.wf, hd.shows, ?_⟩
    intro i hi hp hq
    have hup : ∀ w, u.upgrade w = s.upgrade w := fun w => by simp [St.upgrade, hlv]
    rw [hlv] at hi
    have := h.reps.clean i hi
    simp only [St.parent, St.prevSibling, hup, hlk] at hp hq this ⊢
    exact this hp hq
  have hnu : u.live n = true := by rw [hlv]; exact hn
  have hsp := detach_spec hreps hnu
  rw [if_neg (h.noSelf n hn)] at hsp
  refine ⟨u.detached n, ?_, ⟨hreps.detached hnu, ?_⟩, ?_, ?_, ?_⟩
  · rw [St.dropOne, ← hu]; exact hsp
  · intro i hi
    have hi : s.live i = true := by rw [← hlv]; exact hi
    simp only [Forest.detach]
    split
    · simp
    · exact h.noSelf i hi
  · exact hlv
  · show u.slab = s.slab
    rw [hu]; rfl
  · intro j
    show u.data j = _
    rw [hu]
    simp only [St.setD_data]
    split
    · next e => subst e; simp
    · rfl

theorem dropLoop_ok {l : List NodeId} : ∀ {s : St} {F : Forest}, Droppable s F → (∀ n ∈ l, s.live n = true) →
    ∃ t G, s.dropLoop l = .ok t ∧ Droppable t G ∧ t.live = s.live ∧ t.slab = s.slab ∧
      (∀ j, t.data j = if j ∈ l then { s.data j with attributes := [], linkedNodes := [] } else s.data j) ∧
      (∀ j, s.live j = true → (F.par j = none → F.sibs j = [j] → G.par j = none ∧ G.sibs j = [j]) ∧
        (j ∈ l → G.par j = none ∧ G.sibs j = [j]) ∧ G.kids j = (F.kids j).filter (fun c => decide (c ∉ l))) := by
  induction l with
  | nil =>
    intro s F h _
    exact ⟨s, F, rfl, h, rfl, rfl, fun j => by simp, fun j _ => ⟨fun h1 h2 => ⟨h1, h2⟩, by simp, by simp⟩⟩
  | cons n l ih =>
    intro s F h hl
    have hn := hl n (by simp)
    obtain ⟨t1, e1, h1, hlv1, hsl1, hd1⟩ := dropOne_ok h hn
    obtain ⟨t, G, e2, h2, hlv2, hsl2, hd2, hg⟩ := ih h1 (fun m hm => by rw [hlv1]; exact hl m (by simp [hm]))
    refine ⟨t, G, ?_, h2, hlv2.trans hlv1, hsl2.trans hsl1, ?_, ?_⟩
    · simp [St.dropLoop, e1, e2, bind, Except.bind]
    · intro j
      rw [hd2, hd1]
      by_cases h3 : j ∈ l <;> by_cases h4 : j = n <;> simp [h3, h4]
    · intro j hj
      obtain ⟨g1, g2, g3⟩ := hg j (by rw [hlv1]; exact hj)
      have keep : F.par j = none → F.sibs j = [j] → G.par j = none ∧ G.sibs j = [j] := by
        intro p1 p2
        by_cases hjn : j = n
        · subst hjn
          exact g1 (by simp [Forest.detach]) (by simp [Forest.detach])
        · refine g1 (by simp [Forest.detach, hjn, p1]) ?_
          simp only [Forest.detach, hjn, if_false, p2]
          rw [List.erase_of_not_mem]
          simp [Ne.symm hjn]
      refine ⟨keep, ?_, ?_⟩
      · intro hm
        rcases List.mem_cons.1 hm with rfl | hm
        · exact g1 (by simp [Forest.detach]) (by simp [Forest.detach])
        · exact g2 hm
      · rw [g3]
        simp only [Forest.detach]
        rw [(h.reps.describes.wf.kids_nodup hj).erase_eq_filter, List.filter_filter]
        refine List.filter_congr fun c _ => ?_
        by_cases h3 : c ∈ l <;> by_cases h4 : c = n <;> simp [h3, h4]

end Svgdom
