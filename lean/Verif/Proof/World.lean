import Verif.Proof.Links
import Verif.Proof.Rekey
import Verif.Spec.World

/-! Histories with several documents keep the invariants. -/

set_option autoImplicit false

namespace Svgdom

/-! ### Calls do not look at the storage keys of nodes they do not remove -/

section
variable {O : NodeId → Bool} {K : NodeId → Option Nat}

/-- The storage keys of all nodes. -/
def St.keys (s : St) (j : NodeId) : Option Nat := (s.data j).storageKey

/-- The same call, where the predicate of `drain` looks at the original storage keys. -/
def Op.via (O : NodeId → Bool) (s : St) : Op → Op
  | .drain i f => .drain i (fun u => f (u.rekey O s.keys))
  | op => op

theorem Op.via_handles (s : St) (op : Op) : (op.via O s).handles = op.handles := by cases op <;> rfl

theorem map_fst {α : Type} (x : Except Err (St × α)) :
    (x.map (fun x => (x.1.rekey O K, x.2))).map (·.1) = (x.map (·.1)).map (St.rekey O K) := by
  cases x <;> rfl

theorem setD_rekey_run (s : St) (c : Bool) (i : NodeId) (f : NodeData → NodeData)
    (hf : ∀ d k, f { d with storageKey := k } = { f d with storageKey := k }) :
    (do (s.rekey O K).debugAssert c; pure ((s.rekey O K).setD i f) : Except Err St) =
      (do s.debugAssert c; pure (s.setD i f) : Except Err St).map (St.rekey O K) := by
  rw [rekey_setD _ _ _ hf, rekey_debugAssert]
  cases s.debugAssert c <;> rfl

theorem closed_subtree {s : St} {F : Forest} (hF : Describes s F) (i : NodeId) :
    F.Closed s.live (fun j => s.live j = true ∧ s.InSubtree i j) := by
  intro j hj hz c hc
  obtain ⟨q1, q2⟩ := hF.wf.kids j hj c hc
  refine ⟨q1, Relation.ReflTransGen.head ?_ hz.2⟩
  simp [St.Up, hF.shows.parent c q1, q2]

theorem closed_below {s : St} {F : Forest} (hF : Describes s F) (i : NodeId) :
    F.Closed s.live (fun j => s.live j = true ∧ s.Ancestor i j) := by
  intro j hj hz c hc
  obtain ⟨q1, q2⟩ := hF.wf.kids j hj c hc
  refine ⟨q1, Relation.TransGen.head ?_ hz.2⟩
  simp [St.Up, hF.shows.parent c q1, q2]

theorem rekey_run {s : St} (h : Inv (s.mask O)) (hO : ∀ j, s.nextId ≤ j → O j = true) (op : Op)
    (hl : ∀ i ∈ op.handles, s.live i = true) (hw : op.Within (fun j => O j = true) s) :
    (∀ K, (op.via O s).run (s.rekey O K) = (op.run s).map (St.rekey O K)) ∧
    ∀ t, op.run s = .ok t → t.rekey O s.keys = t := by
  have hn := hO _ (Nat.le_refl s.nextId)
  have key : (∀ K, op.run (s.rekey O K) = (op.run s).map (St.rekey O K)) → op.via O s = op →
      (∀ K, (op.via O s).run (s.rekey O K) = (op.run s).map (St.rekey O K)) ∧
      ∀ t, op.run s = .ok t → t.rekey O s.keys = t := by
    intro h1 h2
    rw [h2]
    refine ⟨h1, fun t e => ?_⟩
    have := h1 s.keys
    rw [show s.rekey O s.keys = s from rekey_self s, e] at this
    simp only [map_ok', Except.ok.injEq] at this
    exact this.symm
  obtain ⟨F, hT⟩ := h.tree
  have hF := hT.reps.describes
  cases op with
  | createElement tag => exact key (fun K => by simp only [Op.run, rekey_createElement s _ hn, map_fst]) rfl
  | createNode ty text => exact key (fun K => by simp only [Op.run, rekey_createNode s _ _ hn, map_fst]) rfl
  | append p c => exact key (fun K => rekey_append s p c) rfl
  | prepend p c => exact key (fun K => rekey_prepend s p c) rfl
  | insertAfter x y => exact key (fun K => rekey_insertAfter s x y) rfl
  | insertBefore x y => exact key (fun K => rekey_insertBefore s x y) rfl
  | detach i => exact key (fun K => rekey_detach s i) rfl
  | setText i t =>
    exact key (fun K => by
      simp only [Op.run, St.setText, rekey_isElement]
      exact setD_rekey_run s _ _ _ (fun _ _ => rfl)) rfl
  | setId i id =>
    exact key (fun K => by
      simp only [Op.run, St.setId, rekey_isElement]
      exact setD_rekey_run s _ _ _ (fun _ _ => rfl)) rfl
  | setTagName i t =>
    refine key (fun K => ?_) rfl
    have := setD_rekey_run (O := O) (K := K) s (s.isElement i) i (fun d => { d with tagName := t }) (fun _ _ => rfl)
    simp only [Op.run, St.setTagName, rekey_isElement]
    split
    · rw [rekey_debugAssert]
      cases s.debugAssert (s.isElement i) <;> rfl
    · exact this
  | setAttribute i a => exact key (fun K => rekey_setAttribute s i a) rfl
  | setAttributeChecked i a =>
    exact key (fun K => by simp only [Op.run, rekey_setAttributeChecked, map_fst]) rfl
  | setAttributeIfNone i a =>
    refine key (fun K => ?_) rfl
    simp only [Op.run, St.setAttributeIfNone, rekey_hasAttribute, rekey_setAttribute]
    split <;> rfl
  | removeAttribute i n => exact key (fun K => rekey_removeAttribute s i n) rfl
  | removeNode i =>
    have hi : s.live i = true := hl i (by simp [Op.handles])
    have := rekey_removeNode (Z := fun j => s.live j = true ∧ s.InSubtree i j) (fun j hj => hw j hj.1 hj.2) h hF hi
      ⟨hi, .refl⟩ (closed_subtree hF i)
    exact key this.1 rfl
  | drain i f =>
    have hi : s.live i = true := hl i (by simp [Op.handles])
    have hc := closed_below hF i
    have hwk : WalkOk (s.mask O) F (fun j => s.live j = true ∧ s.Ancestor i j) (s.firstChild i) := by
      apply WalkOk.first hF hi
      intro y hy
      obtain ⟨q1, q2⟩ := hF.wf.kids i hi y hy
      refine ⟨q1, Relation.TransGen.single ?_⟩
      have := hF.shows.parent y q1
      rw [q2] at this
      exact this
    have := rekey_drain (K0 := s.keys) (f := f) (fun j hj => hw j hj.1 hj.2) s.fuel s (s.firstChild i) 0 F h hF hc
      (rekey_self s) hwk
    refine ⟨fun K => ?_, fun t e => ?_⟩
    · simp only [Op.via, Op.run, St.drain]
      rw [← map_fst]
      congr 1
      exact this.1 K
    · simp only [Op.run, St.drain] at e
      obtain ⟨⟨t', c⟩, e1, rfl⟩ := map_ok e
      exact (this.2 t' c e1).2.2.1
  | copyNode i => exact key (fun K => by simp only [Op.run, rekey_copyNode s _ hn, map_fst]) rfl
  | copyNodeDeep i =>
    have hi : s.live i = true := hl i (by simp [Op.handles])
    exact key (fun K => by simp only [Op.run, rekey_copyNodeDeep hO h hi, map_fst]) rfl

end

/-! ### No call brings back a dead node -/

theorem Inner.live_old {s t : St} (h : Inv s) (st : Inner s t) {j : NodeId} (hj : j < s.nextId) : t.live j = s.live j := by
  cases st with
  | new d ha hn _ e => rw [(h.newNode ha hn e).2.2.2]; simp [Nat.ne_of_lt hj]
  | leaf p c hp hc _ _ e => rw [(h.append hp hc e).2.live]
  | detach i hi => rfl
  | data i f _ _ _ _ _ _ _ => rfl
  | set i a hi ht e => rcases setChecked_cases h hi e with ⟨_, _, rfl, _⟩ | ⟨_, rfl, hr⟩ <;> rfl
  | unset i name hi => rfl
  | finish i hi e =>
    obtain ⟨t', e', _, _, hlv, _⟩ := finishRemove_ok h hi
    rw [e] at e'; cases e'; rw [hlv]

theorem Inners.live_old {s t : St} (h : Inv s) (st : Inners s t) {j : NodeId} (hj : j < s.nextId) : t.live j = s.live j := by
  induction st with
  | refl => rfl
  | tail st1 st ih => rw [st.live_old (Inners.inv h st1) (Nat.lt_of_lt_of_le hj (Inners.nextId_le h st1)), ih]

theorem Op.live_old {s t : St} (h : Inv s) (op : Op) (hl : ∀ i ∈ op.handles, s.live i = true) (e : op.run s = .ok t)
    {j : NodeId} (hj : j < s.nextId) : t.live j = s.live j := by
  cases hm : op.isMove with
  | false => exact Inners.live_old h (op_inner h op hl e hm) hj
  | true =>
    cases op <;> simp [Op.isMove] at hm
    · rw [(h.append (hl _ (by simp [Op.handles])) (hl _ (by simp [Op.handles])) e).2.live]
    · rw [(h.prepend (hl _ (by simp [Op.handles])) (hl _ (by simp [Op.handles])) e).2.live]
    · rw [(h.insertAfter (hl _ (by simp [Op.handles])) (hl _ (by simp [Op.handles])) e).2.live]
    · rw [(h.insertBefore (hl _ (by simp [Op.handles])) (hl _ (by simp [Op.handles])) e).2.live]

/-! ### The invariant -/

/-- The heap of a world, seen from no document. -/
def World.heap (w : World) : St := w.view ⟨0, ⟨[], 0⟩⟩

/-- The storage of document `d` holds exactly the attached nodes that `d` made. -/
structure World.Store (w : World) (d : Nat) (x : Doc) : Prop where
  root : w.live x.rootId = true
  valid : x.slab.Valid
  key : ∀ i, w.live i = true → w.owner i = d → ∀ k, (w.data i).storageKey = some k → x.slab.get k = some i
  occ : ∀ k n, x.slab.get k = some n → w.live n = true ∧ w.owner n = d ∧ (w.data n).storageKey = some k

structure WInv (w : World) : Prop where
  heap : ∃ F, HeapInv w.heap F
  link : LinkInv w.heap
  owner : ∀ j, w.live j = true → w.owner j < w.count
  count : ∀ d x, w.docs d = some x → d < w.count
  store : ∀ d x, w.docs d = some x → w.Store d x

theorem HeapInv.frame {s t : St} {F : Forest} (h : HeapInv s F) (hk : t.links = s.links) (hl : t.live = s.live)
    (hn : t.nextId = s.nextId) : HeapInv t F := by
  obtain ⟨h1, h2, h3⟩ := h
  obtain ⟨sl, sd, sv, sn, sr, ss, sg⟩ := s
  obtain ⟨tl, td, tv, tn, tr, ts, tg⟩ := t
  simp only at hk hl hn
  subst hk; subst hl; subst hn
  refine ⟨?_, h2, h3⟩
  exact ⟨h1.wf, ⟨h1.shows.parent, h1.shows.next, h1.shows.prev, h1.shows.first, h1.shows.last⟩, h1.clean⟩

theorem LinkInv.rekey {O : NodeId → Bool} {K : NodeId → Option Nat} {s : St} : LinkInv (s.rekey O K) ↔ LinkInv s :=
  ⟨fun h => h.same rfl (fun i => (rekey_attributes s i).symm) (fun i => (rekey_linkedNodes s i).symm),
   fun h => h.same rfl (fun i => rekey_attributes s i) (fun i => rekey_linkedNodes s i)⟩

/-- The methods of document `d` see a heap that satisfies the invariant of a single document, once the keys of foreign nodes are
hidden. -/
theorem WInv.inv {w : World} (h : WInv w) {d : Nat} {x : Doc} (hx : w.docs d = some x) {O : NodeId → Bool}
    (hO : ∀ j, w.live j = true → (O j = true ↔ w.owner j = d)) : Inv ((w.view x).mask O) := by
  obtain ⟨F, hF⟩ := h.heap
  have hs := h.store d x hx
  have hT : HeapInv ((w.view x).mask O) F := hF.frame rfl rfl rfl
  refine ⟨⟨F, hT.reps, hT.liveBelow, hT.below, hs.root⟩,
    LinkInv.rekey.2 (h.link.same rfl (fun _ => rfl) (fun _ => rfl)), hs.valid, ?_, ?_⟩
  · intro i hi k hk
    by_cases ho : O i = true
    · simp only [St.rekey, ho, if_true] at hk
      exact hs.key i hi ((hO i hi).1 ho) k hk
    · simp [St.rekey, ho] at hk
  · intro k n hk
    obtain ⟨h1, h2, h3⟩ := hs.occ k n hk
    refine ⟨h1, ?_⟩
    have ho := (hO n h1).2 h2
    simp only [St.rekey, ho, if_true]
    exact h3

theorem wInv_start (debug : Bool) : WInv (World.start debug) := by
  constructor
  · refine ⟨Forest.isolated, ⟨?_, ?_, ?_⟩, ?_, ?_⟩
    · constructor <;> simp [World.heap, World.view, World.start]
    · constructor <;> simp [World.heap, World.view, World.start]
    · intro i hi; simp [World.heap, World.view, World.start] at hi
    · intro i hi; simp [World.heap, World.view, World.start] at hi
    · intro i; constructor <;> simp [World.heap, World.view, World.start]
  · constructor <;> intros <;> simp_all [World.heap, World.view, World.start]
  · intro j hj; simp [World.start] at hj
  · intro d x hx; simp [World.start] at hx
  · intro d x hx; simp [World.start] at hx

theorem one_slot (n : NodeId) (k : Nat) (m : NodeId) : Slab.get ⟨[.occupied n], 1⟩ k = some m ↔ k = 0 ∧ m = n := by
  cases k with
  | zero => simp [Slab.get, eq_comm]
  | succ k => simp [Slab.get]

theorem WInv.newDoc {w : World} (h : WInv w) : WInv w.newDoc := by
  obtain ⟨F, hF⟩ := h.heap
  have hnl : w.live w.nextId = false := by
    cases hh : w.live w.nextId with
    | false => rfl
    | true => exact absurd (hF.liveBelow _ hh) (Nat.lt_irrefl _)
  have hlt : ∀ j, w.live j = true → j < w.nextId := hF.liveBelow
  have hne : ∀ j, w.live j = true → j ≠ w.nextId := fun j hj => Nat.ne_of_lt (hlt j hj)
  have hlv : ∀ j, w.newDoc.live j = if j = w.nextId then true else w.live j := fun _ => rfl
  have how : ∀ j, w.newDoc.owner j = if j < w.nextId then w.owner j else w.count := fun _ => rfl
  have hdt : ∀ j, j ≠ w.nextId → w.newDoc.data j = w.data j := by
    intro j hj; simp [World.newDoc, upd, hj]
  constructor
  · exact ⟨_, (hF.alloc (NodeData.fresh .root (.name []) [])).frame rfl rfl rfl⟩
  · apply h.link.grow (m := w.nextId) hnl
    · intro j
      simp only [St.attributes, World.heap, World.view, World.newDoc, upd]
      split <;> simp_all [NodeData.fresh]
    · intro j
      simp only [St.linkedNodes, World.heap, World.view, World.newDoc, upd]
      split <;> simp_all [NodeData.fresh]
    · intro j; rfl
  · intro j hj
    rw [hlv] at hj; rw [how]
    show _ < w.count + 1
    split
    · next hlt => 
      have : j ≠ w.nextId := Nat.ne_of_lt hlt
      simp only [this, if_false] at hj
      exact Nat.lt_succ_of_lt (h.owner j hj)
    · exact Nat.lt_succ_self _
  · intro d x hx
    show d < w.count + 1
    simp only [World.newDoc] at hx
    split at hx
    · next e => rw [e]; exact Nat.lt_succ_self _
    · exact Nat.lt_succ_of_lt (h.count d x hx)
  · intro d x hx
    simp only [World.newDoc] at hx
    split at hx
    · next e =>
      subst e
      simp only [Option.some.injEq] at hx
      subst hx
      refine ⟨by simp [hlv], ?_, ?_, ?_⟩
      · refine ⟨[], FreeChain.done, by simp, ?_⟩
        intro k nx h
        cases k <;> simp at h
      · intro i hi ho k hk
        rw [hlv] at hi; rw [how] at ho
        rw [one_slot]
        by_cases hin : i = w.nextId
        · subst hin
          simp [World.newDoc, upd] at hk
          exact ⟨hk.symm, rfl⟩
        · simp only [hin, if_false] at hi
          simp only [hlt i hi, if_true] at ho
          have := h.owner i hi
          rw [ho] at this
          exact absurd this (Nat.lt_irrefl _)
      · intro k n hk
        rw [one_slot] at hk
        obtain ⟨rfl, rfl⟩ := hk
        refine ⟨by simp [hlv], by simp [how], by simp [World.newDoc, upd]⟩
    · next hd =>
      have hs := h.store d x hx
      refine ⟨by rw [hlv]; split <;> simp [hs.root], hs.valid, ?_, ?_⟩
      · intro i hi ho k hk
        rw [hlv] at hi; rw [how] at ho
        by_cases hin : i = w.nextId
        · subst hin; simp at ho; exact absurd ho.symm hd
        · simp only [hin, if_false] at hi
          simp only [hlt i hi, if_true] at ho
          rw [hdt i hin] at hk
          exact hs.key i hi ho k hk
      · intro k n hk
        obtain ⟨h1, h2, h3⟩ := hs.occ k n hk
        refine ⟨by simp [hlv, h1], by simp [how, hlt n h1, h2], by rw [hdt n (hne n h1)]; exact h3⟩

theorem WInv.free {w : World} (h : WInv w) {i : NodeId} (hi : w.live i = true) (hr : ¬ w.strongRef i) : WInv (w.free i) := by
  obtain ⟨F, hF⟩ := h.heap
  have hr' : ¬ w.heap.heapRef i := fun hh => hr (Or.inr hh)
  have hlv : ∀ j, (w.free i).live j = true ↔ j ≠ i ∧ w.live j = true := by
    intro j; simp [World.free]
  constructor
  · exact ⟨_, (hF.free hi hr').frame rfl rfl rfl⟩
  · exact (h.link.free hr').same rfl (fun _ => rfl) (fun _ => rfl)
  · intro j hj; rw [hlv] at hj; exact h.owner j hj.2
  · exact h.count
  · intro d x hx
    have hs := h.store d x hx
    refine ⟨?_, hs.valid, ?_, ?_⟩
    · rw [hlv]; exact ⟨fun e => hr (Or.inl ⟨d, x, hx, Or.inl e.symm⟩), hs.root⟩
    · intro j hj; rw [hlv] at hj; exact hs.key j hj.2
    · intro k n hk
      obtain ⟨h1, h2, h3⟩ := hs.occ k n hk
      refine ⟨(hlv n).2 ⟨?_, h1⟩, h2, h3⟩
      rintro rfl
      exact hr (Or.inl ⟨d, x, hx, Or.inr (Slab.mem_nodes.2 ⟨k, hk⟩)⟩)

/-- A state `t` that a method of document `d` leads to, as the new world. -/
theorem WInv.put {w : World} (h : WInv w) {d : Nat} {x : Doc} (hx : w.docs d = some x) {t : St} {O : NodeId → Bool}
    (hO : ∀ j, O j = true ↔ (w.put d t).owner j = d) (hi : Inv (t.mask O)) (hk : t.rekey O (w.view x).keys = t)
    (hlv : ∀ j, j < w.nextId → t.live j = w.live j) : WInv (w.put d t) := by
  obtain ⟨F0, hF0⟩ := h.heap
  obtain ⟨F, hT⟩ := hi.tree
  have hlt : ∀ j, w.live j = true → j < w.nextId := hF0.liveBelow
  have how : ∀ j, (w.put d t).owner j = if j < w.nextId then w.owner j else d := fun _ => rfl
  have hkey : ∀ j, O j ≠ true → (t.data j).storageKey = (w.data j).storageKey := by
    intro j hj
    have := congrArg (fun u : St => (u.data j).storageKey) hk
    simp only [St.rekey, hj] at this
    exact this.symm
  constructor
  · exact ⟨F, hT.heap.frame rfl rfl rfl⟩
  · exact (LinkInv.rekey.1 hi.link).same rfl (fun _ => rfl) (fun _ => rfl)
  · intro j hj
    rw [how]
    show _ < w.count
    split
    · next hl => rw [show (w.put d t).live j = t.live j from rfl, hlv j hl] at hj; exact h.owner j hj
    · exact h.count d x hx
  · intro e y hy
    simp only [World.put] at hy
    show e < w.count
    split at hy
    · next he => rw [he]; exact h.count d x hx
    · exact h.count e y hy
  · intro e y hy
    simp only [World.put] at hy
    split at hy
    · next he =>
      subst he
      simp only [Option.some.injEq] at hy
      subst hy
      refine ⟨hT.root, hi.slab.valid, ?_, ?_⟩
      · intro j hj ho k hk
        have ho := (hO j).2 ho
        exact hi.slab.key j hj k (by simp only [St.rekey, ho, if_true]; exact hk)
      · intro k n hk
        obtain ⟨h1, h2⟩ := hi.slab.occ k n hk
        by_cases ho : O n = true
        · simp only [St.rekey, ho, if_true] at h2
          exact ⟨h1, (hO n).1 ho, h2⟩
        · simp [St.rekey, ho] at h2
    · next he =>
      have hs := h.store e y hy
      refine ⟨?_, hs.valid, ?_, ?_⟩
      · show t.live _ = true
        rw [hlv _ (hlt _ hs.root)]; exact hs.root
      · intro j hj ho k hk
        have hno : O j ≠ true := by rw [ne_eq, hO, ho]; exact he
        rw [how] at ho
        split at ho
        · next hl =>
          rw [show (w.put d t).live j = t.live j from rfl, hlv j hl] at hj
          exact hs.key j hj ho k (by rw [← hkey j hno]; exact hk)
        · exact absurd ho.symm he
      · intro k n hk
        obtain ⟨h1, h2, h3⟩ := hs.occ k n hk
        have ho : (w.put d t).owner n = e := by simp [how, hlt n h1, h2]
        have hno : O n ≠ true := by rw [ne_eq, hO, ho]; exact he
        refine ⟨?_, ho, ?_⟩
        · show t.live n = true
          rw [hlv n (hlt n h1)]; exact h1
        · show (t.data n).storageKey = some k
          rw [hkey n hno]; exact h3

theorem WInv.call {w : World} (h : WInv w) {d : Nat} {x : Doc} (hx : w.docs d = some x) (op : Op)
    (hl : ∀ i ∈ op.handles, w.live i = true) (hw : op.Within (fun j => w.owner j = d) (w.view x)) {t : St}
    (e : op.run (w.view x) = .ok t) : WInv (w.put d t) := by
  obtain ⟨F0, hF0⟩ := h.heap
  have hlt : ∀ j, w.live j = true → j < w.nextId := hF0.liveBelow
  obtain ⟨O, hO⟩ : ∃ O : NodeId → Bool, ∀ j, O j = true ↔ (w.put d t).owner j = d := ⟨fun j => decide _, fun j => decide_eq_true_iff⟩
  have hO' : ∀ j, w.live j = true → (O j = true ↔ w.owner j = d) := by
    intro j hj; rw [hO]; simp [World.put, hlt j hj]
  have hi := h.inv hx hO'
  have hn : ∀ j, (w.view x).nextId ≤ j → O j = true := by
    intro j hj
    rw [hO]
    simp [World.put, Nat.not_lt.2 (show w.nextId ≤ j from hj)]
  have hw' : op.Within (fun j => O j = true) (w.view x) := by
    cases op <;> simp only [Op.Within] at hw ⊢ <;> intro j hj hs <;> exact (hO' j hj).2 (hw j hj hs)
  obtain ⟨r1, r2⟩ := rekey_run hi hn op hl hw'
  have e' : (op.via O (w.view x)).run ((w.view x).mask O) = .ok (t.mask O) := by rw [r1, e]; rfl
  have hl' : ∀ i ∈ (op.via O (w.view x)).handles, ((w.view x).mask O).live i = true := by rw [Op.via_handles]; exact hl
  exact h.put hx hO (hi.call _ hl' e') (r2 t e) (fun j hj => Op.live_old hi _ hl' e' hj)

theorem WInv.edit {w : World} (h : WInv w) {d : Nat} {x : Doc} (hx : w.docs d = some x) {t : St} (e : (w.view x).Edit t) :
    WInv (w.put d t) := by
  obtain ⟨F0, hF0⟩ := h.heap
  have hlt : ∀ j, w.live j = true → j < w.nextId := hF0.liveBelow
  obtain ⟨O, hO⟩ : ∃ O : NodeId → Bool, ∀ j, O j = true ↔ (w.put d t).owner j = d := ⟨fun j => decide _, fun j => decide_eq_true_iff⟩
  have hO' : ∀ j, w.live j = true → (O j = true ↔ w.owner j = d) := by
    intro j hj; rw [hO]; simp [World.put, hlt j hj]
  have hi := h.inv hx hO'
  have hlk : LinkInv (w.view x) := LinkInv.rekey.1 hi.link
  refine h.put hx hO (hi.ofData (t := t.mask O) e.links e.live e.nextId e.rootId ?_ ?_) ?_ (fun j _ => by rw [e.live]; rfl)
  · exact LinkInv.rekey.2 (hlk.similar e.live (fun _ hl => e.names hlk.names hl) e.refs e.perm)
  · refine hi.slab.same e.live e.slab (fun i => ?_)
    by_cases ho : O i = true <;> simp [St.rekey, ho, e.storageKey]
  · have : (w.view x).keys = t.keys := funext fun i => (e.storageKey i).symm
    rw [this]
    exact rekey_self t

/-! ### Drop -/

theorem dropLoop_heap {l : List NodeId} : ∀ {s t : St} {F : Forest}, HeapInv s F → (∀ n ∈ l, s.live n = true) →
    s.dropLoop l = .ok t → (∃ G, HeapInv t G) ∧ t.live = s.live ∧ t.nextId = s.nextId ∧
      ∀ j, t.data j = if j ∈ l then { s.data j with attributes := [], linkedNodes := [] } else s.data j := by
  induction l with
  | nil =>
    intro s t F h _ e
    simp only [St.dropLoop, Except.ok.injEq] at e
    subst e
    exact ⟨⟨F, h⟩, rfl, rfl, fun j => by simp⟩
  | cons n l ih =>
    intro s t F h hl e
    simp only [St.dropLoop, bind_ok] at e
    obtain ⟨u, e1, e2⟩ := e
    have hn : s.live n = true := hl n (by simp)
    simp only [St.dropOne] at e1
    have e1 := detach_inv e1
    obtain ⟨v, hv⟩ : ∃ v, v = (s.setD n fun d => { d with attributes := [] }).setD n fun d => { d with linkedNodes := [] } := ⟨_, rfl⟩
    rw [← hv] at e1
    have hh : HeapInv v F := h.frame (by rw [hv]; rfl) (by rw [hv]; rfl) (by rw [hv]; rfl)
    have hvn : v.live n = true := by rw [hv]; exact hn
    have fr := Frame.detached v n
    have hu : ∃ G, HeapInv u G := by
      rw [e1]
      refine ⟨_, hh.reps.detached hvn, ?_, ?_⟩
      · intro i hi; rw [fr.live] at hi; rw [fr.nextId]; exact hh.liveBelow i hi
      · rw [fr.nextId]; exact detached_below hh.below
    obtain ⟨G, hG⟩ := hu
    have hul : u.live = s.live := by rw [e1, fr.live, hv]; rfl
    obtain ⟨g1, g2, g3, g4⟩ := ih hG (fun m hm => by rw [hul]; exact hl m (by simp [hm])) e2
    refine ⟨g1, by rw [g2, hul], by rw [g3, e1, fr.nextId, hv]; rfl, ?_⟩
    intro j
    have hud : u.data j = if j = n then { s.data j with attributes := [], linkedNodes := [] } else s.data j := by
      rw [e1, fr.data, hv]
      by_cases hjn : j = n
      · subst hjn; simp [St.setD, upd]
      · simp [St.setD, upd, hjn]
    rw [g4, hud]
    by_cases h3 : j ∈ l <;> by_cases h4 : j = n <;> simp [h3, h4]

theorem WInv.drop {w : World} (h : WInv w) {d : Nat} {x : Doc} (hx : w.docs d = some x) (ha : w.Apart x) {t : St}
    (e : (w.view x).dropDocument = .ok t) : WInv (w.dropped d t) := by
  obtain ⟨F0, hF0⟩ := h.heap
  have hlt : ∀ j, w.live j = true → j < w.nextId := hF0.liveBelow
  have hs := h.store d x hx
  have hst : ∀ n ∈ x.slab.nodes, w.live n = true := by
    intro n hn
    obtain ⟨k, hk⟩ := Slab.mem_nodes.1 hn
    exact (hs.occ k n hk).1
  have hF1 : HeapInv (w.view x) F0 := hF0.frame rfl rfl rfl
  obtain ⟨⟨G, hG⟩, hlv, hnx, hd⟩ := dropLoop_heap hF1 hst e
  have hat : ∀ j, t.attributes j = if j ∈ x.slab.nodes then [] else w.heap.attributes j := by
    intro j; simp only [St.attributes, hd]; split <;> simp_all [World.heap, World.view]
  have hli : ∀ j, t.linkedNodes j = if j ∈ x.slab.nodes then [] else w.heap.linkedNodes j := by
    intro j; simp only [St.linkedNodes, hd]; split <;> simp_all [World.heap, World.view]
  have hlv' : ∀ j, t.live j = w.live j := fun j => by rw [hlv]; rfl
  have hk : ∀ j, (t.data j).storageKey = (w.data j).storageKey := by
    intro j; rw [hd]; split <;> rfl
  have apart : ∀ i j, w.live i = true → 0 < refs (w.heap.attributes i) j → (i ∈ x.slab.nodes ↔ j ∈ x.slab.nodes) := by
    intro i j hi hr
    obtain ⟨a, ha1, ha2⟩ := refs_pos.1 hr
    exact ha i j hi ⟨a, ha1, refersTo_iff.2 ha2⟩
  have hlink : LinkInv t := by
    constructor
    · intro i hi
      rw [hat]; rw [hlv'] at hi
      split
      · simp [NamesNodup]
      · exact h.link.names i hi
    · intro i j hi hj
      rw [hat, hli]; rw [hlv'] at hi hj
      have hc := h.link.count i j hi hj
      by_cases h1 : i ∈ x.slab.nodes <;> by_cases h2 : j ∈ x.slab.nodes
      · simp [h1, h2, refs]
      · simp only [h1, h2, if_true, if_false]
        rw [hc]
        simp only [refs, List.countP_nil]
        by_contra hne
        exact h2 ((apart i j hi (Nat.pos_of_ne_zero hne)).1 h1)
      · simp only [h1, h2, if_true, if_false, List.count_nil]
        by_contra hne
        exact h1 ((apart i j hi (Nat.pos_of_ne_zero (Ne.symm hne))).2 h2)
      · simp only [h1, h2, if_false]; exact hc
    · intro i hi a ha j hj
      rw [hat] at ha; rw [hlv'] at hi ⊢
      split at ha
      · simp at ha
      · exact h.link.targets i hi a ha j hj
    · intro i hi j hj
      rw [hli] at hj; rw [hlv'] at hi ⊢
      split at hj
      · simp at hj
      · exact h.link.back i hi j hj
    · intro i hi
      rw [hat]; rw [hlv'] at hi
      split
      · simp [refs]
      · exact h.link.noSelf i hi
    · intro i j hi hj
      rw [hat, hat]; rw [hlv'] at hi hj
      by_cases h1 : i ∈ x.slab.nodes
      · left; simp [h1, refs]
      · by_cases h2 : j ∈ x.slab.nodes
        · right; simp [h2, refs]
        · simp only [h1, h2, if_false]; exact h.link.noMutual i j hi hj
  have how : ∀ j, w.live j = true → (w.dropped d t).owner j = w.owner j := by
    intro j hj; simp [World.dropped, World.put, hlt j hj]
  constructor
  · exact ⟨G, hG.frame rfl rfl rfl⟩
  · exact hlink.same rfl (fun _ => rfl) (fun _ => rfl)
  · intro j hj
    rw [show (w.dropped d t).live j = t.live j from rfl, hlv'] at hj
    rw [how j hj]
    exact h.owner j hj
  · intro f y hy
    simp only [World.dropped] at hy
    split at hy
    · simp at hy
    · exact h.count f y hy
  · intro f y hy
    simp only [World.dropped] at hy
    split at hy
    · simp at hy
    · have hy' := h.store f y hy
      refine ⟨?_, hy'.valid, ?_, ?_⟩
      · show t.live _ = true
        rw [hlv']; exact hy'.root
      · intro i hi ho k hki
        rw [show (w.dropped d t).live i = t.live i from rfl, hlv'] at hi
        rw [how i hi] at ho
        exact hy'.key i hi ho k (by rw [← hk]; exact hki)
      · intro k n hkn
        obtain ⟨h1, h2, h3⟩ := hy'.occ k n hkn
        refine ⟨by show t.live n = true; rw [hlv']; exact h1, by rw [how n h1]; exact h2, ?_⟩
        show (t.data n).storageKey = some k
        rw [hk]; exact h3

theorem Worlds.inv {w : World} (h : Worlds w) : WInv w := by
  induction h with
  | start debug => exact wInv_start debug
  | newDoc _ ih => exact ih.newDoc
  | call op _ hx hl hw e ih => exact ih.call hx op hl hw e
  | edit _ hx e ih => exact ih.edit hx e
  | free i _ hi hr ih => exact ih.free hi hr
  | drop _ hx ha e ih => exact ih.drop hx ha e

end Svgdom
