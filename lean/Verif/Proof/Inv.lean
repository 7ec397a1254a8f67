import Verif.Proof.Storage
import Mathlib.Logic.Relation

/-! The global invariant and its preservation by all calls. -/

namespace Svgdom

/-- The global invariant. -/
structure Inv (s : St) : Prop where
  tree : ∃ F, TreeInv s F
  link : LinkInv s
  slab : SlabInv s

theorem linkInv_init (debug : Bool) : LinkInv (St.init debug) := by
  constructor <;> intros <;> simp_all [St.init, NodeData.fresh, St.attributes, St.linkedNodes, NamesNodup, refs]

theorem inv_init (debug : Bool) : Inv (St.init debug) :=
  ⟨⟨_, treeInv_init debug⟩, linkInv_init debug, slabInv_init debug⟩

/-! ### Frames -/

theorem LinkInv.frame {s t : St} (h : LinkInv s) (hd : t.data = s.data) (hl : t.live = s.live) : LinkInv t := by
  have ha : ∀ i, t.attributes i = s.attributes i := fun i => by simp [St.attributes, hd]
  have hn : ∀ i, t.linkedNodes i = s.linkedNodes i := fun i => by simp [St.linkedNodes, hd]
  constructor
  · intro i hi; rw [hl] at hi; rw [ha]; exact h.names i hi
  · intro i t hi ht; rw [hl] at hi ht; rw [ha, hn]; exact h.count i t hi ht
  · intro i hi; rw [hl] at hi ⊢; rw [ha]; exact h.targets i hi
  · intro i hi; rw [hl] at hi ⊢; rw [hn]; exact h.back i hi
  · intro i hi; rw [hl] at hi; rw [ha]; exact h.noSelf i hi
  · intro i j hi hj; rw [hl] at hi hj; rw [ha, ha]; exact h.noMutual i j hi hj

theorem SlabInv.frame {s t : St} (h : SlabInv s) (hd : t.data = s.data) (hl : t.live = s.live) (hs : t.slab = s.slab) :
    SlabInv t := by
  constructor
  · rw [hs]; exact h.valid
  · intro i; rw [hl, hd, hs]; exact h.key i
  · intro i; rw [hl, hd, hs]; exact h.occ i

theorem TreeInv.frame {s t : St} {F : Forest} (h : TreeInv s F) (hk : t.links = s.links) (hl : t.live = s.live)
    (hn : t.nextId = s.nextId) (hr : t.rootId = s.rootId) : TreeInv t F := by
  have hup : ∀ w, t.upgrade w = s.upgrade w := fun w => by simp [St.upgrade, hl]
  constructor
  · constructor
    · rw [hl]; exact h.reps.wf
    · constructor <;> intro i hi <;> rw [hl] at hi
      · simp only [St.parent, hup, hk]; exact h.reps.shows.parent i hi
      · simp only [St.nextSibling, hk]; exact h.reps.shows.next i hi
      · simp only [St.prevSibling, hup, hk]; exact h.reps.shows.prev i hi
      · simp only [St.firstChild, hk]; exact h.reps.shows.first i hi
      · simp only [St.lastChild, hup, hk]; exact h.reps.shows.last i hi
    · intro i hi hp hq
      rw [hl] at hi
      simp only [St.parent, St.prevSibling, hup, hk] at hp hq ⊢
      exact h.reps.clean i hi hp hq
  · intro i hi; rw [hl] at hi; rw [hn]; exact h.liveBelow i hi
  · intro i; rw [hk, hn]; exact h.below i
  · rw [hl, hr]; exact h.root

theorem Inv.ofTree {s t : St} {F : Forest} (h : Inv s) (hr : Reps t F) (hf : Frame s t) (hb : AllBelow t s.nextId) : Inv t where
  tree := by
    obtain ⟨_, h1⟩ := h.tree
    refine ⟨F, hr, ?_, ?_, ?_⟩
    · intro i hi; rw [hf.live] at hi; rw [hf.nextId]; exact h1.liveBelow i hi
    · rw [hf.nextId]; exact hb
    · rw [hf.live, hf.rootId]; exact h1.root
  link := h.link.frame hf.data hf.live
  slab := h.slab.frame hf.data hf.live hf.slab

/-! ### Moves -/

theorem Inv.append {s t : St} (h : Inv s) {p c : NodeId} (hp : s.live p = true) (hc : s.live c = true)
    (e : s.append p c = .ok t) : Inv t ∧ Frame s t := by
  obtain ⟨F, hT⟩ := h.tree
  have hb := append_below hT.below (hT.liveBelow p hp) (hT.liveBelow c hc) e
  have := append_spec hT.reps hp hc
  split_ifs at this
  · rw [this] at e; simp at e
  · rw [this] at e; simp at e
  · obtain ⟨t', e', hr, hf, _⟩ := this
    rw [e] at e'; cases e'
    exact ⟨h.ofTree hr hf hb, hf⟩

theorem Inv.prepend {s t : St} (h : Inv s) {p c : NodeId} (hp : s.live p = true) (hc : s.live c = true)
    (e : s.prepend p c = .ok t) : Inv t ∧ Frame s t := by
  obtain ⟨F, hT⟩ := h.tree
  have hb := prepend_below hT.below (hT.liveBelow p hp) (hT.liveBelow c hc) e
  have := prepend_spec hT.reps hp hc
  split_ifs at this
  · rw [this] at e; simp at e
  · rw [this] at e; simp at e
  · obtain ⟨t', e', hr, hf, _⟩ := this
    rw [e] at e'; cases e'
    exact ⟨h.ofTree hr hf hb, hf⟩

theorem Inv.insertAfter {s t : St} (h : Inv s) {x y : NodeId} (hx : s.live x = true) (hy : s.live y = true)
    (e : s.insertAfter x y = .ok t) : Inv t ∧ Frame s t := by
  obtain ⟨F, hT⟩ := h.tree
  have hb := insertAfter_below hT.below (hT.liveBelow x hx) (hT.liveBelow y hy) e
  have := insertAfter_spec hT.reps hx hy
  split_ifs at this
  · rw [this] at e; simp at e
  · rw [this] at e; simp at e
  · obtain ⟨t', e', hr, hf, _⟩ := this
    rw [e] at e'; cases e'
    exact ⟨h.ofTree hr hf hb, hf⟩

theorem Inv.insertBefore {s t : St} (h : Inv s) {x y : NodeId} (hx : s.live x = true) (hy : s.live y = true)
    (e : s.insertBefore x y = .ok t) : Inv t ∧ Frame s t := by
  obtain ⟨F, hT⟩ := h.tree
  have hb := insertBefore_below hT.below (hT.liveBelow x hx) (hT.liveBelow y hy) e
  have := insertBefore_spec hT.reps hx hy
  split_ifs at this
  · rw [this] at e; simp at e
  · rw [this] at e; simp at e
  · obtain ⟨t', e', hr, hf, _⟩ := this
    rw [e] at e'; cases e'
    exact ⟨h.ofTree hr hf hb, hf⟩

theorem detach_spec {s : St} {F : Forest} (h : Reps s F) {i : NodeId} (hi : s.live i = true) :
    if F.par i = some i then s.detach i = .error (.panic .borrowed) ∨ s.detach i = .ok (s.detached i)
    else s.detach i = .ok (s.detached i) := by
  split
  · by_cases hb : s.blocked [i] i
    · left; exact St.detachCore_blocked s _ _ hb
    · right; exact St.detachCore_ok s _ _ hb
  · next hne =>
    apply St.detachCore_ok
    rw [h.blocked_iff hi]
    rintro ⟨n, hn, hm⟩
    simp only [List.mem_singleton] at hm
    subst hm
    obtain ⟨a, b, e, h1, h2, _⟩ := nodup_split (h.wf.nodup n hi) (h.wf.self_mem n hi)
    simp only [Forest.patched, e, after_split h1, before_split h1, List.mem_append, Option.mem_toList] at hn
    rcases hn with hn | hn
    · cases hb : b.head? with
      | none => rw [hb] at hn; exact hne hn
      | some q => rw [hb] at hn; simp at hn; subst hn; exact h2 (List.mem_of_mem_head? hb)
    · cases hb : a.getLast? with
      | none => rw [hb] at hn; exact hne hn
      | some q => rw [hb] at hn; simp at hn; subst hn; exact h1 (List.mem_of_getLast? hb)

theorem detach_inv {s t : St} {i : NodeId} (e : s.detach i = .ok t) : t = s.detached i := by
  by_cases hb : s.blocked [i] i
  · rw [St.detach, St.detachCore_blocked s _ _ hb] at e; simp at e
  · rw [St.detach, St.detachCore_ok s _ _ hb] at e; cases e; rfl

theorem Inv.detached {s : St} (h : Inv s) {i : NodeId} (hi : s.live i = true) : Inv (s.detached i) := by
  obtain ⟨F, hT⟩ := h.tree
  exact h.ofTree (hT.reps.detached hi) (Frame.detached s i) (detached_below hT.below)

/-! ### Data edits -/

theorem Inv.ofData {s t : St} (h : Inv s) (hk : t.links = s.links) (hl : t.live = s.live) (hn : t.nextId = s.nextId)
    (hr : t.rootId = s.rootId) (hlink : LinkInv t) (hslab : SlabInv t) : Inv t :=
  ⟨h.tree.imp fun _ hT => hT.frame hk hl hn hr, hlink, hslab⟩

theorem LinkInv.same {s t : St} (h : LinkInv s) (hl : t.live = s.live)
    (ha : ∀ i, t.attributes i = s.attributes i) (hn : ∀ i, t.linkedNodes i = s.linkedNodes i) : LinkInv t := by
  constructor
  · intro i hi; rw [hl] at hi; rw [ha]; exact h.names i hi
  · intro i t hi ht; rw [hl] at hi ht; rw [ha, hn]; exact h.count i t hi ht
  · intro i hi; rw [hl] at hi ⊢; rw [ha]; exact h.targets i hi
  · intro i hi; rw [hl] at hi ⊢; rw [hn]; exact h.back i hi
  · intro i hi; rw [hl] at hi; rw [ha]; exact h.noSelf i hi
  · intro i j hi hj; rw [hl] at hi hj; rw [ha, ha]; exact h.noMutual i j hi hj

theorem SlabInv.same {s t : St} (h : SlabInv s) (hl : t.live = s.live) (hs : t.slab = s.slab)
    (hk : ∀ i, (t.data i).storageKey = (s.data i).storageKey) : SlabInv t := by
  constructor
  · rw [hs]; exact h.valid
  · intro i; rw [hl, hk, hs]; exact h.key i
  · intro k n; rw [hl, hk, hs]; exact h.occ k n

theorem Inv.setD {s : St} (h : Inv s) (i : NodeId) (f : NodeData → NodeData)
    (ha : ∀ d, (f d).attributes = d.attributes) (hn : ∀ d, (f d).linkedNodes = d.linkedNodes)
    (hk : ∀ d, (f d).storageKey = d.storageKey) : Inv (s.setD i f) := by
  refine h.ofData rfl rfl rfl rfl (h.link.same rfl ?_ ?_) (h.slab.same rfl rfl ?_)
  · intro j; simp only [St.attributes, St.setD_data]; split
    · next e => rw [ha, e]
    · rfl
  · intro j; simp only [St.linkedNodes, St.setD_data]; split
    · next e => rw [hn, e]
    · rfl
  · intro j; simp only [St.setD_data]; split
    · next e => rw [hk, e]
    · rfl

theorem Inv.delAttr {s : St} (h : Inv s) {i : NodeId} (hi : s.live i = true) (name : AName) : Inv (s.delAttr i name) :=
  h.ofData rfl rfl rfl rfl (h.link.delAttr hi name) (h.slab.same rfl rfl fun _ => rfl)

theorem Inv.putAttr {s : St} (h : Inv s) {i : NodeId} (hi : s.live i = true) (a : Attribute)
    (hok : ∀ n, a.value.linkNode = some n → s.live n = true ∧ s.rejected i n = none) : Inv (s.putAttr i a) :=
  h.ofData rfl rfl rfl rfl (h.link.putAttr hi a hok) (h.slab.same rfl rfl fun _ => rfl)

/-- Any outcome of `set_attribute_checked`. -/
theorem setChecked_cases {s t : St} (h : Inv s) {i : NodeId} (hi : s.live i = true) {a : Attribute} {r : Option DomError}
    (e : s.setAttributeChecked i a = .ok (t, r)) :
    (∃ err, r = some err ∧ t = s ∧ a.value.linkNode.bind (s.rejected i) = some err) ∨
    (r = none ∧ t = s.putAttr i a.stored ∧ a.value.linkNode.bind (s.rejected i) = none) := by
  have hel : s.debug = true → s.isElement i = true := by
    intro hd
    cases hh : s.isElement i with
    | true => rfl
    | false => rw [St.setChecked_debug hd hh] at e; simp at e
  rw [St.setChecked_eq h.link hi a hel] at e
  split at e
  · next err he => simp at e; exact Or.inl ⟨err, e.2.symm, e.1.symm, he⟩
  · next he => simp at e; exact Or.inr ⟨e.2.symm, e.1.symm, he⟩

theorem Inv.setChecked {s t : St} (h : Inv s) {i : NodeId} (hi : s.live i = true) {a : Attribute} {r : Option DomError}
    (ht : ∀ n, a.value.linkNode = some n → s.live n = true)
    (e : s.setAttributeChecked i a = .ok (t, r)) : Inv t := by
  rcases setChecked_cases h hi e with ⟨_, _, rfl, _⟩ | ⟨_, rfl, hr⟩
  · exact h
  · apply h.putAttr hi
    intro n hn
    rw [stored_linkNode] at hn
    exact ⟨ht n hn, by simpa [hn] using hr⟩

/-! ### Storage -/

theorem newNode_ok {s : St} (h : Inv s) (d : NodeData) :
    ∃ sl key, s.slab.insert s.nextId = .ok (sl, key) ∧
      s.newNode d = .ok ({ s.alloc d with slab := sl, data := upd (s.alloc d).data s.nextId { d with storageKey := some key } },
        s.nextId) := by
  obtain ⟨sl, key, e, _⟩ := Slab.insert_ok h.slab.valid s.nextId
  refine ⟨sl, key, e, ?_⟩
  have e' : (s.alloc d).slab.insert s.nextId = .ok (sl, key) := e
  simp only [St.newNode, e', bind, Except.bind, pure, Except.pure]
  simp [St.setD, St.alloc]

/-- A new node without attributes and without links keeps the invariant of the links. -/
theorem LinkInv.grow {s t : St} (h : LinkInv s) {m : NodeId} (hnl : s.live m = false)
    (hat : ∀ j, t.attributes j = if j = m then [] else s.attributes j)
    (hli : ∀ j, t.linkedNodes j = if j = m then [] else s.linkedNodes j)
    (hlv : ∀ j, t.live j = if j = m then true else s.live j) : LinkInv t := by
  have hlv' : ∀ j, s.live j = true → j ≠ m := by rintro j hj rfl; simp [hnl] at hj
  constructor
  · intro i hi
    rw [hat]; rw [hlv] at hi
    split
    · simp [NamesNodup]
    · next hne => simp only [hne, if_false] at hi; exact h.names i hi
  · intro i t hi ht
    rw [hat, hli]; rw [hlv] at hi ht
    by_cases h1 : i = m
    · by_cases h2 : t = m
      · simp [h1, h2, refs]
      · simp only [h2, if_false] at ht
        simp only [h1, h2, if_true, if_false, refs, List.countP_nil]
        rw [List.count_eq_zero]
        intro hm
        exact hlv' _ (h.back t ht _ hm) rfl
    · simp only [h1, if_false] at hi
      by_cases h2 : t = m
      · simp only [h1, h2, if_true, if_false, List.count_nil]
        symm
        apply Nat.eq_zero_of_not_pos
        rw [refs_pos]
        rintro ⟨a, ha, hl⟩
        exact hlv' _ (h.targets i hi a ha _ hl) rfl
      · simp only [h2, if_false] at ht
        simp only [h1, h2, if_false]
        exact h.count i t hi ht
  · intro i hi a ha' t ht
    rw [hat] at ha'; rw [hlv] at hi ⊢
    split at ha'
    · simp at ha'
    · next hne =>
      simp only [hne, if_false] at hi
      have := h.targets i hi a ha' t ht
      simp [hlv' t this, this]
  · intro t ht i hi
    rw [hli] at hi; rw [hlv] at ht ⊢
    split at hi
    · simp at hi
    · next hne =>
      simp only [hne, if_false] at ht
      have := h.back t ht i hi
      simp [hlv' i this, this]
  · intro i hi
    rw [hat]; rw [hlv] at hi
    split
    · simp [refs]
    · next hne => simp only [hne, if_false] at hi; exact h.noSelf i hi
  · intro i j hi hj
    rw [hat, hat]; rw [hlv] at hi hj
    by_cases h1 : i = m
    · left; simp [h1, refs]
    · by_cases h2 : j = m
      · right; simp [h2, refs]
      · simp only [h1, h2, if_false] at hi hj ⊢
        exact h.noMutual i j hi hj

theorem Inv.newNode {s t : St} (h : Inv s) {d : NodeData} {n : NodeId} (ha : d.attributes = []) (hn : d.linkedNodes = [])
    (e : s.newNode d = .ok (t, n)) :
    Inv t ∧ n = s.nextId ∧ t.nextId = s.nextId + 1 ∧ (∀ j, t.live j = if j = s.nextId then true else s.live j) := by
  obtain ⟨F, hT⟩ := h.tree
  have hnl : s.live s.nextId = false := by
    cases hh : s.live s.nextId with
    | false => rfl
    | true => exact absurd (hT.liveBelow _ hh) (Nat.lt_irrefl _)
  obtain ⟨sl, key, e1, hv, hg, hget⟩ := Slab.insert_ok h.slab.valid s.nextId
  obtain ⟨sl', key', e2, e3⟩ := newNode_ok h d
  rw [e1] at e2; cases e2
  rw [e3] at e; cases e
  have hat : ∀ j, St.attributes { s.alloc d with slab := sl, data := upd (s.alloc d).data s.nextId { d with storageKey := some key } } j
      = if j = s.nextId then [] else s.attributes j := by
    intro j; simp only [St.attributes, upd, St.alloc]; split <;> simp_all
  have hli : ∀ j, St.linkedNodes { s.alloc d with slab := sl, data := upd (s.alloc d).data s.nextId { d with storageKey := some key } } j
      = if j = s.nextId then [] else s.linkedNodes j := by
    intro j; simp only [St.linkedNodes, upd, St.alloc]; split <;> simp_all
  have hlv : ∀ j, St.live { s.alloc d with slab := sl, data := upd (s.alloc d).data s.nextId { d with storageKey := some key } } j
      = if j = s.nextId then true else s.live j := fun _ => rfl
  have hlv' : ∀ j, s.live j = true → j ≠ s.nextId := by rintro j hj rfl; simp [hnl] at hj
  refine ⟨⟨⟨F.add s.nextId, (hT.alloc d).frame rfl rfl rfl rfl⟩, ?_, ?_⟩, rfl, rfl, hlv⟩
  · exact h.link.grow hnl hat hli hlv
  · constructor
    · exact hv
    · intro i hi k hk
      rw [hlv] at hi
      show sl.get k = some i
      rw [hget]
      by_cases h1 : i = s.nextId
      · subst h1
        simp at hk
        simp [hk]
      · simp only [h1, if_false] at hi
        have hk' : (s.data i).storageKey = some k := by
          simpa [upd, St.alloc, h1] using hk
        have hgk := h.slab.key i hi k hk'
        have : k ≠ key := by rintro rfl; rw [hg] at hgk; simp at hgk
        simp [this, hgk]
    · intro k m hk
      have hk' : sl.get k = some m := hk
      rw [hget] at hk'
      rw [hlv]
      split at hk'
      · next hkk =>
        simp only [Option.some.injEq] at hk'
        subst hk'; subst hkk
        simp
      · obtain ⟨h1, h2⟩ := h.slab.occ k m hk'
        have hne := hlv' m h1
        refine ⟨by simp [h1], ?_⟩
        simp [upd, St.alloc, hne, h2]

theorem finishRemove_ok {s : St} (h : Inv s) {i : NodeId} (hi : s.live i = true) :
    ∃ t, s.finishRemove i = .ok t ∧ Inv t ∧ t.links = s.links ∧ t.live = s.live ∧ t.nextId = s.nextId ∧ t.rootId = s.rootId ∧
      t.debug = s.debug ∧ (∀ j, t.data j = if j = i then { s.data j with storageKey := none } else s.data j) ∧
      (∀ n, n ∈ t.slab.nodes ↔ n ∈ s.slab.nodes ∧ n ≠ i) := by
  unfold St.finishRemove
  cases hk : (s.data i).storageKey with
  | none =>
    refine ⟨s, rfl, h, rfl, rfl, rfl, rfl, rfl, ?_, ?_⟩
    · intro j
      split
      · next e => subst e; cases hd : s.data j; simp_all
      · rfl
    · intro n
      constructor
      · intro hm
        refine ⟨hm, ?_⟩
        rintro rfl
        obtain ⟨k, hg⟩ := Slab.mem_nodes.1 hm
        have := (h.slab.occ k n hg).2
        rw [hk] at this; simp at this
      · exact fun hm => hm.1
  | some key =>
    have hg := h.slab.key i hi key hk
    obtain ⟨sl, e, hv, hget⟩ := Slab.remove_ok h.slab.valid hg
    have e' : (s.setD i fun d => { d with storageKey := none }).slab.remove key = .ok sl := e
    refine ⟨{ (s.setD i fun d => { d with storageKey := none }) with slab := sl }, ?_, ?_, rfl, rfl, rfl, rfl, rfl, ?_, ?_⟩
    · simp only [e', bind, Except.bind, pure, Except.pure]
    · refine h.ofData rfl rfl rfl rfl (h.link.same rfl ?_ ?_) ?_
      · intro j; simp only [St.attributes, St.setD_data]; split <;> simp_all
      · intro j; simp only [St.linkedNodes, St.setD_data]; split <;> simp_all
      · constructor
        · exact hv
        · intro j hj k hkj
          show sl.get k = some j
          simp only [St.setD_data] at hkj
          split at hkj
          · simp at hkj
          · next hne =>
            have := h.slab.key j hj k hkj
            rw [hget]
            have hkk : k ≠ key := by
              rintro rfl; rw [hg] at this; simp at this; exact hne this.symm
            simp [hkk, this]
        · intro k n hkn
          have hkn' : sl.get k = some n := hkn
          rw [hget] at hkn'
          split at hkn'
          · simp at hkn'
          · next hne =>
            obtain ⟨h1, h2⟩ := h.slab.occ k n hkn'
            refine ⟨h1, ?_⟩
            have : n ≠ i := by
              rintro rfl; rw [hk] at h2; simp at h2; exact hne h2.symm
            simp only [St.setD_data, this, if_false]; exact h2
    · intro j; simp only [St.setD_data]; split
      · next e => subst e; rfl
      · rfl
    · intro n
      show n ∈ sl.nodes ↔ _
      simp only [Slab.mem_nodes]
      constructor
      · rintro ⟨k, hkn⟩
        rw [hget] at hkn
        split at hkn
        · simp at hkn
        · next hne =>
          refine ⟨⟨k, hkn⟩, ?_⟩
          rintro rfl
          have := (h.slab.occ k n hkn).2
          rw [hk] at this; simp at this; exact hne this.symm
      · rintro ⟨⟨k, hkn⟩, hni⟩
        refine ⟨k, ?_⟩
        rw [hget]
        have : k ≠ key := by rintro rfl; rw [hg] at hkn; simp at hkn; exact hni hkn.symm
        simp [this, hkn]

theorem LinkInv.free {s : St} (h : LinkInv s) {i : NodeId} (hr : ¬ s.heapRef i) : LinkInv (s.free i) := by
  have hlv : ∀ j, (s.free i).live j = true ↔ j ≠ i ∧ s.live j = true := by
    intro j; simp [St.free]
  have hnt : ∀ j, s.live j = true → ∀ a ∈ s.attributes j, a.value.linkNode ≠ some i := by
    intro j hj a ha e
    exact hr ⟨j, hj, Or.inr (Or.inr (Or.inr ⟨a, ha, e⟩))⟩
  have hnl : ∀ j, s.live j = true → i ∉ s.linkedNodes j := by
    intro j hj hm
    exact hr ⟨j, hj, Or.inr (Or.inr (Or.inl hm))⟩
  constructor
  · intro j hj; rw [hlv] at hj; exact h.names j hj.2
  · intro j t hj ht; rw [hlv] at hj ht; exact h.count j t hj.2 ht.2
  · intro j hj a ha t ht
    rw [hlv] at hj ⊢
    refine ⟨?_, h.targets j hj.2 a ha t ht⟩
    rintro rfl; exact hnt j hj.2 a ha ht
  · intro t ht j hj
    rw [hlv] at ht ⊢
    refine ⟨?_, h.back t ht.2 j hj⟩
    rintro rfl; exact hnl t ht.2 hj
  · intro j hj; rw [hlv] at hj; exact h.noSelf j hj.2
  · intro j k hj hk; rw [hlv] at hj hk; exact h.noMutual j k hj.2 hk.2

theorem Inv.free {s : St} (h : Inv s) {i : NodeId} (hi : s.live i = true) (hr : ¬ s.strongRef i) : Inv (s.free i) := by
  obtain ⟨F, hT⟩ := h.tree
  have hlv : ∀ j, (s.free i).live j = true ↔ j ≠ i ∧ s.live j = true := by
    intro j; simp [St.free]
  refine ⟨⟨_, hT.free hi hr⟩, h.link.free (fun hh => hr (Or.inr (Or.inr hh))), ?_⟩
  · constructor
    · exact h.slab.valid
    · intro j hj; rw [hlv] at hj; exact h.slab.key j hj.2
    · intro k n hk
      obtain ⟨h1, h2⟩ := h.slab.occ k n hk
      rw [hlv]
      refine ⟨⟨?_, h1⟩, h2⟩
      rintro rfl
      exact hr (Or.inr (Or.inl (Slab.mem_nodes.2 ⟨k, hk⟩)))

end Svgdom
