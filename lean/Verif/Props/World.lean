import Verif.Proof.WorldCases
import Verif.Props.Storage
import Verif.Props.Edit

/-!
# C70, C71: several documents in one program
-/

set_option autoImplicit false

namespace Svgdom

/-! ## C70 -/

/-- The predicate "made by document `d`" as a `Bool`. -/
theorem exists_owned (w : World) (d : Nat) : ∃ O : NodeId → Bool, (∀ j, w.nextId ≤ j → O j = true) ∧
    ∀ j, j < w.nextId → (O j = true ↔ w.owner j = d) := by
  refine ⟨fun j => decide (j < w.nextId → w.owner j = d), fun j hj => ?_, fun j hj => ?_⟩
  · simp [Nat.not_lt.2 hj]
  · simp [hj]

theorem Worlds.lt {w : World} (h : Worlds w) {j : NodeId} (hj : w.live j = true) : j < w.nextId := by
  obtain ⟨F, hF⟩ := h.inv.heap
  exact hF.liveBelow j hj

/-- C70, trees: whatever documents the nodes come from, the links between all nodes describe one ordered forest. -/
theorem C70_tree {w : World} (h : Worlds w) (x : Doc) : ∃ F, Describes (w.view x) F := by
  obtain ⟨F, hF⟩ := h.inv.heap
  exact ⟨F, (hF.frame (t := w.view x) rfl rfl rfl).reps.describes⟩

/-- C70, links: also between nodes of different documents, the back references of a node count the attributes that refer to it,
targets are live and names are unique. -/
theorem C70_links {w : World} (h : Worlds w) (x : Doc) {i : NodeId} (hi : w.live i = true) :
    ((((w.view x).attributes i).map (·.name)).Nodup) ∧
    (∀ j, (w.view x).LinksTo i j → w.live j = true) ∧
    (∀ j ∈ (w.view x).linkedNodes i, w.live j = true ∧ (w.view x).LinksTo j i) ∧
    ∀ j, w.live j = true → ((w.view x).linkedNodes j).count i = refCount ((w.view x).attributes i) j := by
  have hl := h.inv.link
  refine ⟨hl.names i hi, ?_, ?_, ?_⟩
  · rintro j ⟨a, ha, hr⟩
    exact hl.targets i hi a ha j (refersTo_iff.1 hr)
  · intro j hj
    have hjl : w.live j = true := hl.back i hi j hj
    refine ⟨hjl, ?_⟩
    have hc := hl.count j i hjl hi
    have : 0 < refs (w.heap.attributes j) i := by rw [← hc]; exact List.count_pos_iff.2 hj
    obtain ⟨a, ha, hr⟩ := refs_pos.1 this
    exact ⟨a, ha, refersTo_iff.2 hr⟩
  · intro j hj
    rw [refCount_eq]
    exact hl.count i j hi hj

/-- C70, links: `remove_attribute` never panics, whatever documents the nodes come from. -/
theorem C70_unlink {w : World} (h : Worlds w) (x : Doc) {i : NodeId} (hi : w.live i = true) (name : AName) :
    ∃ t, (w.view x).removeAttribute i name = .ok t ∧
      t.attributes i = ((w.view x).attributes i).filter (fun b => decide (b.name ≠ name)) := by
  have hl : LinkInv (w.view x) := h.inv.link.same rfl (fun _ => rfl) (fun _ => rfl)
  refine ⟨_, St.removeAttribute_ok hl hi name, ?_⟩
  simp only [St.attributes, St.delAttr, if_true]; rfl

/-- C70, storage: if every document removes only nodes it made, a document stores exactly the nodes it made that are not detached,
each once. `is_detached` cannot tell more: it says whether the document *that made the node* stores it. -/
theorem C70_partial {w : World} (h : Worlds w) {d : Nat} {x : Doc} (hx : w.docs d = some x) :
    w.live x.rootId = true ∧ x.slab.nodes.Nodup ∧
    ∀ n, n ∈ x.slab.nodes ↔ w.live n = true ∧ w.owner n = d ∧ (w.view x).isDetached n = false := by
  have hs := h.inv.store d x hx
  obtain ⟨O, _, hO⟩ := exists_owned w d
  have hi := h.inv.inv hx (fun j hj => hO j (h.lt hj))
  refine ⟨hs.root, hi.slab.nodes_nodup, fun n => ?_⟩
  rw [Slab.mem_nodes]
  constructor
  · rintro ⟨k, hk⟩
    obtain ⟨h1, h2, h3⟩ := hs.occ k n hk
    exact ⟨h1, h2, by simp [St.isDetached, World.view, h3]⟩
  · rintro ⟨h1, h2, h3⟩
    simp only [St.isDetached, World.view, Option.isNone_eq_false_iff, Option.isSome_iff_exists] at h3
    obtain ⟨k, hk⟩ := h3
    exact ⟨k, hs.key n h1 h2 k hk⟩

/-- C70, removal: a document that removes a subtree made only of its own nodes never uses an invalid key, even on cyclic
structures. -/
theorem C70_key_partial {w : World} (h : Worlds w) {d : Nat} {x : Doc} (hx : w.docs d = some x) {i : NodeId}
    (hi : w.live i = true) (hw : ∀ j, w.live j = true → (w.view x).InSubtree i j → w.owner j = d) {e : Err}
    (he : (w.view x).removeNode i = .error e) : e = .diverge ∨ e = .panic .borrowed := by
  obtain ⟨O, hn, hO⟩ := exists_owned w d
  have hinv := h.inv.inv hx (fun j hj => hO j (h.lt hj))
  have := (rekey_run hinv hn (.removeNode i) (by simp only [Op.handles, List.mem_singleton, forall_eq]; exact hi)
    (fun j hj hs => (hO j (h.lt hj)).2 (hw j hj hs))).1 (fun _ => none)
  have e' : ((w.view x).mask O).removeNode i = .error e := by
    have h2 := this
    simp only [Op.via, Op.run, he] at h2
    exact h2
  exact (remove_err _).1 _ i e hinv hi e'

/-- C70, removal: on an acyclic heap it succeeds, and takes exactly the subtree out of the storage and out of the tree. -/
theorem C70_remove_partial {w : World} (h : Worlds w) {d : Nat} {x : Doc} (hx : w.docs d = some x) {i : NodeId}
    (hi : w.live i = true) (ha : (w.view x).Acyclic)
    (hw : ∀ j, w.live j = true → (w.view x).InSubtree i j → w.owner j = d) {F : Forest} (hF : Describes (w.view x) F) :
    ∃ t S, (w.view x).removeNode i = .ok t ∧ (∀ j, j ∈ S ↔ w.live j = true ∧ (w.view x).InSubtree i j) ∧
      Describes t (F.prune S) ∧ (∀ n, n ∈ t.slab.nodes ↔ n ∈ x.slab.nodes ∧ n ∉ S) ∧
      ∀ n, w.live n = true → t.isDetached n = ((w.view x).isDetached n || decide (n ∈ S)) := by
  obtain ⟨O, hn, hO⟩ := exists_owned w d
  have hinv := h.inv.inv hx (fun j hj => hO j (h.lt hj))
  have hF' : Describes ((w.view x).mask O) F := hF.frame rfl rfl
  have hkl : ∀ c ∈ F.kids i, w.live c = true := fun c hc => (hF.wf.kids i hi c hc).1
  obtain ⟨K, hK⟩ := trees_exist hinv hF' ha (F.kids i) hkl
  obtain ⟨t', e', _, hr, hd⟩ := removeNode_spec hinv ha hF' hi hK
  obtain ⟨r1, r2⟩ := rekey_run hinv hn (.removeNode i) (by simp only [Op.handles, List.mem_singleton, forall_eq]; exact hi)
    (fun j hj hs => (hO j (h.lt hj)).2 (hw j hj hs))
  have r1 := r1 (fun _ => none)
  simp only [Op.via, Op.run] at r1 r2
  rw [e'] at r1
  obtain ⟨t, et, rfl⟩ := map_ok r1.symm
  have hS : ∀ j, j ∈ i :: K.pre ↔ w.live j = true ∧ (w.view x).InSubtree i j := by
    intro j
    constructor
    · intro hj
      rcases List.mem_cons.1 hj with rfl | hj
      · exact ⟨hi, .refl⟩
      · have hlj := pre_live hF hK hkl j hj
        exact ⟨hlj, ((mem_pre_kids hF hi hK hlj).1 hj).to_reflTransGen⟩
    · rintro ⟨hj, hs⟩
      rcases Relation.reflTransGen_iff_eq_or_transGen.1 hs with e | hs
      · exact List.mem_cons.2 (.inl e.symm)
      · exact List.mem_cons.2 (.inr ((mem_pre_kids hF hi hK hj).2 hs))
  refine ⟨t, i :: K.pre, et, hS, hd.frame rfl rfl, hr.stored, fun n hl => ?_⟩
  have hdt := hr.detached n
  by_cases ho : O n = true
  · simpa [St.isDetached, St.rekey, ho] using hdt
  · have hnS : n ∉ i :: K.pre := by
      rw [hS]
      exact fun hh => ho ((hO n (h.lt hl)).2 (hw n hh.1 hh.2))
    have hk := congrArg (fun u : St => (u.data n).storageKey) (r2 t et)
    simp only [St.rekey, ho] at hk
    simp only [St.isDetached, hnS, decide_false, Bool.or_false]
    rw [← hk]
    rfl

/-- The panic of a call. -/
def panicOf : Except Err St → Option Panic
  | .error (.panic p) => some p
  | _ => none

theorem panicOf_iff {x : Except Err St} {p : Panic} (h : panicOf x = some p) : x = .error (.panic p) := by
  unfold panicOf at h; split at h <;> simp_all

/-- C70 is false if a document removes nodes of another one: `remove_node` uses the key of the node for the storage of the wrong
document. Node 2 was made by document 0. If document 1 never had as many nodes, its `remove_node` indexes out of bounds; if it
removed its own node with that key before, the key is invalid. -/
theorem C70_refuted : (∃ w x, Worlds w ∧ w.docs 1 = some x ∧ w.live 2 = true ∧ (w.view x).Acyclic ∧
      (w.view x).removeNode 2 = .error (.panic .outOfBounds)) ∧
    ∃ w x, Worlds w ∧ w.docs 1 = some x ∧ w.live 2 = true ∧ (w.view x).Acyclic ∧
      (w.view x).removeNode 2 = .error (.panic .invalidKey) := by
  constructor
  · obtain ⟨w, h, e⟩ := exists_own (os := [.newDoc, .newDoc, .call 0 (.createElement (.id .Svg))])
      (p := fun w => docAnd w 1 fun x => w.live 2 && decide (panicOf ((w.view x).removeNode 2) = some .outOfBounds) &&
        (w.view x).acyclicB w.nextId) (by decide +kernel)
    obtain ⟨x, hx, e⟩ := docAnd_iff.1 e
    simp only [Bool.and_eq_true, decide_eq_true_eq] at e
    exact ⟨w, x, h, hx, e.1.1, acyclic_of_check (fun i hi => h.lt hi) e.2, panicOf_iff e.1.2⟩
  · obtain ⟨w, h, e⟩ := exists_own (os := [.newDoc, .newDoc, .call 0 (.createElement (.id .Svg)),
        .call 1 (.createElement (.id .G)), .call 1 (.removeNode 3) [3]])
      (p := fun w => docAnd w 1 fun x => w.live 2 && decide (panicOf ((w.view x).removeNode 2) = some .invalidKey) &&
        (w.view x).acyclicB w.nextId) (by decide +kernel)
    obtain ⟨x, hx, e⟩ := docAnd_iff.1 e
    simp only [Bool.and_eq_true, decide_eq_true_eq] at e
    exact ⟨w, x, h, hx, e.1.1, acyclic_of_check (fun i hi => h.lt hi) e.2, panicOf_iff e.1.2⟩

/-- C70: and if it has one, the removal of node 2 throws out that other node 3, which stays attached but is no longer stored. -/
theorem C70_wrong_node : ∃ w x t, Worlds w ∧ w.docs 1 = some x ∧ w.live 2 = true ∧ w.live 3 = true ∧ 3 ∈ x.slab.nodes ∧
    (w.view x).removeNode 2 = .ok t ∧ t.live 3 = true ∧ t.isDetached 3 = false ∧ 3 ∉ t.slab.nodes := by
  obtain ⟨w, h, e⟩ := exists_own
    (os := [.newDoc, .newDoc, .call 0 (.createElement (.id .Svg)), .call 1 (.createElement (.id .G))])
    (p := fun w => docAnd w 1 fun x => w.live 2 && w.live 3 && decide (3 ∈ x.slab.nodes) &&
      okAnd ((w.view x).removeNode 2) fun t => t.live 3 && decide (t.isDetached 3 = false) && decide (3 ∉ t.slab.nodes))
    (by decide +kernel)
  obtain ⟨x, hx, e⟩ := docAnd_iff.1 e
  simp only [Bool.and_eq_true, decide_eq_true_eq, okAnd_iff] at e
  obtain ⟨⟨⟨h2, h3⟩, h4⟩, t, ht, ⟨h5, h6⟩, h7⟩ := e
  exact ⟨w, x, t, h, hx, h2, h3, h4, ht, h5, h6, h7⟩

/-- Two documents whose nodes are mixed: the elements 3 and 4 of document 1 are below the element 2 of document 0, and refer to it
and to each other. -/
def mixedHistory : List WOp :=
  [.newDoc, .newDoc, .call 0 (.createElement (.id .Svg)), .call 0 (.append 0 2), .call 1 (.createElement (.id .G)),
   .call 1 (.createElement (.id .Rect)), .call 1 (.append 2 3), .call 0 (.append 3 4), .call 1 (.setId 2 ['a']), .call 0 (.setId 3 ['b']),
   .call 1 (.setAttribute 3 ⟨.id .Href, .link 2⟩), .call 0 (.setAttribute 4 ⟨.id .Href, .link 3⟩)]

/-- The hypotheses can be met: nodes of document 1 are in the tree of document 0 and refer to its nodes; document 1 may remove
node 3 with everything below it. -/
example : ∃ w x, Worlds w ∧ w.docs 1 = some x ∧ w.live 3 = true ∧ w.owner 2 = 0 ∧ w.owner 3 = 1 ∧ (w.view x).parent 3 = some 2 ∧
    (w.view x).LinksTo 3 2 ∧ (w.view x).Acyclic ∧ (∀ j, w.live j = true → (w.view x).InSubtree 3 j → w.owner j = 1) := by
  obtain ⟨w, h, e⟩ := exists_own (os := mixedHistory)
    (p := fun w => docAnd w 1 fun x => w.live 3 && decide (w.owner 2 = 0) && decide (w.owner 3 = 1) &&
      decide ((w.view x).parent 3 = some 2) && ((w.view x).attributes 3).any (·.value.refersTo 2) && (w.view x).acyclicB w.nextId &&
      withinCheck w 1 [3, 4] (.removeNode 3)) (by decide +kernel)
  obtain ⟨x, hx, e⟩ := docAnd_iff.1 e
  simp only [Bool.and_eq_true, decide_eq_true_eq, List.any_eq_true] at e
  obtain ⟨⟨⟨⟨⟨⟨h1, h2⟩, h3⟩, h4⟩, a, h5, h5'⟩, h6⟩, h7⟩ := e
  exact ⟨w, x, h, hx, h1, h2, h3, h4, ⟨a, h5, h5'⟩, acyclic_of_check (fun i hi => h.lt hi) h6,
    within_of_check (op := .removeNode 3) (fun j hj => h.lt hj) h7⟩

/-- After the removal by document 1, and a further element of document 0, everything goes on. -/
example : ∃ w x y, Worlds w ∧ w.docs 0 = some x ∧ w.docs 1 = some y ∧ x.slab.nodes = [0, 2, 5] ∧ y.slab.nodes = [1] := by
  obtain ⟨w, h, e⟩ := exists_own
    (os := mixedHistory ++ [.call 1 (.removeNode 3) [3, 4], .call 0 (.createElement (.id .Path))])
    (p := fun w => (docAnd w 0 fun x => decide (x.slab.nodes = [0, 2, 5])) && docAnd w 1 fun y => decide (y.slab.nodes = [1]))
    (by decide +kernel)
  simp only [Bool.and_eq_true, docAnd_iff, decide_eq_true_eq] at e
  obtain ⟨⟨x, hx, e1⟩, y, hy, e2⟩ := e
  exact ⟨w, x, y, h, hx, hy, e1, e2⟩

/-! ## C71 -/

/-- C71 is false without restriction: `Drop` clears the back references of all nodes the document stores. The element 3 of document
1 refers to the element 2 of document 0. Once document 0 is gone, removing that attribute panics, which worked before. -/
theorem C71_refuted : ∃ w x y t u, Worlds w ∧ w.docs 0 = some x ∧ w.docs 1 = some y ∧ w.live 3 = true ∧
    (w.view y).removeAttribute 3 (.id .Href) = .ok u ∧ (w.view x).dropDocument = .ok t ∧
    (w.dropped 0 t).docs 1 = some y ∧ (w.dropped 0 t).live 3 = true ∧
    ((w.dropped 0 t).view y).removeAttribute 3 (.id .Href) = .error (.panic .unwrap) := by
  obtain ⟨w, h, e⟩ := exists_own
    (os := [.newDoc, .newDoc, .call 0 (.createElement (.id .Rect)), .call 1 (.createElement (.id .Use)), .call 1 (.append 1 3),
      .call 0 (.append 0 2), .call 0 (.setId 2 ['r']), .call 1 (.setAttribute 3 ⟨.id .Href, .link 2⟩)])
    (p := fun w => docAnd w 0 fun x => docAnd w 1 fun y => w.live 3 && okAnd ((w.view y).removeAttribute 3 (.id .Href)) (fun _ => true) &&
      okAnd (w.view x).dropDocument fun t => t.live 3 && isUnwrapPanic (((w.dropped 0 t).view y).removeAttribute 3 (.id .Href)))
    (by decide +kernel)
  simp only [Bool.and_eq_true, docAnd_iff, okAnd_iff] at e
  obtain ⟨x, hx, y, hy, ⟨h3, u, hu, _⟩, t, ht, h4, h5⟩ := e
  exact ⟨w, x, y, t, u, h, hx, hy, h3, hu, ht, by simp [World.dropped, hy], h4, isUnwrapPanic_iff h5⟩

/-- C71, what holds: if no link leads into the document or out of it and no node is its own parent, `Drop` does not panic; nodes
that the document does not store keep their data, and their children are the old ones without the stored nodes; the other documents
stay as they are, and everything C70 says is true afterwards. -/
theorem C71_partial {w : World} (h : Worlds w) {d : Nat} {x : Doc} (hx : w.docs d = some x) (ha : w.Apart x)
    (hns : ∀ i, w.live i = true → (w.view x).parent i ≠ some i) {F : Forest} (hF : Describes (w.view x) F) :
    ∃ t G, (w.view x).dropDocument = .ok t ∧ Worlds (w.dropped d t) ∧ t.live = w.live ∧
      (∀ e, e ≠ d → (w.dropped d t).docs e = w.docs e) ∧
      (∀ j, j ∉ x.slab.nodes → t.data j = w.data j) ∧
      Describes t G ∧ ∀ j, w.live j = true → G.kids j = (F.kids j).filter (fun c => decide (c ∉ x.slab.nodes)) := by
  obtain ⟨O, _, hO⟩ := exists_owned w d
  have hi := h.inv.inv hx (fun j hj => hO j (h.lt hj))
  have hst : ∀ n ∈ x.slab.nodes, w.live n = true := fun n hn => ((C70_partial h hx).2.2 n).1 hn |>.1
  have hr : Reps (w.view x) F := by
    obtain ⟨F0, hF0⟩ := h.inv.heap
    have := (hF0.frame (t := w.view x) rfl rfl rfl).reps
    exact ⟨hF.wf, hF.shows, this.clean⟩
  have hdr : Droppable (w.view x) F := ⟨hr, fun i hi => by rw [← hF.shows.parent i hi]; exact hns i hi⟩
  obtain ⟨t, G, e, hG, hlv, hsl, hd, hg⟩ := dropLoop_ok hdr hst
  refine ⟨t, G, e, .drop h hx ha e, hlv, fun f hf => by simp [World.dropped, hf], fun j hj => ?_, hG.reps.describes,
    fun j hj => (hg j hj).2.2⟩
  have := hd j
  rw [if_neg hj] at this
  exact this

/-- `remove_attribute` returns exactly if a reference in the attribute is known to its target, which is another node. -/
theorem removeAttribute_iff (s : St) (i : NodeId) (name : AName) : (∃ u, s.removeAttribute i name = .ok u) ↔
    ∀ a, attrsGet (s.attributes i) name = some a → ∀ k, a.value.linkNode = some k → i ∈ s.linkedNodes k ∧ k ≠ i := by
  unfold St.removeAttribute
  cases hg : attrsGet (s.attributes i) name with
  | none =>
    have hh : s.hasAttribute i name = false := by
      rw [Bool.eq_false_iff]
      intro hh
      obtain ⟨a, ha, hn⟩ := attrsContains_iff.1 hh
      have := List.find?_eq_none.1 hg a ha
      simp [hn] at this
    simp [hh]
  | some a =>
    have hh : s.hasAttribute i name = true := attrsContains_iff.2 ⟨a, attrsGet_some hg⟩
    simp only [hh, Bool.not_true, Bool.false_eq_true, if_false, attrsGetValue, hg, Option.map_some, Option.some.injEq, forall_eq',
      St.unlinkValue]
    cases hk : a.value.linkNode with
    | none => simp [bind, Except.bind, pure, Except.pure]
    | some k =>
      simp only [Option.some.injEq, forall_eq']
      cases hf : (s.linkedNodes k).findIdx? (fun n => decide (n = i)) with
      | none =>
        have : i ∉ s.linkedNodes k := by
          rw [List.findIdx?_eq_none_iff] at hf
          exact fun hm => by simpa using hf i hm
        simp [bind, Except.bind, this]
      | some idx =>
        have hm : i ∈ s.linkedNodes k := by
          obtain ⟨hlt, hp, _⟩ := List.findIdx?_eq_some_iff_getElem.1 hf
          have := List.getElem_mem hlt
          rw [of_decide_eq_true hp] at this
          exact this
        by_cases hki : k = i
        · simp [bind, Except.bind, borrowMut, hki]
        · simp [bind, Except.bind, borrowMut, hki, hm, pure, Except.pure]

/-- C71, exactly: if no node is its own parent, `Drop` does not panic. Afterwards back references and references of all nodes agree
if and only if no link leads into the document or out of it. Removing an attribute panics exactly for attributes of nodes that the
document did not store that refer to a node it stored. -/
theorem C71_iff {w : World} (h : Worlds w) {d : Nat} {x : Doc} (hx : w.docs d = some x)
    (hns : ∀ i, w.live i = true → (w.view x).parent i ≠ some i) :
    ∃ t, (w.view x).dropDocument = .ok t ∧
      ((∀ i j, w.live i = true → w.live j = true → (t.linkedNodes j).count i = refCount (t.attributes i) j) ↔ w.Apart x) ∧
      ∀ y i name, w.live i = true → ((∃ u, ((w.dropped d t).view y).removeAttribute i name = .ok u) ↔
        ¬ (i ∉ x.slab.nodes ∧ ∃ j ∈ x.slab.nodes, ∃ a ∈ (w.view x).attributes i, a.name = name ∧ a.value.refersTo j = true)) := by
  obtain ⟨F0, hF0⟩ := h.inv.heap
  have hr := (hF0.frame (t := w.view x) rfl rfl rfl).reps
  have hF := hr.describes
  have hst : ∀ n ∈ x.slab.nodes, w.live n = true := fun n hn => ((C70_partial h hx).2.2 n).1 hn |>.1
  have hdr : Droppable (w.view x) F0 := ⟨hr, fun i hi => by rw [← hF.shows.parent i hi]; exact hns i hi⟩
  obtain ⟨t, G, e, -, -, -, hd, -⟩ := dropLoop_ok hdr hst
  have hl : LinkInv (w.view x) := h.inv.link.same rfl (fun _ => rfl) (fun _ => rfl)
  have hat : ∀ i, t.attributes i = if i ∈ x.slab.nodes then [] else (w.view x).attributes i := by
    intro i
    simp only [St.attributes, hd i]
    split <;> rfl
  have hln : ∀ i, t.linkedNodes i = if i ∈ x.slab.nodes then [] else (w.view x).linkedNodes i := by
    intro i
    simp only [St.linkedNodes, hd i]
    split <;> rfl
  refine ⟨t, e, ⟨fun hc i j hi hlk => ?_, fun ha i j hi hj => ?_⟩, fun y i name hi => ?_⟩
  · have hp := linksTo_iff.1 hlk
    obtain ⟨a, ha, hr⟩ := hlk
    have hj : w.live j = true := hl.targets i hi a ha j (refersTo_iff.1 hr)
    have h1 := hc i j hi hj
    rw [hat, hln, refCount_eq] at h1
    have h2 := hl.count i j hi hj
    by_cases hi' : i ∈ x.slab.nodes <;> by_cases hj' : j ∈ x.slab.nodes
    · simp [hi', hj']
    · simp only [hi', hj', if_true, if_false] at h1
      rw [h2] at h1
      simp only [refs, List.countP_nil] at h1 hp
      omega
    · simp only [hi', hj', if_true, if_false, List.count_nil] at h1
      omega
    · simp [hi', hj']
  · have h2 := hl.count i j hi hj
    rw [hat, hln, refCount_eq]
    have hno : (i ∈ x.slab.nodes ∧ j ∉ x.slab.nodes ∨ i ∉ x.slab.nodes ∧ j ∈ x.slab.nodes) → refs ((w.view x).attributes i) j = 0 := by
      intro hh
      by_contra hne
      have := ha i j hi (linksTo_iff.2 (Nat.pos_of_ne_zero hne))
      tauto
    by_cases hi' : i ∈ x.slab.nodes <;> by_cases hj' : j ∈ x.slab.nodes
    · simp [hi', hj', refs]
    · simp only [hi', hj', if_true, if_false]
      rw [h2, hno (.inl ⟨hi', hj'⟩)]
      simp [refs]
    · simp only [hi', hj', if_true, if_false, List.count_nil]
      rw [hno (.inr ⟨hi', hj'⟩)]
    · simp only [hi', hj', if_false]
      exact h2
  · rw [removeAttribute_iff]
    have ea : ((w.dropped d t).view y).attributes i = t.attributes i := rfl
    have el : ∀ k, ((w.dropped d t).view y).linkedNodes k = t.linkedNodes k := fun _ => rfl
    simp only [ea, el, hat]
    by_cases hi' : i ∈ x.slab.nodes
    · simp [hi', attrsGet]
    · simp only [hi', if_false, not_false_eq_true, true_and]
      constructor
      · rintro hh ⟨j, hj, a, ha, hn, hr⟩
        have hg : attrsGet ((w.view x).attributes i) name = some a := by rw [← hn]; exact attrsGet_mem (hl.names i hi) ha
        have := (hh a hg j (refersTo_iff.1 hr)).1
        rw [hln] at this
        simp [hj] at this
      · intro hh a hg k hk
        obtain ⟨ha, hn⟩ := attrsGet_some hg
        have hkl : w.live k = true := hl.targets i hi a ha k hk
        have hks : k ∉ x.slab.nodes := fun hks => hh ⟨k, hks, a, ha, hn, refersTo_iff.2 hk⟩
        have hpos : 0 < refs ((w.view x).attributes i) k := refs_pos.2 ⟨a, ha, hk⟩
        refine ⟨?_, ?_⟩
        · rw [hln]
          simp only [hks, if_false]
          rw [← List.count_pos_iff, hl.count i k hi hkl]
          exact hpos
        · rintro rfl
          rw [hl.noSelf k hi] at hpos
          exact Nat.lt_irrefl _ hpos

/-- A document with links inside it, one of whose nodes is in the tree of another document, can be dropped: the hypotheses of
`C71_partial` can be met. -/
example : ∃ w x, Worlds w ∧ w.docs 0 = some x ∧ w.Apart x ∧ (w.view x).parent 3 = some 4 ∧ w.owner 4 = 1 ∧ 3 ∈ x.slab.nodes ∧
    (w.view x).LinksTo 3 2 ∧ (w.view x).Acyclic := by
  obtain ⟨w, h, e⟩ := exists_own
    (os := [.newDoc, .newDoc, .call 0 (.createElement (.id .Svg)), .call 0 (.createElement (.id .Use)),
      .call 1 (.createElement (.id .G)), .call 0 (.append 0 2), .call 1 (.append 1 4), .call 1 (.append 4 3), .call 0 (.setId 2 ['a']),
      .call 1 (.setAttribute 3 ⟨.id .Href, .link 2⟩)])
    (p := fun w => docAnd w 0 fun x => apartCheck w x && decide ((w.view x).parent 3 = some 4) && decide (w.owner 4 = 1) &&
      decide (3 ∈ x.slab.nodes) && ((w.view x).attributes 3).any (·.value.refersTo 2) && (w.view x).acyclicB w.nextId)
    (by decide +kernel)
  obtain ⟨x, hx, e⟩ := docAnd_iff.1 e
  simp only [Bool.and_eq_true, decide_eq_true_eq, List.any_eq_true] at e
  obtain ⟨⟨⟨⟨⟨h1, h2⟩, h3⟩, h4⟩, a, h5, h5'⟩, h6⟩ := e
  exact ⟨w, x, h, hx, apart_of_check (fun j hj => h.lt hj) h1, h2, h3, h4, ⟨a, h5, h5'⟩,
    acyclic_of_check (fun i hi => h.lt hi) h6⟩

end Svgdom
