import Verif.Spec.Picture
import Verif.Props.Exact
import Verif.Props.Attrs
import Verif.Props.Remove
import Verif.Props.Copy
import Verif.Props.Edit

/-! Every call acts on the picture as on the state. -/

set_option autoImplicit false

namespace Svgdom

open Relation

theorem names_eq (v : AttributeValue) : v.names = v.linkNode := by
  cases v <;> rfl

/-! ### Subtrees -/

theorem subtree_pre {F : Forest} : ∀ {T : Trees} {l : List NodeId} {k : Nat}, T.Of F l → T.pre.length ≤ k →
    l.flatMap (F.subtree k) = T.pre
  | .nil, l, k, hT, _ => by simp only [Trees.Of] at hT; subst hT; rfl
  | .cons i K R, l, k, hT, hk => by
    obtain ⟨l', rfl, hK, hR⟩ := hT
    simp only [Trees.pre, List.length_cons, List.length_append] at hk
    obtain ⟨k, rfl⟩ : ∃ k', k = k' + 1 := ⟨k - 1, by omega⟩
    have h1 := subtree_pre hK (k := k) (by omega)
    have h2 := subtree_pre hR (k := k + 1) (by omega)
    rw [List.flatMap_cons, h2, Forest.subtree, h1]
    rfl

section
variable {s : St} {P : Picture}

theorem Abs.tree (hP : Abs s P) (h : Reachable s) (ha : s.Acyclic) {i : NodeId} (hi : s.live i = true) :
    ∃ T : Trees, T.Of P.forest [i] ∧ P.subtree i = T.pre ∧ T.pre.Nodup ∧ (∀ j ∈ T.pre, s.live j = true) := by
  obtain ⟨T, hT⟩ := trees_exist h.inv hP.forest ha [i] (by simpa using hi)
  have hl := pre_live hP.forest hT (by simpa using hi)
  have hn := pre_nodup hP.forest ha hT (by simpa using hi) (by simp) (by simp)
  have hlen := length_le_of_below hn (n := s.nextId) fun j hj => h.inv.liveBelow j (hl j hj)
  refine ⟨T, hT, ?_, hn, hl⟩
  have := subtree_pre hT hlen
  simpa [Picture.subtree, hP.next] using this

theorem Abs.mem_subtree (hP : Abs s P) (h : Reachable s) (ha : s.Acyclic) {i : NodeId} (hi : s.live i = true) (j : NodeId) :
    j ∈ P.subtree i ↔ s.live j = true ∧ s.InSubtree i j := by
  obtain ⟨T, hT, e, hn, hl⟩ := hP.tree h ha hi
  rw [e]
  constructor
  · intro hj
    refine ⟨hl j hj, ?_⟩
    simpa using (mem_pre hP.forest hT (by simpa using hi) j (hl j hj)).1 hj
  · rintro ⟨hj, hs⟩
    exact (mem_pre hP.forest hT (by simpa using hi) j hj).2 ⟨i, by simp, hs⟩

theorem Abs.tail_subtree (hP : Abs s P) (h : Reachable s) (ha : s.Acyclic) {i : NodeId} (hi : s.live i = true) (j : NodeId) :
    j ∈ (P.subtree i).tail ↔ s.live j = true ∧ s.Ancestor i j := by
  obtain ⟨T, hT, e, hn, hl⟩ := hP.tree h ha hi
  have hm := hP.mem_subtree h ha hi j
  obtain ⟨K, R, rfl, hK, hR⟩ := hT.cons_list
  rw [e] at hm ⊢
  simp only [Trees.pre, List.tail_cons, List.mem_cons] at hm hn ⊢
  rw [List.nodup_cons] at hn
  constructor
  · intro hj
    obtain ⟨h1, h2⟩ := hm.1 (.inr hj)
    refine ⟨h1, ?_⟩
    rcases reflTransGen_iff_eq_or_transGen.1 h2 with e | e
    · subst e; exact absurd hj hn.1
    · exact e
  · rintro ⟨h1, h2⟩
    rcases hm.2 ⟨h1, h2.to_reflTransGen⟩ with e | e
    · subst e; exact absurd h2 (ha j h1)
    · exact e

/-! ### Moves -/

theorem Abs.frame {t : St} (hP : Abs s P) (f : Frame s t) {G : Forest} (hG : Describes t G) : Abs t { P with forest := G } where
  live := by rw [f.live]; exact hP.live
  next := by rw [f.nextId]; exact hP.next
  root := by rw [f.rootId]; exact hP.root
  debug := by rw [f.debug]; exact hP.debug
  forest := hG
  look := fun i hi => by
    rw [f.live] at hi
    rw [hP.look i hi]
    simp only [St.look, St.nodeType, St.tagName, St.idOf, St.attributes, St.text, f.data]
  stored := fun i hi => by
    rw [f.live] at hi
    rw [hP.stored i hi]
    simp only [St.isDetached, f.data]

theorem mirrors_op {t : St} {Q : Picture} (h : Reachable s) (ha : s.Acyclic) (op : Op) (hl : ∀ i ∈ op.handles, s.live i = true)
    (hs : op.Safe s) (e : op.run s = .ok t) (hQ : Abs t Q) : Mirrors (op.run s) (.state Q) :=
  ⟨t, e, .call op h hl e, C05_step_partial h ha op hl hs e, hQ⟩

theorem Abs.touches_iff (hP : Abs s P) {c x : NodeId} (hc : s.live c = true) :
    P.touches c x = true ↔ Touching s c x := by
  simp only [Picture.touches, Bool.or_eq_true, Bool.and_eq_true, decide_eq_true_eq, ← hP.forest.shows.next c hc,
    ← hP.forest.shows.prev c hc, ← hP.forest.shows.parent c hc, Touching]
  tauto

/-- A move in an acyclic state: the exact outcome. -/
theorem mirrors_move (h : Reachable s) (ha : s.Acyclic) (hP : Abs s P) {x y : NodeId} (hx : s.live x = true)
    (hy : s.live y = true) (op : Op) {C : Prop} (G : Forest) (hh : ∀ i ∈ op.handles, s.live i = true)
    (ho : Outcome (op.run s) (x = y) (Touching s y x ∨ Touching s y y ∨ C))
    (hC : C → x ∈ P.subtree y) (hs : x ≠ y → ¬ s.InSubtree y x → op.Safe s)
    (hsp : ∀ t, op.run s = .ok t → Frame s t ∧ Describes t G) :
    Mirrors (op.run s) (P.move x y G) := by
  unfold Picture.move
  by_cases hxy : x = y
  · rw [if_pos hxy]
    exact ⟨_, ho.1 hxy⟩
  · rw [if_neg hxy]
    by_cases hsub : x ∈ P.subtree y
    · rw [if_pos hsub]; trivial
    · rw [if_neg hsub]
      have hself : ¬ Touching s y y := by
        rintro (h1 | h1 | ⟨h1, -⟩)
        · exact ((C01_neighbours h hy).1 h1).2.2 rfl
        · exact ((C01_neighbours h hy).2.1 h1).2.2 rfl
        · exact ha y hy (.single h1)
      by_cases ht : P.touches y x = true
      · rw [if_pos ht]
        exact ⟨_, ho.2.1 hxy (.inl ((hP.touches_iff hy).1 ht))⟩
      · rw [if_neg ht]
        obtain ⟨t, e⟩ := ho.2.2 hxy (by
          rintro (h1 | h1 | h1)
          · exact ht ((hP.touches_iff hy).2 h1)
          · exact hself h1
          · exact hsub (hC h1))
        obtain ⟨f, hG⟩ := hsp t e
        refine mirrors_op h ha op hh (hs hxy fun hi => hsub ?_) e (hP.frame f hG)
        exact (hP.mem_subtree h ha hy x).2 ⟨hx, hi⟩

theorem mirrors_append (h : Reachable s) (ha : s.Acyclic) (hP : Abs s P) {p c : NodeId} (hp : s.live p = true)
    (hc : s.live c = true) : Mirrors (Op.run s (.append p c)) (P.move p c (P.forest.append p c)) := by
  refine mirrors_move h ha hP hp hc (.append p c) _ (by simp [Op.handles, hp, hc]) (C78_append h hp hc) ?_ (fun _ hh => hh) ?_
  · intro hC
    exact absurd (show s.Ancestor p p from .single ((C01_neighbours h hp).2.2.2.1 hC).2.1) (ha p hp)
  · intro t e
    have hs := append_spec (h.inv.reps hP.forest) hp hc
    change s.append p c = .ok t at e
    split at hs
    · rw [e] at hs; simp at hs
    · split at hs
      · rw [e] at hs; simp at hs
      · obtain ⟨t', e', hr, f, _⟩ := hs
        rw [e] at e'; cases e'
        exact ⟨f, hr.describes⟩

theorem mirrors_prepend (h : Reachable s) (ha : s.Acyclic) (hP : Abs s P) {p c : NodeId} (hp : s.live p = true)
    (hc : s.live c = true) : Mirrors (Op.run s (.prepend p c)) (P.move p c (P.forest.prepend p c)) := by
  refine mirrors_move h ha hP hp hc (.prepend p c) _ (by simp [Op.handles, hp, hc]) (C78_prepend h hp hc) ?_ (fun _ hh => hh) ?_
  · intro hC
    exact absurd (show s.Ancestor p p from .single ((C01_neighbours h hp).2.2.1 hC).2.1) (ha p hp)
  · intro t e
    have hs := prepend_spec (h.inv.reps hP.forest) hp hc
    change s.prepend p c = .ok t at e
    split at hs
    · rw [e] at hs; simp at hs
    · split at hs
      · rw [e] at hs; simp at hs
      · obtain ⟨t', e', hr, f, _⟩ := hs
        rw [e] at e'; cases e'
        exact ⟨f, hr.describes⟩

theorem mirrors_insertAfter (h : Reachable s) (ha : s.Acyclic) (hP : Abs s P) {x y : NodeId} (hx : s.live x = true)
    (hy : s.live y = true) : Mirrors (Op.run s (.insertAfter x y)) (P.move x y (P.forest.insertAfter x y)) := by
  refine mirrors_move h ha hP hx hy (.insertAfter x y) _ (by simp [Op.handles, hx, hy]) (C78_insertAfter h hx hy) ?_
    (fun _ hh hi => hh hi.to_reflTransGen) ?_
  · rintro ⟨-, hC | hC⟩
    · exact absurd (show s.Ancestor x x from .single hC) (ha x hx)
    · exact (hP.mem_subtree h ha hy x).2 ⟨hx, .single hC⟩
  · intro t e
    have hs := insertAfter_spec (h.inv.reps hP.forest) hx hy
    change s.insertAfter x y = .ok t at e
    split at hs
    · rw [e] at hs; simp at hs
    · split at hs
      · rw [e] at hs; simp at hs
      · obtain ⟨t', e', hr, f, _⟩ := hs
        rw [e] at e'; cases e'
        exact ⟨f, hr.describes⟩

theorem mirrors_insertBefore (h : Reachable s) (ha : s.Acyclic) (hP : Abs s P) {x y : NodeId} (hx : s.live x = true)
    (hy : s.live y = true) : Mirrors (Op.run s (.insertBefore x y)) (P.move x y (P.forest.insertBefore x y)) := by
  refine mirrors_move h ha hP hx hy (.insertBefore x y) _ (by simp [Op.handles, hx, hy]) (C78_insertBefore h hx hy) ?_
    (fun _ hh hi => hh hi.to_reflTransGen) ?_
  · rintro ⟨-, hC⟩
    exact absurd (show s.Ancestor x x from .single hC) (ha x hx)
  · intro t e
    have hs := insertBefore_spec (h.inv.reps hP.forest) hx hy
    change s.insertBefore x y = .ok t at e
    split at hs
    · rw [e] at hs; simp at hs
    · split at hs
      · rw [e] at hs; simp at hs
      · obtain ⟨t', e', hr, f, _⟩ := hs
        rw [e] at e'; cases e'
        exact ⟨f, hr.describes⟩

theorem mirrors_detach (h : Reachable s) (ha : s.Acyclic) (hP : Abs s P) {i : NodeId} (hi : s.live i = true) :
    Mirrors (Op.run s (.detach i)) (.state { P with forest := P.forest.detach i }) := by
  obtain ⟨t, e⟩ := C03_no_panic h hi fun e => ha i hi (.single e)
  have := detach_inv e
  subst this
  exact mirrors_op h ha (.detach i) (by simpa [Op.handles] using hi) trivial e
    (hP.frame (Frame.detached s i) ((h.inv.reps hP.forest).detached hi).describes)

/-! ### Node data -/

theorem Abs.setD (hP : Abs s P) {i : NodeId} {f : NodeData → NodeData} {g : Look → Look}
    (hk : (f (s.data i)).storageKey = (s.data i).storageKey)
    (hg : (⟨(f (s.data i)).nodeType, (f (s.data i)).tagName, (f (s.data i)).id, (f (s.data i)).attributes,
      (f (s.data i)).text⟩ : Look) = g (s.look i)) : Abs (s.setD i f) (P.edit i g) where
  live := hP.live
  next := hP.next
  root := hP.root
  debug := hP.debug
  forest := hP.forest.frame rfl rfl
  look := fun j hj => by
    simp only [Picture.edit]
    split
    · next e =>
      subst e
      rw [hP.look j hj, ← hg]
      simp [St.look, St.nodeType, St.tagName, St.idOf, St.attributes, St.text]
    · next e =>
      rw [hP.look j hj]
      simp [St.look, St.nodeType, St.tagName, St.idOf, St.attributes, St.text, e]
  stored := fun j hj => by
    rw [show (P.edit i g).stored j = P.stored j from rfl, hP.stored j hj]
    by_cases e : j = i
    · subst e; simp [St.isDetached, hk]
    · simp [St.isDetached, e]

theorem Abs.look_type (hP : Abs s P) {i : NodeId} (hi : s.live i = true) : (P.look i).type = s.nodeType i := by
  rw [hP.look i hi]; rfl

theorem Abs.noElement_eq (hP : Abs s P) {i : NodeId} (hi : s.live i = true) : P.noElement i = (s.debug && !s.isElement i) := by
  simp only [Picture.noElement, hP.debug, hP.look_type hi, St.isElement]
  by_cases e : s.nodeType i = .element <;> simp [e]

theorem mirrors_setText (h : Reachable s) (ha : s.Acyclic) (hP : Abs s P) {i : NodeId} (hi : s.live i = true) (x : Str) :
    Mirrors (Op.run s (.setText i x)) (if P.debug && decide ((P.look i).type = .element) then .panics
      else .state (P.edit i fun d => { d with text := x })) := by
  have e : Op.run s (.setText i x) = if s.debug && s.isElement i then .error (.panic .debugAssert)
      else .ok (s.setD i fun d => { d with text := x }) := by
    simp only [Op.run, St.setText, St.debugAssert, Bool.not_not]
    by_cases hc : (s.debug && s.isElement i) = true <;> simp [hc, bind, Except.bind, pure, Except.pure]
  rw [hP.debug, hP.look_type hi]
  change Mirrors _ (if s.debug && s.isElement i then _ else _)
  split
  · next hc => rw [e, if_pos hc]; exact ⟨_, rfl⟩
  · next hc =>
    rw [if_neg hc] at e
    exact mirrors_op h ha (.setText i x) (by simpa [Op.handles] using hi) trivial e (hP.setD rfl rfl)

theorem mirrors_setId (h : Reachable s) (ha : s.Acyclic) (hP : Abs s P) {i : NodeId} (hi : s.live i = true) (x : Str) :
    Mirrors (Op.run s (.setId i x)) (if P.noElement i then .panics else .state (P.edit i fun d => { d with id := x })) := by
  have e : Op.run s (.setId i x) = if s.debug && !s.isElement i then .error (.panic .debugAssert)
      else .ok (s.setD i fun d => { d with id := x }) := by
    simp only [Op.run, St.setId, St.debugAssert]
    by_cases hc : (s.debug && !s.isElement i) = true <;> simp [hc, bind, Except.bind, pure, Except.pure]
  rw [hP.noElement_eq hi]
  split
  · next hc => rw [e, if_pos hc]; exact ⟨_, rfl⟩
  · next hc =>
    rw [if_neg hc] at e
    exact mirrors_op h ha (.setId i x) (by simpa [Op.handles] using hi) trivial e (hP.setD rfl rfl)

theorem mirrors_setTagName (h : Reachable s) (ha : s.Acyclic) (hP : Abs s P) {i : NodeId} (hi : s.live i = true) (x : TagName) :
    Mirrors (Op.run s (.setTagName i x)) (if P.noElement i || decide (x = .name []) then .panics
      else .state (P.edit i fun d => { d with tag := x })) := by
  rw [hP.noElement_eq hi]
  by_cases hc : (s.debug && !s.isElement i) = true
  · have e : Op.run s (.setTagName i x) = .error (.panic .debugAssert) := by
      simp [Op.run, St.setTagName, St.debugAssert, hc, bind, Except.bind]
    rw [hc, Bool.true_or, if_pos rfl, e]
    exact ⟨_, rfl⟩
  · by_cases hx : x = .name []
    · have e : Op.run s (.setTagName i x) = .error (.panic .emptyTagName) := by
        simp [Op.run, St.setTagName, St.debugAssert, hc, hx, bind, Except.bind, throw, throwThe, MonadExceptOf.throw]
      rw [e, if_pos (by simp [hx])]
      exact ⟨_, rfl⟩
    · have e : Op.run s (.setTagName i x) = .ok (s.setD i fun d => { d with tagName := x }) := by
        simp [Op.run, St.setTagName, St.debugAssert, hc, hx, bind, Except.bind, pure, Except.pure]
      rw [if_neg (by simp [hx]; simpa using hc)]
      exact mirrors_op h ha (.setTagName i x) (by simpa [Op.handles] using hi) trivial e (hP.setD rfl rfl)

/-! ### Attributes -/

theorem Abs.attributes {t : St} (hP : Abs s P) {i : NodeId} {g : List Attribute → List Attribute} (hs : SameElse s t)
    (hi : t.attributes i = g (s.attributes i)) (ho : ∀ j, j ≠ i → t.attributes j = s.attributes j) :
    Abs t (P.edit i fun d => { d with attrs := g d.attrs }) where
  live := by rw [hs.live]; exact hP.live
  next := by rw [hs.nextId]; exact hP.next
  root := by rw [hs.rootId]; exact hP.root
  debug := by rw [hs.debug]; exact hP.debug
  forest := hP.forest.frame hs.links hs.live
  look := fun j hj => by
    rw [hs.live] at hj
    simp only [Picture.edit]
    split
    · next e =>
      subst e
      rw [hP.look j hj]
      simp only [St.look, hs.types, hs.tags, hs.ids, hs.texts, hi]
    · next e =>
      rw [hP.look j hj]
      simp only [St.look, hs.types, hs.tags, hs.ids, hs.texts, ho j e]
  stored := fun j hj => by
    rw [hs.live] at hj
    rw [show (P.edit i _).stored j = P.stored j from rfl, hP.stored j hj]
    simp only [St.isDetached, hs.keys]

theorem Abs.refuses_iff (hP : Abs s P) (h : Reachable s) {i : NodeId} (hi : s.live i = true) {v : AttributeValue}
    (hv : ∀ n ∈ v.names.toList, s.live n = true) :
    P.refuses i v = true ↔ (v.linkNode.bind (s.rejected i)).isSome = true := by
  unfold Picture.refuses
  rw [names_eq] at hv ⊢
  cases hl : v.linkNode with
  | none => simp
  | some n =>
    rw [hl] at hv
    have hn : s.live n = true := hv n (by simp)
    have hm : (P.look n).attrs.any (fun b => decide (b.value.names = some i)) = true ↔ n ∈ s.linkedNodes i := by
      rw [hP.look n hn]
      simp only [St.look, List.any_eq_true, decide_eq_true_eq, names_eq]
      rw [← refs_pos, ← h.inv.link.count n i hn hi, List.count_pos_iff]
    simp only [Bool.or_eq_true, hm]
    simp only [decide_eq_true_eq, hP.look n hn, hP.look i hi, Option.bind_some, St.rejected, St.look]
    by_cases h1 : s.idOf n = []
    · simp [h1]
    · by_cases h2 : s.idOf i = s.idOf n
      · simp [h1, h2]
      · by_cases h3 : n ∈ s.linkedNodes i <;> simp [h1, h2, h3]

theorem checked_cases (hP : Abs s P) (h : Reachable s) {i : NodeId} (hi : s.live i = true) {a : Attribute}
    (hv : ∀ n ∈ a.value.names.toList, s.live n = true) :
    (P.noElement i = true → s.setAttributeChecked i a = .error (.panic .debugAssert)) ∧
    (P.noElement i = false → P.refuses i a.value = true → ∃ e, s.setAttributeChecked i a = .ok (s, some e)) ∧
    (P.noElement i = false → P.refuses i a.value = false →
      ∃ t, s.setAttributeChecked i a = .ok (t, none) ∧ Abs t (P.put i a)) := by
  rw [hP.noElement_eq hi]
  refine ⟨fun hc => ?_, fun hc hr => ?_, fun hc hr => ?_⟩
  · simp only [Bool.and_eq_true, Bool.not_eq_true'] at hc
    exact St.setChecked_debug hc.1 hc.2
  · have hel : s.debug = true → s.isElement i = true := fun hd => by simpa [hd] using hc
    rw [hP.refuses_iff h hi hv, Option.isSome_iff_exists] at hr
    obtain ⟨e, he⟩ := hr
    exact ⟨e, by rw [St.setChecked_eq h.inv.link hi a hel, he]⟩
  · have hel : s.debug = true → s.isElement i = true := fun hd => by simpa [hd] using hc
    have hr' : ¬ (a.value.linkNode.bind (s.rejected i)).isSome = true := by
      rw [← hP.refuses_iff h hi hv, hr]; simp
    have hnone : a.value.linkNode.bind (s.rejected i) = none := by simpa using hr'
    have e : s.setAttributeChecked i a = .ok (s.putAttr i a.stored, none) := by
      rw [St.setChecked_eq h.inv.link hi a hel, hnone]
    refine ⟨_, e, ?_⟩
    obtain ⟨h1, h2, h3, _⟩ := C12_set h hi e
    exact hP.attributes (g := fun l => l.filter (fun b => decide (b.name ≠ a.name)) ++ [⟨a.name, retag a.name a.value⟩]) h3 h1 h2

theorem mirrors_set (h : Reachable s) (ha : s.Acyclic) (hP : Abs s P) {i : NodeId} (hi : s.live i = true) {a : Attribute}
    (hv : ∀ n ∈ a.value.names.toList, s.live n = true) : Mirrors (Op.run s (.setAttribute i a)) (P.set i a) := by
  obtain ⟨h1, h2, h3⟩ := checked_cases hP h hi hv
  have hh : ∀ j ∈ (Op.setAttribute i a).handles, s.live j = true := by
    intro j hj
    rcases List.mem_cons.1 hj with rfl | hj
    · exact hi
    · exact hv j (by rw [names_eq]; exact hj)
  unfold Picture.set
  cases hn : P.noElement i with
  | true =>
    rw [Bool.true_or, if_pos rfl]
    exact ⟨.debugAssert, by simp [Op.run, St.setAttribute, h1 hn, bind, Except.bind]⟩
  | false =>
    cases hr : P.refuses i a.value with
    | true =>
      obtain ⟨e, he⟩ := h2 hn hr
      rw [Bool.or_true, if_pos rfl]
      exact ⟨.unwrap, by simp [Op.run, St.setAttribute, he, bind, Except.bind, throw, throwThe, MonadExceptOf.throw]⟩
    | false =>
      obtain ⟨t, he, hQ⟩ := h3 hn hr
      rw [if_neg (by simp)]
      exact mirrors_op h ha _ hh trivial (by simp [Op.run, St.setAttribute, he, bind, Except.bind, pure, Except.pure]) hQ

theorem mirrors_checked (h : Reachable s) (ha : s.Acyclic) (hP : Abs s P) {i : NodeId} (hi : s.live i = true) {a : Attribute}
    (hv : ∀ n ∈ a.value.names.toList, s.live n = true) : Mirrors (Op.run s (.setAttributeChecked i a))
      (if P.noElement i then .panics else if P.refuses i a.value then .state P else .state (P.put i a)) := by
  obtain ⟨h1, h2, h3⟩ := checked_cases hP h hi hv
  have hh : ∀ j ∈ (Op.setAttributeChecked i a).handles, s.live j = true := by
    intro j hj
    rcases List.mem_cons.1 hj with rfl | hj
    · exact hi
    · exact hv j (by rw [names_eq]; exact hj)
  cases hn : P.noElement i with
  | true =>
    rw [if_pos rfl]
    exact ⟨.debugAssert, by simp [Op.run, h1 hn, Except.map]⟩
  | false =>
    rw [if_neg (by simp)]
    cases hr : P.refuses i a.value with
    | true =>
      obtain ⟨e, he⟩ := h2 hn hr
      rw [if_pos rfl]
      exact mirrors_op h ha _ hh trivial (by simp [Op.run, he, Except.map]) hP
    | false =>
      obtain ⟨t, he, hQ⟩ := h3 hn hr
      rw [if_neg (by simp)]
      exact mirrors_op h ha _ hh trivial (by simp [Op.run, he, Except.map]) hQ

theorem mirrors_ifNone (h : Reachable s) (ha : s.Acyclic) (hP : Abs s P) {i : NodeId} (hi : s.live i = true) {a : Attribute}
    (hv : ∀ n ∈ a.value.names.toList, s.live n = true) : Mirrors (Op.run s (.setAttributeIfNone i a))
      (if (P.look i).attrs.any fun b => decide (b.name = a.name) then .state P else P.set i a) := by
  obtain ⟨h1, h2⟩ := C14_cases s i a
  rw [hP.look i hi]
  by_cases hc : ((s.look i).attrs.any fun b => decide (b.name = a.name)) = true
  · rw [if_pos hc]
    simp only [St.look, List.any_eq_true, decide_eq_true_eq] at hc
    have hh : ∀ j ∈ (Op.setAttributeIfNone i a).handles, s.live j = true := by
      intro j hj
      rcases List.mem_cons.1 hj with rfl | hj
      · exact hi
      · exact hv j (by rw [names_eq]; exact hj)
    exact mirrors_op h ha _ hh trivial (h1 hc) hP
  · rw [if_neg hc]
    simp only [St.look, List.any_eq_true, decide_eq_true_eq, not_exists, not_and] at hc
    have := mirrors_set h ha hP hi hv
    simp only [Op.run] at this ⊢
    rw [h2 hc]
    exact this

theorem mirrors_removeAttribute (h : Reachable s) (ha : s.Acyclic) (hP : Abs s P) {i : NodeId} (hi : s.live i = true) (name : AName) :
    Mirrors (Op.run s (.removeAttribute i name))
      (.state (P.edit i fun d => { d with attrs := d.attrs.filter fun b => decide (b.name ≠ name) })) := by
  obtain ⟨t, e, h1, h2, h3, _⟩ := C13_remove h hi name
  exact mirrors_op h ha (.removeAttribute i name) (by simpa [Op.handles] using hi) trivial e
    (hP.attributes (g := fun l => l.filter fun b => decide (b.name ≠ name)) h3 h1 h2)

/-! ### New nodes -/

theorem Abs.grown {t : St} (hP : Abs s P) {d : Look} (g : Grown s t [s.nextId])
    (hF : Describes t (P.forest.add s.nextId)) (hd : t.look s.nextId = d) : Abs t (P.add d) where
  live := by
    funext j
    have := g.live j
    simp only [List.mem_singleton] at this
    simp only [Picture.add, hP.live, hP.next]
    rw [Bool.eq_iff_iff, this, Bool.or_eq_true, decide_eq_true_eq]
    exact Or.comm
  next := by rw [g.next]; simp [Picture.add, hP.next]
  root := by rw [g.rootId]; exact hP.root
  debug := by rw [g.debug]; exact hP.debug
  forest := by simpa only [Picture.add, hP.next] using hF
  look := fun j hj => by
    simp only [Picture.add, hP.next]
    split
    · next e => rw [e, hd]
    · next e =>
      have hj : s.live j = true := by simpa [e] using (g.live j).1 hj
      rw [hP.look j hj]
      simp only [St.look, g.types j hj, g.tags j hj, g.ids j hj, g.attrs j hj, g.texts j hj]
  stored := fun j hj => by
    simp only [Picture.add, hP.next]
    by_cases e : j = s.nextId
    · rw [g.newDetached j (by simp [e])]; simp [e]
    · have hj : s.live j = true := by simpa [e] using (g.live j).1 hj
      rw [g.detached j hj, hP.stored j hj]; simp [e]

theorem mirrors_createElement (h : Reachable s) (ha : s.Acyclic) (hP : Abs s P) (tag : TagName) :
    Mirrors (Op.run s (.createElement tag)) (if tag = .name [] then .panics
      else .state (P.add { type := .element, tag := tag, id := [], attrs := [], text := [] })) := by
  split
  · next e => exact ⟨.emptyTagName, by simp [Op.run, St.createElement, e, Except.map]⟩
  · next e =>
    obtain ⟨t, key, e1, _, g, hd, _, hF⟩ := newNode_grown h.inv (.fresh .element tag []) rfl rfl
    refine mirrors_op h ha (.createElement tag) (by simp [Op.handles]) trivial (t := t) ?_
      (hP.grown g (hF _ hP.forest) ?_)
    · simp [Op.run, St.createElement, e, e1, Except.map]
    · simp [St.look, St.nodeType, St.tagName, St.idOf, St.attributes, St.text, hd, NodeData.fresh]

theorem mirrors_createNode (h : Reachable s) (ha : s.Acyclic) (hP : Abs s P) (ty : NodeType) (text : Str) :
    Mirrors (Op.run s (.createNode ty text)) (if ty = .element ∨ ty = .root then .panics
      else .state (P.add { type := ty, tag := .name [], id := [], attrs := [], text := text })) := by
  split
  · next e =>
    refine ⟨.assertFailed, ?_⟩
    have : ¬ (ty ≠ .element ∧ ty ≠ .root) := by tauto
    simp [Op.run, St.createNode, assertOrPanic, this, Except.map, bind, Except.bind]
  · next e =>
    obtain ⟨t, key, e1, _, g, hd, _, hF⟩ := newNode_grown h.inv (.fresh ty (.name []) text) rfl rfl
    refine mirrors_op h ha (.createNode ty text) (by simp [Op.handles]) trivial (t := t) ?_
      (hP.grown g (hF _ hP.forest) ?_)
    · have : ty ≠ .element ∧ ty ≠ .root := by tauto
      simp [Op.run, St.createNode, assertOrPanic, this, e1, Except.map, bind, Except.bind]
    · simp [St.look, St.nodeType, St.tagName, St.idOf, St.attributes, St.text, hd, NodeData.fresh]

theorem Copied.look {t : St} {i n : NodeId} (c : Copied s t i n) : t.look n = Picture.copyOf (s.look i) := by
  unfold Picture.copyOf
  by_cases e : (s.look i).type = .element
  · obtain ⟨h1, h2, h3⟩ := c.element e
    rw [if_pos e]
    simp only [St.look, c.type, c.id, h1, h2, h3]
  · obtain ⟨h1, h2, h3⟩ := c.other e
    rw [if_neg e]
    simp only [St.look, c.type, c.id, h1, h2, h3]

theorem Abs.copyable_iff (hP : Abs s P) (h : Reachable s) {i : NodeId} (hi : s.live i = true) :
    P.copyable i = true ↔ Copyable s i := by
  simp only [Picture.copyable, Bool.and_eq_true, Bool.or_eq_true, decide_eq_true_eq, List.all_eq_true, hP.look i hi, Copyable,
    St.look]
  refine and_congr_right fun _ => ?_
  have key : ∀ a ∈ s.attributes i, (match a.value.names with
      | none => true
      | some n => decide ((P.look n).id ≠ [])) = true ↔ ∀ m, a.value.refersTo m = true → s.idOf m ≠ [] := by
    intro a ha
    rw [names_eq]
    cases hl : a.value.linkNode with
    | none =>
      refine iff_of_true rfl fun m hm => ?_
      rw [refersTo_iff, hl] at hm; simp at hm
    | some n =>
      simp only [decide_eq_true_eq, hP.look n (h.inv.link.targets i hi a ha n hl), St.look]
      constructor
      · intro hh m hm
        rw [refersTo_iff, hl] at hm
        cases hm
        exact hh
      · intro hh
        exact hh n (refersTo_iff.2 hl)
  by_cases e : s.nodeType i = .element
  · simp only [e, ne_eq, not_true, false_or, forall_const]
    exact forall₂_congr key
  · simp [e]

theorem mirrors_copyNode (h : Reachable s) (ha : s.Acyclic) (hP : Abs s P) {i : NodeId} (hi : s.live i = true) :
    Mirrors (Op.run s (.copyNode i)) (if P.copyable i then .state (P.add (Picture.copyOf (P.look i))) else .panics) := by
  split
  · next hc =>
    obtain ⟨t, e, _, _, g, c, hF⟩ := (copyNode_spec h.inv h.nodesOk hi).1 ((hP.copyable_iff h hi).1 hc)
    refine mirrors_op h ha (.copyNode i) (by simpa [Op.handles] using hi) trivial (t := t) ?_
      (hP.grown g (hF _ hP.forest) ?_)
    · simp [Op.run, e, Except.map]
    · rw [c.look, hP.look i hi]
  · next hc =>
    obtain ⟨p, e⟩ := (copyNode_spec h.inv h.nodesOk hi).2 fun hh => hc ((hP.copyable_iff h hi).2 hh)
    exact ⟨p, by simp [Op.run, e, Except.map]⟩

/-! ### Deep copies -/

theorem CopyOf.length {t : St} : ∀ {T U : Trees}, T.CopyOf s t U → U.pre.length = T.pre.length
  | .nil, .nil, _ => rfl
  | .nil, .cons _ _ _, h => h.elim
  | .cons _ _ _, .nil, h => h.elim
  | .cons i K R, .cons n K' R', h => by
    simp only [Trees.pre, List.length_cons, List.length_append, CopyOf.length h.2.1, CopyOf.length h.2.2]

/-- If `ν` numbers the copies, it maps children to children. -/
theorem copy_kids {t : St} {F G : Forest} {ν : NodeId → NodeId} : ∀ {T U : Trees} {l m : List NodeId}, T.Of F l → U.Of G m →
    T.CopyOf s t U → U.pre = T.pre.map ν →
    m = l.map ν ∧ ∀ a ∈ T.pre, G.kids (ν a) = (F.kids a).map ν ∧ Copied s t a (ν a)
  | .nil, .nil, l, m, hT, hU, _, _ => by
    simp only [Trees.Of] at hT hU
    subst hT hU
    simp [Trees.pre]
  | .nil, .cons _ _ _, _, _, _, _, h, _ => h.elim
  | .cons _ _ _, .nil, _, _, _, _, h, _ => h.elim
  | .cons i K R, .cons n K' R', l, m, hT, hU, h, hν => by
    obtain ⟨l', rfl, hK, hR⟩ := hT
    obtain ⟨m', rfl, hK', hR'⟩ := hU
    simp only [Trees.pre, List.map_cons, List.map_append, List.cons.injEq] at hν
    obtain ⟨hn, hν⟩ := hν
    obtain ⟨h1, h2⟩ := List.append_inj hν (by rw [CopyOf.length h.2.1, List.length_map])
    obtain ⟨a1, a2⟩ := copy_kids hK hK' h.2.1 h1
    obtain ⟨b1, b2⟩ := copy_kids hR hR' h.2.2 h2
    refine ⟨by rw [List.map_cons, ← hn, ← b1], fun a ha => ?_⟩
    simp only [Trees.pre, List.mem_cons, List.mem_append] at ha
    rcases ha with rfl | ha | ha
    · rw [← hn]; exact ⟨a1, h.1⟩
    · exact a2 a ha
    · exact b2 a ha

theorem map_idxOf {l : List NodeId} (hn : l.Nodup) (n : Nat) : l.map (fun j => n + l.idxOf j) = List.range' n l.length := by
  refine List.ext_getElem (by simp) fun k h1 h2 => ?_
  simp only [List.getElem_map, List.getElem_range', Nat.one_mul]
  rw [hn.idxOf_getElem]

theorem mirrors_copyDeep (h : Reachable s) (ha : s.Acyclic) (hP : Abs s P) {i : NodeId} (hi : s.live i = true) :
    Mirrors (Op.run s (.copyNodeDeep i)) (if (P.subtree i).all P.copyable then .state (P.copyDeep i) else .panics) := by
  have hall : (P.subtree i).all P.copyable = true ↔ ∀ j, s.live j = true → s.InSubtree i j → Copyable s j := by
    rw [List.all_eq_true]
    constructor
    · intro hh j hj hs
      exact (hP.copyable_iff h hj).1 (hh j ((hP.mem_subtree h ha hi j).2 ⟨hj, hs⟩))
    · intro hh j hj
      obtain ⟨h1, h2⟩ := (hP.mem_subtree h ha hi j).1 hj
      exact (hP.copyable_iff h h1).2 (hh j h1 h2)
  by_cases hc : (P.subtree i).all P.copyable = true
  case neg =>
    rw [if_neg hc]
    rw [hall] at hc
    push Not at hc
    obtain ⟨p, e⟩ := (C23_panics h ha hi).2 hc
    exact ⟨p, by simp [Op.run, e, Except.map]⟩
  rw [if_pos hc]
  obtain ⟨t, n, T, U, G, e, hG, hT, hU, cp, g, hUn, gp, gs, _, gk⟩ := C23_deep h ha hP.forest hi (hall.1 hc)
  refine mirrors_op h ha (.copyNodeDeep i) (by simpa [Op.handles] using hi) trivial (t := t) (by simp [Op.run, e, Except.map]) ?_
  obtain ⟨T', hT', hl, hTn, hTl⟩ := hP.tree h ha hi
  have := hT'.unique hT
  subst this
  have hlen := CopyOf.length cp
  -- the numbering
  obtain ⟨ν, hν⟩ : ∃ ν : NodeId → NodeId, ν = fun j => P.next + (P.subtree i).idxOf j := ⟨_, rfl⟩
  have hUν : U.pre = T'.pre.map ν := by
    rw [hν, hl, map_idxOf hTn, hP.next, ← hlen]
    exact g.order
  obtain ⟨hroot, hkids⟩ := copy_kids hT hU cp hUν
  have hni : n = ν i := by simpa using hroot
  have hnext : ∀ j ∈ T'.pre, P.next ≤ ν j := fun j _ => by rw [hν]; exact Nat.le_add_right _ _
  have hget : ∀ j ∈ T'.pre, (P.subtree i)[ν j - P.next]? = some j := by
    intro j hj
    rw [hν, hl, Nat.add_sub_cancel_left]
    exact List.getElem?_idxOf hj
  have hlt : ∀ j, s.live j = true → ¬ P.next ≤ j := by
    intro j hj
    rw [hP.next]
    exact Nat.not_le.2 (h.inv.liveBelow j hj)
  have hcase : ∀ j, t.live j = true → s.live j = true ∨ ∃ a ∈ T'.pre, j = ν a := by
    intro j hj
    rcases (g.live j).1 hj with h1 | h1
    · exact .inl h1
    · rw [hUν, List.mem_map] at h1
      obtain ⟨a, ha, rfl⟩ := h1
      exact .inr ⟨a, ha, rfl⟩
  have hlive : ∀ a ∈ T'.pre, t.live (ν a) = true := fun a ha => (g.live _).2 (.inr (by rw [hUν]; exact List.mem_map_of_mem ha))
  -- parents and siblings of the copies
  have hrel : ∀ a ∈ T'.pre, G.par (ν a) = (if a = i then none else (P.forest.par a).map ν) ∧
      G.sibs (ν a) = (if a = i then [ν a] else (P.forest.sibs a).map ν) := by
    intro a haT
    by_cases hai : a = i
    · rw [if_pos hai, if_pos hai, hai, ← hni]
      exact ⟨gp, gs⟩
    · rw [if_neg hai, if_neg hai]
      have hal := hTl a haT
      obtain ⟨_, hin⟩ := (hP.mem_subtree h ha hi a).1 (by rw [hl]; exact haT)
      rcases ReflTransGen.cases_head hin with e | ⟨q, hq, hqi⟩
      · exact absurd e hai
      · have hqp : P.forest.par a = some q := by rw [← hP.forest.shows.parent a hal]; exact hq
        obtain ⟨hql, hqk⟩ := hP.forest.wf.par a hal q hqp
        have hqT : q ∈ T'.pre := by
          rw [← hl]; exact (hP.mem_subtree h ha hi q).2 ⟨hql, hqi⟩
        have hk := (hkids q hqT).1
        have hmem : ν a ∈ G.kids (ν q) := by
          rw [hk]
          exact List.mem_map_of_mem (by rw [hqk]; exact hP.forest.wf.self_mem a hal)
        have hpar := (hG.wf.kids (ν q) (hlive q hqT) (ν a) hmem).2
        refine ⟨by rw [hpar, hqp]; rfl, ?_⟩
        rw [← (hG.wf.par (ν a) (hlive a haT) (ν q) hpar).2, hk, hqk]
  constructor
  · funext j
    rw [Bool.eq_iff_iff, g.live j, g.order, List.mem_range'_1, hlen]
    simp only [Picture.copyDeep, hl, Bool.or_eq_true, Bool.and_eq_true, decide_eq_true_eq, hP.next, hP.live]
    exact Or.comm
  · rw [g.next, hlen, ← hl, ← hP.next]; rfl
  · rw [g.rootId]; exact hP.root
  · rw [g.debug]; exact hP.debug
  · refine hG.congr fun j hj => ?_
    rcases hcase j hj with h1 | ⟨a, haT, rfl⟩
    · obtain ⟨g1, g2, g3⟩ := gk j h1
      rw [g1, g2, g3]
      simp only [Picture.copyDeep, hlt j h1, if_false]
      refine ⟨?_, ?_, ?_⟩ <;> split <;> rfl
    · obtain ⟨r1, r2⟩ := hrel a haT
      rw [r1, r2, (hkids a haT).1]
      simp only [Picture.copyDeep, hget a haT, if_pos (hnext a haT), ← hν]
      exact ⟨trivial, trivial, trivial⟩
  · intro j hj
    rcases hcase j hj with h1 | ⟨a, haT, rfl⟩
    · have e1 : t.look j = s.look j := by
        simp only [St.look, g.types j h1, g.tags j h1, g.ids j h1, g.attrs j h1, g.texts j h1]
      rw [e1, ← hP.look j h1]
      simp only [Picture.copyDeep, hlt j h1, if_false]
      split <;> rfl
    · rw [(hkids a haT).2.look, ← hP.look a (hTl a haT)]
      simp only [Picture.copyDeep, hget a haT, if_pos (hnext a haT)]
  · intro j hj
    rcases hcase j hj with h1 | ⟨a, haT, rfl⟩
    · rw [g.detached j h1, ← hP.stored j h1]
      simp only [Picture.copyDeep, hlt j h1, decide_false, Bool.false_and, Bool.false_or]
    · have hmem : ν a ∈ U.pre := by rw [hUν]; exact List.mem_map_of_mem haT
      rw [g.newDetached _ hmem]
      rw [g.order, List.mem_range'_1, hlen, ← hl, ← hP.next] at hmem
      simp [Picture.copyDeep, hmem.1, hmem.2]

/-! ### Removal -/

theorem Abs.removed {t : St} (hP : Abs s P) {S S' : List NodeId} (r : Removed s t S) (hF : Describes t (P.forest.prune S))
    (hS : ∀ j, j ∈ S ↔ j ∈ S') : Abs t (P.remove S') where
  live := by rw [r.live]; exact hP.live
  next := by rw [r.nextId]; exact hP.next
  root := by rw [r.rootId]; exact hP.root
  debug := by rw [r.debug]; exact hP.debug
  forest := by rw [prune_congr _ hS] at hF; exact hF
  look := fun j hj => by
    rw [r.live] at hj
    have : survives S' j = survives S j := by
      funext a
      have h1 : S'.any (fun n => a.value.refersTo n) = S.any fun n => a.value.refersTo n := by
        rw [Bool.eq_iff_iff]; simp only [List.any_eq_true, hS]
      simp only [survives, h1, hS]
    simp only [Picture.remove, hP.look j hj, this, St.look, r.types, r.tags, r.ids, r.texts, r.attrs j hj]
  stored := fun j hj => by
    rw [r.live] at hj
    simp only [Picture.remove, hP.stored j hj, r.detached, Bool.not_or, hS]
    by_cases e : j ∈ S' <;> simp [e]

theorem mirrors_removeNode (h : Reachable s) (ha : s.Acyclic) (hP : Abs s P) {i : NodeId} (hi : s.live i = true) :
    Mirrors (Op.run s (.removeNode i)) (.state (P.remove (P.subtree i))) := by
  obtain ⟨t, S, e, hS, r, hF⟩ := C20_remove h ha hP.forest hi
  exact mirrors_op h ha (.removeNode i) (by simpa [Op.handles] using hi) trivial e
    (hP.removed r hF fun j => by rw [hS, hP.mem_subtree h ha hi])

theorem mirrors_drain (h : Reachable s) (ha : s.Acyclic) (hP : Abs s P) {i : NodeId} (hi : s.live i = true)
    (f : NodeType → TagName → Str → Str → Bool) :
    Mirrors (Op.run s (.drain i fun s n => f (s.nodeType n) (s.tagName n) (s.idOf n) (s.text n)))
      (.state (P.remove (P.drained i f))) := by
  obtain ⟨t, S, M, e, _, _, hS, r, hF, _⟩ := C21_drain h ha hP.forest
    (f := fun s n => f (s.nodeType n) (s.tagName n) (s.idOf n) (s.text n))
    (by intro s t n h1 h2 h3 h4; simp only [h1, h2, h3, h4]) hi
  refine mirrors_op h ha (.drain i _) (by simpa [Op.handles] using hi) trivial (t := t) (by simp [Op.run, e, Except.map])
    (hP.removed r hF fun j => ?_)
  rw [hS]
  simp only [Picture.drained, List.mem_flatMap, List.mem_filter, hP.tail_subtree h ha hi, Match]
  constructor
  · rintro ⟨hj, a, ⟨h1, h2, h3⟩, h4⟩
    refine ⟨a, ⟨⟨h1, h2⟩, ?_⟩, (hP.mem_subtree h ha h1 j).2 ⟨hj, h4⟩⟩
    simpa only [hP.look a h1, St.look] using h3
  · rintro ⟨a, ⟨⟨h1, h2⟩, h3⟩, h4⟩
    obtain ⟨hj, h5⟩ := (hP.mem_subtree h ha h1 j).1 h4
    refine ⟨hj, a, ⟨h1, h2, ?_⟩, h5⟩
    simpa only [hP.look a h1, St.look] using h3

/-! ### Assignments -/

theorem mirrors_edit {t : St} {Q : Picture} (h : Reachable s) (ha : s.Acyclic) (he : s.Edit t) (hQ : Abs t Q) :
    Mirrors (.ok t) (.state Q) := by
  refine ⟨t, rfl, .edit h he, acyclic_sub ha (fun i hi => by rw [← he.live]; exact hi) (fun j p _ hp => ?_), hQ⟩
  rw [← hp]
  simp only [St.parent, St.upgrade, he.live, he.links]

theorem mirrors_editText (h : Reachable s) (ha : s.Acyclic) (hP : Abs s P) {i : NodeId} (hi : s.live i = true) (x : Str) :
    Mirrors (.ok (s.editText i x)) (.state (P.edit i fun d => { d with text := x })) :=
  mirrors_edit h ha (.text i x hi) (hP.setD rfl rfl)

theorem mirrors_editAttribute (h : Reachable s) (ha : s.Acyclic) (hP : Abs s P) {i : NodeId} (hi : s.live i = true) (name : AName)
    (a : Attribute) : Mirrors (.ok (s.editAttribute i name a)) (if P.replaces i name a then
      .state (P.edit i fun d => { d with attrs := d.attrs.map fun b => if b.name = name then a else b }) else .misuse) := by
  by_cases hc : P.replaces i name a = true
  case neg => rw [if_neg hc]; trivial
  rw [if_pos hc]
  simp only [Picture.replaces, Bool.and_eq_true, hP.look i hi, St.look, List.all_eq_true, Bool.or_eq_true, decide_eq_true_eq,
    names_eq] at hc
  obtain ⟨h1, h2⟩ := hc
  obtain ⟨e1, e2, e3⟩ := C69_effect h hi name a
  refine mirrors_edit h ha (.attr i name a hi ⟨?_, ?_⟩) (hP.attributes e3 e1 fun j hj => ?_)
  · intro old ho
    obtain ⟨hm, hn⟩ := attrsGet_some ho
    rcases h1 old hm with (h1 | h1) | h1
    · exact absurd hn h1
    · exact .inl h1
    · refine .inr ⟨h1.1, ?_⟩
      have h1 := h1.2
      split at h1
      · next n fb m fb' e e' =>
        simp only [decide_eq_true_eq] at h1
        subst h1
        exact ⟨n, fb, fb', e, e'⟩
      · simp at h1
  · rcases h2 with h2 | h2
    · exact .inl h2
    · right
      rw [St.hasAttribute, Bool.eq_false_iff]
      intro hh
      obtain ⟨b, hb, hn⟩ := attrsContains_iff.1 hh
      exact h2 b hb hn
  · simp only [St.attributes, e2 j hj]

/-! ### Handles -/

theorem Abs.held_iff (hP : Abs s P) (h : Reachable s) {i : NodeId} (hi : s.live i = true) :
    P.held i = true ↔ s.strongRef i := by
  simp only [Picture.held, St.strongRef, Bool.or_eq_true, decide_eq_true_eq, hP.root, List.any_eq_true, List.mem_range,
    Bool.and_eq_true, hP.next, hP.live, hP.stored i hi, or_assoc]
  refine or_congr Iff.rfl (or_congr ?_ ?_)
  · rw [← C24_detached h hi]; simp
  · refine exists_congr fun j => ?_
    constructor
    · rintro ⟨_, hj, h1⟩
      refine ⟨hj, ?_⟩
      rcases h1 with h1 | h1 | ⟨a, ha, h1⟩ | ⟨a, ha, h1⟩
      · exact .inl (by rw [hP.forest.shows.first j hj]; exact h1)
      · exact .inr (.inl (by rw [hP.forest.shows.next j hj]; exact h1))
      · refine .inr (.inr (.inl ?_))
        rw [hP.look i hi] at ha
        rw [names_eq] at h1
        rw [← List.count_pos_iff, h.inv.link.count i j hi hj, refs_pos]
        exact ⟨a, ha, h1⟩
      · refine .inr (.inr (.inr ?_))
        rw [hP.look j hj] at ha
        rw [names_eq] at h1
        exact ⟨a, ha, h1⟩
    · rintro ⟨hj, h1⟩
      refine ⟨h.inv.liveBelow j hj, hj, ?_⟩
      rcases h1 with h1 | h1 | h1 | ⟨a, ha, h1⟩
      · exact .inl (by rw [← hP.forest.shows.first j hj]; exact h1)
      · exact .inr (.inl (by rw [← hP.forest.shows.next j hj]; exact h1))
      · refine .inr (.inr (.inl ?_))
        rw [← List.count_pos_iff, h.inv.link.count i j hi hj, refs_pos] at h1
        obtain ⟨a, ha, h1⟩ := h1
        exact ⟨a, by rw [hP.look i hi]; exact ha, by rw [names_eq]; exact h1⟩
      · refine .inr (.inr (.inr ?_))
        exact ⟨a, by rw [hP.look j hj]; exact ha, by rw [names_eq]; exact h1⟩

theorem Abs.free (hP : Abs s P) (h : Reachable s) {i : NodeId} (hi : s.live i = true) (hr : ¬ s.strongRef i) :
    Abs (s.free i) { P with live := fun j => P.live j && decide (j ≠ i), forest := P.forest.drop i } where
  live := by
    funext j
    simp only [hP.live, St.free]
    by_cases e : j = i <;> simp [e]
  next := hP.next
  root := hP.root
  debug := hP.debug
  forest := by
    obtain ⟨G, hT⟩ := h.inv.tree
    have hT' : TreeInv s P.forest := ⟨h.inv.reps hP.forest, hT.liveBelow, hT.below, hT.root⟩
    exact (hT'.free hi hr).reps.describes
  look := fun j hj => by
    have : s.live j = true := by
      simp only [St.free] at hj; split at hj <;> simp_all
    exact hP.look j this
  stored := fun j hj => by
    have : s.live j = true := by
      simp only [St.free] at hj; split at hj <;> simp_all
    exact hP.stored j this

end

/-! ### Answers -/

section
variable {s : St} {P : Picture}

theorem Abs.refusal_eq (hP : Abs s P) (h : Reachable s) {i : NodeId} (hi : s.live i = true) {v : AttributeValue}
    (hv : ∀ n ∈ v.names.toList, s.live n = true) : P.refusal i v = v.linkNode.bind (s.rejected i) := by
  have hr := hP.refuses_iff h hi hv
  unfold Picture.refusal
  rw [names_eq] at hv ⊢
  cases hl : v.linkNode with
  | none => rfl
  | some n =>
    rw [hl] at hv hr
    have hn : s.live n = true := hv n (by simp)
    simp only [Option.bind_some, hP.look n hn, St.look] at hr ⊢
    unfold St.rejected at hr ⊢
    by_cases h1 : s.idOf n = []
    · simp [h1]
    · simp only [h1, if_false] at hr ⊢
      by_cases h2 : s.idOf i = s.idOf n ∨ n ∈ s.linkedNodes i
      · simp only [h2, if_true, Option.isSome_some, iff_true] at hr ⊢
        rw [if_pos hr]
      · simp only [h2, if_false, Option.isSome_none, Bool.false_eq_true, iff_false] at hr ⊢
        rw [if_neg hr]

theorem ask_checked (h : Reachable s) (hP : Abs s P) {i : NodeId} (hi : s.live i = true) {a : Attribute}
    (hv : ∀ n ∈ a.value.names.toList, s.live n = true) (hn : ¬ P.noElement i = true) :
    (Call.setAttributeChecked i a).ask s = .ok (P.answer (.setAttributeChecked i a)) := by
  have hel : s.debug = true → s.isElement i = true := fun hd => by
    rw [hP.noElement_eq hi] at hn
    simpa [hd] using hn
  simp only [Call.ask, Picture.answer]
  rw [St.setChecked_eq h.inv.link hi a hel, hP.refusal_eq h hi hv]
  cases a.value.linkNode.bind (s.rejected i) <;> rfl

theorem ask_deep (h : Reachable s) (ha : s.Acyclic) (hP : Abs s P) {i : NodeId} (hi : s.live i = true)
    (hc : (P.subtree i).all P.copyable = true) : (Call.copyNodeDeep i).ask s = .ok (P.answer (.copyNodeDeep i)) := by
  have hall : ∀ j, s.live j = true → s.InSubtree i j → Copyable s j := fun j hj hs =>
    (hP.copyable_iff h hj).1 (List.all_eq_true.1 hc j ((hP.mem_subtree h ha hi j).2 ⟨hj, hs⟩))
  obtain ⟨t, n, T, U, G, e, _, _, hU, _, g, _⟩ := C23_deep h ha hP.forest hi hall
  have ho := g.order
  obtain ⟨K, R, rfl, _⟩ := hU.cons_list
  simp only [Trees.pre, List.length_cons, List.range'_succ, List.cons.injEq] at ho
  simp only [Call.ask, Picture.answer, e, Except.map, hP.next, ho.1]

theorem ask_drain (h : Reachable s) (ha : s.Acyclic) (hP : Abs s P) {i : NodeId} (hi : s.live i = true)
    (f : NodeType → TagName → Str → Str → Bool) : (Call.drain i f).ask s = .ok (P.answer (.drain i f)) := by
  obtain ⟨t, S, M, e, hn, hM, _⟩ := C21_drain h ha hP.forest
    (f := fun s n => f (s.nodeType n) (s.tagName n) (s.idOf n) (s.text n))
    (by intro s t n h1 h2 h3 h4; simp only [h1, h2, h3, h4]) hi
  simp only [Call.ask, Picture.answer, e, Except.map, Picture.topmost, Except.ok.injEq, Answer.count.injEq]
  have hmt : ∀ j, j ∈ ((P.subtree i).tail.filter fun j => f (P.look j).type (P.look j).tag (P.look j).id (P.look j).text) ↔
      Match s (fun s n => f (s.nodeType n) (s.tagName n) (s.idOf n) (s.text n)) i j := by
    intro j
    rw [List.mem_filter, hP.tail_subtree h ha hi, Match, and_assoc]
    refine and_congr_right fun hj => and_congr_right fun _ => ?_
    simp only [hP.look j hj, St.look]
  refine List.Perm.length_eq ?_
  refine (List.perm_ext_iff_of_nodup hn ?_).2 fun j => ?_
  · refine List.Nodup.filter _ (List.Nodup.filter _ ?_)
    obtain ⟨T, _, e, hn, _⟩ := hP.tree h ha hi
    rw [e]
    exact hn.tail
  · rw [hM, List.mem_filter, hmt, TopMatch]
    refine and_congr_right fun hj => ?_
    rw [List.all_eq_true]
    refine forall_congr' fun b => ?_
    rw [hmt]
    refine forall_congr' fun hb => ?_
    rw [decide_eq_true_eq, hP.tail_subtree h ha hb.1]
    simp [hj.1]

end

end Svgdom
