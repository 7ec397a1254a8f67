import Verif.Props.Users

/-!
# C106: independent calls commute

Calls that change the shape of the document (new nodes, moves) and calls that change what single nodes carry do not depend on each
other. Calls that change what different nodes carry depend on each other only through references.
-/

set_option autoImplicit false

namespace Svgdom

/-- The node whose content a call changes: text, id, tag name or attributes. -/
def Call.changes : Call → Option NodeId
  | .setText i _ => some i
  | .setId i _ => some i
  | .setTagName i _ => some i
  | .setAttribute i _ => some i
  | .setAttributeChecked i _ => some i
  | .setAttributeIfNone i _ => some i
  | .removeAttribute i _ => some i
  | .editText i _ => some i
  | .editAttribute i _ _ => some i
  | _ => none

/-- New nodes and moves. -/
def Call.shapes : Call → Bool
  | .createElement _ => true
  | .createNode _ _ => true
  | .append _ _ => true
  | .prepend _ _ => true
  | .insertAfter _ _ => true
  | .insertBefore _ _ => true
  | .detach _ => true
  | _ => false

/-- The same for the user: everything that can be observed is the same; the users of a node may be in another order. -/
structure Twins (s t : St) : Prop where
  live : s.live = t.live
  written : ∀ W, s.writeDom W = t.writeDom W
  look : ∀ i, s.live i = true → s.look i = t.look i
  detached : ∀ i, s.live i = true → s.isDetached i = t.isDetached i
  parent : ∀ i, s.live i = true → s.parent i = t.parent i
  first : ∀ i, s.live i = true → s.firstChild i = t.firstChild i
  last : ∀ i, s.live i = true → s.lastChild i = t.lastChild i
  next : ∀ i, s.live i = true → s.nextSibling i = t.nextSibling i
  prev : ∀ i, s.live i = true → s.prevSibling i = t.prevSibling i
  kids : ∀ i, s.live i = true → s.childList i = t.childList i
  below : ∀ i, s.live i = true → s.descendantList i = t.descendantList i
  root : ∀ i, s.live i = true → s.root i = t.root i
  users : ∀ i, s.live i = true → (s.linkedNodes i).Perm (t.linkedNodes i)

theorem twins_of {s t : St} {P : Picture} {X Y : Extras} (h : Reachable s) (ha : s.Acyclic) (hP : Abs s P) (hX : X.Of s)
    (h' : Reachable t) (ha' : t.Acyclic) (hP' : Abs t P) (hY : Y.Of t) (ht : X.top = Y.top) : Twins s t := by
  have hl : s.live = t.live := by rw [← hP.live, ← hP'.live]
  have obs := fun i (hi : s.live i = true) => And.intro (C93_observe h ha hP hi) (C93_observe h' ha' hP' (hl ▸ hi))
  constructor
  · exact hl
  · exact fun W => C93_written h ha hP h' ha' hP' W
  · intro i hi; rw [← hP.look i hi, hP'.look i (hl ▸ hi)]
  · intro i hi; obtain ⟨⟨_, _, _, _, _, a, _⟩, _, _, _, _, _, b, _⟩ := obs i hi; rw [a, b]
  · intro i hi; obtain ⟨⟨_, _, _, _, _, _, a, _⟩, _, _, _, _, _, _, b, _⟩ := obs i hi; rw [a, b]
  · intro i hi; obtain ⟨⟨_, _, _, _, _, _, _, a, _⟩, _, _, _, _, _, _, _, b, _⟩ := obs i hi; rw [a, b]
  · intro i hi; obtain ⟨⟨_, _, _, _, _, _, _, _, a, _⟩, _, _, _, _, _, _, _, _, b, _⟩ := obs i hi; rw [a, b]
  · intro i hi; obtain ⟨⟨_, _, _, _, _, _, _, _, _, a, _⟩, _, _, _, _, _, _, _, _, _, b, _⟩ := obs i hi; rw [a, b]
  · intro i hi; obtain ⟨⟨_, _, _, _, _, _, _, _, _, _, a, _⟩, _, _, _, _, _, _, _, _, _, _, b, _⟩ := obs i hi; rw [a, b]
  · intro i hi; obtain ⟨⟨_, _, _, _, _, _, _, _, _, _, _, a, _⟩, _, _, _, _, _, _, _, _, _, _, _, b, _⟩ := obs i hi; rw [a, b]
  · intro i hi; obtain ⟨⟨_, _, _, _, _, _, _, _, _, _, _, _, a, _⟩, _, _, _, _, _, _, _, _, _, _, _, _, b, _⟩ := obs i hi; rw [a, b]
  · intro i hi
    rw [(C96_observe hP hX hi).1, (C96_observe hP' hY (hl ▸ hi)).1]
    simp only [Picture.rootOf, ht]
  · intro i hi
    obtain ⟨⟨_, _, _, _, _, _, _, _, _, _, _, _, _, a, a'⟩, _, _, _, _, _, _, _, _, _, _, _, _, _, b, b'⟩ := obs i hi
    rw [List.perm_iff_count]
    intro j
    by_cases hj : s.live j = true
    · rw [a j hj, b j (hl ▸ hj)]
    · rw [List.count_eq_zero_of_not_mem, List.count_eq_zero_of_not_mem]
      · intro hm; exact hj (by rw [← hP.live]; exact b' j hm)
      · intro hm; exact hj (by rw [← hP.live]; exact a' j hm)

/-! ## The machine -/

theorem edit_id (P : Picture) (i : NodeId) : P.edit i (fun d => d) = P := by
  unfold Picture.edit
  congr 1
  funext j
  split <;> rfl

/-- What a call does to the content of its node depends only on the nodes that it mentions. -/
theorem step_changes {P Q : Picture} {d : Call} {i : NodeId} (hd : d.changes = some i) (hs : P.step d = .state Q) :
    P.live i = true ∧ ∃ g, Q = P.edit i g ∧ ∀ R : Picture, (∀ m ∈ d.mentions, R.live m = true ∧ R.look m = P.look m) → R.debug = P.debug →
      R.step d = .state (R.edit i g) := by
  unfold Picture.step at hs
  split at hs
  case isFalse => simp at hs
  next hm =>
  have hm' := hm
  rw [List.all_eq_true] at hm'
  have live : ∀ R : Picture, (∀ m ∈ d.mentions, R.live m = true ∧ R.look m = P.look m) → d.mentions.all R.live = true := by
    intro R h
    rw [List.all_eq_true]
    exact fun m hm => (h m hm).1
  have refuses : ∀ (R : Picture) (a : Attribute), R.look i = P.look i → (∀ n, a.value.names = some n → R.look n = P.look n) →
      R.refuses i a.value = P.refuses i a.value := by
    intro R a h1 h2
    unfold Picture.refuses
    cases hn : a.value.names with
    | none => rfl
    | some n => simp only [h1, h2 n hn]
  have noElement : ∀ R : Picture, R.look i = P.look i → R.debug = P.debug → R.noElement i = P.noElement i := by
    intro R h1 h2
    simp only [Picture.noElement, h1, h2]
  have replaces : ∀ (R : Picture) (n : AName) (a : Attribute), R.look i = P.look i → R.replaces i n a = P.replaces i n a := by
    intro R n a h1
    simp only [Picture.replaces, h1]
  cases d with
  | setText k t =>
    cases hd
    refine ⟨hm' i (by simp [Call.mentions]), fun d => { d with text := t }, ?_, fun R h hb => ?_⟩
    · simp only [Picture.act] at hs
      split at hs <;> simp at hs
      exact hs.symm
    · have h1 := (h i (by simp [Call.mentions])).2
      rw [Picture.step, if_pos (live R h)]
      simp only [Picture.act, h1, hb] at hs ⊢
      split at hs
      · simp at hs
      · next hc => rw [if_neg hc]
  | setId k t =>
    cases hd
    refine ⟨hm' i (by simp [Call.mentions]), fun d => { d with id := t }, ?_, fun R h hb => ?_⟩
    · simp only [Picture.act] at hs
      split at hs <;> simp at hs
      exact hs.symm
    · have h1 := (h i (by simp [Call.mentions])).2
      rw [Picture.step, if_pos (live R h)]
      simp only [Picture.act, noElement R h1 hb] at hs ⊢
      split at hs
      · simp at hs
      · next hc => rw [if_neg hc]
  | setTagName k t =>
    cases hd
    refine ⟨hm' i (by simp [Call.mentions]), fun d => { d with tag := t }, ?_, fun R h hb => ?_⟩
    · simp only [Picture.act] at hs
      split at hs <;> simp at hs
      exact hs.symm
    · have h1 := (h i (by simp [Call.mentions])).2
      rw [Picture.step, if_pos (live R h)]
      simp only [Picture.act, noElement R h1 hb] at hs ⊢
      split at hs
      · simp at hs
      · next hc => rw [if_neg hc]
  | editText k t =>
    cases hd
    refine ⟨hm' i (by simp [Call.mentions]), fun d => { d with text := t }, ?_, fun R h hb => ?_⟩
    · simp only [Picture.act, Result.state.injEq] at hs
      exact hs.symm
    · rw [Picture.step, if_pos (live R h)]; rfl
  | removeAttribute k n =>
    cases hd
    refine ⟨hm' i (by simp [Call.mentions]), fun d => { d with attrs := d.attrs.filter fun b => decide (b.name ≠ n) }, ?_, fun R h hb => ?_⟩
    · simp only [Picture.act, Result.state.injEq] at hs
      exact hs.symm
    · rw [Picture.step, if_pos (live R h)]; rfl
  | editAttribute k n a =>
    cases hd
    refine ⟨hm' i (by simp [Call.mentions]), fun d => { d with attrs := d.attrs.map fun b => if b.name = n then a else b }, ?_,
      fun R h hb => ?_⟩
    · simp only [Picture.act] at hs
      split at hs <;> simp at hs
      exact hs.symm
    · have h1 := (h i (by simp [Call.mentions])).2
      rw [Picture.step, if_pos (live R h)]
      simp only [Picture.act, replaces R n a h1] at hs ⊢
      split at hs
      · next hc => rw [if_pos hc]
      · simp at hs
  | setAttribute k a =>
    cases hd
    refine ⟨hm' i (by simp [Call.mentions]), fun d => { d with
      attrs := d.attrs.filter (fun b => decide (b.name ≠ a.name)) ++ [⟨a.name, retag a.name a.value⟩] }, ?_, fun R h hb => ?_⟩
    · simp only [Picture.act, Picture.set] at hs
      split at hs <;> simp at hs
      exact hs.symm
    · have h1 := (h i (by simp [Call.mentions])).2
      have h2 := refuses R a h1 fun n hn => (h n (by simp [Call.mentions, hn])).2
      rw [Picture.step, if_pos (live R h)]
      simp only [Picture.act, Picture.set, noElement R h1 hb, h2] at hs ⊢
      split at hs
      · simp at hs
      · next hc => rw [if_neg hc]; rfl
  | setAttributeChecked k a =>
    cases hd
    refine ⟨hm' i (by simp [Call.mentions]), ?_⟩
    simp only [Picture.act] at hs
    split at hs
    · simp at hs
    · next hne =>
      split at hs
      · next hr =>
        refine ⟨fun d => d, ?_, fun R h hb => ?_⟩
        · simp only [Result.state.injEq] at hs; rw [edit_id, hs]
        · have h1 := (h i (by simp [Call.mentions])).2
          have h2 := refuses R a h1 fun n hn => (h n (by simp [Call.mentions, hn])).2
          rw [Picture.step, if_pos (live R h)]
          simp only [Picture.act, noElement R h1 hb, h2] at hne ⊢
          rw [if_neg hne, if_pos hr, edit_id]
      · next hr =>
        refine ⟨fun d => { d with
          attrs := d.attrs.filter (fun b => decide (b.name ≠ a.name)) ++ [⟨a.name, retag a.name a.value⟩] }, ?_, fun R h hb => ?_⟩
        · simp only [Result.state.injEq] at hs; exact hs.symm
        · have h1 := (h i (by simp [Call.mentions])).2
          have h2 := refuses R a h1 fun n hn => (h n (by simp [Call.mentions, hn])).2
          rw [Picture.step, if_pos (live R h)]
          simp only [Picture.act, noElement R h1 hb, h2] at hne ⊢
          rw [if_neg hne, if_neg hr]; rfl
  | setAttributeIfNone k a =>
    cases hd
    refine ⟨hm' i (by simp [Call.mentions]), ?_⟩
    simp only [Picture.act] at hs
    split at hs
    · next hany =>
      refine ⟨fun d => d, ?_, fun R h hb => ?_⟩
      · simp only [Result.state.injEq] at hs; rw [edit_id, hs]
      · have h1 := (h i (by simp [Call.mentions])).2
        rw [Picture.step, if_pos (live R h)]
        simp only [Picture.act, h1]
        rw [if_pos hany, edit_id]
    · next hany =>
      simp only [Picture.set] at hs
      split at hs
      · simp at hs
      · next hc =>
        refine ⟨fun d => { d with
          attrs := d.attrs.filter (fun b => decide (b.name ≠ a.name)) ++ [⟨a.name, retag a.name a.value⟩] }, ?_, fun R h hb => ?_⟩
        · simp only [Result.state.injEq] at hs; exact hs.symm
        · have h1 := (h i (by simp [Call.mentions])).2
          have h2 := refuses R a h1 fun n hn => (h n (by simp [Call.mentions, hn])).2
          rw [Picture.step, if_pos (live R h)]
          simp only [Picture.act, Picture.set, noElement R h1 hb, h1, h2] at hc ⊢
          rw [if_neg hany, if_neg hc]; rfl
  | _ => cases hd

theorem edit_edit {P : Picture} {i j : NodeId} (h : i ≠ j) (f g : Look → Look) : (P.edit i f).edit j g = (P.edit j g).edit i f := by
  unfold Picture.edit
  simp only
  congr 1
  funext k
  by_cases h1 : k = i
  · subst h1; simp [h]
  · by_cases h2 : k = j
    · subst h2; simp [h1]
    · simp [h1, h2]

/-- Shape calls do not look at the content of the nodes there are. -/
theorem step_shapes {P Q : Picture} {c : Call} (hc : c.shapes = true) {i : NodeId} (hi : i ≠ P.next) {f : Look → Look}
    (hs : (P.edit i f).step c = .state Q) : ∃ R, P.step c = .state R ∧ Q = R.edit i f := by
  unfold Picture.step at hs ⊢
  split at hs
  case isFalse => simp at hs
  next hm =>
  rw [if_pos (show c.mentions.all P.live = true from hm)]
  have move : ∀ {x y : NodeId} {G : Forest}, (P.edit i f).move x y G = .state Q → ∃ R, P.move x y G = .state R ∧ Q = R.edit i f := by
    intro x y G hs
    unfold Picture.move at hs ⊢
    split at hs
    · simp at hs
    · next h1 =>
      rw [if_neg h1]
      split at hs
      · simp at hs
      · next h2 =>
        rw [if_neg (show ¬ x ∈ P.subtree y from h2)]
        split at hs
        · simp at hs
        · next h3 =>
          rw [if_neg (show ¬ P.touches y x = true from h3)]
          exact ⟨_, rfl, by simp only [Result.state.injEq] at hs; exact hs.symm⟩
  have add : ∀ d : Look, (P.edit i f).add d = (P.add d).edit i f := by
    intro d
    unfold Picture.edit Picture.add
    simp only
    congr 1
    funext j
    by_cases h1 : j = P.next
    · subst h1
      have : ¬ P.next = i := fun h => hi h.symm
      simp [this]
    · simp [h1]
  cases c with
  | createElement t =>
    simp only [Picture.act] at hs ⊢
    split at hs
    · simp at hs
    · next h =>
      rw [if_neg h]
      simp only [Result.state.injEq] at hs
      exact ⟨_, rfl, by rw [← add]; exact hs.symm⟩
  | createNode ty t =>
    simp only [Picture.act] at hs ⊢
    split at hs
    · simp at hs
    · next h =>
      rw [if_neg h]
      simp only [Result.state.injEq] at hs
      exact ⟨_, rfl, by rw [← add]; exact hs.symm⟩
  | append p c => exact move hs
  | prepend p c => exact move hs
  | insertAfter p c => exact move hs
  | insertBefore p c => exact move hs
  | detach y =>
    simp only [Picture.act, Result.state.injEq] at hs ⊢
    exact ⟨_, rfl, hs.symm⟩
  | _ => simp [Call.shapes] at hc

/-- Shape calls leave the content of the nodes there are as it is. -/
theorem step_shapes_look {P Q : Picture} {c : Call} (hc : c.shapes = true) (hs : P.step c = .state Q) :
    Q.debug = P.debug ∧ (P.next ≤ Q.next) ∧ (∀ j, P.live j = true → Q.live j = true) ∧ (∀ j, Q.live j = true → P.live j = true ∨ j < Q.next) ∧
      ∀ j, j ≠ P.next → Q.look j = P.look j := by
  unfold Picture.step at hs
  split at hs
  case isFalse => simp at hs
  next hm =>
  have move : ∀ {x y : NodeId} {G : Forest}, P.move x y G = .state Q → ∃ G, Q = { P with forest := G } := by
    intro x y G hs
    unfold Picture.move at hs
    split at hs
    · simp at hs
    · split at hs
      · simp at hs
      · split at hs
        · simp at hs
        · exact ⟨_, by simp only [Result.state.injEq] at hs; exact hs.symm⟩
  have same : (∃ G, Q = { P with forest := G }) → Q.debug = P.debug ∧ (P.next ≤ Q.next) ∧ (∀ j, P.live j = true → Q.live j = true) ∧
      (∀ j, Q.live j = true → P.live j = true ∨ j < Q.next) ∧ ∀ j, j ≠ P.next → Q.look j = P.look j := by
    rintro ⟨G, rfl⟩
    exact ⟨rfl, Nat.le_refl _, fun _ h => h, fun _ h => .inl h, fun _ _ => rfl⟩
  have add : ∀ d : Look, Q = P.add d → Q.debug = P.debug ∧ (P.next ≤ Q.next) ∧ (∀ j, P.live j = true → Q.live j = true) ∧
      (∀ j, Q.live j = true → P.live j = true ∨ j < Q.next) ∧ ∀ j, j ≠ P.next → Q.look j = P.look j := by
    rintro d rfl
    refine ⟨rfl, Nat.le_succ _, fun j h => by simp [Picture.add, h], fun j h => ?_, fun j h => by simp [Picture.add, h]⟩
    simp only [Picture.add, Bool.or_eq_true, decide_eq_true_eq] at h ⊢
    rcases h with rfl | h
    · exact .inr (Nat.lt_succ_self _)
    · exact .inl h
  cases c with
  | createElement t =>
    simp only [Picture.act] at hs
    split at hs
    · simp at hs
    · simp only [Result.state.injEq] at hs; exact add _ hs.symm
  | createNode ty t =>
    simp only [Picture.act] at hs
    split at hs
    · simp at hs
    · simp only [Result.state.injEq] at hs; exact add _ hs.symm
  | append p c => exact same (move hs)
  | prepend p c => exact same (move hs)
  | insertAfter p c => exact same (move hs)
  | insertBefore p c => exact same (move hs)
  | detach y =>
    simp only [Picture.act, Result.state.injEq] at hs
    exact same ⟨_, hs.symm⟩
  | _ => simp [Call.shapes] at hc

/-- A change of content may be done after the next shape call instead. -/
theorem swap_shape {P P1 Q : Picture} (hb : ∀ j, P.live j = true → j < P.next) {c d : Call} {i : NodeId} (hd : d.changes = some i)
    (hc : c.shapes = true) (h1 : P.step d = .state P1) (h2 : P1.step c = .state Q) : ∃ R, P.step c = .state R ∧ R.step d = .state Q := by
  have hml : ∀ m ∈ d.mentions, P.live m = true := by
    unfold Picture.step at h1
    split at h1
    · next h => exact List.all_eq_true.1 h
    · simp at h1
  obtain ⟨hl, g, rfl, hg⟩ := step_changes hd h1
  obtain ⟨R, hR, rfl⟩ := step_shapes hc (Nat.ne_of_lt (hb i hl)) h2
  obtain ⟨k1, _, k3, _, k5⟩ := step_shapes_look hc hR
  exact ⟨R, hR, hg R (fun m hm => ⟨k3 m (hml m hm), k5 m (Nat.ne_of_lt (hb m (hml m hm)))⟩) k1⟩

/-- Changes of different nodes commute if neither call mentions the node that the other one changes. -/
theorem swap_changes {P P1 Q : Picture} {c d : Call} {i j : NodeId} (hc : c.changes = some i) (hd : d.changes = some j)
    (hi : i ∉ d.mentions) (hj : j ∉ c.mentions) (h1 : P.step c = .state P1) (h2 : P1.step d = .state Q) :
    ∃ R, P.step d = .state R ∧ R.step c = .state Q := by
  have hml : ∀ {P Q : Picture} {c : Call}, P.step c = .state Q → ∀ m ∈ c.mentions, P.live m = true := by
    intro P Q c h
    unfold Picture.step at h
    split at h
    · next hk => exact List.all_eq_true.1 hk
    · simp at h
  obtain ⟨hl, f, rfl, hf⟩ := step_changes hc h1
  obtain ⟨hl', g, rfl, hg⟩ := step_changes hd h2
  have hne : i ≠ j := by
    rintro rfl
    refine hj ?_
    cases c <;> simp [Call.changes] at hc <;> subst hc <;> simp [Call.mentions]
  refine ⟨P.edit j g, hg P (fun m hm => ⟨hml h2 m hm, ?_⟩) rfl, ?_⟩
  · have : m ≠ i := by rintro rfl; exact hi hm
    simp [Picture.edit, this]
  · rw [hf (P.edit j g) (fun m hm => ⟨hml h1 m hm, ?_⟩) rfl, edit_edit hne]
    have : m ≠ j := by rintro rfl; exact hj hm
    simp [Picture.edit, this]

/-! ## What `root()` returns -/

/-- Changes of content do not affect it. -/
theorem top_changes {P Q : Picture} {X : Extras} {d : Call} {i : NodeId} (hd : d.changes = some i) : (X.step P Q d).top = X.top := by
  cases d <;> simp [Call.changes] at hd <;> simp only [Extras.step] <;> (try split) <;> rfl

theorem top_shapes {P Q P' Q' : Picture} {X X' : Extras} {c : Call} (hc : c.shapes = true) (h : X.top = X'.top) (hp : P.next = P'.next)
    (hq : Q.next = Q'.next) : (X.step P Q c).top = (X'.step P' Q' c).top := by
  cases c <;> simp [Call.shapes] at hc <;> simp only [Extras.step, Extras.grow, Extras.join, h, hp, hq]

/-! ## Histories -/

/-- One history becomes another one by exchanging neighbours that are independent: a change of content and a shape call, or two changes
of content of which neither mentions the node that the other one changes. -/
inductive Shuffled : List Call → List Call → Prop
  | refl (cs : List Call) : Shuffled cs cs
  | shape {as bs ds : List Call} {c d : Call} {i : NodeId} (h : Shuffled as (bs ++ d :: c :: ds)) (hd : d.changes = some i)
      (hc : c.shapes = true) : Shuffled as (bs ++ c :: d :: ds)
  | content {as bs ds : List Call} {c d : Call} {i j : NodeId} (h : Shuffled as (bs ++ d :: c :: ds)) (hd : d.changes = some i)
      (hc : c.changes = some j) (hi : i ∉ c.mentions) (hj : j ∉ d.mentions) : Shuffled as (bs ++ c :: d :: ds)

theorem run_append (P : Picture) (as bs : List Call) : P.run (as ++ bs) = match P.run as with
    | .state Q => Q.run bs
    | r => r := by
  induction as generalizing P with
  | nil => rfl
  | cons a as ih =>
    simp only [List.cons_append, Picture.run]
    cases h : P.step a with
    | state Q => exact ih Q
    | panics => rfl
    | misuse => rfl

theorem run_split {P Q : Picture} {as bs : List Call} (h : P.run (as ++ bs) = .state Q) : ∃ R, P.run as = .state R ∧ R.run bs = .state Q := by
  rw [run_append] at h
  cases hr : P.run as with
  | state R => rw [hr] at h; exact ⟨R, rfl, h⟩
  | panics => rw [hr] at h; simp at h
  | misuse => rw [hr] at h; simp at h

theorem run_two {P Q : Picture} {c d : Call} {ds : List Call} (h : P.run (c :: d :: ds) = .state Q) :
    ∃ R S, P.step c = .state R ∧ R.step d = .state S ∧ S.run ds = .state Q := by
  simp only [Picture.run] at h
  cases hc : P.step c with
  | state R =>
    rw [hc] at h
    simp only at h
    cases hd : R.step d with
    | state S => rw [hd] at h; exact ⟨R, S, rfl, hd, h⟩
    | panics => rw [hd] at h; simp at h
    | misuse => rw [hd] at h; simp at h
  | panics => rw [hc] at h; simp at h
  | misuse => rw [hc] at h; simp at h

theorem extras_append {P R : Picture} {as : List Call} (h : P.run as = .state R) (X : Extras) (bs : List Call) :
    X.run P (as ++ bs) = (X.run P as).run R bs := by
  induction as generalizing P X with
  | nil => simp only [Picture.run, Result.state.injEq] at h; subst h; rfl
  | cons a as ih =>
    simp only [List.cons_append, Picture.run, Extras.run] at h ⊢
    cases hc : P.step a with
    | state Q => rw [hc] at h; exact ih h _
    | panics => rw [hc] at h; simp at h
    | misuse => rw [hc] at h; simp at h

/-- The same calls on other extras with the same top nodes. -/
theorem top_run {P : Picture} {X Y : Extras} (h : X.top = Y.top) (cs : List Call) : (X.run P cs).top = (Y.run P cs).top := by
  induction cs generalizing P X Y with
  | nil => exact h
  | cons c cs ih =>
    simp only [Extras.run]
    cases hc : P.step c with
    | state Q =>
      refine ih ?_
      cases c <;> simp only [Extras.step] <;> (try split) <;> simp [Extras.grow, Extras.join, Extras.put, Extras.unlink, h]
    | panics => exact h
    | misuse => exact h

/-- The machine: both histories lead to the same picture and the same top nodes. -/
theorem shuffled_run {s : St} {P Q : Picture} {X : Extras} (h : Reachable s) (ha : s.Acyclic) (hP : Abs s P) {as bs : List Call}
    (hs : Shuffled as bs) (hq : P.run as = .state Q) : P.run bs = .state Q ∧ (X.run P bs).top = (X.run P as).top := by
  have bound : ∀ {cs : List Call} {R : Picture}, P.run cs = .state R → ∀ j, R.live j = true → j < R.next := by
    intro cs R hr j hj
    have := C93_history h ha hP cs
    rw [hr] at this
    obtain ⟨t, _, ht, _, hR⟩ := this
    rw [hR.next]
    exact ht.inv.liveBelow j (by rw [← hR.live]; exact hj)
  induction hs with
  | refl => exact ⟨hq, rfl⟩
  | @shape bs ds c d i _ hd hc ih =>
    obtain ⟨e1, e2⟩ := ih
    obtain ⟨R, r1, r2⟩ := run_split e1
    obtain ⟨S, T, t1, t2, t3⟩ := run_two r2
    obtain ⟨U, u1, u2⟩ := swap_shape (bound r1) hd hc t1 t2
    refine ⟨?_, ?_⟩
    · rw [run_append, r1]
      simp only [Picture.run, u1, u2, t3]
    · rw [← e2, extras_append r1, extras_append r1]
      simp only [Extras.run, u1, u2, t1, t2]
      refine top_run ?_ ds
      rw [top_changes hd]
      obtain ⟨_, g, rfl, _⟩ := step_changes hd t1
      obtain ⟨_, g', rfl, _⟩ := step_changes hd u2
      exact top_shapes hc (top_changes hd).symm rfl rfl
  | @content bs ds c d i j _ hd hc hi hj ih =>
    obtain ⟨e1, e2⟩ := ih
    obtain ⟨R, r1, r2⟩ := run_split e1
    obtain ⟨S, T, t1, t2, t3⟩ := run_two r2
    obtain ⟨U, u1, u2⟩ := swap_changes hd hc hi hj t1 t2
    refine ⟨?_, ?_⟩
    · rw [run_append, r1]
      simp only [Picture.run, u1, u2, t3]
    · rw [← e2, extras_append r1, extras_append r1]
      simp only [Extras.run, u1, u2, t1, t2]
      refine top_run ?_ ds
      rw [top_changes hd, top_changes hc, top_changes hc, top_changes hd]

/-- C106: exchanging independent calls makes no difference. -/
theorem C106_shuffled {s : St} {P Q : Picture} (h : Reachable s) (ha : s.Acyclic) (hP : Abs s P) {as bs : List Call}
    (hs : Shuffled as bs) (hq : P.run as = .state Q) :
    ∃ t u, s.calls as = .ok t ∧ s.calls bs = .ok u ∧ Reachable t ∧ t.Acyclic ∧ Reachable u ∧ u.Acyclic ∧ Abs t Q ∧ Abs u Q ∧ Twins t u := by
  have hX : (⟨fun i => (s.links i).root, s.linkedNodes⟩ : Extras).Of s := ⟨fun _ _ => rfl, fun _ _ => rfl⟩
  obtain ⟨hb, ht⟩ := shuffled_run (X := ⟨fun i => (s.links i).root, s.linkedNodes⟩) h ha hP hs hq
  obtain ⟨t, t1, t2, t3, t4, t5⟩ := C96_history h ha hP hX as hq
  obtain ⟨u, u1, u2, u3, u4, u5⟩ := C96_history h ha hP hX bs hb
  exact ⟨t, u, t1, u1, t2, t3, u2, u3, t4, u4, twins_of t2 t3 t4 t5 u2 u3 u4 u5 ht.symm⟩

theorem Shuffled.trans {as bs cs : List Call} (h : Shuffled as bs) (k : Shuffled bs cs) : Shuffled as cs := by
  induction k with
  | refl => exact h
  | shape _ hd hc ih => exact .shape ih hd hc
  | content _ hd hc hi hj ih => exact .content ih hd hc hi hj

theorem Shuffled.under {as bs : List Call} (h : Shuffled as bs) (pre post : List Call) : Shuffled (pre ++ as ++ post) (pre ++ bs ++ post) := by
  induction h with
  | refl => exact .refl _
  | @shape bs ds c d i _ hd hc ih =>
    have := Shuffled.shape (as := pre ++ as ++ post) (bs := pre ++ bs) (ds := ds ++ post) (c := c) (d := d) (by simpa using ih) hd hc
    simpa using this
  | @content bs ds c d i j _ hd hc hi hj ih =>
    have := Shuffled.content (as := pre ++ as ++ post) (bs := pre ++ bs) (ds := ds ++ post) (c := c) (d := d) (by simpa using ih) hd hc hi hj
    simpa using this

theorem sort_shapes {cs : List Call} (hk : ∀ c ∈ cs, c.shapes = true ∨ c.changes ≠ none) :
    Shuffled cs (cs.filter (fun c => c.shapes) ++ cs.filter (fun c => !c.shapes)) := by
  -- one shape call passes all changes before it
  have pass : ∀ (ds : List Call) (c : Call), c.shapes = true → (∀ d ∈ ds, d.changes ≠ none) → Shuffled (ds ++ [c]) (c :: ds) := by
    intro ds c hc hd
    induction ds with
    | nil => exact .refl _
    | cons d ds ih =>
      have h1 := (ih fun d hx => hd d (by simp [hx])).under [d] []
      simp only [List.append_nil, List.singleton_append] at h1
      obtain ⟨i, hi⟩ := Option.ne_none_iff_exists'.1 (hd d (by simp))
      exact Shuffled.shape (bs := []) h1 hi hc
  induction cs using List.reverseRecOn with
  | nil => exact .refl _
  | append_singleton cs c ih =>
    have ih := (ih fun c hc => hk c (by simp [hc])).under [] [c]
    simp only [List.nil_append] at ih
    by_cases hc : c.shapes = true
    · have hp := (pass (cs.filter fun c => !c.shapes) c hc (fun d hd => by
        obtain ⟨h1, h2⟩ := List.mem_filter.1 hd
        rcases hk d (by simp [h1]) with h | h
        · rw [h] at h2; simp at h2
        · exact h)).under (cs.filter fun c => c.shapes) []
      refine ih.trans ?_
      simpa [List.filter_append, hc] using hp
    · simpa [List.filter_append, hc] using ih

/-- C106: in a history of new nodes, moves and changes of content all changes of content may be left to the end. -/
theorem C106_sorted {s : St} {P Q : Picture} (h : Reachable s) (ha : s.Acyclic) (hP : Abs s P) {cs : List Call}
    (hk : ∀ c ∈ cs, c.shapes = true ∨ c.changes ≠ none) (hq : P.run cs = .state Q) :
    ∃ t u v, s.calls cs = .ok t ∧ s.calls (cs.filter fun c => c.shapes) = .ok u ∧ u.calls (cs.filter fun c => !c.shapes) = .ok v ∧ Twins t v := by
  obtain ⟨t, v, t1, v1, t2, t3, v2, v3, t4, v4, ht⟩ := C106_shuffled h ha hP (sort_shapes hk) hq
  obtain ⟨hb, _⟩ := shuffled_run (X := ⟨fun _ => none, fun _ => []⟩) h ha hP (sort_shapes hk) hq
  obtain ⟨R, r1, r2⟩ := run_split hb
  have hm := C93_history h ha hP (cs.filter fun c => c.shapes)
  rw [r1] at hm
  obtain ⟨u, hu, hu2, hu3, hu4⟩ := hm
  refine ⟨t, u, v, t1, hu, ?_, ht⟩
  have key : ∀ (as bs : List Call) (s u : St), s.calls as = .ok u → s.calls (as ++ bs) = u.calls bs := by
    intro as bs
    induction as with
    | nil => intro s u h; simp only [St.calls, Except.ok.injEq] at h; rw [h]; rfl
    | cons a as ih =>
      intro s u h
      simp only [St.calls, List.cons_append] at h ⊢
      cases ha : a.run s with
      | ok x => rw [ha] at h; exact ih x u h
      | error e => rw [ha] at h; simp [bind, Except.bind] at h
  rw [← key _ _ _ _ hu]; exact v1

/-- Two elements with ids, and a third one. -/
def commuteHistory : List Call :=
  [.createElement (.id .G), .createElement (.id .G), .createElement (.id .G), .append 0 1, .append 0 2, .append 0 3, .setId 1 st!"a",
    .setId 2 st!"b", .setId 3 st!"c"]

/-- C106: the condition on two changes is needed. Each of two elements asks to refer to the other one: the first one wins. -/
theorem C106_sharp : ∃ s t u : St, Reachable s ∧ s.calls [.setAttributeChecked 1 ⟨.id .Fill, .funcLink 2⟩,
      .setAttributeChecked 2 ⟨.id .Fill, .funcLink 1⟩] = .ok t ∧
    s.calls [.setAttributeChecked 2 ⟨.id .Fill, .funcLink 1⟩, .setAttributeChecked 1 ⟨.id .Fill, .funcLink 2⟩] = .ok u ∧
    (t.look 1).attrs = [⟨.id .Fill, .paint 2 none⟩] ∧ (t.look 2).attrs = [] ∧
    (u.look 1).attrs = [] ∧ (u.look 2).attrs = [⟨.id .Fill, .paint 1 none⟩] := by
  obtain ⟨Q, e, hQ⟩ := Result.shows_iff.1 (show ((Picture.init true).run commuteHistory).shows (fun Q =>
    ((Q.run [.setAttributeChecked 1 ⟨.id .Fill, .funcLink 2⟩, .setAttributeChecked 2 ⟨.id .Fill, .funcLink 1⟩]).shows fun R =>
      R.live 1 && R.live 2 && decide ((R.look 1).attrs = [⟨.id .Fill, .paint 2 none⟩]) && decide ((R.look 2).attrs = [])) &&
    ((Q.run [.setAttributeChecked 2 ⟨.id .Fill, .funcLink 1⟩, .setAttributeChecked 1 ⟨.id .Fill, .funcLink 2⟩]).shows fun R =>
      R.live 1 && R.live 2 && decide ((R.look 1).attrs = []) && decide ((R.look 2).attrs = [⟨.id .Fill, .paint 1 none⟩]))) = true by
    decide +kernel)
  obtain ⟨s, _, h, ha, hP, hX⟩ := C96_run e
  rw [Bool.and_eq_true] at hQ
  obtain ⟨R, r1, r2⟩ := Result.shows_iff.1 hQ.1
  obtain ⟨T, t1, t2⟩ := Result.shows_iff.1 hQ.2
  obtain ⟨t, e1, _, _, a1, _⟩ := C96_history h ha hP hX _ r1
  obtain ⟨u, e2, _, _, a2, _⟩ := C96_history h ha hP hX _ t1
  simp only [Bool.and_eq_true, decide_eq_true_eq] at r2 t2
  obtain ⟨⟨⟨l1, l2⟩, l3⟩, l4⟩ := r2
  obtain ⟨⟨⟨m1, m2⟩, m3⟩, m4⟩ := t2
  rw [a1.live] at l1 l2
  rw [a2.live] at m1 m2
  rw [a1.look 1 l1] at l3
  rw [a1.look 2 l2] at l4
  rw [a2.look 1 m1] at m3
  rw [a2.look 2 m2] at m4
  exact ⟨s, t, u, h, e1, e2, l3, l4, m3, m4⟩

/-- C106: the order of the users is the order of the calls, so it is not kept. -/
theorem C106_order : ∃ s t u : St, Reachable s ∧ s.calls [.setAttribute 1 ⟨.id .Fill, .funcLink 3⟩,
      .setAttribute 2 ⟨.id .Fill, .funcLink 3⟩] = .ok t ∧
    s.calls [.setAttribute 2 ⟨.id .Fill, .funcLink 3⟩, .setAttribute 1 ⟨.id .Fill, .funcLink 3⟩] = .ok u ∧ Twins t u ∧
    t.linkedNodes 3 = [1, 2] ∧ u.linkedNodes 3 = [2, 1] := by
  obtain ⟨Q, e, hQ⟩ := Result.shows_iff.1 (show ((Picture.init true).run commuteHistory).shows (fun Q =>
    let X := Extras.init.run (Picture.init true) commuteHistory
    ((Q.run [.setAttribute 1 ⟨.id .Fill, .funcLink 3⟩, .setAttribute 2 ⟨.id .Fill, .funcLink 3⟩]).shows fun R => R.live 3) &&
    decide ((X.run Q [.setAttribute 1 ⟨.id .Fill, .funcLink 3⟩, .setAttribute 2 ⟨.id .Fill, .funcLink 3⟩]).users 3 = [1, 2]) &&
    decide ((X.run Q [.setAttribute 2 ⟨.id .Fill, .funcLink 3⟩, .setAttribute 1 ⟨.id .Fill, .funcLink 3⟩]).users 3 = [2, 1])) = true by
    decide +kernel)
  obtain ⟨s, _, h, ha, hP, hX⟩ := C96_run e
  simp only [Bool.and_eq_true, decide_eq_true_eq] at hQ
  obtain ⟨⟨q1, q2⟩, q3⟩ := hQ
  obtain ⟨R, r1, r2⟩ := Result.shows_iff.1 q1
  have hs : Shuffled [.setAttribute 1 ⟨.id .Fill, .funcLink 3⟩, .setAttribute 2 ⟨.id .Fill, .funcLink 3⟩]
      [.setAttribute 2 ⟨.id .Fill, .funcLink 3⟩, .setAttribute 1 ⟨.id .Fill, .funcLink 3⟩] :=
    .content (bs := []) (ds := []) (.refl _) rfl rfl (by decide +kernel) (by decide +kernel)
  obtain ⟨t, u, t1, u1, _, _, _, _, a1, a2, tw⟩ := C106_shuffled h ha hP hs r1
  obtain ⟨hb, _⟩ := shuffled_run (X := ⟨fun _ => none, fun _ => []⟩) h ha hP hs r1
  obtain ⟨t', e1, _, _, _, x1⟩ := C96_history h ha hP hX _ r1
  obtain ⟨u', e2, _, _, _, x2⟩ := C96_history h ha hP hX _ hb
  rw [t1, Except.ok.injEq] at e1
  rw [u1, Except.ok.injEq] at e2
  subst e1 e2
  have l1 : t.live 3 = true := by rw [← a1.live]; exact r2
  have l2 : u.live 3 = true := by rw [← a2.live]; exact r2
  exact ⟨s, t, u, h, t1, u1, tw, (C96_observe a1 x1 l1).2.1.trans q2, (C96_observe a2 x2 l2).2.1.trans q3⟩

/-- The conditions of `C106_sorted` are met by a history that mixes the two kinds of calls. -/
example : ∃ cs Q, (Picture.init true).run cs = .state Q ∧ (∀ c ∈ cs, c.shapes = true ∨ c.changes ≠ none) ∧
    cs.filter (fun c => c.shapes) ++ cs.filter (fun c => !c.shapes) ≠ cs := by
  obtain ⟨Q, e, _⟩ := Result.shows_iff.1 (show ((Picture.init true).run ([.createElement (.id .G), .setId 1 st!"a", .append 0 1,
    .createElement (.id .Rect), .setAttribute 2 ⟨.id .Fill, .funcLink 1⟩, .append 1 2, .setId 2 st!"b", .detach 1])).shows
      (fun _ => true) = true by decide +kernel)
  exact ⟨_, Q, e, by simp [Call.shapes, Call.changes], fun h => by
    have := congrArg (fun l : List Call => l.map Call.shapes) h
    revert this
    decide +kernel⟩

end Svgdom
