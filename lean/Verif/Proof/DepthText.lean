import Verif.Model.StackText
import Verif.Spec.ElemDepth
import Verif.Props.Depth

/-!
# Depth of recursion of text processing and of the whole parser: lemmas
-/

set_option autoImplicit false

namespace Svgdom

theorem step_if {ε α : Type} {p : Prop} [Decidable p] (a b : Except ε α) : step (if p then a else b) = if p then step a else step b := by
  split <;> rfl

theorem elemHeight_congr {s t : St} (h : ∀ j, s.nodeType j = t.nodeType j) : ∀ T : Trees, T.elemHeight s = T.elemHeight t
  | .nil => rfl
  | .cons i K R => by simp [Trees.elemHeight, h, elemHeight_congr h K, elemHeight_congr h R]

theorem collectText_depth {s : St} (hb : Built s) {F : Forest} (hF : Describes s F) : ∀ (T : Trees) (d k depth : Nat) (l : List NodeId),
    T.Of F l → (∀ j ∈ T.pre, s.live j = true) → (∀ j ∈ T.pre, F.kids j ≠ [] → s.nodeType j = .element) → T.pre.length ≤ k →
    s.collectTextS d k depth l = if T.elemHeight s ≤ d then step (s.collectText k depth l) else .error .overflow
  | .nil, d, k, depth, l, hT, _, _, _ => by
    cases hT
    cases k <;> simp [St.collectTextS, St.collectText, Trees.elemHeight, step_ok]
  | .cons i K R, d, k, depth, l, hT, hl, hk, hf => by
    obtain ⟨l', rfl, hK, hR⟩ := hT
    simp only [Trees.pre, List.length_cons, List.length_append, List.mem_cons, List.mem_append] at hf hl hk
    obtain ⟨k, rfl⟩ : ∃ m, k = m + 1 := ⟨k - 1, by omega⟩
    have hi := hl i (.inl rfl)
    obtain ⟨r2, e2, -⟩ := collectText_ok hb hF R k depth l' hR (fun j hj => hl j (.inr (.inr hj)))
      (fun j hj => hk j (.inr (.inr hj))) (by omega)
    obtain ⟨r1, e1, -⟩ := collectText_ok hb hF K k (depth + 1) (F.kids i) hK (fun j hj => hl j (.inr (.inl hj)))
      (fun j hj => hk j (.inr (.inl hj))) (by omega)
    have q2 := collectText_depth hb hF R d k depth l' hR (fun j hj => hl j (.inr (.inr hj)))
      (fun j hj => hk j (.inr (.inr hj))) (by omega)
    have q1 := fun d => collectText_depth hb hF K d k (depth + 1) (F.kids i) hK (fun j hj => hl j (.inr (.inl hj)))
      (fun j hj => hk j (.inr (.inl hj))) (by omega)
    rw [e2] at q2
    simp only [e1] at q1
    by_cases ht : s.isText i = true
    · have hne : s.nodeType i ≠ .element := by
        simp only [St.isText, decide_eq_true_eq] at ht
        rw [ht]; simp
      simp only [St.collectTextS, St.collectText, ht, if_true, e2, q2, bind, Except.bind, pure, Except.pure, Trees.elemHeight, hne, if_false,
        Nat.zero_max]
      by_cases hd : R.elemHeight s ≤ d <;> simp [hd, step_ok]
    · by_cases he : s.isElement i = true
      · have hel : s.nodeType i = .element := of_decide_eq_true he
        simp only [St.collectTextS, St.collectText, if_neg ht, he, if_true, childList_eq hb.inv hF hi, e1, e2, q2, bind, Except.bind, pure,
            Except.pure, Trees.elemHeight, hel, step_ok]
        cases d with
        | zero => simp [nested]
        | succ d =>
          simp only [nested, q1 d]
          by_cases h1 : K.elemHeight s ≤ d
          · by_cases h2 : R.elemHeight s ≤ d + 1
            · have h3 : max (K.elemHeight s + 1) (R.elemHeight s) ≤ d + 1 := by omega
              simp only [h1, h2, h3, if_true, step_ok]
            · have h3 : ¬ max (K.elemHeight s + 1) (R.elemHeight s) ≤ d + 1 := by omega
              simp only [h1, h2, h3, if_true, if_false, step_ok]
          · have h3 : ¬ max (K.elemHeight s + 1) (R.elemHeight s) ≤ d + 1 := by omega
            simp only [h1, h3, if_false]
      · have hne : s.nodeType i ≠ .element := fun h => he (decide_eq_true h)
        simp only [St.collectTextS, St.collectText, if_neg ht, if_neg he, e2, q2, bind, Except.bind, pure, Except.pure, Trees.elemHeight, hne,
          if_false, Nat.zero_max]
        by_cases hd : R.elemHeight s ≤ d <;> simp [hd, step_ok]

theorem prepareTextChildren_depth {s0 s : St} {m : List NodeId} (h : TI s0 s m) {F : Forest} (hF : Describes s0 F)
    {n : NodeId} (hn : Region s0 F n) (hel : s0.nodeType n = .element) {K : Trees} (hK : K.Of F (F.kids n))
    (hr : ∀ j ∈ K.pre, Region s0 F j) (sp : XmlSpace) (d : Nat) :
    s.prepareTextChildrenS d m n sp = if K.elemHeight s0 + 1 ≤ d then step (s.prepareTextChildren m n sp) else .error .overflow := by
  have hnl : s.live n = true := by rw [h.live]; exact hn.live
  obtain ⟨T, hT, _, _, hd⟩ := C07_traverse h.built.reachable h.built.acyclic (h.describes hF) hnl
  cases (show (Trees.cons n K .nil).Of F [n] from ⟨[], rfl, hK, rfl⟩).unique hT
  simp only [Trees.pre, List.append_nil] at hd
  obtain ⟨K', hK', _, hnd, hnK, hlen⟩ := kids_tree h.built (h.describes hF) hnl
  cases hK.unique hK'
  have htn : ∀ j ∈ K.pre, s0.nodeType j = .text → TextNode s0 j := fun j hj ht => textNode_of hF hn hK hr hj ht
  obtain ⟨s1, m1, e1, h1, t1, o1, k1⟩ := trimNodes_ok (space := sp) (n :: K.pre) h (by
    intro j hj ht
    rcases List.mem_cons.1 hj with rfl | hj
    · rw [hel] at ht; simp at ht
    · exact htn j hj ht) (List.nodup_cons.2 ⟨hnK, hnd⟩)
  have hn1 : s1.live n = true := by rw [h1.live]; exact hn.live
  have hlen1 : K.pre.length ≤ s1.fuel := by
    unfold St.fuel; rw [h1.nextId, ← h.nextId]; omega
  obtain ⟨r, e2, -⟩ := collectText_ok h1.built (h1.describes hF) K s1.fuel 0 (F.kids n) hK
    (fun j hj => by rw [h1.live]; exact (hr j hj).live) (fun j hj hk => by rw [h1.types]; exact (hr j hj).kids hk) hlen1
  have q := fun d => collectText_depth h1.built (h1.describes hF) K d s1.fuel 0 (F.kids n) hK
    (fun j hj => by rw [h1.live]; exact (hr j hj).live) (fun j hj hk => by rw [h1.types]; exact (hr j hj).kids hk) hlen1
  simp only [e2, step_ok, elemHeight_congr h1.types] at q
  simp only [St.prepareTextChildrenS, St.prepareTextChildren, hd, e1, childList_eq h1.built.inv (h1.describes hF) hn1, e2, step_ok, bind,
    Except.bind]
  cases d with
  | zero => simp [nested]
  | succ d =>
    simp only [nested, q d, Nat.add_le_add_iff_right]
    by_cases hd : K.elemHeight s0 ≤ d
    · simp only [if_pos hd]
      rcases r with _ | ⟨⟨a, b⟩, _ | ⟨c, r⟩⟩
      · rfl
      · simp only
        split
        · cases s1.processSingle a <;> rfl
        · rfl
      · rfl
    · simp only [if_neg hd]

theorem prepareTextAux_depth {s0 : St} (hb0 : Built s0) {F : Forest} (hF : Describes s0 F) : ∀ (T : Trees) (d k : Nat) {s : St}
    {m : List NodeId} (sp : XmlSpace) (l : List NodeId), TI s0 s m → T.Of F l → T.pre.Nodup → (∀ j ∈ T.pre, Region s0 F j) →
    T.pre.length ≤ k → (∀ i ∈ l, ∃ p, s0.parent i = some p ∧ s0.Mode p sp) → (∀ j ∈ T.pre, j ∉ m) →
    St.prepareTextAuxS d k s m sp l = if T.elemHeight s0 ≤ d then step (St.prepareTextAux k s m sp l) else .error .overflow
  | .nil, d, k, s, m, sp, l, h, hT, _, _, _, _, _ => by
    cases hT
    cases k <;> simp [St.prepareTextAuxS, St.prepareTextAux, Trees.elemHeight, step_ok]
  | .cons n K R, d, k, s, m, sp, l, h, hT, hnd, hr, hk, hmode, hunm => by
    obtain ⟨l', rfl, hK, hR⟩ := hT
    simp only [Trees.pre, List.length_cons, List.length_append] at hk
    simp only [Trees.pre, List.nodup_cons, List.nodup_append, List.mem_append, not_or] at hnd
    obtain ⟨⟨nK, nR⟩, dK, dR, dKR⟩ := hnd
    obtain ⟨k, rfl⟩ : ∃ x, k = x + 1 := ⟨k - 1, by omega⟩
    have hn : Region s0 F n := hr n (by simp [Trees.pre])
    have hrK : ∀ j ∈ K.pre, Region s0 F j := fun j hj => hr j (by simp [Trees.pre, hj])
    have hrR : ∀ j ∈ R.pre, Region s0 F j := fun j hj => hr j (by simp [Trees.pre, hj])
    -- the first tree alone
    obtain ⟨s1, m1, e1, h1, -, k1, -⟩ := prepareTextAux_ok hb0 hF (.cons n K .nil) (k + 1) (s := s) (m := m) sp [n] h ⟨[], rfl, hK, rfl⟩
      (by simp [Trees.pre, nK, dK]) (fun j hj => hr j (by
        simp only [Trees.pre, List.append_nil, List.mem_cons, List.mem_append] at hj ⊢; tauto))
      (by simp only [Trees.pre, List.append_nil, List.length_cons]; omega) (fun i hi => hmode i (by simp at hi; simp [hi]))
      (fun j hj => hunm j (by simp only [Trees.pre, List.append_nil, List.mem_cons, List.mem_append] at hj ⊢; tauto))
    have hRm : ∀ j ∈ R.pre, j ∉ m1 := by
      intro j hj hjm
      rcases k1 j hjm with h | h
      · exact hunm j (by simp [Trees.pre, hj]) h
      · simp only [Trees.pre, List.append_nil, List.mem_cons] at h
        rcases h with rfl | h
        · exact nR hj
        · exact dKR j h j hj rfl
    obtain ⟨s2, m2, e2, -⟩ := prepareTextAux_ok hb0 hF R k sp l' h1 hR dR hrR (by omega) (fun i hi => hmode i (by simp [hi])) hRm
    have q2 := prepareTextAux_depth hb0 hF R d k sp l' h1 hR dR hrR (by omega) (fun i hi => hmode i (by simp [hi])) hRm
    rw [e2, step_ok] at q2
    have hnil : ∀ (s : St) (m : List NodeId), St.prepareTextAux k s m sp [] = .ok (s, m) := fun s m => by cases k <;> rfl
    by_cases hel : s0.nodeType n = .element
    · have hie : s.isElement n = true := decide_eq_true (by rw [h.types]; exact hel)
      obtain ⟨sa, ma, ea, ha, -, -, -, ka⟩ := getXmlspace_ok h hn.live hel hn.space sp
      have hna : sa.live n = true := by rw [ha.live]; exact hn.live
      have hma : ∀ j ∈ K.pre, j ∉ ma := by
        intro j hj hjm
        rcases ka j hjm with h1 | rfl
        · exact hunm j (by simp [Trees.pre, hj]) h1
        · exact nK hj
      simp only [St.prepareTextAuxS, St.prepareTextAux, hie, if_true, ea, step_ok, bind, Except.bind, Trees.elemHeight, hel] at e1 ⊢
      by_cases hft : (sa.firstChild n).any sa.isText = true
      · have q1 := prepareTextChildren_depth ha hF hn hel hK hrK (s.spaceAt n sp) d
        simp only [hft, if_true] at e1 ⊢
        cases e3 : sa.prepareTextChildren ma n (s.spaceAt n sp) with
        | error e => rw [e3] at e1; simp at e1
        | ok v =>
          rw [e3] at e1 q1
          simp only [hnil] at e1
          injection e1 with e1
          have e1a : v.1 = s1 := congrArg Prod.fst e1
          have e1b : v.2 = m1 := congrArg Prod.snd e1
          simp only [q1, step_ok]
          by_cases hd1 : K.elemHeight s0 + 1 ≤ d
          · simp only [hd1, if_true, e1a, e1b, e2, q2]
            by_cases hd2 : R.elemHeight s0 ≤ d
            · rw [if_pos hd2, if_pos (by omega), step_ok]
            · rw [if_neg hd2, if_neg (by omega)]
          · simp only [hd1, if_false]
            rw [if_neg (by omega)]
      · have hmn : s0.Mode n (s.spaceAt n sp) := by
          obtain ⟨p, hp, hpm⟩ := hmode n (by simp)
          have : s.spaceAt n sp = s0.spaceAt n sp := by
            simp only [St.spaceAt, h.unmarked n (hunm n (by simp [Trees.pre]))]
          rw [this]
          exact .child hp hpm
        have hkm : ∀ i ∈ F.kids n, ∃ p, s0.parent i = some p ∧ s0.Mode p (s.spaceAt n sp) := by
          intro i hi
          obtain ⟨a, b⟩ := hF.wf.kids n hn.live i hi
          exact ⟨n, by rw [hF.shows.parent i a]; exact b, hmn⟩
        have q1 := fun d => prepareTextAux_depth hb0 hF K d k (s.spaceAt n sp) (F.kids n) ha hK dK hrK (by omega) hkm hma
        simp only [if_neg hft, childList_eq ha.built.inv (ha.describes hF) hna, step_ok] at e1 ⊢
        cases e3 : St.prepareTextAux k sa ma (s.spaceAt n sp) (F.kids n) with
        | error e => rw [e3] at e1; simp at e1
        | ok v =>
          simp only [e3, hnil] at e1
          simp only [e3, step_ok] at q1
          injection e1 with e1
          have e1a : v.1 = s1 := congrArg Prod.fst e1
          have e1b : v.2 = m1 := congrArg Prod.snd e1
          cases d with
          | zero => simp [nested]
          | succ d =>
            simp only [nested, q1 d]
            by_cases hd1 : K.elemHeight s0 ≤ d
            · simp only [hd1, if_true, e1a, e1b, e2, q2]
              by_cases hd2 : R.elemHeight s0 ≤ d + 1
              · rw [if_pos hd2, if_pos (by omega), step_ok]
              · rw [if_neg hd2, if_neg (by omega)]
            · simp only [hd1, if_false]
              rw [if_neg (by omega)]
    · have hie : ¬ s.isElement n = true := by rw [St.isElement, decide_eq_true_eq, h.types]; exact hel
      simp only [St.prepareTextAuxS, St.prepareTextAux, if_neg hie, pure, Except.pure, bind, Except.bind, hnil, Trees.elemHeight, hel, if_false,
        Nat.zero_max] at e1 ⊢
      injection e1 with e1
      have e1a : s = s1 := congrArg Prod.fst e1
      have e1b : m = m1 := congrArg Prod.snd e1
      subst e1a; subst e1b
      rw [q2, e2, step_ok]

theorem prepareText_depth {s0 : St} (hb : Built s0) {F : Forest} (hF : Describes s0 F) {K : Trees} (hK : K.Of F (F.kids s0.rootId))
    (hr : ∀ j ∈ K.pre, Region s0 F j) : ∃ (g : NodeId → Bool) (t : St), s0.prepareText = .ok t ∧
      (∀ j, g j = true → s0.nodeType j = .text) ∧ ∀ d, s0.prepareTextS d = if max (K.elemHeight s0 + 1) (K.drainHeight g + 1) ≤ d then .ok t else .error .overflow := by
  have hrl : s0.live s0.rootId = true := hb.rootLive
  obtain ⟨K', hK', _, hnd, hrk, hlen⟩ := kids_tree hb hF hrl
  cases hK.unique hK'
  have hkm : ∀ i ∈ F.kids s0.rootId, ∃ p, s0.parent i = some p ∧ s0.Mode p .default := by
    intro i hi
    obtain ⟨a, b⟩ := hF.wf.kids s0.rootId hrl i hi
    exact ⟨s0.rootId, by rw [hF.shows.parent i a]; exact b, .root⟩
  obtain ⟨s1, m1, e1, h1, -⟩ := prepareTextAux_ok hb hF K s0.fuel .default (F.kids s0.rootId) (TI.refl hb) hK hnd hr
    (by unfold St.fuel; omega) hkm (by simp)
  have q1 := fun d => prepareTextAux_depth hb hF K d s0.fuel .default (F.kids s0.rootId) (TI.refl hb) hK hnd hr
    (by unfold St.fuel; omega) hkm (by simp)
  obtain ⟨u, e2, h2, -⟩ := removeSpaces_ok m1 h1
  have hul : u.live u.rootId = true := by rw [h2.live, h2.rootId]; exact hrl
  obtain ⟨t, n, e3, -⟩ := drain_tree h2.built (h2.describes hF) hul (K := K) (by rw [h2.rootId]; exact hK) emptyText_looks
  have q3 := fun d => C91_drain h2.built.reachable h2.built.acyclic (h2.describes hF) emptyText_looks hul (K := K)
    (by rw [h2.rootId]; exact hK) d
  refine ⟨fun n => u.isText n && (u.text n).isEmpty, t, by simp only [St.prepareText, childList_eq hb.inv hF hrl, e1, e2, e3, bind, Except.bind, pure, Except.pure], ?_, ?_⟩
  · intro j hj
    simp only [Bool.and_eq_true, St.isText, decide_eq_true_eq, h2.types] at hj
    exact hj.1
  · intro d
    simp only [e1, step_ok] at q1
    simp only [e3, step_ok] at q3
    simp only [St.prepareTextS, childList_eq hb.inv hF hrl, step_ok, bind, Except.bind]
    cases d with
    | zero => simp [nested]
    | succ d =>
      simp only [nested, q1 d]
      by_cases h4 : K.elemHeight s0 ≤ d
      · simp only [h4, if_true, e2, step_ok, q3 (d + 1)]
        by_cases h5 : K.drainHeight (fun n => u.isText n && (u.text n).isEmpty) + 1 ≤ d + 1
        · rw [if_pos h5, if_pos (by omega)]; rfl
        · rw [if_neg h5, if_neg (by omega)]
      · simp only [h4, if_false]
        rw [if_neg (by omega)]

theorem elemHeight_le (s : St) : ∀ T : Trees, T.elemHeight s ≤ T.height
  | .nil => by simp [Trees.elemHeight]
  | .cons i K R => by
    have := elemHeight_le s K
    have := elemHeight_le s R
    simp only [Trees.elemHeight, Trees.height]
    split <;> omega

theorem drainHeight_le (g : NodeId → Bool) : ∀ T : Trees, T.drainHeight g ≤ T.height
  | .nil => by simp [Trees.drainHeight]
  | .cons i K R => by
    have := drainHeight_le g K
    have := drainHeight_le g R
    simp only [Trees.drainHeight, Trees.height]
    split
    · omega
    · split <;> omega

theorem drainHeight_text {s : St} {F : Forest} {g : NodeId → Bool} (hg : ∀ j, g j = true → s.nodeType j = .text) :
    ∀ (T : Trees) (l : List NodeId), T.Of F l → (∀ j ∈ T.pre, F.kids j ≠ [] → s.nodeType j = .element) →
      T.drainHeight g ≤ T.elemHeight s + 1
  | .nil, l, _, _ => by simp [Trees.drainHeight]
  | .cons i K R, l, hT, hk => by
    obtain ⟨l', rfl, hK, hR⟩ := hT
    have h1 := drainHeight_text hg K _ hK fun j hj => hk j (by simp [Trees.pre, hj])
    have h2 := drainHeight_text hg R _ hR fun j hj => hk j (by simp [Trees.pre, hj])
    by_cases he : F.kids i = []
    · rw [he] at hK
      cases hK.nil_list
      simp only [Trees.drainHeight, Trees.elemHeight, Trees.height]
      split <;> simp <;> omega
    · have hel := hk i (by simp [Trees.pre]) he
      have hgi : g i ≠ true := by
        intro h
        rw [hg i h] at hel; simp at hel
      simp only [Trees.drainHeight, Trees.elemHeight, hgi, hel, if_true]
      split
      · contradiction
      · split <;> omega

theorem keep_height (g : NodeId → Bool) : ∀ T : Trees, (T.keep g).height ≤ T.height
  | .nil => by simp [Trees.keep]
  | .cons i K R => by
    have := keep_height g K
    have := keep_height g R
    simp only [Trees.keep]
    split <;> simp only [Trees.height] <;> omega

theorem domOf_height {s : St} (L : Lib) (sheet : List Rule) : ∀ (x : Xml) (pos : XmlPos) (prev : List (Option XmlElem))
    (tag : Option ElementId) (T : Trees), (domOf L sheet pos prev tag x).Is s T → T.height ≤ x.svgHeight
  | .nil, pos, prev, tag, T, h => by
    cases T with
    | nil => simp [Trees.height]
    | cons _ _ _ => simp [domOf, Dom.Is] at h
  | .pi rest, pos, prev, tag, T, h => by
    have := domOf_height L sheet rest pos _ tag T h
    simp only [Xml.svgHeight]; omega
  | .comment c rest, pos, prev, tag, T, h => by
    cases T with
    | nil => simp [domOf, Dom.Is] at h
    | cons i K R =>
      obtain ⟨-, -, -, -, -, rfl, h⟩ := h
      have := domOf_height L sheet rest pos _ tag R h
      simp only [Xml.svgHeight, Trees.height]; omega
  | .text t rest, pos, prev, tag, T, h => by
    simp only [domOf] at h
    split at h
    · have := domOf_height L sheet rest pos _ tag T h
      simp only [Xml.svgHeight]; omega
    · cases T with
      | nil => simp [Dom.Is] at h
      | cons i K R =>
        obtain ⟨-, -, -, -, -, rfl, h⟩ := h
        have := domOf_height L sheet rest pos _ tag R h
        simp only [Xml.svgHeight, Trees.height]; omega
  | .element ns name attrs kids rest, pos, prev, tag, T, h => by
    simp only [domOf] at h
    split at h
    · have := domOf_height L sheet rest pos _ tag T h
      simp only [Xml.svgHeight]; omega
    · next eid he =>
      cases T with
      | nil => simp [Dom.Is] at h
      | cons i K R =>
        obtain ⟨-, -, -, -, -, h1, h2⟩ := h
        have := domOf_height L sheet kids _ _ _ K h1
        have := domOf_height L sheet rest _ _ _ R h2
        split at he
        · next hns =>
          simp only [Xml.svgHeight, Trees.height, hns, he, Option.isSome_some, and_self, if_true]
          omega
        · simp at he

theorem orFailS_step {α : Type} (r : Except Err α) : orFailS (step r) = step (okOrFail r) := by
  cases r <;> rfl

/-- The room the whole parser needs. -/
theorem parseSvg_depth {L : Lib} {debug : Bool} {x : Xml} {t : St} (e : parseSvg L debug x = .ok t) :
    ∃ (T K : Trees) (s : St) (g h : NodeId → Bool), (svgDom L x).unstyled.Is s K ∧ K.height ≤ T.height ∧ T.height ≤ x.svgHeight ∧
      ∀ d, parseSvgS L debug d x =
        if max x.svgHeight (max (T.drainHeight g + 1) (max (K.elemHeight s + 1) (K.drainHeight h + 1))) ≤ d then .ok t
        else .error .overflow := by
  obtain ⟨-, p, T, G, s2, s3, u, f, hp⟩ := parse_ok e
  have hpr : p.dom.live p.dom.rootId = true := f.adds.built.rootLive
  obtain ⟨g, t', e', -, q'⟩ := prepareText_depth f.built3 f.desc3 (K := T.keep p.dom.styleNode) (by rw [f.root3]; exact f.of2)
    (fun j hj => front_region f hj)
  have hsvg : ∃ n, p.dom.svgElement = .ok (some n) := by
    have e2 := e
    simp only [parseSvg, cssTexts_eq, f.proc, bind, Except.bind] at e2
    cases h : p.dom.svgElement with
    | error _ => rw [h] at e2; simp [okOrFail] at e2
    | ok v =>
      cases v with
      | none => rw [h] at e2; simp [okOrFail] at e2
      | some n => exact ⟨n, rfl⟩
  obtain ⟨n, hsvg⟩ := hsvg
  obtain ⟨c, hd⟩ := f.drain
  have ht : t' = t := by
    have e2 := e
    simp only [parseSvg, cssTexts_eq, f.proc, bind, Except.bind, hsvg, okOrFail, hd, f.resolve, e'] at e2
    exact Except.ok.inj e2
  subst ht
  have q3 := fun d => C91_drain f.adds.built.reachable f.adds.built.acyclic f.adds.desc styleNode_looks hpr f.adds.of d
  refine ⟨T, T.keep p.dom.styleNode, s2, fun n => p.dom.hasTagName n (.id .Style), g, f.is2, keep_height _ _, domOf_height L _ x _ _ _ T f.adds.is, ?_⟩
  · intro d
    simp only [hd, step_ok] at q3
    by_cases h1 : x.svgHeight ≤ d
    · simp only [parseSvgS, cssTexts_eq, processNodesS_enough L _ x d _ _ _ _ h1, f.proc, step_ok, bind, Except.bind, hsvg, okOrFail, q3 d]
      by_cases h2 : T.drainHeight (fun n => p.dom.hasTagName n (.id .Style)) + 1 ≤ d
      · simp only [h2, if_true, orFailS, f.resolve, step_ok, q' d]
        have hty : ∀ j, s3.nodeType j = s2.nodeType j := f.resolves.same.types
        rw [elemHeight_congr hty]
        by_cases h3 : max ((T.keep p.dom.styleNode).elemHeight s2 + 1) ((T.keep p.dom.styleNode).drainHeight g + 1) ≤ d
        · rw [if_pos h3, if_pos (by omega)]
        · rw [if_neg h3, if_neg (by omega)]
      · simp only [h2, if_false, orFailS]
        rw [if_neg (by omega)]
    · rw [if_neg (by omega)]
      simp only [parseSvgS, cssTexts_eq, processNodesS_short L _ x d _ _ _ _ _ f.proc (by omega), bind, Except.bind]

end Svgdom
