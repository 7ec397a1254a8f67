import Verif.Proof.Resolve
import Verif.Model.Text
import Verif.Spec.Text
import Verif.Proof.TextPairs

/-! Text processing. -/

namespace Svgdom

open Relation

/-! ### Bytes and characters -/

theorem utf8Char_ne (c : Char) : utf8Char c ≠ [] := by
  unfold utf8Char; simp only; split_ifs <;> simp

theorem char_space {c : Char} (h : c.toNat = 32) : c = ' ' := by
  have h1 : (' ' : Char).toNat = 32 := rfl
  exact Char.toNat_inj.1 (h.trans h1.symm)

theorem utf8Char_head (c : Char) : (utf8Char c).head? = some 32 ↔ c = ' ' := by
  constructor
  · intro h
    unfold utf8Char at h
    simp only at h
    split_ifs at h <;> simp at h
    · exact char_space h
    all_goals omega
  · rintro rfl; rfl

theorem utf8Char_last (c : Char) : (utf8Char c).getLast? = some 32 ↔ c = ' ' := by
  constructor
  · intro h
    unfold utf8Char at h
    simp only at h
    split_ifs at h <;> simp at h
    · exact char_space h
    all_goals omega
  · rintro rfl; rfl

theorem utf8_head (t : Str) : (utf8 t).head? = some 32 ↔ t.head? = some ' ' := by
  cases t with
  | nil => simp [utf8]
  | cons c cs =>
    have : (utf8 (c :: cs)).head? = (utf8Char c).head? := by
      unfold utf8
      rw [List.flatMap_cons, List.head?_append]
      cases h : utf8Char c with
      | nil => exact absurd h (utf8Char_ne c)
      | cons a l => rfl
    rw [this, utf8Char_head]; simp

theorem utf8_last (t : Str) : (utf8 t).getLast? = some 32 ↔ t.getLast? = some ' ' := by
  rcases List.eq_nil_or_concat t with rfl | ⟨cs, c, rfl⟩
  · simp [utf8]
  · have : (utf8 (cs ++ [c])).getLast? = (utf8Char c).getLast? := by
      unfold utf8
      rw [List.flatMap_append, List.getLast?_append]
      simp only [List.flatMap_cons, List.flatMap_nil, List.append_nil]
      cases h : (utf8Char c).getLast? with
      | none => rw [List.getLast?_eq_none_iff] at h; exact absurd h (utf8Char_ne c)
      | some a => rfl
    rw [List.concat_eq_append, this, utf8Char_last]; simp

theorem removeFirst_space {t : Str} (h : t.head? = some ' ') : removeFirst t = .ok t.tail := by
  cases t with
  | nil => simp at h
  | cons c cs =>
    simp only [List.head?_cons, Option.some.injEq] at h
    subst h
    rfl

/-! ### The state during text processing -/

/-- `s` is `s0` with other texts in text nodes and helper attributes on the nodes `m`. -/
structure TI (s0 s : St) (m : List NodeId) : Prop where
  built : Built s
  links : s.links = s0.links
  live : s.live = s0.live
  rootId : s.rootId = s0.rootId
  nextId : s.nextId = s0.nextId
  debug : s.debug = s0.debug
  slab : s.slab = s0.slab
  types : ∀ j, s.nodeType j = s0.nodeType j
  tags : ∀ j, s.tagName j = s0.tagName j
  ids : ∀ j, s.idOf j = s0.idOf j
  keys : ∀ j, (s.data j).storageKey = (s0.data j).storageKey
  linked : ∀ j, s.linkedNodes j = s0.linkedNodes j
  texts : ∀ j, s0.nodeType j ≠ .text → s.text j = s0.text j
  marked : ∀ j ∈ m, s0.live j = true ∧ (∀ a ∈ s0.attributes j, a.name ≠ .id .Space) ∧
    ∃ v, s.attributes j = s0.attributes j ++ [⟨.id .Space, .string v⟩]
  unmarked : ∀ j, j ∉ m → s.attributes j = s0.attributes j
  nodup : m.Nodup

theorem TI.refl {s : St} (hb : Built s) : TI s s [] where
  built := hb
  links := rfl
  live := rfl
  rootId := rfl
  nextId := rfl
  debug := rfl
  slab := rfl
  types := fun _ => rfl
  tags := fun _ => rfl
  ids := fun _ => rfl
  keys := fun _ => rfl
  linked := fun _ => rfl
  texts := fun _ _ => rfl
  marked := by simp
  unmarked := fun _ _ => rfl
  nodup := List.nodup_nil

theorem TI.describes {s0 s : St} {m : List NodeId} (h : TI s0 s m) {F : Forest} (hF : Describes s0 F) : Describes s F :=
  hF.frame h.links h.live

theorem TI.parent {s0 s : St} {m : List NodeId} (h : TI s0 s m) (n : NodeId) : s.parent n = s0.parent n := by
  simp only [St.parent, St.upgrade, h.links, h.live]

/-- Changing the text of a text node. -/
theorem TI.text {s0 s : St} {m : List NodeId} (h : TI s0 s m) {n : NodeId} (hn : s0.live n = true) (ht : s0.nodeType n = .text)
    (t : Str) : TI s0 (s.modText n t) m ∧ s.setText n t = .ok (s.modText n t) ∧
      (∀ j, (s.modText n t).text j = if j = n then t else s.text j) ∧ (∀ j d, (s.modText n t).modeOf j d = s.modeOf j d) := by
  have hnl : s.live n = true := by rw [h.live]; exact hn
  have hty : s.nodeType n = .text := by rw [h.types]; exact ht
  have hset : s.setText n t = .ok (s.modText n t) := by
    have : s.isElement n = false := decide_eq_false (by rw [hty]; simp)
    simp [St.setText, St.debugAssert, this, St.modText, bind, Except.bind, pure, Except.pure]
  have hd : ∀ j, j ≠ n → (s.modText n t).data j = s.data j := by intro j hj; simp [St.modText, hj]
  have key : ∀ {α : Type} (f : NodeData → α), (∀ d t, f { d with text := t } = f d) → ∀ j, f ((s.modText n t).data j) = f (s.data j) := by
    intro α f hf j
    by_cases hj : j = n
    · subst hj; simp only [St.modText, St.setD_data, if_true]; exact hf _ _
    · rw [hd j hj]
  have hat : ∀ j, (s.modText n t).attributes j = s.attributes j := key NodeData.attributes fun _ _ => rfl
  refine ⟨?_, hset, ?_, ?_⟩
  · exact {
      built := h.built.call (.setText n t) (by simp [Op.handles, hnl]) trivial trivial hset
      links := h.links
      live := h.live
      rootId := h.rootId
      nextId := h.nextId
      debug := h.debug
      slab := h.slab
      types := fun j => (key NodeData.nodeType (fun _ _ => rfl) j).trans (h.types j)
      tags := fun j => (key NodeData.tagName (fun _ _ => rfl) j).trans (h.tags j)
      ids := fun j => (key NodeData.id (fun _ _ => rfl) j).trans (h.ids j)
      keys := fun j => (key NodeData.storageKey (fun _ _ => rfl) j).trans (h.keys j)
      linked := fun j => (key NodeData.linkedNodes (fun _ _ => rfl) j).trans (h.linked j)
      texts := by
        intro j hj
        have hjn : j ≠ n := by rintro rfl; exact hj ht
        rw [← h.texts j hj, St.text, hd j hjn]; rfl
      marked := fun j hj => by rw [hat]; exact h.marked j hj
      unmarked := fun j hj => by rw [hat]; exact h.unmarked j hj
      nodup := h.nodup }
  · intro j
    by_cases hj : j = n
    · subst hj; simp [St.modText, St.text]
    · simp [St.text, hd j hj, hj]
  · intro j d
    have : (s.modText n t).parent j = s.parent j := rfl
    simp only [St.modeOf, this, St.spaceAt, hat]

/-- All `xml:space` values are strings. -/
def SpaceOk (s : St) (n : NodeId) : Prop := ∀ a ∈ s.attributes n, a.name = .id .Space → ∃ v, a.value = .string v

theorem getXmlspace_ok {s0 s : St} {m : List NodeId} (h : TI s0 s m) {n : NodeId} (hn : s0.live n = true)
    (ht : s0.nodeType n = .element) (hs : SpaceOk s0 n) (d : XmlSpace) :
    ∃ s' m', s.getXmlspace m n d = .ok (s', m', s.spaceAt n d) ∧ TI s0 s' m' ∧ (∀ j, s'.text j = s.text j) ∧
      (∀ j, s'.spaceAt j d = s.spaceAt j d) ∧ (∀ x, s'.spaceAt n x = s.spaceAt n d) ∧ (∀ j ∈ m', j ∈ m ∨ j = n) := by
  have hnl : s.live n = true := by rw [h.live]; exact hn
  have hty : s.nodeType n = .element := by rw [h.types]; exact ht
  unfold St.getXmlspace St.spaceAt
  by_cases hex : ∃ v, attrsGetValue (s.attributes n) (.id .Space) = some (.string v)
  · obtain ⟨v, hv⟩ := hex
    simp only [hv]
    refine ⟨s, m, rfl, h, fun _ => rfl, fun _ => rfl, fun _ => ?_, fun _ hj => .inl hj⟩
    simp only [hv]
  · have hno : ∀ a ∈ s.attributes n, a.name ≠ .id .Space := by
      intro a ha hname
      have hnd := h.built.inv.link.names n hnl
      have hg : attrsGet (s.attributes n) a.name = some a := attrsGet_mem hnd ha
      have : ∃ v, a.value = .string v := by
        by_cases hm : n ∈ m
        · obtain ⟨_, h2, v, h3⟩ := h.marked n hm
          rw [h3, List.mem_append, List.mem_singleton] at ha
          rcases ha with ha | rfl
          · exact absurd hname (h2 a ha)
          · exact ⟨v, rfl⟩
        · rw [h.unmarked n hm] at ha
          exact hs a ha hname
      obtain ⟨v, hv⟩ := this
      refine hex ⟨v, ?_⟩
      rw [attrsGetValue, ← hname, hg, Option.map_some, hv]
    have hget : attrsGetValue (s.attributes n) (.id .Space) = none := by
      cases hx : attrsGetValue (s.attributes n) (.id .Space) with
      | none => rfl
      | some w =>
        unfold attrsGetValue at hx
        cases hy : attrsGet (s.attributes n) (.id .Space) with
        | none => rw [hy] at hx; simp at hx
        | some a => exact absurd (attrsGet_some hy).2 (hno a (attrsGet_some hy).1)
    have hnm : n ∉ m := by
      intro hm
      obtain ⟨_, _, v, h3⟩ := h.marked n hm
      exact hno ⟨.id .Space, .string v⟩ (by rw [h3]; simp) rfl
    simp only [hget]
    obtain ⟨str, hstr, hval⟩ : ∃ str, (s.setXmlspace m n d =
        (s.setAttribute n ⟨.id .Space, .string str⟩).bind fun s => .ok (s, m ++ [n])) ∧
        (if str = st!"preserve" then XmlSpace.preserve else .default) = d := ⟨_, rfl, by cases d <;> decide⟩
    have he := St.setChecked_eq h.built.inv.link hnl ⟨.id .Space, .string str⟩ (fun _ => decide_eq_true hty)
    simp only [show (Attribute.mk (.id .Space) (.string str)).value.linkNode = none from rfl, Option.bind_none,
      stored_plain (a := ⟨.id .Space, .string str⟩) rfl] at he
    have hset : s.setAttribute n ⟨.id .Space, .string str⟩ = .ok (s.putAttr n ⟨.id .Space, .string str⟩) := by
      simp [St.setAttribute, he, bind, Except.bind, pure, Except.pure]
    have htg : s.target n (.id .Space) = none := by
      unfold St.target
      cases hy : attrsGet (s.attributes n) (.id .Space) with
      | none => rfl
      | some a => exact absurd (attrsGet_some hy).2 (hno a (attrsGet_some hy).1)
    have hat := putAttr_set s n ⟨.id .Space, .string str⟩ (h.built.inv.link.names n hnl)
    have hown : (s.putAttr n ⟨.id .Space, .string str⟩).attributes n = s.attributes n ++ [⟨.id .Space, .string str⟩] := by
      rw [hat.own, List.filter_eq_self.2]
      intro a ha
      simpa using hno a ha
    have hgn : attrsGetValue ((s.putAttr n ⟨.id .Space, .string str⟩).attributes n) (.id .Space) = some (.string str) := by
      rw [hown, attrsGetValue, attrsGet, List.find?_append, List.find?_eq_none.2 (by intro a ha; simpa using hno a ha)]
      simp
    refine ⟨s.putAttr n ⟨.id .Space, .string str⟩, m ++ [n], ?_, ?_, fun _ => rfl, ?_, ?_, ?_⟩
    · simp only [hstr, hset, bind, Except.bind, pure, Except.pure]
    · exact {
        built := h.built.call (.setAttribute n ⟨.id .Space, .string str⟩)
          (by simp [Op.handles, AttributeValue.linkNode, hnl]) trivial trivial hset
        links := h.links
        live := h.live
        rootId := h.rootId
        nextId := h.nextId
        debug := h.debug
        slab := h.slab
        types := h.types
        tags := h.tags
        ids := h.ids
        keys := h.keys
        linked := by
          intro j
          rw [← h.linked j]
          simp [St.putAttr, St.linkedNodes, htg, AttributeValue.linkNode]
        texts := h.texts
        marked := by
          intro j hj
          rw [List.mem_append, List.mem_singleton] at hj
          rcases hj with hj | rfl
          · have hjn : j ≠ n := by rintro rfl; exact hnm hj
            rw [hat.others j hjn]
            exact h.marked j hj
          · rw [hown, ← h.unmarked j hnm]
            exact ⟨hn, hno, str, rfl⟩
        unmarked := by
          intro j hj
          rw [List.mem_append, List.mem_singleton, not_or] at hj
          rw [hat.others j hj.2]
          exact h.unmarked j hj.1
        nodup := by
          rw [List.nodup_append]
          refine ⟨h.nodup, by simp, ?_⟩
          intro a ha b hb
          rw [List.mem_singleton] at hb
          subst hb
          rintro rfl
          exact hnm ha }
    · intro j
      by_cases hj : j = n
      · subst hj
        simp only [hgn, hget]; exact hval
      · simp only [hat.others j hj]
    · intro x
      simp only [hgn]; exact hval
    · intro j hj
      rw [List.mem_append, List.mem_singleton] at hj; exact hj

/-- A text node that can be processed. -/
structure TextNode (s0 : St) (n : NodeId) : Prop where
  live : s0.live n = true
  type : s0.nodeType n = .text
  parent : ∃ p, s0.parent n = some p ∧ s0.live p = true ∧ s0.nodeType p = .element ∧ SpaceOk s0 p

theorem parentXmlspace_ok {s0 s : St} {m : List NodeId} (h : TI s0 s m) {n : NodeId} (hn : TextNode s0 n) (d : XmlSpace) :
    ∃ s' m', s.parentXmlspace m n d = .ok (s', m', s.modeOf n d) ∧ TI s0 s' m' ∧ (∀ j, s'.text j = s.text j) ∧
      (∀ j, s'.modeOf j d = s.modeOf j d) ∧ (∀ j ∈ m', j ∈ m ∨ s0.parent n = some j) := by
  obtain ⟨p, hp, hpl, hpt, hps⟩ := hn.parent
  have : s.parent n = some p := by rw [h.parent]; exact hp
  obtain ⟨s', m', e, h1, h2, h3, -, h5⟩ := getXmlspace_ok h hpl hpt hps d
  refine ⟨s', m', by simp only [St.parentXmlspace, this, e, St.modeOf], h1, h2, ?_, ?_⟩
  · intro j
    have : s'.parent j = s.parent j := by rw [h1.parent, h.parent]
    simp only [St.modeOf, this, h3]
  · intro j hj
    rcases h5 j hj with hj | rfl
    · exact .inl hj
    · exact .inr hp

theorem trimLoop_clean (space : XmlSpace) : ∀ (t : Str) (prev : Char), Clean (trimLoop space prev t)
  | [], _ => by simp [Clean, trimLoop]
  | c :: cs, prev => by
    have key : ∀ c : Char, (c ≠ '\r' ∧ c ≠ '\n' ∧ c ≠ '\t') →
        Clean (if space = .default ∧ c = ' ' ∧ c = prev then trimLoop space prev cs else c :: trimLoop space c cs) := by
      intro c hc
      split
      · exact trimLoop_clean space cs prev
      · intro x hx
        rcases List.mem_cons.1 hx with rfl | hx
        · exact hc
        · exact trimLoop_clean space cs _ x hx
    unfold trimLoop
    simp only
    apply key
    split
    · exact ⟨by decide, by decide, by decide⟩
    · next h => simp only [not_or] at h; exact h

theorem trimText_clean (t : Str) (space : XmlSpace) : Clean (trimText t space) := trimLoop_clean space t '0'

theorem Clean.sub {t u : Str} (h : Clean t) (hs : ∀ c ∈ u, c ∈ t) : Clean u := fun c hc => h c (hs c hc)

theorem trimNodes_ok {s0 : St} {space : XmlSpace} : ∀ (l : List NodeId) {s : St} {m : List NodeId}, TI s0 s m →
    (∀ n ∈ l, s0.nodeType n = .text → TextNode s0 n) → l.Nodup →
    ∃ s' m', s.trimNodes m space l = .ok (s', m') ∧ TI s0 s' m' ∧
      (∀ j, s'.text j = if j ∈ l ∧ s0.nodeType j = .text then trimText (s.text j) (s.modeOf j space) else s.text j) ∧
      (∀ j, s'.modeOf j space = s.modeOf j space) ∧
      (∀ j ∈ m', j ∈ m ∨ ∃ n ∈ l, s0.nodeType n = .text ∧ s0.parent n = some j)
  | [], s, m, h, _, _ => ⟨s, m, rfl, h, by simp, fun _ => rfl, fun _ hj => .inl hj⟩
  | n :: ns, s, m, h, hl, hnd => by
    have hnd := List.nodup_cons.1 hnd
    by_cases ht : s0.nodeType n = .text
    · have hn := hl n (by simp) ht
      obtain ⟨s1, m1, e1, h1, t1, o1, k1⟩ := parentXmlspace_ok h hn space
      obtain ⟨h2, e2, t2, o2⟩ := h1.text hn.live ht (trimText (s1.text n) (s.modeOf n space))
      obtain ⟨s3, m3, e3, h3, t3, o3, k3⟩ := trimNodes_ok (space := space) ns h2 (fun j hj => hl j (by simp [hj])) hnd.2
      have hty : s.isText n = true := decide_eq_true (by rw [h.types]; exact ht)
      refine ⟨s3, m3, ?_, h3, ?_, ?_, ?_⟩
      · simp only [St.trimNodes, hty, if_true, e1, e2, bind, Except.bind, e3]
      · intro j
        rw [t3, o2, o1, t2, t1]
        by_cases hj : j = n
        · subst hj
          rw [if_neg (fun hx => hnd.1 hx.1), if_pos rfl, if_pos ⟨by simp, ht⟩]
        · rw [if_neg hj, t1]
          simp only [List.mem_cons, hj, false_or]
      · intro j; rw [o3, o2, o1]
      · intro j hj
        rcases k3 j hj with hj | ⟨x, hx, hx2⟩
        · rcases k1 j hj with hj | hj
          · exact .inl hj
          · exact .inr ⟨n, by simp, ht, hj⟩
        · exact .inr ⟨x, by simp [hx], hx2⟩
    · obtain ⟨s3, m3, e3, h3, t3, o3, k3⟩ := trimNodes_ok (space := space) ns h (fun j hj => hl j (by simp [hj])) hnd.2
      have hty : ¬ s.isText n = true := by
        rw [St.isText, decide_eq_true_eq, h.types]; exact ht
      refine ⟨s3, m3, ?_, h3, ?_, o3, ?_⟩
      · simp only [St.trimNodes, if_neg hty, e3]
      · intro j
        rw [t3]
        by_cases hj : j = n
        · subst hj
          rw [if_neg (fun hx => ht hx.2), if_neg (fun hx => ht hx.2)]
        · simp only [List.mem_cons, hj, false_or]
      · intro j hj
        rcases k3 j hj with hj | ⟨x, hx, hx2⟩
        · exact .inl hj
        · exact .inr ⟨x, by simp [hx], hx2⟩

/-- Every node with its depth. -/
def Trees.depths : Nat → Trees → List (NodeId × Nat)
  | _, .nil => []
  | d, .cons i K R => (i, d) :: (K.depths (d + 1) ++ R.depths d)

theorem Trees.depths_fst : ∀ (d : Nat) (T : Trees), (T.depths d).map Prod.fst = T.pre
  | _, .nil => rfl
  | d, .cons i K R => by simp [Trees.depths, Trees.pre, Trees.depths_fst (d + 1) K, Trees.depths_fst d R]

/-- `collect_text` finds the text nodes in document order. -/
theorem collectText_ok {s : St} (hb : Built s) {F : Forest} (hF : Describes s F) : ∀ (T : Trees) (k depth : Nat) (l : List NodeId),
    T.Of F l → (∀ j ∈ T.pre, s.live j = true) → (∀ j ∈ T.pre, F.kids j ≠ [] → s.nodeType j = .element) → T.pre.length ≤ k →
    ∃ r, s.collectText k depth l = .ok r ∧ r = (T.depths depth).filter fun x => s.isText x.1
  | .nil, k, depth, l, hT, _, _, _ => by
    cases hT
    refine ⟨[], ?_, rfl⟩
    cases k <;> rfl
  | .cons i K R, k, depth, l, hT, hl, hk, hf => by
    obtain ⟨l', rfl, hK, hR⟩ := hT
    simp only [Trees.pre, List.length_cons, List.length_append, List.mem_cons, List.mem_append] at hf hl hk
    obtain ⟨k, rfl⟩ : ∃ m, k = m + 1 := ⟨k - 1, by omega⟩
    have hi := hl i (.inl rfl)
    obtain ⟨r2, e2, f2⟩ := collectText_ok hb hF R k depth l' hR (fun j hj => hl j (.inr (.inr hj)))
      (fun j hj => hk j (.inr (.inr hj))) (by omega)
    obtain ⟨r1, e1, f1⟩ := collectText_ok hb hF K k (depth + 1) (F.kids i) hK (fun j hj => hl j (.inr (.inl hj)))
      (fun j hj => hk j (.inr (.inl hj))) (by omega)
    by_cases ht : s.isText i = true
    · have hkn : F.kids i = [] := by
        by_contra hne
        have := hk i (.inl rfl) hne
        simp only [St.isText, decide_eq_true_eq] at ht
        rw [ht] at this; simp at this
      rw [hkn] at hK
      cases hK.nil_list
      refine ⟨(i, depth) :: r2, ?_, ?_⟩
      · simp only [St.collectText, ht, if_true, e2, bind, Except.bind, pure, Except.pure, List.cons_append, List.nil_append]
      · simp [Trees.depths, ht, f2]
    · by_cases he : s.isElement i = true
      · refine ⟨r1 ++ r2, ?_, ?_⟩
        · simp only [St.collectText, if_neg ht, he, if_true, childList_eq hb.inv hF hi, e1, e2, bind, Except.bind, pure,
            Except.pure]
        · rw [f1, f2]
          simp [Trees.depths, ht]
      · have hkn : F.kids i = [] := by
          by_contra hne
          exact he (decide_eq_true (hk i (.inl rfl) hne))
        rw [hkn] at hK
        cases hK.nil_list
        refine ⟨r2, ?_, ?_⟩
        · simp only [St.collectText, if_neg ht, if_neg he, e2, bind, Except.bind, pure, Except.pure, List.nil_append]
        · simp [Trees.depths, ht, f2]

theorem utf8_cons_length (c : Char) (t : Str) : (utf8 (c :: t)).length = (utf8Char c).length + (utf8 t).length := by
  unfold utf8; rw [List.flatMap_cons, List.length_append]

theorem utf8_length_zero {t : Str} (h : (utf8 t).length = 0) : t = [] := by
  cases t with
  | nil => rfl
  | cons c t =>
    rw [utf8_cons_length] at h
    have := List.length_pos_iff.2 (utf8Char_ne c)
    omega

theorem utf8_length_one {t : Str} (h : (utf8 t).length = 1) : ∃ c, t = [c] := by
  cases t with
  | nil => simp [utf8] at h
  | cons c t =>
    rw [utf8_cons_length] at h
    have := List.length_pos_iff.2 (utf8Char_ne c)
    exact ⟨c, by rw [utf8_length_zero (t := t) (by omega)]⟩

theorem starts_utf8 (t : Str) : (utf8 t).head? = some 32 ↔ startsSp t = true := by rw [utf8_head, startsSp, decide_eq_true_eq]
theorem ends_utf8 (t : Str) : (utf8 t).getLast? = some 32 ↔ endsSp t = true := by rw [utf8_last, endsSp, decide_eq_true_eq]

theorem processSingle_ok {s0 s : St} {m : List NodeId} (h : TI s0 s m) {n : NodeId} (hn : TextNode s0 n) :
    ∃ s', s.processSingle n = .ok s' ∧ TI s0 s' m ∧ s'.text = Texts.put s.text n (singleP (s.text n)) := by
  have put : ∀ t, t = singleP (s.text n) → TI s0 (s.modText n t) m ∧ (s.modText n t).text = Texts.put s.text n (singleP (s.text n)) := by
    rintro t rfl
    obtain ⟨h1, _, h3, _⟩ := h.text hn.live hn.type (singleP (s.text n))
    exact ⟨h1, funext h3⟩
  have same : s.text n = singleP (s.text n) → s.text = Texts.put s.text n (singleP (s.text n)) := by
    intro he
    funext j
    by_cases hj : j = n
    · subst hj; rw [put_self]; exact he
    · rw [put_other hj]
  unfold St.processSingle
  simp only
  split_ifs with c1 c2 c3
  · refine ⟨s, rfl, h, same ?_⟩
    rw [utf8_length_zero c1]; decide
  · obtain ⟨c, hc⟩ := utf8_length_one c2
    have : s.text n = [' '] := by
      have h1 := (utf8_head _).1 c3
      rw [hc] at h1 ⊢
      simp at h1; rw [h1]
    obtain ⟨x, y⟩ := put [] (by rw [this]; decide)
    exact ⟨_, rfl, x, y⟩
  · refine ⟨s, rfl, h, same ?_⟩
    obtain ⟨c, hc⟩ := utf8_length_one c2
    have hne : ¬ c = ' ' := by
      intro he
      exact c3 ((utf8_head _).2 (by rw [hc, he]; rfl))
    rw [hc]
    simp [singleP, startsSp, endsSp, hne]
  all_goals
    have hne : s.text n ≠ [' '] := by
      intro he
      rw [he] at c2
      exact c2 (by decide)
    rename_i c4 c5
    rw [starts_utf8] at c4
    rw [ends_utf8] at c5
    first
    | (simp only [removeFirst_space (of_decide_eq_true c4), bind, Except.bind, pure, Except.pure])
    | simp only [bind, Except.bind, pure, Except.pure]
    obtain ⟨x, y⟩ := put _ (show _ = singleP (s.text n) by simp only [singleP, if_neg hne, c4, c5, if_true, if_false, removeLast]; rfl)
    exact ⟨_, rfl, x, y⟩

/-- The texts of two nodes change. -/
structure PairEffect (s s' : St) (n1 n2 : NodeId) (p : Str × Str) : Prop where
  first : s'.text n1 = p.1
  second : s'.text n2 = p.2
  others : ∀ j, j ≠ n1 → j ≠ n2 → s'.text j = s.text j
  mode : ∀ j d, s'.modeOf j d = s.modeOf j d

theorem PairEffect.same {s : St} {n1 n2 : NodeId} {p : Str × Str} (hp : (s.text n1, s.text n2) = p) : PairEffect s s n1 n2 p :=
  ⟨by rw [← hp], by rw [← hp], fun _ _ _ => rfl, fun _ _ => rfl⟩

theorem PairEffect.putFirst {s0 s : St} {m : List NodeId} (h : TI s0 s m) {n1 n2 : NodeId} (h1 : TextNode s0 n1) (hne : n1 ≠ n2) {t : Str}
    {p : Str × Str} (hp : (t, s.text n2) = p) : TI s0 (s.modText n1 t) m ∧ PairEffect s (s.modText n1 t) n1 n2 p := by
  obtain ⟨a, _, b, c⟩ := h.text h1.live h1.type t
  refine ⟨a, ?_, ?_, fun j hj _ => ?_, c⟩
  · rw [b, if_pos rfl, ← hp]
  · rw [b, if_neg (fun h => hne h.symm), ← hp]
  · rw [b, if_neg hj]

theorem PairEffect.putSecond {s0 s : St} {m : List NodeId} (h : TI s0 s m) {n1 n2 : NodeId} (h2 : TextNode s0 n2) (hne : n1 ≠ n2) {t : Str}
    {p : Str × Str} (hp : (s.text n1, t) = p) : TI s0 (s.modText n2 t) m ∧ PairEffect s (s.modText n2 t) n1 n2 p := by
  obtain ⟨a, _, b, c⟩ := h.text h2.live h2.type t
  refine ⟨a, ?_, ?_, fun j _ hj => ?_, c⟩
  · rw [b, if_neg hne, ← hp]
  · rw [b, if_pos rfl, ← hp]
  · rw [b, if_neg hj]

/-- The space between two texts. -/
theorem processBorder_ok {s0 s : St} {m : List NodeId} (h : TI s0 s m) {n1 n2 : NodeId} (h1 : TextNode s0 n1) (h2 : TextNode s0 n2)
    (hne : n1 ≠ n2) (d1 d2 : Nat) (sp1 sp2 : XmlSpace) :
    ∃ s', s.processBorder n1 n2 d1 d2 sp1 sp2 (utf8 (s.text n1)).getLast? (utf8 (s.text n2)).head? = .ok s' ∧ TI s0 s' m ∧
      PairEffect s s' n1 n2 (borderP (decide (d1 < d2)) sp1 sp2 (s.text n1) (s.text n2)) := by
  unfold St.processBorder
  split
  · next hc =>
    have he : endsSp (s.text n1) = true := (ends_utf8 _).1 hc.1
    have hs : startsSp (s.text n2) = true := (starts_utf8 _).1 (by rw [← hc.2]; exact hc.1)
    have hb : borderP (decide (d1 < d2)) sp1 sp2 (s.text n1) (s.text n2) =
        if d1 < d2 then (if sp2 = .default then (s.text n1, (s.text n2).tail) else (s.text n1, s.text n2))
        else if sp1 = .default ∧ sp2 = .default then ((s.text n1).dropLast, s.text n2)
        else if sp1 = .preserve ∧ sp2 = .default then (s.text n1, (s.text n2).tail)
        else (s.text n1, s.text n2) := by
      simp only [borderP, he, hs, Bool.and_self, if_true, decide_eq_true_eq]
    have first : ∃ s', (do let t ← removeFirst (s.text n2); pure (s.modText n2 t) : Except Err St) = .ok s' ∧ TI s0 s' m ∧
        PairEffect s s' n1 n2 (s.text n1, (s.text n2).tail) := by
      simp only [removeFirst_space (of_decide_eq_true hs), bind, Except.bind, pure, Except.pure]
      obtain ⟨a, b⟩ := PairEffect.putSecond h h2 hne (t := (s.text n2).tail) rfl
      exact ⟨_, rfl, a, b⟩
    rw [hb]
    split_ifs
    · exact first
    · exact ⟨s, rfl, h, .same rfl⟩
    · obtain ⟨a, b⟩ := PairEffect.putFirst h h1 hne (t := removeLast (s.text n1)) rfl
      exact ⟨_, rfl, a, b⟩
    · exact first
    · exact ⟨s, rfl, h, .same rfl⟩
  · next hc =>
    refine ⟨s, rfl, h, .same ?_⟩
    rw [borderP, if_neg]
    intro hx
    rw [Bool.and_eq_true, ← ends_utf8, ← starts_utf8] at hx
    exact hc ⟨hx.1, by rw [hx.1, hx.2]⟩

theorem processEnds_ok {s0 s : St} {m : List NodeId} (h : TI s0 s m) {n1 n2 : NodeId} (h1 : TextNode s0 n1) (h2 : TextNode s0 n2)
    (hne : n1 ≠ n2) (sp1 sp2 : XmlSpace) (isFirst isLast : Bool) (u w : Str)
    (hc : startsSp u = true → startsSp (s.text n1) = true ∨ s.text n1 = []) :
    ∃ s', s.processEnds n1 n2 sp1 sp2 isFirst isLast (utf8 u).head? (utf8 w).getLast? = .ok s' ∧ TI s0 s' m ∧
      PairEffect s s' n1 n2 (endsP isFirst isLast sp1 sp2 (startsSp u) (endsSp w) (s.text n1) (s.text n2)) := by
  unfold St.processEnds endsP
  simp only [starts_utf8, ends_utf8]
  by_cases g1 : isFirst = true ∧ startsSp u = true ∧ sp1 = .default ∧ (!(s.text n1).isEmpty) = true
  · have hh : startsSp (s.text n1) = true := by
      rcases hc g1.2.1 with e | e
      · exact e
      · have := g1.2.2.2; rw [e] at this; simp at this
    rw [if_pos g1, if_pos (by obtain ⟨x, y, z, w⟩ := g1; rw [x, y, z, w]; rfl)]
    simp only [removeFirst_space (of_decide_eq_true hh), bind, Except.bind, pure, Except.pure]
    obtain ⟨a, b⟩ := PairEffect.putFirst h h1 hne (t := (s.text n1).tail) rfl
    exact ⟨_, rfl, a, b⟩
  · have g1' : ¬ (isFirst && startsSp u && decide (sp1 = .default) && !(s.text n1).isEmpty) = true := by
      intro hx
      simp only [Bool.and_eq_true, decide_eq_true_eq] at hx
      exact g1 ⟨hx.1.1.1, hx.1.1.2, hx.1.2, hx.2⟩
    rw [if_neg g1, if_neg g1']
    by_cases g2 : isLast = true ∧ endsSp w = true ∧ (!(s.text n2).isEmpty) = true ∧ sp2 = .default
    · rw [if_pos g2, if_pos (by obtain ⟨x, y, z, w⟩ := g2; rw [x, y, z, w]; rfl)]
      obtain ⟨a, b⟩ := PairEffect.putSecond h h2 hne (t := removeLast (s.text n2)) rfl
      exact ⟨_, rfl, a, b⟩
    · have g2' : ¬ (isLast && endsSp w && !(s.text n2).isEmpty && decide (sp2 = .default)) = true := by
        intro hx
        simp only [Bool.and_eq_true, decide_eq_true_eq] at hx
        exact g2 ⟨hx.1.1.1, hx.1.1.2, hx.1.2, hx.2⟩
      rw [if_neg g2, if_neg g2']
      exact ⟨s, rfl, h, .same rfl⟩

theorem processTail_ok {s0 s : St} {m : List NodeId} (h : TI s0 s m) {n1 n2 : NodeId} (h1 : TextNode s0 n1) (hne : n1 ≠ n2)
    (isLast : Bool) (u : Str) : TI s0 (s.processTail n1 n2 isLast (utf8 u).getLast?) m ∧
      PairEffect s (s.processTail n1 n2 isLast (utf8 u).getLast?) n1 n2 (tailP isLast (endsSp u) (s.text n1) (s.text n2)) := by
  unfold St.processTail tailP
  simp only [ends_utf8]
  by_cases g : isLast = true ∧ endsSp u = true ∧ (!(s.text n1).isEmpty) = true ∧ (s.text n2).isEmpty = true ∧
      (s.text n1).getLast? = some ' '
  · rw [if_pos g, if_pos (by obtain ⟨x, y, z, w, v⟩ := g; rw [x, y, z, w, show endsSp (s.text n1) = true from decide_eq_true v]; rfl)]
    exact PairEffect.putFirst h h1 hne rfl
  · rw [if_neg g, if_neg (by
      intro hx
      simp only [Bool.and_eq_true, endsSp, decide_eq_true_eq] at hx
      exact g ⟨hx.1.1.1.1, decide_eq_true hx.1.1.1.2, hx.1.1.2, hx.1.2, hx.2⟩)]
    exact ⟨h, .same rfl⟩

theorem processPairs_ok {s0 : St} {space : XmlSpace} {μ : NodeId → XmlSpace} (all : List NodeId) : ∀ (l : List (NodeId × Nat))
    {s : St} {m : List NodeId}
    (isFirst : Bool) (last : Option NodeId), TI s0 s m → (∀ x ∈ l, TextNode s0 x.1 ∧ x.1 ∈ all) → (l.map (·.1)).Nodup →
    (∀ n, last = some n → TextNode s0 n ∧ n ∈ all ∧ n ∉ l.map (·.1)) → (∀ j, s.modeOf j space = μ j) →
    ∃ s' m', St.processPairs space s m isFirst last l = .ok (s', m') ∧ TI s0 s' m' ∧ s'.text = pairsT μ s.text isFirst last l ∧
      (∀ j ∈ m', j ∈ m ∨ ∃ n ∈ all, s0.nodeType n = .text ∧ s0.parent n = some j)
  | [], s, m, isFirst, last, h, _, _, _, _ => ⟨s, m, rfl, h, rfl, fun _ hj => .inl hj⟩
  | [(a, b)], s, m, isFirst, last, h, _, _, _, _ => ⟨s, m, rfl, h, (pairsT_one _ _ _ _ _).symm, fun _ hj => .inl hj⟩
  | (n1, d1) :: (n2, d2) :: rest, s, m, isFirst, last, h, hl, hn, hlast, hμ => by
    obtain ⟨t1, t1m⟩ := hl (n1, d1) (by simp)
    obtain ⟨t2, t2m⟩ := hl (n2, d2) (by simp)
    simp only at t1 t1m t2 t2m
    simp only [List.map_cons, List.nodup_cons, List.mem_cons, not_or] at hn
    obtain ⟨node1, hnode⟩ : ∃ x, x = pairNode s.text last n1 := ⟨_, rfl⟩
    have hnd : TextNode s0 node1 ∧ node1 ∈ all ∧ node1 ≠ n2 ∧ node1 ∉ (rest.map (·.1)) := by
      rw [hnode, pairNode]
      split
      · cases hla : last with
        | none => exact ⟨t1, t1m, hn.1.1, hn.1.2⟩
        | some x =>
          obtain ⟨x1, x2, x3⟩ := hlast x hla
          simp only [List.map_cons, List.mem_cons, not_or] at x3
          exact ⟨x1, x2, x3.2.1, x3.2.2⟩
      · exact ⟨t1, t1m, hn.1.1, hn.1.2⟩
    obtain ⟨tn, tm, tne, tr⟩ := hnd
    obtain ⟨s1, m1, e1, h1, x1, o1, k1⟩ := parentXmlspace_ok h tn space
    obtain ⟨s2, m2, e2, h2, x2, o2, k2⟩ := parentXmlspace_ok h1 t2 space
    have ht2 : s2.text = s.text := funext fun j => by rw [x2, x1]
    rw [hμ] at e1
    rw [o1, hμ] at e2
    obtain ⟨s3, e3, h3, y3⟩ := processBorder_ok h2 tn t2 tne d1 d2 (μ node1) (μ n2)
    obtain ⟨s4, e4, h4, y4⟩ := processEnds_ok h3 tn t2 tne (μ node1) (μ n2) isFirst rest.isEmpty (s2.text node1) (s2.text n2) (by
      intro hs
      rw [y3.first]
      exact borderP_first hs)
    obtain ⟨h5, y5⟩ := processTail_ok h4 (n2 := n2) tn tne rest.isEmpty (s2.text node1)
    obtain ⟨s5, hs5⟩ : ∃ x, x = s4.processTail node1 n2 rest.isEmpty (utf8 (s2.text node1)).getLast? := ⟨_, rfl⟩
    rw [← hs5] at h5 y5
    rw [y4.first, y4.second, y3.first, y3.second, ht2] at y5
    have htx : s5.text = pairStep μ s.text isFirst rest.isEmpty (decide (d1 < d2)) node1 n2 := by
      funext j
      simp only [pairStep, pairP]
      by_cases j2 : j = n2
      · subst j2; rw [put_self, y5.second]
      · rw [put_other j2]
        by_cases j1 : j = node1
        · subst j1; rw [put_self, y5.first]
        · rw [put_other j1, y5.others j j1 j2, y4.others j j1 j2, y3.others j j1 j2, ht2]
    obtain ⟨s6, m6, e6, h6, x6, k6⟩ := processPairs_ok (space := space) (μ := μ) all ((n2, d2) :: rest) false
      (if (trimStr (s5.text node1)).isEmpty then last else some node1) h5
      (fun x hx => hl x (by simp at hx ⊢; tauto))
      (by simp only [List.map_cons, List.nodup_cons]; exact hn.2)
      (by
        intro x hx
        split at hx
        · obtain ⟨y1, y2, y3⟩ := hlast x hx
          refine ⟨y1, y2, ?_⟩
          simp only [List.map_cons, List.mem_cons, not_or] at y3 ⊢
          exact y3.2
        · cases hx
          refine ⟨tn, tm, ?_⟩
          simp only [List.map_cons, List.mem_cons, not_or]
          exact ⟨tne, tr⟩)
      (fun j => by rw [y5.mode, y4.mode, y3.mode, o2, o1, hμ])
    refine ⟨s6, m6, ?_, h6, ?_, ?_⟩
    · rw [St.processPairs]
      simp only [bind, Except.bind]
      have hn' : (if (s.text n1).isEmpty then last.getD n1 else n1) = node1 := hnode.symm
      rw [hn', e1]
      simp only [e2, e3, e4, ← hs5]
      exact e6
    · rw [x6, pairsT, ← hnode, htx]
    · intro j hj
      rcases k6 j hj with hj | hj
      · rcases k2 j hj with hj | hj
        · rcases k1 j hj with hj | hj
          · exact .inl hj
          · exact .inr ⟨node1, tm, tn.type, hj⟩
        · exact .inr ⟨n2, t2m, t2.type, hj⟩
      · exact .inr hj

/-! ### Elements -/

/-- What text processing expects of a node of the tree. -/
structure Region (s0 : St) (F : Forest) (j : NodeId) : Prop where
  live : s0.live j = true
  kids : F.kids j ≠ [] → s0.nodeType j = .element
  space : SpaceOk s0 j
  text : s0.nodeType j = .text → s0.attributes j = [] ∧ s0.linkedNodes j = []

theorem pre_parent {F : Forest} : ∀ {T : Trees} {l : List NodeId}, T.Of F l → ∀ j ∈ T.pre, j ∈ l ∨ ∃ p ∈ T.pre, j ∈ F.kids p
  | .nil, l, _, j, hj => by simp [Trees.pre] at hj
  | .cons i K R, l, hT, j, hj => by
    obtain ⟨l', rfl, hK, hR⟩ := hT
    simp only [Trees.pre, List.mem_cons, List.mem_append] at hj ⊢
    rcases hj with rfl | hj | hj
    · exact .inl (.inl rfl)
    · rcases pre_parent hK j hj with h | ⟨p, hp, h⟩
      · exact .inr ⟨i, .inl rfl, h⟩
      · exact .inr ⟨p, .inr (.inl hp), h⟩
    · rcases pre_parent hR j hj with h | ⟨p, hp, h⟩
      · exact .inl (.inr h)
      · exact .inr ⟨p, .inr (.inr hp), h⟩

theorem textNode_of {s0 : St} {F : Forest} (hF : Describes s0 F) {n : NodeId} (hn : Region s0 F n) {K : Trees}
    (hK : K.Of F (F.kids n)) (hr : ∀ j ∈ K.pre, Region s0 F j) {j : NodeId} (hj : j ∈ K.pre) (ht : s0.nodeType j = .text) :
    TextNode s0 j := by
  have hjl := (hr j hj).live
  refine ⟨hjl, ht, ?_⟩
  obtain ⟨p, hp, hm⟩ : ∃ p, Region s0 F p ∧ j ∈ F.kids p := by
    rcases pre_parent hK j hj with h | ⟨p, hp, h⟩
    · exact ⟨n, hn, h⟩
    · exact ⟨p, hr p hp, h⟩
  refine ⟨p, ?_, hp.live, hp.kids (List.ne_nil_of_mem hm), hp.space⟩
  rw [hF.shows.parent j hjl]
  exact (hF.wf.kids p hp.live j hm).2

theorem spaceAt_self (s : St) (n : NodeId) (d : XmlSpace) : s.spaceAt n (s.spaceAt n d) = s.spaceAt n d := by
  unfold St.spaceAt
  cases attrsGetValue (s.attributes n) (.id .Space) with
  | none => rfl
  | some v => cases v <;> rfl

/-- The text nodes of a sequence of trees with their depths. -/
def St.textDepths (s : St) (K : Trees) : List (NodeId × Nat) := (K.depths 0).filter fun x => s.isText x.1

theorem St.textDepths_fst (s : St) (K : Trees) : (s.textDepths K).map Prod.fst = K.pre.filter fun j => s.isText j := by
  have : ∀ l : List (NodeId × Nat), (l.filter fun x => s.isText x.1).map Prod.fst = (l.map Prod.fst).filter fun j => s.isText j := by
    intro l
    induction l with
    | nil => rfl
    | cons x l ih => by_cases hx : s.isText x.1 = true <;> simp [hx, ih]
  rw [St.textDepths, this, Trees.depths_fst]

/-- What becomes of the texts below an element, `K` being the trees below it and `sp` its mode. -/
def St.elementT (s : St) (K : Trees) (sp : XmlSpace) (τ : Texts) : Texts :=
  groupT (fun j => s.modeOf j sp) sp (trimT (fun j => s.modeOf j sp) τ (K.pre.filter fun j => s.isText j)) (s.textDepths K)

theorem elementT_outside {s : St} {K : Trees} {sp : XmlSpace} {τ : Texts} {j : NodeId} (hj : ¬ (j ∈ K.pre ∧ s.nodeType j = .text)) :
    s.elementT K sp τ j = τ j := by
  have : j ∉ K.pre.filter fun j => s.isText j := by
    rw [List.mem_filter, St.isText, decide_eq_true_eq]; exact hj
  rw [St.elementT, groupT_outside (by rw [St.textDepths_fst]; exact this), trimT, if_neg this]

theorem elementT_clean {s : St} {K : Trees} {sp : XmlSpace} {τ : Texts} {j : NodeId} (hj : j ∈ K.pre ∧ s.nodeType j = .text) :
    Clean (s.elementT K sp τ j) := by
  have : j ∈ K.pre.filter fun j => s.isText j := by
    rw [List.mem_filter, St.isText, decide_eq_true_eq]; exact hj
  refine Clean.sub (trimText_clean (τ j) (s.modeOf j sp)) fun c hc => ?_
  have h := (groupT_shrunk _ _ _ _ j).mem (show c ∈ groupT _ _ _ _ j from hc)
  rw [trimT, if_pos this] at h
  exact h

theorem elementT_congr {s : St} {K : Trees} {sp : XmlSpace} {τ σ : Texts} (h : ∀ j ∈ K.pre, τ j = σ j) :
    ∀ j ∈ K.pre, s.elementT K sp τ j = s.elementT K sp σ j := by
  refine groupT_congr (fun _ _ => rfl) sp _ _ _ ?_ ?_
  · intro x hx
    have : x.1 ∈ (s.textDepths K).map Prod.fst := List.mem_map_of_mem hx
    rw [St.textDepths_fst] at this
    exact (List.mem_filter.1 this).1
  · intro j hj
    simp only [trimT, h j hj]

/-- Nodes marked below an element. -/
theorem parent_in {s0 : St} {F : Forest} (hF : Describes s0 F) {n : NodeId} (hn : Region s0 F n) {K : Trees}
    (hK : K.Of F (F.kids n)) (hr : ∀ j ∈ K.pre, Region s0 F j) {j p : NodeId} (hj : j ∈ K.pre) (hp : s0.parent j = some p) :
    p = n ∨ p ∈ K.pre := by
  have hjl := (hr j hj).live
  rw [hF.shows.parent j hjl] at hp
  rcases pre_parent hK j hj with h | ⟨q, hq, h⟩
  · left
    rw [(hF.wf.kids n hn.live j h).2] at hp
    exact (Option.some.inj hp).symm
  · right
    rw [(hF.wf.kids q (hr q hq).live j h).2] at hp
    rw [← Option.some.inj hp]; exact hq

theorem prepareTextChildren_ok {s0 s : St} {m : List NodeId} (h : TI s0 s m) (hb0 : Built s0) {F : Forest} (hF : Describes s0 F)
    {n : NodeId} (hn : Region s0 F n) (hel : s0.nodeType n = .element) {K : Trees} (hK : K.Of F (F.kids n))
    (hr : ∀ j ∈ K.pre, Region s0 F j) (sp : XmlSpace) (hm : ∀ j ∈ K.pre, s.modeOf j sp = s0.modeOf j sp) :
    ∃ s' m', s.prepareTextChildren m n sp = .ok (s', m') ∧ TI s0 s' m' ∧ s'.text = s0.elementT K sp s.text ∧
      (∀ j ∈ m', j ∈ m ∨ j = n ∨ j ∈ K.pre) := by
  have hnl : s.live n = true := by rw [h.live]; exact hn.live
  obtain ⟨T, hT, _, _, hd⟩ := C07_traverse h.built.reachable h.built.acyclic (h.describes hF) hnl
  cases (show (Trees.cons n K .nil).Of F [n] from ⟨[], rfl, hK, rfl⟩).unique hT
  simp only [Trees.pre, List.append_nil] at hd
  obtain ⟨K', hK', _, hnd, hnK, hlen⟩ := kids_tree h.built (h.describes hF) hnl
  cases hK.unique hK'
  have htn : ∀ j ∈ K.pre, s0.nodeType j = .text → TextNode s0 j := fun j hj ht => textNode_of hF hn hK hr hj ht
  obtain ⟨s1, m1, e1, h1, t1, o1, k1⟩ := trimNodes_ok (space := sp) (n :: K.pre) h (by
    intro j hj ht
    rcases List.mem_cons.1 hj with rfl | hj
    · rw [hel] at ht; simp at ht
    · exact htn j hj ht) (List.nodup_cons.2 ⟨hnK, hnd⟩)
  have hn1 : s1.live n = true := by rw [h1.live]; exact hn.live
  have hlen1 : K.pre.length ≤ s1.fuel := by
    unfold St.fuel; rw [h1.nextId, ← h.nextId]; omega
  obtain ⟨r, e2, f2⟩ := collectText_ok h1.built (h1.describes hF) K s1.fuel 0 (F.kids n) hK
    (fun j hj => by rw [h1.live]; exact (hr j hj).live) (fun j hj hk => by rw [h1.types]; exact (hr j hj).kids hk) hlen1
  have hty : ∀ j, s1.isText j = s0.isText j := fun j => by rw [St.isText, St.isText, h1.types]
  have f2 : r = s0.textDepths K := by
    rw [f2, St.textDepths]; exact List.filter_congr fun x _ => hty x.1
  have hr1 : ∀ x ∈ r, TextNode s0 x.1 ∧ x.1 ∈ K.pre := by
    intro x hx
    have : x.1 ∈ r.map Prod.fst := List.mem_map_of_mem hx
    rw [f2, St.textDepths_fst, List.mem_filter, St.isText, decide_eq_true_eq] at this
    exact ⟨htn _ this.1 this.2, this.1⟩
  have hrS : ∀ x ∈ r, x.1 ∈ K.pre.filter fun j => s0.isText j := by
    intro x hx
    rw [← St.textDepths_fst, ← f2]; exact List.mem_map_of_mem hx
  have t1' : s1.text = trimT (fun j => s.modeOf j sp) s.text (K.pre.filter fun j => s0.isText j) := by
    funext j
    rw [t1, trimT]
    have : (j ∈ n :: K.pre ∧ s0.nodeType j = .text) ↔ j ∈ K.pre.filter fun j => s0.isText j := by
      rw [List.mem_filter, St.isText, decide_eq_true_eq, List.mem_cons]
      constructor
      · rintro ⟨rfl | h, h2⟩
        · rw [hel] at h2; simp at h2
        · exact ⟨h, h2⟩
      · rintro ⟨h, h2⟩; exact ⟨.inr h, h2⟩
    simp only [this]
  have mk1 : ∀ j ∈ m1, j ∈ m ∨ j = n ∨ j ∈ K.pre := by
    intro j hj
    rcases k1 j hj with hj | ⟨x, hx, hxt, hp⟩
    · exact .inl hj
    · rcases List.mem_cons.1 hx with rfl | hx
      · rw [hel] at hxt; simp at hxt
      · exact .inr (parent_in hF hn hK hr hx hp)
  have start : s.prepareTextChildren m n sp = (match r with
      | [] => .ok (s1, m1)
      | [(t, _)] => if sp = .default then (s1.processSingle t).bind fun s => .ok (s, m1) else .ok (s1, m1)
      | _ => St.processPairs sp s1 m1 true none r) := by
    simp only [St.prepareTextChildren, hd, e1, childList_eq h1.built.inv (h1.describes hF) hn1, e2, bind, Except.bind]
    rcases r with _ | ⟨⟨a, b⟩, _ | ⟨c, r⟩⟩ <;> rfl
  -- the exact texts
  have goal : ∀ s' : St, s'.text = groupT (fun j => s.modeOf j sp) sp s1.text r → s'.text = s0.elementT K sp s.text := by
    intro s' hs'
    funext j
    by_cases hj : j ∈ K.pre.filter fun j => s0.isText j
    · rw [hs', St.elementT, ← f2]
      refine groupT_congr (S := K.pre.filter fun j => s0.isText j) ?_ sp r _ _ hrS ?_ j hj
      · intro k hk; exact hm k (List.mem_filter.1 hk).1
      · intro k hk
        rw [t1', trimT, trimT, if_pos hk, if_pos hk, hm k (List.mem_filter.1 hk).1]
    · have hj' : ¬ (j ∈ K.pre ∧ s0.nodeType j = .text) := by
        rw [List.mem_filter, St.isText, decide_eq_true_eq] at hj; exact hj
      rw [elementT_outside hj', hs', groupT_outside (by rw [f2, St.textDepths_fst]; exact hj), t1', trimT, if_neg hj]
  rw [start]
  match r, hr1, f2, goal with
  | [], _, _, goal => exact ⟨s1, m1, rfl, h1, goal _ rfl, mk1⟩
  | [(a, b)], hr1, _, goal =>
    obtain ⟨x1, x2⟩ := hr1 (a, b) (by simp)
    simp only
    split
    · next hsp =>
      obtain ⟨s2, e3, h3, t3⟩ := processSingle_ok h1 x1
      exact ⟨s2, m1, by simp [e3, Except.bind], h3, goal _ (by rw [t3]; simp only [groupT, if_pos hsp]), mk1⟩
    · next hsp => exact ⟨s1, m1, rfl, h1, goal _ (by simp only [groupT, if_neg hsp]), mk1⟩
  | x :: y :: rest, hr1, f2, goal =>
    obtain ⟨s2, m2, e3, h3, t3, k3⟩ := processPairs_ok (space := sp) (μ := fun j => s.modeOf j sp) K.pre (x :: y :: rest) true none h1 hr1
      (by rw [f2, St.textDepths_fst]; exact hnd.filter _) (by simp) o1
    refine ⟨s2, m2, e3, h3, goal _ t3, ?_⟩
    intro j hj
    rcases k3 j hj with hj | ⟨z, hz, hzt, hp⟩
    · exact mk1 j hj
    · exact .inr (parent_in hF hn hK hr hz hp)

/-- Effect of text processing on a sequence of trees. -/
structure TextDone (s0 s s' : St) (F : Forest) (T : Trees) : Prop where
  effect : ∀ j, j ∉ T.pre → s'.text j = s.text j
  clean : ∀ e ∈ T.pre, StartsWithText s0 e → ∀ j, s0.live j = true → s0.Ancestor e j → s0.nodeType j = .text → Clean (s'.text j)
  exact : ∀ e ∈ T.pre, StartsWithText s0 e → (∀ a ∈ T.pre, StartsWithText s0 a → ¬ s0.Ancestor a e) →
    ∃ sp K, s0.Mode e sp ∧ K.Of F (F.kids e) ∧ ∀ j ∈ K.pre, s'.text j = s0.elementT K sp s.text j
  keep : ∀ j ∈ T.pre, (∀ e ∈ T.pre, StartsWithText s0 e → ¬ s0.Ancestor e j) → s'.text j = s.text j

theorem sub_pre {F : Forest} : ∀ {T : Trees} {l : List NodeId}, T.Of F l → ∀ e ∈ T.pre, ∀ {K : Trees}, K.Of F (F.kids e) →
    ∀ j ∈ K.pre, j ∈ T.pre
  | .nil, _, _, e, he => by simp [Trees.pre] at he
  | .cons i A R, l, hT, e, he => by
    intro hK j hj
    obtain ⟨l', rfl, hA, hR⟩ := hT
    simp only [Trees.pre, List.mem_cons, List.mem_append] at he ⊢
    rcases he with rfl | he | he
    · cases hA.unique hK
      exact .inr (.inl hj)
    · exact .inr (.inl (sub_pre hA e he hK j hj))
    · exact .inr (.inr (sub_pre hR e he hK j hj))

/-- Does the first tree consist of a text? -/
def Trees.textFirst (s : St) : Trees → Bool
  | nil => false
  | cons c _ _ => s.isText c

/-- The texts after processing a sequence of trees; `sp` is the mode of the parent. -/
def Trees.tidyT (s : St) : XmlSpace → Trees → Texts → Texts
  | _, nil, τ => τ
  | sp, cons n K R, τ =>
    R.tidyT s sp (if K.textFirst s then s.elementT K (s.spaceAt n sp) τ else K.tidyT s (s.spaceAt n sp) τ)

theorem prepareTextAux_ok {s0 : St} (hb0 : Built s0) {F : Forest} (hF : Describes s0 F) : ∀ (T : Trees) (k : Nat) {s : St}
    {m : List NodeId} (sp : XmlSpace) (l : List NodeId), TI s0 s m → T.Of F l → T.pre.Nodup → (∀ j ∈ T.pre, Region s0 F j) →
    T.pre.length ≤ k → (∀ i ∈ l, ∃ p, s0.parent i = some p ∧ s0.Mode p sp) → (∀ j ∈ T.pre, j ∉ m) →
    ∃ s' m', St.prepareTextAux k s m sp l = .ok (s', m') ∧ TI s0 s' m' ∧ TextDone s0 s s' F T ∧ (∀ j ∈ m', j ∈ m ∨ j ∈ T.pre) ∧
      s'.text = T.tidyT s0 sp s.text
  | .nil, k, s, m, sp, l, h, hT, _, _, _, _, _ => by
    cases hT
    refine ⟨s, m, ?_, h, ⟨fun _ _ => rfl, by simp [Trees.pre], by simp [Trees.pre], by simp⟩, fun _ hj => .inl hj, rfl⟩
    cases k <;> rfl
  | .cons n K R, k, s, m, sp, l, h, hT, hnd, hr, hk, hmode, hunm => by
    obtain ⟨l', rfl, hK, hR⟩ := hT
    simp only [Trees.pre, List.length_cons, List.length_append] at hk
    simp only [Trees.pre, List.nodup_cons, List.nodup_append, List.mem_append, not_or] at hnd
    obtain ⟨⟨nK, nR⟩, dK, dR, dKR⟩ := hnd
    obtain ⟨k, rfl⟩ : ∃ x, k = x + 1 := ⟨k - 1, by omega⟩
    have hn : Region s0 F n := hr n (by simp [Trees.pre])
    have hrK : ∀ j ∈ K.pre, Region s0 F j := fun j hj => hr j (by simp [Trees.pre, hj])
    have hrR : ∀ j ∈ R.pre, Region s0 F j := fun j hj => hr j (by simp [Trees.pre, hj])
    have hanc : ∀ j, s0.live j = true → (j ∈ K.pre ↔ s0.Ancestor n j) := fun j hj => mem_pre_kids hF hn.live hK hj
    have hfirst : s0.firstChild n = (F.kids n).head? := hF.shows.first n hn.live
    have hsat : ∀ j, j ∉ m → ∀ d, s.spaceAt j d = s0.spaceAt j d := by
      intro j hj d
      simp only [St.spaceAt, h.unmarked j hj]
    have hmn : s0.Mode n (s.spaceAt n sp) := by
      obtain ⟨p, hp, hpm⟩ := hmode n (by simp)
      rw [hsat n (hunm n (by simp [Trees.pre]))]
      exact .child hp hpm
    -- the first tree
    have htf : K.textFirst s0 = true ↔ StartsWithText s0 n := by
      unfold StartsWithText
      rw [hfirst]
      cases K with
      | nil =>
        rw [hK]
        simp [Trees.textFirst]
      | cons c _ _ =>
        obtain ⟨l2, hl2, -, -⟩ := hK
        rw [hl2]
        simp [Trees.textFirst, St.isText]
    obtain ⟨s1, m1, e1, h1, d1, k1, x1⟩ : ∃ s1 m1,
        (if s.isElement n then do
          let (s, marked, sp) ← s.getXmlspace m n sp
          if (s.firstChild n).any s.isText then s.prepareTextChildren marked n sp
          else do
            let kids ← s.childList n
            St.prepareTextAux k s marked sp kids
        else pure (s, m)) = .ok (s1, m1) ∧ TI s0 s1 m1 ∧ TextDone s0 s s1 F (.cons n K .nil) ∧
          (∀ j ∈ m1, j ∈ m ∨ j = n ∨ j ∈ K.pre) ∧
          s1.text = (if K.textFirst s0 then s0.elementT K (s0.spaceAt n sp) s.text else K.tidyT s0 (s0.spaceAt n sp) s.text) := by
      by_cases hel : s0.nodeType n = .element
      · have hie : s.isElement n = true := decide_eq_true (by rw [h.types]; exact hel)
        obtain ⟨sa, ma, ea, ha, ta, _, oa, ka⟩ := getXmlspace_ok h hn.live hel hn.space sp
        have ta' : sa.text = s.text := funext ta
        have hna : sa.live n = true := by rw [ha.live]; exact hn.live
        have hfc : sa.firstChild n = s0.firstChild n := by rw [(ha.describes hF).shows.first n hna, hfirst]
        have hma : ∀ j ∈ K.pre, j ∉ ma := by
          intro j hj hjm
          rcases ka j hjm with h1 | rfl
          · exact hunm j (by simp [Trees.pre, hj]) h1
          · exact nK hj
        by_cases hft : (sa.firstChild n).any sa.isText = true
        · have hmo : ∀ j ∈ K.pre, sa.modeOf j (s.spaceAt n sp) = s0.modeOf j (s.spaceAt n sp) := by
            intro j hj
            simp only [St.modeOf, ha.parent]
            cases hp : s0.parent j with
            | none => rfl
            | some p =>
              simp only
              rcases parent_in hF hn hK hrK hj hp with rfl | hpK
              · rw [oa]
                have := hsat p (hunm p (by simp [Trees.pre])) sp
                rw [this, spaceAt_self]
              · simp only [St.spaceAt, ha.unmarked p (hma p hpK)]
          obtain ⟨s1, m1, e1, h1, t1, k1⟩ := prepareTextChildren_ok ha hb0 hF hn hel hK hrK (s.spaceAt n sp) hmo
          rw [ta'] at t1
          have hst : StartsWithText s0 n := by
            rw [Option.any_eq_true] at hft
            obtain ⟨c, hc, hct⟩ := hft
            exact ⟨c, by rw [← hfc]; exact hc, by rw [← ha.types]; exact of_decide_eq_true hct⟩
          refine ⟨s1, m1, ?_, h1, ⟨?_, ?_, ?_, ?_⟩, ?_, ?_⟩
          · simp only [hie, if_true, ea, bind, Except.bind, hft, e1]
          · intro j hj
            rw [t1]
            exact elementT_outside fun hx => hj (by simp [Trees.pre, hx.1])
          · intro e he _ j hj hej hjt
            rw [t1]
            refine elementT_clean ⟨?_, hjt⟩
            rw [hanc j hj]
            simp only [Trees.pre, List.append_nil, List.mem_cons] at he
            rcases he with rfl | he
            · exact hej
            · exact hej.trans ((hanc e (hrK e he).live).1 he)
          · intro e he hs hout
            simp only [Trees.pre, List.append_nil, List.mem_cons] at he
            rcases he with rfl | he
            · exact ⟨s.spaceAt e sp, K, hmn, hK, fun j _ => by rw [t1]⟩
            · exact absurd ((hanc e (hrK e he).live).1 he) (hout n (by simp [Trees.pre]) hst)
          · intro j hj hno
            simp only [Trees.pre, List.append_nil, List.mem_cons] at hj
            rcases hj with rfl | hj
            · rw [t1]; exact elementT_outside fun hx => nK hx.1
            · exact absurd ((hanc j (hrK j hj).live).1 hj) (hno n (by simp [Trees.pre]) hst)
          · intro j hj
            rcases k1 j hj with h1 | h1
            · rcases ka j h1 with h2 | h2
              · exact .inl h2
              · exact .inr (.inl h2)
            · exact .inr h1
          · rw [if_pos (htf.2 hst), t1, hsat n (hunm n (by simp [Trees.pre]))]
        · have hkm : ∀ i ∈ F.kids n, ∃ p, s0.parent i = some p ∧ s0.Mode p (s.spaceAt n sp) := by
            intro i hi
            obtain ⟨a, b⟩ := hF.wf.kids n hn.live i hi
            exact ⟨n, by rw [hF.shows.parent i a]; exact b, hmn⟩
          obtain ⟨s1, m1, e1, h1, t1, k1, x1⟩ := prepareTextAux_ok hb0 hF K k (s.spaceAt n sp) (F.kids n) ha hK dK hrK (by omega) hkm hma
          have hst : ¬ StartsWithText s0 n := by
            rintro ⟨c, hc, hct⟩
            apply hft
            rw [Option.any_eq_true]
            exact ⟨c, by rw [hfc]; exact hc, decide_eq_true (by rw [ha.types]; exact hct)⟩
          refine ⟨s1, m1, ?_, h1, ⟨?_, ?_, ?_, ?_⟩, ?_, ?_⟩
          · simp only [hie, if_true, ea, bind, Except.bind, if_neg hft, childList_eq ha.built.inv (ha.describes hF) hna, e1]
          · intro j hj
            rw [t1.effect j (fun hx => hj (by simp [Trees.pre, hx])), ta]
          · intro e he hs j hj hej hjt
            simp only [Trees.pre, List.append_nil, List.mem_cons] at he
            rcases he with rfl | he
            · exact absurd hs hst
            · exact t1.clean e he hs j hj hej hjt
          · intro e he hs hout
            simp only [Trees.pre, List.append_nil, List.mem_cons] at he
            rcases he with rfl | he
            · exact absurd hs hst
            · rw [← ta']
              exact t1.exact e he hs fun a ha' => hout a (by simp [Trees.pre, ha'])
          · intro j hj hno
            simp only [Trees.pre, List.append_nil, List.mem_cons] at hj
            rcases hj with rfl | hj
            · rw [t1.effect j nK, ta]
            · rw [t1.keep j hj (fun e he hs => hno e (by simp [Trees.pre, he]) hs), ta]
          · intro j hj
            rcases k1 j hj with h1 | h1
            · rcases ka j h1 with h2 | h2
              · exact .inl h2
              · exact .inr (.inl h2)
            · exact .inr (.inr h1)
          · rw [if_neg (fun hh => hst (htf.1 hh)), x1, ta', hsat n (hunm n (by simp [Trees.pre]))]
      · have hie : ¬ s.isElement n = true := by rw [St.isElement, decide_eq_true_eq, h.types]; exact hel
        have hkn : F.kids n = [] := by
          by_contra hne
          exact hel (hn.kids hne)
        rw [hkn] at hK hfirst
        cases hK.nil_list
        have hns : ∀ e ∈ (Trees.cons n .nil .nil).pre, ¬ StartsWithText s0 e := by
          intro e he hs
          simp only [Trees.pre, List.append_nil, List.mem_singleton] at he
          subst he
          obtain ⟨c, hc, _⟩ := hs
          rw [hfirst] at hc; simp at hc
        exact ⟨s, m, by simp only [if_neg hie, pure, Except.pure], h,
          ⟨fun _ _ => rfl, fun e he hs => absurd hs (hns e he), fun e he hs => absurd hs (hns e he), fun _ _ _ => rfl⟩,
          fun _ hj => .inl hj, by simp [Trees.textFirst, Trees.tidyT]⟩
    have hsub : ∀ j ∈ (Trees.cons n K .nil).pre, j ∉ R.pre := by
      intro j hj hR'
      simp only [Trees.pre, List.append_nil, List.mem_cons] at hj
      rcases hj with rfl | hj
      · exact nR hR'
      · exact dKR j hj j hR' rfl
    obtain ⟨s2, m2, e2, h2, d2, k2, x2⟩ := prepareTextAux_ok hb0 hF R k sp l' h1 hR dR hrR (by omega)
      (fun i hi => hmode i (by simp [hi])) (by
        intro j hj hjm
        rcases k1 j hjm with h | h
        · exact hunm j (by simp [Trees.pre, hj]) h
        · exact hsub j (by simp only [Trees.pre, List.append_nil, List.mem_cons]; exact h) hj)
    refine ⟨s2, m2, ?_, h2, ?_, ?_, by rw [x2, x1, Trees.tidyT]⟩
    · have : St.prepareTextAux (k + 1) s m sp (n :: l') = (if s.isElement n then do
          let (s, marked, sp) ← s.getXmlspace m n sp
          if (s.firstChild n).any s.isText then s.prepareTextChildren marked n sp
          else do
            let kids ← s.childList n
            St.prepareTextAux k s marked sp kids
        else pure (s, m)).bind fun p => St.prepareTextAux k p.1 p.2 sp l' := by
        simp only [St.prepareTextAux]
        split
        · simp only [bind, Except.bind]
          cases s.getXmlspace m n sp with
          | error e => rfl
          | ok v =>
            simp only
            split
            · rfl
            · cases v.1.childList n <;> rfl
        · rfl
      rw [this, e1]
      exact e2
    · have hlt : ∀ e j, s0.live j = true → e ∈ (Trees.cons n K .nil).pre → s0.Ancestor e j → j ∈ (Trees.cons n K .nil).pre := by
        intro e j hj he hej
        simp only [Trees.pre, List.append_nil, List.mem_cons] at he ⊢
        right
        rw [hanc j hj]
        rcases he with rfl | he
        · exact hej
        · exact hej.trans ((hanc e (hrK e he).live).1 he)
      have hmem : ∀ j, j ∈ (Trees.cons n K R).pre → j ∉ R.pre → j ∈ (Trees.cons n K .nil).pre := by
        intro j hj hjR
        simp only [Trees.pre, List.append_nil, List.mem_cons, List.mem_append] at hj ⊢
        tauto
      have hmem1 : ∀ j, j ∈ (Trees.cons n K .nil).pre → j ∈ (Trees.cons n K R).pre := by
        intro j hj
        simp only [Trees.pre, List.append_nil, List.mem_cons, List.mem_append] at hj ⊢
        tauto
      have hmem2 : ∀ j, j ∈ R.pre → j ∈ (Trees.cons n K R).pre := by
        intro j hj; simp [Trees.pre, hj]
      constructor
      · intro j hj
        rw [d2.effect j (fun hx => hj (hmem2 j hx)), d1.effect j (fun hx => hj (hmem1 j hx))]
      · intro e he hs j hj hej hjt
        by_cases hR' : e ∈ R.pre
        · exact d2.clean e hR' hs j hj hej hjt
        · have he' := hmem e he hR'
          rw [d2.effect j (hsub j (hlt e j hj he' hej))]
          exact d1.clean e he' hs j hj hej hjt
      · intro e he hs hout
        by_cases hR' : e ∈ R.pre
        · obtain ⟨x, Ke, a, b, c⟩ := d2.exact e hR' hs fun a ha => hout a (hmem2 a ha)
          refine ⟨x, Ke, a, b, fun j hj => ?_⟩
          rw [c j hj]
          refine elementT_congr (fun i hi => ?_) j hj
          exact d1.effect i fun hm => hsub i hm (sub_pre hR e hR' b i hi)
        · obtain ⟨x, Ke, a, b, c⟩ := d1.exact e (hmem e he hR') hs fun a ha => hout a (hmem1 a ha)
          refine ⟨x, Ke, a, b, fun j hj => ?_⟩
          rw [← c j hj]
          have hKn : (Trees.cons n K .nil).Of F [n] := ⟨[], rfl, hK, rfl⟩
          exact d2.effect j (hsub j (sub_pre hKn e (hmem e he hR') b j hj))
      · intro j hj hno
        by_cases hR' : j ∈ R.pre
        · rw [d2.keep j hR' (fun e he => hno e (hmem2 e he))]
          exact d1.effect j fun hm => hsub j hm hR'
        · rw [d2.effect j hR']
          exact d1.keep j (hmem j hj hR') fun e he => hno e (hmem1 e he)
    · intro j hj
      rcases k2 j hj with h | h
      · rcases k1 j h with h | h
        · exact .inl h
        · right
          simp only [Trees.pre, List.mem_cons, List.mem_append]
          tauto
      · right; simp [Trees.pre, h]

/-! ### The whole document -/

theorem removeSpaces_ok {s0 : St} : ∀ (m : List NodeId) {s : St}, TI s0 s m →
    ∃ u, s.removeSpaces m = .ok u ∧ TI s0 u [] ∧ (∀ j, u.text j = s.text j)
  | [], s, h => ⟨s, rfl, h, fun _ => rfl⟩
  | n :: ns, s, h => by
    obtain ⟨hn, hno, v, hv⟩ := h.marked n (by simp)
    have hnl : s.live n = true := by rw [h.live]; exact hn
    obtain ⟨t, e, ho, hoth, hsame, hlk⟩ := C13_remove h.built.reachable hnl (.id .Space)
    have hnd := List.nodup_cons.1 h.nodup
    have ht : TI s0 t ns := {
      built := h.built.call (.removeAttribute n (.id .Space)) (by simp [Op.handles, hnl]) trivial trivial e
      links := hsame.links.trans h.links
      live := hsame.live.trans h.live
      rootId := hsame.rootId.trans h.rootId
      nextId := hsame.nextId.trans h.nextId
      debug := hsame.debug.trans h.debug
      slab := hsame.slab.trans h.slab
      types := fun j => (hsame.types j).trans (h.types j)
      tags := fun j => (hsame.tags j).trans (h.tags j)
      ids := fun j => (hsame.ids j).trans (h.ids j)
      keys := fun j => (hsame.keys j).trans (h.keys j)
      linked := by
        intro j
        rw [← h.linked j]
        apply hlk
        intro b hb hbn
        rw [hv, List.mem_append, List.mem_singleton] at hb
        rcases hb with hb | rfl
        · exact absurd hbn (hno b hb)
        · rfl
      texts := fun j hj => (hsame.texts j).trans (h.texts j hj)
      marked := by
        intro j hj
        rw [hoth j (by rintro rfl; exact hnd.1 hj)]
        exact h.marked j (by simp [hj])
      unmarked := by
        intro j hj
        by_cases hjn : j = n
        · subst hjn
          rw [ho, hv, List.filter_append, List.filter_eq_self.2]
          · simp
          · intro a ha; simpa using hno a ha
        · rw [hoth j hjn]
          exact h.unmarked j (by simp [hjn, hj])
      nodup := hnd.2 }
    obtain ⟨u, e2, h2, t2⟩ := removeSpaces_ok ns ht
    exact ⟨u, by simp [St.removeSpaces, e, bind, Except.bind, e2], h2, fun j => (t2 j).trans (hsame.texts j)⟩

theorem gone_leaf {F : Forest} {g : NodeId → Bool} : ∀ {T : Trees} {l : List NodeId}, T.Of F l →
    (∀ j ∈ T.pre, g j = true → F.kids j = []) → T.gone g = T.pre.filter g
  | .nil, _, _, _ => rfl
  | .cons i K R, l, hT, h => by
    obtain ⟨l', rfl, hK, hR⟩ := hT
    have hr := gone_leaf hR fun j hj => h j (by simp [Trees.pre, hj])
    by_cases hg : g i = true
    · have := h i (by simp [Trees.pre]) hg
      rw [this] at hK
      cases hK.nil_list
      simp [Trees.gone, Trees.pre, hg, hr]
    · have hk := gone_leaf hK fun j hj => h j (by simp [Trees.pre, hj])
      simp [Trees.gone, Trees.pre, hg, hr, hk]

/-- Is the node an empty text node? -/
abbrev St.emptyText (s : St) (n : NodeId) : Bool := s.isText n && (s.text n).isEmpty

theorem emptyText_looks : LooksAtNode fun s n => s.isText n && (s.text n).isEmpty := fun s t n h1 _ _ h4 => by
  simp [St.isText, h1, h4]

/-- The result of text processing: `u` has the new texts, `t` is `u` without empty text nodes. -/
structure Prepared (s0 : St) (F : Forest) (K : Trees) (u t : St) : Prop where
  ti : TI s0 u []
  done : TextDone s0 s0 u F K
  built : Built t
  removed : Removed u t (K.pre.filter u.emptyText)
  desc : Describes t (F.prune (K.pre.filter u.emptyText))
  of : (K.keep u.emptyText).Of (F.prune (K.pre.filter u.emptyText)) ((F.prune (K.pre.filter u.emptyText)).kids s0.rootId)
  pre : (K.keep u.emptyText).pre = K.pre.filter fun j => !u.emptyText j
  attrs : ∀ j, s0.live j = true → t.attributes j = s0.attributes j
  tidy : u.text = K.tidyT s0 .default s0.text
  drain : ∃ n, u.drain u.rootId (fun s n => s.isText n && (s.text n).isEmpty) = .ok (t, n)

theorem prepareText_ok {s0 : St} (hb : Built s0) {F : Forest} (hF : Describes s0 F) {K : Trees} (hK : K.Of F (F.kids s0.rootId))
    (hr : ∀ j ∈ K.pre, Region s0 F j) : ∃ u t, s0.prepareText = .ok t ∧ Prepared s0 F K u t := by
  have hrl : s0.live s0.rootId = true := hb.rootLive
  obtain ⟨K', hK', _, hnd, hrk, hlen⟩ := kids_tree hb hF hrl
  cases hK.unique hK'
  have hkm : ∀ i ∈ F.kids s0.rootId, ∃ p, s0.parent i = some p ∧ s0.Mode p .default := by
    intro i hi
    obtain ⟨a, b⟩ := hF.wf.kids s0.rootId hrl i hi
    exact ⟨s0.rootId, by rw [hF.shows.parent i a]; exact b, .root⟩
  obtain ⟨s1, m1, e1, h1, d1, _, x1⟩ := prepareTextAux_ok hb hF K s0.fuel .default (F.kids s0.rootId) (TI.refl hb) hK hnd hr
    (by unfold St.fuel; omega) hkm (by simp)
  obtain ⟨u, e2, h2, t2⟩ := removeSpaces_ok m1 h1
  have hul : u.live u.rootId = true := by rw [h2.live, h2.rootId]; exact hrl
  obtain ⟨t, n, e3, b3, r3, f3, o3, p3⟩ := drain_tree h2.built (h2.describes hF) hul (K := K) (by rw [h2.rootId]; exact hK)
    emptyText_looks
  have hg : K.gone (fun n => u.isText n && (u.text n).isEmpty) = K.pre.filter u.emptyText := by
    refine gone_leaf hK fun j hj hjt => ?_
    by_contra hne
    have := (hr j hj).kids hne
    simp only [Bool.and_eq_true, St.isText, decide_eq_true_eq, h2.types] at hjt
    rw [this] at hjt
    simp at hjt
  have hd : TextDone s0 s0 u F K := by
    obtain ⟨a, b, c, d⟩ := d1
    refine ⟨?_, ?_, ?_, ?_⟩
    · intro j hj; rw [t2]; exact a j hj
    · intro e he hs j hj hej hjt; rw [t2]; exact b e he hs j hj hej hjt
    · intro e he hs ho
      obtain ⟨x, Ke, y, z, w⟩ := c e he hs ho
      exact ⟨x, Ke, y, z, fun j hj => by rw [t2]; exact w j hj⟩
    · intro j hj hno; rw [t2]; exact d j hj hno
  rw [hg] at r3 f3 o3 p3
  refine ⟨u, t, ?_, h2, hd, b3, r3, f3, by rw [← h2.rootId]; exact o3, ?_, ?_, by rw [← x1]; exact funext t2, ⟨n, e3⟩⟩
  · simp only [St.prepareText, childList_eq hb.inv hF hrl, e1, e2, e3, bind, Except.bind, pure, Except.pure]
  · refine p3.trans (List.filter_congr ?_)
    intro j hj
    rw [Bool.eq_iff_iff, decide_eq_true_eq, List.mem_filter, Bool.not_eq_true', not_and, Bool.not_eq_true]
    exact ⟨fun h => h hj, fun h _ => h⟩
  · intro j hj
    rw [r3.attrs j (by rw [h2.live]; exact hj), h2.unmarked j (by simp), List.filter_eq_self]
    intro a ha
    have hS : ∀ k ∈ K.pre.filter u.emptyText, k ∈ K.pre ∧ s0.nodeType k = .text := by
      intro k hk
      rw [List.mem_filter, St.emptyText, Bool.and_eq_true, St.isText, decide_eq_true_eq, h2.types] at hk
      exact ⟨hk.1, hk.2.1⟩
    have k1 : j ∉ K.pre.filter u.emptyText := by
      intro hjs
      obtain ⟨x, y⟩ := hS j hjs
      rw [((hr j x).text y).1] at ha
      simp at ha
    have k2 : ∀ n ∈ K.pre.filter u.emptyText, a.value.refersTo n = false := by
      intro n hn
      obtain ⟨x, y⟩ := hS n hn
      rw [Bool.eq_false_iff]
      intro hh
      have hc := hb.inv.link.count j n hj (hr n x).live
      rw [((hr n x).text y).2, List.count_nil] at hc
      have : 0 < refs (s0.attributes j) n := refs_pos.2 ⟨a, ha, refersTo_iff.1 hh⟩
      omega
    have k3 : (K.pre.filter u.emptyText).any (fun n => a.value.refersTo n) = false := by
      rw [List.any_eq_false]
      intro n hn
      simp [k2 n hn]
    simp [survives, k1, k3]

end Svgdom
