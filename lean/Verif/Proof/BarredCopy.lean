import Verif.Spec.BarredCopy
import Verif.Proof.Barred
import Verif.Proof.DeepCopy

/-!
# Exactly when the copies return although the caller has borrowed nodes
-/

set_option autoImplicit false

namespace Svgdom

section
variable {g : Guards}

theorem share_free_iff {g : Guards} {src j : NodeId} : g.share src j = .free ↔ g j = .free ∧ j ≠ src := by
  unfold Guards.share
  by_cases h : j = src
  · subst h
    by_cases h2 : g j = .free <;> simp [h2]
  · simp [h]

theorem copyAttributesG_ok {src n : NodeId} (hsn : n ≠ src) (hg : g n = .free) : ∀ {l : List Attribute} {s t : St}, Inv s →
    s.live n = true → s.isElement n = true → s.idOf n = [] → s.linkedNodes n = [] →
    NamesNodup (s.attributes n ++ l) → (∀ a ∈ l, CanCopy s src n a) → s.copyAttributes src n l = .ok t →
    (s.copyAttributesG (g.share src) n l = .ok t ↔ ∀ a ∈ l, ∀ m, a.value.linkNode = some m → g m = .free)
  | [], s, t, h, hn, hel, hid, hlk, hnd, hc, e => by
    simp only [St.copyAttributes] at e
    simp [St.copyAttributesG, e]
  | a :: l, s, t, h, hn, hel, hid, hlk, hnd, hc, e => by
    obtain ⟨hst, htg⟩ := hc a (by simp)
    have h1 := copyAttributes_spec (src := src) (l := [a]) h hn hel hid hlk
      (by
        simp only [NamesNodup, List.map_append, List.map_cons] at hnd ⊢
        rw [List.nodup_append] at hnd ⊢
        refine ⟨hnd.1, by simp, fun x hx y hy => hnd.2.2 x hx y ?_⟩
        simp only [List.map_nil, List.mem_singleton] at hy
        simp [hy])
      (fun b hb => by rw [List.mem_singleton] at hb; subst hb; exact ⟨hst, htg⟩)
    -- the first attribute was set
    have hset : ∃ u, s.setAttribute n a = .ok u ∧ u.copyAttributes src n l = .ok t := by
      simp only [St.copyAttributes] at e
      cases hs : s.setAttribute n a with
      | error x => rw [hs] at e; cases e
      | ok u =>
        rw [hs] at e
        refine ⟨u, rfl, ?_⟩
        cases hm : a.value.linkNode with
        | none => simpa [hm, bind, Except.bind] using e
        | some m => simpa [hm, bind, Except.bind, borrowMut, (htg m hm).2.2] using e
    obtain ⟨u, e1, e2⟩ := hset
    have hu : u = s.withAttrs n [a] := by
      have : s.copyAttributes src n [a] = .ok u := by
        simp only [St.copyAttributes, e1, bind, Except.bind]
        cases hm : a.value.linkNode with
        | none => rfl
        | some m => simp [borrowMut, (htg m hm).2.2]
      split at h1
      · rw [this] at h1; exact Except.ok.inj h1
      · rw [this] at h1; cases h1
    have e3 : s.setAttributeChecked n a = .ok (u, none) := by
      unfold St.setAttribute at e1
      cases hs : s.setAttributeChecked n a with
      | error x => rw [hs] at e1; cases e1
      | ok r =>
        rw [hs] at e1
        rcases r with ⟨v, _ | o⟩
        · simp only [bind, Except.bind, pure, Except.pure, Except.ok.injEq] at e1
          rw [e1]
        · cases e1
    have hold : s.oldTarget n a.name = none := by
      unfold St.oldTarget attrsGetValue
      cases hgt : attrsGet (s.attributes n) a.name with
      | none => rfl
      | some b =>
        obtain ⟨h2, h3⟩ := attrsGet_some hgt
        simp only [NamesNodup, List.map_append, List.map_cons] at hnd
        exact absurd h3 ((List.nodup_append.1 hnd).2.2 b.name (List.mem_map_of_mem h2) a.name (by simp))
    have hG := setAttributeCheckedG_exact (g := g.share src) h.link hn e3
    rw [hold] at hG
    have hself : refs [a] n = 0 := by
      rw [refs, List.countP_eq_zero]
      intro b hb
      rw [List.mem_singleton] at hb; subst hb
      simp only [decide_eq_true_eq]
      intro hh; exact (htg n hh).2.1 rfl
    have hinv : Inv u := h.setChecked hn (fun m hm => (htg m hm).1) e3
    have ih := copyAttributesG_ok (src := src) hsn hg (l := l) (s := u) (t := t) hinv (by rw [hu]; exact hn) (by rw [hu]; exact hel)
      (by rw [hu]; exact hid)
      (by
        have : (s.data n).linkedNodes = [] := hlk
        rw [hu]
        simp [St.linkedNodes, St.withAttrs, this, hself])
      (by rw [hu]; simpa [St.attributes, St.withAttrs] using hnd)
      (fun b hb => by
        have := hc b (by simp [hb])
        rw [hu]; exact this) e2
    have hgd : Guarded (g.share src) (n :: a.value.linkNode.toList ++ (none : Option NodeId).toList) ↔
        ∃ m, a.value.linkNode = some m ∧ g m ≠ .free := by
      have hns : g.share src n = .free := share_free_iff.2 ⟨hg, hsn⟩
      rw [guarded_append, guarded_cons, guarded_toList, guarded_toList]
      constructor
      · rintro ((h2 | ⟨m, h2, h3⟩) | ⟨m, h2, h3⟩)
        · exact absurd hns h2
        · refine ⟨m, h2, fun h4 => h3 (share_free_iff.2 ⟨h4, (htg m h2).2.2⟩)⟩
        · cases h2
      · rintro ⟨m, h2, h3⟩
        exact .inl (.inr ⟨m, h2, fun h4 => h3 (share_free_iff.1 h4).1⟩)
    have hfin : s.copyAttributesG (g.share src) n (a :: l) =
        if ∃ m, a.value.linkNode = some m ∧ g m ≠ .free then .error (.panic .borrowed) else u.copyAttributesG (g.share src) n l := by
      simp only [St.copyAttributesG, St.setAttributeG, hG]
      by_cases hx : ∃ m, a.value.linkNode = some m ∧ g m ≠ .free
      · rw [if_pos hx, if_pos (hgd.2 hx)]; rfl
      · rw [if_neg hx, if_neg fun hh => hx (hgd.1 hh)]; rfl
    rw [hfin]
    by_cases hx : ∃ m, a.value.linkNode = some m ∧ g m ≠ .free
    · rw [if_pos hx]
      obtain ⟨m, hm, hm'⟩ := hx
      refine ⟨fun hh => (nomatch hh), fun hh => absurd (hh a (by simp) m hm) hm'⟩
    · rw [if_neg hx, ih]
      push Not at hx
      simp only [List.forall_mem_cons]
      exact ⟨fun hh => ⟨hx, hh⟩, fun hh => hh.2⟩

theorem copyNodeG_ok {s : St} (h : Inv s) (ok : NodesOk s) {i : NodeId} (hi : s.live i = true) (hg : g s.nextId = .free)
    {r : St × NodeId} (e : s.copyNode i = .ok r) : s.copyNodeG g i = .ok r ↔ ¬ CopyBarred g s i := by
  have hne : i ≠ s.nextId := by
    rintro rfl; rw [h.nextId_dead] at hi; simp at hi
  unfold CopyBarred
  by_cases hx : g i = .excl
  · simp [St.copyNodeG, rd, hx, bind, Except.bind]
  have hr : rd g i = .ok () := rd_ok hx
  simp only [hx, false_or]
  by_cases hty : s.nodeType i = .element
  · obtain ⟨u, key, e1, hu, hgr, hd1, hd2, hF⟩ := newNode_grown h (.fresh .element (s.tagName i) []) rfl rfl
    have htag : s.tagName i ≠ .name [] := ok.tag i hi hty
    have hcr : s.createElement (s.tagName i) = .ok (u, s.nextId) := by simp [St.createElement, htag, e1]
    have hat : u.attributes i = s.attributes i := hgr.attrs i hi
    have hcopy : s.copyNode i = (u.copyAttributes i s.nextId (s.attributes i)).map fun t => (t, s.nextId) := by
      simp only [St.copyNode, hty, hcr, bind, Except.bind, hat]
      cases u.copyAttributes i s.nextId (s.attributes i) <;> rfl
    have hcopyG : s.copyNodeG g i = (u.copyAttributesG (g.share i) s.nextId (s.attributes i)).map fun t => (t, s.nextId) := by
      simp only [St.copyNodeG, hty, hcr, hr, bind, Except.bind, hat]
      cases u.copyAttributesG (g.share i) s.nextId (s.attributes i) <;> rfl
    rw [hcopy] at e
    cases et : u.copyAttributes i s.nextId (s.attributes i) with
    | error x => rw [et] at e; cases e
    | ok t =>
      rw [et] at e
      cases e
      have key := copyAttributesG_ok (g := g) (src := i) (n := s.nextId) (Ne.symm hne) hg (l := s.attributes i) hu
        ((hgr.live _).2 (.inr (by simp))) (by simp [St.isElement, St.nodeType, hd1, NodeData.fresh])
        (by simp [St.idOf, hd1, NodeData.fresh]) (by simp [St.linkedNodes, hd1, NodeData.fresh])
        (by
          have : u.attributes s.nextId = [] := by simp [St.attributes, hd1, NodeData.fresh]
          rw [this, List.nil_append]; exact h.link.names i hi)
        (by
          intro a ha
          refine ⟨ok.stored i hi a ha, fun m hm => ?_⟩
          have hml := h.link.targets i hi a ha m hm
          refine ⟨(hgr.live _).2 (.inl hml), ?_, ?_⟩
          · rintro rfl; rw [h.nextId_dead] at hml; simp at hml
          · rintro rfl
            have := h.link.noSelf m hi
            have := refs_pos.2 ⟨a, ha, hm⟩
            omega) et
      rw [hcopyG]
      have hl : (∃ j, s.LinksTo i j ∧ g j ≠ .free) ↔ ¬ ∀ a ∈ s.attributes i, ∀ m, a.value.linkNode = some m → g m = .free := by
        push Not
        constructor
        · rintro ⟨j, ⟨a, h1, h2⟩, h3⟩
          exact ⟨a, h1, j, refersTo_iff.1 h2, h3⟩
        · rintro ⟨a, h1, j, h2, h3⟩
          exact ⟨j, ⟨a, h1, refersTo_iff.2 h2⟩, h3⟩
      simp only [hty, true_and, hl, not_not]
      rw [← key]
      cases u.copyAttributesG (g.share i) s.nextId (s.attributes i) with
      | error x => simp [Except.map]
      | ok v => simp [Except.map]
  · have : s.copyNodeG g i = s.copyNode i := by
      unfold St.copyNodeG St.copyNode
      simp only [hr, bind_ok_left]
    rw [this, e]
    simp [hty]

theorem CopyBarred.grown {s t : St} {l : List NodeId} (gr : Grown s t l) {j : NodeId} (hj : s.live j = true) :
    CopyBarred g t j ↔ CopyBarred g s j := by
  unfold CopyBarred St.LinksTo
  rw [gr.types j hj, gr.attrs j hj]

/-- The append of a new node to a copy. -/
theorem appendG_isolated {s t : St} {F : Forest} (hF : Describes s F) {p n : NodeId} (hp : s.live p = true)
    (hn : s.live n = true) (hpn : p ≠ n) (hs : F.sibs n = [n]) (hr : F.par n = none) (gp : g p = .free) (gn : g n = .free)
    (gk : ∀ x ∈ F.kids p, g x = .free) (e : s.append p n = .ok t) : s.appendG g p n = .ok t := by
  have h1 : s.nextSibling n = none := by rw [hF.shows.next n hn, hs]; simp [after]
  have h2 : s.prevSibling n = none := by rw [hF.shows.prev n hn, hs]; simp [before]
  have h3 : s.parent n = none := by rw [hF.shows.parent n hn, hr]
  rw [appendG_eq hpn, if_neg, e]
  rintro (h4 | ⟨-, h4⟩)
  · simp [St.around, h1, h2, h3, gp, gn, Guarded] at h4
  · obtain ⟨l, h5, h6⟩ := guarded_toList.1 h4
    have h7 : (s.detached n).lastChild p = s.lastChild p := by
      simp only [St.lastChild, St.detached, St.detachedLinks, h1, h3, St.prevSibling]
      simp [St.upgrade]
    rw [h7, hF.shows.last p hp] at h5
    exact h6 (gk l (List.mem_of_getLast? h5))

theorem deepCopyG_ok : ∀ (T : Trees) (k : Nat) (s : St) (F : Forest) (src par : NodeId) (a l : List NodeId) (it : Children) (t : St),
    Inv s → NodesOk s → Describes s F → s.live src = true → s.live par = true → F.kids src = a ++ l → T.Of F l →
    it = ⟨l.head?, (F.kids src).getLast?⟩ → par ≠ src → par ∉ T.pre → par ∉ F.kids par →
    (∀ j ∈ T.pre, Copyable s j) → T.pre.length + 1 ≤ k →
    (∀ j, g j ≠ .free → s.live j = true) → g par = .free → (∀ x ∈ F.kids par, g x = .free) →
    St.deepCopyAux k s par it = .ok t →
    (St.deepCopyAuxG g k s par it = .ok t ↔
      (∀ x, (F.kids src).getLast? = some x → g x ≠ .excl) ∧ ∀ j ∈ T.pre, ¬ CopyBarred g s j)
  | .nil, k, s, F, src, par, a, l, it, t, h, ok, hF, hsrc, hpar, hk, hT, hit, hne, hnp, hpp, hc, hfuel, gl, gp, gk, e => by
    simp only [Trees.Of] at hT
    subst hT
    obtain ⟨k, rfl⟩ : ∃ k', k = k' + 1 := ⟨k - 1, by simp [Trees.pre] at hfuel; omega⟩
    have h1 := (childrenNext_left hF hsrc hk hit).1 rfl
    have e' : t = s := by
      unfold St.deepCopyAux at e
      split at e
      · exact (Except.ok.inj e).symm
      · next c it' e' => rw [e'] at h1; simp at h1
    subst e'
    simp only [Trees.pre, List.not_mem_nil, false_implies, implies_true, and_true]
    unfold St.deepCopyAuxG
    by_cases hx : ∀ x, (F.kids src).getLast? = some x → g x ≠ .excl
    · rw [childrenNextG_ok (by rw [hit]; exact hx) (by
        rw [hit]; intro _ n hn; simp at hn), bind_ok_left]
      split
      · exact iff_of_true rfl hx
      · next c it' e => rw [e] at h1; simp at h1
    · refine iff_of_false ?_ hx
      push Not at hx
      obtain ⟨x, hx, hx'⟩ := hx
      simp [St.childrenNextG, St.childrenFinishedG, hit, hx, St.nextSiblingG, rd, hx', bind, Except.bind]
  | .cons c K R, k, s, F, src, par, a, l, it, t, h, ok, hF, hsrc, hpar, hk, hT, hit, hne, hnp, hpp, hc, hfuel, gl, gp, gk, e => by
    have gn : ∀ j, s.nextId ≤ j → g j = .free := fun j hj => by
      by_contra hh
      exact Nat.not_lt.2 hj (h.liveBelow j (gl j hh))
    obtain ⟨l2, rfl, hK, hR⟩ := hT
    obtain ⟨k, rfl⟩ : ∃ k', k = k' + 1 := ⟨k - 1, by omega⟩
    simp only [Trees.pre, List.length_cons, List.length_append] at hfuel
    simp only [Trees.pre, List.mem_cons, List.mem_append, not_or] at hnp hc
    have hnext := (childrenNext_left hF hsrc hk hit).2 c l2 rfl
    have hckid : c ∈ F.kids src := by rw [hk]; simp
    have hkl : ∀ x ∈ F.kids src, s.live x = true := fun x hx => (hF.wf.kids src hsrc x hx).1
    have hcl := hkl c hckid
    have hKl : ∀ j ∈ K.pre, s.live j = true := pre_live hF hK fun x hx => (hF.wf.kids c hcl x hx).1
    have hRl : ∀ j ∈ R.pre, s.live j = true := pre_live hF hR fun x hx => hkl x (by rw [hk]; simp [hx])
    -- the copy of `c`
    obtain ⟨s1, e1, h1, ok1, g1, cp1, hF1⟩ := (copyNode_spec h ok hcl).1 (hc c (.inl rfl))
    have q1 := copyNodeG_ok (g := g) h ok hcl (gn _ (Nat.le_refl _)) e1
    obtain ⟨n, hn⟩ : ∃ n, n = s.nextId := ⟨_, rfl⟩
    rw [← hn] at e1 g1 cp1 hF1 q1
    have gnn : g n = .free := gn n (by rw [hn])
    have hF1 := hF1 F hF
    have hndead : s.live n = false := by rw [hn]; exact h.nextId_dead
    have hln : ∀ j, s.live j = true → j ≠ n := by
      rintro j hj rfl; rw [hndead] at hj; simp at hj
    have hl1 : ∀ j, s.live j = true → s1.live j = true := fun j hj => (g1.live j).2 (.inl hj)
    have hn1 : s1.live n = true := (g1.live n).2 (.inr (by simp))
    have hparn : par ≠ n := hln par hpar
    have ak : ∀ j, j ≠ n → (F.add n).kids j = F.kids j := fun j hj => by simp [Forest.add, hj]
    -- append
    obtain ⟨s2, e2, h2, f2, hF2, bk, bp, bs⟩ := append_isolated h1 hF1 (hl1 par hpar) hn1 hparn (by simp [Forest.add])
      (by simp [Forest.add]) (by rw [ak par hparn]; exact hpp)
    have q2 : s1.appendG g par n = .ok s2 := appendG_isolated hF1 (hl1 par hpar) hn1 hparn (by simp [Forest.add])
      (by simp [Forest.add]) gp gnn (by rw [ak par hparn]; exact gk) e2
    have ok2 : NodesOk s2 := ok1.frame f2.data f2.live f2.rootId
    have g2 : Grown s s2 [n] := g1.frame f2
    have hl2 : ∀ j, s.live j = true → s2.live j = true := fun j hj => (g2.live j).2 (.inl hj)
    have hn2 : s2.live n = true := (g2.live n).2 (.inr (by simp))
    obtain ⟨F2, hF2e⟩ : ∃ F2, F2 = (F.add n).append par n := ⟨_, rfl⟩
    rw [← hF2e] at hF2 bk bp bs
    have ck : ∀ j, s.live j = true → j ≠ par → F2.kids j = F.kids j := by
      intro j hj hjp; rw [bk j (hl1 j hj), if_neg hjp, ak j (hln j hj)]
    have ckp : F2.kids par = F.kids par ++ [n] := by
      rw [bk par (hl1 par hpar), if_pos rfl, ak par hparn]
    have ckn : F2.kids n = [] := by
      rw [bk n hn1, if_neg (Ne.symm hparn)]; simp [Forest.add]
    have hkc : F2.kids c = F.kids c := ck c hcl (Ne.symm hnp.1)
    have hK2 : K.Of F2 (F2.kids c) := by
      rw [hkc]
      refine hK.congr fun j hj => ck j (hKl j hj) ?_
      rintro rfl; exact hnp.2.1 hj
    have gl2 : ∀ j, g j ≠ .free → s2.live j = true := fun j hj => hl2 j (gl j hj)
    -- the children of `c`
    have hmid : ∃ s3 U1 l1 G3, (if s2.hasChildren c then St.deepCopyAux k s2 n (s2.children c) else pure s2) = .ok s3 ∧
        Inv s3 ∧ NodesOk s3 ∧ Describes s3 G3 ∧ Grown s2 s3 U1.pre ∧ Trees.Of G3 U1 l1 ∧ G3.kids n = F2.kids n ++ l1 ∧
        (∀ j, s2.live j = true → (j ≠ n → G3.kids j = F2.kids j)) ∧
        (g c ≠ .excl → ((if s2.hasChildren c then do
            let it ← s2.childrenG g c
            St.deepCopyAuxG g k s2 n it
          else pure s2) = .ok s3 ↔ ∀ j ∈ K.pre, ¬ CopyBarred g s j)) := by
      have hkb : (∀ j ∈ K.pre, ¬ CopyBarred g s2 j) ↔ ∀ j ∈ K.pre, ¬ CopyBarred g s j :=
        forall_congr' fun j => forall_congr' fun hj => not_congr (CopyBarred.grown g2 (hKl j hj))
      by_cases hh : s2.hasChildren c = true
      · simp only [hh, if_true]
        have hit2 : s2.children c = ⟨(F2.kids c).head?, (F2.kids c).getLast?⟩ := by
          rw [St.children, hF2.shows.first c (hl2 c hcl), hF2.shows.last c (hl2 c hcl)]
        obtain ⟨s3, U1, l1, G3, a1, a2, a3, a4, a5, a6, a7, a8, a9⟩ := deepCopy_spec K k s2 F2 c n [] (F2.kids c) (s2.children c) h2 ok2 hF2
          (hl2 c hcl) hn2 (by simp) hK2 hit2
          (hln c hcl).symm (fun hm => hln n (hKl n hm) rfl) (by rw [ckn]; simp)
          (fun j hj => (hc j (.inr (.inl hj))).grown h g2 (hKl j hj)) (by omega)
        refine ⟨s3, U1, l1, G3, a1, a2, a3, a4, a5, a6, a8, fun j hj => (a9 j hj).1, fun hx => ?_⟩
        rw [childrenG_ok hx, bind_ok_left, deepCopyG_ok K k s2 F2 c n [] (F2.kids c) (s2.children c) s3 h2 ok2 hF2
          (hl2 c hcl) hn2 (by simp) hK2 hit2
          (hln c hcl).symm (fun hm => hln n (hKl n hm) rfl) (by rw [ckn]; simp)
          (fun j hj => (hc j (.inr (.inl hj))).grown h g2 (hKl j hj)) (by omega) gl2 gnn (by rw [ckn]; simp) a1, hkb]
        refine ⟨fun hb => hb.2, fun hb => ⟨fun x hlast hxx => ?_, hb⟩⟩
        exact hb x (hK2.mem_pre x (List.mem_of_getLast? hlast)) (.inl hxx)
      · simp only [hh]
        have hkn : F2.kids c = [] := by
          simp only [St.hasChildren, hF2.shows.first c (hl2 c hcl)] at hh
          cases hx : F2.kids c with
          | nil => rfl
          | cons x y => rw [hx] at hh; simp at hh
        rw [hkn] at hK2
        have := hK2.nil_list
        subst this
        exact ⟨s2, .nil, [], F2, rfl, h2, ok2, hF2, Grown.nil s2, rfl, by simp, fun j _ _ => rfl,
          fun _ => by simp [Trees.pre, pure, Except.pure]⟩
    obtain ⟨s3, U1, l1, G3, e3, h3, ok3, hG3, g3, hU1, dk, dfr, q3⟩ := hmid
    have g03 : Grown s s3 (n :: U1.pre) := g2.trans g3
    have hl3 : ∀ j, s.live j = true → s3.live j = true := fun j hj => (g03.live j).2 (.inl hj)
    have ek : ∀ j, s.live j = true → j ≠ par → G3.kids j = F.kids j := by
      intro j hj hjp; rw [dfr j (hl2 j hj) (hln j hj), ck j hj hjp]
    have ekp : G3.kids par = F.kids par ++ [n] := by
      rw [dfr par (hl2 par hpar) hparn, ckp]
    have hksrc : G3.kids src = F.kids src := ek src hsrc (Ne.symm hne)
    have e4 : St.deepCopyAux k s3 par ⟨l2.head?, (F.kids src).getLast?⟩ = .ok t := by
      simp only [St.deepCopyAux, hnext, e1, bind, Except.bind, e2] at e
      split at e
      · next hh => rw [if_pos hh] at e3; rw [e3] at e; exact e
      · next hh =>
        rw [if_neg hh] at e3
        have : s2 = s3 := by simpa [pure, Except.pure] using e3
        subst this
        exact e
    -- the remaining children
    have q4 := deepCopyG_ok R k s3 G3 src par (a ++ [c]) l2 ⟨l2.head?, (F.kids src).getLast?⟩ t h3 ok3 hG3 (hl3 src hsrc) (hl3 par hpar)
        (by rw [hksrc, hk]; simp)
        (hR.congr fun j hj => ek j (hRl j hj) (by rintro rfl; exact hnp.2.2 hj))
        (by rw [hksrc]) hne hnp.2.2
        (by rw [ekp, List.mem_append, List.mem_singleton, not_or]; exact ⟨hpp, hparn⟩)
        (fun j hj => (hc j (.inr (.inr hj))).grown h g03 (hRl j hj)) (by omega)
        (fun j hj => hl3 j (gl j hj)) gp
        (by
          intro x hx
          rw [ekp, List.mem_append, List.mem_singleton] at hx
          rcases hx with hx | rfl
          · exact gk x hx
          · exact gnn) e4
    rw [hksrc] at q4
    have hrb : (∀ j ∈ R.pre, ¬ CopyBarred g s3 j) ↔ ∀ j ∈ R.pre, ¬ CopyBarred g s j :=
      forall_congr' fun j => forall_congr' fun hj => not_congr (CopyBarred.grown g03 (hRl j hj))
    rw [hrb] at q4
    have hall : (∀ j ∈ (Trees.cons c K R).pre, ¬ CopyBarred g s j) ↔
        ¬ CopyBarred g s c ∧ (∀ j ∈ K.pre, ¬ CopyBarred g s j) ∧ ∀ j ∈ R.pre, ¬ CopyBarred g s j := by
      simp only [Trees.pre, List.mem_cons, List.mem_append]
      constructor
      · intro hb
        exact ⟨hb c (.inl rfl), fun j hj => hb j (.inr (.inl hj)), fun j hj => hb j (.inr (.inr hj))⟩
      · rintro ⟨b1, b2, b3⟩ j (rfl | hj | hj)
        · exact b1
        · exact b2 j hj
        · exact b3 j hj
    rw [hall]
    obtain ⟨x, hx⟩ : ∃ x, (F.kids src).getLast? = some x := by
      rw [hk]
      cases hl : (a ++ c :: l2).getLast? with
      | none => rw [List.getLast?_eq_none_iff] at hl; simp at hl
      | some x => exact ⟨x, rfl⟩
    have resp : ∀ r, St.deepCopyAuxG g (k + 1) s par it = .ok r → g x ≠ .excl ∧ g c ≠ .excl := by
      intro r hr
      constructor
      · intro hxx
        simp [St.deepCopyAuxG, St.childrenNextG, St.childrenFinishedG, hit, hx, St.nextSiblingG, rd, hxx, bind, Except.bind] at hr
      · intro hxx
        simp only [St.deepCopyAuxG] at hr
        rcases (Respects.childrenNext (g := g) (s := s) (it := it)).1 with ⟨h5, -⟩ | h5
        · rw [h5] at hr; cases hr
        · rw [h5, bind_ok_left, hnext] at hr
          simp [St.copyNodeG, rd, hxx, bind, Except.bind] at hr
    by_cases hx' : g x ≠ .excl ∧ g c ≠ .excl
    · have hstart : St.deepCopyAuxG g (k + 1) s par it = (do
          let (s1, new) ← s.copyNodeG g c
          let s2 ← s1.appendG g par new
          rd g c
          let s3 ← if s2.hasChildren c then do
              let it ← s2.childrenG g c
              St.deepCopyAuxG g k s2 new it
            else pure s2
          St.deepCopyAuxG g k s3 par ⟨l2.head?, (F.kids src).getLast?⟩) := by
        simp only [St.deepCopyAuxG]
        rw [childrenNextG_ok (by rw [hit]; intro y hy; rw [hx] at hy; cases hy; exact hx'.1)
          (by rw [hit]; intro _ y hy; simp only [List.head?_cons, Option.some.injEq] at hy; subst hy; exact hx'.2), bind_ok_left, hnext]
      rw [hstart]
      by_cases hcb : CopyBarred g s c
      · refine iff_of_false ?_ (fun hb => hb.2.1 hcb)
        intro hr
        cases hcg : s.copyNodeG g c with
        | error y => rw [hcg] at hr; cases hr
        | ok r =>
          have hgl : ∀ j, g j ≠ .free → j < s.nextId := fun j hj => h.liveBelow j (gl j hj)
          have := (Respects.copyNode (g := g) (s := s) hgl (h.liveBelow c hcl)).eq_ok hcg
          rw [e1] at this
          cases this
          exact q1.1 hcg hcb
      · rw [q1.2 hcb]
        simp only [bind_ok_left, q2, rd_ok hx'.2]
        have q3 := q3 hx'.2
        have hb : ∀ f : St → Except Err St, (if s2.hasChildren c then s2.childrenG g c >>= fun it => St.deepCopyAuxG g k s2 n it >>= f
            else pure s2 >>= f) = (if s2.hasChildren c then do
              let it ← s2.childrenG g c
              St.deepCopyAuxG g k s2 n it
            else pure s2) >>= f := by
          intro f
          split
          · rw [bind_assoc]
          · rfl
        rw [hb]
        by_cases hKb : ∀ j ∈ K.pre, ¬ CopyBarred g s j
        · rw [q3.2 hKb, bind_ok_left, q4]
          constructor
          · rintro ⟨b1, b2⟩; exact ⟨b1, hcb, hKb, b2⟩
          · rintro ⟨b1, -, -, b2⟩; exact ⟨b1, b2⟩
        · refine iff_of_false ?_ (fun hb => hKb hb.2.2.1)
          intro hr
          obtain ⟨v, hv, hr⟩ := bind_ok.1 hr
          have hpl : (if s2.hasChildren c then St.deepCopyAux k s2 n (s2.children c) else pure s2) = .ok v := by
            by_cases hh : s2.hasChildren c = true
            · simp only [hh, if_true] at hv ⊢
              rw [childrenG_ok hx'.2, bind_ok_left] at hv
              exact (Respects.deepCopyAux k s2 n _ h2 gl2 hn2 (h2.children_live (hl2 c hcl))).eq_ok hv
            · simp only [hh] at hv ⊢
              exact hv
          rw [e3] at hpl
          cases hpl
          exact hKb (q3.1 hv)
    · refine iff_of_false (fun hr => hx' (resp t hr)) ?_
      rintro ⟨b1, b2, -⟩
      exact hx' ⟨b1 x hx, fun hxx => b2 (.inl hxx)⟩

end

end Svgdom
