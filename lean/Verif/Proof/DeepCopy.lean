import Verif.Proof.Copy

/-! `copy_node_deep` in closed form. -/

namespace Svgdom

open Relation

theorem append_isolated {s : St} (h : Inv s) {F : Forest} (hF : Describes s F) {p n : NodeId} (hp : s.live p = true)
    (hn : s.live n = true) (hpn : p ≠ n) (hs : F.sibs n = [n]) (hr : F.par n = none) (hpp : p ∉ F.kids p) :
    ∃ t, s.append p n = .ok t ∧ Inv t ∧ Frame s t ∧ Describes t (F.append p n) ∧
      (∀ j, s.live j = true → (F.append p n).kids j = if j = p then F.kids p ++ [n] else F.kids j) ∧
      (∀ j, (F.append p n).par j = if j = n then some p else F.par j) ∧
      (∀ j, s.live j = true → j ≠ n → j ∉ F.kids p → (F.append p n).sibs j = F.sibs j) := by
  have hk : ∀ j, s.live j = true → n ∉ F.kids j := by
    intro j hj hm
    have := (hF.wf.kids j hj n hm).2
    rw [hr] at this; simp at this
  have hke : ∀ j, s.live j = true → (F.kids j).erase n = F.kids j := fun j hj => List.erase_of_not_mem (hk j hj)
  have hspec := append_spec (h.reps hF) hp hn
  rw [if_neg hpn, if_neg] at hspec
  · obtain ⟨t, e, hreps, hf, _⟩ := hspec
    refine ⟨t, e, (h.append hp hn e).1, hf, hreps.describes, ?_, ?_, ?_⟩
    · intro j hj
      simp only [Forest.append, Forest.attach, Forest.detach, hke p hp, Option.some.injEq]
      by_cases hjp : j = p
      · simp [hjp]
      · simp [Ne.symm hjp, hjp, hke j hj]
    · intro j
      simp only [Forest.append, Forest.attach, Forest.detach]
      split
      · rfl
      · rfl
    · intro j hj hjn hjk
      simp only [Forest.append, Forest.attach, Forest.detach, hke p hp, List.mem_append, List.mem_singleton, hjn, hjk,
        or_self, if_false]
      refine List.erase_of_not_mem fun hm => ?_
      have h1 := (hF.wf.sib j hj n hm).2.1
      have h2 := hF.wf.self_mem j hj
      rw [← h1, hs, List.mem_singleton] at h2
      exact hjn h2
  · rintro (⟨m, hm, _⟩ | hl)
    · simp [Forest.patched, hs, hr, after, before] at hm
    · simp only [Forest.detach, hke p hp] at hl
      exact hpp (List.mem_of_getLast? hl)

theorem Copied.grown {s t u : St} {i n : NodeId} {l : List NodeId} (h : Copied s t i n) (g : Grown t u l) (hn : t.live n = true) :
    Copied s u i n where
  type := by rw [g.types n hn]; exact h.type
  element := fun e => by rw [g.tags n hn, g.attrs n hn, g.texts n hn]; exact h.element e
  other := fun e => by rw [g.tags n hn, g.attrs n hn, g.texts n hn]; exact h.other e
  id := by rw [g.ids n hn]; exact h.id

theorem Copied.source {s t u : St} {i n : NodeId} {l : List NodeId} (g : Grown s t l) (hi : s.live i = true)
    (h : Copied t u i n) : Copied s u i n where
  type := by rw [h.type, g.types i hi]
  element := fun e => by
    rw [← g.types i hi] at e; rw [← g.tags i hi, ← g.attrs i hi]; exact h.element e
  other := fun e => by
    rw [← g.types i hi] at e; rw [← g.texts i hi]; exact h.other e
  id := h.id

theorem CopyOf.mono {s s' t t' : St} {l l' : List NodeId} (g : Grown s s' l) (g' : Grown t t' l') :
    ∀ {T U : Trees}, (∀ j ∈ T.pre, s.live j = true) → (∀ j ∈ U.pre, t.live j = true) → T.CopyOf s' t U → T.CopyOf s t' U
  | .nil, .nil, _, _, _ => trivial
  | .nil, .cons _ _ _, _, _, h => h.elim
  | .cons _ _ _, .nil, _, _, h => h.elim
  | .cons i K R, .cons n K' R', hT, hU, h => by
    simp only [Trees.pre, List.mem_cons, List.mem_append] at hT hU
    exact ⟨(h.1.source g (hT i (.inl rfl))).grown g' (hU n (.inl rfl)),
      CopyOf.mono g g' (fun j hj => hT j (.inr (.inl hj))) (fun j hj => hU j (.inr (.inl hj))) h.2.1,
      CopyOf.mono g g' (fun j hj => hT j (.inr (.inr hj))) (fun j hj => hU j (.inr (.inr hj))) h.2.2⟩

theorem Copyable.grown {s t : St} {l : List NodeId} (h : Inv s) (g : Grown s t l) {i : NodeId} (hi : s.live i = true)
    (hc : Copyable s i) : Copyable t i := by
  refine ⟨by rw [g.types i hi]; exact hc.1, ?_⟩
  intro e a ha m hm
  rw [g.attrs i hi] at ha
  rw [g.types i hi] at e
  rw [g.ids m (h.link.targets i hi a ha m (refersTo_iff.1 hm))]
  exact hc.2 e a ha m hm

/-- The iterator over the children of `src` when `l` is left. -/
theorem childrenNext_left {s : St} {F : Forest} (hF : Describes s F) {src : NodeId} (hs : s.live src = true) {a l : List NodeId}
    (hk : F.kids src = a ++ l) {it : Children} (hit : it = ⟨l.head?, (F.kids src).getLast?⟩) :
    (l = [] → (s.childrenNext it).1 = none) ∧
    (∀ c l', l = c :: l' → s.childrenNext it = (some c, ⟨l'.head?, (F.kids src).getLast?⟩)) := by
  have hnx : ∀ x, (F.kids src).getLast? = some x → s.nextSibling x = none := by
    intro x hx
    obtain ⟨h1, h2⟩ := hF.wf.kids src hs x (List.mem_of_getLast? hx)
    have h3 := (hF.wf.par x h1 src h2).2
    rw [hF.shows.next x h1, ← h3]
    exact after_last_none (hF.wf.kids_nodup hs) hx
  subst hit
  constructor
  · rintro rfl
    unfold St.childrenNext St.childrenFinished
    cases hl : (F.kids src).getLast? with
    | none => simp
    | some x => simp [hnx x hl]
  · rintro c l' rfl
    obtain ⟨x, hx⟩ : ∃ x, (F.kids src).getLast? = some x := by
      rw [hk]
      cases hl : (a ++ c :: l').getLast? with
      | none => rw [List.getLast?_eq_none_iff] at hl; simp at hl
      | some x => exact ⟨x, rfl⟩
    have hc : c ∈ F.kids src := by rw [hk]; simp
    obtain ⟨h1, h2⟩ := hF.wf.kids src hs c hc
    have h3 := (hF.wf.par c h1 src h2).2
    have hnc : s.nextSibling c = l'.head? := by
      rw [hF.shows.next c h1, ← h3, hk]
      refine after_split ?_
      have := hF.wf.kids_nodup hs
      rw [hk] at this
      exact fun hm => (List.nodup_append.1 this).2.2 c hm c (by simp) rfl
    simp [St.childrenNext, St.childrenFinished, hx, hnx x hx, hnc]

theorem deepCopy_depth : ∀ (T : Trees) (k : Nat) (s : St) (F : Forest) (src par : NodeId) (a l : List NodeId) (it : Children),
    Inv s → NodesOk s → Describes s F → s.live src = true → s.live par = true → F.kids src = a ++ l → T.Of F l →
    it = ⟨l.head?, (F.kids src).getLast?⟩ → par ≠ src → par ∉ T.pre → par ∉ F.kids par →
    (∀ j ∈ T.pre, Copyable s j) → T.pre.length + 1 ≤ k →
    ∃ t U l' G, St.deepCopyAux k s par it = .ok t ∧ Inv t ∧ NodesOk t ∧ Describes t G ∧ Grown s t U.pre ∧ U.Of G l' ∧
      T.CopyOf s t U ∧ G.kids par = F.kids par ++ l' ∧
      (∀ j, s.live j = true → (j ≠ par → G.kids j = F.kids j) ∧ G.par j = F.par j ∧ (j ∉ F.kids par → G.sibs j = F.sibs j)) ∧
      ∀ d, St.deepCopyAuxS d k s par it = if T.height ≤ d + 1 then .ok t else .error .overflow
  | .nil, k, s, F, src, par, a, l, it, h, ok, hF, hsrc, hpar, hk, hT, hit, hne, hnp, hpp, hc, hfuel => by
    simp only [Trees.Of] at hT
    subst hT
    obtain ⟨k, rfl⟩ : ∃ k', k = k' + 1 := ⟨k - 1, by simp [Trees.pre] at hfuel; omega⟩
    have h1 := (childrenNext_left hF hsrc hk hit).1 rfl
    refine ⟨s, .nil, [], F, ?_, h, ok, hF, Grown.nil s, rfl, trivial, by simp, fun j _ => ⟨fun _ => rfl, rfl, fun _ => rfl⟩, ?_⟩
    · unfold St.deepCopyAux
      split
      · rfl
      · next c it' e => rw [e] at h1; simp at h1
    · intro d
      unfold St.deepCopyAuxS
      simp only [Trees.height, Nat.zero_le, if_true]
      split
      · rfl
      · next c it' e => rw [e] at h1; simp at h1
  | .cons c K R, k, s, F, src, par, a, l, it, h, ok, hF, hsrc, hpar, hk, hT, hit, hne, hnp, hpp, hc, hfuel => by
    obtain ⟨l2, rfl, hK, hR⟩ := hT
    obtain ⟨k, rfl⟩ : ∃ k', k = k' + 1 := ⟨k - 1, by omega⟩
    simp only [Trees.pre, List.length_cons, List.length_append] at hfuel
    simp only [Trees.pre, List.mem_cons, List.mem_append, not_or] at hnp hc
    have hnext := (childrenNext_left hF hsrc hk hit).2 c l2 rfl
    have hckid : c ∈ F.kids src := by rw [hk]; simp
    have hkl : ∀ x ∈ F.kids src, s.live x = true := fun x hx => (hF.wf.kids src hsrc x hx).1
    have hcl := hkl c hckid
    have hKl : ∀ j ∈ K.pre, s.live j = true := pre_live hF hK fun x hx => (hF.wf.kids c hcl x hx).1
    have hRl : ∀ j ∈ R.pre, s.live j = true := pre_live hF hR fun x hx => hkl x (by rw [hk]; simp [hx])
    -- the copy of `c`
    obtain ⟨s1, e1, h1, ok1, g1, cp1, hF1⟩ := (copyNode_spec h ok hcl).1 (hc c (.inl rfl))
    obtain ⟨n, hn⟩ : ∃ n, n = s.nextId := ⟨_, rfl⟩
    rw [← hn] at e1 g1 cp1 hF1
    have hF1 := hF1 F hF
    have hndead : s.live n = false := by rw [hn]; exact h.nextId_dead
    have hln : ∀ j, s.live j = true → j ≠ n := by
      rintro j hj rfl; rw [hndead] at hj; simp at hj
    have hl1 : ∀ j, s.live j = true → s1.live j = true := fun j hj => (g1.live j).2 (.inl hj)
    have hn1 : s1.live n = true := (g1.live n).2 (.inr (by simp))
    have hparn : par ≠ n := hln par hpar
    have ak : ∀ j, j ≠ n → (F.add n).kids j = F.kids j := fun j hj => by simp [Forest.add, hj]
    have as : ∀ j, j ≠ n → (F.add n).sibs j = F.sibs j := fun j hj => by simp [Forest.add, hj]
    have ap : ∀ j, j ≠ n → (F.add n).par j = F.par j := fun j hj => by simp [Forest.add, hj]
    -- append
    obtain ⟨s2, e2, h2, f2, hF2, bk, bp, bs⟩ := append_isolated h1 hF1 (hl1 par hpar) hn1 hparn (by simp [Forest.add])
      (by simp [Forest.add]) (by rw [ak par hparn]; exact hpp)
    have ok2 : NodesOk s2 := ok1.frame f2.data f2.live f2.rootId
    have g2 : Grown s s2 [n] := g1.frame f2
    have g12 : Grown s1 s2 [] := (Grown.nil s1).frame f2
    have hl2 : ∀ j, s.live j = true → s2.live j = true := fun j hj => (g2.live j).2 (.inl hj)
    have hn2 : s2.live n = true := (g2.live n).2 (.inr (by simp))
    obtain ⟨F2, hF2e⟩ : ∃ F2, F2 = (F.add n).append par n := ⟨_, rfl⟩
    rw [← hF2e] at hF2 bk bp bs
    have ck : ∀ j, s.live j = true → j ≠ par → F2.kids j = F.kids j := by
      intro j hj hjp; rw [bk j (hl1 j hj), if_neg hjp, ak j (hln j hj)]
    have ckp : F2.kids par = F.kids par ++ [n] := by
      rw [bk par (hl1 par hpar), if_pos rfl, ak par hparn]
    have ckn : F2.kids n = [] := by
      rw [bk n hn1, if_neg (Ne.symm hparn)]; simp [Forest.add]
    have cp : ∀ j, s.live j = true → F2.par j = F.par j := by
      intro j hj; rw [bp, if_neg (hln j hj), ap j (hln j hj)]
    have cs : ∀ j, s.live j = true → j ∉ F.kids par → F2.sibs j = F.sibs j := by
      intro j hj hjk
      rw [bs j (hl1 j hj) (hln j hj) (by rw [ak par hparn]; exact hjk), as j (hln j hj)]
    have hkc : F2.kids c = F.kids c := ck c hcl (Ne.symm hnp.1)
    have hK2 : K.Of F2 (F2.kids c) := by
      rw [hkc]
      refine hK.congr fun j hj => ck j (hKl j hj) ?_
      rintro rfl; exact hnp.2.1 hj
    -- the children of `c`
    have hmid : ∃ s3 U1 l1 G3, (if s2.hasChildren c then St.deepCopyAux k s2 n (s2.children c) else pure s2) = .ok s3 ∧
        Inv s3 ∧ NodesOk s3 ∧ Describes s3 G3 ∧ Grown s2 s3 U1.pre ∧ Trees.Of G3 U1 l1 ∧
        Trees.CopyOf s2 s3 K U1 ∧ G3.kids n = F2.kids n ++ l1 ∧
        (∀ j, s2.live j = true → (j ≠ n → G3.kids j = F2.kids j) ∧ G3.par j = F2.par j ∧
          (j ∉ F2.kids n → G3.sibs j = F2.sibs j)) ∧
        ∀ d, (if s2.hasChildren c then nested d fun d => St.deepCopyAuxS d k s2 n (s2.children c) else pure s2) = if K.height ≤ d then .ok s3 else .error .overflow := by
      split
      · next hh =>
        obtain ⟨s3, U1, l1, G3, a1, a2, a3, a4, a5, a6, a7, a8, a9, a10⟩ := deepCopy_depth K k s2 F2 c n [] (F2.kids c) (s2.children c) h2 ok2 hF2
          (hl2 c hcl) hn2 (by simp) hK2 (by rw [St.children, hF2.shows.first c (hl2 c hcl), hF2.shows.last c (hl2 c hcl)])
          (hln c hcl).symm (fun hm => hln n (hKl n hm) rfl) (by rw [ckn]; simp)
          (fun j hj => (hc j (.inr (.inl hj))).grown h g2 (hKl j hj)) (by omega)
        refine ⟨s3, U1, l1, G3, a1, a2, a3, a4, a5, a6, a7, a8, a9, fun d => ?_⟩
        cases d with
        | zero =>
          have hk0 : K ≠ .nil := by
            rintro rfl
            simp only [Trees.Of] at hK2
            simp only [St.hasChildren, hF2.shows.first c (hl2 c hcl), hK2] at hh
            simp at hh
          cases K with
          | nil => exact absurd rfl hk0
          | cons x y z => simp [hh, Trees.height, nested]
        | succ d => simp only [hh, if_true, nested]; exact a10 d
      · next hh =>
        have hkn : F2.kids c = [] := by
          simp only [St.hasChildren, hF2.shows.first c (hl2 c hcl)] at hh
          cases hx : F2.kids c with
          | nil => rfl
          | cons x y => rw [hx] at hh; simp at hh
        rw [hkn] at hK2
        have := hK2.nil_list
        subst this
        exact ⟨s2, .nil, [], F2, rfl, h2, ok2, hF2, Grown.nil s2, rfl, trivial, by simp,
          fun j _ => ⟨fun _ => rfl, rfl, fun _ => rfl⟩, fun d => by simp [hh, Trees.height, pure, Except.pure]⟩
    obtain ⟨s3, U1, l1, G3, e3, h3, ok3, hG3, g3, hU1, cp3, dk, dfr, q3⟩ := hmid
    have g03 : Grown s s3 (n :: U1.pre) := g2.trans g3
    have hl3 : ∀ j, s.live j = true → s3.live j = true := fun j hj => (g03.live j).2 (.inl hj)
    have ek : ∀ j, s.live j = true → j ≠ par → G3.kids j = F.kids j := by
      intro j hj hjp; rw [(dfr j (hl2 j hj)).1 (hln j hj), ck j hj hjp]
    have ekp : G3.kids par = F.kids par ++ [n] := by
      rw [(dfr par (hl2 par hpar)).1 hparn, ckp]
    have hksrc : G3.kids src = F.kids src := ek src hsrc (Ne.symm hne)
    -- the remaining children
    obtain ⟨t, U2, l2', G, e4, h4, ok4, hG, g4, hU2, cp4, ek4, efr, q4⟩ :=
      deepCopy_depth R k s3 G3 src par (a ++ [c]) l2 ⟨l2.head?, (F.kids src).getLast?⟩ h3 ok3 hG3 (hl3 src hsrc) (hl3 par hpar)
        (by rw [hksrc, hk]; simp)
        (hR.congr fun j hj => ek j (hRl j hj) (by rintro rfl; exact hnp.2.2 hj))
        (by rw [hksrc]) hne hnp.2.2
        (by rw [ekp, List.mem_append, List.mem_singleton, not_or]; exact ⟨hpp, hparn⟩)
        (fun j hj => (hc j (.inr (.inr hj))).grown h g03 (hRl j hj)) (by omega)
    have hU1l : ∀ j ∈ U1.pre, s3.live j = true := fun j hj => (g3.live j).2 (.inr hj)
    have hn3 : s3.live n = true := (g3.live n).2 (.inl hn2)
    have gt : Grown s t ((n :: U1.pre) ++ U2.pre) := g03.trans g4
    refine ⟨t, .cons n U1 U2, n :: l2', G, ?_, h4, ok4, hG, ?_, ?_, ?_, ?_, ?_, ?_⟩
    · simp only [St.deepCopyAux, hnext, e1, bind, Except.bind, e2]
      split
      · next hh => rw [if_pos hh] at e3; rw [e3]; exact e4
      · next hh =>
        rw [if_neg hh] at e3
        have : s2 = s3 := by simpa [pure, Except.pure] using e3
        subst this
        exact e4
    · simpa [Trees.pre] using gt
    · refine ⟨l2', rfl, ?_, hU2⟩
      have hGn : G.kids n = l1 := by
        rw [(efr n hn3).1 (Ne.symm hparn), dk, ckn]; rfl
      rw [hGn]
      refine hU1.congr fun j hj => (efr j (hU1l j hj)).1 ?_
      rintro rfl
      have h5 := g3.fresh j hj
      exact absurd (h2.liveBelow j (hl2 j hpar)) (Nat.not_lt.2 h5)
    · refine ⟨?_, ?_, ?_⟩
      · exact (cp1.grown g12 hn1).grown (g3.trans g4) hn2
      · exact CopyOf.mono g2 g4 hKl hU1l cp3
      · refine CopyOf.mono g03 (Grown.nil t) hRl ?_ cp4
        intro j hj; exact (gt.live j).2 (.inr (by simp [hj]))
    · rw [ek4, ekp, List.append_assoc]; rfl
    · intro j hj
      obtain ⟨q1, q2, q3⟩ := efr j (hl3 j hj)
      obtain ⟨r1, r2, r3⟩ := dfr j (hl2 j hj)
      refine ⟨?_, ?_, ?_⟩
      · intro hjp; rw [q1 hjp, ek j hj hjp]
      · rw [q2, r2, cp j hj]
      · intro hjk
        rw [q3 (by rw [ekp, List.mem_append, List.mem_singleton, not_or]; exact ⟨hjk, hln j hj⟩),
          r3 (by rw [ckn]; simp), cs j hj hjk]
    · intro d
      have hd := q3 d
      have : St.deepCopyAuxS d (k + 1) s par it = (if s2.hasChildren c then nested d fun d => St.deepCopyAuxS d k s2 n (s2.children c) else pure s2).bind fun s3 =>
            St.deepCopyAuxS d k s3 par ⟨l2.head?, (F.kids src).getLast?⟩ := by
        simp only [St.deepCopyAuxS, hnext, e1, step, bind, Except.bind, e2, Except.mapError]
        split <;> rfl
      rw [this, hd]
      simp only [Trees.height]
      by_cases h1 : K.height ≤ d
      · simp only [h1, if_true, Except.bind, q4 d]
        have : max (K.height + 1) R.height ≤ d + 1 ↔ R.height ≤ d + 1 := by omega
        simp only [this]
      · have : ¬ max (K.height + 1) R.height ≤ d + 1 := by omega
        simp only [h1, if_false, Except.bind, this]

theorem deepCopy_spec : ∀ (T : Trees) (k : Nat) (s : St) (F : Forest) (src par : NodeId) (a l : List NodeId) (it : Children),
    Inv s → NodesOk s → Describes s F → s.live src = true → s.live par = true → F.kids src = a ++ l → T.Of F l →
    it = ⟨l.head?, (F.kids src).getLast?⟩ → par ≠ src → par ∉ T.pre → par ∉ F.kids par →
    (∀ j ∈ T.pre, Copyable s j) → T.pre.length + 1 ≤ k →
    ∃ t U l' G, St.deepCopyAux k s par it = .ok t ∧ Inv t ∧ NodesOk t ∧ Describes t G ∧ Grown s t U.pre ∧ U.Of G l' ∧
      T.CopyOf s t U ∧ G.kids par = F.kids par ++ l' ∧
      (∀ j, s.live j = true → (j ≠ par → G.kids j = F.kids j) ∧ G.par j = F.par j ∧ (j ∉ F.kids par → G.sibs j = F.sibs j)) := by
  intro T k s F src par a l it a1 a2 a3 a4 a5 a6 a7 a8 a9 a10 a11 a12 a13
  obtain ⟨t, U, l', G, b1, b2, b3, b4, b5, b6, b7, b8, b9, _⟩ := deepCopy_depth T k s F src par a l it a1 a2 a3 a4 a5 a6 a7 a8 a9 a10 a11 a12 a13
  exact ⟨t, U, l', G, b1, b2, b3, b4, b5, b6, b7, b8, b9⟩

theorem Copyable.back {s t : St} {l : List NodeId} (h : Inv s) (g : Grown s t l) {i : NodeId} (hi : s.live i = true)
    (hc : Copyable t i) : Copyable s i := by
  refine ⟨by rw [← g.types i hi]; exact hc.1, ?_⟩
  intro e a ha m hm
  rw [← g.ids m (h.link.targets i hi a ha m (refersTo_iff.1 hm))]
  exact hc.2 (by rw [g.types i hi]; exact e) a (by rw [g.attrs i hi]; exact ha) m hm

/-- A node that cannot be copied stops the deep copy. -/
theorem deepCopy_panics : ∀ (T : Trees) (k : Nat) (s : St) (F : Forest) (src par : NodeId) (a l : List NodeId) (it : Children),
    Inv s → NodesOk s → Describes s F → s.live src = true → s.live par = true → F.kids src = a ++ l → T.Of F l →
    it = ⟨l.head?, (F.kids src).getLast?⟩ → par ≠ src → par ∉ T.pre → par ∉ F.kids par →
    (∃ j ∈ T.pre, ¬ Copyable s j) → T.pre.length + 1 ≤ k → ∃ p, St.deepCopyAux k s par it = .error (.panic p)
  | .nil, k, s, F, src, par, a, l, it, h, ok, hF, hsrc, hpar, hk, hT, hit, hne, hnp, hpp, hbad, hfuel => by
    obtain ⟨j, hj, _⟩ := hbad
    simp [Trees.pre] at hj
  | .cons c K R, k, s, F, src, par, a, l, it, h, ok, hF, hsrc, hpar, hk, hT, hit, hne, hnp, hpp, hbad, hfuel => by
    obtain ⟨l2, rfl, hK, hR⟩ := hT
    obtain ⟨k, rfl⟩ : ∃ k', k = k' + 1 := ⟨k - 1, by omega⟩
    simp only [Trees.pre, List.length_cons, List.length_append] at hfuel
    simp only [Trees.pre, List.mem_cons, List.mem_append, not_or] at hnp
    have hnext := (childrenNext_left hF hsrc hk hit).2 c l2 rfl
    have hckid : c ∈ F.kids src := by rw [hk]; simp
    have hkl : ∀ x ∈ F.kids src, s.live x = true := fun x hx => (hF.wf.kids src hsrc x hx).1
    have hcl := hkl c hckid
    have hKl : ∀ j ∈ K.pre, s.live j = true := pre_live hF hK fun x hx => (hF.wf.kids c hcl x hx).1
    have hRl : ∀ j ∈ R.pre, s.live j = true := pre_live hF hR fun x hx => hkl x (by rw [hk]; simp [hx])
    by_cases hcc : Copyable s c
    case neg =>
      obtain ⟨p, e⟩ := (copyNode_spec h ok hcl).2 hcc
      exact ⟨p, by simp only [St.deepCopyAux, hnext, e, bind, Except.bind]⟩
    -- the copy of `c`
    obtain ⟨s1, e1, h1, ok1, g1, cp1, hF1⟩ := (copyNode_spec h ok hcl).1 hcc
    obtain ⟨n, hn⟩ : ∃ n, n = s.nextId := ⟨_, rfl⟩
    rw [← hn] at e1 g1 cp1 hF1
    have hF1 := hF1 F hF
    have hndead : s.live n = false := by rw [hn]; exact h.nextId_dead
    have hln : ∀ j, s.live j = true → j ≠ n := by
      rintro j hj rfl; rw [hndead] at hj; simp at hj
    have hl1 : ∀ j, s.live j = true → s1.live j = true := fun j hj => (g1.live j).2 (.inl hj)
    have hn1 : s1.live n = true := (g1.live n).2 (.inr (by simp))
    have hparn : par ≠ n := hln par hpar
    have ak : ∀ j, j ≠ n → (F.add n).kids j = F.kids j := fun j hj => by simp [Forest.add, hj]
    have as : ∀ j, j ≠ n → (F.add n).sibs j = F.sibs j := fun j hj => by simp [Forest.add, hj]
    have ap : ∀ j, j ≠ n → (F.add n).par j = F.par j := fun j hj => by simp [Forest.add, hj]
    -- append
    obtain ⟨s2, e2, h2, f2, hF2, bk, bp, bs⟩ := append_isolated h1 hF1 (hl1 par hpar) hn1 hparn (by simp [Forest.add])
      (by simp [Forest.add]) (by rw [ak par hparn]; exact hpp)
    have ok2 : NodesOk s2 := ok1.frame f2.data f2.live f2.rootId
    have g2 : Grown s s2 [n] := g1.frame f2
    have g12 : Grown s1 s2 [] := (Grown.nil s1).frame f2
    have hl2 : ∀ j, s.live j = true → s2.live j = true := fun j hj => (g2.live j).2 (.inl hj)
    have hn2 : s2.live n = true := (g2.live n).2 (.inr (by simp))
    obtain ⟨F2, hF2e⟩ : ∃ F2, F2 = (F.add n).append par n := ⟨_, rfl⟩
    rw [← hF2e] at hF2 bk bp bs
    have ck : ∀ j, s.live j = true → j ≠ par → F2.kids j = F.kids j := by
      intro j hj hjp; rw [bk j (hl1 j hj), if_neg hjp, ak j (hln j hj)]
    have ckp : F2.kids par = F.kids par ++ [n] := by
      rw [bk par (hl1 par hpar), if_pos rfl, ak par hparn]
    have ckn : F2.kids n = [] := by
      rw [bk n hn1, if_neg (Ne.symm hparn)]; simp [Forest.add]
    have cp : ∀ j, s.live j = true → F2.par j = F.par j := by
      intro j hj; rw [bp, if_neg (hln j hj), ap j (hln j hj)]
    have cs : ∀ j, s.live j = true → j ∉ F.kids par → F2.sibs j = F.sibs j := by
      intro j hj hjk
      rw [bs j (hl1 j hj) (hln j hj) (by rw [ak par hparn]; exact hjk), as j (hln j hj)]
    have hkc : F2.kids c = F.kids c := ck c hcl (Ne.symm hnp.1)
    have hK2 : K.Of F2 (F2.kids c) := by
      rw [hkc]
      refine hK.congr fun j hj => ck j (hKl j hj) ?_
      rintro rfl; exact hnp.2.1 hj
    by_cases hKc : ∀ j ∈ K.pre, Copyable s j
    case neg =>
      obtain ⟨j, hj, hjc⟩ : ∃ j ∈ K.pre, ¬ Copyable s j := by push Not at hKc; exact hKc
      have hh : s2.hasChildren c = true := by
        simp only [St.hasChildren, hF2.shows.first c (hl2 c hcl)]
        cases hx : F2.kids c with
        | nil =>
          rw [hx] at hK2
          have := hK2.nil_list
          subst this
          simp [Trees.pre] at hj
        | cons x y => rfl
      obtain ⟨p, e⟩ := deepCopy_panics K k s2 F2 c n [] (F2.kids c) (s2.children c) h2 ok2 hF2
        (hl2 c hcl) hn2 (by simp) hK2 (by rw [St.children, hF2.shows.first c (hl2 c hcl), hF2.shows.last c (hl2 c hcl)])
        (hln c hcl).symm (fun hm => hln n (hKl n hm) rfl) (by rw [ckn]; simp)
        ⟨j, hj, fun hc => hjc (hc.back h g2 (hKl j hj))⟩ (by omega)
      exact ⟨p, by simp only [St.deepCopyAux, hnext, e1, bind, Except.bind, e2, hh, if_true, e]⟩
    have hRc : ∃ j ∈ R.pre, ¬ Copyable s j := by
      obtain ⟨j, hj, hjc⟩ := hbad
      simp only [Trees.pre, List.mem_cons, List.mem_append] at hj
      rcases hj with rfl | hj | hj
      · exact absurd hcc hjc
      · exact absurd (hKc j hj) hjc
      · exact ⟨j, hj, hjc⟩
    have hmid : ∃ s3 l1 G3, (if s2.hasChildren c then St.deepCopyAux k s2 n (s2.children c) else pure s2) = .ok s3 ∧
        Inv s3 ∧ NodesOk s3 ∧ Describes s3 G3 ∧ Grown s2 s3 l1 ∧ ∀ j, s2.live j = true → j ≠ n → G3.kids j = F2.kids j := by
      split
      · next hh =>
        obtain ⟨s3, U1, l1, G3, a1, a2, a3, a4, a5, a6, a7, a8, a9⟩ := deepCopy_spec K k s2 F2 c n [] (F2.kids c) (s2.children c) h2 ok2 hF2
          (hl2 c hcl) hn2 (by simp) hK2 (by rw [St.children, hF2.shows.first c (hl2 c hcl), hF2.shows.last c (hl2 c hcl)])
          (hln c hcl).symm (fun hm => hln n (hKl n hm) rfl) (by rw [ckn]; simp)
          (fun j hj => (hKc j hj).grown h g2 (hKl j hj)) (by omega)
        exact ⟨s3, _, G3, a1, a2, a3, a4, a5, fun j hj hjn => (a9 j hj).1 hjn⟩
      · exact ⟨s2, [], F2, rfl, h2, ok2, hF2, Grown.nil s2, fun _ _ _ => rfl⟩
    obtain ⟨s3, l1, G3, e3, h3, ok3, hG3, g3, dk⟩ := hmid
    have g03 : Grown s s3 (n :: l1) := g2.trans g3
    have hl3 : ∀ j, s.live j = true → s3.live j = true := fun j hj => (g03.live j).2 (.inl hj)
    have ek : ∀ j, s.live j = true → j ≠ par → G3.kids j = F.kids j := by
      intro j hj hjp; rw [dk j (hl2 j hj) (hln j hj), ck j hj hjp]
    have ekp : G3.kids par = F.kids par ++ [n] := by
      rw [dk par (hl2 par hpar) hparn, ckp]
    have hksrc : G3.kids src = F.kids src := ek src hsrc (Ne.symm hne)
    obtain ⟨j, hj, hjc⟩ := hRc
    obtain ⟨p, e4⟩ := deepCopy_panics R k s3 G3 src par (a ++ [c]) l2 ⟨l2.head?, (F.kids src).getLast?⟩ h3 ok3 hG3 (hl3 src hsrc) (hl3 par hpar)
        (by rw [hksrc, hk]; simp)
        (hR.congr fun j hj => ek j (hRl j hj) (by rintro rfl; exact hnp.2.2 hj))
        (by rw [hksrc]) hne hnp.2.2
        (by rw [ekp, List.mem_append, List.mem_singleton, not_or]; exact ⟨hpp, hparn⟩)
        ⟨j, hj, fun hc => hjc (hc.back h g03 (hRl j hj))⟩ (by omega)
    refine ⟨p, ?_⟩
    simp only [St.deepCopyAux, hnext, e1, bind, Except.bind, e2]
    split
    · next hh => rw [if_pos hh] at e3; rw [e3]; exact e4
    · next hh =>
      rw [if_neg hh] at e3
      have : s2 = s3 := by simpa [pure, Except.pure] using e3
      subst this
      exact e4

end Svgdom
