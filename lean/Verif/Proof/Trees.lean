import Verif.Proof.Acyclic
import Verif.Proof.Deque
import Mathlib.Data.List.Perm.Subperm
import Mathlib.Data.List.Chain

/-! Finite trees below the nodes of an acyclic state. -/

namespace Svgdom

open Relation

theorem Trees.Of.nil_list {F : Forest} {T : Trees} (h : T.Of F []) : T = .nil := by
  cases T with
  | nil => rfl
  | cons i k r => obtain ⟨l', e, _⟩ := h; simp at e

theorem Trees.Of.cons_list {F : Forest} {T : Trees} {i : NodeId} {l : List NodeId} (h : T.Of F (i :: l)) :
    ∃ k r, T = .cons i k r ∧ k.Of F (F.kids i) ∧ r.Of F l := by
  cases T with
  | nil => simp [Trees.Of] at h
  | cons j k r =>
    obtain ⟨l', e, h1, h2⟩ := h
    simp only [List.cons.injEq] at e
    obtain ⟨rfl, rfl⟩ := e
    exact ⟨k, r, rfl, h1, h2⟩

theorem Trees.Of.unique {F : Forest} : ∀ {T U : Trees} {l : List NodeId}, T.Of F l → U.Of F l → T = U
  | .nil, U, l, h1, h2 => by
    simp only [Trees.Of] at h1; subst h1; exact h2.nil_list.symm
  | .cons i k r, U, l, h1, h2 => by
    obtain ⟨l', rfl, hk, hr⟩ := h1
    obtain ⟨k', r', rfl, hk', hr'⟩ := h2.cons_list
    rw [hk.unique hk', hr.unique hr']

variable {s : St} {F : Forest}

/-- Existence of subtrees. -/
theorem trees_exist (h : Inv s) (hF : Describes s F) (ha : s.Acyclic) :
    ∀ l : List NodeId, (∀ i ∈ l, s.live i = true) → ∃ T : Trees, T.Of F l := by
  obtain ⟨r, hr, hle⟩ := ranked_of_acyclic ha h.liveBelow
  obtain ⟨N, hN⟩ : ∃ N : Nat, N = s.nextId := ⟨_, rfl⟩
  rw [← hN] at hle
  have key : ∀ n, ∀ l : List NodeId, (∀ i ∈ l, s.live i = true ∧ N - r i ≤ n) → ∃ T : Trees, T.Of F l := by
    intro n
    induction n with
    | zero =>
      intro l
      induction l with
      | nil => intro _; exact ⟨.nil, rfl⟩
      | cons i l ih =>
        intro hl
        obtain ⟨T, hT⟩ := ih (fun j hj => hl j (by simp [hj]))
        obtain ⟨hi, hri⟩ := hl i (by simp)
        have hk : F.kids i = [] := by
          cases hk : F.kids i with
          | nil => rfl
          | cons c t =>
            have hc := hF.wf.kids i hi c (by simp [hk])
            have := hr c hc.1 i (by rw [hF.shows.parent c hc.1, hc.2])
            have := hle c
            omega
        exact ⟨.cons i .nil T, l, rfl, by rw [hk]; rfl, hT⟩
    | succ n ihn =>
      intro l
      induction l with
      | nil => intro _; exact ⟨.nil, rfl⟩
      | cons i l ih =>
        intro hl
        obtain ⟨T, hT⟩ := ih (fun j hj => hl j (by simp [hj]))
        obtain ⟨hi, hri⟩ := hl i (by simp)
        obtain ⟨K, hK⟩ := ihn (F.kids i) (by
          intro c hc
          have hc := hF.wf.kids i hi c hc
          have := hr c hc.1 i (by rw [hF.shows.parent c hc.1, hc.2])
          exact ⟨hc.1, by omega⟩)
        exact ⟨.cons i K T, l, rfl, hK, hT⟩
  intro l hl
  exact key N l fun i hi => ⟨hl i hi, Nat.sub_le _ _⟩

/-- The nodes of the subtrees at `l` are the nodes below some node of `l`. -/
theorem mem_pre (hF : Describes s F) : ∀ {T : Trees} {l : List NodeId}, T.Of F l → (∀ i ∈ l, s.live i = true) →
    ∀ j, s.live j = true → (j ∈ T.pre ↔ ∃ i ∈ l, s.InSubtree i j)
  | .nil, l, hT, _, j, _ => by simp only [Trees.Of] at hT; subst hT; simp [Trees.pre]
  | .cons i k r, l, hT, hl, j, hj => by
    obtain ⟨l', rfl, hk, hr⟩ := hT
    have hi := hl i (by simp)
    have hkl : ∀ c ∈ F.kids i, s.live c = true := fun c hc => (hF.wf.kids i hi c hc).1
    have h1 := mem_pre hF hk hkl j hj
    have h2 := mem_pre hF hr (fun c hc => hl c (by simp [hc])) j hj
    simp only [Trees.pre, List.mem_cons, List.mem_append, h1, h2, exists_eq_or_imp]
    constructor
    · rintro (rfl | ⟨c, hc, hs⟩ | h)
      · left; exact .refl
      · left
        have hp : s.parent c = some i := by rw [hF.shows.parent c (hkl c hc)]; exact (hF.wf.kids i hi c hc).2
        exact hs.tail hp
      · right; exact h
    · rintro (hs | h)
      · rcases hs.cases_tail with e | ⟨c, hs', hc⟩
        · left; exact e.symm
        · right; left
          have hcl : s.live c = true := by
            rcases hs'.cases_tail with e | ⟨_, _, hu⟩
            · exact e ▸ hj
            · exact up_live hu
          have hp : s.parent c = some i := hc
          rw [hF.shows.parent c hcl] at hp
          exact ⟨c, (hF.wf.kids_iff hi hcl).2 hp, hs'⟩
      · right; right; exact h

theorem pre_live (hF : Describes s F) : ∀ {T : Trees} {l : List NodeId}, T.Of F l → (∀ i ∈ l, s.live i = true) →
    ∀ j ∈ T.pre, s.live j = true
  | .nil, l, hT, _, j, hj => by simp [Trees.pre] at hj
  | .cons i k r, l, hT, hl, j, hj => by
    obtain ⟨l', rfl, hk, hr⟩ := hT
    have hi := hl i (by simp)
    simp only [Trees.pre, List.mem_cons, List.mem_append] at hj
    rcases hj with rfl | hj | hj
    · exact hi
    · exact pre_live hF hk (fun c hc => (hF.wf.kids i hi c hc).1) j hj
    · exact pre_live hF hr (fun c hc => hl c (by simp [hc])) j hj

/-- Two nodes above a common node are comparable. -/
theorem comparable {i m j : NodeId} (h1 : s.InSubtree i j) (h2 : s.InSubtree m j) : s.InSubtree i m ∨ s.InSubtree m i := by
  induction h1 using ReflTransGen.head_induction_on with
  | refl => right; exact h2
  | head hu hrest ih =>
    rcases h2.cases_head with rfl | ⟨b, hb, h2⟩
    · left; exact .head hu hrest
    · have : b = _ := Option.some.inj (Eq.trans (Eq.symm (show s.parent _ = some b from hb)) hu)
      subst this
      exact ih h2

/-- Distinct nodes with the same parent are not below each other. -/
theorem siblings_incomparable (ha : s.Acyclic) {i m : NodeId} (hp : s.parent i = s.parent m) (hne : i ≠ m) :
    ¬ s.InSubtree i m := by
  intro h
  rcases h.cases_head with rfl | ⟨b, hb, h⟩
  · exact hne rfl
  · have hb' : s.parent m = some b := hb
    rw [← hp] at hb'
    have hbl := up_live hb'
    refine ha b hbl ?_
    exact TransGen.tail' h hb'

theorem pre_nodup (hF : Describes s F) (ha : s.Acyclic) : ∀ {T : Trees} {l : List NodeId}, T.Of F l →
    (∀ i ∈ l, s.live i = true) → l.Nodup → (∀ i ∈ l, ∀ j ∈ l, s.parent i = s.parent j) → T.pre.Nodup
  | .nil, l, hT, _, _, _ => by simp [Trees.pre]
  | .cons i k r, l, hT, hl, hn, hp => by
    obtain ⟨l', rfl, hk, hr⟩ := hT
    have hi := hl i (by simp)
    have hkl : ∀ c ∈ F.kids i, s.live c = true := fun c hc => (hF.wf.kids i hi c hc).1
    have hkp : ∀ c ∈ F.kids i, s.parent c = some i := fun c hc => by
      rw [hF.shows.parent c (hkl c hc)]; exact (hF.wf.kids i hi c hc).2
    have hl' : ∀ c ∈ l', s.live c = true := fun c hc => hl c (by simp [hc])
    rw [List.nodup_cons] at hn
    have n1 := pre_nodup hF ha hk hkl (hF.wf.kids_nodup hi) (fun a ha b hb => by rw [hkp a ha, hkp b hb])
    have n2 := pre_nodup hF ha hr hl' hn.2 (fun a ha b hb => hp a (by simp [ha]) b (by simp [hb]))
    have d1 : ∀ j ∈ k.pre, s.Ancestor i j := by
      intro j hj
      obtain ⟨c, hc, hs⟩ := (mem_pre hF hk hkl j (pre_live hF hk hkl j hj)).1 hj
      exact TransGen.tail' hs (hkp c hc)
    have d2 : ∀ j ∈ r.pre, ¬ s.InSubtree i j := by
      intro j hj hs
      obtain ⟨m, hm, hs'⟩ := (mem_pre hF hr hl' j (pre_live hF hr hl' j hj)).1 hj
      have hmi : m ≠ i := by rintro rfl; exact hn.1 hm
      have hpp := hp i (by simp) m (by simp [hm])
      rcases comparable hs hs' with h | h
      · exact siblings_incomparable ha hpp (Ne.symm hmi) h
      · exact siblings_incomparable ha hpp.symm hmi h
    simp only [Trees.pre, List.nodup_cons, List.mem_append, not_or, List.nodup_append]
    refine ⟨⟨?_, ?_⟩, n1, n2, ?_⟩
    · intro h; exact ha i hi (d1 i h)
    · intro h; exact d2 i h .refl
    · rintro a ha' b hb rfl
      exact d2 a hb (d1 a ha').to_reflTransGen

theorem length_le_of_below {l : List NodeId} {n : Nat} (hn : l.Nodup) (hb : ∀ i ∈ l, i < n) : l.length ≤ n := by
  have : l.Subperm (List.range n) := hn.subperm fun i hi => List.mem_range.2 (hb i hi)
  simpa using this.length_le

theorem edges_length : ∀ T : Trees, T.edges.length = 2 * T.pre.length
  | .nil => rfl
  | .cons i k r => by
    simp only [Trees.edges, Trees.pre, List.length_cons, List.length_append, edges_length k, edges_length r]
    omega

theorem starts_edges : ∀ T : Trees, starts T.edges = T.pre
  | .nil => rfl
  | .cons i k r => by
    have h1 := starts_edges k
    have h2 := starts_edges r
    simp only [starts] at h1 h2
    simp [Trees.edges, Trees.pre, starts, h1, h2]

theorem mem_edges : ∀ (T : Trees) (n : NodeId), (.start n ∈ T.edges ↔ n ∈ T.pre) ∧ (.stop n ∈ T.edges ↔ n ∈ T.pre)
  | .nil, n => by simp [Trees.edges, Trees.pre]
  | .cons i k r, n => by
    obtain ⟨h1, h2⟩ := mem_edges k n
    obtain ⟨h3, h4⟩ := mem_edges r n
    constructor
    · simp [Trees.edges, Trees.pre, h1, h3]
    · simp only [Trees.edges, Trees.pre, List.mem_cons, List.mem_append, h2, h4, reduceCtorEq, Edge.stop.injEq, false_or]
      tauto

theorem edges_nodup : ∀ {T : Trees}, T.pre.Nodup → T.edges.Nodup
  | .nil, _ => by simp [Trees.edges]
  | .cons i k r, h => by
    simp only [Trees.pre, List.nodup_cons, List.mem_append, not_or, List.nodup_append] at h
    obtain ⟨⟨h1, h2⟩, h3, h4, h5⟩ := h
    simp only [Trees.edges, List.nodup_cons, List.mem_append, List.mem_cons, (mem_edges _ _).1, (mem_edges _ _).2,
      reduceCtorEq, List.nodup_append]
    refine ⟨by tauto, edges_nodup h3, ⟨h2, edges_nodup h4⟩, ?_⟩
    rintro e he f (rfl | hf) rfl
    · exact h1 ((mem_edges _ _).2.1 he)
    · cases e with
      | start n => exact h5 n ((mem_edges _ _).1.1 he) n ((mem_edges _ _).1.1 hf) rfl
      | stop n => exact h5 n ((mem_edges _ _).2.1 he) n ((mem_edges _ _).2.1 hf) rfl

/-! ### Edges are linked by `nextItem` and `prevItem` -/

theorem last_snoc {α : Type} (x y : α) (l : List α) : (x :: (l ++ [y])).getLast? = some y := by
  rw [← List.cons_append, List.getLast?_append]; simp

theorem edges_ends {F : Forest} : ∀ {T : Trees} {l : List NodeId}, T.Of F l →
    T.edges.head? = l.head?.map .start ∧ T.edges.getLast? = l.getLast?.map .stop
  | .nil, l, h => by simp only [Trees.Of] at h; subst h; simp [Trees.edges]
  | .cons i k r, l, h => by
    obtain ⟨l', rfl, hk, hr⟩ := h
    have := edges_ends hr
    refine ⟨by simp [Trees.edges], ?_⟩
    simp only [Trees.edges]
    rw [show (Edge.start i :: (k.edges ++ Edge.stop i :: r.edges)) = (Edge.start i :: k.edges ++ [Edge.stop i]) ++ r.edges by simp,
      List.getLast?_append, this.2]
    cases l' with
    | nil => simp [last_snoc]
    | cons a t => simp [List.getLast?_cons]

/-- Adjacent edges of a traversal with root `r`. -/
def Adj (s : St) (r : NodeId) (x y : Edge) : Prop := s.nextItem r x = some y ∧ s.prevItem r y = some x

/-- Chain inside one node: `Start i`, the subtrees, `End i`. -/
theorem chain_node (hF : Describes s F) {r i : NodeId} {k : Trees} (hi : s.live i = true) (hk : k.Of F (F.kids i))
    (hr : r ∉ F.kids i) (hc : List.IsChain (Adj s r) k.edges) :
    List.IsChain (Adj s r) (.start i :: (k.edges ++ [.stop i])) := by
  obtain ⟨e1, e2⟩ := edges_ends hk
  have hfirst := hF.shows.first i hi
  have hlast := hF.shows.last i hi
  cases hkids : F.kids i with
  | nil =>
    rw [hkids] at hk hfirst hlast
    rw [hk.nil_list]
    simp [Trees.edges, Adj, St.nextItem, St.prevItem, hfirst, hlast]
  | cons c t =>
    obtain ⟨t', d, hd⟩ : ∃ t' d, F.kids i = t' ++ [d] := by
      rcases List.eq_nil_or_concat (F.kids i) with h | ⟨L, q, h⟩
      · rw [hkids] at h; simp at h
      · exact ⟨L, q, by simpa using h⟩
    have hcm : c ∈ F.kids i := by simp [hkids]
    have hdm : d ∈ F.kids i := by simp [hd]
    have hcl := hF.wf.kids i hi c hcm
    have hdl := hF.wf.kids i hi d hdm
    have hcr : c ≠ r := by rintro rfl; exact hr hcm
    have hdr : d ≠ r := by rintro rfl; exact hr hdm
    have hcp : s.prevSibling c = none := by
      rw [hF.shows.prev c hcl.1, ← hF.wf.kids_sibs hi hcm]; exact before_head_none (by rw [hkids]; rfl)
    have hdn : s.nextSibling d = none := by
      rw [hF.shows.next d hdl.1, ← hF.wf.kids_sibs hi hdm]
      exact after_last_none (hF.wf.kids_nodup hi) (by rw [hd]; simp)
    have hcpar : s.parent c = some i := by rw [hF.shows.parent c hcl.1]; exact hcl.2
    have hdpar : s.parent d = some i := by rw [hF.shows.parent d hdl.1]; exact hdl.2
    have hfc : s.firstChild i = some c := by rw [hfirst, hkids]; rfl
    have hlc : s.lastChild i = some d := by rw [hlast, hd]; simp
    rw [hkids] at e1
    rw [hd] at e2
    simp only [List.head?_cons, Option.map_some, List.getLast?_append, List.getLast?_singleton, Option.some_or] at e1 e2
    have e3 : (k.edges ++ [Edge.stop i]).head? = some (.start c) := by
      rw [List.head?_append, e1]; rfl
    rw [List.isChain_cons]
    constructor
    · intro y hy
      rw [e3] at hy
      simp only [Option.mem_def, Option.some.injEq] at hy
      subst hy
      simp [Adj, St.nextItem, St.prevItem, hfc, hcr, hcp, hcpar]
    · rw [List.isChain_append]
      refine ⟨hc, List.isChain_singleton _, ?_⟩
      intro x hx y hy
      rw [e2] at hx
      simp only [Option.mem_def, Option.some.injEq, List.head?_cons] at hx hy
      subst hx; subst hy
      simp [Adj, St.nextItem, St.prevItem, hdr, hdn, hdpar, hlc]

theorem chain_edges (hF : Describes s F) {r : NodeId} : ∀ {T : Trees} {l : List NodeId}, T.Of F l →
    r ∉ T.pre → (∀ i ∈ l, s.live i = true) →
    (∀ a x y b, l = a ++ x :: y :: b → s.nextSibling x = some y ∧ s.prevSibling y = some x) →
    List.IsChain (Adj s r) T.edges
  | .nil, l, h, _, _, _ => by simp [Trees.edges]
  | .cons i k t, l, h, hr, hl, hs => by
    obtain ⟨l', rfl, hk, ht⟩ := h
    have hi := hl i (by simp)
    simp only [Trees.pre, List.mem_cons, List.mem_append, not_or] at hr
    have hkl : ∀ c ∈ F.kids i, s.live c = true := fun c hc => (hF.wf.kids i hi c hc).1
    have c1 := chain_edges hF hk hr.2.1 hkl (by
      intro a x y b e
      have hx : x ∈ F.kids i := by simp [e]
      have hy : y ∈ F.kids i := by simp [e]
      have hn := hF.wf.kids_nodup hi
      rw [hF.shows.next x (hkl x hx), hF.shows.prev y (hkl y hy), ← hF.wf.kids_sibs hi hx, ← hF.wf.kids_sibs hi hy, e]
      rw [e] at hn
      constructor
      · rw [after_split]; · rfl
        intro hm
        exact (List.nodup_append.1 hn).2.2 x hm x (by simp) rfl
      · rw [show a ++ x :: y :: b = (a ++ [x]) ++ y :: b by simp, before_split]; · simp
        intro hm
        rw [show a ++ x :: y :: b = (a ++ [x]) ++ y :: b by simp] at hn
        exact (List.nodup_append.1 hn).2.2 y hm y (by simp) rfl)
    have hrk : r ∉ F.kids i := by
      intro hm
      exact hr.2.1 ((mem_pre hF hk hkl r (hkl r hm)).2 ⟨r, hm, .refl⟩)
    have c2 := chain_edges hF ht hr.2.2 (fun c hc => hl c (by simp [hc]))
      (fun a x y b e => hs (i :: a) x y b (by rw [e]; rfl))
    have c3 := chain_node hF hi hk hrk c1
    simp only [Trees.edges]
    rw [show (Edge.start i :: (k.edges ++ Edge.stop i :: t.edges)) = (Edge.start i :: (k.edges ++ [Edge.stop i])) ++ t.edges by simp,
      List.isChain_append]
    refine ⟨c3, c2, ?_⟩
    intro x hx y hy
    have : (Edge.start i :: (k.edges ++ [Edge.stop i])).getLast? = some (.stop i) := last_snoc _ _ _
    rw [this] at hx
    rw [(edges_ends ht).1] at hy
    cases l' with
    | nil => simp at hy
    | cons m l'' =>
      simp only [Option.mem_def, Option.some.injEq, List.head?_cons, Option.map_some] at hx hy
      subst hx; subst hy
      obtain ⟨h1, h2⟩ := hs [] i m l'' rfl
      have hmr : m ≠ r := by
        obtain ⟨k', r', rfl, _, _⟩ := ht.cons_list
        simp only [Trees.pre, List.mem_cons, not_or] at hr
        exact fun e => hr.2.2.1 e.symm
      simp [Adj, St.nextItem, St.prevItem, h1, h2, hmr, Ne.symm hr.1]

theorem walk_of_chain {α : Type} {l : List α} {succ pred : α → Option α} (hn : l.Nodup)
    (hc : List.IsChain (fun x y => succ x = some y ∧ pred y = some x) l)
    (h1 : ∀ x, l.getLast? = some x → succ x = none) (h2 : ∀ x, l.head? = some x → pred x = none) : Walk l succ pred where
  nodup := hn
  succ := by
    rintro a x b rfl
    cases b with
    | nil => exact h1 x (by simp)
    | cons y b =>
      rw [List.isChain_append] at hc
      have := hc.2.1
      rw [List.isChain_cons_cons] at this
      exact this.1.1
  pred := by
    rintro a x b rfl
    rcases List.eq_nil_or_concat a with rfl | ⟨a', y, rfl⟩
    · exact h2 x (by simp)
    · rw [List.concat_eq_append] at *
      rw [List.isChain_append] at hc
      have := hc.2.2 y (by simp) x (by simp)
      rw [this.2]; simp

/-- `traverse()` of `i` walks along the edges of the subtree. -/
theorem traverse_walk (hF : Describes s F) (ha : s.Acyclic) {i : NodeId} (hi : s.live i = true) {K : Trees}
    (hK : K.Of F (F.kids i)) : Walk (Trees.cons i K .nil).edges (s.nextItem i) (s.prevItem i) := by
  have hkl : ∀ c ∈ F.kids i, s.live c = true := fun c hc => (hF.wf.kids i hi c hc).1
  have hT : (Trees.cons i K .nil).Of F [i] := ⟨[], rfl, hK, rfl⟩
  have hpre := pre_nodup hF ha hT (by simpa using hi) (by simp) (by simp)
  have hik : i ∉ K.pre := by
    simp only [Trees.pre, List.append_nil, List.nodup_cons] at hpre
    exact hpre.1
  have hrk : i ∉ F.kids i := fun hm => hik ((mem_pre hF hK hkl i hi).2 ⟨i, hm, .refl⟩)
  have c1 := chain_edges hF hK hik hkl (by
      intro a x y b e
      have hx : x ∈ F.kids i := by simp [e]
      have hy : y ∈ F.kids i := by simp [e]
      have hn := hF.wf.kids_nodup hi
      rw [hF.shows.next x (hkl x hx), hF.shows.prev y (hkl y hy), ← hF.wf.kids_sibs hi hx, ← hF.wf.kids_sibs hi hy, e]
      rw [e] at hn
      constructor
      · rw [after_split]; · rfl
        intro hm
        exact (List.nodup_append.1 hn).2.2 x hm x (by simp) rfl
      · rw [show a ++ x :: y :: b = (a ++ [x]) ++ y :: b by simp, before_split]; · simp
        intro hm
        rw [show a ++ x :: y :: b = (a ++ [x]) ++ y :: b by simp] at hn
        exact (List.nodup_append.1 hn).2.2 y hm y (by simp) rfl)
  refine walk_of_chain (edges_nodup hpre) (chain_node hF hi hK hrk c1) ?_ ?_
  · intro x hx
    rw [(edges_ends hT).2] at hx
    simp only [List.getLast?_singleton, Option.map_some, Option.some.injEq] at hx
    subst hx; simp [St.nextItem]
  · intro x hx
    rw [(edges_ends hT).1] at hx
    simp only [List.head?_cons, Option.map_some, Option.some.injEq] at hx
    subst hx; simp [St.prevItem]

/-- `children()` walks along the child sequence. -/
theorem children_walk (hF : Describes s F) {i : NodeId} (hi : s.live i = true) :
    Walk (F.kids i) s.nextSibling s.prevSibling where
  nodup := hF.wf.kids_nodup hi
  succ := by
    intro a x b e
    have hx : x ∈ F.kids i := by simp [e]
    have hn := hF.wf.kids_nodup hi
    rw [hF.shows.next x (hF.wf.kids i hi x hx).1, ← hF.wf.kids_sibs hi hx, e, after_split]
    rw [e] at hn
    intro hm
    exact (List.nodup_append.1 hn).2.2 x hm x (by simp) rfl
  pred := by
    intro a x b e
    have hx : x ∈ F.kids i := by simp [e]
    have hn := hF.wf.kids_nodup hi
    rw [hF.shows.prev x (hF.wf.kids i hi x hx).1, ← hF.wf.kids_sibs hi hx, e, before_split]
    rw [e] at hn
    intro hm
    exact (List.nodup_append.1 hn).2.2 x hm x (by simp) rfl

theorem kids_length (h : Inv s) (hF : Describes s F) {i : NodeId} (hi : s.live i = true) : (F.kids i).length ≤ s.nextId :=
  length_le_of_below (hF.wf.kids_nodup hi) fun c hc => h.liveBelow c (hF.wf.kids i hi c hc).1

theorem childList_eq (h : Inv s) (hF : Describes s F) {i : NodeId} (hi : s.live i = true) :
    s.childList i = .ok (F.kids i) := by
  refine collectChildren_walk (children_walk hF hi) (F.kids i) _ _ ?_ ?_
  · have := seg_init (F.kids i)
    simpa [St.children, hF.shows.first i hi, hF.shows.last i hi] using this
  · have := kids_length h hF hi
    simp only [St.fuel]; omega

end Svgdom
