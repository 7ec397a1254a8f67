import Verif.Proof.Trees

/-! The cached root of the nodes of the document tree. -/

namespace Svgdom

open Relation

structure RootInv (s : St) : Prop where
  top : s.parent s.rootId = none
  own : (s.links s.rootId).root = none
  cached : ∀ i, s.live i = true → s.InDoc i → i ≠ s.rootId → (s.links i).root = some s.rootId

theorem append_roots {s t : St} (h : Inv s) {p c : NodeId} (hp : s.live p = true) (hc : s.live c = true)
    (e : s.append p c = .ok t) : p ≠ c ∧ RootSet s t c (some ((s.links p).root.getD p)) := by
  obtain ⟨F, hT⟩ := h.tree
  have := append_spec hT.reps hp hc
  split_ifs at this with h1
  · rw [this] at e; simp at e
  · rw [this] at e; simp at e
  · obtain ⟨t', e', hr, hf, hs⟩ := this
    rw [e] at e'; cases e'
    exact ⟨h1, hs⟩

theorem prepend_roots {s t : St} (h : Inv s) {p c : NodeId} (hp : s.live p = true) (hc : s.live c = true)
    (e : s.prepend p c = .ok t) : p ≠ c ∧ RootSet s t c (some ((s.links p).root.getD p)) := by
  obtain ⟨F, hT⟩ := h.tree
  have := prepend_spec hT.reps hp hc
  split_ifs at this with h1
  · rw [this] at e; simp at e
  · rw [this] at e; simp at e
  · obtain ⟨t', e', hr, hf, hs⟩ := this
    rw [e] at e'; cases e'
    exact ⟨h1, hs⟩

theorem insertAfter_roots {s t : St} (h : Inv s) {x y : NodeId} (hx : s.live x = true) (hy : s.live y = true)
    (e : s.insertAfter x y = .ok t) : x ≠ y ∧ RootSet s t y (s.links x).root := by
  obtain ⟨F, hT⟩ := h.tree
  have := insertAfter_spec hT.reps hx hy
  split_ifs at this with h1
  · rw [this] at e; simp at e
  · rw [this] at e; simp at e
  · obtain ⟨t', e', hr, hf, hs⟩ := this
    rw [e] at e'; cases e'
    exact ⟨h1, hs⟩

theorem insertBefore_roots {s t : St} (h : Inv s) {x y : NodeId} (hx : s.live x = true) (hy : s.live y = true)
    (e : s.insertBefore x y = .ok t) : x ≠ y ∧ RootSet s t y (s.links x).root := by
  obtain ⟨F, hT⟩ := h.tree
  have := insertBefore_spec hT.reps hx hy
  split_ifs at this with h1
  · rw [this] at e; simp at e
  · rw [this] at e; simp at e
  · obtain ⟨t', e', hr, hf, hs⟩ := this
    rw [e] at e'; cases e'
    exact ⟨h1, hs⟩

/-- Only `rootId` is above `rootId`. -/
theorem RootInv.only {s : St} (h : RootInv s) {i : NodeId} (hs : s.InSubtree i s.rootId) : i = s.rootId := by
  rcases hs.cases_head with e | ⟨q, hq, _⟩
  · exact e.symm
  · have : s.parent s.rootId = some q := hq
    rw [h.top] at this; simp at this

theorem rootInv_move {s t : St} (hinv : Inv s) (h : RootInv s) {c : NodeId} {P R : Option NodeId} (hlive : t.live = s.live)
    (hroot : t.rootId = s.rootId) (hc : c ≠ s.rootId) (hcl : s.live c = true)
    (hpar : ∀ j, s.live j = true → t.parent j = if j = c then P else s.parent j) (hR : RootSet s t c R)
    (hPc : P ≠ some c) (hgood : ∀ p, P = some p → s.InDoc p → R = some s.rootId ∧ (s.firstChild c = none ∨ s.InDoc c)) :
    RootInv t := by
  have hrl : s.live s.rootId = true := by obtain ⟨F, hT⟩ := hinv.tree; exact hT.root
  have key : ∀ j, s.live j = true → t.InSubtree s.rootId j →
      s.InDoc j ∨ (j = c ∧ ∃ p, P = some p ∧ s.InDoc p) := by
    intro j hj hs
    induction hs using ReflTransGen.head_induction_on with
    | refl => left; exact .refl
    | @head a b hu hrest ih =>
      have hu' : t.parent a = some b := hu
      have hbl : s.live b = true := by rw [← hlive]; exact up_live hu
      rw [hpar a hj] at hu'
      by_cases hac : a = c
      · subst hac
        simp only [if_true] at hu'
        rcases ih hbl with h1 | ⟨rfl, _⟩
        · right; exact ⟨rfl, b, hu', h1⟩
        · exact absurd hu' hPc
      · simp only [hac, if_false] at hu'
        rcases ih hbl with h1 | ⟨rfl, p, hp, hpd⟩
        · left; exact ReflTransGen.head (show s.Up a b from hu') h1
        · rcases (hgood p hp hpd).2 with hf | hd
          · have := no_descendants hinv hcl hf hj (ReflTransGen.head (show s.Up a b from hu') .refl)
            exact absurd this hac
          · left; exact ReflTransGen.head (show s.Up a b from hu') hd
  constructor
  · rw [hroot, hpar _ hrl, if_neg (Ne.symm hc)]; exact h.top
  · rw [hroot, hR, if_neg (Ne.symm hc)]; exact h.own
  · intro i hi hd hir
    rw [hlive] at hi
    rw [hroot] at hir ⊢
    have hd' : t.InSubtree s.rootId i := by rw [← hroot]; exact hd
    rw [hR]
    by_cases hic : i = c
    · subst hic
      rw [if_pos rfl]
      rcases hd'.cases_head with e | ⟨p, hp, hrest⟩
      · exact absurd e hir
      · have hp' : t.parent i = some p := hp
        rw [hpar i hi, if_pos rfl] at hp'
        have hpl : s.live p = true := by rw [← hlive]; exact up_live hp
        rcases key p hpl hrest with h1 | ⟨rfl, _⟩
        · exact (hgood p hp' h1).1
        · exact absurd hp' hPc
    · rw [if_neg hic]
      rcases key i hi hd' with h1 | ⟨h1, _⟩
      · exact h.cached i hi h1 hir
      · exact absurd h1 hic

/-- Steps that only remove parents and keep caches. -/
theorem rootInv_sub {s t : St} (h : RootInv s) (hroot : t.rootId = s.rootId) (hlive : ∀ i, t.live i = true → s.live i = true)
    (hrl : t.live t.rootId = true)
    (hpar : ∀ j p, t.live j = true → t.parent j = some p → s.parent j = some p)
    (hR : ∀ j, t.live j = true → (t.links j).root = (s.links j).root) : RootInv t := by
  have key : ∀ j, t.live j = true → t.InSubtree s.rootId j → s.InDoc j := by
    intro j hj hs
    induction hs using ReflTransGen.head_induction_on with
    | refl => exact .refl
    | @head a b hu hrest ih => exact ReflTransGen.head (show s.Up a b from hpar a b hj hu) (ih (up_live hu))
  constructor
  · rw [hroot] at hrl ⊢
    cases hh : t.parent s.rootId with
    | none => rfl
    | some q =>
      have := hpar _ _ hrl hh
      rw [h.top] at this; simp at this
  · rw [hR _ hrl, hroot]; exact h.own
  · intro i hi hd hir
    rw [hR i hi, hroot]
    rw [hroot] at hir
    exact h.cached i (hlive i hi) (key i hi (by rw [← hroot]; exact hd)) hir

theorem rootInv_same {s t : St} (h : RootInv s) (hroot : t.rootId = s.rootId) (hrl : s.live s.rootId = true)
    (hl : t.live = s.live) (hk : t.links = s.links) : RootInv t :=
  rootInv_sub h hroot (fun i hi => by rw [hl] at hi; exact hi) (by rw [hl, hroot]; exact hrl)
    (fun j p _ hp => by simpa [St.parent, St.upgrade, hl, hk] using hp) (fun j _ => by rw [hk])

theorem append_cache {s : St} (h : RootInv s) {p : NodeId} (hp : s.live p = true) (hd : s.InDoc p) :
    some ((s.links p).root.getD p) = some s.rootId := by
  by_cases hpr : p = s.rootId
  · subst hpr; rw [h.own]; rfl
  · rw [h.cached p hp hd hpr]; rfl

theorem Inner.roots {s t : St} (hinv : Inv s) (h : RootInv s) (st : Inner s t) : RootInv t := by
  have hrl : s.live s.rootId = true := by obtain ⟨F, hT⟩ := hinv.tree; exact hT.root
  have hroot := st.rootId hinv
  have hlv := st.live hinv hrl
  cases st with
  | new d hat hn _ e =>
    have hp := newNode_parent hinv e
    obtain ⟨_, hid, _, hlive⟩ := hinv.newNode hat hn e
    have hne : ∀ j, s.live j = true → j ≠ s.nextId := fun j hj => Nat.ne_of_lt (hinv.liveBelow j hj)
    have hk : ∀ j, j ≠ s.nextId → t.links j = s.links j := by
      intro j hj
      obtain ⟨sl, key, _, e3⟩ := newNode_ok hinv d
      rw [e3] at e
      cases e
      simp [St.alloc, upd, hj]
    have key : ∀ j, t.live j = true → t.InSubtree s.rootId j → s.live j = true ∧ s.InDoc j := by
      intro j hj hs
      induction hs using ReflTransGen.head_induction_on with
      | refl => exact ⟨hrl, .refl⟩
      | @head a b hu hrest ih =>
        have hu' : t.parent a = some b := hu
        rw [hp a] at hu'
        split at hu'
        · simp at hu'
        · next hna =>
          have hal : s.live a = true := by rw [hlive] at hj; simpa [hna] using hj
          have := ih (up_live hu)
          exact ⟨hal, ReflTransGen.head (show s.Up a b from hu') this.2⟩
    constructor
    · rw [hroot, hp, if_neg (hne _ hrl)]; exact h.top
    · rw [hroot, hk _ (hne _ hrl)]; exact h.own
    · intro i hi hd hir
      rw [hroot] at hir ⊢
      obtain ⟨h1, h2⟩ := key i hi (by rw [← hroot]; exact hd)
      rw [hk _ (hne i h1)]
      exact h.cached i h1 h2 hir
  | leaf p c hp hc hf hcr e =>
    obtain ⟨hne, hR⟩ := append_roots hinv hp hc e
    refine rootInv_move hinv h (hinv.append hp hc e).2.live hroot hcr hc (append_parent hinv hp hc e) hR ?_ ?_
    · intro e; exact hne (Option.some.inj e)
    · intro q hq hd
      obtain rfl := Option.some.inj hq
      exact ⟨append_cache h hp hd, Or.inl hf⟩
  | detach i hi =>
    refine rootInv_sub h rfl (fun _ h => h) hrl ?_ (fun j _ => rfl)
    intro j p hj hp
    obtain ⟨F, hT⟩ := hinv.tree
    rw [(hT.reps.detached hi).shows.parent j hj] at hp
    rw [hT.reps.shows.parent j hj]
    simp only [Forest.detach] at hp
    split at hp
    · simp at hp
    · exact hp
  | data i f _ _ _ _ _ _ _ => exact rootInv_same h rfl hrl rfl rfl
  | set i a hi ht e =>
    rcases setChecked_cases hinv hi e with ⟨_, _, rfl, _⟩ | ⟨_, rfl, hr⟩
    · exact h
    · exact rootInv_same h rfl hrl rfl rfl
  | unset i name hi => exact rootInv_same h rfl hrl rfl rfl
  | finish i hi e =>
    obtain ⟨t', e', h', hk, hl, _, hr, _⟩ := finishRemove_ok hinv hi
    rw [e] at e'; cases e'
    exact rootInv_same h hr hrl hl hk

theorem Inners.roots {s t : St} (h : Inv s) (ha : RootInv s) (st : Inners s t) : RootInv t := by
  induction st with
  | refl => exact ha
  | tail st1 st ih => exact st.roots (Inners.inv h st1) ih

theorem RootInv.call {s t : St} (hinv : Inv s) (h : RootInv s) (op : Op) (hl : ∀ i ∈ op.handles, s.live i = true)
    (hsafe : op.RootSafe s) (e : op.run s = .ok t) : RootInv t := by
  cases hm : op.isMove with
  | false => exact (op_inner hinv op hl e hm).roots hinv h
  | true =>
    cases op with
    | append p c =>
      have hp := hl p (by simp [Op.handles])
      have hc := hl c (by simp [Op.handles])
      obtain ⟨hne, hR⟩ := append_roots hinv hp hc e
      have hf := (hinv.append hp hc e).2
      refine rootInv_move hinv h hf.live hf.rootId hsafe.1 hc (append_parent hinv hp hc e) hR ?_ ?_
      · intro e; exact hne (Option.some.inj e)
      · intro q hq hd
        obtain rfl := Option.some.inj hq
        exact ⟨append_cache h hp hd, hsafe.2 hd⟩
    | prepend p c =>
      have hp := hl p (by simp [Op.handles])
      have hc := hl c (by simp [Op.handles])
      obtain ⟨hne, hR⟩ := prepend_roots hinv hp hc e
      have hf := (hinv.prepend hp hc e).2
      refine rootInv_move hinv h hf.live hf.rootId hsafe.1 hc (prepend_parent hinv hp hc e) hR ?_ ?_
      · intro e; exact hne (Option.some.inj e)
      · intro q hq hd
        obtain rfl := Option.some.inj hq
        exact ⟨append_cache h hp hd, hsafe.2 hd⟩
    | insertAfter x y =>
      have hx := hl x (by simp [Op.handles])
      have hy := hl y (by simp [Op.handles])
      obtain ⟨hne, hR⟩ := insertAfter_roots hinv hx hy e
      have hf := (hinv.insertAfter hx hy e).2
      refine rootInv_move hinv h hf.live hf.rootId hsafe.1 hy (insertAfter_parent hinv hx hy e) hR hsafe.2.1 ?_
      intro q hq hd
      have hxd : s.InDoc x := ReflTransGen.head (show s.Up x q from hq) hd
      have hxr : x ≠ s.rootId := by rintro rfl; rw [h.top] at hq; simp at hq
      exact ⟨h.cached x hx hxd hxr, hsafe.2.2 hxd⟩
    | insertBefore x y =>
      have hx := hl x (by simp [Op.handles])
      have hy := hl y (by simp [Op.handles])
      obtain ⟨hne, hR⟩ := insertBefore_roots hinv hx hy e
      have hf := (hinv.insertBefore hx hy e).2
      refine rootInv_move hinv h hf.live hf.rootId hsafe.1 hy (insertBefore_parent hinv hx hy e) hR hsafe.2.1 ?_
      intro q hq hd
      have hxd : s.InDoc x := ReflTransGen.head (show s.Up x q from hq) hd
      have hxr : x ≠ s.rootId := by rintro rfl; rw [h.top] at hq; simp at hq
      exact ⟨h.cached x hx hxd hxr, hsafe.2.2 hxd⟩
    | _ => simp [Op.isMove] at hm

theorem rootInv_init (d : Bool) : RootInv (St.init d) := by
  constructor
  · simp [St.init, St.parent]
  · simp [St.init]
  · intro i hi _ hir
    simp [St.init] at hi hir
    exact absurd hi hir

theorem free_parent {s : St} {i j p : NodeId} (hp : (s.free i).parent j = some p) : s.parent j = some p := by
  simp only [St.parent, St.upgrade, St.free] at hp ⊢
  cases hpp : (s.links j).parent with
  | none => rw [hpp] at hp; simp at hp
  | some q =>
    rw [hpp] at hp
    simp only at hp ⊢
    by_cases hqi : q = i
    · simp [hqi] at hp
    · simpa [hqi] using hp

theorem RootInv.free {s : St} (hinv : Inv s) (h : RootInv s) {i : NodeId} (hr : ¬ s.strongRef i) :
    RootInv (s.free i) := by
  have hrl : s.live s.rootId = true := by obtain ⟨F, hT⟩ := hinv.tree; exact hT.root
  have hne : s.rootId ≠ i := fun e => hr (Or.inl e.symm)
  refine rootInv_sub h rfl (fun j hj => ?_) ?_ (fun j p _ hp => free_parent hp) (fun _ _ => rfl)
  · simp only [St.free] at hj
    split at hj
    · simp at hj
    · exact hj
  · simp [St.free, hne, hrl]

end Svgdom
