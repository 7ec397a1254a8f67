import Verif.Spec.UnwindRemove
import Verif.Proof.Barred
import Verif.Proof.UnwindNode

/-!
# Proofs about `Model/UnwindRemove.lean`
-/

set_option autoImplicit false

namespace Svgdom

section
variable {g : Guards}

/-! ## Agreement with the functions without the state at the panic -/

theorem ok_bind {ε α β : Type} (a : α) (f : α → Except ε β) : ((Except.ok a : Except ε α) >>= f) = f a := rfl

theorem detachGU_agrees (s : St) (i : NodeId) : forget (s.detachGU g i) = s.detachG g i := by
  have hn : ∀ (s : St) held a b c, forget (s.detachNextGU g held a b c) = s.detachNextG g held a b c := by
    intro s held a b c
    unfold St.detachNextGU St.detachNextG
    cases c with
    | some n => simp only [forget_bind, forget_fails, forget_pure]
    | none =>
      cases s.upgrade a with
      | some p => simp only [forget_bind, forget_fails, forget_pure]
      | none => rfl
  have hp : ∀ (s : St) held a b c, forget (s.detachPrevGU g held a b c) = s.detachPrevG g held a b c := by
    intro s held a b c
    unfold St.detachPrevGU St.detachPrevG
    cases b with
    | some n => simp only [forget_bind, forget_fails, forget_pure]
    | none =>
      cases s.upgrade a with
      | some p => simp only [forget_bind, forget_fails, forget_pure]
      | none => rfl
  simp only [St.detachGU, St.detachG, St.detachCoreGU, St.detachCoreG, forget_bind, forget_fails, hn, hp]

theorem removeAttributesU_agrees (i : NodeId) : ∀ (names : List AName) (s : St),
    forget (s.removeAttributesU g i names) = s.removeAttributesG g i names
  | [], s => rfl
  | x :: names, s => by
    simp only [St.removeAttributesU, St.removeAttributesG, forget_bind, removeAttributeU_agrees, removeAttributesU_agrees i names]

theorem unlinkIncomingU_agrees (i : NodeId) : ∀ (ls : List NodeId) (s : St),
    forget (s.unlinkIncomingU g i ls) = s.unlinkIncomingG g i ls
  | [], s => rfl
  | l :: ls, s => by
    simp only [St.unlinkIncomingU, St.unlinkIncomingG, forget_bind, forget_fails, removeAttributesU_agrees, unlinkIncomingU_agrees i ls]

theorem finishRemoveU_agrees (s : St) (i : NodeId) : forget (s.finishRemoveU g i) = s.finishRemoveG g i := by
  unfold St.finishRemoveU St.finishRemoveG St.finishRemove
  simp only [forget_bind, forget_fails]
  congr 1; funext _
  cases (s.data i).storageKey with
  | none => rfl
  | some k => simp only [forget_bind, forget_mapError, forget_pure]

theorem removeU_agrees : ∀ k, (∀ (s : St) (i : NodeId), forget (St.removeAuxU g k s i) = St.removeAuxG g k s i) ∧
    (∀ (s : St) (it : Children), forget (St.removeKidsU g k s it) = St.removeKidsG g k s it)
  | 0 => ⟨fun _ _ => by rw [St.removeAuxU, St.removeAuxG]; rfl, fun _ _ => by rw [St.removeKidsU, St.removeKidsG]; rfl⟩
  | k + 1 => by
    obtain ⟨h1, h2⟩ := removeU_agrees k
    constructor
    · intro s i
      simp only [St.removeAuxU, St.removeAuxG, forget_bind, forget_fails, forget_mapError, removeAttributesU_agrees,
        unlinkIncomingU_agrees, detachGU_agrees, finishRemoveU_agrees, h2]
    · intro s it
      simp only [St.removeKidsU, St.removeKidsG, forget_bind, forget_mapError]
      congr 1; funext r
      obtain ⟨o, it'⟩ := r
      cases o with
      | none => rfl
      | some c => simp only [forget_bind, h1, h2]

theorem drainAuxU_agrees (f : St → NodeId → Bool) : ∀ k (s : St) (o : Option NodeId) (n : Nat),
    forget (St.drainAuxU g f k s o n) = St.drainAuxG g f k s o n
  | 0, s, o, n => by rw [St.drainAuxU, St.drainAuxG]; rfl
  | k + 1, s, none, n => by rw [St.drainAuxU, St.drainAuxG]; rfl
  | k + 1, s, some m, n => by
    have ih := drainAuxU_agrees f k
    have hr : ∀ (s : St) i, forget (s.removeNodeU g i) = s.removeNodeG g i := fun s i => (removeU_agrees s.fuel).1 s i
    simp only [St.drainAuxU, St.drainAuxG]
    by_cases hf : f s m = true
    · simp only [hf, if_true, forget_bind, forget_mapError, hr, ih]
    · simp only [hf, Bool.false_eq_true, if_false, forget_bind, forget_fails]
      congr 1; funext _
      by_cases hc : s.hasChildren m = true
      · simp only [hc, if_true, forget_bind, forget_mapError, ih]
      · simp only [hc, Bool.false_eq_true, if_false, forget_bind, forget_mapError, forget_pure, ih]

/-! ## The state at the panic -/

theorem Toward.mono {S T S' T' : NodeId → Prop} (hS : ∀ m, S m → S' m) (hT : ∀ m, T m → T' m) {s t : St} (h : Toward S T s t) :
    Toward S' T' s t := by
  induction h with
  | refl => exact .refl _
  | reference _ h1 h2 h3 h4 h5 ih =>
    refine .reference ih h1 h2 h3 ?_ h5
    rcases h4 with ⟨h4, h6⟩ | ⟨m, h4, h6⟩
    · exact .inl ⟨hS _ h4, h6⟩
    · exact .inr ⟨m, hS m h4, h6⟩
  | node _ h1 h2 h3 ih => exact .node ih h1 (hT _ h2) h3

theorem Toward.trans {S T : NodeId → Prop} {s t u : St} (h : Toward S T s t) (k : Toward S T t u) : Toward S T s u := by
  induction k with
  | refl => exact h
  | reference _ h1 h2 h3 h4 h5 ih => exact .reference ih h1 h2 h3 h4 h5
  | node _ h1 h2 h3 ih => exact .node ih h1 h2 h3

/-- What a call without panic gives is what it gives without borrows. -/
theorem Respects.of_forget {α : Type} {π : α → St} {s : St} {rU : Except (Err × St) α} {rG r : Except Err α} (hr : Respects g π s rG r)
    (e : forget rU = rG) {a : α} (ha : rU = .ok a) : r = .ok a := by
  subst ha
  exact hr.eq_ok e.symm

theorem removeAux_mono : ∀ k, (∀ {s t : St} {i : NodeId}, St.removeAux k s i = .ok t → ∀ k', k ≤ k' → St.removeAux k' s i = .ok t) ∧
    (∀ {s t : St} {it : Children}, St.removeKids k s it = .ok t → ∀ k', k ≤ k' → St.removeKids k' s it = .ok t)
  | 0 => ⟨fun h => by simp [St.removeAux] at h, fun h => by simp [St.removeKids] at h⟩
  | k + 1 => by
    obtain ⟨h1, h2⟩ := removeAux_mono k
    constructor
    · intro s t i e k' hk
      obtain ⟨k', rfl⟩ : ∃ m, k' = m + 1 := ⟨k' - 1, by omega⟩
      simp only [St.removeAux, bind_ok] at e ⊢
      obtain ⟨a, e1, b, e2, c, e3, d⟩ := e
      exact ⟨a, e1, b, e2, c, h2 e3 k' (by omega), d⟩
    · intro s t it e k' hk
      obtain ⟨k', rfl⟩ : ∃ m, k' = m + 1 := ⟨k' - 1, by omega⟩
      simp only [St.removeKids] at e ⊢
      split at e
      · exact e
      · rw [bind_ok] at e ⊢
        obtain ⟨a, e1, e2⟩ := e
        exact ⟨a, h1 e1 k' (by omega), h2 e2 k' (by omega)⟩

/-- A loop over the attributes `names` of `l`, all of which are references from or to `S`. -/
theorem removeAttributesU_err {S T : NodeId → Prop} {l : NodeId} (hg : g l ≠ .shared) : ∀ (names : List AName) {s : St} {e : Err} {t : St},
    Inv s → s.live l = true →
    (∀ a ∈ s.attributes l, a.name ∈ names → a.isSvg = true ∧ (S l ∧ a.value.plain = false ∨ ∃ m, S m ∧ a.value.refersTo m = true)) →
    s.removeAttributesU g l names = .error (e, t) → Toward S T s t
  | [], s, e, t, _, _, _, he => by cases he
  | x :: names, s, e, t, h, hl, hn, he => by
    rw [St.removeAttributesU, bind_err] at he
    rcases he with he | ⟨u, e1, he⟩
    · rw [removeAttributeU_err he hg]; exact .refl s
    · have e2 := St.removeAttribute_ok h.link hl x
      have e1' := Respects.of_forget (Respects.removeAttribute (g := g) s l x) (removeAttributeU_agrees g s l x) e1
      rw [e2] at e1'; cases e1'
      have h1 := delAttr_filtered h hl x
      have hl1 : (s.delAttr l x).live l = true := by rw [h1.else_.live]; exact hl
      have hsub : ∀ a ∈ (s.delAttr l x).attributes l, a ∈ s.attributes l := fun a ha => by
        rw [h1.attrs l hl] at ha; exact (List.mem_filter.1 ha).1
      have ih := removeAttributesU_err hg names (T := T) (S := S) h1.inv hl1
        (fun a ha hm => hn a (hsub a ha) (List.mem_cons_of_mem _ hm)) he
      refine Toward.trans ?_ ih
      by_cases hx : s.hasAttribute l x = true
      · obtain ⟨a, ha, rfl⟩ := hasAttribute_iff.1 hx
        obtain ⟨h3, h4⟩ := hn a ha (by simp)
        exact .reference (.refl s) hl ha h3 h4 e2
      · have : s.removeAttribute l x = .ok s := by simp [St.removeAttribute, hx]
        rw [e2] at this
        rw [Except.ok.inj this]
        exact .refl s

theorem removeAttributes_toward {S T : NodeId → Prop} {l : NodeId} : ∀ (names : List AName) {s t : St},
    Inv s → s.live l = true →
    (∀ a ∈ s.attributes l, a.name ∈ names → a.isSvg = true ∧ (S l ∧ a.value.plain = false ∨ ∃ m, S m ∧ a.value.refersTo m = true)) →
    s.removeAttributes l names = .ok t → Toward S T s t
  | [], s, t, _, _, _, he => by simp only [St.removeAttributes, Except.ok.injEq] at he; rw [he]; exact .refl t
  | x :: names, s, t, h, hl, hn, he => by
    have e2 := St.removeAttribute_ok h.link hl x
    simp only [St.removeAttributes, e2, bind_ok_left] at he
    have h1 := delAttr_filtered h hl x
    have hl1 : (s.delAttr l x).live l = true := by rw [h1.else_.live]; exact hl
    have hsub : ∀ a ∈ (s.delAttr l x).attributes l, a ∈ s.attributes l := fun a ha => by
      rw [h1.attrs l hl] at ha; exact (List.mem_filter.1 ha).1
    have ih := removeAttributes_toward names (T := T) (S := S) h1.inv hl1
      (fun a ha hm => hn a (hsub a ha) (List.mem_cons_of_mem _ hm)) he
    refine Toward.trans ?_ ih
    by_cases hx : s.hasAttribute l x = true
    · obtain ⟨a, ha, rfl⟩ := hasAttribute_iff.1 hx
      obtain ⟨h3, h4⟩ := hn a ha (by simp)
      exact .reference (.refl s) hl ha h3 h4 e2
    · have : s.removeAttribute l x = .ok s := by simp [St.removeAttribute, hx]
      rw [e2] at this
      rw [Except.ok.inj this]
      exact .refl s

theorem unlinkIncoming_toward {S T : NodeId → Prop} {c : NodeId} (hc : S c) : ∀ (ls : List NodeId) {s t : St},
    Inv s → (∀ l ∈ ls, s.live l = true) → s.unlinkIncoming c ls = .ok t → Toward S T s t
  | [], s, t, _, _, he => by simp only [St.unlinkIncoming, Except.ok.injEq] at he; rw [he]; exact .refl t
  | l :: ls, s, t, h, hl, he => by
    have hll := hl l (by simp)
    obtain ⟨s1, e1, h1⟩ := linkNamesTo_filtered h c hll
    have hnd := h.link.names l hll
    simp only [St.unlinkIncoming, e1, bind_ok_left] at he
    refine Toward.trans (removeAttributes_toward _ h hll (fun a ha hm => ?_) e1)
      (unlinkIncoming_toward hc ls h1.inv (fun m hm => by rw [h1.else_.live]; exact hl m (by simp [hm])) he)
    obtain ⟨b, hb, hs, hr, hn⟩ := mem_linkNamesTo.1 hm
    have := eq_of_names hnd hb ha hn
    subst this
    exact ⟨hs, .inr ⟨c, hc, refersTo_iff.2 hr⟩⟩

theorem unlinkIncomingU_err {S T : NodeId → Prop} {c : NodeId} (hc : S c) : ∀ (ls : List NodeId) {s : St} {e : Err} {t : St},
    Inv s → (∀ l ∈ ls, s.live l = true) → (∀ l ∈ ls, s.Cites l c → g l ≠ .shared) →
    s.unlinkIncomingU g c ls = .error (e, t) → Toward S T s t
  | [], s, e, t, _, _, _, he => by cases he
  | l :: ls, s, e, t, h, hl, hg, he => by
    have hll := hl l (by simp)
    obtain ⟨s1, e1, h1⟩ := linkNamesTo_filtered h c hll
    have hnd := h.link.names l hll
    have hcite : ∀ a ∈ s.attributes l, a.name ∈ s.linkNamesTo l c → a.isSvg = true ∧ a.value.refersTo c = true := by
      intro a ha hm
      obtain ⟨b, hb, hs, hr, hn⟩ := mem_linkNamesTo.1 hm
      have := eq_of_names hnd hb ha hn
      subst this
      exact ⟨hs, refersTo_iff.2 hr⟩
    have hnames : ∀ {s' : St} {e : Err} {t : St}, s.removeAttributesU g l (s.linkNamesTo l c) = .error (e, t) → Toward S T s t := by
      intro s' e t he
      by_cases hci : s.Cites l c
      · refine removeAttributesU_err (hg l (by simp) hci) _ h hll (fun a ha hm => ?_) he
        obtain ⟨h2, h3⟩ := hcite a ha hm
        exact ⟨h2, .inr ⟨c, hc, h3⟩⟩
      · have : s.linkNamesTo l c = [] := by
          by_contra hne
          obtain ⟨x, hx⟩ := List.exists_mem_of_ne_nil _ hne
          obtain ⟨b, hb, hs, hr, -⟩ := mem_linkNamesTo.1 hx
          exact hci ⟨b, hb, hs, refersTo_iff.2 hr⟩
        rw [this] at he
        cases he
    rw [St.unlinkIncomingU, bind_err] at he
    rcases he with he | ⟨_, _, he⟩
    · rw [(fails_err he).2]; exact .refl s
    rw [bind_err] at he
    rcases he with he | ⟨u, e2, he⟩
    · exact hnames (s' := s) he
    · have e3 := Respects.of_forget (Respects.removeAttributes (g := g) (s.linkNamesTo l c) s l) (removeAttributesU_agrees l _ s) e2
      rw [e1] at e3; cases e3
      have hlive : ∀ m ∈ ls, s1.live m = true := fun m hm => by rw [h1.else_.live]; exact hl m (by simp [hm])
      have hsub : ∀ m, s.live m = true → s1.Cites m c → s.Cites m c := by
        rintro m hm ⟨a, ha, hs, hr⟩
        rw [h1.attrs m hm, List.mem_filter] at ha
        exact ⟨a, ha.1, hs, hr⟩
      have ih := unlinkIncomingU_err (S := S) (T := T) hc ls h1.inv hlive
        (fun m hm hci => hg m (by simp [hm]) (hsub m (hl m (by simp [hm])) hci)) he
      exact Toward.trans (removeAttributes_toward _ h hll (fun a ha hm => by
        obtain ⟨h2, h3⟩ := hcite a ha hm
        exact ⟨h2, .inr ⟨c, hc, h3⟩⟩) e1) ih

/-- The loop over the children, when no borrow can stop it in the middle of a step. -/
def KidsToward (g : Guards) (K : Trees) : Prop :=
  ∀ (k : Nat) (s : St) (F : Forest) (p : NodeId) (it : Children), Inv s → Describes s F → s.live p = true →
    K.Of F (F.kids p) → (p :: K.pre).Nodup → ItOk s (F.kids p) it → 2 * K.pre.length + 1 ≤ k → g p = .free →
    (∀ n, it.nextBack = some n → g n = .free) → (∀ m ∈ K.pre, g m = .free) →
    (∀ j, s.live j = true → ∀ m ∈ K.pre, s.Cites j m → g j ≠ .shared) →
    ∀ e t, St.removeKidsU g k s it = .error (e, t) → Toward (· ∈ K.pre) (· ∈ K.pre) s t

theorem isLink_plain {v : AttributeValue} (h : v.isLinkContainer = true) : v.plain = false := by
  revert h
  cases v <;> simp [AttributeValue.isLinkContainer, AttributeValue.plain, AttributeValue.linkNode]

theorem removeAuxU_err {K : Trees} (hK : KidsToward g K) {k : Nat} {s : St} {F : Forest} {c : NodeId} (h : Inv s)
    (hF : Describes s F) (hc : s.live c = true) (ho : K.Of F (F.kids c)) (hn : (c :: K.pre).Nodup)
    (hk : 2 * K.pre.length + 2 ≤ k) (hg : ∀ m ∈ c :: K.pre, g m = .free) (har : ¬ Guarded g (s.around c))
    (hci : ∀ j, s.live j = true → ∀ m ∈ c :: K.pre, s.Cites j m → g j ≠ .shared) {e : Err} {t : St}
    (he : St.removeAuxU g k s c = .error (e, t)) : Toward (· ∈ c :: K.pre) (· ∈ K.pre) s t := by
  obtain ⟨k, rfl⟩ : ∃ m, k = m + 1 := ⟨k - 1, by omega⟩
  obtain ⟨s1, s2, e1, e2, hf⟩ := unlink_filtered h hc
  obtain ⟨s1', e1', hf1⟩ := ownLinks_filtered h hc
  rw [e1] at e1'; cases e1'
  have hF2 := hF.frame hf.else_.links hf.else_.live
  have hc1 : s1.live c = true := by rw [hf1.else_.live]; exact hc
  have hc2 : s2.live c = true := by rw [hf.else_.live]; exact hc
  obtain ⟨s3, e3, h3, r3, d3, -⟩ := kidsSpec K k s2 F c (s2.children c) hf.inv hF2 hc2 ho hn (itOk_children hF2 hc2) (by omega)
  have hc3 : s3.live c = true := by rw [r3.live]; exact hc2
  have hn' := List.nodup_cons.1 hn
  have hp0 : F.par c ≠ some c := fun e => hn'.1 (ho.mem_pre c ((hF.wf.kids_iff hc hc).2 e))
  have har3 : s3.around c = s.around c := by
    rw [around_prune hF2 hc2 ho hn'.1 hp0 r3.live d3]
    unfold St.around St.nextSibling St.prevSibling St.parent St.upgrade
    rw [hf.else_.links, hf.else_.live]
  have hgc : g c = .free := hg c (by simp)
  have hnd := h.link.names c hc
  have hown : ∀ a ∈ s.attributes c, a.name ∈ s.ownLinkNames c → a.isSvg = true ∧
      ((· ∈ c :: K.pre) c ∧ a.value.plain = false ∨ ∃ m, (· ∈ c :: K.pre) m ∧ a.value.refersTo m = true) := by
    intro a ha hm
    obtain ⟨b, hb, hs, hlk, hx⟩ := mem_ownLinkNames.1 hm
    have := eq_of_names hnd hb ha hx
    subst this
    exact ⟨hs, .inl ⟨by simp, isLink_plain hlk⟩⟩
  have sub1 : ∀ j, s.live j = true → ∀ m, s1.Cites j m → s.Cites j m := by
    rintro j hj m ⟨a, ha, hs, hr⟩
    rw [hf1.attrs j hj, List.mem_filter] at ha
    exact ⟨a, ha.1, hs, hr⟩
  have sub2 : ∀ j, s.live j = true → ∀ m, s2.Cites j m → s.Cites j m := by
    rintro j hj m ⟨a, ha, hs, hr⟩
    rw [hf.attrs j hj, List.mem_filter] at ha
    exact ⟨a, ha.1, hs, hr⟩
  have t1 : Toward (· ∈ c :: K.pre) (· ∈ K.pre) s s1 := removeAttributes_toward _ h hc hown e1
  have hback := hf1.inv.link.back c hc1
  have t2 : Toward (· ∈ c :: K.pre) (· ∈ K.pre) s s2 := t1.trans (unlinkIncoming_toward (by simp) _ hf1.inv hback e2)
  have hrd : ∀ u : St, u.fails (rd g c) = .ok () := fun u => by rw [rd_free hgc]; rfl
  simp only [St.removeAuxU, hrd, ok_bind] at he
  rw [bind_err] at he
  rcases he with he | ⟨u1, f1, he⟩
  · exact removeAttributesU_err (by simp [hgc]) _ h hc hown he
  have g1 := Respects.of_forget (Respects.removeAttributes (g := g) (s.ownLinkNames c) s c) (removeAttributesU_agrees c _ s) f1
  rw [e1] at g1; cases g1
  rw [bind_err] at he
  rcases he with he | ⟨u2, f2, he⟩
  · refine t1.trans (unlinkIncomingU_err (by simp) _ hf1.inv hback (fun l hl hcl => ?_) he)
    have hll : s.live l = true := by rw [← hf1.else_.live]; exact hback l hl
    exact hci l hll c (by simp) (sub1 l hll c hcl)
  have g2 := Respects.of_forget (Respects.unlinkIncoming (g := g) (s1.linkedNodes c) s1 c) (unlinkIncomingU_agrees c _ s1) f2
  rw [e2] at g2; cases g2
  rw [childrenG_ok (by simp [hgc] : g c ≠ .excl)] at he
  simp only [Except.mapError, ok_bind] at he
  rw [bind_err] at he
  rcases he with he | ⟨u3, f3, he⟩
  · refine t2.trans ((hK k s2 F c _ hf.inv hF2 hc2 ho hn (itOk_children hF2 hc2) (by omega) hgc (fun n hnb => ?_)
      (fun m hm => hg m (by simp [hm])) (fun j hj m hm hcj => ?_) e t he).mono (fun m hm => by simp [hm]) fun m hm => hm)
    · have : s2.lastChild c = some n := hnb
      rw [hF2.shows.last c hc2] at this
      exact hg n (List.mem_cons_of_mem _ (ho.mem_pre n (List.mem_of_getLast? this)))
    · have hj' : s.live j = true := by rw [← hf.else_.live]; exact hj
      exact hci j hj' m (by simp [hm]) (sub2 j hj' m hcj)
  have g3 := Respects.of_forget ((Respects.removeAux (g := g) k).2 s2 (s2.children c)) ((removeU_agrees k).2 s2 _) f3
  rw [e3] at g3; cases g3
  exfalso
  have hk0 : (F.prune K.pre).par c ≠ some c := by
    simp only [Forest.prune, hn'.1, if_false]; exact hp0
  have hds := detach_spec (h3.reps d3) hc3
  rw [if_neg hk0] at hds
  have f4 : s3.detachGU g c = .ok (s3.detached c) := by
    refine forget_ok ?_
    rw [detachGU_agrees, detachG_eq, if_neg (by rw [guarded_cons, har3]; push Not; exact ⟨hgc, har⟩), hds]
  obtain ⟨s5, e5, -⟩ := finishRemove_ok (h3.detached hc3) (i := c) hc3
  have f5 : (s3.detached c).finishRemoveU g c = .ok s5 := by
    refine forget_ok ?_
    rw [finishRemoveU_agrees, St.finishRemoveG, wr_nil hgc, bind_ok_left, e5]
  rw [f4, ok_bind, f5] at he
  cases he

theorem kidsToward : ∀ K : Trees, KidsToward g K
  | .nil => by
    intro k s F p it h hF hp ho hn hit hk hgp hnb hg hci e t he
    simp only [Trees.Of] at ho
    obtain ⟨k, rfl⟩ : ∃ m, k = m + 1 := ⟨k - 1, by omega⟩
    rw [ItOk, if_pos ho] at hit
    simp only [St.removeKidsU] at he
    rw [childrenNextG_ok (fun n hn' => by simp [hnb n hn']) (by simp [hit])] at he
    simp only [Except.mapError, ok_bind] at he
    have hx : s.childrenNext it = (none, it) := by simp [St.childrenNext, hit]
    rw [hx] at he
    cases he
  | .cons c K R => by
    intro k s F p it h hF hp ho hn hit hk hgp hnb hg hci e t he
    obtain ⟨l', hl', hoK, hoR⟩ := ho
    simp only [Trees.pre, List.length_cons, List.length_append] at hk
    obtain ⟨k, rfl⟩ : ∃ m, k = m + 1 := ⟨k - 1, by omega⟩
    have hck : c ∈ F.kids p := by rw [hl']; simp
    obtain ⟨hc, hcp⟩ := hF.wf.kids p hp c hck
    simp only [Trees.pre, List.nodup_cons, List.mem_cons, List.mem_append, not_or, List.nodup_append] at hn
    obtain ⟨⟨hpc, hpK, hpR⟩, ⟨hcK, hcR⟩, hnK, hnR, hKR⟩ := hn
    obtain ⟨s1, e1, h1, r1, d1, -⟩ := removeAux_of_kids (kidsSpec K) (k := k) h hF hc hoK (by simp [hcK, hnK]) (by omega)
    have hp1 : s1.live p = true := by rw [r1.live]; exact hp
    have hdR : ∀ j ∈ R.pre, j ∉ c :: K.pre := by
      intro j hj hm
      rcases List.mem_cons.1 hm with rfl | hm
      · exact hcR hj
      · exact hKR j hm j hj rfl
    have hkp : (F.prune (c :: K.pre)).kids p = l' := by
      have : p ∉ c :: K.pre := by simp [hpc, hpK]
      simp only [Forest.prune, this, if_false, hl']
      rw [List.filter_cons]
      simp only [List.mem_cons, true_or, not_true, decide_false, Bool.false_eq_true, if_false]
      have := filter_all (l := l') (S := c :: K.pre) fun x hx => hdR x (hoR.mem_pre x hx)
      simpa using this
    have hnx : s.nextSibling c = l'.head? := by
      rw [hF.shows.next c hc, ← hF.wf.kids_sibs hp hck, hl']; simp [after]
    have hpv : s.prevSibling c = none := by
      rw [hF.shows.prev c hc, ← hF.wf.kids_sibs hp hck, hl']
      cases l' <;> simp [before]
    rw [ItOk, if_neg (by rw [hl']; simp), hl'] at hit
    have hfin : s.childrenFinished it = false := by
      rw [hit]
      simp only [St.childrenFinished, List.head?_cons]
      cases hg : (c :: l').getLast? with
      | none => simp at hg
      | some nb =>
        have hnbm : nb ∈ F.kids p := by rw [hl']; exact List.mem_of_getLast? hg
        have hnb := (hF.wf.kids p hp nb hnbm).1
        have : s.nextSibling nb = none := by
          rw [hF.shows.next nb hnb, ← hF.wf.kids_sibs hp hnbm]
          exact after_last_none (hF.wf.kids_nodup hp) (by rw [hl']; exact hg)
        simp [this]
    have hstep : s.childrenNext it = (some c, ⟨l'.head?, (c :: l').getLast?⟩) := by
      simp only [St.childrenNext, hfin, Bool.false_eq_true, if_false]
      rw [hit]
      simp [hnx]
    have hit1 : ItOk s1 ((F.prune (c :: K.pre)).kids p) ⟨l'.head?, (c :: l').getLast?⟩ := by
      rw [hkp, ItOk]
      split
      · next e =>
        subst e
        have hc1 : s1.live c = true := by rw [r1.live]; exact hc
        have : s1.nextSibling c = none := by
          rw [d1.shows.next c hc1]; simp [Forest.prune, after]
        simp [St.childrenFinished, this]
      · next e =>
        cases l' with
        | nil => exact absurd rfl e
        | cons x l => simp
    have hoR1 : R.Of (F.prune (c :: K.pre)) ((F.prune (c :: K.pre)).kids p) := by rw [hkp]; exact hoR.prune hdR
    have hpre : ∀ m, m ∈ (Trees.cons c K R).pre ↔ m ∈ c :: K.pre ∨ m ∈ R.pre := by
      intro m; simp [Trees.pre, or_assoc]
    have hfree : ∀ m ∈ c :: l', g m = .free := by
      intro m hm
      refine hg m ((hpre m).2 ?_)
      rcases List.mem_cons.1 hm with rfl | hm
      · exact .inl (by simp)
      · exact .inr (hoR.mem_pre m hm)
    simp only [St.removeKidsU] at he
    rw [childrenNextG_ok (fun n hn' => by simp [hnb n hn']) (fun _ n hn' => by
      rw [hit] at hn'
      simp only [List.head?_cons, Option.some.injEq] at hn'
      subst hn'
      simp [hfree])] at he
    simp only [Except.mapError, ok_bind, hstep] at he
    have hgd : ¬ Guarded g (s.around c) := by
      unfold St.around
      rw [hnx, hpv, hF.shows.parent c hc, hcp, guarded_append, guarded_toList, guarded_toList]
      push Not
      constructor
      · intro n hn
        cases l' with
        | nil => simp at hn; rw [← hn]; exact hgp
        | cons x l => simp at hn; rw [← hn]; exact hfree x (by simp)
      · intro n hn; simp at hn; rw [← hn]; exact hgp
    rw [bind_err] at he
    rcases he with he | ⟨u, f1, he⟩
    · refine (removeAuxU_err (kidsToward K) h hF hc hoK (by simp [hcK, hnK]) (by omega) (fun m hm => hg m ((hpre m).2 (.inl hm))) hgd
        (fun j hj m hm hcm => hci j hj m ((hpre m).2 (.inl hm)) hcm) he).mono (fun m hm => (hpre m).2 (.inl hm))
        fun m hm => (hpre m).2 (.inl (List.mem_cons_of_mem _ hm))
    · have g1 := Respects.of_forget ((Respects.removeAux (g := g) k).1 s c) ((removeU_agrees k).1 s c) f1
      rw [e1] at g1; cases g1
      have hsub : ∀ j, s.live j = true → ∀ m, s1.Cites j m → s.Cites j m := by
        rintro j hj m ⟨a, ha, hs, hr⟩
        rw [r1.attrs j hj, List.mem_filter] at ha
        exact ⟨a, ha.1, hs, hr⟩
      have ih := kidsToward R k s1 _ p _ h1 d1 hp1 hoR1 (by simp [hpR, hnR]) hit1 (by omega) hgp
        (fun n hn => hfree n (List.mem_of_getLast? hn)) (fun m hm => hg m ((hpre m).2 (.inr hm)))
        (fun j hj m hm hcm => by
          have hj' : s.live j = true := by rw [← r1.live]; exact hj
          exact hci j hj' m ((hpre m).2 (.inr hm)) (hsub j hj' m hcm)) e t he
      refine Toward.trans (.node (.refl s) hc ((hpre c).2 (.inl (by simp))) ?_)
        (ih.mono (fun m hm => (hpre m).2 (.inr hm)) fun m hm => (hpre m).2 (.inr hm))
      have hlen := length_le_of_below (l := c :: K.pre) (n := s.nextId) (by simp [hcK, hnK]) (by
        intro j hj
        rcases List.mem_cons.1 hj with rfl | hj
        · exact h.liveBelow _ hc
        · exact h.liveBelow _ (pre_live hF hoK (fun x hx => (hF.wf.kids c hc x hx).1) j hj))
      obtain ⟨u, e2, -⟩ := removeAux_of_kids (kidsSpec K) (k := s.fuel) h hF hc hoK (by simp [hcK, hnK]) (by
        simp only [List.length_cons] at hlen
        unfold St.fuel
        omega)
      have := (removeAux_mono s.fuel).1 e2 (max s.fuel k) (le_max_left _ _)
      rw [(removeAux_mono k).1 e1 (max s.fuel k) (le_max_right _ _)] at this
      cases this
      exact e2

/-- `remove_node`, stopped by a borrow. -/
theorem removeNodeU_err {s : St} (h : Inv s) (ha : s.Acyclic) {F : Forest} (hF : Describes s F) {i : NodeId} (hi : s.live i = true)
    (hg : Gentle g s i) {e : Err} {t : St} (he : s.removeNodeU g i = .error (e, t)) : Toward (s.InSubtree i) (s.Ancestor i) s t := by
  have hkl : ∀ c ∈ F.kids i, s.live c = true := fun c hc => (hF.wf.kids i hi c hc).1
  obtain ⟨K, hK⟩ := trees_exist h hF ha (F.kids i) hkl
  have hT : (Trees.cons i K .nil).Of F [i] := ⟨[], rfl, hK, rfl⟩
  have h1 := pre_nodup hF ha hT (by simpa using hi) (by simp) (by simp)
  simp only [Trees.pre, List.append_nil] at h1
  have hl : ∀ m ∈ i :: K.pre, s.live m = true := by
    intro m hm
    rcases List.mem_cons.1 hm with rfl | hm
    · exact hi
    · exact pre_live hF hK hkl m hm
  have h2 := length_le_of_below h1 (n := s.nextId) fun j hj => h.liveBelow j (hl j hj)
  have hanc : ∀ m ∈ K.pre, s.Ancestor i m := fun m hm => (mem_pre_kids hF hi hK (pre_live hF hK hkl m hm)).1 hm
  have hsub : ∀ m ∈ i :: K.pre, s.InSubtree i m := by
    intro m hm
    rcases List.mem_cons.1 hm with rfl | hm
    · exact .refl
    · exact (hanc m hm).to_reflTransGen
  refine (removeAuxU_err (kidsToward K) h hF hi hK h1 ?_ (fun m hm => hg.below m (hl m hm) (hsub m hm)) hg.around
    (fun j hj m hm hc => hg.citing j m hj (hl m hm) (hsub m hm) hc) he).mono hsub hanc
  simp only [St.fuel, List.length_cons] at h2 ⊢
  omega

end

end Svgdom
