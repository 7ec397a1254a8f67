import Verif.Props.Writer
import Verif.Proof.Distinct
import Verif.Proof.RoundTrip
import Verif.Spec.Rounds

/-!
# Documents that are the same are written alike
-/

set_option autoImplicit false

namespace Svgdom

/-- Two strictly sorted lists of pairs whose keys are the same and whose values are related. -/
theorem forall₂_of_sorted {R : AttributeId × AttributeValue → AttributeId × AttributeValue → Prop} : ∀ {l m : List (AttributeId × AttributeValue)},
    (l.Pairwise fun a b => a.1.toNat < b.1.toNat) → (m.Pairwise fun a b => a.1.toNat < b.1.toNat) →
    (∀ p ∈ l, ∃ q ∈ m, q.1 = p.1 ∧ R p q) → (∀ q ∈ m, ∃ p ∈ l, p.1 = q.1) →
    List.Forall₂ (fun p q => q.1 = p.1 ∧ R p q) l m
  | [], m, _, _, _, h2 => by
    cases m with
    | nil => exact .nil
    | cons q m => obtain ⟨p, hp, _⟩ := h2 q (by simp); simp at hp
  | p :: l, m, hl, hm, h1, h2 => by
    cases m with
    | nil => obtain ⟨q, hq, _⟩ := h1 p (by simp); simp at hq
    | cons q m =>
      rw [List.pairwise_cons] at hl hm
      have hpq : q.1 = p.1 ∧ R p q := by
        obtain ⟨q', hq', e, r⟩ := h1 p (by simp)
        rcases List.mem_cons.1 hq' with rfl | hq'
        · exact ⟨e, r⟩
        · obtain ⟨p', hp', e'⟩ := h2 q (by simp)
          have g1 := hm.1 q' hq'
          rcases List.mem_cons.1 hp' with rfl | hp'
          · rw [e, e'] at g1; omega
          · have g2 := hl.1 p' hp'
            rw [e] at g1; rw [e'] at g2; omega
      refine .cons hpq (forall₂_of_sorted hl.2 hm.2 ?_ ?_)
      · intro p' hp'
        obtain ⟨q', hq', e, r⟩ := h1 p' (by simp [hp'])
        rcases List.mem_cons.1 hq' with rfl | hq'
        · have := hl.1 p' hp'
          rw [← e, hpq.1] at this; omega
        · exact ⟨q', hq', e, r⟩
      · intro q' hq'
        obtain ⟨p', hp', e⟩ := h2 q' (by simp [hq'])
        rcases List.mem_cons.1 hp' with rfl | hp'
        · have := hm.1 q' hq'
          rw [← e, hpq.1] at this; omega
        · exact ⟨p', hp', e⟩

/-- Related values are written alike if the nodes they refer to have the same id. -/
theorem svgEvents_same {s t : St} {R : NodeId → NodeId → Prop} (W : ValueWriter) (x : Str) (i : AttributeId) {v w : AttributeValue}
    (h : SameValue R v w) (hid : ∀ m n, R m n → v.refersTo m = true → t.idOf n = s.idOf m) :
    s.svgEvents W x (i, v) = t.svgEvents W x (i, w) := by
  have hw : s.writeValue W v = t.writeValue W w := by
    cases h with
    | plain h => cases v <;> first | rfl | simp [AttributeValue.plain] at h
    | link h => simp only [St.writeValue, hid _ _ h (by simp [AttributeValue.refersTo])]
    | funcLink h => simp only [St.writeValue, hid _ _ h (by simp [AttributeValue.refersTo])]
    | paint fb h => simp only [St.writeValue, hid _ _ h (by simp [AttributeValue.refersTo])]
  by_cases hi : i = .Unicode
  · subst hi
    cases h with
    | plain h => cases v <;> rfl
    | link h => rfl
    | funcLink h => rfl
    | paint fb h => rfl
  · unfold St.svgEvents
    split <;> first | (exfalso; simp_all; done) | (split <;> simp_all)

/-- What is written for the attributes of an element, if the namespaces are the same. -/
theorem attributes_same {s t : St} (hs : Reachable s) (ht : Reachable t) (W : ValueWriter)
    {R : NodeId → NodeId → Prop} {i j : NodeId} (hi : s.live i = true) (hj : t.live j = true) (hel : s.nodeType i = .element)
    (hn : SameNode s t R i j) (hsvg : ∀ a ∈ s.attributes i, ∃ k, a.name = .id k)
    (hid : ∀ a ∈ s.attributes i, ∀ m n, R m n → a.value.refersTo m = true → t.idOf n = s.idOf m)
    (hns : s.writeNamespaces i = t.writeNamespaces j) : s.writeAttributes W i = t.writeAttributes W j := by
  have hname : ∀ i, ∃ x, St.writtenName i = .ok x := writtenName_ok
  choose name hname using hname
  have ev : ∀ {s : St} {i : NodeId}, Reachable s → s.live i = true → s.writeSvgAttributes W i (sortByKey (attrsSvg (s.attributes i))) =
      .ok (((sortByKey (attrsSvg (s.attributes i))).map fun p => (p.1, p.2.value)).flatMap fun p => s.svgEvents W (name p.1) p) := by
    intro s i hs hi
    refine writeSvg_events W hname _ fun p hp => ?_
    have := attrsSvg_mem ((sortByKey_perm _).mem_iff.1 hp)
    exact attrsGet_mem (hs.inv.link.names i hi) this.1
  have mem : ∀ {l : List Attribute} {p : AttributeId × AttributeValue},
      p ∈ ((sortByKey (attrsSvg l)).map fun p => (p.1, p.2.value)) ↔ ⟨.id p.1, p.2⟩ ∈ l := by
    intro l p
    rw [((sortByKey_perm (attrsSvg l)).map _).mem_iff, ← svgPairs_eq, mem_svgPairs]
  have hat := hn.attrs hel
  have hsn := hs.inv.link.names i hi
  have htn := ht.inv.link.names j hj
  have back : ∀ x v, ⟨x, v⟩ ∈ t.attributes j → ∃ w, ⟨x, w⟩ ∈ s.attributes i := by
    intro x v ha
    have h2 := hat x
    rw [getValue_of_mem htn ha] at h2
    cases h3 : attrsGetValue (s.attributes i) x with
    | none => rw [h3] at h2; cases h2
    | some w => exact ⟨w, mem_of_getValue h3⟩
  have hother : ∀ {s : St} {l : List Attribute}, (∀ a ∈ l, ∃ k, a.name = .id k) → s.writeOtherAttributes W l = [] := by
    intro s l hl
    unfold St.writeOtherAttributes
    rw [List.filterMap_eq_nil_iff]
    rintro ⟨x, v⟩ ha
    obtain ⟨k, hk⟩ := hl _ ha
    simp only at hk
    subst hk
    rfl
  have hsvg' : ∀ a ∈ t.attributes j, ∃ k, a.name = .id k := by
    rintro ⟨x, v⟩ ha
    obtain ⟨w, hw⟩ := back x v ha
    exact hsvg ⟨x, w⟩ hw
  have hf := forall₂_of_sorted (R := fun p q => SameValue R p.2 q.2 ∧ ⟨.id p.1, p.2⟩ ∈ s.attributes i)
    (sorted_strict hsn) (sorted_strict htn) (by
      intro p hp
      rw [mem] at hp
      have h2 := hat (.id p.1)
      rw [getValue_of_mem hsn hp] at h2
      cases h3 : attrsGetValue (t.attributes j) (.id p.1) with
      | none => rw [h3] at h2; cases h2
      | some w =>
        rw [h3] at h2
        cases h2 with
        | some h2 => exact ⟨(p.1, w), mem.2 (mem_of_getValue h3), rfl, h2, hp⟩) (by
      intro q hq
      obtain ⟨w, hw⟩ := back _ _ (mem.1 hq)
      exact ⟨(q.1, w), mem.2 hw, rfl⟩)
  have hflat : ∀ {l m : List (AttributeId × AttributeValue)},
      List.Forall₂ (fun p q => q.1 = p.1 ∧ SameValue R p.2 q.2 ∧ ⟨.id p.1, p.2⟩ ∈ s.attributes i) l m →
      (l.flatMap fun p => s.svgEvents W (name p.1) p) = m.flatMap fun p => t.svgEvents W (name p.1) p := by
    intro l m h
    induction h with
    | nil => rfl
    | cons h1 _ ih =>
      rename_i p q l m _
      obtain ⟨e, h2, h3⟩ := h1
      obtain ⟨k, v⟩ := p
      obtain ⟨k', w⟩ := q
      simp only at e h2 h3
      have e2 := svgEvents_same W (name k) k h2 (fun m n => hid _ h3 m n)
      simp only [List.flatMap_cons, ih]
      rw [e2, e]
  have hidA : s.hasIdAttr i = t.hasIdAttr j := by simp only [St.hasIdAttr, hn.id hel]
  simp only [St.writeAttributes, hns, ev hs hi, ev ht hj, hflat hf, hidA, hn.id hel, hother hsvg, hother hsvg']

theorem Trees.Same.length {s t : St} {R : NodeId → NodeId → Prop} : ∀ {T U : Trees}, T.Same s t R U → T.pre.length = U.pre.length
  | .nil, .nil, _ => rfl
  | .cons _ K L, .cons _ K' L', ⟨_, h2, h3⟩ => by
    simp only [Trees.pre, List.length_cons, List.length_append, Trees.Same.length h2, Trees.Same.length h3]

/-- Corresponding nodes of trees that are the same. -/
theorem Trees.Same.zip {s t : St} {R : NodeId → NodeId → Prop} : ∀ {T U : Trees}, T.Same s t R U →
    ∀ i j, (i, j) ∈ T.pre.zip U.pre → SameNode s t R i j
  | .nil, .nil, _, i, j, h => by simp [Trees.pre] at h
  | .cons m K L, .cons n K' L', ⟨h1, h2, h3⟩, i, j, h => by
    have hlen : K.pre.length = K'.pre.length := h2.length
    simp only [Trees.pre, List.zip_cons_cons, List.mem_cons, Prod.mk.injEq, List.zip_append hlen, List.mem_append] at h
    rcases h with ⟨rfl, rfl⟩ | h | h
    · exact h1
    · exact Trees.Same.zip h2 i j h
    · exact Trees.Same.zip h3 i j h

/-- Something is true of some node of one of the trees iff it is true of some node of the other. -/
theorem Trees.Same.any {s t : St} {R : NodeId → NodeId → Prop} {f g : NodeId → Bool} : ∀ {T U : Trees}, T.Same s t R U →
    (∀ i ∈ T.pre, ∀ j ∈ U.pre, SameNode s t R i j → f i = g j) → T.pre.any f = U.pre.any g
  | .nil, .nil, _, _ => rfl
  | .cons m K L, .cons n K' L', ⟨h1, h2, h3⟩, h => by
    simp only [Trees.pre, List.mem_cons, List.mem_append] at h
    simp only [Trees.pre, List.any_cons, List.any_append]
    rw [h m (.inl rfl) n (.inl rfl) h1, Trees.Same.any h2 fun i hi j hj => h i (.inr (.inl hi)) j (.inr (.inl hj)),
      Trees.Same.any h3 fun i hi j hj => h i (.inr (.inr hi)) j (.inr (.inr hj))]

theorem hasAttribute_same {s t : St} {R : NodeId → NodeId → Prop} {i j : NodeId} (h : SameNode s t R i j)
    (hs : s.nodeType i ≠ .element → s.attributes i = []) (ht : t.nodeType j ≠ .element → t.attributes j = []) (x : AName) :
    s.hasAttribute i x = t.hasAttribute j x := by
  by_cases hel : s.nodeType i = .element
  · have h1 : ∀ l : List Attribute, attrsContains l x = (attrsGetValue l x).isSome := by
      intro l
      unfold attrsContains attrsGetValue attrsGet
      rw [Option.isSome_map, Bool.eq_iff_iff, List.find?_isSome]
      simp
    have h2 := h.attrs hel x
    unfold St.hasAttribute
    rw [h1, h1]
    revert h2
    generalize attrsGetValue (s.attributes i) x = o
    generalize attrsGetValue (t.attributes j) x = o'
    intro h2
    cases h2 <;> rfl
  · unfold St.hasAttribute
    rw [hs hel, ht (by rw [h.type]; exact hel)]

/-- The descendants of a node, with their trees. -/
theorem descendants_tree {s : St} (h : Reachable s) (ha : s.Acyclic) {F : Forest} (hF : Describes s F) {i : NodeId}
    (hi : s.live i = true) {K : Trees} (hK : K.Of F (F.kids i)) : s.descendantList i = .ok (i :: K.pre) := by
  obtain ⟨T, hT, _, _, hd⟩ := C07_traverse h ha hF hi
  obtain ⟨k, r, rfl, hk, hr⟩ := hT.cons_list
  cases hk.unique hK
  have : r = .nil := by
    cases r with
    | nil => rfl
    | cons _ _ _ => obtain ⟨_, e, _⟩ := hr; simp at e
  subst this
  simpa [Trees.pre] using hd

/-- Everything needed about one of the two documents. -/
structure Side (s : St) (F : Forest) : Prop where
  reach : Reachable s
  acyclic : s.Acyclic
  desc : Describes s F

def OnlyElements (s : St) (T : Trees) : Prop := ∀ n ∈ T.pre, s.nodeType n ≠ .element → s.attributes n = [] ∧ s.tagName n = .name []

theorem writeEdges_same {s t : St} (W : ValueWriter) {R : NodeId → NodeId → Prop} {F G : Forest} (hs : Side s F) (ht : Side t G)
    (hR : ∀ m n, R m n → SameNode s t R m n) :
    ∀ {T U : Trees}, T.Same s t R U → OnlyElements s T → OnlyElements t U →
      (∀ n ∈ T.pre, ∀ a ∈ s.attributes n, (∃ k, a.name = .id k) ∧ ∀ m, a.value.refersTo m = true → s.nodeType m = .element) →
      ∀ {l l' : List NodeId} {p q : NodeId}, T.Of F l → U.Of G l' → (∀ c ∈ l, s.live c = true ∧ s.parent c = some p) →
      (∀ c ∈ l', t.live c = true ∧ t.parent c = some q) → s.isRoot p = t.isRoot q →
      ∀ {es es' : List Edge}, s.writeEdges W es = t.writeEdges W es' → s.writeEdges W (T.edges ++ es) = t.writeEdges W (U.edges ++ es')
  | .nil, .nil, _, _, _, _, _, _, _, _, _, _, _, _, _, _, _, he => he
  | .cons i K L, .cons j K' L', ⟨h1, h2, h3⟩, ps, pt, ha, _, _, p, q, ⟨l, rfl, hK, hL⟩, ⟨l', rfl, hK', hL'⟩, hl, hl', hpq, es, es', he => by
    obtain ⟨hi, hip⟩ := hl i (by simp)
    obtain ⟨hj, hjq⟩ := hl' j (by simp)
    have psi := ps i (by simp [Trees.pre])
    have ptj := pt j (by simp [Trees.pre])
    have psK : OnlyElements s K := fun n hn => ps n (by simp [Trees.pre, hn])
    have ptK : OnlyElements t K' := fun n hn => pt n (by simp [Trees.pre, hn])
    have htag : s.tagName i = t.tagName j := by
      by_cases hel : s.nodeType i = .element
      · exact (h1.tag hel).symm
      · rw [(psi hel).2, (ptj (by rw [h1.type]; exact hel)).2]
    have hhas : ∀ x, s.hasTagName i x = t.hasTagName j x := by
      intro x; unfold St.hasTagName; rw [htag]
    have hkid : ∀ {s : St} {F : Forest} {i : NodeId}, Describes s F → s.live i = true →
        ∀ c ∈ F.kids i, s.live c = true ∧ s.parent c = some i := by
      intro s F i hF hi c hc
      obtain ⟨a, b⟩ := hF.wf.kids i hi c hc
      exact ⟨a, by rw [hF.shows.parent c a]; exact b⟩
    have eL := writeEdges_same W hs ht hR h3 (fun n hn => ps n (by simp [Trees.pre, hn])) (fun n hn => pt n (by simp [Trees.pre, hn]))
      (fun n hn => ha n (by simp [Trees.pre, hn])) hL hL' (fun c hc => hl c (by simp [hc])) (fun c hc => hl' c (by simp [hc])) hpq he
    have eE : s.writeEnd i = t.writeEnd j := by
      unfold St.writeEnd St.isElement
      rw [h1.type, hhas]
    have eS : s.writeEdges W (.stop i :: (L.edges ++ es)) = t.writeEdges W (.stop j :: (L'.edges ++ es')) := by
      simp only [St.writeEdges, eL, eE]
    have eK := writeEdges_same W hs ht hR h2 psK ptK (fun n hn => ha n (by simp [Trees.pre, hn])) hK hK' (hkid hs.desc hi)
      (hkid ht.desc hj) (by simp only [St.isRoot, h1.type]) eS
    have eA : s.nodeType i = .element → s.writeAttributes W i = t.writeAttributes W j := by
      intro hel
      have hai := ha i (by simp [Trees.pre])
      refine attributes_same hs.reach ht.reach W hi hj hel h1 (fun a h => (hai a h).1) (fun a h m n hmn hm => ?_) ?_
      · exact (hR m n hmn).id ((hai a h).2 m hm)
      · have hany : (i :: K.pre).any (fun m => s.hasAttribute m (.id .Href)) = (j :: K'.pre).any (fun m => t.hasAttribute m (.id .Href)) := by
          rw [List.any_cons, List.any_cons, hasAttribute_same h1 (fun h => (psi h).1) (fun h => (ptj h).1),
            h2.any fun m hm n hn hmn => hasAttribute_same hmn (fun h => (psK m hm h).1) (fun h => (ptK n hn h).1) _]
        simp only [St.writeNamespaces, hhas, hip, hjq, Option.map_some, hpq, descendants_tree hs.reach hs.acyclic hs.desc hi hK,
          descendants_tree ht.reach ht.acyclic ht.desc hj hK', bind, Except.bind, hany]
    have eW : s.writeStart W i = t.writeStart W j := by
      unfold St.writeStart
      rw [h1.type]
      cases hty : s.nodeType i with
      | root => rfl
      | element => simp only [htag, eA hty, hhas]
      | comment => simp only [h1.text (by rw [hty]; simp)]
      | text => simp only [h1.text (by rw [hty]; simp)]
    simp only [Trees.edges, List.cons_append, List.append_assoc, St.writeEdges, eW]
    rw [eK]

theorem writeDom_same {s t : St} (W : ValueWriter) {F G : Forest} (hs : Side s F) (ht : Side t G) {T U : Trees}
    (hT : T.Of F (F.kids s.rootId)) (hU : U.Of G (G.kids t.rootId)) (h : SameDoc s T t U) (ps : PlainNodes s T) (pt : PlainNodes t U)
    (ha : ∀ n ∈ T.pre, ∀ a ∈ s.attributes n, (∃ k, a.name = .id k) ∧ ∀ m, a.value.refersTo m = true → s.nodeType m = .element) :
    s.writeDom W = t.writeDom W := by
  have edges : ∀ {s : St} {F : Forest} {T : Trees}, Side s F → T.Of F (F.kids s.rootId) →
      s.edgeList s.rootId = .ok (.start s.rootId :: (T.edges ++ [.stop s.rootId])) ∧ s.nodeType s.rootId = .root ∧
      ∀ c ∈ F.kids s.rootId, s.live c = true ∧ s.parent c = some s.rootId := by
    intro s F T hs hT
    have hr : s.live s.rootId = true := by obtain ⟨_, hti⟩ := hs.reach.inv.tree; exact hti.root
    obtain ⟨T0, hT0, _, he, _⟩ := C07_traverse hs.reach hs.acyclic hs.desc hr
    obtain ⟨k, r, rfl, hk, hr'⟩ := hT0.cons_list
    cases hk.unique hT
    have : r = .nil := by
      cases r with
      | nil => rfl
      | cons _ _ _ => obtain ⟨_, e, _⟩ := hr'; simp at e
    subst this
    refine ⟨by simpa [Trees.edges] using he, (hs.reach.nodesOk.root _ hr).2 rfl, fun c hc => ?_⟩
    obtain ⟨a, b⟩ := hs.desc.wf.kids _ hr c hc
    exact ⟨a, by rw [hs.desc.shows.parent c a]; exact b⟩
  obtain ⟨e1, r1, k1⟩ := edges hs hT
  obtain ⟨e2, r2, k2⟩ := edges ht hU
  have e3 : s.writeEdges W [.stop s.rootId] = t.writeEdges W [.stop t.rootId] := by
    simp only [St.writeEdges, St.writeEnd, St.isElement, r1, r2, St.hasTagName, ps.root, pt.root]
  have e4 := writeEdges_same W hs ht (fun m n hmn => h.zip m n hmn) h ps.nodes pt.nodes ha hT hU k1 k2 (by simp only [St.isRoot, r1, r2]) e3
  simp only [St.writeDom, e1, e2, bind, Except.bind]
  simp only [St.writeEdges, St.writeStart, r1, r2, e4]

end Svgdom
