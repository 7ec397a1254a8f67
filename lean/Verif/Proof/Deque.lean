import Verif.Spec.Trees
import Verif.Proof.Lists

/-! Double-ended walks over duplicate-free lists. -/

namespace Svgdom

section
variable {α : Type} [DecidableEq α]

/-- `succ` and `pred` step along `l`. -/
structure Walk (l : List α) (succ pred : α → Option α) : Prop where
  nodup : l.Nodup
  succ : ∀ a x b, l = a ++ x :: b → succ x = b.head?
  pred : ∀ a x b, l = a ++ x :: b → pred x = a.getLast?

/-- Iterator state `(next, back)` over `l` that has `m` left. -/
def Seg (l : List α) (next back : Option α) (m : List α) : Prop :=
  ∃ a b, l = a ++ m ++ b ∧ next = (m ++ b).head? ∧ back = (a ++ m).getLast?

def walkFinished (succ : α → Option α) (next back : Option α) : Bool :=
  match back with
  | some nb => decide (succ nb = next)
  | none => true

theorem seg_init (l : List α) : Seg l l.head? l.getLast? l := ⟨[], [], by simp, by simp, by simp⟩

variable {l m : List α} {succ pred : α → Option α} {next back : Option α}

theorem Walk.finished (h : Walk l succ pred) (hs : Seg l next back m) :
    walkFinished succ next back = m.isEmpty := by
  obtain ⟨a, b, e, hn, hb⟩ := hs
  unfold walkFinished
  rcases List.eq_nil_or_concat m with rfl | ⟨m', x, rfl⟩
  · simp only [List.append_nil, List.nil_append] at e hn hb
    rcases List.eq_nil_or_concat a with rfl | ⟨a', y, rfl⟩
    · simp [hb]
    · have h1 : back = some y := by simp [hb]
      rw [h1]
      have := h.succ a' y b (by rw [e]; simp)
      simp [this, hn]
  · have h1 : back = some x := by rw [hb]; simp
    rw [h1]
    have h2 := h.succ (a ++ m') x b (by rw [e]; simp)
    simp only [h2, hn]
    have h3 : ((m'.concat x ++ b).head?) ≠ b.head? := by
      cases m' with
      | nil =>
        simp only [List.concat_eq_append, List.nil_append, List.cons_append, List.head?_cons]
        intro hh
        have hx : x ∈ b := List.mem_of_mem_head? hh.symm
        have := h.nodup
        rw [e] at this
        simp only [List.concat_eq_append, List.nil_append] at this
        exact (List.nodup_append.1 this).2.2 x (by simp) x hx rfl
      | cons y m'' =>
        simp only [List.concat_eq_append, List.cons_append, List.head?_cons]
        intro hh
        have hx : y ∈ b := List.mem_of_mem_head? hh.symm
        have := h.nodup
        rw [e] at this
        exact (List.nodup_append.1 this).2.2 y (by simp) y hx rfl
    have h4 : (m'.concat x).isEmpty = false := by simp
    rw [h4, decide_eq_false_iff_not]
    exact fun hh => h3 hh.symm

theorem Walk.front (h : Walk l succ pred) {x : α} (hs : Seg l next back (x :: m)) :
    next = some x ∧ Seg l (succ x) back m := by
  obtain ⟨a, b, e, hn, hb⟩ := hs
  refine ⟨by simp [hn], a ++ [x], b, by simp [e], ?_, ?_⟩
  · rw [h.succ a x (m ++ b) (by simp [e])]
  · rw [hb]; simp

theorem Walk.rear (h : Walk l succ pred) {x : α} (hs : Seg l next back (m ++ [x])) :
    back = some x ∧ Seg l next (pred x) m := by
  obtain ⟨a, b, e, hn, hb⟩ := hs
  refine ⟨by simp [hb], a, x :: b, by simp [e], ?_, ?_⟩
  · rw [hn]; simp
  · rw [h.pred (a ++ m) x b (by simp [e])]

end

/-! ### Instances -/

theorem childrenFinished_eq (s : St) (it : Children) :
    s.childrenFinished it = walkFinished s.nextSibling it.next it.nextBack := by
  unfold St.childrenFinished walkFinished
  cases it.nextBack <;> simp

theorem traverseFinished_eq (s : St) (it : Traverse) :
    s.traverseFinished it = walkFinished (s.nextItem it.root) it.next it.nextBack := by
  unfold St.traverseFinished walkFinished
  cases it.nextBack <;> simp

theorem children_pulls {s : St} {l : List NodeId} (h : Walk l s.nextSibling s.prevSibling) :
    ∀ (ps : List Pull) (it : Children) (m : List NodeId), Seg l it.next it.nextBack m → s.childrenPulls ps it = deque ps m
  | [], _, _, _ => rfl
  | .front :: ps, it, m, hs => by
    have hf' : s.childrenFinished it = m.isEmpty := by rw [childrenFinished_eq, h.finished hs]
    cases m with
    | nil =>
      simp only [St.childrenPulls, St.childrenNext, hf', deque, List.isEmpty_nil, if_true]
      rw [children_pulls h ps it [] hs]
    | cons x m =>
      obtain ⟨hn, hs'⟩ := h.front hs
      simp only [St.childrenPulls, St.childrenNext, hf', deque, List.isEmpty_cons, Bool.false_eq_true, if_false, hn]
      rw [children_pulls h ps _ m hs']
  | .back :: ps, it, m, hs => by
    have hf' : s.childrenFinished it = m.isEmpty := by rw [childrenFinished_eq, h.finished hs]
    rcases List.eq_nil_or_concat m with rfl | ⟨m, x, rfl⟩
    · simp only [St.childrenPulls, St.childrenNextBack, hf', deque, List.isEmpty_nil, if_true]
      rw [children_pulls h ps it [] hs]; rfl
    · rw [List.concat_eq_append] at *
      obtain ⟨hn, hs'⟩ := h.rear hs
      have he : (m ++ [x]).isEmpty = false := by simp
      simp only [St.childrenPulls, St.childrenNextBack, hf', he, deque, Bool.false_eq_true, if_false, hn]
      rw [children_pulls h ps _ m hs']
      simp

theorem collectChildren_walk {s : St} {l : List NodeId} (h : Walk l s.nextSibling s.prevSibling) :
    ∀ (m : List NodeId) (k : Nat) (it : Children), Seg l it.next it.nextBack m → m.length < k →
      s.collectChildren k it = .ok m
  | [], k + 1, it, hs, _ => by
    have hf : s.childrenFinished it = true := by rw [childrenFinished_eq, h.finished hs]; rfl
    simp [St.collectChildren, St.childrenNext, hf]
  | x :: m, k + 1, it, hs, hk => by
    have hf : s.childrenFinished it = false := by rw [childrenFinished_eq, h.finished hs]; rfl
    obtain ⟨hn, hs'⟩ := h.front hs
    have hk' : m.length < k := by simpa using hk
    have := collectChildren_walk h m k { it with next := s.nextSibling x } hs' hk'
    simp [St.collectChildren, St.childrenNext, hf, hn, this, bind, Except.bind, pure, Except.pure]

theorem traverse_pulls {s : St} {r : NodeId} {l : List Edge} (h : Walk l (s.nextItem r) (s.prevItem r)) :
    ∀ (ps : List Pull) (it : Traverse) (m : List Edge), it.root = r → Seg l it.next it.nextBack m →
      s.traversePulls ps it = deque ps m
  | [], _, _, _, _ => rfl
  | .front :: ps, it, m, hr, hs => by
    have hf' : s.traverseFinished it = m.isEmpty := by rw [traverseFinished_eq, hr, h.finished hs]
    cases m with
    | nil =>
      simp only [St.traversePulls, St.traverseNext, hf', deque, List.isEmpty_nil, if_true]
      rw [traverse_pulls h ps it [] hr hs]
    | cons x m =>
      obtain ⟨hn, hs'⟩ := h.front hs
      simp only [St.traversePulls, St.traverseNext, hf', deque, List.isEmpty_cons, Bool.false_eq_true, if_false, hn]
      rw [traverse_pulls h ps _ m (by exact hr) (by rw [hr]; exact hs')]
  | .back :: ps, it, m, hr, hs => by
    have hf' : s.traverseFinished it = m.isEmpty := by rw [traverseFinished_eq, hr, h.finished hs]
    rcases List.eq_nil_or_concat m with rfl | ⟨m, x, rfl⟩
    · simp only [St.traversePulls, St.traverseNextBack, hf', deque, List.isEmpty_nil, if_true]
      rw [traverse_pulls h ps it [] hr hs]; rfl
    · rw [List.concat_eq_append] at *
      obtain ⟨hn, hs'⟩ := h.rear hs
      have he : (m ++ [x]).isEmpty = false := by simp
      simp only [St.traversePulls, St.traverseNextBack, hf', he, deque, Bool.false_eq_true, if_false, hn]
      rw [traverse_pulls h ps _ m (by exact hr) (by rw [hr]; exact hs')]
      simp

theorem collectEdges_walk {s : St} {r : NodeId} {l : List Edge} (h : Walk l (s.nextItem r) (s.prevItem r)) :
    ∀ (m : List Edge) (k : Nat) (it : Traverse), it.root = r → Seg l it.next it.nextBack m → m.length < k →
      s.collectEdges k it = .ok m
  | [], k + 1, it, hr, hs, _ => by
    have hf : s.traverseFinished it = true := by rw [traverseFinished_eq, hr, h.finished hs]; rfl
    simp [St.collectEdges, St.traverseNext, hf]
  | x :: m, k + 1, it, hr, hs, hk => by
    have hf : s.traverseFinished it = false := by
      rw [traverseFinished_eq, hr, h.finished hs]; rfl
    obtain ⟨hn, hs'⟩ := h.front hs
    have hk' : m.length < k := by simpa using hk
    have := collectEdges_walk h m k { it with next := s.nextItem it.root x } hr (by rw [hr]; exact hs') hk'
    simp [St.collectEdges, St.traverseNext, hf, hn, this, bind, Except.bind, pure, Except.pure]

/-- The nodes of the `Start` edges. -/
def starts : List Edge → List NodeId := List.filterMap fun e => match e with
  | .start n => some n
  | .stop _ => none

theorem descendantsNext_walk {s : St} {r : NodeId} {l : List Edge} (h : Walk l (s.nextItem r) (s.prevItem r)) :
    ∀ (m : List Edge) (k : Nat) (it : Traverse), it.root = r → Seg l it.next it.nextBack m → m.length < k →
      (starts m = [] ∧ ∃ it', s.descendantsNext k it = .ok (none, it')) ∨
      (∃ n m' it', starts m = n :: starts m' ∧ m'.length < m.length ∧ s.descendantsNext k it = .ok (some n, it') ∧
        it'.root = r ∧ Seg l it'.next it'.nextBack m')
  | [], k + 1, it, hr, hs, _ => by
    have hf : s.traverseFinished it = true := by rw [traverseFinished_eq, hr, h.finished hs]; rfl
    left; refine ⟨rfl, it, ?_⟩
    simp [St.descendantsNext, St.traverseNext, hf]
  | x :: m, k + 1, it, hr, hs, hk => by
    have hf : s.traverseFinished it = false := by
      rw [traverseFinished_eq, hr, h.finished hs]; rfl
    obtain ⟨hn, hs'⟩ := h.front hs
    have hk' : m.length < k := by simpa using hk
    have hs'' : Seg l (s.nextItem it.root x) it.nextBack m := by rw [hr]; exact hs'
    cases x with
    | start n =>
      right
      refine ⟨n, m, { it with next := s.nextItem it.root (.start n) }, by simp [starts], by simp, ?_, hr, hs''⟩
      simp [St.descendantsNext, St.traverseNext, hf, hn]
    | stop n =>
      have := descendantsNext_walk h m k { it with next := s.nextItem it.root (.stop n) } hr hs'' hk'
      have e : s.descendantsNext (k + 1) it = s.descendantsNext k { it with next := s.nextItem it.root (.stop n) } := by
        simp [St.descendantsNext, St.traverseNext, hf, hn]
      rw [e]
      rcases this with ⟨h1, h2⟩ | ⟨n', m', it', h1, h2, h3⟩
      · left; exact ⟨by simpa [starts] using h1, h2⟩
      · right; exact ⟨n', m', it', by simpa [starts] using h1, Nat.lt_succ_of_lt h2, h3⟩

theorem collectDescendants_walk {s : St} {r : NodeId} {l : List Edge} (h : Walk l (s.nextItem r) (s.prevItem r))
    (bound : Nat) : ∀ (k : Nat) (m : List Edge) (it : Traverse), it.root = r → Seg l it.next it.nextBack m →
      m.length < bound → m.length < k → s.collectDescendants bound k it = .ok (starts m)
  | k + 1, m, it, hr, hs, hb, hk => by
    rcases descendantsNext_walk h m bound it hr hs hb with ⟨h1, it', h2⟩ | ⟨n, m', it', h1, h2, h3, h4, h5⟩
    · simp [St.collectDescendants, h2, h1, bind, Except.bind]
    · have := collectDescendants_walk h bound k m' it' h4 h5 (Nat.lt_trans h2 hb) (by omega)
      simp [St.collectDescendants, h3, h1, this, bind, Except.bind, pure, Except.pure]

/-- `collectBy` along a list. -/
theorem collectBy_list {f : NodeId → Option NodeId} : ∀ (l : List NodeId) (k : Nat),
    (∀ a x b, l = a ++ x :: b → f x = b.head?) → l.length ≤ k → St.collectBy f k l.head? = .ok l
  | [], k, _, _ => by cases k <;> rfl
  | x :: l, k + 1, h, hk => by
    have h1 := h [] x l rfl
    have := collectBy_list l k (fun a y b e => h (x :: a) y b (by rw [e]; rfl)) (by simpa using hk)
    simp [St.collectBy, h1, this, bind, Except.bind, pure, Except.pure]

end Svgdom
