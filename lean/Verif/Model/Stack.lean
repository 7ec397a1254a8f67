import Verif.Model.Text

/-!
# Calls with a bounded stack

The recursive functions once more, with the number of nested calls of the function that the stack still has room for. Rust does not
check this: when the stack is full the process is aborted.
-/

set_option autoImplicit false

namespace Svgdom

/-- Ways to fail if the stack is bounded.
(Not in the crate: the stack of the thread that runs document.rs:240-368, parser/mod.rs:77-179.) -/
inductive Limited (ε : Type) where
  | overflow
  | err (e : ε)
deriving DecidableEq

/-- A step that needs no recursion. (As above; not a function of the crate.) -/
def step {ε α : Type} (r : Except ε α) : Except (Limited ε) α := r.mapError .err

/-- A nested call: there has to be room for it. (document.rs:284, 322, 365; parser/mod.rs:136; not a function of the crate.) -/
def nested {ε α : Type} (d : Nat) (call : Nat → Except (Limited ε) α) : Except (Limited ε) α :=
  match d with
  | 0 => .error .overflow
  | d + 1 => call d

mutual
/-- document.rs:240-295 `_remove`, with room for `d` nested calls. -/
def St.removeAuxS : Nat → Nat → St → NodeId → Except (Limited Err) St
  | _, 0, _, _ => .error (.err .diverge)
  | 0, _ + 1, _, _ => .error .overflow
  | d + 1, k + 1, s, i => do
    let s ← step (s.removeAttributes i (s.ownLinkNames i))
    let s ← step (s.unlinkIncoming i (s.linkedNodes i))
    let s ← St.removeKidsS d k s (s.children i)
    let s ← step (s.detach i)
    step (s.finishRemove i)
/-- document.rs:283-285. -/
def St.removeKidsS : Nat → Nat → St → Children → Except (Limited Err) St
  | _, 0, _, _ => .error (.err .diverge)
  | d, k + 1, s, it =>
    match s.childrenNext it with
    | (none, _) => .ok s
    | (some c, it') => do
      let s ← St.removeAuxS d k s c
      St.removeKidsS d k s it'
end

/-- document.rs:235-238 `remove_node`. -/
def St.removeNodeS (d : Nat) (s : St) (i : NodeId) : Except (Limited Err) St := St.removeAuxS d s.fuel s i

/-- document.rs:359-368 `_make_deep_copy` from an iterator over the children of the source node, with room for `d` further calls. -/
def St.deepCopyAuxS : Nat → Nat → St → NodeId → Children → Except (Limited Err) St
  | _, 0, _, _, _ => .error (.err .diverge)
  | d, k + 1, s, par, it =>
    match s.childrenNext it with
    | (none, _) => .ok s
    | (some c, it') => do
      let (s, new) ← step (s.copyNode c)
      let s ← step (s.append par new)
      let s ← if s.hasChildren c then nested d fun d => St.deepCopyAuxS d k s new (s.children c) else pure s
      St.deepCopyAuxS d k s par it'

/-- document.rs:353-357 `copy_node_deep`; its first call of `_make_deep_copy` needs room too. -/
def St.copyNodeDeepS (d : Nat) (s : St) (i : NodeId) : Except (Limited Err) (St × NodeId) := do
  let (s', root) ← step (s.copyNode i)
  let s'' ← nested d fun d => St.deepCopyAuxS d s'.fuel s' root (s'.children i)
  pure (s'', root)

/-- document.rs:311-328 `_drain`, with room for `d` further calls (of `_drain` or `_remove`). -/
def St.drainAuxS (f : St → NodeId → Bool) : Nat → Nat → St → Option NodeId → Nat → Except (Limited Err) (St × Nat)
  | _, 0, _, _, _ => .error (.err .diverge)
  | _, _ + 1, s, none, count => .ok (s, count)
  | d, k + 1, s, some n, count =>
    if f s n then do
      let next := s.nextSibling n
      let s ← s.removeNodeS d n
      St.drainAuxS f d k s next (count + 1)
    else do
      let (s, count) ← if s.hasChildren n then nested d fun d => St.drainAuxS f d k s (s.firstChild n) count else pure (s, count)
      St.drainAuxS f d k s (s.nextSibling n) count

/-- document.rs:303-309 `drain`. -/
def St.drainS (d : Nat) (s : St) (root : NodeId) (f : St → NodeId → Bool) : Except (Limited Err) (St × Nat) :=
  nested d fun d => St.drainAuxS f d s.fuel s (s.firstChild root) 0

/-- parser/mod.rs:77-179 `process_node` for a node and its following siblings, with room for `d` nested calls. -/
def processNodesS (L : Lib) (sheet : List Rule) : Nat → XmlPos → List (Option XmlElem) → NodeId → Xml → PSt →
    Except (Limited ParseErr) PSt
  | _, _, _, _, .nil, p => .ok p
  | 0, _, _, _, _, _ => .error .overflow
  | d + 1, pos, prev, parent, .element ns name attrs kids rest, p => do
    let e : XmlElem := ⟨ns, name, attrs⟩
    let p ←
      if ns ≠ some svgNs then pure p
      else do
        match ← step (okOrFail (ElementId.fromStr? name)) with
        | none => pure p
        | some eid => do
          let (p, n) ← step (okOrFail (parseElement L sheet p (.elem pos prev e) eid attrs))
          let s ← step (okOrFail (p.dom.append parent n))
          let p ← processNodesS L sheet d (.elem pos prev e) [] n kids { p with dom := s }
          step (checkFirst p.dom parent)
          pure p
    processNodesS L sheet (d + 1) pos (some e :: prev) parent rest p
  | d + 1, pos, prev, parent, .text t rest, p => do
    let p ← step (okOrFail (processText p parent t))
    step (checkFirst p.dom parent)
    processNodesS L sheet (d + 1) pos (none :: prev) parent rest p
  | d + 1, pos, prev, parent, .comment t rest, p => do
    let p ← step (okOrFail (appendNew p parent .comment t))
    step (checkFirst p.dom parent)
    processNodesS L sheet (d + 1) pos (none :: prev) parent rest p
  | d + 1, pos, prev, parent, .pi rest, p => do
    step (checkFirst p.dom parent)
    processNodesS L sheet (d + 1) pos (none :: prev) parent rest p

end Svgdom
