import Verif.Model.UnwindNode

/-!
# `remove_node` and `drain`: the state that a panic leaves behind

The functions of `Model/Guard.lean`, statement by statement, but a panic also gives the state at that moment (see `Model/Unwind.lean`).
`Proof/UnwindRemove.lean` shows that the functions agree with those of `Model/Guard.lean`.
-/

set_option autoImplicit false

namespace Svgdom

namespace St

/-- tree.rs:393-401. -/
def detachNextGU (g : Guards) (s : St) (held : List NodeId) (parentW prevW nextS : Option NodeId) : Except (Err × St) St :=
  match nextS with
  | some n => do
    s.fails (wr g held n)
    pure (s.setL n fun l => { l with prevSib := prevW })
  | none =>
    match s.upgrade parentW with
    | some p => do
      s.fails (wr g held p)
      pure (s.setL p fun l => { l with lastChild := prevW })
    | none => pure s

/-- tree.rs:403-411. -/
def detachPrevGU (g : Guards) (s : St) (held : List NodeId) (parentW prevO nextS : Option NodeId) : Except (Err × St) St :=
  match prevO with
  | some q => do
    s.fails (wr g held q)
    pure (s.setL q fun l => { l with nextSib := nextS })
  | none =>
    match s.upgrade parentW with
    | some p => do
      s.fails (wr g held p)
      pure (s.setL p fun l => { l with firstChild := nextS })
    | none => pure s

/-- tree.rs:386-412 `NodeData::detach`: the three `take()` come first and stay. -/
def detachCoreGU (g : Guards) (s : St) (held : List NodeId) (i : NodeId) : Except (Err × St) St := do
  let parentW := (s.links i).parent
  let prevW := (s.links i).prevSib
  let nextS := (s.links i).nextSib
  let s := s.setL i fun l => { l with parent := none, prevSib := none, nextSib := none }
  let prevO := s.upgrade prevW
  let s ← s.detachNextGU g held parentW prevW nextS
  s.detachPrevGU g held parentW prevO nextS

/-- tree.rs:229-231 `detach`. -/
def detachGU (g : Guards) (s : St) (i : NodeId) : Except (Err × St) St := do
  s.fails (wr g [] i)
  s.detachCoreGU g [i] i

/-- document.rs:254-256, 276-278. -/
def removeAttributesU (g : Guards) (s : St) (i : NodeId) : List AName → Except (Err × St) St
  | [] => .ok s
  | n :: ns => do
    let s ← s.removeAttributeU g i n
    s.removeAttributesU g i ns

/-- document.rs:260-279. -/
def unlinkIncomingU (g : Guards) (s : St) (i : NodeId) : List NodeId → Except (Err × St) St
  | [] => .ok s
  | l :: ls => do
    s.fails (rd g l)
    let s ← s.removeAttributesU g l (s.linkNamesTo l i)
    s.unlinkIncomingU g i ls

/-- document.rs:288-294: the key is taken before the slot is freed. -/
def finishRemoveU (g : Guards) (s : St) (i : NodeId) : Except (Err × St) St := do
  s.fails (wr g [] i)
  match (s.data i).storageKey with
  | some key => do
    let s := s.setD i fun d => { d with storageKey := none }
    let sl ← (s.slab.remove key).mapError (·, s)
    pure { s with slab := sl }
  | none => .ok s

mutual
/-- document.rs:240-295 `_remove`; the first argument bounds the recursion. -/
def removeAuxU (g : Guards) : Nat → St → NodeId → Except (Err × St) St
  | 0, s, _ => .error (.diverge, s)
  | k + 1, s, i => do
    s.fails (rd g i)
    let s ← s.removeAttributesU g i (s.ownLinkNames i)
    s.fails (rd g i)
    let s ← s.unlinkIncomingU g i (s.linkedNodes i)
    let it ← (s.childrenG g i).mapError (·, s)
    let s ← removeKidsU g k s it
    let s ← s.detachGU g i
    s.finishRemoveU g i
/-- document.rs:283-285. -/
def removeKidsU (g : Guards) : Nat → St → Children → Except (Err × St) St
  | 0, s, _ => .error (.diverge, s)
  | k + 1, s, it => do
    match ← (s.childrenNextG g it).mapError (·, s) with
    | (none, _) => .ok s
    | (some c, it') => do
      let s ← removeAuxU g k s c
      removeKidsU g k s it'
end

/-- document.rs:235-238 `remove_node`. -/
def removeNodeU (g : Guards) (s : St) (i : NodeId) : Except (Err × St) St := removeAuxU g s.fuel s i

/-- document.rs:311-328 `_drain`; the predicate may look only at nodes that can be read. -/
def drainAuxU (g : Guards) (f : St → NodeId → Bool) : Nat → St → Option NodeId → Nat → Except (Err × St) (St × Nat)
  | 0, s, _, _ => .error (.diverge, s)
  | _ + 1, s, none, count => .ok (s, count)
  | k + 1, s, some n, count =>
    if f s n then do
      let next ← (s.nextSiblingG g n).mapError (·, s)
      let s ← s.removeNodeU g n
      drainAuxU g f k s next (count + 1)
    else do
      s.fails (rd g n)
      let (s, count) ← if s.hasChildren n then do
          let c ← (s.firstChildG g n).mapError (·, s)
          drainAuxU g f k s c count
        else pure (s, count)
      let next ← (s.nextSiblingG g n).mapError (·, s)
      drainAuxU g f k s next count

/-- document.rs:303-309 `drain`. -/
def drainU (g : Guards) (s : St) (root : NodeId) (f : St → NodeId → Bool) : Except (Err × St) (St × Nat) := do
  let c ← (s.firstChildG g root).mapError (·, s)
  drainAuxU g f s.fuel s c 0

end St

end Svgdom
