import Verif.Model.Document

/-!
# Loops of a program over `children()` and `descendants()` that change the tree

The iterators keep handles to the next node or edge from the front and from the back (tree.rs:461-464, 620-624), so the tree may
change between two calls of `next`.
-/

set_option autoImplicit false

namespace Svgdom

/-- `for c in it { body(c) }` with `Children::next` (tree.rs:482-494); `body` is any code of the program. Gives the nodes that were
visited and the final state. The first argument bounds the number of rounds. -/
def St.forChildren (body : St → NodeId → Except Err St) : Nat → St → Children → Except Err (List NodeId × St)
  | 0, _, _ => .error .diverge
  | k + 1, s, it =>
    match s.childrenNext it with
    | (none, _) => .ok ([], s)
    | (some c, it') => do
      let t ← body s c
      let (l, u) ← t.forChildren body k it'
      pure (c :: l, u)

/-- `for n in it { body(n) }` with `Descendants::next` (tree.rs:525-533). `bound` bounds the edges skipped in one call of `next`. -/
def St.forDescendants (body : St → NodeId → Except Err St) (bound : Nat) : Nat → St → Traverse → Except Err (List NodeId × St)
  | 0, _, _ => .error .diverge
  | k + 1, s, it => do
    match ← s.descendantsNext bound it with
    | (none, _) => .ok ([], s)
    | (some n, it') => do
      let t ← body s n
      let (l, u) ← t.forDescendants body bound k it'
      pure (n :: l, u)

end Svgdom
