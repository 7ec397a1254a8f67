import Verif.Model.Text

/-!
# The parser with the freeing of nodes

`Model/Text.lean` never frees a node while it parses. In Rust the nodes that `drain` takes out of the document are freed as soon as
nothing refers to them any more. Here some nodes to which nothing refers are freed at every point of `parse_svg` where a node can lose
a reference; which ones is left open (`g`). `held` are the handles that the program itself has at this point. One simplification:
`process_node` is unchanged because every node it creates is stored in the document.
-/

set_option autoImplicit false

namespace Svgdom

open Classical in
/-- The drop of references to the nodes of the list: those are freed to which nothing refers (`Rc`, tree.rs:18-27; dropping is not a
function of the crate). -/
noncomputable def St.collect (held : List NodeId) : St → List NodeId → St
  | s, [] => s
  | s, i :: l => St.collect held (if i ∈ held ∨ s.live i = false ∨ s.strongRef i then s else s.free i) l

/-- document.rs:254-256, 276-278 as `removeAttributes`; an attribute that is removed drops its reference. -/
noncomputable def St.removeAttributesF (g : St → List NodeId) (held : List NodeId) (s : St) (i : NodeId) : List AName → Except Err St
  | [] => .ok s
  | n :: ns => do
    let s ← s.removeAttribute i n
    St.removeAttributesF g held (s.collect held (g s)) i ns

/-- document.rs:260-279 as `unlinkIncoming`; the clone of `linked_nodes` has handles of the nodes that are still to come. -/
noncomputable def St.unlinkIncomingF (g : St → List NodeId) (held : List NodeId) (s : St) (i : NodeId) : List NodeId → Except Err St
  | [] => .ok s
  | l :: ls => do
    let s ← s.removeAttributesF g (l :: (ls ++ held)) l (s.linkNamesTo l i)
    St.unlinkIncomingF g held (s.collect (ls ++ held) (g s)) i ls

/-- tree.rs:461-464: the iterator has handles of the next child and of the last one. -/
def Children.handles (it : Children) : List NodeId := it.next.toList ++ it.nextBack.toList

mutual
/-- document.rs:240-295 `_remove` as `removeAux`; it has a handle of the node. -/
noncomputable def St.removeAuxF (g : St → List NodeId) : List NodeId → Nat → St → NodeId → Except Err St
  | _, 0, _, _ => .error .diverge
  | held, k + 1, s, i => do
    let s ← s.removeAttributesF g (i :: held) i (s.ownLinkNames i)
    let s ← s.unlinkIncomingF g (i :: held) i (s.linkedNodes i)
    let s ← St.removeKidsF g (i :: held) k s (s.children i)
    let s := s.collect (i :: held) (g s)
    let s ← s.detach i
    s.finishRemove i
/-- document.rs:283-285 as `removeKids`; the handle of each child is dropped when `_remove` returns. -/
noncomputable def St.removeKidsF (g : St → List NodeId) : List NodeId → Nat → St → Children → Except Err St
  | _, 0, _, _ => .error .diverge
  | held, k + 1, s, it =>
    match s.childrenNext it with
    | (none, _) => .ok s
    | (some c, it') => do
      let s ← St.removeAuxF g (it'.handles ++ held) k s c
      St.removeKidsF g held k (s.collect (it'.handles ++ held) (g s)) it'
end

/-- document.rs:235-238 `remove_node`; the caller still has the handles `held` of its own. -/
noncomputable def St.removeNodeF (g : St → List NodeId) (held : List NodeId) (s : St) (i : NodeId) : Except Err St :=
  St.removeAuxF g held s.fuel s i

/-- document.rs:311-328 `_drain` as `drainAux`, with the nodes freed after each `remove_node`. The loop variable and the nodes whose
children are visited are handles. -/
noncomputable def St.drainAuxF (g : St → List NodeId) (f : St → NodeId → Bool) :
    List NodeId → Nat → St → Option NodeId → Nat → Except Err (St × Nat)
  | _, 0, _, _, _ => .error .diverge
  | _, _ + 1, s, none, count => .ok (s, count)
  | held, k + 1, s, some n, count =>
    if f s n then do
      let next := s.nextSibling n
      let s ← s.removeNodeF g (next.toList ++ held) n
      let s := s.collect (next.toList ++ held) (g s)
      St.drainAuxF g f held k s next (count + 1)
    else do
      let (s, count) ← if s.hasChildren n then St.drainAuxF g f (n :: held) k s (s.firstChild n) count else pure (s, count)
      St.drainAuxF g f held k s (s.nextSibling n) count

/-- document.rs:303-309 `drain`; the caller has a handle of `root`. -/
noncomputable def St.drainF (g : St → List NodeId) (held : List NodeId) (s : St) (root : NodeId) (f : St → NodeId → Bool) :
    Except Err (St × Nat) :=
  St.drainAuxF g f (root :: held) s.fuel s (s.firstChild root) 0

/-- parser/mod.rs:664-712 `resolve_links`; a value that is replaced drops its reference. -/
noncomputable def resolveLinksF (g : St → List NodeId) (held : List NodeId) (s : St) : List PLink → Except Err St
  | [] => .ok s
  | l :: ls => do
    let s ← resolveLink s l
    resolveLinksF g held (s.collect held (g s)) ls

/-- parser/text.rs:37-50 `prepare_text`; only the final `drain` drops references to nodes. -/
noncomputable def St.prepareTextF (g : St → List NodeId) (held : List NodeId) (s : St) : Except Err St := do
  let kids ← s.childList s.rootId
  let (s, marked) ← St.prepareTextAux s.fuel s [] .default kids
  let s ← s.removeSpaces marked
  let (s, _) ← s.drainF g held s.rootId fun s n => s.isText n && (s.text n).isEmpty
  pure s

/-- parser/mod.rs:46-75 `parse_svg`, from the XML tree. The vector of unresolved links (parser/mod.rs:49) has handles of the nodes
to which they belong; it is dropped at the end. -/
noncomputable def parseSvgF (g : St → List NodeId) (L : Lib) (debug : Bool) (x : Xml) : Except ParseErr St := do
  let init := St.init debug
  let p ← processNodes L (L.sheet (cssTexts x)) .root [] init.rootId x ⟨init, []⟩
  match ← okOrFail p.dom.svgElement with
  | none => .error .noSvgElement
  | some _ => do
    let held := p.links.map PLink.node
    let (s, _) ← okOrFail (p.dom.drainF g held p.dom.rootId fun s n => s.hasTagName n (.id .Style))
    let s ← okOrFail (resolveLinksF g held s p.links)
    let s ← okOrFail (s.prepareTextF g held)
    pure (s.collect [] (g s))

end Svgdom
