import Verif.Model.Parser

/-!
# parser/text.rs

The loops over `children()` and `descendants()` change attributes and texts but not the tree, so the nodes are collected first.
-/

namespace Svgdom

/-- parser/text.rs:25-29 `XmlSpace`. -/
inductive XmlSpace where
  | default
  | preserve
deriving DecidableEq

/-- parser/text.rs:16-18 `remove_first`: `self.drain(0..1)` panics unless the first character is one byte long. -/
def removeFirst : Str → Except Err Str
  | [] => .error (.panic .outOfBounds)
  | c :: cs => if (utf8Char c).length = 1 then .ok cs else .error (.panic .charBoundary)

/-- parser/text.rs:20-22 `remove_last`: `self.pop()`. -/
def removeLast (t : Str) : Str := t.dropLast

/-- parser/text.rs:264-280: one step of the loop of `trim`. -/
def trimLoop (space : XmlSpace) (prev : Char) : Str → Str
  | [] => []
  | c :: cs =>
    let c := if c = '\r' ∨ c = '\n' ∨ c = '\t' then ' ' else c
    if space = .default ∧ c = ' ' ∧ c = prev then trimLoop space prev cs
    else c :: trimLoop space c cs

/-- parser/text.rs:261-283 `trim`. -/
def trimText (text : Str) (space : XmlSpace) : Str := trimLoop space '0' text

namespace St

/-- `node.text_mut()` with a change of the text (node.rs:183-185). -/
def modText (s : St) (i : NodeId) (t : Str) : St := s.setD i fun d => { d with text := t }

/-- parser/text.rs:80-91 `set_xmlspace`. -/
def setXmlspace (s : St) (marked : List NodeId) (n : NodeId) (space : XmlSpace) : Except Err (St × List NodeId) := do
  let str := match space with
    | .default => st!"default"
    | .preserve => st!"preserve"
  let s ← s.setAttribute n ⟨.id .Space, .string str⟩
  pure (s, marked ++ [n])

/-- parser/text.rs:67-78 `get_xmlspace`. -/
def getXmlspace (s : St) (marked : List NodeId) (n : NodeId) (dflt : XmlSpace) : Except Err (St × List NodeId × XmlSpace) :=
  match attrsGetValue (s.attributes n) (.id .Space) with
  | some (.string v) => .ok (s, marked, if v = st!"preserve" then .preserve else .default)
  | _ => do
    let (s, marked) ← s.setXmlspace marked n dflt
    pure (s, marked, dflt)

/-- `get_xmlspace(&mut child.parent().unwrap(), ..)` (parser/text.rs:97, 162-163). -/
def parentXmlspace (s : St) (marked : List NodeId) (n : NodeId) (dflt : XmlSpace) : Except Err (St × List NodeId × XmlSpace) :=
  match s.parent n with
  | some p => s.getXmlspace marked p dflt
  | none => .error (.panic .unwrap)

/-- parser/text.rs:95-104: trim the text nodes among `l`. -/
def trimNodes (s : St) (marked : List NodeId) (space : XmlSpace) : List NodeId → Except Err (St × List NodeId)
  | [] => .ok (s, marked)
  | n :: ns =>
    if s.isText n then do
      let (s, marked, sp) ← s.parentXmlspace marked n space
      let s ← s.setText n (trimText (s.text n) sp)
      s.trimNodes marked space ns
    else s.trimNodes marked space ns

/-- parser/text.rs:251-259 `collect_text` from the child list; the first argument bounds the recursion. -/
def collectText (s : St) : Nat → Nat → List NodeId → Except Err (List (NodeId × Nat))
  | _, _, [] => .ok []
  | 0, _, _ :: _ => .error .diverge
  | k + 1, depth, c :: cs => do
    let own ← if s.isText c then pure [(c, depth)]
      else if s.isElement c then do
        let kids ← s.childList c
        s.collectText k (depth + 1) kids
      else pure []
    let rest ← s.collectText k depth cs
    pure (own ++ rest)

/-- parser/text.rs:118-141: a single text node. -/
def processSingle (s : St) (n : NodeId) : Except Err St :=
  let text := s.text n
  let bytes := utf8 text
  if bytes.length = 0 then .ok s
  else if bytes.length = 1 then
    if bytes.head? = some 32 then .ok (s.modText n []) else .ok s
  else do
    let c1 := bytes.head?
    let c2 := bytes.getLast?
    let text ← if c1 = some 32 then removeFirst text else pure text
    let text := if c2 = some 32 then removeLast text else text
    pure (s.modText n text)

/-- parser/text.rs:180-200: spaces on both sides of the border between the two texts. -/
def processBorder (s : St) (node1 node2 : NodeId) (depth1 depth2 : Nat) (space1 space2 : XmlSpace) (c2 c3 : Option Nat) :
    Except Err St :=
  if c2 = some 32 ∧ c2 = c3 then
    if depth1 < depth2 then
      if space2 = .default then do
        let t ← removeFirst (s.text node2)
        pure (s.modText node2 t)
      else pure s
    else if space1 = .default ∧ space2 = .default then pure (s.modText node1 (removeLast (s.text node1)))
    else if space1 = .preserve ∧ space2 = .default then do
      let t ← removeFirst (s.text node2)
      pure (s.modText node2 t)
    else pure s
  else pure s

/-- parser/text.rs:202-222: first and last text. -/
def processEnds (s : St) (node1 node2 : NodeId) (space1 space2 : XmlSpace) (isFirst isLast : Bool) (c1 c4 : Option Nat) :
    Except Err St :=
  if isFirst ∧ c1 = some 32 ∧ space1 = .default ∧ !(s.text node1).isEmpty then do
    let t ← removeFirst (s.text node1)
    pure (s.modText node1 t)
  else if isLast ∧ c4 = some 32 ∧ !(s.text node2).isEmpty ∧ space2 = .default then
    pure (s.modText node2 (removeLast (s.text node2)))
  else pure s

/-- parser/text.rs:224-231. -/
def processTail (s : St) (node1 node2 : NodeId) (isLast : Bool) (c2 : Option Nat) : St :=
  if isLast ∧ c2 = some 32 ∧ !(s.text node1).isEmpty ∧ (s.text node2).isEmpty ∧ (s.text node1).getLast? = some ' ' then
    s.modText node1 (removeLast (s.text node1))
  else s

/-- parser/text.rs:154-238: the loop over pairs; the list is `nodes[i..]`. -/
def processPairs (space : XmlSpace) : St → List NodeId → Bool → Option NodeId → List (NodeId × Nat) →
    Except Err (St × List NodeId)
  | s, marked, isFirst, last, (n1, depth1) :: (n2, depth2) :: rest => do
    let node1 := if (s.text n1).isEmpty then last.getD n1 else n1
    let (s, marked, space1) ← s.parentXmlspace marked node1 space
    let (s, marked, space2) ← s.parentXmlspace marked n2 space
    let b1 := utf8 (s.text node1)
    let b2 := utf8 (s.text n2)
    let isLast := rest.isEmpty
    let c1 := b1.head?
    let c2 := b1.getLast?
    let c3 := b2.head?
    let c4 := b2.getLast?
    let s ← s.processBorder node1 n2 depth1 depth2 space1 space2 c2 c3
    let s ← s.processEnds node1 n2 space1 space2 isFirst isLast c1 c4
    let s := s.processTail node1 n2 isLast c2
    let last := if (trimStr (s.text node1)).isEmpty then last else some node1
    processPairs space s marked false last ((n2, depth2) :: rest)
  | s, marked, _, _, _ => .ok (s, marked)

/-- parser/text.rs:93-249 `prepare_text_children`. -/
def prepareTextChildren (s : St) (marked : List NodeId) (n : NodeId) (space : XmlSpace) : Except Err (St × List NodeId) := do
  let ds ← s.descendantList n
  let (s, marked) ← s.trimNodes marked space ds
  let kids ← s.childList n
  let nodes ← s.collectText s.fuel 0 kids
  match nodes with
  | [] => pure (s, marked)
  | [(t, _)] =>
    if space = .default then do
      let s ← s.processSingle t
      pure (s, marked)
    else pure (s, marked)
  | _ => processPairs space s marked true none nodes

/-- parser/text.rs:52-65 `_prepare_text`, from the child list of `parent`; the first argument bounds the recursion. -/
def prepareTextAux : Nat → St → List NodeId → XmlSpace → List NodeId → Except Err (St × List NodeId)
  | _, s, marked, _, [] => .ok (s, marked)
  | 0, _, _, _, _ :: _ => .error .diverge
  | k + 1, s, marked, space, n :: ns => do
    let (s, marked) ←
      if s.isElement n then do
        let (s, marked, sp) ← s.getXmlspace marked n space
        if (s.firstChild n).any s.isText then s.prepareTextChildren marked n sp
        else do
          let kids ← s.childList n
          prepareTextAux k s marked sp kids
      else pure (s, marked)
    prepareTextAux k s marked space ns

/-- parser/text.rs:43-46: remove the temporary attributes. -/
def removeSpaces (s : St) : List NodeId → Except Err St
  | [] => .ok s
  | n :: ns => do
    let s ← s.removeAttribute n (.id .Space)
    s.removeSpaces ns

/-- parser/text.rs:37-50 `prepare_text`. -/
def prepareText (s : St) : Except Err St := do
  let kids ← s.childList s.rootId
  let (s, marked) ← prepareTextAux s.fuel s [] .default kids
  let s ← s.removeSpaces marked
  let (s, _) ← s.drain s.rootId fun s n => s.isText n && (s.text n).isEmpty
  pure s

end St

/-- parser/mod.rs:46-75 `parse_svg`, from the XML tree. If an error is returned the document is dropped, which is not shown. The
removed nodes that are no longer referenced are not freed in the model (`St.free` could follow at any time). -/
def parseSvg (L : Lib) (debug : Bool) (x : Xml) : Except ParseErr St := do
  let init := St.init debug
  let p ← processNodes L (L.sheet (cssTexts x)) .root [] init.rootId x ⟨init, []⟩
  match ← okOrFail p.dom.svgElement with
  | none => .error .noSvgElement
  | some _ => do
    let (s, _) ← okOrFail (p.dom.drain p.dom.rootId fun s n => s.hasTagName n (.id .Style))
    let s ← okOrFail (resolveLinks s p.links)
    okOrFail s.prepareText

end Svgdom
