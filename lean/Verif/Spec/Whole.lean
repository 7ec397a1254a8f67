import Verif.Spec.Parse
import Verif.Spec.Text
import Verif.Spec.Picture

/-!
# Specification: parsing as a function

The document that parsing gives, as a value: computed from the expected DOM (`svgDom`) in five steps, without handles, back references,
temporary attributes or order of calls. The nodes are numbered in document order, 0 being the root; numbers are only used to say which
node an attribute refers to.
-/

set_option autoImplicit false

namespace Svgdom

/-- A sequence of siblings, each with its number and what it carries. -/
inductive Content where
  | nil
  | node (n : NodeId) (l : Look) (kids rest : Content)
deriving DecidableEq

namespace Content

/-- All nodes in document order. -/
def nodes : Content → List (NodeId × Look)
  | nil => []
  | node n l K R => (n, l) :: (K.nodes ++ R.nodes)

/-- The shape. -/
def trees : Content → Trees
  | nil => .nil
  | node n _ K R => .cons n K.trees R.trees

/-- Change what the nodes carry. -/
def change (f : NodeId → Look → Look) : Content → Content
  | nil => .nil
  | node n l K R => .node n (f n l) (K.change f) (R.change f)

/-- Leave out nodes with everything below them. -/
def without (p : Look → Bool) : Content → Content
  | nil => .nil
  | node n l K R => if p l then R.without p else .node n l (K.without p) (R.without p)

/-- What the node with the given number carries. -/
def lookAt (d : Content) (n : NodeId) : Look :=
  ((d.nodes.find? fun p => decide (p.1 = n)).map (·.2)).getD ⟨.root, .name [], [], [], []⟩

end Content

/-! ## The nodes -/

def Dom.size : Dom → Nat
  | nil => 0
  | element _ _ _ _ kids rest => 1 + kids.size + rest.size
  | text _ rest => 1 + rest.size
  | comment _ rest => 1 + rest.size

/-- The expected DOM, numbered from `k` in document order. -/
def Dom.number (k : NodeId) : Dom → Content
  | nil => .nil
  | element eid id attrs _ kids rest =>
    .node k ⟨.element, .id eid, id, attrs, []⟩ (kids.number (k + 1)) (rest.number (k + 1 + kids.size))
  | text t rest => .node k ⟨.text, .name [], [], [], t⟩ .nil (rest.number (k + 1))
  | comment t rest => .node k ⟨.comment, .name [], [], [], t⟩ .nil (rest.number (k + 1))

/-- The references, in document order. -/
def Dom.links (k : NodeId) : Dom → List PLink
  | nil => []
  | element _ _ _ refs kids rest =>
    (refs.map fun r => ⟨r.attr, r.iri, r.fallback, k⟩) ++ kids.links (k + 1) ++ rest.links (k + 1 + kids.size)
  | text _ rest => rest.links (k + 1)
  | comment _ rest => rest.links (k + 1)

/-! ## References -/

/-- The attributes with one more, in place of any of that name. -/
def putAttr (A : NodeId → List Attribute) (i : NodeId) (a : Attribute) : NodeId → List Attribute :=
  fun j => if j = i then (A i).filter (fun b => decide (b.name ≠ a.name)) ++ [a] else A j

/-- What becomes of a reference: it goes to the first node with that id. It is dropped if that node has no id, has the id of the
referring node, or refers to it. -/
def verdict (targets : List (NodeId × Str)) (ids : NodeId → Str) (A : NodeId → List Attribute) (l : PLink) : Option Attribute :=
  match targets.find? fun t => decide (t.2 = l.iri) with
  | none => some ⟨.id l.attr, missingValue l.attr l.iri l.fallback⟩
  | some (n, id) =>
    if id = [] ∨ ids l.node = id ∨ (A n).any (fun a => decide (a.value.names = some l.node)) = true then none
    else some ⟨.id l.attr, foundValue l.attr n l.fallback⟩

/-- One reference. -/
def settle (targets : List (NodeId × Str)) (ids : NodeId → Str) (A : NodeId → List Attribute) (l : PLink) : NodeId → List Attribute :=
  match verdict targets ids A l with
  | none => A
  | some a => putAttr A l.node a

/-! ## Texts -/

/-- The mode of an element whose parent has mode `sp`. -/
def Look.space (l : Look) (sp : XmlSpace) : XmlSpace :=
  match l.attrs.find? fun a => decide (a.name = .id .Space) with
  | some ⟨_, .string v⟩ => if v = st!"preserve" then .preserve else .default
  | _ => sp

/-- A text node: its number, its depth below the text root, its mode. -/
structure Item where
  node : NodeId
  depth : Nat
  mode : XmlSpace
deriving DecidableEq

/-- The texts below a text root with mode `sp`; `m` is the mode of the parent. Elements without `xml:space` have the mode of the text
root. -/
def Content.items (sp m : XmlSpace) (depth : Nat) : Content → List Item
  | nil => []
  | node n l K R => (if l.type = .text then [⟨n, depth, m⟩] else []) ++ K.items sp (l.space sp) (depth + 1) ++ R.items sp m depth

def Content.startsText : Content → Bool
  | nil => false
  | node _ l _ _ => decide (l.type = .text)

def beginsSpace (t : Str) : Bool := decide (t.head? = some ' ')
def finishesSpace (t : Str) : Bool := decide (t.getLast? = some ' ')

/-- The only text of a text root. -/
def tidyOne (t : Str) : Str :=
  if t = [' '] then [] else
  let u := if beginsSpace t then t.tail else t
  if finishesSpace t then u.dropLast else u

/-- Two texts that follow each other. Of two spaces at the border one goes, unless the second text is preserved: the one of the second
text if that is deeper or the first is preserved, else the one of the first. Then the first text of all loses a space at its start, or
else the last text of all loses one at its end. If nothing is left of the last text, the one before loses a space at its end. -/
def tidyTwo (first last deeper : Bool) (m1 m2 : XmlSpace) (u w : Str) : Str × Str :=
  let p : Str × Str :=
    if finishesSpace u ∧ beginsSpace w ∧ m2 = .default then
      if deeper ∨ m1 = .preserve then (u, w.tail) else (u.dropLast, w)
    else (u, w)
  let q : Str × Str :=
    if first ∧ beginsSpace u ∧ m1 = .default ∧ p.1 ≠ [] then (p.1.tail, p.2)
    else if last ∧ finishesSpace w ∧ m2 = .default ∧ p.2 ≠ [] then (p.1, p.2.dropLast)
    else p
  if last ∧ finishesSpace u ∧ finishesSpace q.1 ∧ q.2 = [] then (q.1.dropLast, q.2) else q

def putText (τ : NodeId → Str) (i : NodeId) (t : Str) : NodeId → Str := fun j => if j = i then t else τ j

/-- Two or more texts of a text root: each pair in turn. In place of a text of which nothing is left, the last one that is not blank is
taken. -/
def tidyPairs : (NodeId → Str) → Bool → Option Item → List Item → NodeId → Str
  | τ, first, last, a :: b :: rest =>
    let m := if τ a.node = [] then last.getD a else a
    let p := tidyTwo first rest.isEmpty (decide (a.depth < b.depth)) m.mode b.mode (τ m.node) (τ b.node)
    let τ := putText (putText τ m.node p.1) b.node p.2
    tidyPairs τ false (if isBlank (τ m.node) then last else some m) (b :: rest)
  | τ, _, _, _ => τ

/-- White space replaced and, unless preserved, runs of spaces shortened. -/
def spaceTexts (l : List Item) (τ : NodeId → Str) : NodeId → Str := fun j =>
  match l.find? fun i => decide (i.node = j) with
  | some i => spaced i.mode (τ j)
  | none => τ j

/-- The texts of a text root. -/
def tidyGroup (sp : XmlSpace) (l : List Item) (τ : NodeId → Str) : NodeId → Str :=
  match l with
  | [] => τ
  | [i] => if sp = .default then putText (spaceTexts [i] τ) i.node (tidyOne (spaceTexts [i] τ i.node)) else spaceTexts [i] τ
  | l => tidyPairs (spaceTexts l τ) true none l

/-- All texts. A text root is an element whose first child is a text, and which is not inside another one. -/
def Content.tidy (sp : XmlSpace) : Content → (NodeId → Str) → NodeId → Str
  | nil, τ => τ
  | node _ l K R, τ =>
    R.tidy sp (if K.startsText then tidyGroup (l.space sp) (K.items (l.space sp) (l.space sp) 0) τ else K.tidy (l.space sp) τ)

/-! ## Parsing -/

section
variable (L : Lib) (x : Xml)

/-- The expected nodes. The root is number 0. -/
def allNodes : Content := (svgDom L x).number 1

/-- Without `style` elements. -/
def keptNodes : Content := (allNodes L x).without fun l => decide (l.tag = .id .Style)

/-- The attributes when all references are settled. -/
def parsedAttrs : NodeId → List Attribute :=
  ((svgDom L x).links 1).foldl
    (settle ((0, []) :: (keptNodes L x).nodes.map fun p => (p.1, p.2.id)) fun j => ((allNodes L x).lookAt j).id)
    fun j => ((allNodes L x).lookAt j).attrs

/-- The texts when they are tidied. -/
def parsedTexts : NodeId → Str :=
  ((keptNodes L x).change fun n l => { l with attrs := parsedAttrs L x n }).tidy .default fun j => ((allNodes L x).lookAt j).text

/-- What a node carries in the end. -/
def parsedLook (n : NodeId) : Look := { (allNodes L x).lookAt n with attrs := parsedAttrs L x n, text := parsedTexts L x n }

/-- The document: without texts of which nothing is left. -/
def parsedDoc : Content :=
  ((keptNodes L x).change fun n _ => parsedLook L x n).without fun l => decide (l.type = .text ∧ l.text = [])

end

/-- Below the root of `t` is exactly the document `d`. -/
def Content.Shown (d : Content) (t : St) : Prop :=
  t.rootId = 0 ∧ ∃ F : Forest, Describes t F ∧ d.trees.Of F (F.kids t.rootId) ∧ ∀ p ∈ d.nodes, t.look p.1 = p.2

/-! ## The picture of a parsed document -/

namespace Content

/-- The first level. -/
def tops : Content → List NodeId
  | nil => []
  | node n _ _ R => n :: R.tops

/-- The children of `j`. -/
def kidsOf : Content → NodeId → List NodeId
  | nil, _ => []
  | node n _ K R, j => if n = j then K.tops else K.kidsOf j ++ R.kidsOf j

/-- The parent of `j`; the first level has the parent `p`. -/
def parOf (p : NodeId) : Content → NodeId → Option NodeId
  | nil, _ => none
  | node n _ K R, j => if n = j then some p else (K.parOf n j).or (R.parOf p j)

/-- The document below the root; every other node is alone. -/
def forest (d : Content) : Forest where
  kids := fun j => if j = 0 then d.tops else d.kidsOf j
  par := fun j => d.parOf 0 j
  sibs := fun j => match d.parOf 0 j with
    | some p => if p = 0 then d.tops else d.kidsOf p
    | none => [j]

end Content

/-- All that can be observed of a parsed document, in the sense of `Spec/Picture.lean`. Nodes that were removed on the way still have a
number; each of them is alone, and not stored. -/
def parsedPicture (L : Lib) (debug : Bool) (x : Xml) : Picture where
  live := fun j => decide (j < 1 + (svgDom L x).size)
  next := 1 + (svgDom L x).size
  root := 0
  debug := debug
  forest := (parsedDoc L x).forest
  look := parsedLook L x
  stored := fun j => decide (j = 0) || (parsedDoc L x).nodes.any fun p => decide (p.1 = j)

end Svgdom
