import Verif.Model.Text
import Verif.Model.Display
import Verif.Model.XmlOut

/-!
# Small stand-ins for the external crates

Only for running the model on the tests of the repository (`Check/Resave.lean`, `Check/Api.lean`). No theorem uses them. They cover what
those tests contain, not more: `svgtypes` for a few values, `simplecss` for a few selectors. (`xmlwriter` is in `Model/XmlOut.lean`.)
-/

set_option autoImplicit false

namespace Svgdom.Check

/-! ## Characters -/

def splitAt (p : Char → Bool) : Str → List Str
  | [] => [[]]
  | c :: cs =>
    if p c then [] :: splitAt p cs
    else match splitAt p cs with
      | [] => [[c]]
      | w :: ws => (c :: w) :: ws

def words (t : Str) : List Str := (splitAt (fun c => isWhite c || c == ',') t).filter (!·.isEmpty)

def dropPrefix : Str → Str → Option Str
  | [], t => some t
  | _ :: _, [] => none
  | a :: p, b :: t => if a = b then dropPrefix p t else none

/-! ## svgtypes -/

def digit (c : Char) : Option Nat := if c.isDigit then some (c.toNat - 48) else none

/-- Digits after the point: value so far, weight of the next digit. -/
def fraction (acc w : Rat) : Str → Rat × Str
  | [] => (acc, [])
  | c :: cs => match digit c with
    | some d => fraction (acc + d * w) (w / 10) cs
    | none => (acc, c :: cs)

def whole (acc : Nat) : Str → Rat × Str
  | [] => (acc, [])
  | c :: cs => match digit c with
    | some d => whole (10 * acc + d) cs
    | none => if c = '.' then fraction acc (1 / 10) cs else (acc, c :: cs)

def numberAndRest (t : Str) : Option (Rat × Str) :=
  match t with
  | [] => none
  | '-' :: cs => let r := whole 0 cs; some (-r.1, r.2)
  | c :: cs => if c.isDigit || c == '.' then some (whole 0 (c :: cs)) else none

def lengthUnit (t : Str) : Option LengthUnit :=
  if t = [] then some .none else if t = st!"px" then some .px else if t = st!"mm" then some .mm
  else if t = st!"%" then some .percent else none

def lengthOf (t : Str) : Option Length := do
  let (q, r) ← numberAndRest t
  let u ← lengthUnit r
  pure ⟨.fin q, u⟩

def numberOf (t : Str) : Option (F64 × Bool) := (numberAndRest t).map fun r => (.fin r.1, r.2.isEmpty)

def all {α β : Type} (f : α → Option β) : List α → Option (List β)
  | [] => some []
  | a :: l => do
    let b ← f a
    let bs ← all f l
    pure (b :: bs)

def hexValue (c : Char) : Option Nat :=
  if c.isDigit then some (c.toNat - 48)
  else if 97 ≤ c.toNat ∧ c.toNat ≤ 102 then some (c.toNat - 87) else none

def colorOf (t : Str) : Option Color :=
  if t = st!"red" then some ⟨255, 0, 0⟩ else if t = st!"green" then some ⟨0, 128, 0⟩ else if t = st!"blue" then some ⟨0, 0, 255⟩
  else if t = st!"cyan" then some ⟨0, 255, 255⟩ else if t = st!"black" then some ⟨0, 0, 0⟩
  else match t with
    | ['#', a, b, c, d, e, f] => do
      let a ← hexValue a
      let b ← hexValue b
      let c ← hexValue c
      let d ← hexValue d
      let e ← hexValue e
      let f ← hexValue f
      pure ⟨16 * a + b, 16 * c + d, 16 * e + f⟩
    | _ => none

def iriOf : Str → Option Str
  | '#' :: cs => some cs
  | _ => none

/-- `url(#name)`, and what follows. -/
def urlOf (t : Str) : Option (Str × Str) :=
  match dropPrefix st!"url(#" t with
  | none => none
  | some r => match splitAt (· == ')') r with
    | name :: rest :: _ => some (name, trimStr rest)
    | _ => none

def fallbackOf (t : Str) : Option (Option PaintFallback) :=
  if t = [] then some none else if t = st!"none" then some (some .none) else if t = st!"currentColor" then some (some .currentColor)
  else (colorOf t).map fun c => some (.color c)

def paintOf (t : Str) : Option Paint :=
  if t = st!"none" then some .none else if t = st!"inherit" then some .inherit else if t = st!"currentColor" then some .currentColor
  else match urlOf t with
    | some (name, rest) => (fallbackOf rest).map fun f => .funcIRI name f
    | none => (colorOf t).map .color

/-- Path segments `M x y` and `L x y`. -/
def pathOf : List Str → List (Option Blob)
  | [] => []
  | [_] => [none]
  | [_, _] => [none]
  | c :: x :: y :: l => some ⟨c ++ st!" " ++ x ++ st!" " ++ y⟩ :: pathOf l

/-- `scale(a)`, or nothing, which is the default. -/
def transformOf (t : Str) : Option (Blob × Bool) :=
  if t = [] then some (⟨[]⟩, true)
  else match dropPrefix st!"scale(" t with
    | none => none
    | some r => match splitAt (· == ')') r with
      | a :: _ => some (⟨st!"matrix(" ++ a ++ st!" 0 0 " ++ a ++ st!" 0 0)"⟩, false)
      | [] => none

/-! ## simplecss -/

def dropComments : Bool → Str → Str
  | _, [] => []
  | false, '/' :: '*' :: cs => dropComments true cs
  | true, '*' :: '/' :: cs => dropComments false cs
  | false, c :: cs => c :: dropComments false cs
  | true, _ :: cs => dropComments true cs

def declarationsOf (t : Str) : List (Str × Str) :=
  (splitAt (· == ';') (dropComments false t)).filterMap fun d =>
    match splitAt (· == ':') d with
    | n :: v :: [] => some (trimStr n, trimStr v)
    | _ => none

/-- One selector without spaces: `*`, `.class`, `#id` or an element name. -/
def simpleMatches (t : Str) (p : XmlPos) : Bool :=
  match t with
  | ['*'] => true
  | '.' :: c => p.attributeMatches st!"class" fun v => decide (c ∈ words v)
  | '#' :: c => p.attributeMatches st!"id" fun v => decide (v = c)
  | n => p.hasLocalName n

/-- The words of a selector from the right: `>` asks for the parent, otherwise for some ancestor. -/
def selects : List Str → XmlPos → Bool
  | [], _ => true
  | t :: l, p => simpleMatches t p && match l with
    | [] => true
    | ['>'] :: l => match p with
      | .elem q _ _ => selects l q
      | .root => false
    | l => above l p
where
  above (l : List Str) : XmlPos → Bool
    | .root => false
    | .elem q _ _ => (match q, l with
      | .elem .., t :: [] => simpleMatches t q
      | _, _ => false) || above l q

def weightOf (ws : List Str) : Nat :=
  (ws.map fun w => match w with
    | ['*'] => 0
    | ['>'] => 0
    | '.' :: _ => 100
    | '#' :: _ => 10000
    | _ => 1).sum

def insertRule (r : Nat × Rule) : List (Nat × Rule) → List (Nat × Rule)
  | [] => [r]
  | q :: l => if r.1 < q.1 then r :: q :: l else q :: insertRule r l

def rulesOf (t : Str) : List (Nat × Rule) :=
  (splitAt (· == '}') (dropComments false t)).flatMap fun r =>
    match splitAt (· == '{') r with
    | sel :: body :: _ => (splitAt (· == ',') sel).map fun one =>
      let ws := (splitAt isWhite one).filter (!·.isEmpty)
      (weightOf ws, ⟨selects ws.reverse, declarationsOf body⟩)
    | _ => []

/-- Rules with a smaller weight first, otherwise in the order of the style sheet. -/
def sheetOf (ts : List Str) : List Rule :=
  ((ts.flatMap rulesOf).foldl (fun l r => insertRule r l) []).map (·.2)

def lib : Lib where
  iri := iriOf
  funcIri t := (urlOf t).map (·.1)
  length := lengthOf
  lengthList t := all lengthOf (words t)
  numberList t := all (fun w => (numberOf w).map (·.1)) (words t)
  number := numberOf
  paint := paintOf
  color := colorOf
  points t := some ⟨t⟩
  path t := pathOf (words t)
  transform := transformOf
  angle t := some ⟨t⟩
  viewBox t := some ⟨t⟩
  aspectRatio t := some ⟨t⟩
  sheet := sheetOf
  declarations := declarationsOf

/-! ## Writing values -/

def natStr (n : Nat) : Str := (toString n).toList

def decimals : Nat → Nat → Nat → Str
  | 0, _, _ => []
  | k + 1, r, d => if r = 0 then [] else Nat.digitChar (10 * r / d) :: decimals k (10 * r % d) d

def ratStr (q : Rat) : Str :=
  let n := q.num.natAbs
  let i := natStr (n / q.den)
  (if q.num < 0 then ['-'] else []) ++ if n % q.den = 0 then i else i ++ '.' :: decimals 12 (n % q.den) q.den

def f64Str : F64 → Str
  | .fin q => ratStr q
  | _ => []

def unitStr : LengthUnit → Str
  | .none => []
  | .em => st!"em"
  | .ex => st!"ex"
  | .px => st!"px"
  | .in => st!"in"
  | .cm => st!"cm"
  | .mm => st!"mm"
  | .pt => st!"pt"
  | .pc => st!"pc"
  | .percent => st!"%"

def lengthStr (l : Length) : Str := f64Str l.num ++ unitStr l.unit

def joined (l : List Str) : Str := List.intercalate [' '] l

def byteStr (n : Nat) : Str := [hexDigit (n / 16), hexDigit (n % 16)]

def writer : ValueWriter where
  number := f64Str
  numberList l := joined (l.map f64Str)
  length := lengthStr
  lengthList l := joined (l.map lengthStr)
  angle b := b.text
  transform b := b.text
  path l := joined (l.map (·.text))
  points b := b.text
  color c := '#' :: byteStr c.red ++ byteStr c.green ++ byteStr c.blue
  viewBox b := b.text
  aspectRatio b := b.text

/-! ## Documents as characters -/

/-- `to_string_with_opt`. -/
def shown (o : XmlOptions) (s : St) : Option Str :=
  match s.toText writer o with
  | .ok t => some t
  | .error _ => none

/-- `Document::from_str` and `to_string_with_opt`. -/
def resave (o : XmlOptions) (x : Xml) : Option Str :=
  match parseSvg lib true x with
  | .ok s => shown o s
  | .error _ => none

end Svgdom.Check
