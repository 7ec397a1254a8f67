import Verif.Model.Names

/-!
# SipHash-1-3 and the phf lookup of names.rs

`siphasher::sip::SipHasher13::new_with_keys(0, key)` followed by one `write` and `finish`
(names.rs:880-887), modelled from the definition of SipHash on 64-bit words (`Nat` modulo `2^64`).
-/

namespace Svgdom

/-- Modulus of `u64`. (names.rs:883-889, `siphasher`.) -/
def u64 : Nat := 18446744073709551616

/-- 64-bit rotate left. (names.rs:886, `siphasher`.) -/
def rotl (x b : Nat) : Nat := ((x <<< b) ||| (x >>> (64 - b))) % u64

/-- SipHash state `v0..v3`. (names.rs:886, `siphasher`.) -/
structure Sip where
  v0 : Nat
  v1 : Nat
  v2 : Nat
  v3 : Nat

/-- One SipRound. (names.rs:887, `siphasher`.) -/
def Sip.round (s : Sip) : Sip :=
  let v0 := (s.v0 + s.v1) % u64
  let v1 := rotl s.v1 13 ^^^ v0
  let v0 := rotl v0 32
  let v2 := (s.v2 + s.v3) % u64
  let v3 := rotl s.v3 16 ^^^ v2
  let v0 := (v0 + v3) % u64
  let v3 := rotl v3 21 ^^^ v0
  let v2 := (v2 + v1) % u64
  let v1 := rotl v1 17 ^^^ v2
  let v2 := rotl v2 32
  ⟨v0, v1, v2, v3⟩

/-- Little-endian word from bytes. (names.rs:887, `siphasher`.) -/
def le : List Nat → Nat
  | [] => 0
  | b :: bs => b + 256 * le bs

/-- Absorb one 64-bit word with one round. (names.rs:887, `siphasher`.) -/
def Sip.absorb (s : Sip) (m : Nat) : Sip :=
  let s := Sip.round { s with v3 := s.v3 ^^^ m }
  { s with v0 := s.v0 ^^^ m }

/-- Absorb all full 8-byte words; returns the tail. (names.rs:887, `siphasher`.) -/
def Sip.absorbAll : Sip → List Nat → Sip × List Nat
  | s, b0 :: b1 :: b2 :: b3 :: b4 :: b5 :: b6 :: b7 :: rest =>
    Sip.absorbAll (s.absorb (le [b0, b1, b2, b3, b4, b5, b6, b7])) rest
  | s, tail => (s, tail)

/-- SipHash-1-3 of a byte string. (names.rs:886-888, `siphasher`.) -/
def sip13 (k0 k1 : Nat) (bytes : List Nat) : Nat :=
  let s : Sip := ⟨k0 ^^^ 0x736f6d6570736575, k1 ^^^ 0x646f72616e646f6d,
                  k0 ^^^ 0x6c7967656e657261, k1 ^^^ 0x7465646279746573⟩
  let (s, tail) := s.absorbAll bytes
  let s := s.absorb (((bytes.length % 256) <<< 56) ||| le tail)
  let s := { s with v2 := s.v2 ^^^ 0xff }
  let s := s.round.round.round
  (s.v0 ^^^ s.v1 ^^^ s.v2 ^^^ s.v3) % u64

/-- names.rs:880-887 `hash`. -/
def hashStr (x : Str) (key : Nat) : Nat := sip13 0 key (utf8 x)

/-- names.rs:856-860 `Map`. -/
structure PhfMap (V : Type) where
  key : Nat
  disps : List (Nat × Nat)
  entries : List (Str × V)

/-- Checked `u32` result. (names.rs:909-911; overflow checks of debug builds.) -/
def chkU32 (n : Nat) : Except Err Nat :=
  if n < 4294967296 then .ok n else .error (.panic .overflow)

/-- names.rs:897-905 `split`. -/
def split (hash : Nat) : Nat × Nat × Nat :=
  (hash % 2097152, (hash >>> 21) % 2097152, (hash >>> 42) % 2097152)

/-- names.rs:908-910 `displace`, with overflow checks of a checked build. -/
def displace (f1 f2 d1 d2 : Nat) : Except Err Nat := do
  let m ← chkU32 (f1 * d1)
  let a ← chkU32 (d2 + m)
  chkU32 (a + f2)

/-- `a % b` panics for `b = 0`. (names.rs:894-895.) -/
def chkRem (a b : Nat) : Except Err Nat :=
  if b = 0 then .error (.panic .outOfBounds) else .ok (a % b)

/-- names.rs:890-894 `get_index`. -/
def getIndex (hash : Nat) (disps : List (Nat × Nat)) (len : Nat) : Except Err Nat := do
  let (g, f1, f2) := split hash
  let gi ← chkRem g disps.length
  match disps[gi]? with
  | none => .error (.panic .outOfBounds)
  | some (d1, d2) => do
    let d ← displace f1 f2 d1 d2
    chkRem d len

variable {V : Type}

/-- names.rs:863-875 `Map::get`. -/
def PhfMap.get (m : PhfMap V) (k : Str) : Except Err (Option V) := do
  let index ← getIndex (hashStr k m.key) m.disps m.entries.length
  match m.entries[index]? with
  | none => .error (.panic .outOfBounds)
  | some (b, v) => if b = k then .ok (some v) else .ok none

/-- names.rs:877-879 `Map::key`. -/
def PhfMap.keyOf [DecidableEq V] (m : PhfMap V) (v : V) : Except Err Str :=
  match m.entries.find? (fun kv => kv.2 = v) with
  | some kv => .ok kv.1
  | none => .error (.panic .unwrap)

/-- `ELEMENTS`. (names.rs:92-194.) -/
def elementsMap : PhfMap ElementId := ⟨elementsKey, elementsDisps, elementsEntries⟩

/-- `ATTRIBUTES`. (names.rs:496-826.) -/
def attributesMap : PhfMap AttributeId := ⟨attributesKey, attributesDisps, attributesEntries⟩

/-- `ElementId::from_str` (names.rs:197-199), panics made visible. -/
def ElementId.fromStr? (s : Str) : Except Err (Option ElementId) := elementsMap.get s

/-- `ElementId::as_str` (names.rs:202-204), panics made visible. -/
def ElementId.asStr? (e : ElementId) : Except Err Str := elementsMap.keyOf e

/-- `AttributeId::from_str`, panics made visible. (names.rs:830-832.) -/
def AttributeId.fromStr? (s : Str) : Except Err (Option AttributeId) := attributesMap.get s

/-- `AttributeId::as_str`, panics made visible. (names.rs:835-837.) -/
def AttributeId.asStr? (e : AttributeId) : Except Err Str := attributesMap.keyOf e

end Svgdom
