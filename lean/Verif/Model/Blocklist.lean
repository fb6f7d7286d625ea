import Verif.Model.Sys

/-!
# Replay state (`Blocklist`) and its file format
-/

namespace Ruroco

/-- `HashMap<[u8; 8], u128>` as an association list. -/
abbrev BlMap := List (List Byte × U128)

namespace BlMap

/-- `HashMap::get`. -/
def get (m : BlMap) (k : List Byte) : Option U128 :=
  match m with
  | [] => none
  | (k', v) :: rest => if k' = k then some v else get rest k

/-- `HashMap::insert`. -/
def insert (m : BlMap) (k : List Byte) (v : U128) : BlMap :=
  match m with
  | [] => [(k, v)]
  | (k', v') :: rest => if k' = k then (k, v) :: rest else (k', v') :: insert rest k v

/-- `HashMap::remove`. -/
def remove (m : BlMap) (k : List Byte) : BlMap := m.filter (fun e => e.1 ≠ k)

end BlMap

/-! ## MessagePack (crate `rmp_serde`), the subset the blocklist file uses

The struct has one non-skipped field, so it is a 1-element array holding the map; a key `[u8; 8]` is an 8-element array of
integers in shortest form; a `u128` is a 16-byte big-endian `bin`. Reading accepts integers and array lengths in all their forms. -/

def encU8 (b : Byte) : List Byte := if b.toNat < 128 then [b] else [0xcc, b]

def encKey (k : List Byte) : List Byte := 0x98 :: k.flatMap encU8

def encVal (c : U128) : List Byte := 0xc4 :: 16 :: beBytes 16 c.toNat

def mapHeader (n : Nat) : List Byte :=
  if n < 16 then [BitVec.ofNat 8 (0x80 + n)]
  else if n < 65536 then 0xde :: beBytes 2 n
  else 0xdf :: beBytes 4 n

def encEntry (e : List Byte × U128) : List Byte := encKey e.1 ++ encVal e.2

/-- `rmp_serde::to_vec(&Blocklist)`. Simplification: a map with 2^32 or more entries (which the crate would write with a
truncated length) is an error here. -/
def encodeBl (m : BlMap) : Except Err (List Byte) :=
  if m.length < 2 ^ 32 then .ok (0x91 :: mapHeader m.length ++ m.flatMap encEntry) else .error .save

/-- Take exactly `n` bytes. -/
def takeN (n : Nat) (bs : List Byte) : Option (List Byte × List Byte) :=
  if n ≤ bs.length then some (bs.take n, bs.drop n) else none

/-- The forms of an integer that begin with a marker: how many bytes follow, and below what their value must lie to be one of a `u8` (`0xd0` is the signed form of one byte; in the longer signed forms a
negative number is above 255 when read as unsigned). -/
def intForm (b : Byte) : Option (Nat × Nat) :=
  if b = 0xcc then some (1, 256)
  else if b = 0xcd then some (2, 256)
  else if b = 0xce then some (4, 256)
  else if b = 0xcf then some (8, 256)
  else if b = 0xd0 then some (1, 128)
  else if b = 0xd1 then some (2, 256)
  else if b = 0xd2 then some (4, 256)
  else if b = 0xd3 then some (8, 256)
  else none

/-- An integer that must fit a `u8`, in any of the forms the crate accepts. -/
def decU8 : List Byte → Option (Byte × List Byte)
  | [] => none
  | b :: r =>
    if b.toNat < 128 then some (b, r)
    else
      match intForm b with
      | none => none
      | some (p, limit) =>
        match takeN p r with
        | none => none
        | some (v, r') => if ofBE v < limit then some (BitVec.ofNat 8 (ofBE v), r') else none

/-- The beginning of an array of `n` elements (`n` below 16), in any of the three forms the crate accepts; an array of another length is refused. -/
def arrHeader (n : Nat) (bs : List Byte) : Option (List Byte) :=
  match bs with
  | a :: r =>
    if a.toNat = 0x90 + n then some r
    else if a = 0xdc then
      match takeN 2 r with
      | some (v, r') => if ofBE v = n then some r' else none
      | none => none
    else if a = 0xdd then
      match takeN 4 r with
      | some (v, r') => if ofBE v = n then some r' else none
      | none => none
    else none
  | [] => none

def decU8s : Nat → List Byte → Option (List Byte × List Byte)
  | 0, r => some ([], r)
  | n + 1, r =>
    match decU8 r with
    | none => none
    | some (b, r') =>
      match decU8s n r' with
      | none => none
      | some (bs, r'') => some (b :: bs, r'')

def decVal (bs : List Byte) : Option (U128 × List Byte) :=
  match bs with
  | a :: b :: r =>
    if a = 0xc4 ∧ b = 16 then
      match takeN 16 r with
      | some (v, r') => some (BitVec.ofNat 128 (ofBE v), r')
      | none => none
    else none
  | _ => none

def decEntry (bs : List Byte) : Option ((List Byte × U128) × List Byte) :=
  match arrHeader 8 bs with
  | none => none
  | some r =>
    match decU8s 8 r with
    | none => none
    | some (k, r') =>
      match decVal r' with
      | none => none
      | some (v, r'') => some ((k, v), r'')

def decEntries : Nat → List Byte → Option (List (List Byte × U128) × List Byte)
  | 0, r => some ([], r)
  | n + 1, r =>
    match decEntry r with
    | none => none
    | some (e, r') =>
      match decEntries n r' with
      | none => none
      | some (es, r'') => some (e :: es, r'')

def decMapHeader (bs : List Byte) : Option (Nat × List Byte) :=
  match bs with
  | a :: r =>
    if 0x80 ≤ a.toNat ∧ a.toNat < 0x90 then some (a.toNat - 0x80, r)
    else if a = 0xde then
      match takeN 2 r with
      | some (v, r') => some (ofBE v, r')
      | none => none
    else if a = 0xdf then
      match takeN 4 r with
      | some (v, r') => some (ofBE v, r')
      | none => none
    else none
  | [] => none

/-- `rmp_serde::from_slice::<Blocklist>`: decoded entries are inserted in order (a repeated key overwrites); bytes after the
value are ignored. Simplification: the crate also accepts a struct written as a map of field names, which the server never
writes. -/
def decodeBl (bs : List Byte) : Option BlMap :=
  match arrHeader 1 bs with
  | none => none
  | some r =>
    match decMapHeader r with
    | none => none
    | some (n, r') =>
      match decEntries n r' with
      | none => none
      | some (es, _) => some (es.foldl (fun m e => m.insert e.1 e.2) [])

/-- /repo/src/server/blocklist.rs:51-53 `get_blocklist_path` (`resolve_path` applied before). -/
def blocklistPath (dir : Path) : Path := dir ++ "/blocklist.msgpck".toList

/-- /repo/src/server/blocklist.rs:19-24 `Blocklist`. `order` stands for the unspecified iteration order of the hash map when it
is serialised. -/
structure Blocklist where
  map : BlMap
  path : Path
  order : BlMap → BlMap

namespace Blocklist

/-- blocklist.rs:89-93 `save`. -/
def save (b : Blocklist) : Act Unit := do
  let bytes ← Act.ofExcept (encodeBl (b.order b.map))
  writeAtomic b.path bytes

/-- blocklist.rs:29-49 `create`. -/
def create (dir : Path) (order : BlMap → BlMap) : Act Blocklist := do
  let path := blocklistPath dir
  let blocklist ← do
    if ← pathExists path then
      let bytes ← readFile path
      match decodeBl bytes with
      | some map => pure { map, path, order : Blocklist }
      | none => Act.throw .parse
    else
      pure { map := [], path, order : Blocklist }
  blocklist.save
  pure blocklist

/-- blocklist.rs:61-66 `is_counter_replayed`. -/
def isCounterReplayed (b : Blocklist) (keyId : List Byte) (value : U128) : Bool :=
  match b.map.get keyId with
  | some v => decide (v.toNat ≥ value.toNat)
  | none => true

/-- blocklist.rs:68-70 `seed_if_absent`. -/
def seedIfAbsent (b : Blocklist) (keyId : List Byte) (floor : U128) : Blocklist :=
  match b.map.get keyId with
  | some _ => b
  | none => { b with map := b.map.insert keyId floor }

/-- blocklist.rs:72-74 `get_counter`. -/
def getCounter (b : Blocklist) (keyId : List Byte) : Option U128 := b.map.get keyId

/-- blocklist.rs:81-83 `upsert`. -/
def upsert (b : Blocklist) (keyId : List Byte) (v : U128) : Blocklist := { b with map := b.map.insert keyId v }

/-- blocklist.rs:85-87 `remove`. -/
def remove (b : Blocklist) (keyId : List Byte) : Blocklist := { b with map := b.map.remove keyId }

end Blocklist

end Ruroco
