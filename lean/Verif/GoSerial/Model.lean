import Verif.GoDedup.Model
/-
Model of /repo/pkg/dwarfy/dwarf.go: the forms in which debug information is written and read
(unstructured values for templates, JSON, YAML).

Go's debug/dwarf, encoding/json and yaml.v3 are not modelled: what the first gives is the input of
`newField`; what the other two give back for what they were given are the definitions `jsonDoc` and
`yamlDoc`.  The machine has 64-bit integers.
-/
namespace Verif.GoSerial
open GoMeta (Str dec)
open GoDedup (Go)

/-- dwarf.go:19-21: `Offset`, 32 bits. -/
abbrev Off := Nat

/-- What an `interface{}` holds, by its Go type: `offset` is the `Offset` of dwarf.go:21,
`dwarfOffset` that of debug/dwarf; `float64` a whole number (others do not arise from what is
written); `bytes`, `ints`: `[]byte`, `[]int` (no difference is made between nil and empty: here they
are made from a nil slice by appending); `list`: `[]interface{}`; `map`, `mapPtr`:
`map[string]interface{}` and pointers to it (`none`: nil); `other`: anything else. -/
inductive GoVal where
  | nil
  | str (s : Str)
  | bool (b : Bool)
  | int64 (v : Int)
  | uint64 (n : Nat)
  | int (v : Int)
  | offset (o : Off)
  | dwarfOffset (o : Off)
  | float64 (v : Int)
  | bytes (l : List UInt8)
  | ints (l : List Int)
  | list (l : List GoVal)
  | map (m : List (Str × GoVal))
  | mapPtr (m : Option (List (Str × GoVal)))
  | other

/-- dwarf.go:49-54 `Field`. -/
structure Field where
  attr : Str
  val : GoVal
  cls : Str

/-- dwarf.go:222-230 `Entry` (`declFiles`: `none` is the nil pointer). -/
structure Entry where
  parent : Option Off := none
  tag : Str := []
  fields : List Field := []
  children : List Off := []
  declFiles : Option (List Str) := none

/-- dwarf.go:421-423 `Data`: a Go map; the order of the list is the order in which it is visited. -/
abbrev Data := List (Off × Entry)

/-- What the machine makes of a `float64` that does not fit the integer type it is converted to (Go
leaves that open). -/
structure Machine where
  toInt64 : Int → Int
  toUint64 : Int → Nat
  toOffset : Int → Nat

/-- `int64(v)`, `int(v)` of a `float64`. -/
def f2i (M : Machine) (v : Int) : Int := if -2 ^ 63 ≤ v ∧ v < 2 ^ 63 then v else M.toInt64 v
/-- `uint64(v)` of a `float64`. -/
def f2u (M : Machine) (v : Int) : Nat := if 0 ≤ v ∧ v < 2 ^ 64 then v.toNat else M.toUint64 v
/-- `Offset(v)` of a `float64`. -/
def f2o (M : Machine) (v : Int) : Nat := if 0 ≤ v ∧ v < 2 ^ 32 then v.toNat else M.toOffset v
/-- `uint64(v)` of an `int`. -/
def i2u (v : Int) : Nat := (v % 2 ^ 64).toNat
/-- `Offset(v)` of an `int`. -/
def i2o (v : Int) : Nat := (v % 2 ^ 32).toNat

/-- dwarf.go:209-214: one element of a block. -/
def blockElem (M : Machine) : GoVal → Option Int
  | .int v => some v
  | .float64 v => some (f2i M v)
  | _ => none

/-- dwarf.go:135-219 `fixValBasedOnClass`: the new `Val`. -/
def fixVal (M : Machine) (cls : Str) (val : GoVal) : GoVal :=
  if cls = go! "ClassAddress" ∨ cls = go! "ClassReferenceSig" then
    match val with
    | .float64 v => .uint64 (f2u M v)
    | .int v => .uint64 (i2u v)
    | v => v
  else if cls = go! "ClassReference" then
    match val with
    | .float64 v => .offset (f2o M v)
    | .int v => .offset (i2o v)
    | .dwarfOffset o => .offset o
    | v => v
  else if cls = go! "ClassConstant" ∨ cls = go! "ClassLinePtr" ∨ cls = go! "ClassLocListPtr" ∨ cls = go! "ClassMacPtr"
      ∨ cls = go! "ClassRangeListPtr" ∨ cls = go! "ClassUnknown" then
    match val with
    | .float64 v => .int64 (f2i M v)
    | .int v => .int64 v
    | v => v
  else if cls = go! "ClassExprLoc" ∨ cls = go! "ClassBlock" then
    match val with
    | .bytes l => .ints (l.map fun b => (b.toNat : Int))
    | .list l => .ints (l.filterMap (blockElem M))
    | v => v
  else val

/-- dwarf.go:135-219 `fixValBasedOnClass`. -/
def fixField (M : Machine) (f : Field) : Field := { f with val := fixVal M f.cls f.val }

/-- dwarf.go:56-66 `NewField` (attribute and class by their names). -/
def newField (M : Machine) (attr cls : Str) (val : GoVal) : Field := fixField M ⟨attr, val, cls⟩

/-! ### Unstructured values -/

/-- `strconv.Atoi`: digits of a decimal number. -/
def digits : Str → Nat → Option Nat
  | [], n => some n
  | c :: s, n => if 48 ≤ c ∧ c ≤ 57 then digits s (n * 10 + (c.toNat - 48)) else none

/-- `strconv.Atoi`: no sign left, at least one digit. -/
def digits1 : Str → Option Nat
  | [] => none
  | s => digits s 0

/-- `strconv.Atoi` on a 64-bit machine (`none`: an error). -/
def atoi (s : Str) : Option Int :=
  let r : Option Int := match s with
    | 45 :: s => (digits1 s).map fun n => -Int.ofNat n
    | 43 :: s => (digits1 s).map Int.ofNat
    | s => (digits1 s).map Int.ofNat
  r.filter fun v => -2 ^ 63 ≤ v ∧ v < 2 ^ 63

/-- dwarf.go:23-34 `NewOffsetFromUnstructured`. -/
def newOffsetU : GoVal → Go Off
  | .str s =>
    match atoi s with
    | none => Go.fail
    | some v => Go.ret (i2o v)
  | _ => Go.fail

/-- dwarf.go:69-78, 266-275, 513-522: the map behind the argument; a nil pointer is followed when
the first key is looked up. -/
def mapOf : GoVal → Go (List (Str × GoVal))
  | .map m => Go.ret m
  | .mapPtr (some m) => Go.ret m
  | .mapPtr none => Go.panic
  | _ => Go.fail

/-- `(*m)[key].(string)` where the key must be there: dwarf.go:83-91, 93-101, 294-302. -/
def strIn (m : List (Str × GoVal)) (key : Str) : Go Str :=
  match m.lookup key with
  | some (.str s) => Go.ret s
  | _ => Go.fail

/-- dwarf.go:68-119 `NewFieldFromUnstructured`. -/
def newFieldU (M : Machine) (u : GoVal) : Go Field := do
  let m ← mapOf u
  let attr ← strIn m (go! "Attr")
  let cls ← strIn m (go! "Class")
  match m.lookup (go! "Val") with
  | none => Go.fail
  | some v =>
    if cls = go! "ClassReference" then do
      let o ← newOffsetU v
      return fixField M ⟨attr, .offset o, cls⟩
    else return fixField M ⟨attr, v, cls⟩

/-- Loops that stop at the first error: dwarf.go:310-316, 325-331, 340-346. -/
def each {α : Type} (f : GoVal → Go α) : List GoVal → Go (List α)
  | [] => Go.ret []
  | u :: us => do
    let a ← f u
    let as ← each f us
    return a :: as

/-- `(*m)[key].([]interface{})` and the loop over it, where the key may be missing:
dwarf.go:304-317, 319-332, 334-348 (`none`: missing). -/
def listIn {α : Type} (m : List (Str × GoVal)) (key : Str) (f : GoVal → Go α) : Go (Option (List α)) :=
  match m.lookup key with
  | none => Go.ret none
  | some (.list l) => do return some (← each f l)
  | some _ => Go.fail

/-- dwarf.go:341-344: a file name. -/
def fileU : GoVal → Go Str
  | .str s => Go.ret s
  | _ => Go.fail

/-- dwarf.go:279-292: the parent, if there is one. -/
def parentIn (m : List (Str × GoVal)) : Go (Option Off) :=
  match m.lookup (go! "Parent") with
  | none => Go.ret none
  | some v => do return some (← newOffsetU v)

/-- dwarf.go:265-353 `NewEntryFromUnstructured`. -/
def newEntryU (M : Machine) (u : GoVal) : Go Entry := do
  let m ← mapOf u
  let parent ← parentIn m
  let tag ← strIn m (go! "Tag")
  let fields ← listIn m (go! "Fields") (newFieldU M)
  let children ← listIn m (go! "Children") newOffsetU
  let files ← listIn m (go! "DeclFiles") fileU
  return { parent, tag, fields := (fields.getD []).map (fixField M), children := children.getD [], declFiles := files }

/-- `data.Entries[o] = e`. -/
def put (d : Data) (o : Off) (e : Entry) : Data := (o, e) :: d.filter fun x => x.1 ≠ o

/-- dwarf.go:534-543: the loop over the map of entries. -/
def entriesU (M : Machine) : List (Str × GoVal) → Data → Go Data
  | [], d => Go.ret d
  | (k, u) :: rest, d =>
    match atoi k with
    | none => Go.fail
    | some v => do
      let e ← newEntryU M u
      entriesU M rest (put d (i2o v) e)

/-- dwarf.go:388-392 `Entry.fixValBasedOnClass`. -/
def fixEntry (M : Machine) (e : Entry) : Entry := { e with fields := e.fields.map (fixField M) }

/-- dwarf.go:512-546 `NewDataFromUnstructured`. -/
def newDataU (M : Machine) (u : GoVal) : Go Data := do
  let m ← mapOf u
  match m.lookup (go! "Entries") with
  | some (.map es) => do
    let d ← entriesU M es []
    return d.map fun x => (x.1, fixEntry M x.2)
  | _ => Go.fail

/-- dwarf.go:121-133 `Field.ToUnstructured`. -/
def fieldToU (f : Field) : GoVal :=
  let val := match f.val with
    | .offset o => if f.cls = go! "ClassReference" then .str (dec o) else f.val
    | v => v
  .map [(go! "Attr", .str f.attr), (go! "Val", val), (go! "Class", .str f.cls)]

/-- dwarf.go:36-38 `Offset.ToUnstructured`. -/
def offToU (o : Off) : GoVal := .str (dec o)

/-- `u[key] = list` for a list that is not empty: dwarf.go:362-384. -/
def putList (key : Str) (l : List GoVal) : List (Str × GoVal) := if l = [] then [] else [(key, .list l)]

/-- dwarf.go:355-386 `Entry.ToUnstructured`. -/
def entryToU (e : Entry) : GoVal :=
  .map ([(go! "Tag", .str e.tag)]
    ++ (match e.parent with | some p => [(go! "Parent", .str (dec p))] | none => [])
    ++ putList (go! "Fields") (e.fields.map fieldToU)
    ++ putList (go! "Children") (e.children.map offToU)
    ++ (match e.declFiles with | some fs => putList (go! "DeclFiles") (fs.map .str) | none => []))

/-- dwarf.go:568-577 `Data.ToUnstructured`. -/
def dataToU (d : Data) : GoVal := .map [(go! "Entries", .map (d.map fun x => (dec x.1, entryToU x.2)))]

/-! ### JSON and YAML -/

/-- What the decoders make of a document: entries and fields are pointers (`none`: nil, for
`null`). -/
structure DocEntry where
  parent : Option Off := none
  tag : Str := []
  fields : List (Option Field) := []
  children : List Off := []
  declFiles : Option (List Str) := none

/-- The map of entries in a document. -/
abbrev Doc := List (Off × Option DocEntry)

/-- dwarf.go:388-392, 135-219: `f.Class` of a nil pointer panics. -/
def fixFields (M : Machine) : List (Option Field) → Go (List Field)
  | [] => Go.ret []
  | none :: _ => Go.panic
  | some f :: fs => do return fixField M f :: (← fixFields M fs)

/-- dwarf.go:579-583 `Data.fixValBasedOnClass`: `e.Fields` of a nil pointer panics. -/
def fixDoc (M : Machine) : Doc → Go Data
  | [] => Go.ret []
  | (_, none) :: _ => Go.panic
  | (o, some e) :: d => do
    let fields ← fixFields M e.fields
    let rest ← fixDoc M d
    return (o, { parent := e.parent, tag := e.tag, fields, children := e.children, declFiles := e.declFiles }) :: rest

/-- dwarf.go:548-556 `NewDataFromJsonBuffer`, 558-566 `NewDataFromYamlBuffer`, given the document
(`none`: it cannot be decoded). -/
def newDataDoc (M : Machine) : Option Doc → Go Data
  | none => Go.fail
  | some doc => fixDoc M doc

/-- A natural number as a `float64`: to the nearest with 53 bits, to the even one of two. -/
def roundNat (n : Nat) : Nat :=
  let e := n.log2 - 52
  let q := n / 2 ^ e
  let r := n % 2 ^ e
  let up := if 2 * r > 2 ^ e ∨ (2 * r = 2 ^ e ∧ q % 2 = 1) then 1 else 0
  (q + up) * 2 ^ e

/-- An integer as a `float64`. -/
def roundInt (v : Int) : Int := if v < 0 then -(roundNat v.natAbs : Int) else roundNat v.natAbs

/-- `utf8.DecodeRuneInString`: the length of the code point at the start, 0 if there is none. -/
def utf8Len : Str → Nat
  | [] => 0
  | a :: s =>
    let second (lo hi : UInt8) (n : Nat) : Nat :=
      match s with
      | b :: s => if lo ≤ b ∧ b ≤ hi ∧ n ≤ s.length ∧ (s.take n).all (fun c => 0x80 ≤ c ∧ c ≤ 0xbf) then n + 2 else 0
      | [] => 0
    if a < 0x80 then 1
    else if 0xc2 ≤ a ∧ a ≤ 0xdf then second 0x80 0xbf 0
    else if a = 0xe0 then second 0xa0 0xbf 1
    else if a = 0xed then second 0x80 0x9f 1
    else if 0xe1 ≤ a ∧ a ≤ 0xef then second 0x80 0xbf 1
    else if a = 0xf0 then second 0x90 0xbf 2
    else if 0xf1 ≤ a ∧ a ≤ 0xf3 then second 0x80 0xbf 2
    else if a = 0xf4 then second 0x80 0x8f 2
    else 0

/-- What a string comes back as from encoding/json: a byte that starts no code point is replaced by
U+FFFD.  The number is that of the bytes of the current code point still to be copied. -/
def utf8Fix : Nat → Str → Str
  | _, [] => []
  | k + 1, a :: s => a :: utf8Fix k s
  | 0, a :: s =>
    match utf8Len (a :: s) with
    | 0 => [0xef, 0xbf, 0xbd] ++ utf8Fix 0 s
    | n + 1 => a :: utf8Fix n s

/-- A string written as JSON and read back. -/
def jsonStr (s : Str) : Str := utf8Fix 0 s

/-- A value written by `json.Marshal` and read back by `json.Unmarshal` into an `interface{}`:
numbers are `float64`, a nil slice is `null`.  `[]byte` (base64 text) and nested values do not arise
from what is read from debug information. -/
def jsonVal : GoVal → GoVal
  | .nil => .nil
  | .str s => .str (jsonStr s)
  | .bool b => .bool b
  | .int64 v => .float64 (roundInt v)
  | .int v => .float64 (roundInt v)
  | .uint64 n => .float64 (roundInt n)
  | .offset o => .float64 (roundInt o)
  | .dwarfOffset o => .float64 (roundInt o)
  | .float64 v => .float64 v
  | .ints [] => .nil
  | .ints l => .list (l.map fun v => .float64 (roundInt v))
  | _ => .other

/-- dwarf.go:585-587 `ToJsonBuffer`, and the document that `json.Unmarshal` makes of it.  A pointer to
a nil slice is `null`. -/
def jsonDoc (d : Data) : Doc :=
  d.map fun x => (x.1, some
    { parent := x.2.parent, tag := jsonStr x.2.tag,
      fields := x.2.fields.map fun f => some ⟨jsonStr f.attr, jsonVal f.val, jsonStr f.cls⟩,
      children := x.2.children,
      declFiles := match x.2.declFiles with
        | some [] => none
        | some l => some (l.map jsonStr)
        | none => none })

/-- A value written by `yaml.Marshal` and read back by `yaml.Unmarshal` into an `interface{}`:
whole numbers are `int` if they fit, else `uint64`.  Strings come back as they were (trusted). -/
def yamlVal : GoVal → GoVal
  | .nil => .nil
  | .str s => .str s
  | .bool b => .bool b
  | .int64 v => .int v
  | .int v => .int v
  | .uint64 n => if n < 2 ^ 63 then .int n else .uint64 n
  | .offset o => .int o
  | .dwarfOffset o => .int o
  | .ints l => .list (l.map .int)
  | _ => .other

/-- dwarf.go:589-591 `ToYamlBuffer`, and the document that `yaml.Unmarshal` makes of it. -/
def yamlDoc (d : Data) : Doc :=
  d.map fun x => (x.1, some
    { parent := x.2.parent, tag := x.2.tag, fields := x.2.fields.map fun f => some { f with val := yamlVal f.val },
      children := x.2.children, declFiles := x.2.declFiles })

end Verif.GoSerial
