import Verif.Printf.Model
/-
Specification: the grammar of conversion specifications (C standard 7.21.6.1, without `*`
and without the length modifiers j, z, t), written as text, and what they mean.
-/
namespace Verif.Printf.Spec
open Verif Verif.Printf

/-- The bytes of ASCII characters. -/
def chars (cs : List Char) : Str := cs.map (fun c => UInt8.ofNat c.toNat)

/-- A conversion specification taken apart. -/
structure Conv where
  flags : List UInt8
  width : List UInt8
  prec : Option (List UInt8)
  len : ArgLen
  conv : UInt8
deriving DecidableEq, Repr

def lenText : ArgLen → List UInt8
  | .no => []
  | .h => [104]
  | .hh => [104, 104]
  | .l => [108]
  | .ll => [108, 108]
  | .L => [76]

def precText : Option (List UInt8) → List UInt8
  | none => []
  | some ds => 46 :: ds

/-- The text: `%`, flags, width, precision, length modifier, conversion letter. -/
def text (c : Conv) : List UInt8 :=
  37 :: (c.flags ++ (c.width ++ (precText c.prec ++ (lenText c.len ++ [c.conv]))))

/-- The flag characters `+`, `-`, `#`, `0` and space. -/
def isFlag (c : UInt8) : Bool := c = 43 || c = 45 || c = 35 || c = 48 || c = 32

/-- The characters `0` to `9`. -/
def digit (c : UInt8) : Bool := c.toNat ∈ [48, 49, 50, 51, 52, 53, 54, 55, 56, 57]

/-- The letters `A` to `Z` and `a` to `z`. -/
def letter (c : UInt8) : Bool := decide (65 ≤ c.toNat ∧ c.toNat < 65 + 26 ∨ 97 ≤ c.toNat ∧ c.toNat < 97 + 26)

/-- Well-formed: flags are flag characters, width and precision are digits, the width does
not begin with `0` (that is a flag), the conversion is a letter that does not continue the
length modifier. -/
structure WF (c : Conv) : Prop where
  flags : ∀ x ∈ c.flags, isFlag x = true
  width : ∀ x ∈ c.width, digit x = true
  width0 : c.width.head? ≠ some 48
  prec : ∀ ds, c.prec = some ds → ∀ x ∈ ds, digit x = true
  conv : letter c.conv = true
  convNo : c.len = .no → c.conv ≠ 104 ∧ c.conv ≠ 108 ∧ c.conv ≠ 76
  convH : c.len = .h → c.conv ≠ 104
  convL : c.len = .l → c.conv ≠ 108

/-- Number written with digits in a base. -/
def number (base : Nat) (ds : List UInt8) : Nat := ds.foldl (fun a d => a * base + (d.toNat - 48)) 0

/-- What printf understands: the flags that occur, decimal width (0 if absent), decimal
precision (-1 if absent), length modifier, letter. -/
def meaning (c : Conv) : Specifier :=
  { flags := { plus := decide (43 ∈ c.flags), minus := decide (45 ∈ c.flags), pound := decide (35 ∈ c.flags),
               oct := decide (48 ∈ c.flags), space := decide (32 ∈ c.flags) },
    formatLen := number 10 c.width,
    precision := match c.prec with | none => -1 | some ds => number 10 ds,
    argLen := c.len, t := c.conv }

/-- Width and precision fit an `int` (in the given base). -/
def Fits (base : Nat) (c : Conv) : Prop :=
  number base c.width ≤ 2147483647 ∧ ∀ ds, c.prec = some ds → number base ds ≤ 2147483647

/-- A format string in pieces: ordinary characters, `%%`, conversion specifications. -/
inductive Piece where
  | lit (c : UInt8)
  | pct
  | conv (c : Conv)
deriving DecidableEq, Repr

def render : List Piece → Str
  | [] => []
  | .lit c :: ps => c :: render ps
  | .pct :: ps => 37 :: 37 :: render ps
  | .conv c :: ps => text c ++ render ps

def WFPiece : Piece → Prop
  | .lit c => c ≠ 37
  | .pct => True
  | .conv c => WF c

/-- The conversion specifications in order. -/
def convs : List Piece → List Conv
  | [] => []
  | .conv c :: ps => c :: convs ps
  | _ :: ps => convs ps

/-- Every conversion specification is followed by an ordinary character or the end. -/
def Separated : List Piece → Prop
  | [] => True
  | .conv _ :: .conv _ :: _ => False
  | .conv _ :: .pct :: _ => False
  | _ :: ps => Separated ps

/-- The type of the stored parameter that a specification promises. -/
def promised (c : Conv) : Option Ty :=
  if c.conv = 100 ∨ c.conv = 105 then      -- d i
    match c.len with
    | .no => some .int | .hh => some .char | .h => some .short | .l => some .long | .ll => some .llong | .L => none
  else if c.conv = 117 ∨ c.conv = 111 ∨ c.conv = 120 ∨ c.conv = 88 then   -- u o x X
    match c.len with
    | .no => some .uint | .hh => some .uchar | .h => some .ushort | .l => some .ulong | .ll => some .ullong | .L => none
  else if c.conv = 101 ∨ c.conv = 102 ∨ c.conv = 103 then    -- e f g
    match c.len with
    | .no => some .double | .L => some .ldouble | _ => none
  else if c.conv = 99 then (if c.len = .no then some .char else none)   -- c
  else if c.conv = 112 then (if c.len = .no then some .voidp else none)  -- p
  else if c.conv = 110 then     -- n
    match c.len with
    | .no => some .intp | .hh => some .charp | .h => some .shortp | .l => some .longp | .ll => some .llongp | .L => none
  else none

/-- The argument list holds, for a parameter of that type, an argument of this kind (after
the default argument promotions). -/
inductive HoldsArg : Ty → Arg → Prop where
  | char (v) : HoldsArg .char (.int v)
  | short (v) : HoldsArg .short (.int v)
  | int (v) : HoldsArg .int (.int v)
  | long (v) : HoldsArg .long (.long v)
  | llong (v) : HoldsArg .llong (.llong v)
  | uchar (v) : HoldsArg .uchar (.uint v)
  | ushort (v) : HoldsArg .ushort (.uint v)
  | uint (v) : HoldsArg .uint (.uint v)
  | ulong (v) : HoldsArg .ulong (.ulong v)
  | ullong (v) : HoldsArg .ullong (.ullong v)
  | double (v) : HoldsArg .double (.double v)
  | ldouble (v) : HoldsArg .ldouble (.ldouble v)
  | voidp (v) : HoldsArg .voidp (.ptr v)
  | charp (v) : HoldsArg .charp (.ptr v)
  | shortp (v) : HoldsArg .shortp (.ptr v)
  | intp (v) : HoldsArg .intp (.ptr v)
  | longp (v) : HoldsArg .longp (.ptr v)
  | llongp (v) : HoldsArg .llongp (.ptr v)

/-- The parameter stored for a specification and an argument of the promised type:
strings (`%s`) become character arrays (with the NUL), NULL strings a char pointer. -/
inductive Stores : Conv → Arg → Ty → Prop where
  | plain {c a ty} : promised c = some ty → HoldsArg ty a → Stores c a ty
  | strNull {c} : c.conv = 115 → Stores c (.str none) .charp
  | str {c s} : c.conv = 115 → Stores c (.str (some s)) (.chars (s.length + 1))

/-- One parameter per specification, in order. -/
inductive AllStored : List Conv → List Arg → List (Ty × Arg) → Prop where
  | nil : AllStored [] [] []
  | cons {c a ty cs as ps} : Stores c a ty → AllStored cs as ps → AllStored (c :: cs) (a :: as) ((ty, a) :: ps)

/-- The bytes an object of the type takes on the platform (LP64, x86-64). -/
def bytes : Ty → Nat
  | .char | .uchar => 1
  | .short | .ushort => 2
  | .int | .uint => 4
  | .long | .ulong | .llong | .ullong => 8
  | .double => 8
  | .ldouble => 16
  | .charp | .voidp | .shortp | .intp | .longp | .llongp => 8
  | .chars n => n

/-- No ten digits in a row. -/
def ShortRuns (fmt : Str) : Prop :=
  ∀ P ds R, fmt = P ++ (ds ++ R) → (∀ x ∈ ds, digit x = true) → ds.length ≤ 9

end Verif.Printf.Spec
