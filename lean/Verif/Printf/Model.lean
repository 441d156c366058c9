import Verif.Common
/-
Model of /repo/src/printf_format.c.

A C string is the list of its bytes before the NUL; `charAt` reads it, the NUL included.
`isdigit`/`isalpha` are those of the C locale.
-/
namespace Verif.Printf
open Verif

abbrev Str := List UInt8

/-- `format[pos]`; beyond the terminating NUL the read is undefined. -/
def charAt (fmt : Str) (pos : Nat) : Outcome UInt8 :=
  match fmt[pos]? with
  | some c => .ok c
  | none => if pos = fmt.length then .ok 0 else .ub

def isDigit (c : UInt8) : Bool := 48 ≤ c && c ≤ 57
def isAlpha (c : UInt8) : Bool := (65 ≤ c && c ≤ 90) || (97 ≤ c && c ≤ 122)

/-- include/metac/backend/printf_format.h:10-21. -/
structure Flags where
  plus : Bool := false
  minus : Bool := false
  pound : Bool := false
  oct : Bool := false
  space : Bool := false
deriving DecidableEq, Repr

/-- printf_format.h:24-31. -/
inductive ArgLen where
  | no | h | hh | l | ll | L
deriving DecidableEq, Repr

/-- printf_format.h:34-40 `metac_printf_specifier_t`. -/
structure Specifier where
  flags : Flags
  formatLen : Int
  precision : Int
  argLen : ArgLen
  t : UInt8
deriving DecidableEq, Repr

/-- printf_format.c:30-45: the flag loop. -/
def flagsLoop (fmt : Str) (fl : Flags) (pos : Nat) : Flags × Nat :=
  if h : pos < fmt.length then
    let c := fmt[pos]
    if c = 43 then flagsLoop fmt { fl with plus := true } (pos + 1)
    else if c = 45 then flagsLoop fmt { fl with minus := true } (pos + 1)
    else if c = 35 then flagsLoop fmt { fl with pound := true } (pos + 1)
    else if c = 48 then flagsLoop fmt { fl with oct := true } (pos + 1)
    else if c = 32 then flagsLoop fmt { fl with oct := true } (pos + 1)
    else (fl, pos)
  else (fl, pos)
termination_by fmt.length - pos

/-- printf_format.c:49-57 and 64-72: the digit loops; signed overflow is undefined. -/
def digitsLoop (fmt : Str) (oct : Bool) (acc : Int) (pos : Nat) : Outcome (Int × Nat) :=
  if h : pos < fmt.length then
    let c := fmt[pos]
    if isDigit c then
      let v := acc * (if oct then 8 else 10) + (c.toNat - 48)
      if v > 2147483647 then .ub else digitsLoop fmt oct v (pos + 1)
    else .ok (acc, pos)
  else .ok (acc, pos)
termination_by fmt.length - pos

/-- printf_format.c:60-73: precision. -/
def precPart (fmt : Str) (oct : Bool) (pos : Nat) : Outcome (Int × Nat) :=
  if fmt[pos]? = some 46 then digitsLoop fmt oct 0 (pos + 1) else .ok (-1, pos)

/-- printf_format.c:76-94: length modifier. -/
def lenPart (fmt : Str) (pos : Nat) : ArgLen × Nat :=
  if fmt[pos]? = some 104 then
    if fmt[pos + 1]? = some 104 then (.hh, pos + 2) else (.h, pos + 1)
  else if fmt[pos]? = some 108 then
    if fmt[pos + 1]? = some 108 then (.ll, pos + 2) else (.l, pos + 1)
  else if fmt[pos]? = some 76 then (.L, pos + 1)
  else (.no, pos)

/-- printf_format.c:19-106 `metac_parse_format_specifier`: the specifier (`none` for a
return value of 0) and the new position. -/
def parse (fmt : Str) (pos : Nat) : Outcome (Option Specifier × Nat) := do
  let c ← charAt fmt pos
  if c = 37 then
    let (fl, pos) := flagsLoop fmt {} (pos + 1)
    let (width, pos) ← digitsLoop fmt fl.oct 0 pos
    let (prec, pos) ← precPart fmt fl.oct pos
    let (len, pos) := lenPart fmt pos
    let c ← charAt fmt pos
    if isAlpha c then return (some ⟨fl, width, prec, len, c⟩, pos + 1)
    else return (none, pos)
  else return (none, pos)

theorem flagsLoop_le (fmt : Str) (fl : Flags) (pos : Nat) : pos ≤ (flagsLoop fmt fl pos).2 := by
  fun_induction flagsLoop fmt fl pos <;> first | omega | exact Nat.le_refl _

theorem digitsLoop_le (fmt : Str) (oct : Bool) (acc : Int) (pos : Nat) (r : Int × Nat)
    (h : digitsLoop fmt oct acc pos = .ok r) : pos ≤ r.2 := by
  fun_induction digitsLoop fmt oct acc pos with
  | case1 => simp at h
  | case2 acc pos _ _ _ _ _ ih => have := ih h; omega
  | case3 => simp at h; subst h; exact Nat.le_refl _
  | case4 => simp at h; subst h; exact Nat.le_refl _

theorem precPart_le (fmt : Str) (oct : Bool) (pos : Nat) (r : Int × Nat)
    (h : precPart fmt oct pos = .ok r) : pos ≤ r.2 := by
  unfold precPart at h
  split at h
  · have := digitsLoop_le _ _ _ _ _ h; omega
  · simp at h; subst h; exact Nat.le_refl _

theorem lenPart_le (fmt : Str) (pos : Nat) : pos ≤ (lenPart fmt pos).2 := by
  unfold lenPart
  repeat' split
  all_goals simp

theorem parse_le (fmt : Str) (pos : Nat) (r : Option Specifier × Nat) (h : parse fmt pos = .ok r) : pos ≤ r.2 := by
  unfold parse at h
  cases hc : charAt fmt pos with
  | ok c =>
    rw [hc] at h
    simp only [Outcome.bind_ok] at h
    split at h
    · have h1 := flagsLoop_le fmt {} (pos + 1)
      cases hd : digitsLoop fmt (flagsLoop fmt {} (pos + 1)).1.oct 0 (flagsLoop fmt {} (pos + 1)).2 with
      | ok w =>
        rw [hd] at h
        have h2 := digitsLoop_le _ _ _ _ _ hd
        simp only [Outcome.bind_ok] at h
        cases hp : precPart fmt (flagsLoop fmt {} (pos + 1)).1.oct w.2 with
        | ok p =>
          rw [hp] at h
          have h3 := precPart_le _ _ _ _ hp
          have h4 := lenPart_le fmt p.2
          simp only [Outcome.bind_ok] at h
          cases hc2 : charAt fmt (lenPart fmt p.2).2 with
          | ok c2 =>
            rw [hc2] at h
            simp only [Outcome.bind_ok] at h
            split at h <;> (simp at h; subst h; simp only; omega)
          | abort => rw [hc2] at h; simp at h
          | ub => rw [hc2] at h; simp at h
          | hang => rw [hc2] at h; simp at h
        | abort => rw [hp] at h; simp at h
        | ub => rw [hp] at h; simp at h
        | hang => rw [hp] at h; simp at h
      | abort => rw [hd] at h; simp at h
      | ub => rw [hd] at h; simp at h
      | hang => rw [hd] at h; simp at h
    · simp at h; subst h; exact Nat.le_refl _
  | abort => rw [hc] at h; simp at h
  | ub => rw [hc] at h; simp at h
  | hang => rw [hc] at h; simp at h

/-- printf_format.c:114-122: the loop of `metac_count_format_specifiers`; the position is
advanced once more after a specifier. -/
def countLoop (fmt : Str) (pos : Nat) (n : Nat) : Outcome Nat :=
  if pos < fmt.length then
    if fmt[pos]? = some 37 then
      match h : parse fmt pos with
      | .ok (some _, pos') => countLoop fmt (pos' + 1) (n + 1)
      | .ok (none, pos') => countLoop fmt (pos' + 1) n
      | .abort => .abort
      | .ub => .ub
      | .hang => .hang
    else countLoop fmt (pos + 1) n
  else .ok n
termination_by fmt.length - pos
decreasing_by
  · have := parse_le _ _ _ h; simp at this; omega
  · have := parse_le _ _ _ h; simp at this; omega
  · omega

/-- printf_format.c:109-124 `metac_count_format_specifiers`. -/
def count (fmt : Str) : Outcome Nat := countLoop fmt 0 0

/-! ### Collecting the arguments -/

/-- Types of stored parameters. -/
inductive Ty where
  | charp | voidp | shortp | intp | longp | llongp
  | char | short | int | long | llong
  | uchar | ushort | uint | ulong | ullong
  | double | ldouble
  | chars (n : Nat)     -- array of n characters (metac_new_element_count_entry)
deriving DecidableEq, Repr

/-- An argument of the variadic call, after the default argument promotions. -/
inductive Arg where
  | int (v : Int) | uint (v : Nat)
  | long (v : Int) | ulong (v : Nat)
  | llong (v : Int) | ullong (v : Nat)
  | double (bits : Nat) | ldouble (bits : Nat)
  | ptr (addr : Nat)
  | str (s : Option Str)
deriving DecidableEq, Repr

/-- A stored parameter: type, size of its buffer, and what was written into the buffer
(`none`: still zeros).  For the integer types `data` is the promoted argument; the
conversion to the narrower type on the store is not modelled. -/
structure Param where
  ty : Ty
  size : Nat
  data : Option Arg
deriving DecidableEq, Repr

def sizeOf : Ty → Nat
  | .charp | .voidp | .shortp | .intp | .longp | .llongp => 8
  | .char | .uchar => 1
  | .short | .ushort => 2
  | .int | .uint => 4
  | .long | .llong | .ulong | .ullong | .double => 8
  | .ldouble => 16
  | .chars n => n

/-- The type given to `va_arg`. -/
def fetches : Ty → Arg → Bool
  | .char, .int _ | .short, .int _ | .int, .int _ => true
  | .uchar, .uint _ | .ushort, .uint _ | .uint, .uint _ => true
  | .long, .long _ | .llong, .llong _ | .ulong, .ulong _ | .ullong, .ullong _ => true
  | .double, .double _ | .ldouble, .ldouble _ => true
  | .voidp, .ptr _ | .charp, .ptr _ | .shortp, .ptr _ | .intp, .ptr _ | .longp, .ptr _ | .llongp, .ptr _ => true
  | _, _ => false

/-- Result of a step: code and storage. -/
abbrev Res := Outcome (Int × List Param × List Arg)

/-- append a buffer, take parameter `id` (EFAULT if there is none) and write `n` bytes
into its buffer; writing past its end is undefined.
Simplification: allocations succeed. -/
def put (st : List Param) (id : Nat) (ty : Ty) (size : Nat) (n : Nat) (a : Arg) (rest : List Arg) : Res :=
  let st := st ++ [⟨ty, size, none⟩]
  match st[id]? with
  | none => .ok (-14, st, rest)
  | some p => if n ≤ p.size then .ok (0, st.set id { p with data := some a }, rest) else .ub

/-- printf_format.c:224-238, 259-272: the `_process` macros: `va_arg` of the wrong type or
without an argument is undefined; it is reached after the parameter was found. -/
def process (st : List Param) (id : Nat) (ty : Ty) (args : List Arg) : Res :=
  if st.length < id then .ok (-14, st ++ [⟨ty, sizeOf ty, none⟩], args) else
  match args with
  | [] => .ub
  | a :: rest => if fetches ty a then put st id ty (sizeOf ty) (sizeOf ty) a rest else .ub

/-- printf_format.c:185-222: case 's'.  The buffer has the size of a pointer; the string
with its NUL is copied into it. -/
def processStr (st : List Param) (id : Nat) (args : List Arg) : Res :=
  match args with
  | .str none :: rest => put st id .charp 8 8 (.str none) rest
  | .str (some s) :: rest => put st id (.chars (s.length + 1)) 8 (s.length + 1) (.str (some s)) rest
  | _ => .ub

/-- printf_format.c:184-335: the switch over the conversion letter. -/
def store (st : List Param) (id : Nat) (sp : Specifier) (args : List Arg) : Res :=
  let fail : Res := .ok (-14, st, args)
  if sp.t = 115 then processStr st id args
  else if sp.t = 112 then process st id .voidp args
  else if sp.t = 110 then
    match sp.argLen with
    | .hh => process st id .charp args
    | .h => process st id .shortp args
    | .no => process st id .intp args
    | .l => process st id .longp args
    | .ll => process st id .llongp args
    | .L => fail
  else if sp.t = 99 ∨ sp.t = 105 ∨ sp.t = 100 then
    if sp.t = 99 ∨ sp.argLen = .hh then process st id .char args
    else match sp.argLen with
      | .h => process st id .short args
      | .no => process st id .int args
      | .l => process st id .long args
      | .ll => process st id .llong args
      | _ => fail
  else if sp.t = 111 ∨ sp.t = 117 ∨ sp.t = 120 ∨ sp.t = 88 then
    match sp.argLen with
    | .hh => process st id .uchar args
    | .h => process st id .ushort args
    | .no => process st id .uint args
    | .l => process st id .ulong args
    | .ll => process st id .ullong args
    | .L => fail
  else if sp.t = 102 ∨ sp.t = 103 ∨ sp.t = 101 then
    match sp.argLen with
    | .no => process st id .double args
    | .L => process st id .ldouble args
    | _ => fail
  else fail

/-- printf_format.c:180-340: the loop of `_new_value_from_format_specifier`; `param_id` is
advanced at every '%', whether a specifier follows or not. -/
def collectLoop (fmt : Str) (pos : Nat) (id : Nat) (st : List Param) (args : List Arg) : Outcome (Int × List Param) :=
  if pos < fmt.length then
    if fmt[pos]? = some 37 then
      match h : parse fmt pos with
      | .ok (some sp, pos') =>
        match store st id sp args with
        | .ok (r, st', args') => if r ≠ 0 then .ok (r, st') else collectLoop fmt (pos' + 1) (id + 1) st' args'
        | .abort => .abort
        | .ub => .ub
        | .hang => .hang
      | .ok (none, pos') => collectLoop fmt (pos' + 1) (id + 1) st args
      | .abort => .abort
      | .ub => .ub
      | .hang => .hang
    else collectLoop fmt (pos + 1) id st args
  else .ok (0, st)
termination_by fmt.length - pos
decreasing_by
  · have := parse_le _ _ _ h; simp at this; omega
  · have := parse_le _ _ _ h; simp at this; omega
  · omega

/-- printf_format.c:169-343 `_new_value_from_format_specifier` on storage `st` (the count
computed first is not used). -/
def collect (fmt : Str) (st : List Param) (args : List Arg) : Outcome (Int × List Param) := do
  let _ ← count fmt
  collectLoop fmt 0 0 st args

end Verif.Printf
