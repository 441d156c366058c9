import Verif.Mem
import Verif.Entry.Model
/-
Model of the bit-field helpers of /repo/src/value.c (little-endian branch; the other branch
is marked untested in the source and not modelled).

The C arithmetic is modelled on numbers: `int` is 32 bits, `unsigned long` and
`unsigned long long` are 64 bits.  The order of the tests `sizeof(unsigned long)`,
`sizeof(unsigned long long)` does not matter since both are 8.
-/
namespace Verif.Bitfield
open Verif

/-- What the language standard leaves open.  `iso`: shifting a negative number left, or
shifting a set bit out of `int`, is undefined, as in ISO C; otherwise it has GCC's documented
two's complement meaning.  `junk`: the uninitialised rest of `uint8_t buf[16]`. -/
structure Cfg where
  iso : Bool
  junk : Nat

/-- value.c:143-152 the macro `_read_` of `_entry_bitfield_read` for an unsigned type of `w` bytes; `buf` is the
content of `buf` as a number.  `(1 << bit_size) - 1` is computed in `int`: undefined from 31
bits on (31: `INT_MIN - 1`; 32: shift count). -/
def readT (cfg : Cfg) (w buf off size : Nat) (sign : Bool) : Outcome Nat :=
  if size ≥ 31 then .ub
  else
    let data := buf % 2 ^ (8 * w)
    let data := (data >>> off) &&& (2 ^ size - 1)
    if sign && (data &&& (2 ^ (size - 1)) != 0) then
      if cfg.iso then .ub else .ok (((2 ^ 64 - 2 ^ size) ^^^ data) % 2 ^ (8 * w))
    else .ok data

/-- value.c:199-203 the macro `_write_` of `_entry_bitfield_write` for an unsigned type of `w` bytes: the new value of
the first `w` bytes of `buf`.  `mask << bit_offset` is computed in `int` (32 bits, sign-extended
when combined with a wider type). -/
def writeT (cfg : Cfg) (w buf var off size : Nat) : Outcome Nat :=
  if size ≥ 31 then .ub
  else if cfg.iso ∧ (2 ^ size - 1) <<< off ≥ 2 ^ 31 then .ub
  else
    let data := ((var &&& (2 ^ size - 1)) <<< off) % 2 ^ (8 * w)
    let mask32 := ((2 ^ size - 1) <<< off) % 2 ^ 32
    let mask := if mask32 ≥ 2 ^ 31 then mask32 + (2 ^ 64 - 2 ^ 32) else mask32
    let keep := (2 ^ 64 - 1 - mask) % 2 ^ (8 * w)
    .ok (((buf % 2 ^ (8 * w)) &&& keep) ||| data)

/-- sizes for which there is an access. -/
def accessSize (w : Nat) : Bool := w = 1 ∨ w = 2 ∨ w = 4 ∨ w = 8

/-- value.c:119-141, 173-197: the prologue of both helpers: where the field is, and the
bytes copied to `buf`.  The outputs of `metac_entry_member_bitfield_offsets` may be left
unwritten (undefined); more than 16 bytes overflow `buf`.  `off + size` does not wrap here,
where in C it may for sizes near 2^64; both are undefined. -/
def locate (db : Entry.Db) (m : Mem) (p : Entry.Ref) (base : Nat) : Outcome (Except Int (Nat × Nat × Nat × List UInt8)) :=
  if base = 0 then .ok (.error (-22))
  else if Entry.kind db (some p) ≠ 15 then .ok (.error (-22))
  else
    match Entry.bitfieldOffsets db (some p) with
    | (0, none) => .ub
    | (0, some (byte, off, size)) =>
      if size = 0 then .abort
      else
        let n := (off.toNat + size.toNat - 1) / 8 + 1
        if n > 16 then .ub
        else do
          let bs ← m.load (base + byte.toNat) n
          return .ok (base + byte.toNat, off.toNat, size.toNat, bs)
    | _ => .ok (.error (-22))

/-- value.c:118-170 `_entry_bitfield_read`: the value stored in `*p_var` (as an unsigned
number of `w` bytes), or an error code. -/
def read (cfg : Cfg) (db : Entry.Db) (m : Mem) (p : Entry.Ref) (base w : Nat) (sign : Bool) : Outcome (Except Int Nat) := do
  match ← locate db m p base with
  | .error e => return .error e
  | .ok (_, off, size, bs) =>
    let buf := Mem.le bs + 256 ^ bs.length * cfg.junk
    if accessSize w then
      let v ← readT cfg w buf off size sign
      return .ok v
    else return .error (-22)

/-- value.c:172-226 `_entry_bitfield_write` of the `w`-byte value `var`: return code and memory. -/
def write (cfg : Cfg) (db : Entry.Db) (m : Mem) (p : Entry.Ref) (base var w : Nat) : Outcome (Int × Mem) := do
  match ← locate db m p base with
  | .error e => return (e, m)
  | .ok (addr, off, size, bs) =>
    let buf := Mem.le bs + 256 ^ bs.length * cfg.junk
    if accessSize w then
      let t ← writeT cfg w buf var off size
      let buf := t + 2 ^ (8 * w) * (buf / 2 ^ (8 * w))
      let m ← m.store addr (Mem.bytesOf bs.length buf)
      return (0, m)
    else return (-22, m)

end Verif.Bitfield
