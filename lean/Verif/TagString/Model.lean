import Verif.Common
/-
Model of the tag string lookup of /repo/src/entry_tag.c.  A C string is the list of its
characters before the terminating zero.
-/
namespace Verif.TagString
open Verif

/-- src/entry_tag.c:276-281: the local variables; the two positions start as `(size_t)-1`. -/
structure St where
  state : Int
  keyBegin : Nat
  keyLen : Nat
  valBegin : Nat

def St.init : St := ⟨0, 2 ^ 64 - 1, 0, 2 ^ 64 - 1⟩

/-- src/entry_tag.c:283-346: the loop over the tag string `s` from position `i` on, where
`rest` are the characters from there; `none` if nothing is found, otherwise position and length
given to `_strndup`. -/
def loop (s key : List UInt8) : List UInt8 → Nat → St → Option (Nat × Nat)
  | [], _, _ => none
  | c :: rest, i, st =>
    if st.state = -1 then
      if c ≠ 32 then loop s key rest (i + 1) st else loop s key rest (i + 1) { st with state := 0 }
    else if st.state = 0 then
      if c = 32 then loop s key rest (i + 1) st
      else loop s key rest (i + 1) { st with state := 1, keyBegin := i }
    else if st.state = 1 then
      if c = 32 then loop s key rest (i + 1) { st with state := 0 }
      else if c = 58 then loop s key rest (i + 1) { st with state := 2, keyLen := i - st.keyBegin }
      else loop s key rest (i + 1) st
    else if st.state = 2 then
      if c ≠ 34 then loop s key rest (i + 1) { st with state := -1 }
      else loop s key rest (i + 1) { st with state := 3, valBegin := i }
    else if st.state = 3 then
      if c = 92 then loop s key rest (i + 1) { st with state := 4 }
      else if c = 34 then
        let len := i - st.valBegin
        if key.length = st.keyLen ∧ (s.drop st.keyBegin).take st.keyLen = key then some (st.valBegin + 1, len - 1)
        else loop s key rest (i + 1) { st with state := 0 }
      else loop s key rest (i + 1) st
    else loop s key rest (i + 1) { st with state := 3 }

/-- src/entry_tag.c:276-349 `metac_entry_tag_string_lookup`: `none` is a NULL argument or
result; `ok` says whether the allocation of the result succeeds. -/
def lookup (tag key : Option (List UInt8)) (ok : Bool) : Option (List UInt8) :=
  match tag, key with
  | some s, some key =>
    match loop s key s 0 .init with
    | none => none
    | some (begin, len) => if ok then some ((s.drop begin).take len) else none
  | _, _ => none

end Verif.TagString
