import Verif.GoDedup.Model
/-
Model of /repo/pkg/dwarfy/dwarf.go: the tree of entries made from the stream of debug information
entries (the forms in which it is written and read: GoSerial).

Go's debug/dwarf is not modelled: what it reads is the input (`Item`).
-/
namespace Verif.GoDwarf
open GoMeta (Str dec)
open GoDedup (Go)

/-- dwarf.go:19-21: `Offset`, 32 bits. -/
abbrev Off := Nat

/-! ### Reading debug information -/

/-- An entry as read: offset, name of the tag, whether children follow, the sibling attribute, and
what `NewEntry` makes of the attributes (dwarf.go:232-263; `none`: the line table cannot be read). -/
structure Raw (α : Type) where
  off : Off
  tag : Str
  children : Bool
  sibling : Option Off
  body : Option α

/-- What `reader.Next` gives: an entry, an entry with tag 0 (the end of a list of children), or an
error. -/
inductive Item (α : Type) where
  | entry (e : Raw α)
  | null
  | error

/-- dwarf.go:222-230 `Entry`; `body`: fields and files. -/
structure Entry (α : Type) where
  parent : Option Off := none
  tag : Str := []
  body : Option α := none
  children : List Off := []

/-- `data.Entries` and `parentsStack` (the last element of the slice is the first here; an entry of
the stack is an offset and a sibling, 0 if there is none). -/
structure Tree (α : Type) where
  entries : Off → Option (Entry α)
  stack : List (Off × Off)

/-- dwarf.go:426-435. -/
def Tree.init (α : Type) : Tree α := ⟨fun x => if x = 0 then some {} else none, [(0, 0)]⟩

/-- dwarf.go:466-476: the stack is cut below the innermost entry whose sibling this is. -/
def unwind (off : Off) (stack : List (Off × Off)) : List (Off × Off) :=
  match stack.dropWhile fun f => !(f.2 ≠ 0 ∧ f.2 = off) with
  | [] => stack
  | _ :: rest => rest

/-- dwarf.go:449-507: one turn of the loop. -/
def readItem {α : Type} (t : Tree α) : Item α → Go (Tree α)
  | .error => Go.fail
  | .null => Go.ret (if t.stack.length > 1 then { t with stack := t.stack.tail } else t)
  | .entry e =>
    let stack := if e.tag = go! "CompileUnit" then [(0, 0)] else unwind e.off t.stack
    match e.body with
    | none => Go.fail
    | some b =>
      let put (entries : Off → Option (Entry α)) : Tree α :=
        ⟨entries, if e.children then (e.off, e.sibling.getD 0) :: stack else stack⟩
      let new : Entry α := { tag := e.tag, body := some b, parent := stack.head?.map Prod.fst }
      let entries := fun x => if x = e.off then some new else t.entries x
      match stack with
      | [] => Go.ret (put entries)
      | (p, _) :: _ =>
        match entries p with
        | none => Go.panic
        | some pe => Go.ret (put fun x => if x = p then some { pe with children := pe.children ++ [e.off] } else entries x)

/-- dwarf.go:437-509: the loop. -/
def readAll {α : Type} : Tree α → List (Item α) → Go (Tree α)
  | t, [] => Go.ret t
  | t, i :: is => do readAll (← readItem t i) is

/-- dwarf.go:425-510 `NewData`. -/
def newData {α : Type} (items : List (Item α)) : Go (Off → Option (Entry α)) := do
  return (← readAll (Tree.init α) items).entries

end Verif.GoDwarf
