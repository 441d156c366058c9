import Verif.Emit.Model
import Verif.Entry.Model
/-
From the compiled file to the type descriptions that /repo/src/entry.c works on
(Verif/Entry/Model.lean): which description a record in memory is.
-/
namespace Verif.Emit
open Verif.GoMeta (Str)
open Verif.Entry (Ref Db Info MemberInfo)

/-- backend/entry.h:54-63, 89-92, 137-184: a member or a parameter in memory, by its `kind`.
Entries are at the addresses `addr`. -/
def leafInfo (addr : Str → Ref) (l : Leaf) : Option Info :=
  match l.kind, l.info with
  | 15, .member type byteSize _ byteOffset dataBitOffset bitOffset bitSize =>
    some (.member
      { type := type.map addr, byteOffset := UInt64.ofInt byteOffset
        byteSize := byteSize.map UInt64.ofInt, dataBitOffset := dataBitOffset.map UInt64.ofInt
        bitOffset := bitOffset.map UInt64.ofInt, bitSize := bitSize.map UInt64.ofInt })
  | 20, .param unspecified type => some (.param (unspecified ≠ 0) (type.map addr))
  | _, _ => none

/-- The elements of an array with a given count; a count that is not the number of the elements
gives no description. -/
def counted {α : Type} (count : Int) (l : Option (List α)) : Option (List α) :=
  if count = (l.getD []).length then some (l.getD []) else none

/-- backend/entry.h:64-135: the members or the parameters of an entry. -/
def leaves (e : CEntry) : Option (List Leaf) :=
  match e.kind with
  | 4 | 21 => counted e.info.parametersCount e.info.parameters
  | 16 | 17 | 18 => counted e.info.membersCount e.info.members
  | _ => some []

/-- backend/entry.h:137-184, const.h:16-45: an entry in memory, by its `kind`; `refs` are the
addresses of its members or parameters. -/
def entryInfo (addr : Str → Ref) (refs : List Ref) (e : CEntry) : Option Info :=
  let type := e.info.type.map addr
  let size := UInt64.ofInt e.info.byteSize
  match e.kind with
  | 0 => some (.typedef type)
  | 1 => some (.base size e.info.encoding.toNat)
  | 2 => some (.pointer type)
  | 3 =>
    (counted e.info.enumeratorsCount e.info.enumerators).bind fun es =>
      (es.mapM fun (x : Option Str × Int) => x.1.map fun n => (n, x.2)).map fun es =>
        .enumeration size e.info.encoding.toNat es
  | 4 => some (.subroutine type refs)
  | 5 => some (.array type e.info.count)
  | 6 => some (.qual .const type)
  | 7 => some (.qual .volatile type)
  | 8 => some (.qual .restrict type)
  | 9 => some (.qual .mutable type)
  | 10 => some (.qual .shared type)
  | 11 => some (.qual .packed type)
  | 12 => some (.reference false size type)
  | 13 => some (.reference true size type)
  | 14 => some .unspecifiedType
  | 16 => some (.struct .struct size refs)
  | 17 => some (.struct .union size refs)
  | 18 => some (.struct .class size refs)
  | 19 => some (.var type)
  | 21 => some (.subprogram type refs)
  | 22 => some .lexBlock
  | 23 => some .nspace
  | 24 => some .compileUnit
  | _ => none

/-- backend/entry.h:145-146: the parents of the record at `r`. -/
def ParentsAt (addr : Str → Ref) (rt : Db) (count : Int) (l : Option (List Str)) (r : Ref) : Prop :=
  (rt r).parentsCount = count ∧ (rt r).parents = (l.getD []).map addr

/-- The member or parameter `l` is at the address `r`. -/
def LeafAt (addr : Str → Ref) (rt : Db) (l : Leaf) (r : Ref) : Prop :=
  (rt r).name = l.name ∧ (rt r).declaration = false ∧ leafInfo addr l = some (rt r).info ∧
  ParentsAt addr rt l.parentsCount l.parents r

/-- The entry `e` is at the address `r`. -/
def EntryAt (addr : Str → Ref) (rt : Db) (e : CEntry) (r : Ref) : Prop :=
  (rt r).name = e.name ∧ (rt r).declaration = (e.declaration ≠ 0) ∧
  ∃ ls refs, leaves e = some ls ∧ refs.length = ls.length ∧
    (∀ (k : Nat) l m, ls[k]? = some l → refs[k]? = some m → LeafAt addr rt l m) ∧
    entryInfo addr refs e = some (rt r).info

/-- A program that was compiled with the file: the entries of the file are in its memory, each at
its address. -/
def Loaded (defs : List (Str × CEntry)) (addr : Str → Ref) (rt : Db) : Prop :=
  ∀ x ∈ defs, EntryAt addr rt x.2 (addr x.1) ∧ ParentsAt addr rt x.2.parentsCount x.2.parents (addr x.1)

/-! ### One way to place them -/

/-- The entries one after the other. -/
def place (defs : List (Str × CEntry)) (i : Str) : Ref := (defs.map (·.1)).idxOf i

/-- A record with the wrong contents. -/
def blank : Entry.Entry := { info := .lexBlock }

/-- The entry `e`, its leaves beginning at `start`. -/
def entryOf (addr : Str → Ref) (start : Ref) (e : CEntry) : Entry.Entry :=
  { info := (entryInfo addr (((leaves e).getD []).mapIdx fun k _ => start + k) e).getD .lexBlock
    name := e.name, declaration := e.declaration ≠ 0
    parentsCount := e.parentsCount, parents := (e.parents.getD []).map addr }

/-- A leaf. -/
def leafOf (addr : Str → Ref) (l : Leaf) : Entry.Entry :=
  { info := (leafInfo addr l).getD .lexBlock, name := l.name
    parentsCount := l.parentsCount, parents := (l.parents.getD []).map addr }

/-- The records of the entries of `rest`, leaves beginning at `start`. -/
def entriesOf (addr : Str → Ref) (start : Ref) : List (Str × CEntry) → List Entry.Entry
  | [] => []
  | x :: rest => entryOf addr start x.2 :: entriesOf addr (start + ((leaves x.2).getD []).length) rest

/-- The memory: first the entries, then their members and parameters. -/
def image (defs : List (Str × CEntry)) : List Entry.Entry :=
  entriesOf (place defs) defs.length defs ++
    defs.flatMap fun x => ((leaves x.2).getD []).map (leafOf (place defs))

/-- The memory as a set of descriptions. -/
def memory (defs : List (Str × CEntry)) : Db := fun r => (image defs)[r]?.getD blank

end Verif.Emit
