/-
Model of the functions of templates: /repo/pkg/module/gotemplate/funcs/funcs.go:117-131
`AppendTemplateFuncMap` and /repo/pkg/module/gotemplate/gotemplate.go:108-123.

A Go map is an association list with one pair for each key; the order in which `range` goes over
a map is the order of a list given to the function.  Functions are opaque (`F`).
-/
namespace Verif.GoFuncs

/-- text/template `FuncMap`. -/
abbrev FuncMap (F : Type) := List (String × F)

/-- Go: `m[k] = v`. -/
def set {F : Type} (m : FuncMap F) (k : String) (v : F) : FuncMap F :=
  match m with
  | [] => [(k, v)]
  | (k', v') :: m => if k' = k then (k, v) :: m else (k', v') :: set m k v

/-- Go: `_, ok := m[k]`. -/
def has {F : Type} (m : FuncMap F) (k : String) : Bool := m.any fun p => p.1 == k

/-- funcs.go:121-130: the loop over `genericMap`; a function that is nil is `none`.  Result: the
map and the names for which "already has …, skipping" was logged. -/
def appendLoop {F : Type} : List (String × Option F) → FuncMap F → List String → FuncMap F × List String
  | [], m, log => (m, log)
  | (_, none) :: gs, m, log => appendLoop gs m log
  | (k, some f) :: gs, m, log =>
    let log := if has m k then log ++ [k] else log
    appendLoop gs (set m k f) log

/-- funcs.go:117-131 `AppendTemplateFuncMap`; `none` is the nil pointer. -/
def appendFuncs {F : Type} (generic : List (String × Option F)) : Option (FuncMap F) → Option (FuncMap F) × List String
  | none => (none, [])
  | some m =>
    let (m, log) := appendLoop generic m []
    (some m, log)

/-- gotemplate.go:110-112: the loop that copies the map of the factory. -/
def copyLoop {F : Type} : List (String × F) → FuncMap F → FuncMap F
  | [], m => m
  | (k, v) :: rest, m => copyLoop rest (set m k v)

/-- gotemplate.go:108-123: the functions a template is parsed with; `order` is the map of the
factory as the loop goes over it, `inc` the function that is made for `include`. -/
def instanceFuncs {F : Type} (order : List (String × F)) (enableInclude : Bool) (inc : F) : FuncMap F :=
  let m := copyLoop order []
  if enableInclude then set m "include" inc else m

end Verif.GoFuncs
