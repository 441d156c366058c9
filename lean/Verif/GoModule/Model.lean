import Verif.GoDedup.Model
import Verif.GoOverride.Model
/-
Model of /repo/pkg/module/module.go, /repo/pkg/module/gotemplate/gotemplate.go and of the command
/repo/cmd/run/run.go: finding a module, loading its templates, running it.

The disk and the template engine (text/template, yaml.v3) are parameters: `Disk` says what a path
holds, seen from a working directory; `Engine.exec` is the execution of a set of templates.  Slashes
separate paths (`filepath.FromSlash` and `ToSlash` change nothing).  Messages to the log are left
out.
-/
namespace Verif.GoModule
open GoMeta (Str)
open GoDedup (Go)
open GoOverride (Table mergeAll)

abbrev Path := Str

/-- The body of a template: its text, and whether it is empty but for white space and comments. -/
structure Body where
  text : Str
  empty : Bool
deriving DecidableEq

/-- A parsed text: the templates it defines, the text itself under the name it is parsed as. -/
abbrev Parsed := List (Str × Body)

/-- gotemplate.go:19-26 `GoTemplateModuleSpec`, 28-35 (`template`: `none`: there is none;
`some none`: it cannot be parsed). -/
structure MSpec where
  includes : List Str
  settings : Option Table
  template : Option (Option Parsed)

/-- What is found on disk.  `header`: module.go:16-31, 98-108 (`none`: the file cannot be read or
decoded, else the kind).  `spec`: gotemplate.go:187-204.  `templates`: the files below the directory
`templates` of a path in the order of `filepath.Walk` (`none`: there is no such directory), each parsed
(`none`: it cannot be read or parsed; gotemplate.go:70-93).  `enter`: the directory one is in after
changing to a path (`none`: it cannot be entered). -/
structure Disk where
  header : Path → Option Str
  spec : Path → Option MSpec
  templates : Path → Option (List (Option Parsed))
  enter : Path → Option Path

/-- module.go:72-77 `Runner`; kinds are numbers (the addresses of their factories). -/
structure Runner where
  kinds : Str → Option Nat
  paths : List Path

/-! ### module.go -/

/-- module.go:85-96 `nameIsLegal`: whether the name is refused. -/
def refused (name : Str) : Bool :=
  name.contains 47 || name.contains 92 || name == go! ".." || name == go! "."

/-- `path + "/" + name`. -/
def sub (path name : Str) : Path := path ++ [47] ++ name

/-- module.go:121-138: the module of a name in one search path, its path and kind. -/
def found (disk : Disk) (r : Runner) (name : Str) (p : Path) : Option (Path × Str) :=
  match disk.header (sub (sub p name) (go! "module.yaml")) with
  | none => none
  | some kind =>
    match r.kinds kind with
    | none => none
    | some _ => some (sub p name, kind)

/-- module.go:110-140: `InfoByName`. -/
def infoByName (disk : Disk) (r : Runner) (name : Str) : Go (List (Path × Str)) :=
  if refused name then Go.fail else Go.ret (r.paths.filterMap (found disk r name))

/-- An instance: the kind it was made by, where it is, the file that describes it. -/
structure Inst where
  kind : Nat
  path : Path
  file : Str
deriving DecidableEq

/-- module.go:142-148 `newInstanceByFullInfo`; `make`: `Kind.NewInstance`, which may fail. -/
def newByInfo (make : Nat → Path → Str → Option Inst) (r : Runner) (kind : Str) (path : Path) (file : Str) : Option Inst :=
  match r.kinds kind with
  | none => none
  | some k => make k path file

/-- gotemplate.go:52-60 `NewInstance`: never fails. -/
def makeTemplate (k : Nat) (path : Path) (file : Str) : Option Inst := some ⟨k, path, file⟩

/-- module.go:184-191: the first that can be made. -/
def firstMade (make : Nat → Path → Str → Option Inst) (r : Runner) (file : Str) : List (Path × Str) → Option Inst
  | [] => none
  | (path, kind) :: rest =>
    match newByInfo make r kind path file with
    | some i => some i
    | none => firstMade make r file rest

/-- module.go:151-194 `NewInstance`; `dirOf`, `baseOf`: `filepath.Dir` and `filepath.Base`. -/
def newInstance (disk : Disk) (make : Nat → Path → Str → Option Inst) (dirOf baseOf : Path → Path) (r : Runner) (name file : Str) : Go Inst :=
  if name = [] then
    match disk.header file with
    | none => Go.fail
    | some kind =>
      match newByInfo make r kind (dirOf file) (baseOf file) with
      | some i => Go.ret i
      | none => Go.fail
  else if refused name then Go.fail
  else do
    let infos ← infoByName disk r name
    match firstMade make r (if file = [] then go! "module.yaml" else file) infos with
    | some i => Go.ret i
    | none => Go.fail

/-! ### gotemplate.go -/

/-- A set of templates. -/
abbrev Set := Str → Option Body

/-- text/template `AddParseTree`: an empty body does not replace a template. -/
def addTree (s : Set) (d : Str × Body) : Set :=
  if d.2.empty ∧ (s d.1).isSome then s else fun n => if n = d.1 then some d.2 else s n

/-- text/template `Parse`. -/
def parse (s : Set) (p : Parsed) : Set := p.foldl addTree s

/-- gotemplate.go:83-92: the files one by one, up to the first that fails (what was parsed before
stays). -/
def loadFiles : Set → List (Option Parsed) → Set × Bool
  | s, [] => (s, true)
  | s, none :: _ => (s, false)
  | s, some p :: fs => loadFiles (parse s p) fs

/-- gotemplate.go:70-93 `handleIncludes` of the instance at `own`: the set, and whether there was no
error. -/
def handleIncludes (disk : Disk) (own : Path) (s : Set) (path : Path) : Set × Bool :=
  match disk.templates path with
  | none => (s, path = own)
  | some fs => loadFiles s fs

/-- gotemplate.go:149-160: the loop over the modules of an included name: the set and the number of
errors. -/
def tryInfos (disk : Disk) (r : Runner) (i : Inst) : Set → List (Path × Str) → Nat → Set × Nat
  | s, [], errs => (s, errs)
  | s, (path, kind) :: rest, errs =>
    if r.kinds kind ≠ some i.kind then tryInfos disk r i s rest errs
    else
      match handleIncludes disk i.path s path with
      | (s, true) => (s, errs)
      | (s, false) => tryInfos disk r i s rest (errs + 1)

/-- gotemplate.go:143-165: the loop over the included names. -/
def includeAll (disk : Disk) (r : Runner) (i : Inst) : Set → List Str → Go Set
  | s, [] => Go.ret s
  | s, name :: names => do
    let infos ← infoByName disk r name
    let (s, errs) := tryInfos disk r i s infos 0
    if errs = infos.length then Go.fail else includeAll disk r i s names

/-- The template engine: the execution of the main template of a set on the settings, in a working
directory (`none`: an error). -/
structure Engine where
  exec : Set → Table → Path → Option Str

/-- What a process has: where it is, and the instance's `moduleSpec`. -/
structure Proc where
  cwd : Path
  loaded : Option MSpec

/-- gotemplate.go:187-204 `LoadSpec`. -/
def loadSpec (world : Path → Disk) (i : Inst) (p : Proc) : Option (MSpec × Proc) :=
  match p.loaded with
  | some m => some (m, p)
  | none =>
    match (world p.cwd).spec (sub i.path i.file) with
    | none => none
    | some m => some (m, { p with loaded := some m })

/-- gotemplate.go:101-103, 125-165: what is executed: the templates and the settings. -/
def prepare (disk : Disk) (r : Runner) (i : Inst) (m : MSpec) (allow : Bool) (ovs : List (Option (Option Table))) : Go (Set × Table) := do
  match m.template, m.settings with
  | none, _ => Go.fail
  | _, none => Go.fail
  | some src, some settings =>
    let settings ← (mergeAll settings ovs : Go Table)
    match src with
    | none => Go.fail
    | some main =>
      let s := parse (fun _ => none) main
      if m.includes ≠ [] ∧ !allow then Go.fail
      else
        match handleIncludes disk i.path s i.path with
        | (_, false) => Go.fail
        | (s, true) => do
          let s ← includeAll disk r i s m.includes
          return (s, settings)

/-- gotemplate.go:167-174, 182: `os.Chdir`; its error is not looked at. -/
def chdir (disk : Disk) (cwd to : Path) : Path := (disk.enter to).getD cwd

/-- gotemplate.go:95-185 `Run`: what is returned, and the process after it.  `world`: the disk as
seen from a working directory (paths may be relative); `allow`: `EnableIncludeModules`; `ovs`: the
decoded overrides. -/
def run (world : Path → Disk) (engine : Engine) (r : Runner) (i : Inst) (allow : Bool) (workDir : Path)
    (ovs : List (Option (Option Table))) (p : Proc) : Go Str × Proc :=
  match loadSpec world i p with
  | none => (Go.fail, p)
  | some (m, p) =>
    match prepare (world p.cwd) r i m allow ovs with
    | Outcome.ok (some (s, settings)) =>
      let prior := if workDir = [] then [] else p.cwd
      let inside := if workDir = [] then p.cwd else chdir (world p.cwd) p.cwd workDir
      match engine.exec s settings inside with
      | none => (Go.fail, { p with cwd := inside })
      | some out => (Go.ret out, { p with cwd := chdir (world inside) inside prior })
    | Outcome.ok none => (Go.fail, p)
    | Outcome.abort => (Outcome.abort, p)
    | Outcome.ub => (Outcome.ub, p)
    | Outcome.hang => (Outcome.hang, p)

/-- run.go:14-46: the command; `paths`: the option `-M`. -/
def command (world : Path → Disk) (engine : Engine) (dirOf baseOf : Path → Path) (paths : List Path) (name file workDir : Str)
    (ovs : List (Option (Option Table))) (cwd : Path) : Go Str :=
  let r : Runner :=
    ⟨fun k => if k = go! "goTemplate" then some 0 else none, if paths = [] then [go! "./modules"] else paths⟩
  do
    let i ← newInstance (world cwd) makeTemplate dirOf baseOf r name file
    (run world engine r i true workDir ovs ⟨cwd, none⟩).1

end Verif.GoModule
