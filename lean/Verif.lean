import Verif.Hashmap.Props
import Verif.Iterator.Props
import Verif.EntryDb.Props
import Verif.ParamStorage.Props
import Verif.Printf.Props
import Verif.Entry.Props
import Verif.Value.PropsBase
import Verif.Value.PropsMore
import Verif.BsdList.Props
import Verif.Str.Props
import Verif.TagString.Props
import Verif.TagMap.Props
import Verif.Handlers.Props
import Verif.GoOverride.Props
import Verif.GoMeta.Props
import Verif.PrintString.Props
import Verif.CDecl.Props
import Verif.CDecl.PropsVaList
import Verif.ValueString.Props
import Verif.ValueString.PropsBits
import Verif.WrapCall.Props
import Verif.Deep.Props
import Verif.Deep.PropsEqual
import Verif.DeepCopy.Props
import Verif.DeepCopy.PropsFails
import Verif.DeepCopy.PropsEqual
import Verif.DeepCopy.PropsTree
import Verif.GoDedup.Props
import Verif.GoDedup.PropsSame
import Verif.GoDedup.PropsLinks
import Verif.GoDwarf.Props
import Verif.GoBuild.Model
import Verif.GoBuild.Spec
import Verif.GoBuild.Lemmas
import Verif.GoBuild.Names
import Verif.GoBuild.Visit
import Verif.GoBuild.Objects
import Verif.GoBuild.Props
import Verif.Generate.Model
import Verif.Generate.Spec
import Verif.Generate.Lemmas
import Verif.Generate.Requests
import Verif.Generate.Places
import Verif.Generate.Symbols
import Verif.Generate.Answers
import Verif.Generate.Props
import Verif.Handles.Model
import Verif.Handles.Spec
import Verif.Handles.Props
import Verif.Handles.Values
import Verif.PrintfCall.Model
import Verif.PrintfCall.Spec
import Verif.PrintfCall.Lemmas
import Verif.PrintfCall.Props
import Verif.PrintfCall.Call
import Verif.Emit.Tok
import Verif.Emit.Model
import Verif.Emit.Spec
import Verif.Emit.Lemmas
import Verif.Emit.Templates
import Verif.Emit.File
import Verif.Emit.Dead
import Verif.Emit.Props
import Verif.Emit.Run
import Verif.Emit.RunSpec
import Verif.Emit.RunLemmas
import Verif.Emit.Memory
import Verif.Emit.RunProps
import Verif.Chain.Model
import Verif.Chain.Spec
import Verif.Chain.Lemmas
import Verif.Chain.RunLemmas
import Verif.Chain.Props
import Verif.Chain.Reads
import Verif.Chain.Compile
import Verif.Chain.CompileProps
import Verif.Chain.Dims
import Verif.Chain.Opaque
import Verif.Chain.Parents
import Verif.Chain.ParentsProps
import Verif.Chain.Same
import Verif.Chain.SameProps
import Verif.GoSerial.Model
import Verif.GoSerial.Spec
import Verif.GoSerial.Lemmas
import Verif.GoSerial.Props
import Verif.GoModule.Model
import Verif.GoModule.Spec
import Verif.GoModule.Props
import Verif.DeepEnds.Basic
import Verif.DeepEnds.Spec
import Verif.DeepEnds.Walk
import Verif.DeepEnds.Ops
import Verif.DeepEnds.Props
import Verif.Ffi.Model
import Verif.Ffi.Spec
import Verif.Ffi.Lemmas
import Verif.Ffi.Calls
import Verif.Ffi.Props
import Verif.Links.Model
import Verif.Links.Spec
import Verif.Links.Lemmas
import Verif.Links.Requests
import Verif.Links.Symbols
import Verif.Links.Tests
import Verif.Links.Places
import Verif.Links.Case
import Verif.Links.Props
import Verif.Lifecycle.Props
import Verif.Lifecycle.PropsReads
import Verif.Lifecycle.PropsPrint
import Verif.Replay.Spec
import Verif.Replay.Lemmas
import Verif.Replay.Props
import Verif.Replay.Witness
import Verif.Trace.Model
import Verif.Trace.Spec
import Verif.Trace.Lemmas
import Verif.Trace.Props
import Verif.Trace.TextSpec
import Verif.Trace.Text
import Verif.Trace.Witness
import Verif.Alt.Model
import Verif.Alt.Spec
import Verif.Alt.Lemmas
import Verif.Alt.Props
import Verif.Alt.Witness
import Verif.Alt.PropsFail
import Verif.Alt.WitnessFail
import Verif.PrintfText.Spec
import Verif.PrintfText.Lemmas
import Verif.PrintfText.Args
import Verif.PrintfText.Props
import Verif.PrintfText.Witness
import Verif.Queries.Model
import Verif.Queries.Spec
import Verif.Queries.Props
import Verif.Queries.Signed
import Verif.Tell.Spec
import Verif.Tell.Lemmas
import Verif.Tell.Main
import Verif.Tell.Tells
import Verif.Tell.Same
import Verif.Tell.Props
import Verif.SameText.Spec
import Verif.SameText.Lemmas
import Verif.SameText.Main
import Verif.SameText.Props
import Verif.Macro.Model
import Verif.Macro.Spec
import Verif.Macro.Props
import Verif.DemoDb.Props
import Verif.DemoDb.PropsHistory
import Verif.Inherit.Spec
import Verif.Inherit.Props
import Verif.TagGen.Props
import Verif.TagGen.ModelTypes
import Verif.TagGen.PropsTypes
import Verif.GoFuncs.Props
