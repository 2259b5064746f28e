import Verif.Examples.Lookup
import Verif.Examples.Shapes
import Verif.Examples.Text
import Verif.Examples.World
import Verif.Findings.Flatten
import Verif.Findings.Names
import Verif.Findings.RoundTrip
import Verif.Findings.Skip
import Verif.Lemmas.Accept
import Verif.Lemmas.AcceptMain
import Verif.Lemmas.Agree
import Verif.Lemmas.Alias
import Verif.Lemmas.AliasTwin
import Verif.Lemmas.Cache
import Verif.Lemmas.CfgDe
import Verif.Lemmas.CfgSe
import Verif.Lemmas.CfgSim
import Verif.Lemmas.ClassVars
import Verif.Lemmas.Coerce
import Verif.Lemmas.Collect
import Verif.Lemmas.CollectTypes
import Verif.Lemmas.Conform
import Verif.Lemmas.Construct
import Verif.Lemmas.CtorErr
import Verif.Lemmas.DeErr
import Verif.Lemmas.DeMono
import Verif.Lemmas.DeTotal
import Verif.Lemmas.Decorate
import Verif.Lemmas.Default
import Verif.Lemmas.Deserializers
import Verif.Lemmas.Evolve
import Verif.Lemmas.FieldRun
import Verif.Lemmas.FieldSe
import Verif.Lemmas.Fieldwise
import Verif.Lemmas.FlatDict
import Verif.Lemmas.Follow
import Verif.Lemmas.Form
import Verif.Lemmas.FormMain
import Verif.Lemmas.Frame
import Verif.Lemmas.FromDict
import Verif.Lemmas.FuncName
import Verif.Lemmas.Generic
import Verif.Lemmas.Globals
import Verif.Lemmas.Goes
import Verif.Lemmas.Init
import Verif.Lemmas.Legacy
import Verif.Lemmas.LegacyDe
import Verif.Lemmas.MapTwin
import Verif.Lemmas.Memo
import Verif.Lemmas.Named
import Verif.Lemmas.Names
import Verif.Lemmas.Null
import Verif.Lemmas.Numbers
import Verif.Lemmas.Numpy
import Verif.Lemmas.Order
import Verif.Lemmas.Presence
import Verif.Lemmas.Program
import Verif.Lemmas.RTBase
import Verif.Lemmas.RTCls
import Verif.Lemmas.RTCont
import Verif.Lemmas.RTField
import Verif.Lemmas.RTFlat
import Verif.Lemmas.RTMain
import Verif.Lemmas.RTMember
import Verif.Lemmas.RTScalar
import Verif.Lemmas.RTTop
import Verif.Lemmas.RTUnion
import Verif.Lemmas.RTUntagged
import Verif.Lemmas.RTWrap
import Verif.Lemmas.ReadTo
import Verif.Lemmas.Res
import Verif.Lemmas.Reuse
import Verif.Lemmas.ReuseDe
import Verif.Lemmas.Rewritten
import Verif.Lemmas.Safe
import Verif.Lemmas.ScopeFree
import Verif.Lemmas.Scopes
import Verif.Lemmas.SeGen
import Verif.Lemmas.SeMono
import Verif.Lemmas.SeTotal
import Verif.Lemmas.SeTwin
import Verif.Lemmas.Serializers
import Verif.Lemmas.Shape
import Verif.Lemmas.Throw
import Verif.Lemmas.Truth
import Verif.Lemmas.Twin
import Verif.Lemmas.TypeAlias
import Verif.Lemmas.Typed
import Verif.Lemmas.UnionDe
import Verif.Lemmas.UnionSe
import Verif.Lemmas.WriteTo
import Verif.Model.Able
import Verif.Model.Cache
import Verif.Model.ClassVars
import Verif.Model.Collect
import Verif.Model.Compat
import Verif.Model.Core
import Verif.Model.De
import Verif.Model.Decorate
import Verif.Model.Formats
import Verif.Model.Globals
import Verif.Model.Heap
import Verif.Model.HeapRead
import Verif.Model.Init
import Verif.Model.Legacy
import Verif.Model.Lookup
import Verif.Model.Numpy
import Verif.Model.Params
import Verif.Model.Presence
import Verif.Model.Scopes
import Verif.Model.Se
import Verif.Model.Separate
import Verif.Model.Types
import Verif.Props.C01
import Verif.Props.C01Json
import Verif.Props.C01Program
import Verif.Props.C01Untagged
import Verif.Props.C05
import Verif.Props.C05Exact
import Verif.Props.C07
import Verif.Props.C08
import Verif.Props.C10
import Verif.Props.C12
import Verif.Props.C14
import Verif.Props.C15
import Verif.Props.C18
import Verif.Props.C19
import Verif.Props.C20
import Verif.Props.C22
import Verif.Props.C22Read
import Verif.Props.C23
import Verif.Props.C26
import Verif.Props.C26Classes
import Verif.Props.C28
import Verif.Props.C30
import Verif.Props.C31
import Verif.Props.C32
import Verif.Props.C33
import Verif.Props.C34
import Verif.Props.C36
import Verif.Props.C37
import Verif.Props.C37Union
import Verif.Props.C39
import Verif.Props.C39Transparent
import Verif.Props.C39Union
import Verif.Props.C40
import Verif.Props.C40Union
import Verif.Props.C41
import Verif.Props.C42
import Verif.Props.C43
import Verif.Props.C44
import Verif.Props.C44Names
import Verif.Props.C45
import Verif.Props.C46
import Verif.Props.C47
import Verif.Props.C48
import Verif.Props.C49
import Verif.Props.C50
import Verif.Props.C51
import Verif.Props.C52
import Verif.Props.C53
import Verif.Props.C54
import Verif.Props.C55
import Verif.Props.C56
import Verif.Props.C57
import Verif.Props.C57Tuple
import Verif.Props.C58
import Verif.Props.C59
import Verif.Props.C60
import Verif.Props.C61
import Verif.Props.C61Flatten
import Verif.Props.C62
import Verif.Props.C63
import Verif.Props.C64
import Verif.Props.C65
import Verif.Props.C66
import Verif.Props.C67
import Verif.Props.C67Bases
import Verif.Props.C68
import Verif.Props.C68Bases
import Verif.Props.C69
import Verif.Props.C70
import Verif.Props.C71
import Verif.Props.C71Decorated
import Verif.Props.C72
import Verif.Props.C72Program
import Verif.Props.C75
import Verif.Props.C76
import Verif.Props.C77
import Verif.Props.C78
import Verif.Props.C79
import Verif.Props.C80
import Verif.Props.C81
import Verif.Props.C82
import Verif.Props.C82Read
import Verif.Props.C84
import Verif.Props.C85
import Verif.Props.C86
import Verif.Props.C87
import Verif.Props.C88
import Verif.Props.C89
import Verif.Py.Value
import Verif.Spec.Absent
import Verif.Spec.Accept
import Verif.Spec.Coerce
import Verif.Spec.Collect
import Verif.Spec.Conform
import Verif.Spec.Decorate
import Verif.Spec.Emit
import Verif.Spec.Errors
import Verif.Spec.Evolve
import Verif.Spec.Field
import Verif.Spec.Flatten
import Verif.Spec.Form
import Verif.Spec.Formats
import Verif.Spec.Frame
import Verif.Spec.FuncName
import Verif.Spec.Generic
import Verif.Spec.Globals
import Verif.Spec.History
import Verif.Spec.Ident
import Verif.Spec.Init
import Verif.Spec.Instance
import Verif.Spec.Legacy
import Verif.Spec.Lookup
import Verif.Spec.Names
import Verif.Spec.Nested
import Verif.Spec.Null
import Verif.Spec.Numpy
import Verif.Spec.Order
import Verif.Spec.Params
import Verif.Spec.Presence
import Verif.Spec.Program
import Verif.Spec.Read
import Verif.Spec.Reasons
import Verif.Spec.Reuse
import Verif.Spec.RoundTrip
import Verif.Spec.Row
import Verif.Spec.Safe
import Verif.Spec.Scopes
import Verif.Spec.Serializers
import Verif.Spec.Shape
import Verif.Spec.Throw
import Verif.Spec.Total
import Verif.Spec.Transparent
import Verif.Spec.Truth
import Verif.Spec.Twin
import Verif.Spec.TypeAlias
import Verif.Spec.Typed
import Verif.Spec.Unions
import Verif.Spec.Vars
import Verif.Spec.Write
