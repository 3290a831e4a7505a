import Verif.Model.Wrappers
import Verif.Tests.Grammar
import Verif.Tests.Derive
import Verif.Spec.Cst
import Verif.Theory.Comb
import Verif.Theory.Progress
import Verif.Theory.Lex
import Verif.Theory.Space
import Verif.Theory.Strings
import Verif.Theory.Tokens
import Verif.Theory.QuietComb
import Verif.Theory.Quiet
import Verif.Theory.Entries
import Verif.Theory.Nodes
import Verif.Theory.Calm
import Verif.Theory.Position
import Verif.Theory.PositionLex
import Verif.Theory.PositionTok
import Verif.Theory.NoPanic
import Verif.Theory.NoPanicEntry
import Verif.Theory.NoPanicNode
import Verif.Spec.Doc
import Verif.Theory.Meaning
import Verif.Theory.Sim
import Verif.Theory.SimGrammar
import Verif.Theory.SimInst
import Verif.Spec.Lines
import Verif.Theory.Nested
import Verif.Theory.Lines
import Verif.Props.Total
import Verif.Props.Spans
import Verif.Spec.Written
import Verif.Theory.Written
import Verif.Props.Meaning
import Verif.Spec.Layout
import Verif.Theory.Layout
import Verif.Props.Layout
import Verif.Spec.Open
import Verif.Theory.Open
import Verif.Theory.Reject
import Verif.Props.Reject
import Verif.Spec.Spelling
import Verif.Props.Literals
import Verif.Spec.Print
import Verif.Theory.Print
import Verif.Props.Print
import Verif.Model.Decode
import Verif.Model.Context
import Verif.Model.Convert
import Verif.Model.Containers
import Verif.Model.ConvertAst
import Verif.Model.Derive
import Verif.Model.ParseDecode
import Verif.Spec.Decode
import Verif.Spec.Number
import Verif.Spec.Context
import Verif.Theory.Decode
import Verif.Theory.Number
import Verif.Theory.Float
import Verif.Props.Scalars
import Verif.Props.Decode
import Verif.Spec.Derive
import Verif.Theory.DeriveKeeps
import Verif.Theory.DeriveArgs
import Verif.Theory.DeriveProps
import Verif.Theory.DeriveChildren
import Verif.Theory.DeriveNode
import Verif.Theory.DerivePart
import Verif.Theory.DeriveDemo
import Verif.Props.Derive
import Verif.Props.DeriveErrors
import Verif.Props.DeriveEnum
import Verif.Props.DeriveUnwrap
import Verif.Props.DeriveNew
import Verif.Theory.Order
import Verif.Model.Display
import Verif.Props.Display
import Verif.Model.Maps
import Verif.Props.Maps
import Verif.Spec.Flatten
import Verif.Theory.Flatten
import Verif.Theory.FlattenChildren
import Verif.Props.Flatten
import Verif.Spec.Diag
import Verif.Theory.Truth
import Verif.Theory.TruthDoc
import Verif.Theory.LineErrors
import Verif.Props.Diag
import Verif.Spec.Base64
import Verif.Theory.Base64
import Verif.Props.Modes
import Verif.Model.Attrs
import Verif.Spec.Attrs
import Verif.Theory.Attrs
import Verif.Props.Attrs
import Verif.Props.AttrsEnum
import Verif.Model.Cbor
import Verif.Spec.Cbor
import Verif.Theory.Cbor
import Verif.Theory.CborFormat
import Verif.Spec.CborLater
import Verif.Theory.CborLater
import Verif.Theory.CborDecode
import Verif.Theory.CborParsed
import Verif.Props.Cbor
import Verif.Spec.Complaints
import Verif.Theory.Tells
import Verif.Theory.TellsPart
import Verif.Props.Complaints
import Verif.Spec.Labels
import Verif.Props.Labels
import Verif.Spec.Declare
import Verif.Props.DeriveTraits
import Verif.Props.Pointers
import Verif.Spec.Quoting
import Verif.Props.Quoting
import Verif.Model.Views
import Verif.Spec.Words
import Verif.Props.Words
import Verif.Theory.Strict
import Verif.Theory.Append
import Verif.Theory.Extend
import Verif.Props.Concat
import Verif.Spec.Natural
import Verif.Theory.Natural
import Verif.Theory.NaturalDerive
import Verif.Theory.NaturalImpls
import Verif.Props.Natural
import Verif.Spec.Slices
import Verif.Theory.Slices
import Verif.Props.Slices
import Verif.Props.Regions
import Verif.Theory.Edit
import Verif.Props.Edit
import Verif.Model.Steps
import Verif.Theory.Steps
import Verif.Theory.StepsLex
import Verif.Theory.StepsEntry
import Verif.Theory.StepsDoc
import Verif.Theory.StepsLower
import Verif.Theory.StepsLook
import Verif.Props.Steps
import Verif.Theory.After
import Verif.Props.After
import Verif.Theory.Left
import Verif.Theory.LeftLeaf
import Verif.Theory.LeftBraces
import Verif.Props.Left
import Verif.Spec.Schema
import Verif.Spec.SchemaValues
import Verif.Theory.Settles
import Verif.Theory.Schema
import Verif.Theory.SchemaValues
import Verif.Props.Schema
import Verif.Props.SchemaValues
import Verif.Theory.Blame
import Verif.Theory.BlameLex
import Verif.Theory.BlameTok
import Verif.Theory.BlameEntry
import Verif.Theory.BlameDoc
import Verif.Theory.Place
import Verif.Spec.Blame
import Verif.Props.Blame
import Verif.Spec.Saying
import Verif.Props.Saying
import Verif.Spec.Later
import Verif.Theory.Later
import Verif.Props.Later
import Verif.Spec.Shuffle
import Verif.Theory.Shuffle
import Verif.Props.Shuffle
import Verif.Spec.Ordered
import Verif.Theory.Ordered
import Verif.Theory.OrderedLex
import Verif.Theory.OrderedEntry
import Verif.Theory.OrderedNode
import Verif.Theory.OrderedDoc
import Verif.Props.Ordered
import Verif.Spec.Faults
import Verif.Theory.FaultComb
import Verif.Theory.FaultLex
import Verif.Theory.FaultEntries
import Verif.Theory.FaultDoc
import Verif.Props.Faults
import Verif.Spec.SchemaFlatten
import Verif.Props.SchemaFlatten
import Verif.Spec.Tame
import Verif.Theory.Tame
import Verif.Theory.TameDerive
import Verif.Theory.TameSchema
import Verif.Props.Tame
import Verif.Spec.Recursive
import Verif.Theory.Recursive
import Verif.Props.Recursive
import Verif.Spec.Depth
import Verif.Theory.Depth
import Verif.Props.Depth
import Verif.Spec.Alike
import Verif.Theory.Alike
import Verif.Props.Alike
import Verif.Theory.Unique
import Verif.Theory.UniqueTok
import Verif.Theory.UniqueDoc
import Verif.Props.Unique
import Verif.Spec.Size
import Verif.Theory.Size
import Verif.Props.Size
import Verif.Props.Once
import Verif.Model.NoBase64
import Verif.Props.NoBase64
