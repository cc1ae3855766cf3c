import Verif.Base.All2
import Verif.Base.Float
import Verif.Base.FloatInst
import Verif.Base.LinkedMap
import Verif.Base.Num
import Verif.Base.NumSpec
import Verif.Base.Out
import Verif.Base.Steps
import Verif.Base.Str
import Verif.Base.StrLemmas
import Verif.Conformance.Aes
import Verif.Conformance.Blocks
import Verif.Conformance.Cipher
import Verif.Conformance.Lists
import Verif.Conformance.Logic
import Verif.Conformance.Names
import Verif.Conformance.View
import Verif.Float.Accuracy
import Verif.Float.Correct
import Verif.Float.Decimals
import Verif.Float.Equality
import Verif.Float.Error
import Verif.Float.Ieee
import Verif.Float.Instance
import Verif.Float.Layout
import Verif.Float.Midpoint
import Verif.Float.Read
import Verif.Float.Shortest
import Verif.Float.Show
import Verif.Float.Single
import Verif.Float.Text
import Verif.Float.Ties
import Verif.Json.Decode
import Verif.Json.Grammar
import Verif.Json.RoundTrip
import Verif.Json.Text
import Verif.Model.Aes
import Verif.Model.ApiBlock
import Verif.Model.ApiBuilder
import Verif.Model.ApiEvent
import Verif.Model.ApiProject
import Verif.Model.ApiScreen
import Verif.Model.ApiSpec
import Verif.Model.ApiView
import Verif.Model.Chain
import Verif.Model.Color
import Verif.Model.Counters
import Verif.Model.Crypto
import Verif.Model.Date
import Verif.Model.DebugText
import Verif.Model.Depth
import Verif.Model.Equality
import Verif.Model.Examples
import Verif.Model.File
import Verif.Model.Library
import Verif.Model.LibraryJson
import Verif.Model.Logic
import Verif.Model.Messages
import Verif.Model.Project
import Verif.Model.Raw
import Verif.Model.Readme
import Verif.Model.Resource
import Verif.Model.Sketch
import Verif.Model.Utf8
import Verif.Model.View
import Verif.Model.ViewCount
import Verif.Proofs.Aes
import Verif.Proofs.AesSpec
import Verif.Proofs.AesSpec2
import Verif.Proofs.AndroidView
import Verif.Proofs.ApiProject
import Verif.Proofs.ApiRound
import Verif.Proofs.ApiSave
import Verif.Proofs.ApiScreen
import Verif.Proofs.ApiSpec
import Verif.Proofs.ApiView
import Verif.Proofs.BlockBack
import Verif.Proofs.BlockEmit
import Verif.Proofs.BlockFail
import Verif.Proofs.BlockParse
import Verif.Proofs.BlockRound
import Verif.Proofs.Color
import Verif.Proofs.Counters
import Verif.Proofs.Crypto
import Verif.Proofs.Cut
import Verif.Proofs.Damage
import Verif.Proofs.Date
import Verif.Proofs.DepthIn
import Verif.Proofs.DepthOut
import Verif.Proofs.DepthSearch
import Verif.Proofs.DepthView
import Verif.Proofs.Distinct
import Verif.Proofs.DistinctLogic
import Verif.Proofs.Edits
import Verif.Proofs.EncryptFile
import Verif.Proofs.Equality
import Verif.Proofs.EqualityIeee
import Verif.Proofs.EqualityOpen
import Verif.Proofs.Examples
import Verif.Proofs.FileFormat
import Verif.Proofs.FileLike
import Verif.Proofs.Format
import Verif.Proofs.Library
import Verif.Proofs.LineEnds
import Verif.Proofs.Lines
import Verif.Proofs.LogicCases
import Verif.Proofs.LogicExact
import Verif.Proofs.LogicHeader
import Verif.Proofs.LogicPool
import Verif.Proofs.LogicRoundTrip
import Verif.Proofs.LogicRun
import Verif.Proofs.LogicSections
import Verif.Proofs.LogicText
import Verif.Proofs.LogicTrace
import Verif.Proofs.PoolRoundTrip
import Verif.Proofs.PoolSpec
import Verif.Proofs.PoolText
import Verif.Proofs.Project
import Verif.Proofs.Reader
import Verif.Proofs.Records
import Verif.Proofs.Reopen
import Verif.Proofs.Resave
import Verif.Proofs.Resettle
import Verif.Proofs.ResettleSteps
import Verif.Proofs.ResourceFiles
import Verif.Proofs.Settle
import Verif.Proofs.Sizes
import Verif.Proofs.Utf8
import Verif.Proofs.View
import Verif.Proofs.ViewFlat
import Verif.Proofs.ViewPlace
import Verif.Proofs.ViewRoundTrip
import Verif.Props.ActivityNames
import Verif.Props.ApiProject
import Verif.Props.ApiRound
import Verif.Props.ApiSave
import Verif.Props.ApiScreen
import Verif.Props.ApiSpec
import Verif.Props.ApiView
import Verif.Props.ArgCode
import Verif.Props.ArgText
import Verif.Props.BlankEnds
import Verif.Props.BlockEdit
import Verif.Props.BlockErrors
import Verif.Props.BlockMake
import Verif.Props.Blocks
import Verif.Props.BlocksOut
import Verif.Props.BlocksRound
import Verif.Props.Builder
import Verif.Props.Chain
import Verif.Props.ChainExact
import Verif.Props.Cipher
import Verif.Props.CodeAppend
import Verif.Props.CodeEdit
import Verif.Props.CodeText
import Verif.Props.Color
import Verif.Props.ColorNumbers
import Verif.Props.Counters
import Verif.Props.Crypto
import Verif.Props.CustomView
import Verif.Props.CutOff
import Verif.Props.Damage
import Verif.Props.DateRead
import Verif.Props.DebugText
import Verif.Props.DeepCode
import Verif.Props.Depth
import Verif.Props.Distinct
import Verif.Props.DistinctApi
import Verif.Props.EditMore
import Verif.Props.EditRounds
import Verif.Props.EditRuns
import Verif.Props.EditSaved
import Verif.Props.EditScreens
import Verif.Props.EditText
import Verif.Props.Edits
import Verif.Props.Empty
import Verif.Props.EntryOrder
import Verif.Props.Equality
import Verif.Props.EqualityFloat
import Verif.Props.EventRuns
import Verif.Props.Events
import Verif.Props.Examples
import Verif.Props.ExamplesDemo
import Verif.Props.ExamplesParse
import Verif.Props.ExamplesSaved
import Verif.Props.FabToggle
import Verif.Props.FileFormat
import Verif.Props.Files
import Verif.Props.FloatText
import Verif.Props.Floats
import Verif.Props.Format
import Verif.Props.Found
import Verif.Props.Fresh
import Verif.Props.Gravity
import Verif.Props.JoinCode
import Verif.Props.Joined
import Verif.Props.LayoutText
import Verif.Props.LibraryJson
import Verif.Props.LineEnds
import Verif.Props.ListSections
import Verif.Props.ListingFile
import Verif.Props.Logic
import Verif.Props.LogicErrors
import Verif.Props.LogicRead
import Verif.Props.Messages
import Verif.Props.MessagesWritten
import Verif.Props.MoreApi
import Verif.Props.MoreBlockRuns
import Verif.Props.MoreView
import Verif.Props.MoveView
import Verif.Props.OneLess
import Verif.Props.OneLine
import Verif.Props.OneMore
import Verif.Props.OneScreen
import Verif.Props.Panics
import Verif.Props.Policies
import Verif.Props.PoliciesApi
import Verif.Props.PoolText
import Verif.Props.Project
import Verif.Props.ProjectConv
import Verif.Props.ProjectEdit
import Verif.Props.ProjectRead
import Verif.Props.PutCode
import Verif.Props.Raw
import Verif.Props.Readers
import Verif.Props.Readme
import Verif.Props.Records
import Verif.Props.RecordsRead
import Verif.Props.Rename
import Verif.Props.Renumber
import Verif.Props.Reopen
import Verif.Props.Resave
import Verif.Props.ResaveFloat
import Verif.Props.ResourceOrder
import Verif.Props.ResourceRuns
import Verif.Props.Resources
import Verif.Props.RowCode
import Verif.Props.ScreenNames
import Verif.Props.ScreenRead
import Verif.Props.ScreenRuns
import Verif.Props.SectionOrder
import Verif.Props.SettingText
import Verif.Props.Settle
import Verif.Props.SettleAll
import Verif.Props.Sizes
import Verif.Props.SpecApply
import Verif.Props.SpecErrors
import Verif.Props.Templates
import Verif.Props.Text
import Verif.Props.TwoProjects
import Verif.Props.View
import Verif.Props.ViewAdd
import Verif.Props.ViewCount
import Verif.Props.ViewOrder
import Verif.Props.ViewText
import Verif.Props.ViewTypes
import Verif.Props.Written
