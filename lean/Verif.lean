import Verif.Props.Varint
import Verif.Props.Object
import Verif.Props.Codec
import Verif.Props.Delta
import Verif.Props.Protocol
import Verif.Props.Pack
import Verif.Props.PackDelta
import Verif.Props.PackRobust
import Verif.Props.PackLoose
import Verif.Props.Idx
import Verif.Props.ObjMap
import Verif.Props.PackMulti
import Verif.Props.LfsLock
import Verif.Props.Report
import Verif.Props.LfsStore
import Verif.Props.Storage
import Verif.Props.Head
import Verif.Props.Nodes
import Verif.Props.Durable
import Verif.Props.BelowExamples
import Verif.Props.Clone
import Verif.Props.CloneExamples
import Verif.Props.Router
import Verif.Props.Order
import Verif.Props.TempFile
import Verif.Props.Server
import Verif.Props.ServerGet
import Verif.Props.ServerExamples
import Verif.Props.Links
import Verif.Props.Thin
import Verif.Props.Concurrent
import Verif.Props.ConcurrentExamples
import Verif.Props.Ssh
import Verif.Props.SshExamples
import Verif.Props.RefsKept
import Verif.Props.Confined
import Verif.Props.ConfinedExamples
import Verif.Props.Nesting
import Verif.Props.NestingExamples
import Verif.Props.FetchExact
import Verif.Props.Answered
import Verif.Props.AnsweredExamples
import Verif.Props.Unserved
import Verif.Props.SshLater
import Verif.Props.ObjectDir
import Verif.Props.RefsShown
import Verif.Props.Headers
import Verif.Props.Stable
import Verif.Props.Asked
import Verif.Props.HostKey
import Verif.Props.LfsConcurrent
import Verif.Props.Acks
import Verif.Props.AcksExamples
import Verif.Props.RefsOverlap
import Verif.Props.RefOnce
import Verif.Props.IncOverlap
import Verif.Props.FetchOverlap
import Verif.Props.FetchOverlapExamples
import Verif.Props.Negations
import Verif.Props.Checkout
import Verif.Props.CheckoutExamples
import Verif.Props.SubClone
import Verif.Props.SubCloneExamples
import Verif.Props.Publish
import Verif.Props.PublishExamples
import Verif.Model.LooseRead
import Verif.Props.LooseRead
import Verif.Props.CommonBase
import Verif.Props.LfsAlive
import Verif.Props.Both
import Verif.Props.BothExamples
import Verif.Props.Several
import Verif.Props.BothConfined
import Verif.Props.InstancesLfs
import Verif.Props.InstancesServer
import Verif.Props.InstancesCore
import Verif.Props.InstancesMore
import Verif.Props.Schema
import Verif.Props.SchemaExamples
import Verif.Props.SchemaLfs
import Verif.Props.SchemaLfsExamples
import Verif.Props.NoMaster
import Verif.Props.Directories
import Verif.Props.DirectoriesExamples
import Verif.Props.LfsShared
import Verif.Props.Branching
import Verif.Props.Rounds
import Verif.Props.Compressed
import Verif.Props.JsonRead
import Verif.Props.JsonReply
import Verif.Props.LockText
import Verif.Props.PublishBothExamples
import Verif.Props.ErrorForm
import Verif.Props.PackSound
import Verif.Model.Workers
import Verif.Props.Workers
import Verif.Props.Together
import Verif.Spec.GitObjects
import Verif.Lemmas.GitObjects
import Verif.Props.AnyText
import Verif.Props.Signed
import Verif.Model.Startup
import Verif.Props.Startup
import Verif.Props.CutOff
import Verif.Props.Stops
import Verif.Props.Tags
import Verif.Props.TagsExamples
import Verif.Props.Options
import Verif.Props.OverlapConfined
import Verif.Props.Growth
import Verif.Props.GrowthExamples
import Verif.Model.Query
import Verif.Spec.Query
import Verif.Props.Query
import Verif.Props.Encoded
import Verif.Props.TakenBack
import Verif.Props.FetchBoth
import Verif.Props.FetchBothExamples
import Verif.Props.RefsBoth
import Verif.Props.RefsBothExamples
import Verif.Props.Again
import Verif.Props.AgainExamples
import Verif.Props.Refined
import Verif.Props.RefinedExamples
import Verif.Props.Copied
import Verif.Props.CopiedExamples
import Verif.Props.CutPack
import Verif.Props.CutPackExamples
import Verif.Props.Stays
import Verif.Props.StaysExamples
import Verif.Model.Restart
import Verif.Props.Restart
import Verif.Props.RestartExamples
import Verif.Props.AskedBoth
import Verif.Props.StaysBelow
import Verif.Props.JsonExact
import Verif.Props.QueryLossy
import Verif.Props.RefOnceBoth
import Verif.Props.RefOnceBothExamples
import Verif.Props.ThinBoth
import Verif.Props.AcksBoth
import Verif.Props.NestingBoth
import Verif.Props.NestingBothExamples
import Verif.Props.AnsweredBoth
import Verif.Props.AnsweredBothExamples
import Verif.Props.SubCloneBoth
import Verif.Props.SubCloneBothExamples
import Verif.Props.SignedBoth
import Verif.Props.TagsBoth
import Verif.Props.TagsBothExamples
import Verif.Props.OptionsBoth
import Verif.Props.ServerBoth
import Verif.Props.ServerBothExamples
import Verif.Model.WorkersBoth
import Verif.Props.WorkersBoth
import Verif.Props.WorkersBothExamples
import Verif.Props.OneAddress
import Verif.Props.OneAddressExamples
import Verif.Props.StopsBoth
import Verif.Props.LocksServed
import Verif.Props.ObjectsServed
import Verif.Model.Clock
import Verif.Props.LockTimes
import Verif.Props.JsonServed
import Verif.Props.PagesServed
import Verif.Props.BatchServed
import Verif.Props.LockRoom
import Verif.Props.DiskServed
import Verif.Props.DeleteBoth
import Verif.Props.PackSoundBoth
import Verif.Props.HiddenBoth
import Verif.Props.LockLedger
import Verif.Props.CommonStays
import Verif.Props.ObjectLedger
import Verif.Props.PackFormat
import Verif.Props.PackFormatOverlap
import Verif.Props.NoTrace
import Verif.Props.LfsBoth
import Verif.Props.Atomic
import Verif.Props.InstancesLast
import Verif.Props.PublishTables
import Verif.Props.Quoted
import Verif.Props.Limits
import Verif.Props.RefinedTables
import Verif.Props.CopiedTables
import Verif.Props.AgainTables
import Verif.Props.StopTables
import Verif.Props.UpdateFails
import Verif.Props.NodesFail
import Verif.Model.LocksFail
import Verif.Props.LocksFail
import Verif.Model.ObjectsFail
import Verif.Props.ObjectsFail
import Verif.Model.LocksLost
import Verif.Props.LocksLost
import Verif.Model.ObjectsLost
import Verif.Props.ObjectsLost
