import Verif.Base.Str
import Verif.Base.GoMap
import Verif.Model.Tree
import Verif.Lemmas.TreeFind
import Verif.Spec.Routing
import Verif.Lemmas.TreeAdd
import Verif.Lemmas.Routing
import Verif.Lemmas.RoutingSpec
import Verif.Lemmas.Arbitration
import Verif.Lemmas.NodeInv
import Verif.Lemmas.SplitPath
import Verif.Props.Routing
import Verif.Model.RegTree
import Verif.Props.RegTree
import Verif.Model.Heap
import Verif.Lemmas.Heap
import Verif.Lemmas.Sealed
import Verif.Lemmas.HeapWF
import Verif.Props.Heap
import Verif.Spec.Builders
import Verif.Lemmas.ValueSem
import Verif.Props.Builders
import Verif.Model.Pipeline
import Verif.Spec.Pipeline
import Verif.Lemmas.Pipeline
import Verif.Lemmas.Chain
import Verif.Lemmas.ChainRuns
import Verif.Lemmas.QuietProg
import Verif.Lemmas.Request
import Verif.Lemmas.Request2
import Verif.Lemmas.Quiet
import Verif.Props.Chain
import Verif.Props.Request
import Verif.Base.Base64
import Verif.Base.U8
import Verif.Model.Auth
import Verif.Spec.Auth
import Verif.Lemmas.Base64
import Verif.Lemmas.Auth
import Verif.Props.Auth
import Verif.Base.FastPath
import Verif.Model.Ctx
import Verif.Spec.Ctx
import Verif.Lemmas.Ctx
import Verif.Lemmas.CtxHeap
import Verif.Props.Ctx
import Verif.Model.ServerRun
import Verif.Props.ServerRun
import Verif.Model.Locks
import Verif.Props.Locks
import Verif.Model.Logger
import Verif.Spec.Logger
import Verif.Props.Logger
import Verif.Props.Text
import Verif.Props.Sniff
import Verif.Props.Range
import Verif.Model.Cond
import Verif.Spec.Cond
import Verif.Props.Cond
import Verif.Model.Content
import Verif.Spec.Content
import Verif.Props.Content
import Verif.Base.Path
import Verif.Model.Static
import Verif.Spec.Static
import Verif.Lemmas.Path
import Verif.Lemmas.Static
import Verif.Props.Static
import Verif.Lemmas.NodePath
import Verif.Lemmas.Again
import Verif.Model.SetLocks
import Verif.Props.SetLocks
import Verif.Model.EndToEnd
import Verif.Spec.EndToEnd
import Verif.Props.EndToEnd
import Verif.Props.StaticServe
import Verif.Base.Rx
import Verif.Lemmas.RxDot
import Verif.Model.StaticReg
import Verif.Props.StaticReg
import Verif.Model.Races
import Verif.Spec.Races
import Verif.Lemmas.Races
import Verif.Props.Races
import Verif.Model.Cookie
import Verif.Spec.Cookie
import Verif.Props.Cookie
import Verif.Model.Group
import Verif.Props.Group
import Verif.Model.UniqId
import Verif.Props.UniqId
import Verif.Props.RoutingExact
import Verif.Model.Json
import Verif.Spec.Json
import Verif.Props.Json
import Verif.Spec.Answer
import Verif.Props.Answer
import Verif.Model.StdLog
import Verif.Spec.StdLog
import Verif.Props.StdLog
import Verif.Spec.SetLocks
import Verif.Model.ReqLog
import Verif.Spec.ReqLog
import Verif.Props.ReqLog
import Verif.Model.StaticMain
import Verif.Props.StaticMain
import Verif.Model.Pool
import Verif.Props.Pool
import Verif.Model.Life
import Verif.Props.Life
import Verif.Model.TreePrint
import Verif.Spec.Listing
import Verif.Props.Listing
import Verif.Props.StaticExact
import Verif.Spec.Table
import Verif.Spec.Orderly
import Verif.Model.Examples
import Verif.Spec.Examples
import Verif.Props.Table
import Verif.Props.Orderly
import Verif.Props.Examples
import Verif.Conformance
import Verif.ConformanceExt
import Verif.Model.SetCookie
import Verif.Spec.SetCookie
import Verif.Props.SetCookie
import Verif.Model.Wire
import Verif.Spec.Wire
import Verif.Props.Wire
import Verif.Spec.Challenge
import Verif.Props.Access
import Verif.Model.GroupProg
import Verif.Spec.GroupProg
import Verif.Props.GroupProg
import Verif.Spec.Seek
import Verif.Props.Seek
import Verif.Model.Roles
import Verif.Spec.Roles
import Verif.Props.Roles
import Verif.Spec.Whole
import Verif.Props.Whole
import Verif.Props.Mount
import Verif.Model.Contexts
import Verif.Spec.Contexts
import Verif.Props.Contexts
import Verif.Spec.UniqId
import Verif.Props.UniqIdExact
import Verif.Props.LifeExact
import Verif.Witness.Routing
import Verif.Witness.Request
import Verif.Witness.Program
import Verif.Witness.Ctx
import Verif.Witness.Run
import Verif.Witness.Files
import Verif.Witness.Static
import Verif.Witness.More
import Verif.Witness.Answers
import Verif.Spec.Frail
import Verif.Props.Frail
import Verif.Spec.Confluence
import Verif.Props.Confluence
import Verif.Model.Dates
import Verif.Spec.Dates
import Verif.Lemmas.Dates
import Verif.Props.Dates
import Verif.Props.DatesHttp
import Verif.Model.LogTime
import Verif.Spec.LogTime
import Verif.Props.LogTime
import Verif.Spec.Clash
import Verif.Lemmas.Clash
import Verif.Props.Clash
import Verif.Props.ClashReq
import Verif.Spec.Alias
import Verif.Props.Alias
import Verif.Spec.Deadlock
import Verif.Lemmas.Deadlock
import Verif.Props.Deadlock
import Verif.Props.Exact
import Verif.Props.SetLocksExact
import Verif.Props.RunExact
import Verif.Model.ExampleHandlers
import Verif.Spec.Plain
import Verif.Props.Plain
import Verif.Spec.Kept
import Verif.Props.Kept
import Verif.Model.ReadDir
import Verif.Spec.ReadDir
import Verif.Props.ReadDir
import Verif.Model.Pipe
import Verif.Props.Pipe
import Verif.Model.Handles
import Verif.Spec.Handles
import Verif.Props.Handles
import Verif.Spec.Determined
import Verif.Props.Determined
import Verif.Props.GroupExact
import Verif.Spec.Panics
import Verif.Props.Panics
import Verif.Spec.CookieAny
import Verif.Props.CookieAny
import Verif.Spec.DateForms
import Verif.Props.DateNames
import Verif.Props.DateForms
import Verif.Model.Video
import Verif.Props.Video
import Verif.Spec.Session
import Verif.Props.Session
import Verif.Spec.Download
import Verif.Props.Download
import Verif.Spec.Cache
import Verif.Props.Cache
import Verif.Props.Silent
import Verif.Spec.Segments
import Verif.Props.Segments
import Verif.Spec.Guard
import Verif.Lemmas.Guard
import Verif.Props.Guard
import Verif.Spec.Rename
import Verif.Lemmas.Rename
import Verif.Props.Rename
import Verif.Spec.Order
import Verif.Props.Order
import Verif.Props.Prefix
import Verif.Spec.ErrorPage
import Verif.Props.ErrorPage
import Verif.Spec.Head
import Verif.Props.Head
import Verif.Spec.Reload
import Verif.Props.Reload
import Verif.Spec.Every
import Verif.Lemmas.EveryTree
import Verif.Lemmas.EveryAgain
import Verif.Props.Every
import Verif.Props.LifeError
import Verif.Spec.Odd
import Verif.Props.Odd
import Verif.Spec.Socket
import Verif.Props.LifeSocket
import Verif.Spec.Mounted
import Verif.Props.Mounted
import Verif.Props.Frame
import Verif.Spec.Lost
import Verif.Props.Lost
import Verif.Spec.Diverge
import Verif.Props.Diverge
import Verif.Props.LostReq
import Verif.Props.First
import Verif.Props.Gain
import Verif.Props.Left
import Verif.Spec.Own
import Verif.Props.Method
