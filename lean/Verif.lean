import Verif.Model.Router
import Verif.Model.Http1x
import Verif.Model.Query
import Verif.Props.Path
import Verif.Props.Trie
import Verif.Props.Router
import Verif.Props.Slice
import Verif.Props.Query
import Verif.Props.Request
import Verif.Props.Time
import Verif.Model.Server
import Verif.Props.Tables
import Verif.Props.Response
import Verif.Props.Server
import Verif.Props.Config
import Verif.Props.Macros
import Verif.Props.Json
import Verif.Props.JsonGenerics
import Verif.Props.Listen
import Verif.Props.Registry
import Verif.Props.Quoted
import Verif.Props.Startup
import Verif.Props.Order
import Verif.Props.Waiting
import Verif.Props.Target
import Verif.Props.Lookup
import Verif.Props.Echo
import Verif.Props.Live
import Verif.Props.Settings
import Verif.Props.Exact
import Verif.Props.Jar
import Verif.Props.Climb
import Verif.Props.ExtQuery
import Verif.Props.StatusMacro
import Verif.Props.Runtime
import Verif.Props.Whole
import Verif.Check.RepoTests
import Verif.Model.Parallel
import Verif.Spec.Parallel
import Verif.Proof.Parallel
import Verif.Props.Parallel
import Verif.Spec.Strict
import Verif.Props.Strict
import Verif.Props.Sent
import Verif.Props.Cost
import Verif.Spec.Answer
import Verif.Spec.Unread
import Verif.Proof.Unread
import Verif.Props.Announced
import Verif.Props.Answer
import Verif.Props.Field
import Verif.Props.Unread
import Verif.Model.Process
import Verif.Spec.Process
import Verif.Proof.ProcessRead
import Verif.Proof.Process
import Verif.Proof.ProcessRun
import Verif.Props.Process
import Verif.Proof.Handshake
import Verif.Props.Handshake
import Verif.Spec.ProcessLive
import Verif.Proof.ProcessLive
import Verif.Props.ProcessLive
import Verif.Props.Frame
import Verif.Proof.Atomic
import Verif.Props.Atomic
import Verif.Props.Robust
import Verif.Props.QuerySize
import Verif.Props.Alone
import Verif.Props.ErrorText
import Verif.Props.Fields
import Verif.Props.Patterns
import Verif.Props.CostQuery
import Verif.Props.Depth
import Verif.Props.Features
import Verif.Props.Work
import Verif.Props.Programs
import Verif.Props.Examples
import Verif.Props.Size
import Verif.Props.Open
import Verif.Props.TargetExact
import Verif.Props.CookieHead
import Verif.Props.Form
import Verif.Props.Unknown
import Verif.Props.OneEntry
import Verif.Props.Files
import Verif.Props.Ending
import Verif.Props.Forms
import Verif.Props.Head
import Verif.Props.Lines
import Verif.Props.Answers
import Verif.Props.AnswerSize
import Verif.Props.JsonKeys
import Verif.Props.CookieLines
import Verif.Props.Spelling
import Verif.Props.Life
import Verif.Props.TargetChars
import Verif.Props.LifeLive
import Verif.Props.Large
import Verif.Props.CookieAttrs
import Verif.Props.TwoQueries
import Verif.Check.Decide
import Verif.Check.Requests
import Verif.Check.Cases1
import Verif.Check.Cases2
import Verif.Check.Cases3
import Verif.Check.Cases4
import Verif.Props.Held
import Verif.Props.Examples2
import Verif.Props.CostWrite
import Verif.Props.Dead
import Verif.Props.Delivery
import Verif.Props.Movers
import Verif.Props.Methods
import Verif.Props.Meet
import Verif.Props.Interchange
import Verif.Props.Routes
import Verif.Props.Stoppers
import Verif.Props.Everywhere
import Verif.Props.InProcess
import Verif.Props.InLife
import Verif.Props.Effect
import Verif.Props.Counter
import Verif.Props.RouterFields
import Verif.Props.Stall
import Verif.Props.StallProcess
import Verif.Props.Wrap
import Verif.Props.Behind
import Verif.Props.Levels
import Verif.Props.Renumber
import Verif.Props.Seen
import Verif.Props.Extent
import Verif.Props.Peek
import Verif.Props.Own
import Verif.Props.FieldsRelease
import Verif.Props.Least
import Verif.Props.Never
import Verif.Props.EchoExact
