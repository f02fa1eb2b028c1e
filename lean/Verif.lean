import Verif.Base.AMap
import Verif.Base.Res
import Verif.Base.Text
import Verif.Checks.SystemTests
import Verif.Checks.UnitTests
import Verif.Model.Calendar
import Verif.Model.Child
import Verif.Model.CommandLine
import Verif.Model.Config
import Verif.Model.CronNext
import Verif.Model.CronParse
import Verif.Model.CronSched
import Verif.Model.Datagrams
import Verif.Model.DepGraph
import Verif.Model.Descriptors
import Verif.Model.Disk
import Verif.Model.Document
import Verif.Model.Kernel
import Verif.Model.Logging
import Verif.Model.Main
import Verif.Model.Manager
import Verif.Model.Messages
import Verif.Model.Narration
import Verif.Model.PathSearch
import Verif.Model.Process
import Verif.Model.ProcessBuilder
import Verif.Model.Prologue
import Verif.Model.Sockets
import Verif.Model.Status
import Verif.Model.Template
import Verif.Model.Terminal
import Verif.Model.Utf8
import Verif.Model.World
import Verif.Proofs.Account
import Verif.Proofs.AccountRuns
import Verif.Proofs.AlarmRuns
import Verif.Proofs.Alarms
import Verif.Proofs.Calendar
import Verif.Proofs.CalendarWalk
import Verif.Proofs.Child
import Verif.Proofs.ChildOutput
import Verif.Proofs.ChildRuns
import Verif.Proofs.Clocks
import Verif.Proofs.CommandLine
import Verif.Proofs.Complaints
import Verif.Proofs.Config
import Verif.Proofs.ConfigTree
import Verif.Proofs.CronFaults
import Verif.Proofs.CronNext
import Verif.Proofs.CronParse
import Verif.Proofs.CronSched
import Verif.Proofs.CronText
import Verif.Proofs.DepGraph
import Verif.Proofs.Descriptors
import Verif.Proofs.Disk
import Verif.Proofs.Document
import Verif.Proofs.Execution
import Verif.Proofs.ExitCodes
import Verif.Proofs.Fatal
import Verif.Proofs.History
import Verif.Proofs.Lines
import Verif.Proofs.Logging
import Verif.Proofs.Main
import Verif.Proofs.ManagerInv
import Verif.Proofs.ManagerLoop
import Verif.Proofs.ManagerReact
import Verif.Proofs.Narration
import Verif.Proofs.Notify
import Verif.Proofs.Numbers
import Verif.Proofs.ProcessBuilder
import Verif.Proofs.Prologue
import Verif.Proofs.Remarks
import Verif.Proofs.Service
import Verif.Proofs.Supervision
import Verif.Proofs.Tables
import Verif.Proofs.Tale
import Verif.Proofs.TaleOrder
import Verif.Proofs.TaleRuns
import Verif.Proofs.Text
import Verif.Proofs.Toposort
import Verif.Proofs.Transcript
import Verif.Proofs.Turns
import Verif.Proofs.Unheard
import Verif.Proofs.Utf8
import Verif.Proofs.Watch
import Verif.Proofs.Yaml
import Verif.Props.Aborts
import Verif.Props.Account
import Verif.Props.Arrivals
import Verif.Props.Budget
import Verif.Props.Child
import Verif.Props.Clocks
import Verif.Props.CommandLine
import Verif.Props.Config
import Verif.Props.CronExact
import Verif.Props.CronFaults
import Verif.Props.CronNext
import Verif.Props.CronParse
import Verif.Props.CronRuns
import Verif.Props.CronSched
import Verif.Props.CronSkipped
import Verif.Props.CronText
import Verif.Props.Datagrams
import Verif.Props.DepGraph
import Verif.Props.Document
import Verif.Props.Ending
import Verif.Props.Execution
import Verif.Props.ExitCodes
import Verif.Props.Fairness
import Verif.Props.Family
import Verif.Props.Fates
import Verif.Props.Leaks
import Verif.Props.Links
import Verif.Props.Logging
import Verif.Props.Main
import Verif.Props.Narration
import Verif.Props.Notify
import Verif.Props.Ordinary
import Verif.Props.Output
import Verif.Props.PathSearch
import Verif.Props.ProcessBuilder
import Verif.Props.Punctuality
import Verif.Props.Reader
import Verif.Props.Report
import Verif.Props.Reproducible
import Verif.Props.Runs
import Verif.Props.Service
import Verif.Props.Signals
import Verif.Props.Sockets
import Verif.Props.Startlog
import Verif.Props.Startup
import Verif.Props.Status
import Verif.Props.Steady
import Verif.Props.Stopping
import Verif.Props.Streams
import Verif.Props.Supervision
import Verif.Props.Templates
import Verif.Props.Terminal
import Verif.Props.Timeline
import Verif.Props.Transcript
import Verif.Props.Troubles
import Verif.Props.Unheard
import Verif.Props.Waiting
import Verif.Spec.Account
import Verif.Spec.Arrivals
import Verif.Spec.Budget
import Verif.Spec.Calendar
import Verif.Spec.Child
import Verif.Spec.Clocks
import Verif.Spec.CommandLine
import Verif.Spec.Complaints
import Verif.Spec.Config
import Verif.Spec.CronChosen
import Verif.Spec.CronExpr
import Verif.Spec.CronMatch
import Verif.Spec.DepGraph
import Verif.Spec.Document
import Verif.Spec.Environment
import Verif.Spec.Execution
import Verif.Spec.ExitCodes
import Verif.Spec.Fairness
import Verif.Spec.Family
import Verif.Spec.Fatal
import Verif.Spec.Fates
import Verif.Spec.History
import Verif.Spec.Leaks
import Verif.Spec.Lines
import Verif.Spec.Links
import Verif.Spec.Logging
import Verif.Spec.Main
import Verif.Spec.Numbers
import Verif.Spec.PathSearch
import Verif.Spec.Remarks
import Verif.Spec.Service
import Verif.Spec.Sockets
import Verif.Spec.Status
import Verif.Spec.Steady
import Verif.Spec.Stopping
import Verif.Spec.Streams
import Verif.Spec.Supervision
import Verif.Spec.Tale
import Verif.Spec.Templates
import Verif.Spec.Terminal
import Verif.Spec.Timeline
import Verif.Spec.Transcript
import Verif.Spec.Troubles
import Verif.Spec.Turns
import Verif.Spec.Unheard
import Verif.Spec.Utf8
import Verif.Spec.Yaml
