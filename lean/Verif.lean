import Verif.Props.Grammar
import Verif.Props.Match
import Verif.Props.MatchDisp
import Verif.Props.Eval
import Verif.Props.Ask
import Verif.Props.Total
import Verif.Props.Exec
import Verif.Props.Answer
import Verif.Props.Response
import Verif.Props.RuleLine
import Verif.Props.Load
import Verif.Props.Admin
import Verif.Props.AdminValid
import Verif.Props.AdminCrash
import Verif.Props.AdminConc
import Verif.Props.Sanitize
import Verif.Props.PolicyDaemon
import Verif.Props.Cache
import Verif.Props.CResponse
import Verif.Props.Trigger
import Verif.Props.Register
import Verif.Props.Legacy
import Verif.Props.GetFiles
import Verif.Props.Ports
import Verif.Props.Answered
import Verif.Props.Forward
import Verif.Props.ExecVm
import Verif.Props.Buffer
import Verif.Props.IoAll
import Verif.Props.DataIn
import Verif.Props.DataOut
import Verif.Props.ExitCode
import Verif.Props.DataBad
import Verif.Props.ServiceCmd
import Verif.Props.ServiceEnv
import Verif.Props.ServiceFind
import Verif.Props.Toml
import Verif.Props.Print
import Verif.Props.AgentFocus
import Verif.Props.AgentTarget
import Verif.Props.AgentText
import Verif.Props.VmAgent
import Verif.Props.VmConn
import Verif.Props.VmTrigger
import Verif.Props.VmClient
import Verif.Props.Handshake
import Verif.Props.Start
import Verif.Props.ClientEnds
import Verif.Props.ClientVm
import Verif.Props.Client
import Verif.Props.Graph
import Verif.Props.Lint
import Verif.Props.AdminClient
import Verif.Props.PolicyEditor
import Verif.Props.SocketAsk
import Verif.Props.ForkServer
import Verif.Props.PolicyExec
import Verif.Model.DoExec
import Verif.Model.Fds
import Verif.Props.DoExec
import Verif.Props.Fds
import Verif.Model.PolicyCli
import Verif.Props.PolicyCli
import Verif.Model.Qubesd
import Verif.Spec.Json
import Verif.Spec.Qubesd
import Verif.Lemmas.JsonNum
import Verif.Lemmas.JsonStr
import Verif.Lemmas.JsonGrammar
import Verif.Props.Qubesd
import Verif.Spec.LegacyConvert
import Verif.Model.LegacyConvert
import Verif.Props.LegacyConvert
import Verif.Props.LegacyRules
import Verif.Props.LegacyText
import Verif.Props.SockDir
import Verif.Props.VchanWait
import Verif.Props.DaemonStart
import Verif.Props.EndToEnd
import Verif.Props.DataPoll
import Verif.Props.DataEnd
import Verif.Props.Connect
import Verif.Props.Shipped
import Verif.Props.Watch
import Verif.Props.Signals
import Verif.Props.LoopSig
import Verif.Props.Rounds
import Verif.Props.Modes
import Verif.Props.Dom0Session
import Verif.Props.Restore
import Verif.Model.Inherit
import Verif.Props.Inherit
import Verif.Model.LocalWire
import Verif.Props.LocalWire
import Verif.Model.Shell
import Verif.Props.Shell
import Verif.Model.Getopt
import Verif.Spec.Getopt
import Verif.Props.Getopt
import Verif.Model.PyClient
import Verif.Props.PyClient
import Verif.Props.StderrLog
import Verif.Model.WaitSession
import Verif.Props.WaitSession
import Verif.Model.Multiplexer
import Verif.Props.Multiplexer
import Verif.Model.AuditLog
import Verif.Spec.AuditLog
import Verif.Props.AuditLog
import Verif.Model.Wakeup
import Verif.Spec.Wakeup
import Verif.Props.Wakeup
import Verif.Model.Network
import Verif.Spec.Network
import Verif.Lemmas.Network
import Verif.Props.Network
import Verif.Props.NetworkExample
import Verif.Model.LostAnswer
import Verif.Props.LostAnswer
import Verif.Model.Connection
import Verif.Lemmas.Connection
import Verif.Props.Connection
import Verif.Props.ConnectionEnd
import Verif.Model.LocalFds
import Verif.Props.LocalFds
import Verif.Model.Concurrent
import Verif.Props.Concurrent
import Verif.Model.PdStart
import Verif.Props.PdStart
import Verif.Model.Ready
import Verif.Props.Ready
