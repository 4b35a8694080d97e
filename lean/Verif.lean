import Verif.Props.Agree
import Verif.Props.Race
import Verif.Props.Dap
import Verif.Props.Conn
import Verif.Props.Transport
import Verif.Props.Addr
import Verif.Props.Bp
import Verif.Props.Strat
import Verif.Props.StratRole
import Verif.Props.StratRun
import Verif.Props.StratStack
import Verif.Props.StratVars
import Verif.Props.Repl
import Verif.Props.Server
import Verif.Props.Debuggee
import Verif.Props.Launch
import Verif.Props.StratCond
import Verif.Props.StratCount
import Verif.Props.StratNeutral
import Verif.Props.Sock
import Verif.Props.SockUds
import Verif.Props.StratHooks
import Verif.Props.StratEdit
import Verif.Props.LaunchCli
import Verif.Props.DapSchema
import Verif.Props.Wire
import Verif.Props.E2e
import Verif.Props.WireStops
import Verif.Props.WireEval
import Verif.Props.WireVars
import Verif.Props.WireBps
import Verif.Props.WireInit
import Verif.Props.Single
import Verif.Props.Cond
import Verif.Props.Raise
import Verif.Props.StratFail
import Verif.Props.Listen
import Verif.Props.Machine
import Verif.Props.Again
import Verif.Props.StratPlays
import Verif.Props.Input
