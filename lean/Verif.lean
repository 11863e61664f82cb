import Verif.Props.Framing
import Verif.Props.Request
import Verif.Props.Headers
import Verif.Props.Exchange
import Verif.Props.Expand
import Verif.Props.Cond
import Verif.Props.Sched
import Verif.Props.Balance
import Verif.Props.Lists
import Verif.Props.StringBuf
import Verif.Props.Json
import Verif.Props.Genpat
import Verif.Props.Acl
import Verif.Props.Bauth
import Verif.Props.Control
import Verif.Props.Workers
import Verif.Props.Log
import Verif.Props.Location
import Verif.Props.Tls
import Verif.Props.Config
import Verif.Props.CfgParser
import Verif.Props.HostCond
import Verif.Props.DynBe
import Verif.Props.Forward
import Verif.Props.SvcCfg
import Verif.Props.Metrics
import Verif.Props.BeCfg
import Verif.Props.Tmpl
import Verif.Props.LstCfg
import Verif.Props.TopCfg
import Verif.Props.Srv
import Verif.Props.Resolver
import Verif.Props.Poundctl
import Verif.Props.Lookups
import Verif.Props.Locks
import Verif.Props.Remover
import Verif.Props.WorkDir
import Verif.Props.Channel
import Verif.Props.Startup
import Verif.Props.Replies
import Verif.Props.Tunnel
import Verif.Props.SvcAll
import Verif.Props.Transit
import Verif.Props.Inject
import Verif.Props.Relay
import Verif.Props.Regex
import Verif.Props.Own
import Verif.Props.OwnErr
import Verif.Props.CtlMain
import Verif.Props.PoundCmd
import Verif.Props.HashTab
import Verif.Props.FullCfg
import Verif.Props.Locus
import Verif.Props.JsonMem
import Verif.Props.FullServed
import Verif.Props.Whole
import Verif.Props.WholeFwd
import Verif.Props.WholeResp
import Verif.Props.Sticky
import Verif.Props.FullFail
import Verif.Props.FullShares
import Verif.Props.FullRandom
import Verif.Props.FullEndless
import Verif.Props.Traffic
import Verif.Props.Endless
