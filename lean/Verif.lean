import Verif.Addr.Model
import Verif.Addr.Props
import Verif.ApiSock.Lemmas
import Verif.ApiSock.Model
import Verif.ApiSock.Props
import Verif.ApiSock.Spec
import Verif.AppApi.Inv
import Verif.AppApi.Isolation
import Verif.AppApi.Lemmas
import Verif.AppApi.Model
import Verif.AppApi.Owner
import Verif.AppApi.Props
import Verif.AppApi.Spec
import Verif.Apps.Model
import Verif.Apps.Props
import Verif.Backoff.Model
import Verif.Backoff.Props
import Verif.Boot.End
import Verif.Boot.Model
import Verif.Boot.Order
import Verif.Boot.Props
import Verif.Boot.Spec
import Verif.Bridge.Lemmas
import Verif.Bridge.Model
import Verif.Bridge.Props
import Verif.Bridge.Spec
import Verif.ConfFile.Defaults
import Verif.ConfFile.Lemmas
import Verif.ConfFile.Model
import Verif.ConfFile.Props
import Verif.ConfFile.Spec
import Verif.ConfFile.Start
import Verif.Config.Lemmas
import Verif.Config.Model
import Verif.Config.Props
import Verif.Configr.Blocks
import Verif.Configr.Lemmas
import Verif.Configr.Model
import Verif.Configr.Props
import Verif.Configr.Reach
import Verif.Configr.Spec
import Verif.Conn.Inv
import Verif.Conn.Lemmas
import Verif.Conn.Model
import Verif.Conn.Props
import Verif.Conn.Spec
import Verif.Conn.Stream
import Verif.Conv.Lemmas
import Verif.Conv.Link
import Verif.Conv.Model
import Verif.Conv.Props
import Verif.Conv.Run
import Verif.Cque.Lemmas
import Verif.Cque.Model
import Verif.Cque.Props
import Verif.Crc.Bridge
import Verif.Crc.Lemmas
import Verif.Crc.Model
import Verif.Crc.Props
import Verif.Dap.Carry
import Verif.Dap.Header
import Verif.Dap.Lemmas
import Verif.Dap.Model
import Verif.Dap.Omit
import Verif.Dap.Props
import Verif.Dap.Prot
import Verif.Dap.Round
import Verif.Dap.Spec
import Verif.Dap.Tables
import Verif.Ddcmp.Accepted
import Verif.Ddcmp.Hostile
import Verif.Ddcmp.Inv
import Verif.Ddcmp.Lemmas
import Verif.Ddcmp.Model
import Verif.Ddcmp.Props
import Verif.Ddcmp.Recover
import Verif.Ddcmp.Startup
import Verif.DdcmpFrame.Lemmas
import Verif.DdcmpFrame.Model
import Verif.DdcmpFrame.Props
import Verif.Dlink.Lemmas
import Verif.Dlink.Model
import Verif.Dlink.Props
import Verif.Dlink.Spec
import Verif.Dlink.Step
import Verif.EthPort.Examples
import Verif.EthPort.Lemmas
import Verif.EthPort.Model
import Verif.EthPort.Props
import Verif.EthPort.PropsCount
import Verif.EthPort.PropsFilter
import Verif.EthPort.Refine
import Verif.EthPort.Spec
import Verif.EvLog.Invalid
import Verif.EvLog.Lemmas
import Verif.EvLog.Model
import Verif.EvLog.Props
import Verif.EvLog.Remote
import Verif.EvLog.RemoteProps
import Verif.EvLog.Sinks
import Verif.EvLog.Spec
import Verif.EvMsg.Lemmas
import Verif.EvMsg.Model
import Verif.EvMsg.Props
import Verif.EvMsg.PropsListen
import Verif.EvMsg.Spec
import Verif.EvQueue.Model
import Verif.EvQueue.Props
import Verif.Fal.Block
import Verif.Fal.BlockProps
import Verif.Fal.Get
import Verif.Fal.GetProps
import Verif.Fal.Path
import Verif.Fal.PathLemmas
import Verif.Fal.PathProps
import Verif.Fal.PathSpec
import Verif.Fal.Talk
import Verif.Fields.Layout
import Verif.Fields.Lemmas
import Verif.Fields.Model
import Verif.Fields.Props
import Verif.Fields.Roundtrip
import Verif.Fields.Tables
import Verif.Fields.Tlv
import Verif.Forward.Lemmas
import Verif.Forward.Model
import Verif.Forward.Props
import Verif.FramerDev.Model
import Verif.FramerDev.Props
import Verif.FramerRx.Model
import Verif.FramerRx.More
import Verif.FramerRx.Props
import Verif.Framing.Eth
import Verif.Framing.Gre
import Verif.Framing.Lemmas
import Verif.Framing.Multinet
import Verif.Framing.Props
import Verif.Hist.Model
import Verif.Hist.Props
import Verif.Host.Model
import Verif.Host.Props
import Verif.Html.Lemmas
import Verif.Html.Model
import Verif.Html.Props
import Verif.Html.Spec
import Verif.Http.Answers
import Verif.Http.Model
import Verif.Http.Pages
import Verif.Http.Props
import Verif.Intercept.Model
import Verif.Intercept.Props
import Verif.Lan.Hist
import Verif.Lan.Inv
import Verif.Lan.Lemmas
import Verif.Lan.Model
import Verif.Lan.Props
import Verif.Lan.Trace
import Verif.Lan.View
import Verif.LanEnd.Lemmas
import Verif.LanEnd.Model
import Verif.LanEnd.Props
import Verif.LanEnd.Spec
import Verif.LanEnd.Wire
import Verif.Lines.Model
import Verif.Lines.P2
import Verif.Lines.P2Names
import Verif.Lines.P2Props
import Verif.Lines.P2Status
import Verif.Lines.P2StatusProps
import Verif.Lines.Ports
import Verif.Lines.Props
import Verif.Lines.Spec
import Verif.Log.Model
import Verif.Log.Props
import Verif.MapCtr.Model
import Verif.MapCtr.Props
import Verif.MapCtr.Race
import Verif.MapDraw.Model
import Verif.MapDraw.Props
import Verif.Mapper.Db
import Verif.Mapper.DbText
import Verif.Mapper.Finish
import Verif.Mapper.Hist
import Verif.Mapper.Items
import Verif.Mapper.Lemmas
import Verif.Mapper.MapInv
import Verif.Mapper.Model
import Verif.Mapper.Poll
import Verif.Mapper.PollInv
import Verif.Mapper.Props
import Verif.Mapper.Save
import Verif.Mapper.SchedInv
import Verif.Mapper.Spec
import Verif.Mapper.Steps
import Verif.Modulo.Lemmas
import Verif.Modulo.Model
import Verif.Modulo.Props
import Verif.Mop.Client
import Verif.Mop.Console
import Verif.Mop.Loop
import Verif.Mop.Model
import Verif.Mop.Props
import Verif.Mop.Quiet
import Verif.Mop.Session
import Verif.Mop.Spec
import Verif.MopId.Client
import Verif.MopId.Handler
import Verif.MopId.Heard
import Verif.MopId.Lemmas
import Verif.MopId.Model
import Verif.MopId.Props
import Verif.MopId.Spec
import Verif.MopId.Wire
import Verif.Ncp.Dict
import Verif.Ncp.Encode
import Verif.Ncp.Lemmas
import Verif.Ncp.Model
import Verif.Ncp.Props
import Verif.Ncp.PropsDict
import Verif.Ncp.PropsSession
import Verif.Ncp.SessBad
import Verif.Ncp.SessLemmas
import Verif.Ncp.SessMain
import Verif.Ncp.SessRun
import Verif.Ncp.SessSpec
import Verif.Ncp.SessTok
import Verif.Ncp.Session
import Verif.Ncp.Spec
import Verif.Ncp.Tables
import Verif.Ncp.Walk
import Verif.Nft.Client
import Verif.Nft.Faults
import Verif.Nft.Lemmas
import Verif.Nft.Props
import Verif.Nft.Runs
import Verif.Nft.Server
import Verif.Nft.Spec
import Verif.Nice.Items
import Verif.Nice.Lemmas
import Verif.Nice.Model
import Verif.Nice.Props
import Verif.NiceRead.Answer
import Verif.NiceRead.Cases
import Verif.NiceRead.Chars
import Verif.NiceRead.Fields
import Verif.NiceRead.Lemmas
import Verif.NiceRead.Model
import Verif.NiceRead.One
import Verif.NiceRead.Other
import Verif.NiceRead.Phases
import Verif.NiceRead.Plural
import Verif.NiceRead.Props
import Verif.NiceRead.PropsChars
import Verif.NiceRead.PropsOne
import Verif.NiceRead.PropsOther
import Verif.NiceRead.Spec
import Verif.Nml.Api
import Verif.Nml.Circuit
import Verif.Nml.Grammar
import Verif.Nml.Lemmas
import Verif.Nml.Loop
import Verif.Nml.Mirror
import Verif.Nml.Model
import Verif.Nml.Props
import Verif.Nml.Req
import Verif.Nml.Setup
import Verif.Nml.Spec
import Verif.Nsp.Acks
import Verif.Nsp.E2e
import Verif.Nsp.Flow
import Verif.Nsp.Flow2
import Verif.Nsp.Limits
import Verif.Nsp.Micro
import Verif.Nsp.Micro2
import Verif.Nsp.Micro3
import Verif.Nsp.Model
import Verif.Nsp.NoErr
import Verif.Nsp.Order
import Verif.Nsp.Props
import Verif.Nsp.Props2
import Verif.Nsp.Reasm
import Verif.Nsp.Recv
import Verif.Nsp.Run
import Verif.Nsp.Send
import Verif.Nsp.Send2
import Verif.Nsp.Send3
import Verif.Nsp.Send4
import Verif.Nsp.Send5
import Verif.Nsp.Send6
import Verif.Nsp.Send7
import Verif.Nsp.SeqLemmas
import Verif.NspDelay.Lemmas
import Verif.NspDelay.Model
import Verif.NspDelay.Props
import Verif.NspDelay.Spec
import Verif.NspMap.Lemmas
import Verif.NspMap.Model
import Verif.NspMap.Props
import Verif.NspMap.Props2
import Verif.NspPkt.Lemmas
import Verif.NspPkt.Model
import Verif.NspPkt.Props
import Verif.NspPkt.Props2
import Verif.P2Send.Model
import Verif.P2Send.Props
import Verif.Pmr.Lemmas
import Verif.Pmr.Model
import Verif.Pmr.Props
import Verif.Pmr.Re
import Verif.Pmr.Sound
import Verif.Pmr.Spec
import Verif.Ptp.Emits
import Verif.Ptp.Lemmas
import Verif.Ptp.Model
import Verif.Ptp.Props
import Verif.Ptp.Running
import Verif.Ptp.Spec
import Verif.RUpdate.Hist
import Verif.RUpdate.Lemmas
import Verif.RUpdate.Model
import Verif.RUpdate.Props
import Verif.RoutMsg.Lemmas
import Verif.RoutMsg.Model
import Verif.RoutMsg.Props
import Verif.RoutPkt.Model
import Verif.RoutPkt.Props
import Verif.Route.Hist
import Verif.Route.Inv
import Verif.Route.Lemmas
import Verif.Route.Model
import Verif.Route.Props
import Verif.Route.Step
import Verif.ScanVer.Model
import Verif.ScanVer.Numbers
import Verif.ScanVer.Props
import Verif.Sess.Model
import Verif.Sess.Props
import Verif.SessConn.Model
import Verif.SessConn.Props
import Verif.Timers.Lemmas
import Verif.Timers.Model
import Verif.Timers.Props
import Verif.Topol.Model
import Verif.Topol.Props
import Verif.WorkQ.Model
import Verif.WorkQ.Props
