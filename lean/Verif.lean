import Verif.Codec.Model
import Verif.Codec.Lemmas
import Verif.Codec.Props
import Verif.DupSet.Model
import Verif.DupSet.Lemmas
import Verif.DupSet.Props
import Verif.Bits.Model
import Verif.Bits.Lemmas
import Verif.Bits.Props
import Verif.Str.Model
import Verif.Str.Lemmas
import Verif.Str.Props
import Verif.Json.Model
import Verif.Json.Props
import Verif.Autobuf.Model
import Verif.Autobuf.Props
import Verif.Template.Model
import Verif.Template.Props
import Verif.IsoNum.Model
import Verif.IsoNum.Lemmas
import Verif.IsoNum.Props
import Verif.Netaddr.Model
import Verif.Netaddr.Lemmas
import Verif.Netaddr.Props
import Verif.NetText.Model
import Verif.NetText.Lemmas
import Verif.NetText.Props
import Verif.Acl.Model
import Verif.Acl.Props
import Verif.Avl.Props
import Verif.Timer.Model
import Verif.Timer.Lemmas
import Verif.Timer.Props
import Verif.Class.Model
import Verif.Class.Lemmas
import Verif.Class.Props
import Verif.Reader.Model
import Verif.Reader.Spec
import Verif.Reader.Parse
import Verif.Reader.Sched
import Verif.Reader.Scope
import Verif.Reader.Handle
import Verif.Reader.Packet
import Verif.Reader.Local
import Verif.Reader.Visit
import Verif.Reader.Props
import Verif.Writer.Model
import Verif.Writer.Lemmas
import Verif.Writer.Block
import Verif.Writer.Gen
import Verif.Writer.Compress
import Verif.Writer.Runs
import Verif.Writer.Read
import Verif.Writer.Fragment
import Verif.Writer.Message
import Verif.Writer.Target
import Verif.Writer.Packet
import Verif.Writer.Create
import Verif.Writer.Forward
import Verif.Writer.Props
import Verif.Routing.Model
import Verif.Routing.Spec
import Verif.Routing.Core
import Verif.Routing.Run
import Verif.Routing.Table
import Verif.Routing.Props
import Verif.Routing.Kernel
import Verif.Routing.KernelProps
import Verif.Mpr.Model
import Verif.Mpr.Lemmas
import Verif.Mpr.Spec
import Verif.Mpr.Props
import Verif.Tc.Model
import Verif.Tc.Spec
import Verif.Tc.Lemmas
import Verif.Tc.Add
import Verif.Tc.Attach
import Verif.Tc.Remove
import Verif.Tc.Support
import Verif.Tc.Reader
import Verif.Tc.ReadSpec
import Verif.Tc.ReadLemmas
import Verif.Tc.ReadRun
import Verif.Tc.Props
import Verif.DupSet.SetProps
import Verif.Olsr.Originator
import Verif.Olsr.OrigProps
import Verif.Olsr.Flood
import Verif.Olsr.FloodProps
import Verif.Olsr.Lan
import Verif.Olsr.LanProps
import Verif.Olsr.Content
import Verif.Olsr.ContentLemmas
import Verif.Olsr.ContentProps
import Verif.Olsr.EndToEnd
import Verif.Domain.Model
import Verif.Domain.Lemmas
import Verif.Domain.Props
import Verif.Nhdp.Map
import Verif.Nhdp.Model
import Verif.Nhdp.Spec
import Verif.Nhdp.Wf
import Verif.Nhdp.HelloLemmas
import Verif.Nhdp.HelloWf
import Verif.Nhdp.Count
import Verif.Nhdp.History
import Verif.Nhdp.Props
import Verif.Layer2.Model
import Verif.Layer2.DataProps
import Verif.Layer2.Spec
import Verif.Layer2.Lemmas
import Verif.Layer2.Wf
import Verif.Layer2.Facts
import Verif.Layer2.Props
import Verif.Layer2.Writes
import Verif.Layer2.KeyModel
import Verif.Layer2.KeyProps
import Verif.Metric.HystModel
import Verif.Metric.HystProps
import Verif.Metric.DatModel
import Verif.Metric.DatWindow
import Verif.Metric.DatSpeed
import Verif.Metric.DatLoss
import Verif.Metric.DatProps
import Verif.Hello.MetricModel
import Verif.Hello.MetricProps
import Verif.Hello.LinkModel
import Verif.Hello.AddrProps
import Verif.Hello.TimerProps
import Verif.Hello.HandshakeProps
import Verif.Subsys.Model
import Verif.Subsys.Spec
import Verif.Subsys.Lemmas
import Verif.Subsys.Init
import Verif.Subsys.Cause
import Verif.Subsys.Cleanup
import Verif.Subsys.Props
import Verif.Subsys.NameProps
import Verif.Subsys.LoadProps
import Verif.Cfg.Model
import Verif.Cfg.Spec
import Verif.Cfg.Lemmas
import Verif.Cfg.DbProps
import Verif.Cfg.SchemaModel
import Verif.Cfg.Validate
import Verif.Cfg.Changes
import Verif.Cfg.CompactModel
import Verif.Cfg.Compact
import Verif.Cfg.CmdModel
import Verif.Cfg.Cmd
import Verif.Cfg.LifeModel
import Verif.Cfg.Life
import Verif.CfgBin.Model
import Verif.CfgBin.Scalar
import Verif.CfgBin.Tokens
import Verif.CfgBin.MessageModel
import Verif.CfgBin.Message
import Verif.TwoHop.Model
import Verif.TwoHop.Spec
import Verif.TwoHop.Lemmas
import Verif.TwoHop.Props
import Verif.Http.Model
import Verif.Http.Spec
import Verif.Http.Lemmas
import Verif.Http.UriLemmas
import Verif.Http.Props
import Verif.Http.SafeProps
import Verif.Http.SiteProps
import Verif.Http.FileProps
import Verif.Icv.Model
import Verif.Icv.Spec
import Verif.Icv.Lemmas
import Verif.Icv.MsgLemmas
import Verif.Icv.PktLemmas
import Verif.Icv.Inject
import Verif.Icv.CheckLemmas
import Verif.Icv.SignLemmas
import Verif.Icv.Props
import Verif.Icv.RoundProps
import Verif.Icv.MemProps
import Verif.Icv.Registry
import Verif.Icv.RegProps
import Verif.Replay.Model
import Verif.Replay.Spec
import Verif.Replay.Lemmas
import Verif.Replay.Clock
import Verif.Replay.Props
import Verif.Dlep.Model
import Verif.Dlep.Spec
import Verif.Dlep.Lemmas
import Verif.Dlep.Props
import Verif.Dlep.Session
import Verif.Dlep.SessionSpec
import Verif.Dlep.SessionLemmas
import Verif.Dlep.SessionProps
import Verif.Dlep.Tlvs
import Verif.Dlep.TlvsLemmas
import Verif.Dlep.TlvsProps
import Verif.Dlep.Ext
import Verif.Dlep.ExtProps
import Verif.Dlep.Prefix
import Verif.Dlep.PrefixProps
import Verif.Dlep.Udp
import Verif.Dlep.UdpProps
import Verif.NhdpIf.Model
import Verif.NhdpIf.Spec
import Verif.NhdpIf.Lemmas
import Verif.NhdpIf.Props
import Verif.Rfc5444.Refs
import Verif.Rfc5444.RefsSpec
import Verif.Rfc5444.RefsLemmas
import Verif.Rfc5444.RefsProps
import Verif.Rfc5444.Flow
import Verif.Rfc5444.FlowSpec
import Verif.Rfc5444.FlowLemmas
import Verif.Rfc5444.FlowProps
import Verif.Rfc5444.Reconf
import Verif.Rfc5444.ReconfProps
import Verif.Stream.Sess
import Verif.Stream.SessSpec
import Verif.Stream.SessLemmas
import Verif.Stream.SessProps
import Verif.Stream.Sock
import Verif.Stream.SockSpec
import Verif.Stream.SockLemmas
import Verif.Stream.SockProps
import Verif.Stream.Bind
import Verif.Stream.BindProps
import Verif.Telnet.Word
import Verif.Telnet.Line
import Verif.Telnet.Spec
import Verif.Telnet.Lemmas
import Verif.Telnet.Invs
import Verif.Telnet.Props
import Verif.Telnet.WordProps
import Verif.Log.Model
import Verif.Log.Spec
import Verif.Log.Props
import Verif.Log.CfgProps
import Verif.Log.Filter
import Verif.Log.FilterProps
import Verif.Log.Route
import Verif.Log.RouteProps
import Verif.Packet.Queue
import Verif.Packet.QueueProps
import Verif.Packet.Eperm
import Verif.Packet.EpermProps
import Verif.Packet.Managed
import Verif.Packet.ManagedProps
import Verif.Import.Sections
import Verif.Import.SectionsProps
import Verif.Import.Lan
import Verif.Import.LanProps
import Verif.Import.Modifier
import Verif.Import.ModifierProps
import Verif.Import.L2
import Verif.Import.L2Props
import Verif.Ll4.Props
import Verif.Netlink.Props
import Verif.Netlink.QueueProps
import Verif.OsIf.AddrProps
import Verif.OsIf.QueryProps
import Verif.OsIf.NotifyProps
import Verif.OsIf.MeshProps
import Verif.RtNl.Model
import Verif.RtNl.Props
import Verif.RtNl.Pending
import Verif.RtNl.PendingProps
import Verif.L2Export.Model
import Verif.L2Export.Props
import Verif.DlepDest.Model
import Verif.DlepDest.Spec
import Verif.DlepDest.Lemmas
import Verif.DlepDest.Props
import Verif.DlepDest.Ack
import Verif.DlepDest.Router
import Verif.DlepDest.RouterLemmas
import Verif.DlepDest.RouterProps
import Verif.DlepDest.Offer
import Verif.DlepDest.Fd
import Verif.Sched.Model
import Verif.Sched.Props
import Verif.Sched.Loop
import Verif.Probing.Model
import Verif.Probing.Props
import Verif.OldLan.Model
import Verif.OldLan.Props
import Verif.LinkCfg.Props
import Verif.ConstMetric.Props
import Verif.NhdpCheck.Props
import Verif.L2Import.Props
import Verif.L2Config.Props
import Verif.Nl80211.Numbers
import Verif.Nl80211.Db
import Verif.Nl80211.Query
import Verif.Nl80211.Ifs
import Verif.Nl80211.Tight
import Verif.WReg.Props
import Verif.WReg.BuildProps
import Verif.DomReg.Props
import Verif.OsTun.Props
import Verif.RtSched.Props
import Verif.CfgIo.Props
import Verif.IsoNum.Signed
import Verif.KernVer.Model
import Verif.KernVer.Props
import Verif.Packet.SendManaged
import Verif.Packet.SendManagedProps
import Verif.Dlep.Lid
import Verif.Dlep.LidProps
import Verif.L2Gen.Model
import Verif.L2Gen.Props
import Verif.TcGen.Model
import Verif.TcGen.Props
import Verif.Autobuf.Hexdump
import Verif.Autobuf.HexdumpProps
import Verif.Viewer.Model
import Verif.Viewer.Props
import Verif.Netjson.Model
import Verif.Netjson.Props
