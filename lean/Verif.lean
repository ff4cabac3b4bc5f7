import Verif.Props.Ring
import Verif.Props.Atoi
import Verif.Props.Str
import Verif.Props.Ratelimit
import Verif.Props.Qstr
import Verif.Props.Dlist
import Verif.Props.Htable
import Verif.Props.Wire
import Verif.Props.Options
import Verif.Props.Dhcp6
import Verif.Props.Wfd
import Verif.Props.Log
import Verif.Props.Mac
import Verif.Props.Timers
import Verif.Props.Sanitize
import Verif.Props.RtspParse
import Verif.Props.RtspWire
import Verif.Props.RtspBus
import Verif.Props.RtspBuild
import Verif.Props.Wpas
import Verif.Props.WpasBus
import Verif.Props.WpasMatch
import Verif.Props.Server
import Verif.Props.OptValue
import Verif.Props.Client
import Verif.Props.P2p
import Verif.Props.Super
import Verif.Props.Uibc
import Verif.Props.Wifid
import Verif.Props.RtspRead
import Verif.Props.Sink
import Verif.Props.Cli
import Verif.Props.Mirror
import Verif.Props.Sinkctl
import Verif.Props.Told
import Verif.Props.Wifictl
import Verif.Props.Helper
import Verif.Props.Bus
import Verif.Props.Dora
import Verif.Props.Ipv4ll
import Verif.Props.Bpf
import Verif.Props.Settings
import Verif.Props.Client6
import Verif.Props.Client6Set
import Verif.Props.Client6Read
import Verif.Props.Client6Reply
import Verif.Props.Event
import Verif.Props.Mkdir
import Verif.Props.HtableMap
import Verif.Props.Ask
import Verif.Props.Refs
import Verif.Props.Session
import Verif.Props.RtspMatch
import Verif.Props.Sockets
import Verif.Props.RtspRaw
import Verif.Props.Phone
import Verif.Props.Show
import Verif.Props.PhoneDown
import Verif.Props.ShowDown
import Verif.Props.Whole
import Verif.Props.IfName
