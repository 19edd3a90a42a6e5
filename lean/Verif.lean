import Verif.Iam.PolicyProps
import Verif.Iam.AccessProps
import Verif.Iam.MachineProps
import Verif.Iam.CoapProps
import Verif.Iam.ConfigLoadProps
import Verif.Iam.LifecycleProps
import Verif.Iam.LoginProps
import Verif.Iam.ApiProps
import Verif.Core.Spake2Props
import Verif.Core.PakeProps
import Verif.Util.HexProps
import Verif.Util.Timestamp
import Verif.Core.PacketProps
import Verif.Core.KeepAliveProps
import Verif.Core.DispatchProps
import Verif.Api.FutureProps
import Verif.Api.ListenerProps
import Verif.Api.AuthorizationProps
import Verif.Api.PasswordProps
import Verif.Api.LockProps
import Verif.Event.ThreadProps
import Verif.Core.AttacherOrderProps
import Verif.Core.AttacherProps
import Verif.Core.AttacherRequestsProps
import Verif.Core.Watchdog
import Verif.Json.CjsonProps
import Verif.Iam.JsonProps
import Verif.Cbor.CborProps
import Verif.Core.CborUseProps
import Verif.Iam.ListingProps
import Verif.Alloc.TinyAllocProps
import Verif.Core.DnsProps
import Verif.Core.ConnProps
import Verif.Core.ConnChanProps
import Verif.Core.ConnCloseProps
import Verif.Core.RendezvousProps
import Verif.Core.StunProps
import Verif.Stream.OpsProps
import Verif.Stream.ApiProps
import Verif.Stream.VirtualProps
import Verif.Stream.ManagerProps
import Verif.Tunnel.ConnProps
import Verif.Tunnel.ManagerProps
import Verif.Coap.VirtualProps
import Verif.Device.TokenProps
import Verif.Device.LifeProps
import Verif.Device.IdentityProps
import Verif.Dtls.ServerProps
import Verif.Dtls.ClientProps
import Verif.Dtls.WolfServerProps
import Verif.Dtls.WolfClientProps
import Verif.Dtls.RecordsProps
import Verif.Device.AskProps
import Verif.Net.MdnsProps
import Verif.Net.MulticastProps
import Verif.Net.UdpProps
import Verif.Net.LoopProps
import Verif.Net.TcpSelProps
import Verif.Net.TcpLevProps
import Verif.Net.LookupProps
import Verif.Apps.FilesProps
import Verif.Apps.DefaultsProps
import Verif.Apps.PasswordProps
import Verif.Apps.PromptProps
import Verif.Apps.ServicesProps
import Verif.Apps.ThermostatProps
import Verif.Net.ProbeProps
import Verif.Coap.DriverProps
import Verif.Device.AttachProps
import Verif.Device.AnnounceProps
import Verif.Coap.PrinterProps
import Verif.Api.LoggingProps
import Verif.Net.AddrProps
import Verif.Event.ClockProps
import Verif.Core.PayloadsProps
import Verif.Core.LocalIpProps
import Verif.Device.CreateProps
import Verif.Iam.ServiceProps
import Verif.Iam.RecordProps
import Verif.Device.KeysProps
import Verif.Iam.BuilderProps
import Verif.Api.EventsProps
import Verif.Api.ConnFpProps
import Verif.Iam.HandlerProps
import Verif.Dtls.AttachProps
import Verif.Dtls.AcceptProps
import Verif.Stream.VirtualApiProps
import Verif.Dtls.TimerProps
import Verif.Tunnel.AccessProps
import Verif.Iam.PairingProps
import Verif.Iam.FcmTestProps
import Verif.Dtls.IdentityProps
import Verif.Core.ExpiryProps
import Verif.Event.LibeventProps
import Verif.Api.StampProps
import Verif.Core.IceServersProps
import Verif.Api.CoapRequestProps
import Verif.Api.ErrorCodeProps
