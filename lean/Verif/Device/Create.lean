/-!
# Making and freeing a device

Model of `nabto_device_new`, `nabto_device_new_resolve_failure`, `nabto_device_stop` and `nabto_device_free` (src/api/nabto_device.c:63-263)
with everything below them that takes and gives back: the platform (src/nabto_device_libevent/nabto_platform_libevent.c:55-208), the
core (`nc_device_init`, `nc_device_deinit`, src/core/nc_device.c:26-206) and the init and deinit functions of its modules, the tunnels and
the queue of futures.

Each thing which is taken is one `Res`; any of them may fail (`ok : Res → Bool`), which covers every outcome of every allocation, of
`pthread_create`, `event_base_new`, `evdns_base_new` and of the libraries. An init function is a list of commands, a deinit function a list of
actions, each behind the test the code has. What is not modelled: objects which are only filled in and cannot fail, the content of what is
made, and what the device does between its creation and its end (the Device/Life model). The configuration is the default one
(include/nabto/nabto_device_config.h): MbedTLS, password authentication, queue of futures, libevent.
-/

namespace Verif.Device.Create

/-- What is taken from the system while a device is made. -/
inductive Res
  /-- nabto_device.c:75,82 -/
  | context | eventMutex
  /-- nm_mbedtls_cli.c:217, nm_mbedtls_random.c:29-39 -/
  | dtlsClient | random
  /-- nabto_platform_libevent.c:59-69; nm_libevent.c:20-36 -/
  | libeventUse | platform | eventBase
  /-- thread_event_queue.c:48-55 -/
  | queueMutex | queueCondition
  /-- nm_libevent_dns.c:70-94; the configuration of the name servers may fail, nothing is kept for it -/
  | dnsMutex | dnsBase | nameServers
  /-- nm_mdns_server.c:47-113 -/
  | mdnsClose | mdns4Socket | mdns4Opened | mdns4Recv | mdns4Send | mdns6Socket | mdns6Opened | mdns6Recv | mdns6Send
  /-- nabto_platform_libevent.c:116-126; thread_event_queue.c:62-69: the object and the running thread -/
  | networkThread | networkRuns | queueThread | queueRuns
  /-- nc_udp_dispatch.c:25,29, three times -/
  | udpSocket | udpRecv | secondarySocket | secondaryRecv | localSocket | localRecv
  /-- nm_mbedtls_srv.c:176 -/
  | dtlsServer
  /-- nc_coap_server.c:36-57 -/
  | coapServer | coapRequests | coapServerEvent | coapServerTimer | coapServerSend
  /-- nc_coap_client.c:30-47 -/
  | coapClientEvent | coapClientTimer | coapClientSend | coapClient
  /-- nc_attacher.c:117-157, nc_keep_alive.c:24, nc_dns_multi_resolver.c:24,28; the tokens (nc_attacher.c:911) cannot fail, nor is
  anything kept for the default roots outside the DTLS client -/
  | reattachTimer | closeEvent | stateEvent | tokens | rootCerts | keepAliveEvent | attachSend | attachResolve | keepAliveSend
  | attachDns4 | attachDns6
  /-- nc_rendezvous.c:23; nc_rendezvous_coap.c:20, the object and its registration -/
  | rendezvousSend | rendezvousResource | rendezvousRegistered
  /-- nc_stun.c:56-80; nc_stun_coap.c:32 -/
  | stunBuffer | stunTimer | stunDns4 | stunDns6 | stunDnsEvent | stunSend | endpointsResource | endpointsRegistered
  /-- nc_spake2.c:28; nc_spake2_coap.c:17,25 -/
  | passwordTimer | password1Resource | password1Registered | password2Resource | password2Registered
  /-- nc_client_connection_dispatch.c:23; nc_stream_manager.c:35; nc_device.c:146 -/
  | dispatchSend | resetSend | socketBound
  /-- nm_tcp_tunnel_coap.c:30-46 -/
  | listResource | listRegistered | serviceResource | serviceRegistered | connectResource | connectRegistered
  /-- nabto_device_future_queue.c:11-25 -/
  | futureThread | futureMutex | futureCondition | futureRuns
  /-- nabto_device.c:176 -/
  | platformClose
deriving DecidableEq, Repr

/-- Resources are compared by their number, which the kernel does fast. -/
instance : BEq Res := ⟨fun a b => Nat.beq a.ctorIdx b.ctorIdx⟩

instance : LawfulBEq Res where
  rfl := Nat.beq_refl _
  eq_of_beq {a b} h := by
    have : a.ctorIdx = b.ctorIdx := Nat.eq_of_beq_eq_true h
    rw [← Res.ofNat_ctorIdx a, this, Res.ofNat_ctorIdx b]

/-- What the deinit functions test: that a pointer was set or a module initialised. -/
inductive Flag
  /-- nabto_platform_libevent.c:132, tested at :163 and :183 -/
  | platformData
  /-- nc_device.c:52, tested at :159 -/
  | core
  /-- `ctx->pl` or `initialized` of the modules: nc_udp_dispatch.c:41, nc_coap_server.c:67, nc_coap_client.c:58, nc_attacher.c:164,
  nc_keep_alive.c:29, nc_rendezvous.c:36, nc_stun.c:100, nc_spake2.c:34, nc_client_connection_dispatch.c:33, nc_stream_manager.c:45 -/
  | udp | secondary | local | coapServer | coapClient | attacher | keepAlive | rendezvous | stun | password | dispatch | streams
  /-- nm_tcp_tunnel.c:46 -/
  | tunnels
  /-- nabto_device_future_queue.c:15, tested at :34 and :46 -/
  | futureQueue
deriving DecidableEq, Repr

/-- How the process can be broken. -/
inductive Ub
  /-- `pthread_join` of a thread which was never started -/
  | joinedUnstarted (t : Res)
  /-- something is given back twice -/
  | freedTwice (r : Res)
  /-- something is given back while a thread is using it -/
  | freedInUse (r : Res)
deriving DecidableEq, Repr

/-- The state of the process. -/
structure St where
  /-- taken and not given back -/
  held : List Res := []
  /-- pointers which are not NULL and `initialized` members of completion events -/
  set : List Res := []
  flags : List Flag := []
  /-- objects of the libraries which were destroyed without having been initialised -/
  raw : List Res := []
  ub : Option Ub := none
deriving DecidableEq, Repr

/-- The threads which use a thing while they run: the event base and the DNS base are used by the network thread; the queue, the mutex of
the core and the platform by both. -/
def users : Res → List Res
  | .eventBase | .dnsBase | .networkThread => [.networkRuns]
  | .queueMutex | .queueCondition | .queueThread => [.queueRuns]
  | .platform | .eventMutex | .context => [.networkRuns, .queueRuns]
  | .futureThread | .futureMutex | .futureCondition => [.futureRuns]
  | _ => []

/-- What the deinit functions do. -/
inductive Act
  /-- give back what a pointer points to, nothing if it is NULL; the pointer is left as it is -/
  | free (r : Res)
  /-- the same, and the pointer is cleared -/
  | drop (r : Res)
  /-- destroy an object of a library, which must have been initialised -/
  | destroy (r : Res)
  /-- `nabto_device_threads_join` of the thread behind a pointer if it is not NULL -/
  | join (thread runs : Res)
  /-- clear a flag -/
  | clear (f : Flag)
deriving DecidableEq, Repr

/-- Giving back. -/
def St.release (s : St) (r : Res) : St :=
  if !s.held.contains r then { s with ub := some (.freedTwice r) }
  else if (users r).any fun u => s.held.contains u then { s with ub := some (.freedInUse r) }
  else { s with held := s.held.erase r }

/-- One action; nothing happens after undefined behaviour. -/
def Act.run (s : St) (a : Act) : St :=
  if s.ub.isSome then s else
  match a with
  | .free r => if s.set.contains r then s.release r else s
  | .drop r => if s.set.contains r then { s.release r with set := s.set.erase r } else s
  | .destroy r => if s.set.contains r then s.release r else { s with raw := r :: s.raw }
  | .join t runs =>
    if s.set.contains t then
      if s.held.contains runs then { s with held := s.held.erase runs } else { s with ub := some (.joinedUnstarted t) }
    else s
  | .clear f => { s with flags := s.flags.erase f }

/-- An action behind the tests of the code. -/
structure Undo where
  guards : List Flag := []
  act : Act
deriving DecidableEq, Repr

def Undo.run (s : St) (u : Undo) : St := if u.guards.all fun f => s.flags.contains f then u.act.run s else s

def undo (l : List Undo) (s : St) : St := l.foldl Undo.run s

/-- `if (flag) { … }` around a deinit function. -/
def within (f : Flag) (l : List Undo) : List Undo := l.map fun u => { u with guards := f :: u.guards }

def acts (l : List Act) : List Undo := l.map fun a => { act := a }

/-- What the init functions do. -/
inductive Cmd
  /-- take; the function returns an error if it fails -/
  | get (r : Res)
  /-- take what cannot fail -/
  | have (r : Res)
  /-- take something; the result is ignored -/
  | ask (r : Res)
  /-- take what is kept inside of another object, and only if that is there -/
  | inside (r owner : Res)
  /-- take each of them; the function returns an error unless all are there (nabto_device_future_queue.c:11-20) -/
  | all (rs : List Res)
  | flag (f : Flag)
deriving DecidableEq, Repr

/-- A command with what is undone if it fails, innermost function first. -/
structure Step where
  cmd : Cmd
  onFail : List Undo := []
deriving DecidableEq, Repr

def steps (l : List Cmd) : List Step := l.map fun c => { cmd := c }

/-- `if (ec != NABTO_EC_OK) { deinit; return ec; }` around a list of steps. -/
def orElse (l : List Step) (d : List Undo) : List Step := l.map fun s => { s with onFail := s.onFail ++ d }

/-- Taking. -/
def St.take (s : St) (r : Res) : St := { s with held := r :: s.held, set := r :: s.set }

/-- A command which may fail, and the state after it. `inside` leaves nothing to be given back. -/
def Cmd.run (ok : Res → Bool) (s : St) : Cmd → Bool × St
  | .get r => if ok r then (true, s.take r) else (false, s)
  | .have r => (true, s.take r)
  | .ask r => (true, if ok r then s.take r else s)
  | .inside r owner => (s.set.contains owner && ok r, s)
  | .all rs => (rs.all ok, (rs.filter ok).foldl St.take s)
  | .flag f => (true, { s with flags := f :: s.flags })

/-- A list of steps: up to the first failure, which is undone. -/
def run (ok : Res → Bool) : List Step → St → Bool × St
  | [], s => (true, s)
  | t :: ts, s =>
    match t.cmd.run ok s with
    | (true, s') => run ok ts s'
    | (false, s') => (false, undo t.onFail s')

/-! ## The platform -/

/-- `thread_event_queue_init`, thread_event_queue.c:41-57. -/
def queueInit : List Step := steps [.get .queueMutex, .get .queueCondition]

/-- `nm_libevent_dns_init`, nm_libevent_dns.c:66-100. -/
def dnsInit : List Step :=
  [{ cmd := .get .dnsMutex },
   { cmd := .get .dnsBase, onFail := acts [.drop .dnsMutex] },
   { cmd := .inside .nameServers .dnsBase, onFail := acts [.drop .dnsMutex, .drop .dnsBase] }]

/-- `nm_mdns_server_init`, nm_mdns_server.c:96-114, with `instance_init`, :47-83. -/
def mdnsInit : List Step :=
  steps [.get .mdnsClose, .get .mdns4Socket, .get .mdns4Opened, .get .mdns4Recv, .get .mdns4Send,
    .get .mdns6Socket, .get .mdns6Opened, .get .mdns6Recv, .get .mdns6Send]

/-- `thread_event_queue_run`, thread_event_queue.c:59-73. -/
def queueRun : List Step := steps [.get .queueThread, .get .queueRuns]

/-- `nabto_device_platform_init`, nabto_platform_libevent.c:55-150: no failure is undone. `nm_libevent_init` cannot fail. -/
def platformInit : List Step :=
  steps [.have .libeventUse, .get .platform, .get .eventBase] ++ queueInit ++ dnsInit ++ mdnsInit ++
    steps [.get .networkThread, .get .networkRuns, .flag .platformData] ++ queueRun

/-- `nabto_device_platform_stop_blocking`, nabto_platform_libevent.c:180-208, with `thread_event_queue_stop_blocking`,
thread_event_queue.c:87-100. Stopping is idempotent through `platform->stopped` and is called once here. -/
def platformStop : List Undo :=
  within .platformData (acts [.join .networkThread .networkRuns, .join .queueThread .queueRuns])

/-- `nabto_device_platform_deinit`, nabto_platform_libevent.c:159-176, with `nm_mdns_server_deinit` (nm_mdns_server.c:85-91,117-122),
`thread_event_queue_deinit` (thread_event_queue.c:75-85) and `nm_libevent_dns_deinit` (nm_libevent_dns.c:121-125). -/
def platformDeinit : List Undo :=
  within .platformData (acts
    [.drop .mdns6Opened, .drop .mdns6Recv, .drop .mdns6Send, .free .mdns6Socket,
     .drop .mdns4Opened, .drop .mdns4Recv, .drop .mdns4Send, .free .mdns4Socket, .drop .mdnsClose,
     .free .queueThread, .free .queueCondition, .free .queueMutex, .free .networkThread,
     .free .dnsMutex, .free .dnsBase, .free .eventBase, .free .libeventUse, .free .platform])

/-! ## The core -/

/-- `nc_udp_dispatch_init`, nc_udp_dispatch.c:22-37. -/
def udpInit (sock recv : Res) (f : Flag) : List Step := steps [.get sock, .get recv, .flag f]

/-- `nc_udp_dispatch_deinit`, nc_udp_dispatch.c:39-46. -/
def udpDeinit (sock recv : Res) (f : Flag) : List Undo := within f (acts [.free sock, .drop recv])

/-- `nc_coap_server_init`, nc_coap_server.c:33-63. -/
def coapServerInit : List Step :=
  steps [.get .coapServer, .get .coapRequests, .flag .coapServer, .get .coapServerEvent, .get .coapServerTimer, .get .coapServerSend]

/-- `nc_coap_server_deinit`, nc_coap_server.c:65-76. -/
def coapServerDeinit : List Undo :=
  within .coapServer (acts [.destroy .coapRequests, .destroy .coapServer, .free .coapServerEvent, .free .coapServerTimer,
    .drop .coapServerSend])

/-- `nc_coap_client_init`, nc_coap_client.c:26-54. -/
def coapClientInit : List Step :=
  steps [.flag .coapClient, .get .coapClientEvent, .get .coapClientTimer, .get .coapClientSend, .get .coapClient]

/-- `nc_coap_client_deinit`, nc_coap_client.c:56-65. -/
def coapClientDeinit : List Undo :=
  within .coapClient (acts [.free .coapClientEvent, .free .coapClientTimer, .drop .coapClientSend, .destroy .coapClient])

/-- `nc_attacher_init`, nc_attacher.c:101-160, with `nc_keep_alive_init` (nc_keep_alive.c:11-25) and `nc_dns_multi_resolver_init`
(nc_dns_multi_resolver.c:17-33). `set_root_certs` (nm_mbedtls_cli.c:516-532) fails without the DTLS client. `sct_init` cannot fail:
`tokens` is the initialised set. -/
def attacherInit : List Step :=
  steps [.flag .attacher, .get .reattachTimer, .get .closeEvent, .get .stateEvent, .have .tokens, .inside .rootCerts .dtlsClient,
    .flag .keepAlive, .get .keepAliveEvent, .get .attachSend, .get .attachResolve, .get .keepAliveSend, .get .attachDns4,
    .get .attachDns6]

/-- `nc_attacher_deinit`, nc_attacher.c:162-200, of an attacher which was never started: `do_close` finds the module closed in the DNS state
and does nothing. -/
def attacherDeinit : List Undo :=
  within .attacher (within .keepAlive (acts [.free .keepAliveEvent]) ++
    acts [.destroy .tokens, .free .stateEvent, .free .reattachTimer, .free .closeEvent, .drop .attachSend, .drop .attachResolve,
      .drop .keepAliveSend, .drop .attachDns4, .drop .attachDns6])

/-- `nc_coap_server_add_resource`, nc_coap_server.c:272-283: the object, then its registration, which is undone with the object
(`nc_coap_server_remove_resource`, :284-301). -/
def resource (r registered : Res) : List Step := steps [.get r, .inside registered r]

/-- `nc_rendezvous_init` (nc_rendezvous.c:19-32) and `nc_rendezvous_coap_init` (nc_rendezvous_coap.c:15-29). -/
def rendezvousInit : List Step :=
  steps [.get .rendezvousSend, .flag .rendezvous] ++
    orElse (resource .rendezvousResource .rendezvousRegistered) (acts [.drop .rendezvousResource])

/-- `nc_rendezvous_coap_deinit` (nc_rendezvous_coap.c:31-37) and `nc_rendezvous_deinit` (nc_rendezvous.c:34-40). -/
def rendezvousDeinit : List Undo :=
  acts [.drop .rendezvousResource] ++ within .rendezvous (acts [.drop .rendezvousSend])

/-- `nc_stun_init` (nc_stun.c:51-88) and `nc_stun_coap_init` (nc_stun_coap.c:27-41). -/
def stunInit : List Step :=
  steps [.get .stunBuffer, .get .stunTimer, .get .stunDns4, .get .stunDns6, .get .stunDnsEvent, .get .stunSend, .flag .stun] ++
    orElse (resource .endpointsResource .endpointsRegistered) (acts [.drop .endpointsResource])

/-- `nc_stun_coap_deinit` (nc_stun_coap.c:43-49) and `nc_stun_deinit` (nc_stun.c:98-114). -/
def stunDeinit : List Undo :=
  acts [.drop .endpointsResource] ++
    within .stun (acts [.free .stunBuffer, .free .stunTimer, .drop .stunDnsEvent, .drop .stunSend, .drop .stunDns4, .drop .stunDns6,
      .clear .stun])

/-- `nc_spake2_init` (nc_spake2.c:20-30), which does not look at the result, and `nc_spake2_coap_init` (nc_spake2_coap.c:16-31). -/
def passwordInit : List Step :=
  steps [.ask .passwordTimer, .flag .password] ++ resource .password1Resource .password1Registered ++
    resource .password2Resource .password2Registered

/-- `nc_spake2_coap_deinit` (nc_spake2_coap.c:33-43) and `nc_spake2_deinit` (nc_spake2.c:32-37). -/
def passwordDeinit : List Undo :=
  acts [.drop .password1Resource, .drop .password2Resource] ++ within .password (acts [.free .passwordTimer])

/-- `nc_device_deinit`, nc_device.c:158-206, of a device without connections, streams and names. -/
def coreDeinit : List Undo :=
  within .core (passwordDeinit ++ within .streams (acts [.drop .resetSend]) ++ within .dispatch (acts [.drop .dispatchSend]) ++
    stunDeinit ++ rendezvousDeinit ++ attacherDeinit ++ coapClientDeinit ++ coapServerDeinit ++ acts [.free .dtlsServer] ++
    udpDeinit .udpSocket .udpRecv .udp ++ udpDeinit .localSocket .localRecv .local ++
    udpDeinit .secondarySocket .secondaryRecv .secondary ++ acts [.drop .socketBound, .clear .core])

/-- `nc_device_init`, nc_device.c:26-156. The result of the event of the stream manager (nc_stream_manager.c:35) is not looked at;
`nc_connections_init` cannot fail. -/
def coreInit : List Step :=
  orElse (steps [.flag .core] ++ udpInit .udpSocket .udpRecv .udp ++ udpInit .secondarySocket .secondaryRecv .secondary ++
    udpInit .localSocket .localRecv .local ++ steps [.get .dtlsServer] ++ coapServerInit ++ coapClientInit ++ attacherInit ++
    rendezvousInit ++ stunInit ++ passwordInit ++ steps [.get .dispatchSend, .flag .dispatch, .flag .streams, .ask .resetSend,
      .get .socketBound]) coreDeinit

/-! ## The device -/

/-- `nm_tcp_tunnel_coap_deinit`, nm_tcp_tunnel_coap.c:55-69. -/
def tunnelCoapDeinit : List Undo := acts [.drop .listResource, .drop .serviceResource, .drop .connectResource]

/-- `nm_tcp_tunnels_init` (nm_tcp_tunnel.c:25-42) with `nm_tcp_tunnel_coap_init` (nm_tcp_tunnel_coap.c:28-53). -/
def tunnelsInit : List Step :=
  steps [.flag .tunnels] ++ orElse (resource .listResource .listRegistered ++ resource .serviceResource .serviceRegistered ++
    resource .connectResource .connectRegistered) tunnelCoapDeinit

/-- `nabto_device_future_queue_deinit`, nabto_device_future_queue.c:32-42. -/
def futureQueueDeinit : List Undo :=
  within .futureQueue (acts [.free .futureCondition, .free .futureMutex, .free .futureThread, .clear .futureQueue])

/-- `nabto_device_future_queue_init`, nabto_device_future_queue.c:9-30. -/
def futureQueueInit : List Step :=
  steps [.flag .futureQueue] ++ orElse (steps [.all [.futureThread, .futureMutex, .futureCondition], .get .futureRuns]) futureQueueDeinit

/-- `nabto_device_do_stop`, nabto_device.c:210-216, with `nabto_device_future_queue_stop`, nabto_device_future_queue.c:44-59. -/
def doStop : List Undo := platformStop ++ within .futureQueue (acts [.join .futureThread .futureRuns])

/-- `nabto_device_free` after its call of `nabto_device_stop`, nabto_device.c:230-262. -/
def freeRest : List Undo :=
  coreDeinit ++ acts [.drop .platformClose] ++ platformDeinit ++ acts [.free .random, .free .dtlsClient] ++ futureQueueDeinit ++
    acts [.drop .eventMutex, .free .context]

/-- `nabto_device_new_resolve_failure`, nabto_device.c:63-68: `closing` is set first, so that `nabto_device_stop` in `nabto_device_free`
returns at once (:190-192). -/
def resolveFailure : List Undo := doStop ++ freeRest

/-- `nabto_device_new`, nabto_device.c:73-183. The results of the functions which set up MbedTLS (:95-104) are not looked at. -/
def creation : List Step :=
  steps [.get .context] ++
    orElse (steps [.get .eventMutex, .ask .dtlsClient, .ask .random] ++ platformInit ++ coreInit ++ tunnelsInit ++ futureQueueInit ++
      steps [.get .platformClose]) resolveFailure

/-- `nabto_device_new` in a fresh process: whether there is a device, and the state. -/
def new (ok : Res → Bool) : Bool × St := run ok creation {}

/-- `nabto_device_stop`, nabto_device.c:188-208, of a device which was not started: `nm_tcp_tunnels_deinit` (nm_tcp_tunnel.c:44-59) and
`nabto_device_do_stop`. -/
def stop : List Undo := within .tunnels tunnelCoapDeinit ++ doStop

/-- `nabto_device_free`, nabto_device.c:221-263, of a device. -/
def free (s : St) : St := undo (stop ++ freeRest) s

end Verif.Device.Create
