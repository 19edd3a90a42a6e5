import Verif.Device.Create

/-!
# Specification for C132

A device is made or it is not. If it is not, everything is as before: nothing is kept, no thread runs, the process is intact. If it is, freeing it
gives everything back.
-/

namespace Verif.Device.Create.Spec
open Verif.Device.Create

/-- Everything is as before: nothing is kept, nothing was broken, nothing was destroyed which did not exist. -/
def Clean (s : St) : Prop := s.held = [] ∧ s.ub = none ∧ s.raw = []

instance (s : St) : Decidable (Clean s) := inferInstanceAs (Decidable (_ ∧ _ ∧ _))

/-- Running threads. -/
def threads : List Res := [.networkRuns, .queueRuns, .futureRuns]

/-- What fails inside of `nabto_device_platform_init`, where no failure is undone. -/
def platformFailures : List Res :=
  [.platform, .eventBase, .queueMutex, .queueCondition, .dnsMutex, .dnsBase, .nameServers, .mdnsClose, .mdns4Socket, .mdns4Opened,
   .mdns4Recv, .mdns4Send, .mdns6Socket, .mdns6Opened, .mdns6Recv, .mdns6Send, .networkThread, .networkRuns]

/-- What fails in a module of the core before the module is marked as initialised, so that what it has is not given back. -/
def moduleFailures : List Res :=
  [.udpRecv, .secondaryRecv, .localRecv, .coapRequests, .stunTimer, .stunDns4, .stunDns6, .stunDnsEvent, .stunSend]

/-- What fails in a module which is marked as initialised too early, so that what it does not have is destroyed. -/
def earlyFailures : List Res :=
  [.coapClientEvent, .coapClientTimer, .coapClientSend, .coapClient, .reattachTimer, .closeEvent, .stateEvent]

/-- What fails after the tunnels are there, which are only given back by a stop. -/
def lateFailures : List Res := [.futureThread, .futureMutex, .futureCondition, .futureRuns, .platformClose]

/-- All failures after which the process is not as before. -/
def unhandled : List Res := platformFailures ++ [.queueRuns] ++ moduleFailures ++ earlyFailures ++ lateFailures

/-- What a device needs and is made without if it cannot be had: random numbers, the timer of the password tokens and the
event to answer unknown streams with. -/
def neglected : List Res := [.random, .passwordTimer, .resetSend]

/-- What a device needs besides. -/
def needed : List Res :=
  [.context, .eventMutex, .dtlsClient, .platform, .eventBase, .queueMutex, .queueCondition, .dnsMutex, .dnsBase, .mdnsClose, .mdns4Socket,
   .mdns4Opened, .mdns4Recv, .mdns4Send, .mdns6Socket, .mdns6Opened, .mdns6Recv, .mdns6Send, .networkThread, .networkRuns, .queueThread,
   .queueRuns, .udpSocket, .udpRecv, .secondarySocket, .secondaryRecv, .localSocket, .localRecv, .dtlsServer, .coapServer, .coapRequests,
   .coapServerEvent, .coapServerTimer, .coapServerSend, .coapClientEvent, .coapClientTimer, .coapClientSend, .coapClient,
   .reattachTimer, .closeEvent, .stateEvent, .keepAliveEvent, .attachSend, .attachResolve, .keepAliveSend, .attachDns4, .attachDns6,
   .rendezvousSend, .rendezvousResource, .stunBuffer, .stunTimer, .stunDns4, .stunDns6, .stunDnsEvent, .stunSend, .endpointsResource,
   .password1Resource, .password2Resource, .dispatchSend, .socketBound, .listResource, .serviceResource, .connectResource,
   .futureThread, .futureMutex, .futureCondition, .futureRuns, .platformClose]

end Verif.Device.Create.Spec
