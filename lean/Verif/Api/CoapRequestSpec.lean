import Verif.Api.CoapRequest
import Verif.Iam.RecordSpec

/-! # CoAP requests on their way to the application: what is meant -/

namespace Verif.Api.CoapRequest.Spec
open Verif.Iam.Record Verif.Iam.Record.Spec

/-- The blocks of a request. -/
def ofReq (r : Req) : List Nat := [r.api, r.lib, r.wrap]

def ofPhase : Phase → List Nat
  | .listening res nc => [nc, res]
  | _ => []

/-- The memory in use for a reason: the requests which wait, the requests the application has, the listener. -/
def held (s : St) : List Nat := s.queue.flatMap ofReq ++ (s.given.flatMap ofReq ++ ofPhase s.phase)

/-- How many blocks a step loses. -/
def lost (s : St) : Op → Nat
  | .stop => match s.phase with
    | .listening _ _ => 2 * s.queue.length
    | _ => 0
  | .init false => if s.phase = .fresh ∧ s.mem.ok s.mem.asked = true ∧ s.mem.ok (s.mem.asked + 1) = true then 1 else 0
  | _ => 0

/-- How many blocks a run loses. -/
def lostIn (s : St) : List Op → Nat
  | [] => 0
  | o :: ops => (if s.crashed then 0 else lost s o) + lostIn (step s o) ops

/-- The request a step brings to the device: there is a listener for it and the library has memory for it. -/
def comes (s : St) : Op → List Nat
  | .arrive id => match s.phase with
    | .listening _ _ => if s.mem.ok s.mem.asked then [id] else []
    | _ => []
  | _ => []

/-- The requests a run brings to the device, in order. -/
def came (s : St) : List Op → List Nat
  | [] => []
  | o :: ops => (if s.crashed then [] else comes s o) ++ came (step s o) ops

end Verif.Api.CoapRequest.Spec
