import Verif.Apps.Services
import Verif.Apps.FilesSpec

/-!
# The services and the device configuration of the tunnel device — specification
-/

namespace Verif.Apps.Spec

open Verif.Apps
open Verif.Json (Json Bytes R Strtod enc lower)
open Verif.Iam (Doc)
open Verif.Iam.Spec (CString)

/-- A text loads as a list of services. -/
def ServicesLoad (S : Strtod) (text : Bytes) (l : List Service) : Prop :=
  ∃ doc : Doc, Json.parse S text = .ok (doc.map enc) ∧ loadServices doc = .ok l

/-- A text loads as a device configuration. -/
def DeviceLoads (S : Strtod) (text : Bytes) (dc : DeviceConfig) : Prop :=
  ∃ doc : Doc, Json.parse S text = .ok (doc.map enc) ∧ deviceConfigFromJson doc = .ok dc

/-- A service as the API accepts it: C strings, a port, no metadata key twice. -/
def ProperService (s : Service) : Prop :=
  CString s.id ∧ CString s.type ∧ CString s.host ∧ s.port ≤ 65535 ∧ (s.metadata.map (·.1)).Nodup ∧
    ∀ e ∈ s.metadata, CString e.1 ∧ CString e.2

/-- The value of a member: the first one with the name, whatever the case of its letters. -/
def member (ms : List (String × Doc)) (name : String) : Option Doc :=
  ((ms.filter (fun m => lower m.1 = lower name)).head?).map (·.2)

/-- The text which a member has, the last one if there are several. -/
def lastText (ms : List (String × Doc)) (key : String) : Option String :=
  ((ms.filterMap (fun m => match m.2 with
    | .str v => if m.1 = key then some v else none
    | _ => none)).getLast?)

/-- A document describes a service. -/
def Describes (doc : Doc) (s : Service) : Prop :=
  ∃ ms, doc = .obj ms ∧ member ms "Id" = some (.str s.id) ∧ member ms "Type" = some (.str s.type) ∧
    member ms "Host" = some (.str s.host) ∧ member ms "Port" = some (.num s.port) ∧ s.port ≤ 65535 ∧
    ∀ key, s.metadata.lookup key =
      match member ms "Metadata" with
      | some (.obj l) => lastText l key
      | _ => none

/-- A document has all that a service needs. -/
def WellFormed (doc : Doc) : Prop :=
  ∃ ms a b c, ∃ p : Nat, doc = .obj ms ∧ member ms "Id" = some (.str a) ∧ member ms "Type" = some (.str b) ∧
    member ms "Host" = some (.str c) ∧ member ms "Port" = some (.num p) ∧ p ≤ 65535

end Verif.Apps.Spec
