import Verif.Core.IceServers
import Verif.Iam.RecordSpec

/-! # The ICE servers of an answer: specification -/

namespace Verif.Core.Ice.Spec
open Verif.Iam.Record Verif.Iam.Record.Spec Verif.Core.Ice

/-- What an application sees of a server. -/
structure Seen where
  username : Option String
  credential : Option String
  urls : List String
  deriving DecidableEq, Repr

/-- The getters, nabto_device_ice_servers.c:80-126. -/
def seen (s : Slot) : Seen := ⟨text s.server.username, text s.server.credential, s.server.urls.map fun u => u.str.val⟩

/-- A map of the answer says this, if its `Urls` are an array of texts. -/
def Says (e : Entry) (s : Seen) : Prop :=
  e.username = s.username ∧ e.credential = s.credential ∧ e.urls = .array (s.urls.map fun u => ⟨some u, true⟩) true

/-- The answer says this. -/
def SaysAll : List Entry → List Seen → Prop
  | [], [] => True
  | e :: l, s :: r => Says e s ∧ SaysAll l r
  | _, _ => False

/-- The blocks of a url, a server, and a server in the vector. -/
def ofUrl (u : Url) : List Nat := [u.str.blk, u.slot]
def ofServer (s : Server) : List Nat := s.urls.flatMap ofUrl ++ ofStr s.username ++ ofStr s.credential
def ofSlot (s : Slot) : List Nat := ofServer s.server ++ [s.slot]

end Verif.Core.Ice.Spec
