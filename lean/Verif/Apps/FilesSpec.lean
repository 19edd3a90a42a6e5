import Verif.Apps.Files

/-!
# Files of the example applications — specification
-/

namespace Verif.Apps

open Verif.Json (Bytes)
open Verif.Iam (IamState validateUsername)
open Verif.Iam.Spec (stateStrings CString)

namespace Spec

/-- Writing got as far as emptying the file: the first attempt to open it succeeded. -/
def touched : List WEv → Bool
  | [] => false
  | .open ok :: _ => ok
  | _ :: l => touched l

/-- The state with the default friendly name if it has none, and nothing else changed. -/
def withName (st : IamState) : IamState := { st with friendlyName := some (st.friendlyName.getD "Tcp Tunnel") }

/-- The state which the device tried to write last; attempts which could not even open the file do not count. -/
def lastWritten : List Ev → Option IamState
  | [] => none
  | e :: l =>
    match lastWritten l with
    | some st => some st
    | none =>
      match e with
      | .save st w => if touched w then some st else none
      | .start _ st w => if st.friendlyName = none ∧ touched w then some (withName st) else none

/-- A state as the IAM module keeps it: names of users are valid, categories are a set, strings are C strings. -/
def Proper (st : IamState) : Prop :=
  (∀ u ∈ st.users, validateUsername u.username = true ∧ u.notificationCategories.Nodup) ∧
    ∀ s ∈ stateStrings st, CString s

/-- The whole file is read. -/
def Complete (io : ReadIo) (d : Disk) : Prop :=
  io.openSize = true ∧ io.alloc = true ∧ io.openRead = true ∧ ∀ f, d = some f → f.length ≤ io.delivered

/-- Writing was not disturbed: the file was opened, `fwrite` took everything, and `fclose` wrote what was left. -/
def undisturbed (content : Bytes) : List WEv := [.open true, .put content.length, .close none]

/-- A torn key is not another key: a part of the text of a key is not a key, or it is the same key (the text without its last
line feed). -/
def KeyText {K} (P : Pem K) (text : Bytes) : Prop :=
  0 ∉ text ∧ ∀ p q, text = p ++ q → P.read p = none ∨ P.read p = P.read text

end Spec

end Verif.Apps
