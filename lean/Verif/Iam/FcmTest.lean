import Verif.Iam.State
import Verif.Json.Cjson

/-!
# The test of push notifications — model

`POST /iam/users/{user}/fcm-test`, `nm_iam_send_fcm_test.c`: what is sent and to whom. The answers and the memory are in
`Iam/Service`, the way to the basestation in `Device/Ask`.

Simplifications: `nn_strcat` (not in the repository) appends, which succeeds since the buffer has the size of the result
(`nm_iam_send_fcm_test.c:127`). The result of inserting the attribute is not looked at (as in the code) and taken to be
success.
-/

namespace Verif.Iam.FcmTest

open Verif.Json (Bytes enc)

/-- `nm_iam_send_fcm_test.c:14`. -/
def noti1 : Bytes :=
  enc "{\"message\": { \"notification\": { \"title\": \"Test notification\", \"body\": \"Notifications are working\" }, \"token\": \""

/-- `nm_iam_send_fcm_test.c:15`. -/
def noti2 : Bytes := enc "\" } }"

/-- `nm_iam_send_fcm_test.c:165-167`. -/
def payload (token : String) : Bytes := noti1 ++ enc token ++ noti2

inductive Out
  /-- an error response -/
  | error (code : Nat)
  /-- a notification is given to `nabto_device_fcm_send` -/
  | send (project : String) (payload : Bytes)
  | ub
  deriving DecidableEq, Repr

/-- `handle_request`, `nm_iam_send_fcm_test.c:92-196`. `user`: the parameter of the path, `mem`: whether all allocations
and setters succeed. -/
def request (E : Env) (iam : Iam) (ci : ConnInfo) (ref : Nat) (user : Option String) (mem : Bool) : Out :=
  match user with
  | none => .error 400
  | some name =>
    match checkAccess E iam ci ref "IAM:SendUserFcmTest" (E.ins [] "IAM:Username" name) with
    | .ub => .ub
    | .ok false => .error 403
    | .ok true =>
      match findUser iam.state (some name) with
      | none => .error 404
      | some u =>
        match u.fcmToken, u.fcmProjectId with
        | some token, some project => if mem then .send project (payload token) else .error 500
        | _, _ => .error 404

end Verif.Iam.FcmTest
