import Verif.Iam.FcmTest
import Verif.Iam.AccessSpec

/-!
# The test of push notifications — specification
-/

namespace Verif.Iam.FcmTest.Spec

open Verif.Json (Json Bytes enc)

/-- The notification a test shows, for the device with this token. -/
def testMessage (token : Bytes) : Json Bytes :=
  .obj [(enc "message", .obj [
    (enc "notification", .obj [(enc "title", .str (enc "Test notification")), (enc "body", .str (enc "Notifications are working"))]),
    (enc "token", .str token)])]

/-- Text without quotes, backslashes and control characters. -/
def Plain (s : String) : Prop := ∀ c ∈ enc s, 31 < c ∧ c ≠ 34 ∧ c ≠ 92

/-- A token which carries more than a token: `x` is the token, `t` a title. -/
def crafted (x t : String) : String := x ++ "\", \"notification\": { \"title\": \"" ++ t ++ "\" }, \"data\": \""

/-- The message which is sent for it. -/
def craftedMessage (x t : Bytes) : Json Bytes :=
  .obj [(enc "message", .obj [
    (enc "notification", .obj [(enc "title", .str (enc "Test notification")), (enc "body", .str (enc "Notifications are working"))]),
    (enc "token", .str x),
    (enc "notification", .obj [(enc "title", .str t)]),
    (enc "data", .str (enc ""))])]

end Verif.Iam.FcmTest.Spec
