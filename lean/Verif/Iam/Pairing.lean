import Verif.Iam.Login
import Verif.Iam.Coap

/-!
# Pairing with a password, from the network to the new pairing — model

The password authentication of the core with the IAM module (`Iam/Login`), and the CoAP requests of the IAM module
(`Iam/Coap`), which ask the core about the connection they come from.

Simplifications: those of `Iam/Login` and `Iam/Coap`. What the core says about passwords is taken not to change
while one request is handled, although the core may run on another thread meanwhile.
-/

namespace Verif.Iam.Pairing

open Verif.Core.Spake2 (isAuthenticated getUsername)
open Verif.Iam.Login (Sys info)

/-- What a request of connection `c` sees of the device: its password authentication is that of the core,
`nm_iam_internal.c:47-54`, `nm_iam_pairing_password_open.c:38-41`, `nm_iam_pairing_password_invite.c:35-42`. -/
def dev (s : Sys) (c : Nat) (d : Dev) : Dev := { d with ci := info s c d.ci, ci2 := info s c d.ci2 }

/-- A CoAP request of connection `c`. Reading a name the core could not store is undefined
(`nabto_device_password_authentication.c:87`); simplified: taken as undefined for each request of such a connection. -/
def request (E : Env) (s : Sys) (c : Nat) (d : Dev) (r : Req) : HRes :=
  if isAuthenticated s.core c = true ∧ getUsername s.core c = .ub then .ub
  else handle E s.iam (dev s c d) c r

inductive Op
  /-- the password authentication, and changes of the IAM module by the application -/
  | login (o : Login.Op)
  /-- a request of a client to the IAM module -/
  | request (c : Nat) (d : Dev) (r : Req)

/-- One step; `none` is undefined behaviour. -/
def step (E : Env) (s : Sys) : Op → Option Sys
  | .login o => some (Login.step s o).1
  | .request c d r =>
    match request E s c d r with
    | .ub => none
    | .done iam' _ => some { s with iam := iam' }

def run (E : Env) (s : Sys) : List Op → Option Sys
  | [] => some s
  | o :: ops => (step E s o).bind (run E · ops)

end Verif.Iam.Pairing
