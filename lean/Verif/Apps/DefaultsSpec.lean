import Verif.Iam.MachineSpec
import Verif.Iam.CoapSpec

/-!
# The access control the tunnel device is shipped with — specification

Who may do what, as a table, and how a client comes to have the rights of an administrator.
-/

namespace Verif.Apps.Spec

open Verif.Iam Verif.Iam.Spec

/-- The name of the role somebody has; nobody is `Unpaired`. -/
def roleOf : Option User → Option String
  | some u => u.role
  | none => some "Unpaired"

/-- The user a request is about. -/
def target (supplied : Attrs) : Option String := supplied.reverse.lookup "IAM:Username"

/-- Who may do what. -/
inductive May (who : Option User) (action : String) (supplied : Attrs) : Prop
  | pair : roleOf who ∈ [some "Unpaired", some "Administrator", some "Standard", some "Guest"] →
      action ∈ ["IAM:GetPairing", "IAM:PairingPasswordInvite", "IAM:PairingLocalInitial", "IAM:PairingLocalOpen",
        "IAM:PairingPasswordOpen"] → May who action supplied
  | tunnel : roleOf who ∈ [some "Administrator", some "Standard"] →
      action ∈ ["TcpTunnel:GetService", "TcpTunnel:Connect", "TcpTunnel:ListServices"] → May who action supplied
  | admin : roleOf who = some "Administrator" →
      action ∈ ["IAM:ListUsers", "IAM:GetUser", "IAM:DeleteUser", "IAM:SetUserRole", "IAM:ListRoles", "IAM:CreateUser",
        "IAM:SetUserPassword", "IAM:SetUserDisplayName", "IAM:SetSettings", "IAM:GetSettings", "IAM:SetDeviceInfo"] →
      May who action supplied
  | list : roleOf who ∈ [some "Standard", some "Guest"] → action ∈ ["IAM:ListRoles", "IAM:ListUsers"] →
      May who action supplied
  | own (u : User) : who = some u → u.role ∈ [some "Standard", some "Guest"] →
      action ∈ ["IAM:GetUser", "IAM:DeleteUser", "IAM:SetUserDisplayName"] →
      target supplied = some u.username → May who action supplied

/-- The request is about the user `n` alone: it removes them or names them. -/
def AboutSelf (n : String) : Req → Prop
  | .deleteUser m => m = n
  | .setDisplayName m _ => m = n
  | _ => False

/-- The event comes from a client or from the device itself, not from the application: the tunnel device calls nothing
that changes users once it runs. -/
def Remote : Ev → Prop
  | .api _ _ => False
  | _ => True

/-- A remote event which is not a request of an administrator. -/
def Outsider (iam : Iam) (e : Ev) : Prop :=
  Remote e ∧ ∀ ref d r u, e = .coap ref d r → ActsAs iam d.ci ref (some u) → u.role ≠ some "Administrator"

/-- The event gives the key `fp` to the user `u`: local initial pairing of the initial user, who has no key yet, or pairing
with the password of the user. -/
inductive Claims (iam : Iam) (u : User) (fp : String) : Ev → Prop
  | initial (ref d p) : PairingOk iam d (.pairLocalInitial p) → iam.state.initialPairingUsername = some u.username →
      d.ci2.fingerprint = some fp → Claims iam u fp (.coap ref d (.pairLocalInitial p))
  | invite (ref d p) : PairingOk iam d (.pairPasswordInvite p) → d.ci2.pwUser = some u.username →
      d.ci2.fingerprint = some fp → Claims iam u fp (.coap ref d (.pairPasswordInvite p))

/-- Nothing about the connection changes while a request is handled. -/
def Steady : Ev → Prop
  | .coap _ d _ => d.ci2 = d.ci
  | _ => True

end Verif.Apps.Spec
