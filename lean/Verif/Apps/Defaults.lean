import Verif.Iam.Machine

/-!
# The access control the tunnel device is shipped with — model

`/repo/apps/tcp_tunnel_device/src/iam_config.c:32-135` writes the default configuration,
`/repo/apps/tcp_tunnel_device/src/tcp_tunnel_init.c:192-215` the default state and
`tcp_tunnel_init.c:280-320` the state of the demo setup.

Simplifications: allocations succeed (a failed one crashes the set-up program, which does not check any of
them); passwords and tokens, produced by `random_password`, are arguments.
-/

namespace Verif.Apps

open Verif.Iam

/-- The policy `Pairing`, `iam_config.c:38-47`. -/
def pairingPolicy : Policy :=
  ⟨"Pairing", [⟨.allow, ["IAM:GetPairing", "IAM:PairingPasswordInvite", "IAM:PairingLocalInitial",
    "IAM:PairingLocalOpen", "IAM:PairingPasswordOpen"], []⟩]⟩

/-- The policy `Tunnelling`, `iam_config.c:49-56`. -/
def tunnellingPolicy : Policy :=
  ⟨"Tunnelling", [⟨.allow, ["TcpTunnel:GetService", "TcpTunnel:Connect", "TcpTunnel:ListServices"], []⟩]⟩

/-- The policy `ManageIAM`, `iam_config.c:58-73`. -/
def managePolicy : Policy :=
  ⟨"ManageIAM", [⟨.allow, ["IAM:ListUsers", "IAM:GetUser", "IAM:DeleteUser", "IAM:SetUserRole", "IAM:ListRoles",
    "IAM:CreateUser", "IAM:SetUserPassword", "IAM:SetUserDisplayName", "IAM:SetSettings", "IAM:GetSettings",
    "IAM:SetDeviceInfo"], []⟩]⟩

/-- The policy `ManageOwnUser`, `iam_config.c:75-91`. -/
def ownPolicy : Policy :=
  ⟨"ManageOwnUser",
    [⟨.allow, ["IAM:GetUser", "IAM:DeleteUser", "IAM:SetUserDisplayName"],
      [⟨.stringEquals, "IAM:Username", ["${Connection:Username}"]⟩]⟩,
     ⟨.allow, ["IAM:ListRoles", "IAM:ListUsers"], []⟩]⟩

/-- `iam_config_create_default`, `iam_config.c:32-122`. -/
def defaultConfig : Config :=
  { policies := [pairingPolicy, tunnellingPolicy, managePolicy, ownPolicy]
    roles := [⟨"Unpaired", ["Pairing"]⟩,
      ⟨"Administrator", ["ManageIAM", "Tunnelling", "Pairing"]⟩,
      ⟨"Standard", ["Tunnelling", "Pairing", "ManageOwnUser"]⟩,
      ⟨"Guest", ["Pairing", "ManageOwnUser"]⟩]
    unpairedRole := some "Unpaired" }

/-- `create_state_default`, `tcp_tunnel_init.c:192-215`; the four results of `random_password` are the arguments. -/
def defaultState (password sct openPassword openSct : Option String) : IamState :=
  { users := [{ addr := 0, username := "admin", role := some "Administrator", password := password, sct := sct }]
    passwordOpenPassword := openPassword
    passwordOpenSct := openSct
    initialPairingUsername := some "admin"
    openPairingRole := some "Guest"
    passwordInvitePairing := true
    friendlyName := some "Tcp Tunnel" }

end Verif.Apps
