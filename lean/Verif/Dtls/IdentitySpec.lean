import Verif.Dtls.Identity

/-!
# Which key a device has after it was started — specification
-/

namespace Verif.Dtls.Identity.Spec

/-- `k` is the key which was set last. -/
def LastKey (ops : List Op) (k : Nat) : Prop :=
  ∃ pre post, ops = pre ++ .setKey k :: post ∧ ∀ j, .setKey j ∉ post

/-- No start got as far as the keys: none was called after a key was set. -/
def Untried (ops : List Op) : Prop := ∀ pre k post w, ops = pre ++ .setKey k :: post → .start w ∉ post

/-- Client and server of the device show the certificate of `k`, have its private key, and the fingerprint is that of `k`. -/
structure Is (s : St) (k : Nat) : Prop where
  client : s.cliCrt = [k]
  clientKey : s.cliPk = some k
  server : s.srvCrt.head? = some k
  serverKey : s.srvPk = some k
  fingerprint : s.fp = some k

end Verif.Dtls.Identity.Spec
