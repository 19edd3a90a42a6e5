import Verif.Iam.Machine
import Verif.Iam.AccessSpec

/-!
# IAM histories — specification

What the properties about histories say, in terms of the data of the module only.
-/

namespace Verif.Iam.Spec

open Verif.Iam

/-- The documented alphabet of usernames. -/
def nameChars : List Char := "abcdefghijklmnopqrstuvwxyz0123456789_.-".toList

/-- A valid username. -/
def ValidName (s : String) : Prop := s.toList ≠ [] ∧ ∀ c ∈ s.toList, c ∈ nameChars

/-- Usernames are pairwise different, valid and at most `M` bytes long. -/
structure NamesOk (M : Nat) (users : List User) : Prop where
  distinct : (users.map User.username).Nodup
  valid : ∀ u ∈ users, ValidName u.username
  length : ∀ u ∈ users, strlen u.username ≤ M

/-- No client key is registered for two users (`addr` is the identity of a user object). -/
def KeysUnique (users : List User) : Prop :=
  ∀ u ∈ users, ∀ w ∈ users, ∀ fp, Owns fp u → Owns fp w → u.addr = w.addr

/-- User objects are distinct objects in memory, and the allocator has not handed out the next one yet.
Holds for an empty module and for whatever is loaded into it. -/
structure WellFormed (iam : Iam) : Prop where
  allocated : ∀ u ∈ iam.state.users, u.addr < iam.nextAddr
  distinct : (iam.state.users.map User.addr).Nodup

/-- A history of operations, each of which satisfies `P` in the state it is performed in. -/
inductive Exec (E : Env) (P : Iam → Ev → Prop) : Iam → List Ev → Iam → Prop
  | nil (iam) : Exec E P iam [] iam
  | cons (iam iam1 iam2 e es) : P iam e → step E iam e = some iam1 → Exec E P iam1 es iam2 →
      Exec E P iam (e :: es) iam2

/-- Every authorised connection refers to an existing user object. -/
def PointersLive (iam : Iam) : Prop :=
  ∀ c ∈ iam.authorized, ∃ u ∈ iam.state.users, u.addr = c.2

/-- The operation does not free the user object of an authorised connection. -/
def KeepsPointers (iam : Iam) : Ev → Prop
  | .api _ (.deleteUser n) => ∀ u ∈ iam.state.users, u.username = n → ∀ c ∈ iam.authorized, c.2 ≠ u.addr
  | .coap _ _ (.deleteUser n) => ∀ u ∈ iam.state.users, u.username = n → ∀ c ∈ iam.authorized, c.2 ≠ u.addr
  | .api _ (.loadState _ _) => iam.authorized = []
  | _ => True

/-- The operation does not authorise a connection that is authorised already. -/
def AuthorizesOnce (iam : Iam) : Ev → Prop
  | .api _ (.authorizeConnection ref _) => ∀ c ∈ iam.authorized, c.1 ≠ ref
  | _ => True

/-- Nothing the application would lose: it has the current state, or a report is on its way. -/
def Reported (iam : Iam) : Prop := iam.persisted = iam.state ∨ (iam.changed = true ∧ iam.due > 0)

/-- The calls after which the module runs the state changed callback: requests, pairing mode setters. -/
def Reports : Ev → Bool
  | .coap _ _ _ => true
  | .closed _ => true
  | .callbacks => true
  | .api _ (.setLocalOpenPairing _) => true
  | .api _ (.setPasswordOpenPairing _) => true
  | .api _ (.setPasswordInvitePairing _) => true
  | .api _ (.setLocalInitialPairing _) => true
  | .api _ (.loadState _ _) => true
  | .api _ (.loadConfiguration _) => true
  | .api _ (.authorizeConnection _ _) => true
  | .api _ (.setLimits _) => true
  | .api _ (.setNotificationCategories _) => true
  | _ => false

end Verif.Iam.Spec
