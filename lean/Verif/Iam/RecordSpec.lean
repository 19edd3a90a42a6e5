import Verif.Iam.Record

/-!
# Users and states of the IAM module as blocks of memory — specification

What the records say, which blocks they are made of, and what a program that builds a user asked for.
-/

namespace Verif.Iam.Record.Spec

open Verif.Iam Verif.Iam.Record Verif.Json

/-- What a string that may be missing says. -/
def text (s : Option Str) : Option String := s.map Str.val

/-- What a user says; the identity is left out. -/
def value (u : RUser) : User where
  addr := 0
  username := u.username.val
  displayName := text u.displayName
  role := text u.role
  password := text u.password
  sct := text u.sct
  fcmToken := text u.fcmToken
  fcmProjectId := text u.fcmProjectId
  notificationCategories := u.categories.map Str.val
  oauthSubject := text u.oauthSubject
  fingerprints := u.fingerprints.map (fun f => ⟨f.fingerprint.val, text f.name⟩)

/-- What a state says. -/
def stateValue (s : RState) : IamState where
  users := s.users.map value
  passwordOpenPassword := text s.passwordOpenPassword
  passwordOpenSct := text s.passwordOpenSct
  passwordOpenPairing := s.passwordOpenPairing
  localOpenPairing := s.localOpenPairing
  passwordInvitePairing := s.passwordInvitePairing
  localInitialPairing := s.localInitialPairing
  openPairingRole := text s.openPairingRole
  initialPairingUsername := text s.initialPairingUsername
  friendlyName := text s.friendlyName

/-- The block of a string that may be missing. -/
def ofStr (s : Option Str) : List Nat := s.toList.map Str.blk

/-- The blocks of a fingerprint. -/
def ofFp (f : RFp) : List Nat := f.self :: f.fingerprint.blk :: ofStr f.name

/-- The blocks of a user. -/
def ofUser (u : RUser) : List Nat :=
  u.self :: u.username.blk :: (ofStr u.displayName ++ ofStr u.role ++ ofStr u.password ++ ofStr u.sct ++
    ofStr u.fcmToken ++ ofStr u.fcmProjectId ++ ofStr u.oauthSubject ++ u.categories.map Str.blk ++
    u.fingerprints.flatMap ofFp)

/-- The blocks of a state. -/
def ofState (s : RState) : List Nat :=
  s.self :: (ofStr s.passwordOpenPassword ++ ofStr s.passwordOpenSct ++ ofStr s.openPairingRole ++
    ofStr s.initialPairingUsername ++ ofStr s.friendlyName ++ s.users.flatMap ofUser)

/-- The memory in use is exactly `mine` and `others`, each block once, and nothing was given back that was not in
use. -/
structure Holds (m : Mem) (mine others : List Nat) : Prop where
  perm : m.live.Perm (mine ++ others)
  nodup : m.live.Nodup
  old : ∀ b ∈ m.live, b < m.asked
  clean : m.bad = false

/-- Every request succeeds. -/
def Plenty (m : Mem) : Prop := ∀ n, m.ok n = true

/-- What the API keeps true of every user: the username is valid and no category is there twice. -/
def WellFormed (u : RUser) : Prop :=
  validateUsername u.username.val = true ∧ (u.categories.map Str.val).Nodup

/-- The calls that change a user. -/
inductive Call
  | field (f : Field) (v : Option String)
  | username (n : Option String)
  | addFp (f n : Option String)
  | setFp (f : Option String)
  | removeFp (f : Option String)
  | categories (l : List String)
  deriving DecidableEq, Repr

/-- A call on the record. -/
def call (m : Mem) (u : RUser) : Call → Bool × RUser × Mem
  | .field f v => setField m u f v
  | .username n => setUsername m u n
  | .addFp f n => Record.addFp m u f n
  | .setFp f => Record.setFp m u f
  | .removeFp f => Record.removeFp m u f
  | .categories l => setCategories m u l

/-- A sequence of calls; the answers are collected. -/
def calls (m : Mem) (u : RUser) : List Call → List Bool × RUser × Mem
  | [] => ([], u, m)
  | c :: l =>
    let (r, u, m) := call m u c
    let (rs, u, m) := calls m u l
    (r :: rs, u, m)

/-- Writing a field of the value of a user. -/
def withField (u : User) (v : Option String) : Field → User
  | .displayName => { u with displayName := v }
  | .role => { u with role := v }
  | .password => { u with password := v }
  | .sct => { u with sct := v }
  | .fcmToken => { u with fcmToken := v }
  | .fcmProjectId => { u with fcmProjectId := v }
  | .oauthSubject => { u with oauthSubject := v }

/-- The set with these strings in the order of their first appearance. -/
def setOf (l : List String) : List String := l.foldl (fun s x => if x ∈ s then s else s ++ [x]) []

/-- What a call that succeeded means for the value of the user. -/
def apply (u : User) : Call → User
  | .field f v => withField u v f
  | .username n => { u with username := n.getD u.username }
  | .addFp f n => { u with fingerprints := u.fingerprints ++ (f.toList.map (fun f => ⟨f, n⟩)) }
  | .setFp none => { u with fingerprints := u.fingerprints.tail }
  | .setFp (some f) =>
    match u.fingerprints with
    | [] => { u with fingerprints := [⟨f, none⟩] }
    | x :: l => { u with fingerprints := ⟨f, x.name⟩ :: l }
  | .removeFp f => { u with fingerprints := u.fingerprints.eraseP (fun x => some x.fingerprint = f) }
  | .categories l => { u with notificationCategories := setOf l }

/-- What the calls that succeeded mean for the value of the user. -/
def applyAll (u : User) : List (Call × Bool) → User
  | [] => u
  | (c, r) :: l => applyAll (if r then apply u c else u) l

/-- A call that does not set the categories. -/
def Call.plain : Call → Bool
  | .categories _ => false
  | _ => true

/-- A call that succeeds if there is memory. -/
def sensible (u : User) : Call → Bool
  | .field f v => f ≠ .role || v.isSome
  | .username n => match n with
    | none => false
    | some n => validateUsername n
  | .addFp f _ => f.isSome
  | .setFp f => f.isSome || u.fingerprints ≠ []
  | .removeFp f => u.fingerprints.any (fun x => some x.fingerprint = f)
  | .categories _ => true

/-- `a` says nothing that `b` does not say. -/
def Within (a b : User) : Prop :=
  a.username = b.username ∧ (∀ x ∈ a.displayName, x ∈ b.displayName) ∧ (∀ x ∈ a.role, x ∈ b.role) ∧
  (∀ x ∈ a.password, x ∈ b.password) ∧ (∀ x ∈ a.sct, x ∈ b.sct) ∧ (∀ x ∈ a.fcmToken, x ∈ b.fcmToken) ∧
  (∀ x ∈ a.fcmProjectId, x ∈ b.fcmProjectId) ∧ (∀ x ∈ a.oauthSubject, x ∈ b.oauthSubject) ∧
  (∀ x ∈ a.notificationCategories, x ∈ b.notificationCategories) ∧ a.notificationCategories.Nodup ∧
  a.fingerprints.Sublist b.fingerprints

/-- The users `a` are some of the users `b`, in the same order, and say nothing more. -/
inductive Some : List User → List User → Prop
  | nil : Some [] []
  | skip {a b : List User} (y : User) : Some a b → Some a (y :: b)
  | keep {a b : List User} {x y : User} : Within x y → Some a b → Some (x :: a) (y :: b)

/-- A string of the value of a state. -/
def sfield (s : IamState) : SField → Option String
  | .passwordOpenPassword => s.passwordOpenPassword
  | .passwordOpenSct => s.passwordOpenSct
  | .openPairingRole => s.openPairingRole
  | .initialPairingUsername => s.initialPairingUsername
  | .friendlyName => s.friendlyName

/-- The parsed document is given back, except when its version is too high. -/
def leaked (root : Doc) : Bool :=
  isObj (some root) && (asNum (getItem root "Version")).any (2 < ·)

end Verif.Iam.Record.Spec
