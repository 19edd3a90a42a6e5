import Verif.Iam.Service

/-!
# What is asked of the handling of a request

The definitions here speak of the request and its surroundings (`World`), not of the programs of the handlers.
-/

namespace Verif.Iam.Service.Spec

open Verif.Iam.Service

/-- The body of the request is there and is CBOR. -/
def goodBody (w : World) : Bool := w .format && w .body && w .parses

/-- The handlers which refuse a request without a body. -/
def readsBody : Handler → Bool
  | .addFingerprint | .createUser | .deviceInfoSet | .localOpen | .passwordOpen | .setDisplayName | .setFcm
  | .setFingerprint | .setName | .setCategories | .setOauthSubject | .setPassword | .setRole | .setSct
  | .settingsSet => true
  | _ => false

/-- What has to be so for a request to be answered more than once: its body is missing or is not CBOR, or it asks for
the deletion of a user, which fails. -/
def repeated (h : Handler) (w : World) : Bool :=
  (readsBody h && !goodBody w) ||
  (h == .localInitial && w .format && !(w .body && w .parses)) ||
  (h == .deleteUser && !(w .found && w .deleted))

/-- What has to be so for a request not to be answered: there is no memory for the payload of the response. -/
def unanswered (h : Handler) (w : World) : Bool :=
  (h == .getMe || h == .listUsers || h == .pairingGet || h == .settingsGet) && !w (.mem .payload)

/-- What has to be so for memory to be lost: a password in the request for open pairing, categories which can be encoded
once but not twice, a new user whose token the library does not accept. -/
def lost (h : Handler) (w : World) : Bool :=
  (h == .passwordOpen && w (.has .password) && (w (.isText .password) || w (.isNull .password))) ||
  (h == .getCategories && !w .encoded) ||
  (h == .createUser && !w .added)

/-- What has to be so for the behaviour to be undefined: an allocator of the application and one of the two open
pairings, a new user with the name null, or a notification which fails. -/
def undefined (custom : Bool) (h : Handler) (w : World) : Bool :=
  (custom && (h == .localOpen || h == .passwordOpen)) ||
  (h == .createUser && !w (.isText .username) && w (.isNull .username)) ||
  (h == .fcmTest && !(w .sent && w (.mem .payload)))

/-- A body which can be read. -/
def bodyOk : List Cond := [.format, .body, .parses]

/-- What has to be so for a request to succeed: the caller may do this, the request is complete, what it is about is there, what
it would collide with is not there, and the change was made. -/
def needs : Handler → List Cond
  | .addFingerprint => bodyOk ++ [.param, .param2, .allowed, .free, .found, .isSet]
  | .createUser => bodyOk ++ [.allowed, .room, .validName, .shortName, .free, .isSet, .payloadSet]
  | .deleteUser => [.param, .allowed, .found, .deleted]
  | .deleteFingerprint => [.param, .param2, .allowed, .found, .isSet]
  | .deviceInfoSet => bodyOk ++ [.param, .allowed, .keyKnown, .isText .friendlyName, .shortName]
  | .getMe => [.found, .payloadSet]
  | .getCategories => [.allowed, .measured, .encoded, .payloadSet]
  | .getUser => [.param, .allowed, .found, .payloadSet]
  | .listRoles => [.allowed, .measured, .encoded, .payloadSet]
  | .listUsers => [.allowed, .payloadSet]
  | .pairingGet => [.allowed, .payloadSet]
  | .settingsGet => [.allowed, .payloadSet]
  | .localInitial => [.enabled, .allowed, .local, .found, .unpaired, .hasFingerprint, .isSet]
  | .localOpen => bodyOk ++ [.enabled, .allowed, .local, .hasFingerprint, .isText .username, .invalidArgument, .free]
  | .passwordInvite => [.enabled, .allowed, .passwordAuth, .hasUsername, .found, .hasFingerprint]
  | .passwordOpen =>
    bodyOk ++ [.enabled, .allowed, .config, .passwordAuth, .hasFingerprint, .isText .username, .invalidArgument, .free]
  | .fcmTest => [.param, .allowed, .found, .config, .sent, .payloadSet]
  | .setDisplayName | .setOauthSubject | .setPassword => bodyOk ++ [.param, .allowed, .found, .isSet]
  | .setFcm =>
    bodyOk ++ [.param, .allowed, .found, .keyKnown, .isText .token, .isText .projectId, .shortName]
  | .setFingerprint => bodyOk ++ [.param, .allowed, .free, .found, .isSet]
  | .setName => bodyOk ++ [.param, .isText .username, .validName, .shortName, .allowed, .free, .found, .isSet]
  | .setCategories => bodyOk ++ [.param, .isArray, .allowed, .found, .isSet]
  | .setRole => bodyOk ++ [.param, .isText .roleId, .allowed, .isSet]
  | .setSct => bodyOk ++ [.param, .isText .sct, .shortName, .allowed, .found, .isSet]
  | .settingsSet => bodyOk ++ [.param, .allowed, .keyKnown, .boolean]

/-- The application has nothing of this to do: the only handler which waits is told to do so before requests come. -/
def Ready (h : Handler) (es : List Event) : Prop := h = .fcmTest → ∃ l, es = .setAsync :: l

end Verif.Iam.Service.Spec
