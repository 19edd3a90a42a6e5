import Verif.Coap.Virtual

/-!
# Virtual CoAP requests — specification
-/

namespace Verif.Coap.Virtual.Spec

/-- What an operation tells after a history. -/
def told (ops : List Op) (op : Op) : List Out := (run (ops ++ [op])).out.drop (run ops).out.length

/-- How often the future of the execution was resolved. -/
def resolutions (s : St) : Nat :=
  s.out.countP fun o => match o with
    | .resolved _ => true
    | _ => false

def isExecute : Op → Bool
  | .execute .. => true
  | _ => false

/-- The client may do this after the history: a request is executed once, on an open connection; the response is read while
request and connection exist; the request is freed once, and after its future is resolved if it was executed. -/
def Allowed (before : List Op) : Op → Prop
  | .execute .. => (∀ o ∈ before, isExecute o = false) ∧ .connClosed ∉ before ∧ .apiFree ∉ before
  | .getCode | .getFormat | .getPayload => .apiFree ∉ before ∧ .connClosed ∉ before
  | .apiFree => .apiFree ∉ before ∧ ((∃ o ∈ before, isExecute o = true) → resolutions (run before) = 1)
  | _ => True

/-- The client keeps to its contract in the whole history. -/
def Polite (ops : List Op) : Prop := ∀ before op after, ops = before ++ op :: after → Allowed before op

def isHandler : Op → Bool
  | .setCode _ | .setPayload .. | .setFormat _ | .ready | .error .. | .serverFree => true
  | _ => false

/-- The handler uses the request only while it has it, and a listener which is stopped refuses a request in its queue. -/
def Handled (ops : List Op) : Prop :=
  ∀ before op after, ops = before ++ op :: after →
    (isHandler op = true → (run before).holder = .handler) ∧
    (∀ mem, op = .listenerStop mem → (run before).holder = .queue)

/-- The response which was made in a history: the last code, content format and payload which were set. -/
structure Response where
  code : UInt8
  format : UInt16
  payload : Option (List UInt8)

def Response.after (r : Response) : Op → Response
  | .execute .notFound true mem => { r with code := 132, payload := if mem then some notFoundText else none }
  | .execute .refused true mem => { r with code := 160, payload := if mem then some insufficient else none }
  | .listenerStop mem => { r with code := 163, payload := if mem then some unavailable else none }
  | .setCode v => { r with code := v }
  | .setFormat f => { r with format := f }
  | .setPayload d mem => { r with payload := if mem then some d else none }
  | .error v (some d) mem => { r with code := v, payload := if mem then some d else none }
  | .error v none _ => { r with code := v }
  | _ => r

def response (ops : List Op) : Response := ops.foldl Response.after ⟨0, 0, none⟩

/-- The path with the segments. -/
def join : List (List UInt8) → List UInt8
  | [] => []
  | g :: gs => 47 :: (g ++ join gs)

end Verif.Coap.Virtual.Spec
