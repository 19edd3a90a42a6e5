import Verif.Api.Logging

/-!
# C127: which messages the application gets

From the documentation (include/nabto/nabto_device.h:2050-2091): the levels are error, warn, info and trace, each containing the
ones before; an unknown level is refused; the callback which was set last gets the messages, with the data it was set with; it can
be set before the device is created, and it can be removed.
-/

namespace Verif.Api.Logging.Spec

open Verif.Api.Logging (Level Text Call Api Op)

/-- More talkative levels are higher. -/
def rank : Level → Nat
  | .error => 1
  | .warn => 2
  | .info => 3
  | .trace => 4

/-- The levels by their names. -/
def parse (s : String) : Option Level :=
  [("error", Level.error), ("warn", .warn), ("info", .info), ("trace", .trace)].findSome? fun x => if x.1 = s then some x.2 else none

/-- What the application asked for. -/
structure Want where
  created : Bool := false
  level : Level := .info
  target : Option (Nat × Option Nat) := none

/-- A message is to be passed on. -/
def Want.gets (w : Want) (l : Level) : Bool := w.created && decide (rank l ≤ rank w.level)

/-- The call to be made for a message, of at most 254 bytes. -/
def Want.calls (w : Want) (l : Level) (t : Text) : List Call :=
  match w.target with
  | some (cb, data) => if w.gets l then [{ cb := cb, data := data, level := l, text := t.take 254 }] else []
  | none => []

/-- The levels of the lines of mbedtls: 1 is an error, 2 a change of state. -/
def ofMbedtls (n : Nat) : Level := if n = 1 then .error else if n = 2 then .info else .trace

/-- The levels of the lines of wolfssl: 0 is an error, 1 information. -/
def ofWolfssl (n : Nat) : Level := if n = 0 then .error else if n = 1 then .info else .trace

/-- The effect of a function on what the application asked for. -/
def Want.next (w : Want) : Api → Want
  | .new => { w with created := true }
  | .setLevel s => match parse s with
    | some l => { w with level := l }
    | none => w
  | .setCallback (some cb) data => { w with target := some (cb, data) }
  | .setCallback none _ => { w with target := none }
  | _ => w

/-- The message of a function: its level and its text, where the text of a line of a TLS library is the line. -/
def message : Api → Option (Level × Option Text)
  | .message l fmt args => some (l, Logging.format fmt args)
  | .mbedtls n line => some (ofMbedtls n, some line)
  | .wolfssl n line => some (ofWolfssl n, some line)
  | _ => none

/-- The calls which are to be made in a history. -/
def calls (w : Want) : List Api → List Call
  | [] => []
  | a :: rest =>
    (match message a with
      | some (l, some t) => w.calls l t
      | _ => []) ++ calls (w.next a) rest

/-- The level which was set last, in a schedule of steps of several threads. -/
def levelIn (ops : List Op) : Level :=
  ops.foldl (fun l op => match op with
    | .setLevel s => match parse s with
      | some l' => l'
      | none => l
    | _ => l) .info

/-- The number of messages in a schedule. -/
def messages (ops : List Op) : Nat := ops.countP fun op => match op with
  | .log _ _ _ _ => true
  | _ => false

/-- A format has its arguments, a line of a TLS library no percent sign. -/
def sound : Api → Bool
  | .message _ fmt args => (Logging.format fmt args).isSome
  | .mbedtls _ line => !line.contains 37
  | .wolfssl _ line => !line.contains 37
  | _ => true

end Verif.Api.Logging.Spec
