import Verif.Device.Attach

/-!
# The switch for the basestation attach — specification
-/

namespace Verif.Device.Attach.Spec

open Core.Attacher (Obs)

/-- The device turns to the basestation: its name is resolved, a connection is opened, or the device is attached. -/
def contact : Obs → Bool
  | .resolve _ | .connect .. | .event .attached => true
  | _ => false

/-- How often it did. -/
def contacts (s : St) : Nat := s.att.out.countP contact

/-- The switch is used. -/
def switch : Op → Bool
  | .setAttach .. | .disableRemote => true
  | _ => false

/-- The attach is switched on. -/
def enables : Op → Bool
  | .setAttach true _ _ => true
  | _ => false

/-- The device was started. -/
def started (ops : List Op) : Bool := ops.contains .start

/-- The start of the device has not been reported. -/
def starting (ops : List Op) : Bool :=
  ops.foldl (fun b op => match op with | .start => true | .bound .. => false | _ => b) false

/-- What the application wants, as the documentation of the two functions has it: at first the device attaches; what
`nabto_device_set_basestation_attach` says last holds; `nabto_device_disable_remote_access` counts before the start only. -/
def wishFrom (started wish : Bool) : List Op → Bool
  | [] => wish
  | .setAttach e _ _ :: r => wishFrom started e r
  | .disableRemote :: r => wishFrom started (started && wish) r
  | .start :: r => wishFrom true wish r
  | _ :: r => wishFrom started wish r

def wish (ops : List Op) : Bool := wishFrom false true ops

/-- The contract of the partial theorems: the switch is not used while the device is starting. -/
def Settled (ops : List Op) : Prop :=
  ∀ before op after, ops = before ++ op :: after → switch op = true → starting before = false

/-- There is memory for the name of the server. -/
def Memory (ops : List Op) : Prop :=
  (∀ b, Op.setAttach true false b ∉ ops) ∧ ∀ o, Op.bound o false ∉ ops

/-- What a call returns after a history. -/
def returns (cfg : Cfg) (ops : List Op) (op : Op) : Option Ec := (run cfg ops).bind fun s => (step cfg s op).map (·.2)

end Verif.Device.Attach.Spec
