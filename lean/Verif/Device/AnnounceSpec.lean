import Verif.Device.Announce

/-!
# What a device announces over mDNS — specification
-/

namespace Verif.Device.Announce.Spec

/-- What the application asked for. -/
structure Want where
  product : Option Text := none
  device : Option Text := none
  enabled : Bool := false
  started : Bool := false
  /-- the ids with which the device was started -/
  ids : Option (Text × Text) := none
  /-- the port, once the device is started -/
  port : Option Nat := none
  /-- the device was closed by the application -/
  stopped : Bool := false
  /-- … and has closed -/
  closed : Bool := false
  subtypes : Text → Bool := fun _ => false
  txt : Text → Option Text := fun _ => none

/-- A call which returned `ec`. -/
def Want.step (w : Want) (op : Op) (ec : Ec) : Want :=
  match op, ec with
  | .setProduct t _, .ok => { w with product := some t }
  | .setProduct _ _, _ => { w with product := none }
  | .setDevice t _, .ok => { w with device := some t }
  | .setDevice _ _, _ => { w with device := none }
  | .enable, .ok => { w with enabled := true }
  | .addSubtype t _, .ok => { w with subtypes := fun x => x == t || w.subtypes x }
  | .addTxt k v _, .ok => { w with txt := fun x => if x = k then some v else w.txt x }
  | .start _ _, .ok =>
    match w.product, w.device with
    | some p, some d =>
      { w with
        started := true
        ids := some (p, d)
        subtypes := fun x => x == p ++ [45] ++ d || w.subtypes x
        txt := fun x => if x = productKey then some p else if x = deviceKey then some d else w.txt x }
    | _, _ => w
  | .bound port true true, _ => if w.stopped then w else { w with port := some port }
  | .close, .ok => { w with stopped := true }
  | .coreClosed, _ => { w with closed := true }
  | _, _ => w

/-- The wishes after a history, with the codes which were returned. -/
def wantFrom (cfg : Cfg) (s : St) (w : Want) : List Op → Want
  | [] => w
  | op :: ops =>
    match step cfg s op with
    | none => w
    | some (t, ec) => wantFrom cfg t (w.step op ec) ops

def want (cfg : Cfg) (ops : List Op) : Want := wantFrom cfg St.init {} ops

/-- What a call returns after a history. -/
def returns (cfg : Cfg) (ops : List Op) (op : Op) : Option Ec := (run cfg ops).bind fun s => (step cfg s op).map (·.2)

/-- The calls which must succeed in the partial theorem. -/
def delicate : Op → Bool
  | .addTxt .. | .start .. => true
  | _ => false

/-- Adding TXT items and starting the device succeeds. -/
def Succeeds (cfg : Cfg) (ops : List Op) : Prop :=
  ∀ before op after, ops = before ++ op :: after → delicate op = true → returns cfg before op = some .ok

/-- The application leaves the two keys which the start sets alone until then. -/
def Reserved (cfg : Cfg) (ops : List Op) : Prop :=
  ∀ before k v m after, ops = before ++ .addTxt k v m :: after → k = productKey ∨ k = deviceKey → (want cfg before).started = true

end Verif.Device.Announce.Spec
