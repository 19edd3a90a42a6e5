import Mathlib.Algebra.Order.Ring.Rat

/-!
# The thermostat example

Model of the CoAP endpoints of `examples/thermostat/src`, of the state behind them, which is kept in a file, and of the simulated
temperature.

Simplifications: arithmetic on finite numbers is exact (`Rat`) instead of rounded, and has no negative zero; a finite
number is read back from the file as it was written (cJSON prints 17 digits if 15 do not suffice), a number which is not finite is
printed as `null`; the file is a parsed document or text which is not JSON (`torn`). The access decision is a parameter of each request
(C29-C37). The thread which updates the temperature takes turns with the requests.
-/

namespace Verif.Apps.Thermostat

/-- A `double`. -/
inductive Num
  | fin (q : Rat)
  | inf (neg : Bool)
  | nan
  deriving DecidableEq

namespace Num

def neg : Num → Num
  | fin q => fin (-q)
  | inf b => inf (!b)
  | nan => nan

def add : Num → Num → Num
  | nan, _ => nan
  | _, nan => nan
  | fin a, fin b => fin (a + b)
  | inf a, inf b => if a = b then inf a else nan
  | inf a, fin _ => inf a
  | fin _, inf b => inf b

def sub (a b : Num) : Num := a.add b.neg

def mul : Num → Num → Num
  | nan, _ => nan
  | _, nan => nan
  | fin a, fin b => fin (a * b)
  | inf a, inf b => inf (xor a b)
  | inf a, fin q => if q = 0 then nan else inf (xor a (decide (q < 0)))
  | fin q, inf a => if q = 0 then nan else inf (xor a (decide (q < 0)))

/-- Division by a finite number which is not 0. -/
def div (a : Num) (q : Rat) : Num := a.mul (fin q⁻¹)

def lt : Num → Num → Bool
  | nan, _ => false
  | _, nan => false
  | fin a, fin b => decide (a < b)
  | inf a, inf b => a && !b
  | inf a, fin _ => a
  | fin _, inf b => !b

def le : Num → Num → Bool
  | nan, _ => false
  | _, nan => false
  | fin a, fin b => decide (a ≤ b)
  | inf a, inf b => a || !b
  | inf a, fin _ => a
  | fin _, inf b => !b

end Num

/-- `decode_halff`, cbor_extra.c:7-26. -/
def decodeHalf (half : Nat) : Num :=
  let exp := half / 1024 % 32
  let mant := half % 1024
  let val : Num :=
    if exp = 0 then .fin ((mant : Rat) * (1 / ((2 ^ 24 : Nat) : Rat)))
    else if exp ≠ 31 then
      .fin (((mant : Rat) + 1024) * if exp ≥ 25 then ((2 ^ (exp - 25) : Nat) : Rat) else 1 / ((2 ^ (25 - exp) : Nat) : Rat))
    else if mant = 0 then .inf false else .nan
  if half / 32768 % 2 = 1 then val.neg else val

inductive Mode
  | cool | heat | fan | dry
  deriving DecidableEq, Repr

/-- `thermostat_state_mode_as_string`, thermostat_state.c:37-46. -/
def Mode.text : Mode → String
  | .cool => "COOL"
  | .heat => "HEAT"
  | .dry => "DRY"
  | .fan => "FAN"

structure Data where
  mode : Mode
  power : Bool
  target : Num
  temperature : Num
  deriving DecidableEq

/-- `thermostat_state_file_backend_init`, thermostat_state_file_backend.c:20-23. -/
def Data.default : Data := ⟨.heat, false, .fin (223 / 10), .fin (223 / 10)⟩

/-- What `decode` looks at in the object `Thermostat`: a member is `none` when it is missing or has another type. -/
structure Obj where
  mode : Option String
  power : Option Bool
  target : Option Num
  temperature : Option Num
  deriving DecidableEq

structure Doc where
  version : Option Int
  thermostat : Option Obj
  deriving DecidableEq

inductive Content
  | missing
  | torn
  | doc (d : Doc)
  deriving DecidableEq

/-- What cJSON makes of a number: `null` if it is not finite. -/
def printed : Num → Option Num
  | .fin q => some (.fin q)
  | _ => none

/-- `thermostat_state_data_encode_as_json`, thermostat_state_data.c:5-18. -/
def Data.encode (d : Data) : Doc := ⟨some 3, some ⟨some d.mode.text, some d.power, printed d.target, printed d.temperature⟩⟩

/-- `thermostat_state_data_decode_from_json`, thermostat_state_data.c:20-67; `none`: false. -/
def decode (d : Data) (doc : Doc) : Option Data :=
  if doc.version ≠ some 3 then none
  else
    match doc.thermostat with
    | none => some d
    | some o =>
      let mode : Option Mode :=
        match o.mode with
        | none => some d.mode
        | some t =>
          if t = "COOL" then some .cool
          else if t = "HEAT" then some .heat
          else if t = "DRY" then some .dry
          else if t = "FAN" then some .fan
          else none
      mode.map fun m => ⟨m, o.power.getD d.power, o.target.getD d.target, o.temperature.getD d.temperature⟩

/-- How writing a file ends. -/
inductive Write
  | ok | failed | torn
  deriving DecidableEq, Repr

structure St where
  data : Data := Data.default
  file : Content := .missing
  running : Bool := false
  deriving DecidableEq

def St.init : St := {}

/-- `save_state`, thermostat_state_file_backend.c:107-116, and `json_config_save`: the result is not looked at. -/
def St.save (s : St) : Write → St
  | .ok => { s with file := .doc s.data.encode }
  | .failed => s
  | .torn => { s with file := .torn }

/-- `thermostat_state_file_backend_init` and `thermostate_state_file_backend_load_data`, thermostat_state_file_backend.c:17-58; the program
ends if it fails (thermostat_main.c). -/
def St.boot (s : St) (w : Write) : St :=
  let s := { s with data := Data.default }
  let s := if s.file = .missing then s.save w else s
  match s.file with
  | .doc d =>
    match decode s.data d with
    | some data => { s with data := data, running := true }
    | none => { s with running := false }
  | _ => { s with running := false }

/-- `run_thermostat` with `--init`, thermostat_main.c:131-187: the state is loaded first, and
`thermostat_state_file_backend_create_default_state_file`, thermostat_state_file_backend.c:118-125. -/
def St.reset (s : St) (w w' : Write) : St :=
  let s := s.boot w
  if s.running then { { s with data := Data.default }.save w' with running := false } else s

/-- `smoothstep`, thermostat_state_file_backend.c:128-140. -/
def smoothstep (start end_ : Rat) (x : Num) : Num :=
  if x.lt (.fin start) then .fin 0
  else if (Num.fin end_).le x then .fin 1
  else
    let x := (x.sub (.fin start)).div (end_ - start)
    (x.mul x).mul ((Num.fin 3).sub ((Num.fin 2).mul x))

/-- `thermostat_state_file_backend_update`, thermostat_state_file_backend.c:142-158. -/
def Data.update (d : Data) (deltaTime : Rat) : Data :=
  if d.power then
    let speed := 5 * deltaTime
    let signedDistance := d.target.sub d.temperature
    let distance := if (Num.fin 0).lt signedDistance then signedDistance else signedDistance.neg
    let sign : Rat := if (Num.fin 0).le signedDistance then 1 else -1
    { d with temperature := d.temperature.add ((Num.fin (sign * speed)).mul (smoothstep 0 20 distance)) }
  else d

/-- The value in a request; `other` is any other type, or not CBOR. -/
inductive Value
  | half (bits : Nat)
  | float (x : Num)
  | double (x : Num)
  | bool (b : Bool)
  | text (t : String)
  | other
  deriving DecidableEq

structure Request where
  /-- the access check -/
  access : Bool
  /-- the content format is CBOR -/
  cbor : Bool
  payload : Option Value
  deriving DecidableEq

/-- `thermostat_init_cbor_parser`, thermostat_coap_handler.c:75-92, with the responses it sends. -/
def parse (r : Request) : Option Value × List Nat :=
  if !r.cbor then (none, [400])
  else
    match r.payload with
    | none => (none, [400])
    | some v => (some v, [])

/-- `cbor_value_get_floating_point`, cbor_extra.c:33-58. -/
def floating : Value → Option Num
  | .half b => some (decodeHalf b)
  | .float x => some x
  | .double x => some x
  | _ => none

/-- thermostat_set_target.c:23-48; the codes of the responses. -/
def St.setTarget (s : St) (r : Request) (w : Write) : St × List Nat :=
  if !r.access then (s, [403])
  else
    match parse r with
    | (none, sent) => (s, sent ++ [400])
    | (some v, _) =>
      match floating v with
      | none => (s, [400])
      | some x => ({ s with data := { s.data with target := x } }.save w, [204])

/-- thermostat_set_power.c:21-45. -/
def St.setPower (s : St) (r : Request) (w : Write) : St × List Nat :=
  if !r.access then (s, [403])
  else
    match parse r with
    | (none, sent) => (s, sent ++ [400])
    | (some (.bool b), _) => ({ s with data := { s.data with power := b } }.save w, [204])
    | (some _, _) => (s, [400])

/-- thermostat_set_mode.c:21-62. -/
def St.setMode (s : St) (r : Request) (w : Write) : St × List Nat :=
  if !r.access then (s, [403])
  else
    match parse r with
    | (none, sent) => (s, sent)
    | (some (.text t), _) =>
      if t = "COOL" then ({ s with data := { s.data with mode := .cool } }.save w, [204])
      else if t = "HEAT" then ({ s with data := { s.data with mode := .heat } }.save w, [204])
      else if t = "FAN" then ({ s with data := { s.data with mode := .fan } }.save w, [204])
      else if t = "DRY" then ({ s with data := { s.data with mode := .dry } }.save w, [204])
      else (s, [400])
    | (some _, _) => (s, [400])

/-- thermostat_get.c:22-71. `mem`: memory for the payload; `set`: the payload could be set. The answer is the map of the
four values. -/
def St.get (s : St) (access mem set : Bool) : List Nat × Option (String × Num × Bool × Num) :=
  if !access then ([403], none)
  else if !mem then ([], none)
  else if !set then ([500], none)
  else ([205], some (s.data.mode.text, s.data.target, s.data.power, s.data.temperature))

inductive Op
  | setMode (r : Request) (w : Write)
  | setPower (r : Request) (w : Write)
  | setTarget (r : Request) (w : Write)
  /-- thermostat_main.c:274: every 30 ms -/
  | tick
  /-- the program is ended, if it runs, and started -/
  | boot (w : Write)
  /-- the program is started with `--init`, thermostat_main.c:183-187: it makes a default state and ends -/
  | reset (w w' : Write)
  deriving DecidableEq

/-- The state after an operation and the codes of the responses. A program which does not run does nothing. -/
def step (s : St) : Op → St × List Nat
  | .boot w => (s.boot w, [])
  | .reset w w' => (s.reset w w', [])
  | op =>
    if !s.running then (s, [])
    else
      match op with
      | .setMode r w => s.setMode r w
      | .setPower r w => s.setPower r w
      | .setTarget r w => s.setTarget r w
      | .tick => ({ s with data := s.data.update (30 / 1000) }, [])
      | _ => (s, [])

def run (s : St) (ops : List Op) : St := ops.foldl (fun s op => (step s op).1) s

end Verif.Apps.Thermostat
