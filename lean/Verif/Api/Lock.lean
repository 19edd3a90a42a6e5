/-!
# Locking: programs, executions, and a checker

A program is the control flow of a C function with everything dropped except what concerns locks. The table of
programs is in `LockTable.lean`.
-/

namespace Verif.Api.Lock

/-- The locks of the library: of the IAM module (`src/modules/iam/nm_iam.c:18-23`), of the device
(`dev->eventMutex`, `src/api/nabto_device.c:81`), of a future (`src/api/nabto_device_future.c:24`), of the queue of
finished futures (`src/api/nabto_device_future_queue.c:14`) and of the event queue
(`src/modules/event_queue/thread_event_queue.c:40`). One device and one IAM module are modelled; all futures
together count as one lock, which forbids a thread to hold two of them. -/
inductive Mutex
  | iam | event | future | futures | queue
  deriving DecidableEq, Repr

/-- The control flow of a C function. Conditions are dropped: both branches are possible, and a `loop` may end before
every round. `forever` is `while (true)`; `block` is a `switch`, which `break` leaves; `anyOf` calls one of several
functions. `touch` is a use of state that the device's lock protects. -/
inductive Skel
  | skip
  | lock (m : Mutex)
  | unlock (m : Mutex)
  | touch
  | call (f : Nat)
  | anyOf (fs : List Nat)
  | seq (a b : Skel)
  | ite (a b : Skel)
  | loop (a : Skel)
  | forever (a : Skel)
  | block (a : Skel)
  | ret | brk | cont
  deriving Repr

/-- A function of the table: its name, whether it is declared in a public header, and its control flow. -/
structure Fn where
  name : String
  api : Bool
  body : Skel

/-- What a thread does with locks and protected state. -/
inductive Ev
  | lock (m : Mutex)
  | unlock (m : Mutex)
  | touch
  deriving DecidableEq, Repr

/-- How a statement ends. -/
inductive Out
  | norm | ret | brk | cont
  deriving DecidableEq, Repr

/-- `Exec fns s t o`: some execution of `s` does `t` and ends by `o`. -/
inductive Exec (fns : List Fn) : Skel → List Ev → Out → Prop
  | skip : Exec fns .skip [] .norm
  | ret : Exec fns .ret [] .ret
  | brk : Exec fns .brk [] .brk
  | cont : Exec fns .cont [] .cont
  | lock m : Exec fns (.lock m) [.lock m] .norm
  | unlock m : Exec fns (.unlock m) [.unlock m] .norm
  | touch : Exec fns .touch [.touch] .norm
  | call {f fn t o} : fns[f]? = some fn → Exec fns fn.body t o → (o = .norm ∨ o = .ret) →
      Exec fns (.call f) t .norm
  | anyOf {fs f t o} : f ∈ fs → Exec fns (.call f) t o → Exec fns (.anyOf fs) t o
  | seq {a b t u o} : Exec fns a t .norm → Exec fns b u o → Exec fns (.seq a b) (t ++ u) o
  | seqJump {a b t o} : Exec fns a t o → o ≠ .norm → Exec fns (.seq a b) t o
  | iteThen {a b t o} : Exec fns a t o → Exec fns (.ite a b) t o
  | iteElse {a b t o} : Exec fns b t o → Exec fns (.ite a b) t o
  | loopEnd {a} : Exec fns (.loop a) [] .norm
  | loopNext {a t u o o'} : Exec fns a t o → (o = .norm ∨ o = .cont) → Exec fns (.loop a) u o' →
      Exec fns (.loop a) (t ++ u) o'
  | loopBrk {a t} : Exec fns a t .brk → Exec fns (.loop a) t .norm
  | loopRet {a t} : Exec fns a t .ret → Exec fns (.loop a) t .ret
  | foreverNext {a t u o o'} : Exec fns a t o → (o = .norm ∨ o = .cont) → Exec fns (.forever a) u o' →
      Exec fns (.forever a) (t ++ u) o'
  | foreverBrk {a t} : Exec fns a t .brk → Exec fns (.forever a) t .norm
  | foreverRet {a t} : Exec fns a t .ret → Exec fns (.forever a) t .ret
  | blockBrk {a t} : Exec fns a t .brk → Exec fns (.block a) t .norm
  | block {a t o} : Exec fns a t o → o ≠ .brk → Exec fns (.block a) t o

/-! ## The checker -/

/-- The order in which locks are taken. -/
def rank : Mutex → Nat
  | .iam => 0
  | .event => 1
  | .future => 2
  | .futures => 3
  | .queue => 4

/-- Whether a thread holding `h` may take `m`: all it holds is of lower rank. -/
def mayLock (h : List Mutex) (m : Mutex) : Bool := h.all (fun x => rank x < rank m)

/-- Adding an element unless present. -/
def addNew (x : Out × List Mutex) (l : List (Out × List Mutex)) : List (Out × List Mutex) :=
  if x ∈ l then l else x :: l

/-- Union. -/
def union (a b : List (Out × List Mutex)) : List (Out × List Mutex) := a.foldr addNew b

/-- The ways to end a statement started with the locks `h`, or `none` if a lock may be misused. `S f h` is whether
function `f` is assumed to leave `h` as it is. With `g`, protected state may only be used with the device's lock. -/
def outs (g : Bool) (S : Nat → List Mutex → Bool) : Skel → List Mutex → Option (List (Out × List Mutex))
  | .skip, h => some [(.norm, h)]
  | .lock m, h => if mayLock h m then some [(.norm, m :: h)] else none
  | .unlock m, h => if m ∈ h then some [(.norm, h.erase m)] else none
  | .touch, h => if g = false ∨ .event ∈ h then some [(.norm, h)] else none
  | .call f, h => if S f h then some [(.norm, h)] else none
  | .anyOf fs, h => if fs.all (fun f => S f h) then some [(.norm, h)] else none
  | .seq a b, h =>
    match outs g S a h with
    | none => none
    | some la => la.foldr (fun x acc =>
        match acc with
        | none => none
        | some r =>
          if x.1 = .norm then
            match outs g S b x.2 with
            | none => none
            | some lb => some (union lb r)
          else some (addNew x r)) (some [])
  | .ite a b, h =>
    match outs g S a h, outs g S b h with
    | some la, some lb => some (union la lb)
    | _, _ => none
  | .loop a, h =>
    match outs g S a h with
    | none => none
    | some la =>
      if la.all (fun x => (x.1 != .norm && x.1 != .cont) || x.2 == h) then
        some ((.norm, h) :: (la.filter (fun x => x.1 == .brk || x.1 == .ret)).map
          (fun x => if x.1 = .brk then (.norm, x.2) else x))
      else none
  | .forever a, h =>
    match outs g S a h with
    | none => none
    | some la =>
      if la.all (fun x => (x.1 != .norm && x.1 != .cont) || x.2 == h) then
        some ((la.filter (fun x => x.1 == .brk || x.1 == .ret)).map
          (fun x => if x.1 = .brk then (.norm, x.2) else x))
      else none
  | .block a, h =>
    match outs g S a h with
    | none => none
    | some la => some (la.map (fun x => if x.1 = .brk then (.norm, x.2) else x))
  | .ret, h => some [(.ret, h)]
  | .brk, h => some [(.brk, h)]
  | .cont, h => some [(.cont, h)]

/-- Whether a function started with `h` ends by returning and with `h`. -/
def neutral (g : Bool) (S : Nat → List Mutex → Bool) (fn : Fn) (h : List Mutex) : Bool :=
  match outs g S fn.body h with
  | none => false
  | some l => l.all (fun x => (x.1 == .norm || x.1 == .ret) && x.2 == h)

/-- Look up in a table of contexts. -/
def lookup (c : List (List (List Mutex))) (f : Nat) (h : List Mutex) : Bool :=
  match c[f]? with
  | none => false
  | some l => l.contains h

/-- Whether every function is neutral in all its contexts, assuming just that of the functions it calls. -/
def checked (g : Bool) (fns : List Fn) (c : List (List (List Mutex))) : Bool :=
  (fns.zip c).all (fun p => p.2.all (neutral g (lookup c) p.1))

end Verif.Api.Lock
