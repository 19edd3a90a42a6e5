import Verif.Iam.ServiceLemmas
import Verif.Coap.Virtual

/-!
# C133: every request to the IAM service is answered once and given back once

The full statement: every request which is delivered to a handler is answered exactly once and given back exactly once,
after which the handler waits for the next; no memory is lost and no freed memory is used, whatever the request contains
and whatever fails. The theorems `_violated` show where the code does not do this.
-/

namespace Verif.Iam.Service.Props

open Verif.Iam.Service

/-- **C133**, the loop: at any time all requests which were delivered are given back, but for one which waits for a
notification to be sent; the handler waits for the next request unless it has such a one. Every request was given back
exactly once. -/
theorem C133_loop (custom : Bool) (h : Handler) (es : List Event) (hr : Spec.Ready h es) :
    let s := run custom h es
    s.delivered = s.closed.length + (if s.open_.isSome then 1 else 0) ∧
    (s.listening = true ↔ s.open_ = none) ∧
    (s.open_.isSome → h = .fcmTest) ∧
    (∀ x ∈ s.closed, x.2.given = 1) ∧
    (∀ w r, s.open_ = some (w, r) → r.given = 0 ∧ (step custom h s .sent).open_ = none ∧
      ∃ r', (step custom h s .sent).closed = s.closed ++ [(w, r')]) := by
  intro s
  have hi : Inv custom h s := inv_run hr
  refine ⟨?_, ?_, ?_, fun x hx => (hi.closed x hx).given, ?_⟩
  · rcases hi.rest with ⟨h1, _, h3⟩ | ⟨w, r, h1, _, h3, _⟩ <;> simp [h1, h3]
  · rcases hi.rest with ⟨h1, h2, _⟩ | ⟨w, r, h1, h2, _⟩ <;> simp [h1, h2]
  · rcases hi.rest with ⟨h1, _⟩ | ⟨w, r, _, _, _, h4, _⟩
    · simp [h1]
    · intro _; exact h4
  · intro w r ho
    rcases hi.rest with ⟨h1, _⟩ | ⟨w', r', h1, _, _, _, h5, h6, _⟩
    · rw [h1] at ho; cases ho
    · rw [h1] at ho
      obtain ⟨rfl, rfl⟩ : w' = w ∧ r' = r := by simpa using ho
      simp only [step, h1, h6, if_true]
      exact ⟨h5, trivial, _, rfl⟩

/-- **C133**, the answers, without the cases named in `Spec.unanswered` and `Spec.repeated`. -/
theorem C133_answered_partial (custom : Bool) (h : Handler) (es : List Event) (hr : Spec.Ready h es) (w : World) (r : Run)
    (hx : (w, r) ∈ (run custom h es).closed) :
    (Spec.unanswered h w = false → 1 ≤ r.answers.length) ∧ (Spec.repeated h w = false → r.answers.length ≤ 1) := by
  have ho := (inv_run (custom := custom) hr).closed _ hx
  constructor
  · intro hn
    rcases ho.atLeast with h1 | h1
    · exact h1
    · rw [hn] at h1; cases h1
  · intro hn
    rcases ho.atMost with h1 | h1
    · exact h1
    · rw [hn] at h1; cases h1

/-- **C133**, the memory, without the cases named in `Spec.lost` and `Spec.undefined`. -/
theorem C133_memory_partial (custom : Bool) (h : Handler) (es : List Event) (hr : Spec.Ready h es) (w : World) (r : Run)
    (hx : (w, r) ∈ (run custom h es).closed) :
    (Spec.lost h w = false → r.held = []) ∧ (Spec.undefined custom h w = false → r.bad = none) := by
  have ho := (inv_run (custom := custom) hr).closed _ hx
  constructor
  · intro hn
    rcases ho.held with h1 | h1
    · exact h1
    · rw [hn] at h1; cases h1
  · intro hn
    rcases ho.bad with h1 | h1
    · exact h1
    · rw [hn] at h1; cases h1

/-- **C133**, success: a request is answered with success only if the caller may do this, the request is complete, what it is
about is there, what it would collide with is not there, and the change was made (`Spec.needs`). -/
theorem C133_success (custom : Bool) (h : Handler) (es : List Event) (hr : Spec.Ready h es) (w : World) (r : Run)
    (hx : (w, r) ∈ (run custom h es).closed) (n : Nat) (hn : n ∈ r.answers) (hl : n < 300) :
    ∀ c ∈ Spec.needs h, w c = true :=
  ((inv_run (custom := custom) hr).closed _ hx).success ⟨n, hn, hl⟩

/-- A world in which everything is as the handler hopes, but for what is listed. -/
def but (l : List (Cond × Bool)) : World := fun c => (l.lookup c).getD true

/-- Two requests are sent to the handler of notifications while the first is being worked at, and one after that. -/
example : Spec.Ready .fcmTest [.setAsync, .request (but []), .request (but []), .sent, .request (but [(.config, false)]), .stop] :=
  fun _ => ⟨_, rfl⟩

example :
    let s := run true .fcmTest [.setAsync, .request (but []), .request (but []), .sent, .request (but [(.config, false)]), .stop]
    s.delivered = 2 ∧ s.closed.map (fun x => (x.2.answers, x.2.held, x.2.bad)) = [([201], [], none), ([404], [], none)] := by
  decide +kernel

/-- A setting which is a boolean is accepted, one which is not is refused. -/
example :
    (run true .settingsSet [.request (but []), .request (but [(.boolean, false)])]).closed.map (fun x => x.2.answers) =
      [[204], [400]] := by
  decide +kernel

/-- A user is created: none of the exceptions holds. -/
example :
    let w := but []
    Spec.unanswered .createUser w = false ∧ Spec.repeated .createUser w = false ∧ Spec.lost .createUser w = false ∧
    Spec.undefined true .createUser w = false ∧
    ((run true .createUser [.request w]).closed.map fun x => (x.2.answers, x.2.kept)) = [([201], [.user])] := by
  decide +kernel

/-! ## Where the code does not do this -/

/-- **C133** is violated by the code: without memory for the response, four handlers give the request back without an answer.
The client waits until its own time is up (C72). -/
theorem C133_unanswered_violated (custom : Bool) (h : Handler)
    (hh : h = .getMe ∨ h = .listUsers ∨ h = .pairingGet ∨ h = .settingsGet) :
    ((run custom h [.request (but [(.mem .payload, false)])]).closed.map fun x => (x.2.answers, x.2.given)) = [([], 1)] := by
  rcases hh with rfl | rfl | rfl | rfl <;> cases custom <;> decide +kernel

/-- **C133** is violated by the code: a request whose content format is not CBOR is answered four times by the handlers of
settings and of open pairing, one without a body three times, one which cannot be parsed twice. -/
theorem C133_repeated_violated (custom : Bool) (h : Handler)
    (hh : Spec.readsBody h = true) :
    ((run custom h [.request (but [(.format, false)]), .request (but [(.body, false)]), .request (but [(.parses, false)])]).closed.map
      fun x => x.2.answers) = [[400, 400, 400, 400], [400, 400, 400], [400, 400]] := by
  cases h <;> first | (cases hh; done) | (cases custom <;> decide +kernel)

/-- On a virtual connection each answer but the last is memory which is lost, `Coap/Virtual.lean`. -/
theorem C133_repeated_leak_violated (a b c d : List UInt8) :
    (Coap.Virtual.run [.execute .queue true true, .take, .error 128 (some a) true, .error 128 (some b) true,
      .error 128 (some c) true, .error 128 (some d) true, .serverFree]).leaked = 3 := by
  rfl

/-- **C133** is violated by the code: the request to delete a user who does not exist is answered twice. -/
theorem C133_delete_twice_violated (custom : Bool) :
    ((run custom .deleteUser [.request (but [(.found, false)])]).closed.map fun x => x.2.answers) = [[404, 404]] := by
  cases custom <;> decide +kernel

theorem foldl_replicate_closed {custom h w s r} (hs : s.listening = true) (hp : s.stopped = false) (hg : r.given ≠ 0)
    (hn : r.sending = false) (hv : serve custom s.async h.prog w = r) (n : Nat) :
    ((List.replicate n (Event.request w)).foldl (step custom h) s).closed = s.closed ++ List.replicate n (w, r) := by
  induction n generalizing s with
  | zero => simp
  | succ n ih =>
    rw [List.replicate_succ, List.foldl_cons]
    have hstep : step custom h s (.request w) = { s with delivered := s.delivered + 1, closed := s.closed ++ [(w, r)] } := by
      simp [step, hs, hp, hv, hg, hn]
    rw [hstep]
    refine (ih (s := { s with delivered := s.delivered + 1, closed := s.closed ++ [(w, r)] }) hs hp hv).trans ?_
    simp [List.replicate_succ]

/-- **C133** is violated by the code: a client which may pair with the open password and puts a password into its request, as
clients of version 5.1 do, makes the device lose a fingerprint of 65 bytes, each time it asks. -/
theorem C133_leak_violated (custom : Bool) (n : Nat) :
    let s := run custom .passwordOpen (List.replicate n (.request (but [])))
    s.closed.length = n ∧ ∀ x ∈ s.closed, x.2.answers = [400] ∧ x.2.held = [(.fingerprint, .lib)] := by
  have h : (serve custom false Handler.passwordOpen.prog (but [])).given ≠ 0 ∧
      (serve custom false Handler.passwordOpen.prog (but [])).sending = false ∧
      (serve custom false Handler.passwordOpen.prog (but [])).answers = [400] ∧
      (serve custom false Handler.passwordOpen.prog (but [])).held = [(.fingerprint, .lib)] := by
    cases custom <;> decide +kernel
  intro s
  have hc : s.closed = List.replicate n (but [], serve custom false Handler.passwordOpen.prog (but [])) := by
    have := foldl_replicate_closed (custom := custom) (h := .passwordOpen) (w := but []) (s := .init) rfl rfl h.1 h.2.1 rfl n
    simpa [s, run, Srv.init] using this
  rw [hc]
  refine ⟨by simp, ?_⟩
  intro x hx
  rw [(List.mem_replicate.mp hx).2]
  exact h.2.2

/-- **C133** is violated by the code: a user whose token the library refuses for lack of memory is not created, its memory is
lost, and the client is told with 201 that it was created. -/
theorem C133_create_violated (custom : Bool) :
    ((run custom .createUser [.request (but [(.added, false)])]).closed.map fun x => (x.2.answers, x.2.kept, x.2.held)) =
      [([201], [], [(.user, .iam)])] := by
  cases custom <;> decide +kernel

/-- **C133** is violated by the code: a user with the name null, which CBOR allows. -/
theorem C133_null_violated (custom : Bool) :
    ((run custom .createUser [.request (but [(.isText .username, false)])]).closed.map fun x => x.2.bad) =
      [some (.usedDead .username)] := by
  cases custom <;> decide +kernel

/-- **C133** is violated by the code: with an allocator of the application, a client which pairs locally or with the open
password makes the device give memory of that allocator to `free`. -/
theorem C133_allocator_violated :
    ((run true .localOpen [.request (but [])]).closed.map fun x => (x.2.answers, x.2.bad)) =
      [([201], some (.wrongAllocator .fingerprint))] ∧
    ((run true .passwordOpen [.request (but [(.has .password, false)])]).closed.map fun x => (x.2.answers, x.2.bad)) =
      [([201], some (.wrongAllocator .fingerprint))] ∧
    ((run false .localOpen [.request (but [])]).closed.map fun x => (x.2.answers, x.2.bad)) = [([201], none)] := by
  decide +kernel

/-- In every world in which a notification is sent, the handling of a failure reads memory it has freed. -/
def diesOnFailure (custom : Bool) : Bool :=
  (paths Handler.fcmTest.prog [] { Run.start custom with locked := true }).all fun x =>
    let r := finish true x.2.2
    r.given != 0 || (paths msgSent x.1 { r with sending := false, dangling := [] }).all fun y =>
      yes y.1 .sent || y.2.2.bad == some (.usedDead .ctx)

theorem dies_on_failure (custom : Bool) : diesOnFailure custom = true := by
  cases custom <;> decide +kernel

theorem failure_dies (custom : Bool) (w : World) (hw : w .sent = false) (hg : (serve custom true fcmTest w).given = 0) :
    (sentRun w (serve custom true fcmTest w)).bad = some (.usedDead .ctx) := by
  obtain ⟨a, ha, hm⟩ := exec_mem w Handler.fcmTest.prog [] { Run.start custom with locked := true } (by intro c b hm; cases hm)
  have hd := dies_on_failure custom
  unfold diesOnFailure at hd
  rw [List.all_eq_true] at hd
  have hd := hd _ hm
  rw [show fcmTest = Handler.fcmTest.prog from rfl, serve_eq] at hg ⊢
  simp only at hd
  generalize finish true (exec w Handler.fcmTest.prog { Run.start custom with locked := true }).2 = r at hd hg ⊢
  unfold sentRun
  generalize msgSent = p at hd ⊢
  obtain ⟨b, hb, hm2⟩ := exec_mem w p a { r with sending := false, dangling := [] } ha
  rw [Bool.or_eq_true, List.all_eq_true] at hd
  rcases hd with hd | hd
  · simp [hg] at hd
  · have := hd _ hm2
    rw [Bool.or_eq_true] at this
    rcases this with h1 | h1
    · rw [yes_spec hb h1] at hw; cases hw
    · exact eq_of_beq h1

/-- **C133** is violated by the code: whenever a notification cannot be sent, which is for the basestation to decide, freed
memory is read. -/
theorem C133_failure_violated (custom : Bool) (w : World) (hw : w .sent = false)
    (hs : (serve custom true fcmTest w).sending = true) (hg : (serve custom true fcmTest w).given = 0) :
    ((run custom .fcmTest [.setAsync, .request w, .sent]).closed.map fun x => x.2.bad) = [some (.usedDead .ctx)] := by
  have hrun : run custom .fcmTest [.setAsync, .request w, .sent] =
      step custom .fcmTest (step custom .fcmTest (step custom .fcmTest .init .setAsync) (.request w)) .sent := rfl
  have hserve : serve custom true Handler.fcmTest.prog w = serve custom true fcmTest w := rfl
  have hb := failure_dies custom w hw hg
  unfold sentRun at hb
  rw [hrun]
  simp only [step, Srv.init, if_true, hserve, hg, hs, Bool.not_false, Bool.and_self]
  rw [hg] at hb
  simp only [List.nil_append, List.map_cons, List.map_nil, hb]

/-- Such a world. -/
example : (serve false true fcmTest (but [(.sent, false)])).sending = true ∧
    (serve false true fcmTest (but [(.sent, false)])).given = 0 := by decide +kernel

/-- **C133** is violated by the code: `nm_iam_send_fcm_test_init` starts the listener before it says that the handler waits. A
request which comes in between is given back while the notification is sent, and is used after that. -/
theorem C133_race_violated (custom : Bool) :
    ((run custom .fcmTest [.request (but []), .setAsync, .sent]).closed.map fun x => (x.2.answers, x.2.given, x.2.bad)) =
      [([], 1, none), ([], 2, some .requestDead)] := by
  cases custom <;> decide +kernel

/-- **C133**, the start and the end of a handler: what was allocated is freed, unless there is memory for the listener but not
for the future. -/
theorem C133_lifetime_partial (custom : Bool) (w : World) :
    (w (.mem .handlerFuture) = true ∨ w (.mem .handlerListener) = false →
      (exec w lifetime (Run.start custom)).2.held = []) ∧ (exec w lifetime (Run.start custom)).2.bad = none := by
  cases custom <;> cases h1 : w (.mem .handlerFuture) <;> cases h2 : w (.mem .handlerListener) <;> cases h3 : w .listens <;>
    simp [lifetime, exec, h1, h2, h3, Run.start, Run.free, Run.use, List.lookup,
      show (Var.handlerFuture == Var.handlerListener) = false from rfl]

/-- **C133** is violated by the code: in that case the listener is lost. -/
theorem C133_lifetime_violated (custom : Bool) :
    (exec (but [(.mem .handlerFuture, false)]) lifetime (Run.start custom)).2.held = [(.handlerListener, .lib)] := by
  cases custom <;> decide +kernel

end Verif.Iam.Service.Props
