import Verif.Coap.DriverLemmas

/-
C119: what the CoAP library wants is looked after.
-/
namespace Verif.Coap.Driver

open Spec

variable {L I : Type}

/-- At most one packet is with a DTLS connection, and there is a buffer for it. -/
theorem C119_one_packet (k : Kind) (E : Lib L I) (l : L) (ops : List (Op I)) :
    (run k E l ops).sent ≤ (run k E l ops).done + 1 ∧ (run k E l ops).done ≤ (run k E l ops).sent ∧
    ((run k E l ops).done < (run k E l ops).sent → (run k E l ops).buffer = true) := by
  have h := inv_run k E l ops
  have hc := h.count
  rcases Bool.eq_false_or_eq_true (run k E l ops).inflight with hi | hi
  · rw [if_pos hi] at hc
    exact ⟨by omega, by omega, fun _ => h.buffer hi⟩
  · rw [hi] at hc
    simp only [Bool.false_eq_true, if_false] at hc
    exact ⟨by omega, by omega, fun hx => by omega⟩

/-- Whatever happens, memory or not: what the library wants is always looked after, when no DTLS
connection refuses a packet, no one is late by more than six days, and the library was not left
without a timeout for six days.  What is missing: the first and the last of these, see
`C119_refused_violated` and `C119_idle_violated`. -/
theorem C119_attended_partial (k : Kind) (E : Lib L I) (l : L) (hT : Tells k E l) (ops : List (Op I))
    (ht : ∀ op ∈ ops, Takes op)
    (h : ∀ before after, ops = before ++ after → Prompt E (run k E l before) ∧ Busy E (run k E l before)) :
    Attended E (run k E l ops) := by
  suffices hs : Timed (run k E l ops) ∧ Attended E (run k E l ops) from hs.2
  induction ops using snoc_ind with
  | h0 =>
    exact ⟨⟨inv_run k E l [], fun hx => (by cases hx), fun t hx => (by cases hx)⟩, .inl hT.init⟩
  | h1 ops op ih =>
    obtain ⟨i1, i2⟩ := ih (fun o ho => ht o (by simp [ho])) (fun before after e => h before (after ++ [op]) (by rw [e]; simp))
    have hpre := h ops [op] rfl
    have hpost := h (ops ++ [op]) [] (by simp)
    rw [run_snoc] at hpost ⊢
    exact attended_step k E l hT i1 i2 hpre.1.2 op (ht op (by simp)) hpost.1 hpost.2

/-- And then a timeout of the library is never missed: when it is due, and neither an event nor a
packet is under way, then the event thread gets to the timer and tells the library. -/
theorem C119_timeout (k : Kind) (E : Lib L I) (s : St L) (h : Attended E s) (hw : E.next s.lib = .wait)
    (hp : s.posted = false) (hi : s.inflight = false) (hd : E.due s.lib ≤ s.now) (env : Env) :
    (s.step k E (.fire env)).timeouts = s.timeouts + 1 := by
  rcases h with h | h | h | ⟨_, t, h1, h2⟩
  · rw [hw] at h; cases h
  · rw [hp] at h; cases h
  · rw [hi] at h; cases h
  · have hle : t ≤ s.now := by omega
    simp only [St.step, h1, if_pos hle]
    unfold St.event St.handleSend St.handleWait
    simp only
    (repeat' split) <;> rfl

/-- Nothing is sent twice and nothing is lost for want of memory alone: without memory the event is
in the queue again. -/
theorem C119_no_memory (k : Kind) (E : Lib L I) (s : St L) (hw : E.next s.lib = .send) (hb : s.buffer = false) (taken : Bool)
    (hp : s.posted = true) :
    let s' := s.step k E (.event ⟨false, taken⟩)
    s'.posted = true ∧ s'.buffer = false ∧ s'.sent = s.sent := by
  simp only [St.step, hp, if_true]
  unfold St.event
  simp only [hw]
  unfold St.handleSend
  simp only [hb, Bool.false_eq_true, if_false, false_and]
  split <;> exact ⟨rfl, rfl, rfl⟩

/-- **Violated**: when the driver was started, or told the last timeout, between six and 31 days ago,
then no timer is set when the library waits: once the packet is sent, no time which passes and
nothing the event thread does makes the library send it again or give up.  Only something from
outside does. -/
theorem C119_idle_violated (k : Kind) (E : Lib L I) (l : L) (ops : List (Op I)) (env : Env)
    (hw : E.next (run k E l ops).lib = .wait) (hf : (run k E l ops).inflight = true) (hp : (run k E l ops).posted = false)
    (ht : (run k E l ops).timer = none) (h1 : (run k E l ops).reset + sixDays ≤ E.due (run k E l ops).lib)
    (h2 : E.due (run k E l ops).lib < (run k E l ops).reset + sixDays + 2 ^ 31) (more : List (Op I)) (hm : ∀ op ∈ more, Inside op) :
    (run k E l (ops ++ .sent env :: more)).lib = (run k E l ops).lib ∧
    (run k E l (ops ++ .sent env :: more)).sent = (run k E l ops).sent ∧
    (run k E l (ops ++ .sent env :: more)).timeouts = (run k E l ops).timeouts ∧
    ¬ Attended E (run k E l (ops ++ .sent env :: more)) := by
  have hi := inv_run k E l ops
  rw [run_append, List.foldl_cons]
  generalize run k E l ops = s at *
  have hless : stampLess (stamp (E.due s.lib)) s.expiry = false := by
    unfold sixDays at h1 h2
    rw [hi.none ht, stampLess_eq _ _ (by omega) (by omega)]
    simp only [decide_eq_false_iff_not]
    omega
  have hs : s.step k E (.sent env) = { s with buffer := false, inflight := false, done := s.done + 1 } := by
    simp only [St.step, hf, if_true]
    unfold St.event
    simp only [hw]
    unfold St.handleWait
    simp [hless]
  rw [hs]
  have hq : ∀ (more : List (Op I)) (w : St L), (∀ op ∈ more, Inside op) → w.posted = false → w.inflight = false → w.timer = none →
      ∃ n, more.foldl (St.step k E) w = { w with now := n } := by
    intro more
    induction more with
    | nil => intro w _ _ _ _; exact ⟨w.now, rfl⟩
    | cons op more ih =>
      intro w hin g1 g2 g3
      rw [List.foldl_cons]
      have hop : ∃ n, w.step k E op = { w with now := n } := by
        cases op with
        | tick d => exact ⟨_, rfl⟩
        | fire env => exact ⟨w.now, by simp only [St.step, g3]; rw [← g3]⟩
        | event env => exact ⟨w.now, if_neg (by simp [g1])⟩
        | sent env => exact ⟨w.now, if_neg (by simp [g2])⟩
        | packet i env => exact False.elim (hin (.packet i env) (by simp))
        | call i => exact False.elim (hin (.call i) (by simp))
      obtain ⟨n, hn⟩ := hop
      rw [hn]
      obtain ⟨m, hm⟩ := ih { w with now := n } (fun o ho => hin o (by simp [ho])) g1 g2 g3
      exact ⟨m, by rw [hm]⟩
  obtain ⟨n, hn⟩ := hq more { s with buffer := false, inflight := false, done := s.done + 1 } hm hp rfl ht
  rw [hn]
  refine ⟨rfl, rfl, rfl, ?_⟩
  rintro (h | h | h | ⟨_, t, h, _⟩)
  · simp only [hw] at h; cases h
  · simp only [hp] at h; cases h
  · cases h
  · simp only [ht] at h; cases h

/-- **Violated**: when a DTLS connection refuses a packet, because it is closing or not open yet, then
nothing is ever sent again, on any connection, whatever happens. -/
theorem C119_refused_violated (k : Kind) (E : Lib L I) (l : L) (ops : List (Op I)) (hw : E.next (run k E l ops).lib = .send)
    (hc : E.conn (run k E l ops).lib = true) (hm : (E.create (run k E l ops).lib (run k E l ops).now true).2 = true)
    (hb : (run k E l ops).buffer = false) (hp : (run k E l ops).posted = true) (more : List (Op I)) :
    (run k E l (ops ++ .event ⟨true, false⟩ :: more)).sent = (run k E l ops).sent := by
  rw [run_append, List.foldl_cons]
  generalize run k E l ops = s at *
  have hs : ((s.step k E (.event ⟨true, false⟩)).buffer = true ∧ (s.step k E (.event ⟨true, false⟩)).inflight = false) ∧
      (s.step k E (.event ⟨true, false⟩)).sent = s.sent := by
    simp only [St.step, hp, if_true]
    unfold St.event
    simp only [hw]
    unfold St.handleSend
    simp [hb, hc, hm]
  have hev : ∀ (w : St L) (env : Env), w.buffer = true → w.inflight = false →
      ((w.event k E env).buffer = true ∧ (w.event k E env).inflight = false) ∧ (w.event k E env).sent = w.sent := by
    intro w env h1 h2
    have hsend : w.handleSend k E env = w := if_pos h1
    unfold St.event St.handleWait
    simp only [hsend]
    (repeat' split) <;> exact ⟨⟨h1, h2⟩, rfl⟩
  have hq : ∀ (more : List (Op I)) (w : St L), w.buffer = true → w.inflight = false → (more.foldl (St.step k E) w).sent = w.sent := by
    intro more
    induction more with
    | nil => intros; rfl
    | cons op more ih =>
      intro w h1 h2
      rw [List.foldl_cons]
      have hop : ((w.step k E op).buffer = true ∧ (w.step k E op).inflight = false) ∧ (w.step k E op).sent = w.sent := by
        cases op with
        | tick d => exact ⟨⟨h1, h2⟩, rfl⟩
        | fire env =>
          simp only [St.step]
          split
          · split
            · exact hev _ env h1 h2
            · exact ⟨⟨h1, h2⟩, rfl⟩
          · exact ⟨⟨h1, h2⟩, rfl⟩
        | event env =>
          simp only [St.step]
          split
          · exact hev _ env h1 h2
          · exact ⟨⟨h1, h2⟩, rfl⟩
        | sent env => simp only [St.step, h2, Bool.false_eq_true, if_false]; exact ⟨⟨h1, trivial⟩, trivial⟩
        | packet i env => exact hev _ env h1 h2
        | call i => exact ⟨⟨h1, h2⟩, rfl⟩
      rw [ih _ hop.1.1 hop.1.2, hop.2]
  rw [hq more _ hs.1.1 hs.1.2, hs.2]

/-! A library which sends one request every two seconds until there is an answer meets the
hypotheses. -/

/-- Nothing to do, a request to send, a request sent, an answer received. -/
inductive Toy
  | idle | ready | waiting (due : Nat) | answered
  deriving DecidableEq, Repr

def toy : Lib Toy Unit where
  next
    | .idle => .nothing
    | .ready => .send
    | .waiting _ => .wait
    | .answered => .callback
  due
    | .waiting d => d
    | _ => 0
  conn _ := true
  create l now buffer :=
    match l with
    | .ready => (.waiting (now + 2000), buffer)
    | l => (l, false)
  timeout l now :=
    match l with
    | .waiting d => if d ≤ now then .ready else l
    | l => l
  callback _ := .idle
  packet l _ _ :=
    match l with
    | .waiting _ => .answered
    | l => l
  call l _ _ :=
    match l with
    | .idle => (.ready, true)
    | l => (l, false)

theorem toy_tells : Tells .client toy .idle := by
  refine ⟨rfl, ?_, fun h => by cases h⟩
  intro l now i
  cases l <;> simp [toy]

def ok : Env := ⟨true, true⟩

/-- A request, its answer lost, two seconds later sent again, then answered. -/
def toyOps : List (Op Unit) :=
  [.tick 1000, .call (), .event ok, .sent ok, .tick 2000, .fire ok, .sent ok, .packet () ok, .event ok]

example : (run .client toy .idle toyOps).sent = 2 ∧ (run .client toy .idle toyOps).lib = .idle := by decide

example : ∀ before after, toyOps = before ++ after →
    Prompt toy (run .client toy .idle before) ∧ Busy toy (run .client toy .idle before) := by
  intro before after e
  have hb : before = toyOps.take before.length := by rw [e]; simp
  have hn : before.length ≤ 9 := by
    have := congrArg List.length e
    simp [toyOps] at this
    omega
  rw [hb]
  generalize before.length = n at hn
  have hcases : n = 0 ∨ n = 1 ∨ n = 2 ∨ n = 3 ∨ n = 4 ∨ n = 5 ∨ n = 6 ∨ n = 7 ∨ n = 8 ∨ n = 9 := by omega
  have key : ∀ s : St Toy, (∃ d, s.lib = .waiting d ∧ d ≤ s.now + sixDays ∧ s.now ≤ d + sixDays ∧ d < s.reset + sixDays) ∨
      toy.next s.lib ≠ .wait → (∀ t, s.timer = some t → s.now ≤ t + sixDays) → Prompt toy s ∧ Busy toy s := by
    intro s h1 h2
    rcases h1 with ⟨d, hl, a, b, c⟩ | h1
    · refine ⟨⟨fun _ => ?_, h2⟩, fun _ _ => ?_⟩
      · rw [hl]; exact ⟨a, b⟩
      · rw [hl]; exact c
    · exact ⟨⟨fun hx => absurd hx h1, h2⟩, fun hx => absurd hx h1⟩
  rcases hcases with h | h | h | h | h | h | h | h | h | h <;> subst h <;>
    (apply key
     · first
       | exact .inr (by decide)
       | exact .inl ⟨3000, by decide, by decide, by decide, by decide⟩
       | exact .inl ⟨5000, by decide, by decide, by decide, by decide⟩
     · intro t ht
       first
       | (have h3 : (none : Option Nat) = some t := by rw [← ht]; decide
          cases h3)
       | (have : t = 3000 := by
            have h3 : (some 3000 : Option Nat) = some t := by rw [← ht]; decide
            cases h3; rfl
          subst this; decide)
       | (have : t = 5000 := by
            have h3 : (some 5000 : Option Nat) = some t := by rw [← ht]; decide
            cases h3; rfl
          subst this; decide))

/-- A week after the start: the first request. -/
def toyWeek : List (Op Unit) := [.tick (7 * 24 * 3600 * 1000), .call (), .event ok]

example : toy.next (run .client toy .idle toyWeek).lib = .wait ∧ (run .client toy .idle toyWeek).inflight = true ∧
    (run .client toy .idle toyWeek).posted = false ∧ (run .client toy .idle toyWeek).timer = none ∧
    (run .client toy .idle toyWeek).reset + sixDays ≤ toy.due (run .client toy .idle toyWeek).lib ∧
    toy.due (run .client toy .idle toyWeek).lib < (run .client toy .idle toyWeek).reset + sixDays + 2 ^ 31 := by decide

example : toy.next (run .client toy .idle [.call ()]).lib = .send ∧
    (toy.create (run .client toy .idle [.call ()]).lib (run .client toy .idle [.call ()]).now true).2 = true ∧
    (run .client toy .idle [.call ()]).buffer = false ∧ (run .client toy .idle [.call ()]).posted = true := by decide

end Verif.Coap.Driver
