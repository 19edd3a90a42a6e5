import Verif.Core.KeepAlive

/-!
# Keep alive — property theorems (C37)
-/

namespace Verif.Core.KeepAlive

namespace Spec

/-- The counters of the checks of a history. -/
def checks : List Ev → List (Nat × Nat)
  | [] => []
  | .check r s :: es => (r, s) :: checks es
  | _ :: es => checks es

/-- Every check sees more packets received and more packets sent than the one before. -/
def Live : Nat × Nat → List (Nat × Nat) → Prop
  | _, [] => True
  | p, q :: qs => p.1 < q.1 ∧ p.2 < q.2 ∧ Live q qs

/-- No check sees a packet received since the counter was `r`. -/
def Silent (r : Nat) (cs : List (Nat × Nat)) : Prop := ∀ q ∈ cs, q.1 = r

end Spec

open Spec

/-! ### Helpers -/

theorem ofNat_toNat {n : Nat} (h : n < 2 ^ 32) : (UInt32.ofNat n).toNat = n := by
  have : UInt32.size = 2 ^ 32 := rfl
  exact UInt32.toNat_ofNat_of_lt' (by omega)

theorem shouldSend_live {c : Ctx} {r s : Nat} (hr : r < 2 ^ 32) (hs : s < 2 ^ 32)
    (h1 : c.lastRecv.toNat < r) (h2 : c.lastSent.toNat < s) :
    shouldSend c (UInt32.ofNat r) (UInt32.ofNat s) =
      ({ c with lost := 0, lastRecv := UInt32.ofNat r, lastSent := UInt32.ofNat s }, .doNothing) := by
  unfold shouldSend
  rw [if_pos]
  constructor
  · rw [gt_iff_lt, UInt32.lt_iff_toNat_lt, ofNat_toNat hr]; exact h1
  · rw [gt_iff_lt, UInt32.lt_iff_toNat_lt, ofNat_toNat hs]; exact h2

theorem step_other (c : Ctx) (e : Ev) (h : ∀ r s, e ≠ .check r s) :
    (step c e).2 = none ∧ ∃ b, (step c e).1 = { c with isSending := b } := by
  cases e with
  | check r s => exact absurd rfl (h r s)
  | packetSent => exact ⟨rfl, false, rfl⟩
  | request len =>
    refine ⟨rfl, ?_⟩
    simp only [step]
    split
    · exact ⟨c.isSending, rfl⟩
    · exact ⟨true, rfl⟩

/-! ## C37: a live peer -/

theorem live_aux (evs : List Ev) (c : Ctx)
    (hlive : Live (c.lastRecv.toNat, c.lastSent.toNat) (checks evs))
    (hcount : ∀ q ∈ checks evs, q.1 < 2 ^ 32 ∧ q.2 < 2 ^ 32) :
    ∀ a ∈ (run c evs).2, a = .doNothing := by
  induction evs generalizing c with
  | nil => intro a ha; cases ha
  | cons e es ih =>
    cases e with
    | check r s =>
      simp only [checks] at hlive hcount
      obtain ⟨h1, h2, h3⟩ := hlive
      obtain ⟨hr, hs⟩ := hcount _ (List.mem_cons_self ..)
      have hstep : step c (.check r s) =
          ({ c with lost := 0, lastRecv := UInt32.ofNat r, lastSent := UInt32.ofNat s }, some .doNothing) := by
        simp only [step, shouldSend_live hr hs h1 h2]
        rfl
      simp only [run, hstep, Option.toList]
      intro a ha
      rcases List.mem_append.mp ha with ha | ha
      · exact List.mem_singleton.mp ha
      · refine ih _ ?_ (fun q hq => hcount q (List.mem_cons_of_mem _ hq)) a ha
        simp only [ofNat_toNat hr, ofNat_toNat hs]
        exact h3
    | packetSent =>
      obtain ⟨h1, b, h2⟩ := step_other c .packetSent (by simp)
      simp only [run, h1, h2, Option.toList, List.nil_append]
      exact ih _ hlive hcount
    | request len =>
      obtain ⟨h1, b, h2⟩ := step_other c (.request len) (by simp)
      simp only [run, h1, h2, Option.toList, List.nil_append]
      exact ih _ hlive hcount

/-- C37: a live peer is never declared dead, and needs no keep alive requests: if between any two checks a
packet is received and one is sent, every check does nothing. The counters must not have reached 2^32. -/
theorem C37_live_peer_partial (evs : List Ev) (c : Ctx)
    (hlive : Live (c.lastRecv.toNat, c.lastSent.toNat) (checks evs))
    (hcount : ∀ q ∈ checks evs, q.1 < 2 ^ 32 ∧ q.2 < 2 ^ 32) :
    ∀ a ∈ (run c evs).2, a = .doNothing := live_aux evs c hlive hcount

example : Live (init.lastRecv.toNat, init.lastSent.toNat) (checks [.check 3 2, .packetSent, .check 4 9, .request 18]) := by
  simp [Live, checks, init]

/-- C37: without that restriction the property fails. A peer that sends packets all the time is declared dead
32 checks after the packet counter wraps. -/
theorem C37_counter_wrap_violated :
    ∃ evs, Live (init.lastRecv.toNat, init.lastSent.toNat) (checks evs) ∧ .timeout ∈ (run init evs).2 := by
  refine ⟨.check (2 ^ 32 - 1) (2 ^ 32 - 1) :: (List.range 40).map (fun i => .check (2 ^ 32 + i) (2 ^ 32 + i)), ?_, ?_⟩
  · have gen : ∀ (m a k : Nat), k < a → Live (k, k) (checks ((List.range' a m).map (fun i => Ev.check i i))) := by
      intro m
      induction m with
      | zero => intro a k _; trivial
      | succ m ih =>
        intro a k h
        simp only [List.range'_succ, List.map_cons, checks]
        exact ⟨h, h, ih (a + 1) a (by omega)⟩
    have heq : (List.range 40).map (fun i => Ev.check (2 ^ 32 + i) (2 ^ 32 + i)) =
        (List.range' (2 ^ 32) 40).map (fun i => Ev.check i i) := by decide +kernel
    rw [heq]
    refine ⟨by decide +kernel, by decide +kernel, gen 40 (2 ^ 32) (2 ^ 32 - 1) (by omega)⟩
  · decide +kernel

/-! ## C37: a dead peer -/

/-- The check a context performs when nothing was received since. -/
theorem shouldSend_silent {c : Ctx} {r : UInt32} {s : UInt32} (h : ¬ r > c.lastRecv)
    (hover : c.maxRetries.toNat + c.n.toNat + 1 < 2 ^ 32)
    (hl : c.lost.toNat ≤ c.maxRetries.toNat + c.n.toNat + 1) :
    (c.lost.toNat = c.maxRetries.toNat + c.n.toNat + 1 → shouldSend c r s = (c, .timeout)) ∧
    (c.lost.toNat ≤ c.maxRetries.toNat + c.n.toNat →
      (c.lost + 1).toNat = c.lost.toNat + 1 ∧
      shouldSend c r s = ({ c with lost := c.lost + 1 },
        if c.isSending = false ∧ c.n.toNat ≤ c.lost.toNat then .sendKa else .doNothing)) := by
  have hsum : (c.maxRetries + c.n).toNat = c.maxRetries.toNat + c.n.toNat := by
    rw [UInt32.toNat_add]; omega
  have hno : ¬ (r > c.lastRecv ∧ s > c.lastSent) := fun h' => h h'.1
  constructor
  · intro he
    unfold shouldSend
    rw [if_neg hno, if_pos]
    rw [gt_iff_lt, UInt32.lt_iff_toNat_lt, hsum]; omega
  · intro hle
    have h1 : (c.lost + 1).toNat = c.lost.toNat + 1 := by
      rw [UInt32.toNat_add]
      have : (1 : UInt32).toNat = 1 := rfl
      rw [this]; omega
    refine ⟨h1, ?_⟩
    unfold shouldSend
    rw [if_neg hno, if_neg]
    · simp only [gt_iff_lt, UInt32.lt_iff_toNat_lt, h1]
      by_cases hs : c.isSending = false ∧ c.n.toNat ≤ c.lost.toNat
      · rw [if_pos hs, if_pos ⟨by simp [hs.1], by omega⟩]
      · rw [if_neg hs, if_neg]
        rintro ⟨h2, h3⟩
        exact hs ⟨by simpa using h2, by omega⟩
    · rw [gt_iff_lt, UInt32.lt_iff_toNat_lt, hsum]; omega

/-- The actions a silent peer leads to, by number of silent checks so far (from `k`). -/
theorem silent_aux (evs : List Ev) (c : Ctx) (r : Nat) (hr : r < 2 ^ 32) (hc : c.lastRecv.toNat = r)
    (hsil : Silent r (checks evs)) (hover : c.maxRetries.toNat + c.n.toNat + 1 < 2 ^ 32)
    (hl : c.lost.toNat ≤ c.maxRetries.toNat + c.n.toNat + 1) :
    ∀ i a, (run c evs).2[i]? = some a →
      (a = .timeout ↔ c.maxRetries.toNat + c.n.toNat + 1 ≤ c.lost.toNat + i) ∧
      (a = .sendKa → c.n.toNat ≤ c.lost.toNat + i) := by
  induction evs generalizing c with
  | nil => intro i a h; simp [run] at h
  | cons e es ih =>
    have other : (∀ r s, e ≠ .check r s) → checks (e :: es) = checks es := by
      intro he
      cases e with
      | check r s => exact absurd rfl (he r s)
      | packetSent => rfl
      | request _ => rfl
    by_cases he : ∀ r s, e ≠ .check r s
    · obtain ⟨h1, b, h2⟩ := step_other c e he
      rw [other he] at hsil
      simp only [run, h1, h2, Option.toList, List.nil_append]
      exact ih _ hc hsil hover hl
    · have : ∃ q s, e = .check q s := by
        cases e with
        | check q s => exact ⟨q, s, rfl⟩
        | packetSent => exact absurd (by simp) he
        | request _ => exact absurd (by simp) he
      obtain ⟨q, s, rfl⟩ := this
      simp only [checks] at hsil
      have hq : q = r := hsil _ (List.mem_cons_self ..)
      subst hq
      have hsil' : Silent q (checks es) := fun x hx => hsil x (List.mem_cons_of_mem _ hx)
      have hng : ¬ UInt32.ofNat q > c.lastRecv := by
        rw [gt_iff_lt, UInt32.lt_iff_toNat_lt, ofNat_toNat hr]; omega
      obtain ⟨hA, hB⟩ := shouldSend_silent (s := UInt32.ofNat s) hng hover hl
      by_cases hfull : c.lost.toNat = c.maxRetries.toNat + c.n.toNat + 1
      · have hstep : step c (.check q s) = (c, some .timeout) := by
          simp only [step, hA hfull]; rfl
        simp only [run, hstep, Option.toList]
        intro i a hi
        cases i with
        | zero =>
          simp at hi; subst hi
          refine ⟨by simp; omega, by simp⟩
        | succ i =>
          simp only [List.cons_append, List.nil_append, List.getElem?_cons_succ] at hi
          obtain ⟨h1, h2⟩ := ih c hc hsil' hover hl i a hi
          refine ⟨by rw [h1]; omega, fun h => ?_⟩
          have := h2 h; omega
      · obtain ⟨h1, hs⟩ := hB (by omega)
        generalize hact : (if c.isSending = false ∧ c.n.toNat ≤ c.lost.toNat then Action.sendKa else .doNothing) = act at hs
        have hstep : ∃ b, step c (.check q s) = ({ c with lost := c.lost + 1, isSending := b }, some act) := by
          simp only [step, hs]
          by_cases ha : act = .sendKa
          · rw [if_pos ha]; exact ⟨true, rfl⟩
          · rw [if_neg ha]; exact ⟨c.isSending, rfl⟩
        obtain ⟨b, hstep⟩ := hstep
        simp only [run, hstep, Option.toList]
        intro i a hi
        cases i with
        | zero =>
          simp at hi; subst hi
          subst hact
          split
          · rename_i h; refine ⟨by simp; omega, fun _ => by omega⟩
          · refine ⟨by simp; omega, by simp⟩
        | succ i =>
          simp only [List.cons_append, List.nil_append, List.getElem?_cons_succ] at hi
          obtain ⟨h2, h3⟩ := ih { c with lost := c.lost + 1, isSending := b } hc hsil' hover (by simp only [h1]; omega) i a hi
          simp only [h1] at h2 h3
          refine ⟨by rw [h2]; omega, fun h => ?_⟩
          have := h3 h; omega

/-- From a context that has counted no silent checks. -/
theorem dead_aux (evs : List Ev) (c : Ctx) (hl : c.lost = 0)
    (hsil : Silent c.lastRecv.toNat (checks evs)) (hover : c.maxRetries.toNat + c.n.toNat + 1 < 2 ^ 32)
    (i : Nat) (a : Action) (hi : (run c evs).2[i]? = some a) :
    (a = .timeout ↔ c.maxRetries.toNat + c.n.toNat < i) ∧ (a = .sendKa → c.n.toNat ≤ i) := by
  have h0 : c.lost.toNat = 0 := by rw [hl]; rfl
  have := silent_aux evs c c.lastRecv.toNat c.lastRecv.toNat_lt rfl hsil hover (by omega) i a hi
  rw [h0] at this
  refine ⟨by rw [this.1]; omega, fun h => by have := this.2 h; omega⟩

/-- C37: a dead peer is detected after exactly `maxRetries + n + 2` checks without a received packet,
whatever is sent meanwhile. After a check that saw traffic, the i-th silent check (from 0) times out exactly
if `i > maxRetries + n`, and asks for a keep alive request only after `n` silent checks. The settings must not
overflow and the counters not have reached 2^32. -/
theorem C37_dead_peer_partial (evs : List Ev) (c : Ctx) (r s : Nat) (hr : r < 2 ^ 32) (hs : s < 2 ^ 32)
    (h1 : c.lastRecv.toNat < r) (h2 : c.lastSent.toNat < s)
    (hsil : Silent r (checks evs)) (hover : c.maxRetries.toNat + c.n.toNat + 1 < 2 ^ 32)
    (i : Nat) (a : Action) (hi : (run (step c (.check r s)).1 evs).2[i]? = some a) :
    (a = .timeout ↔ c.maxRetries.toNat + c.n.toNat < i) ∧ (a = .sendKa → c.n.toNat ≤ i) := by
  have hstep : (step c (.check r s)).1 =
      { c with lost := 0, lastRecv := UInt32.ofNat r, lastSent := UInt32.ofNat s } := by
    simp only [step, shouldSend_live hr hs h1 h2]
    rfl
  rw [hstep] at hi
  refine dead_aux evs { c with lost := 0, lastRecv := UInt32.ofNat r, lastSent := UInt32.ofNat s } rfl ?_ hover i a hi
  simp only [ofNat_toNat hr]
  exact hsil

/-- C37: the same from the start of a connection. -/
theorem C37_dead_from_start_partial (evs : List Ev) (interval retry maxRetries : UInt32) (c : Ctx)
    (hset : setSettings init interval retry maxRetries = some c) (hsil : Silent 0 (checks evs))
    (hover : maxRetries.toNat + interval.toNat / retry.toNat + 1 < 2 ^ 32)
    (i : Nat) (a : Action) (hi : (run c evs).2[i]? = some a) :
    (a = .timeout ↔ maxRetries.toNat + interval.toNat / retry.toNat < i) ∧
    (a = .sendKa → interval.toNat / retry.toNat ≤ i) := by
  unfold setSettings at hset
  split at hset
  · cases hset
  · injection hset with hset
    subst hset
    have := dead_aux evs { init with interval, retryInterval := retry, maxRetries, n := interval / retry } rfl
      hsil (by simpa using hover) i a hi
    simpa using this

/-- C37: while a keep alive packet is being sent no second one is. -/
theorem C37_one_send_at_a_time (c : Ctx) (e : Ev) (h : c.isSending = true) : (step c e).2 ≠ some .sendKa := by
  cases e with
  | check r s =>
    simp only [step, shouldSend]
    repeat' split
    all_goals simp_all
  | packetSent => simp [step]
  | request _ => simp [step]

example : Silent init.lastRecv.toNat (checks (List.replicate 32 (.check 0 7))) ∧
    (run init (List.replicate 32 (.check 0 7))).2[31]? = some .timeout ∧
    (run init (List.replicate 32 (.check 0 7))).2[30]? = some .doNothing ∧
    (run init (List.replicate 32 (.check 0 7))).2[15]? = some .sendKa := by
  refine ⟨?_, by decide +kernel, by decide +kernel, by decide +kernel⟩
  intro q hq
  have : checks (List.replicate 32 (.check 0 7)) = List.replicate 32 (0, 7) := by decide +kernel
  rw [this] at hq
  rw [(List.mem_replicate.mp hq).2]
  rfl

/-- C37: while the sends complete, a request is sent on every silent check from the `n`-th until the
timeout. -/
theorem C37_requests_sent (c : Ctx) (r s : Nat) (hr : r < 2 ^ 32) (hc : r = c.lastRecv.toNat)
    (hsend : c.isSending = false) (hover : c.maxRetries.toNat + c.n.toNat + 1 < 2 ^ 32)
    (h1 : c.n.toNat ≤ c.lost.toNat) (h2 : c.lost.toNat ≤ c.maxRetries.toNat + c.n.toNat) :
    (step c (.check r s)).2 = some .sendKa := by
  have hng : ¬ UInt32.ofNat r > c.lastRecv := by
    rw [gt_iff_lt, UInt32.lt_iff_toNat_lt, ofNat_toNat hr]; omega
  have := (shouldSend_silent (s := UInt32.ofNat s) hng hover (by omega)).2 h2
  simp only [step, this.2, if_pos (⟨hsend, h1⟩ : _ ∧ _)]

/-- C37: the settings come from the server. With a large interval the sum of `maxRetries` and `n` wraps, and a
peer is declared dead on the second check without traffic. -/
theorem C37_settings_overflow_violated :
    ∃ c, setSettings init (2 ^ 32 - 1) 1 1 = some c ∧ (run c [.check 0 0, .check 0 0]).2 = [.doNothing, .timeout] := by
  refine ⟨{ interval := 2 ^ 32 - 1, retryInterval := 1, maxRetries := 1, n := 2 ^ 32 - 1 }, by decide +kernel, by decide +kernel⟩

/-- C37: a retry interval of zero in the settings is a division by zero. -/
theorem C37_zero_interval_violated (c : Ctx) (interval maxRetries : UInt32) :
    setSettings c interval 0 maxRetries = none := by
  simp [setSettings]

/-- C37: a reset does not return to the initial settings: the number of checks per interval is kept. A
connection set up after a reset detects a dead peer later than one set up freshly. -/
theorem C37_reset_keeps_interval_violated :
    ∃ c, setSettings init 60000 1000 15 = some c ∧ reset c ≠ init ∧
      (run (reset c) (List.replicate 32 (.check 0 7))).2[31]? ≠ (run init (List.replicate 32 (.check 0 7))).2[31]? := by
  refine ⟨{ interval := 60000, retryInterval := 1000, maxRetries := 15, n := 60 }, by decide +kernel, by decide +kernel,
    by decide +kernel⟩

/-- C37: a keep alive request is answered with its 16 bytes of data unless it is too short or a send is under
way. -/
theorem C37_request_answered (c : Ctx) (req : List UInt8) :
    ((handleRequest c req).2 = none ↔ req.length < 18 ∨ c.isSending = true) ∧
    (∀ resp, (handleRequest c req).2 = some resp →
      resp.length = 18 ∧ resp.take 2 = [4, 4] ∧ ∀ i, i < 16 → resp[2 + i]? = req[2 + i]?) := by
  unfold handleRequest
  split
  · rename_i h
    refine ⟨by simpa using h, by simp⟩
  · rename_i h
    refine ⟨by simpa using h, ?_⟩
    intro resp hr
    simp only [Option.some.injEq] at hr
    subst hr
    have hlen : ¬ req.length < 18 := fun hx => h (.inl hx)
    refine ⟨by simp; omega, rfl, ?_⟩
    intro i hi
    have : 2 + i = i + 1 + 1 := by omega
    rw [this, List.getElem?_cons_succ, List.getElem?_cons_succ, List.getElem?_take_of_lt hi, List.getElem?_drop, this]

end Verif.Core.KeepAlive
