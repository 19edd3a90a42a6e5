import Verif.Core.ExpiryLemmas

/-! # C155: the expiration of the certificate of the basestation -/

namespace Verif.Core.Expiry.Props
open Verif.Core.Attacher Verif.Core.Attacher.Props Verif.Core.Expiry Verif.Core.Expiry.Spec

/-- **C155**, with MbedTLS while the device is attached: the answer is the time at which the certificate of the basestation
expires, counted in seconds from the beginning of 1970; it is refused only while the connection is being closed. -/
theorem C155_attached_partial {as : List Act} {s : St} (h : Attacher.Spec.Run init as s) (hs : s.state = .attached) {v : X509Time}
    (hv : Valid v) :
    (s.keepAlive = true ∧ expiration .mbed s (some v) = .answer .ok (some (unix v))) ∨
    ((∃ c, s.cur = some c ∧ c.phase = .closing) ∧ expiration .mbed s (some v) = .answer .invalidState none) := by
  obtain ⟨c, hc, hp | hp⟩ := C38_attached_partial h hs
  · refine .inl ⟨hp.2, ?_⟩
    have ht := timegm_unix hv
    simp [expiration, hc, ofConn, hp.1, ht]
  · refine .inr ⟨⟨c, hc, hp.1⟩, ?_⟩
    simp [expiration, hc, ofConn, hp.1]

/-- An attached device. -/
def up : List Act :=
  [.start "h" 443 true, .resolved (some ["192.0.2.1"]) {}, .connected 0 {}, .startResponse .attached {}, .endResponse (some true) {}]

/-- The last second of a leap year. -/
def newYear : X509Time := { year := 2028, mon := 12, day := 31, hour := 23, min := 59, sec := 59 }

example : (run init up).map (fun s => (s.state, expiration .mbed s (some newYear))) =
    some (.attached, .answer .ok (some 1861919999)) ∧ unix newYear = 1861919999 := by decide +kernel

example : Valid newYear := ⟨by decide, by decide, by decide⟩

/-- Leap days are counted: the 29th of February of 2000 and the first of March of 2100. -/
example : unix ⟨2000, 2, 29, 0, 0, 0⟩ = 951782400 ∧ unix ⟨2100, 3, 1, 0, 0, 0⟩ = 4107542400 := by decide +kernel

/-- **C155** is violated by the code with MbedTLS: in every regular execution, while the device has no connection to the
basestation (before it is started, while a name is looked up, while it waits to try again, and after it was closed), the call
reads a NULL pointer. -/
theorem C155_null_violated {as : List Act} {s : St} (h : Attacher.Spec.Run init as s)
    (hs : s.state = .dns ∨ s.state = .retryWait ∨ s.state = .deniedWait ∨ s.state = .closed) (cert : Option X509Time) :
    expiration .mbed s cert = .null := by
  have hi := Inv.init.run h
  have hd : s.dtls = none := hi.sched.idle.2 (by unfold Idle Waits; exact hs)
  simp [expiration, St.cur, hd]

/-- A device which was made, and one which waits to try again. -/
example : expiration .mbed init none = .null := by decide

example : (run init [.start "h" 443 true, .resolved none {}]).map (fun s => (s.state, expiration .mbed s none)) =
    some (.retryWait, .null) := by decide +kernel

/-- **C155** is violated by the code: the documented answer of a device which is not attached is never given. -/
theorem C155_code_violated (b : Build) (s : St) (cert : Option X509Time) (x : Option Nat) :
    expiration b s cert ≠ .answer .notAttached x := by
  cases b with
  | wolf | mbedWithoutTimegm => intro h; cases h
  | mbed =>
    unfold expiration ofConn
    dsimp only
    split
    · intro h; cases h
    · split
      · intro h; cases h
      · split
        · intro h; cases h
        · split <;> intro h <;> cases h

/-- **C155** is violated by the code: a device which is not attached yet answers with success. -/
theorem C155_early_violated : ∃ as s, Attacher.Spec.Run init as s ∧ s.state ≠ .attached ∧
    expiration .mbed s (some newYear) = .answer .ok (some 1861919999) := by
  have h : run init (up.take 3) ≠ none := by decide +kernel
  obtain ⟨s, hs⟩ := Option.ne_none_iff_exists'.1 h
  have h2 : (run init (up.take 3)).map (fun s => (decide (s.state = .attached), expiration .mbed s (some newYear))) =
      some (false, .answer .ok (some 1861919999)) := by decide +kernel
  rw [hs] at h2
  simp only [Option.map_some, Option.some.injEq, Prod.mk.injEq, decide_eq_false_iff_not] at h2
  exact ⟨_, s, regular_run (by decide +kernel) hs, h2⟩

/-- **C155** is violated by the code with wolfSSL: there is no answer. -/
theorem C155_wolf_violated (s : St) (cert : Option X509Time) : expiration .wolf s cert = .answer .notImplemented none := rfl

end Verif.Core.Expiry.Props
