import Verif.Api.LoggingLemmas

/-!
# C127: which messages the application gets

Functions one after the other, then every schedule of the steps of several threads.
-/

namespace Verif.Api.Logging

open Spec

/-- **C127, one thread** (partial: lines of a TLS library must not contain a percent sign): in every history of functions, the
calls which are made are the ones the application asked for: the messages at or below the level which was set last, from the
creation of a device on, their first 254 bytes, to the callback which was set last, with its data. -/
theorem C127_messages_partial (h : List Api) (hs : ∀ a ∈ h, sound a = true) :
    ∃ s, run (h.flatMap Api.steps) = some s ∧ s.calls = calls {} h := by
  obtain ⟨s, h1, _, h3⟩ := Match.init.history h hs
  exact ⟨s, h1, by simpa using h3⟩

/-- **C127, all schedules**: a callback is only called for a message which was logged at a level which was on at that time, with
the text of the message, cut off after 254 bytes; and only if it was set. -/
theorem C127_schedules (ops : List Op) (s : St) (hop : ∀ tid sev fmt args, Op.log tid sev fmt args ∈ ops → ∃ l, sev = severity l)
    (h : run ops = some s) (c : Call) (hc : c ∈ s.calls) :
    (∃ tid d, Op.setBegin tid (some c.cb) d ∈ ops) ∧
    ∃ before tid fmt args after text, ops = before ++ .log tid (severity c.level) fmt args :: after ∧
      rank c.level ≤ rank (levelIn before) ∧ format fmt args = some text ∧ c.text = text.take 254 := by
  obtain ⟨h1, _, before, tid, sev, fmt, args, after, he, hsev, hr, full, hf, ht⟩ := (Inv.run ops hop h).calls c hc
  exact ⟨h1, before, tid, fmt, args, after, full, by rw [← hsev]; exact he, hr, hf, ht⟩

/-- **C127, once**: there are never more calls than messages. -/
theorem C127_once (ops : List Op) (s : St) (hop : ∀ tid sev fmt args, Op.log tid sev fmt args ∈ ops → ∃ l, sev = severity l)
    (h : run ops = some s) : s.calls.length ≤ messages ops := by
  have := (Inv.run ops hop h).once
  omega

/-- **C127 violated, TLS libraries**: after every history in which the level is on, a line of mbedtls or wolfssl with a percent
sign which is not followed by another one is undefined behaviour: the line is the format of `vsnprintf`. The lines contain the
printable bytes of what was received, so that a peer chooses them. -/
theorem C127_format_violated (h : List Api) (hs : ∀ a ∈ h, sound a = true) (n : Nat) (pre post : Text) (c : UInt8)
    (hp : (37 : UInt8) ∉ pre) (hc : c ≠ 37) (hm : (h.foldl Want.next {}).gets (ofMbedtls n) = true) :
    run ((h ++ [Api.mbedtls n (pre ++ 37 :: c :: post)]).flatMap Api.steps) = none := by
  obtain ⟨s, h1, h2, _⟩ := Match.init.history h hs
  have hl := h2.log (ofMbedtls n) (pre ++ 37 :: c :: post) []
  rw [hm, if_pos rfl, format_undefined pre post c hp hc, ← debug_eq] at hl
  unfold run
  rw [List.flatMap_append, runFrom_append, h1]
  simpa [List.flatMap_cons, Api.steps] using hl

/-- **C127 violated, TLS libraries**: the same for a line of wolfssl. -/
theorem C127_format_wolfssl_violated (h : List Api) (hs : ∀ a ∈ h, sound a = true) (n : Nat) (pre post : Text) (c : UInt8)
    (hp : (37 : UInt8) ∉ pre) (hc : c ≠ 37) (hm : (h.foldl Want.next {}).gets (ofWolfssl n) = true) :
    run ((h ++ [Api.wolfssl n (pre ++ 37 :: c :: post)]).flatMap Api.steps) = none := by
  obtain ⟨s, h1, h2, _⟩ := Match.init.history h hs
  have hl := h2.log (ofWolfssl n) (pre ++ 37 :: c :: post) []
  rw [hm, if_pos rfl, format_undefined pre post c hp hc, ← wolf_eq] at hl
  unfold run
  rw [List.flatMap_append, runFrom_append, h1]
  simpa [List.flatMap_cons, Api.steps] using hl

/-- **C127 violated, threads**: while a callback is replaced, a message of another thread goes to the old callback with the user
data of the new one. -/
theorem C127_mixed_violated (old new : Option Nat) (cb cb' : Nat) (line : Text) (hl : (37 : UInt8) ∉ line) :
    ∃ s, run [.setBegin 0 (some cb) old, .setEnd 0, .init, .setBegin 0 (some cb') new, .log 1 (severity .error) line [], .call 1,
        .setEnd 0] = some s ∧
      s.calls = [{ cb := cb, data := new, level := .error, text := line.take 254 }] := by
  have hm : (LEVEL_INFO &&& severity .error ≠ 0) := by decide
  have ho := outSeverity_eq .error
  simp [run, runFrom, step, St.setEnd, St.log, St.call, format_plain line hl, hm, ho]

/-- **C127 violated, removal**: a callback which was removed is still called, when another thread had loaded it; `set_log_callback`
has returned then. -/
theorem C127_removed_violated (data : Option Nat) (cb : Nat) (line : Text) (hl : (37 : UInt8) ∉ line) :
    ∃ s, run [.setBegin 0 (some cb) data, .setEnd 0, .init, .log 1 (severity .error) line [], .setBegin 0 none none, .setEnd 0] =
        some s ∧ s.cb = none ∧ s.calls = [] ∧
      ∃ s', step s (.call 1) = some s' ∧ s'.calls = [{ cb := cb, data := data, level := .error, text := line.take 254 }] := by
  have hm : (LEVEL_INFO &&& severity .error ≠ 0) := by decide
  have ho := outSeverity_eq .error
  simp [run, runFrom, step, St.setEnd, St.log, St.call, format_plain line hl, hm, ho]

/-! ## The hypotheses are met -/

/-- Messages `"n=%d"`, and a line of mbedtls. -/
def sample : List Api :=
  [.setCallback (some 5) (some 9), .message .error [101] [], .new, .message .trace [116] [], .setLevel "trace", .setLevel "all",
   .message .trace [110, 61, 37, 100] [[52, 50]], .mbedtls 3 [104, 105], .setCallback none none, .message .error [101] []]

example : ∀ a ∈ sample, sound a = true := by
  decide

example : calls {} sample =
    [{ cb := 5, data := some 9, level := .trace, text := [110, 61, 52, 50] },
     { cb := 5, data := some 9, level := .trace, text := [104, 105] }] := by decide

/-- A hex dump of `"%s"` at the level trace. -/
example : run ((sample ++ [Api.mbedtls 4 ([48, 32] ++ 37 :: 115 :: [])]).flatMap Api.steps) = none :=
  C127_format_violated sample (by decide) 4 [48, 32] [] 115 (by decide) (by decide) (by decide)

example : ∃ s, run [.setBegin 0 (some 1) none, .init, .log 1 (severity .warn) [97] [], .setEnd 0, .log 2 (severity .error) [98] [],
    .call 2, .call 1] = some s ∧ s.calls = [{ cb := 1, data := none, level := .error, text := [98] }] := ⟨_, rfl, rfl⟩

end Verif.Api.Logging
