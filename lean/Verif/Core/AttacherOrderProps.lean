import Verif.Core.AttacherOrderLemmas

/-! # C153: the device is attached when the server has said so -/

namespace Verif.Core.Attacher.Order.Props
open Verif.Core.Attacher Spec

/-- **C153**: an attach end request is sent only on a connection on which the server accepted the attach start request. -/
theorem C153_end {as : List Act} {s : St} (h : run init as = some s) (c : Option Nat) (hc : .endRequest c ∈ s.out) :
    c ∈ accepted init as := by
  have hi : Inv [] init := ⟨(by intro c hc; cases hc), (by intro hc; cases hc), (by intro c hc; cases hc)⟩
  have := (run_inv hi h).seen c (List.mem_filter.2 ⟨hc, rfl⟩)
  simpa using this

/-- **C153**: the application is told that the device is attached only when the server answers the attach end request of the
connection the device has with success, and it had accepted the attach start request on that connection. -/
theorem C153_attached {as : List Act} {s t : St} {a : Act} (h : run init as = some s) (hs : step s a = some t)
    (ha : attached t.out ≠ attached s.out) :
    ∃ e i, a = .endResponse (some true) e ∧ s.endReq = some (some i) ∧ s.dtls = some i ∧ some i ∈ accepted init as := by
  have hi : Inv [] init := ⟨(by intro c hc; cases hc), (by intro hc; cases hc), (by intro c hc; cases hc)⟩
  have hr := run_inv hi h
  rcases (step_inv hr hs).2 with hq | ⟨e, i, h1, h2, h3⟩
  · unfold Quiet at hq
    rw [count_filter, count_filter] at hq
    exact absurd hq ha
  · exact ⟨e, i, h1, h2, h3, by simpa using hr.done _ h2⟩

/-- A device with a token; the connection is lost while the token is uploaded, the next attempt succeeds. -/
def twice : List Act :=
  [.addToken "t" true {}, .start "h" 443 true, .resolved (some ["1.2.3.4"]) {}, .connected 0 {}, .startResponse .attached {},
   .fail 0 .closed false, .sent 0, .sctResponse none {}, .timer true, .resolved (some ["1.2.3.4"]) {}, .connected 1 {},
   .startResponse .attached {}, .sctResponse (some true) {}, .endResponse (some true) {}]

example : (run init twice).map (fun s => (attached s.out, accepted init twice, s.out.contains (.endRequest (some 1)),
    s.out.contains (.endRequest (some 0)))) = some (1, [some 0, some 1], true, false) := by decide +kernel

example : (run init (twice.take 13)).map (fun s => attached s.out) = some 0 := by decide +kernel

end Verif.Core.Attacher.Order.Props
