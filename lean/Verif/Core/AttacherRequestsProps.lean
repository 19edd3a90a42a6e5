import Verif.Core.AttacherRequestsLemmas

/-! # C152: the device sends one request of a kind at a time -/

namespace Verif.Core.Attacher.Requests.Props
open Verif.Core.Attacher Spec

/-- **C152**: at any time at most one request of each kind is outstanding, whatever connections were lost and opened since it was
sent: a second one is sent only when the first was answered or given up. No answer is taken without a request. -/
theorem C152_one {as : List Act} {s : St} (h : run init as = some s) (k : Kind) :
    ended k as ≤ sent k s.out ∧ sent k s.out ≤ ended k as + 1 := by
  have h1 := over_run (k := k) h
  have h0 : over k init = 0 := by cases k <;> rfl
  rw [h0] at h1
  unfold over at h1
  have h2 : (waits k s).toNat ≤ 1 := Bool.toNat_le _
  omega

/-- **C152**: a request can be answered exactly while it is outstanding. -/
theorem C152_outstanding {as : List Act} {s : St} (h : run init as = some s) (e : Env) :
    (sent .start s.out = ended .start as + 1 ↔ (step s (.startResponse .none e)).isSome) ∧
    (sent .upload s.out = ended .upload as + 1 ↔ (step s (.sctResponse none e)).isSome) ∧
    (sent .done s.out = ended .done as + 1 ↔ (step s (.endResponse none e)).isSome) := by
  have key : ∀ k, sent k s.out = ended k as + 1 ↔ waits k s = true := by
    intro k
    have h1 := over_run (k := k) h
    have h0 : over k init = 0 := by cases k <;> rfl
    rw [h0] at h1
    unfold over at h1
    cases hw : waits k s <;> rw [hw] at h1 <;> simp at h1 ⊢ <;> omega
  refine ⟨(key .start).trans ?_, (key .upload).trans ?_, (key .done).trans ?_⟩
  · simp only [waits, step]
    cases s.startReq <;> simp
  · simp only [waits, step]
    cases s.sct.callback <;> simp
  · simp only [waits, step]
    cases s.endReq <;> simp

/-- A device whose connection is lost while the start request waits: on the next connection no second request is sent, the
connection is closed. When the request is given up the next connection is used. -/
def lost : List Act :=
  [.start "h" 443 true, .resolved (some ["1.2.3.4"]) {}, .connected 0 {}, .fail 0 .closed false, .timer true,
   .sent 0, .resolved (some ["1.2.3.4"]) {}, .connected 1 {}, .sent 1, .startResponse .none {}, .timer true,
   .resolved (some ["1.2.3.4"]) {}, .connected 2 {}, .startResponse .attached {}, .endResponse (some true) {}]

example : (run init (lost.take 8)).map (fun s => (sent .start s.out, ended .start (lost.take 8))) = some (1, 0) := by decide +kernel

example : (run init lost).map (fun s => (sent .start s.out, sent .done s.out, s.state)) = some (2, 1, .attached) := by
  decide +kernel

end Verif.Core.Attacher.Requests.Props
