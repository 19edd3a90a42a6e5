import Verif.Api.ErrorCodeSpec

/-! # C160: the error codes an application sees -/

namespace Verif.Api.ErrorCode.Props
open Verif.Api.ErrorCode.Spec

/-- No two names have the same value. -/
theorem num_inj : ∀ c d : Core, c.num = d.num → c = d := by
  intro c d h
  have hc : ∀ c : Core, Core.all[Core.all.idxOf c]? = some c := by intro c; cases c <;> rfl
  have h' : Core.all.idxOf c = Core.all.idxOf d := by
    simp only [Core.num] at h
    omega
  have := hc c
  rw [h', hc d] at this
  exact (Option.some.inj this).symm

theorem find_mem {l : List Core} {c : Core} (h : c ∈ l) : find l c.num = some c := by
  induction l with
  | nil => cases h
  | cons d l ih =>
    unfold find at ih ⊢
    rw [List.find?_cons]
    by_cases e : d.num = c.num
    · rw [num_inj d c e]; simp
    · have hn : (d.num == c.num) = false := by simp [e]
      rw [hn]
      rcases List.mem_cons.mp h with rfl | h
      · exact absurd rfl e
      · exact ih h

theorem find_some {l : List Core} {n : Int} {c : Core} (h : find l n = some c) : c ∈ l ∧ c.num = n := by
  unfold find at h
  exact ⟨List.mem_of_find?_eq_some h, by simpa using List.find?_some h⟩

theorem mapping_documented : ∀ c, c ∈ mapping ↔ c ∈ documented := by
  intro c; cases c <;> decide

theorem mem_all : ∀ c : Core, c ∈ Core.all := by intro c; cases c <;> decide

/-- **C160**, of codes which are translated: whatever number the core comes with, the application sees a code of the header; it is the same number if
that is a code of the header, and `NABTO_DEVICE_EC_UNKNOWN` if not. -/
theorem C160_translated (n : Int) :
    Documented (coreToApi n) ∧ (Documented n → coreToApi n = n) ∧ (¬ Documented n → coreToApi n = Core.unknown.num) := by
  unfold coreToApi
  cases h : find mapping n with
  | none =>
    have hn : ¬ Documented n := by
      rintro ⟨c, hc, rfl⟩
      rw [find_mem ((mapping_documented c).mpr hc)] at h
      cases h
    exact ⟨⟨.unknown, by decide, rfl⟩, fun h => absurd h hn, fun _ => rfl⟩
  | some c =>
    obtain ⟨h1, h2⟩ := find_some h
    have hd := (mapping_documented c).mp h1
    exact ⟨⟨c, hd, rfl⟩, fun _ => h2, fun hn => absurd ⟨c, hd, h2.symm⟩ hn⟩

example : Documented (coreToApi Core.timeout.num) ∧ coreToApi Core.timeout.num = 1 ∧ coreToApi Core.eof.num = 6 ∧ coreToApi (-5) = 1 := by
  exact ⟨(C160_translated _).1, by decide, by decide, by decide⟩

/-- **C160**: the message of a code of the header is the one of the core, and it tells the code: no other number has the same message. -/
theorem C160_message (c : Core) (hc : c ∈ documented) (n : Int) : getMessage c.num = c.text ∧ (getMessage n = c.text → n = c.num) := by
  have hm : ∀ d ∈ mapping, getMessage d.num = d.text := by
    intro d hd
    unfold getMessage coreToString
    rw [find_mem hd]
    dsimp only
    rw [find_mem (mem_all d)]
  refine ⟨hm c ((mapping_documented c).mpr hc), ?_⟩
  intro h
  cases hf : find mapping n with
  | none =>
    unfold getMessage at h
    rw [hf] at h
    exact absurd h (by cases c <;> decide)
  | some d =>
    obtain ⟨h1, rfl⟩ := find_some hf
    rw [hm d h1] at h
    have : ∀ a b : Core, a.text = b.text → a = b := by
      intro a b
      cases a <;> cases b <;> first | (intro _; rfl) | (intro h; exact absurd h (by decide))
    rw [this d c h]

/-- **C160**: a number which is no code of the header has no message and no string. -/
theorem C160_other (n : Int) (h : ¬ Documented n) : getMessage n = unknownText ∧ getString n = unknownText := by
  have hf : find mapping n = none := by
    cases hf : find mapping n with
    | none => rfl
    | some c =>
      obtain ⟨h1, h2⟩ := find_some hf
      exact absurd ⟨c, (mapping_documented c).mp h1, h2.symm⟩ h
  unfold getMessage getString
  rw [hf]
  exact ⟨rfl, rfl⟩

/-- **C160**: the string of a code of the header tells the code, although it is not the one the header promises. -/
theorem C160_string_partial (c d : Core) (hc : c ∈ documented) (hd : d ∈ documented) (h : getString c.num = getString d.num) : c = d := by
  unfold getString at h
  rw [find_mem ((mapping_documented c).mpr hc), find_mem ((mapping_documented d).mpr hd)] at h
  dsimp only at h
  have : ∀ a b : Core, "NABTO_DEVICE_" ++ a.name = "NABTO_DEVICE_" ++ b.name → a = b := by
    intro a b
    cases a <;> cases b <;> first | (intro _; rfl) | (intro h; exact absurd h (by decide))
  exact this c d h

/-- **C160** is violated by the code: no code of the header is translated to the string the header promises. -/
theorem C160_string_violated (c : Core) (hc : c ∈ documented) : getString c.num ≠ stringOf c := by
  unfold getString stringOf
  rw [find_mem ((mapping_documented c).mpr hc)]
  cases c <;> decide

/-- **C160**: the result of a CoAP error response is not translated, but is a code of the header all the same. -/
theorem C160_coap (e : CoapError) : Documented (coapErrorResponse e) := by
  refine ⟨coapToCore e, ?_, rfl⟩
  cases e <;> decide

theorem documented_num {c : Core} (h : Documented c.num) : c ∈ documented := by
  obtain ⟨d, hd, e⟩ := h
  rw [num_inj c d e]; exact hd

/-- **C160**, of a request to the basestation which does not time out and is answered with what was asked for, or, if it is not about a push
notification, with an error: the application sees a code of the header. -/
theorem C160_request_partial (k : Kind) (s : Start) (e : Ending) (ht : e ≠ .timeout)
    (hr : ∀ r, e = .response r → Good r ∨ k ≠ .fcm ∧ r.code ≠ 201) :
    Documented (request k s e) := by
  unfold request
  split
  · refine ⟨_, ?_, rfl⟩
    cases e with
    | timeout => exact absurd rfl ht
    | stopped => cases k <;> decide
    | error => cases k <;> decide
    | response r =>
      rcases hr r rfl with ⟨h1, h2, h3, h4⟩ | ⟨h1, h2⟩
      · have : result k (.response r) = .ok := by cases k <;> simp [result, fcmResult, invokeResult, h1, h2, h3, h4]
        rw [this]; decide
      · have : result k (.response r) = .failed := by cases k <;> simp_all [result, invokeResult]
        rw [this]; decide
  · refine ⟨_, ?_, rfl⟩
    unfold startResult
    split
    · decide
    split
    · decide
    split
    · decide
    split
    · decide
    cases s.set <;> decide

/-- **C160**: the application sees `NABTO_DEVICE_EC_OK` if and only if the request was sent and the basestation gave what was asked for. -/
theorem C160_ok (k : Kind) (s : Start) (e : Ending) :
    request k s e = Core.ok.num ↔
      (s.attached = true ∧ s.sized = true ∧ s.memory = true ∧ s.encoded = true ∧ s.set = .ok) ∧ ∃ r, e = .response r ∧ Good r := by
  have hs : startResult s = .ok ↔ (s.attached = true ∧ s.sized = true ∧ s.memory = true ∧ s.encoded = true ∧ s.set = .ok) := by
    obtain ⟨a, b, c, d, x⟩ := s
    cases a <;> cases b <;> cases c <;> cases d <;> cases x <;> decide
  have he : result k e = .ok ↔ ∃ r, e = .response r ∧ Good r := by
    constructor
    · intro h
      cases e with
      | timeout => cases k <;> cases h
      | stopped => cases k <;> cases h
      | error => cases k <;> cases h
      | response r =>
        refine ⟨r, rfl, ?_⟩
        obtain ⟨c, x, y, z⟩ := r
        by_cases hc : c = 201
        · cases k <;> cases x <;> cases y <;> cases z <;> simp_all [result, fcmResult, invokeResult, Good]
        · cases k <;> simp_all [result, fcmResult, invokeResult]
    · rintro ⟨r, rfl, h1, h2, h3, h4⟩
      cases k <;> simp [result, fcmResult, invokeResult, h1, h2, h3, h4]
  rw [← hs, ← he]
  unfold request
  split
  · rename_i h
    exact ⟨fun e => ⟨h, num_inj _ _ e⟩, fun e => by rw [e.2]⟩
  · rename_i h
    exact ⟨fun e => absurd (num_inj _ _ e) h, fun e => absurd e.1 h⟩

example : request .fcm ⟨true, true, true, true, .ok⟩ (.response ⟨201, true, true, true⟩) = Core.ok.num := by decide

/-- **C160** is violated by the code: when the basestation does not answer, the application gets a number which is no code of the header, and for which
there is no message. -/
theorem C160_timeout_violated (k : Kind) (s : Start) (h : startResult s = .ok) :
    ¬ Documented (request k s .timeout) ∧ getMessage (request k s .timeout) = unknownText := by
  have hn : ¬ Documented (request k s .timeout) := by
    unfold request
    rw [if_pos h]
    intro hd
    have := documented_num hd
    revert this
    cases k <;> decide
  exact ⟨hn, (C160_other _ hn).1⟩

/-- **C160** is violated by the code: the same for an answer with code 2.01 which has not what was asked for, and for every such answer about a push
notification. -/
theorem C160_bad_violated (k : Kind) (s : Start) (h : startResult s = .ok) (r : Response) (hr : ¬ Good r) (hk : k = .fcm ∨ r.code = 201) :
    ¬ Documented (request k s (.response r)) ∧ getMessage (request k s (.response r)) = unknownText := by
  have hn : ¬ Documented (request k s (.response r)) := by
    unfold request
    rw [if_pos h]
    intro hd
    have hm := documented_num hd
    have : result k (.response r) = .badResponse := by
      obtain ⟨c, x, y, z⟩ := r
      by_cases hc : c = 201
      · cases k <;> cases x <;> cases y <;> cases z <;> simp_all [result, fcmResult, invokeResult, Good]
      · cases k <;> simp_all [result, fcmResult]
    rw [this] at hm
    exact absurd hm (by decide)
  exact ⟨hn, (C160_other _ hn).1⟩

example : startResult ⟨true, true, true, true, .ok⟩ = .ok ∧ ¬ Good ⟨404, true, true, true⟩ := ⟨by decide, fun h => absurd h.1 (by decide)⟩

end Verif.Api.ErrorCode.Props
