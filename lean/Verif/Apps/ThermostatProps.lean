import Verif.Apps.ThermostatLemmas

/-!
# C125: the thermostat shows what was set, keeps it, and the temperature reaches the target
-/

namespace Verif.Apps.Thermostat

open Spec

/-- **C125, accepted**: a request changes something only if it is answered with 204, which is exactly when the client has access and
sent a CBOR value of the right type: one of the four modes, a boolean, or a floating point number. -/
theorem C125_accepted (s : St) (op : Op) (hr : s.running = true) (hq : isRequest op = true) :
    ((step s op).2 = [204] ↔ accepted op = true) ∧ ((step s op).2 ≠ [204] → (step s op).1 = s) := by
  cases op with
  | setMode r w =>
    simp only [step, hr, Bool.not_true, Bool.false_eq_true, if_false, accepted]
    rcases setMode_eq s r w with ⟨x, hx, he⟩ | ⟨hx, l, he, hl⟩
    · simp [he, hx]
    · simp [he, hx, hl]
  | setPower r w =>
    simp only [step, hr, Bool.not_true, Bool.false_eq_true, if_false, accepted]
    rcases setPower_eq s r w with ⟨x, hx, he⟩ | ⟨hx, l, he, hl⟩
    · simp [he, hx]
    · simp [he, hx, hl]
  | setTarget r w =>
    simp only [step, hr, Bool.not_true, Bool.false_eq_true, if_false, accepted]
    rcases setTarget_eq s r w with ⟨x, hx, he⟩ | ⟨hx, l, he, hl⟩
    · simp [he, hx]
    · simp [he, hx, hl]
  | _ => cases hq

/-- **C125, shown**: while the program runs, whatever happens to its file, a client with access reads the mode, the target and the power
which were set last. -/
theorem C125_shown (s : St) (ops : List Op) (hr : s.running = true) (hb : ∀ op ∈ ops, isBoot op = false) :
    (run s ops).get true true true =
      ([205], some (((⟨s.data.mode, s.data.power, s.data.target⟩ : Want).run ops).mode.text,
        ((⟨s.data.mode, s.data.power, s.data.target⟩ : Want).run ops).target,
        ((⟨s.data.mode, s.data.power, s.data.target⟩ : Want).run ops).power, (run s ops).data.temperature)) := by
  have h := (Live.run (w := ⟨s.data.mode, s.data.power, s.data.target⟩) ops ⟨rfl, rfl, rfl⟩ hr hb).1
  simp [St.get, h.mode, h.power, h.target]

/-- A client without access reads nothing. -/
example (s : St) (mem set : Bool) : s.get false mem set = ([403], none) := rfl

/-- **C125, kept**: over any number of restarts the mode, the power and the target which were set last are shown, if the writing of the
file never fails and every accepted target is finite. -/
theorem C125_kept_partial (ops : List Op) (hd : ∀ op ∈ ops, durable op = true)
    (hs : ∀ before op after, ops = before ++ op :: after → isRequest op = true → (run St.init before).running = true)
    (hr : (run St.init ops).running = true) :
    let w := (⟨.heat, false, .fin (223 / 10)⟩ : Want).run ops
    (run St.init ops).get true true true = ([205], some (w.mode.text, w.target, w.power, (run St.init ops).data.temperature)) := by
  have hk : Kept (run St.init ops) ((⟨.heat, false, .fin (223 / 10)⟩ : Want).run ops) := by
    clear hr
    induction ops using snoc_ind with
    | nil => exact Kept.init
    | snoc l a ih =>
      rw [run_snoc, want_snoc]
      refine (ih (fun op h => hd op (by simp [h])) (fun b op r he => hs b op (r ++ [a]) (by simp [he]))).step (hd a (by simp)) ?_
      exact hs l a [] rfl
  have h := hk.live hr
  simp [St.get, h.mode, h.power, h.target]

/-- **C125, starts again**: in such a history the program can be started at any time. -/
theorem C125_starts_partial (ops : List Op) (hd : ∀ op ∈ ops, durable op = true)
    (hs : ∀ before op after, ops = before ++ op :: after → isRequest op = true → (run St.init before).running = true) :
    (run St.init (ops ++ [.boot .ok])).running = true := by
  have hk : Kept (run St.init ops) ((⟨.heat, false, .fin (223 / 10)⟩ : Want).run ops) := by
    induction ops using snoc_ind with
    | nil => exact Kept.init
    | snoc l a ih =>
      rw [run_snoc, want_snoc]
      refine (ih (fun op h => hd op (by simp [h])) (fun b op r he => hs b op (r ++ [a]) (by simp [he]))).step (hd a (by simp)) ?_
      exact hs l a [] rfl
  rw [run_snoc]
  exact (boot_kept hk).2

/-- **C125, one response**: a request which is denied or carries a CBOR value gets exactly one response. -/
theorem C125_response_partial (s : St) (op : Op) (hr : s.running = true) (hq : isRequest op = true) (hw : wellFormed op) :
    (step s op).2.length = 1 := by
  have one : ∀ r : Request, (r.access = false ∨ (r.cbor = true ∧ r.payload.isSome = true)) →
      r.access = false ∨ (r.access = true ∧ ∃ v, parse r = (some v, [])) := by
    intro r h
    rcases h with h | ⟨h1, h2⟩
    · exact .inl h
    · obtain ⟨v, hv⟩ := Option.isSome_iff_exists.mp h2
      cases ha : r.access with
      | false => exact .inl rfl
      | true => exact .inr ⟨rfl, v, by simp [parse, h1, hv]⟩
  cases op with
  | setMode r w =>
    simp only [step, hr, Bool.not_true, Bool.false_eq_true, if_false, St.setMode]
    rcases one r hw with h | ⟨h, v, hv⟩
    · simp [h]
    · simp only [h, hv, Bool.not_true, Bool.false_eq_true, if_false]
      cases v with
      | text t => dsimp only; split_ifs <;> rfl
      | _ => rfl
  | setPower r w =>
    simp only [step, hr, Bool.not_true, Bool.false_eq_true, if_false, St.setPower]
    rcases one r hw with h | ⟨h, v, hv⟩
    · simp [h]
    · simp only [h, hv, Bool.not_true, Bool.false_eq_true, if_false]
      cases v <;> rfl
  | setTarget r w =>
    simp only [step, hr, Bool.not_true, Bool.false_eq_true, if_false, St.setTarget]
    rcases one r hw with h | ⟨h, v, hv⟩
    · simp [h]
    · simp only [h, hv, Bool.not_true, Bool.false_eq_true, if_false]
      cases v <;> rfl
  | _ => cases hq

/-- **C125, temperature**: while the thermostat is on, each update moves the temperature towards the target and never past it. -/
theorem C125_towards (s : St) (t e : Rat) (hr : s.running = true) (hp : s.data.power = true) (he : s.data.target = .fin e)
    (ht : s.data.temperature = .fin t) :
    ∃ t', (step s .tick).1.data.temperature = .fin t' ∧ ((t ≤ t' ∧ t' ≤ e) ∨ (e ≤ t' ∧ t' ≤ t)) ∧ (t ≠ e → dist t' e < dist t e) := by
  refine ⟨tickTo t e, ?_, ?_, ?_⟩
  · have h := run_ticks s e t hr hp he ht 1
    have : run s (List.replicate 1 .tick) = (step s .tick).1 := rfl
    rw [← this, h]
    rfl
  · unfold tickTo
    by_cases h : t ≤ e
    · rw [if_pos h]
      have h0 : 0 ≤ e - t := by linarith
      have h1 := smooth_le (e - t) h0
      have h2 : 0 ≤ smooth (e - t) := by
        rcases eq_or_lt_of_le h0 with h3 | h3
        · rw [← h3]; norm_num [smooth]
        · exact le_of_lt (smooth_pos _ h3)
      exact .inl ⟨by linarith, by linarith⟩
    · rw [if_neg h]
      have h0 : 0 < t - e := by linarith
      have h1 := smooth_le (t - e) (le_of_lt h0)
      have h2 := smooth_pos _ h0
      exact .inr ⟨by linarith, by linarith⟩
  · intro hne
    rw [tick_dist]
    have hd : 0 < dist t e := by
      unfold dist
      split
      · rename_i h
        have := lt_of_le_of_ne h hne
        linarith
      · linarith
    have := smooth_pos _ hd
    linarith

/-- **C125, temperature**: and it comes as close to the target as one likes, and stays there, if nothing is changed. -/
theorem C125_reaches (s : St) (t e ε : Rat) (hr : s.running = true) (hp : s.data.power = true) (he : s.data.target = .fin e)
    (ht : s.data.temperature = .fin t) (hε : 0 < ε) :
    ∃ n, ∀ m, n ≤ m → ∃ t', (run s (List.replicate m .tick)).data.temperature = .fin t' ∧ dist t' e < ε := by
  obtain ⟨n, hn⟩ := ticks_reach e t ε hε
  refine ⟨n, fun m hm => ⟨ticks e m t, ?_, ?_⟩⟩
  · rw [run_ticks s e t hr hp he ht]
  · exact lt_of_le_of_lt (ticks_le e t n m hm) hn

/-- Switched off the temperature stays as it is. -/
theorem C125_off (s : St) (hp : s.data.power = false) : (step s .tick).1 = s := by
  unfold step
  obtain ⟨d, f, r⟩ := s
  cases r with
  | false => rfl
  | true => simp [Data.update, show d.power = false from hp]

/-- **C125, half precision**: a half precision number is decoded as IEEE 754 has it. -/
theorem C125_half (sign : Bool) (exp : Fin 31) (frac : Fin 1024) :
    decodeHalf ((if sign then 32768 else 0) + exp.val * 1024 + frac.val) = .fin (half sign exp frac) := by
  have hf := half_fields sign ⟨exp.val, by omega⟩ frac
  simp only at hf
  have hexp := exp.isLt
  unfold decodeHalf half
  simp only [hf.1, hf.2.1, hf.2.2, pow_split]
  have hne : exp.val ≠ 31 := by omega
  by_cases h0 : exp.val = 0
  · rw [if_pos h0, if_pos h0]
    have : (2 : Rat) ^ (-14 : Int) = 1 / 16384 := by norm_num
    rw [this]
    cases sign
    · simp
      ring
    · simp [Num.neg]
      ring
  · rw [if_neg h0, if_pos hne, if_neg h0]
    have h2 : (2 : Rat) ^ ((exp.val : Int) - 15) = 2 ^ ((exp.val : Int) - 25) * 1024 := by
      have : ((exp.val : Int) - 15) = ((exp.val : Int) - 25) + 10 := by ring
      rw [this, zpow_add₀ (by norm_num)]
      norm_num
    rw [h2]
    cases sign
    · simp
      ring
    · simp [Num.neg]
      ring

/-- … and so are infinities and NaN. -/
theorem C125_half_special (sign : Bool) (frac : Fin 1024) :
    decodeHalf ((if sign then 32768 else 0) + 31 * 1024 + frac.val) = if frac.val = 0 then .inf sign else .nan := by
  have hf := half_fields sign 31 frac
  simp only at hf
  unfold decodeHalf
  have h31 : ((31 : Fin 32) : Nat) = 31 := rfl
  rw [h31] at hf
  simp only [hf.1, hf.2.1, hf.2.2]
  cases sign <;> by_cases h : frac.val = 0 <;> simp [h, Num.neg]

/-- A request with access. -/
def ask (v : Value) : Request := ⟨true, true, some v⟩

/-- The first start of the program. -/
theorem boot_init : run St.init [.boot .ok] = ⟨Data.default, .doc Data.default.encode, true⟩ := by
  simp [run, step, St.boot, St.init, St.save, decode, Data.encode, Data.default, Mode.text, printed]

def isReset : Op → Bool
  | .reset .. => true
  | _ => false

/-- A program which is started runs on, without `--init`. -/
theorem up (ops : List Op) (hd : ∀ op ∈ ops, durable op = true) (hn : ∀ op ∈ ops, isReset op = false) :
    Kept (run St.init (.boot .ok :: ops)) ((⟨.heat, false, .fin (223 / 10)⟩ : Want).run ops) ∧ (run St.init (.boot .ok :: ops)).running = true := by
  induction ops using snoc_ind with
  | nil => exact boot_kept Kept.init
  | snoc l a ih =>
    obtain ⟨hk, hr⟩ := ih (fun op h => hd op (by simp [h])) (fun op h => hn op (by simp [h]))
    have e : run St.init (.boot .ok :: (l ++ [a])) = (step (run St.init (.boot .ok :: l)) a).1 := by
      rw [← run_snoc]; rfl
    rw [e, want_snoc]
    have hda := hd a (by simp)
    refine ⟨hk.step hda fun _ => hr, ?_⟩
    cases ha : isBoot a with
    | false => exact ((hk.live hr).step hr ha).2
    | true =>
      cases a with
      | boot w =>
        have : w = .ok := by simpa [durable] using hda
        subst this
        exact (boot_kept hk).2
      | reset w w' => cases hn (.reset w w') (by simp)
      | _ => cases ha

theorem served (ops : List Op) (hd : ∀ op ∈ ops, durable op = true) (hn : ∀ op ∈ ops, isReset op = false) (before : List Op) (op : Op)
    (after : List Op) (h : .boot .ok :: ops = before ++ op :: after) (hq : isRequest op = true) : (run St.init before).running = true := by
  cases before with
  | nil => cases h; cases hq
  | cons b l =>
    simp only [List.cons_append, List.cons.injEq] at h
    obtain ⟨rfl, rfl⟩ := h
    exact (up l (fun x hx => hd x (by simp [hx])) (fun x hx => hn x (by simp [hx]))).2

def demo : List Op := [.setTarget (ask (.half 0x4e00)) .ok, .setPower (ask (.bool true)) .ok, .tick, .boot .ok,
  .setMode (ask (.text "FAN")) .ok, .setMode ⟨false, true, some (.text "DRY")⟩ .ok, .boot .ok]

/-- The hypotheses of `C125_kept_partial` are met by a history with requests and restarts: 24.0 as a half precision number is set. -/
example :
    (∀ op ∈ demo, durable op = true) ∧ (∀ before op after, .boot .ok :: demo = before ++ op :: after → isRequest op = true →
      (run St.init before).running = true) ∧ (run St.init (.boot .ok :: demo)).running = true ∧
      (⟨.heat, false, .fin (223 / 10)⟩ : Want).run (.boot .ok :: demo) = ⟨.fan, true, .fin 24⟩ := by
  have h := C125_half false ⟨19, by omega⟩ ⟨512, by omega⟩
  have h24 : half false ⟨19, by omega⟩ ⟨512, by omega⟩ = 24 := by norm_num [half]
  have e : decodeHalf 0x4e00 = .fin 24 := by rw [h24] at h; exact h
  have hd : ∀ op ∈ demo, durable op = true := by
    intro op hop
    simp only [demo, List.mem_cons, List.not_mem_nil, or_false] at hop
    rcases hop with rfl | rfl | rfl | rfl | rfl | rfl | rfl <;> simp [durable, targetOf, body, ask, e, finite]
  have hn : ∀ op ∈ demo, isReset op = false := by
    intro op hop
    simp only [demo, List.mem_cons, List.not_mem_nil, or_false] at hop
    rcases hop with rfl | rfl | rfl | rfl | rfl | rfl | rfl <;> rfl
  refine ⟨hd, served demo hd hn, (up demo hd hn).2, ?_⟩
  simp [demo, Want.run, Want.step, body, ask, targetOf, e, powerOf, modeOf, Mode.text]

/-- A thermostat which is on. -/
def on : St := ⟨⟨.heat, true, .fin 30, .fin 10⟩, .missing, true⟩

/-- One tick from 10 to 30 degrees: full speed, 0.15 degrees. -/
example : (step on .tick).1.data.temperature = .fin (203 / 20) := by
  have h := run_ticks on 30 10 rfl rfl rfl rfl 1
  have : run on (List.replicate 1 .tick) = (step on .tick).1 := rfl
  rw [← this, h]
  norm_num [ticks, tickTo, smooth]

/-- **C125, violated**: a client may set the target to NaN. After one update the temperature is NaN until the program is
restarted, whatever target is set. -/
theorem C125_nan_violated (ops : List Op) (hb : ∀ op ∈ ops, isBoot op = false) :
    (run St.init ([.boot .ok, .setPower (ask (.bool true)) .ok, .setTarget (ask (.double .nan)) .ok, .tick] ++ ops)).data.temperature = .nan := by
  rw [run_append]
  have h : ∀ s, s = run St.init [.boot .ok, .setPower (ask (.bool true)) .ok, .setTarget (ask (.double .nan)) .ok, .tick] →
      s.running = true ∧ s.data.temperature = .nan := by
    rintro s rfl
    have : run St.init [.boot .ok, .setPower (ask (.bool true)) .ok, .setTarget (ask (.double .nan)) .ok, .tick] =
        run (run St.init [.boot .ok]) [.setPower (ask (.bool true)) .ok, .setTarget (ask (.double .nan)) .ok, .tick] := rfl
    rw [this, boot_init]
    exact ⟨rfl, rfl⟩
  obtain ⟨h1, h2⟩ := h _ rfl
  exact (nan_run _ ops h1 hb h2).1

/-- **C125, violated**: a target of infinity is accepted and shown, and forgotten with a restart although the file was
written. -/
theorem C125_forgotten_violated :
    (step (run St.init [.boot .ok]) (.setTarget (ask (.double (.inf false))) .ok)).2 = [204] ∧
      (run St.init [.boot .ok, .setTarget (ask (.double (.inf false))) .ok]).data.target = .inf false ∧
      (run St.init [.boot .ok, .setTarget (ask (.double (.inf false))) .ok, .boot .ok]).data.target = .fin (223 / 10) := by
  have h2 : run St.init [.boot .ok, .setTarget (ask (.double (.inf false))) .ok] =
      (step (run St.init [.boot .ok]) (.setTarget (ask (.double (.inf false))) .ok)).1 := rfl
  have h3 : run St.init [.boot .ok, .setTarget (ask (.double (.inf false))) .ok, .boot .ok] =
      (step (step (run St.init [.boot .ok]) (.setTarget (ask (.double (.inf false))) .ok)).1 (.boot .ok)).1 := rfl
  rw [h2, h3, boot_init]
  refine ⟨rfl, rfl, ?_⟩
  simp [step, St.setTarget, ask, parse, floating, St.save, St.boot, decode, Data.encode, Data.default, Mode.text, printed]

/-- **C125, violated**: a write which fails is reported as success; the setting is forgotten with a restart. -/
theorem C125_unsaved_violated :
    (step (run St.init [.boot .ok]) (.setPower (ask (.bool true)) .failed)).2 = [204] ∧
      (run St.init [.boot .ok, .setPower (ask (.bool true)) .failed, .boot .ok]).data.power = false := by
  have h3 : run St.init [.boot .ok, .setPower (ask (.bool true)) .failed, .boot .ok] =
      (step (step (run St.init [.boot .ok]) (.setPower (ask (.bool true)) .failed)).1 (.boot .ok)).1 := rfl
  rw [h3, boot_init]
  refine ⟨rfl, ?_⟩
  simp [step, St.setPower, ask, parse, St.save, St.boot, decode, Data.encode, Data.default, Mode.text, printed]

/-- **C125, violated**: after a write which was cut short the program does not start any more, with or without `--init`. -/
theorem C125_torn_violated (ops : List Op) :
    (run St.init ([.boot .ok, .setPower (ask (.bool true)) .torn, .boot .ok] ++ ops)).running = false := by
  rw [run_append]
  have h : ∀ s, s = run St.init [.boot .ok, .setPower (ask (.bool true)) .torn, .boot .ok] → s.running = false ∧ s.file = .torn := by
    rintro s rfl
    have h3 : run St.init [.boot .ok, .setPower (ask (.bool true)) .torn, .boot .ok] =
        (step (step (run St.init [.boot .ok]) (.setPower (ask (.bool true)) .torn)).1 (.boot .ok)).1 := rfl
    rw [h3, boot_init]
    exact ⟨rfl, rfl⟩
  obtain ⟨h1, h2⟩ := h _ rfl
  exact (torn_run _ ops h1 h2).1

/-- **C125, violated**: a request to set the power or the target without the content format gets two responses; reading without
memory gets none. -/
theorem C125_response_violated :
    (∀ s : St, s.running = true → ∀ p w, (step s (.setPower ⟨true, false, p⟩ w)).2 = [400, 400] ∧
      (step s (.setTarget ⟨true, false, p⟩ w)).2 = [400, 400]) ∧
      ∀ (s : St) (set : Bool), (s.get true false set).1 = [] := by
  refine ⟨fun s hr p w => ?_, fun _ _ => rfl⟩
  simp [step, hr, St.setPower, St.setTarget, parse]

/-- An integer is not accepted as a target. -/
example (s : St) (hr : s.running = true) : (step s (.setTarget (ask .other) .ok)).2 = [400] := by
  simp [step, hr, St.setTarget, ask, parse, floating]

end Verif.Apps.Thermostat
