import Verif.Apps.ThermostatSpec
import Mathlib.Tactic.Linarith
import Mathlib.Tactic.Ring
import Mathlib.Tactic.NormNum
import Mathlib.Tactic.FieldSimp
import Mathlib.Algebra.Order.Archimedean.Basic

namespace Verif.Apps.Thermostat

open Spec

theorem snoc_ind {α : Type} {P : List α → Prop} (nil : P []) (snoc : ∀ l a, P l → P (l ++ [a])) : ∀ l, P l := by
  intro l
  have h : ∀ r : List α, P r.reverse := by
    intro r
    induction r with
    | nil => exact nil
    | cons a r ih => simpa using snoc _ a ih
  simpa using h l.reverse

theorem run_snoc (s : St) (l : List Op) (op : Op) : run s (l ++ [op]) = (step (run s l) op).1 := by simp [run]

theorem run_append (s : St) (l l' : List Op) : run s (l ++ l') = run (run s l) l' := by simp [run]

theorem want_snoc (w : Want) (l : List Op) (op : Op) : w.run (l ++ [op]) = (w.run l).step op := by simp [Want.run]

@[simp] theorem save_data (s : St) (w : Write) : (s.save w).data = s.data := by cases w <;> rfl

@[simp] theorem save_running (s : St) (w : Write) : (s.save w).running = s.running := by cases w <;> rfl

theorem parse_body (r : Request) (h : r.access = true) : (parse r).1 = body r := by
  unfold parse body
  cases hc : r.cbor <;> cases hp : r.payload <;> simp_all

theorem parse_none (r : Request) (h : (parse r).1 = none) : parse r = (none, [400]) := by
  unfold parse at *
  cases hc : r.cbor <;> cases hp : r.payload <;> simp_all

theorem parse_some (r : Request) (v : Value) (h : (parse r).1 = some v) : parse r = (some v, []) := by
  unfold parse at *
  cases hc : r.cbor <;> cases hp : r.payload <;> simp_all

theorem floating_eq (v : Value) : floating v = targetOf (some v) := by cases v <;> rfl

theorem text_cool : "COOL" ≠ "HEAT" ∧ "COOL" ≠ "FAN" ∧ "COOL" ≠ "DRY" ∧ "HEAT" ≠ "FAN" ∧ "HEAT" ≠ "DRY" ∧ "FAN" ≠ "DRY" := by decide

/-- Setting the target in terms of the specification. -/
theorem setTarget_eq (s : St) (r : Request) (w : Write) :
    (∃ x, targetOf (body r) = some x ∧ s.setTarget r w = ({ s with data := { s.data with target := x } }.save w, [204])) ∨
      (targetOf (body r) = none ∧ ∃ l, s.setTarget r w = (s, l) ∧ l ≠ [204]) := by
  unfold St.setTarget
  cases ha : r.access with
  | false => exact .inr ⟨by simp [body, ha, targetOf], [403], by simp, by simp⟩
  | true =>
    have hp := parse_body r ha
    cases hv : (parse r).1 with
    | none => exact .inr ⟨by rw [← hp, hv]; rfl, [400, 400], by simp [parse_none r hv], by simp⟩
    | some v =>
      rw [← hp, hv, ← floating_eq]
      cases hf : floating v with
      | none => exact .inr ⟨rfl, [400], by simp [parse_some r v hv, hf], by simp⟩
      | some x => exact .inl ⟨x, rfl, by simp [parse_some r v hv, hf]⟩

theorem setPower_eq (s : St) (r : Request) (w : Write) :
    (∃ x, powerOf (body r) = some x ∧ s.setPower r w = ({ s with data := { s.data with power := x } }.save w, [204])) ∨
      (powerOf (body r) = none ∧ ∃ l, s.setPower r w = (s, l) ∧ l ≠ [204]) := by
  unfold St.setPower
  cases ha : r.access with
  | false => exact .inr ⟨by simp [body, ha, powerOf], [403], by simp, by simp⟩
  | true =>
    have hp := parse_body r ha
    cases hv : (parse r).1 with
    | none => exact .inr ⟨by rw [← hp, hv]; rfl, [400, 400], by simp [parse_none r hv], by simp⟩
    | some v =>
      rw [← hp, hv]
      cases v with
      | bool b => exact .inl ⟨b, rfl, by simp [parse_some r _ hv]⟩
      | _ => exact .inr ⟨rfl, [400], by simp [parse_some r _ hv], by simp⟩

theorem setMode_eq (s : St) (r : Request) (w : Write) :
    (∃ x, modeOf (body r) = some x ∧ s.setMode r w = ({ s with data := { s.data with mode := x } }.save w, [204])) ∨
      (modeOf (body r) = none ∧ ∃ l, s.setMode r w = (s, l) ∧ l ≠ [204]) := by
  unfold St.setMode
  cases ha : r.access with
  | false => exact .inr ⟨by simp [body, ha, modeOf], [403], by simp, by simp⟩
  | true =>
    have hp := parse_body r ha
    cases hv : (parse r).1 with
    | none => exact .inr ⟨by rw [← hp, hv]; rfl, [400], by simp [parse_none r hv], by simp⟩
    | some v =>
      rw [← hp, hv]
      cases v with
      | text t =>
        rw [parse_some r _ hv]
        by_cases h1 : t = "COOL"
        · subst h1; exact .inl ⟨.cool, by decide, by simp⟩
        · by_cases h2 : t = "HEAT"
          · subst h2; exact .inl ⟨.heat, by decide, by simp⟩
          · by_cases h3 : t = "FAN"
            · subst h3; exact .inl ⟨.fan, by decide, by simp⟩
            · by_cases h4 : t = "DRY"
              · subst h4; exact .inl ⟨.dry, by decide, by simp⟩
              · refine .inr ⟨?_, [400], by simp [h1, h2, h3, h4], by simp⟩
                simp [modeOf, Mode.text, Ne.symm h1, Ne.symm h2, Ne.symm h3, Ne.symm h4]
      | _ => exact .inr ⟨rfl, [400], by simp [parse_some r _ hv], by simp⟩

/-- The state behind the endpoints is what was asked for. -/
structure Live (s : St) (w : Want) : Prop where
  mode : s.data.mode = w.mode
  power : s.data.power = w.power
  target : s.data.target = w.target

theorem update_live (d : Data) (q : Rat) : (d.update q).mode = d.mode ∧ (d.update q).power = d.power ∧ (d.update q).target = d.target := by
  unfold Data.update
  split <;> exact ⟨rfl, rfl, rfl⟩

theorem Live.step {s : St} {w : Want} {op : Op} (hl : Live s w) (hr : s.running = true) (hb : isBoot op = false) :
    Live (step s op).1 (w.step op) ∧ (step s op).1.running = true := by
  cases op with
  | boot => cases hb
  | reset => cases hb
  | tick =>
    simp only [Thermostat.step, hr, Bool.not_true, Bool.false_eq_true, if_false, Want.step]
    have := update_live s.data (30 / 1000)
    exact ⟨⟨this.1.trans hl.mode, this.2.1.trans hl.power, this.2.2.trans hl.target⟩, trivial⟩
  | setMode r wr =>
    simp only [Thermostat.step, hr, Bool.not_true, Bool.false_eq_true, if_false, Want.step]
    rcases setMode_eq s r wr with ⟨x, hx, he⟩ | ⟨hx, l, he, -⟩
    · rw [he, hx]; exact ⟨⟨by simp, by simp [hl.power], by simp [hl.target]⟩, by simp [hr]⟩
    · rw [he, hx]; exact ⟨⟨hl.mode, hl.power, hl.target⟩, hr⟩
  | setPower r wr =>
    simp only [Thermostat.step, hr, Bool.not_true, Bool.false_eq_true, if_false, Want.step]
    rcases setPower_eq s r wr with ⟨x, hx, he⟩ | ⟨hx, l, he, -⟩
    · rw [he, hx]; exact ⟨⟨by simp [hl.mode], by simp, by simp [hl.target]⟩, by simp [hr]⟩
    · rw [he, hx]; exact ⟨⟨hl.mode, hl.power, hl.target⟩, hr⟩
  | setTarget r wr =>
    simp only [Thermostat.step, hr, Bool.not_true, Bool.false_eq_true, if_false, Want.step]
    rcases setTarget_eq s r wr with ⟨x, hx, he⟩ | ⟨hx, l, he, -⟩
    · rw [he, hx]; exact ⟨⟨by simp [hl.mode], by simp [hl.power], by simp⟩, by simp [hr]⟩
    · rw [he, hx]; exact ⟨⟨hl.mode, hl.power, hl.target⟩, hr⟩

theorem Live.run {s : St} {w : Want} (ops : List Op) (hl : Live s w) (hr : s.running = true) (hb : ∀ op ∈ ops, isBoot op = false) :
    Live (run s ops) (w.run ops) ∧ (Thermostat.run s ops).running = true := by
  induction ops using snoc_ind with
  | nil => exact ⟨hl, hr⟩
  | snoc l a ih =>
    have ih' := ih fun op h => hb op (by simp [h])
    rw [run_snoc, want_snoc]
    exact ih'.1.step ih'.2 (hb a (by simp))

/-- The file holds what was asked for. -/
structure Kept (s : St) (w : Want) : Prop where
  live : s.running = true → Live s w
  file : (s.file = .missing ∧ s.running = false ∧ w = ⟨.heat, false, .fin (223 / 10)⟩) ∨
    ∃ temp : Num, s.file = .doc (Data.encode ⟨w.mode, w.power, w.target, temp⟩)
  finite : finite w.target = true

theorem decode_encode (d d' : Data) (h : finite d.target = true) :
    ∃ t, decode d' d.encode = some ⟨d.mode, d.power, d.target, t⟩ := by
  obtain ⟨m, p, t, u⟩ := d
  cases t with
  | inf => cases h
  | nan => cases h
  | fin q =>
    cases m <;> exact ⟨(printed u).getD d'.temperature, by simp [decode, Data.encode, Mode.text, printed]⟩

theorem boot_kept {s : St} {w : Want} (hk : Kept s w) : Kept (s.boot .ok) w ∧ (s.boot .ok).running = true := by
  have key : ∃ temp : Num, ({ s with data := Data.default } : St).file = .missing ∧ w = ⟨.heat, false, .fin (223 / 10)⟩ ∨
      s.file = .doc (Data.encode ⟨w.mode, w.power, w.target, temp⟩) := by
    rcases hk.file with ⟨h1, _, h3⟩ | ⟨t, ht⟩
    · exact ⟨.nan, .inl ⟨h1, h3⟩⟩
    · exact ⟨t, .inr ht⟩
  obtain ⟨temp, h | h⟩ := key
  · obtain ⟨h1, rfl⟩ := h
    have hd : decode Data.default Data.default.encode = some Data.default := by
      simp [decode, Data.encode, Data.default, Mode.text, printed]
    have : s.boot .ok = { s with data := Data.default, file := .doc Data.default.encode, running := true } := by
      simp [St.boot, show s.file = .missing from h1, St.save, hd]
    rw [this]
    exact ⟨⟨fun _ => ⟨rfl, rfl, rfl⟩, .inr ⟨.fin (223 / 10), rfl⟩, rfl⟩, rfl⟩
  · obtain ⟨t, ht⟩ := decode_encode ⟨w.mode, w.power, w.target, temp⟩ Data.default hk.finite
    have : s.boot .ok = { s with data := ⟨w.mode, w.power, w.target, t⟩, running := true } := by
      simp [St.boot, h, ht]
    rw [this]
    exact ⟨⟨fun _ => ⟨rfl, rfl, rfl⟩, .inr ⟨temp, h⟩, hk.finite⟩, rfl⟩

theorem Kept.step {s : St} {w : Want} {op : Op} (hk : Kept s w) (hd : durable op = true) (hr : isRequest op = true → s.running = true) :
    Kept (step s op).1 (w.step op) := by
  cases op with
  | boot wr =>
    have : wr = .ok := by simpa [durable] using hd
    subst this
    exact (boot_kept hk).1
  | reset w1 w2 =>
    have : w1 = .ok ∧ w2 = .ok := by simpa [durable] using hd
    obtain ⟨rfl, rfl⟩ := this
    have hb := (boot_kept hk).2
    simp only [Thermostat.step, St.reset, hb, if_true, St.save, Want.step]
    exact ⟨fun hc => (nomatch hc), .inr ⟨.fin (223 / 10), rfl⟩, rfl⟩
  | tick =>
    by_cases hrun : s.running = true
    · have hl := (hk.live hrun).step (op := .tick) hrun rfl
      refine ⟨fun _ => hl.1, ?_, hk.finite⟩
      rcases hk.file with h | ⟨t, ht⟩
      · exact nomatch hrun.symm.trans h.2.1
      · exact .inr ⟨t, by simpa [Thermostat.step, hrun, Want.step] using ht⟩
    · have : s.running = false := by simpa using hrun
      simpa [Thermostat.step, this, Want.step] using hk
  | setMode r wr =>
    have hrun := hr rfl
    have hwr : wr = .ok := by simpa [durable] using hd
    subst hwr
    have hl := ((hk.live hrun).step (op := .setMode r .ok) hrun rfl).1
    refine ⟨fun _ => hl, ?_, hk.finite⟩
    have hfile : ∃ t : Num, s.file = .doc (Data.encode ⟨w.mode, w.power, w.target, t⟩) := by
      rcases hk.file with h | h
      · exact nomatch hrun.symm.trans h.2.1
      · exact h
    simp only [Thermostat.step, hrun, Bool.not_true, Bool.false_eq_true, if_false, Want.step] at hl ⊢
    rcases setMode_eq s r .ok with ⟨x, hx, he⟩ | ⟨hx, l, he, -⟩
    · rw [he, hx]
      have h0 := hk.live hrun
      exact .inr ⟨s.data.temperature, by simp [St.save, ← h0.power, ← h0.target]⟩
    · rw [he, hx]; exact .inr hfile
  | setPower r wr =>
    have hrun := hr rfl
    have hwr : wr = .ok := by simpa [durable] using hd
    subst hwr
    have hl := ((hk.live hrun).step (op := .setPower r .ok) hrun rfl).1
    refine ⟨fun _ => hl, ?_, hk.finite⟩
    have hfile : ∃ t : Num, s.file = .doc (Data.encode ⟨w.mode, w.power, w.target, t⟩) := by
      rcases hk.file with h | h
      · exact nomatch hrun.symm.trans h.2.1
      · exact h
    simp only [Thermostat.step, hrun, Bool.not_true, Bool.false_eq_true, if_false, Want.step] at hl ⊢
    rcases setPower_eq s r .ok with ⟨x, hx, he⟩ | ⟨hx, l, he, -⟩
    · rw [he, hx]
      have h0 := hk.live hrun
      exact .inr ⟨s.data.temperature, by simp [St.save, ← h0.mode, ← h0.target]⟩
    · rw [he, hx]; exact .inr hfile
  | setTarget r wr =>
    have hrun := hr rfl
    simp only [durable, Bool.and_eq_true, beq_iff_eq] at hd
    obtain ⟨rfl, hfin⟩ := hd
    have hl := ((hk.live hrun).step (op := .setTarget r .ok) hrun rfl).1
    have hfile : ∃ t : Num, s.file = .doc (Data.encode ⟨w.mode, w.power, w.target, t⟩) := by
      rcases hk.file with h | h
      · exact nomatch hrun.symm.trans h.2.1
      · exact h
    simp only [Thermostat.step, hrun, Bool.not_true, Bool.false_eq_true, if_false, Want.step] at hl ⊢
    rcases setTarget_eq s r .ok with ⟨x, hx, he⟩ | ⟨hx, l, he, -⟩
    · rw [he, hx] at hl ⊢
      rw [hx] at hfin
      have h0 := hk.live hrun
      exact ⟨fun _ => hl, .inr ⟨s.data.temperature, by simp [St.save, ← h0.mode, ← h0.power]⟩, hfin⟩
    · rw [he, hx] at hl ⊢; exact ⟨fun _ => hl, .inr hfile, hk.finite⟩

theorem Kept.init : Kept St.init ⟨.heat, false, .fin (223 / 10)⟩ := ⟨fun hc => (nomatch hc), .inl ⟨rfl, rfl, rfl⟩, rfl⟩

/-! ## The temperature -/

/-- `smoothstep` on finite numbers. -/
def smooth (x : Rat) : Rat := if 20 ≤ x then 1 else (x / 20) * (x / 20) * (3 - 2 * (x / 20))

theorem smoothstep_fin (x : Rat) (h : 0 ≤ x) : smoothstep 0 20 (.fin x) = .fin (smooth x) := by
  unfold smoothstep smooth
  have h0 : ¬ x < 0 := not_lt.mpr h
  by_cases h1 : (20 : Rat) ≤ x
  · simp [Num.lt, Num.le, h0, h1]
  · simp [Num.lt, Num.le, h0, h1, Num.sub, Num.neg, Num.add, Num.div, Num.mul, div_eq_mul_inv, sub_eq_add_neg]

theorem smooth_pos (x : Rat) (h : 0 < x) : 0 < smooth x := by
  unfold smooth
  split
  · norm_num
  · rename_i h1
    have hy : 0 < x / 20 := by linarith
    have hy1 : x / 20 < 1 := by linarith
    have : 0 < 3 - 2 * (x / 20) := by linarith
    positivity

theorem smooth_le (x : Rat) (h : 0 ≤ x) : smooth x ≤ x := by
  unfold smooth
  split
  · linarith
  · rename_i h1
    have hy : 0 ≤ x / 20 := by linarith
    have hy1 : x / 20 < 1 := by linarith
    have e : x = 20 * (x / 20) := by ring
    generalize x / 20 = y at *
    rw [e]
    nlinarith [mul_nonneg hy hy, mul_nonneg hy (by linarith : (0:Rat) ≤ 1 - y)]

theorem smooth_mono (x y : Rat) (h : 0 ≤ x) (hxy : x ≤ y) : smooth x ≤ smooth y := by
  unfold smooth
  by_cases hy : (20 : Rat) ≤ y
  · rw [if_pos hy]
    split
    · exact le_refl _
    · rename_i hx
      have h0 : 0 ≤ x / 20 := by linarith
      have h1 : x / 20 < 1 := by linarith
      generalize x / 20 = z at *
      nlinarith [mul_nonneg (sq_nonneg (1 - z)) (by linarith : (0:Rat) ≤ 1 + 2 * z)]
  · have hx : ¬ (20 : Rat) ≤ x := by linarith
    rw [if_neg hy, if_neg hx]
    have h0 : 0 ≤ x / 20 := by linarith
    have h1 : y / 20 < 1 := by linarith
    have h2 : x / 20 ≤ y / 20 := by linarith
    generalize x / 20 = a at *
    generalize y / 20 = b at *
    have : b * b * (3 - 2 * b) - a * a * (3 - 2 * a) = (b - a) * (3 * (a + b) - 2 * (a * a + a * b + b * b)) := by ring
    have h3 : 0 ≤ 3 * (a + b) - 2 * (a * a + a * b + b * b) := by nlinarith
    nlinarith [mul_nonneg (by linarith : (0:Rat) ≤ b - a) h3]

/-- One tick on finite numbers. -/
def tickTo (t e : Rat) : Rat := if t ≤ e then t + 3 / 20 * smooth (e - t) else t - 3 / 20 * smooth (t - e)

theorem update_fin (m : Mode) (t e : Rat) :
    Data.update ⟨m, true, .fin e, .fin t⟩ (30 / 1000) = ⟨m, true, .fin e, .fin (tickTo t e)⟩ := by
  unfold Data.update tickTo
  simp only [if_true, Num.sub, Num.neg, Num.add, Num.lt, Num.le, decide_eq_true_eq]
  by_cases h : t ≤ e
  · have h1 : 0 ≤ e + -t := by linarith
    by_cases h2 : 0 < e + -t
    · simp only [h2, h1, if_true, smoothstep_fin _ h1, Num.mul, h]
      congr 2
      rw [← sub_eq_add_neg]
      ring
    · have h3 : e = t := by linarith
      subst h3
      simp only [add_neg_cancel, lt_irrefl, if_false, le_refl, if_true, neg_zero, smoothstep_fin 0 (le_refl _), Num.mul, sub_self]
      congr 2
      ring
  · have h1 : ¬ 0 ≤ e + -t := by linarith
    have h2 : ¬ 0 < e + -t := by linarith
    have h3 : 0 ≤ -(e + -t) := by linarith
    simp only [h2, h1, if_false, smoothstep_fin _ h3, Num.mul, h]
    congr 2
    have : -(e + -t) = t - e := by ring
    rw [this]
    ring

theorem dist_nonneg (t e : Rat) : 0 ≤ dist t e := by
  unfold dist
  split <;> linarith

theorem tick_dist (t e : Rat) : dist (tickTo t e) e = dist t e - 3 / 20 * smooth (dist t e) := by
  have hs := smooth_le (dist t e) (dist_nonneg t e)
  have h0 := dist_nonneg t e
  unfold dist tickTo at *
  by_cases h : t ≤ e
  · simp only [h, if_true] at *
    rw [if_pos (by linarith)]
    ring
  · have hlt : e < t := not_le.mp h
    simp only [h, if_false] at *
    have hp := smooth_le (t - e) h0
    by_cases h2 : t - 3 / 20 * smooth (t - e) ≤ e
    · exfalso
      linarith
    · rw [if_neg h2]
      ring

/-- `n` ticks. -/
def ticks (e : Rat) : Nat → Rat → Rat
  | 0, t => t
  | n + 1, t => tickTo (ticks e n t) e

theorem ticks_anti (e t : Rat) (n : Nat) : dist (ticks e (n + 1) t) e ≤ dist (ticks e n t) e := by
  simp only [ticks, tick_dist]
  have h := dist_nonneg (ticks e n t) e
  rcases eq_or_lt_of_le h with h0 | h0
  · rw [← h0]; norm_num [smooth]
  · have := smooth_pos _ h0
    linarith

theorem ticks_le (e t : Rat) (n m : Nat) (h : n ≤ m) : dist (ticks e m t) e ≤ dist (ticks e n t) e := by
  induction m with
  | zero =>
    have : n = 0 := by omega
    subst this
    exact le_refl _
  | succ m ih =>
    rcases Nat.lt_or_ge n (m + 1) with h1 | h1
    · exact (ticks_anti e t m).trans (ih (by omega))
    · have : n = m + 1 := by omega
      subst this
      exact le_refl _

theorem ticks_far (e t ε : Rat) (hε : 0 < ε) (n : Nat) (h : ε ≤ dist (ticks e n t) e) :
    dist (ticks e n t) e ≤ dist t e - n * (3 / 20 * smooth ε) := by
  induction n with
  | zero => simp [ticks]
  | succ n ih =>
    have h1 := ticks_anti e t n
    have ih' := ih (h.trans h1)
    have h2 : smooth ε ≤ smooth (dist (ticks e n t) e) := smooth_mono _ _ (le_of_lt hε) (h.trans h1)
    simp only [ticks, tick_dist] at *
    push_cast
    linarith

theorem ticks_reach (e t ε : Rat) (hε : 0 < ε) : ∃ n, dist (ticks e n t) e < ε := by
  have hp : 0 < 3 / 20 * smooth ε := mul_pos (by norm_num) (smooth_pos ε hε)
  obtain ⟨n, hn⟩ := Archimedean.arch (dist t e) hp
  refine ⟨n, ?_⟩
  rw [nsmul_eq_mul] at hn
  by_cases h : ε ≤ dist (ticks e n t) e
  · have := ticks_far e t ε hε n h
    linarith
  · exact not_le.mp h

theorem run_ticks (s : St) (e t : Rat) (hr : s.running = true) (hp : s.data.power = true) (he : s.data.target = .fin e)
    (ht : s.data.temperature = .fin t) (n : Nat) :
    run s (List.replicate n .tick) = { s with data := { s.data with temperature := .fin (ticks e n t) } } := by
  induction n with
  | zero => obtain ⟨⟨_, _, _, _⟩, _, _⟩ := s; cases ht; rfl
  | succ n ih =>
    rw [List.replicate_succ', run_snoc, ih]
    obtain ⟨⟨m, p, ta, te⟩, f, r⟩ := s
    cases hr; cases hp; cases he; cases ht
    simp [step, update_fin, ticks]

/-! ## Half precision -/

theorem half_fields (sign : Bool) (exp : Fin 32) (frac : Fin 1024) :
    let h := (if sign then 32768 else 0) + exp.val * 1024 + frac.val
    h / 1024 % 32 = exp.val ∧ h % 1024 = frac.val ∧ h / 32768 % 2 = (if sign then 1 else 0) := by
  have := exp.isLt
  have := frac.isLt
  cases sign <;> (simp only [Bool.false_eq_true, if_true, if_false]; omega)

theorem pow_split (e : Nat) :
    (if e ≥ 25 then ((2 ^ (e - 25) : Nat) : Rat) else 1 / ((2 ^ (25 - e) : Nat) : Rat)) = 2 ^ ((e : Int) - 25) := by
  split
  · have : ((e : Int) - 25) = ((e - 25 : Nat) : Int) := by omega
    rw [this, zpow_natCast]
    push_cast
    rfl
  · have : ((e : Int) - 25) = -((25 - e : Nat) : Int) := by omega
    rw [this, zpow_neg, zpow_natCast]
    push_cast
    rw [one_div]

/-! ## NaN -/

theorem nan_tick (d : Data) (h : d.temperature = .nan) (q : Rat) : (d.update q).temperature = .nan := by
  unfold Data.update
  split
  · simp [h, Num.add]
  · exact h

theorem nan_step (s : St) (op : Op) (hr : s.running = true) (hb : isBoot op = false) (h : s.data.temperature = .nan) :
    (step s op).1.data.temperature = .nan ∧ (step s op).1.running = true := by
  cases op with
  | boot => cases hb
  | reset => cases hb
  | tick => simp [step, hr, nan_tick _ h]
  | setMode r w =>
    simp only [step, hr, Bool.not_true, Bool.false_eq_true, if_false]
    rcases setMode_eq s r w with ⟨x, hx, he⟩ | ⟨hx, l, he, -⟩ <;> simp [he, h, hr]
  | setPower r w =>
    simp only [step, hr, Bool.not_true, Bool.false_eq_true, if_false]
    rcases setPower_eq s r w with ⟨x, hx, he⟩ | ⟨hx, l, he, -⟩ <;> simp [he, h, hr]
  | setTarget r w =>
    simp only [step, hr, Bool.not_true, Bool.false_eq_true, if_false]
    rcases setTarget_eq s r w with ⟨x, hx, he⟩ | ⟨hx, l, he, -⟩ <;> simp [he, h, hr]

theorem nan_run (s : St) (ops : List Op) (hr : s.running = true) (hb : ∀ op ∈ ops, isBoot op = false) (h : s.data.temperature = .nan) :
    (run s ops).data.temperature = .nan ∧ (run s ops).running = true := by
  induction ops using snoc_ind with
  | nil => exact ⟨h, hr⟩
  | snoc l a ih =>
    rw [run_snoc]
    have ih' := ih fun op hm => hb op (by simp [hm])
    exact nan_step _ a ih'.2 (hb a (by simp)) ih'.1

/-! ## A file which cannot be read -/

theorem torn_step (s : St) (op : Op) (hr : s.running = false) (hf : s.file = .torn) :
    (step s op).1.running = false ∧ (step s op).1.file = .torn := by
  have hb : ∀ w, (s.boot w).running = false ∧ (s.boot w).file = .torn := by
    intro w
    simp [St.boot, hf]
  cases op with
  | boot w => exact hb w
  | reset w w' =>
    simp only [step, St.reset, (hb w).1, Bool.false_eq_true, if_false]
    exact ⟨trivial, (hb w).2⟩
  | _ => simp [step, hr, hf]

theorem torn_run (s : St) (ops : List Op) (hr : s.running = false) (hf : s.file = .torn) :
    (run s ops).running = false ∧ (run s ops).file = .torn := by
  induction ops using snoc_ind with
  | nil => exact ⟨hr, hf⟩
  | snoc l a ih =>
    rw [run_snoc]
    exact torn_step _ a ih.1 ih.2

end Verif.Apps.Thermostat
