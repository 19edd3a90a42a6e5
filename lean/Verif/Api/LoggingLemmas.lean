import Verif.Api.LoggingSpec
import Mathlib.Tactic.SplitIfs

/-! # Lemmas for C127 -/

namespace Verif.Api.Logging

theorem levelMask_eq (s : String) : levelMask s = (Spec.parse s).map fun l => match l with
    | .error => LEVEL_ERROR
    | .warn => LEVEL_WARN
    | .info => LEVEL_INFO
    | .trace => LEVEL_TRACE := by
  unfold levelMask Spec.parse
  simp only [List.findSome?_cons, List.findSome?_nil, eq_comm (b := s)]
  by_cases h1 : s = "error"
  · simp [h1]
  · by_cases h2 : s = "warn"
    · simp [h2]
    · by_cases h3 : s = "info"
      · simp [h3]
      · by_cases h4 : s = "trace"
        · simp [h4]
        · simp [h1, h2, h3, h4]

/-- The mask of a level. -/
def maskOf : Level → UInt32
  | .error => LEVEL_ERROR
  | .warn => LEVEL_WARN
  | .info => LEVEL_INFO
  | .trace => LEVEL_TRACE

theorem levelMask_parse (s : String) : levelMask s = (Spec.parse s).map maskOf := by
  rw [levelMask_eq]
  congr 1

theorem mask_rank (l m : Level) : (maskOf l &&& severity m ≠ 0) ↔ Spec.rank m ≤ Spec.rank l := by
  cases l <;> cases m <;> decide

theorem outSeverity_eq (l : Level) : outSeverity (severity l) = l := by
  cases l <;> decide

theorem debug_eq (n : Nat) : debugSeverity n = severity (Spec.ofMbedtls n) := by
  unfold Spec.ofMbedtls debugSeverity
  split <;> simp_all [severity]

theorem wolf_eq (n : Nat) : wolfSeverity n = severity (Spec.ofWolfssl n) := by
  unfold Spec.ofWolfssl wolfSeverity
  split <;> simp_all [severity]

theorem runFrom_append (s : St) (a b : List Op) : runFrom s (a ++ b) = (runFrom s a).bind fun s' => runFrom s' b := by
  induction a generalizing s with
  | nil => rfl
  | cons op a ih =>
    simp only [List.cons_append, runFrom]
    cases step s op with
    | none => rfl
    | some s' => exact ih s'

theorem run_snoc {ops : List Op} {op : Op} {s : St} (h : run (ops ++ [op]) = some s) :
    ∃ s0, run ops = some s0 ∧ step s0 op = some s := by
  unfold run at h ⊢
  rw [runFrom_append] at h
  cases hr : runFrom {} ops with
  | none => rw [hr] at h; cases h
  | some s0 =>
    rw [hr] at h
    simp only [Option.bind_some, runFrom] at h
    refine ⟨s0, rfl, ?_⟩
    split at h
    · cases h
    · rename_i s1 h1
      cases h
      exact h1

theorem snoc_ind {motive : List Op → Prop} (h0 : motive []) (h1 : ∀ l op, motive l → motive (l ++ [op])) (l : List Op) :
    motive l := by
  have : ∀ n, ∀ l : List Op, l.length = n → motive l := by
    intro n
    induction n with
    | zero => intro l hl; rw [List.eq_nil_of_length_eq_zero hl]; exact h0
    | succ n ih =>
      intro l hl
      have hne : l ≠ [] := by rintro rfl; cases hl
      rw [← List.dropLast_concat_getLast hne]
      exact h1 _ _ (ih _ (by rw [List.length_dropLast, hl]; rfl))
  exact this _ l rfl

/-! ## Formats -/

/-- A text without a percent sign is printed as it is. -/
theorem format_plain (t : Text) (h : (37 : UInt8) ∉ t) : format t [] = some t := by
  induction t with
  | nil => rfl
  | cons c t ih =>
    have hc : c ≠ 37 := fun hc => h (by rw [hc]; exact List.mem_cons_self)
    have ht : (37 : UInt8) ∉ t := fun hc => h (List.mem_cons_of_mem _ hc)
    cases t with
    | nil => simp only [format, if_neg hc]
    | cons d rest =>
      simp only [format, if_neg hc, ih ht, Option.map_some]

/-- A conversion without an argument is undefined. -/
theorem format_undefined (pre post : Text) (c : UInt8) (hp : (37 : UInt8) ∉ pre) (hc : c ≠ 37) :
    format (pre ++ 37 :: c :: post) [] = none := by
  induction pre with
  | nil => simp only [List.nil_append, format, if_true, if_neg hc]
  | cons a pre ih =>
    have ha : a ≠ 37 := fun h => hp (by rw [h]; exact List.mem_cons_self)
    have ht : (37 : UInt8) ∉ pre := fun h => hp (List.mem_cons_of_mem _ h)
    have hi := ih ht
    cases pre with
    | nil =>
      simp only [List.nil_append, List.cons_append] at hi ⊢
      rw [format, if_neg ha, hi]
      rfl
    | cons b pre =>
      simp only [List.cons_append] at hi ⊢
      rw [format, if_neg ha, hi]
      rfl

/-! ## One function after the other -/

/-- The variables are what the application asked for, and no function is under way. -/
structure Match (s : St) (w : Spec.Want) : Prop where
  on : s.on = w.created
  level : s.level = maskOf w.level
  cb : s.cb = w.target.map (·.1)
  data : ∀ x, w.target = some x → s.data = x.2
  setting : s.setting = []
  loaded : s.loaded = []

theorem Match.log {s : St} {w : Spec.Want} (h : Match s w) (l : Level) (fmt : List UInt8) (args : List Text) :
    (runFrom s [.log 0 (severity l) fmt args, .call 0]) =
      if w.gets l then (format fmt args).map fun t => { s with calls := s.calls ++ w.calls l t } else some s := by
  obtain ⟨on, level, cb, data, setting, loaded, calls⟩ := s
  obtain ⟨created, wl, target⟩ := w
  obtain ⟨h1, h2, h3, h4, h5, h6⟩ := h
  dsimp only at h1 h2 h3 h4 h5 h6
  subst h1 h2 h3 h5 h6
  have hm := mask_rank wl l
  simp only [runFrom, step, St.log, Spec.Want.gets]
  cases on with
  | false => simp [St.call]
  | true =>
    by_cases hr : Spec.rank l ≤ Spec.rank wl
    · simp only [Bool.not_true, Bool.false_eq_true, if_false, if_pos (hm.mpr hr), Bool.true_and, decide_eq_true_eq, if_pos hr]
      cases format fmt args with
      | none => rfl
      | some t =>
        simp only [St.call, List.nil_append, Option.map_some, List.find?_cons, decide_true, List.erase_cons_head]
        cases target with
        | none => simp [Spec.Want.calls]
        | some x =>
          have hd := h4 x rfl
          simp [Spec.Want.calls, Spec.Want.gets, hr, outSeverity_eq, hd]
    · simp only [Bool.not_true, Bool.false_eq_true, if_false, if_neg (fun hx => hr (hm.mp hx)), Bool.true_and, decide_eq_true_eq,
        if_neg hr]
      simp [St.call]

theorem Match.calls {s : St} {w : Spec.Want} (h : Match s w) (cs : List Call) : Match { s with calls := cs } w :=
  { on := h.on, level := h.level, cb := h.cb, data := h.data, setting := h.setting, loaded := h.loaded }

theorem Match.said {s : St} {w : Spec.Want} (h : Match s w) (l : Level) (fmt : List UInt8) (args : List Text) (t : Text)
    (hf : format fmt args = some t) :
    ∃ s', runFrom s [.log 0 (severity l) fmt args, .call 0] = some s' ∧ Match s' w ∧ s'.calls = s.calls ++ w.calls l t := by
  rw [h.log, hf]
  split
  · exact ⟨_, rfl, h.calls _, rfl⟩
  · rename_i hg
    refine ⟨s, rfl, h, ?_⟩
    unfold Spec.Want.calls
    split
    · rw [if_neg hg, List.append_nil]
    · rw [List.append_nil]

theorem Match.api {s : St} {w : Spec.Want} (h : Match s w) (a : Api) (hs : Spec.sound a) :
    ∃ s', runFrom s a.steps = some s' ∧ Match s' (w.next a) ∧
      s'.calls = s.calls ++ (match Spec.message a with
        | some (l, some t) => w.calls l t
        | _ => []) := by
  cases a with
  | new => exact ⟨_, rfl, { h with on := rfl }, by simp [Spec.message]⟩
  | setLevel x =>
    simp only [Api.steps, runFrom, step, levelMask_parse, Spec.Want.next, Spec.message, List.append_nil]
    cases hp : Spec.parse x with
    | none => exact ⟨s, rfl, h, rfl⟩
    | some l => exact ⟨_, rfl, { h with level := rfl }, rfl⟩
  | setCallback cb data =>
    simp only [Api.steps, runFrom, step, St.setEnd, h.setting, List.nil_append, List.find?_cons, decide_true, List.erase_cons_head,
      Spec.message, List.append_nil]
    refine ⟨_, rfl, ?_, rfl⟩
    cases cb with
    | none => exact { on := h.on, level := h.level, cb := rfl, data := fun x hx => (nomatch hx), setting := rfl, loaded := h.loaded }
    | some c =>
      exact { on := h.on, level := h.level, cb := rfl, data := fun x hx => (by cases hx; rfl), setting := rfl, loaded := h.loaded }
  | message l fmt args =>
    obtain ⟨t, ht⟩ := Option.isSome_iff_exists.mp hs
    obtain ⟨s', h1, h2, h3⟩ := h.said l fmt args t ht
    exact ⟨s', h1, h2, by simpa [Spec.message, ht] using h3⟩
  | mbedtls n line =>
    obtain ⟨s', h1, h2, h3⟩ := h.said (Spec.ofMbedtls n) line [] line (format_plain line (by simpa [Spec.sound] using hs))
    rw [← debug_eq] at h1
    exact ⟨s', h1, h2, h3⟩
  | wolfssl n line =>
    obtain ⟨s', h1, h2, h3⟩ := h.said (Spec.ofWolfssl n) line [] line (format_plain line (by simpa [Spec.sound] using hs))
    rw [← wolf_eq] at h1
    exact ⟨s', h1, h2, h3⟩

theorem Match.history (l : List Api) {s : St} {w : Spec.Want} (h : Match s w) (hs : ∀ a ∈ l, Spec.sound a) :
    ∃ s', runFrom s (l.flatMap Api.steps) = some s' ∧ Match s' (l.foldl Spec.Want.next w) ∧
      s'.calls = s.calls ++ Spec.calls w l := by
  induction l generalizing s w with
  | nil => exact ⟨s, rfl, h, by simp [Spec.calls]⟩
  | cons a l ih =>
    obtain ⟨s1, h1, m1, c1⟩ := h.api a (hs a List.mem_cons_self)
    obtain ⟨s2, h2, m2, c2⟩ := ih m1 (fun b hb => hs b (List.mem_cons_of_mem _ hb))
    refine ⟨s2, ?_, m2, ?_⟩
    · rw [List.flatMap_cons, runFrom_append, h1]
      exact h2
    · rw [c2, c1, List.append_assoc]
      rfl

theorem Match.init : Match {} {} :=
  { on := rfl, level := rfl, cb := rfl, data := fun _ h => (nomatch h), setting := rfl, loaded := rfl }

/-! ## All schedules -/

/-- A message was logged in a schedule, at a level which was on. -/
def Said (ops : List Op) (l : Level) (t : Text) : Prop :=
  ∃ before tid sev fmt args after, ops = before ++ .log tid sev fmt args :: after ∧ sev = severity l ∧
    Spec.rank l ≤ Spec.rank (Spec.levelIn before) ∧ (∃ full, format fmt args = some full ∧ t = full.take 254)

/-- A callback was set in a schedule. -/
def SetCb (ops : List Op) (cb : Nat) : Prop := ∃ tid d, Op.setBegin tid (some cb) d ∈ ops

/-- User data were set in a schedule. -/
def SetData (ops : List Op) (d : Option Nat) : Prop := d = none ∨ ∃ tid cb, Op.setBegin tid cb d ∈ ops

theorem Said.snoc {ops : List Op} {l : Level} {t : Text} (h : Said ops l t) (op : Op) : Said (ops ++ [op]) l t := by
  obtain ⟨b, tid, sev, fmt, args, after, he, hr⟩ := h
  exact ⟨b, tid, sev, fmt, args, after ++ [op], by rw [he]; simp, hr⟩

theorem SetCb.snoc {ops : List Op} {c : Nat} (h : SetCb ops c) (op : Op) : SetCb (ops ++ [op]) c := by
  obtain ⟨tid, d, hm⟩ := h
  exact ⟨tid, d, List.mem_append_left _ hm⟩

theorem SetData.snoc {ops : List Op} {d : Option Nat} (h : SetData ops d) (op : Op) : SetData (ops ++ [op]) d := by
  rcases h with h | ⟨tid, cb, hm⟩
  · exact Or.inl h
  · exact Or.inr ⟨tid, cb, List.mem_append_left _ hm⟩

/-- What holds in every schedule. -/
structure Inv (ops : List Op) (s : St) : Prop where
  level : s.level = maskOf (Spec.levelIn ops)
  cb : ∀ c, s.cb = some c → SetCb ops c
  data : SetData ops s.data
  setting : ∀ x ∈ s.setting, ∀ c, x.2 = some c → SetCb ops c
  loaded : ∀ x ∈ s.loaded, (∀ c, x.2.1 = some c → SetCb ops c) ∧ SetData ops x.2.2.1 ∧ Said ops x.2.2.2.1 x.2.2.2.2
  calls : ∀ c ∈ s.calls, SetCb ops c.cb ∧ SetData ops c.data ∧ Said ops c.level c.text
  once : s.calls.length + s.loaded.length ≤ Spec.messages ops

theorem levelIn_snoc (ops : List Op) (op : Op) (h : ∀ s, op ≠ .setLevel s) : Spec.levelIn (ops ++ [op]) = Spec.levelIn ops := by
  unfold Spec.levelIn
  rw [List.foldl_append]
  cases op with
  | setLevel s => exact absurd rfl (h s)
  | _ => rfl

theorem Inv.keep {ops : List Op} {s : St} (hi : Inv ops s) (op : Op) (h : ∀ x, op ≠ .setLevel x) : Inv (ops ++ [op]) s :=
  { level := by rw [levelIn_snoc ops op h]; exact hi.level
    cb := fun c hc => (hi.cb c hc).snoc op
    data := hi.data.snoc op
    setting := fun x hx c hc => (hi.setting x hx c hc).snoc op
    loaded := fun x hx => ⟨fun c hc => ((hi.loaded x hx).1 c hc).snoc op, (hi.loaded x hx).2.1.snoc op, (hi.loaded x hx).2.2.snoc op⟩
    calls := fun c hc => ⟨(hi.calls c hc).1.snoc op, (hi.calls c hc).2.1.snoc op, (hi.calls c hc).2.2.snoc op⟩
    once := by
      have := hi.once
      unfold Spec.messages at this ⊢
      rw [List.countP_append]
      omega }

theorem Inv.step {ops : List Op} {op : Op} {s s' : St} (hi : Inv ops s) (hop : ∀ tid sev fmt args, op = .log tid sev fmt args → ∃ l, sev = severity l)
    (h : step s op = some s') : Inv (ops ++ [op]) s' := by
  cases op with
  | init =>
    cases h
    have k := hi.keep .init (fun _ h => nomatch h)
    exact { k with level := k.level }
  | setLevel x =>
    have hl : Spec.levelIn (ops ++ [.setLevel x]) = match Spec.parse x with
        | some l => l
        | none => Spec.levelIn ops := by
      unfold Spec.levelIn
      rw [List.foldl_append]
      rfl
    unfold Logging.step at h
    simp only [levelMask_parse] at h
    have hm : Spec.messages (ops ++ [.setLevel x]) = Spec.messages ops := by
      unfold Spec.messages
      rw [List.countP_append]
      rfl
    cases hp : Spec.parse x with
    | none =>
      rw [hp] at h hl
      cases h
      exact {
        level := by rw [hl]; exact hi.level
        cb := fun c hc => (hi.cb c hc).snoc _
        data := hi.data.snoc _
        setting := fun x hx c hc => (hi.setting x hx c hc).snoc _
        loaded := fun x hx => ⟨fun c hc => ((hi.loaded x hx).1 c hc).snoc _, (hi.loaded x hx).2.1.snoc _, (hi.loaded x hx).2.2.snoc _⟩
        calls := fun c hc => ⟨(hi.calls c hc).1.snoc _, (hi.calls c hc).2.1.snoc _, (hi.calls c hc).2.2.snoc _⟩
        once := by rw [hm]; exact hi.once }
    | some l =>
      rw [hp] at h hl
      cases h
      exact {
        level := by rw [hl]
        cb := fun c hc => (hi.cb c hc).snoc _
        data := hi.data.snoc _
        setting := fun x hx c hc => (hi.setting x hx c hc).snoc _
        loaded := fun x hx => ⟨fun c hc => ((hi.loaded x hx).1 c hc).snoc _, (hi.loaded x hx).2.1.snoc _, (hi.loaded x hx).2.2.snoc _⟩
        calls := fun c hc => ⟨(hi.calls c hc).1.snoc _, (hi.calls c hc).2.1.snoc _, (hi.calls c hc).2.2.snoc _⟩
        once := by rw [hm]; exact hi.once }
  | setBegin tid cb d =>
    cases h
    have k := hi.keep (.setBegin tid cb d) (fun _ h => nomatch h)
    refine { k with data := Or.inr ⟨tid, cb, by simp⟩, setting := ?_ }
    intro x hx c hc
    rcases List.mem_append.mp hx with hx | hx
    · exact k.setting x hx c hc
    · rw [List.mem_singleton.mp hx] at hc
      exact ⟨tid, d, by simp [← hc]⟩
  | setEnd tid =>
    have k := hi.keep (.setEnd tid) (fun _ h => nomatch h)
    have h' : s.setEnd tid = s' := Option.some.inj h
    subst h'
    unfold St.setEnd
    split
    · exact k
    · rename_i x hx
      exact { k with cb := fun c hc => k.setting x (List.mem_of_find?_eq_some hx) c hc,
                     setting := fun y hy => k.setting y (List.mem_of_mem_erase hy) }
  | log tid sev fmt args =>
    have k := hi.keep (.log tid sev fmt args) (fun _ h => nomatch h)
    obtain ⟨l, hl⟩ := hop tid sev fmt args rfl
    have h' : s.log tid sev fmt args = some s' := h
    unfold St.log at h'
    split at h'
    · cases h'; exact k
    · split at h'
      · rename_i hm
        split at h'
        · cases h'
        · rename_i t ht
          cases h'
          refine { k with loaded := ?_, once := ?_ }
          · intro x hx
            rcases List.mem_append.mp hx with hx | hx
            · exact k.loaded x hx
            · rw [List.mem_singleton.mp hx]
              refine ⟨fun c hc => k.cb c hc, k.data, ops, tid, sev, fmt, args, [], by simp, ?_, ?_, t, ht, rfl⟩
              · rw [hl, outSeverity_eq]
              · rw [hl, outSeverity_eq]
                rw [hi.level, hl] at hm
                exact (mask_rank _ _).mp hm
          · have := hi.once
            unfold Spec.messages at this ⊢
            rw [List.countP_append]
            simp only [List.length_append, List.length_singleton, List.countP_singleton, if_true]
            omega
      · cases h'; exact k
  | call tid =>
    have k := hi.keep (.call tid) (fun _ h => nomatch h)
    have h' : s.call tid = s' := Option.some.inj h
    subst h'
    unfold St.call
    split
    · exact k
    · rename_i x hx
      have hx' := List.mem_of_find?_eq_some hx
      have hlen : (s.loaded.erase x).length + 1 = s.loaded.length := by
        rw [List.length_erase_of_mem hx']
        have := List.length_pos_of_mem hx'
        omega
      have ko := k.once
      dsimp only
      split
      · exact { k with loaded := fun y hy => k.loaded y (List.mem_of_mem_erase hy), once := by dsimp only; omega }
      · rename_i cb hcb
        refine { k with loaded := fun y hy => k.loaded y (List.mem_of_mem_erase hy), calls := ?_, once := ?_ }
        · intro c hc
          rcases List.mem_append.mp hc with hc | hc
          · exact k.calls c hc
          · rw [List.mem_singleton.mp hc]
            exact ⟨(k.loaded x hx').1 cb hcb, (k.loaded x hx').2.1, (k.loaded x hx').2.2⟩
        · simp only [List.length_append, List.length_singleton]
          omega

theorem Inv.init : Inv [] {} :=
  { level := rfl, cb := fun _ h => (nomatch h), data := Or.inl rfl, setting := fun _ h => (nomatch h), loaded := fun _ h => (nomatch h),
    calls := fun _ h => (nomatch h), once := Nat.le_refl _ }

theorem Inv.run (ops : List Op) (hop : ∀ tid sev fmt args, Op.log tid sev fmt args ∈ ops → ∃ l, sev = severity l) {s : St}
    (h : run ops = some s) : Inv ops s := by
  induction ops using snoc_ind generalizing s with
  | h0 => cases h; exact Inv.init
  | h1 l op ih =>
    obtain ⟨s0, h0, h1⟩ := run_snoc h
    exact (ih (fun tid sev fmt args hm => hop tid sev fmt args (List.mem_append_left _ hm)) h0).step
      (fun tid sev fmt args he => hop tid sev fmt args (by simp [he])) h1

end Verif.Api.Logging
