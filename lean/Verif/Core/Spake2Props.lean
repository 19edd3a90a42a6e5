import Verif.Core.Spake2Spec

/-!
# Password authentication — property theorems (C09, C10, C63)
-/

namespace Verif.Core.Spake2

open Spec

/-! ### Helpers -/

theorem run_append (s : St) (a b : List Ev) :
    run s (a ++ b) = ((run (run s a).1 b).1, (run s a).2 ++ (run (run s a).1 b).2) := by
  induction a generalizing s with
  | nil => simp [run]
  | cons e es ih => simp only [List.cons_append, run, ih, List.append_assoc]

theorem after_snoc (evs : List Ev) (e : Ev) : after (evs ++ [e]) = (step (after evs) e).1 := by
  simp [after, run_append, run]

theorem lookup_mem {α : Type} {l : List (Nat × α)} {c : Nat} {k : α} (h : l.lookup c = some k) : (c, k) ∈ l := by
  induction l with
  | nil => cases h
  | cons x xs ih =>
    obtain ⟨a, b⟩ := x
    simp only [List.lookup_cons] at h
    split at h
    · rename_i he
      injection h with h; subst h
      rw [beq_iff_eq] at he; subst he
      exact List.mem_cons_self ..
    · exact List.mem_cons_of_mem _ (ih h)

theorem mem_setConn {s : St} {c : Nat} {k : Conn} {x : Nat × Conn} (h : x ∈ (setConn s c k).conns) :
    x = (c, k) ∨ x ∈ s.conns := by
  obtain ⟨y, hy, he⟩ := List.mem_map.mp h
  split at he
  · exact .inl he.symm
  · subst he; exact .inr hy

theorem lookup_setConn {s : St} {c : Nat} {k k' : Conn} (h : s.conns.lookup c = some k) :
    (setConn s c k').conns.lookup c = some k' := by
  simp only [setConn]
  generalize s.conns = l at h
  induction l with
  | nil => cases h
  | cons x xs ih =>
    obtain ⟨a, b⟩ := x
    simp only [List.lookup_cons] at h
    simp only [List.map_cons]
    by_cases he : c = a
    · subst he; simp
    · have h1 : (c == a) = false := by simpa using he
      rw [h1] at h
      have h2 : ¬ a = c := fun h => he h.symm
      rw [if_neg h2, List.lookup_cons, h1]
      exact ih h

/-! ## C10: rate limiting -/

/-- The token bucket: full without a timer, or short of tokens with the timer running. -/
structure Bucket (s : St) : Prop where
  le : s.tokens ≤ 10
  full : s.timer = none ↔ s.tokens = 10
  due : ∀ t, s.timer = some t → t ≤ s.now + 1000

theorem spendToken_full {s : St} (h : s.tokens = 10) :
    spendToken s = { s with tokens := s.tokens - 1, timer := some (s.now + 1000) } := by
  have h' : s.tokens = maxTokens := h
  unfold spendToken
  rw [if_pos h']
  rfl

theorem spendToken_short {s : St} (h : ¬ s.tokens = 10) : spendToken s = { s with tokens := s.tokens - 1 } := by
  have h' : ¬ s.tokens = maxTokens := h
  unfold spendToken
  rw [if_neg h']

theorem newToken_short {s : St} (h : s.tokens + 1 < 10) :
    newToken s = { s with tokens := s.tokens + 1, timer := some (s.now + 1000) } := by
  unfold newToken
  exact if_pos h

theorem newToken_full {s : St} (h : ¬ s.tokens + 1 < 10) :
    newToken s = { s with tokens := s.tokens + 1, timer := none } := by
  unfold newToken
  exact if_neg h

theorem bucket_spend {s : St} (h : Bucket s) (_h0 : s.tokens ≠ 0) : Bucket (spendToken s) := by
  obtain ⟨h1, h2, h3⟩ := h
  by_cases ht : s.tokens = 10
  · rw [spendToken_full ht]
    refine ⟨by simp only; omega, by simp; omega, ?_⟩
    intro t ht
    simp only [Option.some.injEq] at ht
    simp only
    omega
  · rw [spendToken_short ht]
    refine ⟨by simp only; omega, ?_, h3⟩
    simp only
    constructor
    · intro h; exact absurd (h2.mp h) ht
    · intro h; omega

theorem bucket_new {s : St} (h : Bucket s) (ht : s.timer ≠ none) : Bucket (newToken s) := by
  obtain ⟨h1, h2, h3⟩ := h
  have : s.tokens ≠ 10 := fun h => ht (h2.mpr h)
  by_cases hlt : s.tokens + 1 < 10
  · rw [newToken_short hlt]
    refine ⟨by simp only; omega, by simp; omega, ?_⟩
    intro t ht
    simp only [Option.some.injEq] at ht
    simp only
    omega
  · rw [newToken_full hlt]
    refine ⟨by simp only; omega, by simp; omega, ?_⟩
    intro t ht; simp at ht

theorem setConn_bucket {s : St} (h : Bucket s) (c : Nat) (k : Conn) : Bucket (setConn s c k) := ⟨h.1, h.2, h.3⟩

theorem passwordReady_frame (s : St) (p : Pending) (w : Option String) (a b : Bool) :
    (passwordReady s p w a b).1.tokens = s.tokens ∧ (passwordReady s p w a b).1.timer = s.timer ∧
    (passwordReady s p w a b).1.now = s.now ∧ (passwordReady s p w a b).2 ≠ some 401 := by
  simp only [passwordReady]
  repeat' split
  all_goals simp [setConn]

theorem handle1_frame (s : St) (c : Nat) (a b w : Bool) (n : String) :
    (handle1 s c a b w n).1.tokens = s.tokens ∧ (handle1 s c a b w n).1.timer = s.timer ∧
    (handle1 s c a b w n).1.now = s.now ∧ (handle1 s c a b w n).2 ≠ some 401 := by
  simp only [handle1]
  repeat' split
  all_goals simp

/-- How a step touches the bucket. -/
inductive Upd (s : St) (e : Ev) (s' : St) (r : Option Nat) : Prop
  | none : s'.tokens = s.tokens → s'.timer = s.timer → s'.now = s.now → r ≠ some 401 → (∀ ms, e ≠ .tick ms) →
      Upd s e s' r
  | spend : s.tokens ≠ 0 → s' = spendToken s → r = some 401 → (∀ ms, e ≠ .tick ms) → Upd s e s' r
  | tick (ms) : e = .tick ms → s' = { s with now := s.now + ms } → r = .none → Upd s e s' r
  | fire (t) : s.timer = some t → t ≤ s.now → s' = newToken s → r = .none → (∀ ms, e ≠ .tick ms) → Upd s e s' r

theorem step_upd (s : St) (e : Ev) : Upd s e (step s e).1 (step s e).2 := by
  cases e with
  | open_ => exact .none rfl rfl rfl (by simp [step]) (by simp)
  | close c => exact .none rfl rfl rfl (by simp [step]) (by simp)
  | setHandler => exact .none rfl rfl rfl (by simp [step]) (by simp)
  | clearHandler => exact .none rfl rfl rfl (by simp [step]) (by simp)
  | step1 c f p w n =>
    simp only [step]
    split
    · exact .none rfl rfl rfl (by simp) (by simp)
    · obtain ⟨h1, h2, h3, h4⟩ := handle1_frame s c f p w n
      exact .none h1 h2 h3 h4 (by simp)
  | answer id w a b =>
    simp only [step]
    split
    · exact .none rfl rfl rfl (by simp) (by simp)
    · obtain ⟨h1, h2, h3, h4⟩ := passwordReady_frame s _ w a b
      exact .none h1 h2 h3 h4 (by simp)
  | step2 c l g f =>
    simp only [step]
    split
    · exact .none rfl rfl rfl (by simp) (by simp)
    · simp only [handle2]
      split
      · exact .none rfl rfl rfl (by simp) (by simp)
      split
      · exact .none rfl rfl rfl (by simp) (by simp)
      split
      · exact .none rfl rfl rfl (by simp) (by simp)
      split
      · exact .none rfl rfl rfl (by simp) (by simp)
      split
      · exact .none rfl rfl rfl (by simp) (by simp)
      · exact .spend (by assumption) rfl rfl (by simp)
  | tick ms => exact .tick ms rfl rfl rfl
  | fire =>
    simp only [step]
    split
    · rename_i t ht
      split
      · rename_i hle; exact .fire t ht hle rfl rfl (by simp)
      · exact .none rfl rfl rfl (by simp) (by simp)
    · exact .none rfl rfl rfl (by simp) (by simp)

theorem bucket_step {s : St} (h : Bucket s) (e : Ev) : Bucket (step s e).1 := by
  cases step_upd s e with
  | none h1 h2 h3 =>
    refine ⟨h1 ▸ h.1, ?_, ?_⟩
    · rw [h1, h2]; exact h.2
    · rw [h2, h3]; exact h.3
  | spend h0 h1 => rw [h1]; exact bucket_spend h h0
  | tick ms he h1 =>
    rw [h1]
    refine ⟨h.1, h.2, ?_⟩
    intro t ht
    have := h.3 t ht
    simp only; omega
  | fire t ht hle h1 => rw [h1]; exact bucket_new h (by simp [ht])

theorem bucket_run {s : St} (h : Bucket s) (evs : List Ev) : Bucket (run s evs).1 := by
  induction evs generalizing s with
  | nil => exact h
  | cons e es ih => exact ih (bucket_step h e)

theorem bucket_init : Bucket init := by
  refine ⟨by decide, by decide, ?_⟩
  intro t ht; cases ht

/-- What the bucket holds, in thousandths of a token: the tokens and the part of the next one. -/
def level (s : St) : Nat :=
  match s.timer with
  | none => 1000 * s.tokens
  | some t => 1000 * s.tokens + min 1000 (s.now + 1000 - t)

theorem level_le {s : St} (h : Bucket s) : level s ≤ 10000 := by
  obtain ⟨h1, h2, h3⟩ := h
  unfold level
  split
  · omega
  · rename_i t ht
    have : s.tokens ≠ 10 := fun h => by rw [h2.mpr h] at ht; cases ht
    omega

theorem level_step {s : St} (h : Bucket s) (e : Ev) :
    1000 * (if (step s e).2 = some 401 then 1 else 0) + level (step s e).1 ≤ level s + elapsed [e] := by
  obtain ⟨h1, h2, h3⟩ := h
  have hel : (∀ ms, e ≠ .tick ms) → elapsed [e] = 0 := by
    intro hne
    cases e <;> first | rfl | exact absurd rfl (hne _)
  cases step_upd s e with
  | none a b c d f =>
    rw [if_neg d, hel f]
    unfold level
    rw [a, b, c]
    omega
  | spend h0 hs hr f =>
    rw [if_pos hr, hel f, hs]
    by_cases ht : s.tokens = 10
    · have hn := h2.mpr ht
      rw [spendToken_full ht]
      simp only [level, hn]
      omega
    · rw [spendToken_short ht]
      simp only [level]
      split <;> omega
  | tick ms he hs hr =>
    rw [if_neg (by simp [hr]), hs, he]
    simp only [level, elapsed]
    split
    · omega
    · omega
  | fire t ht hle hs hr f =>
    rw [if_neg (by simp [hr]), hel f, hs]
    have : s.tokens ≠ 10 := fun h => by rw [h2.mpr h] at ht; cases ht
    by_cases hlt : s.tokens + 1 < 10
    · rw [newToken_short hlt]
      simp only [level, ht]
      omega
    · rw [newToken_full hlt]
      simp only [level, ht]
      omega

theorem elapsed_cons (e : Ev) (es : List Ev) : elapsed (e :: es) = elapsed [e] + elapsed es := by
  cases e <;> simp [elapsed]

theorem level_run {s : St} (h : Bucket s) (evs : List Ev) :
    1000 * wrongGuesses (run s evs).2 + level (run s evs).1 ≤ level s + elapsed evs := by
  induction evs generalizing s with
  | nil => simp [run, wrongGuesses, elapsed]
  | cons e es ih =>
    have h1 := level_step h e
    have h2 := ih (bucket_step h e)
    rw [elapsed_cons]
    simp only [run, wrongGuesses, List.filter_append, List.length_append]
    simp only [wrongGuesses] at h2
    cases hr : (step s e).2 with
    | none =>
      rw [hr] at h1
      simp only [List.filter_nil, List.length_nil, reduceCtorEq, if_false] at h1 ⊢
      omega
    | some c =>
      rw [hr] at h1
      by_cases h : c = 401
      · subst h
        simp only [if_true] at h1
        simp only [List.filter_cons, List.filter_nil, decide_true, if_true, List.length_cons, List.length_nil]
        omega
      · have h' : ¬ (some c = some 401) := fun hc => h (Option.some.inj hc)
        rw [if_neg h'] at h1
        simp only [List.filter_cons, List.filter_nil, decide_eq_true_eq, if_neg h, List.length_nil]
        omega

/-- C10: in any period of any history, with any number of connections, the device evaluates at most ten
wrong guesses plus one per second of the period. -/
theorem C10_wrong_guesses_limited (before period : List Ev) :
    wrongGuesses (run (after before) period).2 ≤ 10 + elapsed period / 1000 := by
  have hb : Bucket (after before) := bucket_run bucket_init before
  have h1 := level_run hb period
  have h2 := level_le hb
  omega

/-- C10: the token counter stays between 0 and 10; a wrong guess takes exactly one token from a non-empty
bucket, so the counter cannot wrap around. -/
theorem C10_tokens_in_range (evs : List Ev) (e : Ev) :
    (after evs).tokens ≤ 10 ∧
    ((step (after evs) e).2 = some 401 → 0 < (after evs).tokens ∧
      (step (after evs) e).1.tokens = (after evs).tokens - 1) := by
  have hb : Bucket (after evs) := bucket_run bucket_init evs
  refine ⟨hb.le, ?_⟩
  intro hr
  cases step_upd (after evs) e with
  | none _ _ _ h => exact absurd hr h
  | spend h0 hs =>
    refine ⟨by omega, ?_⟩
    rw [hs]; unfold spendToken; simp only
    split <;> rfl
  | tick _ _ _ h => rw [h] at hr; cases hr
  | fire _ _ _ _ h => rw [h] at hr; cases hr

/-- C10: while no tokens are left, both messages on every open connection are answered 4.29 and change
nothing. -/
theorem C10_no_tokens_no_service (s : St) (c : Nat) (k : Conn) (hc : s.conns.lookup c = some k)
    (h : s.tokens = 0) :
    (∀ f p w n, step s (.step1 c f p w n) = (s, some 429)) ∧
    (∀ l g f, step s (.step2 c l g f) = (s, some 429)) := by
  constructor
  · intro f p w n; simp [step, hc, handle1, h]
  · intro l g f; simp [step, hc, handle2, h]

/-- C10: the limit does not lock anyone out for good: whenever tokens are missing the next one is due
within a second. -/
theorem C10_tokens_come_back (evs : List Ev) (h : (after evs).tokens < 10) :
    ∃ t, (after evs).timer = some t ∧ t ≤ (after evs).now + 1000 ∧
      ∀ ms, t ≤ (after evs).now + ms →
        (after (evs ++ [.tick ms, .fire])).tokens = (after evs).tokens + 1 := by
  have hb : Bucket (after evs) := bucket_run bucket_init evs
  cases ht : (after evs).timer with
  | none => have := hb.full.mp ht; omega
  | some t =>
    refine ⟨t, rfl, hb.due t ht, ?_⟩
    intro ms hms
    have : after (evs ++ [.tick ms, .fire]) = (step (step (after evs) (.tick ms)).1 .fire).1 := by
      simp [after, run_append, run]
    rw [this]
    simp only [step, ht, if_pos hms, newToken]
    split <;> rfl

/-- C10: guessing right costs nothing. On an open connection whose request was answered with password
`w`, a fresh proof of `w` is accepted and leaves the tokens alone, while a password that is not known to
the application (`none`) is refused whatever the peer sends. -/
theorem C10_right_password_accepted (s : St) (p : Pending) (k : Conn) (pw : Option String) (w : String)
    (hc : s.conns.lookup p.conn = some k) (hp : s.pending.find? (fun x => x.id == p.id) = some p)
    (ht : s.tokens ≠ 0) (hh : s.handler = true) :
    let s1 := (step s (.answer p.id pw true true)).1
    (step s (.answer p.id pw true true)).2 = some 201 ∧
    ((step s1 (.step2 p.conn true w true)).2 = some 201 ↔ pw = some w) ∧
    ((step s1 (.step2 p.conn true w true)).2 = some 201 →
      (step s1 (.step2 p.conn true w true)).1.tokens = s.tokens ∧
      isAuthenticated (step s1 (.step2 p.conn true w true)).1 p.conn = true) := by
  intro s1
  have hs1 : ∃ s0 key, s0.conns.lookup p.conn = some k ∧ s0.tokens = s.tokens ∧ s0.handler = true ∧
      (key = .of w ↔ pw = some w) ∧
      step s (.answer p.id pw true true) =
        (setConn s0 p.conn { k with hasKey := true, key := key, username := some p.username }, some 201) := by
    refine ⟨{ s with pending := s.pending.filter (fun x => x.id != p.id) },
      (match pw with | some w => .of w | none => .junk), hc, rfl, hh, ?_, ?_⟩
    · cases pw <;> simp
    · simp only [step, hp, passwordReady, hc, if_true]
      cases pw <;> rfl
  obtain ⟨s0, key, h1, h2, h3, h4, h5⟩ := hs1
  have hl := lookup_setConn (k' := { k with hasKey := true, key := key, username := some p.username }) h1
  have hs1 : s1 = setConn s0 p.conn { k with hasKey := true, key := key, username := some p.username } := by
    simp only [s1, h5]
  have ht' : ¬ (setConn s0 p.conn { k with hasKey := true, key := key, username := some p.username }).tokens = 0 := by
    simpa [setConn, h2] using ht
  have hh' : (setConn s0 p.conn { k with hasKey := true, key := key, username := some p.username }).handler = true := h3
  rw [hs1]
  refine ⟨by rw [h5], ?_⟩
  simp only [step, hl, handle2, if_neg ht', hh', Bool.not_true, Bool.false_eq_true, if_false, Bool.true_and,
    decide_eq_true_eq]
  by_cases hk : key = .of w
  · simp only [if_pos hk, h4.mp hk, true_and, forall_const]
    refine ⟨h2, ?_⟩
    unfold isAuthenticated
    rw [lookup_setConn hl]
  · have hpw : ¬ pw = some w := fun h => hk (h4.mpr h)
    simp [if_neg hk, hpw]

/-- Attack used as an example: one connection, guesses against user `u`. -/
def attack : List Ev :=
  [.setHandler, .open_, .step1 0 true true true "u", .answer 0 (some "right") true true] ++
  List.replicate 12 (.step2 0 true "wrong" true)

example : (after attack).tokens = 0 ∧ wrongGuesses (run init attack).2 = 10 := by decide +kernel

example : (after (attack ++ [.tick 1000])).tokens = 0 ∧
    (after (attack ++ [.tick 1000, .fire])).tokens = 1 ∧
    wrongGuesses (run (after attack) [.tick 1000, .fire, .step2 0 true "x" true, .step2 0 true "y" true]).2 = 1 := by
  decide +kernel

/-! ## C09: what an authenticated username means -/

theorem stated_mono {evs : List Ev} {c : Nat} {n w : String} (h : Stated evs c n w) (e : Ev) :
    Stated (evs ++ [e]) c n w := by
  obtain ⟨pre, id, post, h1, h2⟩ := h
  exact ⟨pre, id, post ++ [e], by rw [h1]; simp, h2⟩

theorem proved_mono {evs : List Ev} {c : Nat} {n : String} (h : Proved evs c n) (e : Ev) :
    Proved (evs ++ [e]) c n := by
  obtain ⟨pre, l, w, post, h1, h2⟩ := h
  exact ⟨pre, l, w, post ++ [e], by rw [h1]; simp, h2⟩

theorem asked_mono {evs : List Ev} {c : Nat} {n : String} (h : Asked evs c n) (e : Ev) :
    Asked (evs ++ [e]) c n := by
  obtain ⟨f, p, w, h⟩ := h
  exact ⟨f, p, w, List.mem_append_left _ h⟩

/-- What is known about connections and requests after a history. -/
structure Facts (evs : List Ev) : Prop where
  conn : ∀ c k, (c, k) ∈ (after evs).conns →
    (∀ w, k.key = .of w → ∃ n, k.username = some n ∧ Stated evs c n w) ∧
    (∀ n, k.username = some n → Asked evs c n) ∧
    (k.authenticated = true → ∃ n, Proved evs c n ∧ Asked evs c n ∧ k.username ≠ none)
  pending : ∀ p ∈ (after evs).pending, Asked evs p.conn p.username

theorem Facts.keep {evs : List Ev} (h : Facts evs) (e : Ev)
    (hc : ∀ x ∈ (step (after evs) e).1.conns, x ∈ (after evs).conns)
    (hp : ∀ x ∈ (step (after evs) e).1.pending, x ∈ (after evs).pending) : Facts (evs ++ [e]) := by
  constructor
  · intro c k hk
    rw [after_snoc] at hk
    obtain ⟨h1, h2, h3⟩ := h.conn c k (hc _ hk)
    refine ⟨fun w hw => ?_, fun n hn => asked_mono (h2 n hn) e, fun ha => ?_⟩
    · obtain ⟨n, hn, hs⟩ := h1 w hw
      exact ⟨n, hn, stated_mono hs e⟩
    · obtain ⟨n, hn, hs, hu⟩ := h3 ha
      exact ⟨n, proved_mono hn e, asked_mono hs e, hu⟩
  · intro p hk
    rw [after_snoc] at hk
    exact asked_mono (h.pending p (hp _ hk)) e

theorem facts_step {evs : List Ev} (h : Facts evs) (e : Ev) (hm : ∀ id w k, e ≠ .answer id w k false) :
    Facts (evs ++ [e]) := by
  cases e with
  | open_ =>
    constructor
    · intro c k hk
      rw [after_snoc] at hk
      simp only [step, List.mem_append, List.mem_singleton] at hk
      rcases hk with hk | hk
      · obtain ⟨h1, h2, h3⟩ := h.conn c k hk
        refine ⟨fun w hw => ?_, fun n hn => asked_mono (h2 n hn) _, fun ha => ?_⟩
        · obtain ⟨n, hn, hs⟩ := h1 w hw
          exact ⟨n, hn, stated_mono hs _⟩
        · obtain ⟨n, hn, hs, hu⟩ := h3 ha
          exact ⟨n, proved_mono hn _, asked_mono hs _, hu⟩
      · injection hk with _ hk; subst hk
        refine ⟨fun w hw => ?_, fun n hn => ?_, fun ha => ?_⟩
        · cases hw
        · cases hn
        · cases ha
    · intro p hk
      rw [after_snoc] at hk
      exact asked_mono (h.pending p hk) _
  | close c =>
    refine h.keep _ ?_ ?_
    · intro x hx; exact (List.mem_filter.mp hx).1
    · intro x hx; exact hx
  | setHandler => exact h.keep _ (fun _ hx => hx) (fun _ hx => hx)
  | clearHandler => exact h.keep _ (fun _ hx => hx) (fun _ hx => hx)
  | tick ms => exact h.keep _ (fun _ hx => hx) (fun _ hx => hx)
  | fire =>
    refine h.keep _ ?_ ?_
    · intro x hx
      simp only [step] at hx
      split at hx
      · split at hx
        · simp only [newToken] at hx
          split at hx <;> exact hx
        · exact hx
      · exact hx
    · intro x hx
      simp only [step] at hx
      split at hx
      · split at hx
        · simp only [newToken] at hx
          split at hx <;> exact hx
        · exact hx
      · exact hx
  | step1 c f p w n =>
    have keepC : ∀ x ∈ (step (after evs) (.step1 c f p w n)).1.conns, x ∈ (after evs).conns := by
      intro x hx
      simp only [step] at hx
      split at hx
      · exact hx
      · simp only [handle1] at hx
        repeat' split at hx
        all_goals exact hx
    constructor
    · intro d k hk
      rw [after_snoc] at hk
      obtain ⟨h1, h2, h3⟩ := h.conn d k (keepC _ hk)
      refine ⟨fun w hw => ?_, fun n hn => asked_mono (h2 n hn) _, fun ha => ?_⟩
      · obtain ⟨n, hn, hs⟩ := h1 w hw
        exact ⟨n, hn, stated_mono hs _⟩
      · obtain ⟨n, hn, hs, hu⟩ := h3 ha
        exact ⟨n, proved_mono hn _, asked_mono hs _, hu⟩
    · intro q hq
      rw [after_snoc] at hq
      have : q ∈ (after evs).pending ∨ (q.conn = c ∧ q.username = n) := by
        simp only [step] at hq
        split at hq
        · exact .inl hq
        · simp only [handle1] at hq
          repeat' split at hq
          all_goals first
            | exact .inl hq
            | (rcases List.mem_append.mp hq with hq | hq
               · exact .inl hq
               · rw [List.mem_singleton] at hq; subst hq; exact .inr ⟨rfl, rfl⟩)
      rcases this with hq | ⟨h1, h2⟩
      · exact asked_mono (h.pending q hq) _
      · rw [h1, h2]
        exact ⟨f, p, w, List.mem_append_right _ (List.mem_singleton.mpr rfl)⟩
  | answer id pw calcOk allocOk =>
    have hal : allocOk = true := by
      cases allocOk with
      | true => rfl
      | false => exact absurd rfl (hm id pw calcOk)
    subst hal
    cases hf : (after evs).pending.find? (fun x => x.id == id) with
    | none =>
      refine h.keep _ ?_ ?_
      · intro x hx; simpa [step, hf] using hx
      · intro x hx; simpa [step, hf] using hx
    | some p =>
      have hpm : p ∈ (after evs).pending := List.mem_of_find?_eq_some hf
      have hpid : p.id = id := by simpa using List.find?_some hf
      have hpend : ∀ x ∈ (step (after evs) (.answer id pw calcOk true)).1.pending, x ∈ (after evs).pending := by
        intro x hx
        simp only [step, hf, passwordReady] at hx
        repeat' split at hx
        all_goals exact (List.mem_filter.mp hx).1
      constructor
      · intro c k hk
        rw [after_snoc] at hk
        simp only [step, hf, passwordReady] at hk
        have old : ∀ {c k}, (c, k) ∈ (after evs).conns →
            (∀ w, k.key = .of w → ∃ n, k.username = some n ∧ Stated (evs ++ [.answer id pw calcOk true]) c n w) ∧
            (∀ n, k.username = some n → Asked (evs ++ [.answer id pw calcOk true]) c n) ∧
            (k.authenticated = true → ∃ n, Proved (evs ++ [.answer id pw calcOk true]) c n ∧
              Asked (evs ++ [.answer id pw calcOk true]) c n ∧ k.username ≠ none) := by
          intro c k hk
          obtain ⟨h1, h2, h3⟩ := h.conn c k hk
          refine ⟨fun w hw => ?_, fun n hn => asked_mono (h2 n hn) _, fun ha => ?_⟩
          · obtain ⟨n, hn, hs⟩ := h1 w hw
            exact ⟨n, hn, stated_mono hs _⟩
          · obtain ⟨n, hn, hs, hu⟩ := h3 ha
            exact ⟨n, proved_mono hn _, asked_mono hs _, hu⟩
        split at hk
        · exact old hk
        · rename_i k0 hk0
          have hk0m := lookup_mem hk0
          have hold := old hk0m
          split at hk
          · rename_i hcalc
            simp only [if_true] at hk
            rcases mem_setConn hk with hk | hk
            · injection hk with hk1 hk2; subst hk1 hk2
              refine ⟨fun w hw => ?_, fun n hn => ?_, fun ha => ?_⟩
              · refine ⟨p.username, rfl, evs, id, [], ?_, ?_⟩
                · cases pw with
                  | none => simp at hw
                  | some v =>
                    simp only [Key.of.injEq] at hw
                    subst hw hcalc
                    rfl
                · rw [← hpid]; exact hpm
              · simp only [Option.some.injEq] at hn
                subst hn
                exact asked_mono (h.pending p hpm) _
              · obtain ⟨n, h1, h2, _⟩ := hold.2.2 ha
                exact ⟨n, h1, h2, by simp⟩
            · exact old hk
          · rcases mem_setConn hk with hk | hk
            · injection hk with hk1 hk2; subst hk1 hk2
              exact ⟨fun w hw => (by cases hw), hold.2.1, hold.2.2⟩
            · exact old hk
      · intro q hq
        rw [after_snoc] at hq
        exact asked_mono (h.pending q (hpend q hq)) _
  | step2 c l g f =>
    have hpend : ∀ x ∈ (step (after evs) (.step2 c l g f)).1.pending, x ∈ (after evs).pending := by
      intro x hx
      simp only [step] at hx
      split at hx
      · exact hx
      · simp only [handle2] at hx
        repeat' split at hx
        all_goals first
          | exact hx
          | (simp only [spendToken] at hx; split at hx <;> exact hx)
    constructor
    · intro d k hk
      rw [after_snoc] at hk
      have old : ∀ {d k}, (d, k) ∈ (after evs).conns →
          (∀ w, k.key = .of w → ∃ n, k.username = some n ∧ Stated (evs ++ [.step2 c l g f]) d n w) ∧
          (∀ n, k.username = some n → Asked (evs ++ [.step2 c l g f]) d n) ∧
          (k.authenticated = true → ∃ n, Proved (evs ++ [.step2 c l g f]) d n ∧
            Asked (evs ++ [.step2 c l g f]) d n ∧ k.username ≠ none) := by
        intro d k hk
        obtain ⟨h1, h2, h3⟩ := h.conn d k hk
        refine ⟨fun w hw => ?_, fun n hn => asked_mono (h2 n hn) _, fun ha => ?_⟩
        · obtain ⟨n, hn, hs⟩ := h1 w hw
          exact ⟨n, hn, stated_mono hs _⟩
        · obtain ⟨n, hn, hs, hu⟩ := h3 ha
          exact ⟨n, proved_mono hn _, asked_mono hs _, hu⟩
      by_cases hok : (step (after evs) (.step2 c l g f)).2 = some 201
      · have hstep := hok
        simp only [step] at hk hok
        split at hk
        · exact old hk
        · rename_i k0 hk0
          have hk0m := lookup_mem hk0
          simp only [hk0] at hok
          simp only [handle2] at hk hok
          split at hk
          · rename_i h0; simp [h0] at hok
          rename_i h0; rw [if_neg h0] at hok
          split at hk
          · rename_i h1; simp [h1] at hok
          rename_i h1; rw [if_neg h1] at hok
          split at hk
          · rename_i h2; simp [h2] at hok
          rename_i h2; rw [if_neg h2] at hok
          split at hk
          · rename_i h3; simp [h3] at hok
          rename_i h3; rw [if_neg h3] at hok
          split at hk
          · rename_i h4
            simp only [Bool.and_eq_true, decide_eq_true_eq] at h4
            rcases mem_setConn hk with hk | hk
            · injection hk with hk1 hk2; subst hk1 hk2
              obtain ⟨a1, a2, a3⟩ := old hk0m
              refine ⟨a1, a2, fun _ => ?_⟩
              obtain ⟨n, hn, hs⟩ := (h.conn d k0 hk0m).1 g h4.2
              refine ⟨n, ⟨evs, l, g, [], by rw [h4.1], ?_, hs⟩, a2 n hn, by simp [hn]⟩
              rw [← h4.1]; exact hstep
            · exact old hk
          · rename_i h4; rw [if_neg h4] at hok; simp at hok
      · refine old ?_
        simp only [step] at hk hok
        split at hk
        · exact hk
        · rename_i k0 hk0
          simp only [hk0] at hok
          simp only [handle2] at hk hok
          split at hk
          · exact hk
          rename_i h0; rw [if_neg h0] at hok
          split at hk
          · exact hk
          rename_i h1; rw [if_neg h1] at hok
          split at hk
          · exact hk
          rename_i h2; rw [if_neg h2] at hok
          split at hk
          · exact hk
          rename_i h3; rw [if_neg h3] at hok
          split at hk
          · rename_i h4; rw [if_pos h4] at hok; simp at hok
          · simp only [spendToken] at hk
            split at hk <;> exact hk
    · intro q hq
      rw [after_snoc] at hq
      exact asked_mono (h.pending q (hpend q hq)) _

theorem facts_after (evs : List Ev) (hm : MemoryOk evs) : Facts evs := by
  have key : ∀ es : List Ev, ∀ pre, Facts pre → (∀ id w k, Ev.answer id w k false ∉ es) → Facts (pre ++ es) := by
    intro es
    induction es with
    | nil => intro pre h _; simpa using h
    | cons e es ih =>
      intro pre h hm
      have h1 := facts_step h e (fun id w k he => hm id w k (by rw [he]; exact List.mem_cons_self ..))
      have := ih (pre ++ [e]) h1 (fun id w k hx => hm id w k (List.mem_cons_of_mem _ hx))
      simpa using this
  have h0 : Facts [] := by
    constructor
    · intro c k hk; cases hk
    · intro p hp; cases hp
  simpa using key evs [] h0 hm

/-- C09: the property fails. A peer proves the password of `guest`, then starts, but does not complete,
an authentication as `admin`. From then on the device reports the connection as password authenticated
with the username `admin`. -/
theorem C09_authenticated_username_violated :
    ∃ evs, MemoryOk evs ∧ isAuthenticated (after evs) 0 = true ∧ getUsername (after evs) 0 = .ok "admin" ∧
      ¬ Proved evs 0 "admin" := by
  refine ⟨[.setHandler, .open_, .step1 0 true true true "guest", .answer 0 (some "guest password") true true,
    .step2 0 true "guest password" true, .step1 0 true true true "admin",
    .answer 1 (some "admin password") true true], ?_, by decide +kernel, by decide +kernel, ?_⟩
  · intro id w k h
    simp at h
  · rintro ⟨pre, l, w, post, h1, h2, pre2, id, post2, h3, h4⟩
    -- the only key confirmation is the fifth event, and the only answer before it is for `guest`
    have hlen : pre.length = 4 := by
      have := congrArg (fun x => x[pre.length]?) h1
      simp only [List.getElem?_append_right (Nat.le_refl _), Nat.sub_self, List.getElem?_cons_zero] at this
      match hp : pre.length with
      | 0 | 1 | 2 | 3 | 5 | 6 => simp [hp] at this
      | 4 => rfl
      | n + 7 => simp [hp] at this
    have hpre : pre = [.setHandler, .open_, .step1 0 true true true "guest",
        .answer 0 (some "guest password") true true] := by
      have := congrArg (fun x => x.take 4) h1
      rw [← hlen] at this
      simp only [List.take_left'] at this
      rw [hlen] at this
      simpa using this.symm
    rw [hpre] at h3
    have hlen2 : pre2.length = 3 := by
      have := congrArg (fun x => x[pre2.length]?) h3
      simp only [List.getElem?_append_right (Nat.le_refl _), Nat.sub_self, List.getElem?_cons_zero] at this
      match hp : pre2.length with
      | 0 | 1 | 2 => simp [hp] at this
      | 3 => rfl
      | n + 4 => simp [hp] at this
    have hpre2 : pre2 = [.setHandler, .open_, .step1 0 true true true "guest"] := by
      have := congrArg (fun x => x.take 3) h3
      rw [← hlen2] at this
      simp only [List.take_left'] at this
      rw [hlen2] at this
      simpa using this.symm
    rw [hpre2] at h4
    have : (after [.setHandler, .open_, .step1 0 true true true "guest"]).pending = [⟨0, 0, "guest"⟩] := by
      decide +kernel
    rw [this] at h4
    simp at h4

/-- C09, what does hold (1): at the moment a key confirmation is accepted, the reported username is one
whose password the peer proved. -/
theorem C09_accepted_confirmation_partial (evs : List Ev) (hm : MemoryOk evs) (c : Nat) (l : Bool) (w : String)
    (f : Bool) (h : (step (after evs) (.step2 c l w f)).2 = some 201) :
    ∃ k n, (after (evs ++ [.step2 c l w f])).conns.lookup c = some k ∧ k.username = some n ∧
      Proved (evs ++ [.step2 c l w f]) c n ∧ isAuthenticated (after (evs ++ [.step2 c l w f])) c = true := by
  have hF := facts_after evs hm
  have h' := h
  simp only [step] at h
  split at h
  · cases h
  · rename_i k0 hk0
    simp only [handle2] at h
    split at h
    · simp at h
    rename_i h0
    split at h
    · simp at h
    rename_i h1
    split at h
    · simp at h
    rename_i h2
    split at h
    · simp at h
    rename_i h3
    split at h
    · rename_i h4
      have h4' := h4
      simp only [Bool.and_eq_true, decide_eq_true_eq] at h4
      obtain ⟨n, hn, hs⟩ := (hF.conn c k0 (lookup_mem hk0)).1 w h4.2
      have hst : (after (evs ++ [.step2 c l w f])).conns.lookup c = some { k0 with authenticated := true } := by
        rw [after_snoc]
        simp only [step, hk0, handle2, if_neg h0, if_neg h1, if_neg h2, if_neg h3, if_pos h4']
        exact lookup_setConn hk0
      refine ⟨_, n, hst, hn, ⟨evs, l, w, [], by rw [h4.1], by rw [← h4.1]; exact h', hs⟩, ?_⟩
      unfold isAuthenticated
      rw [hst]
    · simp at h

/-- C09, what does hold (2): if all authentications attempted on a connection name the same user, then a
connection reported as password authenticated reports that user and the peer has proved its password. -/
theorem C09_one_username_partial (evs : List Ev) (hm : MemoryOk evs) (c : Nat) (n : String)
    (hone : ∀ m, Asked evs c m → m = n) (ha : isAuthenticated (after evs) c = true) :
    ∃ k, (after evs).conns.lookup c = some k ∧ k.username = some n ∧ Proved evs c n := by
  have hF := facts_after evs hm
  unfold isAuthenticated at ha
  split at ha
  · cases ha
  · rename_i k hk
    obtain ⟨_, h2, h3⟩ := hF.conn c k (lookup_mem hk)
    obtain ⟨m, hp, hask, hu⟩ := h3 ha
    have := hone m hask
    subst this
    cases hku : k.username with
    | none => exact absurd hku hu
    | some m' =>
      have := hone m' (h2 m' hku)
      subst this
      exact ⟨k, hk, hku, hp⟩

example : isAuthenticated (after [.setHandler, .open_, .step1 0 true true true "guest",
    .answer 0 (some "pw") true true, .step2 0 true "pw" true]) 0 = true := by decide +kernel

/-! ## C63: asking for the username -/

/-- C63: the property fails for every open connection on which no authentication has got as far as a key:
asking for the username dereferences NULL instead of answering INVALID_STATE. -/
theorem C63_username_before_authentication_violated (evs : List Ev) (c : Nat) (k : Conn)
    (hk : (after evs).conns.lookup c = some k) (hno : ∀ n, ¬ Asked evs c n) (hm : MemoryOk evs) :
    getUsername (after evs) c = .ub := by
  have hF := facts_after evs hm
  unfold getUsername
  rw [hk]
  cases hu : k.username with
  | none => simp only [hu]
  | some n => exact absurd ((hF.conn c k (lookup_mem hk)).2.1 n hu) (hno n)

example : (after [.open_]).conns.lookup 0 = some {} := by decide +kernel

/-- C63, what does hold: asking for the username of a connection reported as password authenticated is
safe while no allocation of a username fails. -/
theorem C63_username_when_authenticated_partial (evs : List Ev) (hm : MemoryOk evs) (c : Nat)
    (ha : isAuthenticated (after evs) c = true) : getUsername (after evs) c ≠ .ub := by
  have hF := facts_after evs hm
  unfold isAuthenticated at ha
  split at ha
  · cases ha
  · rename_i k hk
    obtain ⟨_, _, h3⟩ := hF.conn c k (lookup_mem hk)
    obtain ⟨_, _, _, hu⟩ := h3 ha
    unfold getUsername
    rw [hk]
    cases hku : k.username with
    | none => exact absurd hku hu
    | some n => simp only [hku]; split <;> simp

/-- C63: with a failing allocation even that is undefined. -/
theorem C63_username_out_of_memory_violated :
    ∃ evs, isAuthenticated (after evs) 0 = true ∧ getUsername (after evs) 0 = .ub :=
  ⟨[.setHandler, .open_, .step1 0 true true true "u", .answer 0 (some "p") true false, .step2 0 true "p" true],
    by decide +kernel, by decide +kernel⟩

end Verif.Core.Spake2
