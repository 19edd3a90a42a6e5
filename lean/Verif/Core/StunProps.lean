import Verif.Core.StunSpec

/-!
# STUN analysis and the endpoints resource — property theorems (C50, C78, C79)
-/

namespace Verif.Core.Stun
open Spec

variable {env : Env}

/-! ## Helpers -/

theorem answered_append (a b : List Out) : answered (a ++ b) = answered a ++ answered b := by
  induction a with
  | nil => rfl
  | cons x a ih => cases x <;> simp [answered, ih]

theorem requests_append (a b : List Op) : requests (a ++ b) = requests a ++ requests b := by
  induction a with
  | nil => rfl
  | cons x a ih => cases x <;> simp [requests, ih]

theorem completed_some (ec : Ec) (res : Option Nat) (h : ec = .ok → res.isSome) (r : Nat) :
    ∃ eps, completed env ec res r = some (.response r eps) ∧
      (eps = none ∨ env.mem r = true ∧ eps = some ((env.locals r).take 2 ++ (if ec = .ok then res.toList else []))) := by
  unfold completed
  by_cases he : ec = .ok
  · obtain ⟨g, hg⟩ := Option.isSome_iff_exists.mp (h he)
    cases hm : env.mem r <;> simp [he, hg, maxEndpoints]
  · cases hm : env.mem r <;> simp [he, maxEndpoints]

theorem answerAll_some (ec : Ec) (res : Option Nat) (h : ec = .ok → res.isSome) (rs : List Nat) :
    ∃ os, answerAll env ec res rs = some os ∧ answered os = rs ∧
      ∀ o ∈ os, ∃ r eps, o = .response r eps ∧
        (eps = none ∨ env.mem r = true ∧ eps = some ((env.locals r).take 2 ++ (if ec = .ok then res.toList else []))) := by
  induction rs with
  | nil => exact ⟨[], rfl, rfl, nofun⟩
  | cons r rs ih =>
    obtain ⟨os, h1, h2, h3⟩ := ih
    obtain ⟨eps, h4, h5⟩ := completed_some (env := env) ec res h r
    refine ⟨.response r eps :: os, by simp [answerAll, h1, h4], by simp [answered, h2], ?_⟩
    intro o ho
    rcases List.mem_cons.mp ho with rfl | ho
    · exact ⟨r, eps, rfl, h5⟩
    · exact h3 o ho

/-- Invariant: somebody waits exactly while an analysis is going on; while the name is looked up, the lookup is
outstanding, and it is outstanding at no other time, except after the module has been stopped. -/
structure Inv (c : Ctx) : Prop where
  busy : c.cbs ≠ [] ↔ c.state = .resolving ∨ c.state = .running
  look : c.state = .resolving → c.lookup.isSome
  only : c.lookup.isSome → c.state = .resolving ∨ c.state = .aborted

/-- What a step says: who has been answered and how. -/
structure Eff (env : Env) (op : Op) (c c' : Ctx) (new : List Nat) (os : List Out) : Prop where
  inv : Inv c'
  fifo : (answered os ++ c'.cbs).Perm (c.cbs ++ new)
  content : ∀ r eps, .response r eps ∈ os → Content env op r eps
  sends : ∀ p e, .send p e ∈ os → c.cbs ≠ [] ∧ c'.cbs ≠ []
  stay : c.state = .aborted → c'.state = .aborted

theorem resolve_eff {c : Ctx} {op : Op} (h : c.ec = .ok → ∃ g, c.res = some g ∧ libEvent op = some (.completed g))
    (hs : c.state = .done ∨ c.state = .aborted) (hl : c.lookup.isSome → c.state = .aborted) :
    ∃ os, resolveCallbacks env c = some ({ c with cbs := [] }, os) ∧ Inv { c with cbs := [] } ∧ answered os = c.cbs ∧
      (∀ r eps, .response r eps ∈ os → Content env op r eps) ∧ ∀ p e, Out.send p e ∉ os := by
  obtain ⟨os, h1, h2, h3⟩ := answerAll_some (env := env) c.ec c.res
    (fun he => by obtain ⟨g, hg, -⟩ := h he; simp [hg]) c.cbs
  refine ⟨os, by simp [resolveCallbacks, h1], ⟨?_, ?_, ?_⟩, h2, ?_, ?_⟩
  · rcases hs with hs | hs <;> simp [hs]
  · rcases hs with hs | hs <;> simp [hs]
  · intro hx; exact .inr (hl hx)
  · intro r eps hm
    obtain ⟨r', eps', he, hc⟩ := h3 _ hm
    cases he
    rcases hc with hc | ⟨hm, hc⟩
    · exact .inl hc
    · refine .inr ⟨hm, ?_⟩
      by_cases hok : c.ec = .ok
      · obtain ⟨g, hg, hlib⟩ := h hok
        exact .inr ⟨g, hlib, by simpa [hok, hg] using hc⟩
      · exact .inl (by simpa [hok] using hc)
  · intro p e hm
    obtain ⟨r', eps', he, hc⟩ := h3 _ hm
    cases he

theorem event_eff {c : Ctx} {op : Op} {ev : LibEvent} (hop : libEvent op = some ev) (hr : c.state = .running)
    (hc : c.cbs ≠ []) (hl : c.lookup = none) :
    ∃ c' os, event env c ev = some (c', os) ∧ Eff env op c c' [] os ∧
      (c'.cbs ≠ [] → Decisive op → c'.timer = true ∨ 0 < c'.sending) ∧ c'.freed = c.freed ∧ c'.lookup = none := by
  have herr : ∀ ec, ec ≠ .ok → ∃ c' os, resolveError env { c with timer := false } ec = some (c', os) ∧
      Eff env op c c' [] os ∧ (c'.cbs ≠ [] → Decisive op → c'.timer = true ∨ 0 < c'.sending) ∧
      c'.freed = c.freed ∧ c'.lookup = none := by
    intro ec he
    obtain ⟨os, h1, h2, h3, h4, h5⟩ := resolve_eff (env := env) (op := op)
      (c := { c with timer := false, state := .done, ec := ec }) (fun h => absurd h he) (.inl rfl) (by simp [hl])
    refine ⟨_, os, h1, ⟨h2, by simp [h3], h4, fun p e hm => absurd hm (h5 p e), by simp [hr]⟩, ?_, rfl, hl⟩
    exact fun h _ => absurd rfl h
  have hsend : ∀ p ep, ∃ c' os, sendTo env { c with timer := false } p ep = some (c', os) ∧
      Eff env op c c' [] os ∧ (c'.cbs ≠ [] → Decisive op → c'.timer = true ∨ 0 < c'.sending) ∧
      c'.freed = c.freed ∧ c'.lookup = none := by
    intro p ep
    unfold sendTo
    by_cases hb : (!(if p then c.priUdp else c.secUdp)) = true
    · rw [if_pos hb]; exact herr _ nofun
    · rw [if_neg hb]
      cases ep with
      | none => exact herr _ nofun
      | some ep =>
        refine ⟨_, _, rfl, ⟨⟨by simp [hr, hc], by simp [hr], by simp [hl]⟩, by simp [answered], ?_, ?_, by simp [hr]⟩,
          fun _ _ => .inr (Nat.succ_pos _), rfl, hl⟩
        · intro r eps hm; simp at hm
        · intro _ _ _; exact ⟨hc, hc⟩
  have hquiet : ∀ t : Bool, ∃ c' os, (some ({ c with timer := t }, []) : R) = some (c', os) ∧
      Eff env op c c' [] os ∧ (c'.cbs ≠ [] → Decisive op → c'.timer = t) ∧ c'.freed = c.freed ∧ c'.lookup = none := by
    intro t
    exact ⟨_, _, rfl, ⟨⟨by simp [hr, hc], by simp [hr], by simp [hl]⟩, by simp [answered], nofun, nofun, by simp [hr]⟩,
      fun _ _ => rfl, rfl, hl⟩
  unfold event
  cases ev with
  | sendPrimary ep => exact hsend true ep
  | sendSecondary ep => exact hsend false ep
  | wait =>
    obtain ⟨c', os, h1, h2, h3, h4⟩ := hquiet true
    exact ⟨c', os, h1, h2, fun a b => .inl (h3 a b), h4⟩
  | noEvent =>
    obtain ⟨c', os, h1, h2, h3, h4⟩ := hquiet false
    exact ⟨c', os, h1, h2, fun a b => absurd hop b.1, h4⟩
  | invalid =>
    obtain ⟨c', os, h1, h2, h3, h4⟩ := hquiet false
    exact ⟨c', os, h1, h2, fun a b => absurd hop b.2, h4⟩
  | failed => exact herr _ nofun
  | completed g =>
    obtain ⟨os, h1, h2, h3, h4, h5⟩ := resolve_eff (env := env) (op := op)
      (c := { c with timer := false, state := .done, ec := .ok, res := some g }) (fun h => ⟨g, rfl, hop⟩)
      (.inl rfl) (by simp [hl])
    refine ⟨_, os, h1, ⟨h2, by simp [h3], h4, fun p e hm => absurd hm (h5 p e), by simp [hr]⟩, ?_, rfl, hl⟩
    exact fun h _ => absurd rfl h

/-- Something which will happen without a new request: the lookup, the timer or the completion of a send. -/
def Owed (c : Ctx) : Prop := c.lookup.isSome = true ∨ c.timer = true ∨ 0 < c.sending

/-- An analysis which is going on will be continued. -/
def Alive (c : Ctx) : Prop := c.cbs ≠ [] → Owed c

theorem not_resolving {c : Ctx} (h : Inv c) (hr : c.state = .running) : c.lookup = none := by
  cases hl : c.lookup with
  | none => rfl
  | some l => have := h.only (by simp [hl]); simp [hr] at this

/-- One event, except for the reading of a name which has been freed. -/
theorem step_eff {c : Ctx} (h : Inv c) (op : Op) (hub : op = .dnsReads → ∀ l, c.lookup = some l → l ∉ c.freed) :
    ∃ c' os, step env c op = some (c', os) ∧ Eff env op c c' (requests [op]) os ∧
      (Alive c → Decisive op → Alive c') ∧ (op = .stop → c'.state = .aborted) := by
  have hquiet : ∀ c' : Ctx, c'.state = c.state → c'.cbs = c.cbs → c'.lookup = c.lookup → requests [op] = [] →
      Eff env op c c' (requests [op]) [] := by
    intro c' h1 h2 h3 h4
    exact ⟨⟨by rw [h1, h2]; exact h.busy, by rw [h1, h3]; exact h.look, by rw [h1, h3]; exact h.only⟩,
      by rw [h2, h4]; simp [answered], nofun, nofun, by rw [h1]; exact id⟩
  cases op with
  | request r mem =>
    simp only [step, request]
    cases mem with
    | false =>
      refine ⟨c, _, rfl, ⟨h, ?_, ?_, by simp, id⟩, fun ha _ => ha, nofun⟩
      · simp only [answered, requests]; exact List.perm_append_comm
      · intro r' eps hm
        simp only [List.mem_singleton, Out.response.injEq] at hm
        exact .inl hm.2
    | true =>
      simp only [Bool.not_true, Bool.false_eq_true, if_false]
      have hrefuse : ∀ ec, ec ≠ .ok → ∃ c' os, (completed env ec none r).map (fun o => (c, [o])) = some (c', os) ∧
          Eff env (.request r true) c c' (requests [.request r true]) os ∧
          (Alive c → Decisive (.request r true) → Alive c') ∧ (Op.request r true = .stop → c'.state = .aborted) := by
        intro ec he
        obtain ⟨eps, h1, h2⟩ := completed_some (env := env) ec none (fun hx => absurd hx he) r
        refine ⟨c, _, by rw [h1]; rfl, ⟨h, ?_, ?_, by simp, id⟩, fun ha _ => ha, nofun⟩
        · simp only [answered, requests]; exact List.perm_append_comm
        · intro r' eps' hm
          simp only [List.mem_singleton, Out.response.injEq] at hm
          obtain ⟨rfl, rfl⟩ := hm
          rcases h2 with h2 | ⟨hm, h2⟩
          · exact .inl h2
          · exact .inr ⟨hm, .inl (by simpa [he] using h2)⟩
      unfold analyze
      by_cases hab : c.state = .aborted
      · rw [if_pos hab]; exact hrefuse _ nofun
      · rw [if_neg hab]
        cases hh : c.host with
        | none => exact hrefuse _ nofun
        | some hst =>
          dsimp only
          by_cases hb : c.state = .resolving ∨ c.state = .running
          · rw [if_pos hb]
            refine ⟨_, _, rfl, ⟨⟨by simp [hb], h.look, h.only⟩, by simp [answered, requests], nofun, nofun,
              id⟩, fun ha _ _ => ha (h.busy.mpr hb), nofun⟩
          · rw [if_neg hb]
            refine ⟨_, _, rfl, ⟨⟨by simp, by simp, by simp⟩, by simp [answered, requests], nofun, nofun,
              fun hx => absurd hx hab⟩, fun _ _ _ => .inl rfl, nofun⟩
  | setHost dup =>
    refine ⟨_, _, rfl, hquiet _ ?_ ?_ ?_ rfl, fun ha _ hx => ?_, nofun⟩
    · unfold setHost; cases dup <;> rfl
    · unfold setHost; cases dup <;> rfl
    · unfold setHost; cases dup <;> rfl
    · have := ha (by revert hx; unfold setHost; cases dup <;> exact id)
      unfold setHost; cases dup <;> exact this
  | sockets pri sec => exact ⟨_, _, rfl, hquiet _ rfl rfl rfl rfl, fun ha _ hx => ha hx, nofun⟩
  | packet ev =>
    simp only [step]
    by_cases hr : c.state = .running
    · rw [if_pos hr]
      obtain ⟨c', os, h1, h2, h3, -⟩ := event_eff (env := env) (op := .packet ev) rfl hr (h.busy.mpr (.inr hr))
        (not_resolving h hr)
      exact ⟨c', os, h1, h2, fun _ hd hx => .inr (h3 hx hd), nofun⟩
    · rw [if_neg hr]
      exact ⟨_, _, rfl, hquiet _ rfl rfl rfl rfl, fun ha _ hx => ha hx, nofun⟩
  | sendDone ev =>
    simp only [step]
    by_cases h0 : c.sending = 0
    · rw [if_pos h0]
      exact ⟨_, _, rfl, hquiet _ rfl rfl rfl rfl, fun ha _ hx => ha hx, nofun⟩
    · rw [if_neg h0]
      by_cases hr : c.state = .running
      · rw [if_pos hr]
        obtain ⟨c', os, h1, h2, h3, -⟩ := event_eff (env := env) (op := .sendDone ev)
          (c := { c with sending := c.sending - 1 }) rfl hr (h.busy.mpr (.inr hr))
          (show c.lookup = none from not_resolving h hr)
        exact ⟨c', os, h1, ⟨h2.inv, h2.fifo, h2.content, h2.sends, h2.stay⟩, fun _ hd hx => .inr (h3 hx hd), nofun⟩
      · rw [if_neg hr]
        refine ⟨_, _, rfl, hquiet _ rfl rfl rfl rfl, fun ha _ hx => ?_, nofun⟩
        have hres : c.state = .resolving := (h.busy.mp hx).resolve_right hr
        exact .inl (h.look hres)
  | timeout ev =>
    simp only [step]
    by_cases h0 : (!c.timer) = true
    · rw [if_pos h0]
      exact ⟨_, _, rfl, hquiet _ rfl rfl rfl rfl, fun ha _ hx => ha hx, nofun⟩
    · rw [if_neg h0]
      by_cases hr : c.state = .running
      · rw [if_pos hr]
        obtain ⟨c', os, h1, h2, h3, -⟩ := event_eff (env := env) (op := .timeout ev)
          (c := { c with timer := false }) rfl hr (h.busy.mpr (.inr hr))
          (show c.lookup = none from not_resolving h hr)
        exact ⟨c', os, h1, ⟨h2.inv, h2.fifo, h2.content, h2.sends, h2.stay⟩, fun _ hd hx => .inr (h3 hx hd), nofun⟩
      · rw [if_neg hr]
        refine ⟨_, _, rfl, hquiet _ rfl rfl rfl rfl, fun ha _ hx => ?_, nofun⟩
        have hres : c.state = .resolving := (h.busy.mp hx).resolve_right hr
        exact .inl (h.look hres)
  | dnsReads =>
    simp only [step]
    cases hl : c.lookup with
    | none => exact ⟨_, _, rfl, hquiet _ rfl rfl rfl rfl, fun ha _ hx => ha hx, nofun⟩
    | some l =>
      simp only
      rw [if_neg (hub rfl l hl)]
      exact ⟨_, _, rfl, hquiet _ rfl rfl rfl rfl, fun ha _ hx => ha hx, nofun⟩
  | dnsDone ec ev =>
    simp only [step]
    cases hl : c.lookup with
    | none => exact ⟨_, _, rfl, hquiet _ rfl rfl rfl rfl, fun ha _ hx => ha hx, nofun⟩
    | some l =>
      simp only [Option.isNone_some, Bool.false_eq_true, if_false, dnsCb]
      rcases h.only (by simp [hl]) with hs | hs
      · rw [if_neg (by simp [hs])]
        by_cases he : ec ≠ .ok
        · rw [if_pos he]
          obtain ⟨os, h1, h2, h3, h4, h5⟩ := resolve_eff (env := env) (op := .dnsDone ec ev)
            (c := { c with lookup := none, state := .done, ec := ec }) (fun h => absurd h he) (.inl rfl) nofun
          refine ⟨_, os, h1, ⟨h2, by simp [h3, requests], h4, fun p e hm => absurd hm (h5 p e), by simp [hs]⟩,
            fun _ _ hx => absurd rfl hx, nofun⟩
        · rw [if_neg he]
          obtain ⟨c', os, h1, h2, h3, -⟩ := event_eff (env := env) (op := .dnsDone ec ev)
            (c := { c with lookup := none, state := .running }) rfl rfl (h.busy.mpr (.inl hs)) rfl
          exact ⟨c', os, h1, ⟨h2.inv, h2.fifo, h2.content, h2.sends, by simp [hs]⟩, fun _ hd hx => .inr (h3 hx hd), nofun⟩
      · rw [if_pos hs]
        obtain ⟨os, h1, h2, h3, h4, h5⟩ := resolve_eff (env := env) (op := .dnsDone ec ev)
          (c := { c with lookup := none, ec := .aborted }) nofun (.inr hs) nofun
        refine ⟨_, os, h1, ⟨h2, by simp [h3, requests], h4, fun p e hm => absurd hm (h5 p e), fun _ => hs⟩,
          fun _ _ hx => absurd rfl hx, nofun⟩
  | stop =>
    obtain ⟨os, h1, h2, h3, h4, h5⟩ := resolve_eff (env := env) (op := .stop)
      (c := { c with state := .aborted, ec := .aborted }) nofun (.inr rfl) (fun _ => rfl)
    exact ⟨_, os, h1, ⟨h2, by simp [h3, requests], h4, fun p e hm => absurd hm (h5 p e), fun _ => rfl⟩,
      fun _ _ hx => absurd rfl hx, fun _ => rfl⟩

theorem not_freed {c c' : Ctx} {op : Op} {os : List Out} (hs : step env c op = some (c', os)) :
    op = .dnsReads → ∀ l, c.lookup = some l → l ∉ c.freed := by
  rintro rfl l hl hm
  simp [step, hl, hm] at hs

theorem run_eff {c : Ctx} (h : Inv c) (ops : List Op) {c' : Ctx} {os : List Out}
    (hr : run env c ops = some (c', os)) :
    Inv c' ∧ (answered os ++ c'.cbs).Perm (c.cbs ++ requests ops) ∧
      (c.state = .aborted ∨ .stop ∈ ops → c'.state = .aborted) ∧
      (Alive c → (∀ op ∈ ops, Decisive op) → Alive c') := by
  induction ops generalizing c os with
  | nil =>
    simp only [run, Option.some.injEq, Prod.mk.injEq] at hr
    obtain ⟨rfl, rfl⟩ := hr
    exact ⟨h, by simp [answered, requests], by simp, fun ha _ => ha⟩
  | cons op ops ih =>
    simp only [run] at hr
    cases hs : step env c op with
    | none => simp [hs] at hr
    | some r =>
      obtain ⟨c1, o1⟩ := r
      obtain ⟨c1', o1', hs', he, ha, hst⟩ := step_eff (env := env) h op (not_freed hs)
      rw [hs] at hs'
      simp only [Option.some.injEq, Prod.mk.injEq] at hs'
      obtain ⟨rfl, rfl⟩ := hs'
      rw [hs] at hr
      cases hrr : run env c1 ops with
      | none => simp [hrr] at hr
      | some r =>
        obtain ⟨c2, o2⟩ := r
        simp only [hrr, Option.bind_eq_bind, Option.bind_some, Option.pure_def, Option.some.injEq, Prod.mk.injEq] at hr
        obtain ⟨rfl, rfl⟩ := hr
        obtain ⟨i1, i2, i3, i4⟩ := ih he.inv hrr
        have hreq : requests (op :: ops) = requests [op] ++ requests ops := requests_append [op] ops
        refine ⟨i1, ?_, ?_, fun hal hd => i4 (ha hal (hd _ (List.mem_cons_self ..)))
          (fun o ho => hd o (List.mem_cons_of_mem _ ho))⟩
        · have p1 := he.fifo
          rw [List.perm_iff_count] at *
          intro x
          have := p1 x
          have := i2 x
          rw [answered_append, hreq]
          simp only [List.count_append] at *
          omega
        · rintro (hx | hx)
          · exact i3 (.inl (he.stay hx))
          · rcases List.mem_cons.mp hx with hx | hx
            · exact i3 (.inl (hst hx.symm))
            · exact i3 (.inr hx)

theorem run_append (c : Ctx) (xs ys : List Op) :
    run env c (xs ++ ys) = (run env c xs).bind fun r => (run env r.1 ys).map fun r' => (r'.1, r.2 ++ r'.2) := by
  induction xs generalizing c with
  | nil => simp [run]
  | cons op xs ih =>
    simp only [List.cons_append, run, ih]
    cases step env c op with
    | none => rfl
    | some r =>
      obtain ⟨c1, s1⟩ := r
      simp only [Option.bind_eq_bind, Option.bind_some]
      cases run env c1 xs with
      | none => rfl
      | some r =>
        obtain ⟨c2, s2⟩ := r
        simp only [Option.bind_some]
        show _ = Option.map _ (run env c2 ys)
        cases run env c2 ys with
        | none => rfl
        | some r => simp

theorem inv_init : Inv init := ⟨by simp [init], by simp [init], by simp [init]⟩

/-- What the outside has seen after a history, `none` after undefined behaviour. -/
def outputs (env : Env) (ops : List Op) : Option (List Out) := (run env init ops).map (·.2)

theorem outputs_some {ops : List Op} {os : List Out} (h : outputs env ops = some os) :
    ∃ c, run env init ops = some (c, os) := by
  unfold outputs at h
  cases hr : run env init ops with
  | none => simp [hr] at h
  | some r => simp only [hr, Option.map_some, Option.some.injEq] at h; exact ⟨r.1, by rw [← h]⟩

/-- The last event of a history. -/
theorem outputs_snoc {ops : List Op} {op : Op} {os : List Out} (h : outputs env (ops ++ [op]) = some os) :
    ∃ c o1 c' o2, run env init ops = some (c, o1) ∧ Inv c ∧ step env c op = some (c', o2) ∧ os = o1 ++ o2 ∧
      Eff env op c c' (requests [op]) o2 := by
  obtain ⟨c', hr⟩ := outputs_some h
  rw [run_append] at hr
  cases h1 : run env init ops with
  | none => simp [h1] at hr
  | some r =>
    obtain ⟨c, o1⟩ := r
    simp only [h1, Option.bind_some, run] at hr
    cases hs : step env c op with
    | none => simp [hs] at hr
    | some r =>
      obtain ⟨c1, o2⟩ := r
      simp [hs] at hr
      obtain ⟨rfl, rfl⟩ := hr
      have hi := (run_eff inv_init ops h1).1
      obtain ⟨_, _, hs', he, -⟩ := step_eff (env := env) hi op (not_freed hs)
      rw [hs] at hs'
      simp only [Option.some.injEq, Prod.mk.injEq] at hs'
      obtain ⟨rfl, rfl⟩ := hs'
      exact ⟨c, o1, _, _, rfl, hi, hs, rfl, he⟩

/-! ## C50 -/

/-- C50 (partial: for histories in which the name of the STUN server is not replaced while it is looked up, see
`C79_host_violated`; all others have undefined behaviour): every request for the endpoints is answered at most
once, and nothing is answered which was not asked for: the answered requests together with those which still
wait are the requests made. -/
theorem C50_once_partial (ops : List Op) {os : List Out} (h : outputs env ops = some os) :
    ∃ waiting, (answered os ++ waiting).Perm (requests ops) := by
  obtain ⟨c, hr⟩ := outputs_some h
  exact ⟨c.cbs, by simpa [init] using (run_eff inv_init ops hr).2.1⟩

/-- C50 (partial, as above): once the device has been stopped, every request has been answered exactly once, the
ones made before and the ones made later. -/
theorem C50_stopped_partial (ops : List Op) {os : List Out} (h : outputs env ops = some os) (hs : .stop ∈ ops) :
    (answered os).Perm (requests ops) := by
  obtain ⟨c, hr⟩ := outputs_some h
  obtain ⟨hi, hp, hst, -⟩ := run_eff inv_init ops hr
  have : c.cbs = [] := by
    apply Classical.byContradiction
    intro hc
    have := hi.busy.mp hc
    simp [hst (.inr hs)] at this
  simpa [init, this] using hp

/-- C50 (partial: the STUN library must say what to do next): as long as a request waits, something is
outstanding which leads on: the lookup of the name, the timer, or the completion of a send. The code itself
never forgets a request. -/
theorem C50_continues_partial (ops : List Op) (hd : ∀ op ∈ ops, Decisive op) {c : Ctx} {os : List Out}
    (h : run env init ops = some (c, os)) (hw : (answered os).length < (requests ops).length) :
    c.lookup.isSome = true ∨ c.timer = true ∨ 0 < c.sending := by
  obtain ⟨-, hp, -, ha⟩ := run_eff inv_init ops h
  refine ha (by simp [Alive, init]) hd ?_
  intro hc
  have := hp.length_eq
  simp [hc, init] at this
  omega

/-- C50: the content of the response. Without memory it is an error. Otherwise it has the local endpoints, at
most two, and after them the external endpoint if and only if the event which led to the response is the end of
the analysis, as reported by the library; nobody gets the result of an older analysis. -/
theorem C50_content (ops : List Op) (op : Op) {os os' : List Out} (h : outputs env ops = some os)
    (h' : outputs env (ops ++ [op]) = some (os ++ os')) {r : Nat} {eps : Option (List Nat)}
    (hm : .response r eps ∈ os') : Content env op r eps := by
  obtain ⟨c, o1, c', o2, h1, hi, hs, ho, he⟩ := outputs_snoc h'
  have : os = o1 := by simpa [outputs, h1] using h.symm
  subst this
  rw [List.append_cancel_left ho] at hm
  exact he.content r eps hm

/-- C50: a packet is sent to the STUN server only while a request waits for an answer. -/
theorem C50_sends (ops : List Op) (op : Op) {os os' : List Out} (h : outputs env ops = some os)
    (h' : outputs env (ops ++ [op]) = some (os ++ os')) {p : Bool} {e : Nat} (hm : .send p e ∈ os') :
    (answered os).length < (requests ops).length := by
  obtain ⟨c, o1, c', o2, h1, hi, hs, ho, he⟩ := outputs_snoc h'
  have : os = o1 := by simpa [outputs, h1] using h.symm
  subst this
  rw [List.append_cancel_left ho] at hm
  have hc := (he.sends p e hm).1
  have hp := (run_eff inv_init ops h1).2.1.length_eq
  have : 0 < c.cbs.length := List.length_pos_iff.mpr hc
  simp [init] at hp
  omega

/-- Surroundings for the examples. -/
def someEnv : Env := { locals := fun _ => [1, 2, 3], mem := fun _ => true }

/-- Non-vacuity: two requests share an analysis, a third one comes before the server is known, a fourth one after
the device has been stopped. -/
example : outputs someEnv [.request 13 true, .sockets true true, .setHost true, .request 11 true, .dnsReads, .dnsDone .ok (.sendPrimary (some 77)),
      .request 12 true, .sendDone .wait, .packet (.completed 5), .request 15 true, .stop, .request 14 true] =
    some [.response 13 (some [1, 2]), .send true 77, .response 11 (some [1, 2, 5]), .response 12 (some [1, 2, 5]),
      .response 15 (some [1, 2]), .response 14 (some [1, 2])] := by decide +kernel

/-- Non-vacuity of `C50_continues_partial`. -/
example : (run someEnv init [.sockets true true, .setHost true, .request 11 true, .dnsDone .ok (.sendPrimary (some 77)),
    .sendDone .wait]).map (fun r => (answered r.2, r.1.timer)) = some ([], true) := by decide +kernel

/-- If the library has no next event although the analysis is not finished, the request is forgotten: nothing is
outstanding, and a new request joins the old one. -/
example : (run someEnv init [.sockets true true, .setHost true, .request 11 true, .dnsDone .ok .noEvent,
    .request 12 true]).map (fun r => (r.1.cbs, r.1.lookup, r.1.timer, r.1.sending)) =
      some ([11, 12], none, false, 0) := by decide +kernel

/-! ## C79: the name of the server while it is looked up -/

/-- C79 is violated: the response of the basestation replaces the name of the STUN server while the lookup of the
old name is outstanding. The old name is freed and then read by the thread which looks it up. -/
theorem C79_host_violated :
    outputs env [.setHost true, .request 1 true, .setHost true, .dnsReads] = none := by rfl

/-- Blocks of names: the name in use and the name which is looked up are not freed. -/
structure Blocks (c : Ctx) : Prop where
  host : ∀ h, c.host = some h → h < c.blocks ∧ h ∉ c.freed
  freed : ∀ h ∈ c.freed, h < c.blocks
  look : ∀ h, c.lookup = some h → h ∉ c.freed

theorem answers_frame {c c' : Ctx} {os : List Out} (h : resolveCallbacks env c = some (c', os)) :
    c' = { c with cbs := [] } := by
  unfold resolveCallbacks at h
  cases ha : answerAll env c.ec c.res c.cbs with
  | none => simp [ha] at h
  | some o => simp [ha] at h; exact h.1.symm

/-- What the continuation of an analysis leaves alone, and how many sends it adds. -/
structure Frame (c c' : Ctx) (os : List Out) : Prop where
  host : c'.host = c.host
  blocks : c'.blocks = c.blocks
  freed : c'.freed = c.freed
  lookup : c'.lookup = c.lookup
  sending : c'.sending = c.sending + sent os
  one : sent os ≤ 1
  timer : c'.timer = true → sent os = 0

theorem sent_append (a b : List Out) : sent (a ++ b) = sent a + sent b := by
  induction a with
  | nil => simp [sent]
  | cons x a ih => cases x <;> simp [sent, ih] <;> omega

theorem resolve_frame {c c' : Ctx} {os : List Out} (h : resolveCallbacks env c = some (c', os)) : Frame c c' os := by
  have hc := answers_frame h
  have h0 : sent os = 0 := by
    have key : ∀ (ec : Ec) (res : Option Nat) (rs : List Nat) (os : List Out), answerAll env ec res rs = some os → sent os = 0 := by
      intro ec res rs
      induction rs with
      | nil => intro os h; simp only [answerAll, Option.some.injEq] at h; rw [← h]; rfl
      | cons r rs ih =>
        intro os h
        simp only [answerAll, Option.bind_eq_bind] at h
        cases hx : completed env ec res r with
        | none => simp [hx] at h
        | some o =>
          cases hy : answerAll env ec res rs with
          | none => simp [hx, hy] at h
          | some o' =>
            simp [hx, hy] at h
            rw [← h]
            have : ∃ e, o = .response r e := by
              unfold completed at hx
              split at hx
              · split at hx
                · cases hx
                · simp at hx; exact ⟨_, hx.symm⟩
              · simp at hx; exact ⟨_, hx.symm⟩
            obtain ⟨e, rfl⟩ := this
            exact ih o' hy
    unfold resolveCallbacks at h
    cases ha : answerAll env c.ec c.res c.cbs with
    | none => simp [ha] at h
    | some o => simp [ha] at h; rw [← h.2]; exact key _ _ _ _ ha
  rw [hc]
  exact ⟨rfl, rfl, rfl, rfl, by simp [h0], by omega, fun _ => h0⟩

theorem sendTo_frame {c c' : Ctx} {p : Bool} {ep : Option Nat} {os : List Out} (ht : c.timer = false)
    (h : sendTo env c p ep = some (c', os)) : Frame c c' os := by
  unfold sendTo resolveError at h
  by_cases hb : (!(if p then c.priUdp else c.secUdp)) = true
  · rw [if_pos hb] at h
    have := resolve_frame h
    exact ⟨this.1, this.2, this.3, this.4, this.5, this.6, this.7⟩
  · rw [if_neg hb] at h
    cases ep with
    | none =>
      have := resolve_frame h
      exact ⟨this.1, this.2, this.3, this.4, this.5, this.6, this.7⟩
    | some ep =>
      simp only [Option.some.injEq, Prod.mk.injEq] at h
      obtain ⟨rfl, rfl⟩ := h
      exact ⟨rfl, rfl, rfl, rfl, rfl, Nat.le_refl _, fun hx => by simp [ht] at hx⟩

theorem event_frame {c c' : Ctx} {ev : LibEvent} {os : List Out} (h : event env c ev = some (c', os)) :
    Frame c c' os := by
  unfold event resolveError at h
  cases ev <;> simp only at h
  case sendPrimary ep => have := sendTo_frame rfl h; exact ⟨this.1, this.2, this.3, this.4, this.5, this.6, this.7⟩
  case sendSecondary ep => have := sendTo_frame rfl h; exact ⟨this.1, this.2, this.3, this.4, this.5, this.6, this.7⟩
  case completed g => have := resolve_frame h; exact ⟨this.1, this.2, this.3, this.4, this.5, this.6, this.7⟩
  case failed => have := resolve_frame h; exact ⟨this.1, this.2, this.3, this.4, this.5, this.6, this.7⟩
  all_goals
    simp only [Option.some.injEq, Prod.mk.injEq] at h
    obtain ⟨rfl, rfl⟩ := h
    exact ⟨rfl, rfl, rfl, rfl, rfl, Nat.zero_le _, fun _ => rfl⟩

theorem Blocks.frame {c c' : Ctx} {os : List Out} (h : Blocks c) (f : Frame c c' os) : Blocks c' :=
  ⟨by rw [f.host, f.blocks, f.freed]; exact h.host, by rw [f.blocks, f.freed]; exact h.freed,
    by rw [f.freed, f.lookup]; exact h.look⟩

theorem Blocks.frame' {c0 c c' : Ctx} {os : List Out} (h : Blocks c0) (f : Frame c c' os) (h1 : c.host = c0.host)
    (h2 : c.blocks = c0.blocks) (h3 : c.freed = c0.freed) (h4 : c.lookup = c0.lookup) : Blocks c' :=
  Blocks.frame (c := c) ⟨by rw [h1, h2, h3]; exact h.host, by rw [h2, h3]; exact h.freed,
    by rw [h3, h4]; exact h.look⟩ f

theorem step_blocks {c c' : Ctx} {op : Op} {os : List Out} (h : Blocks c)
    (hop : ∀ d, op = .setHost d → c.lookup = none) (hs : step env c op = some (c', os)) : Blocks c' := by
  cases op with
  | request r mem =>
    simp only [step, request] at hs
    split at hs
    · cases hs; exact h
    · have hb : Blocks (analyze c r).1 := by
        unfold analyze
        split
        · exact h
        · split
          · exact h
          · rename_i hst hh
            dsimp only
            split
            · exact ⟨h.host, h.freed, h.look⟩
            · refine ⟨h.host, h.freed, ?_⟩
              intro x hx
              simp only [Option.some.injEq] at hx
              subst hx
              exact (h.host _ hh).2
      split at hs
      · rename_i heq
        simp only [Option.some.injEq, Prod.mk.injEq] at hs
        rw [← hs.1]
        rw [heq] at hb
        exact hb
      · rename_i heq
        rw [heq] at hb
        cases hcm : completed env _ none r with
        | none => rw [hcm] at hs; cases hs
        | some o =>
          rw [hcm] at hs
          simp only [Option.map_some, Option.some.injEq, Prod.mk.injEq] at hs
          rw [← hs.1]
          exact hb
  | setHost d =>
    have hl := hop d rfl
    simp only [step, Option.some.injEq, Prod.mk.injEq] at hs
    rw [← hs.1]
    have hf : ∀ x ∈ c.host.toList ++ c.freed, x < c.blocks := by
      intro x hx
      rcases List.mem_append.mp hx with hx | hx
      · exact (h.host x (by simpa using hx)).1
      · exact h.freed x hx
    unfold setHost
    cases d with
    | false => exact ⟨nofun, hf, by simp [hl]⟩
    | true =>
      refine ⟨?_, fun x hx => Nat.lt_succ_of_lt (hf x hx), by simp [hl]⟩
      intro x hx
      simp only [if_true, Option.some.injEq] at hx
      subst hx
      exact ⟨Nat.lt_succ_self _, fun hm => Nat.lt_irrefl _ (hf _ hm)⟩
  | sockets p s => cases hs; exact ⟨h.host, h.freed, h.look⟩
  | packet ev =>
    simp only [step] at hs
    split at hs
    · exact h.frame (event_frame hs)
    · cases hs; exact h
  | sendDone ev =>
    simp only [step] at hs
    split at hs
    · cases hs; exact h
    · split at hs
      · exact Blocks.frame (c := { c with sending := c.sending - 1 }) ⟨h.host, h.freed, h.look⟩ (event_frame hs)
      · cases hs; exact ⟨h.host, h.freed, h.look⟩
  | timeout ev =>
    simp only [step] at hs
    split at hs
    · cases hs; exact h
    · split at hs
      · exact Blocks.frame (c := { c with timer := false }) ⟨h.host, h.freed, h.look⟩ (event_frame hs)
      · cases hs; exact ⟨h.host, h.freed, h.look⟩
  | dnsReads =>
    simp only [step] at hs
    split at hs
    · cases hs; exact h
    · split at hs
      · cases hs
      · cases hs; exact h
  | dnsDone ec ev =>
    simp only [step, dnsCb, resolveError] at hs
    split at hs
    · cases hs; exact h
    · split at hs
      · exact (Blocks.mk (c := { c with lookup := none }) h.host h.freed nofun).frame' (resolve_frame hs) rfl rfl rfl rfl
      · split at hs
        · exact (Blocks.mk (c := { c with lookup := none }) h.host h.freed nofun).frame' (resolve_frame hs) rfl rfl rfl rfl
        · exact (Blocks.mk (c := { c with lookup := none }) h.host h.freed nofun).frame' (event_frame hs) rfl rfl rfl rfl
  | stop =>
    simp only [step, stop] at hs
    exact h.frame' (resolve_frame hs) rfl rfl rfl rfl

/-- C79 (partial): if the name of the server is replaced only when no lookup is outstanding, nothing undefined
happens. -/
theorem C79_host_partial (ops : List Op)
    (h : ∀ pre d post, ops = pre ++ .setHost d :: post → ∀ c os, run env init pre = some (c, os) → c.lookup = none) :
    ∃ os, outputs env ops = some os := by
  have key : ∀ (ops : List Op) (c : Ctx), Inv c → Blocks c →
      (∀ pre d post, ops = pre ++ .setHost d :: post → ∀ c' os, run env c pre = some (c', os) → c'.lookup = none) →
      ∃ r, run env c ops = some r := by
    intro ops
    induction ops with
    | nil => intro c _ _ _; exact ⟨_, rfl⟩
    | cons op ops ih =>
      intro c hi hb hh
      obtain ⟨c1, o1, hs, he, -⟩ := step_eff (env := env) hi op (fun _ => hb.look)
      have hb1 := step_blocks hb (fun d hd => hh [] d ops (by rw [hd]; rfl) c [] rfl) hs
      obtain ⟨r, hr⟩ := ih c1 he.inv hb1 (fun pre d post heq c' os hr =>
        hh (op :: pre) d post (by rw [heq]; rfl) c' (o1 ++ os) (by simp [run, hs, hr]))
      exact ⟨(r.1, o1 ++ r.2), by simp [run, hs, hr]⟩
  obtain ⟨r, hr⟩ := key ops init inv_init ⟨nofun, nofun, nofun⟩ h
  exact ⟨r.2, by simp [outputs, hr]⟩

/-- Non-vacuity: the name is replaced between two analyses. -/
example : outputs someEnv [.sockets true true, .setHost true, .request 1 true, .dnsReads, .dnsDone (.other 4) .wait,
    .setHost true, .request 2 true, .dnsReads, .dnsDone .ok .failed] =
    some [.response 1 (some [1, 2]), .response 2 (some [1, 2])] := by decide +kernel

/-! ## C78: one send at a time -/

/-- C78 is violated: the answer of the server arrives before the platform has completed the send, the next
analysis starts, and a second packet is written to the buffer which is still being sent, with the same
completion event. -/
theorem C78_stun_violated :
    ∃ ops os, outputs someEnv ops = some os ∧ sent os = 2 ∧ ∀ ev, Op.sendDone ev ∉ ops :=
  ⟨[.sockets true true, .setHost true, .request 1 true, .dnsDone .ok (.sendPrimary (some 7)), .packet (.completed 5),
      .request 2 true, .dnsDone .ok (.sendPrimary (some 8))],
    [.send true 7, .response 1 (some [1, 2, 5]), .send true 8],
    by decide +kernel, rfl, by simp⟩

/-- C78 (partial): if no packet arrives and no lookup ends while a send is outstanding, there is never more than
one send. -/
theorem C78_stun_partial (ops : List Op)
    (h : ∀ pre op post, ops = pre ++ op :: post → (∃ ev, op = .packet ev) ∨ (∃ ec ev, op = .dnsDone ec ev) →
      ∀ c os, run env init pre = some (c, os) → c.sending = 0)
    {os : List Out} (ho : outputs env ops = some os) : sent os ≤ completedSends ops + 1 := by
  have key : ∀ (ops : List Op) (c c' : Ctx) (os : List Out), c.sending ≤ 1 → (c.timer = true → c.sending = 0) →
      (∀ pre op post, ops = pre ++ op :: post → (∃ ev, op = .packet ev) ∨ (∃ ec ev, op = .dnsDone ec ev) →
        ∀ c' os, run env c pre = some (c', os) → c'.sending = 0) →
      run env c ops = some (c', os) → c'.sending ≤ 1 ∧ sent os + c.sending ≤ completedSends ops + c'.sending := by
    intro ops
    induction ops with
    | nil => intro c c' os h1 _ _ hr; cases hr; exact ⟨h1, by simp [sent, completedSends]⟩
    | cons op ops ih =>
      intro c c' os h1 ht hh hr
      simp only [run, Option.bind_eq_bind] at hr
      cases hs : step env c op with
      | none => simp [hs] at hr
      | some r =>
        obtain ⟨c1, o1⟩ := r
        cases hr' : run env c1 ops with
        | none => simp [hs, hr'] at hr
        | some r =>
          obtain ⟨c2, o2⟩ := r
          simp only [hs, hr', Option.bind_some, Option.pure_def, Option.some.injEq, Prod.mk.injEq] at hr
          obtain ⟨rfl, rfl⟩ := hr
          have hc0 := fun hx => hh [] op ops rfl hx c [] rfl
          have hstep : c1.sending ≤ 1 ∧ (c1.timer = true → c1.sending = 0) ∧
              sent o1 + c.sending ≤ completedSends [op] + c1.sending := by
            cases op with
            | request r mem =>
              simp only [step, request] at hs
              have ha : (analyze c r).1.sending = c.sending ∧ (analyze c r).1.timer = c.timer := by
                unfold analyze
                split
                · exact ⟨rfl, rfl⟩
                · split
                  · exact ⟨rfl, rfl⟩
                  · dsimp only; split <;> exact ⟨rfl, rfl⟩
              have : c1.sending = c.sending ∧ c1.timer = c.timer ∧ sent o1 = 0 := by
                split at hs
                · cases hs; exact ⟨rfl, rfl, rfl⟩
                · split at hs
                  · rename_i heq
                    rw [heq] at ha
                    simp only [Option.some.injEq, Prod.mk.injEq] at hs
                    rw [← hs.1, ← hs.2]
                    exact ⟨ha.1, ha.2, rfl⟩
                  · rename_i ec hne heq
                    rw [heq] at ha
                    obtain ⟨eps, h4, -⟩ := completed_some (env := env) ec none (fun hx => absurd hx hne) r
                    rw [h4] at hs
                    simp only [Option.map_some, Option.some.injEq, Prod.mk.injEq] at hs
                    rw [← hs.1, ← hs.2]
                    exact ⟨ha.1, ha.2, rfl⟩
              rw [this.1, this.2.1, this.2.2]
              exact ⟨h1, ht, by omega⟩
            | setHost d =>
              simp only [step, Option.some.injEq, Prod.mk.injEq] at hs
              rw [← hs.1, ← hs.2]
              unfold setHost
              cases d <;> exact ⟨h1, ht, by simp [sent, completedSends]⟩
            | sockets p s => cases hs; exact ⟨h1, ht, by simp [sent, completedSends]⟩
            | packet ev =>
              have h0 := hc0 (.inl ⟨ev, rfl⟩)
              simp only [step] at hs
              split at hs
              · have f := event_frame hs
                have := f.sending; have := f.one; have := f.timer
                exact ⟨by omega, fun hx => by have := f.timer hx; omega, by omega⟩
              · cases hs; exact ⟨h1, ht, by simp [sent, completedSends]⟩
            | sendDone ev =>
              simp only [step] at hs
              split at hs
              · cases hs; exact ⟨h1, ht, by simp [sent, completedSends]⟩
              · split at hs
                · have f := event_frame hs
                  have h5 := f.sending; have := f.one
                  simp only at h5
                  simp only [completedSends]
                  exact ⟨by omega, fun hx => by have := f.timer hx; omega, by omega⟩
                · cases hs
                  exact ⟨by simp only; omega, fun _ => by simp only; omega, by simp only [sent, completedSends]; omega⟩
            | timeout ev =>
              simp only [step] at hs
              split at hs
              · cases hs; exact ⟨h1, ht, by simp [sent, completedSends]⟩
              · rename_i htm
                have h0 : c.sending = 0 := ht (by simpa using htm)
                split at hs
                · have f := event_frame hs
                  have h5 := f.sending; have := f.one
                  simp only at h5
                  exact ⟨by omega, fun hx => by have := f.timer hx; omega, by omega⟩
                · cases hs
                  exact ⟨h1, nofun, by simp [sent, completedSends]⟩
            | dnsReads =>
              simp only [step] at hs
              split at hs
              · cases hs; exact ⟨h1, ht, by simp [sent, completedSends]⟩
              · split at hs
                · cases hs
                · cases hs; exact ⟨h1, ht, by simp [sent, completedSends]⟩
            | dnsDone ec ev =>
              have h0 := hc0 (.inr ⟨ec, ev, rfl⟩)
              have hfin : ∀ {c0 : Ctx}, c0.sending = c.sending → Frame c0 c1 o1 → c1.sending ≤ 1 ∧
                  (c1.timer = true → c1.sending = 0) ∧ sent o1 + c.sending ≤ completedSends [Op.dnsDone ec ev] + c1.sending := by
                intro c0 hc f
                have := f.sending; have := f.one
                exact ⟨by omega, fun hx => by have := f.timer hx; omega, by omega⟩
              simp only [step, dnsCb, resolveError] at hs
              split at hs
              · cases hs; exact ⟨h1, ht, by simp [sent, completedSends]⟩
              · split at hs
                · exact hfin (by rfl) (resolve_frame hs)
                · split at hs
                  · exact hfin (by rfl) (resolve_frame hs)
                  · exact hfin (by rfl) (event_frame hs)
            | stop =>
              simp only [step, stop] at hs
              have f := resolve_frame hs
              have hc := answers_frame hs
              have h5 := f.sending
              have ht1 : c1.timer = c.timer := by rw [hc]
              have hs1 : c1.sending = c.sending := by rw [hc]
              simp only at h5
              exact ⟨by omega, fun hx => by rw [hs1]; exact ht (ht1 ▸ hx), by omega⟩
          obtain ⟨s1, s2, s3⟩ := hstep
          obtain ⟨i1, i2⟩ := ih c1 _ _ s1 s2 (fun pre o post heq hx c' os hr =>
            hh (op :: pre) o post (by rw [heq]; rfl) hx c' (o1 ++ os) (by simp [run, hs, hr])) hr'
          refine ⟨i1, ?_⟩
          have : completedSends (op :: ops) = completedSends [op] + completedSends ops := by
            cases op <;> simp [completedSends] <;> omega
          rw [sent_append, this]
          omega
  obtain ⟨c, hr⟩ := outputs_some ho
  have := key ops init c os (by simp [init]) (by simp [init]) h hr
  simp only [init] at this
  omega

/-- Non-vacuity: two queries, one after the other. -/
example : (outputs someEnv [.sockets true true, .setHost true, .request 1 true, .dnsDone .ok (.sendPrimary (some 7)),
      .sendDone .wait, .timeout (.sendPrimary (some 7)), .sendDone .wait, .packet (.completed 5)]).map sent = some 2 := by
  decide +kernel

end Verif.Core.Stun
