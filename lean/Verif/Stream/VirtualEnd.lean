import Verif.Stream.VirtualWait

/-!
# Virtual streams (lemmas about the end of the data, C46)
-/

namespace Verif.Stream.Virtual

open Verif.Stream (Ec)
open Spec

variable {E : Type}

theorem cResolveWrite_code {s : St E} {sd : Side} {e : E} {ec : Ec} {g : List UInt8}
    (h : Out.done sd e ec g ∈ (cResolveWrite s .ok).2) : ec = .ok := by
  have fin : ∀ {o : Option E} {sd'}, Out.done sd e ec g ∈ finish sd' o .ok → ec = .ok := by
    intro o sd' h
    obtain ⟨a, _, hx⟩ := mem_finish h
    cases hx; rfl
  have finW : ∀ {o : Option (Wrr E)} {sd'}, Out.done sd e ec g ∈ finishWr sd' o .ok → ec = .ok := by
    intro o sd' h
    obtain ⟨a, _, hx⟩ := mem_finishWr h
    cases hx; rfl
  have finR : ∀ {o : Option (Rdr E)} {sd'}, Out.done sd e ec g ∈ finishRd sd' o .ok → ec = .ok := by
    intro o sd' h
    obtain ⟨a, _, hx⟩ := mem_finishRd h
    cases hx; rfl
  rcases opt_cases s.sRd with hr | ⟨r, hr⟩
  · cases hc : s.cClosed <;> simp only [cResolveWrite, hr, hc, Bool.false_eq_true, if_false, if_true,
      List.mem_append, List.append_nil] at h
    · exact finW h
    · rcases h with h | h
      · exact finW h
      · exact fin h
  · cases hc : s.cClosed <;> cases ha : r.all <;> simp only [cResolveWrite, hr, hc, ha, Bool.false_and,
      Bool.and_false, Bool.and_self, Bool.false_eq_true, if_false, if_true, List.mem_append, List.append_nil,
      resolveRead] at h
    · exact finW h
    · exact finW h
    · rcases h with h | h
      · exact finW h
      · exact fin h
    · rcases h with (h | h) | h
      · exact finW h
      · exact finR h
      · exact fin h

theorem cDoWrite_code {s : St E} {sd : Side} {e : E} {ec : Ec} {g : List UInt8}
    (h : Out.done sd e ec g ∈ (cDoWrite s).2) : ec = .ok := by
  have rr : ∀ {s : St E}, Out.done sd e ec g ∈ (resolveRead s .ok).2 → ec = .ok := by
    intro s h
    obtain ⟨a, _, hx⟩ := mem_finishRd h
    cases hx; rfl
  unfold cDoWrite at h
  split at h
  · dsimp only at h
    split at h
    · exact rr h
    · split at h
      · exact cResolveWrite_code h
      · rcases List.mem_append.1 h with h | h
        · exact rr h
        · exact cResolveWrite_code h
  · simp at h

theorem cDoRead_code {s : St E} {sd : Side} {e : E} {ec : Ec} {g : List UInt8}
    (h : Out.done sd e ec g ∈ (cDoRead s).2) : ec = .ok := by
  rcases opt_cases s.cRd with hr | ⟨r, hr⟩
  · rw [cDoRead_idle s (.inl hr)] at h; simp at h
  rcases opt_cases s.sWr with hw | ⟨w, hw⟩
  · rw [cDoRead_idle s (.inr hw)] at h; simp at h
  have fin : ∀ {o : Option E} {sd'}, Out.done sd e ec g ∈ finish sd' o .ok → ec = .ok := by
    intro o sd' h
    obtain ⟨a, _, hx⟩ := mem_finish h
    cases hx; rfl
  rcases cDoRead_cases s r w hr hw with ⟨_, e⟩ | ⟨_, _, e⟩ | ⟨_, _, e⟩ <;> rw [e] at h
  · simp at h; exact h.2.2.1
  · simp only [List.mem_append, List.mem_singleton] at h
    rcases h with h | h
    · cases h; rfl
    · split at h
      · exact fin h
      · simp at h
  · simp only [List.mem_append, List.mem_cons, List.not_mem_nil, or_false] at h
    rcases h with (h | h) | h
    · cases h; rfl
    · cases h; rfl
    · split at h
      · exact fin h
      · simp at h

/-- When the device's application is told that the data has ended. -/
theorem step_eof_server {s : St E} {aC dS aS dC : List UInt8} (hd : Data s aC dS aS dC) {op : Op E} {e : E}
    {g : List UInt8} (h : Out.done .server e .eof g ∈ (step s op).2) :
    (step s op).1.sRd = none ∧ (step s op).1.cWr = s.cWr ∧ (step s op).1.vstopped = false ∧
      (s.cWr = none ∨ ∃ n, op = .readAll e n) := by
  cases op with
  | accept a =>
    simp only [step, accept] at h
    split at h
    · simp at h
    · rcases List.mem_append.1 h with h | h
      · obtain ⟨b, _, hx⟩ := mem_finish h; cases hx
      · simp at h
  | readAll a n =>
    simp only [step, readAll] at h ⊢
    split at h
    · simp at h
    split at h
    · simp at h
    split at h
    · rename_i h1 h2 h3
      simp only [List.mem_singleton, Out.done.injEq, true_and] at h
      simp only [h1, h2, h3, Bool.false_eq_true, if_false, if_true]
      exact ⟨by simp_all, trivial, by simp_all, .inr ⟨n, by rw [h.1]⟩⟩
    · exact absurd (cDoWrite_code h) (by simp)
  | readSome a n =>
    simp only [step, readSome] at h ⊢
    split at h
    · simp at h
    split at h
    · simp at h
    split at h
    · rename_i h1 h2 h3
      simp only [h1, h2, h3, Bool.false_eq_true, if_false, if_true]
      exact ⟨by simp_all, trivial, by simp_all, .inl (by simp_all)⟩
    · exact absurd (cDoWrite_code h) (by simp)
  | write a d =>
    simp only [step, write] at h
    split at h
    · simp at h
    split at h
    · simp at h
    split at h
    · simp at h
    · exact absurd (cDoRead_code h) (by simp)
  | close a =>
    simp only [step, close] at h
    split at h
    · simp at h
    split at h
    · simp at h
    split at h
    · simp at h
    · rcases List.mem_append.1 h with h | h
      · obtain ⟨b, _, hx⟩ := mem_finishRd h; cases hx
      · obtain ⟨b, _, hx⟩ := mem_finish h; cases hx
  | stop =>
    simp only [step, stop] at h
    split at h
    · simp at h
    · simp only [List.mem_append] at h
      rcases h with (h | h) | h
      · obtain ⟨b, _, hx⟩ := mem_finishRd h; cases hx
      · obtain ⟨b, _, hx⟩ := mem_finishWr h; cases hx
      · obtain ⟨b, _, hx⟩ := mem_finish h; cases hx
  | cReadAll a n =>
    simp only [step, cReadAll] at h
    split at h
    · simp at h
    split at h
    · simp at h
    · exact absurd (cDoRead_code h) (by simp)
  | cReadSome a n =>
    simp only [step, cReadSome] at h
    split at h
    · simp at h
    split at h
    · simp at h
    · exact absurd (cDoRead_code h) (by simp)
  | cWrite a d =>
    simp only [step, cWrite] at h
    split at h
    · simp at h
    split at h
    · simp at h
    split at h
    · simp at h
    · exact absurd (cDoWrite_code h) (by simp)
  | cClose a =>
    simp only [step, cClose] at h ⊢
    split at h
    · simp at h
    · rename_i hw
      rcases List.mem_append.1 h with h | h
      · obtain ⟨r, hr, hx⟩ := mem_finishRd h
        have hv : s.vstopped = false := by
          cases hv : s.vstopped with
          | false => rfl
          | true => have := (hd.vst hv).2.2.1; simp_all
        simp only [hw, Bool.false_eq_true, if_false, resolveRead]
        exact ⟨trivial, trivial, hv, .inl (by simpa using hw)⟩
      · simp at h
  | cStop =>
    simp only [step, cStop] at h
    split at h
    · simp at h
    · simp only [List.mem_append] at h
      rcases h with ((((h | h) | h) | h) | h) | h
      · obtain ⟨b, _, hx⟩ := mem_finish h; cases hx
      · obtain ⟨b, _, hx⟩ := mem_finishRd h; cases hx
      · obtain ⟨b, _, hx⟩ := mem_finishWr h; cases hx
      · obtain ⟨b, _, hx⟩ := mem_finish h; cases hx
      · obtain ⟨b, _, hx⟩ := mem_finishRd h; cases hx
      · obtain ⟨b, _, hx⟩ := mem_finishWr h; cases hx

/-- When the client is told that the data has ended. -/
theorem step_eof_client {s : St E} {aC dS aS dC : List UInt8} (hd : Data s aC dS aS dC) {op : Op E} {e : E}
    {g : List UInt8} (h : Out.done .client e .eof g ∈ (step s op).2) :
    (step s op).1.cRd = none ∧ (step s op).1.sWr = s.sWr ∧ (step s op).1.stopped = s.stopped ∧
      (step s op).1.vstopped = s.vstopped ∧ (step s op).1.sClosed = true := by
  cases op with
  | accept a =>
    simp only [step, accept] at h
    split at h
    · simp at h
    · rcases List.mem_append.1 h with h | h
      · obtain ⟨b, _, hx⟩ := mem_finish h; cases hx
      · simp at h
  | readAll a n =>
    simp only [step, readAll] at h
    split at h
    · simp at h
    split at h
    · simp at h
    split at h
    · simp at h
    · exact absurd (cDoWrite_code h) (by simp)
  | readSome a n =>
    simp only [step, readSome] at h
    split at h
    · simp at h
    split at h
    · simp at h
    split at h
    · simp at h
    · exact absurd (cDoWrite_code h) (by simp)
  | write a d =>
    simp only [step, write] at h
    split at h
    · simp at h
    split at h
    · simp at h
    split at h
    · simp at h
    · exact absurd (cDoRead_code h) (by simp)
  | close a =>
    simp only [step, close] at h ⊢
    split at h
    · simp at h
    split at h
    · simp at h
    split at h
    · simp at h
    · rename_i h1 h2 h3
      rcases List.mem_append.1 h with h | h
      · simp only [h1, h2, h3, Bool.false_eq_true, if_false, cResolveRead]
        simp
      · obtain ⟨b, _, hx⟩ := mem_finish h; cases hx
  | stop =>
    simp only [step, stop] at h
    split at h
    · simp at h
    · simp only [List.mem_append] at h
      rcases h with (h | h) | h
      · obtain ⟨b, _, hx⟩ := mem_finishRd h; cases hx
      · obtain ⟨b, _, hx⟩ := mem_finishWr h; cases hx
      · obtain ⟨b, _, hx⟩ := mem_finish h; cases hx
  | cReadAll a n =>
    simp only [step, cReadAll] at h ⊢
    split at h
    · simp at h
    split at h
    · rename_i h1 h2
      simp only [h1, h2, Bool.false_eq_true, if_false, if_true]
      exact ⟨by simp_all, trivial, trivial, trivial, trivial⟩
    · exact absurd (cDoRead_code h) (by simp)
  | cReadSome a n =>
    simp only [step, cReadSome] at h ⊢
    split at h
    · simp at h
    split at h
    · rename_i h1 h2
      simp only [h1, h2, Bool.false_eq_true, if_false, if_true]
      exact ⟨by simp_all, trivial, trivial, trivial, trivial⟩
    · exact absurd (cDoRead_code h) (by simp)
  | cWrite a d =>
    simp only [step, cWrite] at h
    split at h
    · simp at h
    split at h
    · simp at h
    split at h
    · simp at h
    · exact absurd (cDoWrite_code h) (by simp)
  | cClose a =>
    simp only [step, cClose] at h
    split at h
    · simp at h
    · rcases List.mem_append.1 h with h | h
      · obtain ⟨r, hr, hx⟩ := mem_finishRd h; cases hx
      · simp at h
  | cStop =>
    simp only [step, cStop] at h
    split at h
    · simp at h
    · simp only [List.mem_append] at h
      rcases h with ((((h | h) | h) | h) | h) | h
      · obtain ⟨b, _, hx⟩ := mem_finish h; cases hx
      · obtain ⟨b, _, hx⟩ := mem_finishRd h; cases hx
      · obtain ⟨b, _, hx⟩ := mem_finishWr h; cases hx
      · obtain ⟨b, _, hx⟩ := mem_finish h; cases hx
      · obtain ⟨b, _, hx⟩ := mem_finishRd h; cases hx
      · obtain ⟨b, _, hx⟩ := mem_finishWr h; cases hx

/-- An operation of this name which is no close. -/
def Other (ops : List (Op E)) (x : Side × E) : Prop := ∃ op ∈ ops, who op = some x ∧ closeOf op = none

theorem other_rd {ops : List (Op E)} {sd : Side} {r : Rdr E} (h : RdOf ops sd r) : Other ops (sd, r.ev) := by
  obtain ⟨op, ho, hr⟩ := h
  refine ⟨op, ho, readOf_who hr, ?_⟩
  cases op <;> simp_all [readOf, closeOf]

/-- When a close of the client succeeds, nothing waits in its direction. -/
theorem step_close_client {s : St E} {ops : List (Op E)} {e₀ : E} (hs : Slots s ops e₀) {op : Op E}
    (ho : op ∈ ops) {e : E} {g : List UInt8} (h : Out.done .client e .ok g ∈ (step s op).2) :
    ((step s op).1.sRd = none ∧ (step s op).1.cWr = none) ∨ e = e₀ ∨ Other ops (.client, e) := by
  have dw : ∀ {s : St E}, Out.done .client e .ok g ∈ (cDoWrite s).2 → Slots s ops e₀ →
      (∀ r, s.sRd = some r → s.cClosed = true → r.all = false) →
      ((cDoWrite s).1.sRd = none ∧ (cDoWrite s).1.cWr = none) ∨ e = e₀ ∨ Other ops (.client, e) := by
    intro s h hs hc
    rcases opt_cases s.sRd with hr | ⟨r, hr⟩
    · rw [cDoWrite_idle s (.inl hr)] at h; simp at h
    rcases opt_cases s.cWr with hw | ⟨w, hw⟩
    · rw [cDoWrite_idle s (.inr hw)] at h; simp at h
    obtain ⟨d, hW⟩ := hs.cWr w hw
    rcases cDoWrite_cases s r w hr hw (hc r hr) with ⟨h1, q⟩ | ⟨h1, h2, h3, q⟩ | ⟨h1, h2, q⟩ <;> rw [q] at h ⊢
    · simp at h
    · simp only [List.mem_singleton, Out.done.injEq, true_and] at h
      rw [h.1]
      exact .inr (.inr ⟨_, hW, rfl, rfl⟩)
    · exact .inl ⟨rfl, rfl⟩
  have dr : ∀ {s : St E}, Out.done .client e .ok g ∈ (cDoRead s).2 → Slots s ops e₀ →
      Other ops (.client, e) := by
    intro s h hs
    rcases opt_cases s.cRd with hr | ⟨r, hr⟩
    · rw [cDoRead_idle s (.inl hr)] at h; simp at h
    rcases opt_cases s.sWr with hw | ⟨w, hw⟩
    · rw [cDoRead_idle s (.inr hw)] at h; simp at h
    have hR := other_rd (hs.cRd r hr)
    rcases cDoRead_cases s r w hr hw with ⟨h1, q⟩ | ⟨h1, h2, q⟩ | ⟨h1, h2, q⟩ <;> rw [q] at h
    · simp only [List.mem_singleton, Out.done.injEq, true_and] at h
      rw [h.1]; exact hR
    · simp only [List.mem_append, List.mem_singleton, Out.done.injEq, reduceCtorEq, false_and, false_or] at h
      split at h
      · obtain ⟨b, _, hx⟩ := mem_finish h; cases hx
      · simp at h
    · simp only [List.mem_append, List.mem_cons, List.not_mem_nil, or_false, Out.done.injEq, reduceCtorEq,
        false_and, false_or, true_and] at h
      rcases h with h | h
      · rw [h.1]; exact hR
      · split at h
        · obtain ⟨b, _, hx⟩ := mem_finish h; cases hx
        · simp at h
  cases op with
  | accept a =>
    simp only [step, accept] at h ⊢
    split at h
    · simp at h
    · rcases List.mem_append.1 h with h | h
      · obtain ⟨b, hb, hx⟩ := mem_finish h
        cases hx
        exact .inr (.inl (hs.opened _ hb))
      · simp at h
  | readAll a n =>
    simp only [step, readAll] at h ⊢
    split at h
    · simp at h
    split at h
    · simp at h
    split at h
    · simp at h
    · rename_i h1 h2 h3
      rw [if_neg h1, if_neg h2, if_neg h3]
      refine dw h ⟨?_, hs.cRd, hs.sWr, hs.cWr, hs.sCl, hs.cCl, hs.opened⟩ (by simp_all)
      intro r hr
      simp only [Option.some.injEq] at hr
      exact ⟨_, ho, by rw [← hr]; rfl⟩
  | readSome a n =>
    simp only [step, readSome] at h ⊢
    split at h
    · simp at h
    split at h
    · simp at h
    split at h
    · simp at h
    · rename_i h1 h2 h3
      rw [if_neg h1, if_neg h2, if_neg h3]
      refine dw h ⟨?_, hs.cRd, hs.sWr, hs.cWr, hs.sCl, hs.cCl, hs.opened⟩ ?_
      · intro r hr
        simp only [Option.some.injEq] at hr
        exact ⟨_, ho, by rw [← hr]; rfl⟩
      · intro r hr _
        simp only [Option.some.injEq] at hr
        rw [← hr]
  | write a d =>
    simp only [step, write] at h ⊢
    split at h
    · simp at h
    split at h
    · simp at h
    split at h
    · simp at h
    · refine .inr (.inr (dr h ⟨hs.sRd, hs.cRd, ?_, hs.cWr, hs.sCl, hs.cCl, hs.opened⟩))
      intro w hw
      simp only [Option.some.injEq] at hw
      exact ⟨d, by rw [← hw]; exact ho⟩
  | close a =>
    simp only [step, close] at h
    split at h
    · simp at h
    split at h
    · simp at h
    split at h
    · simp at h
    · rcases List.mem_append.1 h with h | h
      · obtain ⟨b, _, hx⟩ := mem_finishRd h; cases hx
      · obtain ⟨b, _, hx⟩ := mem_finish h; cases hx
  | stop =>
    simp only [step, stop] at h
    split at h
    · simp at h
    · simp only [List.mem_append] at h
      rcases h with (h | h) | h
      · obtain ⟨b, _, hx⟩ := mem_finishRd h; cases hx
      · obtain ⟨b, _, hx⟩ := mem_finishWr h; cases hx
      · obtain ⟨b, _, hx⟩ := mem_finish h; cases hx
  | cReadAll a n =>
    simp only [step, cReadAll] at h
    split at h
    · simp at h
    split at h
    · simp at h
    · refine .inr (.inr (dr h ⟨hs.sRd, ?_, hs.sWr, hs.cWr, hs.sCl, hs.cCl, hs.opened⟩))
      intro r hr
      simp only [Option.some.injEq] at hr
      exact ⟨_, ho, by rw [← hr]; rfl⟩
  | cReadSome a n =>
    simp only [step, cReadSome] at h
    split at h
    · simp at h
    split at h
    · simp at h
    · refine .inr (.inr (dr h ⟨hs.sRd, ?_, hs.sWr, hs.cWr, hs.sCl, hs.cCl, hs.opened⟩))
      intro r hr
      simp only [Option.some.injEq] at hr
      exact ⟨_, ho, by rw [← hr]; rfl⟩
  | cWrite a d =>
    simp only [step, cWrite] at h ⊢
    split at h
    · simp at h
    split at h
    · simp at h
    split at h
    · simp at h
    · rename_i h1 h2 h3
      rw [if_neg h1, if_neg h2, if_neg h3]
      refine dw h ⟨hs.sRd, hs.cRd, hs.sWr, ?_, hs.sCl, hs.cCl, hs.opened⟩ (by simp_all)
      intro w hw
      simp only [Option.some.injEq] at hw
      exact ⟨d, by rw [← hw]; exact ho⟩
  | cClose a =>
    simp only [step, cClose] at h ⊢
    split at h
    · simp at h
    · rename_i hw
      simp only [hw, Bool.false_eq_true, if_false, resolveRead]
      exact .inl ⟨trivial, by simpa using hw⟩
  | cStop =>
    simp only [step, cStop] at h
    split at h
    · simp at h
    · simp only [List.mem_append] at h
      rcases h with ((((h | h) | h) | h) | h) | h
      · obtain ⟨b, _, hx⟩ := mem_finish h; cases hx
      · obtain ⟨b, _, hx⟩ := mem_finishRd h; cases hx
      · obtain ⟨b, _, hx⟩ := mem_finishWr h; cases hx
      · obtain ⟨b, _, hx⟩ := mem_finish h; cases hx
      · obtain ⟨b, _, hx⟩ := mem_finishRd h; cases hx
      · obtain ⟨b, _, hx⟩ := mem_finishWr h; cases hx

/-- When a close of the device's application succeeds, nothing waits in its direction. -/
theorem step_close_server {s : St E} {ops : List (Op E)} {e₀ : E} (hs : Slots s ops e₀) {op : Op E}
    (ho : op ∈ ops) {e : E} {g : List UInt8} (h : Out.done .server e .ok g ∈ (step s op).2) :
    ((step s op).1.cRd = none ∧ (step s op).1.sWr = none ∧ (step s op).1.stopped = false ∧
      (step s op).1.vstopped = false) ∨ Other ops (.server, e) := by
  have dw : ∀ {s : St E}, Out.done .server e .ok g ∈ (cDoWrite s).2 → Slots s ops e₀ →
      (∀ r, s.sRd = some r → s.cClosed = true → r.all = false) → Other ops (.server, e) := by
    intro s h hs hc
    rcases opt_cases s.sRd with hr | ⟨r, hr⟩
    · rw [cDoWrite_idle s (.inl hr)] at h; simp at h
    rcases opt_cases s.cWr with hw | ⟨w, hw⟩
    · rw [cDoWrite_idle s (.inr hw)] at h; simp at h
    have hR := other_rd (hs.sRd r hr)
    rcases cDoWrite_cases s r w hr hw (hc r hr) with ⟨h1, q⟩ | ⟨h1, h2, h3, q⟩ | ⟨h1, h2, q⟩ <;> rw [q] at h
    · simp only [List.mem_singleton, Out.done.injEq, true_and] at h
      rw [h.1]; exact hR
    · simp at h
    · simp only [List.mem_append, List.mem_cons, List.not_mem_nil, or_false, Out.done.injEq, reduceCtorEq,
        false_and, or_false, true_and] at h
      rcases h with h | h
      · rw [h.1]; exact hR
      · split at h
        · obtain ⟨b, _, hx⟩ := mem_finish h; cases hx
        · simp at h
  have dr : ∀ {s : St E}, Out.done .server e .ok g ∈ (cDoRead s).2 → Slots s ops e₀ → s.sClosed = false →
      Other ops (.server, e) := by
    intro s h hs hc
    rcases opt_cases s.cRd with hr | ⟨r, hr⟩
    · rw [cDoRead_idle s (.inl hr)] at h; simp at h
    rcases opt_cases s.sWr with hw | ⟨w, hw⟩
    · rw [cDoRead_idle s (.inr hw)] at h; simp at h
    obtain ⟨d, hW⟩ := hs.sWr w hw
    have hO : Other ops (.server, w.ev) := ⟨_, hW, rfl, rfl⟩
    rcases cDoRead_cases s r w hr hw with ⟨h1, q⟩ | ⟨h1, h2, q⟩ | ⟨h1, h2, q⟩ <;> rw [q] at h
    · simp at h
    · simp only [hc, Bool.false_eq_true, if_false, List.append_nil, List.mem_singleton, Out.done.injEq,
        true_and] at h
      rw [h.1]; exact hO
    · simp only [hc, Bool.false_eq_true, if_false, List.append_nil, List.mem_cons, List.not_mem_nil, or_false,
        Out.done.injEq, reduceCtorEq, false_and, true_and] at h
      rw [h.1]; exact hO
  cases op with
  | accept a =>
    simp only [step, accept] at h ⊢
    split at h
    · simp at h
    · rcases List.mem_append.1 h with h | h
      · obtain ⟨b, hb, hx⟩ := mem_finish h; cases hx
      · simp only [List.mem_singleton, Out.done.injEq, true_and] at h
        rw [h.1]
        exact .inr ⟨_, ho, rfl, rfl⟩
  | readAll a n =>
    simp only [step, readAll] at h ⊢
    split at h
    · simp at h
    split at h
    · simp at h
    split at h
    · simp at h
    · refine .inr (dw h ⟨?_, hs.cRd, hs.sWr, hs.cWr, hs.sCl, hs.cCl, hs.opened⟩ (by simp_all))
      intro r hr
      simp only [Option.some.injEq] at hr
      exact ⟨_, ho, by rw [← hr]; rfl⟩
  | readSome a n =>
    simp only [step, readSome] at h ⊢
    split at h
    · simp at h
    split at h
    · simp at h
    split at h
    · simp at h
    · refine .inr (dw h ⟨?_, hs.cRd, hs.sWr, hs.cWr, hs.sCl, hs.cCl, hs.opened⟩ ?_)
      · intro r hr
        simp only [Option.some.injEq] at hr
        exact ⟨_, ho, by rw [← hr]; rfl⟩
      · intro r hr _
        simp only [Option.some.injEq] at hr
        rw [← hr]
  | write a d =>
    simp only [step, write] at h ⊢
    split at h
    · simp at h
    split at h
    · simp at h
    split at h
    · simp at h
    · refine .inr (dr h ⟨hs.sRd, hs.cRd, ?_, hs.cWr, hs.sCl, hs.cCl, hs.opened⟩ (by simp_all))
      intro w hw
      simp only [Option.some.injEq] at hw
      exact ⟨d, by rw [← hw]; exact ho⟩
  | close a =>
    simp only [step, close] at h ⊢
    split at h
    · simp at h
    split at h
    · simp at h
    split at h
    · simp at h
    · rename_i h1 h2 h3
      simp only [h1, h2, h3, Bool.false_eq_true, if_false, cResolveRead]
      exact .inl ⟨trivial, by simpa using h3, by simp_all, by simp_all⟩
  | stop =>
    simp only [step, stop] at h
    split at h
    · simp at h
    · simp only [List.mem_append] at h
      rcases h with (h | h) | h
      · obtain ⟨b, _, hx⟩ := mem_finishRd h; cases hx
      · obtain ⟨b, _, hx⟩ := mem_finishWr h; cases hx
      · obtain ⟨b, _, hx⟩ := mem_finish h; cases hx
  | cReadAll a n =>
    simp only [step, cReadAll] at h
    split at h
    · simp at h
    split at h
    · simp at h
    · refine .inr (dr h ⟨hs.sRd, ?_, hs.sWr, hs.cWr, hs.sCl, hs.cCl, hs.opened⟩ (by simp_all))
      intro r hr
      simp only [Option.some.injEq] at hr
      exact ⟨_, ho, by rw [← hr]; rfl⟩
  | cReadSome a n =>
    simp only [step, cReadSome] at h
    split at h
    · simp at h
    split at h
    · simp at h
    · refine .inr (dr h ⟨hs.sRd, ?_, hs.sWr, hs.cWr, hs.sCl, hs.cCl, hs.opened⟩ (by simp_all))
      intro r hr
      simp only [Option.some.injEq] at hr
      exact ⟨_, ho, by rw [← hr]; rfl⟩
  | cWrite a d =>
    simp only [step, cWrite] at h ⊢
    split at h
    · simp at h
    split at h
    · simp at h
    split at h
    · simp at h
    · refine .inr (dw h ⟨hs.sRd, hs.cRd, hs.sWr, ?_, hs.sCl, hs.cCl, hs.opened⟩ (by simp_all))
      intro w hw
      simp only [Option.some.injEq] at hw
      exact ⟨d, by rw [← hw]; exact ho⟩
  | cClose a =>
    simp only [step, cClose] at h ⊢
    split at h
    · simp at h
    · rcases List.mem_append.1 h with h | h
      · obtain ⟨b, _, hx⟩ := mem_finishRd h; cases hx
      · simp at h
  | cStop =>
    simp only [step, cStop] at h
    split at h
    · simp at h
    · simp only [List.mem_append] at h
      rcases h with ((((h | h) | h) | h) | h) | h
      · obtain ⟨b, _, hx⟩ := mem_finish h; cases hx
      · obtain ⟨b, _, hx⟩ := mem_finishRd h; cases hx
      · obtain ⟨b, _, hx⟩ := mem_finishWr h; cases hx
      · obtain ⟨b, _, hx⟩ := mem_finish h; cases hx
      · obtain ⟨b, _, hx⟩ := mem_finishRd h; cases hx
      · obtain ⟨b, _, hx⟩ := mem_finishWr h; cases hx

/-! ### aborting -/

theorem cDoWrite_flags (s : St E) :
    (cDoWrite s).1.stopped = s.stopped ∧ (cDoWrite s).1.vstopped = s.vstopped := by
  rcases opt_cases s.sRd with hr | ⟨r, hr⟩
  · rw [cDoWrite_idle s (.inl hr)]; exact ⟨rfl, rfl⟩
  rcases opt_cases s.cWr with hw | ⟨w, hw⟩
  · rw [cDoWrite_idle s (.inr hw)]; exact ⟨rfl, rfl⟩
  have rw' : ∀ s : St E, (cResolveWrite s .ok).1.stopped = s.stopped ∧
      (cResolveWrite s .ok).1.vstopped = s.vstopped := by
    intro s
    rcases opt_cases s.sRd with hr | ⟨r, hr⟩
    · cases hc : s.cClosed <;> simp [cResolveWrite, hr, hc]
    · cases hc : s.cClosed <;> cases ha : r.all <;> simp [cResolveWrite, hr, hc, ha, resolveRead]
  simp only [cDoWrite, hr, hw]
  split
  · exact ⟨rfl, rfl⟩
  · split
    · rw [(rw' _).1, (rw' _).2]; exact ⟨rfl, rfl⟩
    · rw [(rw' _).1, (rw' _).2]; exact ⟨rfl, rfl⟩

theorem cDoRead_flags (s : St E) :
    (cDoRead s).1.stopped = s.stopped ∧ (cDoRead s).1.vstopped = s.vstopped := by
  rcases opt_cases s.cRd with hr | ⟨r, hr⟩
  · rw [cDoRead_idle s (.inl hr)]; exact ⟨rfl, rfl⟩
  rcases opt_cases s.sWr with hw | ⟨w, hw⟩
  · rw [cDoRead_idle s (.inr hw)]; exact ⟨rfl, rfl⟩
  rcases cDoRead_cases s r w hr hw with ⟨_, q⟩ | ⟨_, _, q⟩ | ⟨_, _, q⟩ <;> rw [q] <;> exact ⟨rfl, rfl⟩

/-- Which operations abort. -/
theorem step_flags (s : St E) (op : Op E) :
    ((step s op).1.stopped = true ↔ s.stopped = true ∨ op = .stop) ∧
      ((step s op).1.vstopped = true ↔ s.vstopped = true ∨ op = .cStop) := by
  cases op with
  | accept a => simp only [step, accept]; split <;> simp
  | readAll a n =>
    simp only [step, readAll]
    split; · simp
    split; · simp
    split; · simp
    simp [cDoWrite_flags]
  | readSome a n =>
    simp only [step, readSome]
    split; · simp
    split; · simp
    split; · simp
    simp [cDoWrite_flags]
  | write a d =>
    simp only [step, write]
    split; · simp
    split; · simp
    split; · simp
    simp [cDoRead_flags]
  | close a =>
    simp only [step, close]
    split; · simp
    split; · simp
    split <;> simp [cResolveRead]
  | stop => simp only [step, stop]; split <;> simp_all
  | cReadAll a n =>
    simp only [step, cReadAll]
    split; · simp
    split; · simp
    simp [cDoRead_flags]
  | cReadSome a n =>
    simp only [step, cReadSome]
    split; · simp
    split; · simp
    simp [cDoRead_flags]
  | cWrite a d =>
    simp only [step, cWrite]
    split; · simp
    split; · simp
    split; · simp
    simp [cDoWrite_flags]
  | cClose a => simp only [step, cClose]; split <;> simp [resolveRead]
  | cStop => simp only [step, cStop]; split <;> simp_all

theorem run_flags (e₀ : E) (ops : List (Op E)) :
    ((run (St.init e₀) ops).1.stopped = true ↔ Op.stop ∈ ops) ∧
      ((run (St.init e₀) ops).1.vstopped = true ↔ Op.cStop ∈ ops) := by
  induction ops using run_ind with
  | h0 => simp [St.init]
  | h1 ops op ih =>
    rw [run_snoc]
    have := step_flags (run (St.init e₀) ops).1 op
    rw [this.1, this.2, ih.1, ih.2]
    simp only [List.mem_append, List.mem_singleton]
    constructor <;> constructor <;> rintro (h | h) <;> simp [h]

/-! ### what waits for ever -/

/-- A write of the client does not touch the other direction. -/
theorem cDoWrite_server (s : St E) :
    (cDoWrite s).1.sWr = s.sWr ∧ (cDoWrite s).1.sClosed = s.sClosed ∧ (cDoWrite s).1.cRd = s.cRd ∧
      (cDoWrite s).1.sCl = s.sCl := by
  have rw' : ∀ s : St E, (cResolveWrite s .ok).1.sWr = s.sWr ∧ (cResolveWrite s .ok).1.sClosed = s.sClosed ∧
      (cResolveWrite s .ok).1.cRd = s.cRd ∧ (cResolveWrite s .ok).1.sCl = s.sCl := by
    intro s
    rcases opt_cases s.sRd with hr | ⟨r, hr⟩
    · cases hc : s.cClosed <;> simp [cResolveWrite, hr, hc]
    · cases hc : s.cClosed <;> cases ha : r.all <;> simp [cResolveWrite, hr, hc, ha, resolveRead]
  unfold cDoWrite
  split
  · dsimp only
    split
    · exact ⟨rfl, rfl, rfl, rfl⟩
    · split
      · rw [(rw' _).1, (rw' _).2.1, (rw' _).2.2.1, (rw' _).2.2.2]; exact ⟨rfl, rfl, rfl, rfl⟩
      · rw [(rw' _).1, (rw' _).2.1, (rw' _).2.2.1, (rw' _).2.2.2]; exact ⟨rfl, rfl, rfl, rfl⟩
  · exact ⟨rfl, rfl, rfl, rfl⟩

/-- The application has closed while its write waits: only aborting changes that. -/
theorem step_closed (s : St E) (hw : s.sWr.isSome = true) (hc : s.sClosed = true) (hr : s.cRd = none)
    (hl : s.sCl.isSome = true) (op : Op E) (h1 : op ≠ .stop) (h2 : op ≠ .cStop) :
    (step s op).1.sWr = s.sWr ∧ (step s op).1.sClosed = s.sClosed ∧ (step s op).1.cRd = s.cRd ∧
      (step s op).1.sCl = s.sCl := by
  cases op with
  | accept a => simp only [step, accept]; split <;> exact ⟨rfl, rfl, rfl, rfl⟩
  | readAll a n =>
    simp only [step, readAll]
    split; · exact ⟨rfl, rfl, rfl, rfl⟩
    split; · exact ⟨rfl, rfl, rfl, rfl⟩
    split; · exact ⟨rfl, rfl, rfl, rfl⟩
    exact cDoWrite_server _
  | readSome a n =>
    simp only [step, readSome]
    split; · exact ⟨rfl, rfl, rfl, rfl⟩
    split; · exact ⟨rfl, rfl, rfl, rfl⟩
    split; · exact ⟨rfl, rfl, rfl, rfl⟩
    exact cDoWrite_server _
  | write a d =>
    simp only [step, write]
    split; · exact ⟨rfl, rfl, rfl, rfl⟩
    exact ⟨rfl, rfl, rfl, rfl⟩
  | close a =>
    simp only [step, close]
    split; · exact ⟨rfl, rfl, rfl, rfl⟩
    exact ⟨rfl, rfl, rfl, rfl⟩
  | stop => exact absurd rfl h1
  | cReadAll a n =>
    simp only [step, cReadAll]
    rw [if_neg (by simp [hr]), if_pos hc]; exact ⟨rfl, rfl, rfl, rfl⟩
  | cReadSome a n =>
    simp only [step, cReadSome]
    rw [if_neg (by simp [hr]), if_pos hc]; exact ⟨rfl, rfl, rfl, rfl⟩
  | cWrite a d =>
    simp only [step, cWrite]
    split; · exact ⟨rfl, rfl, rfl, rfl⟩
    split; · exact ⟨rfl, rfl, rfl, rfl⟩
    split; · exact ⟨rfl, rfl, rfl, rfl⟩
    exact cDoWrite_server _
  | cClose a =>
    simp only [step, cClose]
    split <;> exact ⟨rfl, rfl, rfl, rfl⟩
  | cStop => exact absurd rfl h2

theorem run_closed (s : St E) (ops : List (Op E)) (hw : s.sWr.isSome = true) (hc : s.sClosed = true)
    (hr : s.cRd = none) (hl : s.sCl.isSome = true) (h1 : Op.stop ∉ ops) (h2 : Op.cStop ∉ ops) :
    (run s ops).1.sWr = s.sWr ∧ (run s ops).1.sCl = s.sCl := by
  induction ops generalizing s with
  | nil => exact ⟨rfl, rfl⟩
  | cons op ops ih =>
    obtain ⟨k1, k2, k3, k4⟩ := step_closed s hw hc hr hl op (fun h => h1 (by simp [h])) (fun h => h2 (by simp [h]))
    have := ih (step s op).1 (by rw [k1]; exact hw) (by rw [k2]; exact hc) (by rw [k3]; exact hr)
      (by rw [k4]; exact hl) (fun h => h1 (by simp [h])) (fun h => h2 (by simp [h]))
    rw [run_cons]
    exact ⟨this.1.trans k1, this.2.trans k4⟩

/-- A read of the client after an end has aborted: nothing completes it, unless the client aborts for the first
time. -/
theorem step_dead (s : St E) (hst : s.stopped = true ∨ s.vstopped = true) (hw : s.sWr = none)
    (hc : s.sClosed = false) (op : Op E) (h2 : s.vstopped = true ∨ op ≠ .cStop) (hr : s.cRd.isSome = true) :
    ((step s op).1.stopped = true ∨ (step s op).1.vstopped = true) ∧ (step s op).1.sWr = none ∧
      (step s op).1.sClosed = false ∧ (step s op).1.cRd = s.cRd ∧
      (s.vstopped = true → (step s op).1.vstopped = true) := by
  have hor : (s.stopped || s.vstopped) = true := by simpa using hst
  cases op with
  | accept a => simp only [step, accept, hor, if_true]; exact ⟨hst, hw, hc, trivial, id⟩
  | readAll a n => simp only [step, readAll, hor, if_true]; exact ⟨hst, hw, hc, trivial, id⟩
  | readSome a n => simp only [step, readSome, hor, if_true]; exact ⟨hst, hw, hc, trivial, id⟩
  | write a d => simp only [step, write, hor, if_true]; exact ⟨hst, hw, hc, trivial, id⟩
  | close a => simp only [step, close, hor, if_true]; exact ⟨hst, hw, hc, trivial, id⟩
  | stop => simp only [step, stop]; split <;> simp_all
  | cReadAll a n => simp only [step, cReadAll, hr, if_true]; exact ⟨hst, hw, hc, trivial, id⟩
  | cReadSome a n => simp only [step, cReadSome, hr, if_true]; exact ⟨hst, hw, hc, trivial, id⟩
  | cWrite a d => simp only [step, cWrite, hor, if_true]; exact ⟨hst, hw, hc, trivial, id⟩
  | cClose a => simp only [step, cClose]; split <;> exact ⟨hst, hw, hc, rfl, id⟩
  | cStop =>
    simp only [step, cStop]
    rcases h2 with h2 | h2
    · rw [if_pos h2]; exact ⟨hst, hw, hc, rfl, id⟩
    · exact absurd rfl h2

theorem run_dead (s : St E) (ops : List (Op E)) (hst : s.stopped = true ∨ s.vstopped = true) (hw : s.sWr = none)
    (hc : s.sClosed = false) (h2 : s.vstopped = true ∨ Op.cStop ∉ ops) (hr : s.cRd.isSome = true) :
    (run s ops).1.cRd = s.cRd := by
  induction ops generalizing s with
  | nil => rfl
  | cons op ops ih =>
    obtain ⟨k1, k2, k3, k4, k5⟩ := step_dead s hst hw hc op
      (h2.imp id fun h hh => h (by simp [hh])) hr
    rw [run_cons]
    refine (ih (step s op).1 k1 k2 k3 ?_ (by rw [k4]; exact hr)).trans k4
    exact h2.imp k5 fun h hh => h (by simp [hh])

end Verif.Stream.Virtual
