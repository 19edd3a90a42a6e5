import Verif.Stream.VirtualSpec

/-!
# Virtual streams (lemmas about completions, C46)
-/

namespace Verif.Stream.Virtual

open Verif.Stream (Ec)
open Spec

variable {E : Type}

@[simp] theorem run_nil (s : St E) : run s [] = (s, []) := rfl

theorem run_cons (s : St E) (op : Op E) (ops : List (Op E)) :
    run s (op :: ops) = ((run (step s op).1 ops).1, (step s op).2 ++ (run (step s op).1 ops).2) := rfl

theorem run_append (s : St E) (a b : List (Op E)) :
    run s (a ++ b) = ((run (run s a).1 b).1, (run s a).2 ++ (run (run s a).1 b).2) := by
  induction a generalizing s with
  | nil => simp
  | cons op a ih => simp [run_cons, ih]

theorem run_snoc (s : St E) (a : List (Op E)) (op : Op E) :
    run s (a ++ [op]) = ((step (run s a).1 op).1, (run s a).2 ++ (step (run s a).1 op).2) := by
  simp [run_append, run_cons]

/-- Induction over histories from the end. -/
theorem run_ind {P : List (Op E) → Prop} (h0 : P []) (h1 : ∀ ops op, P ops → P (ops ++ [op])) :
    ∀ ops, P ops := by
  intro ops
  rw [← List.reverse_reverse ops]
  induction ops.reverse with
  | nil => simpa using h0
  | cons a l ih => simpa using h1 _ a ih

/-! ### completions -/

@[simp] theorem completed_nil : completed ([] : List (Out E)) = [] := rfl

@[simp] theorem completed_cons (sd : Side) (e : E) (ec : Ec) (g : List UInt8) (os : List (Out E)) :
    completed (.done sd e ec g :: os) = (sd, e) :: completed os := rfl

@[simp] theorem completed_append (a b : List (Out E)) : completed (a ++ b) = completed a ++ completed b := by
  simp [completed]

variable [DecidableEq E]

/-- One if the slot holds `e`. -/
def tk (e : E) (o : Option E) : Nat := if o = some e then 1 else 0

omit [DecidableEq E] in
theorem finish_none (sd : Side) (ec : Ec) : finish sd (none : Option E) ec = [] := rfl

@[simp] theorem tk_none (e : E) : tk e none = 0 := by simp [tk]

@[simp] theorem tk_some (e a : E) : tk e (some a) = if a = e then 1 else 0 := by simp [tk]

/-- How many slots of an end hold `e`. -/
def pend (sd : Side) (s : St E) (e : E) : Nat :=
  match sd with
  | .server => tk e (s.sRd.map (·.ev)) + tk e (s.sWr.map (·.ev)) + tk e s.sCl
  | .client => tk e s.opened + tk e (s.cRd.map (·.ev)) + tk e (s.cWr.map (·.ev)) + tk e s.cCl

theorem count_finish (sd sd' : Side) (ev : Option E) (ec : Ec) (e : E) :
    (completed (finish sd ev ec)).count (sd', e) = if sd = sd' then tk e ev else 0 := by
  cases ev with
  | none => simp [finish]
  | some a => by_cases h : sd = sd' <;> simp [finish, List.count_cons, h]

theorem count_finishWr (sd sd' : Side) (w : Option (Wrr E)) (ec : Ec) (e : E) :
    (completed (finishWr sd w ec)).count (sd', e) = if sd = sd' then tk e (w.map (·.ev)) else 0 :=
  count_finish _ _ _ _ _

theorem count_finishRd (sd sd' : Side) (r : Option (Rdr E)) (ec : Ec) (e : E) :
    (completed (finishRd sd r ec)).count (sd', e) = if sd = sd' then tk e (r.map (·.ev)) else 0 := by
  cases r with
  | none => simp [finishRd]
  | some a => by_cases h : sd = sd' <;> simp [finishRd, List.count_cons, h]

/-- What is completed was waiting. -/
def Bal (s : St E) (res : St E × List (Out E)) : Prop :=
  ∀ sd e, (completed res.2).count (sd, e) + pend sd res.1 e = pend sd s e

theorem Bal.refl (s : St E) : Bal s (s, []) := by intro sd e; simp

theorem resolveRead_bal (s : St E) (ec : Ec) : Bal s (resolveRead s ec) := by
  intro sd e
  cases sd <;> simp [resolveRead, count_finishRd, pend] <;> omega

theorem cResolveRead_bal (s : St E) (ec : Ec) : Bal s (cResolveRead s ec) := by
  intro sd e
  cases sd <;> simp [cResolveRead, count_finishRd, pend] <;> omega

theorem cResolveWrite_bal (s : St E) (ec : Ec) : Bal s (cResolveWrite s ec) := by
  intro sd e
  unfold cResolveWrite
  cases hr : s.sRd with
  | none =>
    cases hc : s.cClosed <;> cases sd <;> simp [hr, hc, count_finishWr, count_finish, pend] <;> omega
  | some r =>
    cases hc : s.cClosed <;> cases ha : r.all <;> cases sd <;>
      simp [hr, hc, ha, resolveRead, finishRd, List.count_cons, count_finishWr, count_finish, pend] <;> omega

theorem Bal.trans {s : St E} {r1 : St E × List (Out E)} {r2 : St E × List (Out E)} (h1 : Bal s r1)
    (h2 : Bal r1.1 r2) : Bal s (r2.1, r1.2 ++ r2.2) := by
  intro sd e
  have a := h1 sd e
  have b := h2 sd e
  simp only [completed_append, List.count_append]
  omega

/-- Changing the bytes and not the names does not matter. -/
theorem Bal.of_pend {s s' : St E} {res : St E × List (Out E)} (h : Bal s' res)
    (hp : ∀ sd e, pend sd s' e = pend sd s e) : Bal s res := by
  intro sd e
  rw [h sd e, hp]

theorem cDoWrite_bal (s : St E) : Bal s (cDoWrite s) := by
  unfold cDoWrite
  split
  · rename_i r w hr hw
    dsimp only
    split
    · refine (resolveRead_bal _ _).of_pend ?_
      intro sd e; cases sd <;> simp [pend, hr, hw]
    · split
      · refine (cResolveWrite_bal _ _).of_pend ?_
        intro sd e; cases sd <;> simp [pend, hr]
      · refine ((resolveRead_bal _ _).trans (cResolveWrite_bal _ _)).of_pend ?_
        intro sd e; cases sd <;> simp [pend, hr]
  · exact Bal.refl s

theorem cDoRead_bal (s : St E) : Bal s (cDoRead s) := by
  unfold cDoRead
  split
  · rename_i r w hr hw
    intro sd e
    by_cases h1 : w.rest.length > r.left
    · cases sd <;> simp [h1, hr, hw, cResolveRead, pend, finishRd, List.count_cons] <;> omega
    · by_cases h2 : (decide (w.rest.length < r.left) && r.all) = true
      · cases hc : s.sClosed <;> cases sd <;>
          simp [h1, h2, hr, hw, hc, pend, count_finish, List.count_cons] <;> omega
      · cases hc : s.sClosed <;> cases sd <;>
          simp [h1, h2, hr, hw, hc, cResolveRead, pend, count_finish, finishRd, List.count_cons] <;> omega
  · exact Bal.refl s

/-- A close of the client which is overwritten. -/
def lost (s : St E) (op : Op E) (e : E) : Nat :=
  match op with
  | .cClose _ => if s.cWr.isSome then tk e s.cCl else 0
  | _ => 0

/-- One if the operation is started by the end with this name. -/
def starts (op : Op E) (sd : Side) (e : E) : Nat := if who op = some (sd, e) then 1 else 0

theorem step_acct (s : St E) (op : Op E) (sd : Side) (e : E) :
    (completed (step s op).2).count (sd, e) + pend sd (step s op).1 e +
      (if sd = .client then lost s op e else 0) = pend sd s e + starts op sd e := by
  have add : ∀ {s' : St E} {op : Op E} {res : St E × List (Out E)}, Bal s' res →
      pend sd s' e = pend sd s e + starts op sd e →
      (completed res.2).count (sd, e) + pend sd res.1 e = pend sd s e + starts op sd e := by
    intro s' op res h hp
    rw [← hp, h sd e]
  have lost0 : ∀ {op : Op E}, (∀ e, op ≠ .cClose e) → lost s op e = 0 := by
    intro op h
    cases op <;> first | rfl | exact absurd rfl (h _)
  cases op with
  | accept a =>
    simp only [step, accept, lost]
    split <;> cases sd <;> simp [starts, who, List.count_cons, count_finish, pend] <;> omega
  | readAll a n =>
    simp only [step, readAll, lost, ite_self, Nat.add_zero]
    split
    · cases sd <;> simp [starts, who, List.count_cons, Nat.add_comm]
    split
    · cases sd <;> simp [starts, who, List.count_cons, Nat.add_comm]
    split
    · cases sd <;> simp [starts, who, List.count_cons, Nat.add_comm]
    · refine add (cDoWrite_bal _) ?_
      cases sd <;> simp_all [pend, starts, who]; omega
  | readSome a n =>
    simp only [step, readSome, lost, ite_self, Nat.add_zero]
    split
    · cases sd <;> simp [starts, who, List.count_cons, Nat.add_comm]
    split
    · cases sd <;> simp [starts, who, List.count_cons, Nat.add_comm]
    split
    · cases sd <;> simp [starts, who, List.count_cons, Nat.add_comm]
    · rename_i h1 h2 h3
      refine add (cDoWrite_bal _) ?_
      cases sd <;> simp_all [pend, starts, who]; omega
  | write a d =>
    simp only [step, write, lost, ite_self, Nat.add_zero]
    split
    · cases sd <;> simp [starts, who, List.count_cons, Nat.add_comm]
    split
    · cases sd <;> simp [starts, who, List.count_cons, Nat.add_comm]
    split
    · cases sd <;> simp [starts, who, List.count_cons, Nat.add_comm]
    · refine add (cDoRead_bal _) ?_
      cases sd <;> simp_all [pend, starts, who]; omega
  | close a =>
    simp only [step, close, lost, ite_self, Nat.add_zero]
    split
    · cases sd <;> simp [starts, who, List.count_cons, Nat.add_comm]
    split
    · cases sd <;> simp [starts, who, List.count_cons, Nat.add_comm]
    split
    · cases sd <;> simp_all [pend, starts, who]
    · simp only [cResolveRead]
      cases sd <;> simp_all [pend, starts, who, count_finishRd, finish, List.count_cons] <;> omega
  | stop =>
    simp only [step, stop, lost, ite_self, Nat.add_zero]
    split <;> cases sd <;> simp [starts, who, pend, count_finish, count_finishRd, count_finishWr] <;> omega
  | cReadAll a n =>
    simp only [step, cReadAll, lost, ite_self, Nat.add_zero]
    split
    · cases sd <;> simp [starts, who, List.count_cons, Nat.add_comm]
    split
    · cases sd <;> simp [starts, who, List.count_cons, Nat.add_comm]
    · refine add (cDoRead_bal _) ?_
      cases sd <;> simp_all [pend, starts, who]; omega
  | cReadSome a n =>
    simp only [step, cReadSome, lost, ite_self, Nat.add_zero]
    split
    · cases sd <;> simp [starts, who, List.count_cons, Nat.add_comm]
    split
    · cases sd <;> simp [starts, who, List.count_cons, Nat.add_comm]
    · refine add (cDoRead_bal _) ?_
      cases sd <;> simp_all [pend, starts, who]; omega
  | cWrite a d =>
    simp only [step, cWrite, lost, ite_self, Nat.add_zero]
    split
    · cases sd <;> simp [starts, who, List.count_cons, Nat.add_comm]
    split
    · cases sd <;> simp [starts, who, List.count_cons, Nat.add_comm]
    split
    · cases sd <;> simp [starts, who, List.count_cons, Nat.add_comm]
    · refine add (cDoWrite_bal _) ?_
      cases sd <;> simp_all [pend, starts, who]; omega
  | cClose a =>
    simp only [step, cClose, lost]
    split
    · cases sd <;> simp_all [pend, starts, who]; omega
    · simp only [resolveRead]
      cases sd <;> simp_all [pend, starts, who, count_finishRd, List.count_cons] <;> omega
  | cStop =>
    simp only [step, cStop, lost, ite_self, Nat.add_zero]
    split <;> cases sd <;> simp [starts, who, pend, count_finish, count_finishRd, count_finishWr] <;> omega

omit [DecidableEq E] in
theorem started_snoc (e₀ : E) (ops : List (Op E)) (op : Op E) :
    started e₀ (ops ++ [op]) = started e₀ ops ++ (who op).toList := by
  cases h : who op <;> simp [started, h]

theorem count_started_snoc (e₀ : E) (ops : List (Op E)) (op : Op E) (sd : Side) (e : E) :
    (started e₀ (ops ++ [op])).count (sd, e) = (started e₀ ops).count (sd, e) + starts op sd e := by
  rw [started_snoc, List.count_append, starts]
  cases h : who op with
  | none => simp
  | some x => by_cases hx : x = (sd, e) <;> simp [hx]

/-- No operation is completed more often than it is started, and what waits was started. -/
theorem run_acct_le (e₀ : E) (ops : List (Op E)) (sd : Side) (e : E) :
    (completed (run (St.init e₀) ops).2).count (sd, e) + pend sd (run (St.init e₀) ops).1 e ≤
      (started e₀ ops).count (sd, e) := by
  induction ops using run_ind with
  | h0 =>
    cases sd <;> simp [pend, St.init, started, List.count_cons]
  | h1 ops op ih =>
    rw [run_snoc, count_started_snoc, completed_append, List.count_append]
    have := step_acct (run (St.init e₀) ops).1 op sd e
    dsimp only
    omega

end Verif.Stream.Virtual
