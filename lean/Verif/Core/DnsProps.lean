import Verif.Core.DnsSpec

/-!
# Looking up a host name — property theorems (C51)
-/

namespace Verif.Core.Dns

open Spec

variable {Ip : Type}

/-! ### Helpers: the merging loop -/

theorem alternate_nil (ys : List Ip) : alternate [] ys = ys := by simp [alternate]

theorem alternate_cons (x : Ip) (xs ys : List Ip) : alternate (x :: xs) ys = x :: alternate ys xs := by
  simp [alternate]

theorem alternate_nil_right (xs : List Ip) : alternate xs [] = xs := by
  cases xs <;> simp [alternate_nil, alternate_cons]

/-- One round of the loop. -/
theorem alternate_round (xs ys : List Ip) :
    alternate xs ys = xs.take 1 ++ ys.take 1 ++ alternate (xs.drop 1) (ys.drop 1) := by
  cases xs with
  | nil => cases ys <;> simp [alternate_nil]
  | cons x xs => cases ys <;> simp [alternate_cons, alternate_nil, alternate_nil_right]

theorem take_append_take (l m : List Ip) (n : Nat) : (l.take n ++ m).take n = (l ++ m).take n := by
  rw [List.take_append, List.take_append, List.take_take, Nat.min_self, List.length_take]
  by_cases h : n ≤ l.length
  · rw [Nat.min_eq_left h]; simp [Nat.sub_eq_zero_of_le h]
  · rw [Nat.min_eq_right (by omega)]

theorem place_eq {f : Found Ip} (hf : f.size ≤ f.cells.length) {room : Nat} (i : Nat) {out : List Ip}
    (ho : out.length ≤ room) :
    place f room i out = some ((out ++ ((found f).drop i).take 1).take room) := by
  unfold place
  have hlen : (found f).length = f.size := by simp [found, hf]
  split
  · rename_i h
    split
    · rename_i hi
      have hc : f.cells[i]? = some f.cells[i] := List.getElem?_eq_getElem (by omega)
      have hd : ((found f).drop i).take 1 = [f.cells[i]] := by
        rw [List.drop_eq_getElem_cons (by omega)]
        simp [found]
      rw [hc, hd]
      simp only [Option.some.injEq]
      rw [List.take_of_length_le]
      simp; omega
    · rename_i hi
      rw [List.drop_eq_nil_of_le (by omega)]
      simp [List.take_of_length_le ho]
  · rw [List.take_append_of_le_length (by omega), List.take_of_length_le ho]

theorem merge_eq {v4 v6 : Found Ip} (h4 : v4.size ≤ v4.cells.length) (h6 : v6.size ≤ v6.cells.length)
    (room n i : Nat) (out : List Ip) (ho : out.length ≤ room)
    (hn4 : v4.size ≤ i + n) (hn6 : v6.size ≤ i + n) :
    mergeFrom v4 v6 room n i out =
      some ((out ++ alternate ((found v4).drop i) ((found v6).drop i)).take room) := by
  induction n generalizing i out with
  | zero =>
    have l4 : (found v4).length = v4.size := by simp [found, h4]
    have l6 : (found v6).length = v6.size := by simp [found, h6]
    rw [List.drop_eq_nil_of_le (by omega), List.drop_eq_nil_of_le (by omega)]
    simp [mergeFrom, alternate_nil, List.take_of_length_le ho]
  | succ n ih =>
    simp only [mergeFrom, place_eq h4 i ho, Option.bind_eq_bind, Option.bind_some]
    rw [place_eq h6 i (by rw [List.length_take]; omega)]
    simp only [Option.bind_some]
    rw [ih (i + 1) _ (by rw [List.length_take]; omega) (by omega) (by omega)]
    rw [take_append_take,
      alternate_round ((found v4).drop i) ((found v6).drop i), List.drop_drop, List.drop_drop]
    rw [List.append_assoc, take_append_take]
    simp [List.append_assoc]

/-! ### Helpers: the refinement -/

/-- The model and the specification agree. -/
def Rel (c : Ctx Ip) : Option (Busy Ip) → Prop
  | none => c.v4Ec ≠ .inProgress ∧ c.v6Ec ≠ .inProgress ∧ c.p4 = false ∧ c.p6 = false
  | some b =>
    c.req = b.req ∧ c.ipsSize = b.room ∧
    (match b.r4 with
      | none => c.v4Ec = .inProgress ∧ c.p4 = true ∧ c.v4.size = 0
      | some (e, l) => c.v4Ec = e ∧ e ≠ .inProgress ∧ c.p4 = false ∧ c.v4.size ≤ c.v4.cells.length ∧
          l = found c.v4) ∧
    (match b.r6 with
      | none => c.v6Ec = .inProgress ∧ c.p6 = true ∧ c.v6.size = 0
      | some (e, l) => c.v6Ec = e ∧ e ≠ .inProgress ∧ c.p6 = false ∧ c.v6.size ≤ c.v6.cells.length ∧
          l = found c.v6) ∧
    ¬ (b.r4.isSome ∧ b.r6.isSome)

theorem resolved_both {c : Ctx Ip} (h4 : c.v4Ec ≠ .inProgress) (h6 : c.v6Ec ≠ .inProgress)
    (s4 : c.v4.size ≤ c.v4.cells.length) (s6 : c.v6.size ≤ c.v6.cells.length) :
    resolved c = .done c [answer c.req c.ipsSize c.v4Ec (found c.v4) c.v6Ec (found c.v6)] := by
  unfold resolved
  rw [if_neg (by simp [h4, h6])]
  unfold resolvedEc answer
  by_cases h : c.v4Ec ≠ .ok ∧ c.v6Ec ≠ .ok
  · rw [if_pos h, if_neg (by simp [h.1, h.2])]
  · rw [if_neg h, if_pos (by by_cases h' : c.v4Ec = .ok <;> simp_all)]
    rw [merge_eq s4 s6 _ _ _ _ (Nat.zero_le _) (by omega) (by omega)]
    simp

theorem written {v : Found Ip} (h0 : v.size = 0) {f : Option (Found Ip)}
    (h : ∀ g, f = some g → g.size ≤ g.cells.length) :
    ∃ g, f.getD v = g ∧ g.size ≤ g.cells.length ∧ reported f = found g := by
  cases f with
  | none => exact ⟨v, rfl, by omega, by simp [reported, found, h0]⟩
  | some g => exact ⟨g, rfl, h g rfl, rfl⟩

theorem step_rel {c : Ctx Ip} {s : Option (Busy Ip)} (h : Rel c s) {op : Op Ip} (hop : Honest op) :
    ∃ c', step c op = .done c' (Spec.step s op).2 ∧ Rel c' (Spec.step s op).1 := by
  cases s with
  | none =>
    obtain ⟨h4, h6, hp4, hp6⟩ := h
    cases op with
    | resolve req room =>
      refine ⟨_, by simp only [step, resolve]; rw [if_neg (by simp [h4, h6])]; rfl, ?_⟩
      simp [Spec.step, Rel]
    | v4Done ec f => exact ⟨c, by simp [step, hp4, Spec.step], h4, h6, hp4, hp6⟩
    | v6Done ec f => exact ⟨c, by simp [step, hp6, Spec.step], h4, h6, hp4, hp6⟩
  | some b =>
    obtain ⟨req, room, r4, r6⟩ := b
    obtain ⟨hreq, hroom, h4, h6, hn⟩ := h
    simp only at hreq hroom h4 h6 hn
    subst hreq hroom
    cases op with
    | resolve q room' =>
      refine ⟨c, ?_, ⟨rfl, rfl, h4, h6, hn⟩⟩
      have : c.v4Ec = .inProgress ∨ c.v6Ec = .inProgress := by
        cases r4 with
        | none => exact .inl h4.1
        | some r4 =>
          cases r6 with
          | none => exact .inr h6.1
          | some r6 => simp at hn
      simp [step, resolve, this, Spec.step]
    | v4Done ec f' =>
      obtain ⟨hec, hsz'⟩ := hop
      cases r4 with
      | some r => exact ⟨c, by simp [step, h4.2.2.1, Spec.step], rfl, rfl, h4, h6, hn⟩
      | none =>
        simp only [step, h4.2.1, if_true]
        obtain ⟨f, hf, hsz, hr⟩ := written h4.2.2 hsz'
        rw [hf]
        cases r6 with
        | none =>
          refine ⟨{ c with v4Ec := ec, v4 := f, p4 := false }, by
            unfold resolved; rw [if_pos (.inr h6.1)]; simp [Spec.step, finish], ?_⟩
          simp [Spec.step, finish, Rel, hec, hsz, hr, h6]
        | some r =>
          obtain ⟨e, l⟩ := r
          obtain ⟨he, hne, hp, hs, hl⟩ := h6
          have hb := resolved_both (c := { c with v4Ec := ec, v4 := f, p4 := false })
            hec (by simpa [he] using hne) hsz hs
          refine ⟨_, by rw [hb]; simp [Spec.step, finish, he, hl, hr]; rfl, ?_⟩
          simp [Spec.step, finish, Rel, hec, he, hne, hp]
    | v6Done ec f' =>
      obtain ⟨hec, hsz'⟩ := hop
      cases r6 with
      | some r => exact ⟨c, by simp [step, h6.2.2.1, Spec.step], rfl, rfl, h4, h6, hn⟩
      | none =>
        simp only [step, h6.2.1, if_true]
        obtain ⟨f, hf, hsz, hr⟩ := written h6.2.2 hsz'
        rw [hf]
        cases r4 with
        | none =>
          refine ⟨{ c with v6Ec := ec, v6 := f, p6 := false }, by
            unfold resolved; rw [if_pos (.inl h4.1)]; simp [Spec.step, finish], ?_⟩
          simp [Spec.step, finish, Rel, hec, hsz, hr, h4]
        | some r =>
          obtain ⟨e, l⟩ := r
          obtain ⟨he, hne, hp, hs, hl⟩ := h4
          have hb := resolved_both (c := { c with v6Ec := ec, v6 := f, p6 := false })
            (by simpa [he] using hne) hec hs hsz
          refine ⟨_, by rw [hb]; simp [Spec.step, finish, he, hl, hr]; rfl, ?_⟩
          simp [Spec.step, finish, Rel, hec, he, hne, hp]

theorem run_rel {c : Ctx Ip} {s : Option (Busy Ip)} (h : Rel c s) (ops : List (Op Ip))
    (hops : ∀ op ∈ ops, Honest op) : ∃ c', run c ops = .done c' (Spec.run s ops) := by
  induction ops generalizing c s with
  | nil => exact ⟨c, rfl⟩
  | cons op ops ih =>
    obtain ⟨c', he, hr⟩ := step_rel h (hops op (List.mem_cons_self ..))
    obtain ⟨c'', hr'⟩ := ih hr (fun o ho => hops o (List.mem_cons_of_mem _ ho))
    exact ⟨c'', by simp only [run, he, hr', Spec.run]⟩

/-! ## C51: the answers -/

/-- C51 (partial: for platforms whose lookups keep their contract): in every history, the callers get
exactly the answers of the specification: a request made while one is outstanding is refused at once
and disturbs nothing, the outstanding request is answered exactly when both lookups have answered,
with the addresses of both taken in turn as far as the caller has room, and with an error only if both
lookups failed. No array is left. -/
theorem C51_answers_partial (ops : List (Op Ip)) (h : ∀ op ∈ ops, Honest op) :
    answers ops = some (Spec.run none ops) := by
  obtain ⟨c, hc⟩ := run_rel (c := init) (s := none) ⟨nofun, nofun, rfl, rfl⟩ ops h
  simp [answers, hc]

/-- Non-vacuity: two addresses of one kind, three of the other, room for four; a request in between is
refused. -/
example : answers
    [.resolve 1 4, .v6Done .ok (some ⟨[21, 22, 23, 0], 3⟩), .resolve 2 1, .v4Done .ok (some ⟨[11, 12, 0, 0], 2⟩),
      .resolve 3 2, .v4Done (.other 7) none, .v6Done .ok (some ⟨[24, 0, 0, 0], 1⟩)] =
    some [⟨2, .inProgress, []⟩, ⟨1, .ok, [11, 21, 12, 22]⟩, ⟨3, .ok, [24]⟩] := by decide

example : ∀ op ∈ ([.resolve 1 4, .v6Done .ok (some ⟨[21, 22, 23, 0], 3⟩), .v4Done .ok (some ⟨[11, 12, 0, 0], 2⟩)] :
    List (Op Nat)), Honest op := by simp [Honest]

theorem alternate_perm (xs ys : List Ip) : (alternate xs ys).Perm (xs ++ ys) := by
  fun_induction alternate xs ys with
  | case1 ys => simp
  | case2 x xs ys ih =>
    simp only [List.cons_append]
    exact .cons x (ih.trans List.perm_append_comm)

theorem alternate_sublists (xs ys : List Ip) :
    xs.Sublist (alternate xs ys) ∧ ys.Sublist (alternate xs ys) := by
  fun_induction alternate xs ys with
  | case1 ys => simp
  | case2 x xs ys ih => exact ⟨ih.2.cons_cons x, ih.1.cons x⟩

/-- C51: what taking in turn means for the caller. The answer is an error only if both lookups failed.
Otherwise it has as many addresses as were found, cut to the room; all of them were found; the addresses
of each kind keep their order; and with room for two, no kind is left out. -/
theorem C51_merge (req room : Nat) (e4 e6 : Ec) (l4 l6 : List Ip) :
    ((answer req room e4 l4 e6 l6).ec ≠ .ok → e4 ≠ .ok ∧ e6 ≠ .ok) ∧
    (e4 = .ok ∨ e6 = .ok →
      let out := (answer req room e4 l4 e6 l6).ips
      out.length = min room (l4.length + l6.length) ∧
      (∀ a ∈ out, a ∈ l4 ∨ a ∈ l6) ∧
      (l4.length + l6.length ≤ room → l4.Sublist out ∧ l6.Sublist out) ∧
      (2 ≤ room → (l4 ≠ [] → ∃ a ∈ out, a ∈ l4) ∧ (l6 ≠ [] → ∃ a ∈ out, a ∈ l6))) := by
  have hp := alternate_perm l4 l6
  refine ⟨fun h => ?_, fun h => ?_⟩
  · unfold answer at h
    split at h
    · exact absurd rfl h
    · rename_i hn; exact not_or.mp hn
  · simp only [answer, if_pos h]
    refine ⟨?_, ?_, ?_, ?_⟩
    · rw [List.length_take, hp.length_eq, List.length_append]
    · intro a ha
      exact List.mem_append.mp (hp.mem_iff.mp (List.mem_of_mem_take ha))
    · intro hr
      rw [List.take_of_length_le (by rw [hp.length_eq, List.length_append]; exact hr)]
      exact alternate_sublists l4 l6
    · intro hr
      obtain ⟨room, rfl⟩ : ∃ n, room = n + 2 := ⟨room - 2, by omega⟩
      cases l4 with
      | nil =>
        cases l6 with
        | nil => simp
        | cons y ys => simp [alternate_nil]
      | cons x xs =>
        cases l6 with
        | nil => simp [alternate_cons]
        | cons y ys => simp [alternate_cons]

/-- Non-vacuity. -/
example : (answer 1 3 .ok [11, 12] (.other 7) [21]).ips = [11, 21, 12] := by
  simp [answer, alternate_cons, alternate_nil]

/-- C51: no request is answered twice, and none is lost: at every moment the number of answers is the
number of requests, less one while a request is outstanding. -/
theorem C51_once_partial (ops : List (Op Ip)) (h : ∀ op ∈ ops, Honest op) :
    ∃ as, answers ops = some as ∧
      (as.length = (requests ops).length ∨
       as.length + 1 = (requests ops).length) := by
  refine ⟨_, C51_answers_partial ops h, ?_⟩
  have key : ∀ (ops : List (Op Ip)) (s : Option (Busy Ip)), ∃ b, b ≤ 1 ∧
      (Spec.run s ops).length + b =
        (requests ops).length + (if s.isSome then 1 else 0) := by
    intro ops
    induction ops with
    | nil => intro s; exact ⟨if s.isSome then 1 else 0, by split <;> omega, by simp [Spec.run, requests]⟩
    | cons op ops ih =>
      intro s
      obtain ⟨b, hb, he⟩ := ih (Spec.step s op).1
      refine ⟨b, hb, ?_⟩
      have : (Spec.step s op).2.length + (if (Spec.step s op).1.isSome then 1 else 0) =
          (match op with | .resolve .. => 1 | _ => 0) + (if s.isSome then 1 else 0) := by
        cases s with
        | none => cases op <;> simp [Spec.step]
        | some t =>
          obtain ⟨req, room, r4, r6⟩ := t
          cases op <;> cases r4 <;> cases r6 <;> simp [Spec.step, finish]
      cases op <;> simp_all [Spec.run, requests] <;> omega
  obtain ⟨b, hb, he⟩ := key ops none
  simp at he
  omega

/-! ## C51: a lookup which ends with "in progress" -/

/-- The resolver is stuck: a lookup has reported "in progress" and will not report again. -/
def Stuck (c : Ctx Ip) : Prop := c.v4Ec = .inProgress ∧ c.p4 = false

theorem run_stuck {c : Ctx Ip} (h : Stuck c) (ops : List (Op Ip)) :
    ∃ c' as, run c ops = .done c' as ∧
      as = (requests ops).map (⟨·, .inProgress, []⟩) := by
  induction ops generalizing c with
  | nil => exact ⟨c, [], rfl, rfl⟩
  | cons op ops ih =>
    obtain ⟨h1, h2⟩ := h
    cases op with
    | resolve r n =>
      obtain ⟨c', as, hr, rfl⟩ := ih (c := c) ⟨h1, h2⟩
      exact ⟨c', _, by simp [run, step, resolve, h1, hr]; rfl, by simp [requests]⟩
    | v4Done ec f =>
      obtain ⟨c', as, hr, rfl⟩ := ih (c := c) ⟨h1, h2⟩
      exact ⟨c', _, by simp [run, step, h2, hr]; rfl, by simp [requests]⟩
    | v6Done ec f =>
      by_cases hp : c.p6
      · obtain ⟨c', as, hr, rfl⟩ := ih (c := { c with v6Ec := ec, v6 := f.getD c.v6, p6 := false }) ⟨h1, h2⟩
        exact ⟨c', _, by simp only [run, step, resolved, hp, if_true, h1, true_or]; rw [h1] at hr; rw [hr], by simp [requests]⟩
      · obtain ⟨c', as, hr, rfl⟩ := ih (c := c) ⟨h1, h2⟩
        exact ⟨c', _, by simp [run, step, hp, hr]; rfl, by simp [requests]⟩

/-- C51 is violated for a platform whose lookup ends with the error code "operation in progress" (for
example because its own resolver is busy): the code uses that error code to mark an outstanding
lookup. The request is never answered, whatever happens later, and every later request is refused. -/
theorem C51_in_progress_violated (later : List (Op Nat)) :
    answers ([.resolve 1 4, .v4Done .inProgress none] ++ later) =
      some ((requests later).map (⟨·, .inProgress, []⟩)) := by
  obtain ⟨c', as, hr, rfl⟩ := run_stuck
    (c := { (init : Ctx Nat) with req := 1, ipsSize := 4, v4Ec := .inProgress, v6Ec := .inProgress,
                                  p4 := false, p6 := true })
    ⟨rfl, rfl⟩ later
  simp only [answers, List.cons_append, List.nil_append, run, step, resolve, init, resolved]
  simp only [init] at hr
  simp [hr]

end Verif.Core.Dns
