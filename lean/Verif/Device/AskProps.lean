import Verif.Device.AskLemmas

/-!
# Requests of the application to the basestation — properties C97 to C100
-/

namespace Verif.Device.Ask

open Spec

def mem : Mem := ⟨true, true, true⟩

/-! ## C97: the futures -/

/-- C97: for every history, a future is resolved at most once, and only if it was given. -/
theorem C97_once (i : Start) (ops : List Op) :
    (∀ f, times i ops f ≤ 1) ∧ ∀ f e, Resolved i ops f e → Given i ops f := by
  have h := inv_after i ops
  refine ⟨?_, fun f e hx => h.given f (List.mem_map.2 ⟨(f, e), hx, rfl⟩)⟩
  intro f
  have hn := h.once
  unfold times
  generalize (after i ops).results = l at hn
  induction l with
  | nil => exact Nat.zero_le _
  | cons r l ih =>
    rw [List.map_cons, List.nodup_cons] at hn
    rw [List.countP_cons]
    split
    · next he =>
      have he : r.1 = f := by simpa using he
      have : l.countP (fun r => r.1 == f) = 0 := by
        rw [List.countP_eq_zero]
        intro x hx hxf
        have hxf : x.1 = f := by simpa using hxf
        exact hn.1 (List.mem_map.2 ⟨x, hx, hxf.trans he.symm⟩)
      omega
    · have := ih hn.2
      omega

/-- C97, for a careful application: a future which is not resolved is waited for at the CoAP library, and whatever the library
answers resolves it. -/
theorem C97_pending_partial (i : Start) (ops : List Op) (hc : Careful i ops) (f : Nat) (hg : Given i ops f) :
    (∃ e, Resolved i ops f e) ∨
    Pending i ops ∧ ∀ a, a.fits i.kind = true → ∃ e, Resolved i (ops ++ [.answer a]) f e := by
  have h := inv_after i ops
  have hs := safe_after i ops hc
  by_cases hm : f ∈ (after i ops).results.map (·.1)
  · obtain ⟨r, hr, he⟩ := List.mem_map.1 hm
    exact Or.inl ⟨r.2, by unfold Resolved; rw [← he]; exact hr⟩
  · right
    obtain ⟨hf, hq⟩ := h.wait f hg hm
    have hp : ∃ c, (after i ops).req = .sent c := by
      rcases hq with hq | hq
      · exact hq
      · rw [hs.good] at hq; cases hq
    refine ⟨hp, fun a ha => ?_⟩
    have h0 := h.zero f hf
    subst h0
    obtain ⟨c, hp⟩ := hp
    rcases answer_eq h a with e | ⟨hgone, -, -⟩ | ⟨-, -, -, -, -, -, st, b, l, -, e⟩
    · exfalso
      have hgone : (after i ops).gone = false := by
        rcases Bool.eq_false_or_eq_true (after i ops).gone with hx | hx
        · exact absurd hp (hs.kept hx c)
        · exact hx
      unfold St.answer at e
      rw [hp] at e
      dsimp only at e
      rw [if_neg (by rw [hgone]; simp), hf] at e
      have := congrArg (fun t => t.results.length) e
      dsimp only [St.resolve] at this
      obtain ⟨st, b, l, et⟩ := take_eq (after i ops) a
      rw [et] at this
      simp at this
    · exact absurd hp (hs.kept hgone c)
    · refine ⟨((after i ops).take a).1, ?_⟩
      unfold Resolved
      rw [after_snoc]
      unfold step
      dsimp only
      rw [(know_after i ops).kind, if_pos ha, e]
      exact List.mem_append_right _ (by simp)

/-- A push notification which is sent, and answered. -/
example : let i : Start := ⟨.fcm, some 1, true, true⟩
    let ops : List Op := [.setName [1] true, .setContent [2, 3] true, .send [] mem]
    Careful i ops ∧ Given i ops 0 ∧ Pending i ops ∧ ¬ ∃ e, Resolved i ops 0 e := by
  intro i ops
  refine ⟨⟨fun _ => rfl, ?_⟩, Nat.zero_lt_one, ⟨some 1, rfl⟩, ?_⟩
  · intro before op rest he
    have hcases : ∀ (b : List Op) (op : Op) (r : List Op), ops = b ++ op :: r →
        (b = [] ∧ op = .setName [1] true) ∨ (b = [.setName [1] true] ∧ op = .setContent [2, 3] true) ∨
        (b = [.setName [1] true, .setContent [2, 3] true] ∧ op = .send [] mem) := by
      intro b op r he
      match b, he with
      | [], he => injection he with h1 h2; exact Or.inl ⟨rfl, h1.symm⟩
      | [a], he => injection he with h1 h2; injection h2 with h2 h3; subst h1; exact Or.inr (Or.inl ⟨rfl, h2.symm⟩)
      | [a, b], he =>
        injection he with h1 h2; injection h2 with h2 h3; injection h3 with h3 h4
        subst h1; subst h2; exact Or.inr (Or.inr ⟨rfl, h3.symm⟩)
      | a :: b :: c :: l, he =>
        injection he with h1 h2; injection h2 with h2 h3; injection h3 with h3 h4
        exact absurd h4 (by cases l <;> simp)
    rcases hcases before op rest he with ⟨rfl, rfl⟩ | ⟨rfl, rfl⟩ | ⟨rfl, rfl⟩
    · trivial
    · trivial
    · intro _; decide
  · rintro ⟨e, he⟩
    cases he

/-- C97 is violated: an object whose first send was refused because the device was not attached can never send anything;
every further send fails with OPERATION_IN_PROGRESS, though no operation is in progress. -/
theorem C97_retry_violated (i : Start) (ops : List Op) (n : Bytes) (m : Mem) (more : List Op)
    (h : ∀ op ∈ ops, (∀ n m, op ≠ .send n m) ∧ op ≠ .free) (ha : attachedOf i ops = false) :
    let all := ops ++ [.send n m] ++ more
    Resolved i all 0 .notAttached ∧ (after i all).wire = [] ∧
    ∀ f, 0 < f → Given i all f → Resolved i all f .inProgress := by
  intro all
  have hn := new_after i ops h
  have hatt : (after i ops).attached = false := by
    have := (know_after i ops).link
    unfold attachedOf at ha
    rw [← this] at ha; exact ha
  have hs : Stuck (after i (ops ++ [.send n m])) := by
    rw [after_snoc]
    unfold step; dsimp only
    rw [hn.gone]
    simp only [Bool.not_false, if_true]
    have hc := send_cases (after i ops) n m
    generalize (after i ops).send n m = t at hc
    cases hc with
    | busy hf => exact absurd hn.fut hf
    | ub _ _ hx _ _ => rw [hatt] at hx; cases hx
    | sent _ _ hx _ _ => rw [hatt] at hx; cases hx
    | refused e r _ _ he =>
      rcases he with ⟨he, -, hr⟩ | ⟨-, hx⟩
      · subst he hr
        refine ⟨fun hx => (by cases hx), hn.wire, hn.req, ?_, ?_⟩
        · exact List.mem_append_right _ (by rw [hn.asked]; simp)
        · intro f h0 hl
          have hl : f < (after i ops).asked + 1 := hl
          rw [hn.asked] at hl
          omega
      · rw [hatt] at hx; cases hx
  have hk := stuck_more i _ more hs
  exact ⟨hk.first, hk.wire, fun f h0 hf => hk.busy f h0 hf⟩

/-- C97 is violated: sent again on a device which is attached now. -/
example : let i : Start := ⟨.invoke, none, false, true⟩
    let all : List Op := [.setName [1] true, .setContent [2] true] ++ [.send [] mem] ++ [.session (some 1), .attached, .send [] mem]
    attachedOf i all = true ∧ (after i all).results = [(0, .notAttached), (1, .inProgress)] ∧ (after i all).wire = [] := by
  decide

/-- A request for ICE servers which was freed. -/
structure Lost (s : St) : Prop where
  kind : s.kind = .ice
  gone : s.gone = true
  results : s.results = []

theorem lost_step {s : St} (op : Op) (h : Lost s) : Lost (step s op) := by
  have hg : ¬ (!s.gone) = true := by rw [h.gone]; simp
  have hg2 : ¬ (!s.gone && s.kind ≠ .ice) = true := by rw [h.gone]; simp
  cases op with
  | setName v mem => unfold step; dsimp only; rw [if_neg hg2]; exact h
  | setContent v mem => unfold step; dsimp only; rw [if_neg hg2]; exact h
  | send n m => unfold step; dsimp only; rw [if_neg hg]; exact h
  | stop => unfold step; dsimp only; rw [if_neg hg]; exact h
  | free => unfold step; dsimp only; rw [if_neg hg]; exact h
  | answer a =>
    unfold step; dsimp only
    split
    · unfold St.answer
      split
      · rw [if_pos h.gone, if_pos h.kind]; exact h
      · exact h
    · exact h
  | session c => exact ⟨h.kind, h.gone, h.results⟩
  | attached => unfold step; dsimp only; split <;> exact ⟨h.kind, h.gone, h.results⟩
  | detached => exact ⟨h.kind, h.gone, h.results⟩

/-- C97 is violated: when a request for ICE servers is freed while it waits, its future is never resolved. -/
theorem C97_ice_free_violated (id : Bytes) (more : List Op) :
    let i : Start := ⟨.ice, some 1, true, true⟩
    Given i [.send id mem, .free] 0 ∧ (after i [.send id mem, .free]).bad = false ∧
    times i ([.send id mem, .free] ++ more) 0 = 0 := by
  intro i
  refine ⟨Nat.zero_lt_one, rfl, ?_⟩
  have h : Lost (after i ([.send id mem, .free] ++ more)) := by
    induction more using snoc_ind with
    | h0 => exact ⟨rfl, rfl, rfl⟩
    | hs more op ih => rw [← List.append_assoc, after_snoc]; exact lost_step op ih
  unfold times
  rw [h.results]; rfl

/-! ## C98: memory -/

/-- C98, for a careful application: no freed memory is used and no null pointer is read. -/
theorem C98_safe_partial (i : Start) (ops : List Op) (h : Careful i ops) : (after i ops).bad = false :=
  (safe_after i ops h).good

/-- C98, for a careful application: no request of the CoAP library is left behind, unless memory runs out. -/
theorem C98_no_leak_partial (i : Start) (ops : List Op) (h : Careful i ops)
    (hm : ∀ n m, .send n m ∈ ops → m.buffer = true ∧ m.payload = true) : (after i ops).leaked = 0 :=
  (tidy_after i ops h hm).none

/-- C98 is violated: sending without a project id or payload, or without a service id, reads a null pointer; the documentation
promises INVALID_STATE. -/
theorem C98_missing_violated (k : Kind) (hk : k ≠ .ice) (c : Nat) :
    (after ⟨k, some c, true, true⟩ [.setContent [1] true, .send [] mem]).bad = true ∧
    (after ⟨.fcm, some c, true, true⟩ [.setName [1] true, .send [] mem]).bad = true := by
  cases k <;> first | exact ⟨rfl, rfl⟩ | exact absurd rfl hk

/-- C98 is violated: a failed `set_message` frees the old message and keeps its length. -/
theorem C98_message_violated (c : Nat) :
    (after ⟨.invoke, some c, true, true⟩ [.setName [1] true, .setContent [1, 2] true, .setContent [3] false, .send [] mem]).bad =
      true := rfl

/-- C98 is violated: stopping an operation which has ended uses the freed request. Whether it has ended, the application cannot
know. -/
theorem C98_stop_violated (k : Kind) (hk : k ≠ .ice) (c : Nat) :
    let ops : List Op := [.setName [1] true, .setContent [1] true, .send [] mem, .answer .timeout]
    (after ⟨k, some c, true, true⟩ ops).bad = false ∧ (after ⟨k, some c, true, true⟩ (ops ++ [.stop])).bad = true := by
  cases k <;> first | exact ⟨rfl, rfl⟩ | exact absurd rfl hk

/-- C98 is violated: a service invocation which was stopped and freed is used when the answer comes. For push notifications the
documentation asks to wait for the future first; for service invocations it does not. -/
theorem C98_free_violated (c : Nat) :
    (after ⟨.invoke, some c, true, true⟩
      [.setName [1] true, .setContent [1] true, .send [] mem, .stop, .free, .answer .stopped]).bad = true := rfl

/-- C98 is violated: the CoAP request is used although it could not be allocated. -/
theorem C98_memory_violated (c : Nat) :
    (after ⟨.fcm, some c, true, true⟩ [.setName [1] true, .setContent [1] true, .send [] ⟨false, true, true⟩]).bad = true ∧
    (after ⟨.ice, some c, true, false⟩ [.send [1] mem]).bad = true := ⟨rfl, rfl⟩

/-- C98 is violated: a request is left behind when there is no memory for its payload. -/
theorem C98_leak_violated (c : Nat) :
    let ops : List Op := [.setName [1] true, .setContent [1] true, .send [] ⟨true, false, true⟩, .free]
    (after ⟨.fcm, some c, true, true⟩ ops).leaked = 1 ∧ (after ⟨.fcm, some c, true, true⟩ ops).bad = false := ⟨rfl, rfl⟩

/-! ## C99: what is sent -/

/-- C99: a push notification and a service invocation carry what the application set, and go on the session on which the device
is attached when it sends. -/
theorem C99_carries (i : Start) (ops : List Op) (hk : i.kind ≠ .ice) (w : Wire) (hw : w ∈ (after i ops).wire) :
    ∃ before n m rest, ops = before ++ .send n m :: rest ∧ nameOf before = some w.name ∧
      (contentOf before = some w.content ∨ i.kind = .invoke ∧ contentOf before = none ∧ w.content = []) ∧
      w.session = sessionOf i before ∧ attachedOf i before = true := by
  obtain ⟨before, n, m, rest, he, hg, ha, hr⟩ := wire_origin i ops w hw
  have hi := know_after i before
  have hl : linkOf i before = ((after i before).session, (after i before).attached) := hi.link.symm
  rcases hr with ⟨hki, hs, hen⟩ | ⟨hki, -⟩
  · have h1 := hi.name hki hg
    have h2 := hi.content hki hg
    have h3 := hi.kind
    refine ⟨before, n, m, rest, he, ?_, ?_, ?_, ?_⟩
    · rw [← h1]
      unfold St.encode at hen
      split at hen
      · split at hen
        · next hn hc => rw [hn]; injection hen with hen; injection hen with e1 e2; rw [e1]
        · cases hen
      · split at hen
        · next hn hc => rw [hn]; injection hen with hen; injection hen with e1 e2; rw [e1]
        · next hn hc =>
          split at hen
          · rw [hn]; injection hen with hen; injection hen with e1 e2; rw [e1]
          · cases hen
        · cases hen
    · rw [← h2, ← h3]
      unfold St.encode at hen
      split at hen
      · split at hen
        · next hn hc => rw [hc]; injection hen with hen; injection hen with e1 e2; rw [e2]; exact Or.inl rfl
        · cases hen
      · next hnf =>
        split at hen
        · next hn hc => rw [hc]; injection hen with hen; injection hen with e1 e2; rw [e2]; exact Or.inl rfl
        · next hn hc =>
          split at hen
          · injection hen with hen; injection hen with e1 e2
            refine Or.inr ⟨?_, hc, e2.symm⟩
            cases hx : (after i before).kind with
            | fcm => exact absurd hx hnf
            | invoke => rfl
            | ice => exact absurd hx hki
          · cases hen
        · cases hen
    · unfold sessionOf; rw [hl]; exact hs
    · unfold attachedOf; rw [hl]; exact ha
  · rw [hi.kind] at hki; exact absurd hki hk

/-- C99: a request for ICE servers carries the identifier, and is sent only while the device is attached; it goes on the session
which the device had when the object was made. -/
theorem C99_ice_partial (i : Start) (ops : List Op) (hk : i.kind = .ice) (w : Wire) (hw : w ∈ (after i ops).wire) :
    ∃ before m rest, ops = before ++ .send w.name m :: rest ∧ w.session = i.session ∧ attachedOf i before = true := by
  obtain ⟨before, n, m, rest, he, hg, ha, hr⟩ := wire_origin i ops w hw
  have hi := know_after i before
  have hl : linkOf i before = ((after i before).session, (after i before).attached) := hi.link.symm
  rcases hr with ⟨hki, -⟩ | ⟨hki, hq, hn⟩
  · rw [hi.kind] at hki; exact absurd hk hki
  · refine ⟨before, m, rest, by rw [hn]; exact he, (out_after i before).made hki _ hq, ?_⟩
    unfold attachedOf; rw [hl]; exact ha

/-- C99: of one object, at most one request is sent. -/
theorem C99_one (i : Start) (ops : List Op) : (after i ops).wire.length ≤ 1 := (out_after i ops).one

/-- C99 is violated: a request for ICE servers which was made before the device was attached again goes on a session which is
gone; if it was made before the device had a session, on none. -/
theorem C99_session_violated (old : Option Nat) (c : Nat) :
    let ops : List Op := [.session (some c), .attached, .send [1] mem]
    (after ⟨.ice, old, true, true⟩ ops).wire = [⟨old, some c, [1], []⟩] := rfl

/-- A push notification goes on the session on which the device is attached. -/
example : (after ⟨.fcm, some 1, true, true⟩
    [.setName [1] true, .setContent [2] true, .session (some 2), .attached, .send [] mem]).wire = [⟨some 2, some 2, [1], [2]⟩] := rfl

/-! ## C100: what the answer told -/

/-- C100: if the future of an operation was resolved with OK, the getters give what the basestation answered to the
request. -/
theorem C100_ok (i : Start) (ops : List Op) (f : Nat) (h : Resolved i ops f .ok) :
    f = 0 ∧ ∃ before a rest, ops = before ++ .answer a :: rest ∧ Pending i before ∧
      match a with
      | .fcm b c => i.kind = .fcm ∧ b = (after i ops).body ∧ c = some (after i ops).status
      | .invoke c b fine => i.kind = .invoke ∧ fine = true ∧ b = (after i ops).body ∧ c = some (after i ops).status
      | .ice l fine => i.kind = .ice ∧ fine = true ∧ l = (after i ops).servers
      | _ => False := by
  cases told_after i ops with
  | nothing _ _ _ hz => exact absurd h (hz f)
  | answered before a rest he hfit hp hg hr z1 z2 z3 e1 e2 e3 hm hok =>
    have ho := hok f h
    have h0 : f = 0 := by
      have := only_zero i ops
      exact this f h
    refine ⟨h0, before, a, rest, he, hp, ?_⟩
    cases a with
    | stopped => cases ho
    | timeout => cases ho
    | error => cases ho
    | code => unfold St.take at ho; dsimp only at ho; split at ho <;> cases ho
    | format => cases ho
    | fcm b c =>
      have hki : i.kind = .fcm := by
        cases hx : i.kind with
        | fcm => rfl
        | invoke => rw [hx] at hfit; cases hfit
        | ice => rw [hx] at hfit; cases hfit
      refine ⟨hki, ?_⟩
      cases b with
      | none => cases c <;> cases ho
      | some b =>
        cases c with
        | none => cases ho
        | some c => exact ⟨e2.symm, by rw [e1]; rfl⟩
    | invoke c b fine =>
      have hki : i.kind = .invoke := by
        cases hx : i.kind with
        | invoke => rfl
        | fcm => rw [hx] at hfit; cases hfit
        | ice => rw [hx] at hfit; cases hfit
      refine ⟨hki, ?_⟩
      cases c with
      | none => cases ho
      | some c =>
        cases fine with
        | false => cases ho
        | true => exact ⟨rfl, e2.symm, by rw [e1]; rfl⟩
    | ice l fine =>
      have hki : i.kind = .ice := by
        cases hx : i.kind with
        | ice => rfl
        | fcm => rw [hx] at hfit; cases hfit
        | invoke => rw [hx] at hfit; cases hfit
      refine ⟨hki, ?_⟩
      cases fine with
      | false => cases ho
      | true =>
        refine ⟨rfl, ?_⟩
        rw [e3]
        show l = (after i before).servers ++ l
        rw [z3]; rfl

example : let i : Start := ⟨.fcm, some 1, true, true⟩
    let ops : List Op := [.setName [1] true, .setContent [2] true, .send [] mem, .answer (.fcm (some [7]) (some 200))]
    Resolved i ops 0 .ok ∧ (after i ops).status = 200 ∧ (after i ops).body = some [7] := by decide

/-- C100: the status code of a push notification is 0 unless its future was resolved with OK. -/
theorem C100_status (i : Start) (ops : List Op) (hk : i.kind = .fcm) (h : ¬ Resolved i ops 0 .ok) :
    (after i ops).status = 0 := by
  cases told_after i ops with
  | nothing hz _ _ _ => exact hz
  | answered before a rest he hfit hp hg hr z1 z2 z3 e1 e2 e3 hm hok =>
    rw [e1]
    cases a with
    | stopped => exact z1
    | timeout => exact z1
    | error => exact z1
    | code => exact z1
    | format => exact z1
    | invoke c b fine => rw [hk] at hfit; cases hfit
    | ice l fine => rw [hk] at hfit; cases hfit
    | fcm b c =>
      cases b with
      | none => cases c <;> exact z1
      | some b =>
        cases c with
        | none => exact z1
        | some c => exact absurd hm h

/-- C100 is violated: the body of a push notification is given although its future was not resolved with OK, where the
documentation promises NULL. -/
theorem C100_body_violated :
    let i : Start := ⟨.fcm, some 1, true, true⟩
    let ops : List Op := [.setName [1] true, .setContent [2] true, .send [] mem, .answer (.fcm (some [7]) none)]
    Resolved i ops 0 .badResponse ∧ (after i ops).body = some [7] ∧ (after i ops).status = 0 := by decide

end Verif.Device.Ask
