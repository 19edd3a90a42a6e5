import Verif.Dtls.WolfClientSpec
import Verif.Dtls.ClientProps

/-!
# The secure session with the basestation, with wolfSSL — refinement of `Dtls/Client`
-/

namespace Verif.Dtls.WolfClient

open Spec

/-! ### How often the attacher heard of an end does not matter for what the session does -/

theorem e_touch (s : Client.St) (k : Nat) : Client.St.touch { s with ends := k } = { s.touch with ends := k } := by
  unfold Client.St.touch; dsimp only; split <;> rfl

theorem e_emit (s : Client.St) (k : Nat) (m : Bool) : Client.St.emit { s with ends := k } m = { s.emit m with ends := k } := by
  unfold Client.St.emit
  dsimp only
  split
  · exact e_touch s k
  · split
    · rw [e_touch]
    · exact e_touch s k

theorem e_emits (k : Nat) (l : List Bool) : ∀ s : Client.St,
    Client.St.emits { s with ends := k } l = { s.emits l with ends := k } := by
  induction l with
  | nil => intro s; rfl
  | cons m l ih =>
    intro s
    show (Client.St.emit { s with ends := k } m).emits l = { (s.emit m).emits l with ends := k }
    rw [e_emit, ih]

theorem e_free (s : Client.St) (k : Nat) : Client.St.free { s with ends := k } = { s.free with ends := k } := by
  unfold Client.St.free
  rw [e_touch]

theorem e_destroy (s : Client.St) (k : Nat) : Client.St.destroy { s with ends := k } = { s.destroy with ends := k } := by
  unfold Client.St.destroy
  rw [e_touch]
  dsimp only
  split
  · exact e_free { s.touch with phase := .closing, destroyed := true } k
  · rfl

theorem e_endEvent (s : Client.St) (k : Nat) : ∃ k', Client.St.endEvent { s with ends := k } = { s.endEvent with ends := k' } := by
  unfold Client.St.endEvent
  dsimp only
  split
  · refine ⟨k + 1, ?_⟩
    rw [e_destroy s (k + 1), e_destroy s (s.ends + 1)]
  · exact ⟨k + 1, rfl⟩

theorem e_startSend (s : Client.St) (k : Nat) : Client.St.startSend { s with ends := k } = { s.startSend with ends := k } := by
  unfold Client.St.startSend
  rw [e_touch]

theorem e_send (s : Client.St) (k : Nat) : Client.St.send { s with ends := k } = { s.send with ends := k } := by
  unfold Client.St.send
  dsimp only
  split
  · rfl
  · exact e_startSend { s with queue := s.queue ++ [s.next], next := s.next + 1 } k

theorem e_close (s : Client.St) (k : Nat) (l : List Bool) :
    ∃ k', Client.St.close { s with ends := k } l = { s.close l with ends := k' } := by
  unfold Client.St.close
  dsimp only
  split
  · exact ⟨k, rfl⟩
  · rw [e_emits k l { s with phase := .closing }, e_touch]
    dsimp only
    split
    · exact ⟨k, rfl⟩
    · exact e_endEvent _ k

theorem e_act (s : Client.St) (k : Nat) (a : Client.Act) :
    ∃ k', Client.St.act { s with ends := k } a = { s.act a with ends := k' } := by
  cases a with
  | send =>
    unfold Client.St.act; dsimp only; split
    · exact ⟨k, e_send s k⟩
    · exact ⟨k, rfl⟩
  | close l =>
    unfold Client.St.act; dsimp only; split
    · exact e_close s k l
    · exact ⟨k, rfl⟩

theorem e_acts (l : List Client.Act) : ∀ (s : Client.St) (k : Nat),
    ∃ k', Client.St.acts { s with ends := k } l = { s.acts l with ends := k' } := by
  induction l with
  | nil => intro s k; exact ⟨k, rfl⟩
  | cons a l ih =>
    intro s k
    obtain ⟨k1, h1⟩ := e_act s k a
    obtain ⟨k2, h2⟩ := ih (s.act a) k1
    refine ⟨k2, ?_⟩
    show (Client.St.act { s with ends := k } a).acts l = _
    rw [h1, h2]; rfl

theorem e_doOne (s : Client.St) (k : Nat) (r : Client.Tls) :
    ∃ k', Client.St.doOne { s with ends := k } r = { s.doOne r with ends := k' } := by
  unfold Client.St.doOne
  dsimp only
  split
  · exact ⟨k, rfl⟩
  · rw [e_emits]
    dsimp only
    split
    · exact ⟨k, rfl⟩
    · exact e_acts _ { s.emits r.snd with phase := .data } k
    · exact e_endEvent { s.emits r.snd with phase := .closing } k

theorem e_step (s : Client.St) (k : Nat) (op : Client.Op) :
    ∃ k', Client.step { s with ends := k } op = { Client.step s op with ends := k' } := by
  cases op with
  | connect r => unfold Client.step; dsimp only; split; exact e_doOne s k r; exact ⟨k, rfl⟩
  | send => unfold Client.step; dsimp only; split; exact ⟨k, e_send s k⟩; exact ⟨k, rfl⟩
  | close l => unfold Client.step; dsimp only; split; exact e_close s k l; exact ⟨k, rfl⟩
  | kill =>
    unfold Client.step; dsimp only; split
    · rw [e_destroy]; exact ⟨k, rfl⟩
    · exact ⟨k, rfl⟩
  | packet r =>
    unfold Client.step; dsimp only; split
    · unfold Client.St.packet
      obtain ⟨k1, h1⟩ := e_doOne { s with receiving := true } k r
      rw [show Client.St.doOne { ({ s with ends := k } : Client.St) with receiving := true } r = _ from h1, e_touch]
      dsimp only
      split
      · exact ⟨k1, e_free { (Client.St.doOne { s with receiving := true } r).touch with receiving := false } k1⟩
      · exact ⟨k1, rfl⟩
    · exact ⟨k, rfl⟩
  | udpDone => unfold Client.step; dsimp only; split <;> exact ⟨k, rfl⟩
  | sent r =>
    unfold Client.step; dsimp only; split
    · unfold Client.St.sent
      dsimp only
      split
      · obtain ⟨k1, h1⟩ := e_endEvent { s with net := .idle } k
        rw [show Client.St.endEvent { ({ s with ends := k } : Client.St) with net := .idle } = _ from h1, e_touch]
        dsimp only
        split
        · exact ⟨k1, e_free { (Client.St.endEvent { s with net := .idle }).touch with buf := false } k1⟩
        · exact ⟨k1, rfl⟩
      · split
        · rw [show Client.St.startSend { ({ s with ends := k } : Client.St) with buf := false, net := .idle } = _ from
            e_startSend { s with buf := false, net := .idle } k]
          exact e_doOne _ k r
        · exact e_doOne { s with buf := false, net := .idle } k r
    · exact ⟨k, rfl⟩
  | runSend w =>
    unfold Client.step; dsimp only; split
    · unfold Client.St.runSend
      dsimp only
      split
      · exact ⟨k, rfl⟩
      · split
        · exact ⟨k, rfl⟩
        · cases s.queue with
          | nil => exact ⟨k, rfl⟩
          | cons m q =>
            dsimp only
            rw [show Client.St.emits { ({ s with ends := k } : Client.St) with ev := false, queue := q } w.snd = _ from
              e_emits k w.snd { s with ev := false, queue := q }]
            refine ⟨k, ?_⟩
            generalize Client.St.emits { s with ev := false, queue := q } w.snd = s2
            cases w.ret with
            | ok => exact e_startSend { s2 with answers := s2.answers ++ [(m, .ok)], wire := s2.wire ++ [m] } k
            | tooLarge => exact e_startSend { s2 with answers := s2.answers ++ [(m, .malformed)] } k
            | error => exact e_startSend { s2 with answers := s2.answers ++ [(m, .unknown)] } k
    · exact ⟨k, rfl⟩
  | timer r => unfold Client.step; dsimp only; split; exact e_doOne s k r; exact ⟨k, rfl⟩

theorem e_steps (ops : List Client.Op) : ∀ (s : Client.St) (k : Nat),
    ∃ k', ops.foldl Client.step { s with ends := k } = { ops.foldl Client.step s with ends := k' } := by
  induction ops with
  | nil => intro s k; exact ⟨k, rfl⟩
  | cons op ops ih =>
    intro s k
    obtain ⟨k1, h1⟩ := e_step s k op
    obtain ⟨k2, h2⟩ := ih (Client.step s op) k1
    exact ⟨k2, by rw [List.foldl_cons, h1, h2]; rfl⟩

theorem e_top {s : Client.St} (k : Nat) (h : Client.Top s) : Client.Top { s with ends := k } :=
  ⟨⟨h.1.good, h.1.dead, h.1.once, h.1.net, h.1.closing, h.1.wait, h.1.early, h.1.rest, h.1.live, h.1.all, h.1.wire⟩, h.2⟩

/-! ### Translation -/

def ret : Ret → Client.Ret
  | .wantRead _ | .wantWrite => .want
  | .ok acts => .ok acts
  | .ended => .ended

def tls (r : Tls) : Client.Tls := ⟨r.snd, ret r.ret⟩

def wr (snd : List Bool) (ret : WriteRet) : Client.Write := ⟨snd, if ret = .negative then .error else .ok⟩

def tmo (snd : List Bool) : Timeout → Client.Tls
  | .failed => ⟨snd, .ended⟩
  | _ => ⟨snd, .want⟩

/-- The operation of `Dtls/Client` which does the same. -/
def tr (w : St) : Op → List Client.Op
  | .connect r => [.connect (tls r)]
  | .send => [.send]
  | .close l => [.close l]
  | .kill => [.kill]
  | .packet r => [.packet (tls r)]
  | .udpDone => [.udpDone]
  | .sent r => [.sent (tls r)]
  | .runSend snd ret => [.runSend (wr snd ret)]
  | .timer snd t =>
    if w.timer && w.s.freed = 0 then
      if w.s.phase = .closing then (if t = .failed then [.kill] else [])
      else [.timer (tmo snd t)]
    else []

theorem close_s (w : St) (l : List Bool) : (w.close l).s = w.s.close l := by
  unfold St.close Client.St.close
  split
  · rfl
  · dsimp only; split <;> rfl

theorem act_s (w : St) (a : Client.Act) : (w.act a).s = w.s.act a := by
  cases a with
  | send => unfold St.act Client.St.act; dsimp only; split <;> rfl
  | close l => unfold St.act Client.St.act; dsimp only; split; exact close_s w l; rfl

theorem acts_s (l : List Client.Act) : ∀ w : St, (w.acts l).s = w.s.acts l := by
  induction l with
  | nil => intro w; rfl
  | cons a l ih =>
    intro w
    show ((w.act a).acts l).s = (w.s.act a).acts l
    rw [ih, act_s]

theorem emits_phase (l : List Bool) : ∀ s : Client.St, (s.emits l).phase = s.phase := by
  induction l with
  | nil => intro s; rfl
  | cons r l ih =>
    intro s
    show ((s.emit r).emits l).phase = _
    rw [ih]
    unfold Client.St.emit Client.St.touch
    repeat' split
    all_goals rfl

theorem doOne_s (w : St) (r : Tls) : (w.doOne r).s = w.s.doOne (tls r) := by
  unfold St.doOne Client.St.doOne tls
  cases hp : w.s.phase with
  | closing => rfl
  | connecting =>
    dsimp only
    rw [if_neg (by simp)]
    cases hr : r.ret with
    | wantRead t => rfl
    | wantWrite => rfl
    | ended => rfl
    | ok acts => dsimp only [ret]; rw [acts_s]
  | data =>
    dsimp only
    rw [if_neg (by simp)]
    cases hr : r.ret with
    | wantRead t => rfl
    | wantWrite => rfl
    | ended => rfl
    | ok acts =>
      dsimp only [ret]
      rw [acts_s]
      have := emits_phase r.snd w.s
      rw [hp] at this
      generalize w.s.emits r.snd = s at *
      cases s
      cases this
      rfl

/-- An end which is told before the session is marked as closing. -/
theorem endEvent_late {s : Client.St} (hh : s.held = true) :
    s.endEvent = Client.St.endEvent { s with phase := .closing } := by
  unfold Client.St.endEvent
  dsimp only
  rw [if_pos hh, if_pos hh]
  unfold Client.St.destroy Client.St.free Client.St.touch
  dsimp only
  repeat' split
  all_goals rfl

/-- Every operation but a timer which fires in a session which is closing. -/
theorem step_s (w : St) (op : Op) (ht : Client.Top w.s)
    (ho : ∀ snd t, op = .timer snd t → w.s.phase ≠ .closing) :
    (step w op).s = (tr w op).foldl Client.step w.s := by
  cases op with
  | connect r =>
    show (if _ then _ else _ : St).s = if w.s.held && w.s.phase = .connecting then w.s.doOne (tls r) else w.s
    split
    · exact doOne_s w r
    · rfl
  | send => exact act_s w .send
  | close l => exact act_s w (.close l)
  | kill =>
    show (if _ then _ else _ : St).s = if w.s.held then { w.s.destroy with held := false } else w.s
    split <;> rfl
  | packet r =>
    show (if _ then _ else _ : St).s = if w.s.held then w.s.packet (tls r) else w.s
    split
    · unfold St.packet Client.St.packet
      dsimp only
      rw [doOne_s]
      split <;> rfl
    · rfl
  | udpDone =>
    show (if _ then _ else _ : St).s = if w.s.net = .flying then { w.s with net := .done } else w.s
    split <;> rfl
  | sent r =>
    show (if _ then _ else _ : St).s = if w.s.net = .done then w.s.sent (tls r) else w.s
    split
    · next hn =>
      unfold St.sent Client.St.sent
      dsimp only
      split
      · have hd : (Client.St.endEvent { w.s with net := .idle }).touch.destroyed = true := by
          obtain ⟨hb, hf⟩ := Client.inv_way ht.1 (by rw [hn]; simp)
          rcases Bool.eq_false_or_eq_true w.s.held with hh | hh
          · rw [Client.endEvent_eq (s := { w.s with net := .idle }) hf hh, if_neg (by simp [hb])]
            unfold Client.St.touch; split <;> rfl
          · have hd := ht.1.dead
            rw [hh] at hd
            unfold Client.St.endEvent
            dsimp only
            rw [if_neg (by rw [hh]; simp)]
            unfold Client.St.touch
            split <;> simpa using hd
        rw [if_pos hd, if_pos (show Client.St.destroyed { (Client.St.endEvent { w.s with net := .idle }).touch with buf := false } = true from hd)]
      · split <;> exact doOne_s _ r
    · rfl
  | runSend snd ret =>
    show (if _ then _ else _ : St).s = if w.s.ev then w.s.runSend (wr snd ret) else w.s
    split
    · unfold St.runSend Client.St.runSend wr
      dsimp only
      split
      · rfl
      · split
        · rfl
        · cases w.s.queue with
          | nil => rfl
          | cons m q => cases ret <;> rfl
    · rfl
  | timer snd t =>
    have hp := ho snd t rfl
    show (if _ then _ else _ : St).s = (if _ then _ else _ : List Client.Op).foldl Client.step w.s
    rw [if_neg hp]
    split
    · next h =>
      have hf : w.s.freed = 0 := by simp only [Bool.and_eq_true, decide_eq_true_eq] at h; exact h.2
      show _ = if w.s.freed = 0 then w.s.doOne (tmo snd t) else w.s
      rw [if_pos hf]
      unfold Client.St.doOne St.handleTimeout
      rw [if_neg hp]
      cases t with
      | again t => rfl
      | other => rfl
      | failed =>
        have hh : w.s.held = true := by
          rw [ht.1.dead]
          cases hd : w.s.destroyed
          · rfl
          · exact absurd (ht.1.closing hd) hp
        exact endEvent_late (Client.inv_emits snd ht.1 hh).2.1
    · rfl

/-- A timer which fires in a session which is closing ends it once more. -/
theorem step_late (w : St) (snd : List Bool) (t : Timeout) (ht : Client.Top w.s) (hp : w.s.phase = .closing)
    (ha : w.timer = true) (hf : w.s.freed = 0) :
    step w (.timer snd t) = match t with
      | .again t => { w with timer := t }
      | .other => { w with timer := false }
      | .failed => { w with s := w.s.endEvent, timer := false } := by
  have hb : w.s.buf = true := by
    rcases Bool.eq_false_or_eq_true w.s.held with hh | hh
    · exact ht.1.wait hp hh
    · have ho := ht.1.once
      have hd := ht.1.dead
      rw [hh] at hd
      rw [hf, ht.2] at ho
      cases hd' : w.s.destroyed
      · rw [hd'] at hd; cases hd
      · rw [hd'] at ho
        cases hb : w.s.buf
        · rw [hb] at ho; cases ho
        · rfl
  show (if w.timer && w.s.freed = 0 then w.handleTimeout snd t else w) = _
  rw [if_pos (by simp [ha, hf])]
  unfold St.handleTimeout
  rw [Client.emits_buf hf hb]
  cases t <;> rfl

theorem step_e (w : St) (op : Op) (ht : Client.Top w.s) :
    ∃ k, (step w op).s = { (tr w op).foldl Client.step w.s with ends := k } := by
  by_cases hx : ∃ snd t, op = .timer snd t ∧ w.s.phase = .closing
  · obtain ⟨snd, t, rfl, hp⟩ := hx
    by_cases ha : w.timer = true ∧ w.s.freed = 0
    · rw [step_late w snd t ht hp ha.1 ha.2]
      unfold tr
      dsimp only
      rw [if_pos (by simp [ha.1, ha.2]), if_pos hp]
      cases t with
      | again t => exact ⟨w.s.ends, rfl⟩
      | other => exact ⟨w.s.ends, rfl⟩
      | failed =>
        refine ⟨w.s.ends + 1, ?_⟩
        have e : [Client.Op.kill].foldl Client.step w.s =
            if w.s.held then { w.s.destroy with held := false } else w.s := rfl
        rw [if_pos rfl, e]
        unfold Client.St.endEvent
        dsimp only
        split
        · rw [e_destroy]
        · rfl
    · have e : step w (.timer snd t) = w := by
        show (if w.timer && w.s.freed = 0 then w.handleTimeout snd t else w) = w
        rw [if_neg (by simpa using ha)]
      rw [e]
      unfold tr
      dsimp only
      rw [if_neg (by simpa using ha)]
      exact ⟨w.s.ends, rfl⟩
  · exact ⟨_, step_s w op ht (fun snd t he hp => hx ⟨snd, t, he, hp⟩)⟩

/-- The history of `Dtls/Client` which does the same. -/
def trFrom (w : St) : List Op → List Client.Op
  | [] => []
  | op :: ops => tr w op ++ trFrom (step w op) ops

def trs (ops : List Op) : List Client.Op := trFrom St.init ops

theorem trFrom_append (a b : List Op) : ∀ w : St, trFrom w (a ++ b) = trFrom w a ++ trFrom (a.foldl step w) b := by
  induction a with
  | nil => intro w; rfl
  | cons op a ih =>
    intro w
    have e : trFrom w (op :: (a ++ b)) = tr w op ++ trFrom (step w op) (a ++ b) := rfl
    rw [List.cons_append, e, ih, ← List.append_assoc]; rfl

theorem top_steps (ops : List Client.Op) : ∀ {s : Client.St}, Client.Top s → Client.Top (ops.foldl Client.step s) := by
  induction ops with
  | nil => intro s h; exact h
  | cons op ops ih => intro s h; exact ih (Client.top_step op h)

theorem top_wstep {w : St} (op : Op) (h : Client.Top w.s) : Client.Top (step w op).s := by
  obtain ⟨k, e⟩ := step_e w op h
  rw [e]
  exact e_top k (top_steps _ h)

theorem run_from (ops : List Op) : ∀ w : St, Client.Top w.s → Client.Top (ops.foldl step w).s ∧
    ∃ k, (ops.foldl step w).s = { (trFrom w ops).foldl Client.step w.s with ends := k } := by
  induction ops with
  | nil => intro w h; exact ⟨h, w.s.ends, rfl⟩
  | cons op ops ih =>
    intro w h
    obtain ⟨h1, k, h2⟩ := ih (step w op) (top_wstep op h)
    refine ⟨h1, ?_⟩
    obtain ⟨k1, e1⟩ := step_e w op h
    have e : (trFrom w (op :: ops)).foldl Client.step w.s =
        (trFrom (step w op) ops).foldl Client.step ((tr w op).foldl Client.step w.s) := by
      show (tr w op ++ trFrom (step w op) ops).foldl Client.step w.s = _
      rw [List.foldl_append]
    rw [List.foldl_cons, h2, e, e1]
    obtain ⟨k2, e2⟩ := e_steps (trFrom (step w op) ops) ((tr w op).foldl Client.step w.s) k1
    rw [e2]
    exact ⟨k, rfl⟩

/-- The session with wolfSSL does what the session with mbed TLS does in another history, but for how often the attacher hears
of its end. -/
theorem run_s (ops : List Op) : ∃ k, (run ops).s = { Client.run (trs ops) with ends := k } :=
  (run_from ops St.init (Client.top_run [])).2

theorem top_run (ops : List Op) : Client.Top (run ops).s := (run_from ops St.init (Client.top_run [])).1

theorem trs_append (a b : List Op) : trs (a ++ b) = trs a ++ trFrom (run a) b := trFrom_append a b St.init

theorem trFrom_rounds (snd : List Bool) (r : WriteRet) (n : Nat) : ∀ w : St,
    trFrom w (List.replicate n (round snd r)).flatten = (List.replicate n (Client.Spec.round (wr snd r))).flatten := by
  induction n with
  | zero => intro w; rfl
  | succ n ih =>
    intro w
    rw [List.replicate_succ, List.flatten_cons, trFrom_append, ih]
    rfl

/-! ### What wolfSSL took -/

theorem acts_taken (l : List Client.Act) : ∀ w : St, (w.acts l).taken = w.taken := by
  induction l with
  | nil => intro w; rfl
  | cons a l ih =>
    intro w
    show ((w.act a).acts l).taken = _
    rw [ih]
    cases a with
    | send => unfold St.act; dsimp only; split <;> rfl
    | close l =>
      unfold St.act; dsimp only; split
      · unfold St.close; split
        · rfl
        · dsimp only; split <;> rfl
      · rfl

theorem doOne_taken (w : St) (r : Tls) : (w.doOne r).taken = w.taken := by
  unfold St.doOne
  cases w.s.phase with
  | closing => rfl
  | connecting =>
    dsimp only
    cases r.ret with
    | ok acts => dsimp only; rw [acts_taken]
    | _ => rfl
  | data =>
    dsimp only
    cases r.ret with
    | ok acts => dsimp only; rw [acts_taken]
    | _ => rfl

/-- The fields which only `runSend` changes, and the one which only an end changes. -/
theorem touch_wire (s : Client.St) : s.touch.wire = s.wire ∧ s.touch.held = s.held := by
  unfold Client.St.touch; split <;> exact ⟨rfl, rfl⟩

theorem emits_wire (l : List Bool) : ∀ s : Client.St, (s.emits l).wire = s.wire ∧ (s.emits l).held = s.held := by
  induction l with
  | nil => intro s; exact ⟨rfl, rfl⟩
  | cons m l ih =>
    intro s
    show ((s.emit m).emits l).wire = _ ∧ ((s.emit m).emits l).held = _
    rw [(ih _).1, (ih _).2]
    unfold Client.St.emit
    split
    · exact touch_wire s
    · split <;> exact touch_wire s

theorem destroy_wire (s : Client.St) : s.destroy.wire = s.wire := by
  unfold Client.St.destroy
  dsimp only
  split
  · unfold Client.St.free
    exact (touch_wire _).1.trans (touch_wire s).1
  · exact (touch_wire s).1

theorem endEvent_wire (s : Client.St) : s.endEvent.wire = s.wire := by
  unfold Client.St.endEvent
  dsimp only
  split
  · exact destroy_wire _
  · rfl

theorem send_wire (s : Client.St) : s.send.wire = s.wire ∧ s.send.held = s.held := by
  unfold Client.St.send
  split
  · exact ⟨rfl, rfl⟩
  · exact touch_wire { s with queue := s.queue ++ [s.next], next := s.next + 1 }

theorem close_wire (s : Client.St) (l : List Bool) : (s.close l).wire = s.wire := by
  have h : (Client.St.emits { s with phase := .closing } l).touch.wire = s.wire :=
    (touch_wire _).1.trans (emits_wire l { s with phase := .closing }).1
  unfold Client.St.close
  split
  · rfl
  · dsimp only
    split
    · exact h
    · rw [endEvent_wire]; exact h

theorem acts_wire (l : List Client.Act) : ∀ s : Client.St, (s.acts l).wire = s.wire := by
  induction l with
  | nil => intro s; rfl
  | cons a l ih =>
    intro s
    show ((s.act a).acts l).wire = _
    rw [ih]
    cases a with
    | send => unfold Client.St.act; dsimp only; split; exact (send_wire s).1; rfl
    | close l => unfold Client.St.act; dsimp only; split; exact close_wire s l; rfl

theorem doOne_wire (s : Client.St) (r : Client.Tls) : (s.doOne r).wire = s.wire := by
  unfold Client.St.doOne
  split
  · rfl
  · dsimp only
    split
    · exact (emits_wire _ s).1
    · rw [acts_wire]; exact (emits_wire _ s).1
    · rw [endEvent_wire]; exact (emits_wire _ s).1

/-- Only writing a message changes what was taken. -/
theorem step_taken (w : St) (op : Op) (h : ∀ snd r, op ≠ .runSend snd r) :
    (step w op).taken = w.taken ∧ (step w op).s.wire = w.s.wire := by
  cases op with
  | runSend snd r => exact absurd rfl (h snd r)
  | connect r =>
    unfold step; dsimp only; split
    · exact ⟨doOne_taken w r, by rw [doOne_s]; exact doOne_wire _ _⟩
    · exact ⟨rfl, rfl⟩
  | send =>
    refine ⟨acts_taken [.send] w, ?_⟩
    show (w.act .send).s.wire = _
    rw [act_s]; exact acts_wire [.send] w.s
  | close l =>
    refine ⟨acts_taken [.close l] w, ?_⟩
    show (w.act (.close l)).s.wire = _
    rw [act_s]; exact acts_wire [.close l] w.s
  | kill => unfold step; dsimp only; split; exact ⟨rfl, destroy_wire _⟩; exact ⟨rfl, rfl⟩
  | packet r =>
    unfold step; dsimp only; split
    · have h1 := doOne_taken { w with s := { w.s with receiving := true } } r
      have h2 : (St.doOne { w with s := { w.s with receiving := true } } r).s.wire = w.s.wire := by
        rw [doOne_s]; exact doOne_wire { w.s with receiving := true } (tls r)
      unfold St.packet
      generalize St.doOne { w with s := { w.s with receiving := true } } r = w1 at h1 h2 ⊢
      dsimp only
      split
      · refine ⟨h1, ?_⟩
        exact ((touch_wire { w1.s.touch with receiving := false }).1.trans (touch_wire w1.s).1).trans h2
      · exact ⟨h1, (touch_wire w1.s).1.trans h2⟩
    · exact ⟨rfl, rfl⟩
  | udpDone => unfold step; dsimp only; split <;> exact ⟨rfl, rfl⟩
  | sent r =>
    unfold step; dsimp only; split
    · unfold St.sent
      split
      · have h2 : (Client.St.endEvent { w.s with net := .idle }).touch.wire = w.s.wire :=
          (touch_wire _).1.trans (endEvent_wire _)
        dsimp only
        split
        · exact ⟨rfl, (touch_wire _).1.trans h2⟩
        · exact ⟨rfl, h2⟩
      · dsimp only
        refine ⟨doOne_taken _ r, ?_⟩
        rw [doOne_s, doOne_wire]
        dsimp only
        split
        · exact (touch_wire { w.s with buf := false, net := .idle }).1
        · rfl
    · exact ⟨rfl, rfl⟩
  | timer snd t =>
    unfold step; dsimp only; split
    · unfold St.handleTimeout
      cases t with
      | again t => exact ⟨rfl, (emits_wire snd w.s).1⟩
      | other => exact ⟨rfl, (emits_wire snd w.s).1⟩
      | failed => exact ⟨rfl, (endEvent_wire _).trans (emits_wire snd w.s).1⟩
    · exact ⟨rfl, rfl⟩

theorem runSend_taken (w : St) (snd : List Bool) (r : WriteRet) :
    (∃ l, (step w (.runSend snd r)).taken = w.taken ++ (if r = .positive then l else []) ∧
      (step w (.runSend snd r)).s.wire = w.s.wire ++ (if r = .negative then [] else l)) := by
  have nil : ∀ a : List Nat, a = a ++ (if r = .positive then [] else []) ∧ a = a ++ (if r = .negative then [] else []) := by
    intro a; constructor <;> (split <;> simp)
  unfold step; dsimp only; split
  · unfold St.runSend
    dsimp only
    split
    · exact ⟨[], (nil _).1, (nil _).2⟩
    · split
      · exact ⟨[], (nil _).1, (nil _).2⟩
      · cases hq : w.s.queue with
        | nil => exact ⟨[], (nil _).1, (nil _).2⟩
        | cons m q =>
          have he := (emits_wire snd { w.s with ev := false, queue := q }).1
          refine ⟨[m], ?_⟩
          dsimp only
          generalize Client.St.emits { w.s with ev := false, queue := q } snd = s2 at he ⊢
          cases r with
          | positive =>
            refine ⟨rfl, ?_⟩
            exact (touch_wire { s2 with answers := s2.answers ++ [(m, .ok)], wire := s2.wire ++ [m] }).1.trans (by
              show s2.wire ++ [m] = _; rw [he]; rfl)
          | zero =>
            refine ⟨(List.append_nil _).symm, ?_⟩
            exact (touch_wire { s2 with answers := s2.answers ++ [(m, .ok)], wire := s2.wire ++ [m] }).1.trans (by
              show s2.wire ++ [m] = _; rw [he]; rfl)
          | negative =>
            refine ⟨(List.append_nil _).symm, ?_⟩
            exact (touch_wire { s2 with answers := s2.answers ++ [(m, .unknown)] }).1.trans (by
              show s2.wire = _; rw [he]; exact (List.append_nil _).symm)
  · exact ⟨[], (nil _).1, (nil _).2⟩

theorem taken_run (ops : List Op) : (run ops).taken.Sublist (run ops).s.wire ∧
    ((∀ snd, Op.runSend snd .zero ∉ ops) → (run ops).taken = (run ops).s.wire) := by
  induction ops using Client.snoc_ind with
  | h0 => exact ⟨List.Sublist.refl _, fun _ => rfl⟩
  | hs ops op ih =>
    have e : run (ops ++ [op]) = step (run ops) op := by unfold run; rw [List.foldl_append]; rfl
    rw [e]
    by_cases hx : ∃ snd r, op = .runSend snd r
    · obtain ⟨snd, r, rfl⟩ := hx
      obtain ⟨l, h1, h2⟩ := runSend_taken (run ops) snd r
      rw [h1, h2]
      refine ⟨List.Sublist.append ih.1 ?_, fun hz => ?_⟩
      · cases r
        · exact List.Sublist.refl _
        · exact List.nil_sublist _
        · exact List.Sublist.refl _
      · rw [ih.2 (fun snd hm => hz snd (by simp [hm]))]
        cases r
        · rfl
        · exact absurd (by simp) (hz snd)
        · rfl
    · obtain ⟨h1, h2⟩ := step_taken (run ops) op (fun snd r he => hx ⟨snd, r, he⟩)
      rw [h1, h2]
      exact ⟨ih.1, fun hz => ih.2 (fun snd hm => hz snd (by simp [hm]))⟩

theorem wire_keep (ops more : List Op) {m : Nat} (h : m ∈ (run ops).s.wire) : m ∈ (run (ops ++ more)).s.wire := by
  induction more using Client.snoc_ind with
  | h0 => rw [List.append_nil]; exact h
  | hs more op ih =>
    have e : run (ops ++ (more ++ [op])) = step (run (ops ++ more)) op := by
      unfold run; rw [← List.append_assoc, List.foldl_append]; rfl
    rw [e]
    by_cases hx : ∃ snd r, op = .runSend snd r
    · obtain ⟨snd, r, rfl⟩ := hx
      obtain ⟨l, -, t2⟩ := runSend_taken (run (ops ++ more)) snd r
      rw [t2]; exact List.mem_append_left _ ih
    · rw [(step_taken _ op (fun snd r he => hx ⟨snd, r, he⟩)).2]; exact ih

/-! ### What the attacher hears -/

/-- A session which the attacher gave up has no timer, unless the attacher was freed. -/
def Off (w : St) : Prop := w.s.held = false → w.timer = false

theorem off_acts (l : List Client.Act) : ∀ {w : St}, Off w → Off (w.acts l) := by
  induction l with
  | nil => intro w h; exact h
  | cons a l ih =>
    intro w h
    refine ih (w := w.act a) ?_
    cases a with
    | send =>
      unfold St.act; dsimp only; split
      · intro hx; exact h ((send_wire w.s).2.symm.trans hx)
      · exact h
    | close l =>
      unfold St.act; dsimp only; split
      · unfold St.close
        split
        · exact h
        · dsimp only
          split
          · intro hx
            exact h (((touch_wire _).2.trans (emits_wire l { w.s with phase := .closing }).2).symm.trans hx)
          · intro _; rfl
      · exact h

theorem off_doOne {w : St} (r : Tls) (h : Off w) (hh : w.s.held = true ∨ w.s.phase = .closing) : Off (w.doOne r) := by
  unfold St.doOne
  cases hp : w.s.phase with
  | closing => exact h
  | connecting =>
    dsimp only
    cases r.ret with
    | wantRead t =>
      intro hx
      have hx : (w.s.emits r.snd).held = false := hx
      rw [(emits_wire r.snd w.s).2] at hx
      rcases hh with hh | hh
      · rw [hh] at hx; cases hx
      · rw [hp] at hh; cases hh
    | wantWrite => intro hx; exact h ((emits_wire r.snd w.s).2.symm.trans hx)
    | ended => intro _; rfl
    | ok acts => exact off_acts acts (fun _ => rfl)
  | data =>
    dsimp only
    cases r.ret with
    | wantRead t => intro hx; exact h ((emits_wire r.snd w.s).2.symm.trans hx)
    | wantWrite => intro hx; exact h ((emits_wire r.snd w.s).2.symm.trans hx)
    | ended => intro _; rfl
    | ok acts => exact off_acts acts (fun hx => h ((emits_wire r.snd w.s).2.symm.trans hx))

theorem held_or_closing {s : Client.St} (h : Client.Inv s) : s.held = true ∨ s.phase = .closing := by
  rcases Bool.eq_false_or_eq_true s.held with hh | hh
  · exact Or.inl hh
  · right
    refine h.closing ?_
    have := h.dead
    rw [hh] at this
    cases hd : s.destroyed
    · rw [hd] at this; cases this
    · rfl

theorem off_step {w : St} (op : Op) (hk : op ≠ .kill) (ht : Client.Top w.s) (h : Off w) : Off (step w op) := by
  cases op with
  | kill => exact absurd rfl hk
  | connect r =>
    unfold step; dsimp only; split
    · exact off_doOne r h (held_or_closing ht.1)
    · exact h
  | send => exact off_acts [.send] h
  | close l => exact off_acts [.close l] h
  | packet r =>
    unfold step; dsimp only; split
    · next hh =>
      have h1 : Off (St.doOne { w with s := { w.s with receiving := true } } r) := off_doOne r h (Or.inl hh)
      unfold St.packet
      generalize St.doOne { w with s := { w.s with receiving := true } } r = w1 at h1 ⊢
      dsimp only
      split
      · intro _; rfl
      · intro hx; exact h1 ((touch_wire w1.s).2.symm.trans hx)
    · exact h
  | udpDone => unfold step; dsimp only; split <;> exact h
  | sent r =>
    unfold step; dsimp only; split
    · unfold St.sent
      split
      · dsimp only; split <;> (intro _; rfl)
      · dsimp only
        have hs := held_or_closing ht.1
        split
        · refine off_doOne r (fun hx => h ?_) ?_
          · exact (touch_wire { w.s with buf := false, net := .idle }).2.symm.trans hx
          · rcases hs with hs | hs
            · exact Or.inl ((touch_wire { w.s with buf := false, net := .idle }).2.trans hs)
            · exact absurd hs ‹_›
        · exact off_doOne r h hs
    · exact h
  | runSend snd ret =>
    unfold step; dsimp only; split
    · unfold St.runSend
      dsimp only
      split
      · exact h
      · split
        · exact h
        · cases w.s.queue with
          | nil => exact h
          | cons m q =>
            have he := (emits_wire snd { w.s with ev := false, queue := q }).2
            dsimp only
            generalize Client.St.emits { w.s with ev := false, queue := q } snd = s2 at he ⊢
            split
            · intro hx
              exact h (((touch_wire { s2 with answers := s2.answers ++ [(m, .unknown)] }).2.trans he).symm.trans hx)
            · intro hx
              exact h (((touch_wire { s2 with answers := s2.answers ++ [(m, .ok)], wire := s2.wire ++ [m] }).2.trans
                he).symm.trans hx)
    · exact h
  | timer snd t =>
    unfold step; dsimp only; split
    · next hc =>
      have ha : w.timer = true := by simp only [Bool.and_eq_true] at hc; exact hc.1
      have hh : w.s.held = true := by
        rcases Bool.eq_false_or_eq_true w.s.held with hh | hh
        · exact hh
        · rw [h hh] at ha; cases ha
      unfold St.handleTimeout
      cases t with
      | failed => intro _; rfl
      | other => intro _; rfl
      | again t =>
        intro hx
        have hx : (w.s.emits snd).held = false := hx
        rw [(emits_wire snd w.s).2, hh] at hx; cases hx
    · exact h

theorem hear_tr {s : Client.St} (l : List Client.Op) (hl : l = [] ∨ ∃ op, l = [op] ∧ op ≠ .kill) (ht : Client.Top s)
    (h : Client.Hear s) : Client.Hear (l.foldl Client.step s) := by
  rcases hl with rfl | ⟨op, rfl, hk⟩
  · exact h
  · exact Client.hear_step op hk ht h

theorem hear_step {w : St} (op : Op) (hk : op ≠ .kill) (ht : Client.Top w.s) (ho : Off w) (h : Client.Hear w.s) :
    Client.Hear (step w op).s := by
  by_cases hx : ∃ snd t, op = .timer snd t ∧ w.s.phase = .closing
  · obtain ⟨snd, t, rfl, hp⟩ := hx
    by_cases ha : w.timer = true ∧ w.s.freed = 0
    · rw [step_late w snd t ht hp ha.1 ha.2]
      cases t with
      | again t => exact h
      | other => exact h
      | failed =>
        have hh : w.s.held = true := by
          rcases Bool.eq_false_or_eq_true w.s.held with hh | hh
          · exact hh
          · rw [ho hh] at ha; cases ha.1
        exact Client.hear_endEvent hh ha.2 (h.quiet hh)
    · have e : step w (.timer snd t) = w := by
        show (if w.timer && w.s.freed = 0 then w.handleTimeout snd t else w) = w
        rw [if_neg (by simpa using ha)]
      rw [e]; exact h
  · have hx' : ∀ snd t, op = .timer snd t → w.s.phase ≠ .closing := fun snd t he hp => hx ⟨snd, t, he, hp⟩
    rw [step_s w op ht hx']
    refine hear_tr _ ?_ ht h
    cases op with
    | kill => exact absurd rfl hk
    | timer snd t =>
      unfold tr
      dsimp only
      rw [if_neg (hx' snd t rfl)]
      split
      · exact Or.inr ⟨_, rfl, by simp⟩
      · exact Or.inl rfl
    | _ => exact Or.inr ⟨_, rfl, by simp⟩

theorem hear_run (ops : List Op) (hk : .kill ∉ ops) : Client.Hear (run ops).s ∧ Off (run ops) := by
  induction ops using Client.snoc_ind with
  | h0 => exact ⟨⟨fun _ => rfl, fun h => (by cases h), Nat.zero_le _⟩, fun _ => rfl⟩
  | hs ops op ih =>
    have e : run (ops ++ [op]) = step (run ops) op := by unfold run; rw [List.foldl_append]; rfl
    rw [e]
    have hk' : op ≠ .kill := fun h => hk (by simp [h])
    obtain ⟨h1, h2⟩ := ih (fun h => hk (by simp [h]))
    exact ⟨hear_step op hk' (top_run ops) h2 h1, off_step op hk' (top_run ops) h2⟩

end Verif.Dtls.WolfClient
