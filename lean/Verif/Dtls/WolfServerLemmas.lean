import Verif.Dtls.WolfServerSpec
import Verif.Dtls.ServerProps

/-!
# The secure session of a client connection, with wolfSSL — refinement of `Dtls/Server`
-/

namespace Verif.Dtls.WolfServer

open Spec

def ret : Ret → Server.Ret
  | .wantRead _ | .wantWrite => .want
  | .ok acts => .ok acts
  | .ended => .ended

def tls (r : Tls) : Server.Tls := ⟨r.snd, ret r.ret⟩

def wr (snd : List Server.Snd) (ok : Bool) : Server.Write := ⟨snd, if ok then .ok else .error⟩

def tmo (snd : List Server.Snd) : Timeout → Server.Tls
  | .failed => ⟨snd, .ended⟩
  | _ => ⟨snd, .want⟩

/-- The operation of `Dtls/Server` which does the same. -/
def tr (w : St) : Op → List Server.Op
  | .send => [.send]
  | .close l => [.close l]
  | .kill => [.kill]
  | .packet r => [.packet (tls r)]
  | .udpDone => [.udpDone]
  | .sent r => [.sent (tls r)]
  | .runSend snd ok => [.runSend (wr snd ok)]
  | .timer snd t => if w.timer && w.s.freed = 0 then [.timer (tmo snd t)] else []

theorem close_s (w : St) (l : List Server.Snd) : (w.close l).s = w.s.close l := by
  unfold St.close Server.St.close; split <;> rfl

theorem act_s (w : St) (a : Server.Act) : (w.act a).s = w.s.act a := by
  cases a with
  | send => unfold St.act Server.St.act; dsimp only; split <;> rfl
  | close l => unfold St.act Server.St.act; dsimp only; split; exact close_s w l; rfl

theorem acts_s (l : List Server.Act) : ∀ w : St, (w.acts l).s = w.s.acts l := by
  induction l with
  | nil => intro w; rfl
  | cons a l ih =>
    intro w
    show ((w.act a).acts l).s = (w.s.act a).acts l
    rw [ih, act_s]

theorem handler_s (w : St) (l : List Server.Act) :
    (w.handler l).s = if w.s.owner then w.s.acts l else { w.s with bad := true } := by
  unfold St.handler
  split
  · exact acts_s l w
  · rfl

theorem emits_phase (l : List Server.Snd) : ∀ s : Server.St, (s.emits l).phase = s.phase := by
  induction l with
  | nil => intro s; rfl
  | cons r l ih =>
    intro s
    show ((s.emit r).emits l).phase = _
    rw [ih]
    unfold Server.St.emit
    split
    · rfl
    · split
      · rfl
      · split <;> rfl
      · split <;> rfl

theorem doOne_s (w : St) (r : Tls) : (w.doOne r).s = w.s.doOne (tls r) := by
  unfold St.doOne Server.St.doOne tls
  cases hp : w.s.phase with
  | closing => rfl
  | connecting =>
    dsimp only
    rw [if_neg (by simp)]
    cases hr : r.ret with
    | wantRead t => rfl
    | wantWrite => rfl
    | ended => rfl
    | ok acts => dsimp only [ret]; rw [handler_s]
  | data =>
    dsimp only
    rw [if_neg (by simp)]
    cases hr : r.ret with
    | wantRead t => rfl
    | wantWrite => rfl
    | ended => rfl
    | ok acts =>
      dsimp only [ret]
      rw [handler_s]
      have := emits_phase r.snd w.s
      rw [hp] at this
      generalize w.s.emits r.snd = s at *
      cases s
      cases this
      rfl

theorem step_s (w : St) (op : Op) (hi : w.timer = true → w.s.phase ≠ .closing) :
    (step w op).s = (tr w op).foldl Server.step w.s := by
  cases op with
  | send => exact act_s w .send
  | close l => exact act_s w (.close l)
  | kill =>
    show (if _ then _ else _ : St).s = if w.s.owner then w.s.destroyOwner else w.s
    split <;> rfl
  | packet r =>
    show (if _ then _ else _ : St).s = if w.s.owner then w.s.packet (tls r) else w.s
    split
    · unfold St.packet Server.St.packet
      dsimp only
      rw [doOne_s]
      split <;> rfl
    · rfl
  | udpDone =>
    show (if _ then _ else _ : St).s = if w.s.net = .flying then { w.s with net := .done } else w.s
    split <;> rfl
  | sent r =>
    show (if _ then _ else _ : St).s = if w.s.net = .done then w.s.sent (tls r) else w.s
    split
    · unfold St.sent Server.St.sent
      dsimp only
      split
      · rfl
      · rw [doOne_s]
    · rfl
  | runSend snd ok =>
    show (if _ then _ else _ : St).s = if w.s.ev then w.s.runSend (wr snd ok) else w.s
    split
    · unfold St.runSend Server.St.runSend wr
      dsimp only
      split
      · rfl
      · cases w.s.queue with
        | nil => rfl
        | cons m q => cases ok <;> rfl
    · rfl
  | timer snd t =>
    show (if _ then _ else _ : St).s = (if _ then _ else _ : List Server.Op).foldl Server.step w.s
    split
    · next h =>
      have ht : w.timer = true := by simp only [Bool.and_eq_true] at h; exact h.1
      have hf : w.s.freed = 0 := by simp only [Bool.and_eq_true, decide_eq_true_eq] at h; exact h.2
      show _ = if w.s.freed = 0 then w.s.doOne (tmo snd t) else w.s
      rw [if_pos hf]
      unfold Server.St.doOne St.handleTimeout
      rw [if_neg (hi ht)]
      cases t <;> rfl
    · rfl

/-- The timer is never set while the session is closing. -/
def Ok (w : St) : Prop := w.timer = true → w.s.phase ≠ .closing

theorem ok_close (w : St) (l : List Server.Snd) (h : Ok w) : Ok (w.close l) := by
  unfold St.close
  split
  · exact h
  · intro hx; cases hx

theorem ok_act (w : St) (a : Server.Act) (h : Ok w) : Ok (w.act a) := by
  cases a with
  | send =>
    unfold St.act; dsimp only; split
    · intro hx hp
      refine h hx ?_
      have hp : w.s.send.phase = .closing := hp
      unfold Server.St.send at hp
      split at hp
      · exact hp
      · unfold Server.St.startSend Server.St.touch at hp
        dsimp only at hp
        split at hp <;> exact hp
    · exact h
  | close l => unfold St.act; dsimp only; split; exact ok_close w l h; exact h

theorem ok_acts (l : List Server.Act) : ∀ w : St, Ok w → Ok (w.acts l) := by
  induction l with
  | nil => intro w h; exact h
  | cons a l ih => intro w h; exact ih _ (ok_act w a h)

theorem ok_handler (w : St) (l : List Server.Act) (h : Ok w) : Ok (w.handler l) := by
  unfold St.handler
  split
  · exact ok_acts l w h
  · exact h

theorem touch_phase (s : Server.St) : s.touch.phase = s.phase := by unfold Server.St.touch; split <;> rfl

theorem free_phase (s : Server.St) : s.free.phase = s.phase := touch_phase s

theorem destroy_phase (s : Server.St) : s.destroy.phase = s.phase := by
  unfold Server.St.destroy
  dsimp only
  split
  · rw [free_phase]; exact touch_phase s
  · exact touch_phase s

theorem destroyOwner_phase (s : Server.St) : s.destroyOwner.phase = s.phase := destroy_phase s

theorem closedEvent_phase (s : Server.St) : s.closedEvent.phase = s.phase := by
  unfold Server.St.closedEvent
  split
  · exact destroyOwner_phase s
  · rfl

theorem isClosed_phase (s : Server.St) : s.isClosed.phase = s.phase := by
  unfold Server.St.isClosed
  split
  · rfl
  · split
    · rfl
    · split
      · rfl
      · exact closedEvent_phase s

theorem ok_doOne (w : St) (r : Tls) (h : Ok w) : Ok (w.doOne r) := by
  unfold St.doOne
  cases hp : w.s.phase with
  | closing => exact h
  | connecting =>
    dsimp only
    cases r.ret with
    | wantRead t => intro _ hx; rw [show (w.s.emits r.snd).phase = _ from emits_phase _ _, hp] at hx; cases hx
    | wantWrite => intro _ hx; rw [show (w.s.emits r.snd).phase = _ from emits_phase _ _, hp] at hx; cases hx
    | ended => intro hx; cases hx
    | ok acts => exact ok_handler _ _ (fun hx => (by cases hx))
  | data =>
    dsimp only
    cases r.ret with
    | wantRead t => intro _ hx; rw [show (w.s.emits r.snd).phase = _ from emits_phase _ _, hp] at hx; cases hx
    | wantWrite => intro _ hx; rw [show (w.s.emits r.snd).phase = _ from emits_phase _ _, hp] at hx; cases hx
    | ended =>
      intro _ hx
      rw [show (w.s.emits r.snd).closedEvent.phase = _ from closedEvent_phase _, emits_phase, hp] at hx; cases hx
    | ok acts =>
      refine ok_handler _ _ (fun _ hx => ?_)
      rw [show (w.s.emits r.snd).phase = _ from emits_phase _ _, hp] at hx; cases hx

theorem ok_step (w : St) (op : Op) (h : Ok w) : Ok (step w op) := by
  cases op with
  | send => exact ok_act w .send h
  | close l => exact ok_act w (.close l) h
  | kill =>
    unfold step; dsimp only; split
    · intro hx hp; exact h hx ((destroyOwner_phase w.s).symm.trans hp)
    · exact h
  | packet r =>
    unfold step; dsimp only; split
    · have h1 : Ok (St.doOne { w with s := { w.s with receiving := true } } r) := ok_doOne _ r h
      unfold St.packet
      dsimp only
      split
      · intro hx; cases hx
      · intro hx hp; exact h1 hx ((touch_phase _).symm.trans hp)
    · exact h
  | udpDone => unfold step; dsimp only; split <;> exact h
  | sent r =>
    unfold step; dsimp only; split
    · unfold St.sent
      dsimp only
      split
      · intro hx; cases hx
      · have h1 : Ok (St.doOne { w with s := { w.s with buf := false, net := .idle } } r) := ok_doOne _ r h
        intro hx hp; exact h1 hx ((touch_phase _).symm.trans hp)
    · exact h
  | runSend snd ok =>
    unfold step; dsimp only; split
    · unfold St.runSend
      dsimp only
      split
      · exact h
      · split
        · intro hx hp
          exact h hx ((isClosed_phase { w.s with ev := false }).symm.trans hp)
        · next q _ =>
          split
          · intro hx hp; exact h hx ((emits_phase snd { w.s with ev := false, queue := q }).symm.trans hp)
          · intro hx hp; exact h hx ((emits_phase snd { w.s with ev := false, queue := q }).symm.trans hp)
    · exact h
  | timer snd t =>
    unfold step; dsimp only; split
    · next hc =>
      have ht : w.timer = true := by simp only [Bool.and_eq_true] at hc; exact hc.1
      unfold St.handleTimeout
      cases t with
      | again t => intro _ hp; exact h ht ((emits_phase _ _).symm.trans hp)
      | failed => intro hx; cases hx
      | other => intro hx; cases hx
    · exact h

/-- The history of `Dtls/Server` which does the same. -/
def trFrom (w : St) : List Op → List Server.Op
  | [] => []
  | op :: ops => tr w op ++ trFrom (step w op) ops

def trs (ops : List Op) : List Server.Op := trFrom St.init ops

theorem trFrom_append (a b : List Op) : ∀ w : St, trFrom w (a ++ b) = trFrom w a ++ trFrom (a.foldl step w) b := by
  induction a with
  | nil => intro w; rfl
  | cons op a ih => 
    intro w
    have e : trFrom w (op :: (a ++ b)) = tr w op ++ trFrom (step w op) (a ++ b) := rfl
    rw [List.cons_append, e, ih, ← List.append_assoc]; rfl

theorem run_from (ops : List Op) : ∀ w : St, Ok w → Ok (ops.foldl step w) ∧
    (ops.foldl step w).s = (trFrom w ops).foldl Server.step w.s := by
  induction ops with
  | nil => intro w h; exact ⟨h, rfl⟩
  | cons op ops ih =>
    intro w h
    obtain ⟨h1, h2⟩ := ih (step w op) (ok_step w op h)
    refine ⟨h1, ?_⟩
    show (ops.foldl step (step w op)).s = (tr w op ++ trFrom (step w op) ops).foldl Server.step w.s
    rw [h2, List.foldl_append, step_s w op h]

/-- The session with wolfSSL does what the session with mbed TLS does in another history. -/
theorem run_s (ops : List Op) : (run ops).s = Server.run (trs ops) := (run_from ops St.init (fun h => (by cases h))).2

theorem trs_append (a b : List Op) : trs (a ++ b) = trs a ++ trFrom (run a) b := trFrom_append a b St.init

theorem mem_trFrom {ops : List Op} : ∀ {w : St} {o : Server.Op}, o ∈ trFrom w ops →
    ∃ before op after, ops = before ++ op :: after ∧ o ∈ tr (before.foldl step w) op := by
  induction ops with
  | nil => intro w o h; cases h
  | cons op ops ih =>
    intro w o h
    rcases List.mem_append.1 h with h | h
    · exact ⟨[], op, ops, rfl, h⟩
    · obtain ⟨b, op', a, he, hm⟩ := ih h
      exact ⟨op :: b, op', a, by rw [he]; rfl, hm⟩

/-- An operation of the history of `Dtls/Server` comes from one of this history, with the translated history before it. -/
theorem split_trFrom {ops : List Op} : ∀ {w : St} {b a : List Server.Op} {o : Server.Op}, trFrom w ops = b ++ o :: a →
    ∃ before op after, ops = before ++ op :: after ∧ tr (before.foldl step w) op = [o] ∧ trFrom w before = b := by
  induction ops with
  | nil => intro w b a o h; simp [trFrom] at h
  | cons op ops ih =>
    intro w b a o h
    have h : tr w op ++ trFrom (step w op) ops = b ++ o :: a := h
    have hcase : tr w op = [] ∨ ∃ x, tr w op = [x] := by
      cases op with
      | timer snd t =>
        unfold tr; dsimp only; split
        · exact Or.inr ⟨_, rfl⟩
        · exact Or.inl rfl
      | _ => exact Or.inr ⟨_, rfl⟩
    rcases hcase with hn | ⟨x, hx⟩
    · rw [hn, List.nil_append] at h
      obtain ⟨b', op', a', h1, h2, h3⟩ := ih h
      refine ⟨op :: b', op', a', by rw [h1]; rfl, h2, ?_⟩
      show tr w op ++ trFrom (step w op) b' = b
      rw [hn, h3]; rfl
    · rw [hx] at h
      cases b with
      | nil =>
        have h : x :: trFrom (step w op) ops = o :: a := h
        injection h with h1 h2
        exact ⟨[], op, ops, rfl, by rw [← h1]; exact hx, rfl⟩
      | cons y b =>
        have h : x :: trFrom (step w op) ops = y :: (b ++ o :: a) := h
        injection h with h1 h2
        obtain ⟨b', op', a', h3, h4, h5⟩ := ih h2
        refine ⟨op :: b', op', a', by rw [h3]; rfl, h4, ?_⟩
        show tr w op ++ trFrom (step w op) b' = y :: b
        rw [hx, h5, h1]; rfl

theorem onItsWay_iff (ops : List Op) : OnItsWay ops ↔ Server.Spec.OnItsWay (trs ops) := by
  unfold OnItsWay Server.Spec.OnItsWay; rw [run_s]

theorem calm_trs {ops : List Op} (h : Calm ops) : Server.Spec.Calm (trs ops) := by
  intro b o a he
  obtain ⟨before, op, after, h1, h2, h3⟩ := split_trFrom he
  have hc := h before op after h1
  have h3 : trs before = b := h3
  cases op with
  | send => injection h2 with h2; subst h2; trivial
  | close l => injection h2 with h2; subst h2; trivial
  | kill => injection h2 with h2; subst h2; subst h3; exact fun hx => hc ((onItsWay_iff before).2 hx)
  | packet r =>
    injection h2 with h2; subst h2; subst h3
    intro hx
    have hr : r.ret = .ended := by
      unfold Server.Spec.Ends tls at hx
      cases hr : r.ret <;> rw [hr] at hx <;> first | rfl | cases hx
    exact ⟨fun hy => (hc hr).1 ((onItsWay_iff before).2 hy), (hc hr).2⟩
  | udpDone => injection h2 with h2; subst h2; trivial
  | sent r =>
    injection h2 with h2; subst h2
    refine ⟨fun hx => hc.1 ?_, ?_⟩
    · unfold Server.Spec.Ends tls at hx
      cases hr : r.ret <;> rw [hr] at hx <;> first | rfl | cases hx
    · rintro ⟨acts, l, hx, hm⟩
      refine hc.2 acts l ?_ hm
      unfold tls at hx
      cases hr : r.ret <;> rw [hr] at hx <;> first | cases hx
      rfl
  | runSend snd ok => injection h2 with h2; subst h2; trivial
  | timer snd t =>
    unfold tr at h2
    dsimp only at h2
    split at h2
    · injection h2 with h2; subst h2; subst h3
      intro hx
      have ht : t = .failed := by
        cases t with
        | failed => rfl
        | again t => cases hx
        | other => cases hx
      subst ht
      exact ⟨fun hy => (hc rfl).1 ((onItsWay_iff before).2 hy), (hc rfl).2⟩
    · cases h2

theorem lossless_trs {ops : List Op} (h : Lossless ops) : Server.Spec.Lossless (trs ops) := by
  intro w hw
  obtain ⟨before, op, after, h1, h2⟩ := mem_trFrom hw
  cases op with
  | runSend snd ok =>
    have : Server.Op.runSend w = .runSend (wr snd ok) := by simpa [tr] using h2
    injection this with this
    subst this
    exact h snd ok (by rw [h1]; simp)
  | timer snd t =>
    unfold tr at h2
    dsimp only at h2
    split at h2
    · simp at h2
    · cases h2
  | _ => simp [tr] at h2

theorem trFrom_round (snd : List Server.Snd) (ok : Bool) (w : St) :
    trFrom w (round snd ok) = Server.Spec.round (wr snd ok) := rfl

theorem trFrom_rounds (snd : List Server.Snd) (ok : Bool) (n : Nat) : ∀ w : St,
    trFrom w (List.replicate n (round snd ok)).flatten = (List.replicate n (Server.Spec.round (wr snd ok))).flatten := by
  induction n with
  | zero => intro w; rfl
  | succ n ih =>
    intro w
    rw [List.replicate_succ, List.flatten_cons, trFrom_append, ih, trFrom_round]
    rw [List.replicate_succ, List.flatten_cons]

theorem run_rounds (ops : List Op) (snd : List Server.Snd) (ok : Bool) (n : Nat) :
    (run (ops ++ (List.replicate n (round snd ok)).flatten)).s =
      Server.run (trs ops ++ (List.replicate n (Server.Spec.round (wr snd ok))).flatten) := by
  rw [run_s, trs_append, trFrom_rounds]

end Verif.Dtls.WolfServer
