import Verif.Net.UdpSpec

/-
C103: waits for packets on a UDP socket.
C104: the descriptors of UDP sockets.
-/
namespace Verif.Net.Udp

open Spec

theorem snoc_ind {P : List Op → Prop} (nil : P [])
    (snoc : ∀ ops op, P ops → P (ops ++ [op])) (ops : List Op) : P ops := by
  have h : ∀ l : List Op, P l.reverse := by
    intro l
    induction l with
    | nil => exact nil
    | cons a l ih => rw [List.reverse_cons]; exact snoc _ _ ih
  have := h ops.reverse
  rwa [List.reverse_reverse] at this

/-! ### What the steps leave alone -/

/-- The part of the state that the waits are about. -/
def St.view (s : St) : Option Nat × Nat × List (Nat × Ec) × Bool × Impl :=
  (s.recv, s.asked, s.answers, s.aborted, s.impl)

@[simp] theorem view_closeFd (s : St) (n : Option Nat) : (s.closeFd n).view = s.view := by
  unfold St.closeFd
  split
  · rfl
  · split
    · rfl
    · split <;> rfl

@[simp] theorem view_opened (s : St) (n : Nat) : (s.opened n).view = s.view := rfl

@[simp] theorem view_told (s : St) (ec : Ec) : (s.told ec).view = s.view := rfl

theorem view_createAnyL (s : St) (y : Sys) : (s.createAnyL y).1.view = s.view := by
  unfold St.createAnyL
  split
  · split
    · rfl
    · simp
  · split <;> rfl

theorem view_createAnyS (s : St) (y : Sys) : (s.createAnyS y).1.view = s.view := by
  unfold St.createAnyS
  split
  · split
    · rfl
    · simp only [view_closeFd]; rfl
  · dsimp only
    split <;> split <;> rfl

theorem view_bindPort (s : St) (y : Sys) : (s.bindPort y).view = s.view := by
  unfold St.bindPort
  split
  · rfl
  · split
    · have h := view_createAnyL s y
      split
      · rename_i t e; rw [e] at h; exact h
      · rename_i t e
        rw [e] at h
        split
        · exact h
        · rw [view_told]
          exact (view_closeFd t t.sock).trans h
    · have h := view_createAnyS s y
      split
      · rename_i t e; rw [e] at h; exact h
      · rename_i t e
        rw [e] at h
        split
        · exact h
        · rw [view_told]
          exact (view_closeFd t t.sock).trans h

theorem view_bindMdns (s : St) (f : Fam) (y : Sys) : (s.bindMdns f y).view = s.view := by
  unfold St.bindMdns
  split
  · rfl
  · split
    · rfl
    · dsimp only
      split
      · rw [view_told, view_closeFd]; rfl
      · split
        · rfl
        · split
          · rfl
          · rw [view_told, view_closeFd]; rfl

theorem told_append (k : Nat) (a b : List (Nat × Ec)) : told k (a ++ b) = told k a + told k b := by
  simp [told, List.countP_append]

/-- What the waits have been told. -/
structure Told (v : Option Nat × Nat × List (Nat × Ec) × Bool × Impl) : Prop where
  one : ∀ k, told k v.2.2.1 = if k < v.2.1 ∧ v.1 ≠ some k then 1 else 0
  lt : ∀ k, v.1 = some k → k < v.2.1
  open_ : v.1.isSome → v.2.2.2.1 = false

theorem Told.complete {s : St} (h : Told s.view) (ec : Ec) : Told (s.complete ec).view := by
  unfold St.complete
  split
  · rename_i j hj
    have lt := h.lt j hj
    refine ⟨?_, (by intro k hk; cases hk), (by intro hk; cases hk)⟩
    intro k
    show told k (s.answers ++ [(j, ec)]) = if k < s.asked ∧ none ≠ some k then 1 else 0
    have o : told k s.answers = if k < s.asked ∧ s.recv ≠ some k then 1 else 0 := h.one k
    rw [told_append, o, hj]
    have lt' : j < s.asked := lt
    by_cases hk : k = j
    · subst hk
      simp [told, lt']
    · have h1 : told k [(j, ec)] = 0 := by simp [told, Ne.symm hk]
      rw [h1]
      simp [Ne.symm hk]
  · exact h

theorem complete_recv (s : St) (ec : Ec) : (s.complete ec).recv = none := by
  unfold St.complete
  split
  · rfl
  · assumption

theorem complete_aborted (s : St) (ec : Ec) : (s.complete ec).aborted = s.aborted := by
  unfold St.complete; split <;> rfl

theorem Told.setAborted {s : St} (h : Told (s.complete .aborted).view) :
    Told (({ s with aborted := true } : St).complete .aborted).view := by
  have e : (({ s with aborted := true } : St).complete .aborted) =
      { s.complete .aborted with aborted := true } := by
    unfold St.complete
    dsimp only
    split <;> rfl
  rw [e]
  refine ⟨h.one, h.lt, ?_⟩
  intro hs
  have : (s.complete .aborted).recv = none := complete_recv s _
  simp only [St.view] at hs
  rw [this] at hs
  cases hs

theorem Told.abort {s : St} (h : Told s.view) : Told s.abort.view := by
  unfold St.abort
  split
  · split
    · exact h
    · exact (h.complete .aborted).setAborted
  · exact (h.complete .aborted).setAborted

theorem Told.recvWait {s : St} (h : Told s.view) : Told s.recvWait.view := by
  have ans : ∀ (ec : Ec), (s.recv.isSome → s.aborted = false) →
      Told (({ s with asked := s.asked + 1 } : St).answer s.asked ec).view := by
    intro ec ho
    refine ⟨?_, fun k hk => Nat.lt_succ_of_lt (h.lt k hk), ho⟩
    intro k
    show told k (s.answers ++ [(s.asked, ec)]) = if k < s.asked + 1 ∧ s.recv ≠ some k then 1 else 0
    rw [told_append, show told k s.answers = if k < s.asked ∧ s.recv ≠ some k then 1 else 0 from h.one k]
    by_cases hk : k = s.asked
    · subst hk
      have : s.recv ≠ some s.asked := fun e => Nat.lt_irrefl _ (h.lt _ e)
      simp [told, this]
    · have h1 : told k [(s.asked, ec)] = 0 := by simp [told, Ne.symm hk]
      rw [h1]
      by_cases hc : s.recv = some k
      · simp [hc]
      · by_cases hlt : k < s.asked
        · simp [hc, hlt, Nat.lt_succ_of_lt hlt]
        · have : ¬ k < s.asked + 1 := by omega
          simp [hlt, this]
  unfold St.recvWait
  dsimp only
  split
  · exact ans _ h.open_
  · rename_i ha
    split
    · exact ans _ h.open_
    · rename_i hn
      have hnone : s.recv = none := by
        cases e : s.recv with
        | none => rfl
        | some k => rw [e] at hn; simp at hn
      have main : ∀ t : St, t.view = (some s.asked, s.asked + 1, s.answers, s.aborted, s.impl) → Told t.view := by
        intro t e
        rw [e]
        refine ⟨?_, ?_, fun _ => by simpa using ha⟩
        · intro k
          show told k s.answers = if k < s.asked + 1 ∧ some s.asked ≠ some k then 1 else 0
          rw [show told k s.answers = if k < s.asked ∧ s.recv ≠ some k then 1 else 0 from h.one k, hnone]
          by_cases hk : k = s.asked
          · subst hk; simp
          · by_cases hlt : k < s.asked
            · simp [hlt, Nat.lt_succ_of_lt hlt, Ne.symm hk]
            · have : ¬ k < s.asked + 1 := by omega
              simp [hlt, this]
        · intro k hk
          injection hk with e
          show k < s.asked + 1
          omega
      split
      · exact main _ rfl
      · exact main _ rfl

theorem step_eq {s : St} (hg : s.gone = false) (op : Op) : s.step op = match op with
    | .otherOpen n => if n ∈ s.mine ∨ n ∈ s.theirs then s else { s with theirs := n :: s.theirs }
    | .otherClose n => { s with theirs := s.theirs.erase n }
    | .bindPort y => s.bindPort y
    | .bindMdns f y => s.bindMdns f y
    | .recvWait => s.recvWait
    | .ready => s.ready
    | .abort => s.abort
    | .destroy => s.destroy := by
  cases op <;> simp [St.step, hg]

theorem gone_view {s : St} (hg : s.gone = true) (op : Op) : (s.step op).view = s.view ∧
    (s.step op).gone = true ∧ (s.step op).crash = s.crash := by
  cases op <;> simp [St.step, hg]
  · split <;> simp [hg, St.view]
  · simp [St.view]

theorem toldInv (i : Impl) (ops : List Op) : Told (run i ops).view := by
  induction ops using snoc_ind with
  | nil => exact ⟨(by intro k; simp [run, told, St.view]), (by intro k h; cases h), (by intro h; cases h)⟩
  | snoc ops op ih =>
    rw [run_snoc]
    generalize run i ops = s at *
    rcases Bool.eq_false_or_eq_true s.gone with hg | hg
    · rw [(gone_view hg op).1]; exact ih
    rw [step_eq hg]
    cases op with
    | otherOpen n => dsimp only; split <;> exact ih
    | otherClose n => exact ih
    | bindPort y => show Told (s.bindPort y).view; rw [view_bindPort]; exact ih
    | bindMdns f y => show Told (s.bindMdns f y).view; rw [view_bindMdns]; exact ih
    | recvWait => exact ih.recvWait
    | abort => exact ih.abort
    | ready =>
      show Told s.ready.view
      unfold St.ready
      split
      · split
        · exact ih.complete .ok
        · exact ih
      · split
        · exact ih.complete .ok
        · exact ih
    | destroy =>
      show Told s.destroy.view
      unfold St.destroy
      split
      · dsimp only
        have : Told (if s.sock.isSome then s.abort else s).view := by
          split
          · exact ih.abort
          · exact ih
        generalize (if s.sock.isSome then s.abort else s) = t at this
        have e := view_closeFd ({ t with event := false } : St) t.sock
        have : Told (({ t with event := false } : St).closeFd t.sock).view := by rw [e]; exact this
        exact this
      · dsimp only
        have e := view_closeFd s.abort s.abort.sock
        have : Told (s.abort.closeFd s.abort.sock).view := by rw [e]; exact ih.abort
        exact this

/-- **C103** (told once).  On either platform and in every history each wait for a packet is told
a result exactly once, or it is the one wait that is still pending; nobody else is told anything.
The steps of the network thread and of the core are taken as atomic here. -/
theorem C103_once (i : Impl) (ops : List Op) (k : Nat) :
    (k < (run i ops).asked ∧ (run i ops).recv ≠ some k → told k (run i ops).answers = 1) ∧
    ((run i ops).recv = some k → told k (run i ops).answers = 0) ∧
    ((run i ops).asked ≤ k → told k (run i ops).answers = 0) := by
  have h : told k (run i ops).answers =
      if k < (run i ops).asked ∧ (run i ops).recv ≠ some k then 1 else 0 := (toldInv i ops).one k
  refine ⟨fun hk => by rw [h, if_pos hk], fun hk => by rw [h]; simp [hk], fun hk => ?_⟩
  rw [h, if_neg]
  omega

/-- **C103** (told promptly).  A pending wait is told that a packet is there when the network
thread finds the bound socket ready, and that the socket is closed when it is aborted. -/
theorem C103_prompt (i : Impl) (ops : List Op) (k : Nat) (hg : (run i ops).gone = false)
    (hk : (run i ops).recv = some k) :
    ((run i ops).sock.isSome → (run i ops).event = true ∨ i = .select →
      (run i (ops ++ [.ready])).answers = (run i ops).answers ++ [(k, .ok)]) ∧
    (run i (ops ++ [.abort])).answers = (run i ops).answers ++ [(k, .aborted)] := by
  have hi : (run i ops).impl = i := by
    have fr : ∀ s : St, ∀ op, (s.step op).impl = s.impl := by
      have vi : ∀ a b : St, a.view = b.view → a.impl = b.impl := by
        intro a b h; exact congrArg (fun v => v.2.2.2.2) h
      intro s op
      rcases Bool.eq_false_or_eq_true s.gone with hg | hg
      · exact vi _ _ (gone_view hg op).1
      rw [step_eq hg]
      have co : ∀ (s : St) ec, (s.complete ec).impl = s.impl := by
        intro s ec; unfold St.complete; split <;> rfl
      have ab : ∀ s : St, s.abort.impl = s.impl := by
        intro s; unfold St.abort
        split
        · split
          · rfl
          · exact co _ _
        · exact co _ _
      cases op with
      | otherOpen n => dsimp only; split <;> rfl
      | otherClose n => rfl
      | bindPort y => exact vi _ _ (view_bindPort s y)
      | bindMdns f y => exact vi _ _ (view_bindMdns s f y)
      | recvWait =>
        show s.recvWait.impl = s.impl
        simp only [St.recvWait]
        split
        · rfl
        · split
          · rfl
          · split <;> rfl
      | abort => exact ab s
      | ready =>
        show s.ready.impl = s.impl
        unfold St.ready
        split <;> split <;> first | exact co _ _ | rfl
      | destroy =>
        show s.destroy.impl = s.impl
        unfold St.destroy
        split
        · dsimp only
          have : (if s.sock.isSome then s.abort else s).impl = s.impl := by split <;> simp [ab]
          generalize (if s.sock.isSome then s.abort else s) = t at this
          have := (vi _ _ (view_closeFd ({ t with event := false } : St) t.sock)).trans this
          exact this
        · dsimp only
          exact (vi _ _ (view_closeFd s.abort s.abort.sock)).trans (ab s)
    clear hg hk
    induction ops using snoc_ind with
    | nil => rfl
    | snoc ops op ih => rw [run_snoc, fr]; exact ih
  have ha : (run i ops).aborted = false := (toldInv i ops).open_ (by simp [St.view, hk])
  rw [run_snoc, run_snoc, step_eq hg, step_eq hg]
  generalize run i ops = s at *
  refine ⟨?_, ?_⟩
  · intro hs he
    show s.ready.answers = _
    unfold St.ready
    rw [hi]
    cases i with
    | libevent =>
      have he : s.event = true := by rcases he with h | h; exact h; cases h
      simp only [he, if_true, St.complete, hk]; rfl
    | select => simp only [hs, if_true, St.complete, hk]; rfl
  · show s.abort.answers = _
    unfold St.abort
    rw [hi]
    cases i with
    | libevent => rw [ha]; simp only [Bool.false_eq_true, if_false, St.complete, hk]; rfl
    | select => simp only [St.complete, hk]; rfl

/-! ### The descriptors -/

/-- The part of the state that the waits change. -/
def St.core (s : St) : St :=
  { s with recv := none, asked := 0, answers := [], aborted := false, crash := false }

/-- What the descriptors come to: this socket has those that are open and no others. -/
structure Tidy (s : St) : Prop where
  mine : s.mine = s.sock.toList
  stray : s.stray = false

theorem Tidy.close {s : St} (h : Tidy s) : (s.closeFd s.sock).mine = [] ∧ (s.closeFd s.sock).stray = false := by
  unfold St.closeFd
  cases e : s.sock with
  | none => have := h.mine; rw [e] at this; exact ⟨this, h.stray⟩
  | some n =>
    have hm := h.mine
    rw [e] at hm
    have hm : s.mine = [n] := hm
    simp [hm, h.stray]

theorem complete_same (s : St) (ec : Ec) : (s.complete ec).core = s.core ∧
    (s.complete ec).crash = s.crash := by
  unfold St.complete
  split <;> exact ⟨rfl, rfl⟩

theorem abort_same (s : St) : s.abort.core = s.core ∧ s.abort.crash = s.crash := by
  unfold St.abort
  split
  · split
    · exact ⟨rfl, rfl⟩
    · exact ⟨(complete_same _ _).1, (complete_same _ _).2⟩
  · exact ⟨(complete_same _ _).1, (complete_same _ _).2⟩

theorem ready_same (s : St) : s.ready.core = s.core ∧ s.ready.crash = s.crash := by
  unfold St.ready
  split <;> split <;> first | exact complete_same _ _ | exact ⟨rfl, rfl⟩

theorem recvWait_same (s : St) : s.recvWait.core = s.core := by
  simp only [St.recvWait]
  split
  · rfl
  · split
    · rfl
    · split <;> rfl

theorem core_fields {s t : St} (h : s.core = t.core) : s.sock = t.sock ∧ s.event = t.event ∧
    s.mine = t.mine ∧ s.stray = t.stray ∧ s.gone = t.gone ∧ s.binds = t.binds ∧ s.impl = t.impl ∧
    s.theirs = t.theirs :=
  ⟨congrArg (·.sock) h, congrArg (·.event) h, congrArg (·.mine) h, congrArg (·.stray) h,
    congrArg (·.gone) h, congrArg (·.binds) h, congrArg (·.impl) h, congrArg (·.theirs) h⟩

theorem closeFd_same (s : St) (n : Option Nat) : (s.closeFd n).sock = s.sock ∧
    (s.closeFd n).event = s.event ∧ (s.closeFd n).gone = s.gone ∧ (s.closeFd n).binds = s.binds ∧
    (s.closeFd n).impl = s.impl ∧ (s.closeFd n).crash = s.crash ∧ (s.closeFd n).recv = s.recv := by
  unfold St.closeFd
  split
  · exact ⟨rfl, rfl, rfl, rfl, rfl, rfl, rfl⟩
  · split
    · exact ⟨rfl, rfl, rfl, rfl, rfl, rfl, rfl⟩
    · split <;> exact ⟨rfl, rfl, rfl, rfl, rfl, rfl, rfl⟩

theorem newFd_free {s : St} {fd : Option Nat} {n : Nat} (h : s.newFd fd = some n) :
    n ∉ s.mine ∧ n ∉ s.theirs := by
  unfold St.newFd at h
  split at h
  · split at h
    · cases h
    · rename_i hn
      injection h with h
      subst h
      exact ⟨fun e => hn (.inl e), fun e => hn (.inr e)⟩
  · cases h

/-- The state before the only bind. -/
structure Fresh (s : St) : Prop where
  sock : s.sock = none
  event : s.event = false
  mine : s.mine = []
  stray : s.stray = false

/-- What a bind comes to. -/
structure Bound (s t : St) : Prop where
  gone : t.gone = s.gone
  binds : ∃ ec, t.binds = s.binds ++ [ec]
  crash : t.crash = s.crash
  event : t.event = true → t.sock.isSome

theorem bindPort_bound {s : St} (h : Fresh s) (y : Sys) : Bound s (s.bindPort y) ∧
    (s.impl = .libevent ∨ Ec.error ∉ (s.bindPort y).binds → Tidy (s.bindPort y)) := by
  have tidy0 : Tidy s := ⟨by rw [h.sock, h.mine]; rfl, h.stray⟩
  have ev0 : s.event = true → s.sock.isSome := by rw [h.event]; intro e; cases e
  unfold St.bindPort
  split
  · exact ⟨⟨rfl, ⟨_, rfl⟩, rfl, ev0⟩, fun _ => ⟨tidy0.mine, tidy0.stray⟩⟩
  · split
    · unfold St.createAnyL
      cases e6 : s.newFd y.fd6 with
      | some n =>
        simp only
        cases y.opt with
        | false =>
          simp only [Bool.false_eq_true, if_false]
          refine ⟨⟨(closeFd_same _ _).2.2.1, ⟨_, congrArg (· ++ _) (closeFd_same _ _).2.2.2.1⟩,
            (closeFd_same _ _).2.2.2.2.2.1, ?_⟩, fun _ => ⟨?_, ?_⟩⟩
          · intro e
            have : s.event = true := (closeFd_same (s.opened n) (some n)).2.1.symm.trans e
            rw [h.event] at this; cases this
          · show ((s.opened n).closeFd (some n)).mine = ((s.opened n).closeFd (some n)).sock.toList
            simp [St.closeFd, St.opened, h.mine, h.sock]
          · show ((s.opened n).closeFd (some n)).stray = false
            simp [St.closeFd, St.opened, h.stray]
        | true =>
          simp only [if_true]
          split
          · refine ⟨⟨rfl, ⟨_, rfl⟩, rfl, fun _ => rfl⟩, fun _ => ⟨?_, h.stray⟩⟩
            show n :: s.mine = [n]
            rw [h.mine]
          · refine ⟨⟨?_, ⟨.error, ?_⟩, ?_, ?_⟩, fun _ => ⟨?_, ?_⟩⟩ <;>
              simp [St.closeFd, St.opened, St.told, h.mine, h.stray, h.event]
      | none =>
        simp only
        cases e4 : s.newFd y.fd4 with
        | none => exact ⟨⟨rfl, ⟨_, rfl⟩, rfl, ev0⟩, fun _ => ⟨tidy0.mine, tidy0.stray⟩⟩
        | some n =>
          simp only
          split
          · refine ⟨⟨rfl, ⟨_, rfl⟩, rfl, fun _ => rfl⟩, fun _ => ⟨?_, h.stray⟩⟩
            show n :: s.mine = [n]
            rw [h.mine]
          · refine ⟨⟨?_, ⟨.error, ?_⟩, ?_, ?_⟩, fun _ => ⟨?_, ?_⟩⟩ <;>
              simp [St.closeFd, St.opened, St.told, h.mine, h.stray, h.event]
    · rename_i hi
      unfold St.createAnyS
      cases e6 : s.newFd y.fd6 with
      | some n =>
        simp only
        cases y.opt with
        | false =>
          simp only [Bool.false_eq_true, if_false]
          refine ⟨⟨?_, ⟨.error, ?_⟩, ?_, ?_⟩, fun hc => ?_⟩
          · simp [St.closeFd, St.opened, St.told, h.sock]
          · simp [St.closeFd, St.opened, St.told, h.sock]
          · simp [St.closeFd, St.opened, St.told, h.sock]
          · simp [St.closeFd, St.opened, St.told, h.sock, h.event]
          · exfalso
            rcases hc with hc | hc
            · rw [hi] at hc; cases hc
            · exact hc (by simp [St.told])
        | true =>
          simp only [if_true]
          split
          · refine ⟨⟨rfl, ⟨_, rfl⟩, rfl, fun _ => rfl⟩, fun _ => ⟨?_, h.stray⟩⟩
            show n :: s.mine = [n]
            rw [h.mine]
          · refine ⟨⟨?_, ⟨.error, ?_⟩, ?_, ?_⟩, fun hc => ?_⟩
            · simp [St.closeFd, St.opened, St.told]
            · simp [St.closeFd, St.opened, St.told]
            · simp [St.closeFd, St.opened, St.told]
            · simp [St.closeFd, St.opened, St.told]
            · exfalso
              rcases hc with hc | hc
              · rw [hi] at hc; cases hc
              · exact hc (by simp [St.told])
      | none =>
        simp only [h.sock]
        refine ⟨⟨?_, ⟨.error, ?_⟩, ?_, ?_⟩, fun hc => ?_⟩
        · show (match s.newFd y.fd4 with | some n => s.opened n | none => s).gone = s.gone
          split <;> rfl
        · show (match s.newFd y.fd4 with | some n => s.opened n | none => s).binds ++ _ = _
          split <;> rfl
        · show (match s.newFd y.fd4 with | some n => s.opened n | none => s).crash = s.crash
          split <;> rfl
        · have : (match s.newFd y.fd4 with | some n => s.opened n | none => s).event = false := by
            split <;> exact h.event
          intro e
          have e : (match s.newFd y.fd4 with | some n => s.opened n | none => s).event = true := e
          rw [this] at e; cases e
        · exfalso
          rcases hc with hc | hc
          · rw [hi] at hc; cases hc
          · exact hc (by simp [St.told])

theorem bindMdns_bound {s : St} (h : Fresh s) (f : Fam) (y : Sys) : Bound s (s.bindMdns f y) ∧
    (Ec.error ∉ (s.bindMdns f y).binds → Tidy (s.bindMdns f y)) := by
  have tidy0 : Tidy s := ⟨by rw [h.sock, h.mine]; rfl, h.stray⟩
  have ev0 : s.event = true → s.sock.isSome := by rw [h.event]; intro e; cases e
  unfold St.bindMdns
  split
  · exact ⟨⟨rfl, ⟨_, rfl⟩, rfl, ev0⟩, fun _ => ⟨tidy0.mine, tidy0.stray⟩⟩
  · split
    · exact ⟨⟨rfl, ⟨_, rfl⟩, rfl, ev0⟩, fun _ => ⟨tidy0.mine, tidy0.stray⟩⟩
    · rename_i n _
      dsimp only
      split
      · refine ⟨⟨?_, ⟨.error, ?_⟩, ?_, ?_⟩, fun hc => absurd ?_ hc⟩ <;>
          simp [St.closeFd, St.opened, St.told]
      · split
        · refine ⟨⟨rfl, ⟨_, rfl⟩, rfl, fun _ => rfl⟩, fun _ => ⟨?_, h.stray⟩⟩
          show n :: s.mine = [n]
          rw [h.mine]
        · split
          · refine ⟨⟨rfl, ⟨_, rfl⟩, rfl, fun _ => rfl⟩, fun _ => ⟨?_, h.stray⟩⟩
            show n :: s.mine = [n]
            rw [h.mine]
          · refine ⟨⟨?_, ⟨.error, ?_⟩, ?_, ?_⟩, fun hc => absurd ?_ hc⟩ <;>
              simp [St.closeFd, St.opened, St.told]

/-- When the descriptors are in order: the socket of libevent is bound as an ordinary one, or no
bind fails. -/
def Orderly (i : Impl) (ops : List Op) : Prop :=
  (i = .libevent ∧ NoMdns ops) ∨ Ec.error ∉ (run i ops).binds

structure Inv (i : Impl) (ops : List Op) (s : St) : Prop where
  impl : s.impl = i
  fresh : ops.countP isBind = 0 → Fresh s ∧ s.binds = []
  event : s.event = true → s.sock.isSome
  wait : i = .libevent → s.recv.isSome → s.crash = false → s.event = true
  gone : s.gone = true → s.crash = false → s.recv = none
  tidy : Orderly i ops → s.gone = false → Tidy s
  closed : Orderly i ops → s.gone = true → s.mine = [] ∧ s.stray = false

theorem abort_recv {s : St} (h : Told s.view) : s.abort.recv = none := by
  unfold St.abort
  split
  · split
    · rename_i ha
      cases e : s.recv with
      | none => rfl
      | some k => have := h.open_ (by simp [St.view, e]); simp only [St.view] at this; rw [ha] at this; cases this
    · exact complete_recv _ _
  · exact complete_recv _ _

theorem Orderly.prefix_ {i : Impl} {ops : List Op} {op : Op} (hb : (run i ops).binds <+: (run i (ops ++ [op])).binds)
    (h : Orderly i (ops ++ [op])) : Orderly i ops := by
  rcases h with ⟨h, m⟩ | h
  · exact .inl ⟨h, fun f y hm => m f y (List.mem_append_left _ hm)⟩
  · exact .inr (fun hm => h (hb.subset hm))

theorem Inv.same {i : Impl} {ops : List Op} {op : Op} {s t : St} (h : Inv i ops s) (hs : s = run i ops)
    (ht : t = run i (ops ++ [op])) (hop : isBind op = false) (hg : s.gone = false) (hc : t.core = s.core)
    (hw : i = .libevent → t.recv.isSome → t.crash = false → t.event = true) : Inv i (ops ++ [op]) t := by
  obtain ⟨c1, c2, c3, c4, c5, c6, c7, c8⟩ := core_fields hc
  have pre : (run i ops).binds <+: (run i (ops ++ [op])).binds := by rw [← hs, ← ht, c6]; exact List.prefix_rfl
  refine ⟨c7.trans h.impl, ?_, ?_, hw, ?_, ?_, ?_⟩
  · intro hz
    rw [List.countP_append] at hz
    obtain ⟨f, b⟩ := h.fresh (by omega)
    exact ⟨⟨c1.trans f.sock, c2.trans f.event, c3.trans f.mine, c4.trans f.stray⟩, c6.trans b⟩
  · rw [c1, c2]; exact h.event
  · rw [c5, hg]; intro e; cases e
  · intro ho _
    have := h.tidy (ho.prefix_ pre) hg
    exact ⟨by rw [c1, c3]; exact this.mine, c4.trans this.stray⟩
  · rw [c5, hg]; intro _ e; cases e

theorem inv (i : Impl) (ops : List Op) (hb : BindOnce ops) : Inv i ops (run i ops) := by
  induction ops using snoc_ind with
  | nil =>
    exact ⟨rfl, (fun _ => ⟨⟨rfl, rfl, rfl, rfl⟩, rfl⟩), (fun h => by cases h), (fun _ h => by cases h),
      (fun h => by cases h), (fun _ _ => ⟨rfl, rfl⟩), (fun _ h => by cases h)⟩
  | snoc ops op ih =>
    have hb' : BindOnce ops := by
      unfold BindOnce at *
      rw [List.countP_append] at hb
      omega
    have h := ih hb'
    have htold := toldInv i ops
    obtain ⟨s, hs⟩ : ∃ s, s = run i ops := ⟨_, rfl⟩
    obtain ⟨t, ht⟩ : ∃ t, t = run i (ops ++ [op]) := ⟨_, rfl⟩
    have hst : t = s.step op := by rw [ht, hs, run_snoc]
    rw [← hs] at h htold
    rw [← ht]
    have bindCase : isBind op = true → s.gone = false → Bound s t →
        (Orderly i (ops ++ [op]) → Tidy t) → t.view = s.view → Inv i (ops ++ [op]) t := by
      intro hop hg b td hv
      have hz : ops.countP isBind = 0 := by
        unfold BindOnce at hb
        rw [List.countP_append] at hb
        have : List.countP isBind [op] = 1 := by simp [hop]
        omega
      obtain ⟨f, _⟩ := h.fresh hz
      have hr : t.recv = s.recv := congrArg (·.1) hv
      refine ⟨(congrArg (·.2.2.2.2) hv).trans h.impl, ?_, b.event, ?_, ?_, fun ho _ => td ho, ?_⟩
      · intro hz'
        rw [List.countP_append] at hz'
        have : List.countP isBind [op] = 1 := by simp [hop]
        omega
      · intro hl hrec hcr
        rw [hr] at hrec
        have := h.wait hl hrec (b.crash ▸ hcr)
        rw [f.event] at this; cases this
      · rw [b.gone, hg]; intro e; cases e
      · rw [b.gone, hg]; intro _ e; cases e
    rcases Bool.eq_false_or_eq_true s.gone with hg | hg
    · -- after the socket is gone only the others do something
      obtain ⟨g1, g2, g3⟩ := gone_view hg op
      rw [← hst] at g1 g2 g3
      have same : t.sock = s.sock ∧ t.event = s.event ∧ t.mine = s.mine ∧ t.stray = s.stray ∧
          t.binds = s.binds := by
        rw [hst]
        cases op <;> simp [St.step, hg]
        split <;> simp
      obtain ⟨e1, e2, e3, e4, e5⟩ := same
      have pre : (run i ops).binds <+: (run i (ops ++ [op])).binds := by rw [← hs, ← ht, e5]; exact List.prefix_rfl
      have hr : t.recv = s.recv := congrArg (·.1) g1
      refine ⟨(congrArg (·.2.2.2.2) g1).trans h.impl, ?_, ?_, ?_, ?_, ?_, ?_⟩
      · intro hz
        rw [List.countP_append] at hz
        obtain ⟨f, b⟩ := h.fresh (by omega)
        exact ⟨⟨e1.trans f.sock, e2.trans f.event, e3.trans f.mine, e4.trans f.stray⟩, e5.trans b⟩
      · rw [e1, e2]; exact h.event
      · rw [hr, g3, e2]; exact h.wait
      · rw [hr, g3]; intro _; exact h.gone hg
      · rw [g2]; intro _ e; cases e
      · rw [e3, e4]; intro ho _; exact h.closed (ho.prefix_ pre) hg
    rw [step_eq hg] at hst
    cases op with
    | otherOpen n =>
      have hst : t = if n ∈ s.mine ∨ n ∈ s.theirs then s else { s with theirs := n :: s.theirs } := hst
      have pre : (run i ops).binds <+: (run i (ops ++ [.otherOpen n])).binds := by
        rw [← hs, ← ht, hst]; split <;> exact List.prefix_rfl
      have e : (∀ hz : (ops ++ [Op.otherOpen n]).countP isBind = 0, ops.countP isBind = 0) := by
        intro hz; rw [List.countP_append] at hz; omega
      rw [hst]
      split
      · exact ⟨h.impl, fun hz => h.fresh (e hz), h.event, h.wait, h.gone,
          fun ho => h.tidy (ho.prefix_ pre), fun ho => h.closed (ho.prefix_ pre)⟩
      · exact ⟨h.impl, fun hz => ⟨⟨(h.fresh (e hz)).1.sock, (h.fresh (e hz)).1.event,
            (h.fresh (e hz)).1.mine, (h.fresh (e hz)).1.stray⟩, (h.fresh (e hz)).2⟩, h.event, h.wait, h.gone,
          fun ho hg => ⟨(h.tidy (ho.prefix_ pre) hg).mine, (h.tidy (ho.prefix_ pre) hg).stray⟩,
          fun ho => h.closed (ho.prefix_ pre)⟩
    | otherClose n =>
      have hst : t = { s with theirs := s.theirs.erase n } := hst
      have pre : (run i ops).binds <+: (run i (ops ++ [.otherClose n])).binds := by
        rw [← hs, ← ht, hst]; exact List.prefix_rfl
      have e : (∀ hz : (ops ++ [Op.otherClose n]).countP isBind = 0, ops.countP isBind = 0) := by
        intro hz; rw [List.countP_append] at hz; omega
      rw [hst]
      exact ⟨h.impl, fun hz => ⟨⟨(h.fresh (e hz)).1.sock, (h.fresh (e hz)).1.event,
            (h.fresh (e hz)).1.mine, (h.fresh (e hz)).1.stray⟩, (h.fresh (e hz)).2⟩, h.event, h.wait, h.gone,
          fun ho hg => ⟨(h.tidy (ho.prefix_ pre) hg).mine, (h.tidy (ho.prefix_ pre) hg).stray⟩,
          fun ho => h.closed (ho.prefix_ pre)⟩
    | bindPort y =>
      have hst : t = s.bindPort y := hst
      have hz : ops.countP isBind = 0 := by
        unfold BindOnce at hb
        rw [List.countP_append] at hb
        have : List.countP isBind [Op.bindPort y] = 1 := rfl
        omega
      obtain ⟨b, td⟩ := bindPort_bound (h.fresh hz).1 y
      rw [← hst] at b td
      refine bindCase rfl hg b (fun ho => td ?_) (by rw [hst, view_bindPort])
      rcases ho with ⟨hl, _⟩ | ho
      · exact .inl (h.impl.trans hl)
      · exact .inr (by rw [ht]; exact ho)
    | bindMdns f y =>
      have hst : t = s.bindMdns f y := hst
      have hz : ops.countP isBind = 0 := by
        unfold BindOnce at hb
        rw [List.countP_append] at hb
        have : List.countP isBind [Op.bindMdns f y] = 1 := rfl
        omega
      obtain ⟨b, td⟩ := bindMdns_bound (h.fresh hz).1 f y
      rw [← hst] at b td
      refine bindCase rfl hg b (fun ho => td ?_) (by rw [hst, view_bindMdns])
      rcases ho with ⟨_, hm⟩ | ho
      · exact absurd (List.mem_append_right _ (by simp)) (hm f y)
      · rw [ht]; exact ho
    | recvWait =>
      have hst : t = s.recvWait := hst
      refine h.same hs ht rfl hg (by rw [hst]; exact recvWait_same s) ?_
      intro hl
      have hi : s.impl = .libevent := h.impl.trans hl
      rw [hst]
      simp only [St.recvWait]
      split
      · exact h.wait hl
      · split
        · exact h.wait hl
        · rw [hi]
          intro _ hcr
          have hcr : (s.crash || !s.event) = false := hcr
          show s.event = true
          simp at hcr
          exact hcr.2
    | abort =>
      have hst : t = s.abort := hst
      refine h.same hs ht rfl hg (by rw [hst]; exact (abort_same s).1) ?_
      intro _ hr
      rw [hst, abort_recv htold] at hr; cases hr
    | ready =>
      have hst : t = s.ready := hst
      have hc := (ready_same s).1
      refine h.same hs ht rfl hg (by rw [hst]; exact hc) ?_
      intro hl hr hcr
      rw [hst] at hr hcr ⊢
      rw [(ready_same s).2] at hcr
      rw [(core_fields hc).2.1]
      refine h.wait hl ?_ hcr
      revert hr
      unfold St.ready
      split <;> split <;> first | exact id | (rw [complete_recv]; intro e; cases e)
    | destroy =>
      have hst : t = s.destroy := hst
      obtain ⟨c1, c2, c3, c4, c5, c6, c7, c8⟩ := core_fields (abort_same s).1
      -- the socket that is left when the descriptor is closed
      have key : ∃ u : St, u.core = s.core ∧ u.crash = s.crash ∧ (s.crash = false → u.recv = none) ∧
          (t = { ({ u with event := false } : St).closeFd u.sock with sock := none, gone := true } ∨
           (i = .select ∧ t = { u.closeFd u.sock with gone := true })) := by
        cases i with
        | libevent =>
          have hi : s.impl = .libevent := h.impl
          refine ⟨if s.sock.isSome then s.abort else s, ?_, ?_, ?_, .inl ?_⟩
          · split
            · exact (abort_same s).1
            · rfl
          · split
            · exact (abort_same s).2
            · rfl
          · intro hcr
            split
            · exact abort_recv htold
            · rename_i hn
              cases e : s.recv with
              | none => rfl
              | some k =>
                exact absurd (h.event (h.wait rfl (by rw [e]; rfl) hcr)) hn
          · rw [hst]; unfold St.destroy; rw [hi]
        | select =>
          have hi : s.impl = .select := h.impl
          refine ⟨s.abort, (abort_same s).1, (abort_same s).2, fun _ => abort_recv htold, .inr ⟨rfl, ?_⟩⟩
          rw [hst]; unfold St.destroy; rw [hi]
      obtain ⟨u, uc, ucr, ur, hu⟩ := key
      obtain ⟨d1, d2, d3, d4, d5, d6, d7, d8⟩ := core_fields uc
      have tb : t.binds = s.binds := by
        rcases hu with hu | ⟨_, hu⟩
        · rw [hu]; exact (closeFd_same ({ u with event := false } : St) u.sock).2.2.2.1.trans d6
        · rw [hu]; exact (closeFd_same u u.sock).2.2.2.1.trans d6
      have pre : (run i ops).binds <+: (run i (ops ++ [.destroy])).binds := by
        rw [← hs, ← ht, tb]; exact List.prefix_rfl
      have tgone : t.gone = true := by rcases hu with hu | ⟨_, hu⟩ <;> rw [hu]
      have timpl : t.impl = i := by
        rcases hu with hu | ⟨_, hu⟩
        · rw [hu]; exact ((closeFd_same ({ u with event := false } : St) u.sock).2.2.2.2.1.trans d7).trans h.impl
        · rw [hu]; exact ((closeFd_same u u.sock).2.2.2.2.1.trans d7).trans h.impl
      have tcr : t.crash = s.crash := by
        rcases hu with hu | ⟨_, hu⟩
        · rw [hu]; exact (closeFd_same ({ u with event := false } : St) u.sock).2.2.2.2.2.1.trans ucr
        · rw [hu]; exact (closeFd_same u u.sock).2.2.2.2.2.1.trans ucr
      have trecv : t.recv = u.recv := by
        rcases hu with hu | ⟨_, hu⟩
        · rw [hu]; exact (closeFd_same ({ u with event := false } : St) u.sock).2.2.2.2.2.2
        · rw [hu]; exact (closeFd_same u u.sock).2.2.2.2.2.2
      have tev : t.event = true → i = .select ∧ t.sock = s.sock ∧ s.event = true := by
        rcases hu with hu | ⟨hi, hu⟩
        · intro e
          rw [hu] at e
          have : (({ u with event := false } : St).closeFd u.sock).event = true := e
          rw [(closeFd_same ({ u with event := false } : St) u.sock).2.1] at this
          cases this
        · intro e
          rw [hu] at e ⊢
          have e : (u.closeFd u.sock).event = true := e
          rw [(closeFd_same u u.sock).2.1, d2] at e
          exact ⟨hi, (closeFd_same u u.sock).1.trans d1, e⟩
      have tclosed : Tidy s → t.mine = [] ∧ t.stray = false := by
        intro ht
        rcases hu with hu | ⟨_, hu⟩
        · rw [hu]
          have : Tidy ({ u with event := false } : St) := ⟨by show u.mine = u.sock.toList; rw [d3, d1]; exact ht.mine, d4.trans ht.stray⟩
          exact this.close
        · rw [hu]
          have : Tidy u := ⟨by rw [d3, d1]; exact ht.mine, d4.trans ht.stray⟩
          exact this.close
      refine ⟨timpl, ?_, ?_, ?_, ?_, ?_, ?_⟩
      · intro hz
        rw [List.countP_append] at hz
        obtain ⟨f, b⟩ := h.fresh (by omega)
        have cl := tclosed ⟨by rw [f.sock, f.mine]; rfl, f.stray⟩
        refine ⟨⟨?_, ?_, cl.1, cl.2⟩, tb.trans b⟩
        · rcases hu with hu | ⟨_, hu⟩
          · rw [hu]
          · rw [hu]; exact ((closeFd_same u u.sock).1.trans d1).trans f.sock
        · rcases Bool.eq_false_or_eq_true t.event with e | e
          · have := (tev e).2.2; rw [f.event] at this; cases this
          · exact e
      · intro e
        obtain ⟨_, e1, e2⟩ := tev e
        rw [e1]; exact h.event e2
      · intro _ hr hcr
        rw [trecv, ur (tcr ▸ hcr)] at hr; cases hr
      · intro _ hcr; rw [trecv]; exact ur (tcr ▸ hcr)
      · intro _ e; rw [tgone] at e; cases e
      · intro ho _; exact tclosed (h.tidy (ho.prefix_ pre) hg)

/-- **C103** (nothing is left).  When the socket is destroyed no wait is left: all have been told.
The socket is bound at most once, and on libevent no wait was asked for before the socket was
bound (which hands `NULL` to libevent, `crash`). -/
theorem C103_destroyed (i : Impl) (ops : List Op) (hb : BindOnce ops) (hg : (run i ops).gone = true)
    (hc : (run i ops).crash = false) (k : Nat) (hk : k < (run i ops).asked) :
    told k (run i ops).answers = 1 :=
  (C103_once i ops k).1 ⟨hk, by rw [(inv i ops hb).gone hg hc]; intro e; cases e⟩

/-- On select nothing is ever handed to libevent. -/
theorem C103_select (ops : List Op) (hb : BindOnce ops) (hg : (run .select ops).gone = true) (k : Nat)
    (hk : k < (run .select ops).asked) : told k (run .select ops).answers = 1 := by
  refine C103_destroyed _ ops hb hg ?_ k hk
  clear hg hk
  have hb' : ∀ l, l <+: ops → BindOnce l := fun l hl => Nat.le_trans (hl.sublist.countP_le) hb
  have main : ∀ l, (run Impl.select l).crash = false ∧ (run Impl.select l).impl = .select := by
    intro l
    induction l using snoc_ind with
    | nil => exact ⟨rfl, rfl⟩
    | snoc l op ih =>
      rw [run_snoc]
      generalize run Impl.select l = s at ih
      obtain ⟨ih, hi⟩ := ih
      rcases Bool.eq_false_or_eq_true s.gone with hg | hg
      · obtain ⟨g1, _, g3⟩ := gone_view hg op
        exact ⟨g3.trans ih, (congrArg (·.2.2.2.2) g1).trans hi⟩
      rw [step_eq hg]
      cases op with
      | otherOpen n => dsimp only; split <;> exact ⟨ih, hi⟩
      | otherClose n => exact ⟨ih, hi⟩
      | recvWait =>
        show s.recvWait.crash = false ∧ s.recvWait.impl = .select
        simp only [St.recvWait]
        split
        · exact ⟨ih, hi⟩
        · split
          · exact ⟨ih, hi⟩
          · rw [hi]; exact ⟨ih, rfl⟩
      | ready => exact ⟨(ready_same s).2.trans ih, (core_fields (ready_same s).1).2.2.2.2.2.2.1.trans hi⟩
      | abort => exact ⟨(abort_same s).2.trans ih, (core_fields (abort_same s).1).2.2.2.2.2.2.1.trans hi⟩
      | destroy =>
        show s.destroy.crash = false ∧ s.destroy.impl = .select
        unfold St.destroy
        rw [hi]
        exact ⟨((closeFd_same s.abort s.abort.sock).2.2.2.2.2.1.trans (abort_same s).2).trans ih,
          ((closeFd_same s.abort s.abort.sock).2.2.2.2.1.trans (core_fields (abort_same s).1).2.2.2.2.2.2.1).trans hi⟩
      | bindPort y =>
        refine ⟨?_, (congrArg (·.2.2.2.2) (view_bindPort s y)).trans hi⟩
        show (s.bindPort y).crash = false
        unfold St.bindPort
        split
        · exact ih
        · rw [hi]
          simp only [St.createAnyS]
          cases s.newFd y.fd6 with
          | some n =>
            simp only
            cases y.opt with
            | true =>
              simp only [if_true]
              split
              · exact ih
              · exact (closeFd_same _ _).2.2.2.2.2.1.trans ih
            | false =>
              simp only [Bool.false_eq_true, if_false]
              exact (closeFd_same _ _).2.2.2.2.2.1.trans ih
          | none =>
            simp only
            have e : (match s.newFd y.fd4 with | some n => s.opened n | none => s).crash = s.crash := by
              split <;> rfl
            cases s.sock with
            | none => exact e.trans ih
            | some m =>
              simp only
              split
              · exact e.trans ih
              · exact (closeFd_same _ _).2.2.2.2.2.1.trans (e.trans ih)
      | bindMdns f y =>
        refine ⟨?_, (congrArg (·.2.2.2.2) (view_bindMdns s f y)).trans hi⟩
        show (s.bindMdns f y).crash = false
        unfold St.bindMdns
        split
        · exact ih
        · split
          · exact ih
          · dsimp only
            split
            · exact (closeFd_same _ _).2.2.2.2.2.1.trans ih
            · split
              · exact ih
              · split
                · exact ih
                · exact (closeFd_same _ _).2.2.2.2.2.1.trans ih
  exact (main ops).1

private def fine : Sys := { fd6 := some 7, fd4 := some 8, opt := true, bind := true, mem := true }

/-- Two waits on a bound socket: the first is told of a packet, the second that the socket was
closed. -/
example : (run .libevent [.bindPort fine, .recvWait, .ready, .recvWait, .destroy]).answers =
    [(0, .ok), (1, .aborted)] := by decide

example : BindOnce [.bindPort fine, .recvWait, .ready, .recvWait, .destroy] ∧
    (run .libevent [.bindPort fine, .recvWait, .ready, .recvWait, .destroy]).gone = true ∧
    (run .libevent [.bindPort fine, .recvWait, .ready, .recvWait, .destroy]).crash = false ∧
    (run .libevent [.bindPort fine, .recvWait, .ready, .recvWait, .destroy]).asked = 2 := by
  refine ⟨?_, ?_, ?_, ?_⟩ <;> first | decide | (unfold BindOnce; decide)

/-- **C103** is violated when the two threads interleave: the network thread and the thread that
aborts both find the event of the one wait and both resolve it. -/
theorem C103_race_violated (k : Nat) :
    (Race.run k [true, false, true, false, true, false]).answers = [(k, .ok), (k, .aborted)] := rfl

/-- Without the interleaving the same two threads tell it once. -/
theorem C103_race_atomic (k : Nat) : (Race.run k [true, true, true, false, false, false]).answers = [(k, .ok)] ∧
    (Race.run k [false, false, false, true, true, true]).answers = [(k, .aborted)] := ⟨rfl, rfl⟩

/-- Waiting on a socket of libevent that was not bound (or whose bind failed) gives `NULL` to
libevent, and when libevent survives that the wait is not told even when the socket is destroyed. -/
theorem C103_unbound_violated : (run .libevent [.recvWait, .destroy]).crash = true ∧
    (run .libevent [.recvWait, .destroy]).gone = true ∧
    (run .libevent [.recvWait, .destroy]).answers = [] := by decide

/-- **C104** (partial).  The socket is bound at most once, and either it is an ordinary socket of
libevent or no bind has failed.  Then the socket has one descriptor while it is bound and none
otherwise, none is left when it is destroyed, and it never closes a descriptor of somebody else.
Missing: sockets of select and mDNS sockets whose bind fails, see the violations. -/
theorem C104_partial (i : Impl) (ops : List Op) (hb : BindOnce ops)
    (ho : (i = .libevent ∧ NoMdns ops) ∨ Ec.error ∉ (run i ops).binds) :
    (run i ops).stray = false ∧
    ((run i ops).gone = false → (run i ops).mine = (run i ops).sock.toList) ∧
    ((run i ops).gone = true → (run i ops).mine = []) := by
  have h := inv i ops hb
  refine ⟨?_, fun hg => (h.tidy ho hg).mine, fun hg => (h.closed ho hg).1⟩
  rcases Bool.eq_false_or_eq_true (run i ops).gone with hg | hg
  · exact (h.closed ho hg).2
  · exact (h.tidy ho hg).stray

private def no4 : Sys := { fd6 := none, fd4 := some 8, opt := true, bind := true, mem := true }

private def used : Sys := { fd6 := some 7, fd4 := some 8, opt := true, bind := false, mem := true }

/-- The hypotheses are met by a libevent socket whose bind fails, and by one of select whose bind
succeeds, among others that come and go. -/
example : BindOnce [.otherOpen 3, .bindPort used, .otherOpen 7, .destroy] ∧
    (run .libevent [.otherOpen 3, .bindPort used, .otherOpen 7, .destroy]).theirs = [7, 3] ∧
    (run .libevent [.otherOpen 3, .bindPort used, .otherOpen 7, .destroy]).binds = [.error] ∧
    Ec.error ∉ (run .select [.otherOpen 3, .bindPort fine]).binds ∧
    (run .select [.otherOpen 3, .bindPort fine]).mine = [7] := by
  refine ⟨?_, ?_, ?_, ?_, ?_⟩ <;> first | decide | (unfold BindOnce; decide)

/-- **C104** (a host without IPv6).  A fresh socket of libevent falls back to IPv4. -/
theorem C104_fallback (s : St) (n : Nat) (hi : s.impl = .libevent) (ha : s.aborted = false) (y : Sys)
    (h6 : y.fd6 = none) (h4 : y.fd4 = some n) (hf : n ∉ s.mine ∧ n ∉ s.theirs) (hb : y.bind = true)
    (hm : y.mem = true) : (s.bindPort y).binds = s.binds ++ [.ok] ∧ (s.bindPort y).fam = .v4 ∧
    (s.bindPort y).sock = some n := by
  have e6 : s.newFd none = none := rfl
  have e4 : s.newFd (some n) = some n := by simp [St.newFd, hf.1, hf.2]
  simp [St.bindPort, ha, hi, St.createAnyL, h6, h4, e6, e4, hb, hm, St.told, St.opened]

/-- The hypotheses are met. -/
example : (run .libevent [.bindPort no4]).binds = [.ok] := by decide

/-- The fallback of select never succeeds: whatever the system gives, the bind of a fresh socket
on a host without IPv6 is told an error, and the descriptor for IPv4 is left open. -/
theorem C104_fallback_violated (s : St) (n : Nat) (hi : s.impl = .select) (ha : s.aborted = false)
    (hs : s.sock = none) (y : Sys) (h6 : y.fd6 = none) (h4 : y.fd4 = some n)
    (hf : n ∉ s.mine ∧ n ∉ s.theirs) :
    (s.bindPort y).binds = s.binds ++ [.error] ∧ n ∈ (s.bindPort y).mine ∧ (s.bindPort y).sock = none := by
  have e6 : s.newFd none = none := rfl
  have e4 : s.newFd (some n) = some n := by simp [St.newFd, hf.1, hf.2]
  simp [St.bindPort, ha, hi, St.createAnyS, h6, h4, e6, e4, St.told, St.opened, hs]

/-- That descriptor is not closed when the socket is destroyed. -/
theorem C104_leak_violated : (run .select [.bindPort no4, .destroy]).mine = [8] ∧
    (run .select [.bindPort { fine with opt := false }, .destroy]).mine = [7] := by decide

/-- A socket whose bind failed closes the descriptor of somebody else when it is destroyed: on
select for an ordinary socket, on both platforms for an mDNS socket. -/
theorem C104_stray_violated :
    (run .select [.bindPort used, .otherOpen 7, .destroy]).stray = true ∧
    (run .select [.bindMdns .v6 used, .otherOpen 7, .destroy]).stray = true ∧
    (run .libevent [.bindMdns .v6 used, .otherOpen 7, .destroy]).stray = true ∧
    (run .libevent [.bindMdns .v6 used, .otherOpen 7, .destroy]).theirs = [] := by decide

end Verif.Net.Udp
