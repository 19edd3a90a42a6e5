import Verif.Device.LifeLemmas

/-!
# Starting, closing and stopping a device — properties
-/

namespace Verif.Device.Life

open Spec

/-- The device is started, with all results as they should be. -/
def begun : List Op := [.setKeys true, .start .ok .ok .ok, .runBind .ok .ok, .runBind .ok .ok, .runBind .ok .ok]

/-- A history with one start is polite. -/
theorem polite_begun (more : List Op) (h : ∀ op ∈ more, isStart op = false) : Polite (begun ++ more) := by
  intro b op a he
  cases op <;> try trivial
  rename_i x y z
  intro i o hc ho
  exfalso
  have hcount : ((begun ++ more).filter isStart).length = 1 := by
    have hm : more.filter isStart = [] := List.filter_eq_nil_iff.2 (by intro op ho; rw [h op ho]; simp)
    rw [List.filter_append, hm]
    rfl
  rw [he, List.filter_append] at hcount
  have hb : b.filter isStart = [] := by
    have h2 : ((Op.start x y z :: a).filter isStart).length = (a.filter isStart).length + 1 := rfl
    rw [List.length_append, h2] at hcount
    exact List.length_eq_zero_iff.1 (by omega)
  have hm := List.mem_of_getElem? hc
  have : o ∈ b := (List.mem_filter.1 hm).1
  have := List.filter_eq_nil_iff.1 hb o this
  exact this ho

/-- C90: no future of a start or a close is resolved twice, whatever comes in between, and no other future is touched: the
device never resolves a future which is not there. -/
theorem C90_once (ops : List Op) (h : Polite ops) :
    (∀ i, resolutions ops i ≤ 1) ∧ (∀ i e, Resolved ops i e → i < (calls ops).length) ∧ (run ops).bad = false := by
  have hi := inv_run ops h
  refine ⟨?_, ?_, hi.fut.good⟩
  · intro i
    have hn := hi.fut.nodup
    have := List.nodup_iff_count.1 hn i
    unfold resolutions
    rw [List.count_eq_countP, List.countP_map] at this
    exact this
  · intro i e he
    have := hi.fut.lt _ he
    rw [(linked ops).next] at this
    exact this

/-- C90: a future of a start or a close is resolved, or there is something the device waits for: for a start, the result of
binding a socket; for a close, connections which are open, the attacher, or the platform. -/
theorem C90_pending (ops : List Op) (h : Polite ops) (hs : .stop ∉ ops) (i : Nat) (op : Op)
    (hc : (calls ops)[i]? = some op) :
    (∃ e, Resolved ops i e) ∨ (isStart op = true ∧ (run ops).bind ≠ none) ∨
    (op = .close ∧ (0 < (run ops).clients + (run ops).virtuals ∨ (run ops).attachCb = true ∨ (run ops).platClosing = true)) := by
  have hi := inv_run ops h
  rcases where_is h hc with he | ⟨h1, h2, -⟩ | ⟨h1, h2⟩
  · exact Or.inl he
  · right; left
    refine ⟨h1, ?_⟩
    have := hi.rest.bind
    rw [h2] at this
    intro hn
    rw [hn] at this
    cases this
  · right; right
    refine ⟨h1, ?_⟩
    have hcl := hi.rest.close
    rw [h2] at hcl
    cases hp : (run ops).platClosing with
    | true => exact Or.inr (Or.inr rfl)
    | false =>
      rw [hp] at hcl
      have hcb : (run ops).closeCb = true := by simpa using hcl.symm
      have hst : (run ops).stopped = false := by
        cases hx : (run ops).stopped with
        | false => rfl
        | true => exact absurd (stopped_iff ops hx) hs
      rcases hi.rest.wait hcb hst with hw | hw
      · exact Or.inl (hi.rest.conns hw).2
      · exact Or.inr (Or.inl hw)

/-- C90: a start is over after three results of binding, whatever else happens: its future is resolved. -/
theorem C90_start_resolves (ops more : List Op) (h : Polite (ops ++ more)) (i : Nat) (a b c : Ec)
    (hc : (calls ops)[i]? = some (.start a b c)) (hm : 3 ≤ more.countP isRunBind) : ∃ e, Resolved (ops ++ more) i e := by
  rcases start_progress (op := .start a b c) rfl hc more h with he | hr
  · exact he
  · have hz : rank (run (ops ++ more)) = 0 := by omega
    rcases where_is h (calls_mono hc more) with he | ⟨-, h2, -⟩ | ⟨h1, -⟩
    · exact he
    · unfold rank at hz
      rw [h2] at hz
      split at hz
      · split at hz <;> cases hz
      · next hx => exact absurd rfl hx
    · cases h1

/-- C90: when no connection is open any more, a close is over after the attacher and then the platform have closed, whatever
else happens: its future is resolved. -/
theorem C90_close_resolves (ops m1 m2 m3 : List Op) (e : Ec)
    (h : Polite (ops ++ m1 ++ [.attachClosed] ++ m2 ++ [.platClosed e] ++ m3)) (hs : .stop ∉ ops) (i : Nat)
    (hc : (calls ops)[i]? = some .close) (hz : (run ops).clients + (run ops).virtuals = 0) :
    ∃ e', Resolved (ops ++ m1 ++ [.attachClosed] ++ m2 ++ [.platClosed e] ++ m3) i e' := by
  have p5 := polite_left h
  have p4 := polite_left p5
  have p3 := polite_left p4
  have p2 := polite_left p3
  have p1 := polite_left p2
  have near : Near (run ops) i := by
    have hi := inv_run ops p1
    rcases where_is p1 hc with he | ⟨h1, -⟩ | ⟨-, h2⟩
    · exact Or.inl he
    · cases h1
    · right
      refine ⟨h2, ?_⟩
      have hcl := hi.rest.close
      rw [h2] at hcl
      cases hp : (run ops).platClosing with
      | true => exact Or.inl rfl
      | false =>
        rw [hp] at hcl
        have hcb : (run ops).closeCb = true := by simpa using hcl.symm
        have hst : (run ops).stopped = false := by
          cases hx : (run ops).stopped with
          | false => rfl
          | true => exact absurd (stopped_iff ops hx) hs
        rcases hi.rest.wait hcb hst with hw | hw
        · have := (hi.rest.conns hw).2
          omega
        · exact Or.inr ⟨hcb, hw⟩
  have n2 := (near_run p2 near).1
  have n3 : Nearer (run (ops ++ m1 ++ [.attachClosed])) i := by
    rw [run_snoc]
    exact near_attachClosed (inv_run _ p2).rest n2
  have n4 := (near_run p4 (near_of_nearer n3)).2 n3
  have n5 : ∃ e', Resolved (ops ++ m1 ++ [.attachClosed] ++ m2 ++ [.platClosed e]) i e' := by
    unfold Resolved
    rw [run_snoc]
    exact nearer_platClosed n4 e
  obtain ⟨e', he'⟩ := n5
  exact ⟨e', resolved_mono he' m3⟩

/-- C90: a start which is left alone tells the first error: of the keys, of the settings, of binding one of the three
sockets, of the attacher; and success if there is none. -/
theorem C90_start_result (ops m1 m2 m3 : List Op) (k c e1 e2 e3 a1 a2 e4 att : Ec) (hk : keysSet ops = true)
    (h1 : ∀ op ∈ m1, Aside op) (h2 : ∀ op ∈ m2, Aside op) (h3 : ∀ op ∈ m3, Aside op) :
    Resolved (ops ++ [.start k c e1] ++ m1 ++ [.runBind e2 a1] ++ m2 ++ [.runBind e3 a2] ++ m3 ++ [.runBind e4 att])
      (calls ops).length (firstError [k, c, e1, e2, e3, att]) := by
  have hl := (linked ops).next
  rw [← hl]
  have s0 := start_cases (run ops) k c e1 (by rw [keys_run]; exact hk)
  have r1 : run (ops ++ [.start k c e1]) = (run ops).start k c e1 := run_snoc _ _
  have lift : ∀ (a b : List Op) e, Resolved a (run ops).next e → Resolved (a ++ b) (run ops).next e :=
    fun a b e h => resolved_mono h b
  by_cases hk' : k = .ok
  case neg =>
    rw [show firstError [k, c, e1, e2, e3, att] = k by simp [firstError, hk']]
    apply lift; apply lift; apply lift; apply lift; apply lift; apply lift
    unfold Resolved; rw [r1]; exact s0.1 hk'
  by_cases hc' : c = .ok
  case neg =>
    rw [show firstError [k, c, e1, e2, e3, att] = c by simp [firstError, hk', hc']]
    apply lift; apply lift; apply lift; apply lift; apply lift; apply lift
    unfold Resolved; rw [r1]; exact s0.2.1 hk' hc'
  have t1 := s0.2.2 hk' hc'
  rw [← r1] at t1
  have t2 := starting_asides t1 m1 h1
  rw [← run_append] at t2
  have u2 := starting_runBind t2 e2 a1
  by_cases he1 : e1 = .ok
  case neg =>
    rw [show firstError [k, c, e1, e2, e3, att] = e1 by simp [firstError, hk', hc', he1]]
    apply lift; apply lift; apply lift; apply lift
    unfold Resolved; rw [run_snoc]; exact u2.2.1 (by simp) he1
  have t3 := (u2.2.2 (by simp) he1).1 rfl
  have r3 : run (ops ++ [.start k c e1] ++ m1 ++ [.runBind e2 a1]) =
      (run (ops ++ [.start k c e1] ++ m1)).runBind e2 a1 := run_snoc _ _
  rw [← r3] at t3
  have t4 := starting_asides t3 m2 h2
  rw [← run_append] at t4
  have u4 := starting_runBind t4 e3 a2
  by_cases he2 : e2 = .ok
  case neg =>
    rw [show firstError [k, c, e1, e2, e3, att] = e2 by simp [firstError, hk', hc', he1, he2]]
    apply lift; apply lift
    unfold Resolved; rw [run_snoc]; exact u4.2.1 (by simp) he2
  have t5 := (u4.2.2 (by simp) he2).2.1 rfl
  have r5 : run (ops ++ [.start k c e1] ++ m1 ++ [.runBind e2 a1] ++ m2 ++ [.runBind e3 a2]) =
      (run (ops ++ [.start k c e1] ++ m1 ++ [.runBind e2 a1] ++ m2)).runBind e3 a2 := run_snoc _ _
  rw [← r5] at t5
  have t6 := starting_asides t5 m3 h3
  rw [← run_append] at t6
  have u6 := starting_runBind t6 e4 att
  unfold Resolved
  rw [run_snoc]
  by_cases he3 : e3 = .ok
  case neg =>
    rw [show firstError [k, c, e1, e2, e3, att] = e3 by simp [firstError, hk', hc', he1, he2, he3]]
    exact u6.2.1 (by simp) he3
  have t7 := (u6.2.2 (by simp) he3).2.2 rfl
  rw [show firstError [k, c, e1, e2, e3, att] = att by
    cases att <;> simp [firstError, hk', hc', he1, he2, he3]]
  exact t7

/-- C90: without keys a start fails, and nothing is started. -/
theorem C90_no_keys (ops : List Op) (k c e : Ec) (hk : keysSet ops = false) :
    Resolved (ops ++ [.start k c e]) (calls ops).length .invalidState ∧
    (run (ops ++ [.start k c e])).core = (run ops).core := by
  have hk' : (run ops).keys = false := by rw [keys_run]; exact hk
  have hd : run (ops ++ [.start k c e]) =
      ({ run ops with next := (run ops).next + 1, startFut := some (run ops).next } : St).tell (run ops).next .invalidState := by
    rw [run_snoc]
    show (run ops).start k c e = _
    unfold St.start
    rw [if_pos (by rw [hk']; rfl)]
  unfold Resolved
  rw [hd]
  refine ⟨?_, rfl⟩
  rw [← (linked ops).next]
  simp [St.tell]

/-- The close is asked for while a client is connected, and the device is stopped before the client is gone. -/
def stopEarly : List Op := begun ++ [.clientOpened, .close, .stop]

/-- C90 is violated: `nabto_device_stop` forgets a close which waits for connections. Its future is never resolved,
whatever happens. -/
theorem C90_stop_violated (more : List Op) (h : ∀ op ∈ more, isStart op = false) :
    Polite (stopEarly ++ more) ∧ (calls (stopEarly ++ more))[1]? = some .close ∧ ∀ e, ¬ Resolved (stopEarly ++ more) 1 e := by
  refine ⟨?_, ?_, ?_⟩
  · unfold stopEarly
    rw [List.append_assoc]
    apply polite_begun
    intro op ho
    rcases List.mem_append.1 ho with ho | ho
    · simp at ho
      rcases ho with rfl | rfl | rfl <;> rfl
    · exact h op ho
  · exact calls_mono (ops := stopEarly) (by decide) more
  · intro e he
    unfold Resolved at he
    rw [run_append] at he
    have s0 : Stuck (run stopEarly) 1 := ⟨by decide, by decide, by decide, by decide, by decide, by decide⟩
    exact (stuck_run s0 (by decide) more h).out _ he rfl

/-- The device is started twice. -/
def startTwice : List Op := [.setKeys true, .start .ok .ok .ok, .start .ok .ok .ok]

/-- C90 needs that the device is not started while it is starting: the future of the first start is never resolved,
whatever happens. -/
theorem C90_start_twice_violated (more : List Op) :
    (∃ a b c, (calls (startTwice ++ more))[0]? = some (.start a b c)) ∧ ∀ e, ¬ Resolved (startTwice ++ more) 0 e := by
  refine ⟨⟨.ok, .ok, .ok, calls_mono (ops := startTwice) (by decide) more⟩, ?_⟩
  intro e he
  unfold Resolved at he
  rw [run_append] at he
  have s0 : Lost (run startTwice) 0 := ⟨by decide, by decide, by decide, by decide⟩
  exact (lost_run s0 more).out _ he rfl

/-- A client and a virtual connection are open when the close is asked for; the client goes. -/
def virtualOpen : List Op := begun ++ [.clientOpened, .virtualOpened, .close, .clientFreed]

/-- C90: a virtual connection holds back a close until the application frees it, if a client was connected when the close
was asked for; it does not if no client was. -/
theorem C90_virtual_violated :
    (∀ more, (∀ op ∈ more, isStart op = false ∧ op ≠ .virtualFreed) →
      Polite (virtualOpen ++ more) ∧ (calls (virtualOpen ++ more))[1]? = some .close ∧
      ∀ e, ¬ Resolved (virtualOpen ++ more) 1 e) ∧
    Resolved (begun ++ [.virtualOpened, .close, .attachClosed, .platClosed .ok]) 1 .ok := by
  refine ⟨?_, by decide⟩
  intro more h
  refine ⟨?_, ?_, ?_⟩
  · unfold virtualOpen
    rw [List.append_assoc]
    apply polite_begun
    intro op ho
    rcases List.mem_append.1 ho with ho | ho
    · simp at ho
      rcases ho with rfl | rfl | rfl | rfl <;> rfl
    · exact (h op ho).1
  · exact calls_mono (ops := virtualOpen) (by decide) more
  · intro e he
    unfold Resolved at he
    rw [run_append] at he
    have s0 : Stuck (run virtualOpen) 1 := ⟨by decide, by decide, by decide, by decide, by decide, by decide⟩
    exact (stuck_virtual s0 (by decide) more h).out _ he rfl

/-- C90 is violated: a device which is closing still lets clients connect. A close succeeds with a client connected. -/
theorem C90_client_violated :
    Polite (begun ++ [.close, .clientOpened, .attachClosed, .platClosed .ok]) ∧
    Resolved (begun ++ [.close, .clientOpened, .attachClosed, .platClosed .ok]) 1 .ok ∧
    (run (begun ++ [.close, .clientOpened, .attachClosed, .platClosed .ok])).clients = 1 := by
  refine ⟨?_, by decide, by decide⟩
  apply polite_begun
  intro op ho
  simp at ho
  rcases ho with rfl | rfl | rfl | rfl <;> rfl

/-- A close while the device starts: both futures are resolved with the code for stopped, which the documentation of close
does not name. -/
example : Resolved [.setKeys true, .start .ok .ok .ok, .close, .runBind .ok .ok] 0 .stopped ∧
    Resolved [.setKeys true, .start .ok .ok .ok, .close, .runBind .ok .ok] 1 .stopped := by decide

/-- The hypotheses of the theorems are met by histories in which something happens. -/
example : Polite (begun ++ [.clientOpened, .virtualOpened, .close, .close, .clientFreed, .virtualFreed, .attachClosed,
    .platClosed .ok]) ∧
    Resolved (begun ++ [.clientOpened, .virtualOpened, .close, .close, .clientFreed, .virtualFreed, .attachClosed,
    .platClosed .ok]) 1 .ok ∧
    Resolved (begun ++ [.clientOpened, .virtualOpened, .close, .close, .clientFreed, .virtualFreed, .attachClosed,
    .platClosed .ok]) 2 .inProgress := by
  refine ⟨?_, by decide, by decide⟩
  apply polite_begun
  intro op ho
  simp at ho
  rcases ho with rfl | rfl | rfl | rfl | rfl | rfl | rfl | rfl <;> rfl

/-- The second start after one which failed is allowed. -/
example : Polite [.start .ok .ok .ok, .setKeys true, .start .ok .ok .ok] := by
  intro b op a he
  cases op <;> try trivial
  rename_i x y z
  intro i o hc ho
  have hlen := congrArg List.length he
  simp at hlen
  rcases b with _ | ⟨b0, _ | ⟨b1, _ | ⟨b2, b3⟩⟩⟩
  · simp [calls] at hc
  · simp at he
  · simp at he
    obtain ⟨rfl, rfl, -⟩ := he
    have : i = 0 := by
      cases i with
      | zero => rfl
      | succ n => cases n <;> cases hc
    subst this
    exact ⟨.invalidState, by decide⟩
  · simp at hlen
    have : b3 = [] := List.length_eq_zero_iff.1 (by omega)
    subst this
    simp at he

end Verif.Device.Life
