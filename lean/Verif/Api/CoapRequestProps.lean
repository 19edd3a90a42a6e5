import Verif.Api.CoapRequestLemmas

/-! # C159: CoAP requests on their way to the application -/

namespace Verif.Api.CoapRequest.Props
open Verif.Iam.Record Verif.Iam.Record.Spec Verif.Api.CoapRequest.Spec

/-- **C159**, as long as the device did not crash: every request which came in was given to the application, waits for it, or was answered by the
device, exactly one of them; what the application was given and will be given is in the order in which it came. -/
theorem C159_every_partial (m : Mem) (ops : List Op) (hc : (run { mem := m } ops).crashed = false) :
    (came { mem := m } ops).Perm ((run { mem := m } ops).handed ++ (run { mem := m } ops).queue.map Req.id ++
      (run { mem := m } ops).told.map Prod.fst) ∧
    ((run { mem := m } ops).handed ++ (run { mem := m } ops).queue.map Req.id).Sublist (came { mem := m } ops) := by
  have := run_where ops { mem := m } [] ⟨List.Perm.refl _, List.Sublist.refl _⟩ hc
  rw [List.nil_append] at this
  exact ⟨this.perm, this.order⟩

/-- **C159**: no request waits while the application waits for one, and the application is given no more requests than it asked for. -/
theorem C159_prompt (m : Mem) (ops : List Op) :
    ((run { mem := m } ops).waiting = true → (run { mem := m } ops).queue = []) ∧
    (run { mem := m } ops).handed.length ≤ ops.count .listen := by
  have := run_prompt ops { mem := m } 0 ⟨fun _ => rfl, Nat.le_refl _⟩
  refine ⟨this.idle, ?_⟩
  have := this.asked
  omega

example : let s := run { mem := { ok := fun _ => true } } [.init true, .arrive 1, .arrive 2, .listen];
    s.waiting = false ∧ s.handed = [1] ∧ s.queue.map Req.id = [2] := by decide +kernel

/-- **C159**, if the memory suffices: the device does not crash, and it answers a request itself only because the listener was stopped. -/
theorem C159_plenty (m : Mem) (hp : Plenty m) (ops : List Op) :
    (run { mem := m } ops).crashed = false ∧ ∀ t ∈ (run { mem := m } ops).told, t.2 = .unavailable := by
  have := run_fine ops { mem := m } ⟨hp, rfl, fun t ht => by cases ht⟩
  exact ⟨this.alive, this.told⟩

/-- **C159**, as long as the device did not crash: no block is given back twice, and the memory in use is that of the requests which wait or which the
application has, that of the listener, and the blocks `lostIn` counts. -/
theorem C159_memory_partial (m : Mem) (others : List Nat) (hm : Holds m [] others) (ops : List Op)
    (hc : (run { mem := m } ops).crashed = false) :
    ∃ l, l.length = lostIn { mem := m } ops ∧ Holds (run { mem := m } ops).mem (held (run { mem := m } ops)) (l ++ others) := by
  obtain ⟨l, h1, h2⟩ := run_mem (ok := m.ok) ops { mem := m } others ⟨hm, rfl⟩ hc
  exact ⟨l, h1, h2.holds⟩

/-- A run with all kinds of steps: two requests are served, one is answered for lack of memory and one because the listener stops. -/
example :
    let s := run { mem := { ok := fun n => n != 10 } }
      [.init true, .arrive 1, .listen, .listen, .arrive 2, .arrive 3, .arrive 4, .release 0, .stop, .arrive 5];
    s.crashed = false ∧ s.handed = [1, 2] ∧ s.told = [(3, .insufficient), (4, .unavailable)] ∧
      s.given.map Req.id = [2] ∧ s.mem.live.length = 5 ∧ s.mem.bad = false := by decide +kernel

/-- **C159** is violated by the code: a request for which the library has memory and the core has not crashes the device, whatever came before. -/
theorem C159_crash_violated (s : St) (hs : s.crashed = false) (res nc : Nat) (hp : s.phase = .listening res nc)
    (h1 : s.mem.ok s.mem.asked = true) (h2 : s.mem.ok (s.mem.asked + 1) = false) (id : Nat) (ops : List Op) :
    (run s (.arrive id :: ops)).crashed = true := by
  have : (step s (.arrive id)).crashed = true := by
    simp only [step, hs, Bool.false_eq_true, if_false, arrive, hp]
    rw [alloc_ok _ h1]
    dsimp only
    rw [alloc_no _ (by exact h2)]
  rw [show run s (.arrive id :: ops) = run (step s (.arrive id)) ops from rfl, crashed_stays _ _ this, this]

example : let s := run { mem := { ok := fun n => n != 3 } } [.init true];
    s.crashed = false ∧ s.phase = .listening 0 1 ∧ s.mem.ok s.mem.asked = true ∧ s.mem.ok (s.mem.asked + 1) = false := by decide +kernel

/-- **C159** is violated by the code: two blocks are lost for every request which waits when the listener is stopped. -/
theorem C159_stop_violated (m : Mem) (hm : Holds m [] []) (hp : Plenty m) (ids : List Nat) :
    (run { mem := m } (.init true :: (ids.map .arrive ++ [.stop]))).mem.live.length = 2 * ids.length ∧
    held (run { mem := m } (.init true :: (ids.map .arrive ++ [.stop]))) = [] := by
  have hf : Fine { mem := m } := ⟨hp, rfl, fun t ht => by cases ht⟩
  have hk : ∀ n, m.ok n = true := hp
  have hi : step { mem := m } (.init true) =
      { mem := { m with asked := m.asked + 1 + 1, live := (m.asked + 1) :: m.asked :: m.live }, phase := .listening m.asked (m.asked + 1) } := by
    simp only [step, Bool.false_eq_true, if_false, initListener]
    rw [alloc_ok _ (hk _)]
    dsimp only
    rw [alloc_ok _ (by exact hk _)]
    rfl
  have hw : (step { mem := m } (.init true)).waiting = false := by rw [hi]
  have hph : (step { mem := m } (.init true)).phase = .listening m.asked (m.asked + 1) := by rw [hi]
  have hg : (step { mem := m } (.init true)).given = [] := by rw [hi]
  have hq : (step { mem := m } (.init true)).queue = [] := by rw [hi]
  have hf1 := step_fine _ (.init true) hf
  obtain ⟨a1, a2, a3, a4⟩ := arrive_all ids _ hf1 hw _ _ hph
  have hf2 := run_fine (ids.map .arrive) _ hf1
  have hrun : run { mem := m } (.init true :: (ids.map .arrive ++ [.stop])) =
      stop (run (step { mem := m } (.init true)) (ids.map .arrive)) := by
    have hst : ∀ t : St, t.crashed = false → step t .stop = stop t := fun t ht => by simp [step, ht]
    rw [← hst _ hf2.alive]
    simp only [run, List.foldl_cons, List.foldl_append, List.foldl_nil]
  have hheld : held (run { mem := m } (.init true :: (ids.map .arrive ++ [.stop]))) = [] := by
    rw [hrun]
    simp only [stop, a2]
    have hgv : ∀ (q : List Req) (s : St), (q.foldl turnAway s).given = s.given := by
      intro q
      induction q with
      | nil => intro s; rfl
      | cons r q ih => intro s; exact ih _
    simp [held, ofPhase, hgv, a3, hg]
  refine ⟨?_, hheld⟩
  obtain ⟨l, h1, h2⟩ := C159_memory_partial m [] hm _ (C159_plenty m hp (.init true :: (ids.map .arrive ++ [.stop]))).1
  rw [hheld] at h2
  have := h2.perm.length_eq
  simp only [List.nil_append, List.append_nil] at this
  rw [this, h1, lostIn, lostIn_append, a4, lostIn, lostIn]
  simp [lost, hf2.alive, a2, a1, hq]

/-- **C159** is violated by the code: a block is lost each time the library cannot register the resource of a listener. -/
theorem C159_init_violated (m : Mem) (hm : Holds m [] []) (hp : Plenty m) (n : Nat) :
    (run { mem := m } (List.replicate n (.init false))).mem.live.length = n ∧
    held (run { mem := m } (List.replicate n (.init false))) = [] := by
  have key : ∀ (n : Nat) (s : St), Fine s → s.phase = .fresh → s.queue = [] → s.given = [] →
      held (run s (List.replicate n (.init false))) = [] ∧ lostIn s (List.replicate n (.init false)) = n := by
    intro n
    induction n with
    | zero => intro s _ h1 h2 h3; exact ⟨by simp [run, held, h1, h2, h3, ofPhase], rfl⟩
    | succ n ih =>
      intro s hf h1 h2 h3
      have hk : ∀ n, s.mem.ok n = true := hf.plenty
      have hs : (step s (.init false)).phase = .fresh ∧ (step s (.init false)).queue = [] ∧ (step s (.init false)).given = [] := by
        simp only [step, hf.alive, Bool.false_eq_true, if_false, initListener, h1]
        rw [alloc_ok _ (hk _)]
        dsimp only
        rw [alloc_ok _ (by exact hk _)]
        exact ⟨rfl, h2, h3⟩
      obtain ⟨i1, i2⟩ := ih _ (step_fine s _ hf) hs.1 hs.2.1 hs.2.2
      refine ⟨i1, ?_⟩
      rw [List.replicate_succ, lostIn, i2]
      simp [hf.alive, lost, h1, hk]
      omega
  obtain ⟨k1, k2⟩ := key n { mem := m } ⟨hp, rfl, fun t ht => by cases ht⟩ rfl rfl rfl
  refine ⟨?_, k1⟩
  obtain ⟨l, h1, h2⟩ := C159_memory_partial m [] hm _ (C159_plenty m hp (List.replicate n (.init false))).1
  rw [k1] at h2
  have := h2.perm.length_eq
  simp only [List.nil_append, List.append_nil] at this
  rw [this, h1, k2]

example : Holds { ok := fun _ => true } [] [] ∧ Plenty { ok := fun _ => true } :=
  ⟨⟨List.Perm.refl _, List.nodup_nil, (fun _ h => by cases h), rfl⟩, fun _ => rfl⟩

end Verif.Api.CoapRequest.Props
