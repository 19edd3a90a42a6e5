import Verif.Tunnel.ConnEnd

/-!
# One connection of a TCP tunnel — properties C47, C83 and C84
-/

namespace Verif.Tunnel.Conn

/-- **C47**: what is written to the TCP server is, in every history, a prefix of what the client has sent: nothing is
lost in the middle, repeated, reordered or invented. -/
theorem C47_to_tcp_prefix (checks : Bool) (ops : List Op) : (run checks ops).putTcp <+: (run checks ops).gotStream := by
  obtain ⟨a, d, hE, h⟩ := run_ok checks ops
  rw [hE]
  have nil : ∀ {x y : List UInt8}, x = y → y <+: x := fun h => ⟨[], by rw [List.append_nil]; exact h.symm⟩
  cases a with
  | connecting => exact nil (h.2.2.2.2.1.trans h.2.2.2.2.2.1.symm)
  | connDone e => exact nil (h.2.2.2.1.trans h.2.2.2.2.1.symm)
  | gone x y => exact h.2.2.2.1
  | both t u =>
    obtain ⟨-, -, hu, -, -⟩ := h
    cases u with
    | reading => exact nil hu.1
    | readDone e =>
      by_cases he : e = .ok
      · exact ⟨_, (hu.1 he).1.symm⟩
      · exact nil (hu.2.1 he)
    | writing w => exact ⟨_, hu.1.symm⟩
    | wroteDone e => exact hu.2.1
    | ended => exact hu.1
    | idle => exact hu.elim

/-- **C47**: what is written to the stream of the client is a prefix of what the TCP server has sent. -/
theorem C47_to_stream_prefix (checks : Bool) (ops : List Op) :
    (run checks ops).putStream <+: (run checks ops).gotTcp := by
  obtain ⟨a, d, hE, h⟩ := run_ok checks ops
  rw [hE]
  have nil : ∀ {x y : List UInt8}, x = y → y <+: x := fun h => ⟨[], by rw [List.append_nil]; exact h.symm⟩
  cases a with
  | connecting => exact nil (h.2.2.1.trans h.2.2.2.1.symm)
  | connDone e => exact nil (h.2.1.trans h.2.2.1.symm)
  | gone x y => exact h.2.1
  | both t u =>
    obtain ⟨-, ht, -, -, -⟩ := h
    cases t with
    | reading => exact nil ht.1
    | readDone e =>
      by_cases he : e = .ok
      · exact ⟨_, (ht.1 he).1.symm⟩
      · exact nil (ht.2.1 he)
    | writing w => exact ⟨_, ht.1.symm⟩
    | wroteDone e => exact ht.2.1
    | closing => exact nil ht.1
    | closeDone e => exact nil ht
    | ended => exact ht.1
    | idle => exact ht.elim

/-- **C47**: the end of the data is told to the TCP server only when every byte which was received from the client has
been written, and to the client only when every byte which was received from the TCP server has been written. -/
theorem C47_complete (checks : Bool) (ops : List Op) :
    ((run checks ops).fin = true → (run checks ops).putTcp = (run checks ops).gotStream) ∧
    ((run checks ops).closed = true → (run checks ops).putStream = (run checks ops).gotTcp) := by
  obtain ⟨a, d, hE, h⟩ := run_ok checks ops
  rw [hE]
  have no : ∀ {b : Bool} {p : Prop}, b = false → b = true → p := fun h1 h2 => absurd (h1.symm.trans h2) (by decide)
  cases a with
  | connecting => exact ⟨no h.2.2.2.2.2.2.2, no h.2.2.2.2.2.2.1⟩
  | connDone e => exact ⟨no h.2.2.2.2.2.2, no h.2.2.2.2.2.1⟩
  | gone x y => exact ⟨fun c => (h.2.2.2.2.1 c).symm, fun c => (h.2.2.1 c).symm⟩
  | both t u =>
    obtain ⟨-, ht, hu, -, -⟩ := h
    constructor
    · cases u with
      | reading => exact no hu.2.1
      | readDone e => exact no hu.2.2
      | writing w => exact no hu.2.2
      | wroteDone e => exact no hu.2.2
      | ended => exact fun c => (hu.2 c).symm
      | idle => exact hu.elim
    · cases t with
      | reading => exact no ht.2
      | readDone e => exact no ht.2.2.2
      | writing w => exact no ht.2.2.1
      | wroteDone e => exact no ht.2.2
      | closing => exact fun _ => ht.1.symm
      | closeDone e => exact fun _ => Eq.symm ht
      | ended => exact fun c => (ht.2 c).symm
      | idle => exact ht.elim

/-- **C47**: no result of a socket or stream operation is lost, and nothing is used after the connection is freed. -/
theorem C47_safe (checks : Bool) (ops : List Op) : (run checks ops).bad = false := by
  obtain ⟨a, d, e, -⟩ := run_ok checks ops
  rw [e]
  cases a <;> rfl

/-- **C47**: the resources of a connection are released only when neither the socket, nor the stream, nor the event queue
can reach it any more; it is then in no list. -/
theorem C47_release (checks : Bool) (ops : List Op) (h : (run checks ops).freed = true) :
    Spec.Quiet (run checks ops) ∧ (run checks ops).listed = false := by
  obtain ⟨a, d, e, hok⟩ := run_ok checks ops
  rw [e] at h ⊢
  cases a with
  | gone x y =>
    refine ⟨⟨rfl, rfl, rfl, rfl, rfl, rfl, ?_⟩, hok.2.2.2.2.2.2.2⟩
    intro hw
    rcases hw with hw | hw | hw | hw | hw | hw <;> exact hw rfl
  | _ => cases h

/-- **C47**: and before they are released, nothing else was outstanding: the connection which is freed by a callback was
waiting for this callback only. -/
theorem C47_release_last (checks : Bool) (ops : List Op) (op : Op) (h0 : (run checks ops).freed = false)
    (h : (step checks (run checks ops) op).freed = true) :
    Spec.runs (run checks ops) op = true ∧ (run checks ops).tConn = false ∧ (run checks ops).tRead = false ∧
    (run checks ops).tWrite = none ∧ (run checks ops).sRead = false ∧ (run checks ops).sWrite = none ∧
    (run checks ops).sClose = false ∧
    ∀ op', op' ≠ op → Spec.runs (run checks ops) op' = false := by
  obtain ⟨a, d, hE, hok⟩ := run_ok checks ops
  rw [hE] at h0 h ⊢
  obtain ⟨hr, hc⟩ := freed_last checks a d hok op h0 h
  refine ⟨hr, ?_⟩
  rcases hc with ⟨e, rfl, rfl⟩ | ⟨t, u, rfl, hc⟩
  · exact ⟨rfl, rfl, rfl, rfl, rfl, rfl, fun op' hne => by cases op' <;> first | rfl | exact absurd rfl hne⟩
  · rcases hc with ⟨e, rfl, rfl, rfl⟩ | ⟨e, rfl, rfl, rfl⟩ | ⟨e, rfl, rfl, rfl⟩ | ⟨e, rfl, rfl, rfl⟩ | ⟨e, rfl, rfl, rfl⟩ <;>
    exact ⟨rfl, rfl, rfl, rfl, rfl, rfl, fun op' hne => by cases op' <;> first | rfl | exact absurd rfl hne⟩

/-- **C47**: forwarding goes on. While the connection is not released, the socket is being connected, or each direction
which has not ended has exactly one thing under way: a read, the event of a completed read, the write of what was read, the
event of a completed write, the close or the event of a completed close. -/
theorem C47_not_stuck (checks : Bool) (ops : List Op) (h : (run checks ops).freed = false) :
    ((run checks ops).tConn = true ∨ (run checks ops).eConn.isSome) ∨
    (Spec.one [(run checks ops).tcpReadEnded, (run checks ops).tRead, (run checks ops).eTRead.isSome,
        (run checks ops).sWrite.isSome, (run checks ops).eSWrite.isSome, (run checks ops).sClose,
        (run checks ops).eSClose.isSome] ∧
      Spec.one [(run checks ops).streamReadEnded, (run checks ops).sRead, (run checks ops).eSRead.isSome,
        (run checks ops).tWrite.isSome, (run checks ops).eTWrite.isSome]) := by
  obtain ⟨a, d, e, hok⟩ := run_ok checks ops
  rw [e] at h ⊢
  cases a with
  | connecting => exact Or.inl (Or.inl rfl)
  | connDone e => exact Or.inl (Or.inr rfl)
  | gone x y => cases h
  | both t u =>
    obtain ⟨-, ht, hu, -, -⟩ := hok
    refine Or.inr ⟨?_, ?_⟩
    · cases t <;> first | rfl | exact ht.elim
    · cases u <;> first | rfl | exact hu.elim

/-- A history in which both directions carry data, both ends close and the connection is released. -/
def full : List Op :=
  [.connectDone .ok, .runConn, .streamData [1, 2, 3], .runSRead, .tcpWrote 2, .tcpWrote 1, .runTWrite,
   .tcpData [4, 5], .runTRead, .streamWrote 2, .runSWrite, .streamEnd .eof, .runSRead, .tcpEnd .eof, .runTRead,
   .streamClosed .ok, .runSClose]

example : (run true full).freed = true ∧ (run true full).putTcp = [1, 2, 3] ∧ (run true full).putStream = [4, 5] ∧
    (run true full).fin = true ∧ (run true full).closed = true := by decide

example : (run true (full.take 8)).freed = false ∧ (run true (full.take 8)).tConn = false ∧
    (run true (full.take 8)).eConn = none := by decide

example : (run true (full.take 16)).freed = false ∧ (step true (run true (full.take 16)) .runSClose).freed = true := by
  decide

/-- **C83** (part): once the TCP server has sent anything, the client sees a clean end of the data only when the TCP server
has ended its data. Missing: the other direction, and errors of the first read; see the two counterexamples. -/
theorem C83_clean_end_partial (checks : Bool) (ops : List Op) (h : (run checks ops).closed = true) :
    (run checks ops).tEof = true ∨ (run checks ops).gotTcp = [] := by
  obtain ⟨a, d, e, hok⟩ := run_ok checks ops
  rw [e] at h ⊢
  have hd : DOk d := hok.1
  have h' : d.closed = true := by cases a <;> exact h
  have := hd.2.2 h'
  cases a <;> exact this

example : (run true full).closed = true ∧ (run true full).gotTcp ≠ [] := by decide

/-- **C83** is violated by the code: the stream of the client is lost (its connection is closed) while the client is
sending, and the TCP server is told that the data has ended. -/
theorem C83_lost_stream_violated (checks : Bool) :
    ∃ ops, (run checks ops).fin = true ∧ (run checks ops).sEof = false ∧ (run checks ops).gotStream ≠ [] ∧
      (run checks ops).aborted = false :=
  ⟨[.connectDone .ok, .runConn, .streamData [1, 2, 3], .runSRead, .tcpWrote 3, .runTWrite, .streamStop, .runSRead], by
    cases checks <;> decide⟩

/-- **C83** is violated by the code: the TCP server resets the connection before it sends anything, and the client is told
that the data has ended. -/
theorem C83_reset_violated (checks : Bool) :
    ∃ ops, (run checks ops).closed = true ∧ (run checks ops).tEof = false ∧ (run checks ops).aborted = false :=
  ⟨[.connectDone .ok, .runConn, .tcpEnd .other, .runTRead], by cases checks <;> decide⟩

/-- **C84** (part): with a socket implementation which looks whether it was aborted (select), an aborted connection which
is not yet freed has an event in the queue, and at most five of its events run, whatever else happens meanwhile, until it
is freed. Missing: libevent and connections which are not aborted; see the two counterexamples. -/
theorem C84_aborted_ends_partial (ops more : List Op) (h : (run true ops).aborted = true) :
    ((run true ops).freed = false → Spec.Waits (run true ops)) ∧
    (5 ≤ Spec.ran true (run true ops) more → (more.foldl (step true) (run true ops)).freed = true) := by
  obtain ⟨a, d, e, hok⟩ := run_ok true ops
  rw [e] at h ⊢
  have ha : d.aborted = true := by cases a <;> exact h
  exact ⟨fun hf => (rank_pos a d hok ha hf).2,
    fun hr => ran_freed more a d hok ha (Nat.le_trans (rank_le a) hr)⟩

/-- **C84**: removing the service aborts its connections. -/
theorem C84_stop_aborts (checks : Bool) (ops : List Op) (h : (run checks ops).listed = true) :
    (step checks (run checks ops) .managerStop).aborted = true ∧
    (step checks (run checks ops) .managerStop).listed = false := by
  obtain ⟨a, d, hE, hok⟩ := run_ok checks ops
  rw [hE] at h ⊢
  rw [step, if_pos h]
  cases a with
  | gone x y => exact absurd (h.symm.trans hok.2.2.2.2.2.2.2) (by decide)
  | connecting =>
    obtain ⟨ab, f, st, c, tb, sb, l, g1, g2, g3, g4, e1, e2⟩ := d
    cases ab <;> cases st <;> exact ⟨rfl, rfl⟩
  | connDone e =>
    obtain ⟨ab, f, st, c, tb, sb, l, g1, g2, g3, g4, e1, e2⟩ := d
    cases ab <;> cases st <;> exact ⟨rfl, rfl⟩
  | both t u =>
    show (conc (.both t u) { d with listed := false }).abort.aborted = true ∧
      (conc (.both t u) { d with listed := false }).abort.listed = false
    rw [abort_both t u { d with listed := false } hok.1]
    exact ⟨rfl, rfl⟩

/-- A connection which has read from both sides and is stopped in the middle. -/
def stopped : List Op :=
  [.connectDone .ok, .runConn, .streamData [1], .runSRead, .tcpWrote 1, .tcpData [7], .runTRead, .streamWrote 1,
   .managerStop]

example : (run true stopped).aborted = true ∧ (run true stopped).freed = false ∧
    Spec.ran true (run true stopped) [.runTWrite, .runSRead, .runSWrite, .tcpData [1], .runTRead] = 4 ∧
    ([Op.runTWrite, .runSRead, .runSWrite, .tcpData [1], .runTRead].foldl (step true) (run true stopped)).freed = true := by
  decide

/-- **C84** is violated by the code with libevent: the service is removed while a completed write to the stream waits in the
event queue; the callback starts a read on the aborted socket, which nothing ends: unless the TCP server acts, the
connection is never freed. -/
theorem C84_libevent_violated :
    ∃ ops, Op.managerStop ∈ ops ∧ (run false ops).aborted = true ∧ ¬ Spec.Waits (run false ops) ∧
      ∀ more : List Op, (∀ op ∈ more, ¬ Spec.ServerActs op) →
        (more.foldl (step false) (run false ops)).freed = false := by
  refine ⟨[.connectDone .ok, .runConn, .tcpData [7], .runTRead, .streamWrote 1, .managerStop, .runSWrite, .runSRead], by
    decide, by decide, by unfold Spec.Waits; decide, fun more h => ?_⟩
  rw [foldl_fixed false _ more fun op hop => ?_]
  · decide
  · have := h op hop
    cases op <;> first | rfl | exact absurd trivial this

/-- **C84** is violated by the code: the client is gone, and the TCP server sends nothing. The connection is never freed and
counts as one of the connections of its service for ever. -/
theorem C84_silent_server_violated (checks : Bool) :
    ∃ ops, (run checks ops).stopped = true ∧ ¬ Spec.Waits (run checks ops) ∧
      ∀ more : List Op, (∀ op ∈ more, ¬ Spec.ServerActs op ∧ op ≠ .managerStop) →
        (more.foldl (step checks) (run checks ops)).freed = false ∧
        (more.foldl (step checks) (run checks ops)).listed = true := by
  refine ⟨[.connectDone .ok, .runConn, .streamStop, .runSRead], by cases checks <;> decide,
    by unfold Spec.Waits; cases checks <;> decide, fun more h => ?_⟩
  rw [foldl_fixed checks _ more fun op hop => ?_]
  · cases checks <;> decide
  · have := h op hop
    cases checks <;> cases op <;>
      first | rfl | exact absurd trivial this.1 | exact absurd rfl this.2

end Verif.Tunnel.Conn
