import Verif.Net.LoopSpec

/-
C105: the loop of the select platform does not miss what the core asks for.
-/
namespace Verif.Net.Loop

open Spec

theorem snoc_ind {P : List Op → Prop} (nil : P [])
    (snoc : ∀ ops op, P ops → P (ops ++ [op])) (ops : List Op) : P ops := by
  have h : ∀ l : List Op, P l.reverse := by
    intro l
    induction l with
    | nil => exact nil
    | cons a l ih => rw [List.reverse_cons]; exact snoc _ _ ih
  have := h ops.reverse
  rwa [List.reverse_reverse] at this

theorem boundFirst_prefix {ops : List Op} {op : Op} (h : BoundFirst (ops ++ [op])) : BoundFirst ops := by
  intro b k fd a e
  exact h b k fd (a ++ [op]) (by rw [e]; simp)

theorem noError_prefix {ops : List Op} {op : Op} (h : NoError (ops ++ [op])) : NoError ops :=
  fun r hr => h r (List.mem_append_left _ hr)

/-- What holds at every point of every schedule. -/
structure Inv (s : St) : Prop where
  /-- while the thread is asleep -/
  watch : s.pc = .asleep → ∀ x ∈ s.socks, x.id ∈ s.pend → (x.kind = .udp → x.fd ≠ -1) →
    (x.id, x.fd) ∈ s.set ∨ 0 < s.bytes + s.notes
  stop : s.pc = .build ∨ s.pc = .asleep → s.stopped = true → 0 < s.bytes + s.notes
  fresh : ∀ k ∈ s.pend, k < s.next
  old : ∀ x ∈ s.socks, x.id < s.next

theorem inv (ops : List Op) (hb : BoundFirst ops) : Inv (run ops) := by
  induction ops using snoc_ind with
  | nil => exact ⟨(fun h => by cases h), (fun h => by rcases h with h | h <;> cases h),
      (fun k hk => by cases hk), (fun x hx => by cases hx)⟩
  | snoc ops op ih =>
    have h := ih (boundFirst_prefix hb)
    have hb' : ∀ k fd, op = .openFd k fd → k ∉ (run ops).pend ∨ 0 < (run ops).notes := by
      intro k fd e
      exact hb ops k fd [] (by rw [e])
    rw [run_snoc]
    generalize run ops = s at *
    cases op with
    | create k =>
      refine ⟨?_, h.stop, fun j hj => Nat.lt_succ_of_lt (h.fresh j hj), ?_⟩
      · intro hp x hx hk hu
        have hx : x ∈ s.socks ++ [⟨s.next, k, -1⟩] := hx
        rcases List.mem_append.1 hx with hx | hx
        · exact h.watch hp x hx hk hu
        · have e : x = ⟨s.next, k, -1⟩ := List.mem_singleton.1 hx
          have := h.fresh x.id hk
          rw [e] at this
          exact absurd this (Nat.lt_irrefl _)
      · intro x hx
        have hx : x ∈ s.socks ++ [⟨s.next, k, -1⟩] := hx
        rcases List.mem_append.1 hx with hx | hx
        · exact Nat.lt_succ_of_lt (h.old x hx)
        · rw [List.mem_singleton.1 hx]; exact Nat.lt_succ_self _
    | openFd k fd =>
      refine ⟨?_, h.stop, h.fresh, ?_⟩
      · intro hp x hx hk hu
        have hx : x ∈ s.socks.map (fun x => if x.id = k then { x with fd := fd } else x) := hx
        obtain ⟨y, hy, e⟩ := List.mem_map.1 hx
        by_cases hyk : y.id = k
        · rw [if_pos hyk] at e
          rcases hb' k fd rfl with hn | hn
          · have : x.id = k := by rw [← e]; exact hyk
            rw [this] at hk
            exact absurd hk hn
          · exact .inr (Nat.lt_of_lt_of_le hn (Nat.le_add_left _ _))
        · rw [if_neg hyk] at e
          subst e
          exact h.watch hp y hy hk hu
      · intro x hx
        have hx : x ∈ s.socks.map (fun x => if x.id = k then { x with fd := fd } else x) := hx
        obtain ⟨y, hy, e⟩ := List.mem_map.1 hx
        have : x.id = y.id := by rw [← e]; split <;> rfl
        rw [this]; exact h.old y hy
    | request k =>
      show Inv (s.request k)
      unfold St.request
      split
      · rename_i hc
        refine ⟨fun _ _ _ _ _ => .inr (by show 0 < s.bytes + (s.notes + 1); omega),
          fun _ _ => by show 0 < s.bytes + (s.notes + 1); omega, ?_, h.old⟩
        intro j hj
        rcases List.mem_append.1 hj with hj | hj
        · exact h.fresh j hj
        · obtain ⟨x, hx, e⟩ := hc.1
          rw [List.mem_singleton.1 hj, ← e]; exact h.old x hx
      · exact h
    | cancel k =>
      refine ⟨?_, h.stop, ?_, h.old⟩
      · intro hp x hx hk hu
        exact h.watch hp x hx (List.mem_filter.1 hk).1 hu
      · intro j hj
        exact h.fresh j (List.mem_filter.1 hj).1
    | remove k =>
      refine ⟨?_, h.stop, ?_, ?_⟩
      · intro hp x hx hk hu
        exact h.watch hp x (List.mem_filter.1 hx).1 (List.mem_filter.1 hk).1 hu
      · intro j hj
        exact h.fresh j (List.mem_filter.1 hj).1
      · intro x hx
        exact h.old x (List.mem_filter.1 hx).1
    | notify =>
      show Inv s.notify
      unfold St.notify
      split
      · rename_i hn
        refine ⟨fun _ _ _ _ _ => .inr (by show 0 < s.bytes + 1 + (s.notes - 1); omega),
          fun _ _ => by show 0 < s.bytes + 1 + (s.notes - 1); omega, h.fresh, h.old⟩
      · exact h
    | stop =>
      exact ⟨fun _ _ _ _ _ => .inr (by show 0 < s.bytes + (s.notes + 1); omega),
        fun _ _ => by show 0 < s.bytes + (s.notes + 1); omega, h.fresh, h.old⟩
    | thread err ready =>
      show Inv (s.thread err ready)
      unfold St.thread
      split
      · split
        · exact ⟨(fun e => by cases e), (fun e => by rcases e with e | e <;> cases e), h.fresh, h.old⟩
        · rename_i hs
          exact ⟨(fun e => by cases e), (fun _ e => absurd e hs), h.fresh, h.old⟩
      · rename_i hp
        refine ⟨?_, fun _ => h.stop (.inl hp), h.fresh, h.old⟩
        intro _ x hx hk hu
        left
        refine List.mem_map.2 ⟨x, List.mem_filter.2 ⟨hx, ?_⟩, rfl⟩
        have hk : x.id ∈ s.pend := hk
        unfold St.watched
        cases e : x.kind with
        | udp => simp [hk, hu e]
        | tcp => simp [hk]
      · split
        · exact ⟨(fun e => by cases e), (fun e => by rcases e with e | e <;> cases e), h.fresh, h.old⟩
        · dsimp only
          split
          · exact h
          · exact ⟨(fun e => by cases e), (fun e => by rcases e with e | e <;> cases e), h.fresh, h.old⟩
      · rename_i p r hp
        split
        · split
          · exact h
          · exact ⟨(fun e => by cases e), (fun e => by rcases e with e | e <;> cases e), h.fresh, h.old⟩
        · exact ⟨(fun e => by cases e), (fun e => by rcases e with e | e <;> cases e), h.fresh, h.old⟩
      · refine ⟨(fun e => by cases e), (fun e => by rcases e with e | e <;> cases e), ?_, h.old⟩
        intro k hk
        exact h.fresh k (List.mem_filter.1 hk).1
      · exact h

/-- **C105** (nothing is missed).  In every schedule of the two threads, whatever `select` reports:
when the network thread sleeps and does not watch a socket that has something pending, then
there is a byte in the pipe that wakes it, or the core is about to write one. -/
theorem C105_wakeup (ops : List Op) (hb : BoundFirst ops) (x : Sock) (hm : Missed (run ops) x) :
    0 < (run ops).bytes + (run ops).notes := by
  obtain ⟨hp, hx, hk, hu, hn⟩ := hm
  rcases (inv ops hb).watch hp x hx hk hu with h | h
  · exact absurd h hn
  · exact h

/-- **C105** (stop is not missed).  A thread that sleeps after it was told to stop is woken. -/
theorem C105_stop (ops : List Op) (hb : BoundFirst ops) (hp : (run ops).pc = .asleep)
    (hs : (run ops).stopped = true) : 0 < (run ops).bytes + (run ops).notes :=
  (inv ops hb).stop (.inr hp) hs

/-- Without failures of `select`, a thread that goes to read the pipe finds a byte. -/
theorem reads (ops : List Op) (he : NoError ops) (r : List Int) (hp : (run ops).pc = .woken true r) :
    0 < (run ops).bytes := by
  induction ops using snoc_ind generalizing r with
  | nil => cases hp
  | snoc ops op ih =>
    have ih := ih (noError_prefix he)
    rw [run_snoc] at hp ⊢
    have hne : ∀ q, op ≠ .thread true q := fun q e => he q (by rw [e]; simp)
    generalize run ops = s at *
    cases op with
    | create k => exact ih r hp
    | openFd k fd => exact ih r hp
    | request k =>
      have e : (s.step (.request k)).pc = s.pc ∧ (s.step (.request k)).bytes = s.bytes := by
        simp only [St.step, St.request]; split <;> exact ⟨rfl, rfl⟩
      rw [e.1] at hp; rw [e.2]; exact ih r hp
    | cancel k => exact ih r hp
    | remove k => exact ih r hp
    | notify =>
      have e : (s.step .notify).pc = s.pc ∧ s.bytes ≤ (s.step .notify).bytes := by
        simp only [St.step, St.notify]; split
        · exact ⟨rfl, Nat.le_succ _⟩
        · exact ⟨rfl, Nat.le_refl _⟩
      rw [e.1] at hp; exact Nat.lt_of_lt_of_le (ih r hp) e.2
    | stop => exact ih r hp
    | thread err ready =>
      have hf : err = false := by
        cases err with
        | false => rfl
        | true => exact absurd rfl (hne ready)
      subst hf
      revert hp
      simp only [St.step, St.thread]
      cases hpc : s.pc with
      | top => simp only; split <;> (intro e; cases e)
      | build => simp only; intro e; cases e
      | asleep =>
        simp only [Bool.false_eq_true, if_false]
        split
        · intro e; rw [hpc] at e; cases e
        · intro e
          injection e with e1 e2
          simpa using e1
      | woken p q =>
        simp only
        split
        · split
          · intro e; rw [hpc] at e; injection e with e1 e2; exact ih r (by rw [hpc, e1, e2])
          · intro e; cases e
        · intro e; cases e
      | handle q => simp only; intro e; cases e
      | exited => simp only; intro e; rw [hpc] at e; cases e

/-- **C105** (the thread ends).  If `select` has not failed, the thread was told to stop and the
notification was written, then it exits after at most five of its own steps, whatever is ready. -/
theorem C105_exits (ops : List Op) (hb : BoundFirst ops) (he : NoError ops)
    (hs : (run ops).stopped = true) (hn : (run ops).notes = 0) (r1 r2 r3 r4 r5 : List (Nat × Int)) :
    (run (ops ++ [.thread false r1, .thread false r2, .thread false r3, .thread false r4,
      .thread false r5])).pc = .exited := by
  have h := inv ops hb
  have hr := reads ops he
  rw [run_append]
  generalize run ops = s at *
  simp only [List.foldl_cons, List.foldl_nil, St.step]
  have ex : ∀ (t : St), t.pc = .exited → ∀ r, t.thread false r = t := by
    intro t ht r; simp [St.thread, ht]
  have top : ∀ (t : St), t.pc = .top → t.stopped = true → ∀ r, (t.thread false r).pc = .exited := by
    intro t ht hst r; simp [St.thread, ht, hst]
  have hand : ∀ (t : St) q, t.pc = .handle q → ∀ r, (t.thread false r).pc = .top ∧
      (t.thread false r).stopped = t.stopped := by
    intro t q ht r; simp [St.thread, ht]
  have wok : ∀ (t : St) p q, t.pc = .woken p q → (p = true → 0 < t.bytes) → ∀ r,
      (t.thread false r).pc = .handle q ∧ (t.thread false r).stopped = t.stopped := by
    intro t p q ht hp r
    cases p with
    | true => have : t.bytes ≠ 0 := Nat.pos_iff_ne_zero.1 (hp rfl); simp [St.thread, ht, this]
    | false => simp [St.thread, ht]
  have slp : ∀ (t : St), t.pc = .asleep → 0 < t.bytes → ∀ r, ∃ q, (t.thread false r).pc = .woken true q ∧
      (t.thread false r).stopped = t.stopped ∧ 0 < (t.thread false r).bytes := by
    intro t ht hp r
    have : t.bytes ≠ 0 := Nat.pos_iff_ne_zero.1 hp
    exact ⟨_, by simp [St.thread, ht, this, hp]; rfl⟩
  cases hpc : s.pc with
  | exited =>
    simp [ex _ hpc, hpc]
  | top =>
    have h1 := top s hpc hs r1
    simp [ex _ h1, h1]
  | handle q =>
    have h1 := hand s q hpc r1
    have h2 := top _ h1.1 (h1.2.trans hs) r2
    simp [ex _ h2, h2]
  | woken p q =>
    have h0 := wok s p q hpc (fun e => hr q (by rw [hpc, e])) r1
    have h1 := hand _ q h0.1 r2
    have h2 := top _ h1.1 (h1.2.trans (h0.2.trans hs)) r3
    simp [ex _ h2, h2]
  | asleep =>
    have hby : 0 < s.bytes := by have := h.stop (.inr hpc) hs; omega
    obtain ⟨q, a1, a2, a3⟩ := slp s hpc hby r1
    have h0 := wok _ true q a1 (fun _ => a3) r2
    have h1 := hand _ q h0.1 r3
    have h2 := top _ h1.1 (h1.2.trans (h0.2.trans (a2.trans hs))) r4
    simp [ex _ h2, h2]
  | build =>
    have hby : 0 < s.bytes := by have := h.stop (.inl hpc) hs; omega
    have b1 : (s.thread false r1).pc = .asleep ∧ (s.thread false r1).stopped = s.stopped ∧
        (s.thread false r1).bytes = s.bytes := by simp [St.thread, hpc]
    obtain ⟨q, a1, a2, a3⟩ := slp _ b1.1 (by rw [b1.2.2]; exact hby) r2
    have h0 := wok _ true q a1 (fun _ => a3) r3
    have h1 := hand _ q h0.1 r4
    exact top _ h1.1 (h1.2.trans (h0.2.trans (a2.trans (b1.2.1.trans hs)))) r5

/-- **C105** (what is ready is served).  If the sleeping thread watches a socket with something
pending and the socket becomes ready, three steps of the thread complete it. -/
theorem C105_served (ops : List Op) (x : Sock) (hp : (run ops).pc = .asleep) (hx : x ∈ (run ops).socks)
    (hk : x.id ∈ (run ops).pend) (hs : (x.id, x.fd) ∈ (run ops).set) (hu : x.kind = .udp → x.fd ≠ -1)
    (r r2 r3 : List (Nat × Int)) (hr : (x.id, x.fd) ∈ r) :
    x.id ∈ (run (ops ++ [.thread false r, .thread false r2, .thread false r3])).served ∧
    x.id ∉ (run (ops ++ [.thread false r, .thread false r2, .thread false r3])).pend := by
  rw [run_append]
  generalize run ops = s at *
  simp only [List.foldl_cons, List.foldl_nil, St.step]
  obtain ⟨q, hq⟩ : ∃ q, q = (r.filter (fun k => decide (k ∈ s.set))).map (·.2) := ⟨_, rfl⟩
  have hmem : x.fd ∈ q := by
    rw [hq]
    exact List.mem_map.2 ⟨(x.id, x.fd), List.mem_filter.2 ⟨hr, by simpa using hs⟩, rfl⟩
  have hne : q ≠ [] := List.ne_nil_of_mem hmem
  have e1 : s.thread false r = { s with pc := .woken (decide (0 < s.bytes)) q } := by
    simp only [St.thread, hp, Bool.false_eq_true, if_false, ← hq]
    rw [if_neg (fun h => hne h.1)]
  have e2 : ∃ b, ({ s with pc := .woken (decide (0 < s.bytes)) q } : St).thread false r2 =
      { s with bytes := b, pc := .handle q } := by
    by_cases hb : 0 < s.bytes
    · exact ⟨s.bytes - 1, by simp [St.thread, hb, Nat.pos_iff_ne_zero.1 hb]⟩
    · exact ⟨s.bytes, by simp [St.thread, hb]⟩
  obtain ⟨b, e2⟩ := e2
  rw [e1, e2]
  have hf : ({ s with bytes := b, pc := .handle q } : St).found q x.id = true := by
    refine List.any_eq_true.2 ⟨x, hx, ?_⟩
    have hl : looked x = true := by
      unfold looked
      cases e : x.kind with
      | udp => simp [hu e]
      | tcp => rfl
    simp [hl, hmem]
  constructor
  · exact List.mem_append_right _ (List.mem_filter.2 ⟨hk, hf⟩)
  · intro hm
    have := (List.mem_filter.1 hm).2
    rw [hf] at this
    cases this

/-- A UDP socket that is bound and asked for packets: at first the thread does not watch it, then
it does, and the packet is served. -/
example :
    let ops := [.create .udp, .openFd 0 5, .thread false [], .thread false [], .request 0]
    Missed (run ops) ⟨0, .udp, 5⟩ ∧ (run ops).notes = 1 ∧
    (run (ops ++ [.notify, .thread false [], .thread false [], .thread false [], .thread false [],
      .thread false []])).set = [(0, 5)] ∧
    (run (ops ++ [.notify, .thread false [], .thread false [], .thread false [], .thread false [],
      .thread false [], .thread false [(0, 5)], .thread false [], .thread false []])).served = [0] := by
  refine ⟨⟨?_, ?_, ?_, ?_, ?_⟩, ?_, ?_, ?_⟩ <;> decide

example : BoundFirst [.create .udp, .openFd 0 5, .request 0, .notify, .stop, .notify] ∧
    NoError [.create .udp, .openFd 0 5, .request 0, .notify, .stop, .notify] ∧
    (run [.create .udp, .openFd 0 5, .request 0, .notify, .stop, .notify]).stopped = true ∧
    (run [.create .udp, .openFd 0 5, .request 0, .notify, .stop, .notify]).notes = 0 := by
  refine ⟨?_, ?_, by decide, by decide⟩
  · intro b k fd a e
    match b, e with
    | [], e => simp at e
    | [_], e => simp at e; left; rw [← e.1]; simp [run, St.step, St.create]
    | [_, _], e => simp at e
    | [_, _, _], e => simp at e
    | [_, _, _, _], e => simp at e
    | [_, _, _, _, _], e => simp at e
    | _ :: _ :: _ :: _ :: _ :: _ :: _, e => simp at e
  · intro r; simp

/-- **C105** is violated when `select` fails (for example because a descriptor it watches was
closed): the thread goes on to read the empty pipe and stays there, whatever becomes ready and
whatever the core does except writing into the pipe. -/
theorem C105_error_violated (s : St) (q : List Int) (hp : s.pc = .woken true q) (hb : s.bytes = 0)
    (ops : List Op) (hn : Op.notify ∉ ops) : (ops.foldl St.step s).pc = .woken true q ∧
    (ops.foldl St.step s).served = s.served := by
  induction ops generalizing s with
  | nil => exact ⟨hp, rfl⟩
  | cons op ops ih =>
    have hop : op ≠ .notify := fun e => hn (by rw [e]; simp)
    have key : (s.step op).pc = .woken true q ∧ (s.step op).bytes = 0 ∧ (s.step op).served = s.served := by
      cases op with
      | create k => exact ⟨hp, hb, rfl⟩
      | openFd k fd => exact ⟨hp, hb, rfl⟩
      | request k => simp only [St.step, St.request]; split <;> exact ⟨hp, hb, rfl⟩
      | cancel k => exact ⟨hp, hb, rfl⟩
      | remove k => exact ⟨hp, hb, rfl⟩
      | notify => exact absurd rfl hop
      | stop => exact ⟨hp, hb, rfl⟩
      | thread err r => simp [St.step, St.thread, hp, hb]
    have := ih (s.step op) key.1 key.2.1 (fun h => hn (List.mem_cons_of_mem _ h))
    exact ⟨this.1, this.2.trans key.2.2⟩

/-- Such a state is reached: a socket waits for a packet, and a signal interrupts `select`. -/
theorem C105_error_reached : ∃ ops, BoundFirst ops ∧ (run ops).pc = .woken true [5] ∧
    (run ops).bytes = 0 ∧ (run ops).pend = [0] := by
  refine ⟨[.create .udp, .openFd 0 5, .request 0, .notify, .thread false [], .thread false [],
    .thread false [], .thread false [], .thread false [], .thread false [], .thread false [],
    .thread true []], ?_, by decide, by decide, by decide⟩
  intro b k fd a e
  rcases b with _ | ⟨o, b⟩
  · simp at e
  · rcases b with _ | ⟨o', b⟩
    · simp at e; left; rw [← e.1]; simp [run, St.step, St.create]
    · exfalso
      have hm : Op.openFd k fd ∈ ([.request 0, .notify, .thread false [], .thread false [],
          .thread false [], .thread false [], .thread false [], .thread false [], .thread false [],
          .thread true []] : List Op) := by
        have : ∀ l l' : List Op, l = b ++ .openFd k fd :: a → Op.openFd k fd ∈ l := by
          intro l _ h; rw [h]; simp
        simp at e
        exact this _ [] e.2.2
      simp at hm

/-- **C105** is violated for a UDP socket that is bound after the wait was asked for: the thread
sleeps without watching it, and nothing is on the way. -/
theorem C105_late_bind_violated : ∃ ops x, Missed (run ops) x ∧ (run ops).bytes + (run ops).notes = 0 := by
  refine ⟨[.create .udp, .request 0, .notify, .thread false [], .thread false [], .thread false [],
    .thread false [], .thread false [], .thread false [], .thread false [], .openFd 0 5],
    ⟨0, .udp, 5⟩, ⟨?_, ?_, ?_, ?_, ?_⟩, ?_⟩ <;> decide

/-- **C105** (descriptors that fit, partial).  If at every point every socket has a descriptor
below 1024, the sets are never written or read outside.  Missing: TCP sockets that are not
connected yet, and processes with many descriptors, see `C105_fd_violated`. -/
theorem C105_fd_partial (ops : List Op) (hf : ∀ pre, pre <+: ops → Fits (run pre)) : (run ops).ub = false := by
  induction ops using snoc_ind with
  | nil => rfl
  | snoc ops op ih =>
    have hi := ih (fun pre hp => hf pre (hp.trans (List.prefix_append _ _)))
    have hf := hf ops (List.prefix_append _ _)
    rw [run_snoc]
    generalize run ops = s at *
    have ok : ∀ p : Sock → Bool, s.socks.any (fun x => p x && !fits x.fd) = false := by
      intro p
      rw [List.any_eq_false]
      intro x hx
      have : fits x.fd = true := by simp [fits, setSize, hf x hx]
      simp [this]
    cases op with
    | create k => exact hi
    | openFd k fd => exact hi
    | request k => simp only [St.step, St.request]; split <;> exact hi
    | cancel k => exact hi
    | remove k => exact hi
    | notify => simp only [St.step, St.notify]; split <;> exact hi
    | stop => exact hi
    | thread err r =>
      simp only [St.step, St.thread]
      split
      · split <;> exact hi
      · simp only [hi, ok, Bool.or_false]
      · split
        · exact hi
        · split <;> exact hi
      · split
        · split <;> exact hi
        · exact hi
      · simp only [hi, ok, Bool.or_false]
      · exact hi

/-- The hypothesis is met by sockets that are there from the start of a run. -/
example : ∀ x ∈ (run [.create .udp, .openFd 0 5, .request 0]).socks, 0 ≤ x.fd ∧ x.fd < 1024 := by decide

/-- **C105** is violated by a TCP socket that has not been connected when the loop turns, and by
a socket whose descriptor is 1024 or more. -/
theorem C105_fd_violated :
    (run [.create .tcp, .stop, .notify, .thread false []]).ub = false ∧
    (run [.create .tcp, .thread false [], .thread false [], .create .udp, .openFd 1 5, .request 1, .notify,
      .thread false [], .thread false [], .thread false []]).ub = true ∧
    (run [.create .udp, .openFd 0 1024, .request 0, .notify, .thread false [], .thread false []]).ub = true := by
  decide

end Verif.Net.Loop
