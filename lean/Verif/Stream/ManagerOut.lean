import Verif.Stream.ManagerRun

/-!
# The stream manager — what each operation tells the environment
-/

namespace Verif.Stream.Manager

open Verif.Core.Packet Spec

variable {C L : Type} [DecidableEq C] [DecidableEq L]

/-- `s'` has told some more than `s`, only things which `P` allows; the listeners and the nonce are the same. -/
structure Told (P : Out C L → Prop) (s s' : St C L) : Prop where
  out : ∃ os, s'.out = s.out ++ os ∧ ∀ o ∈ os, P o
  listeners : s'.listeners = s.listeners
  nonce : s'.nonce = s.nonce
  next : s'.next = s.next
  maxStreams : s'.maxStreams = s.maxStreams
  segs : s'.segs = s.segs
  maxSegs : s'.maxSegs = s.maxSegs
  rst : s.rstBuf = true → s'.rstBuf = true ∧ s'.rstOut = s.rstOut

variable {P : Out C L → Prop}

theorem opt_cases {α : Type} (o : Option α) : o = none ∨ ∃ a, o = some a := by cases o <;> simp

omit [DecidableEq C] [DecidableEq L] in
theorem Told.refl (s : St C L) : Told P s s :=
  ⟨⟨[], by simp, by simp⟩, rfl, rfl, rfl, rfl, rfl, rfl, fun h => ⟨h, rfl⟩⟩

omit [DecidableEq C] [DecidableEq L] in
theorem Told.trans {a b c : St C L} (h1 : Told P a b) (h2 : Told P b c) : Told P a c := by
  obtain ⟨o1, e1, p1⟩ := h1.out
  obtain ⟨o2, e2, p2⟩ := h2.out
  refine ⟨⟨o1 ++ o2, by rw [e2, e1, List.append_assoc], ?_⟩, h2.listeners.trans h1.listeners, h2.nonce.trans h1.nonce,
    h2.next.trans h1.next, h2.maxStreams.trans h1.maxStreams, h2.segs.trans h1.segs, h2.maxSegs.trans h1.maxSegs, ?_⟩
  · intro o ho
    rcases List.mem_append.1 ho with ho | ho
    · exact p1 o ho
    · exact p2 o ho
  · intro h
    obtain ⟨a1, a2⟩ := h1.rst h
    obtain ⟨b1, b2⟩ := h2.rst a1
    exact ⟨b1, b2.trans a2⟩

omit [DecidableEq C] [DecidableEq L] in
theorem Told.say {s s' : St C L} {o : Out C L} (h : Told P s s') (ho : P o) : Told P s (s'.say o) :=
  h.trans ⟨⟨[o], rfl, by simpa using ho⟩, rfl, rfl, rfl, rfl, rfl, rfl, fun h => ⟨h, rfl⟩⟩

omit [DecidableEq C] [DecidableEq L] in
/-- Changes of the memory and of who holds what tell nothing. -/
theorem Told.of_eq {s s' : St C L} (h1 : s'.out = s.out) (h2 : s'.listeners = s.listeners) (h3 : s'.nonce = s.nonce)
    (h4 : s'.next = s.next) (h5 : s'.maxStreams = s.maxStreams) (h6 : s'.segs = s.segs) (h7 : s'.maxSegs = s.maxSegs)
    (h8 : s'.rstBuf = s.rstBuf) (h9 : s'.rstOut = s.rstOut) : Told P s s' :=
  ⟨⟨[], by simp [h1], by simp⟩, h2, h3, h4, h5, h6, h7, fun h => ⟨by rw [h8, h], h9⟩⟩

omit [DecidableEq C] [DecidableEq L] in
theorem Told.mono {Q : Out C L → Prop} {s s' : St C L} (h : Told P s s') (hpq : ∀ o, P o → Q o) : Told Q s s' := by
  obtain ⟨os, e, p⟩ := h.out
  exact { h with out := ⟨os, e, fun o ho => hpq o (p o ho)⟩ }

omit [DecidableEq C] [DecidableEq L] in
theorem told_bad (s : St C L) : Told P s s.bad := Told.of_eq rfl rfl rfl rfl rfl rfl rfl rfl rfl

omit [DecidableEq C] [DecidableEq L] in
theorem told_put (s : St C L) (n : Nat) (x : Option (Strm C)) : Told P s (s.put n x) :=
  Told.of_eq rfl rfl rfl rfl rfl rfl rfl rfl rfl

omit [DecidableEq C] [DecidableEq L] in
theorem told_withS {s t : St C L} {n : Nat} {g : Strm C → St C L} (h0 : Told P t s)
    (h : ∀ x, s.mem n = some x → Told P t (g x)) : Told P t (s.withS n g) := by
  rcases hx : s.mem n with _ | x
  · rw [withS_none _ hx]; exact h0.trans (told_bad s)
  · rw [withS_some _ hx]; exact h x hx

omit [DecidableEq C] [DecidableEq L] in
theorem told_refInc (s : St C L) (n : Nat) : Told P s (s.refInc n) :=
  told_withS (Told.refl s) fun _ _ => told_put _ _ _

omit [DecidableEq C] [DecidableEq L] in
theorem told_refDec (hf : ∀ n, P (.freed n)) (s : St C L) (n : Nat) : Told P s (s.refDec n) := by
  refine told_withS (Told.refl s) fun x _ => ?_
  by_cases h0 : x.refs = 0
  · rw [if_pos h0]; exact told_bad s
  rw [if_neg h0]
  by_cases h1 : x.refs = 1
  · rw [if_pos h1]; exact Told.say (Told.of_eq rfl rfl rfl rfl rfl rfl rfl rfl rfl) (hf n)
  · rw [if_neg h1]; exact told_put _ _ _

/-- RST packets are allowed, or cannot be sent. -/
def RstOk (P : Out C L → Prop) (s : St C L) : Prop := s.rstBuf = true ∨ ∀ c sid, P (.rst c sid)

omit [DecidableEq C] [DecidableEq L] in
theorem RstOk.told {s s' : St C L} (h : RstOk P s) (t : Told P s s') : RstOk P s' :=
  h.imp_left fun h => (t.rst h).1

theorem told_sendRst {s : St C L} (hr : RstOk P s) (c : C) (sid : UInt64) (r : RstEnv) :
    Told P s (s.sendRst c sid r) := by
  unfold St.sendRst
  by_cases h1 : s.rstBuf = true
  · rw [if_pos h1]; exact Told.refl s
  rw [if_neg h1]
  have hp := hr.resolve_left h1
  by_cases h2 : (!r.buf) = true
  · rw [if_pos h2]; exact Told.refl s
  rw [if_neg h2]
  by_cases h3 : c ∉ s.conns
  · rw [if_pos h3]; exact told_bad s
  rw [if_neg h3]
  by_cases h4 : r.send = true
  · rw [if_pos h4]
    exact ⟨⟨[.rst c sid], rfl, by simpa using hp c sid⟩, rfl, rfl, rfl, rfl, rfl, rfl, fun h => absurd h h1⟩
  · rw [if_neg h4]
    exact ⟨⟨[], by simp, by simp⟩, rfl, rfl, rfl, rfl, rfl, rfl, fun h => absurd h h1⟩

theorem told_stop {s : St C L} (hr : RstOk P s) (n : Nat) (r : RstEnv) : Told P s (s.stop n r) := by
  refine told_withS (Told.refl s) fun x _ => ?_
  by_cases h1 : x.stopped = true
  · rw [if_pos h1]; exact Told.refl s
  rw [if_neg h1]
  dsimp only
  rcases opt_cases x.conn with hc | ⟨c, hc⟩
  · rw [hc]; exact told_put _ _ _
  · rw [hc]
    dsimp only
    split
    · exact (told_put _ _ _).trans (told_sendRst (hr.told (told_put _ _ _)) c x.sid r)
    · exact told_put _ _ _

theorem told_remove (hf : ∀ n, P (.freed n)) (s : St C L) (n : Nat) : Told P s (s.remove n) :=
  Told.trans (b := { s with streams := s.streams.filter (· ≠ n) })
    (Told.of_eq rfl rfl rfl rfl rfl rfl rfl rfl rfl) (told_refDec hf _ n)

theorem told_destroy (hf : ∀ n, P (.freed n)) {s : St C L} (hr : RstOk P s) (n : Nat) (r : RstEnv) :
    Told P s (s.destroy n r) :=
  ((told_stop hr n r).trans (told_remove hf _ n)).trans (told_refDec hf _ n)

/-- What streams may tell while they are handled. -/
structure Allow (P : Out C L → Prop) (ls : List (L × UInt32)) (ports : UInt32 → Prop) : Prop where
  freed : ∀ n, P (.freed n)
  delivered : ∀ n l p, (l, p) ∈ ls → ports p → P (.delivered n l p)

theorem told_ready {ports : UInt32 → Prop} {s : St C L} (ha : Allow P s.listeners ports) (hr : RstOk P s) (n : Nat)
    (port : UInt32) (hp : ports port) (keep : Bool) (r : RstEnv) : Told P s (s.ready n port keep r) := by
  refine told_withS (told_refInc s n) fun x _ => ?_
  dsimp only
  have t1 : Told P s ((s.refInc n).put n (some { x with accepted := true })) := (told_refInc s n).trans (told_put _ _ _)
  cases hf : ((s.refInc n).put n (some { x with accepted := true })).listeners.find? (fun p => p.2 = port) with
  | none => exact t1.trans (told_destroy ha.freed (hr.told t1) n r)
  | some lp =>
    obtain ⟨l, p⟩ := lp
    dsimp only
    have hl : (l, p) ∈ s.listeners := by
      have := List.mem_of_find?_eq_some hf
      rwa [t1.listeners] at this
    have hpp : p = port := by simpa using List.find?_some hf
    subst hpp
    have t2 := t1.say (ha.delivered n l p hl hp)
    split
    · exact t2.trans (Told.of_eq rfl rfl rfl rfl rfl rfl rfl rfl rfl)
    · exact t2.trans (told_destroy ha.freed (hr.told t2) n r)

omit [DecidableEq C] [DecidableEq L] in
theorem told_deferred (s : St C L) (n : Nat) : Told P s (s.deferred n) := by
  refine told_withS (Told.refl s) fun x _ => ?_
  by_cases h1 : x.stopped = true
  · rw [if_pos h1]; exact Told.refl s
  rw [if_neg h1]
  by_cases h2 : n ∈ s.posted
  · rw [if_pos h2]; exact Told.refl s
  rw [if_neg h2]
  exact Told.trans (b := { s with posted := s.posted ++ [n] }) (Told.of_eq rfl rfl rfl rfl rfl rfl rfl rfl rfl)
    (told_refInc _ n)

theorem told_sendPacket (s : St C L) (n : Nat) (empty ok : Bool) : Told P s (s.sendPacket n empty ok) := by
  refine told_withS (Told.refl s) fun x _ => ?_
  by_cases h1 : x.stopped = true
  · rw [if_pos h1]; exact Told.refl s
  rw [if_neg h1]
  rcases hc : x.conn with _ | c
  · exact told_deferred s n
  dsimp only
  by_cases h2 : x.isSending = true
  · rw [if_pos h2]; exact Told.refl s
  rw [if_neg h2]
  by_cases h3 : empty = true
  · rw [if_pos h3]; exact Told.refl s
  rw [if_neg h3]
  by_cases h4 : c ∉ s.conns
  · rw [if_pos h4]; exact told_bad s
  rw [if_neg h4]
  have go : ∀ y : Strm C, ∀ b : Bool, Told P s (if b then St.refInc { s.put n (some y) with sends := (s.put n (some y)).sends ++ [n] } n
      else if n ∈ (s.put n (some y)).posted then s.put n (some y)
      else St.refInc { s.put n (some y) with posted := (s.put n (some y)).posted ++ [n] } n) := by
    intro y b
    cases b with
    | true =>
      rw [if_pos rfl]
      exact Told.trans (b := { s.put n (some y) with sends := (s.put n (some y)).sends ++ [n] })
        (Told.of_eq rfl rfl rfl rfl rfl rfl rfl rfl rfl) (told_refInc _ n)
    | false =>
      rw [if_neg (by simp)]
      by_cases h5 : n ∈ (s.put n (some y)).posted
      · rw [if_pos h5]; exact told_put _ _ _
      · rw [if_neg h5]
        exact Told.trans (b := { s.put n (some y) with posted := (s.put n (some y)).posted ++ [n] })
          (Told.of_eq rfl rfl rfl rfl rfl rfl rfl rfl rfl) (told_refInc _ n)
  exact go _ ok

omit [DecidableEq C] [DecidableEq L] in
theorem told_touch (s : St C L) (n : Nat) : Told P s (s.touch n) := told_withS (Told.refl s) fun _ _ => Told.refl s

theorem told_events {ls : List (L × UInt32)} (evs : List Ev) :
    ∀ {s : St C L}, s.listeners = ls → Allow P ls (fun p => ∃ keep r, Ev.accept p keep r ∈ evs) → RstOk P s →
      ∀ n, Told P s (St.events evs s n) := by
  induction evs with
  | nil => intro s _ _ _ n; exact told_touch s n
  | cons e es ih =>
    intro s hl ha hr n
    have ha' : Allow P ls (fun p => ∃ keep r, Ev.accept p keep r ∈ es) :=
      { ha with delivered := fun n l p h1 ⟨k, r, h2⟩ => ha.delivered n l p h1 ⟨k, r, List.mem_cons_of_mem _ h2⟩ }
    refine told_withS (Told.refl s) fun x _ => ?_
    by_cases h1 : x.stopped = true
    · rw [if_pos h1]; exact Told.refl s
    rw [if_neg h1]
    cases e with
    | accept port keep r =>
      dsimp only
      by_cases h2 : x.accepted = true
      · rw [if_pos h2]; exact ih hl ha' hr n
      · rw [if_neg h2]
        have t1 : Told P s ((s.ready n port keep r).touch n) :=
          (told_ready (hl ▸ ha) hr n port ⟨keep, r, List.mem_cons_self ..⟩ keep r).trans (told_touch _ n)
        exact t1.trans (ih (t1.listeners.trans hl) ha' (hr.told t1) n)
    | send empty ok => exact told_sendPacket s n empty ok
    | other => exact ih hl ha' hr n
    | notify =>
      have t1 : Told P s (s.deferred n) := told_deferred s n
      exact t1.trans (ih (t1.listeners.trans hl) ha' (hr.told t1) n)

theorem told_packetTo {s : St C L} (evs : List Ev)
    (ha : Allow P s.listeners (fun p => ∃ keep r, Ev.accept p keep r ∈ evs)) (hr : RstOk P s) (n : Nat)
    (hp : P (.packet n)) : Told P s (s.packetTo n evs) := by
  refine told_withS (told_refInc s n) fun x _ => ?_
  dsimp only
  have t1 : Told P s ((s.refInc n).say (.packet n)) := (told_refInc s n).say hp
  by_cases h1 : x.stopped = true
  · rw [if_pos h1]; exact t1.trans (told_refDec ha.freed _ n)
  rw [if_neg h1]
  by_cases h2 : x.virt = true
  · rw [if_pos h2]; exact t1.trans (told_bad _)
  rw [if_neg h2]
  exact (t1.trans (told_events evs t1.listeners ha (hr.told t1) n)).trans (told_refDec ha.freed _ n)

theorem told_closeOne (c : C) (hf : ∀ n, P (.freed n)) {s : St C L} (hr : RstOk P s) (n : Nat) :
    Told P s (St.closeOne c s n) := by
  refine told_withS (Told.refl s) fun x _ => ?_
  by_cases h1 : x.conn = some c
  · rw [if_pos h1]
    dsimp only
    have t1 : Told P s ((s.put n (some { x with conn := none })).refInc n) :=
      (told_put _ _ _).trans (told_refInc _ n)
    refine Told.trans ?_ (told_refDec hf _ n)
    by_cases h2 : x.stopped = true
    · rw [if_pos h2]; exact t1
    rw [if_neg h2]
    by_cases h3 : x.accepted = true
    · rw [if_pos h3]; exact t1.trans (told_stop (hr.told t1) _ _)
    · rw [if_neg h3]; exact (t1.trans (told_stop (hr.told t1) _ _)).trans (told_remove hf _ _)
  · rw [if_neg h1]; exact Told.refl s

theorem told_closeAll (c : C) (hf : ∀ n, P (.freed n)) (ns : List Nat) :
    ∀ {s : St C L}, RstOk P s → Told P s (ns.foldl (St.closeOne c) s) := by
  induction ns with
  | nil => intro s _; exact Told.refl s
  | cons m ns ih =>
    intro s hr
    have t1 := told_closeOne c hf hr m
    exact t1.trans (ih (hr.told t1))

/-- What an operation may tell, given the state before. -/
def Allowed (f : Flags) (s : St C L) (op : Op C L) : Out C L → Prop
  | .created n c sid k => n = s.next ∧ k = s.nonce ∧ ∃ bytes m r evs h, op = .packet c bytes m r evs ∧
      parseHeader bytes = .ok h ∧ h.flags = f.syn ∧ h.streamId = sid ∧ sid % 2 ≠ 1 ∧
      find s.mem sid c s.streams = .no ∧ s.current < s.maxStreams ∧ c ∈ s.conns
  | .delivered _ l p => (l, p) ∈ s.listeners ∧ Offers op p
  | .rst _ _ => s.rstBuf = false
  | .packet n => ∃ c bytes m r evs h, op = .packet c bytes m r evs ∧ parseHeader bytes = .ok h ∧
      (n = s.next ∧ h.flags = f.syn ∧ find s.mem h.streamId c s.streams = .no ∨ n ∈ s.streams ∧ ∃ x, s.mem n = some x ∧ x.sid = h.streamId ∧ x.conn = some c)
  | .segment => op = .allocSeg true ∧ s.segs < s.maxSegs
  | .opened n c p => n = s.next ∧ (∃ a k, op = .openVirtual c p a k) ∧ s.current < s.maxStreams
  | _ => True

/-- Neither the creation of a stream nor a segment. -/
def plain : Out C L → Bool
  | .created .. => false
  | .segment => false
  | _ => true

/-- What an operation may tell besides the creation of a stream and segments. -/
def Allow' (f : Flags) (s : St C L) (op : Op C L) (o : Out C L) : Prop :=
  Allowed f s op o ∧ plain o = true

/-- Segments given out and given back by one operation. -/
def SegStep (s : St C L) (op : Op C L) (s' : St C L) : Prop :=
  s.ub = false → (op ≠ .freeSeg → s'.segs + granted s = s.segs + granted s') ∧
  (op = .freeSeg → granted s' = granted s ∧ s'.segs = s.segs - 1)

/-- The nonces given out by one operation. -/
def NonceStep (s s' : St C L) : Prop :=
  (Manager.nonces s' = Manager.nonces s ∧ (s'.nonce = s.nonce ∨ s'.nonce = s.nonce + 1)) ∨
  (Manager.nonces s' = Manager.nonces s ++ [s.nonce] ∧ s'.nonce = s.nonce + 1)

omit [DecidableEq C] [DecidableEq L] in
theorem filterMap_none' {os : List (Out C L)} (h : ∀ o ∈ os, plain o = true) : os.filterMap nonceOf = [] := by
  rw [List.filterMap_eq_nil_iff]
  intro o ho
  have := h o ho
  cases o <;> simp_all [plain, nonceOf]

omit [DecidableEq C] [DecidableEq L] in
theorem granted_plain {s s' : St C L} {os : List (Out C L)} (e : s'.out = s.out ++ os) (h : ∀ o ∈ os, plain o = true) :
    granted s' = granted s := by
  have : os.filter (fun o => match o with | .segment => true | _ => false) = [] := by
    rw [List.filter_eq_nil_iff]
    intro o ho
    have := h o ho
    cases o <;> simp_all [plain]
  unfold granted
  rw [e, List.filter_append, List.length_append]
  have h2 := congrArg List.length this
  simp only [List.length_nil] at h2
  exact (congrArg _ h2)

/-- What is known of a step. -/
def StepOut (f : Flags) (s : St C L) (op : Op C L) (s' : St C L) : Prop :=
  (∃ os, s'.out = s.out ++ os ∧ ∀ o ∈ os, Allowed f s op o) ∧ (Wedged s → Wedged s') ∧ NonceStep s s' ∧
  SegStep s op s'

/-- The whole step: everything it tells is allowed, and a lost RST buffer stays lost. -/
theorem step_out (f : Flags) (s : St C L) (op : Op C L) :
    StepOut f s op (step f s op) := by
  have hr : RstOk (Allow' f s op) s := by
    rcases Bool.eq_false_or_eq_true s.rstBuf with h | h
    · exact .inl h
    · exact .inr fun _ _ => ⟨h, rfl⟩
  have fin : ∀ s' : St C L, op ≠ .freeSeg → Told (Allow' f s op) s s' → StepOut f s op s' := by
    intro s' hne t
    obtain ⟨os, e, p⟩ := t.out
    refine ⟨⟨os, e, fun o ho => (p o ho).1⟩, fun h => ⟨(t.rst h.1).1, by rw [(t.rst h.1).2, h.2]⟩, .inl ⟨?_, .inl t.nonce⟩,
      fun _ => ⟨fun _ => by rw [granted_plain e fun o ho => (p o ho).2, t.segs], fun h => absurd h hne⟩⟩
    rw [Manager.nonces, Manager.nonces, e, List.filterMap_append, filterMap_none' fun o ho => (p o ho).2, List.append_nil]
  have told1 : ∀ (s' : St C L) (o : Out C L), s'.out = s.out → s'.rstBuf = s.rstBuf → s'.rstOut = s.rstOut →
      s'.nonce = s.nonce → s'.segs = s.segs → op ≠ .freeSeg → Allowed f s op o → plain o = true →
      StepOut f s op (s'.say o) := by
    intro s' o h1 h2 h3 h5 h7 hne h4 h6
    refine ⟨⟨[o], by simp [St.say, h1], by simpa using h4⟩, fun h => ?_, .inl ⟨?_, .inl ?_⟩, fun _ => ⟨fun _ => ?_, fun h => absurd h hne⟩⟩
    · exact ⟨by rw [← h.1, ← h2]; rfl, by rw [← h.2, ← h3]; rfl⟩
    · rw [Manager.nonces, Manager.nonces, St.say, List.filterMap_append, filterMap_none' (os := [o]) (by simpa using h6), h1,
        List.append_nil]
    · rw [← h5]; rfl
    · rw [granted_plain (s := s) (s' := s'.say o) (os := [o]) (by simp [St.say, h1]) (by simpa using h6), ← h7]; rfl
  have quiet : ∀ (s' : St C L), s'.out = s.out → s'.rstBuf = s.rstBuf → s'.rstOut = s.rstOut →
      (s'.nonce = s.nonce ∨ s'.nonce = s.nonce + 1) → (op ≠ .freeSeg → s'.segs = s.segs) →
      (op = .freeSeg → s'.segs = s.segs - 1) → StepOut f s op s' := by
    intro s' h1 h2 h3 h4 h5 h6
    exact ⟨⟨[], by simp [h1], by simp⟩, fun h => ⟨by rw [h2, h.1], by rw [h3, h.2]⟩,
      .inl ⟨by rw [Manager.nonces, Manager.nonces, h1], h4⟩,
      fun _ => ⟨fun h => by rw [h5 h, granted, granted, h1], fun h => ⟨by rw [granted, granted, h1], h6 h⟩⟩⟩
  have idle : op ≠ .freeSeg → StepOut f s op s := fun hne => quiet s rfl rfl rfl (.inl rfl) (fun _ => rfl) (fun h => absurd h hne)
  by_cases hu : s.ub = true
  · rw [step_stuck f op hu]
    exact ⟨⟨[], by simp, by simp⟩, id, .inl ⟨rfl, .inl rfl⟩, fun h => by rw [hu] at h; simp at h⟩
  unfold step
  rw [if_neg hu]
  cases op with
  | addListener l port rand =>
    dsimp only
    split
    · exact idle (by simp)
    · have hl : ∀ p, StepOut f s (.addListener l port rand) (s.listen l p) := by
        intro p
        unfold St.listen
        split
        · exact told1 s _ rfl rfl rfl rfl rfl (by simp) trivial rfl
        · exact told1 { s with listeners := s.listeners ++ [(l, p)] } _ rfl rfl rfl rfl rfl (by simp) trivial rfl
      unfold St.addListener
      split
      · split
        · exact told1 s _ rfl rfl rfl rfl rfl (by simp) trivial rfl
        · exact hl _
      · exact hl _
  | removeListener l => exact quiet _ rfl rfl rfl (.inl rfl) (fun _ => rfl) (by simp)
  | newConn c => dsimp only; split <;> exact quiet _ rfl rfl rfl (.inl rfl) (fun _ => rfl) (by simp)
  | closeConn c =>
    dsimp only
    split
    · exact idle (by simp)
    · exact fin _ (by simp) ((told_closeAll c (fun _ => ⟨trivial, rfl⟩) s.streams hr).trans
        (Told.of_eq rfl rfl rfl rfl rfl rfl rfl rfl rfl))
  | newVirtual c => dsimp only; split <;> exact quiet _ rfl rfl rfl (.inl rfl) (fun _ => rfl) (by simp)
  | freeVirtual c => exact quiet _ rfl rfl rfl (.inl rfl) (fun _ => rfl) (by simp)
  | packet c bytes m r evs =>
    dsimp only
    by_cases hc : c ∉ s.conns
    · rw [if_pos hc]; exact idle (by simp)
    rw [if_neg hc]
    rw [Classical.not_not] at hc
    have al : Allow (Allow' f s (.packet c bytes m r evs)) s.listeners
        (fun p => ∃ keep r, Ev.accept p keep r ∈ evs) :=
      ⟨fun _ => ⟨trivial, rfl⟩, fun n l p h1 h2 => ⟨⟨h1, h2⟩, rfl⟩⟩
    unfold St.handlePacket
    rcases hp : parseHeader bytes with _ | _ | hd
    · exact fin _ (by simp) (told_bad s)
    · exact idle (by simp)
    dsimp only
    rcases hf : find s.mem hd.streamId c s.streams with _ | _ | n
    · exact fin _ (by simp) (told_bad s)
    · dsimp only
      by_cases hsyn : hd.flags = f.syn
      · rw [if_pos hsyn]
        unfold St.acceptStream
        have rest : ∀ s1 : St C L, s1.out = s.out → s1.rstBuf = s.rstBuf → s1.rstOut = s.rstOut →
            (s1.nonce = s.nonce ∨ s1.nonce = s.nonce + 1) → s1.segs = s.segs → StepOut f s (.packet c bytes m r evs)
            (if hd.flags &&& f.rst ≠ f.rst then s1.sendRst c hd.streamId r else s1) := by
          intro s1 h1 h2 h3 h4 h5
          split
          · have hr1 : RstOk (Allow' f s (.packet c bytes m r evs)) s1 := hr.imp_left fun h => by rw [h2, h]
            have t := told_sendRst hr1 c hd.streamId r
            obtain ⟨os, e, p⟩ := t.out
            refine ⟨⟨os, by rw [e, h1], fun o ho => (p o ho).1⟩, fun h => ⟨(t.rst (by rw [h2, h.1])).1,
              by rw [(t.rst (by rw [h2, h.1])).2, h3, h.2]⟩, .inl ⟨?_, by rw [t.nonce]; exact h4⟩,
              fun _ => ⟨fun _ => by rw [granted_plain (s := s) (s' := s1.sendRst c hd.streamId r) (os := os) (by rw [e, h1]) fun o ho => (p o ho).2, t.segs, h5], fun h => by simp at h⟩⟩
            rw [Manager.nonces, Manager.nonces, e, List.filterMap_append, filterMap_none' fun o ho => (p o ho).2,
              List.append_nil, h1]
          · exact quiet _ h1 h2 h3 h4 (fun _ => h5) (by simp)
        by_cases h1 : hd.streamId % 2 = 1
        · rw [if_pos h1]; exact rest s rfl rfl rfl (.inl rfl) rfl
        rw [if_neg h1]
        by_cases h2 : s.current ≥ s.maxStreams
        · rw [if_pos h2]; exact rest s rfl rfl rfl (.inl rfl) rfl
        rw [if_neg h2]
        by_cases h3 : (!m.alloc) = true
        · rw [if_pos h3]; exact rest s rfl rfl rfl (.inl rfl) rfl
        rw [if_neg h3]
        by_cases h4 : (!m.init) = true
        · rw [if_pos h4]; exact rest { s with nonce := s.nonce + 1 } rfl rfl rfl (.inr rfl) rfl
        rw [if_neg h4]
        dsimp only
        let s1 : St C L := St.say (St.put { s with current := s.current + 1, nonce := s.nonce + 1, next := s.next + 1, streams := s.streams ++ [s.next] } s.next (some { sid := hd.streamId, conn := some c, virt := false, refs := 1, accepted := false, stopped := false, isSending := false })) (.created s.next c hd.streamId s.nonce)
        have t := told_packetTo (s := s1) (P := Allow' f s (.packet c bytes m r evs)) evs al hr s.next
          ⟨⟨c, bytes, m, r, evs, hd, rfl, hp, .inl ⟨rfl, hsyn, hf⟩⟩, rfl⟩
        obtain ⟨os, e, p⟩ := t.out
        refine ⟨⟨.created s.next c hd.streamId s.nonce :: os, ?_, ?_⟩, fun h => ⟨(t.rst h.1).1, ?_⟩, .inr ⟨?_, ?_⟩,
          fun _ => ⟨fun _ => ?_, fun h => by simp at h⟩⟩
        · show (s1.packetTo s.next evs).out = _
          rw [e]; simp [s1, St.say, St.put]
        · intro o ho
          rcases List.mem_cons.1 ho with rfl | ho
          · exact ⟨rfl, rfl, bytes, m, r, evs, hd, rfl, hp, hsyn, rfl, h1, hf, by omega, hc⟩
          · exact (p o ho).1
        · show (s1.packetTo s.next evs).rstOut = _
          rw [(t.rst h.1).2]; exact h.2
        · show Manager.nonces (s1.packetTo s.next evs) = _
          rw [Manager.nonces, e, List.filterMap_append, filterMap_none' fun o ho => (p o ho).2]
          simp [s1, St.say, St.put, nonceOf, Manager.nonces]
        · show (s1.packetTo s.next evs).nonce = _
          rw [t.nonce]; rfl
        · show (s1.packetTo s.next evs).segs + granted s = s.segs + granted (s1.packetTo s.next evs)
          rw [granted_plain e fun o ho => (p o ho).2, t.segs]
          simp [s1, St.say, St.put, granted]
      · rw [if_neg hsyn]
        dsimp only
        split
        · exact fin _ (by simp) (told_sendRst hr c hd.streamId r)
        · exact idle (by simp)
    · exact fin _ (by simp) (told_packetTo evs al hr n ⟨⟨c, bytes, m, r, evs, hd, rfl, hp, .inr (find_at hf)⟩, rfl⟩)
  | openVirtual c port alloc keep =>
    dsimp only
    split
    · exact idle (by simp)
    · unfold St.openVirtual
      by_cases h0 : s.current ≥ s.maxStreams ∨ alloc = false
      · rw [if_pos h0]; exact told1 s _ rfl rfl rfl rfl rfl (by simp) trivial rfl
      rw [if_neg h0]
      dsimp only
      have hr1 : RstOk (Allow' f s (.openVirtual c port alloc keep)) (virt1 s c) := hr
      have t1 := told_ready (s := virt1 s c) (P := Allow' f s (.openVirtual c port alloc keep))
        (ports := fun p => p = port)
        ⟨fun _ => ⟨trivial, rfl⟩, fun n l p h1 h2 => ⟨⟨h1, h2.symm⟩, rfl⟩⟩ hr1 s.next port rfl keep ⟨false, false, false⟩
      have t2 := t1.trans (told_refInc _ s.next)
      have t3 := t2.trans (Told.of_eq (P := Allow' f s (.openVirtual c port alloc keep))
        (s' := { (St.ready (virt1 s c) s.next port keep ⟨false, false, false⟩).refInc s.next with
          clis := ((St.ready (virt1 s c) s.next port keep ⟨false, false, false⟩).refInc s.next).clis ++ [s.next] })
        rfl rfl rfl rfl rfl rfl rfl rfl rfl)
      have t4 := t3.say (o := .opened s.next c port) ⟨⟨rfl, ⟨alloc, keep, rfl⟩, by omega⟩, rfl⟩
      obtain ⟨os, e, p⟩ := t4.out
      refine ⟨⟨os, ?_, fun o ho => (p o ho).1⟩, fun h => ⟨(t4.rst h.1).1, ?_⟩, .inl ⟨?_, .inl ?_⟩,
        fun _ => ⟨fun _ => ?_, fun h => by simp at h⟩⟩
      · exact e
      · exact (t4.rst h.1).2.trans h.2
      · have : Manager.nonces (virt1 s c) = Manager.nonces s := rfl
        rw [← this]
        refine Eq.trans (congrArg (List.filterMap nonceOf) e) ?_
        rw [List.filterMap_append, filterMap_none' fun o ho => (p o ho).2, List.append_nil]
        rfl
      · exact t4.nonce
      · have h1 := granted_plain e fun o ho => (p o ho).2
        have h2 := t4.segs
        have h3 : granted (virt1 s c) = granted s := rfl
        have h4 : (virt1 s c).segs = s.segs := rfl
        rw [h3] at h1
        rw [h4] at h2
        exact (congrArg (· + granted s) h2).trans (congrArg (s.segs + ·) h1.symm)
  | timer n evs =>
    dsimp only
    rcases hx : s.mem n with _ | x
    · exact idle (by simp)
    · dsimp only
      split
      · exact idle (by simp)
      · exact fin _ (by simp) (told_events evs rfl ⟨fun _ => ⟨trivial, rfl⟩, fun n l p h1 h2 => ⟨⟨h1, h2⟩, rfl⟩⟩ hr n)
  | sendDone n evs =>
    dsimp only
    split
    · exact idle (by simp)
    · have t0 : Told (Allow' f s (.sendDone n evs)) s { s with sends := s.sends.erase n } :=
        Told.of_eq rfl rfl rfl rfl rfl rfl rfl rfl rfl
      refine fin _ (by simp) (told_withS t0 fun x _ => ?_)
      have t1 := t0.trans (told_put (P := Allow' f s (.sendDone n evs)) { s with sends := s.sends.erase n } n
        (some { x with isSending := false }))
      refine Told.trans ?_ (told_refDec (fun _ => ⟨trivial, rfl⟩) _ n)
      split
      · exact t1
      · exact t1.trans (told_events evs rfl
          ⟨fun _ => ⟨trivial, rfl⟩, fun n l p h1 h2 => ⟨⟨h1, h2⟩, rfl⟩⟩ (hr.told t1) n)
  | run n evs =>
    dsimp only
    split
    · exact idle (by simp)
    · have t0 : Told (Allow' f s (.run n evs)) s { s with posted := s.posted.erase n } :=
        Told.of_eq rfl rfl rfl rfl rfl rfl rfl rfl rfl
      exact fin _ (by simp) ((t0.trans (told_events evs rfl
          ⟨fun _ => ⟨trivial, rfl⟩, fun n l p h1 h2 => ⟨⟨h1, h2⟩, rfl⟩⟩ (hr.told t0) n)).trans
          (told_refDec (fun _ => ⟨trivial, rfl⟩) _ n))
  | use n notify =>
    dsimp only
    split
    · exact idle (by simp)
    · refine fin _ (by simp) (told_withS (Told.refl s) fun x _ => ?_)
      split
      · exact told_deferred s n
      · exact Told.refl s
  | abort n r =>
    dsimp only
    split
    · exact idle (by simp)
    · exact fin _ (by simp) (told_stop hr n r)
  | destroy n r =>
    dsimp only
    split
    · exact idle (by simp)
    · have t0 : Told (Allow' f s (.destroy n r)) s { s with apps := s.apps.erase n } :=
        Told.of_eq rfl rfl rfl rfl rfl rfl rfl rfl rfl
      exact fin _ (by simp) (t0.trans (told_destroy (fun _ => ⟨trivial, rfl⟩) (hr.told t0) n r))
  | clientUse n =>
    dsimp only
    split
    · exact idle (by simp)
    · exact fin _ (by simp) (told_touch s n)
  | clientFree n =>
    dsimp only
    split
    · exact idle (by simp)
    · have t0 : Told (Allow' f s (.clientFree n)) s { s with clis := s.clis.erase n } :=
        Told.of_eq rfl rfl rfl rfl rfl rfl rfl rfl rfl
      exact fin _ (by simp) (t0.trans (told_refDec (fun _ => ⟨trivial, rfl⟩) _ n))
  | rstDone =>
    dsimp only
    by_cases h : s.rstOut = true
    · rw [if_pos h]
      refine ⟨⟨[], by simp, by simp⟩, fun hw => ?_, .inl ⟨rfl, .inl rfl⟩, fun _ => ⟨fun _ => rfl, fun h => by simp at h⟩⟩
      rw [hw.2] at h; simp at h
    · rw [if_neg h]; exact idle (by simp)
  | allocSeg ok =>
    dsimp only
    by_cases h1 : s.segs ≥ s.maxSegs
    · rw [if_pos h1]; exact told1 s _ rfl rfl rfl rfl rfl (by simp) trivial rfl
    rw [if_neg h1]
    cases ok with
    | false => exact told1 s _ rfl rfl rfl rfl rfl (by simp) trivial rfl
    | true =>
      refine ⟨⟨[.segment], rfl, ?_⟩, fun h => h, .inl ⟨?_, .inl rfl⟩, fun _ => ⟨fun _ => ?_, fun h => by simp at h⟩⟩
      · intro o ho
        rw [List.mem_singleton] at ho
        subst ho
        exact ⟨rfl, by omega⟩
      · simp [Manager.nonces, St.say, nonceOf]
      · simp [granted, St.say]; omega
  | freeSeg =>
    dsimp only
    split
    · exact quiet _ rfl rfl rfl (.inl rfl) (by simp) (fun _ => by omega)
    · exact quiet _ rfl rfl rfl (.inl rfl) (by simp) (fun _ => rfl)
  | limitStreams k => exact quiet _ rfl rfl rfl (.inl rfl) (fun _ => rfl) (by simp)
  | limitSegs k => exact quiet _ rfl rfl rfl (.inl rfl) (fun _ => rfl) (by simp)

end Verif.Stream.Manager
