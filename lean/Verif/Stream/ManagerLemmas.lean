import Verif.Stream.ManagerSpec

/-!
# The stream manager — helper lemmas
-/

namespace Verif.Stream.Manager

open Verif.Core.Packet Spec

variable {C L : Type}

/-! ### What is counted -/

/-- References which are held on a stream: the list, the application, the client, a pending send, a posted event. -/
def own (s : St C L) (n : Nat) : Nat :=
  s.streams.count n + s.apps.count n + s.clis.count n + s.sends.count n + s.posted.count n

def isDel (n : Nat) : Out C L → Bool
  | .delivered m _ _ => m == n
  | _ => false

def isFreed (n : Nat) : Out C L → Bool
  | .freed m => m == n
  | _ => false

def nonceOf : Out C L → Option UInt64
  | .created _ _ _ k => some k
  | _ => none

def dl (s : St C L) (n : Nat) : Nat := s.out.countP (isDel n)
def fr (s : St C L) (n : Nat) : Nat := s.out.countP (isFreed n)
def nonces (s : St C L) : List UInt64 := s.out.filterMap nonceOf

/-- What holds of a live stream while `k` further references are held by the running code. -/
structure Live (k : Nat) (s : St C L) (n : Nat) (x : Strm C) : Prop where
  refs : x.refs = own s n + k
  pos : 0 < x.refs
  lt : n < s.next
  one : s.streams.count n ≤ 1
  oneA : s.apps.count n ≤ 1
  running : x.stopped = false → n ∈ s.streams
  halted : x.stopped = true → x.conn = none
  app : n ∈ s.apps → n ∈ s.streams ∧ x.accepted = true
  acc : x.accepted = false → dl s n = 0
  once : dl s n ≤ 1
  fresh : fr s n = 0
  conn : x.virt = false → ∀ c, x.conn = some c → c ∈ s.conns
  real : x.virt = true → n ∉ s.posted ∧ n ∉ s.sends

/-- What holds of a number whose memory is not allocated. -/
structure Dead (k : Nat) (s : St C L) (n : Nat) : Prop where
  own : own s n + k = 0
  once : dl s n ≤ 1
  new : s.next ≤ n → dl s n = 0 ∧ fr s n = 0
  gone : n < s.next → fr s n = 1

def Loc (k : Nat) (s : St C L) (n : Nat) : Prop :=
  match s.mem n with
  | some x => Live k s n x
  | none => Dead k s n

theorem Loc.live {k : Nat} {s : St C L} {n : Nat} {x : Strm C} (h : Loc k s n) (hx : s.mem n = some x) :
    Live k s n x := by simp only [Loc, hx] at h; exact h

theorem Loc.dead {k : Nat} {s : St C L} {n : Nat} (h : Loc k s n) (hx : s.mem n = none) : Dead k s n := by
  simp only [Loc, hx] at h; exact h

theorem Loc.of_live {k : Nat} {s : St C L} {n : Nat} {x : Strm C} (hx : s.mem n = some x) (h : Live k s n x) :
    Loc k s n := by simp only [Loc, hx]; exact h

theorem Loc.of_dead {k : Nat} {s : St C L} {n : Nat} (hx : s.mem n = none) (h : Dead k s n) :
    Loc k s n := by simp only [Loc, hx]; exact h

/-- A stream on which references are held is live. -/
theorem Loc.some_of {k : Nat} {s : St C L} {n : Nat} (h : Loc k s n) (hk : 0 < own s n + k) :
    ∃ x, s.mem n = some x := by
  cases hx : s.mem n with
  | some x => exact ⟨x, rfl⟩
  | none => have := (h.dead hx).own; omega

/-! ### What an operation on one stream leaves alone -/

structure Touch (n : Nat) (s s' : St C L) : Prop where
  listeners : s'.listeners = s.listeners
  next : s'.next = s.next
  maxStreams : s'.maxStreams = s.maxStreams
  nonce : s'.nonce = s.nonce
  conns : s'.conns = s.conns
  vconns : s'.vconns = s.vconns
  segs : s'.segs = s.segs
  maxSegs : s'.maxSegs = s.maxSegs
  clis : ∀ m, m ≠ n → s'.clis.count m = s.clis.count m
  nonces : nonces s' = nonces s
  mem : ∀ m, m ≠ n → s'.mem m = s.mem m
  streams : ∀ m, m ≠ n → s'.streams.count m = s.streams.count m
  apps : ∀ m, m ≠ n → s'.apps.count m = s.apps.count m
  sends : ∀ m, m ≠ n → s'.sends.count m = s.sends.count m
  posted : ∀ m, m ≠ n → s'.posted.count m = s.posted.count m
  dl : ∀ m, m ≠ n → dl s' m = dl s m
  fr : ∀ m, m ≠ n → fr s' m = fr s m
  cur : (s.mem n).isSome = true ∧ s'.mem n = none ∧ s'.current = s.current - 1 ∨
    (s'.mem n).isSome = (s.mem n).isSome ∧ s'.current = s.current
  kept : ∀ x', s'.mem n = some x' → ∃ x, s.mem n = some x ∧ x'.virt = x.virt ∧
    (x'.conn = x.conn ∧ x'.sid = x.sid ∨ x'.conn = none) ∧ (x.accepted = true → x'.accepted = true) ∧
    (x.stopped = true → x'.stopped = true)

theorem Touch.refl (n : Nat) (s : St C L) : Touch n s s :=
  { listeners := rfl, next := rfl, maxStreams := rfl, nonce := rfl, conns := rfl, vconns := rfl, segs := rfl,
    maxSegs := rfl, clis := fun _ _ => rfl, nonces := rfl, mem := fun _ _ => rfl, streams := fun _ _ => rfl,
    apps := fun _ _ => rfl, sends := fun _ _ => rfl, posted := fun _ _ => rfl, dl := fun _ _ => rfl,
    fr := fun _ _ => rfl, cur := .inr ⟨rfl, rfl⟩,
    kept := fun x' h => ⟨x', h, rfl, .inl ⟨rfl, rfl⟩, id, id⟩ }

theorem Touch.trans {n : Nat} {a b c : St C L} (h1 : Touch n a b) (h2 : Touch n b c) : Touch n a c where
  listeners := h2.listeners.trans h1.listeners
  next := h2.next.trans h1.next
  maxStreams := h2.maxStreams.trans h1.maxStreams
  nonce := h2.nonce.trans h1.nonce
  conns := h2.conns.trans h1.conns
  vconns := h2.vconns.trans h1.vconns
  segs := h2.segs.trans h1.segs
  maxSegs := h2.maxSegs.trans h1.maxSegs
  clis := fun m hm => (h2.clis m hm).trans (h1.clis m hm)
  nonces := h2.nonces.trans h1.nonces
  mem := fun m hm => (h2.mem m hm).trans (h1.mem m hm)
  streams := fun m hm => (h2.streams m hm).trans (h1.streams m hm)
  apps := fun m hm => (h2.apps m hm).trans (h1.apps m hm)
  sends := fun m hm => (h2.sends m hm).trans (h1.sends m hm)
  posted := fun m hm => (h2.posted m hm).trans (h1.posted m hm)
  dl := fun m hm => (h2.dl m hm).trans (h1.dl m hm)
  fr := fun m hm => (h2.fr m hm).trans (h1.fr m hm)
  cur := by
    rcases h1.cur with ⟨a1, a2, a3⟩ | ⟨a1, a2⟩ <;> rcases h2.cur with ⟨b1, b2, b3⟩ | ⟨b1, b2⟩
    · rw [a2] at b1; simp at b1
    · refine .inl ⟨a1, ?_, by rw [b2, a3]⟩
      rw [a2] at b1
      simpa using b1
    · exact .inl ⟨by rw [← a1, b1], b2, by rw [b3, a2]⟩
    · exact .inr ⟨b1.trans a1, b2.trans a2⟩
  kept := by
    intro x'' hx
    obtain ⟨x', h1', v', c', a', s'⟩ := h2.kept x'' hx
    obtain ⟨x, h0, v, c, a, s⟩ := h1.kept x' h1'
    refine ⟨x, h0, v'.trans v, ?_, a' ∘ a, s' ∘ s⟩
    rcases c' with ⟨p, q⟩ | p
    · rcases c with ⟨p', q'⟩ | p'
      · exact .inl ⟨p.trans p', q.trans q'⟩
      · exact .inr (p.trans p')
    · exact .inr p

/-! ### Single writes -/

theorem withS_some {s : St C L} {n : Nat} {x : Strm C} (f : Strm C → St C L) (hx : s.mem n = some x) :
    s.withS n f = f x := by simp [St.withS, hx]

theorem withS_none {s : St C L} {n : Nat} (f : Strm C → St C L) (hx : s.mem n = none) :
    s.withS n f = s.bad := by simp [St.withS, hx]

@[simp] theorem put_mem (s : St C L) (n : Nat) (x : Option (Strm C)) : (s.put n x).mem n = x := by simp [St.put]

theorem put_mem_ne (s : St C L) {n m : Nat} (x : Option (Strm C)) (h : m ≠ n) : (s.put n x).mem m = s.mem m := by
  simp [St.put, h]

@[simp] theorem say_mem (s : St C L) (o : Out C L) : (s.say o).mem = s.mem := rfl

theorem touch_put {s : St C L} {n : Nat} {x y : Strm C} (hx : s.mem n = some x) (hv : y.virt = x.virt)
    (hc : y.conn = x.conn ∧ y.sid = x.sid ∨ y.conn = none) (ha : x.accepted = true → y.accepted = true)
    (hs : x.stopped = true → y.stopped = true) : Touch n s (s.put n (some y)) :=
  { Touch.refl n s with
    mem := fun m hm => put_mem_ne s _ hm
    cur := .inr ⟨by simp [hx], rfl⟩
    kept := by
      intro x' h
      rw [put_mem] at h
      obtain rfl := Option.some.inj h
      exact ⟨x, hx, hv, hc, ha, hs⟩ }

theorem refInc_eq {s : St C L} {n : Nat} {x : Strm C} (hx : s.mem n = some x) :
    s.refInc n = s.put n (some { x with refs := x.refs + 1 }) := withS_some _ hx

theorem touch_refInc {s : St C L} {n : Nat} {x : Strm C} (hx : s.mem n = some x) : Touch n s (s.refInc n) := by
  rw [refInc_eq hx]
  exact touch_put hx rfl (.inl ⟨rfl, rfl⟩) id id

theorem loc_refInc {k : Nat} {s : St C L} {n : Nat} {x : Strm C} (h : Loc k s n) (hx : s.mem n = some x) :
    Loc (k + 1) (s.refInc n) n := by
  rw [refInc_eq hx]
  have l := h.live hx
  refine Loc.of_live (put_mem _ _ _) ?_
  exact { l with
    refs := by have := l.refs; simp only [own, St.put] at *; omega
    pos := by simp only; omega }

theorem touch_free {s : St C L} {n : Nat} {x : Strm C} (hx : s.mem n = some x) : Touch n s (s.free n) :=
  { Touch.refl n s with
    mem := fun m hm => by simp [St.free, St.put, St.say, hm]
    nonces := by simp [nonces, St.free, St.put, St.say, nonceOf]
    dl := fun m hm => by simp [dl, St.free, St.put, St.say, List.countP_cons, isDel]
    fr := fun m hm => by simp [fr, St.free, St.put, St.say, List.countP_cons, isFreed, Ne.symm hm]
    cur := .inl ⟨by simp [hx], by simp [St.free, St.put, St.say], rfl⟩
    kept := by intro x' h; simp [St.free, St.put, St.say] at h }

theorem loc_free {s : St C L} {n : Nat} {x : Strm C} (h : Loc 1 s n) (hx : s.mem n = some x)
    (h1 : x.refs = 1) : Loc 0 (s.free n) n := by
  have l := h.live hx
  have ho := l.refs
  refine Loc.of_dead (by simp [St.free, St.put, St.say]) ?_
  have e : own (s.free n) n = own s n := rfl
  have ef : fr (s.free n) n = fr s n + 1 := by
    simp [fr, St.free, St.put, St.say, List.countP_cons, isFreed]
  have ed : dl (s.free n) n = dl s n := by
    simp [dl, St.free, St.put, St.say, List.countP_cons, isDel]
  have en : (s.free n).next = s.next := rfl
  refine ⟨by omega, by rw [ed]; exact l.once, ?_, ?_⟩
  · rw [en]; intro hh; have := l.lt; omega
  · intro _; rw [ef, l.fresh]

/-- Giving up a reference the running code holds is always possible. -/
theorem refDec_ok {k : Nat} {s : St C L} {n : Nat} (h : Loc (k + 1) s n) :
    Loc k (s.refDec n) n ∧ (s.refDec n).ub = s.ub ∧ Touch n s (s.refDec n) ∧
      (0 < own s n + k → ∃ x y, s.mem n = some x ∧ (s.refDec n).mem n = some y ∧
        y = { x with refs := x.refs - 1 }) := by
  obtain ⟨x, hx⟩ := h.some_of (by omega)
  have l := h.live hx
  have hr := l.refs
  have e : s.refDec n = if x.refs = 0 then s.bad else if x.refs = 1 then s.free n
      else s.put n (some { x with refs := x.refs - 1 }) := withS_some _ hx
  rw [e, if_neg (by omega)]
  by_cases h1 : x.refs = 1
  · rw [if_pos h1]
    obtain rfl : k = 0 := by omega
    refine ⟨loc_free h hx h1, rfl, touch_free hx, ?_⟩
    intro hk; omega
  · rw [if_neg h1]
    refine ⟨?_, rfl, touch_put hx rfl (.inl ⟨rfl, rfl⟩) id id, ?_⟩
    · refine Loc.of_live (put_mem _ _ _) ?_
      exact { l with
        refs := by simp only [own, St.put] at *; omega
        pos := by simp only; omega }
    · intro _; exact ⟨x, _, hx, put_mem _ _ _, rfl⟩

/-! ### Stopping and destroying -/

variable [DecidableEq C] [DecidableEq L]

theorem sendRst_cases (s : St C L) (c : C) (sid : UInt64) (r : RstEnv) (hc : c ∈ s.conns) :
    s.sendRst c sid r = s ∨ s.sendRst c sid r = { s with rstBuf := true, rstOut := true }.say (.rst c sid) ∨
      s.sendRst c sid r = { s with rstBuf := true } := by
  unfold St.sendRst
  by_cases h1 : s.rstBuf = true
  · rw [if_pos h1]; exact .inl rfl
  rw [if_neg h1]
  by_cases h2 : (!r.buf) = true
  · rw [if_pos h2]; exact .inl rfl
  rw [if_neg h2, if_neg (by simp [hc])]
  by_cases h3 : r.send = true
  · rw [if_pos h3]; exact .inr (.inl rfl)
  · rw [if_neg h3]; exact .inr (.inr rfl)

theorem touch_sendRst (n : Nat) (s : St C L) (c : C) (sid : UInt64) (r : RstEnv) (hc : c ∈ s.conns) :
    Touch n s (s.sendRst c sid r) := by
  rcases sendRst_cases s c sid r hc with h | h | h <;> rw [h]
  · exact Touch.refl n s
  · exact { Touch.refl n s with
      nonces := by simp [nonces, St.say, nonceOf]
      dl := fun m hm => by simp [dl, St.say, List.countP_cons, isDel]
      fr := fun m hm => by simp [fr, St.say, List.countP_cons, isFreed] }
  · exact { Touch.refl n s with }

theorem loc_sendRst {k : Nat} {s : St C L} {n : Nat} (c : C) (sid : UInt64) (r : RstEnv) (hc : c ∈ s.conns)
    (h : Loc k s n) : Loc k (s.sendRst c sid r) n ∧ (s.sendRst c sid r).ub = s.ub ∧
      (s.sendRst c sid r).mem = s.mem ∧ (s.sendRst c sid r).streams = s.streams ∧
      (s.sendRst c sid r).apps = s.apps ∧ own (s.sendRst c sid r) n = own s n := by
  rcases sendRst_cases s c sid r hc with e | e | e <;> rw [e]
  · exact ⟨h, rfl, rfl, rfl, rfl, rfl⟩
  · refine ⟨?_, rfl, rfl, rfl, rfl, rfl⟩
    have e1 : dl ({ s with rstBuf := true, rstOut := true }.say (.rst c sid)) n = dl s n := by
      simp [dl, St.say, List.countP_cons, isDel]
    have e2 : fr ({ s with rstBuf := true, rstOut := true }.say (.rst c sid)) n = fr s n := by
      simp [fr, St.say, List.countP_cons, isFreed]
    rcases hx : s.mem n with _ | x
    · have d := h.dead hx
      exact Loc.of_dead hx { own := d.own, once := by rw [e1]; exact d.once, new := by rw [e1, e2]; exact d.new,
                             gone := by rw [e2]; exact d.gone }
    · have l := h.live hx
      exact Loc.of_live hx { l with acc := by rw [e1]; exact l.acc, once := by rw [e1]; exact l.once,
                                    fresh := by rw [e2]; exact l.fresh }
  · refine ⟨?_, rfl, rfl, rfl, rfl, rfl⟩
    rcases hx : s.mem n with _ | x
    · exact Loc.of_dead hx { h.dead hx with }
    · exact Loc.of_live hx { h.live hx with }

/-- Stopping a live stream. -/
theorem stop_ok {k : Nat} {s : St C L} {n : Nat} {x : Strm C} (r : RstEnv) (h : Loc k s n)
    (hx : s.mem n = some x) (hn : n ∈ s.streams) :
    Loc k (s.stop n r) n ∧ (s.stop n r).ub = s.ub ∧ Touch n s (s.stop n r) ∧
      (s.stop n r).streams = s.streams ∧ (s.stop n r).apps = s.apps ∧ own (s.stop n r) n = own s n ∧
      ∃ y, (s.stop n r).mem n = some y ∧ y.stopped = true ∧ y.accepted = x.accepted := by
  have l := h.live hx
  have e : s.stop n r = if x.stopped then s else
      match x.conn with
      | none => s.put n (some { x with stopped := true, conn := none, sid := 0 })
      | some c => if !x.virt && r.want then
          (s.put n (some { x with stopped := true, conn := none, sid := 0 })).sendRst c x.sid r
          else s.put n (some { x with stopped := true, conn := none, sid := 0 }) := withS_some _ hx
  rw [e]
  by_cases hs : x.stopped = true
  · rw [if_pos hs]
    exact ⟨h, rfl, Touch.refl n s, rfl, rfl, rfl, x, hx, hs, rfl⟩
  rw [if_neg hs]
  have t1 : Touch n s (s.put n (some { x with stopped := true, conn := none, sid := 0 })) :=
    touch_put hx rfl (.inr rfl) id (fun _ => rfl)
  have l1 : Loc k (s.put n (some { x with stopped := true, conn := none, sid := 0 })) n := by
    refine Loc.of_live (put_mem _ _ _) ?_
    exact { l with
      running := by intro hh; simp at hh
      halted := by intro _; rfl
      conn := by intro _ c hh; simp at hh }
  have done : ∀ s', s' = s.put n (some { x with stopped := true, conn := none, sid := 0 }) →
      Loc k s' n ∧ s'.ub = s.ub ∧ Touch n s s' ∧ s'.streams = s.streams ∧ s'.apps = s.apps ∧
      own s' n = own s n ∧ ∃ y, s'.mem n = some y ∧ y.stopped = true ∧ y.accepted = x.accepted := by
    intro s' hs'
    subst hs'
    exact ⟨l1, rfl, t1, rfl, rfl, rfl, _, put_mem _ _ _, rfl, rfl⟩
  rcases hcc : x.conn with _ | c
  · exact done _ rfl
  · dsimp only
    by_cases hw : (!x.virt && r.want) = true
    · rw [if_pos hw]
      simp only [Bool.and_eq_true, Bool.not_eq_true'] at hw
      have hin : c ∈ s.conns := l.conn hw.1 c hcc
      obtain ⟨a1, a2, a3, a4, a5, a6⟩ := loc_sendRst (n := n) (k := k)
        (s := s.put n (some { x with stopped := true, conn := none, sid := 0 })) c x.sid r hin l1
      refine ⟨a1, a2, t1.trans (touch_sendRst _ _ _ _ _ hin), a4, a5, a6,
        { x with stopped := true, conn := none, sid := 0 }, ?_, rfl, rfl⟩
      rw [a3]; exact put_mem _ _ _
    · rw [if_neg hw]; exact done _ rfl

theorem count_filter_ne (l : List Nat) (n m : Nat) (h : m ≠ n) : (l.filter (· ≠ n)).count m = l.count m := by
  rw [List.count_filter]; simp [h]

theorem count_filter_self (l : List Nat) (n : Nat) : (l.filter (· ≠ n)).count n = 0 := by
  rw [List.count_eq_zero]; simp

theorem count_one {l : List Nat} {n : Nat} (h : n ∈ l) (h1 : l.count n ≤ 1) : l.count n = 1 := by
  have := List.count_pos_iff.2 h; omega

/-- Taking a stopped stream out of the list gives up the reference of the list. -/
theorem remove_ok {k : Nat} {s : St C L} {n : Nat} {x : Strm C} (h : Loc k s n) (hx : s.mem n = some x)
    (hs : x.stopped = true) (hn : n ∈ s.streams) (ha : n ∉ s.apps) :
    Loc k (s.remove n) n ∧ (s.remove n).ub = s.ub ∧ Touch n s (s.remove n) ∧
      (0 < k → ∃ y, (s.remove n).mem n = some y) := by
  have l := h.live hx
  have h1 := count_one hn l.one
  let s1 : St C L := { s with streams := s.streams.filter (· ≠ n) }
  have l1 : Loc (k + 1) s1 n := by
    refine Loc.of_live (x := x) hx ?_
    exact { l with
      refs := by
        have := l.refs
        have := count_filter_self s.streams n
        simp only [own, s1] at *; omega
      one := by have := count_filter_self s.streams n; simp only [s1]; omega
      running := by intro hh; rw [hs] at hh; simp at hh
      app := fun hh => absurd hh ha }
  have t1 : Touch n s s1 := { Touch.refl n s with streams := fun m hm => count_filter_ne _ _ _ hm }
  obtain ⟨a, b, c, d⟩ := refDec_ok l1
  refine ⟨a, b, t1.trans c, ?_⟩
  intro hk
  obtain ⟨_, y, _, hy, _⟩ := d (by omega)
  exact ⟨y, hy⟩

/-- `nc_stream_destroy` when the caller gives up one reference. -/
theorem destroy_ok {k : Nat} {s : St C L} {n : Nat} {x : Strm C} (r : RstEnv) (h : Loc (k + 1) s n)
    (hx : s.mem n = some x) (hn : n ∈ s.streams) (ha : n ∉ s.apps) :
    Loc k (s.destroy n r) n ∧ (s.destroy n r).ub = s.ub ∧ Touch n s (s.destroy n r) ∧
      (0 < k → ∃ y, (s.destroy n r).mem n = some y) ∧ (∀ y, (s.destroy n r).mem n = some y → y.stopped = true) := by
  obtain ⟨a1, a2, a3, a4, a5, -, y, hy, hys, -⟩ := stop_ok r h hx hn
  obtain ⟨b1, b2, b3, b4⟩ := remove_ok a1 hy hys (by rw [a4]; exact hn) (by rw [a5]; exact ha)
  obtain ⟨c1, c2, c3, c4⟩ := refDec_ok b1
  refine ⟨c1, by rw [St.destroy, c2, b2, a2], (a3.trans b3).trans c3, ?_, ?_⟩
  · intro hk
    obtain ⟨_, z, _, hz, _⟩ := c4 (by omega)
    exact ⟨z, hz⟩
  · intro z hz
    obtain ⟨w, hw, -, -, -, hst⟩ := (b3.trans c3).kept z hz
    rw [hy] at hw
    obtain rfl := Option.some.inj hw
    exact hst hys

theorem touch_say (n : Nat) (s : St C L) (o : Out C L) (h1 : nonceOf o = none) (h2 : ∀ m, m ≠ n → isDel m o = false)
    (h3 : ∀ m, m ≠ n → isFreed m o = false) : Touch n s (s.say o) :=
  { Touch.refl n s with
    nonces := by simp [nonces, St.say, h1]
    dl := fun m hm => by simp [dl, St.say, List.countP_cons, h2 m hm]
    fr := fun m hm => by simp [fr, St.say, List.countP_cons, h3 m hm] }

/-! ### Acceptance -/

/-- The stream is given to a listener, or destroyed. -/
theorem ready_ok {k : Nat} {s : St C L} {n : Nat} {x : Strm C} (port : UInt32) (keep : Bool) (r : RstEnv)
    (h : Loc k s n) (hx : s.mem n = some x) (hs : x.stopped = false) (hacc : x.accepted = false) :
    Loc k (s.ready n port keep r) n ∧ (s.ready n port keep r).ub = s.ub ∧ Touch n s (s.ready n port keep r) ∧
      (0 < k ∨ Taken s port keep → ∃ y, (s.ready n port keep r).mem n = some y) := by
  have l := h.live hx
  have hn : n ∈ s.streams := l.running hs
  have hna : n ∉ s.apps := fun hh => by have := (l.app hh).2; rw [hacc] at this; simp at this
  have hd0 := l.acc hacc
  let x1 : Strm C := { x with refs := x.refs + 1, accepted := true }
  let s1 : St C L := (s.refInc n).put n (some x1)
  have e1 : (s.refInc n).mem n = some { x with refs := x.refs + 1 } := by rw [refInc_eq hx]; exact put_mem _ _ _
  have l1 : Loc (k + 1) s1 n := by
    have l0 := (loc_refInc h hx).live e1
    refine Loc.of_live (put_mem _ _ _) ?_
    exact { l0 with
      app := fun hh => ⟨(l0.app hh).1, rfl⟩
      acc := fun hh => by simp [x1] at hh }
  have t1 : Touch n s s1 := (touch_refInc hx).trans (touch_put e1 rfl (.inl ⟨rfl, rfl⟩) (fun _ => rfl) id)
  have es1 : s1.streams = s.streams ∧ s1.apps = s.apps ∧ s1.ub = s.ub ∧ s1.listeners = s.listeners := by
    simp only [s1, refInc_eq hx]; exact ⟨rfl, rfl, rfl, rfl⟩
  have dl1 : dl s1 n = 0 := by
    have : dl s1 n = dl s n := by simp only [s1, refInc_eq hx]; rfl
    rw [this, hd0]
  have er : s.ready n port keep r = (match s1.listeners.find? (fun p => p.2 = port) with
      | none => s1.destroy n r
      | some (l, _) =>
        if keep then { s1.say (.delivered n l port) with apps := (s1.say (.delivered n l port)).apps ++ [n] }
        else (s1.say (.delivered n l port)).destroy n r) := by
    rw [St.ready, withS_some _ e1]
    rfl
  rw [er]
  cases hf : s1.listeners.find? (fun p => p.2 = port) with
  | none =>
    dsimp only
    obtain ⟨a, b, c, d, -⟩ := destroy_ok r l1 (put_mem _ _ _) (by rw [es1.1]; exact hn) (by rw [es1.2.1]; exact hna)
    refine ⟨a, by rw [b, es1.2.2.1], t1.trans c, ?_⟩
    rintro (hk | ⟨-, li, hli⟩)
    · exact d hk
    · rw [es1.2.2.2, List.find?_eq_none] at hf
      simpa using hf _ hli
  | some lp =>
    obtain ⟨li, p⟩ := lp
    dsimp only
    let s2 : St C L := s1.say (.delivered n li port)
    have t2 : Touch n s1 s2 := touch_say n s1 _ rfl (fun m hm => by simp [isDel, Ne.symm hm]) (fun m hm => rfl)
    have ed : dl s2 n = 1 := by
      have : dl s2 n = dl s1 n + 1 := by simp [dl, s2, St.say, List.countP_cons, isDel]
      omega
    have ef : fr s2 n = fr s1 n := by simp [fr, s2, St.say, List.countP_cons, isFreed]
    have l2 : Loc (k + 1) s2 n := by
      have l0 := l1.live (x := x1) (put_mem _ _ _)
      refine Loc.of_live (x := x1) (put_mem _ _ _) ?_
      exact { l0 with
        acc := fun hh => by simp [x1] at hh
        once := by omega
        fresh := by rw [ef]; exact l0.fresh }
    cases keep with
    | true =>
      rw [if_pos rfl]
      have l2' := l2.live (x := x1) (put_mem _ _ _)
      have hnap : n ∉ s2.apps := by show n ∉ s1.apps; rw [es1.2.1]; exact hna
      have hc0 : s2.apps.count n = 0 := List.count_eq_zero.2 hnap
      refine ⟨?_, ?_, (t1.trans t2).trans ?_, fun _ => ⟨x1, put_mem _ _ _⟩⟩
      · refine Loc.of_live (x := x1) (put_mem _ _ _) ?_
        exact { l2' with
          refs := by
            have := l2'.refs
            have hc : (s2.apps ++ [n]).count n = 1 := by simp [hc0]
            simp only [own] at *
            show x1.refs = s2.streams.count n + (s2.apps ++ [n]).count n + s2.clis.count n + s2.sends.count n +
              s2.posted.count n + k
            omega
          oneA := by show (s2.apps ++ [n]).count n ≤ 1; simp [hc0]
          app := fun _ => ⟨by show n ∈ s1.streams; rw [es1.1]; exact hn, rfl⟩ }
      · exact es1.2.2.1
      · exact { Touch.refl n s2 with apps := fun m hm => by simp [List.count_cons, Ne.symm hm]; rfl }
    | false =>
      rw [if_neg (by simp)]
      obtain ⟨a, b, c, d, -⟩ := destroy_ok (s := s2) r l2 (x := x1) (put_mem _ _ _)
        (by show n ∈ s1.streams; rw [es1.1]; exact hn)
        (by show n ∉ s1.apps; rw [es1.2.1]; exact hna)
      refine ⟨a, by rw [b]; exact es1.2.2.1, (t1.trans t2).trans c, ?_⟩
      rintro (hk | ⟨hk, -⟩)
      · exact d hk
      · simp at hk

/-! ### Events of the streaming module -/

theorem post_ok {k : Nat} {s : St C L} {n : Nat} {x : Strm C} (h : Loc k s n) (hx : s.mem n = some x)
    (hv : x.virt = false) (hp : n ∉ s.posted) :
    Loc k ({ s with posted := s.posted ++ [n] }.refInc n) n ∧
      ({ s with posted := s.posted ++ [n] }.refInc n).ub = s.ub ∧
      Touch n s ({ s with posted := s.posted ++ [n] }.refInc n) ∧
      ∃ y, ({ s with posted := s.posted ++ [n] }.refInc n).mem n = some y ∧ y.virt = false := by
  have l := h.live hx
  have e : St.refInc { s with posted := s.posted ++ [n] } n =
      St.put { s with posted := s.posted ++ [n] } n (some { x with refs := x.refs + 1 }) :=
    refInc_eq (s := { s with posted := s.posted ++ [n] }) hx
  rw [e]
  refine ⟨?_, rfl, ?_, _, put_mem _ _ _, hv⟩
  · refine Loc.of_live (put_mem _ _ _) ?_
    exact { l with
      refs := by have := l.refs; simp [own, St.put] at *; omega
      pos := by simp only; omega
      real := by intro hh; rw [hv] at hh; simp at hh }
  · refine Touch.trans (b := { s with posted := s.posted ++ [n] })
      { Touch.refl n s with posted := fun m hm => by simp [List.count_cons, Ne.symm hm] } ?_
    exact touch_put (s := { s with posted := s.posted ++ [n] }) hx rfl (.inl ⟨rfl, rfl⟩) id id

theorem deferred_ok {k : Nat} {s : St C L} {n : Nat} {x : Strm C} (h : Loc k s n) (hx : s.mem n = some x)
    (hv : x.virt = false) :
    Loc k (s.deferred n) n ∧ (s.deferred n).ub = s.ub ∧ Touch n s (s.deferred n) ∧
      ∃ y, (s.deferred n).mem n = some y ∧ y.virt = false := by
  have e : s.deferred n = if x.stopped then s else if n ∈ s.posted then s else
      { s with posted := s.posted ++ [n] }.refInc n := withS_some _ hx
  rw [e]
  by_cases h1 : x.stopped = true
  · rw [if_pos h1]; exact ⟨h, rfl, Touch.refl n s, x, hx, hv⟩
  rw [if_neg h1]
  by_cases h2 : n ∈ s.posted
  · rw [if_pos h2]; exact ⟨h, rfl, Touch.refl n s, x, hx, hv⟩
  rw [if_neg h2]
  exact post_ok h hx hv h2

theorem sendPacket_ok {k : Nat} {s : St C L} {n : Nat} {x : Strm C} (empty ok : Bool) (h : Loc k s n)
    (hx : s.mem n = some x) (hv : x.virt = false) :
    Loc k (s.sendPacket n empty ok) n ∧ (s.sendPacket n empty ok).ub = s.ub ∧ Touch n s (s.sendPacket n empty ok) ∧
      ∃ y, (s.sendPacket n empty ok).mem n = some y := by
  have l := h.live hx
  have e : s.sendPacket n empty ok = if x.stopped then s else match x.conn with
    | none => s.deferred n
    | some c =>
      if x.isSending then s
      else if empty then s
      else if c ∉ s.conns then s.bad
      else
        if ok then { s.put n (some { x with isSending := true }) with
            sends := (s.put n (some { x with isSending := true })).sends ++ [n] }.refInc n
        else if n ∈ (s.put n (some { x with isSending := true })).posted then
          s.put n (some { x with isSending := true })
        else { s.put n (some { x with isSending := true }) with
            posted := (s.put n (some { x with isSending := true })).posted ++ [n] }.refInc n := withS_some _ hx
  rw [e]
  have same : Loc k s n ∧ s.ub = s.ub ∧ Touch n s s ∧ ∃ y, s.mem n = some y := ⟨h, rfl, Touch.refl n s, x, hx⟩
  by_cases h1 : x.stopped = true
  · rw [if_pos h1]; exact same
  rw [if_neg h1]
  rcases hc : x.conn with _ | c
  · dsimp only
    obtain ⟨a, b, c, y, hy, -⟩ := deferred_ok h hx hv
    exact ⟨a, b, c, y, hy⟩
  dsimp only
  by_cases h2 : x.isSending = true
  · rw [if_pos h2]; exact same
  rw [if_neg h2]
  by_cases h3 : empty = true
  · rw [if_pos h3]; exact same
  rw [if_neg h3, if_neg (by simp [l.conn hv c hc])]
  let y : Strm C := { x with conn := some c, isSending := true }
  let s1 : St C L := s.put n (some y)
  have hy : s1.mem n = some y := put_mem _ _ _
  have l1 : Loc k s1 n := Loc.of_live hy
    { l with halted := fun hh => absurd hh h1, conn := fun hh d hd => l.conn hh d (by rw [hc, ← hd]) }
  have t1 : Touch n s s1 := touch_put hx rfl (.inl ⟨hc.symm, rfl⟩) id id
  have hvy : y.virt = false := hv
  by_cases h4 : ok = true
  · rw [if_pos h4]
    have e2 : St.refInc { s1 with sends := s1.sends ++ [n] } n =
        St.put { s1 with sends := s1.sends ++ [n] } n (some { y with refs := y.refs + 1 }) :=
      refInc_eq (s := { s1 with sends := s1.sends ++ [n] }) hy
    refine Eq.mpr (congrArg (fun t => Loc k t n ∧ t.ub = s.ub ∧ Touch n s t ∧ ∃ y, t.mem n = some y) e2) ?_
    have ll := l1.live hy
    refine ⟨?_, rfl, t1.trans ?_, _, put_mem _ _ _⟩
    · refine Loc.of_live (put_mem _ _ _) ?_
      exact { ll with
        refs := by have := ll.refs; simp [own, St.put] at *; omega
        pos := by simp only; omega
        real := by intro hh; rw [hvy] at hh; simp at hh }
    · refine Touch.trans (b := { s1 with sends := s1.sends ++ [n] })
        { Touch.refl n s1 with sends := fun m hm => by simp [List.count_cons, Ne.symm hm] } ?_
      exact touch_put (s := { s1 with sends := s1.sends ++ [n] }) hy rfl (.inl ⟨rfl, rfl⟩) id id
  · rw [if_neg h4]
    by_cases h5 : n ∈ s1.posted
    · rw [if_pos h5]; exact ⟨l1, rfl, t1, y, hy⟩
    · rw [if_neg h5]
      obtain ⟨a, b, c, z, hz, -⟩ := post_ok l1 hy hvy h5
      exact ⟨a, b, t1.trans c, z, hz⟩

/-- Every stream which is offered is kept. -/
def Kept (s : St C L) (evs : List Ev) : Prop := ∀ port keep r, Ev.accept port keep r ∈ evs → Taken s port keep

omit [DecidableEq C] [DecidableEq L] in
theorem Kept.tail {s s' : St C L} {e : Ev} {es : List Ev} (h : Kept s (e :: es)) (hl : s'.listeners = s.listeners) :
    Kept s' es := by
  intro p k r hm
  have := h p k r (List.mem_cons_of_mem _ hm)
  rwa [Taken, hl]

/-- The loop: when the running code holds a reference, or every offered stream is kept, the stream is still there
afterwards. -/
theorem events_ok {k : Nat} (evs : List Ev) : ∀ {s : St C L} {n : Nat} {x : Strm C}, Loc k s n → s.mem n = some x →
    x.virt = false →
    ((St.events evs s n).ub = true ∨ ((St.events evs s n).ub = s.ub ∧ Loc k (St.events evs s n) n ∧
      Touch n s (St.events evs s n))) ∧
    (0 < k ∨ Kept s evs → (St.events evs s n).ub = s.ub ∧ ∃ y, (St.events evs s n).mem n = some y) := by
  induction evs with
  | nil =>
    intro s n x h hx hv
    have e : St.events [] s n = s := withS_some _ hx
    rw [e]
    exact ⟨.inr ⟨rfl, h, Touch.refl n s⟩, fun _ => ⟨rfl, x, hx⟩⟩
  | cons ev es ih =>
    intro s n x h hx hv
    have e : St.events (ev :: es) s n = if x.stopped then s else match ev with
      | .accept port keep r =>
        if x.accepted then St.events es s n
        else St.events es ((s.ready n port keep r).touch n) n
      | .send empty ok => s.sendPacket n empty ok
      | .other => St.events es s n
      | .notify => St.events es (s.deferred n) n := withS_some _ hx
    rw [e]
    by_cases hst : x.stopped = true
    · rw [if_pos hst]
      exact ⟨.inr ⟨rfl, h, Touch.refl n s⟩, fun _ => ⟨rfl, x, hx⟩⟩
    rw [if_neg hst]
    cases ev with
    | accept port keep r =>
      dsimp only
      by_cases ha : x.accepted = true
      · rw [if_pos ha]
        obtain ⟨i1, i2⟩ := ih h hx hv
        refine ⟨i1, fun hh => ?_⟩
        rcases hh with hh | hh
        · exact i2 (.inl hh)
        · exact i2 (.inr (hh.tail rfl))
      rw [if_neg ha]
      obtain ⟨a, b, c, d⟩ := ready_ok port keep r h hx (by simpa using hst) (by simpa using ha)
      rcases hy : (s.ready n port keep r).mem n with _ | y
      · have e1 : (s.ready n port keep r).touch n = (s.ready n port keep r).bad := withS_none _ hy
        rw [e1]
        have e2 : (St.events es (s.ready n port keep r).bad n).ub = true := by
          cases es with
          | nil => show (St.withS _ n _).ub = true; rw [withS_none _ (by exact hy)]; rfl
          | cons e es => rw [St.events, withS_none _ (by exact hy)]; rfl
        refine ⟨.inl e2, fun hh => ?_⟩
        rcases hh with hh | hh
        · obtain ⟨y, hy'⟩ := d (.inl hh)
          rw [hy] at hy'; simp at hy'
        · obtain ⟨y, hy'⟩ := d (.inr (hh port keep r (List.mem_cons_self ..)))
          rw [hy] at hy'; simp at hy'
      · have e1 : (s.ready n port keep r).touch n = s.ready n port keep r := withS_some _ hy
        rw [e1]
        obtain ⟨x0, hx0, hv0, -⟩ := c.kept y hy
        rw [hx] at hx0
        obtain rfl := Option.some.inj hx0
        obtain ⟨i1, i2⟩ := ih a hy (by rw [hv0, hv])
        refine ⟨?_, fun hh => ?_⟩
        · rcases i1 with i1 | ⟨j1, j2, j3⟩
          · exact .inl i1
          · exact .inr ⟨by rw [j1, b], j2, c.trans j3⟩
        · rcases hh with hh | hh
          · obtain ⟨j1, j2⟩ := i2 (.inl hh)
            exact ⟨by rw [j1, b], j2⟩
          · obtain ⟨j1, j2⟩ := i2 (.inr (hh.tail c.listeners))
            exact ⟨by rw [j1, b], j2⟩
    | send empty ok =>
      dsimp only
      obtain ⟨a, b, c, d⟩ := sendPacket_ok empty ok h hx hv
      exact ⟨.inr ⟨b, a, c⟩, fun _ => ⟨b, d⟩⟩
    | other =>
      obtain ⟨i1, i2⟩ := ih h hx hv
      exact ⟨i1, fun hh => i2 (hh.imp_right fun h => h.tail rfl)⟩
    | notify =>
      dsimp only
      obtain ⟨a, b, c, y, hy, hvy⟩ := deferred_ok h hx hv
      obtain ⟨i1, i2⟩ := ih a hy hvy
      refine ⟨?_, fun hh => ?_⟩
      · rcases i1 with i1 | ⟨j1, j2, j3⟩
        · exact .inl i1
        · exact .inr ⟨by rw [j1, b], j2, c.trans j3⟩
      · obtain ⟨j1, j2⟩ := i2 (hh.imp_right fun h => h.tail c.listeners)
        exact ⟨by rw [j1, b], j2⟩

/-! ### The whole state -/

/-- Number of streams whose memory is allocated. -/
def live (mem : Nat → Option (Strm C)) (k : Nat) : Nat := (List.range k).countP fun n => (mem n).isSome

structure Glob (s : St C L) : Prop where
  count : s.current = live s.mem s.next
  uniq : ∀ n m x y c, s.mem n = some x → s.mem m = some y → x.virt = false → y.virt = false →
    x.conn = some c → y.conn = some c → x.sid = y.sid → n = m
  ports : (s.listeners.map Prod.snd).Nodup
  disj : ∀ c, c ∈ s.conns → c ∉ s.vconns

structure Inv (s : St C L) : Prop where
  loc : ∀ n, Loc 0 s n
  glob : Glob s

omit [DecidableEq C] [DecidableEq L] in
theorem live_congr {m1 m2 : Nat → Option (Strm C)} {k : Nat} (h : ∀ n, n < k → (m1 n).isSome = (m2 n).isSome) :
    live m1 k = live m2 k := by
  unfold live
  apply List.countP_congr
  intro n hn
  rw [h n (List.mem_range.1 hn)]

omit [DecidableEq C] [DecidableEq L] in
theorem live_succ (m : Nat → Option (Strm C)) (k : Nat) :
    live m (k + 1) = live m k + if (m k).isSome then 1 else 0 := by
  simp [live, List.range_succ, List.countP_cons]

omit [DecidableEq C] [DecidableEq L] in
theorem live_free {m1 m2 : Nat → Option (Strm C)} {n : Nat} (hs : (m1 n).isSome = true) (hn : m2 n = none)
    (hne : ∀ i, i ≠ n → m2 i = m1 i) : ∀ k, n < k → live m2 k = live m1 k - 1 ∧ 0 < live m1 k := by
  intro k
  induction k with
  | zero => intro h; omega
  | succ k ih =>
    intro h
    rw [live_succ, live_succ]
    by_cases hk : k = n
    · subst hk
      have e : live m2 k = live m1 k := live_congr fun i hi => by rw [hne i (by omega)]
      simp [hs, hn, e]
    · obtain ⟨a, b⟩ := ih (by omega)
      rw [hne k hk, a]
      omega

/-- An operation on one stream which keeps its own part of the invariant keeps the invariant. -/
theorem Inv.touch {n : Nat} {s s' : St C L} (h : Inv s) (t : Touch n s s') (hl : Loc 0 s' n) : Inv s' where
  loc := by
    intro m
    by_cases hm : m = n
    · rw [hm]; exact hl
    have eo : own s' m = own s m := by
      simp only [own, t.streams m hm, t.apps m hm, t.clis m hm, t.sends m hm, t.posted m hm]
    have hin : ∀ {a b : List Nat}, a.count m = b.count m → (m ∈ a ↔ m ∈ b) := by
      intro a b e
      rw [← List.count_pos_iff, e, List.count_pos_iff]
    have h0 := h.loc m
    rcases hx : s.mem m with _ | x
    · have d := h0.dead hx
      refine Loc.of_dead (by rw [t.mem m hm, hx]) ?_
      exact { own := by rw [eo]; exact d.own, once := by rw [t.dl m hm]; exact d.once,
              new := by rw [t.next, t.dl m hm, t.fr m hm]; exact d.new,
              gone := by rw [t.next, t.fr m hm]; exact d.gone }
    · have l := h0.live hx
      refine Loc.of_live (by rw [t.mem m hm, hx]) ?_
      exact { refs := by rw [eo]; exact l.refs
              pos := l.pos
              lt := by rw [t.next]; exact l.lt
              one := by rw [t.streams m hm]; exact l.one
              oneA := by rw [t.apps m hm]; exact l.oneA
              running := fun hh => (hin (t.streams m hm)).2 (l.running hh)
              halted := l.halted
              app := fun hh => ⟨(hin (t.streams m hm)).2 (l.app ((hin (t.apps m hm)).1 hh)).1,
                (l.app ((hin (t.apps m hm)).1 hh)).2⟩
              acc := by rw [t.dl m hm]; exact l.acc
              once := by rw [t.dl m hm]; exact l.once
              fresh := by rw [t.fr m hm]; exact l.fresh
              conn := by rw [t.conns]; exact l.conn
              real := fun hh => ⟨fun h1 => (l.real hh).1 ((hin (t.posted m hm)).1 h1),
                fun h1 => (l.real hh).2 ((hin (t.sends m hm)).1 h1)⟩ }
  glob := by
    refine ⟨?_, ?_, by rw [t.listeners]; exact h.glob.ports, by rw [t.conns, t.vconns]; exact h.glob.disj⟩
    · rw [t.next]
      rcases t.cur with ⟨a, b, c⟩ | ⟨a, b⟩
      · obtain ⟨x, hx⟩ := Option.isSome_iff_exists.1 a
        have := (live_free a b t.mem s.next ((h.loc n).live hx).lt).1
        rw [this, c, h.glob.count]
      · rw [b, h.glob.count]
        refine live_congr fun i hi => ?_
        by_cases hin : i = n
        · rw [hin, a]
        · rw [t.mem i hin]
    · have back : ∀ i z c, s'.mem i = some z → z.conn = some c →
          ∃ z0, s.mem i = some z0 ∧ z0.virt = z.virt ∧ z0.conn = some c ∧ z0.sid = z.sid := by
        intro i z c hz hc
        by_cases hi : i = n
        · subst hi
          obtain ⟨z0, h0, hv, hcs, -⟩ := t.kept z hz
          rcases hcs with ⟨p, q⟩ | p
          · exact ⟨z0, h0, hv.symm, by rw [← p, hc], q.symm⟩
          · rw [hc] at p; simp at p
        · exact ⟨z, by rw [← t.mem i hi, hz], rfl, hc, rfl⟩
      intro i j x y c hx hy hvx hvy hcx hcy hs
      obtain ⟨x0, a1, a2, a3, a4⟩ := back i x c hx hcx
      obtain ⟨y0, b1, b2, b3, b4⟩ := back j y c hy hcy
      exact h.glob.uniq i j x0 y0 c a1 b1 (by rw [a2, hvx]) (by rw [b2, hvy]) a3 b3 (by rw [a4, b4, hs])

omit [DecidableEq C] [DecidableEq L] in
theorem inv_init : Inv (St.init : St C L) where
  loc := fun n => Loc.of_dead rfl
    { own := by simp [own, St.init], once := by simp [dl, St.init], new := fun _ => by simp [dl, fr, St.init],
      gone := fun h => by simp [St.init] at h }
  glob := ⟨by simp [live, St.init], by intro n m x y c h; simp [St.init] at h, by simp [St.init],
    by simp [St.init]⟩

end Verif.Stream.Manager
