import Verif.Stream.ManagerLemmas

/-!
# The stream manager — the invariant holds in every state
-/

namespace Verif.Stream.Manager

open Verif.Core.Packet Spec

variable {C L : Type}

/-- Changes which leave the streams alone. -/
theorem Inv.same {s s' : St C L} (h : Inv s) (hm : s'.mem = s.mem) (hs : s'.streams = s.streams)
    (ha : s'.apps = s.apps) (hc : s'.clis = s.clis) (hse : s'.sends = s.sends) (hp : s'.posted = s.posted)
    (hn : s'.next = s.next) (hcu : s'.current = s.current) (hd : ∀ n, dl s' n = dl s n) (hf : ∀ n, fr s' n = fr s n)
    (hcn : ∀ n x c, s.mem n = some x → x.virt = false → x.conn = some c → c ∈ s'.conns)
    (hpo : (s'.listeners.map Prod.snd).Nodup) (hdi : ∀ c, c ∈ s'.conns → c ∉ s'.vconns) : Inv s' where
  loc := by
    intro n
    have eo : own s' n = own s n := by simp only [own, hs, ha, hc, hse, hp]
    rcases hx : s.mem n with _ | x
    · have d := (h.loc n).dead hx
      exact Loc.of_dead (by rw [hm, hx])
        { own := by rw [eo]; exact d.own, once := by rw [hd]; exact d.once,
          new := by rw [hn, hd, hf]; exact d.new, gone := by rw [hn, hf]; exact d.gone }
    · have l := (h.loc n).live hx
      exact Loc.of_live (by rw [hm, hx])
        { refs := by rw [eo]; exact l.refs
          pos := l.pos
          lt := by rw [hn]; exact l.lt
          one := by rw [hs]; exact l.one
          oneA := by rw [ha]; exact l.oneA
          running := by rw [hs]; exact l.running
          halted := l.halted
          app := by rw [hs, ha]; exact l.app
          acc := by rw [hd]; exact l.acc
          once := by rw [hd]; exact l.once
          fresh := by rw [hf]; exact l.fresh
          conn := fun hv c => hcn n x c hx hv
          real := by rw [hp, hse]; exact l.real }
  glob := ⟨by rw [hcu, hm, hn]; exact h.glob.count, by rw [hm]; exact h.glob.uniq, hpo, hdi⟩

theorem Inv.say {s : St C L} (h : Inv s) (o : Out C L) (h2 : ∀ m, isDel m o = false)
    (h3 : ∀ m, isFreed m o = false) : Inv (s.say o) :=
  h.same rfl rfl rfl rfl rfl rfl rfl rfl (fun n => by simp [dl, St.say, List.countP_cons, h2])
    (fun n => by simp [fr, St.say, List.countP_cons, h3]) (fun n x c hx hv => ((h.loc n).live hx).conn hv c)
    h.glob.ports h.glob.disj

variable [DecidableEq C] [DecidableEq L]

/-- The connections of virtual streams exist. -/
def VIn (s : St C L) : Prop := ∀ n x c, s.mem n = some x → x.virt = true → x.conn = some c → c ∈ s.vconns

/-- The result of an operation: undefined behaviour, or the invariant again. -/
def Good (s s' : St C L) : Prop := s'.ub = true ∨ (Inv s' ∧ (VIn s → VIn s'))

omit [DecidableEq C] [DecidableEq L] in
theorem VIn.touch {n : Nat} {s s' : St C L} (h : VIn s) (t : Touch n s s') : VIn s' := by
  intro m x c hx hv hc
  rw [t.vconns]
  by_cases hm : m = n
  · subst hm
    obtain ⟨x0, h0, hv0, hcs, -⟩ := t.kept x hx
    rcases hcs with ⟨p, -⟩ | p
    · exact h m x0 c h0 (by rw [← hv0, hv]) (by rw [← p, hc])
    · rw [hc] at p; simp at p
  · rw [t.mem m hm] at hx; exact h m x c hx hv hc

theorem Inv.touch2 {n : Nat} {s s' : St C L} (h : Inv s) (t : Touch n s s') (hl : Loc 0 s' n) :
    Inv s' ∧ (VIn s → VIn s') := ⟨h.touch t hl, fun v => v.touch t⟩

/-! ### Listeners -/

omit [DecidableEq C] [DecidableEq L] in
theorem inUse_iff (s : St C L) (p : UInt32) : s.inUse p = true ↔ p ∈ s.listeners.map Prod.snd := by
  simp [St.inUse]

omit [DecidableEq C] [DecidableEq L] in
theorem inv_listen {s : St C L} (h : Inv s) (l : L) (p : UInt32) : Inv (s.listen l p) := by
  unfold St.listen
  by_cases hu : s.inUse p = true
  · rw [if_pos hu]; exact h.say _ (fun _ => rfl) (fun _ => rfl)
  · rw [if_neg hu]
    refine Inv.say ?_ _ (fun _ => rfl) (fun _ => rfl)
    refine h.same rfl rfl rfl rfl rfl rfl rfl rfl (fun _ => rfl) (fun _ => rfl)
      (fun n x c hx hv => ((h.loc n).live hx).conn hv c) ?_ h.glob.disj
    rw [inUse_iff] at hu
    simp only [List.map_append, List.map_cons, List.map_nil]
    rw [List.nodup_append]
    refine ⟨h.glob.ports, by simp, ?_⟩
    intro a ha b hb
    simp at hb
    subst hb
    exact fun e => hu (e ▸ ha)

omit [DecidableEq C] [DecidableEq L] in
theorem listen_ub (s : St C L) (l : L) (p : UInt32) : (s.listen l p).ub = s.ub := by
  unfold St.listen; split <;> rfl

omit [DecidableEq C] [DecidableEq L] in
theorem inv_addListener {s : St C L} (h : Inv s) (l : L) (p : UInt32) (rand : Nat → UInt32) :
    Inv (s.addListener l p rand) ∧ (s.addListener l p rand).ub = s.ub := by
  unfold St.addListener
  by_cases hp : p = 0
  · rw [if_pos hp]
    cases s.ephemeral rand 10 0 with
    | none => exact ⟨h.say _ (fun _ => rfl) (fun _ => rfl), rfl⟩
    | some q => exact ⟨inv_listen h l q, listen_ub s l q⟩
  · rw [if_neg hp]; exact ⟨inv_listen h l p, listen_ub s l p⟩

/-! ### Finding streams -/

theorem find_at {mem : Nat → Option (Strm C)} {sid : UInt64} {c : C} {n : Nat} :
    ∀ {ns : List Nat}, find mem sid c ns = .at n → n ∈ ns ∧ ∃ x, mem n = some x ∧ x.sid = sid ∧ x.conn = some c := by
  intro ns
  induction ns with
  | nil => intro h; simp [find] at h
  | cons m ns ih =>
    intro h
    unfold find at h
    rcases hm : mem m with _ | x
    · simp [hm] at h
    · simp only [hm] at h
      by_cases hc : x.sid = sid ∧ x.conn = some c
      · rw [if_pos hc] at h
        obtain rfl := Found.at.inj h
        exact ⟨List.mem_cons_self .., x, hm, hc.1, hc.2⟩
      · rw [if_neg hc] at h
        obtain ⟨a, b⟩ := ih h
        exact ⟨List.mem_cons_of_mem _ a, b⟩

theorem find_no {mem : Nat → Option (Strm C)} {sid : UInt64} {c : C} :
    ∀ {ns : List Nat}, find mem sid c ns = .no → ∀ n ∈ ns, ∀ x, mem n = some x → ¬ (x.sid = sid ∧ x.conn = some c) := by
  intro ns
  induction ns with
  | nil => intro _ n hn; simp at hn
  | cons m ns ih =>
    intro h n hn x hx hc
    unfold find at h
    rcases hm : mem m with _ | y
    · simp [hm] at h
    · simp only [hm] at h
      by_cases hy : y.sid = sid ∧ y.conn = some c
      · rw [if_pos hy] at h; simp at h
      · rw [if_neg hy] at h
        rcases List.mem_cons.1 hn with rfl | hn
        · rw [hm] at hx; obtain rfl := Option.some.inj hx; exact hy hc
        · exact ih h n hn x hx hc

theorem find_live {mem : Nat → Option (Strm C)} {sid : UInt64} {c : C} :
    ∀ {ns : List Nat}, (∀ n ∈ ns, ∃ x, mem n = some x) → find mem sid c ns ≠ .ub := by
  intro ns
  induction ns with
  | nil => intro _; simp [find]
  | cons m ns ih =>
    intro h
    obtain ⟨x, hx⟩ := h m (List.mem_cons_self ..)
    unfold find
    simp only [hx]
    by_cases hc : x.sid = sid ∧ x.conn = some c
    · rw [if_pos hc]; simp
    · rw [if_neg hc]; exact ih fun n hn => h n (List.mem_cons_of_mem _ hn)

omit [DecidableEq C] [DecidableEq L] in
theorem Inv.listed {s : St C L} (h : Inv s) {n : Nat} (hn : n ∈ s.streams) : ∃ x, s.mem n = some x := by
  have := List.count_pos_iff.2 hn
  exact (h.loc n).some_of (by simp only [own]; omega)

/-! ### Packets -/

omit [DecidableEq C] [DecidableEq L] in
theorem refDec_stick (t : St C L) (n : Nat) (ht : t.ub = true) : (t.refDec n).ub = true := by
  rcases hx : t.mem n with _ | x
  · rw [St.refDec, withS_none _ hx]; rfl
  · rw [St.refDec, withS_some _ hx]
    by_cases h0 : x.refs = 0
    · rw [if_pos h0]; rfl
    rw [if_neg h0]
    by_cases h1 : x.refs = 1
    · rw [if_pos h1]; exact ht
    · rw [if_neg h1]; exact ht

/-- The packet is given to the stream, while a reference is held. -/
theorem packetTo_ok {s : St C L} {n : Nat} {x : Strm C} (evs : List Ev) (h : Inv s) (hx : s.mem n = some x) :
    Good s (s.packetTo n evs) ∧ (x.virt = false ∨ x.stopped = true → (s.packetTo n evs).ub = s.ub) := by
  let x1 : Strm C := { x with refs := x.refs + 1 }
  let s0 : St C L := s.refInc n
  let s1 : St C L := s0.say (.packet n)
  have e0 : s0.mem n = some x1 := by simp only [s0, refInc_eq hx]; exact put_mem _ _ _
  have u1 : s1.ub = s.ub := by simp only [s1, s0, refInc_eq hx]; rfl
  have l0 : Loc 1 s0 n := loc_refInc (h.loc n) hx
  have t1 : Touch n s s1 := (touch_refInc hx).trans (touch_say n _ _ rfl (fun _ _ => rfl) (fun _ _ => rfl))
  have l1 : Loc 1 s1 n := by
    have l := l0.live e0
    refine Loc.of_live (x := x1) e0 ?_
    have e1 : dl s1 n = dl s0 n := by simp [dl, s1, St.say, List.countP_cons, isDel]
    have e2 : fr s1 n = fr s0 n := by simp [fr, s1, St.say, List.countP_cons, isFreed]
    exact { l with acc := by rw [e1]; exact l.acc, once := by rw [e1]; exact l.once,
                   fresh := by rw [e2]; exact l.fresh }
  have e : s.packetTo n evs = if x.stopped then s1.refDec n else if x.virt then s1.bad else
      (St.events evs s1 n).refDec n := by
    rw [St.packetTo, withS_some _ e0]
  rw [e]
  by_cases hs : x.stopped = true
  · rw [if_pos hs]
    obtain ⟨a, b, c, -⟩ := refDec_ok l1
    exact ⟨.inr (h.touch2 (t1.trans c) a), fun _ => by rw [b, u1]⟩
  rw [if_neg hs]
  by_cases hv : x.virt = true
  · rw [if_pos hv]
    refine ⟨.inl rfl, ?_⟩
    rintro (hh | hh)
    · rw [hv] at hh; simp at hh
    · exact absurd hh hs
  rw [if_neg hv]
  obtain ⟨i1, i2⟩ := events_ok evs l1 e0 (by simpa using hv)
  obtain ⟨j1, j2⟩ := i2 (.inl (by omega))
  rcases i1 with i1 | ⟨i1, i2, i3⟩
  · rw [j1, u1] at i1
    exact ⟨.inl (refDec_stick _ n (by rw [j1, u1, i1])), fun _ => by rw [refDec_stick _ n (by rw [j1, u1, i1]), i1]⟩
  · obtain ⟨a, b, c, -⟩ := refDec_ok i2
    exact ⟨.inr (h.touch2 ((t1.trans i3).trans c) a), fun _ => by rw [b, i1, u1]⟩

omit [DecidableEq C] [DecidableEq L] in
/-- A new stream. -/
theorem Inv.create {s s' : St C L} {x : Strm C} (h : Inv s) (hl : s'.listeners = s.listeners)
    (hn : s'.next = s.next + 1) (hcu : s'.current = s.current + 1) (hcn : s'.conns = s.conns)
    (hvc : s'.vconns = s.vconns) (hm : ∀ m, m ≠ s.next → s'.mem m = s.mem m)
    (hs : ∀ m, m ≠ s.next → s'.streams.count m = s.streams.count m)
    (ha : ∀ m, m ≠ s.next → s'.apps.count m = s.apps.count m)
    (hc : ∀ m, m ≠ s.next → s'.clis.count m = s.clis.count m)
    (hse : ∀ m, m ≠ s.next → s'.sends.count m = s.sends.count m)
    (hp : ∀ m, m ≠ s.next → s'.posted.count m = s.posted.count m)
    (hd : ∀ m, m ≠ s.next → dl s' m = dl s m) (hf : ∀ m, m ≠ s.next → fr s' m = fr s m)
    (hx : s'.mem s.next = some x) (hlive : Live 0 s' s.next x)
    (huniq : x.virt = false → ∀ i y c, s.mem i = some y → y.virt = false → x.conn = some c → y.conn = some c →
      x.sid = y.sid → False) : Inv s' where
  loc := by
    intro m
    by_cases hmn : m = s.next
    · rw [hmn]; exact Loc.of_live hx hlive
    have eo : own s' m = own s m := by
      simp only [own, hs m hmn, ha m hmn, hc m hmn, hse m hmn, hp m hmn]
    have hin : ∀ {a b : List Nat}, a.count m = b.count m → (m ∈ a ↔ m ∈ b) := by
      intro a b e
      rw [← List.count_pos_iff, e, List.count_pos_iff]
    rcases hy : s.mem m with _ | y
    · have d := (h.loc m).dead hy
      refine Loc.of_dead (by rw [hm m hmn, hy]) ?_
      exact { own := by rw [eo]; exact d.own, once := by rw [hd m hmn]; exact d.once,
              new := by rw [hn, hd m hmn, hf m hmn]; exact fun hh => d.new (by omega),
              gone := by rw [hn, hf m hmn]; exact fun hh => d.gone (by omega) }
    · have l := (h.loc m).live hy
      refine Loc.of_live (by rw [hm m hmn, hy]) ?_
      exact { refs := by rw [eo]; exact l.refs
              pos := l.pos
              lt := by rw [hn]; have := l.lt; omega
              one := by rw [hs m hmn]; exact l.one
              oneA := by rw [ha m hmn]; exact l.oneA
              running := fun hh => (hin (hs m hmn)).2 (l.running hh)
              halted := l.halted
              app := fun hh => ⟨(hin (hs m hmn)).2 (l.app ((hin (ha m hmn)).1 hh)).1,
                (l.app ((hin (ha m hmn)).1 hh)).2⟩
              acc := by rw [hd m hmn]; exact l.acc
              once := by rw [hd m hmn]; exact l.once
              fresh := by rw [hf m hmn]; exact l.fresh
              conn := by rw [hcn]; exact l.conn
              real := fun hh => ⟨fun h1 => (l.real hh).1 ((hin (hp m hmn)).1 h1),
                fun h1 => (l.real hh).2 ((hin (hse m hmn)).1 h1)⟩ }
  glob := by
    refine ⟨?_, ?_, by rw [hl]; exact h.glob.ports, by rw [hcn, hvc]; exact h.glob.disj⟩
    · rw [hn, live_succ, hcu, hx, h.glob.count]
      simp only [Option.isSome_some, if_true]
      congr 1
      exact live_congr fun i hi => by rw [hm i (by omega)]
    · intro i j y z d hy hz hvy hvz hcy hcz hsid
      by_cases hi : i = s.next
      · by_cases hj : j = s.next
        · rw [hi, hj]
        · rw [hi, hx] at hy
          obtain rfl := Option.some.inj hy
          rw [hm j hj] at hz
          exact (huniq hvy j z d hz hvz hcy hcz hsid).elim
      · rw [hm i hi] at hy
        by_cases hj : j = s.next
        · rw [hj, hx] at hz
          obtain rfl := Option.some.inj hz
          exact (huniq hvz i y d hy hvy hcz hcy hsid.symm).elim
        · rw [hm j hj] at hz
          exact h.glob.uniq i j y z d hy hz hvy hvz hcy hcz hsid

/-- The state after a client stream was created. -/
theorem accept_ok {s s1 : St C L} {c : C} {sid : UInt64} {m : MemEnv} {o : Option Nat} (h : Inv s)
    (hc : c ∈ s.conns) (hno : ∀ n ∈ s.streams, ∀ x, s.mem n = some x → ¬ (x.sid = sid ∧ x.conn = some c))
    (he : s.acceptStream c sid m = (s1, o)) :
    Inv s1 ∧ s1.ub = s.ub ∧ s1.conns = s.conns ∧ (VIn s → VIn s1) ∧
      ∀ n, o = some n → ∃ x, s1.mem n = some x ∧ x.virt = false := by
  unfold St.acceptStream at he
  have same : (s, (none : Option Nat)) = (s1, o) → Inv s1 ∧ s1.ub = s.ub ∧ s1.conns = s.conns ∧ (VIn s → VIn s1) ∧
      ∀ n, o = some n → ∃ x, s1.mem n = some x ∧ x.virt = false := by
    intro e
    obtain ⟨rfl, rfl⟩ := Prod.mk.inj e
    exact ⟨h, rfl, rfl, id, fun n hn => by simp at hn⟩
  by_cases h1 : sid % 2 = 1
  · rw [if_pos h1] at he; exact same he
  rw [if_neg h1] at he
  by_cases h2 : s.current ≥ s.maxStreams
  · rw [if_pos h2] at he; exact same he
  rw [if_neg h2] at he
  by_cases h3 : (!m.alloc) = true
  · rw [if_pos h3] at he; exact same he
  rw [if_neg h3] at he
  by_cases h4 : (!m.init) = true
  · rw [if_pos h4] at he
    obtain ⟨rfl, rfl⟩ := Prod.mk.inj he
    refine ⟨?_, rfl, rfl, fun v => v, fun n hn => by simp at hn⟩
    exact h.same rfl rfl rfl rfl rfl rfl rfl rfl (fun _ => rfl) (fun _ => rfl)
      (fun n x c hx hv => ((h.loc n).live hx).conn hv c) h.glob.ports h.glob.disj
  rw [if_neg h4] at he
  obtain ⟨rfl, rfl⟩ := Prod.mk.inj he
  let x : Strm C :=
    { sid := sid, conn := some c, virt := false, refs := 1, accepted := false, stopped := false, isSending := false }
  have hnone : s.mem s.next = none := by
    rcases hx : s.mem s.next with _ | y
    · rfl
    · have := ((h.loc _).live hx).lt; omega
  have d := (h.loc _).dead hnone
  have d0 := d.new (by omega)
  have ho := d.own
  have hs0 : s.streams.count s.next = 0 := by simp only [own] at ho; omega
  have ha0 : s.apps.count s.next = 0 := by simp only [own] at ho; omega
  have hna : s.next ∉ s.apps := List.count_eq_zero.1 ha0
  refine ⟨?_, rfl, rfl, ?_, ?_⟩
  · refine h.create (x := x) rfl rfl rfl rfl rfl (fun m hm => ?_) (fun m hm => ?_) (fun _ _ => rfl) (fun _ _ => rfl)
      (fun _ _ => rfl) (fun _ _ => rfl) (fun m hm => ?_) (fun m hm => ?_) (put_mem _ _ _) ?_ ?_
    · simp only [St.say]; rw [put_mem_ne _ _ hm]
    · show (s.streams ++ [s.next]).count m = _
      rw [List.count_append]; simp [Ne.symm hm]
    · simp [dl, St.say, St.put, List.countP_cons, isDel]
    · simp [fr, St.say, St.put, List.countP_cons, isFreed]
    · exact {
        refs := by
          show 1 = (s.streams ++ [s.next]).count s.next + s.apps.count s.next + s.clis.count s.next +
            s.sends.count s.next + s.posted.count s.next + 0
          simp [own] at ho ⊢; omega
        pos := by show 0 < 1; omega
        lt := by show s.next < s.next + 1; omega
        one := by show (s.streams ++ [s.next]).count s.next ≤ 1; simp [hs0]
        oneA := by show s.apps.count s.next ≤ 1; omega
        running := fun _ => by show s.next ∈ s.streams ++ [s.next]; simp
        halted := fun hh => by simp [x] at hh
        app := fun hh => absurd hh hna
        acc := fun _ => by
          have := d0.1; simp only [dl, St.say, St.put] at *
          rw [List.countP_append, this]; simp [isDel]
        once := by
          have := d0.1; simp only [dl, St.say, St.put] at *
          rw [List.countP_append, this]; simp [isDel]
        fresh := by
          have := d0.2; simp only [fr, St.say, St.put] at *
          rw [List.countP_append, this]; simp [isFreed]
        conn := fun _ c' hh => by simp [x] at hh; subst hh; exact hc
        real := fun hh => by simp [x] at hh }
    · intro _ i y c' hy hvy hxc hyc hsid
      obtain rfl : c = c' := Option.some.inj hxc
      have l := (h.loc i).live hy
      have hns : y.stopped = false := by
        rcases hst : y.stopped with _ | _
        · rfl
        · have := l.halted hst; rw [hyc] at this; simp at this
      exact hno i (l.running hns) y hy ⟨hsid.symm, hyc⟩
  · intro v n y d hy hv hd
    simp only [St.say] at hy
    by_cases hn : n = s.next
    · rw [hn, put_mem] at hy
      obtain rfl := Option.some.inj hy
      simp at hv
    · rw [put_mem_ne _ _ hn] at hy
      exact v n y d hy hv hd
  · intro n hn
    obtain rfl := Option.some.inj hn
    exact ⟨x, put_mem _ _ _, rfl⟩

/-- Packets. -/
theorem handlePacket_ok (f : Flags) {s : St C L} {c : C} (bytes : List UInt8) (m : MemEnv) (r : RstEnv)
    (evs : List Ev) (h : Inv s) (hc : c ∈ s.conns) :
    Good s (s.handlePacket f c bytes m r evs) ∧
      (parseHeader bytes ≠ .ub → (∀ n x, s.mem n = some x → x.virt = true → x.conn ≠ some c) →
        (s.handlePacket f c bytes m r evs).ub = s.ub) := by
  unfold St.handlePacket
  rcases hp : parseHeader bytes with _ | _ | hd
  · exact ⟨.inl rfl, fun h => absurd rfl h⟩
  · exact ⟨.inr ⟨h, id⟩, fun _ _ => rfl⟩
  dsimp only
  rcases hf : find s.mem hd.streamId c s.streams with _ | _ | n
  · exact absurd hf (find_live fun n hn => h.listed hn)
  · dsimp only
    have hno := find_no hf
    have acc : ∀ a : St C L × Option Nat, a = (if hd.flags = f.syn then s.acceptStream c hd.streamId m else (s, none)) →
        Inv a.1 ∧ a.1.ub = s.ub ∧ a.1.conns = s.conns ∧ (VIn s → VIn a.1) ∧ ∀ n, a.2 = some n → ∃ x, a.1.mem n = some x ∧ x.virt = false := by
      intro a ha
      by_cases hsyn : hd.flags = f.syn
      · rw [if_pos hsyn] at ha
        exact accept_ok h hc hno ha.symm
      · rw [if_neg hsyn] at ha
        subst ha
        exact ⟨h, rfl, rfl, id, fun n hn => by simp at hn⟩
    generalize (if hd.flags = f.syn then s.acceptStream c hd.streamId m else (s, none)) = a at acc
    obtain ⟨a1, a2, a3, av, a4⟩ := acc a rfl
    rcases ho : a.2 with _ | n
    · dsimp only
      split
      · obtain ⟨-, b2, -⟩ := loc_sendRst (n := 0) (k := 0) (s := a.1) c hd.streamId r (by rw [a3]; exact hc) (a1.loc 0)
        have b1 := (loc_sendRst (n := 0) (k := 0) (s := a.1) c hd.streamId r (by rw [a3]; exact hc) (a1.loc 0)).1
        exact ⟨.inr ⟨a1.touch (touch_sendRst 0 _ _ _ _ (by rw [a3]; exact hc)) b1,
          fun v => (av v).touch (touch_sendRst 0 _ _ _ _ (by rw [a3]; exact hc))⟩, fun _ _ => by rw [b2, a2]⟩
      · exact ⟨.inr ⟨a1, av⟩, fun _ _ => a2⟩
    · dsimp only
      obtain ⟨x, hx, hv⟩ := a4 n ho
      obtain ⟨b1, b2⟩ := packetTo_ok evs a1 hx
      exact ⟨b1.imp_right fun ⟨i, v⟩ => ⟨i, fun w => v (av w)⟩, fun _ _ => by rw [b2 (.inl hv), a2]⟩
  · dsimp only
    obtain ⟨hn, x, hx, -, hxc⟩ := find_at hf
    obtain ⟨b1, b2⟩ := packetTo_ok evs h hx
    refine ⟨b1, fun _ hv => b2 (.inl ?_)⟩
    rcases hvx : x.virt with _ | _
    · rfl
    · exact absurd hxc (hv n x hx hvx)

end Verif.Stream.Manager
