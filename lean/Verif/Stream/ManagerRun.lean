import Verif.Stream.ManagerStep

/-!
# The stream manager — the invariant over histories
-/

namespace Verif.Stream.Manager

open Verif.Core.Packet Spec

variable {C L : Type} [DecidableEq C] [DecidableEq L]

/-! ### Virtual streams -/

omit [DecidableEq C] [DecidableEq L] in
theorem refDec_two {s : St C L} {n : Nat} {x : Strm C} (hx : s.mem n = some x) (h : x.refs = 2) :
    (s.refDec n).mem n = some { x with refs := 1 } := by
  rw [St.refDec, withS_some _ hx, if_neg (by omega), if_neg (by omega), put_mem]
  simp [h]

omit [DecidableEq C] [DecidableEq L] in
theorem refDec_one {s : St C L} {n : Nat} {x : Strm C} (hx : s.mem n = some x) (h : x.refs = 1) :
    (s.refDec n).mem n = none := by
  rw [St.refDec, withS_some _ hx, if_neg (by omega), if_pos h]
  simp [St.free, St.put, St.say]

/-- A virtual stream with two references does not survive. -/
theorem destroy_two {s : St C L} {n : Nat} {x : Strm C} (r : RstEnv) (hx : s.mem n = some x) (h : x.refs = 2)
    (hv : x.virt = true) : (s.destroy n r).mem n = none := by
  have e : ∃ y, (s.stop n r).mem n = some y ∧ y.refs = 2 := by
    have e : s.stop n r = if x.stopped then s else
      match x.conn with
      | none => s.put n (some { x with stopped := true, conn := none, sid := 0 })
      | some c => if !x.virt && r.want then
          (s.put n (some { x with stopped := true, conn := none, sid := 0 })).sendRst c x.sid r
          else s.put n (some { x with stopped := true, conn := none, sid := 0 }) := withS_some _ hx
    rw [e]
    by_cases hs : x.stopped = true
    · rw [if_pos hs]; exact ⟨x, hx, h⟩
    rw [if_neg hs]
    rcases hc : x.conn with _ | c
    · exact ⟨_, put_mem _ _ _, h⟩
    · dsimp only
      rw [if_neg (by simp [hv])]
      exact ⟨_, put_mem _ _ _, h⟩
  obtain ⟨y, hy, hr⟩ := e
  have h1 : ((s.stop n r).remove n).mem n = some { y with refs := 1 } :=
    refDec_two (s := { s.stop n r with streams := (s.stop n r).streams.filter (· ≠ n) }) hy hr
  exact refDec_one h1 rfl

/-- The state before a virtual stream is offered. -/
def virt1 (s : St C L) (c : C) : St C L :=
  St.put { s with current := s.current + 1, next := s.next + 1, streams := s.streams ++ [s.next] } s.next
    (some { sid := 0, conn := some c, virt := true, refs := 1, accepted := false, stopped := false,
            isSending := false })

/-- The state after a virtual stream was opened and kept. -/
def virt2 (s : St C L) (c : C) (l : L) (port : UInt32) : St C L :=
  { s with current := s.current + 1, next := s.next + 1, streams := s.streams ++ [s.next],
           apps := s.apps ++ [s.next], clis := s.clis ++ [s.next],
           out := s.out ++ [.delivered s.next l port, .opened s.next c port],
           mem := fun m => if m = s.next then
             some { sid := 0, conn := some c, virt := true, refs := 3, accepted := true, stopped := false,
                    isSending := false } else s.mem m }

theorem openVirtual_cases (s : St C L) (c : C) (port : UInt32) (alloc keep : Bool) :
    s.openVirtual c port alloc keep = s.say (.openFailed c) ∨
    (s.current < s.maxStreams ∧ alloc = true ∧
      ((∃ l, keep = true ∧ (l, port) ∈ s.listeners ∧
          s.listeners.find? (fun p => p.2 = port) = some (l, port) ∧
          s.openVirtual c port alloc keep = virt2 s c l port) ∨
        (¬ Taken s port keep ∧ (s.openVirtual c port alloc keep).ub = true))) := by
  unfold St.openVirtual
  by_cases h0 : s.current ≥ s.maxStreams ∨ alloc = false
  · rw [if_pos h0]; exact .inl rfl
  rw [if_neg h0]
  refine .inr ⟨by omega, by revert h0; cases alloc <;> simp, ?_⟩
  dsimp only
  let x0 : Strm C :=
    { sid := 0, conn := some c, virt := true, refs := 2, accepted := true, stopped := false, isSending := false }
  let s1 : St C L := virt1 s c
  let s2 : St C L := (s1.refInc s.next).put s.next (some x0)
  have m1 : s1.mem s.next = some _ := put_mem _ _ _
  have m1' : (s1.refInc s.next).mem s.next = some { x0 with accepted := false } := by
    rw [refInc_eq m1]; exact put_mem _ _ _
  have ls2 : s2.listeners = s.listeners := by simp only [s2, refInc_eq m1]; rfl
  have er : s1.ready s.next port keep ⟨false, false, false⟩ =
      (match s2.listeners.find? (fun p => p.2 = port) with
      | none => s2.destroy s.next ⟨false, false, false⟩
      | some (l, _) =>
        if keep then { s2.say (.delivered s.next l port) with apps := (s2.say (.delivered s.next l port)).apps ++ [s.next] }
        else (s2.say (.delivered s.next l port)).destroy s.next ⟨false, false, false⟩) := by
    rw [St.ready, withS_some _ m1']
    rfl
  have ub : ∀ t : St C L, t.mem s.next = none → ∀ o : Out C L,
      (St.say { t.refInc s.next with clis := (t.refInc s.next).clis ++ [s.next] } o).ub = true := by
    intro t ht o
    have : t.refInc s.next = t.bad := withS_none _ ht
    rw [this]; rfl
  show (∃ l, keep = true ∧ _ ∧ _ ∧ St.say { (s1.ready s.next port keep ⟨false, false, false⟩).refInc s.next with
      clis := ((s1.ready s.next port keep ⟨false, false, false⟩).refInc s.next).clis ++ [s.next] } _ = _) ∨ (_ ∧
    (St.say { (s1.ready s.next port keep ⟨false, false, false⟩).refInc s.next with
      clis := ((s1.ready s.next port keep ⟨false, false, false⟩).refInc s.next).clis ++ [s.next] } _).ub = true)
  rw [er, ls2]
  cases hf : s.listeners.find? (fun p => p.2 = port) with
  | none =>
    dsimp only
    refine .inr ⟨?_, ub _ (destroy_two _ (put_mem _ _ _) rfl rfl) _⟩
    rintro ⟨-, l, hl⟩
    rw [List.find?_eq_none] at hf
    simpa using hf _ hl
  | some lp =>
    obtain ⟨l, p⟩ := lp
    dsimp only
    have hp : p = port := by simpa using List.find?_some hf
    subst hp
    cases keep with
    | false =>
      rw [if_neg (by simp)]
      refine .inr ⟨?_, ub _ (destroy_two (x := x0) _ (by exact put_mem _ _ _) rfl rfl) _⟩
      rintro ⟨h, -⟩; simp at h
    | true =>
      rw [if_pos rfl]
      refine .inl ⟨l, rfl, List.mem_of_find?_eq_some hf, rfl, ?_⟩
      let s3 : St C L := { s2.say (.delivered s.next l p) with apps := (s2.say (.delivered s.next l p)).apps ++ [s.next] }
      have m3 : s3.mem s.next = some x0 := put_mem _ _ _
      show St.say { s3.refInc s.next with clis := (s3.refInc s.next).clis ++ [s.next] } (.opened s.next c p) = _
      rw [refInc_eq m3]
      have es2 : s2 = (s1.put s.next (some { x0 with accepted := false })).put s.next (some x0) := by
        show (s1.refInc s.next).put s.next (some x0) = _
        rw [refInc_eq m1]
      show St.say { St.put { s2.say (.delivered s.next l p) with
        apps := (s2.say (.delivered s.next l p)).apps ++ [s.next] } s.next (some { x0 with refs := x0.refs + 1 }) with
        clis := s2.clis ++ [s.next] } _ = _
      rw [es2]
      simp only [s1, virt1, virt2, St.say, St.put]
      congr 1
      · funext m
        by_cases hm : m = s.next
        · simp [hm, x0]
        · simp [hm]
      · simp

theorem inv_virt2 {s : St C L} {c : C} (l : L) (port : UInt32) (h : Inv s) (hc : c ∈ s.vconns) :
    Inv (virt2 s c l port) ∧ (VIn s → VIn (virt2 s c l port)) := by
  have hnone : s.mem s.next = none := by
    rcases hx : s.mem s.next with _ | y
    · rfl
    · have := ((h.loc _).live hx).lt; omega
  have d := (h.loc _).dead hnone
  have d0 := d.new (by omega)
  have ho := d.own
  have ha0 : s.apps.count s.next = 0 := by simp only [own] at ho; omega
  have hs0 : s.streams.count s.next = 0 := by simp only [own] at ho; omega
  constructor
  · refine h.create (x := { sid := 0, conn := some c, virt := true, refs := 3, accepted := true, stopped := false, isSending := false }) rfl rfl rfl rfl rfl (fun m hm => by simp [virt2, hm])
      (fun m hm => by simp [virt2, List.count_append, List.count_cons, Ne.symm hm])
      (fun m hm => by simp [virt2, List.count_append, List.count_cons, Ne.symm hm])
      (fun m hm => by simp [virt2, List.count_append, List.count_cons, Ne.symm hm]) (fun _ _ => rfl) (fun _ _ => rfl)
      (fun m hm => by simp [dl, virt2, List.countP_append, List.countP_cons, isDel, Ne.symm hm])
      (fun m hm => by simp [fr, virt2, List.countP_append, List.countP_cons, isFreed])
      (by simp [virt2]) ?_ (by intro hv; simp at hv)
    have hpo : s.posted.count s.next = 0 := by simp only [own] at ho; omega
    have hse : s.sends.count s.next = 0 := by simp only [own] at ho; omega
    exact {
      refs := by
        show 3 = (s.streams ++ [s.next]).count s.next + (s.apps ++ [s.next]).count s.next +
          (s.clis ++ [s.next]).count s.next + s.sends.count s.next + s.posted.count s.next + 0
        simp [own] at ho ⊢; omega
      pos := by show 0 < 3; omega
      lt := by show s.next < s.next + 1; omega
      one := by show (s.streams ++ [s.next]).count s.next ≤ 1; simp [hs0]
      oneA := by show (s.apps ++ [s.next]).count s.next ≤ 1; simp [ha0]
      running := fun _ => by simp [virt2]
      halted := fun hh => by simp at hh
      app := fun _ => ⟨by simp [virt2], rfl⟩
      acc := fun hh => by simp at hh
      once := by have := d0.1; simp [dl, virt2, List.countP_append, List.countP_cons, isDel] at *; exact this
      fresh := by have := d0.2; simp [fr, virt2, List.countP_append, List.countP_cons, isFreed] at *; exact this
      conn := fun hh => by simp at hh
      real := fun _ => ⟨List.count_eq_zero.1 hpo, List.count_eq_zero.1 hse⟩ }
  · intro v n x d hx hv hd
    show d ∈ s.vconns
    by_cases hn : n = s.next
    · simp only [virt2, hn, if_true] at hx
      obtain rfl := Option.some.inj hx
      obtain rfl := Option.some.inj hd
      exact hc
    · simp only [virt2, if_neg hn] at hx
      exact v n x d hx hv hd

theorem openVirtual_ok {s : St C L} {c : C} (port : UInt32) (alloc keep : Bool) (h : Inv s) (hc : c ∈ s.vconns) :
    Good s (s.openVirtual c port alloc keep) ∧
      (Taken s port keep → (s.openVirtual c port alloc keep).ub = s.ub) := by
  rcases openVirtual_cases s c port alloc keep with e | ⟨-, -, ⟨l, -, -, -, e⟩ | ⟨h1, h2⟩⟩
  · rw [e]; exact ⟨.inr ⟨h.say _ (fun _ => rfl) (fun _ => rfl), fun v => v⟩, fun _ => rfl⟩
  · rw [e]; exact ⟨.inr (inv_virt2 l port h hc), fun _ => rfl⟩
  · exact ⟨.inl h2, fun hh => absurd hh h1⟩

/-! ### Closing connections -/

theorem closeOne_ok {s : St C L} {n : Nat} (c : C) (h : Inv s) (hn : n ∈ s.streams) :
    Inv (St.closeOne c s n) ∧ (St.closeOne c s n).ub = s.ub ∧ Touch n s (St.closeOne c s n) ∧
      ∀ y, (St.closeOne c s n).mem n = some y → y.conn ≠ some c := by
  obtain ⟨x, hx⟩ := h.listed hn
  have l := (h.loc n).live hx
  let x1 : Strm C := { x with conn := none }
  let s0 : St C L := s.put n (some x1)
  let s1 : St C L := s0.refInc n
  have e : St.closeOne c s n = if x.conn = some c then
      (if x.stopped then s1 else
        if x.accepted then s1.stop n ⟨false, false, false⟩ else (s1.stop n ⟨false, false, false⟩).remove n).refDec n
      else s := withS_some _ hx
  rw [e]
  by_cases hc : ¬ x.conn = some c
  · rw [if_neg hc]
    refine ⟨h, rfl, Touch.refl n s, ?_⟩
    intro y hy
    rw [hx] at hy
    obtain rfl := Option.some.inj hy
    exact hc
  rw [Classical.not_not] at hc
  rw [if_pos hc]
  have hst : x.stopped = false := by
    rcases hst : x.stopped with _ | _
    · rfl
    · have := l.halted hst; rw [hc] at this; simp at this
  rw [if_neg (by simp [hst])]
  have m0 : s0.mem n = some x1 := put_mem _ _ _
  have l0 : Loc 0 s0 n := Loc.of_live m0 { l with halted := fun _ => rfl, conn := fun _ c' hh => by simp [x1] at hh }
  have t0 : Touch n s s0 := touch_put hx rfl (.inr rfl) id id
  have l1 : Loc 1 s1 n := loc_refInc l0 m0
  have m1 : s1.mem n = some { x1 with refs := x1.refs + 1 } := by
    simp only [s1, refInc_eq m0]; exact put_mem _ _ _
  have e1 : s1.streams = s.streams ∧ s1.apps = s.apps ∧ s1.ub = s.ub := by
    simp only [s1, refInc_eq m0]; exact ⟨rfl, rfl, rfl⟩
  have t1 : Touch n s s1 := t0.trans (touch_refInc m0)
  obtain ⟨a1, a2, a3, a4, a5, -, y, hy, hys, hya⟩ :=
    stop_ok ⟨false, false, false⟩ l1 m1 (by rw [e1.1]; exact hn)
  have fin : ∀ t : St C L, Loc 1 t n → t.ub = s.ub → Touch n s1 t →
      Inv (t.refDec n) ∧ (t.refDec n).ub = s.ub ∧ Touch n s (t.refDec n) ∧
        ∀ y, (t.refDec n).mem n = some y → y.conn ≠ some c := by
    intro t ht hu htt
    obtain ⟨b1, b2, b3, -⟩ := refDec_ok ht
    refine ⟨h.touch ((t1.trans htt).trans b3) b1, by rw [b2, hu], (t1.trans htt).trans b3, ?_⟩
    intro z hz
    obtain ⟨w, hw, -, hcs, -⟩ := (htt.trans b3).kept z hz
    rw [m1] at hw
    obtain rfl := Option.some.inj hw
    rcases hcs with ⟨p, -⟩ | p
    · rw [p]; simp [x1]
    · rw [p]; simp
  by_cases ha : x.accepted = true
  · rw [if_pos ha]
    exact fin _ a1 (by rw [a2, e1.2.2]) a3
  · rw [if_neg ha]
    have hna : n ∉ s.apps := fun hh => ha (l.app hh).2
    obtain ⟨b1, b2, b3, -⟩ := remove_ok a1 hy hys (by rw [a4, e1.1]; exact hn) (by rw [a5, e1.2.1]; exact hna)
    exact fin _ b1 (by rw [b2, a2, e1.2.2]) (a3.trans b3)

/-- What closing leaves alone. -/
structure Rest (s s' : St C L) : Prop where
  listeners : s'.listeners = s.listeners
  conns : s'.conns = s.conns
  vconns : s'.vconns = s.vconns
  ub : s'.ub = s.ub

theorem closeAll_ok (c : C) : ∀ (ns : List Nat) (s : St C L), Inv s → ns.Nodup → (∀ n ∈ ns, n ∈ s.streams) →
    Inv (ns.foldl (St.closeOne c) s) ∧ Rest s (ns.foldl (St.closeOne c) s) ∧
      (VIn s → VIn (ns.foldl (St.closeOne c) s)) ∧
      (∀ n, n ∉ ns → (ns.foldl (St.closeOne c) s).mem n = s.mem n) ∧
      ∀ n ∈ ns, ∀ y, (ns.foldl (St.closeOne c) s).mem n = some y → y.conn ≠ some c := by
  intro ns
  induction ns with
  | nil => intro s h _ _; exact ⟨h, ⟨rfl, rfl, rfl, rfl⟩, id, fun _ _ => rfl, fun n hn => by simp at hn⟩
  | cons m ns ih =>
    intro s h hnd hin
    obtain ⟨a1, a2, a3, a4⟩ := closeOne_ok c h (hin m (List.mem_cons_self ..))
    obtain ⟨hm, hnd⟩ := List.nodup_cons.1 hnd
    obtain ⟨i1, i2, iv, i3, i4⟩ := ih (St.closeOne c s m) a1 hnd (by
      intro n hn
      have hne : n ≠ m := fun e => hm (e ▸ hn)
      have := hin n (List.mem_cons_of_mem _ hn)
      rw [← List.count_pos_iff] at this ⊢
      rw [a3.streams n hne]; exact this)
    refine ⟨i1, ⟨by rw [List.foldl_cons, i2.listeners, a3.listeners], by rw [List.foldl_cons, i2.conns, a3.conns],
      by rw [List.foldl_cons, i2.vconns, a3.vconns], by rw [List.foldl_cons, i2.ub, a2]⟩,
      fun v => iv (v.touch a3), ?_, ?_⟩
    · intro n hn
      rw [List.mem_cons, not_or] at hn
      rw [List.foldl_cons, i3 n hn.2, a3.mem n hn.1]
    · intro n hn y hy
      rcases List.mem_cons.1 hn with rfl | hn
      · rw [List.foldl_cons, i3 n hm] at hy
        exact a4 y hy
      · exact i4 n hn y hy

omit [DecidableEq C] [DecidableEq L] in
theorem Inv.nodup {s : St C L} (h : Inv s) : s.streams.Nodup := by
  rw [List.nodup_iff_count]
  intro n
  rcases hx : s.mem n with _ | x
  · have := ((h.loc n).dead hx).own; simp only [own] at this; omega
  · exact ((h.loc n).live hx).one

/-! ### Every operation -/

/-- What the environment did with the streams of virtual connections before. -/
theorem step_ok (f : Flags) {s : St C L} (op : Op C L) (h : Inv s) (hu : s.ub = false) :
    ((step f s op).ub = true ∨ Inv (step f s op)) ∧
      (VIn s → Careful s op → (step f s op).ub = false ∧ VIn (step f s op)) := by
  have fin : ∀ s' : St C L, Good s s' → (Careful s op → VIn s → s'.ub = s.ub) →
      (s'.ub = true ∨ Inv s') ∧ (VIn s → Careful s op → s'.ub = false ∧ VIn s') := by
    intro s' hg hs
    refine ⟨hg.imp_right fun h => h.1, fun hv hc => ?_⟩
    have e : s'.ub = false := by rw [hs hc hv, hu]
    refine ⟨e, ?_⟩
    rcases hg with hg | hg
    · rw [e] at hg; simp at hg
    · exact hg.2 hv
  have idle : (s.ub = true ∨ Inv s) ∧ (VIn s → Careful s op → s.ub = false ∧ VIn s) :=
    fin s (.inr ⟨h, id⟩) (fun _ _ => rfl)
  have conn : ∀ n x c, s.mem n = some x → x.virt = false → x.conn = some c → c ∈ s.conns :=
    fun n x c hx hv => ((h.loc n).live hx).conn hv c
  unfold step
  rw [if_neg (by simp [hu])]
  cases op with
  | addListener l port rand =>
    dsimp only
    split
    · exact idle
    · obtain ⟨a, b⟩ := inv_addListener h l port rand
      refine fin _ (.inr ⟨a, ?_⟩) (fun _ _ => b)
      intro v
      unfold St.addListener St.listen
      repeat' split
      all_goals exact v
  | removeListener l =>
    refine fin _ (.inr ⟨?_, fun v => v⟩) (fun _ _ => rfl)
    refine h.same rfl rfl rfl rfl rfl rfl rfl rfl (fun _ => rfl) (fun _ => rfl) conn ?_ h.glob.disj
    exact List.Nodup.sublist (List.Sublist.map _ List.filter_sublist) h.glob.ports
  | newConn c =>
    dsimp only
    by_cases hc : c ∈ s.conns ∨ c ∈ s.vconns
    · rw [if_pos hc]; exact idle
    · rw [if_neg hc]
      rw [not_or] at hc
      refine fin _ (.inr ⟨?_, fun v => v⟩) (fun _ _ => rfl)
      refine h.same rfl rfl rfl rfl rfl rfl rfl rfl (fun _ => rfl) (fun _ => rfl)
        (fun n x d hx hv hd => List.mem_append_left _ (conn n x d hx hv hd)) h.glob.ports ?_
      intro d hd
      rcases List.mem_append.1 hd with hd | hd
      · exact h.glob.disj d hd
      · simp at hd; subst hd; exact hc.2
  | closeConn c =>
    dsimp only
    by_cases hc : c ∉ s.conns
    · rw [if_pos hc]; exact idle
    · rw [if_neg hc]
      obtain ⟨a1, a2, av, a3, a4⟩ := closeAll_ok c s.streams s h h.nodup (fun _ hn => hn)
      refine fin _ (.inr ⟨?_, fun v => av v⟩) (fun _ _ => a2.ub)
      refine a1.same rfl rfl rfl rfl rfl rfl rfl rfl (fun _ => rfl) (fun _ => rfl) ?_ a1.glob.ports ?_
      · intro n x d hx hv hd
        have hd0 : d ∈ (s.streams.foldl (St.closeOne c) s).conns := ((a1.loc n).live hx).conn hv d hd
        refine List.mem_filter.2 ⟨hd0, ?_⟩
        simp only [ne_eq, decide_eq_true_eq]
        rintro rfl
        by_cases hn : n ∈ s.streams
        · exact a4 n hn x hx hd
        · rw [a3 n hn] at hx
          have l := (h.loc n).live hx
          rcases hst : x.stopped with _ | _
          · exact hn (l.running hst)
          · have := l.halted hst; rw [hd] at this; simp at this
      · intro d hd
        exact a1.glob.disj d (List.mem_filter.1 hd).1
  | newVirtual c =>
    dsimp only
    by_cases hc : c ∈ s.conns ∨ c ∈ s.vconns
    · rw [if_pos hc]; exact idle
    · rw [if_neg hc]
      rw [not_or] at hc
      refine fin _ (.inr ⟨?_, fun v n x d hx hv hd => List.mem_append_left _ (v n x d hx hv hd)⟩) (fun _ _ => rfl)
      refine h.same rfl rfl rfl rfl rfl rfl rfl rfl (fun _ => rfl) (fun _ => rfl) conn h.glob.ports ?_
      intro d hd hd2
      rcases List.mem_append.1 hd2 with hd2 | hd2
      · exact h.glob.disj d hd hd2
      · simp at hd2; subst hd2; exact hc.1 hd
  | freeVirtual c =>
    refine ⟨.inr ?_, fun v hcare => ⟨hu, ?_⟩⟩
    · refine h.same rfl rfl rfl rfl rfl rfl rfl rfl (fun _ => rfl) (fun _ => rfl) conn h.glob.ports ?_
      intro d hd hd2
      exact h.glob.disj d hd (List.mem_filter.1 hd2).1
    · intro n x d hx hv hd
      refine List.mem_filter.2 ⟨v n x d hx hv hd, ?_⟩
      simp only [ne_eq, decide_eq_true_eq]
      rintro rfl
      exact hcare n x hx hd
  | packet c bytes m r evs =>
    dsimp only
    by_cases hc : c ∉ s.conns
    · rw [if_pos hc]; exact idle
    · rw [if_neg hc]
      rw [Classical.not_not] at hc
      obtain ⟨a, b⟩ := handlePacket_ok f bytes m r evs h hc
      refine fin _ a (fun hcare v => b hcare ?_)
      intro n x hx hv hd
      exact h.glob.disj c hc (v n x c hx hv hd)
  | openVirtual c port alloc keep =>
    dsimp only
    by_cases hc : c ∉ s.vconns
    · rw [if_pos hc]; exact idle
    · rw [if_neg hc]
      rw [Classical.not_not] at hc
      obtain ⟨a, b⟩ := openVirtual_ok port alloc keep h hc
      exact fin _ a (fun hcare _ => b hcare)
  | timer n evs =>
    dsimp only
    rcases hx : s.mem n with _ | x
    · exact idle
    · dsimp only
      by_cases hc : x.virt = true ∨ x.stopped = true
      · rw [if_pos hc]; exact idle
      · rw [if_neg hc]
        obtain ⟨i1, i2⟩ := events_ok evs (h.loc n) hx (by revert hc; cases x.virt <;> simp)
        refine fin _ ?_ (fun hcare _ => (i2 (.inr hcare)).1)
        exact i1.imp_right fun ⟨_, b, c⟩ => h.touch2 c b
  | sendDone n evs =>
    dsimp only
    by_cases hn : n ∉ s.sends
    · rw [if_pos hn]; exact idle
    rw [if_neg hn]
    rw [Classical.not_not] at hn
    have hpos := List.count_pos_iff.2 hn
    obtain ⟨x, hx⟩ := (h.loc n).some_of (by simp only [own]; omega)
    have l := (h.loc n).live hx
    have hv : x.virt = false := by
      rcases hv : x.virt with _ | _
      · rfl
      · exact absurd hn (l.real hv).2
    let s1 : St C L := { s with sends := s.sends.erase n }
    let x1 : Strm C := { x with isSending := false }
    let s2 : St C L := s1.put n (some x1)
    have e : s1.withS n (fun x => (if x.stopped then s1.put n (some { x with isSending := false }) else
        St.events evs (s1.put n (some { x with isSending := false })) n).refDec n) =
        (if x.stopped then s2 else St.events evs s2 n).refDec n := withS_some _ hx
    show ((s1.withS n (fun x => (if x.stopped then s1.put n (some { x with isSending := false }) else
        St.events evs (s1.put n (some { x with isSending := false })) n).refDec n)).ub = true ∨ _) ∧ _
    rw [e]
    have l2 : Loc 1 s2 n := by
      refine Loc.of_live (x := x1) (put_mem _ _ _) ?_
      exact { l with
        refs := by
          have := l.refs
          simp only [own] at this
          show x.refs = s.streams.count n + s.apps.count n + s.clis.count n + (s.sends.erase n).count n +
            s.posted.count n + 1
          rw [List.count_erase_self]; omega
        real := fun hh => by simp [x1, hv] at hh }
    have t2 : Touch n s s2 := by
      refine Touch.trans (b := s1) { Touch.refl n s with sends := fun m hm => ?_ } ?_
      · exact List.count_erase_of_ne hm
      · exact touch_put (s := s1) hx rfl (.inl ⟨rfl, rfl⟩) id id
    by_cases hst : x.stopped = true
    · rw [if_pos hst]
      obtain ⟨a, b, c, -⟩ := refDec_ok l2
      exact fin _ (.inr (h.touch2 (t2.trans c) a)) (fun _ _ => b)
    · rw [if_neg hst]
      obtain ⟨i1, i2⟩ := events_ok evs l2 (put_mem _ _ _) (by exact hv)
      have j1 := (i2 (.inl (by omega))).1
      rcases i1 with i1 | ⟨_, i2, i3⟩
      · rw [j1] at i1
        have : s.ub = true := i1
        rw [hu] at this; simp at this
      · obtain ⟨a, b, c, -⟩ := refDec_ok i2
        exact fin _ (.inr (h.touch2 ((t2.trans i3).trans c) a)) (fun _ _ => by rw [b, j1]; rfl)
  | run n evs =>
    dsimp only
    by_cases hn : n ∉ s.posted
    · rw [if_pos hn]; exact idle
    rw [if_neg hn]
    rw [Classical.not_not] at hn
    have hpos := List.count_pos_iff.2 hn
    obtain ⟨x, hx⟩ := (h.loc n).some_of (by simp only [own]; omega)
    have l := (h.loc n).live hx
    have hv : x.virt = false := by
      rcases hv : x.virt with _ | _
      · rfl
      · exact absurd hn (l.real hv).1
    let s1 : St C L := { s with posted := s.posted.erase n }
    have l1 : Loc 1 s1 n := by
      refine Loc.of_live (x := x) hx ?_
      exact { l with
        refs := by
          have := l.refs
          simp only [own] at this
          show x.refs = s.streams.count n + s.apps.count n + s.clis.count n + s.sends.count n +
            (s.posted.erase n).count n + 1
          rw [List.count_erase_self]; omega
        real := fun hh => by simp [hv] at hh }
    have t1 : Touch n s s1 := { Touch.refl n s with posted := fun m hm => List.count_erase_of_ne hm }
    obtain ⟨i1, i2⟩ := events_ok evs l1 hx hv
    have j1 := (i2 (.inl (by omega))).1
    rcases i1 with i1 | ⟨_, i2, i3⟩
    · rw [j1] at i1
      have : s.ub = true := i1
      rw [hu] at this; simp at this
    · obtain ⟨a, b, c, -⟩ := refDec_ok i2
      exact fin _ (.inr (h.touch2 ((t1.trans i3).trans c) a)) (fun _ _ => by rw [b, j1])
  | use n notify =>
    dsimp only
    by_cases hn : n ∉ s.apps
    · rw [if_pos hn]; exact idle
    rw [if_neg hn]
    rw [Classical.not_not] at hn
    have hpos := List.count_pos_iff.2 hn
    obtain ⟨x, hx⟩ := (h.loc n).some_of (by simp only [own]; omega)
    rw [withS_some _ hx]
    by_cases hc : (notify && !x.virt) = true
    · rw [if_pos hc]
      simp only [Bool.and_eq_true, Bool.not_eq_true'] at hc
      obtain ⟨a, b, c, -⟩ := deferred_ok (h.loc n) hx hc.2
      exact fin _ (.inr (h.touch2 c a)) (fun _ _ => b)
    · rw [if_neg hc]; exact idle
  | abort n r =>
    dsimp only
    by_cases hn : n ∉ s.apps
    · rw [if_pos hn]; exact idle
    rw [if_neg hn]
    rw [Classical.not_not] at hn
    have hpos := List.count_pos_iff.2 hn
    obtain ⟨x, hx⟩ := (h.loc n).some_of (by simp only [own]; omega)
    obtain ⟨a, b, c, -⟩ := stop_ok r (h.loc n) hx (((h.loc n).live hx).app hn).1
    exact fin _ (.inr (h.touch2 c a)) (fun _ _ => b)
  | destroy n r =>
    dsimp only
    by_cases hn : n ∉ s.apps
    · rw [if_pos hn]; exact idle
    rw [if_neg hn]
    rw [Classical.not_not] at hn
    have hpos := List.count_pos_iff.2 hn
    obtain ⟨x, hx⟩ := (h.loc n).some_of (by simp only [own]; omega)
    have l := (h.loc n).live hx
    have hin := (l.app hn).1
    have h1 := count_one hn l.oneA
    let s1 : St C L := { s with apps := s.apps.erase n }
    have hna : n ∉ s1.apps := by
      rw [← List.count_eq_zero]
      show (s.apps.erase n).count n = 0
      rw [List.count_erase_self]; omega
    have l1 : Loc 1 s1 n := by
      refine Loc.of_live (x := x) hx ?_
      exact { l with
        refs := by
          have := l.refs
          simp only [own] at this
          show x.refs = s.streams.count n + (s.apps.erase n).count n + s.clis.count n + s.sends.count n +
            s.posted.count n + 1
          rw [List.count_erase_self]; omega
        oneA := by show (s.apps.erase n).count n ≤ 1; rw [List.count_erase_self]; omega
        app := fun hh => absurd hh hna }
    have t1 : Touch n s s1 := { Touch.refl n s with apps := fun m hm => List.count_erase_of_ne hm }
    obtain ⟨a, b, c, -⟩ := destroy_ok r l1 hx hin hna
    exact fin _ (.inr (h.touch2 (t1.trans c) a)) (fun _ _ => b)
  | clientUse n =>
    dsimp only
    by_cases hn : n ∉ s.clis
    · rw [if_pos hn]; exact idle
    rw [if_neg hn]
    rw [Classical.not_not] at hn
    have hpos := List.count_pos_iff.2 hn
    obtain ⟨x, hx⟩ := (h.loc n).some_of (by simp only [own]; omega)
    rw [St.touch, withS_some _ hx]
    exact idle
  | clientFree n =>
    dsimp only
    by_cases hn : n ∉ s.clis
    · rw [if_pos hn]; exact idle
    rw [if_neg hn]
    rw [Classical.not_not] at hn
    have hpos := List.count_pos_iff.2 hn
    obtain ⟨x, hx⟩ := (h.loc n).some_of (by simp only [own]; omega)
    have l := (h.loc n).live hx
    let s1 : St C L := { s with clis := s.clis.erase n }
    have l1 : Loc 1 s1 n := by
      refine Loc.of_live (x := x) hx ?_
      exact { l with
        refs := by
          have := l.refs
          simp only [own] at this
          show x.refs = s.streams.count n + s.apps.count n + (s.clis.erase n).count n + s.sends.count n +
            s.posted.count n + 1
          rw [List.count_erase_self]; omega }
    have t1 : Touch n s s1 := { Touch.refl n s with clis := fun m hm => List.count_erase_of_ne hm }
    obtain ⟨a, b, c, -⟩ := refDec_ok l1
    exact fin _ (.inr (h.touch2 (t1.trans c) a)) (fun _ _ => b)
  | rstDone =>
    dsimp only
    split
    · exact fin _ (.inr ⟨h.same rfl rfl rfl rfl rfl rfl rfl rfl (fun _ => rfl) (fun _ => rfl) conn h.glob.ports
        h.glob.disj, fun v => v⟩) (fun _ _ => rfl)
    · exact idle
  | allocSeg ok =>
    dsimp only
    have hns : Good s (s.say .noSegment) := .inr ⟨h.say _ (fun _ => rfl) (fun _ => rfl), fun v => v⟩
    split
    · exact fin _ hns (fun _ _ => rfl)
    · split
      · exact fin _ hns (fun _ _ => rfl)
      · refine fin _ (.inr ⟨?_, fun v => v⟩) (fun _ _ => rfl)
        refine Inv.say (s := { s with segs := s.segs + 1 }) ?_ _ (fun _ => rfl) (fun _ => rfl)
        exact h.same rfl rfl rfl rfl rfl rfl rfl rfl (fun _ => rfl) (fun _ => rfl) conn h.glob.ports h.glob.disj
  | freeSeg =>
    dsimp only
    split
    · exact idle
    · exact fin _ (.inr ⟨h.same rfl rfl rfl rfl rfl rfl rfl rfl (fun _ => rfl) (fun _ => rfl) conn h.glob.ports
        h.glob.disj, fun v => v⟩) (fun _ _ => rfl)
  | limitStreams k =>
    exact fin _ (.inr ⟨h.same rfl rfl rfl rfl rfl rfl rfl rfl (fun _ => rfl) (fun _ => rfl) conn h.glob.ports
      h.glob.disj, fun v => v⟩) (fun _ _ => rfl)
  | limitSegs k =>
    exact fin _ (.inr ⟨h.same rfl rfl rfl rfl rfl rfl rfl rfl (fun _ => rfl) (fun _ => rfl) conn h.glob.ports
      h.glob.disj, fun v => v⟩) (fun _ _ => rfl)

/-! ### Histories -/

theorem run_snoc (f : Flags) (ops : List (Op C L)) (op : Op C L) : run f (ops ++ [op]) = step f (run f ops) op := by
  simp [run]

theorem step_stuck (f : Flags) {s : St C L} (op : Op C L) (h : s.ub = true) : step f s op = s := by
  simp [step, h]

theorem run_ind {motive : List (Op C L) → Prop} (nil : motive [])
    (snoc : ∀ ops op, motive ops → motive (ops ++ [op])) : ∀ ops, motive ops := by
  intro ops
  have : ∀ k (ops : List (Op C L)), ops.length = k → motive ops := by
    intro k
    induction k with
    | zero => intro ops h; rw [List.length_eq_zero_iff.1 h]; exact nil
    | succ k ih =>
      intro ops h
      rcases List.eq_nil_or_concat ops with rfl | ⟨pre, op, rfl⟩
      · exact nil
      · rw [List.concat_eq_append] at h ⊢
        exact snoc pre op (ih pre (by simp at h; exact h))
  exact this _ ops rfl

/-- Every state of every history satisfies the invariant, as long as nothing undefined has happened. -/
theorem run_inv (f : Flags) (ops : List (Op C L)) : (run f ops).ub = true ∨ Inv (run f ops) := by
  induction ops using run_ind with
  | nil => exact .inr inv_init
  | snoc ops op ih =>
    rw [run_snoc]
    rcases Bool.eq_false_or_eq_true (run f ops).ub with hu | hu
    · rw [step_stuck f op hu]; exact .inl hu
    · rcases ih with ih | ih
      · rw [hu] at ih; simp at ih
      · exact (step_ok f op ih hu).1

theorem run_inv' (f : Flags) (ops : List (Op C L)) (h : (run f ops).ub = false) : Inv (run f ops) := by
  rcases run_inv f ops with h1 | h1
  · rw [h] at h1; simp at h1
  · exact h1

theorem run_careful (f : Flags) (ops : List (Op C L)) (h : CarefulRun f ops) :
    (run f ops).ub = false ∧ VIn (run f ops) := by
  induction ops using run_ind with
  | nil => exact ⟨rfl, fun n x c hx => by simp [run, St.init] at hx⟩
  | snoc ops op ih =>
    obtain ⟨a, b⟩ := ih (fun pre o post e => h pre o (post ++ [op]) (by simp [e]))
    rw [run_snoc]
    exact (step_ok f op (run_inv' f ops a) a).2 b (h ops op [] rfl)

/-- Nothing undefined happened before. -/
theorem ub_prefix (f : Flags) {ops : List (Op C L)} {op : Op C L} (h : (run f (ops ++ [op])).ub = false) :
    (run f ops).ub = false := by
  rcases Bool.eq_false_or_eq_true (run f ops).ub with hu | hu
  · rw [run_snoc, step_stuck f op hu, hu] at h; simp at h
  · exact hu

end Verif.Stream.Manager
