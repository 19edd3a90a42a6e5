import Verif.Api.ConnFpStep

/-!
# Fingerprints of connections — property theorems (C139)
-/

namespace Verif.Api.ConnFp.Props

open Spec

theorem run_append (a b : List Call) : ∀ s, (Spec.run s (a ++ b)).1 = (Spec.run (Spec.run s a).1 b).1 := by
  induction a with
  | nil => intro s; rfl
  | cons c a ih => intro s; exact ih _

theorem outs_append (a b : List Call) : ∀ s, (Spec.run s (a ++ b)).2 = (Spec.run s a).2 ++ (Spec.run (Spec.run s a).1 b).2 := by
  induction a with
  | nil => intro s; rfl
  | cons c a ih => intro s; simp only [List.cons_append, Spec.run, ih, List.append_assoc]

theorem sum_zero (l : List Conn) (h : ∀ c ∈ l, weight c = 0) : (l.map weight).sum = 0 := by
  induction l with
  | nil => rfl
  | cons k ks ih => rw [List.map_cons, List.sum_cons, h k (by simp), ih fun c hc => h c (by simp [hc])]

theorem same_ref (l : List Conn) (hn : (l.map (·.ref)).Nodup) {c d : Conn} (hc : c ∈ l) (hd : d ∈ l) (h : c.ref = d.ref) : c = d := by
  induction l with
  | nil => cases hc
  | cons k ks ih =>
    rw [List.map_cons, List.nodup_cons] at hn
    rcases List.mem_cons.1 hc with rfl | hc' <;> rcases List.mem_cons.1 hd with rfl | hd'
    · rfl
    · exact absurd (h ▸ List.mem_map_of_mem hd') hn.1
    · exact absurd (h ▸ List.mem_map_of_mem hc') hn.1
    · exact ih hn.2 hc' hd'

/-- What the application observes is what the specification says, for all histories without the two kinds of calls for
which the library does not keep its word. Missing: those calls, see the theorems below. -/
theorem C139_observed_partial (cs : List Call) (h : Fine {} cs) (hg : Good {} cs) :
    (ConnFp.run {} cs).2.map see = (Spec.run {} cs).2 :=
  (run_spec cs {} {} inv_init rel_init h hg).2.2.1

/-- In these histories there is no undefined behaviour, and when no virtual connection is left all memory has been given
back but for the strings the application holds. -/
theorem C139_memory_partial (cs : List Call) (h : Fine {} cs) (hg : Good {} cs) :
    (ConnFp.run {} cs).1.bad = false ∧
    ((∀ ref, isVirt (Spec.run {} cs).1 ref = false) →
      (ConnFp.run {} cs).1.made + returned cs = (ConnFp.run {} cs).1.freed + handed (ConnFp.run {} cs).2) := by
  obtain ⟨hi, hr, _, hm⟩ := run_spec cs {} {} inv_init rel_init h hg
  refine ⟨hi.ok, fun hno => ?_⟩
  have hz : total (ConnFp.run {} cs).1 = 0 := by
    have : ∀ c ∈ (ConnFp.run {} cs).1.conns, weight c = 0 := by
      intro c hc
      have hsome : (find (ConnFp.run {} cs).1 c.ref).isSome := by
        unfold find
        rw [List.find?_isSome]
        exact ⟨c, hc, by simp⟩
      obtain ⟨d, hd⟩ := Option.isSome_iff_exists.1 hsome
      have hdc : d = c := by
        obtain ⟨h1, h2⟩ := find_mem hd
        exact same_ref _ hi.nodup h1 hc h2
      subst hdc
      have := hno d.ref
      rw [← isVirtual_eq hr, isVirtual, hd] at this
      simp only at this
      simp [weight, this]
    exact sum_zero _ this
  have h0 : total {} = 0 := rfl
  simp only [hz, h0] at hm
  omega

theorem keeps_step (s : S) (ref : Nat) (side : Side) (c : Call) (hl : ref ≤ s.last) (hv : isVirt s ref) (h : keeps ref side c) :
    ref ≤ (Spec.step s c).1.last ∧ isVirt (Spec.step s c).1 ref = true ∧
      Spec.side (Spec.step s c).1 ref side = Spec.side s ref side := by
  have hne : ref ≠ s.last + 1 := by omega
  cases c with
  | vnew m1 m2 m3 =>
    cases m1 <;> cases m2 <;> cases m3 <;>
      (refine ⟨by simp [Spec.step, S.set]; omega, by simpa [Spec.step, S.set, isVirt, hne] using hv,
        by cases side <;> simp [Spec.step, S.set, Spec.side, hne]⟩)
  | vfree r =>
    have h' : ref ≠ r := fun e => h e.symm
    refine ⟨hl, by simpa [Spec.step, S.set, isVirt, h'] using hv, by cases side <;> simp [Spec.step, S.set, Spec.side, h']⟩
  | vclose r f => exact ⟨hl, hv, rfl⟩
  | vset r sd text m1 m2 =>
    cases hw : s.who r with
    | none =>
      have : (Spec.step s (.vset r sd text m1 m2)).1 = s := by simp [Spec.step, hw]
      rw [this]; exact ⟨hl, hv, rfl⟩
    | some x =>
      simp only [Spec.step, hw]
      by_cases ha : accepted sd text = true
      · have key : ∀ v, ref ≤ (s.set r (some (x.set sd v))).last ∧ isVirt (s.set r (some (x.set sd v))) ref = true ∧
            Spec.side (s.set r (some (x.set sd v))) ref side = Spec.side s ref side := by
          intro v
          refine ⟨hl, ?_, ?_⟩
          · by_cases e : ref = r
            · subst e
              simp only [isVirt, hw] at hv
              cases sd <;> simp [isVirt, S.set, Rec.set, hv]
            · simpa [isVirt, S.set, e] using hv
          · by_cases e : ref = r
            · subst e
              have hsd : sd ≠ side := fun e => h ⟨rfl, e⟩
              cases sd <;> cases side <;> simp_all [Spec.side, S.set, Rec.set]
            · cases side <;> simp [Spec.side, S.set, e]
        cases m2
        · simpa [ha] using key none
        · simpa [ha] using key (some (canon text))
      · simp only [ha]; exact ⟨hl, hv, rfl⟩
  | isVirtual r => exact ⟨hl, hv, rfl⟩
  | isLocal r => exact ⟨hl, hv, rfl⟩
  | cliFp r a b => exact ⟨hl, hv, rfl⟩
  | devFp a b => exact ⟨hl, hv, rfl⟩
  | connDev r m =>
    have : (Spec.step s (.connDev r m)).1 = s := by
      simp only [Spec.step]; split
      · split <;> rfl
      · rfl
    rw [this]; exact ⟨hl, hv, rfl⟩
  | strFree => exact ⟨hl, hv, rfl⟩
  | key fp => exact ⟨hl, hv, by cases side <;> rfl⟩
  | client fp l =>
    refine ⟨by simp [Spec.step, S.set]; omega, by simpa [Spec.step, S.set, isVirt, hne] using hv,
      by cases side <;> simp [Spec.step, S.set, Spec.side, hne]⟩
  | channel r l =>
    cases hw : s.who r with
    | none =>
      have : (Spec.step s (.channel r l)).1 = s := by simp [Spec.step, hw]
      rw [this]; exact ⟨hl, hv, rfl⟩
    | some x =>
      simp only [Spec.step, hw]
      refine ⟨hl, ?_, ?_⟩
      · by_cases e : ref = r
        · subst e
          simp only [isVirt, hw] at hv
          simp [isVirt, S.set, hv]
        · simpa [isVirt, S.set, e] using hv
      · by_cases e : ref = r
        · subst e; cases side <;> simp [Spec.side, S.set, hw]
        · cases side <;> simp [Spec.side, S.set, e]
  | gone r =>
    have h' : ref ≠ r := fun e => h e.symm
    refine ⟨hl, by simpa [Spec.step, S.set, isVirt, h'] using hv, by cases side <;> simp [Spec.step, S.set, Spec.side, h']⟩

theorem keeps_run (ref : Nat) (side : Side) (cs : List Call) : ∀ s : S, ref ≤ s.last → isVirt s ref → (∀ c ∈ cs, keeps ref side c) →
    isVirt (Spec.run s cs).1 ref = true ∧ Spec.side (Spec.run s cs).1 ref side = Spec.side s ref side := by
  induction cs with
  | nil => intro s _ hv _; exact ⟨hv, rfl⟩
  | cons c cs ih =>
    intro s hl hv h
    obtain ⟨h1, h2, h3⟩ := keeps_step s ref side c hl hv (h c (by simp))
    obtain ⟨h4, h5⟩ := ih _ h1 h2 fun c hc => h c (by simp [hc])
    exact ⟨h4, by rw [← h3]; exact h5⟩

theorem known_below {cs : List Call} (h : Fine {} cs) (hg : Good {} cs) {ref : Nat} (hv : isVirt (Spec.run {} cs).1 ref) :
    ref ≤ (Spec.run {} cs).1.last := by
  obtain ⟨hi, hr, _⟩ := run_spec cs {} {} inv_init rel_init h hg
  obtain ⟨c, hc, _⟩ := isVirt_find hr hv
  obtain ⟨hm, rfl⟩ := find_mem hc
  rw [← hr.last]; exact hi.below c hm

theorem Fine.append {a b : List Call} : ∀ {s : S}, Fine s (a ++ b) → Fine s a ∧ Fine (Spec.run s a).1 b := by
  induction a with
  | nil => intro s h; exact ⟨trivial, h⟩
  | cons c a ih => intro s h; exact ⟨⟨h.1, (ih h.2).1⟩, (ih h.2).2⟩

theorem Good.append {a b : List Call} : ∀ {s : S}, Good s (a ++ b) → Good s a ∧ Good (Spec.run s a).1 b := by
  induction a with
  | nil => intro s h; exact ⟨trivial, h⟩
  | cons c a ih => intro s h; exact ⟨⟨h.1, (ih h.2).1⟩, (ih h.2).2⟩

/-- What was set is told: after a text was accepted for the client of a virtual connection, and until another one is set or
the connection is freed, it is told to whoever asks, in lower case. -/
theorem C139_told_partial (before more : List Call) (ref : Nat) (text : Bytes) (short : Bool)
    (ha : accepted .client text) (hm : ∀ c ∈ more, keeps ref .client c)
    (h : Fine {} (before ++ .vset ref .client text true true :: more ++ [.cliFp ref short true]))
    (hg : Good {} (before ++ .vset ref .client text true true :: more ++ [.cliFp ref short true])) :
    (((ConnFp.run {} (before ++ .vset ref .client text true true :: more ++ [.cliFp ref short true])).2.map see).getLast? =
      some (.text .ok (some ((canon text).take (2 * shown short))))) := by
  rw [C139_observed_partial _ h hg]
  obtain ⟨h1, _⟩ := Fine.append h
  obtain ⟨g1, _⟩ := Good.append hg
  obtain ⟨h2, h3⟩ := Fine.append h1
  obtain ⟨g2, _⟩ := Good.append g1
  have hv := h3.1.1
  have hl := known_below h2 g2 hv
  have hset : Spec.step (Spec.run {} before).1 (.vset ref .client text true true) =
      ((Spec.run {} before).1.set ref (((Spec.run {} before).1.who ref).map fun r => r.set .client (some (canon text))), [.ret .ok]) := by
    cases hw : (Spec.run {} before).1.who ref with
    | none => simp [isVirt, hw] at hv
    | some r => simp [Spec.step, hw, ha]
  have hside : Spec.side (Spec.step (Spec.run {} before).1 (.vset ref .client text true true)).1 ref .client = some (canon text) := by
    rw [hset]
    cases hw : (Spec.run {} before).1.who ref with
    | none => simp [isVirt, hw] at hv
    | some r => simp [Spec.side, S.set, Rec.set]
  have hv' : isVirt (Spec.step (Spec.run {} before).1 (.vset ref .client text true true)).1 ref = true := by
    rw [hset]
    cases hw : (Spec.run {} before).1.who ref with
    | none => simp [isVirt, hw] at hv
    | some r => simp only [isVirt, hw] at hv; simp [isVirt, S.set, Rec.set, hv]
  have hl' : ref ≤ (Spec.step (Spec.run {} before).1 (.vset ref .client text true true)).1.last := by rw [hset]; exact hl
  obtain ⟨_, hk⟩ := keeps_run ref .client more _ hl' hv' hm
  rw [outs_append, run_append]
  simp only [Spec.run, List.append_nil]
  have : (Spec.side (Spec.run (Spec.step (Spec.run {} before).1 (.vset ref .client text true true)).1 more).1 ref .client) =
      some (canon text) := by rw [hk, hside]
  simp only [Spec.side] at this
  simp only [Spec.step] at this ⊢
  rw [this]
  simp [tell]

/-- A reference which is not in use any more. -/
theorem gone_step (s : S) (ref : Nat) (c : Call) (hl : ref ≤ s.last) (hn : s.who ref = none) :
    ref ≤ (Spec.step s c).1.last ∧ (Spec.step s c).1.who ref = none := by
  have hne : ref ≠ s.last + 1 := by omega
  cases c with
  | vnew m1 m2 m3 =>
    cases m1 <;> cases m2 <;> cases m3 <;> simp [Spec.step, S.set, hne, hn] <;> omega
  | vset r sd text m1 m2 =>
    cases hw : s.who r with
    | none => simp only [Spec.step, hw]; exact ⟨hl, hn⟩
    | some x =>
      have hr : ref ≠ r := by rintro rfl; rw [hn] at hw; cases hw
      cases m2 <;> by_cases ha : accepted sd text = true <;> simp [Spec.step, hw, ha, S.set, hr, hn, hl]
  | channel r l =>
    cases hw : s.who r with
    | none => simp only [Spec.step, hw]; exact ⟨hl, hn⟩
    | some x =>
      have hr : ref ≠ r := by rintro rfl; rw [hn] at hw; cases hw
      simp [Spec.step, hw, S.set, hr, hn, hl]
  | client fp l => simp [Spec.step, S.set, hne, hn]; omega
  | vfree r => simp [Spec.step, S.set, hn, hl]
  | gone r => simp [Spec.step, S.set, hn, hl]
  | connDev r m =>
    have : (Spec.step s (.connDev r m)).1 = s := by
      simp only [Spec.step]; split
      · split <;> rfl
      · rfl
    rw [this]; exact ⟨hl, hn⟩
  | vclose r f => exact ⟨hl, hn⟩
  | isVirtual r => exact ⟨hl, hn⟩
  | isLocal r => exact ⟨hl, hn⟩
  | cliFp r a b => exact ⟨hl, hn⟩
  | devFp a b => exact ⟨hl, hn⟩
  | strFree => exact ⟨hl, hn⟩
  | key fp => exact ⟨hl, hn⟩

theorem gone_run (ref : Nat) (cs : List Call) : ∀ s : S, ref ≤ s.last → s.who ref = none → (Spec.run s cs).1.who ref = none := by
  induction cs with
  | nil => intro s _ h; exact h
  | cons c cs ih =>
    intro s hl hn
    obtain ⟨h1, h2⟩ := gone_step s ref c hl hn
    exact ih _ h1 h2

/-- A connection which was freed is never known again: its reference is not given to another one. -/
theorem C139_freed_partial (before more : List Call) (ref : Nat) (short mem : Bool)
    (h : Fine {} (before ++ .vfree ref :: more ++ [.isVirtual ref, .cliFp ref short mem]))
    (hg : Good {} (before ++ .vfree ref :: more ++ [.isVirtual ref, .cliFp ref short mem])) :
    ∃ os, (ConnFp.run {} (before ++ .vfree ref :: more ++ [.isVirtual ref, .cliFp ref short mem])).2.map see =
      os ++ [.bool false, .text .invalidConnection none] := by
  rw [C139_observed_partial _ h hg]
  obtain ⟨h1, _⟩ := Fine.append h
  obtain ⟨g1, _⟩ := Good.append hg
  obtain ⟨h2, h3⟩ := Fine.append h1
  obtain ⟨g2, _⟩ := Good.append g1
  have hl := known_below h2 g2 h3.1
  have hn := gone_run ref more (Spec.step (Spec.run {} before).1 (.vfree ref)).1 hl (by simp [Spec.step, S.set])
  rw [outs_append, run_append]
  refine ⟨_, congrArg _ ?_⟩
  simp only [Spec.run, List.append_nil]
  simp only [Spec.step] at hn ⊢
  simp [isVirt, hn, tell]

/-- The fingerprint that was set for the device at the end of a virtual connection: the block which is handed out holds its
digits. Missing: that it ends with a zero. -/
theorem C139_device_partial (cs : List Call) (h : Fine {} cs) (hg : Good {} cs) (ref : Nat) (r : Rec) (t : Bytes)
    (hr : (Spec.run {} cs).1.who ref = some r) (hv : r.virt = true) (ht : r.dev = some t) :
    (ConnFp.step (ConnFp.run {} cs).1 (.connDev ref true)).2 = [.str .ok (some t)] ∧ t.length = 64 := by
  obtain ⟨hi, hrel, _⟩ := run_spec cs {} {} inv_init rel_init h hg
  obtain ⟨c, hc, rfl⟩ := hrel.find hr
  have hvirt : c.virt = true := hv
  simp only [view, Option.map_eq_some_iff] at ht
  obtain ⟨fp, hfp, rfl⟩ := ht
  have hl := hi.fps c (find_mem hc).1 fp (.inr hfp)
  have hlen : (spell fp).length = 64 := by rw [spell_length, hl]
  refine ⟨?_, hlen⟩
  have htake : fp.take 32 = fp := List.take_of_length_le (by omega)
  have hw : write (List.replicate 64 0) 0 (spell fp) = some (spell fp) := by
    unfold write
    rw [if_pos (by rw [hlen, List.length_replicate]; omega)]
    rw [List.drop_of_length_le (by rw [List.length_replicate, hlen]; omega)]
    simp
  have hiv : isVirtual (ConnFp.run {} cs).1 ref = true := by simp [isVirtual, hc, hvirt]
  simp only [ConnFp.step, connDev, hiv, if_true, hc, hfp, dataToHex_spell, htake, hw]

/-- Violated: the string does not end in its block, whatever was set. Whoever reads it reads beyond the block. -/
theorem C139_terminator_violated (cs : List Call) (h : Fine {} cs) (hg : Good {} cs) (ref : Nat) (r : Rec) (t : Bytes)
    (hr : (Spec.run {} cs).1.who ref = some r) (hv : r.virt = true) (ht : r.dev = some t) :
    ∃ block, (ConnFp.step (ConnFp.run {} cs).1 (.connDev ref true)).2 = [.str .ok (some block)] ∧ cstring block = none := by
  refine ⟨t, (C139_device_partial cs h hg ref r t hr hv ht).1, ?_⟩
  obtain ⟨_, hrel, _⟩ := run_spec cs {} {} inv_init rel_init h hg
  obtain ⟨c, _, rfl⟩ := hrel.find hr
  simp only [view, Option.map_eq_some_iff] at ht
  obtain ⟨fp, _, rfl⟩ := ht
  exact cstring_none _ (spell_nonzero fp)

/-- Violated: the future given to `nabto_device_virtual_connection_close` is never resolved, whatever happens. -/
theorem C139_close_violated (cs : List Call) : ∀ w f e, .resolve f e ∉ (ConnFp.run w cs).2 := by
  induction cs with
  | nil => simp [ConnFp.run]
  | cons c cs ih =>
    intro w f e
    simp only [ConnFp.run, List.mem_append, not_or]
    refine ⟨?_, ih _ f e⟩
    have hdev : ∀ n m, .resolve f e ∉ (devFp w n m).2 := by intro n m; unfold devFp; split <;> simp
    cases c with
    | vnew m1 m2 m3 => cases m1 <;> cases m2 <;> cases m3 <;> simp [ConnFp.step, vnew, destroy]
    | vfree r => simp only [ConnFp.step, vfree]; split <;> (try split) <;> simp [destroy]
    | vclose r g => simp [ConnFp.step, vclose]
    | vset r s t m1 m2 =>
      simp only [ConnFp.step, vset]
      split
      · simp
      · split
        · simp
        · split
          · simp
          · split
            · split <;> simp
            · split <;> simp
    | isVirtual r => simp [ConnFp.step]
    | isLocal r => simp [ConnFp.step]
    | cliFp r a b => simp only [ConnFp.step, cliFp]; split <;> (try split) <;> simp
    | devFp a b => exact hdev _ _
    | connDev r m =>
      simp only [ConnFp.step, connDev]
      split
      · split
        · simp
        · split
          · simp
          · split
            · split <;> simp
            · simp
      · exact hdev _ _
    | strFree => simp [ConnFp.step]
    | key fp => simp [ConnFp.step]
    | client fp l => simp [ConnFp.step]
    | channel r l => simp only [ConnFp.step]; split <;> simp
    | gone r => simp [ConnFp.step]

/-- A text of 64 digits. -/
def aText : Bytes := List.replicate 64 65

/-- Violated: setting a fingerprint while memory is short loses the one that was set before, although the call fails. -/
theorem C139_lost_violated :
    let before := [.vnew true true true, .vset 1 .client aText true true]
    (ConnFp.run {} (before ++ [.vset 1 .client aText true false, .cliFp 1 false true])).2.map see =
      [.event 1 false, .made (some 1), .ret .ok, .ret .outOfMemory, .text .invalidConnection none] := by
  decide +kernel

/-- Violated: the buffer for the text is not checked. -/
theorem C139_buffer_violated (ref : Nat) (s : Side) (text : Bytes) (m2 : Bool) (w : W) (c : Conn) (hc : find w ref = some c)
    (hv : c.virt = true) (hl : text.length = 64) : (ConnFp.step w (.vset ref s text false m2)).1.bad = true := by
  simp [ConnFp.step, vset, hc, hv, hl, fault]

/-- Violated: success without a string when memory is short. -/
theorem C139_null_violated (w : W) (ref : Nat) (c : Conn) (fp : Bytes) (hc : find w ref = some c) (hf : c.cfp = some fp) (short : Bool) :
    (ConnFp.step w (.cliFp ref short false)).2 = [.str .ok none] := by
  simp [ConnFp.step, cliFp, hc, hf, toHex]

/-! ### A concrete case -/

/-- A virtual connection and a client. -/
def sample : List Call :=
  [.key (List.replicate 32 0xab), .vnew true true true, .vset 1 .client aText true true, .vset 1 .device [48] true true,
    .client (some (List.replicate 32 0x0f)) true, .isVirtual 1, .isVirtual 2, .isLocal 1, .isLocal 2, .cliFp 1 true true,
    .cliFp 2 true true, .connDev 2 true, .connDev 1 true, .channel 2 false, .isLocal 2, .vnew true true false, .cliFp 3 false true,
    .gone 2, .vfree 1, .isVirtual 1, .strFree, .strFree, .strFree]

theorem sample_fine : Fine {} sample ∧ Good {} sample := by
  have h0 : (aText.length < 2 ^ 64 - 1) := by decide +kernel
  have ha : accepted .client aText = true := by decide +kernel
  have hb : accepted .device [48] = false := by decide +kernel
  constructor
  · simp [sample, Fine, fine, Spec.step, S.set, isVirt, h0, ha, hb, Rec.set, tell]
  · simp [sample, Good, good, Spec.step, S.set, ha, hb, Rec.set, tell]

example : (Spec.run {} sample).2 =
    [.event 1 false, .made (some 1), .ret .ok, .ret .invalidArgument, .event 2 false, .bool true, .bool false, .bool false, .bool true,
      .text .ok (some (List.replicate 32 97)), .text .ok (some (List.replicate 16 [48, 102]).flatten),
      .text .ok (some (List.replicate 32 [97, 98]).flatten), .text .invalidConnection none, .bool false, .event 3 false, .event 3 true,
      .made none, .text .invalidConnection none, .event 2 true, .event 1 true, .bool false] := by decide +kernel

example : (ConnFp.run {} sample).1.made = (ConnFp.run {} sample).1.freed := by decide +kernel

example : accepted .client aText = true ∧ canon aText = List.replicate 64 97 ∧ accepted .client (aText.drop 1) = true ∧
    accepted .device (aText.drop 1) = false := by decide +kernel

example : ∃ r, (Spec.run {} [.vnew true true true, .vset 1 .device aText true true]).1.who 1 = some r ∧ r.virt = true ∧
    r.dev = some (List.replicate 64 97) := ⟨_, rfl, rfl, by decide +kernel⟩

end Verif.Api.ConnFp.Props
