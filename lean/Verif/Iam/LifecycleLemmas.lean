import Verif.Iam.LifecycleSpec

/-!
# Starting and ending the IAM module: lemmas
-/

namespace Verif.Iam.Lifecycle

open Spec

theorem mem_stopOrder (h : Handler) : h ∈ stopOrder := by cases h <;> decide
theorem mem_deinitOrder (h : Handler) : h ∈ deinitOrder := by cases h <;> decide
theorem mem_initOrder (h : Handler) : h ∈ initOrder := by cases h <;> decide
theorem nodup_stopOrder : stopOrder.Nodup := by decide +kernel
theorem nodup_deinitOrder : deinitOrder.Nodup := by decide +kernel
theorem nodup_initOrder : initOrder.Nodup := by decide +kernel

theorem nodup_coap {l : List Handler} (h : l.Nodup) : (l.map Svc.coap).Nodup := by
  induction l with
  | nil => exact List.nodup_nil
  | cons a l ih =>
    rw [List.nodup_cons] at h
    rw [List.map_cons, List.nodup_cons]
    refine ⟨?_, ih h.2⟩
    intro hm
    obtain ⟨b, hb, e⟩ := List.mem_map.1 hm
    cases e
    exact h.1 hb

theorem nodup_three : [Svc.auth, .pake, .events].Nodup := by decide

theorem mem_coap {l : List Handler} {h : Handler} : Svc.coap h ∈ l.map Svc.coap ↔ h ∈ l := by
  constructor
  · intro hm
    obtain ⟨b, hb, e⟩ := List.mem_map.1 hm
    cases e
    exact hb
  · exact fun hm => List.mem_map_of_mem hm

/-! ## Services one after another -/

theorem acts_frame (f : Sub → Sub × List Bad) (l : List Svc) : ∀ w : W,
    (W.acts f l w).mutex = w.mutex ∧ (W.acts f l w).state = w.state ∧ (W.acts f l w).conf = w.conf ∧
    (W.acts f l w).sets = w.sets := by
  induction l with
  | nil => intro w; exact ⟨rfl, rfl, rfl, rfl⟩
  | cons x l ih => intro w; exact ih (w.act x f)

theorem acts_subs (f : Sub → Sub × List Bad) (l : List Svc) : ∀ (w : W), l.Nodup → ∀ x,
    (W.acts f l w).subs x = if x ∈ l then (f (w.subs x)).1 else w.subs x := by
  induction l with
  | nil => intro w _ x; simp [W.acts]
  | cons y l ih =>
    intro w hn x
    rw [List.nodup_cons] at hn
    unfold W.acts
    rw [ih (w.act y f) hn.2 x]
    have hsub : (w.act y f).subs x = if x = y then (f (w.subs y)).1 else w.subs x := rfl
    rw [hsub]
    by_cases hxy : x = y
    · subst hxy
      simp [hn.1]
    · by_cases hxl : x ∈ l <;> simp [hxy, hxl]

theorem acts_bad (f : Sub → Sub × List Bad) (l : List Svc) : ∀ (w : W), l.Nodup →
    (∀ x ∈ l, (f (w.subs x)).2 = []) → (W.acts f l w).bad = w.bad := by
  induction l with
  | nil => intro w _ _; rfl
  | cons y l ih =>
    intro w hn hb
    rw [List.nodup_cons] at hn
    unfold W.acts
    rw [ih (w.act y f) hn.2]
    · show w.bad ++ (f (w.subs y)).2 = w.bad
      rw [hb y List.mem_cons_self, List.append_nil]
    · intro x hx
      have hxy : x ≠ y := fun e => hn.1 (e ▸ hx)
      have hsub : (w.act y f).subs x = w.subs x := if_neg hxy
      rw [hsub]
      exact hb x (List.mem_cons_of_mem _ hx)

/-! ## One service -/

/-- What holds of each service at each time between `nm_iam_init` and `nm_iam_deinit`. -/
structure P (s : Sub) : Prop where
  lp : s.lLive = true → s.lPtr = true
  fp : s.fLive = true → s.fPtr = true
  ini : s.inited = true → s.lLive = true ∧ s.fLive = true ∧ s.device = true
  off : s.inited = false → s.fut = .idle ∧ s.stopped = false
  stp : s.stopped = true → s.fut ≠ .armed
  dev : s.device = true → (s.lPtr = true → s.lLive = true) ∧ (s.fPtr = true → s.fLive = true)
  nodev : s.device = false → s.fLive = false

/-- The three services which are not CoAP handlers. -/
structure E (s : Sub) : Prop extends P s where
  zero : s.device = false → s.lPtr = false ∧ s.fPtr = false

/-- The CoAP handlers. -/
structure C (s : Sub) : Prop extends P s where
  ptr : s.device = true → s.lPtr = true
  leak : s.device = false → s.lLive = true → s.fPtr = false

/-- The service is not used any more. -/
def Quiet (s : Sub) : Prop := s.inited = true → s.stopped = true ∧ s.fut = .idle

/-- What does not change until `nm_iam_deinit`. -/
structure Same (s t : Sub) : Prop where
  device : t.device = s.device
  lPtr : t.lPtr = s.lPtr
  lLive : t.lLive = s.lLive
  fPtr : t.fPtr = s.fPtr
  fLive : t.fLive = s.fLive
  inited : t.inited = s.inited
  stopped : s.stopped = true → t.stopped = true
  quiet : Quiet s → Quiet t

theorem Same.refl (s : Sub) : Same s s := ⟨rfl, rfl, rfl, rfl, rfl, rfl, id, id⟩

theorem Same.trans {a b c : Sub} (h : Same a b) (g : Same b c) : Same a c :=
  ⟨g.device.trans h.device, g.lPtr.trans h.lPtr, g.lLive.trans h.lLive, g.fPtr.trans h.fPtr, g.fLive.trans h.fLive,
    g.inited.trans h.inited, fun x => g.stopped (h.stopped x), fun x => g.quiet (h.quiet x)⟩

theorem listenerStop_same {s : Sub} (hp : P s) : Same s (listenerStop s).1 ∧ P (listenerStop s).1 := by
  obtain ⟨device, lPtr, lLive, fPtr, fLive, inited, stopped, fut⟩ := s
  obtain ⟨lp, fp, ini, off, stp, dev, nodev⟩ := hp
  dsimp only at *
  unfold listenerStop
  dsimp only
  split
  · exact ⟨Same.refl _, ⟨lp, fp, ini, off, stp, dev, nodev⟩⟩
  · split
    · exact ⟨Same.refl _, ⟨lp, fp, ini, off, stp, dev, nodev⟩⟩
    · split
      · exact ⟨Same.refl _, ⟨lp, fp, ini, off, stp, dev, nodev⟩⟩
      · split
        · exact ⟨Same.refl _, ⟨lp, fp, ini, off, stp, dev, nodev⟩⟩
        · rename_i h1 h2 h3 h4
          refine ⟨⟨rfl, rfl, rfl, rfl, rfl, rfl, fun h => absurd h h4, ?_⟩, ⟨lp, fp, ini, ?_, ?_, dev, nodev⟩⟩
          · intro hq hi
            obtain ⟨q1, q2⟩ := hq hi
            exact absurd q1 h4
          · intro hi
            dsimp only at hi
            rw [hi] at h3
            exact absurd rfl h3
          · intro _
            dsimp only
            split
            · simp
            · assumption

/-- A listener which is there can be stopped, and then it takes no requests. -/
theorem listenerStop_ok {s : Sub} (hp : P s) (h1 : s.lPtr = true) (h2 : s.lLive = true) :
    (listenerStop s).2 = [] ∧ Ended (listenerStop s).1 := by
  unfold listenerStop Ended
  rw [h1, h2]
  cases hi : s.inited with
  | false => exact ⟨rfl, fun h => by simp [hi] at h⟩
  | true =>
    cases hs : s.stopped with
    | true => exact ⟨rfl, fun _ => ⟨by simpa using hs, by simpa using hp.stp hs⟩⟩
    | false =>
      refine ⟨rfl, fun _ => ⟨rfl, ?_⟩⟩
      simp only [Bool.not_true, Bool.false_eq_true, if_false]
      split
      · simp
      · assumption

/-- What is not used any more is freed. -/
theorem free_quiet {s : Sub} (hp : P s) (hd : s.device = true) (hq : Quiet s) :
    (seq futureFree listenerFree s).2 = [] ∧ (seq futureFree listenerFree s).1.lLive = false ∧
    (seq futureFree listenerFree s).1.fLive = false := by
  obtain ⟨device, lPtr, lLive, fPtr, fLive, inited, stopped, fut⟩ := s
  obtain ⟨lp, fp, ini, off, stp, dev, nodev⟩ := hp
  dsimp only [Quiet] at *
  obtain ⟨d1, d2⟩ := dev hd
  have hf : fut = .idle := by
    cases inited with
    | true => exact (hq rfl).2
    | false => exact (off rfl).1
  have hs : inited = true → stopped = true := fun h => (hq h).1
  subst hf
  clear dev nodev stp off ini hq hd
  have hl : lPtr = lLive := by
    cases lPtr with
    | true => exact (d1 rfl).symm
    | false =>
      cases lLive with
      | false => rfl
      | true => exact lp rfl
  have hfl : fPtr = fLive := by
    cases fPtr with
    | true => exact (d2 rfl).symm
    | false =>
      cases fLive with
      | false => rfl
      | true => exact fp rfl
  subst hl hfl
  cases inited with
  | false => cases lPtr <;> cases fPtr <;> cases stopped <;> exact ⟨rfl, rfl, rfl⟩
  | true =>
    rw [hs rfl]
    cases lPtr <;> cases fPtr <;> exact ⟨rfl, rfl, rfl⟩

theorem listenerStop_quiet {s : Sub} (hq : Quiet s) (h1 : s.lPtr = true) (h2 : s.lLive = true) :
    listenerStop s = (s, []) := by
  unfold listenerStop
  rw [h1, h2]
  cases hi : s.inited with
  | false => rfl
  | true =>
    rw [(hq hi).1]
    rfl

theorem eventsDeinit_ok {s : Sub} (he : E s) (hq : Quiet s) :
    (eventsDeinit s).2 = [] ∧ (eventsDeinit s).1.lLive = false ∧ (eventsDeinit s).1.fLive = false := by
  cases hd : s.device with
  | true => exact free_quiet he.toP hd hq
  | false =>
    obtain ⟨h1, h2⟩ := he.zero hd
    have hl : s.lLive = false := by
      cases h : s.lLive with
      | false => rfl
      | true => rw [he.lp h] at h1; cases h1
    have hf := he.nodev hd
    unfold eventsDeinit seq futureFree listenerFree
    simp [h1, h2, hl, hf]

theorem coapDeinit_ok {s : Sub} (hc : C s) (hq : Quiet s) :
    (coapDeinit s).2 = [] ∧ (coapDeinit s).1.fLive = false ∧
    (coapDeinit s).1.lLive = (!s.device && s.lLive) := by
  unfold coapDeinit
  cases hd : s.device with
  | false => exact ⟨rfl, hc.nodev hd, by simp⟩
  | true =>
    have h1 := hc.ptr hd
    have h2 := (hc.dev hd).1 h1
    obtain ⟨f1, f2, f3⟩ := free_quiet hc.toP hd hq
    have hs := listenerStop_quiet hq h1 h2
    have : seq listenerStop (seq futureFree listenerFree) s = seq futureFree listenerFree s := by
      show ((seq futureFree listenerFree (listenerStop s).1).1, (listenerStop s).2 ++ _) = _
      rw [hs]
      rfl
    simp only [if_true, this, f1, f2, f3, Bool.not_true, Bool.false_and]
    exact ⟨trivial, trivial, trivial⟩

/-! ## Initialisation -/

theorem eventsInit_ok (s : Sub) (mem : List Bool) (hs : s = {}) :
    E (eventsInit s mem).2.1 ∧ ((eventsInit s mem).1 = true → Listens (eventsInit s mem).2.1) ∧
    ((eventsInit s mem).2.1.device = true) := by
  subst hs
  unfold eventsInit
  dsimp only
  cases h1 : (ask mem).1 <;> cases h2 : (ask (ask mem).2).1 <;>
    cases h3 : (ask (ask (ask mem).2).2).1 <;>
    simp only [Bool.not_true, Bool.not_false, Bool.or_true, Bool.or_false, if_true,
      Bool.false_eq_true, if_false, startListen] <;>
    refine ⟨⟨⟨?_, ?_, ?_, ?_, ?_, ?_, ?_⟩, ?_⟩, ?_, ?_⟩ <;> simp
  exact ⟨rfl, rfl, rfl, rfl, rfl⟩

theorem coapInit_ok (mem : List Bool) :
    C (coapInit mem).2.1 ∧ ((coapInit mem).1 = true → Listens (coapInit mem).2.1 ∧ (coapInit mem).2.1.device = true) := by
  unfold coapInit
  dsimp only
  cases h1 : (ask mem).1 <;> cases h2 : (ask (ask mem).2).1 <;>
    cases h3 : (ask (ask (ask mem).2).2).1 <;>
    simp only [Bool.not_true, Bool.not_false, Bool.or_true, Bool.or_false, if_true,
      Bool.false_eq_true, if_false, startListen] <;>
    refine ⟨⟨⟨?_, ?_, ?_, ?_, ?_, ?_, ?_⟩, ?_, ?_⟩, ?_⟩ <;> simp
  exact ⟨rfl, rfl, rfl, rfl, rfl⟩

theorem zero_P : P {} := by constructor <;> simp
theorem zero_E : E {} := ⟨zero_P, by simp⟩
theorem zero_C : C {} := ⟨zero_P, by simp, by simp⟩

/-- All services as they are at some time before `nm_iam_deinit`. -/
structure Inv (w : W) : Prop where
  e : ∀ x, (∀ h, x ≠ .coap h) → E (w.subs x)
  c : ∀ h, C (w.subs (.coap h))
  clean : w.bad = []

/-- A listener which `nm_iam_deinit` will not free. -/
def Leak (s : Sub) : Prop := s.device = false ∧ s.lLive = true

theorem initEvents_spec (l : List Svc) : ∀ w : W, Inv w → l.Nodup → (∀ x ∈ l, w.subs x = {} ∧ ∀ h, x ≠ .coap h) →
    Inv (initEvents l w).2 ∧
    ((initEvents l w).2.mutex = w.mutex ∧ (initEvents l w).2.state = w.state ∧ (initEvents l w).2.conf = w.conf ∧
      (initEvents l w).2.sets = w.sets) ∧
    (∀ x, x ∉ l → (initEvents l w).2.subs x = w.subs x) ∧
    ((initEvents l w).1 = true → ∀ x ∈ l, Listens ((initEvents l w).2.subs x) ∧
      ((initEvents l w).2.subs x).device = true) := by
  induction l with
  | nil => intro w hw _ _; exact ⟨hw, ⟨rfl, rfl, rfl, rfl⟩, fun _ _ => rfl, fun _ _ hx => absurd hx List.not_mem_nil⟩
  | cons y l ih =>
    intro w hw hn hz
    rw [List.nodup_cons] at hn
    obtain ⟨hy, hyc⟩ := hz y List.mem_cons_self
    obtain ⟨i1, i2, i3⟩ := eventsInit_ok (w.subs y) w.mem hy
    have hw' : Inv { w.put y (eventsInit (w.subs y) w.mem).2.1 with mem := (eventsInit (w.subs y) w.mem).2.2 } := by
      refine ⟨?_, ?_, hw.clean⟩
      · intro x hx
        show E (if x = y then _ else _)
        split
        · exact i1
        · exact hw.e x hx
      · intro h
        show C (if Svc.coap h = y then _ else _)
        rw [if_neg (fun e => hyc h e.symm)]
        exact hw.c h
    unfold initEvents
    dsimp only
    split
    · rename_i hok
      obtain ⟨j1, j2, j3, j4⟩ := ih _ hw' hn.2 (by
        intro x hx
        have hxy : x ≠ y := fun e => hn.1 (e ▸ hx)
        refine ⟨?_, (hz x (List.mem_cons_of_mem _ hx)).2⟩
        show (if x = y then _ else _) = _
        rw [if_neg hxy]
        exact (hz x (List.mem_cons_of_mem _ hx)).1)
      refine ⟨j1, j2, ?_, ?_⟩
      · intro x hx
        rw [List.mem_cons, not_or] at hx
        rw [j3 x hx.2]
        exact if_neg hx.1
      · intro ht x hx
        rcases List.mem_cons.1 hx with rfl | hx
        · rw [j3 x hn.1]
          show Listens (if x = x then _ else _) ∧ (if x = x then _ else _ : Sub).device = true
          rw [if_pos rfl]
          exact ⟨i2 hok, i3⟩
        · exact j4 ht x hx
    · refine ⟨hw', ⟨rfl, rfl, rfl, rfl⟩, ?_, fun h => by cases h⟩
      intro x hx
      rw [List.mem_cons, not_or] at hx
      exact if_neg hx.1

theorem initHandlers_spec (l : List Handler) : ∀ w : W, Inv w → l.Nodup → (∀ x, ¬ Leak (w.subs x)) →
    Inv (initHandlers l w).2 ∧
    ((initHandlers l w).2.mutex = w.mutex ∧ (initHandlers l w).2.state = w.state ∧
      (initHandlers l w).2.conf = w.conf ∧ (initHandlers l w).2.sets = w.sets) ∧
    (∀ x, x ∉ l.map Svc.coap → (initHandlers l w).2.subs x = w.subs x) ∧
    (∃ h, ∀ x, Leak ((initHandlers l w).2.subs x) → x = .coap h) ∧
    ((initHandlers l w).1 = true → (∀ x, ¬ Leak ((initHandlers l w).2.subs x)) ∧
      ∀ h ∈ l, Listens ((initHandlers l w).2.subs (.coap h)) ∧ ((initHandlers l w).2.subs (.coap h)).device = true) := by
  induction l with
  | nil =>
    intro w hw _ hl
    exact ⟨hw, ⟨rfl, rfl, rfl, rfl⟩, fun _ _ => rfl, ⟨.pairingGet, fun x hx => absurd hx (hl x)⟩,
      fun _ => ⟨hl, fun _ hx => absurd hx List.not_mem_nil⟩⟩
  | cons y l ih =>
    intro w hw hn hl
    rw [List.nodup_cons] at hn
    obtain ⟨i1, i2⟩ := coapInit_ok w.mem
    have hw' : Inv { w.put (.coap y) (coapInit w.mem).2.1 with mem := (coapInit w.mem).2.2 } := by
      refine ⟨?_, ?_, hw.clean⟩
      · intro x hx
        show E (if x = .coap y then _ else _)
        rw [if_neg (hx y)]
        exact hw.e x hx
      · intro h
        show C (if Svc.coap h = .coap y then _ else _)
        split
        · exact i1
        · exact hw.c h
    unfold initHandlers
    dsimp only
    split
    · rename_i hok
      have hl' : ∀ x, ¬ Leak (({ w.put (.coap y) (coapInit w.mem).2.1 with mem := (coapInit w.mem).2.2 } : W).subs x) := by
        intro x
        show ¬ Leak (if x = .coap y then _ else _)
        split
        · intro hL
          have := (i2 hok).2.symm.trans hL.1
          cases this
        · exact hl x
      obtain ⟨j1, j2, j3, j4, j5⟩ := ih _ hw' hn.2 hl'
      refine ⟨j1, j2, ?_, j4, ?_⟩
      · intro x hx
        rw [List.map_cons, List.mem_cons, not_or] at hx
        rw [j3 x hx.2]
        exact if_neg hx.1
      · intro ht
        refine ⟨(j5 ht).1, ?_⟩
        intro h hh
        rcases List.mem_cons.1 hh with rfl | hh
        · rw [j3 (.coap h) (fun e => hn.1 (mem_coap.1 e))]
          show Listens (if Svc.coap h = Svc.coap h then _ else _) ∧
            (if Svc.coap h = Svc.coap h then _ else _ : Sub).device = true
          rw [if_pos rfl]
          exact i2 hok
        · exact (j5 ht).2 h hh
    · refine ⟨hw', ⟨rfl, rfl, rfl, rfl⟩, ?_, ⟨y, ?_⟩, fun h => by cases h⟩
      · intro x hx
        rw [List.map_cons, List.mem_cons, not_or] at hx
        exact if_neg hx.1
      · intro x hx
        change Leak (if x = .coap y then _ else _) at hx
        by_cases hxy : x = .coap y
        · exact hxy
        · rw [if_neg hxy] at hx
          exact absurd hx (hl x)

/-- The module after `nm_iam_init`. -/
structure After (ok : Bool) (w : W) : Prop extends Inv w where
  mutexP : w.mutex.ptr = w.mutex.live
  stateP : w.state.ptr = w.state.live
  confP : w.conf.ptr = w.conf.live
  none : w.mutex.ptr = false → w.state.live = false ∧ w.conf.live = false ∧
    ∀ x, (w.subs x).lLive = false ∧ (w.subs x).fLive = false
  sets : w.mutex.ptr = true → w.sets = (w.state.ptr && w.conf.ptr)
  one : ∃ h, ∀ x, Leak (w.subs x) → x = .coap h
  all : ok = true → w.mutex.ptr = true ∧ w.state.ptr = true ∧ w.conf.ptr = true ∧
    (∀ x, ¬ Leak (w.subs x)) ∧ ∀ x, Listens (w.subs x) ∧ (w.subs x).device = true

theorem init_after (mem : List Bool) : After (init mem).1 (init mem).2 := by
  have hz : ∀ x : Svc, ¬ Leak ((fun _ => {} : Svc → Sub) x) := fun x h => by cases h.2
  unfold init
  dsimp only
  split
  · rename_i hm
    have hm : (ask mem).1 = false := by simpa using hm
    rw [hm]
    exact ⟨⟨fun _ _ => zero_E, fun _ => zero_C, rfl⟩, rfl, rfl, rfl, fun _ => ⟨rfl, rfl, fun _ => ⟨rfl, rfl⟩⟩,
      (fun h => by cases h), ⟨.pairingGet, fun x hx => absurd hx (hz x)⟩, (fun h => by cases h)⟩
  · rename_i hm
    have hm : (ask mem).1 = true := by simpa using hm
    rw [hm]
    split
    · rename_i hsc
      refine ⟨⟨fun _ _ => zero_E, fun _ => zero_C, rfl⟩, rfl, rfl, rfl, (fun h => by cases h), ?_,
        ⟨.pairingGet, fun x hx => absurd hx (hz x)⟩, (fun h => by cases h)⟩
      intro _
      dsimp only
      cases h1 : (ask (ask mem).2).1 <;> cases h2 : (ask (ask (ask mem).2).2).1 <;> simp_all
    · rename_i hsc
      have hs : (ask (ask mem).2).1 = true := by
        cases h : (ask (ask mem).2).1 with
        | true => rfl
        | false => rw [h] at hsc; simp at hsc
      have hc : (ask (ask (ask mem).2).2).1 = true := by
        cases h : (ask (ask (ask mem).2).2).1 with
        | true => rfl
        | false => rw [h] at hsc; simp at hsc
      rw [hs, hc]
      obtain ⟨e1, e2, e3, e4⟩ := initEvents_spec [.auth, .pake, .events]
        { mem := (ask (ask (ask mem).2).2).2, mutex := ⟨true, true⟩, state := ⟨true, true⟩, conf := ⟨true, true⟩, sets := true }
        ⟨fun _ _ => zero_E, fun _ => zero_C, rfl⟩ nodup_three (by
          intro x hx
          refine ⟨rfl, ?_⟩
          rintro h rfl
          simp at hx)
      have hl : ∀ x, ¬ Leak ((initEvents [.auth, .pake, .events]
          { mem := (ask (ask (ask mem).2).2).2, mutex := ⟨true, true⟩, state := ⟨true, true⟩, conf := ⟨true, true⟩,
            sets := true }).2.subs x) := by
        intro x hx
        by_cases hxl : x ∈ [Svc.auth, .pake, .events]
        · have hx' : ∀ h, x ≠ .coap h := by
            rintro h rfl
            simp at hxl
          have he := e1.e x hx'
          have h3 := (he.zero hx.1).1
          rw [he.lp hx.2] at h3
          cases h3
        · rw [e3 x hxl] at hx
          exact hz x hx
      split
      · rename_i hok
        obtain ⟨g1, g2, g3, g4, g5⟩ := initHandlers_spec initOrder _ e1 nodup_initOrder hl
        rw [e2.1, e2.2.1, e2.2.2.1, e2.2.2.2] at g2
        refine ⟨g1, by rw [g2.1], by rw [g2.2.1], by rw [g2.2.2.1], (fun h => by rw [g2.1] at h; cases h), ?_, g4, ?_⟩
        · intro _
          rw [g2.2.2.2, g2.2.1, g2.2.2.1]; rfl
        · intro ht
          refine ⟨by rw [g2.1], by rw [g2.2.1], by rw [g2.2.2.1], (g5 ht).1, ?_⟩
          intro x
          cases x with
          | coap h => exact (g5 ht).2 h (mem_initOrder h)
          | auth => rw [g3 .auth (by simp)]; exact e4 hok .auth (by simp)
          | pake => rw [g3 .pake (by simp)]; exact e4 hok .pake (by simp)
          | events => rw [g3 .events (by simp)]; exact e4 hok .events (by simp)
      · refine ⟨e1, by rw [e2.1], by rw [e2.2.1], by rw [e2.2.2.1], (fun h => by rw [e2.1] at h; cases h), ?_,
          ⟨.pairingGet, fun x hx => absurd hx (hl x)⟩, ?_⟩
        · intro _
          rw [e2.2.2.2, e2.2.1, e2.2.2.1]; rfl
        · rename_i hno
          intro h
          exact absurd h hno

/-! ## Until `nm_iam_deinit` -/

theorem Same.P {s t : Sub} (h : Same s t) (hp : P s) (hoff : t.inited = false → t.fut = .idle ∧ t.stopped = false)
    (hst : t.stopped = true → t.fut ≠ .armed) : P t := by
  obtain ⟨a, b, c, d, e, f, _, _⟩ := h
  obtain ⟨lp, fp, ini, off, stp, dev, nodev⟩ := hp
  constructor
  · rw [b, c]; exact lp
  · rw [d, e]; exact fp
  · rw [f, c, e, a]; exact ini
  · exact hoff
  · exact hst
  · rw [a, b, c, d, e]; exact dev
  · rw [a, e]; exact nodev

theorem Same.E {s t : Sub} (h : Same s t) (he : E s) (hp : Lifecycle.P t) : E t :=
  ⟨hp, by rw [h.device, h.lPtr, h.fPtr]; exact he.zero⟩

theorem Same.C {s t : Sub} (h : Same s t) (hc : C s) (hp : Lifecycle.P t) : C t :=
  ⟨hp, by rw [h.device, h.lPtr]; exact hc.ptr, by rw [h.device, h.lLive, h.fPtr]; exact hc.leak⟩

/-- All services change that way. -/
structure Step (w w' : W) : Prop where
  same : ∀ x, Same (w.subs x) (w'.subs x) ∧ P (w'.subs x)
  mutex : w'.mutex = w.mutex
  state : w'.state = w.state
  conf : w'.conf = w.conf
  sets : w'.sets = w.sets

theorem Step.refl {w : W} (h : ∀ x, P (w.subs x)) : Step w w := ⟨fun x => ⟨Same.refl _, h x⟩, rfl, rfl, rfl, rfl⟩

theorem Step.trans {a b c : W} (h : Step a b) (g : Step b c) : Step a c :=
  ⟨fun x => ⟨(h.same x).1.trans (g.same x).1, (g.same x).2⟩, g.mutex.trans h.mutex, g.state.trans h.state,
    g.conf.trans h.conf, g.sets.trans h.sets⟩

theorem put_step {w : W} (h : ∀ x, P (w.subs x)) {y : Svc} {s : Sub} (hs : Same (w.subs y) s ∧ P s) :
    Step w (w.put y s) := by
  refine ⟨?_, rfl, rfl, rfl, rfl⟩
  intro x
  show Same (w.subs x) (if x = y then s else w.subs x) ∧ P (if x = y then s else w.subs x)
  by_cases hxy : x = y
  · subst hxy
    rw [if_pos rfl]
    exact hs
  · rw [if_neg hxy]
    exact ⟨Same.refl _, h x⟩

theorem startListen_same {s : Sub} (hp : P s) (hq : s.fut = .queued true) : Same s (startListen s) ∧ P (startListen s) := by
  have hi : s.inited = true := by
    cases h : s.inited with
    | true => rfl
    | false => have := (hp.off h).1; rw [hq] at this; cases this
  have hs : Same s (startListen s) := by
    refine ⟨rfl, rfl, rfl, rfl, rfl, rfl, id, ?_⟩
    intro h
    have := (h hi).2
    rw [hq] at this
    cases this
  refine ⟨hs, hs.P hp ?_ ?_⟩
  · intro h
    exact absurd (hi.symm.trans h) (by simp)
  · intro h
    have : s.stopped = true := h
    show (if s.stopped then Fut.queued false else Fut.armed) ≠ .armed
    rw [this]
    simp

theorem fut_same {s : Sub} (hp : P s) (hi : s.inited = true) (f : Fut) (hf : f ≠ .armed) (hq : Quiet s → f = .idle) :
    Same s { s with fut := f } ∧ P { s with fut := f } := by
  have hs : Same s { s with fut := f } := ⟨rfl, rfl, rfl, rfl, rfl, rfl, id, fun h hi => ⟨(h hi).1, hq h⟩⟩
  refine ⟨hs, hs.P hp ?_ (fun _ => hf)⟩
  intro h
  exact absurd (hi.symm.trans h) (by simp)

theorem inited_of_fut {s : Sub} (hp : P s) (h : s.fut ≠ .idle) : s.inited = true := by
  cases hi : s.inited with
  | true => rfl
  | false => exact absurd (hp.off hi).1 h

theorem deviceStop_same {s : Sub} (hp : P s) : Same s (deviceStopSub s) ∧ P (deviceStopSub s) := by
  unfold deviceStopSub
  split
  · rename_i h
    have hi : s.inited = true := by simp at h; exact h.2
    have hs : Same s { s with stopped := true, fut := .idle } :=
      ⟨rfl, rfl, rfl, rfl, rfl, rfl, fun _ => rfl, fun _ _ => ⟨rfl, rfl⟩⟩
    refine ⟨hs, hs.P hp ?_ (fun _ => by simp)⟩
    intro h
    exact absurd (hi.symm.trans h) (by simp)
  · exact ⟨Same.refl _, hp⟩

theorem coapStop_same {s : Sub} (hp : P s) : Same s (coapStop s).1 ∧ P (coapStop s).1 := by
  unfold coapStop
  split
  · exact listenerStop_same hp
  · exact ⟨Same.refl _, hp⟩

theorem acts_step {f : Sub → Sub × List Bad} (hf : ∀ s, P s → Same s (f s).1 ∧ P (f s).1) {l : List Svc} (hn : l.Nodup)
    {w : W} (h : ∀ x, P (w.subs x)) : Step w (W.acts f l w) := by
  obtain ⟨a, b, c, d⟩ := acts_frame f l w
  refine ⟨?_, a, b, c, d⟩
  intro x
  rw [acts_subs f l w hn x]
  split
  · exact hf _ (h x)
  · exact ⟨Same.refl _, h x⟩

theorem stop_step {w : W} (h : ∀ x, P (w.subs x)) : Step w (stop w) := by
  unfold stop
  split
  · exact ⟨fun x => ⟨Same.refl _, h x⟩, rfl, rfl, rfl, rfl⟩
  · have h1 := acts_step (fun s => coapStop_same (s := s)) (nodup_coap nodup_stopOrder) h
    exact h1.trans (acts_step (fun s => listenerStop_same (s := s)) nodup_three (fun x => (h1.same x).2))

theorem step_step {w : W} (h : ∀ x, P (w.subs x)) (op : Op) : Step w (step w op) := by
  cases op with
  | stop => exact stop_step h
  | deviceStop => exact ⟨fun x => deviceStop_same (h x), rfl, rfl, rfl, rfl⟩
  | request x =>
    show Step w (if _ then _ else _)
    split
    · rename_i hf
      have hi := inited_of_fut (h x) (by rw [hf]; simp)
      refine put_step h (fut_same (h x) hi _ (by simp) ?_)
      intro hq
      have := (hq hi).2
      rw [hf] at this
      cases this
    · exact Step.refl h
  | callback x =>
    show Step w (match (w.subs x).fut with | .queued true => _ | .queued false => _ | _ => _)
    split
    · rename_i hf
      exact put_step h (startListen_same (h x) hf)
    · rename_i hf
      exact put_step h (fut_same (h x) (inited_of_fut (h x) (by rw [hf]; simp)) _ (by simp) (fun _ => rfl))
    · exact Step.refl h

theorem run_step (ops : List Op) : ∀ {w : W}, (∀ x, P (w.subs x)) → Step w (run w ops) := by
  induction ops with
  | nil => intro w h; exact Step.refl h
  | cons op ops ih =>
    intro w h
    have h1 := step_step h op
    exact h1.trans (ih (fun x => (h1.same x).2))

theorem inv_p {w : W} (h : Inv w) (x : Svc) : P (w.subs x) := by
  cases x with
  | coap h' => exact (h.c h').toP
  | auth => exact (h.e .auth (by simp)).toP
  | pake => exact (h.e .pake (by simp)).toP
  | events => exact (h.e .events (by simp)).toP

/-- After `nabto_device_stop` nothing is used any more. -/
theorem run_quiet (ops : List Op) : ∀ {w : W}, (∀ x, P (w.subs x)) → (Op.deviceStop ∈ ops ∨ ∀ x, Quiet (w.subs x)) →
    ∀ x, Quiet ((run w ops).subs x) := by
  induction ops with
  | nil =>
    intro w _ h x
    rcases h with h | h
    · cases h
    · exact h x
  | cons op ops ih =>
    intro w hp h x
    have h1 := step_step hp op
    refine ih (fun x => (h1.same x).2) ?_ x
    rcases h with h | h
    · rcases List.mem_cons.1 h with rfl | h
      · right
        intro y hi
        have hi' : (w.subs y).inited = true := by rw [← (h1.same y).1.inited]; exact hi
        have hl := ((hp y).ini hi').1
        show (deviceStopSub (w.subs y)).stopped = true ∧ (deviceStopSub (w.subs y)).fut = .idle
        unfold deviceStopSub
        rw [hl, hi']
        exact ⟨rfl, rfl⟩
      · exact .inl h
    · exact .inr (fun y => (h1.same y).1.quiet (h y))

/-- Only `nm_iam_stop` can go wrong. -/
theorem run_bad (ops : List Op) : ∀ {w : W}, Op.stop ∉ ops → (run w ops).bad = w.bad := by
  induction ops with
  | nil => intro w _; rfl
  | cons op ops ih =>
    intro w h
    rw [List.mem_cons, not_or] at h
    show (run (step w op) ops).bad = w.bad
    rw [ih h.2]
    cases op with
    | stop => exact absurd rfl h.1
    | deviceStop => rfl
    | request x => show (if _ then _ else _ : W).bad = _; split <;> rfl
    | callback x =>
      show (match (w.subs x).fut with | .queued true => _ | .queued false => _ | _ => _ : W).bad = _
      split <;> rfl

/-- Each service has its listener. -/
def Full (w : W) : Prop := w.mutex.ptr = true ∧ ∀ x, (w.subs x).device = true ∧ (w.subs x).lPtr = true ∧ (w.subs x).lLive = true

theorem Step.full {w w' : W} (h : Step w w') (hf : Full w) : Full w' := by
  refine ⟨by rw [h.mutex]; exact hf.1, ?_⟩
  intro x
  obtain ⟨a, b, c⟩ := hf.2 x
  have := (h.same x).1
  exact ⟨by rw [this.device]; exact a, by rw [this.lPtr]; exact b, by rw [this.lLive]; exact c⟩

theorem stop_full {w : W} (hp : ∀ x, P (w.subs x)) (hf : Full w) :
    (stop w).bad = w.bad ∧ ∀ x, Ended ((stop w).subs x) := by
  have hm := hf.1
  have hn := nodup_coap nodup_stopOrder
  have hs1 : Step w (W.acts coapStop (stopOrder.map .coap) w) := acts_step (fun s => coapStop_same (s := s)) hn hp
  have hf1 := hs1.full hf
  have hp1 := fun x => (hs1.same x).2
  have hc : ∀ x, (coapStop (w.subs x)).2 = [] ∧ Ended (coapStop (w.subs x)).1 := by
    intro x
    obtain ⟨a, b, c⟩ := hf.2 x
    unfold coapStop
    rw [if_pos a]
    exact listenerStop_ok (hp x) b c
  unfold stop
  rw [hm]
  simp only [Bool.not_true, Bool.false_eq_true, if_false]
  constructor
  · rw [acts_bad _ _ _ nodup_three, acts_bad _ _ _ hn]
    · intro x _; exact (hc x).1
    · intro x _
      obtain ⟨a, b, c⟩ := hf1.2 x
      exact (listenerStop_ok (hp1 x) b c).1
  · intro x
    rw [acts_subs _ _ _ nodup_three x]
    split
    · obtain ⟨a, b, c⟩ := hf1.2 x
      exact (listenerStop_ok (hp1 x) b c).2
    · rename_i hx
      rw [acts_subs _ _ _ hn x]
      cases x with
      | coap h =>
        rw [if_pos (mem_coap.2 (mem_stopOrder h))]
        exact (hc _).2
      | auth => exact absurd (by simp) hx
      | pake => exact absurd (by simp) hx
      | events => exact absurd (by simp) hx

theorem run_full (ops : List Op) : ∀ {w : W}, (∀ x, P (w.subs x)) → Full w → (run w ops).bad = w.bad := by
  induction ops with
  | nil => intro w _ _; rfl
  | cons op ops ih =>
    intro w hp hf
    have h1 := step_step hp op
    show (run (step w op) ops).bad = w.bad
    rw [ih (fun x => (h1.same x).2) (h1.full hf)]
    by_cases ho : op = .stop
    · subst ho
      exact (stop_full hp hf).1
    · have := run_bad [op] (w := w) (by simpa using fun e => ho e.symm)
      exact this

/-! ## `nm_iam_deinit` -/

theorem deinit_ok {w w' : W} {ok : Bool} (ha : After ok w) (hs : Step w w') (hq : ∀ x, Quiet (w'.subs x))
    (hb : w'.bad = []) :
    Gone (deinit w') ∧ (∀ x, ((deinit w').subs x).lLive = true → Leak (w.subs x)) ∧
    (deinit w').bad = if w.mutex.ptr && !(w.state.ptr && w.conf.ptr) then [.uninitialised] else [] := by
  unfold deinit
  rw [hs.mutex]
  cases hm : w.mutex.ptr with
  | false =>
    obtain ⟨n1, n2, n3⟩ := ha.none hm
    have hml : w.mutex.live = false := by rw [← ha.mutexP]; exact hm
    refine ⟨⟨?_, ?_, ?_, ?_⟩, ?_, ?_⟩
    · show w'.mutex.live = false
      rw [hs.mutex]; exact hml
    · show w'.state.live = false
      rw [hs.state]; exact n1
    · show w'.conf.live = false
      rw [hs.conf]; exact n2
    · intro x
      show (w'.subs x).fLive = false
      rw [(hs.same x).1.fLive]; exact (n3 x).2
    · intro x hx
      have hx : (w'.subs x).lLive = true := hx
      rw [(hs.same x).1.lLive, (n3 x).1] at hx
      cases hx
    · simpa using hb
  | true =>
    simp only [Bool.not_true, Bool.false_eq_true, if_false, Bool.true_and]
    have hn := nodup_coap nodup_deinitOrder
    have hE : ∀ x, (∀ h, x ≠ .coap h) → E (w'.subs x) := fun x hx =>
      (hs.same x).1.E (ha.e x hx) (hs.same x).2
    have hC : ∀ h, C (w'.subs (.coap h)) := fun h => (hs.same _).1.C (ha.c h) (hs.same _).2
    have hsub1 : ∀ x, (W.acts eventsDeinit [.auth, .pake, .events] w').subs x =
        if x ∈ [Svc.auth, .pake, .events] then (eventsDeinit (w'.subs x)).1 else w'.subs x := acts_subs _ _ _ nodup_three
    have hbad1 : (W.acts eventsDeinit [.auth, .pake, .events] w').bad = [] := by
      rw [acts_bad _ _ _ nodup_three, hb]
      intro x hx
      refine (eventsDeinit_ok (hE x ?_) (hq x)).1
      rintro h rfl
      simp at hx
    have hco : ∀ h, (W.acts eventsDeinit [.auth, .pake, .events] w').subs (.coap h) = w'.subs (.coap h) := by
      intro h
      rw [hsub1]
      exact if_neg (by simp)
    have hbad2 : (W.acts coapDeinit (deinitOrder.map .coap) (W.acts eventsDeinit [.auth, .pake, .events] w')).bad = [] := by
      rw [acts_bad _ _ _ hn, hbad1]
      intro x hx
      obtain ⟨h, _, rfl⟩ := List.mem_map.1 hx
      rw [hco]
      exact (coapDeinit_ok (hC h) (hq _)).1
    have hsub2 : ∀ x, (W.acts coapDeinit (deinitOrder.map .coap) (W.acts eventsDeinit [.auth, .pake, .events] w')).subs x =
        match x with
        | .coap _ => (coapDeinit (w'.subs x)).1
        | _ => (eventsDeinit (w'.subs x)).1 := by
      intro x
      rw [acts_subs _ _ _ hn x]
      cases x with
      | coap h => rw [if_pos (mem_coap.2 (mem_deinitOrder h)), hco]
      | auth => rw [if_neg (by simp), hsub1, if_pos (by simp)]
      | pake => rw [if_neg (by simp), hsub1, if_pos (by simp)]
      | events => rw [if_neg (by simp), hsub1, if_pos (by simp)]
    obtain ⟨f1, f2, f3, f4⟩ := acts_frame coapDeinit (deinitOrder.map .coap) (W.acts eventsDeinit [.auth, .pake, .events] w')
    obtain ⟨e1, e2, e3, e4⟩ := acts_frame eventsDeinit [.auth, .pake, .events] w'
    rw [e1, hs.mutex] at f1
    rw [e2, hs.state] at f2
    rw [e3, hs.conf] at f3
    rw [e4, hs.sets] at f4
    have hfree : ∀ r : Ref, r.ptr = r.live → (free r).1.live = false ∧ (free r).2 = [] := by
      rintro ⟨p, l⟩ h
      dsimp only at h
      subst h
      cases p <;> exact ⟨rfl, rfl⟩
    refine ⟨⟨?_, ?_, ?_, ?_⟩, ?_, ?_⟩
    · dsimp only; rw [f1]; exact (hfree _ ha.mutexP).1
    · dsimp only; rw [f2]; exact (hfree _ ha.stateP).1
    · dsimp only; rw [f3]; exact (hfree _ ha.confP).1
    · intro x
      dsimp only
      rw [hsub2]
      cases x with
      | coap h => exact (coapDeinit_ok (hC h) (hq _)).2.1
      | auth => exact (eventsDeinit_ok (hE _ (by simp)) (hq _)).2.2
      | pake => exact (eventsDeinit_ok (hE _ (by simp)) (hq _)).2.2
      | events => exact (eventsDeinit_ok (hE _ (by simp)) (hq _)).2.2
    · intro x hx
      rw [hsub2] at hx
      cases x with
      | coap h =>
        dsimp only at hx
        rw [(coapDeinit_ok (hC h) (hq _)).2.2, (hs.same _).1.device, (hs.same _).1.lLive] at hx
        simpa [Leak] using hx
      | auth => dsimp only at hx; rw [(eventsDeinit_ok (hE _ (by simp)) (hq _)).2.1] at hx; cases hx
      | pake => dsimp only at hx; rw [(eventsDeinit_ok (hE _ (by simp)) (hq _)).2.1] at hx; cases hx
      | events => dsimp only at hx; rw [(eventsDeinit_ok (hE _ (by simp)) (hq _)).2.1] at hx; cases hx
    · rw [hbad2, f1, f2, f3, f4, (hfree _ ha.mutexP).2, (hfree _ ha.stateP).2, (hfree _ ha.confP).2, ha.sets hm]
      cases w.state.ptr <;> cases w.conf.ptr <;> rfl

/-! ## With memory enough -/

theorem ask_true {mem : List Bool} (h : ∀ b ∈ mem, b = true) : (ask mem).1 = true ∧ ∀ b ∈ (ask mem).2, b = true := by
  cases mem with
  | nil => exact ⟨rfl, h⟩
  | cons b l => exact ⟨h b List.mem_cons_self, fun c hc => h c (List.mem_cons_of_mem _ hc)⟩

theorem eventsInit_true (s : Sub) {mem : List Bool} (h : ∀ b ∈ mem, b = true) :
    (eventsInit s mem).1 = true ∧ ∀ b ∈ (eventsInit s mem).2.2, b = true := by
  obtain ⟨a1, a2⟩ := ask_true h
  obtain ⟨b1, b2⟩ := ask_true a2
  obtain ⟨c1, c2⟩ := ask_true b2
  unfold eventsInit
  dsimp only
  rw [a1, b1, c1]
  exact ⟨rfl, c2⟩

theorem coapInit_true {mem : List Bool} (h : ∀ b ∈ mem, b = true) :
    (coapInit mem).1 = true ∧ ∀ b ∈ (coapInit mem).2.2, b = true := by
  obtain ⟨a1, a2⟩ := ask_true h
  obtain ⟨b1, b2⟩ := ask_true a2
  obtain ⟨c1, c2⟩ := ask_true b2
  unfold coapInit
  dsimp only
  rw [a1, b1, c1]
  exact ⟨rfl, c2⟩

theorem initEvents_true (l : List Svc) : ∀ {w : W}, (∀ b ∈ w.mem, b = true) →
    (initEvents l w).1 = true ∧ ∀ b ∈ (initEvents l w).2.mem, b = true := by
  induction l with
  | nil => intro w h; exact ⟨rfl, h⟩
  | cons x l ih =>
    intro w h
    obtain ⟨a1, a2⟩ := eventsInit_true (w.subs x) h
    unfold initEvents
    dsimp only
    rw [if_pos a1]
    exact ih a2

theorem initHandlers_true (l : List Handler) : ∀ {w : W}, (∀ b ∈ w.mem, b = true) → (initHandlers l w).1 = true := by
  induction l with
  | nil => intro w h; rfl
  | cons x l ih =>
    intro w h
    obtain ⟨a1, a2⟩ := coapInit_true h
    unfold initHandlers
    dsimp only
    rw [if_pos a1]
    exact ih a2

theorem init_true {mem : List Bool} (h : ∀ b ∈ mem, b = true) : (init mem).1 = true := by
  obtain ⟨a1, a2⟩ := ask_true h
  obtain ⟨b1, b2⟩ := ask_true a2
  obtain ⟨c1, c2⟩ := ask_true b2
  unfold init
  dsimp only
  rw [a1, b1, c1]
  simp only [Bool.not_true, Bool.false_eq_true, if_false, Bool.or_false]
  obtain ⟨d1, d2⟩ := initEvents_true [.auth, .pake, .events]
    (w := { mem := (ask (ask (ask mem).2).2).2, mutex := ⟨true, true⟩, state := ⟨true, true⟩, conf := ⟨true, true⟩,
            sets := true }) c2
  rw [if_pos d1]
  exact initHandlers_true initOrder d2

/-- What `Full` asks for holds of a module which started. -/
theorem full_of_init {mem : List Bool} (h : (init mem).1 = true) : Full (init mem).2 := by
  have ha := init_after mem
  obtain ⟨m, _, _, _, l⟩ := ha.all h
  refine ⟨m, fun x => ?_⟩
  exact ⟨(l x).2, (inv_p ha.toInv x).lp (l x).1.listener, (l x).1.listener⟩

end Verif.Iam.Lifecycle
