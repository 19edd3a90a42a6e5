import Verif.Api.EventsOps

/-!
# Listeners for events — every call
-/

namespace Verif.Api.Events

open Spec (L S of)

/-! ### Labels -/

theorem of_other {l j : Nat} (h : j ≠ l) (o : Out) (ho : of l o = true) : of j o = false := by
  cases o with
  | made i => simp only [of, decide_eq_true_eq] at ho; subst ho; simp [of, Ne.symm h]
  | ret i e => simp only [of, decide_eq_true_eq] at ho; subst ho; simp [of, Ne.symm h]
  | hand i ws => simp only [of, decide_eq_true_eq] at ho; subst ho; simp [of, Ne.symm h]
  | resolve i f e => simp only [of, decide_eq_true_eq] at ho; subst ho; simp [of, Ne.symm h]

theorem filter_mine {l : Nat} {os : List Out} (h : ∀ o ∈ os, of l o = true) : os.filter (of l) = os :=
  List.filter_eq_self.2 h

theorem filter_other {l j : Nat} (hj : j ≠ l) {os : List Out} (h : ∀ o ∈ os, of l o = true) : os.filter (of j) = [] :=
  List.filter_eq_nil_iff.2 fun o ho => by simp [of_other hj o (h o ho)]

theorem hand_of (l : Nat) (v : Val) (q : Nat × Option Nat × Option Nat) : ∀ o ∈ Spec.hand l v q, of l o = true := by
  obtain ⟨f, ref, ev⟩ := q
  cases v <;> cases ref <;> cases ev <;> simp [Spec.hand, of]

theorem close_of (l : Nat) (a : L) (ec : Ec) : ∀ o ∈ (Spec.close l a ec).2, of l o = true := by
  cases h : a.waiting <;> simp [Spec.close, h, of]

theorem offer_of (l : Nat) (a : L) (v : Val) (m : Bool) : ∀ o ∈ (Spec.offer l a v m).2, of l o = true := by
  unfold Spec.offer
  split
  · split
    · split
      · exact hand_of _ _ _
      · simp
    · exact close_of _ _ _
  · simp

theorem listen_of (l : Nat) (a : L) (k : Kind) (f : Nat) (ref ev : Option Nat) :
    ∀ o ∈ (Spec.listen l a k f ref ev).2, of l o = true := by
  unfold Spec.listen
  split
  · simp [of]
  split
  · simp [of]
  split
  · simp [of]
  simp only
  split
  · exact hand_of l _ (f, _, ev)
  · simp

theorem stop_of (l : Nat) (a : L) : ∀ o ∈ (Spec.stop l a).2, of l o = true := by
  unfold Spec.stop
  split
  · exact close_of _ _ _
  · simp

/-! ### Events -/

theorem notify_owner {w : W} (h : Inv w) {c : Nat} {k : Kind} (hc : c ∈ w.regs k) :
    ∃ x X, w.ctxs c = some x ∧ w.lsts x.listener = some X ∧ X.data = c ∧ Open w x.listener X k x := by
  obtain ⟨x, hx, hk⟩ := h.reg k c hc
  obtain ⟨X, hX, hd, he, ht⟩ := h.ctx c x hx
  obtain ⟨y, hy⟩ := h.live hX ht he
  have : y = x := by have := hy.ctx; rw [hd, hx] at this; injection this with this; exact this.symm
  subst this
  exact ⟨y, X, hx, hX, hd, hk ▸ hy⟩

/-- Listener `j` has one of the contexts `cs`. -/
def Has (w : W) (cs : List Nat) (j : Nat) : Prop := ∃ c ∈ cs, ∃ x, w.ctxs c = some x ∧ x.listener = j

theorem notifyGo_spec (v : Val) (mem : Nat → Bool) (cs : List Nat) : ∀ (w : W), Inv w → cs.Nodup →
    (∀ c ∈ cs, c ∈ w.regs v.kind) →
    Inv (notifyGo w v mem cs).1 ∧ (notifyGo w v mem cs).1.nl = w.nl ∧
    ∀ j, (Has w cs j → ∃ a, view w j = some a ∧
        view (notifyGo w v mem cs).1 j = some (Spec.offer j a v (mem j)).1 ∧
        (notifyGo w v mem cs).2.filter (of j) = (Spec.offer j a v (mem j)).2) ∧
      (¬ Has w cs j → view (notifyGo w v mem cs).1 j = view w j ∧ (notifyGo w v mem cs).2.filter (of j) = []) := by
  induction cs with
  | nil =>
    intro w h _ _
    exact ⟨h, rfl, fun j => ⟨fun ⟨c, hc, _⟩ => absurd hc (by simp), fun _ => ⟨rfl, rfl⟩⟩⟩
  | cons c cs ih =>
    intro w h nd hin
    rw [List.nodup_cons] at nd
    have hc := hin c (by simp)
    obtain ⟨x, X, hx, hX, hd, ho⟩ := notify_owner h hc
    have hdeal := offer_open (mem := mem) h hX ho rfl
    rw [hd] at hdeal
    have e : notifyGo w v mem (c :: cs) =
        ((notifyGo (coreCb w c v mem).1 v mem cs).1, (coreCb w c v mem).2 ++ (notifyGo (coreCb w c v mem).1 v mem cs).2) := by
      simp [notifyGo, hc]
    have hfar : ∀ c' ∈ cs, (coreCb w c v mem).1.ctxs c' = w.ctxs c' ∧ c' ∈ (coreCb w c v mem).1.regs v.kind := by
      intro c' hc'
      have hne : c' ≠ c := fun e => nd.1 (e ▸ hc')
      exact ⟨(hdeal.near.far c' hne).1, (hdeal.near.far c' hne).2 _ (hin c' (by simp [hc']))⟩
    obtain ⟨i1, i2, i3⟩ := ih _ hdeal.near.inv nd.2 (fun c' hc' => (hfar c' hc').2)
    have hhas : ∀ j, Has (coreCb w c v mem).1 cs j ↔ Has w cs j := by
      intro j
      constructor
      · rintro ⟨c', hc', y, hy, hj⟩; exact ⟨c', hc', y, (hfar c' hc').1 ▸ hy, hj⟩
      · rintro ⟨c', hc', y, hy, hj⟩; exact ⟨c', hc', y, by rw [(hfar c' hc').1]; exact hy, hj⟩
    have hnot : ¬ Has w cs x.listener := by
      rintro ⟨c', hc', y, hy, hj⟩
      obtain ⟨Y, hY, hYd, _⟩ := h.ctx c' y hy
      rw [hj, hX] at hY
      injection hY with hY
      subst hY
      exact nd.1 (by rw [← hd, hYd]; exact hc')
    rw [e]
    refine ⟨i1, i2.trans hdeal.near.nl, fun j => ?_⟩
    simp only [List.filter_append, hdeal.outs]
    by_cases hj : j = x.listener
    · subst hj
      have hn := (i3 x.listener).2 (by rw [hhas]; exact hnot)
      refine ⟨fun _ => ⟨look X x, ho.view hX, ?_, ?_⟩, fun hno => absurd ⟨c, by simp, x, hx, rfl⟩ hno⟩
      · rw [hn.1, hdeal.me]
      · rw [hn.2, List.append_nil]; exact filter_mine (offer_of _ _ _ _)
    · have hcons : Has w (c :: cs) j ↔ Has w cs j := by
        constructor
        · rintro ⟨c', hc', y, hy, hj'⟩
          rcases List.mem_cons.1 hc' with hc' | hc'
          · subst hc'; rw [hx] at hy; injection hy with hy; exact absurd (hy ▸ hj'.symm) hj
          · exact ⟨c', hc', y, hy, hj'⟩
        · rintro ⟨c', hc', y⟩; exact ⟨c', by simp [hc'], y⟩
      rw [filter_other hj (offer_of _ _ _ _), List.nil_append, hcons, ← hhas, ← hdeal.near.others j hj]
      exact i3 j

theorem notify_spec {w : W} (h : Inv w) (v : Val) (mem : Nat → Bool) :
    Inv (notify w v mem).1 ∧ (notify w v mem).1.nl = w.nl ∧
    ∀ j, view (notify w v mem).1 j = (view w j).map (fun a => (Spec.offer j a v (mem j)).1) ∧
      (notify w v mem).2.filter (of j) = (view w j).elim [] (fun a => (Spec.offer j a v (mem j)).2) := by
  obtain ⟨i1, i2, i3⟩ := notifyGo_spec v mem (w.regs v.kind) w h (h.regs _) (fun _ hc => hc)
  refine ⟨i1, i2, fun j => ?_⟩
  by_cases hh : Has w (w.regs v.kind) j
  · obtain ⟨a, h1, h2, h3⟩ := (i3 j).1 hh
    rw [h1]
    exact ⟨h2, h3⟩
  · obtain ⟨h2, h3⟩ := (i3 j).2 hh
    have key : ∀ a, view w j = some a → Spec.offer j a v (mem j) = (a, []) := by
      intro a ha
      unfold Spec.offer
      rw [if_neg]
      rintro ⟨hk, he⟩
      cases hX : w.lsts j with
      | none => simp [view, hX] at ha
      | some X =>
        simp only [view, hX, Option.map_some, Option.some.injEq] at ha
        subst ha
        obtain ⟨x, ho⟩ := h.live hX hk he
        exact hh ⟨X.data, ho.reg, x, ho.ctx, ho.listener⟩
    show view (notifyGo w v mem (w.regs v.kind)).1 j = _ ∧ (notifyGo w v mem (w.regs v.kind)).2.filter (of j) = _
    rw [h2, h3]
    cases ha : view w j with
    | none => exact ⟨rfl, rfl⟩
    | some a => simp [key a ha]

/-! ### Stopping -/

theorem Near.refl {w : W} (h : Inv w) (l d : Nat) : Near w w l d :=
  ⟨h, fun _ _ => rfl, rfl, rfl, fun _ _ => ⟨rfl, fun _ hk => hk⟩⟩

theorem view_raw {w : W} {l : Nat} (hl : w.lsts l = some {}) : view w l = some {} := by simp [view, hl]

theorem view_over {w : W} {l : Nat} {X : Lst} {k : Kind} (hl : w.lsts l = some X) (h : Over X k) :
    view w l = some { kind := some k, ec := X.ec, backlog := [], waiting := none } := by
  simp [view, hl, h.type, h.events, h.fut]

theorem stop_spec {w : W} (h : Inv w) {l : Nat} {a : L} (ha : view w l = some a) :
    ∃ d, Near w (stopInternal w l).1 l d ∧ view (stopInternal w l).1 l = some (Spec.stop l a).1 ∧
      (stopInternal w l).2 = (if a.kind = none then .invalidState else .ok, (Spec.stop l a).2) := by
  cases hX : w.lsts l with
  | none => simp [view, hX] at ha
  | some X =>
    cases h.shape l X hX with
    | raw hr =>
      subst hr
      rw [view_raw hX] at ha; injection ha with ha; subst ha
      have e : stopInternal w l = (w, .invalidState, []) := by simp [stopInternal, hX]
      rw [e]
      exact ⟨0, Near.refl h .., by rw [view_raw hX]; rfl, rfl⟩
    | over k ho =>
      rw [view_over hX ho] at ha; injection ha with ha; subst ha
      have e : stopInternal w l = (w, .ok, []) := by simp [stopInternal, hX, ho.initialized, ho.ec]
      rw [e]
      exact ⟨0, Near.refl h .., by rw [view_over hX ho]; simp [Spec.stop, L.isOpen, ho.ec],
        by simp [Spec.stop, L.isOpen, ho.ec]⟩
    | live k x ho =>
      rw [ho.view hX] at ha; injection ha with ha; subst ha
      have e : stopInternal w l = ((setErrorCode w l .stopped).1, .ok, (setErrorCode w l .stopped).2) := by
        simp [stopInternal, hX, ho.initialized, ho.ec]
      have hd := setErrorCode_open (ec := .stopped) h hX ho (by decide)
      have hs : Spec.stop l (look X x) = Spec.close l (look X x) .stopped := by
        simp [Spec.stop, L.isOpen, look, ho.type, ho.ec]
      rw [e]
      refine ⟨_, hd.near, by rw [hd.me, hs], ?_⟩
      simp only [hd.outs, hs]
      simp [look, ho.type]

theorem stopAllGo_spec (ls : List Nat) : ∀ (w : W), Inv w → ls.Nodup → (∀ l ∈ ls, w.lsts l ≠ none) →
    Inv (stopAllGo w ls).1 ∧ (stopAllGo w ls).1.nl = w.nl ∧
    ∀ j, (j ∈ ls → ∃ a, view w j = some a ∧ view (stopAllGo w ls).1 j = some (Spec.stop j a).1 ∧
        (stopAllGo w ls).2.filter (of j) = (Spec.stop j a).2) ∧
      (j ∉ ls → view (stopAllGo w ls).1 j = view w j ∧ (stopAllGo w ls).2.filter (of j) = []) := by
  induction ls with
  | nil => intro w h _ _; exact ⟨h, rfl, fun j => ⟨fun hj => absurd hj (by simp), fun _ => ⟨rfl, rfl⟩⟩⟩
  | cons l ls ih =>
    intro w h nd hin
    rw [List.nodup_cons] at nd
    obtain ⟨X, hX⟩ := Option.ne_none_iff_exists'.1 (hin l (by simp))
    obtain ⟨a, ha⟩ : ∃ a, view w l = some a := by simp [view, hX]
    obtain ⟨d, hnear, hme, houts⟩ := stop_spec h ha
    have hlive : ∀ j ∈ ls, (stopInternal w l).1.lsts j ≠ none := by
      intro j hj
      have := (hnear.inv.all j).1
      rw [hnear.all] at this
      exact this ((h.all j).2 (hin j (by simp [hj])))
    obtain ⟨i1, i2, i3⟩ := ih _ hnear.inv nd.2 hlive
    have e : stopAllGo w (l :: ls) = ((stopAllGo (stopInternal w l).1 ls).1,
        (stopInternal w l).2.2 ++ (stopAllGo (stopInternal w l).1 ls).2) := rfl
    rw [e]
    refine ⟨i1, i2.trans hnear.nl, fun j => ?_⟩
    simp only [List.filter_append, houts]
    by_cases hj : j = l
    · subst hj
      obtain ⟨h1, h2⟩ := (i3 j).2 nd.1
      refine ⟨fun _ => ⟨a, ha, by rw [h1, hme], ?_⟩, fun hn => absurd (by simp) hn⟩
      rw [h2, List.append_nil]; exact filter_mine (stop_of _ _)
    · rw [filter_other hj (stop_of _ _), List.nil_append, List.mem_cons, ← hnear.others j hj]
      simp only [hj, false_or]
      exact i3 j

/-! ### All calls -/

/-- The device and what the application knows of the listeners agree. -/
def Rel (w : W) (s : Nat → S) : Prop := ∀ l, view w l = (s l).me ∧ w.nl = (s l).n

/-- A call does what the specification says. -/
structure Done (w : W) (s : Nat → S) (c : Call) : Prop where
  inv : Inv (step w c).1
  rel : Rel (step w c).1 fun l => (Spec.step l (s l) c).1
  outs : ∀ l, (step w c).2.filter (of l) = (Spec.step l (s l) c).2

theorem on_elim (s : S) (f : L → L × List Out) :
    (Spec.on s f).1.me = s.me.map (fun a => (f a).1) ∧ (Spec.on s f).1.n = s.n ∧
      (Spec.on s f).2 = s.me.elim [] (fun a => (f a).2) := by
  unfold Spec.on
  cases h : s.me <;> simp [h]

/-- A call for listener `l` alone. -/
theorem Done.single {w : W} {s : Nat → S} {c : Call} {l d : Nat} {f : L → L × List Out} {a : L} (hr : Rel w s)
    (ha : (s l).me = some a) (hs : ∀ j, Spec.step j (s j) c = if l = j then Spec.on (s j) f else (s j, []))
    (hn : Near w (step w c).1 l d) (hm : view (step w c).1 l = some (f a).1) (ho : (step w c).2 = (f a).2)
    (hof : ∀ o ∈ (f a).2, of l o = true) : Done w s c := by
  refine ⟨hn.inv, fun j => ?_, fun j => ?_⟩
  · show _ = (Spec.step j (s j) c).1.me ∧ _ = (Spec.step j (s j) c).1.n
    rw [hs j]
    by_cases e : l = j
    · subst e
      rw [if_pos rfl, hm, hn.nl]
      simp [Spec.on, ha, (hr l).2]
    · rw [if_neg e, hn.others j (Ne.symm e), hn.nl]; exact hr j
  · rw [hs j, ho]
    by_cases e : l = j
    · subst e; rw [if_pos rfl, filter_mine hof]; simp [Spec.on, ha]
    · rw [if_neg e, filter_other (Ne.symm e) hof]

theorem done_new {w : W} {s : Nat → S} (h : Inv w) (hr : Rel w s) (mem : Bool) : Done w s (.new mem) := by
  cases mem with
  | false =>
    exact ⟨h, hr, fun l => by simp [step, new, Spec.step, of]⟩
  | true =>
    have hfresh : w.lsts w.nl = none := by
      cases hX : w.lsts w.nl with
      | none => rfl
      | some X => exact absurd (h.below w.nl (by simp [hX])) (by omega)
    have hnot : w.nl ∉ w.all := fun hin => (h.all _).1 hin hfresh
    have hne : ∀ {j}, w.lsts j ≠ none → j ≠ w.nl := fun hj e => hj (e ▸ hfresh)
    have hview : ∀ j, view (step w (.new true)).1 j = if j = w.nl then some {} else view w j := by
      intro j
      by_cases e : j = w.nl
      · simp [view, step, new, W.setL, e]
      · simp [view, step, new, W.setL, e]
    refine ⟨⟨h.good, ?_, h.cbelow, ?_, ?_, ?_, ?_, h.reg, h.regs, ?_⟩, fun l => ?_, fun l => ?_⟩
    · intro j hj
      show j < w.nl + 1
      by_cases e : j = w.nl
      · omega
      · have := h.below j (by simpa [step, new, W.setL, e] using hj); omega
    · intro j
      show j ∈ w.all ++ [w.nl] ↔ (if j = w.nl then some {} else w.lsts j) ≠ none
      by_cases e : j = w.nl
      · simp [e]
      · simp [e, h.all j]
    · show (w.all ++ [w.nl]).Nodup
      rw [List.nodup_append]
      refine ⟨h.nodup, by simp, ?_⟩
      intro a ha b hb
      rw [List.mem_singleton.1 hb]
      exact fun e => hnot (e ▸ ha)
    · intro j X hX
      by_cases e : j = w.nl
      · simp only [step, new, W.setL, e, if_true] at hX; injection hX with hX; exact .raw hX.symm
      · simp only [step, new, W.setL, e, if_true, if_false] at hX
        cases h.shape j X hX with
        | raw hr => exact .raw hr
        | over k ho => exact .over k ho
        | live k x ho => exact .live k x { ho with }
    · intro c x hx
      obtain ⟨X, hX, hrest⟩ := h.ctx c x hx
      exact ⟨X, by simp [step, new, W.setL, hne (by rw [hX]; simp : w.lsts x.listener ≠ none), hX], hrest⟩
    · have hc := h.count
      show w.made = w.freed + ((w.all ++ [w.nl]).map (held (step w (.new true)).1)).sum
      have : (w.all.map (held (step w (.new true)).1)).sum = total w := by
        refine sum_same _ _ _ fun j hj => ?_
        simp [held, step, new, W.setL, hne ((h.all j).1 hj)]
      rw [List.map_append, List.sum_append, this]
      simp [held, step, new, W.setL]
      exact hc
    · rw [hview l]
      show _ ∧ w.nl + 1 = _
      obtain ⟨h1, h2⟩ := hr l
      by_cases e : l = w.nl
      · have h3 : (s l).n = l := h2.symm.trans e.symm
        simp only [Spec.step, if_true, if_pos h3, if_pos e]
        exact ⟨trivial, congrArg (· + 1) h2⟩
      · have h3 : (s l).n ≠ l := fun h4 => e (h4.symm.trans h2.symm)
        simp only [Spec.step, if_true, if_neg h3, if_neg e]
        exact ⟨h1, congrArg (· + 1) h2⟩
    · obtain ⟨h1, h2⟩ := hr l
      by_cases e : w.nl = l
      · simp [step, new, Spec.step, of, ← h2, e]
      · simp [step, new, Spec.step, of, ← h2, e]

theorem done_init {w : W} {s : Nat → S} (h : Inv w) (hr : Rel w s) (k : Kind) (l : Nat) (mem : Bool)
    (hf : ∀ j, Spec.fine j (s j) (.init k l mem)) : Done w s (.init k l mem) := by
  cases mem with
  | false =>
    refine ⟨h, fun j => ?_, fun j => ?_⟩
    · by_cases e : l = j <;> simp [step, init, Spec.step, e] <;> exact hr j
    · by_cases e : l = j <;> simp [step, init, Spec.step, e, of]
  | true =>
    obtain ⟨a, ha, hk⟩ := hf l rfl
    have hv := (hr l).1
    rw [ha] at hv
    cases hX : w.lsts l with
    | none => simp [view, hX] at hv
    | some X =>
      have hraw : X = {} := by
        cases h.shape l X hX with
        | raw hr => exact hr
        | over k' ho => rw [view_over hX ho] at hv; injection hv with hv; subst hv; simp at hk
        | live k' x ho => rw [ho.view hX] at hv; injection hv with hv; subst hv; simp [look, ho.type] at hk
      subst hraw
      rw [view_raw hX] at hv; injection hv with hv; subst hv
      have hfresh : w.ctxs w.nc = none := by
        cases hx : w.ctxs w.nc with
        | none => rfl
        | some x => exact absurd (h.cbelow w.nc (by simp [hx])) (by omega)
      have hne : ∀ {c}, w.ctxs c ≠ none → c ≠ w.nc := fun hc e => hc (e ▸ hfresh)
      have hout : (step w (.init k l true)).2 = [.ret l .ok] := by simp [step, init, hX]
      have hlsts : (step w (.init k l true)).1.lsts = fun i => if i = l then
          some { cb := some k, data := w.nc, type := some k, initialized := true } else w.lsts i := by
        simp [step, init, hX, W.setL, W.setC]
      have hctxs : (step w (.init k l true)).1.ctxs = fun i => if i = w.nc then
          some { kind := k, listener := l } else w.ctxs i := by
        simp [step, init, hX, W.setL, W.setC]
      have hregs : (step w (.init k l true)).1.regs = fun j => if j = k then w.regs j ++ [w.nc] else w.regs j := by
        simp [step, init, hX, W.setL, W.setC]
      have hall : (step w (.init k l true)).1.all = w.all := by simp [step, init, hX, W.setL, W.setC]
      have hnl : (step w (.init k l true)).1.nl = w.nl := by simp [step, init, hX, W.setL, W.setC]
      have hnc : (step w (.init k l true)).1.nc = w.nc + 1 := by simp [step, init, hX, W.setL, W.setC]
      have hbad : (step w (.init k l true)).1.bad = w.bad := by simp [step, init, hX, W.setL, W.setC]
      have hmade : (step w (.init k l true)).1.made = w.made := by simp [step, init, hX, W.setL, W.setC]
      have hfreed : (step w (.init k l true)).1.freed = w.freed := by simp [step, init, hX, W.setL, W.setC]
      generalize hw' : (step w (.init k l true)).1 = w' at *
      have hin : l ∈ w.all := (h.all l).2 (by simp [hX])
      have hsub : ∀ k' c, c ∈ w.regs k' → c ∈ w'.regs k' := by
        intro k' c hc; rw [hregs]; by_cases e : k' = k <;> simp [e] at * <;> simp [hc]
      have hothers : ∀ j, j ≠ l → view w' j = view w j := by
        intro j hj
        simp only [view, hlsts, if_neg hj]
        cases hY : w.lsts j with
        | none => rfl
        | some Y =>
          cases h.shape j Y hY with
          | raw hr => subst hr; rfl
          | over k' ho => simp [ho.fut]
          | live k' y ho =>
            have hcc : w'.ctxs Y.data = w.ctxs Y.data := by
              rw [hctxs]; exact if_neg (hne (by rw [ho.ctx]; simp))
            simp only [Option.map_some, hcc]
      refine ⟨?_, fun j => ?_, fun j => ?_⟩
      · rw [hw']
        refine ⟨hbad.trans h.good, ?_, ?_, ?_, hall ▸ h.nodup, ?_, ?_, ?_, ?_, ?_⟩
        · intro j hj
          rw [hnl]
          by_cases e : j = l
          · subst e; exact h.below j (by simp [hX])
          · exact h.below j (by simpa [hlsts, e] using hj)
        · intro c hc
          rw [hnc]
          by_cases e : c = w.nc
          · omega
          · have := h.cbelow c (by simpa [hctxs, e] using hc); omega
        · intro j
          rw [hall, hlsts]
          by_cases e : j = l
          · simp [e, hin]
          · simp [e, h.all j]
        · intro j Y hY
          by_cases e : j = l
          · subst e
            simp only [hlsts, if_true] at hY
            injection hY with hY
            subst hY
            refine .live k { kind := k, listener := j } ⟨rfl, rfl, rfl, rfl, .inl rfl, by simp, ?_, ?_, rfl, rfl,
              fun _ => rfl, by simp⟩
            · simp [hregs]
            · simp [hctxs]
          · simp only [hlsts, if_neg e] at hY
            cases h.shape j Y hY with
            | raw hr => exact .raw hr
            | over k' ho => exact .over k' ho
            | live k' y ho =>
              refine .live k' y { ho with reg := hsub _ _ ho.reg, ctx := ?_ }
              rw [hctxs]; simp only [if_neg (hne (by rw [ho.ctx]; simp : w.ctxs Y.data ≠ none))]; exact ho.ctx
        · intro c x hx
          by_cases e : c = w.nc
          · subst e
            simp only [hctxs, if_true] at hx
            injection hx with hx; subst hx
            exact ⟨{ cb := some k, data := w.nc, type := some k, initialized := true }, by simp [hlsts], rfl, rfl, rfl⟩
          · simp only [hctxs, if_neg e] at hx
            obtain ⟨Y, hY, hd, he, ht⟩ := h.ctx c x hx
            by_cases e' : x.listener = l
            · rw [e', hX] at hY; injection hY with hY; subst hY; simp at ht
            · exact ⟨Y, by simp [hlsts, e', hY], hd, he, ht⟩
        · intro k' c hc
          rw [hregs] at hc
          have : c ∈ w.regs k' ∨ (c = w.nc ∧ k' = k) := by
            by_cases e : k' = k
            · simp only [e, if_true, List.mem_append, List.mem_singleton] at hc
              exact hc.imp (fun h => e ▸ h) (fun h => ⟨h, e⟩)
            · simp only [if_neg e] at hc; exact .inl hc
          rcases this with hc | ⟨hc, hk'⟩
          · obtain ⟨y, hy, hyk⟩ := h.reg k' c hc
            exact ⟨y, by simp [hctxs, hne (by rw [hy]; simp : w.ctxs c ≠ none), hy], hyk⟩
          · exact ⟨{ kind := k, listener := l }, by simp [hctxs, hc], hk'.symm⟩
        · intro k'
          rw [hregs]
          by_cases e : k' = k
          · simp only [e, if_true]
            rw [List.nodup_append]
            refine ⟨h.regs k, by simp, ?_⟩
            intro a ha b hb
            rw [List.mem_singleton.1 hb]
            obtain ⟨y, hy, _⟩ := h.reg k a ha
            exact hne (by rw [hy]; simp)
          · simp only [if_neg e]; exact h.regs k'
        · have := held_put w w' l _ hlsts hall h.nodup hin {} hX
          have hc := h.count
          simp only [List.length_nil] at this
          omega
      · rw [hw', hnl]
        by_cases e : l = j
        · subst e
          simp [Spec.step, Spec.on, ha, view, hlsts, (hr l).2]
        · simp only [Spec.step, if_neg e]
          rw [hothers j (Ne.symm e)]
          exact hr j
      · rw [hout]
        by_cases e : l = j
        · subst e; simp [Spec.step, Spec.on, ha, of]
        · simp [Spec.step, e, of]

theorem done_listen {w : W} {s : Nat → S} (h : Inv w) (hr : Rel w s) (k : Kind) (l f : Nat) (ref ev : Option Nat)
    (hf : ∀ j, Spec.fine j (s j) (.listen k l f ref ev)) : Done w s (.listen k l f ref ev) := by
  obtain ⟨hne, hp⟩ := hf l rfl
  obtain ⟨a, ha⟩ := Option.ne_none_iff_exists'.1 hne
  have hv := (hr l).1
  rw [ha] at hv
  have hs : ∀ j, Spec.step j (s j) (.listen k l f ref ev) =
      if l = j then Spec.on (s j) (fun a => Spec.listen j a k f ref ev) else (s j, []) := fun j => rfl
  have hs' : ∀ j, Spec.step j (s j) (.listen k l f ref ev) =
      if l = j then Spec.on (s j) (fun a => Spec.listen l a k f ref ev) else (s j, []) := by
    intro j; rw [hs j]; by_cases e : l = j <;> simp [e]
  cases hX : w.lsts l with
  | none => simp [view, hX] at hv
  | some X =>
    have triv : ∀ e, listen w k l f ref ev = (w, [.resolve l f e]) → Spec.listen l a k f ref ev = (a, [.resolve l f e]) →
        Done w s (.listen k l f ref ev) := by
      intro e h1 h2
      have h1' : step w (.listen k l f ref ev) = (w, [.resolve l f e]) := h1
      refine Done.single (d := 0) hr ha hs' ?_ ?_ ?_ ?_
      · rw [h1']; exact Near.refl h ..
      · rw [h1', h2]; exact hv
      · rw [h1', h2]
      · exact listen_of _ _ _ _ _ _
    cases h.shape l X hX with
    | raw hr' =>
      subst hr'
      rw [view_raw hX] at hv; injection hv with hv; subst hv
      exact triv .invalidArgument (by simp [listen, hX]) (by simp [Spec.listen])
    | over k' ho =>
      rw [view_over hX ho] at hv; injection hv with hv; subst hv
      by_cases e : k' = k
      · subst e
        exact triv X.ec (by simp [listen, hX, ho.type, ho.ec]) (by simp [Spec.listen, ho.ec])
      · exact triv .invalidArgument (by simp [listen, hX, ho.type, e]) (by simp [Spec.listen, e])
    | live k' x ho =>
      rw [ho.view hX] at hv; injection hv with hv; subst hv
      by_cases e : k' = k
      · subst e
        have hd := listen_open (f := f) (ref := ref) (ev := ev) h hX ho hp
        exact Done.single hr ha hs' hd.near hd.me hd.outs (listen_of _ _ _ _ _ _)
      · exact triv .invalidArgument (by simp [listen, hX, ho.type, e]) (by simp [Spec.listen, look, ho.type, e])

theorem done_stop {w : W} {s : Nat → S} (h : Inv w) (hr : Rel w s) (l : Nat)
    (hf : ∀ j, Spec.fine j (s j) (.stop l)) : Done w s (.stop l) := by
  obtain ⟨a, ha⟩ := Option.ne_none_iff_exists'.1 (hf l rfl)
  have hv := (hr l).1
  rw [ha] at hv
  obtain ⟨d, hn, hm, ho⟩ := stop_spec h hv
  refine Done.single (f := fun a => ((Spec.stop l a).1,
    (Spec.stop l a).2 ++ [.ret l (if a.kind = none then .invalidState else .ok)])) hr ha ?_ hn hm ?_ ?_
  · intro j; by_cases e : l = j <;> simp [Spec.step, e]
  · show (stopInternal w l).2.2 ++ [.ret l (stopInternal w l).2.1] = _
    rw [ho]
  · intro o ho
    rcases List.mem_append.1 ho with ho | ho
    · exact stop_of l a o ho
    · rw [List.mem_singleton.1 ho]; simp [of]

theorem done_free {w : W} {s : Nat → S} (h : Inv w) (hr : Rel w s) (l : Nat)
    (hf : ∀ j, Spec.fine j (s j) (.free l)) : Done w s (.free l) := by
  obtain ⟨a, ha, hopen⟩ := hf l rfl
  have hv := (hr l).1
  rw [ha] at hv
  cases hX : w.lsts l with
  | none => simp [view, hX] at hv
  | some X =>
    have hnot : (∀ k x, ¬ Open w l X k x) ∧ X.events = [] := by
      cases h.shape l X hX with
      | raw hr => subst hr; exact ⟨fun k x ho => by have := ho.type; simp at this, rfl⟩
      | over k' ho' => exact ⟨fun k x ho => ho'.ec ho.ec, ho'.events⟩
      | live k' x ho =>
        rw [ho.view hX] at hv; injection hv with hv; subst hv
        simp [look, L.isOpen, ho.type, ho.ec] at hopen
    have e : step w (.free l) = ({ w with lsts := fun i => if i = l then none else w.lsts i, all := w.all.filter (· ≠ l) }, []) := by
      simp [step, free, hX]
    have hin : l ∈ w.all := (h.all l).2 (by simp [hX])
    refine ⟨?_, fun j => ?_, fun j => ?_⟩
    · rw [e]
      refine ⟨h.good, ?_, h.cbelow, ?_, h.nodup.filter _, ?_, ?_, h.reg, h.regs, ?_⟩
      · intro j hj
        by_cases e : j = l
        · simp [e] at hj
        · exact h.below j (by simpa [e] using hj)
      · intro j
        by_cases e : j = l
        · simp [e]
        · simp [e, h.all j]
      · intro j Y hY
        by_cases e : j = l
        · simp [e] at hY
        · simp only [if_neg e] at hY
          cases h.shape j Y hY with
          | raw hr => exact .raw hr
          | over k' ho => exact .over k' ho
          | live k' y ho => exact .live k' y { ho with }
      · intro c x hx
        obtain ⟨Y, hY, hd, he, ht⟩ := h.ctx c x hx
        by_cases e : x.listener = l
        · rw [e, hX] at hY
          injection hY with hY; subst hY
          obtain ⟨y, hy⟩ := h.live hX ht he
          exact absurd hy (hnot.1 _ _)
        · exact ⟨Y, by simp [e, hY], hd, he, ht⟩
      · have hc := h.count
        rw [hc]
        show w.freed + total w = w.freed + ((w.all.filter (· ≠ l)).map _).sum
        congr 1
        unfold total
        have aux : ∀ xs : List Nat, (xs.map (held w)).sum = ((xs.filter (· ≠ l)).map
            (held { w with lsts := fun i => if i = l then none else w.lsts i, all := w.all.filter (· ≠ l) })).sum := by
          intro xs
          induction xs with
          | nil => rfl
          | cons b bs ih =>
            by_cases e : b = l
            · subst e
              simpa [held, hX, hnot.2] using ih
            · have : held { w with lsts := fun i => if i = l then none else w.lsts i, all := w.all.filter (· ≠ l) } b = held w b := by
                simp [held, e]
              rw [List.filter_cons_of_pos (by simpa using e), List.map_cons, List.map_cons, List.sum_cons, List.sum_cons, this, ih]
        exact aux w.all
    · rw [e]
      by_cases e' : l = j
      · subst e'; simp [Spec.step, view, (hr l).2]
      · have := hr j
        simp only [Spec.step, if_neg e']
        simpa [view, Ne.symm e'] using this
    · rw [e]
      by_cases e' : l = j <;> simp [Spec.step, e']

theorem done_stopAll {w : W} {s : Nat → S} (h : Inv w) (hr : Rel w s) : Done w s .stopAll := by
  obtain ⟨i1, i2, i3⟩ := stopAllGo_spec w.all w h h.nodup (fun l hl => (h.all l).1 hl)
  have key : ∀ j, view (stopAllGo w w.all).1 j = (view w j).map (fun a => (Spec.stop j a).1) ∧
      (stopAllGo w w.all).2.filter (of j) = (view w j).elim [] (fun a => (Spec.stop j a).2) := by
    intro j
    by_cases hj : j ∈ w.all
    · obtain ⟨a, h1, h2, h3⟩ := (i3 j).1 hj
      rw [h1]; exact ⟨h2, h3⟩
    · obtain ⟨h2, h3⟩ := (i3 j).2 hj
      have : view w j = none := by
        have : w.lsts j = none := Classical.byContradiction fun hn => hj ((h.all j).2 hn)
        simp [view, this]
      rw [h2, h3, this]; exact ⟨rfl, rfl⟩
  refine ⟨i1, fun j => ?_, fun j => ?_⟩
  · obtain ⟨e1, e2, e3⟩ := on_elim (s j) (fun a => Spec.stop j a)
    show view (stopAllGo w w.all).1 j = (Spec.on (s j) _).1.me ∧ (stopAllGo w w.all).1.nl = (Spec.on (s j) _).1.n
    rw [e1, e2, (key j).1, (hr j).1, i2, (hr j).2]
    exact ⟨rfl, rfl⟩
  · obtain ⟨e1, e2, e3⟩ := on_elim (s j) (fun a => Spec.stop j a)
    show (stopAllGo w w.all).2.filter (of j) = (Spec.on (s j) _).2
    rw [e3, (key j).2, (hr j).1]

theorem done_notify {w : W} {s : Nat → S} (h : Inv w) (hr : Rel w s) (v : Val) (mem : Nat → Bool) :
    Done w s (.notify v mem) := by
  obtain ⟨i1, i2, i3⟩ := notify_spec h v mem
  refine ⟨i1, fun j => ?_, fun j => ?_⟩
  · obtain ⟨e1, e2, e3⟩ := on_elim (s j) (fun a => Spec.offer j a v (mem j))
    show view (notify w v mem).1 j = (Spec.on (s j) _).1.me ∧ (notify w v mem).1.nl = (Spec.on (s j) _).1.n
    rw [e1, e2, (i3 j).1, (hr j).1, i2, (hr j).2]
    exact ⟨rfl, rfl⟩
  · obtain ⟨e1, e2, e3⟩ := on_elim (s j) (fun a => Spec.offer j a v (mem j))
    show (notify w v mem).2.filter (of j) = (Spec.on (s j) _).2
    rw [e3, (i3 j).2, (hr j).1]

theorem done {w : W} {s : Nat → S} (h : Inv w) (hr : Rel w s) (c : Call) (hf : ∀ l, Spec.fine l (s l) c) :
    Done w s c := by
  cases c with
  | new mem => exact done_new h hr mem
  | init k l mem => exact done_init h hr k l mem hf
  | listen k l f ref ev => exact done_listen h hr k l f ref ev hf
  | stop l => exact done_stop h hr l hf
  | free l => exact done_free h hr l hf
  | stopAll => exact done_stopAll h hr
  | notify v mem => exact done_notify h hr v mem

theorem run_spec (cs : List Call) : ∀ (w : W) (s : Nat → S), Inv w → Rel w s → (∀ l, Spec.Fine l (s l) cs) →
    Inv (run w cs).1 ∧ Rel (run w cs).1 (fun l => (Spec.run l (s l) cs).1) ∧
    ∀ l, (run w cs).2.filter (of l) = (Spec.run l (s l) cs).2 := by
  induction cs with
  | nil => intro w s h hr _; exact ⟨h, hr, fun _ => rfl⟩
  | cons c cs ih =>
    intro w s h hr hf
    have hd := done h hr c (fun l => (hf l).1)
    obtain ⟨h1, h2, h3⟩ := ih _ _ hd.inv hd.rel (fun l => (hf l).2)
    refine ⟨h1, h2, fun l => ?_⟩
    show ((step w c).2 ++ (run (step w c).1 cs).2).filter (of l) = (Spec.step l (s l) c).2 ++ _
    rw [List.filter_append, hd.outs l, h3 l]

theorem inv_init : Inv {} :=
  ⟨rfl, by simp, by simp, by simp, by simp, by simp, by simp, by simp, by simp, rfl⟩

theorem rel_init : Rel {} (fun _ => {}) := fun _ => ⟨rfl, rfl⟩

end Verif.Api.Events
