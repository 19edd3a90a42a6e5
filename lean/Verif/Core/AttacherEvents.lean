import Verif.Core.AttacherSoft

/-!
# Attacher: the observations of each step

Helper lemmas for `AttacherProps.lean`.
-/

namespace Verif.Core.Attacher

open Spec

/-- The observations grow by a list with a property. -/
def Grow (p : Obs → Prop) (s t : St) : Prop := ∃ l, t.out = s.out ++ l ∧ ∀ o ∈ l, p o

theorem Grow.refl {p s t} (h : t.out = s.out) : Grow p s t := ⟨[], by simp [h], by simp⟩

theorem Grow.trans {p s t u} (h : Grow p s t) (g : Grow p t u) : Grow p s u := by
  obtain ⟨l, h1, h2⟩ := h
  obtain ⟨m, g1, g2⟩ := g
  refine ⟨l ++ m, by rw [g1, h1, List.append_assoc], ?_⟩
  intro o ho
  rcases List.mem_append.1 ho with h | h
  · exact h2 o h
  · exact g2 o h

theorem Grow.mono {p q : Obs → Prop} {s t} (h : Grow p s t) (hpq : ∀ o, p o → q o) : Grow q s t := by
  obtain ⟨l, h1, h2⟩ := h
  exact ⟨l, h1, fun o ho => hpq o (h2 o ho)⟩

theorem Grow.mem {p s t} (h : Grow p s t) {o} (ho : o ∈ t.out) : o ∈ s.out ∨ p o := by
  obtain ⟨l, h1, h2⟩ := h
  rw [h1, List.mem_append] at ho
  exact ho.imp id (h2 o)

theorem Grow.emit {p : Obs → Prop} (s : St) {o} (h : p o) : Grow p s (s.emit o) :=
  ⟨[o], rfl, by simpa using h⟩

theorem Grow.enter {p : Obs → Prop} (s : St) (h1 : s.state = .dns → p (.resolve s.dns)) (h2 : p (.notify s.state)) : Grow p s s.enter := by
  refine ⟨_, enter_out s, ?_⟩
  intro o ho
  rw [List.mem_append] at ho
  rcases ho with ho | ho
  · split at ho
    · next h => simp at ho; subst ho; exact h1 h
    · cases ho
  · simp at ho; subst ho; exact h2

/-- Where the name comes from which an action gives to the resolver. -/
def resolves (s : St) : Act → Option String → Prop
  | .start h _ m, n => m = true ∧ s.mod = .setup ∧ n = some h
  | .timer _, n => n = some s.host
  | .restart _, n => s.mod = .closed ∧ n = some s.host
  | .startResponse (.redirect h _ true) _, n => n = some h
  | .startResponse (.redirect _ _ false) _, n => n = none ∧ s.state = .redirect
  | .resolved .., _ => False
  | _, n => n = s.dns ∧ s.state = .redirect

/-- What can be observed during an action. -/
def stepObs (s : St) (a : Act) : Obs → Prop
  | .closedCb cb => a = .closeEvent ∧ s.closedCb = some cb
  | .connect _ _ sni => sni = s.host ∧ ∃ ips e, a = .resolved ips e
  | .resolve n => resolves s a n
  | .event .attached => ∃ r e, a = .endResponse r e
  | _ => True

theorem Soft.grow {s t a} (h : Soft s t) (hr : ∀ n, n = s.dns ∧ s.state = .redirect → resolves s a n) : Grow (stepObs s a) s t := by
  obtain ⟨l, h1, h2⟩ := h.outs
  refine ⟨l, h1, fun o ho => ?_⟩
  have := h2 o ho
  unfold stepObs
  split
  · cases this
  · cases this
  · exact hr _ this
  · cases this
  · trivial

/-- The observations after `s'`, which differs from `s` in fields which `stepObs` does not speak about. -/
theorem Soft.grow' {s s' t a} (h : Soft s' t) (ho : s'.out = s.out)
    (hr : ∀ n, n = s'.dns ∧ s'.state = .redirect → resolves s a n) : Grow (stepObs s a) s t := by
  obtain ⟨l, h1, h2⟩ := h.outs
  refine ⟨l, by rw [h1, ho], fun o ho => ?_⟩
  have := h2 o ho
  unfold stepObs
  split
  · cases this
  · cases this
  · exact hr _ this
  · cases this
  · trivial

theorem doClose_soft (s : St) (b) : Grow (fun o => match o with
    | .event .detached => s.state = .attached
    | .notify _ => True
    | .event .certificate => True
    | _ => False) s (s.doClose b) ∧ (s.doClose b).closedCb = s.closedCb ∧ (s.doClose b).host = s.host := by
  unfold St.doClose
  split
  · exact ⟨.refl rfl, rfl, rfl⟩
  · split
    · exact ⟨⟨_, enter_out _, by simp⟩, rfl, rfl⟩
    · exact ⟨⟨_, enter_out _, by simp⟩, rfl, rfl⟩
    · exact ⟨.refl rfl, rfl, rfl⟩
    · next hst =>
      have h := Soft.asyncClose ({ s with mod := .closed } : St) b
      refine ⟨?_, h.keeps.2.1, h.keeps.2.2.1⟩
      unfold St.asyncClose
      split
      · exact .refl rfl
      · split
        · exact .refl rfl
        · simp only
          split
          · exact .refl rfl
          · refine ⟨_, down_out _ _, ?_⟩
            simp [St.setConn, hst, downState]
    · next hst =>
      have h := Soft.asyncClose ({ s with mod := .closed } : St) b
      refine ⟨?_, h.keeps.2.1, h.keeps.2.2.1⟩
      unfold St.asyncClose
      split
      · exact .refl rfl
      · split
        · exact .refl rfl
        · simp only
          split
          · exact .refl rfl
          · refine ⟨_, down_out _ _, ?_⟩
            simp [St.setConn, hst, downState]
    · exact ⟨.refl rfl, rfl, rfl⟩
    · exact ⟨.refl rfl, rfl, rfl⟩

theorem storeName_out (s : St) (r) : (s.storeName r).out = s.out := by unfold St.storeName; split <;> rfl

theorem storeName_host (s : St) (r) : (s.storeName r).host = s.host := by unfold St.storeName; split <;> rfl

theorem storeName_redirects (s : St) (r) : (s.storeName r).redirects = s.redirects := by unfold St.storeName; split <;> rfl

/-- The state after an answer to attach start, before a connection is closed. -/
theorem startCallback_soft (s : St) (r e) : ∃ s', Soft s' (s.startCallback r e) ∧ s'.out = s.out ∧ s'.mod = s.mod ∧ s'.host = s.host ∧
    s'.closedCb = s.closedCb ∧ s'.dns = (s.storeName r).dns ∧
    ((s'.state = s.state ∧ s'.redirects = s.redirects) ∨
      (∃ h p, r = .redirect h p true ∧ s.mod ≠ .closed ∧ s'.state = .redirect ∧ s'.redirects = s.redirects + 1)) := by
  unfold St.startCallback
  have hst := (storeName_same { s with startReq := none } r).1
  have ho := storeName_out { s with startReq := none } r
  have hh := storeName_host { s with startReq := none } r
  have hre := storeName_redirects { s with startReq := none } r
  have hd : (({ s with startReq := none } : St).storeName r).dns = (s.storeName r).dns := by
    unfold St.storeName; split <;> rfl
  generalize ({ s with startReq := none } : St).storeName r = s' at *
  have base : s'.out = s.out ∧ s'.mod = s.mod ∧ s'.host = s.host ∧ s'.closedCb = s.closedCb ∧ s'.dns = (s.storeName r).dns ∧
    ((s'.state = s.state ∧ s'.redirects = s.redirects) ∨
      (∃ h p, r = .redirect h p true ∧ s.mod ≠ .closed ∧ s'.state = .redirect ∧ s'.redirects = s.redirects + 1)) :=
    ⟨ho, hst.mod, hh, hst.closedCb, hd, .inl ⟨hst.state, hre⟩⟩
  simp only
  split
  · exact ⟨s', .asyncClose _ _, base⟩
  · next hm =>
    split
    · exact ⟨s', .sendAttachSct _ _, base⟩
    · next h p => exact ⟨_, .asyncClose _ _, ho, hst.mod, hh, hst.closedCb, hd, .inr ⟨h, p, rfl, by
        have := hst.mod; simp only at this; rw [← this]; exact hm, rfl, by simp only; rw [hre]⟩⟩
    · exact ⟨s', .trans (.emit _ (.refl _) rfl) (.asyncClose _ _), base⟩
    · exact ⟨s', .trans (.emit _ (.refl _) rfl) (.asyncClose _ _), base⟩
    · exact ⟨s', .trans (.emit _ (.refl _) rfl) (.asyncClose _ _), base⟩
    · exact ⟨s', .asyncClose _ _, base⟩
    · exact ⟨s', .asyncClose _ _, base⟩
    · exact ⟨s', .asyncClose _ _, base⟩

theorem step_obs {s a t} (hst : step s a = some t) : Grow (stepObs s a) s t := by
  by_cases hs : Soft.act a = true
  · refine (Soft.step hs hst).grow ?_
    intro n hn
    cases a <;> first | exact hn | cases hs
  · cases a with
    | addToken | connected | fail | send | sent | sctResponse | keepAliveTimeout | deferred => exact absurd rfl hs
    | start h p m =>
      cases hst
      unfold St.start
      split
      · exact .refl rfl
      · next hm =>
        split
        · exact .refl rfl
        · next hmm =>
          have hm : s.mod = .setup := by cases hmm : s.mod <;> simp_all
          obtain ⟨l, h1, h2⟩ := Grow.enter (p := stepObs s (.start h p m)) { s with dns := some h, state := .dns, mod := .running, host := h, defaultPort := p, port := p }
            (fun _ => ⟨by simpa using hmm, hm, rfl⟩) trivial
          exact ⟨l, h1, h2⟩
    | close cb b =>
      cases hst
      obtain ⟨l, h1, h2⟩ := (doClose_soft { s with closedCb := some cb } b).1
      refine ⟨l, h1, fun o ho => ?_⟩
      have := h2 o ho
      unfold stepObs
      split <;> simp_all
    | stop b =>
      cases hst
      obtain ⟨l, h1, h2⟩ := (doClose_soft { s with keepAlive := false } b).1
      refine ⟨l, h1, fun o ho => ?_⟩
      have := h2 o ho
      unfold stepObs
      split <;> simp_all
    | restart m =>
      cases hst
      unfold St.restart
      split
      · exact .refl rfl
      · next hm =>
        simp only
        split
        · unfold St.reattach
          rw [if_neg (by simp)]
          split
          · obtain ⟨l, h1, h2⟩ := Grow.enter (p := stepObs s (.restart m)) { s with mod := .running, dns := none, state := .retryWait } (fun h => by cases h) trivial
            exact ⟨l, h1, h2⟩
          · obtain ⟨l, h1, h2⟩ := Grow.enter (p := stepObs s (.restart m)) { s with mod := .running, dns := some s.host, port := s.defaultPort, state := .dns, redirects := 0 } (fun _ => ⟨by simpa using hm, rfl⟩) trivial
            exact ⟨l, h1, h2⟩
        · exact .refl rfl
    | resolved ips e =>
      simp only [Attacher.step] at hst
      split at hst
      · cases hst
        unfold St.resolved
        simp only
        split
        · obtain ⟨l, h1, h2⟩ := Grow.enter (p := stepObs s (.resolved ips e)) { s with resolving := false, state := .closed } (fun h => by cases h) trivial
          exact ⟨l, h1, h2⟩
        · cases ips with
          | none =>
            obtain ⟨l, h1, h2⟩ := Grow.enter (p := stepObs s (.resolved none e)) { s with resolving := false, state := .retryWait } (fun h => by cases h) trivial
            exact ⟨l, h1, h2⟩
          | some ips =>
            simp only [St.enterRequest]
            split
            · exact .refl rfl
            · generalize hs1 : ({ s with
                resolving := false, state := .request, endpoints := (ips.take 4).map (fun ip => (ip, s.port))
                conns := s.conns ++ [{ id := s.nextId, sending := e.sending }], nextId := s.nextId + 1, dtls := some s.nextId } : St).emit
                  (.connect s.nextId ((ips.take 4).map (fun ip => (ip, s.port))) s.host) = s1
              have h1 : Grow (stepObs s (.resolved (some ips) e)) s s1 := by
                refine ⟨[.connect s.nextId ((ips.take 4).map (fun ip => (ip, s.port))) s.host], by subst hs1; rfl, ?_⟩
                intro o ho
                simp at ho
                subst ho
                exact ⟨rfl, _, _, rfl⟩
              have hst1 : s1.state = .request := by subst hs1; rfl
              split
              · exact h1.trans (.emit _ trivial)
              · next d hd =>
                refine h1.trans (Grow.trans ?_ (.emit _ trivial))
                have hso : Soft s1 ((s1.setConn { id := s.nextId, sending := e.sending, phase := .closing }).down d) := .down _ (.setConn _ _)
                obtain ⟨l, g1, g2⟩ := hso.outs
                refine ⟨l, g1, fun o ho => ?_⟩
                have := g2 o ho
                unfold stepObs
                split
                · cases this
                · cases this
                · have := this.2; rw [hst1] at this; cases this
                · cases this
                · trivial
      · cases hst
    | startResponse r e =>
      simp only [Attacher.step] at hst
      split at hst
      · cases hst
      · split at hst
        · cases hst
          obtain ⟨s', h1, h2, h3, h4, h5, h6, h7⟩ := startCallback_soft s r e
          refine h1.grow' h2 ?_
          intro n hn
          rw [h6] at hn
          rcases h7 with h7 | ⟨h, p, hr, _⟩
          · rw [h7.1] at hn
            unfold St.storeName at hn
            unfold resolves
            split <;> simp_all
          · subst hr
            exact hn.1
        · cases hst
    | endResponse r e =>
      simp only [Attacher.step] at hst
      split at hst
      · cases hst
      · split at hst
        · cases hst
          unfold St.endCallback
          have hr : ∀ n, n = s.dns ∧ s.state = .redirect → resolves s (.endResponse r e) n := fun n hn => hn
          simp only
          split
          · exact (Soft.asyncClose ({ s with endReq := none } : St) _).grow' rfl hr
          · split
            · exact (Soft.asyncClose ({ s with endReq := none } : St) _).grow' rfl hr
            · have h1 : Grow (stepObs s (.endResponse r e)) s (({ s with endReq := none, keepAlive := true, state := .attached } : St).enter.emit (.event .attached)) := by
                refine ⟨[.notify .attached, .event .attached], by simp [St.emit, St.enter, St.notify], ?_⟩
                intro o ho
                simp at ho
                rcases ho with ho | ho <;> subst ho
                · trivial
                · exact ⟨_, _, rfl⟩
              refine h1.trans ?_
              obtain ⟨l, g1, g2⟩ := (Soft.sendSct (({ s with endReq := none, keepAlive := true, state := .attached } : St).enter.emit (.event .attached)) e).outs
              refine ⟨l, g1, fun o ho => ?_⟩
              have := g2 o ho
              unfold stepObs
              split
              · cases this
              · cases this
              · have := this.2; cases this
              · cases this
              · trivial
        · cases hst
    | timer m =>
      simp only [Attacher.step] at hst
      split at hst
      · cases hst
        unfold St.reattach
        split
        · obtain ⟨l, h1, h2⟩ := Grow.enter (p := stepObs s (.timer m)) { s with timer := none, state := .closed } (fun h => by cases h) trivial
          exact ⟨l, h1, h2⟩
        · split
          · obtain ⟨l, h1, h2⟩ := Grow.enter (p := stepObs s (.timer m)) { s with timer := none, dns := none, state := .retryWait } (fun h => by cases h) trivial
            exact ⟨l, h1, h2⟩
          · obtain ⟨l, h1, h2⟩ := Grow.enter (p := stepObs s (.timer m)) { s with timer := none, dns := some s.host, port := s.defaultPort, state := .dns, redirects := 0 } (fun _ => rfl) trivial
            exact ⟨l, h1, h2⟩
      · cases hst
    | closeEvent =>
      simp only [Attacher.step] at hst
      split at hst
      · cases hst
        unfold St.resolveClose
        simp only
        split
        · exact .refl rfl
        · next cb hcb =>
          have hcb : s.closedCb = some cb := hcb
          have h1 : Grow (stepObs s .closeEvent) s (({ s with closeEv := false, timer := none, closedCb := none } : St).emit (.closedCb cb)) :=
            ⟨[.closedCb cb], rfl, by simp [stepObs, hcb]⟩
          split
          · exact h1.trans (.emit _ trivial)
          · exact h1
      · cases hst

/-! ### Attached and detached events -/

theorem alternate_append (b : Bool) (l m : List Obs) : alternate b (l ++ m) = (alternate b l).bind (fun b' => alternate b' m) := by
  induction l generalizing b with
  | nil => rfl
  | cons o l ih =>
    have aux : ∀ o : Obs, (∀ l b, alternate b (o :: l) = alternate b l) ∨ o = .event .attached ∨ o = .event .detached := by
      intro o
      cases o with
      | event e => cases e <;> first | (left; intro l b; rfl) | (right; left; rfl) | (right; right; rfl)
      | _ => left; intro l b; rfl
    rcases aux o with h | h | h
    · rw [List.cons_append, h, h, ih]
    · subst h
      simp only [List.cons_append, alternate]
      split
      · rfl
      · exact ih true
    · subst h
      simp only [List.cons_append, alternate]
      split
      · exact ih false
      · rfl

def neutral (o : Obs) : Prop := o ≠ .event .attached ∧ o ≠ .event .detached

theorem alternate_neutral (b : Bool) (l : List Obs) (h : ∀ o ∈ l, neutral o) : alternate b l = some b := by
  induction l with
  | nil => rfl
  | cons o l ih =>
    have ho := h o (List.mem_cons_self ..)
    have ih := ih (fun x hx => h x (List.mem_cons_of_mem _ hx))
    cases o with
    | event e =>
      cases e <;> first | exact absurd rfl ho.1 | exact absurd rfl ho.2 | exact ih
    | _ => exact ih

/-- The events alternate, and the last one tells whether the device is attached. -/
def Alt (s : St) : Prop := alternate false s.out = some (decide (s.state = .attached))

theorem Alt.grow {s t} (h : Alt s) (hg : Grow neutral s t) (hs : t.state = .attached ↔ s.state = .attached) : Alt t := by
  obtain ⟨l, h1, h2⟩ := hg
  unfold Alt at *
  rw [h1, alternate_append, h, Option.bind_some, alternate_neutral _ _ h2]
  simp [hs]

theorem Alt.soft {s t} (h : Alt s) (hs : Soft s t) : Alt t := by
  induction hs with
  | refl => exact h
  | silent _ hs ih => exact ih.grow (.refl hs.out) (by rw [hs.state])
  | emit o _ ho ih =>
    refine ih.grow (.emit _ ?_) Iff.rfl
    constructor <;> (intro h; subst h; cases ho)
  | @down t e _ ih =>
    unfold Alt at *
    have hd := downState_cases t e
    rw [down_out, alternate_append, ih, Option.bind_some, (down_fields t e).1, List.append_assoc, List.append_assoc, alternate_append]
    have h1 : alternate (decide (t.state = .attached)) (if t.state = .attached then [.event .detached] else []) = some false := by
      by_cases h : t.state = .attached <;> simp [h, alternate]
    rw [h1, Option.bind_some, alternate_neutral]
    · have : downState t e ≠ .attached := by grind
      simp [this]
    · intro o ho
      simp only [List.mem_append] at ho
      rcases ho with ho | ho | ho
      · split at ho
        · simp at ho; subst ho; exact ⟨by simp, by simp⟩
        · cases ho
      · split at ho
        · simp at ho; subst ho; exact ⟨by simp, by simp⟩
        · cases ho
      · split at ho
        · cases ho
        · simp at ho; subst ho; exact ⟨by simp, by simp⟩

theorem Alt.enter {s t : St} (h : Alt s) (ho : t.out = s.out) (hs : s.state ≠ .attached) (ht : Idle t.state) : Alt t.enter := by
  refine h.grow ?_ ?_
  · obtain ⟨l, h1, h2⟩ := Grow.enter (p := neutral) t (fun _ => ⟨by simp, by simp⟩) ⟨by simp, by simp⟩
    exact ⟨l, by rw [h1, ho], h2⟩
  · rw [(enter_fields t ht).1]
    unfold Idle Waits at ht
    grind

theorem Alt.of {s t : St} (h : Alt s) (ho : t.out = s.out) (hs : t.state = s.state) : Alt t := h.grow (.refl ho) (by rw [hs])

theorem Alt.doClose {s b} (h : Alt s) : Alt (s.doClose b) := by
  unfold St.doClose
  split
  · exact h.of rfl rfl
  · split
    · next hs => exact h.enter rfl (by rw [hs]; intro h; cases h) (.inr (.inr (.inr rfl)))
    · next hs => exact h.enter rfl (by rw [hs]; intro h; cases h) (.inr (.inr (.inr rfl)))
    · exact h.of rfl rfl
    · exact (h.of (t := { s with mod := .closed }) rfl rfl).soft (.asyncClose _ _)
    · exact (h.of (t := { s with mod := .closed }) rfl rfl).soft (.asyncClose _ _)
    · exact h.of rfl rfl
    · exact h.of rfl rfl

theorem Alt.step {s a t} (h : Alt s) (hi : Inv s) (hg : Regular s a) (hcb : ∀ cb, s.closedCb = some cb → cb.disable = false)
    (hst : step s a = some t) : Alt t := by
  by_cases hs : Soft.act a = true
  · exact h.soft (Soft.step hs hst)
  · cases a with
    | addToken | connected | fail | send | sent | sctResponse | keepAliveTimeout | deferred => exact absurd rfl hs
    | start ho p m =>
      cases hst
      unfold St.start
      split
      · exact h
      · next hm =>
        split
        · exact h.of rfl rfl
        · have hm : s.mod = .setup := by cases hmm : s.mod <;> simp_all
          exact h.enter rfl (by rw [hi.sched.setup hm]; intro h; cases h) (.inl rfl)
    | close cb b => cases hst; exact (h.of (t := { s with closedCb := some cb }) rfl rfl).doClose
    | stop b => cases hst; exact (h.of (t := { s with keepAlive := false }) rfl rfl).doClose
    | restart m =>
      cases hst
      unfold St.restart
      split
      · exact h
      · next hm =>
        have hm : s.mod = .closed := by cases hmm : s.mod <;> simp_all
        have hsc := (hg hm).1
        simp only [hsc, if_true]
        unfold St.reattach
        rw [if_neg (by simp)]
        split
        · exact h.enter rfl (by rw [hsc]; intro h; cases h) (.inr (.inl rfl))
        · exact h.enter rfl (by rw [hsc]; intro h; cases h) (.inl rfl)
    | resolved ips e =>
      simp only [Attacher.step] at hst
      split at hst
      · next hr =>
        cases hst
        have hsd := (hi.sched.resolving.1 hr).1
        have hna : s.state ≠ .attached := by rw [hsd]; intro h; cases h
        unfold St.resolved
        simp only
        split
        · exact h.enter rfl hna (.inr (.inr (.inr rfl)))
        · cases ips with
          | none => exact h.enter rfl hna (.inr (.inl rfl))
          | some ips =>
            simp only [St.enterRequest]
            split
            · refine h.grow (.refl rfl) ?_
              simp [hna]
            · generalize hs1 : ({ s with
                resolving := false, state := .request, endpoints := (ips.take 4).map (fun ip => (ip, s.port))
                conns := s.conns ++ [{ id := s.nextId, sending := e.sending }], nextId := s.nextId + 1, dtls := some s.nextId } : St).emit
                  (.connect s.nextId ((ips.take 4).map (fun ip => (ip, s.port))) s.host) = s1
              have hst1 : s1.state = .request := by subst hs1; rfl
              have h1 : Alt s1 := by
                refine h.grow ⟨[.connect s.nextId ((ips.take 4).map (fun ip => (ip, s.port))) s.host], by subst hs1; rfl, ?_⟩ (by simp [hst1, hna])
                simp [neutral]
              split
              · exact h1.grow (.emit _ ⟨by simp, by simp⟩) Iff.rfl
              · exact (h1.soft (.down _ (.setConn _ _))).grow (.emit _ ⟨by simp, by simp⟩) Iff.rfl
      · cases hst
    | startResponse r e =>
      simp only [Attacher.step] at hst
      split at hst
      · cases hst
      · next conn hq =>
        split at hst
        · next ha =>
          cases hst
          obtain ⟨s', h1, h2, h3, h4, h5, h6, h7⟩ := startCallback_soft s r e
          refine Alt.soft ?_ h1
          rcases h7 with h7 | ⟨ho, p, hr, hm, hs', _⟩
          · exact h.of h2 h7.1
          · refine h.grow (.refl h2) ?_
            subst hr
            obtain ⟨c, hc, hp, hcc⟩ := answerable_cur (ha.resolve_left (by intro h; cases h))
            subst hcc
            have : s.state = .request := by
              rcases (hi.link c hc).2.2.2 hp with ⟨a, _⟩ | ⟨_, _, b⟩
              · exact a
              · exact absurd (.inl hq) b
            simp [hs', this]
        · cases hst
    | endResponse r e =>
      simp only [Attacher.step] at hst
      split at hst
      · cases hst
      · next conn hq =>
        split at hst
        · next ha =>
          cases hst
          unfold St.endCallback
          simp only
          split
          · exact (h.of (t := { s with endReq := none }) rfl rfl).soft (.asyncClose _ _)
          · next hr =>
            split
            · exact (h.of (t := { s with endReq := none }) rfl rfl).soft (.asyncClose _ _)
            · refine Alt.soft ?_ (.sendSct _ _)
              have hr : r = some true := by simpa using hr
              have hrn : r ≠ none := by rw [hr]; intro h; cases h
              obtain ⟨c, hc, hp, hcc⟩ := answerable_cur (ha.resolve_left hrn)
              subst hcc
              have hna : s.state = .request := by
                rcases (hi.link c hc).2.2.2 hp with ⟨a, _⟩ | ⟨_, _, b⟩
                · exact a
                · exact absurd (.inr (.inr hq)) b
              unfold Alt at *
              rw [hna] at h
              simp only [St.emit, St.enter, St.notify, alternate_append, h]
              simp [alternate]
        · cases hst
    | timer m =>
      simp only [Attacher.step] at hst
      split at hst
      · next ht =>
        cases hst
        have hna : s.state ≠ .attached := by
          have := hi.sched.timer.1 ht
          grind
        unfold St.reattach
        split
        · exact h.enter rfl hna (.inr (.inr (.inr rfl)))
        · split
          · exact h.enter rfl hna (.inr (.inl rfl))
          · exact h.enter rfl hna (.inl rfl)
      · cases hst
    | closeEvent =>
      simp only [Attacher.step] at hst
      split at hst
      · cases hst
        unfold St.resolveClose
        simp only
        split
        · exact h.of rfl rfl
        · next cb hc =>
          rw [hcb cb hc]
          simp only [Bool.false_eq_true, if_false]
          exact (h.of (t := { s with closeEv := false, timer := none, closedCb := none }) rfl rfl).grow (.emit _ ⟨by simp, by simp⟩) Iff.rfl
      · cases hst

/-! ### The callback of a close -/

/-- What an action does to the registered callback. -/
theorem step_closedCb {s a t} (hst : step s a = some t) :
    t.closedCb = match a with
      | .close cb _ => some cb
      | .closeEvent => none
      | _ => s.closedCb := by
  by_cases hs : Soft.act a = true
  · rw [(Soft.step hs hst).keeps.2.1]
    cases a <;> first | rfl | cases hs
  · have he : ∀ s : St, s.enter.closedCb = s.closedCb := by intro s; unfold St.enter; cases s.state <;> rfl
    cases a with
    | addToken | connected | fail | send | sent | sctResponse | keepAliveTimeout | deferred => exact absurd rfl hs
    | start ho p m =>
      cases hst
      unfold St.start
      split
      · rfl
      · split
        · rfl
        · exact he _
    | close cb b => cases hst; exact (doClose_soft _ _).2.1
    | stop b => cases hst; exact (doClose_soft _ _).2.1
    | restart m =>
      cases hst
      unfold St.restart
      split
      · rfl
      · simp only
        split
        · unfold St.reattach
          rw [if_neg (by simp)]
          split <;> exact he _
        · rfl
    | resolved ips e =>
      simp only [Attacher.step] at hst
      split at hst
      · cases hst
        unfold St.resolved
        simp only
        split
        · exact he _
        · split
          · exact he _
          · simp only [St.enterRequest]
            split
            · rfl
            · split
              · rfl
              · exact (down_fields _ _).2.2.2.2.1
      · cases hst
    | startResponse r e =>
      simp only [Attacher.step] at hst
      split at hst
      · cases hst
      · split at hst
        · cases hst
          obtain ⟨s', h1, h2, h3, h4, h5, h6, h7⟩ := startCallback_soft s r e
          exact h1.keeps.2.1.trans h5
        · cases hst
    | endResponse r e =>
      simp only [Attacher.step] at hst
      split at hst
      · cases hst
      · split at hst
        · cases hst
          unfold St.endCallback
          simp only
          split
          · exact (Soft.asyncClose ({ s with endReq := none } : St) _).keeps.2.1
          · split
            · exact (Soft.asyncClose ({ s with endReq := none } : St) _).keeps.2.1
            · exact (Soft.sendSct _ _).keeps.2.1
        · cases hst
    | timer m =>
      simp only [Attacher.step] at hst
      split at hst
      · cases hst
        unfold St.reattach
        split
        · exact he _
        · split <;> exact he _
      · cases hst
    | closeEvent =>
      simp only [Attacher.step] at hst
      split at hst
      · cases hst
        unfold St.resolveClose
        simp only
        split
        · assumption
        · split <;> rfl
      · cases hst

end Verif.Core.Attacher
