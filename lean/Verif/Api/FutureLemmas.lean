import Verif.Api.FutureSpec

/-!
# Futures — helper lemmas
-/

namespace Verif.Api.Future

open Spec

theorem run_append (w : World) (a b : List Ev) : run w (a ++ b) = (run w a).bind (run · b) := by
  induction a generalizing w with
  | nil => rfl
  | cons e es ih =>
    simp only [List.cons_append, run]
    cases h : step w e with
    | none => rfl
    | some w' => simp only [Option.bind_some]; exact ih w'

theorem run_snoc (w : World) (a : List Ev) (e : Ev) : run w (a ++ [e]) = (run w a).bind (step · e) := by
  rw [run_append]
  congr 1
  funext x
  simp only [run]
  cases step x e <;> rfl

theorem use_snoc (f : Nat) (evs : List Ev) (e : Ev) : use f (evs ++ [e]) = (use f evs).next f e := by
  simp [use]

theorem calls_append (f : Nat) (a b : List Obs) : calls f (a ++ b) = calls f a ++ calls f b := by
  induction a with
  | nil => rfl
  | cons o os ih =>
    cases o with
    | called g cb ec d =>
      simp only [List.cons_append, calls]
      split
      · rw [ih]; rfl
      · exact ih
    | returned a ec => exact ih

theorem calls_returned (f : Nat) (l : List Obs) (a : Waiter) (ec : Err) :
    calls f (l ++ [.returned a ec]) = calls f l := by
  rw [calls_append]; simp [calls]

/-- Where the callback thread is with respect to a future. -/
inductive At | away | took | calling (cb : Option Nat)
  deriving DecidableEq

def at_ (w : World) (f : Nat) : At :=
  match w.worker with
  | .idle => .away
  | .took g => if g = f then .took else .away
  | .calling g cb => if g = f then .calling cb else .away

/-- The future is neither in the queue nor with the callback thread. -/
def Out (w : World) (f : Nat) : Prop := f ∉ w.queue ∧ at_ w f = .away

/-- The states of one future. -/
inductive Good (w : World) (f : Nat) (u : Use) : Prop
  | unused (hp : u.phase = .unused) (hf : w.fut f = {}) (ho : Out w f) (hc : u.owed = calls f w.log)
  | started (c : Option (Nat × Nat)) (hp : u.phase = .started c) (hcb : (w.fut f).cb = c.map (·.1))
    (hd : ∀ x, c = some x → (w.fut f).cbData = x.2) (hr : (w.fut f).ready = false) (ho : Out w f)
    (hc : u.owed = calls f w.log)
  | settled (e : Err) (hp : u.phase = .done e) (hcb : (w.fut f).cb = none) (he : (w.fut f).ec = e)
    (hr : (w.fut f).ready = true) (ho : Out w f) (hc : u.owed = calls f w.log)
  | queued (e : Err) (c d : Nat) (hp : u.phase = .done e) (hcb : (w.fut f).cb = some c) (hd : (w.fut f).cbData = d)
    (he : (w.fut f).ec = e) (hr : (w.fut f).ready = true) (hq : f ∈ w.queue) (ha : at_ w f = .away)
    (hc : u.owed = calls f w.log ++ [(c, e, d)])
  | took (e : Err) (c d : Nat) (hp : u.phase = .done e) (hcb : (w.fut f).cb = some c) (hd : (w.fut f).cbData = d)
    (he : (w.fut f).ec = e) (hr : (w.fut f).ready = true) (hq : f ∉ w.queue) (ha : at_ w f = .took)
    (hc : u.owed = calls f w.log ++ [(c, e, d)])
  | calling (e : Err) (c d : Nat) (hp : u.phase = .done e) (hcb : (w.fut f).cb = none) (hd : (w.fut f).cbData = d)
    (he : (w.fut f).ec = e) (hr : (w.fut f).ready = true) (hq : f ∉ w.queue) (ha : at_ w f = .calling (some c))
    (hc : u.owed = calls f w.log ++ [(c, e, d)])

/-- The invariant. -/
structure Inv (w : World) (evs : List Ev) : Prop where
  good : ∀ f, Good w f (use f evs)
  nodup : w.queue.Nodup

theorem Good.frame {w w' : World} {f : Nat} {u : Use} (h : Good w f u) (h1 : w'.fut f = w.fut f)
    (h2 : f ∈ w'.queue ↔ f ∈ w.queue) (h3 : at_ w' f = at_ w f) (h4 : calls f w'.log = calls f w.log) :
    Good w' f u := by
  have hout : Out w f → Out w' f := fun h => ⟨fun hq => h.1 (h2.mp hq), h3.trans h.2⟩
  have hnq : f ∉ w.queue → f ∉ w'.queue := fun h hq => h (h2.mp hq)
  cases h with
  | unused hp hf ho hc => exact .unused hp (h1.trans hf) (hout ho) (hc.trans h4.symm)
  | started c hp hcb hd hr ho hc =>
    exact .started c hp (by rw [h1, hcb]) (by rw [h1]; exact hd) (by rw [h1, hr]) (hout ho) (hc.trans h4.symm)
  | settled e hp hcb he hr ho hc =>
    exact .settled e hp (by rw [h1, hcb]) (by rw [h1, he]) (by rw [h1, hr]) (hout ho) (hc.trans h4.symm)
  | queued e c d hp hcb hd he hr hq ha hc =>
    exact .queued e c d hp (by rw [h1, hcb]) (by rw [h1, hd]) (by rw [h1, he]) (by rw [h1, hr]) (h2.mpr hq)
      (h3.trans ha) (by rw [h4, hc])
  | took e c d hp hcb hd he hr hq ha hc =>
    exact .took e c d hp (by rw [h1, hcb]) (by rw [h1, hd]) (by rw [h1, he]) (by rw [h1, hr]) (hnq hq)
      (h3.trans ha) (by rw [h4, hc])
  | calling e c d hp hcb hd he hr hq ha hc =>
    exact .calling e c d hp (by rw [h1, hcb]) (by rw [h1, hd]) (by rw [h1, he]) (by rw [h1, hr]) (hnq hq)
      (h3.trans ha) (by rw [h4, hc])

theorem inv_init : Inv init [] := by
  refine ⟨fun f => ?_, List.nodup_nil⟩
  exact .unused rfl rfl ⟨by simp [init], rfl⟩ rfl

theorem good_settled_of {w : World} {f : Nat} {u : Use} {e : Err} (h : Good w f u) (hp : u.phase = .done e)
    (hc : calls f w.log = u.owed) : (w.fut f).ec = e ∧ (w.fut f).ready = true ∧ Out w f := by
  cases h with
  | settled e' hp' hcb he hr ho hc' => rw [hp] at hp'; cases hp'; exact ⟨he, hr, ho⟩
  | unused hp' hf ho hc' => rw [hp] at hp'; cases hp'
  | started c hp' hcb hd hr ho hc' => rw [hp] at hp'; cases hp'
  | queued e c d hp' hcb hd he hr hq ha hc' => rw [hc] at hc'; simp at hc'
  | took e c d hp' hcb hd he hr hq ha hc' => rw [hc] at hc'; simp at hc'
  | calling e c d hp' hcb hd he hr hq ha hc' => rw [hc] at hc'; simp at hc'

theorem good_started_of {w : World} {f : Nat} {u : Use} {c : Option (Nat × Nat)} (h : Good w f u)
    (hp : u.phase = .started c) : (w.fut f).cb = c.map (·.1) ∧ (∀ x, c = some x → (w.fut f).cbData = x.2) ∧
      (w.fut f).ready = false ∧ Out w f ∧ u.owed = calls f w.log := by
  cases h with
  | started c' hp' hcb hd hr ho hc =>
    rw [hp] at hp'; cases hp'
    exact ⟨hcb, hd, hr, ho, hc⟩
  | unused hp' => rw [hp] at hp'; cases hp'
  | settled e hp' => rw [hp] at hp'; cases hp'
  | queued e c d hp' => rw [hp] at hp'; cases hp'
  | took e c d hp' => rw [hp] at hp'; cases hp'
  | calling e c d hp' => rw [hp] at hp'; cases hp'

theorem signal_frame (w : World) (f p : Nat) : (signal w f p).fut = w.fut ∧ (signal w f p).queue = w.queue ∧
    (signal w f p).worker = w.worker ∧ (signal w f p).log = w.log := by
  unfold signal
  simp only
  split <;> exact ⟨rfl, rfl, rfl, rfl⟩

@[simp] theorem set_self (w : World) (f : Nat) (x : Fut) : (w.set f x).fut f = x := by simp [World.set]
theorem set_other (w : World) {f g : Nat} (x : Fut) (h : g ≠ f) : (w.set f x).fut g = w.fut g := by
  simp [World.set, h]
@[simp] theorem set_queue (w : World) (f : Nat) (x : Fut) : (w.set f x).queue = w.queue := rfl
@[simp] theorem set_log (w : World) (f : Nat) (x : Fut) : (w.set f x).log = w.log := rfl
@[simp] theorem set_worker (w : World) (f : Nat) (x : Fut) : (w.set f x).worker = w.worker := rfl

theorem post_eq (w : World) (f : Nat) (h : f ∉ w.queue) : post w f = some { w with queue := w.queue ++ [f] } :=
  if_neg h

theorem at_congr {w w' : World} (h : w'.worker = w.worker) (f : Nat) : at_ w' f = at_ w f := by
  unfold at_; rw [h]

/-- Steps that concern only waiting threads. -/
theorem inv_same {w w' : World} {evs : List Ev} {e : Ev} (h : Inv w evs) (he : ∀ f u, Use.next f u e = u)
    (h1 : w'.fut = w.fut) (h2 : w'.queue = w.queue) (h3 : w'.worker = w.worker)
    (h4 : ∀ f, calls f w'.log = calls f w.log) : Inv w' (evs ++ [e]) := by
  refine ⟨fun f => ?_, by rw [h2]; exact h.nodup⟩
  rw [use_snoc, he]
  exact (h.good f).frame (by rw [h1]) (by rw [h2]) (at_congr h3 f) (h4 f)

/-- Posting a future whose callback is set. -/
theorem inv_post {w w' : World} {evs : List Ev} {e : Ev} (h : Inv w evs) (f cb d : Nat) (ec : Err)
    (hne : ∀ g, g ≠ f → ∀ u, Use.next g u e = u)
    (hph : (Use.next f (use f evs) e).phase = .done ec)
    (how : (Use.next f (use f evs) e).owed = calls f w.log ++ [(cb, ec, d)])
    (hout : Out w f) (hw : w'.fut = fun g => if g = f then { cb := some cb, cbData := d, ec := ec, ready := true } else w.fut g)
    (hq : w'.queue = w.queue ++ [f]) (hwk : w'.worker = w.worker) (hl : w'.log = w.log) :
    Inv w' (evs ++ [e]) := by
  refine ⟨fun g => ?_, ?_⟩
  · rw [use_snoc]
    by_cases hg : g = f
    · subst hg
      have : w'.fut g = { cb := some cb, cbData := d, ec := ec, ready := true } := by rw [hw]; simp
      exact .queued ec cb d hph (by rw [this]) (by rw [this]) (by rw [this]) (by rw [this])
        (by rw [hq]; simp) ((at_congr hwk g).trans hout.2) (by rw [hl, how])
    · rw [hne g hg]
      refine (h.good g).frame (by rw [hw]; simp [hg]) (by rw [hq]; simp [hg]) (at_congr hwk g) (by rw [hl])
  · rw [hq]
    refine List.nodup_append.mpr ⟨h.nodup, by simp, ?_⟩
    intro a ha b hb hab
    simp only [List.mem_singleton] at hb
    subst hb; subst hab
    exact hout.1 ha

/-- One step preserves the invariant and is defined. -/
theorem inv_step {w : World} {evs : List Ev} (h : Inv w evs) (e : Ev) (ha : Allowed evs w.log e) :
    ∃ w', step w e = some w' ∧ Inv w' (evs ++ [e]) := by
  cases e with
  | reset f =>
    obtain ⟨h1, h2⟩ := ha
    refine ⟨_, rfl, fun g => ?_, h.nodup⟩
    rw [use_snoc]
    simp only [reset, Use.next]
    by_cases hg : g = f
    · subst hg
      simp only [if_true]
      have hout : Out w g := by
        have hgood := h.good g
        cases hph : (use g evs).phase with
        | unused =>
          cases hgood with
          | unused hp hf ho hc => exact ho
          | started c hp => rw [hph] at hp; cases hp
          | settled e hp => rw [hph] at hp; cases hp
          | queued e c d hp => rw [hph] at hp; cases hp
          | took e c d hp => rw [hph] at hp; cases hp
          | calling e c d hp => rw [hph] at hp; cases hp
        | started c => exact absurd hph (h1 c)
        | done e => exact (good_settled_of hgood hph h2).2.2
      exact .started none rfl (by simp) (by simp) (by simp) hout h2.symm
    · rw [if_neg (fun h => hg h.symm)]
      exact (h.good g).frame (set_other w _ hg) Iff.rfl rfl rfl
  | setCallback f cb d =>
    simp only [step, setCallback, set_self]
    rcases ha with hs | ⟨⟨e, hd⟩, hc⟩
    · obtain ⟨-, -, hr, ho, hc⟩ := good_started_of (h.good f) hs
      rw [if_neg (by simp [hr])]
      refine ⟨_, rfl, fun g => ?_, h.nodup⟩
      rw [use_snoc]
      simp only [Use.next]
      by_cases hg : g = f
      · subst hg
        simp only [if_true, hs]
        exact .started (some (cb, d)) rfl (by simp) (by intro x hx; cases hx; simp) (by simp [hr]) ho hc
      · rw [if_neg (fun h => hg h.symm)]
        exact (h.good g).frame (set_other w _ hg) Iff.rfl rfl rfl
    · obtain ⟨he, hr, ho⟩ := good_settled_of (h.good f) hd hc
      rw [if_pos (by simp [hr])]
      rw [post_eq _ f (show f ∉ (World.set ..).queue from ho.1)]
      refine ⟨_, rfl, ?_⟩
      refine inv_post h f cb d e ?_ ?_ ?_ ho ?_ rfl rfl rfl
      · intro g hg u; simp only [Use.next, if_neg (Ne.symm hg)]
      · simp only [Use.next, if_true, hd]
      · simp only [Use.next, if_true, hd, hc]
      · funext g; simp only [World.set, hr, he]
  | resolve f e p =>
    obtain ⟨c, hp⟩ := ha
    obtain ⟨hcb, hd, hr, ho, hc⟩ := good_started_of (h.good f) hp
    simp only [step, resolve, set_self]
    cases c with
    | none =>
      rw [if_neg (by simp [hcb])]
      obtain ⟨s1, s2, s3, s4⟩ := signal_frame (w.set f { w.fut f with ec := e, ready := true }) f p
      refine ⟨_, rfl, fun g => ?_, by rw [s2]; exact h.nodup⟩
      rw [use_snoc]
      simp only [Use.next]
      by_cases hg : g = f
      · subst hg
        simp only [if_true, hp]
        refine .settled e rfl (by rw [s1]; simp [hcb]) (by rw [s1]; simp) (by rw [s1]; simp)
          ⟨by rw [s2]; exact ho.1, (at_congr s3 g).trans ho.2⟩ (by rw [s4]; exact hc)
      · rw [if_neg (fun h => hg h.symm)]
        exact (h.good g).frame (by rw [s1]; exact set_other w _ hg) (by rw [s2]; exact Iff.rfl) (at_congr s3 g)
          (by rw [s4]; rfl)
    | some x =>
      rw [if_pos (by simp [hcb])]
      rw [post_eq _ f (show f ∉ (World.set ..).queue from ho.1)]
      refine ⟨_, rfl, ?_⟩
      refine inv_post h f x.1 x.2 e ?_ ?_ ?_ ho ?_ rfl rfl rfl
      · intro g hg u; simp only [Use.next, if_neg (Ne.symm hg)]
      · simp only [Use.next, if_true, hp]
      · simp only [Use.next, if_true, hp, hc]
      · funext g; simp only [World.set, hcb, hd x rfl, Option.map_some]
  | take =>
    refine ⟨_, rfl, ?_⟩
    unfold take
    split
    · rename_i f fs hwk hq
      have hnd : (f :: fs).Nodup := hq ▸ h.nodup
      refine ⟨fun g => ?_, (List.nodup_cons.mp hnd).2⟩
      rw [use_snoc]
      simp only [Use.next]
      have hgood := h.good g
      by_cases hg : g = f
      · subst hg
        have hmem : g ∈ w.queue := by rw [hq]; simp
        cases hgood with
        | unused hp hf ho hc => exact absurd hmem ho.1
        | started c hp hcb hd hr ho hc => exact absurd hmem ho.1
        | settled e hp hcb he hr ho hc => exact absurd hmem ho.1
        | queued e c d hp hcb hd he hr hq ha hc =>
          exact .took e c d hp hcb hd he hr (List.nodup_cons.mp hnd).1 (by simp [at_]) hc
        | took e c d hp hcb hd he hr hq ha hc => exact absurd hmem hq
        | calling e c d hp hcb hd he hr hq ha hc => exact absurd hmem hq
      · refine hgood.frame rfl (by simp [hq, hg]) ?_ rfl
        simp only [at_, hwk]
        rw [if_neg (fun h => hg h.symm)]
    · exact inv_same h (fun _ _ => rfl) rfl rfl rfl (fun _ => rfl)
  | popped =>
    refine ⟨_, rfl, ?_⟩
    unfold popped
    split
    · rename_i f hwk
      refine ⟨fun g => ?_, h.nodup⟩
      rw [use_snoc]
      simp only [Use.next]
      have hgood := h.good g
      by_cases hg : g = f
      · subst hg
        have hat : at_ w g = .took := by simp [at_, hwk]
        cases hgood with
        | unused hp hf ho hc => rw [ho.2] at hat; cases hat
        | started c hp hcb hd hr ho hc => rw [ho.2] at hat; cases hat
        | settled e hp hcb he hr ho hc => rw [ho.2] at hat; cases hat
        | queued e c d hp hcb hd he hr hq ha hc => rw [ha] at hat; cases hat
        | took e c d hp hcb hd he hr hq ha hc =>
          exact .calling e c d hp (by simp) (by simpa using hd) (by simpa using he) (by simpa using hr) hq
            (by simp [at_, hcb]) hc
        | calling e c d hp hcb hd he hr hq ha hc => rw [ha] at hat; cases hat
      · refine hgood.frame (set_other w _ hg) Iff.rfl ?_ rfl
        simp only [at_, hwk]
        rw [if_neg (fun h => hg h.symm), if_neg (fun h => hg h.symm)]
    · exact inv_same h (fun _ _ => rfl) rfl rfl rfl (fun _ => rfl)
  | call =>
    refine ⟨_, rfl, ?_⟩
    unfold call
    split
    · rename_i f cb hwk
      refine ⟨fun g => ?_, h.nodup⟩
      rw [use_snoc]
      simp only [Use.next]
      have hgood := h.good g
      by_cases hg : g = f
      · subst hg
        have hat : at_ w g = .calling (some cb) := by simp [at_, hwk]
        cases hgood with
        | unused hp hf ho hc => rw [ho.2] at hat; cases hat
        | started c hp hcb hd hr ho hc => rw [ho.2] at hat; cases hat
        | settled e hp hcb he hr ho hc => rw [ho.2] at hat; cases hat
        | queued e c d hp hcb hd he hr hq ha hc => rw [ha] at hat; cases hat
        | took e c d hp hcb hd he hr hq ha hc => rw [ha] at hat; cases hat
        | calling e c d hp hcb hd he hr hq ha hc =>
          rw [ha] at hat; cases hat
          exact .settled e hp hcb he hr ⟨hq, rfl⟩ (by rw [calls_append, hc]; simp [calls, he, hd])
      · refine hgood.frame rfl Iff.rfl ?_ ?_
        · simp only [at_, hwk]; rw [if_neg (fun h => hg h.symm)]
        · rw [calls_append]; simp only [calls, if_neg (fun h : f = g => hg h.symm), List.append_nil]
    · rename_i f hwk
      have hat : at_ w f = .calling none := by simp [at_, hwk]
      cases h.good f with
      | unused hp hf ho hc => rw [ho.2] at hat; cases hat
      | started c hp hcb hd hr ho hc => rw [ho.2] at hat; cases hat
      | settled e hp hcb he hr ho hc => rw [ho.2] at hat; cases hat
      | queued e c d hp hcb hd he hr hq ha hc => rw [ha] at hat; cases hat
      | took e c d hp hcb hd he hr hq ha hc => rw [ha] at hat; cases hat
      | calling e c d hp hcb hd he hr hq ha hc => rw [ha] at hat; cases hat
    · exact inv_same h (fun _ _ => rfl) rfl rfl rfl (fun _ => rfl)
  | wait a =>
    refine ⟨_, rfl, ?_⟩
    unfold wait
    split
    · exact inv_same h (fun _ _ => rfl) rfl rfl rfl (fun _ => calls_returned ..)
    · exact inv_same h (fun _ _ => rfl) rfl rfl rfl (fun _ => rfl)
  | wake a =>
    refine ⟨_, rfl, ?_⟩
    unfold wake
    split <;> exact inv_same h (fun _ _ => rfl) rfl rfl rfl (fun _ => rfl)
  | resume a =>
    refine ⟨_, rfl, ?_⟩
    unfold resume
    split
    · simp only
      split <;> exact inv_same h (fun _ _ => rfl) rfl rfl rfl (fun _ => calls_returned ..)
    · exact inv_same h (fun _ _ => rfl) rfl rfl rfl (fun _ => rfl)

theorem legal_init {evs : List Ev} {e : Ev} (h : Legal (evs ++ [e])) : Legal evs := by
  intro past x rest hx
  exact h past x (rest ++ [e]) (by rw [hx]; simp)

/-- Every legal history is defined and keeps the invariant. -/
theorem inv_run (evs : List Ev) (h : Legal evs) : ∃ w, run init evs = some w ∧ Inv w evs := by
  suffices ∀ l : List Ev, Legal l.reverse → ∃ w, run init l.reverse = some w ∧ Inv w l.reverse by
    have := this evs.reverse; rw [List.reverse_reverse] at this; exact this h
  intro l
  induction l with
  | nil => intro _; exact ⟨_, rfl, inv_init⟩
  | cons e es ih =>
    intro h
    rw [List.reverse_cons] at h ⊢
    obtain ⟨w, hw, hi⟩ := ih (legal_init h)
    obtain ⟨w', hs, hi'⟩ := inv_step hi e (h es.reverse e [] rfl w hw)
    exact ⟨w', by rw [run_snoc, hw]; exact hs, hi'⟩

end Verif.Api.Future
