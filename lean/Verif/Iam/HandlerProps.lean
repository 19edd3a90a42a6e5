import Verif.Iam.HandlerInv

/-!
# The authorization handler of the IAM module — properties (C140)

C140: A request for access is decided by the configuration. When the core has made a request with an action and attributes,
has asked, and is told a verdict, then the verdict is whether the configuration and the users, as they were at some moment
between the question and the answer, permit the action with exactly these attributes to whoever uses the connection; without
a running handler the verdict is no. Every question gets exactly one verdict, whenever requests, configuration changes,
stopping and the steps of the handler happen, nothing undefined happens, and no memory is lost.
-/

namespace Verif.Iam.Handler

open Verif.Api Verif.Api.Auth.Spec Verif.Iam.Spec Verif.Iam.Handler.Spec

/-! ### Histories -/

theorem snoc_ind {P : List Ev → Prop} (h0 : P []) (hs : ∀ l x, P l → P (l ++ [x])) (l : List Ev) : P l := by
  rw [← List.reverse_reverse l]
  induction l.reverse with
  | nil => exact h0
  | cons x l ih => rw [List.reverse_cons]; exact hs _ _ ih


theorem run_append (E : Env) (w : W) (a b : List Ev) : run E w (a ++ b) = (run E w a).bind (run E · b) := by
  induction a generalizing w with
  | nil => rfl
  | cons e a ih =>
    simp only [List.cons_append, run]
    cases step E w e with
    | none => rfl
    | some k => exact ih k

theorem run_snoc (E : Env) (w : W) (a : List Ev) (e : Ev) : run E w (a ++ [e]) = (run E w a).bind (step E · e) := by
  rw [run_append]
  cases run E w a with
  | none => rfl
  | some k => simp only [Option.bind, run]; cases step E k e <;> rfl

theorem legal_prefix {E : Env} {p : List Ev} {e : Ev} (h : Legal E (p ++ [e])) : Legal E p := by
  intro a x rest he w hw
  exact h a x (rest ++ [e]) (by rw [he]; simp) w hw

theorem hinv_run_all (E : Env) (hE : IsMap E.ins) (hist : List Ev) : Legal E hist → ∀ w, run E init hist = some w → HInv E.N w hist := by
  refine snoc_ind (P := fun hist => Legal E hist → ∀ w, run E init hist = some w → HInv E.N w hist) ?_ ?_ hist
  · intro _ w hw; cases hw; exact hinv_init E.N
  · intro p e ih hl w hw
    rw [run_snoc] at hw
    cases hp : run E init p with
    | none => rw [hp] at hw; cases hw
    | some k =>
      rw [hp] at hw
      exact hinv_step (ih (legal_prefix hl) k hp) hE (hl p e [] rfl k hp) hw

/-! ### Checking that a concrete history is legal -/

instance (hist : List Ev) (i : Nat) : Decidable (own hist i) := inferInstanceAs (Decidable (_ ∧ _ ∧ _))

instance (hist : List Ev) (w : W) (e : Ev) : Decidable (allowed hist w e) :=
  match e with
  | .add i _ _ _ _ _ => inferInstanceAs (Decidable (own hist i))
  | .discard i => inferInstanceAs (Decidable (own hist i))
  | .check i => inferInstanceAs (Decidable (own hist i ∧ _))
  | .init => inferInstanceAs (Decidable (¬ _))
  | .stop => inferInstanceAs (Decidable (_ ∧ _))
  | .deinit => inferInstanceAs (Decidable (_ ∧ _ ∧ _))
  | .create _ _ => isTrue trivial
  | .run _ => isTrue trivial
  | .iam _ => isTrue trivial
  | .conn _ _ => isTrue trivial
  | .work => isTrue trivial

def legalFrom (E : Env) (w : W) (p : List Ev) : List Ev → Bool
  | [] => true
  | e :: es => decide (allowed p w e) &&
    match step E w e with
    | none => true
    | some w' => legalFrom E w' (p ++ [e]) es

theorem legal_check (E : Env) (hist : List Ev) (h : legalFrom E init [] hist = true) : Legal E hist := by
  suffices ∀ (es p : List Ev) (w : W), run E init p = some w → legalFrom E w p es = true →
      ∀ a e rest, es = a ++ e :: rest → ∀ w', run E init (p ++ a) = some w' → allowed (p ++ a) w' e by
    intro a e rest he w hw
    exact this hist [] init rfl h a e rest he w hw
  intro es
  induction es with
  | nil => intro p w _ _ a e rest he; simp at he
  | cons x es ih =>
    intro p w hp hl a e rest he w' hw'
    simp only [legalFrom, Bool.and_eq_true, decide_eq_true_eq] at hl
    cases a with
    | nil =>
      simp only [List.nil_append, List.cons.injEq] at he
      obtain ⟨rfl, rfl⟩ := he
      simp only [List.append_nil] at hw' ⊢
      rw [hp] at hw'
      cases hw'
      exact hl.1
    | cons y a =>
      simp only [List.cons_append, List.cons.injEq] at he
      obtain ⟨rfl, he⟩ := he
      have hpx : run E init (p ++ [x]) = step E w x := by rw [run_snoc, hp]; rfl
      rw [show p ++ x :: a = (p ++ [x]) ++ a by simp] at hw' ⊢
      cases hs : step E w x with
      | none =>
        rw [hs] at hpx
        rw [run_append, hpx] at hw'
        cases hw'
      | some k =>
        rw [hs] at hpx hl
        exact ih (p ++ [x]) k hpx hl.2 a e rest he w' hw'

/-! ### Samples -/

/-- A map as it should be. -/
def goodIns (m : Attrs) (k v : String) : Attrs := (k, v) :: m.filter (fun a => a.1 != k)

theorem goodIns_map : IsMap goodIns := by
  refine ⟨fun m k v k' => ?_, fun m k v hm => ?_⟩
  · unfold goodIns
    rw [lookup_cons_if]
    split
    · rfl
    · rename_i hk
      induction m with
      | nil => rfl
      | cons a m ih =>
        rw [List.filter_cons]
        by_cases ha : a.1 = k
        · rw [if_neg (by simp [ha]), ih, show a = (a.1, a.2) from rfl, lookup_cons_if, if_neg (by rw [ha]; exact hk)]
        · rw [if_pos (by simp [ha]), show a = (a.1, a.2) from rfl, lookup_cons_if, lookup_cons_if, ih]
  · unfold goodIns
    rw [List.map_cons, List.nodup_cons]
    refine ⟨by simp, ?_⟩
    exact List.Nodup.sublist (List.Sublist.map _ List.filter_sublist) hm

def goodEnv : Env := { N := tinySem, ins := goodIns }

/-- Every service but `ssh`. -/
def shopPolicy : Policy :=
  ⟨"p", [⟨.allow, ["TcpTunnel:Connect"], []⟩,
    ⟨.deny, ["TcpTunnel:Connect"], [⟨.stringEquals, "TcpTunnel:ServiceId", ["ssh"]⟩]⟩]⟩

/-- `User` may use every service but `ssh`. -/
def shopIam : Iam :=
  { conf := ⟨[shopPolicy], [⟨"User", ["p"]⟩], none⟩,
    state := { users := [{ addr := 0, username := "admin", role := some "User", fingerprints := [⟨"f0", none⟩] }] },
    nextAddr := 1 }

/-- One request before there is a handler, two with it, a change of the configuration between decision and delivery, one
after it has been stopped. -/
def sample : List Ev :=
  [.iam shopIam, .conn 7 { fingerprint := some "f0" },
    .create 7 "TcpTunnel:Connect", .check 0, .init, .work,
    .create 7 "TcpTunnel:Connect", .add 1 "TcpTunnel:ServiceId" "ssh" true true true, .check 1,
    .create 7 "TcpTunnel:Connect", .add 2 "TcpTunnel:ServiceId" "web" true true true, .add 2 "X" "y" true true false, .check 2,
    .work, .run 0, .work, .work, .run 1, .work, .work, .iam {}, .work, .run 2, .work, .work,
    .create 7 "TcpTunnel:Connect", .discard 3,
    .stop, .create 7 "TcpTunnel:Connect", .check 4, .run 4, .deinit]

example : Legal goodEnv sample := legal_check _ _ (by decide +kernel)
example : IsMap goodEnv.ins := goodIns_map

example : ((run goodEnv init sample).map fun w =>
      ([0, 1, 2, 3, 4].map fun i => given i w.auth.log, w.pc, w.made, w.freed, [0, 1, 2, 3, 4].map fun i => (w.auth.reqs i).posted)) =
    some ([[false], [false], [true], [], [false]], .gone, 8, 8, [false, false, false, false, false]) := by decide +kernel

/-! ### The decision -/

/-- C140 (partial): A verdict which the core is told is the decision of the configuration, as it was at a moment after the
core asked and before it was told, on the request as it was made; without a running handler it is no.

Missing: an attribute which could not be inserted for lack of memory, see `C140_memory_short_violated`. -/
theorem C140_decided_partial (E : Env) (hE : IsMap E.ins) (hist : List Ev) (hl : Legal E hist) (w : W) (hw : run E init hist = some w)
    (i : Nat) (v : Bool) (hg : v ∈ given i w.auth.log) :
    (∃ p rest, hist = p ++ .work :: rest ∧ .check i ∈ p ∧ .run i ∈ rest ∧ (v = true ↔ Permits E.N p i)) ∨
    v = false ∧ NotAsked hist i := by
  have h := hinv_run_all E hE hist hl w hw
  by_cases hi : i < w.auth.next
  · obtain ⟨s, hr, hv⟩ := h.auth.cells.some i hi
    have e1 : given i w.auth.log = s.view.given := congrArg Auth.View.given hv
    have e2 : answer i w.trace = s.view.answer := congrArg Auth.View.answer hv
    have hne : given i w.auth.log ≠ [] := List.ne_nil_of_mem hg
    rw [e1] at hg
    have asked : answer i w.trace = some v →
        ∃ p rest, hist = p ++ .work :: rest ∧ .check i ∈ p ∧ .run i ∈ rest ∧ (v = true ↔ Permits E.N p i) := by
      intro ha
      obtain ⟨p, rest, k1, k2, k3, k4⟩ := h.verdicts.answered i v ha
      exact ⟨p, rest, k1, k2, k4 hne, k3⟩
    cases s <;> simp only [Auth.Stage.view, List.mem_singleton, List.not_mem_nil] at hg e2
    · subst hg; exact .inl (asked e2)
    · subst hg; exact .inl (asked e2)
    · subst hg
      exact .inr ⟨rfl, h.verdicts.denied i (by rw [hr]; simp [Auth.Stage.req]) e2⟩
  · have e1 : given i w.auth.log = [] := congrArg Auth.View.given (h.auth.cells.none i (by omega)).2
    rw [e1] at hg; cases hg

/-- The configuration permits the third request of the sample, and not the second. -/
def permits (hist : List Ev) (i : Nat) : Bool :=
  match (creates hist)[i]? with
  | none => false
  | some (c, a) => checkAccess goodEnv (iamOf hist) (connOf c hist) c a
      ((attrsOf i hist).reverse.foldl (fun m kv => goodIns m kv.1 kv.2) []) == .ok true

theorem permits_iff (hist : List Ev) (i : Nat) : permits hist i = true ↔ Permits tinySem hist i := by
  unfold permits Permits
  cases hc : (creates hist)[i]? with
  | none => simp
  | some x =>
    obtain ⟨c, a⟩ := x
    simp only [beq_iff_eq]
    have := check_true goodEnv goodIns_map (iamOf hist) (connOf c hist) c a (attrsOf i hist).reverse
    rw [List.reverse_reverse] at this
    refine this.trans ⟨fun h => ⟨c, a, rfl, h⟩, ?_⟩
    rintro ⟨c', a', h1, h2⟩
    simp only [Option.some.injEq, Prod.mk.injEq] at h1
    obtain ⟨rfl, rfl⟩ := h1
    exact h2

example : Permits tinySem (sample.take 18) 2 ∧ ¬ Permits tinySem (sample.take 18) 1 ∧ ¬ Permits tinySem sample 2 := by
  rw [← permits_iff, ← permits_iff, ← permits_iff]
  decide +kernel

/-- An environment in which an attribute cannot be inserted for lack of memory. -/
def shortEnv : Env := { N := tinySem, ins := fun m k v => if k = "TcpTunnel:ServiceId" then m else goodIns m k v }

/-- C140 is violated: the result of inserting an attribute is not checked, so that a Deny statement about this attribute
does not apply when memory is short. The core is told yes although the configuration never permitted it. -/
theorem C140_memory_short_violated : ∃ hist, Legal shortEnv hist ∧ (∃ w, run shortEnv init hist = some w ∧ given 0 w.auth.log = [true]) ∧
    ∀ p, p <+: hist → .check 0 ∈ p → ¬ Permits shortEnv.N p 0 := by
  refine ⟨[.iam shopIam, .conn 7 { fingerprint := some "f0" }, .init, .work, .create 7 "TcpTunnel:Connect",
    .add 0 "TcpTunnel:ServiceId" "ssh" true true true, .check 0, .work, .work, .run 0], legal_check _ _ (by decide +kernel), ?_, ?_⟩
  · generalize hr : run shortEnv init _ = r
    have : r.map (fun w => given 0 w.auth.log) = some [true] := by rw [← hr]; decide +kernel
    cases r with
    | none => cases this
    | some w => exact ⟨w, rfl, by simpa using this⟩
  · intro p hp hck hperm
    have hperm : Permits tinySem p 0 := hperm
    rw [← permits_iff] at hperm
    rw [List.prefix_iff_eq_take] at hp
    have hlen : p.length < 11 := by
      have := congrArg List.length hp
      simp at this
      omega
    have key : ∀ n : Fin 11, .check 0 ∈ ([.iam shopIam, .conn 7 { fingerprint := some "f0" }, .init, .work, .create 7 "TcpTunnel:Connect",
        .add 0 "TcpTunnel:ServiceId" "ssh" true true true, .check 0, .work, .work, .run 0] : List Ev).take n →
      permits (([.iam shopIam, .conn 7 { fingerprint := some "f0" }, .init, .work, .create 7 "TcpTunnel:Connect",
        .add 0 "TcpTunnel:ServiceId" "ssh" true true true, .check 0, .work, .work, .run 0] : List Ev).take n) 0 = false := by decide +kernel
    have := key ⟨p.length, hlen⟩
    rw [← hp] at this
    rw [this hck] at hperm
    cases hperm

/-! ### Nothing undefined -/

/-- C140 (partial): nothing undefined happens, as long as no connection was authorised as a user which is deleted.

Missing: such connections, see C08. -/
theorem C140_safe_partial (E : Env) (hE : IsMap E.ins) (hist : List Ev) (hl : Legal E hist) (hd : NoDangling hist) : run E init hist ≠ none := by
  have : ∃ w, run E init hist = some w := by
    revert hl hd
    refine snoc_ind (P := fun hist => Legal E hist → NoDangling hist → ∃ w, run E init hist = some w) ?_ ?_ hist
    · intro _ _; exact ⟨_, rfl⟩
    · intro p e ih hl hd
      obtain ⟨k, hk⟩ := ih (legal_prefix hl) (fun a rest he => hd a (rest ++ [e]) (by rw [he]; simp))
      have h := hinv_run_all E hE p (legal_prefix hl) k hk
      have hs := step_safe (E := E) h (hl p e [] rfl k hk) (fun he i c a hc => hd p [] (by rw [he]) i c a hc)
      rw [run_snoc, hk]
      cases hx : step E k e with
      | none => exact absurd hx hs
      | some w => exact ⟨w, hx⟩
  obtain ⟨w, hw⟩ := this
  rw [hw]; simp

theorem noDangling_sample : NoDangling sample := by
  intro p rest hp i c a _ hd
  have hpre : p <+: sample := ⟨_, hp.symm⟩
  rw [List.prefix_iff_eq_take] at hpre
  have hlen : p.length < 33 := by
    have := congrArg List.length hpre
    simp [sample] at this
    omega
  have key : ∀ n : Fin 33, (iamOf (sample.take n)).authorized = [] := by decide +kernel
  have := key ⟨p.length, hlen⟩
  rw [← hpre] at this
  obtain ⟨x, ⟨pre, post, hx, -⟩, -⟩ := hd.2.2
  rw [this] at hx
  simp at hx

/-! ### Every question is answered -/

/-- C140 (partial): when nothing is under way, every request the core asked about has got exactly one verdict. -/
theorem C140_answered_partial (E : Env) (hE : IsMap E.ins) (hist : List Ev) (hl : Legal E hist) (w : W) (hw : run E init hist = some w)
    (hq : Quiet w) (i : Nat) (hc : .check i ∈ hist) : ∃ v, given i w.auth.log = [v] := by
  have h := hinv_run_all E hE hist hl w hw
  have hct := (h.link.check i).2 hc
  have hcn : current w.pc = none := by rcases hq.1 with h | h | h | h <;> rw [h] <;> rfl
  have hev : w.auth.lst.events = [] := by
    cases hin : w.auth.lst.initialized with
    | false => rw [h.auth.lst.fresh hin]; rfl
    | true =>
      by_cases hec : w.auth.lst.ec = .ok
      · have hrun := (h.auth.lst.running hin hec).2
        rcases hq.1 with hp | hp | hp | hp
        · have := h.place.fresh (h.place.off.1 hp); rw [hin] at this; cases this
        · have hf := h.place.wait.1 hp
          cases hf' : w.auth.lst.fut with
          | none => exact absurd hf' hf
          | some f => simpa [hf'] using hrun
        · exact absurd hec (h.auth.stopped (h.link.stop.2 (h.place.over hp)) hin)
        · exact absurd hec (h.auth.stopped (h.link.stop.2 (h.place.goneStop (h.place.gone.1 hp))) hin)
      · exact (h.auth.lst.over hin hec).2.2
  by_cases hi : i < w.auth.next
  · obtain ⟨s, hr, hv⟩ := h.auth.cells.some i hi
    have e1 : given i w.auth.log = s.view.given := congrArg Auth.View.given hv
    have e3 : decide (.check i ∈ w.trace) = s.view.checked := congrArg Auth.View.checked hv
    have e4 : handed i w.auth.log = s.view.handed := congrArg Auth.View.handed hv
    have e5 : decide (.free i ∈ w.trace) = s.view.freed := congrArg Auth.View.freed hv
    have e6 : w.auth.lst.events.count i = s.view.queued := congrArg Auth.View.queued hv
    have hpo := hq.2 i
    have hno : ¬ (0 < handed i w.auth.log ∧ .free i ∉ w.trace) := by rw [h.place.cur i, hcn]; simp
    rw [hev] at e6
    rw [hr] at hpo
    rw [e1]
    cases s <;> simp_all [Auth.Stage.view, Auth.Stage.req]
  · have e3 : decide (.check i ∈ w.trace) = false := congrArg Auth.View.checked (h.auth.cells.none i (by omega)).2
    simp [hct] at e3

theorem sum_zero (l : List Nat) (h : ∀ x ∈ l, x = 0) : l.sum = 0 := by
  induction l with
  | nil => rfl
  | cons x l ih => rw [List.sum_cons, h x (by simp), ih fun y hy => h y (by simp [hy])]

/-- C140 (partial): and when the core has also used every request it made, all memory of attributes is freed. -/
theorem C140_memory_partial (E : Env) (hE : IsMap E.ins) (hist : List Ev) (hl : Legal E hist) (w : W) (hw : run E init hist = some w)
    (hq : Quiet w) (hu : ∀ i < (creates hist).length, .check i ∈ hist ∨ .discard i ∈ hist) : w.made = w.freed := by
  have h := hinv_run_all E hE hist hl w hw
  have hcn : current w.pc = none := by rcases hq.1 with h | h | h | h <;> rw [h] <;> rfl
  have hlive : live w = 0 := by
    unfold live
    apply sum_zero
    intro x hx
    obtain ⟨i, hi, rfl⟩ := List.mem_map.1 hx
    have hi := List.mem_range.1 hi
    have hfr : (w.auth.reqs i).freed = true := by
      obtain ⟨s, hr, hv⟩ := h.auth.cells.some i hi
      have e1 : given i w.auth.log = s.view.given := congrArg Auth.View.given hv
      have e3 : decide (.check i ∈ w.trace) = s.view.checked := congrArg Auth.View.checked hv
      have e7 : decide (.discard i ∈ w.trace) = s.view.discarded := congrArg Auth.View.discarded hv
      have e4 : handed i w.auth.log = s.view.handed := congrArg Auth.View.handed hv
      have e5 : decide (.free i ∈ w.trace) = s.view.freed := congrArg Auth.View.freed hv
      have hno : ¬ (0 < handed i w.auth.log ∧ .free i ∉ w.trace) := by rw [h.place.cur i, hcn]; simp
      have hpo := hq.2 i
      have hcase := hu i (by rw [← h.data.next]; exact hi)
      rw [← h.link.check, ← h.link.discard] at hcase
      rw [hr] at hpo ⊢
      by_cases hc : .check i ∈ hist
      · obtain ⟨v, hg⟩ := C140_answered_partial E hE hist hl w hw hq i hc
        rw [e1] at hg
        cases s <;> simp_all [Auth.Stage.view, Auth.Stage.req]
      · rw [← h.link.check] at hc
        cases s <;> simp_all [Auth.Stage.view, Auth.Stage.req]
    simp [hfr]
  rw [h.mem, hlive]; rfl

/-- The sample meets the hypotheses. -/
example : ∃ w, run goodEnv init sample = some w ∧ Quiet w ∧ ∀ i < (creates sample).length, .check i ∈ sample ∨ .discard i ∈ sample := by
  generalize hr : run goodEnv init sample = r
  have : r.map (fun w => (w.pc, w.auth.next, [0, 1, 2, 3, 4].map fun i => (w.auth.reqs i).posted)) = some (.gone, 5, [false, false, false, false, false]) := by
    rw [← hr]; decide +kernel
  cases r with
  | none => cases this
  | some w =>
    simp only [Option.map_some, Option.some.injEq, Prod.mk.injEq, List.map_cons, List.map_nil, List.cons.injEq, and_true] at this
    obtain ⟨h1, h2, h3, h4, h5, h6, h7⟩ := this
    refine ⟨w, rfl, ⟨.inr (.inr (.inr h1)), fun i => ?_⟩, by decide +kernel⟩
    have h := hinv_run_all goodEnv goodIns_map sample (legal_check _ _ (by decide +kernel)) w hr
    by_cases hi : i < 5
    · have : i = 0 ∨ i = 1 ∨ i = 2 ∨ i = 3 ∨ i = 4 := by omega
      rcases this with rfl | rfl | rfl | rfl | rfl <;> assumption
    · rw [(h.auth.cells.none i (by omega)).1]

end Verif.Iam.Handler
