import Verif.Iam.HandlerAuth
import Verif.Iam.AccessProps

/-!
# The authorization handler of the IAM module — the invariant
-/

namespace Verif.Iam.Handler

open Verif.Api Verif.Api.Auth Verif.Api.Auth.Spec Verif.Iam.Spec Verif.Iam.Handler.Spec

/-! ### Attributes -/

theorem size_eq (as : Attrs) : getAttributesSize as = as.length := by
  induction as with
  | nil => rfl
  | cons a as ih => simp [getAttributesSize, ih]

theorem getAttribute_eq (as : Attrs) : ∀ i, getAttribute as i = as[i]? := by
  induction as with
  | nil => intro i; simp [getAttribute]
  | cons a as ih => intro i; cases i <;> simp [getAttribute, ih]

theorem collect_eq (E : Env) (as : Attrs) : ∀ n i m, i + n = as.length →
    collect E as n i m = some ((as.drop i).foldl (fun m kv => E.ins m kv.1 kv.2) m) := by
  intro n
  induction n with
  | zero => intro i m h; simp [collect, List.drop_of_length_le (show as.length ≤ i by omega)]
  | succ n ih =>
    intro i m h
    have hi : i < as.length := by omega
    simp only [collect, getAttribute_eq, List.getElem?_eq_getElem hi]
    rw [ih (i + 1) _ (by omega), ← List.getElem_cons_drop hi]
    rfl

theorem fold_nodup (ins : Attrs → String → String → Attrs) (h : IsMap ins) (l : Attrs) : ∀ m : Attrs, (m.map (·.1)).Nodup →
    ((l.foldl (fun m kv => ins m kv.1 kv.2) m).map (·.1)).Nodup := by
  induction l with
  | nil => intro m hm; exact hm
  | cons a l ih => intro m hm; exact ih _ (h.2 _ _ _ hm)

theorem lookup_append (a b : Attrs) (k : String) : (a ++ b).lookup k = (a.lookup k).or (b.lookup k) := by
  induction a with
  | nil => rfl
  | cons x a ih =>
    rw [List.cons_append, show x = (x.1, x.2) from rfl, lookup_cons_if, lookup_cons_if, ih]
    split <;> rfl

theorem lookup_reverse (m : Attrs) (h : (m.map (·.1)).Nodup) (k : String) : m.reverse.lookup k = m.lookup k := by
  induction m with
  | nil => rfl
  | cons a m ih =>
    rw [List.map_cons, List.nodup_cons] at h
    rw [List.reverse_cons, lookup_append, ih h.2, show a = (a.1, a.2) from rfl, lookup_cons_if, lookup_cons_if]
    by_cases hk : k = a.1
    · subst hk
      rw [lookup_none_of_not_mem m _ h.1]; simp
    · simp [hk]

/-- What the handler decides. -/
theorem decide_eq (E : Env) (w : W) (i : Nat) (hf : (w.auth.reqs i).freed = false) :
    decideReq E w i =
      match checkAccess E w.iam (w.conns (w.reqs i).conn) (w.reqs i).conn (w.reqs i).action
        ((w.reqs i).attrs.foldl (fun m kv => E.ins m kv.1 kv.2) []) with
      | .ok v => some v
      | .ub => none := by
  unfold decideReq
  rw [hf, size_eq, collect_eq E _ _ 0 [] (by omega)]
  rfl

theorem check_true (E : Env) (hE : IsMap E.ins) (iam : Iam) (ci : ConnInfo) (ref : Nat) (action : String) (attrs : Attrs) :
    checkAccess E iam ci ref action (attrs.foldl (fun m kv => E.ins m kv.1 kv.2) []) = .ok true ↔
      (ci.fpOk = true ∨ ci.isVirtual = true) ∧
      ∃ user, ActsAs iam ci ref user ∧ ∃ rid, roleId iam user = some rid ∧
        ∃ role, FirstWith (fun r => r.id = rid) iam.conf.roles role ∧
          Granted E.N iam.conf role action
            ((match user with | some u => [("Connection:Username", u.username)] | none => []) ++
              [("Connection:IsLocal", if ci.isLocal then "true" else "false")] ++ attrs.reverse) := by
  rw [C01_access_decision E hE.1]
  have key : ∀ user role, Granted E.N iam.conf role action
        (requestAttrs ci user (attrs.foldl (fun m kv => E.ins m kv.1 kv.2) [])) ↔
      Granted E.N iam.conf role action
            ((match user with | some u => [("Connection:Username", u.username)] | none => []) ++
              [("Connection:IsLocal", if ci.isLocal then "true" else "false")] ++ attrs.reverse) := by
    intro user role
    apply granted_congr
    intro k
    unfold requestAttrs
    rw [lookup_append, lookup_append _ attrs.reverse, lookup_reverse _ (fold_nodup _ hE _ [] (by simp)), lookup_fold _ hE.1]
    cases user <;> simp
  simp only [key]

theorem check_ub (E : Env) (iam : Iam) (ci : ConnInfo) (ref : Nat) (action : String) (attrs : Attrs)
    (h : checkAccess E iam ci ref action attrs = .ub) : Dangling iam ci ref := by
  unfold checkAccess at h
  split at h
  · cases h
  · cases hu : actingUser iam ci ref with
    | ub => exact actingUser_dangling _ _ _ hu
    | ok user =>
      rw [hu] at h
      cases user <;> simp only at h <;> split at h <;> cases h

/-! ### Noticing -/

theorem notice_given (pc : Pc) (s : List Obs) (h : ∀ o ∈ s, ∃ i v, o = .given i v) : notice pc s = pc := by
  induction s with
  | nil => rfl
  | cons o s ih =>
    obtain ⟨i, v, rfl⟩ := h o (by simp)
    exact ih fun o ho => h o (by simp [ho])

theorem handed_given (i : Nat) (s : List Obs) (h : ∀ o ∈ s, ∃ i v, o = .given i v) : Auth.Spec.handed i s = 0 := by
  induction s with
  | nil => rfl
  | cons o s ih =>
    obtain ⟨j, v, rfl⟩ := h o (by simp)
    exact ih fun o ho => h o (by simp [ho])

/-! ### Stages -/

/-- What the stages of requests have in common. -/
structure Facts (w : World) (evs : List Auth.Ev) (i : Nat) : Prop where
  once : handed i w.log ≤ 1
  freed : .free i ∈ evs → handed i w.log = 1
  answered : answer i evs ≠ none → handed i w.log = 1
  checked : handed i w.log = 1 → .check i ∈ evs
  fresh : handed i w.log = 1 → answer i evs = none → (w.reqs i).freed = false ∧ given i w.log = [] ∧ (w.reqs i).verdict = none
  mine : handed i w.log = 1 → .free i ∉ evs → (w.reqs i).freed = false
  done : .free i ∈ evs → answer i evs ≠ none

theorem facts {w : World} {evs : List Auth.Ev} (h : Auth.Inv w evs) (i : Nat) : Facts w evs i := by
  by_cases hi : i < w.next
  · obtain ⟨s, hr, hv⟩ := h.cells.some i hi
    have e1 : given i w.log = s.view.given := congrArg View.given hv
    have e2 : answer i evs = s.view.answer := congrArg View.answer hv
    have e3 : decide (.check i ∈ evs) = s.view.checked := congrArg View.checked hv
    have e4 : handed i w.log = s.view.handed := congrArg View.handed hv
    have e5 : decide (.free i ∈ evs) = s.view.freed := congrArg View.freed hv
    cases s <;> simp [Stage.view] at e1 e2 e3 e4 e5 <;>
      exact ⟨by simp [e4], by simp [e4, e5], by simp [e2, e4], by simp [e4, e3], by simp [e4, e2, e1, hr, Stage.req], by simp [e4, e5, hr, Stage.req],
        by simp [e5, e2]⟩
  · obtain ⟨hr, hv⟩ := h.cells.none i (by omega)
    have e1 : given i w.log = [] := congrArg View.given hv
    have e2 : answer i evs = none := congrArg View.answer hv
    have e4 : handed i w.log = 0 := congrArg View.handed hv
    have e5 : decide (.free i ∈ evs) = false := congrArg View.freed hv
    simp at e5
    exact ⟨by simp [e4], by simp [e5], by simp [e2], by simp [e4], by simp [e4], by simp [e4], by simp [e5]⟩

/-! ### The invariant -/

/-- The request the handler works on. -/
def current : Pc → Option Nat
  | .called i => some i
  | .decided i _ => some i
  | .answered i => some i
  | _ => none

def Decided (N : NumSem) (hist : List Ev) (i : Nat) (v : Bool) : Prop :=
  ∃ p rest, hist = p ++ .work :: rest ∧ .check i ∈ p ∧ (v = true ↔ Permits N p i)

/-- Attributes which are not freed. -/
def live (w : W) : Nat :=
  ((List.range w.auth.next).map fun i => if (w.auth.reqs i).freed then 0 else (w.reqs i).attrs.length).sum

/-- The part about data. -/
structure Data (w : W) (hist : List Ev) : Prop where
  next : w.auth.next = (creates hist).length
  iam : w.iam = iamOf hist
  conns : ∀ r, w.conns r = connOf r hist
  info : ∀ i < w.auth.next, (creates hist)[i]? = some ((w.reqs i).conn, (w.reqs i).action)
  attrs : ∀ i < w.auth.next, (w.reqs i).attrs.reverse = attrsOf i hist
  none : ∀ i, w.auth.next ≤ i → attrsOf i hist = []

/-- The part about calls. -/
structure Link (trace : List Auth.Ev) (hist : List Ev) : Prop where
  check : ∀ i, Auth.Ev.check i ∈ trace ↔ Ev.check i ∈ hist
  discard : ∀ i, Auth.Ev.discard i ∈ trace ↔ Ev.discard i ∈ hist
  stop : Auth.Ev.stopListener ∈ trace ↔ Ev.stop ∈ hist
  deinit : Auth.Ev.freeListener ∈ trace ↔ Ev.deinit ∈ hist

/-- The part about the handler. -/
structure Place (w : W) (hist : List Ev) : Prop where
  off : w.pc = .off ↔ .init ∉ hist
  gone : w.pc = .gone ↔ .deinit ∈ hist
  stopInit : .stop ∈ hist → .init ∈ hist
  goneStop : .deinit ∈ hist → .stop ∈ hist
  ready : .init ∈ hist → w.auth.lst.initialized = true ∧ (.stop ∉ hist → w.auth.lst.ec = .ok)
  fresh : .init ∉ hist → w.auth.lst.initialized = false
  over : w.pc = .ended → .stop ∈ hist
  wait : w.pc = .waiting ↔ w.auth.lst.fut ≠ none
  cur : ∀ i, (0 < handed i w.auth.log ∧ .free i ∉ w.trace) ↔ current w.pc = some i
  ans : ∀ i, current w.pc = some i → (answer i w.trace = none ↔ w.pc ≠ .answered i)

/-- The part about decisions. -/
structure Verdicts (N : NumSem) (w : W) (hist : List Ev) : Prop where
  decided : ∀ i v, w.pc = .decided i v → Decided N hist i v
  answered : ∀ i v, answer i w.trace = some v → ∃ p rest, hist = p ++ .work :: rest ∧ .check i ∈ p ∧ (v = true ↔ Permits N p i) ∧
    (given i w.auth.log ≠ [] → .run i ∈ rest)
  denied : ∀ i, (w.auth.reqs i).verdict ≠ none → answer i w.trace = none → NotAsked hist i

structure HInv (N : NumSem) (w : W) (hist : List Ev) : Prop where
  auth : Auth.Inv w.auth w.trace
  data : Data w hist
  link : Link w.trace hist
  place : Place w hist
  verdicts : Verdicts N w hist
  mem : w.made = w.freed + 3 * live w

theorem hinv_init (N : NumSem) : HInv N init [] where
  auth := Auth.inv_init
  data := ⟨rfl, rfl, fun _ => rfl, fun i hi => absurd hi (Nat.not_lt_zero i), fun i hi => absurd hi (Nat.not_lt_zero i), fun _ _ => rfl⟩
  link := ⟨by simp [init], by simp [init], by simp [init], by simp [init]⟩
  place := ⟨by simp [init], by simp [init], by simp, by simp, by simp, fun _ => rfl, by simp [init], by simp [init, Auth.init, Listener.new],
    by intro i; simp [init, Auth.init, handed, current], by simp [init, current]⟩
  verdicts := ⟨by simp [init], by simp [init, answer], by simp [init, Auth.init]⟩
  mem := rfl

/-! ### Histories growing by one event -/

/-- Events which do not change what there is to know. -/
def dull : Ev → Bool
  | .create _ _ => false
  | .add _ _ _ _ _ _ => false
  | .iam _ => false
  | .conn _ _ => false
  | _ => true

theorem Data.dull {w w' : W} {hist : List Ev} {e : Ev} (h : Data w hist) (he : Handler.dull e = true) (hn : w'.auth.next = w.auth.next)
    (hi : w'.iam = w.iam) (hc : w'.conns = w.conns) (hr : w'.reqs = w.reqs) : Data w' (hist ++ [e]) := by
  have e1 : creates (hist ++ [e]) = creates hist := by cases e <;> simp_all [creates, Handler.dull]
  have e2 : iamOf (hist ++ [e]) = iamOf hist := by cases e <;> simp_all [iamOf, Handler.dull]
  have e3 : ∀ r, connOf r (hist ++ [e]) = connOf r hist := by intro r; cases e <;> simp_all [connOf, Handler.dull]
  have e4 : ∀ i, attrsOf i (hist ++ [e]) = attrsOf i hist := by intro r; cases e <;> simp_all [attrsOf, Handler.dull]
  exact ⟨by rw [hn, e1, h.next], by rw [hi, e2, h.iam], fun r => by rw [hc, e3, h.conns],
    fun i hi => by rw [hr, e1]; exact h.info i (by omega), fun i hi => by rw [hr, e4]; exact h.attrs i (by omega),
    fun i hi => by rw [e4]; exact h.none i (by omega)⟩

theorem Decided.grow {N : NumSem} {hist : List Ev} {i : Nat} {v : Bool} (h : Decided N hist i v) (e : Ev) : Decided N (hist ++ [e]) i v := by
  obtain ⟨p, rest, rfl, h1, h2⟩ := h
  exact ⟨p, rest ++ [e], by simp, h1, h2⟩

theorem notAsked_grow {hist : List Ev} {i : Nat} (h : NotAsked hist i) (e : Ev) : NotAsked (hist ++ [e]) i := by
  rcases h with h | ⟨p, rest, rfl, h⟩
  · exact .inl (by simp [h])
  · exact .inr ⟨p, rest ++ [e], by simp, h⟩

/-- Nothing about verdicts changes, but for verdicts which are given by an event. -/
theorem Verdicts.grow {N : NumSem} {w w' : W} {hist : List Ev} {e : Ev} (h : Verdicts N w hist)
    (hd : ∀ i v, w'.pc = .decided i v → w.pc = .decided i v) (ha : ∀ i, answer i w'.trace = answer i w.trace)
    (hg : ∀ i, given i w'.auth.log ≠ [] → given i w.auth.log ≠ [] ∨ e = .run i)
    (hv : ∀ i, (w'.auth.reqs i).verdict ≠ none → (w.auth.reqs i).verdict ≠ none) : Verdicts N w' (hist ++ [e]) := by
  refine ⟨fun i v hp => (h.decided i v (hd i v hp)).grow e, fun i v hav => ?_, fun i hvi hai => ?_⟩
  · rw [ha] at hav
    obtain ⟨p, rest, rfl, h1, h2, h3⟩ := h.answered i v hav
    refine ⟨p, rest ++ [e], by simp, h1, h2, fun hgi => ?_⟩
    rcases hg i hgi with hgi | rfl
    · simp [h3 hgi]
    · simp
  · rw [ha] at hai
    exact notAsked_grow (h.denied i (hv i hvi) hai) e

/-! ### Memory -/

theorem sum_change (f g : Nat → Nat) (i d : Nat) (n : Nat) (hi : i < n) (ho : ∀ j, j ≠ i → f j = g j) (hd : f i = g i + d) :
    ((List.range n).map f).sum = ((List.range n).map g).sum + d := by
  induction n with
  | zero => omega
  | succ n ih =>
    simp only [List.range_succ, List.map_append, List.map_cons, List.map_nil, List.sum_append, List.sum_cons, List.sum_nil]
    by_cases hn : i = n
    · subst hn
      have : (List.range i).map f = (List.range i).map g := List.map_congr_left fun j hj => ho j (by have := List.mem_range.1 hj; omega)
      rw [this, hd]; omega
    · rw [ih (by omega), ho n (Ne.symm hn)]; omega

theorem live_same {w w' : W} (hn : w'.auth.next = w.auth.next) (hr : w'.reqs = w.reqs)
    (hf : ∀ j, (w'.auth.reqs j).freed = (w.auth.reqs j).freed) : live w' = live w := by
  simp only [live, hn, hr, hf]

/-- A call which frees at most its own request. -/
theorem mem_sweep {w w1 w2 : W} {i : Nat} (h : w.made = w.freed + 3 * live w) (hn : w2.auth.next = w.auth.next) (hr : w2.reqs = w.reqs)
    (hf : ∀ j, j ≠ i → (w2.auth.reqs j).freed = (w.auth.reqs j).freed) (hm : w2.made = w.made) (hfr : w2.freed = w.freed)
    (hi : i < w.auth.next) (hmono : (w.auth.reqs i).freed = true → (w2.auth.reqs i).freed = true) (he : w1 = sweep w w2 i) :
    w1.made = w1.freed + 3 * live w1 := by
  subst he
  unfold sweep
  split
  · rename_i hc
    have : live w = live w2 + (w.reqs i).attrs.length := by
      unfold live
      rw [hn, hr]
      refine sum_change _ _ i _ _ hi (fun j hj => by rw [hf j hj]) ?_
      simp [hc.1, hc.2]
    show w2.made = w2.freed + 3 * (w2.reqs i).attrs.length + 3 * live w2
    rw [hm, hfr, hr, h, this]; omega
  · rename_i hc
    have : live w2 = live w := by
      refine live_same hn hr fun j => ?_
      by_cases hj : j = i
      · subst hj
        cases h1 : (w.auth.reqs j).freed <;> cases h2 : (w2.auth.reqs j).freed <;> simp_all
      · exact hf j hj
    rw [hm, hfr, this, h]

end Verif.Iam.Handler
