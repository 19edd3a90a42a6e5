import Verif.Tunnel.AccessSpec
import Verif.Tunnel.ManagerProps
import Verif.Iam.HandlerProps

/-!
# Tunnels behind the IAM module — lemmas
-/

namespace Verif.Tunnel.Access

open Verif.Iam Verif.Tunnel.Access.Spec
open Verif.Iam.Handler (W HInv)
open Verif.Iam.Handler.Spec (creates attrsOf IsMap)

theorem snoc_ind {α : Type} {P : List α → Prop} (h0 : P []) (hs : ∀ l x, P l → P (l ++ [x])) (l : List α) : P l := by
  rw [← List.reverse_reverse l]
  induction l.reverse with
  | nil => exact h0
  | cons x l ih => rw [List.reverse_cons]; exact hs _ _ ih

theorem run_append (E : Env) (s : Sys) (a b : List Op) : run E s (a ++ b) = (run E s a).bind (run E · b) := by
  induction a generalizing s with
  | nil => rfl
  | cons o a ih =>
    simp only [List.cons_append, run]
    cases step E s o with
    | none => rfl
    | some k => exact ih k

theorem after_snoc (E : Env) (a : List Op) (o : Op) : after E (a ++ [o]) = (after E a).bind (step E · o) := by
  unfold after
  rw [run_append]
  cases run E {} a with
  | none => rfl
  | some k => simp only [Option.bind, run]; cases step E k o <;> rfl

/-! ### What a request consists of -/

/-- The request was made and submitted. -/
def made (attrs : Option (String × String)) (mem : Mem) : Bool :=
  mem.create && (attrs.isNone || (mem.id && mem.type))

theorem request_asks (i c : Nat) (a : String) (attrs : Option (String × String)) (mem : Mem) :
    (request i c a attrs mem).filterMap submitted = if made attrs mem then [i] else [] := by
  unfold request made
  cases mem.create <;> cases attrs <;> cases mem.id <;> cases mem.type <;> rfl

def attrList : Option (String × String) → Attrs
  | none => []
  | some x => serviceAttrs x.1 x.2

theorem request_made (i c : Nat) (a : String) (attrs : Option (String × String)) (mem : Mem) (h : made attrs mem = true) :
    creates (request i c a attrs mem) = [(c, a)] ∧ attrsOf i (request i c a attrs mem) = attrList attrs := by
  unfold made at h
  obtain ⟨m0, m1, m2, m3, m4, m5, m6⟩ := mem
  cases m0
  · simp at h
  · cases attrs with
    | none => exact ⟨rfl, rfl⟩
    | some x =>
      simp only [Mem.id, Mem.type, Option.isNone_some, Bool.true_and, Bool.false_or, Bool.and_eq_true] at h
      obtain ⟨⟨⟨rfl, rfl⟩, rfl⟩, ⟨rfl, rfl⟩, rfl⟩ := h
      obtain ⟨x, y⟩ := x
      refine ⟨rfl, ?_⟩
      simp [request, Mem.id, Mem.type, attrsOf, attrList, serviceAttrs]

theorem request_other (i j c : Nat) (a : String) (attrs : Option (String × String)) (mem : Mem) (h : j ≠ i) :
    attrsOf j (request i c a attrs mem) = [] := by
  obtain ⟨m0, m1, m2, m3, m4, m5, m6⟩ := mem
  cases m0 <;> cases m1 <;> cases m2 <;> cases m3 <;> cases m4 <;> cases m5 <;> cases m6 <;> cases attrs <;>
    simp [request, Mem.id, Mem.type, attrsOf, h.symm]

/-- The kinds of events a step can be. -/
inductive Kind (s : Sys) (op : Op) : List Verif.Iam.Handler.Ev → Prop
  | nothing : (∀ x, op ≠ .hand (.iam x)) → (∀ c x, op ≠ .hand (.conn c x)) →
      op ≠ .hand .init ∧ op ≠ .hand .stop ∧ op ≠ .hand .deinit → asking s op = none → Kind s op []
  | iam x : op = .hand (.iam x) → Kind s op [.iam x]
  | conn c x : op = .hand (.conn c x) → Kind s op [.conn c x]
  | init : op = .hand .init → Kind s op [.init]
  | work : op = .hand .work → Kind s op [.work]
  | stop : op = .hand .stop → Kind s op [.stop]
  | deinit : op = .hand .deinit → Kind s op [.deinit]
  | run i mem : op = .run i mem → Kind s op [.run i]
  | request c a attrs mem : asking s op = some (c, a, attrs, mem) → Kind s op (request s.h.auth.next c (actionName a) attrs mem)

theorem kind (s : Sys) (op : Op) : Kind s op (events s op) := by
  unfold events
  cases op with
  | hand e =>
    cases e with
    | iam x => exact .iam x rfl
    | conn c x => exact .conn c x rfl
    | init => exact .init rfl
    | work => exact .work rfl
    | stop => exact .stop rfl
    | deinit => exact .deinit rfl
    | create c a => exact .nothing (by simp) (by simp) (by simp) rfl
    | add i k v x y z => exact .nothing (by simp) (by simp) (by simp) rfl
    | discard i => exact .nothing (by simp) (by simp) (by simp) rfl
    | check i => exact .nothing (by simp) (by simp) (by simp) rfl
    | run i => exact .nothing (by simp) (by simp) (by simp) rfl
  | run i mem => exact .run i mem rfl
  | mgr o => exact .nothing (by simp) (by simp) (by simp) rfl
  | stream c port mem =>
    dsimp only
    cases h : asking s (.stream c port mem) with
    | none => exact .nothing (by simp) (by simp) (by simp) h
    | some x => obtain ⟨c, a, attrs, m⟩ := x; exact .request c a attrs m h
  | list c mem =>
    dsimp only
    cases h : asking s (.list c mem) with
    | none => exact .nothing (by simp) (by simp) (by simp) h
    | some x => obtain ⟨c, a, attrs, m⟩ := x; exact .request c a attrs m h
  | get c id con mem =>
    dsimp only
    cases h : asking s (.get c id con mem) with
    | none => exact .nothing (by simp) (by simp) (by simp) h
    | some x => obtain ⟨c, a, attrs, m⟩ := x; exact .request c a attrs m h

theorem asking_op {s : Sys} {op : Op} {x} (h : asking s op = some x) :
    (∃ c p m, op = .stream c p m) ∨ (∃ c m, op = .list c m) ∨ ∃ c i b m, op = .get c i b m := by
  cases op with
  | stream c p m => exact .inl ⟨_, _, _, rfl⟩
  | list c m => exact .inr (.inl ⟨_, _, rfl⟩)
  | get c i b m => exact .inr (.inr ⟨_, _, _, _, rfl⟩)
  | mgr o => cases h
  | hand e => cases h
  | run i m => cases h

/-! ### The parts stay in step -/

theorem legal_snoc {E : Env} {p : List Verif.Iam.Handler.Ev} {e : Verif.Iam.Handler.Ev} (h : Verif.Iam.Handler.Spec.Legal E p)
    (he : ∀ w, Verif.Iam.Handler.run E Verif.Iam.Handler.init p = some w → Verif.Iam.Handler.Spec.allowed p w e) :
    Verif.Iam.Handler.Spec.Legal E (p ++ [e]) := by
  intro a x rest hx w hw
  rcases List.eq_nil_or_concat rest with rfl | ⟨r, y, rfl⟩
  · obtain ⟨rfl, hh⟩ := List.append_inj' hx rfl
    cases hh
    exact he w hw
  · rw [List.concat_eq_append, ← List.cons_append, ← List.append_assoc] at hx
    obtain ⟨rfl, -⟩ := List.append_inj' hx rfl
    exact h a x r rfl w hw

structure Inv (E : Env) (ops : List Op) (s : Sys) : Prop where
  man : s.m = Manager.run s.mev
  han : Verif.Iam.Handler.run E Verif.Iam.Handler.init s.hev = some s.h
  legal : Verif.Iam.Handler.Spec.Legal E s.hev
  asked : s.m.asked = s.asks.length
  iam : Verif.Iam.Handler.Spec.iamOf s.hev = iamOf ops
  conn : ∀ c, Verif.Iam.Handler.Spec.connOf c s.hev = connOf c ops
  init : .init ∈ s.hev ↔ .hand .init ∈ ops
  stop : .stop ∈ s.hev ↔ .hand .stop ∈ ops
  deinit : .deinit ∈ s.hev ↔ .hand .deinit ∈ ops

theorem inv_init (E : Env) : Inv E [] {} :=
  ⟨rfl, rfl, fun p e rest h => by simp at h, rfl, rfl, fun _ => rfl, by simp, by simp, by simp⟩

/-- A request leaves alone what is known otherwise. -/
theorem request_plain (i c : Nat) (a : String) (attrs : Option (String × String)) (mem : Mem)
    (e : Verif.Iam.Handler.Ev) (he : e ∈ request i c a attrs mem) :
    e = .create c a ∨ (∃ k v x y z, e = .add i k v x y z) ∨ e = .check i ∨ e = .discard i := by
  unfold request at he
  split at he
  · cases he
  · rcases List.mem_cons.1 he with rfl | he
    · exact .inl rfl
    · cases attrs with
      | none => rcases List.mem_singleton.1 he with rfl; exact .inr (.inr (.inl rfl))
      | some x =>
        obtain ⟨x, y⟩ := x
        dsimp only at he
        rcases List.mem_cons.1 he with rfl | he
        · exact .inr (.inl ⟨_, _, _, _, _, rfl⟩)
        · split at he
          · rcases List.mem_singleton.1 he with rfl; exact .inr (.inr (.inr rfl))
          · rcases List.mem_cons.1 he with rfl | he
            · exact .inr (.inl ⟨_, _, _, _, _, rfl⟩)
            · split at he
              · rcases List.mem_singleton.1 he with rfl; exact .inr (.inr (.inr rfl))
              · rcases List.mem_singleton.1 he with rfl; exact .inr (.inr (.inl rfl))

theorem iam_plain (l : List Verif.Iam.Handler.Ev) (h : ∀ e ∈ l, ∀ x, e ≠ .iam x) (y : Iam) :
    l.foldl (fun x e => match e with | .iam y => y | _ => x) y = y := by
  induction l generalizing y with
  | nil => rfl
  | cons e l ih =>
    rw [List.foldl_cons, ih fun e he => h e (List.mem_cons_of_mem _ he)]
    cases e <;> first | rfl | exact absurd rfl (h _ (List.mem_cons_self ..) _)

theorem conn_plain (c : Nat) (l : List Verif.Iam.Handler.Ev) (h : ∀ e ∈ l, ∀ r x, e ≠ .conn r x) (y : ConnInfo) :
    l.foldl (fun x e => match e with | .conn r y => if r = c then y else x | _ => x) y = y := by
  induction l generalizing y with
  | nil => rfl
  | cons e l ih =>
    rw [List.foldl_cons, ih fun e he => h e (List.mem_cons_of_mem _ he)]
    cases e <;> first | rfl | exact absurd rfl (h _ (List.mem_cons_self ..) _ _)

theorem iamOf_events (s : Sys) (op : Op) (y : Iam) :
    (events s op).foldl (fun x e => match e with | .iam y => y | _ => x) y = (match op with | .hand (.iam x) => x | _ => y) := by
  have hk := kind s op
  generalize events s op = l at hk
  cases hk with
  | nothing h1 h2 h3 h4 => cases op <;> first | rfl | (rename_i e; cases e <;> first | rfl | exact absurd rfl (h1 _))
  | iam x h | conn c x h | init h | work h | stop h | deinit h | run i m h => subst h; rfl
  | request c a attrs mem h =>
    rw [iam_plain]
    · rcases asking_op h with ⟨c, p, m, rfl⟩ | ⟨c, m, rfl⟩ | ⟨c, i, b, m, rfl⟩ <;> rfl
    · intro e he x
      rcases request_plain _ _ _ _ _ e he with rfl | ⟨k, v, a, b, d, rfl⟩ | rfl | rfl <;> simp

theorem connOf_events (s : Sys) (op : Op) (c : Nat) (y : ConnInfo) :
    (events s op).foldl (fun x e => match e with | .conn r y => if r = c then y else x | _ => x) y =
      (match op with | .hand (.conn d x) => if d = c then x else y | _ => y) := by
  have hk := kind s op
  generalize events s op = l at hk
  cases hk with
  | nothing h1 h2 h3 h4 => cases op <;> first | rfl | (rename_i e; cases e <;> first | rfl | exact absurd rfl (h2 _ _))
  | iam x h | conn c x h | init h | work h | stop h | deinit h | run i m h => subst h; rfl
  | request c a attrs mem h =>
    rw [conn_plain]
    · rcases asking_op h with ⟨c, p, m, rfl⟩ | ⟨c, m, rfl⟩ | ⟨c, i, b, m, rfl⟩ <;> rfl
    · intro e he x z
      rcases request_plain _ _ _ _ _ e he with rfl | ⟨k, v, a, b, d, rfl⟩ | rfl | rfl <;> simp

theorem marks_events (s : Sys) (op : Op) :
    (.init ∈ events s op ↔ op = .hand .init) ∧ (.stop ∈ events s op ↔ op = .hand .stop) ∧
    (.deinit ∈ events s op ↔ op = .hand .deinit) := by
  have hk := kind s op
  generalize events s op = l at hk
  cases hk with
  | nothing h1 h2 h3 h4 => simp [h3]
  | iam x h | conn c x h | init h | work h | stop h | deinit h | run i m h => subst h; simp
  | request c a attrs mem h =>
    have hp := request_plain s.h.auth.next c (actionName a) attrs mem
    refine ⟨⟨fun hm => ?_, fun ho => ?_⟩, ⟨fun hm => ?_, fun ho => ?_⟩, fun hm => ?_, fun ho => ?_⟩
    · rcases hp _ hm with h | ⟨_, _, _, _, _, h⟩ | h | h <;> cases h
    · subst ho; cases h
    · rcases hp _ hm with h | ⟨_, _, _, _, _, h⟩ | h | h <;> cases h
    · subst ho; cases h
    · rcases hp _ hm with h | ⟨_, _, _, _, _, h⟩ | h | h <;> cases h
    · subst ho; cases h

/-- The checks an operation makes. -/
def checks (s : Manager.St) : Manager.Op → Nat
  | .incoming p m => if m = true ∧ (Manager.findPort p s.services).isSome = true then 1 else 0
  | .coapList m => if m = true then 1 else 0
  | .coapGet id _ m => if m = true ∧ (Manager.findId id s.services).isSome = true then 1 else 0
  | _ => 0

theorem asked_step (s : Manager.St) (op : Manager.Op) : (Manager.step s op).asked = s.asked + checks s op := by
  cases op with
  | addService id type target m m' port =>
    show (Manager.St.addService ..).asked = _
    unfold Manager.St.addService
    cases m <;> cases m' <;> cases s.freePort port <;> rfl
  | removeService id =>
    show (Manager.St.removeService ..).asked = _
    unfold Manager.St.removeService
    cases Manager.findId id s.services <;> rfl
  | setLimit t l m =>
    show (Manager.St.setLimit ..).asked = _
    unfold Manager.St.setLimit
    dsimp only
    split
    · rfl
    · cases m <;> rfl
  | addMeta id k v m =>
    show (Manager.St.addMeta ..).asked = _
    unfold Manager.St.addMeta
    cases Manager.findId id s.services <;> rfl
  | removeMeta id k =>
    show (Manager.St.removeMeta ..).asked = _
    unfold Manager.St.removeMeta
    cases Manager.findId id s.services <;> rfl
  | incoming p m =>
    show (Manager.St.incoming ..).asked = _
    unfold Manager.St.incoming checks
    dsimp only
    cases Manager.findPort p s.services <;> cases m <;> simp [Manager.St.ask, Manager.St.tell]
  | coapList m =>
    show (Manager.St.coapList ..).asked = _
    unfold Manager.St.coapList checks
    cases m <;> rfl
  | coapGet id c m =>
    show (Manager.St.coapGet ..).asked = _
    unfold Manager.St.coapGet checks
    dsimp only
    cases Manager.findId id s.services <;> cases m <;> simp [Manager.St.ask, Manager.St.tell]
  | connEnds c => rfl
  | verdict r allow m =>
    show (Manager.St.verdict ..).asked = _
    unfold Manager.St.verdict
    cases s.pending.lookup r with
    | none => rfl
    | some q =>
      dsimp only
      cases q.what with
      | tunnel wp n =>
        dsimp only [Manager.St.tunnelVerdict]
        split
        · rfl
        · split
          · rfl
          · split
            · rfl
            · split <;> rfl
      | list =>
        dsimp only [Manager.St.listVerdict]
        split
        · rfl
        · split <;> rfl
      | get id =>
        dsimp only [Manager.St.getVerdict]
        split
        · rfl
        · split
          · rfl
          · split <;> rfl

/-- As many checks as requests which are submitted. -/
theorem asks_step (s : Sys) (h' : W) (op : Op) :
    ((calls s h' op).foldl Manager.step s.m).asked =
      s.m.asked + ((events s op).filterMap submitted).length := by
  cases op with
  | mgr o =>
    have hm : ∀ o, checks s.m o = 0 → ([o].foldl Manager.step s.m).asked = s.m.asked := fun o ho => by
      show (Manager.step s.m o).asked = _
      rw [asked_step, ho, Nat.add_zero]
    cases o <;> first | rfl | exact hm _ rfl
  | hand e => cases e <;> rfl
  | run i mem =>
    have hv : ∀ r v, (Manager.step s.m (.verdict r v mem)).asked = s.m.asked := fun r v => asked_step s.m _
    unfold calls
    dsimp only
    split
    · split
      · exact hv _ _
      · rfl
    · rfl
  | stream c port mem =>
    show (Manager.step s.m (.incoming port _)).asked = _
    rw [asked_step]
    congr 1
    unfold events checks asking
    dsimp only
    cases Manager.findPort port s.m.services with
    | none => simp
    | some x =>
      dsimp only
      rw [request_asks]
      unfold made
      cases mem.create <;> cases mem.id <;> cases mem.type <;> rfl
  | list c mem =>
    show (Manager.step s.m (.coapList _)).asked = _
    rw [asked_step]
    congr 1
    unfold events checks asking
    dsimp only
    rw [request_asks]
    unfold made
    cases mem.create <;> rfl
  | get c id con mem =>
    show (Manager.step s.m (.coapGet id con _)).asked = _
    rw [asked_step]
    congr 1
    unfold events checks asking
    dsimp only
    cases Manager.findId id s.m.services with
    | none => simp
    | some x =>
      dsimp only
      rw [request_asks]
      unfold made
      cases mem.create <;> cases mem.id <;> cases mem.type <;> rfl

/-- Requests which were not made yet are not used. -/
theorem unused {N : NumSem} {w : W} {hist : List Verif.Iam.Handler.Ev} (h : HInv N w hist) (i : Nat)
    (hi : (creates hist).length ≤ i) : .check i ∉ hist ∧ .discard i ∉ hist := by
  obtain ⟨-, hv⟩ := h.auth.cells.none i (by rw [h.data.next]; exact hi)
  refine ⟨fun hm => ?_, fun hm => ?_⟩
  · have e : decide (.check i ∈ w.trace) = false := congrArg Verif.Api.Auth.View.checked hv
    simp [h.link.check i |>.2 hm] at e
  · have e : decide (.discard i ∈ w.trace) = false := congrArg Verif.Api.Auth.View.discarded hv
    simp [h.link.discard i |>.2 hm] at e

/-- The new request belongs to the core. -/
theorem own_new {N : NumSem} {w : W} {hist : List Verif.Iam.Handler.Ev} (h : HInv N w hist) (c : Nat) (a : String)
    (l : List Verif.Iam.Handler.Ev) (hl : ∀ e ∈ l, ∃ i k v x y z, e = .add i k v x y z) :
    Verif.Iam.Handler.Spec.own (hist ++ .create c a :: l) w.auth.next := by
  obtain ⟨h1, h2⟩ := unused h w.auth.next (by rw [h.data.next]; exact Nat.le_refl _)
  refine ⟨?_, ?_, ?_⟩
  · rw [h.data.next]
    simp [creates, List.filterMap_append]
  · intro hm
    rcases List.mem_append.1 hm with hm | hm
    · exact h1 hm
    · rcases List.mem_cons.1 hm with hm | hm
      · cases hm
      · obtain ⟨_, _, _, _, _, _, e⟩ := hl _ hm; cases e
  · intro hm
    rcases List.mem_append.1 hm with hm | hm
    · exact h2 hm
    · rcases List.mem_cons.1 hm with hm | hm
      · cases hm
      · obtain ⟨_, _, _, _, _, _, e⟩ := hl _ hm; cases e

theorem legal_request {E : Env} {N : NumSem} {w : W} {hist : List Verif.Iam.Handler.Ev} (h : HInv N w hist)
    (hl : Verif.Iam.Handler.Spec.Legal E hist) (hd : .deinit ∉ hist) (c : Nat) (a : String)
    (attrs : Option (String × String)) (mem : Mem) :
    Verif.Iam.Handler.Spec.Legal E (hist ++ request w.auth.next c a attrs mem) := by
  unfold request
  have hnd : ∀ l : List Verif.Iam.Handler.Ev, (∀ e ∈ l, ∃ i k v x y z, e = .add i k v x y z) → .deinit ∉ hist ++ .create c a :: l := by
    intro l hl hm
    rcases List.mem_append.1 hm with hm | hm
    · exact hd hm
    · rcases List.mem_cons.1 hm with hm | hm
      · cases hm
      · obtain ⟨_, _, _, _, _, _, e⟩ := hl _ hm; cases e
  split
  · rw [List.append_nil]; exact hl
  · have l1 : Verif.Iam.Handler.Spec.Legal E (hist ++ [.create c a]) := legal_snoc hl fun _ _ => trivial
    cases attrs with
    | none =>
      have := legal_snoc (e := .check w.auth.next) l1 fun _ _ => ⟨own_new h c a [] (by simp), hnd [] (by simp)⟩
      simpa using this
    | some x =>
      obtain ⟨x, y⟩ := x
      have l2 := legal_snoc (e := .add w.auth.next "TcpTunnel:ServiceId" x mem.id1 mem.id2 mem.id3) l1
        fun _ _ => own_new h c a [] (by simp)
      rw [List.append_assoc] at l2
      have one : ∀ e ∈ [Verif.Iam.Handler.Ev.add w.auth.next "TcpTunnel:ServiceId" x mem.id1 mem.id2 mem.id3],
          ∃ i k v x y z, e = .add i k v x y z := by
        intro e he; rcases List.mem_singleton.1 he with rfl; exact ⟨_, _, _, _, _, _, rfl⟩
      have two : ∀ e ∈ [Verif.Iam.Handler.Ev.add w.auth.next "TcpTunnel:ServiceId" x mem.id1 mem.id2 mem.id3] ++
          [.add w.auth.next "TcpTunnel:ServiceType" y mem.type1 mem.type2 mem.type3], ∃ i k v x y z, e = .add i k v x y z := by
        intro e he
        rcases List.mem_append.1 he with he | he
        · exact one e he
        · rcases List.mem_singleton.1 he with rfl; exact ⟨_, _, _, _, _, _, rfl⟩
      dsimp only
      split
      · have := legal_snoc (e := .discard w.auth.next) l2 fun _ _ => own_new h c a _ one
        simpa using this
      · have l3 := legal_snoc (e := .add w.auth.next "TcpTunnel:ServiceType" y mem.type1 mem.type2 mem.type3) l2
          fun _ _ => own_new h c a _ one
        rw [List.append_assoc] at l3
        split
        · have := legal_snoc (e := .discard w.auth.next) l3 fun _ _ => own_new h c a _ two
          simpa using this
        · have := legal_snoc (e := .check w.auth.next) l3 fun _ _ => ⟨own_new h c a _ two, hnd _ two⟩
          simpa using this

theorem legal_events {E : Env} (hE : IsMap E.ins) {ops : List Op} {s : Sys} {op : Op} (h : Inv E ops s) (ha : allowed ops s op) :
    Verif.Iam.Handler.Spec.Legal E (s.hev ++ events s op) := by
  have hk := kind s op
  generalize events s op = l at hk
  cases hk with
  | nothing => rw [List.append_nil]; exact h.legal
  | iam x e | conn c x e | work e | run i m e => exact legal_snoc h.legal fun _ _ => trivial
  | init e => subst e; exact legal_snoc h.legal fun _ _ hm => ha (h.init.1 hm)
  | stop e => subst e; exact legal_snoc h.legal fun _ _ => ⟨h.init.2 ha.1, fun hm => ha.2 (h.deinit.1 hm)⟩
  | deinit e =>
    subst e
    refine legal_snoc h.legal fun w hw => ⟨h.stop.2 ha.1, fun hm => ha.2.1 (h.deinit.1 hm), ?_⟩
    rw [h.han] at hw
    cases hw
    exact ha.2.2
  | request c a attrs mem e =>
    refine legal_request (Verif.Iam.Handler.hinv_run_all E hE s.hev h.legal s.h h.han) h.legal (fun hm => ?_) c _ attrs mem
    have hm := h.deinit.1 hm
    rcases asking_op e with ⟨c, p, m, rfl⟩ | ⟨c, m, rfl⟩ | ⟨c, i, b, m, rfl⟩ <;> exact ha hm

theorem inv_step {E : Env} (hE : IsMap E.ins) {ops : List Op} {s s' : Sys} {op : Op} (h : Inv E ops s) (ha : allowed ops s op)
    (hs : step E s op = some s') : Inv E (ops ++ [op]) s' := by
  unfold step at hs
  cases hr : Verif.Iam.Handler.run E s.h (events s op) with
  | none => rw [hr] at hs; cases hs
  | some h' =>
    rw [hr] at hs
    cases hs
    obtain ⟨m1, m2, m3⟩ := marks_events s op
    refine ⟨?_, ?_, ?_, ?_, ?_, ?_, ?_, ?_, ?_⟩
    · show _ = Manager.run (s.mev ++ calls s h' op)
      rw [Manager.run_append, ← h.man]
    · show Verif.Iam.Handler.run E _ (s.hev ++ events s op) = some h'
      rw [Verif.Iam.Handler.run_append, h.han]
      exact hr
    · exact legal_events hE h ha
    · show ((calls s h' op).foldl Manager.step s.m).asked = (s.asks ++ _).length
      rw [asks_step, List.length_append, h.asked]
    · show Verif.Iam.Handler.Spec.iamOf (s.hev ++ events s op) = _
      unfold Verif.Iam.Handler.Spec.iamOf iamOf
      rw [List.foldl_append, List.foldl_append]
      have := h.iam
      unfold Verif.Iam.Handler.Spec.iamOf iamOf at this
      rw [this]
      exact iamOf_events s op _
    · intro c
      show Verif.Iam.Handler.Spec.connOf c (s.hev ++ events s op) = _
      unfold Verif.Iam.Handler.Spec.connOf connOf
      rw [List.foldl_append, List.foldl_append]
      have := h.conn c
      unfold Verif.Iam.Handler.Spec.connOf connOf at this
      rw [this]
      exact connOf_events s op c _
    · show _ ∈ s.hev ++ events s op ↔ _
      rw [List.mem_append, List.mem_append, h.init, m1, List.mem_singleton, eq_comm (a := op)]
    · show _ ∈ s.hev ++ events s op ↔ _
      rw [List.mem_append, List.mem_append, h.stop, m2, List.mem_singleton, eq_comm (a := op)]
    · show _ ∈ s.hev ++ events s op ↔ _
      rw [List.mem_append, List.mem_append, h.deinit, m3, List.mem_singleton, eq_comm (a := op)]

end Verif.Tunnel.Access
