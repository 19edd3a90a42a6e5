import Verif.Tunnel.AccessStep

/-!
# Tunnels behind the IAM module — property C148
-/

namespace Verif.Tunnel.Access

open Verif.Iam Verif.Tunnel.Access.Spec
open Verif.Iam.Handler (goodIns goodIns_map goodEnv shortEnv shopIam)
open Verif.Iam.Handler.Spec (IsMap)

/-! ### What a step tells is what its call of the tunnels tells -/

theorem told_call {E : Env} {ops : List Op} {s s' : Sys} {op : Op} (iv : Inv E ops s) (hst : step E s op = some s')
    {x : Manager.Out} (h : x ∈ told s s') :
    ∃ o, calls s s'.h op = [o] ∧ x ∈ Manager.Spec.told s.mev o := by
  obtain ⟨-, -, p3, -⟩ := step_parts hst
  rcases calls_one s s'.h op with hc | ⟨o, hc⟩
  · rw [hc] at p3
    have p3 : s'.m = s.m := p3
    unfold told at h
    rw [p3] at h
    simp at h
  · rw [hc] at p3
    have p3 : s'.m = Manager.step s.m o := p3
    refine ⟨o, hc, ?_⟩
    unfold Manager.Spec.told
    rw [Manager.run_snoc, ← iv.man, ← p3]
    exact h

theorem drop_snoc {α : Type} (l : List α) (x : α) : (l ++ [x]).drop l.length = [x] := by simp

theorem told_incoming {ops : List Manager.Op} {port : UInt32} {r : Nat} {a : Manager.Action} {at' : Option (String × String)}
    (h : Manager.Spec.told ops (.incoming port true) = [.check r a at']) :
    r = (Manager.run ops).asked ∧ ∃ z, Manager.findPort port (Manager.run ops).services = some z ∧ a = .connect ∧ at' = some (z.id, z.type) := by
  unfold Manager.Spec.told at h
  rw [Manager.run_snoc] at h
  change (Manager.St.incoming (Manager.run ops) port true).out.drop _ = _ at h
  unfold Manager.St.incoming at h
  cases hf : Manager.findPort port (Manager.run ops).services with
  | none => rw [hf] at h; simp at h
  | some z =>
    rw [hf] at h
    change ((Manager.run ops).out ++ [Manager.Out.check (Manager.run ops).asked .connect (some (z.id, z.type))]).drop _ = _ at h
    rw [drop_snoc] at h
    cases h
    exact ⟨rfl, z, rfl, rfl, rfl⟩

theorem told_list {ops : List Manager.Op} {r : Nat} {a : Manager.Action} {at' : Option (String × String)}
    (h : Manager.Spec.told ops (.coapList true) = [.check r a at']) : r = (Manager.run ops).asked := by
  unfold Manager.Spec.told at h
  rw [Manager.run_snoc] at h
  change ((Manager.run ops).out ++ [Manager.Out.check (Manager.run ops).asked .listServices none]).drop _ = _ at h
  rw [drop_snoc] at h
  cases h
  rfl

theorem told_get {ops : List Manager.Op} {id : String} {con : Bool} {r : Nat} {a : Manager.Action} {at' : Option (String × String)}
    (h : Manager.Spec.told ops (.coapGet id con true) = [.check r a at']) :
    r = (Manager.run ops).asked ∧ ∃ z, Manager.findId id (Manager.run ops).services = some z ∧ at' = some (z.id, z.type) := by
  unfold Manager.Spec.told at h
  rw [Manager.run_snoc] at h
  change (Manager.St.coapGet (Manager.run ops) id _ true).out.drop _ = _ at h
  unfold Manager.St.coapGet at h
  cases hf : Manager.findId id (Manager.run ops).services with
  | none =>
    rw [hf] at h
    change ((Manager.run ops).out ++ [Manager.Out.error 404]).drop _ = _ at h
    rw [drop_snoc] at h
    cases h
  | some z =>
    rw [hf] at h
    change ((Manager.run ops).out ++ [Manager.Out.check (Manager.run ops).asked _ (some (z.id, z.type))]).drop _ = _ at h
    rw [drop_snoc] at h
    cases h
    exact ⟨rfl, z, rfl, rfl⟩

theorem calls_incoming {s : Sys} {h' : Verif.Iam.Handler.W} {op : Op} {port : UInt32} (h : calls s h' op = [.incoming port true]) :
    ∃ c mem, op = .stream c port mem ∧ mem.create = true ∧ mem.id = true ∧ mem.type = true := by
  cases op with
  | mgr o => cases o <;> cases h
  | hand e => cases h
  | list c m => cases h
  | get c i b m => cases h
  | stream c p m =>
    have e := (List.cons.inj h).1
    injection e with e1 e2
    subst e1
    simp only [Bool.and_eq_true] at e2
    exact ⟨c, m, rfl, e2.1.1, e2.1.2, e2.2⟩
  | run i mem =>
    unfold calls at h
    dsimp only at h
    split at h
    · split at h <;> cases h
    · cases h

theorem calls_list {s : Sys} {h' : Verif.Iam.Handler.W} {op : Op} (h : calls s h' op = [.coapList true]) :
    ∃ c mem, op = .list c mem ∧ mem.create = true := by
  cases op with
  | mgr o => cases o <;> cases h
  | hand e => cases h
  | stream c p m => cases h
  | get c i b m => cases h
  | list c m =>
    have e := (List.cons.inj h).1
    injection e with e1
    exact ⟨c, m, rfl, e1⟩
  | run i mem =>
    unfold calls at h
    dsimp only at h
    split at h
    · split at h <;> cases h
    · cases h

theorem calls_get {s : Sys} {h' : Verif.Iam.Handler.W} {op : Op} {id : String} {con : Bool} (h : calls s h' op = [.coapGet id con true]) :
    ∃ c mem, op = .get c id con mem ∧ mem.create = true ∧ mem.id = true ∧ mem.type = true := by
  cases op with
  | mgr o => cases o <;> cases h
  | hand e => cases h
  | stream c p m => cases h
  | list c m => cases h
  | get c i b m =>
    have e := (List.cons.inj h).1
    injection e with e1 e2 e3
    subst e1 e2
    simp only [Bool.and_eq_true] at e3
    exact ⟨c, m, rfl, e3.1.1, e3.1.2, e3.2⟩
  | run i mem =>
    unfold calls at h
    dsimp only at h
    split at h
    · split at h <;> cases h
    · cases h

theorem allowed_true {post : List Op} {A : List Op → Prop} {Q : Prop}
    (h : (∃ mid rest, post = mid ++ .hand .work :: rest ∧ (true = true ↔ A mid)) ∨ true = false ∧ Q) :
    ∃ mid rest, post = mid ++ .hand .work :: rest ∧ A mid := by
  rcases h with ⟨mid, rest, h1, h2⟩ | ⟨h, -⟩
  · exact ⟨mid, rest, h1, h2.1 rfl⟩
  · cases h

/-! ### C148 -/

/-- **C148** (partial): a tunnel is opened for a stream only if the stream arrived at the port of a service which still
exists, the tunnel goes to the target of this service, and the configuration of the IAM module, at a moment after the
stream arrived, lets the connection of this very stream connect to a service with this id and this type.

Missing: attributes which could not be inserted for lack of memory, see `C148_memory_short_violated`. -/
theorem C148_opened_partial (E : Env) (hE : IsMap E.ins) (ops : List Op) (hl : Legal E ops) (s s' : Sys) (hs : after E ops = some s)
    (op : Op) (hst : step E s op = some s') (hc : s.m.created + 2 < 2 ^ 64) (k n tgt : Nat) (h : .opened k n tgt ∈ told s s') :
    ∃ x ∈ s.m.services, tgt = x.target ∧ ∃ pre c mem mid rest s0,
      ops = pre ++ .stream c x.streamPort mem :: (mid ++ .hand .work :: rest) ∧ after E pre = some s0 ∧ n = s0.m.streams ∧
      Allows E.N (pre ++ .stream c x.streamPort mem :: mid) c "TcpTunnel:Connect" (serviceAttrs x.id x.type) := by
  have iv := inv_all hE ops hl s hs
  obtain ⟨o, hco, hto⟩ := told_call iv hst h
  obtain ⟨r, x, rfl, hx, ⟨before, aft, port, y, e, hy, hsame, hyp, hn, ht⟩, htg, -⟩ :=
    Manager.C48_opened s.mev o k n tgt (by rw [← iv.man]; exact hc) hto
  obtain ⟨pre, op0, post, s0, s1, he, h0, h1, hm0, hc0⟩ := mev_split ops s hs before aft _ e
  obtain ⟨c, mem, rfl, m1, m2, m3⟩ := calls_incoming hc0
  rw [he] at hl hs
  have iv0 := inv_all hE pre (legal_left hl) s0 h0
  obtain ⟨hr, z, hz, -, hzz⟩ := told_incoming ht
  rw [← hm0, ← iv0.man] at hr hz hn
  have hxp : x.streamPort = port := by rw [← hyp]; exact hsame.2.2.2.2
  rw [iv0.asked] at hr
  subst hr
  have ha : asking s0 (.stream c port mem) = some (c, .connect, some (x.id, x.type), mem) := by
    unfold asking
    dsimp only
    rw [hz]
    dsimp only
    rw [hzz]
  obtain ⟨mid, rest, hpost, hal⟩ := allowed_true (decided hE hl hs hst h0 hco ha (by simp [made, m1, m2, m3]))
  subst hxp
  exact ⟨x, by rw [iv.man]; exact hx, htg, pre, c, mem, mid, rest, s0, by rw [he, hpost], h0, hn, hal⟩

/-- **C148** (partial): the list of services is told only to answer a client whom the configuration let list the services
after it asked. -/
theorem C148_listed_partial (E : Env) (hE : IsMap E.ins) (ops : List Op) (hl : Legal E ops) (s s' : Sys) (hs : after E ops = some s)
    (op : Op) (hst : step E s op = some s') (ids : List String) (h : .services ids ∈ told s s') :
    ids = s.m.services.map (·.id) ∧ ∃ pre c mem mid rest,
      ops = pre ++ .list c mem :: (mid ++ .hand .work :: rest) ∧
      Allows E.N (pre ++ .list c mem :: mid) c "TcpTunnel:ListServices" [] := by
  have iv := inv_all hE ops hl s hs
  obtain ⟨o, hco, hto⟩ := told_call iv hst h
  obtain ⟨r, before, aft, rfl, e, ht, hids⟩ := Manager.C85_list s.mev o ids hto
  obtain ⟨pre, op0, post, s0, s1, he, h0, h1, hm0, hc0⟩ := mev_split ops s hs before aft _ e
  obtain ⟨c, mem, rfl, m1⟩ := calls_list hc0
  rw [he] at hl hs
  have iv0 := inv_all hE pre (legal_left hl) s0 h0
  have hr := told_list ht
  rw [← hm0, ← iv0.man, iv0.asked] at hr
  subst hr
  obtain ⟨mid, rest, hpost, hal⟩ := allowed_true
    (decided hE hl hs hst h0 hco (o := .list c mem) (a := .listServices) (attrs := none) rfl (by simp [made, m1]))
  exact ⟨by rw [iv.man]; exact hids, pre, c, mem, mid, rest, by rw [he, hpost], hal⟩

/-- **C148** (partial): a service is described only to answer a client whom the configuration let see or use, after it
asked, a service with the id; with the type of the service unless the service was removed in the meantime (C85). -/
theorem C148_described_partial (E : Env) (hE : IsMap E.ins) (ops : List Op) (hl : Legal E ops) (s s' : Sys) (hs : after E ops = some s)
    (op : Op) (hst : step E s op = some s') (i ty : String) (tg : Nat) (p : UInt32) (md : List (String × String))
    (h : .service i ty tg p md ∈ told s s') :
    (∃ x ∈ s.m.services, x.id = i ∧ x.type = ty ∧ x.target = tg ∧ x.streamPort = p ∧ x.metadata = md) ∧
    ∃ pre c connect mem mid rest ty',
      ops = pre ++ .get c i connect mem :: (mid ++ .hand .work :: rest) ∧
      Allows E.N (pre ++ .get c i connect mem :: mid) c (if connect then "TcpTunnel:Connect" else "TcpTunnel:GetService")
        (serviceAttrs i ty') ∧
      (.mgr (.removeService i) ∉ ops → ty' = ty) := by
  have iv := inv_all hE ops hl s hs
  obtain ⟨o, hco, hto⟩ := told_call iv hst h
  obtain ⟨r, before, con, aft, ty', rfl, e, ht, hty, x, hx, hxx⟩ := Manager.C85_disclosed_partial s.mev o i ty tg p md hto
  obtain ⟨pre, op0, post, s0, s1, he, h0, h1, hm0, hc0⟩ := mev_split ops s hs before aft _ e
  obtain ⟨c, mem, rfl, m1, m2, m3⟩ := calls_get hc0
  have hrem : .mgr (.removeService i) ∉ ops → Manager.Op.removeService i ∉ aft := by
    intro hno hm
    obtain ⟨a1, a2, ha⟩ := List.append_of_mem hm
    obtain ⟨pre', op', post', s2, s3, he', -, -, -, hc'⟩ :=
      mev_split ops s hs (before ++ .coapGet i con true :: a1) a2 (.removeService i) (by rw [e, ha]; simp)
    apply hno
    rw [he']
    have : op' = .mgr (.removeService i) := by
      cases op' with
      | mgr o => cases o <;> first | (cases hc'; rfl) | cases hc'
      | hand e => cases hc'
      | stream c p m => cases hc'
      | list c m => cases hc'
      | get c i b m => cases hc'
      | run j mem =>
        unfold calls at hc'
        dsimp only at hc'
        split at hc'
        · split at hc' <;> cases hc'
        · cases hc'
    rw [this]; simp
  rw [he] at hl hs
  have iv0 := inv_all hE pre (legal_left hl) s0 h0
  obtain ⟨hr, z, hz, hzz⟩ := told_get ht
  rw [← hm0, ← iv0.man] at hr hz
  rw [iv0.asked] at hr
  subst hr
  have ha : asking s0 (.get c i con mem) = some (c, if con then .connect else .getService, some (i, ty'), mem) := by
    unfold asking
    dsimp only
    rw [hz]
    dsimp only
    rw [hzz]
  obtain ⟨mid, rest, hpost, hal⟩ := allowed_true (decided hE hl hs hst h0 hco ha (by simp [made, m1, m2, m3]))
  refine ⟨⟨x, by rw [iv.man]; exact hx, hxx⟩, pre, c, con, mem, mid, rest, ty', by rw [he, hpost], ?_, fun hno => hty (hrem hno)⟩
  cases con <;> exact hal

/-! ### Why a stream is refused -/

theorem told_destroyed {ops : List Manager.Op} {o : Manager.Op} {n : Nat} (h : .destroyed n ∈ Manager.Spec.told ops o) :
    (∃ port, o = .incoming port false) ∨
    ∃ r v m q wp, o = .verdict r v m ∧ (Manager.run ops).pending.lookup r = some q ∧ q.what = .tunnel wp n ∧
      (Manager.findWp wp (Manager.run ops).services = none ∨ v = false ∨ m = false ∨
        ∃ x l, Manager.findWp wp (Manager.run ops).services = some x ∧ (Manager.run ops).limits x.type = some l ∧
          l ≤ Manager.Spec.count (Manager.run ops) x.type) := by
  have he := Manager.step_eff (Manager.run ops) o
  generalize hs : Manager.step (Manager.run ops) o = s' at he
  have tell : ∀ os, s'.out = (Manager.run ops).out ++ os → Manager.Out.destroyed n ∈ os := fun os ho => by
    rw [Manager.told_of (by rw [hs]; exact ho)] at h; exact h
  have no : ∀ o, s'.out = (Manager.run ops).out ++ [o] → Manager.Plain o → False := fun o ho hp => by
    have := tell [o] ho
    rw [← List.mem_singleton.1 this] at hp
    exact hp
  cases he with
  | nothing => cases tell [] (List.append_nil _).symm
  | says op o hp => exact (no o rfl hp).elim
  | lost => exact (no _ rfl trivial).elim
  | added => exact (no _ rfl trivial).elim
  | removed id x hx =>
    rcases List.mem_append.1 (tell _ rfl) with h1 | h1
    · obtain ⟨d, -, e⟩ := List.mem_map.1 h1; cases e
    · cases List.mem_singleton.1 h1
  | limited => exact (no _ rfl trivial).elim
  | changes => exact (no _ rfl trivial).elim
  | asks => cases List.mem_singleton.1 (tell _ rfl)
  | drops => exact .inl ⟨_, rfl⟩
  | asksList => cases List.mem_singleton.1 (tell _ rfl)
  | asksGet => cases List.mem_singleton.1 (tell _ rfl)
  | answers r allow mem q o hl hp hq => exact (no _ rfl hp).elim
  | lists => cases List.mem_singleton.1 (tell _ rfl)
  | shows => cases List.mem_singleton.1 (tell _ rfl)
  | ends => cases tell [] (List.append_nil _).symm
  | opens => cases List.mem_singleton.1 (tell _ rfl)
  | refuses r allow mem q wp n' hlk hq =>
    cases List.mem_singleton.1 (tell _ rfl)
    refine .inr ⟨r, allow, mem, q, wp, rfl, hlk, hq, ?_⟩
    cases hx : Manager.findWp wp (Manager.run ops).services with
    | none => exact .inl rfl
    | some x =>
      cases allow with
      | false => exact .inr (.inl rfl)
      | true =>
        cases mem with
        | false => exact .inr (.inr (.inl rfl))
        | true =>
          refine .inr (.inr (.inr ⟨x, ?_⟩))
          cases hf : (Manager.run ops).full x.type with
          | true =>
            unfold Manager.St.full at hf
            cases hlim : (Manager.run ops).limits x.type with
            | none => rw [hlim] at hf; cases hf
            | some l =>
              rw [hlim] at hf
              exact ⟨l, rfl, rfl, by rw [Manager.Spec.count, ← Manager.byType_eq]; simpa using hf⟩
          | false =>
            exfalso
            change Manager.St.verdict (Manager.run ops) r true true = _ at hs
            unfold Manager.St.verdict at hs
            rw [hlk] at hs
            dsimp only at hs
            rw [hq] at hs
            dsimp only [Manager.St.tunnelVerdict] at hs
            rw [hx] at hs
            dsimp only at hs
            have hf' : ¬ ({ Manager.run ops with pending := (Manager.run ops).pending.filter fun p => p.1 ≠ r } : Manager.St).full x.type = true :=
              Bool.eq_false_iff.1 hf
            rw [if_neg (by decide), if_neg hf', if_neg (by decide)] at hs
            have := congrArg Manager.St.out hs
            change (Manager.run ops).out ++ [_] = (Manager.run ops).out ++ [_] at this
            have := List.append_cancel_left this
            cases this

/-- **C148** (partial): a stream is refused only for a reason: memory is short; or the service it arrived at is gone, its
limit is reached; or the handler of the IAM module was not there or has been stopped; or the configuration, at a moment
after the stream arrived, did not let its connection connect to this service. -/
theorem C148_refused_partial (E : Env) (hE : IsMap E.ins) (ops : List Op) (hl : Legal E ops) (s s' : Sys) (hs : after E ops = some s)
    (op : Op) (hst : step E s op = some s') (hc : s.m.created + 2 < 2 ^ 64) (n : Nat) (h : .destroyed n ∈ told s s') :
    (∃ c port mem, op = .stream c port mem ∧ ¬ (mem.create = true ∧ mem.id = true ∧ mem.type = true)) ∨
    ∃ pre c port mem post s0, ops = pre ++ .stream c port mem :: post ∧ after E pre = some s0 ∧ n = s0.m.streams ∧
      ∃ x ∈ s0.m.services, x.streamPort = port ∧
        ((∀ y ∈ s.m.services, y.serial ≠ x.serial) ∨
         (∃ y ∈ s.m.services, y.serial = x.serial ∧ ∃ l, s.m.limits y.type = some l ∧ l ≤ Manager.Spec.count s.m y.type) ∨
         (∃ i, op = .run i false) ∨
         (.hand .stop ∈ ops ∨ .hand .init ∉ pre) ∨
         ∃ mid rest, post = mid ++ .hand .work :: rest ∧
          ¬ Allows E.N (pre ++ .stream c port mem :: mid) c "TcpTunnel:Connect" (serviceAttrs x.id x.type)) := by
  have iv := inv_all hE ops hl s hs
  obtain ⟨o, hco, hto⟩ := told_call iv hst h
  rcases told_destroyed hto with ⟨port, rfl⟩ | ⟨r, v, m, q, wp, rfl, hlk, hq, hwhy⟩
  · left
    cases op with
    | mgr o => cases o <;> cases hco
    | hand e => cases hco
    | list c m => cases hco
    | get c i b m => cases hco
    | stream c p m =>
      have e := (List.cons.inj hco).1
      injection e with e1 e2
      refine ⟨c, p, m, rfl, ?_⟩
      rintro ⟨h1, h2, h3⟩
      rw [h1, h2, h3] at e2
      cases e2
    | run i mem =>
      unfold calls at hco
      dsimp only at hco
      split at hco
      · split at hco <;> cases hco
      · cases hco
  · right
    have ha := Manager.run_asked s.mev (r, q) (Manager.lookup_mem hlk)
    unfold Manager.Asked at ha
    rw [hq] at ha
    obtain ⟨hq1, hq2, before, aft, port, y, e, hy, hys, hyp, hn, ht⟩ := ha
    have hq1 : q.serial < (Manager.run s.mev).created := hq1
    have hys : y.serial = q.serial := hys
    have ht : Manager.Spec.told before (.incoming port true) = [.check r .connect (some (y.id, y.type))] := ht
    obtain ⟨pre, op0, post, s0, s1, he, h0, h1, hm0, hc0⟩ := mev_split ops s hs before aft _ e
    obtain ⟨c, mem, rfl, m1, m2, m3⟩ := calls_incoming hc0
    rw [he] at hl hs
    have iv0 := inv_all hE pre (legal_left hl) s0 h0
    obtain ⟨hr, z, hz, -, hzz⟩ := told_incoming ht
    rw [← hm0, ← iv0.man] at hr hz hn
    unfold Manager.Spec.Has at hy
    rw [← hm0, ← iv0.man] at hy
    rw [iv0.asked] at hr
    subst hr
    have hask : asking s0 (.stream c port mem) = some (c, .connect, some (y.id, y.type), mem) := by
      unfold asking
      dsimp only
      rw [hz]
      dsimp only
      rw [hzz]
    have hd := decided hE hl hs hst h0 hco hask (by simp [made, m1, m2, m3])
    have hinv := Manager.run_sinv s.mev
    rw [← iv.man] at hinv hwhy hq1
    refine ⟨pre, c, port, mem, post, s0, he, h0, hn, y, hy, hyp, ?_⟩
    rcases hwhy with hw | rfl | rfl | ⟨x, l, hx, hlim, hcnt⟩
    · left
      intro u hu hus
      have huw : u.wp = wp := by rw [hinv.wp u hu, hus, hys, hq2]
      have : ∀ xs : List Manager.Svc, u ∈ xs → Manager.findWp wp xs ≠ none := by
        intro xs
        induction xs with
        | nil => intro hu; cases hu
        | cons a xs ih =>
          intro hu
          rw [Manager.findWp]
          split
          · simp
          · rename_i hne
            rcases List.mem_cons.1 hu with rfl | hu
            · exact absurd huw hne
            · exact ih hu
      exact this _ hu hw
    · rcases hd with ⟨mid, rest, hpost, hiff⟩ | ⟨-, hna⟩
      · exact .inr (.inr (.inr (.inr ⟨mid, rest, hpost, fun hal => by cases hiff.2 hal⟩)))
      · exact .inr (.inr (.inr (.inl (by rw [he]; exact hna))))
    · obtain ⟨i, j, rfl, -⟩ := calls_verdict hco
      exact .inr (.inr (.inl ⟨i, rfl⟩))
    · obtain ⟨hxm, hxw⟩ := Manager.findWp_some hx
      refine .inr (.inl ⟨x, hxm, ?_, l, hlim, hcnt⟩)
      have h3 := hinv.old x hxm
      rw [hys]
      refine Manager.wp_inj (by omega) (by omega) ?_
      rw [← hinv.wp x hxm, hxw, hq2]

/-! ### Nothing undefined -/

/-- **C148** (partial): whatever clients, the application and the configuration do, nothing undefined happens, as long as no
connection was authorised as a user which is deleted.

Missing: such connections, see C08. -/
theorem C148_safe_partial (E : Env) (hE : IsMap E.ins) (ops : List Op) (hl : Legal E ops) (hd : NoDangling ops) : after E ops ≠ none := by
  suffices ∃ s, after E ops = some s by obtain ⟨s, h⟩ := this; rw [h]; simp
  revert hl hd
  refine snoc_ind (P := fun ops => Legal E ops → NoDangling ops → ∃ s, after E ops = some s) ?_ ?_ ops
  · intro _ _; exact ⟨_, rfl⟩
  · intro ops op ih hl hd
    obtain ⟨s, hs⟩ := ih (legal_left hl) (fun p rest he => hd p (rest ++ [op]) (by rw [he]; simp))
    have iv := inv_all hE ops (legal_left hl) s hs
    have hlg := legal_events hE iv (hl ops op [] rfl s hs)
    have hnd : Verif.Iam.Handler.Spec.NoDangling (s.hev ++ events s op) := by
      intro p rest hp i c a _
      rcases List.append_eq_append_iff.1 hp with ⟨as, rfl, h2⟩ | ⟨bs, h1, h2⟩
      · obtain ⟨rfl, rfl⟩ := events_work s op h2
        rw [List.append_nil, iv.iam, iv.conn]
        exact hd ops [] rfl c
      · cases bs with
        | nil =>
          obtain ⟨rfl, -⟩ := events_work (a := []) s op h2.symm
          rw [List.append_nil] at h1
          rw [← h1, iv.iam, iv.conn]
          exact hd ops [] rfl c
        | cons x bs =>
          obtain ⟨rfl, -⟩ := List.cons.inj h2
          obtain ⟨pre, post, s0, e, h3, h4⟩ := hev_work ops s hs p bs h1
          have iv0 := inv_all hE pre (legal_left (b := .hand .work :: post) (e ▸ legal_left hl)) s0 h3
          rw [← h4, iv0.iam, iv0.conn]
          exact hd pre (post ++ [op]) (by rw [e]; simp) c
    have := Verif.Iam.Handler.C140_safe_partial E hE _ hlg hnd
    rw [Verif.Iam.Handler.run_append, iv.han] at this
    rw [after_snoc, hs]
    show ∃ s', step E s op = some s'
    unfold step
    cases hr : Verif.Iam.Handler.run E s.h (events s op) with
    | none => exact absurd hr this
    | some h' => exact ⟨_, rfl⟩

/-! ### Samples -/

instance (hist : List Op) (s : Sys) (o : Op) : Decidable (allowed hist s o) := by
  unfold allowed
  split <;> infer_instance

def legalFrom (E : Env) (s : Sys) (p : List Op) : List Op → Bool
  | [] => true
  | o :: os => decide (allowed p s o) &&
    match step E s o with
    | none => true
    | some s' => legalFrom E s' (p ++ [o]) os

theorem legal_check (E : Env) (ops : List Op) (h : legalFrom E {} [] ops = true) : Legal E ops := by
  suffices ∀ (os p : List Op) (s : Sys), after E p = some s → legalFrom E s p os = true →
      ∀ a o rest, os = a ++ o :: rest → ∀ s', after E (p ++ a) = some s' → allowed (p ++ a) s' o by
    intro a o rest he s hs
    exact this ops [] {} rfl h a o rest he s hs
  intro os
  induction os with
  | nil => intro p s _ _ a o rest he; simp at he
  | cons x os ih =>
    intro p s hp hl a o rest he s' hs'
    simp only [legalFrom, Bool.and_eq_true, decide_eq_true_eq] at hl
    cases a with
    | nil =>
      simp only [List.nil_append, List.cons.injEq] at he
      obtain ⟨rfl, rfl⟩ := he
      simp only [List.append_nil] at hs' ⊢
      rw [hp] at hs'
      cases hs'
      exact hl.1
    | cons y a =>
      simp only [List.cons_append, List.cons.injEq] at he
      obtain ⟨rfl, he⟩ := he
      have hpx : after E (p ++ [x]) = step E s x := by rw [after_snoc, hp]; rfl
      rw [show p ++ x :: a = (p ++ [x]) ++ a by simp] at hs' ⊢
      cases hst : step E s x with
      | none =>
        rw [hst] at hpx
        obtain ⟨s0, h0, -⟩ := after_append_some hs'
        rw [hpx] at h0
        cases h0
      | some k =>
        rw [hst] at hpx hl
        exact ih (p ++ [x]) k hpx hl.2 a o rest he s' hs'

/-- Two services; the user may use `web`, but not `ssh`. A stream to each of them. -/
def sample : List Op :=
  [.hand (.iam shopIam), .hand (.conn 7 { fingerprint := some "f0" }), .hand .init, .hand .work,
    .mgr (.addService "ssh" "shell" 22 true true (some 10)), .mgr (.addService "web" "http" 80 true true (some 11)),
    .stream 7 10 {}, .stream 7 11 {}, .hand .work, .hand .work, .run 0 true, .hand .work, .hand .work, .hand .work, .hand .work]

example : Legal goodEnv sample := legal_check _ _ (by decide +kernel)

/-- The stream to `ssh` was refused, the stream to `web` is given a tunnel when its verdict is delivered. -/
example : ((after goodEnv sample).bind fun s => (step goodEnv s (.run 1 true)).map fun s' => (s.m.out, told s s')) =
    some ([.ret .ok, .ret .ok, .check 0 .connect (some ("ssh", "shell")), .check 1 .connect (some ("web", "http")), .destroyed 0],
      [.opened 0 1 80]) := by decide +kernel

/-- No connection was authorised as a user. -/
theorem noDangling_sample : NoDangling sample := by
  intro p rest hp c hd
  have hpre : p <+: sample := ⟨_, hp.symm⟩
  rw [List.prefix_iff_eq_take] at hpre
  have hlen : p.length < 16 := by
    have := congrArg List.length hpre
    simp [sample] at this
    omega
  have key : ∀ n : Fin 16, (iamOf (sample.take n)).authorized = [] := by decide +kernel
  have := key ⟨p.length, hlen⟩
  rw [← hpre] at this
  obtain ⟨x, ⟨pre, post, hx, -⟩, -⟩ := hd.2.2
  rw [this] at hx
  simp at hx

/-- The user may list services and look at those of type `http`. -/
def viewIam : Iam :=
  { shopIam with conf := ⟨[⟨"p", [⟨.allow, ["TcpTunnel:ListServices"], []⟩,
    ⟨.allow, ["TcpTunnel:GetService"], [⟨.stringEquals, "TcpTunnel:ServiceType", ["http"]⟩]⟩]⟩], [⟨"User", ["p"]⟩], none⟩ }

def viewSample : List Op :=
  [.hand (.iam viewIam), .hand (.conn 7 { fingerprint := some "f0" }), .hand .init, .hand .work,
    .mgr (.addService "ssh" "shell" 22 true true (some 10)), .mgr (.addService "web" "http" 80 true true (some 11)),
    .list 7 {}, .get 7 "web" false {}, .get 7 "ssh" false {}] ++ List.replicate 14 (.hand .work)

example : Legal goodEnv viewSample := legal_check _ _ (by decide +kernel)

/-- The list and the description of `web` are told, that of `ssh` is not. -/
example : ((after goodEnv viewSample).bind fun s => (run goodEnv s [.run 0 true, .run 1 true, .run 2 true]).map fun s' => told s s') =
    some [.services ["ssh", "web"], .service "web" "http" 80 11 [], .error 403] := by decide +kernel

/-- **C148** is violated: when memory for an attribute is short, the statement which denies access to `ssh` does not apply:
the tunnel is opened although the configuration never lets the connection use this service. -/
theorem C148_memory_short_violated : ∃ ops s s', Legal shortEnv ops ∧ after shortEnv ops = some s ∧
    step shortEnv s (.run 0 true) = some s' ∧ told s s' = [.opened 0 0 22] ∧ s.m.services.map (fun x => (x.id, x.type)) = [("ssh", "shell")] ∧
    ∀ p, p <+: ops → ¬ Allows shortEnv.N p 7 "TcpTunnel:Connect" (serviceAttrs "ssh" "shell") := by
  let ops : List Op := [.hand (.iam shopIam), .hand (.conn 7 { fingerprint := some "f0" }), .hand .init, .hand .work,
    .mgr (.addService "ssh" "shell" 22 true true (some 10)), .stream 7 10 {}, .hand .work, .hand .work]
  have h : ((after shortEnv ops).bind fun s => (step shortEnv s (.run 0 true)).map fun s' =>
      (told s s', s.m.services.map (fun x => (x.id, x.type)))) = some ([.opened 0 0 22], [("ssh", "shell")]) := by decide +kernel
  cases hs : after shortEnv ops with
  | none => rw [hs] at h; cases h
  | some s =>
    rw [hs] at h
    change (step shortEnv s (.run 0 true)).map _ = _ at h
    cases hst : step shortEnv s (.run 0 true) with
    | none => rw [hst] at h; cases h
    | some s' =>
      rw [hst] at h
      have h := Option.some.inj h
      refine ⟨ops, s, s', legal_check _ _ (by decide +kernel), hs, hst, congrArg Prod.fst h, congrArg Prod.snd h, ?_⟩
      intro p hp hal
      rw [List.prefix_iff_eq_take] at hp
      have hn : p.length < 9 := by
        have := congrArg List.length hp
        simp [ops] at this
        omega
      have hc := (Verif.Iam.Handler.check_true goodEnv goodIns_map (iamOf p) (connOf 7 p) 7 "TcpTunnel:Connect"
        (serviceAttrs "ssh" "shell").reverse).2 (by rw [List.reverse_reverse]; exact hal)
      have key : ∀ n : Fin 9, checkAccess goodEnv (iamOf (ops.take n)) (connOf 7 (ops.take n)) 7 "TcpTunnel:Connect"
          ((serviceAttrs "ssh" "shell").reverse.foldl (fun m kv => goodIns m kv.1 kv.2) []) ≠ .ok true := by decide +kernel
      have := key ⟨p.length, hn⟩
      rw [← hp] at this
      exact this hc

end Verif.Tunnel.Access
