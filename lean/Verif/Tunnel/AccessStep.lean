import Verif.Tunnel.AccessLemmas

/-!
# Tunnels behind the IAM module — from a verdict to the decision of the configuration
-/

namespace Verif.Tunnel.Access

open Verif.Iam Verif.Tunnel.Access.Spec
open Verif.Iam.Handler (W HInv)
open Verif.Iam.Handler.Spec (creates attrsOf IsMap)
open Verif.Api.Auth.Spec (given)

variable {E : Env}

theorem after_snoc_some {ops : List Op} {op : Op} {s' : Sys} (h : after E (ops ++ [op]) = some s') :
    ∃ s, after E ops = some s ∧ step E s op = some s' := by
  rw [after_snoc] at h
  cases hs : after E ops with
  | none => rw [hs] at h; cases h
  | some s => rw [hs] at h; exact ⟨s, rfl, h⟩

theorem after_append_some {a b : List Op} {s : Sys} (h : after E (a ++ b) = some s) : ∃ s0, after E a = some s0 ∧ run E s0 b = some s := by
  unfold after at h ⊢
  rw [run_append] at h
  cases hs : run E {} a with
  | none => rw [hs] at h; cases h
  | some s0 => rw [hs] at h; exact ⟨s0, rfl, h⟩

theorem legal_left {a b : List Op} (h : Legal E (a ++ b)) : Legal E a :=
  fun p o rest he => h p o (rest ++ b) (by rw [he]; simp)

theorem inv_all (hE : IsMap E.ins) (ops : List Op) : Legal E ops → ∀ s, after E ops = some s → Inv E ops s := by
  refine snoc_ind (P := fun ops => Legal E ops → ∀ s, after E ops = some s → Inv E ops s) ?_ ?_ ops
  · intro _ s hs; cases hs; exact inv_init E
  · intro ops op ih hl s' hs'
    obtain ⟨s, hs, hst⟩ := after_snoc_some hs'
    exact inv_step hE (ih (legal_left hl) s hs) (hl ops op [] rfl s hs) hst

theorem step_parts {s s' : Sys} {op : Op} (h : step E s op = some s') :
    s'.hev = s.hev ++ events s op ∧ s'.mev = s.mev ++ calls s s'.h op ∧ s'.m = (calls s s'.h op).foldl Manager.step s.m ∧
    s'.asks = s.asks ++ (events s op).filterMap submitted ∧
    Verif.Iam.Handler.run E s.h (events s op) = some s'.h := by
  unfold step at h
  cases hr : Verif.Iam.Handler.run E s.h (events s op) with
  | none => rw [hr] at h; cases h
  | some h' => rw [hr] at h; cases h; exact ⟨rfl, rfl, rfl, rfl, rfl⟩

theorem hev_mono (b : List Op) {s0 s : Sys} (h : run E s0 b = some s) : ∃ l, s.hev = s0.hev ++ l := by
  induction b generalizing s0 with
  | nil => cases h; exact ⟨[], by simp⟩
  | cons o b ih =>
    simp only [run] at h
    cases hs : step E s0 o with
    | none => rw [hs] at h; cases h
    | some k =>
      rw [hs] at h
      obtain ⟨l, hl⟩ := ih h
      exact ⟨_, by rw [hl, (step_parts hs).1, List.append_assoc]⟩

/-! ### A request keeps what was said about it -/

theorem creates_append (a b : List Verif.Iam.Handler.Ev) : creates (a ++ b) = creates a ++ creates b := List.filterMap_append ..
theorem attrsOf_append (i : Nat) (a b : List Verif.Iam.Handler.Ev) : attrsOf i (a ++ b) = attrsOf i a ++ attrsOf i b :=
  List.filterMap_append ..

theorem events_other (s : Sys) (op : Op) (j : Nat) (hj : j ≠ s.h.auth.next) : attrsOf j (events s op) = [] := by
  have hk := kind s op
  generalize events s op = l at hk
  cases hk with
  | request c a attrs mem h => exact request_other _ _ _ _ _ _ hj
  | _ => rfl

structure Stays (s : Sys) (i r c : Nat) (a : String) (attrs : Attrs) : Prop where
  lt : i < s.h.auth.next
  made : (creates s.hev)[i]? = some (c, a)
  attrs : attrsOf i s.hev = attrs
  asks : s.asks[r]? = some i

theorem stays_now (hE : IsMap E.ins) {pre : List Op} {s0 s1 : Sys} {o : Op} (hl : Legal E (pre ++ [o])) (h0 : after E pre = some s0)
    (h1 : step E s0 o = some s1) {c : Nat} {a : Manager.Action} {attrs : Option (String × String)} {mem : Mem}
    (ha : asking s0 o = some (c, a, attrs, mem)) (hm : made attrs mem = true) :
    Stays s1 s0.h.auth.next s0.asks.length c (actionName a) (attrList attrs) := by
  have i0 := inv_all hE pre (legal_left hl) s0 h0
  have i1 := inv_all hE (pre ++ [o]) hl s1 (by rw [after_snoc, h0]; exact h1)
  have v0 := Verif.Iam.Handler.hinv_run_all E hE _ i0.legal _ i0.han
  have v1 := Verif.Iam.Handler.hinv_run_all E hE _ i1.legal _ i1.han
  have hev : events s0 o = request s0.h.auth.next c (actionName a) attrs mem := by
    rcases asking_op ha with ⟨c, p, m, rfl⟩ | ⟨c, m, rfl⟩ | ⟨c, i, b, m, rfl⟩ <;> (unfold events; dsimp only; rw [ha])
  obtain ⟨p1, -, -, p4, -⟩ := step_parts h1
  obtain ⟨q1, q2⟩ := request_made s0.h.auth.next c (actionName a) attrs mem hm
  have hn : s0.h.auth.next = (creates s0.hev).length := v0.data.next
  refine ⟨?_, ?_, ?_, ?_⟩
  · rw [v1.data.next, p1, creates_append, hev, q1, List.length_append, ← hn]; simp
  · rw [p1, creates_append, hev, q1, hn]; simp
  · rw [p1, attrsOf_append, hev, q2, v0.data.none _ (Nat.le_refl _)]; rfl
  · rw [p4, hev, request_asks, hm]; simp

theorem stays_later (hE : IsMap E.ins) {pre : List Op} {s0 s1 : Sys} {o : Op} (h0 : after E pre = some s0)
    (h1 : step E s0 o = some s1) {c : Nat} {a : Manager.Action} {attrs : Option (String × String)} {mem : Mem}
    (ha : asking s0 o = some (c, a, attrs, mem)) (hm : made attrs mem = true) (mid : List Op) :
    Legal E (pre ++ o :: mid) → ∀ s, after E (pre ++ o :: mid) = some s →
      Stays s s0.h.auth.next s0.asks.length c (actionName a) (attrList attrs) := by
  refine snoc_ind (P := fun mid => Legal E (pre ++ o :: mid) → ∀ s, after E (pre ++ o :: mid) = some s →
      Stays s s0.h.auth.next s0.asks.length c (actionName a) (attrList attrs)) ?_ ?_ mid
  · intro hl s hs
    rw [after_snoc, h0] at hs
    have : s1 = s := by
      have h : step E s0 o = some s := hs
      rw [h1] at h; cases h; rfl
    subst this
    exact stays_now hE hl h0 h1 ha hm
  · intro mid x ih hl s' hs'
    rw [← List.cons_append, ← List.append_assoc] at hl hs'
    obtain ⟨s, hs, hst⟩ := after_snoc_some hs'
    have k := ih (legal_left hl) s hs
    have i0 := inv_all hE _ (legal_left hl) s hs
    have i1 := inv_all hE _ hl s' hs'
    have v0 := Verif.Iam.Handler.hinv_run_all E hE _ i0.legal _ i0.han
    have v1 := Verif.Iam.Handler.hinv_run_all E hE _ i1.legal _ i1.han
    obtain ⟨p1, -, -, p4, -⟩ := step_parts hst
    have hlt := k.lt
    refine ⟨?_, ?_, ?_, ?_⟩
    · rw [v1.data.next, p1, creates_append, List.length_append, ← v0.data.next]; omega
    · rw [p1, creates_append, List.getElem?_append_left (by rw [← v0.data.next]; exact k.lt)]; exact k.made
    · rw [p1, attrsOf_append, events_other s x _ (by omega), List.append_nil]; exact k.attrs
    · obtain ⟨hr, -⟩ := List.getElem?_eq_some_iff.1 k.asks
      rw [p4, List.getElem?_append_left hr]; exact k.asks

/-! ### Histories of the parts -/

theorem calls_one (s : Sys) (h' : W) (op : Op) : calls s h' op = [] ∨ ∃ o, calls s h' op = [o] := by
  cases op with
  | mgr o => cases o <;> first | exact .inl rfl | exact .inr ⟨_, rfl⟩
  | run i mem =>
    unfold calls
    dsimp only
    split
    · split
      · exact .inr ⟨_, rfl⟩
      · exact .inl rfl
    · exact .inl rfl
  | hand e => exact .inl rfl
  | stream c p m => exact .inr ⟨_, rfl⟩
  | list c m => exact .inr ⟨_, rfl⟩
  | get c i b m => exact .inr ⟨_, rfl⟩

theorem snoc_split {α : Type} {a b : List α} {x y : α} {l : List α} (h : l ++ [y] = a ++ x :: b) :
    (a = l ∧ x = y ∧ b = []) ∨ ∃ b', b = b' ++ [y] ∧ l = a ++ x :: b' := by
  rcases List.eq_nil_or_concat b with rfl | ⟨b', z, rfl⟩
  · obtain ⟨rfl, e⟩ := List.append_inj' h rfl
    cases e
    exact .inl ⟨rfl, rfl, rfl⟩
  · rw [List.concat_eq_append, ← List.cons_append, ← List.append_assoc] at h
    obtain ⟨rfl, e⟩ := List.append_inj' h rfl
    cases e
    exact .inr ⟨b', by rw [List.concat_eq_append], rfl⟩

theorem mev_split (ops : List Op) : ∀ (s : Sys), after E ops = some s → ∀ (b a : List Manager.Op) (o : Manager.Op), s.mev = b ++ o :: a →
    ∃ pre op post s0 s1, ops = pre ++ op :: post ∧ after E pre = some s0 ∧ step E s0 op = some s1 ∧ s0.mev = b ∧ calls s0 s1.h op = [o] := by
  refine snoc_ind (P := fun ops => ∀ (s : Sys), after E ops = some s → ∀ (b a : List Manager.Op) (o : Manager.Op), s.mev = b ++ o :: a →
    ∃ pre op post s0 s1, ops = pre ++ op :: post ∧ after E pre = some s0 ∧ step E s0 op = some s1 ∧ s0.mev = b ∧ calls s0 s1.h op = [o]) ?_ ?_ ops
  · intro s hs b a o h; cases hs; simp at h
  · intro ops op ih s' hs' b a o h
    obtain ⟨s, hs, hst⟩ := after_snoc_some hs'
    obtain ⟨-, p2, -⟩ := step_parts hst
    rw [p2] at h
    have old : ∀ a', s.mev = b ++ o :: a' → ∃ pre op' post s0 s1, ops ++ [op] = pre ++ op' :: post ∧ after E pre = some s0 ∧
        step E s0 op' = some s1 ∧ s0.mev = b ∧ calls s0 s1.h op' = [o] := by
      intro a' ha'
      obtain ⟨pre, op', post, s0, s1, e, h1, h2, h3, h4⟩ := ih s hs b a' o ha'
      exact ⟨pre, op', post ++ [op], s0, s1, by rw [e]; simp, h1, h2, h3, h4⟩
    rcases calls_one s s'.h op with hc | ⟨y, hc⟩
    · rw [hc, List.append_nil] at h
      exact old a h
    · rw [hc] at h
      rcases snoc_split h with ⟨rfl, rfl, rfl⟩ | ⟨a', rfl, ha'⟩
      · exact ⟨ops, op, [], s, s', rfl, hs, hst, rfl, hc⟩
      · exact old a' ha'

theorem events_work (s : Sys) (op : Op) {a b : List Verif.Iam.Handler.Ev} (h : events s op = a ++ .work :: b) :
    op = .hand .work ∧ a = [] := by
  have hm : Verif.Iam.Handler.Ev.work ∈ events s op := by rw [h]; simp
  have hk := kind s op
  generalize events s op = l at hk h hm
  cases hk with
  | nothing => cases hm
  | iam x e | conn c x e | init e | stop e | deinit e | run i m e => cases List.mem_singleton.1 hm
  | work e =>
    refine ⟨e, ?_⟩
    cases a with
    | nil => rfl
    | cons x a => simp at h
  | request c a attrs mem e =>
    rcases request_plain _ _ _ _ _ _ hm with h | ⟨_, _, _, _, _, h⟩ | h | h <;> cases h

theorem hev_work (ops : List Op) : ∀ (s : Sys), after E ops = some s → ∀ (p rest : List Verif.Iam.Handler.Ev), s.hev = p ++ .work :: rest →
    ∃ pre post s0, ops = pre ++ .hand .work :: post ∧ after E pre = some s0 ∧ s0.hev = p := by
  refine snoc_ind (P := fun ops => ∀ (s : Sys), after E ops = some s → ∀ (p rest : List Verif.Iam.Handler.Ev), s.hev = p ++ .work :: rest →
    ∃ pre post s0, ops = pre ++ .hand .work :: post ∧ after E pre = some s0 ∧ s0.hev = p) ?_ ?_ ops
  · intro s hs p rest h; cases hs; simp at h
  · intro ops op ih s' hs' p rest h
    obtain ⟨s, hs, hst⟩ := after_snoc_some hs'
    obtain ⟨p1, -⟩ := step_parts hst
    rw [p1] at h
    rcases List.append_eq_append_iff.1 h with ⟨as, rfl, h2⟩ | ⟨bs, h1, h2⟩
    · obtain ⟨rfl, rfl⟩ := events_work s op h2
      exact ⟨ops, [], s, rfl, hs, by simp⟩
    · cases bs with
      | nil =>
        obtain ⟨rfl, -⟩ := events_work (a := []) s op h2.symm
        exact ⟨ops, [], s, rfl, hs, by simpa using h1⟩
      | cons x bs =>
        obtain ⟨rfl, rfl⟩ := List.cons.inj h2
        obtain ⟨pre, post, s0, e, h3, h4⟩ := ih s hs p bs h1
        exact ⟨pre, post ++ [op], s0, by rw [e]; simp, h3, h4⟩

theorem given_mem (j : Nat) (v : Bool) (l : List Verif.Api.Auth.Obs) (h : .given j v ∈ l) : v ∈ given j l := by
  induction l with
  | nil => cases h
  | cons x l ih =>
    rcases List.mem_cons.1 h with rfl | h
    · simp [given]
    · have := ih h
      cases x with
      | given k u => simp only [given]; split <;> simp [this]
      | handed k u => exact this
      | resolved k u => exact this

/-- A verdict for a check is the verdict of the request behind it. -/
theorem calls_verdict {s : Sys} {h' : W} {op : Op} {r : Nat} {v m : Bool} (h : calls s h' op = [.verdict r v m]) :
    ∃ i j, op = .run i m ∧ .given j v ∈ h'.auth.log ∧ s.asks[r]? = some j := by
  cases op with
  | mgr o => cases o <;> first | (cases h; done) | skip
  | hand e => cases h
  | stream c p m => cases h
  | list c m => cases h
  | get c i b m => cases h
  | run i mem =>
    unfold calls at h
    dsimp only at h
    split at h
    · rename_i j v' hg
      split at h
      · rename_i r' hr
        cases h
        refine ⟨i, j, rfl, ?_, ?_⟩
        · have : Verif.Api.Auth.Obs.given j v ∈ h'.auth.log.drop s.h.auth.log.length := by rw [hg]; simp
          exact List.mem_of_mem_drop this
        · rw [List.idxOf?, List.findIdx?_eq_some_iff_getElem] at hr
          obtain ⟨h1, h2, -⟩ := hr
          rw [List.getElem?_eq_getElem h1]
          simpa using h2
      · cases h
    · cases h

/-- The answer of a check is what the configuration said after it was made, or no if nobody was asked. -/
theorem decided (hE : IsMap E.ins) {pre post : List Op} {o op : Op} (hl : Legal E (pre ++ o :: post)) {s s' s0 : Sys}
    (hs : after E (pre ++ o :: post) = some s) (hst : step E s op = some s') (h0 : after E pre = some s0)
    {v m : Bool} (hc : calls s s'.h op = [.verdict s0.asks.length v m])
    {c : Nat} {a : Manager.Action} {attrs : Option (String × String)} {mem : Mem}
    (ha : asking s0 o = some (c, a, attrs, mem)) (hm : made attrs mem = true) :
    (∃ mid rest, post = mid ++ .hand .work :: rest ∧ (v = true ↔ Allows E.N (pre ++ o :: mid) c (actionName a) (attrList attrs))) ∨
    v = false ∧ (.hand .stop ∈ pre ++ o :: post ∨ .hand .init ∉ pre) := by
  obtain ⟨i, j, rfl, hg, hj⟩ := calls_verdict hc
  obtain ⟨s0', h0', hrun⟩ := after_append_some hs
  rw [h0] at h0'; cases h0'
  obtain ⟨s1, h1⟩ : ∃ s1, step E s0 o = some s1 := by
    simp only [run] at hrun
    cases hx : step E s0 o with
    | none => rw [hx] at hrun; cases hrun
    | some k => exact ⟨k, rfl⟩
  have hk := stays_later hE h0 h1 ha hm post hl s hs
  have hjn : j = s0.h.auth.next := by
    have := hk.asks
    rw [hj] at this
    exact Option.some.inj this
  have iv := inv_all hE _ hl s hs
  obtain ⟨p1, -, -, -, p5⟩ := step_parts hst
  have hev : events s (.run i m) = [.run i] := rfl
  rw [hev] at p1 p5
  have hw : Verif.Iam.Handler.run E Verif.Iam.Handler.init (s.hev ++ [.run i]) = some s'.h := by
    rw [Verif.Iam.Handler.run_append, iv.han]; exact p5
  rcases Verif.Iam.Handler.C140_decided_partial E hE (s.hev ++ [.run i]) (legal_snoc (e := .run i) iv.legal fun _ _ => trivial) s'.h hw j v
    (given_mem _ _ _ hg) with ⟨p, rest, hsplit, hck, hrn, hperm⟩ | ⟨hv, hna⟩
  · rcases snoc_split hsplit with ⟨-, h, -⟩ | ⟨rest', rfl, hsp⟩
    · cases h
    · obtain ⟨pre', post', sw, e, hsw, hswp⟩ := hev_work _ s hs p rest' hsp
      have hno : o ≠ .hand .work := fun h => by subst h; cases ha
      have key : ∃ mid, pre' = pre ++ o :: mid ∧ post = mid ++ .hand .work :: post' := by
        rcases List.append_eq_append_iff.1 e with ⟨as, h2, h3⟩ | ⟨bs, h2, h3⟩
        · cases as with
          | nil => exact absurd (List.cons.inj h3).1 hno
          | cons x as =>
            obtain ⟨rfl, h4⟩ := List.cons.inj h3
            exact ⟨as, h2, h4⟩
        · exfalso
          have iv0 := inv_all hE pre (legal_left hl) s0 h0
          have v0 := Verif.Iam.Handler.hinv_run_all E hE _ iv0.legal _ iv0.han
          have hu := (unused v0 j (by rw [← v0.data.next, hjn]; exact Nat.le_refl _)).1
          rw [h2] at h0
          obtain ⟨sw', hsw', hr'⟩ := after_append_some h0
          rw [hsw] at hsw'; cases hsw'
          obtain ⟨l, hl'⟩ := hev_mono bs hr'
          rw [hl', hswp] at hu
          exact hu (List.mem_append_left _ hck)
      obtain ⟨mid, rfl, hpost⟩ := key
      refine .inl ⟨mid, post', hpost, hperm.trans ?_⟩
      have hlm : Legal E (pre ++ o :: mid) := by
        rw [hpost, ← List.cons_append, ← List.append_assoc] at hl
        exact legal_left hl
      have km := stays_later hE h0 h1 ha hm mid hlm sw hsw
      have im := inv_all hE _ hlm sw hsw
      subst hjn
      unfold Verif.Iam.Handler.Spec.Permits Allows
      rw [← hswp, km.made, im.iam, km.attrs]
      simp only [im.conn]
      constructor
      · rintro ⟨c', a', hcr, hrest⟩
        cases hcr
        exact hrest
      · exact fun hrest => ⟨c, actionName a, rfl, hrest⟩
  · refine .inr ⟨hv, ?_⟩
    rcases hna with hna | ⟨p, rest, hsp, hni⟩
    · rcases List.mem_append.1 hna with hna | hna
      · exact .inl (iv.stop.1 hna)
      · cases List.mem_singleton.1 hna
    · refine .inr fun hin => hni ?_
      have iv0 := inv_all hE pre (legal_left hl) s0 h0
      have v0 := Verif.Iam.Handler.hinv_run_all E hE _ iv0.legal _ iv0.han
      have hu := (unused v0 j (by rw [← v0.data.next, hjn]; exact Nat.le_refl _)).1
      obtain ⟨l, hl'⟩ := hev_mono _ hrun
      rw [hl', List.append_assoc] at hsp
      rcases List.append_eq_append_iff.1 hsp with ⟨as, rfl, -⟩ | ⟨bs, h2, h3⟩
      · exact List.mem_append_left _ (iv0.init.2 hin)
      · cases bs with
        | nil => rw [List.append_nil] at h2; rw [← h2]; exact iv0.init.2 hin
        | cons x bs =>
          obtain ⟨rfl, -⟩ := List.cons.inj h3
          rw [h2] at hu
          exact absurd (by simp) hu

end Verif.Tunnel.Access
