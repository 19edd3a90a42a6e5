import Verif.Tunnel.ManagerSpec

/-!
# Services of TCP tunnels — lemmas
-/

namespace Verif.Tunnel.Manager

open Spec

theorem run_snoc (ops : List Op) (op : Op) : run (ops ++ [op]) = step (run ops) op := by
  rw [run, List.foldl_append]; rfl

theorem run_append (ops more : List Op) : run (ops ++ more) = more.foldl step (run ops) := by
  rw [run, List.foldl_append]; rfl

theorem run_ind {P : List Op → Prop} (h0 : P []) (hs : ∀ ops op, P ops → P (ops ++ [op])) (ops : List Op) : P ops := by
  have : ∀ n (l : List Op), l.length = n → P l := by
    intro n
    induction n with
    | zero => intro l hl; rw [List.length_eq_zero_iff.1 hl]; exact h0
    | succ n ih =>
      intro l hl
      have hne : l ≠ [] := by intro h; rw [h] at hl; cases hl
      rw [← List.dropLast_concat_getLast hne]
      exact hs _ _ (ih _ (by rw [List.length_dropLast, hl]; rfl))
  exact this _ ops rfl

/-! ### Lists of services -/

theorem findId_some {id : String} {xs : List Svc} {x : Svc} (h : findId id xs = some x) : x ∈ xs ∧ x.id = id := by
  induction xs with
  | nil => cases h
  | cons y ys ih =>
    rw [findId] at h
    split at h
    · cases h; rename_i he; exact ⟨List.mem_cons_self .., he⟩
    · exact ⟨List.mem_cons_of_mem _ (ih h).1, (ih h).2⟩

theorem findId_none {id : String} {xs : List Svc} (h : findId id xs = none) : ∀ x ∈ xs, x.id ≠ id := by
  induction xs with
  | nil => intro x hx; cases hx
  | cons y ys ih =>
    rw [findId] at h
    split at h
    · cases h
    · rename_i hne
      intro x hx
      rcases List.mem_cons.1 hx with rfl | hx
      · exact hne
      · exact ih h x hx

theorem findWp_some {wp : UInt64} {xs : List Svc} {x : Svc} (h : findWp wp xs = some x) : x ∈ xs ∧ x.wp = wp := by
  induction xs with
  | nil => cases h
  | cons y ys ih =>
    rw [findWp] at h
    split at h
    · cases h; rename_i he; exact ⟨List.mem_cons_self .., he⟩
    · exact ⟨List.mem_cons_of_mem _ (ih h).1, (ih h).2⟩

theorem findPort_some {p : UInt32} {xs : List Svc} {x : Svc} (h : findPort p xs = some x) :
    x ∈ xs ∧ x.streamPort = p := by
  induction xs with
  | nil => cases h
  | cons y ys ih =>
    rw [findPort] at h
    split at h
    · cases h; rename_i he; exact ⟨List.mem_cons_self .., he⟩
    · exact ⟨List.mem_cons_of_mem _ (ih h).1, (ih h).2⟩

/-- What stays of a service. -/
def ident (x : Svc) : Nat × UInt64 × String × String × Nat × UInt32 :=
  (x.serial, x.wp, x.id, x.type, x.target, x.streamPort)

theorem modId_ident (id : String) (f : Svc → Svc) (hf : ∀ x, ident (f x) = ident x) (xs : List Svc) :
    (modId id f xs).map ident = xs.map ident := by
  induction xs with
  | nil => rfl
  | cons x xs ih =>
    rw [modId]
    split
    · rw [List.map_cons, List.map_cons, hf]
    · rw [List.map_cons, List.map_cons, ih]

theorem modWp_ident (wp : UInt64) (f : Svc → Svc) (hf : ∀ x, ident (f x) = ident x) (xs : List Svc) :
    (modWp wp f xs).map ident = xs.map ident := by
  induction xs with
  | nil => rfl
  | cons x xs ih =>
    rw [modWp]
    split
    · rw [List.map_cons, List.map_cons, hf]
    · rw [List.map_cons, List.map_cons, ih]

theorem map_ident (f : Svc → Svc) (hf : ∀ x, ident (f x) = ident x) (xs : List Svc) :
    (xs.map f).map ident = xs.map ident := by
  rw [List.map_map]
  exact List.map_congr_left fun x _ => hf x

theorem delId_sublist (id : String) (xs : List Svc) : (delId id xs).Sublist xs := by
  induction xs with
  | nil => exact List.Sublist.refl _
  | cons x xs ih =>
    rw [delId]
    split
    · exact List.sublist_cons_self ..
    · exact ih.cons₂ x

/-! ### What a step does -/

/-- An answer which tells nothing about services and streams. -/
def Plain : Out → Prop
  | .ret _ => True
  | .error _ => True
  | _ => False

/-- All that an operation can do. -/
inductive Eff (s : St) : Op → St → Prop
  | nothing (op : Op) : Eff s op s
  | says (op : Op) (o : Out) (h : Plain o) : Eff s op (s.tell [o])
  | lost (id type : String) (target : Nat) (mem mem' : Bool) (port : Option UInt32) (e : Ec) :
      Eff s (.addService id type target mem mem' port)
        ({ s with counter := s.counter + 1, created := s.created + 1, leaked := s.leaked + 1 }.tell [.ret e])
  | added (id type : String) (target : Nat) (p : UInt32) (h : (findPort p s.services).isSome = false) :
      Eff s (.addService id type target true true (some p))
        ({ s with counter := s.counter + 1, created := s.created + 1,
                  services := s.services ++ [Svc.mk s.created (s.counter + 1) id type target p [] []] }.tell [.ret .ok])
  | removed (id : String) (x : Svc) (h : findId id s.services = some x) :
      Eff s (.removeService id)
        ({ s with services := delId id s.services }.tell (x.conns.map Out.aborted ++ [Out.ret .ok]))
  | limited (type : String) (limit : Nat) (mem : Bool) (o : Option Nat) (e : Ec) (h : ∀ l, o = some l → l = limit) :
      Eff s (.setLimit type limit mem) ({ s with limits := fun t => if t = type then o else s.limits t }.tell [.ret e])
  | changes (op : Op) (id : String) (f : Svc → Svc) (hf : ∀ x, ident (f x) = ident x ∧ (f x).conns = x.conns) :
      Eff s op ({ s with services := modId id f s.services }.tell [.ret .ok])
  | asks (port : UInt32) (x : Svc) (h : findPort port s.services = some x) :
      Eff s (.incoming port true)
        ({ s with streams := s.streams + 1 }.ask .connect (some (x.id, x.type)) ⟨.tunnel x.wp s.streams, x.serial⟩)
  | drops (port : UInt32) (x : Svc) (h : findPort port s.services = some x) :
      Eff s (.incoming port false) ({ s with streams := s.streams + 1 }.tell [.destroyed s.streams])
  | asksList : Eff s (.coapList true) (s.ask .listServices none ⟨.list, 0⟩)
  | asksGet (id : String) (connect : Bool) (x : Svc) (h : findId id s.services = some x) :
      Eff s (.coapGet id connect true)
        (s.ask (if connect then .connect else .getService) (some (x.id, x.type)) ⟨.get id, x.serial⟩)
  | refuses (r : Nat) (allow mem : Bool) (q : Req) (wp : UInt64) (n : Nat) (h : s.pending.lookup r = some q)
      (hq : q.what = .tunnel wp n) :
      Eff s (.verdict r allow mem) ({ s with pending := s.pending.filter fun p => p.1 ≠ r }.tell [.destroyed n])
  | opens (r : Nat) (q : Req) (wp : UInt64) (n : Nat) (x : Svc) (h : s.pending.lookup r = some q)
      (hq : q.what = .tunnel wp n) (hx : findWp wp s.services = some x) (hl : s.full x.type = false) :
      Eff s (.verdict r true true)
        ({ s with pending := s.pending.filter (fun p => p.1 ≠ r), opened := s.opened + 1,
                  services := modWp wp (Svc.addConn s.opened) s.services }.tell [.opened s.opened n x.target])
  | answers (r : Nat) (allow mem : Bool) (q : Req) (o : Out) (h : s.pending.lookup r = some q) (hp : Plain o)
      (hq : ∀ wp n, q.what ≠ .tunnel wp n) :
      Eff s (.verdict r allow mem) ({ s with pending := s.pending.filter fun p => p.1 ≠ r }.tell [o])
  | lists (r : Nat) (q : Req) (h : s.pending.lookup r = some q) (hq : q.what = .list) :
      Eff s (.verdict r true true)
        ({ s with pending := s.pending.filter fun p => p.1 ≠ r }.tell [.services (s.services.map Svc.id)])
  | shows (r : Nat) (q : Req) (id : String) (x : Svc) (h : s.pending.lookup r = some q) (hq : q.what = .get id)
      (hx : findId id s.services = some x) :
      Eff s (.verdict r true true)
        ({ s with pending := s.pending.filter fun p => p.1 ≠ r }.tell
          [.service x.id x.type x.target x.streamPort x.metadata])
  | ends (c : Nat) : Eff s (.connEnds c) { s with services := s.services.map (Svc.delConn c) }

theorem step_eff (s : St) (op : Op) : Eff s op (step s op) := by
  cases op with
  | addService id type target mem mem' port =>
    show Eff s _ (s.addService id type target mem mem' (s.freePort port))
    unfold St.addService
    cases mem with
    | false => exact .says _ _ trivial
    | true =>
      cases mem' with
      | false => exact .lost ..
      | true =>
        cases hp : s.freePort port with
        | none => exact .lost ..
        | some p =>
          unfold St.freePort at hp
          cases port with
          | none => cases hp
          | some q =>
            dsimp only at hp
            split at hp
            · cases hp
            · cases hp; rename_i h
              exact .added id type target p (Bool.eq_false_iff.2 h)
  | removeService id =>
    show Eff s _ (s.removeService id)
    unfold St.removeService
    cases h : findId id s.services with
    | none => exact .says _ _ trivial
    | some x => exact .removed id x h
  | setLimit type limit mem =>
    show Eff s _ (s.setLimit type limit mem)
    unfold St.setLimit
    dsimp only
    split
    · exact .limited type limit mem none .ok (fun l h => nomatch h)
    · cases mem with
      | false => exact .limited type limit false none .outOfMemory (fun l h => nomatch h)
      | true => exact .limited type limit true (some limit) .ok (fun l h => by cases h; rfl)
  | addMeta id key value mem =>
    show Eff s _ (s.addMeta id key value mem)
    unfold St.addMeta
    cases h : findId id s.services with
    | none => exact .says _ _ trivial
    | some x => exact .changes _ id _ (fun x => by cases mem <;> exact ⟨rfl, rfl⟩)
  | removeMeta id key =>
    show Eff s _ (s.removeMeta id key)
    unfold St.removeMeta
    cases h : findId id s.services with
    | none => exact .says _ _ trivial
    | some x => exact .changes _ id _ (fun x => ⟨rfl, rfl⟩)
  | incoming port mem =>
    show Eff s _ (s.incoming port mem)
    unfold St.incoming
    cases h : findPort port s.services with
    | none => exact .nothing _
    | some x =>
      cases mem with
      | false => exact .drops port x h
      | true => exact .asks port x h
  | coapList mem =>
    show Eff s _ (s.coapList mem)
    unfold St.coapList
    cases mem with
    | false => exact .says _ _ trivial
    | true => exact .asksList
  | coapGet id connect mem =>
    show Eff s _ (s.coapGet id (if connect then .connect else .getService) mem)
    unfold St.coapGet
    cases h : findId id s.services with
    | none => exact .says _ _ trivial
    | some x =>
      cases mem with
      | false => exact .says _ _ trivial
      | true => exact .asksGet id connect x h
  | verdict r allow mem =>
    show Eff s _ (s.verdict r allow mem)
    unfold St.verdict
    cases h : s.pending.lookup r with
    | none => exact .nothing _
    | some q =>
      cases hq : q.what with
      | tunnel wp n =>
        dsimp only; rw [hq]
        show Eff s _ (St.tunnelVerdict { s with pending := s.pending.filter fun p => p.1 ≠ r } wp n allow mem)
        unfold St.tunnelVerdict
        cases hx : findWp wp s.services with
        | none =>
          dsimp only
          exact .refuses r allow mem q wp n h hq
        | some x =>
          dsimp only
          cases allow with
          | false => exact .refuses r false mem q wp n h hq
          | true =>
            rw [if_neg (by decide)]
            cases hl : s.full x.type with
            | true =>
              have : ({ s with pending := s.pending.filter fun p => p.1 ≠ r } : St).full x.type = true := hl
              rw [if_pos this]
              exact .refuses r true mem q wp n h hq
            | false =>
              have : ¬ ({ s with pending := s.pending.filter fun p => p.1 ≠ r } : St).full x.type = true :=
                Bool.eq_false_iff.1 hl
              rw [if_neg this]
              cases mem with
              | false => exact .refuses r true false q wp n h hq
              | true => exact .opens r q wp n x h hq hx hl
      | list =>
        have hn : ∀ wp n, q.what ≠ .tunnel wp n := fun wp n e => by rw [hq] at e; cases e
        dsimp only; rw [hq]
        show Eff s _ (St.listVerdict { s with pending := s.pending.filter fun p => p.1 ≠ r } allow mem)
        cases allow with
        | false => exact .answers r false mem q (.error 403) h trivial hn
        | true =>
          cases mem with
          | false => exact .answers r true false q (.error 500) h trivial hn
          | true => exact .lists r q h hq
      | get id =>
        have hn : ∀ wp n, q.what ≠ .tunnel wp n := fun wp n e => by rw [hq] at e; cases e
        dsimp only; rw [hq]
        show Eff s _ (St.getVerdict { s with pending := s.pending.filter fun p => p.1 ≠ r } id allow mem)
        cases allow with
        | false => exact .answers r false mem q (.error 403) h trivial hn
        | true =>
          unfold St.getVerdict
          rw [if_neg (by decide)]
          cases hx : findId id s.services with
          | none => dsimp only; exact .answers r true mem q (.error 404) h trivial hn
          | some x =>
            dsimp only
            cases mem with
            | false => exact .answers r true false q (.error 500) h trivial hn
            | true => exact .shows r q id x h hq hx
  | connEnds c => exact .ends c

/-- The services after a step are those before, some gone, one perhaps new. -/
def Evolves (s s' : St) : Prop :=
  ((s'.services.map ident).Sublist (s.services.map ident) ∧ s'.created = s.created ∧ s'.counter = s.counter) ∨
  (s'.services = s.services ∧ s'.created = s.created + 1 ∧ s'.counter = s.counter + 1) ∨
  (∃ x, s'.services = s.services ++ [x] ∧ s'.created = s.created + 1 ∧ s'.counter = s.counter + 1 ∧
    x.serial = s.created ∧ x.wp = s.counter + 1 ∧ x.conns = [] ∧ (findPort x.streamPort s.services).isSome = false)

theorem Evolves.same {s s' : St} (h1 : s'.services = s.services) (h2 : s'.created = s.created)
    (h3 : s'.counter = s.counter) : Evolves s s' :=
  Or.inl ⟨by rw [h1]; exact List.Sublist.refl _, h2, h3⟩

theorem Evolves.change {s s' : St} (h1 : s'.services.map ident = s.services.map ident) (h2 : s'.created = s.created)
    (h3 : s'.counter = s.counter) : Evolves s s' :=
  Or.inl ⟨by rw [h1]; exact List.Sublist.refl _, h2, h3⟩

theorem step_evolves (s : St) (op : Op) : Evolves s (step s op) := by
  have h := step_eff s op
  generalize step s op = s' at h
  cases h with
  | lost => exact Or.inr (Or.inl ⟨rfl, rfl, rfl⟩)
  | added id type target p h => exact Or.inr (Or.inr ⟨_, rfl, rfl, rfl, rfl, rfl, rfl, h⟩)
  | removed id x h => exact Or.inl ⟨(delId_sublist id s.services).map ident, rfl, rfl⟩
  | changes op id f hf => exact .change (modId_ident id f (fun x => (hf x).1) _) rfl rfl
  | opens => exact .change (modWp_ident _ (Svc.addConn _) (fun x => rfl) _) rfl rfl
  | ends => exact .change (map_ident (Svc.delConn _) (fun x => rfl) _) rfl rfl
  | _ => exact .same rfl rfl rfl

/-! ### Services have different serial numbers -/

structure SInv (s : St) : Prop where
  counter : s.counter = UInt64.ofNat (s.created + 1)
  sorted : (s.services.map Svc.serial).Pairwise (· < ·)
  old : ∀ x ∈ s.services, x.serial < s.created
  wp : ∀ x ∈ s.services, x.wp = UInt64.ofNat (x.serial + 2)

theorem ofNat_succ (n : Nat) : UInt64.ofNat n + 1 = UInt64.ofNat (n + 1) := by
  rw [UInt64.ofNat_add]; rfl

theorem sinv_step (s : St) (op : Op) (h : SInv s) : SInv (step s op) := by
  rcases step_evolves s op with ⟨h1, h2, h3⟩ | ⟨h1, h2, h3⟩ | ⟨x, h1, h2, h3, h4, h5, -⟩
  · have hm : ∀ x ∈ (step s op).services, ∃ y ∈ s.services, ident y = ident x := by
      intro x hx
      have := h1.subset (List.mem_map_of_mem hx)
      obtain ⟨y, hy, e⟩ := List.mem_map.1 this
      exact ⟨y, hy, e⟩
    refine ⟨by rw [h3, h2, h.counter], ?_, ?_, ?_⟩
    · have : ((step s op).services.map Svc.serial).Sublist (s.services.map Svc.serial) := by
        have := h1.map Prod.fst
        rw [List.map_map, List.map_map] at this
        exact this
      exact h.sorted.sublist this
    · intro x hx
      obtain ⟨y, hy, e⟩ := hm x hx
      have := congrArg Prod.fst e
      have e1 : y.serial = x.serial := this
      rw [← e1, h2]; exact h.old y hy
    · intro x hx
      obtain ⟨y, hy, e⟩ := hm x hx
      have e1 : y.serial = x.serial := congrArg Prod.fst e
      have e2 : y.wp = x.wp := congrArg (fun p => p.2.1) e
      rw [← e1, ← e2]; exact h.wp y hy
  · refine ⟨by rw [h3, h2, h.counter, ofNat_succ], by rw [h1]; exact h.sorted, ?_, by rw [h1]; exact h.wp⟩
    intro x hx
    rw [h1] at hx
    rw [h2]; exact Nat.lt_succ_of_lt (h.old x hx)
  · refine ⟨by rw [h3, h2, h.counter, ofNat_succ], ?_, ?_, ?_⟩
    · rw [h1, List.map_append, List.pairwise_append]
      refine ⟨h.sorted, List.pairwise_singleton _ _, ?_⟩
      intro a ha b hb
      obtain ⟨y, hy, rfl⟩ := List.mem_map.1 ha
      obtain ⟨z, hz, rfl⟩ := List.mem_map.1 hb
      rw [List.mem_singleton.1 hz, h4]
      exact h.old y hy
    · intro y hy
      rw [h1] at hy
      rw [h2]
      rcases List.mem_append.1 hy with hy | hy
      · exact Nat.lt_succ_of_lt (h.old y hy)
      · rw [List.mem_singleton.1 hy, h4]; exact Nat.lt_succ_self _
    · intro y hy
      rw [h1] at hy
      rcases List.mem_append.1 hy with hy | hy
      · exact h.wp y hy
      · rw [List.mem_singleton.1 hy, h5, h4, h.counter, ofNat_succ]

theorem run_sinv (ops : List Op) : SInv (run ops) := by
  refine run_ind (P := fun ops => SInv (run ops)) ?_ (fun ops op h => ?_) ops
  · exact ⟨rfl, List.Pairwise.nil, (fun x hx => nomatch hx), (fun x hx => nomatch hx)⟩
  · rw [run_snoc]; exact sinv_step _ _ h

theorem serial_inj {xs : List Svc} (h : (xs.map Svc.serial).Pairwise (· < ·)) {x y : Svc} (hx : x ∈ xs) (hy : y ∈ xs)
    (e : x.serial = y.serial) : x = y := by
  induction xs with
  | nil => cases hx
  | cons a xs ih =>
    rw [List.map_cons, List.pairwise_cons] at h
    rcases List.mem_cons.1 hx with hx' | hx' <;> rcases List.mem_cons.1 hy with hy' | hy'
    · rw [hx', hy']
    · have := h.1 y.serial (List.mem_map_of_mem hy')
      subst hx'; omega
    · have := h.1 x.serial (List.mem_map_of_mem hx')
      subst hy'; omega
    · exact ih h.2 hx' hy'

/-- A service which is not new existed before, with the same id, type, target and port. -/
theorem step_old (s : St) (op : Op) {x : Svc} (hx : x ∈ (step s op).services) (ho : x.serial < s.created) :
    ∃ y ∈ s.services, Same x y := by
  rcases step_evolves s op with ⟨h1, -, -⟩ | ⟨h1, -, -⟩ | ⟨z, h1, -, -, h4, -⟩
  · obtain ⟨y, hy, e⟩ := List.mem_map.1 (h1.subset (List.mem_map_of_mem hx))
    have e1 : y.serial = x.serial := congrArg Prod.fst e
    have e3 : y.id = x.id := congrArg (fun p => p.2.2.1) e
    have e4 : y.type = x.type := congrArg (fun p => p.2.2.2.1) e
    have e5 : y.target = x.target := congrArg (fun p => p.2.2.2.2.1) e
    have e6 : y.streamPort = x.streamPort := congrArg (fun p => p.2.2.2.2.2) e
    exact ⟨y, hy, e1.symm, e3.symm, e4.symm, e5.symm, e6.symm⟩
  · rw [h1] at hx; exact ⟨x, hx, rfl, rfl, rfl, rfl, rfl⟩
  · rw [h1] at hx
    rcases List.mem_append.1 hx with hx | hx
    · exact ⟨x, hx, rfl, rfl, rfl, rfl, rfl⟩
    · rw [List.mem_singleton.1 hx, h4] at ho; omega

theorem created_mono (s : St) (op : Op) : s.created ≤ (step s op).created := by
  rcases step_evolves s op with ⟨-, h2, -⟩ | ⟨-, h2, -⟩ | ⟨-, -, h2, -⟩ <;> rw [h2] <;> omega

theorem Same.trans {x y z : Svc} (h : Same x y) (h' : Same y z) : Same x z :=
  ⟨h.1.trans h'.1, h.2.1.trans h'.2.1, h.2.2.1.trans h'.2.2.1, h.2.2.2.1.trans h'.2.2.2.1, h.2.2.2.2.trans h'.2.2.2.2⟩

theorem Same.symm {x y : Svc} (h : Same x y) : Same y x :=
  ⟨h.1.symm, h.2.1.symm, h.2.2.1.symm, h.2.2.2.1.symm, h.2.2.2.2.symm⟩

theorem foldl_old (more : List Op) (s : St) {x : Svc} (hx : x ∈ (more.foldl step s).services)
    (ho : x.serial < s.created) : ∃ y ∈ s.services, Same x y := by
  induction more generalizing s with
  | nil => exact ⟨x, hx, rfl, rfl, rfl, rfl, rfl⟩
  | cons op more ih =>
    obtain ⟨y, hy, e⟩ := ih (step s op) hx (Nat.lt_of_lt_of_le ho (created_mono s op))
    obtain ⟨z, hz, e'⟩ := step_old s op hy (by rw [← e.1]; exact ho)
    exact ⟨z, hz, Same.trans e e'⟩

/-! ### What a step tells -/

theorem told_of {ops : List Op} {op : Op} {os : List Out} (h : (step (run ops) op).out = (run ops).out ++ os) :
    told ops op = os := by
  rw [told, run_snoc, h, List.drop_left]

end Verif.Tunnel.Manager
