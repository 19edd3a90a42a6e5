import Verif.Tunnel.ManagerLemmas

/-!
# Services of TCP tunnels — invariants of histories
-/

namespace Verif.Tunnel.Manager

open Spec

theorem lookup_mem {l : List (Nat × Req)} {r : Nat} {q : Req} (h : l.lookup r = some q) : (r, q) ∈ l := by
  induction l with
  | nil => cases h
  | cons a l ih =>
    obtain ⟨k, v⟩ := a
    rw [List.lookup_cons] at h
    split at h
    · rename_i he
      cases h
      rw [beq_iff_eq.1 he]
      exact List.mem_cons_self ..
    · exact List.mem_cons_of_mem _ (ih h)

/-! ### Checks which wait -/

/-- Every check which waits was made in the history, for the service and the stream or id it is about. -/
def Asked (ops : List Op) (r : Nat) (q : Req) : Prop :=
  match q.what with
  | .tunnel wp n => q.serial < (run ops).created ∧ wp = UInt64.ofNat (q.serial + 2) ∧
      ∃ before after port y, ops = before ++ Op.incoming port true :: after ∧ Has before y ∧ y.serial = q.serial ∧
        y.streamPort = port ∧ n = (run before).streams ∧
        told before (.incoming port true) = [.check r .connect (some (y.id, y.type))]
  | .list => ∃ before after, ops = before ++ Op.coapList true :: after ∧
      told before (.coapList true) = [.check r .listServices none]
  | .get id => q.serial < (run ops).created ∧ ∃ before after c y, ops = before ++ Op.coapGet id c true :: after ∧
      findId id (run before).services = some y ∧ y.serial = q.serial ∧
      told before (.coapGet id c true) = [.check r (if c then .connect else .getService) (some (y.id, y.type))]

theorem Asked.snoc {ops : List Op} {r : Nat} {q : Req} (h : Asked ops r q) (op : Op) : Asked (ops ++ [op]) r q := by
  unfold Asked at h ⊢
  have hc : (run ops).created ≤ (run (ops ++ [op])).created := by rw [run_snoc]; exact created_mono _ _
  split
  · rename_i wp n hq
    rw [hq] at h
    obtain ⟨h1, h2, b, a, p, y, e, h3⟩ := h
    exact ⟨Nat.lt_of_lt_of_le h1 hc, h2, b, a ++ [op], p, y, by rw [e, List.append_assoc]; rfl, h3⟩
  · rename_i hq
    rw [hq] at h
    obtain ⟨b, a, e, h3⟩ := h
    exact ⟨b, a ++ [op], by rw [e, List.append_assoc]; rfl, h3⟩
  · rename_i id hq
    rw [hq] at h
    obtain ⟨h1, b, a, c, y, e, h3⟩ := h
    exact ⟨Nat.lt_of_lt_of_le h1 hc, b, a ++ [op], c, y, by rw [e, List.append_assoc]; rfl, h3⟩

/-- The pending checks after a step. -/
theorem step_pending (ops : List Op) (op : Op) (p : Nat × Req) (hp : p ∈ (step (run ops) op).pending) :
    p ∈ (run ops).pending ∨ Asked (ops ++ [op]) p.1 p.2 := by
  have hr := run_snoc ops op
  have hinv := run_sinv ops
  have h := step_eff (run ops) op
  generalize hs : step (run ops) op = s' at h hp hr
  have filt : ∀ {r}, p ∈ (run ops).pending.filter (fun p => p.1 ≠ r) → p ∈ (run ops).pending :=
    fun h => (List.mem_filter.1 h).1
  cases h with
  | asks port x h =>
    obtain ⟨hx, hport⟩ := findPort_some h
    rcases List.mem_append.1 hp with hp | hp
    · exact Or.inl hp
    · refine Or.inr ?_
      rw [List.mem_singleton.1 hp]
      refine ⟨by rw [hr]; exact hinv.old x hx, hinv.wp x hx, ops, [], port, x, rfl, hx, rfl, hport, rfl, ?_⟩
      exact told_of (by rw [hs]; rfl)
  | asksList =>
    rcases List.mem_append.1 hp with hp | hp
    · exact Or.inl hp
    · refine Or.inr ?_
      rw [List.mem_singleton.1 hp]
      exact ⟨ops, [], rfl, told_of (by rw [hs]; rfl)⟩
  | asksGet id c x h =>
    obtain ⟨hx, -⟩ := findId_some h
    rcases List.mem_append.1 hp with hp | hp
    · exact Or.inl hp
    · refine Or.inr ?_
      rw [List.mem_singleton.1 hp]
      exact ⟨by rw [hr]; exact hinv.old x hx, ops, [], c, x, rfl, h, rfl, told_of (by rw [hs]; rfl)⟩
  | refuses => exact Or.inl (filt hp)
  | opens => exact Or.inl (filt hp)
  | answers => exact Or.inl (filt hp)
  | lists => exact Or.inl (filt hp)
  | shows => exact Or.inl (filt hp)
  | _ => exact Or.inl hp

theorem run_asked (ops : List Op) : ∀ p ∈ (run ops).pending, Asked ops p.1 p.2 := by
  refine run_ind (P := fun ops => ∀ p ∈ (run ops).pending, Asked ops p.1 p.2) ?_ (fun ops op h => ?_) ops
  · intro p hp; cases hp
  · intro p hp
    rw [run_snoc] at hp
    rcases step_pending ops op p hp with h' | h'
    · exact (h p h').snoc op
    · exact h'

/-! ### Streams -/

/-- Checks have different numbers, and every stream waits for one check or has met its fate. -/
structure FInv (s : St) : Prop where
  ids : (s.pending.map Prod.fst).Nodup
  old : ∀ p ∈ s.pending, p.1 < s.asked
  once : ∀ n, fates s n + waiting s n = if n < s.streams then 1 else 0

def isFate (n : Nat) : Out → Bool
  | .opened _ m _ => m == n
  | .destroyed m => m == n
  | _ => false

def isWait (n : Nat) (p : Nat × Req) : Bool :=
  match p.2.what with
  | .tunnel _ m => m == n
  | _ => false

theorem fates_eq (s : St) (n : Nat) : fates s n = s.out.countP (isFate n) := by
  unfold fates
  congr 1

theorem waiting_eq (s : St) (n : Nat) : waiting s n = s.pending.countP (isWait n) := by
  unfold waiting
  congr 1

theorem count_filter_lookup {l : List (Nat × Req)} (hn : (l.map Prod.fst).Nodup) {r : Nat} {q : Req}
    (h : l.lookup r = some q) (n : Nat) :
    (l.filter fun p => p.1 ≠ r).countP (isWait n) + (if isWait n (r, q) then 1 else 0) = l.countP (isWait n) := by
  induction l with
  | nil => cases h
  | cons a l ih =>
    obtain ⟨k, v⟩ := a
    rw [List.map_cons, List.nodup_cons] at hn
    rw [List.lookup_cons] at h
    split at h
    · rename_i he
      cases h
      have hk : r = k := beq_iff_eq.1 he
      subst hk
      have : l.filter (fun p => p.1 ≠ r) = l := by
        rw [List.filter_eq_self]
        intro p hp
        have : p.1 ≠ r := fun e => hn.1 (by show r ∈ _; rw [← e]; exact List.mem_map_of_mem (f := Prod.fst) hp)
        simpa using this
      rw [List.filter_cons_of_neg (by simp), this, List.countP_cons]
    · rename_i he
      have hk : ¬ k = r := fun e => by rw [e] at he; simp at he
      rw [List.filter_cons_of_pos (by simpa using hk), List.countP_cons, List.countP_cons, ← ih hn.2 h]
      omega

theorem fates_tell (s : St) (os : List Out) (n : Nat) : fates (s.tell os) n = fates s n + os.countP (isFate n) := by
  rw [fates_eq, fates_eq]
  exact List.countP_append ..

theorem filter_nodup {l : List (Nat × Req)} (hn : (l.map Prod.fst).Nodup) (r : Nat) :
    ((l.filter fun p => p.1 ≠ r).map Prod.fst).Nodup := hn.sublist (List.filter_sublist.map _)

theorem plain_fate {o : Out} (h : Plain o) (n : Nat) : [o].countP (isFate n) = 0 := by
  cases o <;> first | rfl | exact h.elim

/-- A step which changes only what the invariant does not speak about. -/
theorem FInv.keep {s s' : St} (h : FInv s) (hp : s'.pending = s.pending) (ha : s'.asked = s.asked)
    (hs : s'.streams = s.streams) {os : List Out} (ho : s'.out = s.out ++ os) (hf : ∀ n, os.countP (isFate n) = 0) :
    FInv s' := by
  refine ⟨by rw [hp]; exact h.ids, by rw [hp, ha]; exact h.old, fun n => ?_⟩
  have := h.once n
  rw [fates_eq, waiting_eq] at this ⊢
  rw [hs, hp, ho, List.countP_append, hf]
  exact this

theorem FInv.ask {s : St} (h : FInv s) (a : Action) (attrs : Option (String × String)) (q : Req)
    (hq : ∀ n, isWait n (s.asked, q) = false) : FInv (s.ask a attrs q) := by
  refine ⟨?_, ?_, fun n => ?_⟩
  · show ((s.pending ++ [(s.asked, q)]).map Prod.fst).Nodup
    rw [List.map_append, List.nodup_append]
    refine ⟨h.ids, List.pairwise_singleton .., ?_⟩
    intro x hx y hy
    obtain ⟨p, hp, rfl⟩ := List.mem_map.1 hx
    have := h.old p hp
    rw [List.mem_singleton.1 hy]
    exact Nat.ne_of_lt this
  · intro p hp
    show p.1 < s.asked + 1
    rcases List.mem_append.1 hp with hp | hp
    · exact Nat.lt_succ_of_lt (h.old p hp)
    · rw [List.mem_singleton.1 hp]; exact Nat.lt_succ_self _
  · have := h.once n
    rw [fates_eq, waiting_eq] at this ⊢
    show (s.out ++ [Out.check s.asked a attrs]).countP (isFate n) + (s.pending ++ [(s.asked, q)]).countP (isWait n) = _
    rw [List.countP_append, List.countP_append, List.countP_cons, List.countP_cons, hq]
    exact this

theorem FInv.answer {s s' : St} (h : FInv s) {r : Nat} {q : Req} (hq : s.pending.lookup r = some q)
    (hp : s'.pending = s.pending.filter fun p => p.1 ≠ r) (ha : s'.asked = s.asked)
    (hs : s'.streams = s.streams) {os : List Out} (ho : s'.out = s.out ++ os)
    (hf : ∀ n, os.countP (isFate n) = if isWait n (r, q) then 1 else 0) : FInv s' := by
  refine ⟨by rw [hp]; exact filter_nodup h.ids r, ?_, fun n => ?_⟩
  · rw [hp, ha]
    exact fun p hp => h.old p (List.mem_filter.1 hp).1
  · have h1 := h.once n
    have h2 := count_filter_lookup h.ids hq n
    rw [fates_eq, waiting_eq] at h1 ⊢
    rw [hs, hp, ho, List.countP_append, hf]
    omega

theorem finv_step (s : St) (op : Op) (h : FInv s) : FInv (step s op) := by
  have he := step_eff s op
  generalize step s op = s' at he
  cases he with
  | nothing => exact h
  | says op o hp => exact h.keep rfl rfl rfl rfl (plain_fate hp)
  | lost => exact h.keep (os := [_]) rfl rfl rfl rfl (fun n => rfl)
  | added => exact h.keep (os := [_]) rfl rfl rfl rfl (fun n => rfl)
  | removed id x hx =>
    refine h.keep rfl rfl rfl rfl (fun n => ?_)
    rw [List.countP_append]
    have : (x.conns.map Out.aborted).countP (isFate n) = 0 := by
      rw [List.countP_eq_zero]
      intro o ho
      obtain ⟨c, -, rfl⟩ := List.mem_map.1 ho
      exact Bool.false_ne_true
    rw [this]; rfl
  | limited => exact h.keep (os := [_]) rfl rfl rfl rfl (fun n => rfl)
  | changes => exact h.keep (os := [_]) rfl rfl rfl rfl (fun n => rfl)
  | asks port x hx =>
    have hw : ∀ n, isWait n (s.asked, ⟨.tunnel x.wp s.streams, x.serial⟩) = (s.streams == n) := fun n => rfl
    refine ⟨?_, ?_, fun n => ?_⟩
    · show ((s.pending ++ [(s.asked, _)]).map Prod.fst).Nodup
      rw [List.map_append, List.nodup_append]
      refine ⟨h.ids, List.pairwise_singleton .., ?_⟩
      intro x hx y hy
      obtain ⟨p, hp, rfl⟩ := List.mem_map.1 hx
      have := h.old p hp
      rw [List.mem_singleton.1 hy]
      exact Nat.ne_of_lt this
    · intro p hp
      show p.1 < s.asked + 1
      rcases List.mem_append.1 hp with hp | hp
      · exact Nat.lt_succ_of_lt (h.old p hp)
      · rw [List.mem_singleton.1 hp]; exact Nat.lt_succ_self _
    · have := h.once n
      rw [fates_eq, waiting_eq] at this ⊢
      show (s.out ++ [Out.check _ _ _]).countP (isFate n) + (s.pending ++ [(s.asked, _)]).countP (isWait n) =
        if n < s.streams + 1 then 1 else 0
      rw [List.countP_append, List.countP_append, List.countP_cons (p := isWait n), hw]
      have e1 : [Out.check s.asked .connect (some (x.id, x.type))].countP (isFate n) = 0 := rfl
      rw [e1, List.countP_nil]
      by_cases hn : s.streams = n
      · subst hn
        rw [if_neg (Nat.lt_irrefl _)] at this
        rw [if_pos (Nat.lt_succ_self _), if_pos (by simp)]
        omega
      · rw [if_neg (c := (s.streams == n) = true) (by simpa using hn)]
        rcases Nat.lt_or_gt_of_ne hn with hlt | hlt
        · rw [if_neg (by omega)] at this
          rw [if_neg (by omega)]; omega
        · rw [if_pos hlt] at this
          rw [if_pos (by omega)]; omega
  | drops port x hx =>
    refine ⟨h.ids, h.old, fun n => ?_⟩
    have := h.once n
    rw [fates_eq, waiting_eq] at this ⊢
    show (s.out ++ [Out.destroyed s.streams]).countP (isFate n) + s.pending.countP (isWait n) =
      if n < s.streams + 1 then 1 else 0
    rw [List.countP_append, List.countP_cons]
    have e1 : isFate n (.destroyed s.streams) = (s.streams == n) := rfl
    rw [e1, List.countP_nil]
    by_cases hn : s.streams = n
    · subst hn
      rw [if_neg (Nat.lt_irrefl _)] at this
      rw [if_pos (Nat.lt_succ_self _), if_pos (by simp)]
      omega
    · rw [if_neg (c := (s.streams == n) = true) (by simpa using hn)]
      rcases Nat.lt_or_gt_of_ne hn with hlt | hlt
      · rw [if_neg (by omega)] at this
        rw [if_neg (by omega)]; omega
      · rw [if_pos hlt] at this
        rw [if_pos (by omega)]; omega
  | asksList => exact h.ask _ _ _ (fun n => rfl)
  | asksGet => exact h.ask _ _ _ (fun n => rfl)
  | refuses r allow mem q wp n hl hq =>
    refine h.answer hl rfl rfl rfl rfl (fun m => ?_)
    have : isWait m (r, q) = (n == m) := by unfold isWait; rw [hq]
    rw [this, List.countP_cons, List.countP_nil]
    exact Nat.zero_add _
  | opens r q wp n x hl hq hx hf =>
    refine h.answer hl rfl rfl rfl rfl (fun m => ?_)
    have : isWait m (r, q) = (n == m) := by unfold isWait; rw [hq]
    rw [this, List.countP_cons, List.countP_nil]
    exact Nat.zero_add _
  | answers r allow mem q o hl hp hq =>
    refine h.answer hl rfl rfl rfl rfl (fun m => ?_)
    have : isWait m (r, q) = false := by
      unfold isWait
      split
      · rename_i hw; exact absurd hw (hq _ _)
      · rfl
    rw [this, plain_fate hp]; rfl
  | lists r q hl hq =>
    refine h.answer hl rfl rfl rfl rfl (fun m => ?_)
    have : isWait m (r, q) = false := by unfold isWait; rw [hq]
    rw [this]; rfl
  | shows r q id x hl hq hx =>
    refine h.answer hl rfl rfl rfl rfl (fun m => ?_)
    have : isWait m (r, q) = false := by unfold isWait; rw [hq]
    rw [this]; rfl
  | ends => exact h.keep rfl rfl rfl (List.append_nil _).symm (fun n => rfl)

theorem run_finv (ops : List Op) : FInv (run ops) := by
  refine run_ind (P := fun ops => FInv (run ops)) ?_ (fun ops op h => ?_) ops
  · exact ⟨List.nodup_nil, (fun p hp => nomatch hp), fun n => (if_neg (Nat.not_lt_zero n)).symm⟩
  · rw [run_snoc]; exact finv_step _ _ h

/-! ### Counting connections -/

theorem byType_eq (t : String) (xs : List Svc) :
    byType t xs = ((xs.filter fun x => x.type = t).map fun x => x.conns.length).sum := by
  induction xs with
  | nil => rfl
  | cons x xs ih =>
    rw [byType, ih, List.filter_cons]
    by_cases h : x.type = t
    · rw [if_pos h, if_pos (by simpa using h), List.map_cons, List.sum_cons]
    · rw [if_neg h, if_neg (by simpa using h), Nat.zero_add]

theorem byType_append (t : String) (xs ys : List Svc) : byType t (xs ++ ys) = byType t xs + byType t ys := by
  induction xs with
  | nil => exact (Nat.zero_add _).symm
  | cons x xs ih =>
    rw [List.cons_append, byType, byType, ih]; omega

theorem byType_del (t id : String) (xs : List Svc) : byType t (delId id xs) ≤ byType t xs := by
  induction xs with
  | nil => exact Nat.le_refl _
  | cons x xs ih =>
    rw [delId]
    split
    · rw [byType]; omega
    · rw [byType, byType]; omega

theorem byType_modId (t id : String) (f : Svc → Svc) (hf : ∀ x, ident (f x) = ident x ∧ (f x).conns = x.conns)
    (xs : List Svc) : byType t (modId id f xs) = byType t xs := by
  induction xs with
  | nil => rfl
  | cons x xs ih =>
    rw [modId]
    split
    · have e : (f x).type = x.type := congrArg (fun p => p.2.2.2.1) (hf x).1
      rw [byType, byType, (hf x).2, e]
    · rw [byType, byType, ih]

theorem byType_ends (t : String) (c : Nat) (xs : List Svc) : byType t (xs.map (Svc.delConn c)) ≤ byType t xs := by
  induction xs with
  | nil => exact Nat.le_refl _
  | cons x xs ih =>
    rw [List.map_cons, byType, byType]
    have e1 : (Svc.delConn c x).type = x.type := rfl
    have e2 : (Svc.delConn c x).conns.length ≤ x.conns.length := List.length_filter_le ..
    rw [e1]
    split <;> omega

theorem byType_opens (t : String) (wp : UInt64) (c : Nat) (xs : List Svc) (x : Svc) (h : findWp wp xs = some x) :
    byType t (modWp wp (Svc.addConn c) xs) = byType t xs + if x.type = t then 1 else 0 := by
  induction xs with
  | nil => cases h
  | cons y ys ih =>
    rw [findWp] at h
    rw [modWp]
    by_cases he : y.wp = wp
    · rw [if_pos he] at h ⊢
      cases h
      rw [byType, byType]
      have e1 : (Svc.addConn c x).type = x.type := rfl
      have e2 : (Svc.addConn c x).conns.length = x.conns.length + 1 := List.length_append
      rw [e1, e2]
      split <;> omega
    · rw [if_neg he] at h ⊢
      rw [byType, byType, ih h]
      omega

/-- Unless the limit of a type is set, no step exceeds it. -/
theorem limit_step (s : St) (op : Op) (t : String) (l b : Nat) (hl : s.limits t = some l) (hb : l ≤ b) (hc : byType t s.services ≤ b)
    (hop : ∀ l' m, op ≠ .setLimit t l' m) :
    (step s op).limits t = some l ∧ byType t (step s op).services ≤ b := by
  have h := step_eff s op
  generalize step s op = s' at h
  cases h with
  | added id type target p h =>
    refine ⟨hl, ?_⟩
    show byType t (s.services ++ [_]) ≤ b
    rw [byType_append, byType, byType]
    have : (if type = t then ([] : List Nat).length else 0) = 0 := by split <;> rfl
    show byType t s.services + ((if type = t then ([] : List Nat).length else 0) + 0) ≤ b
    omega
  | removed id x h => exact ⟨hl, Nat.le_trans (byType_del t id _) hc⟩
  | limited type limit mem o e h =>
    refine ⟨?_, hc⟩
    show (if t = type then o else s.limits t) = some l
    rw [if_neg]
    · exact hl
    · intro e; subst e; exact hop limit mem rfl
  | changes op id f hf => exact ⟨hl, by rw [St.tell]; show byType t (modId id f s.services) ≤ b; rw [byType_modId t id f hf]; exact hc⟩
  | opens r q wp n x h hq hx hf =>
    refine ⟨hl, ?_⟩
    show byType t (modWp wp (Svc.addConn s.opened) s.services) ≤ b
    rw [byType_opens t wp _ _ x hx]
    by_cases he : x.type = t
    · rw [if_pos he]
      rw [he, St.full, hl] at hf
      have : ¬ l ≤ byType t s.services := by simpa using hf
      omega
    · rw [if_neg he]; exact hc
  | ends c => exact ⟨hl, Nat.le_trans (byType_ends t c _) hc⟩
  | _ => exact ⟨hl, hc⟩

theorem limit_foldl (more : List Op) (s : St) (t : String) (l b : Nat) (hl : s.limits t = some l)
    (hb : l ≤ b) (hc : byType t s.services ≤ b) (hop : ∀ op ∈ more, ∀ l' m, op ≠ .setLimit t l' m) :
    byType t (more.foldl step s).services ≤ b := by
  induction more generalizing s with
  | nil => exact hc
  | cons op more ih =>
    obtain ⟨h1, h2⟩ := limit_step s op t l b hl hb hc (hop op (List.mem_cons_self ..))
    exact ih _ h1 h2 fun o ho => hop o (List.mem_cons_of_mem _ ho)

/-! ### The first service with an id -/

theorem same_of_ident {x y : Svc} (e : ident x = ident y) : Same x y :=
  ⟨congrArg Prod.fst e, congrArg (fun p => p.2.2.1) e, congrArg (fun p => p.2.2.2.1) e,
    congrArg (fun p => p.2.2.2.2.1) e, congrArg (fun p => p.2.2.2.2.2) e⟩

theorem findId_ident (id : String) {xs ys : List Svc} (h : ys.map ident = xs.map ident) {x : Svc}
    (hx : findId id xs = some x) : ∃ y, findId id ys = some y ∧ Same y x := by
  induction xs generalizing ys with
  | nil => cases hx
  | cons a xs ih =>
    cases ys with
    | nil => cases h
    | cons b ys =>
      rw [List.map_cons, List.map_cons, List.cons.injEq] at h
      have hs := same_of_ident h.1
      rw [findId] at hx ⊢
      by_cases ha : a.id = id
      · rw [if_pos ha] at hx
        cases hx
        rw [if_pos (hs.2.1.trans ha)]
        exact ⟨b, rfl, hs⟩
      · rw [if_neg ha] at hx
        rw [if_neg (fun e => ha (hs.2.1.symm.trans e))]
        exact ih h.2 hx

theorem findId_append (id : String) {xs : List Svc} (ys : List Svc) {x : Svc} (hx : findId id xs = some x) :
    findId id (xs ++ ys) = some x := by
  induction xs with
  | nil => cases hx
  | cons a xs ih =>
    rw [findId] at hx
    rw [List.cons_append, findId]
    by_cases ha : a.id = id
    · rw [if_pos ha] at hx ⊢; exact hx
    · rw [if_neg ha] at hx ⊢; exact ih hx

theorem findId_del (id id' : String) (hne : id' ≠ id) {xs : List Svc} {x : Svc} (hx : findId id xs = some x) :
    findId id (delId id' xs) = some x := by
  induction xs with
  | nil => cases hx
  | cons a xs ih =>
    rw [findId] at hx
    rw [delId]
    by_cases ha : a.id = id
    · rw [if_pos ha] at hx
      rw [if_neg (fun e => hne (e.symm.trans ha)), findId, if_pos ha]
      exact hx
    · rw [if_neg ha] at hx
      by_cases hb : a.id = id'
      · rw [if_pos hb]; exact hx
      · rw [if_neg hb, findId, if_neg ha]; exact ih hx

theorem first_step (s : St) (op : Op) (id : String) (hop : op ≠ .removeService id) {x : Svc}
    (hx : findId id s.services = some x) : ∃ y, findId id (step s op).services = some y ∧ Same y x := by
  have h := step_eff s op
  generalize step s op = s' at h
  cases h with
  | added => exact ⟨x, findId_append id _ hx, rfl, rfl, rfl, rfl, rfl⟩
  | removed id' y h => exact ⟨x, findId_del id id' (fun e => hop (by rw [e])) hx, rfl, rfl, rfl, rfl, rfl⟩
  | changes op id' f hf => exact findId_ident id (modId_ident id' f (fun x => (hf x).1) _) hx
  | opens => exact findId_ident id (modWp_ident _ (Svc.addConn _) (fun x => rfl) _) hx
  | ends => exact findId_ident id (map_ident (Svc.delConn _) (fun x => rfl) _) hx
  | _ => exact ⟨x, hx, rfl, rfl, rfl, rfl, rfl⟩

theorem first_foldl (more : List Op) (s : St) (id : String) (hop : Op.removeService id ∉ more) {x : Svc}
    (hx : findId id s.services = some x) : ∃ y, findId id (more.foldl step s).services = some y ∧ Same y x := by
  induction more generalizing s x with
  | nil => exact ⟨x, hx, rfl, rfl, rfl, rfl, rfl⟩
  | cons op more ih =>
    obtain ⟨y, hy, e⟩ := first_step s op id (fun e => hop (by rw [e]; exact List.mem_cons_self ..)) hx
    obtain ⟨z, hz, e'⟩ := ih _ (fun h => hop (List.mem_cons_of_mem _ h)) hy
    exact ⟨z, hz, Same.trans e' e⟩

/-! ### Which connections exist -/

/-- All connections in the lists of the services. -/
def conns (xs : List Svc) : List Nat := xs.flatMap Svc.conns

theorem conns_cons (x : Svc) (xs : List Svc) : conns (x :: xs) = x.conns ++ conns xs := List.flatMap_cons

theorem conns_append (xs ys : List Svc) : conns (xs ++ ys) = conns xs ++ conns ys := List.flatMap_append

theorem conns_modId (id : String) (f : Svc → Svc) (hf : ∀ x, (f x).conns = x.conns) (xs : List Svc) :
    conns (modId id f xs) = conns xs := by
  induction xs with
  | nil => rfl
  | cons x xs ih =>
    rw [modId]
    split
    · rw [conns_cons, conns_cons, hf]
    · rw [conns_cons, conns_cons, ih]

theorem conns_modWp (wp : UInt64) (c : Nat) (xs : List Svc) (x : Svc) (h : findWp wp xs = some x) :
    (conns (modWp wp (Svc.addConn c) xs)).Perm (c :: conns xs) := by
  induction xs with
  | nil => cases h
  | cons y ys ih =>
    rw [findWp] at h
    rw [modWp]
    by_cases he : y.wp = wp
    · rw [if_pos he]
      rw [conns_cons, conns_cons]
      have : (Svc.addConn c y).conns = y.conns ++ [c] := rfl
      rw [this, List.append_assoc]
      exact List.perm_middle
    · rw [if_neg he] at h ⊢
      rw [conns_cons, conns_cons]
      exact ((ih h).append_left y.conns).trans List.perm_middle

theorem conns_delId (id : String) (xs : List Svc) (x : Svc) (h : findId id xs = some x) :
    (conns xs).Perm (x.conns ++ conns (delId id xs)) := by
  induction xs with
  | nil => cases h
  | cons y ys ih =>
    rw [findId] at h
    rw [delId]
    by_cases he : y.id = id
    · rw [if_pos he] at h ⊢
      cases h
      rw [conns_cons]
    · rw [if_neg he] at h ⊢
      rw [conns_cons, conns_cons]
      refine ((ih h).append_left y.conns).trans ?_
      rw [← List.append_assoc, ← List.append_assoc]
      exact List.perm_append_comm.append_right _

theorem conns_ends (c : Nat) (xs : List Svc) : conns (xs.map (Svc.delConn c)) = (conns xs).filter fun d => d ≠ c := by
  induction xs with
  | nil => rfl
  | cons x xs ih =>
    rw [List.map_cons, conns_cons, conns_cons, List.filter_append, ih]
    rfl

theorem opened_mono (s : St) (op : Op) : s.opened ≤ (step s op).opened := by
  have h := step_eff s op
  generalize step s op = s' at h
  cases h <;> first | exact Nat.le_refl _ | exact Nat.le_succ _

theorem opened_foldl (more : List Op) (s : St) : s.opened ≤ (more.foldl step s).opened := by
  induction more generalizing s with
  | nil => exact Nat.le_refl _
  | cons op more ih => exact Nat.le_trans (opened_mono s op) (ih _)

theorem ended_lt {ops : List Op} {c : Nat} (h : Ended ops c) : c < (run ops).opened := by
  obtain ⟨b, a, e, hc⟩ := h
  rw [e, run_append]
  exact Nat.lt_of_lt_of_le hc (opened_foldl _ _)

theorem ended_snoc (ops : List Op) (op : Op) (c : Nat) :
    Ended (ops ++ [op]) c ↔ Ended ops c ∨ (op = .connEnds c ∧ c < (run ops).opened) := by
  constructor
  · rintro ⟨b, a, e, hc⟩
    rcases List.eq_nil_or_concat a with rfl | ⟨a', z, rfl⟩
    · have := List.append_inj' e rfl
      cases this.1; cases this.2
      exact Or.inr ⟨rfl, hc⟩
    · have e' : ops ++ [op] = (b ++ Op.connEnds c :: a') ++ [z] := by
        rw [e, List.concat_eq_append, List.append_assoc]; rfl
      have := List.append_inj' e' rfl
      exact Or.inl ⟨b, a', this.1, hc⟩
  · rintro (⟨b, a, e, hc⟩ | ⟨rfl, hc⟩)
    · exact ⟨b, a ++ [op], by rw [e, List.append_assoc]; rfl, hc⟩
    · exact ⟨ops, [], rfl, hc⟩

structure CInv (ops : List Op) : Prop where
  nodup : (conns (run ops).services).Nodup
  iff : ∀ c, c ∈ conns (run ops).services ↔
    c < (run ops).opened ∧ ¬ Ended ops c ∧ Out.aborted c ∉ (run ops).out
  told : ∀ c, (∃ n t, Out.opened c n t ∈ (run ops).out) ↔ c < (run ops).opened
  gone : ∀ c, Out.aborted c ∈ (run ops).out → c < (run ops).opened

/-- A step which leaves the connections alone. -/
theorem CInv.keep {ops : List Op} {op : Op} (h : CInv ops) {os : List Out}
    (hc : conns (step (run ops) op).services = conns (run ops).services)
    (ho : (step (run ops) op).opened = (run ops).opened)
    (hout : (step (run ops) op).out = (run ops).out ++ os) (h1 : ∀ o ∈ os, (∀ c, o ≠ .aborted c) ∧ ∀ c n t, o ≠ .opened c n t)
    (hop : ∀ c, op ≠ .connEnds c) : CInv (ops ++ [op]) := by
  have ha : ∀ c, Out.aborted c ∈ (run ops).out ++ os ↔ Out.aborted c ∈ (run ops).out := fun c =>
    ⟨fun hm => (List.mem_append.1 hm).resolve_right fun hm => (h1 _ hm).1 c rfl, fun hm => List.mem_append_left _ hm⟩
  have hp : ∀ c n t, Out.opened c n t ∈ (run ops).out ++ os ↔ Out.opened c n t ∈ (run ops).out := fun c n t =>
    ⟨fun hm => (List.mem_append.1 hm).resolve_right fun hm => (h1 _ hm).2 c n t rfl, fun hm => List.mem_append_left _ hm⟩
  have he : ∀ c, Ended (ops ++ [op]) c ↔ Ended ops c := fun c => by
    rw [ended_snoc]
    exact ⟨fun h => h.resolve_right fun h => hop c h.1, Or.inl⟩
  refine ⟨?_, fun c => ?_, fun c => ?_, fun c => ?_⟩
  · rw [run_snoc, hc]; exact h.nodup
  · rw [run_snoc, hc, ho, hout, ha, he]; exact h.iff c
  · rw [run_snoc, ho, hout, ← h.told c]
    exact ⟨fun ⟨n, t, hm⟩ => ⟨n, t, (hp c n t).1 hm⟩, fun ⟨n, t, hm⟩ => ⟨n, t, (hp c n t).2 hm⟩⟩
  · rw [run_snoc, ho, hout, ha]; exact h.gone c

theorem plain_out {o : Out} (h : Plain o) : ∀ o' ∈ [o], (∀ c, o' ≠ .aborted c) ∧ ∀ c n t, o' ≠ .opened c n t := by
  intro o' ho'
  rw [List.mem_singleton.1 ho']
  constructor
  · rintro c rfl; exact h
  · rintro c n t rfl; exact h

theorem cinv_step (ops : List Op) (op : Op) (h : CInv ops) : CInv (ops ++ [op]) := by
  have he := step_eff (run ops) op
  have one : ∀ o : Out, (∀ c, o ≠ .aborted c) → (∀ c n t, o ≠ .opened c n t) →
      ∀ o' ∈ [o], (∀ c, o' ≠ .aborted c) ∧ ∀ c n t, o' ≠ .opened c n t :=
    fun o h1 h2 o' ho' => by rw [List.mem_singleton.1 ho']; exact ⟨h1, h2⟩
  generalize hs : step (run ops) op = s' at he
  cases he with
  | nothing =>
    by_cases hop : ∃ c, op = .connEnds c
    · obtain ⟨c, rfl⟩ := hop
      have hcs : (conns (run ops).services).filter (fun d => d ≠ c) = conns (run ops).services := by
        have : (step (run ops) (.connEnds c)).services = (run ops).services.map (Svc.delConn c) := rfl
        rw [hs] at this
        rw [← conns_ends, ← this]
      have hnc : c ∉ conns (run ops).services := by
        rw [← hcs]
        intro hm
        simpa using (List.mem_filter.1 hm).2
      refine ⟨by rw [run_snoc, hs]; exact h.nodup, fun d => ?_, by rw [run_snoc, hs]; exact h.told, by rw [run_snoc, hs]; exact h.gone⟩
      rw [run_snoc, hs, ended_snoc, h.iff d]
      constructor
      · rintro ⟨h1, h2, h3⟩
        refine ⟨h1, ?_, h3⟩
        rintro (h4 | ⟨h4, -⟩)
        · exact h2 h4
        · cases h4
          exact hnc ((h.iff c).2 ⟨h1, h2, h3⟩)
      · rintro ⟨h1, h2, h3⟩
        exact ⟨h1, fun h4 => h2 (Or.inl h4), h3⟩
    · exact h.keep (by rw [hs]) (by rw [hs]) (by rw [hs]; exact (List.append_nil _).symm) (by intro o ho; cases ho)
        (fun c hc => hop ⟨c, hc⟩)
  | says op o hp =>
    by_cases hop : ∃ c, op = .connEnds c
    · obtain ⟨c, rfl⟩ := hop
      have : (step (run ops) (.connEnds c)).out = (run ops).out := rfl
      rw [hs] at this
      have := congrArg List.length this
      rw [St.tell, List.length_append] at this
      simp at this
    · exact h.keep (by rw [hs]; rfl) (by rw [hs]; rfl) (by rw [hs]; rfl) (plain_out hp) (fun c hc => hop ⟨c, hc⟩)
  | lost =>
    exact h.keep (by rw [hs]; rfl) (by rw [hs]; rfl) (by rw [hs]; rfl) (plain_out (by trivial)) (by intro c hc; cases hc)
  | added id type target p hp =>
    refine h.keep ?_ (by rw [hs]; rfl) (by rw [hs]; rfl) (plain_out (by trivial)) (by intro c hc; cases hc)
    rw [hs]
    show conns (_ ++ [_]) = _
    rw [conns_append]
    exact List.append_nil _
  | limited =>
    exact h.keep (by rw [hs]; rfl) (by rw [hs]; rfl) (by rw [hs]; rfl) (plain_out (by trivial)) (by intro c hc; cases hc)
  | changes op id f hf =>
    by_cases hop : ∃ c, op = .connEnds c
    · obtain ⟨c, rfl⟩ := hop
      have : (step (run ops) (.connEnds c)).out = (run ops).out := rfl
      rw [hs] at this
      have := congrArg List.length this
      rw [St.tell, List.length_append] at this
      simp at this
    · refine h.keep ?_ (by rw [hs]; rfl) (by rw [hs]; rfl) (plain_out (by trivial)) (fun c hc => hop ⟨c, hc⟩)
      rw [hs]
      exact conns_modId id f (fun x => (hf x).2) _
  | asks =>
    exact h.keep (by rw [hs]; rfl) (by rw [hs]; rfl) (by rw [hs]; rfl)
      (one _ (by intro c hc; cases hc) (by intro c n t hc; cases hc)) (by intro c hc; cases hc)
  | drops =>
    exact h.keep (by rw [hs]; rfl) (by rw [hs]; rfl) (by rw [hs]; rfl)
      (one _ (by intro c hc; cases hc) (by intro c n t hc; cases hc)) (by intro c hc; cases hc)
  | asksList =>
    exact h.keep (by rw [hs]; rfl) (by rw [hs]; rfl) (by rw [hs]; rfl)
      (one _ (by intro c hc; cases hc) (by intro c n t hc; cases hc)) (by intro c hc; cases hc)
  | asksGet =>
    exact h.keep (by rw [hs]; rfl) (by rw [hs]; rfl) (by rw [hs]; rfl)
      (one _ (by intro c hc; cases hc) (by intro c n t hc; cases hc)) (by intro c hc; cases hc)
  | refuses =>
    exact h.keep (by rw [hs]; rfl) (by rw [hs]; rfl) (by rw [hs]; rfl)
      (one _ (by intro c hc; cases hc) (by intro c n t hc; cases hc)) (by intro c hc; cases hc)
  | answers r allow mem q o hl hp hq =>
    exact h.keep (by rw [hs]; rfl) (by rw [hs]; rfl) (by rw [hs]; rfl) (plain_out hp) (by intro c hc; cases hc)
  | lists =>
    exact h.keep (by rw [hs]; rfl) (by rw [hs]; rfl) (by rw [hs]; rfl)
      (one _ (by intro c hc; cases hc) (by intro c n t hc; cases hc)) (by intro c hc; cases hc)
  | shows =>
    exact h.keep (by rw [hs]; rfl) (by rw [hs]; rfl) (by rw [hs]; rfl)
      (one _ (by intro c hc; cases hc) (by intro c n t hc; cases hc)) (by intro c hc; cases hc)
  | removed id x hx =>
    have hp := conns_delId id _ x hx
    have hnd := hp.nodup_iff.1 h.nodup
    have hdis : ∀ c, c ∈ x.conns → c ∉ conns (delId id (run ops).services) := fun c h1 h2 =>
      (List.nodup_append.1 hnd).2.2 c h1 c h2 rfl
    have hmem : ∀ c, c ∈ conns (run ops).services ↔ c ∈ x.conns ∨ c ∈ conns (delId id (run ops).services) := fun c => by
      rw [hp.mem_iff, List.mem_append]
    have hout : ∀ c, Out.aborted c ∈ (run ops).out ++ (x.conns.map Out.aborted ++ [Out.ret .ok]) ↔
        Out.aborted c ∈ (run ops).out ∨ c ∈ x.conns := by
      intro c
      rw [List.mem_append, List.mem_append, List.mem_map]
      constructor
      · rintro (h1 | ⟨d, h1, h2⟩ | h1)
        · exact Or.inl h1
        · cases h2; exact Or.inr h1
        · cases List.mem_singleton.1 h1
      · rintro (h1 | h1)
        · exact Or.inl h1
        · exact Or.inr (Or.inl ⟨c, h1, rfl⟩)
    have hopen : ∀ c n t, Out.opened c n t ∈ (run ops).out ++ (x.conns.map Out.aborted ++ [Out.ret .ok]) ↔
        Out.opened c n t ∈ (run ops).out := by
      intro c n t
      rw [List.mem_append, List.mem_append, List.mem_map]
      constructor
      · rintro (h1 | ⟨d, h1, h2⟩ | h1)
        · exact h1
        · cases h2
        · cases List.mem_singleton.1 h1
      · exact Or.inl
    refine ⟨?_, fun c => ?_, fun c => ?_, fun c => ?_⟩
    · rw [run_snoc, hs]; exact (List.nodup_append.1 hnd).2.1
    · rw [run_snoc, hs, ended_snoc]
      show c ∈ conns (delId id (run ops).services) ↔ c < (run ops).opened ∧ _ ∧ Out.aborted c ∉ (run ops).out ++ (x.conns.map Out.aborted ++ [Out.ret .ok])
      rw [hout]
      constructor
      · intro hm
        obtain ⟨h1, h2, h3⟩ := (h.iff c).1 ((hmem c).2 (Or.inr hm))
        refine ⟨h1, fun h4 => h2 (h4.resolve_right fun h5 => nomatch h5.1), ?_⟩
        rintro (h4 | h4)
        · exact h3 h4
        · exact hdis c h4 hm
      · rintro ⟨h1, h2, h3⟩
        have := (h.iff c).2 ⟨h1, fun h4 => h2 (Or.inl h4), fun h4 => h3 (Or.inl h4)⟩
        exact ((hmem c).1 this).resolve_left fun h4 => h3 (Or.inr h4)
    · rw [run_snoc, hs]
      refine Iff.trans ?_ (h.told c)
      exact ⟨fun ⟨n, t, hm⟩ => ⟨n, t, (hopen c n t).1 hm⟩, fun ⟨n, t, hm⟩ => ⟨n, t, (hopen c n t).2 hm⟩⟩
    · rw [run_snoc, hs]
      intro hm
      rcases (hout c).1 hm with h1 | h1
      · exact h.gone c h1
      · exact ((h.iff c).1 ((hmem c).2 (Or.inl h1))).1
  | opens r q wp n x hl hq hx hf =>
    have hp := conns_modWp wp (run ops).opened _ x hx
    have hout : ∀ c, Out.aborted c ∈ (run ops).out ++ [Out.opened (run ops).opened n x.target] ↔
        Out.aborted c ∈ (run ops).out := by
      intro c
      rw [List.mem_append]
      constructor
      · rintro (h | h)
        · exact h
        · cases List.mem_singleton.1 h
      · exact Or.inl
    refine ⟨?_, fun c => ?_, fun c => ?_, fun c => ?_⟩
    · rw [run_snoc, hs]
      refine hp.nodup_iff.2 (List.nodup_cons.2 ⟨?_, h.nodup⟩)
      intro hm
      exact Nat.lt_irrefl _ ((h.iff _).1 hm).1
    · rw [run_snoc, hs, ended_snoc]
      show c ∈ conns (modWp wp (Svc.addConn (run ops).opened) (run ops).services) ↔ c < (run ops).opened + 1 ∧ _ ∧ Out.aborted c ∉ (run ops).out ++ [Out.opened (run ops).opened n x.target]
      rw [hout, hp.mem_iff, List.mem_cons, h.iff c]
      constructor
      · rintro (rfl | ⟨h1, h2, h3⟩)
        · refine ⟨Nat.lt_succ_self _, ?_, fun h4 => Nat.lt_irrefl _ (h.gone _ h4)⟩
          rintro (h4 | h4)
          · exact Nat.lt_irrefl _ (ended_lt h4)
          · cases h4.1
        · exact ⟨Nat.lt_succ_of_lt h1, fun h4 => h2 (h4.resolve_right fun h5 => nomatch h5.1), h3⟩
      · rintro ⟨h1, h2, h3⟩
        rcases Nat.lt_or_eq_of_le (Nat.le_of_lt_succ h1) with h4 | h4
        · exact Or.inr ⟨h4, fun h5 => h2 (Or.inl h5), h3⟩
        · exact Or.inl h4
    · rw [run_snoc, hs]
      show (∃ m t, Out.opened c m t ∈ (run ops).out ++ [Out.opened (run ops).opened n x.target]) ↔ c < (run ops).opened + 1
      constructor
      · rintro ⟨m, t, hm⟩
        rcases List.mem_append.1 hm with hm | hm
        · exact Nat.lt_succ_of_lt ((h.told c).1 ⟨m, t, hm⟩)
        · have := List.mem_singleton.1 hm
          cases this
          exact Nat.lt_succ_self _
      · intro hc
        rcases Nat.lt_or_eq_of_le (Nat.le_of_lt_succ hc) with h4 | h4
        · obtain ⟨m, t, hm⟩ := (h.told c).2 h4
          exact ⟨m, t, List.mem_append_left _ hm⟩
        · exact ⟨n, x.target, List.mem_append_right _ (by rw [h4]; exact List.mem_singleton.2 rfl)⟩
    · rw [run_snoc, hs]
      intro hm
      exact Nat.lt_succ_of_lt (h.gone c ((hout c).1 hm))
  | ends c =>
    refine ⟨?_, fun d => ?_, by rw [run_snoc, hs]; exact h.told, by rw [run_snoc, hs]; exact h.gone⟩
    · rw [run_snoc, hs]
      show (conns (List.map (Svc.delConn c) _)).Nodup
      rw [conns_ends]
      exact h.nodup.sublist List.filter_sublist
    · rw [run_snoc, hs, ended_snoc]
      show d ∈ conns (List.map (Svc.delConn c) _) ↔ d < (run ops).opened ∧ _ ∧ Out.aborted d ∉ (run ops).out
      rw [conns_ends, List.mem_filter, h.iff d]
      constructor
      · rintro ⟨⟨h1, h2, h3⟩, h4⟩
        refine ⟨h1, ?_, h3⟩
        rintro (h5 | ⟨h5, -⟩)
        · exact h2 h5
        · cases h5; simp at h4
      · rintro ⟨h1, h2, h3⟩
        refine ⟨⟨h1, fun h4 => h2 (Or.inl h4), h3⟩, ?_⟩
        have : d ≠ c := by rintro rfl; exact h2 (Or.inr ⟨rfl, h1⟩)
        simpa using this

theorem run_cinv (ops : List Op) : CInv ops := by
  refine run_ind (P := CInv) ?_ cinv_step ops
  refine ⟨List.nodup_nil, fun c => ?_, fun c => ?_, fun c h => nomatch h⟩
  · exact Iff.intro (fun h => by cases h) (fun h => absurd h.1 (Nat.not_lt_zero _))
  · exact ⟨fun ⟨_, _, h⟩ => (by cases h), fun h => absurd h (Nat.not_lt_zero _)⟩

end Verif.Tunnel.Manager
