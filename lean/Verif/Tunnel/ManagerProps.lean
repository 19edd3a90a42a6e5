import Verif.Tunnel.ManagerRun

/-!
# Services of TCP tunnels — properties C48, C85 and C86
-/

namespace Verif.Tunnel.Manager

open Spec

/-! ### C48: access and limits -/

theorem wp_inj {a b : Nat} (ha : a + 2 < 2 ^ 64) (hb : b + 2 < 2 ^ 64) (h : UInt64.ofNat (a + 2) = UInt64.ofNat (b + 2)) :
    a = b := by
  have := congrArg UInt64.toNat h
  rw [UInt64.toNat_ofNat_of_lt' ha, UInt64.toNat_ofNat_of_lt' hb] at this
  omega

/-- **C48**: a tunnel is opened only when a check allows it; the check was made when the stream arrived at a service, with
the id and the type of this service; this very service still exists, the tunnel goes to its target, and no limit of its
type is reached. The services ever created are fewer than 2⁶⁴ - 2, so that their weak pointers differ. -/
theorem C48_opened (ops : List Op) (op : Op) (c n tgt : Nat) (hc : (run ops).created + 2 < 2 ^ 64)
    (h : Out.opened c n tgt ∈ told ops op) :
    ∃ r x, op = .verdict r true true ∧ Has ops x ∧ AskedFor ops r n x ∧ tgt = x.target ∧
      ∀ l, (run ops).limits x.type = some l → count (run ops) x.type < l := by
  have he := step_eff (run ops) op
  generalize hs : step (run ops) op = s' at he
  have tell : ∀ os, s'.out = (run ops).out ++ os → Out.opened c n tgt ∈ os := fun os ho => by
    rw [told_of (by rw [hs]; exact ho)] at h; exact h
  have no : ∀ o, s'.out = (run ops).out ++ [o] → Plain o → False := fun o ho hp => by
    have := tell [o] ho
    rw [← List.mem_singleton.1 this] at hp
    exact hp
  cases he with
  | nothing => cases tell [] (List.append_nil _).symm
  | says op o hp => exact (no o rfl hp).elim
  | lost => exact (no _ rfl trivial).elim
  | added => exact (no _ rfl trivial).elim
  | removed id x hx =>
    rcases List.mem_append.1 (tell _ rfl) with h1 | h1
    · obtain ⟨d, -, e⟩ := List.mem_map.1 h1; cases e
    · cases List.mem_singleton.1 h1
  | limited => exact (no _ rfl trivial).elim
  | changes => exact (no _ rfl trivial).elim
  | asks => cases List.mem_singleton.1 (tell _ rfl)
  | drops => cases List.mem_singleton.1 (tell _ rfl)
  | asksList => cases List.mem_singleton.1 (tell _ rfl)
  | asksGet => cases List.mem_singleton.1 (tell _ rfl)
  | refuses => cases List.mem_singleton.1 (tell _ rfl)
  | answers r allow mem q o hl hp hq => exact (no _ rfl hp).elim
  | lists => cases List.mem_singleton.1 (tell _ rfl)
  | shows => cases List.mem_singleton.1 (tell _ rfl)
  | ends => cases tell [] (List.append_nil _).symm
  | opens r q wp m x hl hq hx hf =>
    cases List.mem_singleton.1 (tell _ rfl)
    obtain ⟨hxm, hxw⟩ := findWp_some hx
    have hinv := run_sinv ops
    have ha := run_asked ops (r, q) (lookup_mem hl)
    unfold Asked at ha
    rw [hq] at ha
    obtain ⟨h1, h2, b, a, port, y, e, hy, hys, hyp, hn, ht⟩ := ha
    have h1 : q.serial < (run ops).created := h1
    have hys : y.serial = q.serial := hys
    have hxs : x.serial = q.serial := by
      have h3 := hinv.old x hxm
      refine wp_inj (by omega) (by omega) ?_
      rw [← hinv.wp x hxm, hxw, h2]
    have hyo : y.serial < (run b).created := (run_sinv b).old y hy
    have hxm' := hxm
    rw [e, run_append] at hxm'
    obtain ⟨z, hz, hsame⟩ := foldl_old _ _ hxm' (by omega)
    have hzy : z = y := serial_inj (run_sinv b).sorted hz hy (by rw [← hsame.1, hxs, hys])
    subst hzy
    refine ⟨r, x, rfl, hxm, ⟨b, a, port, z, e, hy, hsame, hyp, hn, ?_⟩, rfl, ?_⟩
    · rw [ht, hsame.2.1, hsame.2.2.1]
    · intro l hlim
      rw [St.full, hlim] at hf
      have : ¬ l ≤ byType x.type (run ops).services := by simpa using hf
      rw [count, ← byType_eq]
      omega

/-- **C48**: from the moment a limit is set for a type until it is set again, there are never more connections of the type
than the limit, or than there were at that moment if these were more. -/
theorem C48_limit (ops more : List Op) (t : String) (l : Nat) (hl : l ≤ intMax)
    (hm : ∀ op ∈ more, ∀ l' m, op ≠ .setLimit t l' m) :
    count (run (ops ++ .setLimit t l true :: more)) t ≤ max l (count (run ops) t) := by
  rw [run_append, List.foldl_cons, count, count, ← byType_eq, ← byType_eq]
  have hlim : (step (run ops) (.setLimit t l true)).limits t = some l := by
    show (St.setLimit (run ops) t l true).limits t = some l
    unfold St.setLimit
    dsimp only
    rw [if_neg (Nat.not_lt.2 hl)]
    exact if_pos rfl
  have hsv : (step (run ops) (.setLimit t l true)).services = (run ops).services := by
    show (St.setLimit (run ops) t l true).services = _
    unfold St.setLimit
    dsimp only
    rw [if_neg (Nat.not_lt.2 hl)]
    rfl
  exact limit_foldl more _ t l _ hlim (Nat.le_max_left ..) (by rw [hsv]; exact Nat.le_max_right ..) hm

/-- **C48**: every stream which has arrived at a service has one tunnel, or was closed once, or one check waits for it;
nothing happens for a stream which has not arrived. -/
theorem C48_stream_fate (ops : List Op) (n : Nat) :
    fates (run ops) n + waiting (run ops) n = if n < (run ops).streams then 1 else 0 :=
  (run_finv ops).once n

/-- **C48**: the connections which count are exactly those which were opened, have not ended, and were not aborted with
their service; each counts once. -/
theorem C48_conns_exact (ops : List Op) (c : Nat) :
    ((∃ x, Has ops x ∧ c ∈ x.conns) ↔
      (∃ n t, Out.opened c n t ∈ (run ops).out) ∧ ¬ Ended ops c ∧ Out.aborted c ∉ (run ops).out) ∧
    ((run ops).services.flatMap Svc.conns).Nodup := by
  have h := run_cinv ops
  refine ⟨?_, h.nodup⟩
  rw [h.told c, ← h.iff c]
  exact List.mem_flatMap.symm

/-- Two services, a limit of one tunnel for the type "ssh", two streams: the first gets a tunnel, the second is refused;
then the tunnel ends and a third stream gets one. -/
def demo : List Op :=
  [.addService "a" "ssh" 22 true true (some 10), .addService "b" "ssh" 2222 true true (some 11), .setLimit "ssh" 1 true,
   .incoming 10 true, .incoming 11 true, .verdict 0 true true, .verdict 1 true true, .connEnds 0, .incoming 11 true]

example : (run demo).created + 2 < 2 ^ 64 ∧ Out.opened 1 2 2222 ∈ told demo (.verdict 2 true true) := by
  constructor
  · show 2 + 2 < 2 ^ 64
    omega
  · show Out.opened 1 2 2222 ∈ [Out.opened 1 2 2222]
    exact List.mem_singleton.2 rfl

example : told (demo.take 6) (.verdict 1 true true) = [.destroyed 1] := by decide
example : (demo.drop 3).length = 6 ∧ ∀ op ∈ demo.drop 3, ∀ l' m, op ≠ Op.setLimit "ssh" l' m := by
  refine ⟨rfl, ?_⟩
  intro op hop l' m e
  subst e
  simp [demo] at hop
example : fates (run demo) 0 = 1 ∧ fates (run demo) 1 = 1 ∧ waiting (run demo) 2 = 1 := by decide
example : ∃ x, Has (demo.take 6) x ∧ 0 ∈ x.conns := ⟨_, List.mem_cons_self .., by decide⟩

/-- **C48** is violated: a call which sets a limit and fails for lack of memory has removed the limit which was there. Here
the limit of one was in force; after the failing call three tunnels are open. -/
theorem C48_limit_oom_violated :
    ∃ ops, told (ops.take 2) (.setLimit "ssh" 2 false) = [.ret .outOfMemory] ∧
      ops.take 2 = [.addService "a" "ssh" 22 true true (some 10), .setLimit "ssh" 1 true] ∧
      ops.take 3 = ops.take 2 ++ [.setLimit "ssh" 2 false] ∧ count (run ops) "ssh" = 3 :=
  ⟨[.addService "a" "ssh" 22 true true (some 10), .setLimit "ssh" 1 true, .setLimit "ssh" 2 false,
    .incoming 10 true, .incoming 10 true, .incoming 10 true, .verdict 0 true true, .verdict 1 true true,
    .verdict 2 true true], by decide, rfl, rfl, by decide⟩

/-! ### C85: what clients are told about services -/

/-- **C85** (in part): a client gets the description of a service only after a check for the id of this service has
allowed it. If no service with this id was removed since the check was made, the check was made with the type of the
service which is described. (Missing: this when the service was replaced, see `C85_replaced_violated`.) -/
theorem C85_disclosed_partial (ops : List Op) (op : Op) (i ty : String) (tg : Nat) (p : UInt32)
    (md : List (String × String)) (h : Out.service i ty tg p md ∈ told ops op) :
    ∃ r before connect after ty', op = .verdict r true true ∧ ops = before ++ Op.coapGet i connect true :: after ∧
      told before (.coapGet i connect true) = [.check r (if connect then .connect else .getService) (some (i, ty'))] ∧
      (Op.removeService i ∉ after → ty' = ty) ∧
      ∃ x, Has ops x ∧ x.id = i ∧ x.type = ty ∧ x.target = tg ∧ x.streamPort = p ∧ x.metadata = md := by
  have he := step_eff (run ops) op
  generalize hs : step (run ops) op = s' at he
  have tell : ∀ os, s'.out = (run ops).out ++ os → Out.service i ty tg p md ∈ os := fun os ho => by
    rw [told_of (by rw [hs]; exact ho)] at h; exact h
  have no : ∀ o, s'.out = (run ops).out ++ [o] → Plain o → False := fun o ho hp => by
    have := tell [o] ho
    rw [← List.mem_singleton.1 this] at hp
    exact hp
  cases he with
  | nothing => cases tell [] (List.append_nil _).symm
  | says op o hp => exact (no o rfl hp).elim
  | lost => exact (no _ rfl trivial).elim
  | added => exact (no _ rfl trivial).elim
  | removed id x hx =>
    rcases List.mem_append.1 (tell _ rfl) with h1 | h1
    · obtain ⟨d, -, e⟩ := List.mem_map.1 h1; cases e
    · cases List.mem_singleton.1 h1
  | limited => exact (no _ rfl trivial).elim
  | changes => exact (no _ rfl trivial).elim
  | asks => cases List.mem_singleton.1 (tell _ rfl)
  | drops => cases List.mem_singleton.1 (tell _ rfl)
  | asksList => cases List.mem_singleton.1 (tell _ rfl)
  | asksGet => cases List.mem_singleton.1 (tell _ rfl)
  | refuses => cases List.mem_singleton.1 (tell _ rfl)
  | answers r allow mem q o hl hp hq => exact (no _ rfl hp).elim
  | lists => cases List.mem_singleton.1 (tell _ rfl)
  | opens => cases List.mem_singleton.1 (tell _ rfl)
  | ends => cases tell [] (List.append_nil _).symm
  | shows r q id x hl hq hx =>
    cases List.mem_singleton.1 (tell _ rfl)
    obtain ⟨hxm, hid⟩ := findId_some hx
    have ha := run_asked ops (r, q) (lookup_mem hl)
    unfold Asked at ha
    rw [hq] at ha
    obtain ⟨-, b, a, c, y, e, hy, -, ht⟩ := ha
    have hyi := (findId_some hy).2
    subst hid
    refine ⟨r, b, c, a, y.type, rfl, e, by rw [ht, hyi], fun hno => ?_, x, hxm, rfl, rfl, rfl, rfl, rfl⟩
    obtain ⟨z, hz, hsame⟩ := first_foldl (Op.coapGet x.id c true :: a) (run b) x.id
      (fun hm => (List.mem_cons.1 hm).elim (fun e => nomatch e) hno) hy
    rw [← run_append, ← e, hx] at hz
    cases hz
    exact hsame.2.2.1.symm

/-- **C85**: the list of services goes only to a client whom a check of the action for listing has allowed it, and it is
the ids of the services which exist then. -/
theorem C85_list (ops : List Op) (op : Op) (ids : List String) (h : Out.services ids ∈ told ops op) :
    ∃ r before after, op = .verdict r true true ∧ ops = before ++ Op.coapList true :: after ∧
      told before (.coapList true) = [.check r .listServices none] ∧ ids = (run ops).services.map Svc.id := by
  have he := step_eff (run ops) op
  generalize hs : step (run ops) op = s' at he
  have tell : ∀ os, s'.out = (run ops).out ++ os → Out.services ids ∈ os := fun os ho => by
    rw [told_of (by rw [hs]; exact ho)] at h; exact h
  have no : ∀ o, s'.out = (run ops).out ++ [o] → Plain o → False := fun o ho hp => by
    have := tell [o] ho
    rw [← List.mem_singleton.1 this] at hp
    exact hp
  cases he with
  | nothing => cases tell [] (List.append_nil _).symm
  | says op o hp => exact (no o rfl hp).elim
  | lost => exact (no _ rfl trivial).elim
  | added => exact (no _ rfl trivial).elim
  | removed id x hx =>
    rcases List.mem_append.1 (tell _ rfl) with h1 | h1
    · obtain ⟨d, -, e⟩ := List.mem_map.1 h1; cases e
    · cases List.mem_singleton.1 h1
  | limited => exact (no _ rfl trivial).elim
  | changes => exact (no _ rfl trivial).elim
  | asks => cases List.mem_singleton.1 (tell _ rfl)
  | drops => cases List.mem_singleton.1 (tell _ rfl)
  | asksList => cases List.mem_singleton.1 (tell _ rfl)
  | asksGet => cases List.mem_singleton.1 (tell _ rfl)
  | refuses => cases List.mem_singleton.1 (tell _ rfl)
  | answers r allow mem q o hl hp hq => exact (no _ rfl hp).elim
  | opens => cases List.mem_singleton.1 (tell _ rfl)
  | shows => cases List.mem_singleton.1 (tell _ rfl)
  | ends => cases tell [] (List.append_nil _).symm
  | lists r q hl hq =>
    cases List.mem_singleton.1 (tell _ rfl)
    have ha := run_asked ops (r, q) (lookup_mem hl)
    unfold Asked at ha
    rw [hq] at ha
    obtain ⟨b, a, e, ht⟩ := ha
    exact ⟨r, b, a, rfl, e, ht, rfl⟩

example : told (demo.take 2 ++ [.addMeta "b" "k" "v" true, .coapGet "b" false true]) (.verdict 0 true true) =
    [.service "b" "ssh" 2222 11 [("k", "v")]] := by decide
example : told (demo.take 2 ++ [.coapList true]) (.verdict 0 true true) = [.services ["a", "b"]] := by decide
example : told (demo.take 2 ++ [.coapList true]) (.verdict 0 false true) = [.error 403] := by decide

/-- **C85** is violated: the service "a" of type "open" is replaced by a service "a" of type "secret" while the check for
it waits. The client, who was allowed services of type "open", gets the target of the other one; no check was ever made
for the type "secret". -/
theorem C85_replaced_violated :
    ∃ ops, told ops (.verdict 0 true true) = [.service "a" "secret" 2222 11 []] ∧
      (∀ r a i, Out.check r a (some (i, "secret")) ∉ (run ops).out) ∧
      Out.check 0 .getService (some ("a", "open")) ∈ (run ops).out := by
  refine ⟨[.addService "a" "open" 22 true true (some 10), .coapGet "a" false true, .removeService "a",
    .addService "a" "secret" 2222 true true (some 11)], by decide, ?_, by decide⟩
  intro r a i h
  have e : (run [.addService "a" "open" 22 true true (some 10), .coapGet "a" false true, .removeService "a",
    .addService "a" "secret" 2222 true true (some 11)]).out =
    [.ret .ok, .check 0 .getService (some ("a", "open")), .ret .ok, .ret .ok] := by decide
  rw [e] at h
  simp at h

/-! ### C86: what the results of the functions mean -/

/-- **C86**: adding a service which succeeds adds exactly this service, without connections and metadata; adding one which
fails leaves all services as they were. -/
theorem C86_add (ops : List Op) (id type : String) (target : Nat) (mem mem' : Bool) (port : Option UInt32) :
    (told ops (.addService id type target mem mem' port) = [.ret .ok] ∧
      ∃ x, (run (ops ++ [.addService id type target mem mem' port])).services = (run ops).services ++ [x] ∧
        x.id = id ∧ x.type = type ∧ x.target = target ∧ x.metadata = [] ∧ x.conns = [] ∧
        ∀ y ∈ (run ops).services, y.streamPort ≠ x.streamPort) ∨
    (∃ e, e ≠ .ok ∧ told ops (.addService id type target mem mem' port) = [.ret e] ∧
      (run (ops ++ [.addService id type target mem mem' port])).services = (run ops).services) := by
  have hfree : ∀ (p : UInt32) (xs : List Svc), (findPort p xs).isSome = false → ∀ y ∈ xs, y.streamPort ≠ p := by
    intro p xs
    induction xs with
    | nil => intro _ y hy; cases hy
    | cons x xs ih =>
      intro h y hy
      rw [findPort] at h
      split at h
      · cases h
      · rename_i hne
        rcases List.mem_cons.1 hy with rfl | hy
        · exact hne
        · exact ih h y hy
  rw [run_snoc]
  have key : ∀ e os, (step (run ops) (.addService id type target mem mem' port)).out = (run ops).out ++ os → os = [Out.ret e] →
      told ops (.addService id type target mem mem' port) = [.ret e] := fun e os h h' => by rw [told_of h, h']
  cases mem with
  | false => exact Or.inr ⟨.outOfMemory, by decide, key _ _ rfl rfl, rfl⟩
  | true =>
    cases mem' with
    | false => exact Or.inr ⟨.outOfMemory, by decide, key _ _ rfl rfl, rfl⟩
    | true =>
      cases port with
      | none => exact Or.inr ⟨.failed, by decide, key _ _ rfl rfl, rfl⟩
      | some p =>
        cases hp : (findPort p (run ops).services).isSome with
        | true =>
          have hf : (run ops).freePort (some p) = none := by
            show (if (findPort p (run ops).services).isSome then none else some p) = none
            rw [if_pos hp]
          have hs : step (run ops) (.addService id type target true true (some p)) =
              (run ops).addService id type target true true none := by
            show (run ops).addService id type target true true ((run ops).freePort (some p)) = _
            rw [hf]
          exact Or.inr ⟨.failed, by decide, key _ _ (by rw [hs]; rfl) rfl, by rw [hs]; rfl⟩
        | false =>
          have hf : (run ops).freePort (some p) = some p := by
            show (if (findPort p (run ops).services).isSome then none else some p) = some p
            rw [if_neg (Bool.eq_false_iff.1 hp)]
          have hs : step (run ops) (.addService id type target true true (some p)) =
              (run ops).addService id type target true true (some p) := by
            show (run ops).addService id type target true true ((run ops).freePort (some p)) = _
            rw [hf]
          refine Or.inl ⟨key _ _ (by rw [hs]; rfl) rfl, _, by rw [hs]; rfl, rfl, rfl, rfl, rfl, rfl, ?_⟩
          exact hfree p _ hp

/-- **C86** (in part): removing a service which succeeds has aborted its connections, and if no two services had the same
id, there is no service with this id afterwards; all others are there as before. It fails exactly when there is none.
(Missing: services with the same id, see `C86_remove_violated`.) -/
theorem C86_remove_partial (ops : List Op) (id : String) (hu : ((run ops).services.map Svc.id).Nodup) :
    ((∃ x, Has ops x ∧ x.id = id ∧ told ops (.removeService id) = x.conns.map Out.aborted ++ [Out.ret .ok]) ∨
      ((∀ x, Has ops x → x.id ≠ id) ∧ told ops (.removeService id) = [.ret .notFound])) ∧
    (∀ x, Has (ops ++ [.removeService id]) x ↔ Has ops x ∧ x.id ≠ id) := by
  have hd : ∀ xs : List Svc, (xs.map Svc.id).Nodup → ∀ x, x ∈ delId id xs ↔ x ∈ xs ∧ x.id ≠ id := by
    intro xs
    induction xs with
    | nil => intro _ x; exact Iff.intro (fun h => by cases h) (fun h => by cases h.1)
    | cons a xs ih =>
      intro hn x
      rw [List.map_cons, List.nodup_cons] at hn
      rw [delId]
      by_cases ha : a.id = id
      · rw [if_pos ha]
        constructor
        · intro hx
          exact ⟨List.mem_cons_of_mem _ hx, fun e => hn.1 (by rw [ha, ← e]; exact List.mem_map_of_mem hx)⟩
        · rintro ⟨hx, hne⟩
          rcases List.mem_cons.1 hx with rfl | hx
          · exact (hne ha).elim
          · exact hx
      · rw [if_neg ha, List.mem_cons, List.mem_cons, ih hn.2 x]
        constructor
        · rintro (rfl | ⟨h1, h2⟩)
          · exact ⟨Or.inl rfl, ha⟩
          · exact ⟨Or.inr h1, h2⟩
        · rintro ⟨rfl | h1, h2⟩
          · exact Or.inl rfl
          · exact Or.inr ⟨h1, h2⟩
  have hrun := run_snoc ops (.removeService id)
  cases hf : findId id (run ops).services with
  | none =>
    have hs : step (run ops) (.removeService id) = (run ops).tell [.ret .notFound] := by
      show (run ops).removeService id = _
      unfold St.removeService
      rw [hf]
    have hno := findId_none hf
    refine ⟨Or.inr ⟨hno, told_of (by rw [hs]; rfl)⟩, fun x => ?_⟩
    unfold Has
    rw [hrun, hs]
    exact ⟨fun h => ⟨h, hno x h⟩, fun h => h.1⟩
  | some y =>
    have hs : step (run ops) (.removeService id) =
        { run ops with services := delId id (run ops).services }.tell (y.conns.map Out.aborted ++ [Out.ret .ok]) := by
      show (run ops).removeService id = _
      unfold St.removeService
      rw [hf]
    obtain ⟨hy, hyi⟩ := findId_some hf
    refine ⟨Or.inl ⟨y, hy, hyi, told_of (by rw [hs]; rfl)⟩, fun x => ?_⟩
    unfold Has
    rw [hrun, hs]
    exact hd _ hu x

/-- What clients see of the metadata of a service. -/
def Svc.value (x : Svc) (key : String) : Option String := x.metadata.lookup key

theorem lookup_erased (key : String) (l : List (String × String)) (rest : List (String × String)) :
    (l.filter (fun p => p.1 ≠ key) ++ rest).lookup key = rest.lookup key := by
  induction l with
  | nil => rfl
  | cons a l ih =>
    obtain ⟨k, v⟩ := a
    by_cases hk : k = key
    · rw [List.filter_cons_of_neg (by simpa using hk)]; exact ih
    · rw [List.filter_cons_of_pos (by simpa using hk), List.cons_append, List.lookup_cons]
      have : (key == k) = false := beq_eq_false_iff_ne.2 fun e => hk e.symm
      rw [this]; exact ih

theorem lookup_other (key key' : String) (h : key' ≠ key) (l rest : List (String × String)) (hr : rest.lookup key' = none) :
    (l.filter (fun p => p.1 ≠ key) ++ rest).lookup key' = l.lookup key' := by
  induction l with
  | nil => exact hr
  | cons a l ih =>
    obtain ⟨k, v⟩ := a
    by_cases hk : k = key
    · rw [List.filter_cons_of_neg (by simpa using hk), List.lookup_cons]
      have : (key' == k) = false := beq_eq_false_iff_ne.2 fun e => h (e.trans hk)
      rw [this]; exact ih
    · rw [List.filter_cons_of_pos (by simpa using hk), List.cons_append, List.lookup_cons, List.lookup_cons, ih]

theorem findId_modId (id : String) (f : Svc → Svc) (hf : ∀ x, (f x).id = x.id) {xs : List Svc} {x : Svc}
    (h : findId id xs = some x) : findId id (modId id f xs) = some (f x) := by
  induction xs with
  | nil => cases h
  | cons a xs ih =>
    rw [findId] at h
    rw [modId]
    by_cases ha : a.id = id
    · rw [if_pos ha] at h ⊢
      cases h
      rw [findId, if_pos ((hf _).trans ha)]
    · rw [if_neg ha] at h ⊢
      rw [findId, if_neg ha]
      exact ih h

/-- **C86** (in part): adding metadata to a service succeeds exactly when the service exists, and if there is memory, the
service has the value afterwards, and its other metadata as before. (Missing: what happens without memory, see
`C86_metadata_violated`.) -/
theorem C86_metadata_partial (ops : List Op) (id key value : String) :
    (∃ x y, findId id (run ops).services = some x ∧ told ops (.addMeta id key value true) = [.ret .ok] ∧
      findId id (run (ops ++ [.addMeta id key value true])).services = some y ∧ Same x y ∧
      y.value key = some value ∧ ∀ k, k ≠ key → y.value k = x.value k) ∨
    ((∀ x, Has ops x → x.id ≠ id) ∧ told ops (.addMeta id key value true) = [.ret .notFound] ∧
      (run (ops ++ [.addMeta id key value true])).services = (run ops).services) := by
  rw [run_snoc]
  cases hf : findId id (run ops).services with
  | none =>
    have hs : step (run ops) (.addMeta id key value true) = (run ops).tell [.ret .notFound] := by
      show (run ops).addMeta id key value true = _
      unfold St.addMeta
      rw [hf]
    exact Or.inr ⟨findId_none hf, told_of (by rw [hs]; rfl), by rw [hs]; rfl⟩
  | some x =>
    have hs : step (run ops) (.addMeta id key value true) =
        { run ops with services := modId id (fun x => (x.eraseMeta key).insertMeta key value) (run ops).services }.tell
          [.ret .ok] := by
      show (run ops).addMeta id key value true = _
      unfold St.addMeta
      rw [hf]
      rfl
    refine Or.inl ⟨x, (x.eraseMeta key).insertMeta key value, rfl, told_of (by rw [hs]; rfl), ?_,
      ⟨rfl, rfl, rfl, rfl, rfl⟩, ?_, fun k hk => ?_⟩
    · rw [hs]
      exact findId_modId id (fun x => (x.eraseMeta key).insertMeta key value) (fun _ => rfl) hf
    · show (x.metadata.filter (fun p => p.1 ≠ key) ++ [(key, value)]).lookup key = some value
      rw [lookup_erased, List.lookup_cons, beq_self_eq_true]
    · show (x.metadata.filter (fun p => p.1 ≠ key) ++ [(key, value)]).lookup k = x.metadata.lookup k
      refine lookup_other key k hk _ _ ?_
      rw [List.lookup_cons, beq_eq_false_iff_ne.2 hk]
      rfl

/-- **C86**: removing metadata succeeds exactly when the service exists; the service has no value for the key then, and its
other metadata as before. -/
theorem C86_remove_metadata (ops : List Op) (id key : String) :
    (∃ x y, findId id (run ops).services = some x ∧ told ops (.removeMeta id key) = [.ret .ok] ∧
      findId id (run (ops ++ [.removeMeta id key])).services = some y ∧ Same x y ∧
      y.value key = none ∧ ∀ k, k ≠ key → y.value k = x.value k) ∨
    ((∀ x, Has ops x → x.id ≠ id) ∧ told ops (.removeMeta id key) = [.ret .notFound] ∧
      (run (ops ++ [.removeMeta id key])).services = (run ops).services) := by
  rw [run_snoc]
  cases hf : findId id (run ops).services with
  | none =>
    have hs : step (run ops) (.removeMeta id key) = (run ops).tell [.ret .notFound] := by
      show (run ops).removeMeta id key = _
      unfold St.removeMeta
      rw [hf]
    exact Or.inr ⟨findId_none hf, told_of (by rw [hs]; rfl), by rw [hs]; rfl⟩
  | some x =>
    have hs : step (run ops) (.removeMeta id key) =
        { run ops with services := modId id (fun x => x.eraseMeta key) (run ops).services }.tell [.ret .ok] := by
      show (run ops).removeMeta id key = _
      unfold St.removeMeta
      rw [hf]
    refine Or.inl ⟨x, x.eraseMeta key, rfl, told_of (by rw [hs]; rfl), ?_, ⟨rfl, rfl, rfl, rfl, rfl⟩, ?_, fun k hk => ?_⟩
    · rw [hs]
      exact findId_modId id (fun x => x.eraseMeta key) (fun _ => rfl) hf
    · show (x.metadata.filter (fun p => p.1 ≠ key)).lookup key = none
      rw [← List.append_nil (x.metadata.filter _), lookup_erased]
      rfl
    · show (x.metadata.filter (fun p => p.1 ≠ key)).lookup k = x.metadata.lookup k
      rw [← List.append_nil (x.metadata.filter _)]
      exact lookup_other key k hk _ _ rfl

example : ((run (demo.take 2)).services.map Svc.id).Nodup := by decide
example : told (demo.take 6) (.removeService "a") = [.aborted 0, .ret .ok] := by decide

/-- **C86** is violated: metadata is added, the function returns success, but the value is not there, and the value which
was there is gone (the result of the insertion into the map is not looked at). -/
theorem C86_metadata_violated :
    ∃ ops x y, findId "a" (run ops).services = some x ∧ x.value "k" = some "old" ∧
      told ops (.addMeta "a" "k" "new" false) = [.ret .ok] ∧
      findId "a" (run (ops ++ [.addMeta "a" "k" "new" false])).services = some y ∧ y.value "k" = none :=
  ⟨[.addService "a" "ssh" 22 true true (some 10), .addMeta "a" "k" "old" true], ⟨0, 2, "a", "ssh", 22, 10, [("k", "old")], []⟩,
    ⟨0, 2, "a", "ssh", 22, 10, [], []⟩, by decide, by decide, by decide, by decide, by decide⟩

/-- **C86** is violated: two services can be added with the same id. Removing the service succeeds, but a service with the
id still exists, and a client can still open a tunnel to it. -/
theorem C86_remove_violated :
    ∃ ops, told ops (.removeService "a") = [.ret .ok] ∧
      (∃ x, Has (ops ++ [.removeService "a"]) x ∧ x.id = "a") ∧
      told (ops ++ [.removeService "a", .incoming 11 true]) (.verdict 0 true true) = [.opened 0 0 23] :=
  ⟨[.addService "a" "ssh" 22 true true (some 10), .addService "a" "ssh" 23 true true (some 11)], by decide,
    ⟨_, List.mem_cons_self .., by decide⟩, by decide⟩

/-- **C86** is violated: a service which cannot be added costs memory which is never given back. -/
theorem C86_leak_violated :
    ∃ op, told [] op = [.ret .outOfMemory] ∧ (run [op]).services = [] ∧ (run [op]).leaked = 1 :=
  ⟨.addService "a" "ssh" 22 true false none, by decide, rfl, rfl⟩

end Verif.Tunnel.Manager
