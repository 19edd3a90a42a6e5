import Verif.Api.CoapRequestSpec
import Verif.Iam.RecordLemmas

/-! # CoAP requests on their way to the application: lemmas -/

namespace Verif.Api.CoapRequest
open Verif.Iam.Record Verif.Iam.Record.Spec Verif.Api.CoapRequest.Spec

section
variable {ok : Nat → Bool} {m m' : Mem} {a r : List Nat}

theorem H.lose {x : List Nat} (h : H ok m (x ++ a) r) : H ok m a (x ++ r) := by
  refine ⟨⟨h.holds.perm.trans ?_, h.holds.nodup, h.holds.old, h.holds.clean⟩, h.oracle⟩
  refine List.perm_iff_count.mpr fun y => ?_
  simp only [List.count_append]
  omega

theorem tryResolve_mem (s : St) : (tryResolve s).mem = s.mem := by
  unfold tryResolve; split
  · split <;> rfl
  · rfl

theorem tryResolve_crashed (s : St) : (tryResolve s).crashed = s.crashed := by
  unfold tryResolve; split
  · split <;> rfl
  · rfl

theorem tryResolve_told (s : St) : (tryResolve s).told = s.told := by
  unfold tryResolve; split
  · split <;> rfl
  · rfl

theorem tryResolve_held (s : St) (x : Nat) : (held (tryResolve s)).count x = (held s).count x := by
  unfold tryResolve; split
  · split
    · rfl
    · rename_i r q e
      simp only [held, e, List.flatMap_cons, List.flatMap_append, List.flatMap_nil, List.append_nil, List.count_append]
      omega
  · rfl

theorem tryResolve_order (s : St) : (tryResolve s).handed ++ (tryResolve s).queue.map Req.id = s.handed ++ s.queue.map Req.id := by
  unfold tryResolve; split
  · split
    · rfl
    · rename_i r q e
      simp [e]
  · rfl

/-- The loop of `stop`. -/
theorem turnAway_spec (q : List Req) (s : St) (a r : List Nat) (h : H ok s.mem (q.flatMap ofReq ++ a) r) :
    ∃ l, l.length = 2 * q.length ∧ H ok (q.foldl turnAway s).mem a (l ++ r) ∧
      (q.foldl turnAway s).given = s.given ∧ (q.foldl turnAway s).handed = s.handed ∧ (q.foldl turnAway s).crashed = s.crashed ∧
      (q.foldl turnAway s).told = s.told ++ q.map (fun r => (r.id, .unavailable)) := by
  induction q generalizing s r with
  | nil => exact ⟨[], rfl, h, rfl, rfl, rfl, by simp⟩
  | cons p q ih =>
    have h1 : H ok (turnAway s p).mem (q.flatMap ofReq ++ a) ([p.lib, p.wrap] ++ r) := by
      refine H.lose (x := [p.lib, p.wrap]) ?_
      refine free_mine ?_
      simpa [ofReq, List.append_assoc] using h
    obtain ⟨l, h2, h3, h4, h5, h6, h7⟩ := ih _ _ h1
    refine ⟨l ++ [p.lib, p.wrap], by simp [h2]; omega, by simpa [List.append_assoc] using h3, h4, h5, h6, ?_⟩
    rw [List.foldl_cons, h7]
    simp [turnAway]

theorem alloc_ok (m : Mem) (h : m.ok m.asked = true) :
    alloc m = (some m.asked, { m with asked := m.asked + 1, live := m.asked :: m.live }) := by simp [alloc, h]

theorem alloc_no (m : Mem) (h : m.ok m.asked = false) : alloc m = (none, { m with asked := m.asked + 1 }) := by simp [alloc, h]

theorem count_erase (l : List Req) (k : Nat) (p : Req) (h : l[k]? = some p) (x : Nat) :
    (l.flatMap ofReq).count x = (ofReq p).count x + ((l.eraseIdx k).flatMap ofReq).count x := by
  induction l generalizing k with
  | nil => simp at h
  | cons q l ih =>
    cases k with
    | zero =>
      simp only [List.getElem?_cons_zero, Option.some.injEq] at h
      subst h
      simp [List.count_append]
    | succ k =>
      simp only [List.getElem?_cons_succ] at h
      simp only [List.flatMap_cons, List.eraseIdx_cons_succ, List.count_append, ih k h]
      omega

/-- What a step does to the memory. -/
theorem step_mem (s : St) (o : Op) (r : List Nat) (h : H ok s.mem (held s) r) (hc : (step s o).crashed = false) :
    ∃ l, l.length = (if s.crashed then 0 else lost s o) ∧ H ok (step s o).mem (held (step s o)) (l ++ r) := by
  unfold step at hc ⊢
  split at hc
  · rename_i hs; rw [hs] at hc; exact absurd hc (by decide)
  rename_i hs
  rw [if_neg hs, if_neg hs]
  cases o with
  | init b =>
    simp only [initListener] at hc ⊢
    split
    · rename_i hph
      cases h1 : s.mem.ok s.mem.asked
      · rw [alloc_no _ h1]
        dsimp only
        refine ⟨[], by cases b <;> simp [lost, h1], (alloc_none h (alloc_no _ h1)).1⟩
      · have a1 := alloc_some h (alloc_ok _ h1)
        rw [alloc_ok _ h1]
        dsimp only
        cases h2 : s.mem.ok (s.mem.asked + 1)
        · rw [alloc_no _ (by exact h2)]
          dsimp only
          refine ⟨[], by cases b <;> simp [lost, h2], ?_⟩
          exact free_mine (alloc_none a1 (alloc_no _ h2)).1
        · have a2 := alloc_some a1 (alloc_ok _ h2)
          rw [alloc_ok _ (by exact h2)]
          dsimp only
          cases b
          · simp only [Bool.false_eq_true, if_false]
            refine ⟨[s.mem.asked + 1], by simp [lost, hph, h1, h2], ?_⟩
            refine H.lose (x := [s.mem.asked + 1]) ?_
            refine free_mine (H.re a2 fun x => ?_)
            simp only [held, hph, List.count_cons, List.count_append, List.cons_append, List.nil_append]
            omega
          · refine ⟨[], rfl, H.re a2 fun x => ?_⟩
            simp only [held, hph, ofPhase, List.count_cons, List.count_append, List.count_nil, if_true]
            omega
    · rename_i hph
      exact ⟨[], by cases b <;> simp_all [lost], h⟩
  | arrive id =>
    simp only [arrive] at hc ⊢
    split
    · rename_i res nc hph
      simp only [hph] at hc
      refine ⟨[], rfl, ?_⟩
      cases h1 : s.mem.ok s.mem.asked
      · rw [alloc_no _ h1]
        dsimp only
        exact (alloc_none h (alloc_no _ h1)).1
      · have a1 := alloc_some h (alloc_ok _ h1)
        rw [alloc_ok _ h1] at hc ⊢
        dsimp only at hc ⊢
        cases h2 : s.mem.ok (s.mem.asked + 1)
        · rw [alloc_no _ (by exact h2)] at hc
          dsimp only at hc
          exact absurd hc (by simp)
        · have a2 := alloc_some a1 (alloc_ok _ h2)
          rw [alloc_ok _ (by exact h2)] at hc ⊢
          dsimp only at hc ⊢
          cases h3 : s.mem.ok (s.mem.asked + 1 + 1)
          · rw [alloc_no _ (by exact h3)]
            dsimp only
            refine free_mine (free_mine (H.re (alloc_none a2 (alloc_no _ h3)).1 fun x => ?_))
            simp only [held, List.count_cons, List.count_append]
            omega
          · have a3 := alloc_some a2 (alloc_ok _ h3)
            rw [alloc_ok _ (by exact h3)]
            dsimp only
            simp only [tryResolve_mem]
            refine H.re a3 fun x => ?_
            rw [tryResolve_held]
            simp only [held, List.flatMap_append, List.flatMap_cons, List.flatMap_nil, ofReq, List.count_cons, List.count_append, List.count_nil]
            omega
    · exact ⟨[], rfl, h⟩
  | listen =>
    simp only [listen]
    refine ⟨[], rfl, ?_⟩
    split
    · split
      · exact h
      · rw [tryResolve_mem]
        exact H.re h fun x => (tryResolve_held { s with waiting := true } x).symm
    · exact h
  | stop =>
    simp only [stop]
    split
    · rename_i res nc hph
      obtain ⟨l, h1, h2, h3, _, _, _⟩ := turnAway_spec s.queue s (s.given.flatMap ofReq ++ ofPhase s.phase) r h
      refine ⟨l, by simp [lost, hph, h1], ?_⟩
      refine free_mine (free_mine (H.re h2 fun x => ?_))
      simp only [held, hph, h3, ofPhase, List.flatMap_nil, List.count_append, List.count_cons, List.count_nil, List.nil_append]
      omega
    · rename_i hph
      exact ⟨[], by cases hp : s.phase <;> simp_all [lost], h⟩
  | release k =>
    simp only [release]
    refine ⟨[], rfl, ?_⟩
    split
    · exact h
    · rename_i p hp
      refine free_mine (free_mine (free_mine (H.re h fun x => ?_)))
      have := count_erase s.given k p hp x
      simp only [held, List.flatMap_cons, List.count_append, List.count_cons, ofReq, List.count_nil] at this ⊢
      omega

theorem crashed_stays (s : St) (ops : List Op) (h : s.crashed = true) : run s ops = s := by
  induction ops with
  | nil => rfl
  | cons o ops ih => simp only [run, List.foldl_cons, step, h, if_true]; exact ih

theorem run_mem (ops : List Op) (s : St) (r : List Nat) (h : H ok s.mem (held s) r) (hc : (run s ops).crashed = false) :
    ∃ l, l.length = lostIn s ops ∧ H ok (run s ops).mem (held (run s ops)) (l ++ r) := by
  induction ops generalizing s r with
  | nil => exact ⟨[], rfl, h⟩
  | cons o ops ih =>
    have hs : (step s o).crashed = false := by
      cases e : (step s o).crashed
      · rfl
      · have := crashed_stays (step s o) ops e
        rw [show run s (o :: ops) = run (step s o) ops from rfl, this, e] at hc
        exact hc
    obtain ⟨l1, a1, a2⟩ := step_mem s o r h hs
    obtain ⟨l2, b1, b2⟩ := ih (step s o) (l1 ++ r) a2 hc
    refine ⟨l2 ++ l1, ?_, by rw [List.append_assoc]; exact b2⟩
    rw [List.length_append, a1, b1, lostIn]
    omega

/-- Where the requests are. -/
structure Where (s : St) (cs : List Nat) : Prop where
  perm : cs.Perm (s.handed ++ s.queue.map Req.id ++ s.told.map Prod.fst)
  order : (s.handed ++ s.queue.map Req.id).Sublist cs

theorem foldl_turnAway (q : List Req) (s : St) :
    (q.foldl turnAway s).handed = s.handed ∧ (q.foldl turnAway s).crashed = s.crashed ∧
      (q.foldl turnAway s).told = s.told ++ q.map (fun r => (r.id, .unavailable)) ∧ (q.foldl turnAway s).mem.ok = s.mem.ok := by
  induction q generalizing s with
  | nil => exact ⟨rfl, rfl, by simp, rfl⟩
  | cons p q ih =>
    obtain ⟨h1, h2, h3, h4⟩ := ih (turnAway s p)
    refine ⟨h1, h2, by rw [List.foldl_cons, h3]; simp [turnAway], ?_⟩
    rw [List.foldl_cons, h4]
    simp only [turnAway, free]
    split <;> rfl

theorem Where.try {s : St} {cs : List Nat} (h : Where s cs) : Where (tryResolve s) cs :=
  ⟨by rw [tryResolve_order, tryResolve_told]; exact h.perm, by rw [tryResolve_order]; exact h.order⟩

theorem step_where (s : St) (o : Op) (cs : List Nat) (h : Where s cs) (hc : (step s o).crashed = false) :
    Where (step s o) (cs ++ (if s.crashed then [] else comes s o)) := by
  unfold step at hc ⊢
  split at hc
  · rename_i hs; rw [hs] at hc; exact absurd hc (by decide)
  rename_i hs
  rw [if_neg hs, if_neg hs]
  cases o with
  | init b =>
    simp only [initListener, comes, List.append_nil]
    split
    · split
      · exact ⟨h.perm, h.order⟩
      · split
        · exact ⟨h.perm, h.order⟩
        · split
          · exact ⟨h.perm, h.order⟩
          · exact ⟨h.perm, h.order⟩
    · exact h
  | arrive id =>
    simp only [arrive] at hc ⊢
    split
    · rename_i res nc hph
      simp only [hph] at hc
      rw [show comes s (.arrive id) = if s.mem.ok s.mem.asked then [id] else [] by simp [comes, hph]]
      cases h1 : s.mem.ok s.mem.asked
      · rw [alloc_no _ h1]
        dsimp only
        simp only [Bool.false_eq_true, if_false, List.append_nil]
        exact ⟨h.perm, h.order⟩
      · rw [alloc_ok _ h1] at hc ⊢
        dsimp only at hc ⊢
        simp only [if_true]
        cases h2 : s.mem.ok (s.mem.asked + 1)
        · rw [alloc_no _ (by exact h2)] at hc
          dsimp only at hc
          exact absurd hc (by simp)
        · rw [alloc_ok _ (by exact h2)] at hc ⊢
          dsimp only at hc ⊢
          cases h3 : s.mem.ok (s.mem.asked + 1 + 1)
          · rw [alloc_no _ (by exact h3)]
            dsimp only
            refine ⟨?_, h.order.trans (List.sublist_append_left _ _)⟩
            simp only [List.map_append, List.map_cons, List.map_nil, ← List.append_assoc]
            exact h.perm.append_right _
          · rw [alloc_ok _ (by exact h3)]
            dsimp only
            refine Where.try ⟨?_, ?_⟩
            · refine List.perm_iff_count.mpr fun x => ?_
              have := h.perm.count_eq x
              simp only [List.map_append, List.map_cons, List.map_nil, List.count_append, List.count_cons, List.count_nil] at this ⊢
              omega
            · simp only [List.map_append, List.map_cons, List.map_nil, ← List.append_assoc]
              exact h.order.append (List.Sublist.refl _)
    · rename_i hph
      rw [show comes s (.arrive id) = [] by cases hp : s.phase <;> simp_all [comes], List.append_nil]
      exact h
  | listen =>
    simp only [listen, comes, List.append_nil]
    split
    · split
      · exact h
      · exact Where.try ⟨h.perm, h.order⟩
    · exact h
  | stop =>
    simp only [stop, comes, List.append_nil]
    split
    · obtain ⟨h1, _, h3, _⟩ := foldl_turnAway s.queue s
      refine ⟨?_, ?_⟩
      · refine List.perm_iff_count.mpr fun x => ?_
        have := h.perm.count_eq x
        simp only [h1, h3, List.map_append, List.map_map, List.map_nil, List.count_append, List.count_nil] at this ⊢
        have e : (Prod.fst ∘ fun r : Req => (r.id, Answer.unavailable)) = Req.id := rfl
        rw [e]
        omega
      · simp only [h1, List.map_nil, List.append_nil]
        exact (List.sublist_append_left _ _).trans h.order
    · exact h
  | release k =>
    simp only [release, comes, List.append_nil]
    split
    · exact h
    · exact ⟨h.perm, h.order⟩

theorem run_where (ops : List Op) (s : St) (cs : List Nat) (h : Where s cs) (hc : (run s ops).crashed = false) :
    Where (run s ops) (cs ++ came s ops) := by
  induction ops generalizing s cs with
  | nil => simpa [came, run] using h
  | cons o ops ih =>
    have hs : (step s o).crashed = false := by
      cases e : (step s o).crashed
      · rfl
      · have := crashed_stays (step s o) ops e
        rw [show run s (o :: ops) = run (step s o) ops from rfl, this, e] at hc
        exact hc
    have := ih (step s o) _ (step_where s o cs h hs) hc
    rw [List.append_assoc] at this
    exact this

/-- Nobody waits while there is a request, and every request that was given was asked for. -/
structure Prompt (s : St) (n : Nat) : Prop where
  idle : s.waiting = true → s.queue = []
  asked : s.handed.length + (if s.waiting then 1 else 0) ≤ n

theorem Prompt.try {s : St} {n : Nat} (h : s.handed.length + (if s.waiting then 1 else 0) ≤ n) :
    Prompt (tryResolve s) n := by
  unfold tryResolve
  split
  · rename_i hw
    split
    · rename_i e; exact ⟨fun _ => e, h⟩
    · refine ⟨fun h => by simp at h, ?_⟩
      rw [hw] at h
      simpa using h
  · rename_i hw
    exact ⟨fun h => absurd h hw, h⟩

theorem Prompt.mono {s : St} {n m : Nat} (h : Prompt s n) (hm : n ≤ m) : Prompt s m := ⟨h.idle, Nat.le_trans h.asked hm⟩

theorem step_prompt (s : St) (o : Op) (n : Nat) (h : Prompt s n) : Prompt (step s o) (n + [o].count .listen) := by
  unfold step
  split
  · exact h.mono (Nat.le_add_right _ _)
  cases o with
  | init b =>
    refine Prompt.mono ?_ (Nat.le_add_right _ _)
    simp only [initListener]
    split
    · split
      · exact ⟨h.idle, h.asked⟩
      · split
        · exact ⟨h.idle, h.asked⟩
        · split
          · exact ⟨h.idle, h.asked⟩
          · exact ⟨h.idle, h.asked⟩
    · exact h
  | arrive id =>
    refine Prompt.mono ?_ (Nat.le_add_right _ _)
    simp only [arrive]
    split
    · split
      · exact ⟨h.idle, h.asked⟩
      · split
        · exact ⟨h.idle, h.asked⟩
        · split
          · exact ⟨h.idle, h.asked⟩
          · exact Prompt.try h.asked
    · exact h
  | listen =>
    simp only [listen]
    split
    · split
      · exact h.mono (Nat.le_add_right _ _)
      · rename_i hw
        have hl : s.handed.length ≤ n := by have := h.asked; omega
        refine Prompt.try ?_
        simpa using hl
    · exact h.mono (Nat.le_add_right _ _)
  | stop =>
    refine Prompt.mono ?_ (Nat.le_add_right _ _)
    simp only [stop]
    split
    · obtain ⟨h1, _, _, _⟩ := foldl_turnAway s.queue s
      refine ⟨fun _ => rfl, ?_⟩
      have := h.asked
      simp only [h1, Bool.false_eq_true, if_false]
      omega
    · exact h
  | release k =>
    refine Prompt.mono ?_ (Nat.le_add_right _ _)
    simp only [release]
    split
    · exact h
    · exact ⟨h.idle, h.asked⟩

theorem run_prompt (ops : List Op) (s : St) (n : Nat) (h : Prompt s n) : Prompt (run s ops) (n + ops.count .listen) := by
  induction ops generalizing s n with
  | nil => exact h
  | cons o ops ih =>
    have := ih _ _ (step_prompt s o n h)
    rw [Nat.add_assoc, ← List.count_append] at this
    exact this

/-- With memory enough: no crash and no 5.00. -/
structure Fine (s : St) : Prop where
  plenty : Plenty s.mem
  alive : s.crashed = false
  told : ∀ t ∈ s.told, t.2 = .unavailable

theorem free_ok (m : Mem) (b : Nat) : (free m b).ok = m.ok := by unfold free; split <;> rfl

theorem Fine.try {s : St} (h : Fine s) : Fine (tryResolve s) :=
  ⟨by rw [tryResolve_mem]; exact h.plenty, by rw [tryResolve_crashed]; exact h.alive, by rw [tryResolve_told]; exact h.told⟩

theorem step_fine (s : St) (o : Op) (h : Fine s) : Fine (step s o) := by
  have hp : ∀ n, s.mem.ok n = true := h.plenty
  unfold step
  rw [if_neg (by simp [h.alive])]
  cases o with
  | init b =>
    simp only [initListener]
    split
    · rw [alloc_ok _ (hp _)]
      simp only []
      rw [alloc_ok _ (by exact hp _)]
      dsimp only
      cases b
      · exact ⟨fun n => by simpa [free_ok] using hp n, h.alive, h.told⟩
      · exact ⟨hp, h.alive, h.told⟩
    · exact h
  | arrive id =>
    simp only [arrive]
    split
    · rw [alloc_ok _ (hp _)]
      simp only []
      rw [alloc_ok _ (by exact hp _)]
      simp only []
      rw [alloc_ok _ (by exact hp _)]
      dsimp only
      exact Fine.try ⟨hp, h.alive, h.told⟩
    · exact h
  | listen =>
    simp only [listen]
    split
    · split
      · exact h
      · exact Fine.try ⟨hp, h.alive, h.told⟩
    · exact h
  | stop =>
    simp only [stop]
    split
    · obtain ⟨_, h2, h3, h4⟩ := foldl_turnAway s.queue s
      refine ⟨fun n => by simpa [free_ok, h4] using hp n, by simpa [h2] using h.alive, ?_⟩
      intro t ht
      simp only [h3, List.mem_append, List.mem_map] at ht
      rcases ht with ht | ⟨r, _, rfl⟩
      · exact h.told t ht
      · rfl
    · exact h
  | release k =>
    simp only [release]
    split
    · exact h
    · exact ⟨fun n => by simpa [free_ok] using hp n, h.alive, h.told⟩

theorem run_fine (ops : List Op) (s : St) (h : Fine s) : Fine (run s ops) := by
  induction ops generalizing s with
  | nil => exact h
  | cons o ops ih => exact ih _ (step_fine s o h)

theorem lostIn_append (s : St) (a b : List Op) : lostIn s (a ++ b) = lostIn s a + lostIn (run s a) b := by
  induction a generalizing s with
  | nil => simp [lostIn, run]
  | cons o a ih =>
    simp only [List.cons_append, lostIn, ih]
    rw [show run s (o :: a) = run (step s o) a from rfl]
    omega

/-- Requests which come in while nobody waits for them are kept. -/
theorem arrive_all (ids : List Nat) (s : St) (h : Fine s) (hw : s.waiting = false) (res nc : Nat) (hp : s.phase = .listening res nc) :
    (run s (ids.map .arrive)).queue.length = s.queue.length + ids.length ∧ (run s (ids.map .arrive)).phase = .listening res nc ∧
      (run s (ids.map .arrive)).given = s.given ∧ lostIn s (ids.map .arrive) = 0 := by
  induction ids generalizing s with
  | nil => exact ⟨rfl, hp, rfl, rfl⟩
  | cons i ids ih =>
    have hk : ∀ n, s.mem.ok n = true := h.plenty
    have hs : (step s (.arrive i)).queue.length = s.queue.length + 1 ∧ (step s (.arrive i)).phase = .listening res nc ∧
        (step s (.arrive i)).given = s.given ∧ (step s (.arrive i)).waiting = false := by
      simp only [step, h.alive, Bool.false_eq_true, if_false, arrive, hp]
      rw [alloc_ok _ (hk _)]
      simp only []
      rw [alloc_ok _ (by exact hk _)]
      simp only []
      rw [alloc_ok _ (by exact hk _)]
      dsimp only
      simp [tryResolve, hw]
    obtain ⟨h1, h2, h3, h4⟩ := hs
    obtain ⟨i1, i2, i3, i4⟩ := ih (step s (.arrive i)) (step_fine s _ h) h4 h2
    refine ⟨?_, i2, i3.trans h3, ?_⟩
    · rw [List.map_cons, show ∀ l, run s (Op.arrive i :: l) = run (step s (.arrive i)) l from fun _ => rfl, i1, h1, List.length_cons]
      omega
    · rw [List.map_cons, lostIn, i4]
      simp [lost]

end

end Verif.Api.CoapRequest
