import Verif.Device.CreateSpec

/-! # Lemmas for C132: a list of steps succeeds or is undone from its first failure. -/

namespace Verif.Device.Create

/-- The state after a command which did not fail. -/
def pass (ok : Res → Bool) (s : St) : Cmd → St
  | .get r => s.take r
  | .have r => s.take r
  | .ask r => if ok r then s.take r else s
  | .inside _ _ => s
  | .all rs => rs.foldl St.take s
  | .flag f => { s with flags := f :: s.flags }

def subs : List Res → List (List Res)
  | [] => [[]]
  | r :: rs => subs rs ++ (subs rs).map (r :: ·)

theorem filter_mem_subs (p : Res → Bool) : ∀ l, l.filter p ∈ subs l
  | [] => by simp [subs]
  | r :: rs => by
    simp only [subs, List.mem_append, List.mem_map, List.filter_cons]
    split
    · exact .inr ⟨_, filter_mem_subs p rs, rfl⟩
    · exact .inl (filter_mem_subs p rs)

/-- The states in which a command may have failed. -/
def failed (s : St) : Cmd → List St
  | .all rs => (subs rs).map fun l => l.foldl St.take s
  | .get _ | .inside _ _ => [s]
  | .have _ | .ask _ | .flag _ => []

/-- Why a command failed. -/
def Cause (ok : Res → Bool) (s : St) : Cmd → Prop
  | .get r => ok r = false
  | .inside r o => s.set.contains o = false ∨ ok r = false
  | .all rs => ∃ r ∈ rs, ok r = false
  | _ => False

def passes (ok : Res → Bool) (l : List Step) (s : St) : St := l.foldl (fun s t => pass ok s t.cmd) s

/-- The owner of what is kept inside of another object is there. -/
def owned (s : St) : Cmd → Bool
  | .inside _ o => s.set.contains o
  | _ => true

theorem cmd_cases (ok : Res → Bool) (s : St) (c : Cmd) :
    (c.run ok s = (true, pass ok s c) ∧ owned s c = true) ∨ ∃ s' ∈ failed s c, Cause ok s c ∧ c.run ok s = (false, s') := by
  cases c with
  | get r => cases h : ok r <;> simp [Cmd.run, pass, failed, Cause, owned, h]
  | «have» r => simp [Cmd.run, pass, owned]
  | ask r => simp [Cmd.run, pass, owned]
  | flag f => simp [Cmd.run, pass, owned]
  | inside r o =>
    cases h : ok r
    · exact .inr ⟨s, by simp [failed], .inr h, by simp [Cmd.run, h]⟩
    · cases h2 : s.set.contains o
      · exact .inr ⟨s, by simp [failed], .inl h2, by simp only [Cmd.run, h2, Bool.false_and]⟩
      · exact .inl ⟨by simp only [Cmd.run, pass, h, h2]; rfl, h2⟩
  | all rs =>
    cases h : rs.all ok
    · refine .inr ⟨_, List.mem_map.mpr ⟨_, filter_mem_subs ok rs, rfl⟩, ?_, by simp only [Cmd.run, h]⟩
      simpa [Cause] using h
    · left
      have : rs.filter ok = rs := List.filter_eq_self.mpr (by simpa using h)
      exact ⟨by simp only [Cmd.run, h, this, pass], rfl⟩

/-- What a failed command may be blamed on. -/
def blame : Cmd → List Res
  | .get r => [r]
  | .inside r _ => [r]
  | .all rs => rs
  | _ => []

theorem cause_blame {ok : Res → Bool} {s : St} {c : Cmd} (h : Cause ok s c) : owned s c = false ∨ ∃ r ∈ blame c, ok r = false := by
  cases c <;> simp_all [Cause, blame, owned]

/-! ## All ways through a list of steps -/

/-- A test at each step and one at the end, on all ways through a list of steps. -/
def scan (p : St → Step → Bool) (q : St → Bool) : List Step → St → Bool
  | [], s => q s
  | t :: ts, s => p s t &&
    match t.cmd with
    | .ask r => scan p q ts (s.take r) && scan p q ts s
    | .inside _ o => !s.set.contains o || scan p q ts s
    | c => scan p q ts (pass (fun _ => true) s c)

theorem scan_sound (p : St → Step → Bool) (q : St → Bool) (ok : Res → Bool) : ∀ (l : List Step) (s : St), scan p q l s = true →
    (run ok l s = (true, passes ok l s) ∧ q (passes ok l s) = true) ∨
    ∃ s₁ t s', p s₁ t = true ∧ s' ∈ failed s₁ t.cmd ∧ Cause ok s₁ t.cmd ∧ run ok l s = (false, undo t.onFail s')
  | [], s, h => .inl ⟨rfl, h⟩
  | t :: ts, s, h => by
    simp only [scan, Bool.and_eq_true] at h
    obtain ⟨hp, h⟩ := h
    rcases cmd_cases ok s t.cmd with ⟨hr, ho⟩ | ⟨s', h1, h2, h3⟩
    · have hs : scan p q ts (pass ok s t.cmd) = true := by
        cases hc : t.cmd with
        | ask r =>
          rw [hc] at h
          simp only [Bool.and_eq_true] at h
          cases hk : ok r
          · simpa [pass, hk] using h.2
          · simpa [pass, hk] using h.1
        | inside r o =>
          rw [hc] at h ho
          simp only [owned] at ho
          simp only [ho, Bool.not_true, Bool.false_or] at h
          exact h
        | _ => rw [hc] at h; exact h
      have hr' : run ok (t :: ts) s = run ok ts (pass ok s t.cmd) := by simp only [run, hr]
      rcases scan_sound p q ok ts _ hs with ⟨h1, h2⟩ | ⟨s₁, u, s', h1, h2, h3, h4⟩
      · exact .inl ⟨by rw [hr', h1]; rfl, h2⟩
      · exact .inr ⟨s₁, u, s', h1, h2, h3, by rw [hr', h4]⟩
    · exact .inr ⟨s, t, s', hp, h1, h2, by simp only [run, h3]⟩

/-- What a command takes. -/
def takes (ok : Res → Bool) : Cmd → List Res
  | .get r | .have r => [r]
  | .ask r => if ok r then [r] else []
  | .all rs => rs
  | _ => []

theorem mem_takeAll (x : Res) : ∀ (rs : List Res) (s : St), x ∈ (rs.foldl St.take s).held ↔ x ∈ s.held ∨ x ∈ rs
  | [], s => by simp
  | r :: rs, s => by
    rw [List.foldl_cons, mem_takeAll x rs]
    simp only [St.take, List.mem_cons]
    constructor
    · rintro ((h | h) | h) <;> simp [h]
    · rintro (h | h | h) <;> simp [h]

theorem mem_pass (ok : Res → Bool) (s : St) (c : Cmd) (x : Res) : x ∈ (pass ok s c).held ↔ x ∈ s.held ∨ x ∈ takes ok c := by
  cases c with
  | all rs => exact mem_takeAll x rs s
  | ask r => cases h : ok r <;> simp [pass, takes, St.take, h, or_comm]
  | _ => simp [pass, takes, St.take, or_comm]

theorem mem_passes (ok : Res → Bool) (x : Res) : ∀ (l : List Step) (s : St),
    x ∈ (passes ok l s).held ↔ x ∈ s.held ∨ x ∈ l.flatMap fun t => takes ok t.cmd
  | [], s => by simp [passes]
  | t :: ts, s => by
    have h1 : passes ok (t :: ts) s = passes ok ts (pass ok s t.cmd) := rfl
    rw [h1, mem_passes ok x ts, mem_pass, List.flatMap_cons, List.mem_append, or_assoc]

theorem mem_new (ok : Res → Bool) (x : Res) : x ∈ (passes ok creation {}).held ↔ x ∈ creation.flatMap fun t => takes ok t.cmd := by
  rw [mem_passes]
  simp

/-- What does not depend on anything asked for. -/
theorem takes_always (ok : Res → Bool) (x : Res) (h : x ∈ creation.flatMap fun t => takes (fun _ => false) t.cmd) :
    x ∈ (passes ok creation {}).held := by
  rw [mem_new]
  simp only [List.mem_flatMap] at h ⊢
  obtain ⟨t, ht, h⟩ := h
  refine ⟨t, ht, ?_⟩
  cases hc : t.cmd <;> rw [hc] at h <;> first | exact h | simp [takes] at h

/-- What is only taken when asked for is taken exactly if it can be had. -/
theorem takes_asked (ok : Res → Bool) (x : Res)
    (h : (creation.any fun t => decide (t.cmd = .ask x)) = true ∧ (creation.flatMap fun t => takes (fun _ => false) t.cmd).contains x = false) :
    x ∈ (passes ok creation {}).held ↔ ok x = true := by
  obtain ⟨h1, h2⟩ := h
  rw [mem_new]
  simp only [List.mem_flatMap, List.any_eq_true, decide_eq_true_eq] at h1 ⊢
  have h3 : ¬ ∃ t ∈ creation, x ∈ takes (fun _ => false) t.cmd := by
    intro hx
    rw [← List.mem_flatMap, ← List.contains_iff_mem, h2] at hx
    cases hx
  constructor
  · rintro ⟨t, ht, hx⟩
    cases hc : t.cmd with
    | ask r =>
      rw [hc] at hx
      cases hk : ok r
      · simp [takes, hk] at hx
      · simp [takes, hk] at hx
        rw [hx, hk]
    | _ => exact absurd ⟨t, ht, by rw [hc] at hx ⊢; exact hx⟩ h3
  · intro hk
    obtain ⟨t, ht, hc⟩ := h1
    exact ⟨t, ht, by rw [hc]; simp [takes, hk]⟩

/-! ## The test -/

/-- What is left after a failure: of a command `c`, `o` if its owner was there. -/
def judge (o : Bool) (c : Cmd) (u : St) : Bool :=
  match u.ub with
  | some (.joinedUnstarted .queueThread) => decide (c = .get .queueRuns) && o
  | some _ => false
  | none =>
    match u.held, u.raw with
    | [], [] => true
    | h, _ => o && (blame c).all Spec.unhandled.contains && [Res.networkRuns, .queueRuns, .futureRuns, .context, .eventMutex].all fun r =>
        !h.contains r

def judgeAt (s : St) (t : Step) : Bool := (failed s t.cmd).all fun s' => judge (owned s t.cmd) t.cmd (undo t.onFail s')

/-- What is there at the end. -/
def judgeEnd (s : St) : Bool := decide (Spec.Clean (free s)) && decide (s.ub = none) && decide (s.raw = []) && s.held.contains .dtlsClient

theorem creation_judged : scan judgeAt judgeEnd creation {} = true := by decide +kernel

theorem new_cases (ok : Res → Bool) :
    (new ok = (true, passes ok creation {}) ∧ judgeEnd (passes ok creation {}) = true) ∨
    ∃ (s : St) (t : Step) (s' : St), judge (owned s t.cmd) t.cmd (undo t.onFail s') = true ∧ Cause ok s t.cmd ∧ new ok = (false, undo t.onFail s') := by
  rcases scan_sound judgeAt judgeEnd ok creation {} creation_judged with h | ⟨s, t, s', h1, h2, h3, h4⟩
  · exact .inl h
  · exact .inr ⟨s, t, s', List.all_eq_true.mp h1 s' h2, h3, h4⟩

theorem judge_cases {o : Bool} {c : Cmd} {u : St} (h : judge o c u = true) :
    Spec.Clean u ∨ ((c = .get .queueRuns ∧ u.ub = some (.joinedUnstarted .queueThread)) ∧ o = true) ∨
    (u.ub = none ∧ o = true ∧ (∀ r ∈ blame c, r ∈ Spec.unhandled) ∧ ∀ r ∈ Spec.threads ++ [.context, .eventMutex], r ∉ u.held) := by
  unfold judge at h
  split at h
  · next hu =>
    simp only [Bool.and_eq_true, decide_eq_true_eq] at h
    exact .inr (.inl ⟨⟨h.1, hu⟩, h.2⟩)
  · cases h
  · next hu =>
    split at h
    · next h1 h2 => exact .inl ⟨h1, hu, h2⟩
    · simp only [Bool.and_eq_true, List.all_eq_true, List.contains_iff_mem, Bool.not_eq_true'] at h
      obtain ⟨⟨ho, hb⟩, ht⟩ := h
      refine .inr (.inr ⟨hu, ho, hb, fun r hr hm => ?_⟩)
      have := ht r hr
      rw [List.contains_iff_mem.mpr hm] at this
      cases this

end Verif.Device.Create
