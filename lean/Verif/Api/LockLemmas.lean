import Verif.Api.LockSpec

/-!
# Soundness of the lock checker
-/

namespace Verif.Api.Lock

open Spec

/-- The locks held after `t`, starting with `h`; `none` if one is misused or taken out of order, or, with `g`, state
is used without the device's lock. -/
def replay (g : Bool) : List Mutex → List Ev → Option (List Mutex)
  | h, [] => some h
  | h, .touch :: t => if g = false ∨ .event ∈ h then replay g h t else none
  | h, .lock m :: t => if mayLock h m then replay g (m :: h) t else none
  | h, .unlock m :: t => if m ∈ h then replay g (h.erase m) t else none

theorem replay_append {g h t u h'} (a : replay g h t = some h') : replay g h (t ++ u) = replay g h' u := by
  induction t generalizing h with
  | nil => simp [replay] at a; simp [a]
  | cons e t ih =>
    cases e <;> simp only [replay, List.cons_append] at a ⊢ <;> split at a <;> simp_all

theorem mem_addNew {x y l} : x ∈ addNew y l ↔ x = y ∨ x ∈ l := by
  unfold addNew
  split
  · constructor
    · exact Or.inr
    · rintro (rfl | h) <;> assumption
  · simp

theorem mem_union {x a b} : x ∈ union a b ↔ x ∈ a ∨ x ∈ b := by
  unfold union
  induction a with
  | nil => simp
  | cons y a ih => simp [mem_addNew, ih, or_assoc]

/-- One step of the fold in `outs` of a sequence. -/
def seqStep (g : Bool) (S : Nat → List Mutex → Bool) (b : Skel) (x : Out × List Mutex)
    (acc : Option (List (Out × List Mutex))) : Option (List (Out × List Mutex)) :=
  match acc with
  | none => none
  | some r =>
    if x.1 = .norm then
      match outs g S b x.2 with
      | none => none
      | some lb => some (union lb r)
    else some (addNew x r)

theorem outs_seq {g S a b h} : outs g S (.seq a b) h =
    match outs g S a h with
    | none => none
    | some la => la.foldr (seqStep g S b) (some []) := rfl

theorem seqFold {g S b} : ∀ {la L : List (Out × List Mutex)},
    la.foldr (seqStep g S b) (some []) = some L → ∀ x ∈ la,
    (x.1 = .norm → ∃ lb, outs g S b x.2 = some lb ∧ ∀ y ∈ lb, y ∈ L) ∧ (x.1 ≠ .norm → x ∈ L)
  | [], _, _, x, hx => by simp at hx
  | y :: la, L, hL, x, hx => by
    simp only [List.foldr_cons] at hL
    cases hr : la.foldr (seqStep g S b) (some []) with
    | none => rw [hr] at hL; simp [seqStep] at hL
    | some r =>
      rw [hr] at hL
      have key : (∀ z ∈ r, z ∈ L) ∧ ((y.1 = .norm → ∃ lb, outs g S b y.2 = some lb ∧ ∀ z ∈ lb, z ∈ L) ∧
          (y.1 ≠ .norm → y ∈ L)) := by
        simp only [seqStep] at hL
        by_cases hn : y.1 = .norm
        · rw [if_pos hn] at hL
          cases ho : outs g S b y.2 with
          | none => rw [ho] at hL; simp at hL
          | some lb =>
            rw [ho] at hL
            simp only [Option.some.injEq] at hL
            subst hL
            exact ⟨fun z hz => mem_union.2 (.inr hz),
              ⟨fun _ => ⟨lb, rfl, fun z hz => mem_union.2 (.inl hz)⟩, fun c => absurd hn c⟩⟩
        · rw [if_neg hn] at hL
          simp only [Option.some.injEq] at hL
          subst hL
          exact ⟨fun z hz => mem_addNew.2 (.inr hz), ⟨fun c => absurd c hn, fun _ => mem_addNew.2 (.inl rfl)⟩⟩
      rcases List.mem_cons.1 hx with rfl | hx
      · exact key.2
      · obtain ⟨h1, h2⟩ := seqFold hr x hx
        exact ⟨fun c => (h1 c).imp fun lb h => ⟨h.1, fun z hz => key.1 z (h.2 z hz)⟩, fun c => key.1 x (h2 c)⟩

theorem lookup_neutral {g fns c f h fn} (hc : checked g fns c = true) (hl : lookup c f h = true)
    (hf : fns[f]? = some fn) : neutral g (lookup c) fn h = true := by
  unfold lookup at hl
  split at hl
  · simp at hl
  next l hcl =>
    have hz : (fn, l) ∈ fns.zip c := by
      apply List.mem_of_getElem? (i := f)
      rw [List.getElem?_zip_eq_some]
      exact ⟨hf, hcl⟩
    have h1 := List.all_eq_true.1 hc _ hz
    exact List.all_eq_true.1 h1 h (List.contains_iff_mem.1 hl)

theorem neutral_outs {g S fn h} (hn : neutral g S fn h = true) :
    ∃ L, outs g S fn.body h = some L ∧ ∀ x ∈ L, (x.1 = .norm ∨ x.1 = .ret) ∧ x.2 = h := by
  unfold neutral at hn
  split at hn
  · simp at hn
  next l hl =>
    refine ⟨l, hl, fun x hx => ?_⟩
    have := List.all_eq_true.1 hn x hx
    simpa [Bool.and_eq_true, Bool.or_eq_true] using this

/-- Every execution of a statement the checker accepts ends in one of the ways the checker lists. -/
theorem sound {g fns c} (hc : checked g fns c = true) {s t o} (e : Exec fns s t o) :
    ∀ h L, outs g (lookup c) s h = some L → ∃ h', replay g h t = some h' ∧ (o, h') ∈ L := by
  induction e with
  | skip => intro h L hL; simp only [outs, Option.some.injEq] at hL; subst hL; simp [replay]
  | ret => intro h L hL; simp only [outs, Option.some.injEq] at hL; subst hL; simp [replay]
  | brk => intro h L hL; simp only [outs, Option.some.injEq] at hL; subst hL; simp [replay]
  | cont => intro h L hL; simp only [outs, Option.some.injEq] at hL; subst hL; simp [replay]
  | lock m =>
    intro h L hL
    simp only [outs] at hL
    split at hL
    · simp only [Option.some.injEq] at hL; subst hL; exact ⟨m :: h, by simp [replay, *], by simp⟩
    · simp at hL
  | unlock m =>
    intro h L hL
    simp only [outs] at hL
    split at hL
    · simp only [Option.some.injEq] at hL; subst hL; exact ⟨h.erase m, by simp [replay, *], by simp⟩
    · simp at hL
  | touch =>
    intro h L hL
    simp only [outs] at hL
    split at hL
    · simp only [Option.some.injEq] at hL; subst hL; exact ⟨h, by simp only [replay]; rw [if_pos (by assumption)], by simp⟩
    · simp at hL
  | call hf _ _ ih =>
    intro h L hL
    simp only [outs] at hL
    split at hL
    next hs =>
      simp only [Option.some.injEq] at hL; subst hL
      obtain ⟨L', h1, h2⟩ := neutral_outs (lookup_neutral hc hs hf)
      obtain ⟨h', h3, h4⟩ := ih h L' h1
      have h5 := (h2 _ h4).2
      simp only at h5
      exact ⟨h', h3, by simp [h5]⟩
    · simp at hL
  | anyOf hm _ ih =>
    intro h L hL
    simp only [outs] at hL
    split at hL
    next hs =>
      simp only [Option.some.injEq] at hL; subst hL
      exact ih h _ (by simp only [outs]; rw [if_pos (List.all_eq_true.1 hs _ hm)])
    · simp at hL
  | seq _ _ iha ihb =>
    intro h L hL
    rw [outs_seq] at hL
    split at hL
    · simp at hL
    next la hla =>
      obtain ⟨h1, r1, m1⟩ := iha h la hla
      obtain ⟨lb, hb, hsub⟩ := (seqFold hL _ m1).1 rfl
      obtain ⟨h2, r2, m2⟩ := ihb h1 lb hb
      exact ⟨h2, by rw [replay_append r1, r2], hsub _ m2⟩
  | seqJump _ hj iha =>
    intro h L hL
    rw [outs_seq] at hL
    split at hL
    · simp at hL
    next la hla =>
      obtain ⟨h1, r1, m1⟩ := iha h la hla
      exact ⟨h1, r1, (seqFold hL _ m1).2 hj⟩
  | iteThen _ ih =>
    intro h L hL
    simp only [outs] at hL
    split at hL
    next la lb hla hlb =>
      simp only [Option.some.injEq] at hL; subst hL
      obtain ⟨h1, r1, m1⟩ := ih h la hla
      exact ⟨h1, r1, mem_union.2 (.inl m1)⟩
    · simp at hL
  | iteElse _ ih =>
    intro h L hL
    simp only [outs] at hL
    split at hL
    next la lb hla hlb =>
      simp only [Option.some.injEq] at hL; subst hL
      obtain ⟨h1, r1, m1⟩ := ih h lb hlb
      exact ⟨h1, r1, mem_union.2 (.inr m1)⟩
    · simp at hL
  | loopEnd =>
    intro h L hL
    simp only [outs] at hL
    split at hL
    · simp at hL
    · split at hL
      · simp only [Option.some.injEq] at hL; subst hL; simp [replay]
      · simp at hL
  | loopNext _ ho _ iha ihb =>
    intro h L hL
    have hL' := hL
    simp only [outs] at hL'
    split at hL'
    · simp at hL'
    next la hla =>
      split at hL'
      next hall =>
        obtain ⟨h1, r1, m1⟩ := iha h la hla
        have hh := List.all_eq_true.1 hall _ m1
        have : h1 = h := by rcases ho with rfl | rfl <;> simpa using hh
        subst this
        obtain ⟨h2, r2, m2⟩ := ihb _ L hL
        exact ⟨h2, by rw [replay_append r1, r2], m2⟩
      · simp at hL'
  | loopBrk _ ih =>
    intro h L hL
    simp only [outs] at hL
    split at hL
    · simp at hL
    next la hla =>
      split at hL
      · simp only [Option.some.injEq] at hL; subst hL
        obtain ⟨h1, r1, m1⟩ := ih h la hla
        exact ⟨h1, r1, List.mem_cons_of_mem _ (List.mem_map.2 ⟨_, List.mem_filter.2 ⟨m1, by simp⟩, by simp⟩)⟩
      · simp at hL
  | loopRet _ ih =>
    intro h L hL
    simp only [outs] at hL
    split at hL
    · simp at hL
    next la hla =>
      split at hL
      · simp only [Option.some.injEq] at hL; subst hL
        obtain ⟨h1, r1, m1⟩ := ih h la hla
        exact ⟨h1, r1, List.mem_cons_of_mem _ (List.mem_map.2 ⟨_, List.mem_filter.2 ⟨m1, by simp⟩, by simp⟩)⟩
      · simp at hL
  | foreverNext _ ho _ iha ihb =>
    intro h L hL
    have hL' := hL
    simp only [outs] at hL'
    split at hL'
    · simp at hL'
    next la hla =>
      split at hL'
      next hall =>
        obtain ⟨h1, r1, m1⟩ := iha h la hla
        have hh := List.all_eq_true.1 hall _ m1
        have : h1 = h := by rcases ho with rfl | rfl <;> simpa using hh
        subst this
        obtain ⟨h2, r2, m2⟩ := ihb _ L hL
        exact ⟨h2, by rw [replay_append r1, r2], m2⟩
      · simp at hL'
  | foreverBrk _ ih =>
    intro h L hL
    simp only [outs] at hL
    split at hL
    · simp at hL
    next la hla =>
      split at hL
      · simp only [Option.some.injEq] at hL; subst hL
        obtain ⟨h1, r1, m1⟩ := ih h la hla
        exact ⟨h1, r1, List.mem_map.2 ⟨_, List.mem_filter.2 ⟨m1, by simp⟩, by simp⟩⟩
      · simp at hL
  | foreverRet _ ih =>
    intro h L hL
    simp only [outs] at hL
    split at hL
    · simp at hL
    next la hla =>
      split at hL
      · simp only [Option.some.injEq] at hL; subst hL
        obtain ⟨h1, r1, m1⟩ := ih h la hla
        exact ⟨h1, r1, List.mem_map.2 ⟨_, List.mem_filter.2 ⟨m1, by simp⟩, by simp⟩⟩
      · simp at hL
  | blockBrk _ ih =>
    intro h L hL
    simp only [outs] at hL
    split at hL
    · simp at hL
    next la hla =>
      simp only [Option.some.injEq] at hL; subst hL
      obtain ⟨h1, r1, m1⟩ := ih h la hla
      exact ⟨h1, r1, List.mem_map.2 ⟨_, m1, by simp⟩⟩
  | block _ hb ih =>
    intro h L hL
    simp only [outs] at hL
    split at hL
    · simp at hL
    next la hla =>
      simp only [Option.some.injEq] at hL; subst hL
      obtain ⟨h1, r1, m1⟩ := ih h la hla
      exact ⟨h1, r1, List.mem_map.2 ⟨_, m1, by simp [hb]⟩⟩

/-- A function the checker accepts when started with no locks. -/
theorem sound_fn {g fns c f fn t o} (hc : checked g fns c = true) (hl : lookup c f [] = true) (hf : fns[f]? = some fn)
    (e : Exec fns fn.body t o) : replay g [] t = some [] ∧ (o = .norm ∨ o = .ret) := by
  obtain ⟨L, h1, h2⟩ := neutral_outs (lookup_neutral hc hl hf)
  obtain ⟨h', r, m⟩ := sound hc e [] L h1
  obtain ⟨a, b⟩ := h2 _ m
  simp only at a b
  subst b
  exact ⟨r, a⟩

/-! ## From `replay` to the specification -/

theorem replay_prefix {g h t h' p} (a : replay g h t = some h') (hp : p <+: t) : ∃ hp', replay g h p = some hp' := by
  induction p generalizing h t with
  | nil => exact ⟨h, rfl⟩
  | cons e p ih =>
    obtain ⟨u, rfl⟩ := hp
    cases e <;> simp only [replay, List.cons_append] at a ⊢ <;> split at a <;> rename_i hc
    · rw [if_pos hc]; exact ih a (List.prefix_append _ _)
    · simp at a
    · rw [if_pos hc]; exact ih a (List.prefix_append _ _)
    · simp at a
    · rw [if_pos hc]; exact ih a (List.prefix_append _ _)
    · simp at a

theorem not_mem_of_mayLock {h m} (a : mayLock h m = true) : m ∉ h := by
  intro hm
  have := List.all_eq_true.1 a m hm
  simp at this

theorem replay_count {g h t h'} (a : replay g h t = some h') (hd : h.Nodup) :
    h'.Nodup ∧ ∀ m, t.count (.lock m) + h.count m = t.count (.unlock m) + h'.count m := by
  induction t generalizing h with
  | nil => simp [replay] at a; subst a; exact ⟨hd, fun m => by simp⟩
  | cons e t ih =>
    cases e with
    | lock k =>
      simp only [replay] at a
      split at a
      next hk =>
        obtain ⟨h1, h2⟩ := ih a (List.nodup_cons.2 ⟨not_mem_of_mayLock hk, hd⟩)
        refine ⟨h1, fun m => ?_⟩
        have := h2 m
        simp only [List.count_cons] at this ⊢
        by_cases hm : k = m
        · subst hm; simp at this ⊢; omega
        · have h3 : ((Ev.lock k) == Ev.lock m) = false := by simpa using hm
          have h4 : ((Ev.lock k) == Ev.unlock m) = false := by simp
          have h5 : (k == m) = false := by simpa using hm
          simp only [h3, h4, h5] at this ⊢; simpa using this
      · simp at a
    | touch =>
      simp only [replay] at a
      split at a
      · obtain ⟨h1, h2⟩ := ih a hd
        exact ⟨h1, fun m => by simpa [List.count_cons] using h2 m⟩
      · simp at a
    | unlock k =>
      simp only [replay] at a
      split at a
      next hk =>
        obtain ⟨h1, h2⟩ := ih a (hd.erase _)
        refine ⟨h1, fun m => ?_⟩
        have := h2 m
        simp only [List.count_cons] at this ⊢
        by_cases hm : k = m
        · subst hm
          have h6 : h.count k = 1 := by rw [hd.count, if_pos hk]
          have h7 : (h.erase k).count k = 0 := by rw [List.count_erase_self]; omega
          simp at this ⊢; omega
        · have h3 : ((Ev.unlock k) == Ev.unlock m) = false := by simpa using hm
          have h4 : ((Ev.unlock k) == Ev.lock m) = false := by simp
          have h5 : (h.erase k).count m = h.count m := List.count_erase_of_ne (fun c => hm c.symm)
          simp only [h3, h4] at this ⊢; simp at this ⊢; omega
      · simp at a

theorem replay_holds {g t h} (a : replay g [] t = some h) (m : Mutex) : Holds t m ↔ m ∈ h := by
  obtain ⟨h1, h2⟩ := replay_count a List.nodup_nil
  have := h2 m
  have h3 := h1.count (a := m)
  unfold Holds
  split at h3 <;> simp_all <;> omega

theorem replay_wellLocked {g t h} (a : replay g [] t = some h) : WellLocked t := by
  constructor
  · intro p m hp
    obtain ⟨hp', r⟩ := replay_prefix a ((List.prefix_append _ _).trans hp)
    obtain ⟨_, r2⟩ := replay_prefix a hp
    rw [replay_append r] at r2
    simp only [replay] at r2
    split at r2
    next hk => rw [replay_holds r]; exact not_mem_of_mayLock hk
    · simp at r2
  · intro p m hp
    obtain ⟨hp', r⟩ := replay_prefix a ((List.prefix_append _ _).trans hp)
    obtain ⟨_, r2⟩ := replay_prefix a hp
    rw [replay_append r] at r2
    simp only [replay] at r2
    split at r2
    next hk => rw [replay_holds r]; exact hk
    · simp at r2

theorem replay_released {g t} (a : replay g [] t = some []) : Released t := by
  intro m h
  rw [replay_holds a] at h
  simp at h

theorem replay_ordered {g t h p m m'} (a : replay g [] t = some h) (hp : p ++ [.lock m] <+: t) (hh : Holds p m') :
    rank m' < rank m := by
  obtain ⟨hp', r⟩ := replay_prefix a ((List.prefix_append _ _).trans hp)
  obtain ⟨_, r2⟩ := replay_prefix a hp
  rw [replay_append r] at r2
  simp only [replay] at r2
  split at r2
  next hk =>
    have := List.all_eq_true.1 hk m' ((replay_holds r m').1 hh)
    simpa using this
  · simp at r2

theorem replay_guarded {t h} (a : replay true [] t = some h) : Guarded t := by
  intro p hp
  obtain ⟨hp', r⟩ := replay_prefix a ((List.prefix_append _ _).trans hp)
  obtain ⟨_, r2⟩ := replay_prefix a hp
  rw [replay_append r] at r2
  simp only [replay] at r2
  split at r2
  next hk => rw [replay_holds r]; simpa using hk
  · simp at r2

/-! ## Several threads -/

/-- An element on which a function is largest. -/
theorem exists_max {α} (f : α → Nat) : ∀ {l : List α}, l ≠ [] → ∃ x ∈ l, ∀ y ∈ l, f y ≤ f x
  | [], h => absurd rfl h
  | [x], _ => ⟨x, by simp, by simp⟩
  | x :: y :: l, _ => by
    obtain ⟨z, hz, hm⟩ := exists_max f (l := y :: l) (by simp)
    by_cases h : f z ≤ f x
    · refine ⟨x, by simp, fun w hw => ?_⟩
      rcases List.mem_cons.1 hw with rfl | hw
      · exact Nat.le_refl _
      · exact Nat.le_trans (hm w hw) h
    · refine ⟨z, List.mem_cons_of_mem _ hz, fun w hw => ?_⟩
      rcases List.mem_cons.1 hw with rfl | hw
      · omega
      · exact hm w hw

/-- The rank of what a thread wants to lock; 0 if it does not want any. -/
def wants (th : Thread) : Nat :=
  match th.todo with
  | .lock m :: _ => rank m
  | _ => 0

theorem no_deadlock {g} {ths : List Thread} (hr : ∀ th ∈ ths, replay g [] (th.did ++ th.todo) = some [])
    (hn : ∃ th ∈ ths, th.todo ≠ []) : ∃ th ∈ ths, Enabled ths th := by
  by_cases hu : ∃ th ∈ ths, ∃ e r, th.todo = e :: r ∧ ∀ m, e ≠ .lock m
  · obtain ⟨th, hth, e, r, he, hm⟩ := hu
    refine ⟨th, hth, ?_⟩
    cases e with
    | lock m => exact absurd rfl (hm m)
    | unlock m => simp [Enabled, he]
    | touch => simp [Enabled, he]
  obtain ⟨t0, ht0, hne⟩ := hn
  have hne' : ths.filter (fun th => th.todo != []) ≠ [] := by
    intro c
    have : t0 ∈ ths.filter (fun th => th.todo != []) := List.mem_filter.2 ⟨ht0, by simpa using hne⟩
    rw [c] at this
    simp at this
  obtain ⟨th, hth, hmax⟩ := exists_max wants hne'
  obtain ⟨hmem, htodo⟩ := List.mem_filter.1 hth
  refine ⟨th, hmem, ?_⟩
  unfold Enabled
  split
  next h => simp [h] at htodo
  case h_3 => trivial
  next m rest hm =>
    intro other ho hh
    have hro := hr other ho
    cases htd : other.todo with
    | nil =>
      rw [htd, List.append_nil] at hro
      exact replay_released hro m hh
    | cons e u =>
      have hmemo : other ∈ ths.filter (fun th => th.todo != []) := List.mem_filter.2 ⟨ho, by simp [htd]⟩
      have hle := hmax other hmemo
      rw [htd] at hro
      have hpre : other.did ++ [e] <+: other.did ++ e :: u := ⟨u, by simp⟩
      cases e with
      | lock k =>
        have := replay_ordered hro hpre hh
        simp only [wants, htd, hm] at hle
        omega
      | unlock k => exact hu ⟨other, ho, _, u, htd, by simp⟩
      | touch => exact hu ⟨other, ho, _, u, htd, by simp⟩

end Verif.Api.Lock
