import Verif.Iam.BuilderFree

/-!
# The configuration builder — reading a configuration; calls outside of the contract
-/

namespace Verif.Iam.Builder
open Spec

variable {tr : Trace} {H : Heap}

theorem mapM_filterMap {E B : Type} {f : E → Option Nat} {gs : E → Option B} {read : Nat → Option B} {l : List E}
    (h : ∀ e ∈ l, (f e = none ∧ gs e = none) ∨ ∃ x b, f e = some x ∧ gs e = some b ∧ read x = some b) :
    (l.filterMap f).mapM read = some (l.filterMap gs) := by
  induction l with
  | nil => rfl
  | cons e l ih =>
    have ih := ih fun e he => h e (List.mem_cons_of_mem _ he)
    rcases h e (List.mem_cons_self ..) with ⟨h1, h2⟩ | ⟨x, b, h1, h2, h3⟩
    · rw [List.filterMap_cons_none h1, List.filterMap_cons_none h2, ih]
    · rw [List.filterMap_cons_some h1, List.filterMap_cons_some h2, List.mapM_cons, h3, ih]; rfl

theorem findSome_eq {E B : Type} {f : E → Option B} {l : List E} {b : B} (h1 : ∃ e ∈ l, f e = some b)
    (h2 : ∀ e ∈ l, ∀ b', f e = some b' → b' = b) : l.findSome? f = some b := by
  cases h : l.findSome? f with
  | none =>
    obtain ⟨e, he, hb⟩ := h1
    rw [List.findSome?_eq_none_iff] at h
    rw [h e he] at hb; cases hb
  | some b' =>
    obtain ⟨e, he, hb⟩ := List.exists_of_findSome?_eq_some h
    rw [h2 e he b' hb]

theorem readCond_eq (g : Good tr H) (hk : Keyed tr) {s c : Nat} {op : Op} {key : String} {m1 m2 : Bool}
    (hm : (Call.createCond s op key m1 m2, Ret.handle (some c)) ∈ tr) (hs : H.kindOf s = some .stmt) :
    readCond H c = some ⟨op, key, values tr c⟩ := by
  obtain ⟨n, hn, e⟩ := kindOf_some hs
  obtain ⟨m, hcm, _⟩ := g.inv.kid hn (g.j.cond_kid hm hn e)
  have he := g.j.entry hm hcm
  rw [hk _ _ _ _ _ _ hm] at he
  simp only [expect, if_true, Option.some.injEq] at he
  subst he
  unfold readCond
  rw [hcm]

theorem readStmt_eq (g : Good tr H) (hk : Keyed tr) {p s : Nat} {e : Effect} {m : Bool}
    (hm : (Call.createStmt p e m, Ret.handle (some s)) ∈ tr) (hp : H.kindOf p = some .pol) :
    readStmt H s = some ⟨e, actions tr s, conditions tr s⟩ := by
  obtain ⟨n, hn, ek⟩ := kindOf_some hp
  obtain ⟨n', hs, _⟩ := g.inv.kid hn (g.j.stmt_kid hm hn ek)
  have he := g.j.entry hm hs
  simp only [expect, Option.some.injEq] at he
  subst he
  unfold readStmt
  rw [hs]
  have : (condsOf tr s).mapM (readCond H) = some (conditions tr s) := by
    refine mapM_filterMap fun e he => ?_
    obtain ⟨call, ret⟩ := e
    split
    · rename_i s' op key m1 m2 c heq
      cases heq
      by_cases hss : s' = s
      · subst hss
        exact .inr ⟨c, _, if_pos rfl, if_pos rfl, readCond_eq g hk he (by simp [Heap.kindOf, hs, kind])⟩
      · exact .inl ⟨if_neg hss, if_neg hss⟩
    · rename_i hne
      exact .inl ⟨rfl, by split <;> first | rfl | (rename_i heq; exact (hne _ _ _ _ _ _ heq).elim)⟩
  simp only [this, Option.map_some]

theorem readPol_eq (g : Good tr H) (hk : Keyed tr) {p : Nat} (hp : H.kindOf p = some .pol) :
    ∃ x, policy tr p = some x ∧ readPol H p = some x := by
  obtain ⟨n, hn, ek⟩ := kindOf_some hp
  obtain ⟨made, hm, he⟩ := g.j.born p n hn
  cases n <;> try cases ek
  obtain ⟨⟨m1, m2, rfl⟩, rfl⟩ := made_pol he
  rename_i id
  refine ⟨⟨id, statements tr p⟩, ?_, ?_⟩
  · refine findSome_eq ⟨_, hm, if_pos rfl⟩ ?_
    rintro ⟨call, ret⟩ hc b hb
    split at hb
    · rename_i name a b h heq
      cases heq
      split at hb
      · rename_i hh
        subst hh
        have := g.j.one _ _ _ hm hc
        cases this
        exact (Option.some.inj hb).symm
      · cases hb
    · cases hb
  · unfold readPol
    rw [hn]
    have : (stmtsOf tr p).mapM (readStmt H) = some (statements tr p) := by
      refine mapM_filterMap fun e hem => ?_
      obtain ⟨call, ret⟩ := e
      split
      · rename_i p' e' m s heq
        cases heq
        by_cases hss : p' = p
        · subst hss
          exact .inr ⟨s, _, if_pos rfl, if_pos rfl, readStmt_eq g hk hem hp⟩
        · exact .inl ⟨if_neg hss, if_neg hss⟩
      · rename_i hne
        exact .inl ⟨rfl, by split <;> first | rfl | (rename_i heq; exact (hne _ _ _ _ heq).elim)⟩
    simp only [this, Option.map_some]

theorem readRole_eq (g : Good tr H) {r : Nat} (hp : H.kindOf r = some .role) :
    ∃ x, role tr r = some x ∧ readRole H r = some x := by
  obtain ⟨n, hn, ek⟩ := kindOf_some hp
  obtain ⟨made, hm, he⟩ := g.j.born r n hn
  cases n <;> try cases ek
  obtain ⟨⟨m1, m2, rfl⟩, rfl⟩ := made_role he
  rename_i id
  refine ⟨⟨id, rolePolicies tr r⟩, ?_, ?_⟩
  · refine findSome_eq ⟨_, hm, if_pos rfl⟩ ?_
    rintro ⟨call, ret⟩ hc b hb
    split at hb
    · rename_i name a b h heq
      cases heq
      split at hb
      · rename_i hh
        subst hh
        have := g.j.one _ _ _ hm hc
        cases this
        exact (Option.some.inj hb).symm
      · cases hb
    · cases hb
  · unfold readRole
    rw [hn]

theorem readConf_eq (g : Good tr H) (hk : Keyed tr) {c : Nat} (hc : H.kindOf c = some .conf) :
    readConf H c = some (config tr c) := by
  obtain ⟨n, hn, ek⟩ := kindOf_some hc
  cases n <;> try cases ek
  rename_i roles pols u
  have ht := g.inv.typed _ _ hn
  obtain ⟨rfl, rfl, rfl⟩ := g.j.conf_lists hn
  unfold readConf
  rw [hn]
  have h1 : (polsOf tr c).mapM (readPol H) = some (config tr c).policies := by
    refine mapM_filterMap fun e he => ?_
    obtain ⟨call, ret⟩ := e
    split
    · rename_i c' p heq
      cases heq
      by_cases hss : c' = c
      · subst hss
        have hp : H.kindOf p = some .pol := ht (p, .pol) (by
          simp only [kidKinds, List.mem_append, List.mem_map]
          exact .inr ⟨p, mem_polsOf.2 he, rfl⟩)
        obtain ⟨x, hx, hr⟩ := readPol_eq g hk hp
        exact .inr ⟨p, x, if_pos rfl, (if_pos rfl).trans hx, hr⟩
      · exact .inl ⟨if_neg hss, if_neg hss⟩
    · rename_i hne
      exact .inl ⟨rfl, by split <;> first | rfl | (rename_i heq; exact (hne _ _ heq).elim)⟩
  have h2 : (rolesOf tr c).mapM (readRole H) = some (config tr c).roles := by
    refine mapM_filterMap fun e he => ?_
    obtain ⟨call, ret⟩ := e
    split
    · rename_i c' p heq
      cases heq
      by_cases hss : c' = c
      · subst hss
        have hp : H.kindOf p = some .role := ht (p, .role) (by
          simp only [kidKinds, List.mem_append, List.mem_map]
          exact .inl ⟨p, mem_rolesOf.2 he, rfl⟩)
        obtain ⟨x, hx, hr⟩ := readRole_eq g hp
        exact .inr ⟨p, x, if_pos rfl, (if_pos rfl).trans hx, hr⟩
      · exact .inl ⟨if_neg hss, if_neg hss⟩
    · rename_i hne
      exact .inl ⟨rfl, by split <;> first | rfl | (rename_i heq; exact (hne _ _ heq).elim)⟩
  simp only [h1, h2]
  rfl

/-! ### Outside of the contract -/

theorem foldl_bad {f : Heap → Nat → Heap} (hf : ∀ H c, H.bad = true → (f H c).bad = true) (l : List Nat) (H : Heap)
    (h : H.bad = true) : (l.foldl f H).bad = true := by
  induction l generalizing H with
  | nil => exact h
  | cons c l ih => exact ih _ (hf _ _ h)

theorem freeCond_bad (H : Heap) (c : Nat) (h : H.bad = true) : (freeCond H c).bad = true := by
  unfold freeCond; split <;> first | exact h | rfl

theorem freeStmt_bad (H : Heap) (c : Nat) (h : H.bad = true) : (freeStmt H c).bad = true := by
  unfold freeStmt; split
  · exact foldl_bad freeCond_bad _ _ h
  · rfl

theorem freePol_bad (H : Heap) (c : Nat) (h : H.bad = true) : (freePol H c).bad = true := by
  unfold freePol; split
  · exact foldl_bad freeStmt_bad _ _ h
  · rfl

theorem freeRole_bad (H : Heap) (c : Nat) (h : H.bad = true) : (freeRole H c).bad = true := by
  unfold freeRole; split <;> first | exact h | rfl

theorem freeConf_bad (H : Heap) (c : Nat) (h : H.bad = true) : (freeConf H c).bad = true := by
  unfold freeConf; split
  · exact foldl_bad freePol_bad _ _ (foldl_bad freeRole_bad _ _ h)
  · rfl

theorem step_bad (H : Heap) (call : Call) (h : H.bad = true) : (step H call).1.bad = true := by
  cases call <;> simp only [step]
  case freePol p => split; rfl; exact freePol_bad _ _ h
  case freeRole p => split; rfl; exact freeRole_bad _ _ h
  case freeConf p => exact freeConf_bad _ _ h
  all_goals repeat' split
  all_goals first | exact h | rfl

/-- A call outside of the contract. -/
theorem not_allowed (g : Good tr H) (call : Call) (ha : ¬ Allowed tr call) : (step H call).1.bad = true := by
  have key : ∀ {h k n}, ¬ H.kindOf h = some k → H.node h = some n → kind n ≠ k := by
    intro h k n h1 h2 h3
    exact h1 (by simp [Heap.kindOf, h2, h3])
  cases call with
  | newConf mem => exact absurd trivial ha
  | newPol name m1 m2 => exact absurd trivial ha
  | newRole name m1 m2 => exact absurd trivial ha
  | createStmt p e mem =>
    simp only [Allowed, ← g.j.pol] at ha
    simp only [step]
    split
    · rename_i h; exact absurd rfl (key ha h)
    · rfl
  | createCond s op k m1 m2 =>
    simp only [Allowed, ← StmtAlive_iff g.j] at ha
    simp only [step]
    split
    · rename_i h; exact absurd rfl (key ha h)
    · rfl
  | addAction s v mem =>
    simp only [Allowed, ← StmtAlive_iff g.j] at ha
    simp only [step]
    split
    · rename_i h; exact absurd rfl (key ha h)
    · rfl
  | addValue c v mem =>
    simp only [Allowed, ← CondAlive_iff g.j] at ha
    simp only [step]
    split
    · rename_i h; exact absurd rfl (key ha h)
    · rfl
  | addRolePolicy r v mem =>
    simp only [Allowed, ← g.j.role] at ha
    simp only [step]
    split
    · rename_i h; exact absurd rfl (key ha h)
    · rfl
  | setUnpaired c r mem =>
    simp only [Allowed, ← g.j.conf] at ha
    simp only [step]
    split
    · rename_i h; exact absurd rfl (key ha h)
    · rfl
  | addPol c p =>
    simp only [Allowed, ← g.j.conf, ← g.j.pol] at ha
    simp only [step]
    split
    · rename_i h1 h2
      have hp : H.kindOf p = some .pol := by simp [Heap.kindOf, h2, kind]
      cases ho : H.owned p with
      | true => rfl
      | false =>
        exact absurd ⟨by simp [Heap.kindOf, h1, kind], hp, (unowned_pol g.inv g.j hp).1 ((owned_false g.inv).1 ho)⟩ ha
    · rfl
  | addRole c p =>
    simp only [Allowed, ← g.j.conf, ← g.j.role] at ha
    simp only [step]
    split
    · rename_i h1 h2
      have hp : H.kindOf p = some .role := by simp [Heap.kindOf, h2, kind]
      cases ho : H.owned p with
      | true => rfl
      | false =>
        exact absurd ⟨by simp [Heap.kindOf, h1, kind], hp, (unowned_role g.inv g.j hp).1 ((owned_false g.inv).1 ho)⟩ ha
    · rfl
  | freePol p =>
    simp only [Allowed, ← g.j.pol] at ha
    simp only [step]
    cases ho : H.owned p with
    | true => rfl
    | false =>
      show (freePol H p).bad = true
      unfold freePol
      split
      · rename_i h2
        have hp : H.kindOf p = some .pol := by simp [Heap.kindOf, h2, kind]
        exact absurd ⟨hp, (unowned_pol g.inv g.j hp).1 ((owned_false g.inv).1 ho)⟩ ha
      · rfl
  | freeRole p =>
    simp only [Allowed, ← g.j.role] at ha
    simp only [step]
    cases ho : H.owned p with
    | true => rfl
    | false =>
      show (freeRole H p).bad = true
      unfold freeRole
      split
      · rename_i h2
        have hp : H.kindOf p = some .role := by simp [Heap.kindOf, h2, kind]
        exact absurd ⟨hp, (unowned_role g.inv g.j hp).1 ((owned_false g.inv).1 ho)⟩ ha
      · rfl
  | freeConf c =>
    simp only [Allowed, ← g.j.conf] at ha
    show (freeConf H c).bad = true
    unfold freeConf
    split
    · rename_i h; exact absurd rfl (key ha h)
    · rfl

theorem proper_snoc {tr : Trace} {e : Call × Ret} (h1 : Proper tr) (h2 : Allowed tr e.1) : Proper (tr ++ [e]) := by
  intro pre x post hx
  rcases List.eq_nil_or_concat post with rfl | ⟨l, a, rfl⟩
  · have : tr ++ [e] = pre ++ [x] := hx
    obtain ⟨h3, h4⟩ := List.append_inj' this rfl
    cases h4; subst h3; exact h2
  · have : tr ++ [e] = (pre ++ x :: l) ++ [a] := by rw [hx]; simp
    obtain ⟨h3, _⟩ := List.append_inj' this rfl
    exact h1 pre x l h3

theorem run_proper (cs : List Call) : (run cs).1.bad = false → Proper (run cs).2 := by
  induction cs using snoc_ind with
  | h0 => intro _ pre x post h; cases pre <;> cases h
  | h1 cs c ih =>
    rw [run_snoc]
    intro h
    have hb : (run cs).1.bad = false := by
      cases hb : (run cs).1.bad with
      | false => rfl
      | true => rw [step_bad _ _ hb] at h; cases h
    refine proper_snoc (ih hb) ?_
    refine Classical.byContradiction fun hn => ?_
    rw [not_allowed (good_run cs (ih hb)) c hn] at h
    cases h

theorem total_zero {f : Nat → Int} (h : ∀ x, f x = 0) (n : Nat) : total f n = 0 := by
  induction n with
  | zero => rfl
  | succ n ih => rw [total, ih, h]; rfl

end Verif.Iam.Builder
