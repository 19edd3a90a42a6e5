import Verif.Iam.ConfigLoadSpec

/-!
# Loading an IAM configuration when memory is short: lemmas
-/

namespace Verif.Iam.ConfigLoad

open Verif.Json (getItem asStr asArr asNum isObj)
open Spec

/-! ## Blocks -/

/-- Between two heaps the blocks held go from `n` to `m`. -/
def Bal (h h' : Heap) (n m : Nat) : Prop := h'.made + h.freed + n = h.made + h'.freed + m

theorem alloc_bal (h : Heap) : Bal h (alloc h).2 0 (alloc h).1.toNat := by
  unfold alloc Bal
  split <;> simp <;> omega

theorem Bal.trans {h h' h'' : Heap} {n m m' k : Nat} (a : Bal h h' n m) (b : Bal h' h'' m' k) :
    Bal h h'' (n + m') (m + k) := by unfold Bal at *; omega

theorem free_bal {h h' : Heap} {n m k : Nat} (a : Bal h h' n (m + k)) : Bal h (free k h') n m := by
  unfold Bal free at *; dsimp only; omega

theorem Bal.cast {h h' : Heap} {n m n' m' : Nat} (a : Bal h h' n m) (e : n + m' = n' + m) : Bal h h' n' m' := by
  unfold Bal at *; omega

theorem Bal.refl (h : Heap) (n : Nat) : Bal h h n n := by unfold Bal; omega

theorem insert_bal (set : List String) (s : String) (h : Heap) :
    Bal h (insert set s h).2.2 set.length (insert set s h).2.1.length := by
  have := alloc_bal h
  unfold insert
  split
  · exact Bal.refl _ _
  · split
    · rename_i hm; rw [hm] at this; exact this.cast (by simp)
    · rename_i hm; rw [Bool.not_eq_true] at hm; rw [hm] at this; exact this.cast (by simp)

theorem insertValues_bal (l : List Doc) : ∀ (set : List String) (h : Heap),
    Bal h (insertValues set h l).2.2 set.length (insertValues set h l).2.1.length := by
  induction l with
  | nil => intro set h; exact Bal.refl _ _
  | cons x l ih =>
    intro set h
    cases x with
    | str s => exact ((insert_bal set s h).trans (ih _ _)).cast (by simp only [insertValues]; omega)
    | _ => exact Bal.refl _ _

theorem insertActions_bal (l : List Doc) : ∀ (set : List String) (h : Heap),
    Bal h (insertActions set h l).2.2 set.length (insertActions set h l).2.1.length := by
  induction l with
  | nil => intro set h; exact Bal.refl _ _
  | cons x l ih =>
    intro set h
    cases x with
    | str s =>
      unfold insertActions
      split
      · exact ((insert_bal set s h).trans (ih _ _)).cast (by omega)
      · exact insert_bal set s h
    | _ => exact Bal.refl _ _

theorem insertPolicies_bal (l : List Doc) : ∀ (set : List String) (h : Heap),
    Bal h (insertPolicies set h l).2 set.length (insertPolicies set h l).1.length := by
  induction l with
  | nil => intro set h; exact Bal.refl _ _
  | cons x l ih =>
    intro set h
    cases x with
    | str s => exact ((insert_bal set s h).trans (ih _ _)).cast (by simp only [insertPolicies]; omega)
    | _ => exact ih _ _

/-- The blocks of what was loaded, if something was. -/
def osize {α} (size : α → Nat) : Option α → Nat
  | none => 0
  | some a => size a

theorem condParse_bal (op : Op) (kv : List (String × Doc)) (h : Heap) :
    Bal h (condParse op kv h).2.2 1 (condParse op kv h).2.1.size := by
  unfold condParse
  split
  · rename_i key values _
    have h1 := alloc_bal h
    have h2 := insertValues_bal values [] (alloc h).2
    have := h1.trans h2
    refine this.cast ?_
    unfold Cond.size
    dsimp only
    cases (alloc h).1 <;> simp <;> omega
  · exact Bal.refl _ _

theorem condFromJson_bal (x : Doc) (h : Heap) :
    Bal h (condFromJson x h).2 0 (osize Cond.size (condFromJson x h).1) := by
  unfold condFromJson
  split
  · split
    · exact Bal.refl _ _
    · rename_i kv _ _ op _
      have h1 := alloc_bal h
      split
      · rename_i hm
        rw [hm] at h1
        have h2 := h1.trans (condParse_bal op kv (alloc h).2)
        dsimp only
        split
        · exact h2.cast (by simp [osize])
        · exact free_bal (h2.cast (by simp [osize]))
      · rename_i hm
        rw [Bool.not_eq_true] at hm; rw [hm] at h1
        exact h1
  · exact Bal.refl _ _

theorem loadList_bal {α} {f : Doc → Heap → Option α × Heap} {size : α → Nat}
    (hf : ∀ x h, Bal h (f x h).2 0 (osize size (f x h).1)) (l : List Doc) : ∀ (acc : List α) (h : Heap),
    Bal h (loadList f acc h l).2.2 (acc.map size).sum ((loadList f acc h l).2.1.map size).sum := by
  induction l with
  | nil => intro acc h; exact Bal.refl _ _
  | cons x l ih =>
    intro acc h
    have h1 := hf x h
    unfold loadList
    rcases hx : f x h with ⟨a, h'⟩
    rw [hx] at h1
    cases a with
    | none => exact h1.cast (by simp [osize])
    | some a =>
      refine (h1.trans (ih (acc ++ [a]) h')).cast ?_
      simp [osize]; omega

theorem stmtParse_bal (e : Effect) (actions : List Doc) (conditions : Option (List Doc)) (h : Heap) :
    Bal h (stmtParse e actions conditions h).2.2 1 (stmtParse e actions conditions h).2.1.size := by
  have h1 := insertActions_bal actions [] h
  unfold stmtParse
  dsimp only
  split
  · exact h1.cast (by simp [Stmt.size])
  · split
    · rename_i l
      exact (h1.trans (loadList_bal condFromJson_bal l [] (insertActions [] h actions).2.2)).cast
        (by simp [Stmt.size]; omega)
    · exact h1.cast (by simp [Stmt.size])

theorem stmtFromJson_bal (x : Doc) (h : Heap) :
    Bal h (stmtFromJson x h).2 0 (osize Stmt.size (stmtFromJson x h).1) := by
  unfold stmtFromJson
  split
  · exact Bal.refl _ _
  · split
    · rename_i e actions _ _
      split
      · exact Bal.refl _ _
      · rename_i e' _
        have h1 := alloc_bal h
        split
        · rename_i hm
          rw [hm] at h1
          have h2 := h1.trans (stmtParse_bal e' actions (asArr (getItem x "Conditions")) (alloc h).2)
          dsimp only
          split
          · exact h2.cast (by simp [osize])
          · exact free_bal (h2.cast (by simp [osize]))
        · rename_i hm
          rw [Bool.not_eq_true] at hm; rw [hm] at h1
          exact h1
    · exact Bal.refl _ _

theorem allocNamed_bal (h : Heap) : Bal h (allocNamed h).2 0 (if (allocNamed h).1 then 2 else 0) := by
  have h1 := alloc_bal h
  have h2 := alloc_bal (alloc h).2
  unfold allocNamed
  dsimp only
  split
  · rename_i hm
    obtain ⟨ha, hb⟩ := Bool.and_eq_true _ _ ▸ hm
    rw [ha] at h1; rw [hb] at h2
    exact (h1.trans h2).cast (by simp)
  · exact free_bal ((h1.trans h2).cast (by simp))

theorem polFromJson_bal (x : Doc) (h : Heap) :
    Bal h (polFromJson x h).2 0 (osize Pol.size (polFromJson x h).1) := by
  unfold polFromJson
  split
  · exact Bal.refl _ _
  · split
    · rename_i id l _ _
      have h1 := allocNamed_bal h
      split
      · rename_i hm
        rw [if_pos hm] at h1
        have h2 := h1.trans (loadList_bal stmtFromJson_bal l [] (allocNamed h).2)
        dsimp only
        split
        · exact h2.cast (by simp [osize, Pol.size])
        · exact free_bal (h2.cast (by simp [osize, Pol.size]))
      · rename_i hm
        rw [if_neg hm] at h1
        exact h1
    · exact Bal.refl _ _

theorem roleLoad_bal (x : Doc) (h : Heap) : Bal h (roleLoad x h).2 0 (osize roleSize (roleLoad x h).1) := by
  unfold roleLoad
  split
  · rename_i id l _ _
    have h1 := allocNamed_bal h
    split
    · rename_i hm
      rw [if_pos hm] at h1
      exact (h1.trans (insertPolicies_bal l [] (allocNamed h).2)).cast (by simp [osize, roleSize])
    · rename_i hm
      rw [if_neg hm] at h1
      exact h1
  · exact Bal.refl _ _

theorem setUnpaired_bal (conf : Conf) (role : String) (h : Heap) :
    Bal h (setUnpaired conf role h).2 conf.size (setUnpaired conf role h).1.size := by
  have h1 := alloc_bal h
  unfold setUnpaired
  split
  · rename_i hm
    rw [hm] at h1
    refine free_bal (h1.cast ?_)
    simp [Conf.size]; omega
  · rename_i hm
    rw [Bool.not_eq_true] at hm; rw [hm] at h1
    exact h1.cast (by simp)

theorem load_bal (conf : Conf) (root : Option Doc) (h : Heap) :
    Bal h (load conf root h).2.2 conf.size (load conf root h).2.1.size := by
  unfold load
  split
  · exact Bal.refl _ _
  · rename_i root
    split
    · exact Bal.refl _ _
    · split
      · rename_i policies roles _ _
        split
        · exact Bal.refl _ _
        · split
          · rename_i config _
            have hp := loadList_bal polFromJson_bal policies conf.policies h
            dsimp only
            split
            · exact hp.cast (by simp [Conf.size]; omega)
            · have hr := loadList_bal roleLoad_bal roles conf.roles (loadList polFromJson conf.policies h policies).2.2
              have hpr := hp.trans hr
              split
              · exact hpr.cast (by simp [Conf.size]; omega)
              · split
                · rename_i role _
                  exact (hpr.trans (setUnpaired_bal _ role _)).cast (by simp [Conf.size]; omega)
                · exact hpr.cast (by simp [Conf.size]; omega)
          · exact Bal.refl _ _
      · exact Bal.refl _ _

/-! ## What is missing -/

theorem mem_setInsert {set : List String} {s x : String} : x ∈ setInsert set s ↔ x ∈ set ∨ x = s := by
  unfold setInsert
  split
  · rename_i h
    exact ⟨.inl, fun hx => hx.elim id (fun e => e ▸ h)⟩
  · simp

theorem insert_sub (set : List String) (s : String) (h : Heap) : (insert set s h).2.1 ⊆ setInsert set s := by
  intro x hx
  rw [mem_setInsert]
  unfold insert at hx
  split at hx
  · exact .inl hx
  · split at hx
    · simpa using hx
    · exact .inl hx

theorem setInsert_mono {a b : List String} (h : a ⊆ b) (s : String) : setInsert a s ⊆ setInsert b s := by
  intro x hx
  rw [mem_setInsert] at *
  exact hx.imp (fun y => h y) id

theorem insertValues_less (l : List Doc) : ∀ (set set0 : List String) (h : Heap), set ⊆ set0 →
    (insertValues set h l).1 = true → ∃ v, insertAll set0 l = some v ∧ (insertValues set h l).2.1 ⊆ v := by
  induction l with
  | nil => intro set set0 h hs _; exact ⟨set0, rfl, hs⟩
  | cons x l ih =>
    intro set set0 h hs ht
    cases x with
    | str s => exact ih _ _ _ ((insert_sub set s h).trans (setInsert_mono hs s)) ht
    | _ => cases ht

theorem insertPolicies_less (l : List Doc) : ∀ (set set0 : List String) (h : Heap), set ⊆ set0 →
    (insertPolicies set h l).1 ⊆ insertStrings set0 l := by
  induction l with
  | nil => intro set set0 h hs; exact hs
  | cons x l ih =>
    intro set set0 h hs
    cases x with
    | str s => exact ih _ _ _ ((insert_sub set s h).trans (setInsert_mono hs s))
    | _ => exact ih _ _ _ hs

theorem insert_ok {set : List String} {s : String} {h : Heap} (ht : (insert set s h).1 = true) :
    (insert set s h).2.1 = setInsert set s := by
  unfold insert setInsert at *
  split
  · rfl
  · rename_i hm
    rw [if_neg hm] at ht
    split
    · rfl
    · rename_i ha
      rw [if_neg ha] at ht
      cases ht

theorem insertActions_ok (l : List Doc) : ∀ (set : List String) (h : Heap), (insertActions set h l).1 = true →
    insertAll set l = some (insertActions set h l).2.1 := by
  induction l with
  | nil => intro set h _; rfl
  | cons x l ih =>
    intro set h ht
    cases x with
    | str s =>
      unfold insertActions at ht ⊢
      split at ht
      · rename_i hi
        rw [if_pos hi]
        unfold insertAll
        rw [← insert_ok hi]
        exact ih _ _ ht
      · cases ht
    | _ => cases ht

theorem condFromJson_less {x : Doc} {h : Heap} {c : Cond} (hc : (condFromJson x h).1 = some c) :
    ∃ d, conditionFromJson x = some d ∧ CondLess c d := by
  unfold condFromJson at hc
  split at hc
  · rename_i name kv tl
    split at hc
    · cases hc
    · rename_i op hop
      split at hc
      · dsimp only at hc
        split at hc
        · rename_i ht
          simp only [Option.some.injEq] at hc
          subst hc
          unfold condParse at ht ⊢
          split at ht
          · rename_i key values tl'
            obtain ⟨v, hv, hs⟩ := insertValues_less values [] [] _ (List.Subset.refl _) ht
            refine ⟨⟨op, key, v⟩, ?_, rfl, ?_, hs⟩
            · unfold conditionFromJson
              simp only [hop, hv, Option.map_some]
            · intro k hk
              dsimp only at hk ⊢
              split at hk
              · cases hk; rfl
              · cases hk
          · cases ht
        · cases hc
      · cases hc
  · cases hc

theorem loadList_less {α β} {f : Doc → Heap → Option α × Heap} {g : Doc → Option β} {R : α → β → Prop}
    (hf : ∀ x h a, (f x h).1 = some a → ∃ b, g x = some b ∧ R a b) (l : List Doc) : ∀ (acc : List α) (h : Heap),
    (loadList f acc h l).1 = true → ∃ as bs, (loadList f acc h l).2.1 = acc ++ as ∧ loadAll g l = some bs ∧
      List.Forall₂ R as bs := by
  induction l with
  | nil => intro acc h _; exact ⟨[], [], by simp [loadList], rfl, .nil⟩
  | cons x l ih =>
    intro acc h ht
    unfold loadList at ht ⊢
    have hx := hf x h
    rcases hfx : f x h with ⟨a, h'⟩
    rw [hfx] at hx ht
    cases a with
    | none => cases ht
    | some a =>
      obtain ⟨b, hb, hR⟩ := hx a rfl
      obtain ⟨as, bs, h1, h2, h3⟩ := ih (acc ++ [a]) h' ht
      refine ⟨a :: as, b :: bs, ?_, ?_, .cons hR h3⟩
      · dsimp only; rw [h1]; simp
      · unfold loadAll; rw [hb]; dsimp only; rw [h2]; rfl

theorem stmtFromJson_less {x : Doc} {h : Heap} {s : Stmt} (hs : (stmtFromJson x h).1 = some s) :
    ∃ d, statementFromJson x = some d ∧ StmtLess s d := by
  unfold stmtFromJson at hs
  unfold statementFromJson
  split at hs
  · cases hs
  · rename_i ho
    rw [if_neg ho]
    split at hs
    · rename_i e actions he ha
      rw [he, ha]
      dsimp only
      split at hs
      · cases hs
      · rename_i e' hp
        rw [hp]
        dsimp only
        split at hs
        · dsimp only at hs
          split at hs
          · rename_i ht
            simp only [Option.some.injEq] at hs
            subst hs
            unfold stmtParse at ht ⊢
            dsimp only at ht ⊢
            split at ht
            · cases ht
            · rename_i hin
              rw [Bool.not_eq_true, Bool.not_eq_false'] at hin
              have := insertActions_ok actions [] _ hin
              rw [this]
              dsimp only
              rw [if_neg (by simp [hin])]
              cases hcs : asArr (getItem x "Conditions") with
              | none => exact ⟨_, rfl, rfl, rfl, .nil⟩
              | some l =>
                rw [hcs] at ht
                obtain ⟨as, bs, h1, h2, h3⟩ := loadList_less (f := condFromJson) (fun _ _ _ => condFromJson_less) l [] _ ht
                dsimp only
                rw [h2]
                refine ⟨_, rfl, rfl, rfl, ?_⟩
                dsimp only
                rw [h1]
                exact h3
          · cases hs
        · cases hs
    · cases hs

theorem polFromJson_less {x : Doc} {h : Heap} {p : Pol} (hs : (polFromJson x h).1 = some p) :
    ∃ d, policyFromJson x = some d ∧ PolLess p d := by
  unfold polFromJson at hs
  unfold policyFromJson
  split at hs
  · cases hs
  · rename_i ho
    rw [if_neg ho]
    split at hs
    · rename_i id l hi hl
      rw [hi, hl]
      dsimp only
      split at hs
      · dsimp only at hs
        split at hs
        · rename_i ht
          simp only [Option.some.injEq] at hs
          subst hs
          obtain ⟨as, bs, h1, h2, h3⟩ := loadList_less (f := stmtFromJson) (fun _ _ _ => stmtFromJson_less) l [] _ ht
          rw [h2]
          refine ⟨_, rfl, rfl, ?_⟩
          dsimp only
          rw [h1]
          exact h3
        · cases hs
      · cases hs
    · cases hs

theorem roleLoad_less {x : Doc} {h : Heap} {r : Role} (hs : (roleLoad x h).1 = some r) :
    ∃ d, roleFromJson x = some d ∧ RoleLess r d := by
  unfold roleLoad at hs
  unfold roleFromJson
  split at hs
  · rename_i id l hi hl
    rw [hi, hl]
    dsimp only
    split at hs
    · simp only [Option.some.injEq] at hs
      subst hs
      exact ⟨_, rfl, rfl, insertPolicies_less l [] [] _ (List.Subset.refl _)⟩
    · cases hs
  · cases hs

theorem load_less {root : Doc} {h : Heap} (ht : (load {} (some root) h).1 = true) :
    ∃ c, configFromJson ⟨[], [], none⟩ root = some c ∧ Less (load {} (some root) h).2.1 c := by
  unfold load at ht ⊢
  unfold configFromJson
  dsimp only at ht ⊢
  split at ht
  · cases ht
  · rename_i ho
    rw [if_neg ho, if_neg ho]
    split at ht
    · rename_i policies roles hp hr
      rw [hp, hr]
      dsimp only
      split at ht
      · cases ht
      · rename_i hv
        rw [if_neg hv, if_neg hv]
        split at ht
        · rename_i config hc
          rw [hc]
          dsimp only at ht ⊢
          split at ht
          · cases ht
          · rename_i hpt
            rw [if_neg hpt]
            rw [Bool.not_eq_true, Bool.not_eq_false'] at hpt
            obtain ⟨ps, ps', p1, p2, p3⟩ := loadList_less (f := polFromJson) (fun _ _ _ => polFromJson_less) policies [] _ hpt
            split at ht
            · cases ht
            · rename_i hrt
              rw [if_neg hrt]
              rw [Bool.not_eq_true, Bool.not_eq_false'] at hrt
              obtain ⟨rs, rs', r1, r2, r3⟩ := loadList_less (f := roleLoad) (fun _ _ _ => roleLoad_less) roles [] _ hrt
              rw [p2, r2]
              refine ⟨_, rfl, ?_⟩
              rw [List.nil_append] at p1 r1
              cases hu : asStr (getItem (.obj config) "UnpairedRole") with
              | none => exact ⟨by dsimp only; rw [p1]; exact p3, by dsimp only; rw [r1]; exact r3, .inl rfl⟩
              | some role =>
                unfold setUnpaired
                dsimp only
                split
                · exact ⟨by dsimp only; rw [p1]; exact p3, by dsimp only; rw [r1]; exact r3, .inr rfl⟩
                · exact ⟨by dsimp only; rw [p1]; exact p3, by dsimp only; rw [r1]; exact r3, .inl rfl⟩
        · cases ht
    · cases ht

/-! ## With memory enough -/

theorem alloc_plenty {h : Heap} (hp : Plenty h) : (alloc h).1 = true ∧ Plenty (alloc h).2 := by
  unfold alloc
  split
  · exact ⟨rfl, hp⟩
  · rename_i b l hl
    have hb : b = true := hp b (by rw [hl]; simp)
    subst hb
    refine ⟨rfl, ?_⟩
    intro b hb
    exact hp b (by rw [hl]; exact List.mem_cons_of_mem _ hb)

theorem free_plenty {h : Heap} (n : Nat) (hp : Plenty h) : Plenty (free n h) := hp

theorem insert_plenty {h : Heap} (hp : Plenty h) (set : List String) (s : String) :
    (insert set s h).1 = true ∧ (insert set s h).2.1 = setInsert set s ∧ Plenty (insert set s h).2.2 := by
  unfold insert setInsert
  split
  · exact ⟨rfl, rfl, hp⟩
  · rw [(alloc_plenty hp).1]
    exact ⟨rfl, rfl, (alloc_plenty hp).2⟩

theorem insertValues_plenty (l : List Doc) : ∀ (set : List String) (h : Heap), Plenty h →
    Plenty (insertValues set h l).2.2 ∧
    insertAll set l = if (insertValues set h l).1 then some (insertValues set h l).2.1 else none := by
  induction l with
  | nil => intro set h hp; exact ⟨hp, rfl⟩
  | cons x l ih =>
    intro set h hp
    cases x with
    | str s =>
      obtain ⟨_, h2, h3⟩ := insert_plenty hp set s
      have := ih (insert set s h).2.1 _ h3
      rw [h2] at this
      unfold insertValues insertAll
      rw [h2]
      exact this
    | _ => exact ⟨hp, rfl⟩

theorem insertActions_plenty (l : List Doc) : ∀ (set : List String) (h : Heap), Plenty h →
    Plenty (insertActions set h l).2.2 ∧
    insertAll set l = if (insertActions set h l).1 then some (insertActions set h l).2.1 else none := by
  induction l with
  | nil => intro set h hp; exact ⟨hp, rfl⟩
  | cons x l ih =>
    intro set h hp
    cases x with
    | str s =>
      obtain ⟨h1, h2, h3⟩ := insert_plenty hp set s
      have := ih (insert set s h).2.1 _ h3
      rw [h2] at this
      unfold insertActions insertAll
      rw [if_pos h1, h2]
      exact this
    | _ => exact ⟨hp, rfl⟩

theorem insertPolicies_plenty (l : List Doc) : ∀ (set : List String) (h : Heap), Plenty h →
    Plenty (insertPolicies set h l).2 ∧ (insertPolicies set h l).1 = insertStrings set l := by
  induction l with
  | nil => intro set h hp; exact ⟨hp, rfl⟩
  | cons x l ih =>
    intro set h hp
    cases x with
    | str s =>
      obtain ⟨_, h2, h3⟩ := insert_plenty hp set s
      have := ih (insert set s h).2.1 _ h3
      rw [h2] at this
      unfold insertPolicies insertStrings
      rw [h2]
      exact this
    | _ => exact ih _ _ hp

theorem condFromJson_plenty (x : Doc) (h : Heap) (hp : Plenty h) :
    Plenty (condFromJson x h).2 ∧ (condFromJson x h).1 = (conditionFromJson x).map wholeCond := by
  unfold condFromJson conditionFromJson
  split
  · rename_i name kv tl
    cases hop : parseOp name with
    | none => exact ⟨hp, by simp only [hop, Option.map_none]⟩
    | some op =>
      obtain ⟨a1, a2⟩ := alloc_plenty hp
      simp only [hop]
      rw [if_pos a1]
      unfold condParse
      split
      · rename_i key values tl'
        obtain ⟨b1, b2⟩ := alloc_plenty a2
        obtain ⟨c1, c2⟩ := insertValues_plenty values [] _ b2
        dsimp only
        rw [c2, b1]
        by_cases hv : (insertValues [] (alloc (alloc h).2).2 values).1 = true
        · simp only [if_pos hv]
          exact ⟨c1, rfl⟩
        · simp only [if_neg hv]
          exact ⟨c1, rfl⟩
      · rename_i hne
        refine ⟨a2, ?_⟩
        simp only [Bool.false_eq_true, if_false]
        rfl
  · rename_i hne
    refine ⟨hp, ?_⟩
    split
    · rename_i name kv tl
      exact absurd rfl (hne name kv tl)
    · rfl

theorem loadList_plenty {α β} {f : Doc → Heap → Option α × Heap} {g : Doc → Option β} {w : β → α}
    (hf : ∀ x h, Plenty h → Plenty (f x h).2 ∧ (f x h).1 = (g x).map w) (l : List Doc) :
    ∀ (acc : List α) (h : Heap), Plenty h → Plenty (loadList f acc h l).2.2 ∧
      match loadAll g l with
      | some bs => (loadList f acc h l).1 = true ∧ (loadList f acc h l).2.1 = acc ++ bs.map w
      | none => (loadList f acc h l).1 = false := by
  induction l with
  | nil => intro acc h hp; exact ⟨hp, rfl, by simp [loadList]⟩
  | cons x l ih =>
    intro acc h hp
    obtain ⟨h1, h2⟩ := hf x h hp
    unfold loadList loadAll
    rcases hfx : f x h with ⟨a, h'⟩
    rw [hfx] at h1 h2
    dsimp only at h1 h2
    cases hg : g x with
    | none =>
      rw [hg] at h2
      subst h2
      exact ⟨h1, rfl⟩
    | some b =>
      rw [hg] at h2
      subst h2
      obtain ⟨i1, i2⟩ := ih (acc ++ [w b]) h' h1
      refine ⟨i1, ?_⟩
      dsimp only
      cases hl : loadAll g l with
      | none => rw [hl] at i2; exact i2
      | some bs =>
        rw [hl] at i2
        exact ⟨i2.1, by simpa using i2.2⟩

theorem stmtFromJson_plenty (x : Doc) (h : Heap) (hp : Plenty h) :
    Plenty (stmtFromJson x h).2 ∧ (stmtFromJson x h).1 = (statementFromJson x).map wholeStmt := by
  unfold stmtFromJson statementFromJson
  split
  · exact ⟨hp, rfl⟩
  · cases asStr (getItem x "Effect") with
    | none => exact ⟨hp, rfl⟩
    | some e =>
      cases asArr (getItem x "Actions") with
      | none => exact ⟨hp, rfl⟩
      | some actions =>
        dsimp only
        cases parseEffect e with
        | none => exact ⟨hp, rfl⟩
        | some e' =>
          obtain ⟨a1, a2⟩ := alloc_plenty hp
          obtain ⟨c1, c2⟩ := insertActions_plenty actions [] _ a2
          dsimp only
          rw [if_pos a1, c2]
          unfold stmtParse
          cases hi : (insertActions [] (alloc h).2 actions).1 with
          | false =>
            simp only [hi, Bool.not_false, if_true, Bool.false_eq_true, if_false]
            exact ⟨c1, rfl⟩
          | true =>
            simp only [hi, Bool.not_true, if_true, Bool.false_eq_true, if_false]
            cases asArr (getItem x "Conditions") with
            | none => exact ⟨c1, rfl⟩
            | some l =>
              obtain ⟨d1, d2⟩ := loadList_plenty condFromJson_plenty l [] _ c1
              dsimp only
              cases hl : loadAll conditionFromJson l with
              | none =>
                rw [hl] at d2
                dsimp only at d2
                simp only [Bool.not_true, Bool.false_eq_true, if_false, d2, if_true, Option.map_none]
                exact ⟨d1, trivial⟩
              | some cs =>
                rw [hl] at d2
                simp only [Bool.not_true, Bool.false_eq_true, if_false, d2.1, if_true, Option.map_some]
                refine ⟨d1, ?_⟩
                rw [d2.2]
                rfl

theorem allocNamed_plenty {h : Heap} (hp : Plenty h) : (allocNamed h).1 = true ∧ Plenty (allocNamed h).2 := by
  obtain ⟨a1, a2⟩ := alloc_plenty hp
  obtain ⟨b1, b2⟩ := alloc_plenty a2
  unfold allocNamed
  dsimp only
  rw [if_pos (by rw [a1, b1]; rfl)]
  exact ⟨rfl, b2⟩

theorem polFromJson_plenty (x : Doc) (h : Heap) (hp : Plenty h) :
    Plenty (polFromJson x h).2 ∧ (polFromJson x h).1 = (policyFromJson x).map wholePol := by
  unfold polFromJson policyFromJson
  split
  · exact ⟨hp, rfl⟩
  · cases asStr (getItem x "Id") with
    | none => exact ⟨hp, rfl⟩
    | some id =>
      cases asArr (getItem x "Statements") with
      | none => exact ⟨hp, rfl⟩
      | some l =>
        obtain ⟨a1, a2⟩ := allocNamed_plenty hp
        obtain ⟨d1, d2⟩ := loadList_plenty stmtFromJson_plenty l [] _ a2
        dsimp only
        rw [if_pos a1]
        cases hl : loadAll statementFromJson l with
        | none =>
          rw [hl] at d2
          dsimp only at d2
          simp only [Bool.false_eq_true, if_false, d2, Option.map_none]
          exact ⟨d1, trivial⟩
        | some ss =>
          rw [hl] at d2
          simp only [if_true, d2.1, Option.map_some]
          refine ⟨d1, ?_⟩
          rw [d2.2]
          rfl

theorem roleLoad_plenty (x : Doc) (h : Heap) (hp : Plenty h) :
    Plenty (roleLoad x h).2 ∧ (roleLoad x h).1 = (roleFromJson x).map id := by
  unfold roleLoad roleFromJson
  cases asStr (getItem x "Id") with
  | none => exact ⟨hp, rfl⟩
  | some name =>
    cases asArr (getItem x "Policies") with
    | none => exact ⟨hp, rfl⟩
    | some l =>
      obtain ⟨a1, a2⟩ := allocNamed_plenty hp
      obtain ⟨d1, d2⟩ := insertPolicies_plenty l [] _ a2
      dsimp only
      rw [if_pos a1, d2]
      exact ⟨d1, rfl⟩

theorem load_plenty (root : Doc) (h : Heap) (hp : Plenty h) :
    match configFromJson ⟨[], [], none⟩ root with
    | some c => (load {} (some root) h).1 = true ∧ (load {} (some root) h).2.1 = whole c
    | none => (load {} (some root) h).1 = false := by
  unfold load configFromJson
  dsimp only
  by_cases ho : (!isObj (some root)) = true
  · rw [if_pos ho, if_pos ho]
  · rw [if_neg ho, if_neg ho]
    cases asArr (getItem root "Policies") with
    | none => rfl
    | some policies =>
      cases asArr (getItem root "Roles") with
      | none => rfl
      | some roles =>
        dsimp only
        by_cases hv : asNum (getItem root "Version") ≠ some 1
        · rw [if_pos hv, if_pos hv]
        · rw [if_neg hv, if_neg hv]
          cases getItem root "Config" with
          | none => rfl
          | some config =>
            cases config with
            | obj config =>
              obtain ⟨p1, p2⟩ := loadList_plenty polFromJson_plenty policies [] h hp
              obtain ⟨r1, r2⟩ := loadList_plenty roleLoad_plenty roles [] _ p1
              dsimp only
              cases hpl : loadAll policyFromJson policies with
              | none =>
                rw [hpl] at p2
                dsimp only at p2
                simp only [p2, Bool.not_false, if_true]
              | some ps =>
                rw [hpl] at p2
                cases hrl : loadAll roleFromJson roles with
                | none =>
                  rw [hrl] at r2
                  dsimp only at r2
                  simp only [p2.1, r2, Bool.not_true, Bool.not_false, if_true, Bool.false_eq_true, if_false]
                | some rs =>
                  rw [hrl] at r2
                  simp only [p2.1, r2.1, Bool.not_true, Bool.false_eq_true, if_false]
                  cases asStr (getItem (.obj config) "UnpairedRole") with
                  | none =>
                    refine ⟨rfl, ?_⟩
                    dsimp only
                    rw [p2.2, r2.2]
                    simp [whole]
                  | some role =>
                    refine ⟨rfl, ?_⟩
                    dsimp only
                    unfold setUnpaired
                    rw [if_pos (alloc_plenty r1).1, p2.2, r2.2]
                    simp [whole]
            | _ => rfl

/-! ## Access -/

theorem matchConds_whole (N : NumSem) (attributes : Attrs) (l : List Condition) :
    matchConds N attributes (l.map wholeCond) = some (matchConditions N attributes l) := by
  induction l with
  | nil => rfl
  | cons c l ih =>
    have hw : condMatches N (wholeCond c) attributes = some (conditionMatches N c attributes) := rfl
    rw [List.map_cons, matchConds, hw]
    unfold matchConditions
    cases conditionMatches N c attributes <;> first | rfl | exact ih

theorem stmtEval_whole (N : NumSem) (s : Statement) (action : String) (attributes : Attrs) :
    stmtEval N (wholeStmt s) action attributes = some (statementEval N s action attributes) := by
  unfold stmtEval statementEval wholeStmt
  dsimp only
  rw [matchConds_whole]
  split
  · rfl
  · cases matchConditions N attributes s.conditions <;> rfl

theorem polEval_whole (N : NumSem) (action : String) (attributes : Attrs) (l : List Statement) : ∀ st,
    polEval N action attributes st (l.map wholeStmt) = some (l.foldl (policyStatementEval N action attributes) st) := by
  induction l with
  | nil => intro st; rfl
  | cons s l ih =>
    intro st
    have : polStmtEval N action attributes st (wholeStmt s) = some (policyStatementEval N action attributes st s) := by
      unfold polStmtEval policyStatementEval
      rw [stmtEval_whole]
      cases st <;> cases statementEval N s action attributes <;> rfl
    rw [List.map_cons, polEval, this]
    exact ih _

theorem find_whole (l : List Policy) (n : String) :
    (l.map wholePol).find? (fun x => x.id == n) = (l.find? (fun x => x.id == n)).map wholePol := by
  rw [List.find?_map]; rfl

theorem roleLoop_whole (N : NumSem) (c : Config) (action : String) (attributes : Attrs) (ps : List String) : ∀ st,
    roleLoop N (whole c) action attributes st ps = some (checkRoleLoop N c action attributes st ps) := by
  induction ps with
  | nil => intro st; rfl
  | cons p ps ih =>
    intro st
    unfold roleLoop checkRoleLoop findPolicy
    rw [show (whole c).policies = c.policies.map wholePol from rfl, find_whole]
    cases c.policies.find? (fun x => x.id == p) with
    | none => rfl
    | some pol =>
      dsimp only [Option.map_some, wholePol]
      rw [polEval_whole]
      exact ih _

theorem access_whole (N : NumSem) (c : Config) (role : Option String) (action : String) (attributes : Attrs) :
    access N (whole c) role action attributes =
      some (match findRole c role with
        | some r => checkAccessRole N c r action attributes
        | none => .error) := by
  unfold access findRole
  cases role with
  | none => rfl
  | some r =>
    dsimp only [whole]
    cases c.roles.find? (fun x => x.id == r) with
    | none => rfl
    | some role => exact roleLoop_whole N c action attributes role.policies _

/-! ### No wider -/

theorem status_cases (b : Bool) : (status b = .match_ ∧ b = true) ∨ (status b = .noMatch ∧ b = false) := by
  cases b
  · exact .inr ⟨rfl, rfl⟩
  · exact .inl ⟨rfl, rfl⟩

/-- A comparison of strings matches or does not match. -/
theorem matchOp_string {N : NumSem} {op : Op} (ho : op = .stringEquals ∨ op = .stringNotEquals) (a b : String) :
    matchOp N op a b = .match_ ∨ matchOp N op a b = .noMatch := by
  rcases ho with rfl | rfl
  · exact (status_cases _).imp And.left And.left
  · exact (status_cases _).imp And.left And.left

theorem matchValues_string {N : NumSem} {attributes : Attrs} {op : Op}
    (ho : op = .stringEquals ∨ op = .stringNotEquals) (a : String) (l : List String) :
    (matchValues N attributes op a l = .match_ ∧
      ∃ v ∈ l, ∃ r, resolveValue attributes v = some r ∧ matchOp N op a r = .match_) ∨
    (matchValues N attributes op a l = .noMatch ∧
      ∀ v ∈ l, ∀ r, resolveValue attributes v = some r → matchOp N op a r = .noMatch) := by
  induction l with
  | nil => exact .inr ⟨rfl, fun v hv => absurd hv List.not_mem_nil⟩
  | cons v l ih =>
    unfold matchValues
    cases hr : resolveValue attributes v with
    | none =>
      dsimp only
      rcases ih with ⟨h1, w, hw, h2⟩ | ⟨h1, h2⟩
      · exact .inl ⟨h1, w, List.mem_cons_of_mem _ hw, h2⟩
      · refine .inr ⟨h1, ?_⟩
        intro w hw r hwr
        rcases List.mem_cons.1 hw with rfl | hw
        · rw [hr] at hwr; cases hwr
        · exact h2 w hw r hwr
    | some r =>
      dsimp only
      rcases matchOp_string (N := N) ho a r with hm | hm
      · rw [hm]
        exact .inl ⟨rfl, v, List.mem_cons_self, r, hr, hm⟩
      · rw [hm]
        dsimp only
        rcases ih with ⟨h1, w, hw, h2⟩ | ⟨h1, h2⟩
        · exact .inl ⟨h1, w, List.mem_cons_of_mem _ hw, h2⟩
        · refine .inr ⟨h1, ?_⟩
          intro w hw r' hwr
          rcases List.mem_cons.1 hw with rfl | hw
          · rw [hr] at hwr; cases hwr; exact hm
          · exact h2 w hw r' hwr

theorem matchValues_mono {N : NumSem} {attributes : Attrs} {op : Op}
    (ho : op = .stringEquals ∨ op = .stringNotEquals) {a : String} {l l' : List String} (hs : l ⊆ l')
    (hm : matchValues N attributes op a l = .match_) : matchValues N attributes op a l' = .match_ := by
  rcases matchValues_string (N := N) (attributes := attributes) ho a l with ⟨_, v, hv, r, h1, h2⟩ | ⟨h1, _⟩
  · rcases matchValues_string (N := N) (attributes := attributes) ho a l' with ⟨h3, _⟩ | ⟨_, h3⟩
    · exact h3
    · rw [h3 v (hs hv) r h1] at h2; cases h2
  · rw [h1] at hm; cases hm

theorem matchConds_less {N : NumSem} {attributes : Attrs} {l : List Cond} {l' : List Condition}
    (hl : List.Forall₂ CondLess l l')
    (ho : ∀ x ∈ l', x.op = .stringEquals ∨ x.op = .stringNotEquals)
    (hm : matchConds N attributes l = some .match_) : matchConditions N attributes l' = .match_ := by
  induction hl with
  | nil => rfl
  | @cons a b l l' hab hl ih =>
    have hob := ho b List.mem_cons_self
    unfold matchConds at hm
    unfold matchConditions
    have : conditionMatches N b attributes = .match_ ∧ matchConds N attributes l = some .match_ := by
      unfold condMatches at hm
      cases hk : a.key with
      | none => rw [hk] at hm; cases hm
      | some k =>
        rw [hk] at hm
        dsimp only at hm
        obtain rfl := hab.key k hk
        unfold conditionMatches at hm ⊢
        dsimp only at hm
        cases ha : attributes.lookup b.key with
        | none => rw [ha] at hm; cases hm
        | some v =>
          rw [ha] at hm
          dsimp only at hm ⊢
          rw [hab.op] at hm
          cases hv : matchValues N attributes b.op v a.values with
          | match_ => rw [hv] at hm; exact ⟨matchValues_mono hob hab.values hv, hm⟩
          | noMatch => rw [hv] at hm; cases hm
          | error => rw [hv] at hm; cases hm
    rw [this.1]
    exact ih (fun x hx => ho x (List.mem_cons_of_mem _ hx)) this.2

theorem stmtEval_less {N : NumSem} {action : String} {attributes : Attrs} {s : Stmt} {s' : Statement}
    (hs : StmtLess s s') (ho : ∀ x ∈ s'.conditions, x.op = .stringEquals ∨ x.op = .stringNotEquals)
    (hm : stmtEval N s action attributes = some .allow) : statementEval N s' action attributes = .allow := by
  unfold stmtEval at hm
  unfold statementEval
  rw [hs.actions] at hm
  split at hm
  · cases hm
  · rename_i ha
    rw [if_neg ha]
    cases hc : matchConds N attributes s.conditions with
    | none => rw [hc] at hm; cases hm
    | some x =>
      cases x with
      | match_ =>
        rw [hc] at hm
        rw [matchConds_less hs.conditions ho hc]
        cases hm' : s'.effect <;> rw [hs.effect, hm'] at hm <;> first | rfl | cases hm
      | noMatch => rw [hc] at hm; cases hm
      | error => rw [hc] at hm; cases hm

theorem polEval_allow {N : NumSem} {action : String} {attributes : Attrs} {l : List Stmt} : ∀ {st : Effect},
    polEval N action attributes st l = some .allow →
    st = .allow ∨ ∃ s ∈ l, stmtEval N s action attributes = some .allow := by
  induction l with
  | nil => intro st h; simp only [polEval, Option.some.injEq] at h; exact .inl h
  | cons s l ih =>
    intro st h
    unfold polEval at h
    cases hp : polStmtEval N action attributes st s with
    | none => rw [hp] at h; cases h
    | some st' =>
      rw [hp] at h
      rcases ih h with rfl | ⟨x, hx, h2⟩
      · by_cases hst : st = .allow
        · exact .inl hst
        · refine .inr ⟨s, List.mem_cons_self, ?_⟩
          unfold polStmtEval at hp
          cases st with
          | deny => cases hp
          | error => cases hp
          | allow => exact absurd rfl hst
          | noMatch =>
            dsimp only at hp
            cases he : stmtEval N s action attributes with
            | none => rw [he] at hp; cases hp
            | some e => rw [he] at hp; cases e <;> first | rfl | cases hp
      · exact .inr ⟨x, List.mem_cons_of_mem _ hx, h2⟩

theorem roleLoop_allow {N : NumSem} {conf : Conf} {action : String} {attributes : Attrs} {ps : List String} :
    ∀ {st : Effect}, roleLoop N conf action attributes st ps = some .allow →
    st = .allow ∨ ∃ n ∈ ps, ∃ p, conf.policies.find? (fun x => x.id == n) = some p ∧
      ∃ s ∈ p.statements, stmtEval N s action attributes = some .allow := by
  induction ps with
  | nil => intro st h; simp only [roleLoop, Option.some.injEq] at h; exact .inl h
  | cons n ps ih =>
    intro st h
    unfold roleLoop at h
    cases hf : conf.policies.find? (fun x => x.id == n) with
    | none => rw [hf] at h; cases h
    | some p =>
      rw [hf] at h
      dsimp only at h
      cases hp : polEval N action attributes st p.statements with
      | none => rw [hp] at h; cases h
      | some st' =>
        rw [hp] at h
        rcases ih h with rfl | ⟨m, hm, h2⟩
        · exact (polEval_allow hp).imp id (fun h3 => ⟨n, List.mem_cons_self, p, hf, h3⟩)
        · exact .inr ⟨m, List.mem_cons_of_mem _ hm, h2⟩

theorem matchConditions_string {N : NumSem} {attributes : Attrs} {l : List Condition}
    (ho : ∀ x ∈ l, x.op = .stringEquals ∨ x.op = .stringNotEquals) :
    matchConditions N attributes l = .match_ ∨ matchConditions N attributes l = .noMatch := by
  induction l with
  | nil => exact .inl rfl
  | cons c l ih =>
    have : conditionMatches N c attributes = .match_ ∨ conditionMatches N c attributes = .noMatch := by
      unfold conditionMatches
      cases attributes.lookup c.key with
      | none => exact .inr rfl
      | some v => exact (matchValues_string (ho c List.mem_cons_self) v c.values).imp And.left And.left
    unfold matchConditions
    rcases this with h | h
    · rw [h]; exact ih (fun x hx => ho x (List.mem_cons_of_mem _ hx))
    · rw [h]; exact .inr rfl

/-- A statement of a configuration which only allows. -/
theorem statementEval_allowOnly {N : NumSem} {action : String} {attributes : Attrs} {s : Statement}
    (he : s.effect = .allow) (ho : ∀ x ∈ s.conditions, x.op = .stringEquals ∨ x.op = .stringNotEquals) :
    statementEval N s action attributes = .allow ∨ statementEval N s action attributes = .noMatch := by
  unfold statementEval
  split
  · exact .inr rfl
  · rcases matchConditions_string (N := N) (attributes := attributes) ho with h | h
    · rw [h]; exact .inl he
    · rw [h]; exact .inr rfl

theorem foldl_allowOnly {N : NumSem} {action : String} {attributes : Attrs} {l : List Statement}
    (he : ∀ s ∈ l, statementEval N s action attributes = .allow ∨ statementEval N s action attributes = .noMatch) :
    ∀ {st : Effect}, st = .allow ∨ st = .noMatch →
    (l.foldl (policyStatementEval N action attributes) st = .allow ∨
      l.foldl (policyStatementEval N action attributes) st = .noMatch) ∧
    (st = .allow ∨ (∃ s ∈ l, statementEval N s action attributes = .allow) →
      l.foldl (policyStatementEval N action attributes) st = .allow) := by
  induction l with
  | nil =>
    intro st hs
    refine ⟨hs, ?_⟩
    rintro (h | ⟨s, hs, _⟩)
    · exact h
    · cases hs
  | cons s l ih =>
    intro st hs
    have hs' : policyStatementEval N action attributes st s = .allow ∨
        policyStatementEval N action attributes st s = .noMatch := by
      unfold policyStatementEval
      rcases hs with rfl | rfl <;> rcases he s List.mem_cons_self with h | h <;> rw [h] <;> simp
    obtain ⟨h1, h2⟩ := ih (fun x hx => he x (List.mem_cons_of_mem _ hx)) hs'
    refine ⟨h1, ?_⟩
    intro h
    apply h2
    rcases h with rfl | ⟨x, hx, hxa⟩
    · left
      unfold policyStatementEval
      rcases he s List.mem_cons_self with h | h <;> rw [h]
    · rcases List.mem_cons.1 hx with rfl | hx
      · left
        unfold policyStatementEval
        rcases hs with rfl | rfl <;> rw [hxa]
      · exact .inr ⟨x, hx, hxa⟩

theorem checkRoleLoop_allowOnly {N : NumSem} {c : Config} (hc : AllowOnly c) {action : String} {attributes : Attrs}
    {ps : List String} (hps : ∀ n ∈ ps, ∃ p ∈ c.policies, p.id = n) : ∀ {st : Effect}, st = .allow ∨ st = .noMatch →
    (st = .allow ∨ ∃ n ∈ ps, ∃ p, findPolicy c n = some p ∧ ∃ s ∈ p.statements,
      statementEval N s action attributes = .allow) →
    checkRoleLoop N c action attributes st ps = .allow := by
  induction ps with
  | nil =>
    intro st hs h
    rcases h with h | ⟨n, hn, _⟩
    · exact h
    · cases hn
  | cons n ps ih =>
    intro st hs h
    unfold checkRoleLoop
    cases hf : findPolicy c n with
    | none =>
      obtain ⟨p, hp, hpn⟩ := hps n List.mem_cons_self
      have := List.find?_eq_none.1 hf p hp
      simp [hpn] at this
    | some p =>
      have hp : p ∈ c.policies := List.mem_of_find?_eq_some hf
      obtain ⟨h1, h2⟩ := foldl_allowOnly (N := N) (action := action) (attributes := attributes)
        (fun s hs => statementEval_allowOnly (hc.effect p hp s hs) (hc.ops p hp s hs)) hs
      refine ih (fun m hm => hps m (List.mem_cons_of_mem _ hm)) h1 ?_
      rcases h with h | ⟨m, hm, q, hq, hs⟩
      · exact .inl (h2 (.inl h))
      · rcases List.mem_cons.1 hm with rfl | hm
        · rw [hf] at hq
          cases hq
          exact .inl (h2 (.inr hs))
        · exact .inr ⟨m, hm, q, hq, hs⟩

theorem find_forall₂ {α β} {R : α → β → Prop} {f : α → Bool} {g : β → Bool} {l : List α} {l' : List β}
    (hl : List.Forall₂ R l l') (hfg : ∀ a b, R a b → f a = g b) {a : α} (ha : l.find? f = some a) :
    ∃ b, l'.find? g = some b ∧ R a b := by
  induction hl with
  | nil => cases ha
  | @cons x y l l' hxy hl ih =>
    rw [List.find?_cons] at ha ⊢
    rw [hfg x y hxy] at ha
    cases hg : g y with
    | true => rw [hg] at ha; cases ha; exact ⟨y, rfl, hxy⟩
    | false => rw [hg] at ha; exact ih ha

theorem mem_forall₂ {α β} {R : α → β → Prop} {l : List α} {l' : List β} (hl : List.Forall₂ R l l') {a : α}
    (ha : a ∈ l) : ∃ b ∈ l', R a b := by
  induction hl with
  | nil => cases ha
  | @cons x y l l' hxy hl ih =>
    rcases List.mem_cons.1 ha with rfl | ha
    · exact ⟨y, List.mem_cons_self, hxy⟩
    · obtain ⟨b, hb, h⟩ := ih ha
      exact ⟨b, List.mem_cons_of_mem _ hb, h⟩

theorem access_less {N : NumSem} {c : Config} {c' : Conf} (hl : Less c' c) (hc : AllowOnly c) {role : Option String}
    {action : String} {attributes : Attrs} (ha : access N c' role action attributes = some .allow) :
    granted N c role action attributes := by
  cases role with
  | none => cases ha
  | some r =>
    unfold access at ha
    dsimp only at ha
    cases hf : c'.roles.find? (fun x => x.id == r) with
    | none => rw [hf] at ha; cases ha
    | some ro =>
      rw [hf] at ha
      dsimp only at ha
      obtain ⟨ro', hf', hro⟩ := find_forall₂ (g := fun x => x.id == r) hl.roles
        (fun a b hab => by rw [hab.id]) hf
      refine ⟨ro', hf', ?_⟩
      refine checkRoleLoop_allowOnly hc (hc.exist ro' (List.mem_of_find?_eq_some hf')) (.inr rfl) (.inr ?_)
      rcases roleLoop_allow ha with h | ⟨n, hn, p, hp, s, hs, h⟩
      · cases h
      · obtain ⟨p', hp', hpp⟩ := find_forall₂ (g := fun x => x.id == n) hl.policies
          (fun a b hab => by rw [hab.id]) hp
        obtain ⟨s', hs', hss⟩ := mem_forall₂ hpp.statements hs
        exact ⟨n, hro.policies hn, p', hp', s', hs',
          stmtEval_less hss (hc.ops p' (List.mem_of_find?_eq_some hp') s' hs') h⟩

end Verif.Iam.ConfigLoad
