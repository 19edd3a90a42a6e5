import Verif.Device.IdentitySpec

/-!
# The settings of a device — lemmas
-/

namespace Verif.Device.Identity

open Spec

variable {K : Type}

theorem run_snoc (ops : List (Op K)) (op : Op K) : run (ops ++ [op]) = (step (run ops) op).1 := by simp [run]

theorem snoc_ind {α : Type} {P : List α → Prop} (h0 : P []) (hs : ∀ ops op, P ops → P (ops ++ [op])) : ∀ ops, P ops := by
  intro ops
  have : ∀ r : List α, P r.reverse := by
    intro r
    induction r with
    | nil => exact h0
    | cons x xs ih => rw [List.reverse_cons]; exact hs _ _ ih
  have h := this ops.reverse
  rwa [List.reverse_reverse] at h

theorem traceFrom_snoc (s : St K) (ops : List (Op K)) (op : Op K) : traceFrom s (ops ++ [op]) =
    traceFrom s ops ++ [(op, (step (ops.foldl (fun s op => (step s op).1) s) op).2)] := by
  induction ops generalizing s with
  | nil => rfl
  | cons x xs ih => simp only [List.cons_append, traceFrom, List.foldl_cons, ih]

theorem trace_snoc (ops : List (Op K)) (op : Op K) : trace (ops ++ [op]) = trace ops ++ [(op, returns ops op)] :=
  traceFrom_snoc _ _ _

theorem lastOk_snoc' (f : Field) (l : List (Op K × Ec)) (x : Op K × Ec) :
    lastOk f (l ++ [x]) = (gives f x.1 x.2).or (lastOk f l) := by
  induction l with
  | nil => simp [lastOk]
  | cons y ys ih => rw [List.cons_append, lastOk, ih, lastOk, Option.or_assoc]

theorem lastOk_snoc (f : Field) (l : List (Op K × Ec)) (op : Op K) (e : Ec) :
    lastOk f (l ++ [(op, e)]) = match op with
      | .set g t _ => if g = f ∧ e = .ok then some t else lastOk f l
      | _ => lastOk f l := by
  rw [lastOk_snoc']
  cases op with
  | set g t m =>
    by_cases hg : g = f
    · cases e <;> simp [gives, hg]
    · cases e <;> simp [gives, hg]
  | setKey k m c fp => cases e <;> simp [gives]
  | start a b c => cases e <;> simp [gives]

theorem get_put (s : St K) (v : Option Str) (f g : Field) : (s.put v f).get g = if g = f then v else s.get g := by
  cases f <;> cases g <;> rfl

theorem get_free (s : St K) (o : Option Str) (g : Field) : (s.free o).get g = s.get g := by
  cases o <;> cases g <;> rfl

/-- What `set` does. -/
theorem set_long {s : St K} {f : Field} {t : Text} {mem : Bool} (h : (f = .appName ∨ f = .appVersion) ∧ 32 < t.length) :
    s.set f t mem = (s, .stringTooLong) := by
  unfold St.set; rw [if_pos h]

theorem set_ok {s : St K} {f : Field} {t : Text} (h : ¬ ((f = .appName ∨ f = .appVersion) ∧ 32 < t.length)) :
    s.set f t true =
      (({ s.free (s.get f) with next := s.next + 1 } : St K).put (some ⟨s.next, t⟩) f, .ok) := by
  unfold St.set
  rw [if_neg h]
  have : (s.free (s.get f)).next = s.next := by cases s.get f <;> rfl
  simp only [St.strdup, if_true, Option.isSome_some, this]

theorem set_mem {s : St K} {f : Field} {t : Text} (h : ¬ ((f = .appName ∨ f = .appVersion) ∧ 32 < t.length)) :
    s.set f t false = ((s.free (s.get f)).put none f, .outOfMemory) := by
  unfold St.set
  rw [if_neg h]
  simp [St.strdup]

theorem get_next (s : St K) (n : Nat) (g : Field) : ({ s with next := n } : St K).get g = s.get g := by cases g <;> rfl

theorem set_get (s : St K) (f g : Field) (t : Text) (mem : Bool) :
    (s.set f t mem).1.get g =
      if (s.set f t mem).2 = .stringTooLong then s.get g
      else if g = f then (if mem then some ⟨s.next, t⟩ else none) else s.get g := by
  by_cases h : (f = .appName ∨ f = .appVersion) ∧ 32 < t.length
  · rw [set_long h]; rfl
  · cases mem with
    | true => rw [set_ok h]; simp only [get_put, get_next, get_free]; rfl
    | false => rw [set_mem h]; simp only [get_put, get_free]; rfl

theorem setKey_get (s : St K) (k : K) (mem crt : Bool) (fp : Option (List UInt8)) (g : Field) :
    (s.setKey k mem crt fp).1.get g = s.get g := by
  unfold St.setKey
  split
  · cases g <;> rfl
  · split
    · cases g <;> rfl
    · split <;> cases g <;> rfl

/-- What `launch` does. -/
inductive Launches (s : St K) (cert key : K) : St K × Ec → Prop
  /-- nothing changed -/
  | refused (e : Ec) (h : e ≠ .ok) : Launches s cert key (s, e)
  /-- the default host name was made, then it failed -/
  | host (p : Str) (e : Ec) (h : e ≠ .ok) (hp : s.productId = some p) (hh : s.host = none) :
      Launches s cert key ({ s with next := s.next + 1, host := some ⟨s.next, p.text ++ suffix⟩ }, e)
  | withHost (p d h : Str) (hp : s.productId = some p) (hd : s.deviceId = some d) (hh : s.host = some h)
      (hl : p.text.length + 1 + d.text.length ≤ 63) :
      Launches s cert key ({ s with launched := s.launched ++
        [⟨cert, key, s.fingerprint, p.text, d.text, h.text, s.appName.map (·.text), s.appVersion.map (·.text),
          p.text ++ [45] ++ d.text⟩] }, .ok)
  | noHost (p d : Str) (hp : s.productId = some p) (hd : s.deviceId = some d) (hh : s.host = none)
      (hl : p.text.length + 1 + d.text.length ≤ 63) :
      Launches s cert key ({ s with next := s.next + 1, host := some ⟨s.next, p.text ++ suffix⟩, launched := s.launched ++
        [⟨cert, key, s.fingerprint, p.text, d.text, p.text ++ suffix, s.appName.map (·.text), s.appVersion.map (·.text),
          p.text ++ [45] ++ d.text⟩] }, .ok)

theorem opt_cases {α : Type} (o : Option α) : o = none ∨ ∃ a, o = some a := by cases o <;> simp

theorem launches (s : St K) (cert key : K) (hostMem mdnsMem : Bool) :
    Launches s cert key (s.launch cert key hostMem mdnsMem) := by
  obtain ⟨sp, sd, sh, sa, sv, sk, sc, sf, sn, sfr, sl⟩ := s
  unfold St.launch
  rcases sd with _ | d
  · exact .refused _ (by simp)
  rcases sp with _ | p
  · exact .refused _ (by simp)
  rcases sh with _ | h
  · cases hostMem with
    | false => exact .refused _ (by simp)
    | true =>
      simp only [if_true]
      split
      · exact Launches.host p _ (by simp) rfl rfl
      · next hl =>
        split
        · exact Launches.host p _ (by simp) rfl rfl
        · exact Launches.noHost p d rfl rfl rfl (by omega)
  · dsimp only
    split
    · exact .refused _ (by simp)
    · next hl =>
      split
      · exact .refused _ (by simp)
      · exact Launches.withHost p d h rfl rfl rfl (by omega)

theorem start_launches (s : St K) (a b c : Bool) :
    (∃ e, e ≠ .ok ∧ s.start a b c = (s, e)) ∨
    ∃ cert key, s.certificate = some cert ∧ s.privateKey = some key ∧ Launches s cert key (s.start a b c) := by
  unfold St.start
  split
  · next cert key h1 h2 =>
    split
    · exact Or.inr ⟨cert, key, h1, h2, launches s cert key b c⟩
    · exact Or.inl ⟨.unknown, by simp, rfl⟩
  · exact Or.inl ⟨.invalidState, by simp, rfl⟩

/-- What a start does to the fields. -/
theorem start_get (s : St K) (a b c : Bool) (g : Field) (h : g ≠ .serverUrl ∨ s.host ≠ none) :
    (s.start a b c).1.get g = s.get g := by
  rcases start_launches s a b c with ⟨e, -, he⟩ | ⟨cert, key, -, -, hl⟩
  · rw [he]
  · generalize s.start a b c = r at hl
    cases hl with
    | refused e he => rfl
    | host p e he hp hh =>
      cases g <;> first | rfl | (rcases h with h | h; exact absurd rfl h; exact absurd hh h)
    | withHost p d hs hp hd hh hl => cases g <;> rfl
    | noHost p d hp hd hh hl =>
      cases g <;> first | rfl | (rcases h with h | h; exact absurd rfl h; exact absurd hh h)

/-! ## The values of the fields -/

/-- A field which has a value has the value which it was given last. -/
theorem field_some (ops : List (Op K)) (f : Field) (hf : f ≠ .serverUrl ∨ ∀ op ∈ ops, isStart op = false) (a : Str)
    (ha : (run ops).get f = some a) : lastOk f (trace ops) = some a.text := by
  induction ops using snoc_ind generalizing a with
  | h0 => cases f <;> cases ha
  | hs ops op ih =>
    have hf' : f ≠ .serverUrl ∨ ∀ op ∈ ops, isStart op = false :=
      hf.imp id (fun h o ho => h o (List.mem_append_left _ ho))
    rw [trace_snoc, lastOk_snoc]
    rw [run_snoc] at ha
    cases op with
    | set g t mem =>
      dsimp only
      have hg := set_get (run ops) g f t mem
      have ha' : ((run ops).set g t mem).1.get f = some a := ha
      rw [hg] at ha'
      show (if g = f ∧ ((run ops).set g t mem).2 = .ok then some t else lastOk f (trace ops)) = some a.text
      by_cases hl : (g = .appName ∨ g = .appVersion) ∧ 32 < t.length
      · rw [set_long hl] at ha' ⊢
        rw [if_neg (by simp)]
        exact ih hf' a ha'
      · cases mem with
        | true =>
          rw [set_ok hl] at ha' ⊢
          rw [if_neg (by simp)] at ha'
          by_cases hgf : g = f
          · rw [if_pos ⟨hgf, rfl⟩]
            rw [if_pos hgf.symm] at ha'
            cases ha'; rfl
          · rw [if_neg (by simp [hgf])]
            rw [if_neg (fun h => hgf h.symm)] at ha'
            exact ih hf' a ha'
        | false =>
          rw [set_mem hl] at ha' ⊢
          rw [if_neg (by simp)] at ha'
          by_cases hgf : g = f
          · rw [if_pos hgf.symm] at ha'
            cases ha'
          · rw [if_neg (by simp)]
            rw [if_neg (fun h => hgf h.symm)] at ha'
            exact ih hf' a ha'
    | setKey k m c fp =>
      dsimp only
      have := setKey_get (run ops) k m c fp f
      exact ih hf' a (this.symm.trans ha)
    | start x y z =>
      dsimp only
      rcases hf with hf | hf
      · have := start_get (run ops) x y z f (Or.inl hf)
        exact ih hf' a (this.symm.trans ha)
      · have := hf (.start x y z) (by simp)
        cases this

/-- A field without value was never given one, if no call ran out of memory. -/
theorem field_none (ops : List (Op K)) (f : Field) (hm : ∀ t, .set f t false ∉ ops)
    (ha : (run ops).get f = none) : lastOk f (trace ops) = none := by
  induction ops using snoc_ind with
  | h0 => rfl
  | hs ops op ih =>
    have hm' : ∀ t, .set f t false ∉ ops := fun t ht => hm t (List.mem_append_left _ ht)
    rw [trace_snoc, lastOk_snoc]
    rw [run_snoc] at ha
    cases op with
    | set g t mem =>
      dsimp only
      have hg := set_get (run ops) g f t mem
      have ha' : ((run ops).set g t mem).1.get f = none := ha
      rw [hg] at ha'
      show (if g = f ∧ ((run ops).set g t mem).2 = .ok then some t else lastOk f (trace ops)) = none
      by_cases hl : (g = .appName ∨ g = .appVersion) ∧ 32 < t.length
      · rw [set_long hl] at ha' ⊢
        rw [if_neg (by simp)]
        exact ih hm' ha'
      · cases mem with
        | true =>
          rw [set_ok hl] at ha' ⊢
          rw [if_neg (by simp)] at ha'
          by_cases hgf : g = f
          · rw [if_pos hgf.symm] at ha'
            cases ha'
          · rw [if_neg (by simp [hgf])]
            rw [if_neg (fun h => hgf h.symm)] at ha'
            exact ih hm' ha'
        | false =>
          by_cases hgf : g = f
          · subst hgf
            exact absurd (List.mem_append_right _ (List.mem_singleton.2 rfl)) (hm t)
          · rw [set_mem hl] at ha' ⊢
            rw [if_neg (by simp)]
            rw [if_neg (by simp), if_neg (fun h => hgf h.symm)] at ha'
            exact ih hm' ha'
    | setKey k m c fp =>
      dsimp only
      have := setKey_get (run ops) k m c fp f
      exact ih hm' (this.symm.trans ha)
    | start x y z =>
      dsimp only
      by_cases hx : f ≠ .serverUrl ∨ (run ops).host ≠ none
      · have := start_get (run ops) x y z f hx
        exact ih hm' (this.symm.trans ha)
      · have h1 : f = .serverUrl := Classical.not_not.1 (fun h => hx (Or.inl h))
        have h2 : (run ops).host = none := Classical.not_not.1 (fun h => hx (Or.inr h))
        apply ih hm'
        rw [h1]; exact h2

/-! ## Memory -/

/-- The strings of the fields are valid, and no two fields share one. -/
structure Heap (s : St K) : Prop where
  lt : ∀ f a, s.get f = some a → a.addr < s.next
  freedLt : ∀ n ∈ s.freed, n < s.next
  valid : ∀ f a, s.get f = some a → a.addr ∉ s.freed
  distinct : ∀ f g a b, s.get f = some a → s.get g = some b → a.addr = b.addr → f = g
  nodup : s.freed.Nodup

theorem heap_init : Heap (St.init : St K) := by
  constructor
  · intro f a h; cases f <;> cases h
  · intro n h; cases h
  · intro f a h; cases f <;> cases h
  · intro f g a b h; cases f <;> cases h
  · exact List.nodup_nil

theorem heap_congr {s t : St K} (h : Heap s) (h1 : ∀ f, t.get f = s.get f) (h2 : t.next = s.next) (h3 : t.freed = s.freed) :
    Heap t := by
  constructor
  · intro f a; rw [h1, h2]; exact h.lt f a
  · rw [h2, h3]; exact h.freedLt
  · intro f a; rw [h1, h3]; exact h.valid f a
  · intro f g a b; rw [h1, h1]; exact h.distinct f g a b
  · rw [h3]; exact h.nodup

/-- The field loses its string. -/
theorem heap_drop {s t : St K} (h : Heap s) (f : Field) (h1 : ∀ g, t.get g = if g = f then none else s.get g)
    (h2 : t.next = s.next) (h3 : t.freed = match s.get f with | none => s.freed | some a => a.addr :: s.freed) :
    Heap t := by
  rcases opt_cases (s.get f) with hn | ⟨a, ha⟩
  · apply heap_congr h
    · intro g
      rw [h1]
      split
      · next hg => rw [hg, hn]
      · rfl
    · exact h2
    · rw [h3, hn]
  · rw [ha] at h3
    dsimp only at h3
    constructor
    · intro g b; rw [h1, h2]
      split
      · intro hx; cases hx
      · exact h.lt g b
    · rw [h2, h3]
      intro n hn
      rcases List.mem_cons.1 hn with hn | hn
      · rw [hn]; exact h.lt f a ha
      · exact h.freedLt n hn
    · intro g b; rw [h1, h3]
      split
      · intro hx; cases hx
      · next hg =>
        intro hb hm
        rcases List.mem_cons.1 hm with hm | hm
        · exact hg (h.distinct g f b a hb ha hm)
        · exact h.valid g b hb hm
    · intro g g' b b'; rw [h1, h1]
      split
      · intro hx; cases hx
      · split
        · intro _ hx; cases hx
        · exact h.distinct g g' b b'
    · rw [h3]
      exact List.nodup_cons.2 ⟨h.valid f a ha, h.nodup⟩

/-- The field gets a new string. -/
theorem heap_new {s t : St K} (h : Heap s) (f : Field) (x : Text) (h1 : ∀ g, t.get g = if g = f then some ⟨s.next, x⟩ else s.get g)
    (h2 : t.next = s.next + 1) (h3 : t.freed = s.freed) : Heap t := by
  constructor
  · intro g b; rw [h1, h2]
    split
    · intro hx; cases hx; exact Nat.lt_succ_self _
    · intro hx; exact Nat.lt_succ_of_lt (h.lt g b hx)
  · rw [h2, h3]
    intro n hn; exact Nat.lt_succ_of_lt (h.freedLt n hn)
  · intro g b; rw [h1, h3]
    split
    · intro hx; cases hx
      intro hm
      exact Nat.lt_irrefl _ (h.freedLt _ hm)
    · exact h.valid g b
  · intro g g' b b'; rw [h1, h1]
    split
    · next hg =>
      split
      · next hg' => intro _ _ _; rw [hg, hg']
      · intro hx hy hz
        cases hx
        have := h.lt g' b' hy
        simp only at hz
        omega
    · split
      · intro hx hy hz
        cases hy
        have := h.lt g b hx
        simp only at hz
        omega
      · exact h.distinct g g' b b'
  · rw [h3]; exact h.nodup

theorem put_next (s : St K) (v : Option Str) (f : Field) : (s.put v f).next = s.next := by cases f <;> rfl
theorem put_freed (s : St K) (v : Option Str) (f : Field) : (s.put v f).freed = s.freed := by cases f <;> rfl

theorem heap_start {s : St K} (h : Heap s) (x y z : Bool) : Heap (s.start x y z).1 := by
  have new : ∀ (t : St K) p, s.host = none → (∀ g, t.get g = if g = .serverUrl then some ⟨s.next, p⟩ else s.get g) →
      t.next = s.next + 1 → t.freed = s.freed → Heap t := by
    intro t p _ h1 h2 h3
    exact heap_new h .serverUrl p h1 h2 h3
  rcases start_launches s x y z with ⟨e, -, he⟩ | ⟨cert, key, -, -, hl⟩
  · rw [he]; exact h
  · generalize s.start x y z = r at hl
    cases hl with
    | refused e he => exact h
    | host p e he hp hh =>
      exact new _ (p.text ++ suffix) hh (by intro g; cases g <;> rfl) rfl rfl
    | withHost p d hs hp hd hh hl => exact heap_congr h (by intro g; cases g <;> rfl) rfl rfl
    | noHost p d hp hd hh hl =>
      exact new _ (p.text ++ suffix) hh (by intro g; cases g <;> rfl) rfl rfl

theorem heap_step {s : St K} (h : Heap s) (op : Op K) : Heap (step s op).1 := by
  cases op with
  | set f t mem =>
    show Heap (s.set f t mem).1
    by_cases hl : (f = .appName ∨ f = .appVersion) ∧ 32 < t.length
    · rw [set_long hl]; exact h
    · have drop : Heap ((s.free (s.get f)).put none f) := by
        apply heap_drop h f
        · intro g; rw [get_put, get_free]
        · rw [put_next]; cases s.get f <;> rfl
        · rw [put_freed]; cases s.get f <;> rfl
      cases mem with
      | false => rw [set_mem hl]; exact drop
      | true =>
        rw [set_ok hl]
        have hn : ((s.free (s.get f)).put none f).next = s.next := by rw [put_next]; cases s.get f <;> rfl
        apply heap_new drop f t
        · intro g
          rw [get_put, get_next, get_put, hn]
          split
          · rfl
          · rfl
        · rw [put_next, hn]
        · rw [put_freed, put_freed]
  | setKey k m c fp =>
    show Heap (s.setKey k m c fp).1
    apply heap_congr h
    · intro g; exact setKey_get s k m c fp g
    · unfold St.setKey; repeat' split
      all_goals rfl
    · unfold St.setKey; repeat' split
      all_goals rfl
  | start x y z => exact heap_start h x y z

theorem heap_run (ops : List (Op K)) : Heap (run ops) := by
  induction ops using snoc_ind with
  | h0 => exact heap_init
  | hs ops op ih => rw [run_snoc]; exact heap_step ih op

/-! ## The key -/

theorem set_key (s : St K) (f : Field) (t : Text) (mem : Bool) : (s.set f t mem).1.privateKey = s.privateKey ∧
    (s.set f t mem).1.certificate = s.certificate ∧ (s.set f t mem).1.fingerprint = s.fingerprint ∧
    (s.set f t mem).1.launched = s.launched := by
  by_cases hl : (f = .appName ∨ f = .appVersion) ∧ 32 < t.length
  · rw [set_long hl]; exact ⟨rfl, rfl, rfl, rfl⟩
  · cases mem with
    | true =>
      rw [set_ok hl]
      cases f <;> (refine ⟨?_, ?_, ?_, ?_⟩ <;> (simp only [St.put, St.get]; unfold St.free; split <;> rfl))
    | false =>
      rw [set_mem hl]
      cases f <;> (refine ⟨?_, ?_, ?_, ?_⟩ <;> (simp only [St.put, St.get]; unfold St.free; split <;> rfl))

theorem start_key (s : St K) (x y z : Bool) : (s.start x y z).1.privateKey = s.privateKey ∧
    (s.start x y z).1.certificate = s.certificate ∧ (s.start x y z).1.fingerprint = s.fingerprint := by
  rcases start_launches s x y z with ⟨e, -, he⟩ | ⟨cert, key, -, -, hl⟩
  · rw [he]; exact ⟨rfl, rfl, rfl⟩
  · generalize s.start x y z = r at hl
    cases hl <;> exact ⟨rfl, rfl, rfl⟩

/-- Only `nabto_device_set_private_key` changes the key. -/
theorem key_same (s : St K) (ops : List (Op K)) (h : ∀ op ∈ ops, isSetKey op = false) :
    (ops.foldl (fun s op => (step s op).1) s).privateKey = s.privateKey ∧
    (ops.foldl (fun s op => (step s op).1) s).certificate = s.certificate ∧
    (ops.foldl (fun s op => (step s op).1) s).fingerprint = s.fingerprint := by
  induction ops generalizing s with
  | nil => exact ⟨rfl, rfl, rfl⟩
  | cons x xs ih =>
    have hx := h x (by simp)
    have := ih (step s x).1 (fun op ho => h op (List.mem_cons_of_mem _ ho))
    have k : (step s x).1.privateKey = s.privateKey ∧ (step s x).1.certificate = s.certificate ∧
        (step s x).1.fingerprint = s.fingerprint := by
      cases x with
      | set f t mem => exact ⟨(set_key s f t mem).1, (set_key s f t mem).2.1, (set_key s f t mem).2.2.1⟩
      | setKey k m c fp => cases hx
      | start a b c => exact start_key s a b c
    exact ⟨this.1.trans k.1, this.2.1.trans k.2.1, this.2.2.trans k.2.2⟩

/-! ## Hexadecimal digits -/

theorem value_digit : ∀ n : Fin 16, value (digit n.val) = some n.val := by decide

theorem parse_toHex (d : List UInt8) : parse (toHex d) = some d := by
  induction d with
  | nil => rfl
  | cons b r ih =>
    have h1 : value (digit (b.toNat / 16)) = some (b.toNat / 16) :=
      value_digit ⟨b.toNat / 16, by have := b.toNat_lt; omega⟩
    have h2 : value (digit (b.toNat % 16)) = some (b.toNat % 16) := value_digit ⟨b.toNat % 16, by omega⟩
    have h3 : toHex (b :: r) = digit (b.toNat / 16) :: digit (b.toNat % 16) :: toHex r := rfl
    rw [h3, parse, h1, h2, ih]
    dsimp only
    have : 16 * (b.toNat / 16) + b.toNat % 16 = b.toNat := by omega
    rw [this]
    simp

theorem toHex_length (d : List UInt8) : (toHex d).length = 2 * d.length := by
  induction d with
  | nil => rfl
  | cons b r ih =>
    have h3 : toHex (b :: r) = digit (b.toNat / 16) :: digit (b.toNat % 16) :: toHex r := rfl
    rw [h3]
    simp only [List.length_cons, ih]
    omega

end Verif.Device.Identity
