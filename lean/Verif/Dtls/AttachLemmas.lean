import Verif.Dtls.AttachSpec

/-!
# Lemmas about the attach connection
-/

namespace Verif.Dtls.Attach

theorem run_snoc (l : Lib) (ops : List Op) (o : Op) : run l (ops ++ [o]) = step l (run l ops) o := by
  simp [run, runFrom]

theorem run_append (l : Lib) (a b : List Op) : run l (a ++ b) = runFrom l (run l a) b := by
  simp [run, runFrom]

theorem snoc_ind {P : List Op → Prop} (h0 : P []) (hs : ∀ ops o, P ops → P (ops ++ [o])) : ∀ ops, P ops := by
  intro ops
  have : ∀ r : List Op, P r.reverse := by
    intro r
    induction r with
    | nil => exact h0
    | cons o r ih => simpa using hs _ o ih
  simpa using this ops.reverse

/-- What a start names. -/
def startOf : Op → Option Nat
  | .start h => some h
  | _ => none

/-- The text of a call which sets root certificates. -/
def textOf : Op → List Nat
  | .setRoots t _ _ => t
  | _ => []

/-- The text of such a call which succeeds. -/
def textOkOf : Op → List Nat
  | .setRoots t _ ok => if ok then t else []
  | _ => []

theorem hostOf_snoc (ops : List Op) (o : Op) :
    Spec.hostOf (ops ++ [o]) = (Spec.hostOf ops).or (startOf o) := by
  induction ops with
  | nil => cases o <;> rfl
  | cons a r ih => cases a <;> simp_all [Spec.hostOf]

theorem given_snoc (ops : List Op) (o : Op) :
    Spec.given (ops ++ [o]) = Spec.given ops ++ (if (Spec.hostOf ops).isSome then [] else textOf o) := by
  induction ops with
  | nil => cases o <;> simp [Spec.given, Spec.hostOf, textOf]
  | cons a r ih => cases a <;> simp_all [Spec.given, Spec.hostOf] <;> rfl

theorem givenOk_snoc (ops : List Op) (o : Op) :
    Spec.givenOk (ops ++ [o]) = Spec.givenOk ops ++ (if (Spec.hostOf ops).isSome then [] else textOkOf o) := by
  induction ops with
  | nil => cases o <;> simp [Spec.givenOk, Spec.hostOf, textOkOf]
  | cons a r ih => cases a <;> simp_all [Spec.givenOk, Spec.hostOf] <;> rfl

/-- What always holds. -/
structure Inv (l : Lib) (s : St) : Prop where
  fresh : ∀ c ∈ s.heap, c.id < s.next
  live : s.up = true → ∃ i c, s.dtls = some i ∧ s.heap.find? (fun c => c.id == i) = some c ∧
    c.host = s.host ∧ (l = .wolf → c.verify = false → s.disabled = true)
  host : s.up = true → s.host.isSome = true
  conf : s.confVerify = false → s.disabled = true
  over : s.over = true → s.up = false

theorem fresh_filter {s : St} {i : Nat} (h : ∀ c ∈ s.heap, c.id < s.next) :
    ∀ c ∈ s.heap.filter (fun c => c.id != i), c.id < s.next :=
  fun c hc => h c (List.mem_filter.1 hc).1

theorem filter_fresh {s : St} (h : ∀ c ∈ s.heap, c.id < s.next) :
    s.heap.filter (fun c => c.id != s.next) = s.heap := by
  rw [List.filter_eq_self]
  intro c hc
  have := h c hc
  simp; omega

/-- Every way the creation of an mbedTLS connection ends. -/
theorem attemptMbed_cases (s : St) (hf : ∀ c ∈ s.heap, c.id < s.next) (h : Nat) (w : Works) :
    let t := s.attemptMbed h w
    (w.alloc = false ∧ t = { s with dtls := none }) ∨
    (w.alloc = true ∧ (w.timer && w.sender && w.start) = false ∧
      t = { s with dtls := none, heap := ⟨s.next, w.timer && w.sender, false, none⟩ :: s.heap, next := s.next + 1 }) ∨
    (w.alloc = true ∧ (w.timer && w.sender && w.start) = true ∧ (w.ssl && w.sni) = false ∧
      t = { s with dtls := none, next := s.next + 1, confVerify := s.confVerify && !s.disabled }) ∨
    (w.alloc = true ∧ (w.timer && w.sender && w.start) = true ∧ (w.ssl && w.sni) = true ∧
      t = { s with dtls := some s.next, next := s.next + 1, confVerify := s.confVerify && !s.disabled,
                   heap := ⟨s.next, true, false, some h⟩ :: s.heap, up := true }) := by
  have hff := filter_fresh hf
  obtain ⟨a, ti, se, st, ssl, al, to, sni, dom⟩ := w
  cases a <;> cases ti <;> cases se <;> cases st <;> cases ssl <;> cases sni <;> cases hd : s.disabled <;>
    simp [St.attemptMbed, St.new, St.free, St.put, St.connect, hd, hff]

/-- Every way the creation of a wolfSSL connection ends. -/
theorem attemptWolf_cases (s : St) (hf : ∀ c ∈ s.heap, c.id < s.next) (h : Nat) (w : Works) :
    let t := s.attemptWolf h w
    (w.alloc = false ∧ t = { s with dtls := none }) ∨
    (w.alloc = true ∧ w.timer = true ∧ w.start = false ∧
      t = { s with dtls := none, heap := ⟨s.next, w.sender, false, none⟩ :: s.heap, next := s.next + 1 }) ∨
    (w.alloc = true ∧ (w.timer = false ∨ w.start = true) ∧ t = { s with dtls := none, next := s.next + 1 }) ∨
    (w.alloc = true ∧ w.timer = true ∧ w.start = true ∧ (w.sni && w.domain) = false ∧
      t = { s with dtls := some s.next, next := s.next + 1 }) ∨
    (w.alloc = true ∧ w.timer = true ∧ w.start = true ∧ (w.sni && w.domain) = true ∧
      t = { s with dtls := some s.next, next := s.next + 1,
                   heap := ⟨s.next, w.sender, !s.disabled, some h⟩ :: s.heap, up := true,
                   crash := s.crash || !w.sender }) := by
  have hff := filter_fresh hf
  obtain ⟨a, ti, se, st, ssl, al, to, sni, dom⟩ := w
  cases a <;> cases ti <;> cases se <;> cases st <;> cases ssl <;> cases al <;> cases to <;> cases sni <;>
    cases dom <;> simp [St.attemptWolf, St.new, St.free, St.put, St.connect, hff]

theorem free_heap (s : St) (i : Nat) : (s.free i).heap = s.heap.filter (fun c => c.id != i) := by
  unfold St.free
  split
  · rfl
  · rename_i h
    symm
    rw [List.filter_eq_self]
    intro c hc
    have : ¬ (s.heap.any (fun c => c.id == i) = true) := h
    simp only [List.any_eq_true, not_exists, not_and] at this
    have := this c hc
    simpa using this

theorem free_same (s : St) (i : Nat) :
    (s.free i).next = s.next ∧ (s.free i).disabled = s.disabled ∧ (s.free i).host = s.host ∧
    (s.free i).confVerify = s.confVerify ∧ (s.free i).roots = s.roots ∧ (s.free i).over = s.over ∧
    (s.free i).accepted = s.accepted := by
  unfold St.free; split <;> simp

theorem inv_init (l : Lib) : Inv l init :=
  ⟨by simp [init], by simp [init], by simp [init], by simp [init], by simp [init]⟩

theorem find_cons_self (c : Conn) (r : List Conn) : (c :: r).find? (fun d => d.id == c.id) = some c := by
  simp

theorem inv_step (l : Lib) (s : St) (o : Op) (hi : Inv l s) : Inv l (step l s o) := by
  obtain ⟨h1, h2, h3, h4, h5⟩ := hi
  by_cases ho : s.over = true
  · simp only [step, ho, if_true]; exact ⟨h1, h2, h3, h4, h5⟩
  have ho' : s.over = false := by simpa using ho
  simp only [step, ho', Bool.false_eq_true, if_false]
  cases o with
  | setRoots t k ok =>
    simp only [St.setRoots]
    split
    · exact ⟨h1, h2, h3, h4, h5⟩
    · exact ⟨h1, h2, h3, h4, h5⟩
  | disable =>
    refine ⟨h1, ?_, h3, fun _ => rfl, h5⟩
    intro hu
    obtain ⟨i, c, a, b, d, _⟩ := h2 hu
    exact ⟨i, c, a, b, d, fun _ _ => rfl⟩
  | start h =>
    simp only [St.start]
    split
    · exact ⟨h1, h2, h3, h4, h5⟩
    · rename_i hh
      exact ⟨h1, fun hu => absurd (h3 hu) hh, fun hu => absurd (h3 hu) hh, h4, h5⟩
  | attempt w =>
    simp only [St.attempt]
    cases hh : s.host with
    | none => exact ⟨h1, h2, h3, h4, h5⟩
    | some h =>
      by_cases hu : s.up = true
      · simp only [hu, if_true]; exact ⟨h1, h2, h3, h4, h5⟩
      have hu' : s.up = false := by simpa using hu
      simp only [hu', Bool.false_eq_true, if_false]
      have hle : ∀ c ∈ s.heap, c.id < s.next + 1 := fun c hc => Nat.lt_succ_of_lt (h1 c hc)
      have hcf : (s.confVerify && !s.disabled) = false → s.disabled = true := by
        intro hx
        cases hd : s.disabled with
        | true => rfl
        | false =>
          rw [hd] at hx
          have := h4 (by simpa using hx)
          rw [hd] at this; exact this
      cases l with
      | mbed =>
        rcases attemptMbed_cases s h1 h w with ⟨_, e⟩ | ⟨_, _, e⟩ | ⟨_, _, _, e⟩ | ⟨_, _, _, e⟩
        · simp only [e]; exact ⟨h1, by simp [hu'], by simp [hu'], h4, h5⟩
        · simp only [e]
          refine ⟨?_, by simp [hu'], by simp [hu'], h4, h5⟩
          intro c hc
          rcases List.mem_cons.1 hc with rfl | hc
          · simp
          · exact hle c hc
        · simp only [e]; exact ⟨hle, by simp [hu'], by simp [hu'], hcf, h5⟩
        · simp only [e]
          refine ⟨?_, ?_, fun _ => by simp [hh], hcf, fun hx => absurd hx ho⟩
          · intro c hc
            rcases List.mem_cons.1 hc with rfl | hc
            · simp
            · exact hle c hc
          · intro _
            exact ⟨s.next, ⟨s.next, true, false, some h⟩, rfl, by simp, by simp [hh], fun hx => by cases hx⟩
      | wolf =>
        rcases attemptWolf_cases s h1 h w with ⟨_, e⟩ | ⟨_, _, _, e⟩ | ⟨_, _, e⟩ | ⟨_, _, _, _, e⟩ | ⟨_, _, _, _, e⟩
        · simp only [e]; exact ⟨h1, by simp [hu'], by simp [hu'], h4, h5⟩
        · simp only [e]
          refine ⟨?_, by simp [hu'], by simp [hu'], h4, h5⟩
          intro c hc
          rcases List.mem_cons.1 hc with rfl | hc
          · simp
          · exact hle c hc
        · simp only [e]; exact ⟨hle, by simp [hu'], by simp [hu'], h4, h5⟩
        · simp only [e]; exact ⟨hle, by simp [hu'], by simp [hu'], h4, h5⟩
        · simp only [e]
          refine ⟨?_, ?_, fun _ => by simp [hh], h4, fun hx => absurd hx ho⟩
          · intro c hc
            rcases List.mem_cons.1 hc with rfl | hc
            · simp
            · exact hle c hc
          · intro _
            exact ⟨s.next, ⟨s.next, w.sender, !s.disabled, some h⟩, rfl, by simp, by simp [hh], fun _ hx => by simpa using hx⟩
  | answer x =>
    simp only [St.answer]
    split
    · exact ⟨h1, h2, h3, h4, h5⟩
    · split
      · exact ⟨h1, h2, h3, h4, h5⟩
      · split
        · exact ⟨h1, h2, h3, h4, h5⟩
        · split
          · exact ⟨h1, h2, h3, h4, h5⟩
          · exact ⟨h1, h2, h3, h4, h5⟩
  | packet =>
    simp only [St.packet]
    split
    · exact ⟨h1, h2, h3, h4, h5⟩
    · split
      · exact ⟨h1, h2, h3, h4, h5⟩
      · exact ⟨h1, h2, h3, h4, h5⟩
  | closed =>
    simp only [St.closed]
    split
    · exact ⟨h1, h2, h3, h4, h5⟩
    · split
      · exact ⟨h1, by simp, by simp, h4, by simp⟩
      · rename_i i _
        obtain ⟨e1, e2, e3, e4, e5, e6, e7⟩ := free_same s i
        refine ⟨?_, by simp, by simp, ?_, by simp⟩
        · simp only [free_heap, e1]; exact fresh_filter h1
        · simp only [e2, e4]; exact h4
  | deinit =>
    simp only [St.deinit]
    split
    · exact ⟨h1, by simp, by simp, h4, by simp⟩
    · rename_i i _
      obtain ⟨e1, e2, e3, e4, e5, e6, e7⟩ := free_same s i
      refine ⟨?_, by simp, by simp, ?_, by simp⟩
      · simp only [free_heap, e1]; exact fresh_filter h1
      · simp only [e2, e4]; exact h4

theorem inv_run (l : Lib) (ops : List Op) : Inv l (run l ops) := by
  induction ops using snoc_ind with
  | h0 => exact inv_init l
  | hs ops o ih => rw [run_snoc]; exact inv_step l _ o ih

/-- What an attempt leaves alone. -/
theorem attempt_same (l : Lib) (s : St) (hi : Inv l s) (w : Works) :
    (s.attempt l w).roots = s.roots ∧ (s.attempt l w).host = s.host ∧ (s.attempt l w).disabled = s.disabled ∧
    (s.attempt l w).over = s.over ∧ (s.attempt l w).accepted = s.accepted := by
  simp only [St.attempt]
  cases hh : s.host with
  | none => simp [hh]
  | some h =>
    by_cases hu : s.up = true
    · simp [hu, hh]
    have hu' : s.up = false := by simpa using hu
    simp only [hu', Bool.false_eq_true, if_false]
    cases l with
    | mbed =>
      rcases attemptMbed_cases s hi.fresh h w with ⟨_, e⟩ | ⟨_, _, e⟩ | ⟨_, _, _, e⟩ | ⟨_, _, _, e⟩ <;> simp [e, hh]
    | wolf =>
      rcases attemptWolf_cases s hi.fresh h w with ⟨_, e⟩ | ⟨_, _, _, e⟩ | ⟨_, _, e⟩ | ⟨_, _, _, _, e⟩ | ⟨_, _, _, _, e⟩ <;>
        simp [e, hh]

theorem answer_same (l : Lib) (s : St) (x : Cert) :
    (s.answer l x).roots = s.roots ∧ (s.answer l x).host = s.host ∧ (s.answer l x).disabled = s.disabled ∧
    (s.answer l x).over = s.over := by
  unfold St.answer
  split
  · simp
  · split
    · simp
    · split
      · simp
      · split <;> simp

theorem packet_same (s : St) : s.packet.roots = s.roots ∧ s.packet.host = s.host ∧ s.packet.disabled = s.disabled ∧
    s.packet.over = s.over ∧ s.packet.heap = s.heap ∧ s.packet.dtls = s.dtls ∧ s.packet.up = s.up ∧
    s.packet.next = s.next ∧ s.packet.confVerify = s.confVerify := by
  unfold St.packet
  split
  · simp
  · split <;> simp

theorem closed_same (s : St) : s.closed.roots = s.roots ∧ s.closed.host = s.host ∧ s.closed.disabled = s.disabled ∧
    s.closed.over = s.over := by
  unfold St.closed
  split
  · simp
  · split
    · simp
    · rename_i i _
      obtain ⟨e1, e2, e3, e4, e5, e6, e7⟩ := free_same s i
      simp [e2, e3, e5, e6]

theorem deinit_same (s : St) : s.deinit.disabled = s.disabled ∧ s.deinit.over = true := by
  unfold St.deinit
  split
  · simp
  · rename_i i _
    obtain ⟨e1, e2, e3, e4, e5, e6, e7⟩ := free_same s i
    simp [e2]

/-- The settings are what the history says. -/
structure Data (ops : List Op) (s : St) : Prop where
  host : s.over = false → s.host = Spec.hostOf ops
  sound : s.over = false → ∀ r ∈ s.roots, r = defaultRoot ∨ r ∈ Spec.given ops
  complete : s.over = false → ∀ r, r = defaultRoot ∨ r ∈ Spec.givenOk ops → r ∈ s.roots
  off : s.disabled = true → .disable ∈ ops

theorem data_same {ops : List Op} {s t : St} (o : Op) (hs : startOf o = none) (ht : textOf o = [])
    (hk : textOkOf o = []) (hd : Data ops s) (e1 : t.over = false → t.host = s.host)
    (e2 : t.over = false → t.roots = s.roots) (e3 : t.disabled = s.disabled)
    (e4 : t.over = false → s.over = false) : Data (ops ++ [o]) t := by
  refine ⟨?_, ?_, ?_, ?_⟩
  · intro ho
    rw [hostOf_snoc, e1 ho, hs, hd.host (e4 ho)]; simp
  · intro ho r hr
    rw [e2 ho] at hr
    rw [given_snoc, ht]
    simpa using hd.sound (e4 ho) r hr
  · intro ho r hr
    rw [givenOk_snoc, hk] at hr
    rw [e2 ho]
    exact hd.complete (e4 ho) r (by simpa using hr)
  · intro h
    rw [e3] at h
    exact List.mem_append_left _ (hd.off h)

theorem data_run (l : Lib) (ops : List Op) : Data ops (run l ops) := by
  induction ops using snoc_ind with
  | h0 => exact ⟨fun _ => rfl, fun _ r hr => Or.inl (by simpa [run, runFrom, init] using hr),
      fun _ r hr => (by simpa [run, runFrom, init, Spec.givenOk] using hr), by simp [run, runFrom, init]⟩
  | hs ops o ih =>
    rw [run_snoc]
    have hi := inv_run l ops
    generalize run l ops = s at ih hi
    by_cases ho : s.over = true
    · simp only [step, ho, if_true]
      exact ⟨fun h => absurd ho (by simp [h]), fun h => absurd ho (by simp [h]), fun h => absurd ho (by simp [h]),
        fun h => List.mem_append_left _ (ih.off h)⟩
    have ho' : s.over = false := by simpa using ho
    simp only [step, ho', Bool.false_eq_true, if_false]
    cases o with
    | setRoots t k ok =>
      have hh := ih.host ho'
      simp only [St.setRoots]
      split
      · rename_i hs
        refine ⟨?_, ?_, ?_, fun h => List.mem_append_left _ (ih.off h)⟩
        · intro _; rw [hostOf_snoc, hh]; simp [startOf]
        · intro _ r hr; rw [given_snoc, ← hh, if_pos hs]; simpa using ih.sound ho' r hr
        · intro _ r hr; rw [givenOk_snoc, ← hh, if_pos hs] at hr; exact ih.complete ho' r (by simpa using hr)
      · rename_i hs
        refine ⟨?_, ?_, ?_, fun h => List.mem_append_left _ (ih.off h)⟩
        · intro _; rw [hostOf_snoc]; simp [startOf, hh]
        · intro _ r hr
          rw [given_snoc, ← hh, if_neg hs]
          simp only [List.mem_append, textOf] at hr ⊢
          rcases hr with hr | hr
          · rcases ih.sound ho' r hr with h | h
            · exact Or.inl h
            · exact Or.inr (Or.inl h)
          · cases ok
            · exact Or.inr (Or.inr (List.mem_of_mem_take (by simpa using hr)))
            · exact Or.inr (Or.inr (by simpa using hr))
        · intro _ r hr
          rw [givenOk_snoc, ← hh, if_neg hs] at hr
          simp only [List.mem_append, textOkOf] at hr ⊢
          rcases hr with hr | hr | hr
          · exact Or.inl (ih.complete ho' r (Or.inl hr))
          · exact Or.inl (ih.complete ho' r (Or.inr hr))
          · cases ok
            · simp at hr
            · exact Or.inr (by simpa using hr)
    | disable =>
      refine ⟨?_, ?_, ?_, by simp⟩
      · intro _; rw [hostOf_snoc]; simp [startOf, St.disable, ih.host ho']
      · intro _ r hr; rw [given_snoc]; simpa [textOf] using ih.sound ho' r hr
      · intro _ r hr; rw [givenOk_snoc] at hr; exact ih.complete ho' r (by simpa [textOkOf] using hr)
    | start h =>
      have hh := ih.host ho'
      have hg : ∀ t : St, t.roots = s.roots → t.disabled = s.disabled → t.host = (Spec.hostOf ops).or (some h) →
          Data (ops ++ [.start h]) t := by
        intro t e2 e3 e1
        refine ⟨?_, ?_, ?_, ?_⟩
        · intro _; rw [hostOf_snoc, e1]; rfl
        · intro _ r hr; rw [e2] at hr; rw [given_snoc]; simpa [textOf] using ih.sound ho' r hr
        · intro _ r hr; rw [givenOk_snoc] at hr; rw [e2]; exact ih.complete ho' r (by simpa [textOkOf] using hr)
        · intro hx; rw [e3] at hx; exact List.mem_append_left _ (ih.off hx)
      simp only [St.start]
      split
      · rename_i hs
        refine hg s rfl rfl ?_
        rw [← hh]
        cases hq : s.host with
        | none => simp [hq] at hs
        | some v => rfl
      · rename_i hs
        refine hg _ rfl rfl ?_
        rw [← hh]
        cases hq : s.host with
        | none => rfl
        | some v => simp [hq] at hs
    | attempt w =>
      obtain ⟨a, b, c, d, _⟩ := attempt_same l s hi w
      exact data_same _ rfl rfl rfl ih (fun _ => b) (fun _ => a) c (fun _ => ho')
    | answer x =>
      obtain ⟨a, b, c, d⟩ := answer_same l s x
      exact data_same _ rfl rfl rfl ih (fun _ => b) (fun _ => a) c (fun _ => ho')
    | packet =>
      obtain ⟨a, b, c, d, _⟩ := packet_same s
      exact data_same _ rfl rfl rfl ih (fun _ => b) (fun _ => a) c (fun _ => ho')
    | closed =>
      obtain ⟨a, b, c, d⟩ := closed_same s
      exact data_same _ rfl rfl rfl ih (fun _ => b) (fun _ => a) c (fun _ => ho')
    | deinit =>
      obtain ⟨c, d⟩ := deinit_same s
      exact data_same _ rfl rfl rfl ih (fun h => by rw [d] at h; cases h) (fun h => by rw [d] at h; cases h) c
        (fun _ => ho')

/-- When exactly a certificate is accepted. -/
theorem accepts_iff (l : Lib) (ops : List Op) (x : Cert) :
    Spec.accepts l ops x ↔ (run l ops).up = true ∧ ∃ i c, (run l ops).dtls = some i ∧
      (run l ops).heap.find? (fun c => c.id == i) = some c ∧
      ((run l ops).verifies l c = false ∨ (run l ops).good c x = true) := by
  unfold Spec.accepts
  rw [run_snoc]
  have hi := inv_run l ops
  generalize run l ops = s at hi
  have hne : ∀ r : List Cert, r ≠ x :: r := fun r h => by
    have := congrArg List.length h
    simp at this
  by_cases ho : s.over = true
  · have hu := hi.over ho
    simp [step, ho, hu]
  have ho' : s.over = false := by simpa using ho
  simp only [step, ho', Bool.false_eq_true, if_false, St.answer]
  cases hu : s.up with
  | false => simp
  | true =>
    obtain ⟨i, c, e1, e2, _, _⟩ := hi.live hu
    simp only [e1, e2, Bool.not_true, Bool.false_eq_true, if_false]
    cases hv : s.verifies l c <;> cases hg : s.good c x <;> simp_all

/-- Validation is off and so it is for the connection in use. -/
structure Off (l : Lib) (s : St) : Prop where
  disabled : s.disabled = true
  conn : s.up = true → ∃ i c, s.dtls = some i ∧ s.heap.find? (fun c => c.id == i) = some c ∧ s.verifies l c = false

theorem off_step (l : Lib) (s : St) (o : Op) (hi : Inv l s) (hf : Off l s) : Off l (step l s o) := by
  obtain ⟨h1, h2⟩ := hf
  by_cases ho : s.over = true
  · simp only [step, ho, if_true]; exact ⟨h1, h2⟩
  have ho' : s.over = false := by simpa using ho
  simp only [step, ho', Bool.false_eq_true, if_false]
  cases o with
  | setRoots t k ok =>
    simp only [St.setRoots]
    split
    · exact ⟨h1, h2⟩
    · refine ⟨h1, fun hu => ?_⟩
      obtain ⟨i, c, a, b, d⟩ := h2 hu
      exact ⟨i, c, a, b, by cases l <;> exact d⟩
  | disable =>
    refine ⟨rfl, fun hu => ?_⟩
    obtain ⟨i, c, a, b, d⟩ := h2 hu
    exact ⟨i, c, a, b, by cases l <;> exact d⟩
  | start h =>
    simp only [St.start]
    split
    · exact ⟨h1, h2⟩
    · refine ⟨h1, fun hu => ?_⟩
      obtain ⟨i, c, a, b, d⟩ := h2 hu
      exact ⟨i, c, a, b, by cases l <;> exact d⟩
  | attempt w =>
    simp only [St.attempt]
    cases hh : s.host with
    | none => exact ⟨h1, h2⟩
    | some h =>
      by_cases hu : s.up = true
      · simp only [hu, if_true]; exact ⟨h1, h2⟩
      have hu' : s.up = false := by simpa using hu
      simp only [hu', Bool.false_eq_true, if_false]
      cases l with
      | mbed =>
        rcases attemptMbed_cases s hi.fresh h w with ⟨_, e⟩ | ⟨_, _, e⟩ | ⟨_, _, _, e⟩ | ⟨_, _, _, e⟩
        · simp only [e]; exact ⟨h1, by simp [hu']⟩
        · simp only [e]; exact ⟨h1, by simp [hu']⟩
        · simp only [e]; exact ⟨h1, by simp [hu']⟩
        · simp only [e]
          exact ⟨h1, fun _ => ⟨s.next, ⟨s.next, true, false, some h⟩, rfl, by simp, by simp [St.verifies, h1]⟩⟩
      | wolf =>
        rcases attemptWolf_cases s hi.fresh h w with ⟨_, e⟩ | ⟨_, _, _, e⟩ | ⟨_, _, e⟩ | ⟨_, _, _, _, e⟩ | ⟨_, _, _, _, e⟩
        · simp only [e]; exact ⟨h1, by simp [hu']⟩
        · simp only [e]; exact ⟨h1, by simp [hu']⟩
        · simp only [e]; exact ⟨h1, by simp [hu']⟩
        · simp only [e]; exact ⟨h1, by simp [hu']⟩
        · simp only [e]
          exact ⟨h1, fun _ => ⟨s.next, ⟨s.next, w.sender, !s.disabled, some h⟩, rfl, by simp, by simp [St.verifies, h1]⟩⟩
  | answer x =>
    simp only [St.answer]
    split
    · exact ⟨h1, h2⟩
    · split
      · exact ⟨h1, h2⟩
      · split
        · refine ⟨h1, fun hu => ?_⟩
          obtain ⟨i, c, a, b, d⟩ := h2 hu
          exact ⟨i, c, a, b, by cases l <;> exact d⟩
        · split
          · refine ⟨h1, fun hu => ?_⟩
            obtain ⟨i, c, a, b, d⟩ := h2 hu
            exact ⟨i, c, a, b, by cases l <;> exact d⟩
          · exact ⟨h1, h2⟩
  | packet =>
    obtain ⟨_, _, e1, _, e2, e3, e4, _, e5⟩ := packet_same s
    refine ⟨by rw [e1]; exact h1, fun hu => ?_⟩
    rw [e4] at hu
    obtain ⟨i, c, a, b, d⟩ := h2 hu
    refine ⟨i, c, by rw [e3]; exact a, by rw [e2]; exact b, ?_⟩
    cases l
    · simpa [St.verifies, e5] using d
    · exact d
  | closed =>
    obtain ⟨_, _, e1, _⟩ := closed_same s
    refine ⟨by rw [e1]; exact h1, fun hu => ?_⟩
    exfalso
    revert hu
    simp only [St.closed]
    split
    · rename_i hx; intro hu; simp [hu] at hx
    · split <;> simp
  | deinit =>
    obtain ⟨e1, _⟩ := deinit_same s
    refine ⟨by rw [e1]; exact h1, fun hu => ?_⟩
    exfalso
    revert hu
    simp only [St.deinit]
    split <;> simp

theorem off_runFrom (l : Lib) (s : St) (ops : List Op) (hi : Inv l s) (hf : Off l s) : Off l (runFrom l s ops) := by
  induction ops generalizing s with
  | nil => exact hf
  | cons o r ih => exact ih _ (inv_step l s o hi) (off_step l s o hi hf)

end Verif.Dtls.Attach
