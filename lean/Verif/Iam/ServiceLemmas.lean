import Verif.Iam.ServiceSpec

/-! # Lemmas about the handlers: every way through a program is found by a search -/

namespace Verif.Iam.Service

/-- What is known of the world. -/
abbrev Known := List (Cond × Bool)

/-- A list without repetitions. -/
def once {α} [BEq α] : List α → List α
  | [] => []
  | x :: l => let m := once l; if m.contains x then m else x :: m

theorem mem_once {α} [BEq α] [LawfulBEq α] {x : α} {l : List α} (h : x ∈ l) : x ∈ once l := by
  induction l with
  | nil => exact h
  | cons y l ih =>
    simp only [once]
    rcases List.mem_cons.mp h with rfl | h
    · split
      · rename_i hc; simpa using hc
      · simp
    · split
      · exact ih h
      · exact List.mem_cons_of_mem _ (ih h)

/-- What the check of access asks about the caller. -/
def aboutCaller : List Cond :=
  [.accHasFingerprint, .mem .accFingerprint, .accVirtual, .accKnown, .accPassword, .accHasUsername]

/-- What is still known when a function returns. -/
def recall (a : Known) : Known := a.filter fun x => !aboutCaller.contains x.1

/-- All ways through a program. What is learned about the caller in a function is forgotten when it returns. -/
def paths : Prog → Known → Run → List (Known × Bool × Run)
  | .ret b, a, r => [(a, b, r)]
  | .ask c yes no, a, r =>
    match a.lookup c with
    | some true => paths yes a r
    | some false => paths no a r
    | none => paths yes ((c, true) :: a) r ++ paths no ((c, false) :: a) r
  | .take v o k, a, r => paths k a { r with held := (v, o) :: r.held }
  | .free v o k, a, r => paths k a (r.free v o)
  | .clear v k, a, r => paths k a { r with dangling := r.dangling.erase v }
  | .give v k, a, r => paths k a { r with held := r.held.filter (fun x => x.1 != v), kept := v :: r.kept }
  | .use v k, a, r => paths k a (r.use v)
  | .code n k, a, r => paths k a { r with code := n }
  | .error n k, a, r => paths k a (r.answer n)
  | .ready k, a, r => paths k a (r.answer r.code)
  | .endAsync k, a, r => paths k a r.endAsync
  | .send k, a, r => paths k a { r with sending := true }
  | .call p yes no, a, r =>
    (once ((paths p a r).map fun x => (recall x.1, x.2.1, { x.2.2 with dangling := r.dangling }))).flatMap fun x =>
      if x.2.1 then paths yes x.1 x.2.2 else paths no x.1 x.2.2

/-- The world is as it is known to be. -/
def Agrees (w : World) (a : Known) : Prop := ∀ c b, (c, b) ∈ a → w c = b

theorem lookup_mem {a : Known} {c : Cond} {b : Bool} (h : a.lookup c = some b) : (c, b) ∈ a := by
  induction a with
  | nil => cases h
  | cons x l ih =>
    obtain ⟨d, e⟩ := x
    by_cases hd : c = d
    · subst hd
      simp [List.lookup] at h
      subst h
      simp
    · have : (c == d) = false := by simpa using hd
      simp only [List.lookup, this] at h
      exact List.mem_cons_of_mem _ (ih h)

theorem Agrees.cons {w : World} {a : Known} {c : Cond} {b : Bool} (h : Agrees w a) (hc : w c = b) : Agrees w ((c, b) :: a) := by
  intro d e hm
  rcases List.mem_cons.mp hm with hm | hm
  · cases hm; exact hc
  · exact h d e hm

theorem Agrees.recall {w : World} {a : Known} (h : Agrees w a) : Agrees w (recall a) :=
  fun c b hm => h c b (List.mem_filter.mp hm).1

/-- The search finds what the program does. -/
theorem exec_mem (w : World) (p : Prog) : ∀ a r, Agrees w a → ∃ b, Agrees w b ∧ (b, exec w p r) ∈ paths p a r := by
  induction p with
  | ret b => intro a r h; exact ⟨a, h, by simp [paths, exec]⟩
  | ask c yes no ihy ihn =>
    intro a r h
    unfold paths exec
    cases hl : a.lookup c with
    | none =>
      cases hw : w c with
      | false =>
        obtain ⟨b, hb, hm⟩ := ihn _ r (h.cons hw)
        exact ⟨b, hb, by simp [hm]⟩
      | true =>
        obtain ⟨b, hb, hm⟩ := ihy _ r (h.cons hw)
        exact ⟨b, hb, by simp [hm]⟩
    | some x =>
      have hw := h c x (lookup_mem hl)
      cases x with
      | false =>
        obtain ⟨b, hb, hm⟩ := ihn a r h
        exact ⟨b, hb, by simp [hw, hm]⟩
      | true =>
        obtain ⟨b, hb, hm⟩ := ihy a r h
        exact ⟨b, hb, by simp [hw, hm]⟩
  | call p yes no ihp ihy ihn =>
    intro a r h
    obtain ⟨b, hb, hm⟩ := ihp a r h
    have hm := mem_once (List.mem_map_of_mem 
      (f := fun x => (Service.recall x.1, x.2.1, { x.2.2 with dangling := r.dangling })) hm)
    unfold paths exec
    simp only [List.mem_flatMap]
    cases hx : (exec w p r).1 with
    | false =>
      obtain ⟨d, hd, hn⟩ := ihn _ { (exec w p r).2 with dangling := r.dangling } hb.recall
      exact ⟨d, hd, _, hm, by simpa [hx] using hn⟩
    | true =>
      obtain ⟨d, hd, hn⟩ := ihy _ { (exec w p r).2 with dangling := r.dangling } hb.recall
      exact ⟨d, hd, _, hm, by simpa [hx] using hn⟩
  | take v o k ih => intro a r h; exact ih a _ h
  | free v o k ih => intro a r h; exact ih a _ h
  | clear v k ih => intro a r h; exact ih a _ h
  | give v k ih => intro a r h; exact ih a _ h
  | use v k ih => intro a r h; exact ih a _ h
  | code n k ih => intro a r h; exact ih a _ h
  | error n k ih => intro a r h; exact ih a _ h
  | ready k ih => intro a r h; exact ih a _ h
  | endAsync k ih => intro a r h; exact ih a _ h
  | send k ih => intro a r h; exact ih a _ h

/-! ## The causes, as far as they are known -/

def no (a : Known) (c : Cond) : Bool := a.contains (c, false)
def yes (a : Known) (c : Cond) : Bool := a.contains (c, true)

theorem no_spec {w a c} (h : Agrees w a) (hn : no a c = true) : w c = false := h c false (by simpa [no] using hn)
theorem yes_spec {w a c} (h : Agrees w a) (hn : yes a c = true) : w c = true := h c true (by simpa [yes] using hn)

def kRepeated (h : Handler) (a : Known) : Bool :=
  (Spec.readsBody h && (no a .format || no a .body || no a .parses)) ||
  (h == .localInitial && yes a .format && (no a .body || no a .parses)) ||
  (h == .deleteUser && (no a .found || no a .deleted))

def kUnanswered (h : Handler) (a : Known) : Bool :=
  (h == .getMe || h == .listUsers || h == .pairingGet || h == .settingsGet) && no a (.mem .payload)

def kLost (h : Handler) (a : Known) : Bool :=
  (h == .passwordOpen && yes a (.has .password) && (yes a (.isText .password) || yes a (.isNull .password))) ||
  (h == .getCategories && no a .encoded) ||
  (h == .createUser && no a .added)

def kUndefined (custom : Bool) (h : Handler) (a : Known) : Bool :=
  (custom && (h == .localOpen || h == .passwordOpen)) ||
  (h == .createUser && no a (.isText .username) && yes a (.isNull .username)) ||
  (h == .fcmTest && (no a .sent || no a (.mem .payload)))

theorem repeated_of {w a h} (ha : Agrees w a) (hk : kRepeated h a = true) : Spec.repeated h w = true := by
  unfold kRepeated at hk
  simp only [Bool.or_eq_true, Bool.and_eq_true] at hk
  simp only [Spec.repeated, Spec.goodBody, Bool.or_eq_true, Bool.and_eq_true, Bool.not_eq_true', Bool.and_eq_false_iff]
  rcases hk with (⟨h1, (h2 | h2) | h2⟩ | ⟨⟨h1, h3⟩, h2 | h2⟩) | ⟨h1, h2 | h2⟩
  · exact .inl (.inl ⟨h1, .inl (.inl (no_spec ha h2))⟩)
  · exact .inl (.inl ⟨h1, .inl (.inr (no_spec ha h2))⟩)
  · exact .inl (.inl ⟨h1, .inr (no_spec ha h2)⟩)
  · exact .inl (.inr ⟨⟨h1, yes_spec ha h3⟩, .inl (no_spec ha h2)⟩)
  · exact .inl (.inr ⟨⟨h1, yes_spec ha h3⟩, .inr (no_spec ha h2)⟩)
  · exact .inr ⟨h1, .inl (no_spec ha h2)⟩
  · exact .inr ⟨h1, .inr (no_spec ha h2)⟩

theorem unanswered_of {w a h} (ha : Agrees w a) (hk : kUnanswered h a = true) : Spec.unanswered h w = true := by
  unfold kUnanswered at hk
  rw [Bool.and_eq_true] at hk
  simp only [Spec.unanswered, Bool.and_eq_true, Bool.not_eq_true']
  exact ⟨hk.1, no_spec ha hk.2⟩

theorem lost_of {w a h} (ha : Agrees w a) (hk : kLost h a = true) : Spec.lost h w = true := by
  unfold kLost at hk
  simp only [Bool.or_eq_true, Bool.and_eq_true] at hk
  simp only [Spec.lost, Bool.or_eq_true, Bool.and_eq_true, Bool.not_eq_true']
  rcases hk with (⟨⟨h1, h2⟩, h3 | h3⟩ | ⟨h1, h2⟩) | ⟨h1, h2⟩
  · exact .inl (.inl ⟨⟨h1, yes_spec ha h2⟩, .inl (yes_spec ha h3)⟩)
  · exact .inl (.inl ⟨⟨h1, yes_spec ha h2⟩, .inr (yes_spec ha h3)⟩)
  · exact .inl (.inr ⟨h1, no_spec ha h2⟩)
  · exact .inr ⟨h1, no_spec ha h2⟩

theorem undefined_of {w a custom h} (ha : Agrees w a) (hk : kUndefined custom h a = true) :
    Spec.undefined custom h w = true := by
  unfold kUndefined at hk
  simp only [Bool.or_eq_true, Bool.and_eq_true] at hk
  simp only [Spec.undefined, Bool.or_eq_true, Bool.and_eq_true, Bool.not_eq_true', Bool.and_eq_false_iff]
  rcases hk with (h1 | ⟨⟨h1, h2⟩, h3⟩) | ⟨h1, h2 | h2⟩
  · exact .inl (.inl h1)
  · exact .inl (.inr ⟨⟨h1, no_spec ha h2⟩, yes_spec ha h3⟩)
  · exact .inr ⟨h1, .inl (no_spec ha h2)⟩
  · exact .inr ⟨h1, .inr (no_spec ha h2)⟩

/-! ## The judgement of one way through a handler -/

/-- What is asked of a request which is given back. -/
def fine (custom : Bool) (h : Handler) (a : Known) (r : Run) : Bool :=
  r.given == 1 &&
  (1 ≤ r.answers.length || kUnanswered h a) &&
  (r.answers.length ≤ 1 || kRepeated h a) &&
  (r.held == [] || kLost h a) &&
  (r.bad == none || kUndefined custom h a) &&
  (r.answers.all (300 ≤ ·) || (Spec.needs h).all (yes a))

/-- The end of `request_callback`. -/
def finish (async : Bool) (r : Run) : Run :=
  let r := { r with locked := false }
  if !async || r.asyncStopped then r.giveBack else r

theorem serve_eq (custom async : Bool) (p : Prog) (w : World) :
    serve custom async p w = finish async (exec w p { Run.start custom with locked := true }).2 := rfl

/-- One way through the function of a handler, and through the callback when a notification is sent. -/
def judge (custom : Bool) (h : Handler) (x : Known × Bool × Run) : Bool :=
  let r := finish (h == .fcmTest) x.2.2
  if r.given = 0 then
    h == .fcmTest && r.sending &&
    (paths msgSent x.1 { r with sending := false, dangling := [] }).all fun y => fine custom h y.1 y.2.2
  else fine custom h x.1 r && !r.sending

def judged (custom : Bool) (h : Handler) : Bool :=
  (paths h.prog [] { Run.start custom with locked := true }).all (judge custom h)

theorem all_judged : ∀ (custom : Bool) (h : Handler), judged custom h = true := by
  intro custom h
  cases custom <;> cases h <;> decide +kernel

/-! ## Histories -/

/-- What is known of a request which was given back. -/
structure Ok (custom : Bool) (h : Handler) (w : World) (r : Run) : Prop where
  given : r.given = 1
  atLeast : 1 ≤ r.answers.length ∨ Spec.unanswered h w = true
  atMost : r.answers.length ≤ 1 ∨ Spec.repeated h w = true
  held : r.held = [] ∨ Spec.lost h w = true
  bad : r.bad = none ∨ Spec.undefined custom h w = true
  success : (∃ n ∈ r.answers, n < 300) → ∀ c ∈ Spec.needs h, w c = true

theorem ok_of {custom h w a r} (ha : Agrees w a) (hf : fine custom h a r = true) : Ok custom h w r := by
  simp only [fine, Bool.and_eq_true, Bool.or_eq_true, beq_iff_eq, decide_eq_true_eq] at hf
  obtain ⟨⟨⟨⟨⟨h1, h2⟩, h3⟩, h4⟩, h5⟩, h6⟩ := hf
  exact { given := h1
          atLeast := h2.imp_right (unanswered_of ha)
          atMost := h3.imp_right (repeated_of ha)
          held := h4.imp_right (lost_of ha)
          bad := h5.imp_right (undefined_of ha)
          success := by
            rintro ⟨n, hn, hl⟩ c hc
            rcases h6 with h6 | h6
            · have := List.all_eq_true.1 h6 n hn
              rw [decide_eq_true_eq] at this
              omega
            · exact yes_spec ha (List.all_eq_true.1 h6 c hc) }

/-- The rest of the handling of a request for a notification. -/
def sentRun (w : World) (r : Run) : Run := (exec w msgSent { r with sending := false, dangling := [] }).2

theorem ok_sent {custom h w a r} (ha : Agrees w a)
    (hf : ∀ y ∈ paths msgSent a { r with sending := false, dangling := [] }, fine custom h y.1 y.2.2 = true) :
    Ok custom h w (sentRun w r) := by
  unfold sentRun
  generalize msgSent = p at hf ⊢
  obtain ⟨b, hb, hm⟩ := exec_mem w p a { r with sending := false, dangling := [] } ha
  exact ok_of hb (hf _ hm)

theorem served (custom : Bool) (h : Handler) (w : World) :
    let r := serve custom (h == .fcmTest) h.prog w
    (r.given ≠ 0 ∧ r.sending = false ∧ Ok custom h w r) ∨
    (r.given = 0 ∧ r.sending = true ∧ h = .fcmTest ∧ Ok custom h w (sentRun w r)) := by
  obtain ⟨a, ha, hm⟩ := exec_mem w h.prog [] { Run.start custom with locked := true } (by intro c b hm; cases hm)
  have hj := all_judged custom h
  unfold judged at hj
  rw [List.all_eq_true] at hj
  have hj := hj _ hm
  simp only [judge] at hj
  rw [serve_eq]
  generalize hr : finish (h == .fcmTest) (exec w h.prog { Run.start custom with locked := true }).2 = r at hj
  by_cases hg : r.given = 0
  · rw [if_pos hg] at hj
    simp only [Bool.and_eq_true, beq_iff_eq, List.all_eq_true] at hj
    obtain ⟨⟨h1, h2⟩, h3⟩ := hj
    exact .inr ⟨hg, h2, h1, ok_sent ha h3⟩
  · simp only [hg, if_false, Bool.and_eq_true, Bool.not_eq_true'] at hj
    exact .inl ⟨hg, hj.2, ok_of ha hj.1⟩

/-- What holds at all times of a handler which is told in time to wait. -/
structure Inv (custom : Bool) (h : Handler) (s : Srv) : Prop where
  async : s.async = (h == .fcmTest)
  closed : ∀ x ∈ s.closed, Ok custom h x.1 x.2
  rest : s.open_ = none ∧ s.listening = true ∧ s.delivered = s.closed.length ∨
    ∃ w r, s.open_ = some (w, r) ∧ s.listening = false ∧ s.delivered = s.closed.length + 1 ∧ h = .fcmTest ∧
      r.given = 0 ∧ r.sending = true ∧ Ok custom h w (sentRun w r)

theorem inv_step {custom h s} (e : Event) (hi : Inv custom h s) : Inv custom h (step custom h s e) := by
  cases e with
  | setAsync =>
    by_cases hh : h = .fcmTest
    · simp only [step, hh, if_true]
      exact { async := by simp, closed := hh ▸ hi.closed, rest := hh ▸ hi.rest }
    · simp only [step, hh, if_false]; exact hi
  | stop => exact { async := hi.async, closed := hi.closed, rest := hi.rest }
  | request w =>
    simp only [step]
    split
    next hl =>
      have hl : s.listening = true := by
        cases hx : s.listening with
        | true => rfl
        | false => simp [hx] at hl
      have hrest : s.open_ = none ∧ s.delivered = s.closed.length := by
        rcases hi.rest with ⟨h1, _, h3⟩ | ⟨w, r, h1, h2, _⟩
        · exact ⟨h1, h3⟩
        · rw [h2] at hl; cases hl
      rw [hi.async]
      rcases served custom h w with ⟨hg, hs, hok⟩ | ⟨hg, hs, hh, hok⟩
      · simp only [hg, hs, if_false, Bool.false_eq_true]
        refine { async := rfl, closed := ?_, rest := .inl ⟨hrest.1, hl, by simp [hrest.2]⟩ }
        intro x hx
        rcases List.mem_append.mp hx with hx | hx
        · exact hi.closed x hx
        · rw [List.mem_singleton.mp hx]; exact hok
      · simp only [hg, if_true]
        exact { async := rfl, closed := hi.closed
                rest := .inr ⟨w, _, rfl, rfl, by simp [hrest.2], hh, hg, hs, hok⟩ }
    next => exact hi
  | sent =>
    rcases hi.rest with ⟨h1, h2, h3⟩ | ⟨w, r, h1, h2, h3, h4, h5, h6, h7⟩
    · simp only [step, h1]; exact hi
    · simp only [step, h1, h6, if_true]
      refine { async := hi.async, closed := ?_, rest := .inl ⟨rfl, rfl, by simp [h3]⟩ }
      intro x hx
      rcases List.mem_append.mp hx with hx | hx
      · exact hi.closed x hx
      · rw [List.mem_singleton.mp hx]; exact h7

theorem inv_foldl {custom h} (es : List Event) : ∀ s, Inv custom h s → Inv custom h (es.foldl (step custom h) s) := by
  induction es with
  | nil => intro s hi; exact hi
  | cons e l ih => intro s hi; exact ih _ (inv_step e hi)

theorem inv_run {custom h} {es : List Event} (hr : Spec.Ready h es) : Inv custom h (run custom h es) := by
  by_cases hh : h = .fcmTest
  · obtain ⟨l, rfl⟩ := hr hh
    subst hh
    refine inv_foldl l _ { async := by simp [step], closed := ?_, rest := .inl ⟨rfl, rfl, rfl⟩ }
    intro x hx
    simp [step, Srv.init] at hx
  · refine inv_foldl es _ { async := ?_, closed := ?_, rest := .inl ⟨rfl, rfl, rfl⟩ }
    · have : (h == .fcmTest) = false := by simpa using hh
      rw [this]; rfl
    · intro x hx
      cases hx

end Verif.Iam.Service
