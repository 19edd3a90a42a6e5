import Verif.Dtls.AttachMem

/-!
# C141: whom the device attaches to, and the memory of the attach connection

The full property has three parts.  Whom the device attaches to (`C141_authentic`, `C141_available`,
`C141_disabled`) is proved for both libraries.  That root certificates set by the user replace the default one
(nabto_device.h:326-330) is false: `C141_override_violated`.  That a failed attempt leaves nothing behind
holds for mbedTLS and wolfSSL only while the event queue, and for wolfSSL the host name, never fails:
`C141_memory_partial`, `C141_safe_partial`, `C141_leak_violated`, `C141_dangling_violated`.
-/

namespace Verif.Dtls.Attach

/-- C141: unless certificate validation was turned off before, a server with which the handshake completes has
a certificate for the host name the device was started with, from the default root or from one the user gave. -/
theorem C141_authentic (l : Lib) (ops : List Op) (x : Cert) (h : Spec.accepts l ops x) :
    .disable ∈ ops ∨
      ((x.root = defaultRoot ∨ x.root ∈ Spec.given ops) ∧ ∃ n, Spec.hostOf ops = some n ∧ n ∈ x.names) := by
  obtain ⟨hu, i, c, e1, e2, hv⟩ := (accepts_iff l ops x).1 h
  have hi := inv_run l ops
  have hd := data_run l ops
  have ho : (run l ops).over = false := by
    cases ho : (run l ops).over with
    | false => rfl
    | true => rw [hi.over ho] at hu; cases hu
  obtain ⟨i', c', f1, f2, f3, f4⟩ := hi.live hu
  rw [e1] at f1
  cases f1
  rw [e2] at f2
  cases f2
  rcases hv with hv | hv
  · left
    apply hd.off
    cases l with
    | mbed => exact hi.conf hv
    | wolf => exact f4 rfl hv
  · right
    have hs := hi.host hu
    simp only [St.good, Bool.and_eq_true, List.contains_iff_mem] at hv
    refine ⟨hd.sound ho _ hv.1, ?_⟩
    obtain ⟨n, hn⟩ := Option.isSome_iff_exists.1 hs
    refine ⟨n, by rw [← hd.host ho]; exact hn, ?_⟩
    have := hv.2
    rw [f3, hn] at this
    simpa using this

/-- C141: a server with a certificate for the host name from the default root, or from a root a successful
call gave, is accepted by a device which has a connection. -/
theorem C141_available (l : Lib) (ops : List Op) (x : Cert) (n : Nat) (hu : (run l ops).up = true)
    (hn : Spec.hostOf ops = some n) (hx : n ∈ x.names)
    (hr : x.root = defaultRoot ∨ x.root ∈ Spec.givenOk ops) : Spec.accepts l ops x := by
  have hi := inv_run l ops
  have hd := data_run l ops
  have ho : (run l ops).over = false := by
    cases ho : (run l ops).over with
    | false => rfl
    | true => rw [hi.over ho] at hu; cases hu
  obtain ⟨i, c, f1, f2, f3, f4⟩ := hi.live hu
  refine (accepts_iff l ops x).2 ⟨hu, i, c, f1, f2, Or.inr ?_⟩
  simp only [St.good, Bool.and_eq_true, List.contains_iff_mem]
  refine ⟨hd.complete ho _ hr, ?_⟩
  rw [f3, hd.host ho, hn]
  simpa using hx

theorem disabled_of_mem (l : Lib) (ops : List Op) (h : .disable ∈ ops) :
    (run l ops).over = true ∨ (run l ops).disabled = true := by
  revert h
  refine snoc_ind (P := fun ops => .disable ∈ ops → (run l ops).over = true ∨ (run l ops).disabled = true) ?_ ?_ ops
  · simp
  · intro ops o ih hm
    rw [run_snoc]
    have hi := inv_run l ops
    generalize run l ops = s at ih hi
    by_cases ho : s.over = true
    · left; simp only [step, ho, if_true]
    have ho' : s.over = false := by simpa using ho
    by_cases hs : s.disabled = true
    · right
      simp only [step, ho', Bool.false_eq_true, if_false]
      cases o with
      | setRoots t k ok => simp only [St.setRoots]; split <;> exact hs
      | disable => rfl
      | start h => simp only [St.start]; split <;> exact hs
      | attempt w => rw [(attempt_same l s hi w).2.2.1]; exact hs
      | answer x => rw [(answer_same l s x).2.2.1]; exact hs
      | packet => rw [(packet_same s).2.2.1]; exact hs
      | closed => rw [(closed_same s).2.2.1]; exact hs
      | deinit => rw [(deinit_same s).1]; exact hs
    · rcases List.mem_append.1 hm with hm | hm
      · rcases ih hm with h | h
        · exact absurd h ho
        · exact absurd h hs
      · right
        simp only [List.mem_singleton] at hm
        subst hm
        simp [step, ho', St.disable]

/-- C141: once validation is turned off while there is no connection, every later connection accepts every
server. -/
theorem C141_disabled (l : Lib) (a b : List Op) (x : Cert) (hd : .disable ∈ a) (hu : (run l a).up = false)
    (hv : (run l (a ++ b)).up = true) : Spec.accepts l (a ++ b) x := by
  have hi := inv_run l a
  rw [accepts_iff]
  refine ⟨hv, ?_⟩
  rcases disabled_of_mem l a hd with ho | ho
  · exfalso
    have : ∀ (r : List Op) (s : St), s.over = true → runFrom l s r = s := by
      intro r
      induction r with
      | nil => intro s _; rfl
      | cons o r ih =>
        intro s hs
        have : step l s o = s := by simp only [step, hs, if_true]
        show runFrom l (step l s o) r = s
        rw [this]; exact ih s hs
    rw [run_append, this b _ ho, hu] at hv
    cases hv
  · have := off_runFrom l (run l a) b hi ⟨ho, fun h => by rw [hu] at h; cases h⟩
    rw [← run_append] at this
    obtain ⟨i, c, e1, e2, e3⟩ := this.conn hv
    exact ⟨i, c, e1, e2, Or.inl e3⟩

/-- C141 is violated: root certificates given by the user do not replace the default one.  Whatever was set,
a device with a connection accepts a server with a certificate from the default root. -/
theorem C141_override_violated (l : Lib) :
    (∀ ops n, (run l ops).up = true → Spec.hostOf ops = some n → Spec.accepts l ops ⟨defaultRoot, [n]⟩) ∧
    ∃ ops x, Spec.givenOk ops ≠ [] ∧ x.root ∉ Spec.given ops ∧ .disable ∉ ops ∧ Spec.accepts l ops x := by
  refine ⟨fun ops n hu hn => C141_available l ops _ n hu hn (by simp) (Or.inl rfl), ?_⟩
  refine ⟨[.setRoots [7] 1 true, .start 3, .attempt {}], ⟨defaultRoot, [3]⟩, by decide, by decide, by decide, ?_⟩
  exact C141_available l _ _ 3 (by cases l <;> decide) rfl (by simp) (Or.inl rfl)

/-- C141 in part: when the event queue never fails, and for wolfSSL the host name never does, there is no
connection on the heap but the one in use, and none after the attacher is gone. -/
theorem C141_memory_partial (l : Lib) (ops : List Op) (he : Spec.eventsWork ops)
    (hn : l = .wolf → Spec.namesWork ops) :
    Spec.tidy (run l ops) ∧ ((run l ops).over = true → (run l ops).heap = []) := by
  have ht := tidy_run l ops he hn
  have hs := safe_run l ops (fun hl w hm => ⟨(he w hm).2.2, (hn hl w hm).1, (hn hl w hm).2⟩)
  refine ⟨⟨hs.calm, ?_, ?_⟩, fun ho => (ht.idle ((inv_run l ops).over ho)).1⟩
  · cases hu : (run l ops).up with
    | false => rw [(ht.idle hu).1]; simp
    | true =>
      obtain ⟨c, e1, _⟩ := ht.busy hu
      rw [e1]; simp
  · cases hu : (run l ops).up with
    | false => simp [(ht.idle hu).2]
    | true =>
      obtain ⟨c, _, e2⟩ := ht.busy hu
      simp [e2]

/-- C141 in part: no freed or missing memory is ever used with mbedTLS, whatever fails; with wolfSSL as long as
the completion event of the sender and the host name never fail. -/
theorem C141_safe_partial (l : Lib) (ops : List Op)
    (hw : l = .wolf → Spec.namesWork ops ∧ ∀ w, .attempt w ∈ ops → w.sender = true) :
    (run l ops).crash = false :=
  (safe_run l ops (fun hl w hm => ⟨(hw hl).2 w hm, (hw hl).1 w hm⟩)).calm

/-- C141 is violated: with both libraries an attempt for which `startSendEvent` cannot be made leaves a
connection on the heap which nothing that happens later frees. -/
theorem C141_leak_violated (l : Lib) (ops more : List Op) (n : Nat) (w : Works)
    (hh : (run l ops).host = some n) (hu : (run l ops).up = false) (ho : (run l ops).over = false)
    (ha : w.alloc = true) (ht : w.timer = true) (hs : w.start = false) :
    (run l (ops ++ .attempt w :: more)).heap ≠ [] := by
  have hi := inv_run l ops
  rw [run_append]
  show (runFrom l (step l (run l ops) (.attempt w)) more).heap ≠ []
  have key : Lost (run l ops).next (step l (run l ops) (.attempt w)) := by
    simp only [step, ho, Bool.false_eq_true, if_false, St.attempt, hh, hu]
    cases l with
    | mbed =>
      rcases attemptMbed_cases _ hi.fresh n w with ⟨h, e⟩ | ⟨_, hx, e⟩ | ⟨_, h, _, e⟩ | ⟨_, h, _, e⟩
      · rw [ha] at h; cases h
      · simp only [e]; exact ⟨by simp, by simp, by simp⟩
      · simp [hs] at h
      · simp [hs] at h
    | wolf =>
      rcases attemptWolf_cases _ hi.fresh n w with ⟨h, e⟩ | ⟨_, _, hx, e⟩ | ⟨_, h, e⟩ | ⟨_, _, h, _, e⟩ | ⟨_, _, h, _, e⟩
      · rw [ha] at h; cases h
      · simp only [e]; exact ⟨by simp, by simp, by simp⟩
      · simp [ht, hs] at h
      · simp [hs] at h
      · simp [hs] at h
  have := (lost_runFrom l _ more _ (inv_step l _ _ hi) key).there
  intro he
  rw [he] at this
  simp at this

/-- C141 is violated: with wolfSSL an attempt for which the host name cannot be set leaves the attacher with a
connection which is already freed; the next packet, or the end of the attacher, uses it. -/
theorem C141_dangling_violated (ops : List Op) (n : Nat) (w : Works)
    (hh : (run .wolf ops).host = some n) (hu : (run .wolf ops).up = false) (ho : (run .wolf ops).over = false)
    (ha : w.alloc = true) (ht : w.timer = true) (hs : w.start = true) (hl : w.ssl = true) (hp : w.alpn = true)
    (hm : w.timeouts = true) (hn : (w.sni && w.domain) = false) :
    (run .wolf (ops ++ [.attempt w, .packet])).crash = true ∧
    (run .wolf (ops ++ [.attempt w, .deinit])).crash = true := by
  have hi := inv_run .wolf ops
  have key : step .wolf (run .wolf ops) (.attempt w) =
      { run .wolf ops with dtls := some (run .wolf ops).next, next := (run .wolf ops).next + 1 } := by
    simp only [step, ho, Bool.false_eq_true, if_false, St.attempt, hh, hu]
    have hff := filter_fresh hi.fresh
    obtain ⟨a, ti, se, st, ssl, al, to, sni, dom⟩ := w
    simp only at ha ht hs hl hp hm hn
    subst ha ht hs hl hp hm
    cases sni <;> cases dom <;> simp_all [St.attemptWolf, St.new, St.free]
  have hany : ((run .wolf ops).heap.any (fun c => c.id == (run .wolf ops).next)) = false := by
    rw [List.any_eq_false]
    intro c hc
    have := hi.fresh c hc
    simp; omega
  refine ⟨?_, ?_⟩
  · rw [run_append]
    show (step .wolf (step .wolf (run .wolf ops) (.attempt w)) .packet).crash = true
    rw [key]
    simp [step, ho, St.packet, hany]
  · rw [run_append]
    show (step .wolf (step .wolf (run .wolf ops) (.attempt w)) .deinit).crash = true
    rw [key]
    simp [step, ho, St.deinit, St.free, hany]

/-- The hypotheses are met: a device which trusts root 7 as well, one certificate which is accepted and three
which are not. -/
example : ∀ l : Lib,
    let ops : List Op := [.setRoots [7, 8] 1 false, .start 3, .attempt {}]
    Spec.accepts l ops ⟨7, [3, 4]⟩ ∧ Spec.accepts l ops ⟨defaultRoot, [3]⟩ ∧ ¬ Spec.accepts l ops ⟨8, [3]⟩ ∧
    ¬ Spec.accepts l ops ⟨7, [4]⟩ ∧ ¬ Spec.accepts l [.start 3] ⟨defaultRoot, [3]⟩ := by
  intro l
  cases l <;> simp only [Spec.accepts] <;> decide

/-- The hypotheses are met: validation turned off during a connection counts from the next one on. -/
example : ∀ l : Lib,
    let a : List Op := [.start 3, .attempt {}, .disable]
    ¬ Spec.accepts l a ⟨9, []⟩ ∧ (run l (a ++ [.closed])).up = false ∧
    (run l (a ++ [.closed] ++ [.attempt { alloc := false }, .attempt {}])).up = true ∧
    Spec.accepts l (a ++ [.closed] ++ [.attempt { alloc := false }, .attempt {}]) ⟨9, []⟩ := by
  intro l
  cases l <;> simp only [Spec.accepts] <;> decide

/-- The hypotheses are met: failures of the heap and of the TLS library. -/
example : ∀ l : Lib,
    let ops : List Op := [.start 3, .attempt { ssl := false }, .attempt { alloc := false }, .attempt {}, .closed,
      .attempt {}]
    Spec.eventsWork ops ∧ Spec.namesWork ops ∧ (run l ops).up = true ∧ (run l ops).heap.length = 1 ∧
      (run l (ops ++ [.deinit])).heap = [] := by
  intro l
  refine ⟨?_, ?_, ?_⟩
  · intro w hw; simp at hw; rcases hw with rfl | rfl | rfl <;> simp
  · intro w hw; simp at hw; rcases hw with rfl | rfl | rfl <;> simp
  · cases l <;> decide

/-- The hypotheses are met: a leak with both libraries, a freed pointer and a missing event with wolfSSL. -/
example : (∀ l : Lib, (run l [.start 3]).host = some 3 ∧
      (run l [.start 3, .attempt { start := false }, .deinit]).heap.length = 1) ∧
    (run .wolf [.start 3, .attempt { domain := false }, .packet]).crash = true ∧
    (run .mbed [.start 3, .attempt { sni := false }, .packet, .deinit]).crash = false ∧
    (run .wolf [.start 3, .attempt { sender := false }]).crash = true := by
  refine ⟨fun l => by cases l <;> decide, by decide, by decide, by decide⟩

end Verif.Dtls.Attach
