import Verif.Dtls.AcceptSpec

/-!
# Lemmas about opening connections
-/

namespace Verif.Dtls.Accept

theorem run_snoc (l : Lib) (ops : List Op) (o : Op) : run l (ops ++ [o]) = step l (run l ops) o := by
  simp [run, runFrom]

theorem run_append (l : Lib) (a b : List Op) : run l (a ++ b) = runFrom l (run l a) b := by
  simp [run, runFrom]

theorem snoc_ind {P : List Op → Prop} (h0 : P []) (hs : ∀ ops o, P ops → P (ops ++ [o])) : ∀ ops, P ops := by
  intro ops
  have : ∀ r : List Op, P r.reverse := by
    intro r
    induction r with
    | nil => exact h0
    | cons o r ih => simpa using hs _ o ih
  simpa using this ops.reverse

/-- A connection which has all its parts. -/
def Conn.full (c : Conn) : Prop :=
  c.keepAlive = true ∧ c.send = true ∧ c.kaSend = true ∧ c.dtls = some 5

/-- What always holds. -/
structure Inv (s : St) : Prop where
  full : ∀ c ∈ s.conns, c.full
  old : ∀ c ∈ s.conns, c.ref < s.nextRef
  nodup : (s.conns.map Conn.ref).Nodup
  current : s.current = s.conns.length
  paid : s.freed + 10 * s.conns.length ≤ s.made
  once : ∀ r, s.told.count (.closed r) = if r < s.nextRef ∧ r ∉ s.conns.map Conn.ref then 1 else 0

/-- Every way the first packet of a client ends. -/
theorem first_cases (l : Lib) (s : St) (hi : Inv s) (cl : Nat) (hs : Bool) (w : Works) :
    let t := s.first l cl hs w
    (∃ n, t = { s with made := s.made + n, freed := s.freed + n }) ∨
    (Spec.allWorks w ∧ s.full = false ∧
      t = { s with current := s.current + 1, nextRef := s.nextRef + 1, made := s.made + 10,
                   conns := s.conns ++ [⟨s.nextRef, cl, true, true, true, some 5⟩] }) ∨
    (¬ Spec.allWorks w ∧ ∃ k j, (0 < j → ¬ Spec.sessionWorks w) ∧
        t = { s with nextRef := s.nextRef + 1, made := s.made + 2 + k + j, freed := s.freed + 2 + k,
                     told := .closed s.nextRef :: s.told, crash := s.crash || (l == .wolf) }) := by
  have hf : ∀ c : Conn, c.ref = s.nextRef → (s.conns ++ [c]).filter (fun d => d.ref != s.nextRef) = s.conns := by
    intro c hc
    rw [List.filter_append, List.filter_eq_self.2]
    · simp [hc]
    · intro d hd
      have := hi.old d hd
      simp; omega
  intro t
  by_cases h1 : (s.conns.any (fun c => c.client == cl) || !hs) = true
  · exact Or.inl ⟨0, by simp only [t, St.first, h1, if_true, Nat.add_zero]⟩
  by_cases h2 : s.full = true
  · exact Or.inl ⟨0, by simp only [t, St.first, h1, h2, if_true, Nat.add_zero]; simp⟩
  have h2' : s.full = false := by simpa using h2
  by_cases h3 : (!w.block || !w.block2) = true
  · exact Or.inl ⟨w.block.toNat + w.block2.toNat, by simp only [t, St.first, h1, h2, h3, if_true]; simp⟩
  by_cases h4 : (!w.ref) = true
  · exact Or.inl ⟨2, by simp only [t, St.first, h1, h2, h3, h4, if_true]; simp⟩
  right
  have ht : t = (let r := initConn ⟨s.nextRef, cl, false, false, false, none⟩ w
      let s' := { s with
        current := s.current + 1, conns := s.conns ++ [r.1], nextRef := s.nextRef + 1, made := s.made + 2 + r.2.1 }
      if r.2.2 then s' else s'.destroy l r.1) := by
    simp only [t, St.first, h1, h2, h3, h4]; simp
  rw [ht]
  clear ht t h1 h2 h3 h4
  obtain ⟨b1, b2, rf, ka, se, ks, al, st, ti, sn, ssl, re⟩ := w
  cases ka
  · right
    refine ⟨by simp [Spec.allWorks], 0, 0, by simp, ?_⟩
    cases l <;> simp [initConn, St.destroy, St.destroySession, hf]
  cases se
  · right
    refine ⟨by simp [Spec.allWorks], 1, 0, by simp, ?_⟩
    cases l <;> simp [initConn, St.destroy, St.destroySession, hf] <;> omega
  cases ks
  · right
    refine ⟨by simp [Spec.allWorks], 2, 0, by simp, ?_⟩
    cases l <;> simp [initConn, St.destroy, St.destroySession, hf] <;> omega
  cases al
  · right
    refine ⟨by simp [Spec.allWorks], 3, 0, by simp, ?_⟩
    cases l <;> simp [initConn, createSession, St.destroy, St.destroySession, hf] <;> omega
  cases st
  · right
    refine ⟨by simp [Spec.allWorks], 3, 1, by simp [Spec.sessionWorks], ?_⟩
    cases l <;> simp [initConn, createSession, St.destroy, St.destroySession, hf] <;> omega
  cases ti
  · right
    refine ⟨by simp [Spec.allWorks], 3, 2, by simp [Spec.sessionWorks], ?_⟩
    cases l <;> simp [initConn, createSession, St.destroy, St.destroySession, hf] <;> omega
  cases sn
  · right
    refine ⟨by simp [Spec.allWorks], 3, 3, by simp [Spec.sessionWorks], ?_⟩
    cases l <;> simp [initConn, createSession, St.destroy, St.destroySession, hf] <;> omega
  cases ssl
  · right
    refine ⟨by simp [Spec.allWorks], 3, 4, by simp [Spec.sessionWorks], ?_⟩
    cases l <;> simp [initConn, createSession, St.destroy, St.destroySession, hf] <;> omega
  cases re
  · right
    refine ⟨by simp [Spec.allWorks], 3, 5, by simp [Spec.sessionWorks], ?_⟩
    cases l <;> simp [initConn, createSession, St.destroy, St.destroySession, hf] <;> omega
  left
  exact ⟨by simp [Spec.allWorks], h2', by simp [initConn, createSession]⟩

/-- What destroying a connection which has all its parts does. -/
theorem destroy_full (l : Lib) (s : St) (c : Conn) (hc : c.full) :
    s.destroy l c = { s with told := .closed c.ref :: s.told, freed := s.freed + 10,
                             conns := s.conns.filter (fun d => d.ref != c.ref), current := s.current - 1 } := by
  obtain ⟨a, b, d, e⟩ := hc
  simp [St.destroy, St.destroySession, a, b, d, e]

theorem filter_length {r : List Conn} {c : Conn} (hm : c ∈ r) (hn : (r.map Conn.ref).Nodup) :
    (r.filter (fun d => d.ref != c.ref)).length + 1 = r.length := by
  induction r with
  | nil => cases hm
  | cons a r ih =>
    simp only [List.map_cons, List.nodup_cons] at hn
    rcases List.mem_cons.1 hm with rfl | hm'
    · have : r.filter (fun d => d.ref != c.ref) = r := by
        rw [List.filter_eq_self]
        intro d hd
        simp only [bne_iff_ne, ne_eq]
        intro he
        exact hn.1 (List.mem_map.2 ⟨d, hd, he⟩)
      simp [this]
    · have hne : a.ref ≠ c.ref := fun he => hn.1 (List.mem_map.2 ⟨c, hm', he.symm⟩)
      have := ih hm' hn.2
      simp [hne]; omega

theorem inv_destroy (l : Lib) (s : St) (c : Conn) (hi : Inv s) (hm : c ∈ s.conns) : Inv (s.destroy l c) := by
  rw [destroy_full l s c (hi.full c hm)]
  have hl := filter_length hm hi.nodup
  refine ⟨fun d hd => hi.full d (List.mem_filter.1 hd).1, fun d hd => hi.old d (List.mem_filter.1 hd).1, ?_, ?_, ?_, ?_⟩
  · exact hi.nodup.sublist ((List.filter_sublist).map _)
  · have := hi.current; simp only; omega
  · have := hi.paid; simp only; omega
  · intro r
    simp only [List.count_cons, hi.once r]
    by_cases hr : c.ref = r
    · subst hr
      have h1 := hi.old c hm
      have h2 : c.ref ∈ s.conns.map Conn.ref := List.mem_map.2 ⟨c, hm, rfl⟩
      have h3 : c.ref ∉ (s.conns.filter (fun d => d.ref != c.ref)).map Conn.ref := by
        intro h
        obtain ⟨d, hd, he⟩ := List.mem_map.1 h
        have := (List.mem_filter.1 hd).2
        simp [he] at this
      simp [h1, h2, h3]
    · have h3 : r ∈ (s.conns.filter (fun d => d.ref != c.ref)).map Conn.ref ↔ r ∈ s.conns.map Conn.ref := by
        constructor
        · intro h
          obtain ⟨d, hd, he⟩ := List.mem_map.1 h
          exact List.mem_map.2 ⟨d, (List.mem_filter.1 hd).1, he⟩
        · intro h
          obtain ⟨d, hd, he⟩ := List.mem_map.1 h
          refine List.mem_map.2 ⟨d, List.mem_filter.2 ⟨hd, ?_⟩, he⟩
          simp [he, Ne.symm hr]
      simp only [h3]
      have : (Event.closed c.ref == Event.closed r) = false := by simp [hr]
      simp [this]

/-- A property which every destroyed connection keeps holds after all of them are destroyed. -/
theorem deinit_ind {P : St → Prop} (l : Lib) (hd : ∀ s c, Inv s → c ∈ s.conns → P s → P (s.destroy l c))
    (s : St) (hi : Inv s) (hp : P s) : P (s.deinit l) ∧ Inv (s.deinit l) ∧ (s.deinit l).conns = [] := by
  unfold St.deinit
  have key : ∀ (r : List Conn) (t : St), t.conns = r → Inv t → P t →
      let u := r.foldl (fun s c => s.destroy l c) t
      P u ∧ Inv u ∧ u.conns = [] := by
    intro r
    induction r with
    | nil => intro t ht hi hp; exact ⟨hp, hi, ht⟩
    | cons c r ih =>
      intro t ht hi hp
      have hm : c ∈ t.conns := by rw [ht]; exact List.mem_cons_self
      have hn := hi.nodup
      refine ih (t.destroy l c) ?_ (inv_destroy l t c hi hm) (hd t c hi hm hp)
      rw [destroy_full l t c (hi.full c hm)]
      simp only [ht]
      rw [ht] at hn
      simp only [List.map_cons, List.nodup_cons] at hn
      have : r.filter (fun d => d.ref != c.ref) = r := by
        rw [List.filter_eq_self]
        intro d hd
        simp only [bne_iff_ne, ne_eq]
        intro he
        exact hn.1 (List.mem_map.2 ⟨d, hd, he⟩)
      simp [this]
  exact key s.conns s rfl hi hp

theorem inv_step (l : Lib) (s : St) (o : Op) (hi : Inv s) : Inv (step l s o) := by
  cases o with
  | first cl hs w =>
    simp only [step]
    rcases first_cases l s hi cl hs w with ⟨n, e⟩ | ⟨_, _, e⟩ | ⟨_, k, j, _, e⟩ <;> rw [e]
    · exact ⟨hi.full, hi.old, hi.nodup, hi.current, by have := hi.paid; simp only; omega, hi.once⟩
    · refine ⟨?_, ?_, ?_, ?_, ?_, ?_⟩
      · intro c hc
        rcases List.mem_append.1 hc with hc | hc
        · exact hi.full c hc
        · simp only [List.mem_singleton] at hc
          subst hc
          exact ⟨rfl, rfl, rfl, rfl⟩
      · intro c hc
        rcases List.mem_append.1 hc with hc | hc
        · have := hi.old c hc; simp only; omega
        · simp only [List.mem_singleton] at hc
          subst hc
          simp
      · simp only [List.map_append, List.map_cons, List.map_nil]
        rw [List.nodup_append]
        refine ⟨hi.nodup, by simp, ?_⟩
        intro a ha b hb
        obtain ⟨d, hd, rfl⟩ := List.mem_map.1 ha
        have := hi.old d hd
        simp only [List.mem_singleton] at hb
        omega
      · simp [hi.current]
      · have := hi.paid; simp only [List.length_append, List.length_singleton]; omega
      · intro r
        simp only [hi.once r, List.map_append, List.map_cons, List.map_nil, List.mem_append, List.mem_singleton]
        by_cases h : r = s.nextRef
        · subst h; simp
        · have : r < s.nextRef + 1 ↔ r < s.nextRef := by omega
          simp [this, h]
    · refine ⟨hi.full, ?_, hi.nodup, hi.current, ?_, ?_⟩
      · intro c hc; have := hi.old c hc; simp only; omega
      · have := hi.paid; simp only; omega
      · intro r
        simp only [List.count_cons, hi.once r]
        by_cases h : r = s.nextRef
        · subst h
          have : s.nextRef ∉ s.conns.map Conn.ref := by
            intro h
            obtain ⟨d, hd, he⟩ := List.mem_map.1 h
            have := hi.old d hd
            omega
          simp [this]
        · have h1 : r < s.nextRef + 1 ↔ r < s.nextRef := by omega
          have h2 : (Event.closed s.nextRef == Event.closed r) = false := by simp [Ne.symm h]
          simp [h1, h2]
  | complete r =>
    simp only [step, St.complete]
    split
    · refine ⟨hi.full, hi.old, hi.nodup, hi.current, hi.paid, ?_⟩
      intro q
      simp only [List.count_cons, hi.once q]
      simp
    · exact hi
  | gone r =>
    simp only [step, St.gone]
    split
    · exact hi
    · rename_i c hc
      exact inv_destroy l s c hi (List.mem_of_find?_eq_some hc)
  | limit n => exact ⟨hi.full, hi.old, hi.nodup, hi.current, hi.paid, hi.once⟩
  | deinit => exact (deinit_ind (P := fun _ => True) l (fun _ _ _ _ _ => trivial) s hi trivial).2.1

theorem inv_init : Inv {} := ⟨by simp, by simp, by simp, rfl, by simp, by simp⟩

theorem inv_run (l : Lib) (ops : List Op) : Inv (run l ops) := by
  induction ops using snoc_ind with
  | h0 => exact inv_init
  | hs ops o ih => rw [run_snoc]; exact inv_step l _ o ih

/-- What is allocated beyond the open connections. -/
def excess (s : St) : Nat := s.made - (s.freed + 10 * s.conns.length)

theorem excess_destroy (l : Lib) (s : St) (c : Conn) (hi : Inv s) (hm : c ∈ s.conns) :
    excess (s.destroy l c) = excess s := by
  have hl := filter_length hm hi.nodup
  rw [destroy_full l s c (hi.full c hm)]
  simp only [excess]
  have := hi.paid
  omega

/-- Only the first packet of a client changes what is lost, and it only grows. -/
theorem excess_step (l : Lib) (s : St) (o : Op) (hi : Inv s) :
    excess s ≤ excess (step l s o) ∧
    ((∀ cl hs w, o = .first cl hs w → Spec.sessionWorks w) → excess (step l s o) = excess s) := by
  cases o with
  | first cl hs w =>
    simp only [step]
    have hp := hi.paid
    rcases first_cases l s hi cl hs w with ⟨n, e⟩ | ⟨_, _, e⟩ | ⟨_, k, j, hj, e⟩ <;> rw [e]
    · simp only [excess]; exact ⟨by omega, fun _ => by omega⟩
    · simp only [excess, List.length_append, List.length_singleton]; exact ⟨by omega, fun _ => by omega⟩
    · simp only [excess]
      refine ⟨by omega, fun h => ?_⟩
      have : ¬ 0 < j := fun h0 => hj h0 (h cl hs w rfl)
      omega
  | complete r =>
    simp only [step, St.complete]
    split <;> simp [excess]
  | gone r =>
    simp only [step, St.gone]
    split
    · simp
    · rename_i c hc
      rw [excess_destroy l s c hi (List.mem_of_find?_eq_some hc)]; simp
  | limit n => simp [step, excess]
  | deinit =>
    have := (deinit_ind (P := fun t => excess t = excess s) l
      (fun t c ht hm he => by rw [excess_destroy l t c ht hm]; exact he) s hi rfl).1
    simp only [step, this]; simp

theorem excess_runFrom (l : Lib) (s : St) (ops : List Op) (hi : Inv s) : excess s ≤ excess (runFrom l s ops) := by
  induction ops generalizing s with
  | nil => exact Nat.le_refl _
  | cons o r ih => exact Nat.le_trans (excess_step l s o hi).1 (ih _ (inv_step l s o hi))

/-- A packet which fails halfway loses something. -/
theorem first_halfway (l : Lib) (s : St) (hi : Inv s) (cl : Nat) (w : Works) (hw : Spec.halfway w)
    (hc : s.conns.any (fun c => c.client == cl) = false) (hf : s.full = false) :
    excess s < excess (s.first l cl true w) ∧ (s.first l cl true w).conns = s.conns ∧
    (s.first l cl true w).current = s.current ∧ (s.first l cl true w).max = s.max := by
  have hp := hi.paid
  have hff : ∀ c : Conn, c.ref = s.nextRef → (s.conns ++ [c]).filter (fun d => d.ref != s.nextRef) = s.conns := by
    intro c hc
    rw [List.filter_append, List.filter_eq_self.2]
    · simp [hc]
    · intro d hd
      have := hi.old d hd
      simp; omega
  obtain ⟨b1, b2, rf, ka, se, ks, al, st, ti, sn, ssl, re⟩ := w
  obtain ⟨h1, h2, h3, h4, h5, h6, h7, h8⟩ := hw
  simp only at h1 h2 h3 h4 h5 h6 h7 h8
  subst h1 h2 h3 h4 h5 h6 h7
  cases st <;> cases ti <;> cases sn <;> cases ssl <;> cases re <;> cases l <;>
    simp [St.first, hc, hf, initConn, createSession, St.destroy, St.destroySession, hff, excess] at h8 ⊢ <;> omega

/-- Nothing bad happens with mbedTLS, nor with wolfSSL while no opening fails. -/
theorem crash_step (l : Lib) (s : St) (o : Op) (hi : Inv s)
    (hw : l = .wolf → ∀ cl hs w, o = .first cl hs w → Spec.allWorks w) : (step l s o).crash = s.crash := by
  cases o with
  | first cl hs w =>
    simp only [step]
    rcases first_cases l s hi cl hs w with ⟨n, e⟩ | ⟨_, _, e⟩ | ⟨hn, k, j, _, e⟩ <;> rw [e]
    cases l with
    | mbed => simp
    | wolf => exact absurd (hw rfl cl hs w rfl) hn
  | complete r => simp only [step, St.complete]; split <;> rfl
  | gone r =>
    simp only [step, St.gone]
    split
    · rfl
    · rename_i c hc
      rw [destroy_full l s c (hi.full c (List.mem_of_find?_eq_some hc))]
  | limit n => rfl
  | deinit =>
    exact (deinit_ind (P := fun t => t.crash = s.crash) l
      (fun t c ht hm he => by rw [destroy_full l t c (ht.full c hm)]; exact he) s hi rfl).1

end Verif.Dtls.Accept
