import Verif.Net.TcpLemmas

/-
C106 and C107 for the TCP sockets of select: operations are told exactly once, and the bytes are
those of the peer and of the application.
-/
namespace Verif.Net.Tcp.Sel

open Spec Spec.Sel

/-- The operations are told once, and an aborted socket has nothing pending. -/
structure Inv (s : St) : Prop where
  told : Told s.sl
  idle : s.aborted = true → ∀ kind, s.sl.slot kind = none

theorem Inv.abort {s : St} (h : Inv s) : Inv s.abort := by
  unfold St.abort
  split
  · exact h
  · refine ⟨((h.told.resolve _ _ _).resolve _ _ _).resolve _ _ _, fun _ kind => ?_⟩
    simp only [resolve_slot]
    cases kind <;> simp

theorem Inv.of_slots {s t : St} (h : Inv s) (ht : Told t.sl) (ha : t.aborted = s.aborted)
    (hs : ∀ kind k, t.sl.slot kind = some k → s.sl.slot kind = some k) : Inv t := by
  refine ⟨ht, fun e kind => ?_⟩
  cases e2 : t.sl.slot kind with
  | none => rfl
  | some k =>
    have := hs kind k e2
    rw [h.idle (ha ▸ e) kind] at this
    cases this

theorem Inv.doRead {s : St} (h : Inv s) (io : Io) : Inv (s.doRead io) := by
  have r : ∀ (t : St) ec d, t.sl = s.sl.resolve .read ec d → t.aborted = s.aborted → Inv t := by
    intro t ec d e ea
    exact h.of_slots (e ▸ h.told.resolve _ _ _) ea (fun kind k hk => (resolve_slot_le (e ▸ hk)).1)
  unfold St.doRead
  split
  · split
    · exact h
    · exact r _ _ _ rfl rfl
    · split
      · exact r _ _ _ rfl rfl
      · split
        · split
          · exact r _ _ _ rfl rfl
          · exact h
        · exact r _ _ _ rfl rfl
  · exact h

theorem Inv.isConnected {s : St} (h : Inv s) (e : SoErr) : Inv (s.isConnected e) := by
  have r : ∀ (t : St) ec d, t.sl = s.sl.resolve .connect ec d → t.aborted = s.aborted → Inv t := by
    intro t ec d e ea
    exact h.of_slots (e ▸ h.told.resolve _ _ _) ea (fun kind k hk => (resolve_slot_le (e ▸ hk)).1)
  cases e with
  | none => exact r _ _ _ rfl rfl
  | inProgress => exact h
  | refused => exact r _ _ _ rfl rfl
  | other => exact r _ _ _ rfl rfl

theorem Inv.doWrite {s : St} (h : Inv s) (io : Io) : Inv (s.doWrite io) := by
  have r : ∀ (t : St) ec d, t.sl = s.sl.resolve .write ec d → t.aborted = s.aborted → Inv t := by
    intro t ec d e ea
    exact h.of_slots (e ▸ h.told.resolve _ _ _) ea (fun kind k hk => (resolve_slot_le (e ▸ hk)).1)
  unfold St.doWrite
  split
  · split
    · exact h
    · exact r _ _ _ rfl rfl
    · dsimp only
      split
      · exact r _ _ _ rfl rfl
      · exact ⟨h.told, h.idle⟩
  · exact h

theorem step_eq {s : St} (hg : s.gone = false) (op : Op) : s.step op = match op with
    | .connect c => s.connect c
    | .write d => s.write d
    | .read n => s.read n
    | .abort => s.abort
    | .destroy => s.destroy
    | .loop rd wr e ri wi => s.loop rd wr e ri wi
    | .peer l => if s.keof then s else { s with kin := s.kin ++ l, peer := s.peer ++ l }
    | .peerEof => { s with keof := true } := by
  cases op <;> simp [St.step, hg]

theorem gone_step {s : St} (hg : s.gone = true) (op : Op) : s.step op = s := by
  simp [St.step, hg]

theorem inv (ops : List Op) : Inv (run ops) := by
  induction ops using snoc_ind with
  | nil => exact ⟨Told.init, fun h => by cases h⟩
  | snoc ops op ih =>
    rw [run_snoc]
    generalize run ops = s at *
    rcases Bool.eq_false_or_eq_true s.gone with hg | hg
    · rw [gone_step hg]; exact ih
    rw [step_eq hg]
    have ref : ∀ kind ec, Inv ({ s with sl := s.sl.refuse kind ec } : St) :=
      fun kind ec => ⟨ih.told.refuse kind ec, ih.idle⟩
    have free : ∀ kind, ¬ (s.sl.slot kind).isSome = true → s.sl.slot kind = none := by
      intro kind h
      cases e : s.sl.slot kind with
      | none => rfl
      | some k => rw [e] at h; simp at h
    have put : ∀ (t : St) kind, ¬ s.aborted = true → ¬ (s.sl.slot kind).isSome = true →
        t.sl = s.sl.place kind → t.aborted = s.aborted → Inv t := by
      intro t kind ha hn e ea
      exact ⟨e ▸ ih.told.place kind (free kind hn), fun h => absurd (ea ▸ h) ha⟩
    cases op with
    | connect c =>
      show Inv (s.connect c)
      unfold St.connect
      split
      · exact ref _ _
      · rename_i ha
        split
        · exact ref _ _
        · rename_i hn
          have hp := put { s with sl := s.sl.place .connect } .connect ha hn rfl rfl
          have r : ∀ (t : St) ec, t.sl = (s.sl.place .connect).resolve .connect ec [] → t.aborted = s.aborted →
              Inv t := by
            intro t ec e ea
            exact hp.of_slots (e ▸ hp.told.resolve _ _ _) ea (fun kind k hk => (resolve_slot_le (e ▸ hk)).1)
          cases c with
          | noSocket => exact r _ _ rfl rfl
          | connected => exact r _ _ rfl rfl
          | inProgress => exact ⟨hp.told, hp.idle⟩
          | failed => exact r _ _ rfl rfl
    | write d =>
      show Inv (s.write d)
      unfold St.write
      split
      · exact ref _ _
      · rename_i ha
        split
        · exact ref _ _
        · rename_i hn
          exact put _ .write ha hn rfl rfl
    | read n =>
      show Inv (s.read n)
      unfold St.read
      split
      · exact ref _ _
      · rename_i ha
        split
        · exact ref _ _
        · rename_i hn
          exact put _ .read ha hn rfl rfl
    | abort => exact ih.abort
    | destroy => exact ⟨ih.abort.told, ih.abort.idle⟩
    | loop rd wr e ri wi =>
      show Inv (s.loop rd wr e ri wi)
      unfold St.loop
      split
      · dsimp only
        have h1 : Inv (if rd = true then s.doRead ri else s) := by
          split
          · exact ih.doRead ri
          · exact ih
        generalize (if rd = true then s.doRead ri else s) = t at h1
        split
        · exact (h1.isConnected e).doWrite wi
        · exact h1
      · exact ih
    | peer l =>
      dsimp only
      split
      · exact ih
      · exact ⟨ih.told, ih.idle⟩
    | peerEof => exact ⟨ih.told, ih.idle⟩

theorem abort_aborted (s : St) : s.abort.aborted = true := by
  unfold St.abort
  split
  · assumption
  · rfl

theorem gone_aborted (ops : List Op) (hg : (run ops).gone = true) : (run ops).aborted = true := by
  induction ops using snoc_ind with
  | nil => cases hg
  | snoc ops op ih =>
    rw [run_snoc] at *
    generalize run ops = s at *
    rcases Bool.eq_false_or_eq_true s.gone with h | h
    · rw [gone_step h] at *; exact ih h
    rw [step_eq h] at *
    have none : ∀ t : St, t.gone = s.gone → t.gone = true → t.aborted = true := by
      intro t e e2; rw [e, h] at e2; cases e2
    have dr : ∀ (t : St) io, (t.doRead io).gone = t.gone := by
      intro t io; unfold St.doRead; (repeat' split) <;> rfl
    have ic : ∀ (t : St) e, (t.isConnected e).gone = t.gone := by
      intro t e; cases e <;> rfl
    have dw : ∀ (t : St) io, (t.doWrite io).gone = t.gone := by
      intro t io
      unfold St.doWrite
      split
      · split
        · rfl
        · rfl
        · dsimp only; split <;> rfl
      · rfl
    cases op with
    | connect c =>
      refine none _ ?_ hg
      show (s.connect c).gone = s.gone
      unfold St.connect
      split
      · rfl
      · split
        · rfl
        · cases c <;> rfl
    | write d => exact none _ (by show (s.write d).gone = _; unfold St.write; (repeat' split) <;> rfl) hg
    | read d => exact none _ (by show (s.read d).gone = _; unfold St.read; (repeat' split) <;> rfl) hg
    | abort => exact none _ (by show s.abort.gone = _; unfold St.abort; split <;> rfl) hg
    | destroy => exact abort_aborted s
    | loop rd wr e ri wi =>
      refine none _ ?_ hg
      show (s.loop rd wr e ri wi).gone = s.gone
      unfold St.loop
      split
      · dsimp only
        have h1 : (if rd = true then s.doRead ri else s).gone = s.gone := by
          split
          · exact dr _ _
          · rfl
        split
        · rw [dw, ic]; exact h1
        · exact h1
      · rfl
    | peer l => exact none _ (by dsimp only; split <;> rfl) hg
    | peerEof => exact none _ rfl hg

/-- **C106** (select, told once).  In every history each operation on the socket is told a result
exactly once, or it is pending: the one connect, the one write or the one read.  Nothing is told
for operations that were not asked for. -/
theorem C106_select_once (ops : List Op) (k : Nat) :
    (k < (run ops).sl.asked → (∀ kind, (run ops).sl.slot kind ≠ some k) → told k (run ops).sl.answers = 1) ∧
    (∀ kind, (run ops).sl.slot kind = some k → told k (run ops).sl.answers = 0) ∧
    ((run ops).sl.asked ≤ k → told k (run ops).sl.answers = 0) :=
  ⟨(inv ops).told.one k, (inv ops).told.zero k, (inv ops).told.late k⟩

/-- **C106** (select, nothing is left).  Once the socket is aborted or destroyed every operation
asked for so far has been told exactly once. -/
theorem C106_select_ended (ops : List Op) (hg : (run ops).aborted = true ∨ (run ops).gone = true) (k : Nat)
    (hk : k < (run ops).sl.asked) : told k (run ops).sl.answers = 1 := by
  have ha : (run ops).aborted = true := hg.elim id (gone_aborted ops)
  refine (inv ops).told.one k hk (fun kind e => ?_)
  rw [(inv ops).idle ha kind] at e
  cases e

/-- A connect, a write and a read that overlap. -/
example : (run [.connect .inProgress, .read 10, .loop false true .none .again .again, .write [1, 2],
      .peer [7, 8, 9], .loop true true .none (.upTo 5) (.upTo 1), .read 1, .destroy]).sl.answers =
    [⟨0, .connect, .ok, []⟩, ⟨1, .read, .ok, [7, 8, 9]⟩, ⟨3, .read, .aborted, []⟩,
      ⟨2, .write, .aborted, []⟩] := by decide

/-! ### The bytes -/

/-- What holds of the bytes. -/
structure Bytes (ops : List Op) (s : St) : Prop where
  count : s.gone = false → s.sl.asked = (asks ops).length
  le : s.sl.asked ≤ (asks ops).length
  data : delivered s.sl.answers ++ s.kin = s.peer
  read : ∀ k, s.sl.slot .read = some k → (asks ops)[k]? = some (.read s.rsize)
  readOk : ∀ a ∈ s.sl.answers, a.kind = .read → a.ec = .ok →
    ∃ n, (asks ops)[a.op]? = some (.read n) ∧ a.data ≠ [] ∧ a.data.length ≤ n
  write : ∀ k, s.sl.slot .write = some k →
    ∃ d, (asks ops)[k]? = some (.write d) ∧ sentOf k s.out ++ s.wdata = d
  writeOk : ∀ a ∈ s.sl.answers, a.kind = .write → a.ec = .ok →
    ∃ d, (asks ops)[a.op]? = some (.write d) ∧ sentOf a.op s.out = d
  sent : ∀ p ∈ s.out, p.1 < s.sl.asked ∧ ∀ k, s.sl.slot .write = some k → p.1 ≤ k
  sorted : (s.out.map (·.1)).Pairwise (· ≤ ·)

theorem asks_snoc (ops : List Op) (op : Op) :
    asks (ops ++ [op]) = asks ops ++ (if isAsk op then [op] else []) := by
  unfold asks
  rw [List.filter_append]
  congr 1
  cases h : isAsk op <;> simp [h]

theorem asks_get {ops : List Op} {k : Nat} {o : Op} (op : Op) (h : (asks ops)[k]? = some o) :
    (asks (ops ++ [op]))[k]? = some o := by
  rw [asks_snoc]
  have hk : k < (asks ops).length := by
    rcases Nat.lt_or_ge k (asks ops).length with h1 | h1
    · exact h1
    · rw [List.getElem?_eq_none h1] at h; cases h
  rw [List.getElem?_append_left hk]; exact h

/-- Steps after which less is pending and nothing is sent or received. -/
theorem Bytes.quiet {ops ops' : List Op} {s t : St} (h : Bytes ops s)
    (hops : ∀ (k : Nat) (o : Op), (asks ops)[k]? = some o → (asks ops')[k]? = some o)
    (hlen : (asks ops).length ≤ (asks ops').length)
    (hcount : t.gone = false → t.sl.asked = (asks ops').length)
    (hasked : s.sl.asked ≤ t.sl.asked) (hle : t.sl.asked ≤ (asks ops').length)
    (hslot : ∀ kind k, t.sl.slot kind = some k → s.sl.slot kind = some k)
    (hdel : delivered t.sl.answers = delivered s.sl.answers) (hkin : t.kin = s.kin) (hpeer : t.peer = s.peer)
    (hr : t.rsize = s.rsize) (hw : t.wdata = s.wdata) (ho : t.out = s.out)
    (hans : ∀ a ∈ t.sl.answers, a ∈ s.sl.answers ∨ a.kind = .connect ∨ a.ec ≠ .ok) : Bytes ops' t := by
  refine ⟨hcount, hle, by rw [hdel, hkin, hpeer]; exact h.data, ?_, ?_, ?_, ?_, ?_, by rw [ho]; exact h.sorted⟩
  · intro k hk; rw [hr]; exact hops _ _ (h.read k (hslot _ _ hk))
  · intro a ha hk he
    rcases hans a ha with ha | ha | ha
    · obtain ⟨n, e1, e2⟩ := h.readOk a ha hk he
      exact ⟨n, hops _ _ e1, e2⟩
    · rw [ha] at hk; cases hk
    · exact absurd he ha
  · intro k hk
    obtain ⟨d, e1, e2⟩ := h.write k (hslot _ _ hk)
    exact ⟨d, hops _ _ e1, by rw [ho, hw]; exact e2⟩
  · intro a ha hk he
    rcases hans a ha with ha | ha | ha
    · obtain ⟨n, e1, e2⟩ := h.writeOk a ha hk he
      exact ⟨n, hops _ _ e1, by rw [ho]; exact e2⟩
    · rw [ha] at hk; cases hk
    · exact absurd he ha
  · intro p hp
    rw [ho] at hp
    obtain ⟨e1, e2⟩ := h.sent p hp
    exact ⟨Nat.lt_of_lt_of_le e1 hasked, fun k hk => e2 k (hslot _ _ hk)⟩

theorem Bytes.resolveNil {ops : List Op} {s t : St} (h : Bytes ops s) {kind : Kind} {ec : Ec}
    (hc : kind = .connect ∨ ec ≠ .ok) (hsl : t.sl = s.sl.resolve kind ec []) (hg : t.gone = false → s.gone = false)
    (hkin : t.kin = s.kin) (hpeer : t.peer = s.peer)
    (hr : t.rsize = s.rsize) (hw : t.wdata = s.wdata) (ho : t.out = s.out) : Bytes ops t := by
  refine h.quiet (fun _ _ e => e) (Nat.le_refl _) ?_ ?_ ?_ ?_ ?_ hkin hpeer hr hw ho ?_
  · intro e; rw [hsl, resolve_asked]; exact h.count (hg e)
  · rw [hsl, resolve_asked]; exact Nat.le_refl _
  · rw [hsl, resolve_asked]; exact h.le
  · intro kind k e; rw [hsl] at e; exact (resolve_slot_le e).1
  · rw [hsl, delivered_resolve_nil]
  · intro a ha
    rw [hsl] at ha
    rcases resolve_answers ha with ha | ⟨_, ha⟩
    · exact .inl ha
    · rw [ha]; exact .inr hc

theorem Bytes.doRead {ops : List Op} {s : St} (h : Bytes ops s) (io : Io) : Bytes ops (s.doRead io) := by
  unfold St.doRead
  split
  · rename_i hsome
    obtain ⟨k, hk⟩ := Option.isSome_iff_exists.1 hsome
    split
    · exact h
    · exact h.resolveNil (.inr (by simp)) rfl id rfl rfl rfl rfl rfl
    · rename_i n
      split
      · exact h.resolveNil (.inr (by simp)) rfl id rfl rfl rfl rfl rfl
      · rename_i hz
        split
        · split
          · exact h.resolveNil (.inr (by simp)) rfl id rfl rfl rfl rfl rfl
          · exact h
        · rename_i hne
          refine ⟨?_, ?_, ?_, ?_, ?_, ?_, ?_, ?_, h.sorted⟩
          · intro e; rw [resolve_asked]; exact h.count e
          · rw [resolve_asked]; exact h.le
          · rw [delivered_resolve hk, List.append_assoc, List.take_append_drop]; exact h.data
          · intro j hj; exact h.read j (resolve_slot_le hj).1
          · intro a ha hkind he
            rcases resolve_answers ha with ha | ⟨hs, ha⟩
            · exact h.readOk a ha hkind he
            · refine ⟨s.rsize, h.read _ hs, ?_, ?_⟩
              · rw [ha]
                intro e
                rcases List.take_eq_nil_iff.1 e with e | e
                · omega
                · exact hne e
              · rw [ha]
                show (s.kin.take _).length ≤ s.rsize
                rw [List.length_take]
                omega
          · intro j hj; exact h.write j (resolve_slot_le hj).1
          · intro a ha hkind he
            rcases resolve_answers ha with ha | ⟨hs, ha⟩
            · exact h.writeOk a ha hkind he
            · rw [ha] at hkind; cases hkind
          · intro p hp
            obtain ⟨e1, e2⟩ := h.sent p hp
            exact ⟨by rw [resolve_asked]; exact e1, fun j hj => e2 j (resolve_slot_le hj).1⟩
  · exact h

theorem Bytes.isConnected {ops : List Op} {s : St} (h : Bytes ops s) (e : SoErr) : Bytes ops (s.isConnected e) := by
  cases e with
  | none => exact h.resolveNil (.inl rfl) rfl id rfl rfl rfl rfl rfl
  | inProgress => exact h
  | refused => exact h.resolveNil (.inl rfl) rfl id rfl rfl rfl rfl rfl
  | other => exact h.resolveNil (.inl rfl) rfl id rfl rfl rfl rfl rfl

theorem Bytes.doWrite {ops : List Op} {s : St} (h : Bytes ops s) (ht : Told s.sl) (io : Io) :
    Bytes ops (s.doWrite io) := by
  unfold St.doWrite
  split
  · rename_i k hk
    split
    · exact h
    · exact h.resolveNil (.inr (by simp)) rfl id rfl rfl rfl rfl rfl
    · rename_i n
      -- the bytes go out
      have hsent : ∀ j, sentOf j (s.out ++ tag k (s.wdata.take n)) =
          sentOf j s.out ++ (if j = k then s.wdata.take n else []) := by
        intro j
        rw [sentOf_append]
        congr 1
        by_cases e : j = k
        · subst e; rw [sentOf_tag, if_pos rfl]
        · rw [if_neg e]; exact sentOf_none (fun p hp => by rw [mem_tag hp]; exact Ne.symm e)
      have hm : Bytes ops ({ s with out := s.out ++ tag k (s.wdata.take n), wdata := s.wdata.drop n } : St) := by
        refine ⟨h.count, h.le, h.data, h.read, h.readOk, ?_, ?_, ?_, ?_⟩
        · intro j hj
          have hj : s.sl.slot .write = some j := hj
          have : j = k := by rw [hk] at hj; injection hj with hj; exact hj.symm
          subst this
          obtain ⟨d, e1, e2⟩ := h.write j hj
          refine ⟨d, e1, ?_⟩
          show sentOf j (s.out ++ tag j (s.wdata.take n)) ++ s.wdata.drop n = d
          rw [hsent, if_pos rfl, List.append_assoc, List.take_append_drop]
          exact e2
        · intro a ha hkind he
          obtain ⟨d, e1, e2⟩ := h.writeOk a ha hkind he
          refine ⟨d, e1, ?_⟩
          have : a.op ≠ k := told_zero (ht.zero k .write hk) a ha
          show sentOf a.op (s.out ++ tag k (s.wdata.take n)) = d
          rw [hsent, if_neg this, List.append_nil]
          exact e2
        · intro p hp
          rcases List.mem_append.1 hp with hp | hp
          · exact h.sent p hp
          · rw [mem_tag hp]
            refine ⟨ht.lt k .write hk, ?_⟩
            intro j hj
            have hj : s.sl.slot .write = some j := hj
            rw [hk] at hj; injection hj with hj; omega
        · show ((s.out ++ tag k (s.wdata.take n)).map (·.1)).Pairwise (· ≤ ·)
          rw [List.map_append, List.pairwise_append]
          refine ⟨h.sorted, ?_, ?_⟩
          · have e : (tag k (s.wdata.take n)).map (·.1) = List.replicate (s.wdata.take n).length k := by
              rw [List.eq_replicate_iff]
              refine ⟨by simp [tag], ?_⟩
              intro b hb
              obtain ⟨p, hp, e⟩ := List.mem_map.1 hb
              rw [← e]; exact mem_tag hp
            rw [e]
            exact List.pairwise_replicate.2 (.inr (Nat.le_refl _))
          · intro a ha b hb
            obtain ⟨p, hp, e⟩ := List.mem_map.1 ha
            obtain ⟨q, hq, e'⟩ := List.mem_map.1 hb
            rw [← e, ← e', mem_tag hq]
            exact (h.sent p hp).2 k hk
      dsimp only
      split
      · rename_i hd
        have hd : s.wdata.drop n = [] := hd
        refine ⟨?_, ?_, ?_, ?_, ?_, ?_, ?_, ?_, hm.sorted⟩
        · intro e; rw [resolve_asked]; exact h.count e
        · rw [resolve_asked]; exact h.le
        · rw [delivered_resolve_nil]; exact h.data
        · intro j hj; exact h.read j (resolve_slot_le hj).1
        · intro a ha hkind he
          rcases resolve_answers ha with ha | ⟨hs, ha⟩
          · exact h.readOk a ha hkind he
          · rw [ha] at hkind; cases hkind
        · intro j hj; exact absurd rfl (resolve_slot_le hj).2
        · intro a ha hkind he
          rcases resolve_answers ha with ha | ⟨hs, ha⟩
          · exact hm.writeOk a ha hkind he
          · obtain ⟨d, e1, e2⟩ := hm.write _ hs
            refine ⟨d, e1, ?_⟩
            have e2 : sentOf a.op (s.out ++ tag k (s.wdata.take n)) ++ s.wdata.drop n = d := e2
            rw [hd, List.append_nil] at e2
            exact e2
        · intro p hp
          obtain ⟨e1, e2⟩ := hm.sent p hp
          exact ⟨by rw [resolve_asked]; exact e1, fun j hj => absurd rfl (resolve_slot_le hj).2⟩
      · exact hm
  · exact h

theorem Bytes.abort {ops : List Op} {s : St} (h : Bytes ops s) : Bytes ops s.abort := by
  unfold St.abort
  split
  · exact h
  · have h1 : Bytes ops ({ s with sl := s.sl.resolve .read .aborted [] } : St) :=
      h.resolveNil (.inr (by simp)) rfl id rfl rfl rfl rfl rfl
    have h2 : Bytes ops ({ s with sl := (s.sl.resolve .read .aborted []).resolve .write .aborted [] } : St) :=
      h1.resolveNil (.inr (by simp)) rfl id rfl rfl rfl rfl rfl
    exact h2.resolveNil (.inl rfl) rfl id rfl rfl rfl rfl rfl

theorem Bytes.other {ops : List Op} {s : St} (h : Bytes ops s) {op : Op} (hop : isAsk op = false) :
    Bytes (ops ++ [op]) s := by
  have e : asks (ops ++ [op]) = asks ops := by rw [asks_snoc, hop]; simp
  obtain ⟨a1, a2, a3, a4, a5, a6, a7, a8, a9⟩ := h
  exact ⟨by rw [e]; exact a1, by rw [e]; exact a2, a3, by rw [e]; exact a4, by rw [e]; exact a5,
    by rw [e]; exact a6, by rw [e]; exact a7, a8, a9⟩

theorem bytes (ops : List Op) : Bytes ops (run ops) := by
  induction ops using snoc_ind with
  | nil =>
    exact ⟨fun _ => rfl, Nat.le_refl _, rfl, fun _ h => (by cases h), fun _ h => (by cases h),
      fun _ h => (by cases h), fun _ h => (by cases h), fun _ h => (by cases h), List.Pairwise.nil⟩
  | snoc ops op h =>
    have hi := inv ops
    rw [run_snoc]
    generalize run ops = s at *
    rcases Bool.eq_false_or_eq_true s.gone with hg | hg
    · rw [gone_step hg]
      refine h.quiet (fun k o e => asks_get op e) ?_ (fun e => by rw [hg] at e; cases e) (Nat.le_refl _) ?_
        (fun _ _ e => e) rfl rfl rfl rfl rfl rfl (fun a ha => .inl ha)
      · rw [asks_snoc]; simp
      · rw [asks_snoc]; simp; have := h.le; omega
    rw [step_eq hg]
    have hlen := h.count hg
    have hnew : isAsk op = true → (asks (ops ++ [op])).length = s.sl.asked + 1 ∧
        (asks (ops ++ [op]))[s.sl.asked]? = some op := by
      intro e
      rw [asks_snoc, e, hlen]
      simp
    have hle : (asks ops).length ≤ (asks (ops ++ [op])).length := by rw [asks_snoc]; simp
    -- a call that is told at once
    have ref : ∀ kind ec, isAsk op = true → ec ≠ Ec.ok →
        Bytes (ops ++ [op]) ({ s with sl := s.sl.refuse kind ec } : St) := by
      intro kind ec ho hec
      refine h.quiet (fun k o e => asks_get op e) hle ?_ (Nat.le_succ _) ?_ (fun _ _ e => e) ?_ rfl rfl rfl rfl rfl ?_
      · intro _; exact (hnew ho).1.symm
      · exact Nat.le_of_eq (hnew ho).1.symm
      · exact delivered_refuse _ _ _
      · intro a ha
        rcases List.mem_append.1 ha with ha | ha
        · exact .inl ha
        · rw [List.mem_singleton.1 ha]; exact .inr (.inr hec)
    have old : ∀ p ∈ s.out, p.1 < s.sl.asked := fun p hp => (h.sent p hp).1
    cases op with
    | connect c =>
      show Bytes _ (s.connect c)
      unfold St.connect
      split
      · exact ref _ _ rfl (by simp)
      · split
        · exact ref _ _ rfl (by simp)
        · have hp : Bytes (ops ++ [.connect c]) ({ s with sl := s.sl.place .connect } : St) := by
            have sl : ∀ j, j ≠ Kind.connect → (s.sl.place .connect).slot j = s.sl.slot j := by
              intro j hj; rw [place_slot, if_neg hj]
            refine ⟨fun _ => (hnew rfl).1.symm, Nat.le_of_eq (hnew rfl).1.symm, h.data, ?_, ?_, ?_, ?_, ?_, h.sorted⟩
            · intro k hk; rw [sl _ (by simp)] at hk; exact asks_get _ (h.read k hk)
            · intro a ha hk he
              obtain ⟨n, e1, e2⟩ := h.readOk a ha hk he
              exact ⟨n, asks_get _ e1, e2⟩
            · intro k hk; rw [sl _ (by simp)] at hk
              obtain ⟨d, e1, e2⟩ := h.write k hk
              exact ⟨d, asks_get _ e1, e2⟩
            · intro a ha hk he
              obtain ⟨n, e1, e2⟩ := h.writeOk a ha hk he
              exact ⟨n, asks_get _ e1, e2⟩
            · intro p hp
              obtain ⟨e1, e2⟩ := h.sent p hp
              exact ⟨Nat.lt_succ_of_lt e1, fun k hk => e2 k (by rw [sl _ (by simp)] at hk; exact hk)⟩
          cases c with
          | noSocket => exact hp.resolveNil (.inl rfl) rfl id rfl rfl rfl rfl rfl
          | connected => exact hp.resolveNil (.inl rfl) rfl id rfl rfl rfl rfl rfl
          | inProgress =>
            exact ⟨hp.count, hp.le, hp.data, hp.read, hp.readOk, hp.write, hp.writeOk, hp.sent, hp.sorted⟩
          | failed => exact hp.resolveNil (.inl rfl) rfl id rfl rfl rfl rfl rfl
    | write d =>
      show Bytes _ (s.write d)
      unfold St.write
      split
      · exact ref _ _ rfl (by simp)
      · split
        · exact ref _ _ rfl (by simp)
        · have sl : ∀ j, j ≠ Kind.write → (s.sl.place .write).slot j = s.sl.slot j := by
            intro j hj; rw [place_slot, if_neg hj]
          have new : ∀ k, (s.sl.place .write).slot .write = some k → k = s.sl.asked := by
            intro k hk; rw [place_slot, if_pos rfl] at hk; injection hk with hk; exact hk.symm
          refine ⟨fun _ => (hnew rfl).1.symm, Nat.le_of_eq (hnew rfl).1.symm, h.data, ?_, ?_, ?_, ?_, ?_, h.sorted⟩
          · intro k hk; exact asks_get _ (h.read k (by rw [← sl _ (by simp)]; exact hk))
          · intro a ha hk he
            obtain ⟨n, e1, e2⟩ := h.readOk a ha hk he
            exact ⟨n, asks_get _ e1, e2⟩
          · intro k hk
            rw [new k hk]
            refine ⟨d, (hnew rfl).2, ?_⟩
            show sentOf s.sl.asked s.out ++ d = d
            rw [sentOf_none (fun p hp => Nat.ne_of_lt (old p hp))]; rfl
          · intro a ha hk he
            obtain ⟨n, e1, e2⟩ := h.writeOk a ha hk he
            exact ⟨n, asks_get _ e1, e2⟩
          · intro p hp
            exact ⟨Nat.lt_succ_of_lt (old p hp), fun k hk => by rw [new k hk]; exact Nat.le_of_lt (old p hp)⟩
    | read n =>
      show Bytes _ (s.read n)
      unfold St.read
      split
      · exact ref _ _ rfl (by simp)
      · split
        · exact ref _ _ rfl (by simp)
        · have sl : ∀ j, j ≠ Kind.read → (s.sl.place .read).slot j = s.sl.slot j := by
            intro j hj; rw [place_slot, if_neg hj]
          refine ⟨fun _ => (hnew rfl).1.symm, Nat.le_of_eq (hnew rfl).1.symm, h.data, ?_, ?_, ?_, ?_, ?_, h.sorted⟩
          · intro k hk
            have hk : (s.sl.place .read).slot .read = some k := hk
            rw [place_slot, if_pos rfl] at hk
            injection hk with hk
            rw [← hk]; exact (hnew rfl).2
          · intro a ha hk he
            obtain ⟨n, e1, e2⟩ := h.readOk a ha hk he
            exact ⟨n, asks_get _ e1, e2⟩
          · intro k hk
            obtain ⟨d, e1, e2⟩ := h.write k (by rw [← sl _ (by simp)]; exact hk)
            exact ⟨d, asks_get _ e1, e2⟩
          · intro a ha hk he
            obtain ⟨n, e1, e2⟩ := h.writeOk a ha hk he
            exact ⟨n, asks_get _ e1, e2⟩
          · intro p hp
            obtain ⟨e1, e2⟩ := h.sent p hp
            exact ⟨Nat.lt_succ_of_lt e1, fun k hk => e2 k (by rw [← sl _ (by simp)]; exact hk)⟩
    | abort => exact (h.other rfl).abort
    | destroy =>
      have ha := (h.other (op := .destroy) rfl).abort
      exact ⟨fun e => (by cases e), ha.le, ha.data, ha.read, ha.readOk, ha.write, ha.writeOk, ha.sent, ha.sorted⟩
    | loop rd wr e ri wi =>
      have h := h.other (op := .loop rd wr e ri wi) rfl
      show Bytes _ (s.loop rd wr e ri wi)
      unfold St.loop
      split
      · dsimp only
        have h1 : Bytes (ops ++ [.loop rd wr e ri wi]) (if rd = true then s.doRead ri else s) ∧
            Inv (if rd = true then s.doRead ri else s) := by
          split
          · exact ⟨h.doRead ri, hi.doRead ri⟩
          · exact ⟨h, hi⟩
        generalize (if rd = true then s.doRead ri else s) = t at h1
        split
        · exact (h1.1.isConnected e).doWrite (h1.2.isConnected e).told wi
        · exact h1.1
      · exact h
    | peer l =>
      have h := h.other (op := .peer l) rfl
      dsimp only
      split
      · exact h
      · refine ⟨h.count, h.le, ?_, h.read, h.readOk, h.write, h.writeOk, h.sent, h.sorted⟩
        show delivered s.sl.answers ++ (s.kin ++ l) = s.peer ++ l
        rw [← List.append_assoc, h.data]
    | peerEof =>
      have h := h.other (op := .peerEof) rfl
      exact ⟨h.count, h.le, h.data, h.read, h.readOk, h.write, h.writeOk, h.sent, h.sorted⟩

/-- The end of the stream is told only when it was reached. -/
theorem ended (ops : List Op) (hb : Buffers ops) :
    (∀ a ∈ (run ops).sl.answers, a.ec = .eof → (run ops).keof = true ∧ (run ops).kin = []) ∧
    ((run ops).sl.slot .read ≠ none → (run ops).rsize ≠ 0) := by
  induction ops using snoc_ind with
  | nil => exact ⟨fun _ h => (by cases h), fun h => absurd rfl h⟩
  | snoc ops op ih =>
    have hb' : Buffers ops := fun h => hb (List.mem_append_left _ h)
    obtain ⟨ih, hz⟩ := ih hb'
    have hop : op ≠ .read 0 := fun e => hb (by rw [e]; simp)
    rw [run_snoc]
    generalize run ops = s at *
    rcases Bool.eq_false_or_eq_true s.gone with hg | hg
    · rw [gone_step hg]; exact ⟨ih, hz⟩
    rw [step_eq hg]
    let Q (t : St) : Prop := (∀ a ∈ t.sl.answers, a.ec = .eof → t.keof = true ∧ t.kin = []) ∧
      (t.sl.slot .read ≠ none → t.rsize ≠ 0)
    have res : ∀ (t u : St) kind ec d, Q t → ec ≠ Ec.eof → u.sl = t.sl.resolve kind ec d → u.keof = t.keof →
        u.kin = t.kin → u.rsize = t.rsize → Q u := by
      intro t u kind ec d hq hec e1 e2 e3 e4
      refine ⟨?_, ?_⟩
      · intro a ha he
        rw [e1] at ha
        rcases resolve_answers ha with ha | ⟨_, ha⟩
        · rw [e2, e3]; exact hq.1 a ha he
        · rw [ha] at he; exact absurd he hec
      · intro hs
        rw [e4]
        refine hq.2 ?_
        intro e
        apply hs
        rw [e1, resolve_slot]
        split
        · rfl
        · exact e
    have ref : ∀ kind ec, ec ≠ Ec.eof → Q ({ s with sl := s.sl.refuse kind ec } : St) := by
      intro kind ec hec
      refine ⟨?_, hz⟩
      intro a ha he
      rcases List.mem_append.1 ha with ha | ha
      · exact ih a ha he
      · rw [List.mem_singleton.1 ha] at he; exact absurd he hec
    have dr : ∀ (t : St) io, Q t → Q (t.doRead io) := by
      intro t io hq
      unfold St.doRead
      split
      · rename_i hsome
        have hsz : t.rsize ≠ 0 := hq.2 (by intro e; rw [e] at hsome; cases hsome)
        split
        · exact hq
        · exact res t _ _ _ _ hq (by simp) rfl rfl rfl rfl
        · rw [if_neg hsz]
          split
          · rename_i hk
            split
            · rename_i hke
              refine ⟨fun a ha he => ⟨hke, hk⟩, fun h => ?_⟩
              exact hsz
            · exact hq
          · rename_i hk
            refine ⟨?_, fun _ => hsz⟩
            intro a ha he
            rcases resolve_answers ha with ha | ⟨_, ha⟩
            · exact absurd (hq.1 a ha he).2 hk
            · rw [ha] at he; cases he
      · exact hq
    have ic : ∀ (t : St) e, Q t → Q (t.isConnected e) := by
      intro t e hq
      cases e with
      | none => exact res t _ _ _ _ hq (by simp) rfl rfl rfl rfl
      | inProgress => exact hq
      | refused => exact res t _ _ _ _ hq (by simp) rfl rfl rfl rfl
      | other => exact res t _ _ _ _ hq (by simp) rfl rfl rfl rfl
    have dw : ∀ (t : St) io, Q t → Q (t.doWrite io) := by
      intro t io hq
      unfold St.doWrite
      split
      · split
        · exact hq
        · exact res t _ _ _ _ hq (by simp) rfl rfl rfl rfl
        · dsimp only
          split
          · exact res t _ _ _ _ hq (by simp) rfl rfl rfl rfl
          · exact hq
      · exact hq
    have ab : Q s.abort := by
      unfold St.abort
      split
      · exact ⟨ih, hz⟩
      · have h1 := res s { s with sl := s.sl.resolve .read .aborted [] } _ _ _ ⟨ih, hz⟩ (by simp) rfl rfl rfl rfl
        have h2 := res _ { s with sl := (s.sl.resolve .read .aborted []).resolve .write .aborted [] } _ _ _ h1
          (by simp) rfl rfl rfl rfl
        exact res _ _ _ _ _ h2 (by simp) rfl rfl rfl rfl
    show Q _
    cases op with
    | connect c =>
      show Q (s.connect c)
      unfold St.connect
      split
      · exact ref _ _ (by decide)
      · split
        · exact ref _ _ (by decide)
        · have hp : Q ({ s with sl := s.sl.place .connect } : St) := ⟨ih, hz⟩
          cases c with
          | noSocket => exact res _ _ .connect .error [] hp (by decide) rfl rfl rfl rfl
          | connected => exact res _ _ .connect .ok [] hp (by decide) rfl rfl rfl rfl
          | inProgress => exact hp
          | failed => exact res _ _ .connect .error [] hp (by decide) rfl rfl rfl rfl
    | write d =>
      show Q (s.write d)
      unfold St.write
      split
      · exact ref _ _ (by simp)
      · split
        · exact ref _ _ (by simp)
        · exact ⟨ih, hz⟩
    | read n =>
      show Q (s.read n)
      unfold St.read
      split
      · exact ref _ _ (by simp)
      · split
        · exact ref _ _ (by simp)
        · refine ⟨ih, fun _ e => ?_⟩
          have e : n = 0 := e
          exact hop (by rw [e])
    | abort => exact ab
    | destroy => exact ab
    | loop rd wr e ri wi =>
      show Q (s.loop rd wr e ri wi)
      unfold St.loop
      split
      · dsimp only
        have h1 : Q (if rd = true then s.doRead ri else s) := by
          split
          · exact dr s ri ⟨ih, hz⟩
          · exact ⟨ih, hz⟩
        generalize (if rd = true then s.doRead ri else s) = t at h1
        split
        · exact dw _ _ (ic _ _ h1)
        · exact h1
      · exact ⟨ih, hz⟩
    | peer l =>
      dsimp only
      split
      · exact ⟨ih, hz⟩
      · rename_i hk
        refine ⟨fun a ha he => absurd (ih a ha he).1 hk, hz⟩
    | peerEof => exact ⟨fun a ha he => ⟨rfl, (ih a ha he).2⟩, hz⟩

/-- **C107** (select, reading).  In every history the bytes given to the reads, one after the
other, are the first bytes that the peer sent; a read that is told OK was given at least one byte
and no more than its buffer holds; and when a read is told that the stream has ended, the peer has
closed and everything it sent has been read.  Reads are given buffers that are not empty. -/
theorem C107_select_read (ops : List Op) :
    delivered (run ops).sl.answers <+: (run ops).peer ∧
    (∀ a ∈ (run ops).sl.answers, a.kind = .read → a.ec = .ok →
      ∃ n, (asks ops)[a.op]? = some (.read n) ∧ a.data ≠ [] ∧ a.data.length ≤ n) ∧
    (Buffers ops → ∀ a ∈ (run ops).sl.answers, a.ec = .eof →
      (run ops).keof = true ∧ delivered (run ops).sl.answers = (run ops).peer) := by
  have h := bytes ops
  refine ⟨⟨_, h.data⟩, h.readOk, fun hb a ha he => ?_⟩
  obtain ⟨e1, e2⟩ := (ended ops hb).1 a ha he
  refine ⟨e1, ?_⟩
  have := h.data
  rw [e2, List.append_nil] at this
  exact this

/-- **C107** (select, writing).  In every history a write that is told OK has had all its bytes
handed to the system, in order; a pending write the first of them; and the bytes of a later
write never come before those of an earlier one. -/
theorem C107_select_write (ops : List Op) :
    (∀ a ∈ (run ops).sl.answers, a.kind = .write → a.ec = .ok →
      ∃ d, (asks ops)[a.op]? = some (.write d) ∧ sentOf a.op (run ops).out = d) ∧
    (∀ k, (run ops).sl.slot .write = some k →
      ∃ d, (asks ops)[k]? = some (.write d) ∧ sentOf k (run ops).out <+: d) ∧
    ((run ops).out.map (·.1)).Pairwise (· ≤ ·) := by
  have h := bytes ops
  refine ⟨h.writeOk, fun k hk => ?_, h.sorted⟩
  obtain ⟨d, e1, e2⟩ := h.write k hk
  exact ⟨d, e1, ⟨_, e2⟩⟩

/-- **C107** (select, progress).  When bytes are there and the thread finds the socket readable,
the pending read is told; when the system takes all that is left, the pending write is told. -/
theorem C107_select_prompt (ops : List Op) (hb : Buffers ops) (ho : (run ops).opened = true)
    (hg : (run ops).gone = false) (k : Nat) :
    ((run ops).sl.slot .read = some k → (run ops).kin ≠ [] → ∀ e wi n, ∃ d, d ≠ [] ∧
      ⟨k, .read, .ok, d⟩ ∈ (run (ops ++ [.loop true false e (.upTo n) wi])).sl.answers) ∧
    ((run ops).sl.slot .write = some k → ∀ ri n, (run ops).wdata.length ≤ n →
      ⟨k, .write, .ok, []⟩ ∈ (run (ops ++ [.loop false true .inProgress ri (.upTo n)])).sl.answers) := by
  have hz := (ended ops hb).2
  refine ⟨fun hk hne e wi n => ?_, fun hk ri n hn => ?_⟩
  · rw [run_snoc, step_eq hg]
    generalize run ops = s at *
    have hr : s.rsize ≠ 0 := hz (by rw [hk]; simp)
    refine ⟨s.kin.take (max 1 (min n s.rsize)), ?_, ?_⟩
    · intro e
      rcases List.take_eq_nil_iff.1 e with e | e
      · omega
      · exact hne e
    · simp [St.loop, ho, St.doRead, hk, hr, hne, Slots.resolve]
  · rw [run_snoc, step_eq hg]
    generalize run ops = s at *
    simp [St.loop, ho, St.isConnected, St.doWrite, hk, Slots.resolve, List.drop_eq_nil_iff, hn]

/-- Two writes and two reads, in pieces. -/
example : let ops := [.connect .connected, .write [1, 2, 3], .peer [7, 8, 9], .read 2,
      .loop true true .none (.upTo 9) (.upTo 2), .loop false true .none .again (.upTo 2), .write [4],
      .read 5, .loop true true .none (.upTo 9) (.upTo 2), .peerEof, .read 1,
      .loop true false .none (.upTo 1) .again]
    Buffers ops ∧ (run ops).out = [(1, 1), (1, 2), (1, 3), (3, 4)] ∧
    delivered (run ops).sl.answers = [7, 8, 9] ∧
    ⟨5, .read, .eof, []⟩ ∈ (run ops).sl.answers := by
  refine ⟨?_, ?_, ?_, ?_⟩ <;> first | decide | (unfold Buffers; decide)

/-- A read with an empty buffer is told that the stream has ended although it has not. -/
theorem C107_select_empty_violated :
    (run [.connect .connected, .peer [7], .read 0, .loop true false .none (.upTo 1) .again]).sl.answers =
      [⟨0, .connect, .ok, []⟩, ⟨1, .read, .eof, []⟩] ∧
    (run [.connect .connected, .peer [7], .read 0, .loop true false .none (.upTo 1) .again]).kin = [7] := by
  decide

/-- **C107** is violated when the threads interleave: the network thread finds the completion
event of a write whose data is not there yet, sends nothing, and tells the write OK; for every
data, and nothing is sent afterwards. -/
theorem C107_race_violated (d : List UInt8) (n : Nat) :
    (Race.run d ([false, true, false, false] ++ List.replicate n true)).told = [.ok] ∧
    (Race.run d ([false, true, false, false] ++ List.replicate n true)).out = [] := by
  have e : ∀ n, Race.run d ([false, true, false, false] ++ List.replicate n true) =
      { data := d, len := d.length, core := 3, told := [.ok] } := by
    intro n
    induction n with
    | zero => simp [Race.run, Race.step]
    | succ n ih =>
      rw [List.replicate_succ', ← List.append_assoc]
      unfold Race.run at *
      rw [List.foldl_append, ih]
      rfl
  rw [e]; exact ⟨rfl, rfl⟩

/-- When the network thread comes after the last access of the core everything is sent. -/
theorem C107_race_atomic (d : List UInt8) : (Race.run d [true, false, false, false, true]).told = [.ok] ∧
    (Race.run d [true, false, false, false, true]).out = d := by
  simp [Race.run, Race.step]

/-- Connecting again after a connect that failed leaves the first descriptor open for good. -/
theorem C106_leak_violated : (run [.connect .failed, .connect .connected, .destroy]).fds = 1 := by decide

end Verif.Net.Tcp.Sel
