import Verif.Stream.VirtualData

/-!
# Virtual streams (lemmas about what waits, C46)
-/

namespace Verif.Stream.Virtual

open Verif.Stream (Ec)
open Spec

variable {E : Type}

/-- A read in a slot belongs to an operation, with the size of its buffer. -/
def RdOf (ops : List (Op E)) (sd : Side) (r : Rdr E) : Prop :=
  ∃ op ∈ ops, readOf op = some (sd, r.ev, r.all, r.left + r.got.length)

/-- What is in the slots belongs to operations. -/
structure Slots (s : St E) (ops : List (Op E)) (e₀ : E) : Prop where
  sRd : ∀ r, s.sRd = some r → RdOf ops .server r
  cRd : ∀ r, s.cRd = some r → RdOf ops .client r
  sWr : ∀ w, s.sWr = some w → ∃ d, Op.write w.ev d ∈ ops
  cWr : ∀ w, s.cWr = some w → ∃ d, Op.cWrite w.ev d ∈ ops
  sCl : ∀ e, s.sCl = some e → Op.close e ∈ ops
  cCl : ∀ e, s.cCl = some e → Op.cClose e ∈ ops
  opened : ∀ e, s.opened = some e → e = e₀

/-- The bytes of a completion fit the operation: no more than its buffer, all of it if the read is for all
bytes and has succeeded, and none if it is not a read. -/
def FitsOp (op : Op E) (ec : Ec) (g : List UInt8) : Prop :=
  match readOf op with
  | some (_, _, all, n) => g.length ≤ n ∧ (all = true → ec = .ok → g.length = n)
  | none => g = []

/-- A completion belongs to an operation. -/
def Just (ops : List (Op E)) (e₀ : E) : Out E → Prop
  | .done sd e ec g =>
    (∃ op ∈ ops, who op = some (sd, e) ∧ FitsOp op ec g) ∨ (sd = .client ∧ e = e₀ ∧ g = [])

theorem Just.mono {ops ops' : List (Op E)} {e₀ : E} {x : Out E} (h : Just ops e₀ x)
    (hs : ∀ a ∈ ops, a ∈ ops') : Just ops' e₀ x := by
  cases x
  rcases h with ⟨op, ho, h⟩ | h
  · exact .inl ⟨op, hs _ ho, h⟩
  · exact .inr h

theorem RdOf.mono {ops ops' : List (Op E)} {sd : Side} {r : Rdr E} (h : RdOf ops sd r)
    (hs : ∀ a ∈ ops, a ∈ ops') : RdOf ops' sd r := by
  obtain ⟨op, ho, h⟩ := h
  exact ⟨op, hs _ ho, h⟩

theorem Slots.mono {s : St E} {ops ops' : List (Op E)} {e₀ : E} (h : Slots s ops e₀)
    (hs : ∀ a ∈ ops, a ∈ ops') : Slots s ops' e₀ := by
  constructor
  · exact fun r hr => (h.sRd r hr).mono hs
  · exact fun r hr => (h.cRd r hr).mono hs
  · exact fun w hw => let ⟨d, hd⟩ := h.sWr w hw; ⟨d, hs _ hd⟩
  · exact fun w hw => let ⟨d, hd⟩ := h.cWr w hw; ⟨d, hs _ hd⟩
  · exact fun e he => hs _ (h.sCl e he)
  · exact fun e he => hs _ (h.cCl e he)
  · exact h.opened

theorem readOf_who {op : Op E} {sd : Side} {e : E} {all : Bool} {n : Nat}
    (h : readOf op = some (sd, e, all, n)) : who op = some (sd, e) := by
  cases op <;> simp_all [readOf, who]

theorem just_rd {ops : List (Op E)} {e₀ : E} {sd : Side} {r : Rdr E} (h : RdOf ops sd r) (ec : Ec)
    (g : List UInt8) (h1 : g.length ≤ r.left + r.got.length)
    (h2 : r.all = true → ec = .ok → g.length = r.left + r.got.length) :
    Just ops e₀ (.done sd r.ev ec g) := by
  obtain ⟨op, ho, hr⟩ := h
  refine .inl ⟨op, ho, readOf_who hr, ?_⟩
  simp only [FitsOp, hr]
  exact ⟨h1, h2⟩

theorem just_op {ops : List (Op E)} {e₀ : E} {sd : Side} {e : E} {op : Op E} (ho : op ∈ ops)
    (hw : who op = some (sd, e)) (hr : readOf op = none) (ec : Ec) : Just ops e₀ (.done sd e ec []) :=
  .inl ⟨op, ho, hw, by simp [FitsOp, hr]⟩

/-- An operation which is answered without bytes and without success. -/
theorem just_answer {ops : List (Op E)} {e₀ : E} {sd : Side} {e : E} {op : Op E} (ho : op ∈ ops)
    (hw : who op = some (sd, e)) (ec : Ec) (hec : ec ≠ .ok) : Just ops e₀ (.done sd e ec []) := by
  refine .inl ⟨op, ho, hw, ?_⟩
  unfold FitsOp
  split
  · exact ⟨by simp, fun _ h => absurd h hec⟩
  · rfl

/-- The slots and the completions after a step. -/
def Good (ops : List (Op E)) (e₀ : E) (res : St E × List (Out E)) : Prop :=
  Slots res.1 ops e₀ ∧ ∀ x ∈ res.2, Just ops e₀ x

theorem mem_finish {sd : Side} {ev : Option E} {ec : Ec} {x : Out E} (h : x ∈ finish sd ev ec) :
    ∃ e, ev = some e ∧ x = .done sd e ec [] := by
  cases ev with
  | none => simp [finish] at h
  | some e => exact ⟨e, rfl, by simpa [finish] using h⟩

theorem mem_finishWr {sd : Side} {w : Option (Wrr E)} {ec : Ec} {x : Out E} (h : x ∈ finishWr sd w ec) :
    ∃ v, w = some v ∧ x = .done sd v.ev ec [] := by
  obtain ⟨e, he, hx⟩ := mem_finish h
  cases w with
  | none => simp at he
  | some v => exact ⟨v, rfl, by simp at he; rw [he, hx]⟩

theorem mem_finishRd {sd : Side} {r : Option (Rdr E)} {ec : Ec} {x : Out E} (h : x ∈ finishRd sd r ec) :
    ∃ v, r = some v ∧ x = .done sd v.ev ec v.got := by
  cases r with
  | none => simp [finishRd] at h
  | some v => exact ⟨v, rfl, by simpa [finishRd] using h⟩

theorem good_doWrite {s : St E} {ops : List (Op E)} {e₀ : E} (h : Slots s ops e₀)
    (hc : ∀ r, s.sRd = some r → s.cClosed = true → r.all = false) : Good ops e₀ (cDoWrite s) := by
  rcases opt_cases s.sRd with hr | ⟨r, hr⟩
  · rw [cDoWrite_idle s (.inl hr)]; exact ⟨h, by simp⟩
  rcases opt_cases s.cWr with hw | ⟨w, hw⟩
  · rw [cDoWrite_idle s (.inr hw)]; exact ⟨h, by simp⟩
  have hR := h.sRd r hr
  obtain ⟨d, hW⟩ := h.cWr w hw
  rcases cDoWrite_cases s r w hr hw (hc r hr) with ⟨h1, e⟩ | ⟨h1, h2, h3, e⟩ | ⟨h1, h2, e⟩ <;> rw [e]
  · refine ⟨⟨by simp, h.cRd, h.sWr, ?_, h.sCl, h.cCl, h.opened⟩, ?_⟩
    · intro v hv
      simp only [Option.some.injEq] at hv
      exact ⟨d, by rw [← hv]; exact hW⟩
    · intro x hx
      simp only [List.mem_singleton] at hx
      rw [hx]
      have : (List.take r.left w.rest).length = r.left := by rw [List.length_take]; omega
      exact just_rd hR _ _ (by simp only [List.length_append, this]; omega)
        (fun _ _ => by simp only [List.length_append, this]; omega)
  · refine ⟨⟨?_, h.cRd, h.sWr, by simp, h.sCl, h.cCl, h.opened⟩, ?_⟩
    · intro v hv
      simp only [Option.some.injEq] at hv
      obtain ⟨op, ho, hro⟩ := hR
      refine ⟨op, ho, ?_⟩
      rw [hro, ← hv]
      simp only [List.length_append]
      congr 4
      omega
    · intro x hx
      simp only [List.mem_singleton] at hx
      rw [hx]
      exact just_op hW rfl rfl _
  · refine ⟨⟨by simp, h.cRd, h.sWr, by simp, h.sCl, ?_, h.opened⟩, ?_⟩
    · intro v hv
      split at hv
      · simp at hv
      · exact h.cCl v hv
    · intro x hx
      simp only [List.mem_append, List.mem_cons, List.not_mem_nil, or_false] at hx
      rcases hx with (rfl | rfl) | hx
      · exact just_rd hR _ _ (by simp only [List.length_append]; omega)
          (fun ha _ => by simp only [List.length_append, h2 ha]; omega)
      · exact just_op hW rfl rfl _
      · split at hx
        · obtain ⟨v, hv, rfl⟩ := mem_finish hx
          exact just_op (h.cCl v hv) rfl rfl _
        · simp at hx

theorem good_doRead {s : St E} {ops : List (Op E)} {e₀ : E} (h : Slots s ops e₀) :
    Good ops e₀ (cDoRead s) := by
  rcases opt_cases s.cRd with hr | ⟨r, hr⟩
  · rw [cDoRead_idle s (.inl hr)]; exact ⟨h, by simp⟩
  rcases opt_cases s.sWr with hw | ⟨w, hw⟩
  · rw [cDoRead_idle s (.inr hw)]; exact ⟨h, by simp⟩
  have hR := h.cRd r hr
  obtain ⟨d, hW⟩ := h.sWr w hw
  rcases cDoRead_cases s r w hr hw with ⟨h1, e⟩ | ⟨h1, h2, e⟩ | ⟨h1, h2, e⟩ <;> rw [e]
  · refine ⟨⟨h.sRd, by simp, ?_, h.cWr, h.sCl, h.cCl, h.opened⟩, ?_⟩
    · intro v hv
      simp only [Option.some.injEq] at hv
      exact ⟨d, by rw [← hv]; exact hW⟩
    · intro x hx
      simp only [List.mem_singleton] at hx
      rw [hx]
      have : (List.take r.left w.rest).length = r.left := by rw [List.length_take]; omega
      exact just_rd hR _ _ (by simp only [List.length_append, this]; omega)
        (fun _ _ => by simp only [List.length_append, this]; omega)
  · refine ⟨⟨h.sRd, ?_, by simp, h.cWr, ?_, h.cCl, h.opened⟩, ?_⟩
    · intro v hv
      simp only [Option.some.injEq] at hv
      obtain ⟨op, ho, hro⟩ := hR
      refine ⟨op, ho, ?_⟩
      rw [hro, ← hv]
      simp only [List.length_append]
      congr 4
      omega
    · intro v hv
      split at hv
      · simp at hv
      · exact h.sCl v hv
    · intro x hx
      simp only [List.mem_append, List.mem_cons, List.not_mem_nil, or_false] at hx
      rcases hx with rfl | hx
      · exact just_op hW rfl rfl _
      · split at hx
        · obtain ⟨v, hv, rfl⟩ := mem_finish hx
          exact just_op (h.sCl v hv) rfl rfl _
        · simp at hx
  · refine ⟨⟨h.sRd, by simp, by simp, h.cWr, ?_, h.cCl, h.opened⟩, ?_⟩
    · intro v hv
      split at hv
      · simp at hv
      · exact h.sCl v hv
    · intro x hx
      simp only [List.mem_append, List.mem_cons, List.not_mem_nil, or_false] at hx
      rcases hx with (rfl | rfl) | hx
      · exact just_op hW rfl rfl _
      · exact just_rd hR _ _ (by simp only [List.length_append]; omega)
          (fun ha _ => by simp only [List.length_append, h2 ha]; omega)
      · split at hx
        · obtain ⟨v, hv, rfl⟩ := mem_finish hx
          exact just_op (h.sCl v hv) rfl rfl _
        · simp at hx

theorem good_answer {s : St E} {ops : List (Op E)} {e₀ : E} {sd : Side} {e : E} {op : Op E}
    (h : Slots s ops e₀) (hw : who op = some (sd, e)) (ho : op ∈ ops) (ec : Ec) (hec : ec ≠ .ok) :
    Good ops e₀ (s, [.done sd e ec []]) := by
  refine ⟨h, ?_⟩
  intro x hx
  simp only [List.mem_singleton] at hx
  rw [hx]
  exact just_answer ho hw ec hec

theorem good_step {s : St E} {ops : List (Op E)} {e₀ : E} {op : Op E} (h : Slots s ops e₀) (ho : op ∈ ops) :
    Good ops e₀ (step s op) := by
  have fRd : ∀ r x ec, s.sRd = some r → x = Out.done .server r.ev ec r.got → ec ≠ .ok → Just ops e₀ x := by
    intro r x ec hr hx hec
    rw [hx]
    exact just_rd (h.sRd r hr) _ _ (by omega) (fun _ h => absurd h hec)
  have fcRd : ∀ r x ec, s.cRd = some r → x = Out.done .client r.ev ec r.got → ec ≠ .ok → Just ops e₀ x := by
    intro r x ec hr hx hec
    rw [hx]
    exact just_rd (h.cRd r hr) _ _ (by omega) (fun _ h => absurd h hec)
  have fop : ∀ e x ec, s.opened = some e → x = Out.done .client e ec [] → Just ops e₀ x := by
    intro e x ec he hx
    rw [hx]
    exact .inr ⟨rfl, h.opened e he, rfl⟩
  cases op with
  | accept e =>
    simp only [step, accept]
    split
    · exact good_answer h rfl ho _ (by simp)
    · refine ⟨⟨h.sRd, h.cRd, h.sWr, h.cWr, h.sCl, h.cCl, by simp⟩, ?_⟩
      intro x hx
      simp only [List.mem_append, List.mem_singleton] at hx
      rcases hx with hx | rfl
      · obtain ⟨v, hv, hx⟩ := mem_finish hx
        exact fop v x _ hv hx
      · exact just_op ho rfl rfl _
  | readAll e n =>
    simp only [step, readAll]
    split
    · exact good_answer h rfl ho _ (by simp)
    split
    · exact good_answer h rfl ho _ (by simp)
    split
    · exact good_answer h rfl ho _ (by simp)
    · refine good_doWrite ⟨?_, h.cRd, h.sWr, h.cWr, h.sCl, h.cCl, h.opened⟩ (by simp_all)
      intro r hr
      simp only [Option.some.injEq] at hr
      exact ⟨_, ho, by rw [← hr]; rfl⟩
  | readSome e n =>
    simp only [step, readSome]
    split
    · exact good_answer h rfl ho _ (by simp)
    split
    · exact good_answer h rfl ho _ (by simp)
    split
    · exact good_answer h rfl ho _ (by simp)
    · refine good_doWrite ⟨?_, h.cRd, h.sWr, h.cWr, h.sCl, h.cCl, h.opened⟩ ?_
      · intro r hr
        simp only [Option.some.injEq] at hr
        exact ⟨_, ho, by rw [← hr]; rfl⟩
      · intro r hr _
        simp only [Option.some.injEq] at hr
        rw [← hr]
  | write e d =>
    simp only [step, write]
    split
    · exact good_answer h rfl ho _ (by simp)
    split
    · exact good_answer h rfl ho _ (by simp)
    split
    · exact good_answer h rfl ho _ (by simp)
    · refine good_doRead ⟨h.sRd, h.cRd, ?_, h.cWr, h.sCl, h.cCl, h.opened⟩
      intro w hw
      simp only [Option.some.injEq] at hw
      exact ⟨d, by rw [← hw]; exact ho⟩
  | close e =>
    simp only [step, close]
    split
    · exact good_answer h rfl ho _ (by simp)
    split
    · exact good_answer h rfl ho _ (by simp)
    split
    · refine ⟨⟨h.sRd, h.cRd, h.sWr, h.cWr, ?_, h.cCl, h.opened⟩, by simp⟩
      intro a ha
      simp only [Option.some.injEq] at ha
      rw [← ha]; exact ho
    · simp only [cResolveRead]
      refine ⟨⟨h.sRd, by simp, h.sWr, h.cWr, by simp, h.cCl, h.opened⟩, ?_⟩
      intro x hx
      simp only [List.mem_append] at hx
      rcases hx with hx | hx
      · obtain ⟨v, hv, hx⟩ := mem_finishRd hx
        exact fcRd v x _ hv hx (by simp)
      · obtain ⟨v, hv, rfl⟩ := mem_finish hx
        simp only [Option.some.injEq] at hv
        rw [← hv]
        exact just_op ho rfl rfl _
  | stop =>
    simp only [step, stop]
    split
    · exact ⟨h, by simp⟩
    · refine ⟨⟨by simp, h.cRd, by simp, h.cWr, by simp, h.cCl, h.opened⟩, ?_⟩
      intro x hx
      simp only [List.mem_append] at hx
      rcases hx with (hx | hx) | hx
      · obtain ⟨v, hv, hx⟩ := mem_finishRd hx
        exact fRd v x _ hv hx (by simp)
      · obtain ⟨v, hv, rfl⟩ := mem_finishWr hx
        obtain ⟨d, hd⟩ := h.sWr v hv
        exact just_op hd rfl rfl _
      · obtain ⟨v, hv, rfl⟩ := mem_finish hx
        exact just_op (h.sCl v hv) rfl rfl _
  | cReadAll e n =>
    simp only [step, cReadAll]
    split
    · exact good_answer h rfl ho _ (by simp)
    split
    · exact good_answer h rfl ho _ (by simp)
    · refine good_doRead ⟨h.sRd, ?_, h.sWr, h.cWr, h.sCl, h.cCl, h.opened⟩
      intro r hr
      simp only [Option.some.injEq] at hr
      exact ⟨_, ho, by rw [← hr]; rfl⟩
  | cReadSome e n =>
    simp only [step, cReadSome]
    split
    · exact good_answer h rfl ho _ (by simp)
    split
    · exact good_answer h rfl ho _ (by simp)
    · refine good_doRead ⟨h.sRd, ?_, h.sWr, h.cWr, h.sCl, h.cCl, h.opened⟩
      intro r hr
      simp only [Option.some.injEq] at hr
      exact ⟨_, ho, by rw [← hr]; rfl⟩
  | cWrite e d =>
    simp only [step, cWrite]
    split
    · exact good_answer h rfl ho _ (by simp)
    split
    · exact good_answer h rfl ho _ (by simp)
    split
    · exact good_answer h rfl ho _ (by simp)
    · refine good_doWrite ⟨h.sRd, h.cRd, h.sWr, ?_, h.sCl, h.cCl, h.opened⟩ (by simp_all)
      intro w hw
      simp only [Option.some.injEq] at hw
      exact ⟨d, by rw [← hw]; exact ho⟩
  | cClose e =>
    simp only [step, cClose]
    split
    · refine ⟨⟨h.sRd, h.cRd, h.sWr, h.cWr, h.sCl, ?_, h.opened⟩, by simp⟩
      intro a ha
      simp only [Option.some.injEq] at ha
      rw [← ha]; exact ho
    · simp only [resolveRead]
      refine ⟨⟨by simp, h.cRd, h.sWr, h.cWr, h.sCl, h.cCl, h.opened⟩, ?_⟩
      intro x hx
      simp only [List.mem_append, List.mem_singleton] at hx
      rcases hx with hx | rfl
      · obtain ⟨v, hv, hx⟩ := mem_finishRd hx
        exact fRd v x _ hv hx (by simp)
      · exact just_op ho rfl rfl _
  | cStop =>
    simp only [step, cStop]
    split
    · exact ⟨h, by simp⟩
    · refine ⟨⟨by simp, by simp, by simp, by simp, h.sCl, by simp, by simp⟩, ?_⟩
      intro x hx
      simp only [List.mem_append] at hx
      rcases hx with ((((hx | hx) | hx) | hx) | hx) | hx
      · obtain ⟨v, hv, hx⟩ := mem_finish hx
        exact fop v x _ hv hx
      · obtain ⟨v, hv, hx⟩ := mem_finishRd hx
        exact fcRd v x _ hv hx (by simp)
      · obtain ⟨v, hv, rfl⟩ := mem_finishWr hx
        obtain ⟨d, hd⟩ := h.cWr v hv
        exact just_op hd rfl rfl _
      · obtain ⟨v, hv, rfl⟩ := mem_finish hx
        exact just_op (h.cCl v hv) rfl rfl _
      · obtain ⟨v, hv, hx⟩ := mem_finishRd hx
        exact fRd v x _ hv hx (by simp)
      · obtain ⟨v, hv, rfl⟩ := mem_finishWr hx
        obtain ⟨d, hd⟩ := h.sWr v hv
        exact just_op hd rfl rfl _

/-- The slots and the completions of every history belong to operations. -/
theorem run_good (e₀ : E) (ops : List (Op E)) : Good ops e₀ (run (St.init e₀) ops) := by
  induction ops using run_ind with
  | h0 =>
    refine ⟨?_, by simp⟩
    constructor <;> simp [St.init]
  | h1 ops op ih =>
    rw [run_snoc]
    have hm : ∀ a ∈ ops, a ∈ ops ++ [op] := fun a ha => by simp [ha]
    have hg := good_step (op := op) (ih.1.mono hm) (by simp)
    refine ⟨hg.1, ?_⟩
    intro x hx
    rcases List.mem_append.1 hx with hx | hx
    · exact (ih.2 x hx).mono hm
    · exact hg.2 x hx

/-- The name of an operation is its own. -/
theorem op_unique {e₀ : E} {ops : List (Op E)} (hd : Distinct e₀ ops) {a b : Op E} {x : Side × E}
    (ha : a ∈ ops) (hb : b ∈ ops) (ha' : who a = some x) (hb' : who b = some x) : a = b := by
  have hn : (ops.filterMap who).Nodup := (List.nodup_cons.1 hd).2
  clear hd
  induction ops with
  | nil => simp at ha
  | cons o ops ih =>
    have hmem : ∀ y ∈ ops, who y = some x → x ∈ ops.filterMap who := fun y hy hh =>
      List.mem_filterMap.2 ⟨y, hy, hh⟩
    rcases List.mem_cons.1 ha with rfl | ha1 <;> rcases List.mem_cons.1 hb with rfl | hb1
    · rfl
    · rw [List.filterMap_cons, ha', List.nodup_cons] at hn
      exact absurd (hmem b hb1 hb') hn.1
    · rw [List.filterMap_cons, hb', List.nodup_cons] at hn
      exact absurd (hmem a ha1 ha') hn.1
    · refine ih ha1 hb1 ?_
      rw [List.filterMap_cons] at hn
      split at hn
      · exact hn
      · exact (List.nodup_cons.1 hn).2

theorem opened_unique {e₀ : E} {ops : List (Op E)} (hd : Distinct e₀ ops) {a : Op E}
    (ha : a ∈ ops) : who a ≠ some (.client, e₀) := by
  intro h
  exact (List.nodup_cons.1 hd).1 (List.mem_filterMap.2 ⟨a, ha, h⟩)

variable [DecidableEq E]

/-- What is started and neither completed nor an overwritten close is in a slot. -/
theorem run_acct_of (e₀ : E) (ops : List (Op E)) (sd : Side) (e : E)
    (h : sd = .client → ∀ pre a post, ops = pre ++ Op.cClose a :: post →
      (run (St.init e₀) pre).1.cCl ≠ some e) :
    (completed (run (St.init e₀) ops).2).count (sd, e) + pend sd (run (St.init e₀) ops).1 e =
      (started e₀ ops).count (sd, e) := by
  induction ops using run_ind with
  | h0 =>
    cases sd <;> simp [pend, St.init, started, List.count_cons]
  | h1 ops op ih =>
    have ih := ih (fun hs pre a post hh => h hs pre a (post ++ [op]) (by simp [hh]))
    rw [run_snoc, count_started_snoc, completed_append, List.count_append]
    have := step_acct (run (St.init e₀) ops).1 op sd e
    have hl : (if sd = .client then lost (run (St.init e₀) ops).1 op e else 0) = 0 := by
      cases sd with
      | server => simp
      | client =>
        cases op <;> try rfl
        rename_i a
        simp only [lost, if_true]
        split
        · rw [tk, if_neg (h rfl ops a [] rfl)]
        · rfl
    dsimp only
    omega

/-- An operation which is not a close of the client is completed or in a slot. -/
theorem waits_pend {e₀ : E} {ops : List (Op E)} (hd : Distinct e₀ ops) {op : Op E} {sd : Side} {e : E}
    (ho : op ∈ ops) (hw : who op = some (sd, e)) (hc : ∀ a, op ≠ .cClose a)
    (hwait : Waits (run (St.init e₀) ops).2 (sd, e)) : pend sd (run (St.init e₀) ops).1 e = 1 := by
  have h := run_acct_of e₀ ops sd e (by
    intro hs pre a post hh hcl
    subst hs
    have hm := (run_good e₀ pre).1.cCl e hcl
    exact hc e (op_unique hd ho (by rw [hh]; simp [hm]) hw rfl))
  have h0 : (completed (run (St.init e₀) ops).2).count (sd, e) = 0 := List.count_eq_zero.2 hwait
  have h1 : (started e₀ ops).count (sd, e) = 1 := by
    have hm : (sd, e) ∈ started e₀ ops := List.mem_cons_of_mem _ (List.mem_filterMap.2 ⟨op, ho, hw⟩)
    have := List.count_pos_iff.2 hm
    have := List.nodup_iff_count.1 hd (sd, e)
    omega
  omega

theorem tk_pos {e : E} {o : Option E} (h : 0 < tk e o) : o = some e := by
  unfold tk at h
  split at h
  · assumption
  · omega

/-- A read of the device's application which waits is in the slot for it. -/
theorem waits_sRd {e₀ : E} {ops : List (Op E)} (hd : Distinct e₀ ops) {op : Op E} {e : E} {all : Bool} {n : Nat}
    (ho : op ∈ ops) (hr : readOf op = some (.server, e, all, n))
    (hwait : Waits (run (St.init e₀) ops).2 (.server, e)) :
    ∃ r, (run (St.init e₀) ops).1.sRd = some r ∧ r.ev = e := by
  have hg := (run_good e₀ ops).1
  have hp := waits_pend hd ho (readOf_who hr) (by intro a h; rw [h] at hr; simp [readOf] at hr) hwait
  simp only [pend] at hp
  by_cases h1 : 0 < tk e ((run (St.init e₀) ops).1.sRd.map (·.ev))
  · have := tk_pos h1
    simpa using this
  by_cases h2 : 0 < tk e ((run (St.init e₀) ops).1.sWr.map (·.ev))
  · have := tk_pos h2
    simp only [Option.map_eq_some_iff] at this
    obtain ⟨w, hw, rfl⟩ := this
    obtain ⟨d, hm⟩ := hg.sWr w hw
    rw [op_unique hd ho hm (readOf_who hr) rfl] at hr
    simp [readOf] at hr
  have h3 : 0 < tk e (run (St.init e₀) ops).1.sCl := by omega
  have hm := hg.sCl e (tk_pos h3)
  rw [op_unique hd ho hm (readOf_who hr) rfl] at hr
  simp [readOf] at hr

/-- A write of the device's application which waits is in the slot for it. -/
theorem waits_sWr {e₀ : E} {ops : List (Op E)} (hd : Distinct e₀ ops) {e : E} {d : List UInt8}
    (ho : Op.write e d ∈ ops) (hwait : Waits (run (St.init e₀) ops).2 (.server, e)) :
    ∃ w, (run (St.init e₀) ops).1.sWr = some w ∧ w.ev = e := by
  have hg := (run_good e₀ ops).1
  have hp := waits_pend hd ho rfl (by simp) hwait
  simp only [pend] at hp
  by_cases h1 : 0 < tk e ((run (St.init e₀) ops).1.sRd.map (·.ev))
  · have := tk_pos h1
    simp only [Option.map_eq_some_iff] at this
    obtain ⟨r, hr, rfl⟩ := this
    obtain ⟨op, hm, hro⟩ := hg.sRd r hr
    rw [← op_unique hd ho hm rfl (readOf_who hro)] at hro
    simp [readOf] at hro
  by_cases h2 : 0 < tk e ((run (St.init e₀) ops).1.sWr.map (·.ev))
  · have := tk_pos h2
    simpa using this
  have h3 : 0 < tk e (run (St.init e₀) ops).1.sCl := by omega
  have hm := hg.sCl e (tk_pos h3)
  have := op_unique hd ho hm rfl rfl
  simp at this

/-- A read of the client which waits is in the slot for it. -/
theorem waits_cRd {e₀ : E} {ops : List (Op E)} (hd : Distinct e₀ ops) {op : Op E} {e : E} {all : Bool} {n : Nat}
    (ho : op ∈ ops) (hr : readOf op = some (.client, e, all, n))
    (hwait : Waits (run (St.init e₀) ops).2 (.client, e)) :
    ∃ r, (run (St.init e₀) ops).1.cRd = some r ∧ r.ev = e := by
  have hg := (run_good e₀ ops).1
  have hp := waits_pend hd ho (readOf_who hr) (by intro a h; rw [h] at hr; simp [readOf] at hr) hwait
  simp only [pend] at hp
  by_cases h0 : 0 < tk e (run (St.init e₀) ops).1.opened
  · have := hg.opened e (tk_pos h0)
    rw [this] at hr
    exact absurd (readOf_who hr) (opened_unique hd ho)
  by_cases h1 : 0 < tk e ((run (St.init e₀) ops).1.cRd.map (·.ev))
  · have := tk_pos h1
    simpa using this
  by_cases h2 : 0 < tk e ((run (St.init e₀) ops).1.cWr.map (·.ev))
  · have := tk_pos h2
    simp only [Option.map_eq_some_iff] at this
    obtain ⟨w, hw, rfl⟩ := this
    obtain ⟨d, hm⟩ := hg.cWr w hw
    rw [op_unique hd ho hm (readOf_who hr) rfl] at hr
    simp [readOf] at hr
  have h3 : 0 < tk e (run (St.init e₀) ops).1.cCl := by omega
  have hm := hg.cCl e (tk_pos h3)
  rw [op_unique hd ho hm (readOf_who hr) rfl] at hr
  simp [readOf] at hr

/-- A write of the client which waits is in the slot for it. -/
theorem waits_cWr {e₀ : E} {ops : List (Op E)} (hd : Distinct e₀ ops) {e : E} {d : List UInt8}
    (ho : Op.cWrite e d ∈ ops) (hwait : Waits (run (St.init e₀) ops).2 (.client, e)) :
    ∃ w, (run (St.init e₀) ops).1.cWr = some w ∧ w.ev = e := by
  have hg := (run_good e₀ ops).1
  have hp := waits_pend hd ho rfl (by simp) hwait
  simp only [pend] at hp
  by_cases h0 : 0 < tk e (run (St.init e₀) ops).1.opened
  · have := hg.opened e (tk_pos h0)
    rw [this] at ho
    exact absurd rfl (opened_unique hd ho)
  by_cases h1 : 0 < tk e ((run (St.init e₀) ops).1.cRd.map (·.ev))
  · have := tk_pos h1
    simp only [Option.map_eq_some_iff] at this
    obtain ⟨r, hr, rfl⟩ := this
    obtain ⟨op, hm, hro⟩ := hg.cRd r hr
    rw [← op_unique hd ho hm rfl (readOf_who hro)] at hro
    simp [readOf] at hro
  by_cases h2 : 0 < tk e ((run (St.init e₀) ops).1.cWr.map (·.ev))
  · have := tk_pos h2
    simpa using this
  have h3 : 0 < tk e (run (St.init e₀) ops).1.cCl := by omega
  have hm := hg.cCl e (tk_pos h3)
  have := op_unique hd ho hm rfl rfl
  simp at this

/-- A write in the slot of the client is not completed. -/
theorem cWr_waits {e₀ : E} {ops : List (Op E)} (hd : Distinct e₀ ops) {w : Wrr E}
    (hw : (run (St.init e₀) ops).1.cWr = some w) : Waits (run (St.init e₀) ops).2 (.client, w.ev) := by
  intro hm
  have h1 := List.count_pos_iff.2 hm
  have h2 := run_acct_le e₀ ops .client w.ev
  have h3 := List.nodup_iff_count.1 hd (Side.client, w.ev)
  have h4 : 1 ≤ pend .client (run (St.init e₀) ops).1 w.ev := by simp [pend, hw]; omega
  omega

/-- A write in the slot of the device's application is not completed. -/
theorem sWr_waits {e₀ : E} {ops : List (Op E)} (hd : Distinct e₀ ops) {w : Wrr E}
    (hw : (run (St.init e₀) ops).1.sWr = some w) : Waits (run (St.init e₀) ops).2 (.server, w.ev) := by
  intro hm
  have h1 := List.count_pos_iff.2 hm
  have h2 := run_acct_le e₀ ops .server w.ev
  have h3 := List.nodup_iff_count.1 hd (Side.server, w.ev)
  have h4 : 1 ≤ pend .server (run (St.init e₀) ops).1 w.ev := by simp [pend, hw]; omega
  omega

end Verif.Stream.Virtual
