import Verif.Device.AskSpec

/-!
# Requests of the application to the basestation — lemmas
-/

namespace Verif.Device.Ask

open Spec

theorem snoc_ind {α : Type} {P : List α → Prop} (h0 : P []) (hs : ∀ l x, P l → P (l ++ [x])) : ∀ l, P l := by
  intro l
  rw [← List.reverse_reverse l]
  induction l.reverse with
  | nil => exact h0
  | cons x r ih => rw [List.reverse_cons]; exact hs _ _ ih

theorem after_snoc (i : Start) (ops : List Op) (op : Op) : after i (ops ++ [op]) = step (after i ops) op := by
  unfold after run; rw [List.foldl_append]; rfl

/-- What a send comes to: the future is resolved, or the request is handed over, or something bad happens. -/
inductive Sent (s : St) (name : Bytes) (m : Mem) : St → Prop
  | busy : s.fut ≠ none →
      Sent s name m { s with asked := s.asked + 1, results := s.results ++ [(s.asked, .inProgress)] }
  | refused (e : Ec) (r : Req) : s.fut = none →
      (r = s.req ∨ (s.kind ≠ .ice ∧ r = .made s.session) ∧ (m.buffer = false ∨ m.payload = false)) →
      (e = .notAttached ∧ s.attached = false ∧ r = s.req ∨ e = .outOfMemory ∧ s.attached = true) →
      Sent s name m { s with
        asked := s.asked + 1, fut := some s.asked, req := r, results := s.results ++ [(s.asked, e)] }
  | ub (r : Req) : s.fut = none → s.attached = true → (r = s.req ∨ s.kind ≠ .ice ∧ r = .made s.session) →
      (s.kind ≠ .ice ∧ (m.request = false ∨ s.encode = none) ∨ s.kind = .ice ∧ ∀ c, s.req ≠ .made c) →
      Sent s name m { s with asked := s.asked + 1, fut := some s.asked, req := r, bad := true }
  | sent (w : Wire) : s.fut = none → s.attached = true →
      (s.kind ≠ .ice ∧ w.session = s.session ∧ s.encode = some (w.name, w.content) ∨
        s.kind = .ice ∧ s.req = .made w.session ∧ w.name = name) → w.current = s.session →
      Sent s name m { s with asked := s.asked + 1, fut := some s.asked, req := .sent w.session, wire := s.wire ++ [w] }

theorem encode_asked (s : St) (a : Nat) (f : Option Nat) : St.encode { s with asked := a, fut := f } = s.encode := rfl

theorem send_cases (s : St) (name : Bytes) (m : Mem) : Sent s name m (s.send name m) := by
  unfold St.send
  dsimp only
  by_cases hf : s.fut = none
  · rw [if_neg (by simpa using hf)]
    have other : s.kind ≠ .ice →
        Sent s name m (St.ask { s with asked := s.asked + 1, fut := some s.asked } s.asked m) := by
      intro hk
      unfold St.ask
      dsimp only
      rcases Bool.eq_false_or_eq_true s.attached with ha | ha
      · rw [if_neg (by rw [ha]; simp)]
        split
        · next hm => exact .ub s.req hf ha (Or.inl rfl) (Or.inl ⟨hk, Or.inl (by simpa using hm)⟩)
        · rw [encode_asked]
          split
          · next he => exact .ub (.made s.session) hf ha (Or.inr ⟨hk, rfl⟩) (Or.inl ⟨hk, Or.inr he⟩)
          · next n c he =>
            unfold St.hand
            split
            · next hm =>
              exact .refused .outOfMemory (.made s.session) hf (Or.inr ⟨⟨hk, rfl⟩, Or.inl (by simpa using hm)⟩) (Or.inr ⟨rfl, ha⟩)
            · split
              · next hm =>
                exact .refused .outOfMemory (.made s.session) hf (Or.inr ⟨⟨hk, rfl⟩, Or.inr (by simpa using hm)⟩) (Or.inr ⟨rfl, ha⟩)
              · exact .sent ⟨s.session, s.session, n, c⟩ hf ha (Or.inl ⟨hk, rfl, he⟩) rfl
      · rw [if_pos (by rw [ha]; rfl)]
        exact .refused .notAttached s.req hf (Or.inl rfl) (Or.inl ⟨rfl, ha, rfl⟩)
    split
    · next hk =>
      have hk : s.kind = .ice := hk
      unfold St.askIce
      dsimp only
      rcases Bool.eq_false_or_eq_true s.attached with ha | ha
      · rw [if_neg (by rw [ha]; simp)]
        split
        · next c hc =>
          unfold St.hand
          split
          · exact .refused .outOfMemory s.req hf (Or.inl rfl) (Or.inr ⟨rfl, ha⟩)
          · split
            · exact .refused .outOfMemory s.req hf (Or.inl rfl) (Or.inr ⟨rfl, ha⟩)
            · exact .sent ⟨c, s.session, name, []⟩ hf ha (Or.inr ⟨hk, hc, rfl⟩) rfl
        · next hc => exact .ub s.req hf ha (Or.inl rfl) (Or.inr ⟨hk, fun c hx => hc c hx⟩)
      · rw [if_pos (by rw [ha]; rfl)]
        exact .refused .notAttached s.req hf (Or.inl rfl) (Or.inl ⟨rfl, ha, rfl⟩)
    · next hk => exact other fun hx => hk (by exact hx)
  · rw [if_pos (by simpa using hf)]
    exact .busy hf

/-- What an answer stores. -/
theorem take_eq (s : St) (a : Answer) :
    ∃ st b l, (s.take a).2 = { s with status := st, body := b, servers := l } := by
  unfold St.take
  split
  · exact ⟨s.status, s.body, s.servers, rfl⟩
  · exact ⟨s.status, s.body, s.servers, rfl⟩
  · exact ⟨s.status, s.body, s.servers, rfl⟩
  · exact ⟨s.status, s.body, s.servers, rfl⟩
  · exact ⟨s.status, s.body, s.servers, rfl⟩
  · split
    · exact ⟨_, _, s.servers, rfl⟩
    · exact ⟨s.status, _, s.servers, rfl⟩
    · exact ⟨s.status, s.body, s.servers, rfl⟩
  · split
    · exact ⟨s.status, s.body, s.servers, rfl⟩
    · split
      · exact ⟨_, _, s.servers, rfl⟩
      · exact ⟨_, s.body, s.servers, rfl⟩
  · exact ⟨s.status, s.body, _, rfl⟩

/-! ## The futures -/

/-- Of the futures at most one waits: the one which is stored, and then the request is with the CoAP library, unless something
bad happened. -/
structure Inv (s : St) : Prop where
  once : (s.results.map (·.1)).Nodup
  given : ∀ f ∈ s.results.map (·.1), f < s.asked
  first : s.fut = none → s.asked = 0
  wait : ∀ f, f < s.asked → f ∉ s.results.map (·.1) →
    s.fut = some f ∧ ((∃ c, s.req = .sent c) ∨ s.bad = true)
  sent : ∀ c, s.req = .sent c → ∃ f, s.fut = some f ∧ f < s.asked ∧ f ∉ s.results.map (·.1)
  zero : ∀ f, s.fut = some f → f = 0
  done : s.req = .freed → 0 ∈ s.results.map (·.1)
  kind : s.kind = .ice → s.req ≠ .freed

theorem Inv.of_eq {s t : St} (h : Inv s) (h1 : t.results = s.results) (h2 : t.asked = s.asked) (h3 : t.fut = s.fut)
    (h4 : t.req = s.req) (h5 : t.kind = s.kind) (h6 : s.bad = true → t.bad = true) : Inv t := by
  refine ⟨by rw [h1]; exact h.once, by rw [h1, h2]; exact h.given, by rw [h3, h2]; exact h.first, ?_, ?_,
    by rw [h3]; exact h.zero, by rw [h4, h1]; exact h.done, by rw [h5, h4]; exact h.kind⟩
  · intro f hf hn
    rw [h2] at hf; rw [h1] at hn
    obtain ⟨a, b⟩ := h.wait f hf hn
    refine ⟨by rw [h3]; exact a, ?_⟩
    rcases b with b | b
    · exact Or.inl (by rw [h4]; exact b)
    · exact Or.inr (h6 b)
  · intro c hc
    rw [h4] at hc
    rw [h3, h2, h1]; exact h.sent c hc

theorem fresh {s : St} (h : Inv s) : s.asked ∉ s.results.map (·.1) := fun hx => Nat.lt_irrefl _ (h.given _ hx)

theorem nodup_snoc {l : List Nat} {x : Nat} (h : l.Nodup) (hx : x ∉ l) : (l ++ [x]).Nodup := by
  rw [List.nodup_append]
  refine ⟨h, by simp, ?_⟩
  intro a ha b hb
  have : b = x := by simpa using hb
  subst this
  intro he; subst he; exact hx ha

theorem inv_send {s t : St} (h : Inv s) {name : Bytes} {m : Mem} (ht : Sent s name m t) : Inv t := by
  cases ht with
  | busy hf =>
    refine ⟨?_, ?_, fun hx => absurd hx hf, ?_, ?_, h.zero, ?_, h.kind⟩
    · show ((s.results ++ [(s.asked, Ec.inProgress)]).map (·.1)).Nodup
      rw [List.map_append]; exact nodup_snoc h.once (fresh h)
    · intro f hm
      have hm : f ∈ (s.results ++ [(s.asked, Ec.inProgress)]).map (·.1) := hm
      rw [List.map_append] at hm
      show f < s.asked + 1
      rcases List.mem_append.1 hm with hm | hm
      · exact Nat.lt_succ_of_lt (h.given f hm)
      · have : f = s.asked := by simpa using hm
        omega
    · intro f hl hn
      have hn : f ∉ (s.results ++ [(s.asked, Ec.inProgress)]).map (·.1) := hn
      rw [List.map_append] at hn
      have hl : f < s.asked + 1 := hl
      have hne : f ≠ s.asked := fun hx => hn (by simp [hx])
      exact h.wait f (by omega) fun hx => hn (List.mem_append_left _ hx)
    · intro c hc
      obtain ⟨f, h1, h2, h3⟩ := h.sent c hc
      refine ⟨f, h1, Nat.lt_succ_of_lt h2, ?_⟩
      show f ∉ (s.results ++ [(s.asked, Ec.inProgress)]).map (·.1)
      rw [List.map_append]
      intro hx
      rcases List.mem_append.1 hx with hx | hx
      · exact h3 hx
      · have : f = s.asked := by simpa using hx
        omega
    · intro hx
      show 0 ∈ (s.results ++ [(s.asked, Ec.inProgress)]).map (·.1)
      rw [List.map_append]; exact List.mem_append_left _ (h.done hx)
  | refused e r hf hr he =>
    replace hr : r = s.req ∨ s.kind ≠ .ice ∧ r = .made s.session := hr.imp_right fun x => x.1
    have h0 := h.first hf
    have hnil : s.results.map (·.1) = [] := by
      cases hx : s.results.map (·.1) with
      | nil => rfl
      | cons a l => have := h.given a (by rw [hx]; simp); rw [h0] at this; cases this
    have hnil : s.results = [] := List.map_eq_nil_iff.1 hnil
    have hr0 : ∀ c, r ≠ .sent c := by
      intro c hc
      rcases hr with hr | ⟨-, hr⟩
      · rw [hr] at hc
        obtain ⟨f, h1, -, -⟩ := h.sent c hc
        rw [hf] at h1; cases h1
      · rw [hr] at hc; cases hc
    refine ⟨?_, ?_, fun hx => (by cases hx), ?_, fun c hc => absurd hc (hr0 c), ?_, ?_, ?_⟩
    · show ((s.results ++ [(s.asked, e)]).map (·.1)).Nodup
      rw [hnil]; simp
    · intro f hm
      have hm : f ∈ (s.results ++ [(s.asked, e)]).map (·.1) := hm
      rw [hnil] at hm
      have : f = s.asked := by simpa using hm
      show f < s.asked + 1; omega
    · intro f hl hn
      have hl : f < s.asked + 1 := hl
      have hn : f ∉ (s.results ++ [(s.asked, e)]).map (·.1) := hn
      rw [hnil] at hn
      exact absurd (by simp; omega) hn
    · intro f hx
      have : some s.asked = some f := hx
      injection this with this
      omega
    · intro _
      show 0 ∈ (s.results ++ [(s.asked, e)]).map (·.1)
      rw [h0]; simp
    · intro hk
      rcases hr with hr | ⟨hk', -⟩
      · show r ≠ .freed
        rw [hr]; exact h.kind hk
      · exact absurd hk hk'
  | ub r hf ha hr hk =>
    have h0 := h.first hf
    have hr0 : ∀ c, r ≠ .sent c := by
      intro c hc
      rcases hr with hr | ⟨-, hr⟩
      · rw [hr] at hc
        obtain ⟨f, h1, -, -⟩ := h.sent c hc
        rw [hf] at h1; cases h1
      · rw [hr] at hc; cases hc
    refine ⟨h.once, fun f hm => Nat.lt_succ_of_lt (h.given f hm), fun hx => (by cases hx), ?_, fun c hc => absurd hc (hr0 c),
      ?_, ?_, ?_⟩
    · intro f hl _
      have hl : f < s.asked + 1 := hl
      have : f = s.asked := by omega
      exact ⟨by rw [this], Or.inr rfl⟩
    · intro f hx
      have : some s.asked = some f := hx
      injection this with this
      omega
    · intro hx
      have hx : r = .freed := hx
      rcases hr with hr | ⟨-, hr⟩
      · exact h.done (by rw [← hr]; exact hx)
      · rw [hr] at hx; cases hx
    · intro hk
      rcases hr with hr | ⟨hk', -⟩
      · show r ≠ .freed
        rw [hr]; exact h.kind hk
      · exact absurd hk hk'
  | sent w hf ha hk hw =>
    have h0 := h.first hf
    refine ⟨h.once, fun f hm => Nat.lt_succ_of_lt (h.given f hm), fun hx => (by cases hx), ?_, ?_, ?_, fun hx => (by cases hx),
      fun _ hx => (by cases hx)⟩
    · intro f hl _
      have hl : f < s.asked + 1 := hl
      have : f = s.asked := by omega
      exact ⟨by rw [this], Or.inl ⟨_, rfl⟩⟩
    · intro c _
      exact ⟨s.asked, rfl, Nat.lt_succ_self _, fresh h⟩
    · intro f hx
      have : some s.asked = some f := hx
      injection this with this
      omega

/-- What an answer comes to. -/
theorem answer_eq {s : St} (h : Inv s) (a : Answer) :
    s.answer a = s ∨ (s.gone = true ∧ s.kind ≠ .ice ∧ s.answer a = { s with bad := true }) ∨
    s.gone = false ∧ ∃ c, s.req = .sent c ∧ s.fut = some 0 ∧ 0 < s.asked ∧ 0 ∉ s.results.map (·.1) ∧
      ∃ st b l, (s.take a).2 = { s with status := st, body := b, servers := l } ∧
        s.answer a = { s with
          status := st, body := b, servers := l, req := if s.kind = .ice then .done else .freed,
          results := s.results ++ [(0, (s.take a).1)] } := by
  unfold St.answer
  split
  · next c hc =>
    obtain ⟨f, hf, hlt, hn⟩ := h.sent c hc
    have h0 := h.zero f hf
    subst h0
    rcases Bool.eq_false_or_eq_true s.gone with hg | hg
    · rw [if_pos hg]
      split
      · exact Or.inl rfl
      · next hk => exact Or.inr (Or.inl ⟨hg, hk, rfl⟩)
    · rw [if_neg (by rw [hg]; simp)]
      obtain ⟨st, b, l, e⟩ := take_eq s a
      refine Or.inr (Or.inr ⟨hg, c, hc, hf, hlt, hn, st, b, l, e, ?_⟩)
      dsimp only
      rw [hf]
      dsimp only
      unfold St.resolve
      rw [e]
      congr 1
  · exact Or.inl rfl

theorem inv_answer {s : St} (h : Inv s) (a : Answer) : Inv (s.answer a) := by
  rcases answer_eq h a with e | ⟨-, -, e⟩ | ⟨-, c, hc, hf, hlt, hn, st, b, l, -, e⟩
  · rw [e]; exact h
  · rw [e]; exact h.of_eq rfl rfl rfl rfl rfl fun _ => rfl
  · rw [e]
    have hnot : ∀ c, (if s.kind = .ice then Req.done else Req.freed) ≠ .sent c := by intro c; split <;> simp
    refine ⟨?_, ?_, ?_, ?_, fun c hx => absurd hx (hnot c), h.zero, ?_, ?_⟩
    · show ((s.results ++ [((0 : Nat), (s.take a).1)]).map (·.1)).Nodup
      rw [List.map_append]; exact nodup_snoc h.once hn
    · intro f hm
      have hm : f ∈ (s.results ++ [((0 : Nat), (s.take a).1)]).map (·.1) := hm
      rw [List.map_append] at hm
      rcases List.mem_append.1 hm with hm | hm
      · exact h.given f hm
      · have : f = 0 := by simpa using hm
        subst this; exact hlt
    · intro hx
      have hx : s.fut = none := hx
      rw [hf] at hx; cases hx
    · intro f hl hnf
      have hnf : f ∉ (s.results ++ [((0 : Nat), (s.take a).1)]).map (·.1) := hnf
      rw [List.map_append] at hnf
      obtain ⟨h1, -⟩ := h.wait f hl fun hx => hnf (List.mem_append_left _ hx)
      have := h.zero f h1
      exact absurd (by simp [this]) hnf
    · intro _
      show 0 ∈ (s.results ++ [((0 : Nat), (s.take a).1)]).map (·.1)
      rw [List.map_append]; simp
    · intro hk
      have hk : s.kind = .ice := hk
      show (if s.kind = .ice then Req.done else Req.freed) ≠ .freed
      rw [if_pos hk]; simp

theorem inv_step {s : St} (op : Op) (h : Inv s) : Inv (step s op) := by
  cases op <;> unfold step <;> dsimp only
  · split
    · exact h.of_eq rfl rfl rfl rfl rfl id
    · exact h
  · split
    · unfold St.setContent; split <;> exact h.of_eq rfl rfl rfl rfl rfl id
    · exact h
  · split
    · exact inv_send h (send_cases s _ _)
    · exact h
  · split
    · unfold St.stop
      split
      · exact h
      · split
        · exact h.of_eq rfl rfl rfl rfl rfl fun _ => rfl
        · exact h
    · exact h
  · split
    · exact h.of_eq rfl rfl rfl rfl rfl id
    · exact h
  · split
    · exact inv_answer h _
    · exact h
  · exact h.of_eq rfl rfl rfl rfl rfl id
  · split
    · exact h.of_eq rfl rfl rfl rfl rfl id
    · exact h
  · exact h.of_eq rfl rfl rfl rfl rfl id

theorem inv_after (i : Start) (ops : List Op) : Inv (after i ops) := by
  induction ops using snoc_ind with
  | h0 =>
    have hr : ∀ c, (if i.kind = .ice && i.mem then Req.made i.session else .none) ≠ .sent c := by intro c; split <;> simp
    have hr' : (if i.kind = .ice && i.mem then Req.made i.session else .none) ≠ .freed := by split <;> simp
    exact ⟨List.nodup_nil, fun f hf => (by cases hf), fun _ => rfl, fun f hf => absurd hf (Nat.not_lt_zero f),
      fun c hc => absurd hc (hr c), fun f hf => (by cases hf), fun hx => absurd hx hr', fun _ => hr'⟩
  | hs ops op ih => rw [after_snoc]; exact inv_step op ih

/-! ## What the application set, and the session of the attacher -/

theorem nameOf_snoc (ops : List Op) (op : Op) :
    nameOf (ops ++ [op]) = match op with
      | .setName w mem => if mem then some w else none
      | _ => nameOf ops := by
  unfold nameOf; rw [List.foldl_append]; rfl

theorem contentOf_snoc (ops : List Op) (op : Op) :
    contentOf (ops ++ [op]) = match op with
      | .setContent w mem => if mem then some w else none
      | _ => contentOf ops := by
  unfold contentOf; rw [List.foldl_append]; rfl

theorem linkOf_snoc (i : Start) (ops : List Op) (op : Op) :
    linkOf i (ops ++ [op]) = match op with
      | .session c => (c, false)
      | .attached => if (linkOf i ops).1 ≠ none then ((linkOf i ops).1, true) else linkOf i ops
      | .detached => (none, false)
      | _ => linkOf i ops := by
  unfold linkOf; rw [List.foldl_append]; rfl

/-- The fields which a send and an answer leave as they are. -/
structure Same (s t : St) : Prop where
  kind : t.kind = s.kind
  name : t.name = s.name
  content : t.content = s.content
  length : t.length = s.length
  gone : t.gone = s.gone
  session : t.session = s.session
  attached : t.attached = s.attached

theorem same_send {s t : St} {name : Bytes} {m : Mem} (h : Sent s name m t) : Same s t := by
  cases h <;> exact ⟨rfl, rfl, rfl, rfl, rfl, rfl, rfl⟩

theorem same_answer {s : St} (h : Inv s) (a : Answer) : Same s (s.answer a) := by
  rcases answer_eq h a with e | ⟨-, -, e⟩ | ⟨-, c, -, -, -, -, st, b, l, -, e⟩ <;> rw [e] <;>
    exact ⟨rfl, rfl, rfl, rfl, rfl, rfl, rfl⟩

theorem same_stop (s : St) : Same s s.stop := by
  unfold St.stop
  split
  · exact ⟨rfl, rfl, rfl, rfl, rfl, rfl, rfl⟩
  · split <;> exact ⟨rfl, rfl, rfl, rfl, rfl, rfl, rfl⟩

/-- What the object knows. -/
structure Know (i : Start) (ops : List Op) (s : St) : Prop where
  kind : s.kind = i.kind
  name : s.kind ≠ .ice → s.gone = false → s.name = nameOf ops
  content : s.kind ≠ .ice → s.gone = false → s.content = contentOf ops
  link : (s.session, s.attached) = linkOf i ops

theorem know_same {i : Start} {ops : List Op} {s t : St} {op : Op} (h : Know i ops s) (e : Same s t)
    (h1 : nameOf (ops ++ [op]) = nameOf ops) (h2 : contentOf (ops ++ [op]) = contentOf ops)
    (h3 : linkOf i (ops ++ [op]) = linkOf i ops) : Know i (ops ++ [op]) t := by
  refine ⟨e.kind.trans h.kind, ?_, ?_, ?_⟩
  · intro hk hg
    rw [e.name, h1]; exact h.name (by rw [← e.kind]; exact hk) (by rw [← e.gone]; exact hg)
  · intro hk hg
    rw [e.content, h2]; exact h.content (by rw [← e.kind]; exact hk) (by rw [← e.gone]; exact hg)
  · rw [e.session, e.attached, h3]; exact h.link

theorem Same.refl (s : St) : Same s s := ⟨rfl, rfl, rfl, rfl, rfl, rfl, rfl⟩

theorem know_after (i : Start) (ops : List Op) : Know i ops (after i ops) := by
  induction ops using snoc_ind with
  | h0 => exact ⟨rfl, fun _ _ => rfl, fun _ _ => rfl, rfl⟩
  | hs ops op ih =>
    rw [after_snoc]
    have hi := inv_after i ops
    generalize after i ops = s at ih hi
    have nn := nameOf_snoc ops op
    have cc := contentOf_snoc ops op
    have ll := linkOf_snoc i ops op
    cases op with
    | setName v mem =>
      unfold step; dsimp only
      split
      · exact ⟨ih.kind, fun _ _ => nn.symm, fun hk hg => (ih.content hk hg).trans cc.symm, ih.link.trans ll.symm⟩
      · next hx =>
        have no : s.kind ≠ .ice → s.gone = false → False := fun hk hg => hx (by rw [hg]; simpa using hk)
        exact ⟨ih.kind, fun hk hg => (no hk hg).elim, fun hk hg => (no hk hg).elim, ih.link.trans ll.symm⟩
    | setContent v mem =>
      unfold step; dsimp only
      split
      · unfold St.setContent
        split
        · next hm =>
          exact ⟨ih.kind, fun hk hg => (ih.name hk hg).trans nn.symm, fun _ _ => (by rw [cc, hm]; rfl), ih.link.trans ll.symm⟩
        · next hm =>
          have hm : mem = false := by simpa using hm
          exact ⟨ih.kind, fun hk hg => (ih.name hk hg).trans nn.symm, fun _ _ => (by rw [cc, hm]; rfl), ih.link.trans ll.symm⟩
      · next hx =>
        have no : s.kind ≠ .ice → s.gone = false → False := fun hk hg => hx (by rw [hg]; simpa using hk)
        exact ⟨ih.kind, fun hk hg => (no hk hg).elim, fun hk hg => (no hk hg).elim, ih.link.trans ll.symm⟩
    | send n m =>
      unfold step; dsimp only
      split
      · exact know_same ih (same_send (send_cases s n m)) nn cc ll
      · exact know_same ih (Same.refl s) nn cc ll
    | stop =>
      unfold step; dsimp only
      split
      · exact know_same ih (same_stop s) nn cc ll
      · exact know_same ih (Same.refl s) nn cc ll
    | free =>
      unfold step; dsimp only
      split
      · exact ⟨ih.kind, fun _ hg => (by cases hg), fun _ hg => (by cases hg), ih.link.trans ll.symm⟩
      · exact know_same ih (Same.refl s) nn cc ll
    | answer a =>
      unfold step; dsimp only
      split
      · exact know_same ih (same_answer hi a) nn cc ll
      · exact know_same ih (Same.refl s) nn cc ll
    | session c =>
      exact ⟨ih.kind, fun hk hg => (ih.name hk hg).trans nn.symm, fun hk hg => (ih.content hk hg).trans cc.symm, ll.symm⟩
    | attached =>
      have e1 : (linkOf i ops).1 = s.session := by rw [← ih.link]
      unfold step; dsimp only
      split
      · next hs =>
        refine ⟨ih.kind, fun hk hg => (ih.name hk hg).trans nn.symm, fun hk hg => (ih.content hk hg).trans cc.symm, ?_⟩
        rw [ll]; dsimp only; rw [e1, if_pos hs]
      · next hs =>
        refine ⟨ih.kind, fun hk hg => (ih.name hk hg).trans nn.symm, fun hk hg => (ih.content hk hg).trans cc.symm, ?_⟩
        rw [ll]; dsimp only; rw [e1, if_neg hs]; exact ih.link
    | detached =>
      exact ⟨ih.kind, fun hk hg => (ih.name hk hg).trans nn.symm, fun hk hg => (ih.content hk hg).trans cc.symm, ll.symm⟩

/-! ## What is sent -/

/-- Nothing is sent before the future is stored, and the request for ICE servers is for the first session. -/
structure Out (i : Start) (s : St) : Prop where
  first : s.fut = none → s.wire = []
  one : s.wire.length ≤ 1
  made : s.kind = .ice → ∀ c, s.req = .made c → c = i.session
  ready : s.kind = .ice → i.mem = true → s.fut = none → ∃ c, s.req = .made c

theorem Out.of_eq {i : Start} {s t : St} (h : Out i s) (h1 : t.fut = s.fut) (h2 : t.wire = s.wire) (h3 : t.kind = s.kind)
    (h4 : t.req = s.req) : Out i t := by
  refine ⟨?_, by rw [h2]; exact h.one, ?_, ?_⟩
  · rw [h1, h2]; exact h.first
  · rw [h3, h4]; exact h.made
  · rw [h3, h4, h1]; exact h.ready

theorem out_send {i : Start} {s t : St} {name : Bytes} {m : Mem} (h : Out i s) (ht : Sent s name m t) : Out i t := by
  cases ht with
  | busy hf => exact h.of_eq rfl rfl rfl rfl
  | refused e r hf hr he =>
    refine ⟨fun hx => (by cases hx), h.one, ?_, fun _ _ hx => (by cases hx)⟩
    intro hk c hc
    rcases hr with hr | ⟨⟨hk', -⟩, -⟩
    · exact h.made hk c (by rw [← hr]; exact hc)
    · exact absurd hk hk'
  | ub r hf ha hr hb =>
    refine ⟨fun hx => (by cases hx), h.one, ?_, fun _ _ hx => (by cases hx)⟩
    intro hk c hc
    rcases hr with hr | ⟨hk', -⟩
    · exact h.made hk c (by rw [← hr]; exact hc)
    · exact absurd hk hk'
  | sent w hf ha hk hw =>
    refine ⟨fun hx => (by cases hx), ?_, fun _ c hc => (by cases hc), fun _ _ hx => (by cases hx)⟩
    show (s.wire ++ [w]).length ≤ 1
    rw [h.first hf]; exact Nat.le_refl 1

theorem out_step {i : Start} {s : St} (op : Op) (hi : Inv s) (h : Out i s) : Out i (step s op) := by
  cases op <;> unfold step <;> dsimp only
  · split
    · exact h.of_eq rfl rfl rfl rfl
    · exact h
  · split
    · unfold St.setContent; split <;> exact h.of_eq rfl rfl rfl rfl
    · exact h
  · split
    · exact out_send h (send_cases s _ _)
    · exact h
  · split
    · unfold St.stop
      split
      · exact h
      · split
        · exact h.of_eq rfl rfl rfl rfl
        · exact h
    · exact h
  · split
    · exact h.of_eq rfl rfl rfl rfl
    · exact h
  · split
    · rcases answer_eq hi _ with e | ⟨-, -, e⟩ | ⟨-, c, hc, hf, -, -, st, b, l, -, e⟩
      · rw [e]; exact h
      · rw [e]; exact h.of_eq rfl rfl rfl rfl
      · rw [e]
        refine ⟨fun hx => ?_, h.one, fun hk c hc => ?_, fun _ _ hx => ?_⟩
        · have hx : s.fut = none := hx
          rw [hf] at hx; cases hx
        · have hc : (if s.kind = .ice then Req.done else Req.freed) = .made c := hc
          split at hc <;> cases hc
        · have hx : s.fut = none := hx
          rw [hf] at hx; cases hx
    · exact h
  · exact h.of_eq rfl rfl rfl rfl
  · split
    · exact h.of_eq rfl rfl rfl rfl
    · exact h
  · exact h.of_eq rfl rfl rfl rfl

theorem out_after (i : Start) (ops : List Op) : Out i (after i ops) := by
  induction ops using snoc_ind with
  | h0 =>
    refine ⟨fun _ => rfl, Nat.zero_le _, ?_, ?_⟩
    · intro hk c hc
      have hc : (if i.kind = .ice && i.mem then Req.made i.session else .none) = .made c := hc
      split at hc
      · injection hc with hc; exact hc.symm
      · cases hc
    · intro hk hm _
      have hk : i.kind = .ice := hk
      refine ⟨i.session, ?_⟩
      show (if i.kind = .ice && i.mem then Req.made i.session else .none) = .made i.session
      rw [hk, hm]; rfl
  | hs ops op ih => rw [after_snoc]; exact out_step op (inv_after i ops) ih

/-- What is sent comes from a send of an object which is there. -/
theorem wire_origin (i : Start) (ops : List Op) : ∀ w ∈ (after i ops).wire, ∃ before n m rest,
    ops = before ++ .send n m :: rest ∧ (after i before).gone = false ∧ (after i before).attached = true ∧
    ((after i before).kind ≠ .ice ∧ w.session = (after i before).session ∧
        (after i before).encode = some (w.name, w.content) ∨
      (after i before).kind = .ice ∧ (after i before).req = .made w.session ∧ w.name = n) := by
  induction ops using snoc_ind with
  | h0 => intro w hw; cases hw
  | hs ops op ih =>
    intro w hw
    have old : w ∈ (after i ops).wire → ∃ before n m rest,
        ops ++ [op] = before ++ .send n m :: rest ∧ (after i before).gone = false ∧ (after i before).attached = true ∧
        ((after i before).kind ≠ .ice ∧ w.session = (after i before).session ∧
          (after i before).encode = some (w.name, w.content) ∨
        (after i before).kind = .ice ∧ (after i before).req = .made w.session ∧ w.name = n) := by
      intro hm
      obtain ⟨before, n, m, rest, he, hr⟩ := ih w hm
      exact ⟨before, n, m, rest ++ [op], by rw [he]; simp, hr⟩
    rw [after_snoc] at hw
    have hi := inv_after i ops
    cases op <;> unfold step at hw <;> dsimp only at hw
    · split at hw <;> exact old hw
    · split at hw
      · unfold St.setContent at hw; split at hw <;> exact old hw
      · exact old hw
    · next n m =>
      split at hw
      · next hg =>
        have hc := send_cases (after i ops) n m
        generalize (after i ops).send n m = t at hc hw
        cases hc with
        | busy _ => exact old hw
        | refused _ _ _ _ _ => exact old hw
        | ub _ _ _ _ _ => exact old hw
        | sent v _ ha hk _ =>
          rcases List.mem_append.1 hw with hw | hw
          · exact old hw
          · have : w = v := by simpa using hw
            subst this
            exact ⟨ops, n, m, [], rfl, by simpa using hg, ha, hk⟩
      · exact old hw
    · split at hw
      · unfold St.stop at hw
        split at hw
        · exact old hw
        · split at hw <;> exact old hw
      · exact old hw
    · split at hw <;> exact old hw
    · split at hw
      · rcases answer_eq hi _ with e | ⟨-, -, e⟩ | ⟨-, c, -, -, -, -, st, b, l, -, e⟩ <;> rw [e] at hw <;> exact old hw
      · exact old hw
    · exact old hw
    · split at hw <;> exact old hw
    · exact old hw

/-! ## A careful application -/

theorem careful_left {i : Start} {ops : List Op} {op : Op} (h : Careful i (ops ++ [op])) : Careful i ops :=
  ⟨h.1, fun b x r he => h.2 b x (r ++ [op]) (by rw [he]; simp)⟩

theorem careful_last {i : Start} {ops : List Op} {op : Op} (h : Careful i (ops ++ [op])) : CarefulOp i ops op :=
  h.2 ops op [] rfl

theorem times_pos {i : Start} {ops : List Op} {f : Nat} (h : f ∈ (after i ops).results.map (·.1)) : 0 < times i ops f := by
  unfold times
  obtain ⟨r, hr, rfl⟩ := List.mem_map.1 h
  exact List.countP_pos_iff.2 ⟨r, hr, by simp⟩

structure Safe (s : St) : Prop where
  good : s.bad = false
  kept : s.gone = true → ∀ c, s.req ≠ .sent c

theorem Safe.of_eq {s t : St} (h : Safe s) (h1 : t.bad = s.bad) (h2 : t.gone = s.gone) (h4 : t.req = s.req) : Safe t :=
  ⟨by rw [h1]; exact h.good, by rw [h2, h4]; exact h.kept⟩

theorem encode_some {s : St} (h1 : s.name ≠ none) (h2 : s.content ≠ none) : s.encode ≠ none := by
  unfold St.encode
  obtain ⟨n, hn⟩ := Option.ne_none_iff_exists'.1 h1
  obtain ⟨c, hc⟩ := Option.ne_none_iff_exists'.1 h2
  rw [hn, hc]
  split <;> simp

theorem safe_after (i : Start) (ops : List Op) (hc : Careful i ops) : Safe (after i ops) := by
  induction ops using snoc_ind with
  | h0 => exact ⟨rfl, fun hx => (by cases hx)⟩
  | hs ops op ih =>
    have h := ih (careful_left hc)
    have hl := careful_last hc
    have hi := inv_after i ops
    have hk := know_after i ops
    have ho := out_after i ops
    rw [after_snoc]
    cases op with
    | setName v mem =>
      unfold step; dsimp only
      split
      · exact h.of_eq rfl rfl rfl
      · exact h
    | setContent v mem =>
      unfold step; dsimp only
      split
      · unfold St.setContent; split <;> exact h.of_eq rfl rfl rfl
      · exact h
    | send n m =>
      unfold step; dsimp only
      split
      · next hg =>
        have hg : (after i ops).gone = false := by simpa using hg
        have hs := send_cases (after i ops) n m
        generalize (after i ops).send n m = t at hs
        have no : ∀ {t : St}, t.gone = (after i ops).gone → t.gone = true → False := by
          intro t e hx; rw [e, hg] at hx; cases hx
        cases hs with
        | busy _ => exact h.of_eq rfl rfl rfl
        | refused _ _ _ _ _ => exact ⟨h.good, fun hx => (no rfl hx).elim⟩
        | ub r hf _ _ hb =>
          exfalso
          rcases hb with ⟨hki, hb⟩ | ⟨hki, hb⟩
          · obtain ⟨h1, h2, h3⟩ := hl (by rw [← hk.kind]; exact hki)
            rcases hb with hb | hb
            · rw [h3] at hb; cases hb
            · exact encode_some (by rw [hk.name hki hg]; exact h1) (by rw [hk.content hki hg]; exact h2) hb
          · obtain ⟨c, hx⟩ := ho.ready hki (hc.1 (by rw [← hk.kind]; exact hki)) hf
            exact hb c hx
        | sent w _ _ _ _ => exact ⟨h.good, fun hx => (no rfl hx).elim⟩
      · exact h
    | stop =>
      unfold step; dsimp only
      split
      · unfold St.stop
        split
        · exact h
        · split
          · next hx =>
            have := times_pos (hi.done hx)
            have hl : times i ops 0 = 0 := hl
            omega
          · exact h
      · exact h
    | free =>
      unfold step; dsimp only
      split
      · refine ⟨h.good, ?_⟩
        intro _ c hx
        have hx : (after i ops).req = .sent c := hx
        obtain ⟨f, -, hlt, hn⟩ := hi.sent c hx
        obtain ⟨e, he⟩ := hl f hlt
        exact hn (List.mem_map.2 ⟨(f, e), he, rfl⟩)
      · exact h
    | answer a =>
      unfold step; dsimp only
      split
      · next hfit =>
        by_cases hs : ∃ c, (after i ops).req = .sent c
        · obtain ⟨c, hs⟩ := hs
          rcases answer_eq hi a with e | ⟨hg, hki, -⟩ | ⟨-, c, -, -, -, -, st, b, l, -, e⟩
          · rw [e]; exact h
          · exact absurd hs (h.kept hg c)
          · rw [e]
            refine ⟨h.good, fun _ c hx => ?_⟩
            have hx : (if (after i ops).kind = .ice then Req.done else Req.freed) = .sent c := hx
            split at hx <;> cases hx
        · have : (after i ops).answer a = after i ops := by
            unfold St.answer
            split
            · next c hx => exact absurd ⟨c, hx⟩ hs
            · rfl
          rw [this]; exact h
      · exact h
    | session c => exact h.of_eq rfl rfl rfl
    | attached =>
      unfold step; dsimp only
      split
      · exact h.of_eq rfl rfl rfl
      · exact h
    | detached => exact h.of_eq rfl rfl rfl

/-- With memory, a request is made only to be sent. -/
structure Tidy (s : St) : Prop where
  none : s.leaked = 0
  made : s.kind ≠ .ice → ∀ c, s.req ≠ .made c

theorem tidy_after (i : Start) (ops : List Op) (hc : Careful i ops)
    (hm : ∀ n m, .send n m ∈ ops → m.buffer = true ∧ m.payload = true) : Tidy (after i ops) := by
  induction ops using snoc_ind with
  | h0 =>
    refine ⟨rfl, ?_⟩
    intro hk c hx
    have hk : i.kind ≠ .ice := hk
    have hx : (if i.kind = .ice && i.mem then Req.made i.session else .none) = .made c := hx
    rw [if_neg (by simp [hk])] at hx
    cases hx
  | hs ops op ih =>
    have h := ih (careful_left hc) fun n m hx => hm n m (List.mem_append_left _ hx)
    have hgood := (safe_after i _ hc).good
    have hi := inv_after i ops
    rw [after_snoc] at hgood ⊢
    have same : ∀ {t : St}, t.leaked = (after i ops).leaked → t.kind = (after i ops).kind → t.req = (after i ops).req →
        Tidy t := by
      intro t h1 h2 h3
      exact ⟨by rw [h1]; exact h.none, by rw [h2, h3]; exact h.made⟩
    cases op with
    | setName v mem =>
      unfold step; dsimp only
      split <;> exact same rfl rfl rfl
    | setContent v mem =>
      unfold step; dsimp only
      split
      · unfold St.setContent; split <;> exact same rfl rfl rfl
      · exact h
    | send n m =>
      obtain ⟨h1, h2⟩ := hm n m (by simp)
      unfold step at hgood ⊢; dsimp only at hgood ⊢
      split
      · next hg =>
        rw [if_pos hg] at hgood
        have hs := send_cases (after i ops) n m
        generalize (after i ops).send n m = t at hs hgood
        cases hs with
        | busy _ => exact same rfl rfl rfl
        | refused e r hf hr he =>
          rcases hr with hr | ⟨-, hr⟩
          · exact same rfl rfl hr
          · rcases hr with hr | hr
            · rw [h1] at hr; cases hr
            · rw [h2] at hr; cases hr
        | ub r hf _ _ hb => cases hgood
        | sent w _ _ _ _ => exact ⟨h.none, fun _ c hx => (by cases hx)⟩
      · exact h
    | stop =>
      unfold step; dsimp only
      split
      · unfold St.stop
        split
        · exact h
        · split <;> exact same rfl rfl rfl
      · exact h
    | free =>
      unfold step; dsimp only
      split
      · refine ⟨?_, h.made⟩
        show (match (after i ops).kind, (after i ops).req with
          | .ice, _ => (after i ops).leaked
          | _, .made _ => (after i ops).leaked + 1
          | _, _ => (after i ops).leaked) = 0
        have hmade := h.made
        generalize (after i ops).kind = k at hmade
        generalize (after i ops).req = r at hmade
        cases k <;> cases r <;> first | exact h.none | exact absurd rfl (hmade (by simp) _)
      · exact h
    | answer a =>
      unfold step; dsimp only
      split
      · rcases answer_eq hi a with e | ⟨-, -, e⟩ | ⟨-, c, -, -, -, -, st, b, l, -, e⟩
        · rw [e]; exact h
        · rw [e]; exact same rfl rfl rfl
        · rw [e]
          refine ⟨h.none, fun _ c hx => ?_⟩
          have hx : (if (after i ops).kind = .ice then Req.done else Req.freed) = .made c := hx
          split at hx <;> cases hx
      · exact h
    | session c => exact same rfl rfl rfl
    | attached =>
      unfold step; dsimp only
      split <;> exact same rfl rfl rfl
    | detached => exact same rfl rfl rfl

/-! ## What the getters give -/

/-- Before the answer there is nothing; afterwards there is what the answer told. -/
inductive Told (i : Start) (ops : List Op) (s : St) : Prop
  | nothing : s.status = 0 → s.body = none → s.servers = [] → (∀ f, (f, Ec.ok) ∉ s.results) → Told i ops s
  | answered (before : List Op) (a : Answer) (rest : List Op) : ops = before ++ .answer a :: rest →
      a.fits i.kind = true → Pending i before → (after i before).gone = false → (∀ c, s.req ≠ .sent c) →
      (after i before).status = 0 → (after i before).body = none → (after i before).servers = [] →
      s.status = ((after i before).take a).2.status → s.body = ((after i before).take a).2.body →
      s.servers = ((after i before).take a).2.servers → (0, ((after i before).take a).1) ∈ s.results →
      (∀ f, (f, Ec.ok) ∈ s.results → ((after i before).take a).1 = .ok) → Told i ops s

theorem Told.of_eq {i : Start} {ops : List Op} {s t : St} {op : Op} (h : Told i ops s) (h1 : t.status = s.status)
    (h2 : t.body = s.body) (h3 : t.servers = s.servers) (h4 : ∀ r ∈ s.results, r ∈ t.results)
    (h5 : ∀ f, (f, Ec.ok) ∈ t.results → (f, Ec.ok) ∈ s.results)
    (h6 : (∀ c, s.req ≠ .sent c) → s.results ≠ [] → ∀ c, t.req ≠ .sent c) : Told i (ops ++ [op]) t := by
  cases h with
  | nothing a b c d =>
    exact .nothing (h1.trans a) (h2.trans b) (h3.trans c) fun f hx => d f (h5 f hx)
  | answered before a rest he hfit hp hg hr z1 z2 z3 e1 e2 e3 hm hok =>
    exact .answered before a (rest ++ [op]) (by rw [he]; simp) hfit hp hg
      (h6 hr (by intro hx; rw [hx] at hm; cases hm)) z1 z2 z3 (h1.trans e1) (h2.trans e2)
      (h3.trans e3) (h4 _ hm) fun f hx => hok f (h5 f hx)

theorem told_after (i : Start) (ops : List Op) : Told i ops (after i ops) := by
  induction ops using snoc_ind with
  | h0 => exact .nothing rfl rfl rfl fun f hx => (by cases hx)
  | hs ops op ih =>
    have hi := inv_after i ops
    have hk := know_after i ops
    have keep : ∀ {t : St}, t.status = (after i ops).status → t.body = (after i ops).body →
        t.servers = (after i ops).servers → t.results = (after i ops).results → t.req = (after i ops).req →
        Told i (ops ++ [op]) t := by
      intro t h1 h2 h3 h4 h5
      exact ih.of_eq h1 h2 h3 (fun r hr => by rw [h4]; exact hr) (fun f hx => by rw [← h4]; exact hx)
        fun hr _ c => by rw [h5]; exact hr c
    rw [after_snoc]
    cases op with
    | setName v mem =>
      unfold step; dsimp only
      split <;> exact keep rfl rfl rfl rfl rfl
    | setContent v mem =>
      unfold step; dsimp only
      split
      · unfold St.setContent; split <;> exact keep rfl rfl rfl rfl rfl
      · exact keep rfl rfl rfl rfl rfl
    | send n m =>
      unfold step; dsimp only
      split
      · have hs := send_cases (after i ops) n m
        have add : ∀ {e : Ec} {f : Nat}, e ≠ .ok →
            ∀ g, (g, Ec.ok) ∈ (after i ops).results ++ [(f, e)] → (g, Ec.ok) ∈ (after i ops).results := by
          intro e f he g hx
          rcases List.mem_append.1 hx with hx | hx
          · exact hx
          · have : (g, Ec.ok) = (f, e) := by simpa using hx
            injection this with _ this
            exact absurd this.symm he
        have no : (after i ops).fut = none → (after i ops).results = [] := by
          intro hf
          cases hx : (after i ops).results with
          | nil => rfl
          | cons r l =>
            have := hi.given r.1 (List.mem_map.2 ⟨r, by rw [hx]; simp, rfl⟩)
            have := hi.first hf
            omega
        generalize (after i ops).send n m = t at hs
        cases hs with
        | busy _ => exact ih.of_eq rfl rfl rfl (fun r hr => List.mem_append_left _ hr) (add (by simp)) fun hr _ => hr
        | refused e r hf hr he =>
          refine ih.of_eq rfl rfl rfl (fun r hr => List.mem_append_left _ hr) (add ?_) fun _ hx => absurd (no hf) hx
          rcases he with ⟨he, -⟩ | ⟨he, -⟩ <;> rw [he] <;> simp
        | ub r hf _ _ hb => exact ih.of_eq rfl rfl rfl (fun r hr => hr) (fun _ hx => hx) fun _ hx => absurd (no hf) hx
        | sent w hf _ _ _ => exact ih.of_eq rfl rfl rfl (fun r hr => hr) (fun _ hx => hx) fun _ hx => absurd (no hf) hx
      · exact keep rfl rfl rfl rfl rfl
    | stop =>
      unfold step; dsimp only
      split
      · unfold St.stop
        split
        · exact keep rfl rfl rfl rfl rfl
        · split <;> exact keep rfl rfl rfl rfl rfl
      · exact keep rfl rfl rfl rfl rfl
    | free =>
      unfold step; dsimp only
      split <;> exact keep rfl rfl rfl rfl rfl
    | answer a =>
      unfold step; dsimp only
      split
      · next hfit =>
        rcases answer_eq hi a with e | ⟨-, -, e⟩ | ⟨hg, c, hc, hf, hlt, hn, st, b, l, et, e⟩
        · rw [e]; exact keep rfl rfl rfl rfl rfl
        · rw [e]; exact keep rfl rfl rfl rfl rfl
        · rw [e]
          cases ih with
          | answered before a rest he hfit hp hg hr => exact absurd hc (hr c)
          | nothing z1 z2 z3 z4 =>
            refine .answered ops a [] rfl (by rw [← hk.kind]; exact hfit) ⟨c, hc⟩ hg ?_ z1 z2 z3 (by rw [et]) (by rw [et])
              (by rw [et]) (List.mem_append_right _ (by simp)) ?_
            · intro c hx
              have hx : (if (after i ops).kind = .ice then Req.done else Req.freed) = .sent c := hx
              split at hx <;> cases hx
            · intro f hx
              rcases List.mem_append.1 hx with hx | hx
              · exact absurd hx (z4 f)
              · have : (f, Ec.ok) = (0, ((after i ops).take a).1) := by simpa using hx
                injection this with _ this
                exact this.symm
      · exact keep rfl rfl rfl rfl rfl
    | session c => exact keep rfl rfl rfl rfl rfl
    | attached =>
      unfold step; dsimp only
      split <;> exact keep rfl rfl rfl rfl rfl
    | detached => exact keep rfl rfl rfl rfl rfl

/-- Only the first future can be resolved with OK. -/
theorem only_zero (i : Start) (ops : List Op) : ∀ f, (f, Ec.ok) ∈ (after i ops).results → f = 0 := by
  induction ops using snoc_ind with
  | h0 => intro f hx; cases hx
  | hs ops op ih =>
    have hi := inv_after i ops
    rw [after_snoc]
    cases op with
    | setName v mem => unfold step; dsimp only; split <;> exact ih
    | setContent v mem =>
      unfold step; dsimp only
      split
      · unfold St.setContent; split <;> exact ih
      · exact ih
    | send n m =>
      unfold step; dsimp only
      split
      · have hs := send_cases (after i ops) n m
        have add : ∀ {e : Ec} {f : Nat}, e ≠ .ok → ∀ g, (g, Ec.ok) ∈ (after i ops).results ++ [(f, e)] → g = 0 := by
          intro e f he g hx
          rcases List.mem_append.1 hx with hx | hx
          · exact ih g hx
          · have : (g, Ec.ok) = (f, e) := by simpa using hx
            injection this with _ this
            exact absurd this.symm he
        generalize (after i ops).send n m = t at hs
        cases hs with
        | busy _ => exact add (by simp)
        | refused e r hf hr he =>
          apply add
          rcases he with ⟨he, -⟩ | ⟨he, -⟩ <;> rw [he] <;> simp
        | ub r hf _ _ hb => exact ih
        | sent w hf _ _ _ => exact ih
      · exact ih
    | stop =>
      unfold step; dsimp only
      split
      · unfold St.stop
        split
        · exact ih
        · split <;> exact ih
      · exact ih
    | free => unfold step; dsimp only; split <;> exact ih
    | answer a =>
      unfold step; dsimp only
      split
      · rcases answer_eq hi a with e | ⟨-, -, e⟩ | ⟨hg, c, hc, hf, hlt, hn, st, b, l, et, e⟩
        · rw [e]; exact ih
        · rw [e]; exact ih
        · rw [e]
          intro f hx
          rcases List.mem_append.1 hx with hx | hx
          · exact ih f hx
          · have : (f, Ec.ok) = (0, ((after i ops).take a).1) := by simpa using hx
            injection this
      · exact ih
    | session c => exact ih
    | attached => unfold step; dsimp only; split <;> exact ih
    | detached => exact ih

/-! ## An object whose send was refused -/

structure Stuck (s : St) : Prop where
  fut : s.fut ≠ none
  wire : s.wire = []
  req : ∀ c, s.req ≠ .sent c
  first : (0, Ec.notAttached) ∈ s.results
  busy : ∀ f, 0 < f → f < s.asked → (f, Ec.inProgress) ∈ s.results

theorem Stuck.of_eq {s t : St} (h : Stuck s) (h1 : t.fut = s.fut) (h2 : t.wire = s.wire) (h3 : t.req = s.req)
    (h4 : t.results = s.results) (h5 : t.asked = s.asked) : Stuck t :=
  ⟨by rw [h1]; exact h.fut, by rw [h2]; exact h.wire, by rw [h3]; exact h.req, by rw [h4]; exact h.first,
    by rw [h4, h5]; exact h.busy⟩

theorem stuck_step {s : St} (op : Op) (h : Stuck s) : Stuck (step s op) := by
  cases op with
  | send n m =>
    unfold step; dsimp only
    split
    · unfold St.send
      dsimp only
      rw [if_pos h.fut]
      refine ⟨h.fut, h.wire, h.req, List.mem_append_left _ h.first, ?_⟩
      intro f h0 hl
      have hl : f < s.asked + 1 := hl
      by_cases he : f = s.asked
      · subst he; exact List.mem_append_right _ (by simp)
      · exact List.mem_append_left _ (h.busy f h0 (by omega))
    · exact h
  | answer a =>
    unfold step; dsimp only
    split
    · have : s.answer a = s := by
        unfold St.answer
        split
        · next c hx => exact absurd hx (h.req c)
        · rfl
      rw [this]; exact h
    · exact h
  | setContent v mem =>
    unfold step; dsimp only
    split
    · unfold St.setContent; split <;> exact h.of_eq rfl rfl rfl rfl rfl
    · exact h
  | stop =>
    unfold step; dsimp only
    split
    · unfold St.stop
      split
      · exact h
      · split
        · exact h.of_eq rfl rfl rfl rfl rfl
        · exact h
    · exact h
  | setName v mem => unfold step; dsimp only; split <;> exact h.of_eq rfl rfl rfl rfl rfl
  | free => unfold step; dsimp only; split <;> exact h.of_eq rfl rfl rfl rfl rfl
  | session c => exact h.of_eq rfl rfl rfl rfl rfl
  | attached => unfold step; dsimp only; split <;> exact h.of_eq rfl rfl rfl rfl rfl
  | detached => exact h.of_eq rfl rfl rfl rfl rfl

theorem stuck_more (i : Start) (ops more : List Op) (h : Stuck (after i ops)) : Stuck (after i (ops ++ more)) := by
  induction more using snoc_ind with
  | h0 => rw [List.append_nil]; exact h
  | hs more op ih => rw [← List.append_assoc, after_snoc]; exact stuck_step op ih

/-- Before the first send. -/
structure New (s : St) : Prop where
  fut : s.fut = none
  wire : s.wire = []
  req : ∀ c, s.req ≠ .sent c
  asked : s.asked = 0
  gone : s.gone = false

theorem new_after (i : Start) (ops : List Op) (h : ∀ op ∈ ops, (∀ n m, op ≠ .send n m) ∧ op ≠ .free) :
    New (after i ops) := by
  induction ops using snoc_ind with
  | h0 =>
    refine ⟨rfl, rfl, ?_, rfl, rfl⟩
    intro c hx
    have hx : (if i.kind = .ice && i.mem then Req.made i.session else .none) = .sent c := hx
    split at hx <;> cases hx
  | hs ops op ih =>
    have hn := ih fun op hm => h op (List.mem_append_left _ hm)
    obtain ⟨h1, h2⟩ := h op (by simp)
    rw [after_snoc]
    have keep : ∀ {t : St}, t.fut = (after i ops).fut → t.wire = (after i ops).wire → t.req = (after i ops).req →
        t.asked = (after i ops).asked → t.gone = (after i ops).gone → New t := by
      intro t a b c d e
      exact ⟨a.trans hn.fut, b.trans hn.wire, by rw [c]; exact hn.req, d.trans hn.asked, e.trans hn.gone⟩
    cases op with
    | send n m => exact absurd rfl (h1 n m)
    | free => exact absurd rfl h2
    | answer a =>
      unfold step; dsimp only
      split
      · have : (after i ops).answer a = after i ops := by
          unfold St.answer
          split
          · next c hx => exact absurd hx (hn.req c)
          · rfl
        rw [this]; exact hn
      · exact hn
    | setContent v mem =>
      unfold step; dsimp only
      split
      · unfold St.setContent; split <;> exact keep rfl rfl rfl rfl rfl
      · exact hn
    | stop =>
      unfold step; dsimp only
      split
      · unfold St.stop
        split
        · exact hn
        · split
          · exact keep rfl rfl rfl rfl rfl
          · exact hn
      · exact hn
    | setName v mem => unfold step; dsimp only; split <;> exact keep rfl rfl rfl rfl rfl
    | session c => exact keep rfl rfl rfl rfl rfl
    | attached => unfold step; dsimp only; split <;> exact keep rfl rfl rfl rfl rfl
    | detached => exact keep rfl rfl rfl rfl rfl

end Verif.Device.Ask
