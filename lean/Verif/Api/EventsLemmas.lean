import Verif.Api.EventsSpec

/-!
# Listeners for events — the contexts belong to the open listeners
-/

namespace Verif.Api.Events

open Spec (L S)

/-- The number of events a listener holds. -/
def held (w : W) (l : Nat) : Nat := (w.lsts l).elim 0 (·.events.length)

/-- The number of events held. -/
def total (w : W) : Nat := (w.all.map (held w)).sum

theorem sum_change (f g : Nat → Nat) (l : Nat) (xs : List Nat) (nd : xs.Nodup) (hl : l ∈ xs)
    (h : ∀ j ≠ l, f j = g j) : (xs.map f).sum + g l = (xs.map g).sum + f l := by
  induction xs with
  | nil => simp at hl
  | cons a as ih =>
    rw [List.nodup_cons] at nd
    simp only [List.map_cons, List.sum_cons]
    by_cases ha : a = l
    · subst ha
      have : as.map f = as.map g := List.map_congr_left fun j hj => h j (fun e => nd.1 (e ▸ hj))
      rw [this]; omega
    · have := ih nd.2 ((List.mem_cons.1 hl).resolve_left (fun e => ha e.symm))
      have := h a ha
      omega

theorem sum_same (f g : Nat → Nat) (xs : List Nat) (h : ∀ j ∈ xs, f j = g j) : (xs.map f).sum = (xs.map g).sum := by
  rw [List.map_congr_left h]

/-- An open listener and its context. -/
structure Open (w : W) (l : Nat) (X : Lst) (k : Kind) (x : Ctx) : Prop where
  initialized : X.initialized = true
  type : X.type = some k
  ec : X.ec = .ok
  cb : X.cb = some k
  one : X.fut = none ∨ X.events = []
  kinds : ∀ v ∈ X.events, v.kind = k
  reg : X.data ∈ w.regs k
  ctx : w.ctxs X.data = some x
  kind : x.kind = k
  listener : x.listener = l
  dev : k = .dev → x.userRef = none
  place : k = .conn → X.fut ≠ none → x.userRef.isSome → x.userEvent.isSome

/-- A listener which is at an end. -/
structure Over (X : Lst) (k : Kind) : Prop where
  initialized : X.initialized = true
  type : X.type = some k
  ec : X.ec ≠ .ok
  fut : X.fut = none
  events : X.events = []
  cb : X.cb = none

inductive Shape (w : W) (l : Nat) (X : Lst) : Prop
  | raw (h : X = {})
  | over (k : Kind) (h : Over X k)
  | live (k : Kind) (x : Ctx) (h : Open w l X k x)

structure Inv (w : W) : Prop where
  good : w.bad = false
  below : ∀ l, w.lsts l ≠ none → l < w.nl
  cbelow : ∀ c, w.ctxs c ≠ none → c < w.nc
  all : ∀ l, l ∈ w.all ↔ w.lsts l ≠ none
  nodup : w.all.Nodup
  shape : ∀ l X, w.lsts l = some X → Shape w l X
  ctx : ∀ c x, w.ctxs c = some x → ∃ X, w.lsts x.listener = some X ∧ X.data = c ∧ X.ec = .ok ∧ X.type = some x.kind
  reg : ∀ k c, c ∈ w.regs k → ∃ x, w.ctxs c = some x ∧ x.kind = k
  regs : ∀ k, (w.regs k).Nodup
  count : w.made = w.freed + total w

/-- What the application knows of a listener. -/
def view (w : W) (l : Nat) : Option L :=
  (w.lsts l).map fun X =>
    { kind := X.type, ec := X.ec, backlog := X.events,
      waiting := X.fut.map fun f =>
        (f, (w.ctxs X.data).bind (·.userRef), (w.ctxs X.data).bind (·.userEvent)) }

theorem Inv.live {w : W} (h : Inv w) {l : Nat} {X : Lst} (hl : w.lsts l = some X) {k : Kind} (ht : X.type = some k)
    (he : X.ec = .ok) : ∃ x, Open w l X k x := by
  cases h.shape l X hl with
  | raw hr => subst hr; simp at ht
  | over k' ho => exact absurd he ho.ec
  | live k' x ho =>
    have : k' = k := by have := ho.type; rw [ht] at this; injection this with this; exact this.symm
    subst this
    exact ⟨x, ho⟩

/-- Open listeners have contexts of their own. -/
theorem Inv.apart {w : W} (_h : Inv w) {l j : Nat} {X Y : Lst} {k k' : Kind} {x y : Ctx} (hx : Open w l X k x)
    (hy : Open w j Y k' y) (hn : j ≠ l) : Y.data ≠ X.data := by
  intro e
  have := hy.ctx
  rw [e, hx.ctx] at this
  injection this with this
  exact hn (by rw [← hy.listener, ← this, hx.listener])

/-- A listener keeps open, with other contents. -/
def put (w : W) (l : Nat) (X : Lst) (x : Ctx) (made freed : Nat) : W :=
  { w with
    lsts := fun i => if i = l then some X else w.lsts i
    ctxs := fun i => if i = X.data then some x else w.ctxs i
    made := made, freed := freed }

/-- A listener comes to its end. -/
def shut (w : W) (l : Nat) (X : Lst) (k : Kind) (freed : Nat) : W :=
  { w with
    lsts := fun i => if i = l then some X else w.lsts i
    ctxs := fun i => if i = X.data then none else w.ctxs i
    regs := fun j => if j = k then (w.regs j).filter (· ≠ X.data) else w.regs j
    freed := freed }

theorem held_put (w w' : W) (l : Nat) (X : Lst)
    (h : w'.lsts = fun i => if i = l then some X else w.lsts i) (ha : w'.all = w.all) (nd : w.all.Nodup) (hl : l ∈ w.all)
    (Y : Lst) (hY : w.lsts l = some Y) : total w' + Y.events.length = total w + X.events.length := by
  have := sum_change (held w') (held w) l w.all nd hl (by intro j hj; simp [held, h, hj])
  simpa [held, total, hY, h, ha] using this

/-- What is left alone by a change of listener `l` with context `d`. -/
structure Near (w w' : W) (l d : Nat) : Prop where
  inv : Inv w'
  others : ∀ j, j ≠ l → view w' j = view w j
  nl : w'.nl = w.nl
  all : w'.all = w.all
  far : ∀ c, c ≠ d → w'.ctxs c = w.ctxs c ∧ ∀ k, c ∈ w.regs k → c ∈ w'.regs k

theorem view_far {w w' : W} {l d : Nat} (h : Inv w) {X : Lst} {k : Kind} {x : Ctx} (hX : Open w l X k x) (hd : X.data = d)
    (hl : ∀ j, j ≠ l → w'.lsts j = w.lsts j) (hc : ∀ c, c ≠ d → w'.ctxs c = w.ctxs c) :
    ∀ j, j ≠ l → view w' j = view w j := by
  intro j hj
  unfold view
  rw [hl j hj]
  cases hY : w.lsts j with
  | none => rfl
  | some Y =>
    simp only [Option.map_some]
    cases h.shape j Y hY with
    | raw hr => subst hr; rfl
    | over k' ho => simp [ho.fut]
    | live k' y ho => rw [hc _ (hd ▸ h.apart hX ho hj)]

theorem Open.put {w : W} {l : Nat} {X X' : Lst} {k : Kind} {x x' : Ctx} {m f : Nat} (h : Inv w)
    (hl : w.lsts l = some X) (hX : Open w l X k x) (hd : X'.data = X.data) (ht : X'.type = X.type)
    (he : X'.ec = X.ec) (hc : X'.cb = X.cb) (hi : X'.initialized = X.initialized)
    (h1 : X'.fut = none ∨ X'.events = []) (hk : ∀ v ∈ X'.events, v.kind = k) (hxk : x'.kind = x.kind)
    (hxl : x'.listener = x.listener) (hdev : k = .dev → x'.userRef = none)
    (hp : k = .conn → X'.fut ≠ none → x'.userRef.isSome → x'.userEvent.isSome)
    (hcount : m + w.freed + X.events.length = f + w.made + X'.events.length) :
    Near w (put w l X' x' m f) l X.data ∧
      view (Events.put w l X' x' m f) l = some
        { kind := X'.type, ec := X'.ec, backlog := X'.events,
          waiting := X'.fut.map fun g => (g, x'.userRef, x'.userEvent) } := by
  have hin : l ∈ w.all := (h.all l).2 (by simp [hl])
  have other : ∀ j Y k' y, j ≠ l → Open w j Y k' y → Open (Events.put w l X' x' m f) j Y k' y := by
    intro j Y k' y hj ho
    have hne := h.apart hX ho hj
    exact { ho with
      reg := ho.reg
      ctx := by simp only [Events.put]; rw [if_neg (by rw [hd]; exact hne)]; exact ho.ctx }
  have me : Open (Events.put w l X' x' m f) l X' k x' :=
    ⟨hi.trans hX.initialized, ht.trans hX.type, he.trans hX.ec, hc.trans hX.cb, h1, hk,
      by rw [hd]; exact hX.reg, by simp [Events.put], hxk.trans hX.kind, hxl.trans hX.listener, hdev, hp⟩
  refine ⟨⟨⟨h.good, ?_, ?_, ?_, h.nodup, ?_, ?_, ?_, h.regs, ?_⟩, ?_, rfl, rfl, ?_⟩, ?_⟩
  · intro j hj
    by_cases e : j = l
    · subst e; exact h.below j (by simp [hl])
    · exact h.below j (by simpa [Events.put, e] using hj)
  · intro c hc'
    by_cases e : c = X'.data
    · subst e; exact h.cbelow _ (by rw [hd, hX.ctx]; simp)
    · exact h.cbelow c (by simpa [Events.put, e] using hc')
  · intro j
    by_cases e : j = l
    · subst e; simp [Events.put, hin]
    · simp only [Events.put, if_neg e]; exact h.all j
  · intro j Y hY
    by_cases e : j = l
    · subst e
      simp only [Events.put, if_true] at hY
      injection hY with hY; subst hY
      exact .live k x' me
    · simp only [Events.put, if_neg e] at hY
      cases h.shape j Y hY with
      | raw hr => exact .raw hr
      | over k' ho => exact .over k' ho
      | live k' y ho => exact .live k' y (other j Y k' y e ho)
  · intro c y hy
    by_cases e : c = X'.data
    · subst e
      simp only [Events.put, if_true] at hy
      injection hy with hy; subst hy
      refine ⟨X', ?_, rfl, he.trans hX.ec, ?_⟩
      · rw [hxl, hX.listener]; simp [Events.put]
      · rw [ht, hX.type, hxk, hX.kind]
    · simp only [Events.put, if_neg e] at hy
      obtain ⟨Y, hY, hYd, hYe, hYt⟩ := h.ctx c y hy
      by_cases e' : y.listener = l
      · rw [e', hl] at hY; injection hY with hY; subst hY
        exact absurd hYd.symm (by rw [← hd]; exact e)
      · exact ⟨Y, by simp [Events.put, e', hY], hYd, hYe, hYt⟩
  · intro k' c hc'
    obtain ⟨y, hy, hyk⟩ := h.reg k' c hc'
    by_cases e : c = X'.data
    · subst e
      refine ⟨x', by simp [Events.put], ?_⟩
      rw [hd, hX.ctx] at hy; injection hy with hy; subst hy
      exact hxk.trans hyk
    · exact ⟨y, by simp [Events.put, e, hy], hyk⟩
  · have := held_put w (Events.put w l X' x' m f) l X' rfl rfl h.nodup hin X hl
    have hc0 := h.count
    show m = f + _
    omega
  · exact view_far h hX rfl (fun j hj => by simp [Events.put, hj]) (fun c hc' => by simp [Events.put, hd, hc'])
  · intro c hc'
    exact ⟨by simp [Events.put, hd, hc'], fun _ hk' => hk'⟩
  · simp [view, Events.put]

theorem Open.shut {w : W} {l : Nat} {X X' : Lst} {k : Kind} {x : Ctx} {f : Nat} (h : Inv w)
    (hl : w.lsts l = some X) (hX : Open w l X k x) (hd : X'.data = X.data) (ho : Over X' k)
    (hcount : f = w.freed + X.events.length) :
    Near w (shut w l X' k f) l X.data ∧
      view (Events.shut w l X' k f) l = some { kind := some k, ec := X'.ec, backlog := [], waiting := none } := by
  have hin : l ∈ w.all := (h.all l).2 (by simp [hl])
  have hregs : ∀ k' c, c ∈ w.regs k' → c ≠ X.data → c ∈ (Events.shut w l X' k f).regs k' := by
    intro k' c hc hne
    by_cases e : k' = k
    · subst e; simp [Events.shut, hc, hd, hne]
    · simpa [Events.shut, e] using hc
  have hback : ∀ k' c, c ∈ (Events.shut w l X' k f).regs k' → c ∈ w.regs k' ∧ c ≠ X.data := by
    intro k' c hc
    by_cases e : k' = k
    · subst e
      simp only [Events.shut, if_true, List.mem_filter, hd, decide_eq_true_eq, ne_eq] at hc
      exact hc
    · simp only [Events.shut, if_neg e] at hc
      refine ⟨hc, fun e' => ?_⟩
      obtain ⟨y, hy, hyk⟩ := h.reg k' c hc
      rw [e', hX.ctx] at hy
      injection hy with hy; subst hy
      exact e (hyk.symm.trans hX.kind)
  have other : ∀ j Y k' y, j ≠ l → Open w j Y k' y → Open (Events.shut w l X' k f) j Y k' y := by
    intro j Y k' y hj hy
    have hne := h.apart hX hy hj
    exact { hy with
      reg := hregs k' _ hy.reg hne
      ctx := by simp only [Events.shut]; rw [if_neg (by rw [hd]; exact hne)]; exact hy.ctx }
  refine ⟨⟨⟨h.good, ?_, ?_, ?_, h.nodup, ?_, ?_, ?_, ?_, ?_⟩, ?_, rfl, rfl, ?_⟩, ?_⟩
  · intro j hj
    by_cases e : j = l
    · subst e; exact h.below j (by simp [hl])
    · exact h.below j (by simpa [Events.shut, e] using hj)
  · intro c hc'
    by_cases e : c = X'.data
    · subst e; exact h.cbelow _ (by rw [hd, hX.ctx]; simp)
    · exact h.cbelow c (by simpa [Events.shut, e] using hc')
  · intro j
    by_cases e : j = l
    · subst e; simp [Events.shut, hin]
    · simp only [Events.shut, if_neg e]; exact h.all j
  · intro j Y hY
    by_cases e : j = l
    · subst e
      simp only [Events.shut, if_true] at hY
      injection hY with hY; subst hY
      exact .over k ho
    · simp only [Events.shut, if_neg e] at hY
      cases h.shape j Y hY with
      | raw hr => exact .raw hr
      | over k' ho => exact .over k' ho
      | live k' y hy => exact .live k' y (other j Y k' y e hy)
  · intro c y hy
    by_cases e : c = X'.data
    · subst e; simp [Events.shut] at hy
    · simp only [Events.shut, if_neg e] at hy
      obtain ⟨Y, hY, hYd, hYe, hYt⟩ := h.ctx c y hy
      by_cases e' : y.listener = l
      · rw [e', hl] at hY; injection hY with hY; subst hY
        exact absurd hYd.symm (by rw [← hd]; exact e)
      · exact ⟨Y, by simp [Events.shut, e', hY], hYd, hYe, hYt⟩
  · intro k' c hc'
    obtain ⟨hc, hne⟩ := hback k' c hc'
    obtain ⟨y, hy, hyk⟩ := h.reg k' c hc
    exact ⟨y, by simp only [Events.shut]; rw [if_neg (by rw [hd]; exact hne)]; exact hy, hyk⟩
  · intro k'
    by_cases e : k' = k
    · subst e; simp only [Events.shut, if_true]; exact (h.regs k').filter _
    · simp only [Events.shut, if_neg e]; exact h.regs k'
  · have := held_put w (Events.shut w l X' k f) l X' rfl rfl h.nodup hin X hl
    have hc0 := h.count
    rw [ho.events, List.length_nil] at this
    show w.made = f + _
    omega
  · exact view_far h hX rfl (fun j hj => by simp [Events.shut, hj]) (fun c hc' => by simp [Events.shut, hd, hc'])
  · intro c hc'
    exact ⟨by simp [Events.shut, hd, hc'], fun k' hk' => hregs k' c hk' hc'⟩
  · simp [view, Events.shut, ho.fut, ho.events, ho.type]

end Verif.Api.Events
