import Verif.Api.EventsLemmas

/-!
# Listeners for events — the operations on one listener
-/

namespace Verif.Api.Events

open Spec (L S)

theorem same_ctx {ctxs : Nat → Option Ctx} {d : Nat} {x : Ctx} (h : ctxs d = some x) :
    (fun i => if i = d then some x else ctxs i) = ctxs := by
  funext i
  by_cases e : i = d
  · subst e; simp [h]
  · simp [e]

theorem twice_ctx {α : Type} {ctxs : Nat → Option α} {d : Nat} {x y : Option α} :
    (fun i => if i = d then x else if i = d then y else ctxs i) = fun i => if i = d then x else ctxs i := by
  funext i; by_cases e : i = d <;> simp [e]

/-- What the application knows of an open listener. -/
def look (X : Lst) (x : Ctx) : L :=
  { kind := X.type, ec := X.ec, backlog := X.events, waiting := X.fut.map fun f => (f, x.userRef, x.userEvent) }

theorem Open.view {w : W} {l : Nat} {X : Lst} {k : Kind} {x : Ctx} (h : Open w l X k x) (hl : w.lsts l = some X) :
    view w l = some (look X x) := by
  simp [Events.view, hl, h.ctx, look]

/-- The result of an operation on listener `l` with context `d`. -/
structure Deal (w : W) (l d : Nat) (r : W × List Out) (a : L × List Out) : Prop where
  near : Near w r.1 l d
  me : Events.view r.1 l = some a.1
  outs : r.2 = a.2

/-- An event meets a waiting future, or stays in the queue. -/
theorem hand_open {w w' : W} {l f : Nat} {X : Lst} {k : Kind} {x y : Ctx} {v : Val} {vs : List Val} (h : Inv w)
    (hl : w.lsts l = some X) (hX : Open w l X k x) (hv : v.kind = k)
    (hyk : y.kind = x.kind) (hyl : y.listener = x.listener) (hdev : k = .dev → y.userRef = none)
    (hp : k = .conn → y.userRef.isSome → y.userEvent.isSome)
    (hw : w' = put w l { X with fut := some f, events := v :: vs } y (w.made + 1 + vs.length - X.events.length) w.freed)
    (hm : X.events.length ≤ w.made + 1 + vs.length) (hvs : ∀ u ∈ vs, u.kind = k) :
    Deal w l X.data (tryResolve w' l)
      ({ kind := some k, ec := .ok, backlog := vs, waiting := none }, Spec.hand l v (f, y.userRef, y.userEvent)) := by
  subst hw
  obtain ⟨yk, yl, yr, ye⟩ := y
  simp only at hyk hyl hdev hp
  have key : ∀ z : Ctx, z.kind = x.kind → z.listener = x.listener → (k = .dev → z.userRef = none) →
      Near w (put w l { X with fut := none, events := vs } z
        (w.made + 1 + vs.length - X.events.length) (w.freed + 1)) l X.data ∧
      Events.view (put w l { X with fut := none, events := vs } z
        (w.made + 1 + vs.length - X.events.length) (w.freed + 1)) l =
        some { kind := some k, ec := .ok, backlog := vs, waiting := none } := by
    intro z h1 h2 h3
    have := hX.put (X' := { X with fut := none, events := vs }) (x' := z)
      (m := w.made + 1 + vs.length - X.events.length) (f := w.freed + 1) h hl rfl rfl rfl rfl rfl (.inl rfl) hvs h1 h2 h3
      (by simp) (by simp only; omega)
    simpa [hX.type, hX.ec] using this
  have comp : tryResolve (put w l { X with fut := some f, events := v :: vs } ⟨yk, yl, yr, ye⟩
        (w.made + 1 + vs.length - X.events.length) w.freed) l =
      ((put w l { X with fut := none, events := vs }
          ⟨yk, yl, if k = .conn ∧ yr.isSome then none else yr, if k = .conn ∧ yr = none then ye else none⟩
        (w.made + 1 + vs.length - X.events.length) (w.freed + 1)), Spec.hand l v (f, yr, ye)) := by
    cases k with
    | conn =>
      cases v with
      | dev e => simp [Val.kind] at hv
      | conn r e =>
        cases yr with
        | none =>
          simp [tryResolve, put, hX.cb, cbOk, W.setL, Spec.hand]
          funext i; by_cases hi : i = l <;> simp [hi]
        | some p =>
          cases ye with
          | none => simp at hp
          | some q =>
            simp [tryResolve, put, hX.cb, cbOk, W.setL, W.setC, Spec.hand]
            exact ⟨by funext i; by_cases hi : i = l <;> simp [hi], by funext i; by_cases hi : i = X.data <;> simp [hi]⟩
    | dev =>
      cases v with
      | conn r e => simp [Val.kind] at hv
      | dev e =>
        have := hdev rfl
        subst this
        cases ye with
        | none =>
          simp [tryResolve, put, hX.cb, cbOk, W.setL, Spec.hand]
          funext i; by_cases hi : i = l <;> simp [hi]
        | some q =>
          simp [tryResolve, put, hX.cb, cbOk, W.setL, W.setC, Spec.hand]
          exact ⟨by funext i; by_cases hi : i = l <;> simp [hi], by funext i; by_cases hi : i = X.data <;> simp [hi]⟩
  rw [comp]
  have := key ⟨yk, yl, if k = .conn ∧ yr.isSome then none else yr, if k = .conn ∧ yr = none then ye else none⟩ hyk hyl
    (by intro hk; rw [hdev hk]; simp)
  exact ⟨this.1, this.2, rfl⟩

theorem put_wait {w : W} {l : Nat} {X : Lst} {k : Kind} {x : Ctx} (hX : Open w l X k x) (X' : Lst)
    (hd : X'.data = X.data) (m : Nat) : { w.setL l X' with made := m } = put w l X' x m w.freed := by
  simp only [put, W.setL, hd, same_ctx hX.ctx]

theorem addEvent_open {w : W} {l : Nat} {X : Lst} {k : Kind} {x : Ctx} {v : Val} (h : Inv w)
    (hl : w.lsts l = some X) (hX : Open w l X k x) (hv : v.kind = k) :
    Deal w l X.data (addEvent { w with made := w.made + 1 } l v) (Spec.offer l (look X x) v true) := by
  have e1 : addEvent { w with made := w.made + 1 } l v =
      tryResolve (put w l { X with events := X.events ++ [v] } x (w.made + 1) w.freed) l := by
    have := put_wait hX { X with events := X.events ++ [v] } rfl (w.made + 1)
    rw [← this]
    simp [addEvent, hl, hX.initialized, hX.ec, W.setL]
  cases hf : X.fut with
  | none =>
    have e2 : tryResolve (put w l { X with events := X.events ++ [v] } x (w.made + 1) w.freed) l =
        (put w l { X with events := X.events ++ [v] } x (w.made + 1) w.freed, []) := by
      simp [tryResolve, put, hf]
    have := hX.put (X' := { X with events := X.events ++ [v] }) (x' := x) (m := w.made + 1) (f := w.freed) h hl
      rfl rfl rfl rfl rfl (.inl hf)
      (by intro u hu; rcases List.mem_append.1 hu with hu | hu
          · exact hX.kinds u hu
          · rw [List.mem_singleton.1 hu]; exact hv) rfl rfl hX.dev (by simp [hf])
      (by simp only [List.length_append, List.length_singleton]; omega)
    rw [e1, e2]
    refine ⟨this.1, ?_, ?_⟩
    · rw [this.2]; simp [Spec.offer, look, hX.type, hX.ec, hv, hf]
    · simp [Spec.offer, look, hX.type, hX.ec, hv, hf]
  | some f =>
    have he : X.events = [] := by rcases hX.one with h1 | h1
                                  · rw [hf] at h1; cases h1
                                  · exact h1
    have := hand_open (w' := put w l { X with events := X.events ++ [v] } x (w.made + 1) w.freed) (f := f) (vs := [])
      h hl hX hv (y := x) rfl rfl hX.dev (fun hk => hX.place hk (by simp [hf]))
      (by simp [he, hf, put]) (by simp [he]) (by simp)
    rw [e1]
    refine ⟨this.near, ?_, ?_⟩
    · rw [this.me]; simp [Spec.offer, look, hX.type, hX.ec, hv, hf, he]
    · rw [this.outs]; simp [Spec.offer, look, hX.type, hX.ec, hv, hf]

theorem setErrorCode_open {w : W} {l : Nat} {X : Lst} {k : Kind} {x : Ctx} {ec : Ec} (h : Inv w)
    (hl : w.lsts l = some X) (hX : Open w l X k x) (hec : ec ≠ .ok) :
    Deal w l X.data (setErrorCode w l ec) (Spec.close l (look X x) ec) := by
  have comp : setErrorCode w l ec =
      (shut w l { X with ec := ec, events := [], fut := none, cb := none } k (w.freed + X.events.length),
        match X.fut with | some f => [Out.resolve l f ec] | none => []) := by
    simp [setErrorCode, hl, hX.initialized, resolveErrorState, W.setL, hX.cb, cbAborted, hX.ctx, shut]
    exact ⟨by funext i; by_cases hi : i = l <;> simp [hi], by cases X.fut <;> rfl⟩
  have := hX.shut (X' := { X with ec := ec, events := [], fut := none, cb := none })
    (f := w.freed + X.events.length) h hl rfl ⟨hX.initialized, hX.type, hec, rfl, rfl, rfl⟩ rfl
  rw [comp]
  refine ⟨this.1, ?_, ?_⟩
  · rw [this.2]; simp [Spec.close, look, hX.type]
  · cases hf : X.fut <;> simp [Spec.close, look, hf]

theorem offer_open {w : W} {l : Nat} {X : Lst} {k : Kind} {x : Ctx} {v : Val} {mem : Nat → Bool} (h : Inv w)
    (hl : w.lsts l = some X) (hX : Open w l X k x) (hv : v.kind = k) :
    Deal w l X.data (coreCb w X.data v mem) (Spec.offer l (look X x) v (mem l)) := by
  cases hm : mem l with
  | true =>
    have : coreCb w X.data v mem = addEvent { w with made := w.made + 1 } l v := by
      simp [coreCb, hX.ctx, hX.listener, hm]
    rw [this]; exact addEvent_open h hl hX hv
  | false =>
    have : coreCb w X.data v mem = setErrorCode w l .outOfMemory := by
      simp [coreCb, hX.ctx, hX.listener, hm]
    rw [this]
    have := setErrorCode_open (ec := .outOfMemory) h hl hX (by decide)
    simpa [Spec.offer, look, hX.type, hX.ec, hv] using this

theorem listen_open {w : W} {l f : Nat} {X : Lst} {k : Kind} {x : Ctx} {ref ev : Option Nat} (h : Inv w)
    (hl : w.lsts l = some X) (hX : Open w l X k x) (hp : k = .conn → ref.isSome → ev.isSome) :
    Deal w l X.data (listen w k l f ref ev) (Spec.listen l (look X x) k f ref ev) := by
  by_cases hf : X.fut.isSome
  · have e1 : listen w k l f ref ev = (w, [.resolve l f .operationInProgress]) := by
      simp [listen, hl, hX.type, hX.ec, hX.initialized, hf]
    rw [e1]
    refine ⟨⟨h, fun _ _ => rfl, rfl, rfl, fun _ _ => ⟨rfl, fun _ hk => hk⟩⟩, ?_, ?_⟩
    · rw [hX.view hl]; simp [Spec.listen, look, hX.type, hX.ec, hf]
    · simp [Spec.listen, look, hX.type, hX.ec, hf]
  · have hf' : X.fut = none := by cases h' : X.fut <;> simp_all
    have hyr : (x.aim k ref ev).userRef = Spec.refFor k ref := by
      cases k
      · rfl
      · exact hX.dev rfl
    have hye : (x.aim k ref ev).userEvent = ev := by cases k <;> rfl
    have hyk : (x.aim k ref ev).kind = x.kind := by cases k <;> rfl
    have hyl : (x.aim k ref ev).listener = x.listener := by cases k <;> rfl
    have e1 : listen w k l f ref ev =
        tryResolve (put w l { X with fut := some f } (x.aim k ref ev) w.made w.freed) l := by
      simp [listen, hl, hX.type, hX.ec, hX.initialized, hf', W.setL, W.setC, hX.ctx, put]
    have hdev : k = .dev → (x.aim k ref ev).userRef = none := by intro hk; rw [hyr, hk]; rfl
    have hpl : k = .conn → (x.aim k ref ev).userRef.isSome → (x.aim k ref ev).userEvent.isSome := by
      intro hk; rw [hyr, hye, hk]; exact hp hk
    generalize x.aim k ref ev = y at *
    cases he : X.events with
    | nil =>
      have e2 : tryResolve (put w l { X with fut := some f } y w.made w.freed) l =
          (put w l { X with fut := some f } y w.made w.freed, []) := by
        simp [tryResolve, put, he]
      have := hX.put (X' := { X with fut := some f }) (x' := y) (m := w.made) (f := w.freed) h hl
        rfl rfl rfl rfl rfl (.inr he) hX.kinds hyk hyl hdev (fun hk _ => hpl hk) (by simp only; omega)
      rw [e1, e2]
      refine ⟨this.1, ?_, ?_⟩
      · rw [this.2]
        simp [Spec.listen, look, hX.type, hX.ec, hf', he, hyr, hye]
      · simp [Spec.listen, look, hX.type, hX.ec, hf', he]
    | cons v vs =>
      have hk := hX.kinds
      rw [he] at hk
      have hm : X.events.length ≤ w.made + 1 + vs.length := by rw [he]; simp only [List.length_cons]; omega
      have hm' : w.made + 1 + vs.length - X.events.length = w.made := by rw [he]; simp only [List.length_cons]; omega
      have := hand_open (w' := put w l { X with fut := some f } y w.made w.freed) (f := f) (v := v) (vs := vs)
        h hl hX (hk v (by simp)) hyk hyl hdev hpl (by rw [hm']; simp [put, he]) hm (fun u hu => hk u (by simp [hu]))
      rw [e1]
      refine ⟨this.near, ?_, ?_⟩
      · rw [this.me]; simp [Spec.listen, look, hX.type, hX.ec, hf', he]
      · rw [this.outs]; simp [Spec.listen, look, hX.type, hX.ec, hf', he, hyr, hye]

end Verif.Api.Events
