import Verif.Core.ConnSpec

/-!
# Client connections (lemmas)
-/

namespace Verif.Core.Conn

open Spec

/-! ### Histories -/

theorem run_append (c : Ctx) (a b : List Op) :
    run c (a ++ b) = (run c a).bind fun p => (run p.1 b).map fun q => (q.1, p.2 ++ q.2) := by
  induction a generalizing c with
  | nil => simp [run]
  | cons op a ih =>
    simp only [List.cons_append, run]
    cases step c op with
    | none => rfl
    | some p =>
      simp only [ih]
      cases run p.1 a with
      | none => rfl
      | some q =>
        simp only [Option.bind_some]
        cases run q.1 b <;> simp

theorem run_snoc {c c' : Ctx} {ops : List Op} {op : Op} {outs : List Out}
    (h : run c (ops ++ [op]) = some (c', outs)) :
    ∃ d os os', run c ops = some (d, os) ∧ step d op = some (c', os') ∧ outs = os ++ os' := by
  rw [run_append] at h
  cases hr : run c ops with
  | none => simp [hr] at h
  | some p =>
    obtain ⟨d, os⟩ := p
    simp only [hr, Option.bind_some, run] at h
    cases hs : step d op with
    | none => simp [hs] at h
    | some q =>
      obtain ⟨e, os'⟩ := q
      simp [hs] at h
      exact ⟨d, os, os', rfl, by rw [hs, h.1], h.2.symm⟩

theorem run_step {c d c' : Ctx} {ops : List Op} {op : Op} {os os' : List Out}
    (h : run c ops = some (d, os)) (hs : step d op = some (c', os')) :
    run c (ops ++ [op]) = some (c', os ++ os') := by
  rw [run_append, h]
  simp [run, hs]

theorem live_append (a b : List Out) : live (a ++ b) = b.foldl note (live a) := by
  simp [live, List.foldl_append]

theorem made_append (a b : List Out) : made (a ++ b) = made a ++ made b := by
  induction a with
  | nil => rfl
  | cons o a ih => cases o <;> simp [made, ih]

/-! ### What is seen of the state -/

/-- The references and headers of the connections. -/
def view (c : Ctx) : List (Nat × Option Bytes) := c.conns.map fun k => (k.ref, k.client.map (·.hdr))

theorem view_update (c : Ctx) (ref : Nat) (f : Client → Client) (hf : ∀ cl, (f cl).hdr = cl.hdr) :
    view (update c ref f) = view c := by
  simp only [view, update, List.map_map]
  apply List.map_congr_left
  intro k _
  simp only [Function.comp]
  split
  · cases k.client <;> simp [hf]
  · rfl

theorem sameId_iff (h h' : Bytes) : sameId h h' = true ↔ id14 h = id14 h' := by
  simp [sameId, id14, List.drop_take]

/-- Two open connections do not have the same id. -/
def Apart (a b : Nat × Option Bytes) : Prop :=
  ∀ h h', a.2 = some h → b.2 = some h' → id14 h ≠ id14 h'

structure Inv (c : Ctx) (outs : List Out) : Prop where
  live : Spec.live outs = view c
  count : c.current = (view c).length
  refs : ((view c).map (·.1)).Nodup
  bound : ∀ k ∈ view c, k.1 ≤ c.lastRef
  hdrs : ∀ k ∈ view c, ∀ h, k.2 = some h → h.length = 16
  apart : (view c).Pairwise Apart
  made : (Spec.made outs).Pairwise (· < ·)
  madeBound : ∀ r ∈ Spec.made outs, r ≤ c.lastRef
  small : c.lastRef < 2 ^ 64

theorem inv_init (m : Bool) : Inv (init m) [] where
  live := rfl
  count := rfl
  refs := by simp [view, init]
  bound := by simp [view, init]
  hdrs := by simp [view, init]
  apart := by simp [view, init]
  made := by simp [Spec.made]
  madeBound := by simp [Spec.made]
  small := by simp [init]

/-- Steps which neither create nor close a connection. -/
def Quiet : Out → Prop
  | .created .. => False
  | .event _ .closed => False
  | _ => True

theorem quiet_live (os : List Out) (h : ∀ o ∈ os, Quiet o) (l : List (Nat × Option Bytes)) :
    os.foldl note l = l := by
  induction os generalizing l with
  | nil => rfl
  | cons o os ih =>
    have ho := h o (List.mem_cons_self ..)
    simp only [List.foldl_cons]
    have : note l o = l := by
      unfold note
      split
      · exact ho.elim
      · exact ho.elim
      · rfl
    rw [this]
    exact ih (fun o' h' => h o' (List.mem_cons_of_mem _ h')) l

theorem quiet_made (os : List Out) (h : ∀ o ∈ os, Quiet o) : made os = [] := by
  induction os with
  | nil => rfl
  | cons o os ih =>
    have ho := h o (List.mem_cons_self ..)
    have := ih (fun o' h' => h o' (List.mem_cons_of_mem _ h'))
    cases o <;> first | exact ho.elim | exact this

theorem inv_quiet {c c' : Ctx} {outs os : List Out} (h : Inv c outs) (hq : ∀ o ∈ os, Quiet o)
    (hv : view c' = view c) (hc : c'.current = c.current) (hl : c'.lastRef = c.lastRef) :
    Inv c' (outs ++ os) where
  live := by rw [live_append, quiet_live os hq, h.live, hv]
  count := by rw [hc, hv, h.count]
  refs := by rw [hv]; exact h.refs
  bound := by rw [hv, hl]; exact h.bound
  hdrs := by rw [hv]; exact h.hdrs
  apart := by rw [hv]; exact h.apart
  made := by rw [made_append, quiet_made os hq, List.append_nil]; exact h.made
  madeBound := by rw [made_append, quiet_made os hq, List.append_nil, hl]; exact h.madeBound
  small := by rw [hl]; exact h.small

/-! ### Freeing -/

theorem view_filter (l : List Conn) (ref : Nat) :
    (l.filter (fun k => k.ref ≠ ref)).map (fun k => (k.ref, k.client.map (·.hdr))) =
      (l.map (fun k => (k.ref, k.client.map (·.hdr)))).filter (fun k => k.1 ≠ ref) := by
  rw [List.filter_map]
  rfl

theorem nodup_filter_length {α : Type} {l : List (Nat × α)} (hn : (l.map (·.1)).Nodup) {ref : Nat}
    (hm : ref ∈ l.map (·.1)) : (l.filter (fun k => k.1 ≠ ref)).length = l.length - 1 := by
  induction l with
  | nil => simp at hm
  | cons k l ih =>
    simp only [List.map_cons, List.nodup_cons] at hn
    by_cases hk : k.1 = ref
    · have : l.filter (fun k => k.1 ≠ ref) = l := by
        rw [List.filter_eq_self]
        intro a ha
        simp only [ne_eq, decide_not, Bool.not_eq_eq_eq_not, Bool.not_true, decide_eq_false_iff_not]
        intro e
        exact hn.1 (hk ▸ e ▸ List.mem_map_of_mem ha)
      simp only [List.filter_cons, hk, ne_eq, not_true, decide_false, if_false, Bool.false_eq_true]
      simp only [ne_eq] at this
      rw [this]; simp
    · have hm' : ref ∈ l.map (·.1) := by
        simp only [List.map_cons, List.mem_cons] at hm
        rcases hm with hm | hm
        · exact absurd hm.symm hk
        · exact hm
      have hpos : 0 < l.length := by
        cases l with
        | nil => simp at hm'
        | cons => simp
      simp only [List.filter_cons, ne_eq, hk, not_false_eq_true, decide_true, if_true, List.length_cons]
      have := ih hn.2 hm'
      simp only [ne_eq] at this
      omega

theorem free_quiet (c : Ctx) (ref : Nat) : ∀ o ∈ (free c ref).2, Quiet o := by
  unfold free
  dsimp only
  intro o ho
  split at ho
  · split at ho <;> simp at ho
    subst ho; trivial
  · simp at ho

theorem free_view (c : Ctx) (ref : Nat) :
    view (free c ref).1 = (view c).filter (fun k => k.1 ≠ ref) ∧
    (free c ref).1.current = c.current - 1 ∧ (free c ref).1.lastRef = c.lastRef ∧
    (free c ref).1.max = c.max ∧ (free c ref).1.clientOnly = c.clientOnly ∧
    (free c ref).1.closing = c.closing := by
  unfold free
  dsimp only
  split
  · exact ⟨view_filter c.conns ref, rfl, rfl, rfl, rfl, rfl⟩
  · exact ⟨view_filter c.conns ref, rfl, rfl, rfl, rfl, rfl⟩

theorem inv_destroy {c : Ctx} {outs : List Out} (h : Inv c outs) {ref : Nat}
    (hm : ref ∈ (view c).map (·.1)) : Inv (destroy c ref).1 (outs ++ (destroy c ref).2) := by
  obtain ⟨hv, hc, hl, -⟩ := free_view c ref
  have hq := free_quiet c ref
  have hd1 : (destroy c ref).1 = (free c ref).1 := rfl
  have hd2 : (destroy c ref).2 = .event ref .closed :: (free c ref).2 := rfl
  rw [hd1, hd2]
  have sub : ((view c).filter (fun k => k.1 ≠ ref)).Sublist (view c) := List.filter_sublist
  exact {
    live := by
      rw [live_append, List.foldl_cons, quiet_live _ hq, h.live, hv]
      rfl
    count := by rw [hc, hv, h.count, nodup_filter_length h.refs hm]
    refs := by rw [hv]; exact (sub.map _).nodup h.refs
    bound := by rw [hv, hl]; exact fun k hk => h.bound k (sub.subset hk)
    hdrs := by rw [hv]; exact fun k hk => h.hdrs k (sub.subset hk)
    apart := by rw [hv]; exact h.apart.sublist sub
    made := by
      rw [made_append]
      have : made (Out.event ref .closed :: (free c ref).2) = [] := by
        simp [made, quiet_made _ hq]
      rw [this, List.append_nil]; exact h.made
    madeBound := by
      rw [made_append]
      have : made (Out.event ref .closed :: (free c ref).2) = [] := by
        simp [made, quiet_made _ hq]
      rw [this, List.append_nil, hl]; exact h.madeBound
    small := by rw [hl]; exact h.small }

/-! ### Allocating -/

theorem alloc_some {c c' : Ctx} {mem : Bool} {cl : Option Client} {ref : Nat}
    (h : alloc c mem cl = (c', some ref)) (hl : c.lastRef + 1 < 2 ^ 64) :
    mem = true ∧ c.current < c.max ∧ ref = c.lastRef + 1 ∧
      c' = { c with lastRef := ref, current := c.current + 1, conns := c.conns ++ [⟨ref, cl⟩] } := by
  unfold alloc at h
  split at h
  · simp at h
  · rename_i h1
    split at h
    · simp at h
    · rename_i h2
      have hm : (c.lastRef + 1) % 2 ^ 64 = c.lastRef + 1 := Nat.mod_eq_of_lt hl
      simp only [nextRef, hm] at h
      rw [if_neg (by omega)] at h
      simp only [Prod.mk.injEq, Option.some.injEq] at h
      refine ⟨by simpa using h2, by omega, h.2.symm, ?_⟩
      rw [← h.1, ← h.2]

theorem alloc_none {c c' : Ctx} {mem : Bool} {cl : Option Client}
    (h : alloc c mem cl = (c', none)) (hl : c.lastRef + 1 < 2 ^ 64) :
    c' = c ∧ (mem = false ∨ c.max ≤ c.current) := by
  unfold alloc at h
  split at h
  · rename_i h1; simp at h; exact ⟨h.symm, .inr h1⟩
  · split at h
    · rename_i h2; simp at h; exact ⟨h.symm, .inl (by simpa using h2)⟩
    · have hm : (c.lastRef + 1) % 2 ^ 64 = c.lastRef + 1 := Nat.mod_eq_of_lt hl
      simp only [nextRef, hm] at h
      rw [if_neg (by omega)] at h
      simp at h

theorem view_alloc (c : Ctx) (ref n : Nat) (cl : Option Client) :
    view { c with lastRef := ref, current := n, conns := c.conns ++ [⟨ref, cl⟩] } =
      view c ++ [(ref, cl.map (·.hdr))] := by
  simp [view]

theorem inv_alloc {c : Ctx} {outs : List Out} (h : Inv c outs) (hl : c.lastRef + 1 < 2 ^ 64)
    (cl : Option Client) (hh : ∀ k, cl = some k → k.hdr.length = 16)
    (ha : ∀ k, cl = some k → ∀ v ∈ view c, ∀ h, v.2 = some h → id14 h ≠ id14 k.hdr)
    {os : List Out} (hq : ∀ o ∈ os, Quiet o) :
    Inv { c with lastRef := c.lastRef + 1, current := c.current + 1,
                 conns := c.conns ++ [⟨c.lastRef + 1, cl⟩] }
      (outs ++ .created (c.lastRef + 1) (cl.map (·.hdr)) :: os) := by
  have hv := view_alloc c (c.lastRef + 1) (c.current + 1) cl
  exact {
    live := by rw [live_append, List.foldl_cons, quiet_live _ hq, h.live, hv]; rfl
    count := by rw [hv]; simp [h.count]
    refs := by
      rw [hv, List.map_append, List.nodup_append]
      refine ⟨h.refs, by simp, ?_⟩
      intro a ha' b hb
      obtain ⟨k, hk, rfl⟩ := List.mem_map.mp ha'
      simp at hb
      have := h.bound k hk
      omega
    bound := by
      rw [hv]
      intro k hk
      simp at hk
      rcases hk with hk | hk
      · have := h.bound k hk; show _ ≤ c.lastRef + 1; omega
      · rw [hk]; exact Nat.le_refl _
    hdrs := by
      rw [hv]
      intro k hk hd he
      rcases List.mem_append.mp hk with hk | hk
      · exact h.hdrs k hk hd he
      · simp at hk
        rw [hk] at he
        cases cl with
        | none => simp at he
        | some cl => simp at he; rw [← he]; exact hh cl rfl
    apart := by
      rw [hv, List.pairwise_append]
      refine ⟨h.apart, by simp, ?_⟩
      intro a ha' b hb x y hx hy
      simp at hb
      rw [hb] at hy
      cases cl with
      | none => simp at hy
      | some cl => simp at hy; rw [← hy]; exact ha cl rfl a ha' x hx
    made := by
      rw [made_append, List.pairwise_append]
      simp only [made, quiet_made _ hq]
      refine ⟨h.made, by simp, ?_⟩
      intro a ha' b hb
      simp at hb
      have := h.madeBound a ha'
      omega
    madeBound := by
      rw [made_append]
      simp only [made, quiet_made _ hq]
      intro r hr
      rcases List.mem_append.mp hr with hr | hr
      · have := h.madeBound r hr; show _ ≤ c.lastRef + 1; omega
      · simp at hr; rw [hr]; exact Nat.le_refl _
    small := hl }

/-! ### Finding -/

theorem fromId_some {c : Ctx} {hdr : Bytes} {k : Conn} (h : fromId c hdr = some k) :
    k ∈ c.conns ∧ ∃ cl, k.client = some cl ∧ id14 hdr = id14 cl.hdr := by
  refine ⟨List.mem_of_find?_eq_some h, ?_⟩
  have := List.find?_some h
  split at this
  · rename_i cl hcl
    exact ⟨cl, hcl, (sameId_iff _ _).mp this⟩
  · simp at this

theorem fromId_none {c : Ctx} {hdr : Bytes} (h : fromId c hdr = none) :
    ∀ v ∈ view c, ∀ hd, v.2 = some hd → id14 hd ≠ id14 hdr := by
  intro v hv hd he
  obtain ⟨k, hk, rfl⟩ := List.mem_map.mp hv
  have := List.find?_eq_none.mp h k hk
  simp only [Option.map_eq_some_iff] at he
  obtain ⟨cl, hcl, rfl⟩ := he
  simp only [hcl] at this
  intro e
  exact this ((sameId_iff _ _).mpr e.symm)

theorem pairwise_eq {l : List (Nat × Option Bytes)} (h : l.Pairwise Apart) {a b : Nat × Option Bytes}
    (ha : a ∈ l) (hb : b ∈ l) {x y : Bytes} (hx : a.2 = some x) (hy : b.2 = some y)
    (hxy : id14 x = id14 y) : a = b := by
  induction l with
  | nil => cases ha
  | cons k l ih =>
    obtain ⟨h1, h2⟩ := List.pairwise_cons.mp h
    rcases List.mem_cons.mp ha with ha | ha <;> rcases List.mem_cons.mp hb with hb | hb
    · rw [ha, hb]
    · exact absurd hxy (h1 b hb x y (ha ▸ hx) hy)
    · exact absurd hxy.symm (h1 a ha y x (hb ▸ hy) hx)
    · exact ih h2 ha hb

theorem clientOf_some {c : Ctx} {ref : Nat} {cl : Client} (h : clientOf c ref = some cl) :
    ⟨ref, some cl⟩ ∈ c.conns := by
  unfold clientOf at h
  cases hf : c.conns.find? (fun k => k.ref = ref) with
  | none => simp [hf] at h
  | some k =>
    simp only [hf] at h
    have h1 := List.mem_of_find?_eq_some hf
    have h2 := List.find?_some hf
    obtain ⟨r, cl'⟩ := k
    simp at h2
    subst h2
    simp only at h
    subst h
    exact h1

theorem clientOf_view {c : Ctx} {ref : Nat} {cl : Client} (h : clientOf c ref = some cl) :
    (ref, some cl.hdr) ∈ view c :=
  List.mem_map.mpr ⟨_, clientOf_some h, rfl⟩

theorem conn_unique {c : Ctx} {outs : List Out} (hi : Inv c outs) {k k' : Conn} (hk : k ∈ c.conns)
    (hk' : k' ∈ c.conns) (he : k.ref = k'.ref) : k = k' := by
  have hn : (c.conns.map (·.ref)).Nodup := by
    have := hi.refs
    rwa [view, List.map_map] at this
  clear hi
  generalize c.conns = l at hk hk' hn
  induction l with
  | nil => cases hk
  | cons a l ih =>
    simp only [List.map_cons, List.nodup_cons] at hn
    rcases List.mem_cons.mp hk with h1 | h1 <;> rcases List.mem_cons.mp hk' with h2 | h2
    · rw [h1, h2]
    · exact absurd (h1 ▸ he ▸ List.mem_map_of_mem h2) hn.1
    · exact absurd (h2 ▸ he ▸ List.mem_map_of_mem h1) hn.1
    · exact ih h1 h2 hn.2

theorem clientOf_of_mem {c : Ctx} {outs : List Out} (hi : Inv c outs) {ref : Nat} {cl : Client}
    (h : ⟨ref, some cl⟩ ∈ c.conns) : clientOf c ref = some cl := by
  unfold clientOf
  cases hf : c.conns.find? (fun k => k.ref = ref) with
  | none =>
    have := List.find?_eq_none.mp hf _ h
    simp at this
  | some k =>
    have h1 := List.mem_of_find?_eq_some hf
    have h2 := List.find?_some hf
    simp at h2
    rw [conn_unique hi h1 h (by simpa using h2)]

/-! ### The invariant is kept -/

theorem sendInternalError_eq (c : Ctx) (sock ep : Nat) (p : Bytes) :
    view (sendInternalError c sock ep p).1 = view c ∧
    (sendInternalError c sock ep p).1.current = c.current ∧
    (sendInternalError c sock ep p).1.lastRef = c.lastRef ∧
    (sendInternalError c sock ep p).1.max = c.max ∧
    (∀ o ∈ (sendInternalError c sock ep p).2, o = .udp sock ep (internalError p)) := by
  unfold sendInternalError
  split
  · simp
  · split <;> simp [view]

theorem sendInternalError_cases (c : Ctx) (sock ep : Nat) (p : Bytes) :
    ∃ b os, sendInternalError c sock ep p = ({ c with sendingInternalError := b }, os) ∧
      ∀ o ∈ os, o = .udp sock ep (internalError p) := by
  unfold sendInternalError
  split
  · exact ⟨c.sendingInternalError, [], rfl, by simp⟩
  · split
    · exact ⟨c.sendingInternalError, [], rfl, by simp⟩
    · exact ⟨true, _, rfl, by simp⟩

theorem newClient_hdr (sock ep : Nat) (p : Bytes) (h : 16 ≤ p.length) :
    (newClient sock ep p h).hdr = p.take 16 := rfl

theorem id14_take (p : Bytes) : id14 (p.take 16) = id14 p := by
  simp [id14, List.take_take]

theorem inv_same {c c' : Ctx} {outs os : List Out} (h : Inv c outs)
    (hn : os.foldl note (view c) = view c) (hm : made os = [])
    (hv : view c' = view c) (hc : c'.current = c.current) (hl : c.lastRef ≤ c'.lastRef)
    (hs : c'.lastRef < 2 ^ 64) : Inv c' (outs ++ os) where
  live := by rw [live_append, h.live, hn, hv]
  count := by rw [hc, hv, h.count]
  refs := by rw [hv]; exact h.refs
  bound := by rw [hv]; exact fun k hk => Nat.le_trans (h.bound k hk) hl
  hdrs := by rw [hv]; exact h.hdrs
  apart := by rw [hv]; exact h.apart
  made := by rw [made_append, hm, List.append_nil]; exact h.made
  madeBound := by
    rw [made_append, hm, List.append_nil]; exact fun r hr => Nat.le_trans (h.madeBound r hr) hl
  small := hs

theorem filter_fresh {l : List (Nat × Option Bytes)} {ref : Nat} (h : ∀ k ∈ l, k.1 < ref) :
    l.filter (fun k => k.1 ≠ ref) = l := by
  rw [List.filter_eq_self]
  intro k hk
  have := h k hk
  simp; omega

/-- What `destroy` does to an invariant with a connection which the environment does not know yet. -/
theorem inv_undo {c : Ctx} {outs : List Out} (h : Inv c outs) (hl : c.lastRef + 1 < 2 ^ 64)
    (cl : Option Client) (os : List Out) (hq : ∀ o ∈ os, Quiet o) (b : Bool) :
    let d : Ctx := { c with lastRef := c.lastRef + 1, current := c.current + 1,
                            conns := c.conns ++ [⟨c.lastRef + 1, cl⟩], sendingInternalError := b }
    Inv (destroy d (c.lastRef + 1)).1 (outs ++ (os ++ (destroy d (c.lastRef + 1)).2)) := by
  intro d
  obtain ⟨hv, hc, hl', -⟩ := free_view d (c.lastRef + 1)
  have hf := filter_fresh (l := view c) (ref := c.lastRef + 1)
    (fun k hk => Nat.lt_succ_of_le (h.bound k hk))
  have hqf := free_quiet d (c.lastRef + 1)
  have hd1 : (destroy d (c.lastRef + 1)).1 = (free d (c.lastRef + 1)).1 := rfl
  have hd2 : (destroy d (c.lastRef + 1)).2 =
    .event (c.lastRef + 1) .closed :: (free d (c.lastRef + 1)).2 := rfl
  rw [hd1, hd2]
  refine inv_same h ?_ ?_ ?_ ?_ ?_ ?_
  · rw [List.foldl_append, quiet_live os hq, List.foldl_cons, quiet_live _ hqf]
    exact hf
  · rw [made_append, quiet_made os hq]
    simp [made, quiet_made _ hqf]
  · rw [hv]
    have : view d = view c ++ [(c.lastRef + 1, cl.map (·.hdr))] := by simp [d, view]
    rw [this, List.filter_append, hf]
    simp
  · rw [hc]; simp [d]
  · rw [hl']; simp [d]
  · rw [hl']; exact hl

theorem inv_closeLoop {sync : Nat → Bool} (ks : List Conn) {c : Ctx} {outs : List Out} (h : Inv c outs)
    (hk : ∀ k ∈ ks, k.ref ∈ (view c).map (·.1)) (hn : (ks.map (·.ref)).Nodup) :
    Inv (closeLoop sync ks c).1 (outs ++ (closeLoop sync ks c).2) := by
  induction ks generalizing c outs with
  | nil => simpa [closeLoop] using h
  | cons k ks ih =>
    simp only [List.map_cons, List.nodup_cons] at hn
    simp only [closeLoop]
    split
    · have h1 : Inv c (outs ++ [.dtlsClose k.ref]) :=
        inv_quiet h (by intro o ho; simp at ho; subst ho; trivial) rfl rfl rfl
      split
      · have h2 := inv_destroy h1 (hk k (List.mem_cons_self ..))
        have h3 := ih h2 (fun k' hk' => by
          have := hk k' (List.mem_cons_of_mem _ hk')
          have hv : view (destroy c k.ref).1 = (view c).filter (fun v => v.1 ≠ k.ref) :=
            (free_view c k.ref).1
          rw [hv]
          obtain ⟨v, hv1, hv2⟩ := List.mem_map.mp this
          refine List.mem_map.mpr ⟨v, List.mem_filter.mpr ⟨hv1, ?_⟩, hv2⟩
          simp only [hv2, ne_eq, decide_not, Bool.not_eq_eq_eq_not, Bool.not_true,
            decide_eq_false_iff_not]
          intro e
          exact hn.1 (e ▸ List.mem_map_of_mem hk')) hn.2
        simpa [List.append_assoc] using h3
      · have h3 := ih h1 (fun k' hk' => hk k' (List.mem_cons_of_mem _ hk')) hn.2
        simpa [List.append_assoc] using h3
    · exact ih h (fun k' hk' => hk k' (List.mem_cons_of_mem _ hk')) hn.2

theorem inv_openNew {c : Ctx} {outs : List Out} {sock ep : Nat} {packet : Bytes} (h : Inv c outs)
    (hl : c.lastRef + 1 < 2 ^ 64) (cl : Client) (hh : cl.hdr.length = 16)
    (ha : ∀ v ∈ view c, ∀ hd, v.2 = some hd → id14 hd ≠ id14 cl.hdr) (mem initOk : Bool) :
    Inv (openNew c sock ep packet cl mem initOk).1
      (outs ++ (openNew c sock ep packet cl mem initOk).2) := by
  unfold openNew
  split
  · rename_i hc
    rw [(alloc_none hc hl).1]
    obtain ⟨h1, h2, h3, -, h5⟩ := sendInternalError_eq c sock ep packet
    refine inv_quiet h ?_ h1 h2 h3
    intro o ho; rw [h5 o ho]; trivial
  · rename_i hc
    obtain ⟨-, -, rfl, rfl⟩ := alloc_some hc hl
    split
    · refine inv_alloc h hl _ ?_ ?_ ?_
      · intro k hk; cases hk; exact hh
      · intro k hk; cases hk; exact ha
      · intro o ho
        unfold start at ho
        split at ho <;> simp at ho <;> subst ho <;> trivial
    · obtain ⟨b, os, he, ho⟩ := sendInternalError_cases
        { c with lastRef := c.lastRef + 1, current := c.current + 1,
                 conns := c.conns ++ [⟨c.lastRef + 1, some cl⟩] } sock ep packet
      rw [he]
      exact inv_undo h hl (some cl) os (fun o h' => by rw [ho o h']; trivial) b

theorem inv_step {c c' : Ctx} {outs os : List Out} (h : Inv c outs) (hl : c.lastRef + 1 < 2 ^ 64)
    {op : Op} (hs : step c op = some (c', os)) : Inv c' (outs ++ os) := by
  have hmem : ∀ {ref cl}, clientOf c ref = some cl → ref ∈ (view c).map (·.1) :=
    fun hc => List.mem_map.mpr ⟨_, clientOf_view hc, rfl⟩
  have hnil : Inv c (outs ++ []) := by simpa using h
  cases op with
  | packet sock ep data mem initOk =>
    simp only [step, Option.some.injEq] at hs
    unfold handlePacket at hs
    split at hs
    · cases hs; exact hnil
    · split at hs
      · cases hs
        refine inv_quiet h ?_ (view_update _ _ _ ?_) rfl rfl
        · intro o ho; simp at ho; subst ho; trivial
        · intro cl; split <;> rfl
      · cases hs; exact hnil
      · rename_i hf
        split at hs
        · have := inv_openNew (outs := outs) (sock := sock) (ep := ep) (packet := data) h hl
            (newClient sock ep data (by omega)) (by simp [newClient_hdr]; omega)
            (by rw [newClient_hdr, id14_take]; exact fromId_none hf) mem initOk
          rwa [hs] at this
        · cases hs; exact hnil
  | data ref channel seq data =>
    simp only [step] at hs
    split at hs
    · unfold handleData at hs
      split at hs
      · cases hs
      · split at hs
        · split at hs
          · cases hs
            refine inv_quiet h ?_ (view_update _ _ _ fun _ => rfl) rfl rfl
            intro o ho; simp at ho; rcases ho with rfl | rfl <;> trivial
          · cases hs
            refine inv_quiet h ?_ (view_update _ _ _ fun _ => rfl) rfl rfl
            intro o ho; simp at ho; subst ho; trivial
        · cases hs
          refine inv_quiet h ?_ rfl rfl rfl
          intro o ho; simp at ho; subst ho; trivial
    · cases hs; exact hnil
  | handshakeDone ref =>
    simp only [step] at hs
    split at hs
    · cases hs
      refine inv_quiet h ?_ rfl rfl rfl
      intro o ho; simp at ho; subst ho; trivial
    · cases hs; exact hnil
  | dtlsClosed ref =>
    simp only [step] at hs
    split at hs
    · rename_i hc
      cases hs
      exact inv_destroy h (hmem hc)
    · cases hs; exact hnil
  | dtlsSend ref channel data =>
    simp only [step] at hs
    split at hs
    · unfold sendToUdp at hs
      have hv := view_update c ref (fun cl => { cl with sending := true }) fun _ => rfl
      split at hs
      · cases hs
        refine inv_quiet h ?_ rfl rfl rfl
        intro o ho; simp at ho; subst ho; trivial
      · dsimp only at hs
        split at hs
        · cases hs
          refine inv_quiet h ?_ hv rfl rfl
          intro o ho; simp at ho; subst ho; trivial
        · split at hs
          · cases hs
            refine inv_quiet h ?_ hv rfl rfl
            intro o ho; simp at ho; subst ho; trivial
          · cases hs
            exact inv_quiet h (by simp) hv rfl rfl
    · cases hs; exact hnil
  | udpSent ref =>
    simp only [step] at hs
    split at hs
    · unfold sentToUdp at hs
      split at hs
      · cases hs
        refine inv_quiet h ?_ (view_update c ref _ fun _ => rfl) rfl rfl
        intro o ho; simp at ho; subst ho; trivial
      · cases hs; exact hnil
    · cases hs; exact hnil
  | internalErrorSent =>
    cases hs
    exact inv_quiet h (by simp) rfl rfl rfl
  | newVirtual mem =>
    simp only [step] at hs
    split at hs
    · rename_i hc
      obtain ⟨rfl, -⟩ := alloc_none hc hl
      cases hs; exact hnil
    · rename_i hc
      obtain ⟨-, -, rfl, rfl⟩ := alloc_some hc hl
      cases hs
      refine inv_alloc h hl none nofun nofun ?_
      intro o ho; simp at ho; subst ho; trivial
  | freeVirtual ref =>
    simp only [step] at hs
    split at hs
    · rename_i hc
      cases hs
      apply inv_destroy h
      obtain ⟨k, hk, he⟩ := List.any_eq_true.mp hc
      simp at he
      exact List.mem_map.mpr ⟨_, List.mem_map.mpr ⟨k, hk, rfl⟩, he.1⟩
    · cases hs; exact hnil
  | setMax n =>
    cases hs
    exact inv_quiet h (by simp) rfl rfl rfl
  | close cb sync =>
    simp only [step, Option.some.injEq] at hs
    unfold asyncClose at hs
    have h0 : Inv { c with closing := true } outs := by
      have := inv_quiet (c' := { c with closing := true }) (os := []) h (by simp) rfl rfl rfl
      simpa using this
    have h1 := inv_closeLoop (sync := sync) c.conns h0
      (fun k hk => List.mem_map.mpr ⟨_, List.mem_map.mpr ⟨k, hk, rfl⟩, rfl⟩)
      (by have := h.refs; rwa [view, List.map_map] at this)
    dsimp only at hs
    split at hs
    · cases hs
      have := inv_quiet (os := [])
        (c' := { (closeLoop sync c.conns { c with closing := true }).1 with closeCb := cb })
        h1 (by simp) rfl rfl rfl
      simpa using this
    · cases hs
      have := inv_quiet (os := [.closeNothing])
        (c' := (closeLoop sync c.conns { c with closing := true }).1)
        h1 (by intro o ho; simp at ho; subst ho; trivial) rfl rfl rfl
      simpa [List.append_assoc] using this

end Verif.Core.Conn
