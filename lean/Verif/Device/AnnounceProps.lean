import Verif.Device.AnnounceLemmas

/-!
# C124: a device announces over mDNS what the application asked for

All theorems hold for every `Cfg`: whatever inserting an existing key does and whether the library copies or not.
-/

namespace Verif.Device.Announce

open Spec

/-- **C124, when**: in every history, the service is announced exactly when mDNS was enabled successfully (before the start), the
start has completed, and the device has not closed. -/
theorem C124_when (cfg : Cfg) (ops : List Op) (s : St) (h : run cfg ops = some s) :
    (announced cfg s).isSome = true ↔
      (want cfg ops).enabled = true ∧ (want cfg ops).port.isSome = true ∧ (want cfg ops).closed = false := by
  have hi := Inv.run ops h
  unfold announced
  constructor
  · intro ha
    split at ha
    · rename_i hs
      have hr := hi.running.mp hs
      exact ⟨(hi.published.mp hr.1).1, (hi.published.mp hr.1).2, hr.2⟩
    · cases ha
  · rintro ⟨he, hp, hc⟩
    have hs := hi.running.mpr ⟨hi.published.mpr ⟨he, hp⟩, hc⟩
    obtain ⟨txt, ht⟩ := hi.told hs
    rw [if_pos hs]
    split <;> simp [ht]

/-- **C124, where**: what is announced has the port which was bound, the name `<product>-<device>` of the ids with which the
device was started, and every subtype which was added successfully, with `<product>-<device>` among them. -/
theorem C124_where (cfg : Cfg) (ops : List Op) (s : St) (v : Service) (h : run cfg ops = some s) (hv : announced cfg s = some v) :
    (want cfg ops).port = some v.port ∧ (∃ p d, (want cfg ops).ids = some (p, d) ∧ v.name = p ++ [45] ++ d) ∧
      ∀ t, (want cfg ops).subtypes t = true → t ∈ v.subtypes := by
  have hi := Inv.run ops h
  have hw := (C124_when cfg ops s h).mp (by simp [hv])
  generalize want cfg ops = w at *
  unfold announced at hv
  split at hv
  · rename_i hs
    obtain ⟨txt, ht⟩ := hi.told hs
    have hv' : v.port = s.port ∧ v.name = s.name ∧ v.subtypes = s.subtypes := by
      split at hv
      · rw [ht] at hv; cases hv; exact ⟨rfl, rfl, rfl⟩
      · rw [ht] at hv; cases hv; exact ⟨rfl, rfl, rfl⟩
    obtain ⟨q, hq⟩ := Option.isSome_iff_exists.mp hw.2.1
    have hst : w.started = true := by
      rcases Bool.eq_false_or_eq_true w.started with hc | hc
      · exact hc
      · have := (hi.early (hi.setup.mpr hc)).1
        rw [hq] at this
        cases this
    have hids := hi.started
    rw [hst] at hids
    obtain ⟨⟨p, d⟩, hpd⟩ := Option.isSome_iff_exists.mp hids
    refine ⟨?_, ⟨p, d, hpd, ?_⟩, ?_⟩
    · rw [hq, hv'.1, hi.port q hq]
    · rw [hv'.2.1, hi.name p d hpd]; rfl
    · intro t ht
      rw [hv'.2.2]
      exact hi.sub t ht
  · cases hv

/-- **C124, what**: as long as adding TXT items and starting do not fail, and the application leaves the keys `productid` and
`deviceid` to the device until it is started: exactly the subtypes are announced which were added, and `<product>-<device>`; and
exactly the TXT items, each key with the value which was set last. -/
theorem C124_what_partial (cfg : Cfg) (ops : List Op) (s : St) (v : Service) (h : run cfg ops = some s) (hsu : Succeeds cfg ops)
    (hre : Reserved cfg ops) (hv : announced cfg s = some v) :
    (∀ t, t ∈ v.subtypes ↔ (want cfg ops).subtypes t = true) ∧ ∀ k x, (k, x) ∈ v.txt ↔ (want cfg ops).txt k = some x := by
  have hi := Inv.run ops h
  have he := Exact.run ops hsu hre h
  unfold announced at hv
  split at hv
  · rename_i hs
    have ht := he.told hs
    have hv' : v.subtypes = s.subtypes ∧ v.txt = s.txt := by
      split at hv
      · rw [ht] at hv; cases hv; exact ⟨rfl, rfl⟩
      · rw [ht] at hv; cases hv; exact ⟨rfl, rfl⟩
    rw [hv'.1, hv'.2]
    exact ⟨fun t => ⟨he.sub t, hi.sub t⟩, he.txt⟩
  · cases hv

def p1 : Text := [112, 49]
def p2 : Text := [112, 50]
def d1 : Text := [100, 49]
def all : Bool × Bool × Bool × Bool := (true, true, true, true)

/-- A history which meets the hypotheses: items are added before and after the start, one of them twice. -/
def demo : List Op :=
  [.setProduct p1 true, .setDevice d1 true, .enable, .addSubtype [116] true, .addTxt [97] [1] true, .start true all, .bound 4711 true true,
    .addTxt [97] [2] true, .addTxt [98] [3] true, .addSubtype [117] true]

example (i : Insert) (b : Bool) :
    ((run ⟨true, i, b⟩ demo).bind (announced ⟨true, i, b⟩)) =
      some ⟨4711, [112, 49, 45, 100, 49], [[116], [112, 49, 45, 100, 49], [117]],
        [(productKey, p1), (deviceKey, d1), ([97], [2]), ([98], [3])]⟩ := by
  cases i <;> cases b <;> decide

/-- A contract on all prefixes from the prefixes of a list. -/
def prefixes {α : Type} : List α → List (List α × α)
  | [] => []
  | a :: l => ([], a) :: (prefixes l).map fun r => (a :: r.1, r.2)

theorem prefixes_mem {α : Type} (before after : List α) (a : α) : (before, a) ∈ prefixes (before ++ a :: after) := by
  induction before with
  | nil => simp [prefixes]
  | cons b before ih =>
    simp only [List.cons_append, prefixes, List.mem_cons, List.mem_map]
    exact .inr ⟨(before, a), ih, rfl⟩

theorem demo_succeeds (i : Insert) (b : Bool) : Succeeds ⟨true, i, b⟩ demo := by
  have h : ∀ r ∈ prefixes demo, delicate r.2 = true → returns ⟨true, i, b⟩ r.1 r.2 = some .ok := by
    cases i <;> cases b <;> decide
  intro before op after he
  exact h (before, op) (he ▸ prefixes_mem before after op)

/-- The call does not set one of the two keys. -/
def free : Op → Bool
  | .addTxt k _ _ => k != productKey && k != deviceKey
  | _ => true

theorem demo_reserved (cfg : Cfg) : Reserved cfg demo := by
  have h : ∀ op ∈ demo, free op = true := by decide
  intro before k v m after he hk
  have := h (.addTxt k v m) (by simp [he])
  simp only [free, Bool.and_eq_true, bne_iff_ne, ne_eq] at this
  exact (hk.elim this.1 this.2).elim

theorem keyless (m : List (Text × Text)) (k : Text) (h : (m.all fun p => p.1 != k) = true) (x : Text) : (k, x) ∉ m := by
  intro hm
  simpa using List.all_eq_true.mp h _ hm

/-- **C124, violated**: setting a TXT item anew which fails for lack of memory removes the item: it is no longer announced
with the next change, although the only successful call for the key asked for it. For every choice of the parameters. -/
theorem C124_lost_violated (cfg : Cfg) (hcap : cfg.cap = true) :
    ∃ ops s v, run cfg ops = some s ∧ announced cfg s = some v ∧ (want cfg ops).txt [97] = some [1] ∧ ∀ x, ([97], x) ∉ v.txt := by
  obtain ⟨c, i, b⟩ := cfg
  cases hcap
  refine ⟨[.setProduct p1 true, .setDevice d1 true, .enable, .addTxt [97] [1] true, .start true all, .bound 4711 true true,
    .addTxt [97] [2] false, .addTxt [98] [3] true], ?_⟩
  cases i <;> cases b <;> exact ⟨_, _, rfl, rfl, rfl, fun x hx => keyless _ _ (by decide) x hx⟩

/-- **C124, violated**: a start which fails for lack of memory leaves its subtype behind: after the product id was changed and
the device was started, the device is announced under its old name too. For every choice of the parameters. -/
theorem C124_stale_violated (cfg : Cfg) (hcap : cfg.cap = true) :
    ∃ ops s v, run cfg ops = some s ∧ announced cfg s = some v ∧ (want cfg ops).ids = some (p2, d1) ∧
      (want cfg ops).subtypes (p1 ++ [45] ++ d1) = false ∧ p1 ++ [45] ++ d1 ∈ v.subtypes := by
  obtain ⟨c, i, b⟩ := cfg
  cases hcap
  refine ⟨[.setProduct p1 true, .setDevice d1 true, .enable, .start true (true, true, true, false), .setProduct p2 true, .start true all,
    .bound 4711 true true], ?_⟩
  cases i <;> cases b <;> exact ⟨_, _, rfl, rfl, rfl, rfl, by decide⟩

/-- **C124, violated**: ids which are too long together make the start fail after they were stored; unless inserting an
existing key overwrites its value, the TXT item `productid` of the device is that of the failed start. -/
theorem C124_stale_txt_violated (cfg : Cfg) (hcap : cfg.cap = true) (hi : cfg.insert ≠ .overwrite) :
    ∃ ops s v p, run cfg ops = some s ∧ announced cfg s = some v ∧ (want cfg ops).txt productKey = some p2 ∧
      (productKey, p) ∈ v.txt ∧ p ≠ p2 := by
  obtain ⟨c, i, b⟩ := cfg
  cases hcap
  refine ⟨[.setProduct (List.replicate 62 49) true, .setDevice d1 true, .enable, .start true all, .setProduct p2 true, .start true all,
    .bound 4711 true true], ?_⟩
  cases i with
  | overwrite => exact absurd rfl hi
  | keep => cases b <;> exact ⟨_, _, List.replicate 62 49, rfl, rfl, rfl, by decide, by decide⟩
  | duplicate => cases b <;> exact ⟨_, _, List.replicate 62 49, rfl, rfl, rfl, by decide, by decide⟩

/-- The application may replace the TXT items of the ids: after the start its value counts. -/
example (i : Insert) (b : Bool) :
    ((run ⟨true, i, b⟩ [.setProduct p1 true, .setDevice d1 true, .enable, .start true all, .bound 4711 true true,
      .addTxt productKey [9] true]).bind (announced ⟨true, i, b⟩)).map (·.txt) = some [(deviceKey, d1), (productKey, [9])] := by
  cases i <;> cases b <;> decide

/-- Not enabled, or enabled after the start: nothing is announced. -/
example (i : Insert) (b : Bool) :
    (run ⟨true, i, b⟩ [.setProduct p1 true, .setDevice d1 true, .start true all, .enable, .bound 4711 true true]).bind (announced ⟨true, i, b⟩) = none := by
  cases i <;> cases b <;> decide

end Verif.Device.Announce
