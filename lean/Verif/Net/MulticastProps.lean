import Verif.Net.MulticastLemmas

/-! # C154: queries are heard on the networks of the device -/

namespace Verif.Net.Multicast.Props
open Verif.Net.Multicast

/-- **C154**, for networks the device is on when the socket is bound: a query on such a network is heard as long as the network is
there, if the interface can do multicast and the system lets a socket join that many groups; an interface which refuses, has
no address or no number does not keep the socket from joining on the others. -/
theorem C154_heard_partial {k : Sys} {m : List Nat} (h : bindMdns k = some m) {i : Nat} (ho : Spec.On k i) (hr : Spec.Room k)
    (ha : k.able i = true) (es : List Event) (hs : Spec.Stays i es) : hears (run m es) i = true := by
  obtain ⟨h0, l, hl, e, he, h1, rfl⟩ := ho
  unfold bindMdns at h
  split at h
  · cases h
  · rename_i m0 hm
    rw [hl] at h
    cases h
    have hlen := (initSocket_some hm).1
    have hroom := hr l hl
    have := update_all (k := k) (l := l) (m := m0) (by omega) e he h1 h0 ha
    exact decide_eq_true (run_mem.2 ⟨this, hs⟩)

/-- **C154**: the socket joins on each interface once, and on no others than those the device has an address on and the one of
the default route. -/
theorem C154_only {k : Sys} {m : List Nat} (h : bindMdns k = some m) :
    m.Nodup ∧ ∀ i ∈ m, k.default = some i ∨ Spec.On k i := by
  unfold bindMdns at h
  split at h
  · cases h
  · rename_i m0 hm
    obtain ⟨_, hn, hd⟩ := initSocket_some hm
    split at h
    · cases h
      exact ⟨hn, fun i hi => .inl (hd i hi)⟩
    · rename_i l hl
      cases h
      refine ⟨update_nodup hn, fun i hi => ?_⟩
      rcases update_only hi with hi | ⟨e, he, h1, h2, rfl⟩
      · exact .inl (hd i hi)
      · exact .inr ⟨h2, l, hl, e, he, h1, rfl⟩

/-- A device with two addresses on one network, one on another, and an interface without multicast. -/
def home : Sys :=
  { default := some 2
    entries := some [⟨"lo", true⟩, ⟨"tun0", false⟩, ⟨"eth0", true⟩, ⟨"eth0", true⟩, ⟨"wlan0", true⟩]
    index := fun n => if n = "lo" then 1 else if n = "eth0" then 2 else if n = "wlan0" then 3 else 0
    able := fun i => i != 1 }

example : bindMdns home = some [2, 3] := by decide

example : Spec.On home 3 ∧ Spec.Room home ∧ home.able 3 = true ∧ Spec.Stays 3 [.up 4, .gone 2] := by
  refine ⟨⟨by decide, _, rfl, ⟨"wlan0", true⟩, by simp, rfl, by decide⟩, ?_, rfl, by simp [Spec.Stays]⟩
  intro l hl
  cases hl
  decide

/-- **C154** is violated by the code: a network which comes up after the socket was bound is never heard, whatever happens, since
nothing joins there. -/
theorem C154_late_violated {k : Sys} {m : List Nat} (h : bindMdns k = some m) {i : Nat} (ho : ¬ Spec.On k i)
    (hd : k.default ≠ some i) (es : List Event) : hears (run m (.up i :: es)) i = false := by
  refine decide_eq_false fun hm => ?_
  rcases (C154_only h).2 i (run_mem.1 hm).1 with hm | hm
  · exact hd hm
  · exact ho hm

/-- **C154** is violated by the code: a network which went away is not heard when it is back. -/
theorem C154_back_violated (m : List Nat) (i : Nat) (pre es : List Event) :
    hears (run m (pre ++ .gone i :: .up i :: es)) i = false :=
  decide_eq_false fun hm => (run_mem.1 hm).2 (by simp)

example : hears (run [2, 3] [.gone 3, .up 3]) 2 = true ∧ hears (run [2, 3] [.gone 3, .up 3]) 3 = false := by decide

example : ¬ Spec.On home 4 ∧ home.default ≠ some 4 := by
  refine ⟨?_, by decide⟩
  rintro ⟨_, l, hl, e, he, _, hi⟩
  cases hl
  simp at he
  rcases he with rfl | rfl | rfl | rfl <;> revert hi <;> decide

/-- **C154** is violated by the code if the interfaces cannot be listed: only the default network is heard. -/
theorem C154_list_violated {k : Sys} {m : List Nat} (h : bindMdns k = some m) (hl : k.entries = none) {i : Nat}
    (hd : k.default ≠ some i) (es : List Event) : hears (run m es) i = false := by
  refine decide_eq_false fun hm => ?_
  rcases (C154_only h).2 i (run_mem.1 hm).1 with hm | ⟨_, l, hm, _⟩
  · exact hd hm
  · rw [hl] at hm; cases hm

example : bindMdns { home with entries := none } = some [2] := by decide

end Verif.Net.Multicast.Props
