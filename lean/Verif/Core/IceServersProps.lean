import Verif.Core.IceServersLemmas

/-! # C158: the ICE servers of an answer -/

namespace Verif.Core.Ice.Props
open Verif.Iam.Record Verif.Iam.Record.Spec Verif.Core.Ice.Spec

/-- **C158**, if the memory suffices and no server has a credential without a username: the application sees the servers of the
answer, all of them and in their order. -/
theorem C158_servers_partial (m : Mem) (l : List Entry) (ss : List Seen) (hp : Plenty m) (h : SaysAll l ss)
    (hc : ∀ s ∈ ss, s.username = none → s.credential = none) :
    (parse m [] true l).1 = .ok ∧ (parse m [] true l).2.1.map seen = ss := by
  obtain ⟨new, m', h1, _, h3⟩ := parse_says hp h [] true []
  rw [List.append_nil, List.nil_append] at h1
  rw [h1]
  refine ⟨rfl, ?_⟩
  show new.map seen = ss
  rw [h3]
  refine (List.map_congr_left fun s hs => ?_).trans (List.map_id _)
  by_cases hu : s.username = none
  · have := hc s hs hu
    cases s
    simp_all
  · simp [hu]

/-- **C158**, if `Urls` is an array wherever it is there: whatever the answer and whenever the memory runs out, the request can be released, and at
most one block of memory is lost; none if the memory suffices. -/
theorem C158_memory_partial (m : Mem) (others : List Nat) (hm : Holds m [] others) (l : List Entry) (ends : Bool)
    (ho : ∀ e ∈ l, e.urls ≠ .other) :
    (parse m [] ends l).1 ≠ .undefined ∧
    ∃ lost, lost.length ≤ 1 ∧ (Plenty m → lost = []) ∧ Holds (deinit (parse m [] ends l).2.2 (parse m [] ends l).2.1) lost others := by
  rcases hr : parse m [] ends l with ⟨x, servers, m'⟩
  have h : H m.ok m (([] : List Slot).flatMap ofSlot ++ []) others := ⟨hm, rfl⟩
  obtain ⟨lost, hl, hu, k⟩ := parse_spec h ho hr
  refine ⟨hu, lost, hl.1, hl.2, ?_⟩
  have := (deinit_mine k).holds
  rwa [List.append_nil] at this

/-- A server with a name and two urls, and one without a name. -/
def two : List Entry :=
  [⟨some "u", some "c", .array [⟨some "turn:a", true⟩, ⟨some "turn:b", true⟩] true⟩, ⟨none, none, .array [⟨some "stun:a", true⟩] true⟩]

example : SaysAll two [⟨some "u", some "c", ["turn:a", "turn:b"]⟩, ⟨none, none, ["stun:a"]⟩] := ⟨⟨rfl, rfl, rfl⟩, ⟨rfl, rfl, rfl⟩, trivial⟩

example : (parse { ok := fun _ => true } [] true two).2.1.map seen = [⟨some "u", some "c", ["turn:a", "turn:b"]⟩, ⟨none, none, ["stun:a"]⟩] := by
  decide +kernel

example : ∀ e ∈ two, e.urls ≠ .other := by decide

/-- Everything is given back, also if the second server cannot be stored. -/
example : (deinit (parse { ok := fun n => n != 9 } [] true two).2.2 (parse { ok := fun n => n != 9 } [] true two).2.1).live = [] := by
  decide +kernel

/-- **C158** is violated by the code: the credential of a server without a username is dropped, though the answer is taken. -/
theorem C158_credential_violated (m : Mem) (hp : Plenty m) (c : String) (urls : List String) :
    (parse m [] true [⟨none, some c, .array (urls.map fun u => ⟨some u, true⟩) true⟩]).1 = .ok ∧
    (parse m [] true [⟨none, some c, .array (urls.map fun u => ⟨some u, true⟩) true⟩]).2.1.map seen = [⟨none, none, urls⟩] := by
  obtain ⟨new, m', h1, _, h3⟩ := parse_says (l := [⟨none, some c, .array (urls.map fun u => ⟨some u, true⟩) true⟩]) (ss := [⟨none, some c, urls⟩]) hp ⟨⟨rfl, rfl, rfl⟩, trivial⟩ [] true []
  rw [List.append_nil, List.nil_append] at h1
  rw [h1]
  exact ⟨rfl, h3⟩

/-- **C158** is violated by the code: after an answer which could not be used the application sees the servers in front of the mistake,
as if they were the answer. -/
theorem C158_rest_violated (m : Mem) (hp : Plenty m) (l : List Entry) (ss : List Seen) (h : SaysAll l ss) (e : Entry) (tail : List Entry)
    (he : e.urls = .missing) :
    (parse m [] true (l ++ e :: tail)).1 = .failed ∧ (parse m [] true (l ++ e :: tail)).2.1.length = l.length := by
  obtain ⟨new, m', h1, _, h3⟩ := parse_says hp h [] true (e :: tail)
  rw [h1, List.nil_append, parse]
  simp only [parseEntry, he]
  refine ⟨trivial, ?_⟩
  have hlen : ∀ (l : List Entry) (ss : List Seen), SaysAll l ss → l.length = ss.length := by
    intro l
    induction l with
    | nil => intro ss h; cases ss with
      | nil => rfl
      | cons => exact h.elim
    | cons e l ih => intro ss h; cases ss with
      | nil => exact h.elim
      | cons s ss => simp [ih ss h.2]
  rw [hlen l ss h]
  simpa using congrArg List.length h3

/-- **C158** is violated by the code: if `Urls` is something else than an array, a vector is released which was never initialised,
whatever memory there is. -/
theorem C158_undefined_violated (m : Mem) (hp : Plenty m) (l : List Entry) (ss : List Seen) (h : SaysAll l ss) (e : Entry) (tail : List Entry)
    (he : e.urls = .other) (ends : Bool) : (parse m [] ends (l ++ e :: tail)).1 = .undefined := by
  obtain ⟨new, m', h1, _, _⟩ := parse_says hp h [] ends (e :: tail)
  rw [h1, parse]
  simp only [parseEntry, he]

/-- **C158** is violated by the code: a url which was copied is lost if the vector cannot take it. -/
theorem C158_leak_violated : ∃ m l, Holds m [] [] ∧ (∀ e ∈ l, e.urls ≠ .other) ∧
    (deinit (parse m [] true l).2.2 (parse m [] true l).2.1).live ≠ [] := by
  refine ⟨{ ok := fun n => n != 1 }, [⟨none, none, .array [⟨some "stun:a", true⟩] true⟩], ⟨List.Perm.refl _, List.nodup_nil, ?_, rfl⟩, by decide,
    by decide +kernel⟩
  intro b hb; cases hb

end Verif.Core.Ice.Props
