import Verif.Core.LocalIpSpec
import Verif.Core.PayloadsProps

/-!
# C131: a device offers the addresses at which it can be reached on the local network

Violated: the address is that of the interface which leads to a certain host in the internet.
-/

namespace Verif.Core.LocalIp
open Verif.Net.Addr (Ip Family Endpoint)

/-- The address found for a family, if any. -/
def foundFor (sys : Sys) (f : Family) (d : Ip) : List Ip :=
  if sys.socketOk f && sys.connectOk f && sys.nameOk f then (sys.route d).toList.filter fun a => !Ip.isAny a else []

theorem found_length (sys : Sys) (f : Family) (d : Ip) : (foundFor sys f d).length ≤ 1 := by
  unfold foundFor
  split
  · refine Nat.le_trans (List.length_filter_le _ _) ?_
    cases sys.route d <;> simp
  · simp

theorem probe_eq (sys : Sys) (f : Family) (d : Ip) (s : St) (h : s.found.length < s.room) :
    probe sys f d s = some { s with found := s.found ++ foundFor sys f d } := by
  unfold probe foundFor
  cases sys.socketOk f <;> simp
  cases sys.route d with
  | none => simp
  | some a =>
    cases sys.connectOk f <;> cases sys.nameOk f <;> simp
    cases ha : Ip.isAny a <;> simp [St.put, h, ha]

theorem getLocalIps_eq (sys : Sys) (size : Nat) : ∃ s, getLocalIps sys size = some s ∧ s.opened = 0 ∧
    s.found = (foundFor sys .v4 probe4 ++ foundFor sys .v6 probe6).take size := by
  unfold getLocalIps
  by_cases hz : size < 1
  · rw [if_pos hz]
    exact ⟨_, rfl, rfl, by simp [show size = 0 by omega]⟩
  · rw [if_neg hz, probe_eq _ _ _ _ (by simp; omega)]
    have h1 := found_length sys .v4 probe4
    have h2 := found_length sys .v6 probe6
    simp only [Option.bind_some, List.nil_append]
    by_cases hf : size < (foundFor sys .v4 probe4).length + 1
    · rw [if_pos hf]
      refine ⟨_, rfl, rfl, ?_⟩
      rw [List.take_append_of_le_length (by omega), List.take_of_length_le (by omega)]
    · rw [if_neg hf, probe_eq _ _ _ _ (by simp; omega)]
      refine ⟨_, rfl, rfl, ?_⟩
      rw [List.take_of_length_le (by simp; omega)]

theorem localIps_eq (impl : Bool) (sys : Sys) (size : Nat) : ∃ s, localIps impl sys size = some s ∧ s.opened = 0 ∧
    s.found = if impl then (foundFor sys .v4 probe4 ++ foundFor sys .v6 probe6).take size else [] := by
  cases impl with
  | false => exact ⟨_, rfl, rfl, rfl⟩
  | true => simpa [localIps] using getLocalIps_eq sys size

theorem route_own {sys : Sys} (h : Spec.Works sys) {d a : Ip} (hr : sys.route d = some a) :
    a ∈ sys.addrs ∧ a.family = d.family := by
  unfold Sys.route at hr
  cases hf : sys.routes.find? fun r => r.covers d with
  | none => rw [hf] at hr; cases hr
  | some r =>
    rw [hf] at hr
    cases hr
    have hm := List.mem_of_find?_eq_some hf
    have hc := List.find?_some hf
    exact ⟨h.own r hm, (h.family r hm d hc).symm⟩

theorem found_own {sys : Sys} (h : Spec.Works sys) {f : Family} {d a : Ip} (ha : a ∈ foundFor sys f d) :
    a ∈ sys.addrs ∧ a.family = d.family := by
  unfold foundFor at ha
  split at ha
  · rw [List.mem_filter] at ha
    cases hr : sys.route d with
    | none => rw [hr] at ha; simp at ha
    | some b =>
      rw [hr] at ha
      simp only [Option.toList_some, List.mem_singleton] at ha
      rw [ha.1]
      exact route_own h hr
  · simp at ha

/-- C131. Whatever the system does, the array of the caller is not left, all sockets are closed, and there are at most as many
addresses as fit, at most two. -/
theorem C131_safe (impl : Bool) (sys : Sys) (size : Nat) : ∃ s, localIps impl sys size = some s ∧ s.opened = 0 ∧
    s.found.length ≤ size ∧ s.found.length ≤ 2 := by
  obtain ⟨s, h1, h2, h3⟩ := localIps_eq impl sys size
  refine ⟨s, h1, h2, ?_, ?_⟩
  · rw [h3]; split
    · simp; omega
    · simp
  · have a := found_length sys .v4 probe4
    have b := found_length sys .v6 probe6
    rw [h3]; split
    · simp; omega
    · simp

/-- C131. Only addresses of the device are offered, at most one of each family, IPv4 first. -/
theorem C131_own (impl : Bool) (sys : Sys) (h : Spec.Works sys) (size : Nat) (s : St) (hs : localIps impl sys size = some s) :
    (∀ a ∈ s.found, a ∈ sys.addrs) ∧
    (s.found = [] ∨ (∃ a, s.found = [a]) ∨ ∃ a b, s.found = [a, b] ∧ a.family = .v4 ∧ b.family = .v6) := by
  obtain ⟨s', h1, h2, h3⟩ := localIps_eq impl sys size
  rw [h1] at hs
  cases hs
  have own4 : ∀ a ∈ foundFor sys .v4 probe4, a ∈ sys.addrs ∧ a.family = .v4 := fun a ha => found_own h ha
  have own6 : ∀ a ∈ foundFor sys .v6 probe6, a ∈ sys.addrs ∧ a.family = .v6 := fun a ha => found_own h ha
  cases impl with
  | false => simp [h3]
  | true =>
    simp only [if_true] at h3
    refine ⟨fun a ha => ?_, ?_⟩
    · rw [h3] at ha
      have ha := List.mem_of_mem_take ha
      rw [List.mem_append] at ha
      rcases ha with ha | ha
      · exact (own4 a ha).1
      · exact (own6 a ha).1
    · have l4 := found_length sys .v4 probe4
      have l6 := found_length sys .v6 probe6
      rw [h3]
      generalize foundFor sys .v4 probe4 = x at *
      generalize foundFor sys .v6 probe6 = y at *
      match x, y, l4, l6 with
      | [], [], _, _ => simp
      | [a], [], _, _ => rcases size with _ | n <;> simp
      | [], [b], _, _ => rcases size with _ | n <;> simp
      | [a], [b], _, _ =>
        rcases size with _ | _ | n
        · simp
        · simp
        · refine .inr (.inr ⟨a, b, by simp, (own4 a (by simp)).2, (own6 b (by simp)).2⟩)

/-- C131 (partial): the address with which the device goes into the internet is offered, for both families, over mDNS and to clients
which ask for endpoints. Missing: the other networks, and networks without a way into the internet (see below). -/
theorem C131_internet_partial (sys : Sys) (h : Spec.Works sys) (hn : Spec.NoFailures sys) (d : Ip) (hd : d = probe4 ∨ d = probe6)
    (hr : Spec.Routed sys d) (port : UInt16) (stun : Option Endpoint) :
    ∃ a, sys.route d = some a ∧ (∃ l, mdnsIps true sys = some l ∧ a ∈ l) ∧
      ∃ l, answerEndpoints true sys port stun = some l ∧ { ip := a, port } ∈ l := by
  obtain ⟨a, ha⟩ : ∃ a, sys.route d = some a := by
    obtain ⟨r, hm, hc⟩ := hr
    unfold Sys.route
    cases hf : sys.routes.find? fun r => r.covers d with
    | none => exact absurd hc (by simpa using List.find?_eq_none.mp hf r hm)
    | some r => exact ⟨_, rfl⟩
  have hreal := h.real a (route_own h ha).1
  have hmem : a ∈ foundFor sys .v4 probe4 ++ foundFor sys .v6 probe6 := by
    rw [List.mem_append]
    rcases hd with rfl | rfl
    · left; simp [foundFor, hn .v4, ha, hreal]
    · right; simp [foundFor, hn .v6, ha, hreal]
  obtain ⟨s, h1, h2, h3⟩ := localIps_eq true sys 2
  have l4 := found_length sys .v4 probe4
  have l6 := found_length sys .v6 probe6
  simp only [if_true] at h3
  rw [List.take_of_length_le (by simp; omega)] at h3
  have hfl : s.found.length ≤ 2 := by rw [h3]; simp; omega
  refine ⟨a, ha, ⟨s.found, by simp [mdnsIps, h1], by rw [h3]; exact hmem⟩, ?_⟩
  have hin : { ip := a, port : Endpoint } ∈ s.found.map fun ip => { ip, port : Endpoint } :=
    List.mem_map.mpr ⟨a, by rw [h3]; exact hmem, rfl⟩
  cases stun with
  | none => exact ⟨_, by simp only [answerEndpoints, h1, Option.bind_some, List.length_map]; rw [if_pos (by omega)], hin⟩
  | some e =>
    exact ⟨_, by simp only [answerEndpoints, h1, Option.bind_some, List.length_map]; rw [if_pos (by omega)],
      List.mem_append_left _ hin⟩

/-- C131. The answer to a client which asks for endpoints: the local ones and the one of the analysis, if it succeeded; it is sent
exactly, unless there is no memory for it. -/
theorem C131_answer (alloc : Nat → Bool) (impl : Bool) (sys : Sys) (port : UInt16) (stun : Option Endpoint) :
    ∃ ips, mdnsIps impl sys = some ips ∧
      let l := ips.map (fun ip => { ip, port : Endpoint }) ++ stun.toList
      answer alloc impl sys port stun =
        if alloc (Payloads.Spec.endpoints l).enc.length then .payload (Payloads.Spec.endpoints l).enc else .outOfMemory := by
  obtain ⟨s, h1, h2, h3, h4⟩ := C131_safe impl sys 2
  refine ⟨s.found, by simp [mdnsIps, h1], ?_⟩
  have he : answerEndpoints impl sys port stun = some (s.found.map (fun ip => { ip, port : Endpoint }) ++ stun.toList) := by
    cases stun with
    | none => simp [answerEndpoints, h1]; omega
    | some e => simp [answerEndpoints, h1]; omega
  simp only [answer, he]
  exact Payloads.C130_endpoints alloc _

/-- C131, violated. A device on a network without a way into the internet offers no address, whatever networks it is connected to: the
announcement over mDNS has no address, and the answer to a client is empty. -/
theorem C131_no_internet_violated (sys : Sys) (h4 : ¬ Spec.Routed sys probe4) (h6 : ¬ Spec.Routed sys probe6) (port : UInt16) :
    mdnsIps true sys = some [] ∧ answerEndpoints true sys port none = some [] := by
  have none_of : ∀ d, ¬ Spec.Routed sys d → sys.route d = none := by
    intro d hd
    unfold Sys.route
    rw [Option.map_eq_none_iff, List.find?_eq_none]
    intro r hr hc
    exact hd ⟨r, hr, hc⟩
  obtain ⟨s, h1, h2, h3⟩ := localIps_eq true sys 2
  have : s.found = [] := by
    rw [h3]
    simp [foundFor, none_of _ h4, none_of _ h6]
  simp [mdnsIps, answerEndpoints, h1, this]

/-- A home network `192.168.1.0/24` without a router, and one host on it. -/
def lan : Sys :=
  { addrs := [.v4 192 168 1 5]
    routes := [{ covers := fun d => match d with | .v4 a b c _ => a = 192 && b = 168 && c = 1 | _ => false, source := .v4 192 168 1 5 }] }

example : ¬ Spec.Routed lan probe4 ∧ ¬ Spec.Routed lan probe6 ∧ Spec.OnNetwork lan (.v4 192 168 1 5) (.v4 192 168 1 9) := by
  refine ⟨?_, ?_, by decide, by decide⟩ <;> rintro ⟨r, hr, hc⟩ <;> simp [lan] at hr <;> subst hr <;> exact nomatch hc

/-- C131, violated. Of two IPv4 networks at most one is served: never are two IPv4 addresses offered. -/
theorem C131_two_networks_violated (impl : Bool) (sys : Sys) (h : Spec.Works sys) (a b : Ip) (ha : a.family = .v4) (hb : b.family = .v4)
    (hab : a ≠ b) (l : List Ip) (hl : mdnsIps impl sys = some l) : a ∉ l ∨ b ∉ l := by
  obtain ⟨s, hs, _⟩ := C131_safe impl sys 2
  have : s.found = l := by simpa [mdnsIps, hs] using hl
  subst this
  obtain ⟨-, h0 | ⟨x, h1⟩ | ⟨x, y, h2, hx, hy⟩⟩ := C131_own impl sys h 2 s hs
  · left; simp [h0]
  · rw [h1]
    by_cases hx : a = x
    · right; simp; rintro rfl; exact hab hx
    · left; simpa using hx
  · rw [h2]
    by_cases hx' : a = x
    · right
      simp only [List.mem_cons, List.not_mem_nil, or_false, not_or]
      exact ⟨fun h => hab (hx'.trans h.symm), fun h => by rw [← h, hb] at hy; cases hy⟩
    · left
      simp only [List.mem_cons, List.not_mem_nil, or_false, not_or]
      exact ⟨hx', fun h => by rw [← h, ha] at hy; cases hy⟩

/-- A gateway with an uplink and a home network. -/
def gateway : Sys :=
  { addrs := [.v4 10 0 0 7, .v4 192 168 1 1]
    routes := [{ covers := fun d => match d with | .v4 a b c _ => a = 192 && b = 168 && c = 1 | _ => false, source := .v4 192 168 1 1 },
      { covers := fun d => match d with | .v4 .. => true | _ => false, source := .v4 10 0 0 7 }] }

example : Spec.Works gateway ∧ Spec.NoFailures gateway ∧ Spec.Routed gateway probe4 ∧
    Spec.OnNetwork gateway (.v4 192 168 1 1) (.v4 192 168 1 9) ∧ mdnsIps true gateway = some [.v4 10 0 0 7] := by
  refine ⟨⟨?_, ?_, ?_⟩, fun f => ⟨rfl, rfl, rfl⟩, ⟨_, .tail _ (.head _), rfl⟩, ⟨by decide, by decide⟩, by decide⟩
  · intro r hr; simp [gateway] at hr ⊢; rcases hr with rfl | rfl <;> simp
  · intro r hr d hd
    simp [gateway] at hr
    rcases hr with rfl | rfl <;> cases d <;> simp_all [Ip.family]
  · decide

end Verif.Core.LocalIp
