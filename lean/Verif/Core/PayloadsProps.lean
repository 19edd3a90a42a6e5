import Verif.Core.PayloadsLemmas

/-!
# C130: the documents the device sends say what they should
-/

namespace Verif.Core.Payloads
open Verif.Cbor Verif.Iam.Listing
open Verif.Net.Addr (Endpoint)

/-! ## The documents are sent exactly -/

/-- C130. The request to attach says which device and application it is. Without memory nothing is sent; nothing else can go wrong. -/
theorem C130_attach (alloc : Nat → Bool) (a : Attach) :
    build alloc (attachStart a) = if alloc (Spec.attach a).enc.length then .payload (Spec.attach a).enc else .outOfMemory :=
  build_of (writes_attach a) alloc

/-- C130. The upload of server connect tokens has all of them, in their order. -/
theorem C130_scts (alloc : Nat → Bool) (l : List Bytes) :
    build alloc (scts l) = if alloc (Spec.texts l).enc.length then .payload (Spec.texts l).enc else .outOfMemory :=
  build_of (writes_scts l) alloc

/-- C130. A push notification. -/
theorem C130_fcm (alloc : Nat → Bool) (p b : Bytes) :
    build alloc (fcm p b) = if alloc (Spec.fcm p b).enc.length then .payload (Spec.fcm p b).enc else .outOfMemory :=
  build_of (writes_fcm p b) alloc

/-- C130. A service invocation; the message may be any bytes, also none. -/
theorem C130_invoke (alloc : Nat → Bool) (s m : Bytes) :
    build alloc (invoke s m) = if alloc (Spec.invoke s m).enc.length then .payload (Spec.invoke s m).enc else .outOfMemory :=
  build_of (writes_invoke s m) alloc

/-- C130. A request for ICE servers. -/
theorem C130_ice (alloc : Nat → Bool) (i : Bytes) :
    build alloc (ice i) = if alloc (Spec.ice i).enc.length then .payload (Spec.ice i).enc else .outOfMemory :=
  build_of (writes_ice i) alloc

/-- C130. The endpoints of the device, in their order. -/
theorem C130_endpoints (alloc : Nat → Bool) (l : List Endpoint) :
    build alloc (endpoints l) = if alloc (Spec.endpoints l).enc.length then .payload (Spec.endpoints l).enc else .outOfMemory :=
  build_of (writes_endpoints l) alloc

/-- C130. The description of a tunnel service, and the list of services; an error without memory. -/
theorem C130_tunnels (mem : Mem) (s : Service) (ids : List Bytes) :
    getService mem s = (if mem.alloc (Spec.service s).enc.length && mem.setOk then .content (Spec.service s).enc else .error 500) ∧
    listServices mem ids = (if mem.alloc (Spec.texts ids).enc.length && mem.setOk then .content (Spec.texts ids).enc else .error 500) := by
  constructor
  · unfold getService
    rw [twoPass_same (puts_service s)]
    cases mem.alloc _ <;> simp
  · unfold listServices
    rw [twoPass_same (puts_services ids)]
    cases mem.alloc _ <;> simp

/-! ## The other side reads them -/

theorem reads {i : Item} (hp : i.Plain) (hd : i.depth ≤ 1024) : Spec.Reads i.enc i := fun tl =>
  Verif.Cbor.Props.decode_encode i hp hd tl

/-- Two documents with the same reader are the same. -/
theorem reads_inj {b : Bytes} {i j : Item} (hi : Spec.Reads b i) (hj : Spec.Reads b j) : i = j := by
  obtain ⟨v, h1, h2⟩ := hi []
  obtain ⟨w, h3, h4⟩ := hj []
  rw [h1] at h3
  cases h3
  rw [h2] at h4
  cases h4
  rfl

theorem short_key : ∀ k ∈ ["NabtoVersion", "AppName", "AppVersion", "ProductId", "DeviceId", "ProjectId", "Body", "ServiceId", "Message",
    "Identifier", "Ip", "Port", "Id", "Type", "Host", "StreamPort", "Metadata"], (Spec.key k).Plain := by
  simp only [List.mem_cons, List.not_mem_nil, or_false, forall_eq_or_imp, forall_eq, Spec.key, Item.Plain]
  decide

/-- C130. The request to attach is read as it was written. -/
theorem C130_attach_read (a : Attach) (h1 : Spec.Short a.version) (h2 : Spec.Short (Spec.given a.appName))
    (h3 : Spec.Short (Spec.given a.appVersion)) (h4 : Spec.Short a.productId) (h5 : Spec.Short a.deviceId) :
    Spec.Reads (Spec.attach a).enc (Spec.attach a) := by
  refine reads ?_ ?_
  · simp only [Spec.attach, Item.Plain, Item.Plainm, and_true]
    exact ⟨by simp, short_key _ (by simp), h1, short_key _ (by simp), h2, short_key _ (by simp), h3, short_key _ (by simp), h4,
      short_key _ (by simp), h5⟩
  · simp [Spec.attach, Spec.key, Item.depth, Item.depthm]

/-- C130. So are the tokens and the list of services. -/
theorem C130_texts_read (l : List Bytes) (hl : l.length < 2 ^ 31) (h : ∀ t ∈ l, Spec.Short t) :
    Spec.Reads (Spec.texts l).enc (Spec.texts l) := by
  refine reads ?_ ?_
  · simp only [Spec.texts, Item.Plain, List.length_map]
    exact ⟨hl, plains_map fun t ht => h t ht⟩
  · have := depths_zero (f := Item.text) (n := 0) (fun _ => Nat.le_refl _) l
    simp only [Spec.texts, Item.depth]
    omega

/-- C130. So are the requests of the application. -/
theorem C130_requests_read (a b : Bytes) (ha : Spec.Short a) (hb : Spec.Short b) :
    Spec.Reads (Spec.fcm a b).enc (Spec.fcm a b) ∧ Spec.Reads (Spec.invoke a b).enc (Spec.invoke a b) ∧
      Spec.Reads (Spec.ice a).enc (Spec.ice a) := by
  refine ⟨reads ?_ ?_, reads ?_ ?_, reads ?_ ?_⟩
  · simp only [Spec.fcm, Item.Plain, Item.Plainm, and_true]
    exact ⟨by simp, short_key _ (by simp), ha, short_key _ (by simp), hb⟩
  · simp [Spec.fcm, Spec.key, Item.depth, Item.depthm]
  · simp only [Spec.invoke, Item.Plain, Item.Plainm, and_true]
    exact ⟨by simp, short_key _ (by simp), ha, short_key _ (by simp), hb⟩
  · simp [Spec.invoke, Spec.key, Item.depth, Item.depthm]
  · simp only [Spec.ice, Item.Plain, Item.Plainm, and_true]
    exact ⟨by simp, short_key _ (by simp), ha⟩
  · simp [Spec.ice, Spec.key, Item.depth, Item.depthm]

/-- C130. So are the endpoints, whatever the addresses and ports are. -/
theorem C130_endpoints_read (l : List Endpoint) (hl : l.length < 2 ^ 31) :
    Spec.Reads (Spec.endpoints l).enc (Spec.endpoints l) := by
  refine reads ?_ ?_
  · simp only [Spec.endpoints, Item.Plain, List.length_map]
    refine ⟨hl, plains_map fun ep _ => ?_⟩
    simp only [Spec.endpoint, Item.Plain, Item.Plainm, and_true]
    refine ⟨by simp, short_key _ (by simp), ?_, short_key _ (by simp), ?_⟩
    · cases ep.ip <;> simp [ipBytes]
    · have := ep.port.toNat_lt; omega
  · have := depths_zero (f := Spec.endpoint) (n := 1) (fun ep => by
      simp [Spec.endpoint, Spec.key, Item.depth, Item.depthm]) l
    simp only [Spec.endpoints, Item.depth]
    omega

/-- C130. So is the description of a service. -/
theorem C130_service_read (s : Service) (h1 : Spec.Short s.id) (h2 : Spec.Short s.type) (h3 : Spec.Short s.host)
    (h4 : s.metadata.length < 2 ^ 31) (h5 : ∀ kv ∈ s.metadata, Spec.Short kv.1 ∧ Spec.Short kv.2) :
    Spec.Reads (Spec.service s).enc (Spec.service s) := by
  obtain ⟨m1, m2⟩ := metas_ok h5
  refine reads ?_ ?_
  · simp only [Spec.service, Item.Plain, Item.Plainm, and_true, List.length_map]
    refine ⟨by simp, short_key _ (by simp), h1, short_key _ (by simp), h2, short_key _ (by simp), h3, short_key _ (by simp), ?_,
      short_key _ (by simp), ?_, short_key _ (by simp), h4, m1⟩
    · have := s.port.toNat_lt; omega
    · have := s.streamPort.toNat_lt; omega
  · simp only [Spec.service, Spec.key, Item.depth, Item.depthm, m2]
    omega

/-! ## Different contents give different documents -/

/-- C130. From the endpoints which were read, the addresses and ports follow: an IPv4 endpoint is never taken for an IPv6 one. -/
theorem C130_endpoints_exact (l k : List Endpoint) (h : Spec.endpoints l = Spec.endpoints k) : l = k := by
  have hip : ∀ a b : Verif.Net.Addr.Ip, ipBytes a = ipBytes b → a = b := by
    intro a b hab
    cases a with
    | v4 a1 a2 a3 a4 =>
      cases b with
      | v4 b1 b2 b3 b4 => simpa [ipBytes] using hab
      | v6 v => have := congrArg List.length hab; simp [ipBytes] at this
    | v6 v =>
      cases b with
      | v4 b1 b2 b3 b4 => have := congrArg List.length hab; simp [ipBytes] at this
      | v6 w => exact congrArg _ (Vector.toList_inj.mp hab)
  have hep : ∀ a b : Endpoint, Spec.endpoint a = Spec.endpoint b → a = b := by
    rintro ⟨i, p⟩ ⟨j, q⟩ hab
    simp only [Spec.endpoint, Item.map.injEq, List.cons.injEq, Prod.mk.injEq, Item.bytes.injEq, Item.uint.injEq, true_and,
      and_true] at hab
    rw [hip _ _ hab.1, UInt16.toNat_inj.mp hab.2]
  simp only [Spec.endpoints, Item.arr.injEq, true_and] at h
  exact (List.map_inj_right (fun a b hab => hep a b hab)).mp h

/-- C130. From the description of a service which was read, everything about it follows. -/
theorem C130_service_exact (s t : Service) (h : Spec.service s = Spec.service t) : s = t := by
  obtain ⟨a, b, c, d, e, f⟩ := s
  obtain ⟨a', b', c', d', e', f'⟩ := t
  simp only [Spec.service, Item.map.injEq, List.cons.injEq, Prod.mk.injEq, Item.text.injEq, Item.uint.injEq, true_and,
    and_true] at h
  obtain ⟨h1, h2, h3, h4, h5, h6⟩ := h
  have h7 : f = f' := (List.map_inj_right (f := fun kv : Bytes × Bytes => (Item.text kv.1, Item.text kv.2)) (by
    rintro ⟨x, y⟩ ⟨z, w⟩ hab
    simpa using hab)).mp h6
  rw [h1, h2, h3, UInt16.toNat_inj.mp h4, UInt32.toNat_inj.mp h5, h7]

/-- C130. The basestation learns exactly what the application gave: a missing name is the empty name. -/
theorem C130_attach_exact (a b : Attach) (h : Spec.attach a = Spec.attach b) :
    a.version = b.version ∧ Spec.given a.appName = Spec.given b.appName ∧ Spec.given a.appVersion = Spec.given b.appVersion ∧
      a.productId = b.productId ∧ a.deviceId = b.deviceId := by
  simpa only [Spec.attach, Item.map.injEq, List.cons.injEq, Prod.mk.injEq, Item.text.injEq, true_and, and_true] using h

example : build (fun _ => true) (endpoints [{ ip := .v4 192 168 1 5, port := 5592 }]) =
    .payload [0x9f, 0xbf, 0x62, 73, 112, 0x44, 192, 168, 1, 5, 0x64, 80, 111, 114, 116, 0x19, 0x15, 0xd8, 0xff, 0xff] := by
  decide +kernel

example : build (fun _ => true) (invoke [115] []) =
    .payload ([0xbf, 0x69] ++ Verif.Json.enc "ServiceId" ++ [0x61, 115, 0x67] ++ Verif.Json.enc "Message" ++ [0x40, 0xff]) := by
  decide +kernel

example : getService ⟨fun _ => true, true⟩ ⟨[115], [], [49], 22, 70000, [([107], [118])]⟩ ≠ .error 500 := by decide +kernel

end Verif.Core.Payloads
