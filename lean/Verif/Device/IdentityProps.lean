import Verif.Device.IdentityLemmas

/-!
# The settings of a device — properties
-/

namespace Verif.Device.Identity

open Spec

variable {K : Type}

/-- C91: after a private key was set with success, the fingerprint which is given out is the one of this key, in 64
hexadecimal digits, whatever else is set and started afterwards. -/
theorem C91_fingerprint (before after : List (Op K)) (k : K) (h : List UInt8) (hlen : h.length = 32)
    (ha : ∀ op ∈ after, isSetKey op = false) :
    returns before (.setKey k true true (some h)) = .ok ∧
    ∃ t, (run (before ++ .setKey k true true (some h) :: after)).getFingerprint true = (.ok, some t) ∧
      t.length = 64 ∧ parse t = some h := by
  refine ⟨rfl, toHex h, ?_, ?_, parse_toHex h⟩
  · have e : run (before ++ .setKey k true true (some h) :: after) =
        after.foldl (fun s op => (step s op).1) ((run before).setKey k true true (some h)).1 := by
      simp [run, step]
    have g := key_same ((run before).setKey k true true (some h)).1 after ha
    unfold St.getFingerprint
    rw [e, g.1, g.2.2]
    show (Ec.ok, some (toHex (h.take 32))) = _
    rw [List.take_of_length_le (by omega)]
  · rw [toHex_length, hlen]

/-- C91: as long as no private key was set, there is no fingerprint and the device cannot be started. -/
theorem C91_no_key (ops : List (Op K)) (h : ∀ op ∈ ops, isSetKey op = false) (mem a b c : Bool) :
    (run ops).getFingerprint mem = (.invalidState, none) ∧ returns ops (.start a b c) = .invalidState := by
  have g := key_same St.init ops h
  have h1 : (run ops).privateKey = none := g.1
  have h2 : (run ops).certificate = none := g.2.1
  refine ⟨?_, ?_⟩
  · unfold St.getFingerprint; rw [h1]
  · show ((run ops).start a b c).2 = _
    unfold St.start
    rw [h2]

/-- C91: the device is only started with the key which was set last, and with the certificate of this key. If this call
succeeded, it is also started with the fingerprint of this key. If the key could not be saved or no certificate could be
made, it cannot be started. -/
theorem C91_start (before after : List (Op K)) (k : K) (mem crt : Bool) (fp : Option (List UInt8)) (a b c : Bool)
    (ha : ∀ op ∈ after, isSetKey op = false)
    (hs : returns (before ++ .setKey k mem crt fp :: after) (.start a b c) = .ok) :
    mem = true ∧ crt = true ∧
    ∃ l L, (run (before ++ .setKey k mem crt fp :: after ++ [.start a b c])).launched = l ++ [L] ∧
      L.certificate = k ∧ L.privateKey = k ∧ ∀ h, fp = some h → L.fingerprint = h := by
  have e : run (before ++ .setKey k mem crt fp :: after) =
      after.foldl (fun s op => (step s op).1) ((run before).setKey k mem crt fp).1 := by
    simp [run, step]
  have g := key_same ((run before).setKey k mem crt fp).1 after ha
  rw [← e] at g
  have hmc : mem = true ∧ crt = true := by
    have hs' : ((run (before ++ .setKey k mem crt fp :: after)).start a b c).2 = .ok := hs
    unfold St.start at hs'
    cases mem with
    | false =>
      have h1 : (run (before ++ .setKey k false crt fp :: after)).privateKey = none := g.1
      rw [h1] at hs'
      split at hs'
      · next hx => cases hx
      · cases hs'
    | true =>
      cases crt with
      | true => exact ⟨rfl, rfl⟩
      | false =>
        have h1 : (run (before ++ .setKey k true false fp :: after)).certificate = none := g.2.1
        rw [h1] at hs'
        cases hs'
  obtain ⟨rfl, rfl⟩ := hmc
  refine ⟨rfl, rfl, ?_⟩
  rw [run_snoc]
  have hk : (run (before ++ .setKey k true true fp :: after)).privateKey = some k := by
    rw [g.1]; unfold St.setKey; cases fp <;> rfl
  have hc : (run (before ++ .setKey k true true fp :: after)).certificate = some k := by
    rw [g.2.1]; unfold St.setKey; cases fp <;> rfl
  have hf : ∀ h, fp = some h → (run (before ++ .setKey k true true fp :: after)).fingerprint = h := by
    intro h hh; rw [g.2.2, hh]; rfl
  have hs' : ((run (before ++ .setKey k true true fp :: after)).start a b c).2 = .ok := hs
  show ∃ l L, ((run (before ++ .setKey k true true fp :: after)).start a b c).1.launched = l ++ [L] ∧ _
  generalize run (before ++ .setKey k true true fp :: after) = s at hk hc hf hs'
  rcases start_launches s a b c with ⟨e', he', he⟩ | ⟨cert, key, h1, h2, hl⟩
  · rw [he] at hs'; exact absurd hs' he'
  · rw [hk] at h2; cases h2
    rw [hc] at h1; cases h1
    generalize s.start a b c = r at hl hs'
    cases hl with
    | refused e' he' => exact absurd hs' he'
    | host p e' he' hp hh => exact absurd hs' he'
    | withHost p d hs2 hp hd hh hl => exact ⟨_, _, rfl, rfl, rfl, hf⟩
    | noHost p d hp hd hh hl => exact ⟨_, _, rfl, rfl, rfl, hf⟩

/-- C91 is violated: after a key could not be used, the fingerprint of another key is given out, or one which is no
fingerprint at all, with success. -/
theorem C91_stale_violated (h : List UInt8) :
    ((run [.setKey (1 : Nat) true true (some h), .setKey 2 true false none]).getFingerprint true).1 = .ok ∧
    ((run [.setKey (1 : Nat) true true (some h), .setKey 2 true false none]).getFingerprint true).2 =
      some (toHex (h.take 32)) ∧
    (run [.setKey (1 : Nat) true false none]).getFingerprint true = (.ok, some (toHex (List.replicate 32 0))) :=
  ⟨rfl, rfl, rfl⟩

/-- C91 is violated: if the fingerprint cannot be made, the call fails, but the device starts with the new key and the
fingerprint of the old one. -/
theorem C91_start_violated (h : List UInt8) :
    returns [.setKey (1 : Nat) true true (some h)] (.setKey 2 true true none) = .unknown ∧
    ((run [.setKey (1 : Nat) true true (some h), .setKey 2 true true none, .set .productId [112] true,
      .set .deviceId [100] true, .start true true true]).launched.map fun L => (L.privateKey, L.fingerprint)) = [(2, h)] :=
  ⟨rfl, rfl⟩

/-- C91 is violated: without memory for the string, the call succeeds and gives no string. -/
theorem C91_memory_violated (h : List UInt8) :
    (run [.setKey (1 : Nat) true true (some h)]).getFingerprint false = (.ok, none) := rfl

/-- C92: what is read back is what was set last, if no call ran out of memory. For the server url, which has no getter, this
is what the device would be started with. -/
theorem C92_get_partial (ops : List (Op K)) (f : Field) (hf : f ≠ .serverUrl ∨ ∀ op ∈ ops, isStart op = false)
    (hm : ∀ t, .set f t false ∉ ops) : ((run ops).get f).map (·.text) = lastOk f (trace ops) := by
  rcases opt_cases ((run ops).get f) with hn | ⟨a, ha⟩
  · rw [hn, field_none ops f hm hn]; rfl
  · rw [ha, field_some ops f hf a ha]; rfl

/-- C92 is violated: a call which runs out of memory loses the value which was there. -/
theorem C92_get_violated :
    let ops : List (Op Nat) := [.set .productId [112] true, .set .productId [113] false]
    returns [.set .productId [112] true] (.set .productId [113] false : Op Nat) = .outOfMemory ∧
    lastOk .productId (trace ops) = some [112] ∧ (run ops).get .productId = none := ⟨rfl, rfl, rfl⟩

/-- C92: the device starts with the product id and the device id which were set last; the name and the version of the
application, if it is told one, are the ones which were set last; and the name for mDNS is made of the ids and has at most 63
bytes. -/
theorem C92_start (ops : List (Op K)) (a b c : Bool) (hs : returns ops (.start a b c) = .ok) :
    ∃ l L, (run (ops ++ [.start a b c])).launched = l ++ [L] ∧
      lastOk .productId (trace ops) = some L.productId ∧ lastOk .deviceId (trace ops) = some L.deviceId ∧
      (∀ t, L.appName = some t → lastOk .appName (trace ops) = some t ∧ t.length ≤ 32) ∧
      (∀ t, L.appVersion = some t → lastOk .appVersion (trace ops) = some t ∧ t.length ≤ 32) ∧
      L.instanceName = L.productId ++ [45] ++ L.deviceId ∧ L.instanceName.length ≤ 63 := by
  have short : ∀ f, (f = .appName ∨ f = .appVersion) → ∀ ops : List (Op K), ∀ v, (run ops).get f = some v →
      v.text.length ≤ 32 := by
    intro f hf ops
    have hne : f ≠ .serverUrl := by rcases hf with rfl | rfl <;> simp
    induction ops using snoc_ind with
    | h0 => intro v hv; cases f <;> cases hv
    | hs ops op ih =>
      intro v hv
      rw [run_snoc] at hv
      cases op with
      | set g t mem =>
        have hv' : ((run ops).set g t mem).1.get f = some v := hv
        by_cases hl : (g = .appName ∨ g = .appVersion) ∧ 32 < t.length
        · rw [set_long hl] at hv'; exact ih v hv'
        · rw [set_get] at hv'
          split at hv'
          · exact ih v hv'
          · split at hv'
            · next hfg =>
              split at hv'
              · cases hv'
                show t.length ≤ 32
                rw [← hfg] at hl
                exact Nat.le_of_not_lt (fun hx => hl ⟨hf, hx⟩)
              · cases hv'
            · exact ih v hv'
      | setKey k m c fp => exact ih v ((setKey_get (run ops) k m c fp f).symm.trans hv)
      | start x y z => exact ih v ((start_get (run ops) x y z f (Or.inl hne)).symm.trans hv)
  have val : ∀ f, f ≠ .serverUrl → ∀ v, (run ops).get f = some v → lastOk f (trace ops) = some v.text :=
    fun f hf v hv => field_some ops f (Or.inl hf) v hv
  have hs' : ((run ops).start a b c).2 = .ok := hs
  rw [run_snoc]
  show ∃ l L, ((run ops).start a b c).1.launched = l ++ [L] ∧ _
  have app : ∀ t, (run ops).appName.map (·.text) = some t → lastOk .appName (trace ops) = some t ∧ t.length ≤ 32 := by
    intro t ht
    obtain ⟨v, hv, rfl⟩ := Option.map_eq_some_iff.1 ht
    exact ⟨val .appName (by simp) v hv, short .appName (Or.inl rfl) ops v hv⟩
  have ver : ∀ t, (run ops).appVersion.map (·.text) = some t → lastOk .appVersion (trace ops) = some t ∧ t.length ≤ 32 := by
    intro t ht
    obtain ⟨v, hv, rfl⟩ := Option.map_eq_some_iff.1 ht
    exact ⟨val .appVersion (by simp) v hv, short .appVersion (Or.inr rfl) ops v hv⟩
  rcases start_launches (run ops) a b c with ⟨e', he', he⟩ | ⟨cert, key, h1, h2, hl⟩
  · rw [he] at hs'; exact absurd hs' he'
  · generalize (run ops).start a b c = r at hl hs'
    cases hl with
    | refused e' he' => exact absurd hs' he'
    | host p e' he' hp hh => exact absurd hs' he'
    | withHost p d hs2 hp hd hh hl =>
      refine ⟨_, _, rfl, val .productId (by simp) p hp, val .deviceId (by simp) d hd, app, ver, rfl, ?_⟩
      simp only [List.length_append, List.length_cons, List.length_nil]
      omega
    | noHost p d hp hd hh hl =>
      refine ⟨_, _, rfl, val .productId (by simp) p hp, val .deviceId (by simp) d hd, app, ver, rfl, ?_⟩
      simp only [List.length_append, List.length_cons, List.length_nil]
      omega

/-- C92: on its first start the device connects to the server url which was set, or to the default host of its product.
Missing: a later start, after one which failed. -/
theorem C92_host_partial (ops : List (Op K)) (a b c : Bool) (hn : ∀ op ∈ ops, isStart op = false)
    (hm : ∀ t, .set .serverUrl t false ∉ ops) (hs : returns ops (.start a b c) = .ok) :
    ∃ l L, (run (ops ++ [.start a b c])).launched = l ++ [L] ∧
      L.host = (match lastOk .serverUrl (trace ops) with
        | some u => u
        | none => L.productId ++ ".devices.nabto.net".toUTF8.toList) := by
  have hs' : ((run ops).start a b c).2 = .ok := hs
  rw [run_snoc]
  show ∃ l L, ((run ops).start a b c).1.launched = l ++ [L] ∧ _
  rcases start_launches (run ops) a b c with ⟨e', he', he⟩ | ⟨cert, key, h1, h2, hl⟩
  · rw [he] at hs'; exact absurd hs' he'
  · generalize (run ops).start a b c = r at hl hs'
    cases hl with
    | refused e' he' => exact absurd hs' he'
    | host p e' he' hp hh => exact absurd hs' he'
    | withHost p d h hp hd hh hl =>
      refine ⟨_, _, rfl, ?_⟩
      rw [field_some ops .serverUrl (Or.inr hn) h hh]
    | noHost p d hp hd hh hl =>
      refine ⟨_, _, rfl, ?_⟩
      rw [field_none ops .serverUrl hm hh]
      rfl

/-- C92 is violated: a start which fails keeps the default host of the product id of that time. After the product id was
set again, the device connects to the host of the old product. -/
theorem C92_host_violated :
    let ops : List (Op Nat) := [.setKey 1 true true (some []), .set .productId [112] true,
      .set .deviceId (List.replicate 63 100) true, .start true true true, .set .productId [113] true,
      .set .deviceId [100] true, .start true true true]
    lastOk .serverUrl (trace ops) = none ∧
    (run ops).launched.map (fun L => (L.productId, L.host)) = [([113], [112] ++ suffix)] := by
  refine ⟨rfl, ?_⟩
  decide +kernel

/-- C92: the string which a getter gave out is valid, and the same, until its field is set again. -/
theorem C92_pointer (ops more : List (Op K)) (f : Field) (a : Str) (h : (run ops).get f = some a)
    (hm : ∀ op ∈ more, setsField f op = false) :
    (run (ops ++ more)).get f = some a ∧ a.addr ∉ (run (ops ++ more)).freed := by
  have key : (run (ops ++ more)).get f = some a := by
    induction more using snoc_ind with
    | h0 => rw [List.append_nil]; exact h
    | hs more op ih =>
      have ih' := ih (fun o ho => hm o (List.mem_append_left _ ho))
      have hop := hm op (by simp)
      rw [← List.append_assoc, run_snoc]
      cases op with
      | set g t mem =>
        have hg : f ≠ g := by
          intro he
          rw [he] at hop
          simp [setsField] at hop
        show ((run (ops ++ more)).set g t mem).1.get f = some a
        rw [set_get]
        split
        · exact ih'
        · exact ih'
      | setKey k m c fp => exact (setKey_get _ k m c fp f).trans ih'
      | start x y z =>
        refine (start_get _ x y z f ?_).trans ih'
        by_cases hf : f = .serverUrl
        · right
          intro hn
          rw [hf] at ih'
          have : (run (ops ++ more)).host = some a := ih'
          rw [hn] at this
          cases this
        · exact Or.inl hf
  exact ⟨key, (heap_run _).valid f a key⟩

/-- C92: no string is freed twice. -/
theorem C92_no_double_free (ops : List (Op K)) : (run ops).freed.Nodup := (heap_run ops).nodup

/-- C92 is violated: the documentation says that the string is valid until the device is freed, but it is freed as soon as
the field is set again, even if that fails. -/
theorem C92_pointer_violated (ops : List (Op K)) (t : Text) (mem : Bool) (a : Str) (h : (run ops).productId = some a) :
    a.addr ∈ (run (ops ++ [.set .productId t mem])).freed := by
  rw [run_snoc]
  show a.addr ∈ ((run ops).set .productId t mem).1.freed
  have hg : (run ops).get .productId = some a := h
  have hl : ¬ ((Field.productId = .appName ∨ Field.productId = .appVersion) ∧ 32 < t.length) := by simp
  cases mem with
  | true =>
    rw [set_ok hl, put_freed, hg]
    exact List.mem_cons_self ..
  | false =>
    rw [set_mem hl, put_freed, hg]
    exact List.mem_cons_self ..

/-! The hypotheses are met by histories in which something happens. -/

example : returns [.setKey (1 : Nat) true true (some (List.replicate 32 7)), .set .productId [112] true,
    .set .deviceId [100] true, .set .appName [97] true, .set .serverUrl [117] true] (.start true true true) = .ok := by
  decide +kernel

example : returns [.setKey (1 : Nat) true true (some (List.replicate 32 7)), .set .productId [112] true,
    .set .deviceId [100] true, .set .appName (List.replicate 33 97) true] (.start true true true) = .ok := by
  decide +kernel

example : returns ([] : List (Op Nat)) (.set .appName (List.replicate 33 97) true) = .stringTooLong := by decide

end Verif.Device.Identity
