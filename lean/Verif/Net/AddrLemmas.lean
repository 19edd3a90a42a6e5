import Verif.Net.AddrSpec
import Mathlib.Tactic.SplitIfs

namespace Verif.Net.Addr

theorem htons_num (p : UInt16) : 256 * (htons p).1.toNat + (htons p).2.toNat = p.toNat := by
  have h := p.toNat_lt
  simp only [htons, UInt16.toNat_toUInt8, UInt16.toNat_shiftRight, Nat.shiftRight_eq_div_pow]
  have : (8 : UInt16).toNat % 16 = 8 := rfl
  rw [this]
  omega

theorem ntohs_num (b : UInt8 × UInt8) : (ntohs b).toNat = 256 * b.1.toNat + b.2.toNat := by
  have h1 := b.1.toNat_lt
  have h2 := b.2.toNat_lt
  simp only [ntohs, UInt16.toNat_or, UInt16.toNat_shiftLeft, UInt8.toNat_toUInt16]
  have h8 : (8 : UInt16).toNat % 16 = 8 := rfl
  have h3 : b.1.toNat <<< 8 % 2 ^ 16 = b.1.toNat <<< 8 := by
    rw [Nat.shiftLeft_eq]; exact Nat.mod_eq_of_lt (by omega)
  rw [h8, h3, ← Nat.shiftLeft_add_eq_or_of_lt (by omega), Nat.shiftLeft_eq]
  omega

theorem htons_ntohs (b : UInt8 × UInt8) : htons (ntohs b) = b := by
  have h := htons_num (ntohs b)
  rw [ntohs_num] at h
  have h1 := b.1.toNat_lt
  have h2 := b.2.toNat_lt
  have h3 := (htons (ntohs b)).1.toNat_lt
  have h4 := (htons (ntohs b)).2.toNat_lt
  refine Prod.ext (UInt8.toNat_inj.mp ?_) (UInt8.toNat_inj.mp ?_) <;> omega

theorem bytes_inj {l m : List UInt8} : l.map UInt8.toNat = m.map UInt8.toNat ↔ l = m :=
  ⟨fun h => (List.map_inj_right (fun _ _ => UInt8.toNat_inj.mp)).mp h, fun h => h ▸ rfl⟩

theorem isMapped_iff (v : Vector UInt8 16) :
    isMapped v = true ↔ (v.toList.map UInt8.toNat).take 12 = List.replicate 10 0 ++ [255, 255] := by
  unfold isMapped
  rw [decide_eq_true_iff, ← List.map_take]
  exact (bytes_inj (l := v.toList.take 12) (m := [0, 0, 0, 0, 0, 0, 0, 0, 0, 0, 255, 255])).symm

theorem drop12 (v : Vector UInt8 16) : v.toList.drop 12 = [v[12], v[13], v[14], v[15]] := by
  refine List.ext_getElem (by simp) ?_
  intro i h1 h2
  simp at h2
  simp only [List.getElem_drop, Vector.getElem_toList]
  match i, h2 with
  | 0, _ => rfl
  | 1, _ => rfl
  | 2, _ => rfl
  | 3, _ => rfl

theorem four (v : Vector UInt8 4) : #v[v[0], v[1], v[2], v[3]] = v := by
  refine Vector.ext ?_
  intro i hi
  match i, hi with
  | 0, _ => rfl
  | 1, _ => rfl
  | 2, _ => rfl
  | 3, _ => rfl

theorem host_mapped (a b c d : UInt8) (l : Nat) :
    Spec.hostOf6 ((toMapped a b c d).toList.map UInt8.toNat) l = .ipv4 [a.toNat, b.toNat, c.toNat, d.toNat] := rfl

theorem host_of_mapped {v : Vector UInt8 16} (h : isMapped v = true) (l : Nat) :
    Spec.hostOf6 (v.toList.map UInt8.toNat) l = .ipv4 [v[12].toNat, v[13].toNat, v[14].toNat, v[15].toNat] := by
  unfold Spec.hostOf6
  rw [if_pos ((isMapped_iff v).mp h), ← List.map_drop, drop12]
  rfl

theorem host_of_not_mapped {v : Vector UInt8 16} (h : isMapped v = false) (l : Nat) :
    Spec.hostOf6 (v.toList.map UInt8.toNat) l = .ipv6 (v.toList.map UInt8.toNat) l := by
  unfold Spec.hostOf6
  rw [if_neg]
  intro hc
  rw [(isMapped_iff v).mpr hc] at h
  exact absurd h (by decide)

/-- The socket address means what the endpoint means. -/
theorem sockaddr_means (ip : Ip) (port : UInt16) : Spec.sockaddr (sockaddr ip port) = Spec.endpoint { ip, port } := by
  cases ip with
  | v4 a b c d => simp only [sockaddr, Spec.sockaddr, Spec.endpoint, htons_num]; rfl
  | v6 v => simp only [sockaddr, Spec.sockaddr, Spec.endpoint, htons_num]; rfl

theorem sendIp_means {sock : Family} {ip ip' : Ip} (h : sendIp sock ip = some ip') (port : UInt16) :
    Spec.endpoint { ip := ip', port } = Spec.endpoint { ip, port } ∧ ip'.family = sock := by
  unfold sendIp at h
  split_ifs at h with he
  · cases h; exact ⟨rfl, he.symm⟩
  · cases sock <;> cases ip
    · exact absurd rfl he
    · dsimp only at h
      split_ifs at h with hm
      cases h
      exact ⟨by simp only [Spec.endpoint, host_of_mapped hm], rfl⟩
    · dsimp only at h
      cases h
      exact ⟨by simp only [Spec.endpoint, host_mapped], rfl⟩
    · exact absurd rfl he

theorem sendIp_none {sock : Family} {ip : Ip} :
    sendIp sock ip = none ↔ sock = .v4 ∧ ∀ port, (Spec.endpoint { ip, port }).1.isV4 = false := by
  unfold sendIp
  cases sock <;> cases ip with
  | v4 a b c d => simp [Ip.family, Spec.endpoint, Spec.Host.isV4]
  | v6 v =>
    cases hm : isMapped v
    · simp [Ip.family, Spec.endpoint, host_of_not_mapped hm, Spec.Host.isV4, hm]
    · simp [Ip.family, Spec.endpoint, host_of_mapped hm, Spec.Host.isV4, hm]

theorem recvFrom_sendTo (a : Sockaddr) (h : ∀ p v s, a = .in6 p v s → s = 0) :
    sendTo a.family (recvFrom a) = some a := by
  cases a with
  | in4 p v =>
    simp only [Sockaddr.family, recvFrom, sendTo, sendIp, Ip.family, if_true, Option.map_some, sockaddr, htons_ntohs, four]
  | in6 p v s =>
    have := h p v s rfl
    subst this
    simp only [Sockaddr.family, recvFrom, sendTo, sendIp, Ip.family, if_true, Option.map_some, sockaddr, htons_ntohs]

end Verif.Net.Addr
