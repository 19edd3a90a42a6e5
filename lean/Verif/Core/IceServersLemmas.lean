import Verif.Core.IceServersSpec
import Verif.Iam.RecordLemmas

/-! # The ICE servers of an answer: lemmas -/

namespace Verif.Core.Ice
open Verif.Iam.Record Verif.Iam.Record.Spec Verif.Core.Ice.Spec

section
variable {ok : Nat → Bool} {m m' : Mem} {a r : List Nat}

theorem freeUrl_mine {u : Url} (h : H ok m (ofUrl u ++ a) r) : H ok (freeUrl m u) a r := free_mine (free_mine h)

theorem freeUrls_mine {l : List Url} (h : H ok m (l.flatMap ofUrl ++ a) r) : H ok (l.foldl freeUrl m) a r := by
  induction l generalizing m with
  | nil => exact h
  | cons u l ih =>
    rw [List.flatMap_cons, List.append_assoc] at h
    exact ih (freeUrl_mine h)

theorem clean_mine {s : Server} (h : H ok m (ofServer s ++ a) r) : H ok (clean m s) a r := by
  unfold ofServer at h
  rw [List.append_assoc, List.append_assoc] at h
  exact freeStr_mine (freeStr_mine (freeUrls_mine h))

theorem freeSlot_mine {s : Slot} (h : H ok m (ofSlot s ++ a) r) : H ok (freeSlot m s) a r := by
  unfold ofSlot at h
  rw [List.append_assoc] at h
  exact free_mine (clean_mine h)

theorem deinit_mine {l : List Slot} (h : H ok m (l.flatMap ofSlot ++ a) r) : H ok (deinit m l) a r := by
  induction l generalizing m with
  | nil => exact h
  | cons s l ih =>
    rw [List.flatMap_cons, List.append_assoc] at h
    exact ih (freeSlot_mine h)

theorem copyText_spec {t : Option String} {x : Option Str} (h : H ok m a r) (e : copyText m t = (x, m')) :
    H ok m' (ofStr x ++ a) r ∧ ((∀ n, ok n = true) → text x = t) := by
  cases t with
  | none =>
    simp only [copyText, Prod.mk.injEq] at e
    obtain ⟨rfl, rfl⟩ := e
    exact ⟨h, fun _ => rfl⟩
  | some s =>
    simp only [copyText] at e
    cases x with
    | none =>
      obtain ⟨h1, h2⟩ := strdup_none h e
      exact ⟨h1, fun hp => absurd hp h2⟩
    | some x =>
      obtain ⟨h1, h2⟩ := strdup_some h e
      exact ⟨h1, fun _ => by simp [text, h2]⟩

theorem copyNames_spec {e : Entry} {u c : Option Str} (h : H ok m a r) (he : copyNames m e = (u, c, m')) :
    H ok m' (ofStr u ++ ofStr c ++ a) r ∧ ((∀ n, ok n = true) → text u = e.username ∧
      text c = if e.username = none then none else e.credential) := by
  unfold copyNames at he
  rcases h1 : copyText m e.username with ⟨_ | u', m1⟩
  · simp only [h1, Prod.mk.injEq] at he
    obtain ⟨rfl, rfl, rfl⟩ := he
    obtain ⟨k1, k2⟩ := copyText_spec h h1
    refine ⟨k1, fun hp => ?_⟩
    have := k2 hp
    exact ⟨this, by rw [← this]; rfl⟩
  · simp only [h1] at he
    rcases h2 : copyText m1 e.credential with ⟨c', m2⟩
    simp only [h2, Prod.mk.injEq] at he
    obtain ⟨rfl, rfl, rfl⟩ := he
    obtain ⟨k1, k2⟩ := copyText_spec h h1
    obtain ⟨k3, k4⟩ := copyText_spec k1 h2
    refine ⟨k3.re (fun x => by simp only [List.count_append]; omega), fun hp => ⟨k2 hp, ?_⟩⟩
    rw [← k2 hp, if_neg (by simp [text])]
    exact k4 hp

/-- At most one block is lost, and none if the memory suffices. -/
def Lost (ok : Nat → Bool) (lost : List Nat) : Prop := lost.length ≤ 1 ∧ ((∀ n, ok n = true) → lost = [])

theorem lost_nil : Lost ok [] := ⟨Nat.zero_le _, fun _ => rfl⟩

theorem addUrls_spec {urls urls' : List Url} {l : List UrlIn} {f : Bool} (h : H ok m (urls.flatMap ofUrl ++ a) r)
    (e : addUrls m urls l = (f, urls', m')) :
    ∃ lost, Lost ok lost ∧ (f = true → lost = []) ∧ H ok m' (urls'.flatMap ofUrl ++ (lost ++ a)) r := by
  induction l generalizing m urls with
  | nil =>
    simp only [addUrls, Prod.mk.injEq] at e
    obtain ⟨rfl, rfl, rfl⟩ := e
    exact ⟨[], lost_nil, fun _ => rfl, h⟩
  | cons u l ih =>
    unfold addUrls at e
    rcases h1 : copyText m u.text with ⟨_ | s, m1⟩
    · simp only [h1, Prod.mk.injEq] at e
      obtain ⟨rfl, rfl, rfl⟩ := e
      exact ⟨[], lost_nil, fun _ => rfl, (copyText_spec h h1).1⟩
    · have k1 := (copyText_spec h h1).1
      simp only [h1] at e
      rcases h2 : alloc m1 with ⟨_ | b, m2⟩
      · simp only [h2, Prod.mk.injEq] at e
        obtain ⟨rfl, rfl, rfl⟩ := e
        obtain ⟨k2, k3⟩ := alloc_none k1 h2
        refine ⟨[s.blk], ⟨Nat.le_refl _, fun hp => absurd hp k3⟩, fun hf => (nomatch hf), k2.re fun x => ?_⟩
        simp only [ofStr, Option.toList, List.map_cons, List.map_nil, List.count_append]
        omega
      · have k2 := alloc_some k1 h2
        have k3 : H ok m2 ((urls ++ [Url.mk b s]).flatMap ofUrl ++ a) r := by
          refine k2.re fun x => ?_
          simp only [ofStr, Option.toList, List.map_cons, List.map_nil, List.count_append, List.flatMap_append, List.flatMap_cons,
            List.flatMap_nil, ofUrl, List.count_cons, List.count_nil]
          omega
        simp only [h2] at e
        split at e
        · exact ih k3 e
        · simp only [Prod.mk.injEq] at e
          obtain ⟨rfl, rfl, rfl⟩ := e
          exact ⟨[], lost_nil, fun hf => (nomatch hf), k3⟩

theorem addUrls_says {urls : List Url} {l : List String} (hp : Plenty m) :
    ∃ urls' m', addUrls m urls (l.map fun u => ⟨some u, true⟩) = (true, urls', m') ∧ Plenty m' ∧
      urls'.map (fun u => u.str.val) = urls.map (fun u => u.str.val) ++ l := by
  induction l generalizing m urls with
  | nil => exact ⟨urls, m, rfl, hp, by simp⟩
  | cons u l ih =>
    have hp1 : Plenty { m with asked := m.asked + 1, live := m.asked :: m.live } := hp
    have hp2 : Plenty { m with asked := m.asked + 1 + 1, live := (m.asked + 1) :: m.asked :: m.live } := hp
    obtain ⟨urls', m', h1, h2, h3⟩ := ih (urls := urls ++ [⟨m.asked + 1, ⟨m.asked, u⟩⟩]) hp2
    refine ⟨urls', m', ?_, h2, by rw [h3]; simp⟩
    rw [List.map_cons, addUrls]
    simp only [copyText, strdup, alloc, hp m.asked, hp (m.asked + 1), if_true]
    exact h1

theorem copyNames_plenty {e : Entry} (hp : Plenty m) :
    ∃ u c m', copyNames m e = (u, c, m') ∧ Plenty m' ∧ text u = e.username ∧
      text c = if e.username = none then none else e.credential := by
  unfold copyNames
  cases hu : e.username with
  | none => exact ⟨none, none, m, rfl, hp, rfl, rfl⟩
  | some s =>
    cases hc : e.credential with
    | none =>
      refine ⟨some ⟨m.asked, s⟩, none, { m with asked := m.asked + 1, live := m.asked :: m.live }, ?_, hp, rfl, by simp [text]⟩
      simp [copyText, strdup, alloc, hp m.asked]
    | some c =>
      refine ⟨some ⟨m.asked, s⟩, some ⟨m.asked + 1, c⟩,
        { m with asked := m.asked + 1 + 1, live := (m.asked + 1) :: m.asked :: m.live }, ?_, hp, rfl, by simp [text]⟩
      simp [copyText, strdup, alloc, hp m.asked, hp (m.asked + 1)]

theorem parseEntry_spec {e : Entry} {x : Res} {s : Option Slot} (h : H ok m a r) (ho : e.urls ≠ .other)
    (hr : parseEntry m e = (x, s, m')) :
    ∃ lost, Lost ok lost ∧ x ≠ .undefined ∧ (x = .ok → lost = []) ∧ (x ≠ .ok → s = none) ∧
      H ok m' (s.toList.flatMap ofSlot ++ (lost ++ a)) r := by
  unfold parseEntry at hr
  cases hu : e.urls with
  | missing =>
    simp only [hu, Prod.mk.injEq] at hr
    obtain ⟨rfl, rfl, rfl⟩ := hr
    exact ⟨[], lost_nil, nofun, fun _ => rfl, fun _ => rfl, h⟩
  | other => exact absurd hu ho
  | array l ends =>
    simp only [hu] at hr
    rcases h1 : copyNames m e with ⟨u, c, m1⟩
    have k1 := (copyNames_spec h h1).1
    simp only [h1] at hr
    rcases h2 : addUrls m1 [] l with ⟨f, urls, m2⟩
    obtain ⟨lost, hl, hf, k2⟩ := addUrls_spec (urls := []) (a := ofStr u ++ ofStr c ++ a) k1 h2
    have k3 : H ok m2 (ofServer ⟨u, c, urls⟩ ++ (lost ++ a)) r := by
      refine k2.re fun x => ?_
      simp only [ofServer, List.count_append]
      omega
    simp only [h2] at hr
    cases f with
    | false =>
      simp only [Prod.mk.injEq] at hr
      obtain ⟨rfl, rfl, rfl⟩ := hr
      exact ⟨lost, hl, nofun, nofun, fun _ => rfl, clean_mine k3⟩
    | true =>
      have hlost := hf rfl
      subst hlost
      simp only at hr
      split at hr
      · rcases h3 : alloc m2 with ⟨_ | b, m3⟩
        · simp only [h3, Prod.mk.injEq] at hr
          obtain ⟨rfl, rfl, rfl⟩ := hr
          exact ⟨[], lost_nil, nofun, nofun, fun _ => rfl, clean_mine (alloc_none k3 h3).1⟩
        · simp only [h3, Prod.mk.injEq] at hr
          obtain ⟨rfl, rfl, rfl⟩ := hr
          refine ⟨[], lost_nil, nofun, fun _ => rfl, fun hn => absurd rfl hn, (alloc_some k3 h3).re fun x => ?_⟩
          simp only [Option.toList, List.flatMap_cons, List.flatMap_nil, ofSlot, List.count_append, List.count_cons, List.count_nil]
          omega
      · simp only [Prod.mk.injEq] at hr
        obtain ⟨rfl, rfl, rfl⟩ := hr
        exact ⟨[], lost_nil, nofun, nofun, fun _ => rfl, clean_mine k3⟩

theorem parse_spec {l : List Entry} {servers servers' : List Slot} {ends : Bool} {x : Res} (h : H ok m (servers.flatMap ofSlot ++ a) r)
    (ho : ∀ e ∈ l, e.urls ≠ .other) (hr : parse m servers ends l = (x, servers', m')) :
    ∃ lost, Lost ok lost ∧ x ≠ .undefined ∧ H ok m' (servers'.flatMap ofSlot ++ (lost ++ a)) r := by
  induction l generalizing m servers with
  | nil =>
    simp only [parse, Prod.mk.injEq] at hr
    obtain ⟨rfl, rfl, rfl⟩ := hr
    exact ⟨[], lost_nil, by split <;> nofun, h⟩
  | cons e l ih =>
    unfold parse at hr
    rcases h1 : parseEntry m e with ⟨y, s, m1⟩
    obtain ⟨lost, hl, hu, hok, hn, k1⟩ := parseEntry_spec h (ho e List.mem_cons_self) h1
    simp only [h1] at hr
    cases y with
    | undefined => exact absurd rfl hu
    | failed =>
      simp only [Prod.mk.injEq] at hr
      obtain ⟨rfl, rfl, rfl⟩ := hr
      have := hn nofun
      subst this
      refine ⟨lost, hl, nofun, k1.re fun x => ?_⟩
      simp only [Option.toList, List.flatMap_nil, List.count_append, List.count_nil]
      omega
    | ok =>
      have := hok rfl
      subst this
      cases s with
      | none =>
        simp only [Prod.mk.injEq] at hr
        obtain ⟨rfl, rfl, rfl⟩ := hr
        exact ⟨[], lost_nil, nofun, k1⟩
      | some s =>
        refine ih (servers := servers ++ [s]) (k1.re fun x => ?_) (fun e he => ho e (List.mem_cons_of_mem _ he)) hr
        simp only [Option.toList, List.flatMap_cons, List.flatMap_nil, List.flatMap_append, List.count_append, List.count_nil]
        omega

theorem parseEntry_says {e : Entry} {s : Seen} (hp : Plenty m) (h : Says e s) :
    ∃ x m', parseEntry m e = (.ok, some x, m') ∧ Plenty m' ∧
      seen x = { s with credential := if s.username = none then none else s.credential } := by
  obtain ⟨h1, h2, h3⟩ := h
  obtain ⟨u, c, m1, k1, k2, k3, k4⟩ := copyNames_plenty (e := e) hp
  obtain ⟨urls, m2, j1, j2, j3⟩ := addUrls_says (urls := []) (l := s.urls) k2
  refine ⟨⟨m2.asked, ⟨u, c, urls⟩⟩, { m2 with asked := m2.asked + 1, live := m2.asked :: m2.live }, ?_, j2, ?_⟩
  · unfold parseEntry
    simp only [h3, k1, j1, alloc, j2 m2.asked, if_true]
  · simp only [seen, k3, k4, j3, h1, h2, List.map_nil, List.nil_append]

theorem parse_says {l : List Entry} {ss : List Seen} (hp : Plenty m) (h : SaysAll l ss) (servers : List Slot) (ends : Bool)
    (tail : List Entry) :
    ∃ new m', parse m servers ends (l ++ tail) = parse m' (servers ++ new) ends tail ∧ Plenty m' ∧
      new.map seen = ss.map fun s => { s with credential := if s.username = none then none else s.credential } := by
  induction l generalizing m servers ss with
  | nil =>
    cases ss with
    | nil => exact ⟨[], m, by simp, hp, rfl⟩
    | cons s ss => exact h.elim
  | cons e l ih =>
    cases ss with
    | nil => exact h.elim
    | cons s ss =>
      obtain ⟨x, m1, k1, k2, k3⟩ := parseEntry_says hp h.1
      obtain ⟨new, m2, j1, j2, j3⟩ := ih k2 h.2 (servers ++ [x])
      refine ⟨x :: new, m2, ?_, j2, by rw [List.map_cons, k3, j3]; rfl⟩
      rw [List.cons_append, parse]
      simp only [k1, j1, List.append_assoc, List.cons_append, List.nil_append]

end

end Verif.Core.Ice
