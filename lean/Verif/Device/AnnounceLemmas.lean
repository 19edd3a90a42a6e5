import Verif.Device.AnnounceSpec

namespace Verif.Device.Announce

open Spec

theorem snoc_ind {α : Type} {P : List α → Prop} (nil : P []) (snoc : ∀ l a, P l → P (l ++ [a])) : ∀ l, P l := by
  intro l
  have h : ∀ r : List α, P r.reverse := by
    intro r
    induction r with
    | nil => exact nil
    | cons a r ih => simpa using snoc _ a ih
  simpa using h l.reverse

theorem runFrom_append (cfg : Cfg) (s : St) (l l' : List Op) :
    runFrom cfg s (l ++ l') = (runFrom cfg s l).bind fun t => runFrom cfg t l' := by
  induction l generalizing s with
  | nil => rfl
  | cons a l ih =>
    simp only [List.cons_append, runFrom]
    cases step cfg s a with
    | none => rfl
    | some r => simp [ih]

theorem run_snoc (cfg : Cfg) (l : List Op) (a : Op) :
    run cfg (l ++ [a]) = (run cfg l).bind fun t => (step cfg t a).map (·.1) := by
  unfold run
  rw [runFrom_append]
  cases runFrom cfg St.init l with
  | none => rfl
  | some t =>
    simp only [Option.bind_some, runFrom]
    cases step cfg t a <;> rfl

theorem wantFrom_append (cfg : Cfg) (s t : St) (w : Want) (l l' : List Op) (h : runFrom cfg s l = some t) :
    wantFrom cfg s w (l ++ l') = wantFrom cfg t (wantFrom cfg s w l) l' := by
  induction l generalizing s w with
  | nil => cases h; rfl
  | cons a l ih =>
    simp only [List.cons_append, runFrom, wantFrom] at h ⊢
    cases hs : step cfg s a with
    | none => rw [hs] at h; cases h
    | some r => rw [hs] at h; exact ih _ _ h

theorem want_snoc (cfg : Cfg) (l : List Op) (a : Op) (s t : St) (ec : Ec) (h : run cfg l = some s) (hs : step cfg s a = some (t, ec)) :
    want cfg (l ++ [a]) = (want cfg l).step a ec := by
  unfold want
  rw [wantFrom_append cfg _ _ _ _ _ h]
  simp [wantFrom, hs]

theorem insertSub_mem {l m : List Text} {t : Text} {mem : Bool} (h : insertSub l t mem = some m) (x : Text) : x ∈ m ↔ x = t ∨ x ∈ l := by
  unfold insertSub at h
  split at h
  · rename_i hc
    cases h
    have : t ∈ l := by simpa using hc
    constructor
    · exact Or.inr
    · rintro (rfl | hx)
      · exact this
      · exact hx
  · split at h
    · cases h; simp [or_comm]
    · cases h

theorem insertTxt_mem {i : Insert} {m n : List (Text × Text)} {k v : Text} {mem : Bool} (hk : ∀ x, (k, x) ∉ m)
    (h : insertTxt i m k v mem = some n) (a b : Text) : (a, b) ∈ n ↔ (a = k ∧ b = v) ∨ (a, b) ∈ m := by
  have hne : ∀ p ∈ m, p.1 ≠ k := by
    rintro ⟨x, y⟩ hm rfl
    exact hk _ hm
  unfold insertTxt at h
  cases i with
  | keep =>
    have : m.any (·.1 == k) = false := by
      simp only [List.any_eq_false, beq_iff_eq]
      exact hne
    simp only [this] at h
    cases mem with
    | false => cases h
    | true => cases h; simp [or_comm]
  | overwrite =>
    have hf : m.filter (·.1 != k) = m := by
      rw [List.filter_eq_self]
      intro p hp
      simpa using hne p hp
    cases mem with
    | false => cases h
    | true => simp only [if_true, hf] at h; cases h; simp [or_comm]
  | duplicate =>
    cases mem with
    | false => cases h
    | true => cases h; simp [or_comm]

/-- What holds of every device. -/
structure Inv (cfg : Cfg) (s : St) (w : Want) : Prop where
  product : s.productId = w.product
  device : s.deviceId = w.device
  enable : s.enable = w.enabled
  cap : s.enable = true → cfg.cap = true
  setup : s.state = .setup ↔ w.started = false
  stop : w.stopped = true → s.state = .stopped
  bind : s.binding = true → w.port = none ∧ s.state ≠ .setup ∧ (w.stopped = false → s.state = .running)
  early : s.state = .setup → w.port = none ∧ s.binding = false
  closing : s.closing = true → s.state = .stopped
  closed : w.closed = true → s.state = .stopped
  published : s.published = true ↔ w.enabled = true ∧ w.port.isSome = true
  new : s.server = .new ↔ s.published = false
  running : s.server = .running ↔ s.published = true ∧ w.closed = false
  port : ∀ q, w.port = some q → s.port = q
  started : w.ids.isSome = w.started
  name : ∀ p d, w.ids = some (p, d) → s.name = unique p d
  told : s.server = .running → ∃ txt, s.told = some ⟨s.port, s.name, s.subtypes, txt⟩
  sub : ∀ t, w.subtypes t = true → t ∈ s.subtypes

theorem Inv.init (cfg : Cfg) : Inv cfg St.init {} := by
  constructor <;> simp [St.init]

theorem populate_ok {cfg : Cfg} {s t : St} {p d : Text} {mem : Bool × Bool × Bool × Bool} (h : s.populate cfg p d mem = (t, .ok)) :
    ∃ m1 m2 l, insertTxt cfg.insert s.txt productKey p mem.1 = some m1 ∧ insertTxt cfg.insert m1 deviceKey d mem.2.1 = some m2 ∧
      insertSub s.subtypes (unique p d) mem.2.2.1 = some l ∧ t = { s with txt := m2, subtypes := l, name := unique p d } := by
  unfold St.populate at h
  split at h
  · cases h
  · rename_i m1 h1
    split at h
    · cases h
    · rename_i m2 h2
      split at h
      · cases h
      · split at h
        · cases h
        · rename_i l hl
          split at h
          · cases h; exact ⟨m1, m2, l, h1, h2, hl, rfl⟩
          · cases h

theorem populate_frame {cfg : Cfg} {s t : St} {p d : Text} {mem : Bool × Bool × Bool × Bool} {ec : Ec}
    (h : s.populate cfg p d mem = (t, ec)) (hec : ec ≠ .ok) :
    ∃ m l n, t = { s with txt := m, subtypes := l, name := n } ∧ ∀ x ∈ s.subtypes, x ∈ l := by
  unfold St.populate at h
  split at h
  · cases h; exact ⟨s.txt, s.subtypes, s.name, rfl, fun _ hx => hx⟩
  · split at h
    · cases h; exact ⟨_, s.subtypes, s.name, rfl, fun _ hx => hx⟩
    · split at h
      · cases h; exact ⟨_, s.subtypes, s.name, rfl, fun _ hx => hx⟩
      · split at h
        · cases h; exact ⟨_, s.subtypes, s.name, rfl, fun _ hx => hx⟩
        · rename_i l hl
          split at h
          · cases h; exact absurd rfl hec
          · cases h; exact ⟨_, _, _, rfl, fun x hx => (insertSub_mem hl x).mpr (.inr hx)⟩

/-- The service published again. -/
theorem reload_eq {cfg : Cfg} {s : St} {w : Want} (hi : Inv cfg s w) (m : List (Text × Text)) (l : List Text) :
    { s with txt := m, subtypes := l }.reload = { s with txt := m, subtypes := l, told := if s.server = .running then some ⟨s.port, s.name, l, m⟩ else s.told } := by
  unfold St.reload St.publish
  cases hp : s.published with
  | false =>
    have := hi.new.mpr hp
    simp [this]
  | true =>
    have : s.server ≠ .new := fun h => by simp [hi.new.mp h] at hp
    simp only [if_true, this, if_false]
    split <;> simp_all

theorem Inv.step {cfg : Cfg} {s t : St} {w : Want} {op : Op} {ec : Ec} (hi : Inv cfg s w) (h : step cfg s op = some (t, ec)) :
    Inv cfg t (w.step op ec) := by
  cases op with
  | setProduct x mem =>
    cases mem <;> (cases h; exact { hi with product := rfl })
  | setDevice x mem =>
    cases mem <;> (cases h; exact { hi with device := rfl })
  | enable =>
    simp only [Announce.step, St.enableMdns] at h
    split at h
    · cases h; exact hi
    · rename_i hc
      split at h
      · cases h; exact hi
      · rename_i hs
        cases h
        have hs' : s.state = .setup := by simpa using hs
        have hcap : cfg.cap = true := by simpa using hc
        have hp : s.published = false := by
          rcases Bool.eq_false_or_eq_true s.published with hp | hp
          · have := (hi.published.mp hp).2
            rw [(hi.early hs').1] at this
            cases this
          · exact hp
        exact { hi with
          enable := rfl
          cap := fun _ => hcap
          published := by simp [Want.step, hp, (hi.early hs').1] }
  | addSubtype x mem =>
    simp only [Announce.step, St.addSubtype] at h
    split at h
    · cases h; exact hi
    · split at h
      · cases h; exact hi
      · rename_i l hl
        cases h
        have hr := reload_eq hi s.txt l
        have he : ({ s with subtypes := l } : St) = { s with txt := s.txt, subtypes := l } := rfl
        rw [he, hr]
        exact { hi with
          told := fun hs => ⟨s.txt, by simp [show s.server = .running from hs]⟩
          sub := fun y hy => by
            simp only [Want.step, Bool.or_eq_true, beq_iff_eq] at hy
            exact (insertSub_mem hl y).mpr (hy.imp id (hi.sub y)) }
  | addTxt k v mem =>
    simp only [Announce.step, St.addTxt] at h
    split at h
    · cases h; exact hi
    · split at h
      · cases h; exact { hi with }
      · rename_i m hm
        cases h
        have hr := reload_eq hi m s.subtypes
        have he : ({ s with txt := m } : St) = { s with txt := m, subtypes := s.subtypes } := rfl
        rw [he, hr]
        exact { hi with
          told := fun hs => ⟨m, by simp [show s.server = .running from hs]⟩ }
  | start pre mem =>
    simp only [Announce.step] at h
    split at h
    · rename_i hs
      have hearly := hi.early hs
      have hpub : s.published = false := by
        rcases Bool.eq_false_or_eq_true s.published with hp | hp
        · have := (hi.published.mp hp).2
          rw [hearly.1] at this
          cases this
        · exact hp
      have hnew := hi.new.mpr hpub
      have hw0 := hi.setup.mp hs
      have hids : w.ids = none := by
        have := hi.started
        rw [hw0] at this
        simpa using this
      unfold St.start at h
      split at h
      · rename_i p d hp hd
        split at h
        · cases h; exact hi
        · split at h
          · rename_i u hpop
            cases h
            obtain ⟨m1, m2, l, _, _, hl, rfl⟩ := populate_ok hpop
            have hwp : w.product = some p := by rw [← hi.product, hp]
            have hwd : w.device = some d := by rw [← hi.device, hd]
            have hw : w.step (.start pre mem) .ok =
                { w with
                  started := true
                  ids := some (p, d)
                  subtypes := fun x => x == p ++ [45] ++ d || w.subtypes x
                  txt := fun x => if x = productKey then some p else if x = deviceKey then some d else w.txt x } := by
              simp [Want.step, hwp, hwd]
            rw [hw]
            exact {
              product := hi.product
              device := hi.device
              enable := hi.enable
              cap := hi.cap
              setup := by simp
              stop := fun hc => nomatch hs.symm.trans (hi.stop hc)
              bind := fun _ => ⟨hearly.1, by simp, fun _ => rfl⟩
              early := fun hc => nomatch hc
              closing := fun hc => nomatch hs.symm.trans (hi.closing hc)
              closed := fun hc => nomatch hs.symm.trans (hi.closed hc)
              published := hi.published
              new := hi.new
              running := hi.running
              port := hi.port
              started := rfl
              name := fun _ _ hc => by cases hc; rfl
              told := fun hc => nomatch hnew.symm.trans hc
              sub := fun y hy => by
                simp only [Bool.or_eq_true, beq_iff_eq] at hy
                exact (insertSub_mem hl y).mpr (hy.imp id (hi.sub y)) }
          · rename_i u ec' hne hpop
            cases h
            have hec : ec ≠ .ok := fun hc => hne (by rw [hc])
            obtain ⟨m, l, n, rfl, hsub⟩ := populate_frame hpop hec
            have hw : w.step (.start pre mem) ec = w := by
              cases ec <;> first | exact absurd rfl hec | rfl
            rw [hw]
            exact { hi with
              name := fun _ _ hc => by rw [hids] at hc; cases hc
              told := fun hc => nomatch hnew.symm.trans hc
              sub := fun y hy => hsub y (hi.sub y hy) }
      · cases h
        exact hi
    · cases h
  | bound q bnd att =>
    simp only [Announce.step] at h
    split at h
    · rename_i hb
      obtain ⟨hport, hns, hlive⟩ := hi.bind hb
      have hpub : s.published = false := by
        rcases Bool.eq_false_or_eq_true s.published with hp | hp
        · have := (hi.published.mp hp).2
          rw [hport] at this
          cases this
        · exact hp
      have hnew := hi.new.mpr hpub
      cases h
      have base : Inv cfg { s with binding := false, port := q } w :=
        { hi with
          bind := fun hc => nomatch hc
          early := fun hc => ⟨hport, rfl⟩
          port := fun _ hc => by rw [hport] at hc; cases hc
          told := fun hc => nomatch hnew.symm.trans hc }
      unfold St.bound
      by_cases hst : s.state = .stopped
      · have hws : w.stopped = true := by
          rcases Bool.eq_false_or_eq_true w.stopped with hw | hw
          · exact hw
          · exact nomatch hst.symm.trans (hlive hw)
        have hw : w.step (.bound q bnd att) .ok = w := by
          cases bnd <;> cases att <;> simp [Want.step, hws]
        rw [hw]
        simpa [hst] using base
      · have hrun : s.state = .running := by
          cases hc : s.state with
          | setup => exact absurd hc hns
          | running => rfl
          | stopped => exact absurd hc hst
        have hws : w.stopped = false := by
          rcases Bool.eq_false_or_eq_true w.stopped with hc | hc
          · exact absurd (hi.stop hc) hst
          · exact hc
        cases bnd with
        | false =>
          have hw : w.step (.bound q false att) .ok = w := by cases att <;> rfl
          rw [hw]
          simp only [hst, if_false, Bool.not_false, if_true]
          exact { base with
            setup := by
              have := hi.setup
              simp [hrun] at this
              simp [this]
            stop := fun _ => rfl
            early := fun hc => nomatch hc
            bind := fun hc => nomatch hc
            closing := fun _ => rfl
            closed := fun _ => rfl }
        | true =>
          cases att with
          | false =>
            have hw : w.step (.bound q true false) .ok = w := rfl
            rw [hw]
            simpa [hst] using base
          | true =>
            have hw : w.step (.bound q true true) .ok = { w with port := some q } := by simp [Want.step, hws]
            rw [hw]
            have hncl : w.closed = false := by
              rcases Bool.eq_false_or_eq_true w.closed with hc | hc
              · exact absurd (hi.closed hc) hst
              · exact hc
            by_cases hen : s.enable = true
            · have hcap := hi.cap hen
              simp only [hst, if_false, Bool.not_true, hen, hcap, Bool.and_self, if_true, St.publish, hnew, Bool.false_eq_true]
              exact { base with
                bind := fun hc => nomatch hc
                early := fun hc => nomatch hrun.symm.trans hc
                enable := by simpa [hen] using hi.enable
                cap := fun _ => hcap
                published := by simp [← hi.enable, hen]
                new := by simp
                running := by simp [hncl]
                port := fun _ hc => by cases hc; rfl
                told := fun _ => ⟨s.txt, rfl⟩ }
            · have hen' : s.enable = false := by simpa using hen
              simp only [hst, if_false, Bool.not_true, hen', Bool.false_and, Bool.false_eq_true]
              exact { base with
                bind := fun hc => nomatch hc
                early := fun hc => nomatch hrun.symm.trans hc
                enable := by simpa [hen'] using hi.enable
                cap := fun hc => nomatch hc
                published := by simp [← hi.enable, hen', hpub]
                port := fun _ hc => by cases hc; rfl }
    · cases h
  | close =>
    simp only [Announce.step] at h
    split at h
    · rename_i hs
      cases h
      have hst : w.started = true := by
        rcases Bool.eq_false_or_eq_true w.started with hc | hc
        · exact hc
        · exact nomatch hs.symm.trans (hi.setup.mpr hc)
      exact { hi with
        setup := by simp [Want.step, hst]
        stop := fun _ => rfl
        bind := fun hc => ⟨(hi.bind hc).1, by simp, fun hc => nomatch hc⟩
        early := fun hc => nomatch hc
        closing := fun _ => rfl
        closed := fun _ => rfl }
    · cases h; exact hi
  | coreClosed =>
    simp only [Announce.step] at h
    split at h
    · rename_i hc
      cases h
      have hst := hi.closing hc
      have hnew := hi.new
      exact { hi with
        closing := fun hc => nomatch hc
        closed := fun _ => hst
        new := by
          rw [← hi.new]
          cases hs : s.server <;> simp
        running := by cases hs : s.server <;> simp [Want.step]
        told := fun hc => by
          exfalso
          revert hc
          cases hs : s.server <;> simp }
    · cases h

theorem Inv.run {cfg : Cfg} (ops : List Op) : ∀ {s : St}, run cfg ops = some s → Inv cfg s (want cfg ops) := by
  induction ops using snoc_ind with
  | nil => intro s h; cases h; exact Inv.init cfg
  | snoc l a ih =>
    intro s h
    rw [run_snoc] at h
    cases hr : Announce.run cfg l with
    | none => rw [hr] at h; cases h
    | some u =>
      rw [hr] at h
      simp only [Option.bind_some, Option.map_eq_some_iff] at h
      obtain ⟨⟨t, ec⟩, hs, rfl⟩ := h
      rw [want_snoc cfg l a u t ec hr hs]
      exact (ih hr).step hs

/-- What holds when adding items and starting succeed. -/
structure Exact (s : St) (w : Want) : Prop where
  sub : ∀ t, t ∈ s.subtypes → w.subtypes t = true
  txt : ∀ k x, (k, x) ∈ s.txt ↔ w.txt k = some x
  told : s.server = .running → s.told = some ⟨s.port, s.name, s.subtypes, s.txt⟩
  reserved : w.started = false → w.txt productKey = none ∧ w.txt deviceKey = none

theorem Exact.init : Exact St.init {} := by
  constructor <;> simp [St.init]

theorem keys_ne : productKey ≠ deviceKey := by decide

theorem Exact.step {cfg : Cfg} {s t : St} {w : Want} {op : Op} {ec : Ec} (hi : Inv cfg s w) (he : Exact s w)
    (h : step cfg s op = some (t, ec)) (hd : delicate op = true → ec = .ok)
    (hr : ∀ k v m, op = .addTxt k v m → k = productKey ∨ k = deviceKey → w.started = true) : Exact t (w.step op ec) := by
  cases op with
  | setProduct x mem => cases mem <;> (cases h; exact { he with })
  | setDevice x mem => cases mem <;> (cases h; exact { he with })
  | enable =>
    simp only [Announce.step, St.enableMdns] at h
    split at h
    · cases h; exact he
    · split at h
      · cases h; exact he
      · cases h; exact { he with }
  | addSubtype x mem =>
    simp only [Announce.step, St.addSubtype] at h
    split at h
    · cases h; exact he
    · split at h
      · cases h; exact he
      · rename_i l hl
        cases h
        have hr := reload_eq hi s.txt l
        have hq : ({ s with subtypes := l } : St) = { s with txt := s.txt, subtypes := l } := rfl
        rw [hq, hr]
        exact { he with
          told := fun hs => by simp [show s.server = .running from hs]
          sub := fun y hy => by
            simp only [Want.step, Bool.or_eq_true, beq_iff_eq]
            exact ((insertSub_mem hl y).mp hy).imp id (he.sub y) }
  | addTxt k v mem =>
    have hec := hd rfl
    subst hec
    simp only [Announce.step, St.addTxt] at h
    split at h
    · cases h
    · split at h
      · cases h
      · rename_i m hm
        cases h
        have hr' := reload_eq hi m s.subtypes
        have hq : ({ s with txt := m } : St) = { s with txt := m, subtypes := s.subtypes } := rfl
        rw [hq, hr']
        exact {
          sub := he.sub
          txt := fun a b => by
            rw [insertTxt_mem (by simp) hm]
            simp only [Want.step, List.mem_filter, he.txt, bne_iff_ne, ne_eq]
            by_cases hak : a = k
            · simp [hak, eq_comm]
            · simp [hak]
          told := fun hs => by simp [show s.server = .running from hs]
          reserved := fun hw => by
            have h1 : productKey ≠ k := fun hc => nomatch hw.symm.trans (hr k v mem rfl (.inl hc.symm))
            have h2 : deviceKey ≠ k := fun hc => nomatch hw.symm.trans (hr k v mem rfl (.inr hc.symm))
            simpa [Want.step, h1, h2] using he.reserved hw }
  | start pre mem =>
    have hec := hd rfl
    subst hec
    simp only [Announce.step] at h
    split at h
    · rename_i hs
      unfold St.start at h
      split at h
      · rename_i p d hp hd
        split at h
        · cases h
        · split at h
          · rename_i u hpop
            cases h
            obtain ⟨m1, m2, l, h1, h2, hl, rfl⟩ := populate_ok hpop
            have hwp : w.product = some p := by rw [← hi.product, hp]
            have hwd : w.device = some d := by rw [← hi.device, hd]
            have hw : w.step (.start pre mem) .ok =
                { w with
                  started := true
                  ids := some (p, d)
                  subtypes := fun x => x == p ++ [45] ++ d || w.subtypes x
                  txt := fun x => if x = productKey then some p else if x = deviceKey then some d else w.txt x } := by
              simp [Want.step, hwp, hwd]
            rw [hw]
            have hres := he.reserved (hi.setup.mp hs)
            have e1 := insertTxt_mem (fun x hx => by rw [he.txt, hres.1] at hx; cases hx) h1
            have e2 := insertTxt_mem (fun x hx => by
              rw [e1, he.txt, hres.2] at hx
              rcases hx with hx | hx
              · exact keys_ne hx.1.symm
              · cases hx) h2
            have hnew : s.server ≠ .running := by
              intro hc
              have hp := hi.running.mp hc
              have := (hi.published.mp hp.1).2
              rw [(hi.early hs).1] at this
              cases this
            exact {
              sub := fun y hy => by
                simp only [Bool.or_eq_true, beq_iff_eq]
                exact ((insertSub_mem hl y).mp hy).imp id (he.sub y)
              txt := fun a b => by
                show (a, b) ∈ m2 ↔ _
                rw [e2, e1, he.txt]
                by_cases ha : a = productKey
                · subst ha
                  simp [keys_ne, hres.1]
                  exact eq_comm
                · by_cases hb : a = deviceKey
                  · subst hb
                    simp [keys_ne.symm, hres.2]
                    exact eq_comm
                  · simp [ha, hb]
              told := fun hc => absurd hc hnew
              reserved := fun hc => nomatch hc }
          · rename_i u ec' hne hpop
            cases h
            exact (hne rfl).elim
      · cases h
    · cases h
  | bound q bnd att =>
    simp only [Announce.step] at h
    split at h
    · rename_i hb
      obtain ⟨hport, hns, hlive⟩ := hi.bind hb
      have hpub : s.published = false := by
        rcases Bool.eq_false_or_eq_true s.published with hp | hp
        · have := (hi.published.mp hp).2
          rw [hport] at this
          cases this
        · exact hp
      have hnew := hi.new.mpr hpub
      cases h
      have hw : ∃ r, w.step (.bound q bnd att) .ok = { w with port := r } := by
        cases bnd <;> cases att <;> simp only [Want.step] <;> first | exact ⟨w.port, rfl⟩ | (split <;> exact ⟨_, rfl⟩)
      obtain ⟨r, hw⟩ := hw
      rw [hw]
      have base : Exact { s with binding := false, port := q } { w with port := r } :=
        { he with told := fun hc => nomatch hnew.symm.trans hc }
      unfold St.bound
      simp only
      split
      · exact base
      · split
        · exact { base with }
        · split
          · exact base
          · split
            · simp only [St.publish, hnew, if_true]
              exact { base with told := fun _ => rfl }
            · exact base
    · cases h
  | close =>
    simp only [Announce.step] at h
    split at h <;> (cases h; exact { he with })
  | coreClosed =>
    simp only [Announce.step] at h
    split at h
    · cases h
      exact { he with
        told := fun hc => by
          exfalso
          revert hc
          cases hs : s.server <;> simp }
    · cases h

theorem Exact.run {cfg : Cfg} (ops : List Op) : ∀ {s : St}, Succeeds cfg ops → Reserved cfg ops → Announce.run cfg ops = some s →
    Exact s (want cfg ops) := by
  induction ops using snoc_ind with
  | nil => intro s _ _ h; cases h; exact Exact.init
  | snoc l a ih =>
    intro s hsu hre h
    rw [run_snoc] at h
    cases hr : Announce.run cfg l with
    | none => rw [hr] at h; cases h
    | some u =>
      rw [hr] at h
      simp only [Option.bind_some, Option.map_eq_some_iff] at h
      obtain ⟨⟨t, ec⟩, hs, rfl⟩ := h
      rw [want_snoc cfg l a u t ec hr hs]
      have ih' := ih (fun b op r hl => hsu b op (r ++ [a]) (by simp [hl])) (fun b k v m r hl => hre b k v m (r ++ [a]) (by simp [hl])) hr
      refine ih'.step (Inv.run l hr) hs ?_ ?_
      · intro hd
        have := hsu l a [] rfl hd
        simpa [returns, hr, hs] using this
      · rintro k v m rfl
        exact hre l k v m [] rfl

end Verif.Device.Announce
