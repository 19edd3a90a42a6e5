import Verif.Apps.ServicesSpec
import Verif.Apps.FilesProps

/-! Lemmas for C117. -/

namespace Verif.Apps

open Verif.Json (Json Bytes R Strtod M create createString addItem addElem addAll addOpt alloc getItem asStr asNum find enc lower)
open Verif.Iam (Doc bind_run pure_run alloc_ok create_ok createString_ok addItem_ok addOpt_ok addAll_ok optMember Good
  good_cons good_opt good_append find_cons_ne find_cons_eq find_nil find_opt_ne find_opt_end_ne asStr_opt asStr_opt_end)
open Verif.Iam.Spec (CString)
open Spec

/-! ## Dumping -/

/-- The document of metadata. -/
def metadataDoc (l : List (String × String)) : List (String × Doc) := l.map (fun e => (e.1, .str e.2))

theorem metadataMembers_ok (l : List (String × String)) (o : List (String × Doc)) :
    metadataMembers (some (.obj o)) l [] = (some (.obj (o ++ metadataDoc l)), []) := by
  induction l generalizing o with
  | nil => simp [metadataMembers, metadataDoc, pure_run]
  | cons e l ih =>
    obtain ⟨k, v⟩ := e
    simp only [metadataMembers, bind_run, createString_ok, addItem_ok]
    rw [ih]
    simp [metadataDoc]

/-- The document of a service. -/
def serviceDoc (s : Service) : Doc :=
  .obj [("Id", .str s.id), ("Type", .str s.type), ("Host", .str s.host), ("Port", .num s.port),
    ("Metadata", .obj (metadataDoc s.metadata))]

theorem serviceToJson_ok (s : Service) : serviceToJson s [] = (some (serviceDoc s), []) := by
  simp only [serviceToJson, bind_run, create_ok, createString_ok, addItem_ok, metadataMembers_ok, List.nil_append,
    List.cons_append, serviceDoc]

/-- The document of services. -/
def servicesDoc (l : List Service) : Doc := .arr (l.map serviceDoc)

theorem servicesText_ok (l : List Service) : servicesText l [] = (some (Json.text (servicesDoc l)), []) := by
  simp only [servicesText, bind_run, create_ok, addAll_ok serviceToJson_ok, List.nil_append, configText, alloc_ok,
    servicesDoc]
  rfl

theorem cstring_port (p : Nat) (h : p ≤ 65535) : Json.isInt (p : Int) := by
  unfold Json.isInt; omega

theorem good_services {l : List Service} (h : ∀ s ∈ l, ProperService s) : Good 0 (servicesDoc l) := by
  apply Good.arr (by decide)
  intro x hx
  rw [List.mem_map] at hx
  obtain ⟨s, hs, rfl⟩ := hx
  obtain ⟨h1, h2, h3, h4, h5, h6⟩ := h s hs
  apply Good.obj (by decide)
  refine good_cons (by decide) (.str h1) (good_cons (by decide) (.str h2) (good_cons (by decide) (.str h3)
    (good_cons (by decide) (.num (cstring_port _ h4)) (good_cons (by decide) (Good.obj (by decide) ?_) (by simp)))))
  intro m hm
  rw [metadataDoc, List.mem_map] at hm
  obtain ⟨e, he, rfl⟩ := hm
  exact ⟨(h6 e he).1, .str (h6 e he).2⟩

/-! ## Loading -/

theorem loadMetadata_doc (l m : List (String × String)) (h : ((m ++ l).map (·.1)).Nodup) :
    loadMetadata m (metadataDoc l) = m ++ l := by
  induction l generalizing m with
  | nil => simp [metadataDoc, loadMetadata]
  | cons e l ih =>
    obtain ⟨k, v⟩ := e
    simp only [metadataDoc, List.map_cons, loadMetadata]
    have hk : k ∉ m.map (·.1) := by
      intro hk
      simp only [List.map_append, List.map_cons] at h
      rw [List.nodup_append] at h
      exact h.2.2 _ hk _ (by simp) rfl
    rw [mapInsert, if_neg hk]
    have := ih (m ++ [(k, v)]) (by simpa using h)
    simpa [metadataDoc] using this

theorem toPort_ok {p : Nat} (h : p ≤ 65535) : toPort p = .ok p := by
  unfold toPort
  rw [if_pos (by omega)]
  rfl

theorem serviceFromJson_doc {s : Service} (h : ProperService s) : serviceFromJson (serviceDoc s) = .ok s := by
  obtain ⟨h1, h2, h3, h4, h5, h6⟩ := h
  have e1 : lower "Id" ≠ lower "Type" := by decide
  have e2 : lower "Id" ≠ lower "Host" := by decide
  have e3 : lower "Id" ≠ lower "Port" := by decide
  have e4 : lower "Id" ≠ lower "Metadata" := by decide
  have e5 : lower "Type" ≠ lower "Host" := by decide
  have e6 : lower "Type" ≠ lower "Port" := by decide
  have e7 : lower "Type" ≠ lower "Metadata" := by decide
  have e8 : lower "Host" ≠ lower "Port" := by decide
  have e9 : lower "Host" ≠ lower "Metadata" := by decide
  have e10 : lower "Port" ≠ lower "Metadata" := by decide
  simp only [serviceFromJson, serviceDoc, getItem, find_cons_eq, find_cons_ne e1, find_cons_ne e2, find_cons_ne e3,
    find_cons_ne e4, find_cons_ne e5, find_cons_ne e6, find_cons_ne e7, find_cons_ne e8, find_cons_ne e9, find_cons_ne e10,
    asStr, asNum, toPort_ok h4, R.bind, loadMetadata_doc s.metadata [] (by simpa using h5), List.nil_append]

theorem loadEach_doc {l : List Service} (h : ∀ s ∈ l, ProperService s) : loadEach (l.map serviceDoc) = .ok l := by
  induction l with
  | nil => rfl
  | cons s l ih =>
    simp only [List.map_cons, loadEach, serviceFromJson_doc (h s (by simp)), ih (fun x hx => h x (by simp [hx])), R.bind]

theorem services_load (S : Strtod) {l : List Service} (h : ∀ s ∈ l, ProperService s) :
    ServicesLoad S (Json.text (servicesDoc l)) l :=
  ⟨servicesDoc l, Json.C70_parse_print S _ (good_services h), loadEach_doc h⟩

theorem servicesLoad_unique {S text l l'} (h : ServicesLoad S text l) (h' : ServicesLoad S text l') : l = l' := by
  obtain ⟨d, h1, h2⟩ := h
  obtain ⟨d', h1', h2'⟩ := h'
  rw [h1] at h1'
  have : d = d' := Iam.map_inj d d' (Json.R.ok.inj h1')
  subst this
  rw [h2] at h2'
  exact Json.R.ok.inj h2'

/-- A part of the text of services which loads is the whole text. -/
theorem torn_services (S : Strtod) {l l' : List Service} {p q : Bytes} (h : ∀ s ∈ l, ProperService s)
    (hp : Json.text (servicesDoc l) = p ++ q) (hl : ServicesLoad S p l') : q = [] ∧ l' = l := by
  have hq : q = [] := by
    by_cases hq : q = []
    · exact hq
    · exfalso
      obtain ⟨doc, h1, _⟩ := hl
      refine Json.parse_torn S (v := (servicesDoc l).map Json.enc) (good_services h) hp hq ?_ _ h1
      intro i
      simp [servicesDoc, Json.Json.map]
  refine ⟨hq, ?_⟩
  rw [hq, List.append_nil] at hp
  rw [← hp] at hl
  exact servicesLoad_unique hl (services_load S h)

/-! ## What is loaded -/

theorem find_member (ms : List (String × Doc)) (name : String) : find ms name = member ms name := by
  induction ms with
  | nil => rfl
  | cons m ms ih =>
    unfold find member
    by_cases h : lower m.1 = lower name
    · simp [h]
    · simp only [h, if_false, ih]
      simp [member, h]

theorem lookup_mapInsert (m : List (String × String)) (k v key : String) :
    (mapInsert m k v).lookup key = if key = k then some v else m.lookup key := by
  unfold mapInsert
  split
  · next hk =>
    induction m with
    | nil => simp at hk
    | cons e m ih =>
      obtain ⟨a, b⟩ := e
      simp only [List.map_cons, List.mem_cons] at hk
      simp only [List.map_cons]
      by_cases ha : a = k
      · subst ha
        simp only [if_true]
        by_cases hkey : key = a
        · subst hkey; simp [List.lookup]
        · have : (key == a) = false := by simp [hkey]
          simp only [List.lookup, this, if_neg hkey]
          clear ih hk
          induction m with
          | nil => rfl
          | cons e m ih =>
            obtain ⟨x, y⟩ := e
            by_cases hx : x = a
            · subst hx
              simp only [List.map_cons, if_true, List.lookup, this, ih]
            · simp only [List.map_cons, if_neg hx, List.lookup]
              cases key == x
              · exact ih
              · rfl
      · rw [if_neg ha]
        have hm : k ∈ m.map (·.1) := by
          rcases hk with hk | hk
          · exact absurd hk.symm ha
          · exact hk
        simp only [List.lookup]
        by_cases hkey : key = a
        · subst hkey
          simp [ha]
        · have : (key == a) = false := by simp [hkey]
          simp only [this]
          exact ih hm
  · next hk =>
    induction m with
    | nil =>
      simp only [List.nil_append, List.lookup]
      by_cases h : key = k
      · subst h; simp
      · have : (key == k) = false := by simp [h]
        simp [this, h]
    | cons e m ih =>
      obtain ⟨a, b⟩ := e
      simp only [List.map_cons, List.mem_cons, not_or] at hk
      simp only [List.cons_append, List.lookup]
      by_cases hkey : key = a
      · subst hkey
        have : ¬ key = k := fun h => hk.1 h.symm
        simp [this]
      · have : (key == a) = false := by simp [hkey]
        simp only [this]
        exact ih hk.2

theorem lookup_loadMetadata (l : List (String × Doc)) (m : List (String × String)) (key : String) :
    (loadMetadata m l).lookup key = match lastText l key with
      | some v => some v
      | none => m.lookup key := by
  induction l generalizing m with
  | nil => simp [loadMetadata, lastText]
  | cons e l ih =>
    obtain ⟨k, x⟩ := e
    cases x with
    | str v =>
      simp only [loadMetadata]
      rw [ih, lookup_mapInsert]
      unfold lastText
      by_cases hk : k = key
      · subst hk
        simp only [List.filterMap_cons, if_true, List.getLast?_cons]
        cases (List.filterMap (fun m => match m.2 with
          | .str v => if m.1 = k then some v else none
          | _ => none) l).getLast? <;> simp
      · have hk' : ¬ key = k := fun h => hk h.symm
        simp only [List.filterMap_cons, if_neg hk, if_neg hk']
    | _ =>
      simp only [loadMetadata]
      rw [ih]
      simp only [lastText, List.filterMap_cons]

theorem asStr_some {j : Option Doc} {s : String} (h : asStr j = some s) : j = some (.str s) := by
  cases j with
  | none => cases h
  | some j => cases j <;> simp_all [asStr]

theorem asNum_some {j : Option Doc} {i : Int} (h : asNum j = some i) : j = some (.num i) := by
  cases j with
  | none => cases h
  | some j => cases j <;> simp_all [asNum]

theorem toPort_some {i : Int} {p : Nat} (h : toPort i = .ok p) : i = p ∧ p ≤ 65535 := by
  unfold toPort at h
  split at h
  · cases h
    omega
  · cases h

theorem serviceFromJson_describes {j : Doc} {s : Service} (h : serviceFromJson j = .ok s) : Describes j s := by
  unfold serviceFromJson at h
  cases j with
  | obj ms =>
    simp only at h
    split at h
    · next id type host port h1 h2 h3 h4 =>
      obtain ⟨p, h5, h6⟩ := Json.R.bind_ok h
      simp only [R.ok.injEq] at h6
      obtain ⟨rfl, hp⟩ := toPort_some h5
      have h1 := asStr_some h1
      have h2 := asStr_some h2
      have h3 := asStr_some h3
      have h4 := asNum_some h4
      simp only [getItem, find_member] at h1 h2 h3 h4 h6
      subst h6
      refine ⟨ms, rfl, h1, h2, h3, h4, hp, ?_⟩
      intro key
      simp only
      cases hm : member ms "Metadata" with
      | none => rfl
      | some x =>
        cases x with
        | obj l =>
          simp only
          rw [lookup_loadMetadata]
          cases lastText l key <;> rfl
        | _ => rfl
    · cases h
  | _ => cases h

theorem serviceFromJson_wellFormed {j : Doc} (h : WellFormed j) : ∃ s, serviceFromJson j = .ok s := by
  obtain ⟨ms, a, b, c, p, rfl, h1, h2, h3, h4, hp⟩ := h
  simp only [serviceFromJson, getItem, find_member, h1, h2, h3, h4, asStr, asNum, toPort_ok hp, R.bind]
  exact ⟨_, rfl⟩

theorem loadEach_describes {l : List Doc} {r : List Service} (h : loadEach l = .ok r) :
    l.length = r.length ∧ ∀ p ∈ l.zip r, Describes p.1 p.2 := by
  induction l generalizing r with
  | nil => cases h; simp
  | cons j l ih =>
    rw [loadEach] at h
    obtain ⟨s, h1, h2⟩ := Json.R.bind_ok h
    obtain ⟨rest, h3, h4⟩ := Json.R.bind_ok h2
    cases h4
    obtain ⟨h5, h6⟩ := ih h3
    refine ⟨by simp [h5], ?_⟩
    intro p hp
    rw [List.zip_cons_cons, List.mem_cons] at hp
    rcases hp with rfl | hp
    · exact serviceFromJson_describes h1
    · exact h6 p hp

theorem loadEach_wellFormed {l : List Doc} (h : ∀ j ∈ l, WellFormed j) : ∃ r, loadEach l = .ok r := by
  induction l with
  | nil => exact ⟨[], rfl⟩
  | cons j l ih =>
    obtain ⟨s, hs⟩ := serviceFromJson_wellFormed (h j (by simp))
    obtain ⟨r, hr⟩ := ih (fun x hx => h x (by simp [hx]))
    exact ⟨s :: r, by simp only [loadEach, hs, hr, R.bind]⟩

/-! ## Files -/

/-- What is read is a part of the file. -/
theorem loadJson_prefix {a d : Disk} {io : ReadIo} {text : Bytes} (h : loadJsonText a d io = .ok text) :
    ∃ f q, d = some f ∧ f = text ++ q := by
  unfold loadJsonText at h
  cases a with
  | none => cases h
  | some s =>
    simp only at h
    split at h
    · cases h
    · cases d with
      | none => cases h
      | some f =>
        simp only at h
        split at h
        · cases h
        · split at h
          · cases h
          · split at h
            · cases h
            · unfold cString at h
              split at h
              · simp only [R.ok.injEq] at h
                unfold readBuffer at h
                simp only at h
                rw [takeWhile_zeros] at h
                obtain ⟨q, hq⟩ := takeWhile_prefix (f.take (min io.delivered (s.length + 1)))
                rw [h] at hq
                refine ⟨f, q ++ f.drop (min io.delivered (s.length + 1)), rfl, ?_⟩
                rw [← List.append_assoc, ← hq, List.take_append_drop]
              · cases h

theorem loadJson_complete {f : Bytes} {io : ReadIo} (hz : 0 ∉ f) (hio : Complete io (some f)) :
    loadJsonText (some f) (some f) io = .ok f := by
  obtain ⟨h1, h2, h3, h4⟩ := hio
  have h4 := h4 f rfl
  unfold loadJsonText
  simp only [h1, h2, h3, Bool.not_true, Bool.false_eq_true, if_false]
  have hb : readBuffer f.length f io.delivered = f ++ [0] := by
    unfold readBuffer
    simp only
    rw [List.take_of_length_le (by omega)]
    simp
  rw [List.take_of_length_le (by omega), if_neg (by omega), hb, cString, if_pos (by simp)]
  rw [show f ++ [0] = f ++ List.replicate 1 0 from rfl, takeWhile_zeros, takeWhile_nonzero hz]

theorem parse_empty (S : Strtod) : Json.parse S [] = .fail := by
  unfold Json.parse Json.parseValue
  simp [Json.skipBom, Json.skipWs, Json.starts, R.bind]

/-! ## Device configuration -/

/-- The member of the port. -/
def portMember (p : Nat) : List (String × Doc) := if p ≠ 0 then [("ServerPort", .num p)] else []

/-- The document of a device configuration. -/
def deviceDoc (dc : DeviceConfig) : Doc :=
  .obj (optMember "ProductId" dc.productId ++ (optMember "DeviceId" dc.deviceId ++ (optMember "Server" dc.server ++
    portMember dc.serverPort)))

theorem deviceConfigText_ok (dc : DeviceConfig) : deviceConfigText dc [] = (some (Json.text (deviceDoc dc)), []) := by
  simp only [deviceConfigText, bind_run, create_ok, addOpt_ok, List.nil_append, deviceDoc, portMember]
  split <;> simp [bind_run, create_ok, addItem_ok, pure_run, configText, alloc_ok]

theorem good_device {dc : DeviceConfig} (h : ∀ s ∈ dc.productId.toList ++ dc.deviceId.toList ++ dc.server.toList, CString s)
    (hp : dc.serverPort ≤ 65535) : Good 0 (deviceDoc dc) := by
  apply Good.obj (by decide)
  refine good_append (good_opt (by decide) (fun s hs => h s (by simp_all)))
    (good_append (good_opt (by decide) (fun s hs => h s (by simp_all)))
      (good_append (good_opt (by decide) (fun s hs => h s (by simp_all))) ?_))
  intro m hm
  unfold portMember at hm
  split at hm
  · simp only [List.mem_singleton] at hm
    subst hm
    exact ⟨(by decide : CString "ServerPort"), .num (cstring_port _ hp)⟩
  · simp at hm

theorem find_port_ne {p n} (h : lower "ServerPort" ≠ lower n) : find (portMember p) n = none := by
  unfold portMember
  split
  · rw [find_cons_ne h]; rfl
  · rfl

theorem deviceConfigFromJson_doc {dc : DeviceConfig} (h1 : dc.productId.isSome) (h2 : dc.deviceId.isSome)
    (hp : dc.serverPort ≤ 65535) : deviceConfigFromJson (deviceDoc dc) = .ok dc := by
  obtain ⟨pid, did, server, port⟩ := dc
  obtain ⟨pid, rfl⟩ := Option.isSome_iff_exists.mp h1
  obtain ⟨did, rfl⟩ := Option.isSome_iff_exists.mp h2
  have e1 : lower "ProductId" ≠ lower "DeviceId" := by decide
  have e2 : lower "ProductId" ≠ lower "Server" := by decide
  have e3 : lower "ProductId" ≠ lower "ServerPort" := by decide
  have e4 : lower "DeviceId" ≠ lower "Server" := by decide
  have e5 : lower "DeviceId" ≠ lower "ServerPort" := by decide
  have e6 : lower "Server" ≠ lower "ServerPort" := by decide
  have e7 : lower "ServerPort" ≠ lower "Server" := by decide
  have hz : find (portMember port) "Server" = none := find_port_ne e7
  have hn : asNum (find (portMember port) "ServerPort") = if port ≠ 0 then some (port : Int) else none := by
    unfold portMember
    by_cases h0 : port = 0
    · subst h0; rfl
    · simp only [ne_eq, h0, not_false_eq_true, if_true, find_cons_eq, asNum]
  cases server <;>
  · simp only [optMember, deviceConfigFromJson, deviceDoc, getItem, List.cons_append, List.nil_append, find_cons_eq,
      find_cons_ne e1, find_cons_ne e2, find_cons_ne e3, find_cons_ne e4, find_cons_ne e5, find_cons_ne e6, asStr, hz, hn]
    by_cases h0 : port = 0
    · subst h0; rfl
    · simp only [ne_eq, h0, not_false_eq_true, if_true, toPort_ok hp, R.bind]

theorem device_load (S : Strtod) {dc : DeviceConfig} (h1 : dc.productId.isSome) (h2 : dc.deviceId.isSome)
    (h : ∀ s ∈ dc.productId.toList ++ dc.deviceId.toList ++ dc.server.toList, CString s) (hp : dc.serverPort ≤ 65535) :
    DeviceLoads S (Json.text (deviceDoc dc)) dc :=
  ⟨deviceDoc dc, Json.C70_parse_print S _ (good_device h hp), deviceConfigFromJson_doc h1 h2 hp⟩

end Verif.Apps
