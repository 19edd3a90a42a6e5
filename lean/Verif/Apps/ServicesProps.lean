import Verif.Apps.ServicesLemmas

/-!
# C117 — the services and the device configuration survive their files
-/

namespace Verif.Apps

open Verif.Json (Json Bytes R Strtod enc)
open Verif.Iam (Doc)
open Verif.Iam.Spec (CString)
open Spec

/-- Services which are written are loaded again: all of them, in order, with everything. No other list is loaded from the text.
-/
theorem C117_services_round_trip (S : Strtod) (l : List Service) (h : ∀ s ∈ l, ProperService s) :
    ∃ text, (servicesText l []).1 = some text ∧ ∀ l', ServicesLoad S text l' ↔ l' = l := by
  refine ⟨Json.text (servicesDoc l), by rw [servicesText_ok], fun l' => ⟨fun h' => ?_, ?_⟩⟩
  · exact servicesLoad_unique h' (services_load S h)
  · rintro rfl
    exact services_load S h

/-- The same for the configuration of the device. -/
theorem C117_device_round_trip (S : Strtod) (dc : DeviceConfig) (h1 : dc.productId.isSome) (h2 : dc.deviceId.isSome)
    (h : ∀ s ∈ dc.productId.toList ++ dc.deviceId.toList ++ dc.server.toList, CString s) (hp : dc.serverPort ≤ 65535) :
    ∃ text, (deviceConfigText dc []).1 = some text ∧ ∀ dc', DeviceLoads S text dc' ↔ dc' = dc := by
  refine ⟨Json.text (deviceDoc dc), by rw [deviceConfigText_ok], fun dc' => ⟨?_, ?_⟩⟩
  · rintro ⟨d, g1, g2⟩
    obtain ⟨d', g1', g2'⟩ := device_load S h1 h2 h hp
    rw [g1] at g1'
    have : d = d' := Iam.map_inj d d' (Json.R.ok.inj g1')
    subst this
    rw [g2] at g2'
    exact Json.R.ok.inj g2'
  · rintro rfl
    exact device_load S h1 h2 h hp

/-- Whatever a services file says: if it is accepted, there is one service for each element, and it is the one the element
describes. -/
theorem C117_as_written (doc : Doc) (l : List Service) (h : loadServices doc = .ok l) :
    ∃ elems, doc = .arr elems ∧ elems.length = l.length ∧ ∀ p ∈ elems.zip l, Describes p.1 p.2 := by
  cases doc with
  | arr elems => exact ⟨elems, rfl, loadEach_describes h⟩
  | _ => cases h

/-- A file is accepted if every element has what a service needs, and only then. -/
theorem C117_all_or_nothing (elems : List Doc) : (∃ l, loadServices (.arr elems) = .ok l) ↔ ∀ e ∈ elems, WellFormed e := by
  constructor
  · rintro ⟨l, h⟩ e he
    obtain ⟨h1, h2⟩ := loadEach_describes h
    obtain ⟨i, hi, rfl⟩ := List.mem_iff_getElem.mp he
    have hm : (elems[i], l[i]'(by omega)) ∈ elems.zip l := by
      rw [List.mem_iff_getElem]
      exact ⟨i, by simp; omega, by simp⟩
    obtain ⟨ms, g1, g2, g3, g4, g5, g6, _⟩ := h2 _ hm
    exact ⟨ms, _, _, _, _, g1, g2, g3, g4, g5, g6⟩
  · exact loadEach_wellFormed

/-- However the write of services ended, a crash included: what is loaded from the file later is what was to be written, or
the file was not touched. -/
theorem C117_never_other_services (S : Strtod) (d : Disk) (l l' : List Service) (h : ∀ s ∈ l, ProperService s) (text : Bytes)
    (ht : (servicesText l []).1 = some text) (evs : List WEv) (io : ReadIo) (read : Bytes)
    (hr : loadJsonText (writeFile d text evs).disk (writeFile d text evs).disk io = .ok read)
    (hl : ServicesLoad S read l') : l' = l ∨ (writeFile d text evs).disk = d := by
  rw [servicesText_ok] at ht
  cases ht
  obtain ⟨f, q, h1, h2⟩ := loadJson_prefix hr
  rcases write_cases d (Json.text (servicesDoc l)) evs with ⟨_, h3, _⟩ | ⟨_, b, q', h3, h4, _⟩
  · exact .inr h3
  · left
    rw [h3] at h1
    cases h1
    rw [h2, List.append_assoc] at h4
    exact (torn_services S h h4.symm hl).2

/-- The first start of a device with no services file, undisturbed: exactly the service `ssh` on port 22 of the device itself.
-/
theorem C117_default (S : Strtod) : ∃ text, ∀ io, Complete io (some text) →
    servicesStart none (undisturbed text) io = (some text, .ok text) ∧
    ∀ l, ServicesLoad S text l ↔ l = [{ id := "ssh", type := "ssh", host := "127.0.0.1", port := 22 }] := by
  have hp : ∀ s ∈ defaultServices, ProperService s := by
    intro s hs
    simp only [defaultServices, List.mem_singleton] at hs
    subst hs
    exact ⟨by decide, by decide, by decide, by decide, by decide, by simp⟩
  obtain ⟨text, h1, h2⟩ := C117_services_round_trip S defaultServices hp
  refine ⟨text, fun io hio => ⟨?_, h2⟩⟩
  have h3 : (writeFile none text (undisturbed text)).disk = some text := by
    refine C110_success_partial none _ _ (by simp [undisturbed]) ?_
    simp [writeFile, undisturbed, Write.step]
  have h4 : saveResult (writeFile none text (undisturbed text)) = some true := by
    simp [writeFile, undisturbed, Write.step, saveResult]
  have hz : 0 ∉ text := by
    rw [servicesText_ok] at h1
    cases h1
    exact Json.print_zero _
  simp only [servicesStart, h1, h4, h3, loadJson_complete hz hio]

/-- A services file which is there is never changed by a start. -/
theorem C117_file_kept (f : Bytes) (written : List WEv) (io : ReadIo) : (servicesStart (some f) written io).1 = some f := rfl

/-- **Violated**: a crash while the default file is created leaves an empty file, with which no later start works, however
often it is tried. -/
theorem C117_first_start_violated (io : ReadIo) :
    (servicesStart none [.open true] io).1 = some [] ∧
    ∀ S written io' text l, (servicesStart (some []) written io').2 = .ok text → ¬ ServicesLoad S text l := by
  constructor
  · simp only [servicesStart, servicesText_ok]
    rfl
  · rintro S written io' text l h ⟨doc, h1, _⟩
    have h : loadJsonText (some []) (some []) io' = .ok text := h
    obtain ⟨f, q, h2, h3⟩ := loadJson_prefix h
    cases h2
    have : text = [] := (List.append_eq_nil_iff.mp h3.symm).1
    rw [this, parse_empty] at h1
    cases h1

/-- **Violated**: a port which is no port is not refused, its conversion is undefined. This is so for every such number. -/
theorem C117_port_violated (a b c : String) (i : Int) (hi : i < 0 ∨ 65535 < i) (rest : List (String × Doc)) (l : List Doc) :
    loadServices (.arr (.obj (("Id", .str a) :: ("Type", .str b) :: ("Host", .str c) :: ("Port", .num i) :: rest) :: l)) = .ub ∧
    deviceConfigFromJson (.obj (("ProductId", .str a) :: ("DeviceId", .str b) :: ("Server", .str c) ::
      ("ServerPort", .num i) :: rest)) = .ub := by
  have h : toPort i = .ub := by unfold toPort; rw [if_neg (by omega)]
  have e1 : Json.lower "Id" ≠ Json.lower "Type" := by decide
  have e2 : Json.lower "Id" ≠ Json.lower "Host" := by decide
  have e3 : Json.lower "Id" ≠ Json.lower "Port" := by decide
  have e5 : Json.lower "Type" ≠ Json.lower "Host" := by decide
  have e6 : Json.lower "Type" ≠ Json.lower "Port" := by decide
  have e8 : Json.lower "Host" ≠ Json.lower "Port" := by decide
  have d1 : Json.lower "ProductId" ≠ Json.lower "DeviceId" := by decide
  have d3 : Json.lower "ProductId" ≠ Json.lower "ServerPort" := by decide
  have d5 : Json.lower "DeviceId" ≠ Json.lower "ServerPort" := by decide
  have d6 : Json.lower "Server" ≠ Json.lower "ServerPort" := by decide
  constructor
  · simp only [loadServices, loadEach, serviceFromJson, Json.getItem, Iam.find_cons_eq, Iam.find_cons_ne e1,
      Iam.find_cons_ne e2, Iam.find_cons_ne e3, Iam.find_cons_ne e5, Iam.find_cons_ne e6, Iam.find_cons_ne e8, Json.asStr,
      Json.asNum, h, R.bind]
  · simp only [deviceConfigFromJson, Json.getItem, Iam.find_cons_eq, Iam.find_cons_ne d1, Iam.find_cons_ne d3,
      Iam.find_cons_ne d5, Iam.find_cons_ne d6, Json.asStr, Json.asNum, h, R.bind]

/-- **Violated**: without memory for one service, the others are written and success is reported. Here nothing is left of any
single service. -/
theorem C117_out_of_memory_violated (S : Strtod) (s : Service) :
    ∃ memory text, (servicesText [s] memory).1 = some text ∧ ServicesLoad S text [] := by
  refine ⟨[true, false], Json.text (servicesDoc []), ?_, services_load S (by simp)⟩
  have hs : serviceToJson s [false] = (none, []) := by
    simp only [serviceToJson, Iam.bind_run, Json.create, Json.alloc, Json.addItem, Iam.createString_ok]
    have hmm : ∀ l, (metadataMembers (some (.obj [])) l []).2 = [] := fun l => by rw [metadataMembers_ok]
    simp [Iam.pure_run, Iam.createString_ok, hmm]
  simp only [servicesText, Iam.bind_run]
  have hc : Json.create (.arr []) [true, false] = (some (.arr [] : Doc), [false]) := rfl
  rw [hc]
  simp only [Json.addAll, Iam.bind_run, hs, Json.addElem, Iam.pure_run, configText, Iam.alloc_ok]
  rfl

/-! ### The hypotheses are met -/

/-- Two services, one with metadata and a quote in its name. -/
def demoServices : List Service :=
  [⟨"ssh", "ssh", "127.0.0.1", 22, []⟩, ⟨"cam \"1\"", "rtsp", "10.0.0.7", 65535, [("rtsp-path", "/video"), ("user", "")]⟩]

example : ∀ s ∈ demoServices, ProperService s := by
  intro s hs
  simp only [demoServices, List.mem_cons, List.not_mem_nil, or_false] at hs
  rcases hs with rfl | rfl
  · exact ⟨by decide, by decide, by decide, by decide, by decide, by simp⟩
  · exact ⟨by decide, by decide, by decide, by decide, by decide, by decide⟩

example : WellFormed (.obj [("id", .str "a"), ("Type", .str "b"), ("HOST", .str "c"), ("Port", .num 80), ("Metadata", .null)]) :=
  ⟨_, "a", "b", "c", 80, rfl, rfl, rfl, rfl, rfl, by decide⟩

example : loadServices (.arr [serviceDoc ⟨"a", "b", "c", 1, []⟩, .obj [("Id", .str "x")]]) = .fail := rfl

/-- Entries which are no text are skipped, and the last one of a key counts. -/
example : loadServices (.arr [.obj [("Id", .str "a"), ("Type", .str "b"), ("Host", .str "c"), ("Port", .num 80),
    ("Metadata", .obj [("k", .str "1"), ("n", .num 4), ("k", .str "2")])]]) = .ok [⟨"a", "b", "c", 80, [("k", "2")]⟩] := rfl

example : (DeviceConfig.mk (some "pr-1") (some "de-1") none 443).productId.isSome ∧
    ∀ s ∈ (some "pr-1").toList ++ (some "de-1").toList ++ (none : Option String).toList, CString s := by decide

end Verif.Apps
