import Verif.Iam.ConfigLoadLemmas

/-!
# C145: an IAM configuration loaded when memory is short
-/

namespace Verif.Iam.ConfigLoad

open Spec

/-! ## Concrete documents -/

/-- Numbers are not used in the examples. -/
def noNum : NumSem := ⟨Unit, fun _ => none, fun _ _ => false, fun _ _ => false, fun _ _ => false⟩

/-- A statement of a document. -/
def docStmt (effect action : String) (conditions : List Doc) : Doc :=
  .obj [("Effect", .str effect), ("Actions", .arr [.str action]), ("Conditions", .arr conditions)]

/-- A condition of a document. -/
def docCond (op key : String) (values : List String) : Doc :=
  .obj [(op, .obj [(key, .arr (values.map .str))])]

/-- A document of a configuration whose unpaired role is "guest". -/
def docConf (policies roles : List Doc) : Doc :=
  .obj [("Version", .num 1), ("Policies", .arr policies), ("Roles", .arr roles),
    ("Config", .obj [("UnpairedRole", .str "guest")])]

/-- A policy of a document. -/
def docPol (id : String) (statements : List Doc) : Doc := .obj [("Id", .str id), ("Statements", .arr statements)]

/-- A role of a document. -/
def docRole (id : String) (policies : List String) : Doc :=
  .obj [("Id", .str id), ("Policies", .arr (policies.map .str))]

/-- Everybody may open the door, but for two users. -/
def denyDoc : Doc :=
  docConf [docPol "p" [docStmt "Allow" "Door:Open" [],
      docStmt "Deny" "Door:Open" [docCond "StringEquals" "Connection:Username" ["eve", "mallory"]]]]
    [docRole "guest" ["p"]]

/-- Two users may open the door. -/
def allowDoc : Doc :=
  docConf [docPol "p" [docStmt "Allow" "Door:Open" [docCond "StringEquals" "Connection:Username" ["ann", "bob"]]]]
    [docRole "guest" ["p"]]

/-- Everybody may open the door by one policy, and nobody by another. -/
def rolesDoc : Doc :=
  docConf [docPol "p" [docStmt "Allow" "Door:Open" []], docPol "q" [docStmt "Deny" "Door:Open" []]]
    [docRole "guest" ["p", "q"]]

/-- All requests but the `n`th succeed. -/
def failAt (n : Nat) : Heap := { mem := List.replicate n true ++ [false] }

/-! ## C145 -/

/-- With memory enough a document is loaded if and only if it is well formed (C16 is about the format), the configuration is the
one written in it, and every decision is the one of that configuration. -/
theorem C145_whole_partial (root : Doc) (h : Heap) (hp : Plenty h) :
    ((load {} (some root) h).1 = true ↔ ∃ c, configFromJson ⟨[], [], none⟩ root = some c) ∧
    ∀ c, configFromJson ⟨[], [], none⟩ root = some c →
      (load {} (some root) h).2.1 = whole c ∧
      ∀ N role action attributes, access N (load {} (some root) h).2.1 role action attributes = some .allow ↔
        granted N c role action attributes := by
  have := load_plenty root h hp
  cases hc : configFromJson ⟨[], [], none⟩ root with
  | none =>
    rw [hc] at this
    dsimp only at this
    exact ⟨⟨(fun h => by rw [this] at h; cases h), (fun ⟨_, h⟩ => by cases h)⟩, (fun _ h => by cases h)⟩
  | some c =>
    rw [hc] at this
    refine ⟨⟨fun _ => ⟨c, rfl⟩, fun _ => this.1⟩, ?_⟩
    intro c' hc'
    cases hc'
    refine ⟨this.2, ?_⟩
    intro N role action attributes
    rw [this.2, access_whole]
    unfold granted
    cases findRole c role with
    | none => exact ⟨(fun h => by cases h), (fun ⟨_, h, _⟩ => by cases h)⟩
    | some r =>
      simp only [Option.some.injEq]
      exact ⟨(fun h => ⟨r, rfl, h⟩), (fun ⟨r', h, h'⟩ => by rw [h]; exact h')⟩

example : Plenty { mem := [true, true] } ∧ (load {} (some denyDoc) { mem := [true, true] }).1 = true ∧
    access noNum (load {} (some denyDoc) { mem := [true, true] }).2.1 (some "guest") "Door:Open"
      [("Connection:Username", "eve")] = some .deny ∧
    access noNum (load {} (some denyDoc) { mem := [true, true] }).2.1 (some "guest") "Door:Open"
      [("Connection:Username", "ann")] = some .allow := by
  refine ⟨?_, by decide +kernel, by decide +kernel, by decide +kernel⟩
  intro b hb
  simpa using hb

/-- Whichever requests for memory fail, if the load succeeds then the document is well formed, and what may be missing of
the configuration is: keys and values of conditions, policies of roles, and the unpaired role. The policies, the
statements, their effects, their actions and the number of their conditions are those of the document. -/
theorem C145_missing_partial (root : Doc) (h : Heap) (ht : (load {} (some root) h).1 = true) :
    ∃ c, configFromJson ⟨[], [], none⟩ root = some c ∧ Less (load {} (some root) h).2.1 c :=
  load_less ht

/-- A configuration which only allows, under conditions on strings: whichever requests for memory fail, nothing is granted
which the document does not grant, to a user with any role, and to those without by the unpaired role. -/
theorem C145_no_wider_partial (root : Doc) (h : Heap) (ht : (load {} (some root) h).1 = true) (c : Config)
    (hc : configFromJson ⟨[], [], none⟩ root = some c) (ha : AllowOnly c) (N : NumSem) (action : String)
    (attributes : Attrs) :
    (∀ role, access N (load {} (some root) h).2.1 role action attributes = some .allow →
      granted N c role action attributes) ∧
    (access N (load {} (some root) h).2.1 (load {} (some root) h).2.1.unpairedRole action attributes = some .allow →
      granted N c c.unpairedRole action attributes) := by
  obtain ⟨c', hc', hl⟩ := load_less ht
  rw [hc] at hc'
  cases hc'
  refine ⟨fun role h => access_less hl ha h, ?_⟩
  intro h
  rcases hl.unpaired with hu | hu
  · rw [hu] at h; cases h
  · rw [hu] at h; exact access_less hl ha h

/-- A value is lost, and the load succeeds: the one may still open the door, the other may not. -/
example : ∃ c, configFromJson ⟨[], [], none⟩ allowDoc = some c ∧ AllowOnly c ∧
    (load {} (some allowDoc) (failAt 6)).1 = true ∧
    access noNum (load {} (some allowDoc) (failAt 6)).2.1 (some "guest") "Door:Open"
      [("Connection:Username", "ann")] = some .noMatch ∧
    access noNum (load {} (some allowDoc) (failAt 6)).2.1 (some "guest") "Door:Open"
      [("Connection:Username", "bob")] = some .allow := by
  refine ⟨⟨[⟨"p", [⟨.allow, ["Door:Open"], [⟨.stringEquals, "Connection:Username", ["ann", "bob"]⟩]⟩]⟩],
    [⟨"guest", ["p"]⟩], some "guest"⟩, by decide +kernel, ⟨?_, ?_, ?_⟩, by decide +kernel, by decide +kernel,
    by decide +kernel⟩
  · simp
  · simp
  · simp

/-- Whichever requests for memory fail, whatever the document and the configuration it is loaded into, and whether the load
succeeds: the blocks handed out and not given back are those the configuration holds afterwards and did not hold before. -/
theorem C145_memory_partial (conf : Conf) (root : Option Doc) (h : Heap) :
    (load conf root h).2.2.made + h.freed + conf.size =
      h.made + (load conf root h).2.2.freed + (load conf root h).2.1.size :=
  load_bal conf root h

/-- The load fails at the second statement, and what was made of the policy is given back. -/
example : (load {} (some denyDoc) (failAt 5)).1 = false ∧ (load {} (some denyDoc) (failAt 5)).2.1 = {} ∧
    (load {} (some denyDoc) (failAt 5)).2.2.made = 5 ∧ (load {} (some denyDoc) (failAt 5)).2.2.freed = 5 := by
  decide +kernel

/-- A value of a condition of a statement which denies is lost, and the load succeeds: the user is let in whom the document
keeps out. -/
theorem C145_value_lost_violated :
    ∃ (root : Doc) (c : Config) (h : Heap) (attributes : Attrs), configFromJson ⟨[], [], none⟩ root = some c ∧
      (load {} (some root) h).1 = true ∧
      access noNum (load {} (some root) h).2.1 (some "guest") "Door:Open" attributes = some .allow ∧
      ¬ granted noNum c (some "guest") "Door:Open" attributes := by
  refine ⟨denyDoc, ⟨[⟨"p", [⟨.allow, ["Door:Open"], []⟩,
    ⟨.deny, ["Door:Open"], [⟨.stringEquals, "Connection:Username", ["eve", "mallory"]⟩]⟩]⟩],
    [⟨"guest", ["p"]⟩], some "guest"⟩, failAt 8, [("Connection:Username", "eve")], by decide +kernel,
    by decide +kernel, by decide +kernel, ?_⟩
  rintro ⟨r, hr, hd⟩
  have : r = ⟨"guest", ["p"]⟩ := by
    have h2 : some r = some (⟨"guest", ["p"]⟩ : Role) := by rw [← hr]; decide +kernel
    exact Option.some.inj h2
  subst this
  revert hd
  decide +kernel

/-- A policy of a role is lost, and the load succeeds: if it is one which denies, everybody is let in whom it keeps out. -/
theorem C145_policy_lost_violated :
    ∃ (root : Doc) (c : Config) (h : Heap), configFromJson ⟨[], [], none⟩ root = some c ∧
      (load {} (some root) h).1 = true ∧
      access noNum (load {} (some root) h).2.1 (some "guest") "Door:Open" [] = some .allow ∧
      ¬ granted noNum c (some "guest") "Door:Open" [] := by
  refine ⟨rolesDoc, ⟨[⟨"p", [⟨.allow, ["Door:Open"], []⟩]⟩, ⟨"q", [⟨.deny, ["Door:Open"], []⟩]⟩],
    [⟨"guest", ["p", "q"]⟩], some "guest"⟩, failAt 11, by decide +kernel, by decide +kernel, by decide +kernel, ?_⟩
  rintro ⟨r, hr, hd⟩
  have : r = ⟨"guest", ["p", "q"]⟩ := by
    have h2 : some r = some (⟨"guest", ["p", "q"]⟩ : Role) := by rw [← hr]; decide +kernel
    exact Option.some.inj h2
  subst this
  revert hd
  decide +kernel

/-- The key of a condition is lost, and the load succeeds: each decision on an action of that statement, with whatever
attributes and for every role which has the policy, compares with NULL. -/
theorem C145_key_lost_violated :
    ∃ (root : Doc) (h : Heap), (load {} (some root) h).1 = true ∧
      ∀ (N : NumSem) (attributes : Attrs),
        access N (load {} (some root) h).2.1 (some "guest") "Door:Open" attributes = none := by
  refine ⟨allowDoc, failAt 5, by decide +kernel, ?_⟩
  intro N attributes
  have : (load {} (some allowDoc) (failAt 5)).2.1 =
      ⟨[⟨"p", [⟨.allow, ["Door:Open"], [⟨.stringEquals, none, ["ann", "bob"]⟩]⟩]⟩], [⟨"guest", ["p"]⟩],
        some "guest"⟩ := by decide +kernel
  rw [this]
  rfl

/-- A load which fails leaves what it had loaded in the configuration: a configuration without policies has one
afterwards. -/
theorem C145_half_loaded_violated :
    ∃ (root : Doc) (h : Heap), (load {} (some root) h).1 = false ∧
      (load {} (some root) h).2.1.policies ≠ [] := by
  exact ⟨rolesDoc, failAt 4, by decide +kernel, by decide +kernel⟩

end Verif.Iam.ConfigLoad
