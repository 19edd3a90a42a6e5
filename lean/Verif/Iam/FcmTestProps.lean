import Verif.Iam.FcmTestLemmas
import Verif.Iam.AccessProps
import Verif.Json.CjsonProps

/-!
# C150: a test notification goes to the device of its user, with the text of the test
-/

namespace Verif.Iam.FcmTest

open Verif.Json
open Verif.Iam.Spec (FirstWith)
open Spec

/-- C150, whom it goes to: a notification is sent only if the client may test notifications of this user, and then it is for
the project and the token of this user. -/
theorem C150_target (E : Env) (iam : Iam) (ci : ConnInfo) (ref : Nat) (user : Option String) (mem : Bool) (p : String)
    (b : Bytes) (h : request E iam ci ref user mem = .send p b) :
    ∃ name u t, user = some name ∧
      checkAccess E iam ci ref "IAM:SendUserFcmTest" (E.ins [] "IAM:Username" name) = .ok true ∧
      FirstWith (fun u => u.username = name) iam.state.users u ∧ u.fcmProjectId = some p ∧ u.fcmToken = some t ∧
      b = noti1 ++ enc t ++ noti2 := by
  unfold request at h
  split at h
  · cases h
  · rename_i name
    split at h
    · cases h
    · cases h
    · rename_i ha
      split at h
      · cases h
      · rename_i u hu
        split at h
        · rename_i t p' ht hp
          split at h
          · cases h
            refine ⟨name, u, t, rfl, ha, ?_, hp, ht, rfl⟩
            have hu : iam.state.users.find? (fun x => x.username == name) = some u := hu
            obtain ⟨hn, pre, post, h1, h2⟩ := List.find?_eq_some_iff_append.1 hu
            exact ⟨pre, post, h1, by simpa using hn, fun w hw => by simpa using h2 w hw⟩
          · cases h
        · cases h

/-- C150, when: with memory enough, every user who has a token and a project gets the test which someone may send. -/
theorem C150_sent (E : Env) (iam : Iam) (ci : ConnInfo) (ref : Nat) (name : String) (u : User) (t p : String)
    (ha : checkAccess E iam ci ref "IAM:SendUserFcmTest" (E.ins [] "IAM:Username" name) = .ok true)
    (hu : FirstWith (fun u => u.username = name) iam.state.users u) (hp : u.fcmProjectId = some p)
    (ht : u.fcmToken = some t) : ∃ b, request E iam ci ref (some name) true = .send p b := by
  refine ⟨noti1 ++ enc t ++ noti2, ?_⟩
  obtain ⟨pre, post, h1, h2, h3⟩ := hu
  have hf : findUser iam.state (some name) = some u := by
    show iam.state.users.find? (fun x => x.username == name) = some u
    rw [List.find?_eq_some_iff_append]
    exact ⟨by simpa using h2, pre, post, h1, fun w hw => by simpa using h3 w hw⟩
  unfold request
  simp only [ha, hf, ht, hp, if_true]
  rfl

/-- C150, who may not: a client whom the configuration does not let test the notifications of a user is told so, and learns
nothing about the user. -/
theorem C150_denied (E : Env) (iam : Iam) (ci : ConnInfo) (ref : Nat) (name : String) (mem : Bool)
    (ha : checkAccess E iam ci ref "IAM:SendUserFcmTest" (E.ins [] "IAM:Username" name) = .ok false) :
    request E iam ci ref (some name) mem = .error 403 := by
  unfold request
  simp only [ha]

/-- C150, the text: for a token of plain text the payload is the test notification for this token. -/
theorem C150_text_partial (S : Strtod) (t : String) (h : Plain t) :
    parse S (noti1 ++ enc t ++ noti2) = .ok (testMessage (enc t)) := by
  have hz := plain_zero h
  have e : noti1 ++ enc t ++ noti2 ++ [0] =
      123 :: (printString mMessage ++ 58 :: 32 :: 123 :: 32 :: (printString mNotification ++
      58 :: 32 :: 123 :: 32 :: (printString mTitle ++ 58 :: 32 :: (printString mTest ++ 44 :: 32 :: (printString mBody ++
      58 :: 32 :: (printString mWorking ++ 32 :: 125 :: 44 :: 32 :: (printString mToken ++
      58 :: 32 :: (printString (enc t) ++ [32, 125, 32, 125, 0])))))))) := by
    rw [noti1_eq, noti2_eq, print_plain h]
    simp only [List.append_assoc, List.cons_append, List.nil_append]
  have hlen : 11 ≤ 3 * (noti1 ++ enc t ++ noti2).length + 6 := by
    rw [noti2_eq]
    simp
    omega
  obtain ⟨n, hn⟩ := Nat.exists_eq_add_of_le hlen
  unfold parse
  rw [hn, e, Nat.add_comm 11 n]
  have hb : ∀ l : Bytes, skipBom (123 :: l) = 123 :: l := by
    intro l
    unfold skipBom
    rw [starts_ne (by decide), if_neg (by simp)]
  rw [hb, parse_head S (ms := []) (r := [0]) hz n (Or.inl ⟨[0], skipWs_blank (by decide), rfl, rfl⟩)]
  rfl

/-- C150 does not hold for the text: a token with a quote in it ends the token and adds to the message. Who may set the token
of a user chooses for instance a second title `t`, whatever plain texts `x` and `t` are. -/
theorem C150_text_violated (S : Strtod) (x t : String) (hx : Plain x) (ht : Plain t) :
    parse S (noti1 ++ enc (crafted x t) ++ noti2) = .ok (craftedMessage (enc x) (enc t)) ∧
    craftedMessage (enc x) (enc t) ≠ testMessage (enc (crafted x t)) := by
  constructor
  · have enc_append : ∀ a b, enc (a ++ b) = enc a ++ enc b := by
      intro a b
      simp [enc]
    have m1 : enc "\", \"notification\": { \"title\": \"" = 34 :: 44 :: 32 :: (printString mNotification ++
        58 :: 32 :: 123 :: 32 :: (printString mTitle ++ [58, 32, 34])) := by decide +kernel
    have m2 : enc "\" }, \"data\": \"" = 34 :: 32 :: 125 :: 44 :: 32 :: (printString mData ++ [58, 32, 34]) := by decide +kernel
    have m3 : printString [] = [34, 34] := rfl
    have e : noti1 ++ enc (crafted x t) ++ noti2 ++ [0] =
        123 :: (printString mMessage ++ 58 :: 32 :: 123 :: 32 :: (printString mNotification ++
        58 :: 32 :: 123 :: 32 :: (printString mTitle ++ 58 :: 32 :: (printString mTest ++ 44 :: 32 :: (printString mBody ++
        58 :: 32 :: (printString mWorking ++ 32 :: 125 :: 44 :: 32 :: (printString mToken ++
        58 :: 32 :: (printString (enc x) ++ 44 :: 32 :: (printString mNotification ++ 58 :: 32 :: 123 :: 32 ::
          (printString mTitle ++ 58 :: 32 :: (printString (enc t) ++ 32 :: 125 :: 44 :: 32 :: (printString mData ++
          58 :: 32 :: (printString [] ++ [32, 125, 32, 125, 0]))))))))))))) := by
      rw [noti1_eq, noti2_eq, print_plain hx, print_plain ht]
      unfold crafted
      rw [enc_append, enc_append, enc_append, m1, m2, m3]
      simp only [List.append_assoc, List.cons_append, List.nil_append]
    have hlen : 14 ≤ 3 * (noti1 ++ enc (crafted x t) ++ noti2).length + 6 := by
      rw [noti2_eq]
      simp
      omega
    obtain ⟨n, hn⟩ := Nat.exists_eq_add_of_le hlen
    unfold parse
    rw [hn, e, show 14 + n = (n + 3) + 11 by omega]
    have hb : ∀ l : Bytes, skipBom (123 :: l) = 123 :: l := by
      intro l
      unfold skipBom
      rw [starts_ne (by decide), if_neg (by simp)]
    have qb : ∀ s r, skipWs (32 :: (printString s ++ r)) = printString s ++ r := by
      intro s r
      rw [quote_head, skipWs_blank (by decide)]
    rw [hb, parse_head S (ms := [(mNotification, .obj [(mTitle, .str (enc t))]), (mData, .str [])]) (r := [0]) (plain_zero hx) (n + 3)
      (Or.inr ⟨_, skipWs_cons (by decide), ?_⟩)]
    · rfl
    · rw [member_blank]
      refine member_more S (by decide +kernel) (skipWs_cons (by decide)) ?_ (skipWs_cons (by decide)) ?_
        (r3 := 44 :: 32 :: (printString mData ++ 58 :: 32 :: (printString [] ++ [32, 125, 32, 125, 0])))
      · rw [skipWs_blank (by decide)]
        refine value_obj S (by omega) (by rw [qb, quote_head]) ?_
        rw [qb]
        exact member_last S (by decide +kernel) (skipWs_cons (by decide)) (by rw [qb]; exact value_str S (plain_zero ht))
          (skipWs_blank (by decide))
      · rw [member_blank]
        exact member_last S (by decide +kernel) (skipWs_cons (by decide)) (by rw [qb]; exact value_str S (by simp))
          (skipWs_blank (by decide))
  · intro h
    simp [craftedMessage, testMessage] at h

/-! The hypotheses are met. -/

/-- A user with a phone. -/
def demo : Iam :=
  { demoIam with
    conf := { policies := [⟨"p", [⟨.allow, ["IAM:SendUserFcmTest"], []⟩]⟩], roles := [⟨"User", ["p"]⟩], unpairedRole := none }
    state := { users := [{ addr := 0, username := "a", role := some "User", fcmToken := some "tok:1_A-b", fcmProjectId := some "p",
                           fingerprints := [⟨"f", none⟩] },
                         { addr := 1, username := "b" }] } }

example : request demoEnv demo { fingerprint := some "f" } 0 (some "a") true = .send "p" (payload "tok:1_A-b") := by decide +kernel
example : request demoEnv demo { fingerprint := some "f" } 0 (some "b") true = .error 404 := by decide +kernel
example : request demoEnv demo { fingerprint := some "g" } 0 (some "a") true = .error 403 := by decide +kernel
example : Plain "tok:1_A-b" ∧ Plain "Your bank account" := by constructor <;> (unfold Plain; decide +kernel)

end Verif.Iam.FcmTest
