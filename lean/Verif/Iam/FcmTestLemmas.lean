import Verif.Iam.FcmTestSpec
import Verif.Json.CjsonPrint

/-!
# The test of push notifications — lemmas: parsing text with blanks
-/

namespace Verif.Iam.FcmTest

open Verif.Json

theorem skipWs_blank {c : UInt8} {l : Bytes} (h : 32 < c) : skipWs (32 :: c :: l) = c :: l := by
  show (if (32 : UInt8) ≤ 32 then skipWs (c :: l) else _) = _
  rw [if_pos (by decide), skipWs_cons h]

theorem quote_head (s r : Bytes) : printString s ++ r = 34 :: (s.flatMap escape ++ 34 :: r) := by simp [printString]

theorem value_str (S : Strtod) {n d : Nat} {s r : Bytes} (h : 0 ∉ s) :
    parseValue S (n + 1) d (printString s ++ r) = .ok (.str s, r) := by
  have hp := parseString_print (r := r) h
  rw [quote_head] at hp ⊢
  unfold parseValue
  rw [starts_ne (by decide), starts_ne (by decide), starts_ne (by decide)]
  simp only [Bool.false_eq_true, if_false, if_true, hp]
  rfl

theorem value_obj (S : Strtod) {n d : Nat} {l t r : Bytes} {ms : List (Bytes × Json Bytes)} (hd : d < 1000)
    (hl : skipWs l = 34 :: t) (h : parseMembers S n (d + 1) (skipWs l) = .ok (ms, r)) :
    parseValue S (n + 2) d (123 :: l) = .ok (.obj ms, r) := by
  unfold parseValue
  rw [starts_ne (by decide), starts_ne (by decide), starts_ne (by decide)]
  simp only [Bool.false_eq_true, if_false]
  rw [if_neg (by decide), if_neg (by decide), if_neg (by decide), if_pos trivial]
  unfold parseObject
  rw [if_neg (by omega), hl]
  rw [hl] at h
  simp only
  rw [if_neg (by decide), h]
  rfl

/-- The last member: `"k": v }`. -/
theorem member_last (S : Strtod) {n d : Nat} {k r1 r2 r3 r4 : Bytes} {v : Json Bytes} (hk : 0 ∉ k)
    (h1 : skipWs r1 = 58 :: r2) (hv : parseValue S n d (skipWs r2) = .ok (v, r3)) (h3 : skipWs r3 = 125 :: r4) :
    parseMembers S (n + 1) d (printString k ++ r1) = .ok ([(k, v)], r4) := by
  unfold parseMembers
  have hs : skipWs (printString k ++ r1) = printString k ++ r1 := by rw [quote_head, skipWs_cons (by decide)]
  rw [hs, parseString_print hk]
  simp only [R.bind, h1, hv, h3]
  rfl

/-- Another member: `"k": v, …`. -/
theorem member_more (S : Strtod) {n d : Nat} {k r1 r2 r3 r4 r5 : Bytes} {v : Json Bytes} {ms : List (Bytes × Json Bytes)}
    (hk : 0 ∉ k) (h1 : skipWs r1 = 58 :: r2) (hv : parseValue S n d (skipWs r2) = .ok (v, r3)) (h3 : skipWs r3 = 44 :: r4)
    (hm : parseMembers S n d r4 = .ok (ms, r5)) :
    parseMembers S (n + 1) d (printString k ++ r1) = .ok ((k, v) :: ms, r5) := by
  unfold parseMembers
  have hs : skipWs (printString k ++ r1) = printString k ++ r1 := by rw [quote_head, skipWs_cons (by decide)]
  rw [hs, parseString_print hk]
  simp only [R.bind, h1, hv, h3, hm]
  rfl

/-- A blank before a member. -/
theorem member_blank (S : Strtod) {n d : Nat} {k r : Bytes} : parseMembers S n d (32 :: (printString k ++ r)) =
    parseMembers S n d (printString k ++ r) := by
  cases n with
  | zero => unfold parseMembers; rfl
  | succ n =>
    unfold parseMembers
    have h1 : skipWs (printString k ++ r) = printString k ++ r := by rw [quote_head, skipWs_cons (by decide)]
    have h2 : skipWs (32 :: (printString k ++ r)) = printString k ++ r := by
      rw [quote_head, skipWs_blank (by decide)]
    rw [h1, h2]

/-- Plain text is printed as it is. -/
theorem print_plain {s : String} (h : Spec.Plain s) : printString (enc s) = 34 :: enc s ++ [34] := by
  unfold printString
  have : ∀ l : Bytes, (∀ c ∈ l, 31 < c ∧ c ≠ 34 ∧ c ≠ 92) → l.flatMap escape = l := by
    intro l
    induction l with
    | nil => intro _; rfl
    | cons c l ih =>
      intro hl
      have hc := hl c List.mem_cons_self
      rw [List.flatMap_cons, ih (fun x hx => hl x (List.mem_cons_of_mem _ hx))]
      have : escape c = [c] := by
        unfold escape
        rw [if_pos hc]
      rw [this]
      rfl
  rw [this _ h]

theorem plain_zero {s : String} (h : Spec.Plain s) : 0 ∉ enc s := by
  intro h0
  have := (h 0 h0).1
  exact absurd this (by decide)

def mMessage : Bytes := enc "message"
def mNotification : Bytes := enc "notification"
def mTitle : Bytes := enc "title"
def mTest : Bytes := enc "Test notification"
def mBody : Bytes := enc "body"
def mWorking : Bytes := enc "Notifications are working"
def mToken : Bytes := enc "token"
def mData : Bytes := enc "data"

theorem noti1_eq : noti1 = 123 :: (printString mMessage ++ 58 :: 32 :: 123 :: 32 :: (printString mNotification ++
    58 :: 32 :: 123 :: 32 :: (printString mTitle ++ 58 :: 32 :: (printString mTest ++ 44 :: 32 :: (printString mBody ++
    58 :: 32 :: (printString mWorking ++ 32 :: 125 :: 44 :: 32 :: (printString mToken ++ [58, 32, 34]))))))) := by
  decide +kernel

theorem noti2_eq : noti2 = [34, 32, 125, 32, 125] := by decide +kernel

/-- The text up to the token, and a document which goes on with the members of `ms`. -/
theorem parse_head (S : Strtod) {tok tail r : Bytes} {ms : List (Bytes × Json Bytes)} (h0 : 0 ∉ tok)
    (n : Nat) (hr : (∃ r4, skipWs tail = 125 :: 32 :: 125 :: r4 ∧ ms = [] ∧ r = r4) ∨
      (∃ r4, skipWs tail = 44 :: r4 ∧ parseMembers S (n + 4) 2 r4 = .ok (ms, 32 :: 125 :: r))) :
    parseValue S (n + 11) 0 (skipWs (123 :: (printString mMessage ++ 58 :: 32 :: 123 :: 32 :: (printString mNotification ++
      58 :: 32 :: 123 :: 32 :: (printString mTitle ++ 58 :: 32 :: (printString mTest ++ 44 :: 32 :: (printString mBody ++
      58 :: 32 :: (printString mWorking ++ 32 :: 125 :: 44 :: 32 :: (printString mToken ++
      58 :: 32 :: (printString tok ++ tail)))))))))) =
    .ok (.obj [(mMessage, .obj ((mNotification, .obj [(mTitle, .str mTest), (mBody, .str mWorking)]) :: (mToken, .str tok) :: ms))], r) := by
  have zM : 0 ∉ mMessage := by decide +kernel
  have zN : 0 ∉ mNotification := by decide +kernel
  have zT : 0 ∉ mTitle := by decide +kernel
  have zTe : 0 ∉ mTest := by decide +kernel
  have zB : 0 ∉ mBody := by decide +kernel
  have zW : 0 ∉ mWorking := by decide +kernel
  have zK : 0 ∉ mToken := by decide +kernel
  have q : ∀ s r, skipWs (printString s ++ r) = printString s ++ r := by
    intro s r
    rw [quote_head, skipWs_cons (by decide)]
  have qb : ∀ s r, skipWs (32 :: (printString s ++ r)) = printString s ++ r := by
    intro s r
    rw [quote_head, skipWs_blank (by decide)]
  rw [skipWs_cons (by decide)]
  -- the token and what follows
  have tokM : parseMembers S (n + 5) 2 (32 :: (printString mToken ++ 58 :: 32 :: (printString tok ++ tail))) =
      .ok ((mToken, .str tok) :: ms, 32 :: 125 :: r) := by
    rw [member_blank]
    rcases hr with ⟨r4, h1, h2, h3⟩ | ⟨r4, h1, h2⟩
    · subst h2 h3
      exact member_last S zK (skipWs_cons (by decide)) (by rw [qb]; exact value_str S h0) h1
    · exact member_more S zK (skipWs_cons (by decide)) (by rw [qb]; exact value_str S h0) h1 h2
  -- the notification
  have inner : ∀ x, parseMembers S (n + 3) 3 (printString mTitle ++ 58 :: 32 :: (printString mTest ++ 44 :: 32 ::
      (printString mBody ++ 58 :: 32 :: (printString mWorking ++ 32 :: 125 :: x)))) =
      .ok ([(mTitle, .str mTest), (mBody, .str mWorking)], x) := by
    intro x
    refine member_more S zT (skipWs_cons (by decide)) (by rw [qb]; exact value_str S zTe) (skipWs_cons (by decide)) ?_
    rw [member_blank]
    exact member_last S zB (skipWs_cons (by decide)) (by rw [qb]; exact value_str S zW) (skipWs_blank (by decide))
  have mid : parseMembers S (n + 6) 2 (printString mNotification ++
      58 :: 32 :: 123 :: 32 :: (printString mTitle ++ 58 :: 32 :: (printString mTest ++ 44 :: 32 :: (printString mBody ++
      58 :: 32 :: (printString mWorking ++ 32 :: 125 :: 44 :: 32 :: (printString mToken ++
      58 :: 32 :: (printString tok ++ tail))))))) =
      .ok ((mNotification, .obj [(mTitle, .str mTest), (mBody, .str mWorking)]) :: (mToken, .str tok) :: ms, 32 :: 125 :: r) := by
    refine member_more S zN (skipWs_cons (by decide)) ?_ (skipWs_cons (by decide)) tokM
    rw [skipWs_blank (by decide)]
    refine value_obj S (by omega) (by rw [qb, quote_head]) ?_
    rw [qb]
    exact inner _
  have outer : parseMembers S (n + 9) 1 (printString mMessage ++ 58 :: 32 :: 123 :: 32 :: (printString mNotification ++
      58 :: 32 :: 123 :: 32 :: (printString mTitle ++ 58 :: 32 :: (printString mTest ++ 44 :: 32 :: (printString mBody ++
      58 :: 32 :: (printString mWorking ++ 32 :: 125 :: 44 :: 32 :: (printString mToken ++
      58 :: 32 :: (printString tok ++ tail)))))))) =
      .ok ([(mMessage, .obj ((mNotification, .obj [(mTitle, .str mTest), (mBody, .str mWorking)]) :: (mToken, .str tok) :: ms))], r) := by
    refine member_last S zM (skipWs_cons (by decide)) ?_ (skipWs_blank (by decide))
    rw [skipWs_blank (by decide)]
    refine value_obj S (by omega) (by rw [qb, quote_head]) ?_
    rw [qb]
    exact mid
  refine value_obj S (by omega) (by rw [q, quote_head]) ?_
  rw [q]
  exact outer

end Verif.Iam.FcmTest
