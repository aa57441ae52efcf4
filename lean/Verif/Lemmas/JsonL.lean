import Verif.Json
import Verif.Lemmas.DecStrL
/-! # Reading back printed JSON and base64 -/

namespace Halo

/-! ## Strings -/

theorem hexValue_digit {n : Nat} (h : n < 16) : hexValue (hexDigit n) = some n := by
  interval_cases n <;> rfl

theorem parseString_escape (b : UInt8) (n : Nat) (t : Str) :
    parseString (n + 1) (escapeByte b ++ t) = (parseString n t).map fun p => (b :: p.1, p.2) := by
  unfold escapeByte
  split
  · next h => subst h; simp [parseString]; cases parseString n t <;> rfl
  split
  · next h => subst h; simp [parseString]; cases parseString n t <;> rfl
  split
  · next h => subst h; simp [parseString]; cases parseString n t <;> rfl
  split
  · next h => subst h; simp [parseString]; cases parseString n t <;> rfl
  split
  · next h => subst h; simp [parseString]; cases parseString n t <;> rfl
  split
  · next h => subst h; simp [parseString]; cases parseString n t <;> rfl
  split
  · next h => subst h; simp [parseString]; cases parseString n t <;> rfl
  split
  · next h =>
    have hb : b.toNat < 32 := by simpa [UInt8.lt_iff_toNat_lt] using h
    have hh : hex4 48 48 (hexDigit (b.toNat / 16)) (hexDigit (b.toNat % 16)) = some b.toNat := by
      have h0 : hexValue 48 = some 0 := rfl
      simp only [hex4, h0, hexValue_digit (show b.toNat / 16 < 16 by omega), hexValue_digit (show b.toNat % 16 < 16 by omega)]
      show some (_ : Nat) = some _
      congr 1
      omega
    have hu : utf8Of b.toNat = [b] := by
      simp [utf8Of, show b.toNat < 128 by omega]
    simp only [List.cons_append, List.nil_append, parseString, if_neg (show ¬((92 : UInt8) = 34) by decide), if_true, hh]
    show (if 55296 ≤ b.toNat ∧ b.toNat < 56320 then _ else _) = _
    rw [if_neg (by omega), if_neg (by omega)]
    cases parseString n t with
    | none => rfl
    | some p => show some (utf8Of b.toNat ++ p.1, p.2) = some _; rw [hu]; rfl
  · next h1 h2 _ _ _ _ _ _ =>
    simp only [List.cons_append, List.nil_append, parseString, if_neg h1, if_neg h2]
    cases parseString n t <;> rfl

theorem escapeByte_pos (b : UInt8) : 1 ≤ (escapeByte b).length := by
  unfold escapeByte
  repeat' split
  all_goals simp

theorem parseString_print (s r : Str) : ∀ n, (s.flatMap escapeByte).length < n →
    parseString n (s.flatMap escapeByte ++ 34 :: r) = some (s, r) := by
  induction s with
  | nil =>
    intro n hn
    obtain ⟨n, rfl⟩ : ∃ k, n = k + 1 := ⟨n - 1, by omega⟩
    rfl
  | cons b s ih =>
    intro n hn
    obtain ⟨n, rfl⟩ : ∃ k, n = k + 1 := ⟨n - 1, by omega⟩
    rw [List.flatMap_cons, List.append_assoc, parseString_escape, ih n]
    · rfl
    · rw [List.flatMap_cons, List.length_append] at hn
      have := escapeByte_pos b
      omega

/-! ## Numbers -/

/-- What follows does not begin with a digit. -/
def NoDigit (r : Str) : Prop := ∀ b ∈ r.head?, isDigit b = false

theorem takeWhile_digits {d r : Str} (hd : d.all isDigit = true) (hr : NoDigit r) :
    (d ++ r).takeWhile isDigit = d ∧ (d ++ r).dropWhile isDigit = r := by
  induction d with
  | nil =>
    cases r with
    | nil => exact ⟨rfl, rfl⟩
    | cons b t =>
      have := hr b rfl
      simp [this]
  | cons b t ih =>
    simp only [List.all_cons, Bool.and_eq_true] at hd
    simp [hd.1, ih hd.2]

theorem parseNat_print (n : Nat) {r : Str} (hr : NoDigit r) : parseNat (natToDec n ++ r) = some (n, r) := by
  obtain ⟨h1, h2⟩ := takeWhile_digits (natToDec_all n) hr
  have hv : (natToDec n).foldl (fun a b => a * 10 + (b.toNat - 48)) 0 = n := dval_natToDec n
  unfold parseNat
  simp only [h1, h2, hv, if_true]

/-! ## Values -/

theorem isDigit_facts {b : UInt8} (h : isDigit b = true) : isWs b = false ∧ b ≠ 34 ∧ b ≠ 91 ∧ b ≠ 123 ∧ b ≠ 93 ∧ b ≠ 125 := by
  refine ⟨?_, ?_, ?_, ?_, ?_, ?_⟩
  · cases hw : isWs b with
    | false => rfl
    | true =>
      simp only [isWs, Bool.or_eq_true, decide_eq_true_eq] at hw
      rcases hw with ((rfl | rfl) | rfl) | rfl <;> exact absurd h (by decide)
  all_goals (rintro rfl; exact absurd h (by decide))

theorem natToDec_head (n : Nat) : ∃ b t, natToDec n = b :: t ∧ isDigit b = true := by
  obtain ⟨b, t, e⟩ := List.exists_cons_of_ne_nil (natToDec_ne_nil n)
  have := natToDec_all n
  rw [e] at this
  simp only [List.all_cons, Bool.and_eq_true] at this
  exact ⟨b, t, e, this.1⟩

/-- A printed value begins with a character that is neither white space nor a closing bracket. -/
theorem print_head (j : Json) : ∃ b t, j.print = b :: t ∧ isWs b = false ∧ b ≠ 93 ∧ b ≠ 125 := by
  cases j with
  | null => exact ⟨_, _, rfl, by decide, by decide, by decide⟩
  | bool b => cases b <;> exact ⟨_, _, rfl, by decide, by decide, by decide⟩
  | num n =>
    obtain ⟨b, t, e, hb⟩ := natToDec_head n
    have := isDigit_facts hb
    exact ⟨b, t, by rw [Json.print, e], this.1, this.2.2.2.2.1, this.2.2.2.2.2⟩
  | str s => exact ⟨34, _, rfl, by decide, by decide, by decide⟩
  | arr l => exact ⟨91, _, by rw [Json.print], by decide, by decide, by decide⟩
  | obj l => exact ⟨123, _, by rw [Json.print], by decide, by decide, by decide⟩

theorem skipWs_cons {b : UInt8} (t : Str) (h : isWs b = false) : skipWs (b :: t) = b :: t := by
  rw [skipWs, h]; rfl

theorem print_pos (j : Json) : 1 ≤ j.print.length := by
  obtain ⟨b, t, e, _⟩ := print_head j
  rw [e]; simp

theorem noDigit_cons {b : UInt8} {t : Str} (h : isDigit b = false) : NoDigit (b :: t) := by
  intro x hx
  cases hx
  exact h

theorem items_rest_noDigit (l : Items) (r : Str) : NoDigit (l.printRest ++ r) := by
  cases l <;> (rw [Items.printRest]; exact noDigit_cons (by decide))

theorem members_rest_noDigit (l : Members) (r : Str) : NoDigit (l.printRest ++ r) := by
  cases l <;> (rw [Members.printRest]; exact noDigit_cons (by decide))

mutual
theorem parseValue_print : ∀ (j : Json) (n : Nat) (r : Str), j.print.length ≤ n → NoDigit r →
    parseValue n (j.print ++ r) = some (j, r)
  | .null, n, r, hn, hr => by
    obtain ⟨n, rfl⟩ : ∃ k, n = k + 1 := ⟨n - 1, by have := print_pos .null; omega⟩
    rfl
  | .bool true, n, r, hn, hr => by
    obtain ⟨n, rfl⟩ : ∃ k, n = k + 1 := ⟨n - 1, by have := print_pos (.bool true); omega⟩
    rfl
  | .bool false, n, r, hn, hr => by
    obtain ⟨n, rfl⟩ : ∃ k, n = k + 1 := ⟨n - 1, by have := print_pos (.bool false); omega⟩
    rfl
  | .num v, n, r, hn, hr => by
    obtain ⟨n, rfl⟩ : ∃ k, n = k + 1 := ⟨n - 1, by have := print_pos (.num v); omega⟩
    rw [Json.print]
    have hp := parseNat_print v hr
    obtain ⟨b, t, e, hb⟩ := natToDec_head v
    have hf := isDigit_facts hb
    rw [e] at hp ⊢
    rw [List.cons_append] at hp ⊢
    rw [parseValue, skipWs_cons _ hf.1]
    simp only [if_neg hf.2.1, if_neg hf.2.2.1, if_neg hf.2.2.2.1, hb, if_true, hp]
    rfl
  | .str s, n, r, hn, hr => by
    obtain ⟨n, rfl⟩ : ∃ k, n = k + 1 := ⟨n - 1, by have := print_pos (.str s); omega⟩
    rw [Json.print, printStr, List.cons_append, parseValue, skipWs_cons _ (by decide)]
    simp only [if_true]
    rw [show s.flatMap escapeByte ++ [34] ++ r = s.flatMap escapeByte ++ 34 :: r by simp,
      parseString_print _ _ _ (by simp)]
    rfl
  | .arr .nil, n, r, hn, hr => by
    obtain ⟨n, rfl⟩ : ∃ k, n = k + 1 := ⟨n - 1, by have := print_pos (.arr .nil); omega⟩
    rw [Json.print, Items.print]
    rfl
  | .arr (.cons j t), n, r, hn, hr => by
    obtain ⟨n, rfl⟩ : ∃ k, n = k + 1 := ⟨n - 1, by have := print_pos (.arr (.cons j t)); omega⟩
    have hn' : (Items.cons j t).print.length ≤ n := by
      rw [Json.print, List.length_cons] at hn
      omega
    have key := parseItems_print (.cons j t) n r hn' (fun h => nomatch h)
    rw [Json.print, List.cons_append, parseValue, skipWs_cons _ (by decide)]
    simp only [if_true, if_neg (show ¬((91 : UInt8) = 34) by decide)]
    rw [key, Items.print]
    obtain ⟨b, u, e, hb, h93, _⟩ := print_head j
    simp only [e, List.cons_append, skipWs_cons _ hb, if_neg h93]
    rfl
  | .obj .nil, n, r, hn, hr => by
    obtain ⟨n, rfl⟩ : ∃ k, n = k + 1 := ⟨n - 1, by have := print_pos (.obj .nil); omega⟩
    rw [Json.print, Members.print]
    rfl
  | .obj (.cons k j t), n, r, hn, hr => by
    obtain ⟨n, rfl⟩ : ∃ k, n = k + 1 := ⟨n - 1, by have := print_pos (.obj (.cons k j t)); omega⟩
    have hn' : (Members.cons k j t).print.length ≤ n := by
      rw [Json.print, List.length_cons] at hn
      omega
    have key := parseMembers_print (.cons k j t) n r hn' (fun h => nomatch h)
    rw [Json.print, List.cons_append, parseValue, skipWs_cons _ (by decide)]
    simp only [if_true, if_neg (show ¬((123 : UInt8) = 34) by decide), if_neg (show ¬((123 : UInt8) = 91) by decide)]
    rw [key, Members.print]
    simp only [printStr, List.cons_append, skipWs_cons _ (show isWs 34 = false by decide), if_neg (show ¬((34 : UInt8) = 125) by decide)]
    rfl
theorem parseItems_print : ∀ (l : Items) (n : Nat) (r : Str), l.print.length ≤ n → l ≠ .nil →
    parseItems n (l.print ++ r) = some (l, r)
  | .nil, _, _, _, h => absurd rfl h
  | .cons j .nil, n, r, hn, _ => by
    rw [Items.print, Items.printRest] at *
    rw [List.length_append] at hn
    have hp := print_pos j
    obtain ⟨n, rfl⟩ : ∃ k, n = k + 1 := ⟨n - 1, by omega⟩
    have hl : ([93] : Str).length = 1 := rfl
    rw [List.append_assoc, List.cons_append, parseItems, parseValue_print j n _ (by omega) (noDigit_cons (by decide))]
    rfl
  | .cons j (.cons k l), n, r, hn, _ => by
    rw [Items.print, Items.printRest] at *
    rw [List.length_append, List.length_cons] at hn
    have hp := print_pos j
    obtain ⟨n, rfl⟩ : ∃ k, n = k + 1 := ⟨n - 1, by omega⟩
    have hp' : 1 ≤ (k.print ++ l.printRest).length := by
      rw [List.length_append]; have := print_pos k; omega
    rw [List.append_assoc, List.cons_append, parseItems, parseValue_print j n _ (by omega) (noDigit_cons (by decide))]
    simp only [Option.bind_eq_bind, Option.bind_some, skipWs_cons _ (show isWs 44 = false by decide), if_true, if_neg (show ¬((44 : UInt8) = 93) by decide)]
    rw [← Items.print, parseItems_print (.cons k l) n r (by rw [Items.print]; omega) (fun h => nomatch h)]
    rfl
theorem parseMembers_print : ∀ (l : Members) (n : Nat) (r : Str), l.print.length ≤ n → l ≠ .nil →
    parseMembers n (l.print ++ r) = some (l, r)
  | .nil, _, _, _, h => absurd rfl h
  | .cons k j .nil, n, r, hn, _ => by
    rw [Members.print, Members.printRest] at *
    rw [List.length_append, List.length_cons, List.length_append] at hn
    obtain ⟨n, rfl⟩ : ∃ k, n = k + 1 := ⟨n - 1, by omega⟩
    rw [List.append_assoc, printStr, List.cons_append, parseMembers, skipWs_cons _ (by decide)]
    simp only [ne_eq, not_true_eq_false, if_false]
    rw [show k.flatMap escapeByte ++ [34] ++ (58 :: (j.print ++ [125]) ++ r) = k.flatMap escapeByte ++ 34 :: (58 :: (j.print ++ 125 :: r)) by simp,
      parseString_print _ _ _ (by simp)]
    simp only [Option.bind_eq_bind, Option.bind_some, skipWs_cons _ (show isWs 58 = false by decide), not_true_eq_false, if_false]
    rw [parseValue_print j n _ (by omega) (noDigit_cons (by decide))]
    rfl
  | .cons k j (.cons k' j' l), n, r, hn, _ => by
    rw [Members.print, Members.printRest] at *
    rw [List.length_append, List.length_cons, List.length_append, List.length_cons] at hn
    obtain ⟨n, rfl⟩ : ∃ k, n = k + 1 := ⟨n - 1, by omega⟩
    rw [List.append_assoc, printStr, List.cons_append, parseMembers, skipWs_cons _ (by decide)]
    simp only [ne_eq, not_true_eq_false, if_false]
    rw [show k.flatMap escapeByte ++ [34] ++ (58 :: (j.print ++ 44 :: (printStr k' ++ 58 :: (j'.print ++ l.printRest))) ++ r) =
        k.flatMap escapeByte ++ 34 :: (58 :: (j.print ++ 44 :: (printStr k' ++ 58 :: (j'.print ++ l.printRest) ++ r))) by simp,
      parseString_print _ _ _ (by simp)]
    simp only [Option.bind_eq_bind, Option.bind_some, skipWs_cons _ (show isWs 58 = false by decide), not_true_eq_false, if_false]
    rw [parseValue_print j n _ (by omega) (noDigit_cons (by decide))]
    simp only [Option.bind_some, skipWs_cons _ (show isWs 44 = false by decide), if_true, if_neg (show ¬((44 : UInt8) = 125) by decide)]
    rw [← Members.print, parseMembers_print (.cons k' j' l) n r (by rw [Members.print]; omega)
      (fun h => nomatch h)]
    rfl
end

/-- Every value is read back from its text. -/
theorem Json.parse_print (j : Json) : Json.parse j.print = some j := by
  have h := parseValue_print j (2 * j.print.length + 1) [] (by omega) (fun _ h => nomatch h)
  rw [List.append_nil] at h
  unfold Json.parse
  rw [h]
  rfl

/-! ## Base64 -/

theorem b64Value_char {n : Nat} (h : n < 64) : b64Value (b64Char n) = some n := by
  interval_cases n <;> rfl

theorem b64Char_ne {n : Nat} (h : n < 64) : b64Char n ≠ 61 := by
  interval_cases n <;> decide

theorem fromBase64_toBase64 (b : Bytes) : fromBase64 (toBase64 b) = some b := by
  induction b using toBase64.induct with
  | case1 => rfl
  | case2 a =>
    have ha := a.toNat_lt
    rw [toBase64, fromBase64, b64Value_char (by omega), b64Value_char (by omega)]
    simp only [Option.bind_eq_bind, Option.bind_some, and_self, if_true]
    rw [if_pos (by omega), show a.toNat / 4 * 4 + a.toNat % 4 * 16 / 16 = a.toNat by omega]
    simp
  | case3 a b =>
    have ha := a.toNat_lt
    have hb := b.toNat_lt
    rw [toBase64, fromBase64, b64Value_char (by omega), b64Value_char (by omega)]
    simp only [Option.bind_eq_bind, Option.bind_some, and_self, if_true]
    rw [if_neg (b64Char_ne (by omega)), b64Value_char (by omega)]
    simp only [Option.bind_some]
    rw [if_pos (by omega), show a.toNat / 4 * 4 + (a.toNat % 4 * 16 + b.toNat / 16) / 16 = a.toNat by omega,
      show (a.toNat % 4 * 16 + b.toNat / 16) % 16 * 16 + b.toNat % 16 * 4 / 4 = b.toNat by omega]
    simp
  | case4 a b c t ih =>
    have ha := a.toNat_lt
    have hb := b.toNat_lt
    have hc := c.toNat_lt
    rw [toBase64, fromBase64, b64Value_char (by omega), b64Value_char (by omega)]
    simp only [Option.bind_eq_bind, Option.bind_some]
    rw [if_neg (fun h => b64Char_ne (n := c.toNat % 64) (by omega) h.1), b64Value_char (by omega), b64Value_char (by omega), ih]
    simp only [Option.bind_some]
    rw [show a.toNat / 4 * 4 + (a.toNat % 4 * 16 + b.toNat / 16) / 16 = a.toNat by omega,
      show (a.toNat % 4 * 16 + b.toNat / 16) % 16 * 16 + (b.toNat % 16 * 4 + c.toNat / 64) / 4 = b.toNat by omega,
      show (b.toNat % 16 * 4 + c.toNat / 64) % 4 * 64 + c.toNat % 64 = c.toNat by omega]
    simp

end Halo
