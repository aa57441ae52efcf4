import Verif.Lemmas.DecStrL2
/-!
# C46–C50: `packages/bignumber`

Values of `Uint256` are naturals below `2^256`; a `Decimal256` is the natural number of its `10^-18` units.
-/

namespace Halo

/-! ## C46 -/

/-- **C46.** Parsing the printed form of any `Decimal256` gives the same value back. -/
theorem C46_print_parse (d : Nat) (h : d < 2 ^ 256) : Dec256.fromStr (Dec256.toStr d) = .ok d :=
  fromStr_toStr h

/-- **C46** (what is printed is a decimal text denoting the value, so it is also human-readable). -/
theorem C46_printed_text (d : Nat) (h : d < 2 ^ 256) : Spec.DecimalText (Dec256.toStr d) d :=
  ((fromStr_iff _ _).mp (fromStr_toStr h)).1

/-- **C46** for `Uint256`: parsing the printed form gives the value back. -/
theorem C46_uint_print_parse (n : Nat) (h : n < 2 ^ 256) : Uint256.fromStr (Uint256.toStr n) = .ok n := by
  unfold Uint256.fromStr Uint256.toStr
  rw [okOr_eq_ok, U256.fromDecStr_eq_some, dval_natToDec]
  exact ⟨natToDec_all n, h, rfl⟩

/-- Consequently printing is injective (no two decimals print alike). -/
theorem C46_print_injective (d e : Nat) (hd : d < 2 ^ 256) (he : e < 2 ^ 256)
    (h : Dec256.toStr d = Dec256.toStr e) : d = e := by
  have h1 := C46_print_parse d hd
  rw [h, C46_print_parse e he] at h1
  injection h1 with h1; exact h1.symm

/-- Concrete: `1.5` prints as the bytes of "1.5". -/
example : Dec256.toStr 1500000000000000000 = [49, 46, 53] := by
  simp [Dec256.toStr, natToDec, trimEndZeros, DF, chr0, chrDot]

/-! ## C47 -/

/-- **C47.** Every `Decimal` (128 bits) converts to the `Decimal256` of equal value, without panic. -/
theorem C47_widen (d : Nat) (h : d < 2 ^ 128) : Dec256.ofDecimal d = .ok d :=
  ofDecimal_ok (lt_trans h (by norm_num))

/-- **C47.** A `Decimal256` converts to a `Decimal` exactly when it fits 128 bits, and then to the same
value; otherwise the conversion panics instead of truncating. -/
theorem C47_narrow (d : Nat) (h : d < 2 ^ 256) :
    (d < 2 ^ 128 → Dec256.toDecimal d = .ok d) ∧
    (2 ^ 128 ≤ d → Dec256.toDecimal d = .error (.panic .convOverflow)) := by
  have e2 : U256.limb d 2 = d / 2 ^ 128 % 2 ^ 64 := rfl
  have e3 : U256.limb d 3 = d / 2 ^ 192 % 2 ^ 64 := rfl
  unfold Dec256.toDecimal
  constructor
  · intro hd
    have h2 : U256.limb d 2 = 0 := by rw [e2]; omega
    have h3 : U256.limb d 3 = 0 := by rw [e3]; omega
    rw [h2, h3, decimal_fromStr_toStr hd]
    rfl
  · intro hd
    by_cases h2 : U256.limb d 2 = 0
    · have h3 : U256.limb d 3 ≠ 0 := by rw [e2] at h2; rw [e3]; omega
      simp [require, h2, h3]
    · simp [require, h2]

/-- **C47.** There and back is the identity. -/
theorem C47_roundtrip (d : Nat) (h : d < 2 ^ 128) :
    (Dec256.ofDecimal d >>= Dec256.toDecimal) = .ok d := by
  rw [C47_widen d h]
  exact (C47_narrow d (by omega)).1 h

/-- **C47**, reading: the 128-bit type reads a text without plus signs exactly when it denotes a decimal, has a digit on either side
of the dot and its value fits; so every such text it reads is read by the wide type as the same value. -/
theorem C47_std_parse (s : Str) (hplus : 43 ∉ s) (v : Nat) : Decimal.fromStr s = .ok v ↔
    Spec.DecimalText s v ∧ s ≠ [] ∧ s.head? ≠ some 46 ∧ s.getLast? ≠ some 46 ∧ v < 2 ^ 128 := by
  have hB : B128 = 2 ^ 128 := rfl
  have hd : ∀ {b : UInt8}, isDigit b = true → b ≠ 46 := by rintro b hb rfl; revert hb; decide
  constructor
  · intro h
    unfold Decimal.fromStr at h
    split at h
    · rename_i p hp
      have := splitDots_one hp
      subst this
      simp only [bind_eq_ok, okOr_eq_ok, Uint128.fromDecStr_eq_some, Uint128.checkedMul_eq_ok, dropPlus_of_not_mem hplus] at h
      obtain ⟨_, ⟨ha, hn, h1, rfl⟩, h2, rfl⟩ := h
      have hall := List.all_eq_true.mp ha
      refine ⟨?_, hn, fun h => ?_, fun h => ?_, h2⟩
      · rw [dval_eq_digitsValue, ← pow18]
        exact .whole _ ((all_isDigit _).mp ha)
      · exact hd (hall _ (List.mem_of_mem_head? h)) rfl
      · exact hd (hall _ (List.mem_of_getLast? h)) rfl
    · rename_i p q hp
      have := splitDots_two hp
      subst this
      have hpp : 43 ∉ p := fun h => hplus (List.mem_append_left _ h)
      have hpq : 43 ∉ q := fun h => hplus (List.mem_append_right _ (List.mem_cons_of_mem _ h))
      simp only [bind_eq_ok, okOr_eq_ok, Uint128.fromDecStr_eq_some, Uint128.checkedMul_eq_ok, Uint128.mulChk_eq_ok, require_eq_ok,
        pure_eq_ok, dropPlus_of_not_mem hpp, dropPlus_of_not_mem hpq] at h
      obtain ⟨_, ⟨ha, hn, h1, rfl⟩, _, ⟨h2, rfl⟩, _, ⟨hb, hm, h3, rfl⟩, _, h18, _, ⟨h4, rfl⟩, _, h5, rfl⟩ := h
      refine ⟨?_, by simp, fun h => ?_, fun h => ?_, h5⟩
      · rw [dval_eq_digitsValue, dval_eq_digitsValue, ← pow18]
        have := Spec.DecimalText.point p q ((all_isDigit _).mp ha) ((all_isDigit _).mp hb) h18
        rw [List.append_assoc] at this
        exact this
      · obtain ⟨b, t, rfl⟩ := List.exists_cons_of_ne_nil hn
        rw [List.cons_append, List.head?_cons, ← List.head?_cons (l := t)] at h
        exact hd (List.all_eq_true.mp ha _ (List.mem_of_mem_head? h)) rfl
      · rw [← List.singleton_append, ← List.append_assoc, List.getLast?_append, List.getLast?_eq_some_getLast hm,
          Option.some_or, ← List.getLast?_eq_some_getLast hm] at h
        exact hd (List.all_eq_true.mp hb _ (List.mem_of_getLast? h)) rfl
    · cases h
  · rintro ⟨h, hn, hh, hl, hv⟩
    unfold Decimal.fromStr
    cases h with
    | whole _ hp =>
      have hp' := (all_isDigit _).mpr hp
      rw [splitDots_nodot hp']
      have hle : dval 0 s ≤ dval 0 s * DF := Nat.le_mul_of_pos_right _ DF_pos
      rw [← dval_eq_digitsValue, pow18] at hv ⊢
      simp only [bind_eq_ok, okOr_eq_ok, Uint128.fromDecStr_eq_some, Uint128.checkedMul_eq_ok, dropPlus_digits hp']
      exact ⟨_, ⟨hp', hn, by omega, rfl⟩, by omega, rfl⟩
    | point p q hp hq h18 =>
      have hp' := (all_isDigit _).mpr hp
      have hq' := (all_isDigit _).mpr hq
      have hpn : p ≠ [] := by rintro rfl; exact hh rfl
      have hqn : q ≠ [] := by rintro rfl; exact hl (by simp)
      rw [List.append_assoc]
      change (match splitDots (p ++ chrDot :: q) with | [p] => _ | [p, q] => _ | _ => _) = _
      rw [splitDots_dot q hp', splitDots_nodot hq']
      have h1 : dval 0 p ≤ dval 0 p * DF := Nat.le_mul_of_pos_right _ DF_pos
      have h2 : dval 0 q ≤ dval 0 q * 10 ^ (18 - q.length) := Nat.le_mul_of_pos_right _ (Nat.pow_pos (by norm_num))
      rw [← dval_eq_digitsValue, ← dval_eq_digitsValue, pow18] at hv ⊢
      simp only [bind_eq_ok, okOr_eq_ok, Uint128.fromDecStr_eq_some, Uint128.checkedMul_eq_ok, Uint128.mulChk_eq_ok, require_eq_ok,
        pure_eq_ok, dropPlus_digits hp', dropPlus_digits hq']
      exact ⟨_, ⟨hp', hpn, by omega, rfl⟩, _, ⟨by omega, rfl⟩, _, ⟨hq', hqn, by omega, rfl⟩, (), h18, _, ⟨by omega, rfl⟩, (), by omega, rfl⟩

theorem Uint128.fromDecStr_plus (t : Str) (ht : t ≠ []) (h : t.head? ≠ some 43) :
    Uint128.fromDecStr (43 :: t) = Uint128.fromDecStr (48 :: t) := by
  refine Option.ext fun v => ?_
  rw [Uint128.fromDecStr_eq_some, Uint128.fromDecStr_eq_some]
  have h1 : dropPlus (43 :: t) = t := rfl
  have h2 : dropPlus (48 :: t) = 48 :: t := rfl
  rw [h1, h2]
  have h3 : dval 0 (48 :: t) = dval 0 t := by rw [dval_cons]; rfl
  have h4 : (48 :: t).all isDigit = t.all isDigit := by
    rw [List.all_cons]; rfl
  rw [h3, h4]
  simp [ht]

/-- **C47**, plus signs: in front of digits, on either side of the dot, a plus sign reads like a zero (so that "1.+5" is 1.05). -/
theorem C47_std_plus (p q : Str) (b : UInt8) (hb : 48 ≤ b ∧ b ≤ 57) :
    Decimal.fromStr (43 :: b :: p) = Decimal.fromStr (48 :: b :: p) ∧
      Decimal.fromStr (q ++ 46 :: 43 :: b :: p) = Decimal.fromStr (q ++ 46 :: 48 :: b :: p) := by
  have hd : b ≠ 46 := by rintro rfl; exact absurd hb.1 (by decide)
  have hp : b ≠ 43 := by rintro rfl; exact absurd hb.1 (by decide)
  have key : ∀ r : Str, Uint128.fromDecStr (43 :: b :: r) = Uint128.fromDecStr (48 :: b :: r) :=
    fun r => Uint128.fromDecStr_plus _ (by simp) (by simpa using hp)
  obtain ⟨r, rs, hr⟩ := List.exists_cons_of_ne_nil (splitDots_ne_nil p)
  have e1 : splitDots (43 :: b :: p) = (43 :: b :: r) :: rs := by
    simp [splitDots, hr, hd, chrDot]
  have e2 : splitDots (48 :: b :: p) = (48 :: b :: r) :: rs := by
    simp [splitDots, hr, hd, chrDot]
  constructor
  · unfold Decimal.fromStr
    rw [e1, e2]
    cases rs with
    | nil => simp only [key]
    | cons x xs => cases xs <;> simp only [key]
  · have e4 : ∀ u : Str, splitDots (q ++ 46 :: u) = splitDots q ++ splitDots u := by
      intro u
      induction q with
      | nil => rfl
      | cons a t ih =>
        rw [List.cons_append, splitDots, splitDots]
        by_cases ha : a = chrDot
        · rw [if_pos ha, if_pos ha, ih]; rfl
        · rw [if_neg ha, if_neg ha, ih]
          obtain ⟨y, ys, hy⟩ := List.exists_cons_of_ne_nil (splitDots_ne_nil t)
          rw [hy]; rfl
    unfold Decimal.fromStr
    rw [e4, e4, e1, e2]
    obtain ⟨y, ys, hy⟩ := List.exists_cons_of_ne_nil (splitDots_ne_nil q)
    rw [hy]
    cases ys with
    | cons z zs => cases zs <;> rfl
    | nil =>
      cases rs with
      | cons x xs => rfl
      | nil => simp only [List.cons_append, List.nil_append, key, List.length_cons]

/-- Concrete: a plus sign in the fraction. -/
example : Decimal.fromStr [49, 46, 43, 53] = .ok 1050000000000000000 ∧ Decimal.fromStr [43] = .error (.generic 1) := by decide +kernel

/-- Concrete: "0.05" is read; ".05" only by the wide type. -/
example : Decimal.fromStr [48, 46, 48, 53] = .ok 50000000000000000 ∧ Dec256.fromStr [46, 48, 53] = .ok 50000000000000000 ∧
    Decimal.fromStr [46, 48, 53] = .error (.generic 1) := by decide +kernel

/-! ## C48 -/

/-- **C48.** `u128 → Uint256` keeps the value. -/
theorem C48_widen (n : Nat) : Uint256.ofU128 n = n := Uint256.ofU128_eq n

/-- **C48.** `Uint256 → u128` is exact below `2^128` and panics from `2^128` on. -/
theorem C48_narrow (n : Nat) (h : n < 2 ^ 256) :
    (n < 2 ^ 128 → Uint256.toU128 n = .ok n) ∧
    (2 ^ 128 ≤ n → Uint256.toU128 n = .error (.panic .convOverflow)) := by
  have e2 : U256.limb n 2 = n / 2 ^ 128 % 2 ^ 64 := rfl
  have e3 : U256.limb n 3 = n / 2 ^ 192 % 2 ^ 64 := rfl
  constructor
  · intro hn
    rw [Uint256.toU128_eq_ok h]; exact ⟨hn, rfl⟩
  · intro hn
    unfold Uint256.toU128
    by_cases h2 : U256.limb n 2 = 0
    · have h3 : U256.limb n 3 ≠ 0 := by rw [e2] at h2; rw [e3]; omega
      simp [require, h2, h3]
    · simp [require, h2]

/-- **C48.** There and back is the identity. -/
theorem C48_roundtrip (n : Nat) (h : n < 2 ^ 128) : Uint256.toU128 (Uint256.ofU128 n) = .ok n := by
  rw [C48_widen]
  exact (C48_narrow n (by omega)).1 h

/-! ## C49 -/

/-- The outcome `r` is the exact value `v` (which fits 256 bits) when the operation is `defined`, and a panic
otherwise. In particular it never wraps around and never returns an ordinary error. -/
def ExactOrPanic (r : R Nat) (defined : Prop) (v : Nat) : Prop :=
  (defined ∧ r = .ok v ∧ v < 2 ^ 256) ∨ (¬ defined ∧ ∃ p, r = .error (.panic p))

theorem ExactOrPanic.of {r : R Nat} {d : Prop} {v : Nat} (h1 : r = .ok v ↔ d) (hv : d → v < 2 ^ 256)
    (h2 : (∃ w, r = .ok w) → r = .ok v) (h3 : ∀ e, r = .error e → ∃ p, e = .panic p) :
    ExactOrPanic r d v := by
  by_cases hd : d
  · exact .inl ⟨hd, h1.mpr hd, hv hd⟩
  · refine .inr ⟨hd, ?_⟩
    cases hr : r with
    | ok w => exact absurd (h1.mp (h2 ⟨w, hr⟩)) hd
    | error e => obtain ⟨p, rfl⟩ := h3 e hr; exact ⟨p, rfl⟩

section
variable (a b c : Nat) (ha : a < 2 ^ 256) (hb : b < 2 ^ 256) (hc : c < 2 ^ 256)

theorem U256.mul_err {a b : Nat} {e : Err} (h : U256.mul a b = .error e) : ∃ p, e = .panic p := by
  unfold U256.mul at h; split at h
  · cases h
  · cases h; exact ⟨_, rfl⟩
theorem U256.add_err {a b : Nat} {e : Err} (h : U256.add a b = .error e) : ∃ p, e = .panic p := by
  unfold U256.add at h; split at h
  · cases h
  · cases h; exact ⟨_, rfl⟩
theorem U256.div_err {a b : Nat} {e : Err} (h : U256.div a b = .error e) : ∃ p, e = .panic p := by
  unfold U256.div at h; split at h
  · cases h; exact ⟨_, rfl⟩
  · cases h
theorem require_err {p : Prop} [Decidable p] {q : Panic} {e : Err}
    (h : require p (.panic q) = .error e) : ∃ p, e = .panic p := by
  unfold require at h; split at h
  · cases h
  · cases h; exact ⟨_, rfl⟩

/-- Close "every error of this operation is a panic". -/
macro "only_panics" : tactic => `(tactic| (
  intro e h
  try simp only [bind_eq_error] at h
  first
  | exact U256.mul_err h
  | exact U256.add_err h
  | exact U256.div_err h
  | (rcases h with h | ⟨_, _, h⟩
     · first | exact require_err h | exact U256.mul_err h
     · first | exact U256.div_err h | (cases h; done) |
        (rcases h with h | ⟨_, _, h⟩
         · exact U256.mul_err h
         · exact U256.div_err h))))

/-- **C49.** `Uint256` addition. -/
theorem C49_uint_add : ExactOrPanic (Uint256.add a b) (a + b < 2 ^ 256) (a + b) :=
  .of (by simp) id (by rintro ⟨w, h⟩; simp_all) (by unfold Uint256.add; only_panics)

/-- **C49.** `Uint256` subtraction. -/
theorem C49_uint_sub (ha : a < 2 ^ 256) : ExactOrPanic (Uint256.sub a b) (b ≤ a) (a - b) :=
  .of (by simp) (by omega) (by rintro ⟨w, h⟩; simp_all) (by unfold Uint256.sub; only_panics)

/-- **C49.** `Uint256` multiplication. -/
theorem C49_uint_mul : ExactOrPanic (Uint256.mul a b) (a * b < 2 ^ 256) (a * b) :=
  .of (by simp) id (by rintro ⟨w, h⟩; simp_all)
    (by unfold Uint256.mul; split
        · intro e h; cases h
        · only_panics)

theorem div_lt_of_lt {x y n : Nat} (h : x < n) : x / y < n := lt_of_le_of_lt (Nat.div_le_self _ _) h

theorem multiplyRatio_err {a b c : Nat} : ∀ e, Uint256.multiplyRatio a b c = .error e → ∃ p, e = .panic p := by
  unfold Uint256.multiplyRatio; only_panics

/-- **C49.** `Uint256::multiply_ratio`: floor of the exact ratio; panics iff the denominator is zero or
the product needs more than 256 bits. -/
theorem C49_uint_multiply_ratio :
    ExactOrPanic (Uint256.multiplyRatio a b c) (c ≠ 0 ∧ a * b < 2 ^ 256) (a * b / c) :=
  .of (by simp) (fun h => div_lt_of_lt h.2) (by rintro ⟨w, h⟩; simp_all) multiplyRatio_err

/-- **C49.** `Uint256 * Decimal256`: floor. -/
theorem C49_uint_mul_dec : ExactOrPanic (Uint256.mulDec a b) (a * b < 2 ^ 256) (a * b / 10 ^ 18) := by
  rw [pow18]
  exact .of (by simp) (fun h => div_lt_of_lt h) (by rintro ⟨w, h⟩; simp_all)
    (by unfold Uint256.mulDec; split
        · intro e h; cases h
        · exact multiplyRatio_err)

/-- **C49.** `Uint256 / Decimal256`: floor; panics iff the divisor is zero or `a * 10^18` overflows. -/
theorem C49_uint_div_dec :
    ExactOrPanic (Uint256.divDec a b) (b ≠ 0 ∧ a * 10 ^ 18 < 2 ^ 256) (a * 10 ^ 18 / b) := by
  rw [pow18]
  refine .of (by simp) (fun h => div_lt_of_lt h.2) (by rintro ⟨w, h⟩; simp_all) ?_
  unfold Uint256.divDec
  intro e h
  rw [bind_eq_error] at h
  rcases h with h | ⟨_, _, h⟩
  · exact require_err h
  · split at h
    · cases h
    · exact multiplyRatio_err e h

/-- **C49.** `Decimal256` addition. -/
theorem C49_dec_add : ExactOrPanic (Dec256.add a b) (a + b < 2 ^ 256) (a + b) :=
  .of (by simp) id (by rintro ⟨w, h⟩; simp_all) (by unfold Dec256.add; only_panics)

/-- **C49.** `Decimal256` subtraction. -/
theorem C49_dec_sub (ha : a < 2 ^ 256) : ExactOrPanic (Dec256.sub a b) (b ≤ a) (a - b) :=
  .of (by simp) (by omega) (by rintro ⟨w, h⟩; simp_all) (by unfold Dec256.sub; only_panics)

/-- **C49.** `Decimal256` multiplication: floor of the exact product. -/
theorem C49_dec_mul : ExactOrPanic (Dec256.mul a b) (a * b < 2 ^ 256) (a * b / 10 ^ 18) := by
  rw [pow18]
  exact .of (by simp) (fun h => div_lt_of_lt h) (by rintro ⟨w, h⟩; simp_all)
    (by unfold Dec256.mul; only_panics)

/-- **C49.** `Decimal256` division: floor of the exact quotient. -/
theorem C49_dec_div :
    ExactOrPanic (Dec256.div a b) (b ≠ 0 ∧ a * 10 ^ 18 < 2 ^ 256) (a * 10 ^ 18 / b) := by
  rw [pow18]
  exact .of (by simp) (fun h => div_lt_of_lt h.2) (by rintro ⟨w, h⟩; simp_all)
    (by unfold Dec256.div; only_panics)

/-- **C49.** `Decimal256::from_ratio`: floor of the exact quotient. -/
theorem C49_dec_from_ratio :
    ExactOrPanic (Dec256.fromRatio a b) (b ≠ 0 ∧ a * 10 ^ 18 < 2 ^ 256) (a * 10 ^ 18 / b) := by
  rw [pow18]
  exact .of (by simp) (fun h => div_lt_of_lt h.2) (by rintro ⟨w, h⟩; simp_all)
    (by unfold Dec256.fromRatio; only_panics)

/-- **C49.** `Decimal256::from_uint256`. -/
theorem C49_dec_from_uint : ExactOrPanic (Dec256.fromUint256 a) (a * 10 ^ 18 < 2 ^ 256) (a * 10 ^ 18) := by
  rw [pow18]
  exact .of (by simp) id (by rintro ⟨w, h⟩; simp_all) (by unfold Dec256.fromUint256; only_panics)

/-- **C49.** `Decimal256::percent`: `x` hundredths. -/
theorem C49_dec_percent : ExactOrPanic (Dec256.percent a) (a * 10 ^ 16 < 2 ^ 256) (a * 10 ^ 16) := by
  unfold Dec256.percent
  norm_num only
  exact .of (by simp) id (by rintro ⟨w, h⟩; simp_all) (by only_panics)

/-- **C49.** `Decimal256::permille`: `x` thousandths. -/
theorem C49_dec_permille : ExactOrPanic (Dec256.permille a) (a * 10 ^ 15 < 2 ^ 256) (a * 10 ^ 15) := by
  unfold Dec256.permille
  norm_num only
  exact .of (by simp) id (by rintro ⟨w, h⟩; simp_all) (by only_panics)
end

/-! ## C50 -/

/-- **C50.** `Decimal256::from_str` accepts exactly the decimal texts whose value fits 256 bits, and returns
that value. -/
theorem C50_parse_exact (s : List UInt8) (v : Nat) :
    Dec256.fromStr s = .ok v ↔ Spec.DecimalText s v ∧ v < 2 ^ 256 := fromStr_iff s v

/-- **C50.** The only texts that make it panic (rather than return an error) are well-formed decimals that are
too big. -/
theorem C50_panic_only_overflow (s : List UInt8) (p : Panic)
    (h : Dec256.fromStr s = .error (.panic p)) : ∃ v, Spec.DecimalText s v ∧ 2 ^ 256 ≤ v := fromStr_panic h

/-- **C50.** Two dots, a sign, a space or any other byte is refused. -/
theorem C50_refuses_other_bytes (s : List UInt8) (b : UInt8) (hb : b ∈ s)
    (h : b.toNat < 46 ∨ b.toNat = 47 ∨ 57 < b.toNat) : ∀ v, Dec256.fromStr s ≠ .ok v := by
  intro v hv
  rw [C50_parse_exact] at hv
  obtain ⟨hv, _⟩ := hv
  cases hv with
  | whole _ hp => have := hp b hb; omega
  | point p q hp hq _ =>
    simp only [List.append_assoc, List.mem_append, List.mem_singleton] at hb
    rcases hb with hb | rfl | hb
    · have := hp b hb; omega
    · revert h; decide
    · have := hq b hb; omega

/-- The text "1.23" is a decimal text (the hypotheses are met). -/
example : Spec.DecimalText [49, 46, 50, 51] 1230000000000000000 :=
  Spec.DecimalText.point [49] [50, 51] (by simp [Spec.IsDigits]) (by simp [Spec.IsDigits]) (by simp)

/-- Deviation from the doc comment at `math.rs:79-81` (which lists the empty string and ".23" as disallowed): the
empty string parses to 0 (the test at `math.rs:521` asserts this) and ".23" to 0.23. -/
theorem C50_empty_parts_accepted :
    Dec256.fromStr [] = .ok 0 ∧ Dec256.fromStr [46, 50, 51] = .ok 230000000000000000 := by
  constructor
  · exact (C50_parse_exact _ _).mpr ⟨.whole [] (by simp [Spec.IsDigits]), by norm_num⟩
  · exact (C50_parse_exact _ _).mpr
      ⟨.point [] [50, 51] (by simp [Spec.IsDigits]) (by simp [Spec.IsDigits]) (by simp), by norm_num⟩

end Halo
