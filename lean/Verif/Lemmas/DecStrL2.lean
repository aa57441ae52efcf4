import Verif.Lemmas.DecStrL
import Verif.Spec.BigNum
/-! # Parsing and printing meet the specification of decimal text -/

namespace Halo

theorem isDigit_iff (b : UInt8) : isDigit b = true ↔ 48 ≤ b.toNat ∧ b.toNat ≤ 57 := by
  unfold isDigit
  rw [Bool.and_eq_true, decide_eq_true_iff, decide_eq_true_iff, UInt8.le_iff_toNat_le,
    UInt8.le_iff_toNat_le]
  rfl

theorem all_isDigit (s : Str) : s.all isDigit = true ↔ Spec.IsDigits s := by
  unfold Spec.IsDigits
  rw [List.all_eq_true]
  simp only [isDigit_iff]

theorem dval_acc (acc : Nat) (s : Str) : dval acc s = acc * 10 ^ s.length + dval 0 s := by
  induction s generalizing acc with
  | nil => simp
  | cons b t ih =>
    rw [dval_cons, dval_cons, ih, ih (0 * 10 + (b.toNat - 48)), List.length_cons, pow_succ]
    ring

theorem dval_eq_digitsValue (s : Str) : dval 0 s = Spec.digitsValue s := by
  unfold Spec.digitsValue
  induction s with
  | nil => rfl
  | cons b t ih =>
    rw [dval_cons, dval_acc, ih, List.reverse_cons, List.map_append, Nat.ofDigits_append]
    simp only [List.length_map, List.length_reverse, List.map_cons, List.map_nil,
      Nat.ofDigits_singleton]
    ring

/-- Two readings of the same text agree. -/
theorem decimalText_whole {p : Str} {v : Nat} (hp : p.all isDigit = true) (h : Spec.DecimalText p v) :
    v = dval 0 p * DF := by
  cases h with
  | whole _ _ => rw [dval_eq_digitsValue]; rfl
  | point p q _ _ _ =>
    exfalso
    have : isDigit 46 = true := by
      rw [List.all_eq_true] at hp
      exact hp 46 (by simp)
    revert this; decide

theorem fromStr_whole {p : Str} (hp : p.all isDigit = true) (v : Nat) :
    Dec256.fromStr p = .ok v ↔ dval 0 p * DF < B256 ∧ v = dval 0 p * DF := by
  unfold Dec256.fromStr
  rw [splitDots_nodot hp]
  simp only [bind_eq_ok, okOr_eq_ok, U256.fromDecStr_eq_some, U256.mul_eq_ok]
  constructor
  · rintro ⟨w, ⟨_, _, rfl⟩, h2, rfl⟩
    exact ⟨h2, rfl⟩
  · rintro ⟨h, rfl⟩
    exact ⟨_, ⟨hp, lt_of_le_of_lt (Nat.le_mul_of_pos_right _ DF_pos) h, rfl⟩, h, rfl⟩

theorem fromStr_point {p q : Str} (hp : p.all isDigit = true) (hq : q.all isDigit = true) (v : Nat) :
    Dec256.fromStr (p ++ chrDot :: q) = .ok v ↔
      q.length ≤ 18 ∧ dval 0 p * DF + dval 0 q * 10 ^ (18 - q.length) < B256 ∧
      v = dval 0 p * DF + dval 0 q * 10 ^ (18 - q.length) := by
  unfold Dec256.fromStr
  rw [splitDots_dot q hp, splitDots_nodot hq]
  simp only [bind_eq_ok, okOr_eq_ok, U256.fromDecStr_eq_some, U256.mul_eq_ok, U256.add_eq_ok,
    require_eq_ok]
  constructor
  · rintro ⟨w, ⟨_, _, rfl⟩, f, ⟨_, _, rfl⟩, _, h18, a, ⟨_, rfl⟩, b, ⟨_, rfl⟩, h, rfl⟩
    exact ⟨h18, h, rfl⟩
  · rintro ⟨h18, h, rfl⟩
    have h1 : dval 0 p ≤ dval 0 p * DF := Nat.le_mul_of_pos_right _ DF_pos
    have h2 : dval 0 q ≤ dval 0 q * 10 ^ (18 - q.length) :=
      Nat.le_mul_of_pos_right _ (Nat.pow_pos (by norm_num))
    exact ⟨_, ⟨hp, by omega, rfl⟩, _, ⟨hq, by omega, rfl⟩, (), h18, _, ⟨by omega, rfl⟩, _,
      ⟨by omega, rfl⟩, h, rfl⟩

theorem fromStr_shape {s : Str} {v : Nat} (h : Dec256.fromStr s = .ok v) :
    s.all isDigit = true ∨ ∃ p q, s = p ++ chrDot :: q ∧ p.all isDigit = true ∧ q.all isDigit = true := by
  unfold Dec256.fromStr at h
  split at h
  · rename_i p hp
    left
    rw [splitDots_one hp]
    simp only [bind_eq_ok, okOr_eq_ok, U256.fromDecStr_eq_some] at h
    obtain ⟨_, ⟨h, _⟩, _⟩ := h
    exact h
  · rename_i p q hp
    right
    refine ⟨p, q, splitDots_two hp, ?_⟩
    simp only [bind_eq_ok, okOr_eq_ok, U256.fromDecStr_eq_some] at h
    obtain ⟨_, ⟨h, _⟩, _, ⟨h', _⟩, _⟩ := h
    exact ⟨h, h'⟩
  · simp at h

theorem pow18 : (10 : Nat) ^ 18 = DF := by norm_num [DF]

theorem fromStr_iff (s : Str) (v : Nat) :
    Dec256.fromStr s = .ok v ↔ Spec.DecimalText s v ∧ v < B256 := by
  constructor
  · intro h
    rcases fromStr_shape h with hs | ⟨p, q, rfl, hp, hq⟩
    · rw [fromStr_whole hs] at h
      obtain ⟨h1, rfl⟩ := h
      refine ⟨?_, h1⟩
      rw [dval_eq_digitsValue, ← pow18]
      exact .whole _ ((all_isDigit _).mp hs)
    · rw [fromStr_point hp hq] at h
      obtain ⟨h18, h1, rfl⟩ := h
      refine ⟨?_, h1⟩
      rw [dval_eq_digitsValue, dval_eq_digitsValue, ← pow18]
      have := Spec.DecimalText.point p q ((all_isDigit _).mp hp) ((all_isDigit _).mp hq) h18
      rw [List.append_assoc] at this
      exact this
  · rintro ⟨h, hv⟩
    cases h with
    | whole _ hp =>
      have hp' := (all_isDigit _).mpr hp
      rw [fromStr_whole hp', dval_eq_digitsValue, ← pow18]
      exact ⟨hv, rfl⟩
    | point p q hp hq h18 =>
      have hp' := (all_isDigit _).mpr hp
      have hq' := (all_isDigit _).mpr hq
      rw [List.append_assoc]
      change Dec256.fromStr (p ++ chrDot :: q) = _
      rw [fromStr_point hp' hq', dval_eq_digitsValue, dval_eq_digitsValue, ← pow18]
      exact ⟨h18, hv, rfl⟩

theorem mul_panics {a b : Nat} {e : Err} (h : U256.mul a b = .error e) : B256 ≤ a * b := by
  unfold U256.mul at h
  split at h
  · cases h
  · omega

theorem add_panics {a b : Nat} {e : Err} (h : U256.add a b = .error e) : B256 ≤ a + b := by
  unfold U256.add at h
  split at h
  · cases h
  · omega

theorem okOr_not_panic {α} {o : Option α} {n : Nat} {p : Panic} (h : okOr o (.generic n) = .error (.panic p)) :
    False := by
  cases o <;> simp [okOr] at h

theorem bind_eq_error {α β} {x : R α} {f : α → R β} {e : Err} :
    (x >>= f) = .error e ↔ x = .error e ∨ ∃ a, x = .ok a ∧ f a = .error e := by
  cases x <;> simp [bind, Except.bind]

/-- Parsing panics only on a well-formed text whose value does not fit. -/
theorem fromStr_panic {s : Str} {p : Panic} (h : Dec256.fromStr s = .error (.panic p)) :
    ∃ v, Spec.DecimalText s v ∧ B256 ≤ v := by
  unfold Dec256.fromStr at h
  split at h
  · rename_i t ht
    rw [splitDots_one ht]
    rw [bind_eq_error] at h
    rcases h with h | ⟨w, hw, h⟩
    · exact (okOr_not_panic h).elim
    · simp only [okOr_eq_ok, U256.fromDecStr_eq_some] at hw
      obtain ⟨h1, h2, rfl⟩ := hw
      refine ⟨_, .whole _ ((all_isDigit _).mp h1), ?_⟩
      rw [pow18, ← dval_eq_digitsValue]
      exact mul_panics h
  · rename_i t u ht
    rw [splitDots_two ht]
    rw [bind_eq_error] at h
    rcases h with h | ⟨w, hw, h⟩
    · exact (okOr_not_panic h).elim
    rw [bind_eq_error] at h
    rcases h with h | ⟨f, hf, h⟩
    · exact (okOr_not_panic h).elim
    rw [bind_eq_error] at h
    rcases h with h | ⟨_, h18, h⟩
    · unfold require at h; split at h <;> simp at h
    simp only [okOr_eq_ok, U256.fromDecStr_eq_some] at hw hf
    obtain ⟨h1, h2, rfl⟩ := hw
    obtain ⟨h3, h4, rfl⟩ := hf
    rw [require_eq_ok] at h18
    have hd := Spec.DecimalText.point t u ((all_isDigit _).mp h1) ((all_isDigit _).mp h3) h18
    rw [List.append_assoc] at hd
    refine ⟨_, hd, ?_⟩
    rw [pow18, ← dval_eq_digitsValue, ← dval_eq_digitsValue]
    rw [bind_eq_error] at h
    rcases h with h | ⟨a, ha, h⟩
    · have := mul_panics h; omega
    rw [bind_eq_error] at h
    rcases h with h | ⟨b, hb, h⟩
    · have := mul_panics h; omega
    rw [U256.mul_eq_ok] at ha hb
    obtain ⟨_, rfl⟩ := ha
    obtain ⟨_, rfl⟩ := hb
    exact add_panics h
  · cases h

/-- What is printed denotes the printed value. -/
theorem toStr_shape (d : Nat) :
    (d % DF = 0 ∧ Dec256.toStr d = natToDec (d / DF)) ∨
    (∃ t : Str, t.all isDigit = true ∧ t.length ≤ 18 ∧ t ≠ [] ∧ dval 0 t * 10 ^ (18 - t.length) = d % DF ∧
      Dec256.toStr d = natToDec (d / DF) ++ chrDot :: t) := by
  unfold Dec256.toStr
  by_cases h0 : d % DF = 0
  · left; simp [h0]
  · right
    obtain ⟨h1, h2, h3, h4⟩ := frac_spec (Nat.mod_lt d DF_pos) h0
    refine ⟨_, h1, h2, h4, h3, ?_⟩
    simp [h0]

theorem fromStr_toStr {d : Nat} (h : d < B256) : Dec256.fromStr (Dec256.toStr d) = .ok d := by
  have hdm := Nat.div_add_mod' d DF
  rcases toStr_shape d with ⟨h0, hs⟩ | ⟨t, h1, h2, _, h3, hs⟩
  · rw [hs, fromStr_whole (natToDec_all _), dval_natToDec]
    omega
  · rw [hs, fromStr_point (natToDec_all _) h1, dval_natToDec, h3]
    refine ⟨h2, ?_, ?_⟩ <;> omega

theorem ofDecimal_ok {d : Nat} (h : d < B256) : Dec256.ofDecimal d = .ok d := by
  unfold Dec256.ofDecimal
  have : Decimal.toStr d = Dec256.toStr d := rfl
  rw [this, fromStr_toStr h]

theorem decimal_fromStr_toStr {d : Nat} (h : d < B128) : Decimal.fromStr (Dec256.toStr d) = .ok d := by
  have hdm := Nat.div_add_mod' d DF
  have hle : d / DF ≤ d / DF * DF := Nat.le_mul_of_pos_right _ DF_pos
  unfold Decimal.fromStr
  rcases toStr_shape d with ⟨h0, hs⟩ | ⟨t, h1, h2, ht, h3, hs⟩
  · rw [hs, splitDots_nodot (natToDec_all _)]
    simp only [bind_eq_ok, okOr_eq_ok, Uint128.fromDecStr_eq_some, Uint128.checkedMul_eq_ok,
      dropPlus_digits (natToDec_all _), dval_natToDec]
    exact ⟨_, ⟨natToDec_all _, natToDec_ne_nil _, by omega, rfl⟩, by omega, by omega⟩
  · rw [hs, splitDots_dot _ (natToDec_all _), splitDots_nodot h1]
    simp only [bind_eq_ok, okOr_eq_ok, Uint128.fromDecStr_eq_some, Uint128.checkedMul_eq_ok, pure_eq_ok,
      Uint128.mulChk_eq_ok, require_eq_ok, dropPlus_digits (natToDec_all _), dropPlus_digits h1, dval_natToDec]
    have h2' : dval 0 t ≤ dval 0 t * 10 ^ (18 - t.length) :=
      Nat.le_mul_of_pos_right _ (Nat.pow_pos (by norm_num))
    refine ⟨_, ⟨natToDec_all _, natToDec_ne_nil _, by omega, rfl⟩, _, ⟨by omega, rfl⟩, _,
      ⟨h1, ht, by omega, rfl⟩, (), h2, _, ⟨?_, rfl⟩, (), ?_, ?_⟩ <;> rw [h3] <;> omega

end Halo
