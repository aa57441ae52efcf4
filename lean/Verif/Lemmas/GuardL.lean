import Verif.Lemmas.PairInv
import Mathlib.Tactic.Linarith
/-! # Arithmetic of the spread and slippage guards (helper lemmas) -/

namespace Halo
namespace Pair

theorem scaleDecimals_eq_ok {x r s od ad x' r' s' : Nat} :
    scaleDecimals x r s od ad = .ok (x', r', s') ↔
      (ad < od → 10 ^ (od - ad) < B64 ∧ r * 10 ^ (od - ad) < B128 ∧ s * 10 ^ (od - ad) < B128) ∧
      (od < ad → 10 ^ (ad - od) < B64 ∧ x * 10 ^ (ad - od) < B128) ∧
      x' = x * 10 ^ (ad - od) ∧ r' = r * 10 ^ (od - ad) ∧ s' = s * 10 ^ (od - ad) := by
  unfold scaleDecimals
  rcases Nat.lt_trichotomy od ad with h | h | h
  · have h1 : ¬ od > ad := by omega
    have h2 : od - ad = 0 := by omega
    simp only [h1, ↓reduceIte, h, bind_eq_ok, Uint128.pow10u64_eq_ok, Uint128.checkedMul_eq_ok, pure_eq_ok,
      Uint256.ofU128_eq, Prod.mk.injEq, h2, pow_zero, mul_one, true_implies]
    constructor
    · rintro ⟨_, ⟨h3, rfl⟩, _, ⟨h4, rfl⟩, rfl, rfl, rfl⟩
      exact ⟨fun h' => h'.elim, ⟨h3, h4⟩, rfl, rfl, rfl⟩
    · rintro ⟨_, ⟨h3, h4⟩, rfl, rfl, rfl⟩
      exact ⟨_, ⟨h3, rfl⟩, _, ⟨h4, rfl⟩, rfl, rfl, rfl⟩
  · subst h
    simp only [gt_iff_lt, lt_self_iff_false, ↓reduceIte, Nat.sub_self, pow_zero, mul_one, false_implies, true_and,
      Uint256.ofU128_eq, pure_eq_ok, Prod.mk.injEq]
    exact ⟨fun h => ⟨h.1.symm, h.2.1.symm, h.2.2.symm⟩, fun h => ⟨h.1.symm, h.2.1.symm, h.2.2.symm⟩⟩
  · have h1 : ¬ od < ad := by omega
    have h2 : ad - od = 0 := by omega
    simp only [h, ↓reduceIte, bind_eq_ok, Uint128.pow10u64_eq_ok, Uint128.checkedMul_eq_ok, pure_eq_ok,
      Uint256.ofU128_eq, Prod.mk.injEq, h2, pow_zero, mul_one, true_implies]
    constructor
    · rintro ⟨_, ⟨h3, rfl⟩, _, ⟨h4, rfl⟩, _, ⟨h5, rfl⟩, rfl, rfl, rfl⟩
      exact ⟨⟨h3, h4, h5⟩, fun h' => absurd h' h1, rfl, rfl, rfl⟩
    · rintro ⟨⟨h3, h4, h5⟩, _, rfl, rfl, rfl⟩
      exact ⟨_, ⟨h3, rfl⟩, _, ⟨h4, rfl⟩, _, ⟨h5, rfl⟩, rfl, rfl, rfl⟩

theorem maxSpread_none_inv {m x r s od ad : Nat} (hm : m < B128)
    (h : assertMaxSpread none (some m) x r s od ad = .ok ()) : r + s ≠ 0 ∧ s * DF / (r + s) ≤ m := by
  unfold assertMaxSpread at h
  simp only [bind_eq_ok, Prod.exists, scaleDecimals_eq_ok, ofDecimal_ok (lt_trans hm (by norm_num : B128 < B256)),
    Except.ok.injEq, Uint256.add_eq_ok, Dec256.fromRatio_eq_ok, require_eq_ok] at h
  obtain ⟨_, _, _, ⟨_, _, rfl, rfl, rfl⟩, _, rfl, _, ⟨_, rfl⟩, _, ⟨h1, _, rfl⟩, h2⟩ := h
  have e1 : r * 10 ^ (od - ad) + s * 10 ^ (od - ad) = (r + s) * 10 ^ (od - ad) := by ring
  have e2 : s * 10 ^ (od - ad) * DF = s * DF * 10 ^ (od - ad) := by ring
  rw [e1] at h1
  rw [e1, e2, Nat.mul_div_mul_right _ _ (Nat.pow_pos (by norm_num))] at h2
  refine ⟨fun h0 => h1 (by rw [h0, Nat.zero_mul]), by omega⟩

theorem maxSpread_some_inv {p m x r s od ad : Nat} (hp : p < B128) (hm : m < B128)
    (h : assertMaxSpread (some p) (some m) x r s od ad = .ok ()) :
    p ≠ 0 ∧ (x * 10 ^ (ad - od) * DF / p) * DF ≤
      r * 10 ^ (od - ad) * DF + (m + 1) * (x * 10 ^ (ad - od) * DF / p) := by
  unfold assertMaxSpread at h
  simp only [bind_eq_ok, Prod.exists, scaleDecimals_eq_ok, ofDecimal_ok (lt_trans hm (by norm_num : B128 < B256)),
    ofDecimal_ok (lt_trans hp (by norm_num : B128 < B256)),
    Except.ok.injEq, Uint256.divDec_eq_ok, subOrZero_eq_ok] at h
  obtain ⟨_, _, _, ⟨_, _, rfl, rfl, rfl⟩, _, rfl, _, rfl, E, ⟨h1, _, hE⟩, _, rfl, h2⟩ := h
  refine ⟨h1, ?_⟩
  rw [← hE]
  generalize r * 10 ^ (od - ad) = R at *
  split at h2
  · simp only [bind_eq_ok, Dec256.fromRatio_eq_ok, require_eq_ok] at h2
    obtain ⟨_, ⟨h3, _, rfl⟩, h4⟩ := h2
    have h5 : (E - R) * DF / E < m + 1 := by omega
    rw [Nat.div_lt_iff_lt_mul (by omega), Nat.sub_mul] at h5
    omega
  · have : E ≤ R := by omega
    have := Nat.mul_le_mul_right DF this
    omega

theorem slippage_inv {t d0 d1 p0 p1 : Nat} (ht : t < B128)
    (h : assertSlippageTolerance (some t) (d0, d1) (p0, p1) = .ok ()) :
    t ≤ DF ∧ d0 ≠ 0 ∧ d1 ≠ 0 ∧ p0 ≠ 0 ∧ p1 ≠ 0 ∧
    d0 * (DF - t) * p1 < (p0 * DF + 2 * p1) * d1 ∧ d1 * (DF - t) * p0 < (p1 * DF + 2 * p0) * d0 := by
  unfold assertSlippageTolerance at h
  simp only [bind_eq_ok, ofDecimal_ok (lt_trans ht (by norm_num : B128 < B256)), Except.ok.injEq, require_eq_ok,
    Dec256.one, Dec256.sub_eq_ok, Uint256.ofU128_eq, Dec256.fromRatio_eq_ok, Dec256.mul_eq_ok] at h
  obtain ⟨_, rfl, _, h1, _, ⟨_, rfl⟩, _, ⟨h2, _, rfl⟩, _, ⟨_, rfl⟩, _, ⟨h3, _, rfl⟩, _, h4, _, ⟨h5, _, rfl⟩, _,
    ⟨_, rfl⟩, _, ⟨h6, _, rfl⟩, h7⟩ := h
  refine ⟨by omega, h5, h2, h6, h3, ?_, ?_⟩
  · exact ratio_lt (Nat.sub_le _ _) h2 h3 (by omega)
  · exact ratio_lt (Nat.sub_le _ _) h5 h6 (by omega)
where
  ratio_lt {a b c d T : Nat} (hT : T ≤ DF) (hb : b ≠ 0) (hd : d ≠ 0) (h : a * DF / b * T / DF ≤ c * DF / d) :
      a * T * d < (c * DF + 2 * d) * b := by
    have h1 : a * DF < (a * DF / b + 1) * b := by
      have := Nat.lt_div_mul_add (a := a * DF) (b := b) (by omega)
      rw [Nat.add_mul, one_mul]; exact this
    have h2 := Nat.div_mul_le_self (c * DF) d
    have h3 : a * DF / b * T < (a * DF / b * T / DF + 1) * DF := by
      have := Nat.lt_div_mul_add (a := a * DF / b * T) (b := DF) DF_pos
      rw [Nat.add_mul, one_mul]; exact this
    generalize a * DF / b = A at *
    generalize c * DF / d = C at *
    generalize A * T / DF = X at *
    -- a·T·DF ≤ (A+1)·b·T, A·T < (C+1)·DF
    have h4 : A * T < (C + 1) * DF := lt_of_lt_of_le h3 (Nat.mul_le_mul_right _ (by omega))
    have h5 : a * DF * T ≤ (A + 1) * b * T := Nat.mul_le_mul_right _ h1.le
    have h6 : (A + 1) * T < (C + 2) * DF := by nlinarith
    have h7 : (A + 1) * T * b < (C + 2) * DF * b := Nat.mul_lt_mul_of_pos_right h6 (by omega)
    have h8 : a * T * d * DF < (C * d + 2 * d) * b * DF := by
      have h9 : a * DF * T * d < (C + 2) * DF * b * d :=
        Nat.mul_lt_mul_of_pos_right (by nlinarith) (by omega)
      nlinarith
    have h9 := Nat.lt_of_mul_lt_mul_right h8
    have h10 : (C * d + 2 * d) * b ≤ (c * DF + 2 * d) * b := Nat.mul_le_mul_right _ (by omega)
    omega

end Pair
end Halo
