import Verif.Pair
import Verif.Lemmas.NumL
/-! # Closed forms of `compute_swap` and `compute_offer_amount` (helper lemmas) -/

namespace Halo

theorem commissionRate_eq : Pair.commissionRate = .ok 3000000000000000 := by rfl

/-- Gross output before commission, as the code computes it. -/
def grossOf (o a x : Nat) : Nat := (a * DF - o * a * DF / (o + x)) / DF

/-- Output at the spot price, as the code computes it. -/
def idealOf (o a x : Nat) : Nat := x * (a * DF / o) / DF

theorem grossOf_le (o a x : Nat) : grossOf o a x ≤ a := by
  unfold grossOf
  apply Nat.div_le_of_le_mul
  rw [Nat.mul_comm]; exact Nat.sub_le _ _

theorem left_le (o a x : Nat) (_h : o + x ≠ 0) : o * a * DF / (o + x) ≤ a * DF := by
  apply Nat.div_le_of_le_mul
  have : o * a * DF = o * (a * DF) := by ring
  rw [this]
  exact Nat.mul_le_mul_right _ (Nat.le_add_right _ _)

theorem comm_eq (g : Nat) : g * 3000000000000000 / DF = 3 * g / 1000 := by
  have h : DF = 1000 * 1000000000000000 := by rfl
  have h2 : g * 3000000000000000 = (3 * g) * 1000000000000000 := by ring
  rw [h, h2]; exact Nat.mul_div_mul_right _ _ (by norm_num)

theorem computeSwap_ok_iff {o a x r s c : Nat} (ho : o < B128) (ha : a < B128) (hx : x < B128) :
    Pair.computeSwap o a x = .ok (r, s, c) ↔
      o ≠ 0 ∧ o * a * DF < B256 ∧ x * (a * DF / o) < B256 ∧ grossOf o a x ≤ idealOf o a x ∧
      idealOf o a x - grossOf o a x < B128 ∧
      c = 3 * grossOf o a x / 1000 ∧ r = grossOf o a x - c ∧ s = idealOf o a x - grossOf o a x := by
  have hg := grossOf_le o a x
  have hcp : o * a < B256 := by
    have : o * a < B128 * B128 := Nat.mul_lt_mul'' ho ha
    calc o * a < B128 * B128 := this
      _ = B256 := by norm_num
  have hDF : DF < 2 ^ 64 := by norm_num [DF]
  have haDF : a * DF < B128 * 2 ^ 64 := Nat.mul_lt_mul'' ha hDF
  have haDF' : a * DF < B256 := lt_of_lt_of_le haDF (by norm_num)
  have hsum : o + x < B256 := by
    have : (B256 : Nat) = B128 * B128 := by norm_num
    have h2 : (2 : Nat) * B128 ≤ B128 * B128 := Nat.mul_le_mul_right _ (by norm_num)
    omega
  have hg128 : grossOf o a x < B128 := lt_of_le_of_lt hg ha
  have hc : grossOf o a x * 3000000000000000 < B256 := by
    have : grossOf o a x * 3000000000000000 < B128 * 2 ^ 64 :=
      Nat.mul_lt_mul'' hg128 (by norm_num)
    exact lt_of_lt_of_le this (by norm_num)
  have h128 : (B128 : Nat) ≤ B256 := by norm_num
  unfold Pair.computeSwap
  simp only [Uint256.ofU128_eq, commissionRate_eq, bind_eq_ok, Uint256.mul_eq_ok,
    Dec256.fromUint256_eq_ok, Uint256.add_eq_ok, Dec256.fromRatio_eq_ok, Dec256.sub_eq_ok,
    Uint256.mulDec_eq_ok, Uint256.sub_eq_ok, Uint256.one, Except.ok.injEq, pure_eq_ok, Prod.mk.injEq]
  constructor
  · rintro ⟨_, rfl, _, ⟨_, rfl⟩, _, ⟨_, rfl⟩, _, ⟨_, rfl⟩, _, ⟨h1, h2, rfl⟩, _, ⟨h3, rfl⟩, _, ⟨h4, rfl⟩,
      _, ⟨h5, h6, rfl⟩, _, ⟨h7, rfl⟩, _, ⟨h8, rfl⟩, _, ⟨h9, rfl⟩, _, ⟨h10, rfl⟩, r', hr, s', hs, c', hc',
      rfl, rfl, rfl⟩
    rw [one_mul] at *
    change grossOf o a x ≤ idealOf o a x at h8
    change grossOf o a x * _ / DF ≤ grossOf o a x at h10
    change Uint256.toU128 (grossOf o a x - grossOf o a x * 3000000000000000 / DF) = _ at hr
    change Uint256.toU128 (idealOf o a x - grossOf o a x) = _ at hs
    change Uint256.toU128 (grossOf o a x * 3000000000000000 / DF) = _ at hc'
    have hid : idealOf o a x < B256 := lt_of_le_of_lt (Nat.div_le_self _ _) h7
    rw [Uint256.toU128_eq_ok (by omega)] at hs
    rw [comm_eq] at hr hc'
    rw [Uint256.toU128_eq_ok (by omega)] at hr hc'
    exact ⟨h5, h2, h7, h8, hs.1, hc'.2, by rw [hr.2, hc'.2], hs.2⟩
  · rintro ⟨h1, h2, h3, h4, h5, rfl, rfl, rfl⟩
    have hid : idealOf o a x < B256 := lt_of_le_of_lt (Nat.div_le_self _ _) h3
    have hne : o + x ≠ 0 := by omega
    refine ⟨_, rfl, _, ⟨hcp, rfl⟩, _, ⟨haDF', rfl⟩, _, ⟨hsum, rfl⟩, _, ⟨hne, h2, rfl⟩, _,
      ⟨left_le o a x hne, rfl⟩, _, ⟨?_, rfl⟩, _, ⟨h1, haDF', rfl⟩, _, ⟨h3, rfl⟩, _, ⟨?_, rfl⟩, _, ⟨?_, rfl⟩, _,
      ⟨?_, rfl⟩, grossOf o a x - 3 * grossOf o a x / 1000, ?_, _, ?_, 3 * grossOf o a x / 1000, ?_, rfl, rfl, rfl⟩
    · rw [one_mul]; exact lt_of_le_of_lt (Nat.sub_le _ _) haDF'
    · rw [one_mul]; exact h4
    · rw [one_mul]; exact hc
    · rw [one_mul]
      change grossOf o a x * _ / DF ≤ grossOf o a x
      rw [comm_eq]; omega
    · rw [one_mul]
      change Uint256.toU128 (grossOf o a x - grossOf o a x * 3000000000000000 / DF) = _
      rw [comm_eq, Uint256.toU128_eq_ok (by omega)]; exact ⟨by omega, rfl⟩
    · rw [one_mul]
      change Uint256.toU128 (idealOf o a x - grossOf o a x) = _
      rw [Uint256.toU128_eq_ok (by omega)]; exact ⟨h5, rfl⟩
    · rw [one_mul]
      change Uint256.toU128 (grossOf o a x * 3000000000000000 / DF) = _
      rw [comm_eq, Uint256.toU128_eq_ok (by omega)]; exact ⟨by omega, rfl⟩

@[simp] theorem subOrZero_eq_ok {a b v : Nat} : Pair.subOrZero a b = .ok v ↔ v = a - b := by
  unfold Pair.subOrZero; split
  · rw [Uint256.sub_eq_ok]; exact ⟨fun h => h.2, fun h => ⟨by omega, h⟩⟩
  · simp only [Uint256.zero, Except.ok.injEq]; omega

/-- `1 / (1 - 0.003)` truncated to 18 digits. -/
def invC : Nat := 1003009027081243731

theorem invC_eq : DF * DF / (DF - 3000000000000000) = invC := by rfl

/-- Output before commission that a reverse quote aims at. -/
def grossNeeded (y : Nat) : Nat := y * invC / DF

/-- The quoted offer. -/
def quoteOf (o a y : Nat) : Nat := o * a / (a - grossNeeded y) - o

theorem computeOfferAmount_ok_iff {o a y q s c : Nat} (ho : o < B128) (ha : a < B128) (hy : y < B128) :
    Pair.computeOfferAmount o a y = .ok (q, s, c) ↔
      o ≠ 0 ∧ grossNeeded y < a ∧ quoteOf o a y < B128 ∧
      quoteOf o a y * (a * DF / o) < B256 ∧
      quoteOf o a y * (a * DF / o) / DF - grossNeeded y < B128 ∧
      q = quoteOf o a y ∧ s = quoteOf o a y * (a * DF / o) / DF - grossNeeded y ∧
      c = 3 * grossNeeded y / 1000 := by
  have hcp : o * a < B256 := by
    have : o * a < B128 * B128 := Nat.mul_lt_mul'' ho ha
    calc o * a < B128 * B128 := this
      _ = B256 := by norm_num
  have hDF : DF < 2 ^ 64 := by norm_num [DF]
  have haDF : a * DF < B128 * 2 ^ 64 := Nat.mul_lt_mul'' ha hDF
  have haDF' : a * DF < B256 := lt_of_lt_of_le haDF (by norm_num)
  have hyI : y * invC < B256 :=
    lt_of_lt_of_le (Nat.mul_lt_mul'' hy (by norm_num [invC] : invC < 2 ^ 64)) (by norm_num)
  have hDD : DF * DF < B256 := by norm_num [DF]
  have h128 : (B128 : Nat) ≤ B256 := by norm_num
  have hqle : grossNeeded y < a → o ≤ o * a / (a - grossNeeded y) := fun h => by
    rw [Nat.le_div_iff_mul_le (by omega)]
    exact Nat.mul_le_mul_left _ (Nat.sub_le _ _)
  have hq256 : quoteOf o a y < B256 :=
    lt_of_le_of_lt (le_trans (Nat.sub_le _ _) (Nat.div_le_self _ _)) hcp
  unfold Pair.computeOfferAmount
  have hne : DF - 3000000000000000 ≠ 0 := by norm_num [DF]
  simp only [Uint256.ofU128_eq, commissionRate_eq, bind_eq_ok, Uint256.mul_eq_ok,
    Dec256.fromRatio_eq_ok, Dec256.sub_eq_ok, Dec256.div_eq_ok, Dec256.one, subOrZero_eq_ok,
    Uint256.mulDec_eq_ok, Uint256.sub_eq_ok, Uint256.one, Except.ok.injEq, pure_eq_ok, Prod.mk.injEq,
    Uint256.multiplyRatio_eq_ok]
  constructor
  · rintro ⟨_, rfl, _, ⟨_, rfl⟩, _, ⟨_, rfl⟩, _, ⟨_, _, rfl⟩, _, ⟨_, rfl⟩, _, ⟨h1, rfl⟩, _, ⟨h2, h3, rfl⟩,
      _, ⟨h4, rfl⟩, _, ⟨h5, rfl⟩, _, ⟨h6, h7, rfl⟩, _, ⟨h8, rfl⟩, sp, rfl, _, ⟨h9, rfl⟩, q', hq, s', hs, c', hc,
      rfl, rfl, rfl⟩
    rw [invC_eq] at *
    rw [one_mul] at h8 hs hq
    change grossNeeded y ≤ a at h1
    change a - grossNeeded y ≠ 0 at h2
    change Uint256.toU128 (quoteOf o a y) = _ at hq
    change quoteOf o a y * (a * DF / o) < B256 at h8
    change grossNeeded y * 3000000000000000 < B256 at h9
    change Uint256.toU128 (quoteOf o a y * (a * DF / o) / DF - grossNeeded y) = _ at hs
    have hlt : quoteOf o a y * (a * DF / o) / DF < B256 := lt_of_le_of_lt (Nat.div_le_self _ _) h8
    rw [Uint256.toU128_eq_ok (by omega)] at hs
    rw [Uint256.toU128_eq_ok hq256] at hq
    change Uint256.toU128 (grossNeeded y * 3000000000000000 / DF) = _ at hc
    rw [comm_eq, Uint256.toU128_eq_ok (by omega)] at hc
    exact ⟨h6, by omega, hq.1, h8, hs.1, hq.2, hs.2, hc.2⟩
  · rintro ⟨h1, h2, h3, h4, h5, rfl, rfl, rfl⟩
    have hlt : quoteOf o a y * (a * DF / o) / DF < B256 := lt_of_le_of_lt (Nat.div_le_self _ _) h4
    have hg9 : grossNeeded y * 3000000000000000 < B256 := by
      have : grossNeeded y * 3000000000000000 < B128 * 2 ^ 64 :=
        Nat.mul_lt_mul'' (lt_trans h2 ha) (by norm_num)
      exact lt_of_lt_of_le this (by norm_num)
    refine ⟨_, rfl, _, ⟨hcp, rfl⟩, _, ⟨by norm_num [DF], rfl⟩, _, ⟨hne, hDD, rfl⟩, _, ⟨?_, rfl⟩, _, ⟨?_, rfl⟩, _,
      ⟨?_, ?_, rfl⟩, _, ⟨?_, rfl⟩, _, ⟨?_, rfl⟩, _, ⟨h1, haDF', rfl⟩, _, ⟨?_, rfl⟩,
      _, rfl, _, ⟨?_, rfl⟩, quoteOf o a y, ?_,
      quoteOf o a y * (a * DF / o) / DF - grossNeeded y, ?_, 3 * grossNeeded y / 1000, ?_, rfl, rfl, rfl⟩
    all_goals try rw [invC_eq]
    all_goals try rw [one_mul]
    · exact hyI
    · exact h2.le
    · change a - grossNeeded y ≠ 0; omega
    · exact hcp
    · exact hqle h2
    · exact hyI
    · exact h4
    · exact hg9
    · change Uint256.toU128 (quoteOf o a y) = _
      rw [Uint256.toU128_eq_ok hq256]; exact ⟨h3, rfl⟩
    · change Uint256.toU128 (quoteOf o a y * (a * DF / o) / DF - grossNeeded y) = _
      rw [Uint256.toU128_eq_ok (by omega)]; exact ⟨h5, rfl⟩
    · change Uint256.toU128 (grossNeeded y * 3000000000000000 / DF) = _
      rw [comm_eq, Uint256.toU128_eq_ok (by omega)]; exact ⟨by omega, rfl⟩

end Halo
