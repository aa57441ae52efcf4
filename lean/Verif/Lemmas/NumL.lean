import Verif.Num
import Mathlib.Tactic.Ring
import Mathlib.Tactic.Linarith
/-! # When the numeric operations succeed, and with what (helper lemmas) -/

namespace Halo

@[simp] theorem U256.mul_eq_ok {a b v : Nat} : U256.mul a b = .ok v ↔ a * b < B256 ∧ v = a * b := by
  unfold U256.mul; split <;> simp_all [eq_comm]

@[simp] theorem U256.add_eq_ok {a b v : Nat} : U256.add a b = .ok v ↔ a + b < B256 ∧ v = a + b := by
  unfold U256.add; split <;> simp_all [eq_comm]

@[simp] theorem U256.div_eq_ok {a b v : Nat} : U256.div a b = .ok v ↔ b ≠ 0 ∧ v = a / b := by
  unfold U256.div; split <;> simp_all [eq_comm]

@[simp] theorem Uint256.ofU128_eq (v : Nat) : Uint256.ofU128 v = v := by
  unfold Uint256.ofU128 Uint256.splitU128 U256.ofLimbs
  have h : v &&& 0xFFFFFFFFFFFFFFFF = v % 2 ^ 64 := Nat.and_two_pow_sub_one_eq_mod v 64
  have h2 : v >>> 64 = v / 2 ^ 64 := Nat.shiftRight_eq_div_pow v 64
  simp only [h, h2]
  omega

theorem Uint256.toU128_eq_ok {n v : Nat} (hn : n < B256) :
    Uint256.toU128 n = .ok v ↔ n < B128 ∧ v = n := by
  unfold Uint256.toU128
  simp only [bind_eq_ok, require_eq_ok, U256.limb, pure_eq_ok, Nat.shiftLeft_eq, exists_const]
  norm_num at *
  constructor
  · rintro ⟨h1, h2, h3⟩
    omega
  · rintro ⟨h1, h2⟩
    omega

@[simp] theorem Uint256.add_eq_ok {a b v : Nat} :
    Uint256.add a b = .ok v ↔ a + b < B256 ∧ v = a + b := U256.add_eq_ok

@[simp] theorem Uint256.sub_eq_ok {a b v : Nat} : Uint256.sub a b = .ok v ↔ b ≤ a ∧ v = a - b := by
  unfold Uint256.sub; simp; intro _; exact eq_comm

@[simp] theorem Uint256.mul_eq_ok {a b v : Nat} :
    Uint256.mul a b = .ok v ↔ a * b < B256 ∧ v = a * b := by
  unfold Uint256.mul; split
  · rename_i h
    rcases h with h | h <;> simp [h, Uint256.zero, eq_comm]
  · simp

@[simp] theorem Uint256.multiplyRatio_eq_ok {a b c v : Nat} :
    Uint256.multiplyRatio a b c = .ok v ↔ c ≠ 0 ∧ a * b < B256 ∧ v = a * b / c := by
  unfold Uint256.multiplyRatio; simp
  exact fun h _ _ => h

theorem DF_pos : 0 < DF := by norm_num [DF]
theorem DF_ne : DF ≠ 0 := by norm_num [DF]

@[simp] theorem Uint256.mulDec_eq_ok {a d v : Nat} :
    Uint256.mulDec a d = .ok v ↔ a * d < B256 ∧ v = a * d / DF := by
  unfold Uint256.mulDec; split
  · rename_i h
    rcases h with h | h <;> simp [h, Uint256.zero, eq_comm]
  · simp [DF_ne]

@[simp] theorem Uint256.divDec_eq_ok {a d v : Nat} :
    Uint256.divDec a d = .ok v ↔ d ≠ 0 ∧ a * DF < B256 ∧ v = a * DF / d := by
  unfold Uint256.divDec
  by_cases ha : a = 0
  · simp [ha, Uint256.zero]; intro _; exact eq_comm
  · simp [ha]

@[simp] theorem Dec256.fromRatio_eq_ok {a b v : Nat} :
    Dec256.fromRatio a b = .ok v ↔ b ≠ 0 ∧ a * DF < B256 ∧ v = a * DF / b := by
  unfold Dec256.fromRatio; simp
  exact fun h _ _ => h

@[simp] theorem Dec256.fromUint256_eq_ok {a v : Nat} :
    Dec256.fromUint256 a = .ok v ↔ a * DF < B256 ∧ v = a * DF := U256.mul_eq_ok

@[simp] theorem Dec256.add_eq_ok {a b v : Nat} :
    Dec256.add a b = .ok v ↔ a + b < B256 ∧ v = a + b := U256.add_eq_ok

@[simp] theorem Dec256.sub_eq_ok {a b v : Nat} : Dec256.sub a b = .ok v ↔ b ≤ a ∧ v = a - b := by
  unfold Dec256.sub; simp; intro _; exact eq_comm

@[simp] theorem Dec256.mul_eq_ok {a b v : Nat} :
    Dec256.mul a b = .ok v ↔ a * b < B256 ∧ v = a * b / DF := by
  unfold Dec256.mul; simp [DF_ne]

@[simp] theorem Dec256.div_eq_ok {a b v : Nat} :
    Dec256.div a b = .ok v ↔ b ≠ 0 ∧ a * DF < B256 ∧ v = a * DF / b := by
  unfold Dec256.div; simp
  exact fun h _ _ => h

@[simp] theorem Uint128.mulChk_eq_ok {a b v : Nat} :
    Uint128.mulChk a b = .ok v ↔ a * b < B128 ∧ v = a * b := by
  unfold Uint128.mulChk; split <;> simp_all [eq_comm]

@[simp] theorem Uint128.checkedSub_eq_ok {a b v : Nat} :
    Uint128.checkedSub a b = .ok v ↔ b ≤ a ∧ v = a - b := by
  unfold Uint128.checkedSub; split <;> simp_all [eq_comm]

@[simp] theorem Uint128.checkedMul_eq_ok {a b v : Nat} :
    Uint128.checkedMul a b = .ok v ↔ a * b < B128 ∧ v = a * b := by
  unfold Uint128.checkedMul; split <;> simp_all [eq_comm]

@[simp] theorem Uint128.add_eq_ok {a b v : Nat} :
    Uint128.add a b = .ok v ↔ a + b < B128 ∧ v = a + b := by
  unfold Uint128.add; split <;> simp_all [eq_comm]

@[simp] theorem Uint128.multiplyRatio_eq_ok {a b c v : Nat} :
    Uint128.multiplyRatio a b c = .ok v ↔ c ≠ 0 ∧ a * b / c < B128 ∧ v = a * b / c := by
  unfold Uint128.multiplyRatio; split
  · simp_all
  · split <;> simp_all [eq_comm]

@[simp] theorem Uint128.decFromRatio_eq_ok {a b v : Nat} :
    Uint128.decFromRatio a b = .ok v ↔ b ≠ 0 ∧ a * DF / b < B128 ∧ v = a * DF / b :=
  Uint128.multiplyRatio_eq_ok

@[simp] theorem Uint128.mulDecimal_eq_ok {a d v : Nat} :
    Uint128.mulDecimal a d = .ok v ↔ a * d / DF < B128 ∧ v = a * d / DF := by
  unfold Uint128.mulDecimal; split
  · rename_i h
    rcases h with h | h <;> simp [h, eq_comm]
  · simp [DF_ne]

@[simp] theorem Uint128.pow10u64_eq_ok {e v : Nat} :
    Uint128.pow10u64 e = .ok v ↔ 10 ^ e < B64 ∧ v = 10 ^ e := by
  unfold Uint128.pow10u64; split <;> simp_all [eq_comm]

end Halo
