import Mathlib.Data.List.Basic
/-! # Specification: deposits

Independent of the model: how many LP tokens a deposit is worth and when it is balanced enough. -/

namespace Halo.Spec

/-- `a / b` in 18-digit fixed point, rounded down. -/
def ratio18 (a b : Nat) : Nat := a * 10 ^ 18 / b

/-- A deposit of `d0`, `d1` into reserves `p0`, `p1` is within the tolerance `t / 10^18`: both price ratios of the deposit,
reduced by the tolerance, stay at or below those of the pool. -/
structure Balanced (t d0 d1 p0 p1 : Nat) : Prop where
  tol : t ≤ 10 ^ 18
  pos0 : d0 ≠ 0
  pos1 : d1 ≠ 0
  pool0 : p0 ≠ 0
  pool1 : p1 ≠ 0
  fair0 : ratio18 d0 d1 * (10 ^ 18 - t) / 10 ^ 18 ≤ ratio18 p0 p1
  fair1 : ratio18 d1 d0 * (10 ^ 18 - t) / 10 ^ 18 ≤ ratio18 p1 p0

/-- `s` LP tokens are the worth of a deposit of `d0`, `d1` into reserves `p0`, `p1` with `T` LP tokens outstanding. The first
deposit is open to listed people who bring at least `m0`, `m1`. -/
structure Worth (listed : Prop) (m0 m1 T d0 d1 p0 p1 s : Nat) : Prop where
  first : T = 0 → listed ∧ m0 ≤ d0 ∧ m1 ≤ d1 ∧ d0 * d1 < 2 ^ 128 ∧ s * s ≤ d0 * d1 ∧ d0 * d1 < (s + 1) * (s + 1)
  later : T ≠ 0 → p0 ≠ 0 ∧ p1 ≠ 0 ∧ d0 * T / p0 < 2 ^ 128 ∧ d1 * T / p1 < 2 ^ 128 ∧ s = min (d0 * T / p0) (d1 * T / p1)

end Halo.Spec
