import Verif.Props.Leak
/-! # Moving the price has to be paid for (C97) -/

namespace Halo
open _root_.Halo.Spec

/-- From `(x, y)` to `(x', y')`: the product has not fallen below `A/B` of what it was, and `y/x` has fallen by the factor `n/m`. -/
private theorem price_arith {x y x' y' A B n m : Nat} (h : x * y * A ≤ x' * y' * B) (hp : n * (y' * x) ≤ m * (y * x')) (hy : y ≠ 0)
    (hy' : y' ≠ 0) : n * x ^ 2 * A ≤ m * x' ^ 2 * B := by
  refine Nat.le_of_mul_le_mul_left (c := y' * y) ?_ (by positivity)
  calc y' * y * (n * x ^ 2 * A) = n * (y' * x) * (x * y * A) := by ring
    _ ≤ m * (y * x') * (x' * y' * B) := Nat.mul_le_mul hp h
    _ = y' * y * (m * x' ^ 2 * B) := by ring

/-- **C97.** While there are only swaps (and gifts), the pair's price for its first asset, `reserve1 / reserve0`, can be brought down by a
factor `n/m` only by paying: the first reserve must grow at least by the square root of that factor, `n * reserve0^2 ≤ m * reserve0'^2`,
up to the fraction by which leaking swaps may lower the product (C94; none if no swap leaks). However many swaps, by however many
people, through whatever contracts. -/
theorem C97_lower_price0 {c : Chain} (hc : c.Lawful) {w w' : World} (hw : Reachable c w) {tr : List (World × Frame)} (hl : Hist c w tr w')
    {k : PairSite} (hk : k.Sound c w) (hs : ∀ e ∈ k.calls c tr, IsSwap e) {R : Nat}
    (hR : ∀ e ∈ k.calls c tr, Leak e → R ≤ left e) (h1 : held w k.i1 k.a ≠ 0) (h1' : held w' k.i1 k.a ≠ 0) {n m : Nat}
    (hp : n * (held w' k.i1 k.a * held w k.i0 k.a) ≤ m * (held w k.i1 k.a * held w' k.i0 k.a)) :
    k.Broken w' ∨ n * held w k.i0 k.a ^ 2 * (R * 10 ^ 18 - leaks (k.calls c tr)) ≤ m * held w' k.i0 k.a ^ 2 * (R * 10 ^ 18) :=
  (C94_product hc hw hl hk hs hR).imp id fun h => price_arith h hp h1 h1'

/-- **C97.** The same for the price of the second asset. -/
theorem C97_lower_price1 {c : Chain} (hc : c.Lawful) {w w' : World} (hw : Reachable c w) {tr : List (World × Frame)} (hl : Hist c w tr w')
    {k : PairSite} (hk : k.Sound c w) (hs : ∀ e ∈ k.calls c tr, IsSwap e) {R : Nat}
    (hR : ∀ e ∈ k.calls c tr, Leak e → R ≤ left e) (h0 : held w k.i0 k.a ≠ 0) (h0' : held w' k.i0 k.a ≠ 0) {n m : Nat}
    (hp : n * (held w' k.i0 k.a * held w k.i1 k.a) ≤ m * (held w k.i0 k.a * held w' k.i1 k.a)) :
    k.Broken w' ∨ n * held w k.i1 k.a ^ 2 * (R * 10 ^ 18 - leaks (k.calls c tr)) ≤ m * held w' k.i1 k.a ^ 2 * (R * 10 ^ 18) :=
  (C94_product hc hw hl hk hs hR).imp id fun h => price_arith
    (by rwa [Nat.mul_comm (held w k.i1 k.a), Nat.mul_comm (held w' k.i1 k.a)]) hp h0 h0'

/-- **C97.** With deposits and withdrawals in between (but no deposit to a pair without LP tokens), the same holds of the reserve behind
each LP token. -/
theorem C97_lower_price0_share {c : Chain} (hc : c.Lawful) {w w' : World} (hw : Reachable c w) {tr : List (World × Frame)}
    (hl : Hist c w tr w') {k : PairSite} (hk : k.Sound c w) (hf : ∀ e ∈ k.calls c tr, ¬ First e) {R : Nat}
    (hR : ∀ e ∈ k.calls c tr, Leak e → R ≤ left e) (h1 : held w k.i1 k.a ≠ 0) (h1' : held w' k.i1 k.a ≠ 0) {n m : Nat}
    (hp : n * (held w' k.i1 k.a * held w k.i0 k.a) ≤ m * (held w k.i1 k.a * held w' k.i0 k.a)) :
    k.Broken w' ∨ n * (held w k.i0 k.a * supplyAt w' k.lt) ^ 2 * (R * 10 ^ 18 - leaks (k.calls c tr)) ≤
      m * (held w' k.i0 k.a * supplyAt w k.lt) ^ 2 * (R * 10 ^ 18) := by
  refine (C94_share_value hc hw hl hk hf hR).imp id fun h => ?_
  simp only [PairSite.pool] at h
  have := price_arith (A := supplyAt w' k.lt ^ 2 * (R * 10 ^ 18 - leaks (k.calls c tr))) (B := supplyAt w k.lt ^ 2 * (R * 10 ^ 18))
    (by rwa [← Nat.mul_assoc _ (_ ^ 2), ← Nat.mul_assoc _ (_ ^ 2)]) hp h1 h1'
  rwa [← Nat.mul_assoc _ (_ ^ 2), ← Nat.mul_assoc _ (_ ^ 2), Nat.mul_assoc n, ← Nat.mul_pow, Nat.mul_assoc m, ← Nat.mul_pow] at this

/-- **C97.** The same for the price of the second asset. -/
theorem C97_lower_price1_share {c : Chain} (hc : c.Lawful) {w w' : World} (hw : Reachable c w) {tr : List (World × Frame)}
    (hl : Hist c w tr w') {k : PairSite} (hk : k.Sound c w) (hf : ∀ e ∈ k.calls c tr, ¬ First e) {R : Nat}
    (hR : ∀ e ∈ k.calls c tr, Leak e → R ≤ left e) (h0 : held w k.i0 k.a ≠ 0) (h0' : held w' k.i0 k.a ≠ 0) {n m : Nat}
    (hp : n * (held w' k.i0 k.a * held w k.i1 k.a) ≤ m * (held w k.i0 k.a * held w' k.i1 k.a)) :
    k.Broken w' ∨ n * (held w k.i1 k.a * supplyAt w' k.lt) ^ 2 * (R * 10 ^ 18 - leaks (k.calls c tr)) ≤
      m * (held w' k.i1 k.a * supplyAt w k.lt) ^ 2 * (R * 10 ^ 18) := by
  refine (C94_share_value hc hw hl hk hf hR).imp id fun h => ?_
  simp only [PairSite.pool] at h
  rw [Nat.mul_comm (held w k.i0 k.a), Nat.mul_comm (held w' k.i0 k.a)] at h
  have := price_arith (A := supplyAt w' k.lt ^ 2 * (R * 10 ^ 18 - leaks (k.calls c tr))) (B := supplyAt w k.lt ^ 2 * (R * 10 ^ 18))
    (by rwa [← Nat.mul_assoc _ (_ ^ 2), ← Nat.mul_assoc _ (_ ^ 2)]) hp h0 h0'
  rwa [← Nat.mul_assoc _ (_ ^ 2), ← Nat.mul_assoc _ (_ ^ 2), Nat.mul_assoc n, ← Nat.mul_pow, Nat.mul_assoc m, ← Nat.mul_pow] at this

/-- **C97.** What liquidity providers can lose against keeping the two assets (impermanent loss): at whatever prices `P0`, `P1` anyone
values the two assets afterwards, what is behind each LP token is worth at least twice the geometric mean of what was behind it
before at these prices. -/
theorem C97_provider {c : Chain} (hc : c.Lawful) {w w' : World} (hw : Reachable c w) {tr : List (World × Frame)} (hl : Hist c w tr w')
    {k : PairSite} (hk : k.Sound c w) (hf : ∀ e ∈ k.calls c tr, ¬ First e) {R : Nat}
    (hR : ∀ e ∈ k.calls c tr, Leak e → R ≤ left e) (P0 P1 : Nat) :
    k.Broken w' ∨ 4 * (P0 * held w k.i0 k.a) * (P1 * held w k.i1 k.a) * supplyAt w' k.lt ^ 2 * (R * 10 ^ 18 - leaks (k.calls c tr)) ≤
      (P0 * held w' k.i0 k.a + P1 * held w' k.i1 k.a) ^ 2 * supplyAt w k.lt ^ 2 * (R * 10 ^ 18) := by
  refine (C94_share_value hc hw hl hk hf hR).imp id fun h => ?_
  simp only [PairSite.pool] at h
  have amgm : 4 * (P0 * held w' k.i0 k.a) * (P1 * held w' k.i1 k.a) ≤ (P0 * held w' k.i0 k.a + P1 * held w' k.i1 k.a) ^ 2 := by
    have := four_mul_le_sq_add (P0 * held w' k.i0 k.a) (P1 * held w' k.i1 k.a)
    exact this
  generalize R * 10 ^ 18 - leaks (k.calls c tr) = A at *
  generalize R * 10 ^ 18 = B at *
  generalize held w k.i0 k.a = r0 at *
  generalize held w k.i1 k.a = r1 at *
  generalize held w' k.i0 k.a = r0' at *
  generalize held w' k.i1 k.a = r1' at *
  generalize supplyAt w k.lt = T at *
  generalize supplyAt w' k.lt = T' at *
  calc 4 * (P0 * r0) * (P1 * r1) * T' ^ 2 * A = 4 * P0 * P1 * (r0 * r1 * T' ^ 2 * A) := by ring
    _ ≤ 4 * P0 * P1 * (r0' * r1' * T ^ 2 * B) := Nat.mul_le_mul_left _ h
    _ = 4 * (P0 * r0') * (P1 * r1') * (T ^ 2 * B) := by ring
    _ ≤ (P0 * r0' + P1 * r1') ^ 2 * (T ^ 2 * B) := Nat.mul_le_mul_right _ amgm
    _ = _ := by ring

namespace Demo

theorem swapped_noleak : ∀ e ∈ siteAB.calls chain (traces backForth deployed), Leak e → 1 ≤ left e := by
  rw [swapped_calls]; simp [Leak, Slip]

/-- 10000/20000 becomes 11000/18187: the price of the first asset falls by a factor of at least 12/10, and `12 * 10000^2 ≤ 10 * 11000^2`. -/
def oneWay : List CosmosMsg := [.exec tA (.send pAB 1000 (.swap none none none)) []]
def oneWayed : World := worldOf (runs oneWay deployed)
theorem oneWay_run : runs oneWay deployed = .ok oneWayed := worldOf_eq (by decide +kernel)
theorem oneWay_calls : siteAB.calls chain (traces oneWay deployed) = [(⟨10000, 20000, 14142⟩, .swap0 1000)] := by decide +kernel
example := C97_lower_price0 lawful deployed_reachable (hist_runs oneWay_run) sound_AB (by rw [oneWay_calls]; simp [IsSwap]) (R := 1)
  (by rw [oneWay_calls]; simp [Leak, Slip]) (by decide +kernel) (by decide +kernel) (n := 12) (m := 10) (by decide +kernel)
example := C97_lower_price1 lawful deployed_reachable (hist_runs swapped_run) sound_AB (by rw [swapped_calls]; simp [IsSwap]) (R := 1)
  swapped_noleak (by decide +kernel) (by decide +kernel) (n := 98) (m := 100) (by decide +kernel)
example := C97_lower_price0_share lawful deployed_reachable trade_hist sound_AB (by rw [trade_calls]; simp [First]) (R := 1)
  (by rw [trade_calls]; simp [Leak, Slip]) (by decide +kernel) (by decide +kernel) (n := 12) (m := 10) (by decide +kernel)
example := C97_lower_price1_share lawful deployed_reachable trade_hist sound_AB (by rw [trade_calls]; simp [First]) (R := 1)
  (by rw [trade_calls]; simp [Leak, Slip]) (by decide +kernel) (by decide +kernel) (n := 8) (m := 10) (by decide +kernel)
example := C97_provider lawful deployed_reachable trade_hist sound_AB (by rw [trade_calls]; simp [First]) (R := 1)
  (by rw [trade_calls]; simp [Leak, Slip]) 5 3

end Demo
end Halo
