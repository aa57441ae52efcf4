import Verif.Props.Exact
import Verif.Props.LiquidityTx
/-! # What a liquidity provider gets back (C86) -/

namespace Halo
open _root_.Halo.Spec

private theorem cash_out {r0 r1 T a b T' x D Q0 Q1 : Nat} (h : r0 * r1 * T' ^ 2 ≤ a * b * T ^ 2) (h0 : a * x * D ≤ Q0 * T')
    (h1 : b * x * D ≤ Q1 * T') (hT : T' ≠ 0) : r0 * r1 * (x * D) ^ 2 ≤ Q0 * Q1 * T ^ 2 := by
  refine Nat.le_of_mul_le_mul_right (c := T' ^ 2) ?_ (by positivity)
  calc r0 * r1 * (x * D) ^ 2 * T' ^ 2 = r0 * r1 * T' ^ 2 * (x * D) ^ 2 := by ring
    _ ≤ a * b * T ^ 2 * (x * D) ^ 2 := Nat.mul_le_mul_right _ h
    _ = (a * x * D) * (b * x * D) * T ^ 2 := by ring
    _ ≤ (Q0 * T') * (Q1 * T') * T ^ 2 := Nat.mul_le_mul_right _ (Nat.mul_le_mul h0 h1)
    _ = Q0 * Q1 * T ^ 2 * T' ^ 2 := by ring

private theorem worth {r0 r1 T y Q0 Q1 P0 P1 : Nat} (h : r0 * r1 * y ^ 2 ≤ Q0 * Q1 * T ^ 2) (hp : P0 * r0 = P1 * r1) :
    (P0 * r0 + P1 * r1) * y ≤ (P0 * Q0 + P1 * Q1) * T := by
  refine (Nat.pow_le_pow_iff_left (n := 2) (by norm_num)).mp ?_
  have amgm : 4 * (P0 * Q0 * (P1 * Q1)) ≤ (P0 * Q0 + P1 * Q1) ^ 2 := by
    generalize P0 * Q0 = u
    generalize P1 * Q1 = v
    rcases Nat.le_total u v with huv | huv <;> obtain ⟨d, rfl⟩ := Nat.exists_eq_add_of_le huv <;> nlinarith [Nat.zero_le (d * d)]
  calc ((P0 * r0 + P1 * r1) * y) ^ 2 = (P0 * r0 + P1 * r1) * (P0 * r0 + P1 * r1) * y ^ 2 := by ring
    _ = 4 * (P0 * r0 * (P1 * r1)) * y ^ 2 := by rw [← hp]; ring
    _ = 4 * (P0 * P1) * (r0 * r1 * y ^ 2) := by ring
    _ ≤ 4 * (P0 * P1) * (Q0 * Q1 * T ^ 2) := Nat.mul_le_mul_left _ h
    _ = 4 * (P0 * Q0 * (P1 * Q1)) * T ^ 2 := by ring
    _ ≤ (P0 * Q0 + P1 * Q1) ^ 2 * T ^ 2 := Nat.mul_le_mul_right _ amgm
    _ = ((P0 * Q0 + P1 * Q1) * T) ^ 2 := by ring

/-- **C86.** Whoever holds `x` of the `T` LP tokens of a pair with reserves `r0`, `r1` owns `r0*x/T` and `r1*x/T`. However the pair
is used afterwards, if it is not first emptied of LP tokens and no swap leaks, a withdrawal of these `x` pays two amounts `q0`,
`q1` whose product is at least the product of those two, up to one unit and `1/10^18` of the reserve each. -/
theorem C86_withdraw_later {c : Chain} (hc : c.Lawful) {w w1 w2 : World} (hw : Reachable c w)
    {tr : List (World × Frame)} (hl : Hist c w tr w1) {k : PairSite} (hk : k.Sound c w)
    (hf : ∀ e ∈ k.calls c tr, ¬ First e) (hn : ∀ e ∈ k.calls c tr, ¬ Leak e) {S : Addr} (hS : c.IsUser S) {x : Nat}
    {adv : Adv} {gas : Nat} (h : runTx c adv gas w1 S (.exec k.lt (.send k.a x .withdrawLiquidity) []) = .ok w2) :
    k.Broken w1 ∨ ∃ q0 q1, held w2 k.i0 S = held w1 k.i0 S + q0 ∧ held w2 k.i1 S = held w1 k.i1 S + q1 ∧
      held w k.i0 k.a * held w k.i1 k.a * (x * 10 ^ 18) ^ 2 ≤
        ((q0 + 1) * 10 ^ 18 + held w1 k.i0 k.a) * ((q1 + 1) * 10 ^ 18 + held w1 k.i1 k.a) * supplyAt w k.lt ^ 2 := by
  rcases C22_no_leak_partial hc hw hl hk hf hn with hb | hv
  · exact .inl hb
  rcases C21_constant_product hc hw hl hk with hb | ⟨hk1, _⟩
  · exact .inl hb
  have hw1 := hw.later hl.later
  have hT := (withdraw_tx hc hw1 hk1 hS h).1
  obtain ⟨q0, q1, hwd, _, _, _, a0, _, a1⟩ := C16_withdraw_tx hc hw1 hk1 hS h
  refine .inr ⟨q0, q1, hwd.user0, hwd.user1, cash_out hv (a0.le.trans ?_) (a1.le.trans ?_) hT⟩ <;> exact le_of_eq (by simp only [PairSite.pool]; ring)

/-- **C86.** In money: let `P0`, `P1` be prices at which the two reserves were worth the same when the LP tokens were held (the
prices the pair itself quoted then). What the withdrawal pays is worth, at these prices, at least what the share was worth
then, up to one unit and `1/10^18` of the reserve each: whatever happens in between, traders leave a liquidity provider no
poorer at the prices at which they came in. -/
theorem C86_worth_at_entry_prices {c : Chain} (hc : c.Lawful) {w w1 w2 : World} (hw : Reachable c w)
    {tr : List (World × Frame)} (hl : Hist c w tr w1) {k : PairSite} (hk : k.Sound c w)
    (hf : ∀ e ∈ k.calls c tr, ¬ First e) (hn : ∀ e ∈ k.calls c tr, ¬ Leak e) {S : Addr} (hS : c.IsUser S) {x : Nat}
    {adv : Adv} {gas : Nat} (h : runTx c adv gas w1 S (.exec k.lt (.send k.a x .withdrawLiquidity) []) = .ok w2)
    {P0 P1 : Nat} (hP : P0 * held w k.i0 k.a = P1 * held w k.i1 k.a) :
    k.Broken w1 ∨ ∃ q0 q1, held w2 k.i0 S = held w1 k.i0 S + q0 ∧ held w2 k.i1 S = held w1 k.i1 S + q1 ∧
      (P0 * held w k.i0 k.a + P1 * held w k.i1 k.a) * (x * 10 ^ 18) ≤
        (P0 * ((q0 + 1) * 10 ^ 18 + held w1 k.i0 k.a) + P1 * ((q1 + 1) * 10 ^ 18 + held w1 k.i1 k.a)) * supplyAt w k.lt := by
  refine (C86_withdraw_later hc hw hl hk hf hn hS h).imp id ?_
  rintro ⟨q0, q1, h0, h1, h2⟩
  exact ⟨q0, q1, h0, h1, worth h2 hP⟩

namespace Demo

/-- 1000 LP tokens are withdrawn after the swap, the withdrawal and the burning of LP tokens in `trade`. -/
def cashed : World := worldOf (runTx chain idle 20 traded user (.exec lpAB (.send pAB 1000 .withdrawLiquidity) []))
theorem cashed_run : runTx chain idle 20 traded user (.exec lpAB (.send pAB 1000 .withdrawLiquidity) []) = .ok cashed :=
  worldOf_eq (by decide +kernel)
example := C86_withdraw_later lawful deployed_reachable trade_hist sound_AB (by rw [trade_calls]; simp [First])
  (by rw [trade_calls]; simp [Leak, Slip]) isUser_user cashed_run
example := C86_worth_at_entry_prices lawful deployed_reachable trade_hist sound_AB (by rw [trade_calls]; simp [First])
  (by rw [trade_calls]; simp [Leak, Slip]) isUser_user cashed_run (P0 := 2) (P1 := 1) (by decide +kernel)
/-- 778 A and 1286 B, worth 2842 when an A is worth two B; the share was worth 2828. -/
example : held cashed (.token tA) user = held traded (.token tA) user + 778 ∧
    held cashed (.token tB) user = held traded (.token tB) user + 1286 := by decide +kernel

end Demo
end Halo
