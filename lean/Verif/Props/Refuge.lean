import Verif.Props.Provider
import Verif.Props.Undo
import Verif.Props.Price
import Verif.Props.Leak
import Mathlib.Algebra.Order.Field.Basic
import Mathlib.Tactic.FieldSimp
/-! # What a deposit with a slippage tolerance brings back, whatever happens around it (C136)

C69 bounds what undoing a deposit at once loses, C86 what a holder of LP tokens gets later. Here both are put together: the pool
may have been moved by anybody before the deposit, and may be moved back by anybody afterwards. -/

namespace Halo
open _root_.Halo.Spec

namespace RefugeL

/-- If the deposit of asset 0 is what limits the LP tokens, the tolerance bounds what is given away of asset 1. -/
theorem half {p p' d d' T s τ ε K : ℚ} (hp : 0 < p) (hp' : 0 < p') (hT : 0 < T) (hs : 0 < s) (hd : 0 ≤ d) (hε : 0 ≤ ε)
    (hb : d * T ≤ (s + 1) * p) (hτ : τ * d' * p ≤ (p' + ε * p) * d) (hK : p * p' * s ^ 2 ≤ K * T ^ 2) :
    τ * (d * d') ≤ ((s + 1) / s) ^ 2 * (1 + ε * (p / p')) * K := by
  have h1 : τ * (d * d') * T ^ 2 * p ≤ (p' + ε * p) * (s + 1) ^ 2 * p * p := by
    have a1 : (d * T) ^ 2 ≤ ((s + 1) * p) ^ 2 := pow_le_pow_left₀ (by positivity) hb 2
    have a2 := mul_le_mul_of_nonneg_right hτ (show 0 ≤ d * T ^ 2 by positivity)
    have a3 := mul_le_mul_of_nonneg_left a1 (show 0 ≤ p' + ε * p by positivity)
    nlinarith
  have h2 : τ * (d * d') * T ^ 2 ≤ (p' + ε * p) * (s + 1) ^ 2 * p := le_of_mul_le_mul_right h1 hp
  have h3 : (p' + ε * p) * p = (1 + ε * (p / p')) * (p * p') := by field_simp
  have h4 : τ * (d * d') * T ^ 2 * s ^ 2 ≤ (1 + ε * (p / p')) * (s + 1) ^ 2 * K * T ^ 2 := by
    have a1 := mul_le_mul_of_nonneg_right h2 (sq_nonneg s)
    have a2 := mul_le_mul_of_nonneg_left hK (show 0 ≤ (1 + ε * (p / p')) * (s + 1) ^ 2 by positivity)
    have a3 : (p' + ε * p) * (s + 1) ^ 2 * p * s ^ 2 = (1 + ε * (p / p')) * (s + 1) ^ 2 * (p * p' * s ^ 2) := by
      rw [show (p' + ε * p) * (s + 1) ^ 2 * p * s ^ 2 = (p' + ε * p) * p * ((s + 1) ^ 2 * s ^ 2) by ring, h3]
      ring
    rw [a3] at a1
    calc _ ≤ _ := a1
      _ ≤ _ := a2
      _ = _ := by ring
  have h5 : τ * (d * d') * s ^ 2 ≤ (1 + ε * (p / p')) * (s + 1) ^ 2 * K := by
    have : 0 < T ^ 2 := by positivity
    refine le_of_mul_le_mul_right ?_ this
    linarith
  have h6 : ((s + 1) / s) ^ 2 * (1 + ε * (p / p')) * K = (1 + ε * (p / p')) * (s + 1) ^ 2 * K / s ^ 2 := by field_simp
  rw [h6, le_div_iff₀ (by positivity)]
  exact h5

/-- The first deposit. -/
theorem easy {p p' d d' s t x K : ℚ} (hs : 0 < s) (hx : 0 ≤ x) (ht : 0 ≤ t) (hp : 0 ≤ p) (hp' : 0 ≤ p') (hd : 0 ≤ d) (hd' : 0 ≤ d')
    (hK : (p + d) * (p' + d') ≤ K) : (1 - t / 10 ^ 18) * (d * d') ≤ ((s + 1) / s) ^ 2 * (1 + 2 / 10 ^ 18 * x) * K := by
  have h0 : 0 ≤ d * d' := mul_nonneg hd hd'
  have h1 : (1 - t / 10 ^ 18) * (d * d') ≤ d * d' := by
    have : 0 ≤ t / 10 ^ 18 * (d * d') := by positivity
    linarith
  have h2 : d * d' ≤ (p + d) * (p' + d') := mul_le_mul (by linarith) (by linarith) hd' (by linarith)
  have h3 : 1 ≤ ((s + 1) / s) ^ 2 := one_le_pow₀ (by rw [le_div_iff₀ hs]; linarith)
  have h4 : 1 ≤ 1 + 2 / 10 ^ 18 * x := by
    have : 0 ≤ 2 / 10 ^ 18 * x := by positivity
    linarith
  have h5 : 1 ≤ ((s + 1) / s) ^ 2 * (1 + 2 / 10 ^ 18 * x) := one_le_mul_of_one_le_of_one_le h3 h4
  have h6 : 0 ≤ K := by linarith
  calc _ ≤ K := by linarith
    _ ≤ _ := le_mul_of_one_le_left h6 h5

/-- What a withdrawal pays, when the worth of an LP token has at most fallen to the fraction `l`. -/
theorem paid {a b A B T T' s q q' l : ℚ} (hA : 0 ≤ A) (hB : 0 ≤ B) (hs : 0 ≤ s) (hT' : 0 < T') (hl : 0 < l)
    (hv : a * b * T' ^ 2 * l ≤ A * B * T ^ 2) (h0 : A * s * 10 ^ 18 ≤ (q + 1) * T' * 10 ^ 18 + A * T')
    (h1 : B * s * 10 ^ 18 ≤ (q' + 1) * T' * 10 ^ 18 + B * T') :
    a * b * s ^ 2 ≤ (q + 1 + A / 10 ^ 18) * (q' + 1 + B / 10 ^ 18) / l * T ^ 2 := by
  have g0 : A * s ≤ (q + 1 + A / 10 ^ 18) * T' := by linarith
  have g1 : B * s ≤ (q' + 1 + B / 10 ^ 18) * T' := by linarith
  have g2 := mul_le_mul g0 g1 (by positivity) (le_trans (by positivity) g0)
  generalize q + 1 + A / 10 ^ 18 = x at *
  generalize q' + 1 + B / 10 ^ 18 = y at *
  have g3 : a * b * s ^ 2 * l ≤ x * y * T ^ 2 := by
    refine le_of_mul_le_mul_right ?_ (show 0 < T' ^ 2 by positivity)
    have c1 := mul_le_mul_of_nonneg_right hv (sq_nonneg s)
    have c2 := mul_le_mul_of_nonneg_right g2 (sq_nonneg T)
    linarith
  rw [div_mul_eq_mul_div, le_div_iff₀ hl]
  exact g3

end RefugeL

open RefugeL

/-- **C136.** The first deposit needs no tolerance: whoever makes it owns all LP tokens and, under the same conditions, gets amounts
back whose product is at least that of what was paid in and what lay in the pair before, up to one unit and `1/10^18` of the
reserve each. -/
theorem C136_first {c : Chain} (hc : c.Lawful) {w w1 w2 w3 : World} (hw : Reachable c w) {k : PairSite}
    (hk : k.Sound c w) {assets : Asset × Asset} {tol : Option Nat} {funds : List Coin} {adv adv' : Adv} {gas gas' : Nat} {S : Addr} {s : Nat}
    (hS : c.IsUser S) (hT : supplyAt w k.lt = 0)
    (h1 : runTx c adv gas w S (.exec k.a (.provideLiquidity assets tol none) funds) = .ok w1)
    (hs : held w1 (.token k.lt) S = held w (.token k.lt) S + s)
    {tr : List (World × Frame)} (hl : Hist c w1 tr w2) (hf : ∀ e ∈ k.calls c tr, ¬ First e) (hn : ∀ e ∈ k.calls c tr, ¬ Leak e)
    (h2 : runTx c adv' gas' w2 S (.exec k.lt (.send k.a s .withdrawLiquidity) []) = .ok w3) :
    k.Broken w2 ∨ ∃ d0 d1 q0 q1 : Nat, Names k assets d0 d1 ∧ held w1 k.i0 S + d0 = held w k.i0 S ∧
      held w1 k.i1 S + d1 = held w k.i1 S ∧ held w3 k.i0 S = held w2 k.i0 S + q0 ∧ held w3 k.i1 S = held w2 k.i1 S + q1 ∧
      ((held w k.i0 k.a + d0 : ℚ) * (held w k.i1 k.a + d1)) ≤
        (q0 + 1 + (held w2 k.i0 k.a : ℚ) / 10 ^ 18) * (q1 + 1 + (held w2 k.i1 k.a : ℚ) / 10 ^ 18) := by
  obtain ⟨d0, d1, s', ha, hd⟩ := C67_deposit_exact hc hw hk hS h1
  obtain ⟨_, _, _, _, _, hk1, _⟩ := deposit_tx hc hw hk hS h1
  have hw1 : Reachable c w1 := .step _ _ hw (.tx _ _ _ _ _ _ hS h1)
  have e : s' = s := by
    have := hd.lp
    simp only [Option.getD_none] at this
    omega
  subst e
  refine (C86_withdraw_later hc hw1 hl hk1 hf hn hS h2).imp id ?_
  rintro ⟨q0, q1, x0, x1, hv⟩
  have u0 := hd.user0
  have u1 := hd.user1
  refine ⟨d0, d1, q0, q1, ha.names, by omega, by omega, x0, x1, ?_⟩
  rw [hd.pair0, hd.pair1, hd.supply, hT, Nat.zero_add] at hv
  have hsp : (0 : ℚ) < s' := by exact_mod_cast Nat.pos_of_ne_zero ha.pos
  have hv' : ((held w k.i0 k.a + d0 : ℚ) * (held w k.i1 k.a + d1)) * (s' * 10 ^ 18) ^ 2 ≤
      ((q0 + 1) * 10 ^ 18 + held w2 k.i0 k.a) * ((q1 + 1) * 10 ^ 18 + held w2 k.i1 k.a) * s' ^ 2 := by exact_mod_cast hv
  refine le_of_mul_le_mul_right ?_ (show (0 : ℚ) < (s' * 10 ^ 18) ^ 2 by positivity)
  refine hv'.trans (le_of_eq ?_)
  ring

/-- What the slippage check and the number of LP tokens say together: whatever `K` is a lower bound of the worth of the new LP
tokens, by the product, is one of the deposit. -/
theorem RefugeL.entered {c : Chain} (hc : c.Lawful) {w w1 : World} (hw : Reachable c w) {k : PairSite}
    (hk : k.Sound c w) {assets : Asset × Asset} {t : Nat} {funds : List Coin} {adv : Adv} {gas : Nat} {S : Addr} {s : Nat}
    (hS : c.IsUser S)
    (h1 : runTx c adv gas w S (.exec k.a (.provideLiquidity assets (some t) none) funds) = .ok w1)
    (hs : held w1 (.token k.lt) S = held w (.token k.lt) S + s) :
    k.Sound c w1 ∧ ∃ d0 d1 : Nat, Names k assets d0 d1 ∧ held w1 k.i0 S + d0 = held w k.i0 S ∧
      held w1 k.i1 S + d1 = held w k.i1 S ∧ t ≤ 10 ^ 18 ∧ ∀ K : ℚ, 0 ≤ K →
      (held w1 k.i0 k.a : ℚ) * held w1 k.i1 k.a * s ^ 2 ≤ K * supplyAt w1 k.lt ^ 2 →
      (1 - t / 10 ^ 18) * (d0 * d1 : ℚ) ≤ (((s : ℚ) + 1) / s) ^ 2 *
        (1 + 2 / 10 ^ 18 * max ((held w k.i0 k.a : ℚ) / held w k.i1 k.a) ((held w k.i1 k.a : ℚ) / held w k.i0 k.a)) * K := by
  obtain ⟨d0, d1, s', ha, hd⟩ := C67_deposit_exact hc hw hk hS h1
  obtain ⟨_, _, _, _, _, hk1, _⟩ := deposit_tx hc hw hk hS h1
  have e : s' = s := by
    have := hd.lp
    simp only [Option.getD_none] at this
    omega
  subst e
  have u0 := hd.user0
  have u1 := hd.user1
  have hSa := (addr_facts hc hw hk.pair).2 S hS
  have l0 := held_add_lt hw.tokensOk (Ne.symm hSa) ha.fits.1 ha.ready.has0
  have l1 := held_add_lt hw.tokensOk (Ne.symm hSa) ha.fits.2 ha.ready.has1
  obtain ⟨ht1, n0, n1, m0, m1, f0, f1⟩ := Pair.slippage_inv (ha.range t rfl)
    ((slippage_iff (ha.range t rfl) (by omega) (by omega) (by omega) (by omega)).mpr (ha.tolerance t rfl))
  have hD : DF = 10 ^ 18 := by norm_num [DF]
  rw [hD] at f0 f1 ht1
  refine ⟨hk1, d0, d1, ha.names, by omega, by omega, ht1, fun K hKp hv' => ?_⟩
  rw [hd.pair0, hd.pair1, hd.supply] at hv'
  push_cast at hv'
  have Ps : (0 : ℚ) < s' := by exact_mod_cast Nat.pos_of_ne_zero ha.pos
  by_cases hT : supplyAt w k.lt = 0
  · have hK : ((held w k.i0 k.a + d0 : ℚ) * (held w k.i1 k.a + d1)) ≤ K := by
      rw [hT, Nat.cast_zero, zero_add] at hv'
      exact le_of_mul_le_mul_right hv' (by positivity)
    exact easy Ps (le_max_of_le_left (by positivity)) (by positivity) (by positivity) (by positivity) (by positivity) (by positivity) hK
  obtain ⟨_, _, _, _, hmin⟩ := ha.worth.later hT
  generalize held w k.i0 k.a = p0 at *
  generalize held w k.i1 k.a = p1 at *
  generalize supplyAt w k.lt = T at *
  have g0 : p0 * s' ≤ d0 * T := by
    have := (Nat.le_div_iff_mul_le (Nat.pos_of_ne_zero m0)).mp (show s' ≤ d0 * T / p0 by rw [hmin]; exact min_le_left _ _)
    linarith
  have g1 : p1 * s' ≤ d1 * T := by
    have := (Nat.le_div_iff_mul_le (Nat.pos_of_ne_zero m1)).mp (show s' ≤ d1 * T / p1 by rw [hmin]; exact min_le_right _ _)
    linarith
  have hside : d0 * T < (s' + 1) * p0 ∨ d1 * T < (s' + 1) * p1 := by
    rcases Nat.le_total (d0 * T / p0) (d1 * T / p1) with h | h
    · left
      rw [min_eq_left h] at hmin
      exact (Nat.div_lt_iff_lt_mul (Nat.pos_of_ne_zero m0)).mp (by omega)
    · right
      rw [min_eq_right h] at hmin
      exact (Nat.div_lt_iff_lt_mul (Nat.pos_of_ne_zero m1)).mp (by omega)
  have P0 : (0 : ℚ) < p0 := by exact_mod_cast Nat.pos_of_ne_zero m0
  have P1 : (0 : ℚ) < p1 := by exact_mod_cast Nat.pos_of_ne_zero m1
  have PT : (0 : ℚ) < T := by exact_mod_cast Nat.pos_of_ne_zero hT
  have D0 : (0 : ℚ) ≤ d0 := by positivity
  have D1 : (0 : ℚ) ≤ d1 := by positivity
  have G0 : (p0 : ℚ) * s' ≤ d0 * T := by exact_mod_cast g0
  have G1 : (p1 : ℚ) * s' ≤ d1 * T := by exact_mod_cast g1
  have hK : (p0 * p1 : ℚ) * s' ^ 2 ≤ K * T ^ 2 := by
    have b0 : (p0 : ℚ) * (T + s') ≤ T * (p0 + d0) := by linarith
    have b1 : (p1 : ℚ) * (T + s') ≤ T * (p1 + d1) := by linarith
    have b2 := mul_le_mul b0 b1 (by positivity) (by positivity)
    have c2 : (0 : ℚ) < (T + s') ^ 2 := by positivity
    refine le_of_mul_le_mul_right ?_ c2
    have c3 := mul_le_mul_of_nonneg_right b2 (sq_nonneg (s' : ℚ))
    have c4 := mul_le_mul_of_nonneg_left hv' (sq_nonneg (T : ℚ))
    linarith
  have hc18 : ((10 ^ 18 - t : Nat) : ℚ) = 10 ^ 18 - t := by rw [Nat.cast_sub ht1]; norm_num
  have F0 : (1 - t / 10 ^ 18 : ℚ) * d0 * p1 ≤ (p0 + 2 / 10 ^ 18 * p1) * d1 := by
    have : ((d0 * (10 ^ 18 - t) * p1 : Nat) : ℚ) ≤ (((p0 * 10 ^ 18 + 2 * p1) * d1 : Nat) : ℚ) := by exact_mod_cast f0.le
    rw [Nat.cast_mul, Nat.cast_mul, hc18] at this
    push_cast at this
    refine le_of_mul_le_mul_right ?_ (show (0 : ℚ) < 10 ^ 18 by norm_num)
    calc _ = _ := by ring
      _ ≤ _ := this
      _ = _ := by ring
  have F1 : (1 - t / 10 ^ 18 : ℚ) * d1 * p0 ≤ (p1 + 2 / 10 ^ 18 * p0) * d0 := by
    have : ((d1 * (10 ^ 18 - t) * p0 : Nat) : ℚ) ≤ (((p1 * 10 ^ 18 + 2 * p0) * d0 : Nat) : ℚ) := by exact_mod_cast f1.le
    rw [Nat.cast_mul, Nat.cast_mul, hc18] at this
    push_cast at this
    refine le_of_mul_le_mul_right ?_ (show (0 : ℚ) < 10 ^ 18 by norm_num)
    calc _ = _ := by ring
      _ ≤ _ := this
      _ = _ := by ring
  have up : ∀ x : ℚ, x ≤ max ((p0 : ℚ) / p1) ((p1 : ℚ) / p0) →
      (((s' : ℚ) + 1) / s') ^ 2 * (1 + 2 / 10 ^ 18 * x) * K ≤
        (((s' : ℚ) + 1) / s') ^ 2 * (1 + 2 / 10 ^ 18 * max ((p0 : ℚ) / p1) ((p1 : ℚ) / p0)) * K := by
    intro x hx
    refine mul_le_mul_of_nonneg_right (mul_le_mul_of_nonneg_left ?_ (by positivity)) hKp
    linarith
  rcases hside with h | h
  · have h' : (d0 : ℚ) * T ≤ (s' + 1) * p0 := by exact_mod_cast h.le
    exact (half P0 P1 PT Ps D0 (by norm_num) h' F1 hK).trans (up _ (le_max_left _ _))
  · have h' : (d1 : ℚ) * T ≤ (s' + 1) * p1 := by exact_mod_cast h.le
    have hK' : (p1 * p0 : ℚ) * s' ^ 2 ≤ K * T ^ 2 := by linarith
    have := half P1 P0 PT Ps D1 (by norm_num) h' F0 hK'
    rw [mul_comm (d1 : ℚ)] at this
    exact this.trans (up _ (le_max_right _ _))

/-- **C136.** A user deposits `d0`, `d1` with slippage tolerance `t` in a pair, in any state somebody may have brought it into, and gets `s` LP tokens. However the pair is used afterwards, if it is not first emptied of LP tokens and no
swap leaks, a withdrawal of these `s` pays two amounts whose product is at least `1-t` times `d0*d1`, up to the factor
`(1+1/s)^2` that the last LP token costs, `2/10^18` of the ratio of the reserves, and one unit and `1/10^18` of the reserve each. -/
theorem C136_tolerance_holds {c : Chain} (hc : c.Lawful) {w w1 w2 w3 : World} (hw : Reachable c w) {k : PairSite}
    (hk : k.Sound c w) {assets : Asset × Asset} {t : Nat} {funds : List Coin} {adv adv' : Adv} {gas gas' : Nat} {S : Addr} {s : Nat}
    (hS : c.IsUser S)
    (h1 : runTx c adv gas w S (.exec k.a (.provideLiquidity assets (some t) none) funds) = .ok w1)
    (hs : held w1 (.token k.lt) S = held w (.token k.lt) S + s)
    {tr : List (World × Frame)} (hl : Hist c w1 tr w2) (hf : ∀ e ∈ k.calls c tr, ¬ First e) (hn : ∀ e ∈ k.calls c tr, ¬ Leak e)
    (h2 : runTx c adv' gas' w2 S (.exec k.lt (.send k.a s .withdrawLiquidity) []) = .ok w3) :
    k.Broken w2 ∨ ∃ d0 d1 q0 q1 : Nat, Names k assets d0 d1 ∧ held w1 k.i0 S + d0 = held w k.i0 S ∧
      held w1 k.i1 S + d1 = held w k.i1 S ∧ held w3 k.i0 S = held w2 k.i0 S + q0 ∧ held w3 k.i1 S = held w2 k.i1 S + q1 ∧
      (1 - t / 10 ^ 18) * (d0 * d1 : ℚ) ≤ (((s : ℚ) + 1) / s) ^ 2 *
        (1 + 2 / 10 ^ 18 * max ((held w k.i0 k.a : ℚ) / held w k.i1 k.a) ((held w k.i1 k.a : ℚ) / held w k.i0 k.a)) *
        ((q0 + 1 + (held w2 k.i0 k.a : ℚ) / 10 ^ 18) * (q1 + 1 + (held w2 k.i1 k.a : ℚ) / 10 ^ 18)) := by
  obtain ⟨hk1, d0, d1, a1, a2, a3, _, hK⟩ := entered hc hw hk hS h1 hs
  have hw1 : Reachable c w1 := .step _ _ hw (.tx _ _ _ _ _ _ hS h1)
  refine (C86_withdraw_later hc hw1 hl hk1 hf hn hS h2).imp id ?_
  rintro ⟨q0, q1, x0, x1, hv⟩
  refine ⟨d0, d1, q0, q1, a1, a2, a3, x0, x1, hK _ (by positivity) ?_⟩
  have hv' : (held w1 k.i0 k.a : ℚ) * held w1 k.i1 k.a * (s * 10 ^ 18) ^ 2 ≤
      ((q0 + 1) * 10 ^ 18 + held w2 k.i0 k.a) * ((q1 + 1) * 10 ^ 18 + held w2 k.i1 k.a) * supplyAt w1 k.lt ^ 2 := by exact_mod_cast hv
  refine le_of_mul_le_mul_right ?_ (show (0 : ℚ) < (10 ^ 18) ^ 2 by positivity)
  calc _ = _ := by ring
    _ ≤ _ := hv'
    _ = _ := by ring

/-- **C136.** With leaking swaps afterwards, of which `n` happened and each left at least `R` units of what it asked for, the
fraction `n/(R*10^18)` more may be missing. -/
theorem C136_with_leaks {c : Chain} (hc : c.Lawful) {w w1 w2 w3 : World} (hw : Reachable c w) {k : PairSite}
    (hk : k.Sound c w) {assets : Asset × Asset} {t : Nat} {funds : List Coin} {adv adv' : Adv} {gas gas' : Nat} {S : Addr} {s : Nat}
    (hS : c.IsUser S)
    (h1 : runTx c adv gas w S (.exec k.a (.provideLiquidity assets (some t) none) funds) = .ok w1)
    (hs : held w1 (.token k.lt) S = held w (.token k.lt) S + s)
    {tr : List (World × Frame)} (hl : Hist c w1 tr w2) (hf : ∀ e ∈ k.calls c tr, ¬ First e) {R : Nat} (hR0 : 0 < R)
    (hR : ∀ e ∈ k.calls c tr, Leak e → R ≤ left e)
    (h2 : runTx c adv' gas' w2 S (.exec k.lt (.send k.a s .withdrawLiquidity) []) = .ok w3) :
    k.Broken w2 ∨ ∃ d0 d1 q0 q1 : Nat, Names k assets d0 d1 ∧ held w1 k.i0 S + d0 = held w k.i0 S ∧
      held w1 k.i1 S + d1 = held w k.i1 S ∧ held w3 k.i0 S = held w2 k.i0 S + q0 ∧ held w3 k.i1 S = held w2 k.i1 S + q1 ∧
      (1 - (leaks (k.calls c tr) : ℚ) / (R * 10 ^ 18)) * (1 - t / 10 ^ 18) * (d0 * d1 : ℚ) ≤ (((s : ℚ) + 1) / s) ^ 2 *
        (1 + 2 / 10 ^ 18 * max ((held w k.i0 k.a : ℚ) / held w k.i1 k.a) ((held w k.i1 k.a : ℚ) / held w k.i0 k.a)) *
        ((q0 + 1 + (held w2 k.i0 k.a : ℚ) / 10 ^ 18) * (q1 + 1 + (held w2 k.i1 k.a : ℚ) / 10 ^ 18)) := by
  obtain ⟨hk1, d0, d1, a1, a2, a3, ht, hK⟩ := entered hc hw hk hS h1 hs
  have hw1 : Reachable c w1 := .step _ _ hw (.tx _ _ _ _ _ _ hS h1)
  rcases C94_share_value hc hw1 hl hk1 hf hR with hb | hv
  · exact .inl hb
  rcases C21_constant_product hc hw1 hl hk1 with hb | ⟨hk2, _⟩
  · exact .inl hb
  have hw2 := hw1.later hl.later
  have hT := (withdraw_tx hc hw2 hk2 hS h2).1
  obtain ⟨q0, q1, hwd, _, _, _, b0, _, b1⟩ := C16_withdraw_tx hc hw2 hk2 hS h2
  refine .inr ⟨d0, d1, q0, q1, a1, a2, a3, hwd.user0, hwd.user1, ?_⟩
  simp only [PairSite.pool] at hv
  generalize leaks (k.calls c tr) = n at hv ⊢
  have hM : (0 : ℚ) ≤ (((s : ℚ) + 1) / s) ^ 2 *
      (1 + 2 / 10 ^ 18 * max ((held w k.i0 k.a : ℚ) / held w k.i1 k.a) ((held w k.i1 k.a : ℚ) / held w k.i0 k.a)) := by
    have : (0 : ℚ) ≤ max ((held w k.i0 k.a : ℚ) / held w k.i1 k.a) ((held w k.i1 k.a : ℚ) / held w k.i0 k.a) :=
      le_max_of_le_left (by positivity)
    positivity
  have hRq : (0 : ℚ) < (R : ℚ) * 10 ^ 18 := by positivity
  have hτ : (0 : ℚ) ≤ (1 - t / 10 ^ 18) * (d0 * d1 : ℚ) := by
    have : (t : ℚ) / 10 ^ 18 ≤ 1 := by rw [div_le_one (by positivity)]; exact_mod_cast ht
    exact mul_nonneg (by linarith) (by positivity)
  rcases Nat.lt_or_ge n (R * 10 ^ 18) with hlt | hge
  · have hlam : (0 : ℚ) < 1 - (n : ℚ) / (R * 10 ^ 18) := by
      rw [sub_pos, div_lt_one hRq]
      exact_mod_cast hlt
    have hQ : (0 : ℚ) ≤ (q0 + 1 + (held w2 k.i0 k.a : ℚ) / 10 ^ 18) * (q1 + 1 + (held w2 k.i1 k.a : ℚ) / 10 ^ 18) := by positivity
    have := hK (((q0 + 1 + (held w2 k.i0 k.a : ℚ) / 10 ^ 18) * (q1 + 1 + (held w2 k.i1 k.a : ℚ) / 10 ^ 18)) /
      (1 - (n : ℚ) / (R * 10 ^ 18))) (div_nonneg hQ hlam.le) ?_
    · rw [← mul_div_assoc, le_div_iff₀ hlam] at this
      linarith
    · have hvq : (held w1 k.i0 k.a : ℚ) * held w1 k.i1 k.a * supplyAt w2 k.lt ^ 2 * (1 - (n : ℚ) / (R * 10 ^ 18)) ≤
          held w2 k.i0 k.a * held w2 k.i1 k.a * supplyAt w1 k.lt ^ 2 := by
        have h3 : ((R * 10 ^ 18 - n : Nat) : ℚ) = (1 - (n : ℚ) / (R * 10 ^ 18)) * (R * 10 ^ 18) := by
          rw [Nat.cast_sub hlt.le, sub_mul, one_mul, div_mul_cancel₀ _ hRq.ne']
          push_cast
          ring
        have h4 : (held w1 k.i0 k.a : ℚ) * held w1 k.i1 k.a * supplyAt w2 k.lt ^ 2 * ((R * 10 ^ 18 - n : Nat) : ℚ) ≤
          held w2 k.i0 k.a * held w2 k.i1 k.a * supplyAt w1 k.lt ^ 2 * (R * 10 ^ 18) := by exact_mod_cast hv
        rw [h3] at h4
        refine le_of_mul_le_mul_right ?_ hRq
        linarith
      exact paid (by positivity) (by positivity) (by positivity) (by exact_mod_cast Nat.pos_of_ne_zero hT) hlam hvq
        (by exact_mod_cast b0.le) (by exact_mod_cast b1.le)
  · have hlam : 1 - (n : ℚ) / (R * 10 ^ 18) ≤ 0 := by
      rw [sub_nonpos, one_le_div hRq]
      exact_mod_cast hge
    have h3 := mul_nonpos_of_nonpos_of_nonneg hlam hτ
    have h4 := mul_nonneg hM (show (0 : ℚ) ≤ (q0 + 1 + (held w2 k.i0 k.a : ℚ) / 10 ^ 18) * (q1 + 1 + (held w2 k.i1 k.a : ℚ) / 10 ^ 18)
      by positivity)
    linarith

/-- **C136.** In money: at prices at which the two halves of the deposit were worth the same, the square of what comes back is
at least `1-t` times the square of what was paid in, up to the same factors. A tolerance of 1 % costs at most 0.51 %. -/
theorem C136_worth {c : Chain} (hc : c.Lawful) {w w1 w2 w3 : World} (hw : Reachable c w) {k : PairSite}
    (hk : k.Sound c w) {assets : Asset × Asset} {t : Nat} {funds : List Coin} {adv adv' : Adv} {gas gas' : Nat} {S : Addr} {s : Nat}
    (hS : c.IsUser S)
    (h1 : runTx c adv gas w S (.exec k.a (.provideLiquidity assets (some t) none) funds) = .ok w1)
    (hs : held w1 (.token k.lt) S = held w (.token k.lt) S + s)
    {tr : List (World × Frame)} (hl : Hist c w1 tr w2) (hf : ∀ e ∈ k.calls c tr, ¬ First e) (hn : ∀ e ∈ k.calls c tr, ¬ Leak e)
    (h2 : runTx c adv' gas' w2 S (.exec k.lt (.send k.a s .withdrawLiquidity) []) = .ok w3) :
    k.Broken w2 ∨ ∃ d0 d1 q0 q1 : Nat, Names k assets d0 d1 ∧ held w1 k.i0 S + d0 = held w k.i0 S ∧
      held w1 k.i1 S + d1 = held w k.i1 S ∧ held w3 k.i0 S = held w2 k.i0 S + q0 ∧ held w3 k.i1 S = held w2 k.i1 S + q1 ∧
      ∀ P0 P1 : ℚ, 0 ≤ P0 → 0 ≤ P1 → P0 * d0 = P1 * d1 →
        (1 - t / 10 ^ 18) * (P0 * d0 + P1 * d1) ^ 2 ≤ (((s : ℚ) + 1) / s) ^ 2 *
          (1 + 2 / 10 ^ 18 * max ((held w k.i0 k.a : ℚ) / held w k.i1 k.a) ((held w k.i1 k.a : ℚ) / held w k.i0 k.a)) *
          (P0 * (q0 + 1 + (held w2 k.i0 k.a : ℚ) / 10 ^ 18) + P1 * (q1 + 1 + (held w2 k.i1 k.a : ℚ) / 10 ^ 18)) ^ 2 := by
  refine (C136_tolerance_holds hc hw hk hS h1 hs hl hf hn h2).imp id ?_
  rintro ⟨d0, d1, q0, q1, a1, a2, a3, a4, a5, h⟩
  refine ⟨d0, d1, q0, q1, a1, a2, a3, a4, a5, fun P0 P1 hP0 hP1 hP => ?_⟩
  have hM : (0 : ℚ) ≤ (((s : ℚ) + 1) / s) ^ 2 *
      (1 + 2 / 10 ^ 18 * max ((held w k.i0 k.a : ℚ) / held w k.i1 k.a) ((held w k.i1 k.a : ℚ) / held w k.i0 k.a)) := by
    have : (0 : ℚ) ≤ max ((held w k.i0 k.a : ℚ) / held w k.i1 k.a) ((held w k.i1 k.a : ℚ) / held w k.i0 k.a) :=
      le_max_of_le_left (by positivity)
    positivity
  generalize (((s : ℚ) + 1) / s) ^ 2 *
      (1 + 2 / 10 ^ 18 * max ((held w k.i0 k.a : ℚ) / held w k.i1 k.a) ((held w k.i1 k.a : ℚ) / held w k.i0 k.a)) = M at h hM ⊢
  generalize (q0 + 1 + (held w2 k.i0 k.a : ℚ) / 10 ^ 18) = x at h ⊢
  generalize (q1 + 1 + (held w2 k.i1 k.a : ℚ) / 10 ^ 18) = y at h ⊢
  have e1 : (P0 * d0 + P1 * d1) ^ 2 = 4 * (P0 * P1) * (d0 * d1 : ℚ) := by
    have : P0 * d0 * (P0 * d0) = P0 * d0 * (P1 * d1) := by rw [← hP]
    have h' : P1 * d1 * (P1 * d1) = P0 * d0 * (P1 * d1) := by rw [← hP]
    nlinarith
  have e2 : 4 * (P0 * P1) * (x * y) ≤ (P0 * x + P1 * y) ^ 2 := by nlinarith [sq_nonneg (P0 * x - P1 * y)]
  calc (1 - (t : ℚ) / 10 ^ 18) * (P0 * d0 + P1 * d1) ^ 2 = 4 * (P0 * P1) * ((1 - t / 10 ^ 18) * (d0 * d1 : ℚ)) := by rw [e1]; ring
    _ ≤ 4 * (P0 * P1) * (M * (x * y)) := mul_le_mul_of_nonneg_left h (by positivity)
    _ = M * (4 * (P0 * P1) * (x * y)) := by ring
    _ ≤ M * (P0 * x + P1 * y) ^ 2 := mul_le_mul_of_nonneg_left e2 hM

namespace Demo

/-- `user2` gets ready for a deposit of 1000 A and 2000 B, as the pool stands. `user` sells 500 A first. -/
def nudge : List (Addr × CosmosMsg) :=
  [(user, .exec tA (.mint user2 40000) []), (user, .exec tB (.mint user2 40000) []),
   (user2, .exec tA (.increaseAllowance pAB 40000 none) []), (user2, .exec tB (.increaseAllowance pAB 40000 none) []),
   (user, .exec tA (.send pAB 500 (.swap none none none)) [])]
def nudged : World := worldOf (runsBy nudge deployed)
theorem nudged_run : runsBy nudge deployed = .ok nudged := worldOf_eq (by decide +kernel)
theorem nudged_reachable : Reachable chain nudged := deployed_reachable.later (later_runsBy (by decide) nudged_run)
theorem sound_nudged : siteAB.Sound chain nudged :=
  sound_of (k := siteAB) (x := tA) (y := tB) (by decide +kernel) ⟨rfl, rfl, rfl⟩ rfl rfl (by decide +kernel) (by decide +kernel)

/-- The deposit, with a tolerance of 10 %. -/
def sheltered : World := worldOf (runTx chain idle 20 nudged user2
  (.exec pAB (.provideLiquidity (⟨.token tA, 1000⟩, ⟨.token tB, 2000⟩) (some (10 ^ 17)) none) []))
theorem sheltered_run : runTx chain idle 20 nudged user2
    (.exec pAB (.provideLiquidity (⟨.token tA, 1000⟩, ⟨.token tB, 2000⟩) (some (10 ^ 17)) none) []) = .ok sheltered :=
  worldOf_eq (by decide +kernel)
/-- `user` buys back the 500 A, and `user2` takes out their 1346 LP tokens. -/
def rebound : List CosmosMsg := [.exec tB (.send pAB 1000 (.swap none none none)) []]
def rebounded : World := worldOf (runs rebound sheltered)
theorem rebounded_run : runs rebound sheltered = .ok rebounded := worldOf_eq (by decide +kernel)
theorem rebound_calls : siteAB.calls chain (traces rebound sheltered) = [(⟨11500, 21050, 15488⟩, .swap1 1000)] := by decide +kernel
def safe : World := worldOf (runTx chain idle 20 rebounded user2 (.exec lpAB (.send pAB 1346 .withdrawLiquidity) []))
theorem safe_run : runTx chain idle 20 rebounded user2 (.exec lpAB (.send pAB 1346 .withdrawLiquidity) []) = .ok safe :=
  worldOf_eq (by decide +kernel)
example := C136_tolerance_holds lawful nudged_reachable sound_nudged isUser_user2 sheltered_run (s := 1346)
  (by decide +kernel) (hist_runs rebounded_run) (by rw [rebound_calls]; simp [First]) (by rw [rebound_calls]; simp [Leak, Slip]) safe_run
example := C136_with_leaks lawful nudged_reachable sound_nudged isUser_user2 sheltered_run (s := 1346) (R := 5)
  (by decide +kernel) (hist_runs rebounded_run) (by rw [rebound_calls]; simp [First]) (by decide) (by rw [rebound_calls]; simp [Leak, Slip])
  safe_run
example := C136_worth lawful nudged_reachable sound_nudged isUser_user2 sheltered_run (s := 1346)
  (by decide +kernel) (hist_runs rebounded_run) (by rw [rebound_calls]; simp [First]) (by rw [rebound_calls]; simp [Leak, Slip]) safe_run
/-- Of 1000 A and 2000 B, 954 A and 1916 B come back. -/
example : held safe (.token tA) user2 = 40000 - 1000 + 954 ∧ held safe (.token tB) user2 = 40000 - 2000 + 1916 := by decide +kernel

/-- The first deposit into the pair of A and B, 1000 A are sold, and all is taken out. -/
def launched : World := worldOf (runs oneWay first)
theorem launched_run : runs oneWay first = .ok launched := worldOf_eq (by decide +kernel)
theorem launched_calls : siteAB.calls chain (traces oneWay first) = [(⟨10000, 20000, 14142⟩, .swap0 1000)] := by decide +kernel
def woundUp : World := worldOf (runTx chain idle 20 launched user (.exec lpAB (.send pAB 14142 .withdrawLiquidity) []))
theorem woundUp_run : runTx chain idle 20 launched user (.exec lpAB (.send pAB 14142 .withdrawLiquidity) []) = .ok woundUp :=
  worldOf_eq (by decide +kernel)
example := C136_first lawful (genesis_reachable.later (later_runs fresh_run)) sound_fresh isUser_user (by decide +kernel) first_run
  (s := 14142) (by decide +kernel) (hist_runs launched_run) (by rw [launched_calls]; simp [First])
  (by rw [launched_calls]; simp [Leak, Slip]) woundUp_run

/-- The same with a large push and no tolerance: `user` sells 10000 A, `user2` deposits, `user` buys the A back. -/
def shove : List (Addr × CosmosMsg) := nudge.take 4 ++ [(user, .exec tA (.send pAB 10000 (.swap none none none)) [])]
def shoved : World := worldOf (runsBy shove deployed)
theorem shoved_run : runsBy shove deployed = .ok shoved := worldOf_eq (by decide +kernel)
theorem shoved_reachable : Reachable chain shoved := deployed_reachable.later (later_runsBy (by decide) shoved_run)
theorem sound_shoved : siteAB.Sound chain shoved :=
  sound_of (k := siteAB) (x := tA) (y := tB) (by decide +kernel) ⟨rfl, rfl, rfl⟩ rfl rfl (by decide +kernel) (by decide +kernel)
def naive : World := worldOf (runTx chain idle 20 shoved user2
  (.exec pAB (.provideLiquidity (⟨.token tA, 1000⟩, ⟨.token tB, 2000⟩) none none) []))
theorem naive_run : runTx chain idle 20 shoved user2
    (.exec pAB (.provideLiquidity (⟨.token tA, 1000⟩, ⟨.token tB, 2000⟩) none none) []) = .ok naive := worldOf_eq (by decide +kernel)
def recoil : List CosmosMsg := [.exec tB (.send pAB 10000 (.swap none none none)) []]
def recoiled : World := worldOf (runs recoil naive)
theorem recoiled_run : runs recoil naive = .ok recoiled := worldOf_eq (by decide +kernel)
theorem recoil_calls : siteAB.calls chain (traces recoil naive) = [(⟨21000, 12030, 14849⟩, .swap1 10000)] := by decide +kernel
def plucked : World := worldOf (runTx chain idle 20 recoiled user2 (.exec lpAB (.send pAB 707 .withdrawLiquidity) []))
theorem plucked_run : runTx chain idle 20 recoiled user2 (.exec lpAB (.send pAB 707 .withdrawLiquidity) []) = .ok plucked :=
  worldOf_eq (by decide +kernel)

end Demo

/-- **C136.** Without a tolerance nothing of the kind holds: there is a deposit in the ratio the pool had before somebody moved it
of which less than a third, by the product, comes back after they move it back. -/
theorem C136_without_tolerance : ∃ (c : Chain) (w w1 w2 w3 : World) (k : PairSite) (S : Addr) (assets : Asset × Asset)
    (d0 d1 q0 q1 s : Nat) (adv : Adv) (gas : Nat) (tr : List (World × Frame)), c.Lawful ∧ Reachable c w ∧ k.Sound c w ∧ c.IsUser S ∧
    supplyAt w k.lt ≠ 0 ∧ Names k assets d0 d1 ∧
    runTx c adv gas w S (.exec k.a (.provideLiquidity assets none none) []) = .ok w1 ∧
    held w1 (.token k.lt) S = held w (.token k.lt) S + s ∧ Hist c w1 tr w2 ∧ (∀ e ∈ k.calls c tr, ¬ First e) ∧
    (∀ e ∈ k.calls c tr, ¬ Leak e) ∧ runTx c adv gas w2 S (.exec k.lt (.send k.a s .withdrawLiquidity) []) = .ok w3 ∧
    held w3 k.i0 S = held w2 k.i0 S + q0 ∧ held w3 k.i1 S = held w2 k.i1 S + q1 ∧ 700 < s ∧
    3 * (q0 * q1) < d0 * d1 :=
  ⟨Demo.chain, Demo.shoved, Demo.naive, Demo.recoiled, Demo.plucked, Demo.siteAB, Demo.user2, _, 1000, 2000, 547, 1048, 707, Demo.idle, 20,
    _, Demo.lawful, Demo.shoved_reachable, Demo.sound_shoved, Demo.isUser_user2, by decide +kernel, .inl rfl, Demo.naive_run,
    by decide +kernel, Demo.hist_runs Demo.recoiled_run, by rw [Demo.recoil_calls]; simp [First],
    by rw [Demo.recoil_calls]; simp [Leak, Slip], Demo.plucked_run, by decide +kernel, by decide +kernel, by decide, by decide⟩

end Halo
