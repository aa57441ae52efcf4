import Verif.Props.Guards
/-!
# C15–C17: deposits and withdrawals are fair to the other liquidity providers

Reserves are what the pair's balance queries answer; the shares outstanding are the LP token's supply.
-/

namespace Halo
open Pair

variable {api : Api} {q : Querier} {me caller : Addr} {st st' : Pair.State} {funds : List Coin} {sender : Str}
  {amount : Nat} {resp : Response}

/-! ## C15 -/

theorem share_le {req : Requirements} {sender : Addr} {S d0 d1 p0 p1 share : Nat}
    (h : shareFor req sender S (d0, d1) (p0, p1) = .ok share) (hS : S ≠ 0) :
    share * p0 ≤ d0 * S ∧ share * p1 ≤ d1 * S := by
  unfold shareFor at h
  simp only [hS, ↓reduceIte, bind_eq_ok, Uint128.multiplyRatio_eq_ok, pure_eq_ok] at h
  obtain ⟨_, ⟨h1, h2, rfl⟩, _, ⟨h3, h4, rfl⟩, rfl⟩ := h
  constructor
  · exact (Nat.mul_le_mul_right _ (min_le_left _ _)).trans (Nat.div_mul_le_self _ _)
  · exact (Nat.mul_le_mul_right _ (min_le_right _ _)).trans (Nat.div_mul_le_self _ _)

/-- The shares a depositor gets are the largest amount that keeps both ratios. -/
theorem share_max {req : Requirements} {sender : Addr} {S d0 d1 p0 p1 share : Nat}
    (h : shareFor req sender S (d0, d1) (p0, p1) = .ok share) (hS : S ≠ 0) :
    ∀ n, n * p0 ≤ d0 * S → n * p1 ≤ d1 * S → n ≤ share := by
  unfold shareFor at h
  simp only [hS, ↓reduceIte, bind_eq_ok, Uint128.multiplyRatio_eq_ok, pure_eq_ok] at h
  obtain ⟨_, ⟨h1, h2, rfl⟩, _, ⟨h3, h4, rfl⟩, rfl⟩ := h
  intro n h5 h6
  exact le_min ((Nat.le_div_iff_mul_le (Nat.pos_of_ne_zero h1)).mpr h5)
    ((Nat.le_div_iff_mul_le (Nat.pos_of_ne_zero h3)).mpr h6)

/-- **C15.** A deposit into a pool with `S > 0` shares, minting `s`, leaves each reserve per share at least what it
was: `p / S ≤ (p + d) / (S + s)`. -/
theorem C15_no_dilution {assets : Asset × Asset} {tol : Option Nat} {receiver : Option Str}
    (h : provideLiquidity api q me st sender funds assets tol receiver = .ok (st', resp)) :
    ∃ i₀ i₁ d₀ d₁ p₀ p₁ S s rcv, Deposit api q me st assets i₀ i₁ d₀ d₁ p₀ p₁ S ∧
      resp.events = [.provideLiquidity sender rcv assets s] ∧
      (S ≠ 0 → p₀ * (S + s) ≤ (p₀ + d₀) * S ∧ p₁ * (S + s) ≤ (p₁ + d₁) * S) := by
  obtain ⟨_, p0, p1, d0, d1, lt, ti, share, hp⟩ := provide_inv h
  refine ⟨_, _, _, _, _, _, _, share, _, .of hp, by rw [hp.h_resp], ?_⟩
  intro hS
  obtain ⟨h1, h2⟩ := share_le hp.h_share hS
  constructor
  · nlinarith
  · nlinarith

/-- **C15.** And the depositor is not short-changed: no larger number of shares would be fair to the others. -/
theorem C15_share_maximal {assets : Asset × Asset} {tol : Option Nat} {receiver : Option Str}
    (h : provideLiquidity api q me st sender funds assets tol receiver = .ok (st', resp)) :
    ∃ i₀ i₁ d₀ d₁ p₀ p₁ S s rcv, Deposit api q me st assets i₀ i₁ d₀ d₁ p₀ p₁ S ∧
      resp.events = [.provideLiquidity sender rcv assets s] ∧
      (S ≠ 0 → ∀ n, p₀ * (S + n) ≤ (p₀ + d₀) * S → p₁ * (S + n) ≤ (p₁ + d₁) * S → n ≤ s) := by
  obtain ⟨_, p0, p1, d0, d1, lt, ti, share, hp⟩ := provide_inv h
  refine ⟨_, _, _, _, _, _, _, share, _, .of hp, by rw [hp.h_resp], ?_⟩
  intro hS n h1 h2
  exact share_max hp.h_share hS n (by nlinarith) (by nlinarith)

/-- The demo deposit of 100/200 into 1000/2000 with 500 shares succeeds. -/
example : ∃ resp, provideLiquidity Demo.api (Demo.q 1000 2000 500) Demo.pairAddr Demo.pairState Demo.user []
    Demo.deposit none none = .ok (Demo.pairState, resp) := Demo.provide_ok none rfl

/-! ## C16 -/

/-- What the pair holds and owes when a withdrawal starts. -/
structure Holdings (api : Api) (q : Querier) (me : Addr) (st : Pair.State) (i₀ i₁ : AssetInfo) (r₀ r₁ S : Nat) :
    Prop where
  info₀ : st.assetInfos.1.toNormal api = .ok i₀
  info₁ : st.assetInfos.2.toNormal api = .ok i₁
  res₀ : i₀.queryPool q api me = .ok r₀
  res₁ : i₁.queryPool q api me = .ok r₁
  lp : ∃ lt ti, api.human st.liquidityToken = some lt ∧ q.tokenInfo lt = .ok ti ∧ ti.totalSupply = S

theorem Holdings.unique {i₀ i₁ j₀ j₁ : AssetInfo} {r₀ r₁ S r₀' r₁' S' : Nat}
    (h : Holdings api q me st i₀ i₁ r₀ r₁ S) (h' : Holdings api q me st j₀ j₁ r₀' r₁' S') :
    i₀ = j₀ ∧ i₁ = j₁ ∧ r₀ = r₀' ∧ r₁ = r₁' ∧ S = S' := by
  have e0 : i₀ = j₀ := Except.ok.inj (h.info₀.symm.trans h'.info₀)
  have e1 : i₁ = j₁ := Except.ok.inj (h.info₁.symm.trans h'.info₁)
  subst e0 e1
  refine ⟨rfl, rfl, Except.ok.inj (h.res₀.symm.trans h'.res₀), Except.ok.inj (h.res₁.symm.trans h'.res₁), ?_⟩
  obtain ⟨lt, ti, h1, h2, h3⟩ := h.lp
  obtain ⟨lt', ti', h1', h2', h3'⟩ := h'.lp
  rw [h1] at h1'
  cases h1'
  rw [h2] at h2'
  cases h2'
  exact h3.symm.trans h3'

/-- Arithmetic of one refund. -/
theorem refund_arith {D r s S ρ x : Nat} (hpos : 0 < D) (hS' : 0 < S) (hρ : s * D / S = ρ) (hx : r * ρ / D = x) :
    x * S ≤ r * s ∧ r * s * D < (x + 1) * S * D + r * S := by
  have a1 : ρ * S ≤ s * D := by rw [← hρ]; exact Nat.div_mul_le_self _ _
  have a2 : s * D < (ρ + 1) * S := by
    rw [← hρ, Nat.add_one_mul, Nat.mul_comm _ S]; exact Nat.lt_mul_div_succ _ hS'
  have a3 : x * D ≤ r * ρ := by rw [← hx]; exact Nat.div_mul_le_self _ _
  have a4 : r * ρ < (x + 1) * D := by
    rw [← hx, Nat.add_one_mul, Nat.mul_comm _ D]; exact Nat.lt_mul_div_succ _ hpos
  constructor
  · have : x * S * D ≤ r * s * D := by
      calc x * S * D = (x * D) * S := by ring
        _ ≤ (r * ρ) * S := Nat.mul_le_mul_right _ a3
        _ = r * (ρ * S) := by ring
        _ ≤ r * (s * D) := Nat.mul_le_mul_left _ a1
        _ = r * s * D := by ring
    exact Nat.le_of_mul_le_mul_right this hpos
  · calc r * s * D = r * (s * D) := by ring
      _ ≤ r * ((ρ + 1) * S) := Nat.mul_le_mul_left _ a2.le
      _ = (r * ρ) * S + r * S := by ring
      _ < ((x + 1) * D) * S + r * S := by
          have := Nat.mul_lt_mul_of_pos_right a4 hS'
          omega
      _ = (x + 1) * S * D + r * S := by ring

theorem DF_eq : DF = 10 ^ 18 := by norm_num [DF]

theorem refund_bounds {r s S ratio x : Nat} (h1 : Uint128.decFromRatio s S = .ok ratio)
    (h2 : Uint128.mulDecimal r ratio = .ok x) :
    S ≠ 0 ∧ x * S ≤ r * s ∧ r * s * 10 ^ 18 < (x + 1) * S * 10 ^ 18 + r * S := by
  rw [Uint128.decFromRatio_eq_ok] at h1
  rw [Uint128.mulDecimal_eq_ok] at h2
  have h3 := refund_arith DF_pos (Nat.pos_of_ne_zero h1.1) h1.2.2.symm h2.2.symm
  rw [DF_eq] at h3
  exact ⟨h1.1, h3⟩

/-- **C16.** Withdrawing `s` of `S` shares pays, per asset with reserve `r`, an amount `x` with
`x ≤ r*s/S` and `r*s/S < x + 1 + r/10^18`; and the reserve per remaining share does not fall:
`r/S ≤ (r - x)/(S - s)`. -/
theorem C16_withdraw_fair
    (h : receiveCw20 api q me st caller funds sender amount .withdrawLiquidity = .ok (st', resp)) :
    ∃ i₀ i₁ r₀ r₁ S x₀ x₁, Holdings api q me st i₀ i₁ r₀ r₁ S ∧ S ≠ 0 ∧
      resp.events = [.withdrawLiquidity sender amount (⟨i₀, x₀⟩, ⟨i₁, x₁⟩)] ∧
      (x₀ * S ≤ r₀ * amount ∧ r₀ * amount * 10 ^ 18 < (x₀ + 1) * S * 10 ^ 18 + r₀ * S ∧
        (amount ≤ S → r₀ * (S - amount) ≤ (r₀ - x₀) * S)) ∧
      (x₁ * S ≤ r₁ * amount ∧ r₁ * amount * 10 ^ 18 < (x₁ + 1) * S * 10 ^ 18 + r₁ * S ∧
        (amount ≤ S → r₁ * (S - amount) ≤ (r₁ - x₁) * S)) := by
  obtain ⟨_, _, _, p0, p1, lt, ti, ratio, r0, r1, hw⟩ := receive_withdraw_inv h
  have hp := queryPools_eq_ok.mp hw.h_pools
  obtain ⟨hS, a1, a2⟩ := refund_bounds hw.h_ratio hw.h_r0
  obtain ⟨_, b1, b2⟩ := refund_bounds hw.h_ratio hw.h_r1
  have key : ∀ {r x : Nat}, x * ti.totalSupply ≤ r * amount → amount ≤ ti.totalSupply →
      r * (ti.totalSupply - amount) ≤ (r - x) * ti.totalSupply := by
    intro r x h1 h2
    rw [Nat.mul_sub, Nat.sub_mul]
    omega
  exact ⟨_, _, _, _, _, r0, r1, ⟨hp.1, hp.2.1, hp.2.2.1, hp.2.2.2, lt, ti, hw.h_lt, hw.h_supply, rfl⟩, hS,
    by rw [hw.h_resp], ⟨a1, a2, key a1⟩, ⟨b1, b2, key b1⟩⟩

example : ∃ resp, receiveCw20 Demo.api (Demo.q 1000 2000 500) Demo.pairAddr Demo.pairState Demo.lp [] Demo.user 50
    .withdrawLiquidity = .ok (Demo.pairState, resp) := Demo.withdraw_ok

/-! ## C17 -/

/-- `q'` is the world right after the deposit: both reserves grew by the deposit, the supply by the shares. -/
def AfterDeposit (api : Api) (q' : Querier) (me : Addr) (st : Pair.State) (i₀ i₁ : AssetInfo)
    (d₀ d₁ p₀ p₁ S s : Nat) : Prop := Holdings api q' me st i₀ i₁ (p₀ + d₀) (p₁ + d₁) (S + s)

/-- **C17.** A deposit `(d₀, d₁)` into a pool with shares outstanding, followed by withdrawing exactly the
minted shares, pays at most `(d₀, d₁)`; the same for a first deposit into an empty pool. It is false for a first deposit
into a pool that already holds donated coins, which belong to nobody and go to the first depositor
(`C17_counterexample`). -/
theorem C17_message {assets : Asset × Asset} {tol : Option Nat} {receiver : Option Str} {q' : Querier}
    {st2 : Pair.State} {resp' : Response} {funds' : List Coin} {sender' : Str} {s : Nat} {rcv : Str}
    {i₀ i₁ : AssetInfo} {d₀ d₁ p₀ p₁ S : Nat}
    (h : provideLiquidity api q me st sender funds assets tol receiver = .ok (st', resp))
    (hd : Deposit api q me st assets i₀ i₁ d₀ d₁ p₀ p₁ S)
    (he : resp.events = [.provideLiquidity sender rcv assets s])
    (ha : AfterDeposit api q' me st i₀ i₁ d₀ d₁ p₀ p₁ S s)
    (hw : receiveCw20 api q' me st caller funds' sender' s .withdrawLiquidity = .ok (st2, resp'))
    (hS : S ≠ 0 ∨ (p₀ = 0 ∧ p₁ = 0)) :
    ∃ x₀ x₁, resp'.events = [.withdrawLiquidity sender' s (⟨i₀, x₀⟩, ⟨i₁, x₁⟩)] ∧ x₀ ≤ d₀ ∧ x₁ ≤ d₁ := by
  obtain ⟨j₀, j₁, r₀, r₁, T, x₀, x₁, hh, hT, hev, ⟨a1, _⟩, ⟨b1, _⟩⟩ := C16_withdraw_fair hw
  obtain ⟨rfl, rfl, rfl, rfl, rfl⟩ := ha.unique hh
  obtain ⟨_, _, e₀, e₁, u₀, u₁, S', s', rcv', hd', he', hdil⟩ := C15_no_dilution h
  have hs : s' = s := by
    rw [he] at he'
    simp at he'
    exact he'.2.symm
  subst hs
  obtain ⟨rfl, rfl, rfl, rfl, rfl, rfl, rfl⟩ := hd.unique hd'
  refine ⟨x₀, x₁, hev, ?_⟩
  have key : ∀ {x p d : Nat}, x * (S + s') ≤ (p + d) * s' → p * s' ≤ d * S → x ≤ d := by
    intro x p d h1 h2
    have : x * (S + s') ≤ d * (S + s') := by nlinarith
    exact Nat.le_of_mul_le_mul_right this (Nat.pos_of_ne_zero hT)
  rcases hS with hS | ⟨rfl, rfl⟩
  · obtain ⟨c0, c1⟩ := hdil hS
    exact ⟨key a1 (by nlinarith), key b1 (by nlinarith)⟩
  · exact ⟨key a1 (by simp), key b1 (by simp)⟩

/-- **C17 is false for the first deposit into a pool holding donations**: with 50 A donated, depositing 100 A and
200 B and withdrawing all 141 shares pays 150 A. -/
theorem C17_counterexample :
    (∃ resp, provideLiquidity Demo.api (Demo.q 50 0 0) Demo.pairAddr Demo.pairState Demo.user [] Demo.deposit none none
      = .ok (Demo.pairState, resp) ∧ resp.events = [.provideLiquidity Demo.user Demo.user Demo.deposit 141]) ∧
    (∃ resp, receiveCw20 Demo.api (Demo.q 150 200 141) Demo.pairAddr Demo.pairState Demo.lp [] Demo.user 141
      .withdrawLiquidity = .ok (Demo.pairState, resp) ∧
      resp.events = [.withdrawLiquidity Demo.user 141 (⟨.token Demo.tokA, 150⟩, ⟨.token Demo.tokB, 200⟩)]) := by
  constructor
  · refine ⟨_, Pair.provide_of (p0 := ⟨.token Demo.tokA, 50⟩) (p1 := ⟨.token Demo.tokB, 0⟩) (d0 := 100) (d1 := 200)
      (lt := Demo.lp) (share := 141) ⟨rfl, rfl, rfl, rfl, rfl, by simp [AssetInfo.isNative], by simp [AssetInfo.isNative],
      rfl, rfl, rfl, ?_, by norm_num, rfl⟩, rfl⟩
    have h : Nat.sqrt 20000 = 141 := by
      symm; rw [Nat.eq_sqrt]; norm_num
    show (do let p ← Uint128.mulChk 100 200; return Uint128.isqrt p : R Nat) = .ok 141
    simp only [bind_eq_ok, Uint128.mulChk_eq_ok, pure_eq_ok, Uint128.isqrt]
    exact ⟨20000, ⟨by norm_num, by norm_num⟩, h⟩
  · refine ⟨_, Pair.receive_withdraw_of rfl (Demo.validate_any _) (p0 := ⟨.token Demo.tokA, 150⟩)
      (p1 := ⟨.token Demo.tokB, 200⟩) (lt := Demo.lp) (ratio := 1000000000000000000) (r0 := 150) (r1 := 200)
      ⟨rfl, rfl, rfl, ?_, ?_, ?_, rfl⟩, rfl⟩ <;> rfl

/-- The hypotheses of `C17_message` are met by the demo deposit followed by a withdrawal of its 50 shares. -/
example : ∃ resp resp', provideLiquidity Demo.api (Demo.q 1000 2000 500) Demo.pairAddr Demo.pairState Demo.user []
      Demo.deposit none none = .ok (Demo.pairState, resp) ∧
    receiveCw20 Demo.api (Demo.q 1100 2200 550) Demo.pairAddr Demo.pairState Demo.lp [] Demo.user 50
      .withdrawLiquidity = .ok (Demo.pairState, resp') ∧
    AfterDeposit Demo.api (Demo.q 1100 2200 550) Demo.pairAddr Demo.pairState (.token Demo.tokA) (.token Demo.tokB)
      100 200 1000 2000 500 50 := by
  obtain ⟨resp, h⟩ := Demo.provide_ok none rfl
  refine ⟨resp, _, h, Pair.receive_withdraw_of rfl (Demo.validate_any _) (p0 := ⟨.token Demo.tokA, 1100⟩)
      (p1 := ⟨.token Demo.tokB, 2200⟩) (lt := Demo.lp) (ratio := 90909090909090909) (r0 := 99) (r1 := 199)
      ⟨rfl, rfl, rfl, rfl, rfl, rfl, rfl⟩, ⟨rfl, rfl, rfl, rfl, _, _, rfl, rfl, rfl⟩⟩

end Halo
