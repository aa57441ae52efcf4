import Verif.Lemmas.LiveL
import Verif.Props.LiquidityTx
import Verif.Props.Pricing
/-! # When requests are granted (C55, C56, C57)

The other properties say what happens if a request succeeds. These say when it does. -/

namespace Halo
open _root_.Halo.Spec

/-- Native reserves are 128-bit numbers. (Of tokens this is known.) -/
def Fits (k : PairSite) (w : World) : Prop :=
  (∀ d, k.i0 = .native d → w.bal d k.a < 2 ^ 128) ∧ ∀ d, k.i1 = .native d → w.bal d k.a < 2 ^ 128

theorem Fits.lt {k : PairSite} {w : World} (h : Fits k w) (hw : TokensOk w) :
    held w k.i0 k.a < B128 ∧ held w k.i1 k.a < B128 := by
  constructor
  · cases hi : k.i0 with
    | token t => exact held_lt hw t k.a
    | native d => exact h.1 d hi
  · cases hi : k.i1 with
    | token t => exact held_lt hw t k.a
    | native d => exact h.2 d hi

theorem runTx_of {c : Chain} {adv : Adv} {gas : Nat} {w : World} {S : Addr} {m : CosmosMsg}
    (h : ∃ n w', run c adv gas w [.msg S (plain m)] = .ok (n, w')) : ∃ w', runTx c adv gas w S m = .ok w' := by
  obtain ⟨n, w', h⟩ := h
  refine ⟨w', ?_⟩
  simp only [runTx, bind_eq_ok, pure_eq_ok, Prod.exists]
  exact ⟨n, w', h, rfl⟩

/-! ## C55 -/

/-- When a withdrawal goes through. -/
theorem PairSite.Good.withdraw_iff {c : Chain} {k : PairSite} {v : World} (hg : k.Good v) (hv : TokensOk v) (hx : k.Ctx c)
    (hra : c.api.resolve k.a = .ok k.a) (hf : Fits k v) {S : Addr} (hSr : c.api.resolve S = .ok S) (hSa : S ≠ k.a) (x : Nat) (adv : Adv) :
    (∃ n n' v', Halo.run c adv n v [.msg S (plain (.exec k.lt (.send k.a x .withdrawLiquidity) []))] = .ok (n', v')) ↔
      0 < x ∧ x ≤ held v (.token k.lt) S ∧ 1 ≤ refund (held v k.i0 k.a) x (supplyAt v k.lt) ∧
        1 ≤ refund (held v k.i1 k.a) x (supplyAt v k.lt) := by
  constructor
  · rintro ⟨n, n', v', h⟩
    obtain ⟨_, h1, h2, h3, _, hd⟩ := hg.withdrawn hx hra hSr hSa h
    have := hd.lp
    exact ⟨Nat.pos_of_ne_zero h1, by omega, Nat.pos_of_ne_zero h2, Nat.pos_of_ne_zero h3⟩
  · rintro ⟨h1, h2, h3, h4⟩
    obtain ⟨f0, f1⟩ := hf.lt hv
    exact ⟨_, hg.withdraw_live adv 0 hv hx hra hSr hSa f0 f1 (by omega) h2 (by omega) (by omega)⟩

/-- **C55.** In every reachable state, whatever other contracts do, a user can withdraw `x` LP tokens exactly if they have
them and each of the two refunds comes to at least one unit. -/
theorem C55_withdraw_iff {c : Chain} (hc : c.Lawful) {w : World} (hw : Reachable c w) {k : PairSite} (hk : k.Sound c w)
    (hf : Fits k w) {S : Addr} (hS : c.IsUser S) (x : Nat) (adv : Adv) :
    (∃ gas w', runTx c adv gas w S (.exec k.lt (.send k.a x .withdrawLiquidity) []) = .ok w') ↔
      0 < x ∧ x ≤ held w (.token k.lt) S ∧ 1 ≤ refund (held w k.i0 k.a) x (supplyAt w k.lt) ∧
        1 ≤ refund (held w k.i1 k.a) x (supplyAt w k.lt) := by
  constructor
  · rintro ⟨gas, w', h⟩
    obtain ⟨_, h1, h2, h3, _, hd⟩ := withdraw_tx hc hw hk hS h
    have := hd.lp
    exact ⟨Nat.pos_of_ne_zero h1, by omega, Nat.pos_of_ne_zero h2, Nat.pos_of_ne_zero h3⟩
  · rintro ⟨h1, h2, h3, h4⟩
    obtain ⟨f0, f1⟩ := hf.lt hw.tokensOk
    exact ⟨5, runTx_of ((hk.good hc hw).withdraw_live adv 0 hw.tokensOk (hk.ctx hc) (addr_facts hc hw hk.pair).1
      (PairSite.resolve_of_validate hS.2) ((addr_facts hc hw hk.pair).2 S hS) f0 f1 (by omega) h2 (by omega) (by omega))⟩

/-- **C55.** Five messages are enough, and `x` of `T` LP tokens can be withdrawn whenever `r*x/T ≥ 1 + r/10^18` for both
reserves `r`. -/
theorem C55_withdraw_live {c : Chain} (hc : c.Lawful) {w : World} (hw : Reachable c w) {k : PairSite} (hk : k.Sound c w)
    (hf : Fits k w) {S : Addr} (hS : c.IsUser S) {x : Nat} (adv : Adv) {gas : Nat} (hg : 5 ≤ gas)
    (hb : x ≤ held w (.token k.lt) S) (hT : supplyAt w k.lt ≠ 0)
    (h0 : supplyAt w k.lt * 10 ^ 18 + held w k.i0 k.a * supplyAt w k.lt ≤ held w k.i0 k.a * x * 10 ^ 18)
    (h1 : supplyAt w k.lt * 10 ^ 18 + held w k.i1 k.a * supplyAt w k.lt ≤ held w k.i1 k.a * x * 10 ^ 18) :
    ∃ w', runTx c adv gas w S (.exec k.lt (.send k.a x .withdrawLiquidity) []) = .ok w' := by
  have pos : ∀ r, supplyAt w k.lt * 10 ^ 18 + r * supplyAt w k.lt ≤ r * x * 10 ^ 18 → refund r x (supplyAt w k.lt) ≠ 0 := by
    intro r hr h
    have := (refund_spec (r := r) (x := x) hT).2
    rw [h, Nat.zero_add, one_mul] at this
    omega
  have hx : x ≠ 0 := by
    rintro rfl
    have : 0 < supplyAt w k.lt * 10 ^ 18 := Nat.mul_pos (Nat.pos_of_ne_zero hT) (by norm_num)
    simp only [mul_zero, zero_mul] at h0
    omega
  obtain ⟨f0, f1⟩ := hf.lt hw.tokensOk
  obtain ⟨n, rfl⟩ : ∃ n, gas = n + 5 := ⟨gas - 5, by omega⟩
  exact runTx_of ((hk.good hc hw).withdraw_live adv n hw.tokensOk (hk.ctx hc) (addr_facts hc hw hk.pair).1
    (PairSite.resolve_of_validate hS.2) ((addr_facts hc hw hk.pair).2 S hS) f0 f1 hx hb (pos _ h0) (pos _ h1))

/-- **C55.** A user who holds all LP tokens can take everything the pair holds, as long as it holds something of each
asset. -/
theorem C55_withdraw_all {c : Chain} (hc : c.Lawful) {w : World} (hw : Reachable c w) {k : PairSite} (hk : k.Sound c w)
    (hf : Fits k w) {S : Addr} (hS : c.IsUser S) (adv : Adv) {gas : Nat} (hg : 5 ≤ gas) (hT : supplyAt w k.lt ≠ 0)
    (hb : held w (.token k.lt) S = supplyAt w k.lt) (h0 : held w k.i0 k.a ≠ 0) (h1 : held w k.i1 k.a ≠ 0) :
    ∃ w', runTx c adv gas w S (.exec k.lt (.send k.a (supplyAt w k.lt) .withdrawLiquidity) []) = .ok w' ∧
      held w' k.i0 k.a = 0 ∧ held w' k.i1 k.a = 0 ∧ supplyAt w' k.lt = 0 ∧
      held w' k.i0 S = held w k.i0 S + held w k.i0 k.a ∧ held w' k.i1 S = held w k.i1 S + held w k.i1 k.a := by
  have all : ∀ r, refund r (supplyAt w k.lt) (supplyAt w k.lt) = r := by
    intro r
    unfold refund
    rw [Nat.mul_div_cancel_left _ (Nat.pos_of_ne_zero hT), Nat.mul_div_cancel _ (by norm_num)]
  obtain ⟨f0, f1⟩ := hf.lt hw.tokensOk
  obtain ⟨n, rfl⟩ : ∃ n, gas = n + 5 := ⟨gas - 5, by omega⟩
  obtain ⟨w', h⟩ := runTx_of ((hk.good hc hw).withdraw_live adv n hw.tokensOk (hk.ctx hc) (addr_facts hc hw hk.pair).1
    (PairSite.resolve_of_validate hS.2) ((addr_facts hc hw hk.pair).2 S hS) f0 f1 hT (le_of_eq hb.symm)
    (by rw [all]; exact h0) (by rw [all]; exact h1))
  obtain ⟨_, _, _, _, _, hd⟩ := withdraw_tx hc hw hk hS h
  rw [all, all] at hd
  have a := hd.pair0
  have b := hd.pair1
  have s := hd.supply
  exact ⟨w', h, by omega, by omega, by omega, hd.user0, hd.user1⟩

/-! ## C56 -/

/-- The spread limits in the amounts themselves: `x` is offered, `r` returned, `s` the spread, `od` and `ad` the decimals
of the two assets. The decimal scaling must not overflow, with or without a limit. -/
def SpreadOk (bp ms : Option Nat) (od ad x r s : Nat) : Prop :=
  (ad < od → 10 ^ (od - ad) < 2 ^ 64 ∧ r * 10 ^ (od - ad) < 2 ^ 128 ∧ s * 10 ^ (od - ad) < 2 ^ 128) ∧
  (od < ad → 10 ^ (ad - od) < 2 ^ 64 ∧ x * 10 ^ (ad - od) < 2 ^ 128) ∧
  match ms, bp with
  | none, _ => True
  | some m, none => r + s ≠ 0 ∧ s * 10 ^ 18 / (r + s) ≤ m
  | some m, some p => p ≠ 0 ∧ (r * 10 ^ (od - ad) < x * 10 ^ (ad - od) * 10 ^ 18 / p →
      (x * 10 ^ (ad - od) * 10 ^ 18 / p - r * 10 ^ (od - ad)) * 10 ^ 18 / (x * 10 ^ (ad - od) * 10 ^ 18 / p) ≤ m)

theorem spread_iff {bp ms : Option Nat} {od ad x r s : Nat} (hbp : ∀ p, bp = some p → p < 2 ^ 128)
    (hms : ∀ m, ms = some m → m < 2 ^ 128) (hx : x < 2 ^ 128) (hr : r < 2 ^ 128) (hs : s < 2 ^ 128) :
    Pair.assertMaxSpread bp ms x r s od ad = .ok () ↔ SpreadOk bp ms od ad x r s := by
  have hB : B128 = 2 ^ 128 := rfl
  have hL : ∀ y, y < B128 → y < B256 := fun y hy => lt_trans hy (by norm_num)
  have hD : DF = 10 ^ 18 := by norm_num [DF]
  have small : ((ad < od → 10 ^ (od - ad) < 2 ^ 64 ∧ r * 10 ^ (od - ad) < 2 ^ 128 ∧ s * 10 ^ (od - ad) < 2 ^ 128) ∧
      (od < ad → 10 ^ (ad - od) < 2 ^ 64 ∧ x * 10 ^ (ad - od) < 2 ^ 128)) →
      x * 10 ^ (ad - od) < B128 ∧ r * 10 ^ (od - ad) < B128 ∧ s * 10 ^ (od - ad) < B128 := by
    rintro ⟨h1, h2⟩
    refine ⟨?_, ?_, ?_⟩
    · by_cases h : od < ad
      · exact (h2 h).2
      · rw [Nat.sub_eq_zero_of_le (by omega), pow_zero, mul_one]; exact hx
    · by_cases h : ad < od
      · exact (h1 h).2.1
      · rw [Nat.sub_eq_zero_of_le (by omega), pow_zero, mul_one]; exact hr
    · by_cases h : ad < od
      · exact (h1 h).2.2
      · rw [Nat.sub_eq_zero_of_le (by omega), pow_zero, mul_one]; exact hs
  have mulDF : ∀ y, y < B128 * DF → y * DF < B256 := by
    intro y hy
    calc y * DF < B128 * DF * DF := Nat.mul_lt_mul_of_pos_right hy (by norm_num [DF])
      _ ≤ B256 := by norm_num [DF]
  have up : ∀ y, y < B128 → y < B128 * DF := fun y hy => lt_of_lt_of_le hy (Nat.le_mul_of_pos_right _ (by norm_num [DF]))
  unfold SpreadOk
  cases ms with
  | none =>
    rw [C12_partial]
    simp
  | some m =>
    have hm := hms m rfl
    cases bp with
    | none =>
      constructor
      · intro h
        have := Pair.maxSpread_none_inv hm h
        rw [hD] at this
        unfold Pair.assertMaxSpread at h
        simp only [bind_eq_ok, Prod.exists, Pair.scaleDecimals_eq_ok] at h
        obtain ⟨_, _, _, ⟨h1, h2, _⟩, _⟩ := h
        exact ⟨h1, h2, this⟩
      · rintro ⟨h1, h2, h3, h4⟩
        obtain ⟨_, sr, ss⟩ := small ⟨h1, h2⟩
        unfold Pair.assertMaxSpread
        simp only [bind_eq_ok, Prod.exists, Pair.scaleDecimals_eq_ok, ofDecimal_ok (hL m hm), Except.ok.injEq,
          Uint256.add_eq_ok, Dec256.fromRatio_eq_ok, require_eq_ok]
        have e1 : r * 10 ^ (od - ad) + s * 10 ^ (od - ad) = (r + s) * 10 ^ (od - ad) := by ring
        have e2 : s * 10 ^ (od - ad) * DF = s * DF * 10 ^ (od - ad) := by ring
        have p10 : 0 < 10 ^ (od - ad) := Nat.pow_pos (by norm_num)
        refine ⟨_, _, _, ⟨h1, h2, rfl, rfl, rfl⟩, _, rfl, _, ⟨?_, rfl⟩, _, ⟨?_, mulDF _ (up _ ss), rfl⟩, ?_⟩
        · have : B128 + B128 ≤ B256 := by norm_num
          omega
        · rw [e1]
          exact Nat.mul_ne_zero h3 (by omega)
        · rw [e1, e2, Nat.mul_div_mul_right _ _ p10, hD]
          omega
    | some p =>
      have hp := hbp p rfl
      unfold Pair.assertMaxSpread
      simp only [bind_eq_ok, Prod.exists, Pair.scaleDecimals_eq_ok, ofDecimal_ok (hL m hm), ofDecimal_ok (hL p hp),
        Except.ok.injEq, Uint256.divDec_eq_ok, subOrZero_eq_ok]
      constructor
      · rintro ⟨_, _, _, ⟨h1, h2, rfl, rfl, rfl⟩, _, rfl, _, rfl, E, ⟨h3, _, hE⟩, _, rfl, h4⟩
        refine ⟨h1, h2, h3, ?_⟩
        rw [← hD, ← hE]
        intro hlt
        rw [if_pos hlt] at h4
        simp only [bind_eq_ok, Dec256.fromRatio_eq_ok, require_eq_ok] at h4
        obtain ⟨_, ⟨_, _, rfl⟩, h4⟩ := h4
        omega
      · rintro ⟨h1, h2, h3, h4⟩
        obtain ⟨sx, sr, ss⟩ := small ⟨h1, h2⟩
        rw [← hD] at h4
        refine ⟨_, _, _, ⟨h1, h2, rfl, rfl, rfl⟩, _, rfl, _, rfl, _, ⟨h3, mulDF _ (up _ sx), rfl⟩, _, rfl, ?_⟩
        have hE : x * 10 ^ (ad - od) * DF / p < B128 * DF :=
          lt_of_le_of_lt (Nat.div_le_self _ _) (Nat.mul_lt_mul_of_pos_right sx (by norm_num [DF]))
        generalize x * 10 ^ (ad - od) * DF / p = E at *
        generalize r * 10 ^ (od - ad) = R at *
        split
        · rename_i hlt
          simp only [bind_eq_ok, Dec256.fromRatio_eq_ok, require_eq_ok]
          exact ⟨_, ⟨by omega, mulDF _ (by omega), rfl⟩, by have := h4 hlt; omega⟩
        · rfl

namespace PairSite
variable {c : Chain} {k : PairSite}

theorem Good.simulate_live {v : World} (hg : k.Good v) (hv : TokensOk v) (hxx : k.Ctx c) (hra : c.api.resolve k.a = .ok k.a)
    (hh : c.api.human k.s.contractAddr = some k.a) (hf : Fits k v) {i j : AssetInfo} (hd : k.Dir i j) (q : Querier) {x r s cm : Nat}
    (hx : x < B128) (h : Pair.computeSwap (held v i k.a) (held v j k.a) x = .ok (r, s, cm)) :
    (querier c q v).simulate k.a ⟨i, x⟩ = .ok ⟨r, s, cm⟩ ∧ r < B128 ∧ s < B128 ∧ r ≤ held v j k.a := by
  obtain ⟨f0, f1⟩ := hf.lt hv
  have hb : held v i k.a < B128 ∧ held v j k.a < B128 := by
    rcases hd with ⟨rfl, rfl⟩ | ⟨rfl, rfl⟩
    exacts [⟨f0, f1⟩, ⟨f1, f0⟩]
  have hform := (computeSwap_ok_iff hb.1 hb.2 hx).mp h
  obtain ⟨_, _, _, _, h5, h6, h7, h8⟩ := hform
  have hgr := grossOf_le (held v i k.a) (held v j k.a) x
  have hr : r ≤ held v j k.a := by omega
  have hcm : cm < B128 := by
    have : 3 * grossOf (held v i k.a) (held v j k.a) x / 1000 ≤ grossOf (held v i k.a) (held v j k.a) x := by omega
    omega
  have hr' : r < B128 := by omega
  have hs' : s < B128 := by omega
  refine ⟨?_, hr', hs', hr⟩
  simp only [querier, lookState, bind_eq_ok, okOr_eq_ok, pure_eq_ok]
  refine ⟨_, ⟨_, hra, _, hg.pair, rfl⟩, ?_⟩
  simp only [chkSim, bind_eq_ok, require_eq_ok, pure_eq_ok]
  refine ⟨_, ?_, (), ⟨hr', hs', hcm⟩, rfl⟩
  simp only [Pair.querySimulation, bind_eq_ok, pure_eq_ok, Prod.exists, humanize_eq_ok]
  have hp := hg.pools_live (q := q) hxx hra f0 f1
  rcases hd with ⟨d0, d1⟩ | ⟨d0, d1⟩
  · refine ⟨k.a, hh, _, _, hp, ⟨k.i0, held v k.i0 k.a⟩, ⟨k.i1, held v k.i1 k.a⟩, _, _,
      Pair.pick_eq_ok.mpr (.inl ⟨d0.symm, rfl, rfl, rfl, rfl⟩), r, s, cm, ?_, rfl⟩
    simp only [d0, d1]
    exact h
  · refine ⟨k.a, hh, _, _, hp, ⟨k.i1, held v k.i1 k.a⟩, ⟨k.i0, held v k.i0 k.a⟩, _, _,
      Pair.pick_eq_ok.mpr (.inr ⟨?_, d0.symm, rfl, rfl, rfl, rfl⟩), r, s, cm, ?_, rfl⟩
    · rw [← d0]; exact Ne.symm hxx.ne
    · simp only [d0, d1]
      exact h

/-- When a swap goes through. -/
theorem Good.swap_iff {v : World} (hg : k.Good v) (hv : TokensOk v) (hxx : k.Ctx c) (hra : c.api.resolve k.a = .ok k.a)
    (hh : c.api.human k.s.contractAddr = some k.a) (hf : Fits k v) {S : Addr} (hSr : c.api.resolve S = .ok S) (hSa : S ≠ k.a)
    {t : Addr} {j : AssetInfo} (hd : k.Dir (.token t) j) (x : Nat)
    (bp ms : Option Nat) (dst : Option Str) (adv : Adv) (q : Querier) :
    ((∃ n n' v', Halo.run c adv n v [.msg S (plain (.exec t (.send k.a x (.swap bp ms dst)) []))] = .ok (n', v')) ↔
      0 < x ∧ x ≤ held v (.token t) S ∧ (∀ p, bp = some p → p < 2 ^ 128) ∧ (∀ m, ms = some m → m < 2 ^ 128) ∧
      (∀ s, dst = some s → c.api.validate s = .ok s) ∧
      ∃ quote, (querier c q v).simulate k.a ⟨.token t, x⟩ = .ok quote ∧
        SpreadOk bp ms (k.decimals (.token t)).1 (k.decimals (.token t)).2 x quote.amount quote.spread) := by
  obtain ⟨f0, f1⟩ := hf.lt hv
  have hj : held v j k.a < B128 := by
    rcases hd with ⟨_, rfl⟩ | ⟨_, rfl⟩
    exacts [f1, f0]
  have hrange : (HookMsg.swap bp ms dst).inRange = true ↔ (∀ p, bp = some p → p < 2 ^ 128) ∧ ∀ m, ms = some m → m < 2 ^ 128 := by
    cases bp <;> cases ms <;> simp [HookMsg.inRange, optLt]
  have hlt : x ≤ held v (.token t) S → x < 2 ^ 128 := fun h => lt_of_le_of_lt h (held_lt hv t S)
  constructor
  · rintro ⟨n, n', v', hr⟩
    obtain ⟨h1, h2, h3, h4, r, s, cm, h5, h6⟩ := hg.swap_needs hxx hra hSa hd hr
    obtain ⟨e1, e2, e3, _⟩ := hg.simulate_live hv hxx hra hh hf hd q (hlt h2) h5
    obtain ⟨g1, g2⟩ := hrange.mp h3
    exact ⟨Nat.pos_of_ne_zero h1, h2, g1, g2, h4, _, e1, (spread_iff g1 g2 (hlt h2) e2 e3).mp h6⟩
  · rintro ⟨h1, h2, h3, h4, h5, quote, h6, h7⟩
    have h8 := (hg.quoted hxx hra hh hd h6).2.2
    obtain ⟨_, e2, e3, e4⟩ := hg.simulate_live hv hxx hra hh hf hd q (hlt h2) h8
    obtain ⟨n', v', _, hr⟩ := hg.swap_live adv 0 hv hxx hra hSr hSa hd hj
      (by omega) h2 h5 (hrange.mpr ⟨h3, h4⟩) h8 e4 ((spread_iff h3 h4 (hlt h2) e2 e3).mpr h7)
    exact ⟨3, n', v', hr⟩

end PairSite

theorem simulate_live {c : Chain} (hc : c.Lawful) {w : World} (hw : Reachable c w) {k : PairSite} (hk : k.Sound c w)
    (hf : Fits k w) {i j : AssetInfo} (hd : k.Dir i j) (q : Querier) {x r s cm : Nat} (hx : x < B128)
    (h : Pair.computeSwap (held w i k.a) (held w j k.a) x = .ok (r, s, cm)) :
    (querier c q w).simulate k.a ⟨i, x⟩ = .ok ⟨r, s, cm⟩ ∧ r < B128 ∧ s < B128 ∧ r ≤ held w j k.a := by
  exact (hk.good hc hw).simulate_live hw.tokensOk (hk.ctx hc) (addr_facts hc hw hk.pair).1 (human_self hc hw hk.pair) hf hd q hx h

/-- **C56.** In every reachable state, whatever other contracts do, a user can swap `x` of the token `t` exactly if they have
it, the receiver is an address, the pair answers a simulation query for it, and the quoted amounts respect the limits. -/
theorem C56_swap_iff {c : Chain} (hc : c.Lawful) {w : World} (hw : Reachable c w) {k : PairSite} (hk : k.Sound c w)
    (hf : Fits k w) {S : Addr} (hS : c.IsUser S) {t : Addr} {j : AssetInfo} (hd : k.Dir (.token t) j) (x : Nat)
    (bp ms : Option Nat) (dst : Option Str) (adv : Adv) (q : Querier) :
    (∃ gas w', runTx c adv gas w S (.exec t (.send k.a x (.swap bp ms dst)) []) = .ok w') ↔
      0 < x ∧ x ≤ held w (.token t) S ∧ (∀ p, bp = some p → p < 2 ^ 128) ∧ (∀ m, ms = some m → m < 2 ^ 128) ∧
      (∀ s, dst = some s → c.api.validate s = .ok s) ∧
      ∃ quote, (querier c q w).simulate k.a ⟨.token t, x⟩ = .ok quote ∧
        SpreadOk bp ms (k.decimals (.token t)).1 (k.decimals (.token t)).2 x quote.amount quote.spread := by
  have h := (hk.good hc hw).swap_iff hw.tokensOk (hk.ctx hc) (addr_facts hc hw hk.pair).1 (human_self hc hw hk.pair) hf
    (PairSite.resolve_of_validate hS.2) ((addr_facts hc hw hk.pair).2 S hS) hd x bp ms dst adv q
  constructor
  · rintro ⟨gas, w', hr⟩
    obtain ⟨n, hr⟩ := runTx_inv hr
    exact h.mp ⟨gas, n, w', hr⟩
  · intro h1
    obtain ⟨n, h2⟩ := h.mpr h1
    exact ⟨n, runTx_of h2⟩

/-- **C56**, with `C09_partial` in place of the quote: a pair of two assets with equal decimals and reserves `o`, `a` executes
every swap without limits of `x` units of a token the user has, if `o*a < 2^256/10^18`, `x*a < 2^128*o` and the offer is not
too small for an 18-digit price (`o*(o+x) ≤ x*a*10^18`). Three messages are enough. -/
theorem C56_swap_live {c : Chain} (hc : c.Lawful) {w : World} (hw : Reachable c w) {k : PairSite} (hk : k.Sound c w)
    (hf : Fits k w) {S : Addr} (hS : c.IsUser S) {t : Addr} {j : AssetInfo} (hd : k.Dir (.token t) j) {x : Nat}
    {dst : Option Str} (adv : Adv) {gas : Nat} (hg : 3 ≤ gas) (hdec : k.s.assetDecimals.1 = k.s.assetDecimals.2)
    (h0 : 0 < x) (hb : x ≤ held w (.token t) S) (hdst : ∀ s, dst = some s → c.api.validate s = .ok s)
    (ho : held w (.token t) k.a ≠ 0) (hcp : held w (.token t) k.a * held w j k.a * 10 ^ 18 < 2 ^ 256)
    (hv : x * held w j k.a < 2 ^ 128 * held w (.token t) k.a)
    (hfine : held w (.token t) k.a * (held w (.token t) k.a + x) ≤ x * held w j k.a * 10 ^ 18) :
    ∃ w', runTx c adv gas w S (.exec t (.send k.a x (.swap none none dst)) []) = .ok w' := by
  obtain ⟨f0, f1⟩ := hf.lt hw.tokensOk
  have hlt : x < 2 ^ 128 := lt_of_le_of_lt hb (held_lt hw.tokensOk t S)
  have hj : held w (.token t) k.a < B128 ∧ held w j k.a < B128 := by
    rcases hd with ⟨h, rfl⟩ | ⟨h, rfl⟩
    · rw [← h]; exact ⟨f0, f1⟩
    · rw [← h]; exact ⟨f1, f0⟩
  obtain ⟨r, s, cm, hp⟩ := C09_partial _ _ x hj.1 hj.2 hlt ho hcp hv hfine
  obtain ⟨_, _, _, e4⟩ := simulate_live hc hw hk hf hd (adv.query 0) hlt hp
  obtain ⟨n, rfl⟩ : ∃ n, gas = n + 3 := ⟨gas - 3, by omega⟩
  have he : (k.decimals (.token t)).1 = (k.decimals (.token t)).2 := by
    unfold PairSite.decimals
    split
    exacts [hdec, hdec.symm]
  obtain ⟨n', v', _, hr⟩ := (hk.good hc hw).swap_live adv n hw.tokensOk (hk.ctx hc) (addr_facts hc hw hk.pair).1
    (PairSite.resolve_of_validate hS.2) ((addr_facts hc hw hk.pair).2 S hS) hd hj.2 (by omega) hb hdst rfl hp e4
    (by rw [he]; exact C12_equal_decimals_partial none x r s _)
  exact runTx_of ⟨n', v', hr⟩

/-! ## C57 -/

/-- What the user has to have ready for a deposit of `d0`, `d1`: the attached coins are exactly the native amounts (other
coins may be attached too), the tokens are there and the pair has been allowed to take them. -/
structure Ready (k : PairSite) (S : Addr) (funds : List Coin) (d0 d1 : Nat) (w : World) : Prop where
  nodup : (funds.map Coin.denom).Nodup
  pos : ∀ f ∈ funds, f.amount ≠ 0
  bal : ∀ f ∈ funds, f.amount ≤ w.bal f.denom S
  coins0 : ∀ d, k.i0 = .native d → coinSum d funds = d0
  coins1 : ∀ d, k.i1 = .native d → coinSum d funds = d1
  has0 : d0 ≤ held w k.i0 S
  has1 : d1 ≤ held w k.i1 S
  may0 : MayTake w k.i0 S k.a d0
  may1 : MayTake w k.i1 S k.a d1

/-- Native reserves remain 128-bit numbers. -/
def FitsWith (k : PairSite) (d0 d1 : Nat) (w : World) : Prop :=
  (∀ d, k.i0 = .native d → w.bal d k.a + d0 < 2 ^ 128) ∧ ∀ d, k.i1 = .native d → w.bal d k.a + d1 < 2 ^ 128

theorem held_add_lt {w : World} (hw : TokensOk w) {i : AssetInfo} {a b : Addr} (hab : a ≠ b) {d : Nat}
    (h : ∀ dn, i = .native dn → w.bal dn a + d < B128) (hb : d ≤ held w i b) : held w i a + d < B128 := by
  cases i with
  | native dn => exact h dn rfl
  | token t =>
    clear h
    unfold held at hb ⊢
    split
    · rename_i he; cases he
    · rename_i t' he
      cases he
      simp only at hb
      split
      · rename_i adm st hst
        rw [hst] at hb
        have h1 := Token.moveBal_fits (hw _ _ _ hst) (dst := a) hb
        rw [Token.moveBal_get] at h1
        simpa [hab] using h1
      · rename_i hno
        have : d ≤ 0 := by
          split at hb
          · rename_i adm st hst; exact absurd hst (hno adm st)
          · exact hb
        have : (0 : Nat) < B128 := by norm_num
        omega

/-- A deposit for which everything is ready goes through. -/
theorem PairSite.Good.deposit_ready {c : Chain} {k : PairSite} {v : World} (hg : k.Good v) (hv : TokensOk v) (hx : k.Ctx c)
    (hra : c.api.resolve k.a = .ok k.a) {S : Addr} (hS : c.api.validate S = .ok S) (hSa : S ≠ k.a) {assets : Asset × Asset} {d0 d1 : Nat}
    (hn : Names k assets d0 d1) {funds : List Coin} (hr : Ready k S funds d0 d1 v) (hf : FitsWith k d0 d1 v) (tol : Option Nat)
    (htol : ∀ t, tol = some t → t < 2 ^ 128) {receiver : Option Str}
    (hrc : ∀ s, receiver = some s → c.api.validate s = .ok s) (adv : Adv) (n : Nat) {share : Nat}
    (hsl : Pair.assertSlippageTolerance tol (d0, d1) (held v k.i0 k.a, held v k.i1 k.a) = .ok ())
    (hsh : Pair.shareFor k.s.requirements S (supplyAt v k.lt) (d0, d1) (held v k.i0 k.a, held v k.i1 k.a) = .ok share)
    (hsn : share ≠ 0) (hsf : supplyAt v k.lt + share < B128) :
    ∃ n' v', Halo.run c adv (n + 4) v [.msg S (plain (.exec k.a (.provideLiquidity assets tol receiver) funds))] = .ok (n', v') := by
  have l0 := held_add_lt hv (Ne.symm hSa) hf.1 hr.has0
  have l1 := held_add_lt hv (Ne.symm hSa) hf.2 hr.has1
  have ho : optLt B128 tol = true := by
    cases tol with
    | none => rfl
    | some t => simpa [optLt] using htol t rfl
  have hrv : c.api.validate (receiver.getD S) = .ok (receiver.getD S) := by
    cases receiver with
    | none => exact hS
    | some s => exact hrc s rfl
  have key : Pair.depositFor assets k.i0 = .ok d0 ∧ Pair.depositFor assets k.i1 = .ok d1 ∧
      assets.1.assertSent funds = .ok () ∧ assets.2.assertSent funds = .ok () ∧
      (ExecMsg.provideLiquidity assets tol receiver).inRange = true := by
    have a0 : (⟨k.i0, d0⟩ : Asset).assertSent funds = .ok () := sent_of_coinSum hr.nodup hr.coins0
    have a1 : (⟨k.i1, d1⟩ : Asset).assertSent funds = .ok () := sent_of_coinSum hr.nodup hr.coins1
    have b0 : d0 < B128 := by omega
    have b1 : d1 < B128 := by omega
    rcases hn with rfl | rfl
    · exact ⟨Pair.depositFor_eq_ok.mpr (.inl ⟨rfl, rfl⟩), Pair.depositFor_eq_ok.mpr (.inr ⟨hx.ne, rfl, rfl⟩), a0, a1,
        by simp [ExecMsg.inRange, b0, b1, ho]⟩
    · exact ⟨Pair.depositFor_eq_ok.mpr (.inr ⟨Ne.symm hx.ne, rfl, rfl⟩), Pair.depositFor_eq_ok.mpr (.inl ⟨rfl, rfl⟩), a1, a0,
        by simp [ExecMsg.inRange, b0, b1, ho]⟩
  obtain ⟨e0, e1, s0, s1, hrg⟩ := key
  exact hg.deposit_live adv n hv hx hra (resolve_of_validate hS) hSa e0 e1 hr.nodup hr.pos hr.bal s0 s1 hrg l0 l1
    (fun _ => hr.has0) (fun _ => hr.has1) hr.may0 hr.may1 hsl hsh hsn hsf hrv

theorem deposit_ready {c : Chain} (hc : c.Lawful) {w : World} (hw : Reachable c w) {k : PairSite}
    (hk : k.Sound c w) {S : Addr} (hS : c.IsUser S) {assets : Asset × Asset} {d0 d1 : Nat} (hn : Names k assets d0 d1)
    {funds : List Coin} (hr : Ready k S funds d0 d1 w) (hf : FitsWith k d0 d1 w) (tol : Option Nat)
    (htol : ∀ t, tol = some t → t < 2 ^ 128) {receiver : Option Str}
    (hrc : ∀ s, receiver = some s → c.api.validate s = .ok s) (adv : Adv) {gas : Nat} (hg : 4 ≤ gas) {share : Nat}
    (hsl : Pair.assertSlippageTolerance tol (d0, d1) (held w k.i0 k.a, held w k.i1 k.a) = .ok ())
    (hsh : Pair.shareFor k.s.requirements S (supplyAt w k.lt) (d0, d1) (held w k.i0 k.a, held w k.i1 k.a) = .ok share)
    (hsn : share ≠ 0) (hsf : supplyAt w k.lt + share < B128) :
    ∃ w', runTx c adv gas w S (.exec k.a (.provideLiquidity assets tol receiver) funds) = .ok w' := by
  obtain ⟨n, rfl⟩ : ∃ n, gas = n + 4 := ⟨gas - 4, by omega⟩
  exact runTx_of ((hk.good hc hw).deposit_ready hw.tokensOk (hk.ctx hc) (addr_facts hc hw hk.pair).1 hS.2
    ((addr_facts hc hw hk.pair).2 S hS) hn hr hf tol htol hrc adv n hsl hsh hsn hsf)

/-- **C57.** Everybody can add liquidity to a pair with LP tokens outstanding and two non-empty reserves: a deposit without a
slippage tolerance for which the user has everything ready goes through if both sides are worth at least one LP token
(and no number outgrows 128 bits). -/
theorem C57_deposit_live {c : Chain} (hc : c.Lawful) {w : World} (hw : Reachable c w) {k : PairSite}
    (hk : k.Sound c w) {S : Addr} (hS : c.IsUser S) {assets : Asset × Asset} {d0 d1 : Nat} (hn : Names k assets d0 d1)
    {funds : List Coin} (hr : Ready k S funds d0 d1 w) (hf : FitsWith k d0 d1 w) {receiver : Option Str}
    (hrc : ∀ s, receiver = some s → c.api.validate s = .ok s) (adv : Adv) {gas : Nat} (hg : 4 ≤ gas)
    (hT : supplyAt w k.lt ≠ 0) (h0 : held w k.i0 k.a ≠ 0) (h1 : held w k.i1 k.a ≠ 0)
    (w0 : held w k.i0 k.a ≤ d0 * supplyAt w k.lt) (w1 : held w k.i1 k.a ≤ d1 * supplyAt w k.lt)
    (b0 : d0 * supplyAt w k.lt / held w k.i0 k.a + supplyAt w k.lt < 2 ^ 128)
    (b1 : d1 * supplyAt w k.lt / held w k.i1 k.a + supplyAt w k.lt < 2 ^ 128) :
    ∃ w', runTx c adv gas w S (.exec k.a (.provideLiquidity assets none receiver) funds) = .ok w' := by
  have p0 : 0 < d0 * supplyAt w k.lt / held w k.i0 k.a := Nat.div_pos w0 (Nat.pos_of_ne_zero h0)
  have p1 : 0 < d1 * supplyAt w k.lt / held w k.i1 k.a := Nat.div_pos w1 (Nat.pos_of_ne_zero h1)
  have hB : B128 = 2 ^ 128 := rfl
  refine deposit_ready hc hw hk hS hn hr hf none (by simp) hrc adv hg
    (share := min (d0 * supplyAt w k.lt / held w k.i0 k.a) (d1 * supplyAt w k.lt / held w k.i1 k.a)) rfl ?_ (by omega) (by omega)
  unfold Pair.shareFor
  rw [if_neg hT]
  simp only [bind_eq_ok, Uint128.multiplyRatio_eq_ok, pure_eq_ok]
  exact ⟨_, ⟨h0, by omega, rfl⟩, _, ⟨h1, by omega, rfl⟩, rfl⟩

/-- **C57 (partial).** A whitelisted user can make the first deposit without a slippage tolerance, if it meets both minimums
and `0 < d0*d1 < 2^128`. Missing: larger first deposits, which are refused (`C57_first_deposit_overflow`). -/
theorem C57_first_deposit_live_partial {c : Chain} (hc : c.Lawful) {w : World} (hw : Reachable c w) {k : PairSite}
    (hk : k.Sound c w) {S : Addr} (hS : c.IsUser S) {assets : Asset × Asset} {d0 d1 : Nat} (hn : Names k assets d0 d1)
    {funds : List Coin} (hr : Ready k S funds d0 d1 w) (hf : FitsWith k d0 d1 w) {receiver : Option Str}
    (hrc : ∀ s, receiver = some s → c.api.validate s = .ok s) (adv : Adv) {gas : Nat} (hg : 4 ≤ gas)
    (hT : supplyAt w k.lt = 0) (hwl : S ∈ k.s.requirements.whitelist) (m0 : k.s.requirements.firstAssetMinimum ≤ d0)
    (m1 : k.s.requirements.secondAssetMinimum ≤ d1) (hpos : 0 < d0 * d1) (hlt : d0 * d1 < 2 ^ 128) :
    ∃ w', runTx c adv gas w S (.exec k.a (.provideLiquidity assets none receiver) funds) = .ok w' := by
  have hB : B128 = 2 ^ 128 := rfl
  have hs : 0 < Nat.sqrt (d0 * d1) := Nat.sqrt_pos.mpr hpos
  have hs' : Nat.sqrt (d0 * d1) ≤ d0 * d1 := Nat.sqrt_le_self _
  refine deposit_ready hc hw hk hS hn hr hf none (by simp) hrc adv hg (share := Nat.sqrt (d0 * d1)) rfl ?_ (by omega) (by omega)
  unfold Pair.shareFor
  rw [if_pos hT]
  simp only [bind_eq_ok, require_eq_ok, Uint128.mulChk_eq_ok, pure_eq_ok, Uint128.isqrt]
  exact ⟨(), by simpa using hwl, (), by omega, _, ⟨hlt, rfl⟩, rfl⟩

/-- **C57 is false of the code for the first deposit**: whoever makes it, with whatever tolerance and gas, it is refused if
`d0*d1 ≥ 2^128` (the product overflows a 128-bit multiplication). Two assets with 18 decimals reach this at 18.5 whole
tokens each. -/
theorem C57_first_deposit_overflow {c : Chain} (hc : c.Lawful) {w : World} (hw : Reachable c w) {k : PairSite}
    (hk : k.Sound c w) {S : Addr} (hS : c.IsUser S) {assets : Asset × Asset} {d0 d1 : Nat} (hn : Names k assets d0 d1)
    (funds : List Coin) (tol : Option Nat) (receiver : Option Str) (adv : Adv) (gas : Nat) (hT : supplyAt w k.lt = 0)
    (hbig : 2 ^ 128 ≤ d0 * d1) (w' : World) :
    runTx c adv gas w S (.exec k.a (.provideLiquidity assets tol receiver) funds) ≠ .ok w' := by
  intro h
  obtain ⟨e0, e1, s, hn', _, _, _, _, hsh, _⟩ := deposit_tx hc hw hk hS h
  rw [hT] at hsh
  unfold Pair.shareFor at hsh
  simp only [↓reduceIte, bind_eq_ok, require_eq_ok, Uint128.mulChk_eq_ok, pure_eq_ok, Uint128.isqrt] at hsh
  obtain ⟨_, _, _, _, _, ⟨hlt, _⟩, _⟩ := hsh
  have hne := (hk.ctx hc).ne
  have : e0 = d0 ∧ e1 = d1 := by
    rcases hn with rfl | rfl <;> rcases hn' with h | h <;> simp only [Prod.mk.injEq, Asset.mk.injEq] at h
    · exact ⟨h.1.2.symm, h.2.2.symm⟩
    · exact absurd h.1.1 hne
    · exact absurd h.2.1 hne
    · exact ⟨h.2.2.symm, h.1.2.symm⟩
  obtain ⟨rfl, rfl⟩ := this
  have hB : B128 = 2 ^ 128 := rfl
  omega

example : (2 : Nat) ^ 128 ≤ (185 * 10 ^ 17) * (185 * 10 ^ 17) := by norm_num

namespace Demo

theorem fits_of {k : PairSite} {x y : Addr} (h0 : k.i0 = .token x) (h1 : k.i1 = .token y) (w : World) : Fits k w := by
  constructor <;> intro d hd <;> simp_all

/-- 500 LP tokens can be withdrawn. -/
example : ∃ gas w', runTx chain idle gas deployed user (.exec lpAB (.send pAB 500 .withdrawLiquidity) []) = .ok w' :=
  (C55_withdraw_iff lawful deployed_reachable sound_AB (fits_of rfl rfl _) isUser_user 500 idle).mpr (by decide +kernel)
example := C55_withdraw_live lawful deployed_reachable sound_AB (fits_of rfl rfl _) isUser_user (x := 500) idle
  (gas := 5) (by decide) (by decide +kernel) (by decide +kernel) (by decide +kernel) (by decide +kernel)
example := C55_withdraw_all lawful deployed_reachable sound_AB (fits_of rfl rfl _) isUser_user idle
  (gas := 5) (by decide) (by decide +kernel) (by decide +kernel) (by decide +kernel) (by decide +kernel)

/-- A single LP token of `user`'s 14142 cannot: it is worth 0.7 A and 1.4 B. -/
example : held deployed (.token lpAB) user = 14142 ∧
    ¬ ∃ gas w', runTx chain idle gas deployed user (.exec lpAB (.send pAB 1 .withdrawLiquidity) []) = .ok w' := by
  refine ⟨by decide +kernel, fun h => ?_⟩
  have := (C55_withdraw_iff lawful deployed_reachable sound_AB (fits_of rfl rfl _) isUser_user 1 idle).mp h
  exact absurd this (by decide +kernel)

/-- 1000 A with a limit of 10% can be swapped, with a limit of 9% not. -/
example : ∃ gas w', runTx chain idle gas deployed user (.exec tA (.send pAB 1000 (.swap none (some (10 ^ 17)) none)) []) =
    .ok w' :=
  (C56_swap_iff lawful deployed_reachable sound_AB (fits_of rfl rfl _) isUser_user (t := tA) (j := .token tB)
    (.inl ⟨rfl, rfl⟩) 1000 none (some (10 ^ 17)) none idle (q 0 0 0)).mpr
    ⟨by decide, by decide +kernel, by simp, by simp, by simp, ⟨1813, 182, 5⟩, val_eq (by decide +kernel), by decide +kernel,
      by decide +kernel, by decide +kernel⟩
example : ¬ ∃ gas w', runTx chain idle gas deployed user (.exec tA (.send pAB 1000 (.swap none (some (9 * 10 ^ 16)) none)) []) =
    .ok w' := by
  intro h
  obtain ⟨_, _, _, _, _, quote, h1, h2⟩ := (C56_swap_iff lawful deployed_reachable sound_AB (fits_of rfl rfl _) isUser_user
    (t := tA) (j := .token tB) (.inl ⟨rfl, rfl⟩) 1000 none (some (9 * 10 ^ 16)) none idle (q 0 0 0)).mp h
  have h3 : (querier chain (q 0 0 0) deployed).simulate pAB ⟨.token tA, 1000⟩ = .ok ⟨1813, 182, 5⟩ :=
    val_eq (by decide +kernel)
  cases h1.symm.trans h3
  exact absurd h2.2.2.2 (by decide)
example := C56_swap_live lawful deployed_reachable sound_AB (fits_of rfl rfl _) isUser_user (t := tA) (j := .token tB)
    (.inl ⟨rfl, rfl⟩) (x := 1000) (dst := none) idle (gas := 3) (by decide) (by decide +kernel) (by decide) (by decide +kernel)
    (by simp) (by decide +kernel) (by decide +kernel) (by decide +kernel) (by decide +kernel)

theorem mayTake_of {w : World} {t owner spender : Addr} {x : Nat}
    (h : ((tokenAt w t).map fun p => match p.2.allowances.get (owner, spender) with
      | some a => !a.expires.isExpired w.block && decide (x ≤ a.amount)
      | none => false) = some true) : MayTake w (.token t) owner spender x := by
  intro t' ht
  cases ht
  obtain ⟨adm, st, h1, h2⟩ := exists_token h
  refine ⟨adm, st, h1, ?_⟩
  cases ha : st.allowances.get (owner, spender) with
  | none => simp [ha] at h2
  | some a =>
    simp only [ha, Bool.and_eq_true, Bool.not_eq_eq_eq_not, Bool.not_true, decide_eq_true_eq] at h2
    exact ⟨a, ha, h2⟩

theorem ready_of {w : World} {x y : Nat} (h0 : x ≤ held w (.token tA) user) (h1 : y ≤ held w (.token tB) user)
    (m0 : MayTake w (.token tA) user pAB x) (m1 : MayTake w (.token tB) user pAB y) : Ready siteAB user [] x y w :=
  ⟨by simp, by simp, by simp, (fun _ h => nomatch h), (fun _ h => nomatch h), h0, h1, m0, m1⟩

theorem ready_allowed : Ready siteAB user [] 1000 2001 allowed :=
  ready_of (by decide +kernel) (by decide +kernel) (mayTake_of (by decide +kernel)) (mayTake_of (by decide +kernel))
example := C57_deposit_live lawful allowed_reachable sound_allowed isUser_user (.inr rfl) ready_allowed
  ⟨(fun _ h => nomatch h), (fun _ h => nomatch h)⟩ (receiver := none) (by simp) idle (gas := 4) (by decide) (by decide +kernel)
  (by decide +kernel) (by decide +kernel) (by decide +kernel) (by decide +kernel) (by decide +kernel) (by decide +kernel)

theorem fresh_reachable : Reachable chain fresh := genesis_reachable.later (later_runs fresh_run)
theorem ready_fresh : Ready siteAB user [] 1000 2001 fresh :=
  ready_of (by decide +kernel) (by decide +kernel) (mayTake_of (by decide +kernel)) (mayTake_of (by decide +kernel))
example := C57_first_deposit_live_partial lawful fresh_reachable sound_fresh isUser_user (.inr rfl) ready_fresh
  ⟨(fun _ h => nomatch h), (fun _ h => nomatch h)⟩ (receiver := none) (by simp) idle (gas := 4) (by decide) (by decide +kernel)
  (by decide +kernel) (by decide +kernel) (by decide +kernel) (by decide +kernel) (by decide +kernel)
example := C57_first_deposit_overflow lawful fresh_reachable sound_fresh isUser_user
  (assets := (⟨.token tA, 2 ^ 64⟩, ⟨.token tB, 2 ^ 64⟩)) (.inl rfl) [] none none idle 20 (by decide +kernel) (by decide)

end Demo
end Halo
