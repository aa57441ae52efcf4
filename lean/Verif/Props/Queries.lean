import Verif.Props.Route
import Verif.Spec.Quote
/-! # The pair's queries tell the truth (C66) -/

namespace Halo
open _root_.Halo.Spec

private theorem swap_quoted {o a x r s k : Nat} (ho : o < B128) (ha : a < B128) (hx : x < B128) :
    Pair.computeSwap o a x = .ok (r, s, k) ↔ PriceQuote o a x r s k := by
  have e1 : grossOf o a x = gross o a x := rfl
  have e2 : idealOf o a x = ideal o a x := rfl
  rw [computeSwap_ok_iff ho ha hx, e1, e2]
  constructor
  · rintro ⟨h1, h2, h3, h4, h5, rfl, rfl, rfl⟩
    exact ⟨h1, h2, h3, h4, h5, rfl, rfl, rfl⟩
  · rintro ⟨h1, h2, h3, h4, h5, rfl, rfl, rfl⟩
    exact ⟨h1, h2, h3, h4, h5, rfl, rfl, rfl⟩

private theorem offer_quoted {o a y q s k : Nat} (ho : o < B128) (ha : a < B128) (hy : y < B128) :
    Pair.computeOfferAmount o a y = .ok (q, s, k) ↔ OfferQuote o a y q s k := by
  have e1 : grossNeeded y = needed y := rfl
  have e2 : quoteOf o a y = offerFor o a y := rfl
  have e3 : offerFor o a y * (a * DF / o) / DF = ideal o a (offerFor o a y) := rfl
  rw [computeOfferAmount_ok_iff ho ha hy, e1, e2, e3]
  constructor
  · rintro ⟨h1, h2, h3, h4, h5, rfl, rfl, rfl⟩
    exact ⟨h1, h2, h4, h3, h5, rfl, rfl, rfl⟩
  · rintro ⟨h1, h2, h3, h4, h5, rfl, rfl, rfl⟩
    exact ⟨h1, h2, h4, h3, h5, rfl, rfl, rfl⟩

variable {c : Chain} {w : World} {k : PairSite}

/-- C66: a pair answers what it is: its two assets, its own address, its LP token, and the decimals and requirements it was
created with. -/
theorem C66_pair_info (hc : c.Lawful) (hw : Reachable c w) (hk : k.Sound c w) (info : PairInfo) :
    Pair.queryPairInfo c.api k.s = .ok info ↔
      info = ⟨(k.i0, k.i1), k.a, k.lt, k.s.assetDecimals, k.s.requirements⟩ := by
  have h : Pair.queryPairInfo c.api k.s = .ok ⟨(k.i0, k.i1), k.a, k.lt, k.s.assetDecimals, k.s.requirements⟩ := by
    simp only [Pair.queryPairInfo, PairInfoRaw.toNormal, bind_eq_ok, humanize_eq_ok, pure_eq_ok]
    exact ⟨_, hk.lp, _, human_self hc hw hk.pair, _, hk.info0, _, hk.info1, rfl⟩
  rw [h, Except.ok.injEq, eq_comm]

/-- C66: the `Pool` query answers exactly the reserves and the LP supply; it fails only if a reserve does not fit 128 bits. -/
theorem C66_pool_iff (hc : c.Lawful) (hw : Reachable c w) (hk : k.Sound c w) (q : Querier) (resp : PoolResp) :
    Pair.queryPool c.api (querier c q w) k.s = .ok resp ↔
      Fits k w ∧ resp = ⟨(⟨k.i0, held w k.i0 k.a⟩, ⟨k.i1, held w k.i1 k.a⟩), supplyAt w k.lt⟩ := by
  have hx := hk.ctx hc
  have hg := hk.good hc hw
  have hra := (addr_facts hc hw hk.pair).1
  obtain ⟨st, hst, _⟩ := hg.lp
  have hti := tokenInfo_live (q := q) hw.tokensOk hx.resolveLp hst
  simp only [Pair.queryPool, bind_eq_ok, humanize_eq_ok, pure_eq_ok, human_self hc hw hk.pair, hk.lp, Option.some.injEq,
    exists_eq_left', hti, Except.ok.injEq]
  have hs : (Token.queryTokenInfo st).totalSupply = supplyAt w k.lt := (supplyAt_token hst).symm
  rw [hs]
  constructor
  · rintro ⟨⟨p0, p1⟩, hp, rfl⟩
    obtain ⟨e0, e1, a0, a1, b0, b1⟩ := hg.pools hx hp
    refine ⟨⟨fun d hd => ?_, fun d hd => ?_⟩, ?_⟩
    · rw [hd, held] at a0; rw [← a0]; exact b0
    · rw [hd, held] at a1; rw [← a1]; exact b1
    · rw [← a0, ← a1, ← e0, ← e1]
  · rintro ⟨hf, rfl⟩
    obtain ⟨f0, f1⟩ := hf.lt hw.tokensOk
    exact ⟨_, hg.pools_live hx hra f0 f1, rfl⟩

/-- C66: the `Simulation` query answers exactly the quote of the specification at the current reserves. -/
theorem C66_simulation_iff (hc : c.Lawful) (hw : Reachable c w) (hk : k.Sound c w) (hf : Fits k w) {i j : AssetInfo}
    (hd : k.Dir i j) (q : Querier) {x : Nat} (hx : x < 2 ^ 128) (resp : SimResp) :
    (querier c q w).simulate k.a ⟨i, x⟩ = .ok resp ↔
      PriceQuote (held w i k.a) (held w j k.a) x resp.amount resp.spread resp.commission := by
  obtain ⟨f0, f1⟩ := hf.lt hw.tokensOk
  have hb : held w i k.a < B128 ∧ held w j k.a < B128 := by
    rcases hd with ⟨rfl, rfl⟩ | ⟨rfl, rfl⟩
    exacts [⟨f0, f1⟩, ⟨f1, f0⟩]
  rw [← swap_quoted hb.1 hb.2 hx]
  exact ⟨fun h => quote_price hc hw hk hd h, fun h => (simulate_live hc hw hk hf hd q hx h).1⟩

/-- C66: so does the `ReverseSimulation` query. -/
theorem C66_reverse_iff (hc : c.Lawful) (hw : Reachable c w) (hk : k.Sound c w) (hf : Fits k w) {i j : AssetInfo}
    (hd : k.Dir i j) (q : Querier) {y : Nat} (hy : y < 2 ^ 128) (resp : SimResp) :
    (querier c q w).reverseSimulate k.a ⟨j, y⟩ = .ok resp ↔
      OfferQuote (held w i k.a) (held w j k.a) y resp.amount resp.spread resp.commission := by
  obtain ⟨f0, f1⟩ := hf.lt hw.tokensOk
  have hra := (addr_facts hc hw hk.pair).1
  have hb : held w i k.a < B128 ∧ held w j k.a < B128 := by
    rcases hd with ⟨rfl, rfl⟩ | ⟨rfl, rfl⟩
    exacts [⟨f0, f1⟩, ⟨f1, f0⟩]
  rw [← offer_quoted hb.1 hb.2 hy]
  have hlook : lookState c w k.a = .ok (.pair k.s) := by
    simp only [lookState, bind_eq_ok, okOr_eq_ok, pure_eq_ok]
    exact ⟨_, hra, _, hk.pair, rfl⟩
  simp only [querier, hlook, ok_bind, chkSim, bind_eq_ok, require_eq_ok, pure_eq_ok]
  constructor
  · rintro ⟨_, h, _, _, rfl⟩
    exact ((hk.good hc hw).reversed (hk.ctx hc) (human_self hc hw hk.pair) hd h).2.2
  · intro h
    have hq := (offer_quoted hb.1 hb.2 hy).mp h
    refine ⟨resp, ?_, (), ⟨?_, ?_, ?_⟩, rfl⟩
    · simp only [Pair.queryReverseSimulation, bind_eq_ok, pure_eq_ok, Prod.exists, humanize_eq_ok]
      have hp := (hk.good hc hw).pools_live (q := q) (hk.ctx hc) hra f0 f1
      have hne := hk.ne
      rcases hd with ⟨rfl, rfl⟩ | ⟨rfl, rfl⟩
      · have n1 : ¬ k.i1.equal k.i0 := by rw [AssetInfo.equal_iff]; exact Ne.symm hne
        have n2 : k.i1.equal k.i1 := by rw [AssetInfo.equal_iff]
        refine ⟨k.a, human_self hc hw hk.pair, _, _, hp, ⟨k.i0, held w k.i0 k.a⟩, ⟨k.i1, held w k.i1 k.a⟩, ?_, _, _, _, h, rfl⟩
        simp only [n1, n2, ↓reduceIte]
        rfl
      · have n2 : k.i0.equal k.i0 := by rw [AssetInfo.equal_iff]
        refine ⟨k.a, human_self hc hw hk.pair, _, _, hp, ⟨k.i1, held w k.i1 k.a⟩, ⟨k.i0, held w k.i0 k.a⟩, ?_, _, _, _, h, rfl⟩
        simp only [n2, ↓reduceIte]
    · rw [hq.amount]; exact hq.fits
    · rw [hq.loss]; exact hq.spread
    · rw [hq.fee]; have := hq.enough; omega

/-- C66: a pair quotes nothing for assets it does not trade. -/
theorem C66_unknown_asset (hc : c.Lawful) (hw : Reachable c w) (hk : k.Sound c w) {i : AssetInfo} (h0 : i ≠ k.i0)
    (h1 : i ≠ k.i1) (q : Querier) (x : Nat) (resp : SimResp) :
    (querier c q w).simulate k.a ⟨i, x⟩ ≠ .ok resp ∧ (querier c q w).reverseSimulate k.a ⟨i, x⟩ ≠ .ok resp := by
  have hra := (addr_facts hc hw hk.pair).1
  have hlook : lookState c w k.a = .ok (.pair k.s) := by
    simp only [lookState, bind_eq_ok, okOr_eq_ok, pure_eq_ok]
    exact ⟨_, hra, _, hk.pair, rfl⟩
  simp only [querier, hlook, ok_bind, chkSim, ne_eq, bind_eq_ok, require_eq_ok, pure_eq_ok]
  constructor
  · rintro ⟨_, h, _⟩
    simp only [Pair.querySimulation, bind_eq_ok, pure_eq_ok, Prod.exists, humanize_eq_ok] at h
    obtain ⟨ca, _, p0, p1, h2, o, a, od, ad, h3, _⟩ := h
    obtain ⟨e0, e1, _⟩ := queryPools_eq_ok.mp h2
    rw [hk.info0] at e0
    rw [hk.info1] at e1
    rw [Pair.pick_eq_ok] at h3
    rcases h3 with ⟨hi, _⟩ | ⟨_, hi, _⟩
    · exact h0 (hi.trans (Except.ok.inj e0).symm)
    · exact h1 (hi.trans (Except.ok.inj e1).symm)
  · rintro ⟨_, h, _⟩
    simp only [Pair.queryReverseSimulation, bind_eq_ok, pure_eq_ok, Prod.exists, humanize_eq_ok] at h
    obtain ⟨ca, _, p0, p1, h2, o, a, h3, _⟩ := h
    obtain ⟨e0, e1, _⟩ := queryPools_eq_ok.mp h2
    rw [hk.info0] at e0
    rw [hk.info1] at e1
    have n0 : ¬ i.equal p0.info := by rw [AssetInfo.equal_iff, ← Except.ok.inj e0]; exact h0
    have n1 : ¬ i.equal p1.info := by rw [AssetInfo.equal_iff, ← Except.ok.inj e1]; exact h1
    simp only [n0, n1] at h3
    cases h3

/-! ## Concrete cases -/

namespace Demo

/-- The demo pool: 10000 tA, 20000 tB, 14142 LP tokens. -/
example (q : Querier) : Pair.queryPool chain.api (querier chain q deployed) siteAB.s =
    .ok ⟨(⟨.token tA, 10000⟩, ⟨.token tB, 20000⟩), 14142⟩ := by
  rw [C66_pool_iff lawful deployed_reachable sound_AB]
  refine ⟨viaB_fits _ (by simp), ?_⟩
  have h : siteAB.pool deployed = ⟨10000, 20000, 14142⟩ := by decide +kernel
  simp only [PairSite.pool, Pool.mk.injEq] at h
  rw [h.1, h.2.1, h.2.2]
  rfl

example (q : Querier) : (querier chain q deployed).simulate pAB ⟨.token tA, 1000⟩ = .ok ⟨1813, 182, 5⟩ ∧
    (querier chain q deployed).reverseSimulate pAB ⟨.token tB, 1813⟩ = .ok ⟨999, 180, 5⟩ := by
  have h : siteAB.pool deployed = ⟨10000, 20000, 14142⟩ := by decide +kernel
  simp only [PairSite.pool, Pool.mk.injEq] at h
  constructor
  · refine (C66_simulation_iff (k := siteAB) lawful deployed_reachable sound_AB (viaB_fits _ (by simp))
      (i := .token tA) (j := .token tB) (.inl ⟨rfl, rfl⟩) q (by norm_num) _).mpr ?_
    rw [show held deployed (.token tA) siteAB.a = 10000 from h.1, show held deployed (.token tB) siteAB.a = 20000 from h.2.1]
    constructor <;> decide +kernel
  · refine (C66_reverse_iff (k := siteAB) lawful deployed_reachable sound_AB (viaB_fits _ (by simp))
      (i := .token tA) (j := .token tB) (.inl ⟨rfl, rfl⟩) q (by norm_num) _).mpr ?_
    rw [show held deployed (.token tA) siteAB.a = 10000 from h.1, show held deployed (.token tB) siteAB.a = 20000 from h.2.1]
    constructor <;> decide +kernel

end Demo
end Halo
