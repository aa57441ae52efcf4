import Verif.Lemmas.LiqL
import Verif.Lemmas.TokenInv
/-! # When executions succeed (helper lemmas for C55 and C56) -/

namespace Halo
open _root_.Halo.Spec

theorem run_cons_of {c : Chain} {adv : Adv} {n n' : Nat} {w w1 w' : World} {f : Frame} {fs fs1 : List Frame}
    (hs : step c adv n w f = .ok (w1, fs1)) (hr : run c adv n w1 (fs1 ++ fs) = .ok (n', w')) :
    run c adv (n + 1) w (f :: fs) = .ok (n', w') := by
  simp only [run, bind_eq_ok, Prod.exists]
  exact ⟨w1, fs1, hs, hr⟩

theorem validate_of_resolve {api : Api} {s : Str} (h : api.resolve s = .ok s) : api.validate s = .ok s := by
  obtain ⟨b, h1, h2⟩ := resolve_eq_ok.mp h
  exact validate_eq_ok.mpr ⟨rfl, b, h1, h2⟩

/-- A message to a halo token, without funds. -/
theorem step_token_of {c : Chain} {adv : Adv} {n : Nat} {v : World} {sender t : Addr} {m : ExecMsg}
    (hr : c.api.resolve t = .ok t) {adm : Option Addr} {st st' : TokenState} {r : Response}
    (ht : v.contracts t = some ⟨adm, .token st⟩) (hm : m.inRange = true)
    (hx : Token.execute c.api v.block st sender m = .ok (st', r)) :
    step c adv n v (.msg sender (plain (.exec t m []))) = .ok (v.setState t adm (.token st'), frames t r) := by
  simp only [step, plain, bind_eq_ok, require_eq_ok, pure_eq_ok, Prod.exists, callExecute]
  refine ⟨t, hr, (), by rw [ht]; rfl, v, moveCoins_nil.mpr rfl, v.setState t adm (.token st'), frames t r,
    ⟨(), hm, ?_⟩, by simp only [replyFrame, List.append_nil]⟩
  rw [ht]
  simp only [bind_eq_ok, pure_eq_ok, Prod.exists]
  exact ⟨st', r, hx, rfl⟩

/-- A message to a pair. -/
theorem step_pair_of {c : Chain} {adv : Adv} {n : Nat} {v v1 : World} {sender a : Addr} {m : ExecMsg} {funds : List Coin}
    (hr : c.api.resolve a = .ok a) {adm : Option Addr} {s s' : Pair.State} {r : Response}
    (ha : v.contracts a = some ⟨adm, .pair s⟩) (hm : m.inRange = true) (hmv : moveCoins v sender a funds = .ok v1)
    (hx : Pair.execute c.api (querier c (adv.query n) v1) a s sender funds m = .ok (s', r)) :
    step c adv n v (.msg sender (plain (.exec a m funds))) = .ok (v1.setState a adm (.pair s'), frames a r) := by
  simp only [step, plain, bind_eq_ok, require_eq_ok, pure_eq_ok, Prod.exists, callExecute]
  refine ⟨a, hr, (), by rw [ha]; rfl, v1, hmv, v1.setState a adm (.pair s'), frames a r, ⟨(), hm, ?_⟩,
    by simp only [replyFrame, List.append_nil]⟩
  rw [(moveCoins_inv hmv).contracts, ha]
  simp only [bind_eq_ok, pure_eq_ok, Prod.exists]
  exact ⟨s', r, hx, rfl⟩

namespace Token

theorem Inv.le_supply {s : TokenState} (h : Inv s) (a : Addr) : s.balances.getD0 a ≤ s.totalSupply := by
  have := AMap.total_set s.balances a 0
  have := h.total
  omega

theorem moveBal_fits {s : TokenState} (h : Inv s) {src dst : Addr} {x : Nat} (hb : x ≤ s.balances.getD0 src) :
    (moveBal s.balances src dst x).getD0 dst < B128 := by
  have h1 := moveBal_total s.balances src dst x hb
  have h2 := AMap.total_set (moveBal s.balances src dst x) dst 0
  have h3 := h.total
  have h4 := h.fits
  omega

theorem execute_transfer {api : Api} {blk : Block} {s : TokenState} {sender dst : Addr} {x : Nat} (h : Inv s) (hx : x ≠ 0)
    (hv : api.validate dst = .ok dst) (hb : x ≤ s.balances.getD0 sender) :
    execute api blk s sender (.transfer dst x) =
      .ok ({ s with balances := moveBal s.balances sender dst x }, {}) := by
  have hf := moveBal_fits h (dst := dst) hb
  simp only [moveBal, AMap.getD0_set, ↓reduceIte] at hf
  simp only [execute, transfer, bind_eq_ok, require_eq_ok, debit_eq_ok, credit_eq_ok, pure_eq_ok]
  refine ⟨(), hx, dst, hv, _, ⟨hb, rfl⟩, _, ⟨?_, rfl⟩, rfl⟩
  simpa [AMap.getD0_set] using hf

theorem execute_send {api : Api} {blk : Block} {s : TokenState} {sender dst : Addr} {x : Nat} {hk : HookMsg} (h : Inv s)
    (hx : x ≠ 0) (hv : api.validate dst = .ok dst) (hb : x ≤ s.balances.getD0 sender) :
    execute api blk s sender (.send dst x hk) =
      .ok ({ s with balances := moveBal s.balances sender dst x },
        { messages := [plain (.exec dst (.receive sender x hk) [])] }) := by
  have hf := moveBal_fits h (dst := dst) hb
  simp only [moveBal, AMap.getD0_set, ↓reduceIte] at hf
  simp only [execute, send, bind_eq_ok, require_eq_ok, debit_eq_ok, credit_eq_ok, pure_eq_ok]
  refine ⟨(), hx, dst, hv, _, ⟨hb, rfl⟩, _, ⟨?_, rfl⟩, rfl⟩
  simpa [AMap.getD0_set] using hf

theorem execute_burn {api : Api} {blk : Block} {s : TokenState} {sender : Addr} {x : Nat} (h : Inv s) (hx : x ≠ 0)
    (hb : x ≤ s.balances.getD0 sender) :
    execute api blk s sender (.burn x) =
      .ok ({ s with balances := s.balances.set sender (s.balances.getD0 sender - x),
                    totalSupply := s.totalSupply - x }, {}) := by
  have := h.le_supply sender
  simp only [execute, burn, bind_eq_ok, require_eq_ok, debit_eq_ok, Uint128.checkedSub_eq_ok, pure_eq_ok]
  exact ⟨(), hx, _, ⟨hb, rfl⟩, _, ⟨hb.trans this, rfl⟩, rfl⟩

end Token

/-- What an account holds of a halo token fits 128 bits. -/
theorem held_lt {v : World} (hv : TokensOk v) (t b : Addr) : held v (.token t) b < B128 := by
  unfold held
  split
  · rename_i h; cases h
  · rename_i t' h
    cases h
    split
    · rename_i adm st hst
      exact lt_of_le_of_lt ((hv _ _ _ hst).le_supply b) (hv _ _ _ hst).fits
    · norm_num

/-- Paying an asset works whenever there is enough of it. -/
theorem pay_live {c : Chain} (adv : Adv) (n : Nat) {v : World} {i : AssetInfo} {x : Nat} {src dst : Addr}
    (hv : TokensOk v) (hi : Honest v i) (hr : ∀ t, i = .token t → c.api.resolve t = .ok t)
    (hd : c.api.resolve dst = .ok dst) (hx : x ≠ 0) (hb : x ≤ held v i src) :
    ∃ v', step c adv n v (.msg src (plain (({ info := i, amount := x } : Asset).intoMsg dst))) = .ok (v', []) := by
  cases i with
  | native d =>
    simp only [Asset.intoMsg, step, plain, bind_eq_ok, require_eq_ok, pure_eq_ok, moveCoins, moveCoinsLoop, moveCoin]
    exact ⟨_, (), by simp, dst, hd, _, ⟨(), by simp, _, ⟨(), hx, (), hb, rfl⟩, rfl⟩, rfl⟩
  | token t =>
    obtain ⟨adm, st, hst⟩ := hi t rfl
    rw [held_token hst] at hb
    have := (hv _ _ _ hst).le_supply src
    have := (hv _ _ _ hst).fits
    exact ⟨_, step_token_of (hr t rfl) hst (by simp only [ExecMsg.inRange, decide_eq_true_eq]; omega)
      (Token.execute_transfer (hv _ _ _ hst) hx (validate_of_resolve hd) hb)⟩

/-- Reserve queries are answered. -/
theorem queryPool_live {c : Chain} {q : Querier} {v : World} {i : AssetInfo} {b : Addr} (hi : Honest v i)
    (hr : ∀ t, i = .token t → c.api.resolve t = .ok t) (hb : c.api.resolve b = .ok b) (hlt : held v i b < B128) :
    i.queryPool (querier c q v) c.api b = .ok (held v i b) := by
  cases i with
  | native d =>
    simp only [AssetInfo.queryPool, querier, baseQuerier, chk128, bind_eq_ok, require_eq_ok, pure_eq_ok, Except.ok.injEq]
    exact ⟨_, rfl, (), hlt, rfl⟩
  | token t =>
    obtain ⟨adm, st, hst⟩ := hi t rfl
    rw [held_token hst] at hlt ⊢
    simp only [AssetInfo.queryPool, querier, baseQuerier, lookState, bind_eq_ok, okOr_eq_ok, pure_eq_ok]
    refine ⟨t, validate_of_resolve (hr t rfl), _, ⟨t, hr t rfl, _, hst, rfl⟩, ?_⟩
    simp only [chk128, Token.queryBalance, bind_eq_ok, require_eq_ok, pure_eq_ok]
    exact ⟨_, ⟨b, validate_of_resolve hb, rfl⟩, (), hlt, rfl⟩

/-- Token queries are answered. -/
theorem tokenInfo_live {c : Chain} {q : Querier} {v : World} {t : Addr} (hv : TokensOk v) (hr : c.api.resolve t = .ok t)
    {adm : Option Addr} {st : TokenState} (hst : v.contracts t = some ⟨adm, .token st⟩) :
    (querier c q v).tokenInfo t = .ok (Token.queryTokenInfo st) := by
  have h1 := (hv _ _ _ hst).fits
  have h2 := (hv _ _ _ hst).decimals
  simp only [querier, baseQuerier, lookState, bind_eq_ok, okOr_eq_ok, pure_eq_ok]
  refine ⟨_, ⟨t, hr, _, hst, rfl⟩, ?_⟩
  simp only [chkTI, bind_eq_ok, require_eq_ok, pure_eq_ok, Except.ok.injEq]
  exact ⟨_, rfl, (), ⟨h1, by simp only [Token.queryTokenInfo]; omega⟩, rfl⟩

namespace PairSite
variable {c : Chain} {k : PairSite}

theorem Good.pools_live {q : Querier} {v : World} (hg : k.Good v) (hx : k.Ctx c) (hra : c.api.resolve k.a = .ok k.a)
    (h0 : held v k.i0 k.a < B128) (h1 : held v k.i1 k.a < B128) :
    k.s.queryPools (querier c q v) c.api k.a = .ok (⟨k.i0, held v k.i0 k.a⟩, ⟨k.i1, held v k.i1 k.a⟩) :=
  queryPools_eq_ok.mpr ⟨hx.info0, hx.info1,
    queryPool_live hg.asset0 (fun _ ht => hx.resolve_of (.inl rfl) ht) hra h0,
    queryPool_live hg.asset1 (fun _ ht => hx.resolve_of (.inr rfl) ht) hra h1⟩

/-- A withdrawal with two positive refunds goes through. -/
theorem Good.withdraw_live (adv : Adv) (n : Nat) {v : World} {S : Addr} {x : Nat} (hv : TokensOk v) (hg : k.Good v)
    (hx : k.Ctx c) (hra : c.api.resolve k.a = .ok k.a) (hS : c.api.resolve S = .ok S) (hSa : S ≠ k.a)
    (h0 : held v k.i0 k.a < B128) (h1 : held v k.i1 k.a < B128) (hx0 : x ≠ 0) (hb : x ≤ held v (.token k.lt) S)
    (p0 : refund (held v k.i0 k.a) x (supplyAt v k.lt) ≠ 0) (p1 : refund (held v k.i1 k.a) x (supplyAt v k.lt) ≠ 0) :
    ∃ n' v', run c adv (n + 5) v [.msg S (plain (.exec k.lt (.send k.a x .withdrawLiquidity) []))] = .ok (n', v') := by
  obtain ⟨st, hst, hmint⟩ := hg.lp
  have hinv := hv _ _ _ hst
  rw [held_token hst] at hb
  have hle := hinv.le_supply S
  have hfit := hinv.fits
  have hxf := (xfer_token (v := v) (dst := k.a) hst hx0 hb).flow hSa
  have hs1 := step_token_of (adv := adv) (n := n + 4) (sender := S) hx.resolveLp hst
    (by simp only [ExecMsg.inRange, decide_eq_true_eq]; omega)
    (Token.execute_send (blk := v.block) (hk := .withdrawLiquidity) hinv hx0 (validate_of_resolve hra) hb)
  have hsup : supplyAt v k.lt = st.totalSupply := supplyAt_token hst
  generalize hv1 : v.setState k.lt none (.token { st with balances := Token.moveBal st.balances S k.a x }) = v1 at hxf hs1
  have hg1 := hg.keep hxf.keep
  have hv1' : TokensOk v1 := hv.step (step_inv hs1)
  have a0 := hxf.other _ hx.lp0 k.a
  have a1 := hxf.other _ hx.lp1 k.a
  obtain ⟨st1, hst1, _⟩ := hg1.lp
  have hsup1 : st1.totalSupply = st.totalSupply := by
    rw [← supplyAt_token hst1, hxf.keep.supply, hsup]
  have hT : st.totalSupply ≠ 0 := by omega
  have hratio : x * DF / st.totalSupply ≤ DF :=
    Nat.div_le_of_le_mul (by rw [Nat.mul_comm]; exact Nat.mul_le_mul_left _ (hb.trans hle) |>.trans (by rw [Nat.mul_comm]))
  have hDF : DF < B128 := by norm_num [DF]
  have hD : DF = 10 ^ 18 := by norm_num [DF]
  have hrf : ∀ r, r < B128 → Uint128.mulDecimal r (x * DF / st.totalSupply) = .ok (refund r x (supplyAt v k.lt)) ∧
      refund r x (supplyAt v k.lt) ≤ r := by
    intro r hr
    have e : refund r x (supplyAt v k.lt) = r * (x * DF / st.totalSupply) / DF := by rw [hsup, hD]; rfl
    have : r * (x * DF / st.totalSupply) / DF ≤ r :=
      Nat.div_le_of_le_mul (by rw [Nat.mul_comm DF]; exact Nat.mul_le_mul_left _ hratio)
    rw [e]
    exact ⟨Uint128.mulDecimal_eq_ok.mpr ⟨by omega, rfl⟩, this⟩
  have hex : ∀ q, Pair.execute c.api (querier c q v1) k.a k.s k.lt [] (.receive S x .withdrawLiquidity) = .ok (k.s, _) :=
    fun q => Pair.receive_withdraw_of (funds := []) (hx.law.canon_human _ _ hx.lp) (validate_of_resolve hS)
      (p0 := ⟨k.i0, held v k.i0 k.a⟩) (p1 := ⟨k.i1, held v k.i1 k.a⟩) (lt := k.lt) (ti := Token.queryTokenInfo st1)
      (ratio := x * DF / st.totalSupply) (r0 := refund (held v k.i0 k.a) x (supplyAt v k.lt))
      (r1 := refund (held v k.i1 k.a) x (supplyAt v k.lt))
      ⟨by rw [← a0, ← a1]; exact hg1.pools_live hx hra (by omega) (by omega), hx.lp, tokenInfo_live hv1' hx.resolveLp hst1,
        Uint128.decFromRatio_eq_ok.mpr ⟨by simpa [Token.queryTokenInfo, hsup1] using hT,
          by simp only [Token.queryTokenInfo, hsup1]; omega, by simp only [Token.queryTokenInfo, hsup1]⟩,
        (hrf _ h0).1, (hrf _ h1).1, rfl⟩
  have hs2 := step_pair_of (n := n + 3) (adv := adv) (sender := k.lt) (funds := []) hra hg1.pair
    (by simp only [ExecMsg.inRange, HookMsg.inRange, Bool.and_true, decide_eq_true_eq]; omega) (moveCoins_nil.mpr rfl) (hex _)
  rw [setState_self_eq hg1.pair] at hs2
  obtain ⟨v2, hs3⟩ := pay_live (c := c) adv (n + 2) (src := k.a) (dst := S) hv1' hg1.asset0
    (fun _ ht => hx.resolve_of (.inl rfl) ht) hS p0 (by rw [a0]; exact (hrf _ h0).2)
  obtain ⟨_, x2⟩ := xfer_pay hg1.asset0 (fun _ ht => hx.resolve_of (.inl rfl) ht) hS (step_inv hs3)
  have hg2 := hg1.keep x2.keep
  have hv2 := hv1'.step (step_inv hs3)
  have b1 := x2.other _ (Ne.symm hx.ne) k.a
  obtain ⟨v3, hs4⟩ := pay_live (c := c) adv (n + 1) (src := k.a) (dst := S) hv2 hg2.asset1
    (fun _ ht => hx.resolve_of (.inr rfl) ht) hS p1 (by rw [b1, a1]; exact (hrf _ h1).2)
  obtain ⟨_, x3⟩ := xfer_pay hg2.asset1 (fun _ ht => hx.resolve_of (.inr rfl) ht) hS (step_inv hs4)
  have hg3 := hg2.keep x3.keep
  have hv3 := hv2.step (step_inv hs4)
  obtain ⟨st3, hst3, _⟩ := hg3.lp
  have hb3 : x ≤ st3.balances.getD0 k.a := by
    have l3 := x3.other _ (Ne.symm hx.lp1) k.a
    have l2 := x2.other _ (Ne.symm hx.lp0) k.a
    have l1 := hxf.dst_bal
    rw [held_token hst3] at l3
    omega
  have hs5 := step_token_of (adv := adv) (n := n) (sender := k.a) hx.resolveLp hst3
    (by simp only [ExecMsg.inRange, decide_eq_true_eq]; omega)
    (Token.execute_burn (blk := v3.block) (hv3 _ _ _ hst3) hx0 hb3)
  exact ⟨n, _, run_cons_of hs1 (run_cons_of hs2 (run_cons_of hs3 (run_cons_of hs4 (run_cons_of hs5 run_nil))))⟩

/-- The pair's decimals of the offered and of the asked asset, when `i` is offered. -/
def decimals (k : PairSite) (i : AssetInfo) : Nat × Nat :=
  if i = k.i0 then k.s.assetDecimals else (k.s.assetDecimals.2, k.s.assetDecimals.1)

/-- A swap request is accepted if the price can be computed and the spread check passes. -/
theorem Good.swap_answer {q : Querier} {v : World} (hg : k.Good v) (hx : k.Ctx c) (hra : c.api.resolve k.a = .ok k.a)
    {t : Addr} {j : AssetInfo} (hd : k.Dir (.token t) j) {x ret sp cm : Nat} {bp ms : Option Nat} {dst : Option Str}
    {sender : Str} (h0 : held v (.token t) k.a < B128) (h1 : held v j k.a < B128) (hle : x ≤ held v (.token t) k.a)
    (hp : Pair.computeSwap (held v (.token t) k.a - x) (held v j k.a) x = .ok (ret, sp, cm))
    (hsp : Pair.assertMaxSpread bp ms x ret sp (k.decimals (.token t)).1 (k.decimals (.token t)).2 = .ok ())
    (hdst : ∀ s, dst = some s → c.api.validate s = .ok s) :
    Pair.execute c.api (querier c q v) k.a k.s t [] (.receive sender x (.swap bp ms dst)) =
      .ok (k.s, { messages := if ret ≠ 0 then [plain (({ info := j, amount := ret } : Asset).intoMsg (dst.getD sender))] else [],
                  events := [.swap sender (dst.getD sender) (.token t) j x ret sp cm] }) := by
  refine Pair.receive_swap_of (funds := []) (o := ⟨.token t, held v (.token t) k.a⟩) (a := ⟨j, held v j k.a⟩)
    (od := (k.decimals (.token t)).1) (ad := (k.decimals (.token t)).2) hdst ⟨?_, rfl, hle, hp, hsp, rfl⟩
  have hne := hd.ne hx
  rcases hd with ⟨d0, d1⟩ | ⟨d0, d1⟩
  · left
    have := hg.pools_live (q := q) hx hra (by rw [d0]; exact h0) (by rw [d1]; exact h1)
    rw [d0, d1] at this
    exact ⟨this, by simp [decimals, d0], by simp [decimals, d0]⟩
  · right
    have := hg.pools_live (q := q) hx hra (by rw [d1]; exact h1) (by rw [d0]; exact h0)
    rw [d0, d1] at this
    exact ⟨this, by simp [decimals, d1, hne], by simp [decimals, d1, hne], hne⟩

/-- A swap request that is accepted was within the limits. -/
theorem Good.swap_limits {q : Querier} {v : World} {t : Addr} {sender : Str} {x : Nat} {bp ms : Option Nat}
    {dst : Option Str} {s' : Pair.State} {r : Response} (hg : k.Good v) (hx : k.Ctx c) {j : AssetInfo}
    (hd : k.Dir (.token t) j)
    (h : Pair.receiveCw20 c.api (querier c q v) k.a k.s t [] sender x (.swap bp ms dst) = .ok (s', r)) :
    (∀ s, dst = some s → c.api.validate s = .ok s) ∧ ∃ ret sp cm,
      Pair.computeSwap (held v (.token t) k.a - x) (held v j k.a) x = .ok (ret, sp, cm) ∧
      Pair.assertMaxSpread bp ms x ret sp (k.decimals (.token t)).1 (k.decimals (.token t)).2 = .ok () := by
  obtain ⟨rfl, hv, o, a, od, ad, ret, sp, cm, hs⟩ := Pair.receive_swap_inv (funds := []) h
  refine ⟨hv, ret, sp, cm, ?_⟩
  have hio : o.info = .token t := hs.h_info.symm
  have hpr : Pair.computeSwap (o.amount - x) a.amount x = .ok (ret, sp, cm) := hs.h_price
  have hsp : Pair.assertMaxSpread bp ms x ret sp od ad = .ok () := hs.h_spread
  have hne := hd.ne hx
  rcases hs.h_pools with ⟨hq, rfl, rfl⟩ | ⟨hq, rfl, rfl, _⟩
  · obtain ⟨e0, e1, a0, a1, _, _⟩ := hg.pools hx hq
    rcases hd with ⟨d0, d1⟩ | ⟨d0, d1⟩
    · rw [d0] at a0
      rw [d1] at a1
      rw [a0, a1] at hpr
      exact ⟨hpr, by simpa [decimals, d0] using hsp⟩
    · exact absurd ((e0.symm.trans hio).trans d0.symm) hx.ne
  · obtain ⟨e0, e1, a0, a1, _, _⟩ := hg.pools hx hq
    rcases hd with ⟨d0, d1⟩ | ⟨d0, d1⟩
    · exact absurd (d0.trans (e1.symm.trans hio).symm) hx.ne
    · rw [d0] at a1
      rw [d1] at a0
      rw [a0, a1] at hpr
      exact ⟨hpr, by simpa [decimals, d1, hne] using hsp⟩

/-- What a successful swap says about the state it started in. -/
theorem Good.swap_needs {adv : Adv} {n n' : Nat} {v v' : World} {S t : Addr} {x : Nat} {bp ms : Option Nat}
    {dst : Option Str} (hg : k.Good v) (hx : k.Ctx c) (hra : c.api.resolve k.a = .ok k.a) (hSa : S ≠ k.a)
    {j : AssetInfo} (hd : k.Dir (.token t) j)
    (h : run c adv n v [.msg S (plain (.exec t (.send k.a x (.swap bp ms dst)) []))] = .ok (n', v')) :
    x ≠ 0 ∧ x ≤ held v (.token t) S ∧ (HookMsg.swap bp ms dst).inRange = true ∧
    (∀ s, dst = some s → c.api.validate s = .ok s) ∧ ∃ ret sp cm,
      Pair.computeSwap (held v (.token t) k.a) (held v j k.a) x = .ok (ret, sp, cm) ∧
      Pair.assertMaxSpread bp ms x ret sp (k.decimals (.token t)).1 (k.decimals (.token t)).2 = .ok () := by
  obtain ⟨m, v1, rfl, hxf, hr⟩ := send_inv (hg.honest hd.fst) (hx.resolve_of hd.fst rfl) h
  have hg1 := hg.keep hxf.keep
  obtain ⟨m2, v2, fs2, rfl, hs2, hr2⟩ := run_cons_inv hr
  obtain ⟨w1, s', r, hmv, hir, hex, rfl, rfl⟩ := hg1.exec hra (step_inv hs2)
  rw [moveCoins_nil] at hmv
  subst hmv
  obtain ⟨h1, ret, sp, cm, h2, h3⟩ := hg1.swap_limits hx hd hex
  simp only [ExecMsg.inRange, Bool.and_eq_true] at hir
  rw [(hxf.bal hSa).2, hxf.other j (Ne.symm (hd.ne hx)), Nat.add_sub_cancel] at h2
  exact ⟨hxf.pos, hxf.le, hir.2, h1, ret, sp, cm, h2, h3⟩

/-- A swap whose price can be computed and whose spread is accepted goes through. -/
theorem Good.swap_live (adv : Adv) (n : Nat) {v : World} {S t : Addr} {x ret sp cm : Nat} {bp ms : Option Nat}
    {dst : Option Str} (hv : TokensOk v) (hg : k.Good v)
    (hx : k.Ctx c) (hra : c.api.resolve k.a = .ok k.a) (hS : c.api.resolve S = .ok S) (hSa : S ≠ k.a)
    {j : AssetInfo} (hd : k.Dir (.token t) j) (hj : held v j k.a < B128) (hx0 : x ≠ 0) (hb : x ≤ held v (.token t) S)
    (hdst : ∀ s, dst = some s → c.api.validate s = .ok s) (hrg : (HookMsg.swap bp ms dst).inRange = true)
    (hp : Pair.computeSwap (held v (.token t) k.a) (held v j k.a) x = .ok (ret, sp, cm)) (hret : ret ≤ held v j k.a)
    (hsp : Pair.assertMaxSpread bp ms x ret sp (k.decimals (.token t)).1 (k.decimals (.token t)).2 = .ok ()) :
    ∃ n' v', n ≤ n' ∧
      run c adv (n + 3) v [.msg S (plain (.exec t (.send k.a x (.swap bp ms dst)) []))] = .ok (n', v') := by
  obtain ⟨adm, st, hst⟩ := hg.honest hd.fst t rfl
  have hinv := hv _ _ _ hst
  rw [held_token hst] at hb
  have hle := hinv.le_supply S
  have hfit := hinv.fits
  have hxf := (xfer_token (v := v) (dst := k.a) hst hx0 hb).flow hSa
  have hs1 := step_token_of (adv := adv) (n := n + 2) (sender := S) (hx.resolve_of hd.fst rfl) hst
    (by simp only [ExecMsg.inRange, decide_eq_true_eq]; omega)
    (Token.execute_send (blk := v.block) (hk := .swap bp ms dst) hinv hx0 (validate_of_resolve hra) hb)
  generalize hv1 : v.setState t adm (.token { st with balances := Token.moveBal st.balances S k.a x }) = v1 at hxf hs1
  have hg1 := hg.keep hxf.keep
  have hv1' : TokensOk v1 := hv.step (step_inv hs1)
  have a0 := hxf.dst_bal
  have a1 := hxf.other j (Ne.symm (hd.ne hx)) k.a
  have hex := hg1.swap_answer (q := adv.query (n + 1)) (sender := S) hx hra hd (x := x) (ret := ret) (sp := sp) (cm := cm)
    (bp := bp) (ms := ms) (dst := dst) (held_lt hv1' _ _) (by rw [a1]; exact hj) (by omega)
    (by rw [a0, a1, Nat.add_sub_cancel]; exact hp) hsp hdst
  have hs2 := step_pair_of (n := n + 1) (adv := adv) (sender := t) (funds := []) hra hg1.pair
    (by simp only [ExecMsg.inRange, hrg, Bool.and_true, decide_eq_true_eq]; omega) (moveCoins_nil.mpr rfl) hex
  rw [setState_self_eq hg1.pair] at hs2
  by_cases h0 : ret = 0
  · rw [if_neg (by simpa using h0)] at hs2
    exact ⟨_, _, Nat.le_succ n, run_cons_of hs1 (run_cons_of hs2 run_nil)⟩
  · rw [if_pos h0] at hs2
    have hdst' : c.api.resolve (dst.getD S) = .ok (dst.getD S) := by
      cases dst with
      | none => exact hS
      | some d => exact resolve_of_validate (hdst d rfl)
    obtain ⟨v2, hs3⟩ := pay_live (c := c) adv n (src := k.a) (dst := dst.getD S) hv1' (hg1.honest hd.snd)
      (fun _ ht => hx.resolve_of hd.snd ht) hdst' h0 (by rw [a1]; exact hret)
    exact ⟨_, _, Nat.le_refl n, run_cons_of hs1 (run_cons_of hs2 (run_cons_of hs3 run_nil))⟩

end PairSite

/-- Coins that are there can be moved. -/
theorem moveCoins_live {v : World} {src dst : Addr} {funds : List Coin} (hn : (funds.map Coin.denom).Nodup)
    (hp : ∀ f ∈ funds, f.amount ≠ 0) (hb : ∀ f ∈ funds, f.amount ≤ v.bal f.denom src) :
    ∃ v', moveCoins v src dst funds = .ok v' := by
  have key : ∃ v', moveCoinsLoop src dst funds v = .ok v' := by
    induction funds generalizing v with
    | nil => exact ⟨v, rfl⟩
    | cons f t ih =>
      simp only [List.map_cons, List.nodup_cons] at hn
      have h1 : ∃ v1, moveCoin v src dst f = .ok v1 := by
        simp only [moveCoin, bind_eq_ok, require_eq_ok, pure_eq_ok]
        exact ⟨_, (), hp f (by simp), (), hb f (by simp), rfl⟩
      obtain ⟨v1, h1⟩ := h1
      obtain ⟨v2, h2⟩ := ih (v := v1) hn.2 (fun g hg => hp g (by simp [hg])) (fun g hg => by
        rw [(moveCoin_inv h1).2.2.2.2.2.1 g.denom src (fun e => hn.1 (e ▸ List.mem_map_of_mem hg))]
        exact hb g (by simp [hg]))
      simp only [moveCoinsLoop, bind_eq_ok]
      exact ⟨v2, v1, h1, h2⟩
  obtain ⟨v', h⟩ := key
  simp only [moveCoins, bind_eq_ok, require_eq_ok]
  exact ⟨v', (), by simpa using hn, h⟩

/-- Coins in the declared amount count as sent. -/
theorem sent_of_coinSum {x : Asset} {funds : List Coin} (hn : (funds.map Coin.denom).Nodup)
    (h : ∀ d, x.info = .native d → coinSum d funds = x.amount) : x.assertSent funds = .ok () := by
  unfold Asset.assertSent
  cases hi : x.info with
  | token t => rfl
  | native d =>
    have h' := h d hi
    clear h hi
    rename' h' => h
    simp only
    induction funds with
    | nil => simp only [List.find?_nil, require_eq_ok]; simpa [coinSum] using h.symm
    | cons f t ih =>
      simp only [List.map_cons, List.nodup_cons] at hn
      by_cases hf : f.denom = d
      · simp only [List.find?_cons, hf, decide_true, require_eq_ok]
        have : ∀ l : List Coin, d ∉ l.map Coin.denom → coinSum d l = 0 := by
          intro l
          induction l with
          | nil => intro _; rfl
          | cons g t ih =>
            intro hl
            simp only [List.map_cons, List.mem_cons, not_or] at hl
            simp [coinSum, Ne.symm hl.1, ih hl.2]
        have h0 := this t (by rw [← hf]; exact hn.1)
        simp [coinSum, hf, h0] at h
        exact h.symm
      · simp only [List.find?_cons, hf, decide_false]
        simp only [coinSum, hf, ↓reduceIte, Nat.zero_add] at h
        exact ih hn.2 h

namespace Token

/-- `spender` may take `x` tokens of `owner` now. -/
def MayTake (s : TokenState) (blk : Block) (owner spender : Addr) (x : Nat) : Prop :=
  ∃ a, s.allowances.get (owner, spender) = some a ∧ a.expires.isExpired blk = false ∧ x ≤ a.amount

theorem execute_transferFrom {api : Api} {blk : Block} {s : TokenState} {sender owner dst : Addr} {x : Nat} (h : Inv s)
    (ho : api.validate owner = .ok owner) (hv : api.validate dst = .ok dst) (hb : x ≤ s.balances.getD0 owner)
    (ha : MayTake s blk owner sender x) :
    ∃ s', execute api blk s sender (.transferFrom owner dst x) = .ok (s', {}) := by
  have hf := moveBal_fits h (dst := dst) hb
  simp only [moveBal, AMap.getD0_set, ↓reduceIte] at hf
  obtain ⟨a, h1, h2, h3⟩ := ha
  simp only [execute, transferFrom, bind_eq_ok, deduct_eq_ok, debit_eq_ok, credit_eq_ok, pure_eq_ok]
  refine ⟨_, dst, hv, owner, ho, _, ⟨a, h1, h2, h3, rfl⟩, _, ⟨hb, rfl⟩, _, ⟨?_, rfl⟩, rfl⟩
  simpa [AMap.getD0_set] using hf

theorem execute_mint {api : Api} {blk : Block} {s : TokenState} {sender dst : Addr} {x : Nat} (h : Inv s)
    (hm : s.mint = some ⟨sender, none⟩) (hx : x ≠ 0) (hv : api.validate dst = .ok dst) (hf : s.totalSupply + x < B128) :
    ∃ s', execute api blk s sender (.mint dst x) = .ok (s', {}) := by
  have := h.le_supply dst
  simp only [execute, mint, bind_eq_ok, require_eq_ok, okOr_eq_ok, getCap, hm]
  refine ⟨{ s with totalSupply := s.totalSupply + x, balances := s.balances.set dst (s.balances.getD0 dst + x) },
    (), hx, _, rfl, (), rfl, _, Uint128.add_eq_ok.mpr ⟨hf, rfl⟩, ?_⟩
  simp only [Option.bind_some, bind_eq_ok, pure_eq_ok, hm]
  exact ⟨(), trivial, dst, hv, _, credit_eq_ok.mpr ⟨by simp only; omega, rfl⟩, rfl⟩

end Token

/-- Tokens are given away: `spender` may take `x` of `i` from `owner` if `i` is a token. -/
def MayTake (v : World) (i : AssetInfo) (owner spender : Addr) (x : Nat) : Prop :=
  ∀ t, i = .token t → ∃ adm st, v.contracts t = some ⟨adm, .token st⟩ ∧ Token.MayTake st v.block owner spender x

namespace PairSite
variable {c : Chain} {k : PairSite}

theorem collect_live (adv : Adv) (n : Nat) {v : World} {i : AssetInfo} {d : Nat} {S : Addr} (hv : TokensOk v)
    (hx : k.Ctx c) (hra : c.api.resolve k.a = .ok k.a) (hS : c.api.resolve S = .ok S)
    (hi : i = k.i0 ∨ i = k.i1) (hb : i.isNative = false → d ≤ held v i S) (ha : MayTake v i S k.a d) :
    ∃ m v', n ≤ m ∧ run c adv (n + 1) v ((Pair.collectMsg k.a S i d).map (fun m => .msg k.a (plain m))) = .ok (m, v') ∧
      TokensOk v' ∧ (∀ b, i ≠ .token b → v'.contracts b = v.contracts b) ∧ v'.block = v.block := by
  cases i with
  | native dn =>
    refine ⟨n + 1, v, by omega, ?_, hv, fun _ _ => rfl, rfl⟩
    simp only [Pair.collectMsg, List.map_nil, run_nil]
  | token t =>
    obtain ⟨adm, st, hst, ht⟩ := ha t rfl
    have hb := hb rfl
    rw [held_token hst] at hb
    have h1 := (hv _ _ _ hst).le_supply S
    have h2 := (hv _ _ _ hst).fits
    obtain ⟨st', he⟩ := Token.execute_transferFrom (api := c.api) (dst := k.a) (hv _ _ _ hst) (validate_of_resolve hS)
      (validate_of_resolve hra) hb ht
    have hs := step_token_of (adv := adv) (n := n) (sender := k.a) (hx.resolve_of hi rfl) hst
      (by simp only [ExecMsg.inRange, decide_eq_true_eq]; omega) he
    refine ⟨n, _, le_refl _, run_cons_of hs run_nil, hv.step (step_inv hs), fun b hb => ?_, rfl⟩
    exact setContract_ne _ _ (fun e => hb (by rw [e]))

/-- A deposit with everything in place goes through. -/
theorem Good.deposit_live (adv : Adv) (n : Nat) {v : World} {S : Addr} {assets : Asset × Asset} {tol : Option Nat}
    {receiver : Option Str} {funds : List Coin} {d0 d1 share : Nat} (hv : TokensOk v) (hg : k.Good v) (hx : k.Ctx c)
    (hra : c.api.resolve k.a = .ok k.a) (hS : c.api.resolve S = .ok S) (hSa : S ≠ k.a)
    (hd0 : Pair.depositFor assets k.i0 = .ok d0) (hd1 : Pair.depositFor assets k.i1 = .ok d1)
    (hn : (funds.map Coin.denom).Nodup) (hp : ∀ f ∈ funds, f.amount ≠ 0) (hf : ∀ f ∈ funds, f.amount ≤ v.bal f.denom S)
    (hs0 : assets.1.assertSent funds = .ok ()) (hs1 : assets.2.assertSent funds = .ok ())
    (hrg : (ExecMsg.provideLiquidity assets tol receiver).inRange = true)
    (h0 : held v k.i0 k.a + d0 < B128) (h1 : held v k.i1 k.a + d1 < B128)
    (b0 : k.i0.isNative = false → d0 ≤ held v k.i0 S) (b1 : k.i1.isNative = false → d1 ≤ held v k.i1 S)
    (t0 : MayTake v k.i0 S k.a d0) (t1 : MayTake v k.i1 S k.a d1)
    (hsl : Pair.assertSlippageTolerance tol (d0, d1) (held v k.i0 k.a, held v k.i1 k.a) = .ok ())
    (hsh : Pair.shareFor k.s.requirements S (supplyAt v k.lt) (d0, d1) (held v k.i0 k.a, held v k.i1 k.a) = .ok share)
    (hsn : share ≠ 0) (hsf : supplyAt v k.lt + share < B128) (hr : c.api.validate (receiver.getD S) = .ok (receiver.getD S)) :
    ∃ n' v', run c adv (n + 4) v [.msg S (plain (.exec k.a (.provideLiquidity assets tol receiver) funds))] = .ok (n', v') := by
  obtain ⟨w1, hmv⟩ := moveCoins_live (dst := k.a) hn hp hf
  have hm := moveCoins_inv hmv
  have hg1 : k.Good w1 := hg.tokOnly (fun b => .inl (congrFun hm.contracts b))
  have hw1 : TokensOk w1 := fun a adm s h => hv a adm s (by rw [← hm.contracts]; exact h)
  have arrived : ∀ i d, Pair.depositFor assets i = .ok d →
      held w1 i k.a = held v i k.a + (if i.isNative then d else 0) := by
    intro i d hd
    cases i with
    | token t =>
      simp only [AssetInfo.isNative, Bool.false_eq_true, ↓reduceIte, Nat.add_zero]
      exact held_congr (fun _ h => by cases h) (fun t _ => congrFun hm.contracts t)
    | native dn =>
      have : coinSum dn funds = d := by
        rcases Pair.depositFor_eq_ok.mp hd with ⟨h1, rfl⟩ | ⟨_, h1, rfl⟩
        · exact coinSum_of_sent hn h1 hs0
        · exact coinSum_of_sent hn h1 hs1
      simp only [held, AssetInfo.isNative, ↓reduceIte]
      rw [hm.dst_bal hSa, this]
  have q0 := arrived _ _ hd0
  have q1 := arrived _ _ hd1
  have pr : ∀ i d, held w1 i k.a = held v i k.a + (if i.isNative then d else 0) →
      Pair.priorPool ⟨i, held w1 i k.a⟩ d = held v i k.a ∧ (i.isNative = true → d ≤ held w1 i k.a) := by
    intro i d hi
    cases i with
    | token t => exact ⟨by simpa [Pair.priorPool, AssetInfo.isNative] using hi, by simp [AssetInfo.isNative]⟩
    | native dn =>
      simp only [AssetInfo.isNative, ↓reduceIte] at hi
      exact ⟨by simp only [Pair.priorPool]; omega, fun _ => by omega⟩
  obtain ⟨e0, l0⟩ := pr _ _ q0
  obtain ⟨e1, l1⟩ := pr _ _ q1
  obtain ⟨st1, hst1, _⟩ := hg1.lp
  have hT : (Token.queryTokenInfo st1).totalSupply = supplyAt v k.lt := by
    rw [← supplyAt_congr (congrFun hm.contracts k.lt), supplyAt_token hst1]; rfl
  have hex : Pair.execute c.api (querier c (adv.query (n + 3)) w1) k.a k.s S funds (.provideLiquidity assets tol receiver) =
      .ok (k.s, _) := Pair.provide_of (p0 := ⟨k.i0, held w1 k.i0 k.a⟩) (p1 := ⟨k.i1, held w1 k.i1 k.a⟩) (d0 := d0) (d1 := d1)
        (lt := k.lt) (ti := Token.queryTokenInfo st1) (share := share)
      ⟨hs0, hs1, hg1.pools_live hx hra (by rw [q0]; split <;> omega) (by rw [q1]; split <;> omega), hd0, hd1, l0, l1,
        by rw [e0, e1]; exact hsl, hx.lp, tokenInfo_live hw1 hx.resolveLp hst1,
        by rw [e0, e1, hT]; exact hsh, hsn, rfl⟩
  have hst := step_pair_of (n := n + 3) (adv := adv) (sender := S) (funds := funds) hra hg.pair hrg hmv hex
  rw [hg.setState_adm hm.contracts] at hst
  have bal1 : ∀ i, i.isNative = false → held w1 i S = held v i S := by
    intro i hi
    cases i with
    | native d => cases hi
    | token t => exact held_congr (fun _ h => by cases h) (fun t _ => congrFun hm.contracts t)
  have may1 : ∀ i d, MayTake v i S k.a d → MayTake w1 i S k.a d := by
    intro i d h t ht
    obtain ⟨adm, st, h1, h2⟩ := h t ht
    exact ⟨adm, st, by rw [hm.contracts]; exact h1, by rw [hm.block]; exact h2⟩
  obtain ⟨m1, v1, le1, hr1, ok1, keep1, blk1⟩ := collect_live adv (n + 2) hw1 hx hra hS (.inl rfl)
    (fun h => by rw [bal1 _ h]; exact b0 h) (may1 _ _ t0)
  have f1 := hg1.collect_exact hx (.inl rfl) hSa hr1
  have g1 : k.Good v1 := by
    rcases f1 with ⟨_, rfl⟩ | ⟨_, f⟩
    exacts [hg1, hg1.keep f.keep]
  have o1 : held v1 k.i1 S = held w1 k.i1 S := by
    rcases f1 with ⟨_, rfl⟩ | ⟨_, f⟩
    exacts [rfl, f.other _ (Ne.symm hx.ne) S]
  have s1 : supplyAt v1 k.lt = supplyAt v k.lt := by
    rw [← supplyAt_congr (congrFun hm.contracts k.lt)]
    rcases f1 with ⟨_, rfl⟩ | ⟨_, f⟩
    exacts [rfl, f.keep.supply _]
  obtain ⟨m1, rfl⟩ : ∃ m, m1 = m + 1 := ⟨m1 - 1, by omega⟩
  obtain ⟨m2, v2, le2, hr2, ok2, keep2, blk2⟩ := collect_live adv m1 ok1 hx hra hS (.inr rfl) (d := d1)
    (fun h => by rw [o1, bal1 _ h]; exact b1 h) (by
      intro t ht
      obtain ⟨adm, st, h1, h2⟩ := may1 _ _ t1 t ht
      exact ⟨adm, st, by rw [keep1 t (fun e => hx.ne (e.trans ht.symm))]; exact h1, by rw [blk1]; exact h2⟩)
  have f2 := g1.collect_exact hx (.inr rfl) hSa hr2
  have g2 : k.Good v2 := by
    rcases f2 with ⟨_, rfl⟩ | ⟨_, f⟩
    exacts [g1, g1.keep f.keep]
  have s2 : supplyAt v2 k.lt = supplyAt v k.lt := by
    rw [← s1]
    rcases f2 with ⟨_, rfl⟩ | ⟨_, f⟩
    exacts [rfl, f.keep.supply _]
  obtain ⟨m2, rfl⟩ : ∃ m, m2 = m + 1 := ⟨m2 - 1, by omega⟩
  obtain ⟨st2, hst2, hmint⟩ := g2.lp
  rw [supplyAt_token hst2] at s2
  obtain ⟨st3, he⟩ := Token.execute_mint (api := c.api) (blk := v2.block) (ok2 _ _ _ hst2) hmint hsn hr (by omega)
  have hs3 := step_token_of (adv := adv) (n := m2) (sender := k.a) hx.resolveLp hst2
    (by simp only [ExecMsg.inRange, decide_eq_true_eq]; omega) he
  have hfr : ∀ r : Response, r.messages = (Pair.collectMsg k.a S k.i0 d0 ++ Pair.collectMsg k.a S k.i1 d1 ++
      [CosmosMsg.exec k.lt (.mint (receiver.getD S) share) []]).map plain →
      frames k.a r = (Pair.collectMsg k.a S k.i0 d0).map (fun m => .msg k.a (plain m)) ++
      ((Pair.collectMsg k.a S k.i1 d1).map (fun m => .msg k.a (plain m)) ++
        [.msg k.a (plain (.exec k.lt (.mint (receiver.getD S) share) []))]) := by
    intro r hr
    simp [frames, hr, List.map_append, Function.comp_def]
  refine ⟨m2, v2.setState k.lt none (.token st3), run_cons_of hst ?_⟩
  rw [hfr _ rfl, List.append_nil]
  exact run_append.mpr ⟨_, _, hr1, run_append.mpr ⟨_, _, hr2, run_cons_of hs3 run_nil⟩⟩

end PairSite
end Halo
