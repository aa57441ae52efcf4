import Verif.Props.Live
import Verif.Spec.Deposit
/-! # When deposits are accepted (C67) -/

namespace Halo
open _root_.Halo.Spec

theorem slippage_iff {t d0 d1 p0 p1 : Nat} (ht : t < B128) (h0 : d0 < B128) (h1 : d1 < B128) (q0 : p0 < B128)
    (q1 : p1 < B128) : Pair.assertSlippageTolerance (some t) (d0, d1) (p0, p1) = .ok () ↔ Balanced t d0 d1 p0 p1 := by
  have hD : DF = 10 ^ 18 := by norm_num [DF]
  have wide : ∀ x, x < B128 → x * 10 ^ 18 < B256 := by
    intro x hx
    have : B128 = 2 ^ 128 := rfl
    have : B256 = 2 ^ 256 := rfl
    omega
  have wide2 : ∀ x y, x < B128 → x * 10 ^ 18 / y * (10 ^ 18 - t) < B256 := by
    intro x y hx
    have e1 : x * 10 ^ 18 / y ≤ x * 10 ^ 18 := Nat.div_le_self _ _
    have e2 : 10 ^ 18 - t ≤ 10 ^ 18 := Nat.sub_le _ _
    have e3 := Nat.mul_le_mul e1 e2
    have : B128 = 2 ^ 128 := rfl
    have : B256 = 2 ^ 256 := rfl
    omega
  unfold Pair.assertSlippageTolerance
  simp only [bind_eq_ok, ofDecimal_ok (lt_trans ht (by norm_num : B128 < B256)), Except.ok.injEq, require_eq_ok,
    Dec256.one, Dec256.sub_eq_ok, Uint256.ofU128_eq, Dec256.fromRatio_eq_ok, Dec256.mul_eq_ok, hD]
  constructor
  · rintro ⟨_, rfl, _, a1, _, ⟨_, rfl⟩, _, ⟨a2, _, rfl⟩, _, ⟨_, rfl⟩, _, ⟨a3, _, rfl⟩, _, a4, _, ⟨a5, _, rfl⟩, _,
      ⟨_, rfl⟩, _, ⟨a6, _, rfl⟩, a7⟩
    exact ⟨by omega, a5, a2, a6, a3, by unfold ratio18; omega, by unfold ratio18; omega⟩
  · rintro ⟨a1, a2, a3, a4, a5, a6, a7⟩
    unfold ratio18 at a6 a7
    exact ⟨t, rfl, (), by omega, _, ⟨a1, rfl⟩, _, ⟨a3, wide _ h0, rfl⟩, _, ⟨wide2 _ _ h0, rfl⟩, _,
      ⟨a5, wide _ q0, rfl⟩, (), by omega, _, ⟨a2, wide _ h1, rfl⟩, _, ⟨wide2 _ _ h1, rfl⟩, _, ⟨a4, wide _ q1, rfl⟩, by omega⟩

theorem share_iff {req : Requirements} {S : Addr} {T d0 d1 p0 p1 s : Nat} :
    Pair.shareFor req S T (d0, d1) (p0, p1) = .ok s ↔
      Worth (S ∈ req.whitelist) req.firstAssetMinimum req.secondAssetMinimum T d0 d1 p0 p1 s := by
  have hB : B128 = 2 ^ 128 := rfl
  unfold Pair.shareFor
  split
  · rename_i hT
    simp only [bind_eq_ok, require_eq_ok, Uint128.mulChk_eq_ok, pure_eq_ok, Uint128.isqrt]
    constructor
    · rintro ⟨_, a1, _, a2, _, ⟨a3, rfl⟩, rfl⟩
      exact ⟨fun _ => ⟨by simpa using a1, by omega, by omega, by omega, Nat.sqrt_le _, Nat.lt_succ_sqrt _⟩,
        fun h => absurd hT h⟩
    · intro h
      obtain ⟨a1, a2, a3, a4, a5, a6⟩ := h.first hT
      exact ⟨(), by simpa using a1, (), by omega, _, ⟨by omega, rfl⟩, (Nat.eq_sqrt.mpr ⟨a5, a6⟩).symm⟩
  · rename_i hT
    simp only [bind_eq_ok, Uint128.multiplyRatio_eq_ok, pure_eq_ok]
    constructor
    · rintro ⟨_, ⟨a1, a2, rfl⟩, _, ⟨a3, a4, rfl⟩, rfl⟩
      exact ⟨fun h => absurd h hT, fun _ => ⟨a1, a3, by omega, by omega, rfl⟩⟩
    · intro h
      obtain ⟨a1, a2, a3, a4, rfl⟩ := h.later hT
      exact ⟨_, ⟨a1, by omega, rfl⟩, _, ⟨a2, by omega, rfl⟩, rfl⟩

namespace PairSite
variable {c : Chain} {k : PairSite}

/-- Collecting a token takes an allowance. -/
theorem Good.collect_may {adv : Adv} {n n' : Nat} {v v' : World} {i : AssetInfo} {d : Nat} {S : Addr} (hg : k.Good v)
    (hx : k.Ctx c) (hi : i = k.i0 ∨ i = k.i1)
    (h : Halo.run c adv n v ((Pair.collectMsg k.a S i d).map (fun m => .msg k.a (plain m))) = .ok (n', v')) :
    MayTake v i S k.a d ∧ (∀ b, i ≠ .token b → v'.contracts b = v.contracts b) ∧ v'.block = v.block := by
  cases i with
  | native dn =>
    simp only [Pair.collectMsg, List.map_nil, run_nil, Except.ok.injEq, Prod.mk.injEq] at h
    rw [← h.2]
    exact ⟨(fun _ h => by cases h), fun _ _ => rfl, rfl⟩
  | token t =>
    simp only [Pair.collectMsg, List.map_cons, List.map_nil] at h
    obtain ⟨m, v1, fs1, rfl, hs, hr⟩ := run_cons_inv h
    obtain ⟨adm, st, hst⟩ := hg.honest hi t rfl
    obtain ⟨st', r, he, rfl, rfl⟩ := tok_exec (hx.resolve_of hi rfl) hst (step_inv hs)
    cases he with
    | transferFrom _ _ _ al hv ho ha hex hle hb hf =>
      simp only [frames, List.map_nil, List.append_nil, run_nil, Except.ok.injEq, Prod.mk.injEq] at hr
      rw [← hr.2]
      refine ⟨fun t' ht' => ?_, fun b hb => setContract_ne _ _ (fun e => hb (by rw [e])), rfl⟩
      cases ht'
      exact ⟨adm, st, hst, al, ha, hex, hle⟩

/-- What a deposit that goes through must have found. -/
theorem Good.deposit_needs {adv : Adv} {n n' : Nat} {v v' : World} {S : Addr} {assets : Asset × Asset} {tol : Option Nat}
    {receiver : Option Str} {funds : List Coin}
    (hg : k.Good v) (hx : k.Ctx c) (hra : c.api.resolve k.a = .ok k.a) (hSa : S ≠ k.a)
    (h : Halo.run c adv n v [.msg S (plain (.exec k.a (.provideLiquidity assets tol receiver) funds))] = .ok (n', v')) :
    ∃ d0 d1, Pair.depositFor assets k.i0 = .ok d0 ∧ Pair.depositFor assets k.i1 = .ok d1 ∧ (funds.map Coin.denom).Nodup ∧
      (∀ f ∈ funds, f.amount ≠ 0) ∧ (∀ f ∈ funds, f.amount ≤ v.bal f.denom S) ∧
      (∀ d, k.i0 = .native d → coinSum d funds = d0) ∧ (∀ d, k.i1 = .native d → coinSum d funds = d1) ∧
      (∀ d, k.i0 = .native d → v.bal d k.a + d0 < B128) ∧ (∀ d, k.i1 = .native d → v.bal d k.a + d1 < B128) ∧
      MayTake v k.i0 S k.a d0 ∧ MayTake v k.i1 S k.a d1 ∧ c.api.validate (receiver.getD S) = .ok (receiver.getD S) := by
  obtain ⟨m, v0, fs0, rfl, hs0, hr⟩ := run_cons_inv h
  obtain ⟨w1, s', r, hmv, hir, hex, rfl, rfl⟩ := hg.exec hra (step_inv hs0)
  have hm := moveCoins_inv hmv
  have hnd : (funds.map Coin.denom).Nodup := by
    unfold moveCoins at hmv
    simp only [bind_eq_ok, require_eq_ok] at hmv
    obtain ⟨_, h1, _⟩ := hmv
    simpa using h1
  have hpos : ∀ f ∈ funds, f.amount ≠ 0 := by
    unfold moveCoins at hmv
    simp only [bind_eq_ok, require_eq_ok] at hmv
    obtain ⟨_, _, h1⟩ := hmv
    exact loop_pos h1
  have hg1 : k.Good w1 := hg.tokOnly (fun b => .inl (congrFun hm.contracts b))
  simp only [Pair.execute] at hex
  obtain ⟨rfl, p0, p1, d0, d1, lt, ti, share, hs⟩ := Pair.provide_inv hex
  rw [hg.setState_adm hm.contracts] at hr
  have hlt := hs.h_lt
  rw [hx.lp] at hlt
  cases hlt
  obtain ⟨e0, e1, a0, a1, l0, l1⟩ := hg1.pools hx hs.h_pools
  have hd0 := hs.h_d0
  have hd1 := hs.h_d1
  rw [e0] at hd0
  rw [e1] at hd1
  have sent : ∀ i d, Pair.depositFor assets i = .ok d → ∀ dn, i = .native dn → coinSum dn funds = d := by
    rintro i d hd dn rfl
    rcases Pair.depositFor_eq_ok.mp hd with ⟨h1, rfl⟩ | ⟨_, h1, rfl⟩
    · exact coinSum_of_sent hnd h1 hs.h_sent0
    · exact coinSum_of_sent hnd h1 hs.h_sent1
  have fit : ∀ i d, Pair.depositFor assets i = .ok d → held w1 i k.a < B128 → ∀ dn, i = .native dn →
      v.bal dn k.a + d < B128 := by
    rintro i d hd hl dn rfl
    have h1 := sent _ _ hd dn rfl
    have h2 := hm.dst_bal hSa dn
    simp only [held] at hl
    omega
  have hfr : frames k.a r = (Pair.collectMsg k.a S k.i0 d0).map (fun m => .msg k.a (plain m)) ++
      ((Pair.collectMsg k.a S k.i1 d1).map (fun m => .msg k.a (plain m)) ++
        [.msg k.a (plain (.exec k.lt (.mint (receiver.getD S) share) []))]) := by
    rw [hs.h_resp, e0, e1]
    simp [frames, List.map_append, Function.comp_def]
  rw [hfr] at hr
  simp only [replyFrame, List.append_nil] at hr
  obtain ⟨m1, v1, hr1, hr2⟩ := run_append.mp hr
  obtain ⟨m2, v2, hr2, hr3⟩ := run_append.mp hr2
  have f1 := hg1.collect_exact hx (.inl rfl) hSa hr1
  have g1 : k.Good v1 := by
    rcases f1 with ⟨_, rfl⟩ | ⟨_, f⟩
    exacts [hg1, hg1.keep f.keep]
  have f2 := g1.collect_exact hx (.inr rfl) hSa hr2
  have g2 : k.Good v2 := by
    rcases f2 with ⟨_, rfl⟩ | ⟨_, f⟩
    exacts [g1, g1.keep f.keep]
  obtain ⟨y1, o1, b1⟩ := hg1.collect_may hx (.inl rfl) hr1
  obtain ⟨y2, _, _⟩ := g1.collect_may hx (.inr rfl) hr2
  obtain ⟨m3, v3, fs3, rfl, hs3, hr3⟩ := run_cons_inv hr3
  obtain ⟨st2, hl2, _⟩ := g2.lp
  obtain ⟨st3, r3, he, rfl, rfl⟩ := tok_exec hx.resolveLp hl2 (step_inv hs3)
  have back : ∀ i d, MayTake w1 i S k.a d → MayTake v i S k.a d := by
    intro i d h t ht
    obtain ⟨adm, st, h1, h2⟩ := h t ht
    exact ⟨adm, st, by rw [← hm.contracts]; exact h1, by rw [← hm.block]; exact h2⟩
  cases he with
  | mint _ _ md hx0 hv hmd hsd hf hcap hb =>
    refine ⟨d0, d1, hd0, hd1, hnd, hpos, fun f hf => hm.le_src f hf hSa, sent _ _ hd0, sent _ _ hd1,
      fit _ _ hd0 (a0 ▸ l0), fit _ _ hd1 (a1 ▸ l1), back _ _ y1, back _ _ (fun t ht => ?_), hv⟩
    obtain ⟨adm, st, h1, h2⟩ := y2 t ht
    exact ⟨adm, st, by rw [← o1 t (fun e => hx.ne (e.trans ht.symm))]; exact h1, by rw [← b1]; exact h2⟩
where
  loop_pos {src dst : Addr} {funds : List Coin} {v w : World} (h : moveCoinsLoop src dst funds v = .ok w) :
      ∀ f ∈ funds, f.amount ≠ 0 := by
    induction funds generalizing v with
    | nil => simp
    | cons f t ih =>
      simp only [moveCoinsLoop, moveCoin, bind_eq_ok, require_eq_ok, pure_eq_ok] at h
      obtain ⟨_, ⟨_, h2, _, _, rfl⟩, h3⟩ := h
      intro g hg
      rcases List.mem_cons.mp hg with rfl | hg
      · simpa using h2
      · exact ih h3 g hg

end PairSite

/-- Everything a deposit by `S` needs: the assets are the pair's, the user has the coins and tokens ready, the numbers fit,
the receiver is an address, the tolerance (if any) is kept and the deposit is worth `s > 0` LP tokens. -/
structure Acceptable (c : Chain) (k : PairSite) (w : World) (S : Addr) (assets : Asset × Asset) (tol : Option Nat)
    (receiver : Option Str) (funds : List Coin) (d0 d1 s : Nat) : Prop where
  names : Names k assets d0 d1
  ready : Ready k S funds d0 d1 w
  fits : FitsWith k d0 d1 w
  range : ∀ t, tol = some t → t < 2 ^ 128
  receiver : ∀ r, receiver = some r → c.api.validate r = .ok r
  tolerance : ∀ t, tol = some t → Balanced t d0 d1 (held w k.i0 k.a) (held w k.i1 k.a)
  worth : Worth (S ∈ k.s.requirements.whitelist) k.s.requirements.firstAssetMinimum k.s.requirements.secondAssetMinimum
    (supplyAt w k.lt) d0 d1 (held w k.i0 k.a) (held w k.i1 k.a) s
  pos : s ≠ 0
  supply : supplyAt w k.lt + s < 2 ^ 128

namespace PairSite
variable {c : Chain} {k : PairSite}

/-- A deposit that goes through was acceptable, and did exactly what it should. -/
theorem Good.deposit_done {v v' : World} (hg : k.Good v) (hv : TokensOk v) (hx : k.Ctx c) (hra : c.api.resolve k.a = .ok k.a)
    {assets : Asset × Asset} {tol : Option Nat} {receiver : Option Str} {funds : List Coin} {adv : Adv} {n n' : Nat} {S : Addr}
    (hSa : S ≠ k.a) (hr : Halo.run c adv n v [.msg S (plain (.exec k.a (.provideLiquidity assets tol receiver) funds))] = .ok (n', v')) :
    ∃ d0 d1 s, Acceptable c k v S assets tol receiver funds d0 d1 s ∧
      Deposited k S (receiver.getD S) funds d0 d1 s v v' := by
  obtain ⟨d0, d1, s, hn, hpos, hk', hrange, hsl, hsh, hd⟩ := hg.deposited hx hra hSa hr
  obtain ⟨e0, e1, q0, q1, nd, ps, bal, c0, c1, f0, f1, y0, y1, hrc⟩ :=
    hg.deposit_needs hx hra hSa hr
  have he : e0 = d0 ∧ e1 = d1 := by
    have hne := hx.ne
    rcases hn with rfl | rfl
    · have a0 : Pair.depositFor (⟨k.i0, d0⟩, ⟨k.i1, d1⟩) k.i0 = .ok d0 := Pair.depositFor_eq_ok.mpr (.inl ⟨rfl, rfl⟩)
      have a1 : Pair.depositFor (⟨k.i0, d0⟩, ⟨k.i1, d1⟩) k.i1 = .ok d1 := Pair.depositFor_eq_ok.mpr (.inr ⟨hne, rfl, rfl⟩)
      exact ⟨Except.ok.inj (q0.symm.trans a0), Except.ok.inj (q1.symm.trans a1)⟩
    · have a0 : Pair.depositFor (⟨k.i1, d1⟩, ⟨k.i0, d0⟩) k.i0 = .ok d0 :=
        Pair.depositFor_eq_ok.mpr (.inr ⟨Ne.symm hne, rfl, rfl⟩)
      have a1 : Pair.depositFor (⟨k.i1, d1⟩, ⟨k.i0, d0⟩) k.i1 = .ok d1 := Pair.depositFor_eq_ok.mpr (.inl ⟨rfl, rfl⟩)
      exact ⟨Except.ok.inj (q0.symm.trans a0), Except.ok.inj (q1.symm.trans a1)⟩
  obtain ⟨rfl, rfl⟩ := he
  have u0 := hd.user0
  have u1 := hd.user1
  have hr' : Ready k S funds e0 e1 v := ⟨nd, ps, bal, c0, c1, by omega, by omega, y0, y1⟩
  have l0 := held_add_lt hv (Ne.symm hSa) f0 hr'.has0
  have l1 := held_add_lt hv (Ne.symm hSa) f1 hr'.has1
  refine ⟨e0, e1, s, ⟨hn, hr', ⟨f0, f1⟩, hrange, ?_, ?_, share_iff.mp hsh, hpos, ?_⟩, hd⟩
  · rintro r rfl
    exact hrc
  · rintro t rfl
    exact (slippage_iff (hrange t rfl) (by omega) (by omega) (by omega) (by omega)).mp hsl
  · obtain ⟨_, st, hst⟩ := hk'.token _ rfl
    have h1 := (run_induct (P := fun v _ => TokensOk v) (fun _ _ _ _ _ _ hp hs => hp.step hs) hv hr _ _ _ hst).fits
    have h2 := hd.supply
    rw [supplyAt_token hst] at h2
    exact h2 ▸ h1

/-- When a deposit goes through. -/
theorem Good.deposit_iff {v : World} (hg : k.Good v) (hv : TokensOk v) (hx : k.Ctx c) (hra : c.api.resolve k.a = .ok k.a)
    (assets : Asset × Asset) (tol : Option Nat) (receiver : Option Str) (funds : List Coin) (adv : Adv) {S : Addr}
    (hS : c.api.validate S = .ok S) (hSa : S ≠ k.a) :
    (∃ n n' v', Halo.run c adv n v [.msg S (plain (.exec k.a (.provideLiquidity assets tol receiver) funds))] = .ok (n', v')) ↔
      ∃ d0 d1 s, Acceptable c k v S assets tol receiver funds d0 d1 s := by
  constructor
  · rintro ⟨n, n', v', h⟩
    obtain ⟨d0, d1, s, ha, _⟩ := hg.deposit_done hv hx hra hSa h
    exact ⟨d0, d1, s, ha⟩
  · rintro ⟨d0, d1, s, ha⟩
    have l0 := held_add_lt hv (Ne.symm hSa) ha.fits.1 ha.ready.has0
    have l1 := held_add_lt hv (Ne.symm hSa) ha.fits.2 ha.ready.has1
    refine ⟨4, hg.deposit_ready hv hx hra hS hSa ha.names ha.ready ha.fits tol ha.range ha.receiver adv 0 ?_
      (share_iff.mpr ha.worth) ha.pos ha.supply⟩
    cases tol with
    | none => rfl
    | some t =>
      exact (slippage_iff (ha.range t rfl) (by omega) (by omega) (by omega) (by omega)).mpr (ha.tolerance t rfl)

end PairSite

/-- **C67.** A deposit transaction that goes through was acceptable, and did exactly what it should. -/
theorem C67_deposit_exact {c : Chain} (hc : c.Lawful) {w w' : World} (hw : Reachable c w) {k : PairSite}
    (hk : k.Sound c w) {assets : Asset × Asset} {tol : Option Nat} {receiver : Option Str} {funds : List Coin} {adv : Adv}
    {gas : Nat} {S : Addr} (hS : c.IsUser S)
    (h : runTx c adv gas w S (.exec k.a (.provideLiquidity assets tol receiver) funds) = .ok w') :
    ∃ d0 d1 s, Acceptable c k w S assets tol receiver funds d0 d1 s ∧
      Deposited k S (receiver.getD S) funds d0 d1 s w w' := by
  obtain ⟨n, hr⟩ := runTx_inv h
  exact (hk.good hc hw).deposit_done hw.tokensOk (hk.ctx hc) (addr_facts hc hw hk.pair).1 ((addr_facts hc hw hk.pair).2 S hS) hr

/-- **C67.** A deposit is accepted exactly when it is acceptable. -/
theorem C67_deposit_iff {c : Chain} (hc : c.Lawful) {w : World} (hw : Reachable c w) {k : PairSite}
    (hk : k.Sound c w) (assets : Asset × Asset) (tol : Option Nat) (receiver : Option Str) (funds : List Coin) (adv : Adv)
    {S : Addr} (hS : c.IsUser S) :
    (∃ gas w', runTx c adv gas w S (.exec k.a (.provideLiquidity assets tol receiver) funds) = .ok w') ↔
      ∃ d0 d1 s, Acceptable c k w S assets tol receiver funds d0 d1 s := by
  have h := (hk.good hc hw).deposit_iff hw.tokensOk (hk.ctx hc) (addr_facts hc hw hk.pair).1 assets tol receiver funds adv hS.2
    ((addr_facts hc hw hk.pair).2 S hS)
  constructor
  · rintro ⟨gas, w', hr⟩
    obtain ⟨n, hr⟩ := runTx_inv hr
    exact h.mp ⟨gas, n, w', hr⟩
  · intro h1
    obtain ⟨n, h2⟩ := h.mpr h1
    exact ⟨n, runTx_of h2⟩

/-- **C67.** The order in which the message names the two assets does not matter. -/
theorem C67_order {c : Chain} (hc : c.Lawful) {w : World} (hw : Reachable c w) {k : PairSite}
    (hk : k.Sound c w) (a b : Asset) (tol : Option Nat) (receiver : Option Str) (funds : List Coin) (adv : Adv)
    {S : Addr} (hS : c.IsUser S) :
    (∃ gas w', runTx c adv gas w S (.exec k.a (.provideLiquidity (a, b) tol receiver) funds) = .ok w') ↔
      ∃ gas w', runTx c adv gas w S (.exec k.a (.provideLiquidity (b, a) tol receiver) funds) = .ok w' := by
  rw [C67_deposit_iff hc hw hk _ tol receiver funds adv hS, C67_deposit_iff hc hw hk _ tol receiver funds adv hS]
  have key : ∀ a b d0 d1 s, Acceptable c k w S (a, b) tol receiver funds d0 d1 s →
      Acceptable c k w S (b, a) tol receiver funds d0 d1 s := by
    intro a b d0 d1 s h
    refine { h with names := ?_ }
    rcases h.names with h | h <;> cases h
    exacts [.inr rfl, .inl rfl]
  exact ⟨fun ⟨d0, d1, s, h⟩ => ⟨d0, d1, s, key _ _ _ _ _ h⟩, fun ⟨d0, d1, s, h⟩ => ⟨d0, d1, s, key _ _ _ _ _ h⟩⟩

/-- **C67.** A deposit that goes through with some tolerance also goes through with every larger one up to 100% and without
one. -/
theorem C67_tolerance_monotone {c : Chain} (hc : c.Lawful) {w : World} (hw : Reachable c w) {k : PairSite}
    (hk : k.Sound c w) (assets : Asset × Asset) {t : Nat} {tol : Option Nat} (receiver : Option Str) (funds : List Coin)
    (adv : Adv) {S : Addr} (hS : c.IsUser S) (ht : ∀ u, tol = some u → t ≤ u ∧ u ≤ 10 ^ 18)
    (h : ∃ gas w', runTx c adv gas w S (.exec k.a (.provideLiquidity assets (some t) receiver) funds) = .ok w') :
    ∃ gas w', runTx c adv gas w S (.exec k.a (.provideLiquidity assets tol receiver) funds) = .ok w' := by
  rw [C67_deposit_iff hc hw hk _ _ receiver funds adv hS] at h ⊢
  obtain ⟨d0, d1, s, h⟩ := h
  have hb := h.tolerance t rfl
  refine ⟨d0, d1, s, { h with range := fun u hu => ?_, tolerance := fun u hu => ?_ }⟩
  · have := (ht u hu).2
    omega
  · obtain ⟨h1, h2⟩ := ht u hu
    have h3 : 10 ^ 18 - u ≤ 10 ^ 18 - t := by omega
    exact { hb with
      tol := h2
      fair0 := (Nat.div_le_div_right (Nat.mul_le_mul_left _ h3)).trans hb.fair0
      fair1 := (Nat.div_le_div_right (Nat.mul_le_mul_left _ h3)).trans hb.fair1 }

namespace Demo

theorem fitsWith_allowed (x y : Nat) (w : World) : FitsWith siteAB x y w := ⟨(fun _ h => nomatch h), (fun _ h => nomatch h)⟩

/-- The reserves are 10000 A and 20000 B with 14142 LP tokens: 1000 A and 2001 B are worth 1414 and are accepted with a
tolerance of 1%. -/
theorem acceptable_allowed : Acceptable chain siteAB allowed user (⟨.token tB, 2001⟩, ⟨.token tA, 1000⟩) (some (10 ^ 16)) none
    [] 1000 2001 1414 where
  names := .inr rfl
  ready := ready_allowed
  fits := fitsWith_allowed _ _ _
  range := by rintro t ⟨⟩; norm_num
  receiver := by simp
  tolerance := by
    rintro t ⟨⟩
    have h0 : held allowed siteAB.i0 siteAB.a = 10000 := by decide +kernel
    have h1 : held allowed siteAB.i1 siteAB.a = 20000 := by decide +kernel
    rw [h0, h1]
    exact ⟨by norm_num, by norm_num, by norm_num, by norm_num, by norm_num, by norm_num [ratio18], by norm_num [ratio18]⟩
  worth := by
    have h0 : held allowed siteAB.i0 siteAB.a = 10000 := by decide +kernel
    have h1 : held allowed siteAB.i1 siteAB.a = 20000 := by decide +kernel
    have h2 : supplyAt allowed siteAB.lt = 14142 := by decide +kernel
    rw [h0, h1, h2]
    exact ⟨by norm_num, by norm_num⟩
  pos := by norm_num
  supply := by decide +kernel

theorem deposit_accepted : ∃ gas w', runTx chain idle gas allowed user
    (.exec pAB (.provideLiquidity (⟨.token tB, 2001⟩, ⟨.token tA, 1000⟩) (some (10 ^ 16)) none) []) = .ok w' :=
  (C67_deposit_iff lawful allowed_reachable sound_allowed _ _ none [] idle isUser_user).mpr ⟨_, _, _, acceptable_allowed⟩

example : ∃ d0 d1 s w', Deposited siteAB user user [] d0 d1 s allowed w' := by
  obtain ⟨gas, w', h⟩ := deposit_accepted
  obtain ⟨d0, d1, s, _, h⟩ := C67_deposit_exact lawful allowed_reachable sound_allowed isUser_user h
  exact ⟨d0, d1, s, w', h⟩
example := (C67_order lawful allowed_reachable sound_allowed _ _ _ none [] idle isUser_user).mp deposit_accepted
example := C67_tolerance_monotone lawful allowed_reachable sound_allowed _ (tol := none) none [] idle isUser_user (by simp)
  deposit_accepted
/-- Without any tolerance for imbalance the same deposit is refused. -/
example : ¬ ∃ gas w', runTx chain idle gas allowed user
    (.exec pAB (.provideLiquidity (⟨.token tB, 2001⟩, ⟨.token tA, 1000⟩) (some 0) none) []) = .ok w' := by
  intro h
  obtain ⟨d0, d1, s, h⟩ := (C67_deposit_iff lawful allowed_reachable sound_allowed _ _ none [] idle isUser_user).mp h
  have hb := (h.tolerance 0 rfl).fair1
  have h0 : held allowed siteAB.i0 siteAB.a = 10000 := by decide +kernel
  have h1 : held allowed siteAB.i1 siteAB.a = 20000 := by decide +kernel
  rw [h0, h1] at hb
  have hn : d0 = 1000 ∧ d1 = 2001 := by
    rcases h.names with h | h <;> simp only [Prod.mk.injEq, Asset.mk.injEq] at h
    · exact absurd h.1.1 (by decide)
    · exact ⟨h.2.2.symm, h.1.2.symm⟩
  obtain ⟨rfl, rfl⟩ := hn
  norm_num [ratio18] at hb

end Demo
end Halo
