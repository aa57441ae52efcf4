import Verif.Lemmas.GuardL
import Verif.Lemmas.Demo
import Verif.Lemmas.ChainL
/-!
# C10–C14, C18, C19, C23–C26, C33: what a successful call guarantees

`Pair.receiveCw20 … (.swap …)` is the pair's `Receive { Cw20HookMsg::Swap }` entry point with the caller
`caller` (the token contract), the querier `q` being any view of the outside world.  The numbers of a swap are
observed in its attributes (`Event.swap`).
-/

namespace Halo
open Pair

variable {api : Api} {q : Querier} {me caller : Addr} {st st' : Pair.State} {funds : List Coin} {sender : Str}
  {amount : Nat} {resp : Response}

/-! ## C10 -/

/-- **C10.** A swap with `max_spread = m` and no belief price that succeeds reports a return `r` and spread `s`
with `s / (r + s)`, truncated to 18 digits, at most `m` (the decimal adjustment scales both alike and cancels). -/
theorem C10_max_spread {m : Nat} {dst : Option Str} (hm : m < 2 ^ 128)
    (h : receiveCw20 api q me st caller funds sender amount (.swap none (some m) dst) = .ok (st', resp)) :
    ∃ rcv ask r s c, resp.events = [.swap sender rcv (.token caller) ask amount r s c] ∧
      0 < r + s ∧ s * 10 ^ 18 / (r + s) ≤ m := by
  obtain ⟨_, _, o, a, od, ad, r, s, c, hs⟩ := receive_swap_inv h
  obtain ⟨h1, h2⟩ := maxSpread_none_inv hm hs.h_spread
  exact ⟨_, _, r, s, c, by rw [hs.h_resp], Nat.pos_of_ne_zero h1, h2⟩

/-- A limit of 10% is met by the demo swap (spread 182 of 1995). -/
example : ∃ resp, receiveCw20 Demo.api (Demo.q 11000 20000 100) Demo.pairAddr Demo.pairState Demo.tokA []
    Demo.user 1000 (.swap none (some 100000000000000000) none) = .ok (Demo.pairState, resp) := by
  apply Demo.swap_ok
  unfold assertMaxSpread
  simp only [ofDecimal_ok (by norm_num : 100000000000000000 < B256)]
  rfl

/-- A limit of 9% is not. -/
example : assertMaxSpread none (some 90000000000000000) 1000 1813 182 6 6 = .error .maxSpread := by
  unfold assertMaxSpread
  simp only [ofDecimal_ok (by norm_num : 90000000000000000 < B256)]
  rfl

/-! ## C11 -/

/-- The decimals of the offered and of the asked asset, when the token `caller` is offered. -/
def OfferedDecimals (api : Api) (st : Pair.State) (caller : Addr) (od ad : Nat) : Prop :=
  (st.assetInfos.1.toNormal api = .ok (.token caller) ∧ (od, ad) = st.assetDecimals) ∨
  (st.assetInfos.2.toNormal api = .ok (.token caller) ∧ (ad, od) = st.assetDecimals)

/-- **C11.** A swap with `belief_price = p` and `max_spread = m` that succeeds returns, after the decimal adjustment
of the smaller-decimals side, at least the fraction `1 - m - 10^-18` of `E = floor(offer / p)`. -/
theorem C11_belief_price {p m : Nat} {dst : Option Str} (hp : p < 2 ^ 128) (hm : m < 2 ^ 128)
    (h : receiveCw20 api q me st caller funds sender amount (.swap (some p) (some m) dst) = .ok (st', resp)) :
    ∃ rcv ask r s c od ad, resp.events = [.swap sender rcv (.token caller) ask amount r s c] ∧
      OfferedDecimals api st caller od ad ∧ p ≠ 0 ∧
      let E := (amount * 10 ^ (ad - od)) * 10 ^ 18 / p
      E * 10 ^ 18 ≤ (r * 10 ^ (od - ad)) * 10 ^ 18 + (m + 1) * E := by
  obtain ⟨_, _, o, a, od, ad, r, s, c, hs⟩ := receive_swap_inv h
  obtain ⟨h1, h2⟩ := maxSpread_some_inv hp hm hs.h_spread
  refine ⟨_, _, r, s, c, od, ad, by rw [hs.h_resp], ?_, h1, h2⟩
  have hi := hs.h_info
  rcases hs.h_pools with ⟨h3, rfl, rfl⟩ | ⟨h3, rfl, rfl, _⟩
  · left
    rw [queryPools_eq_ok] at h3
    exact ⟨by rw [h3.1, ← hi], rfl⟩
  · right
    rw [queryPools_eq_ok] at h3
    exact ⟨by rw [h3.2.1, ← hi], rfl⟩

/-- **C11.** In particular a maximum spread of 0 at belief price `p` returns at least `E` minus one part in
`10^18`. -/
theorem C11_zero_spread {p : Nat} {dst : Option Str} (hp : p < 2 ^ 128)
    (h : receiveCw20 api q me st caller funds sender amount (.swap (some p) (some 0) dst) = .ok (st', resp)) :
    ∃ rcv ask r s c od ad, resp.events = [.swap sender rcv (.token caller) ask amount r s c] ∧
      OfferedDecimals api st caller od ad ∧
      let E := (amount * 10 ^ (ad - od)) * 10 ^ 18 / p
      E ≤ r * 10 ^ (od - ad) + E / 10 ^ 18 + 1 := by
  obtain ⟨rcv, ask, r, s, c, od, ad, h1, h2, _, h3⟩ := C11_belief_price hp (by norm_num) h
  refine ⟨rcv, ask, r, s, c, od, ad, h1, h2, ?_⟩
  intro E
  change E * 10 ^ 18 ≤ (r * 10 ^ (od - ad)) * 10 ^ 18 + (0 + 1) * E at h3
  generalize r * 10 ^ (od - ad) = r' at *
  omega

/-- At belief price 0.5 (each B costs half an A, so 2000 B are expected) a 10% limit is met by the demo swap. -/
example : ∃ resp, receiveCw20 Demo.api (Demo.q 11000 20000 100) Demo.pairAddr Demo.pairState Demo.tokA []
    Demo.user 1000 (.swap (some 500000000000000000) (some 100000000000000000) none) =
      .ok (Demo.pairState, resp) := by
  apply Demo.swap_ok
  unfold assertMaxSpread
  simp only [ofDecimal_ok (by norm_num : 100000000000000000 < B256),
    ofDecimal_ok (by norm_num : 500000000000000000 < B256)]
  rfl

/-! ## C12 -/

/-- **C12 is false of the code**: without a spread limit the check still panics for decimals 20 apart, and still
refuses an offer whose decimal-scaled value exceeds 128 bits. -/
theorem C12_counterexample :
    assertMaxSpread none none 1 1 0 20 0 = .error (.panic .overflow) ∧
    assertMaxSpread none none (2 ^ 100) 1 0 6 18 = .error .overflowErr := by
  constructor <;> rfl

/-- **C12 (partial).** Exactly when the check passes without a limit: the decimal scaling must not overflow.
Missing: offers where it does, which are refused (`C12_counterexample`). -/
theorem C12_partial (bp : Option Nat) (x r s od ad : Nat) :
    assertMaxSpread bp none x r s od ad = .ok () ↔
      (ad < od → 10 ^ (od - ad) < 2 ^ 64 ∧ r * 10 ^ (od - ad) < 2 ^ 128 ∧ s * 10 ^ (od - ad) < 2 ^ 128) ∧
      (od < ad → 10 ^ (ad - od) < 2 ^ 64 ∧ x * 10 ^ (ad - od) < 2 ^ 128) := by
  unfold assertMaxSpread
  simp only [bind_eq_ok, Prod.exists, scaleDecimals_eq_ok]
  constructor
  · rintro ⟨_, _, _, ⟨h1, h2, _⟩, _⟩; exact ⟨h1, h2⟩
  · rintro ⟨h1, h2⟩; exact ⟨_, _, _, ⟨h1, h2, rfl, rfl, rfl⟩, rfl⟩

/-- **C12 (partial).** For assets of equal decimals it always passes. -/
theorem C12_equal_decimals_partial (bp : Option Nat) (x r s d : Nat) :
    assertMaxSpread bp none x r s d d = .ok () := by
  rw [C12_partial]; simp

/-! ## C13 -/

/-- The deposit a message declares for the asset `i`. -/
def DeclaredDeposit (assets : Asset × Asset) (i : AssetInfo) (d : Nat) : Prop :=
  (assets.1 = ⟨i, d⟩) ∨ (assets.1.info ≠ i ∧ assets.2 = ⟨i, d⟩)

theorem declared_of {assets : Asset × Asset} {i : AssetInfo} {d : Nat} (h : depositFor assets i = .ok d) :
    DeclaredDeposit assets i d := by
  rw [depositFor_eq_ok] at h
  obtain ⟨⟨i1, a1⟩, ⟨i2, a2⟩⟩ := assets
  rcases h with ⟨rfl, rfl⟩ | ⟨h1, rfl, rfl⟩
  · exact .inl rfl
  · exact .inr ⟨h1, rfl⟩

/-- The reserves a deposit is measured against: what the pair held before the deposit. `p` is the pair's
current balance; attached native coins have already arrived, cw20 tokens are pulled afterwards. -/
def ReserveBefore (i : AssetInfo) (p d reserve : Nat) : Prop :=
  match i with
  | .token _ => reserve = p
  | .native _ => reserve + d = p

theorem reserveBefore_of {p : Asset} {d : Nat} (h : p.info.isNative = true → d ≤ p.amount) :
    ReserveBefore p.info p.amount d (priorPool p d) := by
  unfold ReserveBefore priorPool
  cases hi : p.info with
  | token t => rfl
  | native dn =>
    simp only
    have := h (by rw [hi]; rfl)
    omega

/-- A successful deposit, in terms of what the caller declared and what the pair held. -/
structure Deposit (api : Api) (q : Querier) (me : Addr) (st : Pair.State) (assets : Asset × Asset)
    (i₀ i₁ : AssetInfo) (d₀ d₁ p₀ p₁ supply : Nat) : Prop where
  info₀ : st.assetInfos.1.toNormal api = .ok i₀
  info₁ : st.assetInfos.2.toNormal api = .ok i₁
  dep₀ : DeclaredDeposit assets i₀ d₀
  dep₁ : DeclaredDeposit assets i₁ d₁
  res₀ : ∃ b, i₀.queryPool q api me = .ok b ∧ ReserveBefore i₀ b d₀ p₀
  res₁ : ∃ b, i₁.queryPool q api me = .ok b ∧ ReserveBefore i₁ b d₁ p₁
  lp : ∃ lt ti, api.human st.liquidityToken = some lt ∧ q.tokenInfo lt = .ok ti ∧ ti.totalSupply = supply

theorem Deposit.of {tol : Option Nat} {receiver : Option Str} {assets : Asset × Asset} {p0 p1 : Asset}
    {d0 d1 : Nat} {lt : Addr} {ti : TokenInfoResp} {share : Nat}
    (h : ProvideOk api q me st sender funds assets tol receiver resp p0 p1 d0 d1 lt ti share) :
    Deposit api q me st assets p0.info p1.info d0 d1 (priorPool p0 d0) (priorPool p1 d1) ti.totalSupply := by
  have hp := queryPools_eq_ok.mp h.h_pools
  exact ⟨hp.1, hp.2.1, declared_of h.h_d0, declared_of h.h_d1, ⟨_, hp.2.2.1, reserveBefore_of h.h_le0⟩,
    ⟨_, hp.2.2.2, reserveBefore_of h.h_le1⟩, ⟨lt, ti, h.h_lt, h.h_supply, rfl⟩⟩

/-- The numbers of a deposit are determined by the call. -/
theorem Deposit.unique {assets : Asset × Asset} {i₀ i₁ j₀ j₁ : AssetInfo} {d₀ d₁ p₀ p₁ S e₀ e₁ r₀ r₁ T : Nat}
    (hd : Deposit api q me st assets i₀ i₁ d₀ d₁ p₀ p₁ S) (hd' : Deposit api q me st assets j₀ j₁ e₀ e₁ r₀ r₁ T) :
    i₀ = j₀ ∧ i₁ = j₁ ∧ d₀ = e₀ ∧ d₁ = e₁ ∧ p₀ = r₀ ∧ p₁ = r₁ ∧ S = T := by
  have hi0 : i₀ = j₀ := by have := hd.info₀.symm.trans hd'.info₀; injection this
  have hi1 : i₁ = j₁ := by have := hd.info₁.symm.trans hd'.info₁; injection this
  subst hi0 hi1
  have key : ∀ (i : AssetInfo) (d e p r : Nat), DeclaredDeposit assets i d → DeclaredDeposit assets i e →
      (∃ b, i.queryPool q api me = .ok b ∧ ReserveBefore i b d p) →
      (∃ b, i.queryPool q api me = .ok b ∧ ReserveBefore i b e r) → d = e ∧ p = r := by
    rintro i d e p r hd he ⟨b, hb, h1⟩ ⟨b', hb', h2⟩
    rw [hb] at hb'
    cases hb'
    have hde : d = e := by
      unfold DeclaredDeposit at hd he
      rcases hd with hd | ⟨hd1, hd⟩ <;> rcases he with he | ⟨he1, he⟩
      · rw [hd] at he; cases he; rfl
      · rw [hd] at he1; exact absurd rfl he1
      · rw [he] at hd1; exact absurd rfl hd1
      · rw [hd] at he; cases he; rfl
    subst hde
    refine ⟨rfl, ?_⟩
    unfold ReserveBefore at h1 h2
    cases i <;> simp only at h1 h2 <;> omega
  obtain ⟨k0, k0'⟩ := key _ _ _ _ _ hd.dep₀ hd'.dep₀ hd.res₀ hd'.res₀
  obtain ⟨k1, k1'⟩ := key _ _ _ _ _ hd.dep₁ hd'.dep₁ hd.res₁ hd'.res₁
  refine ⟨rfl, rfl, k0, k1, k0', k1', ?_⟩
  obtain ⟨lt, ti, h1, h2, h3⟩ := hd.lp
  obtain ⟨lt', ti', h1', h2', h3'⟩ := hd'.lp
  rw [h1] at h1'
  cases h1'
  rw [h2] at h2'
  cases h2'
  exact h3.symm.trans h3'

/-- **C13.** A deposit `(d₀, d₁)` with `slippage_tolerance = t` into reserves `(p₀, p₁)` that succeeds has
`t ≤ 1` and `(d₀/d₁)*(1-t) < p₀/p₁ + 2*10^-18`, and the same with the assets exchanged. -/
theorem C13_slippage {assets : Asset × Asset} {t : Nat} {receiver : Option Str} (ht : t < 2 ^ 128)
    (h : provideLiquidity api q me st sender funds assets (some t) receiver = .ok (st', resp)) :
    t ≤ 10 ^ 18 ∧ ∃ i₀ i₁ d₀ d₁ p₀ p₁ supply, Deposit api q me st assets i₀ i₁ d₀ d₁ p₀ p₁ supply ∧
      d₀ ≠ 0 ∧ d₁ ≠ 0 ∧ p₀ ≠ 0 ∧ p₁ ≠ 0 ∧
      d₀ * (10 ^ 18 - t) * p₁ < (p₀ * 10 ^ 18 + 2 * p₁) * d₁ ∧
      d₁ * (10 ^ 18 - t) * p₀ < (p₁ * 10 ^ 18 + 2 * p₀) * d₀ := by
  obtain ⟨_, p0, p1, d0, d1, lt, ti, share, hp⟩ := provide_inv h
  obtain ⟨h1, h2, h3, h4, h5, h6, h7⟩ := slippage_inv ht hp.h_slippage
  exact ⟨h1, _, _, _, _, _, _, _, .of hp, h2, h3, h4, h5, h6, h7⟩

/-- The demo deposit passes a tolerance of 1%. -/
example : ∃ resp, provideLiquidity Demo.api (Demo.q 1000 2000 500) Demo.pairAddr Demo.pairState Demo.user []
    Demo.deposit (some 10000000000000000) none = .ok (Demo.pairState, resp) := by
  apply Demo.provide_ok
  unfold assertSlippageTolerance
  simp only [ofDecimal_ok (by norm_num : 10000000000000000 < B256)]
  rfl

/-! ## C14 -/

/-- **C14 is false of the code**: with a slippage tolerance, every deposit into a pool with an empty reserve is
refused (division by zero), whatever the tolerance, sender and amounts. -/
theorem C14_counterexample {assets : Asset × Asset} {t : Nat} {receiver : Option Str} (ht : t < 2 ^ 128)
    {i₀ i₁ : AssetInfo} {d₀ d₁ p₀ p₁ supply : Nat}
    (hd : Deposit api q me st assets i₀ i₁ d₀ d₁ p₀ p₁ supply) (he : p₀ = 0 ∨ p₁ = 0) :
    ∀ res, provideLiquidity api q me st sender funds assets (some t) receiver ≠ .ok res := by
  intro ⟨st', resp⟩ h
  obtain ⟨_, j₀, j₁, e₀, e₁, r₀, r₁, s, hd', _, _, h1, h2, _⟩ := C13_slippage ht h
  obtain ⟨_, _, _, _, h3, h4, _⟩ := hd.unique hd'
  omega

example : Deposit Demo.api (Demo.q 0 0 0) Demo.pairAddr Demo.pairState Demo.deposit (.token Demo.tokA)
    (.token Demo.tokB) 100 200 0 0 0 :=
  ⟨rfl, rfl, .inl rfl, .inr ⟨by decide, rfl⟩, ⟨0, rfl, rfl⟩, ⟨0, rfl, rfl⟩, _, _, rfl, rfl, rfl⟩

/-- **C14 (partial).** Without a tolerance, a first deposit by a whitelisted sender meeting both minimums is accepted
(`d₀*d₁` must be positive and fit 128 bits, native amounts must match the attached funds). Missing: deposits
with a tolerance (`C14_counterexample`), and deposits whose product overflows. -/
theorem C14_partial {assets : Asset × Asset} {receiver : Option Str} {p0 p1 : Asset} {d0 d1 : Nat} {lt : Addr}
    {ti : TokenInfoResp}
    (hs0 : assets.1.assertSent funds = .ok ()) (hs1 : assets.2.assertSent funds = .ok ())
    (hpools : st.queryPools q api me = .ok (p0, p1))
    (hd0 : depositFor assets p0.info = .ok d0) (hd1 : depositFor assets p1.info = .ok d1)
    (hle0 : p0.info.isNative = true → d0 ≤ p0.amount) (hle1 : p1.info.isNative = true → d1 ≤ p1.amount)
    (hlt : api.human st.liquidityToken = some lt) (hti : q.tokenInfo lt = .ok ti) (h0 : ti.totalSupply = 0)
    (hw : sender ∈ st.requirements.whitelist)
    (hm0 : st.requirements.firstAssetMinimum ≤ d0) (hm1 : st.requirements.secondAssetMinimum ≤ d1)
    (hpos : 0 < d0 * d1) (hfit : d0 * d1 < 2 ^ 128) :
    ∃ resp, provideLiquidity api q me st sender funds assets none receiver = .ok (st, resp) := by
  refine ⟨_, provide_of (p0 := p0) (p1 := p1) (d0 := d0) (d1 := d1) (lt := lt) (ti := ti)
    (share := Nat.sqrt (d0 * d1)) ⟨hs0, hs1, hpools, hd0, hd1, hle0, hle1, rfl, hlt, hti, ?_, ?_, rfl⟩⟩
  · unfold shareFor
    simp only [h0, ↓reduceIte, bind_eq_ok, require_eq_ok, Uint128.mulChk_eq_ok, pure_eq_ok, Uint128.isqrt]
    exact ⟨(), by simpa using hw, (), by omega, _, ⟨hfit, rfl⟩, rfl⟩
  · intro hz
    rw [Nat.sqrt_eq_zero] at hz
    omega

example : ∃ resp, provideLiquidity Demo.api (Demo.q 0 0 0) Demo.pairAddr Demo.pairState Demo.user [] Demo.deposit
    none none = .ok (Demo.pairState, resp) := Demo.provide_first_ok

/-! ## C18, C19 -/

/-- **C18.** While the LP supply is zero a deposit succeeds only for a whitelisted sender depositing at least both
minimums, and it mints `s = floor(sqrt(d₀*d₁))` shares. -/
theorem C18_first_deposit {assets : Asset × Asset} {tol : Option Nat} {receiver : Option Str}
    (h : provideLiquidity api q me st sender funds assets tol receiver = .ok (st', resp)) :
    ∃ i₀ i₁ d₀ d₁ p₀ p₁ supply, Deposit api q me st assets i₀ i₁ d₀ d₁ p₀ p₁ supply ∧
      (supply = 0 → sender ∈ st.requirements.whitelist ∧
        st.requirements.firstAssetMinimum ≤ d₀ ∧ st.requirements.secondAssetMinimum ≤ d₁ ∧
        ∃ s rcv, resp.events = [.provideLiquidity sender rcv assets s] ∧
          s * s ≤ d₀ * d₁ ∧ d₀ * d₁ < (s + 1) * (s + 1)) := by
  obtain ⟨_, p0, p1, d0, d1, lt, ti, share, hp⟩ := provide_inv h
  refine ⟨_, _, _, _, _, _, _, .of hp, ?_⟩
  intro h0
  have hs := hp.h_share
  unfold shareFor at hs
  simp only [h0, ↓reduceIte, bind_eq_ok, require_eq_ok, Uint128.mulChk_eq_ok, pure_eq_ok, Uint128.isqrt] at hs
  obtain ⟨_, h1, _, h2, _, ⟨h3, rfl⟩, h4⟩ := hs
  refine ⟨by simpa using h1, by omega, by omega, share, _, by rw [hp.h_resp], ?_, ?_⟩
  · rw [← h4]; exact Nat.sqrt_le _
  · rw [← h4]; exact Nat.lt_succ_sqrt _

/-- **C19.** A successful deposit mints a positive number of shares: the last message mints `s > 0` LP tokens to
the receiver (the sender, if none was given). -/
theorem C19_mints_shares {assets : Asset × Asset} {tol : Option Nat} {receiver : Option Str}
    (h : provideLiquidity api q me st sender funds assets tol receiver = .ok (st', resp)) :
    ∃ lt s, api.human st.liquidityToken = some lt ∧ 0 < s ∧
      resp.messages.getLast? = some (plain (.exec lt (.mint (receiver.getD sender) s) [])) ∧
      resp.events = [.provideLiquidity sender (receiver.getD sender) assets s] := by
  obtain ⟨_, p0, p1, d0, d1, lt, ti, share, hp⟩ := provide_inv h
  refine ⟨lt, share, hp.h_lt, Nat.pos_of_ne_zero hp.h_nonzero, ?_, by rw [hp.h_resp]⟩
  rw [hp.h_resp]
  simp [List.getLast?_append]

/-- The demo's first deposit meets the hypothesis of C18 (supply 0) and C19. -/
example : ∃ resp, provideLiquidity Demo.api (Demo.q 0 0 0) Demo.pairAddr Demo.pairState Demo.user [] Demo.deposit
    none none = .ok (Demo.pairState, resp) := Demo.provide_first_ok

/-! ## C23 -/

/-- **C23.** A withdrawal hook succeeds only when called by the pair's LP token; the pair then burns exactly the
withdrawn amount of that LP token (its last message) and pays out the two refunds to `sender`. -/
theorem C23_withdraw_only_lp
    (h : receiveCw20 api q me st caller funds sender amount .withdrawLiquidity = .ok (st', resp)) :
    api.canon caller = some st.liquidityToken ∧ ∃ lt r₀ r₁, api.human st.liquidityToken = some lt ∧
      resp.messages = [plain (r₀.intoMsg sender), plain (r₁.intoMsg sender), plain (.exec lt (.burn amount) [])] ∧
      resp.events = [.withdrawLiquidity sender amount (r₀, r₁)] := by
  obtain ⟨_, hc, _, p0, p1, lt, ti, ratio, r0, r1, hw⟩ := receive_withdraw_inv h
  exact ⟨hc, lt, _, _, hw.h_lt, by rw [hw.h_resp], by rw [hw.h_resp]⟩

/-- **C23.** In particular a call by anyone whose address is not the LP token's is rejected. -/
theorem C23_others_rejected (hne : api.canon caller ≠ some st.liquidityToken) :
    ∀ res, receiveCw20 api q me st caller funds sender amount .withdrawLiquidity ≠ .ok res := by
  rintro ⟨st', resp⟩ h
  exact hne (C23_withdraw_only_lp h).1

example : ∃ resp, receiveCw20 Demo.api (Demo.q 1000 2000 500) Demo.pairAddr Demo.pairState Demo.lp [] Demo.user 50
    .withdrawLiquidity = .ok (Demo.pairState, resp) := Demo.withdraw_ok

/-! ## C24 -/

/-- **C24.** A swap hook succeeds only when called by one of the pair's two cw20 asset contracts. -/
theorem C24_swap_only_assets {bp ms : Option Nat} {dst : Option Str}
    (h : receiveCw20 api q me st caller funds sender amount (.swap bp ms dst) = .ok (st', resp)) :
    st.assetInfos.1.toNormal api = .ok (.token caller) ∨ st.assetInfos.2.toNormal api = .ok (.token caller) := by
  obtain ⟨_, _, o, a, od, ad, r, s, c, hs⟩ := receive_swap_inv h
  have hi := hs.h_info
  rcases hs.h_pools with ⟨h3, _⟩ | ⟨h3, _⟩ <;> rw [queryPools_eq_ok] at h3
  · left; rw [h3.1, ← hi]
  · right; rw [h3.2.1, ← hi]

/-! ## C25 -/

/-- **C25 is false of the code.** The pair has no entry point for a native offer: a direct `swap` message is
refused whatever the coins attached, and every successful swap offers a cw20 token. -/
theorem C25_native_swap_refused (bp ms : Option Nat) (dst : Option Str) :
    ∀ res, Pair.execute api q me st caller funds (.swapDirect bp ms dst) ≠ .ok res := by
  intro res h
  cases h

/-- **C25.** No successful call of a pair, by any message, swaps a native asset. -/
theorem C25_only_tokens_offered {m : ExecMsg}
    (h : Pair.execute api q me st caller funds m = .ok (st', resp)) {s r : Str} {oi ai : AssetInfo} {x y z w : Nat}
    (he : Event.swap s r oi ai x y z w ∈ resp.events) : ∃ t, oi = .token t := by
  rcases execute_inv h with ⟨_, _, _, _, _, rfl, h⟩ | ⟨_, _, rfl, h⟩ | ⟨_, _, _, rfl, h⟩
  · obtain ⟨_, _, o, a, od, ad, r, s, c, hs⟩ := receive_swap_inv h
    rw [hs.h_resp] at he
    simp only [List.mem_singleton, Event.swap.injEq] at he
    exact ⟨_, he.2.2.1⟩
  · obtain ⟨_, _, _, _, _, _, _, _, _, _, hw⟩ := receive_withdraw_inv (funds := funds) h
    rw [hw.h_resp] at he
    simp at he
  · obtain ⟨_, _, _, _, _, _, _, _, hp⟩ := provide_inv h
    rw [hp.h_resp] at he
    simp at he

/-- **C25.** The same through the router: a hop with a native offer makes the router send the pair exactly that
message, so delivering it to a pair contract fails and with it the whole transaction. -/
theorem C25_router_native_hop {rst rst' : Router.State} {op : SwapOp} {denom : Str} {dst : Option Str}
    (hop : op.offer = .native denom) (h : Router.executeSwapOperation api q me rst sender op dst = .ok (rst', resp)) :
    ∃ pair amt, resp.messages = [plain (.exec pair (.swapDirect none none dst) [⟨denom, amt⟩])] := by
  unfold Router.executeSwapOperation at h
  simp only [bind_eq_ok, pure_eq_ok, Prod.mk.injEq, hop] at h
  obtain ⟨_, _, _, _, p, _, amt, _, _, rfl⟩ := h
  exact ⟨_, amt, rfl⟩

/-- **C25.** On the chain: delivering a direct swap message to a pair contract fails in every world. -/
theorem C25_delivery_fails (c : Chain) (adv : Adv) (n : Nat) (w : World) (s : Addr) (p : Str) (self : Addr)
    (bp ms : Option Nat) (dst : Option Str) (coins : List Coin) (id : Option Nat) (admin : Option Addr)
    (pst : Pair.State) (hr : c.api.resolve p = .ok self) (hp : w.contracts self = some ⟨admin, .pair pst⟩) :
    ∀ res, step c adv n w (.msg s ⟨.exec p (.swapDirect bp ms dst) coins, id⟩) ≠ .ok res := by
  intro ⟨w', fs⟩ h
  cases step_inv h with
  | pair _ _ _ _ _ me w1 admin' s1 s2 r hme hm hr' hc hx => cases hx
  | token _ _ _ _ _ me w1 admin' s1 s2 r hme hm hr' hc hx =>
    rw [hr] at hme; cases hme; rw [hp] at hc; cases hc
  | factory _ _ _ _ _ me w1 admin' s1 s2 r hme hm hr' hc hx => cases hx
  | router _ _ _ _ _ me w1 admin' s1 s2 r hme hm hr' hc hx => cases hx
  | other _ _ _ _ _ me w1 admin' ms hme hm hc =>
    rw [hr] at hme; cases hme; rw [hp] at hc; cases hc

example : Demo.chain.api.resolve Demo.pairAddr = .ok Demo.pairAddr ∧
    (Demo.world 11000 20000 100).contracts Demo.pairAddr = some ⟨none, .pair Demo.pairState⟩ := ⟨rfl, rfl⟩

/-! ## C26 -/

/-- The message that pulls `d` of a cw20 asset from the sender; native coins were attached. -/
def pull (me : Addr) (sender : Str) (i : AssetInfo) (d : Nat) : List CosmosMsg :=
  match i with
  | .token t => [.exec t (.transferFrom sender me d) []]
  | .native _ => []

/-- **C26.** A successful deposit asks each of the pair's cw20 assets to move exactly the declared amount from the
sender to the pair (a native asset's amount is exactly what was attached), and mints to `receiver`, or to the
sender if none was given; nothing else is sent. -/
theorem C26_deposit_exact {assets : Asset × Asset} {tol : Option Nat} {receiver : Option Str}
    (h : provideLiquidity api q me st sender funds assets tol receiver = .ok (st', resp)) :
    ∃ i₀ i₁ d₀ d₁ p₀ p₁ supply lt s, Deposit api q me st assets i₀ i₁ d₀ d₁ p₀ p₁ supply ∧
      resp.messages = (pull me sender i₀ d₀ ++ pull me sender i₁ d₁ ++ [CosmosMsg.exec lt (.mint (receiver.getD sender) s) []]).map plain ∧
      (∀ a ∈ [assets.1, assets.2], ∀ denom, a.info = .native denom →
        (∃ k ∈ funds, k.denom = denom ∧ k.amount = a.amount) ∨ ((∀ k ∈ funds, k.denom ≠ denom) ∧ a.amount = 0)) := by
  obtain ⟨_, p0, p1, d0, d1, lt, ti, share, hp⟩ := provide_inv h
  refine ⟨_, _, _, _, _, _, _, lt, share, .of hp, ?_, ?_⟩
  · rw [hp.h_resp]
    have e : ∀ i d, collectMsg me sender i d = pull me sender i d := by intro i d; cases i <;> rfl
    simp only [e]
  · intro a ha denom hi
    have hs : a.assertSent funds = .ok () := by
      simp only [List.mem_cons, List.not_mem_nil, or_false] at ha
      rcases ha with rfl | rfl
      · exact hp.h_sent0
      · exact hp.h_sent1
    unfold Asset.assertSent at hs
    rw [hi] at hs
    simp only at hs
    split at hs
    · rename_i k hk
      rw [require_eq_ok] at hs
      left
      refine ⟨k, List.mem_of_find?_eq_some hk, ?_, hs.symm⟩
      simpa using List.find?_some hk
    · rename_i hk
      rw [require_eq_ok] at hs
      right
      refine ⟨?_, hs⟩
      intro k hk'
      simpa using List.find?_eq_none.mp hk k hk'
/-! ## C33 -/

/-- **C33.** A single hop sent by anyone but the router itself fails. -/
theorem C33_hop_only_router {rst : Router.State} {op : SwapOp} {dst : Option Str} (hne : sender ≠ me) :
    ∀ res, Router.execute api q me rst sender (.executeSwapOperation op dst) ≠ .ok res := by
  intro res h
  simp only [Router.execute, Router.executeSwapOperation, bind_eq_ok, require_eq_ok] at h
  obtain ⟨_, _, _, h, _⟩ := h
  exact hne h.symm

/-- Sent by the router itself a hop can succeed. -/
example : ∃ res, Router.execute Demo.api
    { Demo.q 1 1 1 with pairInfo := fun _ _ => .ok ⟨(.token Demo.tokA, .token Demo.tokB), Demo.pairAddr, Demo.lp, (6, 6), ⟨[], 0, 0⟩⟩ }
    [82] ⟨[70]⟩ [82] (.executeSwapOperation ⟨.token Demo.tokA, .token Demo.tokB⟩ none) = .ok res := ⟨_, rfl⟩

/-! ## C03 at the entry point -/

/-- **C03.** A successful swap sends exactly one message, paying exactly the reported return `r` of the other asset
to the receiver (none if `r = 0`): the commission stays in the pair. -/
theorem C03_swap_pays_return {bp ms : Option Nat} {dst : Option Str}
    (h : receiveCw20 api q me st caller funds sender amount (.swap bp ms dst) = .ok (st', resp)) :
    ∃ ask r s c, resp.events = [.swap sender (dst.getD sender) (.token caller) ask amount r s c] ∧
      resp.messages = (if r = 0 then [] else [plain (Asset.intoMsg ⟨ask, r⟩ (dst.getD sender))]) := by
  obtain ⟨_, _, o, a, od, ad, r, s, c, hs⟩ := receive_swap_inv h
  refine ⟨a.info, r, s, c, by rw [hs.h_resp], ?_⟩
  rw [hs.h_resp]
  by_cases hr : r = 0 <;> simp [hr]

end Halo
