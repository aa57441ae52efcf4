import Verif.Lemmas.SwapForm
import Verif.Lemmas.DecStrL2
/-! # What a successful call of a pair entry point means (helper lemmas) -/

namespace Halo

theorem validate_eq_ok {api : Api} {s a : Str} :
    api.validate s = .ok a ↔ a = s ∧ ∃ b, api.canon s = some b ∧ api.human b = some s := by
  unfold Api.validate Api.canonicalize Api.humanize
  simp only [bind_eq_ok, okOr_eq_ok, require_eq_ok, pure_eq_ok]
  constructor
  · rintro ⟨b, h1, h, h2, _, rfl, rfl⟩
    exact ⟨rfl, b, h1, h2⟩
  · rintro ⟨rfl, b, h1, h2⟩
    exact ⟨b, h1, a, h2, (), rfl, rfl⟩

@[simp] theorem canonicalize_eq_ok {api : Api} {s : Str} {b : Bytes} :
    api.canonicalize s = .ok b ↔ api.canon s = some b := by simp [Api.canonicalize]

@[simp] theorem humanize_eq_ok {api : Api} {s : Str} {b : Bytes} :
    api.humanize b = .ok s ↔ api.human b = some s := by simp [Api.humanize]

theorem AssetInfo.equal_iff (a b : AssetInfo) : a.equal b = true ↔ a = b := by
  cases a <;> cases b <;> simp [AssetInfo.equal]

theorem AssetInfoRaw.equal_iff (a b : AssetInfoRaw) : a.equal b = true ↔ a = b := by
  cases a <;> cases b <;> simp [AssetInfoRaw.equal]

theorem queryPools_eq_ok {q : Querier} {api : Api} {me : Addr} {st : Pair.State} {p : Asset × Asset} :
    st.queryPools q api me = .ok p ↔
      st.assetInfos.1.toNormal api = .ok p.1.info ∧ st.assetInfos.2.toNormal api = .ok p.2.info ∧
      p.1.info.queryPool q api me = .ok p.1.amount ∧ p.2.info.queryPool q api me = .ok p.2.amount := by
  unfold PairInfoRaw.queryPools
  simp only [bind_eq_ok, pure_eq_ok]
  constructor
  · rintro ⟨_, h1, _, h2, _, h3, _, h4, rfl⟩
    exact ⟨h1, h2, h3, h4⟩
  · rintro ⟨h1, h2, h3, h4⟩
    exact ⟨_, h1, _, h2, _, h3, _, h4, rfl⟩

namespace Pair

theorem pick_eq_ok {st : State} {pools : Asset × Asset} {i : AssetInfo} {o a : Asset} {od ad : Nat} :
    pick st pools i = .ok ((o, a), (od, ad)) ↔
      (i = pools.1.info ∧ o = pools.1 ∧ a = pools.2 ∧ od = st.assetDecimals.1 ∧ ad = st.assetDecimals.2) ∨
      (i ≠ pools.1.info ∧ i = pools.2.info ∧ o = pools.2 ∧ a = pools.1 ∧ od = st.assetDecimals.2 ∧
        ad = st.assetDecimals.1) := by
  unfold pick
  by_cases h1 : i = pools.1.info
  · have h1' : i.equal pools.1.info = true := (AssetInfo.equal_iff _ _).mpr h1
    simp only [h1', ↓reduceIte, Except.ok.injEq, Prod.mk.injEq]
    constructor
    · rintro ⟨⟨rfl, rfl⟩, rfl, rfl⟩; exact .inl ⟨h1, rfl, rfl, rfl, rfl⟩
    · rintro (⟨_, rfl, rfl, rfl, rfl⟩ | ⟨h, _⟩)
      · simp
      · exact absurd h1 h
  · have h1' : i.equal pools.1.info = false := by
      rw [Bool.eq_false_iff, ne_eq, AssetInfo.equal_iff]; exact h1
    by_cases h2 : i = pools.2.info
    · simp only [h1', Bool.false_eq_true, ↓reduceIte, (AssetInfo.equal_iff _ _).mpr h2, Except.ok.injEq,
        Prod.mk.injEq, h1, false_and, false_or]
      constructor
      · rintro ⟨⟨rfl, rfl⟩, rfl, rfl⟩; exact ⟨h1, h2, rfl, rfl, rfl, rfl⟩
      · rintro ⟨_, _, rfl, rfl, rfl, rfl⟩; simp
    · have h2' : i.equal pools.2.info = false := by
        rw [Bool.eq_false_iff, ne_eq, AssetInfo.equal_iff]; exact h2
      simp [h1', h2', h1, h2]

/-- A successful swap, spelled out. -/
structure SwapOk (api : Api) (q : Querier) (me : Addr) (st : State) (sender : Str)
    (offer : Asset) (bp ms : Option Nat) (dst : Option Addr) (resp : Response)
    (o a : Asset) (od ad r s c : Nat) : Prop where
  h_pools : st.queryPools q api me = .ok (o, a) ∧ od = st.assetDecimals.1 ∧ ad = st.assetDecimals.2 ∨
    st.queryPools q api me = .ok (a, o) ∧ od = st.assetDecimals.2 ∧ ad = st.assetDecimals.1 ∧
      offer.info ≠ a.info
  h_info : offer.info = o.info
  h_le : offer.amount ≤ o.amount
  h_price : computeSwap (o.amount - offer.amount) a.amount offer.amount = .ok (r, s, c)
  h_spread : assertMaxSpread bp ms offer.amount r s od ad = .ok ()
  h_resp : resp = { messages := if r ≠ 0 then [plain (({ info := a.info, amount := r } : Asset).intoMsg (dst.getD sender))] else [],
                    events := [.swap sender (dst.getD sender) offer.info a.info offer.amount r s c] }

theorem swap_inv {api : Api} {q : Querier} {me : Addr} {st st' : State} {funds : List Coin} {sender : Str}
    {offer : Asset} {bp ms : Option Nat} {dst : Option Addr} {resp : Response}
    (h : swap api q me st funds sender offer bp ms dst = .ok (st', resp)) :
    st' = st ∧ offer.assertSent funds = .ok () ∧
    ∃ o a od ad r s c, SwapOk api q me st sender offer bp ms dst resp o a od ad r s c := by
  unfold swap at h
  simp only [bind_eq_ok, pure_eq_ok, Prod.exists, Uint128.checkedSub_eq_ok, Prod.mk.injEq] at h
  obtain ⟨_, h1, p0, p1, h2, o, a, od, ad, h3, _, ⟨h4, rfl⟩, r, s, c, h5, _, h6, rfl, rfl⟩ := h
  refine ⟨rfl, h1, o, a, od, ad, r, s, c, ?_⟩
  rw [pick_eq_ok] at h3
  rcases h3 with ⟨h3, rfl, rfl, rfl, rfl⟩ | ⟨h3', h3, rfl, rfl, rfl, rfl⟩
  · exact ⟨.inl ⟨h2, rfl, rfl⟩, h3, h4, h5, h6, rfl⟩
  · exact ⟨.inr ⟨h2, rfl, rfl, h3'⟩, h3, h4, h5, h6, rfl⟩

theorem isAssetToken_iff {pools : Asset × Asset} {caller : Addr} :
    isAssetToken pools caller = true ↔ pools.1.info = .token caller ∨ pools.2.info = .token caller := by
  unfold isAssetToken
  simp only [List.any_cons, List.any_nil, Bool.or_false, Bool.or_eq_true]
  cases h1 : pools.1.info <;> cases h2 : pools.2.info <;> simp

theorem optValidate_eq_ok {api : Api} {o : Option Str} {r : Option Addr} :
    optValidate api o = .ok r ↔ r = o ∧ ∀ s, o = some s → api.validate s = .ok s := by
  cases o with
  | none => simp [optValidate, eq_comm]
  | some s =>
    simp only [optValidate, bind_eq_ok, pure_eq_ok, Option.some.injEq]
    constructor
    · rintro ⟨a, h, rfl⟩
      have := (validate_eq_ok.mp h).1
      subst this
      exact ⟨rfl, fun s' hs => by subst hs; exact h⟩
    · rintro ⟨rfl, h⟩
      exact ⟨s, h s rfl, rfl⟩

theorem receive_swap_inv {api : Api} {q : Querier} {me : Addr} {st st' : State} {caller : Addr}
    {funds : List Coin} {sender : Str} {amount : Nat} {bp ms : Option Nat} {dst : Option Str} {resp : Response}
    (h : receiveCw20 api q me st caller funds sender amount (.swap bp ms dst) = .ok (st', resp)) :
    st' = st ∧ (∀ s, dst = some s → api.validate s = .ok s) ∧
    ∃ o a od ad r s c,
      SwapOk api q me st sender { info := .token caller, amount := amount } bp ms dst resp o a od ad r s c := by
  unfold receiveCw20 at h
  simp only [bind_eq_ok, optValidate_eq_ok, require_eq_ok] at h
  obtain ⟨_, _, _, _, _, ⟨rfl, hto⟩, h⟩ := h
  obtain ⟨h1, _, h2⟩ := swap_inv h
  exact ⟨h1, hto, h2⟩

theorem swap_of {api : Api} {q : Querier} {me : Addr} {st : State} {funds : List Coin} {sender : Str}
    {offer : Asset} {bp ms : Option Nat} {dst : Option Addr} {resp : Response} {o a : Asset} {od ad r s c : Nat}
    (hs : offer.assertSent funds = .ok ())
    (h : SwapOk api q me st sender offer bp ms dst resp o a od ad r s c) :
    swap api q me st funds sender offer bp ms dst = .ok (st, resp) := by
  unfold swap
  simp only [bind_eq_ok, pure_eq_ok, Prod.exists, Uint128.checkedSub_eq_ok, Prod.mk.injEq]
  rcases h.h_pools with ⟨h2, rfl, rfl⟩ | ⟨h2, rfl, rfl, hne⟩
  · exact ⟨(), hs, o, a, h2, o, a, _, _, pick_eq_ok.mpr (.inl ⟨h.h_info, rfl, rfl, rfl, rfl⟩), _, ⟨h.h_le, rfl⟩,
      r, s, c, h.h_price, (), h.h_spread, trivial, h.h_resp.symm⟩
  · exact ⟨(), hs, a, o, h2, o, a, _, _, pick_eq_ok.mpr (.inr ⟨hne, h.h_info, rfl, rfl, rfl, rfl⟩), _, ⟨h.h_le, rfl⟩,
      r, s, c, h.h_price, (), h.h_spread, trivial, h.h_resp.symm⟩

theorem receive_swap_of {api : Api} {q : Querier} {me : Addr} {st : State} {caller : Addr}
    {funds : List Coin} {sender : Str} {amount : Nat} {bp ms : Option Nat} {dst : Option Str} {resp : Response}
    {o a : Asset} {od ad r s c : Nat} (hv : ∀ s, dst = some s → api.validate s = .ok s)
    (h : SwapOk api q me st sender { info := .token caller, amount := amount } bp ms dst resp o a od ad r s c) :
    receiveCw20 api q me st caller funds sender amount (.swap bp ms dst) = .ok (st, resp) := by
  unfold receiveCw20
  simp only [bind_eq_ok, optValidate_eq_ok, require_eq_ok]
  have hi := h.h_info
  rcases h.h_pools with ⟨h2, _⟩ | ⟨h2, _⟩
  · exact ⟨_, h2, (), isAssetToken_iff.mpr (.inl hi.symm), _, ⟨rfl, hv⟩, swap_of rfl h⟩
  · exact ⟨_, h2, (), isAssetToken_iff.mpr (.inr hi.symm), _, ⟨rfl, hv⟩, swap_of rfl h⟩

/-- A successful withdrawal, spelled out. -/
structure WithdrawOk (api : Api) (q : Querier) (me : Addr) (st : State) (sender : Addr) (amount : Nat)
    (resp : Response) (p0 p1 : Asset) (lt : Addr) (ti : TokenInfoResp) (ratio r0 r1 : Nat) : Prop where
  h_pools : st.queryPools q api me = .ok (p0, p1)
  h_lt : api.human st.liquidityToken = some lt
  h_supply : q.tokenInfo lt = .ok ti
  h_ratio : Uint128.decFromRatio amount ti.totalSupply = .ok ratio
  h_r0 : Uint128.mulDecimal p0.amount ratio = .ok r0
  h_r1 : Uint128.mulDecimal p1.amount ratio = .ok r1
  h_resp : resp = { messages := [plain (({ info := p0.info, amount := r0 } : Asset).intoMsg sender),
                               plain (({ info := p1.info, amount := r1 } : Asset).intoMsg sender),
                               plain (.exec lt (.burn amount) [])],
                    events := [.withdrawLiquidity sender amount ({ info := p0.info, amount := r0 }, { info := p1.info, amount := r1 })] }

theorem withdraw_inv {api : Api} {q : Querier} {me : Addr} {st st' : State} {sender : Addr} {amount : Nat}
    {resp : Response} (h : withdrawLiquidity api q me st sender amount = .ok (st', resp)) :
    st' = st ∧ ∃ p0 p1 lt ti ratio r0 r1, WithdrawOk api q me st sender amount resp p0 p1 lt ti ratio r0 r1 := by
  unfold withdrawLiquidity at h
  simp only [bind_eq_ok, pure_eq_ok, Prod.exists, humanize_eq_ok, Prod.mk.injEq] at h
  obtain ⟨lt, h1, p0, p1, h2, ti, h3, ratio, h4, r0, h5, r1, h6, lt', h7, rfl, rfl⟩ := h
  rw [h1] at h7
  cases h7
  exact ⟨rfl, p0, p1, lt, ti, ratio, r0, r1, h2, h1, h3, h4, h5, h6, rfl⟩

theorem receive_withdraw_inv {api : Api} {q : Querier} {me : Addr} {st st' : State} {caller : Addr}
    {funds : List Coin} {sender : Str} {amount : Nat} {resp : Response}
    (h : receiveCw20 api q me st caller funds sender amount .withdrawLiquidity = .ok (st', resp)) :
    st' = st ∧ api.canon caller = some st.liquidityToken ∧ api.validate sender = .ok sender ∧
    ∃ p0 p1 lt ti ratio r0 r1, WithdrawOk api q me st sender amount resp p0 p1 lt ti ratio r0 r1 := by
  unfold receiveCw20 at h
  simp only [bind_eq_ok, require_eq_ok, canonicalize_eq_ok] at h
  obtain ⟨c, h1, _, rfl, s, h2, h⟩ := h
  have := (validate_eq_ok.mp h2).1
  subst this
  obtain ⟨h3, h4⟩ := withdraw_inv h
  exact ⟨h3, h1, h2, h4⟩

theorem depositFor_eq_ok {assets : Asset × Asset} {i : AssetInfo} {d : Nat} :
    depositFor assets i = .ok d ↔
      (assets.1.info = i ∧ d = assets.1.amount) ∨ (assets.1.info ≠ i ∧ assets.2.info = i ∧ d = assets.2.amount) := by
  unfold depositFor
  by_cases h1 : assets.1.info = i
  · have : assets.1.info.equal i = true := (AssetInfo.equal_iff _ _).mpr h1
    simp only [List.find?, this, Except.ok.injEq]
    exact ⟨fun h => .inl ⟨h1, h.symm⟩, fun h => by rcases h with h | h; exacts [h.2.symm, absurd h1 h.1]⟩
  · have h1' : assets.1.info.equal i = false := by
      rw [Bool.eq_false_iff, ne_eq, AssetInfo.equal_iff]; exact h1
    by_cases h2 : assets.2.info = i
    · have : assets.2.info.equal i = true := (AssetInfo.equal_iff _ _).mpr h2
      simp only [List.find?, h1', this, Except.ok.injEq]
      exact ⟨fun h => .inr ⟨h1, h2, h.symm⟩, fun h => by rcases h with h | h; exacts [absurd h.1 h1, h.2.2.symm]⟩
    · have h2' : assets.2.info.equal i = false := by
        rw [Bool.eq_false_iff, ne_eq, AssetInfo.equal_iff]; exact h2
      simp [List.find?, h1', h2', h1, h2]

/-- How one side of a deposit is collected. -/
def collectMsg (me sender : Addr) (i : AssetInfo) (d : Nat) : List CosmosMsg :=
  match i with
  | .token t => [.exec t (.transferFrom sender me d) []]
  | .native _ => []

/-- The reserve the deposit is compared against: native deposits are already in the balance. -/
def priorPool (p : Asset) (d : Nat) : Nat :=
  match p.info with
  | .token _ => p.amount
  | .native _ => p.amount - d

theorem collect_eq_ok {me sender : Addr} {p p' : Asset} {d : Nat} {ms : List CosmosMsg} :
    collect me sender p d = .ok (ms, p') ↔
      (p.info.isNative = true → d ≤ p.amount) ∧ ms = collectMsg me sender p.info d ∧
      p' = { info := p.info, amount := priorPool p d } := by
  unfold collect collectMsg priorPool
  cases h : p.info with
  | token t =>
    simp only [Except.ok.injEq, Prod.mk.injEq, AssetInfo.isNative, Bool.false_eq_true, false_implies, true_and]
    constructor
    · rintro ⟨rfl, rfl⟩; refine ⟨rfl, ?_⟩; rw [← h]
    · rintro ⟨rfl, rfl⟩; refine ⟨rfl, ?_⟩; rw [← h]
  | native dn =>
    simp only [bind_eq_ok, Uint128.checkedSub_eq_ok, pure_eq_ok, Prod.mk.injEq, AssetInfo.isNative, true_implies]
    constructor
    · rintro ⟨_, ⟨h1, rfl⟩, rfl, rfl⟩; exact ⟨h1, rfl, rfl⟩
    · rintro ⟨h1, rfl, rfl⟩; exact ⟨_, ⟨h1, rfl⟩, rfl, rfl⟩

/-- A successful deposit, spelled out. -/
structure ProvideOk (api : Api) (q : Querier) (me : Addr) (st : State) (sender : Addr)
    (funds : List Coin) (assets : Asset × Asset) (tol : Option Nat) (receiver : Option Str)
    (resp : Response) (p0 p1 : Asset) (d0 d1 : Nat) (lt : Addr) (ti : TokenInfoResp) (share : Nat) : Prop where
  h_sent0 : assets.1.assertSent funds = .ok ()
  h_sent1 : assets.2.assertSent funds = .ok ()
  h_pools : st.queryPools q api me = .ok (p0, p1)
  h_d0 : depositFor assets p0.info = .ok d0
  h_d1 : depositFor assets p1.info = .ok d1
  h_le0 : p0.info.isNative = true → d0 ≤ p0.amount
  h_le1 : p1.info.isNative = true → d1 ≤ p1.amount
  h_slippage : assertSlippageTolerance tol (d0, d1) (priorPool p0 d0, priorPool p1 d1) = .ok ()
  h_lt : api.human st.liquidityToken = some lt
  h_supply : q.tokenInfo lt = .ok ti
  h_share : shareFor st.requirements sender ti.totalSupply (d0, d1) (priorPool p0 d0, priorPool p1 d1) = .ok share
  h_nonzero : share ≠ 0
  h_resp : resp = { messages := (collectMsg me sender p0.info d0 ++ collectMsg me sender p1.info d1 ++
                      [CosmosMsg.exec lt (.mint (receiver.getD sender) share) []]).map plain,
                    events := [.provideLiquidity sender (receiver.getD sender) assets share] }

theorem provide_inv {api : Api} {q : Querier} {me : Addr} {st st' : State} {sender : Addr}
    {funds : List Coin} {assets : Asset × Asset} {tol : Option Nat} {receiver : Option Str} {resp : Response}
    (h : provideLiquidity api q me st sender funds assets tol receiver = .ok (st', resp)) :
    st' = st ∧ ∃ p0 p1 d0 d1 lt ti share,
      ProvideOk api q me st sender funds assets tol receiver resp p0 p1 d0 d1 lt ti share := by
  unfold provideLiquidity at h
  simp only [bind_eq_ok, pure_eq_ok, Prod.exists, humanize_eq_ok, Prod.mk.injEq, collect_eq_ok,
    require_eq_ok] at h
  obtain ⟨_, h1, _, h2, p0, p1, h3, d0, h4, d1, h5, _, _, ⟨h6, rfl, rfl⟩, _, _, ⟨h7, rfl, rfl⟩, _, h8, lt, h9,
    ti, h10, share, h11, _, h12, lt', h13, rfl, rfl⟩ := h
  rw [h9] at h13
  cases h13
  exact ⟨rfl, p0, p1, d0, d1, lt, ti, share, h1, h2, h3, h4, h5, h6, h7, h8, h9, h10, h11, h12, rfl⟩

theorem provide_of {api : Api} {q : Querier} {me : Addr} {st : State} {sender : Addr}
    {funds : List Coin} {assets : Asset × Asset} {tol : Option Nat} {receiver : Option Str} {resp : Response}
    {p0 p1 : Asset} {d0 d1 : Nat} {lt : Addr} {ti : TokenInfoResp} {share : Nat}
    (h : ProvideOk api q me st sender funds assets tol receiver resp p0 p1 d0 d1 lt ti share) :
    provideLiquidity api q me st sender funds assets tol receiver = .ok (st, resp) := by
  unfold provideLiquidity
  simp only [bind_eq_ok, pure_eq_ok, Prod.exists, humanize_eq_ok, Prod.mk.injEq, collect_eq_ok,
    require_eq_ok]
  exact ⟨(), h.h_sent0, (), h.h_sent1, p0, p1, h.h_pools, d0, h.h_d0, d1, h.h_d1, _, _, ⟨h.h_le0, rfl, rfl⟩, _, _,
    ⟨h.h_le1, rfl, rfl⟩, (), h.h_slippage, lt, h.h_lt, ti, h.h_supply, share, h.h_share, (), h.h_nonzero, lt, h.h_lt,
    trivial, h.h_resp.symm⟩

theorem receive_withdraw_of {api : Api} {q : Querier} {me : Addr} {st : State} {caller : Addr}
    {funds : List Coin} {sender : Str} {amount : Nat} {resp : Response}
    {p0 p1 : Asset} {lt : Addr} {ti : TokenInfoResp} {ratio r0 r1 : Nat}
    (hc : api.canon caller = some st.liquidityToken) (hv : api.validate sender = .ok sender)
    (h : WithdrawOk api q me st sender amount resp p0 p1 lt ti ratio r0 r1) :
    receiveCw20 api q me st caller funds sender amount .withdrawLiquidity = .ok (st, resp) := by
  unfold receiveCw20 withdrawLiquidity
  simp only [bind_eq_ok, require_eq_ok, canonicalize_eq_ok, pure_eq_ok, Prod.exists, humanize_eq_ok, Prod.mk.injEq]
  exact ⟨_, hc, (), rfl, _, hv, lt, h.h_lt, p0, p1, h.h_pools, ti, h.h_supply, ratio, h.h_ratio, r0, h.h_r0, r1, h.h_r1,
    lt, h.h_lt, trivial, h.h_resp.symm⟩

/-- The pair understands two messages only. -/
theorem execute_inv {api : Api} {q : Querier} {me : Addr} {st : State} {caller : Addr} {funds : List Coin}
    {m : ExecMsg} {res : State × Response} (h : execute api q me st caller funds m = .ok res) :
    (∃ sender amount bp ms dst, m = .receive sender amount (.swap bp ms dst) ∧
      receiveCw20 api q me st caller funds sender amount (.swap bp ms dst) = .ok res) ∨
    (∃ sender amount, m = .receive sender amount .withdrawLiquidity ∧
      receiveCw20 api q me st caller funds sender amount .withdrawLiquidity = .ok res) ∨
    (∃ assets tol receiver, m = .provideLiquidity assets tol receiver ∧
      provideLiquidity api q me st caller funds assets tol receiver = .ok res) := by
  unfold execute at h
  split at h
  · rename_i sender amount msg
    cases msg with
    | swap bp ms dst => exact .inl ⟨_, _, _, _, _, rfl, h⟩
    | withdrawLiquidity => exact .inr (.inl ⟨_, _, rfl, h⟩)
    | executeSwapOperations => simp [receiveCw20] at h
    | raw => simp [receiveCw20] at h
  · exact .inr (.inr ⟨_, _, _, rfl, h⟩)
  · cases h

end Pair
end Halo
