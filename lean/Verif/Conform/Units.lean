import Verif.Pair
import Verif.Factory
import Verif.Router
import Verif.Text
import Verif.Token
import Verif.Wide
/-! # The project's own unit tests, run against the model

No property is proved here. Each `example` transcribes one assertion of the repository's tests and lets the kernel evaluate
the model on it, as evidence that the definitions say what the Rust code says. The tests are
`contracts/halo-pair/src/testing.rs`, `contracts/halo-factory/src/testing.rs`, `contracts/halo-router/src/testing/tests.rs`,
`contracts/halo-token/src/integration_test.rs`, `packages/haloswap/src/{testing,token}.rs` and `packages/bignumber/src/math.rs`.

Simplifications: the mock address codec is taken to be the identity (the tests only ever read addresses back), errors are
compared by constructor, and `label`s are not modelled. -/

namespace Halo
namespace Conform

instance {α : Type} [DecidableEq α] : DecidableEq (R α) := fun a b =>
  match a, b with
  | .ok x, .ok y => if h : x = y then isTrue (by rw [h]) else isFalse (by simpa using h)
  | .error x, .error y => if h : x = y then isTrue (by rw [h]) else isFalse (by simpa using h)
  | .ok _, .error _ => isFalse (by simp)
  | .error _, .ok _ => isFalse (by simp)

/-- `MockApi`, with the identity as codec. -/
def api : Api := { canon := fun s => some s, human := fun b => some b }

/-- `MOCK_CONTRACT_ADDR`. -/
def me : Addr := asc "cosmos2contract"

def tok (s : String) : AssetInfo := .token (asc s)
def nat (s : String) : AssetInfo := .native (asc s)
def of (n : Nat) (i : AssetInfo) : Asset := ⟨i, n⟩
def coin (n : Nat) (d : String) : Coin := ⟨asc d, n⟩

/-- What a test puts into `WasmMockQuerier` (`packages/haloswap/src/mock_querier.rs`). -/
structure Mock where
  coins : List (Addr × Denom × Nat) := []
  tokens : List (Addr × List (Addr × Nat)) := []
  pairs : List PairInfo := []
  decimals : List (Denom × Nat) := []

def noReq : Requirements := ⟨[asc "deployer"], 0, 0⟩

/-- `WasmMockQuerier::handle_query` (`mock_querier.rs`). The pairs are found by their assets in either order; tokens all
have eight decimals; a pair quotes the amount it is asked about. -/
def Mock.q (m : Mock) : Querier where
  balance a d := .ok (((m.coins.find? fun e => e.1 == a && e.2.1 == d).map (·.2.2)).getD 0)
  tokenBalance t a := match m.tokens.find? (·.1 == t) with
    | none => .error .notFound
    | some e => .ok (((e.2.find? (·.1 == a)).map (·.2)).getD 0)
  tokenInfo t := match m.tokens.find? (·.1 == t) with
    | none => .error .notFound
    | some e => .ok ⟨asc "mAAPL", asc "mAAPL", 8, (e.2.map (·.2)).sum⟩
  nativeDecimals _ d := okOr ((m.decimals.find? (·.1 == d)).map (·.2)) .notFound
  pairInfo _ i := okOr (m.pairs.find? fun p => p.assetInfos == i || p.assetInfos == (i.2, i.1)) .notFound
  simulate _ a := .ok ⟨a.amount, 0, 0⟩
  reverseSimulate _ a := .ok ⟨a.amount, 0, 0⟩
  pairInfoFromPair _ := .ok ⟨(nat "uluna", nat "uluna"), asc "pair0000", asc "liquidity0000", (6, 6), noReq⟩

/-- The messages of a response. -/
def msgs {α : Type} (r : R (α × Response)) : R (List SubMsg) := do
  let x ← r
  return x.2.messages

/-- The attributes of a response. -/
def attrs {α : Type} (r : R (α × Response)) : R (List (Str × Str)) := do
  let x ← r
  return (x.2.events.map Event.attributes).flatten

/-- The outcome without the value. -/
def outcome {α : Type} (r : R α) : R Unit := do
  let _ ← r
  return ()

/-! ## `contracts/halo-pair/src/testing.rs` -/

def pairReq : Requirements := ⟨[asc "addr0000"], 0, 0⟩

/-- The state after `instantiate` and `reply`, as every test of the pair sets it up. -/
def pairSt (i : AssetInfo × AssetInfo) (d : Nat × Nat) : R Pair.State := do
  let (s, _) ← Pair.instantiate api me ⟨i, 10, d, pairReq⟩
  let (s, _) ← Pair.reply api s (some (asc "liquidity0000"))
  return s

/-- `proper_initialization`: the message that creates the liquidity token. -/
example : msgs (Pair.instantiate api me ⟨(nat "uusd", tok "asset0000"), 10, (6, 8), pairReq⟩) =
    .ok [⟨.inst none 10 (.token ⟨asc "halo liquidity token", asc "uLP", 6, [], some ⟨me, none⟩⟩) [], some 1⟩] := by
  decide +kernel

/-- `proper_initialization`: what `Pair {}` answers afterwards. -/
example : (do let s ← pairSt (nat "uusd", tok "asset0000") (6, 8); Pair.queryPairInfo api s) =
    .ok ⟨(nat "uusd", tok "asset0000"), me, asc "liquidity0000", (6, 8), pairReq⟩ := by decide +kernel

def pairMock (uusd lp token : Nat) : Mock :=
  { coins := [(me, asc "uusd", uusd)],
    tokens := [(asc "liquidity0000", [(me, lp)]), (asc "asset0000", [(me, token)])] }

/-- A deposit as the tests make it. -/
def deposit (m : Mock) (sender : String) (funds : List Coin) (assets : Asset × Asset) (tol : Option Nat)
    (rcv : Option Str) : R (Pair.State × Response) := do
  let s ← pairSt (nat "uusd", tok "asset0000") (6, 8)
  Pair.execute api m.q me s (asc sender) funds (.provideLiquidity assets tol rcv)

/-- `provide_liquidity`: the first deposit. -/
example : msgs (deposit (pairMock 200 0 0) "addr0000" [coin 100 "uusd"]
      (of 100 (tok "asset0000"), of 100 (nat "uusd")) none none) =
    .ok [plain (.exec (asc "asset0000") (.transferFrom (asc "addr0000") me 100) []),
      plain (.exec (asc "liquidity0000") (.mint (asc "addr0000") 100) [])] := by decide +kernel

/-- `provide_liquidity`: the second deposit, for somebody else. -/
example : msgs (deposit (pairMock 400 100 200) "addr0000" [coin 200 "uusd"]
      (of 100 (tok "asset0000"), of 200 (nat "uusd")) none (some (asc "staking0000"))) =
    .ok [plain (.exec (asc "asset0000") (.transferFrom (asc "addr0000") me 100) []),
      plain (.exec (asc "liquidity0000") (.mint (asc "staking0000") 50) [])] := by decide +kernel

/-- `provide_liquidity`: another amount than the coins that came along. -/
example : outcome (deposit (pairMock 200 0 0) "addr0000" [coin 100 "uusd"]
      (of 100 (tok "asset0000"), of 50 (nat "uusd")) none none) = .error (.generic 10) := by decide +kernel

/-- `provide_liquidity`: a tolerance of one percent is exceeded, either way round. -/
example : outcome (deposit (pairMock 200 100 100) "addr0001" [coin 100 "uusd"]
      (of 98 (tok "asset0000"), of 100 (nat "uusd")) (some (10 ^ 16)) none) = .error .maxSlippage := by decide +kernel
example : outcome (deposit (pairMock 198 100 100) "addr0001" [coin 98 "uusd"]
      (of 100 (tok "asset0000"), of 98 (nat "uusd")) (some (10 ^ 16)) none) = .error .maxSlippage := by decide +kernel

/-- `provide_liquidity`: a tolerance of one percent is kept, either way round. -/
example : outcome (deposit (pairMock 200 100 100) "addr0001" [coin 100 "uusd"]
      (of 99 (tok "asset0000"), of 100 (nat "uusd")) (some (10 ^ 16)) none) = .ok () := by decide +kernel
example : outcome (deposit (pairMock 199 100 100) "addr0001" [coin 99 "uusd"]
      (of 100 (tok "asset0000"), of 99 (nat "uusd")) (some (10 ^ 16)) none) = .ok () := by decide +kernel

/-- A withdrawal as the test makes it. -/
def withdrawal : R (Pair.State × Response) := do
  let s ← pairSt (nat "uusd", tok "asset0000") (6, 8)
  Pair.execute api (pairMock 100 100 100).q me s (asc "liquidity0000") []
    (.receive (asc "addr0000") 100 .withdrawLiquidity)

/-- `withdraw_liquidity`: the messages and the attributes. -/
example : msgs withdrawal =
    .ok [plain (.bankSend (asc "addr0000") [coin 100 "uusd"]),
      plain (.exec (asc "asset0000") (.transfer (asc "addr0000") 100) []),
      plain (.exec (asc "liquidity0000") (.burn 100) [])] := by decide +kernel
example : (do let a ← attrs withdrawal; return a.drop 2) =
    (.ok [(asc "withdrawn_share", asc "100"), (asc "refund_assets", asc "100uusd, 100asset0000")] : R _) := by decide +kernel

/-- A swap of the token for coins as `try_token_to_native` makes it. -/
def tokenToNative (caller : String) : R (Pair.State × Response) := do
  let s ← pairSt (nat "uusd", tok "asset0000") (8, 8)
  Pair.execute api (pairMock 20000000000 0 (30000000000 + 1500000000)).q me s (asc caller) []
    (.receive (asc "addr0000") 1500000000 (.swap none none none))

/-- `try_token_to_native`: only the token itself may call. -/
example : outcome (tokenToNative "addr0000") = .error .unauthorized := by decide +kernel
example : outcome (tokenToNative "liquidity0000") = .error .unauthorized := by decide +kernel

/-- `try_token_to_native`: gross 952380952, commission three per mille of it. -/
example : msgs (tokenToNative "asset0000") =
    .ok [plain (.bankSend (asc "addr0000") [coin (952380952 - 2857142) "uusd"])] := by decide +kernel
example : attrs (tokenToNative "asset0000") =
    .ok [(asc "action", asc "swap"), (asc "sender", asc "addr0000"), (asc "receiver", asc "addr0000"),
      (asc "offer_asset", asc "asset0000"), (asc "ask_asset", asc "uusd"), (asc "offer_amount", asc "1500000000"),
      (asc "return_amount", asc "949523810"), (asc "spread_amount", asc "47619047"),
      (asc "commission_amount", asc "2857142")] := by decide +kernel

/-- `try_token_to_native`: the quote before the swap is what the swap pays. -/
example : (do
      let s ← pairSt (nat "uusd", tok "asset0000") (8, 8)
      Pair.querySimulation api (pairMock 20000000000 0 30000000000).q s (of 1500000000 (tok "asset0000"))) =
    .ok ⟨949523810, 47619047, 2857142⟩ := by decide +kernel

/-- `try_token_to_native`: the reverse quote is within three of the offer, of the spread and of the commission. -/
example : (do
      let s ← pairSt (nat "uusd", tok "asset0000") (8, 8)
      let r ← Pair.queryReverseSimulation api (pairMock 20000000000 0 30000000000).q s (of 949523810 (nat "uusd"))
      return (decide (1500000000 - r.amount < 3 ∧ r.amount - 1500000000 < 3 ∧ 47619047 - r.spread < 3 ∧
        r.spread - 47619047 < 3 ∧ 2857142 - r.commission < 3 ∧ r.commission - 2857142 < 3))) =
    (.ok true : R Bool) := by decide +kernel

/-- `test_max_spread`: a belief price of 1200 and one percent. -/
example : Pair.assertMaxSpread (some (1200 * 10 ^ 18)) (some (10 ^ 16)) 1200000000 989999 0 6 6 = .error .maxSpread := by
  decide +kernel
example : Pair.assertMaxSpread (some (1200 * 10 ^ 18)) (some (10 ^ 16)) 1200000000 990000 0 6 6 = .ok () := by decide +kernel

/-- `test_max_spread`: no belief price. -/
example : Pair.assertMaxSpread none (some (10 ^ 16)) 0 989999 10001 6 6 = .error .maxSpread := by decide +kernel
example : Pair.assertMaxSpread none (some (10 ^ 16)) 0 990000 10000 6 6 = .ok () := by decide +kernel

/-- `test_max_spread_with_diff_decimal`. -/
example : Pair.assertMaxSpread (some (1200 * 10 ^ 18)) (some (10 ^ 16)) 1200000000 100000000 0 6 8 = .ok () := by
  decide +kernel
example : Pair.assertMaxSpread (some (1200 * 10 ^ 18)) (some (10 ^ 16)) 1200000000 98999999 0 6 8 = .error .maxSpread := by
  decide +kernel
example : Pair.assertMaxSpread (some (1200 * 10 ^ 18)) (some (10 ^ 16)) 120000000000 1000000 0 8 6 = .ok () := by
  decide +kernel
example : Pair.assertMaxSpread (some (1200 * 10 ^ 18)) (some (10 ^ 16)) 120000000000 989999 0 8 6 = .error .maxSpread := by
  decide +kernel

/-- `test_query_pool`. -/
example : (do
      let s ← pairSt (nat "uusd", tok "asset0000") (6, 8)
      Pair.queryPool api (pairMock 222 111 333).q s) =
    .ok ⟨(of 222 (nat "uusd"), of 333 (tok "asset0000")), 111⟩ := by decide +kernel

/-- `test_compute_swap_with_huge_pool_variance` (`contracts/halo-pair/src/contract.rs:636-645`). -/
example : (do let r ← Pair.computeSwap 395451850234 317 1; return r.1) = (.ok 0 : R Nat) := by decide +kernel

/-! ## `contracts/halo-factory/src/testing.rs` -/

/-- What `init` sets up: eight decimals for one token, none for the coins. -/
def facMock (d : List (Denom × Nat)) (coins : List (Denom × Nat) := []) : Mock :=
  { coins := coins.map fun e => (me, e.1, e.2), tokens := [(asc "asset0001", [(asc "addr0000", 0)])], decimals := d }

def facSt : R Factory.State := do
  let (s, _) ← Factory.instantiate api (asc "addr0000") 321 123
  return s

/-- A message to the factory. -/
def fac (m : Mock) (sender : String) (x : ExecMsg) (s : Factory.State) : R (Factory.State × Response) :=
  Factory.execute api m.q me s (asc sender) x

/-- `proper_initialization`. -/
example : (do let s ← facSt; Factory.queryConfig api s) = .ok (asc "addr0000", 321, 123) := by decide +kernel

/-- `update_config`: a new owner, then new codes from the new owner; the old one is refused. -/
example : (do
      let s ← facSt
      let (s, r) ← fac {} "addr0000" (.updateConfig (some (asc "addr0001")) none none) s
      let c ← Factory.queryConfig api s
      let (s, r') ← fac {} "addr0001" (.updateConfig none (some 200) (some 100)) s
      let c' ← Factory.queryConfig api s
      return ((r.messages, r'.messages), (c, c'))) =
    (.ok (([], []), ((asc "addr0001", 321, 123), (asc "addr0001", 100, 200))) : R ((List SubMsg × List SubMsg) × _)) := by
  decide +kernel
example : outcome (do
      let s ← facSt
      let (s, _) ← fac {} "addr0000" (.updateConfig (some (asc "addr0001")) none none) s
      fac {} "addr0000" (.updateConfig none none none) s) = .error (.generic 40) := by decide +kernel

/-- `create_pair`: attributes, message and the note for the reply. -/
example : attrs (facSt >>= fac (facMock [(asc "uusd", 6)]) "addr0000" (.createPair (nat "uusd", tok "asset0001") noReq)) =
    .ok [(asc "action", asc "create_pair"), (asc "pair", asc "uusd-asset0001")] := by decide +kernel
example : msgs (facSt >>= fac (facMock [(asc "uusd", 6)]) "addr0000" (.createPair (nat "uusd", tok "asset0001") noReq)) =
    .ok [⟨.inst (some me) 321 (.pair (nat "uusd", tok "asset0001") 123 (6, 8) noReq) [], some 1⟩] := by decide +kernel
example : (do
      let s ← facSt
      let (s, _) ← fac (facMock [(asc "uusd", 6)]) "addr0000" (.createPair (nat "uusd", tok "asset0001") noReq) s
      return s.tmp) =
    (.ok (some ⟨Factory.pairKey (.native (asc "uusd"), .token (asc "asset0001")),
      (.native (asc "uusd"), .token (asc "asset0001")), (6, 8)⟩) : R _) := by decide +kernel

/-- `create_pair_native_token_and_ibc_token`. -/
example : attrs (facSt >>= fac (facMock [(asc "uusd", 6), (asc "ibc/HASH", 6)]) "addr0000"
      (.createPair (nat "uusd", nat "ibc/HASH") noReq)) =
    .ok [(asc "action", asc "create_pair"), (asc "pair", asc "uusd-ibc/HASH")] := by decide +kernel
example : msgs (facSt >>= fac (facMock [(asc "uusd", 6), (asc "ibc/HASH", 6)]) "addr0000"
      (.createPair (nat "uusd", nat "ibc/HASH") noReq)) =
    .ok [⟨.inst (some me) 321 (.pair (nat "uusd", nat "ibc/HASH") 123 (6, 6) noReq) [], some 1⟩] := by decide +kernel

/-- `fail_to_create_same_pair`, and the four tests with an asset nobody knows. -/
example : outcome (facSt >>= fac (facMock []) "addr0000" (.createPair (nat "uusd", nat "uusd") noReq)) =
    .error (.generic 41) := by decide +kernel
example : outcome (facSt >>= fac (facMock []) "addr0000" (.createPair (nat "uusd", nat "uxxx") noReq)) =
    .error (.generic 42) := by decide +kernel
example : outcome (facSt >>= fac (facMock []) "addr0000" (.createPair (nat "uluna", nat "xxx") noReq)) =
    .error (.generic 42) := by decide +kernel
example : outcome (facSt >>= fac {} "addr0000" (.createPair (nat "uluna", tok "xxx") noReq)) =
    .error (.generic 42) := by decide +kernel
example : outcome (facSt >>= fac {} "addr0000" (.createPair (nat "uluna", nat "ibc/HA") noReq)) =
    .error (.generic 42) := by decide +kernel

/-- `reply_test`: the entry written is the one read. -/
example : (do
      let s ← facSt
      let i : AssetInfoRaw × AssetInfoRaw := (.token (asc "asset0000"), .token (asc "asset0001"))
      let (s, _) ← Factory.reply api ({} : Mock).q { s with tmp := some ⟨Factory.pairKey i, i, (8, 8)⟩ } (some (asc "0000"))
      Factory.queryPair api s (tok "asset0000", tok "asset0001")) =
    .ok ⟨(tok "asset0000", tok "asset0001"), asc "0000", asc "liquidity0000", (8, 8), noReq⟩ := by decide +kernel

def luna (n : Nat) : Mock := facMock [] [(asc "uluna", n)]

/-- `normal_add_allow_native_token`. -/
example : attrs (facSt >>= fac (luna 1) "addr0000" (.addNativeTokenDecimals (asc "uluna") 6)) =
    .ok [(asc "action", asc "add_allow_native_token"), (asc "denom", asc "uluna"), (asc "decimals", asc "6")] := by
  decide +kernel

/-- `append_add_allow_native_token_with_already_exist_token`: the second entry replaces the first. -/
example : (do
      let s ← facSt
      let (s, _) ← fac (luna 1) "addr0000" (.addNativeTokenDecimals (asc "uluna") 6) s
      let a ← Factory.queryNativeTokenDecimals s (asc "uluna")
      let (s, _) ← fac (luna 1) "addr0000" (.addNativeTokenDecimals (asc "uluna") 7) s
      let b ← Factory.queryNativeTokenDecimals s (asc "uluna")
      return (a, b)) = (.ok (6, 7) : R _) := by decide +kernel

/-- `failed_add_allow_native_token_with_non_admin`, `failed_add_allow_native_token_with_zero_factory_balance`. -/
example : outcome (facSt >>= fac (luna 1) "noadmin" (.addNativeTokenDecimals (asc "uluna") 6)) = .error (.generic 40) := by
  decide +kernel
example : outcome (facSt >>= fac (luna 0) "addr0000" (.addNativeTokenDecimals (asc "uluna") 6)) = .error (.generic 45) := by
  decide +kernel

/-- `normal_migrate_pair`, `normal_migrate_pair_with_none_code_id_will_config_code_id`, `failed_migrate_pair_with_no_admin`. -/
example : msgs (facSt >>= fac (luna 1) "addr0000" (.migratePair (asc "contract0000") (some 123))) =
    .ok [plain (.migrate (asc "contract0000") 123)] := by decide +kernel
example : msgs (facSt >>= fac (luna 1) "addr0000" (.migratePair (asc "contract0000") none)) =
    .ok [plain (.migrate (asc "contract0000") 321)] := by decide +kernel
example : outcome (facSt >>= fac (luna 1) "noadmin" (.migratePair (asc "contract0000") none)) = .error (.generic 40) := by
  decide +kernel

/-! ## `contracts/halo-router/src/testing/tests.rs` -/

/-- A message to a freshly made router. -/
def rou (m : Mock) (sender : String) (x : ExecMsg) : R (Router.State × Response) := do
  let (s, _) ← Router.instantiate api (asc "halofactory")
  Router.execute api m.q me s (asc sender) x

/-- `proper_initialization`. -/
example : (do let (s, _) ← Router.instantiate api (asc "halofactory"); Router.queryConfig api s) =
    .ok (asc "halofactory") := by decide +kernel

def o1 : SwapOp := ⟨nat "ukrw", tok "asset0001"⟩
def o2 : SwapOp := ⟨tok "asset0001", nat "uluna"⟩
def o3 : SwapOp := ⟨nat "uluna", tok "asset0002"⟩
def have2 : Mock := { tokens := [(asc "asset0002", [(me, 1000000)])] }

/-- `execute_swap_operations`: nothing to do, three hops with a minimum, three hops through the hook. -/
example : outcome (rou have2 "addr0000" (.executeSwapOperations [] none none)) = .error (.generic 50) := by decide +kernel
example : msgs (rou have2 "addr0000" (.executeSwapOperations [o1, o2, o3] (some 1000000) none)) =
    .ok [plain (.exec me (.executeSwapOperation o1 none) []), plain (.exec me (.executeSwapOperation o2 none) []),
      plain (.exec me (.executeSwapOperation o3 (some (asc "addr0000"))) []),
      plain (.exec me (.assertMinimumReceive (tok "asset0002") 0 1000000 (asc "addr0000")) [])] := by decide +kernel
example : msgs (rou have2 "asset0000"
      (.receive (asc "addr0000") 1000000 (.executeSwapOperations [o1, o2, o3] none (some (asc "addr0002"))))) =
    .ok [plain (.exec me (.executeSwapOperation o1 none) []), plain (.exec me (.executeSwapOperation o2 none) []),
      plain (.exec me (.executeSwapOperation o3 (some (asc "addr0002"))) [])] := by decide +kernel

def known (i : AssetInfo × AssetInfo) (p : String) : PairInfo := ⟨i, asc p, asc "liquidity0000", (6, 6), noReq⟩
def oneHop : Mock :=
  { coins := [(me, asc "uusd", 1000000)], tokens := [(asc "asset", [(me, 1000000)])],
    pairs := [known (nat "uusd", tok "asset0000") "pair0000", known (tok "asset", nat "uusd") "pair0000"] }

/-- `execute_swap_operation`. -/
example : outcome (rou oneHop "addr0000" (.executeSwapOperation ⟨nat "uusd", tok "asset0000"⟩ none)) =
    .error (.generic 53) := by decide +kernel
example : msgs (rou oneHop "cosmos2contract" (.executeSwapOperation ⟨nat "uusd", tok "asset0000"⟩ none)) =
    .ok [plain (Router.assetIntoSwapMsg (asc "pair0000") (of 1000000 (nat "uusd")) none none)] := by decide +kernel
example : msgs (rou oneHop "cosmos2contract"
      (.executeSwapOperation ⟨nat "uusd", tok "asset0000"⟩ (some (asc "addr0000")))) =
    .ok [plain (Router.assetIntoSwapMsg (asc "pair0000") (of 1000000 (nat "uusd")) none (some (asc "addr0000")))] := by
  decide +kernel
example : msgs (rou oneHop "cosmos2contract"
      (.executeSwapOperation ⟨tok "asset", nat "uusd"⟩ (some (asc "addr0000")))) =
    .ok [plain (.exec (asc "asset")
      (.send (asc "pair0000") 1000000 (.swap none none (some (asc "addr0000")))) [])] := by decide +kernel

def quotes : Mock :=
  { coins := [(me, asc "ukrw", 1000000)], tokens := [(asc "asset0000", [(me, 1000000)])],
    pairs := [known (nat "ukrw", tok "asset0000") "pair0000", known (tok "asset0000", nat "uluna") "pair0001"] }

/-- `query_buy_with_routes`. -/
example : (do
      let (s, _) ← Router.instantiate api (asc "halofactory")
      Router.simulateSwapOperations api quotes.q s 1000000
        [⟨nat "ukrw", tok "asset0000"⟩, ⟨tok "asset0000", nat "uluna"⟩]) = .ok 1000000 := by decide +kernel

/-- `query_reverse_routes_with_from_native`. -/
example : (do
      let (s, _) ← Router.instantiate api (asc "halofactory")
      Router.reverseSimulateSwapOperations api quotes.q s 1000000 [⟨nat "ukrw", tok "asset0000"⟩]) = .ok 1000000 := by
  decide +kernel
example : outcome (rou quotes "addr0" (.executeSwapOperation ⟨nat "ukrw", tok "asset0000"⟩ none)) =
    .error (.generic 53) := by decide +kernel
example : msgs (rou quotes "cosmos2contract" (.executeSwapOperation ⟨nat "ukrw", tok "asset0000"⟩ none)) =
    .ok [plain (.exec (asc "pair0000") (.swapDirect none none none) [coin 1000000 "ukrw"])] := by decide +kernel

/-- `query_reverse_routes_with_to_native`. -/
example : (do
      let (s, _) ← Router.instantiate api (asc "halofactory")
      Router.reverseSimulateSwapOperations api quotes.q s 1000000 [⟨tok "asset0000", nat "ukrw"⟩]) = .ok 1000000 := by
  decide +kernel
example : msgs (rou quotes "addr0"
      (.receive (asc "addr0") 1000000 (.executeSwapOperations [⟨tok "asset0000", nat "ukrw"⟩] none none))) =
    .ok [plain (.exec me (.executeSwapOperation ⟨tok "asset0000", nat "ukrw"⟩ (some (asc "addr0"))) [])] := by decide +kernel
example : msgs (rou quotes "cosmos2contract" (.executeSwapOperation ⟨tok "asset0000", nat "ukrw"⟩ none)) =
    .ok [plain (.exec (asc "asset0000") (.send (asc "pair0000") 1000000 (.swap none none none)) [])] := by decide +kernel

def owns : Mock :=
  { coins := [(asc "addr0000", asc "uusd", 1000000)], tokens := [(asc "token0000", [(asc "addr0000", 1000000)])] }

/-- `assert_minimum_receive_native_token`, `assert_minimum_receive_token`. -/
example : outcome (rou owns "addr0000" (.assertMinimumReceive (nat "uusd") 0 1000000 (asc "addr0000"))) = .ok () := by
  decide +kernel
example : outcome (rou owns "addr0000" (.assertMinimumReceive (nat "uusd") 0 1000001 (asc "addr0000"))) =
    .error (.generic 52) := by decide +kernel
example : outcome (rou owns "addr0000" (.assertMinimumReceive (tok "token0000") 0 1000000 (asc "addr0000"))) = .ok () := by
  decide +kernel
example : outcome (rou owns "addr0000" (.assertMinimumReceive (tok "token0000") 0 1000001 (asc "addr0000"))) =
    .error (.generic 52) := by decide +kernel

/-- `test_invalid_operations` (`contracts/halo-router/src/contract.rs:359-411`). -/
example : outcome (Router.assertOperations []) = .error (.generic 51) := by decide +kernel
example : Router.assertOperations [o1, o2] = .ok () := by decide +kernel
example : Router.assertOperations [o1, o2, o3] = .ok () := by decide +kernel

/-! ## `packages/haloswap/src/testing.rs` -/

/-- `test_asset_info`. -/
example : (tok "asset0000").equal (nat "uusd") = false ∧ (tok "asset0000").equal (tok "asset0001") = false ∧
    (tok "asset0000").equal (tok "asset0000") = true ∧ (nat "uusd").isNative = true ∧ (tok "asset0000").isNative = false := by
  decide +kernel
example : (tok "asset0000").queryPool (pairMock 123 0 123).q api me = .ok 123 := by decide +kernel
example : (nat "uusd").queryPool (pairMock 123 0 123).q api me = .ok 123 := by decide +kernel

/-- `test_asset`. -/
example : (of 123123 (tok "asset0000")).intoMsg (asc "addr0000") =
    .exec (asc "asset0000") (.transfer (asc "addr0000") 123123) [] := by decide +kernel
example : (of 123123 (nat "uusd")).intoMsg (asc "addr0000") = .bankSend (asc "addr0000") [coin 123123 "uusd"] := by
  decide +kernel

/-- `test_assert_sent_native_token_balance`. -/
example : (of 0 (nat "uluna")).assertSent [] = .ok () := by decide +kernel
example : (of 1 (nat "uluna")).assertSent [coin 123 "uluna"] = .error (.generic 10) := by decide +kernel
example : (of 1 (nat "ulunc")).assertSent [coin 123 "uluna"] = .error (.generic 10) := by decide +kernel

/-- `test_asset_to_raw`, `test_asset_info_raw_equal`. -/
example : (do let r ← (tok "contract0000").toRaw api; r.toNormal api) = .ok (tok "contract0000") := by decide +kernel
example : (do let r ← (nat "uluna").toRaw api; r.toNormal api) = .ok (nat "uluna") := by decide +kernel
example : (AssetInfoRaw.native (asc "uluna")).equal (.native (asc "uluna")) = true ∧
    (AssetInfoRaw.native (asc "uluna")).equal (.native (asc "ulunc")) = false ∧
    (AssetInfoRaw.native (asc "uluna")).equal (.token (asc "contract0000")) = false ∧
    (AssetInfoRaw.token (asc "contract0000")).equal (.token (asc "contract0000")) = true ∧
    (AssetInfoRaw.token (asc "contract0000")).equal (.token (asc "contract000")) = false ∧
    (AssetInfoRaw.token (asc "contract0000")).equal (.native (asc "uluna")) = false := by decide +kernel

/-! ## `packages/haloswap/src/token.rs:60-149`, `contracts/halo-token/src/integration_test.rs` -/

def tokenInst (name symbol : String) (decimals : Nat) (mint : Option MinterResp) : TokenInst :=
  ⟨asc name, asc symbol, decimals, [], mint⟩
def minter1 : Option MinterResp := some ⟨asc "minter0000", some 1⟩

/-- `get_cap`, `validate`. -/
example : Token.getCapInst (tokenInst "test_token" "TNT" 6 minter1) = some 1 := by decide +kernel
example : Token.validate (tokenInst "test_token" "TNT" 6 minter1) = .ok () := by decide +kernel
example : outcome (Token.validate (tokenInst "a" "TNT" 6 minter1)) ≠ .ok () := by decide +kernel
example : outcome (Token.validate (tokenInst "test_token" "TN" 6 minter1)) ≠ .ok () := by decide +kernel
example : outcome (Token.validate (tokenInst "test_token" "TNT" 20 minter1)) ≠ .ok () := by decide +kernel

/-- `proper_initialization`, `proper_initialization_with_no_minter_data`, `proper_execute_mint`. -/
example : (do
      let s ← Token.instantiate api (tokenInst "Cafe Token" "CAFE" 6 (some ⟨asc "admin", some 90⟩))
      return Token.queryTokenInfo s) = (.ok ⟨asc "Cafe Token", asc "CAFE", 6, 0⟩ : R TokenInfoResp) := by decide +kernel
example : outcome (Token.instantiate api (tokenInst "Cafe Token" "CAFE" 6 none)) = .ok () := by decide +kernel
example : outcome (do
      let s ← Token.instantiate api (tokenInst "Cafe Token" "CAFE" 6 (some ⟨asc "admin", some 90⟩))
      Token.mint api s (asc "admin") (asc "user1") 10) = .ok () := by decide +kernel

/-! ## `packages/bignumber/src/math.rs:453-980` -/

/-- `decimal_one`, `decimal_zero`, `decimal_percent`, `decimal_permille`. -/
example : Dec256.one = DF ∧ Dec256.zero = 0 ∧ Dec256.percent 50 = .ok (DF / 2) ∧ Dec256.permille 125 = .ok (DF / 8) := by
  decide +kernel

/-- `decimal_from_ratio_works`, `decimal_from_ratio_panics_for_zero_denominator`. -/
example : Dec256.fromRatio 1 1 = .ok Dec256.one ∧ Dec256.fromRatio 53 53 = .ok Dec256.one ∧
    Dec256.fromRatio 125 125 = .ok Dec256.one ∧ Dec256.fromRatio 3 2 = Dec256.percent 150 ∧
    Dec256.fromRatio 150 100 = Dec256.percent 150 ∧ Dec256.fromRatio 333 222 = Dec256.percent 150 ∧
    Dec256.fromRatio 1 8 = Dec256.permille 125 ∧ Dec256.fromRatio 125 1000 = Dec256.permille 125 ∧
    Dec256.fromRatio 1 3 = .ok 333333333333333333 ∧ Dec256.fromRatio 2 3 = .ok 666666666666666666 := by decide +kernel
example : Dec256.fromRatio 1 0 = .error (.panic .divByZero) := by decide +kernel

/-- `decimal_from_str_works`. -/
example : Dec256.fromStr (asc "") = Dec256.percent 0 ∧ Dec256.fromStr (asc "0") = Dec256.percent 0 ∧
    Dec256.fromStr (asc "1") = Dec256.percent 100 ∧ Dec256.fromStr (asc "5") = Dec256.percent 500 ∧
    Dec256.fromStr (asc "42") = Dec256.percent 4200 ∧ Dec256.fromStr (asc "000") = Dec256.percent 0 ∧
    Dec256.fromStr (asc "001") = Dec256.percent 100 ∧ Dec256.fromStr (asc "005") = Dec256.percent 500 ∧
    Dec256.fromStr (asc "0042") = Dec256.percent 4200 := by decide +kernel
example : Dec256.fromStr (asc "1.") = Dec256.percent 100 ∧ Dec256.fromStr (asc "1.0") = Dec256.percent 100 ∧
    Dec256.fromStr (asc "1.5") = Dec256.percent 150 ∧ Dec256.fromStr (asc "0.5") = Dec256.percent 50 ∧
    Dec256.fromStr (asc "0.123") = Dec256.permille 123 ∧ Dec256.fromStr (asc "40.00") = Dec256.percent 4000 ∧
    Dec256.fromStr (asc "04.00") = Dec256.percent 400 ∧ Dec256.fromStr (asc "00.40") = Dec256.percent 40 ∧
    Dec256.fromStr (asc "00.04") = Dec256.percent 4 := by decide +kernel
example : Dec256.fromStr (asc "7.123456789012345678") = .ok 7123456789012345678 ∧
    Dec256.fromStr (asc "7.999999999999999999") = .ok 7999999999999999999 ∧
    Dec256.fromStr (asc "115792089237316195423570985008687907853269984665640564039457.584007913129639935") =
      .ok (2 ^ 256 - 1) := by decide +kernel

/-- The six tests of `from_str` that expect an error or a panic. -/
example : Dec256.fromStr (asc " ") = .error (.generic 1) ∧ Dec256.fromStr (asc "-1") = .error (.generic 1) ∧
    Dec256.fromStr (asc "1. ") = .error (.generic 2) ∧ Dec256.fromStr (asc "1.e") = .error (.generic 2) ∧
    Dec256.fromStr (asc "1.2e3") = .error (.generic 2) ∧
    Dec256.fromStr (asc "7.1234567890123456789") = .error (.generic 3) ∧
    Dec256.fromStr (asc "7.1230000000000000000") = .error (.generic 3) ∧
    Dec256.fromStr (asc "1.2.3") = .error (.generic 4) ∧ Dec256.fromStr (asc "1.2.3.4") = .error (.generic 4) := by
  decide +kernel
example : Dec256.fromStr (asc "115792089237316195423570985008687907853269984665640564039458") = .error (.panic .overflow) ∧
    Dec256.fromStr (asc "115792089237316195423570985008687907853269984665640564039458.0") = .error (.panic .overflow) ∧
    Dec256.fromStr (asc "115792089237316195423570985008687907853269984665640564039457.584007913129639936") =
      .error (.panic .overflow) := by decide +kernel

/-- `decimal_add`, `decimal_sub`, `decimal_mul`, `decimal_div`. -/
example : (do let h ← Dec256.percent 50; Dec256.add Dec256.one h) = .ok (DF * 3 / 2) ∧
    (do let h ← Dec256.percent 50; Dec256.sub Dec256.one h) = Dec256.percent 50 ∧
    (do let h ← Dec256.percent 50; Dec256.mul h h) = Dec256.percent 25 ∧
    (do let h ← Dec256.percent 50; let k ← Dec256.percent 25; Dec256.div h k) = Dec256.add Dec256.one Dec256.one := by
  decide +kernel

/-- `decimal_to_string`. -/
example : [0, DF, 5 * DF, 125 * 10 ^ 16, 42638 * 10 ^ 16, 10 ^ 16, 987 * 10 ^ 15, 1, 10, 100, 1000, 10 ^ 12, 10 ^ 17].map
      Dec256.toStr =
    [asc "0", asc "1", asc "5", asc "1.25", asc "426.38", asc "0.01", asc "0.987", asc "0.000000000000000001",
      asc "0.00000000000000001", asc "0.0000000000000001", asc "0.000000000000001", asc "0.000001", asc "0.1"] := by
  decide +kernel

/-- `decimal_serialize`, `decimal_deserialize`, `uint256_json`. -/
example : [0, DF, 8 * 10 ^ 16, 87 * 10 ^ 16, 876 * 10 ^ 16, 8765 * 10 ^ 16].map Dec256.write =
    [asc "\"0\"", asc "\"1\"", asc "\"0.08\"", asc "\"0.87\"", asc "\"8.76\"", asc "\"87.65\""] := by decide +kernel
example : Dec256.read (asc "\"0\"") = .ok 0 ∧ Dec256.read (asc "\"1\"") = .ok DF ∧ Dec256.read (asc "\"000\"") = .ok 0 ∧
    Dec256.read (asc "\"001\"") = .ok DF ∧ Dec256.read (asc "\"0.08\"") = Dec256.percent 8 ∧
    Dec256.read (asc "\"0.87\"") = Dec256.percent 87 ∧ Dec256.read (asc "\"8.76\"") = Dec256.percent 876 ∧
    Dec256.read (asc "\"87.65\"") = Dec256.percent 8765 := by decide +kernel
example : Uint256.write 1234567890987654321 = asc "\"1234567890987654321\"" ∧
    Uint256.read (asc "\"1234567890987654321\"") = .ok 1234567890987654321 := by decide +kernel

/-- `to_and_from_uint256`, `uint256_math`, `uint256_math_sub_underflow`, `uint256_math_overflow_panics`. -/
example : Uint256.toStr 12345 = asc "12345" ∧ Uint256.fromStr (asc "34567") = .ok 34567 ∧
    outcome (Uint256.fromStr (asc "1.23")) ≠ .ok () ∧ Uint256.add 12345 23456 = .ok 35801 ∧
    Uint256.sub 23456 12345 = .ok 11111 ∧ Uint256.sub 12345 23456 = .error (.panic .subUnderflow) ∧
    Uint256.add (2 ^ 256 - 1) 12 = .error (.panic .overflow) := by decide +kernel

/-- `uint256_decimal_multiply`, `decimal_uint256_multiply`. -/
example : Uint256.mulDec 300 (DF * 3 / 2) = .ok 450 ∧ Uint256.mulDec 300 0 = .ok 0 ∧
    Uint256.mulDec 0 (DF * 3 / 2) = .ok 0 := by decide +kernel

/-- `u256_multiply_ratio_works`, `u256_multiply_ratio_panics_for_zero_denominator`. -/
example : Uint256.multiplyRatio 500 1 1 = .ok 500 ∧ Uint256.multiplyRatio 500 654321 654321 = .ok 500 ∧
    Uint256.multiplyRatio 500 3 2 = .ok 750 ∧ Uint256.multiplyRatio 500 333333 222222 = .ok 750 ∧
    Uint256.multiplyRatio 500 2 3 = .ok 333 ∧ Uint256.multiplyRatio 500 222222 333333 = .ok 333 ∧
    Uint256.multiplyRatio 500 5 6 = .ok 416 ∧ Uint256.multiplyRatio 500 100 120 = .ok 416 ∧
    Uint256.multiplyRatio 500 1 0 = .error (.panic .divByZero) := by decide +kernel

/-- `u256_from_u128`, `u256_into_u128`, `u256_into_u128_panics_for_overflow`. -/
example : Uint256.ofU128 1000000000000000000000000 = 1000000000000000000000000 ∧
    Uint256.toU128 1234556700000000000999 = .ok 1234556700000000000999 ∧
    Uint256.toU128 2134982317498312749832174923184732198471983247 = .error (.panic .convOverflow) := by decide +kernel

end Conform
end Halo
