import Verif.Types
/-!
# halo-router (`contracts/halo-router/src/contract.rs`, `operations.rs`)

Line numbers without a file name refer to `contracts/halo-router/src/contract.rs`.
-/

namespace Halo
namespace Router

/-- `Config` (`contracts/halo-router/src/state.rs`). -/
structure State where
  haloFactory : Bytes
  deriving DecidableEq, Repr

/-- `instantiate` (lines 28-44). -/
def instantiate (api : Api) (haloFactory : Str) : R (State × Response) := do
  let f ← api.canonicalize haloFactory
  return ({ haloFactory := f }, {})

/-- The map `ask_asset_map` (a `HashMap<String, bool>` whose values are all `true`) as a list of distinct
keys: `remove` (line 346). -/
def keyRemove (k : Str) (m : List Str) : List Str := m.filter (fun x => !decide (x = k))
/-- `insert` (line 347). -/
def keyInsert (k : Str) (m : List Str) : List Str := k :: keyRemove k m

/-- The loop of `assert_operations` (lines 338-348). -/
def askKeys : List SwapOp → List Str → List Str
  | [], m => m
  | op :: t, m => askKeys t (keyInsert op.ask.toStr (keyRemove op.offer.toStr m))

/-- `assert_operations` (lines 336-357). Error 51: "invalid operations; multiple output token". -/
def assertOperations (ops : List SwapOp) : R Unit :=
  require ((askKeys ops []).length = 1) (.generic 51)

/-- The hop messages (lines 143-162): only the last carries the receiver. -/
def hopMsgs (self : Addr) (to : Addr) : List SwapOp → List CosmosMsg
  | [] => []
  | [op] => [.exec self (.executeSwapOperation op (some to)) []]
  | op :: op' :: t => .exec self (.executeSwapOperation op none) [] :: hopMsgs self to (op' :: t)

/-- `execute_swap_operations` (lines 126-182). Error 50: "must provide operations". -/
def executeSwapOperations (api : Api) (q : Querier) (self : Addr) (st : State) (sender : Addr)
    (ops : List SwapOp) (minimumReceive : Option Nat) (to : Option Addr) : R (State × Response) := do
  let last ← okOr ops.getLast? (.generic 50)
  assertOperations ops
  let to := to.getD sender
  let target := last.target
  let msgs := hopMsgs self to ops
  match minimumReceive with
  | some m => do
    let prev ← target.queryPool q api to
    return (st, { messages :=
      (msgs ++ [CosmosMsg.exec self (.assertMinimumReceive target prev m to) []]).map plain })
  | none => return (st, { messages := msgs.map plain })

/-- `assert_minium_receive` (lines 184-202). Error 52: "assertion failed; minimum receive amount". -/
def assertMinimumReceive (api : Api) (q : Querier) (st : State) (assetInfo : AssetInfo)
    (prevBalance minimumReceive : Nat) (receiver : Addr) : R (State × Response) := do
  let bal ← assetInfo.queryPool q api receiver
  let swapAmount ← Uint128.checkedSub bal prevBalance
  require (¬ swapAmount < minimumReceive) (.generic 52)
  return (st, {})

/-- `asset_into_swap_msg` (`operations.rs:68-102`). A native offer is sent as a bare
`PairHookMsg::Swap` execute message with the coins attached. -/
def assetIntoSwapMsg (pairContract : Addr) (offer : Asset) (maxSpread : Option Nat) (to : Option Str) :
    CosmosMsg :=
  match offer.info with
  | .native denom =>
    .exec pairContract (.swapDirect none maxSpread to) [{ denom := denom, amount := offer.amount }]
  | .token contractAddr =>
    .exec contractAddr (.send pairContract offer.amount (.swap none maxSpread to)) []

/-- `execute_swap_operation` (`operations.rs:16-66`). Error 53: "unauthorized". -/
def executeSwapOperation (api : Api) (q : Querier) (self : Addr) (st : State) (sender : Addr)
    (op : SwapOp) (to : Option Str) : R (State × Response) := do
  require (self = sender) (.generic 53)
  let factory ← api.humanize st.haloFactory
  let pairInfo ← q.pairInfo factory (op.offer, op.ask)
  let amount ← (match op.offer with
    | .native denom => q.balance self denom
    | .token contractAddr => do
      let t ← api.validate contractAddr
      q.tokenBalance t self : R Nat)
  return (st, { messages :=
    [plain (assetIntoSwapMsg pairInfo.contractAddr { info := op.offer, amount := amount } none to)] })

/-- `receive_cw20` (lines 100-124): the caller (`info.sender`) is not checked. -/
def receiveCw20 (api : Api) (q : Querier) (self : Addr) (st : State) (sender : Str) (msg : HookMsg) :
    R (State × Response) := do
  let sender ← api.validate sender
  match msg with
  | .executeSwapOperations ops minimumReceive to => do
    let to ← optValidate api to
    executeSwapOperations api q self st sender ops minimumReceive to
  | _ => .error .parse

/-- `execute` (lines 47-88). -/
def execute (api : Api) (q : Querier) (self : Addr) (st : State) (sender : Addr) :
    ExecMsg → R (State × Response)
  | .receive s _ msg => receiveCw20 api q self st s msg
  | .executeSwapOperations ops minimumReceive to => do
    let to ← optValidate api to
    executeSwapOperations api q self st sender ops minimumReceive to
  | .executeSwapOperation op to => do
    let to ← optValidate api to
    executeSwapOperation api q self st sender op to
  | .assertMinimumReceive assetInfo prevBalance minimumReceive receiver => do
    let r ← api.validate receiver
    assertMinimumReceive api q st assetInfo prevBalance minimumReceive r
  | _ => .error .parse

/-! ## Queries -/

/-- `query_config` (lines 221-228). -/
def queryConfig (api : Api) (st : State) : R Addr := api.humanize st.haloFactory

/-- The loop of `simulate_swap_operations` (lines 244-268). -/
def simulateLoop (q : Querier) (factory : Addr) : List SwapOp → Nat → R Nat
  | [], amount => .ok amount
  | op :: t, amount => do
    let p ← q.pairInfo factory (op.offer, op.ask)
    let r ← q.simulate p.contractAddr { info := op.offer, amount := amount }
    simulateLoop q factory t r.amount

/-- `simulate_swap_operations` (lines 230-273). -/
def simulateSwapOperations (api : Api) (q : Querier) (st : State) (offerAmount : Nat)
    (ops : List SwapOp) : R Nat := do
  let factory ← api.humanize st.haloFactory
  require (ops.length ≠ 0) (.generic 50)
  simulateLoop q factory ops offerAmount

/-- `reverse_simulate_return_amount` (lines 311-334). -/
def reverseSimulateReturnAmount (q : Querier) (factory : Addr) (askAmount : Nat) (op : SwapOp) :
    R Nat := do
  let p ← q.pairInfo factory (op.offer, op.ask)
  let r ← q.reverseSimulate p.contractAddr { amount := askAmount, info := op.ask }
  return r.amount

/-- The loop of `reverse_simulate_swap_operations` (lines 287-308), over the reversed operations; the result
of each step is `unwrap`ped. -/
def reverseSimulateLoop (api : Api) (q : Querier) (st : State) : List SwapOp → Nat → R Nat
  | [], amount => .ok amount
  | op :: t, amount => do
    let factory ← api.humanize st.haloFactory
    let a ← (match reverseSimulateReturnAmount q factory amount op with
      | .ok a => .ok a
      | .error _ => .error (.panic .unwrap) : R Nat)
    reverseSimulateLoop api q st t a

/-- `reverse_simulate_swap_operations` (lines 275-309). -/
def reverseSimulateSwapOperations (api : Api) (q : Querier) (st : State) (askAmount : Nat)
    (ops : List SwapOp) : R Nat := do
  require (ops.length ≠ 0) (.generic 50)
  reverseSimulateLoop api q st ops.reverse askAmount

/-- `migrate` (lines 416-419): only the contract version. -/
def migrate (st : State) : R (State × Response) := .ok (st, {})

end Router
end Halo
