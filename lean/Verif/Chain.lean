import Verif.Token
import Verif.Pair
import Verif.Factory
import Verif.Router
/-!
# The chain: bank, contract store, message dispatch, transactions

This file models the host (wasmd + x/bank), not code in `/repo`.  What it fixes:

* A contract call sees the funds already transferred, runs to completion, its messages are then executed
  depth first in order, each with its own sub-messages, and its reply (on success) right after its subtree.
* Any error anywhere aborts and rolls back the whole transaction.  A third-party contract that catches
  an error of a sub-message (`ReplyOn::Error/Always`) behaves like one that does not emit that message, so
  it is covered by the oracle below.
* Third-party contracts (`CState.other`) are arbitrary: an oracle `Adv` decides, at each call, which
  messages they emit and what they answer to queries.  The oracle is indexed by the remaining fuel, which
  strictly decreases, so it may behave differently at every single call.
* Gas is `fuel`: one unit per dispatched message or reply; theorems hold for every amount.
-/

namespace Halo

/-- Storage of a contract, by code. -/
inductive CState where
  | token (s : TokenState)
  | pair (s : Pair.State)
  | factory (s : Factory.State)
  | router (s : Router.State)
  | other

/-- The code behind a code id. -/
inductive Kind where
  | token | pair | factory | router | other
  deriving DecidableEq, Repr

/-- A deployed contract: its admin (who may migrate it) and its storage. -/
structure Contract where
  admin : Option Addr
  state : CState

/-- The chain state. -/
structure World where
  /-- x/bank: balances per denom -/
  bank : Denom → AMap Addr Nat
  /-- deployed contracts -/
  contracts : Addr → Option Contract
  /-- number of contracts instantiated so far -/
  next : Nat
  block : Block

/-- Static parameters of a chain: address codec, address generator, uploaded codes. -/
structure Chain where
  api : Api
  addrOf : Nat → Addr
  codes : Nat → Option Kind

/-- Oracle for third-party contracts, indexed by remaining fuel. -/
structure Adv where
  act : Nat → Addr → R (List SubMsg)
  query : Nat → Querier

namespace World

/-- Native balance. -/
def bal (w : World) (d : Denom) (a : Addr) : Nat := (w.bank d).getD0 a

/-- Replace one denom's ledger. -/
def setBank (w : World) (d : Denom) (m : AMap Addr Nat) : World :=
  { w with bank := fun d' => if d' = d then m else w.bank d' }

/-- Store a contract. -/
def setContract (w : World) (a : Addr) (c : Contract) : World :=
  { w with contracts := fun a' => if a' = a then some c else w.contracts a' }

/-- Replace the storage of an existing contract, keeping the admin. -/
def setState (w : World) (a : Addr) (admin : Option Addr) (s : CState) : World :=
  w.setContract a ⟨admin, s⟩

end World

/-! ## x/bank -/

/-- Move one coin: amounts must be positive. -/
def moveCoin (w : World) (src dst : Addr) (c : Coin) : R World := do
  require (c.amount ≠ 0) .invalidCoins
  require (c.amount ≤ w.bal c.denom src) .insufficientFunds
  let m := (w.bank c.denom).set src (w.bal c.denom src - c.amount)
  let m := m.set dst (m.getD0 dst + c.amount)
  return w.setBank c.denom m

/-- Move a list of coins one after the other. -/
def moveCoinsLoop (src dst : Addr) : List Coin → World → R World
  | [], w => .ok w
  | c :: t, w => do
    let w ← moveCoin w src dst c
    moveCoinsLoop src dst t w

/-- `sdk.Coins` must be valid: no duplicate denoms, positive amounts. -/
def moveCoins (w : World) (src dst : Addr) (coins : List Coin) : R World := do
  require ((coins.map Coin.denom).Nodup) .invalidCoins
  moveCoinsLoop src dst coins w

/-! ## Queries -/

/-- Range check of a decoded `Uint128`. -/
def chk128 (r : R Nat) : R Nat := do
  let n ← r
  require (n < B128) .parse
  return n

/-- Range check of a decoded `u8`. -/
def chk8 (r : R Nat) : R Nat := do
  let n ← r
  require (n < 256) .parse
  return n

/-- Range check of a decoded simulation response. -/
def chkSim (r : R SimResp) : R SimResp := do
  let s ← r
  require (s.amount < B128 ∧ s.spread < B128 ∧ s.commission < B128) .parse
  return s

/-- Range check of a decoded `TokenInfoResponse`. -/
def chkTI (r : R TokenInfoResp) : R TokenInfoResp := do
  let s ← r
  require (s.totalSupply < B128 ∧ s.decimals < 256) .parse
  return s

/-- Range check of a decoded `PairInfo`. -/
def chkPI (r : R PairInfo) : R PairInfo := do
  let s ← r
  require (s.assetDecimals.1 < 256 ∧ s.assetDecimals.2 < 256 ∧ s.requirements.inRange) .parse
  return s

/-- The address a message or query string denotes: decoded to canonical bytes (the host accepts every
spelling the codec accepts, e.g. upper-case bech32) and printed back in normal form. -/
def Api.resolve (api : Api) (s : Str) : R Addr := do
  let b ← api.canonicalize s
  api.humanize b

/-- The storage of the contract a query string denotes. -/
def lookState (c : Chain) (w : World) (s : Str) : R CState := do
  let a ← c.api.resolve s
  let ct ← okOr (w.contracts a) .notFound
  return ct.state

/-- Queries answered from storage alone: bank, token, factory, `Pair {}`. A query to a contract of the
wrong kind does not decode; a query to a third-party contract is answered by the oracle. -/
def baseQuerier (c : Chain) (adv : Querier) (w : World) : Querier where
  balance a d := chk128 (.ok (w.bal d a))
  tokenBalance t a := do
    match ← lookState c w t with
    | .token s => chk128 (Token.queryBalance c.api s a)
    | .other => chk128 (adv.tokenBalance t a)
    | _ => .error .parse
  tokenInfo t := do
    match ← lookState c w t with
    | .token s => chkTI (.ok (Token.queryTokenInfo s))
    | .other => chkTI (adv.tokenInfo t)
    | _ => .error .parse
  nativeDecimals f d := do
    match ← lookState c w f with
    | .factory s => chk8 (Factory.queryNativeTokenDecimals s d)
    | .other => chk8 (adv.nativeDecimals f d)
    | _ => .error .parse
  pairInfo f as := do
    match ← lookState c w f with
    | .factory s => chkPI (Factory.queryPair c.api s as)
    | .other => chkPI (adv.pairInfo f as)
    | _ => .error .parse
  pairInfoFromPair p := do
    match ← lookState c w p with
    | .pair s => chkPI (Pair.queryPairInfo c.api s)
    | .other => chkPI (adv.pairInfoFromPair p)
    | _ => .error .parse
  simulate _ _ := .error .parse
  reverseSimulate _ _ := .error .parse

/-- All queries: pair simulations are computed by the pair with the base queries. -/
def querier (c : Chain) (adv : Querier) (w : World) : Querier :=
  { baseQuerier c adv w with
    simulate := fun p a => do
      match ← lookState c w p with
      | .pair s => chkSim (Pair.querySimulation c.api (baseQuerier c adv w) s a)
      | .other => chkSim (adv.simulate p a)
      | _ => .error .parse
    reverseSimulate := fun p a => do
      match ← lookState c w p with
      | .pair s => chkSim (Pair.queryReverseSimulation c.api (baseQuerier c adv w) s a)
      | .other => chkSim (adv.reverseSimulate p a)
      | _ => .error .parse }

/-! ## Dispatch -/

/-- Work items of the stack machine. -/
inductive Frame where
  | msg (sender : Addr) (m : SubMsg)
  | reply (contract : Addr) (id : Nat) (created : Option Addr)

/-- The frames of a contract's response: its messages in order. -/
def frames (self : Addr) (r : Response) : List Frame := r.messages.map (Frame.msg self)

/-- Run the `execute` entry point of the contract at `self` (funds already moved). -/
def callExecute (c : Chain) (adv : Adv) (n : Nat) (w : World) (self sender : Addr) (funds : List Coin)
    (m : ExecMsg) : R (World × List Frame) := do
  require m.inRange .parse
  let q := querier c (adv.query n) w
  match w.contracts self with
  | none => .error .notFound
  | some ⟨admin, .token s⟩ => do
    let (s', r) ← Token.execute c.api w.block s sender m
    return (w.setState self admin (.token s'), frames self r)
  | some ⟨admin, .pair s⟩ => do
    let (s', r) ← Pair.execute c.api q self s sender funds m
    return (w.setState self admin (.pair s'), frames self r)
  | some ⟨admin, .factory s⟩ => do
    let (s', r) ← Factory.execute c.api q self s sender m
    return (w.setState self admin (.factory s'), frames self r)
  | some ⟨admin, .router s⟩ => do
    let (s', r) ← Router.execute c.api q self s sender m
    return (w.setState self admin (.router s'), frames self r)
  | some ⟨_, .other⟩ => do
    let ms ← adv.act n self
    return (w, ms.map (Frame.msg self))

/-- Run the `instantiate` entry point for a new contract. -/
def callInstantiate (c : Chain) (adv : Adv) (n : Nat) (self sender : Addr) (k : Kind)
    (m : InstMsg) : R (CState × List Frame) := do
  require m.inRange .parse
  match k, m with
  | .token, .token t => do
    let s ← Token.instantiate c.api t
    return (.token s, [])
  | .pair, .pair assetInfos tokenCodeId assetDecimals requirements => do
    let (s, r) ← Pair.instantiate c.api self { assetInfos, tokenCodeId, assetDecimals, requirements }
    return (.pair s, frames self r)
  | .factory, .factory pairCodeId tokenCodeId => do
    let (s, r) ← Factory.instantiate c.api sender pairCodeId tokenCodeId
    return (.factory s, frames self r)
  | .router, .router f => do
    let (s, r) ← Router.instantiate c.api f
    return (.router s, frames self r)
  | .other, _ => do
    let ms ← adv.act n self
    return (.other, ms.map (Frame.msg self))
  | _, _ => .error .parse

/-- The reply frame a message leaves behind. -/
def replyFrame (sender : Addr) (id : Option Nat) (created : Option Addr) : List Frame :=
  match id with
  | some i => [.reply sender i created]
  | none => []

/-- Migration (x/wasm): only the admin; the new code must exist. Migrating a halo contract to its own
code only rewrites the version (`migrate` in each contract). Migrating to any other code is
over-approximated: the contract becomes an arbitrary third-party contract for good. -/
def migrateState (k : Kind) (s : CState) : CState :=
  match k, s with
  | .pair, .pair p => .pair p
  | .factory, .factory f => .factory f
  | .router, .router r => .router r
  | _, _ => .other

/-- The admin field of an instantiate message, resolved. -/
def resolveAdmin (api : Api) : Option Str → R (Option Addr)
  | some a => do
    let r ← api.resolve a
    return some r
  | none => .ok none

/-- Execute one frame; the result is the new world and the frames to run next. -/
def step (c : Chain) (adv : Adv) (n : Nat) (w : World) : Frame → R (World × List Frame)
  | .msg sender ⟨.bankSend to coins, id⟩ => do
    require (coins ≠ []) .invalidCoins
    let dst ← c.api.resolve to
    let w ← moveCoins w sender dst coins
    return (w, replyFrame sender id none)
  | .msg sender ⟨.exec contract m funds, id⟩ => do
    let self ← c.api.resolve contract
    require ((w.contracts self).isSome) .notFound
    let w ← moveCoins w sender self funds
    let (w, fs) ← callExecute c adv n w self sender funds m
    return (w, fs ++ replyFrame sender id none)
  | .msg sender ⟨.inst admin codeId m funds, id⟩ => do
    let k ← okOr (c.codes codeId) .notFound
    let admin ← resolveAdmin c.api admin
    let self := c.addrOf w.next
    require ((w.contracts self).isNone) .accountExists
    let w := { w with next := w.next + 1 }
    let w ← moveCoins w sender self funds
    let (s, fs) ← callInstantiate c adv n self sender k m
    return (w.setContract self ⟨admin, s⟩, fs ++ replyFrame sender id (some self))
  | .msg sender ⟨.migrate contract codeId, id⟩ => do
    let k ← okOr (c.codes codeId) .notFound
    let self ← c.api.resolve contract
    let ct ← okOr (w.contracts self) .notFound
    require (ct.admin = some sender) .unauthorized
    return (w.setState self ct.admin (migrateState k ct.state), replyFrame sender id none)
  | .msg sender ⟨.updateAdmin contract new, id⟩ => do
    let self ← c.api.resolve contract
    let ct ← okOr (w.contracts self) .notFound
    require (ct.admin = some sender) .unauthorized
    let admin ← resolveAdmin c.api new
    return (w.setState self admin ct.state, replyFrame sender id none)
  | .reply self _ created => do
    match w.contracts self with
    | some ⟨admin, .pair s⟩ => do
      let (s', r) ← Pair.reply c.api s created
      return (w.setState self admin (.pair s'), frames self r)
    | some ⟨admin, .factory s⟩ => do
      let (s', r) ← Factory.reply c.api (querier c (adv.query n) w) s created
      return (w.setState self admin (.factory s'), frames self r)
    | some ⟨_, .other⟩ => do
      let ms ← adv.act n self
      return (w, ms.map (Frame.msg self))
    | _ => .error .notFound

/-- The stack machine: run all frames depth first; returns the remaining fuel and the final world. -/
def run (c : Chain) (adv : Adv) : Nat → World → List Frame → R (Nat × World)
  | n, w, [] => .ok (n, w)
  | 0, _, _ :: _ => .error .outOfGas
  | n + 1, w, f :: fs => do
    let (w', fs') ← step c adv n w f
    run c adv n w' (fs' ++ fs)

/-- One transaction message signed by `signer`, with `gas` units of fuel. -/
def runTx (c : Chain) (adv : Adv) (gas : Nat) (w : World) (signer : Addr) (m : CosmosMsg) : R World := do
  let (_, w') ← run c adv gas w [.msg signer (plain m)]
  return w'

/-! ## Histories -/

/-- Accounts that can sign: addresses in normal form that are not the address of any contract, present or
future. -/
def Chain.IsUser (c : Chain) (a : Addr) : Prop :=
  (∀ n, c.addrOf n ≠ a) ∧ c.api.validate a = .ok a

/-- One observable step of the chain: a successful transaction message (failed ones change nothing), a new
block, or an arbitrary change of native balances outside the modelled messages (fees, staking, IBC,
minting, …) which never takes coins from a contract address. -/
inductive ChainStep (c : Chain) : World → World → Prop where
  | tx (adv : Adv) (gas : Nat) (w w' : World) (signer : Addr) (m : CosmosMsg)
      (huser : c.IsUser signer) (h : runTx c adv gas w signer m = .ok w') : ChainStep c w w'
  | block (w : World) (b : Block) : ChainStep c w { w with block := b }
  | env (w : World) (bank' : Denom → AMap Addr Nat)
      (h : ∀ d n, (w.bank d).getD0 (c.addrOf n) ≤ (bank' d).getD0 (c.addrOf n)) :
      ChainStep c w { w with bank := bank' }

/-- A genesis world: no contracts; any native balances. -/
def Genesis (w : World) : Prop := w.next = 0 ∧ ∀ a, w.contracts a = none

/-- Worlds reachable from genesis by any history. -/
inductive Reachable (c : Chain) : World → Prop where
  | genesis (w : World) (h : Genesis w) : Reachable c w
  | step (w w' : World) (h : Reachable c w) (hs : ChainStep c w w') : Reachable c w'

/-- The assumptions on a chain that some theorems use: printing then decoding an address is the identity,
generated contract addresses are in normal form and never repeat.  Decoding may accept several spellings of
the same address. -/
structure Chain.Lawful (c : Chain) : Prop where
  canon_human : ∀ b s, c.api.human b = some s → c.api.canon s = some b
  addr_valid : ∀ n, ∃ b, c.api.canon (c.addrOf n) = some b ∧ c.api.human b = some (c.addrOf n)
  addr_inj : ∀ m n, c.addrOf m = c.addrOf n → m = n

end Halo
