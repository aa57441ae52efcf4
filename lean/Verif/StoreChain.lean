import Verif.Store
/-! # The chain with storage as bytes

The machine of `ByteChain.lean` once more, with the storage of every contract as the host keeps it: a cell has its admin, its code and
its own store of bytes. Messages, queries, answers and storage are all bytes here. -/

namespace Halo

/-- A deployed contract: admin, code, storage. -/
structure Cell where
  admin : Option Addr
  kind : Kind
  store : Store

/-- The chain state. -/
structure SWorld where
  bank : Denom → AMap Addr Nat
  cells : Addr → Option Cell
  next : Nat
  block : Block

namespace SWorld

/-- The part of the state that x/bank sees. -/
def shell (w : SWorld) : World := { bank := w.bank, contracts := fun _ => none, next := w.next, block := w.block }

/-- Store a contract. -/
def setCell (w : SWorld) (a : Addr) (c : Cell) : SWorld :=
  { w with cells := fun a' => if a' = a then some c else w.cells a' }

end SWorld

/-- x/bank: `moveCoins`, which sees nothing of the contracts. -/
def moveCoinsS (w : SWorld) (src dst : Addr) (coins : List Coin) : R SWorld := do
  let v ← moveCoins w.shell src dst coins
  return { w with bank := v.bank }

/-! ## Queries -/

/-- The cell a query string denotes. -/
def lookCell (c : Chain) (w : SWorld) (s : Str) : R Cell := do
  let a ← c.api.resolve s
  okOr (w.cells a) .notFound

/-- The `query` entry point of the code in a cell, with `q` for what it asks others; `foreign` answers for third-party contracts. -/
def answerCell (c : Chain) (foreign : Bytes → R Bytes) (q : Querier) (x : Cell) (b : Bytes) : R Bytes :=
  match x.kind with
  | .token => answerBytes .token (Token.answerS c.api x.store) b
  | .pair => answerBytes .pair (Pair.answerS c.api q x.store) b
  | .factory => answerBytes .factory (Factory.answerS c.api x.store) b
  | .router => answerBytes .router (Router.answerS c.api q x.store) b
  | .other => foreign b

/-- Smart queries, at depth `n` of queries asked while answering queries. -/
def smartS (c : Chain) (foreign : Str → Bytes → R Bytes) (w : SWorld) : Nat → Str → Bytes → R Bytes
  | 0, a, b => do
    let x ← lookCell c w a
    answerCell c (foreign a) noQuerier x b
  | n + 1, a, b => do
    let x ← lookCell c w a
    answerCell c (foreign a) (byteQuerier (bankAnswer w.shell) (smartS c foreign w n)) x b

/-- What the contracts see when they ask. -/
def storeQuerier (c : Chain) (foreign : Str → Bytes → R Bytes) (w : SWorld) (n : Nat) : Querier :=
  byteQuerier (bankAnswer w.shell) (smartS c foreign w n)

/-! ## Dispatch -/

/-- The `execute` entry point of one of the four codes. -/
def execCell (c : Chain) (q : Querier) (blk : Block) (self sender : Addr) (funds : List Coin) (k : Kind) (σ : Store) (b : Bytes) :
    R (Store × Response) := do
  let m ← okOr (readExec k b) .parse
  match k with
  | .token => Token.executeS c.api blk σ sender m
  | .pair => Pair.executeS c.api q self σ sender funds m
  | .factory => Factory.executeS c.api q self σ sender m
  | .router => Router.executeS c.api q self σ sender m
  | .other => .error .parse

/-- A contract is called with bytes. -/
def callS (c : Chain) (adv : RawAdv) (n : Nat) (w : SWorld) (self sender : Addr) (funds : List Coin) (b : Bytes) :
    R (SWorld × List RawFrame) :=
  match w.cells self with
  | none => .error .notFound
  | some ⟨_, .other, _⟩ => do
    let fs ← adv.frames n self
    return (w, fs)
  | some ⟨admin, k, σ⟩ => do
    let (σ', r) ← execCell c (storeQuerier c (adv.query n) w queryDepth) w.block self sender funds k σ b
    return (w.setCell self ⟨admin, k, σ'⟩, (frames self r).map Frame.sent)

/-- A new contract is given bytes. -/
def instS (c : Chain) (adv : RawAdv) (n : Nat) (self sender : Addr) (k : Kind) (b : Bytes) : R (Store × List RawFrame) :=
  match k with
  | .other => do
    let fs ← adv.frames n self
    return ([], fs)
  | k => do
    let m ← okOr (readInst k b) .parse
    match m with
    | .token t => do
      let σ ← Token.instantiateS c.api t
      return (σ, [])
    | .pair assetInfos tokenCodeId assetDecimals requirements => do
      let (σ, r) ← Pair.instantiateS c.api self { assetInfos, tokenCodeId, assetDecimals, requirements }
      return (σ, (frames self r).map Frame.sent)
    | .factory pairCodeId tokenCodeId => do
      let (σ, r) ← Factory.instantiateS c.api sender pairCodeId tokenCodeId
      return (σ, (frames self r).map Frame.sent)
    | .router f => do
      let (σ, r) ← Router.instantiateS c.api f
      return (σ, (frames self r).map Frame.sent)
    | .raw _ => .error .parse

/-- Migration: the `migrate` entry point of the new code. To other code than its own, a contract becomes a third-party contract
(over-approximation as in `migrateState`; halo-token has no `migrate`). -/
def migrateCell (k : Kind) (x : Cell) : Cell :=
  match k, x.kind with
  | .pair, .pair => { x with store := Pair.migrateS x.store }
  | .factory, .factory => { x with store := Factory.migrateS x.store }
  | .router, .router => { x with store := Router.migrateS x.store }
  | _, _ => { x with kind := .other }

/-- The `reply` entry points. -/
def replyCell (c : Chain) (q : Querier) (k : Kind) (σ : Store) (data : Option Bytes) : R (Store × Response) :=
  match k with
  | .pair => Pair.replyS c.api σ data
  | .factory => Factory.replyS c.api q σ data
  | _ => .error .notFound

/-- Execute one frame. -/
def stepS (c : Chain) (adv : RawAdv) (n : Nat) (w : SWorld) : RawFrame → R (SWorld × List RawFrame)
  | .msg sender ⟨.bankSend to coins, id⟩ => do
    require (coins ≠ []) .invalidCoins
    let dst ← c.api.resolve to
    let w ← moveCoinsS w sender dst coins
    return (w, rawReply sender id none)
  | .msg sender ⟨.exec contract b funds, id⟩ => do
    let self ← c.api.resolve contract
    require ((w.cells self).isSome) .notFound
    let w ← moveCoinsS w sender self funds
    let (w, fs) ← callS c adv n w self sender funds b
    return (w, fs ++ rawReply sender id none)
  | .msg sender ⟨.inst admin codeId b funds, id⟩ => do
    let k ← okOr (c.codes codeId) .notFound
    let admin ← resolveAdmin c.api admin
    let self := c.addrOf w.next
    require ((w.cells self).isNone) .accountExists
    let w := { w with next := w.next + 1 }
    let w ← moveCoinsS w sender self funds
    let (σ, fs) ← instS c adv n self sender k b
    return (w.setCell self ⟨admin, k, σ⟩, fs ++ rawReply sender id (some self))
  | .msg sender ⟨.migrate contract codeId, id⟩ => do
    let k ← okOr (c.codes codeId) .notFound
    let self ← c.api.resolve contract
    let x ← okOr (w.cells self) .notFound
    require (x.admin = some sender) .unauthorized
    return (w.setCell self (migrateCell k x), rawReply sender id none)
  | .msg sender ⟨.updateAdmin contract new, id⟩ => do
    let self ← c.api.resolve contract
    let x ← okOr (w.cells self) .notFound
    require (x.admin = some sender) .unauthorized
    let admin ← resolveAdmin c.api new
    return (w.setCell self { x with admin }, rawReply sender id none)
  | .reply self _ created => do
    match w.cells self with
    | none => .error .notFound
    | some ⟨_, .other, _⟩ => do
      let fs ← adv.frames n self
      return (w, fs)
    | some ⟨admin, k, σ⟩ => do
      let (σ', r) ← replyCell c (storeQuerier c (adv.query n) w queryDepth) k σ (created.map fun a => instantiateResponse a (adv.data n self))
      return (w.setCell self ⟨admin, k, σ'⟩, (frames self r).map Frame.sent)

/-- Run all frames depth first. -/
def runS (c : Chain) (adv : RawAdv) : Nat → SWorld → List RawFrame → R (Nat × SWorld)
  | n, w, [] => .ok (n, w)
  | 0, _, _ :: _ => .error .outOfGas
  | n + 1, w, f :: fs => do
    let (w', fs') ← stepS c adv n w f
    runS c adv n w' (fs' ++ fs)

/-- One transaction message signed by `signer`, with `gas` units of fuel. -/
def runTxS (c : Chain) (adv : RawAdv) (gas : Nat) (w : SWorld) (signer : Addr) (m : RawMsg) : R SWorld := do
  let (_, w') ← runS c adv gas w [.msg signer ⟨m, none⟩]
  return w'

/-- One observable step of the chain. -/
inductive DiskStep (c : Chain) : SWorld → SWorld → Prop where
  | tx (adv : RawAdv) (gas : Nat) (w w' : SWorld) (signer : Addr) (m : RawMsg)
      (huser : c.IsUser signer) (h : runTxS c adv gas w signer m = .ok w') : DiskStep c w w'
  | block (w : SWorld) (b : Block) : DiskStep c w { w with block := b }
  | env (w : SWorld) (bank' : Denom → AMap Addr Nat)
      (h : ∀ d n, (w.bank d).getD0 (c.addrOf n) ≤ (bank' d).getD0 (c.addrOf n)) :
      DiskStep c w { w with bank := bank' }

/-- Worlds reachable from an empty chain. -/
inductive DiskReachable (c : Chain) : SWorld → Prop where
  | genesis (w : SWorld) (hn : w.next = 0) (hc : ∀ a, w.cells a = none) : DiskReachable c w
  | step (w w' : SWorld) (h : DiskReachable c w) (hs : DiskStep c w w') : DiskReachable c w'

end Halo
