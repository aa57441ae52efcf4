import Verif.QueryCodec
/-! # The chain with messages and queries as bytes

The same machine as in `Chain.lean`, but what travels between contracts (and from users and third-party contracts) is bytes, as on
the real chain: a contract reads them when it is called (`from_slice` in the entry points generated by `#[entry_point]`) and
writes what it sends (`to_binary`: `halo-pair/src/contract.rs:62, 253, 326, 375`, `halo-factory/src/contract.rs:165, 226`,
`halo-router/src/contract.rs:153, 172`, `halo-router/src/operations.rs:82, 91, 94`, `packages/haloswap/src/asset.rs:34`; cw20
`Cw20ReceiveMsg::into_cosmos_msg`); queries and their answers are bytes too (`packages/haloswap/src/querier.rs`). -/

namespace Halo

/-- `CosmosMsg`: the messages for contracts are `Binary`. -/
inductive RawMsg where
  | bankSend (to : Str) (coins : List Coin)
  | exec (contract : Str) (msg : Bytes) (funds : List Coin)
  | inst (admin : Option Str) (codeId : Nat) (msg : Bytes) (funds : List Coin)
  | migrate (contract : Str) (codeId : Nat)
  | updateAdmin (contract : Str) (admin : Option Str)

/-- `SubMsg`. -/
structure RawSub where
  msg : RawMsg
  replyId : Option Nat

/-- Work items. -/
inductive RawFrame where
  | msg (sender : Addr) (m : RawSub)
  | reply (contract : Addr) (id : Nat) (created : Option Addr)

/-- Third-party contracts: they send any bytes, answer any query with any bytes, and return any data (less than 4 GB) when created. -/
structure RawAdv where
  act : Nat → Addr → R (List RawSub)
  query : Nat → Str → Bytes → R Bytes
  data : Nat → Addr → { b : Bytes // b.length < 2 ^ 32 } := fun _ _ => ⟨[], by decide⟩

/-- How deep queries may be nested (wasmd's limit). -/
def queryDepth : Nat := 10

/-- What a contract puts on the wire. -/
def CosmosMsg.sent : CosmosMsg → RawMsg
  | .bankSend t l => .bankSend t l
  | .exec t m l => .exec t (writeExec m) l
  | .inst a k m l => .inst a k (writeInst m) l
  | .migrate t k => .migrate t k
  | .updateAdmin t a => .updateAdmin t a

/-- A frame with its message on the wire. -/
def Frame.sent : Frame → RawFrame
  | .msg s m => .msg s ⟨m.msg.sent, m.replyId⟩
  | .reply a i o => .reply a i o

/-- The typed message that bytes stand for. -/
def RawMsg.heard : RawMsg → CosmosMsg
  | .bankSend t l => .bankSend t l
  | .exec t b l => .exec t (classify b) l
  | .inst a k b l => .inst a k (classifyInst b) l
  | .migrate t k => .migrate t k
  | .updateAdmin t a => .updateAdmin t a

/-- A submessage with the message that its bytes stand for. -/
def RawSub.heard (m : RawSub) : SubMsg := ⟨m.msg.heard, m.replyId⟩

/-- A frame with the message that its bytes stand for. -/
def RawFrame.heard : RawFrame → Frame
  | .msg s m => .msg s m.heard
  | .reply a i o => .reply a i o

/-- Third-party contracts, with the messages that their bytes stand for. -/
def RawAdv.heard (adv : RawAdv) : Adv where
  act n a := do
    let ms ← adv.act n a
    return ms.map RawSub.heard
  query n := heardQuerier (adv.query n)

/-- Third-party code answers a call with messages of its own. -/
def RawAdv.frames (adv : RawAdv) (n : Nat) (self : Addr) : R (List RawFrame) := do
  let ms ← adv.act n self
  return ms.map (RawFrame.msg self)

/-- A contract is called with bytes; what it sends and asks is written as bytes. -/
def callRaw (c : Chain) (adv : RawAdv) (n : Nat) (w : World) (self sender : Addr) (funds : List Coin) (b : Bytes) :
    R (World × List RawFrame) :=
  let q := wireQuerier c (adv.query n) w queryDepth
  match w.contracts self with
  | none => .error .notFound
  | some ⟨admin, .token s⟩ => do
    let m ← okOr (readExec .token b) .parse
    let (s', r) ← Token.execute c.api w.block s sender m
    return (w.setState self admin (.token s'), (frames self r).map Frame.sent)
  | some ⟨admin, .pair s⟩ => do
    let m ← okOr (readExec .pair b) .parse
    let (s', r) ← Pair.execute c.api q self s sender funds m
    return (w.setState self admin (.pair s'), (frames self r).map Frame.sent)
  | some ⟨admin, .factory s⟩ => do
    let m ← okOr (readExec .factory b) .parse
    let (s', r) ← Factory.execute c.api q self s sender m
    return (w.setState self admin (.factory s'), (frames self r).map Frame.sent)
  | some ⟨admin, .router s⟩ => do
    let m ← okOr (readExec .router b) .parse
    let (s', r) ← Router.execute c.api q self s sender m
    return (w.setState self admin (.router s'), (frames self r).map Frame.sent)
  | some ⟨_, .other⟩ => do
    let fs ← adv.frames n self
    return (w, fs)

/-- A new contract is given bytes. -/
def instRaw (c : Chain) (adv : RawAdv) (n : Nat) (self sender : Addr) (k : Kind) (b : Bytes) : R (CState × List RawFrame) :=
  match k with
  | .other => do
    let fs ← adv.frames n self
    return (.other, fs)
  | k => do
    let (s, fs) ← callInstBytes c adv.heard n self sender k b
    return (s, fs.map Frame.sent)

/-- The reply frame a message leaves behind. -/
def rawReply (sender : Addr) (id : Option Nat) (created : Option Addr) : List RawFrame :=
  match id with
  | some i => [.reply sender i created]
  | none => []

/-- Execute one frame. -/
def stepRaw (c : Chain) (adv : RawAdv) (n : Nat) (w : World) : RawFrame → R (World × List RawFrame)
  | .msg sender ⟨.bankSend to coins, id⟩ => do
    require (coins ≠ []) .invalidCoins
    let dst ← c.api.resolve to
    let w ← moveCoins w sender dst coins
    return (w, rawReply sender id none)
  | .msg sender ⟨.exec contract b funds, id⟩ => do
    let self ← c.api.resolve contract
    require ((w.contracts self).isSome) .notFound
    let w ← moveCoins w sender self funds
    let (w, fs) ← callRaw c adv n w self sender funds b
    return (w, fs ++ rawReply sender id none)
  | .msg sender ⟨.inst admin codeId b funds, id⟩ => do
    let k ← okOr (c.codes codeId) .notFound
    let admin ← resolveAdmin c.api admin
    let self := c.addrOf w.next
    require ((w.contracts self).isNone) .accountExists
    let w := { w with next := w.next + 1 }
    let w ← moveCoins w sender self funds
    let (s, fs) ← instRaw c adv n self sender k b
    return (w.setContract self ⟨admin, s⟩, fs ++ rawReply sender id (some self))
  | .msg sender ⟨.migrate contract codeId, id⟩ => do
    let k ← okOr (c.codes codeId) .notFound
    let self ← c.api.resolve contract
    let ct ← okOr (w.contracts self) .notFound
    require (ct.admin = some sender) .unauthorized
    return (w.setState self ct.admin (migrateState k ct.state), rawReply sender id none)
  | .msg sender ⟨.updateAdmin contract new, id⟩ => do
    let self ← c.api.resolve contract
    let ct ← okOr (w.contracts self) .notFound
    require (ct.admin = some sender) .unauthorized
    let admin ← resolveAdmin c.api new
    return (w.setState self admin ct.state, rawReply sender id none)
  | .reply self _ created => do
    match w.contracts self with
    | some ⟨admin, .pair s⟩ => do
      let (s', r) ← Pair.reply c.api s created
      return (w.setState self admin (.pair s'), (frames self r).map Frame.sent)
    | some ⟨admin, .factory s⟩ => do
      let (s', r) ← Factory.reply c.api (wireQuerier c (adv.query n) w queryDepth) s created
      return (w.setState self admin (.factory s'), (frames self r).map Frame.sent)
    | some ⟨_, .other⟩ => do
      let fs ← adv.frames n self
      return (w, fs)
    | _ => .error .notFound

/-- Run all frames depth first. -/
def runRaw (c : Chain) (adv : RawAdv) : Nat → World → List RawFrame → R (Nat × World)
  | n, w, [] => .ok (n, w)
  | 0, _, _ :: _ => .error .outOfGas
  | n + 1, w, f :: fs => do
    let (w', fs') ← stepRaw c adv n w f
    runRaw c adv n w' (fs' ++ fs)

/-- One transaction message signed by `signer`, with `gas` units of fuel. -/
def runTxRaw (c : Chain) (adv : RawAdv) (gas : Nat) (w : World) (signer : Addr) (m : RawMsg) : R World := do
  let (_, w') ← runRaw c adv gas w [.msg signer ⟨m, none⟩]
  return w'

/-- One observable step of the chain. -/
inductive RawStep (c : Chain) : World → World → Prop where
  | tx (adv : RawAdv) (gas : Nat) (w w' : World) (signer : Addr) (m : RawMsg)
      (huser : c.IsUser signer) (h : runTxRaw c adv gas w signer m = .ok w') : RawStep c w w'
  | block (w : World) (b : Block) : RawStep c w { w with block := b }
  | env (w : World) (bank' : Denom → AMap Addr Nat)
      (h : ∀ d n, (w.bank d).getD0 (c.addrOf n) ≤ (bank' d).getD0 (c.addrOf n)) :
      RawStep c w { w with bank := bank' }

/-- Worlds reachable from genesis by any history of bytes. -/
inductive RawReachable (c : Chain) : World → Prop where
  | genesis (w : World) (h : Genesis w) : RawReachable c w
  | step (w w' : World) (h : RawReachable c w) (hs : RawStep c w w') : RawReachable c w'

end Halo
