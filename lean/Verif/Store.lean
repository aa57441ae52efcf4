import Verif.ByteChain
import Verif.Reply
/-! # The contracts over raw storage

In the rest of the model the storage of a contract is a typed value. Here it is what the host keeps: bytes under bytes, in the order of
the keys. `cw-storage-plus` (0.16 and 1.0, external) decides the keys: an `Item` is stored under its name, an entry of a `Map` under the
length of the map's name (two bytes), the name and the key, where all parts of a composite key but the last are preceded by their
length too. Values are JSON (`#[cw_serde]` types). `cw2` stores name and version of a contract under `contract_info`.

Names: `contracts/halo-factory/src/state.rs:14, 23-24, 71`, `contracts/halo-pair/src/state.rs:4`, `contracts/halo-router/src/state.rs:11`;
`cw20_base::state` for the token: `token_info`, `balance`, `allowance`, `allowance_spender`, `marketing_info`, `logo`. -/

namespace Halo

/-! ## The host's storage -/

/-- Entries in ascending order of their keys. -/
abbrev Store := List (Bytes × Bytes)

/-- `Storage::get`. -/
def Store.get (σ : Store) (k : Bytes) : Option Bytes := AMap.get σ k

/-- `Storage::set`. -/
def Store.set (σ : Store) (k v : Bytes) : Store := smapSet k v σ

/-- `Storage::remove`. -/
def Store.remove (σ : Store) (k : Bytes) : Store := AMap.erase σ k

/-- `Storage::range(Some(lo), Some(hi), Order::Ascending)`: from `lo` on, before `hi`. -/
def Store.range (σ : Store) (lo hi : Bytes) : Store := σ.filter fun e => !bLt e.1 lo && bLt e.1 hi

/-! ## cw-storage-plus -/

/-- `encode_length`: big endian, two bytes. -/
def len16 (n : Nat) : Bytes := [UInt8.ofNat (n / 256), UInt8.ofNat (n % 256)]

/-- A part of a key with its length before it. -/
def lengthed (p : Bytes) : Bytes := len16 p.length ++ p

/-- The key of a `Map` entry. -/
def mapKey (ns k : Bytes) : Bytes := lengthed ns ++ k

/-- The key of an entry of a `Map` with a key of two parts. -/
def mapKey2 (ns a b : Bytes) : Bytes := lengthed ns ++ (lengthed a ++ b)

/-- `encode_length` panics on parts longer than 65535 bytes ("only supports namespaces up to length 0xFFFF"). -/
def keyOf2 (ns a b : Bytes) : R Bytes := do
  require (a.length ≤ 0xFFFF) (.panic .overflow)
  return mapKey2 ns a b

/-- `may_load`. -/
def mayLoadAt {α : Type} (f : Json → Option α) (σ : Store) (k : Bytes) : R (Option α) :=
  match σ.get k with
  | none => .ok none
  | some b => do
    let x ← okOr ((Json.parse b).bind f) .parse
    return some x

/-- `load`. -/
def loadAt {α : Type} (f : Json → Option α) (σ : Store) (k : Bytes) : R α := do
  let o ← mayLoadAt f σ k
  okOr o .notFound

/-- `save`. -/
def saveAt (σ : Store) (k : Bytes) (j : Json) : Store := σ.set k j.print

/-- The bytes of a number, least significant first, incremented (`increment_last_byte`, seen from the end). -/
def incrRev : Bytes → Bytes
  | [] => []
  | b :: t => if b = 255 then 0 :: incrRev t else (b + 1) :: t

/-- `namespace_upper_bound`. -/
def upperBound (p : Bytes) : Bytes := (incrRev p.reverse).reverse

/-- `range_with_prefix(storage, p, start.map(Bound::ExclusiveRaw), None, Order::Ascending)`: the keys without the prefix. -/
def Store.under (σ : Store) (p : Bytes) (start : Option Bytes) : List (Bytes × Bytes) :=
  let lo := match start with
    | none => p
    | some s => p ++ (s ++ [0])
  (σ.range lo (upperBound p)).map fun e => (e.1.drop p.length, e.2)

/-- The values of a range, read one after the other. -/
def readAll {α : Type} (f : Json → Option α) : List (Bytes × Bytes) → R (List (Bytes × α))
  | [] => .ok []
  | (k, b) :: t => do
    let x ← okOr ((Json.parse b).bind f) .parse
    let l ← readAll f t
    return (k, x) :: l

/-! ## Stored values -/

/-- `CanonicalAddr`, a newtype of `Binary`. -/
def canonJ (b : Bytes) : Json := .str (toBase64 b)

/-- `AssetInfoRaw` (`packages/haloswap/src/asset.rs:206-210`). -/
def rawInfoJ : AssetInfoRaw → Json
  | .token a => variant (asc "token") (obj [(asc "contract_addr", canonJ a)])
  | .native d => variant (asc "native_token") (obj [(asc "denom", .str d)])
def asRawInfo : Json → Option AssetInfoRaw :=
  tagged [
    (asc "token", fun b => (structOf [asc "contract_addr"] b).bind fun m =>
      (reqd asBinary (asc "contract_addr") m).map .token),
    (asc "native_token", fun b => (structOf [asc "denom"] b).bind fun m => (reqd asStr (asc "denom") m).map .native)]

/-- `PairInfoRaw` (`asset.rs:263-270`). -/
def pairRawJ (p : PairInfoRaw) : Json :=
  obj [(asc "asset_infos", twoJ rawInfoJ p.assetInfos), (asc "contract_addr", canonJ p.contractAddr),
    (asc "liquidity_token", canonJ p.liquidityToken), (asc "asset_decimals", twoJ .num p.assetDecimals),
    (asc "requirements", requirementsJ p.requirements)]
def asPairRaw (j : Json) : Option PairInfoRaw := do
  let m ← structOf [asc "asset_infos", asc "contract_addr", asc "liquidity_token", asc "asset_decimals", asc "requirements"] j
  let assetInfos ← reqd (asTwo asRawInfo) (asc "asset_infos") m
  let contractAddr ← reqd asBinary (asc "contract_addr") m
  let liquidityToken ← reqd asBinary (asc "liquidity_token") m
  let assetDecimals ← reqd (asTwo (asNum 256)) (asc "asset_decimals") m
  let requirements ← reqd asRequirements (asc "requirements") m
  return { assetInfos, contractAddr, liquidityToken, assetDecimals, requirements }

/-- The factory's `Config` (`halo-factory/src/state.rs:7-12`). -/
def ownConfigJ (c : Factory.Config) : Json :=
  obj [(asc "owner", canonJ c.owner), (asc "pair_code_id", .num c.pairCodeId), (asc "token_code_id", .num c.tokenCodeId)]
def asOwnConfig (j : Json) : Option Factory.Config := do
  let m ← structOf [asc "owner", asc "pair_code_id", asc "token_code_id"] j
  let owner ← reqd asBinary (asc "owner") m
  let pairCodeId ← reqd (asNum B64) (asc "pair_code_id") m
  let tokenCodeId ← reqd (asNum B64) (asc "token_code_id") m
  return { owner, pairCodeId, tokenCodeId }

/-- `Vec<u8>`: an array of numbers. -/
def bytesJ (b : Bytes) : Json := vecJ (fun x : UInt8 => .num x.toNat) b
def asBytes (j : Json) : Option Bytes := asVec (fun x => (asNum 256 x).map UInt8.ofNat) j

/-- `TmpPairInfo` (`halo-factory/src/state.rs:16-21`). -/
def tmpJ (t : Factory.Tmp) : Json :=
  obj [(asc "pair_key", bytesJ t.pairKey), (asc "asset_infos", twoJ rawInfoJ t.assetInfos),
    (asc "asset_decimals", twoJ .num t.assetDecimals)]
def asTmp (j : Json) : Option Factory.Tmp := do
  let m ← structOf [asc "pair_key", asc "asset_infos", asc "asset_decimals"] j
  let pairKey ← reqd asBytes (asc "pair_key") m
  let assetInfos ← reqd (asTwo asRawInfo) (asc "asset_infos") m
  let assetDecimals ← reqd (asTwo (asNum 256)) (asc "asset_decimals") m
  return { pairKey, assetInfos, assetDecimals }

/-- The router's `Config` (`halo-router/src/state.rs:6-9`). -/
def routerStateJ (s : Router.State) : Json := obj [(asc "halo_factory", canonJ s.haloFactory)]
def asRouterState (j : Json) : Option Router.State := (oneOf (asc "halo_factory") asBinary j).map fun f => { haloFactory := f }

/-- cw20-base `TokenInfo`. -/
structure TokenRec where
  name : Str
  symbol : Str
  decimals : Nat
  totalSupply : Nat
  mint : Option MinterData

def tokenRecJ (t : TokenRec) : Json :=
  obj [(asc "name", .str t.name), (asc "symbol", .str t.symbol), (asc "decimals", .num t.decimals),
    (asc "total_supply", u128J t.totalSupply), (asc "mint", minterOptJ t.mint)]
def asTokenRec (j : Json) : Option TokenRec := do
  let m ← structOf [asc "name", asc "symbol", asc "decimals", asc "total_supply", asc "mint"] j
  let name ← reqd asStr (asc "name") m
  let symbol ← reqd asStr (asc "symbol") m
  let decimals ← reqd (asNum 256) (asc "decimals") m
  let totalSupply ← reqd asU128 (asc "total_supply") m
  let mint ← optl asMinter (asc "mint") m
  return { name, symbol, decimals, totalSupply, mint := mint.map fun r => ⟨r.minter, r.cap⟩ }

/-- cw2 `ContractVersion`. -/
def versionJ (contract version : Str) : Json := obj [(asc "contract", .str contract), (asc "version", .str version)]

/-- `cw2::set_contract_version(storage, CONTRACT_NAME, CONTRACT_VERSION)`; the version is that of the package (`Cargo.toml`: `0.1.0` in
all four). -/
def setVersion (σ : Store) (name : Str) : Store := saveAt σ (asc "contract_info") (versionJ name (asc "0.1.0"))

/-! ## halo-token: cw20-base over storage -/

namespace Token

/-- `TOKEN_INFO`. -/
def infoKey : Bytes := asc "token_info"
/-- `CONTRACT_NAME` (`halo-token/src/contract.rs:14`). -/
def contractName : Str := asc "crates.io:" ++ asc "cw20-base"
/-- `BALANCES`. -/
def balKey (a : Addr) : Bytes := mapKey (asc "balance") a

/-- The loop of `create_accounts`. -/
def createLoopS (api : Api) : List (Str × Nat) → Store → Nat → R (Store × Nat)
  | [], σ, supply => .ok (σ, supply)
  | (a, amt) :: rest, σ, supply => do
    let addr ← api.validate a
    let supply' ← Uint128.add supply amt
    createLoopS api rest (saveAt σ (balKey addr) (u128J amt)) supply'

/-- `instantiate` (`halo-token/src/contract.rs:18-61`). -/
def instantiateS (api : Api) (m : TokenInst) : R Store := do
  let σ := setVersion [] contractName
  validate m
  validateAccounts m.initialBalances
  let (σ, totalSupply) ← createLoopS api m.initialBalances σ 0
  match getCapInst m with
  | some limit => require (¬ totalSupply > limit) (.generic 23)
  | none => .ok ()
  let mint ← match m.mint with
    | some r => do
      let a ← api.validate r.minter
      pure (some { minter := a, cap := r.cap : MinterData })
    | none => pure none
  return saveAt σ infoKey (tokenRecJ { name := m.name, symbol := m.symbol, decimals := m.decimals, totalSupply, mint })

/-- `BALANCES.update(storage, a, |b| b.unwrap_or_default().checked_sub(amount))`. -/
def debitS (σ : Store) (a : Addr) (amount : Nat) : R Store := do
  let o ← mayLoadAt asU128 σ (balKey a)
  let b ← Uint128.checkedSub (o.getD 0) amount
  return saveAt σ (balKey a) (u128J b)

/-- `BALANCES.update(storage, a, |b| Ok(b.unwrap_or_default() + amount))`. -/
def creditS (σ : Store) (a : Addr) (amount : Nat) : R Store := do
  let o ← mayLoadAt asU128 σ (balKey a)
  let b ← Uint128.add (o.getD 0) amount
  return saveAt σ (balKey a) (u128J b)

/-- `TOKEN_INFO.update(storage, |mut info| { info.total_supply = info.total_supply.checked_sub(amount)?; Ok(info) })`. -/
def shrinkS (σ : Store) (amount : Nat) : R Store := do
  let info ← loadAt asTokenRec σ infoKey
  let s ← Uint128.checkedSub info.totalSupply amount
  return saveAt σ infoKey (tokenRecJ { info with totalSupply := s })

/-- `execute_transfer`. -/
def transferS (api : Api) (σ : Store) (sender : Addr) (recipient : Str) (amount : Nat) : R (Store × Response) := do
  require (amount ≠ 0) .invalidZeroAmount
  let rcpt ← api.validate recipient
  let σ ← debitS σ sender amount
  let σ ← creditS σ rcpt amount
  return (σ, {})

/-- `execute_burn`. -/
def burnS (σ : Store) (sender : Addr) (amount : Nat) : R (Store × Response) := do
  require (amount ≠ 0) .invalidZeroAmount
  let σ ← debitS σ sender amount
  let σ ← shrinkS σ amount
  return (σ, {})

/-- `execute_mint`. -/
def mintS (api : Api) (σ : Store) (sender : Addr) (recipient : Str) (amount : Nat) : R (Store × Response) := do
  require (amount ≠ 0) .invalidZeroAmount
  let info ← loadAt asTokenRec σ infoKey
  let m ← okOr info.mint .unauthorized
  require (m.minter = sender) .unauthorized
  let s ← Uint128.add info.totalSupply amount
  match m.cap with
  | some limit => require (¬ s > limit) .cannotExceedCap
  | none => .ok ()
  let σ := saveAt σ infoKey (tokenRecJ { info with totalSupply := s })
  let rcpt ← api.validate recipient
  let σ ← creditS σ rcpt amount
  return (σ, {})

/-- `execute_send`. -/
def sendS (api : Api) (σ : Store) (sender : Addr) (contract : Str) (amount : Nat) (msg : HookMsg) : R (Store × Response) := do
  require (amount ≠ 0) .invalidZeroAmount
  let rcpt ← api.validate contract
  let σ ← debitS σ sender amount
  let σ ← creditS σ rcpt amount
  return (σ, { messages := [plain (.exec contract (.receive sender amount msg) [])] })

/-- An entry of `ALLOWANCES` and its mirror in `ALLOWANCES_SPENDER`. -/
def allowKeys (owner spender : Addr) : R (Bytes × Bytes) := do
  let k ← keyOf2 (asc "allowance") owner spender
  let k' ← keyOf2 (asc "allowance_spender") spender owner
  return (k, k')

/-- `execute_increase_allowance`: both maps are updated, each from its own entry. -/
def increaseAllowanceS (api : Api) (blk : Block) (σ : Store) (sender : Addr) (spender : Str) (amount : Nat) (expires : Option Expiration) :
    R (Store × Response) := do
  let sp ← api.validate spender
  require (sp ≠ sender) .cannotSetOwnAccount
  let (k, k') ← allowKeys sender sp
  let o ← mayLoadAt asAllowanceA σ k
  let cur := o.getD ⟨0, .never⟩
  checkGrant api blk expires
  let a ← Uint128.add cur.amount amount
  let σ := saveAt σ k (allowanceJ ⟨a, expires.getD cur.expires⟩)
  let o' ← mayLoadAt asAllowanceA σ k'
  let cur' := o'.getD ⟨0, .never⟩
  checkGrant api blk expires
  let a' ← Uint128.add cur'.amount amount
  let σ := saveAt σ k' (allowanceJ ⟨a', expires.getD cur'.expires⟩)
  return (σ, {})

/-- `execute_decrease_allowance`: the new value, or the removal, goes to both maps. -/
def decreaseAllowanceS (api : Api) (blk : Block) (σ : Store) (sender : Addr) (spender : Str) (amount : Nat) (expires : Option Expiration) :
    R (Store × Response) := do
  let sp ← api.validate spender
  require (sp ≠ sender) .cannotSetOwnAccount
  let (k, k') ← allowKeys sender sp
  let cur ← loadAt asAllowanceA σ k
  if amount < cur.amount then
    let a ← Uint128.checkedSub cur.amount amount
    checkGrant api blk expires
    let j := allowanceJ ⟨a, expires.getD cur.expires⟩
    return (saveAt (saveAt σ k j) k' j, {})
  else
    return ((σ.remove k).remove k', {})

/-- The closure of `deduct_allowance`. -/
def deducted (blk : Block) (o : Option Allowance) (amount : Nat) : R Allowance :=
  match o with
  | some a => do
    require (a.expires.isExpired blk = false) .expired
    let x ← Uint128.checkedSub a.amount amount
    return ⟨x, a.expires⟩
  | none => .error .noAllowance

/-- `deduct_allowance`: both maps are updated, each from its own entry. -/
def deductAllowanceS (blk : Block) (σ : Store) (owner spender : Addr) (amount : Nat) : R Store := do
  let (k, k') ← allowKeys owner spender
  let o ← mayLoadAt asAllowanceA σ k
  let a ← deducted blk o amount
  let σ := saveAt σ k (allowanceJ a)
  let o' ← mayLoadAt asAllowanceA σ k'
  let a' ← deducted blk o' amount
  return saveAt σ k' (allowanceJ a')

/-- `execute_transfer_from`. -/
def transferFromS (api : Api) (blk : Block) (σ : Store) (sender : Addr) (owner recipient : Str) (amount : Nat) :
    R (Store × Response) := do
  let rcpt ← api.validate recipient
  let ow ← api.validate owner
  let σ ← deductAllowanceS blk σ ow sender amount
  let σ ← debitS σ ow amount
  let σ ← creditS σ rcpt amount
  return (σ, {})

/-- `execute_burn_from`. -/
def burnFromS (api : Api) (blk : Block) (σ : Store) (sender : Addr) (owner : Str) (amount : Nat) : R (Store × Response) := do
  let ow ← api.validate owner
  let σ ← deductAllowanceS blk σ ow sender amount
  let σ ← debitS σ ow amount
  let σ ← shrinkS σ amount
  return (σ, {})

/-- `execute_send_from`. -/
def sendFromS (api : Api) (blk : Block) (σ : Store) (sender : Addr) (owner contract : Str) (amount : Nat) (msg : HookMsg) :
    R (Store × Response) := do
  let rcpt ← api.validate contract
  let ow ← api.validate owner
  let σ ← deductAllowanceS blk σ ow sender amount
  let σ ← debitS σ ow amount
  let σ ← creditS σ rcpt amount
  return (σ, { messages := [plain (.exec contract (.receive sender amount msg) [])] })

/-- `execute_update_minter`. -/
def updateMinterS (api : Api) (σ : Store) (sender : Addr) (newMinter : Option Str) : R (Store × Response) := do
  let info ← loadAt asTokenRec σ infoKey
  let m ← okOr info.mint .unauthorized
  require (m.minter = sender) .unauthorized
  match newMinter with
  | none => return (saveAt σ infoKey (tokenRecJ { info with mint := none }), {})
  | some s => do
    let a ← api.validate s
    return (saveAt σ infoKey (tokenRecJ { info with mint := some { minter := a, cap := m.cap } }), {})

/-- `execute_update_marketing` and `execute_upload_logo`: `MARKETING_INFO.may_load(storage)?.ok_or(Unauthorized)`. What follows if there
is an entry is not modelled (`.parse`); there never is one. -/
def marketingS (σ : Store) : R (Store × Response) :=
  match σ.get (asc "marketing_info") with
  | none => .error .unauthorized
  | some _ => .error .parse

/-- `execute` (`halo-token/src/contract.rs:64-71`). -/
def executeS (api : Api) (blk : Block) (σ : Store) (sender : Addr) : ExecMsg → R (Store × Response)
  | .transfer r a => transferS api σ sender r a
  | .burn a => burnS σ sender a
  | .send c a m => sendS api σ sender c a m
  | .mint r a => mintS api σ sender r a
  | .increaseAllowance s a e => increaseAllowanceS api blk σ sender s a e
  | .decreaseAllowance s a e => decreaseAllowanceS api blk σ sender s a e
  | .transferFrom o r a => transferFromS api blk σ sender o r a
  | .burnFrom o a => burnFromS api blk σ sender o a
  | .sendFrom o c a m => sendFromS api blk σ sender o c a m
  | .updateMinter n => updateMinterS api σ sender n
  | .marketing => marketingS σ
  | _ => .error .parse

/-- `query` (`halo-token/src/contract.rs:73-76`). -/
def answerS (api : Api) (σ : Store) : QueryMsg → R Json
  | .balance a => do
    let a ← api.validate a
    let o ← mayLoadAt asU128 σ (balKey a)
    return balanceJ (o.getD 0)
  | .tokenInfo => do
    let i ← loadAt asTokenRec σ infoKey
    return tokenInfoJ { name := i.name, symbol := i.symbol, decimals := i.decimals, totalSupply := i.totalSupply }
  | .minter => do
    let i ← loadAt asTokenRec σ infoKey
    return minterOptJ i.mint
  | .allowance o s => do
    let o ← api.validate o
    let s ← api.validate s
    let k ← keyOf2 (asc "allowance") o s
    let a ← mayLoadAt asAllowanceA σ k
    return allowanceJ (a.getD ⟨0, .never⟩)
  | .allAllowances o s l => do
    let o ← api.validate o
    require (o.length ≤ 0xFFFF) (.panic .overflow)
    let r ← readAll asAllowanceA ((σ.under (lengthed (asc "allowance") ++ lengthed o) s).take (min (l.getD 10) 30))
    return grantsJ (asc "spender") r
  | .allSpenderAllowances p s l => do
    let p ← api.validate p
    require (p.length ≤ 0xFFFF) (.panic .overflow)
    let r ← readAll asAllowanceA ((σ.under (lengthed (asc "allowance_spender") ++ lengthed p) s).take (min (l.getD 10) 30))
    return grantsJ (asc "owner") r
  | .allAccounts s l =>
    return accountsJ (((σ.under (lengthed (asc "balance")) s).take (min (l.getD 10) 30)).map Prod.fst)
  | .marketingInfo =>
    match σ.get (asc "marketing_info") with
    | none => return noMarketingJ
    | some _ => .error .parse
  | .downloadLogo =>
    match σ.get (asc "logo") with
    | none => .error .notFound
    | some _ => .error .parse
  | _ => .error .parse

end Token

/-! ## halo-pair -/

namespace Pair

/-- `PAIR_INFO` (`halo-pair/src/state.rs:4`). -/
def infoKey : Bytes := asc "pair_info"
/-- `CONTRACT_NAME` (`halo-pair/src/contract.rs:28`). -/
def contractName : Str := asc "crates.io:" ++ asc "halo-pair"

/-- `instantiate` (`halo-pair/src/contract.rs:36-75`). -/
def instantiateS (api : Api) (self : Addr) (m : Inst) : R (Store × Response) := do
  let σ := setVersion [] contractName
  let (st, r) ← instantiate api self m
  return (saveAt σ infoKey (pairRawJ st), r)

/-- `execute` (`halo-pair/src/contract.rs:78-118`): `PAIR_INFO` is loaded (lines 142, 180, 222, 349, 404) and never saved. Here it is loaded
at the start. -/
def executeS (api : Api) (q : Querier) (self : Addr) (σ : Store) (caller : Addr) (funds : List Coin) (m : ExecMsg) :
    R (Store × Response) := do
  let st ← loadAt asPairRaw σ infoKey
  let (_, r) ← execute api q self st caller funds m
  return (σ, r)

/-- `reply` (`halo-pair/src/contract.rs:194-205`): `PAIR_INFO.update`. -/
def replyS (api : Api) (σ : Store) (data : Option Bytes) : R (Store × Response) := do
  let lt ← okOr (parseReply data) (.panic .unwrap)
  let st ← loadAt asPairRaw σ infoKey
  let c ← api.canonicalize lt
  return (saveAt σ infoKey (pairRawJ { st with liquidityToken := c }), { events := [.liquidityToken lt] })

/-- `query` (`halo-pair/src/contract.rs:480-491`): every query loads `PAIR_INFO` (lines 494, 501, 522, 554). -/
def answerS (api : Api) (q : Querier) (σ : Store) (m : QueryMsg) : R Json := do
  let st ← loadAt asPairRaw σ infoKey
  answer api q st m

/-- `migrate` (`halo-pair/src/contract.rs:793-798`). -/
def migrateS (σ : Store) : Store := setVersion σ contractName

end Pair

/-! ## halo-factory -/

namespace Factory

/-- `CONFIG` (`halo-factory/src/state.rs:14`). -/
def configKey : Bytes := asc "config"
/-- `TMP_PAIR_INFO` (`state.rs:23`). -/
def tmpKey : Bytes := asc "tmp_pair_info"
/-- `PAIRS` (`state.rs:24`). -/
def pairsKey (k : Bytes) : Bytes := mapKey (asc "pair_info") k
/-- `ALLOW_NATIVE_TOKENS` (`state.rs:71`). -/
def allowKey (d : Str) : Bytes := mapKey (asc "allow_native_token") d
/-- `CONTRACT_NAME` (`halo-factory/src/contract.rs:24`). -/
def contractName : Str := asc "crates.io:" ++ asc "halo-factory"

/-- `instantiate` (`halo-factory/src/contract.rs:28-45`). -/
def instantiateS (api : Api) (sender : Addr) (pairCodeId tokenCodeId : Nat) : R (Store × Response) := do
  let σ := setVersion [] contractName
  let owner ← api.canonicalize sender
  return (saveAt σ configKey (ownConfigJ { owner, pairCodeId, tokenCodeId }), {})

/-- The permission check. -/
def checkOwnerS (api : Api) (c : Config) (sender : Addr) : R Unit := do
  let s ← api.canonicalize sender
  require (s = c.owner) (.generic 40)

/-- `execute_update_config` (lines 69-102). -/
def updateConfigS (api : Api) (σ : Store) (sender : Addr) (owner : Option Str) (tokenCodeId pairCodeId : Option Nat) :
    R (Store × Response) := do
  let c ← loadAt asOwnConfig σ configKey
  checkOwnerS api c sender
  let newOwner ← (match owner with
    | some o => do
      let _ ← api.validate o
      api.canonicalize o
    | none => .ok c.owner : R Bytes)
  let c' : Config :=
    { owner := newOwner, tokenCodeId := tokenCodeId.getD c.tokenCodeId, pairCodeId := pairCodeId.getD c.pairCodeId }
  return (saveAt σ configKey (ownConfigJ c'), { events := [.updateConfig] })

/-- `execute_create_pair` (lines 105-174). `if let Ok(Some(_)) = PAIRS.may_load(..)` (line 139): an entry that cannot be read counts as
none. -/
def createPairS (api : Api) (q : Querier) (self : Addr) (σ : Store) (assetInfos : AssetInfo × AssetInfo)
    (requirements : Requirements) : R (Store × Response) := do
  let c ← loadAt asOwnConfig σ configKey
  require (¬ assetInfos.1 = assetInfos.2) (.generic 41)
  let d0 ← decimalsOr (assetInfos.1.queryDecimals q self) (.generic 42)
  let d1 ← decimalsOr (assetInfos.2.queryDecimals q self) (.generic 43)
  let r0 ← assetInfos.1.toRaw api
  let r1 ← assetInfos.2.toRaw api
  let key := pairKey (r0, r1)
  match mayLoadAt asPairRaw σ (pairsKey key) with
  | .ok (some _) => .error (.generic 44)
  | _ => do
    let σ := saveAt σ tmpKey (tmpJ { pairKey := key, assetInfos := (r0, r1), assetDecimals := (d0, d1) })
    return (σ,
      { messages := [⟨.inst (some self) c.pairCodeId (.pair assetInfos c.tokenCodeId (d0, d1) requirements) [], some 1⟩],
        events := [.createPair assetInfos] })

/-- `execute_add_native_token_decimals` (lines 176-204). -/
def addNativeTokenDecimalsS (api : Api) (q : Querier) (self : Addr) (σ : Store) (sender : Addr) (denom : Str) (decimals : Nat) :
    R (Store × Response) := do
  let c ← loadAt asOwnConfig σ configKey
  checkOwnerS api c sender
  let balance ← q.balance self denom
  require (balance ≠ 0) (.generic 45)
  return (saveAt σ (allowKey denom) (.num decimals), { events := [.addNativeToken denom decimals] })

/-- `execute_migrate_pair` (lines 206-229). -/
def migratePairS (api : Api) (σ : Store) (sender : Addr) (contract : Str) (codeId : Option Nat) : R (Store × Response) := do
  let c ← loadAt asOwnConfig σ configKey
  checkOwnerS api c sender
  return (σ, { messages := [plain (.migrate contract (codeId.getD c.pairCodeId))] })

/-- `execute` (lines 48-66). -/
def executeS (api : Api) (q : Querier) (self : Addr) (σ : Store) (sender : Addr) : ExecMsg → R (Store × Response)
  | .updateConfig owner tokenCodeId pairCodeId => updateConfigS api σ sender owner tokenCodeId pairCodeId
  | .createPair assetInfos requirements => createPairS api q self σ assetInfos requirements
  | .addNativeTokenDecimals denom decimals => addNativeTokenDecimalsS api q self σ sender denom decimals
  | .migratePair contract codeId => migratePairS api σ sender contract codeId
  | _ => .error .parse

/-- `reply` (lines 233-262). -/
def replyS (api : Api) (q : Querier) (σ : Store) (data : Option Bytes) : R (Store × Response) := do
  let tmp ← loadAt asTmp σ tmpKey
  let pairContract ← okOr (parseReply data) (.panic .unwrap)
  let info ← q.pairInfoFromPair pairContract
  let lt ← api.canonicalize info.liquidityToken
  let ca ← api.canonicalize pairContract
  let entry : PairInfoRaw :=
    { liquidityToken := lt, contractAddr := ca, assetInfos := tmp.assetInfos, assetDecimals := tmp.assetDecimals,
      requirements := info.requirements }
  return (saveAt σ (pairsKey tmp.pairKey) (pairRawJ entry), { events := [.pairCreated pairContract info.liquidityToken] })

/-- `read_pairs` (`state.rs:36-53`): each value is read and converted in turn. -/
def readPairsS (api : Api) (σ : Store) (startAfter : Option (AssetInfoRaw × AssetInfoRaw)) (limit : Option Nat) : R (List PairInfo) := do
  let l := (σ.under (lengthed (asc "pair_info")) (calcRangeStart startAfter)).take (min (limit.getD defaultLimit) maxLimit)
  l.mapM fun e => do
    let v ← okOr ((Json.parse e.2).bind asPairRaw) .parse
    v.toNormal api

/-- `query` (lines 264-276). -/
def answerS (api : Api) (σ : Store) : QueryMsg → R Json
  | .config => do
    let c ← loadAt asOwnConfig σ configKey
    let o ← api.humanize c.owner
    return configJ (o, c.pairCodeId, c.tokenCodeId)
  | .pairOf is => do
    let r0 ← is.1.toRaw api
    let r1 ← is.2.toRaw api
    let p ← loadAt asPairRaw σ (pairsKey (pairKey (r0, r1)))
    let i ← p.toNormal api
    return pairInfoJ i
  | .pairs startAfter limit => do
    let sa ← (match startAfter with
      | some a => do
        let r0 ← a.1.toRaw api
        let r1 ← a.2.toRaw api
        pure (some (r0, r1))
      | none => pure none : R (Option (AssetInfoRaw × AssetInfoRaw)))
    let l ← readPairsS api σ sa limit
    return pairsJ l
  | .nativeTokenDecimals d => do
    let n ← loadAt (asNum 256) σ (allowKey d)
    return decimalsJ n
  | _ => .error .parse

/-- `migrate` (lines 327-332). -/
def migrateS (σ : Store) : Store := setVersion σ contractName

end Factory

/-! ## halo-router -/

namespace Router

/-- `CONFIG` (`halo-router/src/state.rs:11`). -/
def configKey : Bytes := asc "config"
/-- `CONTRACT_NAME` (`halo-router/src/contract.rs:24`). -/
def contractName : Str := asc "crates.io:" ++ asc "halo-router"

/-- `instantiate` (`halo-router/src/contract.rs:28-44`). -/
def instantiateS (api : Api) (haloFactory : Str) : R (Store × Response) := do
  let σ := setVersion [] contractName
  let f ← api.canonicalize haloFactory
  return (saveAt σ configKey (routerStateJ { haloFactory := f }), {})

/-- `execute` (`halo-router/src/contract.rs:46-103`, `operations.rs`): `CONFIG` is loaded (`operations.rs:32`) and never saved. Here it is loaded at the start. -/
def executeS (api : Api) (q : Querier) (self : Addr) (σ : Store) (sender : Addr) (m : ExecMsg) : R (Store × Response) := do
  let st ← loadAt asRouterState σ configKey
  let (_, r) ← execute api q self st sender m
  return (σ, r)

/-- `query` (`halo-router/src/contract.rs:204-219`): every query loads `CONFIG` (lines 222, 235, 280). -/
def answerS (api : Api) (q : Querier) (σ : Store) (m : QueryMsg) : R Json := do
  let st ← loadAt asRouterState σ configKey
  answer api q st m

/-- `migrate` (`halo-router/src/contract.rs:415-419`). -/
def migrateS (σ : Store) : Store := setVersion σ contractName

end Router

end Halo
