import Verif.Types
/-!
# halo-factory (`contracts/halo-factory/src/contract.rs`, `state.rs`)

Line numbers without a file name refer to `contracts/halo-factory/src/contract.rs`.
-/

namespace Halo

/-- Lexicographic `<` on bytes: Rust's `Ord for [u8]` (`cmp`), also the storage key order. -/
def bLt : Bytes → Bytes → Bool
  | [], [] => false
  | [], _ :: _ => true
  | _ :: _, [] => false
  | a :: as, b :: bs => if a < b then true else if b < a then false else bLt as bs

/-- `Map::save` into a store ordered by key: entries are kept in ascending key order. -/
def smapSet {V : Type} (k : Bytes) (v : V) : List (Bytes × V) → List (Bytes × V)
  | [] => [(k, v)]
  | (k', v') :: t =>
    if k' = k then (k, v) :: t
    else if bLt k k' then (k, v) :: (k', v') :: t
    else (k', v') :: smapSet k v t

namespace Factory

/-- `Config` (`state.rs:7-12`). -/
structure Config where
  owner : Bytes
  pairCodeId : Nat
  tokenCodeId : Nat
  deriving DecidableEq, Repr

/-- `TmpPairInfo` (`state.rs:16-21`). -/
structure Tmp where
  pairKey : Bytes
  assetInfos : AssetInfoRaw × AssetInfoRaw
  assetDecimals : Nat × Nat
  deriving DecidableEq, Repr

/-- Storage of the factory: `CONFIG` (`state.rs:14`), `TMP_PAIR_INFO` (`state.rs:23`), `PAIRS`
(`state.rs:24`, in key order), `ALLOW_NATIVE_TOKENS` (`state.rs:71`). -/
structure State where
  config : Config
  tmp : Option Tmp
  pairs : List (Bytes × PairInfoRaw)
  allow : AMap Bytes Nat
  deriving Repr

/-- `asset_infos.sort_by(|a, b| a.as_bytes().cmp(b.as_bytes()))` on two elements (stable). -/
def sort2 (a : AssetInfoRaw × AssetInfoRaw) : AssetInfoRaw × AssetInfoRaw :=
  if bLt a.2.asBytes a.1.asBytes then (a.2, a.1) else a

/-- `pair_key` (`state.rs:26-31`). -/
def pairKey (a : AssetInfoRaw × AssetInfoRaw) : Bytes :=
  let s := sort2 a
  s.1.asBytes ++ s.2.asBytes

/-- `MAX_LIMIT` (`state.rs:34`). -/
def maxLimit : Nat := 30
/-- `DEFAULT_LIMIT` (`state.rs:35`). -/
def defaultLimit : Nat := 10

/-- `calc_range_start` (`state.rs:56-68`): the key with a byte `1` appended. -/
def calcRangeStart (startAfter : Option (AssetInfoRaw × AssetInfoRaw)) : Option Bytes :=
  startAfter.map (fun a =>
    let s := sort2 a
    s.1.asBytes ++ s.2.asBytes ++ [1])

/-- `PAIRS.range(storage, start.map(Bound::ExclusiveRaw), None, Order::Ascending)`: entries whose key is
strictly above the bound, ascending. -/
def rangeFrom (pairs : List (Bytes × PairInfoRaw)) (start : Option Bytes) : List (Bytes × PairInfoRaw) :=
  match start with
  | none => pairs
  | some b => pairs.filter (fun e => bLt b e.1)

/-- `.map(|v| v.to_normal(api)).collect::<StdResult<Vec<_>>>()`. -/
def toNormalAll (api : Api) : List (Bytes × PairInfoRaw) → R (List PairInfo)
  | [] => .ok []
  | (_, v) :: t => do
    let p ← v.toNormal api
    let ps ← toNormalAll api t
    return p :: ps

/-- `read_pairs` (`state.rs:36-53`). -/
def readPairs (api : Api) (st : State) (startAfter : Option (AssetInfoRaw × AssetInfoRaw))
    (limit : Option Nat) : R (List PairInfo) :=
  let limit := min (limit.getD defaultLimit) maxLimit
  let start := calcRangeStart startAfter
  toNormalAll api ((rangeFrom st.pairs start).take limit)

/-! ## Entry points -/

/-- `instantiate` (lines 28-45). -/
def instantiate (api : Api) (sender : Addr) (pairCodeId tokenCodeId : Nat) : R (State × Response) := do
  let owner ← api.canonicalize sender
  return ({ config := { owner, pairCodeId, tokenCodeId }, tmp := none, pairs := [], allow := [] }, {})

/-- The permission check used three times (lines 80-82, 186-188, 216-218). Error 40: "unauthorized". -/
def checkOwner (api : Api) (st : State) (sender : Addr) : R Unit := do
  let c ← api.canonicalize sender
  require (c = st.config.owner) (.generic 40)

/-- `execute_update_config` (lines 69-102). -/
def updateConfig (api : Api) (st : State) (sender : Addr) (owner : Option Str)
    (tokenCodeId pairCodeId : Option Nat) : R (State × Response) := do
  checkOwner api st sender
  let newOwner ← (match owner with
    | some o => do
      let _ ← api.validate o
      api.canonicalize o
    | none => .ok st.config.owner : R Bytes)
  let config : Config :=
    { owner := newOwner,
      tokenCodeId := tokenCodeId.getD st.config.tokenCodeId,
      pairCodeId := pairCodeId.getD st.config.pairCodeId }
  return ({ st with config }, { events := [.updateConfig] })

/-- `match asset.query_decimals(..) { Ok(d) => d, Err(_) => return Err(..) }` (lines 119-129). -/
def decimalsOr (r : R Nat) (e : Err) : R Nat :=
  match r with
  | .ok d => .ok d
  | .error _ => .error e

/-- `execute_create_pair` (lines 105-174). Errors: 41 "same asset", 42 "asset1 is invalid",
43 "asset2 is invalid", 44 "Pair already exists". -/
def createPair (api : Api) (q : Querier) (self : Addr) (st : State)
    (assetInfos : AssetInfo × AssetInfo) (requirements : Requirements) : R (State × Response) := do
  require (¬ assetInfos.1 = assetInfos.2) (.generic 41)
  let d0 ← decimalsOr (assetInfos.1.queryDecimals q self) (.generic 42)
  let d1 ← decimalsOr (assetInfos.2.queryDecimals q self) (.generic 43)
  let r0 ← assetInfos.1.toRaw api
  let r1 ← assetInfos.2.toRaw api
  let key := pairKey (r0, r1)
  require (AMap.get st.pairs key = none) (.generic 44)
  let tmp : Tmp := { pairKey := key, assetInfos := (r0, r1), assetDecimals := (d0, d1) }
  return ({ st with tmp := some tmp },
    { messages := [⟨.inst (some self) st.config.pairCodeId
        (.pair assetInfos st.config.tokenCodeId (d0, d1) requirements) [], some 1⟩],
      events := [.createPair assetInfos] })

/-- `execute_add_native_token_decimals` (lines 176-204). Error 45: "a balance greater than zero is required". -/
def addNativeTokenDecimals (api : Api) (q : Querier) (self : Addr) (st : State) (sender : Addr)
    (denom : Str) (decimals : Nat) : R (State × Response) := do
  checkOwner api st sender
  let balance ← q.balance self denom
  require (balance ≠ 0) (.generic 45)
  return ({ st with allow := st.allow.set denom decimals }, { events := [.addNativeToken denom decimals] })

/-- `execute_migrate_pair` (lines 206-229). -/
def migratePair (api : Api) (st : State) (sender : Addr) (contract : Str) (codeId : Option Nat) :
    R (State × Response) := do
  checkOwner api st sender
  return (st, { messages := [plain (.migrate contract (codeId.getD st.config.pairCodeId))] })

/-- `execute` (lines 48-66). -/
def execute (api : Api) (q : Querier) (self : Addr) (st : State) (sender : Addr) :
    ExecMsg → R (State × Response)
  | .updateConfig owner tokenCodeId pairCodeId => updateConfig api st sender owner tokenCodeId pairCodeId
  | .createPair assetInfos requirements => createPair api q self st assetInfos requirements
  | .addNativeTokenDecimals denom decimals =>
    addNativeTokenDecimals api q self st sender denom decimals
  | .migratePair contract codeId => migratePair api st sender contract codeId
  | _ => .error .parse

/-- `reply` (lines 233-262). `created` as in `Pair.reply`. -/
def reply (api : Api) (q : Querier) (st : State) (created : Option Addr) : R (State × Response) := do
  let tmp ← okOr st.tmp .notFound
  let pairContract ← okOr created (.panic .unwrap)
  let info ← q.pairInfoFromPair pairContract
  let lt ← api.canonicalize info.liquidityToken
  let ca ← api.canonicalize pairContract
  let entry : PairInfoRaw :=
    { liquidityToken := lt, contractAddr := ca, assetInfos := tmp.assetInfos,
      assetDecimals := tmp.assetDecimals, requirements := info.requirements }
  return ({ st with pairs := smapSet tmp.pairKey entry st.pairs },
    { events := [.pairCreated pairContract info.liquidityToken] })

/-! ## Queries -/

/-- `query_config` (lines 278-287): owner, pair code id, token code id. -/
def queryConfig (api : Api) (st : State) : R (Addr × Nat × Nat) := do
  let o ← api.humanize st.config.owner
  return (o, st.config.pairCodeId, st.config.tokenCodeId)

/-- `query_pair` (lines 289-296). -/
def queryPair (api : Api) (st : State) (assetInfos : AssetInfo × AssetInfo) : R PairInfo := do
  let r0 ← assetInfos.1.toRaw api
  let r1 ← assetInfos.2.toRaw api
  let p ← okOr (AMap.get st.pairs (pairKey (r0, r1))) .notFound
  p.toNormal api

/-- `query_pairs` (lines 298-316). -/
def queryPairs (api : Api) (st : State) (startAfter : Option (AssetInfo × AssetInfo))
    (limit : Option Nat) : R (List PairInfo) := do
  let sa ← (match startAfter with
    | some a => do
      let r0 ← a.1.toRaw api
      let r1 ← a.2.toRaw api
      pure (some (r0, r1))
    | none => pure none : R (Option (AssetInfoRaw × AssetInfoRaw)))
  readPairs api st sa limit

/-- `query_native_token_decimal` (lines 318-325). -/
def queryNativeTokenDecimals (st : State) (denom : Str) : R Nat := okOr (st.allow.get denom) .notFound

/-- `migrate` (lines 328-332): only the contract version. -/
def migrate (st : State) : R (State × Response) := .ok (st, {})

end Factory
end Halo
