import Verif.Types
/-!
# halo-token (`contracts/halo-token/src/contract.rs`)

The contract is a thin wrapper around `cw20-base` 1.0.0 (external crate): `instantiate` is its own code,
`execute` (64-71) and `query` (74-76) forward to cw20-base.  The cw20-base functions are modelled from the
published source of that version.  Not modelled: marketing data (the instantiate message cannot set it, so
every marketing message is rejected).  The paginated listing queries are in `Verif/Listing.lean`.
-/

namespace Halo

/-- `cosmwasm_std::BlockInfo` fields that matter. -/
structure Block where
  height : Nat
  time : Nat
  deriving DecidableEq, Repr

/-- `cw_utils::Expiration::is_expired`. -/
def Expiration.isExpired (b : Block) : Expiration → Bool
  | .atHeight h => decide (b.height ≥ h)
  | .atTime t => decide (b.time ≥ t)
  | .never => false

/-- `cw20::AllowanceResponse`. -/
structure Allowance where
  amount : Nat
  expires : Expiration
  deriving DecidableEq, Repr

/-- `cw20_base::state::MinterData`. -/
structure MinterData where
  minter : Addr
  cap : Option Nat
  deriving DecidableEq, Repr

/-- Storage of a token: `TOKEN_INFO`, `BALANCES`, `ALLOWANCES` (keyed by owner, spender). -/
structure TokenState where
  name : Str
  symbol : Str
  decimals : Nat
  totalSupply : Nat
  mint : Option MinterData
  balances : AMap Addr Nat
  allowances : AMap (Addr × Addr) Allowance
  deriving Repr

namespace Token

/-! ## Instantiation -/

/-- `is_valid_name` (`packages/haloswap/src/token.rs:40-46`). -/
def isValidName (name : Str) : Bool := !(decide (name.length < 3) || decide (name.length > 50))

/-- `is_valid_symbol` (`packages/haloswap/src/token.rs:48-59`). -/
def isValidSymbol (symbol : Str) : Bool :=
  if symbol.length < 3 ∨ symbol.length > 12 then false
  else symbol.all (fun b =>
    !((b ≠ 45) && (decide (b < 65) || decide (b > 90)) && (decide (b < 97) || decide (b > 122))))

/-- `InstantiateMsg::validate` (`packages/haloswap/src/token.rs:21-37`). Errors 20/21/22. -/
def validate (m : TokenInst) : R Unit := do
  require (isValidName m.name) (.generic 20)
  require (isValidSymbol m.symbol) (.generic 21)
  require (¬ m.decimals > 18) (.generic 22)

/-- `InstantiateMsg::get_cap` (`packages/haloswap/src/token.rs:17-19`). -/
def getCapInst (m : TokenInst) : Option Nat := m.mint.bind (·.cap)

/-- cw20-base `validate_accounts`: initial addresses must be pairwise distinct (as strings). -/
def validateAccounts (accounts : List (Str × Nat)) : R Unit :=
  require ((accounts.map Prod.fst).Nodup) .duplicateAccounts

/-- The loop of cw20-base `create_accounts`: save each balance, add up the supply. -/
def createLoop (api : Api) : List (Str × Nat) → AMap Addr Nat → Nat → R (AMap Addr Nat × Nat)
  | [], bals, supply => .ok (bals, supply)
  | (a, amt) :: rest, bals, supply => do
    let addr ← api.validate a
    let supply' ← Uint128.add supply amt
    createLoop api rest (bals.set addr amt) supply'

/-- cw20-base `create_accounts`. -/
def createAccounts (api : Api) (accounts : List (Str × Nat)) : R (AMap Addr Nat × Nat) := do
  validateAccounts accounts
  createLoop api accounts [] 0

/-- `instantiate` (`contracts/halo-token/src/contract.rs:18-61`). Error 23:
"Initial supply greater than cap". -/
def instantiate (api : Api) (m : TokenInst) : R TokenState := do
  validate m
  let (balances, totalSupply) ← createAccounts api m.initialBalances
  match getCapInst m with
  | some limit => require (¬ totalSupply > limit) (.generic 23)
  | none => .ok ()
  let mint ← match m.mint with
    | some r => do
      let a ← api.validate r.minter
      pure (some { minter := a, cap := r.cap : MinterData })
    | none => pure none
  return { name := m.name, symbol := m.symbol, decimals := m.decimals, totalSupply, mint,
           balances, allowances := [] }

/-! ## cw20-base execute -/

/-- `BALANCES.update(.., checked_sub)`. -/
def debit (st : TokenState) (a : Addr) (amount : Nat) : R TokenState := do
  let b ← Uint128.checkedSub (st.balances.getD0 a) amount
  return { st with balances := st.balances.set a b }

/-- `BALANCES.update(.., unwrap_or_default() + amount)`. -/
def credit (st : TokenState) (a : Addr) (amount : Nat) : R TokenState := do
  let b ← Uint128.add (st.balances.getD0 a) amount
  return { st with balances := st.balances.set a b }

/-- `get_cap` of `TokenInfo`. -/
def getCap (st : TokenState) : Option Nat := st.mint.bind (·.cap)

/-- cw20-base `execute_transfer`. -/
def transfer (api : Api) (st : TokenState) (sender : Addr) (recipient : Str) (amount : Nat) :
    R (TokenState × Response) := do
  require (amount ≠ 0) .invalidZeroAmount
  let rcpt ← api.validate recipient
  let st ← debit st sender amount
  let st ← credit st rcpt amount
  return (st, {})

/-- cw20-base `execute_burn`. -/
def burn (st : TokenState) (sender : Addr) (amount : Nat) : R (TokenState × Response) := do
  require (amount ≠ 0) .invalidZeroAmount
  let st ← debit st sender amount
  let s ← Uint128.checkedSub st.totalSupply amount
  return ({ st with totalSupply := s }, {})

/-- cw20-base `execute_mint`. -/
def mint (api : Api) (st : TokenState) (sender : Addr) (recipient : Str) (amount : Nat) :
    R (TokenState × Response) := do
  require (amount ≠ 0) .invalidZeroAmount
  let m ← okOr st.mint .unauthorized
  require (m.minter = sender) .unauthorized
  let s ← Uint128.add st.totalSupply amount
  let st := { st with totalSupply := s }
  match getCap st with
  | some limit => require (¬ s > limit) .cannotExceedCap
  | none => .ok ()
  let rcpt ← api.validate recipient
  let st ← credit st rcpt amount
  return (st, {})

/-- cw20-base `execute_send`: move the tokens, then call `Receive` on the contract. -/
def send (api : Api) (st : TokenState) (sender : Addr) (contract : Str) (amount : Nat)
    (msg : HookMsg) : R (TokenState × Response) := do
  require (amount ≠ 0) .invalidZeroAmount
  let rcpt ← api.validate contract
  let st ← debit st sender amount
  let st ← credit st rcpt amount
  return (st, { messages := [plain (.exec contract (.receive sender amount msg) [])] })

/-- `if exp.is_expired(&env.block) { return Err(InvalidExpiration {}) }` in the versions of cw20-base that have it. -/
def checkGrant (api : Api) (blk : Block) (expires : Option Expiration) : R Unit :=
  require ((!api.refusesPast || expires.all fun e => !e.isExpired blk) = true) .invalidExpiration

/-- cw20-base `execute_increase_allowance`. (The mirror map `ALLOWANCES_SPENDER` is dropped here; see `Store.lean`.) -/
def increaseAllowance (api : Api) (blk : Block) (st : TokenState) (sender : Addr) (spender : Str) (amount : Nat)
    (expires : Option Expiration) : R (TokenState × Response) := do
  let sp ← api.validate spender
  require (sp ≠ sender) .cannotSetOwnAccount
  let cur := (st.allowances.get (sender, sp)).getD ⟨0, .never⟩
  checkGrant api blk expires
  let a ← Uint128.add cur.amount amount
  return ({ st with allowances := st.allowances.set (sender, sp) ⟨a, expires.getD cur.expires⟩ }, {})

/-- cw20-base `execute_decrease_allowance`. -/
def decreaseAllowance (api : Api) (blk : Block) (st : TokenState) (sender : Addr) (spender : Str) (amount : Nat)
    (expires : Option Expiration) : R (TokenState × Response) := do
  let sp ← api.validate spender
  require (sp ≠ sender) .cannotSetOwnAccount
  let cur ← okOr (st.allowances.get (sender, sp)) .notFound
  if amount < cur.amount then
    let a ← Uint128.checkedSub cur.amount amount
    checkGrant api blk expires
    return ({ st with
      allowances := st.allowances.set (sender, sp) ⟨a, expires.getD cur.expires⟩ }, {})
  else
    return ({ st with allowances := st.allowances.erase (sender, sp) }, {})

/-- cw20-base `deduct_allowance`. -/
def deductAllowance (blk : Block) (st : TokenState) (owner spender : Addr) (amount : Nat) :
    R TokenState := do
  match st.allowances.get (owner, spender) with
  | some a => do
    require (a.expires.isExpired blk = false) .expired
    let x ← Uint128.checkedSub a.amount amount
    return { st with allowances := st.allowances.set (owner, spender) ⟨x, a.expires⟩ }
  | none => .error .noAllowance

/-- cw20-base `execute_transfer_from`. -/
def transferFrom (api : Api) (blk : Block) (st : TokenState) (sender : Addr) (owner recipient : Str)
    (amount : Nat) : R (TokenState × Response) := do
  let rcpt ← api.validate recipient
  let ow ← api.validate owner
  let st ← deductAllowance blk st ow sender amount
  let st ← debit st ow amount
  let st ← credit st rcpt amount
  return (st, {})

/-- cw20-base `execute_burn_from`. -/
def burnFrom (api : Api) (blk : Block) (st : TokenState) (sender : Addr) (owner : Str)
    (amount : Nat) : R (TokenState × Response) := do
  let ow ← api.validate owner
  let st ← deductAllowance blk st ow sender amount
  let st ← debit st ow amount
  let s ← Uint128.checkedSub st.totalSupply amount
  return ({ st with totalSupply := s }, {})

/-- cw20-base `execute_send_from`; the hook's `sender` is the spender. -/
def sendFrom (api : Api) (blk : Block) (st : TokenState) (sender : Addr) (owner contract : Str)
    (amount : Nat) (msg : HookMsg) : R (TokenState × Response) := do
  let rcpt ← api.validate contract
  let ow ← api.validate owner
  let st ← deductAllowance blk st ow sender amount
  let st ← debit st ow amount
  let st ← credit st rcpt amount
  return (st, { messages := [plain (.exec contract (.receive sender amount msg) [])] })

/-- cw20-base `execute_update_minter`. -/
def updateMinter (api : Api) (st : TokenState) (sender : Addr) (newMinter : Option Str) :
    R (TokenState × Response) := do
  let m ← okOr st.mint .unauthorized
  require (m.minter = sender) .unauthorized
  match newMinter with
  | none => return ({ st with mint := none }, {})
  | some s => do
    let a ← api.validate s
    return ({ st with mint := some { minter := a, cap := m.cap } }, {})

/-- `execute` (`contracts/halo-token/src/contract.rs:64-71`) = cw20-base `execute`.
Messages of other contracts do not decode. -/
def execute (api : Api) (blk : Block) (st : TokenState) (sender : Addr) :
    ExecMsg → R (TokenState × Response)
  | .transfer r a => transfer api st sender r a
  | .burn a => burn st sender a
  | .send c a m => send api st sender c a m
  | .mint r a => mint api st sender r a
  | .increaseAllowance s a e => increaseAllowance api blk st sender s a e
  | .decreaseAllowance s a e => decreaseAllowance api blk st sender s a e
  | .transferFrom o r a => transferFrom api blk st sender o r a
  | .burnFrom o a => burnFrom api blk st sender o a
  | .sendFrom o c a m => sendFrom api blk st sender o c a m
  | .updateMinter n => updateMinter api st sender n
  | .marketing => .error .unauthorized
  | _ => .error .parse

/-! ## Queries (cw20-base) -/

/-- `query_balance`. -/
def queryBalance (api : Api) (st : TokenState) (address : Str) : R Nat := do
  let a ← api.validate address
  return st.balances.getD0 a

/-- `query_token_info`. -/
def queryTokenInfo (st : TokenState) : TokenInfoResp :=
  { name := st.name, symbol := st.symbol, decimals := st.decimals, totalSupply := st.totalSupply }

/-- `query_allowance` (as amounts; absent entries are zero, never expiring). -/
def queryAllowance (st : TokenState) (owner spender : Addr) : Allowance :=
  (st.allowances.get (owner, spender)).getD ⟨0, .never⟩

/-- `query_minter`. -/
def queryMinter (st : TokenState) : Option MinterData := st.mint

end Token
end Halo
