import Verif.StoreChain
/-! # What the storage of the contracts looks like: keys and texts, byte by byte -/

namespace Halo
namespace Spec

/-! ## Texts -/

/-- Decimal digits between quotes (`Uint128`, `Timestamp`). -/
def quoted (n : Nat) : Bytes := [34] ++ natToDec n ++ [34]

/-- Base64 between quotes (`CanonicalAddr`). -/
def based (b : Bytes) : Bytes := [34] ++ toBase64 b ++ [34]

/-- Texts between brackets, separated by commas. -/
def listed (l : List Bytes) : Bytes := [91] ++ ([44] : Bytes).intercalate l ++ [93]

/-- An asset. -/
def assetText : AssetInfoRaw → Bytes
  | .token a => [asc "{\"token\":{\"contract_addr\":", based a, asc "}}"].flatten
  | .native d => [asc "{\"native_token\":{\"denom\":", printStr d, asc "}}"].flatten

/-- A pair, as stored by itself and by the factory. -/
def pairText (p : PairInfoRaw) : Bytes :=
  [asc "{\"asset_infos\":", listed [assetText p.assetInfos.1, assetText p.assetInfos.2], asc ",\"contract_addr\":", based p.contractAddr,
    asc ",\"liquidity_token\":", based p.liquidityToken, asc ",\"asset_decimals\":", listed [natToDec p.assetDecimals.1, natToDec p.assetDecimals.2],
    asc ",\"requirements\":{\"whitelist\":", listed (p.requirements.whitelist.map printStr), asc ",\"first_asset_minimum\":",
    quoted p.requirements.firstAssetMinimum, asc ",\"second_asset_minimum\":", quoted p.requirements.secondAssetMinimum, asc "}}"].flatten

/-- The factory's configuration. -/
def configText (c : Factory.Config) : Bytes :=
  [asc "{\"owner\":", based c.owner, asc ",\"pair_code_id\":", natToDec c.pairCodeId, asc ",\"token_code_id\":", natToDec c.tokenCodeId, asc "}"].flatten

/-- What the factory remembers of a creation. -/
def tmpText (t : Factory.Tmp) : Bytes :=
  [asc "{\"pair_key\":", listed (t.pairKey.map fun b => natToDec b.toNat), asc ",\"asset_infos\":",
    listed [assetText t.assetInfos.1, assetText t.assetInfos.2], asc ",\"asset_decimals\":",
    listed [natToDec t.assetDecimals.1, natToDec t.assetDecimals.2], asc "}"].flatten

/-- The expiration of an allowance. -/
def expiresText : Expiration → Bytes
  | .atHeight h => [asc "{\"at_height\":", natToDec h, asc "}"].flatten
  | .atTime t => [asc "{\"at_time\":", quoted t, asc "}"].flatten
  | .never => asc "{\"never\":{}}"

/-- An allowance. -/
def allowanceText (a : Allowance) : Bytes := [asc "{\"allowance\":", quoted a.amount, asc ",\"expires\":", expiresText a.expires, asc "}"].flatten

/-- The minter of a token. -/
def mintText : Option MinterData → Bytes
  | none => asc "null"
  | some ⟨m, none⟩ => [asc "{\"minter\":", printStr m, asc ",\"cap\":null}"].flatten
  | some ⟨m, some cap⟩ => [asc "{\"minter\":", printStr m, asc ",\"cap\":", quoted cap, asc "}"].flatten

/-- A token's own data. -/
def tokenText (s : TokenState) : Bytes :=
  [asc "{\"name\":", printStr s.name, asc ",\"symbol\":", printStr s.symbol, asc ",\"decimals\":", natToDec s.decimals,
    asc ",\"total_supply\":", quoted s.totalSupply, asc ",\"mint\":", mintText s.mint, asc "}"].flatten

/-! ## Keys -/

/-- The length of an address, in two bytes. -/
def size (a : Addr) : Bytes := [UInt8.ofNat (a.length / 256), UInt8.ofNat (a.length % 256)]

/-- The keys and values of a token. -/
inductive TokenEntry (s : TokenState) : Bytes → Bytes → Prop
  | version : TokenEntry s (asc "contract_info") (asc "{\"contract\":\"crates.io:cw20-base\",\"version\":\"0.1.0\"}")
  | info : TokenEntry s (asc "token_info") (tokenText s)
  | balance (a : Addr) (n : Nat) (h : s.balances.get a = some n) : TokenEntry s ([0, 7] ++ asc "balance" ++ a) (quoted n)
  | allowance (o p : Addr) (x : Allowance) (h : s.allowances.get (o, p) = some x) :
      TokenEntry s ([0, 9] ++ asc "allowance" ++ (size o ++ o ++ p)) (allowanceText x)
  | spender (o p : Addr) (x : Allowance) (h : s.allowances.get (o, p) = some x) :
      TokenEntry s ([0, 17] ++ asc "allowance_spender" ++ (size p ++ p ++ o)) (allowanceText x)

/-- The keys and values of a pair. -/
inductive PairEntry (s : Pair.State) : Bytes → Bytes → Prop
  | version : PairEntry s (asc "contract_info") (asc "{\"contract\":\"crates.io:halo-pair\",\"version\":\"0.1.0\"}")
  | info : PairEntry s (asc "pair_info") (pairText s)

/-- The keys and values of a factory. -/
inductive FactoryEntry (s : Factory.State) : Bytes → Bytes → Prop
  | version : FactoryEntry s (asc "contract_info") (asc "{\"contract\":\"crates.io:halo-factory\",\"version\":\"0.1.0\"}")
  | config : FactoryEntry s (asc "config") (configText s.config)
  | tmp (t : Factory.Tmp) (h : s.tmp = some t) : FactoryEntry s (asc "tmp_pair_info") (tmpText t)
  | pair (k : Bytes) (p : PairInfoRaw) (h : (k, p) ∈ s.pairs) : FactoryEntry s ([0, 9] ++ asc "pair_info" ++ k) (pairText p)
  | allow (d : Denom) (n : Nat) (h : s.allow.get d = some n) : FactoryEntry s ([0, 18] ++ asc "allow_native_token" ++ d) (natToDec n)

/-- The keys and values of a router. -/
inductive RouterEntry (s : Router.State) : Bytes → Bytes → Prop
  | version : RouterEntry s (asc "contract_info") (asc "{\"contract\":\"crates.io:halo-router\",\"version\":\"0.1.0\"}")
  | config : RouterEntry s (asc "config") ([asc "{\"halo_factory\":", based s.haloFactory, asc "}"].flatten)

/-- A store has exactly these entries, one per key, in the order of the keys. -/
def Lays (σ : Store) (E : Bytes → Bytes → Prop) : Prop := σ.Pairwise (fun x y => x.1 < y.1) ∧ ∀ k v, (k, v) ∈ σ ↔ E k v

/-- What a cell stores if it is a contract of the given state. -/
def Stores (x : Cell) : CState → Prop
  | .token s => x.kind = .token ∧ Lays x.store (TokenEntry s)
  | .pair s => x.kind = .pair ∧ Lays x.store (PairEntry s)
  | .factory s => x.kind = .factory ∧ Lays x.store (FactoryEntry s)
  | .router s => x.kind = .router ∧ Lays x.store (RouterEntry s)
  | .other => x.kind = .other

/-- The chain on disk and the chain with typed storage show the same: balances, contracts with their admins and storage. -/
structure OnDisk (d : SWorld) (w : World) : Prop where
  bank : d.bank = w.bank
  next : d.next = w.next
  block : d.block = w.block
  deployed : ∀ a, (d.cells a).isSome = (w.contracts a).isSome
  stored : ∀ a x ct, d.cells a = some x → w.contracts a = some ct → x.admin = ct.admin ∧ Stores x ct.state

/-! ## Two machines side by side -/

/-- Some address is longer than 65535 bytes, so that no key can be made of it, or a contract has the empty address, which no reply can
announce. -/
def OddAddress (c : Chain) : Prop :=
  (∃ a, c.api.validate a = .ok a ∧ 65535 < a.length) ∨ ∃ n, c.addrOf n = [] ∨ 65535 < (c.addrOf n).length

/-- Both fail for the same reason, or both succeed with related results; only for want of a key or of an address may the first panic instead. -/
def Agree {α β : Type} (c : Chain) (H : α → β → Prop) (x : R α) (y : R β) : Prop :=
  (∃ a b, x = .ok a ∧ y = .ok b ∧ H a b) ∨ (∃ e, x = .error e ∧ y = .error e) ∨ (OddAddress c ∧ ∃ p, x = .error (.panic p))

/-- Two states of which every reading gives the same. -/
def ReadsAlike : CState → CState → Prop
  | .token s, .token t => s.name = t.name ∧ s.symbol = t.symbol ∧ s.decimals = t.decimals ∧ s.totalSupply = t.totalSupply ∧ s.mint = t.mint ∧
      (∀ a, s.balances.get a = t.balances.get a) ∧ ∀ o p, s.allowances.get (o, p) = t.allowances.get (o, p)
  | .pair s, .pair t => s = t
  | .factory s, .factory t => s.config = t.config ∧ s.tmp = t.tmp ∧ s.pairs = t.pairs ∧ ∀ d, s.allow.get d = t.allow.get d
  | .router s, .router t => s = t
  | .other, .other => True
  | _, _ => False

/-- A relation between the chain on disk and the chain with typed storage that every step keeps, with the same answers to all queries. -/
structure Bisimulation (c : Chain) (B : SWorld → World → Prop) : Prop where
  genesis : ∀ d w, d.bank = w.bank → d.block = w.block → d.next = 0 → w.next = 0 → (∀ a, d.cells a = none) → (∀ a, w.contracts a = none) → B d w
  shows : ∀ d w, B d w → OnDisk d w
  faithful : ∀ d w v, B d w → B d v → ∀ a x y, w.contracts a = some x → v.contracts a = some y → ReadsAlike x.state y.state
  tx : ∀ d w, B d w → ∀ adv gas u m, c.IsUser u → Agree c B (runTxS c adv gas d u m) (runTxRaw c adv gas w u m)
  block : ∀ d w, B d w → ∀ b, B { d with block := b } { w with block := b }
  env : ∀ d w, B d w → ∀ b, B { d with bank := b } { w with bank := b }
  query : ∀ d w, B d w → (∀ a q, c.api.validate a = .ok a → a ≠ q ++ [255]) → ∀ foreign n a b,
    Agree c Eq (smartS c foreign d n a b) (smart c foreign w n a b)

end Spec
end Halo
