import Verif.Chain
import Verif.Conform.Units
/-! # The project's integration tests, run against the model

As in `Conform.Units` no property is proved here: the tests of `cw-tests/tests/{token,factory,pair}_test.rs` are transcribed and
evaluated, this time on a whole chain (`Chain`) set up as in `cw-tests/src/environment.rs`.

Simplifications: the address codec is the identity; contracts are called `contract0`, `contract1`, … in order of creation, as
in `cw-multi-test`; the list of new contracts is read off these names instead of off the events. -/

namespace Halo
namespace Conform
namespace Apps

def admin : Addr := asc "aura1uh24g2lc8hvvkaaf7awz25lrh5fptthu2dhq0n"
def anyone : Addr := asc "aura1fqj2redmssckrdeekhkcvd2kzp9f4nks4fctrt"
def coin1 : Denom := asc "uaura"
def coin2 : Denom := asc "uaura1"

/-- Code ids as `store_code` hands them out: token 1, pair 2, factory 3, router 4. -/
def app : Chain where
  api := { canon := fun s => some s, human := fun b => some b }
  addrOf n := asc "contract" ++ natToDec n
  codes n := match n with | 1 => some .token | 2 => some .pair | 3 => some .factory | 4 => some .router | _ => none

/-- No third-party contract exists; this is never asked. -/
def nobody : Adv where
  act _ _ := .ok []
  query _ :=
    { balance := fun _ _ => .error .notFound, tokenBalance := fun _ _ => .error .notFound,
      tokenInfo := fun _ => .error .notFound, nativeDecimals := fun _ _ => .error .notFound,
      pairInfo := fun _ _ => .error .notFound, simulate := fun _ _ => .error .notFound,
      reverseSimulate := fun _ _ => .error .notFound, pairInfoFromPair := fun _ => .error .notFound }

/-- `mock_app`. -/
def fresh : World where
  bank d := if d = coin1 ∨ d = coin2 then [(admin, 1000000000000)] else []
  contracts _ := none
  next := 0
  block := ⟨1, 1⟩

/-- Messages signed one after the other. -/
def all : List (Addr × CosmosMsg) → World → R World
  | [], w => .ok w
  | (a, m) :: t, w => do
    let w ← runTx app nobody 30 w a m
    all t w

/-- The outcome without the world. -/
def fate (r : R World) : R Unit := do
  let _ ← r
  return ()

def tA : Addr := asc "contract0"
def tB : Addr := asc "contract1"
def fac : Addr := asc "contract2"
def pool : Addr := asc "contract4"
def lp : Addr := asc "contract5"

def tokenMsg (name symbol : String) (n : Nat) : CosmosMsg :=
  .inst none 1 (.token ⟨asc name, asc symbol, 6, [(admin, n)], some ⟨admin, some 1000000000000⟩⟩) []

/-- `instantiate_contracts`. -/
def start : List (Addr × CosmosMsg) :=
  [(admin, tokenMsg "Token A" "TKA" 1000000000000), (admin, tokenMsg "Token B" "TKB" 1000000000000),
   (admin, .inst none 3 (.factory 2 1) []), (admin, .inst none 4 (.router fac) [])]

def test (l : List (Addr × CosmosMsg)) : R World := all (start ++ l) fresh

def balanceOf (t a : Addr) (r : R World) : R Nat := do
  let w ← r
  (querier app (nobody.query 0) w).tokenBalance t a

/-- What a pair says about itself. -/
def about (p : Addr) (r : R World) : R ((AssetInfo × AssetInfo) × Addr) := do
  let w ← r
  let i ← (querier app (nobody.query 0) w).pairInfoFromPair p
  return (i.assetInfos, i.liquidityToken)

/-- How many pairs the factory lists. -/
def listed (after : Option (AssetInfo × AssetInfo)) (limit : Option Nat) (r : R World) : R Nat := do
  let w ← r
  match w.contracts fac with
  | some ⟨_, .factory s⟩ => do
    let l ← Factory.queryPairs app.api s after limit
    return l.length
  | _ => .error .notFound

/-! ## `token_test.rs` -/

/-- `test_instantiate_with_too_large_initial_supply`. -/
example : fate (test [(admin, tokenMsg "Token A" "TKA" 1000000000001)]) ≠ .ok () := by decide +kernel
example : fate (test [(admin, tokenMsg "Token A" "TKA" 1000000000000)]) = .ok () := by decide +kernel

def paid : R World := test [(admin, .exec tA (.transfer anyone 500000000) [⟨coin1, 1⟩])]

/-- `test_transfer`. -/
example : balanceOf tA admin (test []) = .ok 1000000000000 := by decide +kernel
example : balanceOf tA admin paid = .ok (1000000000000 - 500000000) := by decide +kernel
example : balanceOf tA anyone paid = .ok 500000000 := by decide +kernel

/-! ## `factory_test.rs` -/

def create (i : AssetInfo × AssetInfo) (m : Nat := 1000000) : Addr × CosmosMsg :=
  (admin, .exec fac (.createPair i ⟨[admin], m, m⟩) [])
def setDecimals (a : Addr) (d : Denom) (n : Nat) : Addr × CosmosMsg :=
  (a, .exec fac (.addNativeTokenDecimals d 6) (if n = 0 then [] else [⟨d, n⟩]))

/-- `asset_a_is_invalid`, `asset_b_is_invalid`, `cannot_create_new_pair_with_same_token`. -/
example : fate (test [create (.token (asc "invalid"), .token tB)]) = .error (.generic 42) := by decide +kernel
example : fate (test [create (.token tA, .token (asc "invalid"))]) = .error (.generic 43) := by decide +kernel
example : fate (test [create (.token tA, .token tA)]) = .error (.generic 41) := by decide +kernel

/-- `create_new_pair_successfully`, `cannot_create_new_pair_if_pair_already_exists`,
`cannot_create_already_existed_pair_by_reversing_order_of_asset_infos`. -/
example : about pool (test [create (.token tA, .token tB)]) = .ok ((.token tA, .token tB), lp) := by decide +kernel
example : fate (test [create (.token tA, .token tB), create (.token tA, .token tB)]) = .error (.generic 44) := by decide +kernel
example : fate (test [create (.token tA, .token tB), create (.token tB, .token tA)]) = .error (.generic 44) := by decide +kernel

/-- `cannot_create_new_pair_if_native_token_decimals_not_set` (twice), `cannot_set_decimals_of_native_token_because_not_owner`,
`cannot_set_decimals_of_native_token_if_balance_is_zero`. -/
example : fate (test [create (.native coin1, .token tA)]) = .error (.generic 42) := by decide +kernel
example : fate (test [create (.native coin1, .native coin2)]) = .error (.generic 42) := by decide +kernel
example : fate (test [setDecimals anyone coin1 0]) = .error (.generic 40) := by decide +kernel
example : fate (test [setDecimals admin coin1 0]) = .error (.generic 45) := by decide +kernel

/-- `create_new_pair_successfully` (a coin and a token), `create_new_pair_native_native_successfully`. -/
example : about pool (test [setDecimals admin coin1 1, create (.native coin1, .token tA)]) =
    .ok ((.native coin1, .token tA), lp) := by decide +kernel
example : about pool (test [setDecimals admin coin1 1, setDecimals admin coin2 1, create (.native coin1, .native coin2)]) =
    .ok ((.native coin1, .native coin2), lp) := by decide +kernel

def two : R World :=
  test [setDecimals admin coin1 1, setDecimals admin coin2 1, create (.native coin1, .native coin2),
    create (.token tA, .token tB)]

/-- `query_pairs_successfully`, `query_pairs_with_pagination_successfully`. -/
example : listed (some (.token tA, .token tB)) none two = .ok 1 := by decide +kernel
example : listed none none two = .ok 2 := by decide +kernel

/-! ## `pair_test.rs` -/

def allow (t : Addr) (n : Nat) : Addr × CosmosMsg := (admin, .exec t (.increaseAllowance pool n none) [])
def provide (x y : AssetInfo) (n m : Nat) (funds : List Coin) : Addr × CosmosMsg :=
  (admin, .exec pool (.provideLiquidity (⟨x, n⟩, ⟨y, m⟩) none none) funds)

/-- `cannot_provide_liquidity_if_first_asset_wrong`, `cannot_provide_liquidity_if_second_asset_wrong`. -/
example : fate (test [create (.token tA, .token tB), allow tA 10000000, allow tB 10000000,
      provide (.token (asc "wrong_contract_addr")) (.token tB) 10000000 10000000 []]) = .error (.panic .wrongAsset) := by
  decide +kernel
example : fate (test [create (.token tA, .token tB), allow tA 10000000, allow tB 10000000,
      provide (.token tA) (.token (asc "wrong_contract_addr")) 10000000 10000000 []]) = .error (.panic .wrongAsset) := by
  decide +kernel

/-- `provide_liquidity_not_enough_cw20_amount`: one short of the allowance. -/
example : fate (test [create (.token tA, .token tB), allow tA 9999999, allow tB 10000000,
      provide (.token tA) (.token tB) 10000000 10000000 []]) = .error .overflowErr := by decide +kernel

/-- `provide_liquidity_with_zero_amount`. -/
example : fate (test [create (.token tA, .token tB) 1, allow tA 10000000, allow tB 10000000,
      provide (.token tA) (.token tB) 0 10000000 []]) = .error (.generic 32) := by decide +kernel

def provided : R World :=
  test [create (.token tA, .token tB), allow tA 10000000, allow tB 10000000,
    provide (.token tA) (.token tB) 10000000 10000000 []]

/-- `provide_liquidity_successfully`. -/
example : balanceOf tA pool provided = .ok 10000000 := by decide +kernel
example : balanceOf tB pool provided = .ok 10000000 := by decide +kernel
example : balanceOf lp admin provided = .ok 10000000 := by decide +kernel

/-- `cannot_provide_liquidity_not_enough_native_token`: one coin short of the amount named. -/
example : fate (test [setDecimals admin coin1 1, create (.native coin1, .token tA), allow tA 9999999,
      provide (.native coin1) (.token tA) 10000000 10000000 [⟨coin1, 9999999⟩]]) = .error (.generic 10) := by decide +kernel

end Apps
end Conform
end Halo
