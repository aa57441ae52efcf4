import Verif.Lemmas.PairInv
import Verif.Chain
/-! # A small concrete pair, used only to show that hypotheses of theorems can be met -/

namespace Halo.Demo

/-- Every string is its own address. -/
def api : Api := { canon := fun s => some s, human := fun b => some b }

def tokA : Addr := [65, 65, 65]
def tokB : Addr := [66, 66, 66]
def lp : Addr := [76, 80]
def pairAddr : Addr := [80]
def user : Addr := [85]

/-- A pair of two 6-decimals tokens; only `user` may make the first deposit. -/
def pairState : Pair.State :=
  { assetInfos := (.token tokA, .token tokB), contractAddr := pairAddr, liquidityToken := lp,
    assetDecimals := (6, 6),
    requirements := { whitelist := [user], firstAssetMinimum := 10, secondAssetMinimum := 10 } }

/-- The pair holds `x` of A and `y` of B; the LP supply is `s`. -/
def q (x y s : Nat) : Querier where
  balance _ _ := .error .notFound
  tokenBalance t _ := if t = tokA then .ok x else .ok y
  tokenInfo _ := .ok { name := [], symbol := [], decimals := 6, totalSupply := s }
  nativeDecimals _ _ := .error .notFound
  pairInfo _ _ := .error .notFound
  simulate _ _ := .error .notFound
  reverseSimulate _ _ := .error .notFound
  pairInfoFromPair _ := .error .notFound

theorem validate_any (s : Str) : api.validate s = .ok s := by
  rw [validate_eq_ok]; exact ⟨rfl, s, rfl, rfl⟩

/-- `user` swaps 1000 A into a 10000/20000 pool, with the given limits. -/
theorem swap_ok (bp ms : Option Nat) (h : Pair.assertMaxSpread bp ms 1000 1813 182 6 6 = .ok ()) :
    ∃ resp, Pair.receiveCw20 api (q 11000 20000 100) pairAddr pairState tokA [] user 1000 (.swap bp ms none) =
      .ok (pairState, resp) := by
  refine ⟨_, Pair.receive_swap_of (by simp) (o := ⟨.token tokA, 11000⟩) (a := ⟨.token tokB, 20000⟩)
    (r := 1813) (s := 182) (c := 5) (od := 6) (ad := 6) ⟨.inl ⟨rfl, rfl, rfl⟩, rfl, by decide, ?_, h, rfl⟩⟩
  show Pair.computeSwap 10000 20000 1000 = _
  rw [computeSwap_ok_iff (by norm_num) (by norm_num) (by norm_num)]
  norm_num [grossOf, idealOf, DF]

/-- `user` deposits 100 A and 200 B. -/
def deposit : Asset × Asset := (⟨.token tokA, 100⟩, ⟨.token tokB, 200⟩)

/-- A deposit into a 1000/2000 pool with 500 shares. -/
theorem provide_ok (tol : Option Nat)
    (h : Pair.assertSlippageTolerance tol (100, 200) (1000, 2000) = .ok ()) :
    ∃ resp, Pair.provideLiquidity api (q 1000 2000 500) pairAddr pairState user [] deposit tol none =
      .ok (pairState, resp) := by
  refine ⟨_, Pair.provide_of (p0 := ⟨.token tokA, 1000⟩) (p1 := ⟨.token tokB, 2000⟩) (d0 := 100) (d1 := 200)
    (lt := lp) (share := 50) ⟨rfl, rfl, rfl, rfl, rfl, by simp [AssetInfo.isNative], by simp [AssetInfo.isNative],
    h, rfl, rfl, ?_, by norm_num, rfl⟩⟩
  rfl

/-- The first deposit. -/
theorem provide_first_ok :
    ∃ resp, Pair.provideLiquidity api (q 0 0 0) pairAddr pairState user [] deposit none none =
      .ok (pairState, resp) := by
  refine ⟨_, Pair.provide_of (p0 := ⟨.token tokA, 0⟩) (p1 := ⟨.token tokB, 0⟩) (d0 := 100) (d1 := 200)
    (lt := lp) (share := 141) ⟨rfl, rfl, rfl, rfl, rfl, by simp [AssetInfo.isNative], by simp [AssetInfo.isNative],
    rfl, rfl, rfl, ?_, by norm_num, rfl⟩⟩
  have h : Nat.sqrt 20000 = 141 := by
    symm; rw [Nat.eq_sqrt]; norm_num
  show (do let p ← Uint128.mulChk 100 200; return Uint128.isqrt p : R Nat) = .ok 141
  simp only [bind_eq_ok, Uint128.mulChk_eq_ok, pure_eq_ok, Uint128.isqrt]
  exact ⟨20000, ⟨by norm_num, by norm_num⟩, h⟩

/-- `user` withdraws 50 of 500 shares. -/
theorem withdraw_ok :
    ∃ resp, Pair.receiveCw20 api (q 1000 2000 500) pairAddr pairState lp [] user 50 .withdrawLiquidity =
      .ok (pairState, resp) := by
  refine ⟨_, Pair.receive_withdraw_of rfl (validate_any _) (p0 := ⟨.token tokA, 1000⟩) (p1 := ⟨.token tokB, 2000⟩)
    (lt := lp) (ratio := 100000000000000000) (r0 := 100) (r1 := 200) ⟨rfl, rfl, rfl, ?_, ?_, ?_, rfl⟩⟩ <;> rfl

/-- A chain whose code ids 1–4 are token, pair, factory, router; all others are third-party code. -/
def chain : Chain where
  api := api
  addrOf n := List.replicate (n + 1) 1
  codes n := some (match n with | 1 => .token | 2 => .pair | 3 => .factory | 4 => .router | _ => .other)

/-- A token with the given balances. -/
def token (m : Option MinterData) (b : List (Addr × Nat)) (al : AMap (Addr × Addr) Allowance) : TokenState :=
  { name := [97, 97, 97], symbol := [97, 97, 97], decimals := 6, totalSupply := (b.map Prod.snd).sum, mint := m,
    balances := b, allowances := al }

/-- The pair holds `x` A and `y` B, `user` holds the whole LP supply `s` and 5000 of A and of B, and has allowed the
pair to collect 5000 of each. -/
def world (x y s : Nat) : World where
  bank _ := []
  contracts a :=
    if a = tokA ∨ a = tokB then
      some ⟨none, .token (token none [(pairAddr, if a = tokA then x else y), (user, 5000)]
        [((user, pairAddr), ⟨5000, .never⟩)])⟩
    else if a = lp then some ⟨none, .token (token (some ⟨pairAddr, none⟩) [(user, s)] [])⟩
    else if a = pairAddr then some ⟨none, .pair pairState⟩
    else none
  next := 0
  block := ⟨1, 1⟩

end Halo.Demo
