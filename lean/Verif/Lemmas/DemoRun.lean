import Verif.Lemmas.RunL
import Verif.Lemmas.Demo
/-! # A concrete history from genesis: three tokens, a factory, two pairs with liquidity and a router.
Used only to show that hypotheses of theorems about reachable states can be met. -/

namespace Halo.Demo

/-- A third-party contract that does nothing. -/
def idle : Adv where
  act _ _ := .ok []
  query _ := q 0 0 0

/-- Another account. -/
def user2 : Addr := [86]

/-- Nothing deployed; `user` owns 1000 of the native coin "u". -/
def genesis : World where
  bank d := if d = [117] then [(user, 1000)] else []
  contracts _ := none
  next := 0
  block := ⟨1, 1⟩

def tA : Addr := chain.addrOf 0
def tB : Addr := chain.addrOf 1
def tC : Addr := chain.addrOf 2
def fac : Addr := chain.addrOf 3
def pAB : Addr := chain.addrOf 4
def lpAB : Addr := chain.addrOf 5
def pBC : Addr := chain.addrOf 6
def lpBC : Addr := chain.addrOf 7
def rou : Addr := chain.addrOf 8

/-- A token "aaa" with 6 decimals; `user` holds 50000 and may mint up to 90000. -/
def tokenMsg : CosmosMsg :=
  .inst none 1 (.token ⟨[97, 97, 97], [97, 97, 97], 6, [(user, 50000)], some ⟨user, some 90000⟩⟩) []
def facMsg : CosmosMsg := .inst none 3 (.factory 2 1) []
def createMsg (x y : Addr) : CosmosMsg := .exec fac (.createPair (.token x, .token y) ⟨[user], 10, 10⟩) []
def routerMsg : CosmosMsg := .inst none 4 (.router fac) []
def approve (t p : Addr) : CosmosMsg := .exec t (.increaseAllowance p 20000 none) []
def provideMsg (p x y : Addr) : CosmosMsg :=
  .exec p (.provideLiquidity (⟨.token x, 10000⟩, ⟨.token y, 20000⟩) none none) []

/-- `user` signs messages one after the other. -/
def runs : List CosmosMsg → World → R World
  | [], w => .ok w
  | m :: t, w => do
    let w ← runTx chain idle 20 w user m
    runs t w

def isOk {α : Type} : R α → Bool
  | .ok _ => true
  | .error _ => false

/-- The world a computation ends in. -/
def worldOf : R World → World
  | .ok w => w
  | .error _ => genesis

theorem worldOf_eq {r : R World} (h : isOk r = true) : r = .ok (worldOf r) := by
  cases r with
  | ok => rfl
  | error => cases h

theorem isUser_user : chain.IsUser user := by
  refine ⟨fun n h => ?_, validate_any _⟩
  have h2 := congrArg List.head? h
  simp only [chain, user, List.replicate_succ, List.head?_cons, Option.some.injEq] at h2
  exact absurd h2 (by decide)

theorem isUser_user2 : chain.IsUser user2 := by
  refine ⟨fun n h => ?_, validate_any _⟩
  have h2 := congrArg List.head? h
  simp only [chain, user2, List.replicate_succ, List.head?_cons, Option.some.injEq] at h2
  exact absurd h2 (by decide)

theorem later_runs {l : List CosmosMsg} : ∀ {w w' : World}, runs l w = .ok w' → Later chain w w' := by
  suffices h : ∀ {u w w' : World}, Later chain u w → runs l w = .ok w' → Later chain u w' from
    fun {_ _} hr => h (.refl _) hr
  induction l with
  | nil => intro u w w' hu h; cases h; exact hu
  | cons m t ih =>
    intro u w w' hu h
    simp only [runs, bind_eq_ok] at h
    obtain ⟨v, h1, h2⟩ := h
    exact ih (.step _ _ _ hu (.tx idle 20 w v user m isUser_user h1)) h2

/-- Three tokens, factory, two pairs, router; both pairs hold 10000/20000. -/
def setup : List CosmosMsg :=
  [tokenMsg, tokenMsg, tokenMsg, facMsg, createMsg tA tB, createMsg tB tC, routerMsg,
   approve tA pAB, approve tB pAB, approve tB pBC, approve tC pBC, provideMsg pAB tA tB, provideMsg pBC tB tC]

/-- The world after `setup`. -/
def deployed : World := worldOf (runs setup genesis)

theorem deployed_run : runs setup genesis = .ok deployed := worldOf_eq (by decide +kernel)

theorem genesis_reachable : Reachable chain genesis := .genesis _ ⟨rfl, fun _ => rfl⟩

theorem deployed_reachable : Reachable chain deployed :=
  genesis_reachable.later (later_runs deployed_run)

/-- The token stored at an address. -/
def tokenAt (w : World) (a : Addr) : Option (Option Addr × TokenState) :=
  match w.contracts a with
  | some ⟨adm, .token s⟩ => some (adm, s)
  | _ => none

/-- The pair stored at an address. -/
def pairAt (w : World) (a : Addr) : Option (Option Addr × Pair.State) :=
  match w.contracts a with
  | some ⟨adm, .pair s⟩ => some (adm, s)
  | _ => none

theorem tokenAt_eq {w : World} {a : Addr} {p : Option Addr × TokenState} (h : tokenAt w a = some p) :
    w.contracts a = some ⟨p.1, .token p.2⟩ := by
  unfold tokenAt at h
  split at h
  · rename_i h2
    cases h
    exact h2
  · cases h

theorem pairAt_eq {w : World} {a : Addr} {p : Option Addr × Pair.State} (h : pairAt w a = some p) :
    w.contracts a = some ⟨p.1, .pair p.2⟩ := by
  unfold pairAt at h
  split at h
  · rename_i h2
    cases h
    exact h2
  · cases h

/-- A token of the demo satisfying a test. -/
theorem exists_token {w : World} {a : Addr} {t : Option Addr × TokenState → Bool}
    (h : ((tokenAt w a).map t) = some true) :
    ∃ adm s, w.contracts a = some ⟨adm, .token s⟩ ∧ t (adm, s) = true := by
  cases hk : tokenAt w a with
  | none => rw [hk] at h; cases h
  | some p =>
    rw [hk] at h
    exact ⟨p.1, p.2, tokenAt_eq hk, by simpa using h⟩

/-- A pair of the demo satisfying a test. -/
theorem exists_pair {w : World} {a : Addr} {t : Option Addr × Pair.State → Bool}
    (h : ((pairAt w a).map t) = some true) :
    ∃ adm s, w.contracts a = some ⟨adm, .pair s⟩ ∧ t (adm, s) = true := by
  cases hk : pairAt w a with
  | none => rw [hk] at h; cases h
  | some p =>
    rw [hk] at h
    exact ⟨p.1, p.2, pairAt_eq hk, by simpa using h⟩

/-- The pair AB holds 10000 A and its LP supply is 14142. -/
theorem deployed_pair : ((tokenAt deployed tA).map fun p => p.2.balances.getD0 pAB == 10000) = some true := by
  decide +kernel
theorem deployed_lp : ((tokenAt deployed lpAB).map fun p => p.2.totalSupply == 14142) = some true := by decide +kernel

end Halo.Demo
