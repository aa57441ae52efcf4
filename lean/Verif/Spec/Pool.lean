import Mathlib.Data.Nat.Sqrt
/-! # Specification: a constant-product pool

Independent of the model: three numbers, what a constant-product pool with a 0.3% fee can be asked to do, and what it then
does. -/

namespace Halo.Spec

/-- The two reserves and the number of LP tokens. -/
structure Pool where
  r0 : Nat
  r1 : Nat
  supply : Nat
  deriving DecidableEq

/-- Output before the fee: the constant-product formula `a - o*a/(o+x)` in 18-digit fixed point, rounded down. -/
def gross (o a x : Nat) : Nat := (a * 10 ^ 18 - o * a * 10 ^ 18 / (o + x)) / 10 ^ 18

/-- What a trader gets: the gross output minus 0.3% rounded down. -/
def payout (o a x : Nat) : Nat := gross o a x - 3 * gross o a x / 1000

/-- The value of an offer at the spot price `a/o`, in 18-digit fixed point, rounded down. -/
def spot (o a x : Nat) : Nat := x * (a * 10 ^ 18 / o) / 10 ^ 18

/-- An offer that the pool can price: the product of the reserves leaves room for 18 digits in 256 bits, so does the value of
the offer, and the output is at most 2^128 below and not above the value at the spot price. -/
structure Priceable (o a x : Nat) : Prop where
  room : o * a * 10 ^ 18 < 2 ^ 256
  value : x * (a * 10 ^ 18 / o) < 2 ^ 256
  below : gross o a x ≤ spot o a x
  near : spot o a x - gross o a x < 2 ^ 128

/-- What a holder of `s` of `S` LP tokens gets from a reserve `r`: the pro-rata share in 18-digit fixed point. -/
def refund (r s S : Nat) : Nat := r * (s * 10 ^ 18 / S) / 10 ^ 18

/-- A request: swap `x` of asset 0, swap `x` of asset 1, deposit, give back `s` LP tokens. -/
inductive Call where
  | swap0 (x : Nat)
  | swap1 (x : Nat)
  | deposit (d0 d1 : Nat)
  | withdraw (s : Nat)
  deriving DecidableEq

/-- What the pool does when a request is granted. -/
inductive Act : Call → Pool → Pool → Prop where
  | swap0 (p : Pool) (x : Nat) (ho : p.r0 ≠ 0) (h : payout p.r0 p.r1 x ≤ p.r1)
      (hp : Priceable p.r0 p.r1 x) :
      Act (.swap0 x) p ⟨p.r0 + x, p.r1 - payout p.r0 p.r1 x, p.supply⟩
  | swap1 (p : Pool) (x : Nat) (ho : p.r1 ≠ 0) (h : payout p.r1 p.r0 x ≤ p.r0)
      (hp : Priceable p.r1 p.r0 x) :
      Act (.swap1 x) p ⟨p.r0 - payout p.r1 p.r0 x, p.r1 + x, p.supply⟩
  /-- the first deposit -/
  | init (p : Pool) (d0 d1 : Nat) (hS : p.supply = 0) (h : Nat.sqrt (d0 * d1) ≠ 0) (hm : d0 * d1 < 2 ^ 128) :
      Act (.deposit d0 d1) p ⟨p.r0 + d0, p.r1 + d1, Nat.sqrt (d0 * d1)⟩
  | deposit (p : Pool) (d0 d1 s : Nat) (hS : p.supply ≠ 0) (h0 : p.r0 ≠ 0) (h1 : p.r1 ≠ 0)
      (hs : s = min (d0 * p.supply / p.r0) (d1 * p.supply / p.r1)) (hpos : s ≠ 0) :
      Act (.deposit d0 d1) p ⟨p.r0 + d0, p.r1 + d1, p.supply + s⟩
  | withdraw (p : Pool) (s : Nat) (hs : s ≤ p.supply) (hpos : s ≠ 0) (h0 : refund p.r0 s p.supply ≤ p.r0)
      (h1 : refund p.r1 s p.supply ≤ p.r1) (n0 : refund p.r0 s p.supply ≠ 0) (n1 : refund p.r1 s p.supply ≠ 0) :
      Act (.withdraw s) p ⟨p.r0 - refund p.r0 s p.supply, p.r1 - refund p.r1 s p.supply, p.supply - s⟩

/-- What can happen to a pool without a request: people give it something, or destroy their LP tokens. -/
structure Drift (p q : Pool) : Prop where
  r0 : p.r0 ≤ q.r0
  r1 : p.r1 ≤ q.r1
  supply : q.supply ≤ p.supply

/-- The pool goes from `p` to `q` by exactly the given requests, each made to the pool listed with it, in this order; in
between only drift. -/
inductive Path : Pool → List (Pool × Call) → Pool → Prop where
  | done (p q : Pool) (h : Drift p q) : Path p [] q
  | call (p b q r : Pool) (l : Call) (rest : List (Pool × Call)) (h1 : Drift p b) (h2 : Act l b q)
      (h3 : Path q rest r) : Path p ((b, l) :: rest) r

/-- A swap that pays no commission (less than 334 units before the fee) into a reserve that ends above `10^18` units. -/
def Dust : Pool × Call → Prop
  | (b, .swap0 x) => gross b.r0 b.r1 x < 334 ∧ 10 ^ 18 < b.r0 + x
  | (b, .swap1 x) => gross b.r1 b.r0 x < 334 ∧ 10 ^ 18 < b.r1 + x
  | _ => False

/-- A deposit made while there are no LP tokens. -/
def First : Pool × Call → Prop
  | (b, .deposit _ _) => b.supply = 0
  | _ => False

end Halo.Spec
