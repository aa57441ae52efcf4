import Verif.Props.Undo
/-! # Inflating an LP token (C104)

A pair locks no LP tokens away: whoever holds them all may withdraw all but one, give the pair tokens, and wait for somebody who
deposits amounts that are not a whole number of LP tokens' worth (`C69_counterexample`). How much can be lost, and who gains? -/

namespace Halo
open _root_.Halo.Spec

private theorem victim_arith {p d q T s D : Nat} (a : (p + d) * s * D < (q + 1) * (T + s) * D + (p + d) * (T + s))
    (h : d * T < (s + 1) * p) : d * s * D < (s + 1) * ((q + 1) * D + p + d) := by
  have y : d * D * T ≤ (p * D + 0) * (s + 1) := by
    calc d * D * T = d * T * D := by ring
      _ ≤ (s + 1) * p * D := Nat.mul_le_mul_right _ h.le
      _ = (p * D + 0) * (s + 1) := by ring
  have := fraction_arith (e := d * D) a (Nat.le_refl _) y
  rw [Nat.mul_right_comm]
  exact this

/-- **C104, the victim.** Whoever deposits into a pool with LP tokens outstanding, whatever was done to it before, gets `s ≥ 1` LP tokens
for it and at least `s/(s+1)` of the deposit back by withdrawing them, up to one unit and rounding, of one of the two assets: the one of
which the deposit was not worth another LP token. So never much less than half. -/
theorem C104_victim {c : Chain} (hc : c.Lawful) {w w1 w2 : World} (hw : Reachable c w) {k : PairSite}
    (hk : k.Sound c w) {assets : Asset × Asset} {tol : Option Nat} {funds : List Coin} {adv adv' : Adv}
    {gas gas' : Nat} {S : Addr} {s : Nat} (hS : c.IsUser S)
    (h1 : runTx c adv gas w S (.exec k.a (.provideLiquidity assets tol none) funds) = .ok w1)
    (hs : held w1 (.token k.lt) S = held w (.token k.lt) S + s)
    (h2 : runTx c adv' gas' w1 S (.exec k.lt (.send k.a s .withdrawLiquidity) []) = .ok w2)
    (hT : supplyAt w k.lt ≠ 0) :
    let T := supplyAt w k.lt
    let p0 := held w k.i0 k.a
    let p1 := held w k.i1 k.a
    1 ≤ s ∧ ∃ d0 d1 q0 q1, Names k assets d0 d1 ∧ held w2 k.i0 S + d0 = held w k.i0 S + q0 ∧
      held w2 k.i1 S + d1 = held w k.i1 S + q1 ∧ (d0 * T < (s + 1) * p0 ∨ d1 * T < (s + 1) * p1) ∧
      (d0 * T < (s + 1) * p0 → d0 * s * 10 ^ 18 < (s + 1) * ((q0 + 1) * 10 ^ 18 + p0 + d0)) ∧
      (d1 * T < (s + 1) * p1 → d1 * s * 10 ^ 18 < (s + 1) * ((q1 + 1) * 10 ^ 18 + p1 + d1)) := by
  intro T p0 p1
  obtain ⟨d0, d1, q0, q1, ha, e0, e1, a0, a1, hl⟩ := undo_inv hc hw hk hS h1 hs h2 hT
  exact ⟨Nat.pos_of_ne_zero ha.pos, d0, d1, q0, q1, ha.names, e0, e1, hl, victim_arith a0, victim_arith a1⟩

/-- `M` gave the pair `x0` and `x1` of its assets: the difference between `w` and `w1` as far as this matters. -/
structure Gave (k : PairSite) (M : Addr) (x0 x1 : Nat) (w w1 : World) : Prop where
  pair0 : held w1 k.i0 k.a = held w k.i0 k.a + x0
  pair1 : held w1 k.i1 k.a = held w k.i1 k.a + x1
  giver0 : held w1 k.i0 M + x0 = held w k.i0 M
  giver1 : held w1 k.i1 M + x1 = held w k.i1 M
  supply : supplyAt w1 k.lt = supplyAt w k.lt

/-- The attack: `M` gives the pair `x0`, `x1`; `V` deposits `d0`, `d1` and gets `s` LP tokens; `M` withdraws `m` LP tokens and gets
`q0`, `q1`. -/
theorem attack_inv {c : Chain} (hc : c.Lawful) {w w1 w2 w3 : World} {k : PairSite} {M V : Addr} (hM : c.IsUser M)
    (hV : c.IsUser V) (hne : M ≠ V) {x0 x1 : Nat} (hg : Gave k M x0 x1 w w1) (hw1 : Reachable c w1) (hk : k.Sound c w1)
    {assets : Asset × Asset} {tol : Option Nat} {receiver : Option Str} {funds : List Coin} {adv adv' : Adv} {gas gas' : Nat}
    (h2 : runTx c adv gas w1 V (.exec k.a (.provideLiquidity assets tol receiver) funds) = .ok w2) {m : Nat}
    (h3 : runTx c adv' gas' w2 M (.exec k.lt (.send k.a m .withdrawLiquidity) []) = .ok w3) :
    ∃ d0 d1 s q0 q1, Acceptable c k w1 V assets tol receiver funds d0 d1 s ∧ supplyAt w2 k.lt = supplyAt w k.lt + s ∧
      held w3 k.i0 M + x0 = held w k.i0 M + q0 ∧ held w3 k.i1 M + x1 = held w k.i1 M + q1 ∧
      (q0 * (supplyAt w k.lt + s) ≤ (held w k.i0 k.a + x0 + d0) * m ∧
        (held w k.i0 k.a + x0 + d0) * m * 10 ^ 18 <
          (q0 + 1) * (supplyAt w k.lt + s) * 10 ^ 18 + (held w k.i0 k.a + x0 + d0) * (supplyAt w k.lt + s)) ∧
      (q1 * (supplyAt w k.lt + s) ≤ (held w k.i1 k.a + x1 + d1) * m ∧
        (held w k.i1 k.a + x1 + d1) * m * 10 ^ 18 <
          (q1 + 1) * (supplyAt w k.lt + s) * 10 ^ 18 + (held w k.i1 k.a + x1 + d1) * (supplyAt w k.lt + s)) := by
  obtain ⟨d0, d1, s, ha, hd⟩ := C67_deposit_exact hc hw1 hk hV h2
  obtain ⟨_, _, _, _, _, hk2, _⟩ := deposit_tx hc hw1 hk hV h2
  have hw2 : Reachable c w2 := .step _ _ hw1 (.tx _ _ _ _ _ _ hV h2)
  obtain ⟨q0, q1, hwd, _, _, a1, a2, b1, b2⟩ := C16_withdraw_tx hc hw2 hk2 hM h3
  have hMa := (addr_facts hc hw1 hk.pair).2 M hM
  have hx := hk.ctx hc
  have r0 := hd.people M hne hMa k.i0 hx.lp0
  have r1 := hd.people M hne hMa k.i1 hx.lp1
  have g0 := hg.giver0
  have g1 := hg.giver1
  have u0 := hwd.user0
  have u1 := hwd.user1
  rw [hd.pair0, hd.supply, hg.pair0, hg.supply] at a1 a2
  rw [hd.pair1, hd.supply, hg.pair1, hg.supply] at b1 b2
  exact ⟨d0, d1, s, q0, q1, ha, by rw [hd.supply, hg.supply], by omega, by omega, ⟨a1, a2⟩, ⟨b1, b2⟩⟩

private theorem attacker_arith {A Z x q p d T s m : Nat} (hm : m ≤ T) (e : Z + x = A + q) (a : q * (T + s) ≤ (p + x + d) * m) :
    Z * T * (T + s) + x * (T - m) * (T + s) + m * (p + x) * s ≤ A * T * (T + s) + m * p * (T + s) + m * d * T := by
  obtain ⟨r, rfl⟩ : ∃ r, T = m + r := ⟨T - m, by omega⟩
  rw [Nat.add_sub_cancel_left]
  generalize hT : m + r = T at *
  have e' : (Z + x) * T * (T + s) = (A + q) * T * (T + s) := by rw [e]
  have a' : q * (T + s) * T ≤ (p + x + d) * m * T := Nat.mul_le_mul_right _ a
  have e1 : (Z + x) * T * (T + s) = Z * T * (T + s) + x * r * (T + s) + x * m * (T + s) := by rw [← hT]; ring
  have e2 : (A + q) * T * (T + s) = A * T * (T + s) + q * (T + s) * T := by ring
  have e3 : (p + x + d) * m * T + m * (p + x) * s = m * p * (T + s) + m * d * T + x * m * (T + s) := by ring
  omega

/-- **C104, the attacker.** `M` holds `m` of the `T` LP tokens of a pool with reserves `p`, gives the pair `x` of each asset, and
withdraws after `V` has deposited `d`. Compared with withdrawing at the beginning, `m*p/T`, they gain at most the fraction `m/T` of what
`V` loses, `(d*T - (p+x)*s)/(T+s)`, less the part of the gift that falls to the other holders, `x*(T-m)/T`. All of this times
`T*(T+s)`, without subtraction; for each of the two assets. -/
theorem C104_attacker {c : Chain} (hc : c.Lawful) {w w1 w2 w3 : World} {k : PairSite} {M V : Addr} (hM : c.IsUser M)
    (hV : c.IsUser V) (hne : M ≠ V) {x0 x1 : Nat} (hg : Gave k M x0 x1 w w1) (hw1 : Reachable c w1) (hk : k.Sound c w1)
    {assets : Asset × Asset} {tol : Option Nat} {receiver : Option Str} {funds : List Coin} {adv adv' : Adv} {gas gas' : Nat}
    (h2 : runTx c adv gas w1 V (.exec k.a (.provideLiquidity assets tol receiver) funds) = .ok w2) {m : Nat}
    (h3 : runTx c adv' gas' w2 M (.exec k.lt (.send k.a m .withdrawLiquidity) []) = .ok w3) (hm : m ≤ supplyAt w k.lt) :
    let T := supplyAt w k.lt
    let p0 := held w k.i0 k.a
    let p1 := held w k.i1 k.a
    ∃ d0 d1 s, Names k assets d0 d1 ∧ supplyAt w2 k.lt = T + s ∧
      held w3 k.i0 M * T * (T + s) + x0 * (T - m) * (T + s) + m * (p0 + x0) * s ≤
        held w k.i0 M * T * (T + s) + m * p0 * (T + s) + m * d0 * T ∧
      held w3 k.i1 M * T * (T + s) + x1 * (T - m) * (T + s) + m * (p1 + x1) * s ≤
        held w k.i1 M * T * (T + s) + m * p1 * (T + s) + m * d1 * T := by
  intro T p0 p1
  obtain ⟨d0, d1, s, q0, q1, ha, hs, e0, e1, ⟨a0, _⟩, ⟨a1, _⟩⟩ := attack_inv hc hM hV hne hg hw1 hk h2 h3
  exact ⟨d0, d1, s, ha.names, hs, attacker_arith hm e0 a0, attacker_arith hm e1 a1⟩

/-- **C104, alone.** Who holds all LP tokens gains exactly what the depositor loses, up to one unit and rounding: inflating an LP token
costs nothing then. -/
theorem C104_alone {c : Chain} (hc : c.Lawful) {w w1 w2 w3 : World} {k : PairSite} {M V : Addr} (hM : c.IsUser M)
    (hV : c.IsUser V) (hne : M ≠ V) {x0 x1 : Nat} (hg : Gave k M x0 x1 w w1) (hw1 : Reachable c w1) (hk : k.Sound c w1)
    {assets : Asset × Asset} {tol : Option Nat} {receiver : Option Str} {funds : List Coin} {adv adv' : Adv} {gas gas' : Nat}
    (h2 : runTx c adv gas w1 V (.exec k.a (.provideLiquidity assets tol receiver) funds) = .ok w2)
    (h3 : runTx c adv' gas' w2 M (.exec k.lt (.send k.a (supplyAt w k.lt) .withdrawLiquidity) []) = .ok w3) :
    let T := supplyAt w k.lt
    let p0 := held w k.i0 k.a
    let p1 := held w k.i1 k.a
    ∃ d0 d1 s, Names k assets d0 d1 ∧ supplyAt w2 k.lt = T + s ∧
      (held w3 k.i0 M * (T + s) + (p0 + x0) * s ≤ held w k.i0 M * (T + s) + p0 * (T + s) + d0 * T ∧
        (held w k.i0 M * (T + s) + p0 * (T + s) + d0 * T) * 10 ^ 18 <
          ((held w3 k.i0 M + 1) * (T + s) + (p0 + x0) * s) * 10 ^ 18 + (p0 + x0 + d0) * (T + s)) ∧
      (held w3 k.i1 M * (T + s) + (p1 + x1) * s ≤ held w k.i1 M * (T + s) + p1 * (T + s) + d1 * T ∧
        (held w k.i1 M * (T + s) + p1 * (T + s) + d1 * T) * 10 ^ 18 <
          ((held w3 k.i1 M + 1) * (T + s) + (p1 + x1) * s) * 10 ^ 18 + (p1 + x1 + d1) * (T + s)) := by
  intro T p0 p1
  obtain ⟨d0, d1, s, q0, q1, ha, hs, e0, e1, ⟨a0, b0⟩, ⟨a1, b1⟩⟩ := attack_inv hc hM hV hne hg hw1 hk h2 h3
  exact ⟨d0, d1, s, ha.names, hs, key e0 a0 b0, key e1 a1 b1⟩
where
  key {A Z x q p d T s D : Nat} (e : Z + x = A + q) (a : q * (T + s) ≤ (p + x + d) * T)
      (b : (p + x + d) * T * D < (q + 1) * (T + s) * D + (p + x + d) * (T + s)) :
      Z * (T + s) + (p + x) * s ≤ A * (T + s) + p * (T + s) + d * T ∧
      (A * (T + s) + p * (T + s) + d * T) * D < ((Z + 1) * (T + s) + (p + x) * s) * D + (p + x + d) * (T + s) := by
    have e' : (Z + x) * (T + s) = (A + q) * (T + s) := by rw [e]
    have e1 : (Z + x) * (T + s) = Z * (T + s) + x * (T + s) := by ring
    have e2 : (A + q) * (T + s) = A * (T + s) + q * (T + s) := by ring
    have e3 : (p + x + d) * T + (p + x) * s = p * (T + s) + d * T + x * (T + s) := by ring
    refine ⟨by omega, ?_⟩
    have e4 : (Z + x) * (T + s) * D = (A + q) * (T + s) * D := by rw [e]
    have e5 : (A * (T + s) + p * (T + s) + d * T) * D + x * (T + s) * D =
      A * (T + s) * D + (p + x + d) * T * D + (p + x) * s * D := by
      calc _ = (A * (T + s) + (p * (T + s) + d * T + x * (T + s))) * D := by ring
        _ = (A * (T + s) + ((p + x + d) * T + (p + x) * s)) * D := by rw [e3]
        _ = _ := by ring
    have e6 : ((Z + 1) * (T + s) + (p + x) * s) * D + x * (T + s) * D = (Z + x) * (T + s) * D + (T + s) * D + (p + x) * s * D := by ring
    have e7 : (A + q) * (T + s) * D + (T + s) * D = A * (T + s) * D + (q + 1) * (T + s) * D := by ring
    omega

/-- **C104, not alone.** Who holds at most half of the LP tokens cannot profit by giving the pair one LP token's worth or more of an asset
(`p ≤ x*T`): of the asset that decides how many LP tokens the deposit buys they end up with no more than if they had withdrawn at the
beginning. -/
theorem C104_half {c : Chain} (hc : c.Lawful) {w w1 w2 w3 : World} {k : PairSite} {M V : Addr} (hM : c.IsUser M)
    (hV : c.IsUser V) (hne : M ≠ V) {x0 x1 : Nat} (hg : Gave k M x0 x1 w w1) (hw1 : Reachable c w1) (hk : k.Sound c w1)
    {assets : Asset × Asset} {tol : Option Nat} {receiver : Option Str} {funds : List Coin} {adv adv' : Adv} {gas gas' : Nat}
    (h2 : runTx c adv gas w1 V (.exec k.a (.provideLiquidity assets tol receiver) funds) = .ok w2) {m : Nat}
    (h3 : runTx c adv' gas' w2 M (.exec k.lt (.send k.a m .withdrawLiquidity) []) = .ok w3) (hm : 2 * m ≤ supplyAt w k.lt)
    (hT : supplyAt w k.lt ≠ 0) :
    let T := supplyAt w k.lt
    let p0 := held w k.i0 k.a
    let p1 := held w k.i1 k.a
    ∃ d0 d1 s, Names k assets d0 d1 ∧ supplyAt w2 k.lt = T + s ∧
      (d0 * T < (s + 1) * (p0 + x0) ∨ d1 * T < (s + 1) * (p1 + x1)) ∧
      (d0 * T < (s + 1) * (p0 + x0) → p0 ≤ x0 * T → held w3 k.i0 M * T ≤ held w k.i0 M * T + m * p0) ∧
      (d1 * T < (s + 1) * (p1 + x1) → p1 ≤ x1 * T → held w3 k.i1 M * T ≤ held w k.i1 M * T + m * p1) := by
  intro T p0 p1
  obtain ⟨d0, d1, s, q0, q1, ha, hs, e0, e1, ⟨a0, _⟩, ⟨a1, _⟩⟩ := attack_inv hc hM hV hne hg hw1 hk h2 h3
  have hT1 : supplyAt w1 k.lt ≠ 0 := by rw [hg.supply]; exact hT
  obtain ⟨n0, n1, _, _, hmin⟩ := ha.worth.later hT1
  rw [hg.supply, hg.pair0, hg.pair1] at hmin
  rw [hg.pair0] at n0
  rw [hg.pair1] at n1
  have hpos : 1 ≤ s := Nat.pos_of_ne_zero ha.pos
  refine ⟨d0, d1, s, ha.names, hs, ?_, fun h hx => ?_, fun h hx => ?_⟩
  · rcases Nat.le_total (d0 * T / (p0 + x0)) (d1 * T / (p1 + x1)) with h | h
    · left
      rw [min_eq_left h] at hmin
      exact (Nat.div_lt_iff_lt_mul (Nat.pos_of_ne_zero n0)).mp (Nat.lt_succ_of_le (Nat.le_of_eq hmin.symm))
    · right
      rw [min_eq_right h] at hmin
      exact (Nat.div_lt_iff_lt_mul (Nat.pos_of_ne_zero n1)).mp (Nat.lt_succ_of_le (Nat.le_of_eq hmin.symm))
  · exact key hpos hm h hx (attacker_arith (by omega) e0 a0)
  · exact key hpos hm h hx (attacker_arith (by omega) e1 a1)
where
  key {A Z x p d T s m : Nat} (hs : 1 ≤ s) (hm : 2 * m ≤ T) (hb : d * T < (s + 1) * (p + x)) (hx : p ≤ x * T)
      (h : Z * T * (T + s) + x * (T - m) * (T + s) + m * (p + x) * s ≤ A * T * (T + s) + m * p * (T + s) + m * d * T) :
      Z * T ≤ A * T + m * p := by
    have b1 : m * (d * T) ≤ m * ((s + 1) * (p + x)) := Nat.mul_le_mul_left _ hb.le
    have b2 : m * d * T = m * (d * T) := by ring
    have b3 : m * ((s + 1) * (p + x)) = m * (p + x) * s + m * (p + x) := by ring
    have b4 : m * (p + x) ≤ x * (T - m) * (T + s) := by
      calc m * (p + x) ≤ m * (x * T + x) := Nat.mul_le_mul_left _ (by omega)
        _ = x * m * (T + 1) := by ring
        _ ≤ x * (T - m) * (T + s) := Nat.mul_le_mul (Nat.mul_le_mul_left _ (by omega)) (by omega)
    have b5 : Z * T * (T + s) ≤ (A * T + m * p) * (T + s) := by
      have : (A * T + m * p) * (T + s) = A * T * (T + s) + m * p * (T + s) := by ring
      omega
    exact Nat.le_of_mul_le_mul_right b5 (by omega)

namespace Demo

example := C104_victim lawful trapped_reachable sound_trapped isUser_user2 caught_run (s := 1) (by decide +kernel)
  escaped_run (by decide +kernel)

/-- Before the trap is set: `user` has the only LP token left, worth 1 A and 2 B. -/
def lastOne : World := worldOf (runsBy (trap.take 1) deployed)
example : siteAB.pool lastOne = ⟨1, 2, 1⟩ := by decide +kernel
theorem gave_trapped : Gave siteAB user 9999 19998 lastOne trapped :=
  ⟨by decide +kernel, by decide +kernel, by decide +kernel, by decide +kernel, by decide +kernel⟩
/-- `user` takes the LP token out after `user2` was caught. -/
def reaped : World := worldOf (runTx chain idle 20 caught user (.exec lpAB (.send pAB 1 .withdrawLiquidity) []))
theorem reaped_run : runTx chain idle 20 caught user (.exec lpAB (.send pAB 1 .withdrawLiquidity) []) = .ok reaped :=
  worldOf_eq (by decide +kernel)
example := C104_attacker lawful isUser_user isUser_user2 (by decide) gave_trapped trapped_reachable sound_trapped caught_run reaped_run
  (by decide +kernel)
example := C104_alone lawful isUser_user isUser_user2 (by decide) gave_trapped trapped_reachable sound_trapped caught_run
  (w3 := reaped) (gas' := 20) (adv' := idle) (by rw [show supplyAt lastOne siteAB.lt = 1 by decide +kernel]; exact reaped_run)
/-- The LP token was worth 1 A and 2 B; `user` has 4999 A and 9999 B more than that now, all of it from `user2`. -/
example : held reaped (.token tA) user = held lastOne (.token tA) user + 1 + 4999 ∧
    held reaped (.token tB) user = held lastOne (.token tB) user + 2 + 9999 := by decide +kernel

/-- `user` keeps 20 LP tokens and inflates each to 1500 A and 1500 B. `user2` deposits 2999 of both and gets one. -/
def dear : List (Addr × CosmosMsg) :=
  [(user, .exec lpAB (.send pAB 14122 .withdrawLiquidity) []), (user, .exec tA (.transfer pAB 29985) []),
   (user, .exec tB (.transfer pAB 29971) []), (user, .exec tA (.mint user2 2999) []), (user, .exec tB (.mint user2 2999) []),
   (user2, .exec tA (.increaseAllowance pAB 40000 none) []), (user2, .exec tB (.increaseAllowance pAB 40000 none) []),
   (user2, .exec pAB (.provideLiquidity (⟨.token tA, 2999⟩, ⟨.token tB, 2999⟩) (some 0) none) []),
   (user2, .exec lpAB (.send pAB 1 .withdrawLiquidity) [])]
example : siteAB.pool (worldOf (runsBy (dear.take 7) deployed)) = ⟨30000, 30000, 20⟩ := by decide +kernel
/-- Nearly half is gone, in spite of the tolerance of zero: the bound of `C104_victim` is sharp for large `T`. -/
example : held (worldOf (runsBy dear deployed)) (.token tA) user2 = 1571 ∧
    held (worldOf (runsBy dear deployed)) (.token tB) user2 = 1571 := by decide +kernel

/-- `user2` owns most of the LP tokens; `user` has 4142 of 14142. -/
def minorShare : World := worldOf (runsBy [(user, .exec lpAB (.transfer user2 10000) []), (user, .exec tA (.mint user2 3000) []),
  (user, .exec tB (.mint user2 3000) []), (user2, .exec tA (.increaseAllowance pAB 40000 none) []),
  (user2, .exec tB (.increaseAllowance pAB 40000 none) [])] deployed)
theorem minorShare_run : runsBy [(user, .exec lpAB (.transfer user2 10000) []), (user, .exec tA (.mint user2 3000) []),
    (user, .exec tB (.mint user2 3000) []), (user2, .exec tA (.increaseAllowance pAB 40000 none) []),
    (user2, .exec tB (.increaseAllowance pAB 40000 none) [])] deployed = .ok minorShare := worldOf_eq (by decide +kernel)
/-- `user` gives the pair half as much as it has. -/
def puffed : World := worldOf (runsBy [(user, .exec tA (.transfer pAB 5000) []), (user, .exec tB (.transfer pAB 10000) [])] minorShare)
theorem puffed_run : runsBy [(user, .exec tA (.transfer pAB 5000) []), (user, .exec tB (.transfer pAB 10000) [])] minorShare = .ok puffed :=
  worldOf_eq (by decide +kernel)
theorem puffed_reachable : Reachable chain puffed :=
  (deployed_reachable.later (later_runsBy (by decide) minorShare_run)).later (later_runsBy (by decide) puffed_run)
theorem sound_puffed : siteAB.Sound chain puffed :=
  sound_of (k := siteAB) (x := tA) (y := tB) (by decide +kernel) ⟨rfl, rfl, rfl⟩ rfl rfl (by decide +kernel) (by decide +kernel)
theorem gave_puffed : Gave siteAB user 5000 10000 minorShare puffed :=
  ⟨by decide +kernel, by decide +kernel, by decide +kernel, by decide +kernel, by decide +kernel⟩
def joinPuffed : CosmosMsg := .exec pAB (.provideLiquidity (⟨.token tA, 1501⟩, ⟨.token tB, 3000⟩) none none) []
def joined : World := worldOf (runTx chain idle 20 puffed user2 joinPuffed)
theorem joined_run : runTx chain idle 20 puffed user2 joinPuffed = .ok joined := worldOf_eq (by decide +kernel)
def parted : World := worldOf (runTx chain idle 20 joined user (.exec lpAB (.send pAB 4142 .withdrawLiquidity) []))
theorem parted_run : runTx chain idle 20 joined user (.exec lpAB (.send pAB 4142 .withdrawLiquidity) []) = .ok parted :=
  worldOf_eq (by decide +kernel)
example := C104_half lawful isUser_user isUser_user2 (by decide) gave_puffed puffed_reachable sound_puffed joined_run parted_run
  (by decide +kernel) (by decide +kernel)
/-- Withdrawing at the beginning would have paid 2928 A. -/
example : held minorShare (.token tA) user = 40000 ∧ held parted (.token tA) user = 39393 := by decide +kernel

end Demo

end Halo
